import Verif.Base.Py

/-!
# The HTML representation of a container

Model of `_generate_html_repr`, `_generate_field_html` and `_generate_array_html` (container.py:695-751).

Simplifications.
* The page is what is below the header; the attribute `style`, which has only numbers, is left out.
* Values with their own representation (`generate_html_repr`, `__repr_html__`) are not modelled.  A container that is a field of another makes the page of that field with
the method of its class, which is the same.
* Containers form a tree: no container is a field of itself.
-/

namespace Verif.Html
open Verif

/-- text (container.py:719-721) -/
abbrev Text := List Char

/-- a key of a dictionary: a string or a number; names of fields are strings (container.py:699-700) -/
inductive Key where
  | str (s : Text)
  | int (n : Nat)
  deriving DecidableEq

/-- what an f-string makes of a key (container.py:701, 720, 738) -/
def Key.text : Key → Text
  | .str s => s
  | .int n => Nat.toDigits 10 n

mutual
/-- a value: a number, string or flag with its `str`; another object with its `str`; an array with its `str`; a container; a dictionary; a list
(container.py:719-736) -/
inductive Val where
  | scalar (s : Text)
  | other (s : Text)
  | arr (s : Text)
  | cont (fs : Fields)
  | dict (fs : Fields)
  | list (l : Vals)
/-- fields of a container or items of a dictionary (container.py:699-700) -/
inductive Fields where
  | nil
  | cons (k : Key) (v : Val) (rest : Fields)
/-- elements of a list (container.py:706-707) -/
inductive Vals where
  | nil
  | cons (v : Val) (rest : Vals)
end

/-- a step of an access code: `.name`, `['key']` or `[index]` (container.py:701, 708) -/
inductive Step where
  | attr (k : Text)
  | item (k : Text)
  | idx (i : Nat)
  deriving DecidableEq

/-- the text of a step (container.py:701, 708) -/
def Step.text : Step → Text
  | .attr k => '.' :: k
  | .item k => '[' :: '\'' :: k ++ ['\'', ']']
  | .idx i => '[' :: Nat.toDigits 10 i ++ [']']

/-- an access code (container.py:701, 708) -/
abbrev Code := List Step

/-- the text of an access code (container.py:701, 708) -/
def codeText (c : Code) : Text := c.flatMap Step.text

mutual
/-- a piece of the page: a line for a scalar (container.py:720-721), a part that opens (container.py:737-742), a span (container.py:736), an array (container.py:749-750) -/
inductive Node where
  | row (code : Code) (key text : Text)
  | details (code : Code) (key : Text) (body : Nodes)
  | span (text : Text)
  | arr (text : Text)
/-- pieces one after the other (container.py:703-705, 709) -/
inductive Nodes where
  | nil
  | cons (n : Node) (rest : Nodes)
end

mutual
/-- `_generate_field_html` (container.py:714-744) -/
def field (key : Text) (code : Code) : Val → Node
  | .scalar s => .row code key s
  | .other s => .details code key (.cons (.span s) .nil)
  | .arr s => .details code key (.cons (.arr s) .nil)
  | .cont fs => .details code key (dictNodes true code fs)
  | .dict fs => .details code key (dictNodes false code fs)
  | .list l => .details code key (listNodes code 0 l)
/-- `_generate_html_repr` of a dictionary (container.py:699-705) -/
def dictNodes (isField : Bool) (code : Code) : Fields → Nodes
  | .nil => .nil
  | .cons k v rest => .cons (field k.text (code ++ [if isField then .attr k.text else .item k.text]) v) (dictNodes isField code rest)
/-- `_generate_html_repr` of a list: the index is added to the access code, which is the one for the next element (container.py:706-709) -/
def listNodes (code : Code) (i : Nat) : Vals → Nodes
  | .nil => .nil
  | .cons v rest => .cons (field (Nat.toDigits 10 i) (code ++ [.idx i]) v) (listNodes (code ++ [.idx i]) (i + 1) rest)
end

/-- the page of a container with these fields (container.py:685-693) -/
def page (fs : Fields) : Nodes := dictNodes true [] fs

/-- `str_.replace("\n", "</br>")` (container.py:748) -/
def breaks : Text → Text
  | [] => []
  | c :: cs => if c = '\n' then '<' :: '/' :: 'b' :: 'r' :: '>' :: breaks cs else c :: breaks cs

/-- text of the program (container.py:720) -/
def lRow1 : Text := "<div class=\"container-fields\">".toList
/-- text of the program (container.py:720-721) -/
def lKey : Text := "<span class=\"field-key\" title=\"".toList
/-- text of the program (container.py:721, 739) -/
def lEnd : Text := "\">".toList
/-- text of the program (container.py:721) -/
def lValue : Text := "<span class=\"field-value\">".toList
/-- text of the program (container.py:738) -/
def lDetails : Text := "<details>".toList
/-- text of the program (container.py:738-739) -/
def lSummary : Text := "<summary class=\"container-fields field-key\" title=\"".toList
/-- text of the program (container.py:736) -/
def lSpan : Text := "<span class=\"field-key\">".toList

mutual
/-- the text of a piece (container.py:720-721, 736-744, 746-750) -/
def render : Node → Text
  | .row c k t => lRow1 ++ (lKey ++ codeText c ++ lEnd ++ (k ++ ": ".toList) ++ "</span>".toList ++ (lValue ++ t ++ "</span>".toList)) ++ "</div>".toList
  | .details c k b => lDetails ++ ((lSummary ++ codeText c ++ lEnd ++ ("<b>".toList ++ k ++ "</b>".toList) ++ "</summary>".toList) ++ renders b) ++ "</details>".toList
  | .span t => lSpan ++ t ++ "</span>".toList
  | .arr t => lRow1 ++ breaks t ++ "</div>".toList
/-- the text of pieces (container.py:703-705, 709) -/
def renders : Nodes → Text
  | .nil => []
  | .cons n rest => render n ++ renders rest
end

end Verif.Html
