import Verif.Model.Html

/-!
# Theorems about the HTML representation of a container (C230, C231)
-/

namespace Verif.Html
open Verif

/-! ### Access codes -/

/-- the item with a key -/
def Fields.lookup : Fields → Key → Option Val
  | .nil, _ => none
  | .cons k v rest, q => if k = q then some v else rest.lookup q

/-- an element of a list -/
def Vals.nth : Vals → Nat → Option Val
  | .nil, _ => none
  | .cons v _, 0 => some v
  | .cons _ rest, i + 1 => rest.nth i

/-- what one step of an access code gives: an attribute of a container, an item of a dictionary, an element of a list -/
def Val.get : Val → Step → Option Val
  | .cont fs, .attr k => fs.lookup (.str k)
  | .dict fs, .item k => fs.lookup (.str k)
  | .list l, .idx i => l.nth i
  | _, _ => none

/-- what an access code gives -/
def Val.eval : Val → Code → Option Val
  | v, [] => some v
  | v, s :: c => match v.get s with
    | some w => w.eval c
    | none => none

/-- what is shown beside the name: a scalar is shown, other values open -/
def Val.shown : Val → Option Text
  | .scalar s => some s
  | _ => none

mutual
/-- the access codes on the page with what is shown beside each -/
def Node.rows : Node → List (Code × Option Text)
  | .row c _ t => [(c, some t)]
  | .details c _ b => (c, none) :: b.rows
  | .span _ => []
  | .arr _ => []
/-- the same for several pieces -/
def Nodes.rows : Nodes → List (Code × Option Text)
  | .nil => []
  | .cons n rest => n.rows ++ rest.rows
end

/-- the keys of a dictionary -/
def Fields.keys : Fields → List Key
  | .nil => []
  | .cons k _ rest => k :: rest.keys

mutual
/-- keys are strings and not repeated, lists have at most one element, and so in all values inside -/
def Simple : Val → Prop
  | .cont fs => fs.keys.Nodup ∧ SimpleF fs
  | .dict fs => fs.keys.Nodup ∧ SimpleF fs
  | .list .nil => True
  | .list (.cons v .nil) => Simple v
  | .list (.cons _ (.cons _ _)) => False
  | _ => True
/-- the same for each field -/
def SimpleF : Fields → Prop
  | .nil => True
  | .cons k v rest => (∃ s, k = .str s) ∧ Simple v ∧ SimpleF rest
end

theorem lookup_mem {fs : Fields} {k : Key} {v : Val} (h : fs.lookup k = some v) : k ∈ fs.keys := by
  match fs with
  | .nil => cases h
  | .cons q w rest =>
    unfold Fields.lookup at h
    split at h
    · rename_i e; subst e; exact List.mem_cons_self
    · exact List.mem_cons_of_mem _ (lookup_mem h)

/-- the step to a field -/
def mkStep (b : Bool) (k : Text) : Step := if b then .attr k else .item k

mutual
theorem field_rows (key : Text) (code : Code) (v : Val) (h : Simple v) (c : Code) (t : Option Text) :
    (c, t) ∈ (field key code v).rows ↔ ∃ p w, c = code ++ p ∧ v.eval p = some w ∧ t = w.shown := by
  have leaf : ∀ (v : Val), (∀ s, v.get s = none) → ((∃ p w, c = code ++ p ∧ v.eval p = some w ∧ t = w.shown) ↔ c = code ∧ t = v.shown) := by
    intro v hv
    constructor
    · rintro ⟨p, w, rfl, he, rfl⟩
      cases p with
      | nil => cases he; simp
      | cons s p => simp [Val.eval, hv] at he
    · rintro ⟨rfl, rfl⟩
      exact ⟨[], v, by simp, rfl, rfl⟩
  have split : ∀ (v : Val), v.shown = none → ((∃ p w, c = code ++ p ∧ v.eval p = some w ∧ t = w.shown) ↔
      (c, t) = (code, none) ∨ ∃ s p x w, c = code ++ s :: p ∧ v.get s = some x ∧ x.eval p = some w ∧ t = w.shown) := by
    intro v hs
    constructor
    · rintro ⟨p, w, rfl, he, rfl⟩
      cases p with
      | nil => cases he; left; simp [hs]
      | cons s p =>
        right
        unfold Val.eval at he
        cases hg : v.get s with
        | none => simp [hg] at he
        | some x => simp only [hg] at he; exact ⟨s, p, x, w, rfl, hg, he, rfl⟩
    · rintro (e | ⟨s, p, x, w, rfl, hg, he, rfl⟩)
      · cases e; exact ⟨[], v, by simp, rfl, hs.symm⟩
      · exact ⟨s :: p, w, rfl, by unfold Val.eval; simp only [hg]; exact he, rfl⟩
  match v with
  | .scalar s =>
    rw [leaf _ (by intro x; cases x <;> rfl)]
    simp [field, Node.rows, Val.shown]
  | .other s =>
    rw [leaf _ (by intro x; cases x <;> rfl)]
    simp [field, Node.rows, Nodes.rows, Val.shown]
  | .arr s =>
    rw [leaf _ (by intro x; cases x <;> rfl)]
    simp [field, Node.rows, Nodes.rows, Val.shown]
  | .cont fs =>
    unfold Simple at h
    rw [split _ rfl]
    unfold field Node.rows
    rw [List.mem_cons, dict_rows true code fs h.1 h.2 c t]
    apply or_congr Iff.rfl
    constructor
    · rintro ⟨k, p, x, w, rfl, hl, he, rfl⟩; exact ⟨.attr k, p, x, w, rfl, hl, he, rfl⟩
    · rintro ⟨s, p, x, w, rfl, hl, he, rfl⟩
      cases s with
      | attr k => exact ⟨k, p, x, w, rfl, hl, he, rfl⟩
      | item k => cases hl
      | idx k => cases hl
  | .dict fs =>
    unfold Simple at h
    rw [split _ rfl]
    unfold field Node.rows
    rw [List.mem_cons, dict_rows false code fs h.1 h.2 c t]
    apply or_congr Iff.rfl
    constructor
    · rintro ⟨k, p, x, w, rfl, hl, he, rfl⟩; exact ⟨.item k, p, x, w, rfl, hl, he, rfl⟩
    · rintro ⟨s, p, x, w, rfl, hl, he, rfl⟩
      cases s with
      | attr k => cases hl
      | item k => exact ⟨k, p, x, w, rfl, hl, he, rfl⟩
      | idx k => cases hl
  | .list .nil =>
    rw [leaf _ (by intro x; cases x <;> rfl)]
    simp [field, Node.rows, Nodes.rows, Val.shown, listNodes]
  | .list (.cons v .nil) =>
    rw [split _ rfl]
    unfold Simple at h
    have ih := field_rows (Nat.toDigits 10 0) (code ++ [.idx 0]) v h c t
    unfold field Node.rows listNodes listNodes Nodes.rows Nodes.rows
    rw [List.mem_cons, List.append_nil, ih]
    apply or_congr Iff.rfl
    constructor
    · rintro ⟨p, w, rfl, he, rfl⟩; exact ⟨.idx 0, p, v, w, by simp, rfl, he, rfl⟩
    · rintro ⟨s, p, x, w, rfl, hl, he, rfl⟩
      cases s with
      | attr k => cases hl
      | item k => cases hl
      | idx k =>
        cases k with
        | zero => cases hl; exact ⟨p, w, by simp, he, rfl⟩
        | succ k => cases hl
  | .list (.cons _ (.cons _ _)) => unfold Simple at h; exact h.elim
theorem dict_rows (b : Bool) (code : Code) (fs : Fields) (hn : fs.keys.Nodup) (h : SimpleF fs) (c : Code) (t : Option Text) :
    (c, t) ∈ (dictNodes b code fs).rows ↔ ∃ k p x w, c = code ++ mkStep b k :: p ∧ fs.lookup (.str k) = some x ∧ x.eval p = some w ∧ t = w.shown := by
  match fs with
  | .nil =>
    unfold dictNodes Nodes.rows
    constructor
    · intro h; cases h
    · rintro ⟨k, p, x, w, -, hl, -⟩; cases hl
  | .cons k v rest =>
    unfold SimpleF at h
    obtain ⟨⟨s, rfl⟩, hv, hr⟩ := h
    have hn' := List.nodup_cons.1 hn
    unfold dictNodes Nodes.rows
    rw [List.mem_append, field_rows _ _ v hv c t, dict_rows b code rest hn'.2 hr c t]
    constructor
    · rintro (⟨p, w, rfl, he, rfl⟩ | ⟨k, p, x, w, rfl, hl, he, rfl⟩)
      · exact ⟨s, p, v, w, by simp [mkStep, Key.text], by unfold Fields.lookup; rw [if_pos rfl], he, rfl⟩
      · refine ⟨k, p, x, w, rfl, ?_, he, rfl⟩
        unfold Fields.lookup
        have hne : ¬ Key.str s = Key.str k := fun e => hn'.1 (by rw [e]; exact lookup_mem hl)
        rw [if_neg hne]
        exact hl
    · rintro ⟨k, p, x, w, rfl, hl, he, rfl⟩
      unfold Fields.lookup at hl
      split at hl
      · rename_i e
        cases e; cases hl
        exact .inl ⟨p, w, by simp [mkStep, Key.text], he, rfl⟩
      · exact .inr ⟨k, p, x, w, rfl, hl, he, rfl⟩
end

/-- the access codes on the page are exactly those that give a value, each with the scalar that it gives, if there is one; for containers in which no list has more than
one element and keys are strings -/
theorem C230_codes_partial (fs : Fields) (h : Simple (.cont fs)) (c : Code) (t : Option Text) :
    (c, t) ∈ (page fs).rows ↔ c ≠ [] ∧ ∃ w, (Val.cont fs).eval c = some w ∧ t = w.shown := by
  unfold Simple at h
  unfold page
  rw [dict_rows true [] fs h.1 h.2 c t]
  constructor
  · rintro ⟨k, p, x, w, rfl, hl, he, rfl⟩
    refine ⟨by simp, w, ?_, rfl⟩
    show (match (Val.cont fs).get (.attr k) with
      | some w => w.eval p
      | none => none) = _
    have : (Val.cont fs).get (.attr k) = some x := hl
    rw [this]
    exact he
  · rintro ⟨hc, w, he, rfl⟩
    cases c with
    | nil => exact (hc rfl).elim
    | cons s p =>
      unfold Val.eval at he
      cases s with
      | attr k =>
        cases hl : fs.lookup (.str k) with
        | none => simp [Val.get, hl] at he
        | some x => exact ⟨k, p, x, w, rfl, hl, by simpa [Val.get, hl] using he, rfl⟩
      | item k => simp [Val.get] at he
      | idx k => simp [Val.get] at he

/-- a container with a string, a dictionary with a number and a container, and a list of one number -/
def demo : Fields := .cons (.str "a".toList) (.scalar "x".toList) (.cons (.str "d".toList) (.dict (.cons (.str "k".toList) (.scalar "1".toList)
  (.cons (.str "c".toList) (.cont (.cons (.str "e".toList) (.arr "[1 2]".toList) .nil)) .nil))) (.cons (.str "l".toList) (.list (.cons (.scalar "5".toList) .nil)) .nil))

example : Simple (.cont demo) ∧ (page demo).rows.map (fun r => (String.ofList (codeText r.1), r.2.map String.ofList)) =
    [(".a", some "x"), (".d", none), (".d['k']", some "1"), (".d['c']", none), (".d['c'].e", none), (".l", none), (".l[0]", some "5")] := by
  refine ⟨?_, by decide +kernel⟩
  simp [Simple, SimpleF, demo, Fields.keys]

/-- the second element of a list is shown with an access code that is the one of an element of the first: it gives nothing, or another value -/
theorem C230_list_fails : let fs : Fields := .cons (.str "l".toList) (.list (.cons (.scalar "5".toList) (.cons (.scalar "6".toList) .nil))) .nil
    ((page fs).rows.map fun r => (String.ofList (codeText r.1), r.2.map String.ofList)) = [(".l", none), (".l[0]", some "5"), (".l[0][1]", some "6")] ∧
    ((Val.cont fs).eval [.attr "l".toList, .idx 0, .idx 1]).isNone = true := by decide +kernel

/-- in a list of lists the access code gives a value that is not the one shown -/
theorem C230_nested_fails : let fs : Fields := .cons (.str "l".toList) (.list (.cons (.list (.cons (.scalar "1".toList) (.cons (.scalar "2".toList) .nil))) (.cons (.scalar "6".toList) .nil))) .nil
    (([.attr "l".toList, .idx 0, .idx 1], some "6".toList) : Code × Option Text) ∈ (page fs).rows ∧
    ((Val.cont fs).eval [.attr "l".toList, .idx 0, .idx 1]).bind Val.shown = some "2".toList := by decide +kernel

/-- a number as key is shown as a string -/
theorem C230_number_fails : let fs : Fields := .cons (.str "d".toList) (.dict (.cons (.int 3) (.scalar "6".toList) .nil)) .nil
    ((page fs).rows.map fun r => String.ofList (codeText r.1)) = [".d", ".d['3']"] ∧ ((Val.cont fs).eval [.attr "d".toList, .item "3".toList]).isNone = true := by decide +kernel

/-- a key with quotes has the text of two other keys -/
theorem C230_quote_fails : codeText [.attr "d".toList, .item "a']['b".toList] = codeText [.attr "d".toList, .item "a".toList, .item "b".toList] := by decide +kernel

/-! ### The page as a browser reads it -/

/-- what a browser reads: a character of the text, or a tag with its name -/
inductive Tok where
  | ch (c : Char)
  | tag (name : Text)
  deriving DecidableEq

/-- where a browser is: in the text, in a tag (is the name complete?), in an attribute -/
inductive St where
  | text
  | tag (name : Text) (done : Bool)
  | quoted (name : Text)
  deriving DecidableEq

/-- one character -/
def read (s : St) (c : Char) : St × List Tok := match s with
  | .text => if c = '<' then (.tag [] false, []) else (.text, [.ch c])
  | .tag nm d => if c = '>' then (.text, [.tag nm]) else if c = '"' then (.quoted nm, []) else if c = ' ' then (.tag nm true, []) else (.tag (if d then nm else nm ++ [c]) d, [])
  | .quoted nm => if c = '"' then (.tag nm true, []) else (.quoted nm, [])

/-- all characters -/
def lex : St → Text → St × List Tok
  | s, [] => (s, [])
  | s, c :: cs => ((lex (read s c).1 cs).1, (read s c).2 ++ (lex (read s c).1 cs).2)

/-- the tags that are open after reading; `none` if a tag is closed that is not the last one opened -/
def openTags : List Tok → List Text → Option (List Text)
  | [], st => some st
  | .ch _ :: ts, st => openTags ts st
  | .tag ('/' :: nm) :: ts, st => match st with
    | top :: st' => if top = nm then openTags ts st' else none
    | [] => none
  | .tag nm :: ts, st => openTags ts (nm :: st)

/-- the text that is seen -/
def seen : List Tok → Text
  | [] => []
  | .ch c :: ts => c :: seen ts
  | .tag _ :: ts => seen ts

/-- each tag is closed, in the right order, and the text `vis` is seen -/
def Shows (cs vis : Text) : Prop := ∃ ts, lex .text cs = (.text, ts) ∧ (∀ st, openTags ts st = some st) ∧ seen ts = vis

mutual
/-- the text that should be seen for a value with a name -/
def fieldText (key : Text) : Val → Text
  | .scalar s => key ++ ": ".toList ++ s
  | .other s => key ++ s
  | .arr s => key ++ s
  | .cont fs => key ++ fieldsText fs
  | .dict fs => key ++ fieldsText fs
  | .list l => key ++ valsText 0 l
/-- the same for fields -/
def fieldsText : Fields → Text
  | .nil => []
  | .cons k v rest => fieldText k.text v ++ fieldsText rest
/-- the same for a list -/
def valsText (i : Nat) : Vals → Text
  | .nil => []
  | .cons v rest => fieldText (Nat.toDigits 10 i) v ++ valsText (i + 1) rest
end

/-- has no character that begins a tag -/
def Plain (s : Text) : Prop := '<' ∉ s

mutual
/-- no value has the character that begins a tag, no name has this or a double quote, and no array is shown in several lines -/
def Clean : Val → Prop
  | .scalar s => Plain s
  | .other s => Plain s
  | .arr s => Plain s ∧ '\n' ∉ s
  | .cont fs => CleanF fs
  | .dict fs => CleanF fs
  | .list l => CleanL l
/-- the same for fields -/
def CleanF : Fields → Prop
  | .nil => True
  | .cons k v rest => (Plain k.text ∧ '"' ∉ k.text) ∧ Clean v ∧ CleanF rest
/-- the same for a list -/
def CleanL : Vals → Prop
  | .nil => True
  | .cons v rest => Clean v ∧ CleanL rest
end

theorem lex_append (s : St) (a b : Text) : lex s (a ++ b) = ((lex (lex s a).1 b).1, (lex s a).2 ++ (lex (lex s a).1 b).2) := by
  induction a generalizing s with
  | nil => rfl
  | cons c a ih => simp [lex, ih]

theorem openTags_append (a b : List Tok) (st : List Text) : openTags (a ++ b) st = (openTags a st).bind (openTags b) := by
  fun_induction openTags a st <;> simp_all [openTags]

theorem seen_append (a b : List Tok) : seen (a ++ b) = seen a ++ seen b := by
  induction a with
  | nil => rfl
  | cons t a ih => cases t <;> simp [seen, ih]

theorem shows_append {a b u v : Text} (ha : Shows a u) (hb : Shows b v) : Shows (a ++ b) (u ++ v) := by
  obtain ⟨ta, h1, h2, h3⟩ := ha
  obtain ⟨tb, h4, h5, h6⟩ := hb
  refine ⟨ta ++ tb, by rw [lex_append, h1, h4], fun st => by rw [openTags_append, h2]; exact h5 st, by rw [seen_append, h3, h6]⟩

theorem shows_nil : Shows [] [] := ⟨[], rfl, fun _ => rfl, rfl⟩

theorem shows_text {s : Text} (h : Plain s) : Shows s s := by
  induction s with
  | nil => exact shows_nil
  | cons c s ih =>
    have hc : c ≠ '<' := fun e => h (e ▸ List.mem_cons_self)
    have := shows_append (a := [c]) (u := [c]) ⟨[.ch c], by simp [lex, read, hc], fun _ => rfl, rfl⟩ (ih fun e => h (List.mem_cons_of_mem _ e))
    exact this

/-- text between a tag and its end -/
theorem shows_elem {o c body vis nm : Text} (ho : lex .text o = (.text, [.tag nm])) (hn : nm.head? ≠ some '/') (hc : lex .text c = (.text, [.tag ('/' :: nm)]))
    (hb : Shows body vis) : Shows (o ++ body ++ c) vis := by
  obtain ⟨ts, h1, h2, h3⟩ := hb
  refine ⟨[.tag nm] ++ ts ++ [.tag ('/' :: nm)], ?_, ?_, ?_⟩
  · rw [lex_append, lex_append, ho, h1, hc]
  · intro st
    rw [openTags_append, openTags_append]
    have : openTags [.tag nm] st = some (nm :: st) := by
      cases nm with
      | nil => rfl
      | cons x nm =>
        have hx : x ≠ '/' := by simpa using hn
        unfold openTags
        split <;> simp_all [openTags]
    rw [this]
    simp [h2, openTags]
  · rw [seen_append, seen_append, h3]
    simp [seen]

theorem lex_quoted {nm code : Text} (h : '"' ∉ code) : lex (.quoted nm) code = (.quoted nm, []) := by
  induction code with
  | nil => rfl
  | cons c code ih =>
    have hc : c ≠ '"' := fun e => h (e ▸ List.mem_cons_self)
    simp [lex, read, hc, ih fun e => h (List.mem_cons_of_mem _ e)]

theorem lex_open {pre nm code : Text} (hp : lex .text pre = (.quoted nm, [])) (h : '"' ∉ code) : lex .text (pre ++ code ++ lEnd) = (.text, [.tag nm]) := by
  rw [lex_append, lex_append, hp]
  simp only [lex_quoted h]
  have : lEnd = ['"', '>'] := by decide +kernel
  rw [this]
  simp [lex, read]

theorem digit_ne {n : Nat} {c : Char} (hc : c.isDigit = false) : c ∉ Nat.toDigits 10 n := by
  intro h
  rw [Nat.isDigit_of_mem_toDigits (by decide) (by decide) h] at hc
  cases hc

theorem codeText_append (a b : Code) : codeText (a ++ b) = codeText a ++ codeText b := by simp [codeText]

theorem breaks_id {s : Text} (h : '\n' ∉ s) : breaks s = s := by
  induction s with
  | nil => rfl
  | cons c s ih =>
    have hc : c ≠ '\n' := fun e => h (e ▸ List.mem_cons_self)
    unfold breaks
    rw [if_neg hc, ih fun e => h (List.mem_cons_of_mem _ e)]

theorem shows_details {code : Code} {key : Text} {b : Nodes} {vis : Text} (hc : '"' ∉ codeText code) (hk : Plain key) (hb : Shows (renders b) vis) :
    Shows (render (.details code key b)) (key ++ vis) := by
  unfold render
  refine shows_elem (nm := "details".toList) (by decide +kernel) (by decide +kernel) (by decide +kernel) (shows_append ?_ hb)
  refine shows_elem (nm := "summary".toList) (lex_open (by decide +kernel) hc) (by decide +kernel) (by decide +kernel) ?_
  exact shows_elem (nm := "b".toList) (by decide +kernel) (by decide +kernel) (by decide +kernel) (shows_text hk)

mutual
theorem field_shows (key : Text) (code : Code) (v : Val) (h : Clean v) (hk : Plain key) (hc : '"' ∉ codeText code) :
    Shows (render (field key code v)) (fieldText key v) := by
  match v with
  | .scalar s =>
    unfold Clean at h
    unfold field render fieldText
    refine shows_elem (nm := "div".toList) (by decide +kernel) (by decide +kernel) (by decide +kernel) (shows_append ?_ ?_)
    · refine shows_elem (nm := "span".toList) (lex_open (by decide +kernel) hc) (by decide +kernel) (by decide +kernel) (shows_text ?_)
      intro e
      rcases List.mem_append.1 e with e | e
      · exact hk e
      · exact absurd e (by decide +kernel)
    · exact shows_elem (nm := "span".toList) (by decide +kernel) (by decide +kernel) (by decide +kernel) (shows_text h)
  | .other s =>
    unfold Clean at h
    unfold field fieldText
    refine shows_details hc hk ?_
    unfold renders renders render
    rw [List.append_nil]
    exact shows_elem (nm := "span".toList) (by decide +kernel) (by decide +kernel) (by decide +kernel) (shows_text h)
  | .arr s =>
    unfold Clean at h
    unfold field fieldText
    refine shows_details hc hk ?_
    unfold renders renders render
    rw [List.append_nil, breaks_id h.2]
    exact shows_elem (nm := "div".toList) (by decide +kernel) (by decide +kernel) (by decide +kernel) (shows_text h.1)
  | .cont fs =>
    unfold Clean at h
    unfold field fieldText
    exact shows_details hc hk (dict_shows true code fs h hc)
  | .dict fs =>
    unfold Clean at h
    unfold field fieldText
    exact shows_details hc hk (dict_shows false code fs h hc)
  | .list l =>
    unfold Clean at h
    unfold field fieldText
    exact shows_details hc hk (list_shows code 0 l h hc)
theorem dict_shows (b : Bool) (code : Code) (fs : Fields) (h : CleanF fs) (hc : '"' ∉ codeText code) : Shows (renders (dictNodes b code fs)) (fieldsText fs) := by
  match fs with
  | .nil => exact shows_nil
  | .cons k v rest =>
    unfold CleanF at h
    unfold dictNodes renders fieldsText
    refine shows_append (field_shows _ _ v h.2.1 h.1.1 ?_) (dict_shows b code rest h.2.2 hc)
    rw [codeText_append]
    intro e
    rcases List.mem_append.1 e with e | e
    · exact hc e
    · cases b
      · simp [codeText, Step.text, h.1.2] at e
      · simp [codeText, Step.text, h.1.2] at e
theorem list_shows (code : Code) (i : Nat) (l : Vals) (h : CleanL l) (hc : '"' ∉ codeText code) : Shows (renders (listNodes code i l)) (valsText i l) := by
  match l with
  | .nil => exact shows_nil
  | .cons v rest =>
    unfold CleanL at h
    have hc' : '"' ∉ codeText (code ++ [.idx i]) := by
      rw [codeText_append]
      intro e
      rcases List.mem_append.1 e with e | e
      · exact hc e
      · simp [codeText, Step.text, digit_ne (n := i) (c := '"') (by decide)] at e
    unfold listNodes renders valsText
    exact shows_append (field_shows _ _ v h.1 (digit_ne (by decide)) hc') (list_shows _ (i + 1) rest h.2 hc')
end

/-- a browser sees the names and values of all fields, and each tag is closed in order; for values without `<`, names without `<` and `"`, and arrays in one line -/
theorem C231_page_partial (fs : Fields) (h : CleanF fs) : Shows (renders (page fs)) (fieldsText fs) :=
  dict_shows true [] fs h (by simp [codeText])

example : CleanF demo ∧ String.ofList (fieldsText demo) = "a: xdk: 1ce[1 2]l0: 5" := by
  refine ⟨?_, by decide +kernel⟩
  simp [CleanF, Clean, CleanL, demo, Plain, Key.text]

/-- a string is not escaped: its tags are tags of the page, and are not seen -/
theorem C231_escape_fails : let s := "<script>f()".toList
    let p := renders (page (.cons (.str "a".toList) (.scalar s) .nil))
    (lex .text p).2.contains (.tag "script".toList) = true ∧ openTags (lex .text p).2 [] = none ∧ String.ofList (seen (lex .text p).2) = "a: f()" := by decide +kernel

/-- a name with a quote ends the attribute -/
theorem C231_quote_fails : let k := "a\"><b>c".toList
    (lex .text (renders (page (.cons (.str k) (.scalar "1".toList) .nil)))).2.count (.tag "b".toList) = 2 := by decide +kernel

/-- an array in two lines has a tag that is closed and was not opened -/
theorem C231_break_fails : openTags (lex .text (renders (page (.cons (.str "a".toList) (.arr "[1\n 2]".toList) .nil)))).2 [] = none := by decide +kernel

end Verif.Html
