import Verif.Base.Py

/-!
# Exact messages in tests

Model of `TestCase.assertRaisesWith` and `assertWarnsWith` (testing/testcase.py:21-35), with what they use of `re` and `unittest`.

Simplifications.
* Of regular expressions only characters, escaped characters, `^` and `$` are modelled; a pattern with anything else is rejected here.
* A class is the list of the numbers of itself and its base classes.
-/

namespace Verif.Raises
open Verif

/-- text (testing/testcase.py:21) -/
abbrev Text := List Char

/-- the characters that `re.escape` changes (testing/testcase.py:27) -/
def special : List Char := "()[]{}?*+-|^$\\.&~# \t\n\r".toList ++ [Char.ofNat 11, Char.ofNat 12]

/-- `re.escape` (testing/testcase.py:27, 35) -/
def escape : Text → Text
  | [] => []
  | c :: cs => if special.contains c then '\\' :: c :: escape cs else c :: escape cs

/-- a part of a pattern: the beginning, the end, a character (testing/testcase.py:27) -/
inductive Atom where
  | start
  | stop
  | lit (c : Char)
  deriving DecidableEq

/-- the characters that mean something else than themselves in a pattern, besides those below (testing/testcase.py:27) -/
def metaChars : List Char := "()[]{}?*+|.".toList

/-- reading a pattern (testing/testcase.py:27, `re.compile`) -/
def parse : Text → Option (List Atom)
  | [] => some []
  | '^' :: r => (parse r).map (.start :: ·)
  | '$' :: r => (parse r).map (.stop :: ·)
  | ['\\'] => none
  | '\\' :: c :: r => if c.isAlphanum then none else (parse r).map (.lit c :: ·)
  | c :: r => if metaChars.contains c then none else (parse r).map (.lit c :: ·)

/-- does the pattern match here? `$` is the end or before a newline at the end (testing/testcase.py:27, `re`) -/
def matchHere : List Atom → Bool → Text → Bool
  | [], _, _ => true
  | .start :: as, st, s => st && matchHere as st s
  | .stop :: as, st, s => (s = [] || s = ['\n']) && matchHere as st s
  | .lit _ :: _, _, [] => false
  | .lit c :: as, _, x :: s => x = c && matchHere as false s

/-- does it match at some place? (testing/testcase.py:27, `re.search`) -/
def search (as : List Atom) : Bool → Text → Bool
  | st, [] => matchHere as st []
  | st, x :: s => matchHere as st (x :: s) || search as false s

/-- the pattern for a message: `'^%s$' % re.escape(exc_msg)` (testing/testcase.py:27, 35) -/
def pattern (msg : Text) : Text := '^' :: escape msg ++ ['$']

/-- `re.search(pattern, s)`; nothing if the pattern is rejected (testing/testcase.py:27, 35) -/
def found (msg s : Text) : Bool := match parse (pattern msg) with
  | some as => search as true s
  | none => false

/-- an exception or a warning: its classes and its message (testing/testcase.py:21, 29) -/
structure Exc where
  classes : List Nat
  msg : Text

/-- what a test with a call does: it passes, fails, or the exception passes through (testing/testcase.py:27) -/
inductive Outcome where
  | pass
  | fail
  | raised (e : Exc)

/-- `assertRaisesWith` for a call that raises the exception or none (testing/testcase.py:21-27) -/
def raisesWith (cls : Nat) (msg : Text) : Option Exc → Outcome
  | none => .fail
  | some e => if e.classes.contains cls then if found msg e.msg then .pass else .fail else .raised e

/-- `assertWarnsWith` for a call with these warnings (testing/testcase.py:29-35) -/
def warnsWith (cls : Nat) (msg : Text) (ws : List Exc) : Bool := ws.any fun w => w.classes.contains cls && found msg w.msg

end Verif.Raises
