import Mathlib.Data.List.Infix
import Verif.Model.Basic

/-!
# Python strings

A Python `str` is a sequence of code points: `List Char`.  Only the operations the code base uses.
-/

namespace Ranx.Py

/-- a Python `str` -/
abbrev Str := List Char

/-- put a character in front of the first piece -/
def consHead (c : Char) : List Str → List Str
  | [] => [[c]]
  | p :: ps => (c :: p) :: ps

/-- `s.split(c)` for a one-character separator -/
def splitChar (c : Char) : Str → List Str
  | [] => [[]]
  | x :: t => if x = c then [] :: splitChar c t else consHead x (splitChar c t)

/-- `s.split(ab)` for a separator of two different characters `a`, `b` -/
def split2 (a b : Char) : Str → List Str
  | [] => [[]]
  | [x] => [[x]]
  | x :: y :: t => if x = a ∧ y = b then [] :: split2 a b t else consHead x (split2 a b (y :: t))

/-- `sub in s` -/
def hasSub (sub s : Str) : Bool := s.tails.any (fun t => sub.isPrefixOf t)

/-- `c.isspace()` -/
def isSpace (c : Char) : Bool :=
  let n := c.toNat
  (9 ≤ n && n ≤ 13) || (0x1c ≤ n && n ≤ 0x20) || n == 0x85 || n == 0xa0 || n == 0x1680 ||
  (0x2000 ≤ n && n ≤ 0x200a) || n == 0x2028 || n == 0x2029 || n == 0x202f || n == 0x205f ||
  n == 0x3000

/-- `s.strip()` -/
def strip (s : Str) : Str := ((s.dropWhile isSpace).reverse.dropWhile isSpace).reverse

mutual
/-- `digit ("_"? digit)*`: a digit is expected -/
def digits0 : Str → Bool
  | [] => false
  | c :: t => c.isDigit && digits1 t
/-- see `digits0`: after a digit -/
def digits1 : Str → Bool
  | [] => true
  | c :: t => (c.isDigit && digits1 t) || (c == '_' && digits0 t)
end

/-- unsigned decimal integer literal (ASCII digits; other Unicode digits are out of the model) -/
def pyNat (s : Str) : Option Nat :=
  if digits0 s then some (Nat.ofDigitChars 10 (s.filter (fun c => c != '_')) 0) else none

/-- `int(s)`; `none` is the ValueError -/
def pyInt (s : Str) : Option Int :=
  match strip s with
  | '-' :: t => (pyNat t).map (fun n : Nat => -(n : Int))
  | '+' :: t => (pyNat t).map (fun n : Nat => (n : Int))
  | t => (pyNat t).map (fun n : Nat => (n : Int))

/-- `str(n)` for a natural number -/
def natStr (n : Nat) : Str := Nat.toDigits 10 n

/-- `str(n)` for an integer -/
def intStr : Int → Str
  | .ofNat n => natStr n
  | .negSucc n => '-' :: natStr (n + 1)

end Ranx.Py
