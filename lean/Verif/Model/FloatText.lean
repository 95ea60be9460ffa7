import Mathlib.Data.Rat.Encodable
import Verif.Model.Float64
import Verif.Model.IO
import Verif.Model.Json

/-!
# Floats as text

`f"{score}"` (run.py:217), `float(rel)` (run.py:282), and the numbers of JSON files (io.py:71-77, report.py:340-352).
These are library functions; the model follows their documentation: `repr` of a float is the shortest decimal that is
read back as the float, the closest one if there are several (`float_repr_style == 'short'`), and reading a decimal
rounds it to the nearest binary64 number.  Finite numbers only: signed zeros, `inf` and `nan` are not represented here.
-/

namespace Ranx.FText
open F64
open Py (Str natStr isSpace strip)

/-! ## binary64 with subnormal numbers -/

/-- spacing of the binary64 numbers around `x ≠ 0`; at least `2 ^ -1074` -/
def ulp (x : ℚ) : ℚ := (2 : ℚ) ^ max (Int.log 2 |x| - 52) (-1074)

/-- nearest binary64 number, ties to even, if it is below `2 ^ 1024` -/
def rd (x : ℚ) : ℚ := if x = 0 then 0 else (rhe (x / ulp x) : ℚ) * ulp x

/-- the finite binary64 numbers -/
def IsFloat (x : ℚ) : Prop := rd x = x ∧ |x| < 2 ^ 1024

/-! ## Reading -/

/-- the parts of a decimal -/
structure Parts where
  /-- `+` or `-` -/
  sign : Option Char
  /-- digits before the point -/
  int : Str
  /-- digits after the point, if there is one -/
  frac : Option Str
  /-- `e` or `E`, the sign and the digits of the exponent -/
  exp : Option (Char × Option Char × Str)
  deriving DecidableEq

/-- a sign at the start -/
def signOf : Str → Option Char × Str
  | [] => (none, [])
  | c :: t => if c = '-' ∨ c = '+' then (some c, t) else (none, c :: t)

/-- the exponent, up to the end of the text -/
def expOf : Str → Option (Option (Char × Option Char × Str))
  | [] => some none
  | c :: t =>
    if c = 'e' ∨ c = 'E' then
      if (signOf t).2 ≠ [] ∧ (signOf t).2.all Char.isDigit then some (some (c, signOf t)) else none
    else none

/-- the fraction: digits after a point -/
def fracOf : Str → Option Str × Str
  | [] => (none, [])
  | c :: t => if c = '.' then (some (t.takeWhile Char.isDigit), t.dropWhile Char.isDigit) else (none, c :: t)

/-- the parts of a text -/
def split (s : Str) : Option Parts :=
  let a := signOf s
  let i := a.2.takeWhile Char.isDigit
  let f := fracOf (a.2.dropWhile Char.isDigit)
  match expOf f.2 with
  | none => none
  | some e => some ⟨a.1, i, f.1, e⟩

/-- the number written with some digits -/
def natOf (s : Str) : Nat := Nat.ofDigitChars 10 s 0

/-- minus one for `-` -/
def signVal : Option Char → ℚ
  | some c => if c = '-' then -1 else 1
  | none => 1

/-- the value of an exponent -/
def expVal : Option (Char × Option Char × Str) → ℤ
  | none => 0
  | some (_, s, d) => if s = some '-' then -(natOf d : ℤ) else natOf d

/-- the exact value of a decimal -/
def Parts.value (p : Parts) : ℚ :=
  signVal p.sign * (natOf (p.int ++ p.frac.getD []) * (10 : ℚ) ^ (expVal p.exp - (p.frac.getD []).length))

/-- Python's `float(text)` needs a digit before or after the point -/
def Parts.pyOk (p : Parts) : Bool := !(p.int ++ p.frac.getD []).isEmpty

/-- JSON: no `+`, no needless zeros at the start, digits on both sides of a point -/
def Parts.jsonOk (p : Parts) : Bool :=
  decide (p.sign ≠ some '+') && (p.int == ['0'] || (!p.int.isEmpty && decide (p.int.head? ≠ some '0'))) &&
    decide (p.frac ≠ some [])

/-- the float nearest to `x`; `none` if there is none below `2 ^ 1024` (Python's result is then infinite) -/
def toFloat (x : ℚ) : Option ℚ := if |rd x| < 2 ^ 1024 then some (rd x) else none

/-- `float(text)` (run.py:282); `none` is the ValueError.  Simplified: no `_` between digits, no `inf` and `nan`, and a
number of `2 ^ 1024` or more, for which Python returns `inf`, is `none`. -/
def pyFloat (s : Str) : Option ℚ :=
  match split (strip s) with
  | none => none
  | some p => if p.pyOk then toFloat p.value else none

/-- a number of a JSON file read as a float -/
def jsonFloat (s : Str) : Option ℚ :=
  match split s with
  | none => none
  | some p => if p.jsonOk then toFloat p.value else none

/-- a number of a JSON file: an integer if it has neither fraction nor exponent -/
def jsonNumber (s : Str) : Option (Int ⊕ ℚ) :=
  match split s with
  | none => none
  | some p =>
    if p.jsonOk then
      if p.frac = none ∧ p.exp = none then
        some (.inl (if p.sign = some '-' then -(natOf p.int : Int) else (natOf p.int : Int)))
      else (toFloat p.value).map .inr
    else none

/-! ## Writing -/

/-- for `x > 0`: `10 ^ k ≤ x < 10 ^ (k + 1)` -/
def log10 (x : ℚ) : ℤ := Int.log 10 x

/-- the decimal with `n` digits just below `x > 0` (or equal to it), as an integer times a power of ten -/
def below (x : ℚ) (n : Nat) : Nat × ℤ := (⌊x * (10 : ℚ) ^ ((n : ℤ) - 1 - log10 x)⌋₊, log10 x + 1 - n)

/-- the value of such a decimal -/
def decVal (d : Nat × ℤ) : ℚ := (d.1 : ℚ) * 10 ^ d.2

/-- the next decimal -/
def next (d : Nat × ℤ) : Nat × ℤ := (d.1 + 1, d.2)

/-- the decimals with `n` digits around `x` that are read back as `x`, the closer one first (the even one if both are
equally close) -/
def cands (x : ℚ) (n : Nat) : List (Nat × ℤ) :=
  let a := below x n
  let b := next a
  (if x - decVal a < decVal b - x ∨ (x - decVal a = decVal b - x ∧ a.1 % 2 = 0) then [a, b] else [b, a]).filter
    (fun d => decide (rd (decVal d) = x))

/-- the shortest decimal read back as `x > 0`; 17 digits are always enough -/
def shortest (x : ℚ) : Nat × ℤ :=
  match (List.range 17).findSome? (fun i => (cands x (i + 1)).head?) with
  | some d => d
  | none => (0, 0)

/-- digits without the zeros at the end -/
def trim (s : Str) : Str := (s.reverse.dropWhile (fun c => c == '0')).reverse

/-- the digits of a decimal and the position of its point: `0.D × 10 ^ p` -/
def digitsOf (d : Nat × ℤ) : Str × ℤ := (trim (natStr d.1), (natStr d.1).length + d.2)

/-- at least two digits -/
def pad2 (s : Str) : Str := if s.length < 2 then '0' :: s else s

/-- how exponents are written -/
inductive Style where
  /-- `repr`, `json.dumps`: `1e-05`, `1e+16` -/
  | python
  /-- `orjson.dumps`: `1e-5` is `0.00001`, `1e16` -/
  | orjson
  deriving DecidableEq

/-- the exponent -/
def expStr (st : Style) (e : ℤ) : Str :=
  match st with
  | .python => 'e' :: (if e < 0 then '-' else '+') :: pad2 (natStr e.natAbs)
  | .orjson => 'e' :: (if e < 0 then ['-'] else []) ++ natStr e.natAbs

/-- the smallest position of the point that is not written with an exponent -/
def Style.low : Style → ℤ
  | .python => -3
  | .orjson => -4

/-- a positive decimal as text -/
def layout (st : Style) (d : Str) (p : ℤ) : Str :=
  if st.low ≤ p ∧ p ≤ 16 then
    if p ≤ 0 then '0' :: '.' :: List.replicate p.natAbs '0' ++ d
    else if (d.length : ℤ) ≤ p then d ++ List.replicate (p.natAbs - d.length) '0' ++ ['.', '0']
    else d.take p.natAbs ++ '.' :: d.drop p.natAbs
  else
    (match d with
      | [] => []
      | [c] => [c]
      | c :: t => c :: '.' :: t) ++ expStr st (p - 1)

/-- `repr(x)`, `f"{x}"`, `json.dumps(x)` (`python`) and `orjson.dumps(x)` (`orjson`) of a finite float -/
def floatStr (st : Style) (x : ℚ) : Str :=
  if x = 0 then "0.0".toList
  else if x < 0 then '-' :: layout st (digitsOf (shortest (-x))).1 (digitsOf (shortest (-x))).2
  else layout st (digitsOf (shortest x)).1 (digitsOf (shortest x)).2

end Ranx.FText
