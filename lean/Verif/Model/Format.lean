import Verif.Model.Grid
import Verif.Model.Report

/-!
# Printed scores (`Report.format_score`, `OptimizationReport.format_score`)

The scores are NumPy floats (`np.mean`), so `round(score, n)` is `np.round` (`Opt.roundTo`).
-/

namespace Ranx.Rep
open Py (Str natStr)

/-- `k / 10**d` written with `d` decimals -/
def fixedNat (d k : Nat) : Str :=
  natStr (k / 10 ^ d) ++
    if d = 0 then [] else
      '.' :: (List.replicate (d - (natStr (k % 10 ^ d)).length) '0' ++ natStr (k % 10 ^ d))

/-- `"%.{d}f" % x`: the exact value of the float rounded to `d` decimals, ties to even (the sign of negative
zero is not modelled) -/
def fixed (d : Nat) (x : ℚ) : Str :=
  (if x < 0 then ['-'] else []) ++ fixedNat d (F64.rhe (|x| * 10 ^ d)).toNat

/-- `"%.{n}f".format(n=d) % x`: a negative precision is a ValueError (unsupported format character '-') -/
def percentF (d : Int) (x : ℚ) : Except Err Str :=
  match d with
  | .ofNat d => .ok (fixed d x)
  | .negSucc _ => .error .valueError

/-- report.py:92-97 and optimization_report.py:76-81 `format_score`; `digits` is `self.rounding_digits`,
`pct` is `self.show_percentages`. -/
def formatScore (rnd : ℚ → ℚ) (pct : Bool) (digits : Int) (score : ℚ) : Except Err Str :=
  if pct then
    percentF (digits - 2) (Opt.roundTo rnd (max 0 (digits - 2)) (rnd (score * 100)))
  else percentF digits (Opt.roundTo rnd digits score)

/-- the rounding of report.py:190-195 and `format_score` as used by `to_table` and `to_latex`;
`"%.nf" % nan` is `nan` -/
def pyFmt (rnd : ℚ → ℚ) (pct : Bool) (digits : Int) : Fmt ℚ where
  round := fun x => match x with
    | .val v => .val (Opt.roundTo rnd digits v)
    | .nan => .nan
  format := fun x => match x with
    | .val v => formatScore rnd pct digits v
    | .nan => if 0 ≤ (if pct then digits - 2 else digits) then .ok "nan".toList else .error .valueError

end Ranx.Rep
