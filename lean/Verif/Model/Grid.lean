import Verif.Model.Basic
import Verif.Model.PyStr
import Verif.Model.Float64

/-!
# Search spaces of `optimize_fusion` (`ranx/fusion_optimization/*.py`)

Arithmetic is parametrised by the rounding `rnd` applied after every operation: `id` for exact
arithmetic, `F64.fl` for binary64.
-/

namespace Ranx.Opt
open Py (Str)

/-- `str(step)[::-1].find(".")` (optimize_weights.py:12, optimize_rbc.py:21): the number of characters
after the last dot, `-1` if there is no dot. -/
def roundingDigits (stepStr : Str) : Int :=
  match stepStr.reverse.findIdx? (· = '.') with
  | some i => i
  | none => -1

/-- `np.arange(lo, hi, step)` on floats: the length is `ceil((hi - lo) / step)`; NumPy computes the first
two elements and fills the others from their difference. `step = 0` raises `ZeroDivisionError`. -/
def npArange (rnd : ℚ → ℚ) (lo hi step : ℚ) : Except Err (List ℚ) :=
  if step = 0 then .error .zeroDivision
  else
    let n := ⌈rnd (rnd (hi - lo) / step)⌉.toNat
    let second := rnd (lo + step)
    let delta := rnd (second - lo)
    .ok ((List.range n).map (fun i : Nat =>
      if i = 0 then lo else if i = 1 then second else rnd (lo + rnd ((i : ℚ) * delta))))

/-- `round(x, nd)` of a NumPy float: `np.round`, i.e. `rint(x * 10**nd) / 10**nd` (for negative `nd`:
`rint(x / 10**-nd) * 10**-nd`). -/
def roundTo (rnd : ℚ → ℚ) (nd : Int) (x : ℚ) : ℚ :=
  match nd with
  | .ofNat d => rnd ((F64.rhe (rnd (x * 10 ^ d)) : ℚ) / 10 ^ d)
  | .negSucc d => rnd ((F64.rhe (rnd (x / 10 ^ (d + 1))) : ℚ) * 10 ^ (d + 1))

/-- optimize_rbc.py:21-24 (the same in optimize_comb_gmnz.py and optimize_logn_isr.py) and, with
`lo = 0`, `hi = 1`, optimize_weights.py:11-13 `get_possible_weights` -/
def grid (rnd : ℚ → ℚ) (lo hi step : ℚ) (stepStr : Str) : Except Err (List ℚ) :=
  (npArange rnd lo (rnd (hi + step)) step).map (fun xs => xs.map (roundTo rnd (roundingDigits stepStr)))

/-- `itertools.product(*[ws] * n)`: the last position varies fastest -/
def product (ws : List ℚ) : Nat → List (List ℚ)
  | 0 => [[]]
  | n + 1 => ws.flatMap (fun w => (product ws n).map (fun seq => w :: seq))

/-- Python's `sum` of NumPy floats: left to right from 0 -/
def pySum (rnd : ℚ → ℚ) (l : List ℚ) : ℚ := l.foldl (fun acc x => rnd (acc + x)) 0

/-- optimize_weights.py:16-17 `get_trial_configs` -/
def trialConfigs (rnd : ℚ → ℚ) (ws : List ℚ) (n : Nat) : List (List ℚ) :=
  (product ws n).filter (fun seq => pySum rnd seq = 1)

/-- optimize_weights.py:30-31 -/
def weightTrials (rnd : ℚ → ℚ) (step : ℚ) (stepStr : Str) (n : Nat) : Except Err (List (List ℚ)) :=
  (grid rnd 0 1 step stepStr).map (fun ws => trialConfigs rnd ws n)

/-- `list(range(lo, stop, step))` -/
def pyRange (lo stop step : Int) : Except Err (List Int) :=
  if step = 0 then .error .valueError
  else if 0 < step then
    .ok ((List.range (((stop - lo + step - 1) / step).toNat)).map (fun (i : Nat) => lo + i * step))
  else
    .ok ((List.range (((lo - stop - step - 1) / (-step)).toNat)).map (fun (i : Nat) => lo + i * step))

/-- optimize_rrf.py:20; with `step = 1` optimize_probfuse.py:19, optimize_slidefuse.py:19 -/
def intGrid (lo hi step : Int) : Except Err (List Int) := pyRange lo (hi + 1) step

end Ranx.Opt
