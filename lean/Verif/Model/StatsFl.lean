import Verif.Model.Stats
import Verif.Model.MetricsFl
import Verif.Model.Prange

/-!
# Fisher's randomization test in floating point (`ranx/statistical_tests/fisher_randomization_test.py`)

`Model/Stats.lean` with a rounding `rnd` after every arithmetic operation; `rnd = F64.fl` is float64.  How `mean`
adds is left open, separately for the two observed columns (`sumOut`; with `parallel=True` numba turns these means
into parallel reductions), for the permuted columns inside the `prange` loop (`sumIn`) and for the counter (`sumCnt`).
Scores are numbers here (NaN: `Model/Stats.lean`) and the arrays are not empty (the mean of an empty array is NaN).
-/

namespace Ranx.Stat.Rnd
open Ranx.Metrics.Rnd (mean)
variable (rnd : ℚ → ℚ)

/-- fisher_randomization_test.py:5-12 `permute` -/
def permute (coin : Nat → Bool) (x : List (ℚ × ℚ)) : List (ℚ × ℚ) :=
  x.zipIdx.map (fun r => if coin r.2 then (r.1.2, r.1.1) else r.1)

/-- fisher_randomization_test.py:29-31 and 39: `abs(x.mean() - y.mean())` -/
def absMeanDiff (sum : List ℚ → ℚ) (x y : List ℚ) : ℚ := |rnd (mean rnd sum x - mean rnd sum y)|

/-- fisher_randomization_test.py:15-46: p-value and verdict -/
def fisher (sumOut sumIn sumCnt : List ℚ → ℚ) (coin : Nat → Nat → Bool) (sched : List Nat) (control treatment : List ℚ)
    (n : Nat) (maxP : ℚ) : Except Err (ℚ × Bool) :=
  let diff := absMeanDiff rnd sumOut control treatment
  if control.length ≠ treatment.length then .error .valueError
  else
    let stack := control.zip treatment
    let counter := prange (List.replicate n 0)
      (fun i =>
        let permuted := permute (coin i) stack
        let d := absMeanDiff rnd sumIn (permuted.map Prod.fst) (permuted.map Prod.snd)
        if diff ≤ d then (1 : ℚ) else 0) sched
    let p := mean rnd sumCnt counter
    .ok (p, decide (p ≤ maxP))

end Ranx.Stat.Rnd
