import Verif.Model.Norm
import Verif.Model.Float64

/-!
# Normalization in floating point (`ranx/normalization/*.py`)

The functions of `Model/Norm.lean` with a rounding `rnd` after every arithmetic operation; `rnd = F64.fl` is
float64. Comparisons and `max`/`min` are exact. Numba does not contract `a * b + c` into one operation unless
`fastmath` is set, which ranx does not. Not modelled: NaN, infinities, overflow and subnormal numbers.
-/

namespace Ranx.Norm.Rnd
open Ranx.Norm
variable {δ : Type*} [DecidableEq δ] (rnd : ℚ → ℚ)

/-- the literal `1e-9` -/
def eps : ℚ := rnd (1 / 10 ^ 9)

/-- numba's `sum(scores)`: left to right from 0 -/
def sum (l : List ℚ) : ℚ := l.foldl (fun a x => rnd (a + x)) 0

/-- min_max_norm.py:17-34 `_min_max_norm` -/
def minMax (invert : Bool) (r : Results δ ℚ) : Results δ ℚ :=
  let scores := extractScores r
  let minScore := safeMin scores
  let maxScore := safeMax scores
  let denominator := max (rnd (maxScore - minScore)) (eps rnd)
  normLoop r (fun s =>
    if invert then rnd (rnd (maxScore - s) / denominator) else rnd (rnd (s - minScore) / denominator))

/-- max_norm.py:16-30 `_max_norm` -/
def maxNorm (r : Results δ ℚ) : Results δ ℚ :=
  let denominator := max (safeMax (extractScores r)) (eps rnd)
  normLoop r (fun s => rnd (s / denominator))

/-- sum_norm.py:16-30 `_sum_norm` -/
def sumNorm (r : Results δ ℚ) : Results δ ℚ :=
  let scores := extractScores r
  let minScore := safeMin scores
  let denominator := max (rnd (sum rnd scores - rnd (minScore * rnd (r.length : ℚ)))) (eps rnd)
  normLoop r (fun s => rnd (rnd (s - minScore) / denominator))

/-- zmuv_norm.py:16-29 `_zmuv_norm`; `mean` and `std` are whatever `np.mean` and `np.std` compute -/
def zmuv (mean std : List ℚ → ℚ) (r : Results δ ℚ) : Results δ ℚ :=
  let scores := extractScores r
  let denominator := max (std scores) (eps rnd)
  normLoop r (fun s => rnd (rnd (s - mean scores) / denominator))

/-- rank_norm.py:15-24 `_rank_norm` -/
def rankNorm (r : Results δ ℚ) : Results δ ℚ :=
  Dict.ofList (r.keys.zipIdx.map (fun di =>
    (di.1, rnd (1 - rnd (rnd (di.2 : ℚ) / rnd (r.length : ℚ))))))

/-- borda_norm.py:31-43 `_borda_norm` -/
def bordaNorm (r : Results δ ℚ) (candidates : List δ) : Results δ ℚ :=
  let docIds := r.keys
  Dict.ofList (candidates.map (fun d =>
    (d, if r.contains d then rnd (1 - rnd (rnd (docIds.idxOf d : ℚ) / rnd (candidates.length : ℚ)))
        else rnd (1 / 2 - rnd (rnd ((r.length : ℚ) - 1) / rnd (2 * (candidates.length : ℚ)))))))

end Ranx.Norm.Rnd
