import Mathlib.Algebra.BigOperators.Group.List.Defs
import Mathlib.Analysis.SpecialFunctions.Pow.Real
import Verif.Model.Prange
import Verif.Model.Store

/-!
# Normalization (`ranx/normalization/*.py`)

`α` is an ordered field (exact arithmetic); `1e-9` is the rational 10⁻⁹.
-/

namespace Ranx.Norm
variable {κ δ α : Type*}

/-- one query's results: `typed.Dict` doc id → score -/
abbrev Results (δ α : Type*) := Dict δ α

section
variable [DecidableEq δ] [LinearOrder α] [Field α]

/-- the constant `1e-9` -/
def eps : α := 1 / 10 ^ 9

/-- normalization/common.py:37-43 `extract_scores`. -/
def extractScores (r : Results δ α) : List α := r.values

/-- normalization/common.py:46-50 `safe_max`. -/
def safeMax : List α → α
  | [] => 0
  | x :: t => t.foldl max x

/-- normalization/common.py:53-57 `safe_min`. -/
def safeMin : List α → α
  | [] => 0
  | x :: t => t.foldl min x

/-- The loop `for doc_id in results.keys(): normalized_results[doc_id] = f(results[doc_id])`. -/
def normLoop (r : Results δ α) (f : α → α) : Results δ α :=
  Dict.ofList (r.keys.map (fun d => (d, f ((r.get? d).getD 0))))

/-- min_max_norm.py:17-34 `_min_max_norm`. -/
def minMax (invert : Bool) (r : Results δ α) : Results δ α :=
  let scores := extractScores r
  let minScore := safeMin scores
  let maxScore := safeMax scores
  let denominator := max (maxScore - minScore) eps
  normLoop r (fun s => if invert then (maxScore - s) / denominator else (s - minScore) / denominator)

/-- max_norm.py:16-30 `_max_norm`. -/
def maxNorm (r : Results δ α) : Results δ α :=
  let denominator := max (safeMax (extractScores r)) eps
  normLoop r (fun s => s / denominator)

/-- sum_norm.py:16-30 `_sum_norm`. -/
def sumNorm (r : Results δ α) : Results δ α :=
  let scores := extractScores r
  let minScore := safeMin scores
  let denominator := max (scores.sum - minScore * (r.length : α)) eps
  normLoop r (fun s => (s - minScore) / denominator)

/-- rank_norm.py:15-24 `_rank_norm`. -/
def rankNorm (r : Results δ α) : Results δ α :=
  Dict.ofList (r.keys.zipIdx.map (fun di => (di.1, 1 - (di.2 : α) / (r.length : α))))

/-- borda_norm.py:31-43 `_borda_norm`. -/
def bordaNorm (r : Results δ α) (candidates : List δ) : Results δ α :=
  let docIds := r.keys
  Dict.ofList (candidates.map (fun d =>
    (d, if r.contains d then 1 - (docIds.idxOf d : α) / (candidates.length : α)
        else 1 / 2 - ((r.length : α) - 1) / (2 * (candidates.length : α)))))

end

/-- zmuv_norm.py:16-29 `_zmuv_norm` (`np.mean`, `np.std`; both only matter for non-empty results;
assumed: neither raises on an empty array, whether Numba's versions divide by the size 0 without an error is not modelled). -/
noncomputable def zmuv [DecidableEq δ] (r : Results δ ℝ) : Results δ ℝ :=
  let scores := extractScores r
  let mean := scores.sum / (scores.length : ℝ)
  let std := Real.sqrt ((scores.map (fun s => |s - mean| ^ 2)).sum / (scores.length : ℝ))
  let denominator := max std eps
  normLoop r (fun s => (s - mean) / denominator)

section
variable [DecidableEq κ]

/-- normalization/common.py:27-34 `convert_results_dict_list_to_run` (also fusion/common.py). -/
def toRun {ν : Type*} (qs : List κ) (rs : List ν) : Dict κ ν :=
  Dict.ofList (qs.zip rs)

/-- The `_…_norm_parallel` functions (e.g. min_max_norm.py:37-46): one slot per query, filled by a
prange loop, then turned into a run. -/
def normParallel (norm : Results δ α → Results δ α) (sched : List Nat)
    (run : Dict κ (Results δ α)) : Dict κ (Results δ α) :=
  let qs := run.keys
  toRun qs (prange (List.replicate qs.length []) (fun i =>
    norm ((qs[i]?.bind run.get?).getD [])) sched)

/-- `max_norm`, `sum_norm`, `zmuv_norm`, `rank_norm`, `min_max_norm(invert=False)`
(e.g. max_norm.py:47-52): a new `Run()` (flag not sorted) with the normalized content. -/
def normRun (norm : Results δ α → Results δ α) (sched : List Nat) (s : Store κ δ α) : Store κ δ α :=
  ⟨normParallel norm sched s.data, false⟩

/-- min_max_norm.py:50-65 with invert=True: the new run is sorted. -/
def minMaxInverted [LinearOrder κ] [DecidableEq δ] [LinearOrder α] [Field α] (S : ArgSort α)
    (sched : List Nat) (s : Store κ δ α) : Store κ δ α :=
  (⟨normParallel (minMax true) sched s.data, false⟩ : Store κ δ α).sort S

/-- Iteration over a Python `set`: every element once, in an arbitrary order. -/
structure SetIter (δ : Type*) where
  run : List δ → List δ
  nodup : ∀ l, (run l).Nodup
  mem : ∀ l x, x ∈ run l ↔ x ∈ l

/-- borda_norm.py:14-28 `get_candidates`: per query of `runs[0]` the set of docs of all runs;
`run[q_id]` raises KeyError if the query is missing. -/
def getCandidates (I : SetIter δ) (runs : List (Dict κ (Results δ α))) : Except Err (List (List δ)) :=
  match runs with
  | [] => .error .indexError
  | r0 :: _ =>
    if runs.all (fun run => r0.keys.all (fun q => run.contains q)) then
      .ok (r0.keys.map (fun q => I.run (runs.flatMap (fun run => ((run.get? q).getD []).keys))))
    else .error .keyError

/-- borda_norm.py:46-54 `_borda_norm_parallel`: `candidates[i]` is paired with the i-th query *of this
run* (out-of-range `candidates[i]` is checked in `bordaRuns`). -/
def bordaParallel [DecidableEq δ] [LinearOrder α] [Field α] (sched : List Nat)
    (run : Dict κ (Results δ α)) (candidates : List (List δ)) : Dict κ (Results δ α) :=
  let qs := run.keys
  toRun qs (prange (List.replicate qs.length []) (fun i =>
    bordaNorm ((qs[i]?.bind run.get?).getD []) ((candidates[i]?).getD [])) sched)

/-- borda_norm.py:57-69 `borda_norm`; `sched j` is the schedule of the j-th run's loop. -/
def bordaRuns [DecidableEq δ] [LinearOrder α] [Field α] (I : SetIter δ) (sched : Nat → List Nat)
    (runs : List (Dict κ (Results δ α))) : Except Err (List (Dict κ (Results δ α))) :=
  match getCandidates I runs with
  | .error e => .error e
  | .ok candidates =>
    if runs.any (fun run => candidates.length < run.length) then .error .indexError
    else .ok (runs.zipIdx.map (fun rj => bordaParallel (sched rj.2) rj.1 candidates))

end

/-- the normalizations selectable by name -/
inductive Kind where
  | borda | max | minMax | minMaxInverted | rank | sum | zmuv
  deriving DecidableEq, Repr

/-- normalization/__init__.py:18-34 `norm_switch`. -/
def normSwitch (method : String) : Except Err Kind :=
  if method = "borda" then .ok .borda
  else if method = "max" then .ok .max
  else if method = "min_max" ∨ method = "min-max" then .ok .minMax
  else if method = "min_max_inverted" ∨ method = "min-max-inverted" then .ok .minMaxInverted
  else if method = "rank" then .ok .rank
  else if method = "sum" then .ok .sum
  else if method = "zmuv" then .ok .zmuv
  else .error .valueError

end Ranx.Norm
