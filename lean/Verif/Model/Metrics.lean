import Mathlib.Algebra.Field.Defs
import Mathlib.Algebra.Order.Ring.Defs
import Mathlib.Algebra.BigOperators.Group.List.Defs
import Mathlib.Order.Defs.LinearOrder
import Verif.Model.Basic

/-!
# Metric kernels (`ranx/metrics/*.py`)

The arrays handed to the kernels have two columns: doc id (a float64 hash, type `ι`)
and relevance or score (type `α`).  Arithmetic is exact, in an ordered field `α`.
`for i in range(k)` over the rows of `run` is a pass over `run.take k`, as `fix_k`
guarantees `k ≤ run.shape[0]`.
-/

namespace Ranx.Metrics
variable {ι α : Type*}

/-- rows of a qrels / run array -/
abbrev Rows (ι α : Type*) := List (ι × α)

section
variable [LinearOrder ι] [LinearOrder α]

/-- metrics/common.py:5-7 `clean_qrels`. -/
def cleanQrels (qrels : Rows ι α) (relLvl : α) : Rows ι α :=
  qrels.filter (fun r => decide (relLvl ≤ r.2))

/-- metrics/common.py:10-12 `fix_k`. -/
def fixK (k : Nat) (run : Rows ι α) : Nat :=
  if k = 0 ∨ run.length < k then run.length else k

/-- `np.max(qrels[:, 0])` (only called on non-empty arrays; `x` is the first id) -/
def maxId (x : ι) (rest : Rows ι α) : ι := rest.foldl (fun m r => max m r.1) x

/-- `np.min(qrels[:, 0])` -/
def minId (x : ι) (rest : Rows ι α) : ι := rest.foldl (fun m r => min m r.1) x

/-- The inner loop `for j in range(qrels.shape[0]): if run[i, 0] == qrels[j, 0]: …; break`:
the value of the first row with that id. -/
def scan : Rows ι α → ι → Option α
  | [], _ => none
  | r :: t, x => if x = r.1 then some r.2 else scan t x

/-- The body of the outer loop shared by the kernels (e.g. hits.py:19-32): skip ids outside
`[min_true_id, max_true_id]`, then scan. Empty arrays are handled by the callers' guards. -/
def look (qrels : Rows ι α) (x : ι) : Option α :=
  match qrels with
  | [] => none
  | r :: t =>
    if maxId r.1 t < x then none
    else if x < minId r.1 t then none
    else scan (r :: t) x

end

section
variable [LinearOrder ι] [LinearOrder α] [Field α]

/-- hits.py:12-34 `_hits`. -/
def hits (qrels run : Rows ι α) (k : Nat) (relLvl : α) : α :=
  let qrels := cleanQrels qrels relLvl
  if qrels.length = 0 then 0
  else
    let k := fixK k run
    (run.take k).foldl (fun hits r => if (look qrels r.1).isSome then hits + 1 else hits) 0

/-- The loop of hit_rate.py:22-31 with its early return. -/
def hitRateLoop (qrels : Rows ι α) : Rows ι α → α
  | [] => 0
  | r :: t => if (look qrels r.1).isSome then 1 else hitRateLoop qrels t

/-- hit_rate.py:12-31 `_hit_rate`. -/
def hitRate (qrels run : Rows ι α) (k : Nat) (relLvl : α) : α :=
  let qrels := cleanQrels qrels relLvl
  if qrels.length = 0 then 0
  else
    let k := fixK k run
    hitRateLoop qrels (run.take k)

/-- precision.py:12-17 `_precision`. -/
def precision (qrels run : Rows ι α) (k : Nat) (relLvl : α) : α :=
  let k := if k ≠ 0 then k else run.length
  if k = 0 then 0
  else hits qrels run k relLvl / (k : α)

/-- recall.py:13-22 `_recall`. -/
def recall (qrels run : Rows ι α) (k : Nat) (relLvl : α) : α :=
  let qrels := cleanQrels qrels relLvl
  if qrels.length = 0 then 0
  else
    let k := if k ≠ 0 then k else run.length
    if k = 0 then 0
    else hits qrels run k relLvl / (qrels.length : α)

/-- f1.py:13-29 `_f1`. -/
def f1 (qrels run : Rows ι α) (k : Nat) (relLvl : α) : α :=
  let qrels := cleanQrels qrels relLvl
  if qrels.length = 0 then 0
  else
    let k := if k ≠ 0 then k else run.length
    if k = 0 then 0
    else
      let hitsScore := hits qrels run k relLvl
      let precisionScore := hitsScore / (k : α)
      let recallScore := hitsScore / (qrels.length : α)
      if precisionScore + recallScore = 0 then 0
      else 2 * ((precisionScore * recallScore) / (precisionScore + recallScore))

/-- r_precision.py:13-19 `_r_precision`. -/
def rPrecision (qrels run : Rows ι α) (relLvl : α) : α :=
  let qrels := cleanQrels qrels relLvl
  if qrels.length = 0 then 0
  else precision qrels run qrels.length relLvl

/-- The loop of reciprocal_rank.py:19-22; `i` is the loop counter. -/
def rrLoop (qrels : Rows ι α) : Rows ι α → Nat → α
  | [], _ => 0
  | r :: t, i => if r.1 ∈ qrels.map Prod.fst then 1 / ((i : α) + 1) else rrLoop qrels t (i + 1)

/-- reciprocal_rank.py:12-22 `_reciprocal_rank`. -/
def reciprocalRank (qrels run : Rows ι α) (k : Nat) (relLvl : α) : α :=
  let qrels := cleanQrels qrels relLvl
  if qrels.length = 0 then 0
  else
    let k := fixK k run
    rrLoop qrels (run.take k) 0

/-- The loop filling `hit_list` (average_precision.py:24-32, get_hit_lists.py:25-33, …) on the
first `k` rows. -/
def hitList (qrels run : Rows ι α) (k : Nat) : List α :=
  (run.take k).map (fun r => if (look qrels r.1).isSome then 1 else 0)

/-- average_precision.py:34-40: `precision_scores[r]` for one `r`. -/
def precisionScore (hitList : List α) (r : Nat) : α :=
  if hitList.getD r 0 ≠ 0 then (hitList.take (r + 1)).sum / ((r : α) + 1) else 0

/-- average_precision.py:12-42 `_average_precision`. -/
def averagePrecision (qrels run : Rows ι α) (k : Nat) (relLvl : α) : α :=
  let qrels := cleanQrels qrels relLvl
  if qrels.length = 0 then 0
  else
    let k := fixK k run
    let hl := hitList qrels run k
    ((List.range k).map (precisionScore hl)).sum / (qrels.length : α)

/-- The loop filling `weighted_hit_list` (ndcg.py:22-32, rank_biased_precision.py:20-30). -/
def weightedHitList (qrels run : Rows ι α) (k : Nat) : List α :=
  (run.take k).map (fun r => (look qrels r.1).getD 0)

/-- ndcg.py:12-40 `_dcg`, with the gain (`x` or `2**x - 1`) and the discount at 0-based position `i`
(`log2(i + 2)`) as parameters; they are instantiated in `Model/Dcg.lean`. -/
def dcgCore (gain : α → α) (disc : Nat → α) (qrels run : Rows ι α) (k : Nat) (relLvl : α) : α :=
  let qrels := cleanQrels qrels relLvl
  if qrels.length = 0 then 0
  else
    let k := fixK k run
    (((weightedHitList qrels run k).zip (List.range k)).map
      (fun wi => gain wi.1 / disc wi.2)).sum

/-- ndcg.py:51-53 `_idcg`. -/
def idcgCore (gain : α → α) (disc : Nat → α) (qrels : Rows ι α) (k : Nat) (relLvl : α) : α :=
  dcgCore gain disc qrels qrels k relLvl

/-- ndcg.py:56-65 `_ndcg`. -/
def ndcgCore (gain : α → α) (disc : Nat → α) (qrels run : Rows ι α) (k : Nat) (relLvl : α) : α :=
  let dcgScore := dcgCore gain disc qrels run k relLvl
  let idcgScore := idcgCore gain disc qrels k relLvl
  let idcgScore := if idcgScore = 0 then 1 else idcgScore
  dcgScore / idcgScore

/-- rank_biased_precision.py:12-35 `_rank_biased_precision`. -/
def rbp (qrels run : Rows ι α) (p : α) (relLvl : α) : α :=
  let qrels := cleanQrels qrels relLvl
  if qrels.length = 0 then 0
  else
    let w := weightedHitList qrels run run.length
    let pValues := (List.range w.length).map (fun i => p ^ i)
    (1 - p) * ((w.zip pValues).map (fun x => x.1 * x.2)).sum

/-- get_hit_lists.py:12-36 `_get_hit_list`. -/
def getHitList (qrels run : Rows ι α) (k : Nat) (relLvl : α) : List α :=
  let qrels := cleanQrels qrels relLvl
  let k := fixK k run
  if qrels.length = 0 then List.replicate k 0
  else hitList qrels run k

/-- get_unjudged_lists.py:11-35 `_get_unjudged_list`. -/
def getUnjudgedList (qrels run : Rows ι α) (k : Nat) : List α :=
  let k := fixK k run
  if qrels.length = 0 then List.replicate k 1
  else (run.take k).map (fun r => if (look qrels r.1).isSome then 0 else 1)

/-- get_non_rel_lists.py:11-41 `_non_rel_qrels`, `_get_non_rel_list`. -/
def getNonRelList (qrels run : Rows ι α) (k : Nat) : List α :=
  let qrels := qrels.filter (fun r => decide (r.2 = 0))
  let k := fixK k run
  if qrels.length = 0 then List.replicate k 0
  else hitList qrels run k

/-- A float result that may be NaN. -/
inductive Num (α : Type*) where
  | val (x : α)
  | nan
  deriving DecidableEq

/-- `np.cumsum(hit_list == 0)[hit_list == 1]`: for every hit the number of non-hits before it. -/
def nonHitsBefore : List α → Nat → List Nat
  | [], _ => []
  | h :: t, c =>
    let c' := if h = 0 then c + 1 else c
    if h = 1 then c' :: nonHitsBefore t c' else nonHitsBefore t c'

/-- bpref.py:13-30 `_bpref`.  The array division by `min(n_rels, n_non_rels) = 0` gives NaN entries
(numerators are 0 then or the array is empty); the final scalar division by `n_rels = 0` raises. -/
def bpref (qrels run : Rows ι α) (relLvl : α) : Except Err (Num α) :=
  let nRels := (qrels.filter (fun r => decide (relLvl ≤ r.2))).length
  let nNonRels := (qrels.filter (fun r => decide (r.2 < relLvl))).length
  let hl := getHitList qrels run 0 relLvl
  let ul := getUnjudgedList qrels run 0
  let hl := ((hl.zip ul).filter (fun x => decide (x.2 ≠ 1))).map Prod.fst
  let cs := (nonHitsBefore hl 0).map (fun c => min c nRels)
  if nRels = 0 then .error .zeroDivision
  else if min nRels nNonRels = 0 then
    -- x / 0 is NaN for x = 0 (and inf otherwise); one NaN makes the sum NaN
    if cs = [] then .ok (.val 0) else .ok .nan
  else
    .ok (.val ((cs.map (fun c : Nat => 1 - (c : α) / ((min nRels nNonRels : Nat) : α))).sum /
      (nRels : α)))

/-- Python's `max` of a non-empty list of floats -/
def maxList : List α → α
  | [] => 0
  | x :: t => t.foldl max x

/-- interpolated_precision_at_recall.py:12-64 `_interpolated_precision`; `cutoff i` is
`int(cutoff_percents[i] * R + 0.9)` for `R` relevant docs, a parameter (its exact and its float64
value are `exactCutoff` and `flCutoff` of `Model/Plot.lean`). -/
def interpolatedPrecision (cutoff : Nat → Nat → Nat) (qrels run : Rows ι α) (relLvl : α) : List α :=
  let qrels := cleanQrels qrels relLvl
  if qrels.length = 0 then List.replicate 11 0
  else
    let cutoffs := (List.range 11).map (fun i => cutoff i qrels.length)
    let k := run.length
    let hl := hitList qrels run k
    let ps := (List.range k).map (precisionScore hl)
    -- precision_scores[0] = max(precision_scores), where entry 0 was 0.0
    let ps := maxList (0 :: ps) :: ps
    let ps := ps.filter (fun x => decide (x ≠ 0))
    cutoffs.map (fun c => if c < ps.length then maxList (ps.drop c) else 0)

end
end Ranx.Metrics
