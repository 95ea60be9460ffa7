import Verif.Model.Metrics
import Verif.Model.Float64

/-!
# The metric kernels in floating point

The kernels of `Model/Metrics.lean` with a rounding `rnd` after every arithmetic operation; `rnd = F64.fl`
is float64.  `sum` is `np.sum`: the order and bracketing of its additions is left open (`Rnd.IsSum`).
Integers are converted to float64 before a division.
-/

namespace Ranx.Metrics.Rnd
open Ranx.Metrics

variable {ι : Type*} [LinearOrder ι] (rnd : ℚ → ℚ)

/-- a bracketing of a sum -/
inductive SumTree where
  | zero
  | leaf (x : ℚ)
  | node (a b : SumTree)

/-- the numbers added -/
def SumTree.leaves : SumTree → List ℚ
  | .zero => []
  | .leaf x => [x]
  | .node a b => a.leaves ++ b.leaves

/-- the result, rounding after every addition -/
def SumTree.eval : SumTree → ℚ
  | .zero => 0
  | .leaf x => x
  | .node a b => rnd (a.eval + b.eval)

/-- `sum` adds up the elements of a list in some order and bracketing -/
def IsSum (sum : List ℚ → ℚ) : Prop :=
  ∀ l, ∃ t : SumTree, t.leaves.Perm l ∧ sum l = t.eval rnd

/-- hits.py:12-34 -/
def hits (qrels run : Rows ι ℚ) (k : Nat) (relLvl : ℚ) : ℚ :=
  let qrels := cleanQrels qrels relLvl
  if qrels.length = 0 then 0
  else
    let k := fixK k run
    (run.take k).foldl (fun hits r => if (look qrels r.1).isSome then rnd (hits + 1) else hits) 0

/-- precision.py:12-17 -/
def precision (qrels run : Rows ι ℚ) (k : Nat) (relLvl : ℚ) : ℚ :=
  let k := if k ≠ 0 then k else run.length
  if k = 0 then 0
  else rnd (hits rnd qrels run k relLvl / rnd k)

/-- recall.py:13-22 -/
def recall (qrels run : Rows ι ℚ) (k : Nat) (relLvl : ℚ) : ℚ :=
  let qrels := cleanQrels qrels relLvl
  if qrels.length = 0 then 0
  else
    let k := if k ≠ 0 then k else run.length
    if k = 0 then 0
    else rnd (hits rnd qrels run k relLvl / rnd qrels.length)

/-- f1.py:13-29 -/
def f1 (qrels run : Rows ι ℚ) (k : Nat) (relLvl : ℚ) : ℚ :=
  let qrels := cleanQrels qrels relLvl
  if qrels.length = 0 then 0
  else
    let k := if k ≠ 0 then k else run.length
    if k = 0 then 0
    else
      let hitsScore := hits rnd qrels run k relLvl
      let precisionScore := rnd (hitsScore / rnd k)
      let recallScore := rnd (hitsScore / rnd qrels.length)
      if rnd (precisionScore + recallScore) = 0 then 0
      else rnd (2 * rnd (rnd (precisionScore * recallScore) / rnd (precisionScore + recallScore)))

/-- r_precision.py:13-19 -/
def rPrecision (qrels run : Rows ι ℚ) (relLvl : ℚ) : ℚ :=
  let qrels := cleanQrels qrels relLvl
  if qrels.length = 0 then 0
  else precision rnd qrels run qrels.length relLvl

/-- reciprocal_rank.py:19-22: `1 / (i + 1)` -/
def rrLoop (qrels : Rows ι ℚ) : Rows ι ℚ → Nat → ℚ
  | [], _ => 0
  | r :: t, i => if r.1 ∈ qrels.map Prod.fst then rnd (1 / rnd ((i + 1 : Nat) : ℚ)) else rrLoop qrels t (i + 1)

/-- reciprocal_rank.py:12-22 -/
def reciprocalRank (qrels run : Rows ι ℚ) (k : Nat) (relLvl : ℚ) : ℚ :=
  let qrels := cleanQrels qrels relLvl
  if qrels.length = 0 then 0
  else
    let k := fixK k run
    rrLoop rnd qrels (run.take k) 0

/-- average_precision.py:34-40 -/
def precisionScore (sum : List ℚ → ℚ) (hitList : List ℚ) (r : Nat) : ℚ :=
  if hitList.getD r 0 ≠ 0 then rnd (sum (hitList.take (r + 1)) / rnd ((r + 1 : Nat) : ℚ)) else 0

/-- average_precision.py:12-42 -/
def averagePrecision (sum : List ℚ → ℚ) (qrels run : Rows ι ℚ) (k : Nat) (relLvl : ℚ) : ℚ :=
  let qrels := cleanQrels qrels relLvl
  if qrels.length = 0 then 0
  else
    let k := fixK k run
    let hl := hitList qrels run k
    rnd (sum ((List.range k).map (precisionScore rnd sum hl)) / rnd qrels.length)

/-- bpref.py:13-30 -/
def bpref (sum : List ℚ → ℚ) (qrels run : Rows ι ℚ) (relLvl : ℚ) : Except Err (Num ℚ) :=
  let nRels := (qrels.filter (fun r => decide (relLvl ≤ r.2))).length
  let nNonRels := (qrels.filter (fun r => decide (r.2 < relLvl))).length
  let hl := getHitList qrels run 0 relLvl
  let ul := getUnjudgedList qrels run 0
  let hl := ((hl.zip ul).filter (fun x => decide (x.2 ≠ 1))).map Prod.fst
  let cs := (nonHitsBefore hl 0).map (fun c => min c nRels)
  if nRels = 0 then .error .zeroDivision
  else if min nRels nNonRels = 0 then
    if cs = [] then .ok (.val 0) else .ok .nan
  else
    .ok (.val (rnd (sum (cs.map (fun c : Nat => rnd (1 - rnd (rnd (c : ℚ) / rnd ((min nRels nNonRels : Nat) : ℚ))))) /
      rnd (nRels : ℚ))))

/-- interpolated_precision_at_recall.py:12-64 -/
def interpolatedPrecision (sum : List ℚ → ℚ) (cutoff : Nat → Nat → Nat) (qrels run : Rows ι ℚ)
    (relLvl : ℚ) : List ℚ :=
  let qrels := cleanQrels qrels relLvl
  if qrels.length = 0 then List.replicate 11 0
  else
    let cutoffs := (List.range 11).map (fun i => cutoff i qrels.length)
    let k := run.length
    let hl := hitList qrels run k
    let ps := (List.range k).map (precisionScore rnd sum hl)
    let ps := maxList (0 :: ps) :: ps
    let ps := ps.filter (fun x => decide (x ≠ 0))
    cutoffs.map (fun c => if c < ps.length then maxList (ps.drop c) else 0)

/-- ndcg.py:12-40 `_dcg`.  `gain` is the float gain of a relevance (`x`, or `burgesGain` below) and `disc i`
the float `np.log2(i + 2)`. -/
def dcg (sum : List ℚ → ℚ) (gain : ℚ → ℚ) (disc : Nat → ℚ) (qrels run : Rows ι ℚ) (k : Nat) (relLvl : ℚ) : ℚ :=
  let qrels := cleanQrels qrels relLvl
  if qrels.length = 0 then 0
  else
    let k := fixK k run
    sum (((weightedHitList qrels run k).zip (List.range k)).map (fun wi => rnd (gain wi.1 / disc wi.2)))

/-- ndcg.py:37-38 `2**x - 1` for an integral relevance `x` (the power of two is exact, barring overflow) -/
def burgesGain (x : ℚ) : ℚ := rnd ((2 : ℚ) ^ x.num - 1)

/-- ndcg.py:56-65 `_ndcg` (with ndcg.py:51-53 `_idcg`) -/
def ndcg (sum : List ℚ → ℚ) (gain : ℚ → ℚ) (disc : Nat → ℚ) (qrels run : Rows ι ℚ) (k : Nat) (relLvl : ℚ) : ℚ :=
  let dcgScore := dcg rnd sum gain disc qrels run k relLvl
  let idcgScore := dcg rnd sum gain disc qrels qrels k relLvl
  let idcgScore := if idcgScore = 0 then 1 else idcgScore
  rnd (dcgScore / idcgScore)

/-- rank_biased_precision.py:12-35 `_rank_biased_precision`; `pow i` is the float `p ** i`; the built-in `sum`
adds from left to right. -/
def rbp (pow : Nat → ℚ) (qrels run : Rows ι ℚ) (p : ℚ) (relLvl : ℚ) : ℚ :=
  let qrels := cleanQrels qrels relLvl
  if qrels.length = 0 then 0
  else
    let w := weightedHitList qrels run run.length
    let pValues := (List.range w.length).map pow
    rnd (rnd (1 - p) * ((w.zip pValues).map (fun x => rnd (x.1 * x.2))).foldl (fun a x => rnd (a + x)) 0)

/-- `np.mean` of the scores of a metric (evaluate.py:151, 162, 167): sum divided by the number of queries -/
def mean (sum : List ℚ → ℚ) (scores : List ℚ) : ℚ := rnd (sum scores / rnd scores.length)

end Ranx.Metrics.Rnd
