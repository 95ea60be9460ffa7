import Verif.Model.Special
import Verif.Model.Fusion

/-!
# Fusion of runs with infinite or NaN scores

The loops over docs, queries and runs are the ones of `Model/Fusion.lean` (`Fuse.fuseRun`), used with `X α` as type of
scores; only the computation of one doc's score is modelled once more.  `comb_med` is left out: NumPy's median of an array
with `nan` is not modelled.
-/

namespace Ranx.Special
open X
open _root_.Ranx.Norm (Results)
variable {κ δ α : Type*} [DecidableEq δ] [Field α] [LinearOrder α]

/-- `0.0`; `x == False` in the loops (e.g. comb_sum.py:23) holds for no other float, in particular not for `nan` -/
instance : Zero (X α) := ⟨.fin 0⟩

/-- comb_sum.py:24-26: `sum([res.get(doc_id, 0.0) for res in results])` -/
def sumScore : Fuse.Score δ (X α) := fun results d => .ok (sumX (results.map (fun res => (res.get? d).getD 0)))

/-- comb_max.py:24-26: `max([res.get(doc_id, -1e9) for res in results])`; numba's `max(iterable)` as in `safeMax` -/
def maxScore : Fuse.Score δ (X α) := fun results d =>
  match results.map (fun res => (res.get? d).getD (.fin (-(10 ^ 9)))) with
  | [] => .error .valueError
  | x :: t => .ok (t.foldl (fun best v => if gt v best then v else best) x)

/-- comb_min.py:24-26: `min([res.get(doc_id, 1e9) for res in results])` -/
def minScore : Fuse.Score δ (X α) := fun results d =>
  match results.map (fun res => (res.get? d).getD (.fin (10 ^ 9))) with
  | [] => .error .valueError
  | x :: t => .ok (t.foldl (fun best v => if lt v best then v else best) x)

/-- comb_anz.py:25-26: `sum(scores) / len(scores)` -/
def anzScore : Fuse.Score δ (X α) := fun results d =>
  let scores := Fuse.present results d
  .ok (div (sumX scores) (.fin (scores.length : α)))

/-- comb_mnz.py:25-26: `sum(scores) * len(scores)` -/
def mnzScore : Fuse.Score δ (X α) := fun results d =>
  let scores := Fuse.present results d
  .ok (mul (sumX scores) (.fin (scores.length : α)))

/-- `weights[i]` -/
def weightAt (ws : List (X α)) (i : Nat) : Except Err (X α) :=
  match ws[i]? with
  | none => .error .indexError
  | some w => .ok w

/-- wsum.py:24-26: `sum([weights[i] * res.get(doc_id, 0.0) for i, res in enumerate(results)])` -/
def wsumScore (ws : List (X α)) : Fuse.Score δ (X α) := fun results d =>
  match Eval.collect (results.zipIdx.map (fun ri =>
      (weightAt ws ri.2).map (fun w => mul w ((ri.1.get? d).getD 0)))) with
  | .error e => .error e
  | .ok l => .ok (sumX l)

variable [LinearOrder κ] (S : ArgSort (X α)) (sched : List Nat) (runs : List (Dict κ (Results δ (X α))))

/-- comb_sum.py:44-73 -/
def combSum : Except Err (Store κ δ (X α)) := Fuse.fuseRun S sumScore sched runs
/-- comb_min.py:44-73 -/
def combMin : Except Err (Store κ δ (X α)) := Fuse.fuseRun S minScore sched runs
/-- comb_max.py:44-73 -/
def combMax : Except Err (Store κ δ (X α)) := Fuse.fuseRun S maxScore sched runs
/-- comb_anz.py:44-73 -/
def combAnz : Except Err (Store κ δ (X α)) := Fuse.fuseRun S anzScore sched runs
/-- comb_mnz.py:44-73 -/
def combMnz : Except Err (Store κ δ (X α)) := Fuse.fuseRun S mnzScore sched runs
/-- wsum.py:44-61 -/
def wsum (ws : List (X α)) : Except Err (Store κ δ (X α)) := Fuse.fuseRun S (wsumScore ws) sched runs

end Ranx.Special
