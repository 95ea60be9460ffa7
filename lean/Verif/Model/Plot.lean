import Verif.Model.Grid
import Verif.Model.Report

/-!
# `plot` (`ranx/meta/plot.py`): the data frame of the precision-recall curve

Only `return_graph=False`; drawing (matplotlib, seaborn) is not modelled.
-/

namespace Ranx
open Dict Store Eval Metrics

/-- interpolated_precision_at_recall.py:23-24 in exact arithmetic: the number of relevant docs required for
recall `i/10`, `int(i/10 * R + 0.9)`, which is `⌈i·R/10⌉` -/
def exactCutoff (i R : Nat) : Nat := (i * R + 9) / 10

/-- interpolated_precision_at_recall.py:19-24 in binary64: `int(cutoff_percents[i] * qrels.shape[0] + 0.9)`
(two rounded operations, no fused multiply-add) -/
def flCutoff (i R : Nat) : Nat :=
  ⌊F64.fl (F64.fl (F64.fl ((i : ℚ) / 10) * (R : ℚ)) + F64.fl (9 / 10))⌋.toNat

namespace Plot
open Py (Str natStr)
variable {κ δ ι α : Type*}

section
variable [LinearOrder ι] [Field α] [LinearOrder α]

/-- interpolated_precision_at_recall.py:67-72, 94 with `rel_lvl = 1`: one row of eleven scores per query, in the
order `sched`; `run[i]` on a shorter typed list raises `IndexError` -/
def interpolatedRows (cutoff : Nat → Nat → Nat) (sched : List Nat) (qrels run : List (Rows ι α)) :
    Except Err (List (List α)) :=
  if run.length < qrels.length then .error .indexError
  else .ok (prange (List.replicate qrels.length (List.replicate 11 0))
    (fun i => interpolatedPrecision cutoff ((qrels[i]?).getD []) ((run[i]?).getD []) 1) sched)

/-- `.mean(axis=0)` of an array with eleven columns -/
def meanAxis0 (rows : List (List α)) : List α :=
  (List.range 11).map (fun j => (rows.map (fun r => (r[j]?).getD 0)).sum / (rows.length : α))

end

/-- plot.py:42 `np.arange(0, 1.1, 0.1)` -/
def recallLevels : Except Err (List ℚ) := Opt.npArange F64.fl 0 (F64.fl (11 / 10)) (F64.fl (1 / 10))

/-- plot.py:28-36 the names in the legend; `single` if `runs` is a `Run` and not a list -/
def plotName (single : Bool) (i : Nat) (name : Option Str) : Str :=
  match name with
  | some n => n
  | none => if single then "run".toList else "run_".toList ++ natStr (i + 1)

section
variable [LinearOrder κ] [DecidableEq δ] [LinearOrder ι] [Field α] [LinearOrder α]

/-- plot.py:38-40: the curves of the runs, in turn -/
def curves (cutoff : Nat → Nat → Nat) (sched : Nat → List Nat) (ql : List (Rows ι α)) :
    List (List (Rows ι α)) → Except Err (List (List α))
  | [] => .ok []
  | rl :: rest =>
    match interpolatedRows cutoff (sched 0) ql rl with
    | .error e => .error e
    | .ok rows =>
      match curves cutoff (fun i => sched (i + 1)) ql rest with
      | .error e => .error e
      | .ok cs => .ok (meanAxis0 rows :: cs)

/-- plot.py:42-50: the columns of the data frame put side by side; `np.concatenate` of no arrays and columns
of different lengths are ValueErrors -/
def frame (names : List Str) (levels : List ℚ) (results : List (List α)) : Except Err (List (Str × ℚ × α)) :=
  let model := names.flatMap (fun n => List.replicate 11 n)
  let recall := (List.replicate results.length levels).flatten
  let precision := results.flatten
  if results = [] then .error .valueError
  else if model.length ≠ recall.length ∨ model.length ≠ precision.length then .error .valueError
  else .ok (model.zip (recall.zip precision))

/-- plot.py:12-53 `plot(qrels, runs, return_graph=False)`: the qrels and the runs afterwards (`to_typed_list` may
sort them in place), and the rows (Model, recall, precision) of the data frame -/
def plot (cutoff : Nat → Nat → Nat) (SQ : ArgSort Int) (SR : ArgSort α) (hash : δ → ι)
    (sched : Nat → List Nat) (single : Bool) (s : Store κ δ Int) (runs : List (Option Str × Store κ δ α)) :
    Store κ δ Int × List (Store κ δ α) × Except Err (List (Str × ℚ × α)) :=
  let (s', ql) := s.toTypedList SQ hash (fun z : Int => (z : α))
  let typed := runs.map (fun r => r.2.toTypedList SR hash id)
  let names := runs.zipIdx.map (fun r => plotName single r.2 r.1.1)
  (s', typed.map Prod.fst,
    match curves cutoff sched ql (typed.map Prod.snd) with
    | .error e => .error e
    | .ok cs =>
      match recallLevels with
      | .error e => .error e
      | .ok levels => frame names levels cs)

end
end Plot
end Ranx
