import Verif.Model.Evaluate

/-!
# `evaluate` on pre-converted arrays, and the metric functions themselves

`evaluate` and the functions of `ranx.metrics` also accept numba typed lists (or three-dimensional arrays) of
two-column arrays, one per query: doc id and score, e.g. made by `to_typed_list` or `python_dict_to_typed_list`.
`Model/Evaluate.lean` has the case of two objects or dictionaries; here all combinations.
-/

namespace Ranx.Eval
open Metrics Py
variable {κ δ ι α : Type*}

section
variable [LinearOrder ι] [Field α] [LinearOrder α]

/-- the public metric functions called directly: `hits(qrels, run, k, rel_lvl)` (hits.py:47-72), `precision`
(precision.py:34-75), `ndcg` (ndcg.py), …: the check of `k`, then the parallel loop -/
def metricFunction (F : Fn α) (m : Metric) (k : Param α) (lvl : Int) (sched : List Nat)
    (qrels run : List (Rows ι α)) : Except Err (List (Num α)) :=
  match kernel F m k lvl with
  | .error e => .error e
  | .ok f => parallel f sched qrels run

end

/-- the `qrels` argument of evaluate.py:66-71 -/
inductive QrelsIn (κ δ ι α : Type*) where
  | given (q : QrelsArg κ δ α)
  | arrays (l : List (Rows ι α))

/-- the `run` argument of evaluate.py:72-77 -/
inductive RunIn (κ δ ι α : Type*) where
  | given (r : RunArg κ δ α)
  | arrays (l : List (Rows ι α))

section
variable [LinearOrder κ] [DecidableEq δ] [LinearOrder ι] [Field α] [LinearOrder α]

/-- evaluate.py:131-132: `make_comparable` is ignored for arrays -/
def prepareAny (SR : ArgSort α) (o : Opts) : QrelsIn κ δ ι α → RunIn κ δ ι α → RunIn κ δ ι α
  | .given q, .given r => .given (prepare SR o q r)
  | _, r => r

/-- evaluate.py:134-135: `check_keys`, only if both arguments have keys -/
def checkAny : QrelsIn κ δ ι α → RunIn κ δ ι α → Bool
  | .given q, .given r => sameKeys q.keys r.keys
  | _, _ => true

/-- evaluate.py:43-48 `convert_qrels`: arrays are used as they are -/
def convertQrelsAny (SQ : ArgSort Int) (SR : ArgSort α) (hash : δ → ι) :
    QrelsIn κ δ ι α → Except Err (QrelsIn κ δ ι α × List (Rows ι α))
  | .given q => (convertQrels SQ SR hash q).map (fun p => (.given p.1, p.2))
  | .arrays l => .ok (.arrays l, l)

/-- evaluate.py:51-56 `convert_run` -/
def convertRunAny (SR : ArgSort α) (hash : δ → ι) :
    RunIn κ δ ι α → Except Err (RunIn κ δ ι α × List (Rows ι α))
  | .given r => (convertRun SR hash r).map (fun p => (.given p.1, p.2))
  | .arrays l => .ok (.arrays l, l)

/-- evaluate.py:151-155: save one metric's results in the run. With `qrels` given as arrays there may be fewer scores
than queries in the run: `scores[i]` then raises `IndexError` (after the mean and the scores that exist were saved;
the right side is evaluated before `run.scores[m]`). -/
def saveAny (F : Fn α) (returnStd : Bool) (r : RunObj κ δ α) (m : Str) (scores : List (Num α)) :
    RunObj κ δ α × Except Err Unit :=
  let qs := r.store.data.keys
  let old := (r.scores.get? m).getD []
  ({ r with
      meanScores := r.meanScores.set m (mean scores)
      stdScores := if returnStd then r.stdScores.set m (std F scores) else r.stdScores
      scores := if qs = [] ∨ scores = [] then r.scores
        else r.scores.set m ((qs.zip scores).foldl (fun d p => d.set p.1 p.2) old) },
    if scores.length < qs.length then .error .indexError else .ok ())

/-- evaluate.py:150-155: all metrics -/
def saveEach (F : Fn α) (returnStd : Bool) :
    RunObj κ δ α → List (Str × List (Num α)) → RunObj κ δ α × Except Err Unit
  | r, [] => (r, .ok ())
  | r, (m, scores) :: t =>
    match saveAny F returnStd r m scores with
    | (r', .error e) => (r', .error e)
    | (r', .ok ()) => saveEach F returnStd r' t

/-- evaluate.py:149: `type(run) == Run and save_results_in_run` -/
def saveIn (F : Fn α) (o : Opts) (returnStd : Bool) (d : Dict Str (List (Num α))) :
    RunIn κ δ ι α → RunIn κ δ ι α × Except Err Unit
  | .given (.obj r) =>
    if o.save then ((.given (.obj (saveEach F returnStd r d).1)), (saveEach F returnStd r d).2)
    else (.given (.obj r), .ok ())
  | run => (run, .ok ())

/-- `type(run) == Run` -/
def RunIn.isRun : RunIn κ δ ι α → Bool
  | .given (.obj _) => true
  | _ => false

/-- evaluate.py:65-169 `evaluate` for all types of arguments: the arguments afterwards and what is returned -/
def evaluateAny (F : Fn α) (other : Str → Except Err α) (SQ : ArgSort Int) (SR : ArgSort α)
    (hash : δ → ι) (sched : Nat → List Nat) (o : Opts) (qrels : QrelsIn κ δ ι α)
    (run : RunIn κ δ ι α) (metrics : List Str) : (QrelsIn κ δ ι α × RunIn κ δ ι α) × Except Err (Out α) :=
  let returnStd := o.returnMean && o.returnStd
  let run := prepareAny SR o qrels run
  if !checkAny qrels run then ((qrels, run), .error .assertionError)
  else
    match convertQrelsAny SQ SR hash qrels with
    | .error e => ((qrels, run), .error e)
    | .ok (qrels, ql) =>
      match convertRunAny SR hash run with
      | .error e => ((qrels, run), .error e)
      | .ok (run, rl) =>
        match scoreAll F other sched ql rl metrics.zipIdx [] with
        | .error e => ((qrels, run), .error e)
        | .ok d =>
          match saveIn F o returnStd d run with
          | (run', .error e) => ((qrels, run'), .error e)
          | (run', .ok ()) =>
            let out : Dict Str (Value α) := d.map (fun p => (p.1, present F o returnStd p.2))
            match metrics with
            | [metric] =>
              match out.get? (lastM other o run.isRun metric) with
              | some v => ((qrels, run'), .ok (.single v))
              | none => ((qrels, run'), .error .keyError)
            | _ => ((qrels, run'), .ok (.dict out))

end
end Ranx.Eval
