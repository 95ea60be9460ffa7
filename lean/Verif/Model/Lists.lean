import Verif.Model.Evaluate

/-!
# The public functions `get_hit_lists`, `get_unjudged_lists`, `get_non_rel_lists`

One list per query; the kernels are in `Model/Metrics.lean`.
-/

namespace Ranx.Metrics
variable {ι α : Type*} [LinearOrder ι] [Field α] [LinearOrder α]

/-- `_get_hit_list_parallel`, `_get_unjudged_list_parallel`, `_get_non_rel_list_parallel`
(get_hit_lists.py:38-43, get_unjudged_lists.py:36-43, get_non_rel_lists.py:42-47): slots filled with `[1.0]`,
`lists[i] = kernel(qrels[i], run[i])`; a missing `run[i]` is an IndexError -/
def listsParallel (f : Rows ι α → Rows ι α → List α) (sched : List Nat) (qrels run : List (Rows ι α)) :
    Except Err (List (List α)) :=
  if run.length < qrels.length then .error .indexError
  else .ok (prange (List.replicate qrels.length [1])
    (fun i => f ((qrels[i]?).getD []) ((run[i]?).getD [])) sched)

/-- the assertion `k >= 0` of the three functions (get_hit_lists.py:71, get_unjudged_lists.py:68,
get_non_rel_lists.py:72) -/
def withDepth (k : Int) (f : Nat → Except Err (List (List α))) : Except Err (List (List α)) :=
  match k with
  | .ofNat n => f n
  | .negSucc _ => .error .assertionError

/-- get_hit_lists.py:47-73 `get_hit_lists` -/
def getHitLists (sched : List Nat) (qrels run : List (Rows ι α)) (k : Int) (relLvl : α) :
    Except Err (List (List α)) :=
  withDepth k fun n => listsParallel (fun q r => getHitList q r n relLvl) sched qrels run

/-- get_unjudged_lists.py:46-70 `get_unjudged_lists` -/
def getUnjudgedLists (sched : List Nat) (qrels run : List (Rows ι α)) (k : Int) :
    Except Err (List (List α)) :=
  withDepth k fun n => listsParallel (fun q r => getUnjudgedList q r n) sched qrels run

/-- get_non_rel_lists.py:50-74 `get_non_rel_lists` -/
def getNonRelLists (sched : List Nat) (qrels run : List (Rows ι α)) (k : Int) :
    Except Err (List (List α)) :=
  withDepth k fun n => listsParallel (fun q r => getNonRelList q r n) sched qrels run

end Ranx.Metrics
