import Verif.Model.Metrics
import Verif.Model.Store
import Verif.Model.Prange
import Verif.Model.PyStr

/-!
# `evaluate` (`ranx/meta/evaluate.py`) and the metric dispatch (`ranx/metrics/__init__.py`)

`α` is the type of scores (exact arithmetic).  `log2`, `2**x` and `sqrt` are a parameter `Fn α`, so
that the model can be run on ℚ; `Props/Evaluate.lean` also instantiates it with the real functions.
`set_num_threads` (evaluate.py:123-126) is not modelled: results do not depend on the schedule (C35).
-/

namespace Ranx.Eval
open Metrics Py

/-- the transcendental functions used by dcg and `np.std` -/
structure Fn (α : Type*) where
  /-- `np.log2(i + 2)` -/
  log2Disc : Nat → α
  /-- `2**x` -/
  pow2 : α → α
  /-- `np.sqrt` -/
  sqrt : α → α

/-- the functions `metric_switch` can return -/
inductive Metric where
  | hits | hitRate | precision | recall | f1 | rPrecision | mrr | map
  | dcg | dcgBurges | ndcg | ndcgBurges | bpref | rbp
  deriving DecidableEq, Repr

/-- metrics/__init__.py:35-67 `metric_switch`. -/
def metricSwitch (m : Str) : Except Err Metric :=
  if m = "hits".toList then .ok .hits
  else if m = "hit_rate".toList then .ok .hitRate
  else if m = "precision".toList then .ok .precision
  else if m = "recall".toList then .ok .recall
  else if m = "f1".toList then .ok .f1
  else if m = "r-precision".toList then .ok .rPrecision
  else if m = "mrr".toList then .ok .mrr
  else if m = "map".toList then .ok .map
  else if m = "dcg".toList then .ok .dcg
  else if m = "dcg_burges".toList then .ok .dcgBurges
  else if m = "ndcg".toList then .ok .ndcg
  else if m = "ndcg_burges".toList then .ok .ndcgBurges
  else if m = "bpref".toList then .ok .bpref
  else if m = "rbp".toList then .ok .rbp
  else .error .valueError

/-- the value `k` extracted from a metric string: an int cutoff or (rbp) a float persistence -/
inductive Param (α : Type*) where
  | cutoff (k : Int)
  | persistence (p : α)
  deriving DecidableEq

section
variable {α : Type*} [Field α]

/-- `float(f"0.{k}")`: a string of ASCII digits is the decimal fraction; whatever else Python's float
syntax accepts or rejects after `0.` is left to the parameter `other`. -/
def pyFrac (other : Str → Except Err α) (k : Str) : Except Err α :=
  if k.all Char.isDigit then .ok ((Nat.ofDigitChars 10 k 0 : α) / 10 ^ k.length) else other k

/-- `int(s)` with its ValueError -/
def pyIntE (s : Str) : Except Err Int :=
  match pyInt s with
  | some z => .ok z
  | none => .error .valueError

/-- evaluate.py:19-40 `extract_metric_and_params`. -/
def extract (other : Str → Except Err α) (metric : Str) : Except Err (Str × Param α × Int) :=
  -- `if "-l" in metric: metric, rel_lvl = metric.split("-l")`
  let parts : Except Err (Str × Option Str) :=
    if hasSub "-l".toList metric then
      match split2 '-' 'l' metric with
      | [m, l] => .ok (m, some l)
      | _ => .error .valueError
    else .ok (metric, none)
  match parts with
  | .error e => .error e
  | .ok (metric, lvl) =>
    let mk : Except Err (Str × Param α) :=
      if hasSub "rbp".toList metric then
        let split : Except Err (List Str) :=
          if '.' ∈ metric then .ok (splitChar '.' metric)
          else if '@' ∈ metric then .ok (splitChar '@' metric)
          else .error .valueError
        match split with
        | .ok (m :: k :: _) =>
          match pyFrac other k with
          | .ok p => .ok (m, .persistence p)
          | .error e => .error e
        | .ok _ => .error .indexError
        | .error e => .error e
      else
        match splitChar '@' metric with
        | m :: k :: _ =>
          match pyIntE k with
          | .ok z => .ok (m, .cutoff z)
          | .error e => .error e
        | m :: [] => .ok (m, .cutoff 0)
        | [] => .error .indexError
    match mk with
    | .error e => .error e
    | .ok (m, k) =>
      match lvl with
      | none => .ok (m, k, 1)
      | some l =>
        match pyIntE l with
        | .ok z => .ok (m, k, z)
        | .error e => .error e

end

variable {κ δ ι α : Type*}

section
variable [LinearOrder ι] [Field α] [LinearOrder α]

/-- one query's score -/
abbrev Kernel (ι α : Type*) := Rows ι α → Rows ι α → Except Err (Num α)

/-- a kernel that cannot fail -/
def total (f : Rows ι α → Rows ι α → α) : Kernel ι α := fun q r => .ok (.val (f q r))

/-- `assert k >= 0` of the high level functions (e.g. hits.py:70); a float `k` for an int cutoff is a
numba typing error. -/
def withCutoff (k : Param α) (f : Nat → Kernel ι α) : Except Err (Kernel ι α) :=
  match k with
  | .cutoff (.ofNat n) => .ok (f n)
  | .cutoff (.negSucc _) => .error .assertionError
  | .persistence _ => .error .typeError

/-- The high level metric functions (e.g. hits.py:47-72, r_precision.py:31-59, bpref.py:42-75,
rank_biased_precision.py:47-79) called as `metric_switch(m)(_qrels, _run, k, rel_lvl)`. -/
def kernel (F : Fn α) (m : Metric) (k : Param α) (lvl : Int) : Except Err (Kernel ι α) :=
  let l : α := (lvl : α)
  match m with
  | .hits => withCutoff k (fun n => total (fun q r => Metrics.hits q r n l))
  | .hitRate => withCutoff k (fun n => total (fun q r => Metrics.hitRate q r n l))
  | .precision => withCutoff k (fun n => total (fun q r => Metrics.precision q r n l))
  | .recall => withCutoff k (fun n => total (fun q r => Metrics.recall q r n l))
  | .f1 => withCutoff k (fun n => total (fun q r => Metrics.f1 q r n l))
  | .rPrecision => .ok (total (fun q r => Metrics.rPrecision q r l))
  | .mrr => withCutoff k (fun n => total (fun q r => Metrics.reciprocalRank q r n l))
  | .map => withCutoff k (fun n => total (fun q r => Metrics.averagePrecision q r n l))
  | .dcg => withCutoff k (fun n => total (fun q r => Metrics.dcgCore id F.log2Disc q r n l))
  | .dcgBurges => withCutoff k (fun n =>
      total (fun q r => Metrics.dcgCore (fun x => F.pow2 x - 1) F.log2Disc q r n l))
  | .ndcg => withCutoff k (fun n => total (fun q r => Metrics.ndcgCore id F.log2Disc q r n l))
  | .ndcgBurges => withCutoff k (fun n =>
      total (fun q r => Metrics.ndcgCore (fun x => F.pow2 x - 1) F.log2Disc q r n l))
  | .bpref => .ok (fun q r => Metrics.bpref q r l)
  | .rbp =>
    match k with
    | .persistence p => .ok (total (fun q r => Metrics.rbp q r p l))
    | .cutoff z => .ok (total (fun q r => Metrics.rbp q r (z : α) l))

/-- evaluate.py:145-146: the function a metric string stands for -/
def metricOf (F : Fn α) (other : Str → Except Err α) (metric : Str) : Except Err (Kernel ι α) :=
  match extract other metric with
  | .error e => .error e
  | .ok (m, k, lvl) =>
    match metricSwitch m with
    | .error e => .error e
    | .ok met => kernel F met k lvl

/-- The exceptions of the iterations: the loop fails if one iteration does. (How numba
reports exceptions of parallel iterations is not modelled further.) -/
def collect {ν : Type*} : List (Except Err ν) → Except Err (List ν)
  | [] => .ok []
  | .error e :: _ => .error e
  | .ok v :: t =>
    match collect t with
    | .ok vs => .ok (v :: vs)
    | .error e => .error e

/-- The `_…_parallel` functions (e.g. hits.py:37-42): `scores[i] = kernel(qrels[i], run[i])` for
`i in prange(len(qrels))`, iterations taking effect in the order `sched`. -/
def parallel (f : Kernel ι α) (sched : List Nat) (qrels run : List (Rows ι α)) :
    Except Err (List (Num α)) :=
  if run.length < qrels.length then .error .indexError
  else collect (prange (List.replicate qrels.length (.ok (.val 0)))
    (fun i => f ((qrels[i]?).getD []) ((run[i]?).getD [])) sched)

end

section
variable [Field α]

/-- values of a float array, `none` if there is a NaN -/
def vals : List (Num α) → Option (List α)
  | [] => some []
  | .nan :: _ => none
  | .val x :: t => (vals t).map (fun l => x :: l)

/-- `np.mean`: NaN for an empty array or if an entry is NaN -/
def mean (l : List (Num α)) : Num α :=
  match vals l with
  | some (x :: t) => .val ((x :: t).sum / ((x :: t).length : α))
  | _ => .nan

/-- `np.std` -/
def std (F : Fn α) (l : List (Num α)) : Num α :=
  match vals l with
  | some (x :: t) =>
    let n : α := ((x :: t).length : α)
    let m := (x :: t).sum / n
    .val (F.sqrt (((x :: t).map (fun s => (s - m) ^ 2)).sum / n))
  | _ => .nan

end

/-- A `Run` object with its saved results (run.py:47-75); `scores` is a `defaultdict(dict)`. -/
structure RunObj (κ δ α : Type*) where
  store : Store κ δ α
  scores : Dict Str (Dict κ (Num α))
  meanScores : Dict Str (Num α)
  stdScores : Dict Str (Num α)

/-- `qrels` / `run` arguments: objects or plain dictionaries (pre-converted lists are passed straight
to `parallel`) -/
inductive QrelsArg (κ δ α : Type*) where
  | obj (s : Store κ δ Int)
  | dict (d : Dict κ (Dict δ α))

inductive RunArg (κ δ α : Type*) where
  | obj (r : RunObj κ δ α)
  | dict (d : Dict κ (Dict δ α))

/-- one metric's entry of the returned value -/
inductive Value (α : Type*) where
  | scores (l : List (Num α))
  | mean (x : Num α)
  | meanStd (m s : Num α)
  deriving DecidableEq

/-- what `evaluate` returns -/
inductive Out (α : Type*) where
  | single (v : Value α)
  | dict (d : Dict Str (Value α))
  deriving DecidableEq

/-- keyword arguments -/
structure Opts where
  returnMean : Bool := true
  returnStd : Bool := false
  save : Bool := true
  makeComparable : Bool := false

section
variable [LinearOrder κ] [DecidableEq δ] [LinearOrder ι] [Field α] [LinearOrder α]

/-- utils.py:11-13 `descending_sort`: `x[np.argsort(x[:, 1])[::-1]]`. -/
def descendingSort (S : ArgSort α) (x : Rows ι α) : Rows ι α :=
  (S.run (x.map Prod.snd)).reverse.filterMap (fun i => x[i]?)

/-- utils.py:24-44 `python_dict_to_typed_list(x, sort=True)`.  A query without docs gives a
one-dimensional array, which the typed list / the sort rejects with a typing error. -/
def dictToTypedList (S : ArgSort α) (hash : δ → ι) (x : Dict κ (Dict δ α)) :
    Except Err (List (Rows ι α)) :=
  if x.values.any (fun d => d.isEmpty) then .error .typeError
  else .ok (x.values.map (fun d => descendingSort S (d.map (fun p => (hash p.1, p.2)))))

/-- keys view equality: equality as sets (evaluate.py:59-62 `check_keys`) -/
def sameKeys (a b : List κ) : Bool := a.all (fun q => b.contains q) && b.all (fun q => a.contains q)

/-- query ids of the arguments -/
def QrelsArg.keys : QrelsArg κ δ α → List κ
  | .obj s => s.data.keys
  | .dict d => d.keys

def RunArg.keys : RunArg κ δ α → List κ
  | .obj r => r.store.data.keys
  | .dict d => d.keys

/-- evaluate.py:131-132: `make_comparable` is honoured for objects only. -/
def prepare (SR : ArgSort α) (o : Opts) (qrels : QrelsArg κ δ α) (run : RunArg κ δ α) : RunArg κ δ α :=
  if o.makeComparable then
    match qrels, run with
    | .obj q, .obj r => .obj { r with store := r.store.makeComparable SR q.data.keys }
    | _, r => r
  else run

/-- evaluate.py:43-48 `convert_qrels` (objects are sorted in place if not flagged sorted). -/
def convertQrels (SQ : ArgSort Int) (SR : ArgSort α) (hash : δ → ι) :
    QrelsArg κ δ α → Except Err (QrelsArg κ δ α × List (Rows ι α))
  | .obj s =>
    let (s', l) := s.toTypedList SQ hash (fun z => (z : α))
    .ok (.obj s', l)
  | .dict d =>
    match dictToTypedList SR hash d with
    | .ok l => .ok (.dict d, l)
    | .error e => .error e

/-- evaluate.py:51-56 `convert_run`. -/
def convertRun (SR : ArgSort α) (hash : δ → ι) :
    RunArg κ δ α → Except Err (RunArg κ δ α × List (Rows ι α))
  | .obj r =>
    let (s', l) := r.store.toTypedList SR hash id
    .ok (.obj { r with store := s' }, l)
  | .dict d =>
    match dictToTypedList SR hash d with
    | .ok l => .ok (.dict d, l)
    | .error e => .error e

/-- evaluate.py:143-146: `metric_scores_dict`; the i-th metric's loop is scheduled by `sched i`. -/
def scoreAll (F : Fn α) (other : Str → Except Err α) (sched : Nat → List Nat)
    (qrels run : List (Rows ι α)) : List (Str × Nat) → Dict Str (List (Num α)) →
    Except Err (Dict Str (List (Num α)))
  | [], acc => .ok acc
  | (m, i) :: t, acc =>
    match metricOf F other m with
    | .error e => .error e
    | .ok f =>
      match parallel f (sched i) qrels run with
      | .error e => .error e
      | .ok scores => scoreAll F other sched qrels run t (acc.set m scores)

/-- evaluate.py:150-155: save one metric's results in the run. `defaultdict(dict)`: a missing
`run.scores[m]` starts empty. -/
def saveOne (F : Fn α) (returnStd : Bool) (r : RunObj κ δ α) (m : Str) (scores : List (Num α)) :
    RunObj κ δ α :=
  let qs := r.store.data.keys
  let old := (r.scores.get? m).getD []
  { r with
    meanScores := r.meanScores.set m (mean scores)
    stdScores := if returnStd then r.stdScores.set m (std F scores) else r.stdScores
    scores := if qs = [] then r.scores
      else r.scores.set m ((qs.zip scores).foldl (fun d p => d.set p.1 p.2) old) }

/-- evaluate.py:158-167 -/
def present (F : Fn α) (o : Opts) (returnStd : Bool) (scores : List (Num α)) : Value α :=
  if o.returnMean then
    if returnStd then .meanStd (mean scores) (std F scores) else .mean (mean scores)
  else .scores scores

/-- the variable `m` when the return statement is reached: the last loop that ran leaves the metric
string in it; if neither the saving loop nor the mean loop ran, it is the name
bound by `m, k, rel_lvl = extract_metric_and_params(metric)`. -/
def lastM (other : Str → Except Err α) (o : Opts) (isRun : Bool) (metric : Str) : Str :=
  if o.returnMean || (isRun && o.save) then metric
  else
    match extract other metric with
    | .ok (m, _, _) => m
    | .error _ => metric

/-- state after the call, as far as the caller can see it -/
structure After (κ δ α : Type*) where
  qrels : QrelsArg κ δ α
  run : RunArg κ δ α

/-- evaluate.py:65-169 `evaluate` (metrics given as a list; `format_metrics` turns a string into a
one-element list). -/
def evaluate (F : Fn α) (other : Str → Except Err α) (SQ : ArgSort Int) (SR : ArgSort α)
    (hash : δ → ι) (sched : Nat → List Nat) (o : Opts) (qrels : QrelsArg κ δ α)
    (run : RunArg κ δ α) (metrics : List Str) : After κ δ α × Except Err (Out α) :=
  let returnStd := o.returnMean && o.returnStd
  let run := prepare SR o qrels run
  if !sameKeys qrels.keys run.keys then (⟨qrels, run⟩, .error .assertionError)
  else
    match convertQrels SQ SR hash qrels with
    | .error e => (⟨qrels, run⟩, .error e)
    | .ok (qrels, ql) =>
      match convertRun SR hash run with
      | .error e => (⟨qrels, run⟩, .error e)
      | .ok (run, rl) =>
        match scoreAll F other sched ql rl metrics.zipIdx [] with
        | .error e => (⟨qrels, run⟩, .error e)
        | .ok d =>
          let run' := match run with
            | .obj r =>
              if o.save then .obj (d.foldl (fun r p => saveOne F returnStd r p.1 p.2) r) else .obj r
            | .dict d => .dict d
          let isRun := match run with
            | .obj _ => true
            | .dict _ => false
          let out : Dict Str (Value α) := d.map (fun p => (p.1, present F o returnStd p.2))
          match metrics with
          | [metric] =>
            match out.get? (lastM other o isRun metric) with
            | some v => (⟨qrels, run'⟩, .ok (.single v))
            | none => (⟨qrels, run'⟩, .error .keyError)
          | _ => (⟨qrels, run'⟩, .ok (.dict out))

end
end Ranx.Eval
