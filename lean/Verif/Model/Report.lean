import Verif.Model.Stats

/-!
# `compare` (`ranx/meta/compare.py`) and `Report` (`ranx/data_structures/report.py`)

`round(x, digits)` and the final formatting `"%.nf" % x` are parameters (`Fmt`).  `tabulate`, pandas
and the JSON text are not modelled: the model produces the rows / the dictionary handed to them.
-/

namespace Ranx.Rep
open Eval Metrics Py Stat
variable {κ δ ι α : Type*}

/-- win / tie / loss counts -/
structure WTL where
  w : Nat
  t : Nat
  l : Nat
  deriving DecidableEq, Repr

/-- report.py:70-90 `Report.__init__` -/
structure Report (α : Type*) where
  modelNames : List Str
  results : Dict Str (Dict Str (Num α))
  comparisons : Comparisons α
  metrics : List Str
  maxP : α
  winTieLoss : Dict (Str × Str) (Dict Str WTL)
  statTest : Str

/-- a `Run` with its name (run.py:47-75) -/
structure NamedRun (κ δ α : Type*) where
  name : Option Str
  obj : RunObj κ δ α

/-- compare.py:77: `run.name if run.name is not None else f"run_{i+1}"` -/
def modelName (i : Nat) (r : NamedRun κ δ α) : Str :=
  match r.name with
  | some n => n
  | none => "run_".toList ++ natStr (i + 1)

section
variable [Field α] [LinearOrder α]

/-- `int(sum(a > b))` etc. of compare.py:115-117 for arrays of the same length -/
def countBy (f : Num α → Num α → Bool) (a b : List (Num α)) : Nat :=
  (List.zipWith f a b).count true

/-- compare.py:112-118 -/
def winTieLossOf (c t : List (Num α)) : WTL :=
  ⟨countBy (fun x y => ltNum y x) c t, countBy eqNum c t, countBy ltNum c t⟩

/-- compare.py:111-118: the loop over the metrics (`win_tie_loss` is a `defaultdict(dict)`) -/
def wtlMetrics (c t : Dict Str (List (Num α))) (pair : Str × Str) :
    List Str → Dict (Str × Str) (Dict Str WTL) → Except Err (Dict (Str × Str) (Dict Str WTL))
  | [], acc => .ok acc
  | m :: ms, acc =>
    match c.get? m, t.get? m with
    | some cs, some ts =>
      wtlMetrics c t pair ms (acc.set pair (((acc.get? pair).getD []).set m (winTieLossOf cs ts)))
    | _, _ => .error .keyError

/-- compare.py:108-118: the loops over the ordered pairs of names -/
def wtlPairs (scores : Dict Str (Dict Str (List (Num α)))) (metrics : List Str) :
    List (Str × Str) → Dict (Str × Str) (Dict Str WTL) → Except Err (Dict (Str × Str) (Dict Str WTL))
  | [], acc => .ok acc
  | (c, t) :: ps, acc =>
    if c ≠ t then
      match scores.get? c, scores.get? t with
      | some cs, some ts =>
        match wtlMetrics cs ts (c, t) metrics acc with
        | .error e => .error e
        | .ok acc => wtlPairs scores metrics ps acc
      | _, _ => if metrics = [] then wtlPairs scores metrics ps acc else .error .keyError
    else wtlPairs scores metrics ps acc

end

section
variable [LinearOrder κ] [DecidableEq δ] [LinearOrder ι] [Field α] [LinearOrder α]

/-- the per query scores in a value returned by `evaluate(..., return_mean=False)` -/
def valueList : Value α → List (Num α)
  | .scores l => l
  | .mean x => [x]
  | .meanStd a b => [a, b]

/-- compare.py:80-90: the returned value as a dictionary metric ↦ scores -/
def asScores (metrics : List Str) : Out α → Dict Str (List (Num α))
  | .single v => (metrics.take 1).map (fun m => (m, valueList v))
  | .dict d => d.map (fun p => (p.1, valueList p.2))

/-- what the loop over the runs has built (compare.py:70-73) -/
structure Acc (κ δ α : Type*) where
  qrels : QrelsArg κ δ α
  names : List Str
  scores : Dict Str (Dict Str (List (Num α)))
  results : Dict Str (Dict Str (Num α))
  /-- the run objects after the call -/
  runs : List (RunArg κ δ α)

/-- compare.py:92-93: `results[model_name][m] = float(np.mean(metric_scores[model_name][m]))` -/
def means (d : Dict Str (List (Num α))) : List Str → Dict Str (Num α) → Except Err (Dict Str (Num α))
  | [], acc => .ok acc
  | m :: ms, acc =>
    match d.get? m with
    | none => .error .keyError
    | some l => means d ms (acc.set m (mean l))

/-- compare.py:76-93: the loop over the runs; the i-th call of `evaluate` is scheduled by `sched i`.
`results` is a `defaultdict(dict)`: without metrics no entry is made. The run objects are distinct. -/
def evalRuns (F : Fn α) (other : Str → Except Err α) (SQ : ArgSort Int) (SR : ArgSort α)
    (hash : δ → ι) (sched : Nat → Nat → List Nat) (makeComparable : Bool) (metrics : List Str) :
    List (NamedRun κ δ α × Nat) → Acc κ δ α → Except Err (Acc κ δ α)
  | [], acc => .ok acc
  | (r, i) :: t, acc =>
    let name := modelName i r
    match evaluate F other SQ SR hash (sched i)
        { returnMean := false, makeComparable := makeComparable } acc.qrels (.obj r.obj) metrics with
    | (_, .error e) => .error e
    | (after, .ok out) =>
      let d := asScores metrics out
      match means d metrics ((acc.results.get? name).getD []) with
      | .error e => .error e
      | .ok ms =>
        evalRuns F other SQ SR hash sched makeComparable metrics t
          ⟨after.qrels, acc.names ++ [name], acc.scores.set name d,
            if metrics = [] then acc.results else acc.results.set name ms, acc.runs ++ [after.run]⟩

/-- all ordered pairs, row by row -/
def pairs (names : List Str) : List (Str × Str) := names.flatMap (fun a => names.map (fun b => (a, b)))

/-- compare.py:11-130 `compare` (`rounding_digits` and `show_percentages` only matter for formatting).
Returns the report, the qrels object and the run objects as they are after the call. -/
def compare (F : Fn α) (other : Str → Except Err α) (SQ : ArgSort Int) (SR : ArgSort α)
    (hash : δ → ι) (sched : Nat → Nat → List Nat) (E : Env α) (makeComparable : Bool)
    (test : Str) (n : Nat) (maxP : α)
    (qrels : QrelsArg κ δ α) (runs : List (NamedRun κ δ α)) (metrics : List Str) :
    Except Err (Report α × QrelsArg κ δ α × List (RunArg κ δ α)) :=
  match evalRuns F other SQ SR hash sched makeComparable metrics runs.zipIdx ⟨qrels, [], [], [], []⟩ with
  | .error e => .error e
  | .ok a =>
    match significance E a.names a.scores test n maxP with
    | .error e => .error e
    | .ok comparisons =>
      match wtlPairs a.scores metrics (pairs a.names) [] with
      | .error e => .error e
      | .ok wtl => .ok (⟨a.names, a.results, comparisons, metrics, maxP, wtl, test⟩, a.qrels, a.runs)

end

section
variable [Field α] [LinearOrder α]

/-- report.py:11 `chars` -/
def chars : List Char := "abcdefghijklmnopqrstuvwxyz".toList

/-- report.py:12 `super_chars` -/
def superChars : List Char := "ᵃᵇᶜᵈᵉᶠᵍʰⁱʲᵏˡᵐⁿᵒᵖ۹ʳˢᵗᵘᵛʷˣʸᶻ".toList

/-- `self.results[model][metric]` -/
def Report.score (r : Report α) (model metric : Str) : Except Err (Num α) :=
  match (r.results.get? model).bind (fun d => d.get? metric) with
  | some x => .ok x
  | none => .error .keyError

/-- `self.comparisons[model, _model][metric]` -/
def Report.comparison (r : Report α) (a b metric : Str) : Except Err (Result α) :=
  match (FrozensetDict.getItem r.comparisons [a, b]).bind (fun d => d.get? metric) with
  | some x => .ok x
  | none => .error .keyError

/-- report.py:103-105: the condition `comparisons[model, _model][metric]["significant"] and
(results[model][metric] > results[_model][metric])` -/
def Report.better (r : Report α) (model metric other : Str) : Except Err Bool :=
  match r.comparison model other metric with
  | .error e => .error e
  | .ok c =>
    if c.significant then
      match r.score model metric, r.score other metric with
      | .ok a, .ok b => .ok (ltNum b a)
      | .error e, _ => .error e
      | _, .error e => .error e
    else .ok false

/-- report.py:99-107 `get_superscript_for_table`, report.py:151-161 `get_superscript_for_latex`
(`want = true`) and report.py:163-179 `get_phantoms_for_latex` (`want = false`): the characters
`cs[j]` of the other models for which the condition of `better` is `want`. -/
def Report.marks (r : Report α) (cs : List Char) (want : Bool) (model metric : Str) :
    List (Str × Nat) → Except Err Str
  | [] => .ok []
  | (other, j) :: t =>
    if model ≠ other then
      match r.better model metric other with
      | .error e => .error e
      | .ok b =>
        if b = want then
          match cs[j]? with
          | none => .error .indexError
          | some c =>
            match r.marks cs want model metric t with
            | .error e => .error e
            | .ok s => .ok (c :: s)
        else r.marks cs want model metric t
    else r.marks cs want model metric t

/-- report.py:99-107 -/
def Report.superscriptTable (r : Report α) (model metric : Str) : Except Err Str :=
  r.marks superChars true model metric r.modelNames.zipIdx

/-- report.py:151-161 -/
def Report.superscriptLatex (r : Report α) (model metric : Str) : Except Err Str :=
  r.marks chars true model metric r.modelNames.zipIdx

/-- report.py:163-179 -/
def Report.phantoms (r : Report α) (model metric : Str) : Except Err Str :=
  r.marks chars false model metric r.modelNames.zipIdx

/-- rounding and formatting of scores: `round(x, rounding_digits)` and `format_score` -/
structure Fmt (α : Type*) where
  round : Num α → Num α
  format : Num α → Except Err Str

/-- cells of a row of `to_table` (report.py:136-139) -/
def Report.tableCells (r : Report α) (fm : Fmt α) (run : Str) : Dict Str (Num α) → Except Err (List Str)
  | [] => .ok []
  | (metric, score) :: t =>
    match fm.format score with
    | .error e => .error e
    | .ok s =>
      match r.superscriptTable run metric with
      | .error e => .error e
      | .ok sup =>
        match r.tableCells fm run t with
        | .error e => .error e
        | .ok cs => .ok ((s ++ sup) :: cs)

/-- rows of `to_table` (report.py:130-141): label, model, cells -/
def Report.tableRows (r : Report α) (fm : Fmt α) : List ((Str × Dict Str (Num α)) × Nat) →
    Except Err (List (Char × Str × List Str))
  | [] => .ok []
  | ((run, v), i) :: t =>
    match chars[i]? with
    | none => .error .indexError
    | some c =>
      match r.tableCells fm run v with
      | .error e => .error e
      | .ok cells =>
        match r.tableRows fm t with
        | .error e => .error e
        | .ok rows => .ok ((c, run, cells) :: rows)

/-- report.py:130-141: `tabular_data` of `to_table` -/
def Report.table (r : Report α) (fm : Fmt α) : Except Err (List (Char × Str × List Str)) :=
  r.tableRows fm r.results.zipIdx

/-- report.py:190-195: the loop looking for the best model of one metric;
`best = (best_model, best_score)` -/
def Report.bestLoop (r : Report α) (fm : Fmt α) (m : Str) :
    List Str → Option Str × Num α → Except Err (Option Str)
  | [], best => .ok best.1
  | model :: t, best =>
    match r.score model m with
    | .error e => .error e
    | .ok x => r.bestLoop fm m t
        (if ltNum best.2 (fm.round x) then (some model, fm.round x) else best)

/-- report.py:187-196 `best_scores[m]` of `to_latex` -/
def Report.best (r : Report α) (fm : Fmt α) (m : Str) : Except Err (Option Str) :=
  r.bestLoop fm m r.modelNames (none, .val 0)

/-- a cell of the LaTeX table: bold?, formatted score, superscript, phantoms -/
structure Cell where
  bold : Bool
  score : Str
  superscript : Str
  phantoms : Str
  deriving DecidableEq

/-- report.py:226-234: one cell -/
def Report.latexCell (r : Report α) (fm : Fmt α) (model m : Str) : Except Err Cell :=
  match r.score model m with
  | .error e => .error e
  | .ok x =>
    match fm.format x with
    | .error e => .error e
    | .ok s =>
      match r.best fm m with
      | .error e => .error e
      | .ok b =>
        match r.superscriptLatex model m with
        | .error e => .error e
        | .ok sup =>
          match r.phantoms model m with
          | .error e => .error e
          | .ok ph => .ok ⟨decide (b = some model), s, sup, ph⟩

/-- report.py:219-239: the rows of the LaTeX table; with no metric `scores[-1]` is an IndexError.
(`best_scores` is computed beforehand for all metrics; a failure there fails the whole call, as here.) -/
def Report.latexRows (r : Report α) (fm : Fmt α) : List (Str × Nat) →
    Except Err (List (Char × Str × List Cell))
  | [] => .ok []
  | (model, i) :: t =>
    match chars[i]? with
    | none => .error .indexError
    | some c =>
      match collect (r.metrics.map (r.latexCell fm model)) with
      | .error e => .error e
      | .ok [] => .error .indexError
      | .ok (x :: xs) =>
        match r.latexRows fm t with
        | .error e => .error e
        | .ok rows => .ok ((c, model, x :: xs) :: rows)

/-- report.py:181-251 `to_latex` up to the rendering of rows as text -/
def Report.latex (r : Report α) (fm : Fmt α) : Except Err (List (Char × Str × List Cell)) :=
  r.latexRows fm r.modelNames.zipIdx

/-- values of the dictionary `to_dict` returns -/
inductive Entry (α : Type*) where
  | text (s : Str)
  | texts (l : List Str)
  | model (scores : Dict Str (Num α)) (comparisons : Dict Str (Dict Str (Num α)))
      (winTieLoss : Dict Str (Dict Str WTL))
  deriving DecidableEq

/-- report.py:313-319: p-values and counts of the pair `m1`, `m2` for every metric -/
def Report.pairEntry (r : Report α) (m1 m2 : Str) :
    List Str → Dict Str (Num α) → Dict Str WTL → Except Err (Dict Str (Num α) × Dict Str WTL)
  | [], c, w => .ok (c, w)
  | m :: ms, c, w =>
    match r.comparison m1 m2 m with
    | .error e => .error e
    | .ok res =>
      match (r.winTieLoss.get? (m1, m2)).bind (fun d => d.get? m) with
      | none => .error .keyError
      | some x => r.pairEntry m1 m2 ms (c.set m res.p) (w.set m x)

/-- report.py:308-319: the loop over the other models -/
def Report.modelEntry (r : Report α) (m1 : Str) : List Str → Dict Str (Dict Str (Num α)) →
    Dict Str (Dict Str WTL) → Except Err (Dict Str (Dict Str (Num α)) × Dict Str (Dict Str WTL))
  | [], c, w => .ok (c, w)
  | m2 :: t, c, w =>
    if m1 ≠ m2 then
      match r.pairEntry m1 m2 r.metrics [] [] with
      | .error e => .error e
      | .ok (pc, pw) => r.modelEntry m1 t (c.set m2 pc) (w.set m2 pw)
    else r.modelEntry m1 t c w

/-- report.py:302-319: the loop over the models -/
def Report.dictLoop (r : Report α) : List Str → Dict Str (Entry α) → Except Err (Dict Str (Entry α))
  | [], d => .ok d
  | m1 :: t, d =>
    match r.results.get? m1 with
    | none => .error .keyError
    | some sc =>
      match r.modelEntry m1 r.modelNames [] [] with
      | .error e => .error e
      | .ok (c, w) => r.dictLoop t (d.set m1 (.model sc c w))

/-- report.py:253-321 `to_dict` -/
def Report.toDict (r : Report α) : Except Err (Dict Str (Entry α)) :=
  r.dictLoop r.modelNames
    [("stat_test".toList, .text r.statTest), ("metrics".toList, .texts r.metrics),
      ("model_names".toList, .texts r.modelNames)]

end

/-- report.py:14-31 `metric_labels` -/
def labelTable : Dict Str Str :=
  [("hits".toList, "Hits".toList), ("hit_rate".toList, "Hit Rate".toList),
    ("precision".toList, "P".toList), ("recall".toList, "Recall".toList), ("f1".toList, "F1".toList),
    ("r-precision".toList, "R-Prec".toList), ("mrr".toList, "MRR".toList), ("map".toList, "MAP".toList),
    ("dcg".toList, "DCG".toList), ("dcg_burges".toList, "DCG Burges".toList),
    ("ndcg".toList, "NDCG".toList), ("ndcg_burges".toList, "NDCG Burges".toList),
    ("bpref".toList, "BPref".toList)] ++
  (List.range 99).map (fun i => ("rbp.".toList ++ natStr (i + 1), "RBP.".toList ++ natStr (i + 1)))

/-- `metric_labels.get(m)` (`none`: KeyError) -/
def metricLabel (m : Str) : Option Str := labelTable.get? m

/-- `metric_labels[m]` with its KeyError -/
def metricLabelE (m : Str) : Except Err Str :=
  match metricLabel m with
  | some s => .ok s
  | none => .error .keyError

/-- report.py:112-117, 120-125: label of a metric string without level -/
def labelCut (m : Str) : Except Err Str :=
  if '@' ∈ m then
    match splitChar '@' m with
    | name :: cutoff :: _ =>
      match metricLabelE name with
      | .ok l => .ok (l ++ '@' :: cutoff)
      | .error e => .error e
    | _ => .error .indexError
  else metricLabelE m

/-- report.py:109-125 `get_metric_label` -/
def getMetricLabel (m : Str) : Except Err Str :=
  if hasSub "-l".toList m then
    match split2 '-' 'l' m with
    | [m, lvl] =>
      match labelCut m with
      | .ok l => .ok (l ++ "-l".toList ++ lvl)
      | .error e => .error e
    | _ => .error .valueError
  else labelCut m

end Ranx.Rep
