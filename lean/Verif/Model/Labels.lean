import Verif.Model.Format
import Verif.Model.Optimize

/-!
# Run cards of ranxhub (`ranx/ranxhub.py`) and the printed optimization report
(`ranx/data_structures/optimization_report.py`)

YAML, cbor2 and the console are not modelled: `save` is modelled up to the two contents it writes, `to_table`
up to the rows given to rich. Of the run card only `runcard["run"]["results"]` is modelled, the one entry
`save` changes.
-/

namespace Ranx.Rep
open Py

/-- ranxhub.py:6-21 `metric_labels` -/
def hubTable : Dict Str Str :=
  [("hits".toList, "Hits".toList), ("hit_rate".toList, "Hit Rate".toList),
    ("precision".toList, "P".toList), ("recall".toList, "Recall".toList), ("f1".toList, "F1".toList),
    ("r-precision".toList, "R-Prec".toList), ("mrr".toList, "MRR".toList), ("map".toList, "MAP".toList),
    ("ndcg".toList, "NDCG".toList), ("ndcg_burges".toList, "NDCG Burges".toList),
    ("bpref".toList, "BPref".toList)] ++
  (List.range 99).map (fun i => ("rbp.".toList ++ natStr (i + 1), "RBP.".toList ++ natStr (i + 1)))

/-- optimization_report.py:36-47 `metric_labels` -/
def optTable : Dict Str Str :=
  [("hits".toList, "Hits".toList), ("hit_rate".toList, "Hit_Rate".toList),
    ("precision".toList, "P".toList), ("recall".toList, "Recall".toList), ("f1".toList, "F1".toList),
    ("r-precision".toList, "R-Prec".toList), ("mrr".toList, "MRR".toList), ("map".toList, "MAP".toList),
    ("ndcg".toList, "NDCG".toList), ("ndcg_burges".toList, "NDCG_Burges".toList)]

/-- `metric_labels[m]` -/
def labelIn (table : Dict Str Str) (m : Str) : Except Err Str :=
  match table.get? m with
  | some s => .ok s
  | none => .error .keyError

/-- ranxhub.py:27-32 and optimization_report.py:67-73 (all of `OptimizationReport.get_metric_label`) -/
def cutIn (table : Dict Str Str) (m : Str) : Except Err Str :=
  if '@' ∈ m then
    match splitChar '@' m with
    | name :: cutoff :: _ =>
      match labelIn table name with
      | .ok l => .ok (l ++ '@' :: cutoff)
      | .error e => .error e
    | _ => .error .indexError
  else labelIn table m

/-- ranxhub.py:24-32 `get_metric_label`: the relevance level is dropped -/
def hubLabel (m : Str) : Except Err Str :=
  if hasSub "-l".toList m then
    match split2 '-' 'l' m with
    | [m, _] => cutIn hubTable m
    | _ => .error .valueError
  else cutIn hubTable m

/-- ranxhub.py:39-42: the loop over `run.mean_scores`; `results` is `runcard["run"].get("results")` -/
def hubRecord {α : Type*} : List (Str × α) → Option (Dict Str α) → Except Err (Option (Dict Str α))
  | [], results => .ok results
  | (metric, score) :: t, results =>
    match hubLabel metric with
    | .error e => .error e
    | .ok label => hubRecord t (some ((results.getD []).set label score))

/-- ranxhub.py:35-49 `save`: the card rewritten at `runcard_path` and the content (card, run) of the archive;
an error is raised before anything is written -/
def hubSave {α ρ : Type*} (meanScores : Dict Str α) (card : Option (Dict Str α)) (run : ρ) :
    Except Err (Option (Dict Str α) × Option (Dict Str α) × ρ) :=
  match hubRecord meanScores card with
  | .error e => .error e
  | .ok card => .ok (card, card, run)

/-- optimization_report.py:8-20 `method_labels`, 22-34 `hyperparams_labels` -/
def methodLabels : List (String × String × String) :=
  [("logn_isr", "LogN_ISR", "Sigma"), ("gmnz", "GMNZ", "Gamma"), ("mixed", "Mixed", "Weights"),
    ("probfuse", "ProbFuse", "# Segments"), ("rbc", "RBC", "phi"), ("rrf", "RRF", "k"),
    ("slidefuse", "SlideFuse", "w"), ("w_bordafuse", "Weighted BordaFuse", "Weights"),
    ("w_condorcet", "Weighted Condorcet", "Weights"), ("wmnz", "WMNZ", "Weights"), ("wsum", "Weighted SUM", "Weights")]

/-- optimization_report.py:83-84 `style_best` -/
def styleBest (x : Str) : Str := "[bold green]".toList ++ x ++ "[/bold green]".toList

/-- optimization_report.py:102-106: the rows; `zip` stops at the shorter list -/
def optRows (format : ℚ → Except Err Str) (maxIdx : Nat) :
    List ((Str × ℚ) × Nat) → Except Err (List (Str × Str))
  | [] => .ok []
  | ((config, score), i) :: t =>
    match format score with
    | .error e => .error e
    | .ok s =>
      match optRows format maxIdx t with
      | .error e => .error e
      | .ok rows => .ok ((if i = maxIdx then (styleBest config, styleBest s) else (config, s)) :: rows)

/-- what `to_table` puts into the table -/
structure OptTable where
  title : String
  paramHeader : String
  metricHeader : Str
  rows : List (Str × Str)

/-- optimization_report.py:86-108 `to_table`; `np.argmax` of an empty list is a ValueError. The configurations are
given by their texts `str(config)`. -/
def optTable' (format : ℚ → Except Err Str) (method : String) (metric : Str) (configs : List Str) (results : List ℚ) :
    Except Err OptTable :=
  match methodLabels.lookup method with
  | none => .error .keyError
  | some (title, param) =>
    match cutIn optTable metric with
    | .error e => .error e
    | .ok label =>
      if results = [] then .error .valueError
      else
        match optRows format (Opt.highlighted results) (configs.zip results).zipIdx with
        | .error e => .error e
        | .ok rows => .ok ⟨title, param, label, rows⟩

end Ranx.Rep
