import Verif.Model.Report

/-!
# `Report.to_dataframe`

report.py:323-337.  pandas is modelled by what its documentation and source say about
`DataFrame.from_dict(data, orient="index")` on a dictionary of dictionaries: the columns are the inner keys and
the rows the outer keys, both in the order in which they first appear (rows: column by column), and cells without
a value are NaN; `reset_index().rename(columns={"index": "model_names"})` turns the row labels into a first column
called `model_names` (no metric is called "index").
-/

namespace Ranx.Rep
open Py Metrics

/-- the elements of `l` that are new are appended, in order -/
def addNew : List Str → List Str → List Str
  | xs, [] => xs
  | xs, x :: t => if x ∈ xs then addNew xs t else addNew (xs ++ [x]) t

/-- a data frame whose first column holds text: the names of the columns, and the rows -/
structure Frame (α : Type*) where
  columns : List Str
  rows : List (Str × List (Num α))
  deriving DecidableEq

/-- the data frame of a dictionary of dictionaries (`from_dict(…, orient="index")`, `reset_index`, `rename`;
report.py:332-335) -/
def frameOf {α : Type*} (d : Dict Str (Dict Str (Num α))) : Frame α :=
  let cols := addNew [] (d.flatMap (fun p => p.2.keys))
  let index := addNew [] (cols.flatMap (fun c => (d.filter (fun p => p.2.contains c)).map Prod.fst))
  ⟨"model_names".toList :: cols,
    index.map (fun n => (n, cols.map (fun c => ((d.get? n).bind (fun e => e.get? c)).getD .nan)))⟩

variable {α : Type*}

/-- report.py:329-331: `{name: report_dict[name]["scores"] for name in …}`.  Indexing a text or a list by
"scores" is a TypeError. -/
def scoresLoop (d : Dict Str (Entry α)) : List Str → Dict Str (Dict Str (Num α)) →
    Except Err (Dict Str (Dict Str (Num α)))
  | [], acc => .ok acc
  | n :: t, acc =>
    match d.get? n with
    | none => .error .keyError
    | some (.model sc _ _) => scoresLoop d t (acc.set n sc)
    | some (.text _) => .error .typeError
    | some (.texts _) => .error .typeError

/-- report.py:330: `for name in report_dict["model_names"]`: a list is iterated by its elements, the entry of a
model (a dictionary) by its keys (report.py:303-306).  (A text is never found there.) -/
def modelNamesOf (d : Dict Str (Entry α)) : Except Err (List Str) :=
  match d.get? "model_names".toList with
  | none => .error .keyError
  | some (.texts l) => .ok l
  | some (.text s) => .ok (s.map (fun c => [c]))
  | some (.model _ _ _) => .ok ["scores".toList, "comparisons".toList, "win_tie_loss".toList]

section
variable [Field α] [LinearOrder α]

/-- report.py:323-337 `to_dataframe` -/
def Report.toDataframe (r : Report α) : Except Err (Frame α) :=
  match r.toDict with
  | .error e => .error e
  | .ok d =>
    match modelNamesOf d with
    | .error e => .error e
    | .ok names =>
      match scoresLoop d names [] with
      | .error e => .error e
      | .ok scores => .ok (frameOf scores)

end
end Ranx.Rep
