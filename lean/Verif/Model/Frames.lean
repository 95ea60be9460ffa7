import Verif.Model.Store
import Verif.Model.PyStr
import Mathlib.Data.List.Lex
import Mathlib.Data.Char

/-!
# Data frames with named, typed columns

`Run.from_df`, `Qrels.from_df`, `to_dataframe` and `from_parquet` with the column names and the dtype assertions; the
grouping of the rows is `Store.fromDataframe`.
-/

namespace Ranx.Frm
open Py

/-- a pandas column: its dtype and its values (simplified: an `object` column holds strings) -/
inductive Column (α : Type*) where
  | object (l : List Str)
  | float64 (l : List α)
  | int64 (l : List Int)

/-- a `pd.DataFrame`: its columns by name -/
abbrev Frame (α : Type*) := Dict Str (Column α)

/-- the rows built from three columns -/
def rowsOf {β : Type*} (qs ds : List Str) (vs : List β) : List (Str × Str × β) := qs.zip (ds.zip vs)

variable {α : Type*}

/-- run.py:283-326 `Run.from_df`: `df[col]` raises KeyError for a column that is not there, a wrong dtype is an
AssertionError; the checks come in the order query, document, score. -/
def runFromDf [LE α] [Neg α] (S : ArgSort α) (df : Frame α) (qCol dCol sCol : Str) :
    Except Err (Store Str Str α) :=
  match df.get? qCol with
  | none => .error .keyError
  | some (.object qs) =>
    match df.get? dCol with
    | none => .error .keyError
    | some (.object ds) =>
      match df.get? sCol with
      | none => .error .keyError
      | some (.float64 vs) => Store.fromDataframe S (rowsOf qs ds vs)
      | some _ => .error .assertionError
    | some _ => .error .assertionError
  | some _ => .error .assertionError

/-- qrels.py:277-310 `Qrels.from_df`: the same with integer scores -/
def qrelsFromDf (S : ArgSort Int) (df : Frame α) (qCol dCol sCol : Str) : Except Err (Store Str Str Int) :=
  match df.get? qCol with
  | none => .error .keyError
  | some (.object qs) =>
    match df.get? dCol with
    | none => .error .keyError
    | some (.object ds) =>
      match df.get? sCol with
      | none => .error .keyError
      | some (.int64 vs) => Store.fromDataframe S (rowsOf qs ds vs)
      | some _ => .error .assertionError
    | some _ => .error .assertionError
  | some _ => .error .assertionError

/-- the three columns of `to_dataframe`; pandas gives columns without values the dtype `object` -/
def columnsOf {β : Type*} (mk : List β → Column α) (rows : List (Str × Str × β)) : Frame α :=
  [("q_id".toList, .object (rows.map (fun r => r.1))), ("doc_id".toList, .object (rows.map (fun r => r.2.1))),
    ("score".toList, if rows.isEmpty then .object [] else mk (rows.map (fun r => r.2.2)))]

/-- run.py:175-189 `Run.to_dataframe` -/
def runToDf (s : Store Str Str α) : Frame α :=
  columnsOf .float64 s.toDataframe

/-- qrels.py:175-189 `Qrels.to_dataframe` -/
def qrelsToDf (s : Store Str Str Int) : Frame α := columnsOf .int64 s.toDataframe

/-- the parameters of `pandas.read_parquet` after `path`, in order -/
def parquetParams : List Str :=
  ["engine".toList, "columns".toList, "storage_options".toList, "use_nullable_dtypes".toList, "dtype_backend".toList,
    "filesystem".toList, "filters".toList]

/-- a value handed to a parameter: a text or anything else -/
inductive Value where
  | text (s : Str)
  | other (n : Nat)
  deriving DecidableEq

/-- Python binds positional arguments to the parameters in order; too many of them raise TypeError -/
def bindPositional (params : List Str) (args : List Value) : Except Err (Dict Str Value) :=
  if args.length ≤ params.length then .ok (params.zip args) else .error .typeError

/-- `pandas.read_parquet`: the engine must be one of three names; reading the file is a parameter -/
def readParquet (read : Dict Str Value → Except Err (Frame α)) (bound : Dict Str Value) : Except Err (Frame α) :=
  match (bound.get? "engine".toList).getD (.text "auto".toList) with
  | .text e =>
    if e = "auto".toList ∨ e = "pyarrow".toList ∨ e = "fastparquet".toList then read bound else .error .valueError
  | .other _ => .error .valueError

/-- run.py:350-353, qrels.py:332-335: `pd_kwargs = {} if pd_kwargs is None else pd_kwargs` and
`pd.read_parquet(path, *pd_kwargs)`: one star hands over the keys of the dictionary as positional arguments -/
def readWith (read : Dict Str Value → Except Err (Frame α)) (pdKwargs : Option (Dict Str Value)) :
    Except Err (Frame α) :=
  match bindPositional parquetParams ((pdKwargs.getD []).keys.map .text) with
  | .error e => .error e
  | .ok b => readParquet read b

/-- run.py:329-359 `Run.from_parquet` -/
def runFromParquet [LE α] [Neg α] (S : ArgSort α) (read : Dict Str Value → Except Err (Frame α))
    (pdKwargs : Option (Dict Str Value)) (qCol dCol sCol : Str) : Except Err (Store Str Str α) :=
  match readWith read pdKwargs with
  | .error e => .error e
  | .ok df => runFromDf S df qCol dCol sCol

/-- qrels.py:313-340 `Qrels.from_parquet` -/
def qrelsFromParquet (S : ArgSort Int) (read : Dict Str Value → Except Err (Frame α))
    (pdKwargs : Option (Dict Str Value)) (qCol dCol sCol : Str) : Except Err (Store Str Str Int) :=
  match readWith read pdKwargs with
  | .error e => .error e
  | .ok df => qrelsFromDf S df qCol dCol sCol

end Ranx.Frm
