import Verif.Model.IO

/-!
# Other ways of obtaining the data (`utils.dataframe_to_dict`, `Qrels.from_ir_datasets`)
-/

namespace Ranx
variable {κ δ β : Type*}

/-- utils.py:66-71 `dataframe_to_dict`: `groupby(q_id_col)` sorts the queries and keeps the order of the rows inside
each group; in the dict comprehension later rows win.  (Simplified: the rows are given, not the columns; see
`Model/Frames.lean` for columns.) -/
def dataframeToDict [LinearOrder κ] [DecidableEq δ] (df : List (κ × δ × β)) : Dict κ (Dict δ β) :=
  (isort (fun a b => decide (a ≤ b)) ((df.map (fun r => r.1)).dedup)).map (fun q =>
    (q, Dict.ofList ((df.filter (fun r => r.1 = q)).map (fun r => (r.2.1, r.2.2)))))

open Py in
/-- qrels.py:342-351 `Qrels.from_ir_datasets`: the new qrels and their name; `load` is
`ir_datasets.load(dataset_id).qrels_dict()`, a parameter. -/
def fromIrDatasets [LinearOrder κ] [DecidableEq δ] (S : ArgSort Int) (load : Str → Except Err (Dict κ (Dict δ Int)))
    (id : Str) : Except Err (Store κ δ Int × Str) :=
  match load id with
  | .error e => .error e
  | .ok d =>
    match Store.ofDict S d with
    | .error e => .error e
    | .ok s => .ok (s, id)

end Ranx
