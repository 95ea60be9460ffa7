import Verif.Model.Store
import Verif.Model.Evaluate
import Verif.Model.Float64
import Verif.Model.PyStr

/-!
# What the constructors and the adding methods do to ids and values

`Model/Store.lean` stores the values it is given.  Here the Python numbers the caller passes are converted first, as
`Run` / `Qrels` do.  Only `int` and finite `float` arguments are modelled (no NaN, infinity, bool, NumPy scalars).
-/

namespace Ranx.Conv
open Py

/-- A Python number: an `int`, or a finite `float` given by its exact value. -/
inductive PyNum where
  | int (z : Int)
  | float (x : ℚ)
  deriving DecidableEq

/-- `int(x)`: truncation toward zero. -/
def truncate : PyNum → Int
  | .int z => z
  | .float x => x.num.tdiv x.den

/-- qrels.py:83, 246: `np.array(x, dtype=int)`, and qrels.py:106, 133: `int(score)` into an int64 dictionary.  A value out of
the int64 range raises (OverflowError; the kind of exception is simplified to ValueError). -/
def toInt64 (v : PyNum) : Except Err Int :=
  if -2 ^ 63 ≤ truncate v ∧ truncate v < 2 ^ 63 then .ok (truncate v) else .error .valueError

/-- run.py:67, 250: `np.array(x, dtype=float)`, and run.py:94, 121: `float(score)`.  A float is kept, an int is rounded to
the nearest binary64 number, and raises when that number is too large (OverflowError; the kind is simplified). -/
def toFloat64 : PyNum → Except Err ℚ
  | .float x => .ok x
  | .int z => if |F64.fl z| < 2 ^ 1024 then .ok (F64.fl z) else .error .valueError

/-- run.py:61-63, qrels.py:76-78: elements of a fixed-width NumPy unicode array lose their trailing NUL characters
(`max_len` is the longest id, so nothing else is cut). -/
def stripNul (s : Str) : Str := (s.reverse.dropWhile (fun c => c == Char.ofNat 0)).reverse

section
variable {κ β : Type} [LinearOrder κ] [LE β] [Neg β] (S : ArgSort β) (conv : PyNum → Except Err β)

/-- run.py:47-75 and 222-257, qrels.py:62-87 and 221-248: the constructor given a dictionary, and `from_dict`. -/
def construct (d : Dict κ (Dict Str PyNum)) : Except Err (Store κ Str β) :=
  if d.values.all (fun x => x.isEmpty) then .error .valueError
  else
    match Eval.collect (d.values.map (fun x => Eval.collect (x.values.map conv))) with
    | .error e => .error e
    | .ok vals =>
      match addBulk [] d.keys (d.values.map (fun x => x.keys.map stripNul)) vals with
      | (_, some e) => .error e
      | (m, none) => .ok ⟨sortAll S m, true⟩

/-- run.py:81-95, qrels.py:93-107.  The conversion comes after the creation of the query's dictionary: when it raises, an
unknown query has been added, empty (and the flag is as before). -/
def addScore (s : Store κ Str β) (q : κ) (doc : Str) (v : PyNum) : Store κ Str β × Option Err :=
  match conv v with
  | .ok x => (s.addScore q doc x, none)
  | .error e =>
    (⟨match s.data.get? q with
      | none => s.data.set q []
      | some _ => s.data, s.sorted⟩, some e)

/-- run.py:107-125, qrels.py:119-137: the typed lists are made first (an empty list of docs is refused before the scores are
converted), so nothing is added when a conversion raises. -/
def addMulti (s : Store κ Str β) (qs : List κ) (docs : List (List Str)) (scores : List (List PyNum)) :
    Store κ Str β × Option Err :=
  if docs.any List.isEmpty then (s, some .typeError)
  else
    match Eval.collect (scores.map (fun x => Eval.collect (x.map conv))) with
    | .error e => (s, some e)
    | .ok vals => s.addMulti S qs docs vals

end

/-! Judgements are int64, but they are sorted and handed to the metrics as float64.  `Model/Sort.lean` sorts the
integers themselves; C144 relates the two.  The negation of -2^63, which overflows, is not modelled. -/
section
variable {κ δ ι : Type*} [LinearOrder κ] [DecidableEq δ] (S : ArgSort ℚ)

/-- common.py:54-59 `typed_list_argosrt` on a list of int64: `np.empty(n)` is an array of float64 -/
def argsortInt (l : List Int) : List Nat := S.run (l.map (fun z : Int => F64.fl (z : ℚ)))

/-- common.py:75-85 `sort_dict_by_value` on the judgements of a query -/
def sortByValueInt (d : Dict δ Int) : Dict δ Int :=
  (argsortInt S (d.values.map (fun v => -v))).foldl
    (fun newD i => match d[i]? with
      | some (k, v) => newD.set k v
      | none => newD)
    []

/-- common.py:62-72, 88-96 on a Qrels: by query id, then every query by value -/
def sortAllInt (d : Dict κ (Dict δ Int)) : Dict κ (Dict δ Int) :=
  (createDictFromLists (sortDictByKey d).keys ((sortDictByKey d).values.map (sortByValueInt S)) []).getD []

/-- common.py:7-28 `to_typed_list` on a Qrels: `np.asarray(scores, dtype=np.float64)` -/
def rowsInt (hash : δ → ι) (d : Dict κ (Dict δ Int)) : List (List (ι × ℚ)) :=
  Store.rows hash (fun z : Int => F64.fl (z : ℚ)) d

end
end Ranx.Conv
