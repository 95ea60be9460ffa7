import Mathlib.Algebra.Group.Int.Defs
import Mathlib.Data.Int.Order.Basic
import Verif.Model.Sort

/-!
# `Run` and `Qrels` as stores (`ranx/data_structures/run.py`, `qrels.py`)

The two classes share the same code for their content (`run.run` / `qrels.qrels`)
and their `sorted` flag; the value type is float64 for `Run` and int64 for
`Qrels`.  `Store κ δ β` models both (`κ` query ids, `δ` doc ids, `β` values).
Name, metadata and saved scores of a `Run` are modelled in `Model/Evaluate.lean`
and `Model/IO.lean`.  Here the values stored are taken as
given; the conversions `float(score)`, `int(score)` and the NUL stripping of ids are in `Model/Convert.lean`.
-/

namespace Ranx
variable {κ δ β ι α : Type*}

/-- Content and `sorted` flag of a `Run` (run.py:47-75) or `Qrels` (qrels.py:62-87). -/
structure Store (κ δ β : Type*) where
  data : Dict κ (Dict δ β)
  sorted : Bool
  deriving DecidableEq, Repr

namespace Store

/-- run.py:48-53, qrels.py:63-68: `Run()` / `Qrels()`. -/
def empty : Store κ δ β := ⟨[], false⟩

section
variable [LinearOrder κ] [DecidableEq δ] [LE β] [Neg β] (S : ArgSort β)

/-- run.py:55-69 / 236-255 (`from_dict`), qrels.py:70-85 / 230-248: `max(len(y) for x in
doc_ids for y in x)` raises ValueError when there is no doc id at all; then
`create_and_sort` (common.py:130-139).  The fixed-width NumPy unicode
array holding the ids is modelled as the list of ids (NumPy strips trailing NUL
characters; see `Model/Convert.lean`). -/
def ofDict (d : Dict κ (Dict δ β)) : Except Err (Store κ δ β) :=
  if d.values.all (fun x => x.isEmpty) then .error .valueError
  else
    match addBulk [] d.keys (d.values.map Dict.keys) (d.values.map Dict.values) with
    | (_, some e) => .error e
    | (m, none) => .ok ⟨sortAll S m, true⟩

/-- run.py:81-95, qrels.py:93-107. -/
def addScore (s : Store κ δ β) (q : κ) (doc : δ) (score : β) : Store κ δ β :=
  let data := match s.data.get? q with
    | none => s.data.set q []
    | some _ => s.data
  let inner := (data.get? q).getD []
  ⟨data.set q (inner.set doc score), false⟩

/-- run.py:120-122, qrels.py:132-134: `TypedList(x)` of an empty sequence has no element type; putting it into
another typed list or handing it to compiled code raises TypeError ("invalid operation on untyped list"). -/
def untyped (qs : List κ) (docs : List (List δ)) (scores : List (List β)) : Bool :=
  qs.isEmpty || docs.isEmpty || scores.isEmpty || docs.any List.isEmpty || scores.any List.isEmpty

/-- run.py:107-125, qrels.py:119-137 with common.py:107-115 `add_and_sort`.
When `add_bulk` raises, `self.run = …` and `self.sorted = True` are not executed,
but the in-place updates made so far persist. -/
def addMulti (s : Store κ δ β) (qs : List κ) (docs : List (List δ)) (scores : List (List β)) :
    Store κ δ β × Option Err :=
  if untyped qs docs scores then (s, some .typeError)
  else
    match addBulk s.data qs docs scores with
    | (m, some e) => (⟨m, s.sorted⟩, some e)
    | (m, none) => (⟨sortAll S m, true⟩, none)

/-- run.py:97-105, qrels.py:109-117. -/
def add (s : Store κ δ β) (q : κ) (docs : List δ) (scores : List β) :
    Store κ δ β × Option Err :=
  s.addMulti S [q] [docs] [scores]

/-- run.py:136-140, qrels.py:152-156. -/
def sort (s : Store κ δ β) : Store κ δ β := ⟨sortAll S s.data, true⟩

/-- run.py:142-156 `make_comparable`; `qs` are the qrels' queries.  The second
loop iterates over a snapshot of the keys (numba's typed Dict iterates over a copied key list). -/
def makeComparable (s : Store κ δ β) (qs : List κ) : Store κ δ β :=
  let d1 := qs.foldl (fun d q => if d.contains q then d else d.set q []) s.data
  let d2 := d1.keys.foldl (fun d q => if qs.contains q then d else d.del q) d1
  (⟨d2, s.sorted⟩ : Store κ δ β).sort S

/-- run.py:158-162 / qrels.py:158-162 `to_typed_list`, first part: sort if not flagged sorted. -/
def ensureSorted (s : Store κ δ β) : Store κ δ β :=
  if s.sorted then s else s.sort S

end

/-- common.py:7-28 `to_typed_list`: per query (dict order) an array of rows
(hash of the doc id, value as float64). `hash` and `cast` are the two conversions to float64. -/
def rows (hash : δ → ι) (cast : β → α) (d : Dict κ (Dict δ β)) : List (List (ι × α)) :=
  d.values.map (fun inner => inner.map (fun p => (hash p.1, cast p.2)))

/-- run.py:158-162, qrels.py:158-162: returns the (possibly re-sorted) object and the arrays. -/
def toTypedList [LinearOrder κ] [DecidableEq δ] [LE β] [Neg β] (S : ArgSort β)
    (hash : δ → ι) (cast : β → α) (s : Store κ δ β) : Store κ δ β × List (List (ι × α)) :=
  let s' := s.ensureSorted S
  (s', rows hash cast s'.data)

/-- qrels.py:23-35, 139-141 `set_relevance_level`: every value is decreased by `rel_lvl - 1`
(in-place assignment to existing keys, hence a map; parallel iterations touch distinct queries).
The `sorted` flag is not touched. -/
def setRelevanceLevel (s : Store κ δ Int) (lvl : Int) : Store κ δ Int :=
  ⟨s.data.map (fun p => (p.1, p.2.map (fun e => (e.1, e.2 - (lvl - 1))))), s.sorted⟩

/-- run.py:175-189, qrels.py:175-189 `to_dataframe`: rows (q_id, doc_id, score). -/
def toDataframe (s : Store κ δ β) : List (κ × δ × β) :=
  s.data.flatMap (fun p => p.2.map (fun e => (p.1, e.1, e.2)))

/-- run.py:320-326, qrels.py:304-310 `from_df`: `groupby(q_id)` sorts the group keys and keeps the
row order inside each group; the dict comprehension lets later rows win; `from_dict` follows. -/
def fromDataframe [LinearOrder κ] [DecidableEq δ] [LE β] [Neg β] (S : ArgSort β)
    (df : List (κ × δ × β)) : Except Err (Store κ δ β) :=
  let groups := isort (fun a b => decide (a ≤ b)) ((df.map (fun r => r.1)).dedup)
  ofDict S (groups.map (fun q =>
    (q, Dict.ofList ((df.filter (fun r => r.1 = q)).map (fun r => (r.2.1, r.2.2))))))

/-- The mutating calls of the public API. -/
inductive Op (κ δ β : Type*) where
  | addScore (q : κ) (doc : δ) (score : β)
  | add (q : κ) (docs : List δ) (scores : List β)
  | addMulti (qs : List κ) (docs : List (List δ)) (scores : List (List β))
  | sort
  | makeComparable (qs : List κ)
  | toTypedList

section
variable [LinearOrder κ] [DecidableEq δ] [LE β] [Neg β] (S : ArgSort β)

/-- One public call: new state and the exception raised, if any. -/
def step (s : Store κ δ β) : Op κ δ β → Store κ δ β × Option Err
  | .addScore q d v => (s.addScore q d v, none)
  | .add q ds ss => s.add S q ds ss
  | .addMulti qs dss sss => s.addMulti S qs dss sss
  | .sort => (s.sort S, none)
  | .makeComparable qs => (s.makeComparable S qs, none)
  | .toTypedList => (s.ensureSorted S, none)

/-- A history of calls; the caller goes on after an exception. Returns all outcomes. -/
def exec (s : Store κ δ β) : List (Op κ δ β) → Store κ δ β × List (Option Err)
  | [] => (s, [])
  | o :: os =>
    let (s1, e) := s.step S o
    let (s2, es) := exec s1 os
    (s2, e :: es)

end
end Store
end Ranx
