import Mathlib.Order.Defs.LinearOrder
import Mathlib.Algebra.Group.Defs
import Mathlib.Data.List.Sort
import Verif.Model.Basic

/-!
# Sorting primitives (`ranx/data_structures/common.py`)

`np.argsort` (default kind: an unstable quicksort) is *any* function which
returns a permutation of the indices listing the values in non-decreasing
order.  Every theorem that depends on it holds for all such functions.
-/

namespace Ranx

/-- A correct `np.argsort`: nothing is assumed about ties. -/
structure ArgSort (β : Type*) [LE β] where
  run : List β → List Nat
  perm : ∀ l, (run l).Perm (List.range l.length)
  sorted : ∀ l, (run l).Pairwise
    (fun i j => ∀ a b, l[i]? = some a → l[j]? = some b → a ≤ b)

variable {κ δ β : Type*}

/-- common.py:54-59 `typed_list_argosrt`: copies the list to an array and calls
`np.argsort`. -/
def typedListArgsort [LE β] (S : ArgSort β) (l : List β) : List Nat := S.run l

/-- common.py:62-72 `sort_dict_by_key`.  `keys.sort()` on pairwise distinct keys
has only one correct result, computed here by insertion sort. -/
def sortDictByKey [LinearOrder κ] {ν : Type*} (d : Dict κ ν) : Dict κ ν :=
  (isort (fun a b => decide (a ≤ b)) d.keys).foldl
    (fun newD k => match d.get? k with
      | some v => newD.set k v
      | none => newD)
    []

/-- common.py:75-85 `sort_dict_by_value`: `for i in argsort([-v for v in values])`. -/
def sortDictByValue [DecidableEq δ] [LE β] [Neg β] (S : ArgSort β) (d : Dict δ β) : Dict δ β :=
  (typedListArgsort S (d.values.map (fun v => -v))).foldl
    (fun newD i => match d[i]? with
      | some (k, v) => newD.set k v
      | none => newD)
    []

/-- common.py:46-51 `create_dict_from_lists`: `for i, k in enumerate(keys): d[k] = values[i]`;
`none` is the IndexError raised when `values` is shorter. -/
def createDictFromLists [DecidableEq κ] {ν : Type*} :
    List κ → List ν → Dict κ ν → Option (Dict κ ν)
  | [], _, d => some d
  | _ :: _, [], _ => none
  | k :: ks, v :: vs, d => createDictFromLists ks vs (d.set k v)

/-- common.py:88-96 `sort_dict_of_dict_by_value`. The keys are those of `d`, in order. -/
def sortDictOfDictByValue [DecidableEq κ] [DecidableEq δ] [LE β] [Neg β] (S : ArgSort β)
    (d : Dict κ (Dict δ β)) : Dict κ (Dict δ β) :=
  (createDictFromLists d.keys (d.values.map (sortDictByValue S)) []).getD []

/-- common.py:99-104 `add_bulk` (and 120-127 `create_bulk` from an empty dict):
`for i, q_id in enumerate(q_ids): d[q_id] = create_dict_from_lists(doc_ids[i], scores[i])`.
The dictionary is updated in place, so the assignments made before an
IndexError persist; the flag tells whether one was raised. -/
def addBulk [DecidableEq κ] [DecidableEq δ] :
    Dict κ (Dict δ β) → List κ → List (List δ) → List (List β) → Dict κ (Dict δ β) × Option Err
  | d, [], _, _ => (d, none)
  | d, q :: qs, ds :: dss, ss :: sss =>
    match createDictFromLists ds ss [] with
    | some inner => addBulk (d.set q inner) qs dss sss
    | none => (d, some .indexError)
  | d, _ :: _, _, _ => (d, some .indexError)

/-- common.py:111-115 / 135-139 and `Run.sort` (run.py:136-140), `Qrels.sort`
(qrels.py:152-156): sort the queries by id, then each query by value. -/
def sortAll [LinearOrder κ] [DecidableEq δ] [LE β] [Neg β] (S : ArgSort β)
    (d : Dict κ (Dict δ β)) : Dict κ (Dict δ β) :=
  sortDictOfDictByValue S (sortDictByKey d)

end Ranx
