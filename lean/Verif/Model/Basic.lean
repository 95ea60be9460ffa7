/-!
# Insertion ordered dictionaries and errors

Python `dict` and numba `typed.Dict` are both insertion ordered: assignment to
an existing key updates in place, assignment to a new key appends, deletion
removes.  They are modelled by association lists.  Key uniqueness is a separate
invariant (`Dict.NodupKeys`), preserved by all operations (`Lemmas/Dict.lean`).
-/

namespace Ranx

/-- The Python exceptions the modelled code can raise. -/
inductive Err where
  | valueError
  | keyError
  | indexError
  | typeError
  | assertionError
  | zeroDivision
  | notImplemented
  | osError
  deriving DecidableEq, Repr

/-- insertion sort, used wherever the code calls a sort whose result is determined by correctness -/
def insertBy {γ : Type _} (le : γ → γ → Bool) (a : γ) : List γ → List γ
  | [] => [a]
  | b :: t => if le a b then a :: b :: t else b :: insertBy le a t

/-- see `insertBy` -/
def isort {γ : Type _} (le : γ → γ → Bool) : List γ → List γ
  | [] => []
  | a :: t => insertBy le a (isort le t)

/-- `typed.Dict` / `dict`: entries in insertion order. -/
abbrev Dict (κ ν : Type _) := List (κ × ν)

namespace Dict
variable {κ ν : Type _}

/-- `list(d.keys())` -/
def keys (d : Dict κ ν) : List κ := d.map Prod.fst

/-- `list(d.values())` -/
def values (d : Dict κ ν) : List ν := d.map Prod.snd

/-- `d.get(k)` (and `d[k]`, whose `KeyError` is `none`) -/
def get? [DecidableEq κ] : Dict κ ν → κ → Option ν
  | [], _ => none
  | (k', v) :: t, k => if k' = k then some v else get? t k

/-- `k in d` -/
def contains [DecidableEq κ] (d : Dict κ ν) (k : κ) : Bool := (d.get? k).isSome

/-- `d[k] = v` -/
def set [DecidableEq κ] : Dict κ ν → κ → ν → Dict κ ν
  | [], k, v => [(k, v)]
  | (k', v') :: t, k, v => if k' = k then (k', v) :: t else (k', v') :: set t k v

/-- `del d[k]` (of an existing key; a missing key leaves `d` as it is) -/
def del [DecidableEq κ] : Dict κ ν → κ → Dict κ ν
  | [], _ => []
  | (k', v') :: t, k => if k' = k then t else (k', v') :: del t k

/-- The invariant of real dictionaries: no key twice. -/
def NodupKeys (d : Dict κ ν) : Prop := (d.map Prod.fst).Nodup

/-- Build a dictionary by successive assignments. -/
def ofList [DecidableEq κ] (l : List (κ × ν)) : Dict κ ν :=
  l.foldl (fun d p => set d p.1 p.2) []

end Dict
end Ranx
