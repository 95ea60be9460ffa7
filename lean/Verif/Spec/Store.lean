import Verif.Model.Store

/-!
# Specification of `Run` / `Qrels` content: a plain two-level map

No order, no flags: a query is present or absent, and a present query maps docs
to optional values.
-/

namespace Ranx.Spec
variable {κ δ β : Type*} [DecidableEq κ] [DecidableEq δ]

/-- abstract content -/
abbrev Content (κ δ β : Type*) := κ → Option (δ → Option β)

/-- value of doc `d` under query `q` -/
def Content.read (m : Content κ δ β) (q : κ) (d : δ) : Option β := (m q).bind (fun f => f d)

/-- value of the last pair naming `d` -/
def lastValue (ds : List δ) (vs : List β) (d : δ) : Option β :=
  ((ds.zip vs).reverse.find? (fun p => p.1 = d)).map (fun p => p.2)

/-- overwrite one fact, creating the query if need be -/
def writeOne (m : Content κ δ β) (q : κ) (d : δ) (v : β) : Content κ δ β :=
  fun q' => if q' = q then some (fun d' => if d' = d then some v else m.read q d') else m q'

/-- replace a whole query -/
def replaceQuery (m : Content κ δ β) (q : κ) (f : δ → Option β) : Content κ δ β :=
  fun q' => if q' = q then some f else m q'

/-- replace several queries one after the other; stop at the first whose lists do not fit -/
def replaceQueries (m : Content κ δ β) :
    List κ → List (List δ) → List (List β) → Content κ δ β × Bool
  | [], _, _ => (m, true)
  | q :: qs, ds :: dss, vs :: vss =>
    if ds.length ≤ vs.length then
      replaceQueries (replaceQuery m q (lastValue ds vs)) qs dss vss
    else (m, false)
  | _ :: _, _, _ => (m, false)

/-- keep exactly the queries in `qs`; those not yet present become empty -/
def restrictTo (m : Content κ δ β) (qs : List κ) : Content κ δ β :=
  fun q => if q ∈ qs then some (fun d => m.read q d) else none

/-- effect of each public call on the content, and whether it succeeds; empty lists are refused by `add` and
`add_multi` -/
def step (m : Content κ δ β) : Store.Op κ δ β → Content κ δ β × Bool
  | .addScore q d v => (writeOne m q d v, true)
  | .add q ds vs => if ds.isEmpty || vs.isEmpty then (m, false) else replaceQueries m [q] [ds] [vs]
  | .addMulti qs dss vss =>
    if qs.isEmpty || dss.isEmpty || vss.isEmpty || dss.any List.isEmpty || vss.any List.isEmpty then (m, false)
    else replaceQueries m qs dss vss
  | .sort => (m, true)
  | .makeComparable qs => (restrictTo m qs, true)
  | .toTypedList => (m, true)

/-- the exception of a call that fails: TypeError for an empty list, IndexError for lists that do not fit -/
def refusal : Store.Op κ δ β → Err
  | .add _ ds vs => if ds.isEmpty || vs.isEmpty then .typeError else .indexError
  | .addMulti qs dss vss =>
    if qs.isEmpty || dss.isEmpty || vss.isEmpty || dss.any List.isEmpty || vss.any List.isEmpty then .typeError
    else .indexError
  | _ => .indexError

/-- effect of a history -/
def exec (m : Content κ δ β) : List (Store.Op κ δ β) → Content κ δ β × List Bool
  | [] => (m, [])
  | o :: os =>
    let (m1, b) := step m o
    let (m2, bs) := exec m1 os
    (m2, b :: bs)

/-- what can be read from a store -/
def content (s : Store κ δ β) : Content κ δ β :=
  fun q => (s.data.get? q).map (fun inner d => inner.get? d)

/-- each ranking is in non-increasing order of value -/
def Ranked [LE β] (l : List β) : Prop := l.Pairwise (fun a b => b ≤ a)

end Ranx.Spec
