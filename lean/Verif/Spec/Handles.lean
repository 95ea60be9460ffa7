import Verif.Spec.Heap
import Verif.Model.Handles

/-!
# Programs whose runs and dictionaries are values

Every run, every `run[q]`, every `to_dict()` is a value of its own: an action changes the one it names and no
other.
-/

namespace Ranx.Spec
open _root_.Ranx.Heap (Mem Obj Act)
variable {κ δ : Type}

/-- what a user holds: a run, a dictionary of dictionaries or a dictionary of scores -/
inductive Thing (κ δ : Type) where
  | run (s : Store κ δ ℝ)
  | dict (D : Dict κ (Dict δ ℝ))
  | row (r : Dict δ ℝ)

/-- what a user sees at the address of something held -/
def see (h : Mem κ δ ℝ) (a : Nat) : Option (Thing κ δ) :=
  match h[a]? with
  | some (.run _ _) => (view h a).map .run
  | some (.queries m) => (deref h m).map .dict
  | some (.results r) => some (.row r)
  | none => none

/-- the addresses of the objects it is made of -/
def parts (h : Mem κ δ ℝ) (a : Nat) : List Nat :=
  match h[a]? with
  | some (.run _ _) => objects h a
  | some (.queries m) => a :: m.map Prod.snd
  | some (.results _) => [a]
  | none => []

/-- memory `h` holds the things `ts` at the addresses `as`, no object belongs to two of them or twice to
one of them -/
structure Disjoint (h : Mem κ δ ℝ) (as : List Nat) (ts : List (Thing κ δ)) : Prop where
  reads : List.Forall₂ (fun a t => see h a = some t) as ts
  once : ∀ a ∈ as, (parts h a).Nodup
  apart : ∀ i j a a' : Nat, i ≠ j → as[i]? = some a → as[j]? = some a' → ∀ x ∈ parts h a, x ∉ parts h a'

/-- the run held as number `i`, if it is one -/
def runAt (w : List (Thing κ δ)) (i : Nat) : Option (Store κ δ ℝ) :=
  match w[i]? with
  | some (.run s) => some s
  | _ => none

/-- the dictionary of dictionaries held as number `i`, if it is one -/
def dictAt (w : List (Thing κ δ)) (i : Nat) : Option (Dict κ (Dict δ ℝ)) :=
  match w[i]? with
  | some (.dict D) => some D
  | _ => none

/-- the dictionary of scores held as number `i`, if it is one -/
def rowAt (w : List (Thing κ δ)) (i : Nat) : Option (Dict δ ℝ) :=
  match w[i]? with
  | some (.row r) => some r
  | _ => none

/-- obtaining something: it joins what is held -/
def obtain' (w : List (Thing κ δ)) (r : Except Err (Thing κ δ)) : List (Thing κ δ) × Option Err :=
  match r with
  | .ok t => (w ++ [t], none)
  | .error e => (w, some e)

variable [LinearOrder κ] [DecidableEq δ]

/-- the entries of a dictionary, put one after the other into an empty one -/
def asPython (D : Dict κ (Dict δ ℝ)) : Dict κ (Dict δ ℝ) :=
  D.keys.foldl (fun d q => d.set q ((D.get? q).getD [])) []

/-- `run[q]` -/
def item (s : Store κ δ ℝ) (q : κ) : Except Err (Thing κ δ) :=
  match s.data.get? q with
  | none => .error .keyError
  | some r => .ok (.row r)

/-- one action on values -/
noncomputable def act (w : List (Thing κ δ)) : Act κ δ → List (Thing κ δ) × Option Err
  | .empty => obtain' w (.ok (.run Store.empty))
  | .new S d => obtain' w ((Store.ofDict S d).map .run)
  | .fromDict S i =>
    match dictAt w i with
    | none => (w, none)
    | some D => obtain' w ((Store.ofDict S D).map .run)
  | .op S i o =>
    match runAt w i with
    | none => (w, none)
    | some s => (w.set i (.run (s.step S o).1), (s.step S o).2)
  | .normalize E norm i =>
    match runAt w i with
    | none => (w, none)
    | some s => obtain' w ((normalized E norm s).map .run)
  | .fuse E is norm method params =>
    obtain' w ((Fuse.fuse E (is.filterMap (runAt w)) norm method params).map .run)
  | .getItem i q =>
    match runAt w i with
    | none => (w, none)
    | some s => obtain' w (item s q)
  | .toDict i =>
    match runAt w i with
    | none => (w, none)
    | some s => obtain' w (.ok (.dict (asPython s.data)))
  | .writeItem i doc v =>
    match rowAt w i with
    | none => (w, none)
    | some r => (w.set i (.row (r.set doc v)), none)
  | .lookDict i q =>
    match dictAt w i with
    | none => (w, none)
    | some D => (w.set i (.dict (if D.contains q then D else D.set q [])), none)
  | .writeDict i q doc v =>
    match dictAt w i with
    | none => (w, none)
    | some D => (w.set i (.dict (D.set q (((D.get? q).getD []).set doc v))), none)

/-- a program on values -/
noncomputable def acts (w : List (Thing κ δ)) : List (Act κ δ) → List (Thing κ δ) × List (Option Err)
  | [] => (w, [])
  | c :: cs =>
    let r := act w c
    let r' := acts r.1 cs
    (r'.1, r.2 :: r'.2)

end Ranx.Spec
