import Verif.Model.Heap

/-!
# What can be seen of a run in memory, and programs whose runs are values

`view` follows the references of a run and returns what a user reads; `objects` lists the objects passed
on the way. `World.exec` is a program over runs in a language without references: every run is a value of
its own.
-/

namespace Ranx.Spec
open _root_.Ranx.Heap (Mem Obj Cmd)
open _root_.Ranx.Norm (normSwitch)
variable {κ δ β : Type}

/-- the results a reference leads to -/
def resultsAt (h : Mem κ δ β) (x : Nat) : Option (Dict δ β) :=
  match h[x]? with
  | some (.results r) => some r
  | _ => none

/-- the references from queries to results -/
def queriesAt (h : Mem κ δ β) (b : Nat) : Option (Dict κ Nat) :=
  match h[b]? with
  | some (.queries m) => some m
  | _ => none

/-- follow every reference of a dictionary of queries -/
def deref (h : Mem κ δ β) : Dict κ Nat → Option (Dict κ (Dict δ β))
  | [] => some []
  | p :: t => (resultsAt h p.2).bind fun r => (deref h t).map fun d => (p.1, r) :: d

/-- what a user reads from the run at address `a` -/
def view (h : Mem κ δ β) (a : Nat) : Option (Store κ δ β) :=
  match h[a]? with
  | some (.run b f) => ((queriesAt h b).bind (deref h)).map fun d => ⟨d, f⟩
  | _ => none

/-- the addresses of the objects the run at address `a` is made of -/
def objects (h : Mem κ δ β) (a : Nat) : List Nat :=
  match h[a]? with
  | some (.run b _) => a :: b :: ((queriesAt h b).getD []).map Prod.snd
  | _ => []

/-- the outcome of creating a run: it joins the others -/
def World.keep (w : List (Store κ δ ℝ)) (r : Except Err (Store κ δ ℝ)) :
    List (Store κ δ ℝ) × Option Err :=
  match r with
  | .ok s => (w ++ [s], none)
  | .error e => (w, some e)

variable [LinearOrder κ] [DecidableEq δ]

/-- `normalize` as a function of the run's value (meta/normalize.py:5-6) -/
noncomputable def normalized (E : Fuse.Env δ) (norm : String) (s : Store κ δ ℝ) : Except Err (Store κ δ ℝ) :=
  match normSwitch norm with
  | .error e => .error e
  | .ok k => if k = .borda then .error .keyError else .ok (Fuse.normOne E k 0 s)

/-- one command on values: it changes the run it names or creates one, and no other -/
noncomputable def World.step (w : List (Store κ δ ℝ)) : Cmd κ δ → List (Store κ δ ℝ) × Option Err
  | .empty => World.keep w (.ok Store.empty)
  | .new S d => World.keep w (Store.ofDict S d)
  | .op S i o =>
    match w[i]? with
    | none => (w, none)
    | some s => (w.set i (s.step S o).1, (s.step S o).2)
  | .normalize E norm i =>
    match w[i]? with
    | none => (w, none)
    | some s => World.keep w (normalized E norm s)
  | .fuse E is norm method params =>
    World.keep w (Fuse.fuse E (is.filterMap (fun i => w[i]?)) norm method params)

/-- a program on values: the runs at the end and the outcome of every command -/
noncomputable def World.exec (w : List (Store κ δ ℝ)) : List (Cmd κ δ) →
    List (Store κ δ ℝ) × List (Option Err)
  | [] => (w, [])
  | c :: cs =>
    let r := World.step w c
    let r' := World.exec r.1 cs
    (r'.1, r.2 :: r'.2)

end Ranx.Spec

namespace Ranx.Spec
open _root_.Ranx.Heap (Mem)
variable {κ δ β : Type}

/-- memory `h` holds the runs `ss` at the addresses `as`, and no object belongs to two of them or twice to
one of them -/
structure Separate (h : Mem κ δ β) (as : List Nat) (ss : List (Store κ δ β)) : Prop where
  reads : List.Forall₂ (fun a s => view h a = some s) as ss
  once : ∀ a ∈ as, (objects h a).Nodup
  apart : ∀ i j a a' : Nat, i ≠ j → as[i]? = some a → as[j]? = some a' →
    ∀ x ∈ objects h a, x ∉ objects h a'

end Ranx.Spec
