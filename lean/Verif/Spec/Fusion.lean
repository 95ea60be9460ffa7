import Mathlib.Algebra.BigOperators.Group.List.Defs
import Verif.Spec.Store

/-!
# Specification of fusion

Runs are nested dictionaries query → doc → score. Nothing here refers to the fusion code.
-/

namespace Ranx.Spec
variable {κ δ α : Type*} [DecidableEq κ] [DecidableEq δ]

/-- content of a run -/
abbrev RunData (κ δ α : Type*) := Dict κ (Dict δ α)

/-- some run has doc `d` for query `q` -/
def InSome (runs : List (RunData κ δ α)) (q : κ) (d : δ) : Prop :=
  ∃ run ∈ runs, ∃ r, run.get? q = some r ∧ d ∈ r.keys

/-- the score of doc `d` for query `q` in a run, if it has it -/
def score? (run : RunData κ δ α) (q : κ) (d : δ) : Option α := (run.get? q).bind (fun r => r.get? d)

/-- the 0-based position of doc `d` for query `q` in a run, if it has it -/
def position? (run : RunData κ δ α) (q : κ) (d : δ) : Option Nat :=
  (run.get? q).bind (fun r => r.keys.idxOf? d)

/-- the scores of doc `d` for query `q` in the runs that have it -/
def scores (runs : List (RunData κ δ α)) (q : κ) (d : δ) : List α :=
  runs.filterMap (fun run => score? run q d)

/-- the same, each with the weight of its run -/
def weighted (runs : List (RunData κ δ α)) (ws : List α) (q : κ) (d : δ) : List (α × α) :=
  (runs.zip ws).filterMap (fun rw => (score? rw.1 q d).map (fun s => (s, rw.2)))

/-- the 0-based positions of doc `d` for query `q` in the runs that have it -/
def positions (runs : List (RunData κ δ α)) (q : κ) (d : δ) : List Nat :=
  runs.filterMap (fun run => position? run q d)

/-- one occurrence of a doc: its 0-based position and score in a run, the run's parameter, and the
number of docs the run has for the query -/
structure Occurrence (π α : Type*) where
  pos : Nat
  score : α
  param : π
  count : Nat

/-- the occurrences of doc `d` for query `q` in the runs, each with the parameter of its run -/
def occurrences {π : Type*} (runs : List (RunData κ δ α)) (params : List π) (q : κ) (d : δ) :
    List (Occurrence π α) :=
  (runs.zip params).filterMap (fun rp =>
    (rp.1.get? q).bind (fun r => (r.keys.idxOf? d).bind (fun i =>
      (r.get? d).map (fun s => ⟨i, s, rp.2, r.length⟩))))

/-- what `fuse` requires: at least one run, every dictionary with unique keys, the same queries in
all runs (in any order) -/
structure Fusable (runs : List (RunData κ δ α)) : Prop where
  nonempty : runs ≠ []
  nodupQ : ∀ run ∈ runs, run.NodupKeys
  nodupD : ∀ run ∈ runs, ∀ p ∈ run, Dict.NodupKeys p.2
  same : ∀ run ∈ runs, ∀ run' ∈ runs, ∀ q, q ∈ run.keys → q ∈ run'.keys

/-- `out` is the fusion of `runs` in which doc `d` of query `q` has score `val q d`: the queries of
the runs; for each query exactly the docs that occur in some run; the right score for each; queries in
increasing order and each ranking in non-increasing score order, marked as sorted. -/
structure FusedBy [LinearOrder κ] [LE α] (runs : List (RunData κ δ α)) (val : κ → δ → α)
    (out : Store κ δ α) : Prop where
  queries : ∀ q, q ∈ out.data.keys ↔ ∃ run ∈ runs, q ∈ run.keys
  docs : ∀ q d, (content out).read q d ≠ none ↔ InSome runs q d
  value : ∀ q d, InSome runs q d → (content out).read q d = some (val q d)
  nodupQ : out.data.NodupKeys
  nodupD : ∀ p ∈ out.data, Dict.NodupKeys p.2
  ranked : ∀ p ∈ out.data, Ranked p.2.values
  ordered : out.data.keys.Pairwise (· < ·)
  flagged : out.sorted = true

end Ranx.Spec
