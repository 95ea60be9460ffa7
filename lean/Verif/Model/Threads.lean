import Mathlib.Data.List.Perm.Basic
import Verif.Model.Metrics
import Verif.Model.Store
import Verif.Model.Stats

/-!
# Parallel loops, action by action

`Model/Prange.lean` lets whole iterations of a `prange` loop take effect in any order.  Here an iteration is a sequence of
actions on its local variables and on the shared memory, and the actions of different iterations are interleaved in any
way.  (numba gives every thread a chunk of the iterations; the executions it allows are among those allowed here, where
every iteration may run by itself.)  A single action — one turn of an inner loop, one assignment into an array, one
assignment into a dictionary under an existing key — is atomic.
-/

namespace Ranx.Par

/-- The body of `for i in prange(n)`: local variables `σ`, shared memory `G`. -/
structure Body (σ G : Type*) where
  /-- local variables at the start of iteration `i` -/
  start : Nat → σ
  /-- the iteration has ended -/
  done : σ → Bool
  /-- the next action of iteration `i` -/
  act : Nat → σ → G → σ × G

/-- local variables of every iteration, and the shared memory -/
structure State (σ G : Type*) where
  locals : Nat → σ
  mem : G

variable {σ G γ : Type*}

/-- before the loop -/
def init (B : Body σ G) (g : G) : State σ G := ⟨B.start, g⟩

/-- iteration `i` of a loop of `n` makes its next action (`none`: it has none) -/
def step (B : Body σ G) (n i : Nat) (st : State σ G) : Option (State σ G) :=
  if i < n ∧ B.done (st.locals i) = false then
    let r := B.act i (st.locals i) st.mem
    some ⟨fun j => if j = i then r.1 else st.locals j, r.2⟩
  else none

/-- the actions are made by the iterations listed -/
def exec (B : Body σ G) (n : Nat) : List Nat → State σ G → Option (State σ G)
  | [], st => some st
  | i :: is, st => (step B n i st).bind (exec B n is)

/-- every iteration has ended -/
def Complete (B : Body σ G) (n : Nat) (st : State σ G) : Prop := ∀ i < n, B.done (st.locals i) = true

/-- `for i in prange(n): out[i] = f(i)`, the shape of all loops of the code but one (e.g. hits.py:37-42, comb_sum.py:31-41,
min_max_norm.py:43-46): `next i` is a step of the computation of `f(i)`, which ends with a value; the value is then stored.
Local variables `none`: stored. -/
def slotBody (start : Nat → σ) (next : Nat → σ → σ ⊕ γ) : Body (Option σ) (List γ) where
  start i := some (start i)
  done s := s.isNone
  act i s out :=
    match s with
    | none => (none, out)
    | some s =>
      match next i s with
      | .inl s' => (some s', out)
      | .inr v => (none, out.set i v)

section
open Metrics
variable {ι α : Type*} [LinearOrder ι] [LinearOrder α] [Zero α] [One α] [Add α]

/-- hits.py:12-34 `_hits`: local variables are the qrels kept by `clean_qrels`, the rows still to visit and `hits`. -/
def hitsStart (qrels run : List (Rows ι α)) (k : Nat) (relLvl : α) (i : Nat) : Rows ι α × Rows ι α × α :=
  let q := cleanQrels ((qrels[i]?).getD []) relLvl
  let r := (run[i]?).getD []
  if q.length = 0 then (q, [], 0) else (q, r.take (fixK k r), 0)

/-- one turn of the loop hits.py:25-32, or `return hits` -/
def hitsNext (_ : Nat) (s : Rows ι α × Rows ι α × α) : (Rows ι α × Rows ι α × α) ⊕ α :=
  match s with
  | (_, [], h) => .inr h
  | (q, r :: t, h) => .inl (q, t, if (look q r.1).isSome then h + 1 else h)

/-- hits.py:37-42 `_hits_parallel` -/
def hitsBody (qrels run : List (Rows ι α)) (k : Nat) (relLvl : α) : Body (Option (Rows ι α × Rows ι α × α)) (List α) :=
  slotBody (hitsStart qrels run k relLvl) hitsNext

end

/-- Local variables of an iteration of `_set_relevance_level`. -/
inductive RelVars (δ : Type*) where
  /-- nothing read yet -/
  | fresh
  /-- `doc_ids` read -/
  | ids (ds : List δ)
  /-- `doc_ids` and `scores` read, `j` from here on -/
  | writing (ds : List δ) (vs : List Int)

/-- qrels.py:23-35 `_set_relevance_level`: iteration `i` reads the doc ids of its query, then their scores, then assigns
them one at a time: `qrels[q_ids[i]][doc_ids[j]] = scores[j] - (rel_lvl - 1)`.  The query ids are read before the loop.
(Both lists have one entry per document, so `scores[j]` exists for every `doc_ids[j]`.) -/
def relBody {κ δ : Type*} [DecidableEq κ] [DecidableEq δ] (qs : List κ) (lvl : Int) :
    Body (RelVars δ) (Dict κ (Dict δ Int)) where
  start _ := .fresh
  done
    | .writing [] _ => true
    | .writing _ [] => true
    | _ => false
  act i s data :=
    match qs[i]? with
    | none => (.writing [] [], data)
    | some q =>
      match s with
      | .fresh => (.ids ((data.get? q).getD []).keys, data)
      | .ids ds => (.writing ds ((data.get? q).getD []).values, data)
      | .writing (d :: ds) (v :: vs) =>
        (.writing ds vs, data.set q (((data.get? q).getD []).set d (v - (lvl - 1))))
      | s => (s, data)

/-! ### the random numbers of Fisher's test -/

/-- A generator of one thread: `draw` says whether a row of two is swapped by `np.random.permutation`. -/
structure Rng (ρ : Type*) where
  seed : Nat → ρ
  draw : ρ → Bool × ρ

/-- the state after `n` draws -/
def Rng.after {ρ : Type*} (R : Rng ρ) (s : ρ) : Nat → ρ
  | 0 => s
  | n + 1 => (R.draw (R.after s n)).2

/-- fisher_randomization_test.py:28 and 36-37: the iterations of `prange` are shared out among the threads (`chunks t`, in
order), each thread draws from its own generator (numba: `np.random.seed` seeds the generator of the calling thread,
thread 0 here; `other` are the states of the others).  Whether row `j` is swapped in iteration `i`: -/
def coins {ρ : Type*} (R : Rng ρ) (randomSeed : Nat) (other : Nat → ρ) (chunks : List (List Nat)) (rows i j : Nat) : Bool :=
  match chunks.findIdx? (fun c => c.contains i) with
  | none => false
  | some t =>
    let s := if t = 0 then R.seed randomSeed else other t
    (R.draw (R.after s ((((chunks[t]?).getD []).idxOf i) * rows + j))).1

/-- fisher_randomization_test.py:15-46 with its `random_seed` -/
def seededFisher {ρ α : Type*} [Field α] [LinearOrder α] (R : Rng ρ) (randomSeed : Nat) (other : Nat → ρ)
    (chunks : List (List Nat)) (sched : List Nat) (control treatment : List (Metrics.Num α)) (n : Nat) (maxP : α) :
    Except Err (Stat.Result α) :=
  Stat.fisher (coins R randomSeed other chunks control.length) sched control treatment n maxP

end Ranx.Par
