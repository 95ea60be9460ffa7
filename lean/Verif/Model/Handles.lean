import Verif.Model.Heap

/-!
# What the reading methods hand out: copies and references

`run[q_id]` and `to_dict()` build Python dictionaries, `get_doc_ids_and_scores()` returns the dictionaries the
run itself is made of. The memory is the one of `Model/Heap.lean`; a Python dictionary doc id → score is a
`results` object, the `defaultdict(dict)` made by `to_dict()` a `queries` object (a typed and a Python
dictionary differ in nothing the model observes, except that reading a missing key of a `defaultdict`
inserts it). `Qrels` has the same methods (qrels.py:89-91, 143-149, 164-173, 354-361).
-/

namespace Ranx.Store
variable {κ δ β : Type*}

/-- run.py:127-129, qrels.py:143-145 `get_query_ids` (and `keys`, run.py:77-79, as a list) -/
def queryIds (s : Store κ δ β) : List κ := s.data.keys

/-- run.py:378-380, 385-386, qrels.py:353-355, 360-361 `size`, `__len__` -/
def size (s : Store κ δ β) : Nat := s.data.length

end Ranx.Store

namespace Ranx.Heap
open _root_.Ranx.Fuse (Env Kwargs)

variable {κ δ β : Type} {A : Type}

section
variable [LinearOrder κ] [DecidableEq δ]

/-- `dict(results)`: a new dictionary with the same entries -/
def copyResults (x : Nat) : Prog κ δ β Nat := do
  let d ← readResults x
  alloc (.results d)

/-- run.py:382-383 `__getitem__`: `dict(self.run[q_id])`; an unknown query raises KeyError -/
def getItem (a : Nat) (q : κ) : Prog κ δ β Nat := do
  let r ← readRun a
  let m ← readQueries r.1
  match m.get? q with
  | none => fail .keyError
  | some x => copyResults x

/-- run.py:170-172: `for q_id in self.keys(): d[q_id] = dict(self[q_id])`; the copy of the copy is one
object in the model -/
def copyLoop (a b : Nat) : List κ → Prog κ δ β Unit
  | [] => pure ()
  | q :: qs => do
    let x ← getItem a q
    setQuery b q x
    copyLoop a b qs

/-- run.py:164-173 `to_dict` -/
def toDict (a : Nat) : Prog κ δ β Nat := do
  let b ← alloc (.queries [])
  let r ← readRun a
  let m ← readQueries r.1
  copyLoop a b m.keys
  pure b

/-- run.py:55-69 `Run(d)` (236-255 `from_dict`) for a dictionary `d` in memory: keys, documents and scores
are read, the run is made of new dictionaries -/
def fromDict [LE β] [Neg β] (S : ArgSort β) (b : Nat) : Prog κ δ β Nat := do
  let m ← readQueries b
  let c ← readContent m
  ofDict S c

/-- the user's `d[q]` on what `to_dict()` returned: a `defaultdict(dict)` inserts an empty dictionary under a
missing key (run.py:170) -/
def lookDict (b : Nat) (q : κ) : Prog κ δ β Unit := do
  let m ← readQueries b
  ensureQuery b m q

/-- the user's `d[q][doc] = v` on what `to_dict()` returned -/
def writeDict (b : Nat) (q : κ) (d : δ) (v : β) : Prog κ δ β Unit := do
  let m ← readQueries b
  ensureQuery b m q
  let m' ← readQueries b
  setEntry (m'.get? q) d v

/-- run.py:131-133 `get_doc_ids_and_scores`: `list(self.run.values())`, references to the run's own
dictionaries -/
def liveResults (a : Nat) : Prog κ δ β (List Nat) := do
  let r ← readRun a
  let m ← readQueries r.1
  pure m.values

/-- the user's `run.get_doc_ids_and_scores()[i][doc] = v` -/
def writeLive (a i : Nat) (d : δ) (v : β) : Prog κ δ β Unit := do
  let xs ← liveResults a
  match xs[i]? with
  | none => fail .indexError
  | some x => setItem x d v

/-! ### Programs using runs and the dictionaries obtained from them -/

/-- what a user may do with the runs and dictionaries obtained so far, numbered in the order in which they
were obtained -/
inductive Act (κ δ : Type) where
  /-- `Run()` -/
  | empty
  /-- `Run({…})` for a literal -/
  | new (S : ArgSort ℝ) (d : Dict κ (Dict δ ℝ))
  /-- `Run(d)` for a dictionary obtained from `to_dict()` -/
  | fromDict (S : ArgSort ℝ) (i : Nat)
  /-- a method call on a run -/
  | op (S : ArgSort ℝ) (i : Nat) (o : Store.Op κ δ ℝ)
  | normalize (E : Env δ) (norm : String) (i : Nat)
  | fuse (E : Env δ) (is : List Nat) (norm : Option String) (method : String) (params : Option Kwargs)
  /-- `run[q]` -/
  | getItem (i : Nat) (q : κ)
  /-- `run.to_dict()` -/
  | toDict (i : Nat)
  /-- `d[doc] = v` for `d` obtained as `run[q]` -/
  | writeItem (i : Nat) (doc : δ) (v : ℝ)
  /-- `d[q]` for `d` obtained as `run.to_dict()` -/
  | lookDict (i : Nat) (q : κ)
  /-- `d[q][doc] = v` for `d` obtained as `run.to_dict()` -/
  | writeDict (i : Nat) (q : κ) (doc : δ) (v : ℝ)

/-- is the object at this address a run? -/
def isRun (h : Mem κ δ ℝ) (a : Nat) : Bool :=
  match h[a]? with
  | some (.run _ _) => true
  | _ => false

/-- is it a dictionary of dictionaries? -/
def isDict (h : Mem κ δ ℝ) (a : Nat) : Bool :=
  match h[a]? with
  | some (.queries _) => true
  | _ => false

/-- is it a dictionary of scores? -/
def isRow (h : Mem κ δ ℝ) (a : Nat) : Bool :=
  match h[a]? with
  | some (.results _) => true
  | _ => false

/-- a call changing an object -/
def done (as : List Nat) (r : Except Err Unit × Mem κ δ ℝ) : (Mem κ δ ℝ × List Nat) × Option Err :=
  match r with
  | (.ok _, h) => ((h, as), none)
  | (.error e, h) => ((h, as), some e)

/-- the handle number `i`, if it is of the kind `k` -/
def held (k : Mem κ δ ℝ → Nat → Bool) (w : Mem κ δ ℝ × List Nat) (i : Nat) : Option Nat :=
  (w.2[i]?).filter (k w.1)

/-- one action; an action naming something that does not exist, or not an object of the kind the action is
meant for, does nothing -/
noncomputable def act (w : Mem κ δ ℝ × List Nat) : Act κ δ → (Mem κ δ ℝ × List Nat) × Option Err
  | .empty => keep w.2 (newRun w.1)
  | .new S d => keep w.2 (ofDict S d w.1)
  | .fromDict S i =>
    match held isDict w i with
    | none => (w, none)
    | some b => keep w.2 (fromDict S b w.1)
  | .op S i o =>
    match held isRun w i with
    | none => (w, none)
    | some a => done w.2 (op S a o w.1)
  | .normalize E norm i =>
    match held isRun w i with
    | none => (w, none)
    | some a => keep w.2 (normalize E norm a w.1)
  | .fuse E is norm method params =>
    keep w.2 (fuse E (is.filterMap (held isRun w)) norm method params w.1)
  | .getItem i q =>
    match held isRun w i with
    | none => (w, none)
    | some a => keep w.2 (getItem a q w.1)
  | .toDict i =>
    match held isRun w i with
    | none => (w, none)
    | some a => keep w.2 (toDict a w.1)
  | .writeItem i doc v =>
    match held isRow w i with
    | none => (w, none)
    | some x => done w.2 (setItem x doc v w.1)
  | .lookDict i q =>
    match held isDict w i with
    | none => (w, none)
    | some b => done w.2 (lookDict b q w.1)
  | .writeDict i q doc v =>
    match held isDict w i with
    | none => (w, none)
    | some b => done w.2 (writeDict b q doc v w.1)

/-- a program: the state reached and the outcome of every action -/
noncomputable def acts (w : Mem κ δ ℝ × List Nat) : List (Act κ δ) →
    (Mem κ δ ℝ × List Nat) × List (Option Err)
  | [] => (w, [])
  | c :: cs =>
    let r := act w c
    let r' := acts r.1 cs
    (r'.1, r.2 :: r'.2)

end
end Ranx.Heap
