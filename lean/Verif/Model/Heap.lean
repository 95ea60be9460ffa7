import Verif.Model.Fuse

/-!
# Objects in memory: which dictionaries are shared, which are written

The other models pass contents around as values. Here a `Run` is an object holding a reference to a
dictionary of queries, which holds references to the dictionaries of results; typed dictionaries are
passed to compiled functions by reference. Every function of `run.py`, `common.py`, `normalization/` and
`fusion/` that allocates or writes one of these objects is modelled with its allocations and its writes.

Simplifications: typed lists (`q_ids`, the list of slots of a prange loop, candidates) are local values,
they never leave the function; the read-only parts of a function (which never write to memory) are the
functions of `Model/Norm.lean`, `Model/Fusion.lean`, `Model/Condorcet.lean` applied to the contents read;
of the attributes of a `Run` only `run` and `sorted` are modelled; `sort_dict_by_value` and the scoring
functions compute the entries first and then write them to the new dictionary one by one, in the order of
the code; log_isr.py:75 and logn_isr.py:78 do not wrap the rescored runs in `Run` objects (the model
allocates them, nothing refers to them).
-/

namespace Ranx.Heap
open _root_.Ranx.Norm (Results SetIter Kind normSwitch getCandidates bordaNorm)
open _root_.Ranx.Fuse (Score combine Env Method Kwargs numArg intArg numsArg tablesArg)

variable {κ δ β : Type} {A B : Type}

/-- an object in memory -/
inductive Obj (κ δ β : Type) where
  /-- a typed dictionary doc id → score -/
  | results (d : Dict δ β)
  /-- a typed dictionary query id → reference to a results dictionary -/
  | queries (d : Dict κ Nat)
  /-- a `Run`: the reference `self.run` and the flag `self.sorted` -/
  | run (data : Nat) (sorted : Bool)

/-- the memory: the object at address `a` is `h[a]?` -/
abbrev Mem (κ δ β : Type) := List (Obj κ δ β)

/-- a piece of Python code: it may raise, and the changes made before that persist -/
def Prog (κ δ β A : Type) := Mem κ δ β → Except Err A × Mem κ δ β

instance : Monad (Prog κ δ β) where
  pure x := fun h => (.ok x, h)
  bind p f := fun h => match p h with
    | (.ok x, h') => f x h'
    | (.error e, h') => (.error e, h')

/-- raise -/
def fail (e : Err) : Prog κ δ β A := fun h => (.error e, h)

/-- an outcome computed without touching the memory -/
def lift (r : Except Err A) : Prog κ δ β A := fun h => (r, h)

/-- run to the end, whatever it raises (iterations of a prange loop do not stop each other) -/
def attempt (p : Prog κ δ β A) : Prog κ δ β (Except Err A) := fun h => (.ok (p h).1, (p h).2)

/-- create an object -/
def alloc (o : Obj κ δ β) : Prog κ δ β Nat := fun h => (.ok h.length, h ++ [o])

/-- `TypedDict.empty(unicode, float64)` (normalization/common.py:14-18 `create_empty_results_dict`) -/
def newResults : Prog κ δ β Nat := alloc (.results [])

/-- read a results dictionary -/
def readResults (a : Nat) : Prog κ δ β (Dict δ β) := fun h => match h[a]? with
  | some (.results d) => (.ok d, h)
  | _ => (.error .typeError, h)

/-- read a dictionary of queries -/
def readQueries (b : Nat) : Prog κ δ β (Dict κ Nat) := fun h => match h[b]? with
  | some (.queries m) => (.ok m, h)
  | _ => (.error .typeError, h)

/-- read the attributes of a `Run` -/
def readRun (a : Nat) : Prog κ δ β (Nat × Bool) := fun h => match h[a]? with
  | some (.run b f) => (.ok (b, f), h)
  | _ => (.error .typeError, h)

/-- assign `self.run` and `self.sorted` -/
def setRun (a b : Nat) (f : Bool) : Prog κ δ β Unit := fun h => (.ok (), h.set a (.run b f))

/-- `results[doc_id] = score` -/
def setItem [DecidableEq δ] (a : Nat) (d : δ) (v : β) : Prog κ δ β Unit := fun h => match h[a]? with
  | some (.results r) => (.ok (), h.set a (.results (r.set d v)))
  | _ => (.error .typeError, h)

/-- `run[q_id] = results` -/
def setQuery [DecidableEq κ] (b : Nat) (q : κ) (r : Nat) : Prog κ δ β Unit := fun h => match h[b]? with
  | some (.queries m) => (.ok (), h.set b (.queries (m.set q r)))
  | _ => (.error .typeError, h)

/-- `del run[q_id]` -/
def delQuery [DecidableEq κ] (b : Nat) (q : κ) : Prog κ δ β Unit := fun h => match h[b]? with
  | some (.queries m) => (.ok (), h.set b (.queries (m.del q)))
  | _ => (.error .typeError, h)

/-- `for doc_id, score in …: results[doc_id] = score` -/
def storeAll [DecidableEq δ] (a : Nat) : List (δ × β) → Prog κ δ β Unit
  | [] => pure ()
  | p :: t => do
    setItem a p.1 p.2
    storeAll a t

/-- `for q_id, results in …: run[q_id] = results` -/
def storeQueries [DecidableEq κ] (b : Nat) : List (κ × Nat) → Prog κ δ β Unit
  | [] => pure ()
  | p :: t => do
    setQuery b p.1 p.2
    storeQueries b t

/-- read several results dictionaries -/
def readAll : List Nat → Prog κ δ β (List (Dict δ β))
  | [] => pure []
  | a :: t => do
    let r ← readResults a
    let rs ← readAll t
    pure (r :: rs)

/-- the shape of `_min_max_norm`, `_comb_sum`, `_rrf_score`, `sort_dict_by_value`, …: a new dictionary,
filled from the contents of others; `f` computes the entries -/
def kernel [DecidableEq δ] (f : List (Dict δ β) → Except Err (Dict δ β)) (srcs : List Nat) :
    Prog κ δ β Nat := do
  let a ← newResults
  let rs ← readAll srcs
  let d ← lift (f rs)
  storeAll a d
  pure a

/-! ### Sorting and the methods of `Run` -/

section
variable [LinearOrder κ] [DecidableEq δ]

/-- common.py:62-72 `sort_dict_by_key`: a new dictionary referring to the same results -/
def sortByKey (b : Nat) : Prog κ δ β Nat := do
  let m ← readQueries b
  let b' ← alloc (.queries [])
  storeQueries b' (sortDictByKey m)
  pure b'

/-- common.py:93-94, the loop of `sort_dict_of_dict_by_value`: a new results dictionary each -/
def sortValues [LE β] [Neg β] (S : ArgSort β) : List Nat → Prog κ δ β (List Nat)
  | [] => pure []
  | a :: t => do
    let a' ← kernel (fun rs => .ok (sortDictByValue S (rs.headD []))) [a]
    let t' ← sortValues S t
    pure (a' :: t')

/-- common.py:88-96 `sort_dict_of_dict_by_value` -/
def sortByValue [LE β] [Neg β] (S : ArgSort β) (b : Nat) : Prog κ δ β Nat := do
  let m ← readQueries b
  let vs ← sortValues S m.values
  let b' ← alloc (.queries [])
  storeQueries b' (m.keys.zip vs)
  pure b'

/-- run.py:136-140 `Run.sort` -/
def sort [LE β] [Neg β] (S : ArgSort β) (a : Nat) : Prog κ δ β Unit := do
  let r ← readRun a
  let b1 ← sortByKey r.1
  setRun a b1 r.2
  let b2 ← sortByValue S b1
  setRun a b2 r.2
  setRun a b2 true

/-- run.py:158-161: the first part of `to_typed_list` -/
def ensureSorted [LE β] [Neg β] (S : ArgSort β) (a : Nat) : Prog κ δ β Unit := do
  let r ← readRun a
  if r.2 then pure () else sort S a

/-- run.py:89-93, 146-148: a new empty entry for a query that has none; `m` is the dictionary at `b` -/
def ensureQuery (b : Nat) (m : Dict κ Nat) (q : κ) : Prog κ δ β Unit :=
  if m.contains q then pure () else do
    let e ← newResults
    setQuery b q e

/-- `self.run[q_id][doc_id] = score`, `i` being the reference found for `q_id` -/
def setEntry (i : Option Nat) (d : δ) (v : β) : Prog κ δ β Unit :=
  match i with
  | none => fail .keyError
  | some i => setItem i d v

/-- run.py:81-95 `add_score` -/
def addScore (a : Nat) (q : κ) (d : δ) (v : β) : Prog κ δ β Unit := do
  let r ← readRun a
  let m ← readQueries r.1
  ensureQuery r.1 m q
  let m' ← readQueries r.1
  setEntry (m'.get? q) d v
  setRun a r.1 false

/-- common.py:46-51 `create_dict_from_lists` for a results dictionary, into the new dictionary `a` -/
def fillFromLists (a : Nat) : List δ → List β → Prog κ δ β Unit
  | [], _ => pure ()
  | _ :: _, [] => fail .indexError
  | d :: ds, v :: vs => do
    setItem a d v
    fillFromLists a ds vs

/-- common.py:99-104 `add_bulk` -/
def addBulk (b : Nat) : List κ → List (List δ) → List (List β) → Prog κ δ β Unit
  | [], _, _ => pure ()
  | q :: qs, ds :: dss, ss :: sss => do
    let i ← newResults
    fillFromLists i ds ss
    setQuery b q i
    addBulk b qs dss sss
  | _ :: _, _, _ => fail .indexError

/-- run.py:107-125 `add_multi`, common.py:107-115 `add_and_sort` -/
def addMulti [LE β] [Neg β] (S : ArgSort β) (a : Nat) (qs : List κ) (docs : List (List δ))
    (scores : List (List β)) : Prog κ δ β Unit :=
  if Store.untyped qs docs scores then fail .typeError else do
  let r ← readRun a
  addBulk r.1 qs docs scores
  let b1 ← sortByKey r.1
  let b2 ← sortByValue S b1
  setRun a b2 r.2
  setRun a b2 true

/-- run.py:145-148: `for q_id in qrels.qrels: if q_id not in self.run: self.run[q_id] = …` -/
def addMissing (b : Nat) : List κ → Prog κ δ β Unit
  | [] => pure ()
  | q :: qs => do
    let m ← readQueries b
    ensureQuery b m q
    addMissing b qs

/-- run.py:152-153: `if q_id not in qrels.qrels: del self.run[q_id]` -/
def delUnless (b : Nat) (qs : List κ) (k : κ) : Prog κ δ β Unit :=
  if qs.contains k then pure () else delQuery b k

/-- run.py:150-153: `for q_id in self.run: if q_id not in qrels.qrels: del self.run[q_id]` -/
def delExtra (b : Nat) (qs : List κ) : List κ → Prog κ δ β Unit
  | [] => pure ()
  | k :: ks => do
    delUnless b qs k
    delExtra b qs ks

/-- run.py:142-156 `make_comparable` -/
def makeComparable [LE β] [Neg β] (S : ArgSort β) (a : Nat) (qs : List κ) : Prog κ δ β Unit := do
  let r ← readRun a
  addMissing r.1 qs
  let m ← readQueries r.1
  delExtra r.1 qs m.keys
  sort S a

/-- run.py:48-53 `Run()` -/
def newRun : Prog κ δ β Nat := do
  let b ← alloc (.queries [])
  alloc (.run b false)

/-- run.py:55-69 `Run(dict)`, common.py:130-139 `create_and_sort` -/
def ofDict [LE β] [Neg β] (S : ArgSort β) (d : Dict κ (Dict δ β)) : Prog κ δ β Nat :=
  if d.values.all (fun x => x.isEmpty) then fail .valueError
  else do
    let b ← alloc (.queries [])
    addBulk b d.keys (d.values.map Dict.keys) (d.values.map Dict.values)
    let b1 ← sortByKey b
    let b2 ← sortByValue S b1
    alloc (.run b2 true)

/-- a public call on the run at address `a` (the operations of `Store.Op`) -/
def op [LE β] [Neg β] (S : ArgSort β) (a : Nat) : Store.Op κ δ β → Prog κ δ β Unit
  | .addScore q d v => addScore a q d v
  | .add q ds ss => addMulti S a [q] [ds] [ss]
  | .addMulti qs dss sss => addMulti S a qs dss sss
  | .sort => sort S a
  | .makeComparable qs => makeComparable S a qs
  | .toTypedList => ensureSorted S a

/-! ### Normalization and fusion -/

/-- `create_empty_results_dict_list(n)` (normalization/common.py:21-24) -/
def newSlots : Nat → Prog κ δ β (List Nat)
  | 0 => pure []
  | n + 1 => do
    let a ← newResults
    let t ← newSlots n
    pure (a :: t)

/-- the iterations of a prange loop in the order `sched`: `slots[i] = body(i)` -/
def slotLoop (body : Nat → Prog κ δ β Nat) : List Nat → List (Except Err Nat) →
    Prog κ δ β (List (Except Err Nat))
  | [], slots => pure slots
  | i :: is, slots => do
    let r ← attempt (body i)
    slotLoop body is (slots.set i r)

/-- `convert_results_dict_list_to_run` (normalization/common.py:27-34) -/
def toRun (qs : List κ) (rs : List Nat) : Prog κ δ β Nat := do
  let b ← alloc (.queries [])
  storeQueries b (qs.zip rs)
  pure b

/-- the `_…_parallel` functions: a dictionary of queries with one slot per query of `qs` -/
def parallel (body : Nat → Prog κ δ β Nat) (qs : List κ) (sched : List Nat) : Prog κ δ β Nat := do
  let slots ← newSlots qs.length
  let slots' ← slotLoop body sched (slots.map .ok)
  let rs ← lift (Eval.collect slots')
  toRun qs rs

/-- a new `Run()` whose content is what `p` returns: `_run = Run(); _run.run = …` -/
def newRunWith (p : Prog κ δ β Nat) : Prog κ δ β Nat := do
  let a ← newRun
  let b ← p
  setRun a b false
  pure a

/-- `_run = Run(); _run.run = _…_parallel(run.run, …)` (e.g. min_max_norm.py:62-63, rrf.py:67-68);
`g i` scores the results of the i-th query -/
def rescore (g : Nat → Dict δ β → Dict δ β) (sched : List Nat) (a : Nat) : Prog κ δ β Nat := do
  let r ← readRun a
  newRunWith do
    let m ← readQueries r.1
    parallel (fun i => kernel (fun rs => .ok (g i (rs.headD []))) (m.keys[i]?.bind m.get?).toList)
      m.keys sched

/-- the loop over the runs: `g j i` scores the i-th query of the j-th run; raises what `g j` raises -/
def rescoreLoop (g : Nat → Except Err (Nat → Dict δ β → Dict δ β)) (scheds : Nat → List Nat) :
    List Nat → Nat → Prog κ δ β (List Nat)
  | [], _ => pure []
  | a :: t, j => do
    let f ← lift (g j)
    let a' ← rescore f (scheds j) a
    let t' ← rescoreLoop g scheds t (j + 1)
    pure (a' :: t')

/-- the references `[run.run for run in runs]` and the dictionaries there -/
def readData : List Nat → Prog κ δ β (List (Dict κ Nat))
  | [] => pure []
  | a :: t => do
    let r ← readRun a
    let m ← readQueries r.1
    let ms ← readData t
    pure (m :: ms)

/-- the iteration `combined_results[i] = _comb_sum([run[q_id] for run in runs])` (comb_sum.py:36-38) -/
def fuseSlot [DecidableEq β] [Zero β] (score : Score δ β) (ms : List (Dict κ Nat)) (qs : List κ) (i : Nat) :
    Prog κ δ β Nat :=
  match qs[i]? with
  | none => fail .indexError
  | some q =>
    if ms.all (fun m => m.contains q) then
      kernel (combine score) (ms.map (fun m => (m.get? q).getD 0))
    else fail .keyError

/-- `_comb_sum_parallel` and its siblings (comb_sum.py:31-40) -/
def fuseParallel [DecidableEq β] [Zero β] (score : Score δ β) (sched : List Nat) (runs : List Nat) :
    Prog κ δ β Nat := do
  let ms ← readData runs
  match ms with
  | [] => fail .indexError
  | m0 :: _ => parallel (fuseSlot score ms m0.keys) m0.keys sched

/-- `run = Run(); run.run = _…_parallel(…); run.sort(); return run` (comb_sum.py:69-73) -/
def fuseRun [DecidableEq β] [Zero β] [LE β] [Neg β] (S : ArgSort β) (score : Score δ β) (sched : List Nat)
    (runs : List Nat) : Prog κ δ β Nat := do
  let a ← newRunWith (fuseParallel score sched runs)
  sort S a
  pure a

/-- everything a run holds, read from memory: the read-only parts of the code work on this -/
def readContent (m : Dict κ Nat) : Prog κ δ β (Dict κ (Dict δ β)) := do
  let rs ← readAll m.values
  pure (m.keys.zip rs)

/-- contents of several dictionaries of queries -/
def readContents : List (Dict κ Nat) → Prog κ δ β (List (Dict κ (Dict δ β)))
  | [] => pure []
  | m :: t => do
    let c ← readContent m
    let cs ← readContents t
    pure (c :: cs)

end

section
variable [LinearOrder κ] [DecidableEq δ]

/-- a failing argument makes the call fail -/
def bindArg {X : Type} (a : Except Err X) (f : X → Prog κ δ ℝ Nat) : Prog κ δ ℝ Nat :=
  match a with
  | .error e => fail e
  | .ok x => f x

/-- rescore every run, then combine the new runs -/
noncomputable def rescoreThen (E : Env δ) (g : Nat → Except Err (Nat → Dict δ ℝ → Dict δ ℝ))
    (score : Score δ ℝ) (runs : List Nat) : Prog κ δ ℝ Nat := do
  let runs' ← rescoreLoop g E.scheds runs 0
  fuseRun E.S score E.sched runs'

/-- the i-th parameter of a list of parameters (IndexError beyond it) -/
def nth {X : Type} (l : List X) (j : Nat) : Except Err X :=
  match l[j]? with
  | none => .error .indexError
  | some x => .ok x

/-- bordafuse.py:95-103, weighted_bordafuse.py:45-56 -/
noncomputable def bordaThen (E : Env δ) (score : Score δ ℝ) (runs : List Nat) : Prog κ δ ℝ Nat := do
  let ms ← readData runs
  let cs ← readContents ms
  let candidates ← lift (getCandidates E.I cs)
  if cs.any (fun run => candidates.length < run.length) then fail .indexError
  else
    rescoreThen E (fun _ => .ok (fun i r => Fuse.bordaScore r ((candidates[i]?).getD []))) score runs

/-- condorcet.py:126-134 and weighted_condorcet.py:90-97: the lists are read, `_condorcet` fills a new
dictionary per query, no sort; `out` computes the scores -/
noncomputable def condorcetWith (out : List (Dict κ (Results δ ℝ)) → Except Err (Store κ δ ℝ))
    (runs : List Nat) : Prog κ δ ℝ Nat := do
  let ms ← readData runs
  let cs ← readContents ms
  let s ← lift (out cs)
  newRunWith (parallel (fun i => kernel (fun _ => .ok ((s.data.values[i]?).getD [])) []) s.data.keys
    (List.range s.data.length))

open Classical in
/-- logn_isr.py:75-84 -/
noncomputable def lognThen (E : Env δ) (s : ℝ) (runs : List Nat) : Prog κ δ ℝ Nat :=
  if 0 ≤ s ∧ s ≤ 1 then
    rescoreThen E (fun _ => .ok (fun _ => Fuse.isrScore)) (Fuse.lognMnzScore s) runs
  else fail .assertionError

/-- rrf.py:64-71; a division by zero in the loops over the runs is an error before anything is combined -/
noncomputable def rrfThen (E : Env δ) (k : ℝ) (runs : List Nat) : Prog κ δ ℝ Nat := do
  let ms ← readData runs
  let cs ← readContents ms
  if Fuse.rankZero k cs then fail .zeroDivision
  else rescoreThen E (fun _ => .ok (fun _ => Fuse.rrfScore k)) Fuse.sumScore runs

/-- `fusion_switch(method)(norm_runs, **params)` (fuse.py:37), method by method as in
`Fuse.Method.call` -/
noncomputable def call (E : Env δ) (m : Method) (params : Kwargs) (runs : List Nat) : Prog κ δ ℝ Nat :=
  if params.keys.all (fun k => decide (k ∈ m.parameters)) then
    match m with
    | .bayesfuse => bindArg (tablesArg params "log_odds") fun t =>
        rescoreThen E (fun j => (nth t j).map (fun p _ => Fuse.bayesScore E.oob p)) Fuse.oddsScore runs
    | .bordafuse => bordaThen E Fuse.sumScore runs
    | .combAnz => fuseRun E.S Fuse.anzScore E.sched runs
    | .combGmnz => bindArg (numArg params "gamma" none) fun g => fuseRun E.S (Fuse.gmnzScore g) E.sched runs
    | .combMax => fuseRun E.S Fuse.maxScore E.sched runs
    | .combMed => fuseRun E.S Fuse.medScore E.sched runs
    | .combMin => fuseRun E.S Fuse.minScore E.sched runs
    | .combMnz => fuseRun E.S Fuse.mnzScore E.sched runs
    | .combSum => fuseRun E.S Fuse.sumScore E.sched runs
    | .condorcet => condorcetWith (Fuse.condorcet E.C E.I) runs
    | .isr => rescoreThen E (fun _ => .ok (fun _ => Fuse.isrScore)) Fuse.mnzScore runs
    | .logIsr => rescoreThen E (fun _ => .ok (fun _ => Fuse.isrScore)) Fuse.logMnzScore runs
    | .lognIsr => bindArg (numArg params "sigma" (some 0.01)) fun s => lognThen E s runs
    | .mapfuse => bindArg (numsArg params "map_scores") fun l =>
        rescoreThen E (fun j => (nth l j).map (fun p _ => Fuse.mapScore p)) Fuse.sumScore runs
    | .mixed => bindArg (numsArg params "weights") fun ws => fuseRun E.S (Fuse.mixedScore ws) E.sched runs
    | .posfuse => bindArg (tablesArg params "probs") fun t =>
        rescoreThen E (fun j => (nth t j).map (fun p _ => Fuse.posScore p)) Fuse.sumScore runs
    | .probfuse => bindArg (tablesArg params "probs") fun t =>
        if (t.take runs.length).any (fun p => p.isEmpty) then fail .zeroDivision
        else rescoreThen E (fun j => (nth t j).map (fun p _ => Fuse.probScore p)) Fuse.sumScore runs
    | .rbc => bindArg (numArg params "phi" none) fun p =>
        rescoreThen E (fun _ => .ok (fun _ => Fuse.rbcScore p)) Fuse.sumScore runs
    | .rrf => bindArg (numArg params "k" (some 60)) fun k => rrfThen E k runs
    | .segfuse => bindArg (tablesArg params "probs") fun t =>
        if (t.take runs.length).any (fun p => decide (10 < p.length)) then fail .indexError
        else rescoreThen E (fun j => (nth t j).map (fun p _ => Fuse.segScore p)) Fuse.sumScore runs
    | .slidefuse => bindArg (tablesArg params "probs") fun t => bindArg (intArg params "w") fun w =>
        rescoreThen E (fun j => (nth t j).map (fun p _ => Fuse.slideScore p w)) Fuse.sumScore runs
    | .weightedBordafuse => bindArg (numsArg params "weights") fun ws => bordaThen E (Fuse.wsumScore ws) runs
    | .weightedCondorcet => bindArg (numsArg params "weights") fun ws =>
        condorcetWith (Fuse.weightedCondorcet E.C E.I ws) runs
    | .wmnz => bindArg (numsArg params "weights") fun ws => fuseRun E.S (Fuse.wmnzScore ws) E.sched runs
    | .wsum => bindArg (numsArg params "weights") fun ws => fuseRun E.S (Fuse.wsumScore ws) E.sched runs
  else fail .typeError

/-- `norm_switch(norm)(run)` for one run -/
noncomputable def normOne (E : Env δ) (k : Kind) (j a : Nat) : Prog κ δ ℝ Nat :=
  match k with
  | .max => rescore (fun _ => Norm.maxNorm) (E.normScheds j) a
  | .minMax => rescore (fun _ => Norm.minMax false) (E.normScheds j) a
  | .minMaxInverted => do
    let a' ← rescore (fun _ => Norm.minMax true) (E.normScheds j) a
    sort E.S a'
    pure a'
  | .rank => rescore (fun _ => Norm.rankNorm) (E.normScheds j) a
  | .sum => rescore (fun _ => Norm.sumNorm) (E.normScheds j) a
  | .zmuv => rescore (fun _ => Norm.zmuv) (E.normScheds j) a
  | .borda => pure a

/-- fuse.py:31-32: the loop over the runs -/
noncomputable def normLoop (E : Env δ) (k : Kind) : List Nat → Nat → Prog κ δ ℝ (List Nat)
  | [], _ => pure []
  | a :: t, j => do
    let a' ← normOne E k j a
    let t' ← normLoop E k t (j + 1)
    pure (a' :: t')

/-- borda_norm.py:57-69 `borda_norm` -/
noncomputable def bordaNorms (E : Env δ) (runs : List Nat) : Prog κ δ ℝ (List Nat) := do
  let ms ← readData runs
  let cs ← readContents ms
  let candidates ← lift (getCandidates E.I cs)
  if cs.any (fun run => candidates.length < run.length) then fail .indexError
  else
    rescoreLoop (fun _ => .ok (fun i r => bordaNorm r ((candidates[i]?).getD []))) E.normScheds runs 0

/-- fuse.py:26-34: with `norm=None` the runs themselves are passed on -/
noncomputable def normalizeRuns (E : Env δ) (norm : Option String) (runs : List Nat) :
    Prog κ δ ℝ (List Nat) :=
  match norm with
  | none => pure runs
  | some n =>
    if n ≠ "borda" then do
      let k ← lift (normSwitch n)
      normLoop E k runs 0
    else bordaNorms E runs

/-- fuse.py:8-37 `fuse` on the runs at the given addresses -/
noncomputable def fuse (E : Env δ) (runs : List Nat) (norm : Option String) (method : String)
    (params : Option Kwargs) : Prog κ δ ℝ Nat :=
  if runs.length ≤ 1 then fail .assertionError
  else do
    let ms ← readData runs
    let cs ← readContents ms
    if Fuse.pairwiseSameKeys (cs.map (fun c => ⟨c, false⟩)) then do
      let norms ← normalizeRuns E norm runs
      let m ← lift (Fuse.fusionSwitch method)
      call E m (params.getD []) norms
    else fail .assertionError

/-- meta/normalize.py:5-6 `normalize` (a single run: `norm="borda"` raises, `runs[0]` of a `Run` is not a
query; modelled by KeyError) -/
noncomputable def normalize (E : Env δ) (norm : String) (a : Nat) : Prog κ δ ℝ Nat := do
  let k ← lift (normSwitch norm)
  if k = .borda then fail .keyError else normOne E k 0 a

/-! ### Programs using several runs -/

/-- what a user may do with the runs created so far, numbered in the order of their creation -/
inductive Cmd (κ δ : Type) where
  | empty
  | new (S : ArgSort ℝ) (d : Dict κ (Dict δ ℝ))
  | op (S : ArgSort ℝ) (i : Nat) (o : Store.Op κ δ ℝ)
  | normalize (E : Env δ) (norm : String) (i : Nat)
  | fuse (E : Env δ) (is : List Nat) (norm : Option String) (method : String) (params : Option Kwargs)

/-- result of creating a run: its address is kept -/
def keep (as : List Nat) (r : Except Err Nat × Mem κ δ ℝ) : (Mem κ δ ℝ × List Nat) × Option Err :=
  match r with
  | (.ok a, h) => ((h, as ++ [a]), none)
  | (.error e, h) => ((h, as), some e)

/-- one command; a command naming a run that does not exist does nothing -/
noncomputable def step (w : Mem κ δ ℝ × List Nat) : Cmd κ δ → (Mem κ δ ℝ × List Nat) × Option Err
  | .empty => keep w.2 (newRun w.1)
  | .new S d => keep w.2 (ofDict S d w.1)
  | .op S i o =>
    match w.2[i]? with
    | none => (w, none)
    | some a => match op S a o w.1 with
      | (.ok _, h) => ((h, w.2), none)
      | (.error e, h) => ((h, w.2), some e)
  | .normalize E norm i =>
    match w.2[i]? with
    | none => (w, none)
    | some a => keep w.2 (normalize E norm a w.1)
  | .fuse E is norm method params =>
    keep w.2 (fuse E (is.filterMap (fun i => w.2[i]?)) norm method params w.1)

/-- a program: the state reached and the outcome of every command -/
noncomputable def exec (w : Mem κ δ ℝ × List Nat) : List (Cmd κ δ) →
    (Mem κ δ ℝ × List Nat) × List (Option Err)
  | [] => (w, [])
  | c :: cs =>
    let r := step w c
    let r' := exec r.1 cs
    (r'.1, r.2 :: r'.2)

end
end Ranx.Heap
