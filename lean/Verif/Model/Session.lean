import Verif.Model.OptimizeState
import Verif.Model.Report
import Verif.Model.Plot
import Verif.Model.IO

/-!
# A session: many calls on the same objects

`Qrels` and `Run` objects live in two lists and are named by their position, so that one object can be passed to
several calls, or twice to one call. Every call reads the objects as the earlier calls have left them and writes
its changes back. Every call brings its own environment (sorting algorithm, order of parallel iterations, ...).

Simplifications: objects created by `fuse` and `normalize` share nothing with their arguments (this is C88, proved
in the model of memory); `optimize_fusion` treats a run given twice as two copies; a call naming an object that does
not exist does nothing. Attributes `name`, `metadata` are not changed by any of the calls.
-/

namespace Ranx.Session
open Dict Metrics Eval Rep Opt
open Py (Str)

/-- the objects of the session -/
structure State where
  qrels : List (Store Str Str Int)
  runs : List (NamedRun Str Str ℝ)

/-- what a call returns or raises -/
inductive Outcome where
  | done
  | raised (e : Err)
  | out (o : Out ℝ)
  | report (r : Rep.Report ℝ)
  | curves (l : List (Str × ℚ × ℝ))
  | params (r : Opt.Result)

/-- the outcome of a call that returns a value -/
def Outcome.of {A : Type} (f : A → Outcome) : Except Err A → Outcome
  | .ok a => f a
  | .error e => .raised e

/-- environment and options of `compare` (compare.py:11-23) -/
structure CompareArgs where
  stat : Stat.Env ℝ
  makeComparable : Bool
  test : Str
  permutations : Nat
  maxP : ℝ

/-- environment of `optimize_fusion` -/
structure OptEnv (ι : Type) where
  fuse : Fuse.Env Str
  eval : EvalEnv Str ι
  rowSched : List Nat
  rnd : ℚ → ℚ
  str : Fuse.Kwargs → Str
  strNat : Nat → Str

/-- the calls of the public interface -/
inductive Call (ι : Type) where
  /-- `qrels[q].add_score(...)` etc. (a `Qrels` has no `make_comparable`) -/
  | qrelsOp (S : ArgSort Int) (q : Nat) (op : Store.Op Str Str Int)
  /-- `qrels[q].set_relevance_level(lvl)` -/
  | setLevel (q : Nat) (lvl : Int)
  /-- `runs[r].add_score(...)`, `runs[r].sort()`, ... -/
  | runOp (S : ArgSort ℝ) (r : Nat) (op : Store.Op Str Str ℝ)
  /-- `Qrels(dict)` -/
  | newQrels (S : ArgSort Int) (d : Dict Str (Dict Str Int))
  /-- `Run(dict, name)` -/
  | newRun (S : ArgSort ℝ) (name : Option Str) (d : Dict Str (Dict Str ℝ))
  | evaluate (V : EvalEnv Str ι) (S : ArgSort ℝ) (o : Opts) (q r : Nat) (metrics : List Str)
  | compare (V : EvalEnv Str ι) (S : ArgSort ℝ) (sched : Nat → Nat → List Nat) (a : CompareArgs) (q : Nat)
      (rs : List Nat) (metrics : List Str)
  | plot (cutoff : Nat → Nat → Nat) (V : EvalEnv Str ι) (S : ArgSort ℝ) (single : Bool) (q : Nat) (rs : List Nat)
  | optimize (E : OptEnv ι) (norm : Option String) (method : String) (metric : Str) (wantReport : Bool)
      (space : Space) (q : Nat) (rs : List Nat)
  | fuse (E : Fuse.Env Str) (rs : List Nat) (norm : Option String) (method : String) (params : Option Fuse.Kwargs)
  /-- `normalize(run, norm)` (meta/normalize.py:5-6) -/
  | normalize (E : Fuse.Env Str) (norm : String) (r : Nat)
  /-- `runs[r].save(path, kind)` (run.py:191-222; what is written is in `Files.saveRun`) -/
  | save (S : ArgSort ℝ) (r : Nat) (path : Str) (kind : Option Str)

/-- write a run object back -/
def State.setRun (w : State) (r : Nat) (x : RunObj Str Str ℝ) : State :=
  { w with runs := w.runs.modify r (fun n => { n with obj := x }) }

/-- write a qrels object back -/
def State.setQrels (w : State) (q : Nat) (s : Store Str Str Int) : State := { w with qrels := w.qrels.set q s }

/-- write several run objects back -/
def State.setRuns (w : State) : List Nat → List (RunObj Str Str ℝ) → State
  | r :: rs, x :: xs => State.setRuns (w.setRun r x) rs xs
  | _, _ => w

/-- the objects named -/
def State.get (w : State) (rs : List Nat) : List (NamedRun Str Str ℝ) := rs.filterMap (fun r => w.runs[r]?)

/-- the objects named exist -/
def State.has (w : State) (rs : List Nat) : Bool := rs.all (fun r => decide (r < w.runs.length))

section
variable {ι : Type} [LinearOrder ι]

/-- `evaluate(qrels, run, ...)` on objects of the session (evaluate.py:65-169): the objects as it leaves them -/
noncomputable def evalCall (V : EvalEnv Str ι) (S : ArgSort ℝ) (sched : Nat → List Nat) (o : Opts) (q r : Nat)
    (s : Store Str Str Int) (n : NamedRun Str Str ℝ) (metrics : List Str) (w : State) : State × Except Err (Out ℝ) :=
  let a := Eval.evaluate V.F V.other V.SQ S V.hash sched o (.obj s) (.obj n.obj) metrics
  ((w.setQrels q (qrelsAfter s a.1)).setRun r (runAfter n.obj a.1), a.2)

/-- what the loop of `compare` has built (compare.py:70-73) -/
structure Built where
  names : List Str
  scores : Dict Str (Dict Str (List (Num ℝ)))
  results : Dict Str (Dict Str (Num ℝ))

/-- compare.py:76-93 on objects of the session: the i-th run is evaluated in the state the others have left -/
noncomputable def compareLoop (V : EvalEnv Str ι) (S : ArgSort ℝ) (sched : Nat → Nat → List Nat) (mc : Bool)
    (metrics : List Str) (q : Nat) : List (Nat × Nat) → Built → State → State × Except Err Built
  | [], b, w => (w, .ok b)
  | (r, i) :: t, b, w =>
    match w.qrels[q]?, w.runs[r]? with
    | some s, some n =>
      match evalCall V S (sched i) { returnMean := false, makeComparable := mc } q r s n metrics w with
      | (w', .error e) => (w', .error e)
      | (w', .ok out) =>
        let name := modelName i n
        match means (asScores metrics out) metrics ((b.results.get? name).getD []) with
        | .error e => (w', .error e)
        | .ok ms =>
          compareLoop V S sched mc metrics q t
            ⟨b.names ++ [name], b.scores.set name (asScores metrics out),
              if metrics = [] then b.results else b.results.set name ms⟩ w'
    | _, _ => (w, .error .typeError)

/-- compare.py:95-130: tests, wins, ties and losses -/
noncomputable def compareEnd (a : CompareArgs) (metrics : List Str) (b : Built) : Except Err (Rep.Report ℝ) :=
  match Stat.significance a.stat b.names b.scores a.test a.permutations a.maxP with
  | .error e => .error e
  | .ok comparisons =>
    match wtlPairs b.scores metrics (pairs b.names) [] with
    | .error e => .error e
    | .ok wtl => .ok ⟨b.names, b.results, comparisons, metrics, a.maxP, wtl, a.test⟩

/-- a new run object -/
def State.addRun (w : State) (name : Option Str) : Except Err (Store Str Str ℝ) → State × Outcome
  | .ok s => ({ w with runs := w.runs ++ [⟨name, ⟨s, [], [], []⟩⟩] }, .done)
  | .error e => (w, .raised e)

/-- one call -/
noncomputable def step (w : State) : Call ι → State × Outcome
  | .qrelsOp S q op =>
    match w.qrels[q]? with
    | none => (w, .done)
    | some s => (w.setQrels q (s.step S op).1, (s.step S op).2.elim .done .raised)
  | .setLevel q lvl =>
    match w.qrels[q]? with
    | none => (w, .done)
    | some s => (w.setQrels q (s.setRelevanceLevel lvl), .done)
  | .runOp S r op =>
    match w.runs[r]? with
    | none => (w, .done)
    | some n => (w.setRun r { n.obj with store := (n.obj.store.step S op).1 },
        (n.obj.store.step S op).2.elim .done .raised)
  | .newQrels S d =>
    match Store.ofDict S d with
    | .ok s => ({ w with qrels := w.qrels ++ [s] }, .done)
    | .error e => (w, .raised e)
  | .newRun S name d => w.addRun name (Store.ofDict S d)
  | .evaluate V S o q r metrics =>
    match w.qrels[q]?, w.runs[r]? with
    | some s, some n =>
      let c := evalCall V S V.sched o q r s n metrics w
      (c.1, .of .out c.2)
    | _, _ => (w, .done)
  | .compare V S sched a q rs metrics =>
    match compareLoop V S sched a.makeComparable metrics q rs.zipIdx ⟨[], [], []⟩ w with
    | (w', .error e) => (w', .raised e)
    | (w', .ok b) => (w', .of .report (compareEnd a metrics b))
  | .plot cutoff V S single q rs =>
    match w.qrels[q]? with
    | none => (w, .done)
    | some s => if !w.has rs then (w, .done) else
      let p := Plot.plot cutoff V.SQ S V.hash V.sched single s ((w.get rs).map (fun n => (n.name, n.obj.store)))
      ((w.setQrels q p.1).setRuns rs (withStores ((w.get rs).map (fun n => n.obj)) p.2.1), .of .curves p.2.2)
  | .optimize E norm method metric wantReport space q rs =>
    match w.qrels[q]? with
    | none => (w, .done)
    | some s => if !w.has rs then (w, .done) else
      let c := optimizeFusionS E.fuse E.eval E.rowSched E.rnd E.str E.strNat norm method metric wantReport space s
        ((w.get rs).map (fun n => n.obj))
      ((w.setQrels q c.qrels).setRuns rs c.runs, .of .params c.result)
  | .fuse E rs norm method params =>
    w.addRun none (Fuse.fuse E ((w.get rs).map (fun n => n.obj.store)) norm method params)
  | .normalize E norm r =>
    match w.runs[r]? with
    | none => (w, .done)
    | some n => w.addRun none (match Norm.normSwitch norm with
      | .error e => .error e
      | .ok k => if k = .borda then .error .keyError else .ok (Fuse.normOne E k 0 n.obj.store))
  | .save S r path kind =>
    match w.runs[r]? with
    | none => (w, .done)
    | some n =>
      match Files.runKind path kind with
      | .error e => (w, .raised e)
      | .ok _ => (w.setRun r { n.obj with store := n.obj.store.ensureSorted S }, .done)

/-- many calls; the caller goes on after an exception -/
noncomputable def exec (w : State) : List (Call ι) → State
  | [] => w
  | c :: cs => exec (step w c).1 cs

end
end Ranx.Session
