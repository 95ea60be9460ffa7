import Verif.Model.Optimize

/-!
# What `optimize_fusion` does to its arguments

`Model/Optimize.lean` gives the returned value. Here the same call with the state of the caller's objects
afterwards: training and evaluating sort a `Qrels` or `Run` object in place if it is not flagged sorted
(`to_typed_list`), and `mapfuse_train` evaluates with `save_results_in_run=True`. With a normalization these
are the freshly made normalized runs, with `norm=None` they are the caller's.
-/

namespace Ranx.Opt
open Dict Store Metrics Eval Fuse Train
open Py (Str)

section
variable {κ δ ι : Type*} [LinearOrder κ] [DecidableEq δ] [LinearOrder ι]

/-- the caller's objects after a call, and its outcome -/
structure Called (κ δ : Type*) where
  qrels : Store κ δ Int
  runs : List (RunObj κ δ ℝ)
  result : Except Err Result

/-- the `Run` object behind the argument after `evaluate` -/
def runAfter (r : RunObj κ δ ℝ) (a : After κ δ ℝ) : RunObj κ δ ℝ :=
  match a.run with
  | .obj r' => r'
  | .dict _ => r

/-- a new `Run` object without results -/
def fresh (s : Store κ δ ℝ) : RunObj κ δ ℝ := ⟨s, [], [], []⟩

/-- the run objects with the dictionaries `ss` -/
def withStores (runs : List (RunObj κ δ ℝ)) (ss : List (Store κ δ ℝ)) : List (RunObj κ δ ℝ) :=
  List.zipWith (fun r s => { r with store := s }) runs ss

/-- mapfuse.py:89-90 `mapfuse_train`, with the objects afterwards -/
noncomputable def mapTrain (V : EvalEnv δ ι) (S : ArgSort ℝ) (sched : Nat → List Nat) (s : Store κ δ Int) :
    List (RunObj κ δ ℝ) → Store κ δ Int × List (RunObj κ δ ℝ) × Except Err (List (Out ℝ))
  | [] => (s, [], .ok [])
  | r :: rs =>
    match evaluate V.F V.other V.SQ S V.hash (fun _ => sched 0) {} (.obj s) (.obj r) ["map".toList] with
    | (a, .error e) => (qrelsAfter s a, runAfter r a :: rs, .error e)
    | (a, .ok v) =>
      let t := mapTrain V S (fun i => sched (i + 1)) (qrelsAfter s a) rs
      (t.1, runAfter r a :: t.2.1, t.2.2.map (fun vs => v :: vs))

/-- the functions of fusion_optimization and the training functions (see `runOptimizer`) on objects -/
noncomputable def runOptimizerS (E : Env δ) (V : EvalEnv δ ι) (rowSched : List Nat) (rnd : ℚ → ℚ)
    (str : Kwargs → Str) (strNat : Nat → Str) (metric : Str) (space : Space) (s : Store κ δ Int)
    (runs : List (RunObj κ δ ℝ)) : Optimizer → Called κ δ
  | .plain m =>
    match configs rnd runs.length m space with
    | .error e => ⟨s, runs, .error e⟩
    | .ok ts =>
      let l := optLoop (plainTrial E V metric m (runs.map (fun r => r.store.data))) str s ⟨none, 0, []⟩ ts
      ⟨l.1, runs, l.2.map Search.result⟩
  | .probfuse =>
    match space with
    | .ints lo hi 1 =>
      match intGrid lo hi 1 with
      | .error e => ⟨s, runs, .error e⟩
      | .ok ns =>
        let l := optLoop (probfuseTrial E V rowSched metric) strNat (s, runs.map (fun r => r.store)) ⟨none, 0, []⟩
          (counts ns)
        ⟨l.1.1, withStores runs l.1.2, l.2.map Search.result⟩
    | _ => ⟨s, runs, .error .typeError⟩
  | .slidefuse =>
    match space with
    | .ints lo hi 1 =>
      match intGrid lo hi 1 with
      | .error e => ⟨s, runs, .error e⟩
      | .ok ws =>
        let t := posfuseTrain V.SQ E.S V.hash V.sched s (runs.map (fun r => r.store))
        match t.2.2 with
        | .error e => ⟨t.1, withStores runs t.2.1, .error e⟩
        | .ok probs =>
          let l := optLoop (slidefuseTrial E V metric probs t.2.1) strNat t.1 ⟨none, 0, []⟩ (counts ws)
          ⟨l.1, withStores runs t.2.1, l.2.map Search.result⟩
    | _ => ⟨s, runs, .error .typeError⟩
  | .trainBayes =>
    let t := bayesfuseTrain V.SQ E.S V.hash V.sched s (runs.map (fun r => r.store))
    ⟨t.1, withStores runs t.2.1, t.2.2.map (fun t => ⟨some [("log_odds", .tables t)], []⟩)⟩
  | .trainMap =>
    let t := mapTrain V E.S V.sched s runs
    ⟨t.1, t.2.1, bindArg t.2.2 fun vs => (mapValues vs).map (fun l => ⟨some [("map_scores", .nums l)], []⟩)⟩
  | .trainPos =>
    let t := posfuseTrain V.SQ E.S V.hash V.sched s (runs.map (fun r => r.store))
    ⟨t.1, withStores runs t.2.1, t.2.2.map (fun t => ⟨some [("probs", .tables t)], []⟩)⟩
  | .trainSeg =>
    let t := segfuseTrain V.SQ E.S V.hash V.sched s (runs.map (fun r => r.store))
    ⟨t.1, withStores runs t.2.1, t.2.2.map (fun t => ⟨some [("probs", .tables t)], []⟩)⟩

/-- optimize_fusion.py:8-76 `optimize_fusion` on objects -/
noncomputable def optimizeFusionS (E : Env δ) (V : EvalEnv δ ι) (rowSched : List Nat) (rnd : ℚ → ℚ)
    (str : Kwargs → Str) (strNat : Nat → Str) (norm : Option String) (method : String) (metric : Str)
    (wantReport : Bool) (space : Space) (qrels : Store κ δ Int) (runs : List (RunObj κ δ ℝ)) : Called κ δ :=
  let stores := runs.map (fun r => r.store)
  if stores.length ≤ 1 then ⟨qrels, runs, .error .assertionError⟩
  else if pairwiseSameKeys stores then
    if stores.all (fun r => Eval.sameKeys r.data.keys qrels.data.keys) then
      match normalizeStores E norm stores with
      | .error e => ⟨qrels, runs, .error e⟩
      | .ok normStores =>
        match (if wantReport then hasHyperparams method else .ok ()) with
        | .error e => ⟨qrels, runs, .error e⟩
        | .ok _ =>
          match optimizationSwitch method with
          | .error e => ⟨qrels, runs, .error e⟩
          | .ok o =>
            match norm with
            | none => runOptimizerS E V rowSched rnd str strNat metric space qrels runs o
            | some _ =>
              let c := runOptimizerS E V rowSched rnd str strNat metric space qrels (normStores.map fresh) o
              ⟨c.qrels, runs, c.result⟩
    else ⟨qrels, runs, .error .assertionError⟩
  else ⟨qrels, runs, .error .assertionError⟩

end
end Ranx.Opt
