import Verif.Model.Grid
import Verif.Model.Train

/-!
# `optimize_fusion` (`ranx/meta/optimize_fusion.py`, `ranx/fusion_optimization/*.py`)

Scores are exact reals; the candidates are the rationals of `Model/Grid.lean` (with any rounding `rnd`).
One `Env` (schedules, sorts) serves all trials. Progress bars are not modelled.
-/

namespace Ranx.Opt
open Dict Store Metrics Eval Fuse Train
open Py (Str)

/-- the keyword arguments that choose the candidates; the text of `step` is what `str(step)` returns -/
inductive Space where
  | weights (step : ℚ) (stepStr : Str)
  | floats (lo hi step : ℚ) (stepStr : Str)
  | ints (lo hi step : Int)
  | nothing

/-- the variables of the loops: `best_score`, `best_…`, `optimization_report` -/
structure Search (τ α : Type*) where
  best : Option τ
  bestScore : α
  report : Dict Str (Num α)

/-- `score >= best_score` (false for NaN) -/
def atLeast {α : Type*} [LE α] [DecidableLE α] (score : Num α) (best : α) : Option α :=
  match score with
  | .val v => if best ≤ v then some v else none
  | .nan => none

/-- one turn of the loops after the evaluation (optimize_weights.py:40-44, optimize_rrf.py:29-33, …) -/
def record {τ α : Type*} [LE α] [DecidableLE α] (acc : Search τ α) (label : Str) (t : τ) (score : Num α) :
    Search τ α :=
  let report := acc.report.set label score
  match atLeast score acc.bestScore with
  | some v => ⟨some t, v, report⟩
  | none => ⟨acc.best, acc.bestScore, report⟩

/-- The loop of every `optimize_…` (optimize_weights.py:33-44, optimize_rrf.py:22-33, optimize_rbc.py:26-37,
optimize_comb_gmnz.py:26-39, optimize_logn_isr.py:26-39, optimize_probfuse.py:21-35,
optimize_slidefuse.py:21-36). `eval s t` fuses and evaluates trial `t`; `s` is the state the evaluation may
change. It returns what is kept if the trial is the best so far (the configuration; for probfuse the trained
probabilities) and the score. -/
def optLoop {σ τ ρ α : Type*} [LE α] [DecidableLE α] (eval : σ → τ → σ × Except Err (ρ × Num α))
    (label : τ → Str) : σ → Search ρ α → List τ → σ × Except Err (Search ρ α)
  | s, acc, [] => (s, .ok acc)
  | s, acc, t :: ts =>
    match eval s t with
    | (s', .error e) => (s', .error e)
    | (s', .ok (r, score)) => optLoop eval label s' (record acc (label t) r score) ts

/-- what one metric evaluated with the default options returns -/
def scoreOf {α : Type*} : Out α → Except Err (Num α)
  | .single (.mean x) => .ok x
  | _ => .error .typeError

/-- the configurations of the plain methods, as keyword arguments for `fuse`: the calls `rrf(runs, k)`,
`rbc(runs, phi)`, `comb_gmnz(runs, gamma)`, `logn_isr(runs, sigma)`, `fusion_method(runs, weights)` of
fusion_optimization (e.g. optimize_rrf.py:27, optimize_weights.py:38) -/
noncomputable def configs (rnd : ℚ → ℚ) (nRuns : Nat) (m : Method) (space : Space) : Except Err (List Kwargs) :=
  match m, space with
  | .rrf, .ints lo hi step =>
    (intGrid lo hi step).map (fun ks => ks.map (fun (k : Int) => [("k", .num (k : ℝ))]))
  | .rbc, .floats lo hi step str =>
    (grid rnd lo hi step str).map (fun xs => xs.map (fun (x : ℚ) => [("phi", .num (x : ℝ))]))
  | .combGmnz, .floats lo hi step str =>
    (grid rnd lo hi step str).map (fun xs => xs.map (fun (x : ℚ) => [("gamma", .num (x : ℝ))]))
  | .lognIsr, .floats lo hi step str =>
    (grid rnd lo hi step str).map (fun xs => xs.map (fun (x : ℚ) => [("sigma", .num (x : ℝ))]))
  | .mixed, .weights step str | .weightedBordafuse, .weights step str | .weightedCondorcet, .weights step str
  | .wmnz, .weights step str | .wsum, .weights step str =>
    (weightTrials rnd step str nRuns).map
      (fun ts => ts.map (fun ws => [("weights", .nums (ws.map (fun (x : ℚ) => (x : ℝ))))]))
  | _, _ => .error .typeError

/-- everything the evaluation depends on besides the arguments -/
structure EvalEnv (δ ι : Type*) where
  F : Fn ℝ
  other : Str → Except Err ℝ
  SQ : ArgSort Int
  hash : δ → ι
  sched : Nat → List Nat

section
variable {κ δ ι : Type*} [LinearOrder κ] [DecidableEq δ] [LinearOrder ι]

/-- the `Qrels` object behind the argument after the call -/
def qrelsAfter (s : Store κ δ Int) (a : After κ δ ℝ) : Store κ δ Int :=
  match a.qrels with
  | .obj s' => s'
  | .dict _ => s

/-- `evaluate(qrels, fused_run, metric, save_results_in_run=False)` (optimize_weights.py:39) -/
noncomputable def evalRun (V : EvalEnv δ ι) (S : ArgSort ℝ) (metric : Str) (s : Store κ δ Int)
    (fused : Store κ δ ℝ) : Store κ δ Int × Except Err (Num ℝ) :=
  let r := evaluate V.F V.other V.SQ S V.hash V.sched { save := false } (.obj s) (.obj ⟨fused, [], [], []⟩) [metric]
  (qrelsAfter s r.1, bindArg r.2 scoreOf)

/-- one trial of a plain method -/
noncomputable def plainTrial (E : Env δ) (V : EvalEnv δ ι) (metric : Str) (m : Method)
    (runs : List (Dict κ (Norm.Results δ ℝ))) (s : Store κ δ Int) (config : Kwargs) :
    Store κ δ Int × Except Err (Kwargs × Num ℝ) :=
  match m.call E config runs with
  | .error e => (s, .error e)
  | .ok fused =>
    let r := evalRun V E.S metric s fused
    (r.1, r.2.map (fun score => (config, score)))

/-- optimize_probfuse.py:28-30: train with `n` segments, fuse, evaluate. Training sorts the (normalized) runs
in place. -/
noncomputable def probfuseTrial (E : Env δ) (V : EvalEnv δ ι) (rowSched : List Nat) (metric : Str)
    (st : Store κ δ Int × List (Store κ δ ℝ)) (n : Nat) :
    (Store κ δ Int × List (Store κ δ ℝ)) × Except Err (Kwargs × Num ℝ) :=
  let t := probfuseTrain V.SQ E.S V.hash V.sched rowSched n st.1 st.2
  match t.2.2 with
  | .error e => ((t.1, t.2.1), .error e)
  | .ok probs =>
    match Fuse.probfuse E.S E.sched E.scheds probs (t.2.1.map (fun r => r.data)) with
    | .error e => ((t.1, t.2.1), .error e)
    | .ok fused =>
      let r := evalRun V E.S metric t.1 fused
      ((r.1, t.2.1), r.2.map (fun score => ([("probs", PyVal.tables probs)], score)))

/-- optimize_slidefuse.py:30-31 -/
noncomputable def slidefuseTrial (E : Env δ) (V : EvalEnv δ ι) (metric : Str) (probs : List (List ℝ))
    (runs : List (Store κ δ ℝ)) (s : Store κ δ Int) (w : Nat) : Store κ δ Int × Except Err (Kwargs × Num ℝ) :=
  match Fuse.slidefuse E.S E.sched E.scheds probs w (runs.map (fun r => r.data)) with
  | .error e => (s, .error e)
  | .ok fused =>
    let r := evalRun V E.S metric s fused
    (r.1, r.2.map (fun score => ([("probs", PyVal.tables probs), ("w", PyVal.int w)], score)))

/-- what `optimize_fusion` returns: the keyword arguments for `fuse` (`none`: no candidate reached
`score >= 0.0`, the call returns the initial `[]`, or `None` for probfuse) and the report -/
structure Result where
  params : Option Kwargs
  report : Dict Str (Num ℝ)

/-- the outcome of a loop as a result -/
def Search.result (s : Search Kwargs ℝ) : Result := ⟨s.best, s.report⟩

/-- optimize_fusion.py:48-58: as `Fuse.normalizeRuns`, keeping the objects (`norm=None` passes the runs
themselves; a normalized run is a new object, not flagged sorted unless inverted) -/
noncomputable def normalizeStores (E : Env δ) (norm : Option String) (runs : List (Store κ δ ℝ)) :
    Except Err (List (Store κ δ ℝ)) :=
  match norm with
  | none => .ok runs
  | some n =>
    if n ≠ "borda" then
      match Norm.normSwitch n with
      | .error e => .error e
      | .ok k => .ok (runs.zipIdx.map (fun rj => normOne E k rj.2 rj.1))
    else
      match Norm.bordaRuns E.I E.normScheds (runs.map (fun s => s.data)) with
      | .error e => .error e
      | .ok ds => .ok (ds.map (fun d => ⟨d, false⟩))

/-- fusion_optimization/__init__.py:55-88 `optimization_switch` -/
inductive Optimizer where
  | plain (m : Method) | probfuse | slidefuse | trainBayes | trainMap | trainPos | trainSeg
  deriving DecidableEq

/-- see `Optimizer` -/
def optimizationSwitch (method : String) : Except Err Optimizer :=
  if method = "logn_isr" then .ok (.plain .lognIsr)
  else if method = "gmnz" then .ok (.plain .combGmnz)
  else if method = "mixed" then .ok (.plain .mixed)
  else if method = "probfuse" then .ok .probfuse
  else if method = "rbc" then .ok (.plain .rbc)
  else if method = "rrf" then .ok (.plain .rrf)
  else if method = "slidefuse" then .ok .slidefuse
  else if method = "w_bordafuse" then .ok (.plain .weightedBordafuse)
  else if method = "w_condorcet" then .ok (.plain .weightedCondorcet)
  else if method = "wmnz" then .ok (.plain .wmnz)
  else if method = "wsum" then .ok (.plain .wsum)
  else if method = "bayesfuse" then .ok .trainBayes
  else if method = "mapfuse" then .ok .trainMap
  else if method = "posfuse" then .ok .trainPos
  else if method = "segfuse" then .ok .trainSeg
  else .error .valueError

/-- fusion_optimization/__init__.py:36-52 `has_hyperparams`: raises unless the method is searched -/
def hasHyperparams (method : String) : Except Err Unit :=
  if method ∈ ["logn_isr", "gmnz", "mixed", "probfuse", "rbc", "rrf", "slidefuse", "w_bordafuse",
      "w_condorcet", "wmnz", "wsum"] then .ok ()
  else .error .valueError

/-- the values of mapfuse_train's list -/
def mapValues : List (Out ℝ) → Except Err (List ℝ)
  | [] => .ok []
  | .single (.mean (.val x)) :: t => (mapValues t).map (fun xs => x :: xs)
  | _ :: _ => .error .valueError

/-- non-negative ints of an int grid (segments and windows are counts) -/
def counts (ks : List Int) : List Nat := ks.map Int.toNat

/-- `optimization_switch(method)(qrels, norm_runs, **kwargs)`; `str` is the text of a configuration
(`str(weights)`, `str(k)`, …). -/
noncomputable def runOptimizer (E : Env δ) (V : EvalEnv δ ι) (rowSched : List Nat) (rnd : ℚ → ℚ)
    (str : Kwargs → Str) (strNat : Nat → Str) (metric : Str) (space : Space) (s : Store κ δ Int)
    (runs : List (Store κ δ ℝ)) : Optimizer → Except Err Result
  | .plain m =>
    bindArg (configs rnd runs.length m space) fun ts =>
      (optLoop (plainTrial E V metric m (runs.map (fun r => r.data))) str s ⟨none, 0, []⟩ ts).2.map Search.result
  | .probfuse =>
    match space with
    | .ints lo hi 1 =>
      bindArg (intGrid lo hi 1) fun ns =>
        (optLoop (probfuseTrial E V rowSched metric) strNat (s, runs) ⟨none, 0, []⟩ (counts ns)).2.map
          Search.result
    | _ => .error .typeError
  | .slidefuse =>
    match space with
    | .ints lo hi 1 =>
      bindArg (intGrid lo hi 1) fun ws =>
        let t := posfuseTrain V.SQ E.S V.hash V.sched s runs
        bindArg t.2.2 fun probs =>
          (optLoop (slidefuseTrial E V metric probs t.2.1) strNat t.1 ⟨none, 0, []⟩ (counts ws)).2.map Search.result
    | _ => .error .typeError
  | .trainBayes => (bayesfuseTrain V.SQ E.S V.hash V.sched s runs).2.2.map
      (fun t => ⟨some [("log_odds", .tables t)], []⟩)
  | .trainMap => bindArg (mapfuseTrain V.F V.other V.SQ E.S V.hash V.sched (.obj s)
        (runs.map (fun r => ⟨r, [], [], []⟩))) fun vs =>
      (mapValues vs).map (fun l => ⟨some [("map_scores", .nums l)], []⟩)
  | .trainPos => (posfuseTrain V.SQ E.S V.hash V.sched s runs).2.2.map
      (fun t => ⟨some [("probs", .tables t)], []⟩)
  | .trainSeg => (segfuseTrain V.SQ E.S V.hash V.sched s runs).2.2.map
      (fun t => ⟨some [("probs", .tables t)], []⟩)

/-- optimize_fusion.py:8-76 `optimize_fusion`; `wantReport` is `return_optimization_report`, the result carries
the report in any case. -/
noncomputable def optimizeFusion (E : Env δ) (V : EvalEnv δ ι) (rowSched : List Nat) (rnd : ℚ → ℚ)
    (str : Kwargs → Str) (strNat : Nat → Str) (qrels : Store κ δ Int) (runs : List (Store κ δ ℝ))
    (norm : Option String) (method : String) (metric : Str) (wantReport : Bool) (space : Space) :
    Except Err Result :=
  if runs.length ≤ 1 then .error .assertionError
  else if pairwiseSameKeys runs then
    if runs.all (fun r => Eval.sameKeys r.data.keys qrels.data.keys) then
      bindArg (normalizeStores E norm runs) fun normRuns =>
        bindArg (if wantReport then hasHyperparams method else .ok ()) fun _ =>
          bindArg (optimizationSwitch method) fun o =>
            runOptimizer E V rowSched rnd str strNat metric space qrels normRuns o
    else .error .assertionError
  else .error .assertionError

/-- one comparison of `np.argmax` -/
def argmaxStep {β : Type*} [LinearOrder β] (acc : Option (β × Nat)) (p : β × Nat) : Option (β × Nat) :=
  match acc with
  | none => some p
  | some b => if b.1 < p.1 then some p else some b

/-- optimization_report.py:100 `np.argmax(self.results)`: the highlighted row is the first maximum (results
without NaN; NumPy returns the first NaN otherwise) -/
def highlighted {β : Type*} [LinearOrder β] (results : List β) : Nat :=
  (results.zipIdx.foldl argmaxStep none).elim 0 Prod.snd

end
end Ranx.Opt
