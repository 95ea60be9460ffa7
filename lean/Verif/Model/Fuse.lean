import Verif.Model.Condorcet

/-!
# `fuse` (`ranx/meta/fuse.py`, `fusion_switch` in `ranx/fusion/__init__.py`)

Scores are exact reals. Keyword arguments are a dictionary from names to values of the shapes the methods
take; a value of another shape, a missing required argument and an unknown argument are all `TypeError`.
-/

namespace Ranx.Fuse
open _root_.Ranx.Norm (Results SetIter Kind normSwitch normRun minMaxInverted bordaRuns)

/-- values of `params` -/
inductive PyVal where
  | int (n : Nat)
  | num (x : ℝ)
  | nums (l : List ℝ)
  | tables (l : List (List ℝ))
  | str (s : String)

/-- the dictionary `params` -/
abbrev Kwargs := Dict String PyVal

/-- the functions `fusion_switch` can return -/
inductive Method where
  | bayesfuse | bordafuse | combAnz | combGmnz | combMax | combMed | combMin | combMnz | combSum
  | condorcet | isr | logIsr | lognIsr | mapfuse | mixed | posfuse | probfuse | rbc | rrf | segfuse
  | slidefuse | weightedBordafuse | weightedCondorcet | wmnz | wsum
  deriving DecidableEq, Repr

/-- fusion/__init__.py:62-114 `fusion_switch` -/
def fusionSwitch (method : String) : Except Err Method :=
  if method = "bayesfuse" then .ok .bayesfuse
  else if method = "bordafuse" then .ok .bordafuse
  else if method = "anz" then .ok .combAnz
  else if method = "gmnz" then .ok .combGmnz
  else if method = "max" then .ok .combMax
  else if method = "med" then .ok .combMed
  else if method = "min" then .ok .combMin
  else if method = "mnz" then .ok .combMnz
  else if method = "sum" then .ok .combSum
  else if method = "condorcet" then .ok .condorcet
  else if method = "isr" then .ok .isr
  else if method = "log_isr" then .ok .logIsr
  else if method = "logn_isr" then .ok .lognIsr
  else if method = "mapfuse" then .ok .mapfuse
  else if method = "mixed" then .ok .mixed
  else if method = "posfuse" then .ok .posfuse
  else if method = "probfuse" then .ok .probfuse
  else if method = "rbc" then .ok .rbc
  else if method = "rrf" then .ok .rrf
  else if method = "segfuse" then .ok .segfuse
  else if method = "slidefuse" then .ok .slidefuse
  else if method = "w_bordafuse" then .ok .weightedBordafuse
  else if method = "w_condorcet" then .ok .weightedCondorcet
  else if method = "wmnz" then .ok .wmnz
  else if method = "wsum" then .ok .wsum
  else .error .valueError

/-- the parameters besides `runs` in the `def` lines of the methods (e.g. rrf.py:39, wsum.py:44) -/
def Method.parameters : Method → List String
  | .bayesfuse => ["log_odds", "name"]
  | .combGmnz => ["gamma", "name"]
  | .lognIsr => ["sigma", "name"]
  | .mapfuse => ["map_scores", "name"]
  | .mixed | .weightedBordafuse | .weightedCondorcet | .wmnz | .wsum => ["weights", "name"]
  | .posfuse | .probfuse | .segfuse => ["probs", "name"]
  | .rbc => ["phi", "name"]
  | .rrf => ["k", "name"]
  | .slidefuse => ["probs", "w", "name"]
  | .bordafuse | .combAnz | .combMax | .combMed | .combMin | .combMnz | .combSum | .condorcet | .isr
  | .logIsr => ["name"]

/-- an argument that must be a number; `dflt` is its default value -/
def numArg (params : Kwargs) (name : String) (dflt : Option ℝ) : Except Err ℝ :=
  match params.get? name with
  | some (.num x) => .ok x
  | some (.int n) => .ok (n : ℝ)
  | some _ => .error .typeError
  | none => match dflt with
    | some x => .ok x
    | none => .error .typeError

/-- an argument that must be an int -/
def intArg (params : Kwargs) (name : String) : Except Err Nat :=
  match params.get? name with
  | some (.int n) => .ok n
  | _ => .error .typeError

/-- an argument that must be a list of numbers -/
def numsArg (params : Kwargs) (name : String) : Except Err (List ℝ) :=
  match params.get? name with
  | some (.nums l) => .ok l
  | _ => .error .typeError

/-- an argument that must be a list of arrays -/
def tablesArg (params : Kwargs) (name : String) : Except Err (List (List ℝ)) :=
  match params.get? name with
  | some (.tables l) => .ok l
  | _ => .error .typeError

/-- a failing argument makes the call fail -/
def bindArg {A B : Type*} (a : Except Err A) (f : A → Except Err B) : Except Err B :=
  match a with
  | .error e => .error e
  | .ok x => f x

/-- everything the result may depend on besides the arguments: the argsort, the schedules of the parallel
loops (`normScheds j`, `scheds j` for the loop over the j-th run), the iteration order of sets, the sort
used by condorcet, the memory behind arrays -/
structure Env (δ : Type*) where
  S : ArgSort ℝ
  sched : List Nat
  scheds : Nat → List Nat
  normScheds : Nat → List Nat
  I : SetIter δ
  C : CmpSort
  oob : Nat → ℝ

section
variable {κ δ : Type*} [LinearOrder κ] [DecidableEq δ]

/-- `fusion_switch(method)(norm_runs, **params)` (fuse.py:37); slidefuse's `w` is modelled for ints ≥ 0 -/
noncomputable def Method.call (E : Env δ) (m : Method) (params : Kwargs)
    (runs : List (Dict κ (Results δ ℝ))) : Except Err (Store κ δ ℝ) :=
  if params.keys.all (fun k => decide (k ∈ m.parameters)) then
    match m with
    | .bayesfuse => bindArg (tablesArg params "log_odds") fun t => Fuse.bayesfuse E.S E.sched E.scheds E.oob t runs
    | .bordafuse => Fuse.bordafuse E.S E.sched E.scheds E.I runs
    | .combAnz => Fuse.combAnz E.S E.sched runs
    | .combGmnz => bindArg (numArg params "gamma" none) fun g => Fuse.combGmnz E.S E.sched g runs
    | .combMax => Fuse.combMax E.S E.sched runs
    | .combMed => Fuse.combMed E.S E.sched runs
    | .combMin => Fuse.combMin E.S E.sched runs
    | .combMnz => Fuse.combMnz E.S E.sched runs
    | .combSum => Fuse.combSum E.S E.sched runs
    | .condorcet => Fuse.condorcet E.C E.I runs
    | .isr => Fuse.isr E.S E.sched E.scheds runs
    | .logIsr => Fuse.logIsr E.S E.sched E.scheds runs
    | .lognIsr => bindArg (numArg params "sigma" (some 0.01)) fun s => Fuse.lognIsr E.S E.sched E.scheds s runs
    | .mapfuse => bindArg (numsArg params "map_scores") fun l => Fuse.mapfuse E.S E.sched E.scheds l runs
    | .mixed => bindArg (numsArg params "weights") fun ws => Fuse.mixed E.S E.sched ws runs
    | .posfuse => bindArg (tablesArg params "probs") fun t => Fuse.posfuse E.S E.sched E.scheds t runs
    | .probfuse => bindArg (tablesArg params "probs") fun t => Fuse.probfuse E.S E.sched E.scheds t runs
    | .rbc => bindArg (numArg params "phi" none) fun p => Fuse.rbc E.S E.sched E.scheds p runs
    | .rrf => bindArg (numArg params "k" (some 60)) fun k => Fuse.rrf E.S E.sched E.scheds k runs
    | .segfuse => bindArg (tablesArg params "probs") fun t => Fuse.segfuse E.S E.sched E.scheds t runs
    | .slidefuse => bindArg (tablesArg params "probs") fun t => bindArg (intArg params "w") fun w =>
        Fuse.slidefuse E.S E.sched E.scheds t w runs
    | .weightedBordafuse => bindArg (numsArg params "weights") fun ws =>
        Fuse.weightedBordafuse E.S E.sched E.scheds E.I ws runs
    | .weightedCondorcet => bindArg (numsArg params "weights") fun ws =>
        Fuse.weightedCondorcet E.C E.I ws runs
    | .wmnz => bindArg (numsArg params "weights") fun ws => Fuse.wmnz E.S E.sched ws runs
    | .wsum => bindArg (numsArg params "weights") fun ws => Fuse.wsum E.S E.sched ws runs
  else .error .typeError

/-- `run_i.keys() == run_j.keys()` (key views compare as sets) -/
def sameKeys (a b : Store κ δ ℝ) : Bool :=
  a.data.keys.all (fun q => b.data.contains q) && b.data.keys.all (fun q => a.data.contains q)

/-- fuse.py:18-24: every pair -/
def pairwiseSameKeys : List (Store κ δ ℝ) → Bool
  | [] => true
  | a :: t => t.all (sameKeys a) && pairwiseSameKeys t

/-- `norm_switch(norm)(run)` for the normalizations that take one run -/
noncomputable def normOne (E : Env δ) (k : Kind) (j : Nat) (run : Store κ δ ℝ) : Store κ δ ℝ :=
  match k with
  | .max => normRun Norm.maxNorm (E.normScheds j) run
  | .minMax => normRun (Norm.minMax false) (E.normScheds j) run
  | .minMaxInverted => minMaxInverted E.S (E.normScheds j) run
  | .rank => normRun Norm.rankNorm (E.normScheds j) run
  | .sum => normRun Norm.sumNorm (E.normScheds j) run
  | .zmuv => normRun Norm.zmuv (E.normScheds j) run
  | .borda => run

/-- fuse.py:26-34 -/
noncomputable def normalizeRuns (E : Env δ) (norm : Option String) (runs : List (Store κ δ ℝ)) :
    Except Err (List (Dict κ (Results δ ℝ))) :=
  match norm with
  | none => .ok (runs.map (fun s => s.data))
  | some n =>
    if n ≠ "borda" then
      match normSwitch n with
      | .error e => .error e
      | .ok k => .ok (runs.zipIdx.map (fun rj => (normOne E k rj.2 rj.1).data))
    else bordaRuns E.I E.normScheds (runs.map (fun s => s.data))

/-- fuse.py:8-37 `fuse`; `params = none` is `None` -/
noncomputable def fuse (E : Env δ) (runs : List (Store κ δ ℝ)) (norm : Option String := some "min-max")
    (method : String := "wsum") (params : Option Kwargs := none) : Except Err (Store κ δ ℝ) :=
  if runs.length ≤ 1 then .error .assertionError
  else if pairwiseSameKeys runs then
    match normalizeRuns E norm runs with
    | .error e => .error e
    | .ok normRuns =>
      match fusionSwitch method with
      | .error e => .error e
      | .ok m => m.call E (params.getD []) normRuns
  else .error .assertionError

end
end Ranx.Fuse
