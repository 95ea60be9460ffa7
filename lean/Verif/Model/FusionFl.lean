import Verif.Model.Fusion
import Verif.Model.NormFl

/-!
# Fusion in floating point (`ranx/fusion/*.py`)

The scores of `Model/Fusion.lean` with a rounding `rnd` after every arithmetic operation; `rnd = F64.fl` is float64.
The loops around them are those of `Model/Fusion.lean`. `min`, `max` (comb_min, comb_max) involve no arithmetic.
`pow`, `sqrt` and `log` are parameters: whatever the C library returns.
-/

namespace Ranx.Fuse.Rnd
open Ranx.Fuse
open _root_.Ranx.Norm (Results toRun SetIter getCandidates)
open _root_.Ranx.Norm.Rnd (sum)
variable {κ δ : Type*} (rnd : ℚ → ℚ)

section
variable [DecidableEq δ]

/-- comb_sum.py:24-26 -/
def sumScore : Score δ ℚ := fun results d => .ok (sum rnd (results.map (fun res => (res.get? d).getD 0)))

/-- comb_anz.py:25-26 -/
def anzScore : Score δ ℚ := fun results d =>
  .ok (rnd (sum rnd (present results d) / rnd ((present results d).length : ℚ)))

/-- comb_mnz.py:25-26 (`factor n = rnd n`), comb_gmnz.py:25-26 (`n ** gamma`), log_isr.py:26-27 (`log(n)`),
logn_isr.py:26-27 (`log(n + sigma)`): `sum(scores) * factor(len(scores))` -/
def scaledScore (factor : Nat → ℚ) : Score δ ℚ := fun results d =>
  .ok (rnd (sum rnd (present results d) * factor (present results d).length))

/-- comb_mnz.py:25-26 -/
def mnzScore : Score δ ℚ := scaledScore rnd (fun n => rnd (n : ℚ))

/-- `np.median` of a non-empty array -/
def median (l : List ℚ) : ℚ :=
  let s := isort (fun a b => decide (a ≤ b)) l
  let n := s.length
  if n % 2 = 1 then (s[n / 2]?).getD 0 else rnd (rnd ((s[n / 2 - 1]?).getD 0 + (s[n / 2]?).getD 0) / 2)

/-- comb_med.py:25-26 -/
def medScore : Score δ ℚ := fun results d => .ok (median rnd (present results d))

/-- wsum.py:24-26 -/
def wsumScore (ws : List ℚ) : Score δ ℚ := fun results d =>
  match Eval.collect (results.zipIdx.map (fun ri =>
      (weightAt ws ri.2).map (fun w => rnd (w * (ri.1.get? d).getD 0)))) with
  | .error e => .error e
  | .ok l => .ok (sum rnd l)

/-- wmnz.py:25-36 -/
def wmnzScore (ws : List ℚ) : Score δ ℚ := fun results d =>
  match presentWeighted ws results d with
  | .error e => .error e
  | .ok l => .ok (rnd (sum rnd (l.map Prod.fst) * sum rnd (l.map Prod.snd)))

/-- mixed.py:25-33 -/
def mixedScore (sqrt : Nat → ℚ) (ws : List ℚ) : Score δ ℚ := fun results d =>
  match presentWeighted ws results d with
  | .error e => .error e
  | .ok l => .ok (rnd (sum rnd (l.map (fun p => rnd (p.1 * p.2))) * sqrt l.length))

/-- isr.py:18-24 `_isr_score`: integer arithmetic up to the division -/
def isrScore : Results δ ℚ → Results δ ℚ := rankLoop (fun i _ => rnd (1 / rnd (((i + 1) ^ 2 : Nat) : ℚ)))

/-- rrf.py:18-24 `_rrf_score` for an integer `k` (the default is 60) -/
def rrfScore (k : Nat) : Results δ ℚ → Results δ ℚ := rankLoop (fun i _ => rnd (1 / rnd ((k + i + 1 : Nat) : ℚ)))

/-- bordafuse.py:34-47 `_borda_score`: integer points, converted to float when stored; the unranked points are an integer
divided by 2 -/
def bordaScore (r : Results δ ℚ) (candidates : List δ) : Results δ ℚ :=
  let ids := r.keys
  let others := candidates.filter (fun d => decide (d ∉ ids))
  Dict.ofList (ids.zipIdx.map (fun di => (di.1, rnd (((candidates.length : ℤ) - (di.2 : ℤ) : ℤ) : ℚ))) ++
    others.map (fun d => (d, rnd (rnd (((candidates.length : ℤ) - (ids.length : ℤ) + 1 : ℤ) : ℚ) / 2))))

/-- bordafuse.py:50-58 `_borda_score_parallel` -/
def bordaScoreParallel [DecidableEq κ] (sched : List Nat) (run : Dict κ (Results δ ℚ))
    (candidates : List (List δ)) : Dict κ (Results δ ℚ) :=
  let qs := run.keys
  toRun qs (prange (List.replicate qs.length []) (fun i =>
    bordaScore rnd ((qs[i]?.bind run.get?).getD []) ((candidates[i]?).getD [])) sched)

/-- bordafuse.py:95-101, weighted_bordafuse.py:45-51 -/
def bordaRescored [DecidableEq κ] (scheds : Nat → List Nat) (I : SetIter δ) (runs : List (Dict κ (Results δ ℚ))) :
    Except Err (List (Dict κ (Results δ ℚ))) :=
  match getCandidates I runs with
  | .error e => .error e
  | .ok candidates =>
    if runs.any (fun run => candidates.length < run.length) then .error .indexError
    else .ok (runs.zipIdx.map (fun rj => bordaScoreParallel rnd (scheds rj.2) rj.1 candidates))

end

variable [LinearOrder κ] [DecidableEq δ] (S : ArgSort ℚ) (sched : List Nat) (scheds : Nat → List Nat)

/-- comb_sum.py:44-73 -/
def combSum (runs : List (Dict κ (Results δ ℚ))) : Except Err (Store κ δ ℚ) := fuseRun S (sumScore rnd) sched runs
/-- comb_med.py:44-73 -/
def combMed (runs : List (Dict κ (Results δ ℚ))) : Except Err (Store κ δ ℚ) := fuseRun S (medScore rnd) sched runs
/-- comb_anz.py:44-73 -/
def combAnz (runs : List (Dict κ (Results δ ℚ))) : Except Err (Store κ δ ℚ) := fuseRun S (anzScore rnd) sched runs
/-- comb_mnz.py:44-73 -/
def combMnz (runs : List (Dict κ (Results δ ℚ))) : Except Err (Store κ δ ℚ) := fuseRun S (mnzScore rnd) sched runs
/-- comb_gmnz.py:44-71 -/
def combGmnz (pow : Nat → ℚ) (runs : List (Dict κ (Results δ ℚ))) : Except Err (Store κ δ ℚ) :=
  fuseRun S (scaledScore rnd pow) sched runs
/-- wsum.py:44-61 -/
def wsum (ws : List ℚ) (runs : List (Dict κ (Results δ ℚ))) : Except Err (Store κ δ ℚ) :=
  fuseRun S (wsumScore rnd ws) sched runs
/-- wmnz.py:54-88 -/
def wmnz (ws : List ℚ) (runs : List (Dict κ (Results δ ℚ))) : Except Err (Store κ δ ℚ) :=
  fuseRun S (wmnzScore rnd ws) sched runs
/-- mixed.py:51-85 -/
def mixed (sqrt : Nat → ℚ) (ws : List ℚ) (runs : List (Dict κ (Results δ ℚ))) : Except Err (Store κ δ ℚ) :=
  fuseRun S (mixedScore rnd sqrt ws) sched runs
/-- isr.py:39-77 -/
def isr (runs : List (Dict κ (Results δ ℚ))) : Except Err (Store κ δ ℚ) :=
  combMnz rnd S sched (rescoreAll (isrScore rnd) scheds runs)
/-- log_isr.py:45-81 (`log n` for log(n)), logn_isr.py:45-84 for `0 ≤ sigma ≤ 1` (`log n` for log(n + sigma)) -/
def logIsr (log : Nat → ℚ) (runs : List (Dict κ (Results δ ℚ))) : Except Err (Store κ δ ℚ) :=
  fuseRun S (scaledScore rnd log) sched (rescoreAll (isrScore rnd) scheds runs)
/-- rrf.py:39-71 -/
def rrf (k : Nat) (runs : List (Dict κ (Results δ ℚ))) : Except Err (Store κ δ ℚ) :=
  combSum rnd S sched (rescoreAll (rrfScore rnd k) scheds runs)
/-- bordafuse.py:61-103 -/
def bordafuse (I : SetIter δ) (runs : List (Dict κ (Results δ ℚ))) : Except Err (Store κ δ ℚ) :=
  match bordaRescored rnd scheds I runs with
  | .error e => .error e
  | .ok runs' => combSum rnd S sched runs'

end Ranx.Fuse.Rnd
