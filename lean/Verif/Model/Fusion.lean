import Mathlib.Analysis.SpecialFunctions.Pow.Real
import Mathlib.Analysis.SpecialFunctions.Log.Basic
import Verif.Model.Norm
import Verif.Model.Evaluate

/-!
# Fusion (`ranx/fusion/*.py`, condorcet in `Model/Condorcet.lean`)

`α` is an ordered field (exact arithmetic), ℝ where the code uses `log`, `sqrt` or a real power.
`to_unicode` is the identity on ids. A run inside this file is the content of a `Run`:
query id → (doc id → score), both insertion ordered.
-/

namespace Ranx.Fuse
open _root_.Ranx.Norm (Results toRun normParallel SetIter getCandidates)
variable {κ δ α : Type*}

/-- What a method computes for one doc from the results of all runs for one query. -/
abbrev Score (δ α : Type*) := List (Results δ α) → δ → Except Err α

section
variable [DecidableEq δ] [DecidableEq α] [Zero α]

/-- The double loop shared by all methods, e.g. comb_sum.py:20-26:
`for res in results: for doc_id in res.keys(): if combined.get(doc_id, False) == False: combined[doc_id] = …`.
`False == 0.0` holds in numba, so a doc whose fused score is 0 is computed again. -/
def unionLoop (score : δ → Except Err α) : List δ → Dict δ α → Except Err (Dict δ α)
  | [], acc => .ok acc
  | d :: ds, acc =>
    if (acc.get? d).getD 0 = 0 then
      match score d with
      | .error e => .error e
      | .ok v => unionLoop score ds (acc.set d v)
    else unionLoop score ds acc

/-- One query: comb_sum.py:17-28 `_comb_sum` and its siblings. -/
def combine (score : Score δ α) (results : List (Results δ α)) : Except Err (Results δ α) :=
  unionLoop (score results) (results.flatMap Dict.keys) []

/-- The body of the prange loop in `_comb_sum_parallel` and its siblings (comb_sum.py:36-38):
`combine([run[q_ids[i]] for run in runs])`; `run[q_id]` raises KeyError if a run lacks the query. -/
def fuseSlot [DecidableEq κ] (score : Score δ α) (runs : List (Dict κ (Results δ α))) (qs : List κ)
    (i : Nat) : Except Err (Results δ α) :=
  match qs[i]? with
  | none => .error .indexError
  | some q =>
    if runs.all (fun run => run.contains q) then
      combine score (runs.map (fun run => (run.get? q).getD []))
    else .error .keyError

/-- `_comb_sum_parallel` and its siblings (comb_sum.py:31-40): the queries of `runs[0]`, one slot per
query filled by a prange loop. -/
def fuseParallel [DecidableEq κ] (score : Score δ α) (sched : List Nat)
    (runs : List (Dict κ (Results δ α))) : Except Err (Dict κ (Results δ α)) :=
  match runs with
  | [] => .error .indexError
  | r0 :: _ =>
    match Eval.collect (prange (List.replicate r0.keys.length (.ok []))
      (fuseSlot score runs r0.keys) sched) with
    | .error e => .error e
    | .ok rs => .ok (toRun r0.keys rs)

/-- The high level functions (e.g. comb_sum.py:44-73): `Run()`, content from the parallel function,
then `run.sort()`. -/
def fuseRun [LinearOrder κ] [LE α] [Neg α] (S : ArgSort α) (score : Score δ α) (sched : List Nat)
    (runs : List (Dict κ (Results δ α))) : Except Err (Store κ δ α) :=
  match fuseParallel score sched runs with
  | .error e => .error e
  | .ok d => .ok ((⟨d, false⟩ : Store κ δ α).sort S)

end

section
variable [DecidableEq δ]

/-- `[res[doc_id] for res in results if doc_id in res]` (comb_med.py:25 and others) -/
def present (results : List (Results δ α)) (d : δ) : List α :=
  results.filterMap (fun res => res.get? d)

variable [LinearOrder α] [Field α]

/-- comb_sum.py:24-26 -/
def sumScore : Score δ α := fun results d => .ok (results.map (fun res => (res.get? d).getD 0)).sum

/-- comb_min.py:24-26: `min([res.get(doc_id, 1e9) …])` -/
def minScore : Score δ α := fun results d =>
  match results.map (fun res => (res.get? d).getD (10 ^ 9)) with
  | [] => .error .valueError
  | x :: t => .ok (t.foldl min x)

/-- comb_max.py:24-26: `max([res.get(doc_id, -1e9) …])` -/
def maxScore : Score δ α := fun results d =>
  match results.map (fun res => (res.get? d).getD (-(10 ^ 9))) with
  | [] => .error .valueError
  | x :: t => .ok (t.foldl max x)

/-- `np.median` of a non-empty array -/
def median (l : List α) : α :=
  let s := isort (fun a b => decide (a ≤ b)) l
  let n := s.length
  if n % 2 = 1 then (s[n / 2]?).getD 0 else ((s[n / 2 - 1]?).getD 0 + (s[n / 2]?).getD 0) / 2

/-- comb_med.py:25-26 -/
def medScore : Score δ α := fun results d => .ok (median (present results d))

/-- comb_anz.py:25-26 -/
def anzScore : Score δ α := fun results d =>
  let scores := present results d
  .ok (scores.sum / (scores.length : α))

/-- comb_mnz.py:25-26 -/
def mnzScore : Score δ α := fun results d =>
  let scores := present results d
  .ok (scores.sum * (scores.length : α))

/-- `weights[i]` of a typed or plain list -/
def weightAt (ws : List α) (i : Nat) : Except Err α :=
  match ws[i]? with
  | none => .error .indexError
  | some w => .ok w

/-- wsum.py:24-26: `sum([weights[i] * res.get(doc_id, 0.0) for i, res in enumerate(results)])` -/
def wsumScore (ws : List α) : Score δ α := fun results d =>
  match Eval.collect (results.zipIdx.map (fun ri =>
      (weightAt ws ri.2).map (fun w => w * (ri.1.get? d).getD 0))) with
  | .error e => .error e
  | .ok l => .ok l.sum

/-- `[(res[doc_id], weights[i]) for i, res in enumerate(results) if doc_id in res]`
(wmnz.py:25-31, mixed.py:25-31) -/
def presentWeighted (ws : List α) (results : List (Results δ α)) (d : δ) : Except Err (List (α × α)) :=
  Eval.collect (results.zipIdx.filterMap (fun ri =>
    (ri.1.get? d).map (fun s => (weightAt ws ri.2).map (fun w => (s, w)))))

/-- wmnz.py:25-36 -/
def wmnzScore (ws : List α) : Score δ α := fun results d =>
  match presentWeighted ws results d with
  | .error e => .error e
  | .ok l => .ok ((l.map Prod.fst).sum * (l.map Prod.snd).sum)

end

section
variable [DecidableEq δ]

/-- comb_gmnz.py:25-26: `sum(scores) * (len(scores) ** gamma)` -/
noncomputable def gmnzScore (gamma : ℝ) : Score δ ℝ := fun results d =>
  let scores := present results d
  .ok (scores.sum * (scores.length : ℝ) ^ gamma)

/-- mixed.py:25-33 -/
noncomputable def mixedScore (ws : List ℝ) : Score δ ℝ := fun results d =>
  match presentWeighted ws results d with
  | .error e => .error e
  | .ok l => .ok ((l.map (fun p => p.1 * p.2)).sum * Real.sqrt (l.length : ℝ))

/-- log_isr.py:26-27 (log = natural logarithm) -/
noncomputable def logMnzScore : Score δ ℝ := fun results d =>
  let scores := present results d
  .ok (scores.sum * Real.log (scores.length : ℝ))

/-- logn_isr.py:26-27 -/
noncomputable def lognMnzScore (sigma : ℝ) : Score δ ℝ := fun results d =>
  let scores := present results d
  .ok (scores.sum * Real.log ((scores.length : ℝ) + sigma))

/-- bayesfuse.py:23-31 `_sum_odds` -/
noncomputable def oddsScore : Score δ ℝ := fun results d =>
  .ok (results.map (fun res => (res.get? d).getD (Real.log (0.001 / 0.999)))).sum

end

/-! ### Rescoring of each run by rank (the dict order of its results) -/

section
variable [DecidableEq δ]

/-- `for i, doc_id in enumerate(results.keys()): combined_results[doc_id] = f(i)`; `f` also gets the
doc's score (used by segfuse.py:60 only). -/
def rankLoop (f : Nat → α → α) (r : Results δ α) : Results δ α :=
  Dict.ofList (r.zipIdx.map (fun pi => (pi.1.1, f pi.2 pi.1.2)))

variable [LinearOrder α] [Field α]

/-- isr.py:18-24 `_isr_score` -/
def isrScore : Results δ α → Results δ α := rankLoop (fun i _ => 1 / ((i : α) + 1) ^ 2)

/-- rrf.py:18-24 `_rrf_score` -/
def rrfScore (k : α) : Results δ α → Results δ α := rankLoop (fun i _ => 1 / (k + (i : α) + 1))

/-- rbc.py:17-24 `_rbc_score` -/
def rbcScore (phi : α) : Results δ α → Results δ α := rankLoop (fun i _ => (1 - phi) * phi ^ i)

/-- mapfuse.py:19-25 `_map_score` -/
def mapScore (m : α) : Results δ α → Results δ α := rankLoop (fun i _ => m / ((i : α) + 1))

/-- posfuse.py:19-26 `_pos_score` -/
def posScore (probs : List α) : Results δ α → Results δ α :=
  rankLoop (fun i _ => if i < probs.length then (probs[i]?).getD 0 else 0)

/-- NumPy `a[start:end] = v` -/
def assignSlice (a : List α) (start stop : Nat) (v : α) : List α :=
  a.zipIdx.map (fun xi => if start ≤ xi.2 ∧ xi.2 < stop then v else xi.1)

/-- NumPy `a[start:end]` for `0 ≤ start` -/
def slice (a : List α) (start stop : Nat) : List α := (a.take stop).drop start

/-- `ceil(a / b)` for positive `b` (exact division; floats are exact enough below 2^53) -/
def ceilDiv (a b : Nat) : Nat := (a + b - 1) / b

/-- probfuse.py:61-75 `_prob_score` -/
def probScore (segProbs : List α) (r : Results δ α) : Results δ α :=
  let segmentSize := ceilDiv r.length segProbs.length
  let probs := (List.range segProbs.length).foldl (fun a (k : Nat) =>
    assignSlice a (k * segmentSize) ((k + 1) * segmentSize) ((segProbs[k]?).getD 0 / ((k : α) + 1)))
    (List.replicate r.length 0)
  rankLoop (fun i _ => (probs[i]?).getD 0) r

/-- slidefuse.py:19-29 `_slide_score` for `w ≥ 0` -/
def slideScore (probs : List α) (w : Nat) (r : Results δ α) : Results δ α :=
  rankLoop (fun p _ =>
    let a := p - w
    let b := min (p + w) (r.length - 1)
    (slice probs a (b + 1)).sum / ((b : α) - (a : α) + 1)) r

/-- segfuse.py:20, 52: `[0] + [(10 * 2 ** (k - 1)) - 5 for k in range(1, 11)]` -/
def segmentSizes : List Nat := 0 :: (List.range 10).map (fun k => 10 * 2 ^ k - 5)

/-- segfuse.py:49-62 `_seg_score` (more than 10 probabilities: see `segfuse`) -/
def segScore (segProbs : List α) (r : Results δ α) : Results δ α :=
  let probs := (List.range segProbs.length).foldl (fun a (k : Nat) =>
    assignSlice a ((segmentSizes[k]?).getD 0) ((segmentSizes[k + 1]?).getD 0) ((segProbs[k]?).getD 0))
    (List.replicate r.length 0)
  rankLoop (fun i s => (probs[i]?).getD 0 * (s + 1)) r

/-- bayesfuse.py:94-101 `_bayes_score`. Compiled code does not check array bounds: `oob i` is whatever
lies in memory at an index beyond the table. -/
def bayesScore (oob : Nat → α) (logOdds : List α) : Results δ α → Results δ α :=
  rankLoop (fun i _ => (logOdds[i]?).getD (oob i))

/-- bordafuse.py:34-47 `_borda_score` -/
def bordaScore (r : Results δ α) (candidates : List δ) : Results δ α :=
  let ids := r.keys
  let maxPoints : α := (candidates.length : α)
  let others := candidates.filter (fun d => decide (d ∉ ids))
  Dict.ofList (ids.zipIdx.map (fun di => (di.1, maxPoints - (di.2 : α))) ++
    others.map (fun d => (d, (maxPoints - (ids.length : α) + 1) / 2)))

/-- bordafuse.py:50-58 `_borda_score_parallel`: `candidates[i]` for the i-th query *of this run* -/
def bordaScoreParallel [DecidableEq κ] (sched : List Nat) (run : Dict κ (Results δ α))
    (candidates : List (List δ)) : Dict κ (Results δ α) :=
  let qs := run.keys
  toRun qs (prange (List.replicate qs.length []) (fun i =>
    bordaScore ((qs[i]?.bind run.get?).getD []) ((candidates[i]?).getD [])) sched)

/-- The loop over the runs in the high level functions (e.g. rrf.py:65-69): the i-th run rescored with
its i-th parameter; `sched j` is the schedule of the j-th run's prange loop. -/
def rescoreAll [DecidableEq κ] (f : Results δ α → Results δ α) (sched : Nat → List Nat)
    (runs : List (Dict κ (Results δ α))) : List (Dict κ (Results δ α)) :=
  runs.zipIdx.map (fun rj => normParallel f (sched rj.2) rj.1)

/-- Like `rescoreAll` with a per-run parameter `params[i]` (IndexError if there are too few). -/
def rescoreWith [DecidableEq κ] {π : Type*} (f : π → Results δ α → Results δ α) (params : List π)
    (sched : Nat → List Nat) (runs : List (Dict κ (Results δ α))) :
    Except Err (List (Dict κ (Results δ α))) :=
  Eval.collect (runs.zipIdx.map (fun rj =>
    match params[rj.2]? with
    | none => .error .indexError
    | some p => .ok (normParallel (f p) (sched rj.2) rj.1)))

end

/-! ### The methods: `sched` schedules the final loop, `scheds j` the rescoring of the j-th run -/

section
variable [LinearOrder κ] [DecidableEq δ] [LinearOrder α] [Field α] (S : ArgSort α)
  (sched : List Nat) (scheds : Nat → List Nat)

/-- comb_sum.py:44-73 -/
def combSum (runs : List (Dict κ (Results δ α))) : Except Err (Store κ δ α) := fuseRun S sumScore sched runs
/-- comb_min.py:44-73 -/
def combMin (runs : List (Dict κ (Results δ α))) : Except Err (Store κ δ α) := fuseRun S minScore sched runs
/-- comb_max.py:44-73 -/
def combMax (runs : List (Dict κ (Results δ α))) : Except Err (Store κ δ α) := fuseRun S maxScore sched runs
/-- comb_med.py:44-73 -/
def combMed (runs : List (Dict κ (Results δ α))) : Except Err (Store κ δ α) := fuseRun S medScore sched runs
/-- comb_anz.py:44-73 -/
def combAnz (runs : List (Dict κ (Results δ α))) : Except Err (Store κ δ α) := fuseRun S anzScore sched runs
/-- comb_mnz.py:44-73 -/
def combMnz (runs : List (Dict κ (Results δ α))) : Except Err (Store κ δ α) := fuseRun S mnzScore sched runs
/-- wsum.py:44-61 -/
def wsum (ws : List α) (runs : List (Dict κ (Results δ α))) : Except Err (Store κ δ α) :=
  fuseRun S (wsumScore ws) sched runs
/-- wmnz.py:54-88 -/
def wmnz (ws : List α) (runs : List (Dict κ (Results δ α))) : Except Err (Store κ δ α) :=
  fuseRun S (wmnzScore ws) sched runs

/-- isr.py:39-77 -/
def isr (runs : List (Dict κ (Results δ α))) : Except Err (Store κ δ α) :=
  combMnz S sched (rescoreAll isrScore scheds runs)
/-- some results list of the runs is so long that `k + i + 1` is 0 at one of its positions (only for a negative
integer `k`) -/
def rankZero {κ δ α : Type*} [LinearOrder α] [Field α] (k : α) (runs : List (Dict κ (Results δ α))) : Bool :=
  runs.any (fun run => run.any (fun qr => (List.range qr.2.length).any (fun i => decide (k + (i : α) + 1 = 0))))

/-- rrf.py:39-71; `1 / (k + i + 1)` (rrf.py:22) raises ZeroDivisionError when `k + i + 1` is 0 -/
def rrf (k : α) (runs : List (Dict κ (Results δ α))) : Except Err (Store κ δ α) :=
  if rankZero k runs then .error .zeroDivision
  else combSum S sched (rescoreAll (rrfScore k) scheds runs)
/-- rbc.py:38-83 -/
def rbc (phi : α) (runs : List (Dict κ (Results δ α))) : Except Err (Store κ δ α) :=
  combSum S sched (rescoreAll (rbcScore phi) scheds runs)

/-- rescore every run with its own parameter, then combine -/
def rescoreThen {π : Type*} (f : π → Results δ α → Results δ α) (params : List π) (score : Score δ α)
    (runs : List (Dict κ (Results δ α))) : Except Err (Store κ δ α) :=
  match rescoreWith f params scheds runs with
  | .error e => .error e
  | .ok runs' => fuseRun S score sched runs'

/-- mapfuse.py:40-86 -/
def mapfuse (maps : List α) (runs : List (Dict κ (Results δ α))) : Except Err (Store κ δ α) :=
  rescoreThen S sched scheds mapScore maps sumScore runs
/-- posfuse.py:40-85 -/
def posfuse (probs : List (List α)) (runs : List (Dict κ (Results δ α))) : Except Err (Store κ δ α) :=
  rescoreThen S sched scheds posScore probs sumScore runs
/-- probfuse.py:89-132; zero segments divide by zero (probfuse.py:65) -/
def probfuse (probs : List (List α)) (runs : List (Dict κ (Results δ α))) : Except Err (Store κ δ α) :=
  if (probs.take runs.length).any (fun p => p.isEmpty) then .error .zeroDivision
  else rescoreThen S sched scheds probScore probs sumScore runs
/-- slidefuse.py:43-95 for `w ≥ 0` -/
def slidefuse (probs : List (List α)) (w : Nat) (runs : List (Dict κ (Results δ α))) :
    Except Err (Store κ δ α) :=
  rescoreThen S sched scheds (fun p => slideScore p w) probs sumScore runs
/-- segfuse.py:76-116; `segment_sizes[k + 1]` is out of range beyond 10 segments -/
def segfuse (probs : List (List α)) (runs : List (Dict κ (Results δ α))) : Except Err (Store κ δ α) :=
  if (probs.take runs.length).any (fun p => decide (10 < p.length)) then .error .indexError
  else rescoreThen S sched scheds segScore probs sumScore runs

/-- bordafuse.py:95-103, weighted_bordafuse.py:45-56: candidates per query of the first run, then
every run rescored; `candidates[i]` of a typed list raises IndexError beyond its length. -/
def bordaRescored (I : SetIter δ) (runs : List (Dict κ (Results δ α))) :
    Except Err (List (Dict κ (Results δ α))) :=
  match getCandidates I runs with
  | .error e => .error e
  | .ok candidates =>
    if runs.any (fun run => candidates.length < run.length) then .error .indexError
    else .ok (runs.zipIdx.map (fun rj => bordaScoreParallel (scheds rj.2) rj.1 candidates))

/-- bordafuse.py:61-103 -/
def bordafuse (I : SetIter δ) (runs : List (Dict κ (Results δ α))) : Except Err (Store κ δ α) :=
  match bordaRescored scheds I runs with
  | .error e => .error e
  | .ok runs' => combSum S sched runs'

/-- weighted_bordafuse.py:8-56 -/
def weightedBordafuse (I : SetIter δ) (ws : List α) (runs : List (Dict κ (Results δ α))) :
    Except Err (Store κ δ α) :=
  match bordaRescored scheds I runs with
  | .error e => .error e
  | .ok runs' => wsum S sched ws runs'

end

section
variable [LinearOrder κ] [DecidableEq δ] (S : ArgSort ℝ) (sched : List Nat) (scheds : Nat → List Nat)

/-- comb_gmnz.py:44-71 -/
noncomputable def combGmnz (gamma : ℝ) (runs : List (Dict κ (Results δ ℝ))) : Except Err (Store κ δ ℝ) :=
  fuseRun S (gmnzScore gamma) sched runs
/-- mixed.py:51-85 -/
noncomputable def mixed (ws : List ℝ) (runs : List (Dict κ (Results δ ℝ))) : Except Err (Store κ δ ℝ) :=
  fuseRun S (mixedScore ws) sched runs
/-- log_isr.py:45-81 -/
noncomputable def logIsr (runs : List (Dict κ (Results δ ℝ))) : Except Err (Store κ δ ℝ) :=
  fuseRun S logMnzScore sched (rescoreAll isrScore scheds runs)
open Classical in
/-- logn_isr.py:45-84 -/
noncomputable def lognIsr (sigma : ℝ) (runs : List (Dict κ (Results δ ℝ))) : Except Err (Store κ δ ℝ) :=
  if 0 ≤ sigma ∧ sigma ≤ 1 then
    fuseRun S (lognMnzScore sigma) sched (rescoreAll isrScore scheds runs)
  else .error .assertionError
/-- bayesfuse.py:115-159 -/
noncomputable def bayesfuse (oob : Nat → ℝ) (logOdds : List (List ℝ))
    (runs : List (Dict κ (Results δ ℝ))) : Except Err (Store κ δ ℝ) :=
  rescoreThen S sched scheds (bayesScore oob) logOdds oddsScore runs

end
end Ranx.Fuse
