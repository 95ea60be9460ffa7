import Verif.Model.FusionFl
import Verif.Model.CeilFl

/-!
# The probability based fusion methods, and rbc, in floating point (`ranx/fusion/*.py`)

The scores of `Model/Fusion.lean` with a rounding `rnd` after every arithmetic operation; `rnd = F64.fl` is float64.
posfuse copies table entries (`Fuse.posScore`), so that only the final sum rounds. Powers `phi ** i` are a parameter:
whatever the compiled code returns.
-/

namespace Ranx.Fuse.Rnd
open Ranx.Fuse
open _root_.Ranx.Norm (Results)
open _root_.Ranx.Norm.Rnd (sum)
variable {κ δ : Type*} (rnd : ℚ → ℚ)

section
variable [DecidableEq δ]

/-- rbc.py:17-24 `_rbc_score`; `pow i` is what `phi**i` returns -/
def rbcScore (phi : ℚ) (pow : Nat → ℚ) : Results δ ℚ → Results δ ℚ := rankLoop (fun i _ => rnd (rnd (1 - phi) * pow i))

/-- mapfuse.py:19-25 `_map_score` -/
def mapScore (m : ℚ) : Results δ ℚ → Results δ ℚ := rankLoop (fun i _ => rnd (m / rnd ((i + 1 : Nat) : ℚ)))

/-- probfuse.py:61-75 `_prob_score` -/
def probScore (segProbs : List ℚ) (r : Results δ ℚ) : Results δ ℚ :=
  let segmentSize := ceilDiv rnd r.length segProbs.length
  let probs := (List.range segProbs.length).foldl (fun a (k : Nat) =>
    assignSlice a (k * segmentSize) ((k + 1) * segmentSize) (rnd ((segProbs[k]?).getD 0 / rnd ((k + 1 : Nat) : ℚ))))
    (List.replicate r.length 0)
  rankLoop (fun i _ => (probs[i]?).getD 0) r

/-- slidefuse.py:19-29 `_slide_score` for `w ≥ 0` -/
def slideScore (probs : List ℚ) (w : Nat) (r : Results δ ℚ) : Results δ ℚ :=
  rankLoop (fun p _ =>
    let a := p - w
    let b := min (p + w) (r.length - 1)
    rnd (sum rnd (slice probs a (b + 1)) / rnd ((b + 1 - a : Nat) : ℚ))) r

/-- segfuse.py:49-62 `_seg_score` (more than 10 probabilities: see `segfuse`) -/
def segScore (segProbs : List ℚ) (r : Results δ ℚ) : Results δ ℚ :=
  let probs := (List.range segProbs.length).foldl (fun a (k : Nat) =>
    assignSlice a ((segmentSizes[k]?).getD 0) ((segmentSizes[k + 1]?).getD 0) ((segProbs[k]?).getD 0))
    (List.replicate r.length 0)
  rankLoop (fun i s => rnd ((probs[i]?).getD 0 * rnd (s + 1))) r

end

variable [LinearOrder κ] [DecidableEq δ] (S : ArgSort ℚ) (sched : List Nat) (scheds : Nat → List Nat)

/-- rbc.py:38-83 -/
def rbc (phi : ℚ) (pow : Nat → ℚ) (runs : List (Dict κ (Results δ ℚ))) : Except Err (Store κ δ ℚ) :=
  combSum rnd S sched (rescoreAll (rbcScore rnd phi pow) scheds runs)
/-- mapfuse.py:40-86 -/
def mapfuse (maps : List ℚ) (runs : List (Dict κ (Results δ ℚ))) : Except Err (Store κ δ ℚ) :=
  rescoreThen S sched scheds (mapScore rnd) maps (sumScore rnd) runs
/-- posfuse.py:40-85 -/
def posfuse (probs : List (List ℚ)) (runs : List (Dict κ (Results δ ℚ))) : Except Err (Store κ δ ℚ) :=
  rescoreThen S sched scheds posScore probs (sumScore rnd) runs
/-- probfuse.py:89-132; zero segments divide by zero (probfuse.py:65) -/
def probfuse (probs : List (List ℚ)) (runs : List (Dict κ (Results δ ℚ))) : Except Err (Store κ δ ℚ) :=
  if (probs.take runs.length).any (fun p => p.isEmpty) then .error .zeroDivision
  else rescoreThen S sched scheds (probScore rnd) probs (sumScore rnd) runs
/-- slidefuse.py:43-95 for `w ≥ 0` -/
def slidefuse (probs : List (List ℚ)) (w : Nat) (runs : List (Dict κ (Results δ ℚ))) : Except Err (Store κ δ ℚ) :=
  rescoreThen S sched scheds (fun p => slideScore rnd p w) probs (sumScore rnd) runs
/-- segfuse.py:76-116; `segment_sizes[k + 1]` is out of range beyond 10 segments -/
def segfuse (probs : List (List ℚ)) (runs : List (Dict κ (Results δ ℚ))) : Except Err (Store κ δ ℚ) :=
  if (probs.take runs.length).any (fun p => decide (10 < p.length)) then .error .indexError
  else rescoreThen S sched scheds (segScore rnd) probs (sumScore rnd) runs

end Ranx.Fuse.Rnd
