import Verif.Model.Train
import Verif.Model.NormFl
import Verif.Model.SpecialFuse
import Verif.Model.CeilFl

/-!
# Training of the probabilistic fusion methods in floating point

The functions of `Model/Train.lean` with a rounding `rnd` after every arithmetic operation; `rnd = F64.fl` is
float64. Hit lists hold the floats 0.0 and 1.0. `np.log` is an arbitrary function `ln` on positive numbers;
of zero it is `-inf` and of a negative number NaN (numba compiles it to the C function, which raises nothing).
Not modelled: subnormal numbers and overflow (no value here is near either), a training set without queries.
-/

namespace Ranx.Train.Rnd
open Dict Store Metrics Eval Fuse
open Special (X)
variable {κ δ ι : Type*} (rnd : ℚ → ℚ)

/-- `a[i] += v` on a float array -/
def addAt (a : List ℚ) (i : Nat) (v : ℚ) : List ℚ := a.modify i (fun x => rnd (x + v))

/-- fusion/common.py:41-55 `_estimate_probs` -/
def estimateProbs (hls : List (List ℚ)) : Except Err (List ℚ) :=
  match hls.map List.length with
  | [] => .error .valueError
  | n :: ns =>
    let size := ns.foldl max n
    let acc := hls.foldl (fun acc hl => (List.range hl.length).foldl (fun a i =>
        (addAt rnd a.1 i 1, addAt rnd a.2 i ((hl[i]?).getD 0))) acc)
      (List.replicate size (0 : ℚ), List.replicate size (0 : ℚ))
    .ok (List.zipWith (fun num den => rnd (num / den)) acc.2 acc.1)

/-- probfuse.py:20-38 `estimate_segment_probs` -/
def probSegments (n : Nat) (hls : List (List ℚ)) : Except Err (List ℚ) :=
  if n = 0 ∧ hls ≠ [] then .error .zeroDivision
  else
    let acc := hls.foldl (fun acc hl =>
      let size := Fuse.Rnd.ceilDiv rnd hl.length n
      (List.range n).foldl (fun a k =>
        let segment := slice hl (k * size) ((k + 1) * size)
        if segment.length ≠ 0 then
          addAt rnd a k (rnd (Norm.Rnd.sum rnd segment / rnd (segment.length : ℚ))) else a) acc)
      (List.replicate n (0 : ℚ))
    .ok (acc.map (fun x => rnd (x / rnd (hls.length : ℚ))))

/-- segfuse.py:19-33 `estimate_segment_probs` -/
def segSegments (hls : List (List ℚ)) : List ℚ :=
  let acc := hls.foldl (fun acc hl =>
    (List.range (segmentSizes.length - 1)).foldl (fun a k =>
      let start := (segmentSizes[k]?).getD 0
      let stop := (segmentSizes[k + 1]?).getD 0
      addAt rnd a k (rnd (Norm.Rnd.sum rnd (slice hl start stop) / rnd ((stop - start : Nat) : ℚ)))) acc)
    (List.replicate (segmentSizes.length - 1) (0 : ℚ))
  acc.map (fun x => rnd (x / rnd (hls.length : ℚ)))

/-- the literal `0.001` (bayesfuse.py:70, 75) -/
def milli : ℚ := rnd (1 / 1000)

/-- bayesfuse.py:63-67: the average precision of one band -/
def bandMean (hls : List (List ℚ)) (start stop : Nat) : ℚ :=
  hls.foldl (fun acc hl => rnd (acc +
    rnd (rnd (Norm.Rnd.sum rnd (slice hl start stop) / rnd ((stop - start : Nat) : ℚ)) /
      rnd (hls.length : ℚ)))) 0

/-- bayesfuse.py:69-77: the argument of `np.log` for a band of average precision `avg` -/
def bandOdds (avg : ℚ) : ℚ :=
  let avg := if avg = 0 then rnd (avg + milli rnd) else avg
  let neg := rnd (1 - avg)
  let neg := if neg = 0 then rnd (neg + milli rnd) else neg
  rnd (avg / neg)

/-- `np.log` of a finite float (bayesfuse.py:77) -/
def lnX (ln : ℚ → ℚ) (x : ℚ) : X ℚ := if 0 < x then .fin (ln x) else if x = 0 then .ninf else .nan

/-- bayesfuse.py:56-79 `_estimate_log_odds` with the cut-offs of line 83 -/
def logOdds (ln : ℚ → ℚ) (hls : List (List ℚ)) : List (X ℚ) :=
  (List.range (cutOffs.length - 1)).foldl (fun odds i =>
    let start := (cutOffs[i]?).getD 0
    let stop := (cutOffs[i + 1]?).getD 0
    assignSlice odds start stop (lnX ln (bandOdds rnd (bandMean rnd hls start stop)))) (List.replicate 1000 (.fin 0))

section
variable [LinearOrder κ] [DecidableEq δ] [LinearOrder ι]

/-- posfuse.py:88-89 `posfuse_train`, slidefuse.py:98-99 `slidefuse_train` (fusion/common.py:58-64) -/
def posfuseTrain (SQ : ArgSort Int) (SR : ArgSort ℚ) (hash : δ → ι) (sched : Nat → List Nat)
    (s : Store κ δ Int) (runs : List (Store κ δ ℚ)) :
    Store κ δ Int × List (Store κ δ ℚ) × Except Err (List (List ℚ)) :=
  trainEach SQ SR hash sched (estimateProbs rnd) s runs

/-- probfuse.py:51-57, 41-48, 135-136 `probfuse_train` -/
def probfuseTrain (SQ : ArgSort Int) (SR : ArgSort ℚ) (hash : δ → ι) (sched : Nat → List Nat)
    (rowSched : List Nat) (n : Nat) (s : Store κ δ Int) (runs : List (Store κ δ ℚ)) :
    Store κ δ Int × List (Store κ δ ℚ) × Except Err (List (List ℚ)) :=
  let (s', runs', hls) := trainEach SQ SR hash sched Except.ok s runs
  (s', runs', bindArg hls (fun hls => collect (prange (List.replicate hls.length (.ok (List.replicate n 0)))
    (fun i => probSegments rnd n ((hls[i]?).getD [])) rowSched)))

/-- segfuse.py:36-46, 119-120 `segfuse_train` -/
def segfuseTrain (SQ : ArgSort Int) (SR : ArgSort ℚ) (hash : δ → ι) (sched : Nat → List Nat)
    (s : Store κ δ Int) (runs : List (Store κ δ ℚ)) :
    Store κ δ Int × List (Store κ δ ℚ) × Except Err (List (List ℚ)) :=
  let (s', runs', hls) := trainEach SQ SR hash sched Except.ok s runs
  (s', runs', hls.map (fun hls => hls.map (segSegments rnd)))

/-- bayesfuse.py:82-90, 162-163 `bayesfuse_train` -/
def bayesfuseTrain (ln : ℚ → ℚ) (SQ : ArgSort Int) (SR : ArgSort ℚ) (hash : δ → ι) (sched : Nat → List Nat)
    (s : Store κ δ Int) (runs : List (Store κ δ ℚ)) :
    Store κ δ Int × List (Store κ δ ℚ) × Except Err (List (List (X ℚ))) :=
  trainEach SQ SR hash sched (fun hls => .ok (logOdds rnd ln hls)) s runs

end

section
variable [LinearOrder κ] [DecidableEq δ]

/-- bayesfuse.py:19-31 `_sum_odds`, `minOdd` being `np.log(0.001 / 0.999)`; finite sums are exact here -/
def oddsScore (minOdd : X ℚ) : Score δ (X ℚ) := fun results d =>
  .ok (Special.sumX (results.map (fun res => (res.get? d).getD minOdd)))

/-- bayesfuse.py:115-159 on tables that may hold NaN -/
def bayesfuse (S : ArgSort (X ℚ)) (sched : List Nat) (scheds : Nat → List Nat) (minOdd : X ℚ) (oob : Nat → X ℚ)
    (logOdds : List (List (X ℚ))) (runs : List (Dict κ (Norm.Results δ (X ℚ)))) : Except Err (Store κ δ (X ℚ)) :=
  bindArg (rescoreWith (bayesScore oob) logOdds scheds runs) (fuseRun S (oddsScore minOdd) sched)

end
end Ranx.Train.Rnd
