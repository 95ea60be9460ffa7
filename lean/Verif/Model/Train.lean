import Verif.Model.Fuse
import Verif.Model.Evaluate
import Mathlib.Analysis.SpecialFunctions.Log.Basic

/-!
# Training of the probabilistic fusion methods

`posfuse_train`, `slidefuse_train`, `probfuse_train`, `segfuse_train`, `bayesfuse_train`,
`mapfuse_train`: hit lists of each run against the qrels, turned into tables.

Not modelled: a training set without queries (NumPy divides by zero and fills the tables with NaN; the
theorems assume at least one query), an empty list of runs (numba cannot type the empty list; `fuse`
rejects it).
-/

namespace Ranx.Train
open Dict Store Metrics Eval Fuse
variable {κ δ ι α : Type*}

section
variable [LinearOrder ι] [Field α] [LinearOrder α]

/-- get_hit_lists.py:39-44 `_get_hit_list_parallel` with `k = 0`, `rel_lvl = 1` (the defaults every
training function uses): `hit_lists[i]` for `i in prange(len(qrels))`, in the order `sched`; `run[i]` on a
shorter typed list raises `IndexError`. -/
def hitLists (sched : List Nat) (qrels run : List (Rows ι α)) : Except Err (List (List α)) :=
  if run.length < qrels.length then .error .indexError
  else .ok (prange (List.replicate qrels.length [1])
    (fun i => getHitList ((qrels[i]?).getD []) ((run[i]?).getD []) 0 1) sched)

/-- `a[i] += v` on an array -/
def addAt (a : List α) (i : Nat) (v : α) : List α := a.modify i (· + v)

/-- fusion/common.py:41-55 `_estimate_probs`: `max` of an empty list raises `ValueError`. -/
def estimateProbs (hls : List (List α)) : Except Err (List α) :=
  match hls.map List.length with
  | [] => .error .valueError
  | n :: ns =>
    let size := ns.foldl max n
    let acc := hls.foldl (fun acc hl => (List.range hl.length).foldl (fun a i =>
        (addAt a.1 i 1, addAt a.2 i ((hl[i]?).getD 0))) acc)
      (List.replicate size (0 : α), List.replicate size (0 : α))
    .ok (List.zipWith (fun num den => num / den) acc.2 acc.1)

/-- probfuse.py:20-38 `estimate_segment_probs` (`n_segments = 0` divides by zero at the first query) -/
def probSegments (n : Nat) (hls : List (List α)) : Except Err (List α) :=
  if n = 0 ∧ hls ≠ [] then .error .zeroDivision
  else
    let acc := hls.foldl (fun acc hl =>
      let size := ceilDiv hl.length n
      (List.range n).foldl (fun a k =>
        let segment := slice hl (k * size) ((k + 1) * size)
        if segment.length ≠ 0 then addAt a k (segment.sum / (segment.length : α)) else a) acc)
      (List.replicate n (0 : α))
    .ok (acc.map (fun x => x / (hls.length : α)))

/-- segfuse.py:19-33 `estimate_segment_probs` -/
def segSegments (hls : List (List α)) : List α :=
  let acc := hls.foldl (fun acc hl =>
    (List.range (segmentSizes.length - 1)).foldl (fun a k =>
      let start := (segmentSizes[k]?).getD 0
      let stop := (segmentSizes[k + 1]?).getD 0
      addAt a k ((slice hl start stop).sum / ((stop - start : Nat) : α))) acc)
    (List.replicate (segmentSizes.length - 1) (0 : α))
  acc.map (fun x => x / (hls.length : α))

end

/-- bayesfuse.py:83 `cut_offs` -/
def cutOffs : List Nat := [0, 5, 10, 15, 20, 30, 100, 200, 500, 1000]

/-- bayesfuse.py:65-76: one band's average precision and its complement, with the two corrections -/
noncomputable def bandLogOdds (hls : List (List ℝ)) (start stop : Nat) : ℝ :=
  let avg := hls.foldl (fun acc hl =>
    acc + (slice hl start stop).sum / ((stop - start : Nat) : ℝ) / (hls.length : ℝ)) 0
  let avg := if avg = 0 then avg + 0.001 else avg
  let neg := 1 - avg
  let neg := if neg = 0 then neg + 0.001 else neg
  Real.log (avg / neg)

/-- bayesfuse.py:56-81 `_estimate_log_odds` with the cut-offs of line 83 (`max(cut_offs) = 1000`) -/
noncomputable def logOdds (hls : List (List ℝ)) : List ℝ :=
  (List.range (cutOffs.length - 1)).foldl (fun odds i =>
    let start := (cutOffs[i]?).getD 0
    let stop := (cutOffs[i + 1]?).getD 0
    assignSlice odds start stop (bandLogOdds hls start stop)) (List.replicate 1000 0)

section
variable [LinearOrder κ] [DecidableEq δ] [LinearOrder ι] [Field α] [LinearOrder α]

/-- For each run in turn: `qrels.to_typed_list()`, `run.to_typed_list()` (both may sort the object in
place), the hit lists, and `f` of them (common.py:58-64, bayesfuse.py:82-90; probfuse.py:51-57 and
segfuse.py:40-46 with `f` returning the hit lists). Returns the qrels and runs as they are afterwards. -/
def trainEach {γ : Type*} (SQ : ArgSort Int) (SR : ArgSort α) (hash : δ → ι) (sched : Nat → List Nat)
    (f : List (List α) → Except Err γ) (s : Store κ δ Int) :
    List (Store κ δ α) → Store κ δ Int × List (Store κ δ α) × Except Err (List γ)
  | [] => (s, [], .ok [])
  | r :: rs =>
    let (s', ql) := s.toTypedList SQ hash (fun z : Int => (z : α))
    let (r', rl) := r.toTypedList SR hash id
    match bindArg (hitLists (sched 0) ql rl) f with
    | .error e => (s', r' :: rs, .error e)
    | .ok t =>
      let (s'', rs'', out) := trainEach SQ SR hash (fun i => sched (i + 1)) f s' rs
      (s'', r' :: rs'', out.map (fun ts => t :: ts))

/-- posfuse.py:88-89 `posfuse_train`, slidefuse.py:98-99 `slidefuse_train` (fusion/common.py:58-64) -/
def posfuseTrain (SQ : ArgSort Int) (SR : ArgSort α) (hash : δ → ι) (sched : Nat → List Nat)
    (s : Store κ δ Int) (runs : List (Store κ δ α)) :
    Store κ δ Int × List (Store κ δ α) × Except Err (List (List α)) :=
  trainEach SQ SR hash sched estimateProbs s runs

/-- probfuse.py:51-57, 41-48, 135-136 `probfuse_train`: hit lists of every run, then one row per run, the
rows being written by parallel iterations in the order `rowSched` -/
def probfuseTrain (SQ : ArgSort Int) (SR : ArgSort α) (hash : δ → ι) (sched : Nat → List Nat)
    (rowSched : List Nat) (n : Nat) (s : Store κ δ Int) (runs : List (Store κ δ α)) :
    Store κ δ Int × List (Store κ δ α) × Except Err (List (List α)) :=
  let (s', runs', hls) := trainEach SQ SR hash sched Except.ok s runs
  (s', runs', bindArg hls (fun hls => collect (prange (List.replicate hls.length (.ok (List.replicate n 0)))
    (fun i => probSegments n ((hls[i]?).getD [])) rowSched)))

/-- segfuse.py:36-46, 119-120 `segfuse_train` -/
def segfuseTrain (SQ : ArgSort Int) (SR : ArgSort α) (hash : δ → ι) (sched : Nat → List Nat)
    (s : Store κ δ Int) (runs : List (Store κ δ α)) :
    Store κ δ Int × List (Store κ δ α) × Except Err (List (List α)) :=
  let (s', runs', hls) := trainEach SQ SR hash sched Except.ok s runs
  (s', runs', hls.map (fun hls => hls.map segSegments))

/-- bayesfuse.py:82-90, 162-163 `bayesfuse_train` -/
noncomputable def bayesfuseTrain (SQ : ArgSort Int) (SR : ArgSort ℝ) (hash : δ → ι) (sched : Nat → List Nat)
    (s : Store κ δ Int) (runs : List (Store κ δ ℝ)) :
    Store κ δ Int × List (Store κ δ ℝ) × Except Err (List (List ℝ)) :=
  trainEach SQ SR hash sched (fun hls => .ok (logOdds hls)) s runs

/-- mapfuse.py:89-90 `mapfuse_train`: `evaluate(qrels, run, "map")` of each run, with the default
options; the scores are also saved in the runs. -/
def mapfuseTrain (F : Fn α) (other : Py.Str → Except Err α) (SQ : ArgSort Int) (SR : ArgSort α)
    (hash : δ → ι) (sched : Nat → List Nat) (s : QrelsArg κ δ α) :
    List (RunObj κ δ α) → Except Err (List (Out α))
  | [] => .ok []
  | r :: rs =>
    match evaluate F other SQ SR hash (fun _ => sched 0) {} s (.obj r) ["map".toList] with
    | (_, .error e) => .error e
    | (after, .ok v) =>
      (mapfuseTrain F other SQ SR hash (fun i => sched (i + 1)) after.qrels rs).map (fun vs => v :: vs)

end
end Ranx.Train
