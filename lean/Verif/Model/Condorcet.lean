import Verif.Model.Fusion

/-!
# Condorcet fusion (`ranx/fusion/condorcet.py`, `ranx/fusion/weighted_condorcet.py`)

These functions run as plain Python: `prange` is `range`, `sorted` is CPython's list sort.
-/

namespace Ranx.Fuse
open _root_.Ranx.Norm (Results toRun SetIter getCandidates)
variable {κ δ α : Type*}

/-- What CPython's `sorted(…, key=cmp_to_key(cmp))` guarantees when `cmp` is *not* a consistent order:
`lt a b` stands for `cmp(a, b) < 0`. The result is a permutation, and of two neighbours `a, b` either
`a < b` or not `b < a` (every neighbour pair of the result was compared, by the run detection, the binary
insertion or a merge). Nothing is assumed about elements that are not neighbours. -/
structure CmpSort where
  run : (Nat → Nat → Bool) → List Nat → List Nat
  perm : ∀ lt l, (run lt l).Perm l
  adjacent : ∀ lt l (i a b : Nat), (run lt l)[i]? = some a → (run lt l)[i + 1]? = some b →
    lt a b = true ∨ lt b a = false

/-- condorcet.py:47-62 `_get_run_indices`: per run the index of every candidate, 1_000_000 if missing -/
def runIndices [DecidableEq δ] (results : List (List δ)) (candidates : List δ) : List (List Nat) :=
  results.map (fun run => candidates.map (fun x => (run.idxOf? x).getD 1000000))

/-- condorcet.py:65-68 `_compare(x, y, run_indices) == -1` -/
def compareVotes (ri : List (List Nat)) (x y : Nat) : Bool :=
  let xVotes := ri.countP (fun run => decide ((run[x]?).getD 0 < (run[y]?).getD 0))
  let yVotes := ri.length - xVotes
  decide (yVotes ≤ xVotes)

/-- weighted_condorcet.py:18-28 `_compare(x, y, run_indices, weights) == -1` -/
def compareWeighted [LinearOrder α] [Field α] (ws : List α) (ri : List (List Nat)) (x y : Nat) : Bool :=
  let votes := ri.zipIdx.foldl (fun (xy : α × α) runi =>
    if (runi.1[x]?).getD 0 < (runi.1[y]?).getD 0 then (xy.1 + (ws[runi.2]?).getD 0, xy.2)
    else (xy.1, xy.2 + (ws[runi.2]?).getD 0)) (0, 0)
  decide (votes.2 ≤ votes.1)

section
variable [DecidableEq δ] [Field α]

/-- condorcet.py:71-86 / weighted_condorcet.py:31-46 `_condorcet`; `lt` is the comparison above -/
def condorcetQuery (C : CmpSort) (lt : List (List Nat) → Nat → Nat → Bool) (results : List (List δ))
    (candidates : List δ) : Results δ α :=
  let ri := runIndices results candidates
  let sortIndices := C.run (lt ri) (List.range candidates.length)
  let docIds := sortIndices.filterMap (fun i => candidates[i]?)
  let maxScore := docIds.length
  Dict.ofList (docIds.zipIdx.map (fun di => (di.1, ((maxScore : α) - (di.2 : α)))))

/-- condorcet.py:35-44 `get_results`: the doc ids of every run, per query of the first run -/
def getResults [DecidableEq κ] (runs : List (Dict κ (Results δ α))) : Except Err (List (List (List δ))) :=
  match runs with
  | [] => .error .indexError
  | r0 :: _ =>
    if runs.all (fun run => r0.keys.all (fun q => run.contains q)) then
      .ok (r0.keys.map (fun q => runs.map (fun run => ((run.get? q).getD []).keys)))
    else .error .keyError

/-- condorcet.py:89-95 `_condorcet_parallel` and condorcet.py:126-134: no `run.sort()` -/
def condorcetWith [DecidableEq κ] (C : CmpSort) (I : SetIter δ)
    (lt : List (List Nat) → Nat → Nat → Bool) (runs : List (Dict κ (Results δ α))) :
    Except Err (Store κ δ α) :=
  match getResults runs with
  | .error e => .error e
  | .ok results =>
    match getCandidates I runs with
    | .error e => .error e
    | .ok candidates =>
      .ok ⟨toRun (Dict.keys ((runs[0]?).getD []))
        ((results.zip candidates).map (fun rc => condorcetQuery C lt rc.1 rc.2)), false⟩

/-- condorcet.py:97-134 -/
def condorcet [DecidableEq κ] (C : CmpSort) (I : SetIter δ) (runs : List (Dict κ (Results δ α))) :
    Except Err (Store κ δ α) :=
  condorcetWith C I compareVotes runs

/-- weighted_condorcet.py:58-97. `weights[i]` raises IndexError when weights are missing and anything is
compared, that is if some query has two candidates. -/
def weightedCondorcet [DecidableEq κ] [LinearOrder α] (C : CmpSort) (I : SetIter δ) (ws : List α)
    (runs : List (Dict κ (Results δ α))) : Except Err (Store κ δ α) :=
  match getCandidates I runs with
  | .error e => .error e
  | .ok candidates =>
    if ws.length < runs.length ∧ candidates.any (fun c => decide (2 ≤ c.length)) then .error .indexError
    else condorcetWith C I (compareWeighted ws) runs

end

/-! ### CPython's sort of fewer than 64 elements, for concrete results -/

/-- the binary search of CPython's `binarysort` (Objects/listobject.c): between `l` and `l + fuel` -/
def binarySearch (lt : Nat → Nat → Bool) (p : Nat) (a : List Nat) : Nat → Nat → Nat → Nat
  | 0, l, _ => l
  | fuel + 1, l, r =>
    if l < r then
      let m := l + (r - l) / 2
      if lt p ((a[m]?).getD 0) then binarySearch lt p a fuel l m else binarySearch lt p a fuel (m + 1) r
    else l

/-- one insertion of `binarysort` -/
def binaryInsert (lt : Nat → Nat → Bool) (a : List Nat) (p : Nat) : List Nat :=
  let k := binarySearch lt p a a.length 0 a.length
  a.take k ++ p :: a.drop k

/-- length of the strictly descending prefix after `x` (`count_run`, first branch) -/
def descendingLen (lt : Nat → Nat → Bool) (x : Nat) : List Nat → Nat
  | [] => 0
  | y :: t => if lt y x then descendingLen lt y t + 1 else 0

/-- length of the non-descending prefix after `x` (`count_run`, second branch) -/
def ascendingLen (lt : Nat → Nat → Bool) (x : Nat) : List Nat → Nat
  | [] => 0
  | y :: t => if lt y x then 0 else ascendingLen lt y t + 1

/-- CPython list sort of fewer than 64 elements: `count_run`, reversal of a descending run, `binarysort` -/
def pySort (lt : Nat → Nat → Bool) : List Nat → List Nat
  | [] => []
  | x :: t =>
    let n := descendingLen lt x t
    if 0 < n then (t.drop n).foldl (binaryInsert lt) (x :: t.take n).reverse
    else
      let m := ascendingLen lt x t
      (t.drop m).foldl (binaryInsert lt) (x :: t.take m)

end Ranx.Fuse
