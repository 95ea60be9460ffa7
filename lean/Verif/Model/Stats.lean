import Mathlib.Data.Finset.Insert
import Mathlib.Algebra.Order.Group.Abs
import Mathlib.Algebra.Order.Ring.Defs
import Mathlib.Data.Finset.Dedup
import Verif.Model.Evaluate

/-!
# Statistical tests (`ranx/statistical_tests`) and `FrozensetDict`

`Num α` is a float that may be NaN.  The random numbers of Fisher's test are arbitrary: `coin i j`
says whether row `j` is swapped in permutation `i` (a random permutation of a two-element row either
swaps it or not).  The p-values of SciPy's `ttest_rel` and `tukey_hsd` are parameters.
-/

namespace Ranx
variable {κ ν α : Type*}

/-- ranx/data_structures/frozenset_dict.py:4-8: a dict keyed by frozensets -/
abbrev FrozensetDict (κ ν : Type*) := Dict (Finset κ) ν

namespace FrozensetDict
variable [DecidableEq κ]

/-- frozenset_dict.py:10-11 `d[key]` for any iterable `key` (`none`: KeyError) -/
def getItem (d : FrozensetDict κ ν) (key : List κ) : Option ν := d.get? key.toFinset

/-- frozenset_dict.py:13-14 `d[key] = value` -/
def setItem (d : FrozensetDict κ ν) (key : List κ) (v : ν) : FrozensetDict κ ν :=
  d.set key.toFinset v

/-- frozenset_dict.py:16-17 `del d[key]` (`none`: KeyError) -/
def delItem (d : FrozensetDict κ ν) (key : List κ) : Option (FrozensetDict κ ν) :=
  if d.contains key.toFinset then some (d.del key.toFinset) else none

end FrozensetDict

namespace Stat
open Eval Metrics Py

/-- `p_value, significant` -/
structure Result (α : Type*) where
  p : Num α
  significant : Bool
  deriving DecidableEq

section
variable [Field α] [LinearOrder α]

/-- `x <= y` on floats (false if one is NaN) -/
def leNum : Num α → Num α → Bool
  | .val a, .val b => decide (a ≤ b)
  | _, _ => false

/-- `x < y` on floats -/
def ltNum : Num α → Num α → Bool
  | .val a, .val b => decide (a < b)
  | _, _ => false

/-- `x == y` on floats -/
def eqNum : Num α → Num α → Bool
  | .val a, .val b => decide (a = b)
  | _, _ => false

/-- `abs(x - y)` -/
def absDiff : Num α → Num α → Num α
  | .val a, .val b => .val |a - b|
  | _, _ => .nan

/-- fisher_randomization_test.py:5-12 `permute`: every row of the two columns is permuted;
`coin j` says whether row `j` is swapped. -/
def permute (coin : Nat → Bool) (x : List (Num α × Num α)) : List (Num α × Num α) :=
  x.zipIdx.map (fun r => if coin r.2 then (r.1.2, r.1.1) else r.1)

/-- fisher_randomization_test.py:15-46 `fisher_randomization_test`.  `np.column_stack` refuses arrays of
different lengths; the loop is a `prange` whose iterations take effect in the order `sched`.  (The
seed only fixes the generator of the calling thread: the draws of the parallel loop stay arbitrary.) -/
def fisher (coin : Nat → Nat → Bool) (sched : List Nat) (control treatment : List (Num α))
    (n : Nat) (maxP : α) : Except Err (Result α) :=
  let diff := absDiff (mean control) (mean treatment)
  if control.length ≠ treatment.length then .error .valueError
  else
    let stack := control.zip treatment
    let counter := prange (List.replicate n (.val 0))
      (fun i =>
        let permuted := permute (coin i) stack
        let d := absDiff (mean (permuted.map Prod.fst)) (mean (permuted.map Prod.snd))
        if leNum diff d then Num.val 1 else .val 0) sched
    let p := mean counter
    .ok ⟨p, leNum p (.val maxP)⟩

/-- paired_student_t_test.py:4-15 `paired_student_t_test`; `ttest` is SciPy's `ttest_rel` (it refuses
arrays of different lengths). -/
def student (ttest : List (Num α) → List (Num α) → Num α) (control treatment : List (Num α))
    (maxP : α) : Except Err (Result α) :=
  if control.length ≠ treatment.length then .error .valueError
  else .ok ⟨ttest control treatment, leNum (ttest control treatment) (.val maxP)⟩

/-- what the tests draw on: SciPy, the random draws and the schedules of every call -/
structure Env (α : Type*) where
  /-- two-sided p-value of `scipy.stats.ttest_rel` -/
  ttest : List (Num α) → List (Num α) → Num α
  /-- `scipy.stats.tukey_hsd(*scores).pvalue` -/
  tukey : List (List (Num α)) → Except Err (Nat → Nat → Num α)
  /-- random draws of Fisher's test for models number `i`, `j` and a metric -/
  coin : Nat → Nat → Str → Nat → Nat → Bool
  /-- schedules of the loop of Fisher's test -/
  sched : Nat → Nat → Str → List Nat

/-- statistical_tests/__init__.py:17-53 `_compute_statistical_significance`; `i`, `j` number the call. -/
def pairTest (E : Env α) (test : Str) (n : Nat) (maxP : α) (i j : Nat)
    (control treatment : Dict Str (List (Num α))) :
    List Str → Dict Str (Result α) → Except Err (Dict Str (Result α))
  | [], acc => .ok acc
  | m :: ms, acc =>
    let res : Except Err (Result α) :=
      if test = "fisher".toList ∨ test = "student".toList then
        match control.get? m, treatment.get? m with
        | some c, some t =>
          if test = "fisher".toList then fisher (E.coin i j m) (E.sched i j m) c t n maxP
          else student E.ttest c t maxP
        | _, _ => .error .keyError
      else .error .notImplemented
    match res with
    | .error e => .error e
    | .ok r => pairTest E test n maxP i j control treatment ms (acc.set m r)

/-- the comparisons of a report -/
abbrev Comparisons (α : Type*) := FrozensetDict Str (Dict Str (Result α))

/-- statistical_tests/__init__.py:70-84: the inner loop over the treatments -/
def treatments (E : Env α) (test : Str) (n : Nat) (maxP : α) (scores : Dict Str (Dict Str (List (Num α))))
    (i : Nat) (control : Str) (cs : Dict Str (List (Num α))) :
    List (Str × Nat) → Comparisons α → Except Err (Comparisons α)
  | [], acc => .ok acc
  | (treatment, j) :: t, acc =>
    if control ≠ treatment then
      match scores.get? treatment with
      | none => .error .keyError
      | some ts =>
        match pairTest E test n maxP i j cs ts cs.keys [] with
        | .error e => .error e
        | .ok r => treatments E test n maxP scores i control cs t
            (FrozensetDict.setItem acc [control, treatment] r)
    else treatments E test n maxP scores i control cs t acc

/-- statistical_tests/__init__.py:68-86: the loop over the controls -/
def controls (E : Env α) (test : Str) (n : Nat) (maxP : α) (scores : Dict Str (Dict Str (List (Num α))))
    (names : List (Str × Nat)) :
    List (Str × Nat) → Comparisons α → Except Err (Comparisons α)
  | [], acc => .ok acc
  | (control, i) :: t, acc =>
    match scores.get? control with
    | none => .error .keyError
    | some cs =>
      match treatments E test n maxP scores i control cs names acc with
      | .error e => .error e
      | .ok acc => controls E test n maxP scores names t acc

/-- tukey_hsd_test.py:7-30 `tukey_hsd_test`: control, treatment and result for all ordered pairs -/
def tukeyTest (E : Env α) (names : List Str) (scores : List (List (Num α))) (maxP : α) :
    Except Err (List (Str × Str × Result α)) :=
  match E.tukey scores with
  | .error e => .error e
  | .ok p => .ok (names.zipIdx.flatMap (fun a => names.zipIdx.map (fun b =>
      (a.1, b.1, ⟨p a.2 b.2, leNum (p a.2 b.2) (.val maxP)⟩))))

/-- statistical_tests/__init__.py:91-95: `comparisons[{control, treatment}] = {m: None for m in metrics}`
for `treatment in model_names[i:]`.  Entries `None` are always overwritten below, so the initial value is
the empty dictionary. -/
def tukeyInit (names : List Str) : Comparisons α :=
  names.zipIdx.foldl (fun acc a => (names.drop a.2).foldl (fun acc b =>
    FrozensetDict.setItem acc [a.1, b] []) acc) []

/-- statistical_tests/__init__.py:105-109: `comparisons[control, treatment][m] = …` (the pair is always
there, see `tukeyInit`; a missing one is a KeyError, modelled as no effect) -/
def tukeyStore (m : Str) (acc : Comparisons α) (r : Str × Str × Result α) : Comparisons α :=
  match FrozensetDict.getItem acc [r.1, r.2.1] with
  | some d => FrozensetDict.setItem acc [r.1, r.2.1] (d.set m r.2.2)
  | none => acc

/-- statistical_tests/__init__.py:98: `[metric_scores[name][m] for name in model_names]` -/
def scoresFor (names : List Str) (scores : Dict Str (Dict Str (List (Num α)))) (m : Str) :
    Except Err (List (List (Num α))) :=
  collect (names.map (fun name =>
    match (scores.get? name).bind (fun d => d.get? m) with
    | some l => .ok l
    | none => .error .keyError))

/-- statistical_tests/__init__.py:97-109 -/
def tukeyAll (E : Env α) (names : List Str) (scores : Dict Str (Dict Str (List (Num α)))) (maxP : α) :
    List Str → Comparisons α → Except Err (Comparisons α)
  | [], acc => .ok acc
  | m :: ms, acc =>
    match scoresFor names scores m with
    | .error e => .error e
    | .ok sc =>
      match tukeyTest E names sc maxP with
      | .error e => .error e
      | .ok res => tukeyAll E names scores maxP ms (res.foldl (tukeyStore m) acc)

/-- statistical_tests/__init__.py:56-114 `compute_statistical_significance`. -/
def significance (E : Env α) (names : List Str) (scores : Dict Str (Dict Str (List (Num α))))
    (test : Str) (n : Nat) (maxP : α) : Except Err (Comparisons α) :=
  if test = "fisher".toList ∨ test = "student".toList then
    controls E test n maxP scores names.zipIdx names.zipIdx []
  else if test = "tukey".toList then
    match names with
    | [] => .error .indexError
    | first :: _ =>
      match scores.get? first with
      | none => .error .keyError
      | some d => tukeyAll E names scores maxP d.keys (tukeyInit names)
  else .error .notImplemented

end
end Stat
end Ranx
