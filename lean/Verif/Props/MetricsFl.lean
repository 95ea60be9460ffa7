import Verif.Lemmas.MetricsFl2
import Verif.Props.EndToEnd

/-!
# Properties C81 and C82: float64 doc ids and float64 arithmetic

`Spec.Rounding rnd` is what is required of the rounding; `C82_float64` shows float64 meets it.
`sum` is `np.sum`, in any order of its additions (`Rnd.IsSum`).
-/

set_option linter.unusedSectionVars false

namespace Ranx
open Metrics F64
variable {ι : Type*} [LinearOrder ι]

/-- **C82**: `float64` (round to nearest, ties to even) and exact arithmetic are roundings, the error of one
float64 operation is at most one part in 2^53, and adding up an array from left to right is an admitted
order of summation. -/
theorem C82_float64 : Spec.Rounding fl ∧ Spec.Rounding id ∧ (∀ x, |fl x - x| ≤ |x| / 2 ^ 53) ∧
    Rnd.IsSum fl F64.sum ∧ ∀ rnd, Rnd.IsSum rnd (fun l => l.foldl (fun a x => rnd (a + x)) 0) :=
  ⟨rounding_fl, rounding_id, fl_err, Rnd.sequential_isSum fl, Rnd.sequential_isSum⟩

/-- **C82**: hits is exact; precision, recall, r-precision and reciprocal rank are the exact values of
C11, C12, C14, C15 rounded once. -/
theorem C82_correctly_rounded {rnd : ℚ → ℚ} (R : Spec.Rounding rnd) (q run : Rows ι ℚ) (k : ℕ) (lvl : ℚ)
    (hr : run.length ≤ 2 ^ 53) (hq : q.length ≤ 2 ^ 53) (hk : k ≤ 2 ^ 53) :
    Rnd.hits rnd q run k lvl = Spec.hits (Spec.Rel q lvl) (ids run) k ∧
    (k ≠ 0 → Rnd.precision rnd q run k lvl = rnd ((Spec.hits (Spec.Rel q lvl) (ids run) k : ℚ) / k)) ∧
    (run ≠ [] → Rnd.precision rnd q run 0 lvl =
      rnd ((Spec.hits (Spec.Rel q lvl) (ids run) 0 : ℚ) / run.length)) ∧
    (Spec.numRel q lvl ≠ 0 → Rnd.recall rnd q run k lvl =
      rnd ((Spec.hits (Spec.Rel q lvl) (ids run) k : ℚ) / Spec.numRel q lvl)) ∧
    (Spec.numRel q lvl ≠ 0 → Rnd.rPrecision rnd q run lvl =
      rnd ((Spec.relIn (Spec.Rel q lvl) (ids run) (Spec.numRel q lvl) : ℚ) / Spec.numRel q lvl)) ∧
    Rnd.reciprocalRank rnd q run k lvl = rnd (reciprocalRank q run k lvl) := by
  refine ⟨?_, fun h => ?_, fun h => ?_, fun h => ?_, fun h => ?_, Rnd.reciprocalRank_rounded R _ _ _ _ hr⟩
  · rw [Rnd.hits_exact R _ _ _ _ hr, C09_hits]
  · rw [Rnd.precision_rounded R _ _ _ _ hr hk, (C11_precision q run k lvl).1 h]
  · rw [Rnd.precision_rounded R _ _ _ _ hr (by norm_num), (C11_precision q run 0 lvl).2.1 h]
  · rw [Rnd.recall_rounded R _ _ _ _ hr hq, (C12_recall q run k lvl).1 h]
  · rw [Rnd.rPrecision_rounded R _ _ _ hr hq, ((C14_r_precision q run lvl).2 h).2]

/-- **C82**: the float values lie in [0, 1]; as with exact arithmetic (C22), recall, f1, average precision
and bpref need a run without repeated docs. -/
theorem C82_ranges {rnd : ℚ → ℚ} (R : Spec.Rounding rnd) {sum : List ℚ → ℚ} (hs : Rnd.IsSum rnd sum)
    (cutoff : ℕ → ℕ → ℕ) (q run : Rows ι ℚ) (k : ℕ) (lvl : ℚ)
    (hr : run.length ≤ 2 ^ 53) (hq : q.length ≤ 2 ^ 53) (hk : k ≤ 2 ^ 53) :
    (0 ≤ Rnd.precision rnd q run k lvl ∧ Rnd.precision rnd q run k lvl ≤ 1) ∧
    (0 ≤ Rnd.rPrecision rnd q run lvl ∧ Rnd.rPrecision rnd q run lvl ≤ 1) ∧
    (0 ≤ Rnd.reciprocalRank rnd q run k lvl ∧ Rnd.reciprocalRank rnd q run k lvl ≤ 1) ∧
    (∀ x ∈ Rnd.interpolatedPrecision rnd sum cutoff q run lvl, 0 ≤ x ∧ x ≤ 1) ∧
    ((ids run).Nodup →
      (0 ≤ Rnd.recall rnd q run k lvl ∧ Rnd.recall rnd q run k lvl ≤ 1) ∧
      (0 ≤ Rnd.f1 rnd q run k lvl ∧ Rnd.f1 rnd q run k lvl ≤ 1) ∧
      (0 ≤ Rnd.averagePrecision rnd sum q run k lvl ∧ Rnd.averagePrecision rnd sum q run k lvl ≤ 1) ∧
      (∀ v, Rnd.bpref rnd sum q run lvl = .ok (.val v) → 0 ≤ v ∧ v ≤ 1)) := by
  have hP := C22_ranges_any_run q run k lvl
  refine ⟨?_, ?_, ?_, Rnd.interpolated_unit R hs cutoff q run lvl hr, fun hrun => ⟨?_, ?_, ?_, ?_⟩⟩
  · rw [Rnd.precision_rounded R _ _ _ _ hr hk]; exact Rnd.rnd_unit R hP.2.2.1
  · rw [Rnd.rPrecision_rounded R _ _ _ hr hq]
    refine Rnd.rnd_unit R ?_
    first | exact hP.2.2.2.1 | exact hP.2.2.2.2 | exact hP.2.2.2.2.1
  · rw [Rnd.reciprocalRank_rounded R _ _ _ _ hr]
    refine Rnd.rnd_unit R ?_
    first | exact hP.2.2.2.1 | exact hP.2.2.2.2 | exact hP.2.2.2.2.1
  · rw [Rnd.recall_rounded R _ _ _ _ hr hq]; exact Rnd.rnd_unit R (C22_ranges q run hrun k lvl).1
  · exact Rnd.f1_unit R q run k lvl hrun hr hq hk
  · exact Rnd.averagePrecision_unit R hs q run k lvl hrun hr hq
  · intro v hv; exact Rnd.bpref_unit R hs q run lvl hrun hq hv

/-- **C82**: the mean over the queries of values in [0, 1] lies in [0, 1]. -/
theorem C82_mean_range {rnd : ℚ → ℚ} (R : Spec.Rounding rnd) {sum : List ℚ → ℚ} (hs : Rnd.IsSum rnd sum)
    (l : List ℚ) (h : ∀ x ∈ l, 0 ≤ x ∧ x ≤ 1) (hn : l.length ≤ 2 ^ 53) (hne : l ≠ []) :
    0 ≤ Rnd.mean rnd sum l ∧ Rnd.mean rnd sum l ≤ 1 :=
  Rnd.mean_unit R hs l h hn hne

/-- **C82**: in float64, average precision and the mean over the queries agree with the exact values up to a
relative error of about (number of docs + 2)·2^-53 and (number of queries + 1)·2^-53, whatever the order in
which `np.sum` adds. -/
theorem C82_relative_error {sum : List ℚ → ℚ} (hs : Rnd.IsSum fl sum) (q run : Rows ι ℚ) (k : ℕ) (lvl : ℚ)
    (hr : run.length ≤ 2 ^ 53) (hq : q.length ≤ 2 ^ 53) (scores : List ℚ)
    (h : ∀ x ∈ scores, 0 ≤ x ∧ fl x = x) (hn : scores.length ≤ 2 ^ 53) :
    ((1 - 1 / 2 ^ 53) ^ (run.length + 2) * averagePrecision q run k lvl ≤
        Rnd.averagePrecision fl sum q run k lvl ∧
      Rnd.averagePrecision fl sum q run k lvl ≤
        (1 + 1 / 2 ^ 53) ^ (run.length + 2) * averagePrecision q run k lvl) ∧
    ((1 - 1 / 2 ^ 53) ^ (scores.length + 1) * (scores.sum / scores.length) ≤ Rnd.mean fl sum scores ∧
      Rnd.mean fl sum scores ≤ (1 + 1 / 2 ^ 53) ^ (scores.length + 1) * (scores.sum / scores.length)) :=
  ⟨Rnd.averagePrecision_err rounding_fl fl_err hs q run k lvl hr hq,
    Rnd.mean_err rounding_fl fl_err hs scores h hn⟩

/-- Non-vacuity: the kernels on the query of `Props/Metrics.lean` in float64. `2/3` and `1/3` are rounded. -/
example : exRun.length ≤ 2 ^ 53 ∧ exQ.length ≤ 2 ^ 53 ∧ (ids exRun).Nodup ∧
    Rnd.precision fl exQ exRun 4 1 = 1 / 2 ∧ Rnd.recall fl exQ exRun 4 1 = fl (2 / 3) ∧
    fl (2 / 3) = 6004799503160661 / 2 ^ 53 ∧
    Rnd.averagePrecision fl F64.sum exQ exRun 0 1 = fl (1 / 3) ∧
    Rnd.f1 fl exQ exRun 5 1 = 1 / 2 := by decide +kernel

/-- the order of summation does show: three float64 scores whose mean depends on it, by one ulp -/
theorem C82_order_shows : Rnd.mean fl F64.sum [fl (1 / 10), fl (2 / 10), fl (3 / 10)] ≠
    Rnd.mean fl F64.sum [fl (3 / 10), fl (2 / 10), fl (1 / 10)] := by decide +kernel

/-! ## C81 -/

/-- **C81** (part): hashes up to 2^53 stay distinct in float64; 64-bit hashes that differ by more than 1024
do too. -/
theorem C81_distinct_hashes_partial (a b : ℤ) :
    (|a| ≤ 2 ^ 53 → |b| ≤ 2 ^ 53 → fl a = fl b → a = b) ∧
    (|a| ≤ 2 ^ 63 → |b| ≤ 2 ^ 63 → 1024 < |a - b| → fl a ≠ fl b) := by
  constructor
  · intro ha hb h
    rw [fl_int a ha, fl_int b hb] at h
    exact_mod_cast h
  · intro ha hb hab h
    have e1 := fl_int64_err a ha
    have e2 := fl_int64_err b hb
    rw [h] at e1
    have hc : (1024 : ℚ) < |(a : ℚ) - b| := by
      have : ((1024 : ℤ) : ℚ) < ((|a - b| : ℤ) : ℚ) := by exact_mod_cast hab
      rw [Int.cast_abs] at this
      push_cast at this
      exact this
    have h3 : |(a : ℚ) - b| ≤ |fl (b : ℚ) - b| + |fl (b : ℚ) - a| := by
      have := abs_sub (fl (b : ℚ) - b) (fl (b : ℚ) - a)
      rwa [show fl (b : ℚ) - b - (fl (b : ℚ) - a) = a - b by ring] at this
    linarith

/-- **C81** (part): if the 64-bit hashes of any two docs of a query differ by more than 1024, no judged doc
of that query is mistaken for another judged or retrieved one. -/
theorem C81_no_confusion_partial {κ δ α : Type*} [LinearOrder κ] [DecidableEq δ] [Field α] [LinearOrder α]
    (pyHash : δ → ℤ) (s : Store κ δ Int) (r : Store κ δ α) (q : κ)
    (hrange : ∀ d, |pyHash d| ≤ 2 ^ 63)
    (hgap : ∀ d d' v, (Spec.content s).read q d = some v →
      ((∃ v', (Spec.content s).read q d' = some v') ∨ (∃ v', (Spec.content r).read q d' = some v')) →
      d ≠ d' → 1024 < |pyHash d - pyHash d'|) :
    Spec.NoCollision (fun d => fl (pyHash d)) s r q := by
  intro d d' v hv hd' h
  by_contra hne
  exact (C81_distinct_hashes_partial _ _).2 (hrange d) (hrange d') (hgap d d' v hv hd' hne) h

/-- the judged doc has hash 2^53, the retrieved one 2^53 + 1 -/
def exClashQrels : Store Nat Nat Int := ⟨[(1, [(9007199254740992, 1)])], true⟩
/-- see `exClashQrels` -/
def exClashRun : Eval.RunObj Nat Nat ℚ := { exRunObj with store := ⟨[(1, [(9007199254740993, 5)])], true⟩ }

/-- **C81** is false: two docs with different hashes, the retrieved one not judged at all, and
`evaluate` reports a precision of 1; with hashes kept as integers it reports 0. -/
theorem C81_hash_collision_refuted :
    ((9007199254740992 : ℤ) ≠ 9007199254740993 ∧ fl (9007199254740992 : ℤ) = fl (9007199254740993 : ℤ)) ∧
    (Eval.evaluate (ι := ℚ) ratFn (fun _ => .error .valueError) (ArgSort.stable Int) (ArgSort.stable ℚ)
      (fun n : Nat => fl ((n : ℤ) : ℚ)) (fun _ => [0]) { returnMean := false } (.obj exClashQrels)
      (.obj exClashRun) ["precision".toList]).2 = .ok (.single (.scores [.val 1])) ∧
    (Eval.evaluate (ι := ℤ) ratFn (fun _ => .error .valueError) (ArgSort.stable Int) (ArgSort.stable ℚ)
      (fun n : Nat => (n : ℤ)) (fun _ => [0]) { returnMean := false } (.obj exClashQrels)
      (.obj exClashRun) ["precision".toList]).2 = .ok (.single (.scores [.val 0])) := by
  refine ⟨by decide +kernel, ?_, ?_⟩ <;> decide +kernel

end Ranx
