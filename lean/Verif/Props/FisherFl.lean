import Verif.Model.StatsFl
import Verif.Props.Stats
import Verif.Props.MetricsFl
import Mathlib.Algebra.Order.Ring.Pow

/-!
# C139: Fisher's randomization test in floating point
-/

set_option linter.unusedSectionVars false

namespace Ranx
open Dict Eval Metrics Py Stat F64

namespace Spec

/-- the observed difference of the means, in exact arithmetic -/
def observedDiff (a b : List ℚ) : ℚ := |a.sum / a.length - b.sum / b.length|

/-- the difference of the means after swapping the queries chosen by `flip`, in exact arithmetic: the mean of the
differences with random signs -/
def sampleDiff (flip : Nat → Bool) (a b : List ℚ) : ℚ := |signedSum flip a b| / a.length

/-- how many of the `n` samples have an exact difference of at least `t` -/
def samplesAtLeast (coin : Nat → Nat → Bool) (n : Nat) (a b : List ℚ) (t : ℚ) : Nat :=
  ((List.range n).filter (fun i => decide (t ≤ sampleDiff (coin i) a b))).length

/-- scores of a metric: floats between 0 and 1 -/
def UnitFloats (l : List ℚ) : Prop := ∀ x ∈ l, 0 ≤ x ∧ x ≤ 1 ∧ fl x = x

/-- what rounding can do to a difference of two means of `N` scores, twice (observed and sampled) -/
def fisherMargin (N : Nat) : ℚ := (8 * N + 10) / 2 ^ 53

end Spec

namespace Stat.Rnd

/-- how many of the `n` samples are counted by the program -/
def counted (sumOut sumIn : List ℚ → ℚ) (coin : Nat → Nat → Bool) (n : Nat) (a b : List ℚ) : Nat :=
  ((List.range n).filter (fun i => decide (absMeanDiff fl sumOut a b ≤
    absMeanDiff fl sumIn ((permute (coin i) (a.zip b)).map Prod.fst) ((permute (coin i) (a.zip b)).map Prod.snd)))).length

end Stat.Rnd

open Stat.Rnd (absMeanDiff counted)

theorem fisherFl_eq {sumOut sumIn sumCnt : List ℚ → ℚ} (hc : Metrics.Rnd.IsSum fl sumCnt) (coin : Nat → Nat → Bool)
    (sched : List Nat) (a b : List ℚ) (n : Nat) (maxP : ℚ) (hlen : a.length = b.length) (hn : n ≤ 2 ^ 53)
    (hs : Schedule n sched) :
    Stat.Rnd.fisher fl sumOut sumIn sumCnt coin sched a b n maxP =
      .ok (fl ((counted sumOut sumIn coin n a b : ℚ) / n), decide (fl ((counted sumOut sumIn coin n a b : ℚ) / n) ≤ maxP)) := by
  unfold Stat.Rnd.fisher
  rw [if_neg (by simpa using hlen)]
  simp only
  rw [prange_eq _ _ _ (by simpa using hs)]
  generalize hl : (List.range (List.replicate n (0 : ℚ)).length).map _ = l
  have hl' : l = (List.range n).map (fun i => if decide (absMeanDiff fl sumOut a b ≤
    absMeanDiff fl sumIn ((Stat.Rnd.permute (coin i) (a.zip b)).map Prod.fst)
      ((Stat.Rnd.permute (coin i) (a.zip b)).map Prod.snd)) = true then (1 : ℚ) else 0) := by
    rw [← hl, List.length_replicate]
    refine List.map_congr_left (fun i _ => ?_)
    simp only [decide_eq_true_eq]
  have hlen : l.length = n := by rw [hl', List.length_map, List.length_range]
  have hp : Metrics.Rnd.mean fl sumCnt l = fl ((counted sumOut sumIn coin n a b : ℚ) / n) := by
    unfold Metrics.Rnd.mean
    rw [Metrics.Rnd.sum_bits rounding_fl hc l ?_ (by omega), hlen, rounding_fl.nat n hn]
    · congr 2
      rw [hl', sum_indicator]
      rfl
    · intro x hx
      rw [hl'] at hx
      obtain ⟨i, -, rfl⟩ := List.mem_map.1 hx
      split
      · exact Or.inr rfl
      · exact Or.inl rfl
  rw [hp]

theorem counted_le (sumOut sumIn : List ℚ → ℚ) (coin : Nat → Nat → Bool) (n : Nat) (a b : List ℚ) :
    counted sumOut sumIn coin n a b ≤ n := by
  unfold counted
  exact (List.length_filter_le _ _).trans (by simp)

/-- **C139** (range): for every way the means are added up, every draw and every schedule, the float p-value lies in
[0, 1]; `significant` is `p <= max_p`. -/
theorem C139_range {sumOut sumIn sumCnt : List ℚ → ℚ} (hc : Metrics.Rnd.IsSum fl sumCnt) (coin : Nat → Nat → Bool)
    (sched : List Nat) (a b : List ℚ) (n : Nat) (maxP : ℚ) (hlen : a.length = b.length) (hpos : 0 < n) (hn : n ≤ 2 ^ 53)
    (hs : Schedule n sched) :
    ∃ p, Stat.Rnd.fisher fl sumOut sumIn sumCnt coin sched a b n maxP = .ok (p, decide (p ≤ maxP)) ∧ 0 ≤ p ∧ p ≤ 1 := by
  refine ⟨_, fisherFl_eq hc coin sched a b n maxP hlen hn hs, ?_⟩
  have hn' : (0 : ℚ) < n := by exact_mod_cast hpos
  refine Metrics.Rnd.rnd_unit rounding_fl ⟨by positivity, ?_⟩
  rw [div_le_one hn']
  exact_mod_cast counted_le _ _ _ _ _ _

/-- **C139** (identical systems): equal scores give p = 1, exactly. -/
theorem C139_identical {sumOut sumIn sumCnt : List ℚ → ℚ} (hc : Metrics.Rnd.IsSum fl sumCnt) (coin : Nat → Nat → Bool)
    (sched : List Nat) (a : List ℚ) (n : Nat) (maxP : ℚ) (hpos : 0 < n) (hn : n ≤ 2 ^ 53) (hs : Schedule n sched) :
    Stat.Rnd.fisher fl sumOut sumIn sumCnt coin sched a a n maxP = .ok (1, decide (1 ≤ maxP)) := by
  rw [fisherFl_eq hc coin sched a a n maxP rfl hn hs]
  have : counted sumOut sumIn coin n a a = n := by
    unfold counted
    have e : absMeanDiff fl sumOut a a = 0 := by
      unfold absMeanDiff
      rw [sub_self, fl_zero, abs_zero]
    rw [e, List.filter_eq_self.2, List.length_range]
    intro i _
    rw [decide_eq_true_iff]
    exact abs_nonneg _
  have hn' : (n : ℚ) ≠ 0 := by exact_mod_cast hpos.ne'
  rw [this, div_self hn', fl_one]

theorem absMeanDiff_comm (sum : List ℚ → ℚ) (x y : List ℚ) : absMeanDiff fl sum x y = absMeanDiff fl sum y x := by
  unfold absMeanDiff
  rw [← abs_neg, ← fl_neg, neg_sub]

theorem permuteFl_eq (coin : Nat → Bool) (a b : List ℚ) : Stat.Rnd.permute coin (a.zip b) = swapRows coin 0 a b := rfl

theorem permuteFl_swap (coin : Nat → Bool) (a b : List ℚ) :
    Stat.Rnd.permute coin (b.zip a) = (Stat.Rnd.permute coin (a.zip b)).map Prod.swap := by
  unfold Stat.Rnd.permute
  rw [zip_swap_rows a b, List.zipIdx_map, List.map_map, List.map_map]
  apply List.map_congr_left
  intro r _
  obtain ⟨⟨x, y⟩, j⟩ := r
  simp only [Function.comp, Prod.map]
  by_cases h : coin j = true
  · simp [h]
  · simp [h]

/-- **C139** (symmetry): swapping the two systems changes neither p-value nor verdict, bit for bit (same draws). -/
theorem C139_symmetric (sumOut sumIn sumCnt : List ℚ → ℚ) (coin : Nat → Nat → Bool)
    (sched : List Nat) (a b : List ℚ) (n : Nat) (maxP : ℚ) :
    Stat.Rnd.fisher fl sumOut sumIn sumCnt coin sched a b n maxP =
      Stat.Rnd.fisher fl sumOut sumIn sumCnt coin sched b a n maxP := by
  unfold Stat.Rnd.fisher
  simp only [permuteFl_swap _ a b, List.map_map, absMeanDiff_comm sumOut b a]
  by_cases h : a.length = b.length
  · rw [if_neg (by simpa using h), if_neg (by simpa using h.symm)]
    have e : ∀ i, absMeanDiff fl sumIn ((Stat.Rnd.permute (coin i) (a.zip b)).map (Prod.fst ∘ Prod.swap))
        ((Stat.Rnd.permute (coin i) (a.zip b)).map (Prod.snd ∘ Prod.swap)) =
        absMeanDiff fl sumIn ((Stat.Rnd.permute (coin i) (a.zip b)).map Prod.fst)
        ((Stat.Rnd.permute (coin i) (a.zip b)).map Prod.snd) := by
      intro i
      rw [absMeanDiff_comm]
      rfl
    simp only [e]
  · rw [if_pos (by simpa using h), if_pos (by simpa using fun hc => h hc.symm)]

/-! ## the margin -/

theorem pow_upper {u : ℚ} (hu : 0 ≤ u) (hu1 : u ≤ 1) (m : Nat) (hm : m * u ≤ 1 / 2) : (1 + u) ^ m ≤ 1 + 2 * (m * u) := by
  have h1 : 1 - (m : ℚ) * u ≤ (1 - u) ^ m := by
    have := one_add_mul_le_pow (a := -u) (by linarith) m
    rw [← sub_eq_add_neg] at this
    linarith
  have h2 : (1 + u) ^ m * (1 - u) ^ m ≤ 1 := by
    rw [← mul_pow]
    refine pow_le_one₀ ?_ ?_
    · nlinarith
    · nlinarith
  have h3 : 0 ≤ (1 + u) ^ m := by positivity
  have h4 : (1 + u) ^ m * (1 - m * u) ≤ 1 := (mul_le_mul_of_nonneg_left h1 h3).trans h2
  have h5 : 0 ≤ (m : ℚ) * u := by positivity
  have h6 : 1 ≤ (1 + 2 * (m * u)) * (1 - m * u) := by nlinarith
  have h7 : 0 < 1 - (m : ℚ) * u := by linarith
  exact le_of_mul_le_mul_right (h4.trans h6) h7

theorem mean_unit' (l : List ℚ) (h : Spec.UnitFloats l) : 0 ≤ l.sum / l.length ∧ l.sum / l.length ≤ 1 := by
  have hs : 0 ≤ l.sum ∧ l.sum ≤ l.length := by
    induction l with
    | nil => simp
    | cons x t ih =>
      have h1 := ih (fun y hy => h y (List.mem_cons_of_mem _ hy))
      have h2 := h x List.mem_cons_self
      rw [List.sum_cons, List.length_cons]
      push_cast
      constructor <;> linarith [h1.1, h1.2, h2.1, h2.2.1]
  refine ⟨div_nonneg hs.1 (Nat.cast_nonneg _), ?_⟩
  exact div_le_one_of_le₀ hs.2 (Nat.cast_nonneg _)

theorem mean_near {sum : List ℚ → ℚ} (hs : Metrics.Rnd.IsSum fl sum) (l : List ℚ) (h : Spec.UnitFloats l)
    (hn : l.length < 2 ^ 52) : |Metrics.Rnd.mean fl sum l - l.sum / l.length| ≤ 2 * (l.length + 1) / 2 ^ 53 := by
  obtain ⟨h1, h2⟩ := Metrics.Rnd.mean_err rounding_fl fl_err hs l (fun x hx => ⟨(h x hx).1, (h x hx).2.2⟩)
    (hn.le.trans (by norm_num))
  change (1 - 1 / 2 ^ 53 : ℚ) ^ (l.length + 1) * _ ≤ _ at h1
  change _ ≤ (1 + 1 / 2 ^ 53 : ℚ) ^ (l.length + 1) * _ at h2
  have hk : 0 ≤ ((l.length : ℚ) + 1) * (1 / 2 ^ 53) := by positivity
  obtain ⟨m0, m1⟩ := mean_unit' l h
  have hu : (l.length + 1 : Nat) * (1 / 2 ^ 53 : ℚ) ≤ 1 / 2 := by
    have : ((l.length + 1 : Nat) : ℚ) ≤ 2 ^ 52 := by exact_mod_cast hn
    calc ((l.length + 1 : Nat) : ℚ) * (1 / 2 ^ 53) ≤ 2 ^ 52 * (1 / 2 ^ 53) := by
          exact mul_le_mul_of_nonneg_right this (by norm_num)
      _ = 1 / 2 := by norm_num
  have hup := pow_upper (u := 1 / 2 ^ 53) (by norm_num) (by norm_num) (l.length + 1) hu
  have hlo : 1 - ((l.length + 1 : Nat) : ℚ) * (1 / 2 ^ 53) ≤ (1 - 1 / 2 ^ 53) ^ (l.length + 1) := by
    have := one_add_mul_le_pow (a := -(1 / 2 ^ 53 : ℚ)) (by norm_num) (l.length + 1)
    rw [← sub_eq_add_neg] at this
    linarith
  generalize Metrics.Rnd.mean fl sum l = x at *
  generalize l.sum / l.length = m at *
  generalize (1 + 1 / 2 ^ 53 : ℚ) ^ (l.length + 1) = p at *
  generalize (1 - 1 / 2 ^ 53 : ℚ) ^ (l.length + 1) = r at *
  push_cast at *
  generalize (l.length : ℚ) + 1 = k at *
  have e : 2 * k / 2 ^ 53 = 2 * (k * (1 / 2 ^ 53)) := by ring
  rw [e]
  generalize k * (1 / 2 ^ 53) = v at *
  rw [abs_le]
  constructor <;> nlinarith

theorem absMeanDiff_near {sum : List ℚ → ℚ} (hs : Metrics.Rnd.IsSum fl sum) (x y : List ℚ) (hx : Spec.UnitFloats x)
    (hy : Spec.UnitFloats y) (hlen : x.length = y.length) (hn : x.length < 2 ^ 52) (hne : x ≠ []) :
    |absMeanDiff fl sum x y - Spec.observedDiff x y| ≤ (4 * x.length + 5) / 2 ^ 53 := by
  have h1 := abs_le.1 (mean_near hs x hx hn)
  have h2 := abs_le.1 (mean_near hs y hy (by omega))
  have hyne : y ≠ [] := by
    intro e
    rw [e] at hlen
    exact hne (List.length_eq_zero_iff.1 hlen)
  have u1 := Metrics.Rnd.mean_unit rounding_fl hs x (fun z hz => ⟨(hx z hz).1, (hx z hz).2.1⟩) (by omega) hne
  have u2 := Metrics.Rnd.mean_unit rounding_fl hs y (fun z hz => ⟨(hy z hz).1, (hy z hz).2.1⟩) (by omega) hyne
  unfold absMeanDiff Spec.observedDiff
  rw [← hlen] at h2 ⊢
  generalize Metrics.Rnd.mean fl sum x = p at *
  generalize Metrics.Rnd.mean fl sum y = r at *
  generalize x.sum / x.length = p' at *
  generalize y.sum / x.length = r' at *
  have h3 : |fl (p - r) - (p - r)| ≤ 1 / 2 ^ 53 := by
    refine (fl_err (p - r)).trans ?_
    have : |p - r| ≤ 1 := by rw [abs_le]; constructor <;> linarith
    exact div_le_div_of_nonneg_right this (by norm_num)
  have h3' := abs_le.1 h3
  refine (abs_abs_sub_abs_le _ _).trans ?_
  have e : (4 * (x.length : ℚ) + 5) / 2 ^ 53 = 2 * (x.length + 1) / 2 ^ 53 + 2 * (x.length + 1) / 2 ^ 53 + 1 / 2 ^ 53 := by ring
  rw [e]
  generalize fl (p - r) = w at *
  generalize 2 * ((x.length : ℚ) + 1) / 2 ^ 53 = v at *
  rw [abs_le]
  constructor <;> linarith [h1.1, h1.2, h2.1, h2.2, h3'.1, h3'.2]

theorem swapRows_unit (coin : Nat → Bool) (a b : List ℚ) (ha : Spec.UnitFloats a) (hb : Spec.UnitFloats b) :
    Spec.UnitFloats ((swapRows coin 0 a b).map Prod.fst) ∧ Spec.UnitFloats ((swapRows coin 0 a b).map Prod.snd) := by
  have key : ∀ r ∈ swapRows coin 0 a b, (r.1 ∈ a ∨ r.1 ∈ b) ∧ (r.2 ∈ a ∨ r.2 ∈ b) := by
    intro r hr
    obtain ⟨s, hs, rfl⟩ := List.mem_map.1 hr
    have hm := List.of_mem_zip (List.fst_mem_of_mem_zipIdx hs)
    split
    · exact ⟨Or.inr hm.2, Or.inl hm.1⟩
    · exact ⟨Or.inl hm.1, Or.inr hm.2⟩
  constructor
  · intro x hx
    obtain ⟨r, hr, rfl⟩ := List.mem_map.1 hx
    exact (key r hr).1.elim (ha _) (hb _)
  · intro x hx
    obtain ⟨r, hr, rfl⟩ := List.mem_map.1 hx
    exact (key r hr).2.elim (ha _) (hb _)

theorem sample_near {sum : List ℚ → ℚ} (hs : Metrics.Rnd.IsSum fl sum) (coin : Nat → Bool) (a b : List ℚ)
    (ha : Spec.UnitFloats a) (hb : Spec.UnitFloats b) (hlen : a.length = b.length) (hn : a.length < 2 ^ 52) (hne : a ≠ []) :
    |absMeanDiff fl sum ((Stat.Rnd.permute coin (a.zip b)).map Prod.fst) ((Stat.Rnd.permute coin (a.zip b)).map Prod.snd) -
      Spec.sampleDiff coin a b| ≤ (4 * a.length + 5) / 2 ^ 53 := by
  rw [permuteFl_eq]
  have hl := swapRows_length coin 0 a b hlen
  obtain ⟨u1, u2⟩ := swapRows_unit coin a b ha hb
  have := absMeanDiff_near hs _ _ u1 u2 (by simp) (by rw [List.length_map, hl]; exact hn) (by
    intro e
    rw [List.map_eq_nil_iff] at e
    rw [e] at hl
    exact hne (List.length_eq_zero_iff.1 hl.symm))
  unfold Spec.observedDiff at this
  rw [List.length_map, List.length_map, hl, ← sub_div, swapRows_diff coin 0 a b hlen, abs_div,
    abs_of_nonneg (a := (a.length : ℚ)) (Nat.cast_nonneg _)] at this
  exact this

/-- **C139** (accuracy): for metric scores in [0, 1], the float p-value is, rounded once, a fraction whose numerator
lies between the number of samples that exceed the observed difference by `(8 N + 10) / 2^53` and the number of those
that fall short of it by at most that: only samples that tie, or nearly tie, with the observed difference can be counted
wrongly. -/
theorem C139_margin {sumOut sumIn sumCnt : List ℚ → ℚ} (ho : Metrics.Rnd.IsSum fl sumOut) (hi : Metrics.Rnd.IsSum fl sumIn)
    (hc : Metrics.Rnd.IsSum fl sumCnt) (coin : Nat → Nat → Bool) (sched : List Nat) (a b : List ℚ) (n : Nat) (maxP : ℚ)
    (ha : Spec.UnitFloats a) (hb : Spec.UnitFloats b) (hlen : a.length = b.length) (hN : a.length < 2 ^ 52) (hne : a ≠ [])
    (hn : n ≤ 2 ^ 53) (hs : Schedule n sched) :
    ∃ c : Nat, Stat.Rnd.fisher fl sumOut sumIn sumCnt coin sched a b n maxP =
        .ok (fl ((c : ℚ) / n), decide (fl ((c : ℚ) / n) ≤ maxP)) ∧
      Spec.samplesAtLeast coin n a b (Spec.observedDiff a b + Spec.fisherMargin a.length) ≤ c ∧
      c ≤ Spec.samplesAtLeast coin n a b (Spec.observedDiff a b - Spec.fisherMargin a.length) := by
  refine ⟨_, fisherFl_eq hc coin sched a b n maxP hlen hn hs, ?_, ?_⟩
  all_goals
    unfold Spec.samplesAtLeast counted
    simp only [← List.countP_eq_length_filter]
    refine List.countP_mono_left (fun i _ h => ?_)
    rw [decide_eq_true_iff] at h ⊢
    have h1 := abs_le.1 (absMeanDiff_near ho a b ha hb hlen hN hne)
    have h2 := abs_le.1 (sample_near hi (coin i) a b ha hb hlen hN hne)
    unfold Spec.fisherMargin at *
    have e : (8 * (a.length : ℚ) + 10) / 2 ^ 53 = 2 * ((4 * a.length + 5) / 2 ^ 53) := by ring
    rw [e] at *
    linarith [h1.1, h1.2, h2.1, h2.2]

/-- **C139** (no near ties): if no sample comes within `(8 N + 10) / 2^53` of the observed difference, except those
beyond it, the float p-value is the exact p-value, rounded once. -/
theorem C139_no_near_ties_partial {sumOut sumIn sumCnt : List ℚ → ℚ} (ho : Metrics.Rnd.IsSum fl sumOut)
    (hi : Metrics.Rnd.IsSum fl sumIn) (hc : Metrics.Rnd.IsSum fl sumCnt) (coin : Nat → Nat → Bool) (sched : List Nat)
    (a b : List ℚ) (n : Nat) (maxP : ℚ) (ha : Spec.UnitFloats a) (hb : Spec.UnitFloats b) (hlen : a.length = b.length)
    (hN : a.length < 2 ^ 52) (hne : a ≠ []) (hn : n ≤ 2 ^ 53) (hs : Schedule n sched)
    (hties : ∀ i < n, Spec.fisherMargin a.length < |Spec.sampleDiff (coin i) a b - Spec.observedDiff a b|) :
    Stat.Rnd.fisher fl sumOut sumIn sumCnt coin sched a b n maxP =
      .ok (fl ((Spec.atLeastObserved coin n a b : ℚ) / n), decide (fl ((Spec.atLeastObserved coin n a b : ℚ) / n) ≤ maxP)) := by
  obtain ⟨c, h1, h2, h3⟩ := C139_margin ho hi hc coin sched a b n maxP ha hb hlen hN hne hn hs
  have hpos : (0 : ℚ) < a.length := by exact_mod_cast List.length_pos_of_ne_nil hne
  have hm : 0 ≤ Spec.fisherMargin a.length := by unfold Spec.fisherMargin; positivity
  have hobs : Spec.observedDiff a b = |Spec.signedSum (fun _ => false) a b| / a.length := by
    unfold Spec.observedDiff
    have e : Spec.signedSum (fun _ => false) a b = a.sum - b.sum := by
      have := swapRows_diff (fun _ => false) 0 a b hlen
      rw [← this]
      have h0 : swapRows (fun _ => false) 0 a b = a.zip b := by simp [swapRows]
      rw [h0, List.map_fst_zip (by omega), List.map_snd_zip (by omega)]
    rw [e, ← hlen, ← sub_div, abs_div, abs_of_nonneg hpos.le]
  have e1 : ∀ t, |t| ≤ Spec.fisherMargin a.length →
      Spec.samplesAtLeast coin n a b (Spec.observedDiff a b + t) = Spec.atLeastObserved coin n a b := by
    intro t ht
    unfold Spec.samplesAtLeast Spec.atLeastObserved
    simp only [← List.countP_eq_length_filter]
    refine List.countP_congr (fun i hi' => ?_)
    have hlt := hties i (List.mem_range.1 hi')
    have ht' := abs_le.1 ht
    rw [decide_eq_true_iff, decide_eq_true_iff]
    have e2 : |Spec.signedSum (fun _ => false) a b| ≤ |Spec.signedSum (coin i) a b| ↔
        Spec.observedDiff a b ≤ Spec.sampleDiff (coin i) a b := by
      rw [hobs, Spec.sampleDiff, div_le_div_iff_of_pos_right hpos]
    rw [e2]
    rcases lt_abs.1 hlt with h | h
    · constructor <;> intro _ <;> linarith
    · constructor <;> intro _ <;> linarith
  have h2' := e1 (Spec.fisherMargin a.length) (le_of_eq (abs_of_nonneg hm))
  have h3' := e1 (-Spec.fisherMargin a.length) (by rw [abs_neg, abs_of_nonneg hm])
  rw [← sub_eq_add_neg] at h3'
  have : c = Spec.atLeastObserved coin n a b := by omega
  rw [h1, this]

/-- **C139** (the observed assignment): if the same routine adds up all columns, a sample in which no query is swapped,
or every query is, is counted: the p-value is never 0 when such a sample is drawn. -/
theorem C139_observed_counts {sum sumCnt : List ℚ → ℚ} (hc : Metrics.Rnd.IsSum fl sumCnt) (coin : Nat → Nat → Bool)
    (sched : List Nat) (a b : List ℚ) (n : Nat) (maxP : ℚ) (hlen : a.length = b.length) (hn : n ≤ 2 ^ 53)
    (hs : Schedule n sched) (i : Nat) (hi : i < n)
    (h : (∀ j < a.length, coin i j = false) ∨ ∀ j < a.length, coin i j = true) :
    ∃ p, Stat.Rnd.fisher fl sum sum sumCnt coin sched a b n maxP = .ok (p, decide (p ≤ maxP)) ∧ 0 < p := by
  refine ⟨_, fisherFl_eq hc coin sched a b n maxP hlen hn hs, ?_⟩
  have hn' : (0 : ℚ) < n := by exact_mod_cast (Nat.zero_lt_of_lt hi)
  have hcnt : 0 < counted sum sum coin n a b := by
    unfold counted
    refine List.length_pos_of_mem (a := i) (List.mem_filter.2 ⟨List.mem_range.2 hi, ?_⟩)
    rw [decide_eq_true_iff]
    have hz : ∀ c : Bool, (∀ j < a.length, coin i j = c) →
        Stat.Rnd.permute (coin i) (a.zip b) = if c then b.zip a else a.zip b := by
      intro c hcj
      have e : Stat.Rnd.permute (coin i) (a.zip b) = (a.zip b).map (fun r => if c then (r.2, r.1) else r) := by
        unfold Stat.Rnd.permute
        conv_rhs => rw [← List.zipIdx_map_fst 0 (a.zip b), List.map_map]
        refine List.map_congr_left (fun r hr => ?_)
        have hlt := List.mem_zipIdx hr
        rw [List.length_zip, hlen, Nat.min_self] at hlt
        rw [hcj r.2 (by omega)]
        rfl
      rw [e]
      cases c with
      | false => simp
      | true => rw [if_pos rfl, zip_swap_rows a b]; rfl
    rcases h with h | h
    · rw [hz false h, if_neg (by decide), List.map_fst_zip (by omega), List.map_snd_zip (by omega)]
    · rw [hz true h, if_pos rfl, List.map_fst_zip (by omega), List.map_snd_zip (by omega), absMeanDiff_comm]
  exact fl_pos (div_pos (by exact_mod_cast hcnt) hn')

/-- **C139** (ties are missed): the P@5 scores of three queries, 0, 0.8, 0.2 for one system and 0.2, 0.2, 0.8 for the
other. Swapping the last two queries leaves the difference of the means unchanged, so every such sample ties with the
observed difference and counts: the exact p-value is 1. In float64 the two sums round differently, no such sample is
counted: the reported p-value is 0 and the difference is called significant. -/
theorem C139_ties_refuted :
    ∃ a b : List ℚ, Spec.UnitFloats a ∧ Spec.UnitFloats b ∧ a = [fl 0, fl (4 / 5), fl (1 / 5)] ∧
      b = [fl (1 / 5), fl (1 / 5), fl (4 / 5)] ∧
      Stat.fisher (fun _ j => decide (1 ≤ j)) (List.range 10) (a.map .val) (b.map .val) 10 (1 / 100) = .ok ⟨.val 1, false⟩ ∧
      Stat.Rnd.fisher fl F64.sum F64.sum F64.sum (fun _ j => decide (1 ≤ j)) (List.range 10) a b 10 (1 / 100) =
        .ok (0, true) := by
  refine ⟨_, _, ?_, ?_, rfl, rfl, ?_, ?_⟩
  · unfold Spec.UnitFloats; decide +kernel
  · unfold Spec.UnitFloats; decide +kernel
  · decide +kernel
  · decide +kernel

/-- non-vacuity of C139_margin, C139_no_near_ties_partial: two systems, two queries, two samples, neither a near tie -/
example : Spec.UnitFloats [1, 1 / 2] ∧ Spec.UnitFloats [1 / 2, 1 / 2 ^ 10] ∧
    (∀ i < 2, Spec.fisherMargin 2 <
      |Spec.sampleDiff (fun j => decide (j = i)) [1, 1 / 2] [1 / 2, 1 / 2 ^ 10] - Spec.observedDiff [1, 1 / 2] [1 / 2, 1 / 2 ^ 10]|) ∧
    Stat.Rnd.fisher fl F64.sum F64.sum F64.sum (fun i j => decide (j = i)) [1, 0] [1, 1 / 2] [1 / 2, 1 / 2 ^ 10] 2 (1 / 100) =
      .ok (0, true) := by
  refine ⟨?_, ?_, ?_, ?_⟩
  · unfold Spec.UnitFloats; decide +kernel
  · unfold Spec.UnitFloats; decide +kernel
  · decide +kernel
  · decide +kernel

/-- `F64.sum` is a sum in the sense of the theorems -/
example : Metrics.Rnd.IsSum fl F64.sum := C82_float64.2.2.2.1

end Ranx
