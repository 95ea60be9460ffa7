import Verif.Model.NormFl
import Verif.Lemmas.Norm
import Verif.Lemmas.Float64
import Verif.Props.Norm
import Verif.Props.Format

/-!
# Property C95: normalization in float64

`fl` rounds to the nearest float64. The exact functions are those of C39 – C47.
-/

set_option linter.unusedSectionVars false

namespace Ranx
open Dict Norm F64
variable {δ : Type*} [DecidableEq δ]

/-- `a'` is `a` up to one rounding error -/
def F64.Near (a a' : ℚ) : Prop := a * (1 - 1 / 2 ^ 53) ≤ a' ∧ a' ≤ a * (1 + 1 / 2 ^ 53)

theorem F64.near_fl {a : ℚ} (h : 0 ≤ a) : Near a (fl a) := by
  obtain ⟨h1, h2⟩ := abs_le.1 (fl_rel a h)
  constructor <;> linarith

theorem F64.near_self {a : ℚ} (h : 0 ≤ a) : Near a a := by
  constructor
  · nlinarith [show (0 : ℚ) ≤ a * (1 / 2 ^ 53) by positivity]
  · nlinarith [show (0 : ℚ) ≤ a * (1 / 2 ^ 53) by positivity]

theorem F64.near_max {a a' b b' : ℚ} (h : Near a a') (h' : Near b b') : Near (max a b) (max a' b') := by
  have c1 : (0 : ℚ) ≤ 1 - 1 / 2 ^ 53 := by norm_num
  have c2 : (0 : ℚ) ≤ 1 + 1 / 2 ^ 53 := by norm_num
  constructor
  · rw [max_mul_of_nonneg _ _ c1]
    exact max_le_max h.1 h'.1
  · rw [max_mul_of_nonneg _ _ c2]
    exact max_le_max h.2 h'.2

/-- a rounded quotient of two rounded numbers -/
theorem F64.fl_quot {a a' b b' : ℚ} (ha : 0 ≤ a) (hb : 0 < b) (h : Near a a') (h' : Near b b') :
    |fl (a' / b') - a / b| ≤ 4 / 2 ^ 53 * (a / b) := by
  have c1 : (0 : ℚ) < 1 - 1 / 2 ^ 53 := by norm_num
  have hb' : 0 < b' := lt_of_lt_of_le (mul_pos hb c1) h'.1
  have ha' : 0 ≤ a' := le_trans (mul_nonneg ha c1.le) h.1
  have hq : 0 ≤ a / b := div_nonneg ha hb.le
  have hab : a = a / b * b := (div_mul_cancel₀ a hb.ne').symm
  generalize hqe : a / b = q at *
  have hup : a' / b' ≤ q * ((1 + 1 / 2 ^ 53) / (1 - 1 / 2 ^ 53)) := by
    rw [div_le_iff₀ hb']
    calc a' ≤ a * (1 + 1 / 2 ^ 53) := h.2
      _ = q * ((1 + 1 / 2 ^ 53) / (1 - 1 / 2 ^ 53)) * (b * (1 - 1 / 2 ^ 53)) := by
        rw [hab]; field_simp
      _ ≤ _ := mul_le_mul_of_nonneg_left h'.1 (mul_nonneg hq (by norm_num))
  have hlo : q * ((1 - 1 / 2 ^ 53) / (1 + 1 / 2 ^ 53)) ≤ a' / b' := by
    rw [le_div_iff₀ hb']
    calc _ ≤ q * ((1 - 1 / 2 ^ 53) / (1 + 1 / 2 ^ 53)) * (b * (1 + 1 / 2 ^ 53)) :=
          mul_le_mul_of_nonneg_left h'.2 (mul_nonneg hq (by norm_num))
      _ = a * (1 - 1 / 2 ^ 53) := by rw [hab]; field_simp
      _ ≤ a' := h.1
  obtain ⟨f1, f2⟩ := near_fl (div_nonneg ha' hb'.le)
  have k1 : (1 + 1 / 2 ^ 53 : ℚ) / (1 - 1 / 2 ^ 53) * (1 + 1 / 2 ^ 53) ≤ 1 + 4 / 2 ^ 53 := by norm_num
  have k2 : (1 - 4 / 2 ^ 53 : ℚ) ≤ (1 - 1 / 2 ^ 53) / (1 + 1 / 2 ^ 53) * (1 - 1 / 2 ^ 53) := by norm_num
  have u1 : fl (a' / b') ≤ q * (1 + 4 / 2 ^ 53) := by
    refine f2.trans ((mul_le_mul_of_nonneg_right hup (by norm_num)).trans ?_)
    rw [mul_assoc]
    exact mul_le_mul_of_nonneg_left k1 hq
  have u2 : q * (1 - 4 / 2 ^ 53) ≤ fl (a' / b') := by
    refine le_trans ?_ ((mul_le_mul_of_nonneg_right hlo (by norm_num)).trans f1)
    rw [mul_assoc]
    exact mul_le_mul_of_nonneg_left k2 hq
  rw [abs_le]
  constructor <;> linarith

theorem epsFl_pos : 0 < Norm.Rnd.eps fl := fl_pos (by norm_num)

/-- Specification: docs keep their order; equal scores stay equal, but different scores may become equal. -/
def Spec.KeepsOrder (r r' : Results δ ℚ) : Prop :=
  ∀ d e a b, r.get? d = some a → r.get? e = some b →
    ∃ a' b', r'.get? d = some a' ∧ r'.get? e = some b' ∧ (a ≤ b → a' ≤ b') ∧ (a = b → a' = b')

/-- Specification: docs get the opposite order, up to new ties. -/
def Spec.FlipsOrder (r r' : Results δ ℚ) : Prop :=
  ∀ d e a b, r.get? d = some a → r.get? e = some b →
    ∃ a' b', r'.get? d = some a' ∧ r'.get? e = some b' ∧ (a ≤ b → b' ≤ a') ∧ (a = b → a' = b')

theorem keepsOrder_of_mono (r : Results δ ℚ) (h : NodupKeys r) (f : ℚ → ℚ) (hf : Monotone f) :
    Spec.KeepsOrder r (normLoop r f) := by
  intro d e a b ha hb
  refine ⟨f a, f b, ?_, ?_, fun hab => hf hab, fun hab => by rw [hab]⟩
  · rw [normLoop_get? r h, ha]; rfl
  · rw [normLoop_get? r h, hb]; rfl

theorem flipsOrder_of_anti (r : Results δ ℚ) (h : NodupKeys r) (f : ℚ → ℚ) (hf : Antitone f) :
    Spec.FlipsOrder r (normLoop r f) := by
  intro d e a b ha hb
  refine ⟨f a, f b, ?_, ?_, fun hab => hf hab, fun hab => by rw [hab]⟩
  · rw [normLoop_get? r h, ha]; rfl
  · rw [normLoop_get? r h, hb]; rfl

theorem fl_sub_div_mono (m c : ℚ) (hc : 0 < c) : Monotone (fun s => fl (fl (s - m) / c)) := fun a b hab =>
  fl_mono (div_le_div_of_nonneg_right (fl_mono (by linarith)) hc.le)

/-- **C95** (order): in floating point, min-max, max, sum and zmuv normalization never reverse two docs, and
inverted min-max never fails to reverse them, except that different scores may become equal. This holds for
zmuv whatever NumPy's `mean` and `std` return. -/
theorem C95_order (r : Results δ ℚ) (h : NodupKeys r) (mean std : List ℚ → ℚ) :
    Spec.KeepsOrder r (Norm.Rnd.minMax fl false r) ∧ Spec.FlipsOrder r (Norm.Rnd.minMax fl true r) ∧
    Spec.KeepsOrder r (Norm.Rnd.maxNorm fl r) ∧ Spec.KeepsOrder r (Norm.Rnd.sumNorm fl r) ∧
    Spec.KeepsOrder r (Norm.Rnd.zmuv fl mean std r) := by
  have hd : ∀ x, 0 < max x (Norm.Rnd.eps fl) := fun x => lt_of_lt_of_le epsFl_pos (le_max_right _ _)
  refine ⟨?_, ?_, ?_, ?_, ?_⟩
  · exact keepsOrder_of_mono r h _ (fl_sub_div_mono _ _ (hd _))
  · unfold Norm.Rnd.minMax
    refine flipsOrder_of_anti r h _ (fun a b hab => ?_)
    simp only [if_true]
    exact fl_mono (div_le_div_of_nonneg_right (fl_mono (by linarith)) (hd _).le)
  · exact keepsOrder_of_mono r h _ (fun a b hab => fl_mono (div_le_div_of_nonneg_right hab (hd _).le))
  · exact keepsOrder_of_mono r h _ (fl_sub_div_mono _ _ (hd _))
  · exact keepsOrder_of_mono r h _ (fl_sub_div_mono _ _ (hd _))

/-- **C95** (docs): the normalized results hold exactly the docs, in the same order. -/
theorem C95_keeps_docs (r : Results δ ℚ) (h : NodupKeys r) (invert : Bool) (mean std : List ℚ → ℚ) :
    (Norm.Rnd.minMax fl invert r).keys = r.keys ∧ (Norm.Rnd.maxNorm fl r).keys = r.keys ∧
    (Norm.Rnd.sumNorm fl r).keys = r.keys ∧ (Norm.Rnd.zmuv fl mean std r).keys = r.keys :=
  ⟨by unfold Norm.Rnd.minMax; exact normLoop_keys r h _, by unfold Norm.Rnd.maxNorm; exact normLoop_keys r h _,
    by unfold Norm.Rnd.sumNorm; exact normLoop_keys r h _, by unfold Norm.Rnd.zmuv; exact normLoop_keys r h _⟩

/-- **C95** min-max: scores lie in [0,1]; with spread at least 1e-9 a best doc gets exactly 1 and a worst doc
exactly 0 (the other way round when inverted); every score is within 4·2⁻⁵³ (relative) of the exact one. -/
theorem C95_min_max (r : Results δ ℚ) (h : NodupKeys r) (invert : Bool) :
    (∀ d v, (Norm.Rnd.minMax fl invert r).get? d = some v → 0 ≤ v ∧ v ≤ 1) ∧
    (∀ d e best worst, r.get? d = some best → r.get? e = some worst →
      (∀ x a, r.get? x = some a → worst ≤ a ∧ a ≤ best) → 1 / 10 ^ 9 ≤ best - worst →
      (Norm.Rnd.minMax fl invert r).get? d = some (if invert then 0 else 1) ∧
      (Norm.Rnd.minMax fl invert r).get? e = some (if invert then 1 else 0)) ∧
    (∀ d s, r.get? d = some s → ∃ v v', (Norm.Rnd.minMax fl invert r).get? d = some v ∧
      (Norm.minMax invert r).get? d = some v' ∧ |v - v'| ≤ 4 / 2 ^ 53 * v') := by
  unfold Norm.Rnd.minMax Norm.minMax extractScores
  simp only [normLoop_get? r h]
  have hd := fun x => lt_of_lt_of_le epsFl_pos (le_max_right x (Norm.Rnd.eps fl))
  refine ⟨?_, ?_, ?_⟩
  · intro d v hv
    obtain ⟨s, hs, rfl⟩ := Option.map_eq_some_iff.1 hv
    have h1 := safeMin_le (mem_values hs)
    have h2 := safeMax_ge (mem_values hs)
    have key : ∀ x, 0 ≤ x → x ≤ safeMax r.values - safeMin r.values →
        0 ≤ fl (fl x / max (fl (safeMax r.values - safeMin r.values)) (Norm.Rnd.eps fl)) ∧
        fl (fl x / max (fl (safeMax r.values - safeMin r.values)) (Norm.Rnd.eps fl)) ≤ 1 := by
      intro x hx hx'
      have hx0 : 0 ≤ fl x := by rw [← fl_zero]; exact fl_mono hx
      refine ⟨?_, ?_⟩
      · rw [← fl_zero]; exact fl_mono (div_nonneg hx0 (hd _).le)
      · rw [← fl_one]
        exact fl_mono ((div_le_one (hd _)).2 ((fl_mono hx').trans (le_max_left _ _)))
    cases invert with
    | true => exact key _ (by linarith) (by linarith)
    | false => exact key _ (by linarith) (by linarith)
  · intro d e best worst hdb hew hall hsp
    have hmax : safeMax r.values = best := safeMax_eq_of (mem_values hdb) (by
      intro y hy
      obtain ⟨x, hx⟩ := of_mem_values h hy
      exact (hall x y hx).2)
    have hmin : safeMin r.values = worst := safeMin_eq_of (mem_values hew) (by
      intro y hy
      obtain ⟨x, hx⟩ := of_mem_values h hy
      exact (hall x y hx).1)
    have hden : max (fl (best - worst)) (Norm.Rnd.eps fl) = fl (best - worst) := max_eq_left (fl_mono hsp)
    have hpos : fl (best - worst) ≠ 0 := (fl_pos (lt_of_lt_of_le (by norm_num) hsp)).ne'
    rw [hdb, hew, hmax, hmin, hden]
    cases invert <;> simp [fl_zero, div_self hpos, fl_one]
  · intro d s hs
    rw [hs]
    have h1 := safeMin_le (mem_values hs)
    have h2 := safeMax_ge (mem_values hs)
    refine ⟨_, _, rfl, rfl, ?_⟩
    have hden : Near (max (safeMax r.values - safeMin r.values) eps)
        (max (fl (safeMax r.values - safeMin r.values)) (Norm.Rnd.eps fl)) :=
      near_max (near_fl (by linarith)) (near_fl eps_pos.le)
    cases invert with
    | true => exact fl_quot (by linarith) (den_pos _) (near_fl (by linarith)) hden
    | false => exact fl_quot (by linarith) (den_pos _) (near_fl (by linarith)) hden

/-- **C95** max: scores are at most 1, non-negative scores stay non-negative, a best doc with a (float64) score of at
least 1e-9 gets exactly 1, and non-negative scores are within 4·2⁻⁵³ (relative) of the exact ones. -/
theorem C95_max (r : Results δ ℚ) (h : NodupKeys r) :
    (∀ d s v, r.get? d = some s → (Norm.Rnd.maxNorm fl r).get? d = some v → v ≤ 1 ∧ (0 ≤ s → 0 ≤ v)) ∧
    (∀ d best, r.get? d = some best → (∀ x a, r.get? x = some a → a ≤ best) → 1 / 10 ^ 9 ≤ best → fl best = best →
      (Norm.Rnd.maxNorm fl r).get? d = some 1) ∧
    (∀ d s, r.get? d = some s → 0 ≤ s → ∃ v v', (Norm.Rnd.maxNorm fl r).get? d = some v ∧
      (Norm.maxNorm r).get? d = some v' ∧ |v - v'| ≤ 4 / 2 ^ 53 * v') := by
  unfold Norm.Rnd.maxNorm Norm.maxNorm extractScores
  simp only [normLoop_get? r h]
  have hd := fun x => lt_of_lt_of_le epsFl_pos (le_max_right x (Norm.Rnd.eps fl))
  refine ⟨?_, ?_, ?_⟩
  · intro d s v hs hv
    rw [hs] at hv
    cases hv
    refine ⟨?_, fun h0 => ?_⟩
    · rw [← fl_one]
      exact fl_mono ((div_le_one (hd _)).2 ((safeMax_ge (mem_values hs)).trans (le_max_left _ _)))
    · rw [← fl_zero]; exact fl_mono (div_nonneg h0 (hd _).le)
  · intro d best hdb hall hb hfl
    have hmax : safeMax r.values = best := safeMax_eq_of (mem_values hdb) (by
      intro y hy
      obtain ⟨x, hx⟩ := of_mem_values h hy
      exact hall x y hx)
    have hle : Norm.Rnd.eps fl ≤ best := by
      have := fl_mono hb
      rwa [hfl] at this
    rw [hdb, hmax, max_eq_left hle]
    simp only [Option.map_some]
    rw [div_self (lt_of_lt_of_le (by norm_num) hb).ne', fl_one]
  · intro d s hs h0
    rw [hs]
    refine ⟨_, _, rfl, rfl, ?_⟩
    exact fl_quot h0 (den_pos _) (near_self h0)
      (near_max (near_self (h0.trans (safeMax_ge (mem_values hs)))) (near_fl eps_pos.le))

theorem fl_add_ge {a x : ℚ} (ha : 0 ≤ a) (hx : fl x = x) : x ≤ fl (a + x) := by
  have := fl_mono (show x ≤ a + x by linarith)
  rwa [hx] at this

theorem flSum_ge (l : List ℚ) (a : ℚ) (ha : 0 ≤ a) (haf : fl a = a) (h0 : ∀ x ∈ l, 0 ≤ x) (hf : ∀ x ∈ l, fl x = x) :
    a ≤ l.foldl (fun a x => fl (a + x)) a ∧ ∀ x ∈ l, x ≤ l.foldl (fun a x => fl (a + x)) a := by
  induction l generalizing a with
  | nil => simp
  | cons y t ih =>
    have hy0 := h0 y (by simp)
    have h1 : a ≤ fl (a + y) := by rw [add_comm]; exact fl_add_ge hy0 haf
    obtain ⟨i1, i2⟩ := ih (fl (a + y)) (ha.trans h1) (fl_fl _) (fun x hx => h0 x (by simp [hx]))
      (fun x hx => hf x (by simp [hx]))
    rw [List.foldl_cons]
    refine ⟨h1.trans i1, ?_⟩
    intro x hx
    rcases List.mem_cons.1 hx with rfl | hx
    · exact (fl_add_ge ha (hf x (by simp))).trans i1
    · exact i2 x hx

/-- **C95** sum: scores are never negative and a worst doc gets exactly 0; if the worst score is 0 (for instance
after min-max), all scores are at most 1. In general they are not (`C95_sum_out_of_range`). -/
theorem C95_sum_partial (r : Results δ ℚ) (h : NodupKeys r) :
    (∀ d v, (Norm.Rnd.sumNorm fl r).get? d = some v → 0 ≤ v) ∧
    (∀ e worst, r.get? e = some worst → (∀ x a, r.get? x = some a → worst ≤ a) →
      (Norm.Rnd.sumNorm fl r).get? e = some 0) ∧
    (∀ e, r.get? e = some 0 → (∀ x a, r.get? x = some a → 0 ≤ a ∧ fl a = a) →
      ∀ d v, (Norm.Rnd.sumNorm fl r).get? d = some v → v ≤ 1) := by
  unfold Norm.Rnd.sumNorm extractScores
  simp only [normLoop_get? r h]
  have hd := fun x => lt_of_lt_of_le epsFl_pos (le_max_right x (Norm.Rnd.eps fl))
  have hmin : ∀ e worst, r.get? e = some worst → (∀ x a, r.get? x = some a → worst ≤ a) →
      safeMin r.values = worst := by
    intro e worst he hall
    refine safeMin_eq_of (mem_values he) ?_
    intro y hy
    obtain ⟨x, hx⟩ := of_mem_values h hy
    exact hall x y hx
  refine ⟨?_, ?_, ?_⟩
  · intro d v hv
    obtain ⟨s, hs, rfl⟩ := Option.map_eq_some_iff.1 hv
    have h1 := safeMin_le (mem_values hs)
    have hx0 : 0 ≤ fl (s - safeMin r.values) := by rw [← fl_zero]; exact fl_mono (by linarith)
    rw [← fl_zero]; exact fl_mono (div_nonneg hx0 (hd _).le)
  · intro e worst he hall
    rw [he, hmin e worst he hall]
    simp [fl_zero]
  · intro e he hall d v hv
    obtain ⟨s, hs, rfl⟩ := Option.map_eq_some_iff.1 hv
    rw [hmin e 0 he (fun x a hx => (hall x a hx).1)]
    simp only [zero_mul, fl_zero, sub_zero]
    have hv0 : ∀ x ∈ r.values, 0 ≤ x ∧ fl x = x := by
      intro y hy
      obtain ⟨x, hx⟩ := of_mem_values h hy
      exact hall x y hx
    have := (flSum_ge r.values 0 le_rfl fl_zero (fun x hx => (hv0 x hx).1) (fun x hx => (hv0 x hx).2)).2 s
      (mem_values hs)
    rw [← fl_one]
    refine fl_mono ((div_le_one (hd _)).2 (le_trans (fl_mono ?_) (le_max_left _ _)))
    exact this

/-- **C95** refuted for sum normalization: three docs with scores 2²⁷, 2²⁷ and 2²⁷ + 2⁻²⁵ (all float64 numbers); the
sum is rounded, the denominator collapses to 1e-9 and the best doc gets almost 30 instead of 1. -/
theorem C95_sum_out_of_range :
    (∀ x ∈ [(2 : ℚ) ^ 27, 2 ^ 27 + 1 / 2 ^ 25], fl x = x) ∧
    (∃ v, (Norm.Rnd.sumNorm fl ([(1, 2 ^ 27 + 1 / 2 ^ 25), (2, 2 ^ 27), (3, 2 ^ 27)] : Results Nat ℚ)).get? 1 = some v ∧
      29 < v) ∧
    (Norm.sumNorm ([(1, 2 ^ 27 + 1 / 2 ^ 25), (2, 2 ^ 27), (3, 2 ^ 27)] : Results Nat ℚ)).get? 1 = some 1 := by
  refine ⟨by decide +kernel, ⟨_, rfl, by decide +kernel⟩, by decide +kernel⟩

/-- **C95** (new ties): docs with different scores can become equal, so the order after normalization is not
determined by the scores alone. -/
theorem C95_new_ties :
    (∀ x ∈ [(1 : ℚ), 1 / 2 ^ 59, 1 / 2 ^ 60, -1], fl x = x) ∧
    Norm.Rnd.minMax fl false ([(1, 1), (2, 1 / 2 ^ 59), (3, 1 / 2 ^ 60), (4, -1)] : Results Nat ℚ) =
      [(1, 1), (2, 1 / 2), (3, 1 / 2), (4, 0)] := by
  refine ⟨by decide +kernel, by decide +kernel⟩

/-! ### normalization by rank -/

theorem fl_nat {n : Nat} (h : n ≤ 2 ^ 53) : fl (n : ℚ) = n := by
  have := fl_int (n : ℤ) (by rw [abs_of_nonneg (Int.natCast_nonneg n)]; exact_mod_cast h)
  exact_mod_cast this

theorem rank_frac (i n : Nat) (hi : i ≤ n) (hn : n ≠ 0) :
    |fl (1 - fl ((i : ℚ) / n)) - (1 - (i : ℚ) / n)| ≤ 2 / 2 ^ 53 := by
  have hn' : (0 : ℚ) < n := by exact_mod_cast Nat.pos_of_ne_zero hn
  have hx0 : (0 : ℚ) ≤ (i : ℚ) / n := by positivity
  have hx1 : (i : ℚ) / n ≤ 1 := (div_le_one hn').2 (by exact_mod_cast hi)
  generalize (i : ℚ) / n = x at *
  have h1 := abs_le.1 (fl_rel x hx0)
  have h2 : fl x ≤ 1 := by rw [← fl_one]; exact fl_mono hx1
  have h3 : 0 ≤ fl x := by rw [← fl_zero]; exact fl_mono hx0
  have h4 := abs_le.1 (fl_rel (1 - fl x) (by linarith))
  rw [abs_le]
  have e1 : x / 2 ^ 53 ≤ 1 / 2 ^ 53 := div_le_div_of_nonneg_right hx1 (by positivity)
  have e2 : (1 - fl x) / 2 ^ 53 ≤ 1 / 2 ^ 53 := div_le_div_of_nonneg_right (by linarith) (by positivity)
  have e3 : (2 : ℚ) / 2 ^ 53 = 1 / 2 ^ 53 + 1 / 2 ^ 53 := by norm_num
  rw [e3]
  constructor <;> linarith [h1.1, h1.2, h4.1, h4.2]

theorem gap_of_le {n b : Nat} (hn : n ≠ 0) (h : n ≤ 2 ^ b) : (1 : ℚ) / 2 ^ b ≤ 1 / n :=
  one_div_le_one_div_of_le (by exact_mod_cast Nat.pos_of_ne_zero hn) (by exact_mod_cast h)

/-- **C95** rank: in a result list of up to 2⁵⁰ docs the i-th doc (from 0) gets 1 - i/n up to 2·2⁻⁵³; the first doc
gets exactly 1, all scores are in (0,1], and every doc scores strictly above the next: the ranking is kept exactly. -/
theorem C95_rank (r : Results δ ℚ) (h : NodupKeys r) (hn : r.length ≤ 2 ^ 50) (i : Nat) (d : δ)
    (hi : r.keys[i]? = some d) :
    ∃ v, (Norm.Rnd.rankNorm fl r).get? d = some v ∧ (Norm.Rnd.rankNorm fl r).keys[i]? = some d ∧
      |v - (1 - (i : ℚ) / r.length)| ≤ 2 / 2 ^ 53 ∧ 0 < v ∧ v ≤ 1 ∧ (i = 0 → v = 1) ∧
      ∀ (j : Nat) e, i < j → r.keys[j]? = some e →
        ∃ w, (Norm.Rnd.rankNorm fl r).get? e = some w ∧ w < v := by
  have heq : Norm.Rnd.rankNorm fl r = r.keys.zipIdx.map (fun di =>
      (di.1, fl (1 - fl (fl (di.2 : ℚ) / fl (r.length : ℚ))))) := by
    unfold Norm.Rnd.rankNorm
    apply ofList_of_nodup
    unfold NodupKeys
    rw [List.map_map]
    have : (Prod.fst ∘ fun di : δ × Nat => (di.1, fl (1 - fl (fl (di.2 : ℚ) / fl (r.length : ℚ))))) = Prod.fst := rfl
    rw [this, List.zipIdx_map_fst]
    exact h
  have hnd : NodupKeys (Norm.Rnd.rankNorm fl r) := nodupKeys_ofList _
  have hlen : r.keys.length = r.length := List.length_map _
  have hlt : ∀ (i : Nat) d, r.keys[i]? = some d → i < r.length := by
    intro i d hi
    rw [← hlen]
    exact (List.getElem?_eq_some_iff.1 hi).1
  have hget : ∀ (i : Nat) d, r.keys[i]? = some d →
      (Norm.Rnd.rankNorm fl r)[i]? = some (d, fl (1 - fl ((i : ℚ) / r.length))) := by
    intro i d hi
    have := hlt i d hi
    rw [heq, List.getElem?_map, List.getElem?_zipIdx, hi]
    simp only [Option.map_some, Nat.zero_add]
    rw [fl_nat (show i ≤ 2 ^ 53 by omega), fl_nat (show r.length ≤ 2 ^ 53 by omega)]
  have hil := hlt i d hi
  have hn0 : r.length ≠ 0 := by omega
  have hnq : (0 : ℚ) < r.length := by exact_mod_cast Nat.pos_of_ne_zero hn0
  have hgap := gap_of_le hn0 hn
  have hsub : ∀ i j : Nat, i < j → (i : ℚ) / r.length + 1 / r.length ≤ (j : ℚ) / r.length := by
    intro i j hij
    rw [← add_div]
    exact div_le_div_of_nonneg_right (by exact_mod_cast hij) hnq.le
  have hone : (r.length : ℚ) / r.length = 1 := div_self hnq.ne'
  have hacc := abs_le.1 (rank_frac i r.length hil.le hn0)
  have hc : (2 : ℚ) / 2 ^ 53 + 2 / 2 ^ 53 < 1 / 2 ^ 50 := by norm_num
  have hc' : (0 : ℚ) < 2 / 2 ^ 53 := by norm_num
  refine ⟨_, get?_of_mem hnd (List.mem_of_getElem? (hget i d hi)), ?_, rank_frac i r.length hil.le hn0, ?_, ?_, ?_, ?_⟩
  · unfold Dict.keys
    rw [List.getElem?_map, hget i d hi]; rfl
  · have := hsub i r.length hil
    rw [hone] at this
    linarith [hacc.1]
  · refine (fl_mono ?_).trans_eq fl_one
    have : 0 ≤ fl ((i : ℚ) / r.length) := by rw [← fl_zero]; exact fl_mono (by positivity)
    linarith
  · rintro rfl
    simp [fl_zero, fl_one]
  · intro j e hij he
    refine ⟨_, get?_of_mem hnd (List.mem_of_getElem? (hget j e he)), ?_⟩
    have h1 := abs_le.1 (rank_frac j r.length (hlt j e he).le hn0)
    have := hsub i j hij
    linarith [hacc.1, h1.2]

/-- **C95** borda: with up to 2⁴⁸ candidates (the results' docs among them), the i-th doc of the results gets 1 - i/c
up to 2·2⁻⁵³, strictly above the next ones and strictly above every candidate that is not in the results; all those
get the same score. -/
theorem C95_borda (r : Results δ ℚ) (h : NodupKeys r) (cands : List δ) (hc : cands.Nodup)
    (hsub : ∀ d ∈ r.keys, d ∈ cands) (hn : cands.length ≤ 2 ^ 48) :
    ∃ miss : ℚ, (∀ d ∈ cands, d ∉ r.keys → (Norm.Rnd.bordaNorm fl r cands).get? d = some miss) ∧
      (∀ d, d ∈ (Norm.Rnd.bordaNorm fl r cands).keys ↔ d ∈ cands) ∧
      ∀ (i : Nat) d, r.keys[i]? = some d → ∃ v, (Norm.Rnd.bordaNorm fl r cands).get? d = some v ∧
        |v - (1 - (i : ℚ) / cands.length)| ≤ 2 / 2 ^ 53 ∧ 0 < v ∧ v ≤ 1 ∧ miss < v ∧
        ∀ (j : Nat) e, i < j → r.keys[j]? = some e →
          ∃ w, (Norm.Rnd.bordaNorm fl r cands).get? e = some w ∧ w < v := by
  have hlen : r.keys.length = r.length := List.length_map _
  have heq : Norm.Rnd.bordaNorm fl r cands = cands.map (fun d =>
      (d, if r.contains d then fl (1 - fl (fl (r.keys.idxOf d : ℚ) / fl (cands.length : ℚ)))
        else fl (1 / 2 - fl (fl ((r.length : ℚ) - 1) / fl (2 * (cands.length : ℚ)))))) := by
    unfold Norm.Rnd.bordaNorm
    apply ofList_of_nodup
    unfold NodupKeys
    rw [List.map_map]
    simpa [Function.comp_def] using hc
  have hnd : NodupKeys (Norm.Rnd.bordaNorm fl r cands) := nodupKeys_ofList _
  have hget : ∀ d ∈ cands, (Norm.Rnd.bordaNorm fl r cands).get? d = some
      (if r.contains d then fl (1 - fl (fl (r.keys.idxOf d : ℚ) / fl (cands.length : ℚ)))
        else fl (1 / 2 - fl (fl ((r.length : ℚ) - 1) / fl (2 * (cands.length : ℚ))))) := by
    intro d hd
    apply get?_of_mem hnd
    rw [heq]
    exact List.mem_map.2 ⟨d, hd, rfl⟩
  have hrc : r.length ≤ cands.length := by
    rw [← hlen]
    exact (List.subperm_of_subset h hsub).length_le
  have hidx : ∀ (i : Nat) d, r.keys[i]? = some d → d ∈ r.keys ∧ r.keys.idxOf d = i ∧ i < r.length := by
    intro i d hi
    obtain ⟨hl, e⟩ := List.getElem?_eq_some_iff.1 hi
    refine ⟨List.mem_of_getElem? hi, ?_, by rw [← hlen]; exact hl⟩
    rw [← e]
    exact h.idxOf_getElem i hl
  have hval : ∀ (i : Nat) d, r.keys[i]? = some d →
      (Norm.Rnd.bordaNorm fl r cands).get? d = some (fl (1 - fl ((i : ℚ) / cands.length))) := by
    intro i d hi
    obtain ⟨h1, h2, h3⟩ := hidx i d hi
    rw [hget d (hsub d h1), if_pos (contains_iff.2 h1), h2, fl_nat (show i ≤ 2 ^ 53 by omega),
      fl_nat (show cands.length ≤ 2 ^ 53 by omega)]
  refine ⟨fl (1 / 2 - fl (fl ((r.length : ℚ) - 1) / fl (2 * (cands.length : ℚ)))), ?_, ?_, ?_⟩
  · intro d hd hnr
    rw [hget d hd, if_neg (fun hc => hnr (contains_iff.1 hc))]
  · intro d
    rw [heq]
    unfold Dict.keys
    rw [List.map_map]
    simp [Function.comp_def]
  intro i d hi
  obtain ⟨h1, h2, h3⟩ := hidx i d hi
  have hn0 : cands.length ≠ 0 := by omega
  have hnq : (0 : ℚ) < cands.length := by exact_mod_cast Nat.pos_of_ne_zero hn0
  have hgap := gap_of_le hn0 hn
  have hstep : ∀ i j : Nat, i < j → (i : ℚ) / cands.length + 1 / cands.length ≤ (j : ℚ) / cands.length := by
    intro i j hij
    rw [← add_div]
    exact div_le_div_of_nonneg_right (by exact_mod_cast hij) hnq.le
  have hone : (cands.length : ℚ) / cands.length = 1 := div_self hnq.ne'
  have hacc := abs_le.1 (rank_frac i cands.length (by omega) hn0)
  have hcst : (2 : ℚ) / 2 ^ 53 + 2 / 2 ^ 53 < 1 / 2 ^ 48 := by norm_num
  have hc' : (0 : ℚ) < 2 / 2 ^ 53 := by norm_num
  have hlast : (i : ℚ) / cands.length ≤ ((r.length : ℚ) - 1) / cands.length := by
    refine div_le_div_of_nonneg_right ?_ hnq.le
    have : ((i : ℚ) + 1) ≤ r.length := by exact_mod_cast h3
    linarith
  refine ⟨_, hval i d hi, rank_frac i cands.length (by omega) hn0, ?_, ?_, ?_, ?_⟩
  · have := hstep i cands.length (by omega)
    rw [hone] at this
    linarith [hacc.1]
  · refine (fl_mono ?_).trans_eq fl_one
    have : 0 ≤ fl ((i : ℚ) / cands.length) := by rw [← fl_zero]; exact fl_mono (by positivity)
    linarith
  · -- the absent docs
    have e1 : fl ((r.length : ℚ) - 1) = (r.length : ℚ) - 1 := by
      have := fl_nat (n := r.length - 1) (by omega)
      rwa [Nat.cast_sub (by omega), Nat.cast_one] at this
    have e2 : fl (2 * (cands.length : ℚ)) = 2 * cands.length := by
      have := fl_nat (n := 2 * cands.length) (by omega)
      push_cast at this
      exact this
    rw [e1, e2]
    have hr1 : (1 : ℚ) ≤ r.length := by exact_mod_cast (show 1 ≤ r.length by omega)
    have hrq : (r.length : ℚ) ≤ cands.length := by exact_mod_cast hrc
    have hy0 : (0 : ℚ) ≤ ((r.length : ℚ) - 1) / (2 * cands.length) := div_nonneg (by linarith) (by positivity)
    have hy : ((r.length : ℚ) - 1) / (2 * cands.length) = ((r.length : ℚ) - 1) / cands.length / 2 := by
      field_simp
    have hz : ((r.length : ℚ) - 1) / cands.length + 1 / cands.length ≤ 1 := by
      rw [← add_div, div_le_one hnq]; linarith
    generalize ((r.length : ℚ) - 1) / cands.length = z at *
    rw [hy] at hy0 ⊢
    have g1 := abs_le.1 (fl_rel _ hy0)
    have g2 : z / 2 / 2 ^ 53 ≤ 1 / 2 ^ 53 := div_le_div_of_nonneg_right (by linarith) (by positivity)
    have g3 : fl (z / 2) ≤ 1 / 2 := by
      have := fl_mono (show z / 2 ≤ 1 / 2 by linarith)
      have he : fl (1 / 2) = 1 / 2 := by decide +kernel
      rwa [he] at this
    have g4 := abs_le.1 (fl_rel (1 / 2 - fl (z / 2)) (by linarith))
    have g5 : 0 ≤ fl (z / 2) := by rw [← fl_zero]; exact fl_mono hy0
    have g6 : (1 / 2 - fl (z / 2)) / 2 ^ 53 ≤ 1 / 2 ^ 53 :=
      div_le_div_of_nonneg_right (by linarith) (by positivity)
    have k : (2 : ℚ) / 2 ^ 53 + 1 / 2 ^ 53 + 1 / 2 ^ 53 < 1 / 2 ^ 48 / 2 := by norm_num
    linarith [hacc.1, g1.1, g4.2]
  · intro j e hij he
    refine ⟨_, hval j e he, ?_⟩
    have h1 := abs_le.1 (rank_frac j cands.length (by have := (hidx j e he).2.2; omega) hn0)
    have := hstep i j hij
    linarith [hacc.1, h1.2]

/-- the hypotheses hold and the values are the usual ones -/
example : Norm.Rnd.minMax fl false ([(7, 3), (8, 2), (9, 1)] : Results Nat ℚ) = [(7, 1), (8, 1 / 2), (9, 0)] ∧
    Norm.Rnd.sumNorm fl ([(7, 3), (8, 1), (9, 0)] : Results Nat ℚ) = [(7, 3 / 4), (8, 1 / 4), (9, 0)] ∧
    Norm.Rnd.bordaNorm fl ([(7, 3), (8, 2)] : Results Nat ℚ) [9, 8, 7, 6] =
      [(9, 3 / 8), (8, 3 / 4), (7, 1), (6, 3 / 8)] := by
  refine ⟨by decide +kernel, by decide +kernel, by decide +kernel⟩

end Ranx
