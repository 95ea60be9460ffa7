import Verif.Lemmas.FloatText
import Verif.Lemmas.PyStr
import Mathlib.Data.List.TakeWhile

/-!
# C126: floats as text
-/

set_option linter.unusedSectionVars false

namespace Ranx
open F64 FText
open Py (Str natStr isSpace strip)

/-! ## Specifications -/

/-- the finite binary64 numbers: 53-bit integers times a power of two -/
def Spec.Binary64 (x : ℚ) : Prop := ∃ m e : ℤ, |m| < 2 ^ 53 ∧ -1074 ≤ e ∧ e ≤ 971 ∧ x = m * 2 ^ e

/-- only digits -/
def Spec.AllDigits (s : Str) : Prop := ∀ c ∈ s, c.isDigit = true

/-- the number a sequence of digits stands for -/
def Spec.number : Str → Nat
  | [] => 0
  | c :: t => (c.toNat - '0'.toNat) * 10 ^ t.length + Spec.number t

/-- an optional sign -/
inductive Spec.SignText : Str → ℤ → Prop
  | none : Spec.SignText [] 1
  | plus : Spec.SignText ['+'] 1
  | minus : Spec.SignText ['-'] (-1)

/-- an optional fraction and its digits -/
inductive Spec.FracText : Str → Str → Prop
  | none : Spec.FracText [] []
  | some (d : Str) : Spec.AllDigits d → Spec.FracText ('.' :: d) d

/-- an optional exponent -/
inductive Spec.ExpText : Str → ℤ → Prop
  | none : Spec.ExpText [] 0
  | some (c : Char) (s : Str) (σ : ℤ) (d : Str) : c = 'e' ∨ c = 'E' → Spec.SignText s σ → d ≠ [] → Spec.AllDigits d →
      Spec.ExpText (c :: s ++ d) (σ * Spec.number d)

/-- a decimal and its exact value: sign, digits, fraction, exponent -/
def Spec.DecimalText (t : Str) (x : ℚ) : Prop :=
  ∃ (s : Str) (σ : ℤ) (i ft f et : Str) (e : ℤ), t = s ++ i ++ ft ++ et ∧ Spec.SignText s σ ∧ Spec.AllDigits i ∧
    Spec.FracText ft f ∧ Spec.ExpText et e ∧ (i ≠ [] ∨ f ≠ []) ∧
    x = σ * (Spec.number i + Spec.number f / 10 ^ f.length) * (10 : ℚ) ^ e

/-- a JSON number (RFC 8259, section 6) and its exact value -/
def Spec.JsonNumber (t : Str) (x : ℚ) : Prop :=
  ∃ (s : Str) (σ : ℤ) (i ft f et : Str) (e : ℤ), t = s ++ i ++ ft ++ et ∧ Spec.SignText s σ ∧ s ≠ ['+'] ∧
    Spec.AllDigits i ∧ (i = ['0'] ∨ (i ≠ [] ∧ i.head? ≠ some '0')) ∧
    Spec.FracText ft f ∧ (ft ≠ [] → f ≠ []) ∧ Spec.ExpText et e ∧
    x = σ * (Spec.number i + Spec.number f / 10 ^ f.length) * (10 : ℚ) ^ e

/-! ## Rounding -/

theorem FText.nearest_int (z : ℚ) (k : ℤ) : |z - rhe z| ≤ |z - k| ∧ (|z - rhe z| = |z - k| → k ≠ rhe z →
    rhe z % 2 = 0 ∧ |k - rhe z| = 1) := by
  have h1 : (z.floor : ℚ) ≤ z := by rw [floor_eq]; exact Int.floor_le z
  have h2 : z < z.floor + 1 := by rw [floor_eq]; exact Int.lt_floor_add_one z
  have e : |z - rhe z| = min (z - z.floor) (z.floor + 1 - z) ∧
      (z - z.floor = z.floor + 1 - z → rhe z % 2 = 0) ∧ (z - z.floor < z.floor + 1 - z → rhe z = z.floor) ∧
      (z.floor + 1 - z < z - z.floor → rhe z = z.floor + 1) ∧ (rhe z = z.floor ∨ rhe z = z.floor + 1) := by
    unfold rhe
    split_ifs with c1 c2 c3
    · refine ⟨?_, fun h => by linarith, fun _ => rfl, fun h => by linarith, .inl rfl⟩
      rw [abs_of_nonneg (by linarith), min_eq_left (by linarith)]
    · refine ⟨?_, fun h => by linarith, fun h => by linarith, fun _ => rfl, .inr rfl⟩
      push_cast
      rw [abs_sub_comm, abs_of_nonneg (by linarith), min_eq_right (by linarith)]
    · refine ⟨?_, fun h => c3, fun h => rfl, fun h => by linarith, .inl rfl⟩
      rw [abs_of_nonneg (by linarith), min_eq_left (by linarith)]
    · refine ⟨?_, fun h => by omega, fun h => by linarith, fun h => rfl, .inr rfl⟩
      push_cast
      rw [abs_sub_comm, abs_of_nonneg (by linarith), min_eq_right (by linarith)]
  obtain ⟨e1, e2, e3, e4, e5⟩ := e
  have hk : z - z.floor ≤ |z - k| ∨ z.floor + 1 - z ≤ |z - k| := by
    rcases le_or_gt k z.floor with h | h
    · left
      have : (k : ℚ) ≤ z.floor := by exact_mod_cast h
      exact le_trans (by linarith) (le_abs_self _)
    · right
      have : (z.floor : ℚ) + 1 ≤ k := by exact_mod_cast h
      exact le_trans (show _ ≤ -(z - (k : ℚ)) by linarith) (neg_le_abs _)
  refine ⟨?_, ?_⟩
  · rw [e1]
    rcases hk with hk | hk
    · exact (min_le_left _ _).trans hk
    · exact (min_le_right _ _).trans hk
  · intro heq hne
    -- the distance of `k` equals the minimum, so `k` is the floor or the floor plus one
    have hk' : k = z.floor ∨ k = z.floor + 1 := by
      have hlt : |z - k| < 1 := by
        rw [← heq, e1]
        rcases min_cases (z - z.floor) (z.floor + 1 - z) with ⟨h, _⟩ | ⟨h, _⟩ <;> rw [h] <;> linarith
      obtain ⟨a, b⟩ := abs_lt.1 hlt
      have a' : (k : ℚ) < z.floor + 2 := by linarith
      have b' : (z.floor : ℚ) < k + 1 := by linarith
      have a'' : k < z.floor + 2 := by exact_mod_cast a'
      have b'' : z.floor < k + 1 := by exact_mod_cast b'
      omega
    have htie : z - z.floor = z.floor + 1 - z := by
      by_contra hc
      rcases lt_or_gt_of_ne hc with h | h
      · have hr := e3 h
        rcases hk' with h' | h'
        · exact hne (by rw [h', hr])
        · rw [e1, min_eq_left h.le, h'] at heq
          push_cast at heq
          rw [abs_sub_comm, abs_of_nonneg (by linarith)] at heq
          linarith
      · have hr := e4 h
        rcases hk' with h' | h'
        · rw [e1, min_eq_right h.le, h', abs_of_nonneg (by linarith)] at heq
          linarith
        · exact hne (by rw [h', hr])
    refine ⟨e2 htie, ?_⟩
    have : k - rhe z = 1 ∨ k - rhe z = -1 := by omega
    rcases this with h | h <;> rw [h] <;> rfl

theorem FText.rd_form_pos {x : ℚ} (hx : 0 < x) : 0 ≤ rhe (x / 2 ^ ex x) ∧ rhe (x / 2 ^ ex x) ≤ 2 ^ 53 ∧
    (ex x = Int.log 2 x - 52 → (2 : ℚ) ^ Int.log 2 x ≤ rd x) := by
  have hu : (0 : ℚ) < 2 ^ ex x := by positivity
  obtain ⟨b1, b2⟩ := binade hx
  refine ⟨int_le_rhe (by push_cast; positivity), rhe_le_int ?_, ?_⟩
  · rw [div_le_iff₀ hu]
    push_cast
    calc x ≤ 2 ^ (Int.log 2 x + 1) := b2.le
      _ ≤ 2 ^ (53 + ex x) := zpow_le_zpow_right₀ (by norm_num) (by unfold ex; omega)
      _ = 2 ^ 53 * 2 ^ ex x := by rw [zpow_add₀ (by norm_num)]; norm_num
  · intro h
    obtain ⟨K, hK⟩ := zpow_multiple (show ex x ≤ Int.log 2 x by omega)
    rw [rd_eq hx, hK]
    have : K ≤ rhe (x / 2 ^ ex x) := int_le_rhe (by rw [le_div_iff₀ hu, ← hK]; exact b1)
    have : (K : ℚ) ≤ rhe (x / 2 ^ ex x) := by exact_mod_cast this
    exact mul_le_mul_of_nonneg_right this hu.le

theorem FText.binary64_neg {x : ℚ} (h : Spec.Binary64 x) : Spec.Binary64 (-x) := by
  obtain ⟨m, e, h1, h2, h3, h4⟩ := h
  exact ⟨-m, e, by rwa [abs_neg], h2, h3, by rw [h4]; push_cast; ring⟩

theorem FText.binary64_rd {x : ℚ} (h : |rd x| < 2 ^ 1024) : Spec.Binary64 (rd x) := by
  have pos : ∀ x : ℚ, 0 < x → |rd x| < 2 ^ 1024 → Spec.Binary64 (rd x) := by
    intro x hx h
    obtain ⟨h0, h53, hlog⟩ := rd_form_pos hx
    rw [abs_of_nonneg (rd_nonneg hx)] at h
    have e1024 : (2 : ℚ) ^ 1024 = 2 ^ ((1024 : ℕ) : ℤ) := (zpow_natCast _ _).symm
    have hex : ex x ≤ 971 := by
      by_contra hc
      have : ex x = Int.log 2 x - 52 := by unfold ex at *; omega
      have h1 := hlog this
      have : (2 : ℚ) ^ ((1024 : ℕ) : ℤ) ≤ 2 ^ Int.log 2 x := zpow_le_zpow_right₀ (by norm_num) (by omega)
      rw [← e1024] at this
      exact absurd (this.trans h1) (not_le.2 h)
    rcases h53.lt_or_eq with hlt | heq
    · exact ⟨rhe (x / 2 ^ ex x), ex x, by rw [abs_of_nonneg h0]; exact hlt, le_max_right _ _, hex, rd_eq hx⟩
    · have e2 : rd x = 2 ^ (ex x + 53) := by
        rw [rd_eq hx, heq, zpow_add₀ (by norm_num)]; push_cast; norm_num [mul_comm]
      have : ex x + 53 < 1024 := by
        rw [e2, e1024] at h
        have := (zpow_lt_zpow_iff_right₀ (by norm_num)).1 h
        omega
      refine ⟨2 ^ 52, ex x + 1, by rw [abs_of_nonneg (by norm_num)]; norm_num,
        (by have h : (-1074 : ℤ) ≤ ex x := le_max_right _ _
            omega), by omega, ?_⟩
      rw [e2, show ex x + 53 = 52 + (ex x + 1) by ring, zpow_add₀ (by norm_num) 52 (ex x + 1)]
      push_cast; norm_num
  rcases lt_trichotomy x 0 with hx | hx | hx
  · have := pos (-x) (by linarith) (by rw [rd_neg, abs_neg]; exact h)
    rw [rd_neg] at this
    have := binary64_neg this
    rwa [neg_neg] at this
  · subst hx
    rw [rd_zero]
    exact ⟨0, 0, by norm_num, by norm_num, by norm_num, by simp⟩
  · exact pos x hx h

theorem FText.rd_nearest (x y : ℚ) (hy : Spec.Binary64 y) : |x - rd x| ≤ |x - y| ∧
    (|x - rd x| = |x - y| → y ≠ rd x → ∃ k : ℤ, rd x = 2 * k * |y - rd x|) := by
  have pos : ∀ x y : ℚ, 0 < x → Spec.Binary64 y → |x - rd x| ≤ |x - y| ∧
      (|x - rd x| = |x - y| → y ≠ rd x → ∃ k : ℤ, rd x = 2 * k * |y - rd x|) := by
    intro x y hx hy
    obtain ⟨m, e, hm, he1, he2, rfl⟩ := hy
    have hu : (0 : ℚ) < 2 ^ ex x := by positivity
    have scale : ∀ k : ℤ, |x - k * 2 ^ ex x| = |x / 2 ^ ex x - k| * 2 ^ ex x := by
      intro k
      rw [← abs_of_pos hu, ← abs_mul, abs_of_pos hu]
      congr 1
      field_simp
    have key := fun k : ℤ => nearest_int (x / 2 ^ ex x) k
    rcases le_or_gt (ex x) e with he | he
    · obtain ⟨M, hM⟩ := zpow_multiple he
      have ey : (m : ℚ) * 2 ^ e = ((m * M : ℤ) : ℚ) * 2 ^ ex x := by rw [hM]; push_cast; ring
      rw [ey, rd_eq hx, scale, scale]
      obtain ⟨k1, k2⟩ := key (m * M)
      refine ⟨mul_le_mul_of_nonneg_right k1 hu.le, ?_⟩
      intro heq hne
      obtain ⟨k3, k4⟩ := k2 (mul_right_cancel₀ hu.ne' heq) (fun h => hne (by rw [h]))
      refine ⟨rhe (x / 2 ^ ex x) / 2, ?_⟩
      have e1 : |((m * M : ℤ) : ℚ) * 2 ^ ex x - rhe (x / 2 ^ ex x) * 2 ^ ex x| = 2 ^ ex x := by
        rw [← sub_mul, abs_mul, abs_of_pos hu]
        have : |((m * M : ℤ) : ℚ) - rhe (x / 2 ^ ex x)| = 1 := by exact_mod_cast k4
        rw [this, one_mul]
      rw [e1]
      congr 1
      have : 2 * (rhe (x / 2 ^ ex x) / 2) = rhe (x / 2 ^ ex x) := by omega
      exact_mod_cast this.symm
    · have hex : ex x = Int.log 2 x - 52 := by unfold ex at *; omega
      obtain ⟨K, hK⟩ := zpow_multiple (show ex x ≤ Int.log 2 x by omega)
      obtain ⟨b1, b2⟩ := binade hx
      have hylt : (m : ℚ) * 2 ^ e < 2 ^ Int.log 2 x := by
        have h1 : (m : ℚ) < 2 ^ 53 := by exact_mod_cast (abs_lt.1 hm).2
        calc (m : ℚ) * 2 ^ e < 2 ^ 53 * 2 ^ e := mul_lt_mul_of_pos_right h1 (by positivity)
          _ = 2 ^ (53 + e) := by rw [zpow_add₀ (by norm_num)]; norm_num
          _ ≤ _ := zpow_le_zpow_right₀ (by norm_num) (by omega)
      have h1 : |x - rd x| ≤ |x - 2 ^ Int.log 2 x| := by
        rw [hK, rd_eq hx, scale, scale]
        exact mul_le_mul_of_nonneg_right (key K).1 hu.le
      have h2 : |x - 2 ^ Int.log 2 x| < |x - m * 2 ^ e| := by
        rw [abs_of_nonneg (by linarith), abs_of_nonneg (by linarith)]
        linarith
      exact ⟨(h1.trans h2.le), fun h => absurd h (h1.trans_lt h2).ne⟩
  rcases lt_trichotomy x 0 with hx | hx | hx
  · obtain ⟨a, b⟩ := pos (-x) (-y) (by linarith) (binary64_neg hy)
    rw [rd_neg, ← neg_sub', ← neg_sub', abs_neg, abs_neg] at a b
    refine ⟨a, fun h hne => ?_⟩
    obtain ⟨k, hk⟩ := b h (fun h => hne (neg_injective h))
    refine ⟨-k, ?_⟩
    rw [← neg_sub', abs_neg] at hk
    push_cast
    linarith
  · subst hx
    rw [rd_zero]
    simp only [sub_self, abs_zero, zero_sub, abs_neg, abs_nonneg, ne_eq, true_and]
    intro h hne
    exact absurd (abs_eq_zero.1 h.symm) hne
  · exact pos x y hx hy

/-- **C126** (rounding): below `2 ^ 1024`, `rd x` is the binary64 number nearest to `x`; if another one is as near, `rd x`
is the one whose significand is even. -/
theorem C126_rounding (x : ℚ) (h : |rd x| < 2 ^ 1024) : Spec.Binary64 (rd x) ∧ ∀ y, Spec.Binary64 y →
    |x - rd x| ≤ |x - y| ∧ (|x - rd x| = |x - y| → y ≠ rd x → ∃ k : ℤ, rd x = 2 * k * |y - rd x|) :=
  ⟨binary64_rd h, fun y hy => rd_nearest x y hy⟩

theorem FText.isFloat_iff (x : ℚ) : IsFloat x ↔ Spec.Binary64 x := by
  constructor
  · rintro ⟨h1, h2⟩
    rw [← h1] at h2 ⊢
    exact binary64_rd h2
  · intro h
    have h0 := (rd_nearest x x h).1
    rw [sub_self, abs_zero] at h0
    have h1 : rd x = x := by
      have := abs_nonpos_iff.1 h0
      linarith
    refine ⟨h1, ?_⟩
    obtain ⟨m, e, hm, he1, he2, rfl⟩ := h
    rw [abs_mul, abs_of_pos (show (0 : ℚ) < 2 ^ e by positivity)]
    have h3 : |(m : ℚ)| < 2 ^ 53 := by exact_mod_cast hm
    calc |(m : ℚ)| * 2 ^ e < 2 ^ 53 * 2 ^ e := mul_lt_mul_of_pos_right h3 (by positivity)
      _ = 2 ^ (53 + e) := by rw [zpow_add₀ (by norm_num)]; norm_num
      _ ≤ 2 ^ ((1024 : ℕ) : ℤ) := zpow_le_zpow_right₀ (by norm_num) (by omega)
      _ = 2 ^ 1024 := zpow_natCast _ _

end Ranx
