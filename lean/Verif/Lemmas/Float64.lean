import Verif.Model.Float64
import Mathlib.Algebra.Order.Round
import Mathlib.Algebra.Order.Field.Power
import Mathlib.Tactic.Linarith
import Mathlib.Tactic.FieldSimp
import Mathlib.Tactic.Ring
import Mathlib.Tactic.Positivity
import Mathlib.Tactic.NormNum

namespace Ranx.F64

theorem floor_eq (x : ℚ) : x.floor = ⌊x⌋ := rfl

theorem rhe_bounds (x : ℚ) : x - 1 / 2 ≤ rhe x ∧ (rhe x : ℚ) ≤ x + 1 / 2 := by
  have h1 : (x.floor : ℚ) ≤ x := by rw [floor_eq]; exact Int.floor_le x
  have h2 : x < x.floor + 1 := by rw [floor_eq]; exact Int.lt_floor_add_one x
  unfold rhe
  split_ifs <;> push_cast <;> constructor <;> linarith

theorem rhe_int (n : ℤ) : rhe (n : ℚ) = n := by
  unfold rhe
  rw [floor_eq, Int.floor_intCast]
  simp

theorem rhe_mono {x y : ℚ} (h : x ≤ y) : rhe x ≤ rhe y := by
  have hf : x.floor ≤ y.floor := by rw [floor_eq, floor_eq]; exact Int.floor_mono h
  rcases hf.lt_or_eq with hlt | heq
  · have hx : rhe x ≤ x.floor + 1 := by unfold rhe; split_ifs <;> omega
    have hy : y.floor ≤ rhe y := by unfold rhe; split_ifs <;> omega
    omega
  · unfold rhe
    rw [← heq]
    split_ifs <;> first | omega | (exfalso; linarith)

theorem rhe_le_int {x : ℚ} {n : ℤ} (h : x ≤ n) : rhe x ≤ n := by
  have := rhe_mono h
  rwa [rhe_int] at this

theorem int_le_rhe {x : ℚ} {n : ℤ} (h : (n : ℚ) ≤ x) : n ≤ rhe x := by
  have := rhe_mono h
  rwa [rhe_int] at this

theorem rhe_neg (x : ℚ) : rhe (-x) = - rhe x := by
  have key : ∀ (x : ℚ) (n : ℤ), (n : ℚ) ≤ x → x < n + 1 → x.floor = n := by
    intro x n h1 h2
    rw [floor_eq]
    exact Int.floor_eq_iff.2 ⟨h1, h2⟩
  have h1 : (x.floor : ℚ) ≤ x := by rw [floor_eq]; exact Int.floor_le x
  have h2 : x < x.floor + 1 := by rw [floor_eq]; exact Int.lt_floor_add_one x
  by_cases hx : (x.floor : ℚ) = x
  · have e : x = ((x.floor : ℤ) : ℚ) := hx.symm
    generalize x.floor = n at e
    subst e
    have := rhe_int (-n)
    push_cast at this
    rw [this, rhe_int]
  · have h1' : (x.floor : ℚ) < x := lt_of_le_of_ne h1 hx
    have hn : (-x).floor = - x.floor - 1 := by
      apply key
      · push_cast; linarith
      · push_cast; linarith
    unfold rhe
    rw [hn]
    push_cast
    split_ifs <;> first | omega | (exfalso; linarith)

theorem ulp_pos (x : ℚ) : 0 < ulp x := by unfold ulp; positivity

theorem ulp_neg (x : ℚ) : ulp (-x) = ulp x := by unfold ulp; rw [abs_neg]

theorem fl_zero : fl 0 = 0 := if_pos rfl

theorem fl_neg (x : ℚ) : fl (-x) = - fl x := by
  unfold fl
  by_cases h : x = 0
  · subst h; simp
  · rw [if_neg h, if_neg (by simpa using h), ulp_neg, neg_div, rhe_neg]
    push_cast; ring

/-- the binade of a positive number -/
theorem binade {x : ℚ} (hx : 0 < x) :
    (2 : ℚ) ^ Int.log 2 x ≤ x ∧ x < (2 : ℚ) ^ (Int.log 2 x + 1) :=
  ⟨Int.zpow_log_le_self (by norm_num) hx, Int.lt_zpow_succ_log_self (by norm_num) x⟩

theorem ulp_mul_pow {x : ℚ} (hx : 0 < x) : ulp x * 2 ^ 52 = (2 : ℚ) ^ Int.log 2 x := by
  unfold ulp
  rw [abs_of_pos hx, zpow_sub₀ (by norm_num)]
  norm_num

/-- rounding stays in the binade, end included -/
theorem fl_binade {x : ℚ} (hx : 0 < x) :
    (2 : ℚ) ^ Int.log 2 x ≤ fl x ∧ fl x ≤ (2 : ℚ) ^ (Int.log 2 x + 1) := by
  obtain ⟨h1, h2⟩ := binade hx
  have hu := ulp_pos x
  have hp := ulp_mul_pow hx
  rw [zpow_add_one₀ (by norm_num)] at h2
  rw [zpow_add_one₀ (by norm_num)]
  unfold fl
  rw [if_neg hx.ne']
  rw [← hp] at h1 h2 ⊢
  have l1 : ((2 ^ 52 : ℤ) : ℚ) ≤ x / ulp x := by
    rw [le_div_iff₀ hu]; push_cast; linarith
  have l2 : x / ulp x ≤ ((2 ^ 53 : ℤ) : ℚ) := by
    rw [div_le_iff₀ hu]; push_cast; linarith
  have r1 : ((2 ^ 52 : ℤ) : ℚ) ≤ (rhe (x / ulp x) : ℚ) := by exact_mod_cast int_le_rhe l1
  have r2 : (rhe (x / ulp x) : ℚ) ≤ ((2 ^ 53 : ℤ) : ℚ) := by exact_mod_cast rhe_le_int l2
  push_cast at r1 r2
  constructor
  · have := mul_le_mul_of_nonneg_right r1 hu.le
    linarith
  · have := mul_le_mul_of_nonneg_right r2 hu.le
    linarith

theorem fl_pos {x : ℚ} (hx : 0 < x) : 0 < fl x :=
  lt_of_lt_of_le (by positivity) (fl_binade hx).1

theorem fl_mono_pos {x y : ℚ} (hx : 0 < x) (h : x ≤ y) : fl x ≤ fl y := by
  have hy : 0 < y := hx.trans_le h
  have hlog : Int.log 2 x ≤ Int.log 2 y := Int.log_mono_right hx h
  rcases hlog.lt_or_eq with hlt | heq
  · refine (fl_binade hx).2.trans (le_trans ?_ (fl_binade hy).1)
    exact zpow_le_zpow_right₀ (by norm_num) hlt
  · have hu : ulp x = ulp y := by unfold ulp; rw [abs_of_pos hx, abs_of_pos hy, heq]
    unfold fl
    rw [if_neg hx.ne', if_neg hy.ne', hu]
    apply mul_le_mul_of_nonneg_right _ (ulp_pos y).le
    exact_mod_cast rhe_mono (div_le_div_of_nonneg_right h (ulp_pos y).le)

/-- rounding is monotone -/
theorem fl_mono {x y : ℚ} (h : x ≤ y) : fl x ≤ fl y := by
  rcases lt_trichotomy x 0 with hx | hx | hx
  · rcases lt_trichotomy y 0 with hy | hy | hy
    · have := fl_mono_pos (x := -y) (y := -x) (by linarith) (by linarith)
      rw [fl_neg, fl_neg] at this
      linarith
    · subst hy
      have := fl_pos (x := -x) (by linarith)
      rw [fl_neg] at this
      rw [fl_zero]; linarith
    · have h1 := fl_pos (x := -x) (by linarith)
      rw [fl_neg] at h1
      have h2 := fl_pos hy
      linarith
  · subst hx
    rw [fl_zero]
    rcases h.lt_or_eq with h | h
    · exact (fl_pos h).le
    · rw [← h, fl_zero]
  · exact fl_mono_pos hx h

/-- numbers with a 53-bit significand are not changed: `m · 2^e` with `|m| ≤ 2^53` -/
theorem fl_exact (m e : ℤ) (hm : |m| ≤ 2 ^ 53) : fl ((m : ℚ) * 2 ^ e) = (m : ℚ) * 2 ^ e := by
  have hpos : ∀ m : ℤ, 0 < m → m ≤ 2 ^ 53 → fl ((m : ℚ) * 2 ^ e) = (m : ℚ) * 2 ^ e := by
    intro m h0 hm
    have hmq : (0 : ℚ) < m := by exact_mod_cast h0
    have hx : (0 : ℚ) < (m : ℚ) * 2 ^ e := by positivity
    rcases hm.lt_or_eq with hlt | heq
    · have hlog : Int.log 2 ((m : ℚ) * 2 ^ e) ≤ e + 52 := by
        have : Int.log 2 ((m : ℚ) * 2 ^ e) < e + 53 := by
          rw [← Int.lt_zpow_iff_log_lt (by norm_num) hx]
          push_cast
          rw [zpow_add₀ (by norm_num : (2 : ℚ) ≠ 0), mul_comm]
          apply mul_lt_mul_of_pos_left _ (by positivity)
          have : (m : ℚ) < 2 ^ 53 := by exact_mod_cast hlt
          exact_mod_cast this
        omega
      unfold fl
      rw [if_neg hx.ne']
      have hu : ((m : ℚ) * 2 ^ e) / ulp ((m : ℚ) * 2 ^ e) =
          ((m * 2 ^ (e + 52 - Int.log 2 ((m : ℚ) * 2 ^ e)).toNat : ℤ) : ℚ) := by
        unfold ulp
        rw [abs_of_pos hx]
        generalize Int.log 2 ((m : ℚ) * 2 ^ e) = l at hlog
        push_cast
        rw [← zpow_natCast, Int.toNat_of_nonneg (by omega), div_eq_iff (by positivity), mul_assoc,
          ← zpow_add₀ (by norm_num)]
        congr 2; ring
      rw [hu, rhe_int, ← hu]
      rw [div_mul_cancel₀ _ (ulp_pos _).ne']
    · have hx2 : (m : ℚ) * 2 ^ e = (2 : ℚ) ^ (e + 53) := by
        rw [heq, zpow_add₀ (by norm_num)]; push_cast; ring
      rw [hx2]
      have hp : (0 : ℚ) < (2 : ℚ) ^ (e + 53) := by positivity
      have hl : Int.log 2 ((2 : ℚ) ^ (e + 53)) = e + 53 := by
        have := Int.log_zpow (R := ℚ) (b := 2) (by norm_num) (e + 53)
        exact_mod_cast this
      unfold fl
      rw [if_neg hp.ne']
      have hu : (2 : ℚ) ^ (e + 53) / ulp ((2 : ℚ) ^ (e + 53)) = ((2 ^ 52 : ℤ) : ℚ) := by
        rw [div_eq_iff (ulp_pos _).ne']
        have := ulp_mul_pow hp
        rw [hl] at this
        push_cast
        linarith
      rw [hu, rhe_int, ← hu, div_mul_cancel₀ _ (ulp_pos _).ne']
  rcases lt_trichotomy m 0 with h | h | h
  · have h1 := hpos (-m) (by omega) (by have := neg_abs_le m; omega)
    push_cast at h1
    rw [neg_mul, fl_neg] at h1
    linarith
  · subst h; simp [fl_zero]
  · exact hpos m h (by have := le_abs_self m; omega)

/-- integers up to 2^53 are not changed -/
theorem fl_int (n : ℤ) (h : |n| ≤ 2 ^ 53) : fl (n : ℚ) = n := by
  have := fl_exact n 0 h
  simpa using this

theorem fl_one : fl 1 = 1 := by
  have := fl_int 1 (by norm_num)
  exact_mod_cast this

/-- a rounded number has a 53-bit significand -/
theorem fl_form (x : ℚ) : ∃ m e : ℤ, |m| ≤ 2 ^ 53 ∧ fl x = (m : ℚ) * 2 ^ e := by
  have hpos : ∀ x : ℚ, 0 < x → ∃ m e : ℤ, |m| ≤ 2 ^ 53 ∧ fl x = (m : ℚ) * 2 ^ e := by
    intro x hx
    refine ⟨rhe (x / ulp x), Int.log 2 |x| - 52, ?_, ?_⟩
    · have hu := ulp_pos x
      have h2 := (binade hx).2
      have hp := ulp_mul_pow hx
      rw [zpow_add_one₀ (by norm_num), ← hp] at h2
      have l2 : x / ulp x ≤ ((2 ^ 53 : ℤ) : ℚ) := by
        rw [div_le_iff₀ hu]; push_cast; linarith
      have l1 : ((0 : ℤ) : ℚ) ≤ x / ulp x := by push_cast; positivity
      rw [abs_of_nonneg (int_le_rhe l1)]
      exact rhe_le_int l2
    · unfold fl; rw [if_neg hx.ne']; rfl
  rcases lt_trichotomy x 0 with h | h | h
  · obtain ⟨m, e, h1, h2⟩ := hpos (-x) (by linarith)
    refine ⟨-m, e, by rwa [abs_neg], ?_⟩
    rw [fl_neg] at h2
    push_cast; linarith
  · exact ⟨0, 0, by norm_num, by rw [h, fl_zero]; norm_num⟩
  · exact hpos x h

/-- rounding twice is rounding once -/
theorem fl_fl (x : ℚ) : fl (fl x) = fl x := by
  obtain ⟨m, e, h1, h2⟩ := fl_form x
  rw [h2, fl_exact m e h1]

end Ranx.F64
