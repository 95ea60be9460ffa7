import Mathlib.Tactic.Linarith
import Mathlib.Tactic.Positivity
import Mathlib.Tactic.NormNum
import Mathlib.Tactic.FieldSimp
import Mathlib.Tactic.Ring
import Mathlib.Algebra.Order.Field.Power
import Verif.Model.FloatText
import Verif.Lemmas.Float64

/-! # Lemmas on binary64 rounding with subnormal numbers and on shortest decimals -/

namespace Ranx.FText
open F64

/-! ## rounding -/

theorem ulp_pos (x : ℚ) : 0 < ulp x := by unfold ulp; positivity

theorem rd_zero : rd 0 = 0 := if_pos rfl

theorem ulp_neg (x : ℚ) : ulp (-x) = ulp x := by unfold ulp; rw [abs_neg]

theorem rd_neg (x : ℚ) : rd (-x) = - rd x := by
  unfold rd
  by_cases h : x = 0
  · subst h; simp
  · rw [if_neg h, if_neg (by simpa using h), ulp_neg, neg_div, rhe_neg]
    push_cast; ring

theorem rhe_near {y : ℚ} {n : ℤ} (h : |y - n| < 1 / 2) : rhe y = n := by
  obtain ⟨h1, h2⟩ := rhe_bounds y
  obtain ⟨h3, h4⟩ := abs_lt.1 h
  have a : (rhe y : ℚ) < n + 1 := by linarith
  have b : (n : ℚ) < rhe y + 1 := by linarith
  have a' : rhe y < n + 1 := by exact_mod_cast a
  have b' : n < rhe y + 1 := by exact_mod_cast b
  omega

theorem zpow_multiple {a b : ℤ} (h : a ≤ b) : ∃ n : ℤ, (2 : ℚ) ^ b = n * 2 ^ a := by
  refine ⟨2 ^ (b - a).toNat, ?_⟩
  have e : b = ((b - a).toNat : ℤ) + a := by omega
  conv_lhs => rw [e]
  rw [zpow_add₀ (by norm_num), zpow_natCast]
  push_cast
  rfl

/-- exponent of the spacing -/
def ex (x : ℚ) : ℤ := max (Int.log 2 x - 52) (-1074)

theorem ulp_eq {x : ℚ} (hx : 0 < x) : ulp x = 2 ^ ex x := by
  unfold ulp ex
  rw [abs_of_pos hx]

theorem rd_eq {x : ℚ} (hx : 0 < x) : rd x = (rhe (x / 2 ^ ex x) : ℚ) * 2 ^ ex x := by
  unfold rd
  rw [if_neg hx.ne', ulp_eq hx]

theorem rd_mono_pos {x y : ℚ} (hx : 0 < x) (h : x ≤ y) : rd x ≤ rd y := by
  have hy : 0 < y := hx.trans_le h
  have hlog : Int.log 2 x ≤ Int.log 2 y := Int.log_mono_right hx h
  rw [rd_eq hx, rd_eq hy]
  by_cases he : ex x = ex y
  · rw [he]
    have hp : (0 : ℚ) < 2 ^ ex y := by positivity
    have := rhe_mono (div_le_div_of_nonneg_right h hp.le)
    have : (rhe (x / 2 ^ ex y) : ℚ) ≤ rhe (y / 2 ^ ex y) := by exact_mod_cast this
    exact mul_le_mul_of_nonneg_right this hp.le
  · have h1 : ex y = Int.log 2 y - 52 := by unfold ex at *; omega
    have h2 : ex x ≤ Int.log 2 y := by unfold ex at *; omega
    have h3 : Int.log 2 x + 1 ≤ Int.log 2 y := by unfold ex at *; omega
    have px : (0 : ℚ) < 2 ^ ex x := by positivity
    have py : (0 : ℚ) < 2 ^ ex y := by positivity
    obtain ⟨M, hM⟩ := zpow_multiple h2
    obtain ⟨K, hK⟩ := zpow_multiple (show ex y ≤ Int.log 2 y by omega)
    have a : x ≤ 2 ^ Int.log 2 y :=
      (binade hx).2.le.trans (zpow_le_zpow_right₀ (by norm_num) h3)
    have b : (2 : ℚ) ^ Int.log 2 y ≤ y := (binade hy).1
    have ra : rhe (x / 2 ^ ex x) ≤ M := rhe_le_int (by rw [div_le_iff₀ px, ← hM]; exact a)
    have rb : K ≤ rhe (y / 2 ^ ex y) := int_le_rhe (by rw [le_div_iff₀ py, ← hK]; exact b)
    have ra' : (rhe (x / 2 ^ ex x) : ℚ) ≤ M := by exact_mod_cast ra
    have rb' : (K : ℚ) ≤ rhe (y / 2 ^ ex y) := by exact_mod_cast rb
    calc (rhe (x / 2 ^ ex x) : ℚ) * 2 ^ ex x ≤ M * 2 ^ ex x := mul_le_mul_of_nonneg_right ra' px.le
      _ = K * 2 ^ ex y := by rw [← hM, hK]
      _ ≤ _ := mul_le_mul_of_nonneg_right rb' py.le

theorem rd_nonneg {x : ℚ} (hx : 0 < x) : 0 ≤ rd x := by
  rw [rd_eq hx]
  have : 0 ≤ rhe (x / 2 ^ ex x) := int_le_rhe (by push_cast; positivity)
  have : (0 : ℚ) ≤ rhe (x / 2 ^ ex x) := by exact_mod_cast this
  positivity

/-- a positive float is a multiple of its spacing and at least `2 ^ -1074` -/
theorem float_form {x : ℚ} (hx : 0 < x) (hf : rd x = x) :
    ∃ n : ℤ, x = n * 2 ^ ex x ∧ 0 < n ∧ -1074 ≤ Int.log 2 x := by
  rw [rd_eq hx] at hf
  refine ⟨rhe (x / 2 ^ ex x), hf.symm, ?_, ?_⟩
  · by_contra h
    have : (rhe (x / 2 ^ ex x) : ℚ) ≤ 0 := by exact_mod_cast not_lt.1 h
    have : (rhe (x / 2 ^ ex x) : ℚ) * 2 ^ ex x ≤ 0 := mul_nonpos_of_nonpos_of_nonneg this (by positivity)
    linarith
  · have hn : 0 < rhe (x / 2 ^ ex x) := by
      by_contra h
      have : (rhe (x / 2 ^ ex x) : ℚ) ≤ 0 := by exact_mod_cast not_lt.1 h
      have : (rhe (x / 2 ^ ex x) : ℚ) * 2 ^ ex x ≤ 0 := mul_nonpos_of_nonpos_of_nonneg this (by positivity)
      linarith
    have hn' : (1 : ℚ) ≤ rhe (x / 2 ^ ex x) := by exact_mod_cast hn
    have h1 : (2 : ℚ) ^ ex x ≤ x := by
      calc (2 : ℚ) ^ ex x = 1 * 2 ^ ex x := (one_mul _).symm
        _ ≤ (rhe (x / 2 ^ ex x) : ℚ) * 2 ^ ex x := mul_le_mul_of_nonneg_right hn' (by positivity)
        _ = x := hf
    have h2 : (2 : ℚ) ^ (-1074 : ℤ) ≤ x := (zpow_le_zpow_right₀ (by norm_num) (le_max_right _ _)).trans h1
    exact (Int.zpow_le_iff_le_log (b := 2) (by norm_num) hx).1 (by exact_mod_cast h2)

/-- whatever is close enough to a float is rounded to it -/
theorem rd_near {x c : ℚ} (hx : 0 < x) (hf : rd x = x) (h : |c - x| < ulp x / 2)
    (h2 : x = 2 ^ Int.log 2 x → |c - x| < ulp x / 4) : rd c = x := by
  obtain ⟨n, hn, hn0, he⟩ := float_form hx hf
  rw [ulp_eq hx] at h h2
  have hexle : ex x ≤ Int.log 2 x := by unfold ex; omega
  have hu : (0 : ℚ) < 2 ^ ex x := by positivity
  obtain ⟨M, hM⟩ := zpow_multiple hexle
  obtain ⟨b1, b2⟩ := binade hx
  have hM0 : (0 : ℚ) < 2 ^ Int.log 2 x := by positivity
  have hue : (2 : ℚ) ^ ex x ≤ 2 ^ Int.log 2 x := zpow_le_zpow_right₀ (by norm_num) hexle
  obtain ⟨h3, h4⟩ := abs_lt.1 h
  have hc : 0 < c := by linarith
  rcases lt_trichotomy (Int.log 2 c) (Int.log 2 x) with hl | hl | hl
  · -- below the binade
    have hcl : c < 2 ^ Int.log 2 x := by
      have := (Int.lt_zpow_iff_log_lt (b := 2) (by norm_num) hc).2 hl
      exact_mod_cast this
    have hnM : n = M := by
      have a : (M : ℚ) * 2 ^ ex x ≤ n * 2 ^ ex x := by rw [← hM, ← hn]; exact b1
      have a' : (M : ℚ) ≤ n := le_of_mul_le_mul_right a hu
      have b : (n : ℚ) * 2 ^ ex x < (M + 1) * 2 ^ ex x := by
        rw [← hn, add_mul, one_mul, ← hM]; linarith
      have b' : (n : ℚ) < M + 1 := lt_of_mul_lt_mul_right b hu.le
      have a'' : M ≤ n := by exact_mod_cast a'
      have b'' : n < M + 1 := by exact_mod_cast b'
      omega
    have hxe : x = 2 ^ Int.log 2 x := by rw [hM, ← hnM]; exact hn
    have h5 := h2 hxe
    obtain ⟨h6, h7⟩ := abs_lt.1 h5
    have hlc : Int.log 2 c = Int.log 2 x - 1 := by
      have : (2 : ℚ) ^ (Int.log 2 x - 1) ≤ c := by
        rw [zpow_sub₀ (by norm_num), zpow_one]
        linarith
      have := (Int.zpow_le_iff_le_log (b := 2) (by norm_num) hc).1 (by exact_mod_cast this)
      omega
    have hexc : ex c = max (Int.log 2 x - 53) (-1074) := by unfold ex; rw [hlc]; congr 1; ring
    obtain ⟨K, hK⟩ := zpow_multiple (show ex c ≤ Int.log 2 x by rw [hexc]; omega)
    have hv : (0 : ℚ) < 2 ^ ex c := by positivity
    have huv : (2 : ℚ) ^ ex x ≤ 2 * 2 ^ ex c := by
      have : (2 : ℚ) * 2 ^ ex c = 2 ^ (ex c + 1) := by rw [zpow_add₀ (by norm_num), zpow_one]; ring
      rw [this]
      exact zpow_le_zpow_right₀ (by norm_num) (by rw [hexc]; unfold ex; omega)
    rw [rd_eq hc]
    have : rhe (c / 2 ^ ex c) = K := by
      apply rhe_near
      have e : c / 2 ^ ex c - K = (c - x) / 2 ^ ex c := by
        rw [hxe, hK]; field_simp
      rw [e, abs_div, abs_of_pos hv, div_lt_iff₀ hv]
      linarith
    rw [this, ← hK, ← hxe]
  · have hexc : ex c = ex x := by unfold ex; rw [hl]
    rw [rd_eq hc, hexc]
    have : rhe (c / 2 ^ ex x) = n := by
      apply rhe_near
      have e : c / 2 ^ ex x - n = (c - x) / 2 ^ ex x := by
        rw [sub_div]; congr 1
        rw [eq_div_iff hu.ne']; exact hn.symm
      rw [e, abs_div, abs_of_pos hu, div_lt_iff₀ hu]
      linarith
    rw [this]; exact hn.symm
  · exfalso
    have hcl : (2 : ℚ) ^ (Int.log 2 x + 1) ≤ c := by
      have := (Int.zpow_le_iff_le_log (b := 2) (by norm_num) hc).2 (show Int.log 2 x + 1 ≤ Int.log 2 c by omega)
      exact_mod_cast this
    have e2 : (2 : ℚ) ^ (Int.log 2 x + 1) = (2 * M) * 2 ^ ex x := by
      rw [zpow_add₀ (by norm_num), zpow_one, hM]; ring
    have a : (n : ℚ) * 2 ^ ex x < (2 * M : ℤ) * 2 ^ ex x := by
      rw [← hn]; push_cast; rw [← e2]; exact b2
    have a' : (n : ℚ) < (2 * M : ℤ) := lt_of_mul_lt_mul_right a hu.le
    have a'' : n + 1 ≤ 2 * M := by
      have : n < 2 * M := by exact_mod_cast a'
      omega
    have b : ((n + 1 : ℤ) : ℚ) ≤ (2 * M : ℤ) := by exact_mod_cast a''
    have b' : ((n + 1 : ℤ) : ℚ) * 2 ^ ex x ≤ (2 * M : ℤ) * 2 ^ ex x := mul_le_mul_of_nonneg_right b hu.le
    push_cast at b'
    rw [← e2, add_mul, one_mul, ← hn] at b'
    linarith

/-! ## decimals -/

theorem decade {x : ℚ} (hx : 0 < x) : (10 : ℚ) ^ log10 x ≤ x ∧ x < (10 : ℚ) ^ (log10 x + 1) := by
  unfold log10
  have a := Int.zpow_log_le_self (b := 10) (by norm_num) hx
  have b := Int.lt_zpow_succ_log_self (b := 10) (by norm_num) x
  exact ⟨by exact_mod_cast a, by exact_mod_cast b⟩

/-- the spacing of the decimals with `n` digits -/
theorem below_bounds {x : ℚ} (hx : 0 < x) (n : Nat) :
    decVal (below x n) ≤ x ∧ x < decVal (next (below x n)) ∧
      decVal (next (below x n)) = decVal (below x n) + 10 ^ (log10 x + 1 - n) := by
  have hs : (0 : ℚ) < 10 ^ (log10 x + 1 - n) := by positivity
  have hinv : (10 : ℚ) ^ ((n : ℤ) - 1 - log10 x) * 10 ^ (log10 x + 1 - n) = 1 := by
    rw [← zpow_add₀ (by norm_num)]
    have : (n : ℤ) - 1 - log10 x + (log10 x + 1 - n) = 0 := by ring
    rw [this, zpow_zero]
  have hy : 0 ≤ x * (10 : ℚ) ^ ((n : ℤ) - 1 - log10 x) := by positivity
  have f1 := Nat.floor_le hy
  have f2 := Nat.lt_floor_add_one (x * (10 : ℚ) ^ ((n : ℤ) - 1 - log10 x))
  have e : x * (10 : ℚ) ^ ((n : ℤ) - 1 - log10 x) * 10 ^ (log10 x + 1 - n) = x := by
    rw [mul_assoc, hinv, mul_one]
  refine ⟨?_, ?_, ?_⟩
  · unfold decVal below
    calc (_ : ℚ) ≤ _ := mul_le_mul_of_nonneg_right f1 hs.le
      _ = x := e
  · unfold decVal next below
    calc x = _ := e.symm
      _ < _ := mul_lt_mul_of_pos_right f2 hs
      _ = _ := by push_cast; rfl
  · unfold decVal next below
    push_cast; ring

theorem below_lower {x : ℚ} (hx : 0 < x) (n : Nat) (hn : 1 ≤ n) : (10 : ℚ) ^ log10 x ≤ decVal (below x n) := by
  have hs : (0 : ℚ) < 10 ^ (log10 x + 1 - n) := by positivity
  have h1 : ((10 ^ (n - 1) : ℕ) : ℚ) ≤ x * (10 : ℚ) ^ ((n : ℤ) - 1 - log10 x) := by
    have e : ((10 ^ (n - 1) : ℕ) : ℚ) = 10 ^ log10 x * (10 : ℚ) ^ ((n : ℤ) - 1 - log10 x) := by
      rw [← zpow_add₀ (by norm_num)]
      have : log10 x + ((n : ℤ) - 1 - log10 x) = ((n - 1 : ℕ) : ℤ) := by omega
      rw [this, zpow_natCast]; push_cast; rfl
    rw [e]
    exact mul_le_mul_of_nonneg_right (decade hx).1 (by positivity)
  have h2 : 10 ^ (n - 1) ≤ (below x n).1 := Nat.le_floor h1
  have h3 : ((10 ^ (n - 1) : ℕ) : ℚ) ≤ (below x n).1 := by exact_mod_cast h2
  unfold decVal
  calc (10 : ℚ) ^ log10 x = ((10 ^ (n - 1) : ℕ) : ℚ) * 10 ^ (log10 x + 1 - n) := by
        push_cast
        rw [← zpow_natCast, ← zpow_add₀ (by norm_num)]
        congr 1; omega
    _ ≤ _ := mul_le_mul_of_nonneg_right h3 hs.le

theorem next_upper {x : ℚ} (hx : 0 < x) (n : Nat) (hn : 1 ≤ n) :
    decVal (next (below x n)) ≤ (10 : ℚ) ^ (log10 x + 1) := by
  have hs : (0 : ℚ) < 10 ^ (log10 x + 1 - n) := by positivity
  have h1 : x * (10 : ℚ) ^ ((n : ℤ) - 1 - log10 x) < ((10 ^ n : ℕ) : ℚ) := by
    have e : ((10 ^ n : ℕ) : ℚ) = 10 ^ (log10 x + 1) * (10 : ℚ) ^ ((n : ℤ) - 1 - log10 x) := by
      rw [← zpow_add₀ (by norm_num)]
      have : log10 x + 1 + ((n : ℤ) - 1 - log10 x) = (n : ℤ) := by omega
      rw [this, zpow_natCast]; push_cast; rfl
    rw [e]
    exact mul_lt_mul_of_pos_right (decade hx).2 (by positivity)
  have h2 : (below x n).1 < 10 ^ n := by
    unfold below
    exact (Nat.floor_lt (by positivity)).2 h1
  have h3 : (((below x n).1 + 1 : ℕ) : ℚ) ≤ ((10 ^ n : ℕ) : ℚ) := by exact_mod_cast h2
  unfold decVal next
  calc (_ : ℚ) ≤ ((10 ^ n : ℕ) : ℚ) * 10 ^ (log10 x + 1 - n) := mul_le_mul_of_nonneg_right h3 hs.le
    _ = _ := by
      push_cast
      rw [← zpow_natCast, ← zpow_add₀ (by norm_num)]
      congr 1; omega

/-- 17 digits are enough -/
theorem enough {x : ℚ} (hx : 0 < x) (hf : rd x = x) :
    rd (decVal (below x 17)) = x ∨ rd (decVal (next (below x 17))) = x := by
  obtain ⟨h1, h2, h3⟩ := below_bounds hx 17
  obtain ⟨d1, d2⟩ := decade hx
  obtain ⟨b1, b2⟩ := binade hx
  set s : ℚ := 10 ^ (log10 x + 1 - (17 : ℕ)) with hsdef
  have hs : s * 10 ^ 16 = 10 ^ log10 x := by
    rw [hsdef, ← zpow_natCast, ← zpow_add₀ (by norm_num)]
    congr 1; push_cast; ring
  have hu : (2 : ℚ) ^ (Int.log 2 x - 52) ≤ ulp x := by
    rw [ulp_eq hx]
    exact zpow_le_zpow_right₀ (by norm_num) (le_max_left _ _)
  have hu2 : (2 : ℚ) ^ (Int.log 2 x - 52) * 2 ^ 52 = 2 ^ Int.log 2 x := by
    rw [← zpow_natCast, ← zpow_add₀ (by norm_num)]
    congr 1; push_cast; ring
  have hb2 : (2 : ℚ) ^ (Int.log 2 x + 1) = 2 * 2 ^ Int.log 2 x := by
    rw [zpow_add₀ (by norm_num), zpow_one]; ring
  have hpe : (0 : ℚ) < 2 ^ Int.log 2 x := by positivity
  have hsu : s < ulp x := by
    have : s * 10 ^ 16 < 2 * 2 ^ Int.log 2 x := by rw [hs, ← hb2]; linarith
    norm_num at this hu2
    linarith
  have hsu2 : x = 2 ^ Int.log 2 x → s < ulp x / 2 := by
    intro hxe
    have : s * 10 ^ 16 ≤ 2 ^ Int.log 2 x := by rw [hs, ← hxe]; exact d1
    norm_num at this hu2
    linarith
  have hs0 : 0 < s := by positivity
  by_cases hc : x - decVal (below x 17) ≤ s / 2
  · left
    refine rd_near hx hf ?_ ?_
    · rw [abs_sub_comm, abs_of_nonneg (by linarith)]; linarith
    · intro e; have := hsu2 e
      rw [abs_sub_comm, abs_of_nonneg (by linarith)]; linarith
  · right
    have hc' := not_le.1 hc
    refine rd_near hx hf ?_ ?_
    · rw [abs_of_nonneg (by linarith)]; linarith
    · intro e; have := hsu2 e
      rw [abs_of_nonneg (by linarith)]; linarith

/-- a decimal with at most `n` digits is not strictly between the two decimals around `x` -/
theorem outside {x : ℚ} (hx : 0 < x) {n m : Nat} (hn : 1 ≤ n) (hm : m < 10 ^ n) (e : ℤ) :
    decVal (m, e) ≤ decVal (below x n) ∨ decVal (next (below x n)) ≤ decVal (m, e) := by
  by_contra hcon
  rw [not_or, not_le, not_le] at hcon
  obtain ⟨h1, h2⟩ := hcon
  have l := below_lower hx n hn
  have u := next_upper hx n hn
  obtain ⟨-, -, h3⟩ := below_bounds hx n
  have hs : (0 : ℚ) < 10 ^ (log10 x + 1 - n) := by positivity
  -- the exponent is large enough
  have hE : log10 x + 1 - n ≤ e := by
    by_contra hlt
    have hlt' : e + n ≤ log10 x := by omega
    have : decVal (m, e) < 10 ^ log10 x := by
      unfold decVal
      have hm' : (m : ℚ) < ((10 ^ n : ℕ) : ℚ) := by exact_mod_cast hm
      calc (m : ℚ) * 10 ^ e < ((10 ^ n : ℕ) : ℚ) * 10 ^ e := mul_lt_mul_of_pos_right hm' (by positivity)
        _ = 10 ^ (e + n) := by
          push_cast
          rw [← zpow_natCast, ← zpow_add₀ (by norm_num)]
          congr 1; ring
        _ ≤ _ := zpow_le_zpow_right₀ (by norm_num) hlt'
    linarith
  -- so it is a multiple of the spacing
  have hmul : decVal (m, e) = ((m * 10 ^ (e - (log10 x + 1 - n)).toNat : ℕ) : ℚ) * 10 ^ (log10 x + 1 - n) := by
    unfold decVal
    push_cast
    rw [mul_assoc, ← zpow_natCast, ← zpow_add₀ (by norm_num)]
    congr 2
    omega
  rw [h3, hmul] at h2
  rw [hmul] at h1
  unfold decVal below at h1 h2
  simp only at h1 h2
  have h1' := lt_of_mul_lt_mul_right h1 hs.le
  have h2' : ((m * 10 ^ (e - (log10 x + 1 - n)).toNat : ℕ) : ℚ) <
      (⌊x * (10 : ℚ) ^ ((n : ℤ) - 1 - log10 x)⌋₊ : ℚ) + 1 := by
    apply lt_of_mul_lt_mul_right _ hs.le
    rw [add_mul, one_mul]; exact h2
  have a : ⌊x * (10 : ℚ) ^ ((n : ℤ) - 1 - log10 x)⌋₊ < m * 10 ^ (e - (log10 x + 1 - n)).toNat := by exact_mod_cast h1'
  have b : m * 10 ^ (e - (log10 x + 1 - n)).toNat < ⌊x * (10 : ℚ) ^ ((n : ℤ) - 1 - log10 x)⌋₊ + 1 := by exact_mod_cast h2'
  omega

/-- a decimal with at most `n` digits that is read back as `x`: so is one of the two decimals around `x`, which is at
least as close -/
theorem cands_of {x : ℚ} (hx : 0 < x) (hf : rd x = x) {n m : Nat} (hn : 1 ≤ n) (hm : m < 10 ^ n) (e : ℤ)
    (h : rd (decVal (m, e)) = x) :
    (rd (decVal (below x n)) = x ∧ x - decVal (below x n) ≤ |decVal (m, e) - x|) ∨
    (rd (decVal (next (below x n))) = x ∧ decVal (next (below x n)) - x ≤ |decVal (m, e) - x|) := by
  obtain ⟨h1, h2, h3⟩ := below_bounds hx n
  have hpos : 0 < decVal (m, e) := by
    have h0 : 0 ≤ decVal (m, e) := by unfold decVal; positivity
    rcases h0.lt_or_eq with h0 | h0
    · exact h0
    · rw [← h0, rd_zero] at h; exact absurd h hx.ne
  rcases outside hx hn hm e with ho | ho
  · left
    refine ⟨le_antisymm ?_ ?_, ?_⟩
    · have := rd_mono_pos (lt_of_lt_of_le (by positivity) (below_lower hx n hn)) h1
      rwa [hf] at this
    · have := rd_mono_pos hpos ho
      rwa [h] at this
    · rw [abs_sub_comm, abs_of_nonneg (by linarith)]; linarith
  · right
    refine ⟨le_antisymm ?_ ?_, ?_⟩
    · have := rd_mono_pos (hx.trans h2) ho
      rwa [h] at this
    · have := rd_mono_pos hx h2.le
      rwa [hf] at this
    · rw [abs_of_nonneg (by linarith)]; linarith

theorem mem_cands {x : ℚ} {n : Nat} {d : Nat × ℤ} :
    d ∈ cands x n ↔ (d = below x n ∨ d = next (below x n)) ∧ rd (decVal d) = x := by
  unfold cands
  simp only [List.mem_filter, decide_eq_true_eq]
  split_ifs <;> simp [or_comm]

/-- the first candidate is the closest -/
theorem head_cands {x : ℚ} (hx : 0 < x) {n : Nat} {d : Nat × ℤ} (h : (cands x n).head? = some d) :
    (d = below x n ∨ d = next (below x n)) ∧ rd (decVal d) = x ∧
    ∀ d' ∈ cands x n, |decVal d - x| ≤ |decVal d' - x| := by
  have hd := mem_cands.1 (List.mem_of_head? h)
  refine ⟨hd.1, hd.2, ?_⟩
  obtain ⟨h1, h2, h3⟩ := below_bounds hx n
  have ea : |decVal (below x n) - x| = x - decVal (below x n) := by
    rw [abs_sub_comm, abs_of_nonneg (by linarith)]
  have eb : |decVal (next (below x n)) - x| = decVal (next (below x n)) - x := abs_of_nonneg (by linarith)
  intro d' hd'
  have hd'' := mem_cands.1 hd'
  unfold cands at h
  simp only at h
  split_ifs at h with hc
  · have hc' : |decVal (below x n) - x| ≤ |decVal (next (below x n)) - x| := by
      rw [ea, eb]; rcases hc with hc | hc
      · exact hc.le
      · exact hc.1.le
    by_cases ha : rd (decVal (below x n)) = x
    · rw [List.filter_cons_of_pos (by simpa using ha), List.head?_cons, Option.some.injEq] at h
      rw [← h]
      rcases hd''.1 with rfl | rfl
      · exact le_refl _
      · exact hc'
    · rcases hd.1 with rfl | rfl
      · exact absurd hd.2 ha
      · rcases hd''.1 with rfl | rfl
        · exact absurd hd''.2 ha
        · exact le_refl _
  · have hc' : |decVal (next (below x n)) - x| ≤ |decVal (below x n) - x| := by
      rw [ea, eb]
      by_contra hlt
      exact hc (.inl (not_le.1 hlt))
    by_cases ha : rd (decVal (next (below x n))) = x
    · rw [List.filter_cons_of_pos (by simpa using ha), List.head?_cons, Option.some.injEq] at h
      rw [← h]
      rcases hd''.1 with rfl | rfl
      · exact hc'
      · exact le_refl _
    · rcases hd.1 with rfl | rfl
      · rcases hd''.1 with rfl | rfl
        · exact le_refl _
        · exact absurd hd''.2 ha
      · exact absurd hd.2 ha

theorem range_split {n i : Nat} {a b : List Nat} (h : List.range n = a ++ i :: b) : i < n ∧ a = List.range i := by
  have hl := congrArg List.length h
  simp at hl
  have hi : i = a.length := by
    have := congrArg (fun l => l[a.length]?) h
    rw [List.getElem?_append_right (le_refl _), Nat.sub_self, List.getElem?_cons_zero, List.getElem?_range (by omega),
      Option.some.injEq] at this
    exact this.symm
  refine ⟨by omega, ?_⟩
  have := congrArg (List.take a.length) h
  rw [List.take_left', List.take_range] at this
  · rw [← this, hi]; congr 1; omega
  · rfl

/-- what `shortest` returns -/
theorem shortest_spec {x : ℚ} (hx : 0 < x) (hf : rd x = x) :
    ∃ n, 1 ≤ n ∧ n ≤ 17 ∧ (shortest x = below x n ∨ shortest x = next (below x n)) ∧ rd (decVal (shortest x)) = x ∧
      (∀ d ∈ cands x n, |decVal (shortest x) - x| ≤ |decVal d - x|) ∧
      ∀ j, 1 ≤ j → j < n → cands x j = [] := by
  have hsome : ((List.range 17).findSome? (fun i => (cands x (i + 1)).head?)).isSome := by
    rw [List.findSome?_isSome_iff]
    refine ⟨16, by simp, ?_⟩
    rcases enough hx hf with h | h
    · have : below x 17 ∈ cands x 17 := mem_cands.2 ⟨.inl rfl, h⟩
      cases hc : cands x 17 with
      | nil => rw [hc] at this; cases this
      | cons a t => simp
    · have : next (below x 17) ∈ cands x 17 := mem_cands.2 ⟨.inr rfl, h⟩
      cases hc : cands x 17 with
      | nil => rw [hc] at this; cases this
      | cons a t => simp
  obtain ⟨d, hd⟩ := Option.isSome_iff_exists.1 hsome
  have hsh : shortest x = d := by unfold shortest; rw [hd]
  obtain ⟨l1, i, l2, hl, hi, hnone⟩ := List.findSome?_eq_some_iff.1 hd
  obtain ⟨hi17, rfl⟩ := range_split hl
  obtain ⟨g1, g2, g3⟩ := head_cands hx hi
  refine ⟨i + 1, by omega, by omega, ?_, ?_, ?_, ?_⟩
  · rw [hsh]; exact g1
  · rw [hsh]; exact g2
  · rw [hsh]; exact g3
  · intro j h1 h2
    have := hnone (j - 1) (List.mem_range.2 (by omega))
    rw [show j - 1 + 1 = j by omega] at this
    exact List.head?_eq_none_iff.1 this

end Ranx.FText
