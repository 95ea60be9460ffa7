import Verif.Model.CeilFl
import Verif.Model.Fusion
import Verif.Props.NormFl
import Verif.Lemmas.MetricsFl2

/-!
# `ceil(a / b)` in float64 is the exact ceiling
-/

namespace Ranx.Fuse.Rnd
open F64

/-- below 2^53 the float division never rounds up to the next integer or down to the previous one -/
theorem ceilDiv_fl (a b : Nat) (hb : 0 < b) (ha : a < 2 ^ 53) (hb' : b ≤ 2 ^ 53) :
    ceilDiv fl a b = Fuse.ceilDiv a b := by
  unfold ceilDiv
  rw [fl_nat ha.le, fl_nat hb']
  have hbq : (0 : ℚ) < b := by exact_mod_cast hb
  rcases Nat.eq_zero_or_pos a with rfl | hpos
  · rw [Nat.cast_zero, zero_div, fl_zero]
    unfold Fuse.ceilDiv
    rw [show (0 + b - 1) / b = 0 from Nat.div_eq_of_lt (by omega)]
    simp
  set k := Fuse.ceilDiv a b with hk
  have h1 : a ≤ b * k ∧ b * k < a + b := by
    rw [hk]
    unfold Fuse.ceilDiv
    have e1 := Nat.div_add_mod (a + b - 1) b
    have e2 := Nat.mod_lt (a + b - 1) hb
    omega
  have hk1 : 1 ≤ k := by
    rcases Nat.eq_zero_or_pos k with h | h
    · rw [h] at h1; omega
    · exact h
  have hka : k ≤ a := by
    by_contra h
    have h2 : a + 1 ≤ k := by omega
    have : b * (a + 1) ≤ b * k := Nat.mul_le_mul_left b h2
    have h3 : a ≤ b * a := Nat.le_mul_of_pos_left a hb
    have : b * (a + 1) = b * a + b := Nat.mul_succ b a
    omega
  have hup : fl ((a : ℚ) / b) ≤ k := by
    have : (a : ℚ) / b ≤ k := by
      rw [div_le_iff₀ hbq, mul_comm]
      exact_mod_cast h1.1
    exact (fl_mono this).trans_eq (fl_nat (by omega))
  have hlo : (k : ℚ) - 1 < fl ((a : ℚ) / b) := by
    have herr := (abs_le.1 (fl_err ((a : ℚ) / b))).1
    have hx : 0 ≤ (a : ℚ) / b := by positivity
    rw [abs_of_nonneg hx] at herr
    have h2 : (k : ℚ) - 1 + 1 / b ≤ (a : ℚ) / b := by
      have hn : b * k + 1 ≤ a + b := h1.2
      have hq : (b : ℚ) * k + 1 ≤ a + b := by exact_mod_cast hn
      rw [le_div_iff₀ hbq, add_mul, one_div, inv_mul_cancel₀ hbq.ne']
      linarith
    have h3 : (a : ℚ) / b / 2 ^ 53 < 1 / b := by
      have : (a : ℚ) < 2 ^ 53 := by exact_mod_cast ha
      rw [div_right_comm]
      exact div_lt_div_of_pos_right ((div_lt_one (by positivity)).2 this) hbq
    generalize fl ((a : ℚ) / b) = y at *
    linarith
  have : ⌈fl ((a : ℚ) / b)⌉ = (k : ℤ) := by
    rw [Int.ceil_eq_iff]
    exact ⟨by push_cast; exact hlo, by exact_mod_cast hup⟩
  rw [this]
  exact Int.toNat_natCast k

end Ranx.Fuse.Rnd
