import Verif.Model.Format
import Verif.Props.Report2
import Verif.Lemmas.Float64
import Verif.Lemmas.PyStr
import Mathlib.Tactic.Linarith
import Mathlib.Tactic.FieldSimp
import Mathlib.Tactic.Ring
import Mathlib.Tactic.NormNum

/-!
# C90: printed scores

What `to_table`, `to_latex` and the optimization report print for a score.
-/

set_option linter.unusedSectionVars false

namespace Ranx
open Rep F64
open Py (Str natStr)

/-- Specification: the text `s` is a decimal number with exactly `d` decimals, of value `v`. -/
def Spec.Decimal (s : Str) (d : Nat) (v : ℚ) : Prop :=
  ∃ a b : Str, a ≠ [] ∧ b.length = d ∧ (∀ c ∈ a ++ b, c.isDigit = true) ∧
    s = (if d = 0 then a else a ++ '.' :: b) ∧ v = (Nat.ofDigitChars 10 (a ++ b) 0 : ℚ) / 10 ^ d

namespace F64

/-- relative error of rounding -/
theorem fl_rel (x : ℚ) (hx : 0 ≤ x) : |fl x - x| ≤ x / 2 ^ 53 := by
  rcases hx.eq_or_lt with rfl | hx
  · simp [fl_zero]
  have hu := ulp_pos x
  have hp := ulp_mul_pow hx
  obtain ⟨h1, -⟩ := binade hx
  have hle : ulp x ≤ x / 2 ^ 52 := by
    rw [le_div_iff₀ (by positivity)]; rw [hp]; exact h1
  obtain ⟨b1, b2⟩ := rhe_bounds (x / ulp x)
  have e : fl x - x = ((rhe (x / ulp x) : ℚ) - x / ulp x) * ulp x := by
    unfold fl; rw [if_neg hx.ne']; field_simp
  rw [e, abs_mul, abs_of_pos hu]
  have : |(rhe (x / ulp x) : ℚ) - x / ulp x| ≤ 1 / 2 := abs_le.2 ⟨by linarith, by linarith⟩
  calc _ ≤ 1 / 2 * ulp x := mul_le_mul_of_nonneg_right this hu.le
    _ ≤ 1 / 2 * (x / 2 ^ 52) := by linarith
    _ = _ := by ring

theorem fl_nonneg {x : ℚ} (hx : 0 ≤ x) : 0 ≤ fl x := by
  have := fl_mono hx; rwa [fl_zero] at this

theorem rhe_eq_of_near {z : ℚ} {k : ℤ} (h : |z - k| < 1 / 2) : rhe z = k := by
  obtain ⟨b1, b2⟩ := rhe_bounds z
  obtain ⟨h1, h2⟩ := abs_lt.1 h
  have a1 : (rhe z : ℚ) < (k + 1 : ℤ) := by push_cast; linarith
  have a2 : ((k - 1 : ℤ) : ℚ) < rhe z := by push_cast; linarith
  have a1' := Int.cast_lt.1 a1
  have a2' := Int.cast_lt.1 a2
  omega

end F64

theorem fixedNat_decimal (d k : Nat) : Spec.Decimal (fixedNat d k) d ((k : ℚ) / 10 ^ d) := by
  by_cases hd : d = 0
  · subst hd
    refine ⟨natStr k, [], Py.natStr_ne_nil k, rfl, ?_, ?_, ?_⟩
    · intro c hc
      rw [List.append_nil] at hc
      exact Py.natStr_isDigit hc
    · simp [fixedNat]
    · rw [List.append_nil]
      unfold natStr
      rw [Nat.ofDigitChars_ten_toDigits]
  · have hlen : (natStr (k % 10 ^ d)).length ≤ d :=
      (Nat.length_toDigits_le_iff (by norm_num) (Nat.pos_of_ne_zero hd)).2 (Nat.mod_lt _ (by positivity))
    refine ⟨natStr (k / 10 ^ d),
      List.replicate (d - (natStr (k % 10 ^ d)).length) '0' ++ natStr (k % 10 ^ d),
      Py.natStr_ne_nil _, ?_, ?_, ?_, ?_⟩
    · rw [List.length_append, List.length_replicate]; omega
    · intro c hc
      rcases List.mem_append.1 hc with h | h
      · exact Py.natStr_isDigit h
      · rcases List.mem_append.1 h with h | h
        · rw [List.eq_of_mem_replicate h]; decide
        · exact Py.natStr_isDigit h
    · rw [if_neg hd]; unfold fixedNat; rw [if_neg hd]
    · congr 1
      norm_cast
      have e1 : Nat.ofDigitChars 10 (natStr (k / 10 ^ d)) 0 = k / 10 ^ d := by
        unfold natStr; exact Nat.ofDigitChars_ten_toDigits
      have e2 : Nat.ofDigitChars 10 (natStr (k % 10 ^ d)) 0 = k % 10 ^ d := by
        unfold natStr; exact Nat.ofDigitChars_ten_toDigits
      rw [Nat.ofDigitChars_append, Nat.ofDigitChars_append, e1, Nat.ofDigitChars_replicate_zero,
        Nat.ofDigitChars_eq_ofDigitChars_zero, e2, ← Nat.mul_assoc, ← Nat.pow_add]
      have : (natStr (k % 10 ^ d)).length + (d - (natStr (k % 10 ^ d)).length) = d := by omega
      rw [this]
      exact (Nat.div_add_mod k (10 ^ d)).symm

/-- the number of units in the last place that is printed -/
theorem format_units (d : Nat) (x : ℚ) (hx : 0 ≤ x) (hb : x * 10 ^ d ≤ 2 ^ 51) :
    0 ≤ rhe (fl (x * 10 ^ d)) ∧
    percentF d (Opt.roundTo fl d x) = .ok (fixedNat d (rhe (fl (x * 10 ^ d))).toNat) := by
  have hy : (0 : ℚ) ≤ x * 10 ^ d := by positivity
  have hk0 : 0 ≤ rhe (fl (x * 10 ^ d)) := int_le_rhe (n := 0) (by exact_mod_cast fl_nonneg hy)
  refine ⟨hk0, ?_⟩
  set k := rhe (fl (x * 10 ^ d)) with hk
  have hkb : k ≤ 2 ^ 51 := by
    apply rhe_le_int
    have := fl_mono hb
    have h51 := fl_int (2 ^ 51) (by norm_num)
    norm_num at h51 this ⊢
    rw [h51] at this
    exact this
  have hkq : (0 : ℚ) ≤ k := by exact_mod_cast hk0
  have hkbq : (k : ℚ) ≤ 2 ^ 51 := by exact_mod_cast hkb
  have hdiv : (0 : ℚ) ≤ (k : ℚ) / 10 ^ d := by positivity
  have hr : Opt.roundTo fl (d : Int) x = fl ((k : ℚ) / 10 ^ d) := rfl
  have hnn : 0 ≤ fl ((k : ℚ) / 10 ^ d) := fl_nonneg hdiv
  have herr := fl_rel _ hdiv
  have hrk : rhe (|fl ((k : ℚ) / 10 ^ d)| * 10 ^ d) = k := by
    apply rhe_eq_of_near
    rw [abs_of_nonneg hnn]
    have hp : (0 : ℚ) < 10 ^ d := by positivity
    have e : fl ((k : ℚ) / 10 ^ d) * 10 ^ d - k = (fl ((k : ℚ) / 10 ^ d) - (k : ℚ) / 10 ^ d) * 10 ^ d := by
      field_simp
    rw [e, abs_mul, abs_of_pos hp]
    calc _ ≤ (k : ℚ) / 10 ^ d / 2 ^ 53 * 10 ^ d := mul_le_mul_of_nonneg_right herr hp.le
      _ = (k : ℚ) / 2 ^ 53 := by field_simp
      _ ≤ 2 ^ 51 / 2 ^ 53 := div_le_div_of_nonneg_right hkbq (by positivity)
      _ < _ := by norm_num
  rw [hr]
  show Except.ok (fixed d (fl ((k : ℚ) / 10 ^ d))) = _
  unfold fixed
  rw [if_neg (not_lt.2 hnn), hrk, List.nil_append]

/-- **C90**: a non-negative score is printed as a decimal number with `rounding_digits` decimals that differs
from the score by at most half a unit of the last decimal (plus the 2^-53 relative error of one float
multiplication). Bound: `score * 10^digits ≤ 2^51`. -/
theorem C90_rounded (d : Nat) (x : ℚ) (hx : 0 ≤ x) (hb : x * 10 ^ d ≤ 2 ^ 51) :
    ∃ s v, formatScore fl false d x = .ok s ∧ Spec.Decimal s d v ∧
      |v - x| ≤ 1 / 2 / 10 ^ d + x / 2 ^ 53 := by
  obtain ⟨h0, h⟩ := format_units d x hx hb
  refine ⟨_, _, h, fixedNat_decimal d _, ?_⟩
  have hp : (0 : ℚ) < 10 ^ d := by positivity
  have hy : (0 : ℚ) ≤ x * 10 ^ d := by positivity
  have e : (((rhe (fl (x * 10 ^ d))).toNat : ℕ) : ℚ) = (rhe (fl (x * 10 ^ d)) : ℚ) := by
    exact_mod_cast Int.toNat_of_nonneg h0
  rw [e]
  obtain ⟨b1, b2⟩ := rhe_bounds (fl (x * 10 ^ d))
  obtain ⟨c1, c2⟩ := abs_le.1 (fl_rel _ hy)
  have e2 : (rhe (fl (x * 10 ^ d)) : ℚ) / 10 ^ d - x = ((rhe (fl (x * 10 ^ d)) : ℚ) - x * 10 ^ d) / 10 ^ d := by
    field_simp
  rw [e2, abs_div, abs_of_pos hp, div_le_iff₀ hp]
  have e3 : (1 / 2 / 10 ^ d + x / 2 ^ 53) * 10 ^ d = 1 / 2 + x * 10 ^ d / 2 ^ 53 := by field_simp
  rw [e3]
  exact abs_le.2 ⟨by linarith, by linarith⟩

/-- **C90**: unless the score sits (to within that error) exactly between two printable numbers, the printed
number is the nearest one. -/
theorem C90_nearest (d : Nat) (x : ℚ) (hx : 0 ≤ x) (hb : x * 10 ^ d ≤ 2 ^ 51)
    (htie : ∀ n : ℤ, x * 10 ^ d / 2 ^ 53 < |x * 10 ^ d - (n + 1 / 2)|) :
    ∃ s v, formatScore fl false d x = .ok s ∧ Spec.Decimal s d v ∧
      ∀ k : ℤ, |v - x| ≤ |(k : ℚ) / 10 ^ d - x| := by
  obtain ⟨h0, h⟩ := format_units d x hx hb
  refine ⟨_, _, h, fixedNat_decimal d _, ?_⟩
  have hp : (0 : ℚ) < 10 ^ d := by positivity
  have hy : (0 : ℚ) ≤ x * 10 ^ d := by positivity
  have e : (((rhe (fl (x * 10 ^ d))).toNat : ℕ) : ℚ) = (rhe (fl (x * 10 ^ d)) : ℚ) := by
    exact_mod_cast Int.toNat_of_nonneg h0
  rw [e]
  obtain ⟨b1, b2⟩ := rhe_bounds (fl (x * 10 ^ d))
  obtain ⟨c1, c2⟩ := abs_le.1 (fl_rel _ hy)
  generalize hm : rhe (fl (x * 10 ^ d)) = m at *
  have hnear : |(m : ℚ) - x * 10 ^ d| ≤ 1 / 2 := by
    by_contra hn
    rw [not_le] at hn
    rcases lt_abs.1 hn with hn | hn
    · have := htie (m - 1)
      push_cast at this
      have hlt : x * 10 ^ d - ((m : ℚ) - 1 + 1 / 2) < 0 := by linarith
      rw [abs_of_neg hlt] at this
      linarith
    · have := htie m
      have hlt : 0 < x * 10 ^ d - ((m : ℚ) + 1 / 2) := by linarith
      rw [abs_of_pos hlt] at this
      linarith
  intro k
  have q : ∀ z : ℤ, |(z : ℚ) / 10 ^ d - x| = |(z : ℚ) - x * 10 ^ d| / 10 ^ d := by
    intro z
    have : (z : ℚ) / 10 ^ d - x = ((z : ℚ) - x * 10 ^ d) / 10 ^ d := by field_simp
    rw [this, abs_div, abs_of_pos hp]
  rw [q, q]
  apply div_le_div_of_nonneg_right _ hp.le
  by_cases hkm : k = m
  · rw [hkm]
  · have h1 : (1 : ℚ) ≤ |(k : ℚ) - m| := by
      have : 1 ≤ |k - m| := Int.one_le_abs (sub_ne_zero.2 hkm)
      exact_mod_cast this
    have h2 : |(k : ℚ) - m| ≤ |(k : ℚ) - x * 10 ^ d| + |(m : ℚ) - x * 10 ^ d| := by
      have := abs_sub_le (k : ℚ) (x * 10 ^ d) m
      rwa [abs_sub_comm (x * 10 ^ d) (m : ℚ)] at this
    linarith

/-- **C90**: a score that is the float nearest to a number with `d` decimals is printed as that number. -/
theorem C90_exact (d k : Nat) (hb : k < 2 ^ 51) :
    ∃ s, formatScore fl false d (fl ((k : ℚ) / 10 ^ d)) = .ok s ∧ Spec.Decimal s d ((k : ℚ) / 10 ^ d) := by
  have hp : (0 : ℚ) < 10 ^ d := by positivity
  have hdiv : (0 : ℚ) ≤ (k : ℚ) / 10 ^ d := by positivity
  have hkq : (k : ℚ) + 1 ≤ 2 ^ 51 := by exact_mod_cast hb
  have herr := fl_rel _ hdiv
  have hnn := fl_nonneg hdiv
  set x := fl ((k : ℚ) / 10 ^ d) with hx
  have hk0 : (0 : ℚ) ≤ k := Nat.cast_nonneg k
  have hyk : |x * 10 ^ d - k| ≤ (k : ℚ) / 2 ^ 53 := by
    have e : x * 10 ^ d - k = (x - (k : ℚ) / 10 ^ d) * 10 ^ d := by field_simp
    rw [e, abs_mul, abs_of_pos hp]
    calc _ ≤ (k : ℚ) / 10 ^ d / 2 ^ 53 * 10 ^ d := mul_le_mul_of_nonneg_right herr hp.le
      _ = (k : ℚ) / 2 ^ 53 := by field_simp
  obtain ⟨y1, y2⟩ := abs_le.1 hyk
  have hy0 : 0 ≤ x * 10 ^ d := by positivity
  have hyb : x * 10 ^ d ≤ 2 ^ 51 := by
    have : (k : ℚ) / 2 ^ 53 ≤ 1 := by rw [div_le_one (by positivity)]; linarith
    linarith
  obtain ⟨h0, h⟩ := format_units d x hnn hyb
  obtain ⟨z1, z2⟩ := abs_le.1 (fl_rel _ hy0)
  have hr : rhe (fl (x * 10 ^ d)) = (k : ℤ) := by
    apply rhe_eq_of_near
    push_cast
    have e1 : (k : ℚ) / 2 ^ 53 < 1 / 4 := by
      rw [div_lt_iff₀ (by positivity)]; norm_num; linarith
    have e2 : x * 10 ^ d / 2 ^ 53 ≤ 1 / 4 := by
      rw [div_le_iff₀ (by positivity)]; norm_num; linarith
    exact abs_lt.2 ⟨by linarith, by linarith⟩
  refine ⟨_, h, ?_⟩
  rw [hr]
  exact fixedNat_decimal d k

/-- **C90**: printing never reverses two scores. -/
theorem C90_order (d : Nat) (x y : ℚ) (hx : 0 ≤ x) (hxy : x ≤ y) (hb : y * 10 ^ d ≤ 2 ^ 51) :
    ∃ s t v w, formatScore fl false d x = .ok s ∧ formatScore fl false d y = .ok t ∧ Spec.Decimal s d v ∧
      Spec.Decimal t d w ∧ v ≤ w := by
  have hp : (0 : ℚ) < 10 ^ d := by positivity
  have hm : x * 10 ^ d ≤ y * 10 ^ d := mul_le_mul_of_nonneg_right hxy hp.le
  obtain ⟨-, h1⟩ := format_units d x hx (hm.trans hb)
  obtain ⟨-, h2⟩ := format_units d y (hx.trans hxy) hb
  refine ⟨_, _, _, _, h1, h2, fixedNat_decimal d _, fixedNat_decimal d _, ?_⟩
  apply div_le_div_of_nonneg_right _ hp.le
  exact_mod_cast Int.toNat_le_toNat (rhe_mono (fl_mono hm))

/-- **C90** (percentages): with `show_percentages` and `rounding_digits = n + 2`, the printed number has `n`
decimals and differs from a hundred times the score by at most half a unit of the last decimal (plus the
error of two float multiplications). -/
theorem C90_percent (n : Nat) (x : ℚ) (hx : 0 ≤ x) (hb : fl (x * 100) * 10 ^ n ≤ 2 ^ 51) :
    ∃ s v, formatScore fl true (n + 2 : Nat) x = .ok s ∧ Spec.Decimal s n v ∧
      |v - 100 * x| ≤ 1 / 2 / 10 ^ n + 201 * x / 2 ^ 53 := by
  have h100 : (0 : ℚ) ≤ x * 100 := by positivity
  obtain ⟨s, v, h, h1, h2⟩ := C90_rounded n (fl (x * 100)) (fl_nonneg h100) hb
  refine ⟨s, v, ?_, h1, ?_⟩
  · unfold formatScore at h ⊢
    have e : ((n + 2 : Nat) : Int) - 2 = (n : Int) := by push_cast; ring
    have e' : max 0 (n : Int) = (n : Int) := by omega
    rw [if_pos rfl, e, e']
    exact h
  · have h3 := fl_rel _ h100
    obtain ⟨a1, a2⟩ := abs_le.1 h2
    obtain ⟨b1, b2⟩ := abs_le.1 h3
    have hle : fl (x * 100) / 2 ^ 53 ≤ 101 * x / 2 ^ 53 := by
      apply div_le_div_of_nonneg_right _ (by positivity)
      have : x * 100 / 2 ^ 53 ≤ x := by
        rw [div_le_iff₀ (by positivity)]
        have : (0:ℚ) ≤ x * (2 ^ 53 - 100) := mul_nonneg hx (by norm_num)
        linarith
      linarith
    have e : 201 * x / 2 ^ 53 = x * 100 / 2 ^ 53 + 101 * x / 2 ^ 53 := by ring
    rw [e]
    exact abs_le.2 ⟨by linarith, by linarith⟩

/-- **C90** (errors): a negative number of digits, or fewer than two with percentages, is a ValueError. -/
theorem C90_errors (rnd : ℚ → ℚ) (digits : Int) (x : ℚ) :
    ((∃ s, formatScore rnd false digits x = .ok s) ↔ 0 ≤ digits) ∧
    ((∃ s, formatScore rnd true digits x = .ok s) ↔ 2 ≤ digits) ∧
    (digits < 2 → formatScore rnd true digits x = .error .valueError) := by
  have key : ∀ (d : Int) (y : ℚ), ((∃ s, percentF d y = .ok s) ↔ 0 ≤ d) ∧
      (d < 0 → percentF d y = .error .valueError) := by
    intro d y
    cases d with
    | ofNat d => exact ⟨⟨fun _ => Int.natCast_nonneg d, fun _ => ⟨_, rfl⟩⟩, fun h => absurd h (by simp)⟩
    | negSucc d =>
      refine ⟨⟨?_, fun h => absurd h (by simp)⟩, fun _ => rfl⟩
      rintro ⟨s, hs⟩
      cases hs
  unfold formatScore
  refine ⟨?_, ?_, ?_⟩
  · rw [if_neg (by simp)]; exact (key _ _).1
  · rw [if_pos rfl, (key _ _).1]; omega
  · intro h; rw [if_pos rfl]; exact (key _ _).2 (by omega)

/-- **C90** (boldface): in the LaTeX table the score in bold is the largest printed one, the first of them if
several models show it; nothing is bold if every printed score is zero. -/
theorem C90_bold (r : Report ℚ) (m : Str) (d : Nat) (sc : Str → ℚ)
    (hsc : ∀ x ∈ r.modelNames, r.score x m = .ok (.val (sc x)) ∧ 0 ≤ sc x ∧ sc x * 10 ^ d ≤ 2 ^ 51) :
    ∃ shown : Str → ℚ,
      (∀ x ∈ r.modelNames, ∃ s, (pyFmt fl false d).format (.val (sc x)) = .ok s ∧ Spec.Decimal s d (shown x)) ∧
      ((∃ x ∈ r.modelNames, 0 < shown x) → ∃ (i : Nat) (x : Str), r.modelNames[i]? = some x ∧
        r.best (pyFmt fl false d) m = .ok (some x) ∧
        (∀ (j : Nat) y, r.modelNames[j]? = some y → shown y ≤ shown x) ∧
        ∀ (j : Nat) y, j < i → r.modelNames[j]? = some y → shown y < shown x) ∧
      ((∀ x ∈ r.modelNames, shown x = 0) → r.best (pyFmt fl false d) m = .ok none) := by
  have hp : (0 : ℚ) < 10 ^ d := by positivity
  let k : Str → ℤ := fun x => rhe (fl (sc x * 10 ^ d))
  have hk0 : ∀ x ∈ r.modelNames, 0 ≤ k x := fun x hx => (format_units d _ (hsc x hx).2.1 (hsc x hx).2.2).1
  have hkb : ∀ x ∈ r.modelNames, k x ≤ 2 ^ 51 := by
    intro x hx
    apply rhe_le_int
    have := fl_mono (hsc x hx).2.2
    have h51 := fl_int (2 ^ 51) (by norm_num)
    norm_num at h51 this ⊢
    rw [h51] at this
    exact this
  have hrd : Spec.Rounded r (pyFmt fl false d) m (fun x => fl ((k x : ℚ) / 10 ^ d)) :=
    fun x hx => ⟨_, (hsc x hx).1, rfl⟩
  have hcmp : ∀ a b : ℤ, 0 ≤ a → a ≤ 2 ^ 51 → 0 ≤ b → b ≤ 2 ^ 51 → a < b →
      fl ((a : ℚ) / 10 ^ d) < fl ((b : ℚ) / 10 ^ d) := by
    intro a b ha hab hb hbb hlt
    have haq : (0 : ℚ) ≤ a := by exact_mod_cast ha
    have hbq : (0 : ℚ) ≤ b := by exact_mod_cast hb
    have haq' : (a : ℚ) ≤ 2 ^ 51 := by exact_mod_cast hab
    have hbq' : (b : ℚ) ≤ 2 ^ 51 := by exact_mod_cast hbb
    have h1 : (a : ℚ) + 1 ≤ b := by exact_mod_cast hlt
    have e1 := (abs_le.1 (fl_rel ((a : ℚ) / 10 ^ d) (by positivity))).2
    have e2 := (abs_le.1 (fl_rel ((b : ℚ) / 10 ^ d) (by positivity))).1
    have f1 : (a : ℚ) / 10 ^ d / 2 ^ 53 ≤ 1 / 4 / 10 ^ d := by
      rw [div_div, div_div, div_le_div_iff₀ (by positivity) (by positivity)]
      nlinarith
    have f2 : (b : ℚ) / 10 ^ d / 2 ^ 53 ≤ 1 / 4 / 10 ^ d := by
      rw [div_div, div_div, div_le_div_iff₀ (by positivity) (by positivity)]
      nlinarith
    have f3 : (a : ℚ) / 10 ^ d + 1 / 10 ^ d ≤ (b : ℚ) / 10 ^ d := by
      rw [← add_div]; exact div_le_div_of_nonneg_right h1 hp.le
    have f4 : (1 : ℚ) / 4 / 10 ^ d = 1 / 10 ^ d / 4 := by ring
    have f5 : (0 : ℚ) < 1 / 10 ^ d := by positivity
    rw [f4] at f1 f2
    linarith
  have hiff : ∀ x ∈ r.modelNames, ∀ y ∈ r.modelNames,
      (fl ((k x : ℚ) / 10 ^ d) ≤ fl ((k y : ℚ) / 10 ^ d) ↔ k x ≤ k y) := by
    intro x hx y hy
    constructor
    · intro h
      by_contra hn
      exact absurd (hcmp _ _ (hk0 y hy) (hkb y hy) (hk0 x hx) (hkb x hx) (not_le.1 hn)) (not_lt.2 h)
    · intro h
      exact fl_mono (div_le_div_of_nonneg_right (by exact_mod_cast h) hp.le)
  have hsh : ∀ x ∈ r.modelNames, (((k x).toNat : ℕ) : ℚ) / 10 ^ d = (k x : ℚ) / 10 ^ d := by
    intro x hx
    congr 1
    exact_mod_cast Int.toNat_of_nonneg (hk0 x hx)
  refine ⟨fun x => (((k x).toNat : ℕ) : ℚ) / 10 ^ d, ?_, ?_, ?_⟩
  · intro x hx
    exact ⟨_, (format_units d _ (hsc x hx).2.1 (hsc x hx).2.2).2, fixedNat_decimal d _⟩
  · rintro ⟨x, hx, hpos⟩
    have hpos' : 0 < fl ((k x : ℚ) / 10 ^ d) := by
      apply fl_pos
      rw [← hsh x hx]; exact hpos
    obtain ⟨i, z, h1, h2, h3, h4⟩ := C72_first_best r (pyFmt fl false d) m _ hrd ⟨x, hx, hpos'⟩
    have hz := List.mem_of_getElem? h1
    refine ⟨i, z, h1, h2, ?_, ?_⟩
    · intro j y hy
      have hym := List.mem_of_getElem? hy
      have := (hiff y hym z hz).1 (h3 j y hy)
      exact div_le_div_of_nonneg_right (by exact_mod_cast Int.toNat_le_toNat this) hp.le
    · intro j y hj hy
      have hym := List.mem_of_getElem? hy
      have h5 := h4 j y hj hy
      have : k y < k z := by
        by_contra hn
        exact absurd ((hiff z hz y hym).2 (not_lt.1 hn)) (not_le.2 h5)
      beta_reduce
      rw [hsh y hym, hsh z hz]
      exact div_lt_div_of_pos_right (by exact_mod_cast this) hp
  · intro h0
    apply C72_none r (pyFmt fl false d) m _ hrd
    intro x hx
    have := h0 x hx
    beta_reduce at this
    rw [hsh x hx] at this
    show fl ((k x : ℚ) / 10 ^ d) ≤ 0
    rw [this, fl_zero]

/-- a third is printed 0.333, or 33.3 as a percentage -/
example : formatScore fl false 3 (fl (1 / 3)) = .ok "0.333".toList ∧
    formatScore fl true 3 (fl (1 / 3)) = .ok "33.3".toList ∧
    formatScore fl false 3 1 = .ok "1.000".toList ∧ formatScore fl false 0 (fl (2 / 3)) = .ok "1".toList ∧
    formatScore fl true 1 (fl (1 / 3)) = .error .valueError := by
  refine ⟨?_, ?_, ?_, ?_, ?_⟩ <;> decide +kernel

/-- the hypotheses of `C90_bold` on a report of two models, 1/2 and 3/4 -/
example : ∀ x ∈ (["a".toList, "b".toList] : List Str),
    (⟨["a".toList, "b".toList], [("a".toList, [("map".toList, .val (1 / 2))]),
      ("b".toList, [("map".toList, .val (3 / 4))])], [], ["map".toList], 1 / 20, [], []⟩ : Report ℚ).score x
        "map".toList = .ok (.val ((fun n => if n = "a".toList then 1 / 2 else 3 / 4) x)) ∧
    (0 : ℚ) ≤ (fun n => if n = "a".toList then 1 / 2 else 3 / 4) x ∧
    ((fun n => if n = "a".toList then 1 / 2 else 3 / 4) x : ℚ) * 10 ^ 3 ≤ 2 ^ 51 := by decide +kernel

/-- the hypotheses are met by every score in [0, 1] with up to 15 digits -/
example (x : ℚ) (h0 : 0 ≤ x) (h1 : x ≤ 1) (d : Nat) (hd : d ≤ 15) : x * 10 ^ d ≤ 2 ^ 51 := by
  have : (10 : ℚ) ^ d ≤ 10 ^ 15 := pow_le_pow_right₀ (by norm_num) hd
  have h3 : x * 10 ^ d ≤ 1 * 10 ^ 15 := mul_le_mul h1 this (by positivity) (by norm_num)
  exact h3.trans (by norm_num)

/-- the exception in `C90_nearest` is needed: the float 0.015 is below 15/1000, so 0.01 is nearer, yet 0.02 is
printed, because NumPy rounds after a rounded multiplication -/
theorem C90_near_tie : fl (15 / 1000) < 15 / 1000 ∧
    formatScore fl false 2 (fl (15 / 1000)) = .ok "0.02".toList := by
  refine ⟨?_, ?_⟩ <;> decide +kernel

end Ranx
