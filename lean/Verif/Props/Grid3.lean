import Mathlib.Tactic.Positivity
import Mathlib.Algebra.Order.BigOperators.Group.List
import Verif.Props.Grid
import Verif.Props.Format
import Verif.Props.OptimizeTotal2

/-!
# C66, C67: search spaces with decimal limits and steps, in binary64
-/

set_option linter.unusedSectionVars false

namespace Ranx
open Opt F64

/-! ## How far rounding can move the points of `np.arange` -/

/-- one rounding moves a number of at most `B` by at most `B / 2^53` -/
theorem F64.fl_within {x B : ℚ} (h0 : 0 ≤ x) (hB : x ≤ B) : |fl x - x| ≤ B / 2 ^ 53 :=
  (fl_rel x h0).trans (div_le_div_of_nonneg_right hB (by positivity))

/-- the points of `np.arange` before they are rounded to decimals: `M` bounds all numbers involved, `a` and `c` are the
exact start and step -/
theorem Opt.arange_near {a c lo step M : ℚ} (i : ℕ) (ha : 0 ≤ a) (hc : 0 ≤ c) (hM : a + c ≤ M)
    (hic : a + (i : ℚ) * c ≤ M) (hi : (i : ℚ) ≤ 2 ^ 40) (hlo : lo = fl a) (hstep : step = fl c) :
    |(if i = 0 then lo else if i = 1 then fl (lo + step)
      else fl (lo + fl ((i : ℚ) * fl (fl (lo + step) - lo)))) - (a + (i : ℚ) * c)| ≤
      (7 * (i : ℚ) + 8) * (M / 2 ^ 53) := by
  have hi0 : (0 : ℚ) ≤ i := Nat.cast_nonneg i
  have hM0 : 0 ≤ M := by linarith
  have hu : (0 : ℚ) ≤ M / 2 ^ 53 := by positivity
  have huM : M / 2 ^ 53 ≤ M / 2 ^ 50 := div_le_div_of_nonneg_left hM0 (by positivity) (by norm_num)
  have huM' : 2 ^ 13 * (M / 2 ^ 53) ≤ M / 2 ^ 40 := by
    have : 2 ^ 13 * (M / 2 ^ 53) = M / 2 ^ 40 := by ring
    exact this.le
  have hlo0 : 0 ≤ lo := hlo ▸ fl_nonneg ha
  have hst0 : 0 ≤ step := hstep ▸ fl_nonneg hc
  obtain ⟨l1, l2⟩ := abs_le.1 (fl_within ha (by linarith : a ≤ M))
  obtain ⟨s1, s2⟩ := abs_le.1 (fl_within hc (by linarith : c ≤ M))
  rw [← hlo] at l1 l2
  rw [← hstep] at s1 s2
  have hM1 : M / 2 ^ 53 ≤ M := by
    rw [div_le_iff₀ (by positivity)]; nlinarith
  have hsum : lo + step ≤ 3 * M := by linarith
  have hsum0 : 0 ≤ lo + step := by linarith
  obtain ⟨t1, t2⟩ := abs_le.1 (fl_within hsum0 hsum)
  have hge : lo ≤ fl (lo + step) := by
    have : fl lo ≤ fl (lo + step) := fl_mono (by linarith)
    rwa [hlo, fl_fl, ← hlo] at this
  have e3 : 3 * M / 2 ^ 53 = 3 * (M / 2 ^ 53) := by ring
  rw [e3] at t1 t2
  generalize hx : fl (lo + step) = second at *
  have hd0 : 0 ≤ second - lo := by linarith
  have hM40 : 2 ^ 10 * (M / 2 ^ 53) ≤ M := by nlinarith [hM1, show M / 2 ^ 53 * 2 ^ 53 = M by field_simp]
  have hdB : second - lo ≤ 2 * M := by linarith
  obtain ⟨d1, d2⟩ := abs_le.1 (fl_within hd0 hdB)
  have e2 : 2 * M / 2 ^ 53 = 2 * (M / 2 ^ 53) := by ring
  rw [e2] at d1 d2
  have hdel0 : 0 ≤ fl (second - lo) := fl_nonneg hd0
  generalize fl (second - lo) = delta at *
  have hd3 : delta - c ≤ 6 * (M / 2 ^ 53) := by linarith
  have hd4 : -(6 * (M / 2 ^ 53)) ≤ delta - c := by linarith
  by_cases h0 : i = 0
  · subst h0
    rw [if_pos rfl]
    push_cast
    rw [zero_mul, add_zero]
    exact abs_le.2 ⟨by linarith, by linarith⟩
  rw [if_neg h0]
  by_cases h1 : i = 1
  · subst h1
    rw [if_pos rfl]
    push_cast
    rw [one_mul]
    exact abs_le.2 ⟨by linarith, by linarith⟩
  rw [if_neg h1]
  have p1 : (i : ℚ) * (delta - c) ≤ (i : ℚ) * (6 * (M / 2 ^ 53)) := mul_le_mul_of_nonneg_left hd3 hi0
  have p2 : (i : ℚ) * -(6 * (M / 2 ^ 53)) ≤ (i : ℚ) * (delta - c) := mul_le_mul_of_nonneg_left hd4 hi0
  have p3 : (i : ℚ) * (6 * (M / 2 ^ 53)) ≤ M := by
    have : (i : ℚ) * (6 * (M / 2 ^ 53)) ≤ 2 ^ 40 * (6 * (M / 2 ^ 53)) :=
      mul_le_mul_of_nonneg_right hi (by positivity)
    linarith
  have p4 : (i : ℚ) * -(6 * (M / 2 ^ 53)) = -((i : ℚ) * (6 * (M / 2 ^ 53))) := by ring
  have p5 : (i : ℚ) * (delta - c) = (i : ℚ) * delta - (i : ℚ) * c := by ring
  have hid0 : 0 ≤ (i : ℚ) * delta := mul_nonneg hi0 hdel0
  have hidB : (i : ℚ) * delta ≤ 2 * M := by linarith
  obtain ⟨f1, f2⟩ := abs_le.1 (fl_within hid0 hidB)
  have hf0 := fl_nonneg hid0
  rw [e2] at f1 f2
  generalize fl ((i : ℚ) * delta) = y at *
  have hz0 : 0 ≤ lo + y := by linarith
  have hzB : lo + y ≤ 4 * M := by linarith
  obtain ⟨g1, g2⟩ := abs_le.1 (fl_within hz0 hzB)
  have e4 : 4 * M / 2 ^ 53 = 4 * (M / 2 ^ 53) := by ring
  rw [e4] at g1 g2
  have e7 : (7 * (i : ℚ) + 8) * (M / 2 ^ 53) =
      (i : ℚ) * (6 * (M / 2 ^ 53)) + (i : ℚ) * (M / 2 ^ 53) + 8 * (M / 2 ^ 53) := by ring
  have p6 : 0 ≤ (i : ℚ) * (M / 2 ^ 53) := by positivity
  rw [e7]
  exact abs_le.2 ⟨by linarith, by linarith⟩

/-- a number whose exact value has `d` decimals is rounded to it -/
theorem Opt.roundTo_near {x : ℚ} {m d : ℕ} (hx : 0 ≤ x) (hm : m ≤ 2 ^ 40)
    (h : |x - (m : ℚ) / 10 ^ d| ≤ 1 / 4 / 10 ^ d) : roundTo fl (d : ℤ) x = fl ((m : ℚ) / 10 ^ d) := by
  have hp : (0 : ℚ) < 10 ^ d := by positivity
  have hm' : (m : ℚ) ≤ 2 ^ 40 := by exact_mod_cast hm
  obtain ⟨h1, h2⟩ := abs_le.1 h
  have e : (m : ℚ) / 10 ^ d * 10 ^ d = m := by field_simp
  have e' : (1 : ℚ) / 4 / 10 ^ d * 10 ^ d = 1 / 4 := by field_simp
  have k1 : x * 10 ^ d ≤ (m : ℚ) + 1 / 4 := by
    have := mul_le_mul_of_nonneg_right (show x ≤ (m : ℚ) / 10 ^ d + 1 / 4 / 10 ^ d by linarith) hp.le
    rwa [add_mul, e, e'] at this
  have k2 : (m : ℚ) - 1 / 4 ≤ x * 10 ^ d := by
    have := mul_le_mul_of_nonneg_right (show (m : ℚ) / 10 ^ d - 1 / 4 / 10 ^ d ≤ x by linarith) hp.le
    rwa [sub_mul, e, e'] at this
  have hx' : 0 ≤ x * 10 ^ d := by positivity
  obtain ⟨g1, g2⟩ := abs_le.1 (fl_within hx' (show x * 10 ^ d ≤ 2 ^ 41 by linarith))
  have hr : rhe (fl (x * 10 ^ d)) = (m : ℤ) := by
    apply rhe_eq_of_near
    rw [Int.cast_natCast, abs_lt]
    norm_num at g1 g2 ⊢
    exact ⟨by linarith, by linarith⟩
  show fl ((rhe (fl (x * 10 ^ d)) : ℚ) / 10 ^ d) = _
  rw [hr, Int.cast_natCast]

/-- the number of points: the last one wanted, or one too many -/
theorem Opt.arange_count {a b c lo hi step : ℚ} {N : ℕ} (ha : 0 ≤ a) (hc : 0 < c) (hb : b = a + (N : ℚ) * c)
    (hB : (b + c) / c ≤ 2 ^ 40) (hlo : lo = fl a) (hhi : hi = fl b) (hstep : step = fl c) :
    ⌈fl (fl (fl (hi + step) - lo) / step)⌉.toNat = N + 1 ∨ ⌈fl (fl (fl (hi + step) - lo) / step)⌉.toNat = N + 2 := by
  have hN0 : (0 : ℚ) ≤ N := Nat.cast_nonneg N
  have hb0 : 0 ≤ b := by rw [hb]; positivity
  have hab : a ≤ b := by rw [hb]; linarith [mul_nonneg hN0 hc.le]
  have hlo0 : 0 ≤ lo := hlo ▸ fl_nonneg ha
  have hst0 : 0 < step := hstep ▸ fl_pos hc
  have hhi0 : 0 ≤ hi := hhi ▸ fl_nonneg hb0
  have hlh : lo ≤ hi := by rw [hlo, hhi]; exact fl_mono hab
  obtain ⟨M, hM⟩ : ∃ M, M = b + c := ⟨_, rfl⟩
  have hM0 : 0 < M := by linarith
  have hu : (0 : ℚ) < M / 2 ^ 53 := by positivity
  have hM53 : M / 2 ^ 53 * 2 ^ 53 = M := by field_simp
  have hMc : M ≤ 2 ^ 40 * c := by rw [hM, ← div_le_iff₀ hc]; exact hB
  obtain ⟨l1, l2⟩ := abs_le.1 (fl_within ha (show a ≤ M by linarith))
  obtain ⟨b1, b2⟩ := abs_le.1 (fl_within hb0 (show b ≤ M by linarith))
  obtain ⟨s1, s2⟩ := abs_le.1 (fl_within hc.le (show c ≤ M by linarith))
  obtain ⟨c1, c2⟩ := abs_le.1 (fl_rel c hc.le)
  rw [← hlo] at l1 l2
  rw [← hhi] at b1 b2
  rw [← hstep] at s1 s2 c1 c2
  obtain ⟨t1, t2⟩ := abs_le.1 (fl_within (show 0 ≤ hi + step by linarith) (show hi + step ≤ 2 * M by linarith))
  have e2 : 2 * M / 2 ^ 53 = 2 * (M / 2 ^ 53) := by ring
  rw [e2] at t1 t2
  have hge : lo ≤ fl (hi + step) := by
    have : fl lo ≤ fl (hi + step) := fl_mono (by linarith)
    rwa [hlo, fl_fl, ← hlo] at this
  generalize fl (hi + step) = top at *
  obtain ⟨d1, d2⟩ := abs_le.1 (fl_within (show 0 ≤ top - lo by linarith) (show top - lo ≤ 2 * M by linarith))
  rw [e2] at d1 d2
  have hw0 := fl_nonneg (show 0 ≤ top - lo by linarith)
  generalize fl (top - lo) = width at *
  -- width is close to (N + 1) * c
  have w1 : width ≤ ((N : ℚ) + 1) * c + 7 * (M / 2 ^ 53) := by
    have : ((N : ℚ) + 1) * c = b + c - a := by rw [hb]; ring
    linarith
  have w2 : ((N : ℚ) + 1) * c - 7 * (M / 2 ^ 53) ≤ width := by
    have : ((N : ℚ) + 1) * c = b + c - a := by rw [hb]; ring
    linarith
  have hNM : ((N : ℚ) + 1) * c ≤ M := by rw [hM, hb]; linarith
  have v1 : ((N : ℚ) + 1) * (step - c) ≤ M / 2 ^ 53 := by
    have : ((N : ℚ) + 1) * (step - c) ≤ ((N : ℚ) + 1) * (c / 2 ^ 53) :=
      mul_le_mul_of_nonneg_left c2 (by positivity)
    have e : ((N : ℚ) + 1) * (c / 2 ^ 53) = ((N : ℚ) + 1) * c / 2 ^ 53 := by ring
    have := div_le_div_of_nonneg_right hNM (show (0 : ℚ) ≤ 2 ^ 53 by positivity)
    linarith
  have v2 : -(M / 2 ^ 53) ≤ ((N : ℚ) + 1) * (step - c) := by
    have : ((N : ℚ) + 1) * (-(c / 2 ^ 53)) ≤ ((N : ℚ) + 1) * (step - c) :=
      mul_le_mul_of_nonneg_left c1 (by positivity)
    have e : ((N : ℚ) + 1) * (-(c / 2 ^ 53)) = -(((N : ℚ) + 1) * c / 2 ^ 53) := by ring
    have := div_le_div_of_nonneg_right hNM (show (0 : ℚ) ≤ 2 ^ 53 by positivity)
    linarith
  have hsc : c / 2 ≤ step := by
    have : c / 2 ^ 53 ≤ c / 2 := div_le_div_of_nonneg_left hc.le (by norm_num) (by norm_num)
    linarith
  have hsmall : 8 * (M / 2 ^ 53) ≤ 1 / 4 * step := by
    have : M / 2 ^ 53 ≤ c / 2 ^ 13 := by
      rw [div_le_div_iff₀ (by positivity) (by positivity)]; nlinarith
    have e : c / 2 ^ 13 * 2 ^ 13 = c := by field_simp
    linarith
  have q1 : width / step ≤ (N : ℚ) + 1 + 1 / 4 := by
    rw [div_le_iff₀ hst0]
    have : ((N : ℚ) + 1 + 1 / 4) * step = ((N : ℚ) + 1) * c + ((N : ℚ) + 1) * (step - c) + 1 / 4 * step := by ring
    linarith
  have q2 : (N : ℚ) + 1 - 1 / 4 ≤ width / step := by
    rw [le_div_iff₀ hst0]
    have : ((N : ℚ) + 1 - 1 / 4) * step = ((N : ℚ) + 1) * c + ((N : ℚ) + 1) * (step - c) - 1 / 4 * step := by ring
    linarith
  have hNB : (N : ℚ) + 1 ≤ 2 ^ 40 := by
    have : ((N : ℚ) + 1) * c ≤ 2 ^ 40 * c := hNM.trans hMc
    exact le_of_mul_le_mul_right this hc
  obtain ⟨r1, r2⟩ := abs_le.1 (fl_within (show 0 ≤ width / step by positivity)
    (show width / step ≤ 2 ^ 41 by linarith))
  generalize fl (width / step) = z at *
  have z1 : z ≤ ((N + 2 : ℕ) : ℤ) := by push_cast; norm_num at r2; linarith
  have z2 : (((N : ℕ) : ℤ) : ℚ) < z := by push_cast; norm_num at r1; linarith
  have n1 : ⌈z⌉ ≤ ((N + 2 : ℕ) : ℤ) := Int.ceil_le.2 z1
  have n2 : ((N : ℕ) : ℤ) < ⌈z⌉ := Int.lt_ceil.2 z2
  push_cast at n1
  omega

/-- **C67** (decimal limits and steps, binary64).  For limits `L/10^d` and `(L + N·s)/10^d` and the step `s/10^d`, as
floats, where the text of the step shows `d` decimals: the grid consists of the floats nearest to the decimals
`(L + i·s)/10^d`, in this order, for `i` up to `N`, or, because the number of points is computed with rounding errors,
for `i` up to `N + 1`: one more than asked for (`C67_overshoot_refuted`). -/
theorem C67_decimal_partial (L N s d : ℕ) (hs : 0 < s) (hb : L + (N + 2) * s ≤ 2 ^ 20) (stepStr : Py.Str)
    (hd : roundingDigits stepStr = d) :
    ∃ n, (n = N + 1 ∨ n = N + 2) ∧
      grid fl (fl ((L : ℚ) / 10 ^ d)) (fl (((L + N * s : ℕ) : ℚ) / 10 ^ d)) (fl ((s : ℚ) / 10 ^ d)) stepStr =
        .ok ((List.range n).map (fun i : ℕ => fl (((L + i * s : ℕ) : ℚ) / 10 ^ d))) := by
  have hp : (0 : ℚ) < 10 ^ d := by positivity
  have hs' : (0 : ℚ) < s := by exact_mod_cast hs
  have hs1 : (1 : ℚ) ≤ s := by exact_mod_cast hs
  have hbq : (L : ℚ) + ((N : ℚ) + 2) * s ≤ 2 ^ 20 := by exact_mod_cast hb
  have hc : (0 : ℚ) < (s : ℚ) / 10 ^ d := by positivity
  have hN0 : (0 : ℚ) ≤ N := Nat.cast_nonneg N
  have hL0 : (0 : ℚ) ≤ L := Nat.cast_nonneg L
  have hNs : (N : ℚ) ≤ (N : ℚ) * s := by nlinarith
  have hbb : (((L + N * s : ℕ) : ℚ) / 10 ^ d) = (L : ℚ) / 10 ^ d + (N : ℚ) * ((s : ℚ) / 10 ^ d) := by
    push_cast; ring
  have hB : ((((L + N * s : ℕ) : ℚ) / 10 ^ d) + (s : ℚ) / 10 ^ d) / ((s : ℚ) / 10 ^ d) ≤ 2 ^ 40 := by
    rw [div_le_iff₀ hc, ← add_div, ← mul_div_assoc]
    apply div_le_div_of_nonneg_right _ hp.le
    push_cast
    nlinarith
  have hcount := arange_count (a := (L : ℚ) / 10 ^ d) (N := N) (by positivity) hc hbb hB rfl rfl rfl
  refine ⟨_, hcount, ?_⟩
  unfold grid npArange
  rw [if_neg (fl_pos hc).ne']
  simp only [Except.map, Except.ok.injEq, List.map_map]
  apply List.map_congr_left
  intro i hi
  have hiN : i ≤ N + 1 := by
    have := List.mem_range.1 hi
    omega
  have hiNq : (i : ℚ) ≤ (N : ℚ) + 1 := by exact_mod_cast hiN
  have hi0 : (0 : ℚ) ≤ i := Nat.cast_nonneg i
  simp only [Function.comp, hd]
  obtain ⟨M, hM⟩ : ∃ M, M = ((L : ℚ) + ((N : ℚ) + 2) * s) / 10 ^ d := ⟨_, rfl⟩
  have hMd : M * 10 ^ d ≤ 2 ^ 20 := by rw [hM, div_mul_cancel₀ _ hp.ne']; exact hbq
  have his : (i : ℚ) * s ≤ ((N : ℚ) + 1) * s := mul_le_mul_of_nonneg_right hiNq hs'.le
  have near := arange_near (a := (L : ℚ) / 10 ^ d) (c := (s : ℚ) / 10 ^ d) (M := M) i (by positivity) hc.le
    (by rw [hM, ← add_div]; exact div_le_div_of_nonneg_right (by nlinarith) hp.le)
    (by rw [hM, ← mul_div_assoc, ← add_div]; exact div_le_div_of_nonneg_right (by nlinarith) hp.le)
    (by nlinarith) rfl rfl
  have hval : (L : ℚ) / 10 ^ d + (i : ℚ) * ((s : ℚ) / 10 ^ d) = ((L + i * s : ℕ) : ℚ) / 10 ^ d := by
    push_cast; ring
  rw [hval] at near
  refine roundTo_near ?_ ?_ (near.trans ?_)
  · by_cases h0 : i = 0
    · rw [if_pos h0]; exact fl_nonneg (by positivity)
    rw [if_neg h0]
    have h1 : 0 ≤ fl ((L : ℚ) / 10 ^ d) := fl_nonneg (by positivity)
    have h2 : 0 ≤ fl ((s : ℚ) / 10 ^ d) := fl_nonneg (by positivity)
    by_cases h1' : i = 1
    · rw [if_pos h1']; exact fl_nonneg (by linarith)
    rw [if_neg h1']
    refine fl_nonneg (add_nonneg h1 (fl_nonneg (mul_nonneg hi0 (fl_nonneg ?_))))
    have : fl (fl ((L : ℚ) / 10 ^ d)) ≤ fl (fl ((L : ℚ) / 10 ^ d) + fl ((s : ℚ) / 10 ^ d)) := fl_mono (by linarith)
    rw [fl_fl] at this
    linarith
  · have : i * s ≤ (N + 2) * s := Nat.mul_le_mul_right _ (by omega)
    omega
  · rw [le_div_iff₀ hp]
    have e : (7 * (i : ℚ) + 8) * (M / 2 ^ 53) * 10 ^ d = (7 * (i : ℚ) + 8) * (M * 10 ^ d) / 2 ^ 53 := by ring
    rw [e, div_le_iff₀ (by positivity)]
    have i1 : 7 * (i : ℚ) + 8 ≤ 2 ^ 24 := by nlinarith
    have hM0 : 0 ≤ M * 10 ^ d := by rw [hM]; positivity
    calc (7 * (i : ℚ) + 8) * (M * 10 ^ d) ≤ 2 ^ 24 * 2 ^ 20 := mul_le_mul i1 hMd hM0 (by positivity)
      _ ≤ 1 / 4 * 2 ^ 53 := by norm_num

/-- **C67 refuted in binary64**: a search from 0.5 to 1.0 in steps of 0.1 also tries 1.1. -/
theorem C67_overshoot_refuted :
    ∃ g, grid fl (fl (5 / 10)) (fl 1) (fl (1 / 10)) "0.1".toList = .ok g ∧ fl (11 / 10) ∈ g ∧ 1 < fl (11 / 10) ∧
      g.length = 7 := by
  refine ⟨[fl (5 / 10), fl (6 / 10), fl (7 / 10), fl (8 / 10), fl (9 / 10), 1, fl (11 / 10)], ?_, ?_, ?_, ?_⟩ <;>
    decide +kernel

/-- hypotheses of `C67_decimal_partial` on a concrete case: from 0.5 to 1.0 in steps of 0.1 (`L = 5`, `N = 5`, `s = 1`,
`d = 1`), where the grid has one point too many, and from 0.01 to 1.00 in steps of 0.01, where it has not -/
example : (0 : ℕ) < 1 ∧ 5 + (5 + 2) * 1 ≤ 2 ^ 20 ∧ roundingDigits "0.1".toList = (1 : ℕ) ∧
    1 + (99 + 2) * 1 ≤ 2 ^ 20 ∧ roundingDigits "0.01".toList = (2 : ℕ) := by decide

/-! ## C66: weights in decimal steps -/

/-- the running float sum of the floats of the numbers `xs`, as long as it stays up to 1, is close to the exact sum -/
theorem Opt.flSum_near (xs : List ℚ) (hx : ∀ x ∈ xs, 0 ≤ x) (a : ℚ) (ha : 0 ≤ a) (hfa : fl a = a)
    (h1 : (xs.map fl).foldl (fun acc x => fl (acc + x)) a ≤ 1) :
    a ≤ (xs.map fl).foldl (fun acc x => fl (acc + x)) a ∧
      |(xs.map fl).foldl (fun acc x => fl (acc + x)) a - (a + xs.sum)| ≤ (xs.length : ℚ) * (4 / 2 ^ 53) := by
  induction xs generalizing a with
  | nil => simp
  | cons x t ih =>
    rw [List.map_cons, List.foldl_cons] at h1 ⊢
    have hx0 : 0 ≤ x := hx x (by simp)
    have he0 : 0 ≤ fl x := fl_nonneg hx0
    have ha' : 0 ≤ fl (a + fl x) := fl_nonneg (by linarith)
    obtain ⟨g1, g2⟩ := ih (fun y hy => hx y (List.mem_cons_of_mem _ hy)) _ ha' (fl_fl _) h1
    have haa : a ≤ fl (a + fl x) := by
      have : fl a ≤ fl (a + fl x) := fl_mono (by linarith)
      rwa [hfa] at this
    have hea : fl x ≤ fl (a + fl x) := by
      have : fl (fl x) ≤ fl (a + fl x) := fl_mono (by linarith)
      rwa [fl_fl] at this
    have hx2 : x ≤ 2 := by
      by_contra hc
      have : fl ((2 : ℤ) : ℚ) ≤ fl x := fl_mono (by push_cast; linarith)
      rw [fl_int _ (by norm_num)] at this
      push_cast at this
      linarith
    obtain ⟨e1, e2⟩ := abs_le.1 (fl_within hx0 hx2)
    obtain ⟨s1, s2⟩ := abs_le.1 (fl_within (show 0 ≤ a + fl x by linarith) (show a + fl x ≤ 2 by linarith))
    refine ⟨haa.trans g1, ?_⟩
    obtain ⟨k1, k2⟩ := abs_le.1 g2
    rw [List.sum_cons, List.length_cons]
    push_cast
    have e : ((t.length : ℚ) + 1) * (4 / 2 ^ 53) = (t.length : ℚ) * (4 / 2 ^ 53) + 4 / 2 ^ 53 := by ring
    rw [e]
    have e4 : (4 : ℚ) / 2 ^ 53 = 2 / 2 ^ 53 + 2 / 2 ^ 53 := by ring
    rw [e4] at k1 k2 ⊢
    exact abs_le.2 ⟨by linarith, by linarith⟩

theorem Opt.sum_steps (js : List ℕ) (c : ℚ) : (js.map (fun j : ℕ => (j : ℚ) * c)).sum = (js.sum : ℚ) * c := by
  induction js with
  | nil => simp
  | cons a t ih => rw [List.map_cons, List.sum_cons, List.sum_cons, ih]; push_cast; ring

theorem Opt.steps_of (c : ℚ) (v : List ℚ) (h : ∀ x ∈ v, ∃ i : ℕ, x = i * c) :
    ∃ js : List ℕ, v = js.map (fun j : ℕ => (j : ℚ) * c) := by
  induction v with
  | nil => exact ⟨[], rfl⟩
  | cons x t ih =>
    obtain ⟨js, hjs⟩ := ih (fun y hy => h y (List.mem_cons_of_mem _ hy))
    obtain ⟨i, rfl⟩ := h x (by simp)
    exact ⟨i :: js, by rw [hjs, List.map_cons]⟩

/-- floats of different multiples of a decimal step are different -/
theorem Opt.fl_steps_inj {s d : ℕ} (hs : 0 < s) {i j : ℕ} (hij : i < j) (hj : j * s ≤ 2 ^ 20) :
    fl ((i : ℚ) * ((s : ℚ) / 10 ^ d)) < fl ((j : ℚ) * ((s : ℚ) / 10 ^ d)) := by
  have hp : (0 : ℚ) < 10 ^ d := by positivity
  have hs' : (0 : ℚ) < s := by exact_mod_cast hs
  have hc : (0 : ℚ) < (s : ℚ) / 10 ^ d := by positivity
  have hjq : (j : ℚ) * s ≤ 2 ^ 20 := by exact_mod_cast hj
  have hj2 : (j : ℚ) ≤ 2 ^ 20 := by
    have : j ≤ j * s := Nat.le_mul_of_pos_right _ hs
    exact_mod_cast this.trans hj
  have hijq : (i : ℚ) + 1 ≤ j := by exact_mod_cast hij
  have hi0 : (0 : ℚ) ≤ i := Nat.cast_nonneg i
  obtain ⟨a1, a2⟩ := abs_le.1 (fl_within (show 0 ≤ (i : ℚ) * ((s : ℚ) / 10 ^ d) by positivity)
    (show (i : ℚ) * ((s : ℚ) / 10 ^ d) ≤ 2 ^ 20 * ((s : ℚ) / 10 ^ d) from
      mul_le_mul_of_nonneg_right (by linarith) hc.le))
  obtain ⟨b1, b2⟩ := abs_le.1 (fl_within (show 0 ≤ (j : ℚ) * ((s : ℚ) / 10 ^ d) by positivity)
    (show (j : ℚ) * ((s : ℚ) / 10 ^ d) ≤ 2 ^ 20 * ((s : ℚ) / 10 ^ d) from
      mul_le_mul_of_nonneg_right hj2 hc.le))
  have hstep : (i : ℚ) * ((s : ℚ) / 10 ^ d) + (s : ℚ) / 10 ^ d ≤ (j : ℚ) * ((s : ℚ) / 10 ^ d) := by
    have := mul_le_mul_of_nonneg_right hijq hc.le
    linarith
  generalize fl ((i : ℚ) * ((s : ℚ) / 10 ^ d)) = x at *
  generalize fl ((j : ℚ) * ((s : ℚ) / 10 ^ d)) = y at *
  have e : 2 ^ 20 * ((s : ℚ) / 10 ^ d) / 2 ^ 53 = 1 / 2 ^ 33 * ((s : ℚ) / 10 ^ d) := by ring
  rw [e] at a1 a2 b1 b2
  norm_num at a1 a2 b1 b2
  linarith

/-- **C66** (weights in any decimal step, binary64).  Let the step be `s/10^d`, a divisor of 1 (`N·s = 10^d`) whose text
shows its `d` decimals, and let there be up to `2^30` runs.  The configurations tried are, each once, exactly the weight
vectors over the step's multiples whose exact sum is 1, written as floats, that pass the test `sum(...) == 1.0`, computed
left to right in binary64.  So nothing but weightings is ever tried; what can be missing are weightings whose float sum
is not 1.0 (`C66_float_drops`). -/
theorem C66_decimal_partial (N s d : ℕ) (h1 : N * s = 10 ^ d) (hb : 10 ^ d + 2 * s ≤ 2 ^ 20) (stepStr : Py.Str)
    (hd : roundingDigits stepStr = d) (n : ℕ) (hn : n ≤ 2 ^ 30) :
    ∃ T, weightTrials fl (fl ((s : ℚ) / 10 ^ d)) stepStr n = .ok T ∧ T.Nodup ∧
      ∀ w, w ∈ T ↔ ∃ v, Spec.Weighting ((s : ℚ) / 10 ^ d) n v ∧ w = v.map fl ∧
        w.foldl (fun acc x => fl (acc + x)) 0 = 1 := by
  have hp : (0 : ℚ) < 10 ^ d := by positivity
  have hs : 0 < s := by
    rcases Nat.eq_zero_or_pos s with rfl | h
    · simp at h1
      exact absurd h1.symm (by positivity)
    · exact h
  have hs1 : (1 : ℚ) ≤ s := by exact_mod_cast hs
  have hc : (0 : ℚ) < (s : ℚ) / 10 ^ d := by positivity
  have h1q : (N : ℚ) * s = 10 ^ d := by exact_mod_cast h1
  have hNc : (N : ℚ) * ((s : ℚ) / 10 ^ d) = 1 := by rw [← mul_div_assoc, h1q, div_self hp.ne']
  obtain ⟨k, hk, hg⟩ := C67_decimal_partial 0 N s d hs (by rw [Nat.zero_add, Nat.add_mul, h1]; exact hb) stepStr hd
  have e0 : fl (((0 : ℕ) : ℚ) / 10 ^ d) = 0 := by rw [Nat.cast_zero, zero_div]; exact fl_zero
  have e1 : fl (((0 + N * s : ℕ) : ℚ) / 10 ^ d) = 1 := by
    rw [Nat.zero_add]; push_cast; rw [h1q, div_self hp.ne']; exact fl_one
  rw [e0, e1] at hg
  have hgrid : (List.range k).map (fun i : ℕ => fl (((0 + i * s : ℕ) : ℚ) / 10 ^ d)) =
      (List.range k).map (fun i : ℕ => fl ((i : ℚ) * ((s : ℚ) / 10 ^ d))) := by
    apply List.map_congr_left
    intro i _
    congr 1
    push_cast
    ring
  rw [hgrid] at hg
  have hkb : ∀ j, j < k → j * s ≤ 2 ^ 20 := by
    intro j hj
    have : j * s ≤ (N + 2) * s := Nat.mul_le_mul_right _ (by omega)
    rw [Nat.add_mul, h1] at this
    omega
  refine ⟨_, by unfold weightTrials; rw [hg]; rfl, ?_, ?_⟩
  · refine List.Nodup.filter _ (product_nodup _ ?_ n)
    rw [List.nodup_map_iff_inj_on List.nodup_range]
    intro i hi j hj he
    rcases Nat.lt_trichotomy i j with h | h | h
    · exact absurd he (fl_steps_inj hs h (hkb j (List.mem_range.1 hj))).ne
    · exact h
    · exact absurd he.symm (fl_steps_inj hs h (hkb i (List.mem_range.1 hi))).ne
  · intro w
    unfold trialConfigs
    rw [List.mem_filter, mem_product, decide_eq_true_iff]
    unfold pySum
    constructor
    · rintro ⟨⟨hl, hm⟩, hsum⟩
      obtain ⟨js, rfl⟩ : ∃ js : List ℕ, w = (js.map (fun j : ℕ => (j : ℚ) * ((s : ℚ) / 10 ^ d))).map fl := by
        clear hsum hl
        induction w with
        | nil => exact ⟨[], rfl⟩
        | cons x t ih =>
          obtain ⟨js, hjs⟩ := ih (fun y hy => hm y (List.mem_cons_of_mem _ hy))
          obtain ⟨j, -, rfl⟩ := List.mem_map.1 (hm x (by simp))
          exact ⟨j :: js, by rw [hjs, List.map_cons, List.map_cons]⟩
      have hlen : js.length = n := by simpa using hl
      refine ⟨_, ⟨by simpa using hl, ?_, ?_⟩, rfl, hsum⟩
      · intro x hx
        obtain ⟨j, -, rfl⟩ := List.mem_map.1 hx
        exact ⟨j, rfl⟩
      · have hnear := (flSum_near (js.map (fun j : ℕ => (j : ℚ) * ((s : ℚ) / 10 ^ d))) (by
          intro x hx
          obtain ⟨j, -, rfl⟩ := List.mem_map.1 hx
          positivity) 0 le_rfl fl_zero hsum.le).2
        rw [hsum, sum_steps, zero_add, List.length_map, hlen] at hnear
        rw [sum_steps]
        have hnq : (n : ℚ) ≤ 2 ^ 30 := by exact_mod_cast hn
        have hsmall : (n : ℚ) * (4 / 2 ^ 53) < (s : ℚ) / 10 ^ d := by
          have h10 : (10 : ℚ) ^ d ≤ 2 ^ 20 := by
            have : 10 ^ d ≤ 2 ^ 20 := by omega
            exact_mod_cast this
          rw [lt_div_iff₀ hp]
          have : (n : ℚ) * (4 / 2 ^ 53) * 10 ^ d ≤ 2 ^ 30 * (4 / 2 ^ 53) * 2 ^ 20 :=
            mul_le_mul (mul_le_mul_of_nonneg_right hnq (by positivity)) h10 hp.le (by positivity)
          have : (2 : ℚ) ^ 30 * (4 / 2 ^ 53) * 2 ^ 20 < 1 := by norm_num
          linarith
        obtain ⟨b1, b2⟩ := abs_lt.1 (hnear.trans_lt hsmall)
        have : js.sum = N := by
          rcases Nat.lt_trichotomy js.sum N with h | h | h
          · exfalso
            have h' : (js.sum : ℚ) + 1 ≤ N := by exact_mod_cast h
            have := mul_le_mul_of_nonneg_right h' hc.le
            linarith
          · exact h
          · exfalso
            have h' : (N : ℚ) + 1 ≤ js.sum := by exact_mod_cast h
            have := mul_le_mul_of_nonneg_right h' hc.le
            linarith
        rw [this, hNc]
    · rintro ⟨v, hv, rfl, hsum⟩
      refine ⟨⟨by rw [List.length_map]; exact hv.1, ?_⟩, hsum⟩
      intro x hx
      obtain ⟨y, hy, rfl⟩ := List.mem_map.1 hx
      have hle := hv.entry_le hc hy
      obtain ⟨i, rfl⟩ := hv.2.1 y hy
      refine List.mem_map.2 ⟨i, List.mem_range.2 ?_, rfl⟩
      have : (i : ℚ) * ((s : ℚ) / 10 ^ d) ≤ (N : ℚ) * ((s : ℚ) / 10 ^ d) := by rw [hNc]; exact hle
      have : (i : ℚ) ≤ N := le_of_mul_le_mul_right this hc
      have : i ≤ N := by exact_mod_cast this
      omega

/-- hypotheses of `C66_decimal_partial` on concrete cases: steps 0.05, 0.2 and 0.001 -/
example : 20 * 5 = 10 ^ 2 ∧ 10 ^ 2 + 2 * 5 ≤ 2 ^ 20 ∧ roundingDigits "0.05".toList = (2 : ℕ) ∧
    5 * 2 = 10 ^ 1 ∧ 10 ^ 1 + 2 * 2 ≤ 2 ^ 20 ∧ roundingDigits "0.2".toList = (1 : ℕ) ∧
    1000 * 1 = 10 ^ 3 ∧ 10 ^ 3 + 2 * 1 ≤ 2 ^ 20 ∧ roundingDigits "0.001".toList = (3 : ℕ) := by decide

/-- weights 0.75, 0.20, 0.05 on the grid of step 0.05 pass the test -/
example : ([75 / 100, 20 / 100, 5 / 100].map fl).foldl (fun acc x => fl (acc + x)) 0 = 1 := by decide +kernel

/-- **C101** is refuted within the allowed range of `logn_isr`'s parameter: a search from `min_sigma=0.5` to
`max_sigma=1.0` in steps of 0.1 raises `AssertionError` on any valid input, because the grid also contains 1.1
(`C67_overshoot_refuted`). -/
theorem C101_overshoot_refuted {κ δ ι : Type} [LinearOrder κ] [DecidableEq δ] [LinearOrder ι] (E : Fuse.Env δ)
    (V : EvalEnv δ ι) (rowSched : List Nat)
    (str : Fuse.Kwargs → Py.Str) (strNat : Nat → Py.Str) (qrels : Store κ δ Int) (runs : List (Store κ δ ℝ))
    (metric : Py.Str) (hv : Spec.ValidSearch E V qrels runs metric) (norm : Option String)
    (hk : Spec.NormAccepted norm) (wantReport : Bool) :
    optimizeFusion E V rowSched fl str strNat qrels runs norm "logn_isr" metric wantReport
      (.floats (fl (5 / 10)) (fl 1) (fl (1 / 10)) "0.1".toList) = .error .assertionError := by
  obtain ⟨g, hg, hm, h1, -⟩ := C67_overshoot_refuted
  exact C101_logn_isr_rejects E V rowSched fl str strNat qrels runs metric hv norm hk wantReport _ _ _ _ g hg
    ⟨_, hm, fun h => absurd h.2 (not_le.2 h1)⟩

/-- its hypotheses are met -/
example : Spec.ValidSearch oneEnv oneEvalEnv oneQrels [lowFirst, lowFirst] "map".toList ∧ Spec.NormAccepted none :=
  ⟨low_valid, .inl rfl⟩

end Ranx
