import Mathlib.Tactic.Linarith
import Mathlib.Tactic.FieldSimp
import Mathlib.Tactic.Ring
import Mathlib.Algebra.Order.BigOperators.Group.List
import Verif.Model.Grid
import Verif.Lemmas.Float64

/-!
# C66, C67: search spaces
-/

set_option linter.unusedSectionVars false

namespace Ranx
open Opt F64

/-! ## Grids in exact arithmetic -/

theorem Opt.npArange_id (lo hi step : ℚ) (hs : step ≠ 0) :
    npArange id lo hi step =
      .ok ((List.range ⌈(hi - lo) / step⌉.toNat).map (fun i : ℕ => lo + (i : ℚ) * step)) := by
  unfold npArange
  rw [if_neg hs]
  simp only [id, Except.ok.injEq]
  apply List.map_congr_left
  intro i _
  by_cases h0 : i = 0
  · subst h0; simp
  · rw [if_neg h0]
    by_cases h1 : i = 1
    · subst h1; simp
    · rw [if_neg h1]; ring

theorem Opt.roundTo_id (d : ℕ) (x : ℚ) (m : ℤ) (h : x * 10 ^ d = m) : roundTo id (d : ℤ) x = x := by
  show id ((rhe (id (x * 10 ^ d)) : ℚ) / 10 ^ d) = x
  simp only [id]
  rw [h, rhe_int, ← h]
  field_simp

/-- `x` has at most `d` decimals -/
def Spec.Decimals (d : ℕ) (x : ℚ) : Prop := ∃ m : ℤ, x * 10 ^ d = m

theorem Opt.grid_id (lo hi step : ℚ) (stepStr : Py.Str) (d : ℕ) (hs : 0 < step)
    (hd : roundingDigits stepStr = d) (h1 : Spec.Decimals d lo) (h2 : Spec.Decimals d step) :
    grid id lo hi step stepStr =
      .ok ((List.range ⌈(hi + step - lo) / step⌉.toNat).map (fun i : ℕ => lo + (i : ℚ) * step)) := by
  unfold grid
  rw [npArange_id _ _ _ hs.ne']
  simp only [id, Except.map, Except.ok.injEq, List.map_map]
  apply List.map_congr_left
  intro i _
  obtain ⟨a, ha⟩ := h1
  obtain ⟨b, hb⟩ := h2
  simp only [Function.comp, hd]
  refine roundTo_id d _ (a + i * b) ?_
  push_cast
  rw [← ha, ← hb]; ring

/-- **C67** (grids of floats, exact arithmetic): a grid with limits and step of at most as many decimals as
the step's text consists of `lo, lo + step, lo + 2 step, …`, in this order without repetition, up to the last
one below `hi + step`. -/
theorem C67_grid_partial (lo hi step : ℚ) (stepStr : Py.Str) (d : ℕ) (hs : 0 < step)
    (hd : roundingDigits stepStr = d) (h1 : Spec.Decimals d lo) (h2 : Spec.Decimals d step) :
    ∃ g, grid id lo hi step stepStr = .ok g ∧ g.Pairwise (· < ·) ∧
      (∀ x, x ∈ g ↔ (∃ i : ℕ, x = lo + i * step) ∧ x < hi + step) ∧
      -- if `hi` is reached from `lo` in whole steps, the grid ends there
      ((∃ N : ℕ, hi = lo + N * step) → ∀ x, x ∈ g ↔ (∃ i : ℕ, x = lo + i * step) ∧ x ≤ hi) := by
  refine ⟨_, grid_id lo hi step stepStr d hs hd h1 h2, ?_, ?_, ?_⟩
  · rw [List.pairwise_map]
    refine List.Pairwise.imp ?_ (List.pairwise_lt_range (n := _))
    intro a b hab
    have : (a : ℚ) < b := by exact_mod_cast hab
    nlinarith
  · intro x
    have key : ∀ i : ℕ, i < ⌈(hi + step - lo) / step⌉.toNat ↔ lo + (i : ℚ) * step < hi + step := by
      intro i
      rw [Int.lt_toNat, Int.lt_ceil, lt_div_iff₀ hs]
      push_cast
      constructor <;> intro h <;> linarith
    constructor
    · intro h
      obtain ⟨i, hi', rfl⟩ := List.mem_map.1 h
      exact ⟨⟨i, rfl⟩, (key i).1 (List.mem_range.1 hi')⟩
    · rintro ⟨⟨i, rfl⟩, h⟩
      exact List.mem_map.2 ⟨i, List.mem_range.2 ((key i).2 h), rfl⟩
  · rintro ⟨N, hN⟩ x
    have key : ∀ i : ℕ, i < ⌈(hi + step - lo) / step⌉.toNat ↔ lo + (i : ℚ) * step ≤ hi := by
      intro i
      rw [Int.lt_toNat, Int.lt_ceil, lt_div_iff₀ hs, hN]
      push_cast
      constructor
      · intro h
        have : (i : ℚ) < N + 1 := by
          by_contra hc
          have := mul_le_mul_of_nonneg_right (not_lt.1 hc) hs.le
          linarith
        have : i ≤ N := by
          have : i < N + 1 := by exact_mod_cast this
          omega
        have : (i : ℚ) ≤ N := by exact_mod_cast this
        nlinarith
      · intro h; linarith
    constructor
    · intro h
      obtain ⟨i, hi', rfl⟩ := List.mem_map.1 h
      exact ⟨⟨i, rfl⟩, (key i).1 (List.mem_range.1 hi')⟩
    · rintro ⟨⟨i, rfl⟩, h⟩
      exact List.mem_map.2 ⟨i, List.mem_range.2 ((key i).2 h), rfl⟩

/-- the hypotheses hold for the default grids -/
example : roundingDigits "0.01".toList = (2 : ℕ) ∧ Spec.Decimals 2 (1 / 100) :=
  ⟨by decide, 1, by norm_num⟩

/-- **C67** (grids of ints): the grids of rrf, probfuse and slidefuse contain exactly
`lo, lo + step, … ≤ hi`, in this order. -/
theorem C67_ints (lo hi step : ℤ) (hs : 0 < step) :
    ∃ g, intGrid lo hi step = .ok g ∧ g.Pairwise (· < ·) ∧
      ∀ k, k ∈ g ↔ lo ≤ k ∧ k ≤ hi ∧ step ∣ k - lo := by
  unfold intGrid pyRange
  rw [if_neg hs.ne', if_pos hs]
  refine ⟨_, rfl, ?_, ?_⟩
  · rw [List.pairwise_map]
    refine List.Pairwise.imp ?_ (List.pairwise_lt_range (n := _))
    intro a b hab
    have : (a : ℤ) < b := by exact_mod_cast hab
    nlinarith
  · intro k
    have key : ∀ i : ℕ, i < ((hi + 1 - lo + step - 1) / step).toNat ↔ lo + (i : ℤ) * step ≤ hi := by
      intro i
      rw [Int.lt_toNat, Int.lt_iff_add_one_le, Int.le_ediv_iff_mul_le hs]
      constructor <;> intro h <;> linarith
    constructor
    · intro h
      obtain ⟨i, hi', rfl⟩ := List.mem_map.1 h
      refine ⟨by nlinarith [Int.natCast_nonneg i], (key i).1 (List.mem_range.1 hi'), ⟨i, by ring⟩⟩
    · rintro ⟨h1, h2, c, hc⟩
      have hc0 : 0 ≤ c := by
        by_contra hneg
        have : c ≤ -1 := by omega
        nlinarith
      obtain ⟨i, rfl⟩ := Int.eq_ofNat_of_zero_le hc0
      have hk : k = lo + (i : ℤ) * step := by linarith
      refine List.mem_map.2 ⟨i, List.mem_range.2 ((key i).2 (by linarith)), hk.symm⟩

/-- the default of rrf: 10, 20, …, 100 -/
example : intGrid 10 100 10 = .ok [10, 20, 30, 40, 50, 60, 70, 80, 90, 100] := by decide

/-- **C67** (defaults in binary64): the default grid of rbc, gmnz and logn_isr is 0.01, 0.02, …, 1.0, each
entry being the double nearest to the decimal; the default weight grid is 0.0, 0.1, …, 1.0. -/
theorem C67_defaults :
    grid fl (fl (1 / 100)) 1 (fl (1 / 100)) "0.01".toList =
      .ok ((List.range 100).map (fun i => fl (((i : ℚ) + 1) / 100))) ∧
    grid fl 0 1 (fl (1 / 10)) "0.1".toList = .ok ((List.range 11).map (fun i => fl ((i : ℚ) / 10))) := by
  constructor <;> decide +kernel

/-- **C67** is false in general: (1) a step that does not divide the interval goes beyond the maximum
(`step=0.3`: 1.2 > 1); (2) limits finer than the step are rounded to the step's decimals (`min=0.05`,
`step=0.1`); (3) a step whose text has no dot (`1e-05`) makes every candidate 0. -/
theorem C67_refuted :
    (∃ g, grid fl 0 1 (fl (3 / 10)) "0.3".toList = .ok g ∧ fl (12 / 10) ∈ g) ∧
    (∃ g, grid fl (fl (5 / 100)) 1 (fl (1 / 10)) "0.1".toList = .ok g ∧ fl (5 / 100) ∉ g) ∧
    (∃ g, grid fl 0 (fl (2 / 10 ^ 5)) (fl (1 / 10 ^ 5)) "1e-05".toList = .ok g ∧ g.length = 3 ∧
      ∀ x ∈ g, x = 0) := by
  refine ⟨⟨[0, fl (3 / 10), fl (6 / 10), fl (9 / 10), fl (12 / 10)], by decide +kernel, by decide +kernel⟩,
    ⟨[0, fl (2 / 10), fl (3 / 10), fl (4 / 10), fl (5 / 10), fl (6 / 10), fl (7 / 10), fl (8 / 10),
      fl (9 / 10), 1, fl (11 / 10)], by decide +kernel, by decide +kernel⟩,
    ⟨[0, 0, 0], by decide +kernel, rfl, by simp⟩⟩

/-! ## C66: weights -/

theorem Opt.mem_product (ws : List ℚ) (n : ℕ) (w : List ℚ) :
    w ∈ product ws n ↔ w.length = n ∧ ∀ x ∈ w, x ∈ ws := by
  induction n generalizing w with
  | zero =>
    constructor
    · intro h
      have : w = [] := by simpa [product] using h
      subst this; simp
    · rintro ⟨h, -⟩
      rw [List.length_eq_zero_iff] at h
      subst h; simp [product]
  | succ n ih =>
    simp only [product, List.mem_flatMap, List.mem_map]
    constructor
    · rintro ⟨a, ha, seq, hs, rfl⟩
      obtain ⟨h1, h2⟩ := (ih seq).1 hs
      exact ⟨by simp [h1], by simpa using ⟨ha, h2⟩⟩
    · rintro ⟨h1, h2⟩
      match w, h1, h2 with
      | a :: seq, h1, h2 =>
        exact ⟨a, h2 a (by simp), seq, (ih seq).2 ⟨by simpa using h1, fun x hx => h2 x (by simp [hx])⟩, rfl⟩

theorem Opt.product_nodup (ws : List ℚ) (h : ws.Nodup) (n : ℕ) : (product ws n).Nodup := by
  induction n with
  | zero => simp [product]
  | succ n ih =>
    simp only [product]
    rw [List.nodup_flatMap]
    refine ⟨fun a _ => ih.map (fun x y hxy => by simpa using hxy), ?_⟩
    refine List.Pairwise.imp_of_mem ?_ h
    intro a b _ _ hab
    simp only [Function.onFun, List.disjoint_left, List.mem_map]
    rintro x ⟨u, -, rfl⟩ ⟨v, -, hv⟩
    exact hab (by simpa using (List.cons.inj hv).1.symm)

theorem Opt.pySum_id (l : List ℚ) : pySum id l = l.sum := by
  unfold pySum
  have : ∀ (l : List ℚ) (a : ℚ), l.foldl (fun acc x => id (acc + x)) a = a + l.sum := by
    intro l
    induction l with
    | nil => intro a; simp
    | cons x t ih => intro a; rw [List.foldl_cons, ih]; simp [add_assoc]
  rw [this]; simp

/-- The weight vectors of `n` runs on the grid of multiples of `step`. -/
def Spec.Weighting (step : ℚ) (n : ℕ) (w : List ℚ) : Prop :=
  w.length = n ∧ (∀ x ∈ w, ∃ i : ℕ, x = i * step) ∧ w.sum = 1

theorem Spec.Weighting.entry_le {step : ℚ} {n : ℕ} {w : List ℚ} (hs : 0 < step) (h : Spec.Weighting step n w)
    {x : ℚ} (hx : x ∈ w) : x ≤ 1 := by
  rw [← h.2.2]
  refine List.single_le_sum ?_ x hx
  intro y hy
  obtain ⟨i, rfl⟩ := h.2.1 y hy
  positivity

/-- **C66** (exact arithmetic): for any step whose text shows all its decimals, the configurations tried are
exactly the weight vectors over the step's multiples that sum to 1, each once. -/
theorem C66_exact_partial (step : ℚ) (stepStr : Py.Str) (d : ℕ) (hs : 0 < step)
    (hd : roundingDigits stepStr = d) (h2 : Spec.Decimals d step) (n : ℕ) :
    ∃ T, weightTrials id step stepStr n = .ok T ∧ T.Nodup ∧ ∀ w, w ∈ T ↔ Spec.Weighting step n w := by
  obtain ⟨g, hg, hp, hm, -⟩ := C67_grid_partial 0 1 step stepStr d hs hd ⟨0, by simp⟩ h2
  refine ⟨trialConfigs id g n, by unfold weightTrials; rw [hg]; rfl, ?_, ?_⟩
  · exact (product_nodup g (hp.imp (fun h => h.ne)) n).filter _
  · intro w
    unfold trialConfigs
    rw [List.mem_filter, mem_product, pySum_id, decide_eq_true_iff]
    constructor
    · rintro ⟨⟨h1, h2⟩, h3⟩
      refine ⟨h1, fun x hx => ?_, h3⟩
      obtain ⟨⟨i, hi⟩, -⟩ := (hm x).1 (h2 x hx)
      exact ⟨i, by rw [hi]; ring⟩
    · intro h
      refine ⟨⟨h.1, fun x hx => (hm x).2 ⟨?_, ?_⟩⟩, h.2.2⟩
      · obtain ⟨i, hi⟩ := h.2.1 x hx
        exact ⟨i, by rw [hi]; ring⟩
      · have := h.entry_le hs hx
        linarith

/-- hypotheses and conclusion on a concrete case: step 0.1, three runs -/
example : roundingDigits "0.1".toList = (1 : ℕ) ∧ Spec.Decimals 1 (1 / 10) ∧
    Spec.Weighting (1 / 10) 3 [7 / 10, 2 / 10, 1 / 10] :=
  ⟨by decide, ⟨1, by norm_num⟩, rfl, by
    intro x hx
    simp only [List.mem_cons, List.not_mem_nil, or_false] at hx
    rcases hx with rfl | rfl | rfl
    · exact ⟨7, by norm_num⟩
    · exact ⟨2, by norm_num⟩
    · exact ⟨1, by norm_num⟩, by norm_num⟩

/-- **C66** is false in binary64: with the default step and three runs, the weights (0.7, 0.2, 0.1) are
never tried, although (0.1, 0.2, 0.7) are (the float sums are 0.9999999999999999 and 1.0). -/
theorem C66_float_drops :
    ∃ T, weightTrials fl (fl (1 / 10)) "0.1".toList 3 = .ok T ∧
      [fl (7 / 10), fl (2 / 10), fl (1 / 10)] ∉ T ∧ [fl (1 / 10), fl (2 / 10), fl (7 / 10)] ∈ T := by
  refine ⟨trialConfigs fl ((List.range 11).map (fun i : ℕ => fl ((i : ℚ) / 10))) 3, ?_, ?_, ?_⟩
  · unfold weightTrials; rw [C67_defaults.2]; rfl
  · unfold trialConfigs
    rw [List.mem_filter]
    rintro ⟨-, h⟩
    revert h
    decide +kernel
  · unfold trialConfigs
    rw [List.mem_filter, mem_product]
    refine ⟨⟨rfl, ?_⟩, by decide +kernel⟩
    decide +kernel

/-- **C66** (default step, two runs, binary64): all eleven pairs are tried. -/
theorem C66_two_runs :
    weightTrials fl (fl (1 / 10)) "0.1".toList 2 =
      .ok ((List.range 11).map (fun i : ℕ => [fl ((i : ℚ) / 10), fl ((10 - (i : ℚ)) / 10)])) := by
  decide +kernel

theorem F64.fl_dyadic (m : ℤ) (e : ℕ) (hm : |m| ≤ 2 ^ 53) : fl ((m : ℚ) / 2 ^ e) = (m : ℚ) / 2 ^ e := by
  have := fl_exact m (-(e : ℤ)) hm
  rwa [zpow_neg, zpow_natCast, ← div_eq_mul_inv] at this

theorem F64.fl_dyadic_nat (m e : ℕ) (hm : m ≤ 2 ^ 53) : fl ((m : ℚ) / 2 ^ e) = (m : ℚ) / 2 ^ e := by
  have := fl_dyadic (m : ℤ) e (by rw [abs_of_nonneg (by positivity)]; exact_mod_cast hm)
  rwa [Int.cast_natCast] at this

theorem Opt.grid_dyadic (e : ℕ) (he : e ≤ 15) (stepStr : Py.Str) (hd : roundingDigits stepStr = e) :
    grid fl 0 1 (1 / 2 ^ e) stepStr = .ok ((List.range (2 ^ e + 1)).map (fun i : ℕ => (i : ℚ) / 2 ^ e)) := by
  have h2 : (2 : ℕ) ^ e ≤ 2 ^ 15 := Nat.pow_le_pow_right (by norm_num) he
  have h10 : (10 : ℕ) ^ e ≤ 10 ^ 15 := Nat.pow_le_pow_right (by norm_num) he
  have hp : (0 : ℚ) < 2 ^ e := by positivity
  have f : ∀ m : ℕ, m ≤ 2 ^ 53 → fl ((m : ℚ) / 2 ^ e) = (m : ℚ) / 2 ^ e := fun m hm => fl_dyadic_nat m e hm
  have hhi : fl (1 + 1 / 2 ^ e) = (((2 ^ e + 1 : ℕ) : ℚ)) / 2 ^ e := by
    rw [← f _ (by omega)]; congr 1; push_cast; field_simp
  have hsub : fl (((2 ^ e + 1 : ℕ) : ℚ) / 2 ^ e - 0) = ((2 ^ e + 1 : ℕ) : ℚ) / 2 ^ e := by
    rw [sub_zero]; exact f _ (by omega)
  have hlen : fl (((2 ^ e + 1 : ℕ) : ℚ) / 2 ^ e / (1 / 2 ^ e)) = ((2 ^ e + 1 : ℕ) : ℚ) := by
    have : ((2 ^ e + 1 : ℕ) : ℚ) / 2 ^ e / (1 / 2 ^ e) = ((2 ^ e + 1 : ℕ) : ℚ) / 2 ^ 0 := by
      field_simp
    rw [this, fl_dyadic_nat _ 0 (by omega)]; simp
  have hstep : fl (0 + 1 / 2 ^ e) = 1 / 2 ^ e := by
    rw [zero_add]; have := f 1 (by norm_num); simpa using this
  have hdelta : fl (1 / 2 ^ e - 0) = 1 / 2 ^ e := by
    rw [sub_zero]; have := f 1 (by norm_num); simpa using this
  unfold grid npArange
  rw [if_neg (by positivity), hhi, hsub, hlen, hstep]
  simp only [hdelta, Except.map, Except.ok.injEq, List.map_map]
  have hceil : ⌈((2 ^ e + 1 : ℕ) : ℚ)⌉.toNat = 2 ^ e + 1 := by
    rw [Int.ceil_natCast]; rfl
  rw [hceil]
  apply List.map_congr_left
  intro i hi
  have hi' : i ≤ 2 ^ e := by have := List.mem_range.1 hi; omega
  have hval : (if i = 0 then (0 : ℚ) else if i = 1 then 1 / 2 ^ e else fl (0 + fl ((i : ℚ) * (1 / 2 ^ e)))) =
      (i : ℚ) / 2 ^ e := by
    by_cases h0 : i = 0
    · subst h0; simp
    · rw [if_neg h0]
      by_cases h1 : i = 1
      · subst h1; simp
      · rw [if_neg h1, mul_one_div, zero_add, f i (by omega), f i (by omega)]
  simp only [Function.comp, hval, hd]
  show fl ((rhe (fl ((i : ℚ) / 2 ^ e * 10 ^ e)) : ℚ) / 10 ^ e) = (i : ℚ) / 2 ^ e
  have h5 : (i : ℚ) / 2 ^ e * 10 ^ e = ((i * 5 ^ e : ℕ) : ℚ) / 2 ^ 0 := by
    push_cast
    rw [show (10 : ℚ) = 2 * 5 by norm_num, mul_pow]
    field_simp
  have hb : i * 5 ^ e ≤ 2 ^ 53 := by
    have : i * 5 ^ e ≤ 2 ^ e * 5 ^ e := Nat.mul_le_mul_right _ hi'
    rw [← mul_pow] at this
    have : i * 5 ^ e ≤ 10 ^ 15 := this.trans h10
    omega
  rw [h5, fl_dyadic_nat _ 0 hb, pow_zero, div_one]
  have : rhe ((i * 5 ^ e : ℕ) : ℚ) = ((i * 5 ^ e : ℕ) : ℤ) := by
    have := rhe_int ((i * 5 ^ e : ℕ) : ℤ)
    exact_mod_cast this
  rw [this, ← f i (by omega)]
  rw [f i (by omega)]
  have h6 : ((((i * 5 ^ e : ℕ) : ℤ)) : ℚ) / 10 ^ e = (i : ℚ) / 2 ^ e := by
    push_cast
    rw [show (10 : ℚ) = 2 * 5 by norm_num, mul_pow]
    field_simp
  rw [h6, f i (by omega)]

/-- sums of fractions with denominator `2^e` compare to 1 exactly in binary64 -/
theorem Opt.pySum_dyadic (e : ℕ) (he : e ≤ 15) (l : List ℚ)
    (h : ∀ x ∈ l, ∃ i : ℕ, i ≤ 2 ^ e ∧ x = (i : ℚ) / 2 ^ e) : pySum fl l = 1 ↔ l.sum = 1 := by
  have h2 : (2 : ℕ) ^ e ≤ 2 ^ 15 := Nat.pow_le_pow_right (by norm_num) he
  have hp : (0 : ℚ) < 2 ^ e := by positivity
  have h1 : ∀ a b : ℕ, (a : ℚ) / 2 ^ e + (b : ℚ) / 2 ^ e = ((a + b : ℕ) : ℚ) / 2 ^ e := by
    intro a b; push_cast; ring
  -- above 1 the sum stays above 1
  have above : ∀ (l : List ℚ) (acc : ℚ), (∀ x ∈ l, ∃ i : ℕ, i ≤ 2 ^ e ∧ x = (i : ℚ) / 2 ^ e) →
      1 < acc → fl acc = acc → 1 < l.foldl (fun acc x => fl (acc + x)) acc := by
    intro l
    induction l with
    | nil => intro acc _ h _; simpa using h
    | cons x t ih =>
      intro acc hx ha hf
      rw [List.foldl_cons]
      obtain ⟨i, -, rfl⟩ := hx x (by simp)
      refine ih _ (fun y hy => hx y (by simp [hy])) ?_ (fl_fl _)
      refine ha.trans_le ?_
      rw [← hf]
      apply fl_mono
      rw [hf]
      have : (0 : ℚ) ≤ (i : ℚ) / 2 ^ e := by positivity
      linarith
  have main : ∀ (l : List ℚ) (a : ℕ), (∀ x ∈ l, ∃ i : ℕ, i ≤ 2 ^ e ∧ x = (i : ℚ) / 2 ^ e) → a ≤ 2 ^ e →
      (l.foldl (fun acc x => fl (acc + x)) ((a : ℚ) / 2 ^ e) = 1 ↔ (a : ℚ) / 2 ^ e + l.sum = 1) := by
    intro l
    induction l with
    | nil => intro a _ _; simp
    | cons x t ih =>
      intro a hx ha
      obtain ⟨i, hi, rfl⟩ := hx x (by simp)
      have ht := fun y hy => hx y (List.mem_cons_of_mem _ hy)
      rw [List.foldl_cons, h1, fl_dyadic_nat _ e (by omega), List.sum_cons, ← add_assoc, h1]
      by_cases hle : a + i ≤ 2 ^ e
      · exact ih (a + i) ht hle
      · have hgt : (1 : ℚ) < ((a + i : ℕ) : ℚ) / 2 ^ e := by
          rw [lt_div_iff₀ hp, one_mul]
          have : 2 ^ e < a + i := by omega
          exact_mod_cast this
        constructor
        · intro h
          exact absurd h (above t _ ht hgt (fl_dyadic_nat _ e (by omega))).ne'
        · intro h
          have : 0 ≤ t.sum := by
            refine List.sum_nonneg ?_
            intro y hy
            obtain ⟨j, -, rfl⟩ := ht y hy
            positivity
          linarith
  have := main l 0 h (Nat.zero_le _)
  unfold pySum
  simpa using this

/-- **C66** (steps that are powers of two, binary64): with step 0.5, 0.25, …, 2⁻¹⁵ the configurations
tried are exactly the weightings, for any number of runs. -/
theorem C66_dyadic_partial (e : ℕ) (he : e ≤ 15) (stepStr : Py.Str) (hd : roundingDigits stepStr = e) (n : ℕ) :
    ∃ T, weightTrials fl (1 / 2 ^ e) stepStr n = .ok T ∧ T.Nodup ∧
      ∀ w, w ∈ T ↔ Spec.Weighting (1 / 2 ^ e) n w := by
  have hp : (0 : ℚ) < 2 ^ e := by positivity
  refine ⟨trialConfigs fl ((List.range (2 ^ e + 1)).map (fun i : ℕ => (i : ℚ) / 2 ^ e)) n, ?_, ?_, ?_⟩
  · unfold weightTrials; rw [grid_dyadic e he stepStr hd]; rfl
  · refine (product_nodup _ ?_ n).filter _
    refine List.nodup_range.map ?_
    intro a b hab
    have : (a : ℚ) = b := by
      have hab' : (a : ℚ) / 2 ^ e = (b : ℚ) / 2 ^ e := hab
      rwa [div_left_inj' hp.ne'] at hab'
    exact_mod_cast this
  · intro w
    have hmem : ∀ x : ℚ, x ∈ (List.range (2 ^ e + 1)).map (fun i : ℕ => (i : ℚ) / 2 ^ e) ↔
        ∃ i : ℕ, i ≤ 2 ^ e ∧ x = (i : ℚ) / 2 ^ e := by
      intro x
      rw [List.mem_map]
      constructor
      · rintro ⟨i, hi, rfl⟩
        exact ⟨i, by have := List.mem_range.1 hi; omega, rfl⟩
      · rintro ⟨i, hi, rfl⟩
        exact ⟨i, List.mem_range.2 (by omega), rfl⟩
    unfold trialConfigs
    rw [List.mem_filter, mem_product, decide_eq_true_iff]
    constructor
    · rintro ⟨⟨h1, h2⟩, h3⟩
      have h2' := fun x hx => (hmem x).1 (h2 x hx)
      refine ⟨h1, fun x hx => ?_, (pySum_dyadic e he w h2').1 h3⟩
      obtain ⟨i, -, rfl⟩ := h2' x hx
      exact ⟨i, by ring⟩
    · intro h
      have h2' : ∀ x ∈ w, ∃ i : ℕ, i ≤ 2 ^ e ∧ x = (i : ℚ) / 2 ^ e := by
        intro x hx
        obtain ⟨i, hi⟩ := h.2.1 x hx
        refine ⟨i, ?_, by rw [hi]; ring⟩
        have hle := h.entry_le (by positivity) hx
        rw [hi, mul_one_div, div_le_one hp] at hle
        exact_mod_cast hle
      exact ⟨⟨h.1, fun x hx => (hmem x).2 (h2' x hx)⟩, (pySum_dyadic e he w h2').2 h.2.2⟩

/-- step 0.25 -/
example : roundingDigits "0.25".toList = (2 : ℕ) ∧ Spec.Weighting (1 / 2 ^ 2) 3 [1 / 2, 1 / 4, 1 / 4] :=
  ⟨by decide, rfl, by
    intro x hx
    simp only [List.mem_cons, List.not_mem_nil, or_false] at hx
    rcases hx with rfl | rfl | rfl
    · exact ⟨2, by norm_num⟩
    · exact ⟨1, by norm_num⟩
    · exact ⟨1, by norm_num⟩, by norm_num⟩

end Ranx
