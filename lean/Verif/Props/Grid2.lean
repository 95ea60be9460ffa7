import Mathlib.Data.List.Perm.Basic
import Mathlib.Data.List.Sort
import Mathlib.Tactic.IntervalCases
import Verif.Props.Grid

/-!
# C66, C67: the default weight grid in binary64, for any number of runs; odd steps
-/

set_option linter.unusedSectionVars false

namespace Ranx
open Opt F64

/-! ## C67: steps that are not positive -/

/-- **C67** (ints, negative step): a negative step counts down from `lo` and stops before `hi + 1`: exactly
the `lo + i * step` above `hi + 1`, in descending order (none if `lo ≤ hi`). -/
theorem C67_ints_down (lo hi step : ℤ) (hs : step < 0) :
    ∃ g, intGrid lo hi step = .ok g ∧ g.Pairwise (· > ·) ∧
      (∀ k, k ∈ g ↔ k ≤ lo ∧ hi + 1 < k ∧ step ∣ lo - k) ∧ (lo ≤ hi → g = []) := by
  have key : ∀ i : ℕ, i < ((lo - (hi + 1) - step - 1) / (-step)).toNat ↔ hi + 1 < lo + (i : ℤ) * step := by
    intro i
    rw [Int.lt_toNat, Int.lt_iff_add_one_le, Int.le_ediv_iff_mul_le (by omega)]
    constructor <;> intro h <;> nlinarith
  unfold intGrid pyRange
  rw [if_neg hs.ne, if_neg (by omega)]
  refine ⟨_, rfl, ?_, ?_, ?_⟩
  · rw [List.pairwise_map]
    refine List.Pairwise.imp ?_ (List.pairwise_lt_range (n := _))
    intro a b hab
    have : (a : ℤ) < b := by exact_mod_cast hab
    show lo + (b : ℤ) * step < lo + (a : ℤ) * step
    nlinarith
  · intro k
    simp only [List.mem_map, List.mem_range]
    constructor
    · rintro ⟨i, hi', rfl⟩
      have h0 : (0 : ℤ) ≤ i := Int.natCast_nonneg i
      exact ⟨by nlinarith, (key i).1 hi', ⟨-(i : ℤ), by ring⟩⟩
    · rintro ⟨h1, h2, c, hc⟩
      have hc' : 0 ≤ -c := by nlinarith
      obtain ⟨i, hi'⟩ := Int.eq_ofNat_of_zero_le hc'
      have hk : lo + (i : ℤ) * step = k := by rw [← hi']; linarith [mul_comm step c]
      exact ⟨i, (key i).2 (by rw [hk]; exact h2), hk⟩
  · intro h
    have : ((lo - (hi + 1) - step - 1) / (-step)).toNat = 0 := by
      by_contra hne
      have := (key 0).1 (Nat.pos_of_ne_zero hne)
      simp at this
      omega
    rw [this]; rfl

example : intGrid 10 3 (-2) = .ok [10, 8, 6] := by decide +kernel

/-- **C67**: a zero step never yields a search space: the int grids raise ValueError, the float grids
ZeroDivisionError, whatever the limits. -/
theorem C67_zero_step (rnd : ℚ → ℚ) (lo hi : ℚ) (a b : ℤ) (stepStr : Py.Str) (n : ℕ) :
    intGrid a b 0 = .error .valueError ∧ grid rnd lo hi 0 stepStr = .error .zeroDivision ∧
      weightTrials rnd 0 stepStr n = .error .zeroDivision := by
  refine ⟨?_, ?_, ?_⟩
  · unfold intGrid pyRange; rw [if_pos rfl]
  · unfold grid npArange; rw [if_pos rfl]; rfl
  · unfold weightTrials grid npArange; rw [if_pos rfl]; rfl

/-! ## C66: the default step 0.1 -/

/-- the float written `j/10` -/
def Opt.tenth (j : ℕ) : ℚ := fl ((j : ℚ) / 10)

/-- running float sum of tenths -/
def Opt.tenthSum (js : List ℕ) (a : ℚ) : ℚ := js.foldl (fun acc j => fl (acc + tenth j)) a

/-- the float sums of tenths that stay up to 1 (times 2^55), with the number of tenths -/
def Opt.tenthStates : List (ℕ × ℚ) :=
  ([(0, 0), (1, 3602879701896397), (2, 7205759403792794), (3, 10808639105689190), (3,
    10808639105689192), (4, 14411518807585588), (5, 18014398509481984), (6, 21617278211378380), (6,
    21617278211378384), (7, 25220157913274776), (7, 25220157913274780), (8, 28823037615171176), (8,
    28823037615171172), (9, 32425917317067572), (9, 32425917317067568), (9, 32425917317067576), (10,
    36028797018963968), (10, 36028797018963964)] : List (ℕ × ℕ)).map (fun s => (s.1, (s.2 : ℚ) / 2 ^ 55))

theorem Opt.tenthStates_step : ∀ s ∈ tenthStates, ∀ j ∈ List.range 11,
    (s.1 + j, fl (s.2 + tenth j)) ∈ tenthStates ∨ 1 < fl (s.2 + tenth j) := by
  decide +kernel

theorem Opt.tenthStates_one : ∀ s ∈ tenthStates, s.2 = 1 → s.1 = 10 := by decide +kernel

theorem Opt.tenthStates_fl : ∀ s ∈ tenthStates, fl s.2 = s.2 := by decide +kernel

theorem Opt.tenth_nonneg (j : ℕ) : 0 ≤ tenth j := by
  unfold tenth
  rcases Nat.eq_zero_or_pos j with rfl | h
  · simp [fl_zero]
  · exact (fl_pos (by positivity)).le

theorem Opt.tenthSum_inv (js : List ℕ) (hj : ∀ j ∈ js, j ≤ 10) (i : ℕ) (a : ℚ)
    (h : (i, a) ∈ tenthStates ∨ (1 < a ∧ fl a = a)) :
    (i + js.sum, tenthSum js a) ∈ tenthStates ∨ 1 < tenthSum js a := by
  induction js generalizing i a with
  | nil => exact h.imp (fun h => h) (fun h => h.1)
  | cons j t ih =>
    have hj' : j ≤ 10 := hj j (by simp)
    have ht := fun x hx => hj x (List.mem_cons_of_mem _ hx)
    rw [List.sum_cons, ← Nat.add_assoc]
    refine ih ht (i + j) (fl (a + tenth j)) ?_
    rcases h with h | ⟨h1, h2⟩
    · rcases tenthStates_step _ h j (List.mem_range.2 (by omega)) with h' | h'
      · exact .inl h'
      · exact .inr ⟨h', fl_fl _⟩
    · refine .inr ⟨lt_of_lt_of_le h1 ?_, fl_fl _⟩
      calc a = fl a := h2.symm
        _ ≤ fl (a + tenth j) := fl_mono (by linarith [tenth_nonneg j])

theorem Opt.pySum_tenths (js : List ℕ) : pySum fl (js.map tenth) = tenthSum js 0 := by
  unfold pySum tenthSum
  rw [List.foldl_map]

theorem Opt.mem_default_trials (n : ℕ) (w : List ℚ) (T : List (List ℚ))
    (hT : weightTrials fl (fl (1 / 10)) "0.1".toList n = .ok T) :
    w ∈ T ↔ ∃ js : List ℕ, js.length = n ∧ (∀ j ∈ js, j ≤ 10) ∧ w = js.map tenth ∧ tenthSum js 0 = 1 := by
  have hT' : T = trialConfigs fl ((List.range 11).map (fun i : ℕ => fl ((i : ℚ) / 10))) n := by
    unfold weightTrials at hT
    rw [C67_defaults.2] at hT
    exact (Except.ok.inj hT).symm
  rw [hT']
  unfold trialConfigs
  rw [List.mem_filter, mem_product, decide_eq_true_iff]
  constructor
  · rintro ⟨⟨h1, h2⟩, h3⟩
    have : ∃ js : List ℕ, (∀ j ∈ js, j ≤ 10) ∧ w = js.map tenth := by
      clear h1 h3 hT hT'
      induction w with
      | nil => exact ⟨[], by simp, rfl⟩
      | cons x t ih =>
        obtain ⟨js, h, rfl⟩ := ih (fun y hy => h2 y (List.mem_cons_of_mem _ hy))
        obtain ⟨j, hj, rfl⟩ := List.mem_map.1 (h2 x (by simp))
        refine ⟨j :: js, ?_, rfl⟩
        intro k hk
        rcases List.mem_cons.1 hk with rfl | hk
        · have := List.mem_range.1 hj; omega
        · exact h k hk
    obtain ⟨js, hj, rfl⟩ := this
    exact ⟨js, by simpa using h1, hj, rfl, by rw [← pySum_tenths]; exact h3⟩
  · rintro ⟨js, h1, h2, rfl, h3⟩
    refine ⟨⟨by simpa using h1, ?_⟩, by rw [pySum_tenths]; exact h3⟩
    intro x hx
    obtain ⟨j, hj, rfl⟩ := List.mem_map.1 hx
    exact List.mem_map.2 ⟨j, List.mem_range.2 (by have := h2 j hj; omega), rfl⟩

theorem Opt.default_trials_ok (n : ℕ) : ∃ T, weightTrials fl (fl (1 / 10)) "0.1".toList n = .ok T := by
  unfold weightTrials; rw [C67_defaults.2]; exact ⟨_, rfl⟩

/-- a weighting in tenths, as numerators -/
theorem Spec.Weighting.tenths {n : ℕ} {v : List ℚ} (h : Spec.Weighting (1 / 10) n v) :
    ∃ js : List ℕ, v = js.map (fun j : ℕ => (j : ℚ) / 10) ∧ js.length = n ∧ js.sum = 10 := by
  obtain ⟨h1, h2, h3⟩ := h
  have : ∃ js : List ℕ, v = js.map (fun j : ℕ => (j : ℚ) / 10) := by
    clear h1 h3
    induction v with
    | nil => exact ⟨[], rfl⟩
    | cons x t ih =>
      obtain ⟨js, hjs⟩ := ih (fun y hy => h2 y (List.mem_cons_of_mem _ hy))
      obtain ⟨i, rfl⟩ := h2 x (by simp)
      exact ⟨i :: js, by rw [hjs, List.map_cons]; congr 1; ring⟩
  obtain ⟨js, rfl⟩ := this
  refine ⟨js, rfl, by simpa using h1, ?_⟩
  have hsum : ∀ l : List ℕ, (l.map (fun j : ℕ => (j : ℚ) / 10)).sum = (l.sum : ℚ) / 10 := by
    intro l
    induction l with
    | nil => simp
    | cons a t ih => rw [List.map_cons, List.sum_cons, List.sum_cons, ih]; push_cast; ring
  rw [hsum] at h3
  have : ((js.sum : ℕ) : ℚ) = 10 := by linarith
  exact_mod_cast this

theorem Spec.weighting_of_tenths (js : List ℕ) (h : js.sum = 10) :
    Spec.Weighting (1 / 10) js.length (js.map (fun j : ℕ => (j : ℚ) / 10)) := by
  refine ⟨by simp, ?_, ?_⟩
  · intro x hx
    obtain ⟨j, -, rfl⟩ := List.mem_map.1 hx
    exact ⟨j, by ring⟩
  · have hsum : ∀ l : List ℕ, (l.map (fun j : ℕ => (j : ℚ) / 10)).sum = (l.sum : ℚ) / 10 := by
      intro l
      induction l with
      | nil => simp
      | cons a t ih => rw [List.map_cons, List.sum_cons, List.sum_cons, ih]; push_cast; ring
    rw [hsum, h]; norm_num

/-- **C66** (default step, any number of runs): in binary64 nothing but weightings is tried: every candidate
consists of the floats of a weight vector in tenths whose sum is exactly 1. -/
theorem C66_default_sound (n : ℕ) :
    ∃ T, weightTrials fl (fl (1 / 10)) "0.1".toList n = .ok T ∧
      ∀ w ∈ T, ∃ v, Spec.Weighting (1 / 10) n v ∧ w = v.map fl := by
  obtain ⟨T, hT⟩ := default_trials_ok n
  refine ⟨T, hT, ?_⟩
  intro w hw
  obtain ⟨js, h1, h2, rfl, h3⟩ := (mem_default_trials n w T hT).1 hw
  have hs : js.sum = 10 := by
    rcases tenthSum_inv js h2 0 0 (.inl (by decide +kernel)) with h | h
    · rw [h3] at h
      simpa using tenthStates_one _ h rfl
    · rw [h3] at h; exact absurd h (lt_irrefl _)
  refine ⟨js.map (fun j : ℕ => (j : ℚ) / 10), h1 ▸ Spec.weighting_of_tenths js hs, ?_⟩
  rw [List.map_map]; rfl

/-! ### up to the order of the runs -/

/-- all lists of positive numbers, not increasing, at most `m`, with sum `n` -/
def Opt.parts : ℕ → ℕ → ℕ → List (List ℕ)
  | 0, n, _ => if n = 0 then [[]] else []
  | f + 1, n, m => if n = 0 then [[]] else
      (List.range (min n m)).flatMap (fun k => (parts f (n - (k + 1)) (k + 1)).map (fun p => (k + 1) :: p))

theorem Opt.mem_parts (f : ℕ) (l : List ℕ) (m : ℕ) (hf : l.sum ≤ f) (hp : ∀ x ∈ l, 0 < x)
    (hm : ∀ x ∈ l, x ≤ m) (hs : l.Pairwise (· ≥ ·)) : l ∈ parts f l.sum m := by
  induction l generalizing f m with
  | nil => cases f <;> simp [parts]
  | cons a t ih =>
    have ha : 0 < a := hp a (by simp)
    rw [List.sum_cons] at hf ⊢
    obtain ⟨f, rfl⟩ : ∃ g, f = g + 1 := ⟨f - 1, by omega⟩
    rw [parts, if_neg (by omega), List.mem_flatMap]
    refine ⟨a - 1, List.mem_range.2 ?_, ?_⟩
    · have := hm a (by simp); omega
    · have e : a - 1 + 1 = a := by omega
      have e2 : a + t.sum - (a - 1 + 1) = t.sum := by omega
      rw [e2, e]
      rw [List.pairwise_cons] at hs
      refine List.mem_map.2 ⟨t, ih f a (by omega) (fun x hx => hp x (List.mem_cons_of_mem _ hx))
        (fun x hx => hs.1 x hx) hs.2, rfl⟩

theorem Opt.parts_ten : ∀ p ∈ parts 10 10 10, p ≠ List.replicate 10 1 →
    tenthSum p 0 = 1 ∨ tenthSum p.reverse 0 = 1 := by decide +kernel

theorem Opt.ten_ones : tenthSum (List.replicate 10 1) 0 ≠ 1 := by decide +kernel

theorem Opt.tenthSum_append (a b : List ℕ) (x : ℚ) : tenthSum (a ++ b) x = tenthSum b (tenthSum a x) := by
  unfold tenthSum; rw [List.foldl_append]

theorem Opt.tenth_zero : tenth 0 = 0 := by unfold tenth; simp [fl_zero]

theorem Opt.tenthSum_zeros (k : ℕ) (a : ℚ) (h : fl a = a) : tenthSum (List.replicate k 0) a = a := by
  induction k with
  | zero => rfl
  | succ k ih =>
    rw [List.replicate_succ]
    show tenthSum (List.replicate k 0) (fl (a + tenth 0)) = a
    rw [tenth_zero, add_zero, h, ih]

/-- zeros do not change float sums -/
theorem Opt.tenthSum_filter (js : List ℕ) (a : ℚ) (h : fl a = a) :
    tenthSum js a = tenthSum (js.filter (· ≠ 0)) a := by
  induction js generalizing a with
  | nil => rfl
  | cons j t ih =>
    by_cases hj : j = 0
    · subst hj
      rw [List.filter_cons_of_neg (by simp), ← ih a h]
      show tenthSum t (fl (a + tenth 0)) = _
      rw [tenth_zero, add_zero, h]
    · rw [List.filter_cons_of_pos (by simpa using hj)]
      exact ih _ (fl_fl _)

theorem Opt.filter_zeros_perm (js : List ℕ) :
    (js.filter (· ≠ 0) ++ List.replicate (js.filter (· = 0)).length 0).Perm js := by
  have h : js.filter (· = 0) = List.replicate (js.filter (· = 0)).length 0 := by
    rw [List.eq_replicate_iff]
    exact ⟨rfl, fun b hb => by simpa using (List.mem_filter.1 hb).2⟩
  rw [← h]
  have := List.filter_append_perm (fun j : ℕ => decide (j ≠ 0)) js
  refine List.Perm.trans (List.Perm.append_left _ ?_) this
  refine List.Perm.of_eq (List.filter_congr ?_)
  intro x _
  by_cases hx : x = 0 <;> simp [hx]

theorem Opt.sum_filter_ne_zero (js : List ℕ) : (js.filter (· ≠ 0)).sum = js.sum := by
  induction js with
  | nil => rfl
  | cons j t ih =>
    by_cases hj : j = 0
    · subst hj; rw [List.filter_cons_of_neg (by simp), ih]; simp
    · rw [List.filter_cons_of_pos (by simpa using hj), List.sum_cons, List.sum_cons, ih]

/-- **C66** (default step, any number of runs): up to the order of the runs every weighting in tenths is
tried, with one exception: the equal weights 0.1 of ten runs (with any number of further weights 0) are tried
in no order, because the float sum of ten 0.1 is 0.9999999999999999. -/
theorem C66_default_up_to_order (n : ℕ) :
    ∃ T, weightTrials fl (fl (1 / 10)) "0.1".toList n = .ok T ∧
      ∀ v : List ℚ, Spec.Weighting (1 / 10) n v →
        ((∃ u : List ℚ, u.Perm v ∧ u.map fl ∈ T) ↔ v.filter (· ≠ 0) ≠ List.replicate 10 (1 / 10)) := by
  obtain ⟨T, hT⟩ := default_trials_ok n
  refine ⟨T, hT, ?_⟩
  intro v hv
  obtain ⟨js, rfl, hlen, hsum⟩ := hv.tenths
  have hle : ∀ j ∈ js, j ≤ 10 := fun j hj => hsum ▸ List.single_le_sum (by simp) j hj
  have hfilter : ∀ l : List ℕ, (l.map (fun j : ℕ => (j : ℚ) / 10)).filter (· ≠ 0) =
      (l.filter (· ≠ 0)).map (fun j : ℕ => (j : ℚ) / 10) := by
    intro l
    rw [List.filter_map]
    congr 1
    apply List.filter_congr
    intro x _
    simp
  have hinj : Function.Injective (fun j : ℕ => (j : ℚ) / 10) := by
    intro a b hab
    have : (a : ℚ) = b := by
      have h : (a : ℚ) / 10 = (b : ℚ) / 10 := hab
      linarith
    exact_mod_cast this
  have hex : ((js.map (fun j : ℕ => (j : ℚ) / 10)).filter (· ≠ 0) = List.replicate 10 (1 / 10)) ↔
      js.filter (· ≠ 0) = List.replicate 10 1 := by
    rw [hfilter]
    have : List.replicate 10 ((1 : ℚ) / 10) = (List.replicate 10 1).map (fun j : ℕ => (j : ℚ) / 10) := by
      rw [List.map_replicate]; norm_num
    rw [this]
    exact (List.map_injective_iff.2 hinj).eq_iff
  rw [Ne, hex]
  constructor
  · rintro ⟨u, hu, hmem⟩ hones
    obtain ⟨ks, hk1, hk2, hk3, hk4⟩ := (mem_default_trials n _ T hT).1 hmem
    have huw : Spec.Weighting (1 / 10) n u :=
      ⟨hu.length_eq.trans hv.1, fun x hx => hv.2.1 x (hu.mem_iff.1 hx), hu.sum_eq.trans hv.2.2⟩
    obtain ⟨us, rfl, hul, husum⟩ := huw.tenths
    have hule : ∀ j ∈ us, j ≤ 10 := fun j hj => husum ▸ List.single_le_sum (by simp) j hj
    have hks : tenthSum us 0 = 1 := by
      rw [← pySum_tenths, ← hk4, ← pySum_tenths, ← hk3, List.map_map]; rfl
    have hperm : us.Perm js := by
      have := hu.map (fun x : ℚ => (x * 10).num.toNat)
      rw [List.map_map, List.map_map] at this
      have e : ∀ l : List ℕ, l.map ((fun x : ℚ => (x * 10).num.toNat) ∘ fun j : ℕ => (j : ℚ) / 10) = l := by
        intro l
        conv_rhs => rw [← List.map_id l]
        apply List.map_congr_left
        intro j _
        simp
      rwa [e, e] at this
    have hf : us.filter (· ≠ 0) = List.replicate 10 1 := by
      have := hperm.filter (fun j : ℕ => decide (j ≠ 0))
      rw [hones] at this
      exact List.perm_replicate.1 this
    rw [tenthSum_filter us 0 fl_zero, hf] at hks
    exact ten_ones hks
  · intro hne
    -- the weights other than 0, in descending order
    set p := (js.filter (· ≠ 0)).mergeSort (fun a b => decide (b ≤ a)) with hp
    have hperm : p.Perm (js.filter (· ≠ 0)) := List.mergeSort_perm _ _
    have hsorted : p.Pairwise (· ≥ ·) := by
      have := List.pairwise_mergeSort (le := fun a b : ℕ => decide (b ≤ a))
        (by intro a b c h1 h2; simp only [decide_eq_true_eq] at *; omega)
        (by intro a b; simp only [Bool.or_eq_true, decide_eq_true_eq]; omega) (js.filter (· ≠ 0))
      exact this.imp (fun h => by simpa using h)
    have hpsum : p.sum = 10 := by rw [hperm.sum_eq, sum_filter_ne_zero, hsum]
    have hmem : p ∈ parts 10 10 10 := by
      have := mem_parts 10 p 10 (by omega)
        (fun x hx => by
          have := (List.mem_filter.1 (hperm.mem_iff.1 hx)).2
          simp only [decide_eq_true_eq] at this
          omega)
        (fun x hx => hle x (List.mem_filter.1 (hperm.mem_iff.1 hx)).1) hsorted
      rwa [hpsum] at this
    have hpne : p ≠ List.replicate 10 1 := by
      intro h
      rw [h] at hperm
      exact hne (List.perm_replicate.1 hperm.symm)
    have finish : ∀ q : List ℕ, q.Perm p → tenthSum q 0 = 1 →
        ∃ u : List ℚ, u.Perm (js.map (fun j : ℕ => (j : ℚ) / 10)) ∧ u.map fl ∈ T := by
      intro q hq h1
      have hall : (q ++ List.replicate (js.filter (· = 0)).length 0).Perm js :=
        ((hq.trans hperm).append_right _).trans (filter_zeros_perm js)
      refine ⟨(q ++ List.replicate (js.filter (· = 0)).length 0).map (fun j : ℕ => (j : ℚ) / 10), hall.map _, ?_⟩
      refine (mem_default_trials n _ T hT).2 ⟨q ++ List.replicate (js.filter (· = 0)).length 0,
        hall.length_eq.trans hlen, fun j hj => hle j (hall.mem_iff.1 hj), ?_, ?_⟩
      · rw [List.map_map]; rfl
      · rw [tenthSum_append, h1, tenthSum_zeros _ _ fl_one]
    rcases parts_ten p hmem hpne with h | h
    · exact finish p (List.Perm.refl _) h
    · exact finish p.reverse (List.reverse_perm p) h

/-- both sides occur: (0.7, 0.2, 0.1) is tried in some order, ten equal weights in none -/
example : Spec.Weighting (1 / 10) 3 (([7, 2, 1] : List ℕ).map (fun j : ℕ => (j : ℚ) / 10)) ∧
    Spec.Weighting (1 / 10) 10 ((List.replicate 10 1).map (fun j : ℕ => (j : ℚ) / 10)) :=
  ⟨Spec.weighting_of_tenths [7, 2, 1] rfl, Spec.weighting_of_tenths (List.replicate 10 1) rfl⟩

end Ranx
