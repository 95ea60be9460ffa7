import Verif.Model.FusionFl
import Verif.Props.FusionRank
import Verif.Props.FusionMono
import Verif.Props.NormFl
import Mathlib.Algebra.Order.Ring.Pow

/-!
# Property C96: fusion in float64

`fl` rounds to the nearest float64. `Spec.FusedBy` (C48) says which docs are fused and that the output is ranked by the
fused scores; the theorems below say how far those are from the exact formulas of C49/C51 and which orders survive
rounding.
-/

set_option linter.unusedSectionVars false

namespace Ranx
open Dict Fuse F64
open _root_.Ranx.Norm (Results)
variable {κ δ : Type*}

/-- `a'` is `a` up to `k` roundings -/
def F64.NearK (k : Nat) (a a' : ℚ) : Prop := a * (1 - 1 / 2 ^ 53) ^ k ≤ a' ∧ a' ≤ a * (1 + 1 / 2 ^ 53) ^ k

namespace F64

theorem NearK.refl (a : ℚ) : NearK 0 a a := by unfold NearK; simp

theorem NearK.nonneg {k : Nat} {a a' : ℚ} (h : NearK k a a') (ha : 0 ≤ a) : 0 ≤ a' :=
  le_trans (mul_nonneg ha (pow_nonneg (by norm_num) _)) h.1

theorem NearK.mono {k l : Nat} {a a' : ℚ} (h : NearK k a a') (ha : 0 ≤ a) (hkl : k ≤ l) : NearK l a a' := by
  constructor
  · refine le_trans (mul_le_mul_of_nonneg_left ?_ ha) h.1
    exact pow_le_pow_of_le_one (by norm_num) (by norm_num) hkl
  · refine le_trans h.2 (mul_le_mul_of_nonneg_left ?_ ha)
    exact pow_le_pow_right₀ (by norm_num) hkl

theorem NearK.fl {k : Nat} {a a' : ℚ} (h : NearK k a a') (ha : 0 ≤ a) : NearK (k + 1) a (fl a') := by
  obtain ⟨h1, h2⟩ := near_fl (h.nonneg ha)
  constructor
  · rw [pow_succ, ← mul_assoc]
    exact le_trans (mul_le_mul_of_nonneg_right h.1 (by norm_num)) h1
  · rw [pow_succ, ← mul_assoc]
    exact le_trans h2 (mul_le_mul_of_nonneg_right h.2 (by norm_num))

theorem NearK.add {k : Nat} {a a' b b' : ℚ} (h : NearK k a a') (h' : NearK k b b') : NearK k (a + b) (a' + b') :=
  ⟨by rw [add_mul]; exact add_le_add h.1 h'.1, by rw [add_mul]; exact add_le_add h.2 h'.2⟩

theorem NearK.mul {k l : Nat} {a a' b b' : ℚ} (h : NearK k a a') (h' : NearK l b b') (ha : 0 ≤ a) (hb : 0 ≤ b) :
    NearK (k + l) (a * b) (a' * b') := by
  have e : ∀ c : ℚ, a * b * c ^ (k + l) = (a * c ^ k) * (b * c ^ l) := fun c => by rw [pow_add]; ring
  constructor
  · rw [e]
    exact mul_le_mul h.1 h'.1 (mul_nonneg hb (pow_nonneg (by norm_num) _)) (h.nonneg ha)
  · rw [e]
    exact mul_le_mul h.2 h'.2 (h'.nonneg hb) (mul_nonneg ha (pow_nonneg (by norm_num) _))

theorem NearK.div_exact {k : Nat} {a a' b : ℚ} (h : NearK k a a') (hb : 0 < b) : NearK k (a / b) (a' / b) := by
  constructor
  · rw [div_mul_eq_mul_div]; exact div_le_div_of_nonneg_right h.1 hb.le
  · rw [div_mul_eq_mul_div]; exact div_le_div_of_nonneg_right h.2 hb.le

theorem one_add_pow_le (k : Nat) (hk : k ≤ 2 ^ 52) : (1 + 1 / 2 ^ 53 : ℚ) ^ k ≤ 1 + 2 * k / 2 ^ 53 := by
  induction k with
  | zero => simp
  | succ n ih =>
    have hn : ((n : ℚ) + 1) ≤ 2 ^ 52 := by exact_mod_cast hk
    rw [pow_succ]
    refine (mul_le_mul_of_nonneg_right (ih (by omega)) (by norm_num)).trans ?_
    push_cast
    have : (2 : ℚ) * n / 2 ^ 53 ≤ 1 := by
      rw [div_le_one (by positivity)]
      have : (2 : ℚ) ^ 53 = 2 * 2 ^ 52 := by norm_num
      linarith
    nlinarith [show (0 : ℚ) < 1 / 2 ^ 53 by norm_num]

theorem NearK.lower {k : Nat} {a a' : ℚ} (h : NearK k a a') (ha : 0 ≤ a) : a * (1 - k / 2 ^ 53) ≤ a' := by
  refine le_trans (mul_le_mul_of_nonneg_left ?_ ha) h.1
  have := one_add_mul_le_pow (a := (-(1 / 2 ^ 53) : ℚ)) (by norm_num) k
  have e : (1 - 1 / 2 ^ 53 : ℚ) = 1 + -(1 / 2 ^ 53) := by ring
  rw [e]
  refine le_trans (le_of_eq ?_) this
  ring

theorem NearK.upper {k : Nat} {a a' : ℚ} (h : NearK k a a') (ha : 0 ≤ a) (hk : k ≤ 2 ^ 52) :
    a' ≤ a * (1 + 2 * k / 2 ^ 53) :=
  h.2.trans (mul_le_mul_of_nonneg_left (one_add_pow_le k hk) ha)

theorem NearK.abs {k : Nat} {a a' : ℚ} (h : NearK k a a') (ha : 0 ≤ a) (hk : k ≤ 2 ^ 52) :
    |a' - a| ≤ 2 * k / 2 ^ 53 * a := by
  have h1 := h.lower ha
  have h2 := h.upper ha hk
  have : 0 ≤ a * (k / 2 ^ 53) := mul_nonneg ha (by positivity)
  rw [abs_le]
  constructor
  · have e : 2 * (k : ℚ) / 2 ^ 53 * a = a * (k / 2 ^ 53) + a * (k / 2 ^ 53) := by ring
    rw [e]; linarith
  · have e : a * (1 + 2 * k / 2 ^ 53) = a + 2 * k / 2 ^ 53 * a := by ring
    linarith

end F64

/-! ### float sums -/

theorem flSum_fixed (l : List ℚ) (a : ℚ) (ha : fl a = a) :
    fl (l.foldl (fun a x => fl (a + x)) a) = l.foldl (fun a x => fl (a + x)) a := by
  induction l generalizing a with
  | nil => exact ha
  | cons x t ih => exact ih _ (fl_fl _)

/-- adding 0.0 for the runs without the doc changes nothing -/
theorem flSum_getD {γ : Type*} (l : List γ) (f : γ → Option ℚ) (g : γ → ℚ → ℚ) (hg : ∀ x, g x 0 = 0) (a : ℚ)
    (ha : fl a = a) :
    (l.map (fun x => g x ((f x).getD 0))).foldl (fun a x => fl (a + x)) a =
      (l.filterMap (fun x => (f x).map (g x))).foldl (fun a x => fl (a + x)) a := by
  induction l generalizing a with
  | nil => rfl
  | cons x t ih =>
    rw [List.map_cons, List.foldl_cons]
    cases h : f x with
    | none =>
      rw [List.filterMap_cons_none (by rw [h]; rfl), Option.getD_none, hg, add_zero, ha]
      exact ih a ha
    | some y =>
      rw [List.filterMap_cons_some (b := g x y) (by rw [h]; rfl), Option.getD_some, List.foldl_cons]
      exact ih _ (fl_fl _)

theorem flSum_mono {l l' : List ℚ} (h : List.Forall₂ (· ≤ ·) l l') {a a' : ℚ} (ha : a ≤ a') :
    l.foldl (fun a x => fl (a + x)) a ≤ l'.foldl (fun a x => fl (a + x)) a' := by
  induction h generalizing a a' with
  | nil => exact ha
  | cons hxy _ ih => exact ih (fl_mono (add_le_add ha hxy))

theorem flSum_near_aux (j : Nat) (l l' : List ℚ) (h : List.Forall₂ (NearK j) l l') (h0 : ∀ x ∈ l, 0 ≤ x)
    (k : Nat) (hjk : j ≤ k) (a a' : ℚ) (ha : 0 ≤ a) (hn : NearK k a a') :
    NearK (k + l.length) (a + l.sum) (l'.foldl (fun a x => fl (a + x)) a') := by
  induction h generalizing k a a' with
  | nil => simpa using hn
  | @cons x x' t t' hx _ ih =>
    have hx0 := h0 x (by simp)
    have := ih (fun y hy => h0 y (by simp [hy])) (k + 1) (by omega) (a + x) (fl (a' + x')) (by linarith)
      ((hn.add (hx.mono hx0 hjk)).fl (by linarith))
    rw [List.sum_cons, List.length_cons, List.foldl_cons, ← add_assoc a]
    have e : k + (t.length + 1) = k + 1 + t.length := by omega
    rw [e]
    exact this

/-- a float sum of non-negative numbers, each known up to `j` roundings -/
theorem flSum_near (j : Nat) (l l' : List ℚ) (h : List.Forall₂ (NearK j) l l') (h0 : ∀ x ∈ l, 0 ≤ x) :
    NearK (j + l.length) l.sum (Norm.Rnd.sum fl l') := by
  have := flSum_near_aux j l l' h h0 j le_rfl 0 0 le_rfl (by unfold NearK; simp)
  rwa [zero_add] at this

theorem forall₂_near_refl (l : List ℚ) : List.Forall₂ (NearK 0) l l :=
  List.forall₂_same.2 (fun x _ => NearK.refl x)

section
variable [LinearOrder κ] [DecidableEq δ] (S S' : ArgSort ℚ) (sched sched' : List Nat)
  (runs runs' : List (Dict κ (Results δ ℚ)))

theorem flSumScore_eq (q : κ) (d : δ) :
    Fuse.Rnd.sumScore fl (resultsFor runs q) d = .ok (Norm.Rnd.sum fl (Spec.scores runs q d)) := by
  unfold Fuse.Rnd.sumScore Norm.Rnd.sum
  rw [flSum_getD (resultsFor runs q) (fun res => res.get? d) (fun _ x => x) (fun _ => rfl) 0 fl_zero, ← present_eq]
  simp [present]

theorem flWsumScore_eq (ws : List ℚ) (hw : runs.length ≤ ws.length) (q : κ) (d : δ) :
    Fuse.Rnd.wsumScore fl ws (resultsFor runs q) d =
      .ok (Norm.Rnd.sum fl ((Spec.weighted runs ws q d).map (fun p => fl (p.2 * p.1)))) := by
  unfold Fuse.Rnd.wsumScore
  have hl : (resultsFor runs q).length = runs.length := by unfold resultsFor; simp
  rw [collect_weights_aux ws (fun r w => fl (w * (r.get? d).getD 0)) (resultsFor runs q) 0 (by rw [hl]; omega)]
  simp only [List.drop_zero]
  rw [zip_resultsFor, List.map_map]
  unfold Norm.Rnd.sum Spec.weighted
  congr 1
  have := flSum_getD (runs.zip ws) (fun rw => Spec.score? rw.1 q d) (fun rw s => fl (rw.2 * s))
    (fun rw => by rw [mul_zero, fl_zero]) 0 fl_zero
  refine Eq.trans ?_ (this.trans ?_)
  · congr 1
    apply List.map_congr_left
    intro rw _
    simp only [Function.comp_apply, getD_get?]
  · rw [List.map_filterMap]
    congr 2
    funext rw
    cases Spec.score? rw.1 q d <;> rfl

variable (hf : Spec.Fusable runs) (hs : Schedule (queryCount runs) sched)
include hf hs

theorem flSum_fused : ∃ out, Fuse.Rnd.combSum fl S sched runs = .ok out ∧
    Spec.FusedBy runs (fun q d => Norm.Rnd.sum fl (Spec.scores runs q d)) out := by
  obtain ⟨out, h1, h2⟩ := fuseRun_spec S (Fuse.Rnd.sumScore fl)
    (fun rs d => Norm.Rnd.sum fl (rs.map (fun res => (res.get? d).getD 0))) sched runs hf hs (fun q d _ => rfl)
  refine ⟨out, h1, FusedBy_congr h2 ?_⟩
  intro q d _
  have := flSumScore_eq runs q d
  unfold Fuse.Rnd.sumScore at this
  exact Except.ok.inj this

theorem flPresent_fused (F : List ℚ → ℚ) : ∃ out, fuseRun S (fun rs d => .ok (F (present rs d))) sched runs = .ok out ∧
    Spec.FusedBy runs (fun q d => F (Spec.scores runs q d)) out := by
  obtain ⟨out, h1, h2⟩ := fuseRun_spec S (fun rs d => .ok (F (present rs d)))
    (fun rs d => F (present rs d)) sched runs hf hs (fun q d _ => rfl)
  refine ⟨out, h1, FusedBy_congr h2 ?_⟩
  intro q d _
  simp only [present_eq]

theorem flWsum_fused (ws : List ℚ) (hw : runs.length ≤ ws.length) :
    ∃ out, Fuse.Rnd.wsum fl S sched ws runs = .ok out ∧ Spec.FusedBy runs
      (fun q d => Norm.Rnd.sum fl ((Spec.weighted runs ws q d).map (fun p => fl (p.2 * p.1)))) out := by
  obtain ⟨out, h1, h2⟩ := fuseRun_spec S (Fuse.Rnd.wsumScore fl ws)
    (fun rs d => match Fuse.Rnd.wsumScore fl ws rs d with | .ok v => v | .error _ => 0) sched runs hf hs
    (fun q d _ => by rw [flWsumScore_eq runs ws hw])
  refine ⟨out, h1, FusedBy_congr h2 ?_⟩
  intro q d _
  simp only [flWsumScore_eq runs ws hw]

omit hf hs in
theorem scores_length_le (q : κ) (d : δ) : (Spec.scores runs q d).length ≤ runs.length :=
  List.length_filterMap_le _ _

omit hf hs in
theorem weighted_length_le (ws : List ℚ) (q : κ) (d : δ) : (Spec.weighted runs ws q d).length ≤ runs.length := by
  unfold Spec.weighted
  refine (List.length_filterMap_le _ _).trans ?_
  rw [List.length_zip]; exact min_le_left _ _

/-- **C96** (accuracy, sums): fusing n runs with non-negative scores, comb_sum, comb_mnz and comb_anz return exactly the
docs and the order of their fused scores, each within relative error 2(n+3)·2⁻⁵³ of the exact formula. -/
theorem C96_accuracy (hn : runs.length + 3 ≤ 2 ^ 52) :
    (∃ out val, Fuse.Rnd.combSum fl S sched runs = .ok out ∧ Spec.FusedBy runs val out ∧
      ∀ q d, (∀ s ∈ Spec.scores runs q d, 0 ≤ s) →
        |val q d - (Spec.scores runs q d).sum| ≤ 2 * runs.length / 2 ^ 53 * (Spec.scores runs q d).sum) ∧
    (∃ out val, Fuse.Rnd.combMnz fl S sched runs = .ok out ∧ Spec.FusedBy runs val out ∧
      ∀ q d, (∀ s ∈ Spec.scores runs q d, 0 ≤ s) →
        |val q d - (Spec.scores runs q d).sum * (Spec.scores runs q d).length| ≤
          2 * (runs.length + 1 : Nat) / 2 ^ 53 * ((Spec.scores runs q d).sum * (Spec.scores runs q d).length)) ∧
    (∃ out val, Fuse.Rnd.combAnz fl S sched runs = .ok out ∧ Spec.FusedBy runs val out ∧
      ∀ q d, Spec.InSome runs q d → (∀ s ∈ Spec.scores runs q d, 0 ≤ s) →
        |val q d - (Spec.scores runs q d).sum / (Spec.scores runs q d).length| ≤
          2 * (runs.length + 1 : Nat) / 2 ^ 53 * ((Spec.scores runs q d).sum / (Spec.scores runs q d).length)) := by
  have hsum : ∀ q d, (∀ s ∈ Spec.scores runs q d, 0 ≤ s) → 0 ≤ (Spec.scores runs q d).sum ∧
      NearK runs.length (Spec.scores runs q d).sum (Norm.Rnd.sum fl (Spec.scores runs q d)) := by
    intro q d h0
    have hs0 : 0 ≤ (Spec.scores runs q d).sum := List.sum_nonneg h0
    refine ⟨hs0, (flSum_near 0 _ _ (forall₂_near_refl _) h0).mono hs0 ?_⟩
    rw [Nat.zero_add]; exact scores_length_le runs q d
  have hcast : ∀ q (d : δ), fl ((Spec.scores runs q d).length : ℚ) = (Spec.scores runs q d).length := by
    intro q d
    exact fl_nat (by have := scores_length_le runs q d; omega)
  refine ⟨?_, ?_, ?_⟩
  · obtain ⟨out, h1, h2⟩ := flSum_fused S sched runs hf hs
    refine ⟨out, _, h1, h2, ?_⟩
    intro q d h0
    obtain ⟨a, b⟩ := hsum q d h0
    exact b.abs a (by omega)
  · obtain ⟨out, h1, h2⟩ := flPresent_fused S sched runs hf hs
      (fun l => fl (Norm.Rnd.sum fl l * fl (l.length : ℚ)))
    refine ⟨out, _, h1, h2, ?_⟩
    intro q d h0
    obtain ⟨a, b⟩ := hsum q d h0
    have hm := (b.mul (NearK.refl ((Spec.scores runs q d).length : ℚ)) a (Nat.cast_nonneg _)).fl
      (mul_nonneg a (Nat.cast_nonneg _))
    beta_reduce
    rw [hcast]
    exact hm.abs (mul_nonneg a (Nat.cast_nonneg _)) (by omega)
  · obtain ⟨out, h1, h2⟩ := flPresent_fused S sched runs hf hs
      (fun l => fl (Norm.Rnd.sum fl l / fl (l.length : ℚ)))
    refine ⟨out, _, h1, h2, ?_⟩
    intro q d hi h0
    obtain ⟨a, b⟩ := hsum q d h0
    have hpos : (0 : ℚ) < (Spec.scores runs q d).length := by
      exact_mod_cast List.length_pos_of_ne_nil (scores_ne_nil hi)
    have hm := (b.div_exact hpos).fl (div_nonneg a hpos.le)
    beta_reduce
    rw [hcast]
    exact hm.abs (div_nonneg a hpos.le) (by omega)

/-- **C96** (accuracy, wsum): the same with non-negative scores and weights. -/
theorem C96_accuracy_wsum (ws : List ℚ) (hw : runs.length ≤ ws.length) (hn : runs.length + 3 ≤ 2 ^ 52) :
    ∃ out val, Fuse.Rnd.wsum fl S sched ws runs = .ok out ∧ Spec.FusedBy runs val out ∧
      ∀ q d, (∀ p ∈ Spec.weighted runs ws q d, 0 ≤ p.1 ∧ 0 ≤ p.2) →
        |val q d - ((Spec.weighted runs ws q d).map (fun p => p.2 * p.1)).sum| ≤
          2 * (runs.length + 1 : Nat) / 2 ^ 53 * ((Spec.weighted runs ws q d).map (fun p => p.2 * p.1)).sum := by
  obtain ⟨out, h1, h2⟩ := flWsum_fused S sched runs hf hs ws hw
  refine ⟨out, _, h1, h2, ?_⟩
  intro q d h0
  have hp : ∀ x ∈ (Spec.weighted runs ws q d).map (fun p => p.2 * p.1), 0 ≤ x := by
    intro x hx
    obtain ⟨p, hp, rfl⟩ := List.mem_map.1 hx
    exact mul_nonneg (h0 p hp).2 (h0 p hp).1
  have hs0 := List.sum_nonneg hp
  have hnear : List.Forall₂ (NearK 1) ((Spec.weighted runs ws q d).map (fun p => p.2 * p.1))
      ((Spec.weighted runs ws q d).map (fun p => fl (p.2 * p.1))) := by
    rw [List.forall₂_map_left_iff, List.forall₂_map_right_iff, List.forall₂_same]
    intro p hp
    have := (NearK.refl (p.2 * p.1)).fl (mul_nonneg (h0 p hp).2 (h0 p hp).1)
    exact this
  refine ((flSum_near 1 _ _ hnear hp).mono hs0 ?_).abs hs0 (by omega)
  have := weighted_length_le runs ws q d
  rw [List.length_map]
  omega

end

/-! ### monotonicity -/

section
variable [LinearOrder κ] [DecidableEq δ] (S S' : ArgSort ℚ) (sched sched' : List Nat)
  (runs runs' : List (Dict κ (Results δ ℚ)))
  (hf : Spec.Fusable runs) (hf' : Spec.Fusable runs') (hs : Schedule (queryCount runs) sched)
  (hs' : Schedule (queryCount runs') sched') (q : κ) (d : δ) (hi : Spec.InSome runs q d)
  (hr : Spec.Raised runs runs' q d)

theorem flMedian_mono (l l' : List ℚ) (h : List.Forall₂ (· ≤ ·) l l') :
    Fuse.Rnd.median fl l ≤ Fuse.Rnd.median fl l' := by
  have hs := isort_mono l l' h
  have hl := hs.length_eq
  unfold Fuse.Rnd.median
  simp only
  rw [hl]
  by_cases hp : (isort (fun a b => decide (a ≤ b)) l').length % 2 = 1
  · rw [if_pos hp, if_pos hp]; exact forall₂_getD _ _ _ hs _
  · rw [if_neg hp, if_neg hp]
    have h1 := forall₂_getD _ _ (0 : ℚ) hs ((isort (fun a b => decide (a ≤ b)) l').length / 2 - 1)
    have h2 := forall₂_getD _ _ (0 : ℚ) hs ((isort (fun a b => decide (a ≤ b)) l').length / 2)
    exact fl_mono (div_le_div_of_nonneg_right (fl_mono (add_le_add h1 h2)) (by norm_num))

include hf hf' hs hs' hi hr

/-- **C96** (monotone): C54 survives rounding: a doc whose scores are raised does not lose fused score, for comb_sum,
comb_anz, comb_med, comb_mnz and comb_gmnz (whatever non-negative value `pow` returns), and wsum with weights ≥ 0. -/
theorem C96_monotone (pow : Nat → ℚ) (hpow : ∀ n, 0 ≤ pow n) (ws : List ℚ) (hw : runs.length ≤ ws.length)
    (hw0 : ∀ w ∈ ws, 0 ≤ w) :
    (∃ out out', Fuse.Rnd.combSum fl S sched runs = .ok out ∧ Fuse.Rnd.combSum fl S' sched' runs' = .ok out' ∧
      Spec.NotLowered out out' q d) ∧
    (∃ out out', Fuse.Rnd.combAnz fl S sched runs = .ok out ∧ Fuse.Rnd.combAnz fl S' sched' runs' = .ok out' ∧
      Spec.NotLowered out out' q d) ∧
    (∃ out out', Fuse.Rnd.combMed fl S sched runs = .ok out ∧ Fuse.Rnd.combMed fl S' sched' runs' = .ok out' ∧
      Spec.NotLowered out out' q d) ∧
    (∃ out out', Fuse.Rnd.combMnz fl S sched runs = .ok out ∧ Fuse.Rnd.combMnz fl S' sched' runs' = .ok out' ∧
      Spec.NotLowered out out' q d) ∧
    (∃ out out', Fuse.Rnd.combGmnz fl S sched pow runs = .ok out ∧
      Fuse.Rnd.combGmnz fl S' sched' pow runs' = .ok out' ∧ Spec.NotLowered out out' q d) ∧
    (∃ out out', Fuse.Rnd.wsum fl S sched ws runs = .ok out ∧ Fuse.Rnd.wsum fl S' sched' ws runs' = .ok out' ∧
      Spec.NotLowered out out' q d) := by
  have hsc := Raised_scores hr
  have hsum : Norm.Rnd.sum fl (Spec.scores runs q d) ≤ Norm.Rnd.sum fl (Spec.scores runs' q d) :=
    flSum_mono hsc le_rfl
  have present : ∀ F : List ℚ → ℚ, F (Spec.scores runs q d) ≤ F (Spec.scores runs' q d) →
      ∃ out out', fuseRun S (fun rs d => .ok (F (present rs d))) sched runs = .ok out ∧
        fuseRun S' (fun rs d => .ok (F (Fuse.present rs d))) sched' runs' = .ok out' ∧
        Spec.NotLowered out out' q d := by
    intro F hF
    obtain ⟨out, h1, h2⟩ := flPresent_fused S sched runs hf hs F
    obtain ⟨out', h3, h4⟩ := flPresent_fused S' sched' runs' hf' hs' F
    exact ⟨out, out', h1, h3, FusedBy_notLowered h2 h4 hi hr hF⟩
  have hnn : ∀ n : Nat, 0 ≤ fl (n : ℚ) := fun n => by rw [← fl_zero]; exact fl_mono (Nat.cast_nonneg n)
  refine ⟨?_, ?_, ?_, ?_, ?_, ?_⟩
  · obtain ⟨out, h1, h2⟩ := flSum_fused S sched runs hf hs
    obtain ⟨out', h3, h4⟩ := flSum_fused S' sched' runs' hf' hs'
    exact ⟨out, out', h1, h3, FusedBy_notLowered h2 h4 hi hr hsum⟩
  · refine present (fun l => fl (Norm.Rnd.sum fl l / fl (l.length : ℚ))) ?_
    beta_reduce
    rw [hsc.length_eq]
    exact fl_mono (div_le_div_of_nonneg_right hsum (hnn _))
  · exact present (fun l => Fuse.Rnd.median fl l) (flMedian_mono _ _ hsc)
  · refine present (fun l => fl (Norm.Rnd.sum fl l * fl (l.length : ℚ))) ?_
    beta_reduce
    rw [hsc.length_eq]
    exact fl_mono (mul_le_mul_of_nonneg_right hsum (hnn _))
  · refine present (fun l => fl (Norm.Rnd.sum fl l * pow l.length)) ?_
    beta_reduce
    rw [hsc.length_eq]
    exact fl_mono (mul_le_mul_of_nonneg_right hsum (hpow _))
  · have hw' : runs'.length ≤ ws.length := by rw [← List.Forall₂.length_eq hr]; exact hw
    obtain ⟨out, h1, h2⟩ := flWsum_fused S sched runs hf hs ws hw
    obtain ⟨out', h3, h4⟩ := flWsum_fused S' sched' runs' hf' hs' ws hw'
    refine ⟨out, out', h1, h3, FusedBy_notLowered h2 h4 hi hr (flSum_mono ?_ le_rfl)⟩
    rw [List.forall₂_map_left_iff, List.forall₂_map_right_iff]
    refine (Raised_weighted hr ws).imp ?_
    rintro p p' ⟨a, b, c⟩
    rw [← b]
    exact fl_mono (mul_le_mul_of_nonneg_left a (hw0 _ c))

end

section
variable [LinearOrder κ] [DecidableEq δ] (S S' : ArgSort ℚ) (sched sched' : List Nat)
  (runs runs' : List (Dict κ (Results δ ℚ)))
  (hf : Spec.Fusable runs) (hf' : Spec.Fusable runs') (hs : Schedule (queryCount runs) sched)
  (hs' : Schedule (queryCount runs') sched') (q : κ) (d : δ) (hi : Spec.InSome runs q d)
  (hr : Spec.Raised runs runs' q d)

theorem flWeighted_fused (hf : Spec.Fusable runs) (hs : Schedule (queryCount runs) sched) (ws : List ℚ)
    (hw : runs.length ≤ ws.length) (F : List (ℚ × ℚ) → ℚ) (score : Score δ ℚ)
    (hsc : ∀ rs d l, presentWeighted ws rs d = .ok l → score rs d = .ok (F l)) :
    ∃ out, fuseRun S score sched runs = .ok out ∧
      Spec.FusedBy runs (fun q d => F (Spec.weighted runs ws q d)) out := by
  have hv : ∀ q (d : δ), score (resultsFor runs q) d = .ok (F (Spec.weighted runs ws q d)) :=
    fun q d => hsc _ _ _ (presentWeighted_eq ws runs hw q d)
  obtain ⟨out, h1, h2⟩ := fuseRun_spec S score
    (fun rs d => match score rs d with | .ok v => v | .error _ => 0) sched runs hf hs
    (fun q d _ => by rw [hv])
  refine ⟨out, h1, FusedBy_congr h2 ?_⟩
  intro q d _
  simp only [hv]

include hf hf' hs hs' hi hr

/-- **C96** (monotone, wmnz and mixed): for weights ≥ 0 and whatever non-negative value `sqrt` returns. -/
theorem C96_monotone_weighted (sqrt : Nat → ℚ) (hsqrt : ∀ n, 0 ≤ sqrt n) (ws : List ℚ)
    (hw : runs.length ≤ ws.length) (hw0 : ∀ w ∈ ws, 0 ≤ w) :
    (∃ out out', Fuse.Rnd.wmnz fl S sched ws runs = .ok out ∧ Fuse.Rnd.wmnz fl S' sched' ws runs' = .ok out' ∧
      Spec.NotLowered out out' q d) ∧
    (∃ out out', Fuse.Rnd.mixed fl S sched sqrt ws runs = .ok out ∧
      Fuse.Rnd.mixed fl S' sched' sqrt ws runs' = .ok out' ∧ Spec.NotLowered out out' q d) := by
  have hw' : runs'.length ≤ ws.length := by rw [← List.Forall₂.length_eq hr]; exact hw
  have hrw := Raised_weighted hr ws
  have key : ∀ (F : List (ℚ × ℚ) → ℚ) (score : Score δ ℚ),
      (∀ rs d l, presentWeighted ws rs d = .ok l → score rs d = .ok (F l)) →
      F (Spec.weighted runs ws q d) ≤ F (Spec.weighted runs' ws q d) →
      ∃ out out', fuseRun S score sched runs = .ok out ∧ fuseRun S' score sched' runs' = .ok out' ∧
        Spec.NotLowered out out' q d := by
    intro F score hsc hF
    obtain ⟨out, h1, h2⟩ := flWeighted_fused S sched runs hf hs ws hw F score hsc
    obtain ⟨out', h3, h4⟩ := flWeighted_fused S' sched' runs' hf' hs' ws hw' F score hsc
    exact ⟨out, out', h1, h3, FusedBy_notLowered h2 h4 hi hr hF⟩
  refine ⟨?_, ?_⟩
  · refine key (fun l => fl (Norm.Rnd.sum fl (l.map Prod.fst) * Norm.Rnd.sum fl (l.map Prod.snd)))
      (Fuse.Rnd.wmnzScore fl ws) (fun rs d l h => by unfold Fuse.Rnd.wmnzScore; rw [h]) ?_
    have e : (Spec.weighted runs ws q d).map Prod.snd = (Spec.weighted runs' ws q d).map Prod.snd := by
      have : List.Forall₂ (· = ·) ((Spec.weighted runs ws q d).map Prod.snd)
          ((Spec.weighted runs' ws q d).map Prod.snd) := by
        rw [List.forall₂_map_left_iff, List.forall₂_map_right_iff]
        exact hrw.imp (fun _ _ h => h.2.1)
      exact List.forall₂_eq_eq_eq ▸ this
    have h0 : 0 ≤ Norm.Rnd.sum fl ((Spec.weighted runs' ws q d).map Prod.snd) := by
      have hz : ∀ (l : List ℚ), (∀ x ∈ l, 0 ≤ x) → ∀ a, 0 ≤ a → 0 ≤ l.foldl (fun a x => fl (a + x)) a := by
        intro l
        induction l with
        | nil => intro _ a ha; exact ha
        | cons x t ih =>
          intro hl a ha
          refine ih (fun y hy => hl y (by simp [hy])) _ ?_
          rw [← fl_zero]; exact fl_mono (add_nonneg ha (hl x (by simp)))
      refine hz _ ?_ 0 le_rfl
      intro x hx
      obtain ⟨p, hp, rfl⟩ := List.mem_map.1 hx
      obtain ⟨p', -, h1, h2, h3⟩ := forall₂_mem_right hrw hp
      rw [← h2]; exact hw0 _ h3
    beta_reduce
    rw [e]
    refine fl_mono (mul_le_mul_of_nonneg_right (flSum_mono ?_ le_rfl) h0)
    rw [List.forall₂_map_left_iff, List.forall₂_map_right_iff]
    exact hrw.imp (fun _ _ h => h.1)
  · refine key (fun l => fl (Norm.Rnd.sum fl (l.map (fun p => fl (p.1 * p.2))) * sqrt l.length))
      (Fuse.Rnd.mixedScore fl sqrt ws) (fun rs d l h => by unfold Fuse.Rnd.mixedScore; rw [h]) ?_
    beta_reduce
    rw [hrw.length_eq]
    refine fl_mono (mul_le_mul_of_nonneg_right (flSum_mono ?_ le_rfl) (hsqrt _))
    rw [List.forall₂_map_left_iff, List.forall₂_map_right_iff]
    refine hrw.imp ?_
    rintro p p' ⟨a, b, c⟩
    rw [← b]
    exact fl_mono (mul_le_mul_of_nonneg_right a (hw0 _ c))

end

/-! ### order of the runs -/

section
variable [LinearOrder κ] [DecidableEq δ] (S S' : ArgSort ℚ) (sched sched' : List Nat)

theorem flSum_pair (x y : ℚ) (hx : fl x = x) (hy : fl y = y) : Norm.Rnd.sum fl [x, y] = fl (x + y) := by
  simp [Norm.Rnd.sum, hx]

/-- **C96** (two runs): with float64 scores, the order of two runs does not matter for comb_sum. -/
theorem C96_two_runs (a b : Dict κ (Results δ ℚ)) (hf : Spec.Fusable [a, b]) (hf' : Spec.Fusable [b, a])
    (hs : Schedule (queryCount [a, b]) sched) (hs' : Schedule (queryCount [b, a]) sched')
    (hfl : ∀ q d, ∀ s ∈ Spec.scores [a, b] q d, fl s = s) :
    ∃ out out', Fuse.Rnd.combSum fl S sched [a, b] = .ok out ∧ Fuse.Rnd.combSum fl S' sched' [b, a] = .ok out' ∧
      ∀ q d, (Spec.content out).read q d = (Spec.content out').read q d := by
  obtain ⟨out, h1, h2⟩ := flSum_fused S sched [a, b] hf hs
  obtain ⟨out', h3, h4⟩ := flSum_fused S' sched' [b, a] hf' hs'
  have hin : ∀ q d, Spec.InSome [a, b] q d ↔ Spec.InSome [b, a] q d := by
    intro q d
    unfold Spec.InSome
    constructor <;>
    · rintro ⟨r, hr, h⟩
      exact ⟨r, by simp at hr ⊢; tauto, h⟩
  refine ⟨out, out', h1, h3, ?_⟩
  intro q d
  by_cases hi : Spec.InSome [a, b] q d
  · rw [h2.value q d hi, h4.value q d ((hin q d).1 hi)]
    congr 1
    have := hfl q d
    unfold Spec.scores at this ⊢
    simp only [List.filterMap_cons, List.filterMap_nil] at this ⊢
    cases ha : Spec.score? a q d with
    | none => cases hb : Spec.score? b q d <;> rfl
    | some x =>
      cases hb : Spec.score? b q d with
      | none => rfl
      | some y =>
        rw [ha, hb] at this
        have hx := this x (by simp)
        have hy := this y (by simp)
        simp only
        rw [flSum_pair x y hx hy, flSum_pair y x hy hx, add_comm]
  · have e1 : (Spec.content out).read q d = none := by
      by_contra hc; exact hi ((h2.docs q d).1 hc)
    have e2 : (Spec.content out').read q d = none := by
      by_contra hc; exact hi ((hin q d).2 ((h4.docs q d).1 hc))
    rw [e1, e2]

/-- the ranking of one query in a fused run -/
def rankingOf (r : Except Err (Store Nat Nat ℚ)) (q : Nat) : List Nat :=
  match r with
  | .ok s => ((Dict.get? s.data q).getD []).keys
  | .error _ => []

/-- three runs scoring docs 1 and 2 with 0.1, 0.2, 0.3 and 0.3, 0.2, 0.1 -/
def tenths (i j : Nat) : Dict Nat (Results Nat ℚ) := [(1, [(1, fl (i / 10)), (2, fl (j / 10))])]

/-- **C96** (three runs): with three runs the order matters: comb_sum ranks doc 1 first for the runs in one order and
doc 2 first for the reverse order, although in exact arithmetic (C52) the order of the runs is irrelevant. -/
theorem C96_three_runs :
    Spec.Fusable [tenths 1 3, tenths 2 2, tenths 3 1] ∧
    rankingOf (Fuse.Rnd.combSum fl (.stable ℚ) [0] [tenths 1 3, tenths 2 2, tenths 3 1]) 1 = [1, 2] ∧
    rankingOf (Fuse.Rnd.combSum fl (.stable ℚ) [0] [tenths 3 1, tenths 2 2, tenths 1 3]) 1 = [2, 1] ∧
    readOut (Fuse.Rnd.combSum fl (.stable ℚ) [0] [tenths 1 3, tenths 2 2, tenths 3 1]) 1 1 ≠
      readOut (Fuse.Rnd.combSum fl (.stable ℚ) [0] [tenths 3 1, tenths 2 2, tenths 1 3]) 1 1 := by
  refine ⟨⟨by decide, by unfold NodupKeys; decide, by unfold NodupKeys; decide, by decide⟩,
    by decide +kernel, by decide +kernel, by decide +kernel⟩

end


/-! ### reciprocal rank fusion -/

section
variable [LinearOrder κ] [DecidableEq δ] (S : ArgSort ℚ) (sched : List Nat) (scheds : Nat → List Nat)
  (runs : List (Dict κ (Results δ ℚ)))

theorem positions_length_le (q : κ) (d : δ) : (Spec.positions runs q d).length ≤ runs.length :=
  List.length_filterMap_le _ _

theorem positions_ne_nil {q : κ} {d : δ} (h : Spec.InSome runs q d) : Spec.positions runs q d ≠ [] := by
  obtain ⟨run, hr, r, hq, hd⟩ := h
  have : (r.keys.idxOf? d).isSome := idxOf?_isSome.2 hd
  obtain ⟨i, hi⟩ := Option.isSome_iff_exists.1 this
  refine List.ne_nil_of_mem (a := i) (List.mem_filterMap.2 ⟨run, hr, ?_⟩)
  unfold Spec.position?
  rw [hq]
  exact hi

theorem flRank_fused (g : Nat → ℚ) (f : Results δ ℚ → Results δ ℚ) (hfg : f = rankLoop (fun i _ => g i))
    (hf : Spec.Fusable runs) (hs : Schedule (queryCount runs) sched)
    (hss : ∀ (j : Nat) run, runs[j]? = some run → Schedule run.length (scheds j)) :
    ∃ out, Fuse.Rnd.combSum fl S sched (rescoreAll f scheds runs) = .ok out ∧
      Spec.FusedBy runs (fun q d => Norm.Rnd.sum fl ((Spec.positions runs q d).map g)) out := by
  subst hfg
  have hsc := scores_rank (rankLoop (fun i _ => g i)) g runs hf.nodupD
    (fun r hr d => get?_rankLoop _ r hr d)
  obtain ⟨out, h1, h2⟩ := rescoreAll_spec S (rankLoop (fun i _ => g i))
    (fun r hr => ⟨nodupKeys_rankLoop _ r, keys_rankLoop _ r hr⟩) (Fuse.Rnd.sumScore fl)
    (fun rs d => Norm.Rnd.sum fl (rs.map (fun res => (res.get? d).getD 0))) sched scheds runs hf hs hss
    (fun q d => rfl)
  refine ⟨out, h1, FusedBy_congr h2 ?_⟩
  intro q d _
  have := flSumScore_eq (runs.map (mapRun (fun _ r => rankLoop (fun i _ => g i) r))) q d
  unfold Fuse.Rnd.sumScore at this
  rw [Except.ok.inj this, hsc]

theorem rrf_terms_near (k : Nat) (l : List Nat) (h : ∀ i ∈ l, k + i + 1 ≤ 2 ^ 53) :
    List.Forall₂ (NearK 1) (l.map (fun i : Nat => 1 / ((k : ℚ) + i + 1)))
      (l.map (fun i => fl (1 / fl ((k + i + 1 : Nat) : ℚ)))) := by
  rw [List.forall₂_map_left_iff, List.forall₂_map_right_iff, List.forall₂_same]
  intro i hi
  rw [fl_nat (h i hi)]
  push_cast
  exact (NearK.refl _).fl (by positivity)

/-- **C96** rrf (integer k): the fused scores are within relative error 2(n+1)·2⁻⁵³ of Σ 1/(k + rank), and a doc listed
before another in all runs gets a strictly larger fused score, as long as 3·(n+2)·(k + rank) < 2⁵³ for n runs. -/
theorem C96_rrf (k : Nat) (hf : Spec.Fusable runs) (hs : Schedule (queryCount runs) sched)
    (hss : ∀ (j : Nat) run, runs[j]? = some run → Schedule run.length (scheds j)) (hn : runs.length + 1 ≤ 2 ^ 52) :
    ∃ out val, Fuse.Rnd.rrf fl S sched scheds k runs = .ok out ∧ Spec.FusedBy runs val out ∧
      (∀ q d, (∀ i ∈ Spec.positions runs q d, k + i + 1 ≤ 2 ^ 53) →
        |val q d - ((Spec.positions runs q d).map (fun i : Nat => 1 / ((k : ℚ) + i + 1))).sum| ≤
          2 * (runs.length + 1 : Nat) / 2 ^ 53 *
            ((Spec.positions runs q d).map (fun i : Nat => 1 / ((k : ℚ) + i + 1))).sum) ∧
      (∀ q d e, Spec.InSome runs q e → Spec.Above runs q d e →
        (∀ i ∈ Spec.positions runs q d, k + i + 1 ≤ 2 ^ 53) →
        (∀ j ∈ Spec.positions runs q e, 3 * (runs.length + 2) * (k + j + 1) < 2 ^ 53) → val q e < val q d) := by
  obtain ⟨out, h1, h2⟩ := flRank_fused S sched scheds runs (fun i => fl (1 / fl ((k + i + 1 : Nat) : ℚ)))
    (Fuse.Rnd.rrfScore fl k) rfl hf hs hss
  have hterm : ∀ l : List Nat, ∀ x ∈ l.map (fun i : Nat => 1 / ((k : ℚ) + i + 1)), 0 ≤ x := by
    intro l x hx
    obtain ⟨i, -, rfl⟩ := List.mem_map.1 hx
    positivity
  have hnear : ∀ q d, (∀ i ∈ Spec.positions runs q d, k + i + 1 ≤ 2 ^ 53) →
      NearK (runs.length + 1) ((Spec.positions runs q d).map (fun i : Nat => 1 / ((k : ℚ) + i + 1))).sum
        (Norm.Rnd.sum fl ((Spec.positions runs q d).map (fun i => fl (1 / fl ((k + i + 1 : Nat) : ℚ))))) := by
    intro q d h
    refine (flSum_near 1 _ _ (rrf_terms_near k _ h) (hterm _)).mono (List.sum_nonneg (hterm _)) ?_
    rw [List.length_map]
    have := positions_length_le runs q d
    omega
  refine ⟨out, _, h1, h2, ?_, ?_⟩
  · intro q d h
    exact (hnear q d h).abs (List.sum_nonneg (hterm _)) hn
  · intro q d e hi hab hbd hb
    have hbe : ∀ j ∈ Spec.positions runs q e, k + j + 1 ≤ 2 ^ 53 := by
      intro j hj
      have := hb j hj
      nlinarith
    have hd := (hnear q d hbd).lower (List.sum_nonneg (hterm _))
    have he := (hnear q e hbe).upper (List.sum_nonneg (hterm _)) hn
    set c : ℚ := 3 * ((runs.length : ℚ) + 2) / 2 ^ 53 with hc
    have hSd : 0 < ((Spec.positions runs q d).map (fun i : Nat => 1 / ((k : ℚ) + i + 1))).sum := by
      have hne := positions_ne_nil runs (above_inSome runs hf q d e hab hi)
      cases hl : Spec.positions runs q d with
      | nil => exact absurd hl hne
      | cons i t =>
        rw [List.map_cons, List.sum_cons]
        exact add_pos_of_pos_of_nonneg (by positivity) (List.sum_nonneg (hterm t))
    have hc0 : 0 ≤ c := by rw [hc]; positivity
    have hc1 : c ≤ 1 := by
      obtain ⟨j, hj⟩ := List.exists_mem_of_ne_nil _ (positions_ne_nil runs hi)
      have h3 : (3 : ℚ) * (runs.length + 2) * (k + j + 1) < 2 ^ 53 := by exact_mod_cast hb j hj
      rw [hc, div_le_one (by positivity)]
      have hk : (1 : ℚ) ≤ k + j + 1 := by
        have : (0 : ℚ) ≤ k + j := by positivity
        linarith
      have h0 : (0 : ℚ) ≤ 3 * (runs.length + 2) := by positivity
      nlinarith
    have hSe : ((Spec.positions runs q e).map (fun i : Nat => 1 / ((k : ℚ) + i + 1))).sum ≤
        ((Spec.positions runs q d).map (fun i : Nat => 1 / ((k : ℚ) + i + 1))).sum * (1 - c) := by
      rw [positions_sum, positions_sum, ← List.sum_map_mul_right]
      apply List.sum_le_sum
      intro run hr
      have hjb : ∀ j, Spec.position? run q e = some j → 3 * (runs.length + 2) * (k + j + 1) < 2 ^ 53 :=
        fun j hj => hb j (List.mem_filterMap.2 ⟨run, hr, hj⟩)
      cases hj : Spec.position? run q e with
      | none =>
        rw [Option.map_none, Option.getD_none]
        refine mul_nonneg ?_ (by linarith)
        cases Spec.position? run q d with
        | none => simp
        | some i => simp only [Option.map_some, Option.getD_some]; positivity
      | some j =>
        obtain ⟨i, hij, hi'⟩ := hab run hr j hj
        rw [hi']
        simp only [Option.map_some, Option.getD_some]
        have h3 : (3 : ℚ) * (runs.length + 2) * (k + j + 1) < 2 ^ 53 := by exact_mod_cast hjb j hj
        have hijq : (i : ℚ) + 1 ≤ j := by exact_mod_cast hij
        have hp : (0 : ℚ) < k + i + 1 := by positivity
        have hp' : (0 : ℚ) < k + j + 1 := by positivity
        have hcp : c * (k + j + 1) ≤ 1 := by
          rw [hc, div_mul_eq_mul_div, div_le_one (by positivity)]
          exact h3.le
        rw [div_mul_eq_mul_div, one_mul, div_le_div_iff₀ hp' hp]
        nlinarith
    generalize ((Spec.positions runs q d).map (fun i : Nat => 1 / ((k : ℚ) + i + 1))).sum = Sd at *
    generalize ((Spec.positions runs q e).map (fun i : Nat => 1 / ((k : ℚ) + i + 1))).sum = Se at *
    refine lt_of_le_of_lt he (lt_of_lt_of_le ?_ hd)
    have hK : (0 : ℚ) ≤ 2 * ((runs.length + 1 : Nat) : ℚ) / 2 ^ 53 := by positivity
    have hm : (0 : ℚ) ≤ runs.length := Nat.cast_nonneg _
    calc Se * (1 + 2 * ((runs.length + 1 : Nat) : ℚ) / 2 ^ 53)
        ≤ Sd * (1 - c) * (1 + 2 * ((runs.length + 1 : Nat) : ℚ) / 2 ^ 53) :=
          mul_le_mul_of_nonneg_right hSe (by linarith)
      _ = Sd * ((1 - c) * (1 + 2 * ((runs.length + 1 : Nat) : ℚ) / 2 ^ 53)) := by ring
      _ < Sd * (1 - ((runs.length + 1 : Nat) : ℚ) / 2 ^ 53) := by
          refine mul_lt_mul_of_pos_left ?_ hSd
          have e1 : (1 - c) * (1 + 2 * ((runs.length + 1 : Nat) : ℚ) / 2 ^ 53) ≤
              1 - c + 2 * ((runs.length + 1 : Nat) : ℚ) / 2 ^ 53 := by
            nlinarith [mul_nonneg hc0 hK]
          refine lt_of_le_of_lt e1 ?_
          rw [hc]
          push_cast
          have : (3 : ℚ) * (runs.length + 2) / 2 ^ 53 =
            3 * (runs.length + 1) / 2 ^ 53 + 3 / 2 ^ 53 := by ring
          rw [this]
          have : (0 : ℚ) < 3 / 2 ^ 53 := by norm_num
          have e3 : (3 : ℚ) * (runs.length + 1) / 2 ^ 53 =
            2 * ((runs.length : ℚ) + 1) / 2 ^ 53 + ((runs.length : ℚ) + 1) / 2 ^ 53 := by ring
          rw [e3]
          linarith

theorem isr_terms (q : κ) (d : δ) (hb : ∀ i ∈ Spec.positions runs q d, i + 1 ≤ 2 ^ 26) :
    0 ≤ ((Spec.positions runs q d).map (fun i : Nat => 1 / ((i : ℚ) + 1) ^ 2)).sum ∧
    NearK (runs.length + 1) ((Spec.positions runs q d).map (fun i : Nat => 1 / ((i : ℚ) + 1) ^ 2)).sum
      (Norm.Rnd.sum fl ((Spec.positions runs q d).map (fun i => fl (1 / fl (((i + 1) ^ 2 : Nat) : ℚ))))) := by
  have hterm : ∀ x ∈ (Spec.positions runs q d).map (fun i : Nat => 1 / ((i : ℚ) + 1) ^ 2), 0 ≤ x := by
    intro x hx
    obtain ⟨i, -, rfl⟩ := List.mem_map.1 hx
    positivity
  have hnear : List.Forall₂ (NearK 1) ((Spec.positions runs q d).map (fun i : Nat => 1 / ((i : ℚ) + 1) ^ 2))
      ((Spec.positions runs q d).map (fun i => fl (1 / fl (((i + 1) ^ 2 : Nat) : ℚ)))) := by
    rw [List.forall₂_map_left_iff, List.forall₂_map_right_iff, List.forall₂_same]
    intro i hi
    have h26 := hb i hi
    have hsq : (i + 1) ^ 2 ≤ 2 ^ 53 := by
      calc (i + 1) ^ 2 ≤ (2 ^ 26) ^ 2 := Nat.pow_le_pow_left h26 2
        _ ≤ 2 ^ 53 := by norm_num
    rw [fl_nat hsq]
    push_cast
    exact (NearK.refl _).fl (by positivity)
  have hS := List.sum_nonneg hterm
  have hlen := positions_length_le runs q d
  exact ⟨hS, (flSum_near 1 _ _ hnear hterm).mono hS (l := runs.length + 1) (by rw [List.length_map]; omega)⟩

/-- **C96** isr: the fused scores are within relative error 2(n+2)·2⁻⁵³ of (Σ 1/rank²)·(number of runs with the doc). -/
theorem C96_isr (hf : Spec.Fusable runs) (hs : Schedule (queryCount runs) sched)
    (hss : ∀ (j : Nat) run, runs[j]? = some run → Schedule run.length (scheds j)) (hn : runs.length + 2 ≤ 2 ^ 52) :
    ∃ out val, Fuse.Rnd.isr fl S sched scheds runs = .ok out ∧ Spec.FusedBy runs val out ∧
      ∀ q d, (∀ i ∈ Spec.positions runs q d, i + 1 ≤ 2 ^ 26) →
        |val q d - ((Spec.positions runs q d).map (fun i : Nat => 1 / ((i : ℚ) + 1) ^ 2)).sum *
            (Spec.positions runs q d).length| ≤
          2 * (runs.length + 2 : Nat) / 2 ^ 53 *
            (((Spec.positions runs q d).map (fun i : Nat => 1 / ((i : ℚ) + 1) ^ 2)).sum *
              (Spec.positions runs q d).length) := by
  obtain ⟨out, h1, h2⟩ := rank_present S sched scheds (fun i => fl (1 / fl (((i + 1) ^ 2 : Nat) : ℚ)))
    (Fuse.Rnd.isrScore fl) rfl (fun l => fl (Norm.Rnd.sum fl l * fl (l.length : ℚ))) runs hf hs hss
  refine ⟨out, _, h1, h2, ?_⟩
  intro q d hb
  obtain ⟨hS, hsum⟩ := isr_terms runs q d hb
  have hlen := positions_length_le runs q d
  have hm := (hsum.mul (NearK.refl ((Spec.positions runs q d).length : ℚ)) hS (Nat.cast_nonneg _)).fl
    (mul_nonneg hS (Nat.cast_nonneg _))
  beta_reduce
  rw [List.length_map, fl_nat (show (Spec.positions runs q d).length ≤ 2 ^ 53 by omega)]
  exact hm.abs (mul_nonneg hS (Nat.cast_nonneg _)) (by omega)

/-- **C96** log_isr and logn_isr: the same with the non-negative number the C library returns for the logarithm. In
particular a doc found by one run only gets exactly 0 from log_isr if `log(1)` is 0. -/
theorem C96_log_isr (log : Nat → ℚ) (hlog : ∀ n, 0 ≤ log n) (hf : Spec.Fusable runs)
    (hs : Schedule (queryCount runs) sched)
    (hss : ∀ (j : Nat) run, runs[j]? = some run → Schedule run.length (scheds j)) (hn : runs.length + 2 ≤ 2 ^ 52) :
    ∃ out val, Fuse.Rnd.logIsr fl S sched scheds log runs = .ok out ∧ Spec.FusedBy runs val out ∧
      (∀ q d, (∀ i ∈ Spec.positions runs q d, i + 1 ≤ 2 ^ 26) →
        |val q d - ((Spec.positions runs q d).map (fun i : Nat => 1 / ((i : ℚ) + 1) ^ 2)).sum *
            log (Spec.positions runs q d).length| ≤
          2 * (runs.length + 2 : Nat) / 2 ^ 53 *
            (((Spec.positions runs q d).map (fun i : Nat => 1 / ((i : ℚ) + 1) ^ 2)).sum *
              log (Spec.positions runs q d).length)) ∧
      ∀ q d, (Spec.positions runs q d).length = 1 → log 1 = 0 → val q d = 0 := by
  obtain ⟨out, h1, h2⟩ := rank_present S sched scheds (fun i => fl (1 / fl (((i + 1) ^ 2 : Nat) : ℚ)))
    (Fuse.Rnd.isrScore fl) rfl (fun l => fl (Norm.Rnd.sum fl l * log l.length)) runs hf hs hss
  refine ⟨out, _, h1, h2, ?_, ?_⟩
  · intro q d hb
    obtain ⟨hS, hsum⟩ := isr_terms runs q d hb
    have hm := (hsum.mul (NearK.refl (log (Spec.positions runs q d).length)) hS (hlog _)).fl
      (mul_nonneg hS (hlog _))
    beta_reduce
    rw [List.length_map]
    exact hm.abs (mul_nonneg hS (hlog _)) (by omega)
  · intro q d h1' h0
    beta_reduce
    rw [List.length_map, h1', h0, mul_zero, fl_zero]

/-- the hypotheses are met: docs 10 and 11 in two runs -/
example : Spec.Above [fuseEx1, fuseEx1] 1 10 11 ∧ Spec.InSome [fuseEx1, fuseEx1] 1 11 ∧
    readOut (Fuse.Rnd.rrf fl (.stable ℚ) [1, 0] (fun _ => [1, 0]) 60 [fuseEx1, fuseEx1]) 1 10 = some (fl (2 / 61)) := by
  refine ⟨?_, ?_, by decide +kernel⟩
  · intro run hr j hj
    simp only [List.mem_cons, List.not_mem_nil, or_false, or_self] at hr
    subst hr
    have : Spec.position? fuseEx1 1 11 = some 1 := by decide
    rw [this] at hj
    cases hj
    exact ⟨0, by decide, by decide⟩
  · exact ⟨fuseEx1, by simp, _, rfl, by decide⟩

end

end Ranx
