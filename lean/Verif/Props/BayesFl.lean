import Verif.Model.TrainFl
import Verif.Props.Train
import Verif.Props.FusionFl
import Verif.Props.NormFl
import Verif.Props.SpecialFuse
import Verif.Lemmas.MetricsFl2
import Verif.Lemmas.Rescore
import Mathlib.Tactic.FieldSimp

/-!
# Property C159: what `bayesfuse_train` learns in float64
-/

set_option linter.unusedSectionVars false

namespace Ranx
open Dict Store Eval Metrics Fuse F64
open Special (X)
variable {κ δ ι : Type*}

/-! ## Specification -/

/-- Specification: the exact average over the training queries of the precision in the band of positions
`a, …, b-1`. -/
noncomputable def Spec.bandRate [LinearOrder κ] [DecidableEq δ] (s : Store κ δ Int) (ids : κ → List δ)
    (a b : Nat) : ℚ :=
  (∑ q ∈ Spec.queries s, (Spec.relBetween s ids a b q : ℚ) / ((b - a : Nat) : ℚ)) / ((Spec.queries s).card : ℚ)

/-- Specification: the float64 number one gets by adding up `n` times the float64 number nearest to `1/n`. -/
def Spec.sumOfNths (n : Nat) : ℚ := (List.replicate n (fl (1 / n))).foldl (fun a x => fl (a + x)) 0

/-- Specification: what is learned, with `n` training queries, for a band of average precision `P`: the log of
the odds of a number within `2(n+2)·2^-53` relative error of `P` if `0 < P < 1`; the log of 0.001/0.999 if
`P = 0`; the log of 1/0.001 if `P = 1` and `n` is a power of two; and if `P = 1` in general whatever the sum of
`n` rounded `n`-ths makes of it, which is NaN if that sum exceeds 1. -/
structure Spec.Learned (ln : ℚ → ℚ) (n : Nat) (P : ℚ) (x : X ℚ) : Prop where
  zero : P = 0 → x = .fin (ln (fl (fl (1 / 1000) / fl (1 - fl (1 / 1000)))))
  between : 0 < P → P < 1 → ∃ p, 0 < p ∧ p < 1 ∧ |p - P| ≤ 2 * (n + 2 : ℕ) / 2 ^ 53 * P ∧
    x = .fin (ln (fl (p / fl (1 - p))))
  power : P = 1 → (∃ k, n = 2 ^ k) → x = .fin (ln (fl (1 / fl (1 / 1000))))
  below : P = 1 → Spec.sumOfNths n < 1 → x = .fin (ln (fl (Spec.sumOfNths n / fl (1 - Spec.sumOfNths n))))
  above : P = 1 → 1 < Spec.sumOfNths n → x = .nan

/-! ## Lemmas -/

namespace Train.Rnd

theorem bandMean_eq (hls : List (List ℚ)) (a b : Nat) : bandMean fl hls a b =
    Norm.Rnd.sum fl (hls.map (fun hl => fl (fl (Norm.Rnd.sum fl (slice hl a b) / fl ((b - a : Nat) : ℚ)) /
      fl (hls.length : ℚ)))) := by
  unfold bandMean Norm.Rnd.sum
  rw [List.foldl_map]

theorem sum_bits_fl (l : List ℚ) (h : ∀ x ∈ l, x = 0 ∨ x = 1) (hn : l.length ≤ 2 ^ 53) :
    Norm.Rnd.sum fl l = l.sum := Metrics.Rnd.sum_bits rounding_fl (Metrics.Rnd.sequential_isSum fl) l h hn

theorem hitRow_bits (rel : δ → Prop) (ids : List δ) : ∀ x ∈ hitRow (α := ℚ) rel ids, x = 0 ∨ x = 1 := by
  classical
  intro x hx
  unfold hitRow at hx
  obtain ⟨d, -, rfl⟩ := List.mem_map.1 hx
  by_cases h : rel d
  · rw [if_pos h]; exact .inr rfl
  · rw [if_neg h]; exact .inl rfl

theorem sum_slice_hitRow [DecidableEq δ] (rel : δ → Prop) (ids : List δ) (a b : Nat) (hb : b - a ≤ 2 ^ 53) :
    Norm.Rnd.sum fl (slice (hitRow rel ids) a b) = (Spec.relIn rel (ids.drop a) (b - a) : ℚ) := by
  rw [sum_bits_fl, slice_hitRow_sum]
  · intro x hx
    unfold slice at hx
    exact hitRow_bits rel ids x (List.mem_of_mem_take (List.mem_of_mem_drop hx))
  · rw [slice_hitRow_length]; omega

theorem bandOdds_between {p : ℚ} (h0 : 0 < p) (h1 : p < 1) : bandOdds fl p = fl (p / fl (1 - p)) ∧ 0 < bandOdds fl p := by
  have hn : 0 < fl (1 - p) := fl_pos (by linarith)
  have e : bandOdds fl p = fl (p / fl (1 - p)) := by
    unfold bandOdds
    simp only [if_neg h0.ne', if_neg hn.ne']
  exact ⟨e, by rw [e]; exact fl_pos (div_pos h0 hn)⟩

theorem bandOdds_zero : bandOdds fl 0 = fl (fl (1 / 1000) / fl (1 - fl (1 / 1000))) ∧ 0 < bandOdds fl 0 := by
  have h0 : 0 < fl (1 / 1000) := fl_pos (by norm_num)
  have h1 : fl (1 / 1000) < 1 := by decide +kernel
  have hn : 0 < fl (1 - fl (1 / 1000)) := fl_pos (by linarith)
  have e : bandOdds fl 0 = fl (fl (1 / 1000) / fl (1 - fl (1 / 1000))) := by
    unfold bandOdds milli
    simp only [if_pos, zero_add, fl_fl, if_neg hn.ne']
  exact ⟨e, by rw [e]; exact fl_pos (div_pos h0 hn)⟩

theorem bandOdds_one : bandOdds fl 1 = fl (1 / fl (1 / 1000)) ∧ 0 < bandOdds fl 1 := by
  have h0 : 0 < fl (1 / 1000) := fl_pos (by norm_num)
  have e : bandOdds fl 1 = fl (1 / fl (1 / 1000)) := by
    unfold bandOdds milli
    simp only [one_ne_zero, if_false, sub_self, fl_zero, if_pos, zero_add, fl_fl]
  exact ⟨e, by rw [e]; exact fl_pos (div_pos one_pos h0)⟩

theorem bandOdds_above {p : ℚ} (h1 : 1 < p) : bandOdds fl p < 0 := by
  have hn : fl (1 - p) < 0 := by
    have := fl_pos (x := p - 1) (by linarith)
    have e : 1 - p = -(p - 1) := by ring
    rw [e, fl_neg]; linarith
  unfold bandOdds
  simp only [if_neg (show p ≠ 0 by linarith), if_neg hn.ne]
  have : 0 < fl (-(p / fl (1 - p))) := fl_pos (by
    have := div_neg_of_pos_of_neg (show 0 < p by linarith) hn
    linarith)
  rw [fl_neg] at this
  linarith

theorem lnX_pos (ln : ℚ → ℚ) {x : ℚ} (h : 0 < x) : lnX ln x = .fin (ln x) := if_pos h

theorem lnX_neg (ln : ℚ → ℚ) {x : ℚ} (h : x < 0) : lnX ln x = .nan := by
  unfold lnX
  rw [if_neg (by linarith), if_neg h.ne]

/-- the array filled segment by segment, for any type of values -/
theorem fillX {γ : Type*} (start stop : Nat → Nat) (v : Nat → γ) (z : γ) (n i : Nat) (hi : i < n) (m : Nat)
    (k0 : Nat) (hk : ∀ k < m, (start k ≤ i ∧ i < stop k) ↔ k = k0) :
    ((List.range m).foldl (fun a (k : Nat) => assignSlice a (start k) (stop k) (v k))
      (List.replicate n z))[i]? = some (if k0 < m then v k0 else z) := by
  induction m with
  | zero => simp [hi]
  | succ m ih =>
    rw [List.range_succ, List.foldl_append, List.foldl_cons, List.foldl_nil]
    have := ih (fun k hkm => hk k (by omega))
    unfold assignSlice at this ⊢
    rw [List.getElem?_map, List.getElem?_zipIdx, this]
    simp only [Option.map_some, Option.some.injEq, Nat.zero_add]
    by_cases hm : m = k0
    · subst hm
      rw [if_pos ((hk m (by omega)).2 rfl), if_pos (by omega)]
    · rw [if_neg (fun h => hm ((hk m (by omega)).1 h))]
      by_cases hlt : k0 < m
      · rw [if_pos hlt, if_pos (by omega)]
      · rw [if_neg hlt, if_neg (by omega)]

theorem logOddsX_length (rnd ln : ℚ → ℚ) (hls : List (List ℚ)) : (logOdds rnd ln hls).length = 1000 := by
  unfold logOdds
  generalize List.range (cutOffs.length - 1) = l
  have : ∀ (l : List Nat) (f : Nat → Nat) (g : Nat → Nat) (v : Nat → X ℚ) (a : List (X ℚ)),
      (l.foldl (fun o i => assignSlice o (f i) (g i) (v i)) a).length = a.length := by
    intro l f g v
    induction l with
    | nil => intro a; rfl
    | cons h t ih =>
      intro a
      rw [List.foldl_cons, ih]
      unfold assignSlice
      simp
  rw [this, List.length_replicate]

theorem logOddsX_getElem? (rnd ln : ℚ → ℚ) (hls : List (List ℚ)) (a b : Nat) (hab : (a, b) ∈ Spec.bands) (p : Nat)
    (h1 : a ≤ p) (h2 : p < b) :
    (logOdds rnd ln hls)[p]? = some (lnX ln (bandOdds rnd (bandMean rnd hls a b))) := by
  have hmem : ∃ k < 9, (cutOffs[k]?).getD 0 = a ∧ (cutOffs[k + 1]?).getD 0 = b ∧
      ∀ j < 9, j ≠ k → b ≤ (cutOffs[j]?).getD 0 ∨ (cutOffs[j + 1]?).getD 0 ≤ a := by
    have : ∀ ab ∈ Spec.bands, ∃ k < 9, (cutOffs[k]?).getD 0 = ab.1 ∧ (cutOffs[k + 1]?).getD 0 = ab.2 ∧
      ∀ j < 9, j ≠ k → ab.2 ≤ (cutOffs[j]?).getD 0 ∨ (cutOffs[j + 1]?).getD 0 ≤ ab.1 := by decide
    exact this (a, b) hab
  have hb : b ≤ 1000 := by
    have : ∀ ab ∈ Spec.bands, ab.2 ≤ 1000 := by decide
    exact this (a, b) hab
  obtain ⟨k, hk, rfl, rfl, hj⟩ := hmem
  unfold logOdds
  have h9 : cutOffs.length - 1 = 9 := rfl
  rw [h9]
  have := fillX (fun i => (cutOffs[i]?).getD 0) (fun i => (cutOffs[i + 1]?).getD 0)
    (fun i => lnX ln (bandOdds rnd (bandMean rnd hls ((cutOffs[i]?).getD 0) ((cutOffs[i + 1]?).getD 0))))
    (X.fin 0) 1000 p (by omega) 9 k
    (by
      intro j hj9
      constructor
      · intro h
        by_contra hne
        rcases hj j hj9 hne with h' | h' <;> omega
      · rintro rfl; exact ⟨h1, h2⟩)
  rw [if_pos hk] at this
  exact this

/-- adding up `1/2^k` is exact -/
theorem foldl_pow (k j m : Nat) (h : j + m ≤ 2 ^ 53) :
    (List.replicate m ((1 : ℚ) / 2 ^ k)).foldl (fun a x => fl (a + x)) ((j : ℚ) / 2 ^ k) = ((j + m : ℕ) : ℚ) / 2 ^ k := by
  induction m generalizing j with
  | zero => simp
  | succ m ih =>
    rw [List.replicate_succ, List.foldl_cons]
    have e : fl ((j : ℚ) / 2 ^ k + 1 / 2 ^ k) = ((j + 1 : ℕ) : ℚ) / 2 ^ k := by
      have h1 := fl_exact ((j + 1 : ℕ) : ℤ) (-(k : ℤ)) (by
        rw [abs_of_nonneg (Int.natCast_nonneg _)]; exact_mod_cast (by omega : j + 1 ≤ 2 ^ 53))
      rw [zpow_neg, zpow_natCast, ← div_eq_mul_inv] at h1
      push_cast at h1 ⊢
      rw [← add_div]
      exact h1
    rw [e, ih (j + 1) (by omega)]
    congr 2
    omega

theorem sumOfNths_pow (k : Nat) (hk : 2 ^ k ≤ 2 ^ 53) : Spec.sumOfNths (2 ^ k) = 1 := by
  unfold Spec.sumOfNths
  have e : fl (1 / ((2 ^ k : ℕ) : ℚ)) = 1 / 2 ^ k := by
    have h1 := fl_exact 1 (-(k : ℤ)) (by norm_num)
    rw [zpow_neg, zpow_natCast, Int.cast_one, one_mul] at h1
    push_cast
    rw [one_div]
    exact h1
  rw [e]
  have := foldl_pow k 0 (2 ^ k) (by omega)
  simp only [Nat.cast_zero, zero_div, zero_add] at this
  rw [this]
  push_cast
  exact div_self (by positivity)

end Train.Rnd

section
variable [LinearOrder κ] [DecidableEq δ] [LinearOrder ι]
open Train

theorem Train.Rnd.bandMean_hitRow (SQ : ArgSort Int) (s : Store κ δ Int) (hs : Spec.Usable SQ s) (ids : κ → List δ)
    (a b : Nat) (hab : a < b) (hb : b ≤ 1000) (hn : (Spec.queries s).card ≤ 2 ^ 53) :
    let P := Spec.bandRate s ids a b
    let m := Train.Rnd.bandMean fl ((s.ensureSorted SQ).data.keys.map (fun q => hitRow (Spec.RelDoc s q 1) (ids q))) a b
    NearK (2 + (Spec.queries s).card) P m ∧ (0 < (Spec.queries s).card → P = 1 → m = Spec.sumOfNths (Spec.queries s).card) := by
  intro P m
  set ks := (s.ensureSorted SQ).data.keys with hks
  have hlen : ks.length = (Spec.queries s).card := length_keys_eq SQ s hs
  set n := (Spec.queries s).card with hnc
  have hba : fl ((b - a : Nat) : ℚ) = ((b - a : Nat) : ℚ) := fl_nat (by omega)
  have hba0 : (0 : ℚ) < ((b - a : Nat) : ℚ) := by exact_mod_cast (by omega : 0 < b - a)
  have hm : m = Norm.Rnd.sum fl (ks.map (fun q => fl (fl ((Spec.relBetween s ids a b q : ℚ) / ((b - a : Nat) : ℚ)) / (n : ℚ)))) := by
    show Train.Rnd.bandMean fl _ a b = _
    rw [Train.Rnd.bandMean_eq, List.map_map, List.length_map, hlen, fl_nat hn, hba]
    congr 1
    apply List.map_congr_left
    intro q _
    simp only [Function.comp]
    rw [Train.Rnd.sum_slice_hitRow _ _ _ _ (by omega)]
    rfl
  have hP : P = (ks.map (fun q => (Spec.relBetween s ids a b q : ℚ) / ((b - a : Nat) : ℚ) / (n : ℚ))).sum := by
    show Spec.bandRate s ids a b = _
    unfold Spec.bandRate
    rw [← sum_keys SQ s hs, ← hnc, ← hks, div_eq_mul_inv, ← List.sum_map_mul_right]
    rfl
  constructor
  · rw [hP, hm]
    have := flSum_near 2 (ks.map (fun q => (Spec.relBetween s ids a b q : ℚ) / ((b - a : Nat) : ℚ) / (n : ℚ)))
      (ks.map (fun q => fl (fl ((Spec.relBetween s ids a b q : ℚ) / ((b - a : Nat) : ℚ)) / (n : ℚ))))
      (by
        rw [List.forall₂_map_left_iff, List.forall₂_map_right_iff, List.forall₂_same]
        intro q hq
        have hn0 : (0 : ℚ) < n := by
          rw [← hlen]
          exact_mod_cast List.length_pos_of_mem hq
        have h1 : NearK 1 _ _ := (NearK.refl ((Spec.relBetween s ids a b q : ℚ) / ((b - a : Nat) : ℚ))).fl (by positivity)
        exact (h1.div_exact hn0).fl (by positivity))
      (by
        intro x hx
        obtain ⟨q, -, rfl⟩ := List.mem_map.1 hx
        positivity)
    rwa [List.length_map, hlen] at this
  · intro hn0 h1
    have hn0' : (0 : ℚ) < n := by exact_mod_cast hn0
    have hle : ∀ q, Spec.relBetween s ids a b q ≤ b - a := by
      intro q
      have := relIn_le_min (Spec.RelDoc s q 1) ((ids q).drop a) (b - a)
      unfold Spec.relBetween
      exact this.trans (Nat.min_le_left _ _)
    have hall : ∀ q ∈ Spec.queries s, (Spec.relBetween s ids a b q : ℚ) / ((b - a : Nat) : ℚ) = 1 := by
      have hsum : ∑ q ∈ Spec.queries s, (Spec.relBetween s ids a b q : ℚ) / ((b - a : Nat) : ℚ) =
          ∑ q ∈ Spec.queries s, (1 : ℚ) := by
        have h2 : (∑ q ∈ Spec.queries s, (Spec.relBetween s ids a b q : ℚ) / ((b - a : Nat) : ℚ)) / (n : ℚ) = 1 := h1
        rw [div_eq_one_iff_eq hn0'.ne'] at h2
        rw [h2]; simp [hnc]
      exact (Finset.sum_eq_sum_iff_of_le (fun q _ => div_le_one_of_le₀ (by exact_mod_cast hle q) hba0.le)).1 hsum
    rw [hm]
    unfold Spec.sumOfNths Norm.Rnd.sum
    congr 1
    rw [← hlen, ← List.map_const']
    apply List.map_congr_left
    intro q hq
    rw [hall q ((mem_keys_iff SQ s hs q).1 hq), fl_one, hlen]

theorem Train.Rnd.learned_of (SQ : ArgSort Int) (s : Store κ δ Int) (hs : Spec.Usable SQ s) (ids : κ → List δ)
    (ln : ℚ → ℚ) (a b : Nat) (hab : a < b) (hb : b ≤ 1000) (hba : b - a ≤ 500) (h0 : 0 < (Spec.queries s).card)
    (hn : (Spec.queries s).card ≤ 2 ^ 20) :
    Spec.Learned ln (Spec.queries s).card (Spec.bandRate s ids a b) (Train.Rnd.lnX ln (Train.Rnd.bandOdds fl
      (Train.Rnd.bandMean fl ((s.ensureSorted SQ).data.keys.map (fun q => hitRow (Spec.RelDoc s q 1) (ids q))) a b))) := by
  obtain ⟨hN, h1⟩ := Train.Rnd.bandMean_hitRow SQ s hs ids a b hab hb (by omega)
  generalize hm : Train.Rnd.bandMean fl ((s.ensureSorted SQ).data.keys.map
    (fun q => hitRow (Spec.RelDoc s q 1) (ids q))) a b = m at *
  have hgap : Spec.bandRate s ids a b < 1 →
      Spec.bandRate s ids a b ≤ 1 - 1 / (500 * ((Spec.queries s).card : ℚ)) := by
    intro hlt
    unfold Spec.bandRate at hlt ⊢
    set n := (Spec.queries s).card with hnc
    have hn0 : (0 : ℚ) < n := by exact_mod_cast h0
    have hba0 : (0 : ℚ) < ((b - a : Nat) : ℚ) := by exact_mod_cast (by omega : 0 < b - a)
    rw [← Finset.sum_div] at hlt ⊢
    rw [← Nat.cast_sum] at hlt ⊢
    set T := ∑ q ∈ Spec.queries s, Spec.relBetween s ids a b q
    rw [div_div, div_lt_one (by positivity)] at hlt
    have hT : T + 1 ≤ (b - a) * n := by exact_mod_cast hlt
    have hT' : (T : ℚ) + 1 ≤ ((b - a : Nat) : ℚ) * n := by exact_mod_cast hT
    have hw : ((b - a : Nat) : ℚ) ≤ 500 := by exact_mod_cast hba
    rw [div_div]
    have hinv : 1 / (500 * (n : ℚ)) ≤ 1 / (((b - a : Nat) : ℚ) * n) :=
      one_div_le_one_div_of_le (by positivity) (by nlinarith)
    have : (T : ℚ) / (((b - a : Nat) : ℚ) * n) ≤ 1 - 1 / (((b - a : Nat) : ℚ) * n) := by
      rw [le_sub_iff_add_le, ← add_div, div_le_one (by positivity)]
      exact hT'
    linarith
  set n := (Spec.queries s).card with hnc
  set P := Spec.bandRate s ids a b
  have hn0 : (0 : ℚ) < n := by exact_mod_cast h0
  have hn20 : (n : ℚ) ≤ 2 ^ 20 := by exact_mod_cast hn
  have hK : 2 + n ≤ 2 ^ 52 := by omega
  refine ⟨?_, ?_, ?_, ?_, ?_⟩
  · intro hP
    rw [hP] at hN
    have : m = 0 := by
      unfold NearK at hN
      rw [zero_mul, zero_mul] at hN
      exact le_antisymm hN.2 hN.1
    rw [this, Train.Rnd.lnX_pos ln Train.Rnd.bandOdds_zero.2, Train.Rnd.bandOdds_zero.1]
  · intro hP0 hP1
    have hlo := hN.lower hP0.le
    have hup := hN.upper hP0.le hK
    have habs := hN.abs hP0.le hK
    have hm0 : 0 < m := by
      refine lt_of_lt_of_le (mul_pos hP0 ?_) hlo
      rw [sub_pos, div_lt_one (by positivity)]
      push_cast
      nlinarith
    have hm1 : m < 1 := by
      refine lt_of_le_of_lt hup ?_
      have hg := hgap hP1
      have hs : 2 * ((2 + n : ℕ) : ℚ) / 2 ^ 53 < 1 / (500 * (n : ℚ)) := by
        rw [div_lt_div_iff₀ (by positivity) (by positivity)]
        push_cast
        nlinarith
      have hs0 : 0 ≤ 2 * ((2 + n : ℕ) : ℚ) / 2 ^ 53 := by positivity
      nlinarith
    refine ⟨m, hm0, hm1, by rw [Nat.add_comm n 2]; exact habs, ?_⟩
    rw [Train.Rnd.lnX_pos ln (Train.Rnd.bandOdds_between hm0 hm1).2, (Train.Rnd.bandOdds_between hm0 hm1).1]
  · rintro hP ⟨k, hk⟩
    have : m = 1 := by
      rw [h1 h0 hP, hk]
      exact Train.Rnd.sumOfNths_pow k (by omega)
    rw [this, Train.Rnd.lnX_pos ln Train.Rnd.bandOdds_one.2, Train.Rnd.bandOdds_one.1]
  · intro hP hS
    rw [← h1 h0 hP] at hS ⊢
    have hm0 : 0 < m := by
      refine lt_of_lt_of_le (mul_pos (by rw [hP]; exact one_pos) ?_) (hN.lower (by rw [hP]; exact zero_le_one))
      rw [sub_pos, div_lt_one (by positivity)]
      push_cast
      nlinarith
    rw [Train.Rnd.lnX_pos ln (Train.Rnd.bandOdds_between hm0 hS).2, (Train.Rnd.bandOdds_between hm0 hS).1]
  · intro hP hS
    rw [← h1 h0 hP] at hS
    exact Train.Rnd.lnX_neg ln (Train.Rnd.bandOdds_above hS)

/-- **C159** (partial: the code violates it for a band in which every result of every training query is
relevant, see `C159_refuted`): in float64, with at most 2^20 training queries and whatever `np.log` computes
on positive numbers, `bayesfuse_train` succeeds and gives each run a table of 1000 numbers; each entry is what
`Spec.Learned` says for the average precision of the entry's band. In particular no entry of a band of average
precision below 1 is NaN or infinite. -/
theorem C159_bayesfuse_partial (ln : ℚ → ℚ) (SQ : ArgSort Int) (SR : ArgSort ℚ) (hash : δ → ι) (sched : Nat → List Nat)
    (s : Store κ δ Int) (runs : List (Store κ δ ℚ)) (hT : Spec.Trainable SQ SR hash s runs)
    (hsched : ∀ i, Schedule s.data.length (sched i)) (hn : (Spec.queries s).card ≤ 2 ^ 20) :
    ∃ s' runs' tables, Train.Rnd.bayesfuseTrain fl ln SQ SR hash sched s runs = (s', runs', .ok tables) ∧
      List.Forall₂ (fun r (t : List (X ℚ)) => t.length = 1000 ∧ ∃ ids, Spec.Rankings s r ids ∧
        ∀ ab ∈ Spec.bands, 0 ≤ Spec.bandRate s ids ab.1 ab.2 ∧ Spec.bandRate s ids ab.1 ab.2 ≤ 1 ∧
          ∀ (p : Nat), ab.1 ≤ p → p < ab.2 →
            ∃ x, t[p]? = some x ∧ Spec.Learned ln (Spec.queries s).card (Spec.bandRate s ids ab.1 ab.2) x) runs tables := by
  obtain ⟨s', hls, h1, -, h3⟩ := trainEach_eq SQ SR hash (fun h : List (List ℚ) => .ok (Train.Rnd.logOdds fl ln h))
    (fun r t => ∃ ids, Spec.Rankings s r ids ∧
      t = Train.Rnd.logOdds fl ln ((s.ensureSorted SQ).data.keys.map (fun q => hitRow (Spec.RelDoc s q 1) (ids q))))
    s runs sched hT hsched (fun r _ ids hids => ⟨_, rfl, ids, hids, rfl⟩) s rfl
  refine ⟨s', _, hls, h1, h3.imp ?_⟩
  rintro r t ⟨ids, hids, rfl⟩
  refine ⟨Train.Rnd.logOddsX_length _ _ _, ids, hids, ?_⟩
  intro ab hab
  have hr := average_range (Spec.queries s)
    (fun q => (Spec.relBetween s ids ab.1 ab.2 q : ℚ) / ((ab.2 - ab.1 : Nat) : ℚ))
    (fun q _ => by positivity)
    (fun q _ => by
      apply div_le_one_of_le₀ _ (by positivity)
      have := relIn_le_min (Spec.RelDoc s q 1) ((ids q).drop ab.1) (ab.2 - ab.1)
      unfold Spec.relBetween
      exact_mod_cast this.trans (Nat.min_le_left _ _))
  refine ⟨hr.1, hr.2, ?_⟩
  intro p hp1 hp2
  refine ⟨_, Train.Rnd.logOddsX_getElem? fl ln _ ab.1 ab.2 hab p hp1 hp2, ?_⟩
  have hb : ∀ ab ∈ Spec.bands, ab.2 ≤ 1000 ∧ ab.2 - ab.1 ≤ 500 := by decide
  exact Train.Rnd.learned_of SQ s hT.qrels ids ln ab.1 ab.2 (by omega) (hb ab hab).1 (hb ab hab).2
    (Finset.card_pos.2 (queries_nonempty hT)) hn

/-- **C159**, what goes wrong: nine rounded ninths add up to more than 1 and ten rounded tenths to less, so a
band in which every result is relevant is learned as NaN from 9 training queries (and from 11, 18, 20, 21,
25, …), and as odds of `2^53 - 1` instead of 1000 from 10 (and 6, 7, …). -/
theorem C159_sums : (∀ n ∈ [9, 11, 18, 20, 21, 25, 35], 1 < Spec.sumOfNths n) ∧
    (∀ n ∈ [6, 7, 10], Spec.sumOfNths n < 1) ∧ (∀ n ∈ [1, 2, 3, 4, 5, 8, 12, 16], Spec.sumOfNths n = 1) ∧
    fl (Spec.sumOfNths 10 / fl (1 - Spec.sumOfNths 10)) = 2 ^ 53 - 1 := by
  refine ⟨by decide +kernel, by decide +kernel, by decide +kernel, by decide +kernel⟩

/-! ## What a NaN in a table does -/

/-- Specification: what a run with table `t` contributes to doc `d` of query `q`: the entry of the doc's position,
`minOdd` if the run does not have the doc. -/
def Spec.tableEntry (oob : Nat → X ℚ) (minOdd : X ℚ) (run : Spec.RunData κ δ (X ℚ)) (t : List (X ℚ)) (q : κ) (d : δ) : X ℚ :=
  match Spec.position? run q d with
  | some i => (t[i]?).getD (oob i)
  | none => minOdd

/-- **C159** (`bayesfuse` with such tables): for tables that may hold NaN, bayesfuse succeeds and gives each doc the
float sum over all runs of their contributions; a doc whose position in some run has a NaN entry therefore gets
the score NaN, and is ranked after every doc with a number. -/
theorem C159_nan_last (S : ArgSort (X ℚ)) (sched : List Nat) (scheds : Nat → List Nat) (minOdd : X ℚ) (oob : Nat → X ℚ)
    (tables : List (List (X ℚ))) (runs : List (Dict κ (Norm.Results δ (X ℚ)))) (hl : runs.length ≤ tables.length)
    (hf : Spec.Fusable runs) (hs : Schedule (queryCount runs) sched)
    (hss : ∀ (j : Nat) run, runs[j]? = some run → Schedule run.length (scheds j)) :
    ∃ out, Train.Rnd.bayesfuse S sched scheds minOdd oob tables runs = .ok out ∧
      Spec.FusedFloats runs (fun q d => Special.sumX ((runs.zip tables).map
        (fun rt => Spec.tableEntry oob minOdd rt.1 rt.2 q d))) out ∧
      (∀ (j : Nat) run t q d i, runs[j]? = some run → tables[j]? = some t → Spec.position? run q d = some i →
        t[i]? = some .nan → (Spec.content out).read q d = some .nan) ∧
      (∀ p ∈ out.data, ∀ (a b : Nat) (x y : δ) (v : ℚ), p.2[a]? = some (x, X.nan) → p.2[b]? = some (y, .fin v) → b < a) := by
  have hres := Fuse.Gen.rescoreWith_eq (bayesScore (δ := δ) oob) tables scheds runs hf.nodupQ hss hl
  unfold Train.Rnd.bayesfuse
  rw [hres]
  simp only [bindArg]
  have hR : Rescored runs ((runs.zip tables).map (fun rp => mapRun (fun _ r => bayesScore (δ := δ) oob rp.2 r) rp.1)) :=
    Fuse.Gen.rescored_zip (fun t _ r => bayesScore (δ := δ) oob t r) tables runs hl
      (fun p q r => Fuse.Gen.nodupKeys_rankLoop _ r)
  set runs' := (runs.zip tables).map (fun rp => mapRun (fun _ r => bayesScore (δ := δ) oob rp.2 r) rp.1) with hruns'
  have hin : ∀ q d, Spec.InSome runs' q d ↔ Spec.InSome runs q d := by
    intro q d
    apply Fuse.Gen.inSome_rescored
    have : ∀ (rs : List (Dict κ (Norm.Results δ (X ℚ)))) (ts : List (List (X ℚ))), rs.length ≤ ts.length →
        (∀ run ∈ rs, ∀ p ∈ run, NodupKeys p.2) →
        List.Forall₂ (fun run run' => ∀ q d, (Spec.score? run' q d).isSome = (Spec.score? run q d).isSome) rs
          ((rs.zip ts).map (fun rp => mapRun (fun _ r => bayesScore (δ := δ) oob rp.2 r) rp.1)) := by
      intro rs
      induction rs with
      | nil => intro ts _ _; exact .nil
      | cons run rs ih =>
        intro ts hl hn
        cases ts with
        | nil => simp at hl
        | cons t ts =>
          rw [List.zip_cons_cons, List.map_cons]
          refine .cons (fun q d => ?_) (ih ts (by simpa using hl) (fun r hr => hn r (by simp [hr])))
          exact Fuse.Gen.score?_isSome_mapRun _ run (hn run (by simp))
            (fun r hr d => by unfold bayesScore; rw [Fuse.Gen.keys_rankLoop _ r hr]) q d
    exact this runs tables hl hf.nodupD
  obtain ⟨out, h1, h2⟩ := Special.fuseRun_spec S (Train.Rnd.oddsScore (δ := δ) minOdd)
    (fun rs d => Special.sumX (rs.map (fun res => (res.get? d).getD minOdd))) sched runs'
    (Fuse.Gen.Rescored.fusable hR hf) (by rw [Fuse.Gen.Rescored.queryCount hR]; exact hs) (fun q d _ => rfl)
  have hval : ∀ q d, Special.sumX ((resultsFor runs' q).map (fun res => (res.get? d).getD minOdd)) =
      Special.sumX ((runs.zip tables).map (fun rt => Spec.tableEntry oob minOdd rt.1 rt.2 q d)) := by
    intro q d
    congr 1
    unfold resultsFor
    rw [hruns', List.map_map, List.map_map]
    apply List.map_congr_left
    intro rt hrt
    simp only [Function.comp_apply]
    rw [getD_get?, Fuse.Gen.score?_mapRun]
    unfold Spec.tableEntry Spec.position?
    cases hq : Dict.get? rt.1 q with
    | none => rfl
    | some r =>
      have hr : NodupKeys r := hf.nodupD rt.1 (List.of_mem_zip hrt).1 (q, r) (mem_of_get? hq)
      simp only [Option.bind_some]
      unfold bayesScore
      rw [Fuse.Gen.get?_rankLoop _ r hr]
      cases List.idxOf? d r.keys <;> rfl
  have hF : Spec.FusedFloats runs (fun q d => Special.sumX ((runs.zip tables).map
        (fun rt => Spec.tableEntry oob minOdd rt.1 rt.2 q d))) out :=
    ⟨fun q => (h2.queries q).trans (Fuse.Gen.Rescored.queries hR q), fun q d => (h2.docs q d).trans (hin q d),
      fun q d hx => by rw [h2.value q d ((hin q d).2 hx), hval], h2.ranked, h2.ordered⟩
  refine ⟨out, h1, hF, ?_, ?_⟩
  · intro j run t q d i hr ht hp hi
    have hInS : Spec.InSome runs q d := by
      unfold Spec.position? at hp
      obtain ⟨r, hr1, hr2⟩ := Option.bind_eq_some_iff.1 hp
      exact ⟨run, List.mem_of_getElem? hr, r, hr1, Fuse.idxOf?_isSome.1 (by rw [hr2]; rfl)⟩
    rw [hF.value q d hInS]
    congr 1
    apply Special.sumX_nan
    have hz : (run, t) ∈ runs.zip tables := by
      rw [List.mem_iff_getElem?]
      exact ⟨j, List.getElem?_zip_eq_some.2 ⟨hr, ht⟩⟩
    refine List.mem_map.2 ⟨_, hz, ?_⟩
    unfold Spec.tableEntry
    simp only [hp, hi, Option.getD_some]
  · intro p hp a b x y v ha hb
    rcases Nat.lt_trichotomy b a with h | h | h
    · exact h
    · rw [h, ha] at hb; cases hb
    · have := List.pairwise_iff_getElem.1 (hF.ranked p hp) a b (List.getElem?_eq_some_iff.1 ha).1
        (List.getElem?_eq_some_iff.1 hb).1 h
      rw [(List.getElem?_eq_some_iff.1 ha).2, (List.getElem?_eq_some_iff.1 hb).2] at this
      exact absurd this (by simp [Spec.FloatAtLeast])

end

/-! ## Examples -/

section
open Train

/-- `n` training queries with five judged docs each, all relevant … -/
def exFiveQrels (n : Nat) : Store Nat Nat Int := ⟨(List.range n).map (fun q => (q, (List.range 5).map (fun d => (d, 1)))), false⟩

/-- … and a run that returns just these docs -/
def exFiveRun (n : Nat) : Store Nat Nat ℚ :=
  ⟨(List.range n).map (fun q => (q, (List.range 5).map (fun d => (d, (5 - d : ℚ))))), false⟩

theorem exFive_trainable : Spec.Trainable (ArgSort.stable Int) (ArgSort.stable ℚ) (id : Nat → Nat) (exFiveQrels 9)
    [exFiveRun 9] := by
  have hq : Store.Wf (exFiveQrels 9).data := by
    unfold Store.Wf NodupKeys; exact ⟨by decide +kernel, by decide +kernel⟩
  have hr : Store.Wf (exFiveRun 9).data := by
    unfold Store.Wf NodupKeys; exact ⟨by decide +kernel, by decide +kernel⟩
  refine ⟨⟨_, [], ⟨_, hq.1, hq.2, .inl rfl⟩, rfl, by simp [Store.exec]⟩, ?_, by decide, ?_, ?_⟩
  · intro r h
    rw [List.mem_singleton] at h
    subst h
    exact ⟨_, [], ⟨_, hr.1, hr.2, .inl rfl⟩, rfl, by simp [Store.exec]⟩
  · intro r h q
    rw [List.mem_singleton] at h
    subst h
    have e : (exFiveRun 9).data.keys = (exFiveQrels 9).data.keys := by decide +kernel
    rw [e]
  · intro r h q
    exact fun _ _ _ _ _ h => h

theorem exFive_hits : hitLists (List.range 9) (Store.rows (id : Nat → Nat) (fun z : Int => (z : ℚ))
      ((exFiveQrels 9).ensureSorted (ArgSort.stable Int)).data)
    (Store.rows id id ((exFiveRun 9).ensureSorted (ArgSort.stable ℚ)).data) =
      .ok (List.replicate 9 (List.replicate 5 1)) ∧
    hitLists (List.range 10) (Store.rows (id : Nat → Nat) (fun z : Int => (z : ℚ))
      ((exFiveQrels 10).ensureSorted (ArgSort.stable Int)).data)
    (Store.rows id id ((exFiveRun 10).ensureSorted (ArgSort.stable ℚ)).data) =
      .ok (List.replicate 10 (List.replicate 5 1)) := by
  constructor <;> decide +kernel

/-- **C159** refuted: nine training queries with five relevant docs each, retrieved at the first five positions:
whatever `np.log` computes on positive numbers, the table says NaN for the first five positions. With ten such
queries it says the log of 2^53 - 1 (about 36.7) instead of the log of 1000 (about 6.9). -/
theorem C159_refuted (ln : ℚ → ℚ) :
    (∃ s' runs' t, Train.Rnd.bayesfuseTrain (ι := Nat) fl ln (ArgSort.stable Int) (ArgSort.stable ℚ) id
        (fun _ => List.range 9) (exFiveQrels 9) [exFiveRun 9] = (s', runs', .ok [t]) ∧
      ∀ p < 5, t[p]? = some .nan) ∧
    (∃ s' runs' t, Train.Rnd.bayesfuseTrain (ι := Nat) fl ln (ArgSort.stable Int) (ArgSort.stable ℚ) id
        (fun _ => List.range 10) (exFiveQrels 10) [exFiveRun 10] = (s', runs', .ok [t]) ∧
      ∀ p < 5, t[p]? = some (.fin (ln (2 ^ 53 - 1)))) := by
  constructor
  · refine ⟨(exFiveQrels 9).ensureSorted (ArgSort.stable Int), [(exFiveRun 9).ensureSorted (ArgSort.stable ℚ)],
      Train.Rnd.logOdds fl ln (List.replicate 9 (List.replicate 5 1)), ?_, ?_⟩
    · unfold Train.Rnd.bayesfuseTrain trainEach Store.toTypedList
      simp only [exFive_hits.1, bindArg]
      rfl
    · intro p hp
      rw [Train.Rnd.logOddsX_getElem? fl ln _ 0 5 (by decide) p (by omega) hp,
        Train.Rnd.lnX_neg ln (by decide +kernel)]
  · refine ⟨(exFiveQrels 10).ensureSorted (ArgSort.stable Int), [(exFiveRun 10).ensureSorted (ArgSort.stable ℚ)],
      Train.Rnd.logOdds fl ln (List.replicate 10 (List.replicate 5 1)), ?_, ?_⟩
    · unfold Train.Rnd.bayesfuseTrain trainEach Store.toTypedList
      simp only [exFive_hits.2, bindArg]
      rfl
    · intro p hp
      have e : Train.Rnd.bandOdds fl (Train.Rnd.bandMean fl (List.replicate 10 (List.replicate 5 1)) 0 5) = 2 ^ 53 - 1 := by
        decide +kernel
      rw [Train.Rnd.logOddsX_getElem? fl ln _ 0 5 (by decide) p (by omega) hp, e,
        Train.Rnd.lnX_pos ln (by norm_num)]

/-- Non-vacuity of `C159_bayesfuse_partial`. -/
example (ln : ℚ → ℚ) : ∃ s' runs' tables, Train.Rnd.bayesfuseTrain fl ln (ArgSort.stable Int) (ArgSort.stable ℚ)
    (id : Nat → Nat) (fun _ => [1, 0]) exQrelsObj [exTrainRun, exTrainRun] = (s', runs', .ok tables) ∧ tables.length = 2 := by
  obtain ⟨s', runs', tables, h, h'⟩ := C159_bayesfuse_partial ln (ArgSort.stable Int) (ArgSort.stable ℚ) id
    (fun _ => [1, 0]) exQrelsObj [exTrainRun, exTrainRun] exTrainable (fun i => by unfold Schedule; decide) (by decide +kernel)
  exact ⟨s', runs', tables, h, h'.length_eq.symm⟩

/-- Non-vacuity of `C159_nan_last`: the doc at the first position of the first run gets NaN and comes last. -/
example : (Train.Rnd.bayesfuse (κ := Nat) (δ := Nat) (ArgSort.stable (X ℚ)) [0] (fun _ => [0]) (.fin (-7)) (fun _ => .nan)
    [[.nan, .fin 1], [.fin 2, .fin 1]] [[(1, [(10, .fin 2), (11, .fin 1)])], [(1, [(11, .fin 2), (12, .fin 1)])]]).map
      (fun out => out.data) = .ok [(1, [(11, X.fin 3), (12, .fin (-6)), (10, .nan)])] := by decide +kernel

end
end Ranx
