import Verif.Lemmas.Dcg
import Verif.Model.Dcg

/-!
# Properties C17, C18 and the dcg parts of C23, C24, C26, C27, C29 for the code's own gains
-/

set_option linter.unusedSectionVars false

namespace Ranx
open Metrics Finset

/-! ## the discount and gains satisfy the abstract requirements -/

theorem log2Disc_pos (i : Nat) : 0 < log2Disc i := by
  unfold log2Disc
  apply Real.logb_pos (by norm_num)
  have : (0 : ℝ) ≤ i := Nat.cast_nonneg _
  linarith

theorem log2Disc_mono (i : Nat) : log2Disc i ≤ log2Disc (i + 1) := by
  unfold log2Disc
  apply Real.logb_le_logb_of_le (by norm_num)
  · have : (0 : ℝ) ≤ i := Nat.cast_nonneg _
    linarith
  · push_cast; linarith

theorem burges_zero : burgesGain 0 = 0 := by unfold burgesGain; simp

theorem burges_mono {x y : ℝ} (h : x ≤ y) : burgesGain x ≤ burgesGain y := by
  unfold burgesGain
  have := Real.rpow_le_rpow_of_exponent_le (by norm_num : (1:ℝ) ≤ 2) h
  linarith

theorem burges_nonneg (x : ℝ) (h : 0 ≤ x) : 0 ≤ burgesGain x := by
  rw [← burges_zero]; exact burges_mono h

section
variable {ι : Type*} [LinearOrder ι]

/-- **C17**: `g` is the grade assignment of the judgements (judged relevance if at least the level,
0 for unjudged docs and docs below it); ranks are 0-based here, so rank `i+1` is discounted by
`log2(i+2)`. -/
theorem C17_dcg (q run : Rows ι ℝ) (hq : (ids q).Nodup) (k : Nat) (lvl : ℝ) (g : ι → ℝ)
    (hg : Spec.IsGrade q lvl g) :
    dcg q run k lvl = Spec.dcg g (fun i => Real.logb 2 (i + 2)) (ids run) k ∧
    dcgBurges q run k lvl =
      Spec.dcg (fun x => 2 ^ g x - 1) (fun i => Real.logb 2 (i + 2)) (ids run) k := by
  constructor
  · unfold dcg
    rw [dcgCore_eq jarvelinGain rfl, grade_eq hq hg]; rfl
  · unfold dcgBurges
    rw [dcgCore_eq burgesGain burges_zero, grade_eq hq hg]; rfl

/-- such an assignment exists for every judgement array with distinct docs -/
example (q : Rows ι ℝ) (hq : (ids q).Nodup) (lvl : ℝ) : ∃ g, Spec.IsGrade q lvl g :=
  ⟨_, gradeFn_isGrade hq lvl⟩

/-- Specification for C18: judgements arranged by non-increasing relevance. -/
def Spec.SortedByRelevance (q : Rows ι ℝ) : Prop := q.Pairwise (fun a b => b.2 ≤ a.2)

theorem gain_nonneg (gain : ℝ → ℝ) (h0 : gain 0 = 0) (hg : ∀ v, 0 ≤ v → 0 ≤ gain v) (q : Rows ι ℝ)
    (lvl : ℝ) (hl : 0 ≤ lvl) (x : ι) : 0 ≤ gain (gradeFn q lvl x) := by
  by_cases hx : Spec.Rel q lvl x
  · exact hg _ (hl.trans (gradeFn_of_rel hx).2)
  · rw [gradeFn_of_not_rel hx, h0]

theorem sorted_gain (gain : ℝ → ℝ) (h0 : gain 0 = 0) (hg : ∀ v, 0 ≤ v → 0 ≤ gain v)
    (hm : ∀ x y, x ≤ y → gain x ≤ gain y) (q : Rows ι ℝ) (hq : (ids q).Nodup)
    (hs : Spec.SortedByRelevance q) (lvl : ℝ) (hl : 0 ≤ lvl) :
    (ids q).Pairwise (fun x y => gain (gradeFn q lvl y) ≤ gain (gradeFn q lvl x)) := by
  unfold ids
  rw [List.pairwise_map]
  have hgr := gradeFn_isGrade hq lvl
  apply List.Pairwise.imp_of_mem _ hs
  intro a b ha hb hab
  by_cases h : lvl ≤ b.2
  · rw [hgr.1 b.1 b.2 hb h, hgr.1 a.1 a.2 ha (h.trans hab)]
    exact hm _ _ hab
  · have hnr : ¬ Spec.Rel q lvl b.1 := by
      rintro ⟨v, hv, hle⟩
      have h1 := scan_of_mem hq (show (b.1, b.2) ∈ q from hb)
      rw [scan_of_mem hq hv] at h1
      cases h1
      exact h hle
    rw [gradeFn_of_not_rel hnr, h0]
    exact gain_nonneg gain h0 hg q lvl hl _

/-- everything C18 says, for any admissible gain -/
theorem ndcgCore_props (gain : ℝ → ℝ) (h0 : gain 0 = 0) (hg : ∀ v, 0 ≤ v → 0 ≤ gain v)
    (hm : ∀ x y, x ≤ y → gain x ≤ gain y) (q run : Rows ι ℝ) (hq : (ids q).Nodup)
    (hs : Spec.SortedByRelevance q) (hrun : (ids run).Nodup) (k : Nat) (lvl : ℝ) (hl : 0 ≤ lvl) :
    dcgCore gain log2Disc q run k lvl ≤ idcgCore gain log2Disc q k lvl ∧
    0 ≤ dcgCore gain log2Disc q run k lvl ∧
    0 ≤ ndcgCore gain log2Disc q run k lvl ∧ ndcgCore gain log2Disc q run k lvl ≤ 1 := by
  have hle : dcgCore gain log2Disc q run k lvl ≤ idcgCore gain log2Disc q k lvl := by
    unfold idcgCore
    rw [dcgCore_eq gain h0, dcgCore_eq gain h0]
    apply dcg_le_ideal _ (gain_nonneg gain h0 hg q lvl hl) _ log2Disc_pos log2Disc_mono _ _ hrun
      (sorted_gain gain h0 hg hm q hq hs lvl hl)
    intro x _ hx
    by_contra hc
    apply hx
    rw [gradeFn_of_not_rel, h0]
    rintro ⟨v, hv, _⟩
    exact hc (List.mem_map.2 ⟨(x, v), hv, rfl⟩)
  have h1 : 0 ≤ dcgCore gain log2Disc q run k lvl := by
    rw [dcgCore_eq gain h0, dcg_as_sum]
    apply Finset.sum_nonneg
    intro i _
    apply mul_nonneg _ (inv_nonneg.2 (log2Disc_pos i).le)
    unfold Spec.gainAt
    cases (List.map Prod.fst run)[i]? with
    | none => simp
    | some x => exact gain_nonneg gain h0 hg q lvl hl x
  refine ⟨hle, h1, ?_, ?_⟩
  · unfold ndcgCore
    apply div_nonneg h1
    split
    · exact zero_le_one
    · exact h1.trans hle
  · unfold ndcgCore
    simp only
    split
    · rename_i hz
      rw [hz] at hle
      rw [div_one]; linarith
    · exact div_le_one_of_le₀ hle (h1.trans hle)

/-- **C18** (idcg is the best achievable dcg): it is attained, by the ranking that lists the
judgements in their order, and no ranking without repeated docs exceeds it. -/
theorem C18_idcg_is_max (q : Rows ι ℝ) (hq : (ids q).Nodup) (hs : Spec.SortedByRelevance q) (k : Nat)
    (lvl : ℝ) (hl : 0 ≤ lvl) :
    (IsGreatest {v | ∃ run : Rows ι ℝ, (ids run).Nodup ∧ v = dcg q run k lvl} (idcg q k lvl)) ∧
    (IsGreatest {v | ∃ run : Rows ι ℝ, (ids run).Nodup ∧ v = dcgBurges q run k lvl}
      (idcgBurges q k lvl)) := by
  refine ⟨⟨⟨q, hq, rfl⟩, ?_⟩, ⟨⟨q, hq, rfl⟩, ?_⟩⟩
  · rintro v ⟨run, hrun, rfl⟩
    exact (ndcgCore_props jarvelinGain rfl (fun _ h => h) (fun _ _ h => h) q run hq hs hrun k lvl hl).1
  · rintro v ⟨run, hrun, rfl⟩
    exact (ndcgCore_props burgesGain burges_zero burges_nonneg (fun _ _ => burges_mono) q run hq hs
      hrun k lvl hl).1

/-- **C18** (range) -/
theorem C18_ndcg_range (q run : Rows ι ℝ) (hq : (ids q).Nodup) (hs : Spec.SortedByRelevance q)
    (hrun : (ids run).Nodup) (k : Nat) (lvl : ℝ) (hl : 0 ≤ lvl) :
    (0 ≤ ndcg q run k lvl ∧ ndcg q run k lvl ≤ 1) ∧
    (0 ≤ ndcgBurges q run k lvl ∧ ndcgBurges q run k lvl ≤ 1) :=
  ⟨(ndcgCore_props jarvelinGain rfl (fun _ h => h) (fun _ _ h => h) q run hq hs hrun k lvl hl).2.2,
   (ndcgCore_props burgesGain burges_zero burges_nonneg (fun _ _ => burges_mono) q run hq hs
      hrun k lvl hl).2.2⟩

/-- **C18** (quotient): ndcg is dcg over idcg; when idcg is 0 the fallback divisor 1 applies. -/
theorem C18_ndcg_quotient (q run : Rows ι ℝ) (k : Nat) (lvl : ℝ) :
    (idcg q k lvl ≠ 0 → ndcg q run k lvl = dcg q run k lvl / idcg q k lvl) ∧
    (idcg q k lvl = 0 → ndcg q run k lvl = dcg q run k lvl) ∧
    (idcgBurges q k lvl ≠ 0 → ndcgBurges q run k lvl = dcgBurges q run k lvl / idcgBurges q k lvl) ∧
    (idcgBurges q k lvl = 0 → ndcgBurges q run k lvl = dcgBurges q run k lvl) := by
  unfold ndcg ndcgBurges ndcgCore idcg idcgBurges dcg dcgBurges
  refine ⟨fun h => by simp only [if_neg h], fun h => by simp only [if_pos h, div_one],
    fun h => by simp only [if_neg h], fun h => by simp only [if_pos h, div_one]⟩

/-- **C18** (ideal run): a run that contains every relevant doc and ranks docs by non-increasing
grade (unjudged docs having grade 0) has dcg = idcg, hence ndcg 1 unless idcg is 0. -/
theorem C18_ideal_run (q run : Rows ι ℝ) (hq : (ids q).Nodup) (hs : Spec.SortedByRelevance q)
    (hrun : (ids run).Nodup) (k : Nat) (lvl : ℝ) (hl : 0 ≤ lvl) (g : ι → ℝ)
    (hg : Spec.IsGrade q lvl g) (hideal : (ids run).Pairwise (fun x y => g y ≤ g x))
    (hall : ∀ x, Spec.Rel q lvl x → x ∈ ids run) :
    dcg q run k lvl = idcg q k lvl ∧ dcgBurges q run k lvl = idcgBurges q k lvl ∧
    (idcg q k lvl ≠ 0 → ndcg q run k lvl = 1) ∧
    (idcgBurges q k lvl ≠ 0 → ndcgBurges q run k lvl = 1) := by
  have hgg := grade_eq hq hg
  have key : ∀ (gain : ℝ → ℝ) (h0 : gain 0 = 0) (_ : ∀ v, 0 ≤ v → 0 ≤ gain v)
      (_ : ∀ x y, x ≤ y → gain x ≤ gain y),
      dcgCore gain log2Disc q run k lvl = idcgCore gain log2Disc q k lvl := by
    intro gain h0 hgn hm
    apply le_antisymm
    · exact (ndcgCore_props gain h0 hgn hm q run hq hs hrun k lvl hl).1
    · unfold idcgCore
      rw [dcgCore_eq gain h0, dcgCore_eq gain h0]
      apply dcg_le_ideal _ (gain_nonneg gain h0 hgn q lvl hl) _ log2Disc_pos log2Disc_mono _ _ hq
      · rw [hgg]
        exact hideal.imp (fun h => hm _ _ h)
      · intro x _ hx
        by_contra hc
        apply hx
        rw [gradeFn_of_not_rel, h0]
        intro hr
        exact hc (hall x hr)
  have h1 : dcg q run k lvl = idcg q k lvl := key jarvelinGain rfl (fun _ h => h) (fun _ _ h => h)
  have h2 : dcgBurges q run k lvl = idcgBurges q k lvl :=
    key burgesGain burges_zero burges_nonneg (fun _ _ => burges_mono)
  obtain ⟨q1, _, q3, _⟩ := C18_ndcg_quotient q run k lvl
  refine ⟨h1, h2, fun h => ?_, fun h => ?_⟩
  · rw [q1 h, h1, div_self h]
  · rw [q3 h, h2, div_self h]

/-- **C18**: the reliance on the order of the judgements is real — on unsorted judgements the same
code returns an "ndcg" above 1 (here with discount `i+1` so that the kernel can compute it). -/
theorem C18_unsorted_qrels_exceed_one :
    ndcgCore id (fun i => (i + 1 : ℚ)) [((1 : Nat), 1), (2, 3)] [(2, 5), (1, 4)] 0 1 = 7 / 5 := by
  decide +kernel

/-- hypotheses of the C18 theorems on a concrete query -/
def exQr : Rows Nat ℝ := [(2, 3), (5, 2), (9, 1), (4, 0)]
def exRunr : Rows Nat ℝ := [(2, 9), (5, 8), (9, 6), (7, 1)]

example : (ids exQr).Nodup ∧ (ids exRunr).Nodup ∧ Spec.SortedByRelevance exQr := by
  refine ⟨by simp [exQr, ids], by simp [exRunr, ids], ?_⟩
  simp [exQr, Spec.SortedByRelevance]
  norm_num

/-! ## instances of the generic dcg statements -/

/-- **C23, C24, C26, C27, C29** for dcg and ndcg as the code computes them. -/
theorem C23_dcg (q run run' : Rows ι ℝ) (k : Nat) (hk : k ≠ 0) (lvl : ℝ)
    (h : (ids run).take k = (ids run').take k) :
    dcg q run k lvl = dcg q run' k lvl ∧ ndcg q run k lvl = ndcg q run' k lvl ∧
    dcgBurges q run k lvl = dcgBurges q run' k lvl ∧
    ndcgBurges q run k lvl = ndcgBurges q run' k lvl :=
  ⟨(C23_top_k_local_dcg jarvelinGain rfl _ q run run' k hk lvl h).1,
   (C23_top_k_local_dcg jarvelinGain rfl _ q run run' k hk lvl h).2,
   (C23_top_k_local_dcg burgesGain burges_zero _ q run run' k hk lvl h).1,
   (C23_top_k_local_dcg burgesGain burges_zero _ q run run' k hk lvl h).2⟩

theorem C24_dcg (q run : Rows ι ℝ) (lvl : ℝ) (hl : 0 ≤ lvl) {k k' : Nat}
    (h : k' = 0 ∨ (k ≠ 0 ∧ k ≤ k')) :
    dcg q run k lvl ≤ dcg q run k' lvl ∧ dcgBurges q run k lvl ≤ dcgBurges q run k' lvl :=
  ⟨C24_monotone_in_k_dcg jarvelinGain _ rfl (fun _ h => h) log2Disc_pos q run lvl hl h,
   C24_monotone_in_k_dcg burgesGain _ burges_zero burges_nonneg log2Disc_pos q run lvl hl h⟩

theorem C26_dcg (q a b : Rows ι ℝ) (x y x' y' : ι × ℝ) (k : Nat) (lvl : ℝ) (hl : 0 ≤ lvl)
    (hx : ¬ Spec.Rel q lvl x.1) (hy : Spec.Rel q lvl y.1) (ex : x'.1 = x.1) (ey : y'.1 = y.1) :
    dcg q (a ++ x :: y :: b) k lvl ≤ dcg q (a ++ y' :: x' :: b) k lvl ∧
    dcgBurges q (a ++ x :: y :: b) k lvl ≤ dcgBurges q (a ++ y' :: x' :: b) k lvl ∧
    (0 ≤ idcg q k lvl → ndcg q (a ++ x :: y :: b) k lvl ≤ ndcg q (a ++ y' :: x' :: b) k lvl) ∧
    (0 ≤ idcgBurges q k lvl →
      ndcgBurges q (a ++ x :: y :: b) k lvl ≤ ndcgBurges q (a ++ y' :: x' :: b) k lvl) := by
  have h1 : dcg q (a ++ x :: y :: b) k lvl ≤ dcg q (a ++ y' :: x' :: b) k lvl :=
    C26_swap_dcg jarvelinGain log2Disc rfl (fun _ h => h) log2Disc_pos log2Disc_mono q a b x y x' y'
      k lvl hl hx hy ex ey
  have h2 : dcgBurges q (a ++ x :: y :: b) k lvl ≤ dcgBurges q (a ++ y' :: x' :: b) k lvl :=
    C26_swap_dcg burgesGain log2Disc burges_zero burges_nonneg log2Disc_pos log2Disc_mono q a b x y
      x' y' k lvl hl hx hy ex ey
  refine ⟨h1, h2, fun h => ?_, fun h => ?_⟩
  · unfold ndcg ndcgCore
    apply div_le_div_of_nonneg_right h1
    split
    · exact zero_le_one
    · exact h
  · unfold ndcgBurges ndcgCore
    apply div_le_div_of_nonneg_right h2
    split
    · exact zero_le_one
    · exact h

theorem C27_dcg (q run : Rows ι ℝ) (k : Nat) (lvl : ℝ) (h : ∀ x ∈ ids run, ¬ Spec.Rel q lvl x) :
    dcg q run k lvl = 0 ∧ ndcg q run k lvl = 0 ∧ dcgBurges q run k lvl = 0 ∧
    ndcgBurges q run k lvl = 0 := by
  obtain ⟨h1, h2, _⟩ := C27_zero_graded jarvelinGain rfl log2Disc exactCutoff q run k 0 lvl h
  obtain ⟨h3, h4, _⟩ := C27_zero_graded burgesGain burges_zero log2Disc exactCutoff q run k 0 lvl h
  exact ⟨h1, h2, h3, h4⟩

theorem C29_dcg (q run : Rows ι ℝ) (hq : (ids q).Nodup) (k : Nat) {lvl lvl' : ℝ} (hl : 0 ≤ lvl)
    (h : lvl ≤ lvl') :
    dcg q run k lvl' ≤ dcg q run k lvl ∧ dcgBurges q run k lvl' ≤ dcgBurges q run k lvl :=
  ⟨(C29_antitone_level_graded jarvelinGain _ rfl (fun _ h => h) log2Disc_pos q run hq k hl h).1,
   (C29_antitone_level_graded burgesGain _ burges_zero burges_nonneg log2Disc_pos q run hq k hl h).1⟩

end
end Ranx
