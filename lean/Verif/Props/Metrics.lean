import Verif.Lemmas.MetricsSpec
import Mathlib.Tactic.FieldSimp
import Mathlib.Tactic.Linarith
import Mathlib.Tactic.Positivity
import Mathlib.Algebra.Order.Ring.Rat

/-!
# Properties C09 – C16, C22 – C24, C27, C29: binary metrics

`q` are the judgements and `run` the ranked results of one query as the kernels receive them.
`ids run` is the ranking.  Every theorem is for all arrays, cutoffs and levels.
-/

set_option linter.unusedSectionVars false

namespace Ranx
open Metrics
variable {ι α : Type*} [LinearOrder ι] [LinearOrder α] [Field α] [IsStrictOrderedRing α]

/-- the ranking: doc ids in the order of the run -/
abbrev ids (run : Rows ι α) : List ι := run.map Prod.fst

/-- **C09** -/
theorem C09_hits (q run : Rows ι α) (k : Nat) (lvl : α) :
    hits q run k lvl = ((Spec.hits (Spec.Rel q lvl) (ids run) k : Nat) : α) :=
  hits_eq q run k lvl

/-- **C10** -/
theorem C10_hit_rate (q run : Rows ι α) (k : Nat) (lvl : α) :
    ((∃ x ∈ Spec.top k (ids run), Spec.Rel q lvl x) → hitRate q run k lvl = 1) ∧
    ((∀ x ∈ Spec.top k (ids run), ¬ Spec.Rel q lvl x) → hitRate q run k lvl = 0) := by
  rw [hitRate_eq]
  constructor
  · rintro ⟨x, hx, hr⟩; rw [if_pos ⟨x, hx, look_clean_isSome.2 hr⟩]
  · intro h; rw [if_neg]; rintro ⟨x, hx, hr⟩; exact h x hx (look_clean_isSome.1 hr)

/-- **C11** -/
theorem C11_precision (q run : Rows ι α) (k : Nat) (lvl : α) :
    (k ≠ 0 → precision q run k lvl = (Spec.hits (Spec.Rel q lvl) (ids run) k : α) / (k : α)) ∧
    (run ≠ [] → precision q run 0 lvl =
      (Spec.hits (Spec.Rel q lvl) (ids run) 0 : α) / (run.length : α)) ∧
    (run = [] → precision q run 0 lvl = 0) := by
  refine ⟨?_, ?_, ?_⟩
  · intro h; rw [precision_eq]; unfold Spec.precision; rw [if_neg h]
  · intro _; rw [precision_eq]; unfold Spec.precision; simp
  · rintro rfl; simp [precision]

/-- **C12** -/
theorem C12_recall (q run : Rows ι α) (k : Nat) (lvl : α) :
    (Spec.numRel q lvl ≠ 0 → recall q run k lvl =
      (Spec.hits (Spec.Rel q lvl) (ids run) k : α) / (Spec.numRel q lvl : α)) ∧
    (Spec.numRel q lvl = 0 → recall q run k lvl = 0) := by
  rw [recall_eq]
  refine ⟨fun _ => rfl, fun h => ?_⟩
  unfold Spec.recall; rw [h]; simp

omit [IsStrictOrderedRing α] in
theorem f1_eq (q run : Rows ι α) (k : Nat) (lvl : α) :
    f1 q run k lvl =
      if precision q run k lvl + recall q run k lvl = 0 then 0
      else 2 * ((precision q run k lvl * recall q run k lvl) /
        (precision q run k lvl + recall q run k lvl)) := by
  unfold f1 precision recall
  simp only [hits_clean]
  by_cases h : (cleanQrels q lvl).length = 0
  · rw [if_pos h, if_pos h]; simp
  · rw [if_neg h, if_neg h]
    by_cases hk : (if k ≠ 0 then k else run.length) = 0
    · rw [if_pos hk, if_pos hk, if_pos hk, add_zero, if_pos rfl]
    · rw [if_neg hk, if_neg hk, if_neg hk]

theorem precision_nonneg (q run : Rows ι α) (k : Nat) (lvl : α) : 0 ≤ precision q run k lvl := by
  rw [precision_eq]; exact div_nonneg_nat _ _

theorem recall_nonneg (q run : Rows ι α) (k : Nat) (lvl : α) : 0 ≤ recall q run k lvl := by
  rw [recall_eq]; exact div_nonneg_nat _ _

/-- **C13** -/
theorem C13_f1 (q run : Rows ι α) (k : Nat) (lvl : α) :
    (precision q run k lvl + recall q run k lvl = 0 → f1 q run k lvl = 0) ∧
    (precision q run k lvl + recall q run k lvl ≠ 0 → f1 q run k lvl =
      2 * precision q run k lvl * recall q run k lvl /
        (precision q run k lvl + recall q run k lvl)) ∧
    (precision q run k lvl ≠ 0 → recall q run k lvl ≠ 0 →
      1 / f1 q run k lvl = (1 / precision q run k lvl + 1 / recall q run k lvl) / 2) ∧
    min (precision q run k lvl) (recall q run k lvl) ≤ f1 q run k lvl ∧
    f1 q run k lvl ≤ max (precision q run k lvl) (recall q run k lvl) := by
  have hP := precision_nonneg q run k lvl
  have hR := recall_nonneg q run k lvl
  rw [f1_eq]
  generalize precision q run k lvl = P at *
  generalize recall q run k lvl = R at *
  refine ⟨fun h => by rw [if_pos h], fun h => by rw [if_neg h]; ring, ?_, ?_, ?_⟩
  · intro h1 h2
    have : P + R ≠ 0 := by
      have : 0 < P := lt_of_le_of_ne hP (Ne.symm h1)
      exact (add_pos_of_pos_of_nonneg this hR).ne'
    rw [if_neg this]
    field_simp
    exact add_comm _ _
  · split
    · rename_i h
      have : P = 0 := by linarith
      rw [this, min_eq_left hR]
    · rename_i h
      have hpos : 0 < P + R := lt_of_le_of_ne (by linarith) (Ne.symm h)
      rw [show 2 * (P * R / (P + R)) = (2 * (P * R)) / (P + R) by ring, le_div_iff₀ hpos]
      rcases le_total P R with hl | hl
      · rw [min_eq_left hl]; nlinarith
      · rw [min_eq_right hl]; nlinarith
  · split
    · rename_i h
      exact le_max_of_le_left hP
    · rename_i h
      have hpos : 0 < P + R := lt_of_le_of_ne (by linarith) (Ne.symm h)
      rw [show 2 * (P * R / (P + R)) = (2 * (P * R)) / (P + R) by ring, div_le_iff₀ hpos]
      rcases le_total P R with hl | hl
      · rw [max_eq_right hl]; nlinarith
      · rw [max_eq_left hl]; nlinarith

omit [IsStrictOrderedRing α] in
theorem rPrecision_eq (q run : Rows ι α) (lvl : α) :
    rPrecision q run lvl =
      if Spec.numRel q lvl = 0 then 0 else precision q run (Spec.numRel q lvl) lvl := by
  unfold rPrecision
  rw [numRel_eq]
  by_cases h : (cleanQrels q lvl).length = 0
  · rw [if_pos h, if_pos h]
  · rw [if_neg h, if_neg h]
    unfold precision
    simp only [hits_clean]

/-- **C14** -/
theorem C14_r_precision (q run : Rows ι α) (lvl : α) :
    (Spec.numRel q lvl = 0 → rPrecision q run lvl = 0) ∧
    (Spec.numRel q lvl ≠ 0 → rPrecision q run lvl = precision q run (Spec.numRel q lvl) lvl ∧
      rPrecision q run lvl =
        (Spec.relIn (Spec.Rel q lvl) (ids run) (Spec.numRel q lvl) : α) / (Spec.numRel q lvl : α)) := by
  rw [rPrecision_eq]
  refine ⟨fun h => by rw [if_pos h], fun h => ?_⟩
  rw [if_neg h]
  refine ⟨rfl, ?_⟩
  rw [(C11_precision q run _ lvl).1 h]
  congr 2
  rw [hits_eq_relIn, top_length, if_neg h]
  rcases le_total (Spec.numRel q lvl) (ids run).length with hl | hl
  · rw [min_eq_left hl]
  · rw [min_eq_right hl, relIn_of_le _ hl]

/-- **C15** -/
theorem C15_reciprocal_rank (q run : Rows ι α) (k : Nat) (lvl : α) :
    Spec.IsReciprocalRank (Spec.Rel q lvl) (ids run) k (reciprocalRank q run k lvl) :=
  reciprocalRank_spec q run k lvl

/-- **C16** -/
theorem C16_average_precision (q run : Rows ι α) (k : Nat) (lvl : α) :
    (Spec.numRel q lvl ≠ 0 → averagePrecision q run k lvl =
      Spec.averagePrecision (Spec.Rel q lvl) (Spec.numRel q lvl) (ids run) k) ∧
    (Spec.numRel q lvl = 0 → averagePrecision q run k lvl = 0) := by
  refine ⟨fun _ => averagePrecision_eq q run k lvl, fun h => ?_⟩
  rw [averagePrecision_eq, h]
  simp [Spec.averagePrecision]

/-- **C16**: the summand `relIn … / (r+1)` of the definition is precision@(r+1) as computed by the
code's own precision function. -/
theorem C16_summand_is_precision (q run : Rows ι α) (lvl : α) (r : Nat)
    (hr : r < run.length) :
    (Spec.relIn (Spec.Rel q lvl) (ids run) (r + 1) : α) / ((r + 1 : Nat) : α) =
      precision q run (r + 1) lvl := by
  rw [(C11_precision q run (r+1) lvl).1 (Nat.succ_ne_zero _), hits_eq_relIn, top_length,
    if_neg (Nat.succ_ne_zero _), min_eq_left (by simpa using hr)]

/-! ## C22: ranges -/

theorem hits_le_numRel (q run : Rows ι α) (hrun : (ids run).Nodup) (k : Nat) (lvl : α) :
    Spec.hits (Spec.Rel q lvl) (ids run) k ≤ Spec.numRel q lvl := by
  rw [hits_eq_relIn]; exact relIn_le_numRel q lvl _ hrun _

theorem hitRate_bounds (q run : Rows ι α) (k : Nat) (lvl : α) :
    0 ≤ hitRate q run k lvl ∧ hitRate q run k lvl ≤ 1 := by
  rw [hitRate_eq]; split <;> simp

theorem precision_le_one (q run : Rows ι α) (k : Nat) (lvl : α) : precision q run k lvl ≤ 1 := by
  rw [precision_eq]
  apply div_le_one_of_nat
  refine (hits_le_top _ _ _).trans ?_
  rw [top_length]; split
  · exact le_rfl
  · exact min_le_left _ _

theorem recall_le_one (q run : Rows ι α) (hrun : (ids run).Nodup) (k : Nat) (lvl : α) :
    recall q run k lvl ≤ 1 := by
  rw [recall_eq]; exact div_le_one_of_nat (hits_le_numRel q run hrun k lvl)

/-- **C22**: the part of the ranges that needs no assumption on the run. -/
theorem C22_ranges_any_run (q run : Rows ι α) (k : Nat) (lvl : α) :
    (0 ≤ hits q run k lvl ∧ hits q run k lvl ≤ (run.length : α) ∧
      (k ≠ 0 → hits q run k lvl ≤ (k : α))) ∧
    (hitRate q run k lvl = 0 ∨ hitRate q run k lvl = 1) ∧
    (0 ≤ precision q run k lvl ∧ precision q run k lvl ≤ 1) ∧
    (0 ≤ rPrecision q run lvl ∧ rPrecision q run lvl ≤ 1) ∧
    (0 ≤ reciprocalRank q run k lvl ∧ reciprocalRank q run k lvl ≤ 1) := by
  refine ⟨⟨?_, ?_, ?_⟩, ?_, ⟨precision_nonneg _ _ _ _, precision_le_one _ _ _ _⟩, ?_,
    rr_bounds (reciprocalRank_spec q run k lvl)⟩
  · rw [hits_eq]; exact Nat.cast_nonneg _
  · rw [hits_eq]
    have := (hits_le_top (Spec.Rel q lvl) (ids run) k).trans (top_length_le _ _)
    rw [List.length_map] at this
    exact_mod_cast this
  · intro hk
    rw [hits_eq]
    have := hits_le_top (Spec.Rel q lvl) (ids run) k
    rw [top_length, if_neg hk] at this
    exact_mod_cast this.trans (min_le_left _ _)
  · rw [hitRate_eq]; split <;> simp
  · rw [rPrecision_eq]; split
    · simp
    · exact ⟨precision_nonneg _ _ _ _, precision_le_one _ _ _ _⟩

/-- **C22**: recall, f1 and average precision, for rankings without repeated docs. -/
theorem C22_ranges (q run : Rows ι α) (hrun : (ids run).Nodup) (k : Nat) (lvl : α) :
    (0 ≤ recall q run k lvl ∧ recall q run k lvl ≤ 1) ∧
    (0 ≤ f1 q run k lvl ∧ f1 q run k lvl ≤ 1) ∧
    (0 ≤ averagePrecision q run k lvl ∧ averagePrecision q run k lvl ≤ 1) := by
  have hR := recall_le_one q run hrun k lvl
  refine ⟨⟨recall_nonneg _ _ _ _, hR⟩, ⟨?_, ?_⟩, ?_⟩
  · exact (le_min (precision_nonneg _ _ _ _) (recall_nonneg _ _ _ _)).trans (C13_f1 q run k lvl).2.2.2.1
  · exact (C13_f1 q run k lvl).2.2.2.2.trans (max_le (precision_le_one _ _ _ _) hR)
  · rw [averagePrecision_eq]
    exact ap_bounds _ _ _ _ (fun n => relIn_le_numRel q lvl _ hrun n)

/-- The assumption is needed: a ranking that repeats a doc can have recall 2. -/
example : recall ([(7, 1)] : Rows Nat ℚ) [(7, 3), (7, 2)] 0 1 = 2 := by decide +kernel

/-! ## C23: locality -/

/-- **C23** -/
theorem C23_top_k_local (q run run' : Rows ι α) (k : Nat) (hk : k ≠ 0) (lvl : α)
    (h : (ids run).take k = (ids run').take k) :
    hits q run k lvl = hits q run' k lvl ∧
    hitRate q run k lvl = hitRate q run' k lvl ∧
    precision q run k lvl = precision q run' k lvl ∧
    recall q run k lvl = recall q run' k lvl ∧
    f1 q run k lvl = f1 q run' k lvl ∧
    reciprocalRank q run k lvl = reciprocalRank q run' k lvl ∧
    averagePrecision q run k lvl = averagePrecision q run' k lvl := by
  have ht : Spec.top k (ids run) = Spec.top k (ids run') := by
    unfold Spec.top; rw [if_neg hk, if_neg hk]; exact h
  have hh : Spec.hits (Spec.Rel q lvl) (ids run) k = Spec.hits (Spec.Rel q lvl) (ids run') k := by
    classical rw [hits_eq_countP, hits_eq_countP, ht]
  have hp : precision q run k lvl = precision q run' k lvl := by
    rw [precision_eq, precision_eq]; unfold Spec.precision; rw [hh, if_neg hk, if_neg hk]
  have hr : recall q run k lvl = recall q run' k lvl := by
    rw [recall_eq, recall_eq]; unfold Spec.recall; rw [hh]
  refine ⟨by rw [hits_eq, hits_eq, hh], by rw [hitRate_eq, hitRate_eq, ht], hp, hr,
    by rw [f1_eq, f1_eq, hp, hr], ?_, ?_⟩
  · apply rr_unique (reciprocalRank_spec q run k lvl)
    have := reciprocalRank_spec q run' k lvl
    unfold Spec.IsReciprocalRank at *
    rwa [ht]
  · rw [averagePrecision_eq, averagePrecision_eq]
    unfold Spec.averagePrecision
    congr 1
    rw [ht]
    apply Finset.sum_congr rfl
    intro r hr
    have hlen : r + 1 ≤ k := by
      have := Finset.mem_range.1 hr
      rw [top_length, if_neg hk] at this
      exact (lt_of_lt_of_le this (min_le_left _ _))
    have : Spec.relIn (Spec.Rel q lvl) (ids run) (r + 1) =
        Spec.relIn (Spec.Rel q lvl) (ids run') (r + 1) := by
      classical
      rw [relIn_eq_countP, relIn_eq_countP]
      have h2 := congrArg (List.take (r+1)) h
      rw [List.take_take, List.take_take, min_eq_left hlen] at h2
      rw [h2]
    rw [this]

/-! ## C24: monotone in k -/

/-- **C24**: raising the cutoff (0 = no cutoff) never lowers the score. -/
theorem C24_monotone_in_k (q run : Rows ι α) (lvl : α) {k k' : Nat}
    (h : k' = 0 ∨ (k ≠ 0 ∧ k ≤ k')) :
    hits q run k lvl ≤ hits q run k' lvl ∧
    hitRate q run k lvl ≤ hitRate q run k' lvl ∧
    recall q run k lvl ≤ recall q run k' lvl ∧
    reciprocalRank q run k lvl ≤ reciprocalRank q run k' lvl ∧
    averagePrecision q run k lvl ≤ averagePrecision q run k' lvl := by
  have hm : Spec.hits (Spec.Rel q lvl) (ids run) k ≤ Spec.hits (Spec.Rel q lvl) (ids run) k' :=
    hits_mono_k _ _ h
  have hpre : Spec.top k (ids run) <+: Spec.top k' (ids run) := top_prefix h _
  refine ⟨?_, ?_, ?_, ?_, ?_⟩
  · rw [hits_eq, hits_eq]; exact_mod_cast hm
  · rw [hitRate_eq, hitRate_eq]
    split
    · rename_i hx
      obtain ⟨x, hx, hr⟩ := hx
      rw [if_pos ⟨x, hpre.subset hx, hr⟩]
    · split <;> simp
  · rw [recall_eq, recall_eq]
    apply div_le_div_of_nonneg_right _ (Nat.cast_nonneg _)
    exact_mod_cast hm
  · rcases reciprocalRank_spec q run k lvl with ⟨r, x, h1, h2, _, h4⟩ | ⟨_, h0⟩
    · rw [h4]
      refine rr_ge (reciprocalRank_spec q run k' lvl) le_rfl (x := x) ?_ h2
      obtain ⟨t, ht⟩ := hpre
      rw [← ht, List.getElem?_append_left]
      · exact h1
      · exact (List.getElem?_eq_some_iff.1 h1).1
    · rw [h0]; exact (rr_bounds (reciprocalRank_spec q run k' lvl)).1
  · rw [averagePrecision_eq, averagePrecision_eq]; exact ap_mono_k _ _ _ h

/-- precision is not monotone in k -/
example : precision ([(7, 1)] : Rows Nat ℚ) [(7, 3), (8, 2)] 1 1 = 1 ∧
    precision ([(7, 1)] : Rows Nat ℚ) [(7, 3), (8, 2)] 2 1 = 1 / 2 := by decide +kernel

/-! ## C27: nothing relevant retrieved -/

/-- **C27** (binary metrics) -/
theorem C27_zero (q run : Rows ι α) (k : Nat) (lvl : α)
    (h : ∀ x ∈ ids run, ¬ Spec.Rel q lvl x) :
    hits q run k lvl = 0 ∧ hitRate q run k lvl = 0 ∧ precision q run k lvl = 0 ∧
    recall q run k lvl = 0 ∧ f1 q run k lvl = 0 ∧ rPrecision q run lvl = 0 ∧
    reciprocalRank q run k lvl = 0 ∧ averagePrecision q run k lvl = 0 := by
  have htop : ∀ k, ∀ x ∈ Spec.top k (ids run), ¬ Spec.Rel q lvl x := by
    intro k x hx
    apply h
    unfold Spec.top at hx; split at hx
    · exact hx
    · exact List.mem_of_mem_take hx
  have hz : ∀ k, Spec.hits (Spec.Rel q lvl) (ids run) k = 0 := fun k =>
    (hits_eq_zero_iff _ _ _).2 (htop k)
  have hp : ∀ k, precision q run k lvl = 0 := by
    intro k; rw [precision_eq]; unfold Spec.precision; rw [hz]; simp
  have hr : recall q run k lvl = 0 := by
    rw [recall_eq]; unfold Spec.recall; rw [hz]; simp
  refine ⟨by rw [hits_eq, hz]; simp, (C10_hit_rate q run k lvl).2 (htop k), hp k, hr, ?_, ?_, ?_, ?_⟩
  · rw [f1_eq, hp, hr]; simp
  · rw [rPrecision_eq]; split
    · rfl
    · exact hp _
  · rcases reciprocalRank_spec q run k lvl with ⟨r, x, h1, h2, _, _⟩ | ⟨_, h0⟩
    · exact absurd h2 (htop k x (List.mem_of_getElem? h1))
    · exact h0
  · rw [averagePrecision_eq]
    unfold Spec.averagePrecision
    rw [Finset.sum_eq_zero]
    · simp
    · intro r _
      rw [if_neg]
      rintro ⟨x, hx, hr⟩
      exact htop k x (List.mem_of_getElem? hx) hr

/-! ## C29: antitone in the relevance level -/

/-- **C29** (binary metrics): hits, hit_rate, precision, mrr never rise with the level. -/
theorem C29_antitone_level (q run : Rows ι α) (k : Nat) {lvl lvl' : α} (h : lvl ≤ lvl') :
    hits q run k lvl' ≤ hits q run k lvl ∧
    hitRate q run k lvl' ≤ hitRate q run k lvl ∧
    precision q run k lvl' ≤ precision q run k lvl ∧
    reciprocalRank q run k lvl' ≤ reciprocalRank q run k lvl := by
  have hrel : ∀ x, Spec.Rel q lvl' x → Spec.Rel q lvl x := fun x ⟨v, hv, hl⟩ => ⟨v, hv, h.trans hl⟩
  have hm := hits_mono_rel hrel (ids run) k
  refine ⟨?_, ?_, ?_, ?_⟩
  · rw [hits_eq, hits_eq]; exact_mod_cast hm
  · by_cases hx : ∃ x ∈ Spec.top k (ids run), Spec.Rel q lvl' x
    · rw [(C10_hit_rate q run k lvl').1 hx]
      obtain ⟨x, hx, hr⟩ := hx
      rw [(C10_hit_rate q run k lvl).1 ⟨x, hx, hrel x hr⟩]
    · rw [(C10_hit_rate q run k lvl').2 (fun x hx' hr => hx ⟨x, hx', hr⟩)]
      exact (hitRate_bounds _ _ _ _).1
  · rw [precision_eq, precision_eq]
    apply div_le_div_of_nonneg_right _ (Nat.cast_nonneg _)
    exact_mod_cast hm
  · rcases reciprocalRank_spec q run k lvl' with ⟨r, x, h1, h2, _, h4⟩ | ⟨_, h0⟩
    · rw [h4]
      exact rr_ge (reciprocalRank_spec q run k lvl) le_rfl h1 (hrel x h2)
    · rw [h0]; exact (rr_bounds (reciprocalRank_spec q run k lvl)).1

/-- recall can rise with the level (fewer docs count as relevant) -/
example : recall ([(7, 2), (8, 1)] : Rows Nat ℚ) [(7, 3)] 0 1 = 1 / 2 ∧
    recall ([(7, 2), (8, 1)] : Rows Nat ℚ) [(7, 3)] 0 2 = 1 := by decide +kernel

/-! ## Non-vacuity: the kernels on a concrete query -/

/-- judgements and a ranking used in the examples below: relevant docs 2, 5 and (weakly) 9 -/
def exQ : Rows Nat ℚ := [(2, 3), (4, 0), (5, 2), (9, 1)]
def exRun : Rows Nat ℚ := [(4, 9), (2, 8), (7, 6), (5, 5), (1, 1)]

example : (ids exRun).Nodup ∧ hits exQ exRun 0 1 = 2 ∧ hits exQ exRun 3 1 = 1 ∧
    hits exQ exRun 0 3 = 1 ∧ hitRate exQ exRun 1 1 = 0 ∧ hitRate exQ exRun 2 1 = 1 ∧
    precision exQ exRun 10 1 = 1 / 5 ∧ precision exQ exRun 0 1 = 2 / 5 ∧
    recall exQ exRun 4 1 = 2 / 3 ∧ f1 exQ exRun 5 1 = 1 / 2 ∧ rPrecision exQ exRun 1 = 1 / 3 ∧
    reciprocalRank exQ exRun 0 1 = 1 / 2 ∧ averagePrecision exQ exRun 0 1 = 1 / 3 := by
  decide +kernel

end Ranx
