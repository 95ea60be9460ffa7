import Verif.Model.Plot
import Verif.Lemmas.Metrics2
import Verif.Props.Metrics
import Verif.Model.Store
import Mathlib.Algebra.Order.Archimedean.Basic

/-!
# Properties C06, C19 – C21, C25, C26, C28 and the remaining parts of C23, C24, C27, C29
-/

set_option linter.unusedSectionVars false

namespace Ranx
open Metrics Finset
variable {ι α : Type*} [LinearOrder ι] [LinearOrder α] [Field α] [IsStrictOrderedRing α]

/-! ## C19: rank-biased precision -/

/-- the grades used by the code are the judged relevance, 0 for unjudged docs and docs below the level -/
theorem grade_eq {q : Rows ι α} (hq : (ids q).Nodup) {lvl : α} {g : ι → α}
    (hg : Spec.IsGrade q lvl g) : gradeFn q lvl = g :=
  grade_unique (gradeFn_isGrade hq lvl) hg

/-- **C19** (formula): for every grade assignment `g` that agrees with the judgements. -/
theorem C19_rbp (q run : Rows ι α) (hq : (ids q).Nodup) (p lvl : α) (g : ι → α)
    (hg : Spec.IsGrade q lvl g) :
    rbp q run p lvl = Spec.rbp g p (ids run) := by
  rw [rbp_eq, grade_eq hq hg]

theorem geom_partial (p : α) (n : Nat) : (1 - p) * ∑ i ∈ range n, p ^ i = 1 - p ^ n := by
  induction n with
  | zero => simp
  | succ n ih => rw [Finset.sum_range_succ, mul_add, ih]; ring

/-- **C19** (range): judgements at most 1, persistence in `[0,1)`, level ≥ 0. -/
theorem C19_rbp_range (q run : Rows ι α) (p lvl : α) (hp : 0 < p) (hp1 : p < 1) (hl : 0 ≤ lvl)
    (hb : ∀ r ∈ q, r.2 ≤ 1) : 0 ≤ rbp q run p lvl ∧ rbp q run p lvl < 1 := by
  rw [rbp_eq]
  unfold Spec.rbp
  have hg : ∀ x, 0 ≤ gradeFn q lvl x ∧ gradeFn q lvl x ≤ 1 := by
    intro x
    by_cases hx : Spec.Rel q lvl x
    · obtain ⟨h1, h2⟩ := gradeFn_of_rel hx
      exact ⟨hl.trans h2, hb _ h1⟩
    · rw [gradeFn_of_not_rel hx]; simp
  have ht : ∀ i : Nat, 0 ≤ Spec.gainAt (gradeFn q lvl) (ids run) i ∧
      Spec.gainAt (gradeFn q lvl) (ids run) i ≤ 1 := by
    intro i
    unfold Spec.gainAt
    cases (ids run)[i]? with
    | none => simp
    | some x => exact hg x
  have h1p : 0 < 1 - p := by linarith
  constructor
  · apply mul_nonneg h1p.le
    apply Finset.sum_nonneg
    intro i _
    exact mul_nonneg (ht i).1 (pow_nonneg hp.le _)
  · calc _ ≤ (1 - p) * ∑ i ∈ range (ids run).length, p ^ i := by
          apply mul_le_mul_of_nonneg_left _ h1p.le
          apply Finset.sum_le_sum
          intro i _
          calc _ ≤ 1 * p ^ i := mul_le_mul_of_nonneg_right (ht i).2 (pow_nonneg hp.le _)
            _ = p ^ i := one_mul _
      _ = 1 - p ^ (ids run).length := geom_partial p _
      _ < 1 := by have := pow_pos hp (ids run).length; linarith

/-- **C19**: graded judgements are used as weights, so the score can exceed 1. -/
theorem C19_graded_exceeds_one :
    rbp ([(1, 3)] : Rows Nat ℚ) [(1, 7)] (1 / 2) 1 = 3 / 2 := by decide +kernel

example : rbp ([(1, 1), (2, 0), (3, 1)] : Rows Nat ℚ) [(3, 7), (2, 6), (1, 5)] (1 / 2) 1 = 5 / 8 := by
  decide +kernel

/-! ## C20: bpref -/

/-- **C20** (value): with at least one relevant and one judged non-relevant doc. -/
theorem C20_bpref (q run : Rows ι α) (lvl : α) (hR : Spec.numRel q lvl ≠ 0)
    (hN : Spec.numNonRel q lvl ≠ 0) :
    bpref q run lvl = .ok (.val (Spec.bpref (Spec.Rel q lvl) (Spec.NonRel q lvl)
      (Spec.numRel q lvl) (Spec.numNonRel q lvl) (ids run))) := by
  rw [bpref_eq, if_neg hR, if_neg]
  omega

/-- **C20** (undefined cases): no relevant doc raises ZeroDivisionError; no judged non-relevant doc
gives NaN as soon as a relevant doc is retrieved, 0 otherwise. -/
theorem C20_bpref_undefined (q run : Rows ι α) (lvl : α) :
    (Spec.numRel q lvl = 0 → bpref q run lvl = .error .zeroDivision) ∧
    (Spec.numRel q lvl ≠ 0 → Spec.numNonRel q lvl = 0 →
      ((∃ x ∈ ids run, Spec.Rel q lvl x) → bpref q run lvl = .ok .nan) ∧
      ((∀ x ∈ ids run, ¬ Spec.Rel q lvl x) → bpref q run lvl = .ok (.val 0))) := by
  rw [bpref_eq]
  refine ⟨fun h => by rw [if_pos h], fun h h0 => ⟨?_, ?_⟩⟩
  · rintro ⟨x, hx, hr⟩
    rw [if_neg h, if_pos (by omega), if_neg]
    intro hc
    exact hc x hx (look_clean_isSome.2 hr)
  · intro hz
    rw [if_neg h, if_pos (by omega), if_pos]
    intro x hx hc
    exact hz x hx (look_clean_isSome.1 hc)

/-- **C20** (range) for rankings without repeated docs. -/
theorem C20_bpref_range (q run : Rows ι α) (lvl : α) (hrun : (ids run).Nodup) {v : α}
    (h : bpref q run lvl = .ok (.val v)) : 0 ≤ v ∧ v ≤ 1 := by
  classical
  by_cases hR : Spec.numRel q lvl = 0
  · rw [(C20_bpref_undefined q run lvl).1 hR] at h; cases h
  by_cases hN : Spec.numNonRel q lvl = 0
  · by_cases hx : ∃ x ∈ ids run, Spec.Rel q lvl x
    · rw [((C20_bpref_undefined q run lvl).2 hR hN).1 hx] at h; cases h
    · rw [((C20_bpref_undefined q run lvl).2 hR hN).2 (fun x hx' hr => hx ⟨x, hx', hr⟩)] at h
      cases h; simp
  rw [C20_bpref q run lvl hR hN] at h
  cases h
  unfold Spec.bpref
  have hterm : ∀ r, 0 ≤ (1 : α) - ((min (Spec.relIn (Spec.NonRel q lvl) (ids run) r)
      (Spec.numRel q lvl) : Nat) : α) / ((min (Spec.numRel q lvl) (Spec.numNonRel q lvl) : Nat) : α) := by
    intro r
    rw [sub_nonneg]
    apply div_le_one_of_nat
    have hle : Spec.relIn (Spec.NonRel q lvl) (ids run) r ≤ Spec.numNonRel q lvl := by
      have : Spec.numNonRel q lvl = (q.filter (fun r => decide (r.2 < lvl))).length := by
        unfold Spec.numNonRel; congr!
      rw [this]
      apply count_le_rows q _ _ _ hrun
      rintro x ⟨⟨v, hv⟩, hn⟩
      refine ⟨v, hv, ?_⟩
      simp only [decide_eq_true_eq]
      exact not_le.1 (fun hc => hn ⟨v, hv, hc⟩)
    omega
  constructor
  · apply div_nonneg _ (Nat.cast_nonneg _)
    apply Finset.sum_nonneg
    intro r _
    split
    · exact hterm r
    · exact le_rfl
  · apply div_le_one_of_le₀ _ (Nat.cast_nonneg _)
    calc _ ≤ ∑ r ∈ range (ids run).length, (ind (Spec.Rel q lvl) (ids run) r : α) := by
          apply Finset.sum_le_sum
          intro r _
          unfold ind
          split
          · have := div_nonneg_nat (α := α) (min (Spec.relIn (Spec.NonRel q lvl) (ids run) r)
              (Spec.numRel q lvl)) (min (Spec.numRel q lvl) (Spec.numNonRel q lvl))
            linarith
          · exact le_rfl
      _ = (Spec.relIn (Spec.Rel q lvl) (ids run) (ids run).length : α) := (relIn_eq_sum _ _ _).symm
      _ ≤ (Spec.numRel q lvl : α) := by exact_mod_cast relIn_le_numRel q lvl _ hrun _

/-- **C20**: unjudged docs are ignored — inserting one anywhere changes nothing. -/
theorem C20_ignores_unjudged (q a b : Rows ι α) (r : ι × α) (lvl : α) (hr : ¬ Spec.Judged q r.1) :
    bpref q (a ++ r :: b) lvl = bpref q (a ++ b) lvl := by
  have hl : look q r.1 = none := by
    rw [← Option.not_isSome_iff_eq_none, look_isSome]; exact hr
  have key : ∀ run : Rows ι α, ((List.zip (getHitList q run 0 lvl) (getUnjudgedList q run 0)).filter
      (fun x => decide (x.2 ≠ 1))).map Prod.fst =
      judgedHits (fun x => (look (cleanQrels q lvl) x).isSome) (fun x => (look q x).isSome)
        (run.map Prod.fst) := by
    intro run
    rw [getHitList_eq, getUnjudgedList_eq]
    simp only [Spec.top, if_pos]
    rfl
  have hap : ∀ (rel jud : ι → Bool) (a b : List ι), (judgedHits rel jud (a ++ b) : List α) =
      judgedHits rel jud a ++ judgedHits rel jud b := by
    intro rel jud a b
    induction a with
    | nil => simp [judgedHits]
    | cons x t ih => rw [List.cons_append, judgedHits_cons, judgedHits_cons, ih]; split <;> rfl
  unfold bpref
  simp only [key, List.map_append, List.map_cons, hap, judgedHits_cons, hl, Option.isSome_none,
    Bool.false_eq_true, if_false]

example : bpref exQ exRun 1 = .ok (.val 0) ∧
    bpref exQ [(2, 9), (7, 8), (5, 7), (4, 6), (9, 5)] (1 : ℚ) = .ok (.val (2 / 3)) ∧
    bpref ([(2, 1)] : Rows Nat ℚ) [(2, 1)] 1 = .ok .nan ∧
    bpref ([(2, 0)] : Rows Nat ℚ) [(2, 1)] 1 = .error .zeroDivision := by decide +kernel

/-! ## C21: interpolated precision -/

theorem exactCutoff_spec (i R c : Nat) : exactCutoff i R ≤ c ↔ i * R ≤ 10 * c := by
  unfold exactCutoff; omega

/-- **C21** (value): for any rounding of the cutoffs, entry `i` is the best precision at a rank that
has retrieved the required number of relevant docs. -/
theorem C21_interpolated (cutoff : Nat → Nat → Nat) (q run : Rows ι α) (lvl : α) (i : Nat)
    (hi : i < 11) :
    ∃ v, (interpolatedPrecision cutoff q run lvl)[i]? = some v ∧
      (Spec.numRel q lvl ≠ 0 →
        Spec.IsInterpolated (Spec.Rel q lvl) (ids run) (cutoff i (Spec.numRel q lvl)) v) ∧
      (Spec.numRel q lvl = 0 → v = 0) :=
  interpolated_spec cutoff q run lvl i hi

theorem interpolated_exact_model (q run : Rows ι α) (lvl : α) (i : Nat) (hi : i < 11)
    (hR : Spec.numRel q lvl ≠ 0) :
    ∃ v, (interpolatedPrecision exactCutoff q run lvl)[i]? = some v ∧
      ((∃ m, 1 ≤ m ∧ m ≤ run.length ∧ (i : α) / 10 ≤ recall q run m lvl ∧ v = precision q run m lvl ∧
          ∀ m', 1 ≤ m' → m' ≤ run.length → (i : α) / 10 ≤ recall q run m' lvl →
            precision q run m' lvl ≤ v) ∨
        ((∀ m, 1 ≤ m → m ≤ run.length → recall q run m lvl < (i : α) / 10) ∧ v = 0)) := by
  obtain ⟨v, h1, h2, _⟩ := C21_interpolated exactCutoff q run lvl i hi
  refine ⟨v, h1, ?_⟩
  have hrel : ∀ m, 1 ≤ m → m ≤ run.length →
      ((i : α) / 10 ≤ recall q run m lvl ↔
        exactCutoff i (Spec.numRel q lvl) ≤ Spec.relIn (Spec.Rel q lvl) (ids run) m) ∧
      precision q run m lvl = (Spec.relIn (Spec.Rel q lvl) (ids run) m : α) / (m : α) := by
    intro m hm hle
    have hh : Spec.hits (Spec.Rel q lvl) (ids run) m = Spec.relIn (Spec.Rel q lvl) (ids run) m := by
      rw [hits_eq_relIn, top_length, if_neg (by omega), min_eq_left (by simpa using hle)]
    have hRp : (0 : α) < (Spec.numRel q lvl : α) := by exact_mod_cast Nat.pos_of_ne_zero hR
    constructor
    · rw [(C12_recall q run m lvl).1 hR, hh, exactCutoff_spec,
        div_le_div_iff₀ (by norm_num) hRp]
      have h3 : ((i : α) * (Spec.numRel q lvl : α) ≤
          (Spec.relIn (Spec.Rel q lvl) (ids run) m : α) * 10) ↔
          i * Spec.numRel q lvl ≤ Spec.relIn (Spec.Rel q lvl) (ids run) m * 10 := by
        rw [← Nat.cast_le (α := α)]; push_cast; rfl
      rw [h3, Nat.mul_comm 10]
    · rw [(C11_precision q run m lvl).1 (by omega), hh]
  have hlen : (ids run).length = run.length := List.length_map _
  rcases h2 hR with ⟨⟨m, m1, m2, m3, m4⟩, hmax⟩ | ⟨hno, hv⟩
  · rw [hlen] at m2 hmax
    left
    refine ⟨m, m1, m2, (hrel m m1 m2).1.2 m3, by rw [m4, (hrel m m1 m2).2], ?_⟩
    intro m' h1' h2' h3'
    rw [(hrel m' h1' h2').2]
    exact hmax m' h1' h2' ((hrel m' h1' h2').1.1 h3')
  · rw [hlen] at hno
    right
    refine ⟨fun m h1' h2' => not_le.1 (fun hc => hno m h1' h2' ((hrel m h1' h2').1.1 hc)), hv⟩

/-- Specification: `v` is the greatest precision over the ranks of `ids` whose recall is at least `level` (`R` docs are
relevant), and 0 if there is no such rank. -/
def Spec.GreatestPrecision (rel : ι → Prop) (R : Nat) (ids : List ι) (level v : α) : Prop :=
  (∃ m, 1 ≤ m ∧ m ≤ ids.length ∧ level ≤ Spec.recall rel R ids m ∧ v = Spec.precision rel ids m ∧
    ∀ m', 1 ≤ m' → m' ≤ ids.length → level ≤ Spec.recall rel R ids m' → Spec.precision rel ids m' ≤ v) ∨
  ((∀ m, 1 ≤ m → m ≤ ids.length → Spec.recall rel R ids m < level) ∧ v = 0)

/-- **C21** (exact cutoffs): entry `i` is the greatest precision over ranks with recall ≥ i/10. -/
theorem C21_interpolated_exact (q run : Rows ι α) (lvl : α) (i : Nat) (hi : i < 11)
    (hR : Spec.numRel q lvl ≠ 0) :
    ∃ v, (interpolatedPrecision exactCutoff q run lvl)[i]? = some v ∧
      Spec.GreatestPrecision (Spec.Rel q lvl) (Spec.numRel q lvl) (run.map Prod.fst) ((i : α) / 10) v := by
  obtain ⟨v, h1, h2⟩ := interpolated_exact_model q run lvl i hi hR
  simp only [recall_eq, precision_eq] at h2
  refine ⟨v, h1, ?_⟩
  unfold Spec.GreatestPrecision
  rw [List.length_map]
  exact h2

theorem interpolated_bounds {rel : ι → Prop} {l : List ι} {c : Nat} {v : α}
    (h : Spec.IsInterpolated rel l c v) : 0 ≤ v ∧ v ≤ 1 := by
  rcases h with ⟨⟨m, _, _, _, rfl⟩, _⟩ | ⟨_, rfl⟩
  · exact ⟨div_nonneg_nat _ _, div_le_one_of_nat (relIn_le _ _ _)⟩
  · simp

theorem interpolated_antitone {rel : ι → Prop} {l : List ι} {c c' : Nat} {v v' : α}
    (h : Spec.IsInterpolated rel l c v) (h' : Spec.IsInterpolated rel l c' v') (hc : c ≤ c') :
    v' ≤ v := by
  rcases h' with ⟨⟨m, h1, h2, h3, rfl⟩, _⟩ | ⟨_, rfl⟩
  · rcases h with ⟨_, hmax⟩ | ⟨hno, _⟩
    · exact hmax m h1 h2 (hc.trans h3)
    · exact absurd (hc.trans h3) (hno m h1 h2)
  · exact (interpolated_bounds h).1

/-- **C21** (shape): eleven values in [0,1], non-increasing whenever the cutoffs are non-decreasing
in the recall level (true of the exact ones and, by monotonicity of rounding, of the float ones). -/
theorem C21_shape (cutoff : Nat → Nat → Nat) (hmono : ∀ R i j, i ≤ j → cutoff i R ≤ cutoff j R)
    (q run : Rows ι α) (lvl : α) :
    (interpolatedPrecision cutoff q run lvl).length = 11 ∧
    ∀ (i j : Nat) (v w : α), i ≤ j → (interpolatedPrecision cutoff q run lvl)[i]? = some v →
      (interpolatedPrecision cutoff q run lvl)[j]? = some w → 0 ≤ w ∧ w ≤ v ∧ v ≤ 1 := by
  have hlen : (interpolatedPrecision cutoff q run lvl).length = 11 := by
    unfold interpolatedPrecision; simp only; split <;> simp
  refine ⟨hlen, ?_⟩
  intro i j v w hij hv hw
  have hj : j < 11 := by rw [← hlen]; exact (List.getElem?_eq_some_iff.1 hw).1
  obtain ⟨v', h1, h2, h3⟩ := C21_interpolated cutoff q run lvl i (by omega)
  obtain ⟨w', g1, g2, g3⟩ := C21_interpolated cutoff q run lvl j hj
  rw [hv] at h1; cases h1
  rw [hw] at g1; cases g1
  by_cases hR : Spec.numRel q lvl = 0
  · rw [h3 hR, g3 hR]; simp
  · exact ⟨(interpolated_bounds (g2 hR)).1, interpolated_antitone (h2 hR) (g2 hR) (hmono _ _ _ hij),
      (interpolated_bounds (h2 hR)).2⟩

example : (∀ R i j, i ≤ j → exactCutoff i R ≤ exactCutoff j R) := by
  intro R i j h
  unfold exactCutoff
  exact Nat.div_le_div_right (Nat.add_le_add_right (Nat.mul_le_mul_right _ h) _)

example : interpolatedPrecision exactCutoff exQ exRun 1 =
    [1/2, 1/2, 1/2, 1/2, 1/2, 1/2, 1/2, 0, 0, 0, 0] := by decide +kernel

/-! ## C25: doc ids only matter up to injective renaming -/

section relabel
variable {ι' : Type*} [LinearOrder ι']

/-- **C25**: `f` renames the docs (e.g. another hash function); it has to be injective only on the
docs of the query at hand, and need not respect the order used by the id prefilter. -/
theorem C25_relabel (q run : Rows ι α) (f : ι → ι')
    (hf : Set.InjOn f {x | x ∈ ids q ∨ x ∈ ids run}) (k : Nat) (p lvl : α)
    (gain : α → α) (disc : Nat → α) (cutoff : Nat → Nat → Nat) :
    hits (rename f q) (rename f run) k lvl = hits q run k lvl ∧
    hitRate (rename f q) (rename f run) k lvl = hitRate q run k lvl ∧
    precision (rename f q) (rename f run) k lvl = precision q run k lvl ∧
    recall (rename f q) (rename f run) k lvl = recall q run k lvl ∧
    f1 (rename f q) (rename f run) k lvl = f1 q run k lvl ∧
    rPrecision (rename f q) (rename f run) lvl = rPrecision q run lvl ∧
    reciprocalRank (rename f q) (rename f run) k lvl = reciprocalRank q run k lvl ∧
    averagePrecision (rename f q) (rename f run) k lvl = averagePrecision q run k lvl ∧
    dcgCore gain disc (rename f q) (rename f run) k lvl = dcgCore gain disc q run k lvl ∧
    ndcgCore gain disc (rename f q) (rename f run) k lvl = ndcgCore gain disc q run k lvl ∧
    rbp (rename f q) (rename f run) p lvl = rbp q run p lvl ∧
    bpref (rename f q) (rename f run) lvl = bpref q run lvl ∧
    interpolatedPrecision cutoff (rename f q) (rename f run) lvl =
      interpolatedPrecision cutoff q run lvl ∧
    getHitList (rename f q) (rename f run) k lvl = getHitList q run k lvl ∧
    getUnjudgedList (rename f q) (rename f run) k = getUnjudgedList q run k ∧
    getNonRelList (rename f q) (rename f run) k = getNonRelList q run k := by
  -- looking up a renamed doc in any part of the renamed judgements
  have hlook : ∀ (q' run' : Rows ι α), (∀ x ∈ q', x ∈ q) →
      (∀ x ∈ ids run', x ∈ ids q ∨ x ∈ ids run) → ∀ x ∈ run',
      look (rename f q') (f x.1) = look q' x.1 := by
    intro q' run' hq' hr' x hx
    apply look_rename
    intro y hy he
    obtain ⟨r, hr, rfl⟩ := List.mem_map.1 hy
    exact hf (hr' x.1 (List.mem_map_of_mem hx)) (Or.inl (List.mem_map_of_mem (hq' r hr))) he
  have hclean : ∀ l, ∀ x ∈ cleanQrels q l, x ∈ q := fun l x hx => (List.mem_filter.1 hx).1
  have hrunids : ∀ x ∈ ids run, x ∈ ids q ∨ x ∈ ids run := fun x hx => Or.inr hx
  have hqids : ∀ x ∈ ids q, x ∈ ids q ∨ x ∈ ids run := fun x hx => Or.inl hx
  -- renamed passes over the rows
  have hmap : ∀ (q' run' : Rows ι α) (g : Option α → α) (n : Nat), (∀ x ∈ q', x ∈ q) →
      (∀ x ∈ ids run', x ∈ ids q ∨ x ∈ ids run) →
      ((rename f run').take n).map (fun r => g (look (rename f q') r.1)) =
        (run'.take n).map (fun r => g (look q' r.1)) := by
    intro q' run' g n hq' hr'
    rw [take_rename]
    unfold rename
    rw [List.map_map]
    apply List.map_congr_left
    intro x hx
    simp only [Function.comp_apply]
    have := hlook q' run' hq' hr' x (List.mem_of_mem_take hx)
    unfold rename at this
    rw [this]
  have hmapB : ∀ (q' run' : Rows ι α) (g : Option α → Bool) (n : Nat), (∀ x ∈ q', x ∈ q) →
      (∀ x ∈ ids run', x ∈ ids q ∨ x ∈ ids run) →
      ((rename f run').take n).map (fun r => g (look (rename f q') r.1)) =
        (run'.take n).map (fun r => g (look q' r.1)) := by
    intro q' run' g n hq' hr'
    rw [take_rename]
    unfold rename
    rw [List.map_map]
    apply List.map_congr_left
    intro x hx
    simp only [Function.comp_apply]
    have := hlook q' run' hq' hr' x (List.mem_of_mem_take hx)
    unfold rename at this
    rw [this]
  have hcleanlen : ∀ l, (cleanQrels (rename f q) l).length = (cleanQrels q l).length := by
    intro l; rw [clean_rename, rename_length]
  have hhits : ∀ k, hits (rename f q) (rename f run) k lvl = hits q run k lvl := by
    intro k
    unfold hits
    simp only [hcleanlen, fixK_rename]
    split
    · rfl
    · rw [foldl_count, foldl_count]
      congr 2
      have := congrArg (List.countP id) (hmapB (cleanQrels q lvl) run Option.isSome
        (fixK k run) (hclean lvl) hrunids)
      rw [← clean_rename] at this
      simpa only [List.countP_map, Function.comp_def, id] using this
  have hhl : ∀ n, hitList (cleanQrels (rename f q) lvl) (rename f run) n =
      hitList (cleanQrels q lvl) run n := by
    intro n
    unfold hitList
    rw [clean_rename]
    exact hmap (cleanQrels q lvl) run (fun o => if o.isSome then 1 else 0) n (hclean lvl) hrunids
  have hwl : ∀ (run' : Rows ι α) n, (∀ x ∈ ids run', x ∈ ids q ∨ x ∈ ids run) →
      weightedHitList (cleanQrels (rename f q) lvl) (rename f run') n =
      weightedHitList (cleanQrels q lvl) run' n := by
    intro run' n hr'
    unfold weightedHitList
    rw [clean_rename]
    exact hmap (cleanQrels q lvl) run' (fun o => o.getD 0) n (hclean lvl) hr'
  have hprec : ∀ k, precision (rename f q) (rename f run) k lvl = precision q run k lvl := by
    intro k; unfold precision; simp only [hhits, rename_length]
  have hrec : recall (rename f q) (rename f run) k lvl = recall q run k lvl := by
    unfold recall
    simp only [hits_clean, hhits, rename_length, hcleanlen]
  have hdcg : ∀ (run' : Rows ι α), (∀ x ∈ ids run', x ∈ ids q ∨ x ∈ ids run) →
      dcgCore gain disc (rename f q) (rename f run') k lvl = dcgCore gain disc q run' k lvl := by
    intro run' hr'
    unfold dcgCore
    simp only [hcleanlen, fixK_rename, hwl run' _ hr']
  have hhl2 : ∀ k, getHitList (rename f q) (rename f run) k lvl = getHitList q run k lvl := by
    intro k
    unfold getHitList
    simp only [hcleanlen, fixK_rename, hhl]
  have hul : ∀ k, getUnjudgedList (rename f q) (rename f run) k = getUnjudgedList q run k := by
    intro k
    unfold getUnjudgedList
    simp only [rename_length, fixK_rename]
    split
    · rfl
    · exact hmap q run (fun o => if o.isSome then 0 else 1) _ (fun x hx => hx) hrunids
  refine ⟨hhits k, ?_, hprec k, hrec, by rw [f1_eq, f1_eq, hprec, hrec], ?_, ?_, ?_,
    hdcg run hrunids, ?_, ?_, ?_, ?_, hhl2 k, hul k, ?_⟩
  · rw [hitRate_eq, hitRate_eq]
    refine if_congr ?_ rfl rfl
    rw [← take_fixK, ← take_fixK, fixK_rename]
    have := congrArg (List.any · id) (hmapB (cleanQrels q lvl) run Option.isSome
        (fixK k run) (hclean lvl) hrunids)
    rw [← clean_rename, Bool.eq_iff_iff] at this
    simpa only [List.any_map, List.any_eq_true, Function.comp_def, id, List.mem_map,
      exists_exists_and_eq_and] using this
  · rw [rPrecision_eq, rPrecision_eq, numRel_eq, numRel_eq, hcleanlen, hprec]
  · unfold reciprocalRank
    simp only [hcleanlen, fixK_rename, take_rename]
    split
    · rfl
    · generalize hl : run.take (fixK k run) = l
      have hsub : ∀ x ∈ l, x ∈ run := by rw [← hl]; exact fun x hx => List.mem_of_mem_take hx
      suffices H : ∀ i, rrLoop (cleanQrels (rename f q) lvl) (rename f l) i =
          rrLoop (cleanQrels q lvl) l i from H 0
      clear hl
      induction l with
      | nil => intro i; rfl
      | cons r t ih =>
        intro i
        show rrLoop _ ((f r.1, r.2) :: rename f t) i = rrLoop _ (r :: t) i
        unfold rrLoop
        have hiff : f r.1 ∈ (cleanQrels (rename f q) lvl).map Prod.fst ↔
            r.1 ∈ (cleanQrels q lvl).map Prod.fst := by
          rw [clean_rename, ← scan_isSome, ← scan_isSome, ← look_eq_scan, ← look_eq_scan,
            hlook (cleanQrels q lvl) run (hclean lvl) hrunids r (hsub r (by simp))]
        refine if_congr hiff rfl ?_
        exact ih (fun x hx => hsub x (List.mem_cons_of_mem _ hx)) _
  · unfold averagePrecision
    simp only [hcleanlen, fixK_rename, hhl]
  · unfold ndcgCore idcgCore
    rw [hdcg run hrunids, hdcg q hqids]
  · unfold rbp
    simp only [hcleanlen, rename_length, hwl run _ hrunids]
  · have hfl : ∀ P : α → Bool, ((rename f q).filter (fun r => P r.2)).length =
        (q.filter (fun r => P r.2)).length := by
      intro P; unfold rename; rw [List.filter_map, List.length_map]; rfl
    unfold bpref
    simp only [hhl2, hul]
    rw [hfl (fun v => decide (lvl ≤ v)), hfl (fun v => decide (v < lvl))]
  · unfold interpolatedPrecision
    simp only [hcleanlen, rename_length, hhl]
  · have hfr : (rename f q).filter (fun r => decide (r.2 = 0)) =
        rename f (q.filter (fun r => decide (r.2 = 0))) := by
      unfold rename; rw [List.filter_map]; rfl
    unfold getNonRelList
    simp only [hfr, rename_length, fixK_rename]
    split
    · rfl
    · unfold hitList
      exact hmap _ run (fun o => if o.isSome then 1 else 0) _
        (fun x hx => (List.mem_filter.1 hx).1) hrunids

end relabel

example : averagePrecision (rename (fun x : Nat => (10 : Int) - x) exQ) (rename (fun x : Nat => (10 : Int) - x) exRun) 0 1
    = 1 / 3 := by decide +kernel

/-! ## C28: indicator lists -/

/-- **C28**: each list has one entry per result in the top `k`, and marks exactly its docs. -/
theorem C28_indicator_lists (q run : Rows ι α) (k : Nat) (lvl : α) :
    (getHitList q run k lvl).length = (Spec.top k (ids run)).length ∧
    (getUnjudgedList q run k).length = (Spec.top k (ids run)).length ∧
    (getNonRelList q run k).length = (Spec.top k (ids run)).length ∧
    ∀ (i : Nat) (x : ι), (Spec.top k (ids run))[i]? = some x →
      (∃ h, (getHitList q run k lvl)[i]? = some h ∧ (h = 1 ∨ h = 0) ∧ (h = 1 ↔ Spec.Rel q lvl x)) ∧
      (∃ u, (getUnjudgedList q run k)[i]? = some u ∧ (u = 1 ∨ u = 0) ∧ (u = 1 ↔ ¬ Spec.Judged q x)) ∧
      (∃ n, (getNonRelList q run k)[i]? = some n ∧ (n = 1 ∨ n = 0) ∧ (n = 1 ↔ (x, 0) ∈ q)) := by
  rw [getHitList_eq, getUnjudgedList_eq, getNonRelList_eq]
  refine ⟨by simp, by simp, by simp, ?_⟩
  intro i x hx
  simp only [List.getElem?_map]
  rw [hx]
  simp only [Option.map_some, Option.some.injEq, exists_eq_left']
  refine ⟨⟨?_, ?_⟩, ⟨?_, ?_⟩, ⟨?_, ?_⟩⟩
  · split <;> simp
  · rw [← look_clean_isSome]
    by_cases h : (look (cleanQrels q lvl) x).isSome <;> simp [h]
  · split <;> simp
  · rw [← look_isSome]
    by_cases h : (look q x).isSome <;> simp [h]
  · split <;> simp
  · have : (look (q.filter (fun r => decide (r.2 = 0))) x).isSome ↔ (x, 0) ∈ q := by
      rw [look_isSome]
      unfold Spec.Judged
      constructor
      · rintro ⟨v, hv⟩
        have := List.mem_filter.1 hv
        simp only [decide_eq_true_eq] at this
        rw [← this.2]; exact this.1
      · intro h; exact ⟨0, List.mem_filter.2 ⟨h, by simp⟩⟩
    rw [← this]
    by_cases h : (look (q.filter (fun r => decide (r.2 = 0))) x).isSome <;> simp [h]

/-- **C28** (partition): at level 1, with judgements that are 0 or at least 1 (non-negative
integers) and one judgement per doc, every result is exactly one of hit, unjudged, non-relevant. -/
theorem C28_partition (q run : Rows ι α) (k : Nat) (hq : (ids q).Nodup)
    (hint : ∀ r ∈ q, r.2 = 0 ∨ 1 ≤ r.2) (i : Nat) (hi : i < (Spec.top k (ids run)).length) :
    ∃ h u n, (getHitList q run k 1)[i]? = some h ∧ (getUnjudgedList q run k)[i]? = some u ∧
      (getNonRelList q run k)[i]? = some n ∧ h + u + n = 1 := by
  obtain ⟨x, hx⟩ : ∃ x, (Spec.top k (ids run))[i]? = some x := ⟨_, List.getElem?_eq_getElem hi⟩
  obtain ⟨⟨h, h1, h2, h3⟩, ⟨u, u1, u2, u3⟩, ⟨n, n1, n2, n3⟩⟩ :=
    (C28_indicator_lists q run k 1).2.2.2 i x hx
  refine ⟨h, u, n, h1, u1, n1, ?_⟩
  have hz : ∀ {y : α} {P : Prop}, (y = 1 ∨ y = 0) → (y = 1 ↔ P) → ¬ P → y = 0 := by
    intro y P hy hiff hn
    rcases hy with rfl | rfl
    · exact absurd (hiff.1 rfl) hn
    · rfl
  by_cases hj : Spec.Judged q x
  · rw [hz u2 u3 (not_not.2 hj)]
    obtain ⟨v, hv⟩ := hj
    rcases hint _ hv with h0 | h0
    · have h0 : v = 0 := h0
      subst h0
      rw [n3.2 hv, hz h2 h3]
      · ring
      · rintro ⟨w, hw, hle⟩
        have := scan_of_mem hq hv
        rw [scan_of_mem hq hw] at this
        cases this
        exact absurd hle (by simp)
    · rw [h3.2 ⟨v, hv, h0⟩, hz n2 n3]
      · ring
      · intro hw
        have := scan_of_mem hq hv
        rw [scan_of_mem hq hw] at this
        cases this
        exact absurd h0 (by simp)
  · rw [u3.2 hj, hz h2 h3, hz n2 n3]
    · ring
    · intro hw; exact hj ⟨0, hw⟩
    · rintro ⟨v, hv, _⟩; exact hj ⟨v, hv⟩

example : getHitList exQ exRun 0 1 = [0, 1, 0, 1, 0] ∧ getUnjudgedList exQ exRun 0 = [0, 0, 1, 0, 1] ∧
    getNonRelList exQ exRun 0 = [1, 0, 0, 0, 0] ∧ (ids exQ).Nodup ∧
    (∀ r ∈ exQ, r.2 = 0 ∨ 1 ≤ r.2) := by decide +kernel

/-! ## C26: moving a relevant doc up -/

/-- **C26** (binary metrics and average precision): `y` relevant directly below `x` non-relevant;
swapping them never lowers a score. The array may carry any scores. -/
theorem C26_swap (q a b : Rows ι α) (x y x' y' : ι × α) (k : Nat) (lvl : α)
    (hx : ¬ Spec.Rel q lvl x.1) (hy : Spec.Rel q lvl y.1) (ex : x'.1 = x.1) (ey : y'.1 = y.1) :
    hits q (a ++ x :: y :: b) k lvl ≤ hits q (a ++ y' :: x' :: b) k lvl ∧
    hitRate q (a ++ x :: y :: b) k lvl ≤ hitRate q (a ++ y' :: x' :: b) k lvl ∧
    precision q (a ++ x :: y :: b) k lvl ≤ precision q (a ++ y' :: x' :: b) k lvl ∧
    recall q (a ++ x :: y :: b) k lvl ≤ recall q (a ++ y' :: x' :: b) k lvl ∧
    rPrecision q (a ++ x :: y :: b) lvl ≤ rPrecision q (a ++ y' :: x' :: b) lvl ∧
    reciprocalRank q (a ++ x :: y :: b) k lvl ≤ reciprocalRank q (a ++ y' :: x' :: b) k lvl ∧
    averagePrecision q (a ++ x :: y :: b) k lvl ≤ averagePrecision q (a ++ y' :: x' :: b) k lvl := by
  have e1 : List.map Prod.fst (a ++ x :: y :: b) = ids a ++ x.1 :: y.1 :: ids b := by simp
  have e2 : List.map Prod.fst (a ++ y' :: x' :: b) = ids a ++ y.1 :: x.1 :: ids b := by simp [ex, ey]
  have hlen : (a ++ x :: y :: b).length = (a ++ y' :: x' :: b).length := by simp
  have hh : ∀ k, (Spec.hits (Spec.Rel q lvl) (ids (a ++ x :: y :: b)) k : α) ≤
      Spec.hits (Spec.Rel q lvl) (ids (a ++ y' :: x' :: b)) k := by
    intro k
    unfold ids
    rw [hits_eq_relIn, hits_eq_relIn, e1, e2, swap_top_length]
    exact relIn_swap_le _ _ _ _ hx hy _
  have hprec : ∀ k, precision q (a ++ x :: y :: b) k lvl ≤ precision q (a ++ y' :: x' :: b) k lvl := by
    intro k
    rw [precision_eq, precision_eq]
    unfold Spec.precision
    rw [List.length_map, List.length_map, ← hlen]
    exact div_le_div_of_nonneg_right (hh k) (Nat.cast_nonneg _)
  refine ⟨by rw [hits_eq, hits_eq]; exact hh k, ?_, hprec k, ?_, ?_, ?_, ?_⟩
  · by_cases h : ∃ z ∈ Spec.top k (ids (a ++ x :: y :: b)), Spec.Rel q lvl z
    · rw [(C10_hit_rate q _ k lvl).1 h, (C10_hit_rate q _ k lvl).1]
      rw [← hits_pos_iff] at h ⊢
      have := hh k
      have h1 : Spec.hits (Spec.Rel q lvl) (ids (a ++ x :: y :: b)) k ≤
        Spec.hits (Spec.Rel q lvl) (ids (a ++ y' :: x' :: b)) k := by exact_mod_cast this
      omega
    · rw [(C10_hit_rate q _ k lvl).2 (fun z hz hr => h ⟨z, hz, hr⟩)]
      exact (hitRate_bounds _ _ _ _).1
  · rw [recall_eq, recall_eq]
    exact div_le_div_of_nonneg_right (hh k) (Nat.cast_nonneg _)
  · rw [rPrecision_eq, rPrecision_eq]
    split
    · exact le_rfl
    · exact hprec _
  · have h1 := reciprocalRank_spec q (a ++ x :: y :: b) k lvl
    have h2 := reciprocalRank_spec q (a ++ y' :: x' :: b) k lvl
    rw [e1] at h1; rw [e2] at h2
    exact rr_swap_le _ _ _ _ hx hy k h1 h2
  · rw [averagePrecision_eq, averagePrecision_eq, e1, e2]
    exact ap_swap_le _ _ _ _ hx hy _ _

/-- the weighted sums (dcg, rbp) -/
theorem weighted_swap_le (g : ι → α) (w : Nat → α) (a b : List ι) (x y : ι) (n : Nat)
    (hxy : g x ≤ g y) (hw : ∀ i, 0 ≤ w i) (hwa : ∀ i, w (i + 1) ≤ w i) :
    ∑ i ∈ range n, Spec.gainAt g (a ++ x :: y :: b) i * w i ≤
    ∑ i ∈ range n, Spec.gainAt g (a ++ y :: x :: b) i * w i := by
  apply sum_swap_le _ _ a.length n
  · intro i h1 h2
    simp only [Spec.gainAt, swap_getElem? a b x y i h1 h2]
  · simp only [Spec.gainAt, swap_get_m, Option.map_some, Option.getD_some]
    exact mul_le_mul_of_nonneg_right hxy (hw _)
  · simp only [Spec.gainAt, swap_get_m, swap_get_m1, Option.map_some, Option.getD_some]
    have := hwa a.length
    nlinarith

theorem dcg_as_sum (g : ι → α) (disc : Nat → α) (l : List ι) (k : Nat) :
    Spec.dcg g disc l k = ∑ i ∈ range (Spec.top k l).length,
      Spec.gainAt g l i * (disc i)⁻¹ := by
  unfold Spec.dcg
  apply Finset.sum_congr rfl
  intro i hi
  rw [Finset.mem_range] at hi
  have h1 := take_top k (Spec.top k l).length l le_rfl
  rw [List.take_length] at h1
  have h2 : (Spec.top k l)[i]? = l[i]? := by
    rw [h1, List.getElem?_take, if_pos hi]
  unfold Spec.gainAt
  rw [h2, div_eq_mul_inv]

/-- **C26** (dcg): gain monotone with gain 0 = 0, discounts positive and non-decreasing, level ≥ 0.
Instantiated for the code's gains and `log2` discount in `Props/Dcg.lean`. -/
theorem C26_swap_dcg (gain : α → α) (disc : Nat → α) (h0 : gain 0 = 0) (hg : ∀ v, 0 ≤ v → 0 ≤ gain v)
    (hd : ∀ i, 0 < disc i) (hdm : ∀ i, disc i ≤ disc (i + 1))
    (q a b : Rows ι α) (x y x' y' : ι × α) (k : Nat) (lvl : α) (hl : 0 ≤ lvl)
    (hx : ¬ Spec.Rel q lvl x.1) (hy : Spec.Rel q lvl y.1) (ex : x'.1 = x.1) (ey : y'.1 = y.1) :
    dcgCore gain disc q (a ++ x :: y :: b) k lvl ≤ dcgCore gain disc q (a ++ y' :: x' :: b) k lvl := by
  have e1 : List.map Prod.fst (a ++ x :: y :: b) = ids a ++ x.1 :: y.1 :: ids b := by simp
  have e2 : List.map Prod.fst (a ++ y' :: x' :: b) = ids a ++ y.1 :: x.1 :: ids b := by simp [ex, ey]
  rw [dcgCore_eq gain h0, dcgCore_eq gain h0, dcg_as_sum, dcg_as_sum, e1, e2, swap_top_length]
  apply weighted_swap_le (fun x => gain (gradeFn q lvl x)) (fun i => (disc i)⁻¹)
  · simp only [gradeFn_of_not_rel hx, h0]
    exact hg _ (hl.trans (gradeFn_of_rel hy).2)
  · intro i; exact inv_nonneg.2 (hd i).le
  · intro i; exact inv_anti₀ (hd i) (hdm i)

/-- **C26** (rbp) -/
theorem C26_swap_rbp (q a b : Rows ι α) (x y x' y' : ι × α) (p lvl : α) (hl : 0 ≤ lvl)
    (hp : 0 ≤ p) (hp1 : p ≤ 1)
    (hx : ¬ Spec.Rel q lvl x.1) (hy : Spec.Rel q lvl y.1) (ex : x'.1 = x.1) (ey : y'.1 = y.1) :
    rbp q (a ++ x :: y :: b) p lvl ≤ rbp q (a ++ y' :: x' :: b) p lvl := by
  have e1 : List.map Prod.fst (a ++ x :: y :: b) = ids a ++ x.1 :: y.1 :: ids b := by simp
  have e2 : List.map Prod.fst (a ++ y' :: x' :: b) = ids a ++ y.1 :: x.1 :: ids b := by simp [ex, ey]
  rw [rbp_eq, rbp_eq, e1, e2]
  unfold Spec.rbp
  have hlen : (ids a ++ x.1 :: y.1 :: ids b).length = (ids a ++ y.1 :: x.1 :: ids b).length := by simp
  rw [hlen]
  apply mul_le_mul_of_nonneg_left _ (by linarith)
  apply weighted_swap_le (gradeFn q lvl) (fun i => p ^ i)
  · rw [gradeFn_of_not_rel hx]
    exact hl.trans (gradeFn_of_rel hy).2
  · intro i; exact pow_nonneg hp _
  · intro i; exact pow_le_pow_of_le_one hp hp1 (Nat.le_succ _)

example : ¬ Spec.Rel exQ 1 4 ∧ Spec.Rel exQ 1 2 := by
  constructor
  · rintro ⟨v, hv, hl⟩
    simp [exQ] at hv
    subst hv; norm_num at hl
  · exact ⟨3, by simp [exQ], by norm_num⟩

/-! ## Graded and remaining metrics: C23, C24, C27, C29 -/

/-- **C23** (dcg) -/
theorem C23_top_k_local_dcg (gain : α → α) (h0 : gain 0 = 0) (disc : Nat → α) (q run run' : Rows ι α)
    (k : Nat) (hk : k ≠ 0) (lvl : α) (h : (ids run).take k = (ids run').take k) :
    dcgCore gain disc q run k lvl = dcgCore gain disc q run' k lvl ∧
    ndcgCore gain disc q run k lvl = ndcgCore gain disc q run' k lvl := by
  have ht : Spec.top k (ids run) = Spec.top k (ids run') := by
    unfold Spec.top; rw [if_neg hk, if_neg hk]; exact h
  have : dcgCore gain disc q run k lvl = dcgCore gain disc q run' k lvl := by
    rw [dcgCore_eq gain h0, dcgCore_eq gain h0]; unfold Spec.dcg; rw [ht]
  refine ⟨this, ?_⟩
  unfold ndcgCore; rw [this]

/-- **C24** (dcg) for non-negative gains -/
theorem C24_monotone_in_k_dcg (gain : α → α) (disc : Nat → α) (h0 : gain 0 = 0)
    (hg : ∀ v, 0 ≤ v → 0 ≤ gain v) (hd : ∀ i, 0 < disc i) (q run : Rows ι α) (lvl : α) (hl : 0 ≤ lvl)
    {k k' : Nat} (h : k' = 0 ∨ (k ≠ 0 ∧ k ≤ k')) :
    dcgCore gain disc q run k lvl ≤ dcgCore gain disc q run k' lvl := by
  rw [dcgCore_eq gain h0, dcgCore_eq gain h0, dcg_as_sum, dcg_as_sum]
  apply Finset.sum_le_sum_of_subset_of_nonneg
  · intro i hi
    rw [Finset.mem_range] at *
    exact lt_of_lt_of_le hi (top_prefix h _).length_le
  · intro i _ _
    apply mul_nonneg _ (inv_nonneg.2 (hd i).le)
    unfold Spec.gainAt
    cases hx : (List.map Prod.fst run)[i]? with
    | none => simp
    | some x =>
      simp only [Option.map_some, Option.getD_some]
      by_cases hx : Spec.Rel q lvl x
      · exact hg _ (hl.trans (gradeFn_of_rel hx).2)
      · simp only [gradeFn_of_not_rel hx, h0]; exact le_rfl

/-- **C27** (graded metrics, bpref, interpolated precision) -/
theorem C27_zero_graded (gain : α → α) (h0 : gain 0 = 0) (disc : Nat → α) (cutoff : Nat → Nat → Nat)
    (q run : Rows ι α) (k : Nat) (p lvl : α) (h : ∀ x ∈ ids run, ¬ Spec.Rel q lvl x) :
    dcgCore gain disc q run k lvl = 0 ∧ ndcgCore gain disc q run k lvl = 0 ∧ rbp q run p lvl = 0 ∧
    (Spec.numRel q lvl ≠ 0 → bpref q run lvl = .ok (.val 0)) ∧
    (∀ v ∈ interpolatedPrecision cutoff q run lvl, v = 0) := by
  have hg : ∀ (f : ι → α) (hf : ∀ x, ¬ Spec.Rel q lvl x → f x = 0) (i : Nat),
      Spec.gainAt f (ids run) i = 0 := by
    intro f hf i
    unfold Spec.gainAt
    cases hx : (ids run)[i]? with
    | none => simp
    | some x => exact hf x (h x (List.mem_of_getElem? hx))
  have hd : dcgCore gain disc q run k lvl = 0 := by
    rw [dcgCore_eq gain h0, dcg_as_sum]
    apply Finset.sum_eq_zero
    intro i _
    rw [hg (fun x => gain (gradeFn q lvl x)) (fun x hx => by simp only [gradeFn_of_not_rel hx, h0])]
    simp
  have hrel0 : ∀ m, Spec.relIn (Spec.Rel q lvl) (ids run) m = 0 := by
    intro m
    classical
    rw [relIn_eq_countP, List.countP_eq_zero]
    intro x hx
    simpa using h x (List.mem_of_mem_take hx)
  refine ⟨hd, ?_, ?_, ?_, ?_⟩
  · unfold ndcgCore; rw [hd]; simp
  · rw [rbp_eq]; unfold Spec.rbp
    rw [Finset.sum_eq_zero]
    · simp
    · intro i _
      rw [hg _ (fun x hx => gradeFn_of_not_rel hx)]; simp
  · intro hR
    by_cases hN : Spec.numNonRel q lvl = 0
    · exact ((C20_bpref_undefined q run lvl).2 hR hN).2 h
    · rw [C20_bpref q run lvl hR hN]
      congr 2
      unfold Spec.bpref
      rw [Finset.sum_eq_zero]
      · simp
      · intro r _
        rw [if_neg]
        rintro ⟨x, hx, hr⟩
        exact h x (List.mem_of_getElem? hx) hr
  · intro v hv
    obtain ⟨i, hi⟩ := List.getElem?_of_mem hv
    have hlt : i < 11 := by
      have h1 := (List.getElem?_eq_some_iff.1 hi).1
      have : (interpolatedPrecision cutoff q run lvl).length = 11 := by
        unfold interpolatedPrecision; simp only; split <;> simp
      omega
    obtain ⟨w, hw, h1, h2⟩ := C21_interpolated cutoff q run lvl i hlt
    rw [hi] at hw; cases hw
    by_cases hR : Spec.numRel q lvl = 0
    · exact h2 hR
    · rcases h1 hR with ⟨⟨m, _, _, _, rfl⟩, _⟩ | ⟨_, rfl⟩
      · rw [hrel0]; simp
      · rfl

/-- **C27**: the empty ranking (a query added by make_comparable) is such a case. -/
theorem C27_empty_run (q : Rows ι α) (lvl : α) : ∀ x ∈ ids ([] : Rows ι α), ¬ Spec.Rel q lvl x := by
  intro x hx; cases hx

/-- **C29** (dcg, rbp): raising a non-negative level never raises the score. -/
theorem C29_antitone_level_graded (gain : α → α) (disc : Nat → α) (h0 : gain 0 = 0)
    (hg : ∀ v, 0 ≤ v → 0 ≤ gain v) (hd : ∀ i, 0 < disc i) (q run : Rows ι α) (hq : (ids q).Nodup)
    (k : Nat) {lvl lvl' : α} (hl : 0 ≤ lvl) (h : lvl ≤ lvl') :
    dcgCore gain disc q run k lvl' ≤ dcgCore gain disc q run k lvl ∧
    (∀ p, 0 ≤ p → p ≤ 1 → rbp q run p lvl' ≤ rbp q run p lvl) := by
  -- grades drop to 0 or stay
  have hcase : ∀ x, gradeFn q lvl' x = gradeFn q lvl x ∨
      (gradeFn q lvl' x = 0 ∧ 0 ≤ gradeFn q lvl x) := by
    intro x
    by_cases hx : Spec.Rel q lvl' x
    · left
      obtain ⟨h1, h2⟩ := gradeFn_of_rel hx
      exact ((gradeFn_isGrade hq lvl).1 x _ h1 (h.trans h2)).symm
    · right
      refine ⟨gradeFn_of_not_rel hx, ?_⟩
      by_cases hx' : Spec.Rel q lvl x
      · exact hl.trans (gradeFn_of_rel hx').2
      · rw [gradeFn_of_not_rel hx']
  constructor
  · rw [dcgCore_eq gain h0, dcgCore_eq gain h0, dcg_as_sum, dcg_as_sum]
    apply Finset.sum_le_sum
    intro i _
    apply mul_le_mul_of_nonneg_right _ (inv_nonneg.2 (hd i).le)
    unfold Spec.gainAt
    cases (List.map Prod.fst run)[i]? with
    | none => simp
    | some x =>
      simp only [Option.map_some, Option.getD_some]
      rcases hcase x with h1 | ⟨h1, h2⟩
      · rw [h1]
      · rw [h1, h0]; exact hg _ h2
  · intro p hp hp1
    rw [rbp_eq, rbp_eq]
    unfold Spec.rbp
    apply mul_le_mul_of_nonneg_left _ (by linarith)
    apply Finset.sum_le_sum
    intro i _
    apply mul_le_mul_of_nonneg_right _ (pow_nonneg hp _)
    unfold Spec.gainAt
    cases (List.map Prod.fst run)[i]? with
    | none => simp
    | some x =>
      simp only [Option.map_some, Option.getD_some]
      rcases hcase x with h1 | ⟨h1, h2⟩
      · rw [h1]
      · rw [h1]; exact h2

/-! ## C06: set_relevance_level -/

/-- the row-level effect of `set_relevance_level(l)` on one query's judgements -/
def shiftLevel (l : α) (q : Rows ι α) : Rows ι α := q.map (fun r => (r.1, r.2 - (l - 1)))

theorem rel_shift (l m : α) (q : Rows ι α) (x : ι) :
    Spec.Rel (shiftLevel l q) m x ↔ Spec.Rel q (l + m - 1) x := by
  unfold Spec.Rel shiftLevel
  constructor
  · rintro ⟨v, hv, hm⟩
    obtain ⟨r, hr, he⟩ := List.mem_map.1 hv
    cases he
    exact ⟨r.2, hr, by linarith⟩
  · rintro ⟨v, hv, hm⟩
    exact ⟨v - (l - 1), List.mem_map.2 ⟨(x, v), hv, rfl⟩, by linarith⟩

theorem numRel_shift (l m : α) (q : Rows ι α) :
    Spec.numRel (shiftLevel l q) m = Spec.numRel q (l + m - 1) := by
  rw [numRel_eq, numRel_eq]
  unfold cleanQrels shiftLevel
  rw [List.filter_map, List.length_map]
  congr 1
  apply List.filter_congr
  intro r _
  simp only [Function.comp_apply, decide_eq_decide]
  constructor <;> intro h <;> linarith

/-- **C06**: evaluating at level `m` after `set_relevance_level(l)` is evaluating the untouched
judgements at level `l + m - 1`; with the default `m = 1` that is suffix `-l`. -/
theorem C06_set_relevance_level (l m : α) (q run : Rows ι α) (k : Nat) :
    hits (shiftLevel l q) run k m = hits q run k (l + m - 1) ∧
    hitRate (shiftLevel l q) run k m = hitRate q run k (l + m - 1) ∧
    precision (shiftLevel l q) run k m = precision q run k (l + m - 1) ∧
    recall (shiftLevel l q) run k m = recall q run k (l + m - 1) ∧
    f1 (shiftLevel l q) run k m = f1 q run k (l + m - 1) ∧
    rPrecision (shiftLevel l q) run m = rPrecision q run (l + m - 1) ∧
    reciprocalRank (shiftLevel l q) run k m = reciprocalRank q run k (l + m - 1) ∧
    averagePrecision (shiftLevel l q) run k m = averagePrecision q run k (l + m - 1) := by
  have hr : Spec.Rel (shiftLevel l q) m = Spec.Rel q (l + m - 1) := by
    funext x; exact propext (rel_shift l m q x)
  have hp : ∀ k, precision (shiftLevel l q) run k m = precision q run k (l + m - 1) := by
    intro k; rw [precision_eq, precision_eq, hr]
  have hrec : recall (shiftLevel l q) run k m = recall q run k (l + m - 1) := by
    rw [recall_eq, recall_eq, hr, numRel_shift]
  refine ⟨by rw [hits_eq, hits_eq, hr], ?_, hp k, hrec, by rw [f1_eq, f1_eq, hp, hrec], ?_, ?_, ?_⟩
  · rw [hitRate_eq, hitRate_eq]
    refine if_congr ?_ rfl rfl
    refine exists_congr fun x => and_congr_right fun _ => ?_
    rw [look_clean_isSome, look_clean_isSome, hr]
  · rw [rPrecision_eq, rPrecision_eq, numRel_shift, hp]
  · have h1 := reciprocalRank_spec (shiftLevel l q) run k m
    rw [hr] at h1
    exact rr_unique h1 (reciprocalRank_spec q run k (l + m - 1))
  · rw [averagePrecision_eq, averagePrecision_eq, hr, numRel_shift]

/-- **C06**: it is not the same for graded metrics (relevance 3 counts as 2 after shifting by 1). -/
theorem C06_graded_differs :
    dcgCore id (fun i => (i + 1 : ℚ)) (shiftLevel 2 [(7, 3)]) [((7 : Nat), 1)] 0 1 = 2 ∧
    dcgCore id (fun i => (i + 1 : ℚ)) [(7, 3)] [((7 : Nat), 1)] 0 2 = 3 := by decide +kernel

/-- the store-level call does this to every query -/
theorem C06_store {κ δ : Type*} [DecidableEq κ] (s : Store κ δ Int) (l : Int) (q : κ) :
    (s.setRelevanceLevel l).data.get? q =
      (s.data.get? q).map (fun d => d.map (fun e => (e.1, e.2 - (l - 1)))) := by
  unfold Store.setRelevanceLevel
  simp only
  induction s.data with
  | nil => rfl
  | cons p t ih =>
    simp only [Dict.get?, List.map_cons] at *
    by_cases h : p.1 = q <;> simp_all

end Ranx
