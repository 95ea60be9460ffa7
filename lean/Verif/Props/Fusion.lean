import Verif.Lemmas.Fusion2
import Mathlib.Order.Bounds.Basic
import Mathlib.Tactic.Ring
import Mathlib.Tactic.NormNum

/-!
# Properties C49, C50: score based fusion

Each theorem says that the method succeeds on fusable runs, for every argsort and every schedule of the
parallel loop, and that its result is `Spec.FusedBy` the stated formula: the queries of the runs,
exactly the docs occurring in some run (C48), the formula's value for each, sorted.
-/

set_option linter.unusedSectionVars false

namespace Ranx
open Dict Fuse
open _root_.Ranx.Norm (Results)
variable {κ δ α : Type*}

section
variable [LinearOrder κ] [DecidableEq δ] [LinearOrder α] [Field α] [IsStrictOrderedRing α]
  (S : ArgSort α) (sched : List Nat)

/-- **C49** comb_sum: the sum of the doc's scores over the runs that have it. -/
theorem C49_comb_sum (runs : List (Dict κ (Results δ α))) (hf : Spec.Fusable runs)
    (hs : Schedule (queryCount runs) sched) :
    ∃ out, combSum S sched runs = .ok out ∧
      Spec.FusedBy runs (fun q d => (Spec.scores runs q d).sum) out := by
  obtain ⟨out, h1, h2⟩ := fuseRun_spec S sumScore
    (fun rs d => (rs.map (fun res => (res.get? d).getD 0)).sum) sched runs hf hs (fun q d _ => rfl)
  refine ⟨out, h1, FusedBy_congr h2 ?_⟩
  intro q d _
  have := sumScore_eq runs q d
  unfold sumScore at this
  exact Except.ok.inj this

/-- **C49** comb_anz: the mean of the doc's scores over the runs that have it. -/
theorem C49_comb_anz (runs : List (Dict κ (Results δ α))) (hf : Spec.Fusable runs)
    (hs : Schedule (queryCount runs) sched) :
    ∃ out, combAnz S sched runs = .ok out ∧
      Spec.FusedBy runs
        (fun q d => (Spec.scores runs q d).sum / ((Spec.scores runs q d).length : α)) out := by
  obtain ⟨out, h1, h2⟩ := fuseRun_spec S anzScore
    (fun rs d => (present rs d).sum / ((present rs d).length : α)) sched runs hf hs (fun q d _ => rfl)
  refine ⟨out, h1, FusedBy_congr h2 ?_⟩
  intro q d _
  simp only [present_eq]

/-- **C49** comb_mnz: the sum of the doc's scores times the number of runs that have it. -/
theorem C49_comb_mnz (runs : List (Dict κ (Results δ α))) (hf : Spec.Fusable runs)
    (hs : Schedule (queryCount runs) sched) :
    ∃ out, combMnz S sched runs = .ok out ∧
      Spec.FusedBy runs
        (fun q d => (Spec.scores runs q d).sum * ((Spec.scores runs q d).length : α)) out := by
  obtain ⟨out, h1, h2⟩ := fuseRun_spec S mnzScore
    (fun rs d => (present rs d).sum * ((present rs d).length : α)) sched runs hf hs (fun q d _ => rfl)
  refine ⟨out, h1, FusedBy_congr h2 ?_⟩
  intro q d _
  simp only [present_eq]

/-- **C49** wsum: the weighted sum of the doc's scores, given at least as many weights as runs. -/
theorem C49_wsum (ws : List α) (runs : List (Dict κ (Results δ α))) (hf : Spec.Fusable runs)
    (hw : runs.length ≤ ws.length) (hs : Schedule (queryCount runs) sched) :
    ∃ out, wsum S sched ws runs = .ok out ∧
      Spec.FusedBy runs (fun q d => ((Spec.weighted runs ws q d).map (fun p => p.2 * p.1)).sum) out := by
  classical
  obtain ⟨out, h1, h2⟩ := fuseRun_spec S (wsumScore ws)
    (fun rs d => match wsumScore ws rs d with | .ok v => v | .error _ => 0) sched runs hf hs
    (fun q d _ => by rw [wsumScore_eq ws runs hw])
  refine ⟨out, h1, FusedBy_congr h2 ?_⟩
  intro q d _
  simp only [wsumScore_eq ws runs hw]

/-- **C49** wmnz: the sum of the doc's scores times the sum of the weights of the runs that have it. -/
theorem C49_wmnz (ws : List α) (runs : List (Dict κ (Results δ α))) (hf : Spec.Fusable runs)
    (hw : runs.length ≤ ws.length) (hs : Schedule (queryCount runs) sched) :
    ∃ out, wmnz S sched ws runs = .ok out ∧
      Spec.FusedBy runs (fun q d => ((Spec.weighted runs ws q d).map Prod.fst).sum *
        ((Spec.weighted runs ws q d).map Prod.snd).sum) out := by
  have hv : ∀ q (d : δ), wmnzScore ws (resultsFor runs q) d =
      .ok (((Spec.weighted runs ws q d).map Prod.fst).sum *
        ((Spec.weighted runs ws q d).map Prod.snd).sum) := by
    intro q d
    unfold wmnzScore
    rw [presentWeighted_eq ws runs hw]
  obtain ⟨out, h1, h2⟩ := fuseRun_spec S (wmnzScore ws)
    (fun rs d => match wmnzScore ws rs d with | .ok v => v | .error _ => 0) sched runs hf hs
    (fun q d _ => by rw [hv])
  refine ⟨out, h1, FusedBy_congr h2 ?_⟩
  intro q d _
  simp only [hv]

/-- Specification: `m` is the median of `l`: the mean of the two middle elements (which coincide for
odd length) of `l` put in increasing order. -/
def Spec.IsMedian (l : List α) (m : α) : Prop :=
  ∃ t : List α, t.Perm l ∧ t.Pairwise (· ≤ ·) ∧ ∃ a b, t[(l.length - 1) / 2]? = some a ∧
    t[l.length / 2]? = some b ∧ m = (a + b) / 2

theorem median_spec (l : List α) (h : l ≠ []) : Spec.IsMedian l (median l) := by
  have hp : (isort (fun a b => decide (a ≤ b)) l).Perm l := isort_perm l _
  have hlen := hp.length_eq
  have hpos : 0 < l.length := List.length_pos_iff.2 h
  refine ⟨isort (fun a b => decide (a ≤ b)) l, hp, ?_, ?_⟩
  · have := pairwise_isort (le := fun a b : α => decide (a ≤ b))
      (by intro a b c h1 h2; simp only [decide_eq_true_eq] at *; exact h1.trans h2)
      (by intro a b; simp only [Bool.or_eq_true, decide_eq_true_eq]; exact le_total a b) l
    exact this.imp (by intro a b h; simpa using h)
  · have h1 : (l.length - 1) / 2 < (isort (fun a b => decide (a ≤ b)) l).length := by omega
    have h2 : l.length / 2 < (isort (fun a b => decide (a ≤ b)) l).length := by omega
    refine ⟨_, _, List.getElem?_eq_getElem h1, List.getElem?_eq_getElem h2, ?_⟩
    unfold median
    simp only [hlen]
    by_cases ho : l.length % 2 = 1
    · rw [if_pos ho]
      have he : (l.length - 1) / 2 = l.length / 2 := by omega
      rw [List.getElem?_eq_getElem h2]
      simp only [he, Option.getD_some]
      ring
    · rw [if_neg ho]
      have he : l.length / 2 - 1 = (l.length - 1) / 2 := by omega
      rw [he, List.getElem?_eq_getElem h1, List.getElem?_eq_getElem h2]
      simp only [Option.getD_some]

/-- **C49** comb_med: the median of the doc's scores over the runs that have it. -/
theorem C49_comb_med (runs : List (Dict κ (Results δ α))) (hf : Spec.Fusable runs)
    (hs : Schedule (queryCount runs) sched) :
    ∃ out val, combMed S sched runs = .ok out ∧ Spec.FusedBy runs val out ∧
      ∀ q d, Spec.InSome runs q d → Spec.IsMedian (Spec.scores runs q d) (val q d) := by
  obtain ⟨out, h1, h2⟩ := fuseRun_spec S medScore (fun rs d => median (present rs d)) sched runs hf hs
    (fun q d _ => rfl)
  refine ⟨out, _, h1, h2, ?_⟩
  intro q d hd
  simp only [present_eq]
  exact median_spec _ (scores_ne_nil hd)

/-- a median is unique, so the theorem above determines the fused scores -/
theorem Spec.IsMedian.unique {l : List α} {m m' : α} (h : Spec.IsMedian l m) (h' : Spec.IsMedian l m') :
    m = m' := by
  obtain ⟨t, hp, hs, a, b, ha, hb, rfl⟩ := h
  obtain ⟨t', hp', hs', a', b', ha', hb', rfl⟩ := h'
  have : t = t' := List.Perm.eq_of_pairwise (fun a b _ _ h1 h2 => le_antisymm h1 h2) hs hs' (hp.trans hp'.symm)
  subst this
  rw [ha] at ha'; rw [hb] at hb'
  cases ha'; cases hb'; rfl

theorem minScore_eq (runs : List (Dict κ (Results δ α))) (hne : runs ≠ []) (q : κ) (d : δ) :
    ∃ m, minScore (resultsFor runs q) d = .ok m ∧
      m ∈ runs.map (fun run => (Spec.score? run q d).getD (10 ^ 9)) ∧
      ∀ x ∈ runs.map (fun run => (Spec.score? run q d).getD (10 ^ 9)), m ≤ x := by
  have he : (resultsFor runs q).map (fun res => (res.get? d).getD ((10 : α) ^ 9)) =
      runs.map (fun run => (Spec.score? run q d).getD (10 ^ 9)) := by
    unfold resultsFor
    rw [List.map_map]
    apply List.map_congr_left
    intro run _
    simp only [Function.comp_apply, getD_get?]
  unfold minScore
  rw [he]
  cases hr : runs with
  | nil => exact absurd hr hne
  | cons r t =>
    rw [List.map_cons]
    exact ⟨_, rfl, Norm.foldl_min_spec _ _⟩

theorem maxScore_eq (runs : List (Dict κ (Results δ α))) (hne : runs ≠ []) (q : κ) (d : δ) :
    ∃ m, maxScore (resultsFor runs q) d = .ok m ∧
      m ∈ runs.map (fun run => (Spec.score? run q d).getD (-(10 ^ 9))) ∧
      ∀ x ∈ runs.map (fun run => (Spec.score? run q d).getD (-(10 ^ 9))), x ≤ m := by
  have he : (resultsFor runs q).map (fun res => (res.get? d).getD (-((10 : α) ^ 9))) =
      runs.map (fun run => (Spec.score? run q d).getD (-(10 ^ 9))) := by
    unfold resultsFor
    rw [List.map_map]
    apply List.map_congr_left
    intro run _
    simp only [Function.comp_apply, getD_get?]
  unfold maxScore
  rw [he]
  cases hr : runs with
  | nil => exact absurd hr hne
  | cons r t =>
    rw [List.map_cons]
    exact ⟨_, rfl, Norm.foldl_max_spec _ _⟩

/-- **C50** comb_min (partial): the least of the doc's scores, whenever that is at most 10⁹. -/
theorem C50_comb_min_partial (runs : List (Dict κ (Results δ α))) (hf : Spec.Fusable runs)
    (hs : Schedule (queryCount runs) sched) :
    ∃ out val, combMin S sched runs = .ok out ∧ Spec.FusedBy runs val out ∧
      ∀ q d, Spec.InSome runs q d → (∃ s ∈ Spec.scores runs q d, s ≤ 10 ^ 9) →
        IsLeast {s | s ∈ Spec.scores runs q d} (val q d) := by
  obtain ⟨out, h1, h2⟩ := fuseRun_spec S minScore
    (fun rs d => match minScore rs d with | .ok v => v | .error _ => 0) sched runs hf hs
    (fun q d _ => by
      obtain ⟨m, hm, _⟩ := minScore_eq runs hf.nonempty q d
      rw [hm])
  refine ⟨out, _, h1, h2, ?_⟩
  rintro q d - ⟨s0, hs0, hle⟩
  obtain ⟨m, hm, hmem, hmin⟩ := minScore_eq runs hf.nonempty q d
  simp only [hm]
  have hall : ∀ s ∈ Spec.scores runs q d, m ≤ s := by
    intro s hs'
    obtain ⟨run, hr, hsc⟩ := List.mem_filterMap.1 hs'
    exact hmin s (List.mem_map.2 ⟨run, hr, by rw [hsc]; rfl⟩)
  refine ⟨?_, fun s hs' => hall s hs'⟩
  obtain ⟨run, hr, he⟩ := List.mem_map.1 hmem
  cases hsc : Spec.score? run q d with
  | some v =>
    rw [hsc] at he
    exact List.mem_filterMap.2 ⟨run, hr, by rw [hsc, ← he]; rfl⟩
  | none =>
    rw [hsc] at he
    have : m = s0 := le_antisymm (hall s0 hs0) (by rw [← he]; exact hle)
    rw [this]; exact hs0

/-- **C50** comb_max (partial): the greatest of the doc's scores, whenever that is at least -10⁹. -/
theorem C50_comb_max_partial (runs : List (Dict κ (Results δ α))) (hf : Spec.Fusable runs)
    (hs : Schedule (queryCount runs) sched) :
    ∃ out val, combMax S sched runs = .ok out ∧ Spec.FusedBy runs val out ∧
      ∀ q d, Spec.InSome runs q d → (∃ s ∈ Spec.scores runs q d, -(10 ^ 9) ≤ s) →
        IsGreatest {s | s ∈ Spec.scores runs q d} (val q d) := by
  obtain ⟨out, h1, h2⟩ := fuseRun_spec S maxScore
    (fun rs d => match maxScore rs d with | .ok v => v | .error _ => 0) sched runs hf hs
    (fun q d _ => by
      obtain ⟨m, hm, _⟩ := maxScore_eq runs hf.nonempty q d
      rw [hm])
  refine ⟨out, _, h1, h2, ?_⟩
  rintro q d - ⟨s0, hs0, hle⟩
  obtain ⟨m, hm, hmem, hmax⟩ := maxScore_eq runs hf.nonempty q d
  simp only [hm]
  have hall : ∀ s ∈ Spec.scores runs q d, s ≤ m := by
    intro s hs'
    obtain ⟨run, hr, hsc⟩ := List.mem_filterMap.1 hs'
    exact hmax s (List.mem_map.2 ⟨run, hr, by rw [hsc]; rfl⟩)
  refine ⟨?_, fun s hs' => hall s hs'⟩
  obtain ⟨run, hr, he⟩ := List.mem_map.1 hmem
  cases hsc : Spec.score? run q d with
  | some v =>
    rw [hsc] at he
    exact List.mem_filterMap.2 ⟨run, hr, by rw [hsc, ← he]; rfl⟩
  | none =>
    rw [hsc] at he
    have : m = s0 := le_antisymm (by rw [← he]; exact hle) (hall s0 hs0)
    rw [this]; exact hs0

/-- **C103** comb_min, on its whole domain: the fused score of a doc is the least of its scores in the runs that
retrieved it or, if some run did not retrieve it, the lesser of that and 10⁹. -/
theorem C103_comb_min (runs : List (Dict κ (Results δ α))) (hf : Spec.Fusable runs)
    (hs : Schedule (queryCount runs) sched) :
    ∃ out val, combMin S sched runs = .ok out ∧ Spec.FusedBy runs val out ∧
      ∀ q d, Spec.InSome runs q d →
        ((∀ run ∈ runs, ∃ s, Spec.score? run q d = some s) → IsLeast {s | s ∈ Spec.scores runs q d} (val q d)) ∧
        ((∃ run ∈ runs, Spec.score? run q d = none) →
          IsLeast {s | s ∈ Spec.scores runs q d ∨ s = 10 ^ 9} (val q d)) := by
  obtain ⟨out, h1, h2⟩ := fuseRun_spec S minScore
    (fun rs d => match minScore rs d with | .ok v => v | .error _ => 0) sched runs hf hs
    (fun q d _ => by
      obtain ⟨m, hm, _⟩ := minScore_eq runs hf.nonempty q d
      rw [hm])
  refine ⟨out, _, h1, h2, ?_⟩
  rintro q d -
  obtain ⟨m, hm, hmem, hmin⟩ := minScore_eq runs hf.nonempty q d
  simp only [hm]
  have hall : ∀ s ∈ Spec.scores runs q d, m ≤ s := by
    intro s hs'
    obtain ⟨run, hr, hsc⟩ := List.mem_filterMap.1 hs'
    exact hmin s (List.mem_map.2 ⟨run, hr, by rw [hsc]; rfl⟩)
  obtain ⟨run, hr, he⟩ := List.mem_map.1 hmem
  refine ⟨fun hin => ⟨?_, fun s hs' => hall s hs'⟩, ?_⟩
  · obtain ⟨v, hv⟩ := hin run hr
    rw [hv] at he
    exact List.mem_filterMap.2 ⟨run, hr, by rw [hv, ← he]; rfl⟩
  · rintro ⟨miss, hmiss, hnone⟩
    refine ⟨?_, ?_⟩
    · cases hsc : Spec.score? run q d with
      | some v =>
        rw [hsc] at he
        exact .inl (List.mem_filterMap.2 ⟨run, hr, by rw [hsc, ← he]; rfl⟩)
      | none =>
        rw [hsc] at he
        exact .inr he.symm
    · rintro s (hs' | rfl)
      · exact hall s hs'
      · exact hmin _ (List.mem_map.2 ⟨miss, hmiss, by rw [hnone]; rfl⟩)

/-- **C103** comb_max, on its whole domain: the fused score of a doc is the greatest of its scores in the runs that
retrieved it or, if some run did not retrieve it, the greater of that and -10⁹. -/
theorem C103_comb_max (runs : List (Dict κ (Results δ α))) (hf : Spec.Fusable runs)
    (hs : Schedule (queryCount runs) sched) :
    ∃ out val, combMax S sched runs = .ok out ∧ Spec.FusedBy runs val out ∧
      ∀ q d, Spec.InSome runs q d →
        ((∀ run ∈ runs, ∃ s, Spec.score? run q d = some s) → IsGreatest {s | s ∈ Spec.scores runs q d} (val q d)) ∧
        ((∃ run ∈ runs, Spec.score? run q d = none) →
          IsGreatest {s | s ∈ Spec.scores runs q d ∨ s = -(10 ^ 9)} (val q d)) := by
  obtain ⟨out, h1, h2⟩ := fuseRun_spec S maxScore
    (fun rs d => match maxScore rs d with | .ok v => v | .error _ => 0) sched runs hf hs
    (fun q d _ => by
      obtain ⟨m, hm, _⟩ := maxScore_eq runs hf.nonempty q d
      rw [hm])
  refine ⟨out, _, h1, h2, ?_⟩
  rintro q d -
  obtain ⟨m, hm, hmem, hmax⟩ := maxScore_eq runs hf.nonempty q d
  simp only [hm]
  have hall : ∀ s ∈ Spec.scores runs q d, s ≤ m := by
    intro s hs'
    obtain ⟨run, hr, hsc⟩ := List.mem_filterMap.1 hs'
    exact hmax s (List.mem_map.2 ⟨run, hr, by rw [hsc]; rfl⟩)
  obtain ⟨run, hr, he⟩ := List.mem_map.1 hmem
  refine ⟨fun hin => ⟨?_, fun s hs' => hall s hs'⟩, ?_⟩
  · obtain ⟨v, hv⟩ := hin run hr
    rw [hv] at he
    exact List.mem_filterMap.2 ⟨run, hr, by rw [hv, ← he]; rfl⟩
  · rintro ⟨miss, hmiss, hnone⟩
    refine ⟨?_, ?_⟩
    · cases hsc : Spec.score? run q d with
      | some v =>
        rw [hsc] at he
        exact .inl (List.mem_filterMap.2 ⟨run, hr, by rw [hsc, ← he]; rfl⟩)
      | none =>
        rw [hsc] at he
        exact .inr he.symm
    · rintro s (hs' | rfl)
      · exact hall s hs'
      · exact hmax _ (List.mem_map.2 ⟨miss, hmiss, by rw [hnone]; rfl⟩)

end

section
variable [LinearOrder κ] [DecidableEq δ] (S : ArgSort ℝ) (sched : List Nat)

/-- **C49** comb_gmnz: the sum of the scores times (number of runs that have the doc) ^ gamma. -/
theorem C49_comb_gmnz (gamma : ℝ) (runs : List (Dict κ (Results δ ℝ))) (hf : Spec.Fusable runs)
    (hs : Schedule (queryCount runs) sched) :
    ∃ out, combGmnz S sched gamma runs = .ok out ∧
      Spec.FusedBy runs
        (fun q d => (Spec.scores runs q d).sum * ((Spec.scores runs q d).length : ℝ) ^ gamma) out := by
  obtain ⟨out, h1, h2⟩ := fuseRun_spec S (gmnzScore gamma)
    (fun rs d => (present rs d).sum * ((present rs d).length : ℝ) ^ gamma) sched runs hf hs
    (fun q d _ => rfl)
  refine ⟨out, h1, FusedBy_congr h2 ?_⟩
  intro q d _
  simp only [present_eq]

/-- **C49** mixed: the weighted sum times the square root of the number of runs that have the doc. -/
theorem C49_mixed (ws : List ℝ) (runs : List (Dict κ (Results δ ℝ))) (hf : Spec.Fusable runs)
    (hw : runs.length ≤ ws.length) (hs : Schedule (queryCount runs) sched) :
    ∃ out, mixed S sched ws runs = .ok out ∧
      Spec.FusedBy runs (fun q d => ((Spec.weighted runs ws q d).map (fun p => p.1 * p.2)).sum *
        Real.sqrt ((Spec.scores runs q d).length : ℝ)) out := by
  have hlen : ∀ q (d : δ), (Spec.weighted runs ws q d).length = (Spec.scores runs q d).length := by
    intro q d
    unfold Spec.weighted Spec.scores
    clear hf hs
    induction runs generalizing ws with
    | nil => rfl
    | cons r t ih =>
      cases ws with
      | nil => simp at hw
      | cons w ws =>
        rw [List.zip_cons_cons]
        have := ih ws (by simpa using hw)
        cases h : Spec.score? r q d with
        | none =>
          rw [List.filterMap_cons_none (by rw [h]; rfl),
            List.filterMap_cons_none (f := fun run => Spec.score? run q d) h, this]
        | some v =>
          rw [List.filterMap_cons_some (b := (v, w)) (by rw [h]; rfl),
            List.filterMap_cons_some (f := fun run => Spec.score? run q d) h,
            List.length_cons, List.length_cons, this]
  have hv : ∀ q (d : δ), mixedScore ws (resultsFor runs q) d =
      .ok (((Spec.weighted runs ws q d).map (fun p => p.1 * p.2)).sum *
        Real.sqrt ((Spec.scores runs q d).length : ℝ)) := by
    intro q d
    unfold mixedScore
    rw [presentWeighted_eq ws runs hw]
    simp only [hlen]
  obtain ⟨out, h1, h2⟩ := fuseRun_spec S (mixedScore ws)
    (fun rs d => match mixedScore ws rs d with | .ok v => v | .error _ => 0) sched runs hf hs
    (fun q d _ => by rw [hv])
  refine ⟨out, h1, FusedBy_congr h2 ?_⟩
  intro q d _
  simp only [hv]

end

/-! ### a concrete instance and the refutation of C50 -/

/-- two runs over queries 1, 2 listed in different orders; doc 10 occurs in both -/
def fuseEx1 : Dict Nat (Results Nat ℚ) := [(1, [(10, 5), (11, 4)]), (2, [(20, 1)])]
def fuseEx2 : Dict Nat (Results Nat ℚ) := [(2, [(21, 3)]), (1, [(12, 6), (10, 2)])]

theorem fuseEx_fusable : Spec.Fusable [fuseEx1, fuseEx2] :=
  ⟨by decide, by unfold NodupKeys; decide, by unfold NodupKeys; decide, by decide⟩

/-- the score of a fused doc in the example, for reading off results -/
def readOut (r : Except Err (Store Nat Nat ℚ)) (q d : Nat) : Option ℚ :=
  match r with
  | .ok s => (Spec.content s).read q d
  | .error _ => none

example : readOut (combSum (.stable ℚ) [1, 0] [fuseEx1, fuseEx2]) 1 10 = some 7 := by decide +kernel
example : readOut (combMnz (.stable ℚ) [1, 0] [fuseEx1, fuseEx2]) 1 10 = some 14 := by decide +kernel
example : readOut (combMed (.stable ℚ) [1, 0] [fuseEx1, fuseEx2]) 1 10 = some (7 / 2) := by decide +kernel
example : readOut (combMin (.stable ℚ) [1, 0] [fuseEx1, fuseEx2]) 1 10 = some 2 := by decide +kernel
example : readOut (combMax (.stable ℚ) [1, 0] [fuseEx1, fuseEx2]) 1 11 = some 4 := by decide +kernel
example : readOut (wsum (.stable ℚ) [1, 0] [2, 3] [fuseEx1, fuseEx2]) 1 10 = some 16 := by decide +kernel
example : readOut (wmnz (.stable ℚ) [1, 0] [2, 3] [fuseEx1, fuseEx2]) 1 10 = some 35 := by decide +kernel

/-- **C50 refuted in general**: doc 10 has the scores 2·10⁹ (run 1) and none in run 2; comb_min gives it
the sentinel 10⁹, a score it has in no run. Symmetrically for comb_max. -/
theorem C50_sentinel_leaks :
    ∃ (r1 r2 : Dict Nat (Results Nat ℚ)), Spec.Fusable [r1, r2] ∧
      Spec.scores [r1, r2] 1 10 = [2 * 10 ^ 9] ∧ Spec.scores [r1, r2] 1 11 = [-(2 * 10 ^ 9)] ∧
      readOut (combMin (.stable ℚ) [0] [r1, r2]) 1 10 = some (10 ^ 9) ∧
      readOut (combMax (.stable ℚ) [0] [r1, r2]) 1 11 = some (-(10 ^ 9)) :=
  ⟨[(1, [(10, 2 * 10 ^ 9), (11, -(2 * 10 ^ 9))])], [(1, [(12, 1)])],
    ⟨by decide, by unfold NodupKeys; decide, by unfold NodupKeys; decide, by decide⟩,
    by decide +kernel, by decide +kernel, by decide +kernel, by decide +kernel⟩

/-- both cases of `C103` occur: doc 10 is in both runs, doc 11 only in the first -/
example : (∀ run ∈ [fuseEx1, fuseEx2], (Spec.score? run 1 10).isSome) ∧ Spec.InSome [fuseEx1, fuseEx2] 1 11 ∧
    ∃ run ∈ [fuseEx1, fuseEx2], Spec.score? run 1 11 = none :=
  ⟨by decide, ⟨fuseEx1, by simp, by decide⟩, fuseEx2, by simp, by decide⟩

end Ranx
