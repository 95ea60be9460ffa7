import Verif.Props.FusionRel
import Mathlib.Tactic.Positivity

/-!
# Property C54: fusion is monotone
-/

set_option linter.unusedSectionVars false

namespace Ranx
open Dict Fuse
open _root_.Ranx.Norm (Results SetIter)
variable {κ δ α : Type*}

section
variable [LinearOrder α]

theorem insertBy_sorted_head (a : α) (l : List α) (h : (a :: l).Pairwise (· ≤ ·)) :
    insertBy (fun x y => decide (x ≤ y)) a l = a :: l := by
  cases l with
  | nil => rfl
  | cons b t =>
    unfold insertBy
    rw [if_pos (by simpa using (List.pairwise_cons.1 h).1 b List.mem_cons_self)]

theorem insertBy_mono (l l' : List α) (a a' : α) (ha : a ≤ a') (h : List.Forall₂ (· ≤ ·) l l')
    (hs : l.Pairwise (· ≤ ·)) (hs' : l'.Pairwise (· ≤ ·)) :
    List.Forall₂ (· ≤ ·) (insertBy (fun x y => decide (x ≤ y)) a l) (insertBy (fun x y => decide (x ≤ y)) a' l') := by
  induction h generalizing a a' with
  | nil => exact .cons ha .nil
  | @cons b b' t t' hb ht ih =>
    have hst := (List.pairwise_cons.1 hs).2
    have hst' := (List.pairwise_cons.1 hs').2
    unfold insertBy
    by_cases h1 : a ≤ b <;> by_cases h2 : a' ≤ b' <;> simp only [h1, h2, decide_true, decide_false, if_true,
      Bool.false_eq_true, if_false]
    · exact .cons ha (.cons hb ht)
    · refine .cons (h1.trans hb) ?_
      have := ih b a' (hb.trans (not_le.1 h2).le) hst hst'
      rwa [insertBy_sorted_head b t hs] at this
    · refine .cons ((not_le.1 h1).le.trans ha) ?_
      have := ih a b' (ha.trans h2) hst hst'
      rwa [insertBy_sorted_head b' t' hs'] at this
    · exact .cons hb (ih a a' ha hst hst')

theorem isort_sorted (l : List α) : (isort (fun a b => decide (a ≤ b)) l).Pairwise (· ≤ ·) := by
  have := pairwise_isort (le := fun a b : α => decide (a ≤ b))
    (by intro a b c h1 h2; simp only [decide_eq_true_eq] at *; exact h1.trans h2)
    (by intro a b; simp only [Bool.or_eq_true, decide_eq_true_eq]; exact le_total a b) l
  exact this.imp (by intro a b h; simpa using h)

theorem isort_mono (l l' : List α) (h : List.Forall₂ (· ≤ ·) l l') :
    List.Forall₂ (· ≤ ·) (isort (fun a b => decide (a ≤ b)) l) (isort (fun a b => decide (a ≤ b)) l') := by
  induction h with
  | nil => exact .nil
  | cons hab _ ih => exact insertBy_mono _ _ _ _ hab ih (isort_sorted _) (isort_sorted _)

theorem forall₂_getD (l l' : List α) (z : α) (h : List.Forall₂ (· ≤ ·) l l') (i : Nat) :
    (l[i]?).getD z ≤ (l'[i]?).getD z := by
  induction h generalizing i with
  | nil => exact le_refl _
  | cons hab _ ih =>
    cases i with
    | zero => simpa using hab
    | succ n => simpa using ih n

end

section
variable [LinearOrder κ] [DecidableEq δ] [LinearOrder α] [Field α] [IsStrictOrderedRing α]

theorem forall₂_sum (l l' : List α) (h : List.Forall₂ (· ≤ ·) l l') : l.sum ≤ l'.sum := by
  induction h with
  | nil => exact le_refl _
  | cons hab _ ih => rw [List.sum_cons, List.sum_cons]; exact add_le_add hab ih

theorem median_mono (l l' : List α) (h : List.Forall₂ (· ≤ ·) l l') : median l ≤ median l' := by
  have hs := isort_mono l l' h
  have hl := hs.length_eq
  unfold median
  simp only
  rw [hl]
  by_cases hp : (isort (fun a b => decide (a ≤ b)) l').length % 2 = 1
  · rw [if_pos hp, if_pos hp]; exact forall₂_getD _ _ _ hs _
  · rw [if_neg hp, if_neg hp]
    have h1 := forall₂_getD _ _ (0 : α) hs ((isort (fun a b => decide (a ≤ b)) l').length / 2 - 1)
    have h2 := forall₂_getD _ _ (0 : α) hs ((isort (fun a b => decide (a ≤ b)) l').length / 2)
    linarith

/-- Specification: the second list of runs has doc `d` for query `q` in the same runs as the first, each time with
a score at least as high. (Everything else about the runs may differ.) -/
def Spec.Raised (runs runs' : List (Spec.RunData κ δ α)) (q : κ) (d : δ) : Prop :=
  List.Forall₂ (fun r r' => match Spec.score? r q d, Spec.score? r' q d with
    | some s, some s' => s ≤ s'
    | none, none => True
    | _, _ => False) runs runs'

theorem Raised_scores {runs runs' : List (Spec.RunData κ δ α)} {q : κ} {d : δ} (h : Spec.Raised runs runs' q d) :
    List.Forall₂ (· ≤ ·) (Spec.scores runs q d) (Spec.scores runs' q d) := by
  unfold Spec.scores
  induction h with
  | nil => exact .nil
  | @cons r r' t t' hr _ ih =>
    rw [List.filterMap_cons, List.filterMap_cons]
    revert hr
    cases Spec.score? r q d <;> cases Spec.score? r' q d <;> intro hr
    · exact ih
    · exact absurd hr id
    · exact absurd hr id
    · exact .cons hr ih

theorem Raised_weighted {runs runs' : List (Spec.RunData κ δ α)} {q : κ} {d : δ} (h : Spec.Raised runs runs' q d)
    (ws : List α) : List.Forall₂ (fun p p' => p.1 ≤ p'.1 ∧ p.2 = p'.2 ∧ p.2 ∈ ws)
      (Spec.weighted runs ws q d) (Spec.weighted runs' ws q d) := by
  suffices ∀ us : List α, (∀ u ∈ us, u ∈ ws) → List.Forall₂ (fun p p' => p.1 ≤ p'.1 ∧ p.2 = p'.2 ∧ p.2 ∈ ws)
      (Spec.weighted runs us q d) (Spec.weighted runs' us q d) from this ws (fun _ h => h)
  unfold Spec.weighted
  induction h with
  | nil => intro us _; exact .nil
  | @cons r r' t t' hr _ ih =>
    intro us hus
    cases us with
    | nil => exact .nil
    | cons w us =>
      have ih' := ih us (fun u hu => hus u (List.mem_cons_of_mem _ hu))
      rw [List.zip_cons_cons, List.zip_cons_cons, List.filterMap_cons, List.filterMap_cons]
      revert hr
      cases Spec.score? r q d <;> cases Spec.score? r' q d <;> intro hr
      · exact ih'
      · exact absurd hr id
      · exact absurd hr id
      · exact .cons ⟨hr, rfl, hus w List.mem_cons_self⟩ ih'

theorem Raised_inSome {runs runs' : List (Spec.RunData κ δ α)} {q : κ} {d : δ} (h : Spec.Raised runs runs' q d) :
    Spec.InSome runs q d → Spec.InSome runs' q d := by
  have aux : ∀ (r : Spec.RunData κ δ α), (∃ x, r.get? q = some x ∧ d ∈ x.keys) ↔ (Spec.score? r q d).isSome := by
    intro r
    unfold Spec.score?
    cases r.get? q with
    | none => simp
    | some x => simp [get?_isSome]
  unfold Spec.InSome
  simp only [aux]
  induction h with
  | nil => exact id
  | @cons r r' t t' hr _ ih =>
    rintro ⟨run, hm, hs⟩
    rcases List.mem_cons.1 hm with rfl | hm
    · refine ⟨r', List.mem_cons_self, ?_⟩
      revert hr
      cases h1 : Spec.score? run q d <;> cases h2 : Spec.score? r' q d <;> intro hr
      · rw [h1] at hs; simp at hs
      · rfl
      · exact absurd hr id
      · rfl
    · obtain ⟨x, hx, hs⟩ := ih ⟨run, hm, hs⟩
      exact ⟨x, List.mem_cons_of_mem _ hx, hs⟩

/-- Specification: raising doc `d` does not lower its fused score: it has one in both outputs, the second at least as
high. -/
def Spec.NotLowered (out out' : Store κ δ α) (q : κ) (d : δ) : Prop :=
  ∃ v v', (Spec.content out).read q d = some v ∧ (Spec.content out').read q d = some v' ∧ v ≤ v'

theorem FusedBy_notLowered {runs runs' : List (Spec.RunData κ δ α)} {val val' : κ → δ → α} {out out' : Store κ δ α}
    (h : Spec.FusedBy runs val out) (h' : Spec.FusedBy runs' val' out') {q : κ} {d : δ}
    (hi : Spec.InSome runs q d) (hr : Spec.Raised runs runs' q d) (hv : val q d ≤ val' q d) :
    Spec.NotLowered out out' q d :=
  ⟨_, _, h.value q d hi, h'.value q d (Raised_inSome hr hi), hv⟩

variable (S S' : ArgSort α) (sched sched' : List Nat) (runs runs' : List (Dict κ (Results δ α)))
  (hf : Spec.Fusable runs) (hf' : Spec.Fusable runs') (hs : Schedule (queryCount runs) sched)
  (hs' : Schedule (queryCount runs') sched') (q : κ) (d : δ) (hi : Spec.InSome runs q d)
  (hr : Spec.Raised runs runs' q d)

include hf hf' hs hs' hi hr

/-- **C54** comb_sum -/
theorem C54_sum : ∃ out out', combSum S sched runs = .ok out ∧ combSum S' sched' runs' = .ok out' ∧
    Spec.NotLowered out out' q d := by
  obtain ⟨out, h1, h2⟩ := C49_comb_sum S sched runs hf hs
  obtain ⟨out', h3, h4⟩ := C49_comb_sum S' sched' runs' hf' hs'
  exact ⟨out, out', h1, h3, FusedBy_notLowered h2 h4 hi hr (forall₂_sum _ _ (Raised_scores hr))⟩

/-- **C54** comb_mnz -/
theorem C54_mnz : ∃ out out', combMnz S sched runs = .ok out ∧ combMnz S' sched' runs' = .ok out' ∧
    Spec.NotLowered out out' q d := by
  obtain ⟨out, h1, h2⟩ := C49_comb_mnz S sched runs hf hs
  obtain ⟨out', h3, h4⟩ := C49_comb_mnz S' sched' runs' hf' hs'
  refine ⟨out, out', h1, h3, FusedBy_notLowered h2 h4 hi hr ?_⟩
  rw [(Raised_scores hr).length_eq]
  exact mul_le_mul_of_nonneg_right (forall₂_sum _ _ (Raised_scores hr)) (Nat.cast_nonneg _)

/-- **C54** comb_anz -/
theorem C54_anz : ∃ out out', combAnz S sched runs = .ok out ∧ combAnz S' sched' runs' = .ok out' ∧
    Spec.NotLowered out out' q d := by
  obtain ⟨out, h1, h2⟩ := C49_comb_anz S sched runs hf hs
  obtain ⟨out', h3, h4⟩ := C49_comb_anz S' sched' runs' hf' hs'
  refine ⟨out, out', h1, h3, FusedBy_notLowered h2 h4 hi hr ?_⟩
  rw [(Raised_scores hr).length_eq]
  exact div_le_div_of_nonneg_right (forall₂_sum _ _ (Raised_scores hr)) (Nat.cast_nonneg _)

/-- **C54** comb_med -/
theorem C54_med : ∃ out out', combMed S sched runs = .ok out ∧ combMed S' sched' runs' = .ok out' ∧
    Spec.NotLowered out out' q d := by
  obtain ⟨out, val, h1, h2, h2m⟩ := C49_comb_med S sched runs hf hs
  obtain ⟨out', val', h3, h4, h4m⟩ := C49_comb_med S' sched' runs' hf' hs'
  refine ⟨out, out', h1, h3, FusedBy_notLowered h2 h4 hi hr ?_⟩
  have hi' := Raised_inSome hr hi
  rw [(h2m q d hi).unique (median_spec _ (scores_ne_nil hi)),
    (h4m q d hi').unique (median_spec _ (scores_ne_nil hi'))]
  exact median_mono _ _ (Raised_scores hr)

omit hf hf' hs hs' hi in
theorem Raised_getD (z : α) : List.Forall₂ (· ≤ ·) (runs.map (fun r => (Spec.score? r q d).getD z))
    (runs'.map (fun r => (Spec.score? r q d).getD z)) := by
  unfold Spec.Raised at hr
  induction hr with
  | nil => exact .nil
  | @cons r r' t t' hr _ ih =>
    refine .cons ?_ ih
    revert hr
    simp only
    cases Spec.score? r q d <;> cases Spec.score? r' q d <;> intro hr
    · exact le_refl z
    · exact absurd hr id
    · exact absurd hr id
    · exact hr

omit [LinearOrder κ] [DecidableEq δ] [Field α] [IsStrictOrderedRing α] hf hf' hs hs' hi hr in
theorem forall₂_exists {l l' : List α} (h : List.Forall₂ (· ≤ ·) l l') :
    (∀ y ∈ l', ∃ x ∈ l, x ≤ y) ∧ ∀ x ∈ l, ∃ y ∈ l', x ≤ y := by
  induction h with
  | nil => simp
  | cons hab _ ih =>
    constructor
    · intro y hy
      rcases List.mem_cons.1 hy with rfl | hy
      · exact ⟨_, List.mem_cons_self, hab⟩
      · obtain ⟨x, hx, h⟩ := ih.1 y hy
        exact ⟨x, List.mem_cons_of_mem _ hx, h⟩
    · intro y hy
      rcases List.mem_cons.1 hy with rfl | hy
      · exact ⟨_, List.mem_cons_self, hab⟩
      · obtain ⟨x, hx, h⟩ := ih.2 y hy
        exact ⟨x, List.mem_cons_of_mem _ hx, h⟩

/-- **C54** comb_min (the sentinel for absent docs does not break monotonicity) -/
theorem C54_min : ∃ out out', combMin S sched runs = .ok out ∧ combMin S' sched' runs' = .ok out' ∧
    Spec.NotLowered out out' q d := by
  have key : ∀ (S : ArgSort α) (sched : List Nat) (runs : List (Dict κ (Results δ α))) (_ : Spec.Fusable runs)
      (_ : Schedule (queryCount runs) sched), ∃ out val, combMin S sched runs = .ok out ∧
        Spec.FusedBy runs val out ∧
        val q d ∈ runs.map (fun run => (Spec.score? run q d).getD (10 ^ 9)) ∧
        ∀ x ∈ runs.map (fun run => (Spec.score? run q d).getD (10 ^ 9)), val q d ≤ x := by
    intro S sched runs hf hs
    obtain ⟨out, h1, h2⟩ := fuseRun_spec S minScore
      (fun rs d => match minScore rs d with | .ok v => v | .error _ => 0) sched runs hf hs
      (fun q d _ => by
        obtain ⟨m, hm, _⟩ := minScore_eq runs hf.nonempty q d
        rw [hm])
    refine ⟨out, _, h1, h2, ?_⟩
    obtain ⟨m, hm, hmem, hmin⟩ := minScore_eq runs hf.nonempty q d
    simp only [hm]
    exact ⟨hmem, hmin⟩
  obtain ⟨out, val, h1, h2, hm, hmin⟩ := key S sched runs hf hs
  obtain ⟨out', val', h3, h4, hm', hmin'⟩ := key S' sched' runs' hf' hs'
  refine ⟨out, out', h1, h3, FusedBy_notLowered h2 h4 hi hr ?_⟩
  obtain ⟨x, hx, hle⟩ := (forall₂_exists (Raised_getD runs runs' q d hr (10 ^ 9))).1 _ hm'
  exact (hmin x hx).trans hle

/-- **C54** comb_max -/
theorem C54_max : ∃ out out', combMax S sched runs = .ok out ∧ combMax S' sched' runs' = .ok out' ∧
    Spec.NotLowered out out' q d := by
  have key : ∀ (S : ArgSort α) (sched : List Nat) (runs : List (Dict κ (Results δ α))) (_ : Spec.Fusable runs)
      (_ : Schedule (queryCount runs) sched), ∃ out val, combMax S sched runs = .ok out ∧
        Spec.FusedBy runs val out ∧
        val q d ∈ runs.map (fun run => (Spec.score? run q d).getD (-(10 ^ 9))) ∧
        ∀ x ∈ runs.map (fun run => (Spec.score? run q d).getD (-(10 ^ 9))), x ≤ val q d := by
    intro S sched runs hf hs
    obtain ⟨out, h1, h2⟩ := fuseRun_spec S maxScore
      (fun rs d => match maxScore rs d with | .ok v => v | .error _ => 0) sched runs hf hs
      (fun q d _ => by
        obtain ⟨m, hm, _⟩ := maxScore_eq runs hf.nonempty q d
        rw [hm])
    refine ⟨out, _, h1, h2, ?_⟩
    obtain ⟨m, hm, hmem, hmin⟩ := maxScore_eq runs hf.nonempty q d
    simp only [hm]
    exact ⟨hmem, hmin⟩
  obtain ⟨out, val, h1, h2, hm, hmin⟩ := key S sched runs hf hs
  obtain ⟨out', val', h3, h4, hm', hmin'⟩ := key S' sched' runs' hf' hs'
  refine ⟨out, out', h1, h3, FusedBy_notLowered h2 h4 hi hr ?_⟩
  obtain ⟨x, hx, hle⟩ := (forall₂_exists (Raised_getD runs runs' q d hr (-(10 ^ 9)))).2 _ hm
  exact hle.trans (hmin' x hx)

/-- **C54** wsum with non-negative weights -/
theorem C54_wsum (ws : List α) (hw : runs.length ≤ ws.length) (hw' : runs'.length ≤ ws.length) (hpos : ∀ w ∈ ws, 0 ≤ w) :
    ∃ out out', wsum S sched ws runs = .ok out ∧ wsum S' sched' ws runs' = .ok out' ∧
    Spec.NotLowered out out' q d := by
  obtain ⟨out, h1, h2⟩ := C49_wsum S sched ws runs hf hw hs
  obtain ⟨out', h3, h4⟩ := C49_wsum S' sched' ws runs' hf' hw' hs'
  refine ⟨out, out', h1, h3, FusedBy_notLowered h2 h4 hi hr ?_⟩
  apply forall₂_sum
  rw [List.forall₂_map_left_iff, List.forall₂_map_right_iff]
  refine (Raised_weighted hr ws).imp ?_
  rintro p p' ⟨h1, h2, h3⟩
  rw [← h2]
  exact mul_le_mul_of_nonneg_left h1 (hpos _ h3)

/-- **C54** wmnz with non-negative weights -/
theorem C54_wmnz (ws : List α) (hw : runs.length ≤ ws.length) (hw' : runs'.length ≤ ws.length) (hpos : ∀ w ∈ ws, 0 ≤ w) :
    ∃ out out', wmnz S sched ws runs = .ok out ∧ wmnz S' sched' ws runs' = .ok out' ∧
    Spec.NotLowered out out' q d := by
  obtain ⟨out, h1, h2⟩ := C49_wmnz S sched ws runs hf hw hs
  obtain ⟨out', h3, h4⟩ := C49_wmnz S' sched' ws runs' hf' hw' hs'
  refine ⟨out, out', h1, h3, FusedBy_notLowered h2 h4 hi hr ?_⟩
  have hrw := Raised_weighted hr ws
  have e1 : ((Spec.weighted runs ws q d).map Prod.fst).sum ≤ ((Spec.weighted runs' ws q d).map Prod.fst).sum := by
    apply forall₂_sum
    rw [List.forall₂_map_left_iff, List.forall₂_map_right_iff]
    exact hrw.imp (fun _ _ h => h.1)
  have e2 : (Spec.weighted runs ws q d).map Prod.snd = (Spec.weighted runs' ws q d).map Prod.snd := by
    rw [← List.forall₂_eq_eq_eq, List.forall₂_map_left_iff, List.forall₂_map_right_iff]
    exact hrw.imp (fun _ _ h => h.2.1)
  have e3 : 0 ≤ ((Spec.weighted runs ws q d).map Prod.snd).sum := by
    apply List.sum_nonneg
    intro x hx
    obtain ⟨p, hp, rfl⟩ := List.mem_map.1 hx
    obtain ⟨rw', hm, he⟩ := List.mem_filterMap.1 hp
    obtain ⟨s, _, rfl⟩ := Option.map_eq_some_iff.1 he
    exact hpos _ (List.of_mem_zip hm).2
  rw [← e2]
  exact mul_le_mul_of_nonneg_right e1 e3

end

section
variable [LinearOrder κ] [DecidableEq δ]
variable (S S' : ArgSort ℝ) (sched sched' : List Nat) (runs runs' : List (Dict κ (Results δ ℝ)))
  (hf : Spec.Fusable runs) (hf' : Spec.Fusable runs') (hs : Schedule (queryCount runs) sched)
  (hs' : Schedule (queryCount runs') sched') (q : κ) (d : δ) (hi : Spec.InSome runs q d)
  (hr : Spec.Raised runs runs' q d)

include hf hf' hs hs' hi hr

/-- **C54** comb_gmnz, for every γ -/
theorem C54_gmnz (gamma : ℝ) : ∃ out out', combGmnz S sched gamma runs = .ok out ∧
    combGmnz S' sched' gamma runs' = .ok out' ∧ Spec.NotLowered out out' q d := by
  obtain ⟨out, h1, h2⟩ := C49_comb_gmnz S sched gamma runs hf hs
  obtain ⟨out', h3, h4⟩ := C49_comb_gmnz S' sched' gamma runs' hf' hs'
  refine ⟨out, out', h1, h3, FusedBy_notLowered h2 h4 hi hr ?_⟩
  rw [(Raised_scores hr).length_eq]
  exact mul_le_mul_of_nonneg_right (forall₂_sum _ _ (Raised_scores hr)) (Real.rpow_nonneg (Nat.cast_nonneg _) _)

/-- **C54** mixed with non-negative weights -/
theorem C54_mixed (ws : List ℝ) (hw : runs.length ≤ ws.length) (hw' : runs'.length ≤ ws.length) (hpos : ∀ w ∈ ws, 0 ≤ w) :
    ∃ out out', mixed S sched ws runs = .ok out ∧ mixed S' sched' ws runs' = .ok out' ∧
    Spec.NotLowered out out' q d := by
  obtain ⟨out, h1, h2⟩ := C49_mixed S sched ws runs hf hw hs
  obtain ⟨out', h3, h4⟩ := C49_mixed S' sched' ws runs' hf' hw' hs'
  refine ⟨out, out', h1, h3, FusedBy_notLowered h2 h4 hi hr ?_⟩
  rw [(Raised_scores hr).length_eq]
  refine mul_le_mul_of_nonneg_right ?_ (Real.sqrt_nonneg _)
  apply forall₂_sum
  rw [List.forall₂_map_left_iff, List.forall₂_map_right_iff]
  refine (Raised_weighted hr ws).imp ?_
  rintro p p' ⟨h1, h2, h3⟩
  rw [← h2]
  exact mul_le_mul_of_nonneg_right h1 (hpos _ h3)

end

/-! ### docs ranked higher everywhere -/

section
variable [LinearOrder κ] [DecidableEq δ] [LinearOrder α] [Field α] [IsStrictOrderedRing α]

/-- Specification: in every run that has doc `e` for query `q`, doc `d` comes before it -/
def Spec.Above (runs : List (Spec.RunData κ δ α)) (q : κ) (d e : δ) : Prop :=
  ∀ run ∈ runs, ∀ j, Spec.position? run q e = some j → ∃ i, i < j ∧ Spec.position? run q d = some i

theorem positions_sum (runs : List (Spec.RunData κ δ α)) (q : κ) (d : δ) (g : Nat → α) :
    ((Spec.positions runs q d).map g).sum = (runs.map (fun run => ((Spec.position? run q d).map g).getD 0)).sum := by
  unfold Spec.positions
  induction runs with
  | nil => rfl
  | cons r t ih =>
    rw [List.map_cons, List.sum_cons, ← ih, List.filterMap_cons]
    cases Spec.position? r q d with
    | none => simp
    | some i => simp

theorem above_sum (runs : List (Spec.RunData κ δ α)) (q : κ) (d e : δ) (h : Spec.Above runs q d e) (g : Nat → α)
    (h0 : ∀ i, 0 ≤ g i) (hg : ∀ i j, i ≤ j → g j ≤ g i) :
    ((Spec.positions runs q e).map g).sum ≤ ((Spec.positions runs q d).map g).sum := by
  rw [positions_sum, positions_sum]
  apply List.sum_le_sum
  intro run hr
  cases he : Spec.position? run q e with
  | none =>
    cases Spec.position? run q d with
    | none => exact le_refl _
    | some i => exact h0 i
  | some j =>
    obtain ⟨i, hij, hd⟩ := h run hr j he
    rw [hd]
    exact hg i j hij.le

theorem above_length (runs : List (Spec.RunData κ δ α)) (q : κ) (d e : δ) (h : Spec.Above runs q d e) :
    (Spec.positions runs q e).length ≤ (Spec.positions runs q d).length := by
  unfold Spec.positions
  induction runs with
  | nil => exact le_refl _
  | cons r t ih =>
    have ih' := ih (fun run hr => h run (List.mem_cons_of_mem _ hr))
    rw [List.filterMap_cons, List.filterMap_cons]
    cases he : Spec.position? r q e with
    | none =>
      cases Spec.position? r q d with
      | none => exact ih'
      | some i => simp only [List.length_cons]; omega
    | some j =>
      obtain ⟨i, hij, hd⟩ := h r List.mem_cons_self j he
      rw [hd]
      simp only [List.length_cons]; omega

theorem above_inSome (runs : List (Spec.RunData κ δ α)) (hf : Spec.Fusable runs) (q : κ) (d e : δ)
    (h : Spec.Above runs q d e) (hi : Spec.InSome runs q e) : Spec.InSome runs q d := by
  obtain ⟨run, hr, r, hg, he⟩ := hi
  have hp : ∃ j, Spec.position? run q e = some j := by
    unfold Spec.position?
    rw [hg]
    obtain ⟨j, hj, hje⟩ := List.getElem_of_mem he
    refine ⟨j, ?_⟩
    rw [Option.bind_some]
    exact (idxOf?_eq_some_iff (hf.nodupD run hr (q, r) (mem_of_get? hg))).2 (by
      change r.keys[j]? = some e
      rw [List.getElem?_eq_getElem hj, hje])
  obtain ⟨j, hj⟩ := hp
  obtain ⟨i, _, hd⟩ := h run hr j hj
  refine ⟨run, hr, r, hg, ?_⟩
  unfold Spec.position? at hd
  rw [hg, Option.bind_some] at hd
  exact List.mem_of_getElem? ((idxOf?_eq_some_iff (hf.nodupD run hr (q, r) (mem_of_get? hg))).1 hd)

/-- Specification: doc `d` gets a fused score at least that of `e` -/
def Spec.AtLeast (out : Store κ δ α) (q : κ) (d e : δ) : Prop :=
  ∃ v w, (Spec.content out).read q d = some v ∧ (Spec.content out).read q e = some w ∧ w ≤ v

variable (S : ArgSort α) (sched : List Nat) (scheds : Nat → List Nat) (runs : List (Dict κ (Results δ α)))
  (hf : Spec.Fusable runs) (hs : Schedule (queryCount runs) sched)
  (hss : ∀ (j : Nat) run, runs[j]? = some run → Schedule run.length (scheds j))
  (q : κ) (d e : δ) (hi : Spec.InSome runs q e) (ha : Spec.Above runs q d e)

include hf hs hss hi ha

/-- **C54** rrf with `k ≥ 0` -/
theorem C54_rrf (k : α) (hk : 0 ≤ k) : ∃ out, rrf S sched scheds k runs = .ok out ∧ Spec.AtLeast out q d e := by
  obtain ⟨out, h1, h2⟩ := C51_rrf S sched scheds k runs (ranksClear_of_nonneg hk runs) hf hs hss
  refine ⟨out, h1, _, _, h2.value q d (above_inSome runs hf q d e ha hi), h2.value q e hi, ?_⟩
  refine above_sum runs q d e ha (fun i => 1 / (k + (i : α) + 1)) (fun i => by positivity) (fun i j hij => ?_)
  have : (i : α) ≤ (j : α) := by exact_mod_cast hij
  exact one_div_le_one_div_of_le (by positivity) (by linarith)

/-- **C54** isr -/
theorem C54_isr : ∃ out, isr S sched scheds runs = .ok out ∧ Spec.AtLeast out q d e := by
  obtain ⟨out, h1, h2⟩ := C51_isr S sched scheds runs hf hs hss
  refine ⟨out, h1, _, _, h2.value q d (above_inSome runs hf q d e ha hi), h2.value q e hi, ?_⟩
  have h3 := above_length runs q d e ha
  refine mul_le_mul (above_sum runs q d e ha (fun i => 1 / ((i : α) + 1) ^ 2) (fun i => by positivity) (fun i j hij => ?_))
    (by exact_mod_cast h3) (Nat.cast_nonneg _) ?_
  · have : (i : α) ≤ (j : α) := by exact_mod_cast hij
    exact one_div_le_one_div_of_le (by positivity) (by gcongr)
  · apply List.sum_nonneg
    intro x hx
    obtain ⟨i, _, rfl⟩ := List.mem_map.1 hx
    positivity

/-- **C54** rbc with `0 ≤ φ ≤ 1` -/
theorem C54_rbc (phi : α) (h0 : 0 ≤ phi) (h1 : phi ≤ 1) :
    ∃ out, rbc S sched scheds phi runs = .ok out ∧ Spec.AtLeast out q d e := by
  obtain ⟨out, h3, h2⟩ := C51_rbc S sched scheds phi runs hf hs hss
  refine ⟨out, h3, _, _, h2.value q d (above_inSome runs hf q d e ha hi), h2.value q e hi, ?_⟩
  have h1' : 0 ≤ 1 - phi := by linarith
  refine above_sum runs q d e ha (fun i => (1 - phi) * phi ^ i) (fun i => by positivity) (fun i j hij => ?_)
  exact mul_le_mul_of_nonneg_left (pow_le_pow_of_le_one h0 h1 hij) h1'

omit hs hss hi ha in
theorem poolSize_ge (run : Dict κ (Results δ α)) (hr : run ∈ runs) :
    ((run.get? q).getD []).length ≤ Spec.poolSize runs q := by
  unfold Spec.poolSize
  have hn : ((run.get? q).getD []).keys.Nodup := by
    cases hg : run.get? q with
    | none => exact nodupKeys_nil
    | some r => exact hf.nodupD run hr (q, r) (mem_of_get? hg)
  have : ((run.get? q).getD []).length = (((run.get? q).getD []).keys).toFinset.card := by
    rw [List.toFinset_card_of_nodup hn, length_keys]
  rw [this]
  apply Finset.card_le_card
  intro x hx
  rw [List.mem_toFinset] at hx ⊢
  exact List.mem_flatMap.2 ⟨run, hr, hx⟩

/-- **C54** bordafuse (queries listed in the same order, see C51) -/
theorem C54_bordafuse (I : SetIter δ) (hq : ∀ run ∈ runs, ∀ run' ∈ runs, run.keys = run'.keys) :
    ∃ out, bordafuse S sched scheds I runs = .ok out ∧ Spec.AtLeast out q d e := by
  obtain ⟨out, h1, h2⟩ := C51_bordafuse_partial S sched scheds I runs hf hq hs hss
  refine ⟨out, h1, _, _, h2.value q d (above_inSome runs hf q d e ha hi), h2.value q e hi, ?_⟩
  apply List.sum_le_sum
  intro run hr
  have hn := poolSize_ge runs hf q run hr
  unfold Spec.bordaPoints
  have hlt : ∀ x i, Spec.position? run q x = some i → i < ((run.get? q).getD []).length := by
    intro x i h
    unfold Spec.position? at h
    cases hg : run.get? q with
    | none => rw [hg] at h; simp at h
    | some r =>
      rw [hg, Option.bind_some] at h
      have := (List.getElem?_eq_some_iff.1 ((idxOf?_eq_some_iff (hf.nodupD run hr (q, r) (mem_of_get? hg))).1 h)).1
      simpa using this
  have hn' : ((((run.get? q).getD []).length : Nat) : α) ≤ (Spec.poolSize runs q : α) := by exact_mod_cast hn
  cases he : Spec.position? run q e with
  | none =>
    cases hd : Spec.position? run q d with
    | none => exact le_refl _
    | some i =>
      have := hlt d i hd
      have : (i : α) + 1 ≤ ((((run.get? q).getD []).length : Nat) : α) := by exact_mod_cast this
      simp only
      linarith
  | some j =>
    obtain ⟨i, hij, hd⟩ := ha run hr j he
    rw [hd]
    have : (i : α) ≤ (j : α) := by exact_mod_cast hij.le
    simp only
    linarith

end

/-- the hypotheses are met: in both example runs below doc 12 comes before doc 10 whenever 10 occurs; raising doc 10 -/
example : Spec.Above [[(1, [(12, 7), (10, 5)])], [(1, [(12, 6), (11, 3), (10, (2 : ℚ))])]] 1 12 10 := by
  intro run hr j hj
  simp only [List.mem_cons, List.not_mem_nil, or_false] at hr
  rcases hr with rfl | rfl
  · have : Spec.position? [(1, [(12, 7), (10, (5 : ℚ))])] 1 10 = some 1 := by decide +kernel
    rw [this] at hj; cases hj
    exact ⟨0, by omega, by decide +kernel⟩
  · have : Spec.position? [(1, [(12, 6), (11, 3), (10, (2 : ℚ))])] 1 10 = some 2 := by decide +kernel
    rw [this] at hj; cases hj
    exact ⟨0, by omega, by decide +kernel⟩

example : Spec.Raised [fuseEx1, fuseEx2] [[(1, [(10, 9), (11, 4)]), (2, [(20, 1)])], fuseEx2] 1 10 := by
  refine .cons ?_ (.cons ?_ .nil)
  · have h1 : Spec.score? fuseEx1 1 10 = some 5 := by decide +kernel
    have h2 : Spec.score? [(1, [(10, (9 : ℚ)), (11, 4)]), (2, [(20, 1)])] 1 10 = some 9 := by decide +kernel
    rw [h1, h2]; norm_num
  · have h2 : Spec.score? fuseEx2 1 10 = some 2 := by decide +kernel
    rw [h2]
example : Spec.InSome [fuseEx1, fuseEx2] 1 10 := ⟨fuseEx1, by simp, [(10, 5), (11, 4)], rfl, by decide⟩

end Ranx
