import Verif.Lemmas.MetricsSpec
import Mathlib.Tactic.Linarith
import Mathlib.Tactic.Positivity

/-! # Lemmas: hit lists, bpref, interpolated precision, relabelling -/

set_option linter.unusedSectionVars false

namespace Ranx
open Metrics Finset
variable {ι α : Type*} [LinearOrder ι] [LinearOrder α] [Field α]

theorem look_nil (x : ι) : look ([] : Rows ι α) x = none := rfl

theorem getHitList_eq (q run : Rows ι α) (k : Nat) (lvl : α) :
    getHitList q run k lvl = (Spec.top k (run.map Prod.fst)).map
      (fun x => if (look (cleanQrels q lvl) x).isSome then 1 else 0) := by
  unfold getHitList
  by_cases h : (cleanQrels q lvl).length = 0
  · simp only [if_pos h]
    rw [List.length_eq_zero_iff] at h
    rw [h, fixK_eq_length]
    simp [look_nil]
  · simp only [if_neg h]
    exact hitList_eq _ _ _

theorem getUnjudgedList_eq (q run : Rows ι α) (k : Nat) :
    getUnjudgedList q run k = (Spec.top k (run.map Prod.fst)).map
      (fun x => if (look q x).isSome then 0 else 1) := by
  unfold getUnjudgedList
  by_cases h : q.length = 0
  · simp only [if_pos h]
    rw [List.length_eq_zero_iff] at h
    rw [h, fixK_eq_length]
    simp [look_nil]
  · simp only [if_neg h]
    rw [← take_fixK, List.map_map]; rfl

theorem getNonRelList_eq (q run : Rows ι α) (k : Nat) :
    getNonRelList q run k = (Spec.top k (run.map Prod.fst)).map
      (fun x => if (look (q.filter (fun r => decide (r.2 = 0))) x).isSome then 1 else 0) := by
  unfold getNonRelList
  by_cases h : (q.filter (fun r => decide (r.2 = 0))).length = 0
  · simp only [if_pos h]
    rw [List.length_eq_zero_iff] at h
    rw [h, fixK_eq_length]
    simp [look_nil]
  · simp only [if_neg h]
    exact hitList_eq _ _ _

/-! ## bpref -/

/-- the list of hits among judged docs -/
def judgedHits (rel jud : ι → Bool) (l : List ι) : List α :=
  (((l.map (fun x => if rel x then (1 : α) else 0)).zip
    (l.map (fun x => if jud x then (0 : α) else 1))).filter (fun x => decide (x.2 ≠ 1))).map Prod.fst

theorem judgedHits_cons (rel jud : ι → Bool) (x : ι) (t : List ι) :
    (judgedHits rel jud (x :: t) : List α) =
      if jud x then (if rel x then 1 else 0) :: judgedHits rel jud t else judgedHits rel jud t := by
  unfold judgedHits
  cases h : jud x <;> simp [h]

theorem relIn_cons (p : ι → Prop) [DecidablePred p] (x : ι) (t : List ι) (n : Nat) :
    Spec.relIn p (x :: t) (n + 1) = (if p x then 1 else 0) + Spec.relIn p t n := by
  rw [relIn_eq_countP, relIn_eq_countP, List.take_succ_cons, List.countP_cons]
  simp [add_comm]

theorem nonHits_sum (rel jud : ι → Bool) (hj : ∀ x, rel x → jud x) (l : List ι) (c : Nat)
    (f : Nat → α) :
    ((nonHitsBefore (judgedHits rel jud l : List α) c).map f).sum =
      ∑ i ∈ range l.length, if ∃ x, l[i]? = some x ∧ rel x = true then
        f (c + Spec.relIn (fun x => jud x = true ∧ ¬ rel x = true) l i) else 0 := by
  induction l generalizing c with
  | nil => simp [judgedHits, nonHitsBefore]
  | cons x t ih =>
    rw [List.length_cons, Finset.sum_range_succ']
    have hz : Spec.relIn (fun x => jud x = true ∧ ¬ rel x = true) (x :: t) 0 = 0 := by
      simp [Spec.relIn]
    rw [hz]
    simp only [List.getElem?_cons_succ, List.getElem?_cons_zero, relIn_cons, Option.some.injEq,
      exists_eq_left', ← Nat.add_assoc]
    rw [judgedHits_cons]
    by_cases hr : rel x = true
    · have hjx := hj x hr
      simp only [hr, hjx, if_true, nonHitsBefore, one_ne_zero, if_false, List.map_cons,
        List.sum_cons, not_true, and_false, add_zero]
      rw [ih, add_comm]
    · by_cases hjx : jud x = true
      · simp only [hr, hjx, if_true, nonHitsBefore, Bool.false_eq_true, if_false, zero_ne_one, not_false_iff,
          and_true, add_zero]
        exact ih _
      · simp only [hr, hjx, Bool.false_eq_true, if_false, not_false_iff, and_true, add_zero]
        exact ih _

theorem nonHits_nil (rel jud : ι → Bool) (hj : ∀ x, rel x → jud x) (l : List ι) (c : Nat) :
    nonHitsBefore (judgedHits rel jud l : List α) c = [] ↔ ∀ x ∈ l, ¬ rel x = true := by
  induction l generalizing c with
  | nil => simp [judgedHits, nonHitsBefore]
  | cons x t ih =>
    rw [judgedHits_cons]
    by_cases hr : rel x = true
    · have hjx := hj x hr
      simp [hr, hjx, nonHitsBefore]
    · by_cases hjx : jud x = true
      · simp [hr, hjx, nonHitsBefore, ih]
      · simp [hr, hjx, ih]

theorem count_le_rows (q : Rows ι α) (P : ι × α → Bool) (p : ι → Prop) (ids : List ι)
    (hids : ids.Nodup) (n : Nat) (hp : ∀ x, p x → ∃ v, (x, v) ∈ q ∧ P (x, v)) :
    Spec.relIn p ids n ≤ (q.filter P).length := by
  classical
  rw [relIn_eq_countP, List.countP_eq_length_filter]
  have hn : ((ids.take n).filter (fun x => decide (p x))).Nodup :=
    List.Nodup.filter _ (hids.sublist (List.take_sublist _ _))
  have hs : ((ids.take n).filter (fun x => decide (p x))) ⊆ (q.filter P).map Prod.fst := by
    intro x hx
    obtain ⟨v, hv, hP⟩ := hp x (by simpa using (List.mem_filter.1 hx).2)
    exact List.mem_map.2 ⟨(x, v), List.mem_filter.2 ⟨hv, hP⟩, rfl⟩
  have := (List.subperm_of_subset hn hs).length_le
  simpa using this

theorem relIn_congr {p p' : ι → Prop} (h : ∀ x, p x ↔ p' x) (l : List ι) (n : Nat) :
    Spec.relIn p l n = Spec.relIn p' l n := by
  rw [show p = p' from funext fun x => propext (h x)]

/-- **bpref** as code -/
theorem bpref_eq (q run : Rows ι α) (lvl : α) :
    bpref q run lvl =
      if Spec.numRel q lvl = 0 then .error .zeroDivision
      else if min (Spec.numRel q lvl) (Spec.numNonRel q lvl) = 0 then
        if ∀ x ∈ run.map Prod.fst, ¬ (look (cleanQrels q lvl) x).isSome then .ok (.val 0) else .ok .nan
      else .ok (.val (Spec.bpref (Spec.Rel q lvl) (Spec.NonRel q lvl) (Spec.numRel q lvl)
        (Spec.numNonRel q lvl) (run.map Prod.fst))) := by
  classical
  have hN : Spec.numNonRel q lvl = (q.filter (fun r => decide (r.2 < lvl))).length := by
    unfold Spec.numNonRel; congr!
  have hR : Spec.numRel q lvl = (q.filter (fun r => decide (lvl ≤ r.2))).length := numRel_eq q lvl
  have hj : ∀ x, (look (cleanQrels q lvl) x).isSome = true → (look q x).isSome = true := by
    intro x hx
    rw [look_clean_isSome] at hx
    rw [look_isSome]
    obtain ⟨v, hv, _⟩ := hx
    exact ⟨v, hv⟩
  have hl : ((List.zip (getHitList q run 0 lvl) (getUnjudgedList q run 0)).filter
      (fun x => decide (x.2 ≠ 1))).map Prod.fst =
      judgedHits (fun x => (look (cleanQrels q lvl) x).isSome) (fun x => (look q x).isSome)
        (run.map Prod.fst) := by
    rw [getHitList_eq, getUnjudgedList_eq]
    simp only [Spec.top, if_pos]
    rfl
  unfold bpref
  simp only [hl, ← hN, ← hR]
  refine if_congr Iff.rfl rfl (if_congr Iff.rfl ?_ ?_)
  · refine if_congr ?_ rfl rfl
    rw [List.map_eq_nil_iff]
    exact nonHits_nil (α := α) _ _ hj _ _
  · congr 2
    unfold Spec.bpref
    congr 1
    rw [List.map_map, nonHits_sum (α := α) _ _ hj]
    apply Finset.sum_congr rfl
    intro i _
    refine if_congr ?_ ?_ rfl
    · simp only [look_clean_isSome]
    · simp only [Function.comp_apply, zero_add]
      congr 3
      rw [relIn_congr]
      intro x
      rw [look_isSome, look_clean_isSome]; rfl

/-! ## interpolated precision -/

theorem maxList_greatest (l : List α) (h : l ≠ []) : maxList l ∈ l ∧ ∀ x ∈ l, x ≤ maxList l := by
  cases l with
  | nil => exact absurd rfl h
  | cons a t =>
    show t.foldl max a ∈ a :: t ∧ ∀ x ∈ a :: t, x ≤ t.foldl max a
    clear h
    induction t generalizing a with
    | nil => simp
    | cons b t ih =>
      rw [List.foldl_cons]
      obtain ⟨h1, h2⟩ := ih (max a b)
      have hm := h2 (max a b) List.mem_cons_self
      refine ⟨?_, ?_⟩
      · rcases List.mem_cons.1 h1 with h | h
        · rw [h]
          rcases max_choice a b with hc | hc <;> rw [hc] <;> simp
        · exact List.mem_cons_of_mem _ (List.mem_cons_of_mem _ h)
      · intro x hx
        rcases List.mem_cons.1 hx with rfl | hx
        · exact (le_max_left _ _).trans hm
        · rcases List.mem_cons.1 hx with rfl | hx
          · exact (le_max_right _ _).trans hm
          · exact h2 x (List.mem_cons_of_mem _ hx)

/-- positions below `n` that satisfy `p` -/
def posn (p : Nat → Bool) (n : Nat) : List Nat := (List.range n).filter p

theorem posn_succ (p : Nat → Bool) (n : Nat) :
    posn p (n + 1) = if p n then posn p n ++ [n] else posn p n := by
  unfold posn
  rw [List.range_succ, List.filter_append]
  cases h : p n <;> simp [h]

theorem mem_drop_posn (p : Nat → Bool) (n c r : Nat) :
    r ∈ (posn p n).drop c ↔ r < n ∧ p r ∧ c ≤ (posn p r).length := by
  induction n with
  | zero => simp [posn]
  | succ n ih =>
    rw [posn_succ]
    cases h : p n
    · simp only [Bool.false_eq_true, if_false, ih]
      constructor
      · rintro ⟨h1, h2, h3⟩; exact ⟨by omega, h2, h3⟩
      · rintro ⟨h1, h2, h3⟩
        refine ⟨?_, h2, h3⟩
        rcases Nat.lt_succ_iff_lt_or_eq.1 h1 with h4 | rfl
        · exact h4
        · rw [h] at h2; cases h2
    · simp only [if_true]
      rw [List.drop_append, List.mem_append, ih]
      constructor
      · rintro (⟨h1, h2, h3⟩ | h1)
        · exact ⟨by omega, h2, h3⟩
        · have := List.mem_of_mem_drop h1
          rw [List.mem_singleton] at this
          subst this
          refine ⟨by omega, h, ?_⟩
          by_contra hc
          rw [List.drop_eq_nil_of_le] at h1
          · cases h1
          · simp; omega
      · rintro ⟨h1, h2, h3⟩
        rcases Nat.lt_succ_iff_lt_or_eq.1 h1 with h4 | rfl
        · exact Or.inl ⟨h4, h2, h3⟩
        · right
          rw [Nat.sub_eq_zero_of_le h3]; simp

end Ranx

namespace Ranx
open Metrics Finset
variable {ι α : Type*} [LinearOrder ι] [LinearOrder α] [Field α] [IsStrictOrderedRing α]

section
variable (rel : ι → Prop) [DecidablePred rel] (l : List ι)

/-- rank `r` (0-based) holds a relevant doc -/
def hitAt (r : Nat) : Bool := match l[r]? with | some x => decide (rel x) | none => false

theorem hitAt_iff (r : Nat) : hitAt rel l r = true ↔ ∃ x, l[r]? = some x ∧ rel x := by
  unfold hitAt
  cases h : l[r]? <;> simp

theorem relIn_succ_hit (n : Nat) :
    Spec.relIn rel l (n + 1) = Spec.relIn rel l n + if hitAt rel l n then 1 else 0 := by
  rw [relIn_eq_countP, relIn_eq_countP, List.take_succ, List.countP_append]
  unfold hitAt
  cases h : l[n]? <;> simp

theorem posn_length (n : Nat) : (posn (hitAt rel l) n).length = Spec.relIn rel l n := by
  induction n with
  | zero => simp [posn, Spec.relIn]
  | succ n ih =>
    rw [posn_succ, relIn_succ_hit, ← ih]
    split <;> simp

theorem last_hit (m : Nat) (h : 1 ≤ Spec.relIn rel l m) :
    ∃ r < m, hitAt rel l r = true ∧ Spec.relIn rel l (r + 1) = Spec.relIn rel l m := by
  induction m with
  | zero => simp [Spec.relIn] at h
  | succ m ih =>
    by_cases hm : hitAt rel l m = true
    · exact ⟨m, by omega, hm, rfl⟩
    · rw [relIn_succ_hit, if_neg hm, add_zero] at h
      obtain ⟨r, h1, h2, h3⟩ := ih h
      refine ⟨r, by omega, h2, ?_⟩
      rw [h3, relIn_succ_hit, if_neg hm, add_zero]

end

/-- the code's array of non-zero precision scores -/
theorem filter_ps (rel : ι → Prop) [DecidablePred rel] (l : List ι) (ps : Nat → α)
    (h : ∀ r < l.length, ps r = if hitAt rel l r then
      (Spec.relIn rel l (r + 1) : α) / ((r + 1 : Nat) : α) else 0) :
    ((List.range l.length).map ps).filter (fun x => decide (x ≠ 0)) =
      (posn (hitAt rel l) l.length).map
        (fun r => (Spec.relIn rel l (r + 1) : α) / ((r + 1 : Nat) : α)) := by
  rw [List.filter_map]
  unfold posn
  have h1 : (List.range l.length).filter ((fun x => decide (x ≠ 0)) ∘ ps) =
      (List.range l.length).filter (hitAt rel l) := by
    apply List.filter_congr
    intro r hr
    rw [List.mem_range] at hr
    simp only [Function.comp_apply]
    rw [h r hr]
    by_cases hh : hitAt rel l r = true
    · rw [if_pos hh, hh]
      have : 0 < Spec.relIn rel l (r + 1) := by rw [relIn_succ_hit, if_pos hh]; omega
      simp only [decide_eq_true_eq, ne_eq, div_eq_zero_iff, Nat.cast_eq_zero]
      omega
    · simp [hh]
  rw [h1]
  apply List.map_congr_left
  intro r hr
  rw [List.mem_filter, List.mem_range] at hr
  rw [h r hr.1, if_pos hr.2]

theorem interp_entry (rel : ι → Prop) [DecidablePred rel] (l : List ι) (ps : Nat → α)
    (h : ∀ r < l.length, ps r = if hitAt rel l r then
      (Spec.relIn rel l (r + 1) : α) / ((r + 1 : Nat) : α) else 0) (c : Nat) :
    let full := (maxList (0 :: (List.range l.length).map ps) :: (List.range l.length).map ps).filter
      (fun x => decide (x ≠ 0))
    Spec.IsInterpolated rel l c (if c < full.length then maxList (full.drop c) else 0) := by
  intro full
  obtain ⟨hM1, hM2⟩ := maxList_greatest (0 :: (List.range l.length).map ps) (by simp)
  set M := maxList (0 :: (List.range l.length).map ps) with hM
  have hM0 : 0 ≤ M := hM2 0 List.mem_cons_self
  have hps := filter_ps rel l ps h
  have hfull : full = if M = 0 then (posn (hitAt rel l) l.length).map
        (fun r => (Spec.relIn rel l (r + 1) : α) / ((r + 1 : Nat) : α)) else
        M :: (posn (hitAt rel l) l.length).map
        (fun r => (Spec.relIn rel l (r + 1) : α) / ((r + 1 : Nat) : α)) := by
    simp only [full, List.filter_cons, hps, ← hM]
    by_cases h0 : M = 0 <;> simp [h0]
  -- every precision is at most M
  have hle : ∀ m, 1 ≤ m → m ≤ l.length → (Spec.relIn rel l m : α) / (m : α) ≤ M := by
    intro m h1 h2
    by_cases hz : Spec.relIn rel l m = 0
    · rw [hz]; simpa using hM0
    · obtain ⟨r, hr, hh, he⟩ := last_hit rel l m (by omega)
      have hr' : ps r ≤ M := hM2 _ (List.mem_cons_of_mem _
        (List.mem_map.2 ⟨r, List.mem_range.2 (by omega), rfl⟩))
      rw [h r (by omega), if_pos hh, he] at hr'
      refine le_trans ?_ hr'
      apply div_le_div_of_nonneg_left (Nat.cast_nonneg _)
      · exact_mod_cast Nat.succ_pos r
      · exact_mod_cast hr
  by_cases hno : Spec.relIn rel l l.length = 0
  · -- no hits at all
    have hpos : posn (hitAt rel l) l.length = [] := by
      rw [← List.length_eq_zero_iff, posn_length, hno]
    have hMz : M = 0 := by
      rcases List.mem_cons.1 hM1 with h1 | h1
      · exact h1
      · obtain ⟨r, hr, h2⟩ := List.mem_map.1 h1
        rw [List.mem_range] at hr
        rw [← h2, h r hr, if_neg]
        intro hc
        have : r ∈ posn (hitAt rel l) l.length := List.mem_filter.2 ⟨List.mem_range.2 hr, hc⟩
        rw [hpos] at this; cases this
    have hf : full = [] := by rw [hfull, if_pos hMz, hpos]; rfl
    rw [hf]
    simp only [List.length_nil, Nat.not_lt_zero, if_false]
    have hz : ∀ m ≤ l.length, Spec.relIn rel l m = 0 := fun m hm => by
      have := relIn_mono rel l hm; omega
    by_cases hc : c = 0 ∧ 1 ≤ l.length
    · left
      refine ⟨⟨l.length, hc.2, le_rfl, by omega, by rw [hno]; simp⟩, ?_⟩
      intro m _ h2 _
      rw [hz m h2]; simp
    · right
      refine ⟨?_, rfl⟩
      intro m h1 h2 h3
      rw [hz m h2] at h3
      exact hc ⟨by omega, by omega⟩
  · -- some hit
    have hMpos : M ≠ 0 := by
      obtain ⟨r, hr, hh, he⟩ := last_hit rel l l.length (by omega)
      have h1 := hle l.length (by omega) le_rfl
      have h2 : (0 : α) < (Spec.relIn rel l l.length : α) / (l.length : α) := by
        apply div_pos
        · exact_mod_cast Nat.pos_of_ne_zero hno
        · exact_mod_cast (by omega : 0 < l.length)
      exact (lt_of_lt_of_le h2 h1).ne'
    rw [hfull, if_neg hMpos]
    simp only [List.length_cons, List.length_map, posn_length]
    by_cases hc : c < Spec.relIn rel l l.length + 1
    · rw [if_pos hc]
      left
      cases c with
      | zero =>
        simp only [List.drop_zero]
        set full' := M :: (posn (hitAt rel l) l.length).map
          (fun r => (Spec.relIn rel l (r + 1) : α) / ((r + 1 : Nat) : α)) with hf'
        obtain ⟨g1, g2⟩ := maxList_greatest full' (by simp [hf'])
        have hval : maxList full' = M := by
          apply le_antisymm
          · rcases List.mem_cons.1 g1 with h1 | h1
            · rw [h1]
            · obtain ⟨r, hr, h2⟩ := List.mem_map.1 h1
              rw [← h2]
              have := List.mem_range.1 (List.mem_filter.1 hr).1
              exact hle (r + 1) (by omega) this
          · exact g2 M List.mem_cons_self
        rw [hval]
        refine ⟨?_, fun m h1 h2 _ => hle m h1 h2⟩
        rcases List.mem_cons.1 hM1 with h1 | h1
        · exact absurd h1 hMpos
        · obtain ⟨r, hr, h2⟩ := List.mem_map.1 h1
          rw [List.mem_range] at hr
          rw [h r hr] at h2
          by_cases hh : hitAt rel l r = true
          · rw [if_pos hh] at h2
            exact ⟨r + 1, by omega, hr, by omega, h2.symm⟩
          · rw [if_neg hh] at h2
            exact absurd h2.symm hMpos
      | succ c =>
        rw [List.drop_succ_cons, ← List.map_drop]
        have hne : ((posn (hitAt rel l) l.length).drop c).map
            (fun r => (Spec.relIn rel l (r + 1) : α) / ((r + 1 : Nat) : α)) ≠ [] := by
          rw [← List.length_pos_iff]
          simp only [List.length_map, List.length_drop, posn_length]
          omega
        obtain ⟨g1, g2⟩ := maxList_greatest _ hne
        constructor
        · obtain ⟨r, hr, h2⟩ := List.mem_map.1 g1
          rw [mem_drop_posn, posn_length] at hr
          refine ⟨r + 1, by omega, hr.1, ?_, h2.symm⟩
          rw [relIn_succ_hit, if_pos hr.2.1]; omega
        · intro m h1 h2 h3
          obtain ⟨r, hr, hh, he⟩ := last_hit rel l m (by omega)
          have hmem : r ∈ (posn (hitAt rel l) l.length).drop c := by
            rw [mem_drop_posn, posn_length]
            refine ⟨by omega, hh, ?_⟩
            rw [relIn_succ_hit, if_pos hh] at he; omega
          refine le_trans ?_ (g2 _ (List.mem_map.2 ⟨r, hmem, rfl⟩))
          rw [he]
          apply div_le_div_of_nonneg_left (Nat.cast_nonneg _)
          · exact_mod_cast Nat.succ_pos r
          · exact_mod_cast hr
    · rw [if_neg hc]
      right
      refine ⟨?_, rfl⟩
      intro m _ h2 h3
      have := relIn_mono rel l h2
      omega

theorem interpolated_spec (cutoff : Nat → Nat → Nat) (q run : Rows ι α) (lvl : α) (i : Nat)
    (hi : i < 11) :
    ∃ v, (interpolatedPrecision cutoff q run lvl)[i]? = some v ∧
      (Spec.numRel q lvl ≠ 0 →
        Spec.IsInterpolated (Spec.Rel q lvl) (run.map Prod.fst) (cutoff i (Spec.numRel q lvl)) v) ∧
      (Spec.numRel q lvl = 0 → v = 0) := by
  classical
  unfold interpolatedPrecision
  rw [numRel_eq]
  by_cases h : (cleanQrels q lvl).length = 0
  · rw [if_pos h]
    refine ⟨0, ?_, fun hc => absurd h hc, fun _ => rfl⟩
    rw [List.getElem?_replicate, if_pos hi]
  · rw [if_neg h]
    have hlen : (run.map Prod.fst).length = run.length := List.length_map _
    have hfix : fixK 0 run = run.length := by unfold fixK; simp
    have hps : ∀ r < (run.map Prod.fst).length,
        precisionScore (hitList (cleanQrels q lvl) run run.length) r =
        if hitAt (Spec.Rel q lvl) (run.map Prod.fst) r then
          (Spec.relIn (Spec.Rel q lvl) (run.map Prod.fst) (r + 1) : α) / ((r + 1 : Nat) : α)
        else 0 := by
      intro r hr
      have := precisionScore_eq q run lvl 0 r (by simpa [Spec.top] using hr)
      rw [hfix] at this
      rw [this]
      refine if_congr ?_ rfl rfl
      rw [hitAt_iff]; simp [Spec.top]
    have key := interp_entry (Spec.Rel q lvl) (run.map Prod.fst) _ hps
        (cutoff i (cleanQrels q lvl).length)
    rw [hlen] at key
    refine ⟨_, ?_, fun _ => key, fun hc => absurd hc h⟩
    simp only [List.map_map]
    rw [List.getElem?_map, List.getElem?_range hi]
    rfl

/-! ## relabelling doc ids -/
section relabel
variable {ι' : Type*} [LinearOrder ι']

/-- rename the docs of an array -/
def rename (f : ι → ι') (q : Rows ι α) : Rows ι' α := q.map (fun r => (f r.1, r.2))

theorem rename_ids (f : ι → ι') (q : Rows ι α) :
    (rename f q).map Prod.fst = (q.map Prod.fst).map f := by simp [rename, Function.comp_def]

theorem clean_rename (f : ι → ι') (q : Rows ι α) (lvl : α) :
    cleanQrels (rename f q) lvl = rename f (cleanQrels q lvl) := by
  unfold cleanQrels rename; rw [List.filter_map]; rfl

theorem rename_length (f : ι → ι') (q : Rows ι α) : (rename f q).length = q.length := by
  simp [rename]

theorem fixK_rename (f : ι → ι') (k : Nat) (q : Rows ι α) : fixK k (rename f q) = fixK k q := by
  unfold fixK; rw [rename_length]

theorem look_rename (f : ι → ι') (q : Rows ι α) (x : ι)
    (hf : ∀ y ∈ q.map Prod.fst, f x = f y → x = y) : look (rename f q) (f x) = look q x := by
  rw [look_eq_scan, look_eq_scan]
  induction q with
  | nil => rfl
  | cons r t ih =>
    have ih := ih (fun y hy => hf y (by simp at hy ⊢; exact Or.inr hy))
    have h0 := hf r.1 (by simp)
    simp only [rename, List.map_cons, scan] at *
    by_cases h : x = r.1
    · rw [if_pos h, if_pos (by rw [h])]
    · rw [if_neg h, if_neg (fun hc => h (h0 hc)), ih]

theorem take_rename (f : ι → ι') (q : Rows ι α) (k : Nat) :
    (rename f q).take k = rename f (q.take k) := by
  unfold rename; rw [List.map_take]

end relabel

end Ranx
