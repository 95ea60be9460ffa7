import Verif.Props.Metrics2

/-! # Lemmas: the ideal ranking maximises a discounted sum -/

set_option linter.unusedSectionVars false

namespace Ranx
open Metrics Finset
variable {ι α : Type*} [LinearOrder ι] [LinearOrder α] [Field α] [IsStrictOrderedRing α]

theorem abel_le (a b w : Nat → α) (n : Nat) (hw : ∀ i, 0 ≤ w i) (hwa : ∀ i, w (i + 1) ≤ w i)
    (h : ∀ m ≤ n, ∑ i ∈ range m, a i ≤ ∑ i ∈ range m, b i) :
    ∑ i ∈ range n, a i * w i ≤ ∑ i ∈ range n, b i * w i := by
  have key : ∀ m ≤ n, (∑ i ∈ range m, b i - ∑ i ∈ range m, a i) * w m ≤
      ∑ i ∈ range m, b i * w i - ∑ i ∈ range m, a i * w i := by
    intro m
    induction m with
    | zero => intro _; simp
    | succ m ih =>
      intro hm
      have ih := ih (by omega)
      have hd := h (m + 1) hm
      have h1 : (∑ i ∈ range (m+1), b i - ∑ i ∈ range (m+1), a i) * w (m + 1) ≤
          (∑ i ∈ range (m+1), b i - ∑ i ∈ range (m+1), a i) * w m :=
        mul_le_mul_of_nonneg_left (hwa m) (by linarith)
      refine h1.trans ?_
      simp only [Finset.sum_range_succ] at *
      nlinarith
  have h1 := key n le_rfl
  have h2 := mul_nonneg (sub_nonneg.2 (h n le_rfl)) (hw n)
  linarith

theorem sum_subperm_le (B : List α) (hB : B.Pairwise (fun x y => y ≤ x)) (A : List α)
    (h : A.Subperm B) : A.sum ≤ (B.take A.length).sum := by
  induction B generalizing A with
  | nil =>
    rw [List.subperm_nil] at h; subst h; simp
  | cons b t ih =>
    cases A with
    | nil => simp
    | cons a A' =>
      rw [List.pairwise_cons] at hB
      -- pick an element of A to pair with b
      obtain ⟨c, A'', hp, hc, hs⟩ : ∃ c A'', (a :: A').Perm (c :: A'') ∧ c ≤ b ∧ A''.Subperm t := by
        by_cases hb : b ∈ a :: A'
        · refine ⟨b, (a :: A').erase b, List.perm_cons_erase hb, le_rfl, ?_⟩
          have := h.erase b
          rwa [List.erase_cons_head] at this
        · refine ⟨a, A', List.Perm.refl _, ?_, ?_⟩
          · have : a ∈ b :: t := h.subset (List.mem_cons_self)
            rcases List.mem_cons.1 this with rfl | h1
            · exact le_rfl
            · exact hB.1 a h1
          · have h1 : (a :: A').Subperm t := by
              have := h.erase b
              rwa [List.erase_cons_head, List.erase_of_not_mem hb] at this
            exact (List.sublist_cons_self a A').subperm.trans h1
      have hlen : A''.length = A'.length := by
        have := hp.length_eq; simpa using this.symm
      rw [hp.sum_eq, List.length_cons, List.take_succ_cons, List.sum_cons, List.sum_cons, ← hlen]
      exact add_le_add hc (ih hB.2 A'' hs)

theorem take_sum_mono (B : List α) (h0 : ∀ x ∈ B, 0 ≤ x) {m n : Nat} (h : m ≤ n) :
    (B.take m).sum ≤ (B.take n).sum := by
  induction B generalizing m n with
  | nil => simp
  | cons b t ih =>
    cases m with
    | zero =>
      rw [List.take_zero, List.sum_nil]
      apply List.sum_nonneg
      intro x hx
      exact h0 x (List.mem_of_mem_take hx)
    | succ m =>
      cases n with
      | zero => omega
      | succ n =>
        rw [List.take_succ_cons, List.take_succ_cons, List.sum_cons, List.sum_cons]
        exact add_le_add le_rfl (ih (fun x hx => h0 x (List.mem_cons_of_mem _ hx)) (by omega))

theorem sum_gainAt (G : ι → α) (l : List ι) (m : Nat) :
    ∑ i ∈ range m, Spec.gainAt G l i = ((l.map G).take m).sum := by
  induction m with
  | zero => simp
  | succ m ih =>
    rw [Finset.sum_range_succ, ih, List.take_succ, List.sum_append]
    unfold Spec.gainAt
    rw [List.getElem?_map]
    cases h : l[m]? <;> simp

theorem prefix_le (G : ι → α) (hG : ∀ x, 0 ≤ G x) (L B : List ι) (hL : L.Nodup)
    (hsort : B.Pairwise (fun x y => G y ≤ G x)) (hall : ∀ x ∈ L, G x ≠ 0 → x ∈ B) (m : Nat) :
    ((L.map G).take m).sum ≤ ((B.map G).take m).sum := by
  classical
  set L' := (L.take m).filter (fun x => decide (G x ≠ 0)) with hL'
  have h1 : ((L.map G).take m).sum = (L'.map G).sum := by
    rw [← List.map_take, hL']
    generalize L.take m = l
    induction l with
    | nil => rfl
    | cons x t ih =>
      rw [List.map_cons, List.sum_cons, List.filter_cons]
      by_cases hx : G x = 0
      · simp [hx, ih]
      · simp [hx, ih]
  have h2 : L'.Subperm B := by
    apply List.subperm_of_subset
    · exact (hL.sublist (List.take_sublist _ _)).filter _
    · intro x hx
      obtain ⟨hx1, hx2⟩ := List.mem_filter.1 hx
      exact hall x (List.mem_of_mem_take hx1) (by simpa using hx2)
  have h3 : (L'.map G).Subperm (B.map G) := by
    obtain ⟨l, hl, hs⟩ := h2
    exact ⟨l.map G, hl.map G, hs.map G⟩
  have h4 : (B.map G).Pairwise (fun x y => y ≤ x) := by
    rw [List.pairwise_map]; exact hsort
  have h5 : L'.length ≤ m := by
    refine (List.length_filter_le _ _).trans ?_
    rw [List.length_take]; exact min_le_left _ _
  rw [h1]
  refine (sum_subperm_le _ h4 _ h3).trans ?_
  rw [List.length_map]
  apply take_sum_mono _ _ h5
  intro x hx
  obtain ⟨y, _, rfl⟩ := List.mem_map.1 hx
  exact hG y

/-- Any ranking `L` without repeated docs has at most the discounted sum of a ranking `B` that is
sorted by gain and contains all docs of `L` with non-zero gain. -/
theorem dcg_le_ideal (G : ι → α) (hG : ∀ x, 0 ≤ G x) (disc : Nat → α) (hd : ∀ i, 0 < disc i)
    (hdm : ∀ i, disc i ≤ disc (i + 1)) (L B : List ι) (hL : L.Nodup)
    (hsort : B.Pairwise (fun x y => G y ≤ G x)) (hall : ∀ x ∈ L, G x ≠ 0 → x ∈ B) (k : Nat) :
    Spec.dcg G disc L k ≤ Spec.dcg G disc B k := by
  have hw : ∀ i, 0 ≤ (disc i)⁻¹ := fun i => inv_nonneg.2 (hd i).le
  have hge : ∀ i, 0 ≤ Spec.gainAt G B i := by
    intro i; unfold Spec.gainAt
    cases B[i]? with
    | none => simp
    | some x => exact hG x
  rw [dcg_as_sum, dcg_as_sum]
  refine (abel_le (Spec.gainAt G L) (Spec.gainAt G B) (fun i => (disc i)⁻¹) _ hw
    (fun i => inv_anti₀ (hd i) (hdm i)) ?_).trans ?_
  · intro m _
    rw [sum_gainAt, sum_gainAt]
    exact prefix_le G hG L B hL hsort hall m
  · -- extend or cut the sum: past the end of B all gains are 0
    rcases le_total (Spec.top k L).length (Spec.top k B).length with h | h
    · apply Finset.sum_le_sum_of_subset_of_nonneg
      · intro i hi; rw [Finset.mem_range] at *; omega
      · intro i _ _; exact mul_nonneg (hge i) (hw i)
    · apply le_of_eq
      symm
      apply Finset.sum_subset
      · intro i hi; rw [Finset.mem_range] at *; omega
      · intro i hi hni
        rw [Finset.mem_range] at *
        rw [top_length] at hi hni
        have : B.length ≤ i := by
          split at hi <;> rename_i hk
          · rw [if_pos hk] at hni; omega
          · rw [if_neg hk] at hni
            have := min_le_left k L.length
            by_contra hc
            exact hni (lt_min (by omega) (by omega))
        unfold Spec.gainAt
        rw [List.getElem?_eq_none this]; simp

end Ranx
