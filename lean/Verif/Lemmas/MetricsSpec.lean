import Verif.Lemmas.Metrics
import Mathlib.Tactic.Linarith
import Mathlib.Algebra.Order.BigOperators.Ring.Finset
import Mathlib.Algebra.BigOperators.Intervals

/-! Facts about the textbook definitions used to derive ranges, monotonicity, locality. -/

namespace Ranx.Metrics
open Finset
variable {ι α : Type*}

theorem hits_le_top (rel : ι → Prop) (ids : List ι) (k : Nat) :
    Spec.hits rel ids k ≤ (Spec.top k ids).length := by
  classical
  rw [hits_eq_countP]; exact List.countP_le_length

theorem top_length (k : Nat) (ids : List ι) :
    (Spec.top k ids).length = if k = 0 then ids.length else min k ids.length := by
  unfold Spec.top; split <;> simp

theorem hits_pos_iff (rel : ι → Prop) (ids : List ι) (k : Nat) :
    0 < Spec.hits rel ids k ↔ ∃ x ∈ Spec.top k ids, rel x := by
  classical
  rw [hits_eq_countP, List.countP_pos_iff]
  simp

theorem hits_eq_zero_iff (rel : ι → Prop) (ids : List ι) (k : Nat) :
    Spec.hits rel ids k = 0 ↔ ∀ x ∈ Spec.top k ids, ¬ rel x := by
  classical
  rw [hits_eq_countP, List.countP_eq_zero]
  simp

/-- comparison of cutoffs: 0 means "no cutoff" -/
def cutLe (k k' : Nat) : Prop := k' = 0 ∨ (k ≠ 0 ∧ k ≤ k')

theorem top_prefix {k k' : Nat} (h : cutLe k k') (ids : List ι) :
    (Spec.top k ids) <+: (Spec.top k' ids) := by
  unfold Spec.top
  rcases h with rfl | ⟨h0, hle⟩
  · rw [if_pos rfl]
    split
    · exact List.prefix_refl _
    · exact List.take_prefix _ _
  · have : k' ≠ 0 := by omega
    rw [if_neg h0, if_neg this]
    exact (List.take_prefix_take_left hle)

theorem hits_mono_k (rel : ι → Prop) (ids : List ι) {k k' : Nat} (h : cutLe k k') :
    Spec.hits rel ids k ≤ Spec.hits rel ids k' := by
  classical
  rw [hits_eq_countP, hits_eq_countP]
  exact (top_prefix h ids).sublist.countP_le

theorem hits_mono_rel {rel rel' : ι → Prop} (h : ∀ x, rel x → rel' x) (ids : List ι) (k : Nat) :
    Spec.hits rel ids k ≤ Spec.hits rel' ids k := by
  classical
  rw [hits_eq_countP, hits_eq_countP]
  apply List.countP_mono_left
  intro x _ hx
  simp only [decide_eq_true_eq] at *
  exact h x hx

section
variable [Field α]

/-- indicator of a relevant doc at 0-based position `i` -/
noncomputable def ind (rel : ι → Prop) (ids : List ι) (i : Nat) : α := by
  classical exact if ∃ x, ids[i]? = some x ∧ rel x then 1 else 0

theorem relIn_succ (rel : ι → Prop) (ids : List ι) (n : Nat) :
    (Spec.relIn rel ids (n + 1) : α) = Spec.relIn rel ids n + ind rel ids n := by
  classical
  rw [relIn_eq_countP, relIn_eq_countP]
  unfold ind
  by_cases h : n < ids.length
  · rw [List.take_succ, List.getElem?_eq_getElem h, List.countP_append]
    simp only [Option.toList_some, List.countP_singleton, Option.some.injEq, exists_eq_left',
      decide_eq_true_eq]
    push_cast
    congr 1
  · have h' : ids.length ≤ n := not_lt.1 h
    rw [List.take_of_length_le h', List.take_of_length_le (by omega), if_neg]
    · simp
    · rintro ⟨x, hx, _⟩
      rw [List.getElem?_eq_none h'] at hx
      cases hx

theorem relIn_eq_sum (rel : ι → Prop) (ids : List ι) (n : Nat) :
    (Spec.relIn rel ids n : α) = ∑ i ∈ range n, ind rel ids i := by
  induction n with
  | zero => simp [Spec.relIn]
  | succ n ih => rw [relIn_succ, ih, Finset.sum_range_succ]

/-- average precision as a sum over all positions below the cutoff -/
theorem averagePrecision_sum (rel : ι → Prop) (R : Nat) (ids : List ι) (k : Nat) :
    (Spec.averagePrecision rel R ids k : α) =
      (∑ r ∈ range (Spec.top k ids).length,
        ind rel ids r * ((Spec.relIn rel ids (r + 1) : α) / ((r + 1 : Nat) : α))) / R := by
  classical
  unfold Spec.averagePrecision
  congr 1
  apply Finset.sum_congr rfl
  intro r hr
  rw [Finset.mem_range] at hr
  have : (Spec.top k ids)[r]? = ids[r]? := by
    have h1 := take_top k (Spec.top k ids).length ids le_rfl
    rw [List.take_length] at h1
    rw [h1, List.getElem?_take, if_pos]
    exact hr
  simp only [this]
  unfold ind
  split <;> simp

variable [LinearOrder α] [IsStrictOrderedRing α]

theorem ind_nonneg (rel : ι → Prop) (ids : List ι) (i : Nat) : (0 : α) ≤ ind rel ids i := by
  classical
  unfold ind; split <;> simp

theorem ind_le_one (rel : ι → Prop) (ids : List ι) (i : Nat) : (ind rel ids i : α) ≤ 1 := by
  classical
  unfold ind; split <;> simp

theorem div_le_one_of_nat {a b : Nat} (h : a ≤ b) : (a : α) / (b : α) ≤ 1 := by
  apply div_le_one_of_le₀
  · exact_mod_cast h
  · exact Nat.cast_nonneg _

theorem div_nonneg_nat (a b : Nat) : (0 : α) ≤ (a : α) / (b : α) :=
  div_nonneg (Nat.cast_nonneg _) (Nat.cast_nonneg _)

/-- `f` and `g` differ only at `m`, `m+1`, where `g` moves weight to the front -/
theorem sum_swap_le (f g : Nat → α) (m n : Nat) (hne : ∀ i, i ≠ m → i ≠ m + 1 → f i = g i)
    (h1 : f m ≤ g m) (h2 : f m + f (m + 1) ≤ g m + g (m + 1)) :
    ∑ i ∈ range n, f i ≤ ∑ i ∈ range n, g i := by
  have key : ∀ n, (n ≤ m → ∑ i ∈ range n, f i = ∑ i ∈ range n, g i) ∧
      ∑ i ∈ range n, f i ≤ ∑ i ∈ range n, g i ∧
      (m + 2 ≤ n → ∑ i ∈ range n, g i - ∑ i ∈ range n, f i =
        g m + g (m + 1) - (f m + f (m + 1))) := by
    intro n
    induction n with
    | zero => simp
    | succ n ih =>
      obtain ⟨ih1, ih2, ih3⟩ := ih
      simp only [Finset.sum_range_succ]
      rcases lt_trichotomy n m with h | h | h
      · have e := hne n (by omega) (by omega)
        have e1 := ih1 (by omega)
        refine ⟨fun _ => by rw [e, e1], by rw [e, e1], fun hc => by omega⟩
      · subst h
        have e1 := ih1 le_rfl
        refine ⟨fun hc => by omega, by rw [e1]; linarith, fun hc => by omega⟩
      · rcases eq_or_ne n (m + 1) with h' | h'
        · subst h'
          have hm : ∑ i ∈ range m, f i = ∑ i ∈ range m, g i := by
            apply Finset.sum_congr rfl
            intro i hi
            rw [Finset.mem_range] at hi
            exact hne i (by omega) (by omega)
          simp only [Finset.sum_range_succ] at ih2 ⊢
          refine ⟨fun hc => by omega, by rw [hm]; linarith, fun _ => by rw [hm]; ring⟩
        · have e := hne n (by omega) h'
          have e3 := ih3 (by omega)
          refine ⟨fun hc => by omega, by rw [e]; linarith, fun _ => ?_⟩
          rw [e, ← e3]; ring
  exact (key n).2.1

/-- reciprocal rank at least `1/(r+1)` if a relevant doc is at position `j ≤ r` -/
theorem rr_ge {rel : ι → Prop} {ids : List ι} {k : Nat} {v : α}
    (h : Spec.IsReciprocalRank rel ids k v) {j r : Nat} (hj : j ≤ r) {x : ι}
    (hx : (Spec.top k ids)[j]? = some x) (hr : rel x) : 1 / ((r + 1 : Nat) : α) ≤ v := by
  rcases h with ⟨r', x', h1, h2, h3, rfl⟩ | ⟨h1, rfl⟩
  · have : r' ≤ j := by
      by_contra hc
      exact h3 j (not_le.1 hc) x hx hr
    apply one_div_le_one_div_of_le
    · exact_mod_cast Nat.succ_pos _
    · exact_mod_cast (by omega : r' + 1 ≤ r + 1)
  · exact absurd hr (h1 x (List.mem_of_getElem? hx))

theorem rr_bounds {rel : ι → Prop} {ids : List ι} {k : Nat} {v : α}
    (h : Spec.IsReciprocalRank rel ids k v) : 0 ≤ v ∧ v ≤ 1 := by
  rcases h with ⟨r', x', h1, h2, h3, rfl⟩ | ⟨h1, rfl⟩
  · constructor
    · positivity
    · rw [div_le_one]
      · exact_mod_cast Nat.succ_le_succ (Nat.zero_le _)
      · exact_mod_cast Nat.succ_pos _
  · simp

theorem rr_unique {rel : ι → Prop} {ids : List ι} {k : Nat} {v w : α}
    (h : Spec.IsReciprocalRank rel ids k v) (h' : Spec.IsReciprocalRank rel ids k w) : v = w := by
  apply le_antisymm
  · rcases h with ⟨r, x, h1, h2, h3, rfl⟩ | ⟨h1, rfl⟩
    · exact rr_ge h' le_rfl h1 h2
    · exact (rr_bounds h').1
  · rcases h' with ⟨r, x, h1, h2, h3, rfl⟩ | ⟨h1, rfl⟩
    · exact rr_ge h le_rfl h1 h2
    · exact (rr_bounds h).1

/-- average precision is at most 1 if there are at most `R` relevant docs in the ranking -/
theorem ap_bounds (rel : ι → Prop) (R : Nat) (ids : List ι) (k : Nat)
    (hR : ∀ n, Spec.relIn rel ids n ≤ R) :
    (0 : α) ≤ Spec.averagePrecision rel R ids k ∧ (Spec.averagePrecision rel R ids k : α) ≤ 1 := by
  rw [averagePrecision_sum]
  constructor
  · apply div_nonneg
    · apply Finset.sum_nonneg
      intro i _
      exact mul_nonneg (ind_nonneg _ _ _) (div_nonneg_nat _ _)
    · exact Nat.cast_nonneg _
  · have h1 : ∑ r ∈ range (Spec.top k ids).length,
        ind rel ids r * ((Spec.relIn rel ids (r + 1) : α) / ((r + 1 : Nat) : α)) ≤
        ∑ r ∈ range (Spec.top k ids).length, (ind rel ids r : α) := by
      apply Finset.sum_le_sum
      intro r _
      have := div_le_one_of_nat (α := α) (relIn_le rel ids (r + 1))
      calc _ ≤ ind rel ids r * (1 : α) := mul_le_mul_of_nonneg_left this (ind_nonneg _ _ _)
        _ = _ := mul_one _
    rw [← relIn_eq_sum] at h1
    apply div_le_one_of_le₀
    · exact le_trans h1 (by exact_mod_cast hR _)
    · exact Nat.cast_nonneg _

theorem ap_mono_k (rel : ι → Prop) (R : Nat) (ids : List ι) {k k' : Nat} (h : cutLe k k') :
    (Spec.averagePrecision rel R ids k : α) ≤ Spec.averagePrecision rel R ids k' := by
  rw [averagePrecision_sum, averagePrecision_sum]
  apply div_le_div_of_nonneg_right _ (Nat.cast_nonneg _)
  apply Finset.sum_le_sum_of_subset_of_nonneg
  · intro i hi
    rw [Finset.mem_range] at *
    exact lt_of_lt_of_le hi (top_prefix h ids).length_le
  · intro i _ _
    exact mul_nonneg (ind_nonneg _ _ _) (div_nonneg_nat _ _)

end

/-! ### swapping two adjacent results -/

section
variable {rel : ι → Prop}

theorem swap_getElem? (a b : List ι) (x y : ι) (i : Nat) (h1 : i ≠ a.length)
    (h2 : i ≠ a.length + 1) : (a ++ y :: x :: b)[i]? = (a ++ x :: y :: b)[i]? := by
  rcases lt_or_ge i a.length with h | h
  · rw [List.getElem?_append_left h, List.getElem?_append_left h]
  · rw [List.getElem?_append_right h, List.getElem?_append_right h]
    obtain ⟨j, hj⟩ : ∃ j, i - a.length = j + 2 := ⟨i - a.length - 2, by omega⟩
    rw [hj]; rfl

theorem swap_get_m (a b : List ι) (x y : ι) : (a ++ x :: y :: b)[a.length]? = some x := by
  rw [List.getElem?_append_right le_rfl]; simp

theorem swap_get_m1 (a b : List ι) (x y : ι) : (a ++ x :: y :: b)[a.length + 1]? = some y := by
  rw [List.getElem?_append_right (by omega)]
  simp

theorem swap_top_length (a b : List ι) (x y : ι) (k : Nat) :
    (Spec.top k (a ++ x :: y :: b)).length = (Spec.top k (a ++ y :: x :: b)).length := by
  rw [top_length, top_length]; simp

variable [Field α] [LinearOrder α] [IsStrictOrderedRing α]

omit [LinearOrder α] [IsStrictOrderedRing α] in
theorem ind_swap_ne (a b : List ι) (x y : ι) (i : Nat) (h1 : i ≠ a.length)
    (h2 : i ≠ a.length + 1) :
    (ind rel (a ++ x :: y :: b) i : α) = ind rel (a ++ y :: x :: b) i := by
  unfold ind
  rw [swap_getElem? a b x y i h1 h2]

omit [LinearOrder α] [IsStrictOrderedRing α] in
theorem ind_swap_m (a b : List ι) (x y : ι) (hx : ¬ rel x) (hy : rel y) :
    (ind rel (a ++ x :: y :: b) a.length : α) = 0 ∧
    (ind rel (a ++ x :: y :: b) (a.length + 1) : α) = 1 ∧
    (ind rel (a ++ y :: x :: b) a.length : α) = 1 ∧
    (ind rel (a ++ y :: x :: b) (a.length + 1) : α) = 0 := by
  unfold ind
  simp [swap_get_m, swap_get_m1, hx, hy]

theorem relIn_swap_le (a b : List ι) (x y : ι) (hx : ¬ rel x) (hy : rel y) (n : Nat) :
    (Spec.relIn rel (a ++ x :: y :: b) n : α) ≤ Spec.relIn rel (a ++ y :: x :: b) n := by
  rw [relIn_eq_sum, relIn_eq_sum]
  obtain ⟨h1, h2, h3, h4⟩ := ind_swap_m (α := α) a b x y hx hy
  apply sum_swap_le _ _ a.length n (fun i => ind_swap_ne a b x y i)
  · rw [h1, h3]; exact zero_le_one
  · rw [h1, h2, h3, h4]; simp

theorem ap_swap_le (a b : List ι) (x y : ι) (hx : ¬ rel x) (hy : rel y) (R k : Nat) :
    (Spec.averagePrecision rel R (a ++ x :: y :: b) k : α) ≤
      Spec.averagePrecision rel R (a ++ y :: x :: b) k := by
  rw [averagePrecision_sum, averagePrecision_sum]
  apply div_le_div_of_nonneg_right _ (Nat.cast_nonneg _)
  rw [swap_top_length]
  obtain ⟨h1, h2, h3, h4⟩ := ind_swap_m (α := α) a b x y hx hy
  have hpre : ∀ n, n ≤ a.length ∨ a.length + 2 ≤ n →
      (Spec.relIn rel (a ++ x :: y :: b) n : α) = Spec.relIn rel (a ++ y :: x :: b) n := by
    intro n hn
    rcases hn with hn | hn
    · rw [relIn_eq_sum, relIn_eq_sum]
      apply Finset.sum_congr rfl
      intro i hi
      rw [Finset.mem_range] at hi
      exact ind_swap_ne a b x y i (by omega) (by omega)
    · obtain ⟨d, rfl⟩ := Nat.exists_eq_add_of_le hn
      induction d with
      | zero =>
        rw [relIn_eq_sum, relIn_eq_sum]
        simp only [add_zero, Finset.sum_range_succ, h1, h2, h3, h4]
        have : ∑ i ∈ range a.length, (ind rel (a ++ x :: y :: b) i : α) =
            ∑ i ∈ range a.length, ind rel (a ++ y :: x :: b) i := by
          apply Finset.sum_congr rfl
          intro i hi
          rw [Finset.mem_range] at hi
          exact ind_swap_ne a b x y i (by omega) (by omega)
        simp [this]
      | succ d ih =>
        rw [← add_assoc, relIn_succ, relIn_succ, ih (by omega)]
        rw [ind_swap_ne a b x y _ (by omega) (by omega)]
  apply sum_swap_le _ _ a.length
  · intro i hi1 hi2
    rw [ind_swap_ne a b x y i hi1 hi2, hpre (i + 1) (by omega)]
  · rw [h1, h3, zero_mul, one_mul]; exact div_nonneg_nat _ _
  · rw [h1, h2, h3, h4]
    simp only [zero_mul, one_mul, zero_add, add_zero]
    have e1 : (Spec.relIn rel (a ++ x :: y :: b) (a.length + 1 + 1) : α) =
        Spec.relIn rel (a ++ y :: x :: b) (a.length + 1) := by
      rw [relIn_succ, relIn_succ, relIn_succ, h1, h2, h3, hpre a.length (by omega)]; ring
    rw [e1]
    apply div_le_div_of_nonneg_left (Nat.cast_nonneg _)
    · exact_mod_cast Nat.succ_pos _
    · exact_mod_cast Nat.le_succ _

theorem rr_swap_le (a b : List ι) (x y : ι) (hx : ¬ rel x) (hy : rel y) (k : Nat) {v w : α}
    (hv : Spec.IsReciprocalRank rel (a ++ x :: y :: b) k v)
    (hw : Spec.IsReciprocalRank rel (a ++ y :: x :: b) k w) : v ≤ w := by
  have tget : ∀ (l : List ι) i, i < (Spec.top k l).length → (Spec.top k l)[i]? = l[i]? := by
    intro l i hi
    have h1 := take_top k (Spec.top k l).length l le_rfl
    rw [List.take_length] at h1
    rw [h1, List.getElem?_take, if_pos]
    exact hi
  rcases hv with ⟨r, z, h1, h2, h3, rfl⟩ | ⟨h1, rfl⟩
  · have hlen : r < (Spec.top k (a ++ x :: y :: b)).length := by
      by_contra hc
      rw [List.getElem?_eq_none (not_lt.1 hc)] at h1
      cases h1
    have hlen' : r < (Spec.top k (a ++ y :: x :: b)).length := by rwa [← swap_top_length]
    rw [tget _ _ hlen] at h1
    rcases eq_or_ne r a.length with h | h
    · subst h
      rw [swap_get_m] at h1; cases h1; exact absurd h2 hx
    · rcases eq_or_ne r (a.length + 1) with h' | h'
      · apply rr_ge hw (j := a.length) (by omega) (x := y) _ hy
        rw [tget _ _ (by omega), swap_get_m]
      · apply rr_ge hw (j := r) le_rfl (x := z) _ h2
        rw [tget _ _ hlen', swap_getElem? a b x y r h h', h1]
  · exact (rr_bounds hw).1

end
end Ranx.Metrics
