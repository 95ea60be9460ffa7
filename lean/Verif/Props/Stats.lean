import Verif.Model.Stats
import Verif.Lemmas.Prange
import Verif.Props.Evaluate
import Mathlib.Tactic.FieldSimp
import Mathlib.Tactic.Ring
import Mathlib.Algebra.Order.Field.Basic

/-!
# Properties C68, C69: Fisher's randomization test, `FrozensetDict`
-/

set_option linter.unusedSectionVars false

namespace Ranx
open Dict Eval Metrics Py Stat
variable {κ ν α : Type*}

namespace Spec

/-- the sum over the queries of `±(a - b)`, the sign of query `j` being `-` when `flip j` -/
def signedSum [Field α] (flip : Nat → Bool) (a b : List α) : α :=
  ((List.range a.length).map (fun j : Nat =>
    (if flip j then -1 else 1) * ((a[j]?).getD 0 - (b[j]?).getD 0))).sum

/-- how many of the `n` samples differ at least as much as the observed scores -/
def atLeastObserved [Field α] [LinearOrder α] (coin : Nat → Nat → Bool) (n : Nat) (a b : List α) : Nat :=
  ((List.range n).filter (fun i => decide
    (|signedSum (fun _ => false) a b| ≤ |signedSum (coin i) a b|))).length

end Spec

section fisher
variable [Field α] [LinearOrder α]

/-- swapping rows of number columns -/
def swapRows (coin : Nat → Bool) (k : Nat) (a b : List α) : List (α × α) :=
  ((a.zip b).zipIdx k).map (fun r => if coin r.2 then (r.1.2, r.1.1) else r.1)

theorem permute_vals (coin : Nat → Bool) (a b : List α) :
    permute coin ((a.map Num.val).zip (b.map Num.val)) =
      (swapRows coin 0 a b).map (fun r => (Num.val r.1, Num.val r.2)) := by
  unfold permute swapRows
  rw [List.zip_map, List.zipIdx_map, List.map_map, List.map_map]
  apply List.map_congr_left
  intro r _
  obtain ⟨⟨x, y⟩, j⟩ := r
  simp only [Function.comp, Prod.map]
  by_cases h : coin j = true
  · simp [h]
  · simp [h]

theorem swapRows_length (coin : Nat → Bool) (k : Nat) (a b : List α) (h : a.length = b.length) :
    (swapRows coin k a b).length = a.length := by
  simp [swapRows, h]

variable [IsStrictOrderedRing α]

theorem swapRows_diff (coin : Nat → Bool) (k : Nat) (a b : List α) (h : a.length = b.length) :
    ((swapRows coin k a b).map Prod.fst).sum - ((swapRows coin k a b).map Prod.snd).sum =
      Spec.signedSum (fun j => coin (j + k)) a b := by
  induction a generalizing b k with
  | nil => simp [swapRows, Spec.signedSum]
  | cons x t ih =>
    cases b with
    | nil => simp at h
    | cons y u =>
      have ih' := ih (k + 1) u (by simpa using h)
      have e : swapRows coin k (x :: t) (y :: u) =
          (if coin k then (y, x) else (x, y)) :: swapRows coin (k + 1) t u := by
        simp [swapRows, List.zipIdx_cons]
      have e2 : Spec.signedSum (fun j => coin (j + k)) (x :: t) (y :: u) =
          (if coin k then -1 else 1) * (x - y) + Spec.signedSum (fun j => coin (j + (k + 1))) t u := by
        unfold Spec.signedSum
        rw [List.length_cons, List.range_succ_eq_map, List.map_cons, List.sum_cons, List.map_map]
        congr 1
        · simp
        · congr 1
          apply List.map_congr_left
          intro j _
          simp [Function.comp, Nat.add_comm, Nat.add_left_comm]
      rw [e, e2, List.map_cons, List.map_cons, List.sum_cons, List.sum_cons, ← ih']
      by_cases hc : coin k = true
      · simp [hc]; ring
      · simp [hc]; ring

theorem absDiff_rows (l : List (α × α)) (hl : l ≠ []) :
    absDiff (mean (l.map (fun r => Num.val r.1))) (mean (l.map (fun r => Num.val r.2))) =
      .val (|(l.map Prod.fst).sum - (l.map Prod.snd).sum| / (l.length : α)) := by
  have e1 : l.map (fun r => Num.val r.1) = (l.map Prod.fst).map Num.val := by rw [List.map_map]; rfl
  have e2 : l.map (fun r => Num.val r.2) = (l.map Prod.snd).map Num.val := by rw [List.map_map]; rfl
  rw [e1, e2, mean_map_val _ (by simpa using hl), mean_map_val _ (by simpa using hl)]
  simp only [absDiff, List.length_map]
  congr 1
  rw [← sub_div, abs_div, abs_of_nonneg (a := (l.length : α)) (Nat.cast_nonneg _)]

theorem sum_neg_map {γ : Type*} (f : γ → α) (l : List γ) : -(l.map f).sum = (l.map (fun x => -f x)).sum := by
  induction l with
  | nil => simp
  | cons x t ih => simp only [List.map_cons, List.sum_cons, ← ih]; ring

theorem zip_swap_rows {γ : Type*} (a b : List γ) : b.zip a = (a.zip b).map Prod.swap := by
  induction a generalizing b with
  | nil => simp
  | cons x t ih =>
    cases b with
    | nil => simp
    | cons y u => simp [ih]

theorem sum_indicator (p : Nat → Bool) (l : List Nat) :
    ((l.map (fun i => if p i then (1 : α) else 0)).sum) = ((l.filter p).length : α) := by
  induction l with
  | nil => simp
  | cons i t ih =>
    by_cases h : p i = true
    · simp [h, ih]; ring
    · simp [h, ih]

/-- **C68**: for number scores of `N > 0` queries and `n > 0` samples, whatever the random draws and
whatever the schedule, the p-value is the fraction of the samples whose absolute sum of randomly
signed differences is at least the observed one, and `significant` is `p ≤ max_p`. -/
theorem C68_p_value (coin : Nat → Nat → Bool) (sched : List Nat) (a b : List α) (n : Nat) (maxP : α)
    (hlen : a.length = b.length) (hne : a ≠ []) (hn : 0 < n) (hs : Schedule n sched) :
    fisher coin sched (a.map .val) (b.map .val) n maxP =
      .ok ⟨.val ((Spec.atLeastObserved coin n a b : α) / (n : α)),
        decide ((Spec.atLeastObserved coin n a b : α) / (n : α) ≤ maxP)⟩ := by
  have hN : (0 : α) < (a.length : α) := by
    exact_mod_cast List.length_pos_of_ne_nil hne
  have hne' : ∀ c, swapRows c 0 a b ≠ [] := by
    intro c hc
    have := swapRows_length c 0 a b hlen
    rw [hc] at this
    exact hne (List.length_eq_zero_iff.1 this.symm)
  have hsamp : ∀ c : Nat → Bool,
      absDiff (mean ((permute c ((a.map Num.val).zip (b.map Num.val))).map Prod.fst))
        (mean ((permute c ((a.map Num.val).zip (b.map Num.val))).map Prod.snd)) =
      .val (|Spec.signedSum c a b| / (a.length : α)) := by
    intro c
    rw [permute_vals, List.map_map, List.map_map]
    have := absDiff_rows (swapRows c 0 a b) (hne' c)
    rw [swapRows_diff c 0 a b hlen, swapRows_length c 0 a b hlen] at this
    exact this
  have hobs : absDiff (mean (a.map Num.val)) (mean (b.map Num.val)) =
      .val (|Spec.signedSum (fun _ => false) a b| / (a.length : α)) := by
    rw [← hsamp (fun _ => false)]
    have h1 : permute (fun _ => false) ((a.map Num.val).zip (b.map Num.val)) =
        (a.map Num.val).zip (b.map Num.val) := by
      unfold permute
      simp
    rw [h1, List.map_fst_zip (by simp [hlen]), List.map_snd_zip (by simp [hlen])]
  unfold fisher
  rw [if_neg (by simp [hlen])]
  simp only [hobs, hsamp]
  rw [prange_eq _ _ _ (by simpa using hs)]
  have hcount : mean ((List.range (List.replicate n (Num.val (0 : α))).length).map (fun i : Nat =>
      if leNum (.val (|Spec.signedSum (fun _ => false) a b| / (a.length : α)))
        (.val (|Spec.signedSum (coin i) a b| / (a.length : α))) = true then Num.val (1 : α) else .val 0)) =
      .val ((Spec.atLeastObserved coin n a b : α) / (n : α)) := by
    have e : (List.range (List.replicate n (Num.val (0 : α))).length).map (fun i : Nat =>
      if leNum (.val (|Spec.signedSum (fun _ => false) a b| / (a.length : α)))
        (.val (|Spec.signedSum (coin i) a b| / (a.length : α))) = true then Num.val (1 : α) else .val 0) =
      ((List.range n).map (fun i : Nat => if decide
        (|Spec.signedSum (fun _ => false) a b| ≤ |Spec.signedSum (coin i) a b|) then (1 : α) else 0)).map .val := by
      rw [List.map_map, List.length_replicate]
      apply List.map_congr_left
      intro i _
      simp only [Function.comp, leNum, div_le_div_iff_of_pos_right hN]
      split_ifs <;> rfl
    rw [e, mean_map_val _ (by simp; omega), sum_indicator]
    simp [Spec.atLeastObserved]
  rw [hcount]
  rfl

/-- **C68** (range) -/
theorem C68_range (coin : Nat → Nat → Bool) (n : Nat) (a b : List α) (hn : 0 < n) :
    0 ≤ (Spec.atLeastObserved coin n a b : α) / (n : α) ∧
      (Spec.atLeastObserved coin n a b : α) / (n : α) ≤ 1 := by
  have hn' : (0 : α) < (n : α) := by exact_mod_cast hn
  constructor
  · exact div_nonneg (Nat.cast_nonneg _) hn'.le
  · rw [div_le_one hn']
    have : Spec.atLeastObserved coin n a b ≤ n := by
      unfold Spec.atLeastObserved
      exact (List.length_filter_le _ _).trans (by simp)
    exact_mod_cast this

theorem absDiff_comm (x y : Num α) : absDiff x y = absDiff y x := by
  cases x <;> cases y <;> simp [absDiff, abs_sub_comm]

theorem permute_swap (coin : Nat → Bool) (a b : List (Num α)) :
    permute coin (b.zip a) = (permute coin (a.zip b)).map Prod.swap := by
  unfold permute
  rw [zip_swap_rows a b, List.zipIdx_map, List.map_map, List.map_map]
  apply List.map_congr_left
  intro r _
  obtain ⟨⟨x, y⟩, j⟩ := r
  simp only [Function.comp, Prod.map]
  by_cases h : coin j = true
  · simp [h]
  · simp [h]

/-- **C68** (symmetry): swapping the two systems does not change p-value and verdict (same draws);
holds for all scores, NaN included. -/
theorem C68_symmetric (coin : Nat → Nat → Bool) (sched : List Nat) (a b : List (Num α)) (n : Nat)
    (maxP : α) : fisher coin sched a b n maxP = fisher coin sched b a n maxP := by
  unfold fisher
  simp only [permute_swap _ a b, List.map_map, absDiff_comm (mean b) (mean a)]
  by_cases h : a.length = b.length
  · rw [if_neg (by simpa using h), if_neg (by simpa using h.symm)]
    have e : ∀ i, absDiff (mean ((permute (coin i) (a.zip b)).map (Prod.fst ∘ Prod.swap)))
        (mean ((permute (coin i) (a.zip b)).map (Prod.snd ∘ Prod.swap))) =
        absDiff (mean ((permute (coin i) (a.zip b)).map Prod.fst))
        (mean ((permute (coin i) (a.zip b)).map Prod.snd)) := by
      intro i
      rw [absDiff_comm]
      rfl
    simp only [e]
  · rw [if_pos (by simpa using h), if_pos (by simpa using fun hc => h hc.symm)]

/-- **C68** (identical systems): equal scores give p = 1. -/
theorem C68_identical (coin : Nat → Nat → Bool) (sched : List Nat) (a : List α) (n : Nat) (maxP : α)
    (hne : a ≠ []) (hn : 0 < n) (hs : Schedule n sched) :
    fisher coin sched (a.map .val) (a.map .val) n maxP = .ok ⟨.val 1, decide (1 ≤ maxP)⟩ := by
  rw [C68_p_value coin sched a a n maxP rfl hne hn hs]
  have h0 : ∀ c : Nat → Bool, Spec.signedSum c a a = 0 := by
    intro c; unfold Spec.signedSum; simp
  have : Spec.atLeastObserved coin n a a = n := by
    unfold Spec.atLeastObserved
    simp [h0]
  have hn' : (n : α) ≠ 0 := by exact_mod_cast hn.ne'
  rw [this, div_self hn']

/-- **C68** (the observed assignment is always counted): a sample in which no query is swapped, or every query
is, counts; so p is at least its share. -/
theorem C68_observed_counts (coin : Nat → Nat → Bool) (n : Nat) (a b : List α) (i : Nat) (hi : i < n)
    (h : (∀ j < a.length, coin i j = false) ∨ ∀ j < a.length, coin i j = true) :
    0 < Spec.atLeastObserved coin n a b := by
  unfold Spec.atLeastObserved
  apply List.length_pos_of_mem (a := i)
  rw [List.mem_filter]
  refine ⟨List.mem_range.2 hi, ?_⟩
  rw [decide_eq_true_iff]
  rcases h with h | h
  · have : Spec.signedSum (coin i) a b = Spec.signedSum (fun _ => false) a b := by
      unfold Spec.signedSum
      congr 1
      apply List.map_congr_left
      intro j hj
      rw [h j (List.mem_range.1 hj)]
    rw [this]
  · have : Spec.signedSum (coin i) a b = - Spec.signedSum (fun _ => false) a b := by
      unfold Spec.signedSum
      rw [sum_neg_map]
      congr 1
      apply List.map_congr_left
      intro j hj
      rw [h j (List.mem_range.1 hj)]
      simp
    rw [this, abs_neg]

/-- **C68** (NaN): when one system has a NaN score the test reports p = 0, i.e. the smallest possible
p-value, and calls the difference significant. -/
theorem C68_nan_is_significant (coin : Nat → Nat → Bool) (sched : List Nat) (a b : List (Num α)) (n : Nat)
    (maxP : α) (hlen : a.length = b.length) (hnan : Num.nan ∈ a) (hn : 0 < n) (hs : Schedule n sched)
    (hp : 0 ≤ maxP) : fisher coin sched a b n maxP = .ok ⟨.val 0, true⟩ := by
  have hm : mean a = .nan := by
    have : vals a = none := by
      clear hlen
      induction a with
      | nil => simp at hnan
      | cons x t ih =>
        cases x with
        | nan => rfl
        | val x =>
          rw [vals, ih (by simpa using hnan)]; rfl
    unfold mean
    rw [this]
  unfold fisher
  rw [if_neg (by simp [hlen])]
  simp only [hm, absDiff, leNum]
  rw [prange_eq _ _ _ (by simpa using hs)]
  have e : (List.range (List.replicate n (Num.val (0 : α))).length).map (fun _ : Nat =>
      if false = true then Num.val (1 : α) else .val 0) = (List.replicate n (0 : α)).map .val := by
    simp [List.map_const']
  rw [e, mean_map_val _ (by simp; omega)]
  simp [leNum, hp]

end fisher

/-- Non-vacuity of C68: three queries, four samples, one of them at least as extreme as observed. -/
example : fisher (α := ℚ) (fun i j => i == j) [3, 1, 0, 2] [.val 1, .val (1/2), .val (1/4)]
    [.val (1/2), .val (1/4), .val (1/4)] 4 (1/100) = .ok ⟨.val (1/2), false⟩ ∧
    Spec.atLeastObserved (α := ℚ) (fun i j => i == j) 4 [1, 1/2, 1/4] [1/2, 1/4, 1/4] = 2 := by
  constructor <;> decide +kernel

/-! ## C69 -/

section fs
variable [DecidableEq κ]

/-- **C69**: the result looked up depends only on the set of names, not on their order or repetition:
in particular `d[a, b]`, `d[b, a]` and `d[{a, b}]` agree. -/
theorem C69_order_irrelevant (d : FrozensetDict κ ν) (k k' : List κ) (h : ∀ x, x ∈ k ↔ x ∈ k') :
    d.getItem k = d.getItem k' := by
  unfold FrozensetDict.getItem
  rw [show k.toFinset = k'.toFinset from by ext x; simp [h]]

theorem C69_symmetric (d : FrozensetDict κ ν) (a b : κ) : d.getItem [a, b] = d.getItem [b, a] :=
  C69_order_irrelevant d _ _ (by simp [or_comm])

/-- **C69** (writes): after `d[k] = v`, exactly the keys naming the same set of models read `v`;
every other key reads what it read before. -/
theorem C69_write (d : FrozensetDict κ ν) (k k' : List κ) (v : ν) :
    ((∀ x, x ∈ k ↔ x ∈ k') → (d.setItem k v).getItem k' = some v) ∧
    ((¬ ∀ x, x ∈ k ↔ x ∈ k') → (d.setItem k v).getItem k' = d.getItem k') := by
  unfold FrozensetDict.getItem FrozensetDict.setItem
  rw [get?_set]
  constructor
  · intro h
    rw [if_pos (by ext x; simpa using h x)]
  · intro h
    rw [if_neg (fun hc => h (fun x => by simpa using congrArg (fun s => x ∈ s) hc))]

/-- **C69** (different pairs are independent) -/
theorem C69_pairs_independent (d : FrozensetDict κ ν) (a b a' b' : κ) (v : ν)
    (h : ¬ ((a = a' ∧ b = b') ∨ (a = b' ∧ b = a'))) :
    (d.setItem [a, b] v).getItem [a', b'] = d.getItem [a', b'] := by
  apply (C69_write d [a, b] [a', b'] v).2
  intro hc
  apply h
  have h1 := (hc a).1 (by simp)
  have h2 := (hc b).1 (by simp)
  have h3 := (hc a').2 (by simp)
  have h4 := (hc b').2 (by simp)
  simp only [List.mem_cons, List.not_mem_nil, or_false] at h1 h2 h3 h4
  rcases h1 with rfl | rfl <;> rcases h2 with rfl | rfl <;> simp_all

/-- **C69** (deletion): `del d[k]` fails exactly when no entry has this set of names, and otherwise
removes just that entry. -/
theorem C69_delete (d : FrozensetDict κ ν) (hd : NodupKeys d) (k : List κ) :
    (d.delItem k = none ↔ d.getItem k = none) ∧
    ∀ d', d.delItem k = some d' → ∀ k',
      ((∀ x, x ∈ k ↔ x ∈ k') → d'.getItem k' = none) ∧
      ((¬ ∀ x, x ∈ k ↔ x ∈ k') → d'.getItem k' = d.getItem k') := by
  unfold FrozensetDict.delItem FrozensetDict.getItem
  constructor
  · unfold Dict.contains
    cases d.get? k.toFinset <;> simp
  · intro d' h k'
    by_cases hc : d.contains k.toFinset = true
    · rw [if_pos hc] at h
      cases h
      rw [get?_del hd]
      constructor
      · intro h
        have : k.toFinset = k'.toFinset := by ext x; simpa using h x
        simp [this]
      · intro h
        have : ¬ k.toFinset = k'.toFinset :=
          (fun hc => h (fun x => by simpa using congrArg (fun s => x ∈ s) hc))
        first
          | rw [if_neg this]
          | rw [if_neg (Ne.symm this)]
    · rw [if_neg hc] at h; cases h

end fs

/-- Non-vacuity of C69. -/
example : let d : FrozensetDict Nat Nat := FrozensetDict.setItem (FrozensetDict.setItem [] [1, 2] 5) [2, 3] 7
    d.getItem [2, 1] = some 5 ∧ d.getItem [3, 2] = some 7 ∧ d.getItem [1, 3] = none ∧
    (d.delItem [2, 1]).map (fun d => d.getItem [1, 2]) = some none := by decide +kernel

end Ranx
