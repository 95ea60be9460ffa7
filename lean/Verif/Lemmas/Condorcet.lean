import Mathlib.Data.List.Chain
import Verif.Model.Condorcet
import Verif.Lemmas.Fusion2

/-!
# Lemmas on condorcet fusion
-/

set_option linter.unusedSectionVars false

namespace Ranx.Fuse
open Dict
open _root_.Ranx.Norm (Results toRun SetIter getCandidates)
variable {κ δ α : Type*}

theorem adjacent_of_isChain {γ : Type*} {R : γ → γ → Prop} {l : List γ} (h : l.IsChain R) (i : Nat) (a b : γ)
    (ha : l[i]? = some a) (hb : l[i + 1]? = some b) : R a b := by
  induction h generalizing i with
  | nil => simp at ha
  | singleton x => simp at hb
  | cons_cons hr _ ih =>
    cases i with
    | zero =>
      simp at ha hb
      subst ha; subst hb; exact hr
    | succ i => exact ih i (by simpa using ha) (by simpa using hb)

/-! ### CPython's small sort has the guarantee -/

/-- what neighbours satisfy -/
def Nbr (lt : Nat → Nat → Bool) (a b : Nat) : Prop := lt a b = true ∨ lt b a = false

theorem binarySearch_spec (lt : Nat → Nat → Bool) (p : Nat) (a : List Nat) (fuel l r : Nat)
    (hf : r - l ≤ fuel) (hlr : l ≤ r) (hr : r ≤ a.length)
    (hL : ∀ x, 0 < l → a[l - 1]? = some x → lt p x = false)
    (hR : ∀ x, a[r]? = some x → lt p x = true) :
    (∀ x, 0 < binarySearch lt p a fuel l r → a[binarySearch lt p a fuel l r - 1]? = some x → lt p x = false) ∧
    (∀ x, a[binarySearch lt p a fuel l r]? = some x → lt p x = true) := by
  induction fuel generalizing l r with
  | zero =>
    unfold binarySearch
    have : l = r := by omega
    subst this
    exact ⟨hL, hR⟩
  | succ n ih =>
    unfold binarySearch
    by_cases h : l < r
    · rw [if_pos h]
      simp only
      have hm : l + (r - l) / 2 < a.length := by omega
      have hg : a[l + (r - l) / 2]? = some a[l + (r - l) / 2] := List.getElem?_eq_getElem hm
      rw [hg, Option.getD_some]
      by_cases hc : lt p a[l + (r - l) / 2] = true
      · rw [if_pos hc]
        refine ih l _ (by omega) (by omega) (by omega) hL ?_
        intro x hx
        rw [hg] at hx
        rw [← Option.some.inj hx]; exact hc
      · rw [if_neg hc]
        refine ih _ r (by omega) (by omega) hr ?_ hR
        intro x _ hx
        rw [Nat.add_sub_cancel, hg] at hx
        rw [← Option.some.inj hx]; simpa using hc
    · rw [if_neg h]
      have : l = r := by omega
      subst this
      exact ⟨hL, hR⟩

theorem binarySearch_le (lt : Nat → Nat → Bool) (p : Nat) (a : List Nat) (fuel l r : Nat) (hlr : l ≤ r) :
    binarySearch lt p a fuel l r ≤ r := by
  induction fuel generalizing l r with
  | zero => exact hlr
  | succ n ih =>
    unfold binarySearch
    by_cases h : l < r
    · rw [if_pos h]
      simp only
      by_cases h2 : lt p ((a[l + (r - l) / 2]?).getD 0) = true
      · rw [if_pos h2]
        exact le_trans (ih _ _ (by omega)) (by omega)
      · rw [if_neg h2]
        exact ih _ _ (by omega)
    · rw [if_neg h]; exact hlr

theorem binaryInsert_chain (lt : Nat → Nat → Bool) (a : List Nat) (p : Nat) (h : a.IsChain (Nbr lt)) :
    (binaryInsert lt a p).IsChain (Nbr lt) := by
  obtain ⟨h1, h2⟩ := binarySearch_spec lt p a a.length 0 a.length (by omega) (by omega) le_rfl
    (fun x h => absurd h (lt_irrefl _)) (fun x h => by simp at h)
  have hle := binarySearch_le lt p a a.length 0 a.length (by omega)
  unfold binaryInsert
  simp only
  generalize binarySearch lt p a a.length 0 a.length = k at h1 h2 hle
  rw [List.isChain_append]
  refine ⟨h.take k, ?_, ?_⟩
  · rw [List.isChain_cons]
    refine ⟨?_, h.drop k⟩
    intro y hy
    rw [List.head?_drop] at hy
    exact Or.inl (h2 y hy)
  · intro x hx y hy
    simp only [List.head?_cons, Option.mem_def, Option.some.injEq] at hy
    subst hy
    rw [List.getLast?_take] at hx
    by_cases hk : k = 0
    · rw [if_pos hk] at hx; simp at hx
    · rw [if_neg hk] at hx
      have hg : a[k - 1]? = some a[k - 1] := List.getElem?_eq_getElem (by omega)
      rw [hg] at hx
      simp only [Option.some_or, Option.mem_def, Option.some.injEq] at hx
      subst hx
      exact Or.inr (h1 _ (by omega) hg)

theorem binaryInsert_perm (lt : Nat → Nat → Bool) (a : List Nat) (p : Nat) :
    (binaryInsert lt a p).Perm (p :: a) := by
  unfold binaryInsert
  simp only
  refine List.perm_middle.trans ?_
  rw [List.take_append_drop]

theorem foldl_binaryInsert (lt : Nat → Nat → Bool) (l a : List Nat) (h : a.IsChain (Nbr lt)) :
    (l.foldl (binaryInsert lt) a).IsChain (Nbr lt) ∧ (l.foldl (binaryInsert lt) a).Perm (a ++ l) := by
  induction l generalizing a with
  | nil => exact ⟨h, by simp⟩
  | cons p t ih =>
    obtain ⟨h1, h2⟩ := ih _ (binaryInsert_chain lt a p h)
    refine ⟨h1, h2.trans ?_⟩
    exact ((binaryInsert_perm lt a p).append_right t).trans List.perm_middle.symm

theorem descending_chain (lt : Nat → Nat → Bool) (x : Nat) (t : List Nat) :
    (x :: t.take (descendingLen lt x t)).IsChain (fun a b => lt b a = true) := by
  induction t generalizing x with
  | nil => simp
  | cons y t ih =>
    unfold descendingLen
    by_cases h : lt y x = true
    · rw [if_pos h, List.take_succ_cons]
      exact .cons_cons h (ih y)
    · rw [if_neg h]; simp

theorem ascending_chain (lt : Nat → Nat → Bool) (x : Nat) (t : List Nat) :
    (x :: t.take (ascendingLen lt x t)).IsChain (fun a b => lt b a = false) := by
  induction t generalizing x with
  | nil => simp
  | cons y t ih =>
    unfold ascendingLen
    by_cases h : lt y x = true
    · rw [if_pos h]; simp
    · rw [if_neg h, List.take_succ_cons]
      exact .cons_cons (by simpa using h) (ih y)

theorem pySort_spec (lt : Nat → Nat → Bool) (l : List Nat) :
    (pySort lt l).IsChain (Nbr lt) ∧ (pySort lt l).Perm l := by
  cases l with
  | nil => exact ⟨.nil, .refl _⟩
  | cons x t =>
    unfold pySort
    simp only
    by_cases h : 0 < descendingLen lt x t
    · rw [if_pos h]
      obtain ⟨h1, h2⟩ := foldl_binaryInsert lt (t.drop (descendingLen lt x t))
        (x :: t.take (descendingLen lt x t)).reverse (by
          rw [List.isChain_reverse]
          exact (descending_chain lt x t).imp (fun a b hab => Or.inl hab))
      refine ⟨h1, h2.trans ?_⟩
      refine ((List.reverse_perm _).append_right _).trans ?_
      rw [List.cons_append, List.take_append_drop]
    · rw [if_neg h]
      obtain ⟨h1, h2⟩ := foldl_binaryInsert lt (t.drop (ascendingLen lt x t))
        (x :: t.take (ascendingLen lt x t))
        ((ascending_chain lt x t).imp (fun a b hab => Or.inr hab))
      refine ⟨h1, h2.trans ?_⟩
      rw [List.cons_append, List.take_append_drop]

/-- CPython's sort of short lists, as a `CmpSort` -/
def CmpSort.python : CmpSort where
  run := pySort
  perm lt l := (pySort_spec lt l).2
  adjacent lt l i a b ha hb := adjacent_of_isChain (pySort_spec lt l).1 i a b ha hb

/-! ### one query -/

section
variable [DecidableEq δ] [Field α]

/-- the fused order of one query -/
def condorcetOrder (C : CmpSort) (lt : List (List Nat) → Nat → Nat → Bool) (results : List (List δ))
    (candidates : List δ) : List δ :=
  (C.run (lt (runIndices results candidates)) (List.range candidates.length)).filterMap
    (fun i => candidates[i]?)

theorem filterMap_eq_map_of {γ ε : Type*} (f : γ → Option ε) (l : List γ) (h : ∀ x ∈ l, (f x).isSome) :
    ∀ i : Nat, (l.filterMap f)[i]? = (l[i]?).bind f := by
  induction l with
  | nil => intro i; rfl
  | cons x t ih =>
    intro i
    obtain ⟨y, hy⟩ := Option.isSome_iff_exists.1 (h x List.mem_cons_self)
    rw [List.filterMap_cons_some hy]
    cases i with
    | zero => simp [hy]
    | succ i =>
      rw [List.getElem?_cons_succ, List.getElem?_cons_succ]
      exact ih (fun z hz => h z (List.mem_cons_of_mem _ hz)) i

theorem condorcetOrder_perm (C : CmpSort) (lt : List (List Nat) → Nat → Nat → Bool)
    (results : List (List δ)) (candidates : List δ) :
    (condorcetOrder C lt results candidates).Perm candidates := by
  unfold condorcetOrder
  refine ((C.perm _ _).filterMap _).trans ?_
  have : (List.range candidates.length).filterMap (fun i => candidates[i]?) = candidates := by
    apply List.ext_getElem?
    intro i
    rw [filterMap_eq_map_of _ _ (fun x hx => by
      rw [List.getElem?_eq_getElem (List.mem_range.1 hx)]; rfl)]
    by_cases hi : i < candidates.length
    · rw [List.getElem?_range hi]; rfl
    · rw [List.getElem?_eq_none (by simpa using hi), List.getElem?_eq_none (not_lt.1 hi)]; rfl
  rw [this]

theorem condorcetOrder_adjacent (C : CmpSort) (lt : List (List Nat) → Nat → Nat → Bool)
    (results : List (List δ)) (candidates : List δ) (i : Nat) (a b : δ)
    (ha : (condorcetOrder C lt results candidates)[i]? = some a)
    (hb : (condorcetOrder C lt results candidates)[i + 1]? = some b) :
    ∃ x y : Nat, candidates[x]? = some a ∧ candidates[y]? = some b ∧
      (lt (runIndices results candidates) x y = true ∨ lt (runIndices results candidates) y x = false) := by
  unfold condorcetOrder at ha hb
  have hall : ∀ x ∈ C.run (lt (runIndices results candidates)) (List.range candidates.length),
      (candidates[x]?).isSome := by
    intro x hx
    have := (C.perm _ _).mem_iff.1 hx
    rw [List.getElem?_eq_getElem (List.mem_range.1 this)]; rfl
  rw [filterMap_eq_map_of _ _ hall] at ha hb
  obtain ⟨x, hx, hxa⟩ := Option.bind_eq_some_iff.1 ha
  obtain ⟨y, hy, hyb⟩ := Option.bind_eq_some_iff.1 hb
  exact ⟨x, y, hxa, hyb, C.adjacent _ _ i x y hx hy⟩

theorem condorcetQuery_eq (C : CmpSort) (lt : List (List Nat) → Nat → Nat → Bool)
    (results : List (List δ)) (candidates : List δ) (hc : candidates.Nodup) :
    (condorcetQuery C lt results candidates : Results δ α) =
      (condorcetOrder C lt results candidates).zipIdx.map
        (fun di => (di.1, (candidates.length : α) - (di.2 : α))) := by
  unfold condorcetQuery
  simp only
  change Dict.ofList ((condorcetOrder C lt results candidates).zipIdx.map
        (fun di => (di.1, ((condorcetOrder C lt results candidates).length : α) - (di.2 : α)))) = _
  rw [(condorcetOrder_perm C lt results candidates).length_eq]
  apply ofList_of_nodup
  unfold NodupKeys
  rw [List.map_map]
  have : (Prod.fst ∘ fun di : δ × Nat => (di.1, (candidates.length : α) - (di.2 : α))) = Prod.fst := rfl
  rw [this, List.zipIdx_map_fst]
  exact (condorcetOrder_perm C lt results candidates).nodup_iff.2 hc

/-- the index of candidate `x` in run `ids` -/
theorem runIndices_get (results : List (List δ)) (candidates : List δ) (x : Nat) (a : δ)
    (hx : candidates[x]? = some a) (R : Nat → Nat → Prop) [DecidableRel R] (y : Nat) (b : δ)
    (hy : candidates[y]? = some b) :
    (runIndices results candidates).countP (fun run => decide (R ((run[x]?).getD 0) ((run[y]?).getD 0))) =
      results.countP (fun run => decide (R ((run.idxOf? a).getD 1000000) ((run.idxOf? b).getD 1000000))) := by
  unfold runIndices
  rw [List.countP_map]
  congr 1
  funext run
  simp only [Function.comp_apply, List.getElem?_map, hx, hy, Option.map_some, Option.getD_some]

end

/-! ### the whole run -/

section
variable [DecidableEq κ] [DecidableEq δ] [Field α]

theorem condorcetWith_eq (C : CmpSort) (I : SetIter δ) (lt : List (List Nat) → Nat → Nat → Bool)
    (runs : List (Dict κ (Results δ α))) (hf : Spec.Fusable runs) :
    ∃ r0 rest, runs = r0 :: rest ∧ condorcetWith C I lt runs = .ok
      ⟨r0.keys.map (fun q => (q, condorcetQuery C lt
        (runs.map (fun run => ((run.get? q).getD []).keys))
        (I.run (runs.flatMap (fun run => ((run.get? q).getD []).keys))))), false⟩ := by
  obtain ⟨r0, rest, hruns⟩ : ∃ r0 rest, runs = r0 :: rest := by
    cases h : runs with
    | nil => exact absurd h hf.nonempty
    | cons a b => exact ⟨a, b, rfl⟩
  have h0 : r0 ∈ runs := by rw [hruns]; exact List.mem_cons_self
  have hall : runs.all (fun run => r0.keys.all (fun q => run.contains q)) = true := by
    rw [List.all_eq_true]
    intro run hr
    rw [List.all_eq_true]
    intro q hq'
    rw [contains_iff]; exact hf.same r0 h0 run hr q hq'
  refine ⟨r0, rest, hruns, ?_⟩
  unfold condorcetWith getResults getCandidates
  rw [hruns] at hall ⊢
  simp only
  rw [if_pos hall, if_pos hall]
  simp only [List.getElem?_cons_zero, Option.getD_some, Except.ok.injEq, Store.mk.injEq, and_true]
  unfold toRun
  rw [List.zip_map', List.map_map]
  have : r0.keys.zip (r0.keys.map ((fun rc : List (List δ) × List δ =>
      (condorcetQuery C lt rc.1 rc.2 : Results δ α)) ∘ fun q =>
        ((r0 :: rest).map (fun run => ((run.get? q).getD []).keys),
          I.run ((r0 :: rest).flatMap (fun run => ((run.get? q).getD []).keys))))) =
      r0.keys.map (fun q => (q, condorcetQuery C lt
        ((r0 :: rest).map (fun run => ((run.get? q).getD []).keys))
        (I.run ((r0 :: rest).flatMap (fun run => ((run.get? q).getD []).keys))))) := by
    generalize r0.keys = l
    induction l with
    | nil => rfl
    | cons a t ih => exact congrArg (_ :: ·) ih
  rw [this]
  apply ofList_of_nodup
  unfold NodupKeys
  rw [List.map_map]
  have hk : r0.keys.Nodup := hf.nodupQ r0 h0
  exact (by simpa using hk : (r0.keys.map id).Nodup)

end
end Ranx.Fuse
