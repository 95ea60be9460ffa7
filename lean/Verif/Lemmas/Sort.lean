import Mathlib.Algebra.Order.Group.Defs
import Mathlib.Algebra.Order.Ring.Defs
import Mathlib.Order.Defs.LinearOrder
import Mathlib.Data.List.Sort
import Mathlib.Data.List.Range
import Mathlib.Algebra.Order.Group.Unbundled.Basic
import Verif.Model.Sort
import Verif.Lemmas.Dict

/-! Helper lemmas about the sorting primitives. -/

namespace Ranx
open Dict
variable {κ δ β ν : Type*}

theorem filterMap_range_getElem? (d : List ν) :
    (List.range d.length).filterMap (fun i => d[i]?) = d := by
  induction d with
  | nil => rfl
  | cons a t ih =>
    rw [List.length_cons, List.range_succ_eq_map, List.filterMap_cons]
    simp only [List.getElem?_cons_zero, List.filterMap_map]
    congr 1

/-- the entries listed by an index sequence -/
def pick (d : List ν) (idx : List Nat) : List ν := idx.filterMap (fun i => d[i]?)

theorem pick_perm {d : List ν} {idx : List Nat} (h : idx.Perm (List.range d.length)) :
    (pick d idx).Perm d := by
  have := h.filterMap (fun i => d[i]?)
  rw [filterMap_range_getElem?] at this
  exact this

theorem pick_pairwise {d : List ν} {idx : List Nat} {R : ν → ν → Prop}
    (h : idx.Pairwise (fun i j => ∀ a b, d[i]? = some a → d[j]? = some b → R a b)) :
    (pick d idx).Pairwise R := by
  unfold pick
  rw [List.pairwise_filterMap]
  refine h.imp ?_
  intro i j hij a ha b hb
  exact hij a b ha hb

theorem foldl_match_eq [DecidableEq δ] (d : Dict δ β) (idx : List Nat) (acc : Dict δ β) :
    idx.foldl (fun newD i => match d[i]? with
      | some (k, v) => newD.set k v
      | none => newD) acc =
    (pick d idx).foldl (fun d p => d.set p.1 p.2) acc := by
  induction idx generalizing acc with
  | nil => rfl
  | cons i t ih =>
    rw [List.foldl_cons, ih]
    unfold pick
    rw [List.filterMap_cons]
    cases h : d[i]? with
    | none => rfl
    | some p => rfl

section value
variable [DecidableEq δ] [LE β] [Neg β] (S : ArgSort β)

theorem sortDictByValue_eq_pick {d : Dict δ β} (hd : NodupKeys d) :
    sortDictByValue S d = pick d (S.run (d.values.map (fun v => -v))) := by
  have hp : (pick d (S.run (d.values.map (fun v => -v)))).Perm d := by
    apply pick_perm
    have := S.perm (d.values.map (fun v => -v))
    simpa using this
  unfold sortDictByValue typedListArgsort
  exact (foldl_match_eq d _ _).trans (ofList_of_nodup (hd.perm hp.symm))

theorem sortDictByValue_perm {d : Dict δ β} (hd : NodupKeys d) :
    (sortDictByValue S d).Perm d := by
  rw [sortDictByValue_eq_pick S hd]
  apply pick_perm
  have := S.perm (d.values.map (fun v => -v))
  simpa using this

theorem nodupKeys_sortDictByValue {d : Dict δ β} (hd : NodupKeys d) :
    NodupKeys (sortDictByValue S d) :=
  hd.perm (sortDictByValue_perm S hd).symm

theorem get?_sortDictByValue {d : Dict δ β} (hd : NodupKeys d) (k : δ) :
    (sortDictByValue S d).get? k = d.get? k :=
  (get?_perm hd (sortDictByValue_perm S hd).symm k).symm

end value

theorem sortDictByValue_sorted [DecidableEq δ] [AddCommGroup β] [LinearOrder β]
    [IsOrderedAddMonoid β] (S : ArgSort β) {d : Dict δ β} (hd : NodupKeys d) :
    (sortDictByValue S d).Pairwise (fun p q => q.2 ≤ p.2) := by
  rw [sortDictByValue_eq_pick S hd]
  apply pick_pairwise
  refine (S.sorted (d.values.map (fun v => -v))).imp ?_
  intro i j h p q hp hq
  have := h (-p.2) (-q.2) (by simp [Dict.values, hp]) (by simp [Dict.values, hq])
  exact neg_le_neg_iff.1 this

/-! ### by key -/

theorem foldl_get?_eq [DecidableEq κ] (d : Dict κ ν) (ks : List κ) (acc : Dict κ ν) :
    ks.foldl (fun newD k => match d.get? k with
      | some v => newD.set k v
      | none => newD) acc =
    (ks.filterMap (fun k => (d.get? k).map (fun v => (k, v)))).foldl
      (fun d p => d.set p.1 p.2) acc := by
  induction ks generalizing acc with
  | nil => rfl
  | cons i t ih =>
    rw [List.foldl_cons, ih, List.filterMap_cons]
    cases h : d.get? i with
    | none => rfl
    | some p => rfl

theorem filterMap_keys [DecidableEq κ] {d : Dict κ ν} (hd : NodupKeys d) :
    d.keys.filterMap (fun k => (d.get? k).map (fun v => (k, v))) = d := by
  have key : ∀ l : Dict κ ν, (∀ p ∈ l, p ∈ d) →
      l.keys.filterMap (fun k => (d.get? k).map (fun v => (k, v))) = l := by
    intro l
    induction l with
    | nil => intro _; rfl
    | cons p t ih =>
      intro h
      have hp := get?_of_mem hd (h p (by simp) : (p.1, p.2) ∈ d)
      simp only [keys_cons, List.filterMap_cons, hp, Option.map_some]
      rw [ih (fun q hq => h q (List.mem_cons_of_mem _ hq))]
  exact key d (fun _ h => h)

section key
variable [LinearOrder κ]

theorem sortDictByKey_eq {d : Dict κ ν} (hd : NodupKeys d) :
    sortDictByKey d =
      (isort (fun a b => decide (a ≤ b)) d.keys).filterMap
        (fun k => (d.get? k).map (fun v => (k, v))) := by
  have hp : ((isort (fun a b => decide (a ≤ b)) d.keys).filterMap
        (fun k => (d.get? k).map (fun v => (k, v)))).Perm d := by
    have := (isort_perm d.keys (fun a b => decide (a ≤ b))).filterMap
      (fun k => (d.get? k).map (fun v => (k, v)))
    rwa [filterMap_keys hd] at this
  exact (foldl_get?_eq d _ _).trans (ofList_of_nodup (hd.perm hp.symm))

theorem sortDictByKey_perm {d : Dict κ ν} (hd : NodupKeys d) : (sortDictByKey d).Perm d := by
  rw [sortDictByKey_eq hd]
  have := (isort_perm d.keys (fun a b => decide (a ≤ b))).filterMap
    (fun k => (d.get? k).map (fun v => (k, v)))
  rwa [filterMap_keys hd] at this

theorem nodupKeys_sortDictByKey {d : Dict κ ν} (hd : NodupKeys d) :
    NodupKeys (sortDictByKey d) := hd.perm (sortDictByKey_perm hd).symm

theorem get?_sortDictByKey {d : Dict κ ν} (hd : NodupKeys d) (k : κ) :
    (sortDictByKey d).get? k = d.get? k :=
  (get?_perm hd (sortDictByKey_perm hd).symm k).symm

theorem sortDictByKey_sorted {d : Dict κ ν} (hd : NodupKeys d) :
    (sortDictByKey d).Pairwise (fun p q => p.1 < q.1) := by
  have hle : (sortDictByKey d).Pairwise (fun p q => p.1 ≤ q.1) := by
    rw [sortDictByKey_eq hd, List.pairwise_filterMap]
    have h := pairwise_isort (le := fun a b : κ => decide (a ≤ b))
      (fun a b c hab hbc => by
        simp only [decide_eq_true_eq] at *; exact le_trans hab hbc)
      (fun a b => by
        simp only [Bool.or_eq_true, decide_eq_true_eq]; exact le_total a b) d.keys
    refine h.imp ?_
    intro a b hab p hp q hq
    simp only [decide_eq_true_eq] at hab
    cases ha : d.get? a with
    | none => simp [ha] at hp
    | some v =>
      cases hb : d.get? b with
      | none => simp [hb] at hq
      | some w =>
        simp only [ha, hb, Option.map_some, Option.some.injEq] at hp hq
        subst hp; subst hq; exact hab
  have hne : (sortDictByKey d).Pairwise (fun p q => p.1 ≠ q.1) := by
    have := nodupKeys_sortDictByKey hd
    unfold NodupKeys at this
    exact List.pairwise_map.1 this
  exact (hle.and hne).imp (fun h => lt_of_le_of_ne h.1 h.2)

end key

/-! ### dict of dicts -/

theorem createDictFromLists_eq [DecidableEq κ] (ks : List κ) (vs : List ν) (d : Dict κ ν)
    (h : ks.length ≤ vs.length) :
    createDictFromLists ks vs d = some ((ks.zip vs).foldl (fun d p => d.set p.1 p.2) d) := by
  induction ks generalizing vs d with
  | nil => simp [createDictFromLists]
  | cons k t ih =>
    cases vs with
    | nil => simp at h
    | cons v vs =>
      simp only [createDictFromLists, List.zip_cons_cons, List.foldl_cons]
      exact ih vs _ (by simpa using h)

theorem createDictFromLists_none [DecidableEq κ] (ks : List κ) (vs : List ν) (d : Dict κ ν) :
    createDictFromLists ks vs d = none ↔ vs.length < ks.length := by
  induction ks generalizing vs d with
  | nil => simp [createDictFromLists]
  | cons k t ih =>
    cases vs with
    | nil => simp [createDictFromLists]
    | cons v vs => simp [createDictFromLists, ih]

theorem zip_keys_values_map {μ : Type*} (d : Dict κ ν) (f : ν → μ) :
    d.keys.zip (d.values.map f) = d.map (fun p => (p.1, f p.2)) := by
  induction d with
  | nil => rfl
  | cons p t ih => simp [ih]

/-- With distinct query ids `sort_dict_of_dict_by_value` sorts each entry in place. -/
theorem sortDictOfDictByValue_eq [DecidableEq κ] [DecidableEq δ] [LE β] [Neg β] (S : ArgSort β)
    {d : Dict κ (Dict δ β)} (hd : NodupKeys d) :
    sortDictOfDictByValue S d = d.map (fun p => (p.1, sortDictByValue S p.2)) := by
  unfold sortDictOfDictByValue
  rw [createDictFromLists_eq _ _ _ (by simp), zip_keys_values_map]
  have : NodupKeys (d.map (fun p => (p.1, sortDictByValue S p.2))) := by
    rw [nodupKeys_iff, keys_map_val]; exact hd
  exact ofList_of_nodup this

section all
variable [LinearOrder κ] [DecidableEq δ] [LE β] [Neg β] (S : ArgSort β)

theorem sortAll_eq {d : Dict κ (Dict δ β)} (hd : NodupKeys d) :
    sortAll S d = (sortDictByKey d).map (fun p => (p.1, sortDictByValue S p.2)) :=
  sortDictOfDictByValue_eq S (nodupKeys_sortDictByKey hd)

theorem get?_sortAll {d : Dict κ (Dict δ β)} (hd : NodupKeys d) (k : κ) :
    (sortAll S d).get? k = (d.get? k).map (sortDictByValue S) := by
  rw [sortAll_eq S hd, get?_map_val, get?_sortDictByKey hd]

theorem nodupKeys_sortAll {d : Dict κ (Dict δ β)} (hd : NodupKeys d) :
    NodupKeys (sortAll S d) := by
  rw [sortAll_eq S hd, nodupKeys_iff, keys_map_val]
  exact nodupKeys_sortDictByKey hd

theorem keys_sortAll {d : Dict κ (Dict δ β)} (hd : NodupKeys d) :
    (sortAll S d).keys = (sortDictByKey d).keys := by
  rw [sortAll_eq S hd, keys_map_val]

theorem mem_keys_sortAll {d : Dict κ (Dict δ β)} (hd : NodupKeys d) (k : κ) :
    k ∈ (sortAll S d).keys ↔ k ∈ d.keys := by
  rw [keys_sortAll S hd]
  exact ((sortDictByKey_perm hd).map Prod.fst).mem_iff

theorem keys_sortAll_sorted {d : Dict κ (Dict δ β)} (hd : NodupKeys d) :
    (sortAll S d).keys.Pairwise (· < ·) := by
  rw [keys_sortAll S hd]
  exact List.pairwise_map.2 (sortDictByKey_sorted hd)

end all

/-- Two strictly sorted lists with the same members are equal. -/
theorem eq_of_mem_iff_of_sorted_lt {γ : Type*} [LinearOrder γ] {l l' : List γ}
    (h : l.Pairwise (· < ·)) (h' : l'.Pairwise (· < ·)) (hm : ∀ x, x ∈ l ↔ x ∈ l') : l = l' := by
  have nd : l.Nodup := h.imp (fun hab => ne_of_lt hab)
  have nd' : l'.Nodup := h'.imp (fun hab => ne_of_lt hab)
  have hp : l.Perm l' := (List.perm_ext_iff_of_nodup nd nd').2 hm
  exact hp.eq_of_pairwise (fun a b _ _ h1 h2 => absurd h1 (asymm h2)) h h'

/-! ### a concrete stable argsort, as witness that `ArgSort` is inhabited -/

/-- indices sorted by value (ties by index) -/
def stableRun [LinearOrder β] (l : List β) : List Nat :=
  isort (fun i j => match l[i]?, l[j]? with
    | some a, some b => decide (a ≤ b)
    | none, some _ => false
    | _, none => true) (List.range l.length)

/-- Insertion sort gives a correct `argsort`. -/
def ArgSort.stable (β : Type*) [LinearOrder β] : ArgSort β where
  run := stableRun
  perm l := isort_perm _ _
  sorted l := by
    unfold stableRun
    have h := pairwise_isort (le := fun i j : Nat => match l[i]?, l[j]? with
      | some a, some b => decide (a ≤ b)
      | none, some _ => false
      | _, none => true)
      (fun a b c => by
        cases l[a]? <;> cases l[b]? <;> cases l[c]? <;> simp
        exact fun h1 h2 => le_trans h1 h2)
      (fun a b => by
        cases l[a]? <;> cases l[b]? <;> simp
        exact le_total _ _) (List.range l.length)
    refine h.imp ?_
    intro i j hij a b ha hb
    simpa [ha, hb] using hij

end Ranx
