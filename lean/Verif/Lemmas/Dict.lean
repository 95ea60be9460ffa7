import Mathlib.Data.List.Nodup
import Mathlib.Data.List.Perm.Basic
import Verif.Model.Basic

/-! Helper lemmas about insertion ordered dictionaries. -/

namespace Ranx

theorem insertBy_perm {γ : Type*} (le : γ → γ → Bool) (a : γ) (l : List γ) :
    (insertBy le a l).Perm (a :: l) := by
  induction l with
  | nil => exact List.Perm.refl _
  | cons b t ih =>
    unfold insertBy
    split
    · exact List.Perm.refl _
    · exact (ih.cons b).trans (List.Perm.swap a b t)

theorem isort_perm {γ : Type*} (l : List γ) (le : γ → γ → Bool) : (isort le l).Perm l := by
  induction l with
  | nil => exact List.Perm.refl _
  | cons a t ih => exact (insertBy_perm le a _).trans (ih.cons a)

theorem pairwise_isort {γ : Type*} {le : γ → γ → Bool}
    (htrans : ∀ a b c, le a b = true → le b c = true → le a c = true)
    (htotal : ∀ a b, (le a b || le b a) = true) (l : List γ) :
    (isort le l).Pairwise (fun a b => le a b = true) := by
  induction l with
  | nil => exact List.Pairwise.nil
  | cons a t ih =>
    unfold isort
    generalize isort le t = s at ih
    induction s with
    | nil => simp [insertBy]
    | cons b u ihs =>
      unfold insertBy
      rw [List.pairwise_cons] at ih
      split
      · rename_i hab
        refine List.Pairwise.cons ?_ (List.Pairwise.cons ih.1 ih.2)
        intro c hc
        rcases List.mem_cons.1 hc with rfl | hc
        · exact hab
        · exact htrans _ _ _ hab (ih.1 c hc)
      · rename_i hab
        have hba : le b a = true := by
          have := htotal a b
          simpa [hab] using this
        refine List.Pairwise.cons ?_ (ihs ih.2)
        intro c hc
        rcases List.mem_cons.1 ((insertBy_perm le a u).mem_iff.1 hc) with rfl | hc
        · exact hba
        · exact ih.1 c hc

end Ranx

namespace Ranx.Dict
variable {κ ν μ : Type*}

@[simp] theorem keys_nil : keys ([] : Dict κ ν) = [] := rfl
@[simp] theorem keys_cons (p : κ × ν) (d : Dict κ ν) : keys (p :: d) = p.1 :: keys d := rfl
@[simp] theorem values_nil : values ([] : Dict κ ν) = [] := rfl
@[simp] theorem values_cons (p : κ × ν) (d : Dict κ ν) : values (p :: d) = p.2 :: values d := rfl
@[simp] theorem nodupKeys_nil : NodupKeys ([] : Dict κ ν) := List.nodup_nil
@[simp] theorem length_keys (d : Dict κ ν) : (keys d).length = d.length := by simp [keys]
@[simp] theorem length_values (d : Dict κ ν) : (values d).length = d.length := by simp [values]

theorem nodupKeys_cons {p : κ × ν} {d : Dict κ ν} :
    NodupKeys (p :: d) ↔ p.1 ∉ keys d ∧ NodupKeys d := by
  simp [NodupKeys, keys]

theorem nodupKeys_iff {d : Dict κ ν} : NodupKeys d ↔ (keys d).Nodup := Iff.rfl

section
variable [DecidableEq κ]

@[simp] theorem get?_nil (k : κ) : get? ([] : Dict κ ν) k = none := rfl

theorem get?_cons (p : κ × ν) (d : Dict κ ν) (k : κ) :
    get? (p :: d) k = if p.1 = k then some p.2 else get? d k := rfl

theorem get?_set (d : Dict κ ν) (k k' : κ) (v : ν) :
    (d.set k v).get? k' = if k = k' then some v else d.get? k' := by
  induction d with
  | nil => simp [set, get?]
  | cons p t ih =>
    obtain ⟨a, b⟩ := p
    by_cases h : a = k
    · subst h
      simp only [set, if_true, get?]
      split <;> rfl
    · simp only [set, h, if_false, get?, ih]
      by_cases h1 : a = k'
      · subst h1
        have : k ≠ a := fun e => h e.symm
        simp [this]
      · simp [h1]

@[simp] theorem get?_set_self (d : Dict κ ν) (k : κ) (v : ν) : (d.set k v).get? k = some v := by
  simp [get?_set]

theorem get?_set_ne (d : Dict κ ν) {k k' : κ} (v : ν) (h : k ≠ k') :
    (d.set k v).get? k' = d.get? k' := by
  simp [get?_set, h]

theorem get?_eq_none {d : Dict κ ν} {k : κ} : d.get? k = none ↔ k ∉ keys d := by
  induction d with
  | nil => simp
  | cons p t ih =>
    simp only [get?_cons, keys_cons, List.mem_cons, not_or]
    by_cases h : p.1 = k
    · simp [h]
    · have : ¬ k = p.1 := fun e => h e.symm
      simp [h, this, ih]

theorem get?_isSome {d : Dict κ ν} {k : κ} : (d.get? k).isSome ↔ k ∈ keys d := by
  rw [← not_iff_not, ← get?_eq_none]
  simp

theorem contains_iff {d : Dict κ ν} {k : κ} : d.contains k = true ↔ k ∈ keys d := get?_isSome

theorem contains_eq_false_iff {d : Dict κ ν} {k : κ} : d.contains k = false ↔ k ∉ keys d := by
  rw [← contains_iff]; simp

theorem mem_of_get? {d : Dict κ ν} {k : κ} {v : ν} (h : d.get? k = some v) : (k, v) ∈ d := by
  induction d with
  | nil => simp at h
  | cons p t ih =>
    rw [get?_cons] at h
    split at h
    · rename_i hp
      cases h; subst hp; simp
    · exact List.mem_cons_of_mem _ (ih h)

theorem get?_of_mem {d : Dict κ ν} (hd : NodupKeys d) {k : κ} {v : ν} (h : (k, v) ∈ d) :
    d.get? k = some v := by
  induction d with
  | nil => simp at h
  | cons p t ih =>
    rw [nodupKeys_cons] at hd
    rw [get?_cons]
    rcases List.mem_cons.1 h with h | h
    · subst h; simp
    · have : p.1 ≠ k := by
        rintro rfl
        exact hd.1 (List.mem_map.2 ⟨_, h, rfl⟩)
      simp [this, ih hd.2 h]

theorem get?_eq_some_iff {d : Dict κ ν} (hd : NodupKeys d) {k : κ} {v : ν} :
    d.get? k = some v ↔ (k, v) ∈ d := ⟨mem_of_get?, get?_of_mem hd⟩

theorem keys_set (d : Dict κ ν) (k : κ) (v : ν) :
    keys (d.set k v) = if k ∈ keys d then keys d else keys d ++ [k] := by
  induction d with
  | nil => simp [set]
  | cons p t ih =>
    obtain ⟨a, b⟩ := p
    by_cases h : a = k
    · subst h; simp [set]
    · have h' : ¬ k = a := fun e => h e.symm
      simp only [set, h, if_false, keys_cons, ih, List.mem_cons, h', false_or]
      split <;> simp

theorem set_of_notMem {d : Dict κ ν} {k : κ} (v : ν) (h : k ∉ keys d) :
    d.set k v = d ++ [(k, v)] := by
  induction d with
  | nil => simp [set]
  | cons p t ih =>
    obtain ⟨a, b⟩ := p
    simp only [keys_cons, List.mem_cons, not_or] at h
    have h' : ¬ a = k := fun e => h.1 e.symm
    simp [set, h', ih h.2]

theorem mem_keys_set {d : Dict κ ν} {k k' : κ} {v : ν} :
    k' ∈ keys (d.set k v) ↔ k' = k ∨ k' ∈ keys d := by
  rw [keys_set]
  split
  · constructor
    · exact Or.inr
    · rintro (rfl | h) <;> assumption
  · simp [or_comm]

theorem NodupKeys.set {d : Dict κ ν} (hd : NodupKeys d) (k : κ) (v : ν) :
    NodupKeys (d.set k v) := by
  rw [nodupKeys_iff, keys_set]
  split
  · exact hd
  · rename_i h
    rw [List.nodup_append]
    refine ⟨hd, by simp, ?_⟩
    rintro a ha b hb rfl
    simp at hb
    exact h (hb ▸ ha)

theorem keys_del {d : Dict κ ν} (k : κ) : keys (d.del k) = (keys d).erase k := by
  induction d with
  | nil => rfl
  | cons p t ih =>
    obtain ⟨a, b⟩ := p
    by_cases h : a = k
    · subst h; simp [del]
    · simp [del, h, ih]

theorem NodupKeys.del {d : Dict κ ν} (hd : NodupKeys d) (k : κ) : NodupKeys (d.del k) := by
  rw [nodupKeys_iff, keys_del]
  exact List.Nodup.erase _ hd

theorem get?_del {d : Dict κ ν} (hd : NodupKeys d) (k k' : κ) :
    (d.del k).get? k' = if k = k' then none else d.get? k' := by
  induction d with
  | nil => simp [del]
  | cons p t ih =>
    obtain ⟨a, b⟩ := p
    rw [nodupKeys_cons] at hd
    by_cases h : a = k
    · subst h
      simp only [del, if_true, get?_cons]
      split
      · rename_i h1; subst h1
        exact get?_eq_none.2 hd.1
      · rfl
    · simp only [del, h, if_false, get?_cons, ih hd.2]
      by_cases h1 : a = k'
      · subst h1
        have : k ≠ a := fun e => h e.symm
        simp [this]
      · simp [h1]

theorem NodupKeys.perm {d d' : Dict κ ν} (hd : NodupKeys d) (h : d.Perm d') : NodupKeys d' :=
  (h.map Prod.fst).nodup_iff.1 hd

theorem get?_perm {d d' : Dict κ ν} (hd : NodupKeys d) (h : d.Perm d') (k : κ) :
    d.get? k = d'.get? k := by
  have hd' := hd.perm h
  apply Option.ext
  intro v
  rw [get?_eq_some_iff hd, get?_eq_some_iff hd', h.mem_iff]

/-- Successive assignments of fresh distinct keys append. -/
theorem foldl_set_of_nodup (l : List (κ × ν)) (d : Dict κ ν)
    (h : NodupKeys (d ++ l)) :
    l.foldl (fun d p => d.set p.1 p.2) d = d ++ l := by
  induction l generalizing d with
  | nil => simp
  | cons p t ih =>
    have hp : p.1 ∉ keys d := by
      unfold NodupKeys at h
      rw [List.map_append, List.nodup_append] at h
      intro hm
      exact h.2.2 _ hm _ (by simp) rfl
    rw [List.foldl_cons, set_of_notMem _ hp, ih]
    · simp
    · simpa using h

theorem ofList_of_nodup {l : List (κ × ν)} (h : NodupKeys l) : ofList l = l := by
  have := foldl_set_of_nodup l [] (by simpa using h)
  simpa [ofList] using this

theorem nodupKeys_foldl_set (l : List (κ × ν)) (d : Dict κ ν) (hd : NodupKeys d) :
    NodupKeys (l.foldl (fun d p => d.set p.1 p.2) d) := by
  induction l generalizing d with
  | nil => simpa
  | cons p t ih => exact ih _ (hd.set _ _)

theorem nodupKeys_ofList (l : List (κ × ν)) : NodupKeys (ofList l) :=
  nodupKeys_foldl_set l [] nodupKeys_nil

/-- Reading after successive assignments: the last assignment to the key wins. -/
theorem get?_foldl_set (l : List (κ × ν)) (d : Dict κ ν) (k : κ) :
    (l.foldl (fun d p => d.set p.1 p.2) d).get? k =
      (match l.reverse.find? (fun p => p.1 = k) with
        | some p => some p.2
        | none => d.get? k) := by
  induction l generalizing d with
  | nil => simp
  | cons p t ih =>
    rw [List.foldl_cons, ih, List.reverse_cons, List.find?_append]
    cases h : List.find? (fun p => decide (p.1 = k)) t.reverse with
    | some q => simp
    | none =>
      simp only [Option.none_or, List.find?_singleton]
      rw [get?_set]
      by_cases hp : p.1 = k <;> simp [hp]

theorem keys_foldl_set (l : List (κ × ν)) (d : Dict κ ν) (k : κ) :
    k ∈ keys (l.foldl (fun d p => d.set p.1 p.2) d) ↔ k ∈ keys d ∨ k ∈ l.map Prod.fst := by
  induction l generalizing d with
  | nil => simp
  | cons p t ih =>
    rw [List.foldl_cons, ih, mem_keys_set]
    simp only [List.map_cons, List.mem_cons]
    tauto

theorem get?_map_val (d : Dict κ ν) (f : ν → μ) (k : κ) :
    get? (d.map (fun p => (p.1, f p.2))) k = (d.get? k).map f := by
  induction d with
  | nil => rfl
  | cons p t ih =>
    rw [List.map_cons, get?_cons, get?_cons, ih]
    split <;> rfl

theorem keys_map_val (d : Dict κ ν) (f : ν → μ) :
    keys (d.map (fun p => (p.1, f p.2))) = keys d := by
  simp [keys, Function.comp_def]

end
end Ranx.Dict
