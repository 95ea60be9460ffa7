import Verif.Spec.Store
import Verif.Lemmas.Sort
import Mathlib.Data.List.Dedup

/-! Helper lemmas about the store. -/

namespace Ranx
open Dict
namespace Store
variable {κ δ β : Type*}

/-- dictionaries at both levels have unique keys -/
def Wf (d : Dict κ (Dict δ β)) : Prop := NodupKeys d ∧ ∀ p ∈ d, NodupKeys p.2

theorem wf_nil : Wf ([] : Dict κ (Dict δ β)) := ⟨nodupKeys_nil, by simp⟩

section
variable [DecidableEq κ] [DecidableEq δ]

theorem mem_set {ν : Type*} {d : Dict κ ν} {k : κ} {v : ν} {p : κ × ν}
    (h : p ∈ d.set k v) : p ∈ d ∨ p = (k, v) := by
  induction d with
  | nil => simp [Dict.set] at h; exact Or.inr h
  | cons a t ih =>
    obtain ⟨a, b⟩ := a
    by_cases hk : a = k
    · subst hk
      simp only [Dict.set, if_true, List.mem_cons] at h ⊢
      tauto
    · simp only [Dict.set, hk, if_false, List.mem_cons] at h ⊢
      rcases h with h | h
      · exact Or.inl (Or.inl h)
      · rcases ih h with h | h
        · exact Or.inl (Or.inr h)
        · exact Or.inr h

theorem Wf.set {d : Dict κ (Dict δ β)} (h : Wf d) (k : κ) {v : Dict δ β} (hv : NodupKeys v) :
    Wf (d.set k v) := by
  refine ⟨h.1.set k v, fun p hp => ?_⟩
  rcases mem_set hp with hp | rfl
  · exact h.2 p hp
  · exact hv

theorem mem_del {ν : Type*} {d : Dict κ ν} {k : κ} {p : κ × ν}
    (h : p ∈ d.del k) : p ∈ d := by
  induction d with
  | nil => simp [Dict.del] at h
  | cons a t ih =>
    obtain ⟨a, b⟩ := a
    by_cases hk : a = k
    · subst hk
      simp only [Dict.del, if_true] at h
      exact List.mem_cons_of_mem _ h
    · simp only [Dict.del, hk, if_false, List.mem_cons] at h ⊢
      exact h.imp id ih

theorem Wf.del {d : Dict κ (Dict δ β)} (h : Wf d) (k : κ) : Wf (d.del k) :=
  ⟨h.1.del k, fun p hp => h.2 p (mem_del hp)⟩

theorem Wf.get? {d : Dict κ (Dict δ β)} (h : Wf d) {k : κ} {v : Dict δ β}
    (hv : d.get? k = some v) : NodupKeys v := h.2 _ (mem_of_get? hv)

theorem createDictFromLists_get? {ds : List δ} {vs : List β} {inner : Dict δ β}
    (h : createDictFromLists ds vs [] = some inner) (d : δ) :
    inner.get? d = Spec.lastValue ds vs d := by
  have hl : ds.length ≤ vs.length := by
    by_contra hc
    rw [(createDictFromLists_none ds vs []).2 (not_le.1 hc)] at h
    exact absurd h (by simp)
  rw [createDictFromLists_eq _ _ _ hl] at h
  cases h
  rw [get?_foldl_set]
  unfold Spec.lastValue
  cases List.find? (fun p => decide (p.1 = d)) (ds.zip vs).reverse <;> rfl

theorem createDictFromLists_nodup {ds : List δ} {vs : List β} {inner : Dict δ β}
    (h : createDictFromLists ds vs [] = some inner) : NodupKeys inner := by
  have hl : ds.length ≤ vs.length := by
    by_contra hc
    rw [(createDictFromLists_none ds vs []).2 (not_le.1 hc)] at h
    exact absurd h (by simp)
  rw [createDictFromLists_eq _ _ _ hl] at h
  cases h
  exact nodupKeys_foldl_set _ _ nodupKeys_nil

/-- content of raw data -/
def cont (d : Dict κ (Dict δ β)) : Spec.Content κ δ β :=
  fun q => (d.get? q).map (fun inner x => inner.get? x)

theorem content_eq (s : Store κ δ β) : Spec.content s = cont s.data := rfl

theorem cont_set (d : Dict κ (Dict δ β)) (q : κ) (v : Dict δ β) :
    cont (d.set q v) = Spec.replaceQuery (cont d) q (fun x => v.get? x) := by
  funext q'
  unfold cont Spec.replaceQuery
  rw [get?_set]
  by_cases h : q = q'
  · subst h; simp
  · have h' : ¬ q' = q := fun e => h e.symm
    simp [h, h']

theorem addBulk_spec (d : Dict κ (Dict δ β)) (qs : List κ) (dss : List (List δ))
    (vss : List (List β)) (h : Wf d) :
    Wf (addBulk d qs dss vss).1 ∧
    cont (addBulk d qs dss vss).1 = (Spec.replaceQueries (cont d) qs dss vss).1 ∧
    ((addBulk d qs dss vss).2 = none ↔ (Spec.replaceQueries (cont d) qs dss vss).2 = true) ∧
    ((addBulk d qs dss vss).2 = none ∨ (addBulk d qs dss vss).2 = some .indexError) := by
  induction qs generalizing d dss vss with
  | nil => simp [addBulk, Spec.replaceQueries, h]
  | cons q qs ih =>
    cases dss with
    | nil => simp [addBulk, Spec.replaceQueries, h]
    | cons ds dss =>
      cases vss with
      | nil => simp [addBulk, Spec.replaceQueries, h]
      | cons vs vss =>
        unfold addBulk Spec.replaceQueries
        cases hc : createDictFromLists ds vs [] with
        | none =>
          have hl := (createDictFromLists_none ds vs []).1 hc
          have : ¬ ds.length ≤ vs.length := by omega
          simp [this, h]
        | some inner =>
          have hl : ds.length ≤ vs.length := by
            by_contra hcon
            rw [(createDictFromLists_none ds vs []).2 (not_le.1 hcon)] at hc
            exact absurd hc (by simp)
          have := ih (d.set q inner) dss vss (h.set q (createDictFromLists_nodup hc))
          rw [cont_set] at this
          have he : (fun x => inner.get? x) = Spec.lastValue ds vs :=
            funext (createDictFromLists_get? hc)
          rw [he] at this
          simpa [hl] using this

end

section
variable [LinearOrder κ] [DecidableEq δ] [LE β] [Neg β] (S : ArgSort β)

theorem Wf.sortAll {d : Dict κ (Dict δ β)} (h : Wf d) : Wf (sortAll S d) := by
  refine ⟨nodupKeys_sortAll S h.1, ?_⟩
  rw [sortAll_eq S h.1]
  intro p hp
  obtain ⟨a, ha, rfl⟩ := List.mem_map.1 hp
  exact nodupKeys_sortDictByValue S (h.2 a ((sortDictByKey_perm h.1).mem_iff.1 ha))

theorem cont_sortAll {d : Dict κ (Dict δ β)} (h : Wf d) : cont (Ranx.sortAll S d) = cont d := by
  funext q
  unfold cont
  rw [get?_sortAll S h.1, Option.map_map]
  cases hq : d.get? q with
  | none => rfl
  | some inner =>
    simp only [Option.map_some, Function.comp]
    congr 1
    funext x
    exact get?_sortDictByValue S (h.get? hq) x

omit [LE β] [Neg β] in
theorem fold_addMissing (qs : List κ) (d : Dict κ (Dict δ β)) (h : Wf d) :
    Wf (qs.foldl (fun d q => if d.contains q then d else d.set q []) d) ∧
    ∀ q, (qs.foldl (fun d q => if d.contains q then d else d.set q []) d).get? q =
      match d.get? q with
      | some v => some v
      | none => if q ∈ qs then some [] else none := by
  induction qs generalizing d with
  | nil => refine ⟨h, fun q => ?_⟩; simp; cases d.get? q <;> rfl
  | cons a t ih =>
    rw [List.foldl_cons]
    by_cases hc : d.contains a = true
    · simp only [hc, if_true]
      refine ⟨(ih d h).1, fun q => ?_⟩
      rw [(ih d h).2]
      cases hq : d.get? q with
      | some v => rfl
      | none =>
        have : q ≠ a := by
          rintro rfl
          rw [Dict.contains, hq] at hc; simp at hc
        simp [this]
    · rw [if_neg hc]
      have := ih (d.set a []) (h.set a nodupKeys_nil)
      refine ⟨this.1, fun q => ?_⟩
      rw [this.2, get?_set]
      by_cases haq : a = q
      · subst haq
        have : d.get? a = none := by
          cases hg : d.get? a with
          | none => rfl
          | some v => rw [Dict.contains, hg] at hc; simp at hc
        simp [this]
      · have haq' : ¬ q = a := fun e => haq e.symm
        simp [haq, haq']

omit [LE β] [Neg β] in
theorem fold_delExtra (qs ks : List κ) (d : Dict κ (Dict δ β)) (h : Wf d) :
    Wf (ks.foldl (fun d q => if qs.contains q then d else d.del q) d) ∧
    ∀ q, (ks.foldl (fun d q => if qs.contains q then d else d.del q) d).get? q =
      if q ∈ ks ∧ q ∉ qs then none else d.get? q := by
  induction ks generalizing d with
  | nil => exact ⟨h, fun q => by simp⟩
  | cons a t ih =>
    rw [List.foldl_cons]
    by_cases hc : qs.contains a = true
    · simp only [hc, if_true]
      refine ⟨(ih d h).1, fun q => ?_⟩
      rw [(ih d h).2]
      have : a ∈ qs := by simpa using hc
      by_cases hqa : q = a
      · subst hqa; simp [this]
      · simp [hqa]
    · rw [if_neg hc]
      have := ih (d.del a) (h.del a)
      refine ⟨this.1, fun q => ?_⟩
      rw [this.2, get?_del h.1]
      have hna : a ∉ qs := by simpa using hc
      by_cases hqa : q = a
      · subst hqa; simp [hna]
      · have hqa' : ¬ a = q := fun e => hqa e.symm
        simp [hqa, hqa']

omit [LE β] [Neg β] in
theorem comparable_data (s : Store κ δ β) (qs : List κ) (h : Wf s.data) :
    ∃ d2 : Dict κ (Dict δ β), Wf d2 ∧
      (∀ q, d2.get? q = if q ∈ qs then some ((s.data.get? q).getD []) else none) ∧
      d2 = (qs.foldl (fun d q => if d.contains q then d else d.set q []) s.data).keys.foldl
        (fun d q => if qs.contains q then d else d.del q)
        (qs.foldl (fun d q => if d.contains q then d else d.set q []) s.data) := by
  have h1 := fold_addMissing qs s.data h
  have h2 := fold_delExtra qs
    (qs.foldl (fun d q => if d.contains q then d else d.set q []) s.data).keys _ h1.1
  refine ⟨_, h2.1, fun q => ?_, rfl⟩
  rw [h2.2, h1.2]
  by_cases hq : q ∈ qs
  · simp only [hq, not_true, and_false, if_false, if_true]
    cases s.data.get? q <;> rfl
  · simp only [hq, not_false_eq_true, and_true, if_false]
    split
    · rfl
    · rename_i hk
      have := get?_eq_none.2 hk
      rw [h1.2] at this
      simpa [hq] using this

theorem makeComparable_spec (s : Store κ δ β) (qs : List κ) (h : Wf s.data) :
    ∃ d2 : Dict κ (Dict δ β), Wf d2 ∧
      (∀ q, d2.get? q = if q ∈ qs then some ((s.data.get? q).getD []) else none) ∧
      s.makeComparable S qs = ⟨Ranx.sortAll S d2, true⟩ := by
  obtain ⟨d2, hw, hg, he⟩ := comparable_data s qs h
  exact ⟨d2, hw, hg, by rw [he]; rfl⟩

theorem step_spec (s : Store κ δ β) (o : Op κ δ β) (h : Wf s.data) :
    Wf (s.step S o).1.data ∧
    Spec.content (s.step S o).1 = (Spec.step (Spec.content s) o).1 ∧
    ((s.step S o).2 = none ↔ (Spec.step (Spec.content s) o).2 = true) ∧
    ((s.step S o).2 = none ∨ (s.step S o).2 = some (Spec.refusal o)) := by
  have multi : ∀ (qs : List κ) (dss : List (List δ)) (vss : List (List β)),
      Wf (s.addMulti S qs dss vss).1.data ∧
      Spec.content (s.addMulti S qs dss vss).1 =
        (if untyped qs dss vss then (Spec.content s, false)
          else Spec.replaceQueries (Spec.content s) qs dss vss).1 ∧
      ((s.addMulti S qs dss vss).2 = none ↔
        (if untyped qs dss vss then (Spec.content s, false)
          else Spec.replaceQueries (Spec.content s) qs dss vss).2 = true) ∧
      ((s.addMulti S qs dss vss).2 = none ∨
        (s.addMulti S qs dss vss).2 = some (if untyped qs dss vss then .typeError else .indexError)) := by
    intro qs dss vss
    have hb := addBulk_spec s.data qs dss vss h
    unfold addMulti
    by_cases hu : untyped qs dss vss = true
    · rw [if_pos hu, if_pos hu, if_pos hu]; simp [h]
    rw [if_neg hu, if_neg hu, if_neg hu]
    rcases hab : addBulk s.data qs dss vss with ⟨m, e⟩
    rw [hab] at hb
    cases e with
    | some e =>
      refine ⟨hb.1, by simpa [content_eq] using hb.2.1, by simpa [content_eq] using hb.2.2.1, ?_⟩
      rcases hb.2.2.2 with h | h
      · cases h
      · exact Or.inr h
    | none =>
      refine ⟨hb.1.sortAll S, ?_, by simpa [content_eq] using hb.2.2.1, Or.inl rfl⟩
      rw [content_eq, cont_sortAll S hb.1]
      exact hb.2.1
  cases o with
  | addScore q d v =>
    simp only [step, Spec.step, addScore]
    cases hq : s.data.get? q with
    | none =>
      refine ⟨?_, ?_, by simp, by simp⟩
      · apply Wf.set (h.set q nodupKeys_nil)
        simp only [get?_set_self, Option.getD_some]
        exact NodupKeys.set nodupKeys_nil d v
      · rw [content_eq, cont_set, cont_set]
        funext q'
        by_cases hqq : q' = q
        · subst hqq
          simp only [Spec.replaceQuery, Spec.writeOne, if_true, get?_set_self, Option.getD_some]
          congr 1
          funext x
          simp only [get?_set, Spec.Content.read, Spec.content, hq, get?_nil]
          by_cases hx : d = x
          · subst hx; simp
          · have : ¬ x = d := fun e => hx e.symm
            simp [hx, this]
        · simp [Spec.replaceQuery, Spec.writeOne, hqq, content_eq]
    | some inner =>
      refine ⟨?_, ?_, by simp, by simp⟩
      · apply h.set
        simp only [hq, Option.getD_some]
        exact (h.get? hq).set d v
      · rw [content_eq, cont_set]
        funext q'
        by_cases hqq : q' = q
        · subst hqq
          simp only [Spec.replaceQuery, Spec.writeOne, if_true, hq, Option.getD_some]
          congr 1
          funext x
          simp only [get?_set, Spec.Content.read, Spec.content, hq, Option.map_some,
            Option.bind_some]
          by_cases hx : d = x
          · subst hx; simp
          · have : ¬ x = d := fun e => hx e.symm
            simp [hx, this]
        · simp [Spec.replaceQuery, Spec.writeOne, hqq, content_eq]
  | add q ds vs =>
    have := multi [q] [ds] [vs]
    have e : untyped [q] [ds] [vs] = (ds.isEmpty || vs.isEmpty) := by simp [untyped]
    rw [e] at this
    exact this
  | addMulti qs dss vss => exact multi qs dss vss
  | sort =>
    refine ⟨h.sortAll S, ?_, by simp [step, Spec.step], by simp [step]⟩
    exact cont_sortAll S h
  | makeComparable qs =>
    obtain ⟨d2, hw, hg, he⟩ := makeComparable_spec S s qs h
    refine ⟨?_, ?_, by simp [step, Spec.step], by simp [step]⟩
    · simp only [step, he]; exact hw.sortAll S
    · simp only [step, Spec.step, he]
      rw [content_eq, cont_sortAll S hw]
      funext q
      simp only [cont, hg, Spec.restrictTo]
      split
      · simp only [Option.map_some]
        congr 1
        funext x
        simp only [Spec.Content.read, content_eq, cont]
        cases s.data.get? q <;> simp
      · rfl
  | toTypedList =>
    refine ⟨?_, ?_, by simp [step, Spec.step], by simp [step]⟩
    · simp only [step, ensureSorted]
      split
      · exact h
      · exact h.sortAll S
    · simp only [step, ensureSorted, Spec.step]
      split
      · rfl
      · exact cont_sortAll S h

theorem exec_cons (s : Store κ δ β) (o : Op κ δ β) (os : List (Op κ δ β)) :
    s.exec S (o :: os) =
      (((s.step S o).1.exec S os).1, (s.step S o).2 :: ((s.step S o).1.exec S os).2) := rfl

theorem exec_wf (s : Store κ δ β) (os : List (Op κ δ β)) (h : Wf s.data) :
    Wf (s.exec S os).1.data := by
  induction os generalizing s with
  | nil => exact h
  | cons o os ih => rw [exec_cons]; exact ih _ (step_spec S s o h).1

/-- what `ofDict` builds -/
theorem addBulk_dict {κ : Type*} [DecidableEq κ] (d : Dict κ (Dict δ β)) (acc : Dict κ (Dict δ β))
    (hd : NodupKeys (acc ++ d)) (hi : ∀ p ∈ d, NodupKeys p.2) :
    addBulk acc d.keys (d.values.map Dict.keys) (d.values.map Dict.values) = (acc ++ d, none) := by
  induction d generalizing acc with
  | nil => simp [addBulk]
  | cons p t ih =>
    have h1 : createDictFromLists p.2.keys p.2.values [] = some p.2 := by
      rw [createDictFromLists_eq _ _ _ (by simp)]
      have := zip_keys_values_map p.2 (fun v => v)
      simp only [List.map_id'] at this
      rw [this]
      congr 1
      exact ofList_of_nodup (hi p (by simp))
    have hp : p.1 ∉ keys acc := by
      unfold NodupKeys at hd
      rw [List.map_append, List.nodup_append] at hd
      intro hm
      exact hd.2.2 _ hm _ (by simp) rfl
    simp only [keys_cons, values_cons, List.map_cons, addBulk, h1]
    rw [set_of_notMem _ hp, ih]
    · simp
    · simpa using hd
    · exact fun q hq => hi q (List.mem_cons_of_mem _ hq)

theorem ofDict_eq (d : Dict κ (Dict δ β)) (h : Wf d) :
    ofDict S d = if d.values.all (fun x => x.isEmpty) then .error .valueError
      else .ok ⟨Ranx.sortAll S d, true⟩ := by
  unfold ofDict
  rw [addBulk_dict d [] (by simpa using h.1) h.2]
  rfl

end

/-! ### the ranking invariant -/

section
variable [LinearOrder κ] [DecidableEq δ] [AddCommGroup β] [LinearOrder β] [IsOrderedAddMonoid β]
  (S : ArgSort β)

/-- a flagged store is really sorted -/
def FlagOk (s : Store κ δ β) : Prop :=
  s.sorted = true → (∀ p ∈ s.data, Spec.Ranked p.2.values) ∧ s.data.keys.Pairwise (· < ·)

theorem sortAll_ranked {d : Dict κ (Dict δ β)} (h : Wf d) :
    (∀ p ∈ Ranx.sortAll S d, Spec.Ranked p.2.values) ∧
      (Ranx.sortAll S d).keys.Pairwise (· < ·) := by
  refine ⟨?_, keys_sortAll_sorted S h.1⟩
  rw [sortAll_eq S h.1]
  intro p hp
  obtain ⟨a, ha, rfl⟩ := List.mem_map.1 hp
  have hn := h.2 a ((sortDictByKey_perm h.1).mem_iff.1 ha)
  exact List.pairwise_map.2 (sortDictByValue_sorted S hn)

theorem step_flagOk (s : Store κ δ β) (o : Op κ δ β) (h : Wf s.data) (hf : FlagOk s)
    (he : (s.step S o).2 = none) : FlagOk (s.step S o).1 := by
  have multi : ∀ (qs : List κ) (dss : List (List δ)) (vss : List (List β)),
      (s.addMulti S qs dss vss).2 = none → FlagOk (s.addMulti S qs dss vss).1 := by
    intro qs dss vss
    have hb := addBulk_spec s.data qs dss vss h
    unfold addMulti
    by_cases hu : untyped qs dss vss = true
    · rw [if_pos hu]; simp
    rw [if_neg hu]
    rcases hab : addBulk s.data qs dss vss with ⟨m, e⟩
    rw [hab] at hb
    cases e with
    | some e => simp
    | none => exact fun _ _ => sortAll_ranked S hb.1
  cases o with
  | addScore q d v => intro h; simp [step, addScore] at h
  | add q ds vs => exact multi _ _ _ he
  | addMulti qs dss vss => exact multi _ _ _ he
  | sort => exact fun _ => sortAll_ranked S h
  | makeComparable qs =>
    obtain ⟨d2, hw, hg, hm⟩ := makeComparable_spec S s qs h
    simp only [step, hm]
    exact fun _ => sortAll_ranked S hw
  | toTypedList =>
    simp only [step, ensureSorted]
    split
    · exact hf
    · exact fun _ => sortAll_ranked S h

theorem ensureSorted_ranked (s : Store κ δ β) (h : Wf s.data) (hf : FlagOk s) :
    (∀ p ∈ (s.ensureSorted S).data, Spec.Ranked p.2.values) ∧
      (s.ensureSorted S).data.keys.Pairwise (· < ·) := by
  unfold ensureSorted
  split
  · rename_i hs; exact hf hs
  · exact sortAll_ranked S h

end
end Store
end Ranx

namespace Ranx
open Dict
namespace Store
variable {κ δ β : Type*}

/-- no two docs of a query share a value -/
def TieFree (d : Dict κ (Dict δ β)) : Prop := ∀ p ∈ d, p.2.values.Nodup

section
variable [DecidableEq δ] [AddCommGroup β] [LinearOrder β] [IsOrderedAddMonoid β]

/-- a tie-free entry has only one sorted arrangement, whatever the argsort -/
theorem sortDictByValue_unique (S S' : ArgSort β) {d d' : Dict δ β} (hd : NodupKeys d)
    (hp : d.Perm d') (ht : d.values.Nodup) : sortDictByValue S d = sortDictByValue S' d' := by
  have hd' := hd.perm hp
  have h1 := sortDictByValue_sorted S hd
  have h2 := sortDictByValue_sorted S' hd'
  have p1 := sortDictByValue_perm S hd
  have p2 := sortDictByValue_perm S' hd'
  have pp : (sortDictByValue S d).Perm (sortDictByValue S' d') := p1.trans (hp.trans p2.symm)
  have nd : (sortDictByValue S d).values.Nodup := (p1.map Prod.snd).nodup_iff.2 ht
  refine pp.eq_of_pairwise ?_ h1 h2
  intro a b ha hb hab hba
  have hv : a.2 = b.2 := le_antisymm hba hab
  exact List.inj_on_of_nodup_map nd ha (pp.mem_iff.2 hb) hv

end

section
variable [LinearOrder κ] [DecidableEq δ] [AddCommGroup β] [LinearOrder β] [IsOrderedAddMonoid β]

theorem perm_of_cont_inner {a b : Dict δ β} (ha : NodupKeys a) (hb : NodupKeys b)
    (h : ∀ x, a.get? x = b.get? x) : a.Perm b := by
  have na : a.Nodup := List.Nodup.of_map Prod.fst ha
  have nb : b.Nodup := List.Nodup.of_map Prod.fst hb
  refine (List.perm_ext_iff_of_nodup na nb).2 ?_
  rintro ⟨k, v⟩
  rw [← get?_eq_some_iff ha, ← get?_eq_some_iff hb, h]

theorem mem_keys_of_cont {d d' : Dict κ (Dict δ β)} (hc : cont d = cont d') (q : κ) :
    q ∈ d.keys ↔ q ∈ d'.keys := by
  rw [← get?_isSome, ← get?_isSome]
  have := congrFun hc q
  unfold cont at this
  cases h1 : d.get? q <;> cases h2 : d'.get? q <;> simp_all

/-- equal content and no ties: equal after sorting, whatever the argsorts -/
theorem sortAll_unique (S S' : ArgSort β) {d d' : Dict κ (Dict δ β)} (h : Wf d) (h' : Wf d')
    (hc : cont d = cont d') (ht : TieFree d) : Ranx.sortAll S d = Ranx.sortAll S' d' := by
  have hk : (sortDictByKey d).keys = (sortDictByKey d').keys := by
    apply eq_of_mem_iff_of_sorted_lt
    · exact List.pairwise_map.2 (sortDictByKey_sorted h.1)
    · exact List.pairwise_map.2 (sortDictByKey_sorted h'.1)
    · intro q
      have e1 : q ∈ (sortDictByKey d).keys ↔ q ∈ d.keys :=
        ((sortDictByKey_perm h.1).map Prod.fst).mem_iff
      have e2 : q ∈ (sortDictByKey d').keys ↔ q ∈ d'.keys :=
        ((sortDictByKey_perm h'.1).map Prod.fst).mem_iff
      rw [e1, e2]
      exact mem_keys_of_cont hc q
  rw [← filterMap_keys (nodupKeys_sortAll S h.1), ← filterMap_keys (nodupKeys_sortAll S' h'.1),
    keys_sortAll S h.1, keys_sortAll S' h'.1, hk]
  apply List.filterMap_congr
  intro q _
  rw [get?_sortAll S h.1, get?_sortAll S' h'.1]
  have hq := congrFun hc q
  unfold cont at hq
  cases h1 : d.get? q with
  | none =>
    cases h2 : d'.get? q with
    | none => rfl
    | some v => simp [h1, h2] at hq
  | some u =>
    cases h2 : d'.get? q with
    | none => simp [h1, h2] at hq
    | some v =>
      simp only [h1, h2, Option.map_some, Option.some.injEq] at hq
      simp only [Option.map_some]
      rw [sortDictByValue_unique S S' (h.get? h1)
        (perm_of_cont_inner (h.get? h1) (h'.get? h2) (congrFun hq))
        (ht _ (mem_of_get? h1))]

end
end Store

/-- Another correct argsort: ties come in reverse index order. -/
def ArgSort.reversed (β : Type*) [LinearOrder β] : ArgSort β where
  run l := isort (fun i j => match l[i]?, l[j]? with
    | some a, some b => decide (a ≤ b)
    | none, some _ => false
    | _, none => true) (List.range l.length).reverse
  perm l := (isort_perm _ _).trans (List.reverse_perm _)
  sorted l := by
    have h := pairwise_isort (le := fun i j : Nat => match l[i]?, l[j]? with
      | some a, some b => decide (a ≤ b)
      | none, some _ => false
      | _, none => true)
      (fun a b c => by
        cases l[a]? <;> cases l[b]? <;> cases l[c]? <;> simp
        exact fun h1 h2 => le_trans h1 h2)
      (fun a b => by
        cases l[a]? <;> cases l[b]? <;> simp
        exact le_total _ _) (List.range l.length).reverse
    refine h.imp ?_
    intro i j hij a b ha hb
    simpa [ha, hb] using hij

end Ranx
