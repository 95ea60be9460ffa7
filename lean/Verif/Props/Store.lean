import Verif.Lemmas.Store

/-!
# Properties C01-C05, C07, C08: the stores behind `Run` and `Qrels`
-/

namespace Ranx
open Dict Store
variable {κ δ β : Type*}

/-- A store a user can obtain: by `Run()`, `Run(d)`/`from_dict` and any public calls.
`d` ranges over real dictionaries (unique keys). -/
inductive Reachable [LinearOrder κ] [DecidableEq δ] [LE β] [Neg β] (S : ArgSort β) :
    Store κ δ β → Prop
  | new : Reachable S Store.empty
  | ofDict (d : Dict κ (Dict δ β)) (s : Store κ δ β) (hd : NodupKeys d)
      (hi : ∀ p ∈ d, NodupKeys p.2) (h : Store.ofDict S d = .ok s) : Reachable S s
  | step (s : Store κ δ β) (o : Op κ δ β) (h : Reachable S s) : Reachable S (s.step S o).1

section
variable [LinearOrder κ] [DecidableEq δ] [LE β] [Neg β] {S : ArgSort β}

theorem Reachable.wf {s : Store κ δ β} (h : Reachable S s) : Wf s.data := by
  induction h with
  | new => exact wf_nil
  | ofDict d s hd hi h =>
    rw [ofDict_eq S d ⟨hd, hi⟩] at h
    split at h
    · cases h
    · cases h; exact Wf.sortAll S ⟨hd, hi⟩
  | step s o _ ih => exact (step_spec S s o ih).1

theorem Reachable.exec {s : Store κ δ β} (h : Reachable S s) (os : List (Op κ δ β)) :
    Reachable S (s.exec S os).1 := by
  induction os generalizing s with
  | nil => exact h
  | cons o os ih => rw [exec_cons]; exact ih (.step s o h)

/-- **C01.** From any state a user can reach, any finite history of public calls
has exactly the effect of the same history on a plain two-level map, and the calls
that raise are exactly those that fail in the map specification (TypeError for empty lists, else IndexError). -/
theorem C01_history_refines_map (s : Store κ δ β) (hs : Reachable S s) (h : List (Op κ δ β)) :
    Spec.content (s.exec S h).1 = (Spec.exec (Spec.content s) h).1 ∧
    (s.exec S h).2 =
      List.zipWith (fun o ok => if ok then none else some (Spec.refusal o)) h (Spec.exec (Spec.content s) h).2 := by
  induction h generalizing s with
  | nil => exact ⟨rfl, rfl⟩
  | cons o os ih =>
    have hst := step_spec S s o hs.wf
    have := ih (s.step S o).1 (.step s o hs)
    rw [exec_cons]
    simp only [Spec.exec, List.zipWith_cons_cons]
    rw [hst.2.1] at this
    refine ⟨this.1, ?_⟩
    rw [this.2]
    congr 1
    rcases hst.2.2.2 with he | he
    · rw [he, if_pos (hst.2.2.1.1 he)]
    · rw [he, if_neg]
      intro hc
      rw [hst.2.2.1.2 hc] at he
      cases he

/-- **C01** (empty lists): `add` and `add_multi` refuse empty lists with a TypeError and change nothing. -/
theorem C01_empty_lists (s : Store κ δ β) (qs : List κ) (dss : List (List δ)) (vss : List (List β))
    (h : qs = [] ∨ dss = [] ∨ vss = [] ∨ [] ∈ dss ∨ [] ∈ vss) :
    s.step S (.addMulti qs dss vss) = (s, some .typeError) ∧
    ∀ q ds vs, ds = [] ∨ vs = [] → s.step S (.add q ds vs) = (s, some .typeError) := by
  constructor
  · have : untyped qs dss vss = true := by
      unfold untyped
      simp only [Bool.or_eq_true, List.isEmpty_iff, List.any_eq_true]
      rcases h with h | h | h | h | h
      · exact Or.inl (Or.inl (Or.inl (Or.inl h)))
      · exact Or.inl (Or.inl (Or.inl (Or.inr h)))
      · exact Or.inl (Or.inl (Or.inr h))
      · exact Or.inl (Or.inr ⟨[], h, rfl⟩)
      · exact Or.inr ⟨[], h, rfl⟩
    simp only [Store.step, Store.addMulti]
    rw [if_pos this]
  · intro q ds vs h
    have : untyped [q] [ds] [vs] = true := by
      unfold untyped
      rcases h with rfl | rfl <;> simp
    simp only [Store.step, Store.add, Store.addMulti]
    rw [if_pos this]

/-- **C01**, from the empty store: only the calls made determine what can be read. -/
theorem C01_from_empty (h : List (Op κ δ β)) :
    Spec.content ((Store.empty : Store κ δ β).exec S h).1 = (Spec.exec (fun _ => none) h).1 :=
  (C01_history_refines_map (S := S) _ .new h).1

/-- **C01**, spelled out for one write: `add_score(q,d,v)` changes `(q,d)` to `v` and nothing else. -/
theorem C01_add_score (s : Store κ δ β) (hs : Reachable S s) (q q' : κ) (d d' : δ) (v : β) :
    (Spec.content (s.step S (.addScore q d v)).1).read q' d' =
      if q' = q ∧ d' = d then some v else (Spec.content s).read q' d' := by
  rw [(step_spec S s _ hs.wf).2.1]
  simp only [Spec.step, Spec.writeOne, Spec.Content.read]
  by_cases hq : q' = q
  · subst hq
    by_cases hd : d' = d <;> simp [hd]
  · simp [hq]

/-- **C03** (content and order of queries): `sort` keeps what can be read, keeps the same
queries and lists them in increasing order, and each query keeps its (doc, value) pairs. -/
theorem C03_sort_preserves (s : Store κ δ β) (hs : Reachable S s) :
    Spec.content (s.sort S) = Spec.content s ∧
    (s.sort S).data.keys.Perm s.data.keys ∧
    (s.sort S).data.keys.Pairwise (· < ·) ∧
    (∀ q inner, s.data.get? q = some inner →
      ∃ inner', (s.sort S).data.get? q = some inner' ∧ inner'.Perm inner) := by
  have hw := hs.wf
  refine ⟨cont_sortAll S hw, ?_, keys_sortAll_sorted S hw.1, ?_⟩
  · show (sortAll S s.data).keys.Perm _
    rw [keys_sortAll S hw.1]
    exact (sortDictByKey_perm hw.1).map Prod.fst
  · intro q inner hq
    refine ⟨sortDictByValue S inner, ?_, sortDictByValue_perm S (hw.get? hq)⟩
    show (sortAll S s.data).get? q = _
    rw [get?_sortAll S hw.1, hq]; rfl

/-- **C05.** After `make_comparable(qrels)` the run holds exactly the qrels' queries; each keeps the
docs and scores it had, and missing ones are empty. -/
theorem C05_make_comparable (s : Store κ δ β) (hs : Reachable S s) (qs : List κ) :
    (∀ q, q ∈ (s.makeComparable S qs).data.keys ↔ q ∈ qs) ∧
    (∀ q ∈ qs, ∀ d, (Spec.content (s.makeComparable S qs)).read q d = (Spec.content s).read q d) ∧
    (∀ q ∈ qs, q ∉ s.data.keys → (s.makeComparable S qs).data.get? q = some []) := by
  have hw := hs.wf
  obtain ⟨d2, hw2, hg, he⟩ := makeComparable_spec S s qs hw
  rw [he]
  refine ⟨fun q => ?_, fun q hq d => ?_, fun q hq hn => ?_⟩
  · show q ∈ (sortAll S d2).keys ↔ _
    rw [mem_keys_sortAll S hw2.1, ← get?_isSome, hg]
    by_cases h : q ∈ qs <;> simp [h]
  · rw [content_eq, cont_sortAll S hw2]
    simp only [Spec.Content.read, cont, hg, hq, if_true, Option.map_some, Option.bind_some,
      content_eq]
    cases s.data.get? q <;> simp
  · show (sortAll S d2).get? q = _
    rw [get?_sortAll S hw2.1, hg]
    have : s.data.get? q = none := get?_eq_none.2 hn
    simp only [hq, this, if_true, Option.getD_none, Option.map_some]
    have := (sortDictByValue_perm S (d := ([] : Dict δ β)) nodupKeys_nil)
    rw [List.perm_nil.1 this]

/-- **C05** (idempotence): a second call leaves the content as it is. -/
theorem C05_make_comparable_idem (s : Store κ δ β) (hs : Reachable S s) (qs : List κ) :
    Spec.content ((s.makeComparable S qs).makeComparable S qs) =
      Spec.content (s.makeComparable S qs) := by
  have h1 := (step_spec S s (.makeComparable qs) hs.wf).2.1
  have hs' : Reachable S (s.makeComparable S qs) := .step s (.makeComparable qs) hs
  have h2 := (step_spec S (s.makeComparable S qs) (.makeComparable qs) hs'.wf).2.1
  simp only [Store.step, Spec.step] at h1 h2
  rw [h2, h1]
  funext q
  simp only [Spec.restrictTo, Spec.Content.read]
  split <;> simp

/-- **C07.** The constructor raises ValueError exactly when the dictionary has no doc id at all,
never anything else, and otherwise what was given can be read back. -/
theorem C07_construct (d : Dict κ (Dict δ β)) (hd : NodupKeys d) (hi : ∀ p ∈ d, NodupKeys p.2) :
    ((∀ p ∈ d, p.2 = []) → Store.ofDict S d = .error .valueError) ∧
    ((∃ p ∈ d, p.2 ≠ []) → ∃ s, Store.ofDict S d = .ok s ∧ s.sorted = true ∧
      (∀ q, q ∈ s.data.keys ↔ q ∈ d.keys) ∧
      (∀ q inner, (q, inner) ∈ d → ∀ x v, (Spec.content s).read q x = some v ↔ (x, v) ∈ inner)) := by
  have hw : Wf d := ⟨hd, hi⟩
  rw [ofDict_eq S d hw]
  constructor
  · intro h
    rw [if_pos]
    rw [List.all_eq_true]
    intro x hx
    obtain ⟨p, hp, rfl⟩ := List.mem_map.1 hx
    simp [h p hp]
  · rintro ⟨p, hp, hne⟩
    rw [if_neg]
    · refine ⟨_, rfl, rfl, fun q => mem_keys_sortAll S hd q, ?_⟩
      intro q inner hq x v
      rw [content_eq, cont_sortAll S hw]
      simp only [Spec.Content.read, cont, get?_of_mem hd hq, Option.map_some, Option.bind_some]
      exact get?_eq_some_iff (hi _ hq)
    · intro hall
      rw [List.all_eq_true] at hall
      have := hall p.2 (List.mem_map.2 ⟨p, hp, rfl⟩)
      exact hne (by simpa using this)

end

section
variable [LinearOrder κ] [DecidableEq δ] [AddCommGroup β] [LinearOrder β] [IsOrderedAddMonoid β]
  {S : ArgSort β}

/-- **C03** (rank order): after `sort` every query is in non-increasing order of value. -/
theorem C03_sort_ranks (s : Store κ δ β) (hs : Reachable S s) :
    ∀ p ∈ (s.sort S).data, Spec.Ranked p.2.values :=
  (sortAll_ranked S hs.wf).1

/-- **C03** (idempotence): sorting twice is sorting once when no query has tied values
(even if the two calls used different correct argsorts). -/
theorem C03_sort_idempotent (S' : ArgSort β) (s : Store κ δ β) (hs : Reachable S s)
    (ht : ∀ p ∈ s.data, p.2.values.Nodup) : (s.sort S).sort S' = s.sort S := by
  have hw := hs.wf
  unfold Store.sort
  congr 1
  refine (sortAll_unique S S' hw (Wf.sortAll S hw) (cont_sortAll S hw).symm ht).symm

/-- **C04.** Two runs with the same content sort to the same ranking, whatever the order in which
the content was inserted and whatever the argsort, if no two docs of a query tie. -/
theorem C04_insertion_order_irrelevant (S' : ArgSort β) (s s' : Store κ δ β)
    (hs : Reachable S s) (hs' : Reachable S' s')
    (hc : ∀ q d, (Spec.content s).read q d = (Spec.content s').read q d)
    (hq : ∀ q, q ∈ s.data.keys ↔ q ∈ s'.data.keys)
    (ht : ∀ p ∈ s.data, p.2.values.Nodup) : s.sort S = s'.sort S' := by
  unfold Store.sort
  congr 1
  refine sortAll_unique S S' hs.wf hs'.wf ?_ ht
  funext q
  have h1 : (cont s.data q).isSome ↔ (cont s'.data q).isSome := by
    simp only [cont, Option.isSome_map]
    rw [get?_isSome, get?_isSome]; exact hq q
  have h2 := hc q
  simp only [content_eq, Spec.Content.read] at h2
  cases ha : cont s.data q with
  | none =>
    cases hb : cont s'.data q with
    | none => rfl
    | some g => simp [ha, hb] at h1
  | some f =>
    cases hb : cont s'.data q with
    | none => simp [ha, hb] at h1
    | some g =>
      congr 1
      funext d
      have := h2 d
      simpa [ha, hb] using this

/-- **C05**: with tie-free scores a second `make_comparable` changes nothing at all. -/
theorem C05_make_comparable_idem_tieFree (s : Store κ δ β) (hs : Reachable S s) (qs : List κ)
    (ht : ∀ p ∈ (s.makeComparable S qs).data, p.2.values.Nodup) :
    (s.makeComparable S qs).makeComparable S qs = s.makeComparable S qs := by
  have hc := C05_make_comparable_idem s hs qs
  have hs' : Reachable S (s.makeComparable S qs) := .step s (.makeComparable qs) hs
  obtain ⟨d2, hw2, -, he⟩ := makeComparable_spec S s qs hs.wf
  obtain ⟨d3, hw3, -, he3⟩ := makeComparable_spec S (s.makeComparable S qs) qs hs'.wf
  have ht2 : TieFree (sortAll S d2) := by rw [he] at ht; exact ht
  rw [he3, he] at hc
  rw [he3, he]
  congr 1
  simp only [content_eq, cont_sortAll S hw2, cont_sortAll S hw3] at hc
  refine (sortAll_unique S S hw2 hw3 hc.symm ?_).symm
  intro p hp
  have h1 : (sortAll S d2).get? p.1 = some (sortDictByValue S p.2) := by
    rw [get?_sortAll S hw2.1, get?_of_mem hw2.1 (show (p.1, p.2) ∈ d2 from hp)]; rfl
  have := ht2 _ (mem_of_get? h1)
  exact ((sortDictByValue_perm S (hw2.2 p hp)).map Prod.snd).nodup_iff.1 this

/-- **C02.** Whatever calls (including failed ones) produced a run, the rankings that
`evaluate` hands to the metrics (`make_comparable`, then `to_typed_list`) are in
non-increasing order of score. -/
theorem C02_metrics_see_ranked_lists {ι α : Type*} [LinearOrder α] (hash : δ → ι) (cast : β → α)
    (hcast : ∀ a b, a ≤ b → cast a ≤ cast b)
    (s : Store κ δ β) (hs : Reachable S s) (qs : List κ) :
    ∀ l ∈ ((s.makeComparable S qs).toTypedList S hash cast).2,
      Spec.Ranked (l.map Prod.snd) := by
  obtain ⟨d2, hw2, -, he⟩ := makeComparable_spec S s qs hs.wf
  rw [he]
  intro l hl
  simp only [Store.toTypedList, Store.ensureSorted, Store.rows, if_true, List.mem_map] at hl
  obtain ⟨inner, hin, rfl⟩ := hl
  obtain ⟨p, hp, rfl⟩ := List.mem_map.1 hin
  have := (sortAll_ranked S hw2).1 p hp
  unfold Spec.Ranked at *
  rw [List.map_map, List.pairwise_map]
  have h2 := List.pairwise_map.1 this
  exact h2.imp (fun h => hcast _ _ h)

/-- **C02**, for `to_typed_list` alone (as for the qrels argument of `evaluate`): ranked as long as
no call of the history raised.  `_partial`: with a raising `add_multi` in the history
the claim is false, see `C02_failed_add_multi_breaks_order`. -/
theorem C02_typed_list_ranked_partial {ι α : Type*} [LinearOrder α] (hash : δ → ι) (cast : β → α)
    (hcast : ∀ a b, a ≤ b → cast a ≤ cast b)
    (s : Store κ δ β) (hstart : s = Store.empty ∨
      ∃ d : Dict κ (Dict δ β), NodupKeys d ∧ (∀ p ∈ d, NodupKeys p.2) ∧ Store.ofDict S d = .ok s)
    (h : List (Op κ δ β)) (hok : ∀ e ∈ (s.exec S h).2, e = none) :
    ∀ l ∈ ((s.exec S h).1.toTypedList S hash cast).2, Spec.Ranked (l.map Prod.snd) := by
  have hbase : Wf s.data ∧ FlagOk s := by
    rcases hstart with rfl | ⟨d, hd, hi, hof⟩
    · exact ⟨wf_nil, fun hc => by simp [Store.empty] at hc⟩
    · rw [ofDict_eq S d ⟨hd, hi⟩] at hof
      split at hof
      · cases hof
      · cases hof
        exact ⟨Wf.sortAll S ⟨hd, hi⟩, fun _ => sortAll_ranked S ⟨hd, hi⟩⟩
  have key : ∀ (os : List (Op κ δ β)) (s : Store κ δ β), Wf s.data → FlagOk s →
      (∀ e ∈ (s.exec S os).2, e = none) →
      Wf (s.exec S os).1.data ∧ FlagOk (s.exec S os).1 := by
    intro os
    induction os with
    | nil => intro s h1 h2 _; exact ⟨h1, h2⟩
    | cons o os ih =>
      intro s h1 h2 h3
      rw [exec_cons] at h3 ⊢
      exact ih _ (step_spec S s o h1).1 (step_flagOk S s o h1 h2 (h3 _ (by simp)))
        (fun e he => h3 e (by simp [he]))
  have hk := key h s hbase.1 hbase.2 hok
  intro l hl
  simp only [Store.toTypedList, Store.rows, List.mem_map] at hl
  obtain ⟨inner, hin, rfl⟩ := hl
  obtain ⟨p, hp, rfl⟩ := List.mem_map.1 hin
  have := (ensureSorted_ranked S _ hk.1 hk.2).1 p hp
  unfold Spec.Ranked at *
  rw [List.map_map, List.pairwise_map]
  exact (List.pairwise_map.1 this).imp (fun h => hcast _ _ h)

/-- **C02** (recovery): failed calls anywhere in the history are repaired by the next call that succeeds
(other than reading the list itself): the rankings read afterwards are in non-increasing order of score. -/
theorem C02_recovers {ι α : Type*} [LinearOrder α] (hash : δ → ι) (cast : β → α)
    (hcast : ∀ a b, a ≤ b → cast a ≤ cast b)
    (s : Store κ δ β) (hs : Reachable S s) (o : Op κ δ β) (ho : o ≠ .toTypedList) (hok : (s.step S o).2 = none) :
    ∀ l ∈ ((s.step S o).1.toTypedList S hash cast).2, Spec.Ranked (l.map Prod.snd) := by
  have hw : Wf (s.step S o).1.data := (step_spec S s o hs.wf).1
  have hf : FlagOk (s.step S o).1 := by
    have h2 : FlagOk (Store.step S ⟨s.data, false⟩ o).1 :=
      step_flagOk S _ o hs.wf (fun h => by cases h) (by
        cases o with
        | toTypedList => exact absurd rfl ho
        | addMulti q d x =>
          simp only [Store.step, Store.addMulti] at hok ⊢
          revert hok
          by_cases hu : untyped q d x = true
          · rw [if_pos hu, if_pos hu]; exact fun h => h
          rw [if_neg hu, if_neg hu]
          rcases addBulk s.data q d x with ⟨m, _ | e⟩ <;> exact fun h => h
        | add q d x =>
          simp only [Store.step, Store.add, Store.addMulti] at hok ⊢
          revert hok
          by_cases hu : untyped [q] [d] [x] = true
          · rw [if_pos hu, if_pos hu]; exact fun h => h
          rw [if_neg hu, if_neg hu]
          rcases addBulk s.data [q] [d] [x] with ⟨m, _ | e⟩ <;> exact fun h => h
        | _ => rfl)
    have he : (s.step S o).1 = (Store.step S ⟨s.data, false⟩ o).1 := by
      cases o with
      | toTypedList => exact absurd rfl ho
      | addMulti q d x =>
        simp only [Store.step, Store.addMulti] at hok ⊢
        revert hok
        by_cases hu : untyped q d x = true
        · rw [if_pos hu]; exact fun h => nomatch h
        rw [if_neg hu, if_neg hu]
        rcases addBulk s.data q d x with ⟨m, _ | e⟩
        · exact fun _ => rfl
        · exact fun h => nomatch h
      | add q d x =>
        simp only [Store.step, Store.add, Store.addMulti] at hok ⊢
        revert hok
        by_cases hu : untyped [q] [d] [x] = true
        · rw [if_pos hu]; exact fun h => nomatch h
        rw [if_neg hu, if_neg hu]
        rcases addBulk s.data [q] [d] [x] with ⟨m, _ | e⟩
        · exact fun _ => rfl
        · exact fun h => nomatch h
      | _ => rfl
    rw [he]; exact h2
  intro l hl
  simp only [Store.toTypedList, Store.rows, List.mem_map] at hl
  obtain ⟨inner, hin, rfl⟩ := hl
  obtain ⟨p, hp, rfl⟩ := List.mem_map.1 hin
  have := (ensureSorted_ranked S _ hw hf).1 p hp
  unfold Spec.Ranked at *
  rw [List.map_map, List.pairwise_map]
  exact (List.pairwise_map.1 this).imp (fun h => hcast _ _ h)

/-- **C02** (failures after `add_score`): calls which fail while the last successful call was an
`add_score` do no harm either: the rankings read afterwards are in non-increasing order of score. -/
theorem C02_failures_after_add_score {ι α : Type*} [LinearOrder α] (hash : δ → ι) (cast : β → α)
    (hcast : ∀ a b, a ≤ b → cast a ≤ cast b)
    (s : Store κ δ β) (hs : Reachable S s) (q : κ) (d : δ) (v : β) (h : List (Op κ δ β))
    (hfail : ∀ e ∈ ((s.addScore q d v).exec S h).2, e ≠ none) :
    ∀ l ∈ (((s.addScore q d v).exec S h).1.toTypedList S hash cast).2, Spec.Ranked (l.map Prod.snd) := by
  have key : ∀ (os : List (Op κ δ β)) (s : Store κ δ β), Wf s.data → s.sorted = false →
      (∀ e ∈ (s.exec S os).2, e ≠ none) →
      Wf (s.exec S os).1.data ∧ (s.exec S os).1.sorted = false := by
    intro os
    induction os with
    | nil => intro s h1 h2 _; exact ⟨h1, h2⟩
    | cons o os ih =>
      intro s h1 h2 h3
      rw [exec_cons] at h3 ⊢
      refine ih _ (step_spec S s o h1).1 ?_ (fun e he => h3 e (by simp [he]))
      have h4 := h3 (s.step S o).2 (by simp)
      cases o with
      | addMulti q d x =>
        simp only [Store.step, Store.addMulti] at h4 ⊢
        revert h4
        by_cases hu : untyped q d x = true
        · rw [if_pos hu]; exact fun _ => h2
        rw [if_neg hu]
        rcases addBulk s.data q d x with ⟨m, _ | e⟩
        · exact fun h => absurd rfl h
        · exact fun _ => h2
      | add q d x =>
        simp only [Store.step, Store.add, Store.addMulti] at h4 ⊢
        revert h4
        by_cases hu : untyped [q] [d] [x] = true
        · rw [if_pos hu]; exact fun _ => h2
        rw [if_neg hu]
        rcases addBulk s.data [q] [d] [x] with ⟨m, _ | e⟩
        · exact fun h => absurd rfl h
        · exact fun _ => h2
      | _ => exact absurd rfl h4
  have hw0 : Wf (s.addScore q d v).data := (step_spec S s (.addScore q d v) hs.wf).1
  obtain ⟨hw, hf⟩ := key h _ hw0 rfl hfail
  intro l hl
  simp only [Store.toTypedList, Store.rows, List.mem_map] at hl
  obtain ⟨inner, hin, rfl⟩ := hl
  obtain ⟨p, hp, rfl⟩ := List.mem_map.1 hin
  have := (ensureSorted_ranked S _ hw (fun h => by rw [hf] at h; cases h)).1 p hp
  unfold Spec.Ranked at *
  rw [List.map_map, List.pairwise_map]
  exact (List.pairwise_map.1 this).imp (fun h => hcast _ _ h)

end

/-! ### Refutations and non-vacuity -/

/-- A concrete history: construct, then an `add_multi` whose second query has too few scores. -/
def failedAddMulti : Store Nat Nat Int :=
  (Store.step (ArgSort.stable Int) ⟨[(1, [(7, 5)])], true⟩
    (.addMulti [2, 3] [[10, 11], [12, 13]] [[1, 9], [4]])).1

/-- **C02**, refuted for `to_typed_list` after a failed `add_multi`: the state is reachable, still
flagged sorted, and `to_typed_list` returns query 2 with its best doc last. -/
theorem C02_failed_add_multi_breaks_order :
    Reachable (ArgSort.stable Int) failedAddMulti ∧ failedAddMulti.sorted = true ∧
    (failedAddMulti.toTypedList (ArgSort.stable Int) id id).2 = [[(7, 5)], [(10, 1), (11, 9)]] := by
  refine ⟨.step _ _ (.ofDict [(1, [(7, 5)])] _ (by simp [NodupKeys]) (by simp [NodupKeys]) ?_),
    by decide +kernel, by decide +kernel⟩
  decide +kernel

/-- Non-vacuity of `C02_recovers`: the broken store is repaired by adding one score. -/
example : (failedAddMulti.step (ArgSort.stable Int) (.addScore 1 8 6)).2 = none ∧
    ((failedAddMulti.step (ArgSort.stable Int) (.addScore 1 8 6)).1.toTypedList (ArgSort.stable Int) id id).2 =
      [[(8, 6), (7, 5)], [(11, 9), (10, 1)]] := by decide +kernel

/-- Non-vacuity of `C02_failures_after_add_score`: the same failing call after an `add_score`. -/
example : (((⟨[(1, [(7, 5)])], true⟩ : Store Nat Nat Int).addScore 1 8 6).exec (ArgSort.stable Int)
    [.addMulti [2, 3] [[10, 11], [12, 13]] [[1, 9], [4]]]).2 = [some .indexError] ∧
    ((((⟨[(1, [(7, 5)])], true⟩ : Store Nat Nat Int).addScore 1 8 6).exec (ArgSort.stable Int)
      [.addMulti [2, 3] [[10, 11], [12, 13]] [[1, 9], [4]]]).1.toTypedList (ArgSort.stable Int) id id).2 =
      [[(8, 6), (7, 5)], [(11, 9), (10, 1)]] := by decide +kernel

/-- **C04**, refuted with ties: two correct argsorts rank the same content differently. -/
theorem C04_ties_undetermined :
    ∃ (S S' : ArgSort Int) (s : Store Nat Nat Int),
      Reachable S s ∧ Reachable S' s ∧ s.sort S ≠ s.sort S' := by
  refine ⟨ArgSort.stable Int, ArgSort.reversed Int,
    ((Store.empty.addScore 1 10 3).addScore 1 11 3), ?_, ?_, by decide +kernel⟩
  · exact .step _ (.addScore 1 11 3) (.step _ (.addScore 1 10 3) .new)
  · exact .step _ (.addScore 1 11 3) (.step _ (.addScore 1 10 3) .new)

/-- Non-vacuity: a history with overwriting, replacing, failing and aligning calls. -/
example : ((Store.empty : Store Nat Nat Int).exec (ArgSort.stable Int)
    [.addScore 2 20 1, .addScore 1 10 4, .addScore 1 11 6, .addScore 1 10 9, .add 3 [30, 30] [1, 2],
      .addMulti [4] [[40, 41]] [[1]], .add 3 [] [], .makeComparable [1, 3, 5]]) =
    (⟨[(1, [(10, 9), (11, 6)]), (3, [(30, 2)]), (5, [])], true⟩,
      [none, none, none, none, none, some .indexError, some .typeError, none]) := by decide +kernel

/-- Non-vacuity of the hypotheses of `C03_sort_idempotent` / `C04`: a reachable tie-free store. -/
example : ∃ s : Store Nat Nat Int, Reachable (ArgSort.stable Int) s ∧
    (∀ p ∈ s.data, p.2.values.Nodup) ∧ s.sort (ArgSort.stable Int) ≠ s := by
  refine ⟨((Store.empty.addScore 1 10 3).addScore 1 11 4), ?_, by decide +kernel, by decide +kernel⟩
  exact .step _ (.addScore 1 11 4) (.step _ (.addScore 1 10 3) .new)

/-- Non-vacuity of `C07`: both branches occur. -/
example : Store.ofDict (ArgSort.stable Int) ([(1, []), (2, [])] : Dict Nat (Dict Nat Int)) =
      .error .valueError ∧
    Store.ofDict (ArgSort.stable Int) ([(2, [(5, 1), (6, 2)]), (1, [])] : Dict Nat (Dict Nat Int)) =
      .ok ⟨[(1, []), (2, [(6, 2), (5, 1)])], true⟩ := by decide +kernel

end Ranx
