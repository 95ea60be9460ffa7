import Verif.Props.Store
import Mathlib.Data.List.Dedup

/-!
# Property C08: data frames
-/

namespace Ranx
open Dict Store
variable {κ δ β : Type*} [LinearOrder κ] [DecidableEq δ] [LE β] [Neg β] {S : ArgSort β}

/-- the value of the last row for `(q, d)` -/
def Spec.lastRow (df : List (κ × δ × β)) (q : κ) (d : δ) : Option β :=
  (df.reverse.find? (fun r => r.1 = q ∧ r.2.1 = d)).map (fun r => r.2.2)

omit [LE β] [Neg β] in
theorem group_get? (df : List (κ × δ × β)) (q : κ) (d : δ) :
    (Dict.ofList ((df.filter (fun r => r.1 = q)).map (fun r => (r.2.1, r.2.2)))).get? d =
      Spec.lastRow df q d := by
  unfold Dict.ofList Spec.lastRow
  rw [get?_foldl_set, ← List.map_reverse, ← List.filter_reverse, List.find?_map,
    List.find?_filter]
  simp only [Function.comp_def, decide_eq_true_eq]
  cases List.find? (fun r => decide (r.1 = q ∧ r.2.1 = d)) df.reverse <;> rfl

/-- **C08** (`from_df`): on a non-empty frame it succeeds, has exactly the queries of the frame, and
for each (query, doc) the last row wins; an empty frame raises ValueError. -/
theorem C08_from_df (df : List (κ × δ × β)) :
    (df = [] → fromDataframe S df = .error .valueError) ∧
    (df ≠ [] → ∃ s, fromDataframe S df = .ok s ∧ Reachable S s ∧
      (∀ q, q ∈ s.data.keys ↔ ∃ r ∈ df, r.1 = q) ∧
      (∀ q d, (Spec.content s).read q d = Spec.lastRow df q d)) := by
  constructor
  · rintro rfl; rfl
  · intro hne
    let groups := isort (fun a b => decide (a ≤ b)) ((df.map (fun r => r.1)).dedup)
    let dd : Dict κ (Dict δ β) := groups.map (fun q =>
      (q, Dict.ofList ((df.filter (fun r => r.1 = q)).map (fun r => (r.2.1, r.2.2)))))
    have hmemg : ∀ q, q ∈ groups ↔ ∃ r ∈ df, r.1 = q := by
      intro q
      rw [(isort_perm _ _).mem_iff, List.mem_dedup, List.mem_map]
    have hkeys : dd.keys = groups := by
      simp [dd, Dict.keys, Function.comp_def]
    have hnd : NodupKeys dd := by
      rw [nodupKeys_iff, hkeys]
      exact (isort_perm _ _).nodup_iff.2 (List.nodup_dedup _)
    have hin : ∀ p ∈ dd, NodupKeys p.2 := by
      intro p hp
      obtain ⟨q, _, rfl⟩ := List.mem_map.1 hp
      exact nodupKeys_ofList _
    have hw : Wf dd := ⟨hnd, hin⟩
    have hget : ∀ q, dd.get? q = if q ∈ groups then
        some (Dict.ofList ((df.filter (fun r => r.1 = q)).map (fun r => (r.2.1, r.2.2))))
        else none := by
      intro q
      split
      · rename_i hq
        exact get?_of_mem hnd (List.mem_map.2 ⟨q, hq, rfl⟩)
      · rename_i hq
        rw [get?_eq_none, hkeys]; exact hq
    have hof : fromDataframe S df = ofDict S dd := rfl
    have hnonempty : ¬ (dd.values.all (fun x => x.isEmpty)) = true := by
      obtain ⟨r, hr⟩ := List.exists_mem_of_ne_nil df hne
      intro hall
      rw [List.all_eq_true] at hall
      have hq : r.1 ∈ groups := (hmemg _).2 ⟨r, hr, rfl⟩
      have h1 := hall _ (List.mem_map.2 ⟨_, List.mem_map.2 ⟨r.1, hq, rfl⟩, rfl⟩)
      have h2 : r.2.1 ∈ Dict.keys (Dict.ofList ((df.filter (fun r' => r'.1 = r.1)).map
          (fun r => (r.2.1, r.2.2)))) := by
        unfold Dict.ofList
        rw [keys_foldl_set]
        right
        rw [List.map_map, List.mem_map]
        exact ⟨r, by simp [hr], rfl⟩
      simp only [List.isEmpty_iff] at h1
      rw [h1] at h2
      simp at h2
    refine ⟨⟨sortAll S dd, true⟩, ?_, ?_, ?_, ?_⟩
    · rw [hof, ofDict_eq S dd hw, if_neg hnonempty]
    · refine .ofDict dd _ hnd hin ?_
      rw [ofDict_eq S dd hw, if_neg hnonempty]
    · intro q
      rw [mem_keys_sortAll S hnd, hkeys]; exact hmemg q
    · intro q d
      rw [content_eq, cont_sortAll S hw]
      simp only [Spec.Content.read, cont, hget]
      split
      · simp [group_get?]
      · rename_i hq
        symm
        simp only [Option.map_none, Option.bind_none]
        unfold Spec.lastRow
        rw [Option.map_eq_none_iff, List.find?_eq_none]
        intro r hr hc
        simp only [decide_eq_true_eq] at hc
        exact hq ((hmemg q).2 ⟨r, List.mem_reverse.1 hr, hc.1⟩)

omit [DecidableEq δ] [LE β] [Neg β] in
private theorem mem_toDataframe (s : Store κ δ β) (q : κ) (d : δ) (v : β) :
    (q, d, v) ∈ s.toDataframe ↔ ∃ inner, (q, inner) ∈ s.data ∧ (d, v) ∈ inner := by
  unfold toDataframe
  simp only [List.mem_flatMap, List.mem_map, Prod.mk.injEq]
  constructor
  · rintro ⟨p, hp, e, he, rfl, rfl, rfl⟩
    exact ⟨p.2, hp, he⟩
  · rintro ⟨inner, h1, h2⟩
    exact ⟨(q, inner), h1, (d, v), h2, rfl, rfl, rfl⟩

/-- **C08** (round trip): `from_df(to_dataframe(s))` holds the same facts as `s`; exactly the
queries without docs are lost. -/
theorem C08_roundtrip (s : Store κ δ β) (hs : Reachable S s) (hne : ∃ p ∈ s.data, p.2 ≠ []) :
    ∃ s', fromDataframe S s.toDataframe = .ok s' ∧
      (∀ q d, (Spec.content s').read q d = (Spec.content s).read q d) ∧
      (∀ q, q ∈ s'.data.keys ↔ ∃ inner, s.data.get? q = some inner ∧ inner ≠ []) := by
  have hw := hs.wf
  have hdf : s.toDataframe ≠ [] := by
    obtain ⟨p, hp, hpn⟩ := hne
    obtain ⟨e, he⟩ := List.exists_mem_of_ne_nil _ hpn
    intro h
    have := (mem_toDataframe s p.1 e.1 e.2).2 ⟨p.2, hp, he⟩
    rw [h] at this
    simp at this
  obtain ⟨s', hok, -, hk, hr⟩ := (C08_from_df (S := S) s.toDataframe).2 hdf
  refine ⟨s', hok, ?_, ?_⟩
  · intro q d
    rw [hr]
    unfold Spec.lastRow
    cases hf : s.toDataframe.reverse.find? (fun r => decide (r.1 = q ∧ r.2.1 = d)) with
    | none =>
      rw [List.find?_eq_none] at hf
      symm
      simp only [Option.map_none, Spec.Content.read, content_eq, cont]
      cases hq : s.data.get? q with
      | none => rfl
      | some inner =>
        simp only [Option.map_some, Option.bind_some]
        cases hd : inner.get? d with
        | none => rfl
        | some v =>
          exfalso
          have := (mem_toDataframe s q d v).2 ⟨inner, mem_of_get? hq, mem_of_get? hd⟩
          exact hf _ (List.mem_reverse.2 this) (by simp)
    | some r =>
      have h1 := List.find?_some hf
      have h2 := List.mem_reverse.1 (List.mem_of_find?_eq_some hf)
      simp only [decide_eq_true_eq] at h1
      obtain ⟨rfl, rfl⟩ := h1
      obtain ⟨inner, hi, he⟩ := (mem_toDataframe s r.1 r.2.1 r.2.2).1 h2
      symm
      simp only [Option.map_some, Spec.Content.read, content_eq, cont, get?_of_mem hw.1 hi,
        Option.bind_some]
      exact get?_of_mem (hw.2 _ hi) he
  · intro q
    rw [hk]
    constructor
    · rintro ⟨⟨q', d, v⟩, hm, rfl⟩
      obtain ⟨inner, hi, he⟩ := (mem_toDataframe s _ _ _).1 hm
      exact ⟨inner, get?_of_mem hw.1 hi, List.ne_nil_of_mem he⟩
    · rintro ⟨inner, hi, hne⟩
      obtain ⟨e, he⟩ := List.exists_mem_of_ne_nil _ hne
      exact ⟨(q, e.1, e.2), (mem_toDataframe s q e.1 e.2).2 ⟨inner, mem_of_get? hi, he⟩, rfl⟩

/-- Non-vacuity: duplicates resolve to the last row, the empty query 3 of a store is lost. -/
example : fromDataframe (ArgSort.stable Int) [(2, 5, 1), (1, 7, 3), (2, 6, 4), ((2, 5, 9) : ℕ × ℕ × ℤ)]
      = .ok ⟨[(1, [(7, 3)]), (2, [(5, 9), (6, 4)])], true⟩ ∧
    fromDataframe (ArgSort.stable Int)
      (Store.toDataframe (⟨[(1, [(7, 3)]), (3, [])], true⟩ : Store ℕ ℕ ℤ)) =
      .ok ⟨[(1, [(7, 3)])], true⟩ := by decide +kernel

end Ranx
