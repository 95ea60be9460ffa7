import Mathlib.Algebra.Order.Group.Int
import Verif.Props.Json
import Verif.Props.Store
import Verif.Props.Special
import Verif.Lemmas.PyStr
import Mathlib.Data.List.Lex
import Mathlib.Algebra.Order.Ring.Rat

/-!
# C124: runs and qrels saved as JSON, at the level of the text
-/

set_option linter.unusedSectionVars false

namespace Ranx
open Dict Store Jsn Special Special.X
open Py (Str)

section
variable {ν : Type*} {N : NumText ν}

/-! ## Strict and lax texts -/

mutual
theorem Jsn.denotes_lax {t : Str} {v : Json ν} (h : Spec.Denotes N false t v) : Spec.Denotes N true t v := by
  cases h with
  | null => exact .null
  | true => exact .true
  | false => exact .false
  | nan h => cases h
  | num _ _ h1 h2 => exact .num _ _ h1 h2
  | str _ _ h => exact .str _ _ h
  | emptyArr _ h => exact .emptyArr _ h
  | arr _ _ h => exact .arr _ _ (items_lax h)
  | emptyObj _ h => exact .emptyObj _ h
  | obj _ _ h => exact .obj _ _ (members_lax h)
theorem Jsn.items_lax {t : Str} {v : List (Json ν)} (h : Spec.Items N false t v) : Spec.Items N true t v := by
  cases h with
  | one _ _ _ _ h1 h2 h3 => exact .one _ _ _ _ h1 (denotes_lax h2) h3
  | cons _ _ _ _ _ _ h1 h2 h3 h4 => exact .cons _ _ _ _ _ _ h1 (denotes_lax h2) h3 (items_lax h4)
theorem Jsn.members_lax {t : Str} {v : List (Str × Json ν)} (h : Spec.Members N false t v) : Spec.Members N true t v := by
  cases h with
  | one _ _ _ _ _ _ _ _ h0 h1 h2 h3 h4 h5 => exact .one _ _ _ _ _ _ _ _ h0 h1 h2 h3 (denotes_lax h4) h5
  | cons _ _ _ _ _ _ _ _ _ _ h0 h1 h2 h3 h4 h5 h6 =>
    exact .cons _ _ _ _ _ _ _ _ _ _ h0 h1 h2 h3 (denotes_lax h4) h5 (members_lax h6)
end

mutual
theorem Jsn.denotes_noNan {t : Str} {v : Json ν} (h : Spec.Denotes N false t v) : Spec.noNan v := by
  cases h with
  | nan h => cases h
  | arr _ _ h => simp only [Spec.noNan]; exact items_noNan h
  | obj _ _ h => simp only [Spec.noNan]; exact members_noNan h
  | _ => simp only [Spec.noNan, Spec.noNanItems, Spec.noNanMembers]
theorem Jsn.items_noNan {t : Str} {v : List (Json ν)} (h : Spec.Items N false t v) : Spec.noNanItems v := by
  cases h with
  | one _ _ _ _ h1 h2 h3 => simp only [Spec.noNanItems, and_true]; exact denotes_noNan h2
  | cons _ _ _ _ _ _ h1 h2 h3 h4 => simp only [Spec.noNanItems]; exact ⟨denotes_noNan h2, items_noNan h4⟩
theorem Jsn.members_noNan {t : Str} {v : List (Str × Json ν)} (h : Spec.Members N false t v) : Spec.noNanMembers v := by
  cases h with
  | one _ _ _ _ _ _ _ _ h0 h1 h2 h3 h4 h5 => simp only [Spec.noNanMembers, and_true]; exact denotes_noNan h4
  | cons _ _ _ _ _ _ _ _ _ _ h0 h1 h2 h3 h4 h5 h6 =>
    simp only [Spec.noNanMembers]; exact ⟨denotes_noNan h4, members_noNan h6⟩
end

/-- **C124**: what `dumps` writes denotes no other value, and it is JSON exactly if the value contains no NaN. -/
theorem C124_strict (ascii : Bool) (indent : Nat) (v v' : Json ν) :
    Spec.JsonText N false (dumps N ascii indent 0 v) v' ↔ v' = v ∧ Spec.noNan v := by
  constructor
  · rintro ⟨w, t, w', e, hw, ht, hw'⟩
    have h1 : loads N true (dumps N ascii indent 0 v) = some v' :=
      (C124_reader N true _ v').2 ⟨w, t, w', e, hw, denotes_lax ht, hw'⟩
    rw [C124_python_reads, Option.some.injEq] at h1
    subst h1
    exact ⟨rfl, denotes_noNan ht⟩
  · rintro ⟨rfl, h⟩
    exact C124_writer N ascii indent _ h

/-! ## Dictionaries -/

theorem Jsn.dictOf_map {β γ ε : Type*} (f : γ → Except Err ε) (g : β → γ) (h : β → ε)
    (l : Dict Str β) : (∀ p ∈ l, f (g p.2) = .ok (h p.2)) → ∀ d : Dict Str ε, (d.keys ++ l.keys).Nodup →
      dictOf f (l.map (fun e => (e.1, g e.2))) d = .ok (d ++ l.map (fun e => (e.1, h e.2))) := by
  induction l with
  | nil => intro _ d _; simp [dictOf]
  | cons p t ih =>
    intro hfg d hd
    obtain ⟨k, v⟩ := p
    have h0 := hfg (k, v) (by simp)
    simp only at h0
    simp only [List.map_cons, dictOf, h0]
    have hk : k ∉ d.keys := by
      rw [List.nodup_append] at hd
      intro hm
      exact hd.2.2 k hm k (by simp [keys]) rfl
    rw [set_of_notMem _ hk]
    have hn : (keys (d ++ [(k, h v)]) ++ keys t).Nodup := by
      have : keys (d ++ [(k, h v)]) ++ keys t = d.keys ++ keys ((k, v) :: t) := by simp [keys]
      rw [this]; exact hd
    rw [ih (fun p hp => hfg p (by simp [hp])) (d ++ [(k, h v)]) hn]
    simp

/-- the values of a dictionary of dictionaries, one by one -/
def Jsn.mapVals {β γ : Type*} (h : β → γ) (d : Dict Str (Dict Str β)) : Dict Str (Dict Str γ) :=
  d.map (fun p => (p.1, p.2.map (fun e => (e.1, h e.2))))

theorem Jsn.asDict_nested {β γ : Type*} (f : Json ν → Except Err γ) (g : β → Json ν) (h : β → γ)
    (hfg : ∀ x, f (g x) = .ok (h x)) (d : Dict Str (Dict Str β)) (hw : Wf d) :
    asDict (asDict f) (nested g d) = .ok (mapVals h d) := by
  show dictOf (asDict f) _ [] = _
  have := dictOf_map (asDict f) (fun i : Dict Str β => .obj (i.map (fun e => (e.1, g e.2))))
    (fun i => i.map (fun e => (e.1, h e.2))) d (by
      intro p hp
      have := dictOf_map f g h p.2 (fun e _ => hfg e.2) [] (by simpa [keys, NodupKeys] using hw.2 p hp)
      simpa [asDict] using this) [] (by simpa [keys, NodupKeys] using hw.1)
  simpa [mapVals] using this

theorem Jsn.nestedOf_nested {β γ : Type*} (f : Json ν → Except Err γ) (g : β → Json ν) (h : β → γ)
    (hfg : ∀ x, f (g x) = .ok (h x)) (hn : ∀ x, Spec.noNan (g x)) (d : Dict Str (Dict Str β)) (hw : Wf d) :
    nestedOf N f (dumps N false 2 0 (nested g d)) = .ok (mapVals h d) := by
  have hnn : ∀ d : Dict Str β, Spec.noNanMembers (d.map (fun e => (e.1, g e.2))) := by
    intro d
    induction d with
    | nil => simp [Spec.noNanMembers]
    | cons p t ih => simp only [List.map_cons, Spec.noNanMembers]; exact ⟨hn _, ih⟩
  have hnd : Spec.noNan (nested g d) := by
    unfold nested
    simp only [Spec.noNan]
    clear hw
    induction d with
    | nil => simp [Spec.noNanMembers]
    | cons p t ih => simp only [List.map_cons, Spec.noNanMembers, Spec.noNan]; exact ⟨hnn _, ih⟩
  unfold nestedOf
  rw [(C124_reader N false _ _).2 (C124_writer N false 2 _ hnd)]
  exact asDict_nested f g h hfg d hw

theorem Jsn.wf_mapVals {β γ : Type*} (h : β → γ) {d : Dict Str (Dict Str β)} (hw : Wf d) : Wf (mapVals h d) := by
  refine ⟨?_, ?_⟩
  · have := hw.1
    unfold NodupKeys at *
    simpa [mapVals, List.map_map, Function.comp_def] using this
  · intro p hp
    obtain ⟨a, ha, rfl⟩ := List.mem_map.1 hp
    have := hw.2 a ha
    unfold NodupKeys at *
    simpa [List.map_map, Function.comp_def] using this

theorem Jsn.keys_mapVals {β γ : Type*} (h : β → γ) (d : Dict Str (Dict Str β)) : keys (mapVals h d) = keys d := by
  simp [mapVals, keys, Function.comp_def]

theorem Jsn.cont_mapVals {β γ : Type*} (h : β → γ) (d : Dict Str (Dict Str β)) (q x : Str) :
    (Store.cont (mapVals h d)).read q x = ((Store.cont d).read q x).map h := by
  unfold Spec.Content.read Store.cont
  have e : Dict.get? (mapVals h d) q = (Dict.get? d q).map (fun i => i.map (fun e => (e.1, h e.2))) :=
    get?_map_val _ _ _
  rw [e]
  cases Dict.get? d q with
  | none => rfl
  | some i => exact get?_map_val _ _ _

end

/-! ## Runs -/

theorem Jsn.not_all {β : Type*} {d : Dict Str (Dict Str β)} (hne : ∃ p ∈ d, p.2 ≠ []) :
    ¬ (values d).all (fun x => x.isEmpty) = true := by
  obtain ⟨p, hp, hpe⟩ := hne
  intro hall
  rw [List.all_eq_true] at hall
  exact hpe (by simpa using hall p.2 (List.mem_map.2 ⟨p, hp, rfl⟩))

theorem Jsn.nonempty_of_cont {β : Type*} {d d' : Dict Str (Dict Str β)} (hw : Wf d) (hc : Store.cont d' = Store.cont d)
    (hne : ∃ p ∈ d, p.2 ≠ []) : ∃ p ∈ d', p.2 ≠ [] := by
  obtain ⟨p, hp, hpe⟩ := hne
  have hg := get?_of_mem hw.1 (show (p.1, p.2) ∈ _ from hp)
  have hc := congrFun hc p.1
  simp only [Store.cont, hg, Option.map_some] at hc
  obtain ⟨i, hi, he⟩ := Option.map_eq_some_iff.1 hc
  refine ⟨(p.1, i), mem_of_get? hi, ?_⟩
  intro h0
  simp only [] at h0
  rw [h0] at he
  cases hpp : p.2 with
  | nil => exact hpe hpp
  | cons e t =>
    have := (congrFun he e.1).symm
    rw [hpp, get?_cons] at this
    simp [Dict.get?] at this

/-- what becomes of a score in a JSON file: numbers are kept, infinities and NaN come back as NaN -/
def Spec.afterJson {α : Type*} : X α → X α
  | .fin x => .fin x
  | _ => .nan

section
variable {α : Type*} [Field α] [LinearOrder α] [IsStrictOrderedRing α]

theorem Jsn.scoreOfJson_scoreJson (x : X α) : scoreOfJson (scoreJson x) = .ok (Spec.afterJson x) := by
  cases x <;> rfl

/-- **C124** (runs): a run with at least one doc, whatever the characters of its ids, saved as JSON text and loaded from
this text (by any sorting, `S'`), has the same queries and docs; finite scores are the same, infinite scores and NaN
become NaN.  The loaded run is ranked. -/
theorem C124_run (N : NumText α) (S S' : ArgSort (X α)) (s : Store Str Str (X α)) (hs : Reachable S s)
    (hne : ∃ p ∈ s.data, p.2 ≠ []) :
    ∃ s', runOfJson N S' (runText N (s.ensureSorted S).data) = .ok s' ∧ Reachable S' s' ∧
      (∀ q x, (Spec.content s').read q x = ((Spec.content s).read q x).map Spec.afterJson) ∧
      (∀ q, q ∈ s'.data.keys ↔ q ∈ s.data.keys) ∧
      (∀ p ∈ s'.data, p.2.Pairwise (fun a b => Spec.FloatAtLeast a.2 b.2)) ∧ s'.data.keys.Pairwise (· < ·) := by
  have hw := hs.wf
  have hws : Wf (s.ensureSorted S).data ∧ Store.cont (s.ensureSorted S).data = Store.cont s.data := by
    unfold Store.ensureSorted
    split
    · exact ⟨hw, rfl⟩
    · exact ⟨Wf.sortAll S hw, cont_sortAll S hw⟩
  obtain ⟨hw1, hc1⟩ := hws
  have hw2 := wf_mapVals Spec.afterJson hw1
  have hne' : ∃ p ∈ mapVals (Spec.afterJson (α := α)) (s.ensureSorted S).data, p.2 ≠ [] := by
    obtain ⟨p, hp, h⟩ := nonempty_of_cont hw hc1 hne
    exact ⟨_, List.mem_map.2 ⟨p, hp, rfl⟩, by simpa using h⟩
  have hof := (ofDict_eq S' _ hw2).trans (if_neg (not_all hne'))
  refine ⟨⟨sortAll S' (mapVals Spec.afterJson (s.ensureSorted S).data), true⟩, ?_, .ofDict _ _ hw2.1 hw2.2 hof, ?_, ?_,
    Special.sortAll_ranked S' hw2⟩
  · unfold runOfJson runText
    rw [nestedOf_nested scoreOfJson scoreJson Spec.afterJson scoreOfJson_scoreJson (fun x => by
      cases x <;> simp [scoreJson, Spec.noNan]) _ hw1]
    exact hof
  · intro q x
    rw [content_eq, content_eq]
    show (Store.cont (sortAll S' _)).read q x = _
    rw [cont_sortAll S' hw2, cont_mapVals, hc1]
  · intro q
    show q ∈ keys (sortAll S' _) ↔ _
    rw [mem_keys_sortAll S' hw2.1, keys_mapVals]
    have := congrFun hc1 q
    rw [← get?_isSome, ← get?_isSome]
    simp only [Store.cont] at this
    cases h1 : Dict.get? s.data q <;> cases h2 : Dict.get? (s.ensureSorted S).data q <;> simp_all

/-- **C124** (runs, proved part): without infinite scores, the loaded run has exactly the scores of the saved one. -/
theorem C124_run_partial (N : NumText α) (S S' : ArgSort (X α)) (s : Store Str Str (X α)) (hs : Reachable S s)
    (hne : ∃ p ∈ s.data, p.2 ≠ []) (hinf : ∀ q x v, (Spec.content s).read q x = some v → v ≠ .pinf ∧ v ≠ .ninf) :
    ∃ s', runOfJson N S' (runText N (s.ensureSorted S).data) = .ok s' ∧
      ∀ q x, (Spec.content s').read q x = (Spec.content s).read q x := by
  obtain ⟨s', h1, -, h2, -⟩ := C124_run N S S' s hs hne
  refine ⟨s', h1, fun q x => ?_⟩
  rw [h2]
  cases h : (Spec.content s).read q x with
  | none => rfl
  | some v =>
    obtain ⟨a, b⟩ := hinf q x v h
    cases v with
    | fin => rfl
    | pinf => exact absurd rfl a
    | ninf => exact absurd rfl b
    | nan => rfl

/-- **C124** (refuted for infinite scores): a run in which a doc has an infinite score does not come back. -/
theorem C124_inf_refuted (N : NumText α) (S S' : ArgSort (X α)) (s : Store Str Str (X α)) (hs : Reachable S s)
    (q x : Str) (hv : (Spec.content s).read q x = some .pinf ∨ (Spec.content s).read q x = some .ninf) :
    ∃ s', runOfJson N S' (runText N (s.ensureSorted S).data) = .ok s' ∧ (Spec.content s').read q x = some .nan := by
  have hne : ∃ p ∈ s.data, p.2 ≠ [] := by
    have : ∃ v, (Spec.content s).read q x = some v := by rcases hv with h | h <;> exact ⟨_, h⟩
    obtain ⟨v, h⟩ := this
    rw [content_eq] at h
    unfold Spec.Content.read Store.cont at h
    cases hq : Dict.get? s.data q with
    | none => rw [hq] at h; cases h
    | some i =>
      rw [hq] at h
      refine ⟨(q, i), mem_of_get? hq, ?_⟩
      rintro rfl
      cases h
  obtain ⟨s', h1, -, h2, -⟩ := C124_run N S S' s hs hne
  refine ⟨s', h1, ?_⟩
  rw [h2]
  rcases hv with h | h <;> rw [h] <;> rfl

end

/-! ## Qrels -/

/-- **C124** (qrels): qrels with at least one judgment, whatever the characters of the ids, saved as JSON text and loaded
from this text are the same qrels, ranked by relevance. -/
theorem C124_qrels (N : NumText Int) (S S' : ArgSort Int) (s : Store Str Str Int) (hs : Reachable S s)
    (hne : ∃ p ∈ s.data, p.2 ≠ []) :
    ∃ s', qrelsOfJson N S' (qrelsText N s.data) = .ok s' ∧ Reachable S' s' ∧
      (∀ q x, (Spec.content s').read q x = (Spec.content s).read q x) ∧
      (∀ q, q ∈ s'.data.keys ↔ q ∈ s.data.keys) ∧
      (∀ p ∈ s'.data, Spec.Ranked p.2.values) ∧ s'.data.keys.Pairwise (· < ·) := by
  have hw := hs.wf
  have hid : mapVals id s.data = s.data := by simp [mapVals]
  have hof := (ofDict_eq S' _ hw).trans (if_neg (not_all hne))
  refine ⟨⟨sortAll S' s.data, true⟩, ?_, .ofDict _ _ hw.1 hw.2 hof, ?_, ?_, sortAll_ranked S' hw⟩
  · unfold qrelsOfJson qrelsText
    rw [nestedOf_nested relOfJson .num id (fun _ => rfl) (fun x => by simp [Spec.noNan]) _ hw, hid]
    exact hof
  · intro q x
    rw [content_eq, content_eq]
    show (Store.cont (sortAll S' _)).read q x = _
    rw [cont_sortAll S' hw]
  · intro q
    show q ∈ keys (sortAll S' _) ↔ _
    rw [mem_keys_sortAll S' hw.1]

end Ranx
