import Verif.Model.Fusion
import Verif.Spec.Fusion
import Verif.Lemmas.Norm
import Verif.Lemmas.Evaluate

/-! # Lemmas: the fusion loops -/

set_option linter.unusedSectionVars false

namespace Ranx.Fuse
open Dict
open _root_.Ranx.Norm (Results toRun normParallel SetIter getCandidates)
variable {κ δ α : Type*}

/-- the number of queries of the first run = iterations of the parallel loop -/
def queryCount (runs : List (Dict κ (Results δ α))) : Nat :=
  match runs with
  | [] => 0
  | r0 :: _ => r0.length

/-- the results of all runs for one query -/
def resultsFor [DecidableEq κ] (runs : List (Dict κ (Results δ α))) (q : κ) : List (Results δ α) :=
  runs.map (fun run => (run.get? q).getD [])

section
variable [DecidableEq δ] [DecidableEq α] [Zero α]

theorem unionLoop_spec (score : δ → Except Err α) (f : δ → α) (ds : List δ) (acc : Dict δ α)
    (hf : ∀ d ∈ ds, score d = .ok (f d)) (hacc : ∀ d v, acc.get? d = some v → v = f d)
    (hn : NodupKeys acc) :
    ∃ out, unionLoop score ds acc = .ok out ∧ NodupKeys out ∧
      (∀ d v, out.get? d = some v → v = f d) ∧ (∀ d, d ∈ out.keys ↔ d ∈ acc.keys ∨ d ∈ ds) := by
  induction ds generalizing acc with
  | nil => exact ⟨acc, rfl, hn, hacc, by simp⟩
  | cons x t ih =>
    unfold unionLoop
    by_cases h0 : (acc.get? x).getD 0 = 0
    · rw [if_pos h0, hf x List.mem_cons_self]
      simp only
      obtain ⟨out, h1, h2, h3, h4⟩ := ih (acc.set x (f x))
        (fun d hd => hf d (List.mem_cons_of_mem _ hd))
        (by
          intro d v hv
          rw [get?_set] at hv
          by_cases hx : x = d
          · rw [if_pos hx] at hv; cases hv; rw [hx]
          · rw [if_neg hx] at hv; exact hacc d v hv)
        (hn.set x (f x))
      refine ⟨out, h1, h2, h3, ?_⟩
      intro d
      rw [h4 d, mem_keys_set, List.mem_cons]
      tauto
    · rw [if_neg h0]
      obtain ⟨out, h1, h2, h3, h4⟩ := ih acc (fun d hd => hf d (List.mem_cons_of_mem _ hd)) hacc hn
      refine ⟨out, h1, h2, h3, ?_⟩
      intro d
      rw [h4 d, List.mem_cons]
      have hx : x ∈ acc.keys := by
        rw [← get?_isSome]
        cases hg : acc.get? x with
        | none => rw [hg] at h0; exact absurd rfl h0
        | some v => rfl
      constructor
      · rintro (h | h)
        · exact Or.inl h
        · exact Or.inr (Or.inr h)
      · rintro (h | h | h)
        · exact Or.inl h
        · exact Or.inl (h ▸ hx)
        · exact Or.inr h

theorem combine_spec (score : Score δ α) (f : δ → α) (results : List (Results δ α))
    (hf : ∀ d, d ∈ results.flatMap Dict.keys → score results d = .ok (f d)) :
    ∃ out, combine score results = .ok out ∧ NodupKeys out ∧
      (∀ d, d ∈ out.keys ↔ d ∈ results.flatMap Dict.keys) ∧
      (∀ d, d ∈ results.flatMap Dict.keys → out.get? d = some (f d)) := by
  obtain ⟨out, h1, h2, h3, h4⟩ := unionLoop_spec (score results) f (results.flatMap Dict.keys) [] hf
    (by intro d v h; simp at h) nodupKeys_nil
  have h4' : ∀ d, d ∈ out.keys ↔ d ∈ results.flatMap Dict.keys := by
    intro d; rw [h4 d]; simp
  refine ⟨out, h1, h2, h4', ?_⟩
  intro d hd
  have hs := get?_isSome.2 ((h4' d).2 hd)
  obtain ⟨v, hv⟩ := Option.isSome_iff_exists.1 hs
  rw [hv, h3 d v hv]

theorem mem_flatMap_resultsFor [DecidableEq κ] (runs : List (Dict κ (Results δ α))) (q : κ) (d : δ) :
    d ∈ (resultsFor runs q).flatMap Dict.keys ↔ Spec.InSome runs q d := by
  unfold resultsFor Spec.InSome
  rw [List.mem_flatMap]
  constructor
  · rintro ⟨r, hr, hd⟩
    obtain ⟨run, hrun, rfl⟩ := List.mem_map.1 hr
    cases hg : run.get? q with
    | none => rw [hg] at hd; simp at hd
    | some r => rw [hg] at hd; exact ⟨run, hrun, r, hg, hd⟩
  · rintro ⟨run, hrun, r, hg, hd⟩
    exact ⟨r, List.mem_map.2 ⟨run, hrun, by rw [hg]; rfl⟩, hd⟩

/-- the parallel function: all queries of the first run, each combined -/
theorem fuseParallel_eq [DecidableEq κ] (score : Score δ α) (sched : List Nat)
    (runs : List (Dict κ (Results δ α))) (hf : Spec.Fusable runs)
    (hs : Schedule (queryCount runs) sched) (comb : κ → Results δ α)
    (hc : ∀ q, (∃ run ∈ runs, q ∈ run.keys) → combine score (resultsFor runs q) = .ok (comb q)) :
    ∃ qs : List κ, qs.Nodup ∧ (∀ q, q ∈ qs ↔ ∃ run ∈ runs, q ∈ run.keys) ∧
      fuseParallel score sched runs = .ok (qs.map (fun q => (q, comb q))) := by
  cases runs with
  | nil => exact absurd rfl hf.nonempty
  | cons r0 rest =>
    have h0 : r0 ∈ r0 :: rest := List.mem_cons_self
    have hq0 : ∀ q, q ∈ r0.keys ↔ ∃ run ∈ r0 :: rest, q ∈ run.keys := by
      intro q
      constructor
      · intro h; exact ⟨r0, h0, h⟩
      · rintro ⟨run, hr, h⟩; exact hf.same run hr r0 h0 q h
    refine ⟨r0.keys, hf.nodupQ r0 h0, hq0, ?_⟩
    unfold fuseParallel
    simp only
    have hsl : Schedule (List.replicate r0.keys.length (Except.ok [] : Except Err (Results δ α))).length
        sched := by
      rw [List.length_replicate, length_keys]; exact hs
    rw [prange_eq _ _ _ hsl, List.length_replicate]
    have hlist : (List.range r0.keys.length).map (fuseSlot score (r0 :: rest) r0.keys) =
        (r0.keys.map comb).map .ok := by
      apply List.ext_getElem?
      intro i
      by_cases hi : i < r0.keys.length
      · rw [List.getElem?_map, List.getElem?_range hi, List.getElem?_map, List.getElem?_map,
          List.getElem?_eq_getElem hi]
        simp only [Option.map_some, fuseSlot, List.getElem?_eq_getElem hi]
        have hm : r0.keys[i] ∈ r0.keys := List.getElem_mem hi
        rw [if_pos]
        · have := hc r0.keys[i] ⟨r0, h0, hm⟩
          unfold resultsFor at this
          rw [this]
        · rw [List.all_eq_true]
          intro run hr
          rw [contains_iff]
          exact hf.same r0 h0 run hr _ hm
      · rw [List.getElem?_eq_none (by simpa using hi), List.getElem?_eq_none (by simpa using hi)]
    rw [hlist, (Eval.collect_ok_iff _ (r0.keys.map comb)).2 rfl]
    simp only
    congr 1
    unfold toRun
    have hz : r0.keys.zip (r0.keys.map comb) = r0.keys.map (fun q => (q, comb q)) := by
      rw [List.zip_eq_zipWith, List.zipWith_map_right]
      simp
    rw [hz, ofList_of_nodup]
    unfold NodupKeys
    rw [List.map_map]
    have : (Prod.fst ∘ fun q => (q, comb q)) = (id : κ → κ) := rfl
    rw [this, List.map_id]; exact hf.nodupQ r0 h0

theorem get?_map_pair [DecidableEq κ] {ν : Type*} (qs : List κ) (comb : κ → ν) (q : κ) :
    Dict.get? (qs.map (fun q => (q, comb q))) q = if q ∈ qs then some (comb q) else none := by
  induction qs with
  | nil => rfl
  | cons x t ih =>
    rw [List.map_cons, get?_cons, ih]
    by_cases hx : x = q
    · simp [hx]
    · have : ¬ q = x := fun h => hx h.symm
      simp [hx, this]

end

section
variable [LinearOrder κ] [DecidableEq δ] [LinearOrder α] [Field α] [IsStrictOrderedRing α] (S : ArgSort α)

/-- The main lemma: a method whose per-doc score always succeeds with value `f` returns the fusion of the
runs with these values. -/
theorem fuseRun_spec (score : Score δ α) (f : List (Results δ α) → δ → α) (sched : List Nat)
    (runs : List (Dict κ (Results δ α))) (hf : Spec.Fusable runs)
    (hs : Schedule (queryCount runs) sched)
    (hok : ∀ q d, Spec.InSome runs q d →
      score (resultsFor runs q) d = .ok (f (resultsFor runs q) d)) :
    ∃ out, fuseRun S score sched runs = .ok out ∧
      Spec.FusedBy runs (fun q d => f (resultsFor runs q) d) out := by
  classical
  have hcomb : ∀ q, ∃ out, combine score (resultsFor runs q) = .ok out ∧ NodupKeys out ∧
      (∀ d, d ∈ out.keys ↔ Spec.InSome runs q d) ∧
      (∀ d, Spec.InSome runs q d → out.get? d = some (f (resultsFor runs q) d)) := by
    intro q
    obtain ⟨out, h1, h2, h3, h4⟩ := combine_spec score (f (resultsFor runs q)) (resultsFor runs q)
      (fun d hd => hok q d ((mem_flatMap_resultsFor runs q d).1 hd))
    exact ⟨out, h1, h2, fun d => by rw [h3, mem_flatMap_resultsFor],
      fun d hd => h4 d ((mem_flatMap_resultsFor runs q d).2 hd)⟩
  choose comb hc1 hc2 hc3 hc4 using hcomb
  obtain ⟨qs, hnd, hqs, heq⟩ := fuseParallel_eq score sched runs hf hs comb (fun q _ => hc1 q)
  unfold fuseRun
  rw [heq]
  simp only
  set data : Dict κ (Results δ α) := qs.map (fun q => (q, comb q)) with hdata
  have hwf : Store.Wf data := by
    constructor
    · unfold NodupKeys
      rw [hdata, List.map_map]
      have : (Prod.fst ∘ fun q => (q, comb q)) = (id : κ → κ) := rfl
      rw [this, List.map_id]; exact hnd
    · intro p hp
      obtain ⟨q, _, rfl⟩ := List.mem_map.1 hp
      exact hc2 q
  have hkeys : data.keys = qs := by
    rw [hdata]; unfold Dict.keys; rw [List.map_map]
    exact List.map_id qs
  refine ⟨_, rfl, ?_⟩
  unfold Store.sort
  have hread : ∀ q d, (Spec.content (⟨sortAll S data, true⟩ : Store κ δ α)).read q d =
      if q ∈ qs then (comb q).get? d else none := by
    intro q d
    rw [Store.content_eq]
    change (Store.cont (sortAll S data)).read q d = _
    rw [Store.cont_sortAll S hwf]
    unfold Spec.Content.read Store.cont
    rw [hdata, get?_map_pair]
    by_cases hq : q ∈ qs
    · rw [if_pos hq, if_pos hq]; rfl
    · rw [if_neg hq, if_neg hq]; rfl
  have hin : ∀ q d, Spec.InSome runs q d → q ∈ qs := by
    rintro q d ⟨run, hr, r, hg, _⟩
    rw [hqs]
    exact ⟨run, hr, get?_isSome.1 (by rw [hg]; rfl)⟩
  obtain ⟨hrk, hord⟩ := Store.sortAll_ranked S hwf
  have hwf' := Store.Wf.sortAll S hwf
  refine ⟨?_, ?_, ?_, hwf'.1, hwf'.2, hrk, hord, rfl⟩
  · intro q
    change q ∈ (sortAll S data).keys ↔ _
    rw [mem_keys_sortAll S hwf.1, hkeys, hqs]
  · intro q d
    rw [hread]
    constructor
    · intro h
      by_cases hq : q ∈ qs
      · rw [if_pos hq] at h
        rw [← hc3 q d, ← get?_isSome]
        exact Option.ne_none_iff_isSome.1 h
      · rw [if_neg hq] at h; exact absurd rfl h
    · intro h
      rw [if_pos (hin q d h), hc4 q d h]; simp
  · intro q d h
    rw [hread, if_pos (hin q d h), hc4 q d h]

theorem FusedBy_congr {runs : List (Dict κ (Results δ α))} {val val' : κ → δ → α} {out : Store κ δ α}
    (h : Spec.FusedBy runs val out) (he : ∀ q d, Spec.InSome runs q d → val q d = val' q d) :
    Spec.FusedBy runs val' out :=
  ⟨h.queries, h.docs, fun q d hd => by rw [h.value q d hd, he q d hd], h.nodupQ, h.nodupD, h.ranked,
    h.ordered, h.flagged⟩

end
end Ranx.Fuse
