import Verif.Model.Fuse
import Verif.Lemmas.Condorcet

/-!
# Lemmas: every fusion method works query by query
-/

set_option linter.unusedSectionVars false

namespace Ranx.Fuse
open Dict
open _root_.Ranx.Norm (Results toRun SetIter getCandidates)
variable {κ δ α : Type*}

section
variable [DecidableEq δ] [DecidableEq α] [Zero α]

theorem unionLoop_keys (score : δ → Except Err α) (ds : List δ) (acc out : Dict δ α)
    (h : unionLoop score ds acc = .ok out) (hn : NodupKeys acc) :
    NodupKeys out ∧ ∀ d, d ∈ out.keys ↔ d ∈ acc.keys ∨ d ∈ ds := by
  induction ds generalizing acc with
  | nil =>
    cases h
    exact ⟨hn, by simp⟩
  | cons x t ih =>
    unfold unionLoop at h
    by_cases h0 : (acc.get? x).getD 0 = 0
    · rw [if_pos h0] at h
      cases hs : score x with
      | error e => rw [hs] at h; simp at h
      | ok v =>
        rw [hs] at h
        obtain ⟨h1, h2⟩ := ih _ h (hn.set x v)
        refine ⟨h1, fun d => ?_⟩
        rw [h2 d, mem_keys_set, List.mem_cons]
        tauto
    · rw [if_neg h0] at h
      obtain ⟨h1, h2⟩ := ih _ h hn
      refine ⟨h1, fun d => ?_⟩
      rw [h2 d, List.mem_cons]
      have hx : x ∈ acc.keys := by
        rw [← get?_isSome]
        cases hg : acc.get? x with
        | none => rw [hg] at h0; exact absurd rfl h0
        | some v => rfl
      constructor
      · rintro (h | h)
        · exact Or.inl h
        · exact Or.inr (Or.inr h)
      · rintro (h | h | h)
        · exact Or.inl h
        · exact Or.inl (h ▸ hx)
        · exact Or.inr h

theorem combine_keys (score : Score δ α) (rs : List (Results δ α)) (r : Results δ α)
    (h : combine score rs = .ok r) : NodupKeys r ∧ ∀ d, d ∈ r.keys ↔ d ∈ rs.flatMap Dict.keys := by
  obtain ⟨h1, h2⟩ := unionLoop_keys _ _ _ _ h nodupKeys_nil
  exact ⟨h1, fun d => by rw [h2 d]; simp⟩

theorem fuseParallel_ok [DecidableEq κ] (score : Score δ α) (sched : List Nat)
    (runs : List (Dict κ (Results δ α))) (hf : Spec.Fusable runs)
    (hs : Schedule (queryCount runs) sched) (out : Dict κ (Results δ α))
    (h : fuseParallel score sched runs = .ok out) (q : κ) (hq : ∃ run ∈ runs, q ∈ run.keys) :
    ∃ r, combine score (resultsFor runs q) = .ok r := by
  cases runs with
  | nil => exact absurd rfl hf.nonempty
  | cons r0 rest =>
    have h0 : r0 ∈ r0 :: rest := List.mem_cons_self
    have hq0 : q ∈ r0.keys := by
      obtain ⟨run, hr, h⟩ := hq
      exact hf.same run hr r0 h0 q h
    obtain ⟨i, hi⟩ := List.getElem?_of_mem hq0
    have hil := (List.getElem?_eq_some_iff.1 hi).1
    unfold fuseParallel at h
    simp only at h
    have hsl : Schedule (List.replicate r0.keys.length (Except.ok [] : Except Err (Results δ α))).length
        sched := by
      rw [List.length_replicate, length_keys]; exact hs
    rw [prange_eq _ _ _ hsl, List.length_replicate] at h
    cases hc : Eval.collect ((List.range r0.keys.length).map (fuseSlot score (r0 :: rest) r0.keys)) with
    | error e => rw [hc] at h; simp at h
    | ok rs =>
      have hl := (Eval.collect_ok_iff _ rs).1 hc
      have := congrArg (fun l => l[i]?) hl
      simp only [List.getElem?_map, List.getElem?_range hil, Option.map_some] at this
      cases hr : rs[i]? with
      | none => rw [hr] at this; simp at this
      | some r =>
        rw [hr] at this
        simp only [Option.map_some, Option.some.injEq] at this
        refine ⟨r, ?_⟩
        unfold fuseSlot at this
        rw [hi] at this
        simp only at this
        rw [if_pos] at this
        · exact this
        · rw [List.all_eq_true]
          intro run hrun
          rw [contains_iff]
          exact hf.same r0 h0 run hrun q hq0

end

/-- `out` has the queries of `runs`, and the result of each query is `F` of the runs' results for it. -/
structure Localized [DecidableEq κ] (runs : List (Dict κ (Results δ α))) (out : Store κ δ α)
    (F : List (Results δ α) → Except Err (Results δ α)) : Prop where
  queries : ∀ q, q ∈ out.data.keys ↔ ∃ run ∈ runs, q ∈ run.keys
  get : ∀ q, (∃ run ∈ runs, q ∈ run.keys) →
    ∃ r, F (resultsFor runs q) = .ok r ∧ out.data.get? q = some r

/-- the results of `F` have exactly the docs of its arguments, each once -/
def UnionOf [DecidableEq δ] (F : List (Results δ α) → Except Err (Results δ α)) : Prop :=
  ∀ rs r, (∀ x ∈ rs, NodupKeys x) → F rs = .ok r →
    NodupKeys r ∧ ∀ d, d ∈ r.keys ↔ d ∈ rs.flatMap Dict.keys

/-- combine, then sort -/
def sortedCombine [DecidableEq δ] [DecidableEq α] [Zero α] [LE α] [Neg α] (S : ArgSort α)
    (score : Score δ α) (rs : List (Results δ α)) : Except Err (Results δ α) :=
  match combine score rs with
  | .error e => .error e
  | .ok r => .ok (sortDictByValue S r)

section
variable [LinearOrder κ] [DecidableEq δ] [LinearOrder α] [Field α] [IsStrictOrderedRing α] (S : ArgSort α)

theorem unionOf_sortedCombine (score : Score δ α) : UnionOf (sortedCombine S score) := by
  intro rs r _ h
  unfold sortedCombine at h
  cases hc : combine score rs with
  | error e => rw [hc] at h; simp at h
  | ok r' =>
    rw [hc] at h
    simp only [Except.ok.injEq] at h
    subst h
    obtain ⟨h1, h2⟩ := combine_keys score rs r' hc
    refine ⟨nodupKeys_sortDictByValue S h1, fun d => ?_⟩
    rw [← h2 d]
    exact ((sortDictByValue_perm S h1).map Prod.fst).mem_iff

theorem fuseRun_local (score : Score δ α) (sched : List Nat) (runs : List (Dict κ (Results δ α)))
    (hf : Spec.Fusable runs) (hs : Schedule (queryCount runs) sched) (out : Store κ δ α)
    (h : fuseRun S score sched runs = .ok out) : Localized runs out (sortedCombine S score) := by
  classical
  unfold fuseRun at h
  cases hp : fuseParallel score sched runs with
  | error e => rw [hp] at h; simp at h
  | ok d =>
    rw [hp] at h
    simp only [Except.ok.injEq] at h
    have hall : ∀ q, ∃ r : Results δ α, (∃ run ∈ runs, q ∈ run.keys) →
        combine score (resultsFor runs q) = .ok r := by
      intro q
      by_cases hq : ∃ run ∈ runs, q ∈ run.keys
      · obtain ⟨r, hr⟩ := fuseParallel_ok score sched runs hf hs d hp q hq
        exact ⟨r, fun _ => hr⟩
      · exact ⟨[], fun h => absurd h hq⟩
    choose comb hcomb using hall
    obtain ⟨qs, hnd, hqs, heq⟩ := fuseParallel_eq score sched runs hf hs comb (fun q hq => hcomb q hq)
    rw [hp] at heq
    have hd := Except.ok.inj heq
    have hkeys : d.keys = qs := by
      rw [hd]; unfold Dict.keys; rw [List.map_map]
      exact List.map_id qs
    have hdn : NodupKeys d := by
      change d.keys.Nodup
      rw [hkeys]; exact hnd
    subst h
    constructor
    · intro q
      change q ∈ (sortAll S d).keys ↔ _
      rw [mem_keys_sortAll S hdn, hkeys, hqs]
    · intro q hq
      refine ⟨sortDictByValue S (comb q), ?_, ?_⟩
      · unfold sortedCombine
        rw [hcomb q hq]
      · change (sortAll S d).get? q = _
        rw [get?_sortAll S hdn, hd, get?_map_pair, if_pos ((hqs q).2 hq)]
        rfl

end

section
variable [LinearOrder κ] [DecidableEq δ] [LinearOrder α] [Field α] [IsStrictOrderedRing α] (S : ArgSort α)
  (sched : List Nat) (scheds : Nat → List Nat)

theorem resultsFor_map (g : Results δ α → Results δ α) (runs : List (Dict κ (Results δ α))) (q : κ)
    (hq : ∀ run ∈ runs, q ∈ run.keys) :
    resultsFor (runs.map (mapRun (fun _ r => g r))) q = (resultsFor runs q).map g := by
  unfold resultsFor
  rw [List.map_map, List.map_map]
  apply List.map_congr_left
  intro run hr
  obtain ⟨r, hg⟩ := Option.isSome_iff_exists.1 (get?_isSome.2 (hq run hr))
  simp only [Function.comp_apply, get?_mapRun, hg, Option.map_some, Option.getD_some]

theorem resultsFor_zip {π : Type*} (g : π → Results δ α → Results δ α) (runs : List (Dict κ (Results δ α)))
    (params : List π) (q : κ) (hq : ∀ run ∈ runs, q ∈ run.keys) :
    resultsFor ((runs.zip params).map (fun rp => mapRun (fun _ r => g rp.2 r) rp.1)) q =
      ((resultsFor runs q).zip params).map (fun rp => g rp.2 rp.1) := by
  unfold resultsFor
  rw [List.map_map, List.zip_map_left, List.map_map]
  apply List.map_congr_left
  intro rp hrp
  obtain ⟨r, hg⟩ := Option.isSome_iff_exists.1 (get?_isSome.2 (hq rp.1 (List.of_mem_zip hrp).1))
  simp only [Function.comp_apply, get?_mapRun, hg, Option.map_some, Option.getD_some, Prod.map_fst,
    Prod.map_snd, id_eq]

theorem Fusable_all {runs : List (Dict κ (Results δ α))} (hf : Spec.Fusable runs) {q : κ}
    (hq : ∃ run ∈ runs, q ∈ run.keys) : ∀ run ∈ runs, q ∈ run.keys := by
  obtain ⟨run, hr, h⟩ := hq
  exact fun run' hr' => hf.same run hr run' hr' q h

/-- rescored by rank, then combined -/
theorem rescoreAll_local (f : Results δ α → Results δ α) (score : Score δ α)
    (hfk : ∀ r, NodupKeys r → (f r).keys = r.keys) (hfn : ∀ r, NodupKeys (f r))
    (runs : List (Dict κ (Results δ α))) (hf : Spec.Fusable runs) (hs : Schedule (queryCount runs) sched)
    (hss : ∀ (j : Nat) run, runs[j]? = some run → Schedule run.length (scheds j)) (out : Store κ δ α)
    (h : fuseRun S score sched (rescoreAll f scheds runs) = .ok out) :
    Localized runs out (fun rs => sortedCombine S score (rs.map f)) := by
  rw [rescoreAll_eq f scheds runs hf.nodupQ hss] at h
  have hres : Rescored runs (runs.map (mapRun (fun _ r => f r))) :=
    rescored_map _ runs (fun _ _ p _ => hfn p.2)
  have hl := fuseRun_local S score sched _ (hres.fusable hf) (by rw [hres.queryCount]; exact hs) out h
  refine ⟨fun q => (hl.queries q).trans (hres.queries q), fun q hq => ?_⟩
  obtain ⟨r, h1, h2⟩ := hl.get q ((hres.queries q).2 hq)
  rw [resultsFor_map f runs q (Fusable_all hf hq)] at h1
  exact ⟨r, h1, h2⟩

theorem flatMap_keys_map (f : Results δ α → Results δ α) (rs : List (Results δ α))
    (h : ∀ r ∈ rs, (f r).keys = r.keys) : (rs.map f).flatMap Dict.keys = rs.flatMap Dict.keys := by
  rw [List.flatMap_map]
  induction rs with
  | nil => rfl
  | cons a t ih =>
    rw [List.flatMap_cons, List.flatMap_cons, h a List.mem_cons_self,
      ih (fun r hr => h r (List.mem_cons_of_mem _ hr))]

theorem unionOf_rescoreAll (f : Results δ α → Results δ α) (score : Score δ α)
    (hfk : ∀ r, NodupKeys r → (f r).keys = r.keys) (hfn : ∀ r, NodupKeys (f r)) :
    UnionOf (fun rs => sortedCombine S score (rs.map f)) := by
  intro rs r hn h
  obtain ⟨h1, h2⟩ := unionOf_sortedCombine S score (rs.map f) r (fun x hx => by
    obtain ⟨y, _, rfl⟩ := List.mem_map.1 hx; exact hfn y) h
  refine ⟨h1, fun d => ?_⟩
  rw [h2 d, flatMap_keys_map f rs (fun r hr => hfk r (hn r hr))]

/-- per run parameter, rescored, then combined -/
def zipCombine {π : Type*} (f : π → Results δ α → Results δ α) (params : List π) (score : Score δ α)
    (rs : List (Results δ α)) : Except Err (Results δ α) :=
  if rs.length ≤ params.length then sortedCombine S score ((rs.zip params).map (fun rp => f rp.2 rp.1))
  else .error .indexError

theorem rescoreWith_ok {π : Type*} (f : π → Results δ α → Results δ α) (params : List π)
    (runs out : List (Dict κ (Results δ α))) (h : rescoreWith f params scheds runs = .ok out) :
    runs.length ≤ params.length := by
  unfold rescoreWith at h
  have hl := (Eval.collect_ok_iff _ out).1 h
  by_contra hc
  have hlt : params.length < runs.length := not_le.1 hc
  have := congrArg (fun l => l[params.length]?) hl
  simp only [List.getElem?_map, List.getElem?_zipIdx, List.getElem?_eq_getElem hlt, Option.map_some,
    Nat.zero_add, List.getElem?_eq_none (le_refl params.length)] at this
  cases ho : out[params.length]? with
  | none => rw [ho] at this; simp at this
  | some x => rw [ho] at this; simp at this

theorem rescoreThen_local {π : Type*} (f : π → Results δ α → Results δ α) (params : List π)
    (score : Score δ α) (hfn : ∀ p r, NodupKeys (f p r))
    (runs : List (Dict κ (Results δ α))) (hf : Spec.Fusable runs) (hs : Schedule (queryCount runs) sched)
    (hss : ∀ (j : Nat) run, runs[j]? = some run → Schedule run.length (scheds j)) (out : Store κ δ α)
    (h : rescoreThen S sched scheds f params score runs = .ok out) :
    Localized runs out (zipCombine S f params score) := by
  unfold rescoreThen at h
  cases hw : rescoreWith f params scheds runs with
  | error e => rw [hw] at h; simp at h
  | ok runs' =>
    have hl := rescoreWith_ok scheds f params runs runs' hw
    rw [rescoreWith_eq f params scheds runs hf.nodupQ hss hl] at h
    simp only at h
    have hres : Rescored runs ((runs.zip params).map (fun rp => mapRun (fun _ r => f rp.2 r) rp.1)) :=
      rescored_zip (fun p _ r => f p r) params runs hl (fun p _ r => hfn p r)
    have hloc := fuseRun_local S score sched _ (hres.fusable hf) (by rw [hres.queryCount]; exact hs) out h
    refine ⟨fun q => (hloc.queries q).trans (hres.queries q), fun q hq => ?_⟩
    obtain ⟨r, h1, h2⟩ := hloc.get q ((hres.queries q).2 hq)
    rw [resultsFor_zip f runs params q (Fusable_all hf hq)] at h1
    refine ⟨r, ?_, h2⟩
    unfold zipCombine
    rw [if_pos (by unfold resultsFor; simpa using hl)]
    exact h1

theorem unionOf_zipCombine {π : Type*} (f : π → Results δ α → Results δ α) (params : List π)
    (score : Score δ α) (hfk : ∀ p r, NodupKeys r → (f p r).keys = r.keys)
    (hfn : ∀ p r, NodupKeys (f p r)) : UnionOf (zipCombine S f params score) := by
  intro rs r hn h
  unfold zipCombine at h
  by_cases hl : rs.length ≤ params.length
  · rw [if_pos hl] at h
    obtain ⟨h1, h2⟩ := unionOf_sortedCombine S score _ r (fun x hx => by
      obtain ⟨y, _, rfl⟩ := List.mem_map.1 hx; exact hfn _ _) h
    refine ⟨h1, fun d => ?_⟩
    rw [h2 d, List.flatMap_map]
    clear h h1 h2
    induction rs generalizing params with
    | nil => simp
    | cons a t ih =>
      cases params with
      | nil => simp at hl
      | cons p ps =>
        rw [List.zip_cons_cons, List.flatMap_cons, List.flatMap_cons, List.mem_append, List.mem_append,
          hfk p a (hn a List.mem_cons_self),
          ih ps (fun x hx => hn x (List.mem_cons_of_mem _ hx)) (by simpa using hl)]
  · rw [if_neg hl] at h; simp at h

end
end Ranx.Fuse
