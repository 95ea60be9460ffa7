import Verif.Lemmas.Fusion2

/-!
# Rescoring of runs, for any type of values

The lemmas of `Lemmas/Fusion2.lean` on `rescoreWith`, without the assumption that the values form a field.
-/

namespace Ranx.Fuse.Gen
open Dict Norm Fuse
variable {κ δ α : Type*}
variable [DecidableEq κ] [DecidableEq δ]

theorem keys_mapRun (g : κ → Results δ α → Results δ α) (run : Dict κ (Results δ α)) :
    (mapRun g run).keys = run.keys := by
  unfold mapRun Dict.keys
  rw [List.map_map]; rfl

theorem get?_mapRun (g : κ → Results δ α → Results δ α) (run : Dict κ (Results δ α)) (q : κ) :
    (mapRun g run).get? q = (run.get? q).map (g q) := by
  unfold mapRun
  induction run with
  | nil => rfl
  | cons p t ih =>
    rw [List.map_cons, get?_cons, get?_cons, ih]
    by_cases hp : p.1 = q
    · rw [if_pos hp, if_pos hp, hp]; rfl
    · rw [if_neg hp, if_neg hp]

theorem score?_mapRun (g : κ → Results δ α → Results δ α) (run : Dict κ (Results δ α)) (q : κ) (d : δ) :
    Spec.score? (mapRun g run) q d = (run.get? q).bind (fun r => (g q r).get? d) := by
  unfold Spec.score?
  rw [get?_mapRun]
  cases run.get? q <;> rfl

theorem Rescored.fusable {runs runs' : List (Dict κ (Results δ α))} (h : Rescored runs runs')
    (hf : Spec.Fusable runs) : Spec.Fusable runs' := by
  refine ⟨?_, ?_, ?_, ?_⟩
  · intro hn
    subst hn
    cases h
    exact hf.nonempty rfl
  · intro run' hr'
    obtain ⟨run, hr, hk, _⟩ := forall₂_mem_right h hr'
    change run'.keys.Nodup
    rw [hk]; exact hf.nodupQ run hr
  · intro run' hr'
    obtain ⟨run, hr, _, hd⟩ := forall₂_mem_right h hr'
    exact hd
  · intro run1 h1 run2 h2 q hq
    obtain ⟨r1, hr1, hk1, _⟩ := forall₂_mem_right h h1
    obtain ⟨r2, hr2, hk2, _⟩ := forall₂_mem_right h h2
    rw [hk1] at hq
    rw [hk2]
    exact hf.same r1 hr1 r2 hr2 q hq

theorem Rescored.queryCount {runs runs' : List (Dict κ (Results δ α))} (h : Rescored runs runs') :
    queryCount runs' = queryCount runs := by
  cases h with
  | nil => rfl
  | cons hr _ =>
    have := congrArg List.length hr.1
    simpa [Fuse.queryCount] using this

theorem Rescored.queries {runs runs' : List (Dict κ (Results δ α))} (h : Rescored runs runs') (q : κ) :
    (∃ run ∈ runs', q ∈ run.keys) ↔ ∃ run ∈ runs, q ∈ run.keys := by
  constructor
  · rintro ⟨run', hr', hq⟩
    obtain ⟨run, hr, hk, _⟩ := forall₂_mem_right h hr'
    exact ⟨run, hr, hk ▸ hq⟩
  · rintro ⟨run, hr, hq⟩
    obtain ⟨run', hr', hk, _⟩ := forall₂_mem_left h hr
    exact ⟨run', hr', hk ▸ hq⟩

theorem rankLoop_eq (f : Nat → α → α) (r : Results δ α) (h : NodupKeys r) :
    rankLoop f r = r.zipIdx.map (fun pi => (pi.1.1, f pi.2 pi.1.2)) := by
  unfold rankLoop
  apply ofList_of_nodup
  unfold NodupKeys
  rw [List.map_map]
  have : (Prod.fst ∘ fun pi : (δ × α) × Nat => (pi.1.1, f pi.2 pi.1.2)) = Prod.fst ∘ Prod.fst := rfl
  rw [this, ← List.map_map, List.zipIdx_map_fst]; exact h

theorem keys_rankLoop (f : Nat → α → α) (r : Results δ α) (h : NodupKeys r) :
    (rankLoop f r).keys = r.keys := by
  rw [rankLoop_eq f r h]
  unfold Dict.keys
  rw [List.map_map]
  have : (Prod.fst ∘ fun pi : (δ × α) × Nat => (pi.1.1, f pi.2 pi.1.2)) = Prod.fst ∘ Prod.fst := rfl
  rw [this, ← List.map_map, List.zipIdx_map_fst]

theorem nodupKeys_rankLoop (f : Nat → α → α) (r : Results δ α) : NodupKeys (rankLoop f r) :=
  nodupKeys_ofList _

theorem get?_zipIdx_map [Zero α] (f : Nat → α → α) (r : Results δ α) (n : Nat) (d : δ) :
    Dict.get? ((r.zipIdx n).map (fun pi => (pi.1.1, f pi.2 pi.1.2))) d =
      (r.keys.idxOf? d).map (fun i => f (n + i) ((r.get? d).getD 0)) := by
  induction r generalizing n with
  | nil => rfl
  | cons p t ih =>
    rw [List.zipIdx_cons, List.map_cons, get?_cons, ih, keys_cons, List.idxOf?_cons, get?_cons]
    by_cases hp : p.1 = d
    · simp [hp]
    · simp only [hp, if_false, beq_iff_eq, Option.map_map]
      cases List.idxOf? d (Dict.keys t) with
      | none => rfl
      | some i =>
        simp only [Option.map_some, Function.comp_apply]
        rw [Nat.add_assoc, Nat.add_comm 1 i]

theorem get?_rankLoop [Zero α] (f : Nat → α → α) (r : Results δ α) (h : NodupKeys r) (d : δ) :
    (rankLoop f r).get? d = (r.keys.idxOf? d).map (fun i => f i ((r.get? d).getD 0)) := by
  rw [rankLoop_eq f r h, get?_zipIdx_map]
  simp

theorem idxOf?_isSome {l : List δ} {d : δ} : (l.idxOf? d).isSome ↔ d ∈ l := by
  rw [Option.isSome_iff_ne_none, ne_eq, List.idxOf?_eq_none_iff]
  simp

theorem rescoreWith_eq {π : Type*} (f : π → Results δ α → Results δ α) (params : List π)
    (scheds : Nat → List Nat) (runs : List (Dict κ (Results δ α)))
    (hn : ∀ run ∈ runs, NodupKeys run)
    (hs : ∀ (j : Nat) run, runs[j]? = some run → Schedule run.length (scheds j))
    (hl : runs.length ≤ params.length) :
    rescoreWith f params scheds runs =
      .ok ((runs.zip params).map (fun rp => mapRun (fun _ r => f rp.2 r) rp.1)) := by
  unfold rescoreWith
  rw [Eval.collect_ok_iff]
  apply List.ext_getElem?
  intro j
  cases hj : runs[j]? with
  | none =>
    have hge : runs.length ≤ j := List.getElem?_eq_none_iff.1 hj
    rw [List.getElem?_eq_none (by simpa using hge), List.getElem?_eq_none (by simp; omega)]
  | some run =>
    have hlt : j < runs.length := (List.getElem?_eq_some_iff.1 hj).1
    have hp : params[j]? = some params[j] := List.getElem?_eq_getElem (by omega)
    have hz : (runs.zip params)[j]? = some (run, params[j]) := List.getElem?_zip_eq_some.2 ⟨hj, hp⟩
    rw [List.getElem?_map, List.getElem?_map, List.getElem?_map, List.getElem?_zipIdx, hj, hz]
    simp only [Option.map_some, Nat.zero_add, hp]
    rw [Norm.normParallel_eq _ (scheds j) run (hn run (List.mem_of_getElem? hj)) (hs j run hj)]
    rfl

theorem rescored_zip {π : Type*} (g : π → κ → Results δ α → Results δ α) (params : List π)
    (runs : List (Dict κ (Results δ α))) (hl : runs.length ≤ params.length)
    (hg : ∀ p q r, NodupKeys (g p q r)) :
    Rescored runs ((runs.zip params).map (fun rp => mapRun (g rp.2) rp.1)) := by
  unfold Rescored
  induction runs generalizing params with
  | nil => exact .nil
  | cons run t ih =>
    cases params with
    | nil => simp at hl
    | cons p ps =>
      refine .cons ⟨keys_mapRun _ run, ?_⟩ (ih ps (by simpa using hl))
      intro x hx
      obtain ⟨e, he, rfl⟩ := List.mem_map.1 hx
      exact hg _ _ _

theorem inSome_rescored {runs runs' : List (Dict κ (Results δ α))}
    (h : List.Forall₂ (fun run run' => ∀ q d, (Spec.score? run' q d).isSome = (Spec.score? run q d).isSome)
      runs runs') (q : κ) (d : δ) : Spec.InSome runs' q d ↔ Spec.InSome runs q d := by
  rw [inSome_iff, inSome_iff]
  constructor
  · rintro ⟨run', hr', hs⟩
    obtain ⟨run, hr, he⟩ := forall₂_mem_right h hr'
    exact ⟨run, hr, by rw [← he]; exact hs⟩
  · rintro ⟨run, hr, hs⟩
    obtain ⟨run', hr', he⟩ := forall₂_mem_left h hr
    exact ⟨run', hr', by rw [he]; exact hs⟩

theorem score?_isSome_mapRun (g : Results δ α → Results δ α) (run : Dict κ (Results δ α))
    (hd : ∀ p ∈ run, NodupKeys p.2) (hk : ∀ r, NodupKeys r → ∀ d, d ∈ (g r).keys ↔ d ∈ r.keys)
    (q : κ) (d : δ) :
    (Spec.score? (mapRun (fun _ r => g r) run) q d).isSome = (Spec.score? run q d).isSome := by
  rw [score?_mapRun]
  unfold Spec.score?
  cases hq : run.get? q with
  | none => rfl
  | some r =>
    simp only [Option.bind_some]
    have := hk r (hd (q, r) (mem_of_get? hq)) d
    rw [← get?_isSome, ← get?_isSome] at this
    cases h1 : ((g r).get? d).isSome <;> cases h2 : (r.get? d).isSome <;> simp_all

end Ranx.Fuse.Gen
