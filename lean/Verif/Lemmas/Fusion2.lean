import Verif.Lemmas.Fusion
import Mathlib.Data.List.Forall2

/-! # Lemmas: the per-method scores and the rescoring of runs -/

set_option linter.unusedSectionVars false

namespace Ranx.Fuse
open Dict
open _root_.Ranx.Norm (Results toRun normParallel SetIter getCandidates)
variable {κ δ α : Type*}

section
variable [DecidableEq κ] [DecidableEq δ]

theorem inSome_iff (runs : List (Dict κ (Results δ α))) (q : κ) (d : δ) :
    Spec.InSome runs q d ↔ ∃ run ∈ runs, (Spec.score? run q d).isSome := by
  unfold Spec.InSome Spec.score?
  constructor
  · rintro ⟨run, hr, r, hg, hd⟩
    exact ⟨run, hr, by rw [hg]; exact get?_isSome.2 hd⟩
  · rintro ⟨run, hr, h⟩
    cases hg : run.get? q with
    | none => rw [hg] at h; simp at h
    | some r => rw [hg] at h; exact ⟨run, hr, r, hg, get?_isSome.1 h⟩

theorem getD_get? (run : Dict κ (Results δ α)) (q : κ) (d : δ) :
    ((run.get? q).getD []).get? d = Spec.score? run q d := by
  unfold Spec.score?
  cases run.get? q with
  | none => rfl
  | some r => rfl

theorem present_eq (runs : List (Dict κ (Results δ α))) (q : κ) (d : δ) :
    present (resultsFor runs q) d = Spec.scores runs q d := by
  unfold present resultsFor Spec.scores
  rw [List.filterMap_map]
  congr 1
  funext run
  exact getD_get? run q d

theorem scores_ne_nil {runs : List (Dict κ (Results δ α))} {q : κ} {d : δ} (h : Spec.InSome runs q d) :
    Spec.scores runs q d ≠ [] := by
  obtain ⟨run, hr, hs⟩ := (inSome_iff runs q d).1 h
  obtain ⟨s, hs⟩ := Option.isSome_iff_exists.1 hs
  exact List.ne_nil_of_mem (List.mem_filterMap.2 ⟨run, hr, hs⟩)

theorem sum_getD_eq {γ : Type*} [AddCommMonoid α] (l : List γ) (f : γ → Option α) :
    (l.map (fun x => (f x).getD 0)).sum = (l.filterMap f).sum := by
  induction l with
  | nil => rfl
  | cons x t ih =>
    rw [List.map_cons, List.sum_cons, ih]
    cases h : f x with
    | none => rw [List.filterMap_cons_none h]; simp
    | some v => rw [List.filterMap_cons_some h, List.sum_cons]; simp

end

section
variable [DecidableEq κ] [DecidableEq δ] [LinearOrder α] [Field α] [IsStrictOrderedRing α]

theorem sumScore_eq (runs : List (Dict κ (Results δ α))) (q : κ) (d : δ) :
    sumScore (resultsFor runs q) d = .ok (Spec.scores runs q d).sum := by
  unfold sumScore
  rw [sum_getD_eq, ← present_eq]; rfl

theorem weightAt_of_lt {ws : List α} {i : Nat} (h : i < ws.length) : weightAt ws i = .ok ws[i] := by
  unfold weightAt
  rw [List.getElem?_eq_getElem h]

theorem collect_weights_aux (ws : List α) (g : Results δ α → α → α) (rs : List (Results δ α)) (n : Nat)
    (h : n + rs.length ≤ ws.length) :
    Eval.collect ((rs.zipIdx n).map (fun ri => (weightAt ws ri.2).map (fun w => g ri.1 w))) =
      .ok ((rs.zip (ws.drop n)).map (fun rw => g rw.1 rw.2)) := by
  induction rs generalizing n with
  | nil => rfl
  | cons r t ih =>
    simp only [List.length_cons] at h
    have hn : n < ws.length := by omega
    rw [List.zipIdx_cons, List.map_cons, weightAt_of_lt hn]
    have hd : ws.drop n = ws[n] :: ws.drop (n + 1) := List.drop_eq_getElem_cons hn
    rw [hd, List.zip_cons_cons, List.map_cons]
    change Eval.collect (.ok (g r ws[n]) :: _) = _
    unfold Eval.collect
    rw [ih (n + 1) (by omega)]

theorem zip_resultsFor (runs : List (Dict κ (Results δ α))) (ws : List α) (q : κ) :
    (resultsFor runs q).zip ws = (runs.zip ws).map (fun rw => ((rw.1.get? q).getD [], rw.2)) := by
  unfold resultsFor
  rw [List.zip_map_left]; rfl

theorem wsumScore_eq (ws : List α) (runs : List (Dict κ (Results δ α))) (hw : runs.length ≤ ws.length)
    (q : κ) (d : δ) :
    wsumScore ws (resultsFor runs q) d =
      .ok ((Spec.weighted runs ws q d).map (fun p => p.2 * p.1)).sum := by
  unfold wsumScore
  have hl : (resultsFor runs q).length = runs.length := by unfold resultsFor; simp
  rw [collect_weights_aux ws (fun r w => w * (r.get? d).getD 0) (resultsFor runs q) 0 (by rw [hl]; omega)]
  simp only [List.drop_zero]
  congr 1
  rw [zip_resultsFor, List.map_map]
  unfold Spec.weighted
  generalize runs.zip ws = l
  induction l with
  | nil => rfl
  | cons x t ih =>
    rw [List.map_cons, List.sum_cons, ih]
    simp only [Function.comp_apply, getD_get?]
    cases h : Spec.score? x.1 q d with
    | none =>
      rw [List.filterMap_cons_none (by rw [h]; rfl)]; simp
    | some v =>
      rw [List.filterMap_cons_some (b := (v, x.2)) (by rw [h]; rfl), List.map_cons, List.sum_cons]
      simp

theorem presentWeighted_aux (ws : List α) (d : δ) (rs : List (Results δ α)) (n : Nat)
    (h : n + rs.length ≤ ws.length) :
    Eval.collect ((rs.zipIdx n).filterMap (fun ri =>
      (ri.1.get? d).map (fun s => (weightAt ws ri.2).map (fun w => (s, w))))) =
      .ok ((rs.zip (ws.drop n)).filterMap (fun rw => (rw.1.get? d).map (fun s => (s, rw.2)))) := by
  induction rs generalizing n with
  | nil => rfl
  | cons r t ih =>
    simp only [List.length_cons] at h
    have hn : n < ws.length := by omega
    have hd : ws.drop n = ws[n] :: ws.drop (n + 1) := List.drop_eq_getElem_cons hn
    rw [List.zipIdx_cons, hd, List.zip_cons_cons]
    cases hg : r.get? d with
    | none =>
      rw [List.filterMap_cons_none (by simp only [hg]; rfl), ih (n + 1) (by omega),
        List.filterMap_cons_none (by simp only [hg]; rfl)]
    | some s =>
      rw [List.filterMap_cons_some (b := .ok (s, ws[n]))
        (by simp only [hg, weightAt_of_lt hn]; rfl),
        List.filterMap_cons_some (b := (s, ws[n])) (by simp only [hg]; rfl)]
      unfold Eval.collect
      rw [ih (n + 1) (by omega)]

theorem presentWeighted_eq (ws : List α) (runs : List (Dict κ (Results δ α)))
    (hw : runs.length ≤ ws.length) (q : κ) (d : δ) :
    presentWeighted ws (resultsFor runs q) d = .ok (Spec.weighted runs ws q d) := by
  unfold presentWeighted
  have hl : (resultsFor runs q).length = runs.length := by unfold resultsFor; simp
  rw [presentWeighted_aux ws d (resultsFor runs q) 0 (by rw [hl]; omega), List.drop_zero,
    zip_resultsFor, List.filterMap_map]
  unfold Spec.weighted
  congr 2
  funext rw'
  simp only [Function.comp_apply, getD_get?]

/-! ### rescoring -/

/-- the effect of a `_…_score_parallel` function on a run -/
def mapRun (g : κ → Results δ α → Results δ α) (run : Dict κ (Results δ α)) : Dict κ (Results δ α) :=
  run.map (fun e => (e.1, g e.1 e.2))

theorem keys_mapRun (g : κ → Results δ α → Results δ α) (run : Dict κ (Results δ α)) :
    (mapRun g run).keys = run.keys := by
  unfold mapRun Dict.keys
  rw [List.map_map]; rfl

theorem get?_mapRun (g : κ → Results δ α → Results δ α) (run : Dict κ (Results δ α)) (q : κ) :
    (mapRun g run).get? q = (run.get? q).map (g q) := by
  unfold mapRun
  induction run with
  | nil => rfl
  | cons p t ih =>
    rw [List.map_cons, get?_cons, get?_cons, ih]
    by_cases hp : p.1 = q
    · rw [if_pos hp, if_pos hp, hp]; rfl
    · rw [if_neg hp, if_neg hp]

theorem score?_mapRun (g : κ → Results δ α → Results δ α) (run : Dict κ (Results δ α)) (q : κ) (d : δ) :
    Spec.score? (mapRun g run) q d = (run.get? q).bind (fun r => (g q r).get? d) := by
  unfold Spec.score?
  rw [get?_mapRun]
  cases run.get? q <;> rfl

/-- one rescored run per run, with the same queries -/
def Rescored (runs runs' : List (Dict κ (Results δ α))) : Prop :=
  List.Forall₂ (fun run run' => run'.keys = run.keys ∧ ∀ p ∈ run', NodupKeys p.2) runs runs'

theorem forall₂_mem_right {A B : Type*} {R : A → B → Prop} {l : List A} {l' : List B}
    (h : List.Forall₂ R l l') {b : B} (hb : b ∈ l') : ∃ a ∈ l, R a b := by
  induction h with
  | nil => simp at hb
  | cons hr _ ih =>
    rcases List.mem_cons.1 hb with rfl | hb
    · exact ⟨_, List.mem_cons_self, hr⟩
    · obtain ⟨a, ha, hab⟩ := ih hb
      exact ⟨a, List.mem_cons_of_mem _ ha, hab⟩

theorem forall₂_mem_left {A B : Type*} {R : A → B → Prop} {l : List A} {l' : List B}
    (h : List.Forall₂ R l l') {a : A} (ha : a ∈ l) : ∃ b ∈ l', R a b := by
  induction h with
  | nil => simp at ha
  | cons hr _ ih =>
    rcases List.mem_cons.1 ha with rfl | ha
    · exact ⟨_, List.mem_cons_self, hr⟩
    · obtain ⟨b, hb, hab⟩ := ih ha
      exact ⟨b, List.mem_cons_of_mem _ hb, hab⟩

theorem Rescored.fusable {runs runs' : List (Dict κ (Results δ α))} (h : Rescored runs runs')
    (hf : Spec.Fusable runs) : Spec.Fusable runs' := by
  refine ⟨?_, ?_, ?_, ?_⟩
  · intro hn
    subst hn
    cases h
    exact hf.nonempty rfl
  · intro run' hr'
    obtain ⟨run, hr, hk, _⟩ := forall₂_mem_right h hr'
    change run'.keys.Nodup
    rw [hk]; exact hf.nodupQ run hr
  · intro run' hr'
    obtain ⟨run, hr, _, hd⟩ := forall₂_mem_right h hr'
    exact hd
  · intro run1 h1 run2 h2 q hq
    obtain ⟨r1, hr1, hk1, _⟩ := forall₂_mem_right h h1
    obtain ⟨r2, hr2, hk2, _⟩ := forall₂_mem_right h h2
    rw [hk1] at hq
    rw [hk2]
    exact hf.same r1 hr1 r2 hr2 q hq

theorem Rescored.queryCount {runs runs' : List (Dict κ (Results δ α))} (h : Rescored runs runs') :
    queryCount runs' = queryCount runs := by
  cases h with
  | nil => rfl
  | cons hr _ =>
    have := congrArg List.length hr.1
    simpa [Fuse.queryCount] using this

theorem Rescored.queries {runs runs' : List (Dict κ (Results δ α))} (h : Rescored runs runs') (q : κ) :
    (∃ run ∈ runs', q ∈ run.keys) ↔ ∃ run ∈ runs, q ∈ run.keys := by
  constructor
  · rintro ⟨run', hr', hq⟩
    obtain ⟨run, hr, hk, _⟩ := forall₂_mem_right h hr'
    exact ⟨run, hr, hk ▸ hq⟩
  · rintro ⟨run, hr, hq⟩
    obtain ⟨run', hr', hk, _⟩ := forall₂_mem_left h hr
    exact ⟨run', hr', hk ▸ hq⟩

/-! ### rank loops -/

theorem rankLoop_eq (f : Nat → α → α) (r : Results δ α) (h : NodupKeys r) :
    rankLoop f r = r.zipIdx.map (fun pi => (pi.1.1, f pi.2 pi.1.2)) := by
  unfold rankLoop
  apply ofList_of_nodup
  unfold NodupKeys
  rw [List.map_map]
  have : (Prod.fst ∘ fun pi : (δ × α) × Nat => (pi.1.1, f pi.2 pi.1.2)) = Prod.fst ∘ Prod.fst := rfl
  rw [this, ← List.map_map, List.zipIdx_map_fst]; exact h

theorem keys_rankLoop (f : Nat → α → α) (r : Results δ α) (h : NodupKeys r) :
    (rankLoop f r).keys = r.keys := by
  rw [rankLoop_eq f r h]
  unfold Dict.keys
  rw [List.map_map]
  have : (Prod.fst ∘ fun pi : (δ × α) × Nat => (pi.1.1, f pi.2 pi.1.2)) = Prod.fst ∘ Prod.fst := rfl
  rw [this, ← List.map_map, List.zipIdx_map_fst]

theorem nodupKeys_rankLoop (f : Nat → α → α) (r : Results δ α) : NodupKeys (rankLoop f r) :=
  nodupKeys_ofList _

theorem get?_zipIdx_map (f : Nat → α → α) (r : Results δ α) (n : Nat) (d : δ) :
    Dict.get? ((r.zipIdx n).map (fun pi => (pi.1.1, f pi.2 pi.1.2))) d =
      (r.keys.idxOf? d).map (fun i => f (n + i) ((r.get? d).getD 0)) := by
  induction r generalizing n with
  | nil => rfl
  | cons p t ih =>
    rw [List.zipIdx_cons, List.map_cons, get?_cons, ih, keys_cons, List.idxOf?_cons, get?_cons]
    by_cases hp : p.1 = d
    · simp [hp]
    · simp only [hp, if_false, beq_iff_eq, Option.map_map]
      cases List.idxOf? d (Dict.keys t) with
      | none => rfl
      | some i =>
        simp only [Option.map_some, Function.comp_apply]
        rw [Nat.add_assoc, Nat.add_comm 1 i]

theorem get?_rankLoop (f : Nat → α → α) (r : Results δ α) (h : NodupKeys r) (d : δ) :
    (rankLoop f r).get? d = (r.keys.idxOf? d).map (fun i => f i ((r.get? d).getD 0)) := by
  rw [rankLoop_eq f r h, get?_zipIdx_map]
  simp

theorem idxOf?_isSome {l : List δ} {d : δ} : (l.idxOf? d).isSome ↔ d ∈ l := by
  rw [Option.isSome_iff_ne_none, ne_eq, List.idxOf?_eq_none_iff]
  simp

theorem idxOf?_eq_some_iff {l : List δ} (h : l.Nodup) {d : δ} {i : Nat} :
    l.idxOf? d = some i ↔ l[i]? = some d := by
  induction l generalizing i with
  | nil => simp
  | cons x t ih =>
    rw [List.idxOf?_cons]
    have hx := (List.nodup_cons.1 h).1
    have ht := (List.nodup_cons.1 h).2
    by_cases hxd : x = d
    · subst hxd
      simp only [beq_self_eq_true, if_true, Option.some.injEq]
      constructor
      · rintro rfl; rfl
      · intro hi
        cases i with
        | zero => rfl
        | succ j => exact absurd (List.mem_of_getElem? (show t[j]? = some x by simpa using hi)) hx
    · simp only [beq_iff_eq, hxd, if_false]
      cases i with
      | zero => simp [hxd]
      | succ j => simp [ih ht]

/-! ### the rescoring loops -/

theorem rescoreAll_eq (f : Results δ α → Results δ α) (scheds : Nat → List Nat)
    (runs : List (Dict κ (Results δ α))) (hn : ∀ run ∈ runs, NodupKeys run)
    (hs : ∀ (j : Nat) run, runs[j]? = some run → Schedule run.length (scheds j)) :
    rescoreAll f scheds runs = runs.map (mapRun (fun _ r => f r)) := by
  unfold rescoreAll
  apply List.ext_getElem?
  intro j
  rw [List.getElem?_map, List.getElem?_map, List.getElem?_zipIdx]
  cases hj : runs[j]? with
  | none => rfl
  | some run =>
    simp only [Option.map_some, Option.some.injEq, Nat.zero_add]
    exact Norm.normParallel_eq f (scheds j) run (hn run (List.mem_of_getElem? hj)) (hs j run hj)

theorem rescoreWith_eq {π : Type*} (f : π → Results δ α → Results δ α) (params : List π)
    (scheds : Nat → List Nat) (runs : List (Dict κ (Results δ α)))
    (hn : ∀ run ∈ runs, NodupKeys run)
    (hs : ∀ (j : Nat) run, runs[j]? = some run → Schedule run.length (scheds j))
    (hl : runs.length ≤ params.length) :
    rescoreWith f params scheds runs =
      .ok ((runs.zip params).map (fun rp => mapRun (fun _ r => f rp.2 r) rp.1)) := by
  unfold rescoreWith
  rw [Eval.collect_ok_iff]
  apply List.ext_getElem?
  intro j
  cases hj : runs[j]? with
  | none =>
    have hge : runs.length ≤ j := List.getElem?_eq_none_iff.1 hj
    rw [List.getElem?_eq_none (by simpa using hge), List.getElem?_eq_none (by simp; omega)]
  | some run =>
    have hlt : j < runs.length := (List.getElem?_eq_some_iff.1 hj).1
    have hp : params[j]? = some params[j] := List.getElem?_eq_getElem (by omega)
    have hz : (runs.zip params)[j]? = some (run, params[j]) := List.getElem?_zip_eq_some.2 ⟨hj, hp⟩
    rw [List.getElem?_map, List.getElem?_map, List.getElem?_map, List.getElem?_zipIdx, hj, hz]
    simp only [Option.map_some, Nat.zero_add, hp]
    rw [Norm.normParallel_eq _ (scheds j) run (hn run (List.mem_of_getElem? hj)) (hs j run hj)]
    rfl

theorem forall₂_map_right {A B : Type*} {R : A → B → Prop} (l : List A) (g : A → B)
    (h : ∀ a ∈ l, R a (g a)) : List.Forall₂ R l (l.map g) := by
  induction l with
  | nil => exact .nil
  | cons a t ih =>
    exact .cons (h a List.mem_cons_self) (ih (fun x hx => h x (List.mem_cons_of_mem _ hx)))

theorem rescored_map (g : κ → Results δ α → Results δ α) (runs : List (Dict κ (Results δ α)))
    (hg : ∀ run ∈ runs, ∀ p ∈ run, NodupKeys (g p.1 p.2)) : Rescored runs (runs.map (mapRun g)) := by
  apply forall₂_map_right
  intro run hr
  refine ⟨keys_mapRun g run, ?_⟩
  intro p hp
  obtain ⟨e, he, rfl⟩ := List.mem_map.1 hp
  exact hg run hr e he

theorem rescored_zip {π : Type*} (g : π → κ → Results δ α → Results δ α) (params : List π)
    (runs : List (Dict κ (Results δ α))) (hl : runs.length ≤ params.length)
    (hg : ∀ p q r, NodupKeys (g p q r)) :
    Rescored runs ((runs.zip params).map (fun rp => mapRun (g rp.2) rp.1)) := by
  unfold Rescored
  induction runs generalizing params with
  | nil => exact .nil
  | cons run t ih =>
    cases params with
    | nil => simp at hl
    | cons p ps =>
      refine .cons ⟨keys_mapRun _ run, ?_⟩ (ih ps (by simpa using hl))
      intro x hx
      obtain ⟨e, he, rfl⟩ := List.mem_map.1 hx
      exact hg _ _ _

theorem get?_none_iff_idxOf? {r : Results δ α} {d : δ} :
    (r.get? d).isSome ↔ (r.keys.idxOf? d).isSome := by
  rw [get?_isSome, idxOf?_isSome]

theorem scores_rank (f : Results δ α → Results δ α) (g : Nat → α) (runs : List (Dict κ (Results δ α)))
    (hd : ∀ run ∈ runs, ∀ p ∈ run, NodupKeys p.2)
    (hg : ∀ r, NodupKeys r → ∀ d, (f r).get? d = (r.keys.idxOf? d).map g) (q : κ) (d : δ) :
    Spec.scores (runs.map (mapRun (fun _ r => f r))) q d = (Spec.positions runs q d).map g := by
  unfold Spec.scores Spec.positions
  rw [List.filterMap_map, List.map_filterMap]
  apply List.filterMap_congr
  intro run hr
  simp only [Function.comp_apply, score?_mapRun]
  unfold Spec.position?
  cases hq : run.get? q with
  | none => rfl
  | some r => exact hg r (hd run hr (q, r) (mem_of_get? hq)) d

theorem scores_occ {π : Type*} (f : π → Results δ α → Results δ α) (g : Spec.Occurrence π α → α)
    (runs : List (Dict κ (Results δ α))) (params : List π)
    (hd : ∀ run ∈ runs, ∀ p ∈ run, NodupKeys p.2)
    (hg : ∀ p r, NodupKeys r → ∀ d, (f p r).get? d = (r.keys.idxOf? d).bind (fun i =>
      (r.get? d).map (fun s => g ⟨i, s, p, r.length⟩))) (q : κ) (d : δ) :
    Spec.scores ((runs.zip params).map (fun rp => mapRun (fun _ r => f rp.2 r) rp.1)) q d =
      (Spec.occurrences runs params q d).map g := by
  unfold Spec.scores Spec.occurrences
  rw [List.filterMap_map, List.map_filterMap]
  apply List.filterMap_congr
  intro rp hrp
  simp only [Function.comp_apply, score?_mapRun]
  cases hq : rp.1.get? q with
  | none => rfl
  | some r =>
    simp only [Option.bind_some]
    rw [hg rp.2 r (hd rp.1 (List.of_mem_zip hrp).1 (q, r) (mem_of_get? hq)) d]
    cases List.idxOf? d r.keys with
    | none => rfl
    | some i =>
      simp only [Option.bind_some]
      cases r.get? d <;> rfl

/-- a rank loop in terms of position, score and length -/
theorem get?_rankLoop_occ (f : Nat → α → α) (r : Results δ α) (h : NodupKeys r) (d : δ) :
    (rankLoop f r).get? d = (r.keys.idxOf? d).bind (fun i => (r.get? d).map (fun s => f i s)) := by
  rw [get?_rankLoop f r h]
  cases hi : List.idxOf? d r.keys with
  | none => rfl
  | some i =>
    have : (r.get? d).isSome := get?_none_iff_idxOf?.2 (by rw [hi]; rfl)
    obtain ⟨s, hs⟩ := Option.isSome_iff_exists.1 this
    simp [hs]

theorem inSome_rescored {runs runs' : List (Dict κ (Results δ α))}
    (h : List.Forall₂ (fun run run' => ∀ q d, (Spec.score? run' q d).isSome = (Spec.score? run q d).isSome)
      runs runs') (q : κ) (d : δ) : Spec.InSome runs' q d ↔ Spec.InSome runs q d := by
  rw [inSome_iff, inSome_iff]
  constructor
  · rintro ⟨run', hr', hs⟩
    obtain ⟨run, hr, he⟩ := forall₂_mem_right h hr'
    exact ⟨run, hr, by rw [← he]; exact hs⟩
  · rintro ⟨run, hr, hs⟩
    obtain ⟨run', hr', he⟩ := forall₂_mem_left h hr
    exact ⟨run', hr', by rw [he]; exact hs⟩

theorem score?_isSome_mapRun (g : Results δ α → Results δ α) (run : Dict κ (Results δ α))
    (hd : ∀ p ∈ run, NodupKeys p.2) (hk : ∀ r, NodupKeys r → ∀ d, d ∈ (g r).keys ↔ d ∈ r.keys)
    (q : κ) (d : δ) :
    (Spec.score? (mapRun (fun _ r => g r) run) q d).isSome = (Spec.score? run q d).isSome := by
  rw [score?_mapRun]
  unfold Spec.score?
  cases hq : run.get? q with
  | none => rfl
  | some r =>
    simp only [Option.bind_some]
    have := hk r (hd (q, r) (mem_of_get? hq)) d
    rw [← get?_isSome, ← get?_isSome] at this
    cases h1 : ((g r).get? d).isSome <;> cases h2 : (r.get? d).isSome <;> simp_all

end

section
variable [LinearOrder κ] [DecidableEq δ] [LinearOrder α] [Field α] [IsStrictOrderedRing α]

theorem FusedBy_transfer {runs runs' : List (Dict κ (Results δ α))} {val : κ → δ → α}
    {out : Store κ δ α} (h : Spec.FusedBy runs' val out)
    (hq : ∀ q, (∃ run ∈ runs', q ∈ run.keys) ↔ ∃ run ∈ runs, q ∈ run.keys)
    (hd : ∀ q d, Spec.InSome runs' q d ↔ Spec.InSome runs q d) : Spec.FusedBy runs val out :=
  ⟨fun q => (h.queries q).trans (hq q), fun q d => (h.docs q d).trans (hd q d),
    fun q d hx => h.value q d ((hd q d).2 hx), h.nodupQ, h.nodupD, h.ranked, h.ordered, h.flagged⟩

/-- all runs rescored by rank, then combined -/
theorem rescoreAll_spec (S : ArgSort α) (f : Results δ α → Results δ α)
    (hfk : ∀ r, NodupKeys r → NodupKeys (f r) ∧ (f r).keys = r.keys)
    (score : Score δ α) (val : List (Results δ α) → δ → α) (sched : List Nat) (scheds : Nat → List Nat)
    (runs : List (Dict κ (Results δ α))) (hf : Spec.Fusable runs)
    (hs : Schedule (queryCount runs) sched)
    (hss : ∀ (j : Nat) run, runs[j]? = some run → Schedule run.length (scheds j))
    (hok : ∀ q d, score (resultsFor (runs.map (mapRun (fun _ r => f r))) q) d =
      .ok (val (resultsFor (runs.map (mapRun (fun _ r => f r))) q) d)) :
    ∃ out, fuseRun S score sched (rescoreAll f scheds runs) = .ok out ∧
      Spec.FusedBy runs (fun q d => val (resultsFor (runs.map (mapRun (fun _ r => f r))) q) d) out := by
  rw [rescoreAll_eq f scheds runs hf.nodupQ hss]
  have hres : Rescored runs (runs.map (mapRun (fun _ r => f r))) :=
    rescored_map (fun _ r => f r) runs (fun run hr p hp => (hfk p.2 (hf.nodupD run hr p hp)).1)
  obtain ⟨out, h1, h2⟩ := fuseRun_spec S score val sched (runs.map (mapRun (fun _ r => f r)))
    (hres.fusable hf) (by rw [hres.queryCount]; exact hs) (fun q d _ => hok q d)
  refine ⟨out, h1, FusedBy_transfer h2 hres.queries ?_⟩
  apply inSome_rescored
  apply forall₂_map_right
  intro run hr q d
  exact score?_isSome_mapRun f run (hf.nodupD run hr) (fun r hr d => by rw [(hfk r hr).2]) q d

theorem rescoreThen_spec (S : ArgSort α) {π : Type*} (f : π → Results δ α → Results δ α)
    (hfk : ∀ p r, NodupKeys r → (f p r).keys = r.keys) (hfn : ∀ p r, NodupKeys (f p r))
    (params : List π)
    (score : Score δ α) (val : List (Results δ α) → δ → α) (sched : List Nat) (scheds : Nat → List Nat)
    (runs : List (Dict κ (Results δ α))) (hf : Spec.Fusable runs) (hl : runs.length ≤ params.length)
    (hs : Schedule (queryCount runs) sched)
    (hss : ∀ (j : Nat) run, runs[j]? = some run → Schedule run.length (scheds j))
    (hok : ∀ q d, score (resultsFor ((runs.zip params).map
        (fun rp => mapRun (fun _ r => f rp.2 r) rp.1)) q) d =
      .ok (val (resultsFor ((runs.zip params).map (fun rp => mapRun (fun _ r => f rp.2 r) rp.1)) q) d)) :
    ∃ out, rescoreThen S sched scheds f params score runs = .ok out ∧
      Spec.FusedBy runs (fun q d => val (resultsFor ((runs.zip params).map
        (fun rp => mapRun (fun _ r => f rp.2 r) rp.1)) q) d) out := by
  unfold rescoreThen
  rw [rescoreWith_eq f params scheds runs hf.nodupQ hss hl]
  simp only
  have hres : Rescored runs ((runs.zip params).map (fun rp => mapRun (fun _ r => f rp.2 r) rp.1)) :=
    rescored_zip (fun p _ r => f p r) params runs hl (fun p _ r => hfn p r)
  obtain ⟨out, h1, h2⟩ := fuseRun_spec S score val sched _ (hres.fusable hf)
    (by rw [hres.queryCount]; exact hs) (fun q d _ => hok q d)
  refine ⟨out, h1, FusedBy_transfer h2 hres.queries ?_⟩
  apply inSome_rescored
  have hd := hf.nodupD
  clear h1 h2 hres hok hss hs hf
  induction runs generalizing params with
  | nil => exact .nil
  | cons run t ih =>
    cases params with
    | nil => simp at hl
    | cons p ps =>
      refine .cons ?_ (ih ps (by simpa using hl) (fun r hr => hd r (List.mem_cons_of_mem _ hr)))
      intro q d
      exact score?_isSome_mapRun (f p) run (hd run List.mem_cons_self)
        (fun r hr d => by rw [hfk p r hr]) q d

end
end Ranx.Fuse
