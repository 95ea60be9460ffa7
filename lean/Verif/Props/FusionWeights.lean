import Verif.Props.Fusion
import Verif.Props.FusionSym
import Verif.Lemmas.Fuse

/-!
# Property C49 (too few weights)
-/

set_option linter.unusedSectionVars false

namespace Ranx
open Dict Fuse
open Norm (Results)
variable {κ δ α : Type*} [LinearOrder κ] [DecidableEq δ] [LinearOrder α] [Field α] [IsStrictOrderedRing α]

theorem wsumScore_too_few (ws : List α) (rs : List (Results δ α)) (h : ws.length < rs.length) (d : δ) :
    ∃ e, wsumScore ws rs d = .error e := by
  cases hc : wsumScore ws rs d with
  | error e => exact ⟨e, rfl⟩
  | ok v =>
    exfalso
    unfold wsumScore at hc
    cases hl : Eval.collect (rs.zipIdx.map (fun ri => (weightAt ws ri.2).map (fun w => w * (ri.1.get? d).getD 0))) with
    | error e => rw [hl] at hc; cases hc
    | ok l =>
      have hz := (Eval.collect_ok_iff _ _).1 hl
      have := congrArg (fun x => x[ws.length]?) hz
      simp only [List.getElem?_map, List.getElem?_zipIdx, List.getElem?_eq_getElem h, Option.map_some, Nat.zero_add] at this
      have hw : weightAt ws ws.length = .error .indexError := by
        unfold weightAt; rw [List.getElem?_eq_none (Nat.le_refl _)]
      rw [hw] at this
      cases hx : l[ws.length]? with
      | none => rw [hx] at this; cases this
      | some y => rw [hx] at this; cases this

/-- **C49** (too few weights): with fewer weights than runs `wsum` raises as soon as some run has a doc; no run is
returned with the missing weights taken as anything. -/
theorem C49_wsum_too_few_weights (S : ArgSort α) (sched : List Nat) (ws : List α) (runs : List (Dict κ (Results δ α)))
    (hf : Spec.Fusable runs) (hw : ws.length < runs.length) (hs : Schedule (queryCount runs) sched) (q : κ) (d : δ)
    (hd : Spec.InSome runs q d) : ∃ e, wsum S sched ws runs = .error e := by
  cases hr : wsum S sched ws runs with
  | error e => exact ⟨e, rfl⟩
  | ok out =>
    exfalso
    unfold wsum fuseRun at hr
    cases hp : fuseParallel (wsumScore ws) sched runs with
    | error e => rw [hp] at hr; cases hr
    | ok o =>
      have hq : ∃ run ∈ runs, q ∈ run.keys := by
        obtain ⟨run, hm, v, hv, -⟩ := hd
        exact ⟨run, hm, get?_isSome.1 (by rw [hv]; rfl)⟩
      obtain ⟨r, hc⟩ := fuseParallel_ok (wsumScore ws) sched runs hf hs o hp q hq
      unfold combine at hc
      have hmem : d ∈ (resultsFor runs q).flatMap Dict.keys := (mem_flatMap_resultsFor _ _ _).2 hd
      cases hk : (resultsFor runs q).flatMap Dict.keys with
      | nil => rw [hk] at hmem; cases hmem
      | cons x t =>
        rw [hk] at hc
        obtain ⟨e, he⟩ := wsumScore_too_few ws (resultsFor runs q) (by unfold resultsFor; simpa using hw) x
        unfold unionLoop at hc
        have h0 : (Dict.get? ([] : Dict δ α) x).getD 0 = 0 := rfl
        rw [if_pos h0, he] at hc
        cases hc

/-- non-vacuity -/
example : wsum (.stable ℚ) [1, 0] [2] [fuseEx1, fuseEx2] = .error .indexError ∧ ([2] : List ℚ).length < 2 := by
  constructor
  · have h : (match wsum (.stable ℚ) [1, 0] [2] [fuseEx1, fuseEx2] with
      | .error e => decide (e = .indexError) | .ok _ => false) = true := by decide +kernel
    revert h
    cases wsum (.stable ℚ) [1, 0] [2] [fuseEx1, fuseEx2] with
    | ok _ => intro h; cases h
    | error e => intro h; simpa using h
  · decide

/-- a fusion that has to score a doc it cannot score raises -/
theorem fuseRun_raises (S : ArgSort α) (score : Score δ α) (sched : List Nat) (runs : List (Dict κ (Results δ α)))
    (hf : Spec.Fusable runs) (hs : Schedule (queryCount runs) sched) (q : κ) (d : δ) (hd : Spec.InSome runs q d)
    (he : ∃ e, score (resultsFor runs q) d = .error e) : ∃ e, fuseRun S score sched runs = .error e := by
  cases hr : fuseRun S score sched runs with
  | error e => exact ⟨e, rfl⟩
  | ok out =>
    exfalso
    unfold fuseRun at hr
    cases hp : fuseParallel score sched runs with
    | error e => rw [hp] at hr; cases hr
    | ok o =>
      have hq : ∃ run ∈ runs, q ∈ run.keys := by
        obtain ⟨run, hm, v, hv, -⟩ := hd
        exact ⟨run, hm, get?_isSome.1 (by rw [hv]; rfl)⟩
      obtain ⟨r, hc⟩ := fuseParallel_ok score sched runs hf hs o hp q hq
      have hmem : d ∈ r.keys := ((combine_keys _ _ _ hc).2 d).2 ((mem_flatMap_resultsFor _ _ _).2 hd)
      obtain ⟨v, hv⟩ := Option.isSome_iff_exists.1 (get?_isSome.2 hmem)
      obtain ⟨e, he⟩ := he
      rw [combine_value _ _ _ hc d v hv] at he
      cases he

theorem presentWeighted_too_few (ws : List α) (rs : List (Results δ α)) (j : Nat) (hj : ws.length ≤ j)
    (res : Results δ α) (hr : rs[j]? = some res) (d : δ) (s : α) (hd : res.get? d = some s) :
    ∃ e, presentWeighted ws rs d = .error e := by
  cases hc : presentWeighted ws rs d with
  | error e => exact ⟨e, rfl⟩
  | ok l =>
    exfalso
    unfold presentWeighted at hc
    have hz := (Eval.collect_ok_iff _ _).1 hc
    have hm : (Except.error Err.indexError : Except Err (α × α)) ∈ rs.zipIdx.filterMap (fun ri =>
        (ri.1.get? d).map (fun s => (weightAt ws ri.2).map (fun w => (s, w)))) := by
      refine List.mem_filterMap.2 ⟨(res, j), ?_, ?_⟩
      · rw [List.mem_zipIdx_iff_getElem?]; exact hr
      · have hw : weightAt ws j = .error .indexError := by
          unfold weightAt; rw [List.getElem?_eq_none hj]
        change (res.get? d).map _ = _
        rw [hd, Option.map_some, hw]; rfl
    rw [hz] at hm
    obtain ⟨x, -, hx⟩ := List.mem_map.1 hm
    cases hx

theorem in_run (runs : List (Dict κ (Results δ α))) (j : Nat) (run : Dict κ (Results δ α)) (hr : runs[j]? = some run)
    (q : κ) (d : δ) (s : α) (hd : Spec.score? run q d = some s) :
    Spec.InSome runs q d ∧ ∃ res, (resultsFor runs q)[j]? = some res ∧ res.get? d = some s := by
  unfold Spec.score? at hd
  obtain ⟨v, hv, hs⟩ := Option.bind_eq_some_iff.1 hd
  refine ⟨⟨run, List.mem_of_getElem? hr, v, hv, get?_isSome.1 (by rw [hs]; rfl)⟩, v, ?_, hs⟩
  unfold resultsFor
  rw [List.getElem?_map, hr, Option.map_some, hv]; rfl

/-- **C49** (too few weights, `wmnz`): it raises when a run without a weight has a doc. -/
theorem C49_wmnz_too_few_weights (S : ArgSort α) (sched : List Nat) (ws : List α) (runs : List (Dict κ (Results δ α)))
    (hf : Spec.Fusable runs) (hs : Schedule (queryCount runs) sched) (j : Nat) (hj : ws.length ≤ j)
    (run : Dict κ (Results δ α)) (hr : runs[j]? = some run) (q : κ) (d : δ) (s : α) (hd : Spec.score? run q d = some s) :
    ∃ e, wmnz S sched ws runs = .error e := by
  obtain ⟨hin, res, h1, h2⟩ := in_run runs j run hr q d s hd
  obtain ⟨e, he⟩ := presentWeighted_too_few ws (resultsFor runs q) j hj res h1 d s h2
  exact fuseRun_raises S (wmnzScore ws) sched runs hf hs q d hin ⟨e, by unfold wmnzScore; rw [he]⟩

/-- **C49** (too few weights, `mixed`): it raises when a run without a weight has a doc. -/
theorem C49_mixed_too_few_weights (S : ArgSort ℝ) (sched : List Nat) (ws : List ℝ) (runs : List (Dict κ (Results δ ℝ)))
    (hf : Spec.Fusable runs) (hs : Schedule (queryCount runs) sched) (j : Nat) (hj : ws.length ≤ j)
    (run : Dict κ (Results δ ℝ)) (hr : runs[j]? = some run) (q : κ) (d : δ) (s : ℝ) (hd : Spec.score? run q d = some s) :
    ∃ e, mixed S sched ws runs = .error e := by
  obtain ⟨hin, res, h1, h2⟩ := in_run runs j run hr q d s hd
  obtain ⟨e, he⟩ := presentWeighted_too_few ws (resultsFor runs q) j hj res h1 d s h2
  exact fuseRun_raises S (mixedScore ws) sched runs hf hs q d hin ⟨e, by unfold mixedScore; rw [he]⟩

/-- non-vacuity -/
example : (match wmnz (.stable ℚ) [1, 0] [2] [fuseEx1, fuseEx2] with
      | .error e => decide (e = .indexError) | .ok _ => false) = true := by decide +kernel

end Ranx
