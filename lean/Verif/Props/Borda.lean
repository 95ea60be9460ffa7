import Verif.Props.Norm

/-!
# Properties C39 (borda) and C47: borda normalization

`borda_norm` takes all runs at once. The candidates of a query are collected per query *of the first
run* and then paired by position with the queries of every run.
-/

set_option linter.unusedSectionVars false

namespace Ranx
open Dict Norm
variable {κ δ α : Type*}
variable [DecidableEq κ] [DecidableEq δ] [LinearOrder α] [Field α] [IsStrictOrderedRing α]

theorem bordaNorm_eq (r : Results δ α) (cands : List δ) (hc : cands.Nodup) :
    bordaNorm r cands = cands.map (fun d =>
      (d, if r.contains d then 1 - (r.keys.idxOf d : α) / (cands.length : α)
        else 1 / 2 - ((r.length : α) - 1) / (2 * (cands.length : α)))) := by
  unfold bordaNorm
  apply ofList_of_nodup
  unfold NodupKeys
  rw [List.map_map]
  have : (Prod.fst ∘ fun d : δ => (d, if r.contains d then 1 - (r.keys.idxOf d : α) / (cands.length : α)
        else 1 / 2 - ((r.length : α) - 1) / (2 * (cands.length : α)))) = id := rfl
  rw [this, List.map_id]; exact hc

theorem bordaNorm_keys (r : Results δ α) (cands : List δ) (hc : cands.Nodup) :
    (bordaNorm r cands).keys = cands := by
  rw [bordaNorm_eq r cands hc]
  unfold Dict.keys
  rw [List.map_map]
  exact List.map_id _

theorem bordaNorm_get? (r : Results δ α) (cands : List δ) (hc : cands.Nodup) (d : δ) (hd : d ∈ cands) :
    (bordaNorm r cands).get? d = some (if r.contains d then 1 - (r.keys.idxOf d : α) / (cands.length : α)
        else 1 / 2 - ((r.length : α) - 1) / (2 * (cands.length : α))) := by
  apply get?_of_mem (nodupKeys_ofList _)
  change _ ∈ bordaNorm r cands
  rw [bordaNorm_eq r cands hc]
  exact List.mem_map.2 ⟨d, hd, rfl⟩

/-- the parallel loop of one run with candidates given by query -/
theorem bordaParallel_eq (sched : List Nat) (run : Dict κ (Results δ α)) (h : NodupKeys run)
    (hs : Schedule run.length sched) (cand : κ → List δ) :
    bordaParallel sched run (run.keys.map cand) =
      run.map (fun p => (p.1, bordaNorm p.2 (cand p.1))) := by
  have hlen : run.keys.length = run.length := List.length_map _
  unfold bordaParallel
  simp only
  rw [prange_eq _ _ _ (by rw [List.length_replicate, hlen]; exact hs), List.length_replicate]
  have : (List.range run.keys.length).map (fun i =>
      bordaNorm ((run.keys[i]?.bind run.get?).getD []) (((run.keys.map cand)[i]?).getD [])) =
      run.map (fun p => bordaNorm p.2 (cand p.1)) := by
    apply List.ext_getElem?
    intro i
    by_cases hi : i < run.length
    · have hk : run.keys[i]? = some run[i].1 := by
        unfold Dict.keys
        rw [List.getElem?_map, List.getElem?_eq_getElem hi]; rfl
      rw [List.getElem?_map, List.getElem?_range (by omega), List.getElem?_map]
      simp only [Option.map_some, List.getElem?_map, hk, Option.bind_some, List.getElem?_eq_getElem hi]
      rw [get?_of_mem h (show (run[i].1, run[i].2) ∈ run from List.getElem_mem hi)]
      rfl
    · rw [List.getElem?_eq_none (by simp; omega), List.getElem?_eq_none (by simp; omega)]
  rw [this]
  unfold toRun
  have hz : run.keys.zip (run.map (fun p => bordaNorm p.2 (cand p.1))) =
      run.map (fun p => (p.1, bordaNorm p.2 (cand p.1))) := by
    unfold Dict.keys
    rw [List.zip_map']
  rw [hz, ofList_of_nodup]
  unfold NodupKeys
  rw [List.map_map]; exact h

theorem get?_map_entry {ν μ : Type*} (run : Dict κ ν) (f : κ → ν → μ) (q : κ) :
    Dict.get? (run.map (fun p => (p.1, f p.1 p.2))) q = (run.get? q).map (f q) := by
  induction run with
  | nil => rfl
  | cons p t ih =>
    rw [List.map_cons, get?_cons, get?_cons, ih]
    by_cases hp : p.1 = q
    · rw [if_pos hp, if_pos hp, hp]; rfl
    · rw [if_neg hp, if_neg hp]

/-- Specification: the docs that some run has for query `q` -/
def Spec.Candidate (runs : List (Dict κ (Results δ α))) (q : κ) (d : δ) : Prop :=
  ∃ run ∈ runs, ∃ r, run.get? q = some r ∧ d ∈ r.keys

/-- **C47 / C39** (borda; partial: all runs list the same queries *in the same order*, as after
`sort`): for every set iteration order and schedule, every run keeps its queries; the normalized query
has exactly the docs that some run has for that query; with `c` such docs, the doc at 0-based
position `i` gets `1 - i/c` and each doc missing from the run gets `1/2 - (n-1)/(2c)`. -/
theorem C47_borda_norm_partial (I : SetIter δ) (sched : Nat → List Nat)
    (runs : List (Dict κ (Results δ α))) (hne : runs ≠ [])
    (hw : ∀ run ∈ runs, NodupKeys run ∧ ∀ p ∈ run, NodupKeys p.2)
    (hq : ∀ run ∈ runs, ∀ run' ∈ runs, run.keys = run'.keys)
    (hs : ∀ (j : Nat) run, runs[j]? = some run → Schedule run.length (sched j)) :
    ∃ out, bordaRuns I sched runs = .ok out ∧ out.length = runs.length ∧
      ∀ (j : Nat) run run', runs[j]? = some run → out[j]? = some run' →
        run'.keys = run.keys ∧
        ∀ q r, run.get? q = some r → ∃ r', run'.get? q = some r' ∧ NodupKeys r' ∧
          (∀ d, d ∈ r'.keys ↔ Spec.Candidate runs q d) ∧
          (∀ (i : Nat) d, r.keys[i]? = some d →
            r'.get? d = some (1 - (i : α) / (r'.length : α))) ∧
          (∀ d, d ∈ r'.keys → d ∉ r.keys →
            r'.get? d = some (1 / 2 - ((r.length : α) - 1) / (2 * (r'.length : α)))) := by
  obtain ⟨r0, rest, rfl⟩ : ∃ r0 rest, runs = r0 :: rest := by
    cases runs with
    | nil => exact absurd rfl hne
    | cons a b => exact ⟨a, b, rfl⟩
  set runs := r0 :: rest with hruns
  have h0 : r0 ∈ runs := List.mem_cons_self
  let cand : κ → List δ := fun q => I.run (runs.flatMap (fun run => ((run.get? q).getD []).keys))
  have hall : runs.all (fun run => r0.keys.all (fun q => run.contains q)) = true := by
    rw [List.all_eq_true]
    intro run hr
    rw [List.all_eq_true]
    intro q hq'
    rw [contains_iff, hq run hr r0 h0]; exact hq'
  have hcand : getCandidates I runs = .ok (r0.keys.map cand) := by
    rw [hruns]
    unfold getCandidates
    simp only
    rw [← hruns, if_pos hall]
  have hlen : ∀ run ∈ runs, run.length = r0.length := by
    intro run hr
    have := congrArg List.length (hq run hr r0 h0)
    simpa using this
  have hany : ¬ runs.any (fun run => decide ((r0.keys.map cand).length < run.length)) = true := by
    rw [List.any_eq_true]
    rintro ⟨run, hr, hlt⟩
    have := hlen run hr
    simp at hlt
    omega
  have hb : bordaRuns I sched runs = .ok (runs.zipIdx.map (fun rj =>
      bordaParallel (sched rj.2) rj.1 (r0.keys.map cand))) := by
    unfold bordaRuns
    rw [hcand]
    simp only
    rw [if_neg hany]
  refine ⟨_, hb, by simp, ?_⟩
  intro j run run' hj hj'
  have hr : run ∈ runs := List.mem_of_getElem? hj
  have hrun' : run' = run.map (fun p => (p.1, bordaNorm p.2 (cand p.1))) := by
    rw [List.getElem?_map, List.getElem?_zipIdx, hj] at hj'
    simp only [Option.map_some, Option.some.injEq] at hj'
    rw [← hj', ← hq run hr r0 h0]
    simpa using bordaParallel_eq (sched (0 + j)) run (hw run hr).1 (by simpa using hs j run hj) cand
  subst hrun'
  refine ⟨by unfold Dict.keys; rw [List.map_map]; rfl, ?_⟩
  intro q r hqr
  refine ⟨bordaNorm r (cand q), ?_, nodupKeys_ofList _, ?_⟩
  · rw [get?_map_entry run (fun q r => bordaNorm r (cand q)), hqr]; rfl
  have hcn : (cand q).Nodup := I.nodup _
  have hlen' : (bordaNorm r (cand q)).length = (cand q).length := by
    rw [← length_keys, bordaNorm_keys _ _ hcn]
  have hmem : ∀ d, d ∈ cand q ↔ Spec.Candidate runs q d := by
    intro d
    change d ∈ I.run _ ↔ _
    rw [I.mem, List.mem_flatMap]
    constructor
    · rintro ⟨run2, h2, hd⟩
      cases hg : run2.get? q with
      | none => rw [hg] at hd; simp at hd
      | some r2 => rw [hg] at hd; exact ⟨run2, h2, r2, hg, hd⟩
    · rintro ⟨run2, h2, r2, hg, hd⟩
      exact ⟨run2, h2, by rw [hg]; exact hd⟩
  rw [bordaNorm_keys _ _ hcn, hlen']
  refine ⟨hmem, ?_, ?_⟩
  · intro i d hi
    have hdr : d ∈ r.keys := List.mem_of_getElem? hi
    rw [bordaNorm_get? r _ hcn d ((hmem d).2 ⟨run, hr, r, hqr, hdr⟩), if_pos (contains_iff.2 hdr)]
    have hnd : r.keys.Nodup := (hw run hr).2 (q, r) (mem_of_get? hqr)
    obtain ⟨hlt, hget⟩ := List.getElem?_eq_some_iff.1 hi
    rw [← hget, List.Nodup.idxOf_getElem hnd]
  · intro d hd hnd
    rw [bordaNorm_get? r _ hcn d hd, if_neg (fun h => hnd (contains_iff.1 h))]

/-- a set iteration order for the examples -/
def dedupIter : SetIter δ := ⟨List.dedup, List.nodup_dedup, fun _ _ => List.mem_dedup⟩

/-- a non-trivial instance: two runs over queries 1, 2 -/
example : bordaRuns dedupIter (fun _ => [1, 0])
    [[(1, [(10, 5), (11, 4)]), (2, [(20, 1)])], [(1, [(12, 3)]), (2, [(20, 7), (21, 6)])]] =
    .ok [[(1, [(10, (1 : ℚ)), (11, 2 / 3), (12, 1 / 3)]), (2, [(20, 1), (21, 1 / 2)])],
         [(1, [(10, 1 / 2), (11, 1 / 2), (12, 1)]), (2, [(20, 1), (21, 1 / 2)])]] := by
  decide +kernel

/-- **C47, C39 refuted in general**: two unsorted runs with the same queries 1, 2 listed in different
orders. The second run's query 2 is normalized with the candidates of query 1 and vice versa: its docs
20 and 12 disappear, docs of the wrong query get in, and there is no error. -/
theorem C47_borda_norm_misaligned :
    ∃ (r1 r2 : Dict Nat (Results Nat ℚ)), r1.keys.Perm r2.keys ∧
      bordaRuns dedupIter (fun _ => [0, 1]) [r1, r2] =
        .ok [[(1, [(10, 1), (12, 1 / 2)]), (2, [(20, 1)])],
             [(2, [(10, 1 / 2), (12, 1 / 2)]), (1, [(20, 1 / 2)])]] ∧
      r2 = [(2, [(20, 7)]), (1, [(12, 3)])] :=
  ⟨[(1, [(10, 5)]), (2, [(20, 1)])], [(2, [(20, 7)]), (1, [(12, 3)])],
    List.Perm.swap _ _ _, by decide +kernel, rfl⟩

end Ranx
