import Verif.Props.FusionRank

/-!
# Property C60: bayesfuse
-/

set_option linter.unusedSectionVars false

namespace Ranx
open Dict Fuse
open _root_.Ranx.Norm (Results)
variable {κ δ : Type*}

/-- Specification: what a run with the log odds table `t` contributes to doc `d`: the entry at its
position, or the log odds of probability 0.001 if the run does not have the doc. `oob` supplies the value
read at a position beyond the table. -/
noncomputable def Spec.bayesOdds [DecidableEq κ] [DecidableEq δ] (oob : Nat → ℝ)
    (run : Spec.RunData κ δ ℝ) (t : List ℝ) (q : κ) (d : δ) : ℝ :=
  match Spec.position? run q d with
  | some i => (t[i]?).getD (oob i)
  | none => Real.log (0.001 / 0.999)

section
variable [LinearOrder κ] [DecidableEq δ] (S : ArgSort ℝ) (sched : List Nat) (scheds : Nat → List Nat)

/-- **C60** For every run list and memory content `oob`, bayesfuse gives each doc the sum over *all* runs
of the log odds of its position (of probability 0.001 in the runs without the doc). -/
theorem C60_bayesfuse (oob : Nat → ℝ) (odds : List (List ℝ)) (runs : List (Dict κ (Results δ ℝ)))
    (hl : runs.length ≤ odds.length)
    (hf : Spec.Fusable runs) (hs : Schedule (queryCount runs) sched)
    (hss : ∀ (j : Nat) run, runs[j]? = some run → Schedule run.length (scheds j)) :
    ∃ out, bayesfuse S sched scheds oob odds runs = .ok out ∧
      Spec.FusedBy runs
        (fun q d => ((runs.zip odds).map (fun rt => Spec.bayesOdds oob rt.1 rt.2 q d)).sum) out := by
  obtain ⟨out, h1, h2⟩ := rescoreThen_spec S (bayesScore (δ := δ) oob)
    (fun p r hr => keys_rankLoop _ r hr) (fun p r => nodupKeys_rankLoop _ r) odds oddsScore
    (fun rs d => (rs.map (fun res => (res.get? d).getD (Real.log (0.001 / 0.999)))).sum) sched scheds
    runs hf hl hs hss (fun q d => rfl)
  refine ⟨out, h1, FusedBy_congr h2 ?_⟩
  intro q d _
  congr 1
  unfold resultsFor
  rw [List.map_map, List.map_map]
  apply List.map_congr_left
  intro rt hrt
  simp only [Function.comp_apply]
  rw [getD_get?, score?_mapRun]
  unfold Spec.bayesOdds Spec.position?
  cases hq : Dict.get? rt.1 q with
  | none => rfl
  | some r =>
    have hr : NodupKeys r := hf.nodupD rt.1 (List.of_mem_zip hrt).1 (q, r) (mem_of_get? hq)
    simp only [Option.bind_some]
    unfold bayesScore
    rw [get?_rankLoop _ r hr]
    cases List.idxOf? d r.keys <;> rfl

/-- **C60**, the case a user relies on: if no ranking is longer than its run's table, the memory beyond
the tables does not matter. -/
theorem C60_in_table (oob : Nat → ℝ) (odds : List (List ℝ)) (runs : List (Dict κ (Results δ ℝ)))
    (hl : runs.length ≤ odds.length)
    (hlen : ∀ rt ∈ runs.zip odds, ∀ p ∈ rt.1, p.2.length ≤ rt.2.length)
    (hf : Spec.Fusable runs) (hs : Schedule (queryCount runs) sched)
    (hss : ∀ (j : Nat) run, runs[j]? = some run → Schedule run.length (scheds j)) :
    ∃ out, bayesfuse S sched scheds oob odds runs = .ok out ∧
      Spec.FusedBy runs
        (fun q d => ((runs.zip odds).map (fun rt => match Spec.position? rt.1 q d with
          | some i => (rt.2[i]?).getD 0
          | none => Real.log (0.001 / 0.999))).sum) out := by
  obtain ⟨out, h1, h2⟩ := C60_bayesfuse S sched scheds oob odds runs hl hf hs hss
  refine ⟨out, h1, FusedBy_congr h2 ?_⟩
  intro q d _
  congr 1
  apply List.map_congr_left
  intro rt hrt
  unfold Spec.bayesOdds
  cases hp : Spec.position? rt.1 q d with
  | none => rfl
  | some i =>
    simp only
    unfold Spec.position? at hp
    cases hq : Dict.get? rt.1 q with
    | none => rw [hq] at hp; simp at hp
    | some r =>
      rw [hq] at hp
      simp only [Option.bind_some] at hp
      have hr : NodupKeys r := hf.nodupD rt.1 (List.of_mem_zip hrt).1 (q, r) (mem_of_get? hq)
      have hrk : r.keys.Nodup := hr
      have hi := (List.getElem?_eq_some_iff.1 ((idxOf?_eq_some_iff hrk).1 hp)).1
      rw [length_keys] at hi
      have hle : r.length ≤ rt.2.length := hlen rt hrt (q, r) (mem_of_get? hq)
      rw [List.getElem?_eq_getElem (by omega)]
      rfl

end

/-- **C60 refuted** for rankings longer than the table: the fused score depends on whatever lies in memory
behind the table. One run with two docs, a table with one slot. -/
theorem C60_reads_out_of_bounds :
    ∃ (run : Dict Nat (Results Nat ℝ)) (t : List ℝ), Spec.Fusable [run] ∧
      ∀ (S : ArgSort ℝ) (oob : Nat → ℝ), ∃ out,
        bayesfuse S [0] (fun _ => [0]) oob [t] [run] = .ok out ∧
        (Spec.content out).read 1 11 = some (oob 1) := by
  let run : Dict Nat (Results Nat ℝ) := [(1, [(10, 5), (11, 4)])]
  have hf : Spec.Fusable [run] := by
    refine ⟨by simp, ?_, ?_, ?_⟩
    · intro r hr
      rw [List.mem_singleton.1 hr]
      unfold NodupKeys; simp [run]
    · intro r hr p hp
      rw [List.mem_singleton.1 hr] at hp
      rw [List.mem_singleton.1 hp]
      unfold NodupKeys; simp
    · intro r hr r' hr' q hq
      rw [List.mem_singleton.1 hr] at hq
      rw [List.mem_singleton.1 hr']; exact hq
  refine ⟨run, [0], hf, ?_⟩
  intro S oob
  obtain ⟨out, h1, h2⟩ := C60_bayesfuse S [0] (fun _ => [0]) oob [[0]] [run] (by simp) hf
    (by unfold Schedule; exact .refl _) (by
      intro j r hr
      have := List.mem_singleton.1 (List.mem_of_getElem? hr)
      rw [this]; exact .refl _)
  refine ⟨out, h1, ?_⟩
  rw [h2.value 1 11 ⟨run, by simp, [(10, 5), (11, 4)], rfl, by simp [Dict.keys]⟩]
  have : Spec.position? run 1 11 = some 1 := by
    simp [Spec.position?, run, Dict.get?, Dict.keys, List.idxOf?, List.findIdx?, List.findIdx?.go]
  simp [Spec.bayesOdds, this]

end Ranx
