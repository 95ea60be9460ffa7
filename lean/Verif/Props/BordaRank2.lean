import Verif.Props.BordaRank

/-!
# Property C173: when the runs rank the same docs, borda normalization is rank normalization

Borda normalization works on the pool of the docs of all runs. If every run has all of them, it gives what rank
normalization gives to each run by itself.
-/

set_option linter.unusedSectionVars false

namespace Ranx
open Dict Store Metrics Eval Fuse Train Opt F64
open _root_.Ranx.Norm (Kind SetIter)

section
variable {κ δ ι : Type} [LinearOrder κ] [DecidableEq δ] [LinearOrder ι]

/-- Specification: the two calls succeed and return runs with the same queries, docs and scores. -/
def Spec.SameFused (a b : Except Err (Store κ δ ℝ)) : Prop :=
  ∃ out out', a = .ok out ∧ b = .ok out' ∧ (∀ q, q ∈ out.data.keys ↔ q ∈ out'.data.keys) ∧
    ∀ q d, (Spec.content out).read q d = (Spec.content out').read q d

theorem Opt.sameFused_of (nr nr' : List (Dict κ (Norm.Results δ ℝ))) (val val' : κ → δ → ℝ)
    (out out' : Store κ δ ℝ) (b1 : Spec.FusedBy nr val out) (b2 : Spec.FusedBy nr' val' out')
    (hQ : ∀ q, (∃ run ∈ nr, q ∈ run.keys) ↔ ∃ run ∈ nr', q ∈ run.keys)
    (hsc : List.Forall₂ (fun run run' => ∀ q d, Spec.score? run q d = Spec.score? run' q d) nr nr')
    (hval : ∀ q d, val q d = val' q d) :
    (∀ q, q ∈ out.data.keys ↔ q ∈ out'.data.keys) ∧
      ∀ q d, (Spec.content out).read q d = (Spec.content out').read q d := by
  refine ⟨fun q => (b1.queries q).trans ((hQ q).trans (b2.queries q).symm), fun q d => ?_⟩
  have hin : Spec.InSome nr q d ↔ Spec.InSome nr' q d := by
    rw [inSome_iff, inSome_iff]
    clear * - hsc
    induction hsc with
    | nil => simp
    | cons h _ ih => simp only [List.mem_cons, exists_eq_or_imp, h q d, ih]
  by_cases hi : Spec.InSome nr q d
  · rw [b1.value q d hi, b2.value q d (hin.1 hi), hval]
  · rw [not_not.1 (mt (b1.docs q d).1 hi), not_not.1 (mt (b2.docs q d).1 (fun h => hi (hin.2 h)))]

/-- the scores after borda normalization are those after rank normalization -/
theorem Opt.borda_rank_scores (I : SetIter δ) (sched : Nat → List Nat) (runs : List (Store κ δ ℝ))
    (hn : 2 ≤ runs.length) (hw : ∀ s ∈ runs, Store.Wf s.data) (hq : Spec.SameQueries runs)
    (ho : Spec.SameQueryOrder runs) (hdocs : Spec.SameDocs runs)
    (hs : ∀ (j : Nat) s, runs[j]? = some s → Schedule s.data.length (sched j)) :
    ∃ nr, Norm.bordaRuns I sched (runs.map (fun s => s.data)) = .ok nr ∧
      List.Forall₂ (fun run run' => ∀ q d, Spec.score? run q d = Spec.score? run' q d) nr
        (Spec.normalised (some .rank) (runs.map (fun s => s.data))) := by
  have hko : ∀ run ∈ runs.map (fun s => s.data), ∀ run' ∈ runs.map (fun s => s.data), run.keys = run'.keys := by
    intro run h1 run' h2
    obtain ⟨s, hs, rfl⟩ := List.mem_map.1 h1
    obtain ⟨s', hs', rfl⟩ := List.mem_map.1 h2
    exact ho s hs s' hs'
  obtain ⟨nr, h1, h2, h3⟩ := C47_borda_norm_partial I sched (runs.map (fun s => s.data))
    (fun h => by rw [List.map_eq_nil_iff] at h; subst h; simp at hn)
    (fun run hr => by obtain ⟨s, hs, rfl⟩ := List.mem_map.1 hr; exact hw s hs) hko (by
      intro j run hj
      rw [List.getElem?_map] at hj
      obtain ⟨s, hs', rfl⟩ := Option.map_eq_some_iff.1 hj
      exact hs j s hs')
  refine ⟨nr, h1, ?_⟩
  rw [normalised_some, List.map_map, List.forall₂_map_right_iff, List.forall₂_iff_get]
  rw [List.length_map] at h2
  refine ⟨h2, fun j hj hj' q d => ?_⟩
  simp only [List.get_eq_getElem, Function.comp_apply]
  have hsm : runs[j] ∈ runs := List.getElem_mem _
  obtain ⟨k1, k2⟩ := h3 j runs[j].data nr[j] (by rw [List.getElem?_map, List.getElem?_eq_getElem hj']; rfl)
    (List.getElem?_eq_getElem hj)
  have hnr : Dict.get? (runs[j].data.map (fun p => (p.1, specRow .rank p.2))) q =
      (runs[j].data.get? q).map (specRow .rank) := get?_map_val _ _ _
  unfold Spec.score?
  rw [hnr]
  cases hr : runs[j].data.get? q with
  | none =>
    have : nr[j].get? q = none := by
      by_contra hc
      have hm := get?_isSome.1 (Option.isSome_iff_ne_none.2 hc)
      rw [k1, ← get?_isSome, hr] at hm
      cases hm
    rw [this]; rfl
  | some r =>
    obtain ⟨r', e1, e2, e3, e4, -⟩ := k2 q r hr
    rw [e1, Option.map_some, Option.bind_some, Option.bind_some]
    have hmem : ∀ x, x ∈ r'.keys ↔ x ∈ r.keys := by
      intro x
      rw [e3]
      constructor
      · rintro ⟨run, g1, r0, g2, g3⟩
        obtain ⟨s', hs', rfl⟩ := List.mem_map.1 g1
        exact same_doc_keys runs hdocs s' runs[j] hs' hsm q r0 r g2 hr x g3
      · intro hx
        exact ⟨runs[j].data, List.mem_map.2 ⟨_, hsm, rfl⟩, r, hr, hx⟩
    have hnd : r.keys.Nodup := (hw _ hsm).2 (q, r) (mem_of_get? hr)
    have hlen : r'.length = r.length := by
      have := ((List.perm_ext_iff_of_nodup e2 hnd).2 hmem).length_eq
      unfold Dict.keys at this
      simpa using this
    by_cases hd : d ∈ r.keys
    · rw [e4 (r.keys.idxOf d) d (by
        rw [List.getElem?_eq_getElem (List.idxOf_lt_length_of_mem hd), List.getElem_idxOf]), hlen]
      have hk : (specRow .rank r).keys = r.keys := keys_specRow _ _
      obtain ⟨v, hv⟩ := Option.isSome_iff_exists.1 (get?_isSome.2 (hk ▸ hd : d ∈ (specRow .rank r).keys))
      have hm := mem_of_get? hv
      unfold specRow at hm
      obtain ⟨e, -, he⟩ := List.mem_map.1 hm
      rw [hv]
      have g1 : e.1 = d := congrArg Prod.fst he
      have g2 := congrArg Prod.snd he
      simp only [Spec.normScore, g1] at g2
      rw [← g2]
    · have n1 : r'.get? d = none := by
        by_contra hc
        exact hd ((hmem d).1 (get?_isSome.1 (Option.isSome_iff_ne_none.2 hc)))
      have n2 : (specRow .rank r).get? d = none := by
        by_contra hc
        have hm := get?_isSome.1 (Option.isSome_iff_ne_none.2 hc)
        rw [keys_specRow] at hm
        exact hd hm
      rw [n1, n2]

/-- **C173**: if all runs list their queries in the same order and have the same docs per query, then `sum`, `mnz` and
`wsum` with any weights return the same fused run after borda normalization as after rank normalization. -/
theorem C173_borda_norm_is_rank_norm (E : Env δ) (runs : List (Store κ δ ℝ)) (hn : 2 ≤ runs.length)
    (hw : ∀ s ∈ runs, Store.Wf s.data) (hq : Spec.SameQueries runs) (ho : Spec.SameQueryOrder runs)
    (hdocs : Spec.SameDocs runs) (hE : Spec.SchedulesCover E runs) :
    Spec.SameFused (fuse E runs (some "borda") "sum" none) (fuse E runs (some "rank") "sum" none) ∧
    Spec.SameFused (fuse E runs (some "borda") "mnz" none) (fuse E runs (some "rank") "mnz" none) ∧
    ∀ ws : List ℝ, ws.length = runs.length →
      Spec.SameFused (fuse E runs (some "borda") "wsum" (some [("weights", .nums ws)]))
        (fuse E runs (some "rank") "wsum" (some [("weights", .nums ws)])) := by
  obtain ⟨nr, hnr, hS⟩ := normed E runs hn hw hq hE (some "borda")
    (.inr ⟨"borda", List.mem_map.2 ⟨("borda", .borda), by decide +kernel, rfl⟩, rfl⟩)
  obtain ⟨nr', hnr', hS'⟩ := normStep E runs hn hw hq hE (some "rank") (some .rank)
    (.inr ⟨"rank", .rank, rfl, rfl, by decide +kernel, by decide⟩)
  have e0' := hS'.exact (by decide)
  obtain ⟨nr1, g1, hsc⟩ := borda_rank_scores E.I E.normScheds runs hn hw hq ho hdocs hE.norm
  have h' : Norm.bordaRuns E.I E.normScheds (runs.map (fun s => s.data)) = .ok nr := hnr
  rw [h'] at g1
  cases g1
  rw [← e0'] at hsc
  have hQ : ∀ q, (∃ run ∈ nr, q ∈ run.keys) ↔ ∃ run ∈ nr', q ∈ run.keys :=
    fun q => (hS.queries q).trans (hS'.queries q).symm
  have hl : nr.length = runs.length := by rw [hS.length, List.length_map]
  have hl' : nr'.length = runs.length := by rw [← hsc.length_eq, hl]
  refine ⟨?_, ?_, ?_⟩
  · obtain ⟨a, e1, b1⟩ := C49_comb_sum E.S E.sched nr hS.fusable hS.fits.main
    obtain ⟨b, e2, b2⟩ := C49_comb_sum E.S E.sched nr' hS'.fusable hS'.fits.main
    exact ⟨a, b, (fuse_named_none E runs hn hq _ "sum" .combSum (by decide +kernel) nr hnr).trans e1,
      (fuse_named_none E runs hn hq _ "sum" .combSum (by decide +kernel) nr' hnr').trans e2,
      sameFused_of nr nr' _ _ a b b1 b2 hQ hsc (fun q d => by rw [scores_congr hsc])⟩
  · obtain ⟨a, e1, b1⟩ := C49_comb_mnz E.S E.sched nr hS.fusable hS.fits.main
    obtain ⟨b, e2, b2⟩ := C49_comb_mnz E.S E.sched nr' hS'.fusable hS'.fits.main
    exact ⟨a, b, (fuse_named_none E runs hn hq _ "mnz" .combMnz (by decide +kernel) nr hnr).trans e1,
      (fuse_named_none E runs hn hq _ "mnz" .combMnz (by decide +kernel) nr' hnr').trans e2,
      sameFused_of nr nr' _ _ a b b1 b2 hQ hsc (fun q d => by rw [scores_congr hsc])⟩
  · intro ws hws
    obtain ⟨a, e1, b1⟩ := C49_wsum E.S E.sched ws nr hS.fusable (by rw [hl, hws]) hS.fits.main
    obtain ⟨b, e2, b2⟩ := C49_wsum E.S E.sched ws nr' hS'.fusable (by rw [hl', hws]) hS'.fits.main
    exact ⟨a, b, (fuse_named E runs hn hq _ "wsum" .wsum (by decide +kernel) _ nr hnr).trans e1,
      (fuse_named E runs hn hq _ "wsum" .wsum (by decide +kernel) _ nr' hnr').trans e2,
      sameFused_of nr nr' _ _ a b b1 b2 hQ hsc (fun q d => by rw [weighted_congr hsc])⟩

end

/-- the hypotheses are met by two runs that rank the same two docs in opposite orders -/
example : 2 ≤ [lowFirst, tenFirst].length ∧ (∀ s ∈ [lowFirst, tenFirst], Store.Wf s.data) ∧
    Spec.SameQueries [lowFirst, tenFirst] ∧ Spec.SameQueryOrder [lowFirst, tenFirst] ∧
    Spec.SameDocs [lowFirst, tenFirst] ∧ Spec.SchedulesCover oneEnv [lowFirst, tenFirst] ∧
    ([1 / 4, 3 / 4] : List ℝ).length = [lowFirst, tenFirst].length := by
  have h1 : ∀ s ∈ [lowFirst, tenFirst], ∃ a b : ℝ, s = ⟨[(1, [(10, a), (11, b)])], false⟩ := by
    intro s hs
    simp only [List.mem_cons, List.not_mem_nil, or_false] at hs
    rcases hs with rfl | rfl
    · exact ⟨3, 5, rfl⟩
    · exact ⟨5, 3, rfl⟩
  refine ⟨by decide, tenFirst_valid.wf, tenFirst_valid.sameQueries, ?_, twoDocs_same _ h1, tenFirst_valid.schedules, rfl⟩
  intro s hs s' hs'
  obtain ⟨a, b, rfl⟩ := h1 s hs
  obtain ⟨a', b', rfl⟩ := h1 s' hs'
  rfl

end Ranx
