import Verif.Props.FuseBuilt
import Verif.Props.BordaOrder

/-!
# C111: fusion and Python's hash randomization

Sets of document ids are iterated in an order that depends on the hash seed of the process (`PYTHONHASHSEED`), here
the arbitrary `E.I`. Does the fused run depend on it?
-/

set_option linter.unusedSectionVars false

namespace Ranx
open Dict Fuse
open _root_.Ranx.Norm (Results SetIter Kind normSwitch bordaRuns bordaNorm)
variable {κ δ : Type*}

/-- Specification: the same machine in another process: everything alike but the iteration order of sets. -/
def Spec.Reseeded (E E' : Env δ) : Prop := ∃ I, E' = { E with I := I }

section
variable [LinearOrder κ] [DecidableEq δ]

/-- the methods that iterate over a set of docs -/
def Spec.setMethods : List String := ["bordafuse", "w_bordafuse", "condorcet", "w_condorcet"]

theorem normalizeRuns_reseeded {E E' : Env δ} (hE : Spec.Reseeded E E') (runs : List (Store κ δ ℝ))
    (norm : Option String) (hb : norm ≠ some "borda") : normalizeRuns E' norm runs = normalizeRuns E norm runs := by
  obtain ⟨I, rfl⟩ := hE
  unfold normalizeRuns
  cases norm with
  | none => rfl
  | some n =>
    have : n ≠ "borda" := fun h => hb (by rw [h])
    simp only
    rw [if_pos this, if_pos this]
    rfl

theorem fusedTo_same {has : κ → Prop} {score : κ → δ → Option ℝ} {out out' : Store κ δ ℝ}
    (h : Spec.FusedTo has score out) (h' : Spec.FusedTo has score out') :
    (∀ q, q ∈ out.data.keys ↔ q ∈ out'.data.keys) ∧
      ∀ q d, (Spec.content out).read q d = (Spec.content out').read q d := by
  have hk : ∀ q, q ∈ out.data.keys ↔ q ∈ out'.data.keys := fun q => by rw [h.queries, h'.queries]
  refine ⟨hk, fun q d => ?_⟩
  by_cases hq : has q
  · rw [h.value q hq, h'.value q hq]
  · have h1 : q ∉ out.data.keys := fun hc => hq ((h.queries q).1 hc)
    have h2 : q ∉ out'.data.keys := fun hc => h1 ((hk q).2 hc)
    unfold Spec.Content.read Spec.content
    rw [get?_eq_none.2 h1, get?_eq_none.2 h2]

theorem namedNot_borda {norm : Option String} {k : Option Kind} (hk : Spec.NormNamed norm k) : norm ≠ some "borda" := by
  rintro rfl
  rcases hk with ⟨h, -⟩ | ⟨n, x, h, -, hnx, hb⟩
  · cases h
  · cases h
    have : ∀ p ∈ Spec.normNames, p.1 = "borda" → p.2 = .borda := by decide +kernel
    exact hb (this _ hnx rfl)

/-- **C111** (methods without sets): no difference at all, down to the order of tied docs and to the errors raised. -/
theorem C111_identical (E E' : Env δ) (hE : Spec.Reseeded E E') (runs : List (Store κ δ ℝ)) (norm : Option String)
    (hb : norm ≠ some "borda") (method : String) (hm : method ∉ Spec.setMethods) (params : Option Kwargs) :
    fuse E runs norm method params = fuse E' runs norm method params := by
  have hn := normalizeRuns_reseeded hE runs norm hb
  obtain ⟨I, rfl⟩ := hE
  unfold fuse
  rw [hn]
  have hcall : ∀ nr m, fusionSwitch method = .ok m →
      m.call { E with I := I } (params.getD []) nr = m.call (κ := κ) E (params.getD []) nr := by
    intro nr m hsw
    rcases fusionSwitch_cases method with ⟨m', hm', h⟩ | ⟨h, e⟩
    · rw [h] at hsw
      cases hsw
      have hno : ∀ p ∈ Spec.methodNames, p.1 ∉ Spec.setMethods →
          p.2 ≠ .bordafuse ∧ p.2 ≠ .weightedBordafuse ∧ p.2 ≠ .condorcet ∧ p.2 ≠ .weightedCondorcet := by
        decide +kernel
      obtain ⟨h1, h2, h3, h4⟩ := hno _ hm' hm
      unfold Method.call
      cases m <;> first | rfl | exact absurd rfl h1 | exact absurd rfl h2 | exact absurd rfl h3 | exact absurd rfl h4
    · rw [e] at hsw; cases hsw
  cases hsw : fusionSwitch method with
  | error e => rfl
  | ok m =>
    have := fun nr => hcall nr m hsw
    simp only [this]

/-- **C111** (bordafuse, weighted bordafuse): the same queries, docs and scores, for all runs and every normalization
but borda. -/
theorem C111_bordafuse (E E' : Env δ) (hE : Spec.Reseeded E E') (runs : List (Store κ δ ℝ)) (hn : 2 ≤ runs.length)
    (hw : ∀ s ∈ runs, Store.Wf s.data) (hq : Spec.SameQueries runs) (hs : Spec.SchedulesCover E runs)
    (norm : Option String) (k : Option Kind) (hk : Spec.NormNamed norm k) :
    (∃ out out', fuse E runs norm "bordafuse" (some []) = .ok out ∧
      fuse E' runs norm "bordafuse" (some []) = .ok out' ∧
      (∀ q, q ∈ out.data.keys ↔ q ∈ out'.data.keys) ∧
      ∀ q d, (Spec.content out).read q d = (Spec.content out').read q d) ∧
    ∀ ws : List ℝ, runs.length ≤ ws.length → ∃ out out',
      fuse E runs norm "w_bordafuse" (some [("weights", .nums ws)]) = .ok out ∧
      fuse E' runs norm "w_bordafuse" (some [("weights", .nums ws)]) = .ok out' ∧
      (∀ q, q ∈ out.data.keys ↔ q ∈ out'.data.keys) ∧
      ∀ q d, (Spec.content out).read q d = (Spec.content out').read q d := by
  obtain ⟨nr, hnr, hS⟩ := normStep E runs hn hw hq hs norm k hk
  have hnr' : normalizeRuns E' norm runs = .ok nr := by
    rw [normalizeRuns_reseeded hE runs norm (namedNot_borda hk)]; exact hnr
  obtain ⟨I, rfl⟩ := hE
  have hf := hS.fusable
  have hfit := hS.fits
  have hlen : nr.length = runs.length := by rw [show nr.length = _ from hS.length, List.length_map]
  constructor
  · obtain ⟨out, h1, h2⟩ := C51_bordafuse_any_order E.S E.sched E.scheds E.I _ hf hfit.main hfit.rescore
    obtain ⟨out', h1', h2'⟩ := C51_bordafuse_any_order E.S E.sched E.scheds I _ hf hfit.main hfit.rescore
    refine ⟨out, out', ?_, ?_, fusedTo_same h2 h2'⟩
    · rw [fuse_named E runs hn hq norm "bordafuse" .bordafuse (by decide +kernel) [] _ hnr]
      exact h1
    · rw [fuse_named _ runs hn hq norm "bordafuse" .bordafuse (by decide +kernel) [] _ hnr']
      exact h1'
  · intro ws hws
    obtain ⟨out, h1, h2⟩ := C51_weighted_bordafuse_any_order E.S E.sched E.scheds E.I ws _ hf
      (by rw [hlen]; exact hws) hfit.main hfit.rescore
    obtain ⟨out', h1', h2'⟩ := C51_weighted_bordafuse_any_order E.S E.sched E.scheds I ws _ hf
      (by rw [hlen]; exact hws) hfit.main hfit.rescore
    refine ⟨out, out', ?_, ?_, fusedTo_same h2 h2'⟩
    · rw [fuse_named E runs hn hq norm "w_bordafuse" .weightedBordafuse (by decide +kernel) _ _ hnr]
      exact h1
    · rw [fuse_named _ runs hn hq norm "w_bordafuse" .weightedBordafuse (by decide +kernel) _ _ hnr']
      exact h1'

/-- a rule of a score method determines the fused score -/
theorem scoreRule_unique {runs A : List (Dict κ (Results δ ℝ))} {name : String} {params : Kwargs}
    {R : List (Dict κ (Results δ ℝ)) → κ → δ → ℝ → Prop} (h : Spec.ScoreRule runs name params R) (q : κ) (d : δ)
    (hr : ∃ s ∈ Spec.scores A q d, 0 ≤ s ∧ s ≤ 1) (v v' : ℝ) (hv : R A q d v) (hv' : R A q d v') : v = v' := by
  by_cases hw : name ∈ ["wsum", "wmnz", "mixed"]
  · cases h with
    | wsum ws h => rw [hv, hv']
    | wmnz ws h => rw [hv, hv']
    | mixed ws h => rw [hv, hv']
    | _ => simp at hw
  · exact scoreRule_symm h hw q d (List.Perm.refl _) hr v v' hv hv'

/-- **C111** (borda normalization followed by a method on scores): the same queries, docs and scores, for runs as
built by the constructor or sorted. -/
theorem C111_borda_norm_scores (E E' : Env δ) (hE : Spec.Reseeded E E') (runs : List (Store κ δ ℝ))
    (hn : 2 ≤ runs.length) (hb : ∀ s ∈ runs, Spec.Built s) (hq : Spec.SameQueries runs)
    (hs : Spec.SchedulesCover E runs) (name : String) (params : Kwargs)
    (R : List (Dict κ (Results δ ℝ)) → κ → δ → ℝ → Prop)
    (hR : Spec.ScoreRule (runs.map (fun s => s.data)) name params R) :
    ∃ out out', fuse E runs (some "borda") name (some params) = .ok out ∧
      fuse E' runs (some "borda") name (some params) = .ok out' ∧
      (∀ q, q ∈ out.data.keys ↔ q ∈ out'.data.keys) ∧
      ∀ q d, (Spec.content out).read q d = (Spec.content out').read q d := by
  obtain ⟨I, rfl⟩ := hE
  have hs' : Spec.SchedulesCover { E with I := I } runs := ⟨hs.fusion, hs.rescore, hs.norm⟩
  obtain ⟨out, val, h1, h2, h3⟩ := C110_borda_norm E runs hn hb hq hs name params R hR
  obtain ⟨out', val', h1', h2', h3'⟩ := C110_borda_norm _ runs hn hb hq hs' name params R hR
  refine ⟨out, out', h1, h1', fun q => by rw [h2.queries, h2'.queries], fun q d => ?_⟩
  by_cases hi : Spec.InSome (runs.map (fun s => s.data)) q d
  · rw [h2.value q d hi, h2'.value q d hi]
    congr 1
    refine scoreRule_unique hR q d (borda_score_range ?_ hi) _ _ (h3 q d hi) (h3' q d hi)
    intro run hr
    obtain ⟨s, hs, rfl⟩ := List.mem_map.1 hr
    exact built_wf hb s hs
  · rw [not_not.1 (mt (h2.docs q d).1 hi), not_not.1 (mt (h2'.docs q d).1 hi)]

/-- **C111 fails for borda normalization followed by rrf**: the fused score of a doc is determined by its place in the
iteration order of the set of the query's docs, and by nothing else: the normalized runs list their docs in that
order, which rrf takes for their ranking. -/
theorem C111_borda_rrf_reads_set_order (E : Env δ) (runs : List (Store κ δ ℝ)) (hn : 2 ≤ runs.length)
    (hb : ∀ s ∈ runs, Spec.Built s) (hq : Spec.SameQueries runs) (hs : Spec.SchedulesCover E runs) :
    ∃ out, fuse E runs (some "borda") "rrf" (some []) = .ok out ∧
      Spec.FusedBy (runs.map (fun s => s.data)) (fun q d => (runs.length : ℝ) * (1 / (60 +
        ((E.I.run (runs.flatMap (fun s => ((s.data.get? q).getD []).keys))).idxOf d : ℝ) + 1))) out := by
  have hw := built_wf hb
  have ho := built_order hb hq
  have hf := fusable_of runs hn hw hq
  obtain ⟨nr, hnr⟩ := normalize_known E runs hn hw hq "borda" (by decide +kernel)
  have hL := normalize_local E (some "borda") runs hf hs.norm (fun _ => ho) nr hnr
  have hfn := hL.fusable hf
  have hlen : nr.length = runs.length := by rw [← hL.keys.length_eq, List.length_map]
  have hposn : ∀ (l : List (Dict κ (Results δ ℝ))) q d, Spec.positions l q d =
      (resultsFor l q).filterMap (fun r => r.keys.idxOf? d) := by
    intro l q d
    unfold Spec.positions resultsFor
    rw [List.filterMap_map]
    apply List.filterMap_congr
    intro run _
    unfold Spec.position?
    simp only [Function.comp_apply]
    cases run.get? q with
    | none => rfl
    | some r => rfl
  have hfit := hL.fits E (fits_of E runs hs (by intro h; subst h; simp at hn))
  obtain ⟨out, h1, h2⟩ := C51_rrf E.S E.sched E.scheds 60 nr (ranksClear_of_nonneg (by norm_num) nr) hfn hfit.main hfit.rescore
  have hpool : ∀ q, (resultsFor (runs.map (fun s => s.data)) q).flatMap Dict.keys =
      runs.flatMap (fun s => ((s.data.get? q).getD []).keys) := by
    intro q
    unfold resultsFor
    rw [List.map_map, List.flatMap_map]
    rfl
  have hres : ∀ q, (∃ run ∈ runs.map (fun s => s.data), q ∈ run.keys) → resultsFor nr q =
      (resultsFor (runs.map (fun s => s.data)) q).map (fun r =>
        bordaNorm r (E.I.run (runs.flatMap (fun s => ((s.data.get? q).getD []).keys)))) := by
    intro q hq
    rw [hL.get q hq]
    unfold normQuery
    simp only
    rw [if_neg (by simp), hpool]
  have hI : ∀ q d, Spec.InSome nr q d ↔ Spec.InSome (runs.map (fun s => s.data)) q d := by
    intro q d
    by_cases hq : ∃ run ∈ runs.map (fun s => s.data), q ∈ run.keys
    · rw [← mem_flatMap_resultsFor, ← mem_flatMap_resultsFor, hres q hq, List.mem_flatMap]
      constructor
      · rintro ⟨r, hr, hd⟩
        obtain ⟨r0, hr0, rfl⟩ := List.mem_map.1 hr
        rw [bordaNorm_keys _ _ (E.I.nodup _), E.I.mem, ← hpool] at hd
        exact hd
      · intro hd
        obtain ⟨r0, hr0, -⟩ := List.mem_flatMap.1 hd
        refine ⟨_, List.mem_map.2 ⟨r0, hr0, rfl⟩, ?_⟩
        rw [bordaNorm_keys _ _ (E.I.nodup _), E.I.mem, ← hpool]
        exact hd
    · constructor
      · rintro ⟨r, hr, v, hg, hd⟩
        exact absurd ((hL.queries q).1 ⟨r, hr, get?_isSome.1 (by rw [hg]; rfl)⟩) hq
      · rintro ⟨r, hr, v, hg, hd⟩
        exact absurd ⟨r, hr, get?_isSome.1 (by rw [hg]; rfl)⟩ hq
  refine ⟨out, ?_, FusedBy_congr (FusedBy_transfer h2 hL.queries hI) ?_⟩
  · rw [fuse_named E runs hn hq (some "borda") "rrf" .rrf (by decide +kernel) [] _ hnr]
    exact h1
  · intro q d hd
    have hqq : ∃ run ∈ runs.map (fun s => s.data), q ∈ run.keys := by
      obtain ⟨r, hr, v, hg, -⟩ := hd
      exact ⟨r, hr, get?_isSome.1 (by rw [hg]; rfl)⟩
    have hm : d ∈ E.I.run (runs.flatMap (fun s => ((s.data.get? q).getD []).keys)) := by
      rw [E.I.mem, ← hpool]
      exact (mem_flatMap_resultsFor _ _ _).2 hd
    rw [hposn, hres q hqq, List.filterMap_map]
    have hidx : ∀ r : Results δ ℝ, ((fun r : Results δ ℝ => r.keys.idxOf? d) ∘ fun r =>
        bordaNorm r (E.I.run (runs.flatMap (fun s => ((s.data.get? q).getD []).keys)))) r =
        some ((E.I.run (runs.flatMap (fun s => ((s.data.get? q).getD []).keys))).idxOf d) := by
      intro r
      simp only [Function.comp_apply]
      rw [bordaNorm_keys _ _ (E.I.nodup _)]
      rw [idxOf?_eq_some_iff (E.I.nodup _), List.getElem?_eq_getElem (List.idxOf_lt_length_of_mem hm),
        List.getElem_idxOf]
    rw [List.filterMap_congr (fun r _ => hidx r)]
    have hconst : ∀ (l : List (Results δ ℝ)) (i : Nat),
        ((l.filterMap (fun _ => some i)).map (fun (i : Nat) => (1 : ℝ) / (60 + (i : ℝ) + 1))).sum =
          (l.length : ℝ) * (1 / (60 + (i : ℝ) + 1)) := by
      intro l i
      induction l with
      | nil => simp
      | cons a t ih =>
        simp only [List.filterMap_cons]
        rw [List.map_cons, List.sum_cons, ih, List.length_cons]
        push_cast
        ring
    rw [hconst]
    unfold resultsFor
    rw [List.length_map, List.length_map]

/-- two condorcet fusions of the same runs agree on a query whose majorities are consistent -/
theorem condorcetFused_same {runs : List (Dict κ (Results δ ℝ))} {beats : κ → δ → δ → Prop}
    {out out' : Store κ δ ℝ} (h : Spec.CondorcetFused runs beats out) (h' : Spec.CondorcetFused runs beats out') (q : κ)
    (hq : ∃ run ∈ runs, q ∈ run.keys) (hasymm : ∀ a b, beats q a b → ¬ beats q b a)
    (htot : ∀ a b, Spec.InSome runs q a → Spec.InSome runs q b → a ≠ b → beats q a b ∨ beats q b a)
    (htrans : ∀ a b c, beats q a b → beats q b c → beats q a c) : out.data.get? q = out'.data.get? q := by
  have key : ∀ L : List δ, L.Nodup → (∀ d, d ∈ L ↔ Spec.InSome runs q d) →
      (∀ (i : Nat) (a b : δ), L[i]? = some a → L[i + 1]? = some b → ¬ beats q b a) → L.Pairwise (beats q) := by
    intro L hnd hmem hadj
    haveI : IsTrans δ (beats q) := ⟨htrans⟩
    refine List.isChain_iff_pairwise.1 (List.isChain_iff_getElem.2 ?_)
    intro i hi
    have h1 := List.getElem?_eq_getElem (l := L) (i := i) (by omega)
    have h2 := List.getElem?_eq_getElem hi
    have hne : L[i] ≠ L[i + 1] := by
      intro he
      have := (List.getElem_inj hnd).1 he
      omega
    exact (htot _ _ ((hmem _).1 (List.getElem_mem _)) ((hmem _).1 (List.getElem_mem _)) hne).resolve_right
      (hadj i _ _ h1 h2)
  obtain ⟨L, e, hnd, hmem, hadj⟩ := h.ranking q hq
  obtain ⟨L', e', hnd', hmem', hadj'⟩ := h'.ranking q hq
  have hp : L.Perm L' := (List.perm_ext_iff_of_nodup hnd hnd').2 (fun d => (hmem d).trans (hmem' d).symm)
  have : L = L' := hp.eq_of_pairwise (fun a b _ _ hab hba => absurd hba (hasymm a b hab)) (key L hnd hmem hadj)
    (key L' hnd' hmem' hadj')
  rw [e, e', this]

/-- **C111** (condorcet; partial: consistent majorities, i.e. of every two docs of the query one beats the other, and
beating is transitive): the two fused runs have the same docs, in the same order, with the same scores, for the query,
whatever the normalization (of those that keep the order of the docs). -/
theorem C111_condorcet_partial (E E' : Env δ) (hE : Spec.Reseeded E E') (runs : List (Store κ δ ℝ))
    (hn : 2 ≤ runs.length) (hw : ∀ s ∈ runs, Store.Wf s.data) (hq : Spec.SameQueries runs)
    (hs : Spec.SchedulesCover E runs) (norm : Option String) (k : Option Kind) (hk : Spec.NormNamed norm k)
    (hki : k ≠ some .minMaxInverted) (hlen : ∀ s ∈ runs, ∀ p ∈ s.data, p.2.length ≤ 1000000) :
    ∃ out out', fuse E runs norm "condorcet" (some []) = .ok out ∧
      fuse E' runs norm "condorcet" (some []) = .ok out' ∧
      ∀ q, (∃ run ∈ runs.map (fun s => s.data), q ∈ run.keys) →
        (∀ a b, Spec.InSome (runs.map (fun s => s.data)) q a → Spec.InSome (runs.map (fun s => s.data)) q b → a ≠ b →
          Spec.Beats (runs.map (fun s => s.data)) q a b ∨ Spec.Beats (runs.map (fun s => s.data)) q b a) →
        (∀ a b c, Spec.Beats (runs.map (fun s => s.data)) q a b → Spec.Beats (runs.map (fun s => s.data)) q b c →
          Spec.Beats (runs.map (fun s => s.data)) q a c) →
        out.data.get? q = out'.data.get? q := by
  obtain ⟨I, rfl⟩ := hE
  obtain ⟨⟨out, h1, h2⟩, -⟩ := C89_condorcet E runs hn hw hq hs norm k hk hki hlen
  obtain ⟨⟨out', h1', h2'⟩, -⟩ := C89_condorcet { E with I := I } runs hn hw hq ⟨hs.fusion, hs.rescore, hs.norm⟩ norm k
    hk hki hlen
  refine ⟨out, out', h1, h1', fun q hq htot htrans => condorcetFused_same h2 h2' q hq ?_ htot htrans⟩
  intro a b hab hba
  have := votes_add_le (runs.map (fun s => s.data)) q a b
  unfold Spec.Beats at hab hba
  omega
end

/-! ### the refutations -/

/-- sets iterated the other way round -/
def reverseIter {δ : Type*} [DecidableEq δ] : SetIter δ :=
  ⟨fun l => l.dedup.reverse, fun l => List.nodup_reverse.2 (List.nodup_dedup l), fun _ _ => by
    rw [List.mem_reverse, List.mem_dedup]⟩

/-- two runs, both with doc 10 before doc 11 -/
def agreeRun : Store Nat Nat ℝ := ⟨[(1, [(10, 5), (11, 3)])], true⟩

theorem agreeRun_built : Spec.Built agreeRun := by
  have h : Store.Wf [(1, [(10, (5 : ℝ)), (11, 3)])] := ⟨by unfold NodupKeys; decide, by unfold NodupKeys; simp⟩
  refine .ofDict (.stable ℝ) [(1, [(10, 5), (11, 3)])] h agreeRun ?_
  rw [Store.ofDict_eq _ _ h, if_neg (by decide)]
  have hk : sortDictByKey [(1, [(10, (5 : ℝ)), (11, 3)])] = [(1, [(10, 5), (11, 3)])] := rfl
  have hd : NodupKeys [(10, (5 : ℝ)), (11, 3)] := by unfold NodupKeys; decide
  have hv : sortDictByValue (.stable ℝ) [(10, (5 : ℝ)), (11, 3)] = [(10, 5), (11, 3)] := by
    have pp := sortDictByValue_perm (.stable ℝ) hd
    refine pp.eq_of_pairwise ?_ (sortDictByValue_sorted (.stable ℝ) hd) (by norm_num)
    intro a b ha hb hab hba
    have nd : ([(10, (5 : ℝ)), (11, 3)].map Prod.snd).Nodup := by norm_num
    exact List.inj_on_of_nodup_map nd (pp.mem_iff.1 ha) hb (le_antisymm hba hab)
  unfold sortAll
  rw [hk, sortDictOfDictByValue_eq _ h.1]
  simp only [List.map_cons, List.map_nil, hv]
  rfl

/-- **C111 refuted**: two runs that both rank doc 10 before doc 11. After `norm="borda"` method "rrf" ranks doc 10
first for one iteration order of the set and doc 11 first for the other. -/
theorem C111_refuted :
    ∃ out out', fuse oneEnv [agreeRun, agreeRun] (some "borda") "rrf" (some []) = .ok out ∧
      fuse { oneEnv with I := reverseIter } [agreeRun, agreeRun] (some "borda") "rrf" (some []) = .ok out' ∧
      (Spec.content out).read 1 10 = some (2 / 61) ∧ (Spec.content out).read 1 11 = some (2 / 62) ∧
      (Spec.content out').read 1 10 = some (2 / 62) ∧ (Spec.content out').read 1 11 = some (2 / 61) := by
  have hb : ∀ s ∈ [agreeRun, agreeRun], Spec.Built s := by
    intro s hs
    simp only [List.mem_cons, List.not_mem_nil, or_false, or_self] at hs
    rw [hs]; exact agreeRun_built
  have hc := oneEnv_cover agreeRun rfl
  obtain ⟨out, h1, h2⟩ := C111_borda_rrf_reads_set_order oneEnv [agreeRun, agreeRun] (by decide) hb
    (sameQueries_pair _) hc
  obtain ⟨out', h1', h2'⟩ := C111_borda_rrf_reads_set_order { oneEnv with I := reverseIter } [agreeRun, agreeRun]
    (by decide) hb (sameQueries_pair _) ⟨hc.fusion, hc.rescore, hc.norm⟩
  have i10 : Spec.InSome [agreeRun.data, agreeRun.data] 1 10 :=
    ⟨_, List.mem_cons_self, [(10, 5), (11, 3)], rfl, by decide⟩
  have i11 : Spec.InSome [agreeRun.data, agreeRun.data] 1 11 :=
    ⟨_, List.mem_cons_self, [(10, 5), (11, 3)], rfl, by decide⟩
  have p1 : oneEnv.I.run ([agreeRun, agreeRun].flatMap (fun s => Dict.keys ((Dict.get? s.data 1).getD []))) = [10, 11] :=
    rfl
  have p2 : reverseIter.run ([agreeRun, agreeRun].flatMap (fun s => Dict.keys ((Dict.get? s.data 1).getD []))) = [11, 10] :=
    rfl
  refine ⟨out, out', h1, h1', ?_, ?_, ?_, ?_⟩
  · rw [h2.value 1 10 i10, p1]; norm_num
  · rw [h2.value 1 11 i11, p1, show List.idxOf 11 [10, 11] = 1 from rfl]; norm_num
  · rw [h2'.value 1 10 i10]; simp only; rw [p2, show List.idxOf 10 [11, 10] = 1 from rfl]; norm_num
  · rw [h2'.value 1 11 i11]; simp only; rw [p2]; norm_num

/-- **C111 refuted** for condorcet: two runs that disagree on the order of docs 10 and 11. With CPython's sort doc 10
wins for one iteration order of the candidate set, doc 11 for the other. -/
theorem C111_condorcet_refuted :
    ∃ runs : List (Dict Nat (Results Nat ℚ)), Spec.Fusable runs ∧
      readOut (condorcet .python dedupIter runs) 1 10 = some 2 ∧
      readOut (condorcet .python dedupIter runs) 1 11 = some 1 ∧
      readOut (condorcet .python reverseIter runs) 1 10 = some 1 ∧
      readOut (condorcet .python reverseIter runs) 1 11 = some 2 :=
  ⟨[[(1, [(10, 2), (11, 1)])], [(1, [(11, 2), (10, 1)])]],
    ⟨by decide, by unfold NodupKeys; decide, by unfold NodupKeys; decide, by decide⟩,
    by decide +kernel, by decide +kernel, by decide +kernel, by decide +kernel⟩

end Ranx
