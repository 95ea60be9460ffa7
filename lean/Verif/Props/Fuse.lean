import Verif.Lemmas.FuseNorm
import Verif.Props.Fusion

/-!
# Properties C48, C61, C62: `fuse`
-/

set_option linter.unusedSectionVars false

namespace Ranx
open Dict Fuse
open _root_.Ranx.Norm (Results SetIter Kind normSwitch)
variable {κ δ : Type*} [LinearOrder κ] [DecidableEq δ]

/-- the parallel loops of all phases run every iteration exactly once, in some order -/
structure Spec.SchedulesCover (E : Env δ) (runs : List (Store κ δ ℝ)) : Prop where
  fusion : ∀ s, runs[0]? = some s → Schedule s.data.length E.sched
  rescore : ∀ (j : Nat) s, runs[j]? = some s → Schedule s.data.length (E.scheds j)
  norm : ∀ (j : Nat) s, runs[j]? = some s → Schedule s.data.length (E.normScheds j)

/-- all runs list their queries in the same order -/
def Spec.SameQueryOrder (runs : List (Store κ δ ℝ)) : Prop :=
  ∀ s ∈ runs, ∀ s' ∈ runs, s.data.keys = s'.data.keys

/-- all runs have the same queries -/
def Spec.SameQueries (runs : List (Store κ δ ℝ)) : Prop :=
  ∀ s ∈ runs, ∀ s' ∈ runs, ∀ q, q ∈ s.data.keys → q ∈ s'.data.keys

/-- the choice of normalization or method in which candidates are paired with queries by position -/
def Spec.UsesBorda (norm : Option String) (method : String) : Prop :=
  norm = some "borda" ∨ method = "bordafuse" ∨ method = "w_bordafuse"

/-- the accepted normalization names -/
def Spec.normNames : List (String × Kind) :=
  [("borda", .borda), ("max", .max), ("min_max", .minMax), ("min-max", .minMax),
   ("min_max_inverted", .minMaxInverted), ("min-max-inverted", .minMaxInverted), ("rank", .rank),
   ("sum", .sum), ("zmuv", .zmuv)]

/-- the accepted method names -/
def Spec.methodNames : List (String × Method) :=
  [("bayesfuse", .bayesfuse), ("bordafuse", .bordafuse), ("anz", .combAnz), ("gmnz", .combGmnz),
   ("max", .combMax), ("med", .combMed), ("min", .combMin), ("mnz", .combMnz), ("sum", .combSum),
   ("condorcet", .condorcet), ("isr", .isr), ("log_isr", .logIsr), ("logn_isr", .lognIsr),
   ("mapfuse", .mapfuse), ("mixed", .mixed), ("posfuse", .posfuse), ("probfuse", .probfuse),
   ("rbc", .rbc), ("rrf", .rrf), ("segfuse", .segfuse), ("slidefuse", .slidefuse),
   ("w_bordafuse", .weightedBordafuse), ("w_condorcet", .weightedCondorcet), ("wmnz", .wmnz),
   ("wsum", .wsum)]

/-! ### the switches -/

theorem fusionSwitch_known : ∀ p ∈ Spec.methodNames, fusionSwitch p.1 = .ok p.2 := by
  unfold Spec.methodNames
  simp only [List.forall_mem_cons]
  refine ⟨?_, ?_, ?_, ?_, ?_, ?_, ?_, ?_, ?_, ?_, ?_, ?_, ?_, ?_, ?_, ?_, ?_, ?_, ?_, ?_, ?_, ?_, ?_,
    ?_, ?_, by simp⟩ <;> decide +kernel

theorem fusionSwitch_cases (n : String) :
    (∃ m, (n, m) ∈ Spec.methodNames ∧ fusionSwitch n = .ok m) ∨
      (n ∉ Spec.methodNames.map Prod.fst ∧ fusionSwitch n = .error .valueError) := by
  by_cases h : n ∈ Spec.methodNames.map Prod.fst
  · obtain ⟨p, hp, rfl⟩ := List.mem_map.1 h
    exact Or.inl ⟨p.2, hp, fusionSwitch_known p hp⟩
  · refine Or.inr ⟨h, ?_⟩
    unfold Spec.methodNames at h
    simp only [List.map_cons, List.map_nil, List.mem_cons, List.not_mem_nil, or_false, not_or] at h
    obtain ⟨h1, h2, h3, h4, h5, h6, h7, h8, h9, h10, h11, h12, h13, h14, h15, h16, h17, h18, h19, h20,
      h21, h22, h23, h24, h25⟩ := h
    unfold fusionSwitch
    rw [if_neg h1, if_neg h2, if_neg h3, if_neg h4, if_neg h5, if_neg h6, if_neg h7, if_neg h8, if_neg h9,
      if_neg h10, if_neg h11, if_neg h12, if_neg h13, if_neg h14, if_neg h15, if_neg h16, if_neg h17,
      if_neg h18, if_neg h19, if_neg h20, if_neg h21, if_neg h22, if_neg h23, if_neg h24, if_neg h25]

theorem normSwitch_cases (n : String) :
    (∃ k, (n, k) ∈ Spec.normNames ∧ normSwitch n = .ok k) ∨
      (n ∉ Spec.normNames.map Prod.fst ∧ normSwitch n = .error .valueError) := by
  by_cases h : n ∈ Spec.normNames.map Prod.fst
  · obtain ⟨p, hp, rfl⟩ := List.mem_map.1 h
    refine Or.inl ⟨p.2, hp, ?_⟩
    have : ∀ p ∈ Spec.normNames, normSwitch p.1 = .ok p.2 := by
      unfold Spec.normNames
      simp only [List.forall_mem_cons]
      refine ⟨?_, ?_, ?_, ?_, ?_, ?_, ?_, ?_, ?_, by simp⟩ <;> decide +kernel
    exact this p hp
  · refine Or.inr ⟨h, ?_⟩
    unfold Spec.normNames at h
    simp only [List.map_cons, List.map_nil, List.mem_cons, List.not_mem_nil, or_false, not_or] at h
    obtain ⟨h1, h2, h3, h4, h5, h6, h7, h8, h9⟩ := h
    unfold normSwitch
    rw [if_neg h1, if_neg h2, if_neg (not_or.2 ⟨h3, h4⟩), if_neg (not_or.2 ⟨h5, h6⟩), if_neg h7, if_neg h8,
      if_neg h9]

theorem borda_of_switch {n : String} {m : Method} (h : fusionSwitch n = .ok m) (hb : m.borda = true) :
    n = "bordafuse" ∨ n = "w_bordafuse" := by
  rcases fusionSwitch_cases n with ⟨m', hm, h'⟩ | ⟨_, h'⟩
  · rw [h] at h'
    cases h'
    have : ∀ p ∈ Spec.methodNames, p.2.borda = true → p.1 = "bordafuse" ∨ p.1 = "w_bordafuse" := by
      decide +kernel
    exact this _ hm hb
  · rw [h] at h'; simp at h'

/-! ### preconditions -/

theorem sameKeys_iff (a b : Store κ δ ℝ) : sameKeys a b = true ↔ ∀ q, q ∈ a.data.keys ↔ q ∈ b.data.keys := by
  unfold sameKeys
  rw [Bool.and_eq_true, List.all_eq_true, List.all_eq_true]
  constructor
  · rintro ⟨h1, h2⟩ q
    exact ⟨fun h => contains_iff.1 (h1 q h), fun h => contains_iff.1 (h2 q h)⟩
  · intro h
    exact ⟨fun q hq => contains_iff.2 ((h q).1 hq), fun q hq => contains_iff.2 ((h q).2 hq)⟩

theorem pairwiseSameKeys_iff (runs : List (Store κ δ ℝ)) :
    pairwiseSameKeys runs = true ↔ Spec.SameQueries runs := by
  unfold Spec.SameQueries
  induction runs with
  | nil => simp [pairwiseSameKeys]
  | cons a t ih =>
    unfold pairwiseSameKeys
    rw [Bool.and_eq_true, ih, List.all_eq_true]
    constructor
    · rintro ⟨h1, h2⟩ s hs s' hs' q hq
      rcases List.mem_cons.1 hs with rfl | hs <;> rcases List.mem_cons.1 hs' with rfl | hs'
      · exact hq
      · exact ((sameKeys_iff _ _).1 (h1 s' hs') q).1 hq
      · exact ((sameKeys_iff _ _).1 (h1 s (by assumption)) q).2 hq
      · exact h2 s hs s' hs' q hq
    · intro h
      refine ⟨fun b hb => (sameKeys_iff _ _).2 (fun q => ⟨?_, ?_⟩), ?_⟩
      · exact h a List.mem_cons_self b (List.mem_cons_of_mem _ hb) q
      · exact h b (List.mem_cons_of_mem _ hb) a List.mem_cons_self q
      · exact fun s hs s' hs' => h s (List.mem_cons_of_mem _ hs) s' (List.mem_cons_of_mem _ hs')

theorem fusable_of (runs : List (Store κ δ ℝ)) (hn : 2 ≤ runs.length) (hw : ∀ s ∈ runs, Store.Wf s.data)
    (hq : Spec.SameQueries runs) : Spec.Fusable (runs.map (fun s => s.data)) := by
  refine ⟨?_, ?_, ?_, ?_⟩
  · intro h
    rw [List.map_eq_nil_iff] at h
    subst h; simp at hn
  · intro run hr
    obtain ⟨s, hs, rfl⟩ := List.mem_map.1 hr
    exact (hw s hs).1
  · intro run hr
    obtain ⟨s, hs, rfl⟩ := List.mem_map.1 hr
    exact (hw s hs).2
  · intro run hr run' hr'
    obtain ⟨s, hs, rfl⟩ := List.mem_map.1 hr
    obtain ⟨s', hs', rfl⟩ := List.mem_map.1 hr'
    exact hq s hs s' hs'

theorem fits_of (E : Env δ) (runs : List (Store κ δ ℝ)) (hE : Spec.SchedulesCover E runs) (hne : runs ≠ []) :
    E.Fits (runs.map (fun s => s.data)) := by
  constructor
  · cases runs with
    | nil => exact absurd rfl hne
    | cons s t => exact hE.fusion s rfl
  · intro j run hj
    rw [List.getElem?_map] at hj
    cases hr : runs[j]? with
    | none => rw [hr] at hj; simp at hj
    | some s =>
      rw [hr] at hj
      simp only [Option.map_some, Option.some.injEq] at hj
      subst hj
      exact hE.rescore j s hr

/-- what a successful call went through -/
theorem fuse_ok {E : Env δ} {runs : List (Store κ δ ℝ)} {norm : Option String} {method : String}
    {params : Option Kwargs} {out : Store κ δ ℝ} (h : fuse E runs norm method params = .ok out) :
    2 ≤ runs.length ∧ Spec.SameQueries runs ∧ ∃ nr m, normalizeRuns E norm runs = .ok nr ∧
      fusionSwitch method = .ok m ∧ m.call E (params.getD []) nr = .ok out := by
  unfold fuse at h
  by_cases hl : runs.length ≤ 1
  · rw [if_pos hl] at h; simp at h
  rw [if_neg hl] at h
  by_cases hp : pairwiseSameKeys runs = true
  · rw [if_pos hp] at h
    refine ⟨by omega, (pairwiseSameKeys_iff runs).1 hp, ?_⟩
    cases hn : normalizeRuns E norm runs with
    | error e => rw [hn] at h; simp at h
    | ok nr =>
      rw [hn] at h
      simp only at h
      cases hm : fusionSwitch method with
      | error e => rw [hm] at h; simp at h
      | ok m =>
        rw [hm] at h
        exact ⟨nr, m, rfl, rfl, h⟩
  · rw [if_neg hp] at h; simp at h

/-- the whole of `fuse` works query by query -/
theorem fuse_local (E : Env δ) (runs : List (Store κ δ ℝ)) (hw : ∀ s ∈ runs, Store.Wf s.data)
    (norm : Option String) (method : String) (params : Option Kwargs) (hE : Spec.SchedulesCover E runs)
    (ha : Spec.UsesBorda norm method → Spec.SameQueryOrder runs) (out : Store κ δ ℝ)
    (h : fuse E runs norm method params = .ok out) :
    ∃ m, fusionSwitch method = .ok m ∧ Localized (runs.map (fun s => s.data)) out
      (fun rs => perQuery E m (params.getD []) (normQuery E norm rs)) := by
  obtain ⟨hl, hsq, nr, m, h1, h2, h3⟩ := fuse_ok h
  have hf := fusable_of runs hl hw hsq
  have hE' := fits_of E runs hE (by intro hn; subst hn; simp at hl)
  have hN := normalize_local E norm runs hf hE.norm (fun hb => ha (Or.inl hb)) nr h1
  have hL := call_local E m (params.getD []) nr (hN.fusable hf) (hN.fits E hE') (fun hb => hN.aligned (by
    intro a hA b hB
    obtain ⟨s, hs, rfl⟩ := List.mem_map.1 hA
    obtain ⟨s', hs', rfl⟩ := List.mem_map.1 hB
    exact ha (Or.inr (borda_of_switch h2 hb)) s hs s' hs')) out h3
  refine ⟨m, h2, ⟨fun q => (hL.queries q).trans (hN.queries q), fun q hq => ?_⟩⟩
  obtain ⟨r, hr1, hr2⟩ := hL.get q ((hN.queries q).2 hq)
  rw [hN.get q hq] at hr1
  exact ⟨r, hr1, hr2⟩

/-- **C48** (partial: for borda normalization and the two bordafuse methods the runs must list their
queries in the same order; `C48_bordafuse_misaligned` refutes the claim otherwise): whenever `fuse`
succeeds, for every normalization, method, schedule, sorting routine and set iteration order, the result has
exactly the queries of the runs, and for each query exactly the docs that some run has for it. -/
theorem C48_fuse_union_partial (E : Env δ) (runs : List (Store κ δ ℝ)) (hw : ∀ s ∈ runs, Store.Wf s.data)
    (norm : Option String) (method : String) (params : Option Kwargs) (hE : Spec.SchedulesCover E runs)
    (ha : Spec.UsesBorda norm method → Spec.SameQueryOrder runs) (out : Store κ δ ℝ)
    (h : fuse E runs norm method params = .ok out) :
    (∀ q, q ∈ out.data.keys ↔ ∃ s ∈ runs, q ∈ s.data.keys) ∧
    ∀ q d, (Spec.content out).read q d ≠ none ↔ ∃ s ∈ runs, (Spec.content s).read q d ≠ none := by
  obtain ⟨m, _, hL⟩ := fuse_local E runs hw norm method params hE ha out h
  have hqs : ∀ q, (∃ run ∈ runs.map (fun s => s.data), q ∈ run.keys) ↔ ∃ s ∈ runs, q ∈ s.data.keys := by
    intro q
    constructor
    · rintro ⟨run, hr, hq⟩
      obtain ⟨s, hs, rfl⟩ := List.mem_map.1 hr
      exact ⟨s, hs, hq⟩
    · rintro ⟨s, hs, hq⟩
      exact ⟨_, List.mem_map.2 ⟨s, hs, rfl⟩, hq⟩
  refine ⟨fun q => (hL.queries q).trans (hqs q), fun q d => ?_⟩
  have hread : ∀ s : Store κ δ ℝ, (Spec.content s).read q d ≠ none ↔
      ∃ r, s.data.get? q = some r ∧ d ∈ r.keys := by
    intro s
    unfold Spec.Content.read Spec.content
    cases hg : s.data.get? q with
    | none => simp
    | some r => simp [← Option.isSome_iff_ne_none, get?_isSome]
  rw [hread]
  simp only [hread]
  have hl := (fuse_ok h).1
  have hf := fusable_of runs hl hw (fuse_ok h).2.1
  by_cases hq : ∃ run ∈ runs.map (fun s => s.data), q ∈ run.keys
  · obtain ⟨r, hr1, hr2⟩ := hL.get q hq
    have hnd : ∀ x ∈ resultsFor (runs.map (fun s => s.data)) q, NodupKeys x := by
      intro x hx
      obtain ⟨run, hr, rfl⟩ := List.mem_map.1 hx
      cases hg : run.get? q with
      | none => exact nodupKeys_nil
      | some r => exact hf.nodupD run hr (q, r) (mem_of_get? hg)
    obtain ⟨hn1, hn2⟩ := normQuery_spec E norm _ hnd
    obtain ⟨_, hu⟩ := unionOf_perQuery E m _ _ _ hn1 hr1
    have : d ∈ r.keys ↔ Spec.InSome (runs.map (fun s => s.data)) q d := by
      rw [hu d, hn2 d, mem_flatMap_resultsFor]
    constructor
    · rintro ⟨r', hg, hd⟩
      rw [hr2] at hg
      cases hg
      obtain ⟨run, hr, r1, hg1, hd1⟩ := this.1 hd
      obtain ⟨s, hs, rfl⟩ := List.mem_map.1 hr
      exact ⟨s, hs, r1, hg1, hd1⟩
    · rintro ⟨s, hs, r1, hg1, hd1⟩
      exact ⟨r, hr2, this.2 ⟨_, List.mem_map.2 ⟨s, hs, rfl⟩, r1, hg1, hd1⟩⟩
  · constructor
    · rintro ⟨r, hg, _⟩
      exact absurd ((hL.queries q).1 (get?_isSome.1 (by rw [hg]; rfl))) hq
    · rintro ⟨s, hs, r1, hg1, _⟩
      exact absurd ((hqs q).2 ⟨s, hs, get?_isSome.1 (by rw [hg1]; rfl)⟩) hq

theorem perQuery_env (E E' : Env δ) (h1 : E.S = E'.S) (h2 : E.I = E'.I) (h3 : E.C = E'.C)
    (h4 : E.oob = E'.oob) (m : Method) (params : Kwargs) (norm : Option String) (rs : List (Results δ ℝ)) :
    perQuery E m params (normQuery E norm rs) = perQuery E' m params (normQuery E' norm rs) := by
  have : normQuery E norm rs = normQuery E' norm rs := by
    unfold normQuery
    rw [h1, h2]
  rw [this]
  unfold perQuery
  rw [h1, h2, h3, h4]

/-- **C62** (partial as C48: same query order where borda is used): take two calls of `fuse` with the same
normalization, method and parameters, on run lists that agree about query `q` (run by run) but may differ
arbitrarily on other queries, executed with different thread schedules. The fused results of `q` agree,
including the order of the docs. -/
theorem C62_query_local_partial (E E' : Env δ) (hS : E.S = E'.S) (hI : E.I = E'.I) (hC : E.C = E'.C)
    (hO : E.oob = E'.oob) (runs runs' : List (Store κ δ ℝ))
    (hw : ∀ s ∈ runs, Store.Wf s.data) (hw' : ∀ s ∈ runs', Store.Wf s.data)
    (norm : Option String) (method : String) (params : Option Kwargs)
    (hE : Spec.SchedulesCover E runs) (hE' : Spec.SchedulesCover E' runs')
    (ha : Spec.UsesBorda norm method → Spec.SameQueryOrder runs ∧ Spec.SameQueryOrder runs')
    (q : κ) (hq : runs.map (fun s => s.data.get? q) = runs'.map (fun s => s.data.get? q))
    (out out' : Store κ δ ℝ) (h : fuse E runs norm method params = .ok out)
    (h' : fuse E' runs' norm method params = .ok out') :
    out.data.get? q = out'.data.get? q := by
  obtain ⟨m, hm, hL⟩ := fuse_local E runs hw norm method params hE (fun hb => (ha hb).1) out h
  obtain ⟨m', hm', hL'⟩ := fuse_local E' runs' hw' norm method params hE' (fun hb => (ha hb).2) out' h'
  rw [hm] at hm'
  cases hm'
  have hres : resultsFor (runs.map (fun s => s.data)) q = resultsFor (runs'.map (fun s => s.data)) q := by
    unfold resultsFor
    rw [List.map_map, List.map_map]
    have := congrArg (List.map (fun o : Option (Results δ ℝ) => o.getD [])) hq
    rw [List.map_map, List.map_map] at this
    exact this
  have hex : ∀ l : List (Store κ δ ℝ), (∃ run ∈ l.map (fun s => s.data), q ∈ run.keys) ↔
      ∃ o ∈ l.map (fun s => s.data.get? q), o.isSome := by
    intro l
    constructor
    · rintro ⟨run, hr, hk⟩
      obtain ⟨s, hs, rfl⟩ := List.mem_map.1 hr
      exact ⟨_, List.mem_map.2 ⟨s, hs, rfl⟩, get?_isSome.2 hk⟩
    · rintro ⟨o, ho, hk⟩
      obtain ⟨s, hs, rfl⟩ := List.mem_map.1 ho
      exact ⟨_, List.mem_map.2 ⟨s, hs, rfl⟩, get?_isSome.1 hk⟩
  by_cases hin : ∃ run ∈ runs.map (fun s => s.data), q ∈ run.keys
  · have hin' : ∃ run ∈ runs'.map (fun s => s.data), q ∈ run.keys := by
      rw [hex, ← hq, ← hex]; exact hin
    obtain ⟨r, hr1, hr2⟩ := hL.get q hin
    obtain ⟨r', hr1', hr2'⟩ := hL'.get q hin'
    rw [perQuery_env E E' hS hI hC hO, hres, hr1'] at hr1
    rw [hr2, hr2', Except.ok.inj hr1]
  · have hin' : ¬ ∃ run ∈ runs'.map (fun s => s.data), q ∈ run.keys := by
      rw [hex, ← hq, ← hex]; exact hin
    have h1 : q ∉ out.data.keys := fun hc => hin ((hL.queries q).1 hc)
    have h2 : q ∉ out'.data.keys := fun hc => hin' ((hL'.queries q).1 hc)
    rw [get?_eq_none.2 h1, get?_eq_none.2 h2]

/-! ## C61 -/

/-- **C61** preconditions: fewer than two runs, or two runs with different queries, raise AssertionError
whatever the other arguments. -/
theorem C61_preconditions (E : Env δ) (runs : List (Store κ δ ℝ)) (norm : Option String) (method : String)
    (params : Option Kwargs) (h : runs.length ≤ 1 ∨ ¬ Spec.SameQueries runs) :
    fuse E runs norm method params = .error .assertionError := by
  unfold fuse
  by_cases hl : runs.length ≤ 1
  · rw [if_pos hl]
  · rw [if_neg hl, if_neg]
    rw [pairwiseSameKeys_iff]
    exact h.resolve_left hl

theorem normalize_known (E : Env δ) (runs : List (Store κ δ ℝ)) (hn : 2 ≤ runs.length)
    (hw : ∀ s ∈ runs, Store.Wf s.data) (hq : Spec.SameQueries runs) (n : String)
    (hk : n ∈ Spec.normNames.map Prod.fst) : ∃ out, normalizeRuns E (some n) runs = .ok out := by
  unfold normalizeRuns
  simp only
  by_cases hb : n ≠ "borda"
  · rw [if_pos hb]
    rcases normSwitch_cases n with ⟨k, _, h⟩ | ⟨h, _⟩
    · rw [h]; exact ⟨_, rfl⟩
    · exact absurd hk h
  · rw [if_neg hb]
    have hf := fusable_of runs hn hw hq
    obtain ⟨r0, rest, hruns⟩ : ∃ r0 rest, runs.map (fun s => s.data) = r0 :: rest := by
      cases h : runs.map (fun s => s.data) with
      | nil => exact absurd h hf.nonempty
      | cons a b => exact ⟨a, b, rfl⟩
    rw [hruns] at hf ⊢
    have hall : (r0 :: rest).all (fun run => r0.keys.all (fun q => run.contains q)) = true := by
      rw [List.all_eq_true]
      intro run hr
      rw [List.all_eq_true]
      intro q hq'
      rw [contains_iff]
      exact hf.same r0 List.mem_cons_self run hr q hq'
    unfold Norm.bordaRuns Norm.getCandidates
    simp only
    rw [if_pos hall]
    simp only
    rw [if_neg]
    · exact ⟨_, rfl⟩
    · intro hany
      obtain ⟨run, hr, hlt⟩ := List.any_eq_true.1 hany
      rw [decide_eq_true_eq, List.length_map] at hlt
      have h1 : run.keys.Nodup := hf.nodupQ run hr
      have h2 := (h1.subperm (fun q hq' => hf.same run hr r0 List.mem_cons_self q hq')).length_le
      rw [length_keys] at h2
      omega

/-- **C61** names: on valid runs an unknown normalization raises ValueError, and so does an unknown method
after any known normalization (or none). The known names are exactly those listed. -/
theorem C61_unknown_names (E : Env δ) (runs : List (Store κ δ ℝ)) (hn : 2 ≤ runs.length)
    (hw : ∀ s ∈ runs, Store.Wf s.data) (hq : Spec.SameQueries runs) (method : String)
    (params : Option Kwargs) :
    (∀ n, n ∉ Spec.normNames.map Prod.fst → fuse E runs (some n) method params = .error .valueError) ∧
    (method ∉ Spec.methodNames.map Prod.fst →
      (fuse E runs none method params = .error .valueError) ∧
      ∀ n ∈ Spec.normNames.map Prod.fst, fuse E runs (some n) method params = .error .valueError) := by
  have hpre : ∀ norm, fuse E runs norm method params = (match normalizeRuns E norm runs with
    | .error e => .error e
    | .ok normRuns =>
      match fusionSwitch method with
      | .error e => .error e
      | .ok m => m.call E (params.getD []) normRuns) := by
    intro norm
    unfold fuse
    rw [if_neg (by omega), if_pos ((pairwiseSameKeys_iff runs).2 hq)]
    rfl
  refine ⟨?_, ?_⟩
  · intro n hnn
    rw [hpre]
    have : normalizeRuns E (some n) runs = .error .valueError := by
      unfold normalizeRuns
      simp only
      have hb : n ≠ "borda" := by
        rintro rfl
        exact hnn (by decide +kernel)
      rw [if_pos hb]
      rcases normSwitch_cases n with ⟨k, hk, _⟩ | ⟨_, h⟩
      · exact absurd (List.mem_map.2 ⟨_, hk, rfl⟩) hnn
      · rw [h]
    rw [this]
  · intro hm
    have hsw : fusionSwitch method = .error .valueError := by
      rcases fusionSwitch_cases method with ⟨k, hk, _⟩ | ⟨_, h⟩
      · exact absurd (List.mem_map.2 ⟨_, hk, rfl⟩) hm
      · exact h
    refine ⟨?_, ?_⟩
    · rw [hpre, hsw]; rfl
    · intro n hn'
      rw [hpre, hsw]
      obtain ⟨out, ho⟩ := normalize_known E runs hn hw hq n hn'
      rw [ho]

/-- **C61** dispatch: on valid runs, a call with known names applies the named normalization to every run
and then calls the named method with the given parameters. -/
theorem C61_dispatch (E : Env δ) (runs : List (Store κ δ ℝ)) (hn : 2 ≤ runs.length)
    (hq : Spec.SameQueries runs) (name : String) (m : Method) (hm : (name, m) ∈ Spec.methodNames)
    (params : Option Kwargs) :
    (fuse E runs none name params = m.call E (params.getD []) (runs.map (fun s => s.data))) ∧
    (∀ n k, (n, k) ∈ Spec.normNames → n ≠ "borda" → fuse E runs (some n) name params =
      m.call E (params.getD []) (runs.zipIdx.map (fun rj => (normOne E k rj.2 rj.1).data))) ∧
    (∀ nr, Norm.bordaRuns E.I E.normScheds (runs.map (fun s => s.data)) = .ok nr →
      fuse E runs (some "borda") name params = m.call E (params.getD []) nr) := by
  have hsw := fusionSwitch_known (name, m) hm
  simp only at hsw
  have hpre : ∀ norm, fuse E runs norm name params = (match normalizeRuns E norm runs with
    | .error e => .error e
    | .ok normRuns => m.call E (params.getD []) normRuns) := by
    intro norm
    unfold fuse
    rw [if_neg (by omega), if_pos ((pairwiseSameKeys_iff runs).2 hq), hsw]
    rfl
  refine ⟨by rw [hpre]; rfl, ?_, ?_⟩
  · intro n k hk hb
    rw [hpre]
    have hns : normSwitch n = .ok k := by
      rcases normSwitch_cases n with ⟨k', hk', h⟩ | ⟨h, _⟩
      · have huniq : ∀ p ∈ Spec.normNames, ∀ p' ∈ Spec.normNames, p.1 = p'.1 → p.2 = p'.2 := by
          decide +kernel
        rw [h, show k' = k from huniq _ hk' _ hk rfl]
      · exact absurd (List.mem_map.2 ⟨_, hk, rfl⟩) h
    unfold normalizeRuns
    simp only
    rw [if_pos hb, hns]
  · intro nr hnr
    rw [hpre]
    unfold normalizeRuns
    simp only
    rw [if_neg (by simp), hnr]

/-- **C61** parameters: an argument the method does not have, and the default call `fuse(runs)` itself
(method wsum without weights), raise TypeError. -/
theorem C61_parameters (E : Env δ) (runs : List (Store κ δ ℝ)) (hn : 2 ≤ runs.length)
    (hw : ∀ s ∈ runs, Store.Wf s.data) (hq : Spec.SameQueries runs) :
    (∀ name m, (name, m) ∈ Spec.methodNames → ∀ (params : Kwargs) a, a ∈ params.keys →
      a ∉ m.parameters → fuse E runs none name (some params) = .error .typeError) ∧
    fuse E runs = .error .typeError := by
  constructor
  · intro name m hm params a ha hna
    rw [(C61_dispatch E runs hn hq name m hm (some params)).1]
    unfold Method.call
    rw [if_neg]
    intro hall
    rw [List.all_eq_true] at hall
    exact hna (of_decide_eq_true (hall a ha))
  · rw [(C61_dispatch E runs hn hq "wsum" .wsum (by decide +kernel) none).2.1 "min-max" .minMax
      (by decide +kernel) (by decide +kernel)]
    rfl

/-! ### instances -/

/-- an environment for examples -/
noncomputable def exEnv : Env Nat :=
  ⟨.stable ℝ, [1, 0], fun _ => [0, 1], fun _ => [1, 0], dedupIter, .python, fun _ => 0⟩

def fuseStore1 : Store Nat Nat ℝ := ⟨[(1, [(10, 5), (11, 4)]), (2, [(20, 1)])], true⟩
def fuseStore2 : Store Nat Nat ℝ := ⟨[(2, [(21, 3)]), (1, [(12, 6), (10, 2)])], false⟩

theorem fuseStore_wf : ∀ s ∈ [fuseStore1, fuseStore2], Store.Wf s.data := by
  intro s hs
  simp only [List.mem_cons, List.not_mem_nil, or_false] at hs
  rcases hs with rfl | rfl
  · exact ⟨by unfold NodupKeys fuseStore1; decide, by unfold fuseStore1 NodupKeys; simp⟩
  · exact ⟨by unfold NodupKeys fuseStore2; decide, by unfold fuseStore2 NodupKeys; simp⟩

theorem fuseStore_same : Spec.SameQueries [fuseStore1, fuseStore2] := by
  have h1 : fuseStore1.data.keys = [1, 2] := rfl
  have h2 : fuseStore2.data.keys = [2, 1] := rfl
  intro s hs s' hs' q hq
  simp only [List.mem_cons, List.not_mem_nil, or_false] at hs hs'
  rcases hs with rfl | rfl <;> rcases hs' with rfl | rfl <;> simp only [h1, h2] at hq ⊢ <;>
    simp at hq ⊢ <;> tauto

theorem exEnv_cover : Spec.SchedulesCover exEnv [fuseStore1, fuseStore2] := by
  have two : Schedule 2 [1, 0] := by unfold Schedule; decide
  have two' : Schedule 2 [0, 1] := by unfold Schedule; decide
  have hlen : ∀ (j : Nat) s, [fuseStore1, fuseStore2][j]? = some s → s.data.length = 2 := by
    intro j s hj
    have := List.mem_of_getElem? hj
    simp only [List.mem_cons, List.not_mem_nil, or_false] at this
    rcases this with rfl | rfl <;> rfl
  constructor
  · intro s hs
    rw [hlen 0 s hs]; exact two
  · intro j s hs
    rw [hlen j s hs]; exact two'
  · intro j s hs
    rw [hlen j s hs]; exact two

/-- the two runs can be fused; their queries are listed in different orders -/
theorem exFuse_ok : ∃ out, fuse exEnv [fuseStore1, fuseStore2] none "sum" = .ok out := by
  rw [(C61_dispatch exEnv _ (by decide) fuseStore_same "sum" .combSum (by decide +kernel) none).1]
  obtain ⟨out, h, _⟩ := C49_comb_sum (.stable ℝ) [1, 0]
    ([fuseStore1, fuseStore2].map (fun s : Store Nat Nat ℝ => s.data))
    (fusable_of _ (by decide) fuseStore_wf fuseStore_same) (exEnv_cover.fusion fuseStore1 rfl)
  exact ⟨out, h⟩

/-- **C62 refuted for bordafuse on runs with differently ordered queries**: the two run lists agree on query 1
and differ only in the doc of query 2, but the fused query 1 contains doc 20 in one case and not in the other. -/
theorem C62_bordafuse_misaligned :
    ∃ (r1 r2 r1' r2' : Dict Nat (Results Nat ℚ)), Spec.Fusable [r1, r2] ∧ Spec.Fusable [r1', r2'] ∧
      r1.get? 1 = r1'.get? 1 ∧ r2.get? 1 = r2'.get? 1 ∧
      readOut (bordafuse (.stable ℚ) [0, 1] (fun _ => [0, 1]) dedupIter [r1, r2]) 1 20 = some (1 / 2) ∧
      readOut (bordafuse (.stable ℚ) [0, 1] (fun _ => [0, 1]) dedupIter [r1', r2']) 1 20 = none :=
  ⟨[(1, [(10, 5)]), (2, [(20, 1)])], [(2, [(20, 7)]), (1, [(12, 3)])],
    [(1, [(10, 5)]), (2, [(30, 1)])], [(2, [(30, 7)]), (1, [(12, 3)])],
    ⟨by decide, by unfold NodupKeys; decide, by unfold NodupKeys; decide, by decide⟩,
    ⟨by decide, by unfold NodupKeys; decide, by unfold NodupKeys; decide, by decide⟩,
    by decide +kernel, by decide +kernel, by decide +kernel, by decide +kernel⟩

end Ranx
