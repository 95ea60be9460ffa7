import Verif.Props.QueryNames
import Verif.Props.Retrieval
import Verif.Props.Tuned
import Verif.Props.Unanimity

/-!
# C158: query ids are only names, for fusion

Renaming the queries of all runs by an injective function, which changes the order in which ranx stores them and the
order in which the loops visit them, renames the queries of the fused run and changes nothing else.
-/

set_option linter.unusedSectionVars false

namespace Ranx
open Dict Store Metrics Eval Fuse Opt
open _root_.Ranx.Norm (Kind SetIter Results)

section
variable {κ κ' δ ι : Type} [LinearOrder κ] [LinearOrder κ'] [DecidableEq δ] [LinearOrder ι]

/-- Specification: `s'` lists for query `g q` what `s` lists for query `q`, and nothing else. -/
structure Spec.Relabelled (g : κ → κ') (s : Store κ δ ℝ) (s' : Store κ' δ ℝ) : Prop where
  queries : ∀ q', q' ∈ s'.data.keys ↔ ∃ q ∈ s.data.keys, g q = q'
  results : ∀ q ∈ s.data.keys, s'.data.get? (g q) = s.data.get? q

theorem Spec.Relabelled.get {g : κ → κ'} (hg : Function.Injective g) {s : Store κ δ ℝ} {s' : Store κ' δ ℝ}
    (h : Spec.Relabelled g s s') (q : κ) : s'.data.get? (g q) = s.data.get? q := by
  by_cases hq : q ∈ s.data.keys
  · exact h.results q hq
  · have : g q ∉ s'.data.keys := by
      rw [h.queries]
      rintro ⟨q2, h2, e⟩
      exact hq (hg e ▸ h2)
    rw [get?_eq_none.2 hq, get?_eq_none.2 this]

theorem Spec.Relabelled.renamed {g : κ → κ'} {s : Store κ δ ℝ} {s' : Store κ' δ ℝ} (h : Spec.Relabelled g s s') :
    Spec.QueriesRenamed g s s' := by
  refine ⟨h.queries, fun q hq d => ?_⟩
  unfold Spec.Content.read Spec.content
  beta_reduce
  rw [h.results q hq]

/-- **C158** (for borda normalization and the two bordafuse methods each list of runs must
list its queries in the same order, as freshly built runs do): fusing runs whose queries are renamed by an injective
function gives the fused run with the queries renamed: for every normalization, method and parameters, whatever the
schedules of the two calls, each query has the same docs in the same order with the same scores. -/
theorem C158_fuse (g : κ → κ') (hg : Function.Injective g) (E E' : Env δ) (hS : E.S = E'.S) (hI : E.I = E'.I)
    (hC : E.C = E'.C) (hO : E.oob = E'.oob) (runs : List (Store κ δ ℝ)) (runs' : List (Store κ' δ ℝ))
    (hr : List.Forall₂ (Spec.Relabelled g) runs runs')
    (hw : ∀ s ∈ runs, Store.Wf s.data) (hw' : ∀ s ∈ runs', Store.Wf s.data)
    (norm : Option String) (method : String) (params : Option Kwargs)
    (hE : Spec.SchedulesCover E runs) (hE' : Spec.SchedulesCover E' runs')
    (ha : Spec.UsesBorda norm method → Spec.SameQueryOrder runs ∧ Spec.SameQueryOrder runs')
    (out : Store κ δ ℝ) (out' : Store κ' δ ℝ) (h : fuse E runs norm method params = .ok out)
    (h' : fuse E' runs' norm method params = .ok out') :
    Spec.Relabelled g out out' := by
  obtain ⟨m, hm, hL⟩ := fuse_local E runs hw norm method params hE (fun hb => (ha hb).1) out h
  obtain ⟨m', hm', hL'⟩ := fuse_local E' runs' hw' norm method params hE' (fun hb => (ha hb).2) out' h'
  rw [hm] at hm'
  cases hm'
  have hres : ∀ q, resultsFor (runs.map (fun s => s.data)) q = resultsFor (runs'.map (fun s => s.data)) (g q) := by
    intro q
    unfold resultsFor
    rw [List.map_map, List.map_map]
    clear h h' hL hL' ha hE hE' hw hw'
    induction hr with
    | nil => rfl
    | cons hp _ ih =>
      rw [List.map_cons, List.map_cons, ih]
      simp only [Function.comp_apply, hp.get hg q]
  have hqs : ∀ q', (∃ run ∈ runs'.map (fun s => s.data), q' ∈ run.keys) ↔
      ∃ q, (∃ run ∈ runs.map (fun s => s.data), q ∈ run.keys) ∧ g q = q' := by
    intro q'
    constructor
    · rintro ⟨run, hr', hq⟩
      obtain ⟨s', hs', rfl⟩ := List.mem_map.1 hr'
      obtain ⟨s, hs, hss⟩ := forall₂_mem_right hr hs'
      obtain ⟨q, hq2, e⟩ := (hss.queries q').1 hq
      exact ⟨q, ⟨s.data, List.mem_map.2 ⟨s, hs, rfl⟩, hq2⟩, e⟩
    · rintro ⟨q, ⟨run, hr', hq⟩, rfl⟩
      obtain ⟨s, hs, rfl⟩ := List.mem_map.1 hr'
      obtain ⟨s', hs', hss⟩ := forall₂_mem_left hr hs
      exact ⟨s'.data, List.mem_map.2 ⟨s', hs', rfl⟩, (hss.queries _).2 ⟨q, hq, rfl⟩⟩
  refine ⟨fun q' => ?_, fun q hq => ?_⟩
  · rw [hL'.queries, hqs]
    constructor
    · rintro ⟨q, hq, e⟩; exact ⟨q, (hL.queries q).2 hq, e⟩
    · rintro ⟨q, hq, e⟩; exact ⟨q, (hL.queries q).1 hq, e⟩
  · have hin := (hL.queries q).1 hq
    obtain ⟨r, hr1, hr2⟩ := hL.get q hin
    obtain ⟨r', hr1', hr2'⟩ := hL'.get (g q) ((hqs _).2 ⟨q, hin, rfl⟩)
    rw [perQuery_env E E' hS hI hC hO, hres, hr1'] at hr1
    rw [hr2, hr2', Except.ok.inj hr1]

/-- the flag of the fused run depends on the method only -/
def Fuse.flagOf : Method → Bool
  | .condorcet => false
  | .weightedCondorcet => false
  | _ => true

theorem Fuse.fuseRun_flag (S : ArgSort ℝ) (score : Score δ ℝ) (sched : List Nat)
    (runs : List (Dict κ (Norm.Results δ ℝ))) (out : Store κ δ ℝ) (h : fuseRun S score sched runs = .ok out) :
    out.sorted = true := by
  unfold fuseRun at h
  split at h
  · cases h
  · cases h; rfl

theorem Fuse.rescoreThen_flag (S : ArgSort ℝ) (sched : List Nat) (scheds : Nat → List Nat) {π : Type*}
    (f : π → Norm.Results δ ℝ → Norm.Results δ ℝ) (params : List π) (score : Score δ ℝ)
    (runs : List (Dict κ (Norm.Results δ ℝ))) (out : Store κ δ ℝ)
    (h : rescoreThen S sched scheds f params score runs = .ok out) : out.sorted = true := by
  unfold rescoreThen at h
  split at h
  · cases h
  · exact fuseRun_flag _ _ _ _ _ h

theorem Fuse.condorcetWith_flag (C : CmpSort) (I : Norm.SetIter δ) (lt : List (List Nat) → Nat → Nat → Bool)
    (runs : List (Dict κ (Norm.Results δ ℝ))) (out : Store κ δ ℝ)
    (h : condorcetWith C I lt runs = .ok out) : out.sorted = false := by
  unfold condorcetWith at h
  split at h
  · cases h
  · split at h
    · cases h
    · cases h; rfl

theorem Fuse.call_flag (E : Env δ) (m : Method) (params : Kwargs) (runs : List (Dict κ (Norm.Results δ ℝ)))
    (out : Store κ δ ℝ) (h : m.call E params runs = .ok out) : out.sorted = flagOf m := by
  unfold Method.call at h
  split at h
  · cases m with
    | bayesfuse => obtain ⟨x, -, h⟩ := bindArg_ok h; exact rescoreThen_flag _ _ _ _ _ _ _ _ h
    | bordafuse =>
      simp only [Fuse.bordafuse] at h
      split at h
      · cases h
      · exact fuseRun_flag _ _ _ _ _ h
    | combGmnz => obtain ⟨x, -, h⟩ := bindArg_ok h; exact fuseRun_flag _ _ _ _ _ h
    | condorcet => exact condorcetWith_flag _ _ _ _ _ h
    | lognIsr =>
      obtain ⟨x, -, h⟩ := bindArg_ok h
      simp only [Fuse.lognIsr] at h
      split at h
      · exact fuseRun_flag _ _ _ _ _ h
      · cases h
    | mapfuse => obtain ⟨x, -, h⟩ := bindArg_ok h; exact rescoreThen_flag _ _ _ _ _ _ _ _ h
    | posfuse => obtain ⟨x, -, h⟩ := bindArg_ok h; exact rescoreThen_flag _ _ _ _ _ _ _ _ h
    | probfuse =>
      obtain ⟨x, -, h⟩ := bindArg_ok h
      simp only [Fuse.probfuse] at h
      split at h
      · cases h
      · exact rescoreThen_flag _ _ _ _ _ _ _ _ h
    | segfuse =>
      obtain ⟨x, -, h⟩ := bindArg_ok h
      simp only [Fuse.segfuse] at h
      split at h
      · cases h
      · exact rescoreThen_flag _ _ _ _ _ _ _ _ h
    | slidefuse =>
      obtain ⟨x, -, h⟩ := bindArg_ok h
      obtain ⟨w, -, h⟩ := bindArg_ok h
      exact rescoreThen_flag _ _ _ _ _ _ _ _ h
    | weightedBordafuse =>
      obtain ⟨x, -, h⟩ := bindArg_ok h
      simp only [Fuse.weightedBordafuse] at h
      split at h
      · cases h
      · exact fuseRun_flag _ _ _ _ _ h
    | weightedCondorcet =>
      obtain ⟨x, -, h⟩ := bindArg_ok h
      simp only [Fuse.weightedCondorcet] at h
      split at h
      · cases h
      · split at h
        · cases h
        · exact condorcetWith_flag _ _ _ _ _ h
    | wmnz => obtain ⟨x, -, h⟩ := bindArg_ok h; exact fuseRun_flag _ _ _ _ _ h
    | wsum => obtain ⟨x, -, h⟩ := bindArg_ok h; exact fuseRun_flag _ _ _ _ _ h
    | mixed => obtain ⟨x, -, h⟩ := bindArg_ok h; exact fuseRun_flag _ _ _ _ _ h
    | rbc => obtain ⟨x, -, h⟩ := bindArg_ok h; exact fuseRun_flag _ _ _ _ _ h
    | rrf => obtain ⟨x, -, h⟩ := bindArg_ok h; exact fuseRun_flag _ _ _ _ _ (rrf_ok _ _ _ h).2
    | combAnz => exact fuseRun_flag _ _ _ _ _ h
    | combMax => exact fuseRun_flag _ _ _ _ _ h
    | combMed => exact fuseRun_flag _ _ _ _ _ h
    | combMin => exact fuseRun_flag _ _ _ _ _ h
    | combMnz => exact fuseRun_flag _ _ _ _ _ h
    | combSum => exact fuseRun_flag _ _ _ _ _ h
    | isr => exact fuseRun_flag _ _ _ _ _ h
    | logIsr => exact fuseRun_flag _ _ _ _ _ h
  · cases h

theorem Fuse.fuse_flag (E : Env δ) (runs : List (Store κ δ ℝ)) (norm : Option String) (method : String)
    (params : Option Kwargs) (out : Store κ δ ℝ) (h : fuse E runs norm method params = .ok out) :
    ∃ m, fusionSwitch method = .ok m ∧ out.sorted = flagOf m := by
  unfold fuse at h
  split at h
  · cases h
  · split at h
    · split at h
      · cases h
      · split at h
        · cases h
        · rename_i m hm
          exact ⟨m, hm, call_flag _ _ _ _ _ h⟩
    · cases h

/-- what `evaluate` scores of two runs that list the same results in the same order -/
theorem Spec.Relabelled.sorted {g : κ → κ'} (hg : Function.Injective g) {s : Store κ δ ℝ} {s' : Store κ' δ ℝ}
    (S : ArgSort ℝ) (h : Spec.Relabelled g s s') (hf : s'.sorted = s.sorted) (hw : NodupKeys s.data)
    (hw' : NodupKeys s'.data) (q : κ) :
    (s'.ensureSorted S).data.get? (g q) = (s.ensureSorted S).data.get? q := by
  unfold Store.ensureSorted
  rw [hf]
  by_cases hs : s.sorted = true
  · rw [if_pos hs, if_pos hs]; exact h.get hg q
  · rw [if_neg hs, if_neg hs]
    change (sortAll S s'.data).get? (g q) = (sortAll S s.data).get? q
    rw [get?_sortAll S hw', get?_sortAll S hw, h.get hg q]

/-- **C158** (evaluation of the fused run): the mean scores of a fused run, with or without ties, are the same when
the queries of the judgements and of the runs are renamed. -/
theorem C158_fuse_then_evaluate (g : κ → κ') (hg : Function.Injective g) (E E' : Env δ) (hS : E.S = E'.S)
    (hI : E.I = E'.I) (hC : E.C = E'.C) (hO : E.oob = E'.oob) (runs : List (Store κ δ ℝ)) (runs' : List (Store κ' δ ℝ))
    (hr : List.Forall₂ (Spec.Relabelled g) runs runs')
    (hw : ∀ s ∈ runs, Store.Wf s.data) (hw' : ∀ s ∈ runs', Store.Wf s.data)
    (norm : Option String) (method : String) (params : Option Kwargs)
    (hE : Spec.SchedulesCover E runs) (hE' : Spec.SchedulesCover E' runs')
    (ha : Spec.UsesBorda norm method → Spec.SameQueryOrder runs ∧ Spec.SameQueryOrder runs')
    (out : Store κ δ ℝ) (out' : Store κ' δ ℝ) (h : fuse E runs norm method params = .ok out)
    (h' : fuse E' runs' norm method params = .ok out')
    (F : Fn ℝ) (other : Py.Str → Except Err ℝ) (SQ SQ' : ArgSort Int) (hash : δ → ι)
    (sched sched' : Nat → List Nat) (o : Opts) (ho : o.returnMean = true)
    (s : Store κ δ Int) (s' : Store κ' δ Int) (ms : List Py.Str) (hs : Spec.Usable SQ s) (hs' : Spec.Usable SQ' s')
    (hsched : ∀ i, Schedule s.data.length (sched i)) (hsched' : ∀ i, Schedule s.data.length (sched' i))
    (hq : Spec.QueriesRenamed g s s') (hj : ∀ q ∈ s.data.keys, Spec.JudgedApart hash s q) :
    (evaluate F other SQ' E'.S hash sched' o (.obj s') (.obj ⟨out', [], [], []⟩) ms).2 =
      (evaluate F other SQ E.S hash sched o (.obj s) (.obj ⟨out, [], [], []⟩) ms).2 := by
  have hR := C158_fuse g hg E E' hS hI hC hO runs runs' hr hw hw' norm method params hE hE' ha out out' h h'
  have u := fuse_usable E runs norm method params out h
  have u' := fuse_usable E' runs' norm method params out' h'
  obtain ⟨m, hm, hf⟩ := fuse_flag E runs norm method params out h
  obtain ⟨m', hm', hf'⟩ := fuse_flag E' runs' norm method params out' h'
  rw [hm] at hm'
  cases hm'
  refine evaluate_queries_renamed F other SQ SQ' E.S E'.S hash sched sched' o ho g hg s s' ⟨out, [], [], []⟩
    ⟨out', [], [], []⟩ ms hs hs' u u' hsched hsched' hq hR.queries hj ?_
  intro q hqs _ _
  unfold comparable
  rw [← hS]
  by_cases hm : o.makeComparable = true
  · rw [if_pos hm, if_pos hm]
    obtain ⟨d2, w2, g2, e2⟩ := makeComparable_spec E.S out s.data.keys u.ok.1
    obtain ⟨d2', w2', g2', e2'⟩ := makeComparable_spec E.S out' s'.data.keys u'.ok.1
    simp only [e2, e2']
    change (sortAll E.S d2').get? (g q) = (sortAll E.S d2).get? q
    rw [get?_sortAll E.S w2'.1, get?_sortAll E.S w2.1, g2, g2', if_pos hqs, if_pos ((hq.queries _).2 ⟨q, hqs, rfl⟩),
      hR.get hg q]
  · rw [if_neg hm, if_neg hm]
    exact hR.sorted hg E.S (hf'.trans hf.symm) u.ok.1.1 u'.ok.1.1 q

end

/-- the runs of the example with query `q` called `-q` -/
noncomputable def lowNeg : Store Int Nat ℝ := ⟨[(-1, [(10, 3), (11, 5)])], false⟩

/-- the hypotheses are met -/
example : List.Forall₂ (Spec.Relabelled (fun n : Nat => -(n : Int))) [lowFirst, lowFirst] [lowNeg, lowNeg] ∧
    Spec.SchedulesCover oneEnv [lowNeg, lowNeg] ∧ Spec.FusedApart lowFirst := by
  have h : Spec.Relabelled (fun n : Nat => -(n : Int)) lowFirst lowNeg := by
    refine ⟨?_, ?_⟩
    · intro q'
      simp only [lowFirst_eq, lowNeg, Dict.keys, List.map_cons, List.map_nil, List.mem_cons, List.not_mem_nil, or_false,
        exists_eq_left]
      exact ⟨fun h => h.symm, fun h => h.symm⟩
    · intro q hq
      simp only [lowFirst_eq, Dict.keys, List.map_cons, List.map_nil, List.mem_cons, List.not_mem_nil, or_false] at hq
      subst hq; rfl
  have hs : Schedule 1 [0] := by unfold Schedule; decide
  have hl : ∀ s ∈ [lowNeg, lowNeg], s.data.length = 1 := by
    intro s hs
    simp only [List.mem_cons, List.not_mem_nil, or_false, or_self] at hs
    subst hs; rfl
  refine ⟨.cons h (.cons h .nil), ⟨?_, ?_, ?_⟩, ?_⟩
  · intro s e; rw [hl s (List.mem_of_getElem? e)]; exact hs
  · intro j s e; rw [hl s (List.mem_of_getElem? e)]; exact hs
  · intro j s e; rw [hl s (List.mem_of_getElem? e)]; exact hs
  · intro q d d' v h1 h2
    have key : ∀ d, (Spec.content lowFirst).read q d = some v → d = 10 ∧ v = 3 ∨ d = 11 ∧ v = 5 := by
      intro d h1
      rw [read_score?] at h1
      unfold Spec.score? at h1
      rw [lowFirst_eq] at h1
      change ((Dict.get? [(1, [(10, 3), (11, 5)])] q).bind _) = some v at h1
      rw [get?_cons] at h1
      split at h1
      · change Dict.get? [(10, (3 : ℝ)), (11, 5)] d = some v at h1
        rw [get?_cons] at h1
        split at h1
        · next e => exact .inl ⟨e.symm, (Option.some.inj h1).symm⟩
        · rw [get?_cons] at h1
          split at h1
          · next e => exact .inr ⟨e.symm, (Option.some.inj h1).symm⟩
          · cases h1
      · cases h1
    rcases key d h1 with ⟨rfl, e⟩ | ⟨rfl, e⟩ <;> rcases key d' h2 with ⟨rfl, e'⟩ | ⟨rfl, e'⟩
    · rfl
    · rw [e] at e'; norm_num at e'
    · rw [e] at e'; norm_num at e'
    · rfl

end Ranx
