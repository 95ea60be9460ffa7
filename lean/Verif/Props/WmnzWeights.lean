import Verif.Props.TunedSingle

/-!
# Property C168: when the runs rank the same docs, the weights of wmnz have no effect

`wmnz` multiplies the unweighted sum of a doc's scores by the sum of the weights of the runs that have the doc. For
runs that re-rank the same candidates this is the same factor for every doc.
-/

set_option linter.unusedSectionVars false

namespace Ranx
open Dict Store Metrics Eval Fuse Train Opt F64
open _root_.Ranx.Norm (Kind SetIter)

section
variable {κ δ ι : Type} [LinearOrder κ] [DecidableEq δ] [LinearOrder ι]

/-- Specification: for every query all runs have the same docs. -/
def Spec.SameDocs (runs : List (Store κ δ ℝ)) : Prop :=
  ∀ s ∈ runs, ∀ s' ∈ runs, ∀ q d, (Spec.content s).read q d ≠ none → (Spec.content s').read q d ≠ none

/-- normalization keeps the docs of each run -/
theorem Opt.normalised_docs (k : Option Kind) (runs : List (Dict κ (Norm.Results δ ℝ)))
    (hd : ∀ run ∈ runs, ∀ p ∈ run, NodupKeys p.2) :
    List.Forall₂ (fun run' run => ∀ q d, (Spec.score? run' q d).isSome = (Spec.score? run q d).isSome)
      (Spec.normalised k runs) runs := by
  cases k with
  | none => exact List.forall₂_same.2 (fun _ _ _ _ => rfl)
  | some k =>
    rw [normalised_some, List.forall₂_map_left_iff]
    refine List.forall₂_same.2 (fun run hr q d => ?_)
    exact score?_isSome_mapRun (specRow k) run (hd run hr) (fun r _ d => by rw [keys_specRow]) q d

/-- docs that all runs have: all weights count -/
theorem Opt.weighted_all (q : κ) (d : δ) (ws : List ℝ) (nr : List (Dict κ (Norm.Results δ ℝ)))
    (hl : ws.length = nr.length) (h : ∀ run ∈ nr, (Spec.score? run q d).isSome) :
    ((Spec.weighted nr ws q d).map Prod.fst) = Spec.scores nr q d ∧ ((Spec.weighted nr ws q d).map Prod.snd) = ws := by
  induction nr generalizing ws with
  | nil =>
    cases ws with
    | nil => exact ⟨rfl, rfl⟩
    | cons _ _ => cases hl
  | cons run nr ih =>
    cases ws with
    | nil => cases hl
    | cons w ws =>
      obtain ⟨h1, h2⟩ := ih ws (by simpa using hl) (fun r hr => h r (List.mem_cons_of_mem _ hr))
      obtain ⟨x, hx⟩ := Option.isSome_iff_exists.1 (h run (by simp))
      have e1 : Spec.weighted (run :: nr) (w :: ws) q d = (x, w) :: Spec.weighted nr ws q d := by
        unfold Spec.weighted
        rw [List.zip_cons_cons, List.filterMap_cons]
        simp only [hx, Option.map_some]
      have e2 : Spec.scores (run :: nr) q d = x :: Spec.scores nr q d := by
        unfold Spec.scores
        rw [List.filterMap_cons]
        simp only [hx]
      rw [e1, e2, List.map_cons, List.map_cons, h1, h2]
      exact ⟨rfl, rfl⟩

/-- after normalization, a doc that one run has is in all runs -/
theorem Opt.all_runs_have (runs : List (Store κ δ ℝ)) (hw : ∀ s ∈ runs, Store.Wf s.data) (hdocs : Spec.SameDocs runs)
    (E : Env δ) (k : Option Kind) (nr : List (Dict κ (Norm.Results δ ℝ)))
    (hS : NormStep E k (runs.map (fun s => s.data)) nr) :
    nr.length = runs.length ∧ ∀ q d, Spec.InSome nr q d → ∀ run ∈ nr, (Spec.score? run q d).isSome := by
  have hd : ∀ run ∈ runs.map (fun s => s.data), ∀ p ∈ run, NodupKeys p.2 := by
    intro run hr p hp
    obtain ⟨s, hs, rfl⟩ := List.mem_map.1 hr
    exact (hw s hs).2 p hp
  have hdoc := normalised_docs k (runs.map (fun s => s.data)) hd
  have hall : List.Forall₂ (fun run' run => ∀ q d, (Spec.score? run' q d).isSome = (Spec.score? run q d).isSome) nr
      (runs.map (fun s => s.data)) := by
    have := hS.score
    generalize Spec.normalised k (runs.map (fun s => s.data)) = mid at this hdoc
    generalize runs.map (fun s => s.data) = rs at hdoc
    clear hS hd
    induction this generalizing rs with
    | nil => cases hdoc; exact .nil
    | cons h _ ih =>
      cases hdoc with
      | cons h' ht => exact .cons (fun q d => by rw [h, h']) (ih _ ht)
  have hlen : nr.length = runs.length := by rw [hall.length_eq, List.length_map]
  have hmem : ∀ run ∈ nr, ∃ s ∈ runs, ∀ q d, (Spec.score? run q d).isSome = ((Spec.content s).read q d).isSome := by
    intro run hr
    obtain ⟨i, hi, rfl⟩ := List.getElem_of_mem hr
    have hi' : i < (runs.map (fun s => s.data)).length := hall.length_eq ▸ hi
    have := (List.forall₂_iff_get.1 hall).2 i hi hi'
    refine ⟨runs[i]'(by simpa using hi'), List.getElem_mem _, fun q d => ?_⟩
    rw [read_score?]
    have h2 := this q d
    simpa using h2
  refine ⟨hlen, ?_⟩
  have hin : ∀ q d, Spec.InSome nr q d → ∀ run ∈ nr, (Spec.score? run q d).isSome := by
    rintro q d ⟨run, hr, r, hr1, hr2⟩ run' hr'
    obtain ⟨s, hs, h1⟩ := hmem run hr
    obtain ⟨s', hs', h1'⟩ := hmem run' hr'
    rw [h1', Option.isSome_iff_ne_none]
    refine hdocs s hs s' hs' q d ?_
    rw [← Option.isSome_iff_ne_none, ← h1]
    unfold Spec.score?
    rw [hr1]
    exact get?_isSome.2 hr2
  exact hin

/-- **C168**: if all runs have the same docs per query, then with any normalization but borda `wmnz` with weights `ws`
(one for each run) gives every doc its `sum` score times the sum of all weights. -/
theorem C168_wmnz_weights (E : Env δ) (runs : List (Store κ δ ℝ)) (hn : 2 ≤ runs.length)
    (hw : ∀ s ∈ runs, Store.Wf s.data) (hq : Spec.SameQueries runs) (hdocs : Spec.SameDocs runs)
    (hE : Spec.SchedulesCover E runs) (norm : Option String) (k : Option Kind) (hk : Spec.NormNamed norm k) :
    ∃ out, fuse E runs norm "sum" none = .ok out ∧ ∀ ws : List ℝ, ws.length = runs.length →
      ∃ out', fuse E runs norm "wmnz" (some [("weights", .nums ws)]) = .ok out' ∧
        (∀ q, q ∈ out'.data.keys ↔ q ∈ out.data.keys) ∧
        ∀ q d, (Spec.content out').read q d = ((Spec.content out).read q d).map (fun x => ws.sum * x) := by
  obtain ⟨nr, hnr, hS⟩ := normStep E runs hn hw hq hE norm k hk
  obtain ⟨hlen, hin⟩ := all_runs_have runs hw hdocs E k nr hS
  obtain ⟨out, e1, b1⟩ := C49_comb_sum E.S E.sched nr hS.fusable hS.fits.main
  refine ⟨out, (fuse_named_none E runs hn hq norm "sum" .combSum (by decide +kernel) nr hnr).trans e1, ?_⟩
  intro ws hws
  obtain ⟨out', e2, b2⟩ := C49_wmnz E.S E.sched ws nr hS.fusable (by rw [hlen, hws]) hS.fits.main
  refine ⟨out', (fuse_named E runs hn hq norm "wmnz" .wmnz (by decide +kernel) _ nr hnr).trans e2,
    fun q => (b2.queries q).trans (b1.queries q).symm, ?_⟩
  intro q d
  by_cases hi : Spec.InSome nr q d
  · obtain ⟨h1, h2⟩ := weighted_all q d ws nr (by rw [hlen, hws]) (hin q d hi)
    rw [b1.value q d hi, b2.value q d hi, h1, h2, Option.map_some]
    beta_reduce
    rw [mul_comm]
  · rw [not_not.1 (mt (b1.docs q d).1 hi), not_not.1 (mt (b2.docs q d).1 hi)]; rfl

/-- **C168** (evaluation): then all weights with a positive sum give the same value of every metric, that of `sum`, if no
two docs of a query have the same summed score. -/
theorem C168_same_score (E : Env δ) (V : EvalEnv δ ι) (qrels : Store κ δ Int) (hqr : Spec.Usable V.SQ qrels)
    (metric : Py.Str) (runs : List (Store κ δ ℝ)) (hn : 2 ≤ runs.length)
    (hw : ∀ s ∈ runs, Store.Wf s.data) (hq : Spec.SameQueries runs) (hdocs : Spec.SameDocs runs)
    (hE : Spec.SchedulesCover E runs) (norm : Option String) (k : Option Kind) (hk : Spec.NormNamed norm k)
    (ht : ∀ out, fuse E runs norm "sum" none = .ok out → Spec.FusedApart out) (ws : List ℝ)
    (hl : ws.length = runs.length) (hpos : 0 < ws.sum) :
    Spec.scoreOf V E.S qrels metric (fuse E runs norm "wmnz" (some [("weights", .nums ws)])) =
      Spec.scoreOf V E.S qrels metric (fuse E runs norm "sum" none) := by
  obtain ⟨out, f1, h⟩ := C168_wmnz_weights E runs hn hw hq hdocs hE norm k hk
  obtain ⟨out', f2, hk', hv⟩ := h ws hl
  rw [f1, f2]
  unfold Spec.scoreOf
  have := C34_only_ranking_matters V.F V.other V.SQ E.S E.S V.hash V.sched { save := false } qrels
    ⟨out, [], [], []⟩ ⟨out', [], [], []⟩ [metric] hqr (fuse_usable E runs norm _ _ out f1)
    (fuse_usable E runs norm _ _ out' f2) (fun x => ws.sum * x)
    (fun x y hxy => mul_lt_mul_of_pos_left hxy hpos) (fun q => (hk' q).symm) hv (ht out f1)
  simp only [this]

/-- Specification: the search returned parameters, and both
`evaluate(qrels, fuse(runs, norm, method, params), metric)` and `evaluate(qrels, baseline, metric)` are the same
number. -/
def Spec.TunedNoBetter (E : Env δ) (V : EvalEnv δ ι) (qrels : Store κ δ Int) (runs : List (Store κ δ ℝ))
    (norm : Option String) (method : String) (metric : Py.Str) (search : Except Err Result)
    (baseline : Except Err (Store κ δ ℝ)) : Prop :=
  ∃ (res : Result) (params : Kwargs) (u : ℝ), search = .ok res ∧ res.params = some params ∧
    Spec.scoreOf V E.S qrels metric baseline = .ok (.val u) ∧
    Spec.scoreOf V E.S qrels metric (fuse E runs norm method (some params)) = .ok (.val u)

/-- every candidate of the default weight search has a positive sum -/
theorem Opt.default_weights_pos (n : ℕ) (T : List (List ℚ)) (hT : weightTrials fl (fl (1 / 10)) "0.1".toList n = .ok T)
    (w : List ℚ) (hw : w ∈ T) :
    (w.map (fun (x : ℚ) => (x : ℝ))).length = n ∧ 0 < (w.map (fun (x : ℚ) => (x : ℝ))).sum := by
  obtain ⟨js, h1, h2, rfl, h3⟩ := (mem_default_trials n w T hT).1 hw
  have ht : ∀ j < 11, 0 ≤ tenth j ∧ (j ≠ 0 → 0 < tenth j) := by decide +kernel
  refine ⟨by simp [h1], ?_⟩
  obtain ⟨j, hj, hj0⟩ : ∃ j ∈ js, j ≠ 0 := by
    by_contra hc
    push Not at hc
    have : js = List.replicate js.length 0 := List.eq_replicate_iff.2 ⟨rfl, hc⟩
    have hz : ∀ n : ℕ, tenthSum (List.replicate n 0) 0 = 0 := by
      intro n
      induction n with
      | zero => rfl
      | succ n ih =>
        unfold tenthSum at ih ⊢
        rw [List.replicate_succ, List.foldl_cons, show fl (0 + tenth 0) = 0 by decide +kernel]
        exact ih
    rw [this, hz] at h3
    exact absurd h3 (by norm_num)
  have hpos : (0 : ℝ) < ((tenth j : ℚ) : ℝ) := by exact_mod_cast (ht j (by have := h2 j hj; omega)).2 hj0
  refine lt_of_lt_of_le hpos (List.single_le_sum ?_ _ ?_)
  · intro x hx
    simp only [List.map_map, List.mem_map, Function.comp_apply] at hx
    obtain ⟨i, hi, rfl⟩ := hx
    exact_mod_cast (ht i (by have := h2 i hi; omega)).1
  · exact List.mem_map.2 ⟨tenth j, List.mem_map.2 ⟨j, hj, rfl⟩, rfl⟩

/-- **C168** (tuning): then tuning `wmnz` with the default search arguments is without effect: the weights it returns
score exactly what `fuse(runs, norm, "sum")` scores. -/
theorem C168_tuning_is_idle (E : Env δ) (V : EvalEnv δ ι) (rowSched : List Nat)
    (str : Kwargs → Py.Str) (strNat : Nat → Py.Str) (qrels : Store κ δ Int) (runs : List (Store κ δ ℝ))
    (metric : Py.Str) (hv : Spec.ValidSearch E V qrels runs metric) (hpos : Spec.MetricNonneg V metric)
    (hne : qrels.data ≠ []) (norm : Option String) (k : Option Kind) (hk : Spec.NormNamed norm k)
    (wantReport : Bool) (hdocs : Spec.SameDocs runs)
    (ht : ∀ out, fuse E runs norm "sum" none = .ok out → Spec.FusedApart out) :
    Spec.TunedNoBetter E V qrels runs norm "wmnz" metric
      (optimizeFusion E V rowSched fl str strNat qrels runs norm "wmnz" metric wantReport
        (.weights (fl (1 / 10)) "0.1".toList))
      (fuse E runs norm "sum" none) := by
  have hacc : Spec.NormAccepted norm := by
    rcases hk with ⟨rfl, -⟩ | ⟨n, x, rfl, -, hx, -⟩
    · exact .inl rfl
    · exact .inr ⟨n, List.mem_map.2 ⟨_, hx, rfl⟩, rfl⟩
  obtain ⟨res, p, h1, h2⟩ := (C101_defaults E V rowSched str strNat qrels runs metric hv hpos hne norm hacc
    wantReport).1 "wmnz" (.weights (fl (1 / 10)) "0.1".toList)
    (by unfold Spec.defaultSpaces; simp only [List.mem_cons]; tauto)
  obtain ⟨tried, scores, k1, k2, k3, -⟩ := C65_best_configuration E V rowSched fl str strNat qrels hv.qrelsOk runs
    norm "wmnz" metric wantReport _ .wmnz (by decide +kernel) res h1
  obtain ⟨T, hT⟩ := default_trials_ok runs.length
  have hp : p ∈ tried := by
    rcases k3 with ⟨e, -⟩ | ⟨t, v, x, y, e, hl, -, -, -⟩
    · rw [h2] at e; cases e
    · rw [h2] at e
      cases e
      have : (p, Num.val v) ∈ tried.zip scores := by rw [hl]; simp
      exact (List.of_mem_zip this).1
  simp only [configs, hT, Except.map, Except.ok.injEq] at k1
  rw [← k1] at hp
  obtain ⟨w, hwT, rfl⟩ := List.mem_map.1 hp
  obtain ⟨hl, hs⟩ := default_weights_pos runs.length T hT w hwT
  have heq := C168_same_score E V qrels hv.qrelsOk metric runs hv.many hv.wf hv.sameQueries hdocs hv.schedules norm k hk
    ht _ hl hs
  obtain ⟨nr, hnr, hS⟩ := normed E runs hv.many hv.wf hv.sameQueries hv.schedules norm hacc
  obtain ⟨out, e1, b1⟩ := C49_comb_sum E.S E.sched nr hS.fusable hS.fits.main
  have f1 : fuse E runs norm "sum" none = .ok out :=
    (fuse_named_none E runs hv.many hv.sameQueries norm "sum" .combSum (by decide +kernel) nr hnr).trans e1
  obtain ⟨u, hu⟩ := fused_scored E V qrels runs metric hv hpos hne out (fusedOk_of hS.queries b1)
  rw [← f1] at hu
  exact ⟨res, _, u, h1, h2, hu, heq.trans hu⟩

end

/-- The condition is needed: when a run lacks a doc, its weight matters, and the two docs change places. -/
theorem C168_other_docs :
    ((Fuse.wmnz (.stable ℚ) [0] [1, 0] [[(1, [(10, (4 : ℚ))])], [(1, [(11, 5)])]] :
      Except Err (Store Nat Nat ℚ)).map (fun s => s.data)) = .ok [(1, [(10, 4), (11, 0)])] ∧
    ((Fuse.wmnz (.stable ℚ) [0] [0, 1] [[(1, [(10, (4 : ℚ))])], [(1, [(11, 5)])]] :
      Except Err (Store Nat Nat ℚ)).map (fun s => s.data)) = .ok [(1, [(11, 5), (10, 0)])] := by
  constructor <;> decide +kernel

/-! ### concrete cases -/

theorem twoDocs_same (runs : List (Store Nat Nat ℝ))
    (h : ∀ s ∈ runs, ∃ a b : ℝ, s = ⟨[(1, [(10, a), (11, b)])], false⟩) : Spec.SameDocs runs := by
  intro s hs s' hs' q d
  obtain ⟨a, b, rfl⟩ := h s hs
  obtain ⟨a', b', rfl⟩ := h s' hs'
  rw [twoDocs_read, twoDocs_read]
  split_ifs <;> simp

/-- the hypotheses of `C168_wmnz_weights` are met by two runs that rank the same two docs in opposite orders -/
example : 2 ≤ [lowFirst, tenFirst].length ∧ (∀ s ∈ [lowFirst, tenFirst], Store.Wf s.data) ∧
    Spec.SameQueries [lowFirst, tenFirst] ∧ Spec.SameDocs [lowFirst, tenFirst] ∧
    Spec.SchedulesCover oneEnv [lowFirst, tenFirst] ∧ Spec.NormNamed none none ∧
    Spec.NormNamed (some "min-max") (some .minMax) := by
  refine ⟨by decide, tenFirst_valid.wf, tenFirst_valid.sameQueries, twoDocs_same _ ?_, tenFirst_valid.schedules,
    .inl ⟨rfl, rfl⟩, .inr ⟨"min-max", .minMax, rfl, rfl, by decide +kernel, by decide⟩⟩
  intro s hs
  simp only [List.mem_cons, List.not_mem_nil, or_false] at hs
  rcases hs with rfl | rfl
  · exact ⟨3, 5, rfl⟩
  · exact ⟨5, 3, rfl⟩

/-- the hypotheses of the other two are met -/
example : Spec.ValidSearch oneEnv oneEvalEnv oneQrels [lowFirst, lowFirst] "map".toList ∧
    Spec.MetricNonneg oneEvalEnv "map".toList ∧ oneQrels.data ≠ [] ∧ Spec.SameDocs [lowFirst, lowFirst] ∧
    (∀ out, fuse oneEnv [lowFirst, lowFirst] none "sum" none = .ok out → Spec.FusedApart out) ∧
    ([1 / 4, 3 / 4] : List ℝ).length = [lowFirst, lowFirst].length ∧ 0 < ([1 / 4, 3 / 4] : List ℝ).sum := by
  refine ⟨low_valid, C101_metrics oneEvalEnv "map" _ (.inl rfl) (.inl (by decide +kernel)), by decide,
    twoDocs_same _ ?_, low_sum_apart, rfl, by norm_num⟩
  intro s hs
  simp only [List.mem_cons, List.not_mem_nil, or_false, or_self] at hs
  exact ⟨3, 5, hs.trans rfl⟩

end Ranx
