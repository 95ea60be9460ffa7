import Verif.Props.OptimizeTotal2
import Verif.Props.FusionRel
import Verif.Props.Evaluate2

/-!
# C156: tuning never does worse than the untuned method

`optimize_fusion` with the default search arguments tries the configurations that give the parameterless
method: `k = 60` for `rrf`, `gamma = 1` for `gmnz` (which is `mnz`), equal weights for two runs with `wsum` and
`wmnz` (which rank as `sum` and `mnz`). So fusing with the parameters it returns scores at least as well, on the
qrels the search was given.
-/

set_option linter.unusedSectionVars false

namespace Ranx
open Dict Store Metrics Eval Fuse Train Opt F64
open _root_.Ranx.Norm (Kind SetIter)

section
variable {κ δ ι : Type} [LinearOrder κ] [DecidableEq δ] [LinearOrder ι]

/-- Specification: the search returned parameters, and
`evaluate(qrels, fuse(runs, norm, method, params), metric)` is at least `evaluate(qrels, baseline, metric)`. -/
def Spec.TunedAtLeast (E : Env δ) (V : EvalEnv δ ι) (qrels : Store κ δ Int) (runs : List (Store κ δ ℝ))
    (norm : Option String) (method : String) (metric : Py.Str) (search : Except Err Result)
    (baseline : Except Err (Store κ δ ℝ)) : Prop :=
  ∃ (res : Result) (params : Kwargs) (u v : ℝ), search = .ok res ∧ res.params = some params ∧
    Spec.scoreOf V E.S qrels metric baseline = .ok (.val u) ∧
    Spec.scoreOf V E.S qrels metric (fuse E runs norm method (some params)) = .ok (.val v) ∧ u ≤ v

/-- a configuration that was tried does not beat the one returned -/
theorem Opt.tuned_beats (E : Env δ) (V : EvalEnv δ ι) (rowSched : List Nat) (rnd : ℚ → ℚ)
    (str : Kwargs → Py.Str) (strNat : Nat → Py.Str) (qrels : Store κ δ Int) (hq : Spec.Usable V.SQ qrels)
    (runs : List (Store κ δ ℝ)) (norm : Option String) (method : String) (metric : Py.Str) (wantReport : Bool)
    (space : Space) (m : Method) (hm : optimizationSwitch method = .ok (.plain m)) (res : Result) (params : Kwargs)
    (h : optimizeFusion E V rowSched rnd str strNat qrels runs norm method metric wantReport space = .ok res)
    (hp : res.params = some params) (tried : List Kwargs) (ht : configs rnd runs.length m space = .ok tried)
    (cfg : Kwargs) (hc : cfg ∈ tried) (u : ℝ)
    (hu : Spec.fusedScore E V qrels runs norm method metric cfg = .ok (.val u)) :
    ∃ v, Spec.fusedScore E V qrels runs norm method metric params = .ok (.val v) ∧ u ≤ v := by
  obtain ⟨tried', scores, k1, k2, k3, -⟩ := C65_best_configuration E V rowSched rnd str strNat qrels hq runs
    norm method metric wantReport space m hm res h
  rw [ht] at k1
  cases k1
  have hsl : scores.length = tried.length := by
    have := congrArg List.length k2
    simpa using this.symm
  have hsc : ∀ cfg sc, (cfg, sc) ∈ tried.zip scores →
      Spec.fusedScore E V qrels runs norm method metric cfg = .ok sc := by
    intro cfg sc hp
    obtain ⟨i, hi⟩ := List.getElem?_of_mem hp
    rw [List.getElem?_zip_eq_some] at hi
    have := congrArg (fun l => l[i]?) k2
    simp only [List.getElem?_map, hi.1, hi.2, Option.map_some, Option.some.injEq] at this
    exact this
  obtain ⟨sc, hmem⟩ : ∃ sc, (cfg, sc) ∈ tried.zip scores := by
    obtain ⟨i, hi, rfl⟩ := List.getElem_of_mem hc
    exact ⟨scores[i]'(by omega), List.mem_of_getElem? (i := i)
      (List.getElem?_zip_eq_some.2 ⟨List.getElem?_eq_getElem hi, List.getElem?_eq_getElem (by omega)⟩)⟩
  have hsu : sc = .val u := by
    have := (hsc cfg sc hmem).symm.trans hu
    cases this; rfl
  subst hsu
  rcases k3 with ⟨e, -⟩ | ⟨t, v, x, y, e, hl, -, h1, h2⟩
  · rw [hp] at e; cases e
  · rw [hp] at e
    cases e
    refine ⟨v, hsc _ _ (by rw [hl]; simp), ?_⟩
    rw [hl] at hmem
    rcases List.mem_append.1 hmem with hm' | hm'
    · exact h1 _ hm' u rfl
    · rcases List.mem_cons.1 hm' with e | hm'
      · cases e; exact le_refl _
      · exact (h2 _ hm' u rfl).le

/-- evaluating a fused run gives a number -/
theorem Opt.fused_scored (E : Env δ) (V : EvalEnv δ ι) (qrels : Store κ δ Int) (runs : List (Store κ δ ℝ))
    (metric : Py.Str) (hv : Spec.ValidSearch E V qrels runs metric) (hpos : Spec.MetricNonneg V metric)
    (hne : qrels.data ≠ []) (out : Store κ δ ℝ) (hok : FusedOk runs out) :
    ∃ u, Spec.scoreOf V E.S qrels metric (.ok out) = .ok (.val u) := by
  have hkeys : ∀ q, q ∈ qrels.data.keys ↔ q ∈ out.data.keys := by
    intro q
    rw [hok.queries q]
    constructor
    · intro hq'
      obtain ⟨r, hr⟩ : ∃ r, r ∈ runs := by
        have := hv.many
        cases runs with
        | nil => simp at this
        | cons r t => exact ⟨r, by simp⟩
      exact ⟨r.data, List.mem_map.2 ⟨r, hr, rfl⟩, (hv.queries r hr q).2 hq'⟩
    · rintro ⟨run, hr, hq'⟩
      obtain ⟨r, hr', rfl⟩ := List.mem_map.1 hr
      exact (hv.queries r hr' q).1 hq'
  obtain ⟨v, hval, hx⟩ := evalRun_total V E.S metric hv.metric qrels hv.qrelsOk hv.evaluations out hok.ok hkeys
  obtain ⟨u, rfl, -⟩ := hx hpos hne
  rw [evalRun_snd] at hval
  exact ⟨u, hval⟩

/-- what the theorems below share -/
theorem Opt.tuned_at_least (E : Env δ) (V : EvalEnv δ ι) (rowSched : List Nat)
    (str : Kwargs → Py.Str) (strNat : Nat → Py.Str) (qrels : Store κ δ Int) (runs : List (Store κ δ ℝ))
    (metric : Py.Str) (hv : Spec.ValidSearch E V qrels runs metric) (hpos : Spec.MetricNonneg V metric)
    (hne : qrels.data ≠ []) (norm : Option String) (hk : Spec.NormAccepted norm) (wantReport : Bool)
    (method : String) (space : Space) (hd : (method, space) ∈ Spec.defaultSpaces)
    (m : Method) (hm : optimizationSwitch method = .ok (.plain m))
    (tried : List Kwargs) (ht : configs fl runs.length m space = .ok tried) (cfg : Kwargs) (hc : cfg ∈ tried)
    (out : Store κ δ ℝ) (ho : fuse E runs norm method (some cfg) = .ok out) (hok : FusedOk runs out)
    (baseline : Except Err (Store κ δ ℝ))
    (hb : Spec.scoreOf V E.S qrels metric baseline = Spec.scoreOf V E.S qrels metric (.ok out)) :
    Spec.TunedAtLeast E V qrels runs norm method metric
      (optimizeFusion E V rowSched fl str strNat qrels runs norm method metric wantReport space) baseline := by
  obtain ⟨res, p, h1, h2⟩ := (C101_defaults E V rowSched str strNat qrels runs metric hv hpos hne norm hk
    wantReport).1 method space hd
  obtain ⟨u, hu⟩ := fused_scored E V qrels runs metric hv hpos hne out hok
  obtain ⟨v, hv', hle⟩ := tuned_beats E V rowSched fl str strNat qrels hv.qrelsOk runs norm method metric wantReport
    space m hm res p h1 h2 tried ht cfg hc u (by unfold Spec.fusedScore; rw [ho]; exact hu)
  exact ⟨res, p, u, v, h1, h2, hb.trans hu, hv', hle⟩

theorem Opt.fuse_named_none (E : Env δ) (runs : List (Store κ δ ℝ)) (hn : 2 ≤ runs.length)
    (hq : Spec.SameQueries runs) (norm : Option String) (name : String) (m : Method)
    (hm : (name, m) ∈ Spec.methodNames) (nr : List (Dict κ (Norm.Results δ ℝ)))
    (hnr : normalizeRuns E norm runs = .ok nr) :
    fuse E runs norm name none = m.call E [] nr := by
  unfold fuse
  rw [if_neg (by omega), if_pos ((pairwiseSameKeys_iff runs).2 hq), hnr]
  simp only
  rw [show fusionSwitch name = .ok m from fusionSwitch_known (name, m) hm]
  rfl

/-- **C156**: with the default search arguments, `optimize_fusion` on `rrf` returns a `k` at least as good as
`fuse(runs, norm, "rrf")` with its default `k`, and on `gmnz` a `gamma` at least as good as `fuse(runs, norm, "mnz")`,
for every number of runs, accepted normalization and metric that is never negative. -/
theorem C156_defaults (E : Env δ) (V : EvalEnv δ ι) (rowSched : List Nat)
    (str : Kwargs → Py.Str) (strNat : Nat → Py.Str) (qrels : Store κ δ Int) (runs : List (Store κ δ ℝ))
    (metric : Py.Str) (hv : Spec.ValidSearch E V qrels runs metric) (hpos : Spec.MetricNonneg V metric)
    (hne : qrels.data ≠ []) (norm : Option String) (hk : Spec.NormAccepted norm) (wantReport : Bool) :
    Spec.TunedAtLeast E V qrels runs norm "rrf" metric
      (optimizeFusion E V rowSched fl str strNat qrels runs norm "rrf" metric wantReport (.ints 10 100 10))
      (fuse E runs norm "rrf" none) ∧
    Spec.TunedAtLeast E V qrels runs norm "gmnz" metric
      (optimizeFusion E V rowSched fl str strNat qrels runs norm "gmnz" metric wantReport
        (.floats (fl (1 / 100)) 1 (fl (1 / 100)) "0.01".toList))
      (fuse E runs norm "mnz" none) := by
  obtain ⟨nr, hnr, hS⟩ := normed E runs hv.many hv.wf hv.sameQueries hv.schedules norm hk
  have hsome : ∀ (name : String) (m : Method), (name, m) ∈ Spec.methodNames → ∀ cfg,
      fuse E runs norm name (some cfg) = m.call E cfg nr := fun name m hm cfg =>
    fuse_named E runs hv.many hv.sameQueries norm name m hm cfg nr hnr
  have hnone : ∀ (name : String) (m : Method), (name, m) ∈ Spec.methodNames →
      fuse E runs norm name none = m.call E [] nr := fun name m hm =>
    fuse_named_none E runs hv.many hv.sameQueries norm name m hm nr hnr
  constructor
  · have hg : intGrid 10 100 10 = .ok [10, 20, 30, 40, 50, 60, 70, 80, 90, 100] := by decide +kernel
    obtain ⟨out, h1, h2⟩ := C51_rrf E.S E.sched E.scheds (60 : ℝ) nr (ranksClear_of_nonneg (by norm_num) nr)
      hS.fusable hS.fits.main hS.fits.rescore
    have e1 : fuse E runs norm "rrf" none = .ok out := by
      rw [hnone "rrf" .rrf (by decide +kernel)]; exact h1
    refine tuned_at_least E V rowSched str strNat qrels runs metric hv hpos hne norm hk wantReport "rrf"
      (.ints 10 100 10) (by unfold Spec.defaultSpaces; exact List.mem_cons_self ..) .rrf (by decide +kernel)
      (([10, 20, 30, 40, 50, 60, 70, 80, 90, 100] : List ℤ).map (fun (k : ℤ) => [("k", .num (k : ℝ))]))
      (by simp only [configs, hg, Except.map])
      [("k", .num ((60 : ℤ) : ℝ))] (List.mem_map.2 ⟨60, by decide, rfl⟩) out ?_ (fusedOk_of hS.queries h2) _ (by rw [e1])
    rw [hsome "rrf" .rrf (by decide +kernel)]
    have : ((60 : ℤ) : ℝ) = 60 := by norm_num
    rw [this]
    exact h1
  · obtain ⟨g, hg, h1g⟩ : ∃ g, grid fl (fl (1 / 100)) 1 (fl (1 / 100)) "0.01".toList = .ok g ∧ (1 : ℚ) ∈ g :=
      ⟨_, C67_defaults.1, by decide +kernel⟩
    obtain ⟨out, h1, h2⟩ := C49_comb_gmnz E.S E.sched (1 : ℝ) nr hS.fusable hS.fits.main
    have e1 : fuse E runs norm "mnz" none = .ok out := by
      rw [hnone "mnz" .combMnz (by decide +kernel)]
      exact ((C53_gmnz E.S E.sched nr).2).symm.trans h1
    refine tuned_at_least E V rowSched str strNat qrels runs metric hv hpos hne norm hk wantReport "gmnz"
      _ (by unfold Spec.defaultSpaces; exact List.mem_cons_of_mem _ (List.mem_cons_of_mem _ (List.mem_cons_self ..)))
      .combGmnz (by decide +kernel)
      (g.map (fun (x : ℚ) => [("gamma", .num (x : ℝ))])) (by simp only [configs, hg, Except.map])
      [("gamma", .num ((1 : ℚ) : ℝ))] (List.mem_map.2 ⟨1, h1g, rfl⟩) out ?_ (fusedOk_of hS.queries h2) _ (by rw [e1])
    rw [hsome "gmnz" .combGmnz (by decide +kernel)]
    have : ((1 : ℚ) : ℝ) = 1 := by norm_num
    rw [this]
    exact h1

/-- Specification: no query has two docs with the same score. -/
def Spec.FusedApart (s : Store κ δ ℝ) : Prop :=
  ∀ q d d' v, (Spec.content s).read q d = some v → (Spec.content s).read q d' = some v → d = d'

/-- halving every score does not change the evaluation of a run without ties -/
theorem Opt.score_halved (E : Env δ) (V : EvalEnv δ ι) (qrels : Store κ δ Int) (hq : Spec.Usable V.SQ qrels)
    (metric : Py.Str) (a b : Store κ δ ℝ) (ha : Spec.Usable E.S a) (hb : Spec.Usable E.S b)
    (hk : ∀ q, q ∈ a.data.keys ↔ q ∈ b.data.keys)
    (hr : ∀ q d, (Spec.content b).read q d = ((Spec.content a).read q d).map (fun x => 1 / 2 * x))
    (ht : Spec.FusedApart a) :
    Spec.scoreOf V E.S qrels metric (.ok a) = Spec.scoreOf V E.S qrels metric (.ok b) := by
  unfold Spec.scoreOf
  have := C34_only_ranking_matters V.F V.other V.SQ E.S E.S V.hash V.sched { save := false } qrels
    ⟨a, [], [], []⟩ ⟨b, [], [], []⟩ [metric] hq ha hb (fun x => 1 / 2 * x)
    (fun x y hxy => by simp only; linarith) hk hr ht
  simp only [this]

/-- **C156** (weights): for two runs whose unweighted fusion has no ties, `optimize_fusion` on `wsum` and `wmnz`
with the default search arguments returns weights at least as good as `fuse(runs, norm, "sum")` and
`fuse(runs, norm, "mnz")`. -/
theorem C156_two_runs (E : Env δ) (V : EvalEnv δ ι) (rowSched : List Nat)
    (str : Kwargs → Py.Str) (strNat : Nat → Py.Str) (qrels : Store κ δ Int) (runs : List (Store κ δ ℝ))
    (h2 : runs.length = 2)
    (metric : Py.Str) (hv : Spec.ValidSearch E V qrels runs metric) (hpos : Spec.MetricNonneg V metric)
    (hne : qrels.data ≠ []) (norm : Option String) (hk : Spec.NormAccepted norm) (wantReport : Bool)
    (weighted plain : String) (hwp : (weighted, plain) = ("wsum", "sum") ∨ (weighted, plain) = ("wmnz", "mnz"))
    (ht : ∀ out, fuse E runs norm plain none = .ok out → Spec.FusedApart out) :
    Spec.TunedAtLeast E V qrels runs norm weighted metric
      (optimizeFusion E V rowSched fl str strNat qrels runs norm weighted metric wantReport
        (.weights (fl (1 / 10)) "0.1".toList))
      (fuse E runs norm plain none) := by
  obtain ⟨nr, hnr, hS⟩ := normed E runs hv.many hv.wf hv.sameQueries hv.schedules norm hk
  have hlen : nr.length = 2 := by rw [hS.length, List.length_map, h2]
  have hsome : ∀ (name : String) (m : Method), (name, m) ∈ Spec.methodNames → ∀ cfg,
      fuse E runs norm name (some cfg) = m.call E cfg nr := fun name m hm cfg =>
    fuse_named E runs hv.many hv.sameQueries norm name m hm cfg nr hnr
  have hnone : ∀ (name : String) (m : Method), (name, m) ∈ Spec.methodNames →
      fuse E runs norm name none = m.call E [] nr := fun name m hm =>
    fuse_named_none E runs hv.many hv.sameQueries norm name m hm nr hnr
  have hcast : ([1 / 2, 1 / 2] : List ℚ).map (fun (x : ℚ) => (x : ℝ)) = [1 / 2, 1 / 2] := by norm_num
  have hmem : [("weights", PyVal.nums [1 / 2, 1 / 2])] ∈
      ((List.range 11).map (fun i : ℕ => [fl ((i : ℚ) / 10), fl ((10 - (i : ℚ)) / 10)])).map
        (fun ws => [("weights", PyVal.nums (ws.map (fun (x : ℚ) => (x : ℝ))))]) := by
    refine List.mem_map.2 ⟨[1 / 2, 1 / 2], ?_, by rw [hcast]⟩
    exact List.mem_map.2 ⟨5, by decide, by decide +kernel⟩
  have hw : nr.length ≤ ([1 / 2, 1 / 2] : List ℝ).length := by rw [hlen]; rfl
  rcases hwp with e | e
  · cases e
    obtain ⟨out, out', e1, e2, e3, -⟩ := C64_scale_weights E.S E.sched (1 / 2 : ℝ) (List.replicate nr.length 1) nr
      hS.fusable (by simp) hS.fits.main
    rw [C53_wsum_ones] at e1
    have er : (List.replicate nr.length (1 : ℝ)).map (fun w => 1 / 2 * w) = [1 / 2, 1 / 2] := by
      rw [hlen]; norm_num [List.replicate]
    rw [er] at e2
    obtain ⟨o1, a1, b1⟩ := C49_comb_sum E.S E.sched nr hS.fusable hS.fits.main
    obtain ⟨o2, a2, b2⟩ := C49_wsum E.S E.sched ([1 / 2, 1 / 2] : List ℝ) nr hS.fusable hw hS.fits.main
    have h1 : out = o1 := by rw [e1] at a1; cases a1; rfl
    have h2' : out' = o2 := by rw [e2] at a2; cases a2; rfl
    subst h1 h2'
    have f1 : fuse E runs norm "sum" none = .ok out := by
      rw [hnone "sum" .combSum (by decide +kernel)]; exact e1
    have f2 : fuse E runs norm "wsum" (some [("weights", .nums [1 / 2, 1 / 2])]) = .ok out' := by
      rw [hsome "wsum" .wsum (by decide +kernel)]; exact e2
    refine tuned_at_least E V rowSched str strNat qrels runs metric hv hpos hne norm hk wantReport "wsum"
      _ (by unfold Spec.defaultSpaces; simp only [List.mem_cons]; tauto) .wsum (by decide +kernel) _
      (by simp only [configs, h2, C66_two_runs, Except.map]) _ hmem out' f2 (fusedOk_of hS.queries b2) _ ?_
    rw [f1]
    exact score_halved E V qrels hv.qrelsOk metric out out' (fuse_usable E runs norm _ _ out f1)
      (fuse_usable E runs norm _ _ out' f2) (fun q => (b1.queries q).trans (b2.queries q).symm) e3 (ht out f1)
  · cases e
    obtain ⟨out, e1, b1⟩ := C49_comb_mnz E.S E.sched nr hS.fusable hS.fits.main
    obtain ⟨out', e2, b2⟩ := C49_wmnz E.S E.sched ([1 / 2, 1 / 2] : List ℝ) nr hS.fusable hw hS.fits.main
    have f1 : fuse E runs norm "mnz" none = .ok out := by
      rw [hnone "mnz" .combMnz (by decide +kernel)]; exact e1
    have f2 : fuse E runs norm "wmnz" (some [("weights", .nums [1 / 2, 1 / 2])]) = .ok out' := by
      rw [hsome "wmnz" .wmnz (by decide +kernel)]; exact e2
    refine tuned_at_least E V rowSched str strNat qrels runs metric hv hpos hne norm hk wantReport "wmnz"
      _ (by unfold Spec.defaultSpaces; simp only [List.mem_cons]; tauto) .wmnz (by decide +kernel) _
      (by simp only [configs, h2, C66_two_runs, Except.map]) _ hmem out' f2 (fusedOk_of hS.queries b2) _ ?_
    rw [f1]
    refine score_halved E V qrels hv.qrelsOk metric out out' (fuse_usable E runs norm _ _ out f1)
      (fuse_usable E runs norm _ _ out' f2) (fun q => (b1.queries q).trans (b2.queries q).symm) ?_ (ht out f1)
    intro q d
    by_cases hi : Spec.InSome nr q d
    · rw [b1.value q d hi, b2.value q d hi, Option.map_some]
      congr 1
      obtain ⟨a, b, rfl⟩ := List.length_eq_two.1 hlen
      unfold Spec.weighted Spec.scores
      simp only [List.zip_cons_cons, List.zip_nil_right, List.filterMap_cons, List.filterMap_nil]
      cases Spec.score? a q d <;> cases Spec.score? b q d <;> simp <;> ring
    · rw [not_not.1 (mt (b1.docs q d).1 hi), not_not.1 (mt (b2.docs q d).1 hi)]; rfl

end

/-- the sum of two runs without ties -/
theorem low_sum_apart (out : Store Nat Nat ℝ) (h : fuse oneEnv [lowFirst, lowFirst] none "sum" none = .ok out) :
    Spec.FusedApart out := by
  obtain ⟨nr, hnr, hS⟩ := normed oneEnv [lowFirst, lowFirst] low_valid.many low_valid.wf low_valid.sameQueries
    low_valid.schedules none (.inl rfl)
  rw [fuse_named_none oneEnv _ low_valid.many low_valid.sameQueries none "sum" .combSum (by decide +kernel) nr hnr] at h
  have hnr' : nr = [lowFirst.data, lowFirst.data] := by cases hnr; rfl
  subst hnr'
  obtain ⟨o, a, b⟩ := C49_comb_sum oneEnv.S oneEnv.sched _ hS.fusable hS.fits.main
  have e : o = out := by
    have : Except.ok o = Except.ok (ε := Err) out := a.symm.trans h
    cases this; rfl
  subst e
  have hin : ∀ q d, Spec.InSome [lowFirst.data, lowFirst.data] q d → q = 1 ∧ (d = 10 ∨ d = 11) := by
    rintro q d ⟨run, hr, v, hv, hd⟩
    simp only [List.mem_cons, List.not_mem_nil, or_false, or_self] at hr
    subst hr
    rw [lowFirst_eq] at hv
    change Dict.get? [(1, _)] q = some v at hv
    rw [get?_cons] at hv
    split at hv
    · next hq =>
      cases hv
      refine ⟨hq.symm, ?_⟩
      simpa [Dict.keys] using hd
    · cases hv
  have key : ∀ q d v, (Spec.content o).read q d = some v →
      q = 1 ∧ (d = 10 ∧ v = 6 ∨ d = 11 ∧ v = 10) := by
    intro q d v hr
    have hi : Spec.InSome [lowFirst.data, lowFirst.data] q d := (b.docs q d).1 (by rw [hr]; simp)
    obtain ⟨rfl, hd⟩ := hin q d hi
    rw [b.value 1 d hi] at hr
    refine ⟨rfl, ?_⟩
    rcases hd with rfl | rfl
    · have : Spec.scores [lowFirst.data, lowFirst.data] 1 10 = [3, 3] := rfl
      rw [this] at hr
      simp only [List.sum_cons, List.sum_nil, Option.some.injEq] at hr
      exact .inl ⟨rfl, by linarith⟩
    · have : Spec.scores [lowFirst.data, lowFirst.data] 1 11 = [5, 5] := rfl
      rw [this] at hr
      simp only [List.sum_cons, List.sum_nil, Option.some.injEq] at hr
      exact .inr ⟨rfl, by linarith⟩
  intro q d d' v h1 h2
  rcases (key q d v h1).2 with ⟨rfl, e⟩ | ⟨rfl, e⟩ <;> rcases (key q d' v h2).2 with ⟨rfl, e'⟩ | ⟨rfl, e'⟩
  · rfl
  · rw [e] at e'; norm_num at e'
  · rw [e] at e'; norm_num at e'
  · rfl

/-- the hypotheses are met: two runs whose sum has no ties -/
example : Spec.ValidSearch oneEnv oneEvalEnv oneQrels [lowFirst, lowFirst] "map".toList ∧
    Spec.MetricNonneg oneEvalEnv "map".toList ∧ oneQrels.data ≠ [] ∧ Spec.NormAccepted none ∧
    [lowFirst, lowFirst].length = 2 ∧
    (∀ out, fuse oneEnv [lowFirst, lowFirst] none "sum" none = .ok out → Spec.FusedApart out) ∧
    ∃ out, fuse oneEnv [lowFirst, lowFirst] none "sum" none = .ok out := by
  refine ⟨low_valid, C101_metrics oneEvalEnv "map" _ (.inl rfl) (.inl (by decide +kernel)), by decide, .inl rfl, rfl,
    low_sum_apart, ?_⟩
  obtain ⟨nr, hnr, hS⟩ := normed oneEnv [lowFirst, lowFirst] low_valid.many low_valid.wf low_valid.sameQueries
    low_valid.schedules none (.inl rfl)
  obtain ⟨o, a, -⟩ := C49_comb_sum oneEnv.S oneEnv.sched _ hS.fusable hS.fits.main
  exact ⟨o, (fuse_named_none oneEnv _ low_valid.many low_valid.sameQueries none "sum" .combSum (by decide +kernel) nr
    hnr).trans a⟩

end Ranx
