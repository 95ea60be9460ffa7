import Verif.Props.Tuned
import Verif.Props.ZeroWeight
import Verif.Props.EvaluateNorm

/-!
# Property C167: when the runs rank the same docs, tuned wsum is at least as good as every one of them

The weights `optimize_fusion` tries by default contain the ones that select a single run.
-/

set_option linter.unusedSectionVars false

namespace Ranx
open Dict Store Metrics Eval Fuse Train Opt F64
open _root_.Ranx.Norm (Kind SetIter)

/-- for every number of runs, the default search over weights tries weight 1 for one run and 0 for the others -/
theorem Opt.unit_weights_tried (a b : ℕ) :
    ∃ T, weightTrials fl (fl (1 / 10)) "0.1".toList (a + (b + 1)) = .ok T ∧
      (List.replicate a 0 ++ 1 :: List.replicate b 0) ∈ T := by
  obtain ⟨T, hT⟩ := default_trials_ok (a + (b + 1))
  refine ⟨T, hT, (mem_default_trials _ _ T hT).2 ⟨List.replicate a 0 ++ 10 :: List.replicate b 0, by simp, ?_, ?_, ?_⟩⟩
  · intro j hj
    simp only [List.mem_append, List.mem_replicate, List.mem_cons] at hj
    omega
  · rw [List.map_append, List.map_cons, List.map_replicate, List.map_replicate]
    rw [show tenth 0 = 0 by decide +kernel, show tenth 10 = 1 by decide +kernel]
  · have hz : ∀ (n : ℕ) (x : ℚ), fl x = x → tenthSum (List.replicate n 0) x = x := by
      intro n x hx
      induction n with
      | zero => rfl
      | succ n ih =>
        unfold tenthSum at ih ⊢
        rw [List.replicate_succ, List.foldl_cons, show tenth 0 = 0 by decide +kernel, add_zero, hx]
        exact ih
    have happ : ∀ (l m : List ℕ) (x : ℚ), tenthSum (l ++ m) x = tenthSum m (tenthSum l x) := by
      intro l m x
      unfold tenthSum
      rw [List.foldl_append]
    rw [happ, hz a 0 (by decide +kernel)]
    have : tenthSum (10 :: List.replicate b 0) 0 = tenthSum (List.replicate b 0) 1 := by
      unfold tenthSum
      rw [List.foldl_cons, show fl (0 + tenth 10) = 1 by decide +kernel]
    rw [this, hz b 1 (by decide +kernel)]

section
variable {κ δ ι : Type} [LinearOrder κ] [DecidableEq δ] [LinearOrder ι]

/-- Specification: no normalization, or min-max, max, sum or zmuv. -/
def Spec.RankingNorm (norm : Option String) : Prop :=
  norm = none ∨ ∃ n ∈ ["min-max", "min_max", "max", "sum", "zmuv"], norm = some n

theorem Opt.rankingNorm_query (E : Env δ) (norm : Option String) (hn : Spec.RankingNorm norm) :
    ∃ g : Norm.Results δ ℝ → Norm.Results δ ℝ, (∀ rs, normQuery E norm rs = rs.map g) ∧
      ∀ r, NodupKeys r → Spec.SameOrder r (g r) := by
  have key : ∀ n k, Norm.normSwitch n = .ok k → n ≠ "borda" → Spec.OrderNorm (normFun E.S k : Norm.Results δ ℝ → _) →
      ∃ g : Norm.Results δ ℝ → Norm.Results δ ℝ, (∀ rs, normQuery E (some n) rs = rs.map g) ∧
        ∀ r, NodupKeys r → Spec.SameOrder r (g r) := by
    intro n k hk hb ho
    refine ⟨normFun E.S k, fun rs => ?_, fun r hr => (orderNorm_same ho r hr).1⟩
    unfold normQuery
    simp only
    rw [if_pos hb, hk]
  rcases hn with rfl | ⟨n, hn, rfl⟩
  · exact ⟨id, fun rs => by rw [List.map_id]; rfl, fun r _ d e a b ha hb => ⟨a, b, ha, hb, .rfl, .rfl⟩⟩
  · simp only [List.mem_cons, List.not_mem_nil, or_false] at hn
    rcases hn with rfl | rfl | rfl | rfl | rfl
    · exact key _ .minMax (by decide +kernel) (by decide) .minMax
    · exact key _ .minMax (by decide +kernel) (by decide) .minMax
    · exact key _ .max (by decide +kernel) (by decide) .max
    · exact key _ .sum (by decide +kernel) (by decide) .sum
    · exact key _ .zmuv (by decide +kernel) (by decide) .zmuv

/-- the score in wsum when all weights but one are zero -/
theorem Opt.single_weight_value (E : Env δ) (A B : List (Store κ δ ℝ)) (e : Store κ δ ℝ)
    (hw : ∀ s ∈ A ++ e :: B, Store.Wf s.data) (w : ℝ) (hE : Spec.SchedulesCover E (A ++ e :: B))
    (norm : Option String) (hb : ¬ Spec.UsesBorda norm "wsum") (g : Norm.Results δ ℝ → Norm.Results δ ℝ)
    (hg : ∀ rs, normQuery E norm rs = rs.map g) (out : Store κ δ ℝ)
    (h : fuse E (A ++ e :: B) norm "wsum" (some [("weights",
      .nums (List.replicate A.length 0 ++ w :: List.replicate B.length 0))]) = .ok out) (q : κ) (d : δ) (v : ℝ)
    (hv : (Spec.content out).read q d = some v) : v = w * ((g ((e.data.get? q).getD [])).get? d).getD 0 := by
  obtain ⟨hu1, hu2⟩ := C48_fuse_union_partial E _ hw norm "wsum" _ hE (fun x => absurd x hb) out h
  obtain ⟨m, hm1, hL⟩ := fuse_local E _ hw norm "wsum" _ hE (fun x => absurd x hb) out h
  have hsw : fusionSwitch "wsum" = .ok .wsum := by decide +kernel
  cases hm1.symm.trans hsw
  rw [read_score?] at hv
  unfold Spec.score? at hv
  cases hgq : out.data.get? q with
  | none => rw [hgq] at hv; cases hv
  | some r0 =>
    have hq : q ∈ out.data.keys := get?_isSome.1 (by rw [hgq]; rfl)
    obtain ⟨s, hs, hqs⟩ := (hu1 q).1 hq
    obtain ⟨r, hr1, hr2⟩ := hL.get q ⟨s.data, List.mem_map.2 ⟨s, hs, rfl⟩, hqs⟩
    rw [hr2] at hv
    have hsc := (sortedCombine_get? E.S _ _ r hr1).1 d v hv
    have e1 : resultsFor ((A ++ e :: B).map (fun s => s.data)) q =
        A.map (fun s => (s.data.get? q).getD []) ++ (e.data.get? q).getD [] ::
          B.map (fun s => (s.data.get? q).getD []) := by
      unfold resultsFor
      rw [List.map_map, List.map_append, List.map_cons]
      rfl
    rw [hg, e1, List.map_append, List.map_cons, List.map_map, List.map_map] at hsc
    exact Fuse.wsumScore_single A.length B.length w _ _ _ (by rw [List.length_map]) d v hsc

/-- **C167**: let all runs rank, for every query, no docs beyond those of the run `e` among them, and let no two docs
of a query have the same score in `e`. Then `optimize_fusion` with `wsum`, the default search arguments and no
normalization or min-max, max, sum or zmuv returns weights with which the fused run scores at least as well as `e`, on
the qrels the search was given, for every metric that is never negative and any number of runs. -/
theorem C167_tuned_beats_each_run (E : Env δ) (V : EvalEnv δ ι) (rowSched : List Nat)
    (str : Kwargs → Py.Str) (strNat : Nat → Py.Str) (qrels : Store κ δ Int) (runs : List (Store κ δ ℝ))
    (metric : Py.Str) (hv : Spec.ValidSearch E V qrels runs metric) (hpos : Spec.MetricNonneg V metric)
    (hne : qrels.data ≠ []) (norm : Option String) (hn : Spec.RankingNorm norm) (wantReport : Bool)
    (e : Store κ δ ℝ) (he : e ∈ runs) (hu : Spec.Usable E.S e)
    (hdocs : ∀ s ∈ runs, ∀ q d, (Spec.content s).read q d ≠ none → (Spec.content e).read q d ≠ none)
    (ht : ∀ q d d' v, (Spec.content e).read q d = some v → (Spec.content e).read q d' = some v → d = d') :
    Spec.TunedAtLeast E V qrels runs norm "wsum" metric
      (optimizeFusion E V rowSched fl str strNat qrels runs norm "wsum" metric wantReport
        (.weights (fl (1 / 10)) "0.1".toList)) (.ok e) := by
  obtain ⟨A, B, rfl⟩ := List.append_of_mem he
  obtain ⟨g, hg1, hg2⟩ := rankingNorm_query E norm hn
  have hb : ¬ Spec.UsesBorda norm "wsum" := by
    have hnb : norm ≠ some "borda" := by
      rcases hn with rfl | ⟨n, hn, rfl⟩
      · exact fun h => nomatch h
      · rintro h
        cases h
        revert hn; decide
    rintro (h | h | h)
    · exact hnb h
    · exact absurd h (by decide)
    · exact absurd h (by decide)
  have hk : Spec.NormAccepted norm := by
    rcases hn with rfl | ⟨n, hn, rfl⟩
    · exact .inl rfl
    · have hall : ∀ n ∈ ["min-max", "min_max", "max", "sum", "zmuv"], n ∈ Spec.normNames.map Prod.fst := by
        decide +kernel
      exact .inr ⟨n, hall n hn, rfl⟩
  obtain ⟨nr, hnr, hS⟩ := normed E _ hv.many hv.wf hv.sameQueries hv.schedules norm hk
  obtain ⟨T, hT, hmem⟩ := unit_weights_tried A.length B.length
  have hlen : (A ++ e :: B).length = A.length + (B.length + 1) := by simp
  have hcfg : configs fl (A ++ e :: B).length .wsum (.weights (fl (1 / 10)) "0.1".toList) =
      .ok (T.map (fun ws => [("weights", PyVal.nums (ws.map (fun (x : ℚ) => (x : ℝ))))])) := by
    rw [hlen]
    simp only [configs, hT, Except.map]
  have hcast : (List.replicate A.length 0 ++ 1 :: List.replicate B.length 0 : List ℚ).map (fun (x : ℚ) => (x : ℝ)) =
      List.replicate A.length 0 ++ 1 :: List.replicate B.length 0 := by
    simp
  have hmem' : [("weights", PyVal.nums (List.replicate A.length 0 ++ (1 : ℝ) :: List.replicate B.length 0))] ∈
      T.map (fun ws => [("weights", PyVal.nums (ws.map (fun (x : ℚ) => (x : ℝ))))]) :=
    List.mem_map.2 ⟨_, hmem, by rw [hcast]⟩
  obtain ⟨out, e1, b1⟩ := C49_wsum E.S E.sched (List.replicate A.length 0 ++ (1 : ℝ) :: List.replicate B.length 0) nr
    hS.fusable (by rw [hS.length, List.length_map, hlen]; simp) hS.fits.main
  have f1 : fuse E (A ++ e :: B) norm "wsum" (some [("weights",
      .nums (List.replicate A.length 0 ++ (1 : ℝ) :: List.replicate B.length 0))]) = .ok out :=
    (fuse_named E _ hv.many hv.sameQueries norm "wsum" .wsum (by decide +kernel) _ nr hnr).trans e1
  refine tuned_at_least E V rowSched str strNat qrels _ metric hv hpos hne norm hk wantReport "wsum"
    _ (by unfold Spec.defaultSpaces; simp only [List.mem_cons]; tauto) .wsum (by decide +kernel) _
    hcfg _ hmem' out f1 (fusedOk_of hS.queries b1) _ ?_
  obtain ⟨-, hu2⟩ := C48_fuse_union_partial E _ hv.wf norm "wsum" _ hv.schedules (fun x => absurd x hb) out f1
  have hsame : ∀ q d, (Spec.content e).read q d ≠ none ↔ (Spec.content out).read q d ≠ none := by
    intro q d
    rw [hu2 q d]
    constructor
    · intro h; exact ⟨e, he, h⟩
    · rintro ⟨s, hs, h⟩; exact hdocs s hs q d h
  have hwf : Store.Wf e.data := hv.wf e he
  have hrank : ∀ q, Spec.SameRanking (Spec.content e) (Spec.content out) q := by
    intro q
    refine ⟨fun d => ?_, ht q, ?_⟩
    · have := hsame q d
      cases h1 : (Spec.content e).read q d <;> cases h2 : (Spec.content out).read q d <;> simp_all
    · intro d d' v v' u u' h1 h2 h3 h4 hlt
      have hu' := single_weight_value E A B e hv.wf 1 hv.schedules norm hb g hg1 out f1 q d u h3
      have hu'' := single_weight_value E A B e hv.wf 1 hv.schedules norm hb g hg1 out f1 q d' u' h4
      rw [read_score?] at h1 h2
      unfold Spec.score? at h1 h2
      cases hq : e.data.get? q with
      | none => rw [hq] at h1; cases h1
      | some r =>
        rw [hq] at h1 h2 hu' hu''
        obtain ⟨a, b, ha, hb', hlt', -⟩ := hg2 r (hwf.get? hq) d d' v v' h1 h2
        simp only [Option.getD_some, one_mul] at hu' hu''
        rw [ha] at hu'
        rw [hb'] at hu''
        rw [hu', hu'']
        exact hlt'.2 hlt
  unfold Spec.scoreOf
  have := evaluate_same_order V.F V.other V.SQ E.S E.S V.hash V.sched { save := false } qrels
    ⟨e, [], [], []⟩ ⟨out, [], [], []⟩ [metric] hv.qrelsOk hu (fuse_usable E _ norm _ _ out f1)
    (.inr (fun q => by
      change q ∈ e.data.keys ↔ q ∈ out.data.keys
      rw [b1.queries q, hS.queries q]
      constructor
      · intro h; exact ⟨e.data, List.mem_map.2 ⟨e, he, rfl⟩, h⟩
      · rintro ⟨run, hr, hq⟩
        obtain ⟨s, hs, rfl⟩ := List.mem_map.1 hr
        exact hv.sameQueries s hs e he q hq))
    (fun q _ => hrank q)
  simp only [this]

end

/-! ### a concrete case: two runs that rank the same two docs in opposite orders -/

/-- ranks doc 10 before doc 11 -/
noncomputable def tenFirst : Store Nat Nat ℝ := ⟨[(1, [(10, 5), (11, 3)])], false⟩

theorem tenFirst_valid : Spec.ValidSearch oneEnv oneEvalEnv oneQrels [lowFirst, tenFirst] "map".toList := by
  have hs : Schedule 1 [0] := by unfold Schedule; decide
  have hl : ∀ (j : Nat) s, [lowFirst, tenFirst][j]? = some s → s.data.length = 1 := by
    intro j s h
    have := List.mem_of_getElem? h
    simp only [List.mem_cons, List.not_mem_nil, or_false] at this
    rcases this with rfl | rfl <;> rfl
  refine ⟨oneQrels_usable, by decide, ?_, ?_, ⟨?_, ?_, ?_⟩, fun i => hs, low_valid.metric⟩
  · intro r hr
    simp only [List.mem_cons, List.not_mem_nil, or_false] at hr
    rcases hr with rfl | rfl
    · exact wf_low
    · exact ⟨by unfold NodupKeys tenFirst; decide, by unfold NodupKeys tenFirst; simp⟩
  · intro r hr
    simp only [List.mem_cons, List.not_mem_nil, or_false] at hr
    rcases hr with rfl | rfl
    · exact low_valid.queries _ (by simp)
    · exact low_valid.queries lowFirst (by simp)
  · intro s h; rw [hl 0 s h]; exact hs
  · intro j s h; rw [hl j s h]; exact hs
  · intro j s h; rw [hl j s h]; exact hs

theorem twoDocs_read (a b : ℝ) (q d : Nat) :
    (Spec.content (⟨[(1, [(10, a), (11, b)])], false⟩ : Store Nat Nat ℝ)).read q d =
      if q = 1 then (if d = 10 then some a else if d = 11 then some b else none) else none := by
  rw [read_score?]
  unfold Spec.score?
  simp only [get?_cons]
  by_cases hq : q = 1
  · subst hq
    by_cases h1 : d = 10
    · subst h1; simp [get?_cons]
    · by_cases h2 : d = 11
      · subst h2; simp [get?_cons]
      · have h1' : ¬ 10 = d := fun h => h1 h.symm
        have h2' : ¬ 11 = d := fun h => h2 h.symm
        simp [get?_cons, h1, h2, h1', h2']
  · have hq' : ¬ 1 = q := fun h => hq h.symm
    simp [hq, hq']

/-- the hypotheses are met, with either run as the one to beat -/
example : Spec.ValidSearch oneEnv oneEvalEnv oneQrels [lowFirst, tenFirst] "map".toList ∧
    Spec.MetricNonneg oneEvalEnv "map".toList ∧ oneQrels.data ≠ [] ∧
    Spec.RankingNorm none ∧ Spec.RankingNorm (some "zmuv") ∧
    ∀ e ∈ [lowFirst, tenFirst], Spec.Usable oneEnv.S e ∧
      (∀ s ∈ [lowFirst, tenFirst], ∀ q d, (Spec.content s).read q d ≠ none → (Spec.content e).read q d ≠ none) ∧
      (∀ q d d' v, (Spec.content e).read q d = some v → (Spec.content e).read q d' = some v → d = d') := by
  refine ⟨tenFirst_valid, C101_metrics oneEvalEnv "map" _ (.inl rfl) (.inl (by decide +kernel)), by decide, .inl rfl,
    .inr ⟨"zmuv", by decide, rfl⟩, ?_⟩
  have hform : ∀ e ∈ [lowFirst, tenFirst], ∃ a b : ℝ, a ≠ b ∧ e = ⟨[(1, [(10, a), (11, b)])], false⟩ := by
    intro e he
    simp only [List.mem_cons, List.not_mem_nil, or_false] at he
    rcases he with rfl | rfl
    · exact ⟨3, 5, by norm_num, rfl⟩
    · exact ⟨5, 3, by norm_num, rfl⟩
  intro e he
  refine ⟨usable_of_unsorted _ _ (tenFirst_valid.wf e he) ?_, ?_, ?_⟩
  · obtain ⟨a, b, -, rfl⟩ := hform e he; rfl
  · intro s hs q d
    obtain ⟨a, b, -, rfl⟩ := hform e he
    obtain ⟨a', b', -, rfl⟩ := hform s hs
    rw [twoDocs_read, twoDocs_read]
    split_ifs <;> simp
  · intro q d d' v
    obtain ⟨a, b, hab, rfl⟩ := hform e he
    rw [twoDocs_read, twoDocs_read]
    intro h1 h2
    split_ifs at h1 h2 <;> simp_all

end Ranx
