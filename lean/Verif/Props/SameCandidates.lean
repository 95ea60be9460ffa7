import Verif.Props.WmnzWeights

/-!
# Property C169: sum, anz, mnz and gmnz are the same method when the runs rank the same docs

For runs that re-rank the same candidates the number of runs that retrieved a doc is the same for all docs, so the
factors that `anz`, `mnz` and `gmnz` put on the sum do not matter.
-/

set_option linter.unusedSectionVars false

namespace Ranx
open Dict Store Metrics Eval Fuse Train Opt F64
open _root_.Ranx.Norm (Kind SetIter)

/-- Specification: the methods that multiply the sum of the scores of a doc by a function of the number of runs that
have it, with the factor for a doc that `n` runs have. -/
inductive Spec.SumLike : String → Option Kwargs → (ℕ → ℝ) → Prop
  | sum : SumLike "sum" none (fun _ => 1)
  | anz : SumLike "anz" none (fun n => 1 / n)
  | mnz : SumLike "mnz" none (fun n => n)
  | gmnz (g : ℝ) : SumLike "gmnz" (some [("gamma", .num g)]) (fun n => (n : ℝ) ^ g)

section
variable {κ δ ι : Type} [LinearOrder κ] [DecidableEq δ] [LinearOrder ι]

theorem Opt.scores_length (q : κ) (d : δ) (nr : List (Dict κ (Norm.Results δ ℝ)))
    (h : ∀ run ∈ nr, (Spec.score? run q d).isSome) : (Spec.scores nr q d).length = nr.length := by
  unfold Spec.scores
  induction nr with
  | nil => rfl
  | cons run nr ih =>
    obtain ⟨x, hx⟩ := Option.isSome_iff_exists.1 (h run (by simp))
    rw [List.filterMap_cons, hx]
    simp only [List.length_cons]
    rw [ih (fun r hr => h r (List.mem_cons_of_mem _ hr))]

/-- **C169**: if all runs have the same docs per query, then with any normalization but borda the methods `sum`, `anz`,
`mnz` and `gmnz` with any `gamma` give the same docs, with scores that differ by one positive factor. -/
theorem C169_same_candidates (E : Env δ) (runs : List (Store κ δ ℝ)) (hn : 2 ≤ runs.length)
    (hw : ∀ s ∈ runs, Store.Wf s.data) (hq : Spec.SameQueries runs) (hdocs : Spec.SameDocs runs)
    (hE : Spec.SchedulesCover E runs) (norm : Option String) (k : Option Kind) (hk : Spec.NormNamed norm k) :
    ∃ out, fuse E runs norm "sum" none = .ok out ∧ ∀ method params factor, Spec.SumLike method params factor →
      0 < factor runs.length ∧ ∃ out', fuse E runs norm method params = .ok out' ∧
        (∀ q, q ∈ out'.data.keys ↔ q ∈ out.data.keys) ∧
        ∀ q d, (Spec.content out').read q d = ((Spec.content out).read q d).map (fun x => factor runs.length * x) := by
  obtain ⟨nr, hnr, hS⟩ := normStep E runs hn hw hq hE norm k hk
  obtain ⟨hlen, hin⟩ := all_runs_have runs hw hdocs E k nr hS
  obtain ⟨out, e1, b1⟩ := C49_comb_sum E.S E.sched nr hS.fusable hS.fits.main
  have f1 := (fuse_named_none E runs hn hq norm "sum" .combSum (by decide +kernel) nr hnr).trans e1
  refine ⟨out, f1, ?_⟩
  have hpos : (0 : ℝ) < (runs.length : ℝ) := by exact_mod_cast (by omega : 0 < runs.length)
  have fin : ∀ (val : κ → δ → ℝ) (c : ℝ) (out' : Store κ δ ℝ), Spec.FusedBy nr val out' →
      (∀ q d, Spec.InSome nr q d → val q d = c * (Spec.scores nr q d).sum) →
      (∀ q, q ∈ out'.data.keys ↔ q ∈ out.data.keys) ∧
        ∀ q d, (Spec.content out').read q d = ((Spec.content out).read q d).map (fun x => c * x) := by
    intro val c out' b2 hval
    refine ⟨fun q => (b2.queries q).trans (b1.queries q).symm, fun q d => ?_⟩
    by_cases hi : Spec.InSome nr q d
    · rw [b1.value q d hi, b2.value q d hi, hval q d hi]; rfl
    · rw [not_not.1 (mt (b1.docs q d).1 hi), not_not.1 (mt (b2.docs q d).1 hi)]; rfl
  intro method params factor hm
  cases hm with
  | sum =>
    refine ⟨one_pos, out, f1, fin _ 1 out b1 (fun q d _ => by rw [one_mul])⟩
  | anz =>
    obtain ⟨out', e2, b2⟩ := C49_comb_anz E.S E.sched nr hS.fusable hS.fits.main
    refine ⟨by positivity, out',
      (fuse_named_none E runs hn hq norm "anz" .combAnz (by decide +kernel) nr hnr).trans e2, fin _ _ out' b2 ?_⟩
    intro q d hi
    rw [scores_length q d nr (hin q d hi), hlen]; ring
  | mnz =>
    obtain ⟨out', e2, b2⟩ := C49_comb_mnz E.S E.sched nr hS.fusable hS.fits.main
    refine ⟨hpos, out',
      (fuse_named_none E runs hn hq norm "mnz" .combMnz (by decide +kernel) nr hnr).trans e2, fin _ _ out' b2 ?_⟩
    intro q d hi
    rw [scores_length q d nr (hin q d hi), hlen]; ring
  | gmnz g =>
    obtain ⟨out', e2, b2⟩ := C49_comb_gmnz E.S E.sched g nr hS.fusable hS.fits.main
    refine ⟨Real.rpow_pos_of_pos hpos g, out',
      (fuse_named E runs hn hq norm "gmnz" .combGmnz (by decide +kernel) _ nr hnr).trans e2, fin _ _ out' b2 ?_⟩
    intro q d hi
    rw [scores_length q d nr (hin q d hi), hlen]; ring

/-- **C169** (evaluation): then the four methods get the same value of every metric, if no two docs of a query have the
same summed score. -/
theorem C169_same_score (E : Env δ) (V : EvalEnv δ ι) (qrels : Store κ δ Int) (hqr : Spec.Usable V.SQ qrels)
    (metric : Py.Str) (runs : List (Store κ δ ℝ)) (hn : 2 ≤ runs.length)
    (hw : ∀ s ∈ runs, Store.Wf s.data) (hq : Spec.SameQueries runs) (hdocs : Spec.SameDocs runs)
    (hE : Spec.SchedulesCover E runs) (norm : Option String) (k : Option Kind) (hk : Spec.NormNamed norm k)
    (ht : ∀ out, fuse E runs norm "sum" none = .ok out → Spec.FusedApart out)
    (method : String) (params : Option Kwargs) (factor : ℕ → ℝ) (hm : Spec.SumLike method params factor) :
    Spec.scoreOf V E.S qrels metric (fuse E runs norm method params) =
      Spec.scoreOf V E.S qrels metric (fuse E runs norm "sum" none) := by
  obtain ⟨out, f1, h⟩ := C169_same_candidates E runs hn hw hq hdocs hE norm k hk
  obtain ⟨hpos, out', f2, hk', hv⟩ := h method params factor hm
  rw [f1, f2]
  unfold Spec.scoreOf
  have := C34_only_ranking_matters V.F V.other V.SQ E.S E.S V.hash V.sched { save := false } qrels
    ⟨out, [], [], []⟩ ⟨out', [], [], []⟩ [metric] hqr (fuse_usable E runs norm _ _ out f1)
    (fuse_usable E runs norm _ _ out' f2) (fun x => factor runs.length * x)
    (fun x y hxy => mul_lt_mul_of_pos_left hxy hpos) (fun q => (hk' q).symm) hv (ht out f1)
  simp only [this]

/-- **C169** (tuning): then tuning `gmnz` is without effect: the `gamma` that `optimize_fusion` returns with the default
search arguments scores exactly what `fuse(runs, norm, "sum")` scores. -/
theorem C169_tuning_gmnz_is_idle (E : Env δ) (V : EvalEnv δ ι) (rowSched : List Nat)
    (str : Kwargs → Py.Str) (strNat : Nat → Py.Str) (qrels : Store κ δ Int) (runs : List (Store κ δ ℝ))
    (metric : Py.Str) (hv : Spec.ValidSearch E V qrels runs metric) (hpos : Spec.MetricNonneg V metric)
    (hne : qrels.data ≠ []) (norm : Option String) (k : Option Kind) (hk : Spec.NormNamed norm k)
    (wantReport : Bool) (hdocs : Spec.SameDocs runs)
    (ht : ∀ out, fuse E runs norm "sum" none = .ok out → Spec.FusedApart out) :
    Spec.TunedNoBetter E V qrels runs norm "gmnz" metric
      (optimizeFusion E V rowSched fl str strNat qrels runs norm "gmnz" metric wantReport
        (.floats (fl (1 / 100)) 1 (fl (1 / 100)) "0.01".toList))
      (fuse E runs norm "sum" none) := by
  have hacc : Spec.NormAccepted norm := by
    rcases hk with ⟨rfl, -⟩ | ⟨n, x, rfl, -, hx, -⟩
    · exact .inl rfl
    · exact .inr ⟨n, List.mem_map.2 ⟨_, hx, rfl⟩, rfl⟩
  obtain ⟨res, p, h1, h2⟩ := (C101_defaults E V rowSched str strNat qrels runs metric hv hpos hne norm hacc
    wantReport).1 "gmnz" (.floats (fl (1 / 100)) 1 (fl (1 / 100)) "0.01".toList)
    (by unfold Spec.defaultSpaces; simp only [List.mem_cons]; tauto)
  obtain ⟨tried, scores, k1, k2, k3, -⟩ := C65_best_configuration E V rowSched fl str strNat qrels hv.qrelsOk runs
    norm "gmnz" metric wantReport _ .combGmnz (by decide +kernel) res h1
  have hp : p ∈ tried := by
    rcases k3 with ⟨e, -⟩ | ⟨t, v, x, y, e, hl, -, -, -⟩
    · rw [h2] at e; cases e
    · rw [h2] at e
      cases e
      have : (p, Num.val v) ∈ tried.zip scores := by rw [hl]; simp
      exact (List.of_mem_zip this).1
  obtain ⟨g, rfl⟩ : ∃ g : ℝ, p = [("gamma", .num g)] := by
    simp only [configs] at k1
    cases hg : grid fl (fl (1 / 100)) 1 (fl (1 / 100)) "0.01".toList with
    | error e => rw [hg] at k1; cases k1
    | ok xs =>
      rw [hg] at k1
      cases k1
      obtain ⟨x, -, rfl⟩ := List.mem_map.1 hp
      exact ⟨_, rfl⟩
  have heq := C169_same_score E V qrels hv.qrelsOk metric runs hv.many hv.wf hv.sameQueries hdocs hv.schedules norm k hk
    ht _ _ _ (.gmnz g)
  obtain ⟨nr, hnr, hS⟩ := normed E runs hv.many hv.wf hv.sameQueries hv.schedules norm hacc
  obtain ⟨out, e1, b1⟩ := C49_comb_sum E.S E.sched nr hS.fusable hS.fits.main
  have f1 : fuse E runs norm "sum" none = .ok out :=
    (fuse_named_none E runs hv.many hv.sameQueries norm "sum" .combSum (by decide +kernel) nr hnr).trans e1
  obtain ⟨u, hu⟩ := fused_scored E V qrels runs metric hv hpos hne out (fusedOk_of hS.queries b1)
  rw [← f1] at hu
  exact ⟨res, _, u, h1, h2, hu, heq.trans hu⟩

end

/-- The condition is needed: of a doc that both runs have and one that a single run has, `sum` ranks the second first and
`mnz` the first. -/
theorem C169_other_docs :
    ((Fuse.combSum (.stable ℚ) [0] [[(1, [(10, (2 : ℚ)), (11, 5)])], [(1, [(10, 2)])]] :
      Except Err (Store Nat Nat ℚ)).map (fun s => s.data)) = .ok [(1, [(11, 5), (10, 4)])] ∧
    ((Fuse.combMnz (.stable ℚ) [0] [[(1, [(10, (2 : ℚ)), (11, 5)])], [(1, [(10, 2)])]] :
      Except Err (Store Nat Nat ℚ)).map (fun s => s.data)) = .ok [(1, [(10, 8), (11, 5)])] := by
  constructor <;> decide +kernel

/-- the hypotheses are met by two runs that rank the same two docs -/
example : Spec.ValidSearch oneEnv oneEvalEnv oneQrels [lowFirst, lowFirst] "map".toList ∧
    Spec.MetricNonneg oneEvalEnv "map".toList ∧ oneQrels.data ≠ [] ∧ Spec.SameDocs [lowFirst, lowFirst] ∧
    Spec.NormNamed none none ∧
    (∀ out, fuse oneEnv [lowFirst, lowFirst] none "sum" none = .ok out → Spec.FusedApart out) ∧
    Spec.SumLike "gmnz" (some [("gamma", .num 2)]) (fun n => (n : ℝ) ^ (2 : ℝ)) := by
  refine ⟨low_valid, C101_metrics oneEvalEnv "map" _ (.inl rfl) (.inl (by decide +kernel)), by decide,
    twoDocs_same _ ?_, .inl ⟨rfl, rfl⟩, low_sum_apart, .gmnz 2⟩
  intro s hs
  simp only [List.mem_cons, List.not_mem_nil, or_false, or_self] at hs
  exact ⟨3, 5, hs.trans rfl⟩

end Ranx
