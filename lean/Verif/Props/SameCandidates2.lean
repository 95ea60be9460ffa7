import Verif.Props.SameCandidates

/-!
# Property C170: isr, log_isr and logn_isr are the same method when the runs rank the same docs

The three multiply the sum of inverse square ranks by a function of the number of runs that have the doc, which is the
same for all docs when the runs re-rank the same candidates.
-/

set_option linter.unusedSectionVars false

namespace Ranx
open Dict Store Metrics Eval Fuse Train Opt F64
open _root_.Ranx.Norm (Kind SetIter)

/-- Specification: the methods `isr`, `log_isr` and `logn_isr` with any `sigma` it accepts, with the factor they put on
the sum of inverse square ranks of a doc that `n` runs have. -/
inductive Spec.IsrLike : String → Option Kwargs → (ℕ → ℝ) → Prop
  | isr : IsrLike "isr" none (fun n => n)
  | log : IsrLike "log_isr" none (fun n => Real.log n)
  | logn (s : ℝ) (h : 0 ≤ s ∧ s ≤ 1) : IsrLike "logn_isr" (some [("sigma", .num s)]) (fun n => Real.log ((n : ℝ) + s))

section
variable {κ δ ι : Type} [LinearOrder κ] [DecidableEq δ] [LinearOrder ι]

theorem Opt.positions_length (q : κ) (d : δ) (nr : List (Dict κ (Norm.Results δ ℝ)))
    (h : ∀ run ∈ nr, (Spec.score? run q d).isSome) : (Spec.positions nr q d).length = nr.length := by
  unfold Spec.positions
  induction nr with
  | nil => rfl
  | cons run nr ih =>
    have hp : (Spec.position? run q d).isSome := by
      have := h run (by simp)
      unfold Spec.score? at this
      unfold Spec.position?
      cases hq : run.get? q with
      | none => rw [hq] at this; cases this
      | some r =>
        rw [hq] at this
        have hk : d ∈ r.keys := get?_isSome.1 this
        simpa using hk
    obtain ⟨x, hx⟩ := Option.isSome_iff_exists.1 hp
    rw [List.filterMap_cons, hx]
    simp only [List.length_cons]
    rw [ih (fun r hr => h r (List.mem_cons_of_mem _ hr))]

/-- **C170**: if all runs have the same docs per query, then with any normalization but borda the methods `isr`,
`log_isr` and `logn_isr` with any `sigma` give the same docs, with scores that differ by one positive factor. -/
theorem C170_same_candidates (E : Env δ) (runs : List (Store κ δ ℝ)) (hn : 2 ≤ runs.length)
    (hw : ∀ s ∈ runs, Store.Wf s.data) (hq : Spec.SameQueries runs) (hdocs : Spec.SameDocs runs)
    (hE : Spec.SchedulesCover E runs) (norm : Option String) (k : Option Kind) (hk : Spec.NormNamed norm k) :
    ∃ out, fuse E runs norm "isr" none = .ok out ∧ ∀ method params factor, Spec.IsrLike method params factor →
      0 < factor runs.length ∧ ∃ out', fuse E runs norm method params = .ok out' ∧
        (∀ q, q ∈ out'.data.keys ↔ q ∈ out.data.keys) ∧
        ∀ q d, (Spec.content out').read q d =
          ((Spec.content out).read q d).map (fun x => factor runs.length / runs.length * x) := by
  obtain ⟨nr, hnr, hS⟩ := normStep E runs hn hw hq hE norm k hk
  obtain ⟨hlen, hin⟩ := all_runs_have runs hw hdocs E k nr hS
  have hF := hS.fusable
  have hM := hS.fits.main
  have hRS := hS.fits.rescore
  obtain ⟨out, e1, b1⟩ := C51_isr E.S E.sched E.scheds nr hF hM hRS
  have f1 := (fuse_named_none E runs hn hq norm "isr" .isr (by decide +kernel) nr hnr).trans e1
  refine ⟨out, f1, ?_⟩
  have h2 : (2 : ℝ) ≤ (runs.length : ℝ) := by exact_mod_cast hn
  have h0 : (runs.length : ℝ) ≠ 0 := by linarith
  have fin : ∀ (val : κ → δ → ℝ) (c : ℝ) (out' : Store κ δ ℝ), Spec.FusedBy nr val out' →
      (∀ q d, Spec.InSome nr q d → val q d =
        ((Spec.positions nr q d).map (fun (i : Nat) => 1 / ((i : ℝ) + 1) ^ 2)).sum * c) →
      (∀ q, q ∈ out'.data.keys ↔ q ∈ out.data.keys) ∧
        ∀ q d, (Spec.content out').read q d =
          ((Spec.content out).read q d).map (fun x => c / runs.length * x) := by
    intro val c out' b2 hval
    refine ⟨fun q => (b2.queries q).trans (b1.queries q).symm, fun q d => ?_⟩
    by_cases hi : Spec.InSome nr q d
    · rw [b1.value q d hi, b2.value q d hi, hval q d hi, Option.map_some, positions_length q d nr (hin q d hi), hlen]
      congr 1
      field_simp
    · rw [not_not.1 (mt (b1.docs q d).1 hi), not_not.1 (mt (b2.docs q d).1 hi)]; rfl
  intro method params factor hm
  cases hm with
  | isr =>
    refine ⟨by linarith, out, f1, fin _ _ out b1 ?_⟩
    intro q d hi
    rw [positions_length q d nr (hin q d hi), hlen]
  | log =>
    obtain ⟨out', e2, b2⟩ := C51_log_isr E.S E.sched E.scheds nr hF hM hRS
    refine ⟨Real.log_pos (by linarith), out',
      (fuse_named_none E runs hn hq norm "log_isr" .logIsr (by decide +kernel) nr hnr).trans e2, fin _ _ out' b2 ?_⟩
    intro q d hi
    rw [positions_length q d nr (hin q d hi), hlen]
  | logn s h =>
    obtain ⟨out', e2, b2⟩ := (C51_logn_isr E.S E.sched E.scheds s nr hF hM hRS).2 h
    refine ⟨Real.log_pos (by linarith [h.1]), out',
      (fuse_named E runs hn hq norm "logn_isr" .lognIsr (by decide +kernel) _ nr hnr).trans e2, fin _ _ out' b2 ?_⟩
    intro q d hi
    rw [positions_length q d nr (hin q d hi), hlen]

/-- **C170** (evaluation): then the three methods get the same value of every metric, if no two docs of a query have the
same score in `isr`. -/
theorem C170_same_score (E : Env δ) (V : EvalEnv δ ι) (qrels : Store κ δ Int) (hqr : Spec.Usable V.SQ qrels)
    (metric : Py.Str) (runs : List (Store κ δ ℝ)) (hn : 2 ≤ runs.length)
    (hw : ∀ s ∈ runs, Store.Wf s.data) (hq : Spec.SameQueries runs) (hdocs : Spec.SameDocs runs)
    (hE : Spec.SchedulesCover E runs) (norm : Option String) (k : Option Kind) (hk : Spec.NormNamed norm k)
    (ht : ∀ out, fuse E runs norm "isr" none = .ok out → Spec.FusedApart out)
    (method : String) (params : Option Kwargs) (factor : ℕ → ℝ) (hm : Spec.IsrLike method params factor) :
    Spec.scoreOf V E.S qrels metric (fuse E runs norm method params) =
      Spec.scoreOf V E.S qrels metric (fuse E runs norm "isr" none) := by
  obtain ⟨out, f1, h⟩ := C170_same_candidates E runs hn hw hq hdocs hE norm k hk
  obtain ⟨hpos, out', f2, hk', hv⟩ := h method params factor hm
  have hc : 0 < factor runs.length / runs.length := div_pos hpos (by exact_mod_cast (by omega : 0 < runs.length))
  rw [f1, f2]
  unfold Spec.scoreOf
  have := C34_only_ranking_matters V.F V.other V.SQ E.S E.S V.hash V.sched { save := false } qrels
    ⟨out, [], [], []⟩ ⟨out', [], [], []⟩ [metric] hqr (fuse_usable E runs norm _ _ out f1)
    (fuse_usable E runs norm _ _ out' f2) (fun x => factor runs.length / runs.length * x)
    (fun x y hxy => mul_lt_mul_of_pos_left hxy hc) (fun q => (hk' q).symm) hv (ht out f1)
  simp only [this]

/-- **C170** (tuning): then tuning `logn_isr` is without effect: the `sigma` that `optimize_fusion` returns with the
default search arguments scores exactly what `fuse(runs, norm, "isr")` scores. -/
theorem C170_tuning_logn_isr_is_idle (E : Env δ) (V : EvalEnv δ ι) (rowSched : List Nat)
    (str : Kwargs → Py.Str) (strNat : Nat → Py.Str) (qrels : Store κ δ Int) (runs : List (Store κ δ ℝ))
    (metric : Py.Str) (hv : Spec.ValidSearch E V qrels runs metric) (hpos : Spec.MetricNonneg V metric)
    (hne : qrels.data ≠ []) (norm : Option String) (k : Option Kind) (hk : Spec.NormNamed norm k)
    (wantReport : Bool) (hdocs : Spec.SameDocs runs)
    (ht : ∀ out, fuse E runs norm "isr" none = .ok out → Spec.FusedApart out) :
    Spec.TunedNoBetter E V qrels runs norm "logn_isr" metric
      (optimizeFusion E V rowSched fl str strNat qrels runs norm "logn_isr" metric wantReport
        (.floats (fl (1 / 100)) 1 (fl (1 / 100)) "0.01".toList))
      (fuse E runs norm "isr" none) := by
  have hacc : Spec.NormAccepted norm := by
    rcases hk with ⟨rfl, -⟩ | ⟨n, x, rfl, -, hx, -⟩
    · exact .inl rfl
    · exact .inr ⟨n, List.mem_map.2 ⟨_, hx, rfl⟩, rfl⟩
  obtain ⟨res, p, h1, h2⟩ := (C101_defaults E V rowSched str strNat qrels runs metric hv hpos hne norm hacc
    wantReport).1 "logn_isr" (.floats (fl (1 / 100)) 1 (fl (1 / 100)) "0.01".toList)
    (by unfold Spec.defaultSpaces; simp only [List.mem_cons]; tauto)
  obtain ⟨tried, scores, k1, k2, k3, -⟩ := C65_best_configuration E V rowSched fl str strNat qrels hv.qrelsOk runs
    norm "logn_isr" metric wantReport _ .lognIsr (by decide +kernel) res h1
  obtain ⟨hp, v, hsc⟩ : p ∈ tried ∧ ∃ v, Spec.fusedScore E V qrels runs norm "logn_isr" metric p = .ok (.val v) := by
    rcases k3 with ⟨e, -⟩ | ⟨t, v, x, y, e, hl, -, -, -⟩
    · rw [h2] at e; cases e
    · rw [h2] at e
      cases e
      have hm : (p, Num.val v) ∈ tried.zip scores := by rw [hl]; simp
      refine ⟨(List.of_mem_zip hm).1, v, ?_⟩
      obtain ⟨i, hi⟩ := List.getElem?_of_mem hm
      rw [List.getElem?_zip_eq_some] at hi
      have := congrArg (fun l => l[i]?) k2
      simp only [List.getElem?_map, hi.1, hi.2, Option.map_some, Option.some.injEq] at this
      exact this
  obtain ⟨g, rfl⟩ : ∃ g : ℝ, p = [("sigma", .num g)] := by
    simp only [configs] at k1
    cases hg : grid fl (fl (1 / 100)) 1 (fl (1 / 100)) "0.01".toList with
    | error e => rw [hg] at k1; cases k1
    | ok xs =>
      rw [hg] at k1
      cases k1
      obtain ⟨x, -, rfl⟩ := List.mem_map.1 hp
      exact ⟨_, rfl⟩
  obtain ⟨nr, hnr, hS⟩ := normed E runs hv.many hv.wf hv.sameQueries hv.schedules norm hacc
  have hrange : 0 ≤ g ∧ g ≤ 1 := by
    by_contra hc
    have he := (C51_logn_isr E.S E.sched E.scheds g nr hS.fusable hS.fits.main hS.fits.rescore).1 hc
    have hf : fuse E runs norm "logn_isr" (some [("sigma", .num g)]) = .error .assertionError :=
      (fuse_named E runs hv.many hv.sameQueries norm "logn_isr" .lognIsr (by decide +kernel) _ nr hnr).trans he
    unfold Spec.fusedScore at hsc
    rw [hf] at hsc
    cases hsc
  have heq := C170_same_score E V qrels hv.qrelsOk metric runs hv.many hv.wf hv.sameQueries hdocs hv.schedules norm k hk
    ht _ _ _ (.logn g hrange)
  obtain ⟨out, e1, b1⟩ := C51_isr E.S E.sched E.scheds nr hS.fusable hS.fits.main hS.fits.rescore
  have f1 : fuse E runs norm "isr" none = .ok out :=
    (fuse_named_none E runs hv.many hv.sameQueries norm "isr" .isr (by decide +kernel) nr hnr).trans e1
  obtain ⟨u, hu⟩ := fused_scored E V qrels runs metric hv hpos hne out (fusedOk_of hS.queries b1)
  rw [← f1] at hu
  exact ⟨res, _, u, h1, h2, hu, heq.trans hu⟩

end

/-! ### a concrete case -/

/-- isr of two runs without ties -/
theorem low_isr_apart (out : Store Nat Nat ℝ) (h : fuse oneEnv [lowFirst, lowFirst] none "isr" none = .ok out) :
    Spec.FusedApart out := by
  obtain ⟨nr, hnr, hS⟩ := normed oneEnv [lowFirst, lowFirst] low_valid.many low_valid.wf low_valid.sameQueries
    low_valid.schedules none (.inl rfl)
  rw [fuse_named_none oneEnv _ low_valid.many low_valid.sameQueries none "isr" .isr (by decide +kernel) nr hnr] at h
  have hnr' : nr = [lowFirst.data, lowFirst.data] := by cases hnr; rfl
  subst hnr'
  obtain ⟨o, a, b⟩ := C51_isr oneEnv.S oneEnv.sched oneEnv.scheds _ hS.fusable hS.fits.main hS.fits.rescore
  have e : o = out := by
    have : Except.ok o = Except.ok (ε := Err) out := a.symm.trans h
    cases this; rfl
  subst e
  have hin : ∀ q d, Spec.InSome [lowFirst.data, lowFirst.data] q d → q = 1 ∧ (d = 10 ∨ d = 11) := by
    rintro q d ⟨run, hr, v, hv, hd⟩
    simp only [List.mem_cons, List.not_mem_nil, or_false, or_self] at hr
    subst hr
    rw [lowFirst_eq] at hv
    change Dict.get? [(1, _)] q = some v at hv
    rw [get?_cons] at hv
    split at hv
    · next hq =>
      cases hv
      refine ⟨hq.symm, ?_⟩
      simpa [Dict.keys] using hd
    · cases hv
  have key : ∀ q d v, (Spec.content o).read q d = some v →
      q = 1 ∧ (d = 10 ∧ v = 4 ∨ d = 11 ∧ v = 1) := by
    intro q d v hr
    have hi : Spec.InSome [lowFirst.data, lowFirst.data] q d := (b.docs q d).1 (by rw [hr]; simp)
    obtain ⟨rfl, hd⟩ := hin q d hi
    rw [b.value 1 d hi] at hr
    refine ⟨rfl, ?_⟩
    rcases hd with rfl | rfl
    · have : Spec.positions [lowFirst.data, lowFirst.data] 1 10 = [0, 0] := rfl
      rw [this] at hr
      norm_num at hr
      exact .inl ⟨rfl, by linarith⟩
    · have : Spec.positions [lowFirst.data, lowFirst.data] 1 11 = [1, 1] := rfl
      rw [this] at hr
      norm_num at hr
      exact .inr ⟨rfl, by linarith⟩
  intro q d d' v h1 h2
  rcases (key q d v h1).2 with ⟨rfl, e⟩ | ⟨rfl, e⟩ <;> rcases (key q d' v h2).2 with ⟨rfl, e'⟩ | ⟨rfl, e'⟩
  · rfl
  · rw [e] at e'; norm_num at e'
  · rw [e] at e'; norm_num at e'
  · rfl

/-- the hypotheses are met -/
example : Spec.ValidSearch oneEnv oneEvalEnv oneQrels [lowFirst, lowFirst] "map".toList ∧
    Spec.MetricNonneg oneEvalEnv "map".toList ∧ oneQrels.data ≠ [] ∧ Spec.SameDocs [lowFirst, lowFirst] ∧
    Spec.NormNamed none none ∧
    (∀ out, fuse oneEnv [lowFirst, lowFirst] none "isr" none = .ok out → Spec.FusedApart out) ∧
    Spec.IsrLike "logn_isr" (some [("sigma", .num (1 / 2))]) (fun n => Real.log ((n : ℝ) + 1 / 2)) := by
  refine ⟨low_valid, C101_metrics oneEvalEnv "map" _ (.inl rfl) (.inl (by decide +kernel)), by decide,
    twoDocs_same _ ?_, .inl ⟨rfl, rfl⟩, low_isr_apart, .logn (1 / 2) (by norm_num)⟩
  intro s hs
  simp only [List.mem_cons, List.not_mem_nil, or_false, or_self] at hs
  exact ⟨3, 5, hs.trans rfl⟩

end Ranx
