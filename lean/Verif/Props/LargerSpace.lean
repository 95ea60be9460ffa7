import Verif.Props.Tuned
import Verif.Props.Grid3

/-!
# Property C171: a larger search space never gives a worse result

`optimize_fusion` with a wider range or a finer step tries all configurations of the coarser search again.
-/

set_option linter.unusedSectionVars false

namespace Ranx
open Dict Store Metrics Eval Fuse Train Opt F64
open _root_.Ranx.Norm (Kind SetIter)

section
variable {κ δ ι : Type} [LinearOrder κ] [DecidableEq δ] [LinearOrder ι]

/-- Specification: if the first search returned parameters, so did the second, and fusing with those evaluates at least
as well. -/
def Spec.NotWorse (E : Env δ) (V : EvalEnv δ ι) (qrels : Store κ δ Int) (runs : List (Store κ δ ℝ))
    (norm : Option String) (method : String) (metric : Py.Str) (search search' : Result) : Prop :=
  ∀ params, search.params = some params → ∃ params' u v, search'.params = some params' ∧
    Spec.scoreOf V E.S qrels metric (fuse E runs norm method (some params)) = .ok (.val u) ∧
    Spec.scoreOf V E.S qrels metric (fuse E runs norm method (some params')) = .ok (.val v) ∧ u ≤ v

/-- **C171** (any two spaces): if every configuration of one search is among those of another, the second search, when
both succeed, is not worse. -/
theorem C171_more_candidates (E : Env δ) (V : EvalEnv δ ι) (rowSched : List Nat) (rnd : ℚ → ℚ)
    (str : Kwargs → Py.Str) (strNat : Nat → Py.Str) (qrels : Store κ δ Int) (hq : Spec.Usable V.SQ qrels)
    (runs : List (Store κ δ ℝ)) (norm : Option String) (method : String) (metric : Py.Str) (wantReport : Bool)
    (space space' : Space) (m : Method) (hm : optimizationSwitch method = .ok (.plain m)) (res res' : Result)
    (h : optimizeFusion E V rowSched rnd str strNat qrels runs norm method metric wantReport space = .ok res)
    (h' : optimizeFusion E V rowSched rnd str strNat qrels runs norm method metric wantReport space' = .ok res')
    (tried tried' : List Kwargs) (ht : configs rnd runs.length m space = .ok tried)
    (ht' : configs rnd runs.length m space' = .ok tried') (hsub : ∀ c ∈ tried, c ∈ tried') :
    Spec.NotWorse E V qrels runs norm method metric res res' := by
  intro p hp
  obtain ⟨tried1, scores, k1, k2, k3, -⟩ := C65_best_configuration E V rowSched rnd str strNat qrels hq runs
    norm method metric wantReport space m hm res h
  rw [ht] at k1
  cases k1
  obtain ⟨hpt, u, hu, hu0⟩ : p ∈ tried ∧
      ∃ u, Spec.fusedScore E V qrels runs norm method metric p = .ok (.val u) ∧ 0 ≤ u := by
    rcases k3 with ⟨e, -⟩ | ⟨t, v, x, y, e, hl, hv0, -, -⟩
    · rw [hp] at e; cases e
    · rw [hp] at e
      cases e
      have hmem : (p, Num.val v) ∈ tried.zip scores := by rw [hl]; simp
      refine ⟨(List.of_mem_zip hmem).1, v, ?_, hv0⟩
      obtain ⟨i, hi⟩ := List.getElem?_of_mem hmem
      rw [List.getElem?_zip_eq_some] at hi
      have := congrArg (fun l => l[i]?) k2
      simp only [List.getElem?_map, hi.1, hi.2, Option.map_some, Option.some.injEq] at this
      exact this
  obtain ⟨p', hp'⟩ : ∃ p', res'.params = some p' := by
    obtain ⟨tried2, scores', j1, j2, j3, -⟩ := C65_best_configuration E V rowSched rnd str strNat qrels hq runs
      norm method metric wantReport space' m hm res' h'
    rw [ht'] at j1
    cases j1
    rcases j3 with ⟨-, hneg⟩ | ⟨t, v, x, y, e, -⟩
    · exfalso
      obtain ⟨i, hi, e⟩ := List.getElem_of_mem (hsub p hpt)
      have hsl : scores'.length = tried'.length := by
        have := congrArg List.length j2
        simpa using this.symm
      have hi' : i < scores'.length := by omega
      have := congrArg (fun l => l[i]?) j2
      simp only [List.getElem?_map, List.getElem?_eq_getElem hi, List.getElem?_eq_getElem hi', e, Option.map_some,
        Option.some.injEq] at this
      rw [hu] at this
      have hmem : (p, scores'[i]) ∈ tried'.zip scores' := List.mem_of_getElem? (i := i)
        (List.getElem?_zip_eq_some.2 ⟨by rw [List.getElem?_eq_getElem hi, e], List.getElem?_eq_getElem hi'⟩)
      have hval : scores'[i] = .val u := (Except.ok.inj this).symm
      have := hneg _ hmem u hval
      linarith
    · exact ⟨t, e⟩
  obtain ⟨v, hv, hle⟩ := tuned_beats E V rowSched rnd str strNat qrels hq runs norm method metric wantReport space'
    m hm res' p' h' hp' tried' ht' p (hsub p hpt) u hu
  exact ⟨p', u, v, hp', hu, hv, hle⟩

/-- **C171** (range of `k`): for `rrf`, widening the range of `k` and refining its step to a divisor is never worse. -/
theorem C171_rrf (E : Env δ) (V : EvalEnv δ ι) (rowSched : List Nat) (rnd : ℚ → ℚ)
    (str : Kwargs → Py.Str) (strNat : Nat → Py.Str) (qrels : Store κ δ Int) (hq : Spec.Usable V.SQ qrels)
    (runs : List (Store κ δ ℝ)) (norm : Option String) (metric : Py.Str) (wantReport : Bool)
    (lo hi step lo' hi' step' : ℤ) (hs : 0 < step) (hs' : 0 < step') (hlo : lo' ≤ lo) (hhi : hi ≤ hi')
    (hstep : step' ∣ step) (hoff : step' ∣ lo - lo') (res res' : Result)
    (h : optimizeFusion E V rowSched rnd str strNat qrels runs norm "rrf" metric wantReport (.ints lo hi step) = .ok res)
    (h' : optimizeFusion E V rowSched rnd str strNat qrels runs norm "rrf" metric wantReport (.ints lo' hi' step') =
      .ok res') :
    Spec.NotWorse E V qrels runs norm "rrf" metric res res' := by
  obtain ⟨g, hg, -, hmem⟩ := C67_ints lo hi step hs
  obtain ⟨g', hg', -, hmem'⟩ := C67_ints lo' hi' step' hs'
  refine C171_more_candidates E V rowSched rnd str strNat qrels hq runs norm "rrf" metric wantReport _ _ .rrf
    (by decide +kernel) res res' h h' (g.map (fun (k : Int) => [("k", .num (k : ℝ))]))
    (g'.map (fun (k : Int) => [("k", .num (k : ℝ))])) (by simp only [configs, hg, Except.map])
    (by simp only [configs, hg', Except.map]) ?_
  intro c hc
  obtain ⟨x, hx, rfl⟩ := List.mem_map.1 hc
  obtain ⟨a1, a2, a3⟩ := (hmem x).1 hx
  refine List.mem_map.2 ⟨x, (hmem' x).2 ⟨by omega, by omega, ?_⟩, rfl⟩
  have : x - lo' = (x - lo) + (lo - lo') := by ring
  rw [this]
  exact dvd_add (hstep.trans a3) hoff

/-- **C171** (weights): refining the step of the weights to a divisor is never worse, for steps `s/10^d` that divide 1
and are written with their `d` decimals, in binary64. -/
theorem C171_weights (E : Env δ) (V : EvalEnv δ ι) (rowSched : List Nat)
    (str : Kwargs → Py.Str) (strNat : Nat → Py.Str) (qrels : Store κ δ Int) (hq : Spec.Usable V.SQ qrels)
    (runs : List (Store κ δ ℝ)) (hn : runs.length ≤ 2 ^ 30) (norm : Option String) (metric : Py.Str)
    (wantReport : Bool) (method : String) (hmeth : method ∈ ["mixed", "w_bordafuse", "w_condorcet", "wmnz", "wsum"])
    (N s d N' s' d' M : ℕ) (h1 : N * s = 10 ^ d) (hb : 10 ^ d + 2 * s ≤ 2 ^ 20) (stepStr : Py.Str)
    (hd : roundingDigits stepStr = d) (h1' : N' * s' = 10 ^ d') (hb' : 10 ^ d' + 2 * s' ≤ 2 ^ 20) (stepStr' : Py.Str)
    (hd' : roundingDigits stepStr' = d') (hM : (s : ℚ) / 10 ^ d = M * ((s' : ℚ) / 10 ^ d')) (res res' : Result)
    (h : optimizeFusion E V rowSched fl str strNat qrels runs norm method metric wantReport
      (.weights (fl ((s : ℚ) / 10 ^ d)) stepStr) = .ok res)
    (h' : optimizeFusion E V rowSched fl str strNat qrels runs norm method metric wantReport
      (.weights (fl ((s' : ℚ) / 10 ^ d')) stepStr') = .ok res') :
    Spec.NotWorse E V qrels runs norm method metric res res' := by
  obtain ⟨T, hT, -, hmem⟩ := C66_decimal_partial N s d h1 hb stepStr hd runs.length hn
  obtain ⟨T', hT', -, hmem'⟩ := C66_decimal_partial N' s' d' h1' hb' stepStr' hd' runs.length hn
  have hsub : ∀ w ∈ T, w ∈ T' := by
    intro w hw
    obtain ⟨v, ⟨v1, v2, v3⟩, e, hs⟩ := (hmem w).1 hw
    refine (hmem' w).2 ⟨v, ⟨v1, fun x hx => ?_, v3⟩, e, hs⟩
    obtain ⟨i, hi⟩ := v2 x hx
    exact ⟨i * M, by rw [hi, hM]; push_cast; ring⟩
  have go : ∀ m, optimizationSwitch method = .ok (.plain m) →
      (∀ step str, configs fl runs.length m (.weights step str) = (weightTrials fl step str runs.length).map
        (fun ts => ts.map (fun ws => [("weights", PyVal.nums (ws.map (fun (x : ℚ) => (x : ℝ))))]))) →
      Spec.NotWorse E V qrels runs norm method metric res res' := by
    intro m hm hc
    refine C171_more_candidates E V rowSched fl str strNat qrels hq runs norm method metric wantReport _ _ m
      hm res res' h h' (T.map (fun ws => [("weights", PyVal.nums (ws.map (fun (x : ℚ) => (x : ℝ))))]))
      (T'.map (fun ws => [("weights", PyVal.nums (ws.map (fun (x : ℚ) => (x : ℝ))))]))
      (by rw [hc, hT]; rfl) (by rw [hc, hT']; rfl) ?_
    intro c hc
    obtain ⟨w, hw, rfl⟩ := List.mem_map.1 hc
    exact List.mem_map.2 ⟨w, hsub w hw, rfl⟩
  simp only [List.mem_cons, List.not_mem_nil, or_false] at hmeth
  rcases hmeth with rfl | rfl | rfl | rfl | rfl
  · exact go .mixed (by decide +kernel) (fun _ _ => rfl)
  · exact go .weightedBordafuse (by decide +kernel) (fun _ _ => rfl)
  · exact go .weightedCondorcet (by decide +kernel) (fun _ _ => rfl)
  · exact go .wmnz (by decide +kernel) (fun _ _ => rfl)
  · exact go .wsum (by decide +kernel) (fun _ _ => rfl)

end

/-- the side conditions are met by the steps 0.1 and 0.05 of the weights and by two ranges of `k` -/
example : 10 * 1 = 10 ^ 1 ∧ 10 ^ 1 + 2 * 1 ≤ 2 ^ 20 ∧ roundingDigits "0.1".toList = (1 : ℕ) ∧
    20 * 5 = 10 ^ 2 ∧ 10 ^ 2 + 2 * 5 ≤ 2 ^ 20 ∧ roundingDigits "0.05".toList = (2 : ℕ) ∧
    ((1 : ℕ) : ℚ) / 10 ^ 1 = (2 : ℕ) * (((5 : ℕ) : ℚ) / 10 ^ 2) ∧
    (0 : ℤ) < 10 ∧ (0 : ℤ) < 5 ∧ (5 : ℤ) ≤ 10 ∧ (100 : ℤ) ≤ 120 ∧ (5 : ℤ) ∣ 10 ∧ (5 : ℤ) ∣ 10 - 5 := by
  refine ⟨by decide, by decide, by decide, by decide, by decide, by decide, by norm_num, by decide, by decide, by decide,
    by decide, by decide, by decide⟩

/-- both searches succeed on a valid input and return parameters -/
example : ∃ res res' : Result,
    optimizeFusion oneEnv oneEvalEnv [0, 1] fl rrfLabel Py.natStr oneQrels [lowFirst, lowFirst] none "rrf" "map".toList
      false (.ints 10 100 10) = .ok res ∧
    optimizeFusion oneEnv oneEvalEnv [0, 1] fl rrfLabel Py.natStr oneQrels [lowFirst, lowFirst] none "rrf" "map".toList
      false (.ints 5 120 5) = .ok res' ∧
    (∃ p, res.params = some p) ∧ ∃ p, res'.params = some p := by
  have hpos := C101_metrics oneEvalEnv "map" _ (.inl rfl) (.inl (by decide +kernel))
  obtain ⟨res, h1, h2⟩ := C101_succeeds_partial oneEnv oneEvalEnv [0, 1] fl rrfLabel Py.natStr oneQrels
    [lowFirst, lowFirst] "map".toList low_valid none (.inl rfl) false "rrf" (.ints 10 100 10) _
    (.rrf 10 100 10 (by decide) (by decide))
  obtain ⟨res', h1', h2'⟩ := C101_succeeds_partial oneEnv oneEvalEnv [0, 1] fl rrfLabel Py.natStr oneQrels
    [lowFirst, lowFirst] "map".toList low_valid none (.inl rfl) false "rrf" (.ints 5 120 5) _
    (.rrf 5 120 5 (by decide) (by decide))
  exact ⟨res, res', h1, h1', h2 hpos (by decide) (by decide), h2' hpos (by decide) (by decide)⟩

end Ranx
