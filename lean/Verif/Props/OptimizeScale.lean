import Verif.Props.Scale
import Verif.Props.OptimizeTotal2

/-!
# C151: the scale of the scores does not matter to `optimize_fusion`

As C136 for `fuse`: with a normalization, multiplying the scores of a run by a positive number and adding a constant does
not change the parameters found, the report or the exception; with rank or borda normalization, or without normalization
and for a searched method that looks at ranks only, the scores do not matter at all.
-/

set_option linter.unusedSectionVars false

namespace Ranx
open Dict Store Fuse Opt
open Norm (Results normRun normParallel minMaxInverted bordaRuns Kind normSwitch)

variable {κ δ ι : Type} [LinearOrder κ] [DecidableEq δ] [LinearOrder ι]

/-! ## Specification -/

/-- the searched methods that look at ranks only -/
def Spec.searchedRankMethods : List String := ["logn_isr", "rbc", "rrf", "w_bordafuse", "w_condorcet"]

/-! ## Proofs -/

theorem normOne_flag (E : Fuse.Env δ) (k : Kind) (hk : k ≠ .borda) (j : Nat) (s s' : Store κ δ ℝ) :
    (normOne E k j s).sorted = (normOne E k j s').sorted := by
  cases k <;> first | rfl | exact absurd rfl hk

theorem normSwitch_borda {n : String} (h : normSwitch n = .ok .borda) : n = "borda" := by
  rcases normSwitch_cases n with ⟨k, hk, e⟩ | ⟨-, e⟩
  · rw [e] at h
    cases h
    unfold Spec.normNames at hk
    simp only [List.mem_cons, Prod.mk.injEq, List.not_mem_nil, or_false, reduceCtorEq, and_false, and_true, false_or] at hk
    exact hk
  · rw [e] at h; cases h

/-- the same data give the same normalized objects -/
theorem normalizeStores_congr (E : Fuse.Env δ) (n : String) {runs runs' : List (Store κ δ ℝ)}
    (hl : runs.length = runs'.length) (h : normalizeRuns E (some n) runs = normalizeRuns E (some n) runs') :
    normalizeStores E (some n) runs = normalizeStores E (some n) runs' := by
  unfold normalizeStores
  unfold normalizeRuns at h
  simp only at h ⊢
  by_cases hb : n ≠ "borda"
  · rw [if_pos hb, if_pos hb] at h
    rw [if_pos hb, if_pos hb]
    cases hk : normSwitch n with
    | error e => rfl
    | ok k =>
      rw [hk] at h
      simp only [Except.ok.injEq] at h ⊢
      have hkb : k ≠ .borda := by
        rintro rfl
        exact hb (normSwitch_borda hk)
      have main : ∀ i, (runs.zipIdx i).map (fun rj => (normOne E k rj.2 rj.1).data) =
          (runs'.zipIdx i).map (fun rj => (normOne E k rj.2 rj.1).data) →
          (runs.zipIdx i).map (fun rj => normOne E k rj.2 rj.1) = (runs'.zipIdx i).map (fun rj => normOne E k rj.2 rj.1) := by
        clear h
        induction runs generalizing runs' with
        | nil =>
          intro i _
          cases runs' with
          | nil => rfl
          | cons => simp at hl
        | cons s t ih =>
          intro i hi
          cases runs' with
          | nil => simp at hl
          | cons s' t' =>
            rw [List.zipIdx_cons, List.zipIdx_cons, List.map_cons, List.map_cons] at hi ⊢
            rw [List.cons.injEq] at hi
            rw [ih (by simpa using hl) _ hi.2]
            congr 1
            have e1 := hi.1
            have e2 := normOne_flag E k hkb i s s'
            simp only at e1 ⊢
            generalize normOne E k i s = a at *
            generalize normOne E k i s' = b at *
            cases a; cases b
            cases e1; cases e2
            rfl
      exact main 0 h
  · rw [if_neg hb, if_neg hb] at h
    rw [if_neg hb, if_neg hb, h]

theorem optimize_congr (E : Fuse.Env δ) (V : EvalEnv δ ι) (rowSched : List Nat) (rnd : ℚ → ℚ)
    (str : Kwargs → Py.Str) (strNat : Nat → Py.Str) (qrels : Store κ δ Int) {runs runs' : List (Store κ δ ℝ)}
    {norm norm' : Option String} (method : String) (metric : Py.Str) (wantReport : Bool) (space : Space)
    (h : List.Forall₂ (fun s s' => s.data.keys = s'.data.keys) runs runs')
    (hc : ∀ o, optimizationSwitch method = .ok o →
      bindArg (normalizeStores E norm runs) (fun nr => runOptimizer E V rowSched rnd str strNat metric space qrels nr o) =
      bindArg (normalizeStores E norm' runs') (fun nr => runOptimizer E V rowSched rnd str strNat metric space qrels nr o))
    (hn : ∀ e, normalizeStores E norm runs = .error e ↔ normalizeStores E norm' runs' = .error e) :
    optimizeFusion E V rowSched rnd str strNat qrels runs norm method metric wantReport space =
      optimizeFusion E V rowSched rnd str strNat qrels runs' norm' method metric wantReport space := by
  unfold optimizeFusion
  have hall : runs.all (fun r => Eval.sameKeys r.data.keys qrels.data.keys) =
      runs'.all (fun r => Eval.sameKeys r.data.keys qrels.data.keys) := by
    clear hc hn
    induction h with
    | nil => rfl
    | cons hp _ ih => rw [List.all_cons, List.all_cons, ih, hp]
  rw [h.length_eq, pairwise_congr h, hall]
  congr 2
  congr 1
  cases h1 : normalizeStores E norm runs with
  | error e =>
    rw [(hn e).1 h1]
  | ok nr =>
    cases h2 : normalizeStores E norm' runs' with
    | error e => rw [(hn e).2 h2] at h1; cases h1
    | ok nr' =>
      unfold bindArg
      simp only
      cases (if wantReport = true then hasHyperparams method else Except.ok ()) with
      | error e => rfl
      | ok _ =>
        simp only
        cases ho : optimizationSwitch method with
        | error e => rfl
        | ok o =>
          have := hc o ho
          rw [h1, h2] at this
          exact this

/-- **C151** (scale): rescaling and shifting the scores of each run and query, as the normalization allows, changes nothing
in what `optimize_fusion` returns or raises, for any method, metric and search space. -/
theorem C151_rescaled (E : Fuse.Env δ) (V : EvalEnv δ ι) (rowSched : List Nat) (rnd : ℚ → ℚ)
    (str : Kwargs → Py.Str) (strNat : Nat → Py.Str) (qrels : Store κ δ Int) (runs runs' : List (Store κ δ ℝ))
    (hw : ∀ s ∈ runs, Store.Wf s.data) (n : String)
    (hn : n ∈ ["min-max", "min_max", "min-max-inverted", "min_max_inverted", "sum", "zmuv", "max"])
    (h : List.Forall₂ (Spec.Rescaled n) runs runs') (method : String) (metric : Py.Str) (wantReport : Bool) (space : Space) :
    optimizeFusion E V rowSched rnd str strNat qrels runs' (some n) method metric wantReport space =
      optimizeFusion E V rowSched rnd str strNat qrels runs (some n) method metric wantReport space := by
  have e := normalizeStores_congr E n h.length_eq (normalizeRuns_rescaled E hw hn h)
  symm
  exact optimize_congr E V rowSched rnd str strNat qrels method metric wantReport space (h.imp (fun _ _ h => h.keys))
    (fun _ _ => by rw [e]) (fun _ => by rw [e])

/-- **C151** (rank and borda): with these normalizations only the order in which the docs are listed matters. -/
theorem C151_rank_norms (E : Fuse.Env δ) (V : EvalEnv δ ι) (rowSched : List Nat) (rnd : ℚ → ℚ)
    (str : Kwargs → Py.Str) (strNat : Nat → Py.Str) (qrels : Store κ δ Int) (runs runs' : List (Store κ δ ℝ))
    (h : List.Forall₂ Spec.SameListing runs runs') (n : String) (hn : n = "rank" ∨ n = "borda")
    (method : String) (metric : Py.Str) (wantReport : Bool) (space : Space) :
    optimizeFusion E V rowSched rnd str strNat qrels runs' (some n) method metric wantReport space =
      optimizeFusion E V rowSched rnd str strNat qrels runs (some n) method metric wantReport space := by
  have e := normalizeStores_congr E n h.length_eq (normalizeRuns_listing E h n hn)
  symm
  exact optimize_congr E V rowSched rnd str strNat qrels method metric wantReport space
    (h.imp (fun _ _ h => (sameListing_iff.1 h).keys)) (fun _ _ => by rw [e]) (fun _ => by rw [e])

theorem normalizeRuns_stores (E : Fuse.Env δ) (norm : Option String) (runs : List (Store κ δ ℝ)) :
    normalizeRuns E norm runs = (normalizeStores E norm runs).map (fun l => l.map (fun s => s.data)) := by
  unfold normalizeRuns normalizeStores
  cases norm with
  | none => rfl
  | some n =>
    simp only
    by_cases hb : n ≠ "borda"
    · rw [if_pos hb, if_pos hb]
      cases normSwitch n with
      | error e => rfl
      | ok k =>
        simp only [Except.map, List.map_map]
        rfl
    · rw [if_neg hb, if_neg hb]
      cases bordaRuns E.I E.normScheds (runs.map (fun s => s.data)) with
      | error e => rfl
      | ok l => simp [Except.map, Function.comp_def]

/-- **C151** (rank methods): searching a method that looks at ranks only, all scores and all normalizations that keep the
order of the docs give the same parameters. -/
theorem C151_rank_methods (E : Fuse.Env δ) (V : EvalEnv δ ι) (rowSched : List Nat) (rnd : ℚ → ℚ)
    (str : Kwargs → Py.Str) (strNat : Nat → Py.Str) (qrels : Store κ δ Int) (runs runs' : List (Store κ δ ℝ))
    (hw : ∀ s ∈ runs, Store.Wf s.data) (hw' : ∀ s ∈ runs', Store.Wf s.data) (hE : Spec.SchedulesCover E runs)
    (hE' : Spec.SchedulesCover E runs') (h : List.Forall₂ Spec.SameListing runs runs')
    (norm norm' : Option String) (hn : norm ∈ Spec.keepingNorms) (hn' : norm' ∈ Spec.keepingNorms)
    (method : String) (hm : method ∈ Spec.searchedRankMethods) (metric : Py.Str) (wantReport : Bool) (space : Space) :
    optimizeFusion E V rowSched rnd str strNat qrels runs' norm' method metric wantReport space =
      optimizeFusion E V rowSched rnd str strNat qrels runs norm method metric wantReport space := by
  symm
  obtain ⟨nr, e1, k1⟩ := keeps_docs E runs hw hE.norm norm hn
  obtain ⟨nr', e2, k2⟩ := keeps_docs E runs' hw' hE'.norm norm' hn'
  have hdocs : List.Forall₂ SameDocs nr nr' := forall₂_trans_docs ((k1.imp (fun _ _ h => h.symm)).flip)
    (forall₂_trans_docs (by
      rw [List.forall₂_map_left_iff, List.forall₂_map_right_iff]
      exact h.imp (fun _ _ hp => sameListing_iff.1 hp)) k2)
  rw [normalizeRuns_stores] at e1 e2
  cases h1 : normalizeStores E norm runs with
  | error e => rw [h1] at e1; cases e1
  | ok l =>
    cases h2 : normalizeStores E norm' runs' with
    | error e => rw [h2] at e2; cases e2
    | ok l' =>
      rw [h1] at e1
      rw [h2] at e2
      injection e1 with e1
      injection e2 with e2
      subst e1 e2
      refine optimize_congr E V rowSched rnd str strNat qrels method metric wantReport space
        (h.imp (fun _ _ h => (sameListing_iff.1 h).keys)) (fun o ho => ?_)
        (fun e => by rw [h1, h2]; constructor <;> intro h <;> cases h)
      have hlen : l.length = l'.length := by simpa using hdocs.length_eq
      have hplain : ∃ m, o = .plain m ∧ fusionSwitch method = .ok m := by
        have all : ∀ n ∈ Spec.searchedRankMethods, ∃ m ∈ [Method.lognIsr, .rbc, .rrf, .weightedBordafuse, .weightedCondorcet],
            optimizationSwitch n = .ok (.plain m) ∧ fusionSwitch n = .ok m := by decide +kernel
        obtain ⟨m, -, h3, h4⟩ := all method hm
        rw [ho] at h3
        cases h3
        exact ⟨m, rfl, h4⟩
      obtain ⟨m, rfl, hsw⟩ := hplain
      have hrank : method ∈ Spec.rankMethods := by
        have : ∀ n ∈ Spec.searchedRankMethods, n ∈ Spec.rankMethods := by decide
        exact this method hm
      rw [h1, h2]
      unfold bindArg runOptimizer
      simp only
      rw [hlen]
      have hp : plainTrial E V metric m (l.map (fun r => r.data)) = plainTrial E V metric m (l'.map (fun r => r.data)) := by
        funext s c
        unfold plainTrial
        rw [call_congr E m c method hrank hsw hdocs]
      rw [hp]

/-! ### examples -/

/-- the scores of `lowFirst` doubled and shifted by 7 -/
noncomputable def lowScaled : Store Nat Nat ℝ := ⟨[(1, [(10, 13), (11, 17)])], false⟩

theorem low_rescaled : Spec.Rescaled "min-max" lowFirst lowScaled := by
  refine .cons ⟨rfl, 2, 7, by norm_num, ?_, .spread _ 5 3 (by decide) ?_ ?_ (by norm_num) (by norm_num)⟩ .nil
  · change [(10, (13 : ℝ)), (11, 17)] = [(10, 2 * 3 + 7), (11, 2 * 5 + 7)]
    norm_num
  · change (5 : ℝ) ∈ [3, 5]; simp
  · change (3 : ℝ) ∈ [3, 5]; simp

/-- non-vacuity of `C151_rescaled`: a weight search that succeeds, with the scores of one run rescaled -/
example : ∃ res p, optimizeFusion oneEnv oneEvalEnv [0, 1] F64.fl rrfLabel Py.natStr oneQrels [lowFirst, lowScaled]
    (some "min-max") "wsum" "map".toList false (.weights (F64.fl (1 / 10)) "0.1".toList) = .ok res ∧ res.params = some p := by
  obtain ⟨h, -⟩ := C101_defaults oneEnv oneEvalEnv [0, 1] rrfLabel Py.natStr oneQrels [lowFirst, lowFirst]
    "map".toList low_valid (C101_metrics oneEvalEnv "map" _ (.inl rfl) (.inl (by decide +kernel))) (by decide)
    (some "min-max") (.inr ⟨"min-max", by decide +kernel, rfl⟩) false
  obtain ⟨res, p, e, hp⟩ := h "wsum" (.weights (F64.fl (1 / 10)) "0.1".toList) (by simp [Spec.defaultSpaces])
  refine ⟨res, p, ?_, hp⟩
  rw [← e]
  refine C151_rescaled oneEnv oneEvalEnv _ _ _ _ _ [lowFirst, lowFirst] _ low_valid.wf "min-max" (by decide)
    (.cons ?_ (.cons low_rescaled .nil)) _ _ _ _
  refine .cons ⟨rfl, 1, 0, by norm_num, ?_, .spread _ 5 3 (by decide) ?_ ?_ (by norm_num) (by norm_num)⟩ .nil
  · change [(10, (3 : ℝ)), (11, 5)] = [(10, 1 * 3 + 0), (11, 1 * 5 + 0)]
    norm_num
  · change (5 : ℝ) ∈ [3, 5]; simp
  · change (3 : ℝ) ∈ [3, 5]; simp

/-- non-vacuity of `C151_rank_norms` and `C151_rank_methods`: the listing is the same -/
example : List.Forall₂ Spec.SameListing [lowFirst, lowFirst] [lowFirst, lowScaled] ∧ "rrf" ∈ Spec.searchedRankMethods :=
  ⟨.cons rfl (.cons rfl .nil), by decide⟩

end Ranx
