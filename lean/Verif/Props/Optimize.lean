import Verif.Model.Optimize
import Verif.Props.Train
import Verif.Props.Fuse
import Verif.Props.EndToEnd
import Verif.Props.Grid

/-!
# C65: what `optimize_fusion` returns
-/

set_option linter.unusedSectionVars false

namespace Ranx
open Dict Store Metrics Eval Fuse Train Opt

/-- Specification: `b` is the last of the candidates with the greatest score, provided that score is at least
0 (`none` if there is no such candidate). NaN scores never count. -/
def Spec.LastBest {ρ : Type*} (l : List (ρ × Num ℝ)) (b : Option ρ) : Prop :=
  (b = none ∧ ∀ p ∈ l, ∀ v, p.2 = .val v → v < 0) ∨
  ∃ t v x y, b = some t ∧ l = x ++ (t, .val v) :: y ∧ 0 ≤ v ∧
    (∀ p ∈ x, ∀ u, p.2 = .val u → u ≤ v) ∧ (∀ p ∈ y, ∀ u, p.2 = .val u → u < v)

/-- the loop when evaluating does not depend on the state -/
noncomputable def Opt.pureLoop {τ ρ : Type*} (r : τ → Except Err (ρ × Num ℝ)) (label : τ → Py.Str) :
    Search ρ ℝ → List τ → Except Err (Search ρ ℝ)
  | acc, [] => .ok acc
  | acc, t :: ts => bindArg (r t) fun p => pureLoop r label (record acc (label t) p.1 p.2) ts

theorem Opt.optLoop_pure {σ τ ρ : Type*} (eval : σ → τ → σ × Except Err (ρ × Num ℝ)) (label : τ → Py.Str)
    (Inv : σ → Prop) (r : τ → Except Err (ρ × Num ℝ))
    (h : ∀ s t, Inv s → (eval s t).2 = r t ∧ ((∃ p, r t = .ok p) → Inv (eval s t).1))
    (s : σ) (hs : Inv s) (acc : Search ρ ℝ) (ts : List τ) :
    (optLoop eval label s acc ts).2 = pureLoop r label acc ts := by
  induction ts generalizing s acc with
  | nil => rfl
  | cons t ts ih =>
    obtain ⟨h1, h2⟩ := h s t hs
    unfold optLoop pureLoop
    rcases he : eval s t with ⟨s', out⟩
    rw [he] at h1 h2
    simp only at h1 h2
    rw [← h1]
    rw [← h1] at h2
    cases out with
    | error e => rfl
    | ok p =>
      obtain ⟨a, b⟩ := p
      exact ih s' (h2 ⟨_, rfl⟩) _

/-- the accumulated state after the candidates `l` (label, configuration, score) -/
noncomputable def Opt.collected {ρ : Type*} (l : List (Py.Str × ρ × Num ℝ)) : Search ρ ℝ :=
  l.foldl (fun acc p => record acc p.1 p.2.1 p.2.2) ⟨none, 0, []⟩

theorem Opt.pureLoop_ok {τ ρ : Type*} (r : τ → Except Err (ρ × Num ℝ)) (label : τ → Py.Str)
    (acc res : Search ρ ℝ) (ts : List τ) (h : pureLoop r label acc ts = .ok res) :
    ∃ out : List (ρ × Num ℝ), ts.map r = out.map .ok ∧
      res = ((ts.map label).zip out).foldl (fun acc p => record acc p.1 p.2.1 p.2.2) acc := by
  induction ts generalizing acc with
  | nil =>
    unfold pureLoop at h
    cases h
    exact ⟨[], rfl, rfl⟩
  | cons t ts ih =>
    unfold pureLoop at h
    cases hr : r t with
    | error e => rw [hr] at h; cases h
    | ok p =>
      rw [hr] at h
      obtain ⟨out, h1, h2⟩ := ih _ h
      exact ⟨p :: out, by simp [hr, h1], h2⟩

theorem Opt.record_report {ρ : Type*} (acc : Search ρ ℝ) (lbl : Py.Str) (t : ρ) (v : Num ℝ) :
    (record acc lbl t v).report = acc.report.set lbl v := by
  unfold record
  cases atLeast v acc.bestScore <;> rfl

theorem Opt.fold_report {ρ : Type*} (l : List (Py.Str × ρ × Num ℝ)) (acc : Search ρ ℝ) :
    (l.foldl (fun acc p => record acc p.1 p.2.1 p.2.2) acc).report =
      (l.map (fun p => (p.1, p.2.2))).foldl (fun d p => d.set p.1 p.2) acc.report := by
  induction l generalizing acc with
  | nil => rfl
  | cons p t ih => rw [List.foldl_cons, ih, record_report]; rfl

theorem Opt.fold_best {ρ : Type*} (l : List (Py.Str × ρ × Num ℝ)) :
    ((collected l).best = none ∧ (collected l).bestScore = 0 ∧ ∀ p ∈ l, ∀ v, p.2.2 = .val v → v < 0) ∨
    ∃ t v x lbl y, (collected l).best = some t ∧ (collected l).bestScore = v ∧
      l = x ++ (lbl, t, .val v) :: y ∧ 0 ≤ v ∧
      (∀ p ∈ x, ∀ u, p.2.2 = .val u → u ≤ v) ∧ (∀ p ∈ y, ∀ u, p.2.2 = .val u → u < v) := by
  induction l using List.reverseRecOn with
  | nil => exact .inl ⟨rfl, rfl, by simp⟩
  | append_singleton l p ih =>
    have hc : collected (l ++ [p]) = record (collected l) p.1 p.2.1 p.2.2 := by
      unfold collected; rw [List.foldl_append]; rfl
    obtain ⟨lbl, t, sc⟩ := p
    rw [hc]
    simp only
    -- the trial is kept iff its score is a number ≥ the best so far
    have hkeep : ∀ v, sc = .val v → (collected l).bestScore ≤ v →
        record (collected l) lbl t sc = ⟨some t, v, (collected l).report.set lbl sc⟩ := by
      intro v hv hle
      unfold record atLeast
      rw [hv]
      simp only [if_pos hle]
    have hdrop : (∀ v, sc = .val v → v < (collected l).bestScore) →
        record (collected l) lbl t sc =
          ⟨(collected l).best, (collected l).bestScore, (collected l).report.set lbl sc⟩ := by
      intro hv
      unfold record atLeast
      cases sc with
      | nan => rfl
      | val v =>
        have := hv v rfl
        simp only [if_neg (not_le.2 this)]
    by_cases hv : ∃ v, sc = .val v ∧ (collected l).bestScore ≤ v
    · obtain ⟨v, hv, hle⟩ := hv
      rw [hkeep v hv hle]
      refine .inr ⟨t, v, l, lbl, [], rfl, rfl, by rw [hv], ?_, ?_, by simp⟩
      · rcases ih with ⟨-, h0, -⟩ | ⟨t', v', x, lb, y, -, h2, -, h4, -⟩
        · rwa [h0] at hle
        · rw [h2] at hle; exact h4.trans hle
      · intro p hp u hu
        rcases ih with ⟨-, h0, h3⟩ | ⟨t', v', x, lb, y, -, h2, h3, h4, h5, h6⟩
        · rw [h0] at hle
          exact (h3 p hp u hu).le.trans hle
        · rw [h2] at hle
          rw [h3] at hp
          rcases List.mem_append.1 hp with hp | hp
          · exact (h5 p hp u hu).trans hle
          · rcases List.mem_cons.1 hp with rfl | hp
            · simp only [Num.val.injEq] at hu
              rw [← hu]; exact hle
            · exact (h6 p hp u hu).le.trans hle
    · have hlt : ∀ v, sc = .val v → v < (collected l).bestScore := fun v h =>
        not_le.1 (fun hle => hv ⟨v, h, hle⟩)
      rw [hdrop hlt]
      rcases ih with ⟨h1, h0, h3⟩ | ⟨t', v', x, lb, y, h1, h2, h3, h4, h5, h6⟩
      · refine .inl ⟨h1, h0, ?_⟩
        intro p hp u hu
        rcases List.mem_append.1 hp with hp | hp
        · exact h3 p hp u hu
        · rw [List.mem_singleton] at hp
          subst hp
          rw [h0] at hlt
          exact hlt u hu
      · refine .inr ⟨t', v', x, lb, y ++ [(lbl, t, sc)], h1, h2, by rw [h3]; simp, h4, h5, ?_⟩
        intro p hp u hu
        rcases List.mem_append.1 hp with hp | hp
        · exact h6 p hp u hu
        · rw [List.mem_singleton] at hp
          subst hp
          rw [h2] at hlt
          exact hlt u hu

/-- what the loop leaves behind -/
theorem Opt.pureLoop_spec {τ ρ : Type*} (r : τ → Except Err (ρ × Num ℝ)) (label : τ → Py.Str)
    (res : Search ρ ℝ) (ts : List τ) (h : pureLoop r label ⟨none, 0, []⟩ ts = .ok res) :
    ∃ out : List (ρ × Num ℝ), ts.map r = out.map .ok ∧ Spec.LastBest out res.best ∧
      ((ts.map label).Nodup → res.report = (ts.map label).zip (out.map Prod.snd)) := by
  obtain ⟨out, h1, h2⟩ := pureLoop_ok r label _ res ts h
  have hlen : (ts.map label).length = out.length := by
    have := congrArg List.length h1
    simpa using this
  have hout : ((ts.map label).zip out).map Prod.snd = out := List.map_snd_zip hlen.ge
  refine ⟨out, h1, ?_, ?_⟩
  · have hres : res = collected ((ts.map label).zip out) := h2
    rw [hres]
    rcases fold_best ((ts.map label).zip out) with ⟨a, -, b⟩ | ⟨t, v, x, lbl, y, a, -, b, c, d, e⟩
    · refine .inl ⟨a, fun p hp v hv => ?_⟩
      rw [← hout] at hp
      obtain ⟨q, hq, rfl⟩ := List.mem_map.1 hp
      exact b q hq v hv
    · refine .inr ⟨t, v, x.map Prod.snd, y.map Prod.snd, a, ?_, c, ?_, ?_⟩
      · rw [← hout, b]; simp
      · intro p hp u hu
        obtain ⟨q, hq, rfl⟩ := List.mem_map.1 hp
        exact d q hq u hu
      · intro p hp u hu
        obtain ⟨q, hq, rfl⟩ := List.mem_map.1 hp
        exact e q hq u hu
  · intro hnd
    rw [h2, fold_report]
    have hmap : ((ts.map label).zip out).map (fun p => (p.1, p.2.2)) = (ts.map label).zip (out.map Prod.snd) := by
      rw [List.zip_map_right]; rfl
    rw [hmap]
    have hk : NodupKeys ((ts.map label).zip (out.map Prod.snd)) := by
      rw [nodupKeys_iff]
      show (((ts.map label).zip (out.map Prod.snd)).map Prod.fst).Nodup
      rw [List.map_fst_zip (by simp [← hlen])]
      exact hnd
    have := foldl_set_of_nodup ((ts.map label).zip (out.map Prod.snd)) [] (by simpa using hk)
    simpa using this

section
variable {κ δ ι : Type*} [LinearOrder κ] [DecidableEq δ] [LinearOrder ι]

/-! ## Evaluating does not change what the next trial sees -/

theorem Opt.evalRun_eq (V : EvalEnv δ ι) (S : ArgSort ℝ) (metric : Py.Str) (s : Store κ δ Int)
    (hs : Spec.Usable V.SQ s) (fused : Store κ δ ℝ) :
    (evalRun V S metric (s.ensureSorted V.SQ) fused).2 = (evalRun V S metric s fused).2 ∧
    ((evalRun V S metric s fused).1 = s ∨ (evalRun V S metric s fused).1 = s.ensureSorted V.SQ) ∧
    (evalRun V S metric (s.ensureSorted V.SQ) fused).1 = s.ensureSorted V.SQ := by
  have hid : (s.ensureSorted V.SQ).ensureSorted V.SQ = s.ensureSorted V.SQ := ensureSorted_idem V.SQ s
  obtain ⟨-, -, hk, -, -, -⟩ := ensureSorted_facts V.SQ s hs.ok.1 hs.ok.2
  have hcomp : ∀ s : Store κ δ Int, comparable S { save := false } s ⟨fused, [], [], []⟩ = fused := fun _ => rfl
  have hsame : Eval.sameKeys (s.ensureSorted V.SQ).data.keys fused.data.keys =
      Eval.sameKeys s.data.keys fused.data.keys := by
    rw [Bool.eq_iff_iff]
    unfold Eval.sameKeys
    simp only [Bool.and_eq_true, List.all_eq_true, List.contains_iff_mem]
    constructor
    · rintro ⟨h1, h2⟩
      exact ⟨fun q hq => h1 q ((hk q).2 hq), fun q hq => (hk q).1 (h2 q hq)⟩
    · rintro ⟨h1, h2⟩
      exact ⟨fun q hq => h1 q ((hk q).1 hq), fun q hq => (hk q).2 (h2 q hq)⟩
  unfold evalRun
  simp only [evaluate_obj, hcomp, hid, hsame]
  by_cases hb : Eval.sameKeys s.data.keys fused.data.keys = true
  · simp only [if_pos hb]
    cases scoreAll V.F V.other V.sched (Store.rows V.hash (fun z : Int => (z : ℝ)) (s.ensureSorted V.SQ).data)
      (Store.rows V.hash id (fused.ensureSorted S).data) [metric].zipIdx [] with
    | error e => exact ⟨trivial, .inr rfl, rfl⟩
    | ok d => exact ⟨trivial, .inr rfl, rfl⟩
  · simp only [if_neg hb]
    exact ⟨trivial, .inl rfl, rfl⟩

theorem Opt.evalRun_inv (V : EvalEnv δ ι) (S : ArgSort ℝ) (metric : Py.Str) (s : Store κ δ Int)
    (hs : Spec.Usable V.SQ s) (fused : Store κ δ ℝ) (s' : Store κ δ Int)
    (h : s' = s ∨ s' = s.ensureSorted V.SQ) :
    (evalRun V S metric s' fused).2 = (evalRun V S metric s fused).2 ∧
    ((evalRun V S metric s' fused).1 = s ∨ (evalRun V S metric s' fused).1 = s.ensureSorted V.SQ) := by
  obtain ⟨h1, h2, h3⟩ := evalRun_eq V S metric s hs fused
  rcases h with rfl | rfl
  · exact ⟨rfl, h2⟩
  · exact ⟨h1, .inr h3⟩

/-- Specification: the score of a fused run, `evaluate(qrels, fused, metric)`. -/
noncomputable def Spec.scoreOf (V : EvalEnv δ ι) (S : ArgSort ℝ) (qrels : Store κ δ Int) (metric : Py.Str)
    (fused : Except Err (Store κ δ ℝ)) : Except Err (Num ℝ) :=
  match fused with
  | .error e => .error e
  | .ok fused =>
    match (evaluate V.F V.other V.SQ S V.hash V.sched { save := false } (.obj qrels) (.obj ⟨fused, [], [], []⟩)
      [metric]).2 with
    | .ok (.single (.mean x)) => .ok x
    | .ok _ => .error .typeError
    | .error e => .error e

/-- Specification: the score of a configuration is what the user gets by fusing with it and evaluating:
`evaluate(qrels, fuse(runs, norm, method, params), metric)`. -/
noncomputable def Spec.fusedScore (E : Env δ) (V : EvalEnv δ ι) (qrels : Store κ δ Int) (runs : List (Store κ δ ℝ))
    (norm : Option String) (method : String) (metric : Py.Str) (params : Kwargs) : Except Err (Num ℝ) :=
  Spec.scoreOf V E.S qrels metric (fuse E runs norm method (some params))

theorem Opt.evalRun_snd (V : EvalEnv δ ι) (S : ArgSort ℝ) (metric : Py.Str) (s : Store κ δ Int)
    (fused : Store κ δ ℝ) : (evalRun V S metric s fused).2 =
    match (evaluate V.F V.other V.SQ S V.hash V.sched { save := false } (.obj s) (.obj ⟨fused, [], [], []⟩)
      [metric]).2 with
    | .ok (.single (.mean x)) => .ok x
    | .ok _ => .error .typeError
    | .error e => .error e := by
  unfold evalRun bindArg
  simp only
  cases (evaluate V.F V.other V.SQ S V.hash V.sched { save := false } (.obj s) (.obj ⟨fused, [], [], []⟩)
      [metric]).2 with
  | error e => rfl
  | ok o =>
    cases o with
    | single v => cases v <;> rfl
    | dict d => rfl

theorem Opt.normalizeStores_data (E : Env δ) (norm : Option String) (runs : List (Store κ δ ℝ)) :
    normalizeRuns E norm runs = (normalizeStores E norm runs).map (fun rs => rs.map (fun r => r.data)) := by
  unfold normalizeRuns normalizeStores
  cases norm with
  | none => rfl
  | some n =>
    simp only
    by_cases hn : n ≠ "borda"
    · rw [if_pos hn, if_pos hn]
      cases Norm.normSwitch n with
      | error e => rfl
      | ok k =>
        simp only [Except.map, List.map_map]
        rfl
    · rw [if_neg hn, if_neg hn]
      cases Norm.bordaRuns E.I E.normScheds (runs.map (fun s => s.data)) with
      | error e => rfl
      | ok ds =>
        simp only [Except.map, List.map_map]
        congr 1
        exact (List.map_id _).symm

theorem Opt.normalizeStores_length (E : Env δ) (norm : Option String) (runs rs : List (Store κ δ ℝ))
    (h : normalizeStores E norm runs = .ok rs) : rs.length = runs.length := by
  unfold normalizeStores at h
  cases norm with
  | none => cases h; rfl
  | some n =>
    simp only at h
    by_cases hn : n ≠ "borda"
    · rw [if_pos hn] at h
      cases hk : Norm.normSwitch n with
      | error e => rw [hk] at h; cases h
      | ok k => rw [hk] at h; cases h; simp
    · rw [if_neg hn] at h
      unfold Norm.bordaRuns at h
      cases hc : Norm.getCandidates E.I (runs.map (fun s => s.data)) with
      | error e => rw [hc] at h; cases h
      | ok c =>
        rw [hc] at h
        simp only at h
        by_cases hany : (runs.map (fun s => s.data)).any (fun run => decide (c.length < run.length)) = true
        · rw [if_pos hany] at h; cases h
        · rw [if_neg hany] at h; cases h; simp

/-- the methods searched by trying configurations with a fixed ranking of the runs -/
theorem Opt.switch_plain (method : String) (m : Method) (h : optimizationSwitch method = .ok (.plain m)) :
    fusionSwitch method = .ok m := by
  unfold optimizationSwitch at h
  by_cases h1 : method = "logn_isr"
  · rw [if_pos h1] at h; cases h; subst h1; decide +kernel
  rw [if_neg h1] at h
  by_cases h1 : method = "gmnz"
  · rw [if_pos h1] at h; cases h; subst h1; decide +kernel
  rw [if_neg h1] at h
  by_cases h1 : method = "mixed"
  · rw [if_pos h1] at h; cases h; subst h1; decide +kernel
  rw [if_neg h1] at h
  by_cases h1 : method = "probfuse"
  · rw [if_pos h1] at h; cases h
  rw [if_neg h1] at h
  by_cases h1 : method = "rbc"
  · rw [if_pos h1] at h; cases h; subst h1; decide +kernel
  rw [if_neg h1] at h
  by_cases h1 : method = "rrf"
  · rw [if_pos h1] at h; cases h; subst h1; decide +kernel
  rw [if_neg h1] at h
  by_cases h1 : method = "slidefuse"
  · rw [if_pos h1] at h; cases h
  rw [if_neg h1] at h
  by_cases h1 : method = "w_bordafuse"
  · rw [if_pos h1] at h; cases h; subst h1; decide +kernel
  rw [if_neg h1] at h
  by_cases h1 : method = "w_condorcet"
  · rw [if_pos h1] at h; cases h; subst h1; decide +kernel
  rw [if_neg h1] at h
  by_cases h1 : method = "wmnz"
  · rw [if_pos h1] at h; cases h; subst h1; decide +kernel
  rw [if_neg h1] at h
  by_cases h1 : method = "wsum"
  · rw [if_pos h1] at h; cases h; subst h1; decide +kernel
  rw [if_neg h1] at h
  by_cases h1 : method = "bayesfuse"
  · rw [if_pos h1] at h; cases h
  rw [if_neg h1] at h
  by_cases h1 : method = "mapfuse"
  · rw [if_pos h1] at h; cases h
  rw [if_neg h1] at h
  by_cases h1 : method = "posfuse"
  · rw [if_pos h1] at h; cases h
  rw [if_neg h1] at h
  by_cases h1 : method = "segfuse"
  · rw [if_pos h1] at h; cases h
  rw [if_neg h1] at h
  cases h

/-- what a successful call went through -/
theorem Opt.optimizeFusion_ok {E : Env δ} {V : EvalEnv δ ι} {rowSched : List Nat} {rnd : ℚ → ℚ}
    {str : Kwargs → Py.Str} {strNat : Nat → Py.Str} {qrels : Store κ δ Int} {runs : List (Store κ δ ℝ)}
    {norm : Option String} {method : String} {metric : Py.Str} {wantReport : Bool} {space : Space} {res : Result}
    (h : optimizeFusion E V rowSched rnd str strNat qrels runs norm method metric wantReport space = .ok res) :
    ¬ runs.length ≤ 1 ∧ pairwiseSameKeys runs = true ∧
    runs.all (fun r => Eval.sameKeys r.data.keys qrels.data.keys) = true ∧
    ∃ rs o, normalizeStores E norm runs = .ok rs ∧ (wantReport = true → hasHyperparams method = .ok ()) ∧
      optimizationSwitch method = .ok o ∧
      runOptimizer E V rowSched rnd str strNat metric space qrels rs o = .ok res := by
  unfold optimizeFusion at h
  by_cases h1 : runs.length ≤ 1
  · rw [if_pos h1] at h; cases h
  rw [if_neg h1] at h
  by_cases h2 : pairwiseSameKeys runs = true
  · rw [if_pos h2] at h
    by_cases h3 : runs.all (fun r => Eval.sameKeys r.data.keys qrels.data.keys) = true
    · rw [if_pos h3] at h
      cases hn : normalizeStores E norm runs with
      | error e => rw [hn] at h; cases h
      | ok rs =>
        rw [hn] at h
        simp only [bindArg] at h
        cases hr : (if wantReport = true then hasHyperparams method else .ok ()) with
        | error e => rw [hr] at h; cases h
        | ok u =>
          rw [hr] at h
          simp only at h
          cases ho : optimizationSwitch method with
          | error e => rw [ho] at h; cases h
          | ok o =>
            rw [ho] at h
            refine ⟨h1, h2, h3, rs, o, rfl, ?_, rfl, h⟩
            intro hw
            rw [if_pos hw] at hr
            exact hr
    · rw [if_neg h3] at h; cases h
  · rw [if_neg h2] at h; cases h

theorem Opt.fuse_of_normalized (E : Env δ) (runs rs : List (Store κ δ ℝ)) (norm : Option String)
    (method : String) (m : Method) (params : Kwargs) (h1 : ¬ runs.length ≤ 1)
    (h2 : pairwiseSameKeys runs = true) (hn : normalizeStores E norm runs = .ok rs)
    (hm : fusionSwitch method = .ok m) :
    fuse E runs norm method (some params) = m.call E params (rs.map (fun r => r.data)) := by
  unfold fuse
  rw [if_neg h1, if_pos h2, normalizeStores_data, hn]
  simp only [Except.map, hm, Option.getD_some]

/-- **C65**: for every method tuned by a plain search (rrf, rbc, gmnz, logn_isr, mixed, w_bordafuse,
w_condorcet, wmnz, wsum), `optimize_fusion` returns the last of the tried configurations with the greatest
score, where the score of a configuration is the one the user gets by calling `fuse` with it and evaluating
the result; and the report lists every tried configuration with that score. -/
theorem C65_best_configuration (E : Env δ) (V : EvalEnv δ ι) (rowSched : List Nat) (rnd : ℚ → ℚ)
    (str : Kwargs → Py.Str) (strNat : Nat → Py.Str) (qrels : Store κ δ Int) (hq : Spec.Usable V.SQ qrels)
    (runs : List (Store κ δ ℝ)) (norm : Option String) (method : String) (metric : Py.Str)
    (wantReport : Bool) (space : Space) (m : Method) (hm : optimizationSwitch method = .ok (.plain m))
    (res : Result)
    (h : optimizeFusion E V rowSched rnd str strNat qrels runs norm method metric wantReport space = .ok res) :
    ∃ (tried : List Kwargs) (scores : List (Num ℝ)),
      configs rnd runs.length m space = .ok tried ∧
      tried.map (Spec.fusedScore E V qrels runs norm method metric) = scores.map .ok ∧
      Spec.LastBest (tried.zip scores) res.params ∧
      ((tried.map str).Nodup → res.report = (tried.map str).zip scores) := by
  obtain ⟨h1, h2, -, rs, o, hn, -, ho, hrun⟩ := optimizeFusion_ok h
  rw [hm] at ho
  cases ho
  have hlen := normalizeStores_length E norm runs rs hn
  have hsw := switch_plain method m hm
  simp only [runOptimizer, hlen] at hrun
  cases hc : configs rnd runs.length m space with
  | error e => rw [hc] at hrun; cases hrun
  | ok ts =>
    rw [hc] at hrun
    simp only [bindArg] at hrun
    have hpure := optLoop_pure (plainTrial E V metric m (rs.map (fun r => r.data))) str
      (fun s' => s' = qrels ∨ s' = qrels.ensureSorted V.SQ)
      (fun t => (Spec.fusedScore E V qrels runs norm method metric t).map (fun v => (t, v)))
      (by
        intro s' t hs'
        unfold plainTrial Spec.fusedScore Spec.scoreOf
        rw [fuse_of_normalized E runs rs norm method m t h1 h2 hn hsw]
        cases m.call E t (rs.map (fun r => r.data)) with
        | error e => exact ⟨rfl, fun _ => hs'⟩
        | ok fused =>
          obtain ⟨a, b⟩ := evalRun_inv V E.S metric qrels hq fused s' hs'
          simp only
          refine ⟨?_, fun _ => b⟩
          rw [a, evalRun_snd]) qrels (.inl rfl) ⟨none, 0, []⟩ ts
    rw [hpure] at hrun
    cases hp : pureLoop (fun t => (Spec.fusedScore E V qrels runs norm method metric t).map (fun v => (t, v)))
        str ⟨none, 0, []⟩ ts with
    | error e => rw [hp] at hrun; cases hrun
    | ok sr =>
      rw [hp] at hrun
      cases hrun
      obtain ⟨out, o1, o2, o3⟩ := pureLoop_spec _ _ _ _ hp
      -- the outcomes pair each configuration with its score
      have key : ∀ (ts : List Kwargs) (out : List (Kwargs × Num ℝ)),
          ts.map (fun t => (Spec.fusedScore E V qrels runs norm method metric t).map (fun v => (t, v))) =
            out.map .ok →
          ts.map (Spec.fusedScore E V qrels runs norm method metric) = (out.map Prod.snd).map .ok ∧
            ts.zip (out.map Prod.snd) = out := by
        intro ts
        induction ts with
        | nil =>
          intro out h
          cases out with
          | nil => exact ⟨rfl, rfl⟩
          | cons p t => simp at h
        | cons t ts ih =>
          intro out h
          cases out with
          | nil => simp at h
          | cons p out =>
            simp only [List.map_cons, List.cons.injEq] at h
            obtain ⟨a, b⟩ := ih out h.2
            cases hf : Spec.fusedScore E V qrels runs norm method metric t with
            | error e => rw [hf] at h; cases h.1
            | ok v =>
              rw [hf] at h
              have hpv : p = (t, v) := by
                have := h.1
                simp only [Except.map, Except.ok.injEq] at this
                exact this.symm
              subst hpv
              exact ⟨by simp [hf, a], by simp [b]⟩
      obtain ⟨k1, k2⟩ := key ts out o1
      exact ⟨ts, out.map Prod.snd, rfl, k1, by rw [k2]; exact o2, o3⟩

/-! ## probfuse and slidefuse: training inside the search -/

theorem Opt.trainEach_sorted {γ : Type*} (SQ : ArgSort Int) (SR : ArgSort ℝ) (hash : δ → ι)
    (f : List (List ℝ) → Except Err γ) (runs : List (Store κ δ ℝ)) :
    ∀ (sched : Nat → List Nat) (s s0 : Store κ δ Int) (runs0 : List (Store κ δ ℝ)),
      s0.ensureSorted SQ = s.ensureSorted SQ →
      runs0.map (·.ensureSorted SR) = runs.map (·.ensureSorted SR) →
      (trainEach SQ SR hash sched f s0 runs0).2.2 = (trainEach SQ SR hash sched f s runs).2.2 ∧
      (∀ ts, (trainEach SQ SR hash sched f s runs).2.2 = .ok ts →
        (trainEach SQ SR hash sched f s0 runs0).2.1 = runs.map (·.ensureSorted SR) ∧
        ((trainEach SQ SR hash sched f s0 runs0).1 = s0 ∨
          (trainEach SQ SR hash sched f s0 runs0).1 = s.ensureSorted SQ)) := by
  induction runs with
  | nil =>
    intro sched s s0 runs0 hs hr
    have : runs0 = [] := by simpa using hr
    subst this
    exact ⟨rfl, fun ts h => ⟨rfl, .inl rfl⟩⟩
  | cons r rs ih =>
    intro sched s s0 runs0 hs hr
    cases runs0 with
    | nil => simp at hr
    | cons r0 rs0 =>
      simp only [List.map_cons, List.cons.injEq] at hr
      have hid : (s.ensureSorted SQ).ensureSorted SQ = s.ensureSorted SQ := ensureSorted_idem SQ s
      unfold trainEach Store.toTypedList
      simp only [hs, hr.1]
      cases bindArg (hitLists (sched 0) (Store.rows hash (fun z : Int => (z : ℝ)) (s.ensureSorted SQ).data)
          (Store.rows hash id (r.ensureSorted SR).data)) f with
      | error e => exact ⟨rfl, fun ts h => by cases h⟩
      | ok t =>
        simp only
        obtain ⟨a, b⟩ := ih (fun i => sched (i + 1)) (s.ensureSorted SQ) (s.ensureSorted SQ) rs0 rfl hr.2
        refine ⟨by rw [a], fun ts h => ?_⟩
        rcases hx : trainEach SQ SR hash (fun i => sched (i + 1)) f (s.ensureSorted SQ) rs with ⟨x1, x2, x3⟩
        rw [hx] at h b
        simp only at h b
        cases x3 with
        | error e => cases h
        | ok ts' =>
          obtain ⟨b1, b2⟩ := b ts' rfl
          refine ⟨by simp [b1], .inr ?_⟩
          rw [hid] at b2
          rcases b2 with b2 | b2 <;> exact b2

theorem Opt.probfuseTrain_sorted (SQ : ArgSort Int) (SR : ArgSort ℝ) (hash : δ → ι) (runs : List (Store κ δ ℝ))
    (sched : Nat → List Nat) (rowSched : List Nat) (n : Nat) (s s0 : Store κ δ Int)
    (runs0 : List (Store κ δ ℝ)) (hs : s0.ensureSorted SQ = s.ensureSorted SQ)
    (hr : runs0.map (·.ensureSorted SR) = runs.map (·.ensureSorted SR)) :
    (probfuseTrain SQ SR hash sched rowSched n s0 runs0).2.2 =
      (probfuseTrain SQ SR hash sched rowSched n s runs).2.2 ∧
    (∀ ts, (probfuseTrain SQ SR hash sched rowSched n s runs).2.2 = .ok ts →
      (probfuseTrain SQ SR hash sched rowSched n s0 runs0).2.1 = runs.map (·.ensureSorted SR) ∧
      ((probfuseTrain SQ SR hash sched rowSched n s0 runs0).1 = s0 ∨
        (probfuseTrain SQ SR hash sched rowSched n s0 runs0).1 = s.ensureSorted SQ)) := by
  obtain ⟨a, b⟩ := trainEach_sorted SQ SR hash Except.ok runs sched s s0 runs0 hs hr
  unfold probfuseTrain
  rcases hx : trainEach SQ SR hash sched Except.ok s runs with ⟨x1, x2, x3⟩
  rcases hy : trainEach SQ SR hash sched Except.ok s0 runs0 with ⟨y1, y2, y3⟩
  rw [hx, hy] at a b
  simp only at a b ⊢
  subst a
  refine ⟨rfl, fun ts h => ?_⟩
  cases y3 with
  | error e => cases h
  | ok t => exact b t rfl

/-- outcomes of a search whose trials are trained parameters -/
theorem Opt.outcomes_zip {τ : Type*} (g : τ → Except Err Kwargs) (score : Kwargs → Except Err (Num ℝ))
    (ts : List τ) (out : List (Kwargs × Num ℝ))
    (h : ts.map (fun t => bindArg (g t) fun p => (score p).map (fun v => (p, v))) = out.map .ok) :
    ts.map g = (out.map Prod.fst).map .ok ∧ (out.map Prod.fst).map score = (out.map Prod.snd).map .ok := by
  induction ts generalizing out with
  | nil =>
    cases out with
    | nil => exact ⟨rfl, rfl⟩
    | cons p t => simp at h
  | cons t ts ih =>
    cases out with
    | nil => simp at h
    | cons p out =>
      simp only [List.map_cons, List.cons.injEq] at h
      obtain ⟨a, b⟩ := ih out h.2
      cases hg : g t with
      | error e => rw [hg] at h; cases h.1
      | ok q =>
        rw [hg] at h
        have h1 := h.1
        simp only [bindArg] at h1
        cases hf : score q with
        | error e => rw [hf] at h1; cases h1
        | ok v =>
          rw [hf] at h1
          simp only [Except.map, Except.ok.injEq] at h1
          subst h1
          exact ⟨by simp [hg, a], by simp [hf, b]⟩

/-- **C65** (probfuse): each tried number of segments is trained on the qrels and the normalized runs; the
returned probabilities are the last of those with the best score. The score of trained probabilities is that of
probfuse on the normalized runs, each stored best first (training sorts them in place). -/
theorem C65_probfuse (E : Env δ) (V : EvalEnv δ ι) (rowSched : List Nat) (rnd : ℚ → ℚ)
    (str : Kwargs → Py.Str) (strNat : Nat → Py.Str) (qrels : Store κ δ Int) (hq : Spec.Usable V.SQ qrels)
    (runs rs : List (Store κ δ ℝ)) (norm : Option String) (hn : normalizeStores E norm runs = .ok rs) (metric : Py.Str) (wantReport : Bool)
    (lo hi : Int) (res : Result)
    (h : optimizeFusion E V rowSched rnd str strNat qrels runs norm "probfuse" metric wantReport
      (.ints lo hi 1) = .ok res) :
    ∃ (segments : List Int) (tables : List (List (List ℝ))) (scores : List (Num ℝ)),
      intGrid lo hi 1 = .ok segments ∧
      segments.map (fun n => (probfuseTrain V.SQ E.S V.hash V.sched rowSched n.toNat qrels rs).2.2) =
        tables.map .ok ∧
      tables.map (fun t => Spec.scoreOf V E.S qrels metric (Fuse.probfuse E.S E.sched E.scheds t
        (rs.map (fun r => (r.ensureSorted E.S).data)))) = scores.map .ok ∧
      Spec.LastBest ((tables.map (fun t => [("probs", PyVal.tables t)])).zip scores) res.params ∧
      ((segments.map (fun n => strNat n.toNat)).Nodup →
        res.report = (segments.map (fun n => strNat n.toNat)).zip scores) := by
  obtain ⟨h1, h2, -, rs', o, hn', -, ho, hrun⟩ := optimizeFusion_ok h
  rw [hn] at hn'
  cases hn'
  have hsw : optimizationSwitch "probfuse" = .ok .probfuse := by decide +kernel
  rw [hsw] at ho
  cases ho
  simp only [runOptimizer] at hrun
  obtain ⟨segments, hseg, -, -⟩ := C67_ints lo hi 1 (by norm_num)
  rw [hseg] at hrun
  simp only [bindArg] at hrun
  -- the score of the arguments
  let score : Kwargs → Except Err (Num ℝ) := fun p => bindArg (tablesArg p "probs") fun t =>
    Spec.scoreOf V E.S qrels metric (Fuse.probfuse E.S E.sched E.scheds t
      (rs.map (fun r => (r.ensureSorted E.S).data)))
  have hscore : ∀ t, score [("probs", .tables t)] = Spec.scoreOf V E.S qrels metric
      (Fuse.probfuse E.S E.sched E.scheds t (rs.map (fun r => (r.ensureSorted E.S).data))) := fun t => rfl
  have hpure := optLoop_pure (probfuseTrial E V rowSched metric) strNat
    (fun st => (st.1 = qrels ∨ st.1 = qrels.ensureSorted V.SQ) ∧
      st.2.map (·.ensureSorted E.S) = rs.map (·.ensureSorted E.S))
    (fun n => bindArg ((probfuseTrain V.SQ E.S V.hash V.sched rowSched n qrels rs).2.2.map
        (fun t => [("probs", PyVal.tables t)]))
      fun p => (score p).map (fun v => (p, v)))
    (by
      rintro ⟨s', runs'⟩ n ⟨hs', hr'⟩
      simp only at hs' hr'
      have hs'' : s'.ensureSorted V.SQ = qrels.ensureSorted V.SQ := by
        rcases hs' with rfl | rfl
        · rfl
        · exact ensureSorted_idem V.SQ qrels
      obtain ⟨a, b⟩ := probfuseTrain_sorted V.SQ E.S V.hash rs V.sched rowSched n qrels s' runs' hs'' hr'
      unfold probfuseTrial
      simp only
      rw [a]
      cases ht : (probfuseTrain V.SQ E.S V.hash V.sched rowSched n qrels rs).2.2 with
      | error e => exact ⟨rfl, fun ⟨p, hp⟩ => by cases hp⟩
      | ok t =>
        obtain ⟨b1, b2⟩ := b t ht
        simp only [b1, Except.map, bindArg, hscore, List.map_map]
        unfold Spec.scoreOf
        have hcomp : ((fun r : Store κ δ ℝ => r.data) ∘ fun x : Store κ δ ℝ => x.ensureSorted E.S) =
          fun r : Store κ δ ℝ => (r.ensureSorted E.S).data := rfl
        rw [hcomp]
        cases Fuse.probfuse E.S E.sched E.scheds t (rs.map (fun r => (r.ensureSorted E.S).data)) with
        | error e => exact ⟨rfl, fun ⟨p, hp⟩ => by cases hp⟩
        | ok fused =>
          have hb : (probfuseTrain V.SQ E.S V.hash V.sched rowSched n s' runs').1 = qrels ∨
              (probfuseTrain V.SQ E.S V.hash V.sched rowSched n s' runs').1 = qrels.ensureSorted V.SQ := by
            rcases b2 with b2 | b2
            · rw [b2]; exact hs'
            · exact .inr b2
          obtain ⟨c, d⟩ := evalRun_inv V E.S metric qrels hq fused _ hb
          simp only
          refine ⟨?_, fun _ => ⟨d, ?_⟩⟩
          · rw [c, evalRun_snd]
          · rw [List.map_map]
            refine List.map_congr_left (fun r _ => ?_)
            exact ensureSorted_idem E.S r) (qrels, rs) ⟨.inl rfl, rfl⟩
    ⟨none, 0, []⟩ (counts segments)
  rw [hpure] at hrun
  cases hp : pureLoop (fun n => bindArg ((probfuseTrain V.SQ E.S V.hash V.sched rowSched n qrels rs).2.2.map
        (fun t => [("probs", PyVal.tables t)]))
      fun p => (score p).map (fun v => (p, v)))
      strNat ⟨none, 0, []⟩ (counts segments) with
  | error e => rw [hp] at hrun; cases hrun
  | ok sr =>
    rw [hp] at hrun
    cases hrun
    obtain ⟨out, o1, o2, o3⟩ := pureLoop_spec _ _ _ _ hp
    obtain ⟨k1, k2⟩ := outcomes_zip _ _ _ _ o1
    -- the tables behind the returned dictionaries
    have htab : ∀ (ns : List Nat) (ps : List Kwargs),
        ns.map (fun n => (probfuseTrain V.SQ E.S V.hash V.sched rowSched n qrels rs).2.2.map
          (fun t => [("probs", PyVal.tables t)])) = ps.map .ok →
        ∃ tables : List (List (List ℝ)),
          ns.map (fun n => (probfuseTrain V.SQ E.S V.hash V.sched rowSched n qrels rs).2.2) = tables.map .ok ∧
          ps = tables.map (fun t => [("probs", PyVal.tables t)]) := by
      intro ns
      induction ns with
      | nil =>
        intro ps h
        cases ps with
        | nil => exact ⟨[], rfl, rfl⟩
        | cons p t => simp at h
      | cons n ns ih =>
        intro ps h
        cases ps with
        | nil => simp at h
        | cons p ps =>
          simp only [List.map_cons, List.cons.injEq] at h
          obtain ⟨tables, a, b⟩ := ih ps h.2
          cases ht : (probfuseTrain V.SQ E.S V.hash V.sched rowSched n qrels rs).2.2 with
          | error e => rw [ht] at h; cases h.1
          | ok t =>
            rw [ht] at h
            have h1 := h.1
            simp only [Except.map, Except.ok.injEq] at h1
            exact ⟨t :: tables, by simp [ht, a], by rw [← h1, b]; rfl⟩
    obtain ⟨tables, t1, t2⟩ := htab _ _ k1
    refine ⟨segments, tables, out.map Prod.snd, hseg, ?_, ?_, ?_, ?_⟩
    · rw [← t1]; unfold counts; rw [List.map_map]; rfl
    · rw [← k2, t2, List.map_map]; rfl
    · rw [← t2]
      have : (out.map Prod.fst).zip (out.map Prod.snd) = out := by
        rw [List.zip_map']; simp
      rw [this]; exact o2
    · have hc : (counts segments).map strNat = segments.map (fun n => strNat n.toNat) := by
        unfold counts; rw [List.map_map]; rfl
      rw [hc] at o3
      exact o3

/-- **C65** (probfuse): the scores of `C65_probfuse` are those of `fuse` with the trained probabilities
provided the normalized runs are stored best first (training sorts them in place, `fuse` does not). -/
theorem C65_probfuse_partial (E : Env δ) (V : EvalEnv δ ι) (rowSched : List Nat) (rnd : ℚ → ℚ)
    (str : Kwargs → Py.Str) (strNat : Nat → Py.Str) (qrels : Store κ δ Int) (hq : Spec.Usable V.SQ qrels)
    (runs rs : List (Store κ δ ℝ)) (norm : Option String) (hn : normalizeStores E norm runs = .ok rs)
    (hord : ∀ r ∈ rs, (r.ensureSorted E.S).data = r.data) (metric : Py.Str) (wantReport : Bool)
    (lo hi : Int) (res : Result)
    (h : optimizeFusion E V rowSched rnd str strNat qrels runs norm "probfuse" metric wantReport
      (.ints lo hi 1) = .ok res) :
    ∃ (segments : List Int) (tables : List (List (List ℝ))) (scores : List (Num ℝ)),
      intGrid lo hi 1 = .ok segments ∧
      segments.map (fun n => (probfuseTrain V.SQ E.S V.hash V.sched rowSched n.toNat qrels rs).2.2) =
        tables.map .ok ∧
      tables.map (fun t => Spec.fusedScore E V qrels runs norm "probfuse" metric [("probs", .tables t)]) =
        scores.map .ok ∧
      Spec.LastBest ((tables.map (fun t => [("probs", PyVal.tables t)])).zip scores) res.params ∧
      ((segments.map (fun n => strNat n.toNat)).Nodup →
        res.report = (segments.map (fun n => strNat n.toNat)).zip scores) := by
  obtain ⟨h1, h2, -, -⟩ := optimizeFusion_ok h
  have hfs : fusionSwitch "probfuse" = .ok .probfuse := by decide +kernel
  obtain ⟨segments, tables, scores, k1, k2, k3, k4, k5⟩ :=
    C65_probfuse E V rowSched rnd str strNat qrels hq runs rs norm hn metric wantReport lo hi res h
  refine ⟨segments, tables, scores, k1, k2, ?_, k4, k5⟩
  rw [← k3]
  apply List.map_congr_left
  intro t _
  unfold Spec.fusedScore
  rw [fuse_of_normalized E runs rs norm "probfuse" .probfuse _ h1 h2 hn hfs]
  have hdata : rs.map (fun r => (r.ensureSorted E.S).data) = rs.map (fun r => r.data) :=
    List.map_congr_left (fun r hr => hord r hr)
  rw [hdata]
  congr 1

/-- **C65** (slidefuse): the position probabilities are trained once; the returned window is the last of those
with the best score, the score of a window being that of slidefuse on the normalized runs, each stored best first
(training sorts them in place). -/
theorem C65_slidefuse (E : Env δ) (V : EvalEnv δ ι) (rowSched : List Nat) (rnd : ℚ → ℚ)
    (str : Kwargs → Py.Str) (strNat : Nat → Py.Str) (qrels : Store κ δ Int) (hq : Spec.Usable V.SQ qrels)
    (runs rs : List (Store κ δ ℝ)) (norm : Option String) (hn : normalizeStores E norm runs = .ok rs) (metric : Py.Str) (wantReport : Bool)
    (lo hi : Int) (res : Result)
    (h : optimizeFusion E V rowSched rnd str strNat qrels runs norm "slidefuse" metric wantReport
      (.ints lo hi 1) = .ok res) :
    ∃ (windows : List Int) (tables : List (List ℝ)) (scores : List (Num ℝ)),
      intGrid lo hi 1 = .ok windows ∧
      (posfuseTrain V.SQ E.S V.hash V.sched qrels rs).2.2 = .ok tables ∧
      windows.map (fun w => Spec.scoreOf V E.S qrels metric (Fuse.slidefuse E.S E.sched E.scheds tables w.toNat
        (rs.map (fun r => (r.ensureSorted E.S).data)))) = scores.map .ok ∧
      Spec.LastBest ((windows.map (fun w => [("probs", PyVal.tables tables), ("w", PyVal.int w.toNat)])).zip
        scores) res.params ∧
      ((windows.map (fun n => strNat n.toNat)).Nodup →
        res.report = (windows.map (fun n => strNat n.toNat)).zip scores) := by
  obtain ⟨h1, h2, -, rs', o, hn', -, ho, hrun⟩ := optimizeFusion_ok h
  rw [hn] at hn'
  cases hn'
  have hsw : optimizationSwitch "slidefuse" = .ok .slidefuse := by decide +kernel
  rw [hsw] at ho
  cases ho
  simp only [runOptimizer] at hrun
  obtain ⟨windows, hwin, -, -⟩ := C67_ints lo hi 1 (by norm_num)
  rw [hwin] at hrun
  simp only [bindArg] at hrun
  let score : Nat → Except Err (Num ℝ) := fun w =>
    Spec.scoreOf V E.S qrels metric
      (Fuse.slidefuse E.S E.sched E.scheds ((posfuseTrain V.SQ E.S V.hash V.sched qrels rs).2.2.toOption.getD []) w
        (rs.map (fun r => (r.ensureSorted E.S).data)))
  have htr := (trainEach_sorted V.SQ E.S V.hash estimateProbs rs V.sched qrels qrels rs rfl rfl).2
  cases ht : (posfuseTrain V.SQ E.S V.hash V.sched qrels rs).2.2 with
  | error e => rw [ht] at hrun; cases hrun
  | ok tables =>
    rw [ht] at hrun
    simp only at hrun
    obtain ⟨b1, b2⟩ := htr tables ht
    have hb1 : (posfuseTrain V.SQ E.S V.hash V.sched qrels rs).2.1 = rs.map (·.ensureSorted E.S) := b1
    have hb2 : (posfuseTrain V.SQ E.S V.hash V.sched qrels rs).1 = qrels ∨
      (posfuseTrain V.SQ E.S V.hash V.sched qrels rs).1 = qrels.ensureSorted V.SQ := b2
    have hscore : ∀ w, score w = Spec.scoreOf V E.S qrels metric
        (Fuse.slidefuse E.S E.sched E.scheds tables w (rs.map (fun r => (r.ensureSorted E.S).data))) := by
      intro w
      show Spec.scoreOf V E.S qrels metric _ = _
      rw [ht]; rfl
    have hpure := optLoop_pure (slidefuseTrial E V metric tables
        (posfuseTrain V.SQ E.S V.hash V.sched qrels rs).2.1) strNat
      (fun s' => s' = qrels ∨ s' = qrels.ensureSorted V.SQ)
      (fun w => (score w).map
          (fun v => ([("probs", PyVal.tables tables), ("w", PyVal.int w)], v)))
      (by
        intro s' w hs'
        rw [hscore]
        unfold slidefuseTrial Spec.scoreOf
        rw [hb1, List.map_map]
        have hcomp : ((fun r : Store κ δ ℝ => r.data) ∘ fun x : Store κ δ ℝ => x.ensureSorted E.S) =
          fun r : Store κ δ ℝ => (r.ensureSorted E.S).data := rfl
        rw [hcomp]
        cases Fuse.slidefuse E.S E.sched E.scheds tables w (rs.map (fun r => (r.ensureSorted E.S).data)) with
        | error e => exact ⟨rfl, fun _ => hs'⟩
        | ok fused =>
          obtain ⟨a, b⟩ := evalRun_inv V E.S metric qrels hq fused s' hs'
          simp only
          refine ⟨?_, fun _ => b⟩
          rw [a, evalRun_snd]) _ hb2 ⟨none, 0, []⟩ (counts windows)
    rw [hpure] at hrun
    cases hp : pureLoop (fun w => (score w).map
          (fun v => ([("probs", PyVal.tables tables), ("w", PyVal.int w)], v)))
        strNat ⟨none, 0, []⟩ (counts windows) with
    | error e => rw [hp] at hrun; cases hrun
    | ok sr =>
      rw [hp] at hrun
      cases hrun
      obtain ⟨out, o1, o2, o3⟩ := pureLoop_spec _ _ _ _ hp
      have key : ∀ (ws : List Nat) (out : List (Kwargs × Num ℝ)),
          ws.map (fun w => (score w).map
              (fun v => ([("probs", PyVal.tables tables), ("w", PyVal.int w)], v))) = out.map .ok →
          ws.map (fun w => score w) = (out.map Prod.snd).map .ok ∧
          (ws.map (fun w => [("probs", PyVal.tables tables), ("w", PyVal.int w)])).zip (out.map Prod.snd) = out := by
        intro ws
        induction ws with
        | nil =>
          intro out h
          cases out with
          | nil => exact ⟨rfl, rfl⟩
          | cons p t => simp at h
        | cons w ws ih =>
          intro out h
          cases out with
          | nil => simp at h
          | cons p out =>
            simp only [List.map_cons, List.cons.injEq] at h
            obtain ⟨a, b⟩ := ih out h.2
            cases hf : score w with
            | error e => rw [hf] at h; cases h.1
            | ok v =>
              rw [hf] at h
              have hpv := h.1
              simp only [Except.map, Except.ok.injEq] at hpv
              subst hpv
              exact ⟨by simp [hf, a], by simp [b]⟩
      obtain ⟨k1, k2⟩ := key _ _ o1
      refine ⟨windows, tables, out.map Prod.snd, hwin, rfl, ?_, ?_, ?_⟩
      · rw [← k1]
        unfold counts
        rw [List.map_map]
        exact List.map_congr_left (fun w _ => (hscore w.toNat).symm)
      · have hc : (counts windows).map (fun w => [("probs", PyVal.tables tables), ("w", PyVal.int w)]) =
            windows.map (fun w => [("probs", PyVal.tables tables), ("w", PyVal.int w.toNat)]) := by
          unfold counts; rw [List.map_map]; rfl
        rw [← hc, k2]
        exact o2
      · have hc : (counts windows).map strNat = windows.map (fun n => strNat n.toNat) := by
          unfold counts; rw [List.map_map]; rfl
        rw [hc] at o3
        exact o3

/-- **C65** (slidefuse): the scores of `C65_slidefuse` are those of `fuse` provided the normalized runs are stored
best first. -/
theorem C65_slidefuse_partial (E : Env δ) (V : EvalEnv δ ι) (rowSched : List Nat) (rnd : ℚ → ℚ)
    (str : Kwargs → Py.Str) (strNat : Nat → Py.Str) (qrels : Store κ δ Int) (hq : Spec.Usable V.SQ qrels)
    (runs rs : List (Store κ δ ℝ)) (norm : Option String) (hn : normalizeStores E norm runs = .ok rs)
    (hord : ∀ r ∈ rs, (r.ensureSorted E.S).data = r.data) (metric : Py.Str) (wantReport : Bool)
    (lo hi : Int) (res : Result)
    (h : optimizeFusion E V rowSched rnd str strNat qrels runs norm "slidefuse" metric wantReport
      (.ints lo hi 1) = .ok res) :
    ∃ (windows : List Int) (tables : List (List ℝ)) (scores : List (Num ℝ)),
      intGrid lo hi 1 = .ok windows ∧
      (posfuseTrain V.SQ E.S V.hash V.sched qrels rs).2.2 = .ok tables ∧
      windows.map (fun w => Spec.fusedScore E V qrels runs norm "slidefuse" metric
        [("probs", .tables tables), ("w", .int w.toNat)]) = scores.map .ok ∧
      Spec.LastBest ((windows.map (fun w => [("probs", PyVal.tables tables), ("w", PyVal.int w.toNat)])).zip
        scores) res.params ∧
      ((windows.map (fun n => strNat n.toNat)).Nodup →
        res.report = (windows.map (fun n => strNat n.toNat)).zip scores) := by
  obtain ⟨h1, h2, -, -⟩ := optimizeFusion_ok h
  have hfs : fusionSwitch "slidefuse" = .ok .slidefuse := by decide +kernel
  obtain ⟨windows, tables, scores, k1, k2, k3, k4, k5⟩ :=
    C65_slidefuse E V rowSched rnd str strNat qrels hq runs rs norm hn metric wantReport lo hi res h
  refine ⟨windows, tables, scores, k1, k2, ?_, k4, k5⟩
  rw [← k3]
  apply List.map_congr_left
  intro w _
  unfold Spec.fusedScore
  rw [fuse_of_normalized E runs rs norm "slidefuse" .slidefuse _ h1 h2 hn hfs]
  have hdata : rs.map (fun r => (r.ensureSorted E.S).data) = rs.map (fun r => r.data) :=
    List.map_congr_left (fun r hr => hord r hr)
  rw [hdata]
  congr 1

/-! ## Preconditions and success -/

/-- **C65** (preconditions): fewer than two runs, runs with different queries, or queries different from the
qrels' raise AssertionError; a method that has nothing to optimize raises ValueError, also when only the report
is impossible (training-only methods with `return_optimization_report=True`). -/
theorem C65_preconditions (E : Env δ) (V : EvalEnv δ ι) (rowSched : List Nat) (rnd : ℚ → ℚ)
    (str : Kwargs → Py.Str) (strNat : Nat → Py.Str) (qrels : Store κ δ Int) (runs : List (Store κ δ ℝ))
    (norm : Option String) (method : String) (metric : Py.Str) (wantReport : Bool) (space : Space) :
    (runs.length ≤ 1 ∨ ¬ Spec.SameQueries runs ∨ (∃ r ∈ runs, ¬ ∀ q, q ∈ r.data.keys ↔ q ∈ qrels.data.keys) →
      optimizeFusion E V rowSched rnd str strNat qrels runs norm method metric wantReport space =
        .error .assertionError) ∧
    (2 ≤ runs.length → Spec.SameQueries runs → (∀ r ∈ runs, ∀ q, q ∈ r.data.keys ↔ q ∈ qrels.data.keys) →
      (∃ rs, normalizeStores E norm runs = .ok rs) →
      (method ∈ ["anz", "bordafuse", "condorcet", "isr", "log_isr", "max", "med", "min", "mnz", "sum"] ∨
        (wantReport = true ∧ method ∈ ["bayesfuse", "mapfuse", "posfuse", "segfuse"])) →
      optimizeFusion E V rowSched rnd str strNat qrels runs norm method metric wantReport space =
        .error .valueError) := by
  have hsame : ∀ a b : List κ, Eval.sameKeys a b = true ↔ ∀ q, q ∈ a ↔ q ∈ b := by
    intro a b
    unfold Eval.sameKeys
    simp only [Bool.and_eq_true, List.all_eq_true, List.contains_iff_mem]
    exact ⟨fun h q => ⟨h.1 q, h.2 q⟩, fun h => ⟨fun q => (h q).1, fun q => (h q).2⟩⟩
  constructor
  · intro h
    unfold optimizeFusion
    by_cases h1 : runs.length ≤ 1
    · rw [if_pos h1]
    · rw [if_neg h1]
      by_cases h2 : pairwiseSameKeys runs = true
      · rw [if_pos h2, if_neg]
        intro hall
        rw [List.all_eq_true] at hall
        rcases h with h | h | ⟨r, hr, hk⟩
        · exact h1 h
        · exact h ((pairwiseSameKeys_iff runs).1 h2)
        · exact hk ((hsame _ _).1 (hall r hr))
      · rw [if_neg h2]
  · rintro h1 h2 h3 ⟨rs, hn⟩ hm
    unfold optimizeFusion
    rw [if_neg (by omega), if_pos ((pairwiseSameKeys_iff runs).2 h2),
      if_pos (List.all_eq_true.2 (fun r hr => (hsame _ _).2 (h3 r hr))), hn]
    simp only [bindArg]
    have hno : ∀ m ∈ ["anz", "bordafuse", "condorcet", "isr", "log_isr", "max", "med", "min", "mnz", "sum"],
        optimizationSwitch m = .error .valueError ∧ hasHyperparams m = .error .valueError := by decide +kernel
    have htr : ∀ m ∈ ["bayesfuse", "mapfuse", "posfuse", "segfuse"], hasHyperparams m = .error .valueError := by
      decide +kernel
    rcases hm with hm | ⟨hw, hm⟩
    · rw [(hno method hm).1, (hno method hm).2]
      cases wantReport <;> rfl
    · rw [hw, htr method hm]
      rfl

/-- **C65** (success): with weights tuned for wsum on well-formed runs over the qrels' queries and a metric that
does not raise, `optimize_fusion` succeeds. -/
theorem C65_wsum_succeeds (E : Env δ) (V : EvalEnv δ ι) (rowSched : List Nat) (rnd : ℚ → ℚ)
    (str : Kwargs → Py.Str) (strNat : Nat → Py.Str) (qrels : Store κ δ Int) (hq : Spec.Usable V.SQ qrels)
    (runs : List (Store κ δ ℝ)) (hn : 2 ≤ runs.length) (hw : ∀ s ∈ runs, Store.Wf s.data)
    (hE : Spec.SchedulesCover E runs) (hV : ∀ i, Schedule qrels.data.length (V.sched i))
    (hk : ∀ r ∈ runs, ∀ q, q ∈ r.data.keys ↔ q ∈ qrels.data.keys) (metric : Py.Str)
    (hmet : ∃ f : Kernel ι ℝ, metricOf V.F V.other metric = .ok f ∧ ∀ a b, ∃ v, f a b = .ok v)
    (wantReport : Bool) (step : ℚ) (hstep : step ≠ 0) (stepStr : Py.Str) :
    ∃ res, optimizeFusion E V rowSched rnd str strNat qrels runs none "wsum" metric wantReport
      (.weights step stepStr) = .ok res := by
  have hsame : ∀ a b : List κ, Eval.sameKeys a b = true ↔ ∀ q, q ∈ a ↔ q ∈ b := by
    intro a b
    unfold Eval.sameKeys
    simp only [Bool.and_eq_true, List.all_eq_true, List.contains_iff_mem]
    exact ⟨fun h q => ⟨h.1 q, h.2 q⟩, fun h => ⟨fun q => (h q).1, fun q => (h q).2⟩⟩
  have hsq : Spec.SameQueries runs := fun s hs s' hs' q hq' => (hk s' hs' q).2 ((hk s hs q).1 hq')
  have h1 : ¬ runs.length ≤ 1 := by omega
  have h2 := (pairwiseSameKeys_iff runs).2 hsq
  have hf := fusable_of runs hn hw hsq
  have hfit := fits_of E runs hE (by intro h; subst h; simp at hn)
  have hsw : optimizationSwitch "wsum" = .ok (.plain .wsum) := by decide +kernel
  have hhp : (if wantReport = true then hasHyperparams "wsum" else .ok ()) = .ok () := by
    cases wantReport <;> decide +kernel
  unfold optimizeFusion
  rw [if_neg h1, if_pos h2, if_pos (List.all_eq_true.2 (fun r hr => (hsame _ _).2 (hk r hr)))]
  simp only [normalizeStores, bindArg, hhp, hsw, runOptimizer, configs]
  have hgrid : ∃ ws, grid rnd 0 1 step stepStr = .ok ws := by
    unfold grid npArange
    rw [if_neg hstep]
    exact ⟨_, rfl⟩
  obtain ⟨ws, hws⟩ := hgrid
  have hcfg : weightTrials rnd step stepStr runs.length = .ok (trialConfigs rnd ws runs.length) := by
    unfold weightTrials; rw [hws]; rfl
  rw [hcfg]
  simp only [Except.map]
  -- every trial succeeds
  have htrial : ∀ (s' : Store κ δ Int), (s' = qrels ∨ s' = qrels.ensureSorted V.SQ) →
      ∀ w ∈ trialConfigs rnd ws runs.length, ∃ s'' p, plainTrial E V metric .wsum (runs.map (fun r => r.data)) s'
        [("weights", .nums (w.map (fun (x : ℚ) => (x : ℝ))))] = (s'', .ok p) ∧
        (s'' = qrels ∨ s'' = qrels.ensureSorted V.SQ) := by
    intro s' hs' w hwm
    have hlen : w.length = runs.length := by
      unfold trialConfigs at hwm
      exact ((mem_product ws runs.length w).1 (List.mem_filter.1 hwm).1).1
    obtain ⟨out, ho1, ho2⟩ := C49_wsum E.S E.sched (w.map (fun (x : ℚ) => (x : ℝ))) (runs.map (fun r => r.data)) hf
      (by simp [hlen]) hfit.1
    have hcall : Method.wsum.call E [("weights", .nums (w.map (fun (x : ℚ) => (x : ℝ))))]
        (runs.map (fun r => r.data)) = .ok out := by
      unfold Method.call
      rw [if_pos (by simp [Dict.keys, Method.parameters])]
      simp only [numsArg, Dict.get?, if_true, bindArg]
      exact ho1
    have hkeys : ∀ q, q ∈ qrels.data.keys ↔ q ∈ out.data.keys := by
      intro q
      rw [ho2.queries]
      constructor
      · intro hq'
        cases runs with
        | nil => simp at hn
        | cons r t => exact ⟨r.data, by simp, (hk r (by simp) q).2 hq'⟩
      · rintro ⟨run, hr, hq'⟩
        obtain ⟨r, hr', rfl⟩ := List.mem_map.1 hr
        exact (hk r hr' q).1 hq'
    obtain ⟨after, o, ho⟩ := evaluate_succeeds V.F V.other V.SQ E.S V.hash V.sched { save := false } (.inr rfl)
      qrels ⟨out, [], [], []⟩ [metric] hq.ok ⟨⟨ho2.nodupQ, ho2.nodupD⟩, fun _ => ⟨ho2.ranked, ho2.ordered⟩⟩ hV
      (.inr hkeys) (by
        intro m hm
        rw [List.mem_singleton] at hm
        subst hm; exact hmet)
    obtain ⟨a, b⟩ := evalRun_inv V E.S metric qrels hq out s' hs'
    have hval : ∃ v, (evalRun V E.S metric qrels out).2 = .ok v := by
      unfold evalRun
      simp only [ho, bindArg]
      have hmean := congrArg Prod.snd ho
      rw [evaluate_obj] at hmean
      by_cases hb : Eval.sameKeys qrels.data.keys (comparable E.S { save := false } qrels
          (⟨out, [], [], []⟩ : RunObj κ δ ℝ)).data.keys = true
      · rw [if_pos hb] at hmean
        cases hsc : scoreAll V.F V.other V.sched
            (Store.rows V.hash (fun z : Int => (z : ℝ)) (qrels.ensureSorted V.SQ).data)
            (Store.rows V.hash id ((comparable E.S { save := false } qrels
              (⟨out, [], [], []⟩ : RunObj κ δ ℝ)).ensureSorted E.S).data) [metric].zipIdx [] with
        | error e => rw [hsc] at hmean; simp at hmean
        | ok d =>
          rw [hsc] at hmean
          simp only [outOf] at hmean
          rw [get?_map_val] at hmean
          cases hg : d.get? (lastM V.other { save := false } true metric) with
          | none => rw [hg] at hmean; simp at hmean
          | some l =>
            rw [hg] at hmean
            simp only [Option.map_some, Except.ok.injEq] at hmean
            rw [← hmean]
            exact ⟨_, rfl⟩
      · rw [if_neg hb] at hmean; simp at hmean
    obtain ⟨v, hv⟩ := hval
    refine ⟨(evalRun V E.S metric s' out).1, ([("weights", .nums (w.map (fun (x : ℚ) => (x : ℝ))))], v), ?_, b⟩
    unfold plainTrial
    rw [hcall]
    simp only [a, hv, Except.map]
  have hloop : ∀ (ts : List (List ℚ)), (∀ w ∈ ts, w ∈ trialConfigs rnd ws runs.length) →
      ∀ (s' : Store κ δ Int) (acc : Search Kwargs ℝ), (s' = qrels ∨ s' = qrels.ensureSorted V.SQ) →
      ∃ res, (optLoop (plainTrial E V metric .wsum (runs.map (fun r => r.data))) str s' acc
        (ts.map (fun ws => [("weights", PyVal.nums (ws.map (fun (x : ℚ) => (x : ℝ))))]))).2 = .ok res := by
    intro ts
    induction ts with
    | nil => intro _ s' acc _; exact ⟨acc, rfl⟩
    | cons w ts ih =>
      intro hts s' acc hs'
      obtain ⟨s'', p, hp, hs''⟩ := htrial s' hs' w (hts w (by simp))
      rw [List.map_cons]
      unfold optLoop
      rw [hp]
      obtain ⟨c, v⟩ := p
      exact ih (fun w hw => hts w (by simp [hw])) s'' _ hs''
  obtain ⟨res, hres⟩ := hloop (trialConfigs rnd ws runs.length) (fun _ h => h) qrels ⟨none, 0, []⟩ (.inl rfl)
  rw [hres]
  exact ⟨_, rfl⟩

end

/-- **C65** (report): the highlighted row of the report is the *first* best configuration, whereas
`optimize_fusion` returns the *last* one. -/
theorem C65_highlighted_row {β : Type} [LinearOrder β] (results : List β) (hne : results ≠ []) :
    ∃ x v y, results = x ++ v :: y ∧ x.length = highlighted results ∧ (∀ u ∈ x, u < v) ∧ ∀ u ∈ y, u ≤ v := by
  -- the running pair after a prefix
  have key : ∀ l : List (β × Nat), l ≠ [] → ∃ p x y, l = x ++ p :: y ∧
      l.foldl argmaxStep none = some p ∧
      (∀ u ∈ x, u.1 < p.1) ∧ ∀ u ∈ y, u.1 ≤ p.1 := by
    intro l
    induction l using List.reverseRecOn with
    | nil => intro h; exact absurd rfl h
    | append_singleton l q ih =>
      intro _
      rw [List.foldl_append]
      by_cases hl : l = []
      · subst hl
        exact ⟨q, [], [], rfl, rfl, by simp, by simp⟩
      · obtain ⟨p, x, y, h1, h2, h3, h4⟩ := ih hl
        rw [h2]
        simp only [List.foldl_cons, List.foldl_nil, argmaxStep]
        by_cases hpq : p.1 < q.1
        · rw [if_pos hpq]
          refine ⟨q, l, [], by simp, rfl, ?_, by simp⟩
          intro u hu
          rw [h1] at hu
          rcases List.mem_append.1 hu with hu | hu
          · exact (h3 u hu).trans hpq
          · rcases List.mem_cons.1 hu with rfl | hu
            · exact hpq
            · exact (h4 u hu).trans_lt hpq
        · rw [if_neg hpq]
          refine ⟨p, x, y ++ [q], by rw [h1]; simp, rfl, h3, ?_⟩
          intro u hu
          rcases List.mem_append.1 hu with hu | hu
          · exact h4 u hu
          · rw [List.mem_singleton] at hu
            subst hu; exact not_lt.1 hpq
  have hne' : results.zipIdx ≠ [] := by
    intro h
    apply hne
    have := congrArg List.length h
    simpa using this
  obtain ⟨p, x, y, h1, h2, h3, h4⟩ := key _ hne'
  have hres : results = x.map Prod.fst ++ p.1 :: y.map Prod.fst := by
    have := congrArg (List.map Prod.fst) h1
    rw [List.zipIdx_map_fst] at this
    simpa using this
  have hidx : p.2 = x.length := by
    have hg : results.zipIdx[x.length]? = some p := by rw [h1]; simp
    rw [List.getElem?_zipIdx] at hg
    cases hr : results[x.length]? with
    | none => rw [hr] at hg; simp at hg
    | some a =>
      rw [hr] at hg
      simp only [Option.map_some, Option.some.injEq] at hg
      rw [← hg]
      simp
  refine ⟨x.map Prod.fst, p.1, y.map Prod.fst, hres, ?_, ?_, ?_⟩
  · unfold highlighted
    rw [h2]
    simp [hidx]
  · intro u hu
    obtain ⟨a, ha, rfl⟩ := List.mem_map.1 hu
    exact h3 a ha
  · intro u hu
    obtain ⟨a, ha, rfl⟩ := List.mem_map.1 hu
    exact h4 a ha

/-! ### instances -/

/-- evaluation environment for examples -/
noncomputable def exEvalEnv : EvalEnv Nat Nat :=
  ⟨realFn, fun _ => .error .valueError, .stable Int, id, fun _ => [0, 1]⟩

/-- a concrete search succeeds, so the hypotheses of `C65_best_configuration` are satisfiable -/
example : ∃ res, optimizeFusion exEnv exEvalEnv [0, 1] F64.fl (fun _ => []) (fun _ => []) exQrelsObj
    [fuseStore1, fuseStore2] none "wsum" "map".toList true (.weights (F64.fl (1 / 10)) "0.1".toList) = .ok res := by
  refine C65_wsum_succeeds exEnv exEvalEnv [0, 1] F64.fl _ _ exQrelsObj exQrelsObj_usable
    [fuseStore1, fuseStore2] (by decide) fuseStore_wf exEnv_cover ?_ ?_ _ ?_ _ _ (by decide +kernel) _
  · intro i
    show Schedule 2 [0, 1]
    unfold Schedule; decide
  · intro r hr q
    have h0 : exQrelsObj.data.keys = [1, 2] := rfl
    have h1 : fuseStore1.data.keys = [1, 2] := rfl
    have h2 : fuseStore2.data.keys = [2, 1] := rfl
    simp only [List.mem_cons, List.not_mem_nil, or_false] at hr
    rcases hr with rfl | rfl
    · rw [h0, h1]
    · rw [h0, h2]; simp; tauto
  · exact ⟨_, metricOf_map _ _, fun a b => ⟨_, rfl⟩⟩

end Ranx
