import Verif.Props.OptimizeState
import Verif.Props.FuseEnd
import Verif.Props.Optimize2
import Verif.Props.BordaOrder

/-!
# C101: `optimize_fusion` succeeds on valid input

`C65` says what a successful search returns; here the search is shown to succeed, and to return
parameters, for every method that is tuned by a search.
-/

set_option linter.unusedSectionVars false

namespace Ranx
open Dict Store Metrics Eval Fuse Train Opt
open _root_.Ranx.Norm (Kind SetIter)

/-- a loop whose trials all succeed succeeds -/
theorem Opt.optLoop_total {σ τ ρ : Type*} (eval : σ → τ → σ × Except Err (ρ × Num ℝ)) (label : τ → Py.Str)
    (Inv : σ → Prop) (ts : List τ)
    (h : ∀ s, Inv s → ∀ t ∈ ts, Inv (eval s t).1 ∧ ∃ p, (eval s t).2 = .ok p) (s : σ) (hs : Inv s)
    (acc : Search ρ ℝ) : ∃ res, (optLoop eval label s acc ts).2 = .ok res := by
  induction ts generalizing s acc with
  | nil => exact ⟨acc, rfl⟩
  | cons t ts ih =>
    obtain ⟨h1, p, h2⟩ := h s hs t (by simp)
    unfold optLoop
    rcases he : eval s t with ⟨s', out⟩
    rw [he] at h1 h2
    simp only at h1 h2
    subst h2
    obtain ⟨a, b⟩ := p
    exact ih (fun s hs t ht => h s hs t (by simp [ht])) s' h1 _

section
variable {κ δ ι : Type} [LinearOrder κ] [DecidableEq δ] [LinearOrder ι]

/-- Specification: the metric string is accepted and no judged ranking makes the metric raise. -/
def Spec.MetricWorks (V : EvalEnv δ ι) (metric : Py.Str) : Prop :=
  ∃ f : Kernel ι ℝ, metricOf V.F V.other metric = .ok f ∧ ∀ a b, ∃ v, f a b = .ok v

/-- Specification: moreover every value is a number that is not negative. -/
def Spec.MetricNonneg (V : EvalEnv δ ι) (metric : Py.Str) : Prop :=
  ∃ f : Kernel ι ℝ, metricOf V.F V.other metric = .ok f ∧ ∀ a b, ∃ v, f a b = .ok (.val v) ∧ 0 ≤ v

theorem Spec.MetricNonneg.works {V : EvalEnv δ ι} {metric : Py.Str} (h : Spec.MetricNonneg V metric) :
    Spec.MetricWorks V metric := by
  obtain ⟨f, h1, h2⟩ := h
  refine ⟨f, h1, fun a b => ?_⟩
  obtain ⟨v, hv, -⟩ := h2 a b
  exact ⟨_, hv⟩

/-- evaluating a fused run succeeds -/
theorem Opt.evalRun_total (V : EvalEnv δ ι) (S : ArgSort ℝ) (metric : Py.Str) (hmet : Spec.MetricWorks V metric)
    (qrels : Store κ δ Int) (hq : Spec.Usable V.SQ qrels) (hV : ∀ i, Schedule qrels.data.length (V.sched i))
    (out : Store κ δ ℝ) (hwf : Wf out.data ∧ FlagOk out) (hkeys : ∀ q, q ∈ qrels.data.keys ↔ q ∈ out.data.keys) :
    ∃ v, (evalRun V S metric qrels out).2 = .ok v ∧
      (Spec.MetricNonneg V metric → qrels.data ≠ [] → ∃ x, v = .val x ∧ 0 ≤ x) := by
  obtain ⟨after, o, ho⟩ := evaluate_succeeds V.F V.other V.SQ S V.hash V.sched { save := false } (.inr rfl)
    qrels ⟨out, [], [], []⟩ [metric] hq.ok hwf hV (.inr hkeys) (by
      intro m hm
      rw [List.mem_singleton] at hm
      subst hm; exact hmet)
  obtain ⟨d, hd⟩ := success_ok V.F V.other V.SQ S V.hash V.sched { save := false } qrels ⟨out, [], [], []⟩ [metric]
    hq.ok hwf hV ho
  have hres := hd.result
  unfold evalRun
  simp only [ho, bindArg]
  simp only [outOf] at hres
  rw [get?_map_val] at hres
  have hlast : lastM V.other { save := false } true metric = metric := rfl
  rw [hlast] at hres
  cases hg : d.get? metric with
  | none => rw [hg] at hres; simp at hres
  | some l =>
    rw [hg] at hres
    simp only [Option.map_some, Except.ok.injEq] at hres
    rw [← hres]
    refine ⟨mean l, rfl, ?_⟩
    rintro ⟨f, hf, hpos⟩ hne
    obtain ⟨f', hf', hz⟩ := hd.scores metric l hg
    rw [hf] at hf'
    cases hf'
    have hlen : l.length = qrels.data.length := by
      have h1 := congrArg List.length hz
      have h2 := congrArg List.length hd.keys
      simp only [length_keys] at h2
      have h3 : (qrels.ensureSorted V.SQ).data.length = qrels.data.length :=
        (ensureSorted_facts V.SQ qrels hq.ok.1 hq.ok.2).2.2.2.2.2
      simp only [List.length_zipWith, Store.rows, Dict.values, List.length_map] at h1
      omega
    have hall : ∀ x ∈ l, ∃ y : ℝ, x = .val y ∧ 0 ≤ y := by
      intro x hx
      have : (Except.ok x : Except Err (Num ℝ)) ∈ l.map .ok := List.mem_map_of_mem hx
      rw [← hz, List.zipWith_eq_zipWith_take_min, ← List.map_uncurry_zip_eq_zipWith] at this
      obtain ⟨ab, -, hab⟩ := List.mem_map.1 this
      obtain ⟨v, hv, hv0⟩ := hpos ab.1 ab.2
      have hab' : f ab.1 ab.2 = .ok x := hab
      rw [hv] at hab'
      cases hab'
      exact ⟨v, rfl, hv0⟩
    have hl : ∃ ys : List ℝ, l = ys.map .val ∧ ∀ y ∈ ys, 0 ≤ y := by
      clear hlen hz hg hres
      induction l with
      | nil => exact ⟨[], rfl, by simp⟩
      | cons x t ih =>
        obtain ⟨y, rfl, hy⟩ := hall x (by simp)
        obtain ⟨ys, rfl, hys⟩ := ih (fun x hx => hall x (by simp [hx]))
        refine ⟨y :: ys, rfl, ?_⟩
        intro z hz
        rcases List.mem_cons.1 hz with rfl | hz
        · exact hy
        · exact hys z hz
    obtain ⟨ys, rfl, hys⟩ := hl
    have hys0 : ys ≠ [] := by
      rintro rfl
      exact hne (List.length_eq_zero_iff.1 hlen.symm)
    rw [mean_map_val ys hys0]
    exact ⟨_, rfl, div_nonneg (List.sum_nonneg hys) (by positivity)⟩

/-- Specification: what the caller has to supply: at least two well-formed runs over the queries of the qrels, a
metric that works (and schedules that cover the loops). -/
structure Spec.ValidSearch (E : Env δ) (V : EvalEnv δ ι) (qrels : Store κ δ Int) (runs : List (Store κ δ ℝ))
    (metric : Py.Str) : Prop where
  qrelsOk : Spec.Usable V.SQ qrels
  many : 2 ≤ runs.length
  wf : ∀ s ∈ runs, Wf s.data
  queries : ∀ r ∈ runs, ∀ q, q ∈ r.data.keys ↔ q ∈ qrels.data.keys
  schedules : Spec.SchedulesCover E runs
  evaluations : ∀ i, Schedule qrels.data.length (V.sched i)
  metric : Spec.MetricWorks V metric

/-- a search succeeds, and returns parameters if there is a candidate, a query, and the metric is not negative -/
def Spec.Finds (V : EvalEnv δ ι) (qrels : Store κ δ Int) (metric : Py.Str) (candidates : Prop)
    (r : Except Err Result) : Prop :=
  ∃ res, r = .ok res ∧ (Spec.MetricNonneg V metric → qrels.data ≠ [] → candidates → ∃ p, res.params = some p)

theorem Spec.ValidSearch.sameQueries {E : Env δ} {V : EvalEnv δ ι} {qrels : Store κ δ Int}
    {runs : List (Store κ δ ℝ)} {metric : Py.Str} (h : Spec.ValidSearch E V qrels runs metric) :
    Spec.SameQueries runs :=
  fun s hs s' hs' q hq' => (h.queries s' hs' q).2 ((h.queries s hs q).1 hq')

theorem Opt.hasHyperparams_searched (method : String) (o : Optimizer) (ho : optimizationSwitch method = .ok o)
    (hs : method ∈ ["logn_isr", "gmnz", "mixed", "probfuse", "rbc", "rrf", "slidefuse", "w_bordafuse",
      "w_condorcet", "wmnz", "wsum"]) (w : Bool) :
    (if w = true then hasHyperparams method else .ok ()) = .ok () := by
  cases w with
  | false => rfl
  | true => rw [if_pos rfl]; unfold hasHyperparams; rw [if_pos hs]

theorem Opt.plain_searched (method : String) (m : Method) (h : optimizationSwitch method = .ok (.plain m)) :
    method ∈ ["logn_isr", "gmnz", "mixed", "probfuse", "rbc", "rrf", "slidefuse", "w_bordafuse",
      "w_condorcet", "wmnz", "wsum"] := by
  by_contra hc
  simp only [List.mem_cons, List.not_mem_nil, or_false, not_or] at hc
  obtain ⟨h1, h2, h3, h4, h5, h6, h7, h8, h9, h10, h11⟩ := hc
  unfold optimizationSwitch at h
  rw [if_neg h1, if_neg h2, if_neg h3, if_neg h4, if_neg h5, if_neg h6, if_neg h7, if_neg h8, if_neg h9, if_neg h10,
    if_neg h11] at h
  by_cases k1 : method = "bayesfuse"
  · rw [if_pos k1] at h; cases h
  rw [if_neg k1] at h
  by_cases k1 : method = "mapfuse"
  · rw [if_pos k1] at h; cases h
  rw [if_neg k1] at h
  by_cases k1 : method = "posfuse"
  · rw [if_pos k1] at h; cases h
  rw [if_neg k1] at h
  by_cases k1 : method = "segfuse"
  · rw [if_pos k1] at h; cases h
  rw [if_neg k1] at h
  cases h

/-- the checks before the search -/
theorem Opt.search_starts (E : Env δ) (V : EvalEnv δ ι) (rowSched : List Nat) (rnd : ℚ → ℚ)
    (str : Kwargs → Py.Str) (strNat : Nat → Py.Str) (qrels : Store κ δ Int) (runs rs : List (Store κ δ ℝ))
    (metric : Py.Str) (hv : Spec.ValidSearch E V qrels runs metric) (norm : Option String)
    (hn : normalizeStores E norm runs = .ok rs) (method : String) (o : Optimizer)
    (ho : optimizationSwitch method = .ok o)
    (hs : method ∈ ["logn_isr", "gmnz", "mixed", "probfuse", "rbc", "rrf", "slidefuse", "w_bordafuse",
      "w_condorcet", "wmnz", "wsum"]) (wantReport : Bool) (space : Space) :
    optimizeFusion E V rowSched rnd str strNat qrels runs norm method metric wantReport space =
      runOptimizer E V rowSched rnd str strNat metric space qrels rs o := by
  have hsame : ∀ a b : List κ, Eval.sameKeys a b = true ↔ ∀ q, q ∈ a ↔ q ∈ b := by
    intro a b
    unfold Eval.sameKeys
    simp only [Bool.and_eq_true, List.all_eq_true, List.contains_iff_mem]
    exact ⟨fun h q => ⟨h.1 q, h.2 q⟩, fun h => ⟨fun q => (h q).1, fun q => (h q).2⟩⟩
  have h1 : ¬ runs.length ≤ 1 := by have := hv.many; omega
  unfold optimizeFusion
  rw [if_neg h1, if_pos ((pairwiseSameKeys_iff runs).2 hv.sameQueries),
    if_pos (List.all_eq_true.2 (fun r hr => (hsame _ _).2 (hv.queries r hr))), hn,
    hasHyperparams_searched method o ho hs, ho]
  rfl

/-- the result of a search over nonnegative scores -/
theorem Opt.lastBest_some {ρ : Type*} {l : List (ρ × Num ℝ)} {b : Option ρ} (h : Spec.LastBest l b) (hne : l ≠ [])
    (hpos : ∀ p ∈ l, ∃ x, p.2 = .val x ∧ 0 ≤ x) : ∃ t, b = some t := by
  rcases h with ⟨-, h⟩ | ⟨t, v, x, y, h, -⟩
  · cases l with
    | nil => exact absurd rfl hne
    | cons p t =>
      obtain ⟨x, hx, h0⟩ := hpos p (by simp)
      exact absurd (h p (by simp) x hx) (not_lt.2 h0)
  · exact ⟨t, h⟩

/-- plain searches -/
theorem Opt.plain_finds (E : Env δ) (V : EvalEnv δ ι) (rowSched : List Nat) (rnd : ℚ → ℚ)
    (str : Kwargs → Py.Str) (strNat : Nat → Py.Str) (qrels : Store κ δ Int) (runs rs : List (Store κ δ ℝ))
    (metric : Py.Str) (hv : Spec.ValidSearch E V qrels runs metric) (norm : Option String)
    (hn : normalizeStores E norm runs = .ok rs) (method : String) (m : Method)
    (hm : optimizationSwitch method = .ok (.plain m)) (wantReport : Bool) (space : Space) (tried : List Kwargs)
    (ht : configs rnd runs.length m space = .ok tried)
    (hfuse : ∀ cfg ∈ tried, ∃ out, fuse E runs norm method (some cfg) = .ok out ∧ (Wf out.data ∧ FlagOk out) ∧
      ∀ q, q ∈ out.data.keys ↔ ∃ run ∈ runs.map (fun s => s.data), q ∈ run.keys) :
    Spec.Finds V qrels metric (tried ≠ [])
      (optimizeFusion E V rowSched rnd str strNat qrels runs norm method metric wantReport space) := by
  have hstart := search_starts E V rowSched rnd str strNat qrels runs rs metric hv norm hn method _ hm
    (plain_searched method m hm) wantReport space
  have h1 : ¬ runs.length ≤ 1 := by have := hv.many; omega
  have h2 := (pairwiseSameKeys_iff runs).2 hv.sameQueries
  have hsw := switch_plain method m hm
  have hlen := normalizeStores_length E norm runs rs hn
  have hkeys : ∀ out : Store κ δ ℝ, (∀ q, q ∈ out.data.keys ↔ ∃ run ∈ runs.map (fun s => s.data), q ∈ run.keys) →
      ∀ q, q ∈ qrels.data.keys ↔ q ∈ out.data.keys := by
    intro out h q
    rw [h q]
    constructor
    · intro hq'
      obtain ⟨r, hr⟩ : ∃ r, r ∈ runs := by
        cases runs with
        | nil => simp at h1
        | cons r t => exact ⟨r, by simp⟩
      exact ⟨r.data, List.mem_map.2 ⟨r, hr, rfl⟩, (hv.queries r hr q).2 hq'⟩
    · rintro ⟨run, hr, hq'⟩
      obtain ⟨r, hr', rfl⟩ := List.mem_map.1 hr
      exact (hv.queries r hr' q).1 hq'
  have hex : ∃ res, optimizeFusion E V rowSched rnd str strNat qrels runs norm method metric wantReport space =
      .ok res := by
    rw [hstart]
    simp only [runOptimizer, hlen, ht, bindArg]
    obtain ⟨sr, hsr⟩ := optLoop_total (plainTrial E V metric m (rs.map (fun r => r.data))) str
      (fun s' => s' = qrels ∨ s' = qrels.ensureSorted V.SQ) tried (by
        intro s' hs' cfg hcfg
        obtain ⟨out, ho, hwf, hk⟩ := hfuse cfg hcfg
        rw [fuse_of_normalized E runs rs norm method m cfg h1 h2 hn hsw] at ho
        obtain ⟨v, hval, -⟩ := evalRun_total V E.S metric hv.metric qrels hv.qrelsOk hv.evaluations out hwf
          (hkeys out hk)
        obtain ⟨a, b⟩ := evalRun_inv V E.S metric qrels hv.qrelsOk out s' hs'
        unfold plainTrial
        rw [ho]
        simp only [a, hval, Except.map]
        exact ⟨b, _, rfl⟩) qrels (.inl rfl) ⟨none, 0, []⟩
    rw [hsr]
    exact ⟨_, rfl⟩
  obtain ⟨res, hres⟩ := hex
  refine ⟨res, hres, fun hpos hne hc => ?_⟩
  obtain ⟨tried', scores, k1, k2, k3, -⟩ := C65_best_configuration E V rowSched rnd str strNat qrels hv.qrelsOk runs
    norm method metric wantReport space m hm res hres
  rw [ht] at k1
  cases k1
  have hsl : scores.length = tried.length := by
    have := congrArg List.length k2
    simpa using this.symm
  refine lastBest_some k3 ?_ ?_
  · intro h0
    have := congrArg List.length h0
    rw [List.length_zip, hsl, min_self] at this
    exact hc (List.length_eq_zero_iff.1 this)
  · rintro ⟨cfg, sc⟩ hp
    have hcfg : cfg ∈ tried := (List.of_mem_zip hp).1
    have hsc : Spec.fusedScore E V qrels runs norm method metric cfg = .ok sc := by
      obtain ⟨i, hi⟩ := List.getElem?_of_mem hp
      rw [List.getElem?_zip_eq_some] at hi
      have := congrArg (fun l => l[i]?) k2
      simp only [List.getElem?_map, hi.1, hi.2, Option.map_some, Option.some.injEq] at this
      exact this
    obtain ⟨out, ho, hwf, hk⟩ := hfuse cfg hcfg
    obtain ⟨v, hval, hx⟩ := evalRun_total V E.S metric hv.metric qrels hv.qrelsOk hv.evaluations out hwf (hkeys out hk)
    unfold Spec.fusedScore Spec.scoreOf at hsc
    rw [ho] at hsc
    rw [evalRun_snd] at hval
    have hvs : (Except.ok v : Except Err (Num ℝ)) = .ok sc := hval.symm.trans hsc
    cases hvs
    exact hx hpos hne

/-- a fused run as evaluation needs it -/
structure Opt.FusedOk (runs : List (Store κ δ ℝ)) (out : Store κ δ ℝ) : Prop where
  ok : Wf out.data ∧ FlagOk out
  queries : ∀ q, q ∈ out.data.keys ↔ ∃ run ∈ runs.map (fun s => s.data), q ∈ run.keys

theorem Opt.fusedOk_of {runs : List (Store κ δ ℝ)} {nr : List (Dict κ (Norm.Results δ ℝ))}
    (hq : ∀ q, (∃ run ∈ nr, q ∈ run.keys) ↔ ∃ run ∈ runs.map (fun s => s.data), q ∈ run.keys)
    {val : κ → δ → ℝ} {out : Store κ δ ℝ} (h : Spec.FusedBy nr val out) : FusedOk runs out :=
  ⟨⟨⟨h.nodupQ, h.nodupD⟩, fun _ => ⟨h.ranked, h.ordered⟩⟩, fun q => (h.queries q).trans (hq q)⟩

theorem Opt.weightedCondorcet_total (C : CmpSort) (I : SetIter δ) (ws : List ℝ)
    (nr : List (Dict κ (Norm.Results δ ℝ))) (hf : Spec.Fusable nr) (hl : nr.length ≤ ws.length) :
    ∃ out, weightedCondorcet C I ws nr = .ok out ∧ (Wf out.data ∧ FlagOk out) ∧
      ∀ q, q ∈ out.data.keys ↔ ∃ run ∈ nr, q ∈ run.keys := by
  obtain ⟨r0, rest, hruns, heq⟩ := condorcetWith_eq C I (compareWeighted ws) nr hf
  have h0 : r0 ∈ nr := by rw [hruns]; exact List.mem_cons_self
  have hw : weightedCondorcet C I ws nr = condorcetWith C I (compareWeighted ws) nr := by
    unfold weightedCondorcet
    cases hc : Norm.getCandidates I nr with
    | error e =>
      unfold condorcetWith at heq
      rw [hc] at heq
      cases hg : getResults nr with
      | error e => rw [hg] at heq; cases heq
      | ok r => rw [hg] at heq; cases heq
    | ok cs =>
      simp only
      rw [if_neg (by omega)]
  refine ⟨_, hw.trans heq, ?_, ?_⟩
  · refine ⟨⟨?_, ?_⟩, fun h => by cases h⟩
    · have hnd : (Dict.keys r0).Nodup := hf.nodupQ r0 h0
      change (List.map Prod.fst (List.map _ (Dict.keys r0))).Nodup
      rw [List.map_map]
      exact (List.map_id (Dict.keys r0)).symm ▸ hnd
    · rintro p hp
      obtain ⟨q, -, rfl⟩ := List.mem_map.1 hp
      simp only
      have hnd := I.nodup (nr.flatMap (fun run => ((run.get? q).getD []).keys))
      rw [condorcetQuery_eq C _ _ _ hnd]
      have hperm := condorcetOrder_perm C (compareWeighted ws) (nr.map (fun run => ((run.get? q).getD []).keys))
        (I.run (nr.flatMap (fun run => ((run.get? q).getD []).keys)))
      have hnd' := hperm.nodup_iff.2 hnd
      generalize condorcetOrder C (compareWeighted ws) (nr.map (fun run => ((run.get? q).getD []).keys))
        (I.run (nr.flatMap (fun run => ((run.get? q).getD []).keys))) = L at hnd' ⊢
      change (List.map Prod.fst (List.map _ (List.zipIdx _))).Nodup
      rw [List.map_map]
      rw [← List.zipIdx_map_fst 0 L] at hnd'
      exact hnd'
  · intro q
    change q ∈ List.map Prod.fst (List.map _ (Dict.keys r0)) ↔ _
    rw [List.map_map]
    change q ∈ List.map id (Dict.keys r0) ↔ _
    rw [List.map_id]
    exact ⟨fun h => ⟨r0, h0, h⟩, fun ⟨run, hr, h⟩ => hf.same run hr r0 h0 q h⟩

/-- Specification: the normalizations `optimize_fusion` accepts: none, or any of the documented names. -/
def Spec.NormAccepted (norm : Option String) : Prop :=
  norm = none ∨ ∃ n ∈ Spec.normNames.map Prod.fst, norm = some n

/-- what normalization leaves for the fusion -/
structure Opt.Normed (E : Env δ) (runs nr : List (Dict κ (Norm.Results δ ℝ))) : Prop where
  length : nr.length = runs.length
  fusable : Spec.Fusable nr
  fits : E.Fits nr
  queries : ∀ q, (∃ run ∈ nr, q ∈ run.keys) ↔ ∃ run ∈ runs, q ∈ run.keys

theorem Opt.normed (E : Env δ) (runs : List (Store κ δ ℝ)) (hn : 2 ≤ runs.length)
    (hw : ∀ s ∈ runs, Store.Wf s.data) (hq : Spec.SameQueries runs) (hE : Spec.SchedulesCover E runs)
    (norm : Option String) (hk : Spec.NormAccepted norm) :
    ∃ nr, normalizeRuns E norm runs = .ok nr ∧ Normed E (runs.map (fun s => s.data)) nr := by
  have plain : ∀ k, Spec.NormNamed norm k → ∃ nr, normalizeRuns E norm runs = .ok nr ∧
      Normed E (runs.map (fun s => s.data)) nr := by
    intro k hk
    obtain ⟨nr, h1, h2⟩ := normStep E runs hn hw hq hE norm k hk
    exact ⟨nr, h1, h2.length, h2.fusable, h2.fits, h2.queries⟩
  rcases hk with rfl | ⟨n, hn', rfl⟩
  · exact plain none (.inl ⟨rfl, rfl⟩)
  · obtain ⟨⟨n', x⟩, hnx, rfl⟩ := List.mem_map.1 hn'
    by_cases hb : n' = "borda"
    · subst hb
      have hf := fusable_of runs hn hw hq
      have hfit := fits_of E runs hE (by intro h; subst h; simp at hn)
      have hss : ∀ (j : Nat) run, (runs.map (fun s => s.data))[j]? = some run →
          Schedule run.length (E.normScheds j) := by
        intro j run hj
        rw [List.getElem?_map] at hj
        cases hg : runs[j]? with
        | none => rw [hg] at hj; cases hj
        | some s =>
          rw [hg] at hj
          simp only [Option.map_some, Option.some.injEq] at hj
          subst hj
          exact hE.norm j s hg
      obtain ⟨nr, h1, -⟩ := C47_borda_norm_any_order E.normScheds E.I _ hf hss
      obtain ⟨hF, hk2, -⟩ := C47_borda_norm_keeps E.normScheds E.I _ hf hss nr h1
      have hlen : ∀ (j : Nat) run', nr[j]? = some run' → ∃ run : Dict κ (Norm.Results δ ℝ),
          (runs.map (fun s => s.data))[j]? = some run ∧ Dict.keys run' = Dict.keys run := by
        intro j run' hj
        have hjl := (List.getElem?_eq_some_iff.1 hj).1
        have hjl' : j < (runs.map (fun s => s.data)).length := by rw [hk2.length_eq]; exact hjl
        refine ⟨_, List.getElem?_eq_getElem hjl', ?_⟩
        have := (List.forall₂_iff_get.1 hk2).2 j hjl' hjl
        simp only [List.get_eq_getElem] at this
        rw [(List.getElem?_eq_some_iff.1 hj).2] at this
        exact this
      have hlen' : ∀ (j : Nat) run' run, nr[j]? = some run' → (runs.map (fun s => s.data))[j]? = some run →
          run'.length = run.length := by
        intro j run' run hj hj'
        obtain ⟨r, h2, h3⟩ := hlen j run' hj
        rw [hj'] at h2
        cases h2
        have := congrArg List.length h3
        simpa [length_keys] using this
      refine ⟨nr, ?_, hk2.length_eq.symm, hF, ⟨?_, ?_⟩, ?_⟩
      · unfold normalizeRuns
        simp only
        rw [if_neg (by simp)]
        exact h1
      · have hm := hfit.main
        have hne := hF.nonempty
        have hne' := hf.nonempty
        cases hc : nr with
        | nil => exact absurd hc hne
        | cons a t =>
          cases hc' : runs.map (fun s => s.data) with
          | nil => exact absurd hc' hne'
          | cons a' t' =>
            have := hlen' 0 a a' (by rw [hc]; rfl) (by rw [hc']; rfl)
            rw [hc'] at hm
            unfold queryCount at hm ⊢
            simpa [this] using hm
      · intro j run' hj
        obtain ⟨r, h2, -⟩ := hlen j run' hj
        rw [hlen' j run' r hj h2]
        exact hfit.rescore j r h2
      · intro q
        constructor
        · rintro ⟨run', hr', hq'⟩
          obtain ⟨run, hr, hk⟩ := forall₂_mem_right hk2 hr'
          exact ⟨run, hr, hk ▸ hq'⟩
        · rintro ⟨run, hr, hq'⟩
          obtain ⟨run', hr', hk⟩ := forall₂_mem_left hk2 hr
          exact ⟨run', hr', hk.symm ▸ hq'⟩
    · refine plain (some x) (.inr ⟨n', x, rfl, rfl, hnx, ?_⟩)
      rintro rfl
      have : ∀ p ∈ Spec.normNames, p.2 = .borda → p.1 = "borda" := by decide +kernel
      exact hb (this _ hnx rfl)

/-- Specification: the searches of `optimize_fusion` over the parameters of a method: the method's name, the
keyword arguments that say what to try (a step that is positive, plus what the method itself demands of its
parameters), and whether there is anything to try. -/
inductive Spec.Tuned (rnd : ℚ → ℚ) (runs : List (Store κ δ ℝ)) : String → Space → Prop → Prop
  | rrf (lo hi step : ℤ) (hs : 0 < step) (hlo : 0 ≤ lo) : Tuned rnd runs "rrf" (.ints lo hi step) (lo ≤ hi)
  | rbc (lo hi step : ℚ) (s : Py.Str) (hs : 0 < step) : Tuned rnd runs "rbc" (.floats lo hi step s)
      (∃ x xs, grid rnd lo hi step s = .ok (x :: xs))
  | gmnz (lo hi step : ℚ) (s : Py.Str) (hs : 0 < step) : Tuned rnd runs "gmnz" (.floats lo hi step s)
      (∃ x xs, grid rnd lo hi step s = .ok (x :: xs))
  | lognIsr (lo hi step : ℚ) (s : Py.Str) (hs : 0 < step)
      (h : ∀ xs, grid rnd lo hi step s = .ok xs → ∀ x ∈ xs, 0 ≤ x ∧ x ≤ 1) :
      Tuned rnd runs "logn_isr" (.floats lo hi step s) (∃ x xs, grid rnd lo hi step s = .ok (x :: xs))
  | weights (method : String) (hm : method ∈ ["mixed", "wmnz", "wsum", "w_condorcet", "w_bordafuse"]) (step : ℚ) (s : Py.Str)
      (hs : 0 < step) : Tuned rnd runs method (.weights step s)
      (∃ x xs, weightTrials rnd step s runs.length = .ok (x :: xs))

theorem Opt.grid_total (rnd : ℚ → ℚ) (lo hi step : ℚ) (s : Py.Str) (hs : 0 < step) :
    ∃ xs, grid rnd lo hi step s = .ok xs := by
  unfold grid npArange
  rw [if_neg hs.ne']
  exact ⟨_, rfl⟩

theorem Opt.weightTrials_total (rnd : ℚ → ℚ) (step : ℚ) (s : Py.Str) (hs : 0 < step) (n : Nat) :
    ∃ T, weightTrials rnd step s n = .ok T ∧ ∀ w ∈ T, w.length = n := by
  obtain ⟨xs, hx⟩ := grid_total rnd 0 1 step s hs
  refine ⟨trialConfigs rnd xs n, by unfold weightTrials; rw [hx]; rfl, ?_⟩
  intro w hw
  unfold trialConfigs at hw
  exact ((mem_product xs n w).1 (List.mem_filter.1 hw).1).1

/-- **C101**: for every search over the parameters of a method, with every accepted normalization and
whatever the order in which the runs list their queries, `optimize_fusion` succeeds on valid input, and it returns parameters as soon as there is a candidate to try, a
query, and the metric is never negative. -/
theorem C101_succeeds_partial (E : Env δ) (V : EvalEnv δ ι) (rowSched : List Nat) (rnd : ℚ → ℚ)
    (str : Kwargs → Py.Str) (strNat : Nat → Py.Str) (qrels : Store κ δ Int) (runs : List (Store κ δ ℝ))
    (metric : Py.Str) (hv : Spec.ValidSearch E V qrels runs metric) (norm : Option String)
    (hk : Spec.NormAccepted norm) (wantReport : Bool) (method : String) (space : Space) (candidates : Prop)
    (hT : Spec.Tuned rnd runs method space candidates) :
    Spec.Finds V qrels metric candidates
      (optimizeFusion E V rowSched rnd str strNat qrels runs norm method metric wantReport space) := by
  obtain ⟨nr, hnr, hS⟩ := normed E runs hv.many hv.wf hv.sameQueries hv.schedules norm hk
  obtain ⟨rs, hn⟩ : ∃ rs, normalizeStores E norm runs = .ok rs := by
    have := normalizeStores_data E norm runs
    rw [hnr] at this
    cases h : normalizeStores E norm runs with
    | error e => rw [h] at this; cases this
    | ok rs => exact ⟨rs, rfl⟩
  have hlen : nr.length = runs.length := by rw [hS.length, List.length_map]
  have fin : ∀ (m : Method), optimizationSwitch method = .ok (.plain m) → (method, m) ∈ Spec.methodNames →
      ∀ tried, configs rnd runs.length m space = .ok tried →
      (∀ cfg ∈ tried, ∃ out, m.call E cfg nr = .ok out ∧ FusedOk runs out) →
      (candidates → tried ≠ []) → Spec.Finds V qrels metric candidates
        (optimizeFusion E V rowSched rnd str strNat qrels runs norm method metric wantReport space) := by
    intro m hm hmn tried ht hcall hc
    obtain ⟨res, h1, h2⟩ := plain_finds E V rowSched rnd str strNat qrels runs rs metric hv norm hn method m hm
      wantReport space tried ht (by
        intro cfg hcfg
        obtain ⟨out, ho, hok⟩ := hcall cfg hcfg
        exact ⟨out, (fuse_named E runs hv.many hv.sameQueries norm method m hmn cfg nr hnr).trans ho, hok.ok,
          hok.queries⟩)
    exact ⟨res, h1, fun a b c => h2 a b (hc c)⟩
  have hF := hS.fusable
  have hM := hS.fits.main
  have hRS := hS.fits.rescore
  have hQ := hS.queries
  cases hT with
  | rrf lo hi step hs hlo =>
    obtain ⟨g, hg, -, hmem⟩ := C67_ints lo hi step hs
    refine fin .rrf (by decide +kernel) (by decide +kernel) (g.map (fun (k : Int) => [("k", .num (k : ℝ))]))
      (by simp only [configs, hg, Except.map]) ?_ ?_
    · intro cfg hc
      obtain ⟨x, hx, rfl⟩ := List.mem_map.1 hc
      have hx0 : (0 : ℝ) ≤ (x : ℝ) := Int.cast_nonneg (hlo.trans ((hmem x).1 hx).1)
      obtain ⟨out, h1, h2⟩ := C51_rrf E.S E.sched E.scheds (x : ℝ) nr (ranksClear_of_nonneg hx0 nr) hF hM hRS
      exact ⟨out, h1, fusedOk_of hQ h2⟩
    · intro hle h0
      have : lo ∈ g := (hmem lo).2 ⟨le_refl _, hle, by simp⟩
      rw [List.map_eq_nil_iff.1 h0] at this
      cases this
  | rbc lo hi step s hs =>
    obtain ⟨g, hg⟩ := grid_total rnd lo hi step s hs
    refine fin .rbc (by decide +kernel) (by decide +kernel) (g.map (fun (x : ℚ) => [("phi", .num (x : ℝ))]))
      (by simp only [configs, hg, Except.map]) ?_ ?_
    · intro cfg hc
      obtain ⟨x, -, rfl⟩ := List.mem_map.1 hc
      obtain ⟨out, h1, h2⟩ := C51_rbc E.S E.sched E.scheds (x : ℝ) nr hF hM hRS
      exact ⟨out, h1, fusedOk_of hQ h2⟩
    · rintro ⟨x, xs, hx⟩ h0
      rw [hg] at hx; cases hx; cases h0
  | gmnz lo hi step s hs =>
    obtain ⟨g, hg⟩ := grid_total rnd lo hi step s hs
    refine fin .combGmnz (by decide +kernel) (by decide +kernel) (g.map (fun (x : ℚ) => [("gamma", .num (x : ℝ))]))
      (by simp only [configs, hg, Except.map]) ?_ ?_
    · intro cfg hc
      obtain ⟨x, -, rfl⟩ := List.mem_map.1 hc
      obtain ⟨out, h1, h2⟩ := C49_comb_gmnz E.S E.sched (x : ℝ) nr hF hM
      exact ⟨out, h1, fusedOk_of hQ h2⟩
    · rintro ⟨x, xs, hx⟩ h0
      rw [hg] at hx; cases hx; cases h0
  | lognIsr lo hi step s hs h01 =>
    obtain ⟨g, hg⟩ := grid_total rnd lo hi step s hs
    refine fin .lognIsr (by decide +kernel) (by decide +kernel) (g.map (fun (x : ℚ) => [("sigma", .num (x : ℝ))]))
      (by simp only [configs, hg, Except.map]) ?_ ?_
    · intro cfg hc
      obtain ⟨x, hx, rfl⟩ := List.mem_map.1 hc
      obtain ⟨a, b⟩ := h01 g hg x hx
      obtain ⟨out, h1, h2⟩ := (C51_logn_isr E.S E.sched E.scheds (x : ℝ) nr hF hM hRS).2
        ⟨by exact_mod_cast a, by exact_mod_cast b⟩
      exact ⟨out, h1, fusedOk_of hQ h2⟩
    · rintro ⟨x, xs, hx⟩ h0
      rw [hg] at hx; cases hx; cases h0
  | weights _ hm step s hs =>
    obtain ⟨T, hT, hl⟩ := weightTrials_total rnd step s hs runs.length
    have hc : (∃ x xs, weightTrials rnd step s runs.length = .ok (x :: xs)) →
        T.map (fun ws => [("weights", PyVal.nums (ws.map (fun (x : ℚ) => (x : ℝ))))]) ≠ [] := by
      rintro ⟨x, xs, hx⟩ h0
      rw [hT] at hx; cases hx; cases h0
    have hlw : ∀ ws ∈ T, nr.length ≤ (ws.map (fun (x : ℚ) => (x : ℝ))).length := by
      intro ws hws
      rw [List.length_map, hl ws hws, hlen]
    simp only [List.mem_cons, List.not_mem_nil, or_false] at hm
    rcases hm with rfl | rfl | rfl | rfl | rfl
    · refine fin .mixed (by decide +kernel) (by decide +kernel) _ (by simp only [configs, hT, Except.map]) ?_ hc
      intro cfg hcf
      obtain ⟨ws, hws, rfl⟩ := List.mem_map.1 hcf
      obtain ⟨out, h1, h2⟩ := C49_mixed E.S E.sched _ nr hF (hlw ws hws) hM
      exact ⟨out, h1, fusedOk_of hQ h2⟩
    · refine fin .wmnz (by decide +kernel) (by decide +kernel) _ (by simp only [configs, hT, Except.map]) ?_ hc
      intro cfg hcf
      obtain ⟨ws, hws, rfl⟩ := List.mem_map.1 hcf
      obtain ⟨out, h1, h2⟩ := C49_wmnz E.S E.sched _ nr hF (hlw ws hws) hM
      exact ⟨out, h1, fusedOk_of hQ h2⟩
    · refine fin .wsum (by decide +kernel) (by decide +kernel) _ (by simp only [configs, hT, Except.map]) ?_ hc
      intro cfg hcf
      obtain ⟨ws, hws, rfl⟩ := List.mem_map.1 hcf
      obtain ⟨out, h1, h2⟩ := C49_wsum E.S E.sched _ nr hF (hlw ws hws) hM
      exact ⟨out, h1, fusedOk_of hQ h2⟩
    · refine fin .weightedCondorcet (by decide +kernel) (by decide +kernel) _
        (by simp only [configs, hT, Except.map]) ?_ hc
      intro cfg hcf
      obtain ⟨ws, hws, rfl⟩ := List.mem_map.1 hcf
      obtain ⟨out, h1, h2, h3⟩ := weightedCondorcet_total E.C E.I (ws.map (fun (x : ℚ) => (x : ℝ))) nr hF (hlw ws hws)
      exact ⟨out, h1, h2, fun q => (h3 q).trans (hQ q)⟩
    · refine fin .weightedBordafuse (by decide +kernel) (by decide +kernel) _
        (by simp only [configs, hT, Except.map]) ?_ hc
      intro cfg hcf
      obtain ⟨ws, hws, rfl⟩ := List.mem_map.1 hcf
      obtain ⟨out, h1, h2⟩ := C51_weighted_bordafuse_any_order E.S E.sched E.scheds E.I _ nr hF (hlw ws hws) hM hRS
      exact ⟨out, h1, ⟨⟨h2.nodupQ, h2.nodupD⟩, fun _ => ⟨h2.ranked, h2.ordered⟩⟩,
        fun q => (h2.queries q).trans (hQ q)⟩

/-! ### searches that train -/

/-- the runs as training leaves them -/
theorem Opt.sorted_fusable (E : Env δ) (rs : List (Store κ δ ℝ)) (hf : Spec.Fusable (rs.map (fun r => r.data)))
    (hfit : E.Fits (rs.map (fun r => r.data))) (hu : ∀ r ∈ rs, Spec.Usable E.S r) :
    Spec.Fusable (rs.map (fun r => (r.ensureSorted E.S).data)) ∧
    E.Fits (rs.map (fun r => (r.ensureSorted E.S).data)) ∧
    ∀ q, (∃ run ∈ rs.map (fun r => (r.ensureSorted E.S).data), q ∈ run.keys) ↔
      ∃ run ∈ rs.map (fun r => r.data), q ∈ run.keys := by
  have facts : ∀ r ∈ rs, _ := fun r hr => ensureSorted_facts E.S r (hu r hr).ok.1 (hu r hr).ok.2
  refine ⟨⟨?_, ?_, ?_, ?_⟩, ⟨?_, ?_⟩, ?_⟩
  · intro h
    exact hf.nonempty (by rw [List.map_eq_nil_iff] at h ⊢; exact h)
  · intro run hr
    obtain ⟨r, h, rfl⟩ := List.mem_map.1 hr
    exact (facts r h).1.1
  · intro run hr
    obtain ⟨r, h, rfl⟩ := List.mem_map.1 hr
    exact (facts r h).1.2
  · intro run hr run' hr' q hq
    obtain ⟨r, h, rfl⟩ := List.mem_map.1 hr
    obtain ⟨r', h', rfl⟩ := List.mem_map.1 hr'
    exact ((facts r' h').2.2.1 q).2 (hf.same _ (List.mem_map_of_mem h) _ (List.mem_map_of_mem h') q
      (((facts r h).2.2.1 q).1 hq))
  · have := hfit.main
    cases rs with
    | nil => exact this
    | cons r t =>
      have hl := (facts r (by simp)).2.2.2.2.2
      have e : queryCount (List.map (fun r : Store κ δ ℝ => (r.ensureSorted E.S).data) (r :: t)) =
          queryCount (List.map (fun r : Store κ δ ℝ => r.data) (r :: t)) := by
        unfold queryCount
        simpa using hl
      rw [e]; exact this
  · intro j run hj
    rw [List.getElem?_map] at hj
    cases hg : rs[j]? with
    | none => rw [hg] at hj; cases hj
    | some r =>
      rw [hg] at hj
      simp only [Option.map_some, Option.some.injEq] at hj
      subst hj
      rw [(facts r (List.mem_of_getElem? hg)).2.2.2.2.2]
      exact hfit.rescore j r.data (by rw [List.getElem?_map, hg]; rfl)
  · intro q
    constructor
    · rintro ⟨run, hr, hq⟩
      obtain ⟨r, h, rfl⟩ := List.mem_map.1 hr
      exact ⟨r.data, List.mem_map_of_mem h, ((facts r h).2.2.1 q).1 hq⟩
    · rintro ⟨run, hr, hq⟩
      obtain ⟨r, h, rfl⟩ := List.mem_map.1 hr
      exact ⟨_, List.mem_map.2 ⟨r, h, rfl⟩, ((facts r h).2.2.1 q).2 hq⟩

theorem Opt.scores_nonneg (V : EvalEnv δ ι) (S : ArgSort ℝ) (metric : Py.Str) (qrels : Store κ δ Int)
    (hq : Spec.Usable V.SQ qrels) (hV : ∀ i, Schedule qrels.data.length (V.sched i))
    (hpos : Spec.MetricNonneg V metric) (hne : qrels.data ≠ []) (out : Store κ δ ℝ) (hok : Wf out.data ∧ FlagOk out)
    (hk : ∀ q, q ∈ qrels.data.keys ↔ q ∈ out.data.keys) (sc : Num ℝ)
    (hsc : Spec.scoreOf V S qrels metric (.ok out) = .ok sc) : ∃ x, sc = .val x ∧ 0 ≤ x := by
  obtain ⟨v, hval, hx⟩ := evalRun_total V S metric hpos.works qrels hq hV out hok hk
  unfold Spec.scoreOf at hsc
  rw [evalRun_snd] at hval
  have hvs : (Except.ok v : Except Err (Num ℝ)) = .ok sc := hval.symm.trans hsc
  cases hvs
  exact hx hpos hne

/-- Specification: no judged doc shares its hash with another doc that some run retrieved, for whatever query. -/
def Spec.NoPoolCollision (hash : δ → ι) (qrels : Store κ δ Int) (runs : List (Store κ δ ℝ)) : Prop :=
  ∀ q d v, (Spec.content qrels).read q d = some v → ∀ r ∈ runs, ∀ q' d' v', (Spec.content r).read q' d' = some v' →
    hash d = hash d' → d = d'

/-- normalized runs can be trained on, borda included -/
theorem Opt.trainable_any (E : Env δ) (V : EvalEnv δ ι) (qrels : Store κ δ Int) (runs : List (Store κ δ ℝ))
    (hn : 2 ≤ runs.length) (hE : Spec.SchedulesCover E runs)
    (norm : Option String) (hk : Spec.NormAccepted norm) (hT : Spec.Trainable V.SQ E.S V.hash qrels runs)
    (hb : norm = some "borda" → Spec.NoPoolCollision V.hash qrels runs) :
    ∃ rs, normalizeStores E norm runs = .ok rs ∧ rs.length = runs.length ∧
      Spec.Trainable V.SQ E.S V.hash qrels rs := by
  by_cases hbo : norm = some "borda"
  · subst hbo
    have hw : ∀ s ∈ runs, Store.Wf s.data := fun s hs => (hT.usable s hs).ok.1
    have hsame : Spec.SameQueries runs :=
      fun s hs s' hs' q hq' => (hT.queries s' hs' q).2 ((hT.queries s hs q).1 hq')
    have hf := fusable_of runs hn hw hsame
    have hss : ∀ (j : Nat) run, (runs.map (fun s => s.data))[j]? = some run →
        Schedule run.length (E.normScheds j) := by
      intro j run hj
      rw [List.getElem?_map] at hj
      cases hg : runs[j]? with
      | none => rw [hg] at hj; cases hj
      | some s =>
        rw [hg] at hj
        simp only [Option.map_some, Option.some.injEq] at hj
        subst hj
        exact hE.norm j s hg
    obtain ⟨nr, h1, hl, hall⟩ := C47_borda_norm_any_order E.normScheds E.I _ hf hss
    obtain ⟨hF, hk2, -⟩ := C47_borda_norm_keeps E.normScheds E.I _ hf hss nr h1
    refine ⟨nr.map (fun d => ⟨d, false⟩), ?_, by simpa using hl, hT.qrels, ?_, hT.nonempty, ?_, ?_⟩
    · unfold normalizeStores
      simp only
      rw [if_neg (by simp), h1]
    · intro r hr
      obtain ⟨d, hd, rfl⟩ := List.mem_map.1 hr
      exact usable_of_unsorted E.S _ ⟨hF.nodupQ d hd, hF.nodupD d hd⟩ rfl
    · intro r hr q
      obtain ⟨d, hd, rfl⟩ := List.mem_map.1 hr
      obtain ⟨run, hrun, hkk⟩ := forall₂_mem_right hk2 hd
      obtain ⟨s, hs, rfl⟩ := List.mem_map.1 hrun
      rw [← hT.queries s hs q]
      change q ∈ Dict.keys d ↔ _
      rw [hkk]
    · intro r hr q a a' v hv hor hh
      obtain ⟨d, hd, rfl⟩ := List.mem_map.1 hr
      rcases hor with h | ⟨v', hv'⟩
      · obtain ⟨s, hs⟩ : ∃ s, s ∈ runs := by
          cases hc : runs with
          | nil => rw [hc] at hn; simp at hn
          | cons s t => exact ⟨s, by simp⟩
        exact hT.hash s hs q a a' v hv (.inl h) hh
      · obtain ⟨j, hj⟩ := List.getElem?_of_mem hd
        have hjl := (List.getElem?_eq_some_iff.1 hj).1
        have hjl' : j < (runs.map (fun s => s.data)).length := by rw [← hl]; exact hjl
        obtain ⟨run0, hrun0⟩ : ∃ run0, (runs.map (fun s : Store κ δ ℝ => s.data))[j]? = some run0 :=
          ⟨_, List.getElem?_eq_getElem hjl'⟩
        obtain ⟨hkk, -, hpt⟩ := hall j run0 d hrun0 hj
        have hsc : Spec.score? d q a' = some v' := by
          rw [← hv']
          unfold Spec.Content.read Spec.content Spec.score?
          cases Dict.get? d q <;> rfl
        have hqk : q ∈ Dict.keys run0 := by
          rw [← hkk]
          unfold Spec.score? at hsc
          cases hg : Dict.get? d q with
          | none => rw [hg] at hsc; cases hsc
          | some r => exact get?_isSome.1 (by rw [hg]; rfl)
        have hin : Spec.InSome (runs.map (fun s : Store κ δ ℝ => s.data))
            (Spec.partner (runs.map (fun s : Store κ δ ℝ => s.data)) run0 q) a' := by
          by_contra hc
          rw [(hpt q hqk a').2 hc] at hsc
          cases hsc
        rw [inSome_iff] at hin
        obtain ⟨run, hrun, hsome⟩ := hin
        obtain ⟨s, hs, rfl⟩ := List.mem_map.1 hrun
        obtain ⟨v'', hv''⟩ := Option.isSome_iff_exists.1 hsome
        refine hb rfl q a v hv s hs
          (Spec.partner (runs.map (fun s : Store κ δ ℝ => s.data)) run0 q) a' v'' ?_ hh
        rw [← hv'']
        unfold Spec.Content.read Spec.content Spec.score?
        simp only [Option.bind_map]
        rfl
  · refine C65_trainable E V qrels runs norm hbo ?_ hT hE.norm
    rintro n rfl
    rcases hk with h | ⟨n', hn', h⟩
    · cases h
    · cases h
      rcases normSwitch_cases n with ⟨k, -, h⟩ | ⟨h, -⟩
      · exact ⟨k, h⟩
      · exact absurd hn' h

/-- **C101** (probfuse, slidefuse): the searches that train on the (normalized) runs succeed too, for any number of
segments from 1 and any window from 0, whatever the normalization. -/
theorem C101_trained_searches (E : Env δ) (V : EvalEnv δ ι) (rowSched : List Nat) (rnd : ℚ → ℚ)
    (str : Kwargs → Py.Str) (strNat : Nat → Py.Str) (qrels : Store κ δ Int) (runs : List (Store κ δ ℝ))
    (metric : Py.Str) (hv : Spec.ValidSearch E V qrels runs metric)
    (hT : Spec.Trainable V.SQ E.S V.hash qrels runs) (hrow : Schedule runs.length rowSched)
    (norm : Option String) (hk : Spec.NormAccepted norm)
    (hb : norm = some "borda" → Spec.NoPoolCollision V.hash qrels runs) (wantReport : Bool) (lo hi : ℤ) :
    (1 ≤ lo → Spec.Finds V qrels metric (lo ≤ hi) (optimizeFusion E V rowSched rnd str strNat qrels runs norm
      "probfuse" metric wantReport (.ints lo hi 1))) ∧
    (0 ≤ lo → Spec.Finds V qrels metric (lo ≤ hi) (optimizeFusion E V rowSched rnd str strNat qrels runs norm
      "slidefuse" metric wantReport (.ints lo hi 1))) := by
  obtain ⟨nr, hnr, hS⟩ := normed E runs hv.many hv.wf hv.sameQueries hv.schedules norm hk
  obtain ⟨rs, hn, hlen, hT'⟩ := trainable_any E V qrels runs hv.many hv.schedules norm hk hT hb
  have hdata : nr = rs.map (fun r => r.data) := by
    have := normalizeStores_data E norm runs
    rw [hnr, hn] at this
    simpa [Except.map] using this
  obtain ⟨hF, hFit, hQ⟩ := sorted_fusable E rs (hdata ▸ hS.fusable) (hdata ▸ hS.fits) hT'.usable
  have hQ' : ∀ q, (∃ run ∈ rs.map (fun r => (r.ensureSorted E.S).data), q ∈ run.keys) ↔
      ∃ run ∈ runs.map (fun s => s.data), q ∈ run.keys := by
    intro q
    rw [hQ q, ← hdata]
    exact hS.queries q
  have hkeys : ∀ out : Store κ δ ℝ, FusedOk runs out → ∀ q, q ∈ qrels.data.keys ↔ q ∈ out.data.keys := by
    intro out h q
    rw [h.queries q]
    constructor
    · intro hq'
      obtain ⟨r, hr⟩ : ∃ r, r ∈ runs := by
        have := hv.many
        cases hc : runs with
        | nil => rw [hc] at this; simp at this
        | cons r t => exact ⟨r, by simp⟩
      exact ⟨r.data, List.mem_map.2 ⟨r, hr, rfl⟩, (hv.queries r hr q).2 hq'⟩
    · rintro ⟨run, hr, hq'⟩
      obtain ⟨r, hr', rfl⟩ := List.mem_map.1 hr
      exact (hv.queries r hr' q).1 hq'
  have hcomp : ((fun r : Store κ δ ℝ => r.data) ∘ fun x : Store κ δ ℝ => x.ensureSorted E.S) =
    fun r : Store κ δ ℝ => (r.ensureSorted E.S).data := rfl
  have hes : ∀ s', (s' = qrels ∨ s' = qrels.ensureSorted V.SQ) → s'.ensureSorted V.SQ = qrels.ensureSorted V.SQ := by
    rintro s' (rfl | rfl)
    · rfl
    · exact ensureSorted_idem V.SQ qrels
  obtain ⟨g, hg, -, hmem⟩ := C67_ints lo hi 1 (by norm_num)
  have hgne : lo ≤ hi → g ≠ [] := by
    intro hle h0
    have : lo ∈ g := (hmem lo).2 ⟨le_refl _, hle, by simp⟩
    rw [h0] at this
    cases this
  constructor
  · intro hlo
    have hnpos : ∀ n ∈ g, 0 < n.toNat := by
      intro n hn'
      have := (hmem n).1 hn'
      omega
    -- fusing with trained tables
    have hfuse : ∀ n ∈ g, ∀ t, (probfuseTrain V.SQ E.S V.hash V.sched rowSched n.toNat qrels rs).2.2 = .ok t →
        ∃ out, Fuse.probfuse E.S E.sched E.scheds t (rs.map (fun r => (r.ensureSorted E.S).data)) = .ok out ∧
          FusedOk runs out := by
      intro n hn' t ht
      obtain ⟨s', runs', tables, h1, h2⟩ := C59_segments V.SQ E.S V.hash V.sched rowSched n.toNat (hnpos n hn') qrels
        rs hT' hv.evaluations (by rw [hlen]; exact hrow)
      rw [h1] at ht
      cases ht
      have hp : ∀ p ∈ t, p ≠ [] := by
        intro p hp
        obtain ⟨r, -, ids, -, hl, -⟩ := forall₂_mem_right h2 hp
        rintro rfl
        have := hnpos n hn'
        simp at hl
        omega
      obtain ⟨out, h3, h4⟩ := C58_probfuse E.S E.sched E.scheds t hp _
        (by rw [List.length_map, h2.length_eq]) hF hFit.main hFit.rescore
      exact ⟨out, h3, fusedOk_of hQ' h4⟩
    have hstart := search_starts E V rowSched rnd str strNat qrels runs rs metric hv norm hn "probfuse" .probfuse
      (by decide +kernel) (by decide +kernel) wantReport (.ints lo hi 1)
    have hex : ∃ res, optimizeFusion E V rowSched rnd str strNat qrels runs norm "probfuse" metric wantReport
        (.ints lo hi 1) = .ok res := by
      rw [hstart]
      simp only [runOptimizer, hg, bindArg]
      obtain ⟨sr, hsr⟩ := optLoop_total (probfuseTrial E V rowSched metric) strNat
        (fun st => (st.1 = qrels ∨ st.1 = qrels.ensureSorted V.SQ) ∧
          st.2.map (·.ensureSorted E.S) = rs.map (·.ensureSorted E.S)) (counts g) (by
          rintro ⟨s', runs'⟩ ⟨hs', hr'⟩ n' hn'
          obtain ⟨n, hng, rfl⟩ := List.mem_map.1 hn'
          simp only at hs' hr'
          obtain ⟨a, b⟩ := probfuseTrain_sorted V.SQ E.S V.hash rs V.sched rowSched n.toNat qrels s' runs' (hes s' hs')
            hr'
          obtain ⟨_, _, t, h1, -⟩ := C59_segments V.SQ E.S V.hash V.sched rowSched n.toNat (hnpos n hng) qrels
            rs hT' hv.evaluations (by rw [hlen]; exact hrow)
          have ht : (probfuseTrain V.SQ E.S V.hash V.sched rowSched n.toNat qrels rs).2.2 = .ok t := by rw [h1]
          obtain ⟨out, ho, hok⟩ := hfuse n hng t ht
          obtain ⟨b1, b2⟩ := b t ht
          unfold probfuseTrial
          simp only
          rw [a, ht]
          simp only [b1, List.map_map, hcomp, ho]
          have hb : (probfuseTrain V.SQ E.S V.hash V.sched rowSched n.toNat s' runs').1 = qrels ∨
              (probfuseTrain V.SQ E.S V.hash V.sched rowSched n.toNat s' runs').1 = qrels.ensureSorted V.SQ := by
            rcases b2 with b2 | b2
            · rw [b2]; exact hs'
            · exact .inr b2
          obtain ⟨c, d⟩ := evalRun_inv V E.S metric qrels hv.qrelsOk out _ hb
          obtain ⟨v, hval, -⟩ := evalRun_total V E.S metric hv.metric qrels hv.qrelsOk hv.evaluations out hok.ok
            (hkeys out hok)
          refine ⟨⟨d, ?_⟩, ?_⟩
          · refine List.map_congr_left (fun r _ => ?_)
            exact ensureSorted_idem E.S r
          · rw [c, hval]; exact ⟨_, rfl⟩) (qrels, rs) ⟨.inl rfl, rfl⟩ ⟨none, 0, []⟩
      rw [hsr]
      exact ⟨_, rfl⟩
    obtain ⟨res, hres⟩ := hex
    refine ⟨res, hres, fun hpos hqne hle => ?_⟩
    obtain ⟨segments, tables, scores, k1, k2, k3, k4, -⟩ := C65_probfuse E V rowSched rnd str strNat qrels hv.qrelsOk
      runs rs norm hn metric wantReport lo hi res hres
    rw [hg] at k1
    cases k1
    have l1 : tables.length = g.length := by have := congrArg List.length k2; simpa using this.symm
    have l2 : scores.length = tables.length := by have := congrArg List.length k3; simpa using this.symm
    refine lastBest_some k4 ?_ ?_
    · intro h0
      have := congrArg List.length h0
      rw [List.length_zip, List.length_map, l2, min_self, l1] at this
      exact hgne hle (List.length_eq_zero_iff.1 this)
    · rintro ⟨cfg, sc⟩ hp
      obtain ⟨i, hi⟩ := List.getElem?_of_mem hp
      rw [List.getElem?_zip_eq_some] at hi
      obtain ⟨hi1, hi2⟩ := hi
      rw [List.getElem?_map] at hi1
      cases hti : tables[i]? with
      | none => rw [hti] at hi1; cases hi1
      | some t =>
        have e3 := congrArg (fun l => l[i]?) k3
        simp only [List.getElem?_map, hti, hi2, Option.map_some, Option.some.injEq] at e3
        have e2 := congrArg (fun l => l[i]?) k2
        simp only [List.getElem?_map, hti, Option.map_some] at e2
        cases hgi : g[i]? with
        | none => rw [hgi] at e2; cases e2
        | some n =>
          rw [hgi] at e2
          simp only [Option.map_some, Option.some.injEq] at e2
          obtain ⟨out, ho, hok⟩ := hfuse n (List.mem_of_getElem? hgi) t e2
          rw [ho] at e3
          exact scores_nonneg V E.S metric qrels hv.qrelsOk hv.evaluations hpos hqne out hok.ok (hkeys out hok) sc e3
  · intro hlo
    obtain ⟨s1, runs1, tables, h1, h2⟩ := C59_positions V.SQ E.S V.hash V.sched qrels rs hT' hv.evaluations
    have ht : (posfuseTrain V.SQ E.S V.hash V.sched qrels rs).2.2 = .ok tables := by rw [h1]
    obtain ⟨b1, b2⟩ := (trainEach_sorted V.SQ E.S V.hash estimateProbs rs V.sched qrels qrels rs rfl rfl).2 tables ht
    have hb1 : (posfuseTrain V.SQ E.S V.hash V.sched qrels rs).2.1 = rs.map (·.ensureSorted E.S) := b1
    have hb2 : (posfuseTrain V.SQ E.S V.hash V.sched qrels rs).1 = qrels ∨
      (posfuseTrain V.SQ E.S V.hash V.sched qrels rs).1 = qrels.ensureSorted V.SQ := b2
    have hfuse : ∀ w : Nat, ∃ out, Fuse.slidefuse E.S E.sched E.scheds tables w
        (rs.map (fun r => (r.ensureSorted E.S).data)) = .ok out ∧ FusedOk runs out := by
      intro w
      obtain ⟨out, h3, h4⟩ := C58_slidefuse E.S E.sched E.scheds tables w _
        (by rw [List.length_map, h2.length_eq]) hF hFit.main hFit.rescore
      exact ⟨out, h3, fusedOk_of hQ' h4⟩
    have hstart := search_starts E V rowSched rnd str strNat qrels runs rs metric hv norm hn "slidefuse" .slidefuse
      (by decide +kernel) (by decide +kernel) wantReport (.ints lo hi 1)
    have hex : ∃ res, optimizeFusion E V rowSched rnd str strNat qrels runs norm "slidefuse" metric wantReport
        (.ints lo hi 1) = .ok res := by
      rw [hstart]
      simp only [runOptimizer, hg, bindArg, ht]
      obtain ⟨sr, hsr⟩ := optLoop_total (slidefuseTrial E V metric tables
          (posfuseTrain V.SQ E.S V.hash V.sched qrels rs).2.1) strNat
        (fun s' => s' = qrels ∨ s' = qrels.ensureSorted V.SQ) (counts g) (by
          intro s' hs' w _
          obtain ⟨out, ho, hok⟩ := hfuse w
          obtain ⟨c, d⟩ := evalRun_inv V E.S metric qrels hv.qrelsOk out s' hs'
          obtain ⟨v, hval, -⟩ := evalRun_total V E.S metric hv.metric qrels hv.qrelsOk hv.evaluations out hok.ok
            (hkeys out hok)
          unfold slidefuseTrial
          rw [hb1, List.map_map, hcomp, ho]
          simp only
          refine ⟨d, ?_⟩
          rw [c, hval]; exact ⟨_, rfl⟩) _ hb2 ⟨none, 0, []⟩
      rw [hsr]
      exact ⟨_, rfl⟩
    obtain ⟨res, hres⟩ := hex
    refine ⟨res, hres, fun hpos hqne hle => ?_⟩
    obtain ⟨windows, tables', scores, k1, k2, k3, k4, -⟩ := C65_slidefuse E V rowSched rnd str strNat qrels hv.qrelsOk
      runs rs norm hn metric wantReport lo hi res hres
    rw [hg] at k1
    cases k1
    rw [ht] at k2
    cases k2
    have l2 : scores.length = g.length := by have := congrArg List.length k3; simpa using this.symm
    refine lastBest_some k4 ?_ ?_
    · intro h0
      have := congrArg List.length h0
      rw [List.length_zip, List.length_map, l2, min_self] at this
      exact hgne hle (List.length_eq_zero_iff.1 this)
    · rintro ⟨cfg, sc⟩ hp
      obtain ⟨i, hi⟩ := List.getElem?_of_mem hp
      rw [List.getElem?_zip_eq_some] at hi
      have e3 := congrArg (fun l => l[i]?) k3
      simp only [List.getElem?_map, hi.2, Option.map_some] at e3
      cases hgi : g[i]? with
      | none => rw [hgi] at e3; cases e3
      | some w =>
        rw [hgi] at e3
        simp only [Option.map_some, Option.some.injEq] at e3
        obtain ⟨out, ho, hok⟩ := hfuse w.toNat
        rw [ho] at e3
        exact scores_nonneg V E.S metric qrels hv.qrelsOk hv.evaluations hpos hqne out hok.ok (hkeys out hok) sc e3

end
end Ranx
