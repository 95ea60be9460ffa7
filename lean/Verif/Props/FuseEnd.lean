import Verif.Props.Fuse
import Verif.Props.FusionRank
import Verif.Props.FusionBorda
import Verif.Props.FusionBayes
import Verif.Props.Condorcet

/-!
# C89: `fuse` from the names to the scores

`C61` says which functions the names select. Here the scores of the fused run are stated directly in terms of
the scores and positions in the given runs: normalization by its textbook formula, then the formula of the
method.
-/

set_option linter.unusedSectionVars false

namespace Ranx
open Dict Fuse
open _root_.Ranx.Norm (Results SetIter Kind normSwitch normRun minMaxInverted)
variable {κ δ : Type*}

namespace Spec
variable [DecidableEq κ] [DecidableEq δ]

/-- Specification: the normalized score of doc `d`, which has score `s` in the ranking `r`. -/
noncomputable def normScore (k : Kind) (r : Dict δ ℝ) (d : δ) (s : ℝ) : ℝ :=
  let lo := r.values.min?.getD 0
  let hi := r.values.max?.getD 0
  match k with
  | .minMax => (s - lo) / max (hi - lo) (1 / 10 ^ 9)
  | .minMaxInverted => (hi - s) / max (hi - lo) (1 / 10 ^ 9)
  | .max => s / max hi (1 / 10 ^ 9)
  | .sum => (s - lo) / max ((r.values.map (fun x => x - lo)).sum) (1 / 10 ^ 9)
  | .zmuv => (s - mean r.values) / max (Real.sqrt (variance r.values)) (1 / 10 ^ 9)
  | .rank => 1 - (r.keys.idxOf d : ℝ) / (r.length : ℝ)
  | .borda => s

/-- Specification: the runs with all scores normalized, everything else unchanged. -/
noncomputable def normalised (k : Option Kind) (runs : List (RunData κ δ ℝ)) : List (RunData κ δ ℝ) :=
  match k with
  | none => runs
  | some k => runs.map (fun run => run.map (fun p => (p.1, p.2.map (fun e => (e.1, normScore k p.2 e.1 e.2)))))

/-- `norm=None`, or one of the accepted names of a normalization other than borda -/
def NormNamed (norm : Option String) (k : Option Kind) : Prop :=
  (norm = none ∧ k = none) ∨ ∃ n x, norm = some n ∧ k = some x ∧ (n, x) ∈ normNames ∧ x ≠ .borda

/-- Specification of the methods that look only at scores: `ScoreRule runs name params R`: with method `name`
and `params`, the fused score `v` of doc `d` of query `q` satisfies `R … q d v`. -/
inductive ScoreRule (runs : List (RunData κ δ ℝ)) : String → Kwargs →
    (List (RunData κ δ ℝ) → κ → δ → ℝ → Prop) → Prop
  | sum : ScoreRule runs "sum" [] (fun R q d v => v = (scores R q d).sum)
  | anz : ScoreRule runs "anz" [] (fun R q d v => v = (scores R q d).sum / ((scores R q d).length : ℝ))
  | mnz : ScoreRule runs "mnz" [] (fun R q d v => v = (scores R q d).sum * ((scores R q d).length : ℝ))
  | gmnz (g : ℝ) : ScoreRule runs "gmnz" [("gamma", .num g)]
      (fun R q d v => v = (scores R q d).sum * ((scores R q d).length : ℝ) ^ g)
  | med : ScoreRule runs "med" [] (fun R q d v => IsMedian (scores R q d) v)
  | min : ScoreRule runs "min" []
      (fun R q d v => (∃ s ∈ scores R q d, s ≤ 10 ^ 9) → IsLeast {s | s ∈ scores R q d} v)
  | max : ScoreRule runs "max" []
      (fun R q d v => (∃ s ∈ scores R q d, -(10 ^ 9) ≤ s) → IsGreatest {s | s ∈ scores R q d} v)
  | wsum (ws : List ℝ) (h : runs.length ≤ ws.length) : ScoreRule runs "wsum" [("weights", .nums ws)]
      (fun R q d v => v = ((weighted R ws q d).map (fun p => p.2 * p.1)).sum)
  | wmnz (ws : List ℝ) (h : runs.length ≤ ws.length) : ScoreRule runs "wmnz" [("weights", .nums ws)]
      (fun R q d v => v = ((weighted R ws q d).map Prod.fst).sum * ((weighted R ws q d).map Prod.snd).sum)
  | mixed (ws : List ℝ) (h : runs.length ≤ ws.length) : ScoreRule runs "mixed" [("weights", .nums ws)]
      (fun R q d v => v = ((weighted R ws q d).map (fun p => p.1 * p.2)).sum *
        Real.sqrt ((scores R q d).length : ℝ))

/-- Specification of the methods that look at positions. -/
inductive RankRule (runs : List (RunData κ δ ℝ)) : String → Kwargs →
    (List (RunData κ δ ℝ) → κ → δ → ℝ → Prop) → Prop
  | rrf : RankRule runs "rrf" []
      (fun R q d v => v = ((positions R q d).map (fun (i : Nat) => 1 / (60 + (i : ℝ) + 1))).sum)
  | rrfK (k : ℝ) (h : ∀ i : ℕ, k + ((i + 1 : ℕ) : ℝ) ≠ 0) : RankRule runs "rrf" [("k", .num k)]
      (fun R q d v => v = ((positions R q d).map (fun (i : Nat) => 1 / (k + (i : ℝ) + 1))).sum)
  | rbc (phi : ℝ) : RankRule runs "rbc" [("phi", .num phi)]
      (fun R q d v => v = ((positions R q d).map (fun i => (1 - phi) * phi ^ i)).sum)
  | isr : RankRule runs "isr" []
      (fun R q d v => v = ((positions R q d).map (fun (i : Nat) => 1 / ((i : ℝ) + 1) ^ 2)).sum *
        ((positions R q d).length : ℝ))
  | logIsr : RankRule runs "log_isr" []
      (fun R q d v => v = ((positions R q d).map (fun (i : Nat) => 1 / ((i : ℝ) + 1) ^ 2)).sum *
        Real.log ((positions R q d).length : ℝ))
  | lognIsr : RankRule runs "logn_isr" []
      (fun R q d v => v = ((positions R q d).map (fun (i : Nat) => 1 / ((i : ℝ) + 1) ^ 2)).sum *
        Real.log (((positions R q d).length : ℝ) + 0.01))
  | lognIsrS (s : ℝ) (h : 0 ≤ s ∧ s ≤ 1) : RankRule runs "logn_isr" [("sigma", .num s)]
      (fun R q d v => v = ((positions R q d).map (fun (i : Nat) => 1 / ((i : ℝ) + 1) ^ 2)).sum *
        Real.log (((positions R q d).length : ℝ) + s))
  | mapfuse (maps : List ℝ) (h : runs.length ≤ maps.length) :
      RankRule runs "mapfuse" [("map_scores", .nums maps)]
      (fun R q d v => v = ((occurrences R maps q d).map (fun o => o.param / ((o.pos : ℝ) + 1))).sum)
  | posfuse (probs : List (List ℝ)) (h : runs.length ≤ probs.length) :
      RankRule runs "posfuse" [("probs", .tables probs)]
      (fun R q d v => v = ((occurrences R probs q d).map (fun o => (o.param[o.pos]?).getD 0)).sum)
  | slidefuse (probs : List (List ℝ)) (w : Nat) (h : runs.length ≤ probs.length) :
      RankRule runs "slidefuse" [("probs", .tables probs), ("w", .int w)]
      (fun R q d v => v = ((occurrences R probs q d).map (fun o =>
        let window := (List.range o.count).filter (fun j => decide (o.pos ≤ j + w ∧ j ≤ o.pos + w))
        (window.map (fun j => (o.param[j]?).getD 0)).sum / (window.length : ℝ))).sum)
  | probfuse (probs : List (List ℝ)) (h : runs.length ≤ probs.length) (hp : ∀ p ∈ probs, p ≠ []) :
      RankRule runs "probfuse" [("probs", .tables probs)]
      (fun R q d v => v = ((occurrences R probs q d).map (fun o =>
        let segment : Nat := o.pos / (o.count ⌈/⌉ o.param.length)
        (o.param[segment]?).getD 0 / ((segment : ℝ) + 1))).sum)
  | segfuse (probs : List (List ℝ)) (h : runs.length ≤ probs.length) (hp : ∀ p ∈ probs, p.length ≤ 10) :
      RankRule runs "segfuse" [("probs", .tables probs)]
      (fun R q d v => v = ((occurrences R probs q d).map (fun o =>
        ((segFuseSegment o.pos).bind (fun k => o.param[k]?)).getD 0 * (o.score + 1))).sum)
  | bayesfuse (odds : List (List ℝ)) (h : runs.length ≤ odds.length)
      (hl : ∀ rt ∈ runs.zip odds, ∀ p ∈ rt.1, p.2.length ≤ rt.2.length) :
      RankRule runs "bayesfuse" [("log_odds", .tables odds)]
      (fun R q d v => v = ((R.zip odds).map (fun rt => match position? rt.1 q d with
        | some i => (rt.2[i]?).getD 0
        | none => Real.log (0.001 / 0.999))).sum)
  | bordafuse (hq : ∀ run ∈ runs, ∀ run' ∈ runs, run.keys = run'.keys) : RankRule runs "bordafuse" []
      (fun R q d v => v = (R.map (fun run => bordaPoints (poolSize R q) run q d)).sum)
  | wBordafuse (ws : List ℝ) (h : runs.length ≤ ws.length)
      (hq : ∀ run ∈ runs, ∀ run' ∈ runs, run.keys = run'.keys) :
      RankRule runs "w_bordafuse" [("weights", .nums ws)]
      (fun R q d v => v = ((R.zip ws).map (fun rw => rw.2 * bordaPoints (poolSize R q) rw.1 q d)).sum)

end Spec

/-! ### the normalization step -/

section
variable [DecidableEq δ]

theorem safeMin_min? (l : List ℝ) : Norm.safeMin l = l.min?.getD 0 := by cases l <;> rfl
theorem safeMax_max? (l : List ℝ) : Norm.safeMax l = l.max?.getD 0 := by cases l <;> rfl

/-- a ranking with normalized scores, as specified -/
noncomputable def specRow (k : Kind) (r : Dict δ ℝ) : Dict δ ℝ :=
  r.map (fun e => (e.1, Spec.normScore k r e.1 e.2))

theorem sum_sub_lo (l : List ℝ) (lo : ℝ) : (l.map (fun x => x - lo)).sum = l.sum - lo * (l.length : ℝ) := by
  induction l with
  | nil => simp
  | cons a t ih => simp only [List.map_cons, List.sum_cons, List.length_cons, ih]; push_cast; ring

theorem zipIdx_idxOf {l : List δ} (h : l.Nodup) (f : Nat → ℝ) :
    l.zipIdx.map (fun di => (di.1, f di.2)) = l.map (fun d => (d, f (l.idxOf d))) := by
  apply List.ext_getElem?
  intro i
  rw [List.getElem?_map, List.getElem?_map, List.getElem?_zipIdx]
  cases hi : l[i]? with
  | none => rfl
  | some d =>
    obtain ⟨hlt, rfl⟩ := List.getElem?_eq_some_iff.1 hi
    simp only [Option.map_some, Nat.zero_add, List.Nodup.idxOf_getElem h]

theorem normFun_specRow (S : ArgSort ℝ) (k : Kind) (hi : k ≠ .minMaxInverted) (r : Dict δ ℝ)
    (h : NodupKeys r) : normFun S k r = specRow k r := by
  unfold specRow Spec.normScore
  cases k with
  | borda => simp [normFun]
  | minMaxInverted => exact absurd rfl hi
  | minMax =>
    simp only [normFun]
    unfold Norm.minMax Norm.extractScores
    simp only [Bool.false_eq_true, if_false]
    rw [Norm.normLoop_eq r h, safeMin_min?, safeMax_max?]; rfl
  | max =>
    simp only [normFun]
    unfold Norm.maxNorm Norm.extractScores
    simp only
    rw [Norm.normLoop_eq r h, safeMax_max?]; rfl
  | sum =>
    simp only [normFun]
    unfold Norm.sumNorm Norm.extractScores
    simp only
    rw [Norm.normLoop_eq r h, safeMin_min?]
    have : (r.values.map (fun x => x - r.values.min?.getD 0)).sum =
        r.values.sum - r.values.min?.getD 0 * (r.length : ℝ) := by
      rw [sum_sub_lo]
      unfold Dict.values; rw [List.length_map]
    rw [this]; rfl
  | zmuv =>
    simp only [normFun]
    rw [zmuv_eq, Norm.normLoop_eq r h]; rfl
  | rank =>
    simp only [normFun]
    rw [rankNorm_eq r h]
    have hk : r.keys.Nodup := h
    rw [zipIdx_idxOf hk (fun i => 1 - (i : ℝ) / (r.length : ℝ))]
    change (r.map Prod.fst).map _ = _
    rw [List.map_map]
    rfl

theorem get?_specRow (k : Kind) (r : Dict δ ℝ) (d : δ) :
    (specRow k r).get? d = (r.get? d).map (Spec.normScore k r d) := by
  unfold specRow
  generalize hr : Spec.normScore k r = f
  clear hr
  induction r with
  | nil => rfl
  | cons e t ih =>
    rw [List.map_cons, get?_cons, get?_cons, ih]
    by_cases hd : e.1 = d
    · subst hd; rw [if_pos rfl, if_pos rfl]; rfl
    · rw [if_neg hd, if_neg hd]

theorem keys_specRow (k : Kind) (r : Dict δ ℝ) : (specRow k r).keys = r.keys := by
  unfold specRow Dict.keys
  rw [List.map_map]; rfl

theorem get?_normFun (S : ArgSort ℝ) (k : Kind) (r : Dict δ ℝ) (h : NodupKeys r) (d : δ) :
    (normFun S k r).get? d = (specRow k r).get? d := by
  by_cases hi : k = .minMaxInverted
  · subst hi
    simp only [normFun]
    have h1 : NodupKeys (Norm.minMax true r) := nodupKeys_ofList _
    rw [get?_sortDictByValue S (d := Norm.minMax true r) h1 d, get?_specRow]
    unfold Norm.minMax Norm.extractScores
    simp only [if_true]
    rw [Norm.normLoop_get? r h, safeMin_min?, safeMax_max?]; rfl
  · rw [normFun_specRow S k hi r h]
end

section
variable [LinearOrder κ] [DecidableEq δ]

theorem normalised_some (k : Kind) (runs : List (Dict κ (Results δ ℝ))) :
    Spec.normalised (some k) runs = runs.map (fun run => run.map (fun p => (p.1, specRow k p.2))) := rfl

/-- what the normalization step hands to the method -/
structure NormStep (E : Env δ) (k : Option Kind) (runs nr : List (Dict κ (Results δ ℝ))) : Prop where
  fusable : Spec.Fusable nr
  fits : E.Fits nr
  queries : ∀ q, (∃ run ∈ nr, q ∈ run.keys) ↔ ∃ run ∈ runs, q ∈ run.keys
  score : List.Forall₂ (fun run' run => ∀ q d, Spec.score? run' q d = Spec.score? run q d) nr
    (Spec.normalised k runs)
  exact : k ≠ some .minMaxInverted → nr = Spec.normalised k runs

theorem normStep (E : Env δ) (runs : List (Store κ δ ℝ)) (hn : 2 ≤ runs.length)
    (hw : ∀ s ∈ runs, Store.Wf s.data) (hq : Spec.SameQueries runs) (hE : Spec.SchedulesCover E runs)
    (norm : Option String) (k : Option Kind) (hk : Spec.NormNamed norm k) :
    ∃ nr, normalizeRuns E norm runs = .ok nr ∧ NormStep E k (runs.map (fun s => s.data)) nr := by
  have hf := fusable_of runs hn hw hq
  have hfit := fits_of E runs hE (by intro h; subst h; simp at hn)
  rcases hk with ⟨rfl, rfl⟩ | ⟨n, x, rfl, rfl, hnx, hb⟩
  · refine ⟨_, rfl, hf, hfit, fun q => Iff.rfl, ?_, fun _ => rfl⟩
    exact List.forall₂_same.2 (fun _ _ _ _ => rfl)
  · have hnb : n ≠ "borda" := by
      rintro rfl
      have : ∀ p ∈ Spec.normNames, p.1 = "borda" → p.2 = .borda := by decide +kernel
      exact hb (this _ hnx rfl)
    have hsw : normSwitch n = .ok x := by
      rcases normSwitch_cases n with ⟨k', hk', h⟩ | ⟨h, _⟩
      · have huniq : ∀ p ∈ Spec.normNames, ∀ p' ∈ Spec.normNames, p.1 = p'.1 → p.2 = p'.2 := by
          decide +kernel
        rw [h, show k' = x from huniq _ hk' _ hnx rfl]
      · exact absurd (List.mem_map.2 ⟨_, hnx, rfl⟩) h
    have hnr : normalizeRuns E (some n) runs =
        .ok (runs.zipIdx.map (fun rj => (normOne E x rj.2 rj.1).data)) := by
      unfold normalizeRuns
      simp only
      rw [if_pos hnb, hsw]
    have hL := normalize_local E (some n) runs hf hE.norm (fun h => absurd (Option.some.inj h) hnb) _ hnr
    have hmem : ∀ rj ∈ runs.zipIdx, runs[rj.2]? = some rj.1 := by
      intro rj hrj
      exact List.mem_zipIdx_iff_getElem?.1 hrj
    have hruns : runs.map (fun s => s.data) = runs.zipIdx.map (fun rj => rj.1.data) := by
      conv_lhs => rw [← List.zipIdx_map_fst 0 runs]
      rw [List.map_map]; rfl
    refine ⟨_, hnr, hL.fusable hf, hL.fits E hfit, hL.queries, ?_, ?_⟩
    · rw [normalised_some, hruns, List.map_map, List.forall₂_map_left_iff, List.forall₂_map_right_iff,
        List.forall₂_same]
      intro rj hrj q d
      have hj := hmem rj hrj
      have hwf := hw rj.1 (List.mem_of_getElem? hj)
      obtain ⟨-, hg, -⟩ := normOne_local E x hb rj.2 rj.1 hwf (hE.norm _ _ hj)
      unfold Spec.score?
      rw [hg q]
      have : Dict.get? (rj.1.data.map (fun p => (p.1, specRow x p.2))) q =
          (rj.1.data.get? q).map (specRow x) := get?_map_val _ _ _
      simp only [Function.comp_apply]
      rw [this]
      cases hr : rj.1.data.get? q with
      | none => rfl
      | some r => exact get?_normFun E.S x r (hwf.2 (q, r) (mem_of_get? hr)) d
    · intro hx
      have hx' : x ≠ .minMaxInverted := fun h => hx (by rw [h])
      rw [normalised_some, hruns, List.map_map]
      apply List.map_congr_left
      intro rj hrj
      have hj := hmem rj hrj
      have hwf := hw rj.1 (List.mem_of_getElem? hj)
      have hone : ∀ f : Results δ ℝ → Results δ ℝ, normFun E.S x = f →
          normOne E x rj.2 rj.1 = normRun f (E.normScheds rj.2) rj.1 →
          (normOne E x rj.2 rj.1).data = rj.1.data.map (fun p => (p.1, specRow x p.2)) := by
        intro f hfx h
        rw [h]
        unfold normRun
        simp only
        rw [Norm.normParallel_eq f _ rj.1.data hwf.1 (hE.norm _ _ hj)]
        apply List.map_congr_left
        intro p hp
        rw [← hfx, normFun_specRow E.S x hx' p.2 (hwf.2 p hp)]
      cases x with
      | borda => exact absurd rfl hb
      | minMaxInverted => exact absurd rfl hx'
      | max => exact hone _ rfl rfl
      | minMax => exact hone _ rfl rfl
      | rank => exact hone _ rfl rfl
      | sum => exact hone _ rfl rfl
      | zmuv => exact hone _ rfl rfl

theorem scores_congr {A B : List (Dict κ (Results δ ℝ))}
    (h : List.Forall₂ (fun run' run => ∀ q d, Spec.score? run' q d = Spec.score? run q d) A B) (q : κ) (d : δ) :
    Spec.scores A q d = Spec.scores B q d := by
  unfold Spec.scores
  induction h with
  | nil => rfl
  | cons h _ ih => rw [List.filterMap_cons, List.filterMap_cons, h q d, ih]

theorem weighted_congr {A B : List (Dict κ (Results δ ℝ))}
    (h : List.Forall₂ (fun run' run => ∀ q d, Spec.score? run' q d = Spec.score? run q d) A B) (ws : List ℝ)
    (q : κ) (d : δ) : Spec.weighted A ws q d = Spec.weighted B ws q d := by
  unfold Spec.weighted
  induction h generalizing ws with
  | nil => rfl
  | cons h _ ih =>
    cases ws with
    | nil => rfl
    | cons w ws =>
      rw [List.zip_cons_cons, List.zip_cons_cons, List.filterMap_cons, List.filterMap_cons, ih]
      simp only
      rw [h q d]

theorem inSome_congr {A B : List (Dict κ (Results δ ℝ))}
    (h : List.Forall₂ (fun run' run => ∀ q d, Spec.score? run' q d = Spec.score? run q d) A B) (q : κ) (d : δ) :
    Spec.InSome A q d ↔ Spec.InSome B q d := by
  have key : ∀ L : List (Dict κ (Results δ ℝ)), Spec.InSome L q d ↔ Spec.scores L q d ≠ [] := by
    intro L
    unfold Spec.InSome Spec.scores
    rw [Ne, List.filterMap_eq_nil_iff]
    constructor
    · rintro ⟨run, hr, r, hg, hd⟩ hall
      have := hall run hr
      unfold Spec.score? at this
      rw [hg, Option.bind_some, get?_eq_none] at this
      exact this hd
    · intro hne
      by_contra hc
      refine hne (fun run hr => ?_)
      unfold Spec.score?
      cases hg : run.get? q with
      | none => rfl
      | some r =>
        rw [Option.bind_some, get?_eq_none]
        exact fun hd => hc ⟨run, hr, r, hg, hd⟩
  rw [key, key, scores_congr h q d]

theorem inSome_normalised (k : Option Kind) (runs : List (Dict κ (Results δ ℝ))) (q : κ) (d : δ) :
    Spec.InSome (Spec.normalised k runs) q d ↔ Spec.InSome runs q d := by
  cases k with
  | none => rfl
  | some k =>
    rw [normalised_some]
    unfold Spec.InSome
    constructor
    · rintro ⟨run', hr', r', hg, hd⟩
      obtain ⟨run, hr, rfl⟩ := List.mem_map.1 hr'
      rw [show Dict.get? (run.map (fun p => (p.1, specRow k p.2))) q = (run.get? q).map (specRow k) from
        get?_map_val _ _ _] at hg
      obtain ⟨r, hr2, rfl⟩ := Option.map_eq_some_iff.1 hg
      rw [keys_specRow] at hd
      exact ⟨run, hr, r, hr2, hd⟩
    · rintro ⟨run, hr, r, hg, hd⟩
      refine ⟨_, List.mem_map.2 ⟨run, hr, rfl⟩, specRow k r, ?_, by rw [keys_specRow]; exact hd⟩
      rw [show Dict.get? (run.map (fun p => (p.1, specRow k p.2))) q = (run.get? q).map (specRow k) from
        get?_map_val _ _ _, hg]; rfl

theorem NormStep.inSome {E : Env δ} {k : Option Kind} {runs nr : List (Dict κ (Results δ ℝ))}
    (h : NormStep E k runs nr) (q : κ) (d : δ) : Spec.InSome nr q d ↔ Spec.InSome runs q d :=
  (inSome_congr h.score q d).trans (inSome_normalised k runs q d)

theorem NormStep.length {E : Env δ} {k : Option Kind} {runs nr : List (Dict κ (Results δ ℝ))}
    (h : NormStep E k runs nr) : nr.length = runs.length := by
  rw [h.score.length_eq]
  cases k with
  | none => rfl
  | some k => exact List.length_map _

/-- positions are not changed by normalization -/
theorem position?_normalised (k : Kind) (run : Dict κ (Results δ ℝ)) (q : κ) (d : δ) :
    Spec.position? (run.map (fun p => (p.1, specRow k p.2))) q d = Spec.position? run q d := by
  unfold Spec.position?
  rw [show Dict.get? (run.map (fun p => (p.1, specRow k p.2))) q = (run.get? q).map (specRow k) from
    get?_map_val _ _ _]
  cases run.get? q with
  | none => rfl
  | some r => simp only [Option.map_some, Option.bind_some, keys_specRow]

theorem fuse_named (E : Env δ) (runs : List (Store κ δ ℝ)) (hn : 2 ≤ runs.length)
    (hq : Spec.SameQueries runs) (norm : Option String) (name : String) (m : Method)
    (hm : (name, m) ∈ Spec.methodNames) (params : Kwargs) (nr : List (Dict κ (Results δ ℝ)))
    (hnr : normalizeRuns E norm runs = .ok nr) :
    fuse E runs norm name (some params) = m.call E params nr := by
  unfold fuse
  rw [if_neg (by omega), if_pos ((pairwiseSameKeys_iff runs).2 hq), hnr]
  simp only
  rw [show fusionSwitch name = .ok m from fusionSwitch_known (name, m) hm]
  rfl

/-- **C89** (methods on scores): for every accepted normalization name except borda, every method that works on
scores and its parameters, `fuse` returns a run that has the queries of the runs, for each query the docs
that some run has, ranked, with scores computed from the normalized scores by the method's formula. -/
theorem C89_score_methods (E : Env δ) (runs : List (Store κ δ ℝ)) (hn : 2 ≤ runs.length)
    (hw : ∀ s ∈ runs, Store.Wf s.data) (hq : Spec.SameQueries runs) (hE : Spec.SchedulesCover E runs)
    (norm : Option String) (k : Option Kind) (hk : Spec.NormNamed norm k) (name : String) (params : Kwargs)
    (R : List (Dict κ (Results δ ℝ)) → κ → δ → ℝ → Prop)
    (hR : Spec.ScoreRule (runs.map (fun s => s.data)) name params R) :
    ∃ out val, fuse E runs norm name (some params) = .ok out ∧
      Spec.FusedBy (runs.map (fun s => s.data)) val out ∧
      ∀ q d, Spec.InSome (runs.map (fun s => s.data)) q d →
        R (Spec.normalised k (runs.map (fun s => s.data))) q d (val q d) := by
  obtain ⟨nr, hnr, hS⟩ := normStep E runs hn hw hq hE norm k hk
  have hlen : nr.length = (runs.map (fun s => s.data)).length := hS.length
  have fin : ∀ m, (name, m) ∈ Spec.methodNames → ∀ val,
      (∃ out, m.call E params nr = .ok out ∧ Spec.FusedBy nr val out ∧ ∀ q d,
        Spec.InSome nr q d → R (Spec.normalised k (runs.map (fun s => s.data))) q d (val q d)) →
      ∃ out val, fuse E runs norm name (some params) = .ok out ∧
      Spec.FusedBy (runs.map (fun s => s.data)) val out ∧
      ∀ q d, Spec.InSome (runs.map (fun s => s.data)) q d →
        R (Spec.normalised k (runs.map (fun s => s.data))) q d (val q d) := by
    rintro m hm val ⟨out, h1, h2, h3⟩
    exact ⟨out, val, by rw [fuse_named E runs hn hq norm name m hm params nr hnr, h1],
      FusedBy_transfer h2 hS.queries hS.inSome, fun q d hd => h3 q d ((hS.inSome q d).2 hd)⟩
  have hsc := scores_congr hS.score
  have hwt := weighted_congr hS.score
  cases hR with
  | sum =>
    obtain ⟨out, h1, h2⟩ := C49_comb_sum E.S E.sched nr hS.fusable hS.fits.main
    exact fin .combSum (by decide +kernel) _ ⟨out, h1, h2, fun q d _ => by beta_reduce; rw [← hsc]⟩
  | anz =>
    obtain ⟨out, h1, h2⟩ := C49_comb_anz E.S E.sched nr hS.fusable hS.fits.main
    exact fin .combAnz (by decide +kernel) _ ⟨out, h1, h2, fun q d _ => by beta_reduce; rw [← hsc]⟩
  | mnz =>
    obtain ⟨out, h1, h2⟩ := C49_comb_mnz E.S E.sched nr hS.fusable hS.fits.main
    exact fin .combMnz (by decide +kernel) _ ⟨out, h1, h2, fun q d _ => by beta_reduce; rw [← hsc]⟩
  | gmnz g =>
    obtain ⟨out, h1, h2⟩ := C49_comb_gmnz E.S E.sched g nr hS.fusable hS.fits.main
    exact fin .combGmnz (by decide +kernel) _ ⟨out, h1, h2, fun q d _ => by beta_reduce; rw [← hsc]⟩
  | med =>
    obtain ⟨out, val, h1, h2, h3⟩ := C49_comb_med E.S E.sched nr hS.fusable hS.fits.main
    exact fin .combMed (by decide +kernel) _ ⟨out, h1, h2, fun q d hd => by beta_reduce; rw [← hsc]; exact h3 q d hd⟩
  | min =>
    obtain ⟨out, val, h1, h2, h3⟩ := C50_comb_min_partial E.S E.sched nr hS.fusable hS.fits.main
    exact fin .combMin (by decide +kernel) _ ⟨out, h1, h2, fun q d hd => by beta_reduce; rw [← hsc]; exact h3 q d hd⟩
  | max =>
    obtain ⟨out, val, h1, h2, h3⟩ := C50_comb_max_partial E.S E.sched nr hS.fusable hS.fits.main
    exact fin .combMax (by decide +kernel) _ ⟨out, h1, h2, fun q d hd => by beta_reduce; rw [← hsc]; exact h3 q d hd⟩
  | wsum ws hl =>
    obtain ⟨out, h1, h2⟩ := C49_wsum E.S E.sched ws nr hS.fusable (hlen ▸ hl) hS.fits.main
    exact fin .wsum (by decide +kernel) _ ⟨out, h1, h2, fun q d _ => by beta_reduce; rw [← hwt]⟩
  | wmnz ws hl =>
    obtain ⟨out, h1, h2⟩ := C49_wmnz E.S E.sched ws nr hS.fusable (hlen ▸ hl) hS.fits.main
    exact fin .wmnz (by decide +kernel) _ ⟨out, h1, h2, fun q d _ => by beta_reduce; rw [← hwt]⟩
  | mixed ws hl =>
    obtain ⟨out, h1, h2⟩ := C49_mixed E.S E.sched ws nr hS.fusable (hlen ▸ hl) hS.fits.main
    exact fin .mixed (by decide +kernel) _ ⟨out, h1, h2, fun q d _ => by beta_reduce; rw [← hwt, ← hsc]⟩

theorem NormStep.rows {E : Env δ} {k : Option Kind} {runs nr : List (Dict κ (Results δ ℝ))}
    (h : NormStep E k runs nr) (hk : k ≠ some .minMaxInverted) :
    List.Forall₂ (fun run' run => run'.keys = run.keys ∧
      ∀ p ∈ run', ∃ p' ∈ run, p.2.length = p'.2.length) nr runs := by
  rw [h.exact hk]
  cases k with
  | none => exact List.forall₂_same.2 (fun run _ => ⟨rfl, fun p hp => ⟨p, hp, rfl⟩⟩)
  | some k =>
    rw [normalised_some, List.forall₂_map_left_iff, List.forall₂_same]
    intro run _
    refine ⟨keys_map_val _ _, ?_⟩
    intro p hp
    obtain ⟨p', hp', rfl⟩ := List.mem_map.1 hp
    refine ⟨p', hp', ?_⟩
    simp [specRow]

theorem zip_lengths {nr runs : List (Dict κ (Results δ ℝ))}
    (hrow : List.Forall₂ (fun run' run => run'.keys = run.keys ∧
      ∀ p ∈ run', ∃ p' ∈ run, p.2.length = p'.2.length) nr runs) (odds : List (List ℝ))
    (ht : ∀ rt ∈ runs.zip odds, ∀ p ∈ rt.1, p.2.length ≤ rt.2.length) :
    ∀ rt ∈ nr.zip odds, ∀ p ∈ rt.1, p.2.length ≤ rt.2.length := by
  induction hrow generalizing odds with
  | nil => intro rt hrt; simp at hrt
  | @cons a b A B hab _ ih =>
    cases odds with
    | nil => intro rt hrt; simp at hrt
    | cons o odds =>
      intro rt hrt p hp
      rw [List.zip_cons_cons, List.mem_cons] at hrt
      rcases hrt with rfl | hrt
      · obtain ⟨p', hp', e⟩ := hab.2 p hp
        rw [e]
        exact ht (b, o) (by rw [List.zip_cons_cons]; exact List.mem_cons_self) p' hp'
      · exact ih odds (fun rt hrt => ht rt (by rw [List.zip_cons_cons]; exact List.mem_cons_of_mem _ hrt))
          rt hrt p hp

/-- **C89** (methods on positions): the same for the methods that rank by position, for every normalization
that keeps the order of the docs. -/
theorem C89_rank_methods (E : Env δ) (runs : List (Store κ δ ℝ)) (hn : 2 ≤ runs.length)
    (hw : ∀ s ∈ runs, Store.Wf s.data) (hq : Spec.SameQueries runs) (hE : Spec.SchedulesCover E runs)
    (norm : Option String) (k : Option Kind) (hk : Spec.NormNamed norm k) (hki : k ≠ some .minMaxInverted)
    (name : String) (params : Kwargs)
    (R : List (Dict κ (Results δ ℝ)) → κ → δ → ℝ → Prop)
    (hR : Spec.RankRule (runs.map (fun s => s.data)) name params R) :
    ∃ out val, fuse E runs norm name (some params) = .ok out ∧
      Spec.FusedBy (runs.map (fun s => s.data)) val out ∧
      ∀ q d, Spec.InSome (runs.map (fun s => s.data)) q d →
        R (Spec.normalised k (runs.map (fun s => s.data))) q d (val q d) := by
  obtain ⟨nr, hnr, hS⟩ := normStep E runs hn hw hq hE norm k hk
  have hlen : nr.length = (runs.map (fun s => s.data)).length := hS.length
  have hrow := hS.rows hki
  have fin : ∀ m, (name, m) ∈ Spec.methodNames → ∀ val,
      (∃ out, m.call E params nr = .ok out ∧ Spec.FusedBy nr val out ∧ ∀ q d,
        Spec.InSome nr q d → R nr q d (val q d)) →
      ∃ out val, fuse E runs norm name (some params) = .ok out ∧
      Spec.FusedBy (runs.map (fun s => s.data)) val out ∧
      ∀ q d, Spec.InSome (runs.map (fun s => s.data)) q d →
        R (Spec.normalised k (runs.map (fun s => s.data))) q d (val q d) := by
    rintro m hm val ⟨out, h1, h2, h3⟩
    exact ⟨out, val, by rw [fuse_named E runs hn hq norm name m hm params nr hnr, h1],
      FusedBy_transfer h2 hS.queries hS.inSome, fun q d hd => by
        rw [← hS.exact hki]; exact h3 q d ((hS.inSome q d).2 hd)⟩
  have hF := hS.fusable
  have hM := hS.fits.main
  have hRS := hS.fits.rescore
  have hal : (∀ run ∈ runs.map (fun s => s.data), ∀ run' ∈ runs.map (fun s => s.data), run.keys = run'.keys) →
      ∀ run ∈ nr, ∀ run' ∈ nr, run.keys = run'.keys := by
    intro h a ha b hb
    obtain ⟨a', ha', e, -⟩ := forall₂_mem_left hrow ha
    obtain ⟨b', hb', e', -⟩ := forall₂_mem_left hrow hb
    rw [e, e', h a' ha' b' hb']
  cases hR with
  | rrf =>
    obtain ⟨out, h1, h2⟩ := C51_rrf E.S E.sched E.scheds 60 nr (ranksClear_of_nonneg (by norm_num) nr) hF hM hRS
    exact fin .rrf (by decide +kernel) _ ⟨out, h1, h2, fun q d _ => rfl⟩
  | rrfK x hx =>
    obtain ⟨out, h1, h2⟩ := C51_rrf E.S E.sched E.scheds x nr (ranksClear_of_ne hx nr) hF hM hRS
    exact fin .rrf (by decide +kernel) _ ⟨out, h1, h2, fun q d _ => rfl⟩
  | rbc x =>
    obtain ⟨out, h1, h2⟩ := C51_rbc E.S E.sched E.scheds x nr hF hM hRS
    exact fin .rbc (by decide +kernel) _ ⟨out, h1, h2, fun q d _ => rfl⟩
  | isr =>
    obtain ⟨out, h1, h2⟩ := C51_isr E.S E.sched E.scheds nr hF hM hRS
    exact fin .isr (by decide +kernel) _ ⟨out, h1, h2, fun q d _ => rfl⟩
  | logIsr =>
    obtain ⟨out, h1, h2⟩ := C51_log_isr E.S E.sched E.scheds nr hF hM hRS
    exact fin .logIsr (by decide +kernel) _ ⟨out, h1, h2, fun q d _ => rfl⟩
  | lognIsr =>
    obtain ⟨out, h1, h2⟩ := (C51_logn_isr E.S E.sched E.scheds 0.01 nr hF hM hRS).2 (by norm_num)
    exact fin .lognIsr (by decide +kernel) _ ⟨out, h1, h2, fun q d _ => rfl⟩
  | lognIsrS s h =>
    obtain ⟨out, h1, h2⟩ := (C51_logn_isr E.S E.sched E.scheds s nr hF hM hRS).2 h
    exact fin .lognIsr (by decide +kernel) _ ⟨out, h1, h2, fun q d _ => rfl⟩
  | mapfuse maps hl =>
    obtain ⟨out, h1, h2⟩ := C58_mapfuse E.S E.sched E.scheds maps nr (hlen ▸ hl) hF hM hRS
    exact fin .mapfuse (by decide +kernel) _ ⟨out, h1, h2, fun q d _ => rfl⟩
  | posfuse probs hl =>
    obtain ⟨out, h1, h2⟩ := C58_posfuse E.S E.sched E.scheds probs nr (hlen ▸ hl) hF hM hRS
    exact fin .posfuse (by decide +kernel) _ ⟨out, h1, h2, fun q d _ => rfl⟩
  | slidefuse probs w hl =>
    obtain ⟨out, h1, h2⟩ := C58_slidefuse E.S E.sched E.scheds probs w nr (hlen ▸ hl) hF hM hRS
    exact fin .slidefuse (by decide +kernel) _ ⟨out, h1, h2, fun q d _ => rfl⟩
  | probfuse probs hl hp =>
    obtain ⟨out, h1, h2⟩ := C58_probfuse E.S E.sched E.scheds probs hp nr (hlen ▸ hl) hF hM hRS
    exact fin .probfuse (by decide +kernel) _ ⟨out, h1, h2, fun q d _ => rfl⟩
  | segfuse probs hl hp =>
    obtain ⟨out, h1, h2⟩ := C58_segfuse E.S E.sched E.scheds probs hp nr (hlen ▸ hl) hF hM hRS
    exact fin .segfuse (by decide +kernel) _ ⟨out, h1, h2, fun q d _ => rfl⟩
  | bayesfuse odds hl ht =>
    have ht' := zip_lengths hrow odds ht
    obtain ⟨out, h1, h2⟩ := C60_in_table E.S E.sched E.scheds E.oob odds nr (hlen ▸ hl) ht' hF hM hRS
    exact fin .bayesfuse (by decide +kernel) _ ⟨out, h1, h2, fun q d _ => rfl⟩
  | bordafuse ha =>
    obtain ⟨out, h1, h2⟩ := C51_bordafuse_partial E.S E.sched E.scheds E.I nr hF (hal ha) hM hRS
    exact fin .bordafuse (by decide +kernel) _ ⟨out, h1, h2, fun q d _ => rfl⟩
  | wBordafuse ws hl ha =>
    obtain ⟨out, h1, h2⟩ := C51_weighted_bordafuse_partial E.S E.sched E.scheds E.I ws nr hF (hal ha)
      (hlen ▸ hl) hM hRS
    exact fin .weightedBordafuse (by decide +kernel) _ ⟨out, h1, h2, fun q d _ => rfl⟩

theorem ranksAbove_normalised (k : Kind) (run : Dict κ (Results δ ℝ)) (q : κ) (x y : δ) :
    Spec.ranksAbove (run.map (fun p => (p.1, specRow k p.2))) q x y = Spec.ranksAbove run q x y := by
  unfold Spec.ranksAbove
  rw [position?_normalised, position?_normalised]

theorem votes_normalised (k : Option Kind) (runs : List (Dict κ (Results δ ℝ))) (q : κ) (x y : δ) :
    Spec.votes (Spec.normalised k runs) q x y = Spec.votes runs q x y := by
  cases k with
  | none => rfl
  | some k =>
    rw [normalised_some]
    unfold Spec.votes
    rw [List.countP_map]
    apply List.countP_congr
    intro run _
    simp only [Function.comp_apply, ranksAbove_normalised]

theorem voteWeight_normalised (k : Option Kind) (runs : List (Dict κ (Results δ ℝ))) (ws : List ℝ) (q : κ)
    (x y : δ) : Spec.voteWeight (Spec.normalised k runs) ws q x y = Spec.voteWeight runs ws q x y ∧
      ((Spec.normalised k runs).zip ws).map Prod.snd = (runs.zip ws).map Prod.snd := by
  cases k with
  | none => exact ⟨rfl, rfl⟩
  | some k =>
    rw [normalised_some]
    unfold Spec.voteWeight
    rw [List.zip_map_left, List.map_map, List.map_map]
    refine ⟨?_, rfl⟩
    congr 1
    apply List.map_congr_left
    intro rw _
    simp only [Function.comp_apply, Prod.map_fst, Prod.map_snd, ranksAbove_normalised, id]

theorem CondorcetFused_transfer {runs runs' : List (Dict κ (Results δ ℝ))} {beats : κ → δ → δ → Prop}
    {out : Store κ δ ℝ} (h : Spec.CondorcetFused runs' beats out)
    (hq : ∀ q, (∃ run ∈ runs', q ∈ run.keys) ↔ ∃ run ∈ runs, q ∈ run.keys)
    (hd : ∀ q d, Spec.InSome runs' q d ↔ Spec.InSome runs q d) : Spec.CondorcetFused runs beats out :=
  ⟨fun q => (h.queries q).trans (hq q), fun q hx => by
    obtain ⟨L, h1, h2, h3, h4⟩ := h.ranking q ((hq q).2 hx)
    exact ⟨L, h1, h2, fun d => (h3 d).trans (hd q d), h4⟩⟩

/-- **C89** (condorcet and weighted condorcet): the majorities are those of the given runs, whatever the
normalization (of those that keep the order of the docs). -/
theorem C89_condorcet (E : Env δ) (runs : List (Store κ δ ℝ)) (hn : 2 ≤ runs.length)
    (hw : ∀ s ∈ runs, Store.Wf s.data) (hq : Spec.SameQueries runs) (hE : Spec.SchedulesCover E runs)
    (norm : Option String) (k : Option Kind) (hk : Spec.NormNamed norm k) (hki : k ≠ some .minMaxInverted)
    (hlen : ∀ s ∈ runs, ∀ p ∈ s.data, p.2.length ≤ 1000000) :
    (∃ out, fuse E runs norm "condorcet" (some []) = .ok out ∧
      Spec.CondorcetFused (runs.map (fun s => s.data)) (Spec.Beats (runs.map (fun s => s.data))) out) ∧
    ∀ ws : List ℝ, runs.length ≤ ws.length → (∀ w ∈ ws, 0 ≤ w) →
      ∃ out, fuse E runs norm "w_condorcet" (some [("weights", .nums ws)]) = .ok out ∧
        Spec.CondorcetFused (runs.map (fun s => s.data)) (Spec.BeatsW (runs.map (fun s => s.data)) ws) out := by
  obtain ⟨nr, hnr, hS⟩ := normStep E runs hn hw hq hE norm k hk
  have hrow := hS.rows hki
  have hlen' : ∀ run ∈ nr, ∀ p ∈ run, p.2.length ≤ 1000000 := by
    intro run hr p hp
    obtain ⟨run', hr', -, h⟩ := forall₂_mem_left hrow hr
    obtain ⟨s, hs, rfl⟩ := List.mem_map.1 hr'
    obtain ⟨p', hp', e⟩ := h p hp
    rw [e]
    exact hlen s hs p' hp'
  have hl : nr.length = runs.length := by rw [hS.length, List.length_map]
  constructor
  · obtain ⟨out, h1, h2⟩ := C56_condorcet E.C E.I nr hS.fusable hlen'
    refine ⟨out, (fuse_named E runs hn hq norm "condorcet" .condorcet (by decide +kernel) [] nr hnr).trans h1, ?_⟩
    have hb : Spec.Beats nr = Spec.Beats (runs.map (fun s => s.data)) := by
      funext q x y
      unfold Spec.Beats
      rw [hS.length, hS.exact hki, votes_normalised]
    rw [← hb]
    exact CondorcetFused_transfer h2 hS.queries hS.inSome
  · intro ws hws hpos
    obtain ⟨out, h1, h2⟩ := C56_weighted_condorcet E.C E.I ws nr hS.fusable (by rw [hl]; exact hws) hpos hlen'
    refine ⟨out, (fuse_named E runs hn hq norm "w_condorcet" .weightedCondorcet (by decide +kernel)
      [("weights", .nums ws)] nr hnr).trans h1, ?_⟩
    have hb : Spec.BeatsW nr ws = Spec.BeatsW (runs.map (fun s => s.data)) ws := by
      funext q x y
      unfold Spec.BeatsW
      rw [hS.exact hki, (voteWeight_normalised k _ ws q x y).1, (voteWeight_normalised k _ ws q x y).2]
    rw [← hb]
    exact CondorcetFused_transfer h2 hS.queries hS.inSome

end

/-! ### instances -/

/-- Non-vacuity of C89: min-max normalization and the method sum on two runs; doc 10 of query 1 is best of
two in the first and last of two in the second, so its fused score is 1 + 0. -/
example : ∃ out, fuse exEnv [fuseStore1, fuseStore2] (some "min-max") "sum" (some []) = .ok out ∧
    (Spec.content out).read 1 10 = some 1 := by
  obtain ⟨out, val, h1, h2, h3⟩ := C89_score_methods exEnv [fuseStore1, fuseStore2] (by decide) fuseStore_wf
    fuseStore_same exEnv_cover (some "min-max") (some .minMax)
    (.inr ⟨_, _, rfl, rfl, by decide +kernel, by decide⟩) "sum" [] _ .sum
  have hin : Spec.InSome ([fuseStore1, fuseStore2].map (fun s : Store Nat Nat ℝ => s.data)) 1 10 :=
    ⟨fuseStore1.data, by simp, _, rfl, by simp [Dict.keys]⟩
  refine ⟨out, h1, ?_⟩
  rw [h2.value 1 10 hin, h3 1 10 hin]
  have e : Spec.scores (Spec.normalised (some .minMax)
      ([fuseStore1, fuseStore2].map (fun s : Store Nat Nat ℝ => s.data))) 1 10 = [1, 0] := by
    have a : Spec.score? (fuseStore1.data.map (fun p => (p.1, specRow .minMax p.2))) 1 10 = some 1 := by
      change Dict.get? (specRow .minMax [(10, 5), (11, 4)]) 10 = some 1
      rw [get?_specRow]
      simp [Spec.normScore, Dict.get?, Dict.values, List.min?, List.max?]
      norm_num
    have b : Spec.score? (fuseStore2.data.map (fun p => (p.1, specRow .minMax p.2))) 1 10 = some 0 := by
      change Dict.get? (specRow .minMax [(12, 6), (10, 2)]) 10 = some 0
      rw [get?_specRow]
      simp [Spec.normScore, Dict.get?, Dict.values, List.min?, List.max?]
      norm_num
    rw [normalised_some]
    unfold Spec.scores
    simp only [List.map_cons, List.map_nil, List.filterMap_cons, List.filterMap_nil, a, b]
  rw [e]
  norm_num

/-- … and a method on positions with its default parameter after zmuv normalization. -/
example : ∃ out, fuse exEnv [fuseStore1, fuseStore2] (some "zmuv") "rrf" (some []) = .ok out ∧
    (Spec.content out).read 1 10 = some (1 / 61 + 1 / 62) := by
  obtain ⟨out, val, h1, h2, h3⟩ := C89_rank_methods exEnv [fuseStore1, fuseStore2] (by decide) fuseStore_wf
    fuseStore_same exEnv_cover (some "zmuv") (some .zmuv)
    (.inr ⟨_, _, rfl, rfl, by decide +kernel, by decide⟩) (by decide) "rrf" [] _ .rrf
  have hin : Spec.InSome ([fuseStore1, fuseStore2].map (fun s : Store Nat Nat ℝ => s.data)) 1 10 :=
    ⟨fuseStore1.data, by simp, _, rfl, by simp [Dict.keys]⟩
  refine ⟨out, h1, ?_⟩
  rw [h2.value 1 10 hin, h3 1 10 hin]
  have e : Spec.positions (Spec.normalised (some .zmuv)
      ([fuseStore1, fuseStore2].map (fun s : Store Nat Nat ℝ => s.data))) 1 10 = [0, 1] := by
    rw [normalised_some]
    unfold Spec.positions
    simp only [List.map_cons, List.map_nil, List.filterMap_cons, List.filterMap_nil, position?_normalised]
    rfl
  rw [e]
  norm_num

end Ranx
