import Verif.Props.Unanimity
import Verif.Props.Retrieval
import Verif.Props.EvaluateNorm

/-!
# C128: fusing runs that agree gives their common ranking

If all runs rank the docs of every query alike (in particular if the same run is given several times), the fused
run ranks them alike too, so `evaluate` gives for it what it gives for each of them.
-/

set_option linter.unusedSectionVars false

namespace Ranx
open Dict Store Eval Metrics Py Fuse
open _root_.Ranx.Norm (Results Kind)
variable {κ δ ι : Type*} [LinearOrder κ] [DecidableEq δ] [LinearOrder ι]

namespace Spec
variable [DecidableEq κ] [DecidableEq δ]

/-- every results list of the run is in order of decreasing score -/
def Listed (s : Store κ δ ℝ) : Prop := ∀ p ∈ s.data, Ranked p.2.values

/-- the method and normalization are of the kinds covered by C127: a method on scores with positive weights
and a normalization that keeps the order (for rank: of runs listed in order), or an untrained method on
positions of runs listed in order -/
def KeepsConsensus (runs : List (Store κ δ ℝ)) (k : Option Kind) (name : String) (params : Kwargs) : Prop :=
  k ≠ some .minMaxInverted ∧
  ((∃ R, ScoreRule (runs.map (fun s => s.data)) name params R ∧
      (∀ ws, params = [("weights", .nums ws)] → ∀ w ∈ ws, 0 < w) ∧
      (k = some .rank → ∀ s ∈ runs, Listed s)) ∨
    (PositionRule runs.length name params ∧ ∀ s ∈ runs, Listed s))

end Spec

theorem listed_first {runs : List (Store κ δ ℝ)} (hw : ∀ s ∈ runs, Store.Wf s.data)
    (hl : ∀ s ∈ runs, Spec.Listed s) {q : κ} {a b : δ}
    (h : Spec.AllPreferStrictly (runs.map (fun s => s.data)) q a b) :
    Spec.AllListFirst (runs.map (fun s => s.data)) q a b := by
  intro run hr
  obtain ⟨x, y, hx, hy, hxy⟩ := h run hr
  obtain ⟨s, hs, rfl⟩ := List.mem_map.1 hr
  unfold Spec.score? at hx hy
  unfold Spec.position?
  cases hg : s.data.get? q with
  | none => rw [hg] at hx; simp at hx
  | some v =>
    rw [hg] at hx hy
    have hm := mem_of_get? hg
    obtain ⟨i, j, h1, h2, h3⟩ := ranked_position ((hw s hs).2 _ hm) (hl s hs _ hm) hx hy hxy
    exact ⟨i, j, h1, h2, h3⟩

/-- the strict preference of all runs survives fusion, for all covered methods -/
theorem consensus_placed (E : Env δ) (runs : List (Store κ δ ℝ)) (hn : 2 ≤ runs.length)
    (hw : ∀ s ∈ runs, Store.Wf s.data) (hq : Spec.SameQueries runs) (hE : Spec.SchedulesCover E runs)
    (norm : Option String) (k : Option Kind) (hk : Spec.NormNamed norm k) (name : String) (params : Kwargs)
    (hm : Spec.KeepsConsensus runs k name params) :
    ∃ out val, fuse E runs norm name (some params) = .ok out ∧
      Spec.FusedBy (runs.map (fun s => s.data)) val out ∧
      ∀ q a b, Spec.AllPreferStrictly (runs.map (fun s => s.data)) q a b → Spec.PlacedAbove out q a b := by
  obtain ⟨hi, ⟨R, hR, hpos, hrk⟩ | ⟨hP, hl⟩⟩ := hm
  · obtain ⟨out, val, h1, h2, -⟩ := C89_score_methods E runs hn hw hq hE norm k hk name params R hR
    refine ⟨out, val, h1, h2, fun q a b hab => ?_⟩
    by_cases hkr : k = some .rank
    · subst hkr
      obtain ⟨out', h1', h2'⟩ := C127_rank_norm E runs hn hw hq hE norm hk name params R hR hpos q a b
        (listed_first hw (hrk rfl) hab)
      rw [h1] at h1'
      cases h1'
      exact h2'
    · obtain ⟨out', h1', h2'⟩ := C127_scores_strict E runs hn hw hq hE norm k hk hi hkr name params R hR hpos
        q a b hab
      rw [h1] at h1'
      cases h1'
      exact h2'
  · have hR : ∃ R, Spec.RankRule (runs.map (fun s => s.data)) name params R := by
      cases hP with
      | rrf => exact ⟨_, .rrf⟩
      | rrfK c hc => exact ⟨_, .rrfK c (fun i => (add_pos_of_nonneg_of_pos hc (Nat.cast_pos.2 (Nat.succ_pos i))).ne')⟩
      | rbc p _ => exact ⟨_, .rbc p⟩
      | isr => exact ⟨_, .isr⟩
      | logIsr => exact ⟨_, .logIsr⟩
      | lognIsr => exact ⟨_, .lognIsr⟩
      | lognIsrS s h => exact ⟨_, .lognIsrS s h⟩
      | mapfuse m h _ => exact ⟨_, .mapfuse m (by rw [List.length_map]; exact h)⟩
    obtain ⟨R, hR⟩ := hR
    obtain ⟨out, val, h1, h2, -⟩ := C89_rank_methods E runs hn hw hq hE norm k hk hi name params R hR
    refine ⟨out, val, h1, h2, fun q a b hab => ?_⟩
    obtain ⟨out', h1', h2'⟩ := C127_positions E runs hn hw hq hE norm k hk hi name params hP q a b
      (listed_first hw hl hab)
    rw [h1] at h1'
    cases h1'
    exact h2'

/-- **C128** (ranking): if every run has the same docs as the run `s0` for every query, and orders them in the
same way by score, without ties in `s0`, then the fused run has these docs in the same order. -/
theorem C128_ranking (E : Env δ) (runs : List (Store κ δ ℝ)) (hn : 2 ≤ runs.length)
    (hw : ∀ s ∈ runs, Store.Wf s.data) (hE : Spec.SchedulesCover E runs)
    (norm : Option String) (k : Option Kind) (hk : Spec.NormNamed norm k) (name : String) (params : Kwargs)
    (hm : Spec.KeepsConsensus runs k name params) (s0 : Store κ δ ℝ) (hs0 : s0 ∈ runs)
    (hsame : Spec.SameQueries runs)
    (hag : ∀ s ∈ runs, ∀ q, Spec.SameRanking (Spec.content s0) (Spec.content s) q) :
    ∃ out, fuse E runs norm name (some params) = .ok out ∧
      (∀ q, q ∈ out.data.keys ↔ q ∈ s0.data.keys) ∧
      ∀ q, Spec.SameRanking (Spec.content s0) (Spec.content out) q := by
  obtain ⟨out, val, h1, h2, h3⟩ := consensus_placed E runs hn hw hsame hE norm k hk name params hm
  refine ⟨out, h1, fun q => ?_, fun q => ⟨fun d => ?_, (hag s0 hs0 q).2.1, ?_⟩⟩
  · rw [h2.queries]
    constructor
    · rintro ⟨run, hr, hqr⟩
      obtain ⟨s, hs, rfl⟩ := List.mem_map.1 hr
      exact hsame s hs s0 hs0 q hqr
    · intro h
      exact ⟨s0.data, List.mem_map.2 ⟨s0, hs0, rfl⟩, h⟩
  · rw [Bool.eq_iff_iff]
    have e : ((Spec.content out).read q d).isSome = true ↔ (Spec.content out).read q d ≠ none := by
      rw [Option.isSome_iff_ne_none]
    rw [e, h2.docs q d]
    have inOne : ∀ s : Store κ δ ℝ, (∃ v, s.data.get? q = some v ∧ d ∈ v.keys) ↔
        ((Spec.content s).read q d).isSome = true := by
      intro s
      rw [read_score?]
      unfold Spec.score?
      cases s.data.get? q with
      | none => simp
      | some v => simp [get?_isSome]
    constructor
    · intro h
      obtain ⟨v, hv⟩ := (inOne s0).2 h
      exact ⟨s0.data, List.mem_map.2 ⟨s0, hs0, rfl⟩, v, hv⟩
    · rintro ⟨run, hr, v, hv⟩
      obtain ⟨s, hs, rfl⟩ := List.mem_map.1 hr
      rw [(hag s hs q).1 d]
      exact (inOne s).1 ⟨v, hv⟩
  · intro d d' v v' w w' hv hv' hw1 hw2 hlt
    have hall : Spec.AllPreferStrictly (runs.map (fun s => s.data)) q d' d := by
      intro run hr
      obtain ⟨s, hs, rfl⟩ := List.mem_map.1 hr
      have hA := hag s hs q
      obtain ⟨x, hx⟩ := Option.isSome_iff_exists.1 ((hA.1 d').symm.trans (by rw [hv']; rfl))
      obtain ⟨y, hy⟩ := Option.isSome_iff_exists.1 ((hA.1 d).symm.trans (by rw [hv]; rfl))
      refine ⟨x, y, ?_, ?_, hA.2.2 d d' v v' y x hv hv' hy hx hlt⟩
      · rw [← read_score?]; exact hx
      · rw [← read_score?]; exact hy
    obtain ⟨⟨x, y, hx, hy, hxy⟩, -⟩ := h3 q d' d hall
    rw [read_score?] at hw1 hw2
    rw [hw2] at hx
    rw [hw1] at hy
    cases hx
    cases hy
    exact hxy

/-- **C128** (evaluation): so `evaluate` gives for the fused run what it gives for each of the runs, for all
judgements, metrics and options. -/
theorem C128_evaluate (E : Env δ) (runs : List (Store κ δ ℝ)) (hn : 2 ≤ runs.length)
    (huse : ∀ s ∈ runs, Spec.Usable E.S s) (hE : Spec.SchedulesCover E runs)
    (norm : Option String) (k : Option Kind) (hk : Spec.NormNamed norm k) (name : String) (params : Kwargs)
    (hm : Spec.KeepsConsensus runs k name params) (hsame : Spec.SameQueries runs)
    (hag : ∀ s0 ∈ runs, ∀ s ∈ runs, ∀ q, Spec.SameRanking (Spec.content s0) (Spec.content s) q) :
    ∃ out, fuse E runs norm name (some params) = .ok out ∧
      ∀ (F : Fn ℝ) (other : Str → Except Err ℝ) (SQ : ArgSort Int) (hash : δ → ι) (sched : Nat → List Nat)
        (o : Opts) (qrels : Store κ δ Int) (_ : Spec.Usable SQ qrels) (ms : List Str)
        (fused one : RunObj κ δ ℝ) (_ : fused.store = out) (_ : one.store ∈ runs),
        (evaluate F other SQ E.S hash sched o (.obj qrels) (.obj fused) ms).2 =
          (evaluate F other SQ E.S hash sched o (.obj qrels) (.obj one) ms).2 := by
  have hw : ∀ s ∈ runs, Store.Wf s.data := fun s hs => (huse s hs).ok.1
  obtain ⟨s1, hs1⟩ := List.exists_mem_of_ne_nil runs (by rintro rfl; simp at hn)
  obtain ⟨out, h1, -, -⟩ := C128_ranking E runs hn hw hE norm k hk name params hm s1 hs1 hsame (hag s1 hs1)
  refine ⟨out, h1, ?_⟩
  intro F other SQ hash sched o qrels hqr ms fused one hfu hone
  obtain ⟨out', h1', h2, h3⟩ := C128_ranking E runs hn hw hE norm k hk name params hm one.store hone hsame
    (hag _ hone)
  rw [h1] at h1'
  cases h1'
  refine (evaluate_same_order F other SQ E.S E.S hash sched o qrels one fused ms hqr (huse _ hone) ?_
    (.inr ?_) ?_).symm
  · rw [hfu]; exact fuse_usable E runs norm name (some params) out h1
  · intro q; rw [hfu]; exact (h2 q).symm
  · intro q _; rw [hfu]; exact h3 q

/-- **C128** (copies): the case of one run, without ties, given `n ≥ 2` times. -/
theorem C128_copies (E : Env δ) (s : Store κ δ ℝ) (n : Nat) (hn : 2 ≤ n) (huse : Spec.Usable E.S s)
    (htie : ∀ q d d' v, Spec.score? s.data q d = some v → Spec.score? s.data q d' = some v → d = d')
    (hE : Spec.SchedulesCover E (List.replicate n s))
    (norm : Option String) (k : Option Kind) (hk : Spec.NormNamed norm k) (name : String) (params : Kwargs)
    (hm : Spec.KeepsConsensus (List.replicate n s) k name params) :
    ∃ out, fuse E (List.replicate n s) norm name (some params) = .ok out ∧
      ∀ (F : Fn ℝ) (other : Str → Except Err ℝ) (SQ : ArgSort Int) (hash : δ → ι) (sched : Nat → List Nat)
        (o : Opts) (qrels : Store κ δ Int) (_ : Spec.Usable SQ qrels) (ms : List Str)
        (fused one : RunObj κ δ ℝ) (_ : fused.store = out) (_ : one.store = s),
        (evaluate F other SQ E.S hash sched o (.obj qrels) (.obj fused) ms).2 =
          (evaluate F other SQ E.S hash sched o (.obj qrels) (.obj one) ms).2 := by
  have hmem : ∀ x ∈ List.replicate n s, x = s := fun x hx => List.eq_of_mem_replicate hx
  obtain ⟨out, h1, h2⟩ := C128_evaluate (ι := ι) E (List.replicate n s) (by rw [List.length_replicate]; exact hn)
    (fun x hx => by rw [hmem x hx]; exact huse) hE norm k hk name params hm
    (fun x hx y hy q hq => by rw [hmem y hy]; rwa [hmem x hx] at hq)
    (fun x hx y hy q => by
      rw [hmem x hx, hmem y hy]
      refine ⟨fun _ => rfl, fun d d' v => ?_, fun d d' v v' w w' h1 h2 h3 h4 h => ?_⟩
      · rw [read_score?, read_score?]; exact htie q d d' v
      · rw [h1] at h3; rw [h2] at h4; cases h3; cases h4; exact h)
  refine ⟨out, h1, fun F other SQ hash sched o qrels hqr ms fused one hf ho => ?_⟩
  exact h2 F other SQ hash sched o qrels hqr ms fused one hf
    (by rw [ho]; exact List.mem_replicate.2 ⟨by omega, rfl⟩)

/-! ### instances -/

/-- scores transformed by an increasing function: the same ranking -/
theorem sameRanking_map {s s' : Store κ δ ℝ} {f : ℝ → ℝ} (hf : StrictMono f)
    (hs : s'.data = s.data.map (fun p => (p.1, p.2.map (fun e => (e.1, f e.2))))) (q : κ)
    (htie : ∀ d d' v, Spec.score? s.data q d = some v → Spec.score? s.data q d' = some v → d = d') :
    Spec.SameRanking (Spec.content s) (Spec.content s') q := by
  have hr : ∀ d, (Spec.content s').read q d = (Spec.score? s.data q d).map f := by
    intro d
    rw [read_score?, hs]
    unfold Spec.score?
    rw [show Dict.get? (s.data.map (fun p => (p.1, p.2.map (fun e => (e.1, f e.2))))) q =
      (s.data.get? q).map (fun r => r.map (fun e => (e.1, f e.2))) from get?_map_val _ _ _]
    cases s.data.get? q with
    | none => rfl
    | some r =>
      change Dict.get? (r.map (fun e => (e.1, f e.2))) d = (r.get? d).map f
      exact get?_map_val _ _ _
  refine ⟨fun d => ?_, fun d d' v => ?_, fun d d' v v' w w' h1 h2 h3 h4 h => ?_⟩
  · rw [hr, read_score?, Option.isSome_map]
  · rw [read_score?, read_score?]; exact htie d d' v
  · rw [read_score?] at h1 h2
    rw [hr, h1] at h3
    rw [hr, h2] at h4
    cases h3
    cases h4
    exact hf h

def ensStore1 : Store Nat Nat ℝ := ⟨[(1, [(10, 5), (11, 4)]), (2, [(20, 1)])], false⟩
noncomputable def ensStore2 : Store Nat Nat ℝ :=
  ⟨ensStore1.data.map (fun p => (p.1, p.2.map (fun e => (e.1, 3 * e.2 - 7)))), false⟩

theorem ensStore1_tie : ∀ q d d' v, Spec.score? ensStore1.data q d = some v →
    Spec.score? ensStore1.data q d' = some v → d = d' := by
  intro q d d' v
  unfold Spec.score? ensStore1
  by_cases h1 : q = 1
  · subst h1
    change Dict.get? [(10, 5), (11, 4)] d = some v → Dict.get? [(10, 5), (11, 4)] d' = some v → d = d'
    simp only [get?_cons]
    split_ifs <;> simp_all [Dict.get?] <;> intro h1 h2 <;> linarith
  · by_cases h2 : q = 2
    · subst h2
      change Dict.get? [(20, 1)] d = some v → Dict.get? [(20, 1)] d' = some v → d = d'
      simp only [get?_cons]
      split_ifs <;> simp_all [Dict.get?]
    · simp [Dict.get?, Ne.symm h1, Ne.symm h2]

theorem ens_mem {s : Store Nat Nat ℝ} (hs : s ∈ [ensStore1, ensStore2]) :
    s.data.keys = [1, 2] ∧ Store.Wf s.data ∧ s.sorted = false := by
  simp only [List.mem_cons, List.not_mem_nil, or_false] at hs
  rcases hs with rfl | rfl
  · exact ⟨rfl, ⟨by unfold NodupKeys ensStore1; decide, by unfold ensStore1 NodupKeys; simp⟩, rfl⟩
  · exact ⟨rfl, ⟨by unfold NodupKeys ensStore2 ensStore1; simp, by unfold ensStore2 ensStore1 NodupKeys; simp⟩, rfl⟩

theorem ens_cover {runs : List (Store Nat Nat ℝ)} (h : ∀ s ∈ runs, s.data.keys = [1, 2]) :
    Spec.SchedulesCover exEnv runs := by
  have two : Schedule 2 [1, 0] := by unfold Schedule; decide
  have two' : Schedule 2 [0, 1] := by unfold Schedule; decide
  have hlen : ∀ (j : Nat) s, runs[j]? = some s → s.data.length = 2 := by
    intro j s hj
    have h2 : s.data.keys.length = s.data.length := List.length_map _
    rw [← h2, h s (List.mem_of_getElem? hj)]; rfl
  constructor
  · intro s hs
    rw [hlen 0 s hs]; exact two
  · intro j s hs
    rw [hlen j s hs]; exact two'
  · intro j s hs
    rw [hlen j s hs]; exact two

/-- Non-vacuity of C128: a run and a rescaled version of it, fused with zmuv and mnz -/
example : ∃ out, fuse exEnv [ensStore1, ensStore2] (some "zmuv") "mnz" (some []) = .ok out ∧
    (∀ q, q ∈ out.data.keys ↔ q ∈ ensStore1.data.keys) ∧
    ∀ q, Spec.SameRanking (Spec.content ensStore1) (Spec.content out) q :=
  C128_ranking exEnv _ (by decide) (fun _ h => (ens_mem h).2.1) (ens_cover (fun _ h => (ens_mem h).1))
    (some "zmuv") (some .zmuv) (.inr ⟨_, _, rfl, rfl, by decide +kernel, by decide⟩) "mnz" []
    ⟨by decide, .inl ⟨_, .mnz, fun ws h => absurd h (by simp), fun h => absurd h (by decide)⟩⟩
    ensStore1 List.mem_cons_self
    (fun s hs s' hs' q hq => by rw [(ens_mem hs').1]; rwa [(ens_mem hs).1] at hq)
    (fun s hs q => by
      simp only [List.mem_cons, List.not_mem_nil, or_false] at hs
      rcases hs with rfl | rfl
      · refine sameRanking_map (f := fun x => x) (fun a b h => h) ?_ q (fun d d' v => ensStore1_tie q d d' v)
        simp
      · exact sameRanking_map (f := fun x => 3 * x - 7) (fun a b h => by simp only; linarith) rfl q
          (fun d d' v => ensStore1_tie q d d' v))

/-- Non-vacuity of C128: three copies of a run, fused with rrf, evaluate alike -/
example : ∃ out, fuse exEnv (List.replicate 3 ensStore1) none "rrf" (some []) = .ok out ∧
      ∀ (F : Fn ℝ) (other : Str → Except Err ℝ) (SQ : ArgSort Int) (hash : Nat → Nat) (sched : Nat → List Nat)
        (o : Opts) (qrels : Store Nat Nat Int) (_ : Spec.Usable SQ qrels) (ms : List Str)
        (fused one : RunObj Nat Nat ℝ) (_ : fused.store = out) (_ : one.store = ensStore1),
        (evaluate F other SQ exEnv.S hash sched o (.obj qrels) (.obj fused) ms).2 =
          (evaluate F other SQ exEnv.S hash sched o (.obj qrels) (.obj one) ms).2 :=
  C128_copies exEnv ensStore1 3 (by decide) (usable_unsorted _ _ (ens_mem List.mem_cons_self).2.1 rfl)
    ensStore1_tie (ens_cover (fun x hx => by rw [List.eq_of_mem_replicate hx]; rfl)) none none
    (.inl ⟨rfl, rfl⟩) "rrf" []
    ⟨by decide, .inr ⟨.rrf, fun s hs => by
      rw [List.eq_of_mem_replicate hs]
      intro p hp
      unfold ensStore1 at hp
      simp only [List.mem_cons, List.not_mem_nil, or_false] at hp
      unfold Spec.Ranked
      rcases hp with rfl | rfl
      · simp only [Dict.values, List.map_cons, List.map_nil, List.pairwise_cons, List.mem_cons,
          List.not_mem_nil, or_false, forall_eq, List.Pairwise.nil, and_true, false_imp_iff, implies_true]
        norm_num
      · simp [Dict.values]⟩⟩

end Ranx
