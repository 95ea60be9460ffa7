import Verif.Lemmas.Fuse
import Verif.Props.FusionBorda

/-!
# Lemmas: `fuse` works query by query
-/

set_option linter.unusedSectionVars false

namespace Ranx.Fuse
open Dict
open _root_.Ranx.Norm (Results toRun SetIter getCandidates Kind normSwitch normRun minMaxInverted bordaRuns
  bordaNorm normParallel)
variable {κ δ : Type*}

section
variable [DecidableEq δ]

/-- the points of one query: every run's results rescored over the common candidates -/
noncomputable def bordaQuery (I : SetIter δ) (rs : List (Results δ ℝ)) : List (Results δ ℝ) :=
  rs.map (fun r => bordaScore r (I.run (rs.flatMap Dict.keys)))

/-- condorcet on the results of one query -/
noncomputable def condorcetOne (C : CmpSort) (I : SetIter δ) (lt : List (List Nat) → Nat → Nat → Bool)
    (rs : List (Results δ ℝ)) : Except Err (Results δ ℝ) :=
  .ok (condorcetQuery C lt (rs.map Dict.keys) (I.run (rs.flatMap Dict.keys)))

/-- every method on the results of one query -/
noncomputable def perQuery (E : Env δ) (m : Method) (params : Kwargs) (rs : List (Results δ ℝ)) :
    Except Err (Results δ ℝ) :=
  match m with
  | .bayesfuse => bindArg (tablesArg params "log_odds") fun t => zipCombine E.S (bayesScore E.oob) t oddsScore rs
  | .bordafuse => sortedCombine E.S sumScore (bordaQuery E.I rs)
  | .combAnz => sortedCombine E.S anzScore rs
  | .combGmnz => bindArg (numArg params "gamma" none) fun g => sortedCombine E.S (gmnzScore g) rs
  | .combMax => sortedCombine E.S maxScore rs
  | .combMed => sortedCombine E.S medScore rs
  | .combMin => sortedCombine E.S minScore rs
  | .combMnz => sortedCombine E.S mnzScore rs
  | .combSum => sortedCombine E.S sumScore rs
  | .condorcet => condorcetOne E.C E.I compareVotes rs
  | .isr => sortedCombine E.S mnzScore (rs.map isrScore)
  | .logIsr => sortedCombine E.S logMnzScore (rs.map isrScore)
  | .lognIsr => bindArg (numArg params "sigma" (some 0.01)) fun s => sortedCombine E.S (lognMnzScore s) (rs.map isrScore)
  | .mapfuse => bindArg (numsArg params "map_scores") fun l => zipCombine E.S mapScore l sumScore rs
  | .mixed => bindArg (numsArg params "weights") fun ws => sortedCombine E.S (mixedScore ws) rs
  | .posfuse => bindArg (tablesArg params "probs") fun t => zipCombine E.S posScore t sumScore rs
  | .probfuse => bindArg (tablesArg params "probs") fun t => zipCombine E.S probScore t sumScore rs
  | .rbc => bindArg (numArg params "phi" none) fun p => sortedCombine E.S sumScore (rs.map (rbcScore p))
  | .rrf => bindArg (numArg params "k" (some 60)) fun k => sortedCombine E.S sumScore (rs.map (rrfScore k))
  | .segfuse => bindArg (tablesArg params "probs") fun t => zipCombine E.S segScore t sumScore rs
  | .slidefuse => bindArg (tablesArg params "probs") fun t => bindArg (intArg params "w") fun w =>
      zipCombine E.S (fun p => slideScore p w) t sumScore rs
  | .weightedBordafuse => bindArg (numsArg params "weights") fun ws =>
      sortedCombine E.S (wsumScore ws) (bordaQuery E.I rs)
  | .weightedCondorcet => bindArg (numsArg params "weights") fun ws =>
      condorcetOne E.C E.I (compareWeighted ws) rs
  | .wmnz => bindArg (numsArg params "weights") fun ws => sortedCombine E.S (wmnzScore ws) rs
  | .wsum => bindArg (numsArg params "weights") fun ws => sortedCombine E.S (wsumScore ws) rs

theorem bindArg_ok {A B : Type*} {a : Except Err A} {f : A → Except Err B} {b : B}
    (h : bindArg a f = .ok b) : ∃ x, a = .ok x ∧ f x = .ok b := by
  unfold bindArg at h
  cases a with
  | error e => simp at h
  | ok x => exact ⟨x, rfl, h⟩

theorem unionOf_bind {A : Type*} (a : Except Err A) (f : A → List (Results δ ℝ) → Except Err (Results δ ℝ))
    (h : ∀ x, UnionOf (f x)) : UnionOf (fun rs => bindArg a (fun x => f x rs)) := by
  intro rs r hn hr
  obtain ⟨x, _, hx⟩ := bindArg_ok hr
  exact h x rs r hn hx

theorem flatMap_bordaQuery (I : SetIter δ) (rs : List (Results δ ℝ)) (hn : ∀ x ∈ rs, NodupKeys x) (d : δ) :
    d ∈ (bordaQuery I rs).flatMap Dict.keys ↔ d ∈ rs.flatMap Dict.keys := by
  have hsub : ∀ r ∈ rs, ∀ x ∈ r.keys, x ∈ I.run (rs.flatMap Dict.keys) := by
    intro r hr x hx
    rw [I.mem]
    exact List.mem_flatMap.2 ⟨r, hr, hx⟩
  constructor
  · intro h
    obtain ⟨r', hr', hd⟩ := List.mem_flatMap.1 h
    obtain ⟨r, hr, rfl⟩ := List.mem_map.1 hr'
    rw [bordaScore_keys r (hn r hr) _ (I.nodup _) (hsub r hr), I.mem] at hd
    exact hd
  · intro h
    obtain ⟨r, hr, hd⟩ := List.mem_flatMap.1 h
    refine List.mem_flatMap.2 ⟨_, List.mem_map.2 ⟨r, hr, rfl⟩, ?_⟩
    rw [bordaScore_keys r (hn r hr) _ (I.nodup _) (hsub r hr), I.mem]
    exact h

theorem unionOf_borda (I : SetIter δ) (S : ArgSort ℝ) (score : Score δ ℝ) :
    UnionOf (fun rs => sortedCombine S score (bordaQuery I rs)) := by
  intro rs r hn h
  obtain ⟨h1, h2⟩ := unionOf_sortedCombine S score _ r (fun x hx => by
    obtain ⟨y, _, rfl⟩ := List.mem_map.1 hx; exact nodupKeys_ofList _) h
  exact ⟨h1, fun d => (h2 d).trans (flatMap_bordaQuery I rs hn d)⟩

theorem keys_zipIdx_pair {γ : Type*} (l : List δ) (g : Nat → γ) :
    Dict.keys (l.zipIdx.map (fun di => (di.1, g di.2))) = l := by
  unfold Dict.keys
  rw [List.map_map]
  exact List.zipIdx_map_fst 0 l

theorem keys_probScore (p : List ℝ) (r : Results δ ℝ) (h : NodupKeys r) : (probScore p r).keys = r.keys := by
  unfold probScore; exact keys_rankLoop _ r h
theorem nodup_probScore (p : List ℝ) (r : Results δ ℝ) : NodupKeys (probScore p r) := by
  unfold probScore; exact nodupKeys_rankLoop _ r
theorem keys_segScore (p : List ℝ) (r : Results δ ℝ) (h : NodupKeys r) : (segScore p r).keys = r.keys := by
  unfold segScore; exact keys_rankLoop _ r h
theorem nodup_segScore (p : List ℝ) (r : Results δ ℝ) : NodupKeys (segScore p r) := by
  unfold segScore; exact nodupKeys_rankLoop _ r

theorem unionOf_condorcetOne (C : CmpSort) (I : SetIter δ) (lt : List (List Nat) → Nat → Nat → Bool) :
    UnionOf (condorcetOne C I lt) := by
  intro rs r _ h
  unfold condorcetOne at h
  cases h
  refine ⟨nodupKeys_ofList _, fun d => ?_⟩
  rw [condorcetQuery_eq C lt _ _ (I.nodup _),
    keys_zipIdx_pair _ (fun i => ((I.run (rs.flatMap Dict.keys)).length : ℝ) - (i : ℝ)),
    (condorcetOrder_perm C lt _ _).mem_iff, I.mem]

theorem unionOf_perQuery (E : Env δ) (m : Method) (params : Kwargs) : UnionOf (perQuery E m params) := by
  have hk : ∀ (f : Nat → ℝ → ℝ) (r : Results δ ℝ), NodupKeys r → (rankLoop f r).keys = r.keys :=
    fun f r h => keys_rankLoop f r h
  have hn : ∀ (f : Nat → ℝ → ℝ) (r : Results δ ℝ), NodupKeys (rankLoop f r) :=
    fun f r => nodupKeys_rankLoop f r
  cases m with
  | bayesfuse => exact unionOf_bind _ _ (fun t => unionOf_zipCombine _ _ _ _ (fun p r h => hk _ r h) (fun p r => hn _ r))
  | bordafuse => exact unionOf_borda _ _ _
  | combAnz => exact unionOf_sortedCombine _ _
  | combGmnz => exact unionOf_bind _ _ (fun t => unionOf_sortedCombine _ _)
  | combMax => exact unionOf_sortedCombine _ _
  | combMed => exact unionOf_sortedCombine _ _
  | combMin => exact unionOf_sortedCombine _ _
  | combMnz => exact unionOf_sortedCombine _ _
  | combSum => exact unionOf_sortedCombine _ _
  | condorcet => exact unionOf_condorcetOne _ _ _
  | isr => exact unionOf_rescoreAll _ _ _ (fun r h => hk _ r h) (fun r => hn _ r)
  | logIsr => exact unionOf_rescoreAll _ _ _ (fun r h => hk _ r h) (fun r => hn _ r)
  | lognIsr => exact unionOf_bind _ _ (fun t => unionOf_rescoreAll _ _ _ (fun r h => hk _ r h) (fun r => hn _ r))
  | mapfuse => exact unionOf_bind _ _ (fun t => unionOf_zipCombine _ _ _ _ (fun p r h => hk _ r h) (fun p r => hn _ r))
  | mixed => exact unionOf_bind _ _ (fun t => unionOf_sortedCombine _ _)
  | posfuse => exact unionOf_bind _ _ (fun t => unionOf_zipCombine _ _ _ _ (fun p r h => hk _ r h) (fun p r => hn _ r))
  | probfuse => exact unionOf_bind _ _ (fun t => unionOf_zipCombine _ _ _ _ keys_probScore nodup_probScore)
  | rbc => exact unionOf_bind _ _ (fun t => unionOf_rescoreAll _ _ _ (fun r h => hk _ r h) (fun r => hn _ r))
  | rrf => exact unionOf_bind _ _ (fun t => unionOf_rescoreAll _ _ _ (fun r h => hk _ r h) (fun r => hn _ r))
  | segfuse => exact unionOf_bind _ _ (fun t => unionOf_zipCombine _ _ _ _ keys_segScore nodup_segScore)
  | slidefuse =>
    exact unionOf_bind _ _ (fun t => unionOf_bind _ _ (fun w =>
      unionOf_zipCombine _ _ _ _ (fun p r h => hk _ r h) (fun p r => hn _ r)))
  | weightedBordafuse => exact unionOf_bind _ _ (fun t => unionOf_borda _ _ _)
  | weightedCondorcet => exact unionOf_bind _ _ (fun t => unionOf_condorcetOne _ _ _)
  | wmnz => exact unionOf_bind _ _ (fun t => unionOf_sortedCombine _ _)
  | wsum => exact unionOf_bind _ _ (fun t => unionOf_sortedCombine _ _)

end

section
variable [LinearOrder κ] [DecidableEq δ]

/-- the schedules of `E` cover the loops over these runs -/
structure Env.Fits (E : Env δ) (runs : List (Dict κ (Results δ ℝ))) : Prop where
  main : Schedule (queryCount runs) E.sched
  rescore : ∀ (j : Nat) run, runs[j]? = some run → Schedule run.length (E.scheds j)

theorem resultsFor_borda (I : SetIter δ) (runs : List (Dict κ (Results δ ℝ))) (q : κ)
    (hq : ∀ run ∈ runs, q ∈ run.keys) :
    resultsFor (runs.map (mapRun (fun q r => bordaScore r (candsOf I runs q)))) q =
      bordaQuery I (resultsFor runs q) := by
  unfold resultsFor bordaQuery candsOf
  rw [List.map_map, List.map_map]
  apply List.map_congr_left
  intro run hr
  obtain ⟨r, hg⟩ := Option.isSome_iff_exists.1 (get?_isSome.2 (hq run hr))
  simp only [Function.comp_apply, get?_mapRun, hg, Option.map_some, Option.getD_some, List.flatMap_map]

theorem borda_local (S : ArgSort ℝ) (sched : List Nat) (scheds : Nat → List Nat) (I : SetIter δ)
    (score : Score δ ℝ) (runs runs' : List (Dict κ (Results δ ℝ))) (hf : Spec.Fusable runs)
    (ha : ∀ run ∈ runs, ∀ run' ∈ runs, run.keys = run'.keys)
    (hs : Schedule (queryCount runs) sched)
    (hss : ∀ (j : Nat) run, runs[j]? = some run → Schedule run.length (scheds j)) (out : Store κ δ ℝ)
    (h1 : bordaRescored scheds I runs = .ok runs') (h : fuseRun S score sched runs' = .ok out) :
    Localized runs out (fun rs => sortedCombine S score (bordaQuery I rs)) := by
  rw [bordaRescored_eq I scheds runs hf ha hss] at h1
  cases h1
  obtain ⟨hres, _⟩ := borda_transfer I runs hf
  have hl := fuseRun_local S score sched _ (hres.fusable hf) (by rw [hres.queryCount]; exact hs) out h
  refine ⟨fun q => (hl.queries q).trans (hres.queries q), fun q hq => ?_⟩
  obtain ⟨r, h1, h2⟩ := hl.get q ((hres.queries q).2 hq)
  rw [resultsFor_borda I runs q (Fusable_all hf hq)] at h1
  exact ⟨r, h1, h2⟩

theorem condorcet_local (C : CmpSort) (I : SetIter δ) (lt : List (List Nat) → Nat → Nat → Bool)
    (runs : List (Dict κ (Results δ ℝ))) (hf : Spec.Fusable runs) (out : Store κ δ ℝ)
    (h : condorcetWith C I lt runs = .ok out) : Localized runs out (condorcetOne C I lt) := by
  obtain ⟨r0, rest, hruns, heq⟩ := condorcetWith_eq C I lt runs hf
  have h0 : r0 ∈ runs := by rw [hruns]; exact List.mem_cons_self
  rw [heq] at h
  cases h
  have hmem : ∀ q, q ∈ r0.keys ↔ ∃ run ∈ runs, q ∈ run.keys :=
    fun q => ⟨fun hq => ⟨r0, h0, hq⟩, fun ⟨run, hr, hq⟩ => hf.same run hr r0 h0 q hq⟩
  constructor
  · intro q
    rw [← hmem q]
    simp only
    unfold Dict.keys
    rw [List.map_map]
    have : (Prod.fst ∘ fun q : κ => (q, (condorcetQuery C lt
        (runs.map (fun run => ((run.get? q).getD []).keys))
        (I.run (runs.flatMap (fun run => ((run.get? q).getD []).keys))) : Results δ ℝ))) = id := rfl
    unfold Dict.keys at this
    rw [this, List.map_id]
  · intro q hq
    refine ⟨_, rfl, ?_⟩
    simp only
    rw [get?_map_pair, if_pos ((hmem q).2 hq)]
    unfold resultsFor
    rw [List.map_map, List.flatMap_map]
    rfl

theorem localized_bind {A : Type*} (a : Except Err A) (x : A) (ha : a = .ok x)
    (f : A → List (Results δ ℝ) → Except Err (Results δ ℝ)) {runs : List (Dict κ (Results δ ℝ))}
    {out : Store κ δ ℝ} (h : Localized runs out (f x)) :
    Localized runs out (fun rs => bindArg a (fun x => f x rs)) := by
  subst ha; exact h

/-- bordafuse pairs the candidates of a query with the runs' queries by position -/
def Method.borda : Method → Bool
  | .bordafuse | .weightedBordafuse => true
  | _ => false

theorem rescoreThen_local' {π : Type*} (S : ArgSort ℝ) (sched : List Nat) (scheds : Nat → List Nat)
    (f : π → Results δ ℝ → Results δ ℝ) (params : List π)
    (score : Score δ ℝ) (hfn : ∀ p r, NodupKeys (f p r))
    (runs : List (Dict κ (Results δ ℝ))) (hf : Spec.Fusable runs) (hs : Schedule (queryCount runs) sched)
    (hss : ∀ (j : Nat) run, runs[j]? = some run → Schedule run.length (scheds j)) (out : Store κ δ ℝ)
    (c : Prop) [Decidable c] (e : Err)
    (h : (if c then .error e else rescoreThen S sched scheds f params score runs) = .ok out) :
    Localized runs out (zipCombine S f params score) := by
  by_cases hc : c
  · rw [if_pos hc] at h; simp at h
  · rw [if_neg hc] at h
    exact rescoreThen_local S sched scheds f params score hfn runs hf hs hss out h

set_option maxHeartbeats 1000000 in
theorem call_local (E : Env δ) (m : Method) (params : Kwargs) (runs : List (Dict κ (Results δ ℝ)))
    (hf : Spec.Fusable runs) (hE : E.Fits runs)
    (ha : m.borda = true → ∀ run ∈ runs, ∀ run' ∈ runs, run.keys = run'.keys) (out : Store κ δ ℝ)
    (h : m.call E params runs = .ok out) : Localized runs out (perQuery E m params) := by
  unfold Method.call at h
  by_cases hp : params.keys.all (fun k => decide (k ∈ m.parameters)) = true
  swap
  · rw [if_neg hp] at h; simp at h
  rw [if_pos hp] at h
  clear hp
  have hn : ∀ (f : Nat → ℝ → ℝ) (r : Results δ ℝ), NodupKeys (rankLoop f r) :=
    fun f r => nodupKeys_rankLoop f r
  cases m with
  | bayesfuse =>
    obtain ⟨t, ht, h⟩ := bindArg_ok h
    exact localized_bind _ t ht _ (rescoreThen_local _ _ _ _ _ _ (fun p r => hn _ r) runs hf hE.1 hE.2 out h)
  | bordafuse =>
    simp only [bordafuse] at h
    cases hb : bordaRescored E.scheds E.I runs with
    | error e => rw [hb] at h; simp at h
    | ok runs' =>
      rw [hb] at h
      exact borda_local _ _ _ _ _ runs runs' hf (ha rfl) hE.1 hE.2 out hb h
  | combAnz => exact fuseRun_local _ _ _ runs hf hE.1 out h
  | combGmnz =>
    obtain ⟨t, ht, h⟩ := bindArg_ok h
    exact localized_bind _ t ht _ (fuseRun_local _ _ _ runs hf hE.1 out h)
  | combMax => exact fuseRun_local _ _ _ runs hf hE.1 out h
  | combMed => exact fuseRun_local _ _ _ runs hf hE.1 out h
  | combMin => exact fuseRun_local _ _ _ runs hf hE.1 out h
  | combMnz => exact fuseRun_local _ _ _ runs hf hE.1 out h
  | combSum => exact fuseRun_local _ _ _ runs hf hE.1 out h
  | condorcet => exact condorcet_local _ _ _ runs hf out h
  | isr => exact rescoreAll_local _ _ _ _ _ (fun r h => keys_rankLoop _ r h) (fun r => hn _ r) runs hf hE.1 hE.2 out h
  | logIsr => exact rescoreAll_local _ _ _ _ _ (fun r h => keys_rankLoop _ r h) (fun r => hn _ r) runs hf hE.1 hE.2 out h
  | lognIsr =>
    obtain ⟨t, ht, h⟩ := bindArg_ok h
    refine localized_bind _ t ht (fun s rs => sortedCombine E.S (lognMnzScore s) (rs.map isrScore)) ?_
    unfold lognIsr at h
    by_cases hs : 0 ≤ t ∧ t ≤ 1
    · rw [if_pos hs] at h
      exact rescoreAll_local _ _ _ _ _ (fun r h => keys_rankLoop _ r h) (fun r => hn _ r) runs hf hE.1 hE.2 out h
    · rw [if_neg hs] at h; simp at h
  | mapfuse =>
    obtain ⟨t, ht, h⟩ := bindArg_ok h
    exact localized_bind _ t ht _ (rescoreThen_local _ _ _ _ _ _ (fun p r => hn _ r) runs hf hE.1 hE.2 out h)
  | mixed =>
    obtain ⟨t, ht, h⟩ := bindArg_ok h
    exact localized_bind _ t ht _ (fuseRun_local _ _ _ runs hf hE.1 out h)
  | posfuse =>
    obtain ⟨t, ht, h⟩ := bindArg_ok h
    exact localized_bind _ t ht _ (rescoreThen_local _ _ _ _ _ _ (fun p r => hn _ r) runs hf hE.1 hE.2 out h)
  | probfuse =>
    obtain ⟨t, ht, h⟩ := bindArg_ok h
    exact localized_bind _ t ht _ (rescoreThen_local' _ _ _ _ _ _ nodup_probScore runs hf hE.1 hE.2 out _ _ h)
  | rbc =>
    obtain ⟨t, ht, h⟩ := bindArg_ok h
    exact localized_bind _ t ht (fun p rs => sortedCombine E.S sumScore (rs.map (rbcScore p)))
      (rescoreAll_local _ _ _ _ _ (fun r h => keys_rankLoop _ r h) (fun r => hn _ r) runs hf hE.1 hE.2 out h)
  | rrf =>
    obtain ⟨t, ht, h⟩ := bindArg_ok h
    replace h := (rrf_ok E.S E.sched E.scheds h).2
    exact localized_bind _ t ht (fun p rs => sortedCombine E.S sumScore (rs.map (rrfScore p)))
      (rescoreAll_local _ _ _ _ _ (fun r h => keys_rankLoop _ r h) (fun r => hn _ r) runs hf hE.1 hE.2 out h)
  | segfuse =>
    obtain ⟨t, ht, h⟩ := bindArg_ok h
    exact localized_bind _ t ht _ (rescoreThen_local' _ _ _ _ _ _ nodup_segScore runs hf hE.1 hE.2 out _ _ h)
  | slidefuse =>
    obtain ⟨t, ht, h⟩ := bindArg_ok h
    obtain ⟨w, hw, h⟩ := bindArg_ok h
    refine localized_bind _ t ht (fun t rs => bindArg (intArg params "w") fun w =>
      zipCombine E.S (fun p => slideScore p w) t sumScore rs) ?_
    exact localized_bind _ w hw _ (rescoreThen_local _ _ _ _ _ _ (fun p r => hn _ r) runs hf hE.1 hE.2 out h)
  | weightedBordafuse =>
    obtain ⟨t, ht, h⟩ := bindArg_ok h
    refine localized_bind _ t ht (fun ws rs => sortedCombine E.S (wsumScore ws) (bordaQuery E.I rs)) ?_
    simp only [weightedBordafuse] at h
    cases hb : bordaRescored E.scheds E.I runs with
    | error e => rw [hb] at h; simp at h
    | ok runs' =>
      rw [hb] at h
      exact borda_local _ _ _ _ _ runs runs' hf (ha rfl) hE.1 hE.2 out hb h
  | weightedCondorcet =>
    obtain ⟨t, ht, h⟩ := bindArg_ok h
    refine localized_bind _ t ht (fun ws rs => condorcetOne E.C E.I (compareWeighted ws) rs) ?_
    unfold weightedCondorcet at h
    cases hg : getCandidates E.I runs with
    | error e => rw [hg] at h; simp at h
    | ok cands =>
      rw [hg] at h
      simp only at h
      by_cases hc : t.length < runs.length ∧ cands.any (fun c => decide (2 ≤ c.length)) = true
      · rw [if_pos hc] at h; simp at h
      · rw [if_neg hc] at h
        exact condorcet_local _ _ _ runs hf out h
  | wmnz =>
    obtain ⟨t, ht, h⟩ := bindArg_ok h
    exact localized_bind _ t ht _ (fuseRun_local _ _ _ runs hf hE.1 out h)
  | wsum =>
    obtain ⟨t, ht, h⟩ := bindArg_ok h
    exact localized_bind _ t ht _ (fuseRun_local _ _ _ runs hf hE.1 out h)

end
end Ranx.Fuse
