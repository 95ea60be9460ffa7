import Verif.Props.FuseEnd

/-!
# C136: the scale of the scores does not matter to fusion

With a normalization, multiplying the scores of a run by a positive number and adding a constant, differently for every
run and query, does not change what `fuse` returns.  Rank and borda normalization, and the methods that look at ranks
only, do not look at the scores at all.
-/

set_option linter.unusedSectionVars false

namespace Ranx
open Dict Store Fuse
open Norm (Results normRun normParallel minMaxInverted bordaRuns getCandidates Kind normSwitch eps normLoop extractScores
  safeMin safeMax toRun SetIter bordaParallel bordaNorm)

variable {κ δ : Type*} [LinearOrder κ] [DecidableEq δ]

/-! ## Specification -/

/-- when the normalization with this name treats scores `l` and `a·x + b` for `x` in `l` alike: the scores are all equal,
or they are further apart than the `1e-9` that guards the division -/
inductive Spec.ScaleFree (l : List ℝ) (a b : ℝ) : String → Prop
  | flat (n : String) : n ∈ ["min-max", "min_max", "min-max-inverted", "min_max_inverted", "sum", "zmuv"] →
      (∀ x ∈ l, ∀ y ∈ l, x = y) → Spec.ScaleFree l a b n
  | spread (n : String) (x y : ℝ) : n ∈ ["min-max", "min_max", "min-max-inverted", "min_max_inverted"] → x ∈ l → y ∈ l →
      1 / 10 ^ 9 ≤ x - y → 1 / 10 ^ 9 ≤ a * (x - y) → Spec.ScaleFree l a b n
  | sum (worst : ℝ) : worst ∈ l → (∀ x ∈ l, worst ≤ x) → 1 / 10 ^ 9 ≤ (l.map (fun x => x - worst)).sum →
      1 / 10 ^ 9 ≤ a * (l.map (fun x => x - worst)).sum → Spec.ScaleFree l a b "sum"
  | zmuv : 1 / 10 ^ 9 ≤ Real.sqrt (Spec.variance l) → 1 / 10 ^ 9 ≤ a * Real.sqrt (Spec.variance l) →
      Spec.ScaleFree l a b "zmuv"
  | max (best : ℝ) : b = 0 → best ∈ l → (∀ x ∈ l, x ≤ best) → 1 / 10 ^ 9 ≤ best → 1 / 10 ^ 9 ≤ a * best →
      Spec.ScaleFree l a b "max"

/-- `s'` is `s` with the scores of each query multiplied by a positive number and shifted, as the normalization allows -/
def Spec.Rescaled (n : String) (s s' : Store κ δ ℝ) : Prop :=
  List.Forall₂ (fun p p' => p.1 = p'.1 ∧ ∃ a b : ℝ, 0 < a ∧ p'.2 = p.2.map (fun e => (e.1, a * e.2 + b)) ∧
    Spec.ScaleFree (p.2.map (fun e => e.2)) a b n) s.data s'.data

/-- the same queries with the same docs, listed in the same order; the scores may be any -/
def Spec.SameListing (s s' : Store κ δ ℝ) : Prop :=
  s.data.map (fun p => (p.1, p.2.map (fun e => e.1))) = s'.data.map (fun p => (p.1, p.2.map (fun e => e.1)))

/-- the methods that look at ranks only -/
def Spec.rankMethods : List String :=
  ["bayesfuse", "bordafuse", "condorcet", "isr", "log_isr", "logn_isr", "mapfuse", "posfuse", "probfuse", "rbc", "rrf",
   "slidefuse", "w_bordafuse", "w_condorcet"]

/-- the normalizations that keep the docs of a run in their order, and no normalization -/
def Spec.keepingNorms : List (Option String) :=
  [none, some "max", some "min_max", some "min-max", some "rank", some "sum", some "zmuv"]

/-! ## Proofs -/

theorem forall₂_get? {ν μ : Type*} {R : ν → μ → Prop} {d : Dict κ ν} {d' : Dict κ μ}
    (h : List.Forall₂ (fun p p' => p.1 = p'.1 ∧ R p.2 p'.2) d d') :
    d.keys = d'.keys ∧ ∀ q, (d.get? q = none ∧ d'.get? q = none) ∨
      ∃ x y, d.get? q = some x ∧ d'.get? q = some y ∧ R x y := by
  induction h with
  | nil => exact ⟨rfl, fun q => .inl ⟨rfl, rfl⟩⟩
  | @cons p p' l l' hp _ ih =>
    obtain ⟨k, x⟩ := p
    obtain ⟨k', y⟩ := p'
    obtain ⟨rfl, hp⟩ := hp
    refine ⟨congrArg (List.cons k) ih.1, fun q => ?_⟩
    rw [get?_cons, get?_cons]
    by_cases hk : k = q
    · rw [if_pos hk, if_pos hk]
      exact .inr ⟨x, y, rfl, rfl, hp⟩
    · rw [if_neg hk, if_neg hk]
      exact ih.2 q

theorem normParallel_congr (f g : Results δ ℝ → Results δ ℝ) (sched : List Nat) {d d' : Dict κ (Results δ ℝ)}
    (h : List.Forall₂ (fun p p' => p.1 = p'.1 ∧ f p.2 = g p'.2) d d') (hnil : f [] = g []) :
    normParallel f sched d = normParallel g sched d' := by
  obtain ⟨h1, h2⟩ := forall₂_get? (R := fun r r' => f r = g r') h
  unfold normParallel
  simp only
  rw [h1]
  congr 2
  funext i
  cases d'.keys[i]? with
  | none => exact hnil
  | some q =>
    simp only [Option.bind_some]
    rcases h2 q with ⟨e1, e2⟩ | ⟨x, y, e1, e2, e3⟩
    · rw [e1, e2]; exact hnil
    · rw [e1, e2]; exact e3

theorem sameKeys_congr {a a' b b' : Store κ δ ℝ} (ha : a.data.keys = a'.data.keys) (hb : b.data.keys = b'.data.keys) :
    sameKeys a b = sameKeys a' b' := by
  rw [Bool.eq_iff_iff]
  unfold sameKeys
  simp only [Bool.and_eq_true, List.all_eq_true, contains_iff, ha, hb]

theorem pairwise_congr {runs runs' : List (Store κ δ ℝ)}
    (h : List.Forall₂ (fun s s' => s.data.keys = s'.data.keys) runs runs') :
    pairwiseSameKeys runs = pairwiseSameKeys runs' := by
  induction h with
  | nil => rfl
  | @cons a a' t t' ha ht ih =>
    unfold pairwiseSameKeys
    rw [ih]
    congr 1
    clear ih
    induction ht with
    | nil => rfl
    | cons hb _ ih => rw [List.all_cons, List.all_cons, ih, sameKeys_congr ha hb]

theorem fuse_congr (E : Env δ) {runs runs' : List (Store κ δ ℝ)} {norm norm' : Option String} (method : String)
    (params : Option Kwargs) (h : List.Forall₂ (fun s s' => s.data.keys = s'.data.keys) runs runs')
    {nr nr' : List (Dict κ (Results δ ℝ))} (h1 : normalizeRuns E norm runs = .ok nr)
    (h2 : normalizeRuns E norm' runs' = .ok nr')
    (hc : ∀ m, fusionSwitch method = .ok m → m.call E (params.getD []) nr = m.call E (params.getD []) nr') :
    fuse E runs norm method params = fuse E runs' norm' method params := by
  unfold fuse
  rw [h.length_eq, pairwise_congr h, h1, h2]
  simp only
  cases hm : fusionSwitch method with
  | error e => rfl
  | ok m => simp only; rw [hc m hm]

theorem fuse_of_norm (E : Env δ) {runs runs' : List (Store κ δ ℝ)} {norm norm' : Option String} (method : String)
    (params : Option Kwargs) (h : List.Forall₂ (fun s s' => s.data.keys = s'.data.keys) runs runs')
    (hc : normalizeRuns E norm runs = normalizeRuns E norm' runs') :
    fuse E runs norm method params = fuse E runs' norm' method params := by
  unfold fuse
  rw [h.length_eq, pairwise_congr h, hc]

/-! ### affine changes -/

theorem flat_value {l : List ℝ} (h : ∀ x ∈ l, ∀ y ∈ l, x = y) {x : ℝ} (hx : x ∈ l) :
    safeMin l = x ∧ safeMax l = x ∧ Spec.mean l = x := by
  refine ⟨Norm.safeMin_eq_of hx (fun y hy => (h x hx y hy).le), Norm.safeMax_eq_of hx (fun y hy => (h y hy x hx).le), ?_⟩
  have e : l = List.replicate l.length x := List.eq_replicate_iff.2 ⟨rfl, fun y hy => h y hy x hx⟩
  have hne : (l.length : ℝ) ≠ 0 := by
    have := List.length_pos_of_mem hx
    exact_mod_cast this.ne'
  unfold Spec.mean
  rw [e, List.sum_replicate, List.length_replicate, nsmul_eq_mul, mul_div_cancel_left₀ _ hne]

theorem flat_affine {l : List ℝ} (h : ∀ x ∈ l, ∀ y ∈ l, x = y) (a b : ℝ) :
    ∀ x ∈ l.map (fun s => a * s + b), ∀ y ∈ l.map (fun s => a * s + b), x = y := by
  intro x hx y hy
  obtain ⟨x', hx', rfl⟩ := List.mem_map.1 hx
  obtain ⟨y', hy', rfl⟩ := List.mem_map.1 hy
  rw [h x' hx' y' hy']

theorem scaleFree_norm (r : Results δ ℝ) (hr : NodupKeys r) (a b : ℝ) (ha : 0 < a) (n : String)
    (h : Spec.ScaleFree r.values a b n) :
    (n ∈ ["min-max", "min_max", "min-max-inverted", "min_max_inverted"] →
      ∀ i, Norm.minMax i (affine a b r) = Norm.minMax i r) ∧
    (n = "sum" → Norm.sumNorm (affine a b r) = Norm.sumNorm r) ∧
    (n = "zmuv" → Norm.zmuv (affine a b r) = Norm.zmuv r) ∧
    (n = "max" → Norm.maxNorm (affine a b r) = Norm.maxNorm r) := by
  have flat : (∀ x ∈ r.values, ∀ y ∈ r.values, x = y) → (∀ i, Norm.minMax i (affine a b r) = Norm.minMax i r) ∧
      Norm.sumNorm (affine a b r) = Norm.sumNorm r ∧ Norm.zmuv (affine a b r) = Norm.zmuv r := by
    intro hf
    have hf' := flat_affine hf a b
    refine ⟨fun i => ?_, ?_, ?_⟩
    · unfold Norm.minMax extractScores
      simp only [affine_values]
      refine normLoop_affine a b r hr _ _ (fun s hs => ?_)
      obtain ⟨e1, e2, -⟩ := flat_value hf hs
      obtain ⟨e3, e4, -⟩ := flat_value hf' (List.mem_map.2 ⟨s, hs, rfl⟩)
      rw [e1, e2, e3, e4]
      simp
    · unfold Norm.sumNorm extractScores
      simp only [affine_values]
      refine normLoop_affine a b r hr _ _ (fun s hs => ?_)
      obtain ⟨e1, -, -⟩ := flat_value hf hs
      obtain ⟨e3, -, -⟩ := flat_value hf' (List.mem_map.2 ⟨s, hs, rfl⟩)
      rw [e1, e3]
      simp
    · rw [zmuv_eq, zmuv_eq]
      refine normLoop_affine a b r hr _ _ (fun s hs => ?_)
      obtain ⟨-, -, e1⟩ := flat_value hf hs
      obtain ⟨-, -, e3⟩ := flat_value hf' (List.mem_map.2 ⟨s, hs, rfl⟩)
      rw [affine_values, e1, e3]
      simp
  cases h with
  | flat _ _ hf =>
    obtain ⟨h1, h2, h3⟩ := flat hf
    refine ⟨fun _ => h1, fun _ => h2, fun _ => h3, fun e => ?_⟩
    rename_i hn
    rw [e] at hn
    exact absurd hn (by decide)
  | spread _ x y hn hx hy h1 h2 =>
    obtain ⟨d, hd⟩ := Norm.of_mem_values hr hx
    obtain ⟨e, he⟩ := Norm.of_mem_values hr hy
    refine ⟨fun _ => (C46_affine r hr a b ha).1 ⟨d, e, x, y, hd, he, h1, h2⟩, ?_, ?_, ?_⟩ <;>
    · rintro rfl
      exact absurd hn (by decide)
  | sum worst hm hall h1 h2 =>
    obtain ⟨d, hd⟩ := Norm.of_mem_values hr hm
    refine ⟨fun hn => absurd hn (by decide), fun _ => ?_, fun e => absurd e (by decide), fun e => absurd e (by decide)⟩
    exact (C46_affine r hr a b ha).2 d worst hd (fun x v hv => hall v (Norm.mem_values hv)) h1 h2
  | zmuv h1 h2 =>
    refine ⟨fun hn => absurd hn (by decide), fun e => absurd e (by decide), fun _ => ?_, fun e => absurd e (by decide)⟩
    exact C46_affine_zmuv r hr a b ha h1 h2
  | max best hb hm hall h1 h2 =>
    refine ⟨fun hn => absurd hn (by decide), fun e => absurd e (by decide), fun e => absurd e (by decide), fun _ => ?_⟩
    subst hb
    unfold Norm.maxNorm extractScores
    simp only [affine_values]
    refine normLoop_affine a 0 r hr _ _ (fun s hs => ?_)
    rw [Norm.safeMax_eq_of hm hall, Norm.safeMax_eq_of (m := a * best + 0) (List.mem_map.2 ⟨best, hm, rfl⟩) (fun y hy => by
      obtain ⟨z, hz, rfl⟩ := List.mem_map.1 hy
      have := mul_le_mul_of_nonneg_left (hall z hz) ha.le
      linarith), add_zero, add_zero, max_eq_left (show eps ≤ best from h1), max_eq_left (show eps ≤ a * best from h2),
      mul_div_mul_left _ _ ha.ne']

theorem Spec.ScaleFree.name {l : List ℝ} {a b : ℝ} {n : String} (h : Spec.ScaleFree l a b n) :
    n ∈ ["min-max", "min_max", "min-max-inverted", "min_max_inverted", "sum", "zmuv", "max"] := by
  cases h with
  | flat _ h _ =>
    simp only [List.mem_cons, List.not_mem_nil, or_false] at h ⊢
    tauto
  | spread _ _ _ h _ _ _ _ =>
    simp only [List.mem_cons, List.not_mem_nil, or_false] at h ⊢
    tauto
  | sum => decide
  | zmuv => decide
  | max => decide

theorem normOne_congr (E : Env δ) (j : Nat) (n : String) (k : Kind) (hk : (n, k) ∈ Spec.normNames)
    (hn : n ∈ ["min-max", "min_max", "min-max-inverted", "min_max_inverted", "sum", "zmuv", "max"])
    {s s' : Store κ δ ℝ} (hw : Store.Wf s.data) (h : Spec.Rescaled n s s') :
    (normOne E k j s).data = (normOne E k j s').data := by
  have hrel : ∀ f : Results δ ℝ → Results δ ℝ, (∀ r a b, NodupKeys r → 0 < a → Spec.ScaleFree r.values a b n →
      f (affine a b r) = f r) → normParallel f (E.normScheds j) s.data = normParallel f (E.normScheds j) s'.data := by
    intro f hf
    refine normParallel_congr f f _ ?_ rfl
    unfold Spec.Rescaled at h
    have hw2 := hw.2
    revert hw2
    generalize s.data = d at h
    generalize s'.data = d' at h
    intro hw2
    induction h with
    | nil => exact .nil
    | cons hp _ ih =>
      refine .cons ⟨hp.1, ?_⟩ (ih (fun p hp => hw2 p (List.mem_cons_of_mem _ hp)))
      obtain ⟨a, b, ha, e, hs⟩ := hp.2
      rw [e]
      exact (hf _ a b (hw2 _ List.mem_cons_self) ha hs).symm
  unfold Spec.normNames at hk
  simp only [List.mem_cons, Prod.mk.injEq, List.not_mem_nil, or_false] at hk
  rcases hk with ⟨rfl, rfl⟩ | ⟨rfl, rfl⟩ | ⟨rfl, rfl⟩ | ⟨rfl, rfl⟩ | ⟨rfl, rfl⟩ | ⟨rfl, rfl⟩ | ⟨rfl, rfl⟩ | ⟨rfl, rfl⟩ |
    ⟨rfl, rfl⟩
  · exact absurd hn (by decide)
  · exact hrel _ (fun r a b hr ha hs => (scaleFree_norm r hr a b ha _ hs).2.2.2 rfl)
  · exact hrel _ (fun r a b hr ha hs => (scaleFree_norm r hr a b ha _ hs).1 (by decide) _)
  · exact hrel _ (fun r a b hr ha hs => (scaleFree_norm r hr a b ha _ hs).1 (by decide) _)
  · show sortAll E.S (normParallel _ _ _) = sortAll E.S (normParallel _ _ _)
    rw [hrel _ (fun r a b hr ha hs => (scaleFree_norm r hr a b ha _ hs).1 (by decide) _)]
  · show sortAll E.S (normParallel _ _ _) = sortAll E.S (normParallel _ _ _)
    rw [hrel _ (fun r a b hr ha hs => (scaleFree_norm r hr a b ha _ hs).1 (by decide) _)]
  · exact absurd hn (by decide)
  · exact hrel _ (fun r a b hr ha hs => (scaleFree_norm r hr a b ha _ hs).2.1 rfl)
  · exact hrel _ (fun r a b hr ha hs => (scaleFree_norm r hr a b ha _ hs).2.2.1 rfl)

theorem Spec.Rescaled.keys {n : String} {s s' : Store κ δ ℝ} (h : Spec.Rescaled n s s') : s.data.keys = s'.data.keys :=
  (forall₂_get? (R := fun r r' : Results δ ℝ => ∃ a b : ℝ, 0 < a ∧ r' = r.map (fun e : δ × ℝ => (e.1, a * e.2 + b)) ∧
    Spec.ScaleFree (r.map (fun e : δ × ℝ => e.2)) a b n) h).1

theorem normalizeRuns_rescaled (E : Env δ) {runs runs' : List (Store κ δ ℝ)} (hw : ∀ s ∈ runs, Store.Wf s.data) {n : String}
    (hn : n ∈ ["min-max", "min_max", "min-max-inverted", "min_max_inverted", "sum", "zmuv", "max"])
    (h : List.Forall₂ (Spec.Rescaled n) runs runs') :
    normalizeRuns E (some n) runs = normalizeRuns E (some n) runs' := by
  have hnb : n ≠ "borda" := by
    rintro rfl
    exact absurd hn (by decide)
  unfold normalizeRuns
  simp only
  rw [if_pos hnb, if_pos hnb]
  rcases normSwitch_cases n with ⟨k, hk, e⟩ | ⟨-, e⟩
  · rw [e]
    simp only [Except.ok.injEq]
    have main : ∀ i, (runs.zipIdx i).map (fun rj => (normOne E k rj.2 rj.1).data) =
        (runs'.zipIdx i).map (fun rj => (normOne E k rj.2 rj.1).data) := by
      induction h with
      | nil => intro i; rfl
      | cons hp _ ih =>
        intro i
        rw [List.zipIdx_cons, List.zipIdx_cons, List.map_cons, List.map_cons,
          ih (fun s hs => hw s (List.mem_cons_of_mem _ hs))]
        rw [normOne_congr E i n k hk hn (hw _ List.mem_cons_self) hp]
    exact main 0
  · rw [e]

/-- **C136** (scale): rescaling and shifting the scores of each run and query, as the normalization allows, changes nothing
in what `fuse` does, with any method and parameters. -/
theorem C136_rescaled (E : Env δ) (runs runs' : List (Store κ δ ℝ)) (hw : ∀ s ∈ runs, Store.Wf s.data) (n : String)
    (hn : n ∈ ["min-max", "min_max", "min-max-inverted", "min_max_inverted", "sum", "zmuv", "max"])
    (h : List.Forall₂ (Spec.Rescaled n) runs runs') (method : String) (params : Option Kwargs) :
    fuse E runs' (some n) method params = fuse E runs (some n) method params := by
  symm
  refine fuse_of_norm E method params (h.imp (fun _ _ h => h.keys)) (normalizeRuns_rescaled E hw hn h)

/-! ### listings -/

/-- the same listing of dictionaries -/
def SameDocs (d d' : Dict κ (Results δ ℝ)) : Prop :=
  List.Forall₂ (fun p p' => p.1 = p'.1 ∧ p.2.keys = p'.2.keys) d d'

theorem sameListing_iff {s s' : Store κ δ ℝ} : Spec.SameListing s s' ↔ SameDocs s.data s'.data := by
  unfold Spec.SameListing SameDocs
  rw [← List.forall₂_eq_eq_eq, List.forall₂_map_left_iff, List.forall₂_map_right_iff]
  constructor
  · intro h
    exact h.imp (fun p p' hp => Prod.mk.inj hp)
  · intro h
    exact h.imp (fun p p' hp => Prod.ext hp.1 hp.2)

theorem length_of_keys {r r' : Results δ ℝ} (h : r.keys = r'.keys) : r.length = r'.length := by
  have := congrArg List.length h
  simpa [Dict.keys] using this

theorem SameDocs.parallel {f : Results δ ℝ → Results δ ℝ} (hf : ∀ r r' : Results δ ℝ, r.keys = r'.keys → f r = f r')
    (sched : List Nat) {d d' : Dict κ (Results δ ℝ)} (h : SameDocs d d') :
    normParallel f sched d = normParallel f sched d' :=
  normParallel_congr f f sched (h.imp (fun _ _ hp => ⟨hp.1, hf _ _ hp.2⟩)) rfl

theorem sameDocs_get {d d' : Dict κ (Results δ ℝ)} (h : SameDocs d d') (q : κ) :
    Dict.keys ((d.get? q).getD []) = Dict.keys ((d'.get? q).getD []) := by
  rcases (forall₂_get? (R := fun r r' : Results δ ℝ => r.keys = r'.keys) h).2 q with ⟨e1, e2⟩ | ⟨x, y, e1, e2, e3⟩
  · rw [e1, e2]
  · rw [e1, e2]; exact e3

theorem SameDocs.keys {d d' : Dict κ (Results δ ℝ)} (h : SameDocs d d') : d.keys = d'.keys :=
  (forall₂_get? (R := fun r r' : Results δ ℝ => r.keys = r'.keys) h).1

theorem SameDocs.length {d d' : Dict κ (Results δ ℝ)} (h : SameDocs d d') : d.length = d'.length :=
  List.Forall₂.length_eq h

variable {runs runs' : List (Dict κ (Results δ ℝ))}

theorem covered_congr (h : List.Forall₂ SameDocs runs runs') (l : List κ) :
    runs.all (fun run => l.all (fun q => run.contains q)) = runs'.all (fun run => l.all (fun q => run.contains q)) := by
  induction h with
  | nil => rfl
  | @cons a a' _ _ hp _ ih =>
    rw [List.all_cons, List.all_cons, ih]
    congr 1
    rw [Bool.eq_iff_iff]
    simp only [List.all_eq_true, contains_iff, hp.keys]

theorem getCandidates_congr (I : SetIter δ) (h : List.Forall₂ SameDocs runs runs') :
    getCandidates I runs = getCandidates I runs' := by
  have hall := covered_congr h
  have hdocs : ∀ q, runs.flatMap (fun run => Dict.keys ((run.get? q).getD [])) =
      runs'.flatMap (fun run => Dict.keys ((run.get? q).getD [])) := by
    intro q
    clear hall
    induction h with
    | nil => rfl
    | cons hp _ ih => rw [List.flatMap_cons, List.flatMap_cons, ih, sameDocs_get hp q]
  unfold getCandidates
  cases h with
  | nil => rfl
  | cons hp _ =>
    simp only
    rw [hp.keys, hall]
    congr 2
    refine List.map_congr_left (fun q _ => ?_)
    rw [hdocs q]

theorem any_length_congr (n : Nat) (h : List.Forall₂ SameDocs runs runs') :
    runs.any (fun run => decide (n < run.length)) = runs'.any (fun run => decide (n < run.length)) := by
  induction h with
  | nil => rfl
  | cons hp _ ih => rw [List.any_cons, List.any_cons, ih, hp.length]

theorem zipIdx_map_congr {β : Type*} (F G : Dict κ (Results δ ℝ) × Nat → β) (h : List.Forall₂ SameDocs runs runs')
    (hF : ∀ d d' i, SameDocs d d' → F (d, i) = G (d', i)) (i : Nat) :
    (runs.zipIdx i).map F = (runs'.zipIdx i).map G := by
  induction h generalizing i with
  | nil => rfl
  | cons hp _ ih => rw [List.zipIdx_cons, List.zipIdx_cons, List.map_cons, List.map_cons, ih, hF _ _ i hp]

theorem slots_congr (f : Results δ ℝ → List δ → Results δ ℝ) (hf : ∀ r r' c, r.keys = r'.keys → f r c = f r' c)
    (sched : List Nat) (cand : List (List δ)) {d d' : Dict κ (Results δ ℝ)} (h : SameDocs d d') :
    toRun d.keys (prange (List.replicate d.keys.length []) (fun i =>
      f ((d.keys[i]?.bind d.get?).getD []) ((cand[i]?).getD [])) sched) =
    toRun d'.keys (prange (List.replicate d'.keys.length []) (fun i =>
      f ((d'.keys[i]?.bind d'.get?).getD []) ((cand[i]?).getD [])) sched) := by
  rw [h.keys]
  congr 2
  funext i
  apply hf
  cases d'.keys[i]? with
  | none => rfl
  | some q => exact sameDocs_get h q

theorem bordaRuns_congr (I : SetIter δ) (scheds : Nat → List Nat) (h : List.Forall₂ SameDocs runs runs') :
    bordaRuns I scheds runs = bordaRuns I scheds runs' := by
  unfold bordaRuns
  rw [getCandidates_congr I h]
  cases getCandidates I runs' with
  | error e => rfl
  | ok c =>
    simp only
    rw [any_length_congr c.length h]
    congr 2
    refine zipIdx_map_congr _ _ h (fun d d' i hd => ?_) 0
    refine slots_congr bordaNorm ?_ _ _ hd
    intro r r' c hr
    unfold bordaNorm
    simp only
    rw [hr, length_of_keys hr]
    congr 1
    refine List.map_congr_left (fun x _ => ?_)
    have e : r.contains x = r'.contains x := by
      rw [Bool.eq_iff_iff, contains_iff, contains_iff, hr]
    rw [e]

theorem normalizeRuns_listing (E : Env δ) {runs runs' : List (Store κ δ ℝ)} (h : List.Forall₂ Spec.SameListing runs runs')
    (n : String) (hn : n = "rank" ∨ n = "borda") : normalizeRuns E (some n) runs = normalizeRuns E (some n) runs' := by
  have h' : List.Forall₂ SameDocs (runs.map (fun s => s.data)) (runs'.map (fun s => s.data)) := by
    rw [List.forall₂_map_left_iff, List.forall₂_map_right_iff]
    exact h.imp (fun _ _ hp => sameListing_iff.1 hp)
  unfold normalizeRuns
  simp only
  rcases hn with rfl | rfl
  · rw [if_pos (by decide), if_pos (by decide)]
    have e : normSwitch "rank" = .ok .rank := by decide +kernel
    rw [e]
    simp only [Except.ok.injEq]
    have := zipIdx_map_congr (fun rj => normParallel Norm.rankNorm (E.normScheds rj.2) rj.1)
      (fun rj => normParallel Norm.rankNorm (E.normScheds rj.2) rj.1) h'
      (fun d d' i hd => hd.parallel (C45_only_order) (E.normScheds i)) 0
    rw [List.zipIdx_map, List.zipIdx_map, List.map_map, List.map_map] at this
    exact this
  · rw [if_neg (by decide), if_neg (by decide)]
    exact bordaRuns_congr E.I E.normScheds h'

/-- **C136** (rank and borda): with these normalizations the scores do not matter, only the order in which the docs are
listed, whatever the method and parameters. -/
theorem C136_rank_norms (E : Env δ) (runs runs' : List (Store κ δ ℝ)) (h : List.Forall₂ Spec.SameListing runs runs')
    (n : String) (hn : n = "rank" ∨ n = "borda") (method : String) (params : Option Kwargs) :
    fuse E runs' (some n) method params = fuse E runs (some n) method params := by
  symm
  refine fuse_of_norm E method params (h.imp (fun _ _ h => (sameListing_iff.1 h).keys)) (normalizeRuns_listing E h n hn)

/-! ### methods that look at ranks only -/

theorem rankLoop_congr (f : Nat → ℝ) {r r' : Results δ ℝ} (h : r.keys = r'.keys) :
    rankLoop (fun i _ => f i) r = rankLoop (fun i _ => f i) r' := by
  unfold rankLoop
  have e : ∀ x : Results δ ℝ, x.zipIdx.map (fun pi => (pi.1.1, f pi.2)) = x.keys.zipIdx.map (fun di => (di.1, f di.2)) := by
    intro x
    unfold Dict.keys
    rw [List.zipIdx_map, List.map_map]
    rfl
  rw [e, e, h]

theorem rescoreAll_congr {f : Results δ ℝ → Results δ ℝ} (hf : ∀ r r' : Results δ ℝ, r.keys = r'.keys → f r = f r')
    (scheds : Nat → List Nat) (h : List.Forall₂ SameDocs runs runs') :
    rescoreAll f scheds runs = rescoreAll f scheds runs' :=
  zipIdx_map_congr _ _ h (fun d d' i hd => hd.parallel hf (scheds i)) 0

theorem rankZero_congr (k : ℝ) (h : List.Forall₂ SameDocs runs runs') : rankZero k runs = rankZero k runs' := by
  unfold rankZero
  induction h with
  | nil => rfl
  | cons hd _ ih =>
    rw [List.any_cons, List.any_cons, ih]
    congr 1
    unfold SameDocs at hd
    induction hd with
    | nil => rfl
    | cons he _ ih' =>
      rw [List.any_cons, List.any_cons, ih', length_of_keys he.2]

theorem rescoreThen_congr {π : Type*} {f : π → Results δ ℝ → Results δ ℝ}
    (hf : ∀ p (r r' : Results δ ℝ), r.keys = r'.keys → f p r = f p r') (S : ArgSort ℝ) (sched : List Nat)
    (scheds : Nat → List Nat) (params : List π) (score : Score δ ℝ) (h : List.Forall₂ SameDocs runs runs') :
    rescoreThen S sched scheds f params score runs = rescoreThen S sched scheds f params score runs' := by
  have : rescoreWith f params scheds runs = rescoreWith f params scheds runs' := by
    unfold rescoreWith
    congr 1
    refine zipIdx_map_congr _ _ h (fun d d' i hd => ?_) 0
    simp only
    cases params[i]? with
    | none => rfl
    | some p => simp only; rw [hd.parallel (hf p) (scheds i)]
  unfold rescoreThen
  rw [this]

theorem bordaRescored_congr (scheds : Nat → List Nat) (I : SetIter δ) (h : List.Forall₂ SameDocs runs runs') :
    bordaRescored scheds I runs = bordaRescored scheds I runs' := by
  unfold bordaRescored
  rw [getCandidates_congr I h]
  cases getCandidates I runs' with
  | error e => rfl
  | ok c =>
    simp only
    rw [any_length_congr c.length h]
    congr 2
    refine zipIdx_map_congr _ _ h (fun d d' i hd => ?_) 0
    refine slots_congr bordaScore ?_ _ _ hd
    intro r r' c hr
    unfold bordaScore
    simp only
    rw [hr]

theorem condorcetWith_congr (C : CmpSort) (I : SetIter δ) (lt : List (List Nat) → Nat → Nat → Bool)
    (h : List.Forall₂ SameDocs runs runs') : condorcetWith C I lt runs = condorcetWith C I lt runs' := by
  have hres : getResults runs = getResults runs' := by
    have hall := covered_congr h
    have hdocs : ∀ q, runs.map (fun run => Dict.keys ((run.get? q).getD [])) =
        runs'.map (fun run => Dict.keys ((run.get? q).getD [])) := by
      intro q
      clear hall
      induction h with
      | nil => rfl
      | cons hp _ ih => rw [List.map_cons, List.map_cons, ih, sameDocs_get hp q]
    unfold getResults
    cases h with
    | nil => rfl
    | cons hp _ =>
      simp only
      rw [hp.keys, hall]
      congr 2
      refine List.map_congr_left (fun q _ => ?_)
      rw [hdocs q]
  have hk : Dict.keys ((runs[0]?).getD []) = Dict.keys ((runs'[0]?).getD []) := by
    cases h with
    | nil => rfl
    | cons hp _ => exact hp.keys
  unfold condorcetWith
  rw [hres, getCandidates_congr I h, hk]

theorem call_congr (E : Env δ) (m : Method) (params : Kwargs) (name : String) (hn : name ∈ Spec.rankMethods)
    (hm : fusionSwitch name = .ok m) (h : List.Forall₂ SameDocs runs runs') :
    m.call E params runs = m.call E params runs' := by
  have hiff : m ∈ [Method.bayesfuse, .bordafuse, .condorcet, .isr, .logIsr, .lognIsr, .mapfuse, .posfuse, .probfuse, .rbc,
      .rrf, .slidefuse, .weightedBordafuse, .weightedCondorcet] := by
    have all : ∀ n ∈ Spec.rankMethods, ∃ m ∈ [Method.bayesfuse, .bordafuse, .condorcet, .isr, .logIsr, .lognIsr, .mapfuse,
        .posfuse, .probfuse, .rbc, .rrf, .slidefuse, .weightedBordafuse, .weightedCondorcet],
        fusionSwitch n = .ok m := by decide +kernel
    obtain ⟨m', h1, h2⟩ := all name hn
    rw [hm] at h2
    cases h2
    exact h1
  clear hm hn
  have isrC : ∀ r r' : Results δ ℝ, r.keys = r'.keys → isrScore r = isrScore r' := fun r r' hr => rankLoop_congr _ hr
  unfold Method.call
  by_cases hp : params.keys.all (fun k => decide (k ∈ m.parameters)) = true
  · rw [if_pos hp, if_pos hp]
    clear hp
    simp only [List.mem_cons, List.not_mem_nil, or_false] at hiff
    rcases hiff with rfl | rfl | rfl | rfl | rfl | rfl | rfl | rfl | rfl | rfl | rfl | rfl | rfl | rfl <;> simp only
    · congr 1
      funext t
      exact rescoreThen_congr (fun p r r' hr => rankLoop_congr _ hr) _ _ _ _ _ h
    · unfold bordafuse
      rw [bordaRescored_congr _ _ h]
    · exact condorcetWith_congr _ _ _ h
    · unfold isr
      rw [rescoreAll_congr isrC _ h]
    · unfold logIsr
      rw [rescoreAll_congr isrC _ h]
    · congr 1
      funext t
      unfold lognIsr
      rw [rescoreAll_congr isrC _ h]
    · congr 1
      funext t
      exact rescoreThen_congr (fun p r r' hr => rankLoop_congr _ hr) _ _ _ _ _ h
    · congr 1
      funext t
      exact rescoreThen_congr (fun p r r' hr => rankLoop_congr _ hr) _ _ _ _ _ h
    · congr 1
      funext t
      unfold probfuse
      rw [h.length_eq, rescoreThen_congr (fun p r r' hr => ?_) _ _ _ _ _ h]
      unfold probScore
      simp only
      rw [length_of_keys hr]
      exact rankLoop_congr _ hr
    · congr 1
      funext t
      unfold rbc
      rw [rescoreAll_congr (fun r r' hr => rankLoop_congr _ hr) _ h]
    · congr 1
      funext t
      unfold rrf
      rw [rankZero_congr t h, rescoreAll_congr (fun r r' hr => rankLoop_congr _ hr) _ h]
    · congr 1
      funext t
      congr 1
      funext w
      refine rescoreThen_congr (fun p r r' hr => ?_) _ _ _ _ _ h
      unfold slideScore
      simp only
      rw [length_of_keys hr]
      exact rankLoop_congr _ hr
    · congr 1
      funext t
      unfold weightedBordafuse
      rw [bordaRescored_congr _ _ h]
    · congr 1
      funext t
      unfold weightedCondorcet
      rw [getCandidates_congr _ h, h.length_eq, condorcetWith_congr _ _ _ h]
  · rw [if_neg hp, if_neg hp]

theorem keeps_docs (E : Env δ) (stores : List (Store κ δ ℝ)) (hw : ∀ s ∈ stores, Store.Wf s.data)
    (hE : ∀ (j : Nat) s, stores[j]? = some s → Schedule s.data.length (E.normScheds j)) (norm : Option String)
    (hn : norm ∈ Spec.keepingNorms) :
    ∃ nr, normalizeRuns E norm stores = .ok nr ∧ List.Forall₂ SameDocs (stores.map (fun s => s.data)) nr := by
  have refl : ∀ d : Dict κ (Results δ ℝ), SameDocs d d := fun d => List.forall₂_same.2 (fun _ _ => ⟨rfl, rfl⟩)
  have main : ∀ (n : String) (k : Kind) (f : Results δ ℝ → Results δ ℝ), n ≠ "borda" → normSwitch n = .ok k →
      (∀ j (s : Store κ δ ℝ), normOne E k j s = normRun f (E.normScheds j) s) → (∀ r, NodupKeys r → (f r).keys = r.keys) →
      ∃ nr, normalizeRuns E (some n) stores = .ok nr ∧ List.Forall₂ SameDocs (stores.map (fun s => s.data)) nr := by
    intro n k f hb hk hone hf
    unfold normalizeRuns
    simp only
    rw [if_pos hb, hk]
    refine ⟨_, rfl, ?_⟩
    have : ∀ i, (∀ (j : Nat) s, stores[j]? = some s → Schedule s.data.length (E.normScheds (i + j))) →
        List.Forall₂ SameDocs (stores.map (fun s => s.data))
          ((stores.zipIdx i).map (fun rj => (normOne E k rj.2 rj.1).data)) := by
      clear hE
      induction stores with
      | nil => intro i _; exact .nil
      | cons s t ih =>
        intro i hE
        refine .cons ?_ (ih (fun s hs => hw s (List.mem_cons_of_mem _ hs)) (i + 1) (fun j s' hj => ?_))
        · simp only
          rw [hone]
          unfold normRun
          simp only
          have hws := hw s List.mem_cons_self
          rw [Norm.normParallel_eq f _ s.data hws.1 (show Schedule _ (E.normScheds i) from hE 0 s rfl)]
          unfold SameDocs
          rw [List.forall₂_map_right_iff]
          exact List.forall₂_same.2 (fun p hp => ⟨rfl, (hf _ (hws.2 p hp)).symm⟩)
        · have := hE (j + 1) s' (by rw [List.getElem?_cons_succ]; exact hj)
          rwa [show i + 1 + j = i + (j + 1) by omega]
    exact this 0 (fun j s hj => by rw [Nat.zero_add]; exact hE j s hj)
  unfold Spec.keepingNorms at hn
  simp only [List.mem_cons, List.not_mem_nil, or_false] at hn
  rcases hn with rfl | rfl | rfl | rfl | rfl | rfl | rfl
  · refine ⟨_, rfl, List.forall₂_same.2 (fun d _ => refl d)⟩
  · exact main _ .max _ (by decide) (by decide +kernel) (fun _ _ => rfl) (fun r hr => C39_keeps_docs _ .max r hr)
  · exact main _ .minMax _ (by decide) (by decide +kernel) (fun _ _ => rfl) (fun r hr => C39_keeps_docs _ (.minMax false) r hr)
  · exact main _ .minMax _ (by decide) (by decide +kernel) (fun _ _ => rfl) (fun r hr => C39_keeps_docs _ (.minMax false) r hr)
  · exact main _ .rank _ (by decide) (by decide +kernel) (fun _ _ => rfl) (fun r hr => C39_keeps_docs _ .rank r hr)
  · exact main _ .sum _ (by decide) (by decide +kernel) (fun _ _ => rfl) (fun r hr => C39_keeps_docs _ .sum r hr)
  · exact main _ .zmuv _ (by decide) (by decide +kernel) (fun _ _ => rfl) (fun r hr => C39_keeps_docs _ .zmuv r hr)

theorem SameDocs.trans {d d' d'' : Dict κ (Results δ ℝ)} (h : SameDocs d d') (h' : SameDocs d' d'') : SameDocs d d'' := by
  unfold SameDocs at *
  induction h generalizing d'' with
  | nil => cases h'; exact .nil
  | cons hp _ ih =>
    cases h' with
    | cons hp' ht => exact .cons ⟨hp.1.trans hp'.1, hp.2.trans hp'.2⟩ (ih ht)

theorem SameDocs.symm {d d' : Dict κ (Results δ ℝ)} (h : SameDocs d d') : SameDocs d' d := by
  unfold SameDocs at *
  exact (h.imp (fun _ _ hp => ⟨hp.1.symm, hp.2.symm⟩)).flip

theorem forall₂_trans_docs {a b c : List (Dict κ (Results δ ℝ))} (h : List.Forall₂ SameDocs a b)
    (h' : List.Forall₂ SameDocs b c) : List.Forall₂ SameDocs a c := by
  induction h generalizing c with
  | nil => cases h'; exact .nil
  | cons hp _ ih =>
    cases h' with
    | cons hp' ht => exact .cons (hp.trans hp') (ih ht)

/-- **C136** (rank methods): the methods that look at ranks only return the same run for all scores, given the order in
which the docs are listed, and for all normalizations that keep this order. -/
theorem C136_rank_methods (E : Env δ) (runs runs' : List (Store κ δ ℝ)) (hw : ∀ s ∈ runs, Store.Wf s.data)
    (hw' : ∀ s ∈ runs', Store.Wf s.data) (hE : Spec.SchedulesCover E runs) (hE' : Spec.SchedulesCover E runs')
    (h : List.Forall₂ Spec.SameListing runs runs') (norm norm' : Option String) (hn : norm ∈ Spec.keepingNorms)
    (hn' : norm' ∈ Spec.keepingNorms) (method : String) (hm : method ∈ Spec.rankMethods) (params : Option Kwargs) :
    fuse E runs' norm' method params = fuse E runs norm method params := by
  symm
  obtain ⟨nr, e1, k1⟩ := keeps_docs E runs hw hE.norm norm hn
  obtain ⟨nr', e2, k2⟩ := keeps_docs E runs' hw' hE'.norm norm' hn'
  refine fuse_congr E method params (h.imp (fun _ _ h => (sameListing_iff.1 h).keys)) e1 e2 (fun m hsw => ?_)
  refine call_congr E m _ method hm hsw (forall₂_trans_docs ((k1.imp (fun _ _ h => h.symm)).flip)
    (forall₂_trans_docs ?_ k2))
  rw [List.forall₂_map_left_iff, List.forall₂_map_right_iff]
  exact h.imp (fun _ _ hp => sameListing_iff.1 hp)

/-! ### examples -/

noncomputable def scaleStore1 : Store Nat Nat ℝ := ⟨[(1, [(10, 11), (11, 9)]), (2, [(20, 7 / 2)])], true⟩
def scaleStore2 : Store Nat Nat ℝ := ⟨[(2, [(21, 2)]), (1, [(12, 60), (10, 20)])], false⟩

theorem scale_wf : ∀ s ∈ [scaleStore1, scaleStore2], Store.Wf s.data := by
  intro s hs
  simp only [List.mem_cons, List.not_mem_nil, or_false] at hs
  rcases hs with rfl | rfl
  · exact ⟨by unfold NodupKeys scaleStore1; decide, by unfold scaleStore1 NodupKeys; simp⟩
  · exact ⟨by unfold NodupKeys scaleStore2; decide, by unfold scaleStore2 NodupKeys; simp⟩

/-- non-vacuity: scores multiplied by 2 and shifted by 1 in one query, by 1/2 and 3 in another -/
example (method : String) (params : Option Kwargs) :
    fuse exEnv [scaleStore1, scaleStore2] (some "min-max") method params =
      fuse exEnv [fuseStore1, fuseStore2] (some "min-max") method params := by
  refine C136_rescaled exEnv [fuseStore1, fuseStore2] _ fuseStore_wf "min-max" (by decide) (.cons ?_ (.cons ?_ .nil))
    method params
  · refine .cons ⟨rfl, 2, 1, by norm_num, ?_, .spread _ 5 4 (by decide) (by simp) (by simp) (by norm_num) (by norm_num)⟩
      (.cons ⟨rfl, 1 / 2, 3, by norm_num, ?_, .flat _ (by decide) (by simp)⟩ .nil)
    · simp; norm_num
    · simp; norm_num
  · refine .cons ⟨rfl, 1, -1, by norm_num, ?_, .flat _ (by decide) (by simp)⟩
      (.cons ⟨rfl, 10, 0, by norm_num, ?_, .spread _ 6 2 (by decide) (by simp) (by simp) (by norm_num) (by norm_num)⟩ .nil)
    · simp; norm_num
    · simp; norm_num

theorem scale_listing : List.Forall₂ Spec.SameListing [fuseStore1, fuseStore2] [scaleStore1, scaleStore2] :=
  .cons rfl (.cons rfl .nil)

theorem scale_cover (s : Store Nat Nat ℝ) (s' : Store Nat Nat ℝ) (h : s.data.length = 2) (h' : s'.data.length = 2) :
    Spec.SchedulesCover exEnv [s, s'] := by
  constructor
  · intro x hx
    cases hx
    rw [h]
    exact (by decide : List.Perm [1, 0] (List.range 2))
  · intro j x hx
    have : x.data.length = 2 := by
      rcases List.mem_cons.1 (List.mem_of_getElem? hx) with rfl | hx
      · exact h
      · rw [List.mem_singleton.1 hx]; exact h'
    rw [this]
    exact (by decide : List.Perm [0, 1] (List.range 2))
  · intro j x hx
    have : x.data.length = 2 := by
      rcases List.mem_cons.1 (List.mem_of_getElem? hx) with rfl | hx
      · exact h
      · rw [List.mem_singleton.1 hx]; exact h'
    rw [this]
    exact (by decide : List.Perm [1, 0] (List.range 2))

/-- non-vacuity: reciprocal rank fusion with and without normalization, borda normalization -/
example (method : String) (params : Option Kwargs) :
    fuse exEnv [scaleStore1, scaleStore2] none "rrf" params =
      fuse exEnv [fuseStore1, fuseStore2] (some "zmuv") "rrf" params ∧
    fuse exEnv [scaleStore1, scaleStore2] (some "borda") method params =
      fuse exEnv [fuseStore1, fuseStore2] (some "borda") method params :=
  ⟨C136_rank_methods exEnv _ _ fuseStore_wf scale_wf (scale_cover _ _ rfl rfl) (scale_cover _ _ rfl rfl) scale_listing _ _
    (by decide) (by decide) _ (by decide) _, C136_rank_norms exEnv _ _ scale_listing _ (.inr rfl) _ _⟩

/-- Closer together than `1e-9`, the scale matters: the same two scores ten times larger get other normalized scores. -/
theorem C136_tiny_spread :
    Norm.minMax false ([(7, 0), (8, 1 / 10 ^ 11)] : Results Nat ℚ) = [(7, 0), (8, 1 / 100)] ∧
    Norm.minMax false ([(7, 0), (8, 1 / 10 ^ 10)] : Results Nat ℚ) = [(7, 0), (8, 1 / 10)] := by
  decide +kernel

end Ranx
