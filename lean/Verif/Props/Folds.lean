import Verif.Props.QueryNames

/-!
# C150: evaluating fold by fold

Users split the queries (cross validation, per-topic-set tables) and evaluate the parts.  Every query has the same score
in its part as in the whole collection, and the mean over the whole is the mean of the means of the parts, weighted by
their numbers of queries.
-/

set_option linter.unusedSectionVars false

namespace Ranx
open Dict Store Eval Metrics Py
variable {κ δ ι α : Type*}

namespace Spec

/-- `s'` has some of the queries of `s`, each with the same docs and values -/
structure PartOf {β : Type*} [DecidableEq κ] [DecidableEq δ] (s' s : Store κ δ β) : Prop where
  queries : ∀ q ∈ s'.data.keys, q ∈ s.data.keys
  docs : ∀ q ∈ s'.data.keys, ∀ d, (content s').read q d = (content s).read q d

/-- one part of the queries: its judgements, a run for them, and the mean score reported for them -/
structure Fold (κ δ α : Type*) where
  qrels : Store κ δ Int
  run : RunObj κ δ α
  mean : α

/-- the number of queries of a part -/
def Fold.size (f : Fold κ δ α) : Nat := f.qrels.data.keys.length

end Spec

section
variable [LinearOrder κ] [DecidableEq δ] [LinearOrder ι] [Field α] [LinearOrder α] [IsStrictOrderedRing α]

/-- **C150** (scores): a query judged alike in two collections and answered alike by two runs gets the same score in both
evaluations, whatever other queries there are. -/
theorem C150_fold_scores (F : Fn α) (other : Str → Except Err α) (SQ SQ' : ArgSort Int) (SR SR' : ArgSort α)
    (hash : δ → ι) (sched sched' : Nat → List Nat) (o o' : Opts) (ho : o.save = true) (ho' : o'.save = true)
    (s s' : Store κ δ Int) (r r' : RunObj κ δ α)
    (ms ms' : List Str) (hs : Spec.Usable SQ s) (hs' : Spec.Usable SQ' s') (hr : Spec.Usable SR r.store)
    (hr' : Spec.Usable SR' r'.store) (hsched : ∀ i, Schedule s.data.length (sched i))
    (hsched' : ∀ i, Schedule s'.data.length (sched' i))
    (hq : Spec.PartOf s' s)
    (hqr : ∀ q ∈ s'.data.keys, ∀ d, (Spec.content r'.store).read q d = (Spec.content r.store).read q d)
    (ha : ∀ q ∈ s'.data.keys, Spec.JudgedApart hash s q)
    (htie : ∀ q ∈ s'.data.keys, ∀ d d' v, (Spec.content r.store).read q d = some v →
      (Spec.content r.store).read q d' = some v → d = d')
    (after after' : After κ δ α) (out out' : Out α)
    (h : evaluate F other SQ SR hash sched o (.obj s) (.obj r) ms = (after, .ok out))
    (h' : evaluate F other SQ' SR' hash sched' o' (.obj s') (.obj r') ms' = (after', .ok out')) :
    ∃ a a', after.run = .obj a ∧ after'.run = .obj a' ∧
      ∀ m ∈ ms, m ∈ ms' → ∀ q ∈ s'.data.keys, ∃ v, a.saved m q = some v ∧ a'.saved m q = some v := by
  obtain ⟨a, e, H⟩ := C31_pairs_queries F other SQ SR hash sched o ho s r ms hs hr hsched after out h
  obtain ⟨a', e', H'⟩ := C31_pairs_queries F other SQ' SR' hash sched' o' ho' s' r' ms' hs' hr' hsched' after' out' h'
  refine ⟨a, a', e, e', ?_⟩
  intro m hm hm' q hqs
  obtain ⟨f, hf, X⟩ := H m hm
  obtain ⟨f', hf', X'⟩ := H' m hm'
  rw [hf] at hf'
  cases hf'
  obtain ⟨jl, rl, v, R1, R3, hv, hsv⟩ := X q (hq.queries q hqs)
  obtain ⟨jl', rl', v', R2, R4, hv', hsv'⟩ := X' q hqs
  have e := ranking_tieFree R3 R4 (hqr q hqs) (htie q hqs)
  subst e
  rw [metricOf_qrels F other m f hf _ _ _ (sameRows_renamed (ha q hqs) (hq.docs q hqs) R1 R2), hv'] at hv
  cases hv
  exact ⟨v, hsv, hsv'⟩

omit [LinearOrder κ] [DecidableEq δ] [LinearOrder ι] [LinearOrder α] [IsStrictOrderedRing α] in
theorem reports_unique {ms : List Str} {out : Out α} {m : Str} {v v' : Value α} (h : Spec.Reports ms out m v)
    (h' : Spec.Reports ms out m v') : v = v' := by
  rcases h with ⟨-, rfl⟩ | ⟨d, rfl, hd⟩ <;> rcases h' with ⟨-, h'⟩ | ⟨d', h', hd'⟩
  · cases h'; rfl
  · cases h'
  · cases h'
  · cases h'; rw [hd] at hd'; cases hd'; rfl

omit [DecidableEq δ] [LinearOrder ι] [LinearOrder α] [IsStrictOrderedRing α] in
theorem meanOver_mul {β : Type*} (f : β → α) (l : List β) (hl : (l.length : α) ≠ 0) :
    (l.length : α) * Spec.meanOver l f = (l.map f).sum := by
  unfold Spec.meanOver
  exact mul_div_cancel₀ _ hl

/-- **C150** (means): if every query of the qrels is in exactly one of the parts, the reported mean of a metric over all
queries is the mean of the parts' means weighted by their numbers of queries (every metric but bpref, exact arithmetic). -/
theorem C150_folds_mean (F : Fn α) (other : Str → Except Err α) (SQ : ArgSort Int) (SR : ArgSort α)
    (hash : δ → ι) (sched : Nat → List Nat) (o : Opts) (ho : o.save = true) (hmean : o.returnMean = true)
    (hstd : o.returnStd = false) (s : Store κ δ Int) (r : RunObj κ δ α)
    (ms : List Str) (m : Str) (hm : m ∈ ms) (hms : Spec.MetricText m) (hs : Spec.Usable SQ s)
    (hr : Spec.Usable SR r.store)
    (hsched : ∀ i, Schedule s.data.length (sched i)) (hne : s.data ≠ [])
    (ha : ∀ q ∈ s.data.keys, Spec.JudgedApart hash s q)
    (htie : ∀ q ∈ s.data.keys, ∀ d d' v, (Spec.content r.store).read q d = some v →
      (Spec.content r.store).read q d' = some v → d = d')
    (after : After κ δ α) (out : Out α)
    (h : evaluate F other SQ SR hash sched o (.obj s) (.obj r) ms = (after, .ok out))
    (folds : List (Spec.Fold κ δ α))
    (hsplit : (folds.flatMap (fun f => f.qrels.data.keys)).Perm s.data.keys)
    (hpart : ∀ f ∈ folds, f.qrels.data ≠ [] ∧ Spec.PartOf f.qrels s ∧
      (∀ q ∈ f.qrels.data.keys, ∀ d, (Spec.content f.run.store).read q d = (Spec.content r.store).read q d) ∧
      ∃ (SQ' : ArgSort Int) (SR' : ArgSort α) (sched' : Nat → List Nat) (after' : After κ δ α) (out' : Out α),
        Spec.Usable SQ' f.qrels ∧ Spec.Usable SR' f.run.store ∧ (∀ i, Schedule f.qrels.data.length (sched' i)) ∧
        evaluate F other SQ' SR' hash sched' o (.obj f.qrels) (.obj f.run) ms = (after', .ok out') ∧
        Spec.Reports ms out' m (.mean (.val f.mean))) :
    Spec.Reports ms out m (.mean (.val
      ((folds.map (fun f => (f.size : α) * f.mean)).sum / ((folds.map (fun f => (f.size : α))).sum)))) := by
  obtain ⟨a, e, H⟩ := C31_pairs_queries F other SQ SR hash sched o ho s r ms hs hr hsched after out h
  obtain ⟨k, hk, -⟩ := metricText_kernel (ι := ι) F other m hms
  have hex : ∀ q ∈ s.data.keys, ∃ v, a.saved m q = some (.val v) := by
    intro q hq
    obtain ⟨f, hf, X⟩ := H m hm
    rw [hk] at hf
    cases hf
    obtain ⟨jl, rl, v, -, -, hv, hsv⟩ := X q hq
    unfold total at hv
    cases hv
    exact ⟨_, hsv⟩
  choose! score hsc using hex
  have hwhole := (C32_means F other SQ SR hash sched o ho hmean hstd s r ms m hm hs hr hsched hne after out h a e
    score hsc).1
  have hfold : ∀ f ∈ folds, (f.size : α) * f.mean = (f.qrels.data.keys.map score).sum := by
    intro f hf
    obtain ⟨hne', hp, hq, SQ', SR', sched', after', out', hs', hr', hsched', h', hrep⟩ := hpart f hf
    obtain ⟨a₁, a', e₁, e', hall⟩ := C150_fold_scores F other SQ SQ' SR SR' hash sched sched' o o ho ho s f.qrels r f.run
      ms ms hs hs' hr hr' hsched hsched' hp hq (fun q hq => ha q (hp.queries q hq))
      (fun q hq => htie q (hp.queries q hq)) after after' out out' h h'
    rw [e] at e₁
    cases e₁
    have hsc' : ∀ q ∈ f.qrels.data.keys, a'.saved m q = some (.val (score q)) := by
      intro q hq
      obtain ⟨v, h1, h2⟩ := hall m hm hm q hq
      rw [hsc q (hp.queries q hq)] at h1
      cases h1
      exact h2
    have hrep' := (C32_means F other SQ' SR' hash sched' o ho hmean hstd f.qrels f.run ms m hm hs' hr' hsched' hne'
      after' out' h' a' e' score hsc').1
    have hu := reports_unique hrep hrep'
    have hu : f.mean = Spec.meanOver f.qrels.data.keys score := by injection hu with hu; injection hu
    rw [hu]
    refine meanOver_mul score _ ?_
    rw [Nat.cast_ne_zero]
    intro hc
    rw [length_keys] at hc
    exact hne' (List.eq_nil_of_length_eq_zero hc)
  have hsum : ∀ l : List (Spec.Fold κ δ α), (∀ f ∈ l, f ∈ folds) →
      (l.map (fun f => (f.size : α) * f.mean)).sum = ((l.flatMap (fun f => f.qrels.data.keys)).map score).sum ∧
      (l.map (fun f => (f.size : α))).sum = ((l.flatMap (fun f => f.qrels.data.keys)).length : α) := by
    intro l hl
    induction l with
    | nil => exact ⟨rfl, by simp⟩
    | cons f t ih =>
      obtain ⟨ih1, ih2⟩ := ih (fun x hx => hl x (List.mem_cons_of_mem _ hx))
      constructor
      · rw [List.map_cons, List.sum_cons, List.flatMap_cons, List.map_append, List.sum_append, ih1,
          hfold f (hl f List.mem_cons_self)]
      · rw [List.map_cons, List.sum_cons, List.flatMap_cons, List.length_append, ih2, Nat.cast_add]
        rfl
  obtain ⟨h1, h2⟩ := hsum folds (fun _ h => h)
  rw [h1, h2, (hsplit.map score).sum_eq, hsplit.length_eq]
  exact hwhole

end

/-- the two queries of the example qrels as two folds -/
def exFold₁ : Store Nat Nat Int := ⟨[(1, [(11, 2), (10, 1)])], true⟩
def exFold₂ : Store Nat Nat Int := ⟨[(2, [(20, 1)])], true⟩

theorem exFold₁_usable : Spec.Usable (ArgSort.stable Int) exFold₁ :=
  ⟨exFold₁, [], ⟨[(1, [(10, 1), (11, 2)])], by unfold NodupKeys; decide +kernel, by unfold NodupKeys; decide +kernel,
    .inr (by decide +kernel)⟩, rfl, by simp [Store.exec]⟩

theorem exFold₂_usable : Spec.Usable (ArgSort.stable Int) exFold₂ :=
  ⟨exFold₂, [], ⟨[(2, [(20, 1)])], by unfold NodupKeys; decide +kernel, by unfold NodupKeys; decide +kernel,
    .inr (by decide +kernel)⟩, rfl, by simp [Store.exec]⟩

set_option synthInstance.maxSize 1000 in
set_option synthInstance.maxHeartbeats 200000 in
/-- non-vacuity of `C150`: two folds with means 1/2 and 0, the mean of the whole is 1/4. -/
example : (∀ f ∈ [exFold₁, exFold₂], Spec.PartOf f exQrelsObj) ∧
    ([exFold₁, exFold₂].flatMap (fun f => f.data.keys)).Perm exQrelsObj.data.keys ∧
    (evaluate (ι := Nat) ratFn (fun _ => .error .valueError) (ArgSort.stable Int) (ArgSort.stable ℚ) id (fun _ => [0])
      { makeComparable := true } (.obj exFold₁) (.obj exRunObj) ["recall".toList]).2 = .ok (.single (.mean (.val (1 / 2)))) ∧
    (evaluate (ι := Nat) ratFn (fun _ => .error .valueError) (ArgSort.stable Int) (ArgSort.stable ℚ) id (fun _ => [0])
      { makeComparable := true } (.obj exFold₂) (.obj exRunObj) ["recall".toList]).2 = .ok (.single (.mean (.val 0))) ∧
    (evaluate (ι := Nat) ratFn (fun _ => .error .valueError) (ArgSort.stable Int) (ArgSort.stable ℚ) id (fun _ => [1, 0])
      { makeComparable := true } (.obj exQrelsObj) (.obj exRunObj) ["recall".toList]).2 =
      .ok (.single (.mean (.val ((1 * (1 / 2) + 1 * 0) / (1 + 1))))) := by
  refine ⟨?_, by decide +kernel, by decide +kernel, by decide +kernel, by decide +kernel⟩
  intro f hf
  simp only [List.mem_cons, List.not_mem_nil, or_false] at hf
  rcases hf with rfl | rfl
  · refine ⟨by decide, ?_⟩
    intro q hq d
    simp only [exFold₁, Dict.keys, List.map_cons, List.map_nil, List.mem_cons, List.not_mem_nil, or_false] at hq
    subst hq
    rfl
  · refine ⟨by decide, ?_⟩
    intro q hq d
    simp only [exFold₂, Dict.keys, List.map_cons, List.map_nil, List.mem_cons, List.not_mem_nil, or_false] at hq
    subst hq
    rfl

end Ranx
