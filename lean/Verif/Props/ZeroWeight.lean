import Verif.Props.OwnScores

/-!
# Property C166: a run with weight zero only contributes its docs to wsum

Weights of zero are among the weights `optimize_fusion` tries.
-/

set_option linter.unusedSectionVars false

namespace Ranx
open Dict Store Metrics Eval Fuse Opt
open _root_.Ranx.Norm (Kind SetIter Results)

section
variable {δ : Type} [DecidableEq δ]

namespace Fuse

theorem wsumScore_drop (w1 w2 : List ℝ) (w : ℝ) (xs ys : List (Results δ ℝ)) (x : Results δ ℝ)
    (h1 : w1.length = xs.length) (d : δ) (hz : w * (x.get? d).getD 0 = 0) :
    wsumScore (w1 ++ w :: w2) (xs ++ x :: ys) d = wsumScore (w1 ++ w2) (xs ++ ys) d := by
  unfold wsumScore
  have e : (xs ++ x :: ys).zipIdx.map (fun ri =>
        (weightAt (w1 ++ w :: w2) ri.2).map (fun x => x * (ri.1.get? d).getD 0)) =
      xs.zipIdx.map (fun ri => (weightAt (w1 ++ w2) ri.2).map (fun x => x * (ri.1.get? d).getD 0)) ++
        .ok 0 :: ys.zipIdx.map (fun ri => (weightAt (w1 ++ w2) (w1.length + ri.2)).map
          (fun x => x * (ri.1.get? d).getD 0)) := by
    rw [List.zipIdx_append, List.map_append, List.zipIdx_cons, List.map_cons]
    congr 1
    · apply List.map_congr_left
      rintro ⟨r, i⟩ hri
      have := List.mem_zipIdx hri
      simp only
      rw [weightAt_before _ _ _ _ (by omega)]
    · congr 1
      · have : weightAt (w1 ++ w :: w2) (0 + xs.length) = .ok w := by
          unfold weightAt
          rw [Nat.zero_add, ← h1, List.getElem?_append_right le_rfl, Nat.sub_self]; rfl
        simp only [this]
        change Except.ok (w * (x.get? d).getD 0) = _
        rw [hz]
      · rw [zipIdx_offset, List.map_map]
        apply List.map_congr_left
        rintro ⟨r, i⟩ _
        simp only [Function.comp_apply]
        have : 0 + xs.length + 1 + i = w1.length + 1 + i := by omega
        rw [this, weightAt_after]
  have e' : (xs ++ ys).zipIdx.map (fun ri =>
        (weightAt (w1 ++ w2) ri.2).map (fun x => x * (ri.1.get? d).getD 0)) =
      xs.zipIdx.map (fun ri => (weightAt (w1 ++ w2) ri.2).map (fun x => x * (ri.1.get? d).getD 0)) ++
        ys.zipIdx.map (fun ri => (weightAt (w1 ++ w2) (w1.length + ri.2)).map
          (fun x => x * (ri.1.get? d).getD 0)) := by
    rw [List.zipIdx_append, List.map_append]
    congr 1
    rw [zipIdx_offset, List.map_map]
    apply List.map_congr_left
    rintro ⟨r, i⟩ _
    simp only [Function.comp_apply]
    rw [h1, Nat.zero_add]
  rw [e, e']
  rcases collect_skip (xs.zipIdx.map (fun ri => (weightAt (w1 ++ w2) ri.2).map (fun x => x * (ri.1.get? d).getD 0)))
    (ys.zipIdx.map (fun ri => (weightAt (w1 ++ w2) (w1.length + ri.2)).map (fun x => x * (ri.1.get? d).getD 0)))
    with ⟨e, h2, h3⟩ | ⟨l, l', h2, h3, h4⟩
  · rw [h2, h3]
  · rw [h2, h3]; simp only [h4]

theorem collect_sum_zero {A : Type*} (f : A → Except Err ℝ) (l : List A) (vs : List ℝ)
    (h : Eval.collect (l.map f) = .ok vs) (hz : ∀ a ∈ l, ∀ v, f a = .ok v → v = 0) : vs.sum = 0 := by
  have e := (Eval.collect_ok_iff _ _).1 h
  apply List.sum_eq_zero
  intro v hv
  have : Except.ok v ∈ vs.map (Except.ok (ε := Err)) := List.mem_map.2 ⟨v, hv, rfl⟩
  rw [← e] at this
  obtain ⟨a, ha, hfa⟩ := List.mem_map.1 this
  exact hz a ha v hfa

theorem wsumScore_absent (ws : List ℝ) (rs : List (Results δ ℝ)) (d : δ) (h : ∀ r ∈ rs, r.get? d = none) (v : ℝ)
    (hv : wsumScore ws rs d = .ok v) : v = 0 := by
  unfold wsumScore at hv
  cases hc : Eval.collect (rs.zipIdx.map (fun ri => (weightAt ws ri.2).map (fun w => w * (ri.1.get? d).getD 0))) with
  | error e => rw [hc] at hv; cases hv
  | ok l =>
    rw [hc] at hv
    cases hv
    refine collect_sum_zero _ _ _ hc ?_
    rintro ⟨r, i⟩ hri v hv
    have hr : r ∈ rs := by
      have := List.mem_zipIdx hri
      exact List.mem_iff_getElem.2 ⟨i, by omega, by simpa using this.2.2.symm⟩
    simp only [h r hr] at hv
    cases hw : weightAt ws i with
    | error e => rw [hw] at hv; cases hv
    | ok w =>
      rw [hw] at hv
      have : w * (none : Option ℝ).getD 0 = v := Except.ok.inj hv
      rw [← this]; simp

theorem collect_value {A : Type*} (f : A → Except Err ℝ) (g : A → ℝ) (hfg : ∀ a v, f a = .ok v → v = g a) :
    ∀ (l : List A) (vs : List ℝ), l.map f = vs.map .ok → vs = l.map g
  | [], [], _ => rfl
  | [], _ :: _, h => by cases h
  | _ :: _, [], h => by cases h
  | a :: l, v :: vs, h => by
    rw [List.map_cons, List.map_cons, List.cons.injEq] at h
    rw [List.map_cons, hfg a v h.1, collect_value f g hfg l vs h.2]

theorem wsumScore_single (n k : Nat) (w : ℝ) (xs ys : List (Results δ ℝ)) (x : Results δ ℝ) (hn : n = xs.length) (d : δ)
    (v : ℝ) (hv : wsumScore (List.replicate n 0 ++ w :: List.replicate k 0) (xs ++ x :: ys) d = .ok v) :
    v = w * (x.get? d).getD 0 := by
  unfold wsumScore at hv
  set ws : List ℝ := List.replicate n 0 ++ w :: List.replicate k 0 with hws
  cases hc : Eval.collect ((xs ++ x :: ys).zipIdx.map (fun ri =>
      (weightAt ws ri.2).map (fun w => w * (ri.1.get? d).getD 0))) with
  | error e => rw [hc] at hv; cases hv
  | ok l =>
    rw [hc] at hv
    cases hv
    have hl := collect_value _ (fun ri => (ws[ri.2]?).getD 0 * (ri.1.get? d).getD 0) (by
      rintro ⟨r, i⟩ v hv
      simp only at hv ⊢
      unfold weightAt at hv
      cases hw : ws[i]? with
      | none => rw [hw] at hv; cases hv
      | some u => rw [hw] at hv; exact (Except.ok.inj hv).symm) _ _ ((Eval.collect_ok_iff _ _).1 hc)
    have hzero : ∀ i, i ≠ n → (ws[i]?).getD 0 = 0 := by
      intro i hi
      rw [hws]
      rcases Nat.lt_or_gt_of_ne hi with h | h
      · rw [List.getElem?_append_left (by simpa using h), List.getElem?_replicate, if_pos h]; rfl
      · obtain ⟨j, hj⟩ : ∃ j, i - n = j + 1 := ⟨i - n - 1, by omega⟩
        rw [List.getElem?_append_right (by simpa using h.le), List.length_replicate, hj, List.getElem?_cons_succ,
          List.getElem?_replicate]
        split <;> rfl
    have hmid : (ws[n]?).getD 0 = w := by
      rw [hws, List.getElem?_append_right (by simp), List.length_replicate, Nat.sub_self]; rfl
    rw [hl, List.zipIdx_append, List.map_append, List.zipIdx_cons, List.map_cons, List.sum_append, List.sum_cons]
    have z1 : (xs.zipIdx.map (fun ri => (ws[ri.2]?).getD 0 * (ri.1.get? d).getD 0)).sum = 0 := by
      apply List.sum_eq_zero
      intro y hy
      obtain ⟨⟨r, i⟩, hri, rfl⟩ := List.mem_map.1 hy
      have := List.mem_zipIdx hri
      simp only
      rw [hzero i (by omega), zero_mul]
    have z2 : ((ys.zipIdx (0 + xs.length + 1)).map (fun ri => (ws[ri.2]?).getD 0 * (ri.1.get? d).getD 0)).sum = 0 := by
      apply List.sum_eq_zero
      intro y hy
      obtain ⟨⟨r, i⟩, hri, rfl⟩ := List.mem_map.1 hy
      have := List.mem_zipIdx hri
      simp only
      rw [hzero i (by omega), zero_mul]
    rw [z1, z2, zero_add, add_zero, Nat.zero_add, ← hn, hmid]

theorem normQuery_map (E : Env δ) (norm : Option String) (hn : norm ≠ some "borda") :
    ∃ g : Results δ ℝ → Results δ ℝ, ∀ rs, normQuery E norm rs = rs.map g := by
  cases norm with
  | none => exact ⟨id, fun rs => by rw [List.map_id]; rfl⟩
  | some n =>
    have hb : n ≠ "borda" := fun h => hn (by rw [h])
    cases hk : Norm.normSwitch n with
    | error e => exact ⟨id, fun rs => by unfold normQuery; simp only; rw [if_pos hb, hk, List.map_id]⟩
    | ok k => exact ⟨normFun E.S k, fun rs => by unfold normQuery; simp only; rw [if_pos hb, hk]⟩

end Fuse

variable {κ : Type} [LinearOrder κ]

/-- **C166**: in wsum with any normalization but borda, a run with weight zero changes no fused score of a doc that
another run retrieved; the docs only it retrieved get the score 0. -/
theorem C166_zero_weight (E E' : Env δ) (A B : List (Store κ δ ℝ)) (e : Store κ δ ℝ)
    (hS : E.S = E'.S) (hI : E.I = E'.I) (hw : ∀ s ∈ A ++ e :: B, Store.Wf s.data)
    (norm : Option String) (hn : norm ≠ some "borda") (w1 w2 : List ℝ) (hl : w1.length = A.length)
    (hE : Spec.SchedulesCover E (A ++ e :: B)) (hE' : Spec.SchedulesCover E' (A ++ B))
    (out out' : Store κ δ ℝ)
    (h : fuse E (A ++ e :: B) norm "wsum" (some [("weights", .nums (w1 ++ 0 :: w2))]) = .ok out)
    (h' : fuse E' (A ++ B) norm "wsum" (some [("weights", .nums (w1 ++ w2))]) = .ok out') (q : κ) (d : δ) :
    ((∃ s ∈ A ++ B, (Spec.content s).read q d ≠ none) → (Spec.content out).read q d = (Spec.content out').read q d) ∧
    ((∀ s ∈ A ++ B, (Spec.content s).read q d = none) → (Spec.content e).read q d ≠ none →
      (Spec.content out).read q d = some 0) := by
  have hb : ¬ Spec.UsesBorda norm "wsum" := by
    rintro (h | h | h)
    · exact hn h
    · exact absurd h (by decide)
    · exact absurd h (by decide)
  have hw' : ∀ s ∈ A ++ B, Store.Wf s.data := fun s hs => hw s (by
    rcases List.mem_append.1 hs with hs | hs
    · exact List.mem_append_left _ hs
    · exact List.mem_append_right _ (List.mem_cons_of_mem _ hs))
  obtain ⟨hu1, hu2⟩ := C48_fuse_union_partial E _ hw norm "wsum" _ hE (fun x => absurd x hb) out h
  obtain ⟨hu1', hu2'⟩ := C48_fuse_union_partial E' _ hw' norm "wsum" _ hE' (fun x => absurd x hb) out' h'
  obtain ⟨m, hm1, hL⟩ := fuse_local E _ hw norm "wsum" _ hE (fun x => absurd x hb) out h
  obtain ⟨m', hm2, hL'⟩ := fuse_local E' _ hw' norm "wsum" _ hE' (fun x => absurd x hb) out' h'
  have hsw : fusionSwitch "wsum" = .ok .wsum := by decide +kernel
  cases hm1.symm.trans hsw
  cases hm2.symm.trans hsw
  obtain ⟨g, hg⟩ := Fuse.normQuery_map E norm hn
  have hg' : ∀ rs, normQuery E' norm rs = rs.map g := by
    intro rs
    rw [← hg rs]
    unfold normQuery
    rw [hS, hI]
  have some_ne : ∀ {s : Store κ δ ℝ}, (Spec.content s).read q d ≠ none → q ∈ s.data.keys := by
    intro s hr
    by_contra hc
    apply hr
    rw [read_score?]
    unfold Spec.score?
    cases hgq : s.data.get? q with
    | none => rfl
    | some r => exact absurd (get?_isSome.1 (by rw [hgq]; rfl)) hc
  have e1 : resultsFor ((A ++ e :: B).map (fun s => s.data)) q =
      A.map (fun s => (s.data.get? q).getD []) ++ (e.data.get? q).getD [] ::
        B.map (fun s => (s.data.get? q).getD []) := by
    unfold resultsFor
    rw [List.map_map, List.map_append, List.map_cons]
    rfl
  have e2 : resultsFor ((A ++ B).map (fun s => s.data)) q =
      A.map (fun s => (s.data.get? q).getD []) ++ B.map (fun s => (s.data.get? q).getD []) := by
    unfold resultsFor
    rw [List.map_map, List.map_append]
    rfl
  -- the fused score of a doc of `out`, as a score computed without the run of weight zero
  have hval : ∀ v, (Spec.content out).read q d = some v →
      wsumScore (w1 ++ w2) (normQuery E norm (resultsFor ((A ++ B).map (fun s => s.data)) q)) d = .ok v := by
    intro v hv
    have hq : q ∈ out.data.keys := some_ne (by rw [hv]; simp)
    obtain ⟨s, hs, hqs⟩ := (hu1 q).1 hq
    obtain ⟨r, hr1, hr2⟩ := hL.get q ⟨s.data, List.mem_map.2 ⟨s, hs, rfl⟩, hqs⟩
    have hrv : r.get? d = some v := by
      rw [read_score?] at hv
      unfold Spec.score? at hv
      rw [hr2] at hv
      exact hv
    have hsc := (sortedCombine_get? E.S _ _ r hr1).1 d v hrv
    rw [e1, hg, List.map_append, List.map_cons] at hsc
    rw [e2, hg, List.map_append, ← hsc]
    exact (Fuse.wsumScore_drop w1 w2 0 _ _ _ (by rw [List.length_map, List.length_map, hl]) d (zero_mul _)).symm
  constructor
  · rintro ⟨s, hs, hr⟩
    have hr1 : (Spec.content out).read q d ≠ none := (hu2 q d).2 ⟨s, by
      rcases List.mem_append.1 hs with hs | hs
      · exact List.mem_append_left _ hs
      · exact List.mem_append_right _ (List.mem_cons_of_mem _ hs), hr⟩
    have hr2 : (Spec.content out').read q d ≠ none := (hu2' q d).2 ⟨s, hs, hr⟩
    obtain ⟨v, hv⟩ := Option.ne_none_iff_exists'.1 hr1
    obtain ⟨v', hv'⟩ := Option.ne_none_iff_exists'.1 hr2
    obtain ⟨r', g1, g2⟩ := hL'.get q ⟨s.data, List.mem_map.2 ⟨s, hs, rfl⟩, some_ne hr⟩
    have hrv : r'.get? d = some v' := by
      rw [read_score?] at hv'
      unfold Spec.score? at hv'
      rw [g2] at hv'
      exact hv'
    have hsc := (sortedCombine_get? E'.S _ _ r' g1).1 d v' hrv
    rw [hg'] at hsc
    have hvv := hval v hv
    rw [hg] at hvv
    rw [hv, hv', ← Except.ok.inj (hsc.symm.trans hvv)]
  · intro hA hr
    have hr1 : (Spec.content out).read q d ≠ none := (hu2 q d).2 ⟨e, by simp, hr⟩
    obtain ⟨v, hv⟩ := Option.ne_none_iff_exists'.1 hr1
    have hvv := hval v hv
    have hnone : (Spec.content out').read q d = none := by
      by_contra hc
      obtain ⟨s, hs, hsr⟩ := (hu2' q d).1 hc
      exact hsr (hA s hs)
    -- some other run has the query
    have hq : q ∈ e.data.keys := some_ne hr
    obtain ⟨hl2, hsq, -⟩ := fuse_ok h
    obtain ⟨hl2', -, -⟩ := fuse_ok h'
    have hne : A ++ B ≠ [] := by intro h0; rw [h0] at hl2'; simp at hl2'
    obtain ⟨s, hs⟩ := List.exists_mem_of_ne_nil _ hne
    have hs0 : s ∈ A ++ e :: B := by
      rcases List.mem_append.1 hs with hs | hs
      · exact List.mem_append_left _ hs
      · exact List.mem_append_right _ (List.mem_cons_of_mem _ hs)
    have hqs : q ∈ s.data.keys := hsq e (by simp) s hs0 q hq
    obtain ⟨r', g1, g2⟩ := hL'.get q ⟨s.data, List.mem_map.2 ⟨s, hs, rfl⟩, hqs⟩
    have hrn : r'.get? d = none := by
      rw [read_score?] at hnone
      unfold Spec.score? at hnone
      rw [g2] at hnone
      exact hnone
    have hk := (sortedCombine_get? E'.S _ _ r' g1).2 d
    have hnot : ∀ x ∈ normQuery E norm (resultsFor ((A ++ B).map (fun s => s.data)) q), x.get? d = none := by
      intro x hx
      rw [hg, ← hg'] at hx
      cases hxd : x.get? d with
      | none => rfl
      | some y =>
        have : d ∈ r'.keys := hk.2 (List.mem_flatMap.2 ⟨x, hx, get?_isSome.1 (by rw [hxd]; rfl)⟩)
        have := get?_isSome.2 this
        rw [hrn] at this
        cases this
    rw [hv, Fuse.wsumScore_absent _ _ d hnot v hvv]

/-- **C166** (one run with a weight): if all weights but one run's are zero, then in wsum without normalization the docs
of that run get its scores times its weight, and all other docs 0. -/
theorem C166_single_run (E : Env δ) (A B : List (Store κ δ ℝ)) (e : Store κ δ ℝ)
    (hw : ∀ s ∈ A ++ e :: B, Store.Wf s.data) (w : ℝ) (hE : Spec.SchedulesCover E (A ++ e :: B)) (out : Store κ δ ℝ)
    (h : fuse E (A ++ e :: B) none "wsum" (some [("weights",
      .nums (List.replicate A.length 0 ++ w :: List.replicate B.length 0))]) = .ok out) (q : κ) (d : δ) :
    (∀ v, (Spec.content e).read q d = some v → (Spec.content out).read q d = some (w * v)) ∧
    ((Spec.content e).read q d = none → (∃ s ∈ A ++ B, (Spec.content s).read q d ≠ none) →
      (Spec.content out).read q d = some 0) := by
  have hb : ¬ Spec.UsesBorda none "wsum" := by
    rintro (h | h | h)
    · cases h
    · exact absurd h (by decide)
    · exact absurd h (by decide)
  obtain ⟨hu1, hu2⟩ := C48_fuse_union_partial E _ hw none "wsum" _ hE (fun x => absurd x hb) out h
  obtain ⟨m, hm1, hL⟩ := fuse_local E _ hw none "wsum" _ hE (fun x => absurd x hb) out h
  have hsw : fusionSwitch "wsum" = .ok .wsum := by decide +kernel
  cases hm1.symm.trans hsw
  have hval : ∀ v, (Spec.content out).read q d = some v →
      v = w * ((Spec.content e).read q d).getD 0 := by
    intro v hv
    rw [read_score?] at hv
    unfold Spec.score? at hv
    cases hgq : out.data.get? q with
    | none => rw [hgq] at hv; cases hv
    | some r0 =>
      have hq : q ∈ out.data.keys := get?_isSome.1 (by rw [hgq]; rfl)
      obtain ⟨s, hs, hqs⟩ := (hu1 q).1 hq
      obtain ⟨r, hr1, hr2⟩ := hL.get q ⟨s.data, List.mem_map.2 ⟨s, hs, rfl⟩, hqs⟩
      rw [hr2] at hv
      have hsc := (sortedCombine_get? E.S _ _ r hr1).1 d v hv
      have e1 : resultsFor ((A ++ e :: B).map (fun s => s.data)) q =
          A.map (fun s => (s.data.get? q).getD []) ++ (e.data.get? q).getD [] ::
            B.map (fun s => (s.data.get? q).getD []) := by
        unfold resultsFor
        rw [List.map_map, List.map_append, List.map_cons]
        rfl
      have e2 : normQuery E none (resultsFor ((A ++ e :: B).map (fun s => s.data)) q) =
        resultsFor ((A ++ e :: B).map (fun s => s.data)) q := rfl
      rw [e2, e1] at hsc
      have := Fuse.wsumScore_single A.length B.length w _ _ _ (by rw [List.length_map]) d v hsc
      rw [this, read_score?]
      unfold Spec.score?
      cases e.data.get? q <;> rfl
  constructor
  · intro v hv
    have hr : (Spec.content out).read q d ≠ none := (hu2 q d).2 ⟨e, by simp, by rw [hv]; simp⟩
    obtain ⟨u, hu⟩ := Option.ne_none_iff_exists'.1 hr
    rw [hu, hval u hu, hv]
    rfl
  · rintro hn ⟨s, hs, hr⟩
    have hr : (Spec.content out).read q d ≠ none := (hu2 q d).2 ⟨s, by
      rcases List.mem_append.1 hs with hs | hs
      · exact List.mem_append_left _ hs
      · exact List.mem_append_right _ (List.mem_cons_of_mem _ hs), hr⟩
    obtain ⟨u, hu⟩ := Option.ne_none_iff_exists'.1 hr
    rw [hu, hval u hu, hn]
    simp

end

/-- Beyond wsum this is false: for wmnz (and mixed) the scores of a run with weight zero count. -/
theorem C166_wmnz_counts_zero_weights :
    ((Fuse.wmnz (.stable ℚ) [0] [1, 0, 1] [[(1, [(10, (1 : ℚ))])], [(1, [(10, 5)])], [(1, [(10, 1)])]] :
      Except Err (Store Nat Nat ℚ)).map (fun s => s.data)) = .ok [(1, [(10, 14)])] ∧
    ((Fuse.wmnz (.stable ℚ) [0] [1, 1] [[(1, [(10, (1 : ℚ))])], [(1, [(10, 1)])]] :
      Except Err (Store Nat Nat ℚ)).map (fun s => s.data)) = .ok [(1, [(10, 4)])] := by
  decide +kernel

/-! ### the theorems are not vacuous: the second of three runs has weight zero; then only the second has a weight -/

def zeroStore : Store Nat Nat ℝ := ⟨[(1, [(30, 9)]), (2, [(22, 7)])], false⟩

theorem zeroStores_wf : ∀ s ∈ [fuseStore1, zeroStore, fuseStore2], Store.Wf s.data := by
  intro s hs
  simp only [List.mem_cons, List.not_mem_nil, or_false] at hs
  rcases hs with rfl | rfl | rfl
  · exact fuseStore_wf _ (by simp)
  · exact ⟨by unfold NodupKeys zeroStore; decide, by unfold zeroStore NodupKeys; simp⟩
  · exact fuseStore_wf _ (by simp)

theorem zeroStores_same : Spec.SameQueries [fuseStore1, zeroStore, fuseStore2] := by
  have h1 : fuseStore1.data.keys = [1, 2] := rfl
  have h2 : fuseStore2.data.keys = [2, 1] := rfl
  have h3 : zeroStore.data.keys = [1, 2] := rfl
  intro s hs s' hs' q hq
  simp only [List.mem_cons, List.not_mem_nil, or_false] at hs hs'
  rcases hs with rfl | rfl | rfl <;> rcases hs' with rfl | rfl | rfl <;> simp only [h1, h2, h3] at hq ⊢ <;>
    simp at hq ⊢ <;> tauto

theorem zeroEnv_cover : Spec.SchedulesCover exEnv [fuseStore1, zeroStore, fuseStore2] := by
  have two : Schedule 2 [1, 0] := by unfold Schedule; decide
  have two' : Schedule 2 [0, 1] := by unfold Schedule; decide
  have hlen : ∀ (j : Nat) s, [fuseStore1, zeroStore, fuseStore2][j]? = some s → s.data.length = 2 := by
    intro j s hj
    have := List.mem_of_getElem? hj
    simp only [List.mem_cons, List.not_mem_nil, or_false] at this
    rcases this with rfl | rfl | rfl <;> rfl
  constructor
  · intro s hs
    rw [hlen 0 s hs]; exact two
  · intro j s hs
    rw [hlen j s hs]; exact two'
  · intro j s hs
    rw [hlen j s hs]; exact two

theorem zeroFuse_ok (ws : List ℝ) (hl : 3 ≤ ws.length) :
    ∃ out, fuse exEnv [fuseStore1, zeroStore, fuseStore2] none "wsum" (some [("weights", .nums ws)]) = .ok out := by
  rw [(C61_dispatch exEnv _ (by decide) zeroStores_same "wsum" .wsum (by decide +kernel) _).1]
  obtain ⟨out, h, _⟩ := C49_wsum (.stable ℝ) [1, 0] ws
    ([fuseStore1, zeroStore, fuseStore2].map (fun s : Store Nat Nat ℝ => s.data))
    (fusable_of _ (by decide) zeroStores_wf zeroStores_same) hl (zeroEnv_cover.fusion fuseStore1 rfl)
  exact ⟨out, h⟩

theorem pairFuse_ok (ws : List ℝ) (hl : 2 ≤ ws.length) :
    ∃ out, fuse exEnv [fuseStore1, fuseStore2] none "wsum" (some [("weights", .nums ws)]) = .ok out := by
  rw [(C61_dispatch exEnv _ (by decide) fuseStore_same "wsum" .wsum (by decide +kernel) _).1]
  obtain ⟨out, h, _⟩ := C49_wsum (.stable ℝ) [1, 0] ws
    ([fuseStore1, fuseStore2].map (fun s : Store Nat Nat ℝ => s.data))
    (fusable_of _ (by decide) fuseStore_wf fuseStore_same) hl (exEnv_cover.fusion fuseStore1 rfl)
  exact ⟨out, h⟩

/-- doc 10 of query 1 keeps its fused score, doc 30 (only retrieved by the run without weight) gets 0 -/
example : ∃ out out', fuse exEnv ([fuseStore1] ++ zeroStore :: [fuseStore2]) none "wsum"
      (some [("weights", .nums ([2] ++ 0 :: [3]))]) = .ok out ∧
    fuse exEnv ([fuseStore1] ++ [fuseStore2]) none "wsum" (some [("weights", .nums ([2] ++ [3]))]) = .ok out' ∧
    (Spec.content out).read 1 10 = (Spec.content out').read 1 10 ∧ (Spec.content out).read 1 30 = some 0 := by
  obtain ⟨out, h⟩ := zeroFuse_ok [2, 0, 3] (by decide)
  obtain ⟨out', h'⟩ := pairFuse_ok [2, 3] (by decide)
  have key := fun d => C166_zero_weight exEnv exEnv [fuseStore1] [fuseStore2] zeroStore rfl rfl zeroStores_wf none (by simp)
    [2] [3] rfl zeroEnv_cover exEnv_cover out out' h h' 1 d
  refine ⟨out, out', h, h', (key 10).1 ⟨fuseStore1, by simp, ?_⟩, (key 30).2 ?_ ?_⟩
  · rw [read_score?]; exact fun h => nomatch h
  · intro s hs
    simp only [List.cons_append, List.nil_append, List.mem_cons, List.not_mem_nil, or_false] at hs
    rcases hs with rfl | rfl <;> rw [read_score?] <;> rfl
  · rw [read_score?]; exact fun h => nomatch h

/-- with weights 0, 4, 0 doc 30 gets 4 times its score 9, and doc 10 gets 0 -/
example : ∃ out, fuse exEnv ([fuseStore1] ++ zeroStore :: [fuseStore2]) none "wsum"
      (some [("weights", .nums (List.replicate 1 0 ++ 4 :: List.replicate 1 0))]) = .ok out ∧
    (Spec.content out).read 1 30 = some (4 * 9) ∧ (Spec.content out).read 1 10 = some 0 := by
  obtain ⟨out, h⟩ := zeroFuse_ok [0, 4, 0] (by decide)
  have key := fun d => C166_single_run exEnv [fuseStore1] [fuseStore2] zeroStore zeroStores_wf 4 zeroEnv_cover out h 1 d
  refine ⟨out, h, (key 30).1 9 (by rw [read_score?]; rfl), (key 10).2 (by rw [read_score?]; rfl)
    ⟨fuseStore1, by simp, ?_⟩⟩
  rw [read_score?]; exact fun h => nomatch h

end Ranx
