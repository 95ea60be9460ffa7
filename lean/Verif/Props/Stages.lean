import Verif.Props.Tuned
import Verif.Props.Unanimity

/-!
# C157: fusing in stages

Fusing some runs and then fusing the result with the rest is the same as fusing them all, for the methods
`sum`, `min`, `max` and (with the weights carried along) `wsum`; not for `mnz` and `anz`.
-/

set_option linter.unusedSectionVars false

namespace Ranx
open Dict Store Metrics Eval Fuse Train Opt F64
open _root_.Ranx.Norm (Kind SetIter)

section
variable {κ δ : Type} [LinearOrder κ] [DecidableEq δ]

/-- Specification: two runs with the same queries, and for each query the same docs with the same scores. -/
def Spec.SameTable (a b : Store κ δ ℝ) : Prop :=
  (∀ q, q ∈ a.data.keys ↔ q ∈ b.data.keys) ∧ ∀ q d, (Spec.content a).read q d = (Spec.content b).read q d

/-- Specification: the runs to fuse in two stages, the first `A` and then the rest `B`: well-formed, with the same
queries, at least two in the first stage and one more in the second. -/
structure Spec.TwoStages (A B : List (Store κ δ ℝ)) : Prop where
  first : 2 ≤ A.length
  second : B ≠ []
  wf : ∀ s ∈ A ++ B, Store.Wf s.data
  queries : Spec.SameQueries (A ++ B)

theorem Fuse.inSome_append (A B : List (Store κ δ ℝ)) (q : κ) (d : δ) :
    Spec.InSome ((A ++ B).map (fun s => s.data)) q d ↔
      Spec.InSome (A.map (fun s => s.data)) q d ∨ Spec.InSome (B.map (fun s => s.data)) q d := by
  unfold Spec.InSome
  rw [List.map_append]
  constructor
  · rintro ⟨run, hr, h⟩
    rcases List.mem_append.1 hr with hr | hr
    · exact .inl ⟨run, hr, h⟩
    · exact .inr ⟨run, hr, h⟩
  · rintro (⟨run, hr, h⟩ | ⟨run, hr, h⟩)
    · exact ⟨run, List.mem_append_left _ hr, h⟩
    · exact ⟨run, List.mem_append_right _ hr, h⟩

theorem Fuse.score?_of_inSome {runs : List (Dict κ (Dict δ ℝ))} {q : κ} {d : δ} :
    Spec.InSome runs q d ↔ ∃ run ∈ runs, ∃ s, Spec.score? run q d = some s := by
  unfold Spec.InSome Spec.score?
  constructor
  · rintro ⟨run, hr, v, hv, hd⟩
    obtain ⟨s, hs⟩ := Option.isSome_iff_exists.1 ((get?_isSome (d := v) (k := d)).2 hd)
    exact ⟨run, hr, s, by rw [hv]; exact hs⟩
  · rintro ⟨run, hr, s, hs⟩
    cases hv : Dict.get? run q with
    | none => rw [hv] at hs; cases hs
    | some v =>
      rw [hv] at hs
      exact ⟨run, hr, v, hv, (get?_isSome (d := v) (k := d)).1 (by
        have : Dict.get? v d = some s := hs
        rw [this]; rfl)⟩

/-- what a first stage leaves for the second -/
theorem Fuse.staged (A B : List (Store κ δ ℝ)) (h : Spec.TwoStages A B) (part : Store κ δ ℝ) (val : κ → δ → ℝ)
    (hp : Spec.FusedBy (A.map (fun s => s.data)) val part) :
    Spec.Fusable ((part :: B).map (fun s => s.data)) ∧ Spec.SameQueries (part :: B) ∧
    (∀ q d, Spec.InSome ((part :: B).map (fun s => s.data)) q d ↔ Spec.InSome ((A ++ B).map (fun s => s.data)) q d) ∧
    (∀ q, (∃ run ∈ (part :: B).map (fun s => s.data), q ∈ run.keys) ↔
      ∃ run ∈ (A ++ B).map (fun s => s.data), q ∈ run.keys) ∧
    (∀ q d, Spec.InSome (A.map (fun s => s.data)) q d → Spec.score? part.data q d = some (val q d)) ∧
    (∀ q d, ¬ Spec.InSome (A.map (fun s => s.data)) q d → Spec.score? part.data q d = none) := by
  have hA : A ≠ [] := by intro e; have := h.first; rw [e] at this; simp at this
  obtain ⟨a, ha⟩ := List.exists_mem_of_ne_nil A hA
  have hpk : ∀ q, q ∈ part.data.keys ↔ q ∈ a.data.keys := by
    intro q
    rw [hp.queries q]
    constructor
    · rintro ⟨run, hr, hq⟩
      obtain ⟨s, hs, rfl⟩ := List.mem_map.1 hr
      exact h.queries s (List.mem_append_left _ hs) a (List.mem_append_left _ ha) q hq
    · intro hq
      exact ⟨a.data, List.mem_map.2 ⟨a, ha, rfl⟩, hq⟩
  have hsame : Spec.SameQueries (part :: B) := by
    intro s hs s' hs' q hq
    have h1 : q ∈ a.data.keys := by
      rcases List.mem_cons.1 hs with rfl | hs
      · exact (hpk q).1 hq
      · exact h.queries s (List.mem_append_right _ hs) a (List.mem_append_left _ ha) q hq
    rcases List.mem_cons.1 hs' with rfl | hs'
    · exact (hpk q).2 h1
    · exact h.queries a (List.mem_append_left _ ha) s' (List.mem_append_right _ hs') q h1
  have hwf : ∀ s ∈ part :: B, Store.Wf s.data := by
    intro s hs
    rcases List.mem_cons.1 hs with rfl | hs
    · exact ⟨hp.nodupQ, hp.nodupD⟩
    · exact h.wf s (List.mem_append_right _ hs)
  have hlen : 2 ≤ (part :: B).length := by
    have := List.length_pos_iff.2 h.second
    simp only [List.length_cons]; omega
  have hs1 : ∀ q d, Spec.InSome (A.map (fun s => s.data)) q d → Spec.score? part.data q d = some (val q d) := by
    intro q d hi
    rw [← read_score?]; exact hp.value q d hi
  have hs2 : ∀ q d, ¬ Spec.InSome (A.map (fun s => s.data)) q d → Spec.score? part.data q d = none := by
    intro q d hi
    rw [← read_score?]; exact not_not.1 (mt (hp.docs q d).1 hi)
  refine ⟨fusable_of _ hlen hwf hsame, hsame, ?_, ?_, hs1, hs2⟩
  · intro q d
    rw [inSome_append, show part :: B = [part] ++ B from rfl, inSome_append]
    refine or_congr ?_ Iff.rfl
    rw [score?_of_inSome (runs := [part].map _)]
    constructor
    · rintro ⟨run, hr, s, hs⟩
      simp only [List.map_cons, List.map_nil, List.mem_cons, List.not_mem_nil, or_false] at hr
      subst hr
      by_contra hc
      rw [hs2 q d hc] at hs; cases hs
    · intro hi
      exact ⟨part.data, by simp, _, hs1 q d hi⟩
  · intro q
    constructor
    · rintro ⟨run, hr, hq⟩
      rw [List.map_cons] at hr
      rcases List.mem_cons.1 hr with rfl | hr
      · exact ⟨a.data, List.mem_map.2 ⟨a, List.mem_append_left _ ha, rfl⟩, (hpk q).1 hq⟩
      · exact ⟨run, by rw [List.map_append]; exact List.mem_append_right _ hr, hq⟩
    · rintro ⟨run, hr, hq⟩
      rw [List.map_append] at hr
      rcases List.mem_append.1 hr with hr | hr
      · obtain ⟨s, hs, rfl⟩ := List.mem_map.1 hr
        exact ⟨part.data, by simp, (hpk q).2 (h.queries s (List.mem_append_left _ hs) a (List.mem_append_left _ ha) q hq)⟩
      · exact ⟨run, by rw [List.map_cons]; exact List.mem_cons_of_mem _ hr, hq⟩

/-- two fused runs with the same values -/
theorem Fuse.sameTable_of {R R' : List (Dict κ (Dict δ ℝ))} {val val' : κ → δ → ℝ} {out out' : Store κ δ ℝ}
    (h : Spec.FusedBy R val out) (h' : Spec.FusedBy R' val' out')
    (hi : ∀ q d, Spec.InSome R q d ↔ Spec.InSome R' q d)
    (hq : ∀ q, (∃ run ∈ R, q ∈ run.keys) ↔ ∃ run ∈ R', q ∈ run.keys)
    (hv : ∀ q d, Spec.InSome R' q d → val q d = val' q d) : Spec.SameTable out out' := by
  refine ⟨fun q => (h.queries q).trans ((hq q).trans (h'.queries q).symm), fun q d => ?_⟩
  by_cases hc : Spec.InSome R' q d
  · rw [h.value q d ((hi q d).2 hc), h'.value q d hc, hv q d hc]
  · rw [not_not.1 (mt (h'.docs q d).1 hc), not_not.1 (mt (h.docs q d).1 (fun k => hc ((hi q d).1 k)))]

theorem Fuse.scores_nil_of {R : List (Dict κ (Dict δ ℝ))} {q : κ} {d : δ} (h : ¬ Spec.InSome R q d) :
    Spec.scores R q d = [] := by
  unfold Spec.scores
  rw [List.filterMap_eq_nil_iff]
  intro run hr
  cases hs : Spec.score? run q d with
  | none => rfl
  | some s => exact absurd (score?_of_inSome.2 ⟨run, hr, s, hs⟩) h

/-- the value of `comb_min` -/
theorem Fuse.combMin_val (S : ArgSort ℝ) (sched : List Nat) (runs : List (Dict κ (Norm.Results δ ℝ)))
    (hf : Spec.Fusable runs) (hs : Schedule (queryCount runs) sched) :
    ∃ out val, combMin S sched runs = .ok out ∧ Spec.FusedBy runs val out ∧
      ∀ q d, IsLeast {x | ∃ run ∈ runs, x = (Spec.score? run q d).getD (10 ^ 9)} (val q d) := by
  obtain ⟨out, h1, h2⟩ := fuseRun_spec S minScore
    (fun rs d => match minScore rs d with | .ok v => v | .error _ => 0) sched runs hf hs
    (fun q d _ => by
      obtain ⟨m, hm, _⟩ := minScore_eq runs hf.nonempty q d
      rw [hm])
  refine ⟨out, _, h1, h2, ?_⟩
  intro q d
  obtain ⟨m, hm, hmem, hmin⟩ := minScore_eq runs hf.nonempty q d
  simp only [hm]
  refine ⟨?_, ?_⟩
  · obtain ⟨run, hr, rfl⟩ := List.mem_map.1 hmem
    exact ⟨run, hr, rfl⟩
  · rintro x ⟨run, hr, rfl⟩
    exact hmin _ (List.mem_map.2 ⟨run, hr, rfl⟩)

/-- the value of `comb_max` -/
theorem Fuse.combMax_val (S : ArgSort ℝ) (sched : List Nat) (runs : List (Dict κ (Norm.Results δ ℝ)))
    (hf : Spec.Fusable runs) (hs : Schedule (queryCount runs) sched) :
    ∃ out val, combMax S sched runs = .ok out ∧ Spec.FusedBy runs val out ∧
      ∀ q d, IsGreatest {x | ∃ run ∈ runs, x = (Spec.score? run q d).getD (-(10 ^ 9))} (val q d) := by
  obtain ⟨out, h1, h2⟩ := fuseRun_spec S maxScore
    (fun rs d => match maxScore rs d with | .ok v => v | .error _ => 0) sched runs hf hs
    (fun q d _ => by
      obtain ⟨m, hm, _⟩ := maxScore_eq runs hf.nonempty q d
      rw [hm])
  refine ⟨out, _, h1, h2, ?_⟩
  intro q d
  obtain ⟨m, hm, hmem, hmax⟩ := maxScore_eq runs hf.nonempty q d
  simp only [hm]
  refine ⟨?_, ?_⟩
  · obtain ⟨run, hr, rfl⟩ := List.mem_map.1 hmem
    exact ⟨run, hr, rfl⟩
  · rintro x ⟨run, hr, rfl⟩
    exact hmax _ (List.mem_map.2 ⟨run, hr, rfl⟩)

/-- the set of values a second stage sees has the same least and greatest element -/
theorem Fuse.stage_bounds (A B : List (Dict κ (Dict δ ℝ))) (part : Dict κ (Dict δ ℝ)) (q : κ) (d : δ) (c vA : ℝ)
    (h1 : Spec.InSome A q d → Spec.score? part q d = some vA)
    (h2 : ¬ Spec.InSome A q d → Spec.score? part q d = none) (hA : A ≠ []) :
    (∀ x, IsLeast {x | ∃ run ∈ A, x = (Spec.score? run q d).getD c} vA →
      IsLeast {x | ∃ run ∈ part :: B, x = (Spec.score? run q d).getD c} x →
      IsLeast {x | ∃ run ∈ A ++ B, x = (Spec.score? run q d).getD c} x) ∧
    (∀ x, IsGreatest {x | ∃ run ∈ A, x = (Spec.score? run q d).getD c} vA →
      IsGreatest {x | ∃ run ∈ part :: B, x = (Spec.score? run q d).getD c} x →
      IsGreatest {x | ∃ run ∈ A ++ B, x = (Spec.score? run q d).getD c} x) := by
  obtain ⟨a, ha⟩ := List.exists_mem_of_ne_nil A hA
  have hn : ¬ Spec.InSome A q d → ∀ run ∈ A, Spec.score? run q d = none := by
    intro hc run hr
    cases hs : Spec.score? run q d with
    | none => rfl
    | some s => exact absurd (score?_of_inSome.2 ⟨run, hr, s, hs⟩) hc
  have hval : (∃ run ∈ A, vA = (Spec.score? run q d).getD c) →
      (Spec.score? part q d).getD c = vA := by
    rintro ⟨run, hr, e⟩
    by_cases hi : Spec.InSome A q d
    · rw [h1 hi]; rfl
    · rw [h2 hi, e, hn hi run hr]
  constructor
  · rintro x ⟨hm, hl⟩ ⟨hx, hxl⟩
    have e := hval hm
    refine ⟨?_, ?_⟩
    · obtain ⟨run, hr, rfl⟩ := hx
      rcases List.mem_cons.1 hr with rfl | hr
      · rw [e]
        obtain ⟨run', hr', e'⟩ := hm
        exact ⟨run', List.mem_append_left _ hr', e'⟩
      · exact ⟨run, List.mem_append_right _ hr, rfl⟩
    · rintro y ⟨run, hr, rfl⟩
      rcases List.mem_append.1 hr with hr | hr
      · have k1 : x ≤ (Spec.score? part q d).getD c := hxl ⟨part, by simp, rfl⟩
        have k2 : vA ≤ (Spec.score? run q d).getD c := hl ⟨run, hr, rfl⟩
        rw [e] at k1
        exact k1.trans k2
      · exact hxl ⟨run, List.mem_cons_of_mem _ hr, rfl⟩
  · rintro x ⟨hm, hl⟩ ⟨hx, hxl⟩
    have e := hval hm
    refine ⟨?_, ?_⟩
    · obtain ⟨run, hr, rfl⟩ := hx
      rcases List.mem_cons.1 hr with rfl | hr
      · rw [e]
        obtain ⟨run', hr', e'⟩ := hm
        exact ⟨run', List.mem_append_left _ hr', e'⟩
      · exact ⟨run, List.mem_append_right _ hr, rfl⟩
    · rintro y ⟨run, hr, rfl⟩
      rcases List.mem_append.1 hr with hr | hr
      · have k1 : (Spec.score? part q d).getD c ≤ x := hxl ⟨part, by simp, rfl⟩
        have k2 : (Spec.score? run q d).getD c ≤ vA := hl ⟨run, hr, rfl⟩
        rw [e] at k1
        exact k2.trans k1
      · exact hxl ⟨run, List.mem_cons_of_mem _ hr, rfl⟩

/-- **C157**: `fuse([fuse(A, method), *B], method)` has the queries, docs and scores of `fuse([*A, *B], method)`, for
`sum`, `min` and `max` without normalization, whatever the schedules and set orders of the three calls. -/
theorem C157_stages (E₁ E₂ E₃ : Env δ) (A B : List (Store κ δ ℝ)) (h : Spec.TwoStages A B) (method : String)
    (hm : method = "sum" ∨ method = "min" ∨ method = "max")
    (hE₁ : Spec.SchedulesCover E₁ A) (hE₃ : Spec.SchedulesCover E₃ (A ++ B)) :
    ∃ part whole, fuse E₁ A none method none = .ok part ∧ fuse E₃ (A ++ B) none method none = .ok whole ∧
      (Spec.SchedulesCover E₂ (part :: B) →
        ∃ out, fuse E₂ (part :: B) none method none = .ok out ∧ Spec.SameTable out whole) := by
  have hA : A ≠ [] := by intro e; have := h.first; rw [e] at this; simp at this
  have hwA : ∀ s ∈ A, Store.Wf s.data := fun s hs => h.wf s (List.mem_append_left _ hs)
  have hqA : Spec.SameQueries A := fun s hs s' hs' => h.queries s (List.mem_append_left _ hs) s' (List.mem_append_left _ hs')
  have hn3 : 2 ≤ (A ++ B).length := by rw [List.length_append]; have := h.first; omega
  have hn2 : ∀ part : Store κ δ ℝ, 2 ≤ (part :: B).length := by
    intro part
    have := List.length_pos_iff.2 h.second
    simp only [List.length_cons]; omega
  have fA := fusable_of A h.first hwA hqA
  have fW := fusable_of (A ++ B) hn3 h.wf h.queries
  have sA := (fits_of E₁ A hE₁ hA).main
  have sW := (fits_of E₃ (A ++ B) hE₃ (by simp [hA])).main
  have hnA : A.map (fun s => s.data) ≠ [] := by simpa using hA
  rcases hm with rfl | rfl | rfl
  · obtain ⟨part, p1, p2⟩ := C49_comb_sum E₁.S E₁.sched _ fA sA
    obtain ⟨whole, w1, w2⟩ := C49_comb_sum E₃.S E₃.sched _ fW sW
    obtain ⟨g1, g2, g3, g4, g5, g6⟩ := staged A B h part _ p2
    refine ⟨part, whole, (fuse_named_none E₁ A h.first hqA none "sum" .combSum (by decide +kernel) _ rfl).trans p1,
      (fuse_named_none E₃ _ hn3 h.queries none "sum" .combSum (by decide +kernel) _ rfl).trans w1, fun hE₂ => ?_⟩
    obtain ⟨out, o1, o2⟩ := C49_comb_sum E₂.S E₂.sched _ g1 (fits_of E₂ (part :: B) hE₂ (by simp)).main
    refine ⟨out, (fuse_named_none E₂ _ (hn2 part) g2 none "sum" .combSum (by decide +kernel) _ rfl).trans o1,
      sameTable_of o2 w2 g3 g4 ?_⟩
    intro q d _
    have e : Spec.scores ((A ++ B).map (fun s => s.data)) q d =
        Spec.scores (A.map (fun s => s.data)) q d ++ Spec.scores (B.map (fun s => s.data)) q d := by
      unfold Spec.scores
      rw [List.map_append, List.filterMap_append]
    have e' : Spec.scores ((part :: B).map (fun s => s.data)) q d =
        (Spec.score? part.data q d).toList ++ Spec.scores (B.map (fun s => s.data)) q d := by
      unfold Spec.scores
      rw [List.map_cons, List.filterMap_cons]
      cases Spec.score? part.data q d <;> rfl
    rw [e, e', List.sum_append, List.sum_append]
    by_cases hi : Spec.InSome (A.map (fun s => s.data)) q d
    · rw [g5 q d hi]; simp
    · rw [g6 q d hi, scores_nil_of hi]; simp
  · obtain ⟨part, vA, p1, p2, p3⟩ := combMin_val E₁.S E₁.sched _ fA sA
    obtain ⟨whole, vW, w1, w2, w3⟩ := combMin_val E₃.S E₃.sched _ fW sW
    obtain ⟨g1, g2, g3, g4, g5, g6⟩ := staged A B h part _ p2
    refine ⟨part, whole, (fuse_named_none E₁ A h.first hqA none "min" .combMin (by decide +kernel) _ rfl).trans p1,
      (fuse_named_none E₃ _ hn3 h.queries none "min" .combMin (by decide +kernel) _ rfl).trans w1, fun hE₂ => ?_⟩
    obtain ⟨out, vO, o1, o2, o3⟩ := combMin_val E₂.S E₂.sched _ g1 (fits_of E₂ (part :: B) hE₂ (by simp)).main
    refine ⟨out, (fuse_named_none E₂ _ (hn2 part) g2 none "min" .combMin (by decide +kernel) _ rfl).trans o1,
      sameTable_of o2 w2 g3 g4 ?_⟩
    intro q d _
    have k := (stage_bounds (A.map (fun s => s.data)) (B.map (fun s => s.data)) part.data q d (10 ^ 9) (vA q d)
      (g5 q d) (g6 q d) hnA).1 (vO q d) (p3 q d) (o3 q d)
    have k' := w3 q d
    rw [List.map_append] at k'
    exact k.unique k'
  · obtain ⟨part, vA, p1, p2, p3⟩ := combMax_val E₁.S E₁.sched _ fA sA
    obtain ⟨whole, vW, w1, w2, w3⟩ := combMax_val E₃.S E₃.sched _ fW sW
    obtain ⟨g1, g2, g3, g4, g5, g6⟩ := staged A B h part _ p2
    refine ⟨part, whole, (fuse_named_none E₁ A h.first hqA none "max" .combMax (by decide +kernel) _ rfl).trans p1,
      (fuse_named_none E₃ _ hn3 h.queries none "max" .combMax (by decide +kernel) _ rfl).trans w1, fun hE₂ => ?_⟩
    obtain ⟨out, vO, o1, o2, o3⟩ := combMax_val E₂.S E₂.sched _ g1 (fits_of E₂ (part :: B) hE₂ (by simp)).main
    refine ⟨out, (fuse_named_none E₂ _ (hn2 part) g2 none "max" .combMax (by decide +kernel) _ rfl).trans o1,
      sameTable_of o2 w2 g3 g4 ?_⟩
    intro q d _
    have k := (stage_bounds (A.map (fun s => s.data)) (B.map (fun s => s.data)) part.data q d (-(10 ^ 9)) (vA q d)
      (g5 q d) (g6 q d) hnA).2 (vO q d) (p3 q d) (o3 q d)
    have k' := w3 q d
    rw [List.map_append] at k'
    exact k.unique k'

/-- **C157** (weights): `fuse([fuse(A, "wsum", weights=u), *B], "wsum", weights=[1, *w])` has the queries, docs and
scores of `fuse([*A, *B], "wsum", weights=[*u, *w])`. -/
theorem C157_weighted (E₁ E₂ E₃ : Env δ) (A B : List (Store κ δ ℝ)) (h : Spec.TwoStages A B) (u w : List ℝ)
    (hu : u.length = A.length) (hw : w.length = B.length)
    (hE₁ : Spec.SchedulesCover E₁ A) (hE₃ : Spec.SchedulesCover E₃ (A ++ B)) :
    ∃ part whole, fuse E₁ A none "wsum" (some [("weights", .nums u)]) = .ok part ∧
      fuse E₃ (A ++ B) none "wsum" (some [("weights", .nums (u ++ w))]) = .ok whole ∧
      (Spec.SchedulesCover E₂ (part :: B) →
        ∃ out, fuse E₂ (part :: B) none "wsum" (some [("weights", .nums (1 :: w))]) = .ok out ∧
          Spec.SameTable out whole) := by
  have hA : A ≠ [] := by intro e; have := h.first; rw [e] at this; simp at this
  have hwA : ∀ s ∈ A, Store.Wf s.data := fun s hs => h.wf s (List.mem_append_left _ hs)
  have hqA : Spec.SameQueries A := fun s hs s' hs' => h.queries s (List.mem_append_left _ hs) s' (List.mem_append_left _ hs')
  have hn3 : 2 ≤ (A ++ B).length := by rw [List.length_append]; have := h.first; omega
  have hn2 : ∀ part : Store κ δ ℝ, 2 ≤ (part :: B).length := by
    intro part
    have := List.length_pos_iff.2 h.second
    simp only [List.length_cons]; omega
  have fA := fusable_of A h.first hwA hqA
  have fW := fusable_of (A ++ B) hn3 h.wf h.queries
  have sA := (fits_of E₁ A hE₁ hA).main
  have sW := (fits_of E₃ (A ++ B) hE₃ (by simp [hA])).main
  obtain ⟨part, p1, p2⟩ := C49_wsum E₁.S E₁.sched u _ fA (by simp [hu]) sA
  obtain ⟨whole, w1, w2⟩ := C49_wsum E₃.S E₃.sched (u ++ w) _ fW (by simp [hu, hw]) sW
  obtain ⟨g1, g2, g3, g4, g5, g6⟩ := staged A B h part _ p2
  refine ⟨part, whole, (fuse_named E₁ A h.first hqA none "wsum" .wsum (by decide +kernel) _ _ rfl).trans p1,
    (fuse_named E₃ _ hn3 h.queries none "wsum" .wsum (by decide +kernel) _ _ rfl).trans w1, fun hE₂ => ?_⟩
  obtain ⟨out, o1, o2⟩ := C49_wsum E₂.S E₂.sched (1 :: w) _ g1 (by simp [hw])
    (fits_of E₂ (part :: B) hE₂ (by simp)).main
  refine ⟨out, (fuse_named E₂ _ (hn2 part) g2 none "wsum" .wsum (by decide +kernel) _ _ rfl).trans o1,
    sameTable_of o2 w2 g3 g4 ?_⟩
  intro q d _
  rw [weighted_sum_eq, weighted_sum_eq, List.map_append, List.zip_append (by simp [hu]), List.map_append,
    List.sum_append, List.map_cons, List.zip_cons_cons, List.map_cons, List.sum_cons, ← weighted_sum_eq (A.map _)]
  congr 1
  by_cases hi : Spec.InSome (A.map (fun s => s.data)) q d
  · rw [g5 q d hi]; simp
  · rw [g6 q d hi]
    have : Spec.weighted (A.map (fun s => s.data)) u q d = [] := by
      unfold Spec.weighted
      rw [List.filterMap_eq_nil_iff]
      rintro ⟨run, x⟩ hr
      have hr' := (List.of_mem_zip hr).1
      cases hs : Spec.score? run q d with
      | none => rfl
      | some s => exact absurd (score?_of_inSome.2 ⟨run, hr', s, hs⟩) hi
    rw [this]; simp

end

/-- a run with docs 10 and 12 for query 1, whose scores differ from those of `lowFirst` -/
noncomputable def stageStore : Store Nat Nat ℝ := ⟨[(1, [(10, 9), (12, 1)])], false⟩

theorem stage_two : Spec.TwoStages [lowFirst, lowFirst] [stageStore] := by
  refine ⟨by decide, by simp, ?_, ?_⟩
  · intro s hs
    simp only [List.cons_append, List.nil_append, List.mem_cons, List.not_mem_nil, or_false] at hs
    rcases hs with rfl | rfl | rfl
    · exact wf_low
    · exact wf_low
    · exact ⟨by unfold NodupKeys; decide, by unfold NodupKeys stageStore; simp⟩
  · have hk : ∀ s ∈ [lowFirst, lowFirst] ++ [stageStore], s.data.keys = [1] := by
      intro s hs
      simp only [List.cons_append, List.nil_append, List.mem_cons, List.not_mem_nil, or_false] at hs
      rcases hs with rfl | rfl | rfl <;> rfl
    intro s hs s' hs' q hq
    rw [hk s' hs', ← hk s hs]; exact hq

theorem one_covers (runs : List (Store Nat Nat ℝ)) (h : ∀ s ∈ runs, s.data.length = 1) :
    Spec.SchedulesCover oneEnv runs := by
  have hs : Schedule 1 [0] := by unfold Schedule; decide
  refine ⟨?_, ?_, ?_⟩
  · intro s e; rw [h s (List.mem_of_getElem? e)]; exact hs
  · intro j s e; rw [h s (List.mem_of_getElem? e)]; exact hs
  · intro j s e; rw [h s (List.mem_of_getElem? e)]; exact hs

theorem stage_covers : Spec.SchedulesCover oneEnv [lowFirst, lowFirst] ∧
    Spec.SchedulesCover oneEnv ([lowFirst, lowFirst] ++ [stageStore]) := by
  constructor
  · apply one_covers
    intro s hs
    simp only [List.mem_cons, List.not_mem_nil, or_false] at hs
    rcases hs with rfl | rfl <;> rfl
  · apply one_covers
    intro s hs
    simp only [List.cons_append, List.nil_append, List.mem_cons, List.not_mem_nil, or_false] at hs
    rcases hs with rfl | rfl | rfl <;> rfl

/-- what the first stage returns has one query -/
theorem stage_length {val : Nat → Nat → ℝ} {part : Store Nat Nat ℝ}
    (hp : Spec.FusedBy ([lowFirst, lowFirst].map (fun s => s.data)) val part) : part.data.length = 1 := by
  have hk : ∀ q, q ∈ part.data.keys ↔ q ∈ [1] := by
    intro q
    rw [hp.queries q]
    constructor
    · rintro ⟨run, hr, hq⟩
      simp only [List.map_cons, List.map_nil, List.mem_cons, List.not_mem_nil, or_false, or_self] at hr
      subst hr
      exact hq
    · intro hq
      exact ⟨lowFirst.data, by simp, hq⟩
  have := ((List.perm_ext_iff_of_nodup hp.nodupQ (by decide)).2 hk).length_eq
  rw [← length_keys]; exact this

theorem stage_second_covers {val : Nat → Nat → ℝ} {part : Store Nat Nat ℝ}
    (hp : Spec.FusedBy ([lowFirst, lowFirst].map (fun s => s.data)) val part) :
    Spec.SchedulesCover oneEnv (part :: [stageStore]) := by
  apply one_covers
  intro s hs
  simp only [List.mem_cons, List.not_mem_nil, or_false] at hs
  rcases hs with rfl | rfl
  · exact stage_length hp
  · rfl

theorem stage_in : Spec.InSome ([lowFirst, lowFirst].map (fun s => s.data)) 1 10 :=
  ⟨lowFirst.data, by simp, [(10, 3), (11, 5)], rfl, by decide⟩

/-- the hypotheses of `C157_stages` and `C157_weighted` are met, also those of the second stage -/
example : ∃ part, fuse oneEnv [lowFirst, lowFirst] none "sum" none = .ok part ∧
    Spec.SchedulesCover oneEnv (part :: [stageStore]) ∧ Spec.TwoStages [lowFirst, lowFirst] [stageStore] ∧
    ([1, 2] : List ℝ).length = [lowFirst, lowFirst].length := by
  have fA := fusable_of [lowFirst, lowFirst] (by decide) (fun s hs => stage_two.wf s (List.mem_append_left _ hs))
    (sameQueries_pair _)
  obtain ⟨part, p1, p2⟩ := C49_comb_sum oneEnv.S oneEnv.sched _ fA (fits_of oneEnv _ stage_covers.1 (by simp)).main
  exact ⟨part, (fuse_named_none oneEnv _ (by decide) (sameQueries_pair _) none "sum" .combSum (by decide +kernel) _
    rfl).trans p1, stage_second_covers p2, stage_two, rfl⟩

/-- **C157** fails for `mnz` and `anz`: fusing in two stages gives another score than fusing all at once. -/
theorem C157_refuted (method : String) (hm : method = "mnz" ∨ method = "anz") :
    ∃ part out whole : Store Nat Nat ℝ, Spec.TwoStages [lowFirst, lowFirst] [stageStore] ∧
      fuse oneEnv [lowFirst, lowFirst] none method none = .ok part ∧
      fuse oneEnv (part :: [stageStore]) none method none = .ok out ∧
      fuse oneEnv ([lowFirst, lowFirst] ++ [stageStore]) none method none = .ok whole ∧
      (Spec.content out).read 1 10 ≠ (Spec.content whole).read 1 10 := by
  have h := stage_two
  have hn3 : 2 ≤ ([lowFirst, lowFirst] ++ [stageStore]).length := by decide
  have fA := fusable_of [lowFirst, lowFirst] (by decide) (fun s hs => h.wf s (List.mem_append_left _ hs))
    (sameQueries_pair _)
  have fW := fusable_of ([lowFirst, lowFirst] ++ [stageStore]) hn3 h.wf h.queries
  have sA := (fits_of oneEnv _ stage_covers.1 (by simp)).main
  have sW := (fits_of oneEnv _ stage_covers.2 (by simp)).main
  have c1 : Spec.scores ([lowFirst, lowFirst].map (fun s => s.data)) 1 10 = [3, 3] := rfl
  have c3 : Spec.scores (([lowFirst, lowFirst] ++ [stageStore]).map (fun s => s.data)) 1 10 = [3, 3, 9] := rfl
  have iW : Spec.InSome (([lowFirst, lowFirst] ++ [stageStore]).map (fun s => s.data)) 1 10 :=
    (inSome_append _ _ 1 10).2 (.inl stage_in)
  have c2 : ∀ (part : Store Nat Nat ℝ) (x : ℝ), Spec.score? part.data 1 10 = some x →
      Spec.scores ((part :: [stageStore]).map (fun s => s.data)) 1 10 = [x, 9] := by
    intro part x hx
    have h9 : Spec.score? stageStore.data 1 10 = some 9 := rfl
    unfold Spec.scores
    simp only [List.map_cons, List.map_nil, List.filterMap_cons, List.filterMap_nil, hx, h9]
  rcases hm with rfl | rfl
  · obtain ⟨part, p1, p2⟩ := C49_comb_mnz oneEnv.S oneEnv.sched _ fA sA
    obtain ⟨whole, w1, w2⟩ := C49_comb_mnz oneEnv.S oneEnv.sched _ fW sW
    obtain ⟨g1, g2, g3, g4, g5, g6⟩ := staged _ _ h part _ p2
    obtain ⟨out, o1, o2⟩ := C49_comb_mnz oneEnv.S oneEnv.sched _ g1
      (fits_of oneEnv (part :: [stageStore]) (stage_second_covers p2) (by simp)).main
    refine ⟨part, out, whole, h,
      (fuse_named_none oneEnv _ (by decide) (sameQueries_pair _) none "mnz" .combMnz (by decide +kernel) _ rfl).trans p1,
      (fuse_named_none oneEnv _ (by simp) g2 none "mnz" .combMnz (by decide +kernel) _ rfl).trans o1,
      (fuse_named_none oneEnv _ hn3 h.queries none "mnz" .combMnz (by decide +kernel) _ rfl).trans w1, ?_⟩
    rw [o2.value 1 10 ((g3 1 10).2 iW), w2.value 1 10 iW, c3, c2 part _ (g5 1 10 stage_in), c1]
    intro e
    have := Option.some.inj e
    norm_num at this
  · obtain ⟨part, p1, p2⟩ := C49_comb_anz oneEnv.S oneEnv.sched _ fA sA
    obtain ⟨whole, w1, w2⟩ := C49_comb_anz oneEnv.S oneEnv.sched _ fW sW
    obtain ⟨g1, g2, g3, g4, g5, g6⟩ := staged _ _ h part _ p2
    obtain ⟨out, o1, o2⟩ := C49_comb_anz oneEnv.S oneEnv.sched _ g1
      (fits_of oneEnv (part :: [stageStore]) (stage_second_covers p2) (by simp)).main
    refine ⟨part, out, whole, h,
      (fuse_named_none oneEnv _ (by decide) (sameQueries_pair _) none "anz" .combAnz (by decide +kernel) _ rfl).trans p1,
      (fuse_named_none oneEnv _ (by simp) g2 none "anz" .combAnz (by decide +kernel) _ rfl).trans o1,
      (fuse_named_none oneEnv _ hn3 h.queries none "anz" .combAnz (by decide +kernel) _ rfl).trans w1, ?_⟩
    rw [o2.value 1 10 ((g3 1 10).2 iW), w2.value 1 10 iW, c3, c2 part _ (g5 1 10 stage_in), c1]
    intro e
    have := Option.some.inj e
    norm_num at this

end Ranx
