import Verif.Props.WmnzWeights

/-!
# Property C174: a whole-number weight is repetition

Weighting a run with 2 in `wsum` is giving it twice to `sum`.
-/

set_option linter.unusedSectionVars false

namespace Ranx
open Dict Store Metrics Eval Fuse Train Opt F64
open _root_.Ranx.Norm (Kind SetIter)

/-- Specification: the list with its `i`-th element repeated `ms[i]` times. -/
def Spec.repeated {β : Type} (l : List β) (ms : List ℕ) : List β :=
  (l.zip ms).flatMap (fun p => List.replicate p.2 p.1)

section
variable {κ δ ι : Type} [LinearOrder κ] [DecidableEq δ] [LinearOrder ι]

theorem Opt.repeated_map {β γ : Type} (f : β → γ) (l : List β) (ms : List ℕ) :
    Spec.repeated (l.map f) ms = (Spec.repeated l ms).map f := by
  unfold Spec.repeated
  rw [List.zip_map_left, List.flatMap_map, List.map_flatMap]
  simp only [List.map_replicate, Prod.map_fst, Prod.map_snd, id]

theorem Opt.mem_repeated {β : Type} (l : List β) (ms : List ℕ) (hl : ms.length = l.length) (hm : ∀ m ∈ ms, 1 ≤ m)
    (x : β) : x ∈ Spec.repeated l ms ↔ x ∈ l := by
  unfold Spec.repeated
  rw [List.mem_flatMap]
  constructor
  · rintro ⟨p, h1, h2⟩
    rw [List.eq_of_mem_replicate h2]
    exact (List.of_mem_zip h1).1
  · intro hx
    obtain ⟨i, hi, rfl⟩ := List.getElem_of_mem hx
    have hi' : i < ms.length := by omega
    refine ⟨(l[i], ms[i]), ?_, ?_⟩
    · exact List.mem_of_getElem? (i := i) (List.getElem?_zip_eq_some.2
        ⟨List.getElem?_eq_getElem hi, List.getElem?_eq_getElem hi'⟩)
    · rw [List.mem_replicate]
      exact ⟨by have := hm _ (List.getElem_mem hi'); simp only; omega, rfl⟩

theorem Opt.repeated_length {β : Type} (l : List β) (ms : List ℕ) (hl : ms.length = l.length) (hm : ∀ m ∈ ms, 1 ≤ m) :
    l.length ≤ (Spec.repeated l ms).length := by
  induction l generalizing ms with
  | nil => simp
  | cons a l ih =>
    cases ms with
    | nil => cases hl
    | cons m ms =>
      have h1 := ih ms (by simpa using hl) (fun x hx => hm x (List.mem_cons_of_mem _ hx))
      have h2 := hm m (by simp)
      unfold Spec.repeated at h1 ⊢
      simp only [List.zip_cons_cons, List.flatMap_cons, List.length_append, List.length_replicate, List.length_cons]
      omega

theorem Opt.repeated_sum (q : κ) (d : δ) (L : List (Dict κ (Norm.Results δ ℝ))) (ms : List ℕ)
    (hl : ms.length = L.length) :
    (Spec.scores (Spec.repeated L ms) q d).sum =
      ((Spec.weighted L (ms.map (fun (m : ℕ) => (m : ℝ))) q d).map (fun p => p.2 * p.1)).sum := by
  induction L generalizing ms with
  | nil =>
    cases ms with
    | nil => rfl
    | cons _ _ => cases hl
  | cons run L ih =>
    cases ms with
    | nil => cases hl
    | cons m ms =>
      have h1 := ih ms (by simpa using hl)
      have e1 : Spec.repeated (run :: L) (m :: ms) = List.replicate m run ++ Spec.repeated L ms := rfl
      have e2 : ∀ m : ℕ, (Spec.scores (List.replicate m run ++ Spec.repeated L ms) q d).sum =
          m * (Spec.score? run q d).getD 0 + (Spec.scores (Spec.repeated L ms) q d).sum := by
        intro m
        induction m with
        | zero => simp
        | succ m ihm =>
          rw [List.replicate_succ, List.cons_append]
          unfold Spec.scores at ihm ⊢
          rw [List.filterMap_cons]
          cases hx : Spec.score? run q d with
          | none =>
            simp only
            rw [ihm, hx]
            simp
          | some x =>
            simp only
            rw [List.sum_cons, ihm, hx]
            simp only [Option.getD_some]
            push_cast
            ring
      rw [e1, e2, h1]
      unfold Spec.weighted
      rw [List.map_cons, List.zip_cons_cons, List.filterMap_cons]
      cases hx : Spec.score? run q d with
      | none => simp [hx]
      | some x => simp [hx]

/-- **C174**: with any normalization but borda, `wsum` with the whole numbers `ms ≥ 1` as weights returns the queries,
docs and scores that `sum` returns when the `i`-th run is given `ms[i]` times. -/
theorem C174_whole_weights (E E' : Env δ) (runs : List (Store κ δ ℝ)) (hn : 2 ≤ runs.length)
    (hw : ∀ s ∈ runs, Store.Wf s.data) (hq : Spec.SameQueries runs) (hE : Spec.SchedulesCover E runs)
    (ms : List ℕ) (hl : ms.length = runs.length) (hm : ∀ m ∈ ms, 1 ≤ m)
    (hE' : Spec.SchedulesCover E' (Spec.repeated runs ms)) (norm : Option String) (k : Option Kind)
    (hk : Spec.NormNamed norm k) :
    ∃ out out', fuse E runs norm "wsum" (some [("weights", .nums (ms.map (fun (m : ℕ) => (m : ℝ))))]) = .ok out ∧
      fuse E' (Spec.repeated runs ms) norm "sum" none = .ok out' ∧
      (∀ q, q ∈ out.data.keys ↔ q ∈ out'.data.keys) ∧
      ∀ q d, (Spec.content out).read q d = (Spec.content out').read q d := by
  have hmem := mem_repeated runs ms hl hm
  have hn' : 2 ≤ (Spec.repeated runs ms).length := le_trans hn (repeated_length runs ms hl hm)
  have hq' : Spec.SameQueries (Spec.repeated runs ms) :=
    fun s hs s' hs' => hq s ((hmem s).1 hs) s' ((hmem s').1 hs')
  obtain ⟨nr, hnr, hS⟩ := normStep E runs hn hw hq hE norm k hk
  obtain ⟨nr', hnr', hS'⟩ := normStep E' (Spec.repeated runs ms) hn' (fun s hs => hw s ((hmem s).1 hs)) hq' hE' norm k hk
  have hrep : Spec.normalised k ((Spec.repeated runs ms).map (fun s => s.data)) =
      Spec.repeated (Spec.normalised k (runs.map (fun s => s.data))) ms := by
    cases k with
    | none => exact (repeated_map _ _ _).symm
    | some k => rw [normalised_some, normalised_some, ← repeated_map, ← repeated_map]
  have hsc' := hS'.score
  rw [hrep] at hsc'
  have hlen : nr.length = runs.length := by
    rw [hS.score.length_eq]
    cases k with
    | none => exact List.length_map _
    | some k => rw [normalised_some, List.length_map, List.length_map]
  have hln : (Spec.normalised k (runs.map (fun s => s.data))).length = runs.length := by
    rw [← hS.score.length_eq, hlen]
  obtain ⟨a, e1, b1⟩ := C49_wsum E.S E.sched (ms.map (fun (m : ℕ) => (m : ℝ))) nr hS.fusable (by
    rw [hlen, List.length_map, hl]) hS.fits.main
  obtain ⟨b, e2, b2⟩ := C49_comb_sum E'.S E'.sched nr' hS'.fusable hS'.fits.main
  have hex : ∀ (P : Dict κ (Norm.Results δ ℝ) → Prop),
      (∃ run ∈ Spec.repeated (Spec.normalised k (runs.map (fun s => s.data))) ms, P run) ↔
        ∃ run ∈ Spec.normalised k (runs.map (fun s => s.data)), P run := by
    intro P
    have h := mem_repeated (Spec.normalised k (runs.map (fun s => s.data))) ms (by rw [hln, hl]) hm
    exact ⟨fun ⟨r, h1, h2⟩ => ⟨r, (h r).1 h1, h2⟩, fun ⟨r, h1, h2⟩ => ⟨r, (h r).2 h1, h2⟩⟩
  have hF : ∀ (A B : List (Dict κ (Norm.Results δ ℝ))),
      List.Forall₂ (fun run' run => ∀ q d, Spec.score? run' q d = Spec.score? run q d) A B → ∀ q d,
      ((∃ run ∈ A, (Spec.score? run q d).isSome) ↔ ∃ run ∈ B, (Spec.score? run q d).isSome) := by
    intro A B h q d
    induction h with
    | nil => simp
    | cons h _ ih => simp only [List.mem_cons, exists_eq_or_imp, h q d, ih]
  have hin : ∀ q d, Spec.InSome nr q d ↔ Spec.InSome nr' q d := by
    intro q d
    rw [inSome_iff, inSome_iff, hF _ _ hS.score, hF _ _ hsc', hex]
  refine ⟨a, b, (fuse_named E runs hn hq norm "wsum" .wsum (by decide +kernel) _ nr hnr).trans e1,
    (fuse_named_none E' _ hn' hq' norm "sum" .combSum (by decide +kernel) nr' hnr').trans e2, ?_, ?_⟩
  · intro q
    rw [b1.queries, b2.queries, hS.queries, hS'.queries]
    constructor
    · rintro ⟨run, h1, h2⟩
      obtain ⟨s, hs, rfl⟩ := List.mem_map.1 h1
      exact ⟨s.data, List.mem_map.2 ⟨s, (hmem s).2 hs, rfl⟩, h2⟩
    · rintro ⟨run, h1, h2⟩
      obtain ⟨s, hs, rfl⟩ := List.mem_map.1 h1
      exact ⟨s.data, List.mem_map.2 ⟨s, (hmem s).1 hs, rfl⟩, h2⟩
  · intro q d
    by_cases hi : Spec.InSome nr q d
    · rw [b1.value q d hi, b2.value q d ((hin q d).1 hi), scores_congr hsc', weighted_congr hS.score,
        repeated_sum q d _ ms (by rw [hln, hl])]
    · rw [not_not.1 (mt (b1.docs q d).1 hi), not_not.1 (mt (b2.docs q d).1 (fun h => hi ((hin q d).2 h)))]

theorem Opt.repeated_points {β : Type} (f : β → ℝ) (L : List β) (ms : List ℕ) (hl : ms.length = L.length) :
    ((Spec.repeated L ms).map f).sum = ((L.zip (ms.map (fun (m : ℕ) => (m : ℝ)))).map (fun p => p.2 * f p.1)).sum := by
  induction L generalizing ms with
  | nil =>
    cases ms with
    | nil => rfl
    | cons _ _ => cases hl
  | cons run L ih =>
    cases ms with
    | nil => cases hl
    | cons m ms =>
      have e1 : Spec.repeated (run :: L) (m :: ms) = List.replicate m run ++ Spec.repeated L ms := rfl
      rw [e1, List.map_append, List.sum_append, ih ms (by simpa using hl), List.map_replicate, List.sum_replicate,
        List.map_cons, List.zip_cons_cons, List.map_cons, List.sum_cons, nsmul_eq_mul]

/-- **C174** (w_bordafuse): the same for `w_bordafuse` and `bordafuse`, if the runs list their queries in the same order. -/
theorem C174_whole_weights_borda (E E' : Env δ) (runs : List (Store κ δ ℝ)) (hn : 2 ≤ runs.length)
    (hw : ∀ s ∈ runs, Store.Wf s.data) (hq : Spec.SameQueries runs) (ho : Spec.SameQueryOrder runs)
    (hE : Spec.SchedulesCover E runs) (ms : List ℕ) (hl : ms.length = runs.length) (hm : ∀ m ∈ ms, 1 ≤ m)
    (hE' : Spec.SchedulesCover E' (Spec.repeated runs ms)) :
    ∃ out out', fuse E runs none "w_bordafuse" (some [("weights", .nums (ms.map (fun (m : ℕ) => (m : ℝ))))]) = .ok out ∧
      fuse E' (Spec.repeated runs ms) none "bordafuse" none = .ok out' ∧
      (∀ q, q ∈ out.data.keys ↔ q ∈ out'.data.keys) ∧
      ∀ q d, (Spec.content out).read q d = (Spec.content out').read q d := by
  have hmem := mem_repeated runs ms hl hm
  have hn' : 2 ≤ (Spec.repeated runs ms).length := le_trans hn (repeated_length runs ms hl hm)
  have hq' : Spec.SameQueries (Spec.repeated runs ms) :=
    fun s hs s' hs' => hq s ((hmem s).1 hs) s' ((hmem s').1 hs')
  obtain ⟨nr, hnr, hS⟩ := normStep E runs hn hw hq hE none none (.inl ⟨rfl, rfl⟩)
  obtain ⟨nr', hnr', hS'⟩ := normStep E' (Spec.repeated runs ms) hn' (fun s hs => hw s ((hmem s).1 hs)) hq' hE' none
    none (.inl ⟨rfl, rfl⟩)
  have e0 : nr = runs.map (fun s => s.data) := hS.exact (by decide)
  have e0' : nr' = Spec.repeated nr ms :=
    (hS'.exact (by decide)).trans (by rw [e0]; exact (repeated_map _ _ _).symm)
  have hlen : ms.length = nr.length := by rw [e0, List.length_map, hl]
  have hmem' := mem_repeated nr ms hlen hm
  have hko : ∀ run ∈ nr, ∀ run' ∈ nr, run.keys = run'.keys := by
    rw [e0]
    intro run h1 run' h2
    obtain ⟨s, hs, rfl⟩ := List.mem_map.1 h1
    obtain ⟨s', hs', rfl⟩ := List.mem_map.1 h2
    exact ho s hs s' hs'
  rw [e0'] at hnr' hS'
  obtain ⟨a, e1, b1⟩ := C51_weighted_bordafuse_partial E.S E.sched E.scheds E.I (ms.map (fun (m : ℕ) => (m : ℝ))) nr
    hS.fusable hko (by rw [List.length_map, hlen]) hS.fits.main hS.fits.rescore
  obtain ⟨b, e2, b2⟩ := C51_bordafuse_partial E'.S E'.sched E'.scheds E'.I _ hS'.fusable
    (fun run h1 run' h2 => hko run ((hmem' run).1 h1) run' ((hmem' run').1 h2)) hS'.fits.main hS'.fits.rescore
  have hpool : ∀ q, Spec.poolSize (Spec.repeated nr ms) q = Spec.poolSize nr q := by
    intro q
    unfold Spec.poolSize
    congr 1
    ext d
    rw [List.mem_toFinset, List.mem_toFinset, List.mem_flatMap, List.mem_flatMap]
    exact ⟨fun ⟨r, h1, h2⟩ => ⟨r, (hmem' r).1 h1, h2⟩, fun ⟨r, h1, h2⟩ => ⟨r, (hmem' r).2 h1, h2⟩⟩
  have hin : ∀ q d, Spec.InSome nr q d ↔ Spec.InSome (Spec.repeated nr ms) q d := by
    intro q d
    exact ⟨fun ⟨r, h1, h2⟩ => ⟨r, (hmem' r).2 h1, h2⟩, fun ⟨r, h1, h2⟩ => ⟨r, (hmem' r).1 h1, h2⟩⟩
  refine ⟨a, b, (fuse_named E runs hn hq none "w_bordafuse" .weightedBordafuse (by decide +kernel) _ nr hnr).trans e1,
    (fuse_named_none E' _ hn' hq' none "bordafuse" .bordafuse (by decide +kernel) _ hnr').trans e2, ?_, ?_⟩
  · intro q
    rw [b1.queries, b2.queries]
    exact ⟨fun ⟨r, h1, h2⟩ => ⟨r, (hmem' r).2 h1, h2⟩, fun ⟨r, h1, h2⟩ => ⟨r, (hmem' r).1 h1, h2⟩⟩
  · intro q d
    by_cases hi : Spec.InSome nr q d
    · rw [b1.value q d hi, b2.value q d ((hin q d).1 hi), hpool, repeated_points _ nr ms hlen]
    · rw [not_not.1 (mt (b1.docs q d).1 hi), not_not.1 (mt (b2.docs q d).1 (fun h => hi ((hin q d).2 h)))]

end

/-- the hypotheses are met by two runs with the weights 1 and 2 -/
example : 2 ≤ [lowFirst, tenFirst].length ∧ (∀ s ∈ [lowFirst, tenFirst], Store.Wf s.data) ∧
    Spec.SameQueries [lowFirst, tenFirst] ∧ Spec.SameQueryOrder [lowFirst, tenFirst] ∧
    Spec.SchedulesCover oneEnv [lowFirst, tenFirst] ∧
    [1, 2].length = [lowFirst, tenFirst].length ∧ (∀ m ∈ [1, 2], 1 ≤ m) ∧
    Spec.repeated [lowFirst, tenFirst] [1, 2] = [lowFirst, tenFirst, tenFirst] ∧
    Spec.SchedulesCover oneEnv [lowFirst, tenFirst, tenFirst] ∧ Spec.NormNamed (some "min-max") (some .minMax) := by
  have hs : Schedule 1 [0] := by unfold Schedule; decide
  have hso : Spec.SameQueryOrder [lowFirst, tenFirst] := by
    intro s hs s' hs'
    simp only [List.mem_cons, List.not_mem_nil, or_false] at hs hs'
    rcases hs with rfl | rfl <;> rcases hs' with rfl | rfl <;> rfl
  have h1 : ∀ s ∈ [lowFirst, tenFirst, tenFirst], s.data.length = 1 := by
    intro s h
    simp only [List.mem_cons, List.not_mem_nil, or_false, or_self] at h
    rcases h with rfl | rfl <;> rfl
  have h2 : ∀ (j : Nat) s, [lowFirst, tenFirst, tenFirst][j]? = some s → Schedule s.data.length [0] := by
    intro j s h
    rw [h1 s (List.mem_of_getElem? h)]
    exact hs
  refine ⟨by decide, tenFirst_valid.wf, tenFirst_valid.sameQueries, hso, tenFirst_valid.schedules, rfl, by decide, rfl,
    ⟨fun s h => h2 0 s h, fun j s h => h2 j s h, fun j s h => h2 j s h⟩,
    .inr ⟨"min-max", .minMax, rfl, rfl, by decide +kernel, by decide⟩⟩

end Ranx
