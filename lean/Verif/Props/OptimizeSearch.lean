import Verif.Props.OptimizeTotal2

/-!
# C65 for the searches that train: which tables, which search space, which scores
-/

set_option linter.unusedSectionVars false

namespace Ranx
open Dict Store Metrics Eval Fuse Train Opt

section
variable {κ δ ι : Type} [LinearOrder κ] [DecidableEq δ] [LinearOrder ι]

/-- Specification: the table of `n` segment probabilities of run `r`: the `k`-th number is the average over the training
queries of the fraction of relevant docs in the query's `k`-th segment of `⌈length / n⌉` docs. -/
def Spec.SegmentTable (s : Store κ δ Int) (n : Nat) (r : Store κ δ ℝ) (t : List ℝ) : Prop :=
  ∃ ids, Spec.Rankings s r ids ∧ t.length = n ∧ ∀ (k : Nat) (v : ℝ), t[k]? = some v →
    v = (∑ q ∈ Spec.queries s,
      (Spec.relBetween s ids (k * ⌈((ids q).length : ℚ) / n⌉₊) ((k + 1) * ⌈((ids q).length : ℚ) / n⌉₊) q : ℝ) /
        (Spec.docsBetween ids (k * ⌈((ids q).length : ℚ) / n⌉₊) ((k + 1) * ⌈((ids q).length : ℚ) / n⌉₊) q : ℝ)) /
      ((Spec.queries s).card : ℝ)

theorem Opt.sorted_same (E : Env δ) (SQ : ArgSort Int) (hash : δ → ι) (qrels : Store κ δ Int) (rs : List (Store κ δ ℝ))
    (hT : Spec.Trainable SQ E.S hash qrels rs) :
    pairwiseSameKeys (rs.map (fun r => r.ensureSorted E.S)) = true := by
  rw [pairwiseSameKeys_iff]
  have hk : ∀ r ∈ rs, ∀ q, q ∈ (r.ensureSorted E.S).data.keys ↔ q ∈ qrels.data.keys := by
    intro r hr q
    rw [← hT.queries r hr q]
    have hw := (hT.usable r hr).ok.1
    unfold Store.ensureSorted
    by_cases hs : r.sorted = true
    · rw [if_pos hs]
    · rw [if_neg hs]; exact mem_keys_sortAll E.S hw.1 q
  intro s hs s' hs' q hq
  obtain ⟨r, hr, rfl⟩ := List.mem_map.1 hs
  obtain ⟨r', hr', rfl⟩ := List.mem_map.1 hs'
  exact (hk r' hr' q).2 ((hk r hr q).1 hq)

/-- **C65** (probfuse, spelled out).  On valid input `optimize_fusion(method="probfuse", min_n_segments=lo,
max_n_segments=hi)` succeeds.  There is, for every number `n` of segments from `lo` to `hi`, a table for each normalized run
(`Spec.SegmentTable`), and the result is `{"probs": tables}` for the `n` with the greatest score, the largest among equals.
The score of a table is that of the run `fuse` makes with it from the normalized runs, put in rank order. -/
theorem C65_best_segments (E : Env δ) (V : EvalEnv δ ι) (rowSched : List Nat) (rnd : ℚ → ℚ)
    (str : Kwargs → Py.Str) (strNat : Nat → Py.Str) (qrels : Store κ δ Int) (runs : List (Store κ δ ℝ))
    (metric : Py.Str) (hv : Spec.ValidSearch E V qrels runs metric)
    (hT : Spec.Trainable V.SQ E.S V.hash qrels runs) (hrow : Schedule runs.length rowSched)
    (norm : Option String) (hk : Spec.NormAccepted norm)
    (hb : norm = some "borda" → Spec.NoPoolCollision V.hash qrels runs) (wantReport : Bool) (lo hi : ℤ) (hlo : 1 ≤ lo) :
    ∃ (rs : List (Store κ δ ℝ)) (table : ℤ → List (List ℝ)) (res : Result),
      normalizeStores E norm runs = .ok rs ∧
      optimizeFusion E V rowSched rnd str strNat qrels runs norm "probfuse" metric wantReport (.ints lo hi 1) = .ok res ∧
      (∀ n : ℤ, lo ≤ n → n ≤ hi → List.Forall₂ (Spec.SegmentTable qrels n.toNat) rs (table n)) ∧
      Spec.BestOf (fun n : ℤ => lo ≤ n ∧ n ≤ hi) (fun n => [("probs", .tables (table n))])
        (Spec.fusedScore E V qrels (rs.map (fun r => r.ensureSorted E.S)) none "probfuse" metric) res.params := by
  obtain ⟨rs, hn, hlen, hT'⟩ := trainable_any E V qrels runs hv.many hv.schedules norm hk hT hb
  obtain ⟨res, hres, -⟩ := (C101_trained_searches E V rowSched rnd str strNat qrels runs metric hv hT hrow norm hk hb
    wantReport lo hi).1 hlo
  obtain ⟨segments, tables, scores, k1, k2, k3, k4, -⟩ :=
    C65_probfuse E V rowSched rnd str strNat qrels hv.qrelsOk runs rs norm hn metric wantReport lo hi res hres
  obtain ⟨g, hg, hp, hmem⟩ := C67_ints lo hi 1 (by norm_num)
  rw [hg] at k1
  have hgs : g = segments := Except.ok.inj k1
  subst hgs
  have hmem' : ∀ n : ℤ, n ∈ g ↔ lo ≤ n ∧ n ≤ hi := by
    intro n; rw [hmem n]; simp
  obtain ⟨table, htab⟩ : ∃ table : ℤ → List (List ℝ), ∀ n : ℤ, lo ≤ n → n ≤ hi →
      (probfuseTrain V.SQ E.S V.hash V.sched rowSched n.toNat qrels rs).2.2 = .ok (table n) ∧
      List.Forall₂ (Spec.SegmentTable qrels n.toNat) rs (table n) := by
    have : ∀ n : ℤ, ∃ t, lo ≤ n → n ≤ hi →
        (probfuseTrain V.SQ E.S V.hash V.sched rowSched n.toNat qrels rs).2.2 = .ok t ∧
        List.Forall₂ (Spec.SegmentTable qrels n.toNat) rs t := by
      intro n
      by_cases h : lo ≤ n
      · obtain ⟨s', runs', t, h1, h2⟩ := C59_segments V.SQ E.S V.hash V.sched rowSched n.toNat (by omega) qrels rs hT'
          hv.evaluations (by rw [hlen]; exact hrow)
        refine ⟨t, fun _ _ => ⟨by rw [h1], h2.imp ?_⟩⟩
        rintro r t ⟨ids, g1, g2, g3⟩
        exact ⟨ids, g1, g2, fun k v hkv => (g3 k v hkv).1⟩
      · exact ⟨[], fun h' => absurd h' h⟩
    exact ⟨fun n => (this n).choose, fun n => (this n).choose_spec⟩
  have htables : tables = g.map table := by
    have e : (g.map table).map (Except.ok (ε := Err)) = tables.map .ok := by
      rw [← k2, List.map_map]
      apply List.map_congr_left
      intro n hn'
      obtain ⟨a, b⟩ := (hmem' n).1 hn'
      exact ((htab n a b).1).symm
    exact (List.map_injective_iff.2 (fun a b h => Except.ok.inj h) e).symm
  have hsame := sorted_same E V.SQ V.hash qrels rs hT'
  have hfs : fusionSwitch "probfuse" = .ok .probfuse := by decide +kernel
  refine ⟨rs, table, res, hn, hres, fun n a b => (htab n a b).2, ?_⟩
  have hb2 := bestOf g hp (fun n => [("probs", .tables (table n))])
    (Spec.fusedScore E V qrels (rs.map (fun r => r.ensureSorted E.S)) none "probfuse" metric) scores (by
      rw [← k3, htables, List.map_map, List.map_map]
      apply List.map_congr_left
      intro n _
      simp only [Function.comp_apply]
      unfold Spec.fusedScore
      rw [fuse_of_normalized E _ _ none "probfuse" .probfuse _ (by rw [List.length_map, hlen]; have := hv.many; omega)
        hsame rfl hfs, List.map_map]
      rfl) res.params (by
      rw [htables, List.map_map] at k4
      exact k4)
  exact hb2.congr hmem'

/-- **C65** (slidefuse, spelled out).  On valid input `optimize_fusion(method="slidefuse", min_w=lo, max_w=hi)` succeeds.
Each normalized run has one table of position probabilities (`Spec.PositionTable`), and the result is
`{"probs": tables, "w": w}` for the `w` from `lo` to `hi` with the greatest score, the largest among equals.  The score is
that of the run `fuse` makes with these parameters from the normalized runs, put in rank order. -/
theorem C65_best_window (E : Env δ) (V : EvalEnv δ ι) (rowSched : List Nat) (rnd : ℚ → ℚ)
    (str : Kwargs → Py.Str) (strNat : Nat → Py.Str) (qrels : Store κ δ Int) (runs : List (Store κ δ ℝ))
    (metric : Py.Str) (hv : Spec.ValidSearch E V qrels runs metric)
    (hT : Spec.Trainable V.SQ E.S V.hash qrels runs) (hrow : Schedule runs.length rowSched)
    (norm : Option String) (hk : Spec.NormAccepted norm)
    (hb : norm = some "borda" → Spec.NoPoolCollision V.hash qrels runs) (wantReport : Bool) (lo hi : ℤ) (hlo : 0 ≤ lo) :
    ∃ (rs : List (Store κ δ ℝ)) (tables : List (List ℝ)) (res : Result),
      normalizeStores E norm runs = .ok rs ∧
      optimizeFusion E V rowSched rnd str strNat qrels runs norm "slidefuse" metric wantReport (.ints lo hi 1) = .ok res ∧
      List.Forall₂ (Spec.PositionTable qrels) rs tables ∧
      Spec.BestOf (fun w : ℤ => lo ≤ w ∧ w ≤ hi) (fun w => [("probs", .tables tables), ("w", .int w.toNat)])
        (Spec.fusedScore E V qrels (rs.map (fun r => r.ensureSorted E.S)) none "slidefuse" metric) res.params := by
  obtain ⟨rs, hn, hlen, hT'⟩ := trainable_any E V qrels runs hv.many hv.schedules norm hk hT hb
  obtain ⟨res, hres, -⟩ := (C101_trained_searches E V rowSched rnd str strNat qrels runs metric hv hT hrow norm hk hb
    wantReport lo hi).2 hlo
  obtain ⟨windows, tables, scores, k1, k2, k3, k4, -⟩ :=
    C65_slidefuse E V rowSched rnd str strNat qrels hv.qrelsOk runs rs norm hn metric wantReport lo hi res hres
  obtain ⟨g, hg, hp, hmem⟩ := C67_ints lo hi 1 (by norm_num)
  rw [hg] at k1
  have hgs : g = windows := Except.ok.inj k1
  subst hgs
  have hmem' : ∀ n : ℤ, n ∈ g ↔ lo ≤ n ∧ n ≤ hi := by
    intro n; rw [hmem n]; simp
  obtain ⟨s', runs', t, h1, h2⟩ := C59_positions V.SQ E.S V.hash V.sched qrels rs hT' hv.evaluations
  rw [h1] at k2
  have ht : t = tables := Except.ok.inj k2
  subst ht
  have hsame := sorted_same E V.SQ V.hash qrels rs hT'
  have hfs : fusionSwitch "slidefuse" = .ok .slidefuse := by decide +kernel
  refine ⟨rs, t, res, hn, hres, h2, ?_⟩
  have hb2 := bestOf g hp (fun w => [("probs", .tables t), ("w", .int w.toNat)])
    (Spec.fusedScore E V qrels (rs.map (fun r => r.ensureSorted E.S)) none "slidefuse" metric) scores (by
      rw [← k3, List.map_map]
      apply List.map_congr_left
      intro n _
      simp only [Function.comp_apply]
      unfold Spec.fusedScore
      rw [fuse_of_normalized E _ _ none "slidefuse" .slidefuse _ (by rw [List.length_map, hlen]; have := hv.many; omega)
        hsame rfl hfs, List.map_map]
      rfl) res.params k4
  exact hb2.congr hmem'

end

/-- the hypotheses are met: see the examples of `OptimizeTotal2`; here the two theorems are applied -/
example : (∃ (rs : List (Store Nat Nat ℝ)) (table : ℤ → List (List ℝ)) (res : Result), normalizeStores oneEnv (some "borda") [lowFirst, lowFirst] = .ok rs ∧
      optimizeFusion oneEnv oneEvalEnv [0, 1] F64.fl rrfLabel Py.natStr oneQrels [lowFirst, lowFirst] (some "borda") "probfuse"
        "map".toList true (.ints 1 3 1) = .ok res ∧
      (∀ n : ℤ, 1 ≤ n → n ≤ 3 → List.Forall₂ (Spec.SegmentTable oneQrels n.toNat) rs (table n))) ∧
    ∃ res : Result, optimizeFusion oneEnv oneEvalEnv [0, 1] F64.fl rrfLabel Py.natStr oneQrels [lowFirst, lowFirst] none "slidefuse"
        "map".toList true (.ints 0 3 1) = .ok res := by
  refine ⟨?_, ?_⟩
  · obtain ⟨rs, table, res, h1, h2, h3, -⟩ := C65_best_segments oneEnv oneEvalEnv [0, 1] F64.fl rrfLabel Py.natStr oneQrels
      [lowFirst, lowFirst] "map".toList low_valid lowTrainable (by unfold Schedule; decide) (some "borda")
      (.inr ⟨"borda", by decide +kernel, rfl⟩) (fun _ => fun _ _ _ _ _ _ _ _ _ _ h => h) true 1 3 (by norm_num)
    exact ⟨rs, table, res, h1, h2, h3⟩
  · obtain ⟨rs, tables, res, -, h2, -, -⟩ := C65_best_window oneEnv oneEvalEnv [0, 1] F64.fl rrfLabel Py.natStr oneQrels
      [lowFirst, lowFirst] "map".toList low_valid lowTrainable (by unfold Schedule; decide) none (.inl rfl)
      (fun h => by cases h) true 0 3 (by norm_num)
    exact ⟨res, h2⟩

end Ranx
