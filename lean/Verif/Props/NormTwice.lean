import Verif.Props.Scale

/-!
# C137: normalizing twice is normalizing once
-/

set_option linter.unusedSectionVars false

namespace Ranx
open Dict Store Fuse
open Norm (Results normRun normParallel minMaxInverted Kind eps normLoop extractScores safeMin safeMax)

variable {κ δ : Type*} [LinearOrder κ] [DecidableEq δ]

/-! ## Specification -/

/-- the normalizations of one run, by name -/
inductive Spec.NormOf : String → (Results δ ℝ → Results δ ℝ) → Prop
  | minMax (n : String) : n ∈ ["min-max", "min_max"] → Spec.NormOf n (Norm.minMax false)
  | sum : Spec.NormOf "sum" Norm.sumNorm
  | zmuv : Spec.NormOf "zmuv" Norm.zmuv
  | max : Spec.NormOf "max" Norm.maxNorm
  | rank : Spec.NormOf "rank" Norm.rankNorm

/-- the scores are not closer together than the `1e-9` that guards the divisions, or they are all equal -/
inductive Spec.NotTiny (l : List ℝ) : String → Prop
  | flat (n : String) : n ∈ ["min-max", "min_max", "sum", "zmuv"] → (∀ x ∈ l, ∀ y ∈ l, x = y) → Spec.NotTiny l n
  | spread (n : String) (x y : ℝ) : n ∈ ["min-max", "min_max"] → x ∈ l → y ∈ l → 1 / 10 ^ 9 ≤ x - y → Spec.NotTiny l n
  | sum (worst : ℝ) : worst ∈ l → (∀ x ∈ l, worst ≤ x) → 1 / 10 ^ 9 ≤ (l.map (fun x => x - worst)).sum → Spec.NotTiny l "sum"
  | zmuv : 1 / 10 ^ 9 ≤ Real.sqrt (Spec.variance l) → Spec.NotTiny l "zmuv"
  | max (best : ℝ) : best ∈ l → (∀ x ∈ l, x ≤ best) → 1 / 10 ^ 9 ≤ best → Spec.NotTiny l "max"
  | rank : Spec.NotTiny l "rank"

/-! ## Proofs -/

theorem one_le_guard : (1 : ℝ) / 10 ^ 9 ≤ 1 := by norm_num

theorem guard_pos : (0 : ℝ) < eps := by unfold eps; norm_num

theorem loop_affine (r : Results δ ℝ) (hr : NodupKeys r) (f : ℝ → ℝ) (a b : ℝ) (h : ∀ x ∈ r.values, f x = a * x + b) :
    normLoop r f = affine a b r := by
  rw [Norm.normLoop_eq r hr]
  unfold affine
  refine List.map_congr_left (fun p hp => ?_)
  rw [h p.2 (List.mem_map_of_mem hp)]

/-- a normalization is one of the rescalings it allows -/
theorem norm_affine (n : String) (f : Results δ ℝ → Results δ ℝ) (hf : Spec.NormOf n f) (hn : n ≠ "rank")
    (r : Results δ ℝ) (hr : NodupKeys r) (h : Spec.NotTiny r.values n) :
    ∃ a b : ℝ, 0 < a ∧ f r = affine a b r ∧ Spec.ScaleFree r.values a b n := by
  have hlen : r.values.length = r.length := List.length_map _
  revert hn h
  cases hf with
  | minMax n hn' =>
    intro hn h
    have hd : 0 < max (safeMax r.values - safeMin r.values) eps := lt_max_of_lt_right guard_pos
    refine ⟨1 / max (safeMax r.values - safeMin r.values) eps, -safeMin r.values / max (safeMax r.values - safeMin r.values) eps,
      div_pos one_pos hd, ?_, ?_⟩
    · unfold Norm.minMax extractScores
      refine loop_affine r hr _ _ _ (fun x _ => ?_)
      simp only [Bool.false_eq_true, if_false]
      field_simp
      ring
    · have hfour : n ∈ ["min-max", "min_max", "min-max-inverted", "min_max_inverted"] := by
        simp only [List.mem_cons, List.not_mem_nil, or_false] at hn' ⊢
        tauto
      have hsix : n ∈ ["min-max", "min_max", "min-max-inverted", "min_max_inverted", "sum", "zmuv"] := by
        simp only [List.mem_cons, List.not_mem_nil, or_false] at hn' ⊢
        tauto
      clear hn
      revert hn'
      cases h with
      | flat n _ hf => exact fun _ => .flat _ hsix hf
      | spread n x y _ hx hy hxy =>
        intro _
        have hne : r.values ≠ [] := List.ne_nil_of_mem hx
        have h1 := Norm.safeMax_ge hx
        have h2 := Norm.safeMin_le hy
        have h3 : (1 : ℝ) / 10 ^ 9 ≤ safeMax r.values - safeMin r.values := by linarith
        refine .spread _ _ _ hfour (Norm.safeMax_spec hne).1 (Norm.safeMin_spec hne).1 h3 ?_
        have e : max (safeMax r.values - safeMin r.values) eps = safeMax r.values - safeMin r.values := max_eq_left h3
        rw [e] at hd ⊢
        rw [one_div_mul_cancel hd.ne']
        exact one_le_guard
      | sum => exact fun h => absurd h (by decide)
      | zmuv => exact fun h => absurd h (by decide)
      | max => exact fun h => absurd h (by decide)
      | rank => exact fun h => absurd h (by decide)
  | sum =>
    intro _ h
    have hd : 0 < max (r.values.sum - safeMin r.values * (r.length : ℝ)) eps := lt_max_of_lt_right guard_pos
    refine ⟨1 / max (r.values.sum - safeMin r.values * (r.length : ℝ)) eps,
      -safeMin r.values / max (r.values.sum - safeMin r.values * (r.length : ℝ)) eps, div_pos one_pos hd, ?_, ?_⟩
    · unfold Norm.sumNorm extractScores
      refine loop_affine r hr _ _ _ (fun x _ => ?_)
      field_simp
      ring
    · generalize hs : "sum" = n at h
      cases h with
      | flat n hn hf => subst hs; exact .flat _ (by decide) hf
      | spread n x y hn => subst hs; exact absurd hn (by decide)
      | sum worst hw hall hsum =>
        refine .sum worst hw hall hsum ?_
        have e0 : (r.values.map (fun x => x - worst)).sum = r.values.sum - safeMin r.values * (r.length : ℝ) := by
          rw [Norm.safeMin_eq_of hw hall, Norm.sum_sub_const, hlen]
        have e : max (r.values.sum - safeMin r.values * (r.length : ℝ)) eps =
            r.values.sum - safeMin r.values * (r.length : ℝ) := max_eq_left (by rw [← e0]; exact hsum)
        rw [e] at hd ⊢
        rw [e0, one_div_mul_cancel hd.ne']
        exact one_le_guard
      | zmuv => exact absurd hs (by decide)
      | max => exact absurd hs (by decide)
      | rank => exact absurd hs (by decide)
  | zmuv =>
    intro _ h
    have hd : 0 < max (Real.sqrt (Spec.variance r.values)) eps := lt_max_of_lt_right guard_pos
    refine ⟨1 / max (Real.sqrt (Spec.variance r.values)) eps, -Spec.mean r.values / max (Real.sqrt (Spec.variance r.values)) eps,
      div_pos one_pos hd, ?_, ?_⟩
    · rw [zmuv_eq]
      refine loop_affine r hr _ _ _ (fun x _ => ?_)
      field_simp
      ring
    · generalize hs : "zmuv" = n at h
      cases h with
      | flat n hn hf => subst hs; exact .flat _ (by decide) hf
      | spread n x y hn => subst hs; exact absurd hn (by decide)
      | zmuv h1 =>
        refine .zmuv h1 ?_
        have e : max (Real.sqrt (Spec.variance r.values)) eps = Real.sqrt (Spec.variance r.values) := max_eq_left h1
        rw [e] at hd ⊢
        rw [one_div_mul_cancel hd.ne']
        exact one_le_guard
      | sum => exact absurd hs (by decide)
      | max => exact absurd hs (by decide)
      | rank => exact absurd hs (by decide)
  | max =>
    intro _ h
    have hd : 0 < max (safeMax r.values) eps := lt_max_of_lt_right guard_pos
    refine ⟨1 / max (safeMax r.values) eps, 0, div_pos one_pos hd, ?_, ?_⟩
    · unfold Norm.maxNorm extractScores
      refine loop_affine r hr _ _ _ (fun x _ => ?_)
      field_simp
      ring
    · generalize hs : "max" = n at h
      cases h with
      | flat n hn => subst hs; exact absurd hn (by decide)
      | spread n x y hn => subst hs; exact absurd hn (by decide)
      | max best hb hall h1 =>
        refine .max best rfl hb hall h1 ?_
        have e : max (safeMax r.values) eps = best := by
          rw [Norm.safeMax_eq_of hb hall]
          exact max_eq_left h1
        rw [e] at hd ⊢
        rw [one_div_mul_cancel hd.ne']
        exact one_le_guard
      | sum => exact absurd hs (by decide)
      | zmuv => exact absurd hs (by decide)
      | rank => exact absurd hs (by decide)
  | rank => exact fun h => absurd rfl h

theorem normOf_keys {n : String} {f : Results δ ℝ → Results δ ℝ} (hf : Spec.NormOf n f) (r : Results δ ℝ)
    (hr : NodupKeys r) : (f r).keys = r.keys := by
  cases hf with
  | minMax => exact C39_keeps_docs _ (.minMax false) r hr
  | sum => exact C39_keeps_docs _ .sum r hr
  | zmuv => exact C39_keeps_docs _ .zmuv r hr
  | max => exact C39_keeps_docs _ .max r hr
  | rank => exact C39_keeps_docs _ .rank r hr

/-- **C137** (one query): the second normalization changes nothing. -/
theorem C137_query (n : String) (f : Results δ ℝ → Results δ ℝ) (hf : Spec.NormOf n f) (r : Results δ ℝ)
    (hr : NodupKeys r) (h : Spec.NotTiny (r.map (fun e => e.2)) n) : f (f r) = f r := by
  by_cases hn : n = "rank"
  · have hk := normOf_keys hf r hr
    clear h
    revert hn hk
    cases hf with
    | rank => exact fun _ hk => C45_only_order _ _ hk
    | minMax n h => rintro rfl; exact absurd h (by decide)
    | sum => exact fun h => absurd h (by decide)
    | zmuv => exact fun h => absurd h (by decide)
    | max => exact fun h => absurd h (by decide)
  · obtain ⟨a, b, ha, e, hs⟩ := norm_affine n f hf hn r hr h
    obtain ⟨s1, s2, s3, s4⟩ := scaleFree_norm r hr a b ha n hs
    conv_lhs => rw [e]
    revert hn
    cases hf with
    | rank => exact fun h => absurd rfl h
    | minMax n h =>
      intro _
      refine s1 ?_ false
      simp only [List.mem_cons, List.not_mem_nil, or_false] at h ⊢
      tauto
    | sum => exact fun _ => s2 rfl
    | zmuv => exact fun _ => s3 rfl
    | max => exact fun _ => s4 rfl

/-- **C137** (runs): normalizing a normalized run returns the same run. -/
theorem C137_run (n : String) (f : Results δ ℝ → Results δ ℝ) (hf : Spec.NormOf n f) (s : Store κ δ ℝ)
    (hw : Store.Wf s.data) (h : ∀ p ∈ s.data, Spec.NotTiny (p.2.map (fun e => e.2)) n) (sched sched' : List Nat)
    (hs : Schedule s.data.length sched) (hs' : Schedule s.data.length sched') :
    normRun f sched' (normRun f sched s) = normRun f sched s := by
  unfold normRun
  simp only [Store.mk.injEq, and_true]
  rw [Norm.normParallel_eq f sched s.data hw.1 hs]
  rw [Norm.normParallel_eq f sched' _ (by unfold NodupKeys; rw [List.map_map]; exact hw.1) (by rw [List.length_map]; exact hs'),
    List.map_map]
  refine List.map_congr_left (fun p hp => ?_)
  simp only [Function.comp_apply]
  rw [C137_query n f hf p.2 (hw.2 p hp) (h p hp)]

/-- **C137** (fusion): fusing runs that were normalized before gives what fusing the runs gives. -/
theorem C137_fuse (E : Env δ) (n : String) (f : Results δ ℝ → Results δ ℝ) (hf : Spec.NormOf n f)
    (runs : List (Store κ δ ℝ)) (hw : ∀ s ∈ runs, Store.Wf s.data)
    (h : ∀ s ∈ runs, ∀ p ∈ s.data, Spec.NotTiny (p.2.map (fun e => e.2)) n) (sched : Store κ δ ℝ → List Nat)
    (hs : ∀ s ∈ runs, Schedule s.data.length (sched s)) (method : String) (params : Option Kwargs) :
    fuse E (runs.map (fun s => normRun f (sched s) s)) (some n) method params = fuse E runs (some n) method params := by
  have hdata : ∀ s ∈ runs, (normRun f (sched s) s).data = s.data.map (fun p => (p.1, f p.2)) :=
    fun s hm => Norm.normParallel_eq f (sched s) s.data (hw s hm).1 (hs s hm)
  by_cases hn : n = "rank"
  · refine C136_rank_norms E runs _ ?_ n (.inl hn) method params
    rw [List.forall₂_map_right_iff]
    refine List.forall₂_same.2 (fun s hm => ?_)
    unfold Spec.SameListing
    rw [hdata s hm, List.map_map]
    refine List.map_congr_left (fun p hp => ?_)
    exact Prod.ext rfl (normOf_keys hf p.2 ((hw s hm).2 p hp)).symm
  · have hnames : n ∈ ["min-max", "min_max", "min-max-inverted", "min_max_inverted", "sum", "zmuv", "max"] := by
      clear h hdata hs hw
      revert hn
      cases hf with
      | rank => exact fun h => absurd rfl h
      | minMax n h =>
        intro _
        simp only [List.mem_cons, List.not_mem_nil, or_false] at h ⊢
        tauto
      | sum => intro _; decide
      | zmuv => intro _; decide
      | max => intro _; decide
    refine C136_rescaled E runs _ hw n hnames ?_ method params
    rw [List.forall₂_map_right_iff]
    refine List.forall₂_same.2 (fun s hm => ?_)
    unfold Spec.Rescaled
    rw [hdata s hm, List.forall₂_map_right_iff]
    refine List.forall₂_same.2 (fun p hp => ⟨rfl, ?_⟩)
    obtain ⟨a, b, ha, e, hsf⟩ := norm_affine n f hf hn p.2 ((hw s hm).2 p hp) (h s hm p hp)
    exact ⟨a, b, ha, e, hsf⟩

/-- **C137** (inversion): inverting twice is min-max normalization. -/
theorem C137_inverted (r : Results δ ℝ) (hr : NodupKeys r)
    (h : Spec.NotTiny (r.map (fun e => e.2)) "min-max") : Norm.minMax true (Norm.minMax true r) = Norm.minMax false r := by
  have hd : 0 < max (safeMax r.values - safeMin r.values) eps := lt_max_of_lt_right guard_pos
  set D := max (safeMax r.values - safeMin r.values) eps with hD
  have e1 : Norm.minMax true r = affine (-1 / D) (safeMax r.values / D) r := by
    unfold Norm.minMax extractScores
    refine loop_affine r hr _ _ _ (fun x _ => ?_)
    simp only [if_true]
    rw [← hD]
    field_simp
    ring
  rw [e1]
  have hvals := affine_values (-1 / D) (safeMax r.values / D) r
  unfold Norm.minMax extractScores
  simp only [hvals]
  refine normLoop_affine _ _ r hr _ _ (fun x hx => ?_)
  have hne : r.values ≠ [] := List.ne_nil_of_mem hx
  obtain ⟨m1, m2⟩ := Norm.safeMin_spec hne
  obtain ⟨M1, M2⟩ := Norm.safeMax_spec hne
  have emax : safeMax (r.values.map (fun s => -1 / D * s + safeMax r.values / D)) =
      -1 / D * safeMin r.values + safeMax r.values / D := by
    refine Norm.safeMax_eq_of (List.mem_map.2 ⟨_, m1, rfl⟩) (fun y hy => ?_)
    obtain ⟨z, hz, rfl⟩ := List.mem_map.1 hy
    have := div_le_div_of_nonneg_right (m2 z hz) hd.le
    rw [show -1 / D * z = -(z / D) by ring, show -1 / D * safeMin r.values = -(safeMin r.values / D) by ring]
    linarith
  have emin : safeMin (r.values.map (fun s => -1 / D * s + safeMax r.values / D)) =
      -1 / D * safeMax r.values + safeMax r.values / D := by
    refine Norm.safeMin_eq_of (List.mem_map.2 ⟨_, M1, rfl⟩) (fun y hy => ?_)
    obtain ⟨z, hz, rfl⟩ := List.mem_map.1 hy
    have := div_le_div_of_nonneg_right (M2 z hz) hd.le
    rw [show -1 / D * z = -(z / D) by ring, show -1 / D * safeMax r.values = -(safeMax r.values / D) by ring]
    linarith
  rw [emax, emin]
  simp only [if_true, Bool.false_eq_true, if_false]
  rw [← hD]
  generalize hs : "min-max" = n at h
  cases h with
  | flat n _ hf =>
    obtain ⟨f1, f2, -⟩ := flat_value (l := r.values) hf hx
    rw [f1]
    simp
  | spread n x' y' _ hx' hy' hxy =>
    have h1 := Norm.safeMax_ge (show x' ∈ r.values from hx')
    have h2 := Norm.safeMin_le (show y' ∈ r.values from hy')
    have e : D = safeMax r.values - safeMin r.values := max_eq_left (by unfold eps; linarith)
    have e2 : max (-1 / D * safeMin r.values + safeMax r.values / D - (-1 / D * safeMax r.values + safeMax r.values / D)) eps =
        (1 : ℝ) := by
      rw [show -1 / D * safeMin r.values + safeMax r.values / D - (-1 / D * safeMax r.values + safeMax r.values / D) =
        (safeMax r.values - safeMin r.values) / D by ring, ← e, div_self hd.ne']
      exact max_eq_left one_le_guard
    rw [e2]
    field_simp
    ring
  | sum => exact absurd hs (by decide)
  | zmuv => exact absurd hs (by decide)
  | max => exact absurd hs (by decide)
  | rank => exact absurd hs (by decide)

/-- non-vacuity -/
example : Norm.minMax false (Norm.minMax false ([(7, 9), (8, 5), (9, 3)] : Results Nat ℝ)) =
      Norm.minMax false [(7, 9), (8, 5), (9, 3)] ∧
    Norm.zmuv (Norm.zmuv ([(7, 5), (8, 5)] : Results Nat ℝ)) = Norm.zmuv [(7, 5), (8, 5)] ∧
    Norm.maxNorm (Norm.maxNorm ([(7, 9), (8, -5)] : Results Nat ℝ)) = Norm.maxNorm [(7, 9), (8, -5)] :=
  ⟨C137_query "min-max" _ (.minMax _ (by decide)) _ (by unfold NodupKeys; decide)
      (.spread _ 9 3 (by decide) (by simp) (by simp) (by norm_num)),
    C137_query "zmuv" _ .zmuv _ (by unfold NodupKeys; decide) (.flat _ (by decide) (by simp)),
    C137_query "max" _ .max _ (by unfold NodupKeys; decide) (.max 9 (by simp) (by simp; norm_num) (by norm_num))⟩

example (method : String) (params : Option Kwargs) :
    fuse exEnv ([fuseStore1, fuseStore2].map (fun s => normRun (Norm.minMax false) [1, 0] s)) (some "min-max") method params =
      fuse exEnv [fuseStore1, fuseStore2] (some "min-max") method params := by
  refine C137_fuse exEnv "min-max" _ (.minMax _ (by decide)) _ fuseStore_wf ?_ (fun _ => [1, 0]) ?_ method params
  · intro s hs p hp
    simp only [List.mem_cons, List.not_mem_nil, or_false] at hs
    rcases hs with rfl | rfl
    · simp only [fuseStore1, List.mem_cons, List.not_mem_nil, or_false] at hp
      rcases hp with rfl | rfl
      · exact .spread _ 5 4 (by decide) (by simp) (by simp) (by norm_num)
      · exact .flat _ (by decide) (by simp)
    · simp only [fuseStore2, List.mem_cons, List.not_mem_nil, or_false] at hp
      rcases hp with rfl | rfl
      · exact .flat _ (by decide) (by simp)
      · exact .spread _ 6 2 (by decide) (by simp) (by simp) (by norm_num)
  · intro s hs
    simp only [List.mem_cons, List.not_mem_nil, or_false] at hs
    rcases hs with rfl | rfl <;> exact (by decide : List.Perm [1, 0] (List.range 2))

/-- Closer together than `1e-9` the scores change again, and with borda normalization the second call ranks the docs by
the order of a set. -/
theorem C137_tiny_spread :
    Norm.minMax false ([(7, 0), (8, 1 / 10 ^ 11)] : Results Nat ℚ) = [(7, 0), (8, 1 / 100)] ∧
    Norm.minMax false (Norm.minMax false ([(7, 0), (8, 1 / 10 ^ 11)] : Results Nat ℚ)) = [(7, 0), (8, 1)] ∧
    Norm.bordaNorm ([(7, 2), (8, 1)] : Results Nat ℚ) [8, 7] = [(8, 1 / 2), (7, 1)] ∧
    Norm.bordaNorm (Norm.bordaNorm ([(7, 2), (8, 1)] : Results Nat ℚ) [8, 7]) [8, 7] = [(8, 1), (7, 1 / 2)] := by
  decide +kernel

end Ranx
