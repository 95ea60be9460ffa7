import Verif.Lemmas.Norm

/-!
# Properties C39 – C47: normalization

`r : Results δ α` is one query's results; `NodupKeys r` holds for every dictionary.
-/

set_option linter.unusedSectionVars false

namespace Ranx
open Dict Norm
variable {κ δ α : Type*}

/-! ## C39 -/

/-- **C39** (queries): whatever the parallel schedule, the normalized run has the same queries in the
same order, and each query's results are the normalization of that query's own results. -/
theorem C39_per_query [DecidableEq κ] (norm : Results δ α → Results δ α) (s : Store κ δ α)
    (hw : Store.Wf s.data) (sched : List Nat) (hs : Schedule s.data.length sched) :
    (normRun norm sched s).data.keys = s.data.keys ∧
    ∀ q, (normRun norm sched s).data.get? q = (s.data.get? q).map norm := by
  unfold normRun
  simp only [normParallel_eq norm sched s.data hw.1 hs]
  exact ⟨keys_map_val _ _, get?_map_val _ _⟩

/-- the normalizations of one query that do not look at other runs -/
inductive SingleNorm [DecidableEq δ] : (Results δ ℝ → Results δ ℝ) → Prop
  | minMax (invert) : SingleNorm (minMax invert)
  | max : SingleNorm maxNorm
  | sum : SingleNorm sumNorm
  | zmuv : SingleNorm zmuv
  | rank : SingleNorm rankNorm

theorem rankNorm_eq [DecidableEq δ] [LinearOrder α] [Field α] (r : Results δ α) (h : NodupKeys r) :
    rankNorm r = r.keys.zipIdx.map (fun di => (di.1, 1 - (di.2 : α) / (r.length : α))) := by
  unfold rankNorm
  apply ofList_of_nodup
  unfold NodupKeys
  rw [List.map_map]
  have : (Prod.fst ∘ fun di : δ × Nat => (di.1, 1 - (di.2 : α) / (r.length : α))) = Prod.fst := rfl
  rw [this, List.zipIdx_map_fst]
  exact h

/-- **C39** (docs): every normalization keeps exactly the docs, in the same order. -/
theorem C39_keeps_docs [DecidableEq δ] (norm : Results δ ℝ → Results δ ℝ) (hn : SingleNorm norm)
    (r : Results δ ℝ) (h : NodupKeys r) : (norm r).keys = r.keys := by
  cases hn with
  | minMax invert => unfold Norm.minMax; exact normLoop_keys r h _
  | max => unfold Norm.maxNorm; exact normLoop_keys r h _
  | sum => unfold Norm.sumNorm; exact normLoop_keys r h _
  | zmuv => unfold Norm.zmuv; exact normLoop_keys r h _
  | rank =>
    rw [rankNorm_eq r h]
    unfold Dict.keys
    rw [List.map_map]
    exact List.zipIdx_map_fst ..

/-! ## C40: order -/

section
variable [DecidableEq δ] [LinearOrder α] [Field α] [IsStrictOrderedRing α]

/-- Specification: `r'` scores docs in the same order as `r` (strictly and weakly). -/
def Spec.SameOrder (r r' : Results δ α) : Prop :=
  ∀ d e a b, r.get? d = some a → r.get? e = some b →
    ∃ a' b', r'.get? d = some a' ∧ r'.get? e = some b' ∧ (a' < b' ↔ a < b) ∧ (a' = b' ↔ a = b)

/-- Specification: `r'` scores docs in the opposite order. -/
def Spec.ReverseOrder (r r' : Results δ α) : Prop :=
  ∀ d e a b, r.get? d = some a → r.get? e = some b →
    ∃ a' b', r'.get? d = some a' ∧ r'.get? e = some b' ∧ (b' < a' ↔ a < b) ∧ (a' = b' ↔ a = b)

theorem sameOrder_of_strictMono (r : Results δ α) (h : NodupKeys r) (f : α → α)
    (hf : StrictMono f) : Spec.SameOrder r (normLoop r f) := by
  intro d e a b ha hb
  refine ⟨f a, f b, ?_, ?_, hf.lt_iff_lt, hf.injective.eq_iff⟩
  · rw [normLoop_get? r h, ha]; rfl
  · rw [normLoop_get? r h, hb]; rfl

theorem reverseOrder_of_strictAnti (r : Results δ α) (h : NodupKeys r) (f : α → α)
    (hf : StrictAnti f) : Spec.ReverseOrder r (normLoop r f) := by
  intro d e a b ha hb
  refine ⟨f a, f b, ?_, ?_, hf.lt_iff_gt, hf.injective.eq_iff⟩
  · rw [normLoop_get? r h, ha]; rfl
  · rw [normLoop_get? r h, hb]; rfl

theorem strictMono_sub_div (m c : α) (hc : 0 < c) : StrictMono (fun s => (s - m) / c) := by
  intro a b hab
  exact div_lt_div_of_pos_right (by linarith) hc

/-- **C40**: min-max, max and sum normalization keep the order of the docs of every query (also for
constant and negative scores, as the divisor is always positive); inverted min-max reverses it. -/
theorem C40_order (r : Results δ α) (h : NodupKeys r) :
    Spec.SameOrder r (minMax false r) ∧ Spec.SameOrder r (maxNorm r) ∧
    Spec.SameOrder r (sumNorm r) ∧ Spec.ReverseOrder r (minMax true r) := by
  refine ⟨?_, ?_, ?_, ?_⟩
  · exact sameOrder_of_strictMono r h _ (strictMono_sub_div _ _ (den_pos _))
  · exact sameOrder_of_strictMono r h _
      (fun a b hab => div_lt_div_of_pos_right hab (den_pos _))
  · exact sameOrder_of_strictMono r h _ (strictMono_sub_div _ _ (den_pos _))
  · exact reverseOrder_of_strictAnti r h _
      (fun a b hab => div_lt_div_of_pos_right (by linarith) (den_pos _))

/-- **C40** (inverted min-max on a run): the new run holds the queries of the old one, each with the inverted
scores of its docs, best new score first, and says it is sorted. -/
theorem C40_inverted_sorted [LinearOrder κ] (S : ArgSort α) (s : Store κ δ α)
    (hw : Store.Wf s.data) (sched : List Nat) (hs : Schedule s.data.length sched) :
    (minMaxInverted S sched s).sorted = true ∧
    (minMaxInverted S sched s).data.keys.Pairwise (· < ·) ∧
    (∀ q, q ∈ (minMaxInverted S sched s).data.keys ↔ q ∈ s.data.keys) ∧
    ∀ q r, s.data.get? q = some r → ∃ r', (minMaxInverted S sched s).data.get? q = some r' ∧
      r'.Perm (minMax true r) ∧ r'.values.Pairwise (fun a b => b ≤ a) ∧ Spec.ReverseOrder r r' := by
  have hw' : Store.Wf (s.data.map (fun p => (p.1, minMax true p.2))) := by
    refine ⟨?_, ?_⟩
    · unfold NodupKeys; rw [List.map_map]; exact hw.1
    · intro p hp
      obtain ⟨p', hp', rfl⟩ := List.mem_map.1 hp
      exact nodupKeys_ofList _
  have he : minMaxInverted S sched s =
      ⟨sortAll S (s.data.map (fun p => (p.1, minMax true p.2))), true⟩ := by
    unfold minMaxInverted Store.sort
    rw [normParallel_eq _ _ _ hw.1 hs]
  rw [he]
  refine ⟨rfl, keys_sortAll_sorted S hw'.1, ?_, ?_⟩
  · intro q
    show q ∈ (sortAll S _).keys ↔ _
    rw [mem_keys_sortAll S hw'.1, keys_map_val]
  · intro q r hq
    refine ⟨sortDictByValue S (minMax true r), ?_, sortDictByValue_perm S (nodupKeys_ofList _), ?_, ?_⟩
    · show (sortAll S _).get? q = _
      rw [get?_sortAll S hw'.1, get?_map_val, hq]; rfl
    · exact List.pairwise_map.2 (sortDictByValue_sorted S (nodupKeys_ofList _))
    · have h := (C40_order r (hw.get? hq)).2.2.2
      intro d e a b ha hb
      obtain ⟨a', b', h1, h2, h3⟩ := h d e a b ha hb
      refine ⟨a', b', ?_, ?_, h3⟩
      · exact (get?_sortDictByValue S (d := minMax true r) (nodupKeys_ofList _) _).trans h1
      · exact (get?_sortDictByValue S (d := minMax true r) (nodupKeys_ofList _) _).trans h2

/-- the run of the example: docs 8 and 7 swap places -/
example : minMaxInverted (ArgSort.stable ℚ) [0] (⟨[(1, [(7, 9), (8, 5)])], true⟩ : Store Nat Nat ℚ) =
    ⟨[(1, [(8, 1), (7, 0)])], true⟩ := by decide +kernel

/-- **C40** (zmuv) -/
theorem C40_order_zmuv (r : Results δ ℝ) (h : NodupKeys r) : Spec.SameOrder r (zmuv r) :=
  sameOrder_of_strictMono r h _ (strictMono_sub_div _ _ (den_pos _))

/-! ## C41: min-max -/

/-- **C41**: scores lie in [0,1]; with spread at least 1e-9 a best doc gets 1 and a worst doc 0 (the
other way round when inverted). -/
theorem C41_min_max (r : Results δ α) (h : NodupKeys r) (invert : Bool) :
    (∀ d v, (minMax invert r).get? d = some v → 0 ≤ v ∧ v ≤ 1) ∧
    (∀ d e best worst, r.get? d = some best → r.get? e = some worst →
      (∀ x a, r.get? x = some a → worst ≤ a ∧ a ≤ best) → 1 / 10 ^ 9 ≤ best - worst →
      (minMax invert r).get? d = some (if invert then 0 else 1) ∧
      (minMax invert r).get? e = some (if invert then 1 else 0)) := by
  unfold minMax extractScores
  simp only [normLoop_get? r h]
  constructor
  · intro d v hv
    obtain ⟨s, hs, rfl⟩ := Option.map_eq_some_iff.1 hv
    have h1 := safeMin_le (mem_values hs)
    have h2 := safeMax_ge (mem_values hs)
    have hd := den_pos (safeMax r.values - safeMin r.values)
    have hle := le_max_left (safeMax r.values - safeMin r.values) eps
    cases invert
    · simp only [Bool.false_eq_true, if_false]
      exact ⟨div_nonneg (by linarith) hd.le, (div_le_one hd).2 (by linarith)⟩
    · simp only [if_true]
      exact ⟨div_nonneg (by linarith) hd.le, (div_le_one hd).2 (by linarith)⟩
  · intro d e best worst hd he hb hspread
    have hmin : safeMin r.values = worst := safeMin_eq_of (mem_values he) (fun y hy => by
      obtain ⟨x, hx⟩ := of_mem_values h hy
      exact (hb x y hx).1)
    have hmax : safeMax r.values = best := safeMax_eq_of (mem_values hd) (fun y hy => by
      obtain ⟨x, hx⟩ := of_mem_values h hy
      exact (hb x y hx).2)
    have hden : max (best - worst) eps = best - worst := max_eq_left hspread
    have hne : best - worst ≠ 0 := (lt_of_lt_of_le eps_pos hspread).ne'
    rw [hd, he, hmin, hmax, hden]
    cases invert <;> simp [hne]

/-- **C41** is about non-degenerate queries: below the threshold the best doc does not reach 1. -/
example : minMax false ([(1, 5), (2, 5)] : Results Nat ℚ) = [(1, 0), (2, 0)] ∧
    minMax false ([(1, 4), (2, 0), (3, 1)] : Results Nat ℚ) = [(1, 1), (2, 0), (3, 1 / 4)] ∧
    minMax true ([(1, 4), (2, 0), (3, 1)] : Results Nat ℚ) = [(1, 0), (2, 1), (3, 3 / 4)] := by
  decide +kernel

/-! ## C42: max-norm -/

/-- **C42** -/
theorem C42_max_norm (r : Results δ α) (h : NodupKeys r) :
    (∀ d s v, r.get? d = some s → (maxNorm r).get? d = some v → v ≤ 1 ∧ (0 ≤ s → 0 ≤ v)) ∧
    (∀ d best, r.get? d = some best → (∀ x a, r.get? x = some a → a ≤ best) →
      (1 / 10 ^ 9 ≤ best → (∀ x a, r.get? x = some a → (maxNorm r).get? x = some (a / best)) ∧
        (maxNorm r).get? d = some 1) ∧
      (best ≤ 1 / 10 ^ 9 → ∀ x a, r.get? x = some a → (maxNorm r).get? x = some (a * 10 ^ 9))) := by
  unfold maxNorm extractScores
  simp only [normLoop_get? r h]
  constructor
  · intro d s v hs hv
    rw [hs] at hv
    cases hv
    have hd := den_pos (safeMax r.values)
    refine ⟨(div_le_one hd).2 ((safeMax_ge (mem_values hs)).trans (le_max_left _ _)), ?_⟩
    intro h0
    exact div_nonneg h0 hd.le
  · intro d best hd hb
    have hmax : safeMax r.values = best := safeMax_eq_of (mem_values hd) (fun y hy => by
      obtain ⟨x, hx⟩ := of_mem_values h hy
      exact hb x y hx)
    rw [hmax]
    constructor
    · intro hle
      have hden : max best eps = best := max_eq_left hle
      have hne : best ≠ 0 := (lt_of_lt_of_le eps_pos hle).ne'
      rw [hden]
      refine ⟨fun x a hx => by rw [hx]; rfl, ?_⟩
      rw [hd]; simp [hne]
    · intro hle x a hx
      have hden : max best eps = eps := max_eq_right hle
      rw [hden, hx]
      simp only [Option.map_some, Option.some.injEq]
      unfold eps
      field_simp

/-- negative maxima are divided by 1e-9 -/
example : maxNorm ([(1, -1), (2, -2)] : Results Nat ℚ) = [(1, -1000000000), (2, -2000000000)] ∧
    maxNorm ([(1, 4), (2, 1)] : Results Nat ℚ) = [(1, 1), (2, 1 / 4)] := by decide +kernel

/-! ## C43: sum-norm -/

/-- **C43**: normalized scores are non-negative; their sum is 1 when the scores minus their minimum
sum to at least 1e-9. -/
theorem C43_sum_norm (r : Results δ α) (h : NodupKeys r) :
    (∀ d v, (sumNorm r).get? d = some v → 0 ≤ v ∧ v ≤ 1) ∧
    (∀ e worst, r.get? e = some worst → (∀ x a, r.get? x = some a → worst ≤ a) →
      1 / 10 ^ 9 ≤ (r.values.map (fun s => s - worst)).sum → (sumNorm r).values.sum = 1) := by
  have hlen : r.values.length = r.length := List.length_map _
  constructor
  · intro d v hv
    unfold sumNorm extractScores at hv
    simp only [normLoop_get? r h] at hv
    obtain ⟨s, hs, rfl⟩ := Option.map_eq_some_iff.1 hv
    have h1 := safeMin_le (mem_values hs)
    have hd := den_pos (r.values.sum - safeMin r.values * (r.length : α))
    have hle := le_max_left (r.values.sum - safeMin r.values * (r.length : α)) eps
    refine ⟨div_nonneg (by linarith) hd.le, (div_le_one hd).2 (le_trans ?_ hle)⟩
    rw [← hlen, ← sum_sub_const]
    apply List.single_le_sum (l := r.values.map (fun s => s - safeMin r.values))
    · intro y hy
      obtain ⟨z, hz, rfl⟩ := List.mem_map.1 hy
      have := safeMin_le hz
      linarith
    · exact List.mem_map.2 ⟨s, mem_values hs, rfl⟩
  · intro e worst he hw hsum
    have hmin : safeMin r.values = worst := safeMin_eq_of (mem_values he) (fun y hy => by
      obtain ⟨x, hx⟩ := of_mem_values h hy
      exact hw x y hx)
    have hden : max (r.values.sum - worst * (r.length : α)) eps =
        (r.values.map (fun s => s - worst)).sum := by
      rw [sum_sub_const, hlen]
      apply max_eq_left
      rw [sum_sub_const, hlen] at hsum
      exact hsum
    have hne : (r.values.map (fun s => s - worst)).sum ≠ 0 := (lt_of_lt_of_le eps_pos hsum).ne'
    unfold sumNorm extractScores
    simp only
    rw [normLoop_eq r h, hmin, hden]
    have : Dict.values (r.map (fun p => (p.1, (p.2 - worst) / (r.values.map (fun s => s - worst)).sum)))
        = r.values.map (fun s => (s - worst) / (r.values.map (fun s => s - worst)).sum) := by
      simp [Dict.values, Function.comp_def]
    rw [this, sum_div_const r.values (fun s => s - worst), div_self hne]

example : sumNorm ([(1, 5), (2, 1), (3, 2)] : Results Nat ℚ) = [(1, 4 / 5), (2, 0), (3, 1 / 5)] := by
  decide +kernel

/-! ## C45: rank-norm -/

/-- **C45**: the doc at 0-based position `i` of an `n`-result query gets `1 - i/n`. -/
theorem C45_rank_norm (r : Results δ α) (h : NodupKeys r) (i : Nat) (d : δ)
    (hi : r.keys[i]? = some d) :
    (rankNorm r).get? d = some (1 - (i : α) / (r.length : α)) ∧ (rankNorm r).keys[i]? = some d := by
  have hnd : NodupKeys (rankNorm r) := nodupKeys_ofList _
  have hget : (rankNorm r)[i]? = some (d, 1 - (i : α) / (r.length : α)) := by
    rw [rankNorm_eq r h, List.getElem?_map, List.getElem?_zipIdx, hi]
    simp
  refine ⟨get?_of_mem hnd (List.mem_of_getElem? hget), ?_⟩
  unfold Dict.keys
  rw [List.getElem?_map, hget]; rfl

/-- **C45**: only the order of the docs matters, not the scores. -/
theorem C45_only_order (r r' : Results δ α) (h : r.keys = r'.keys) : rankNorm r = rankNorm r' := by
  unfold rankNorm
  have : r.length = r'.length := by
    have := congrArg List.length h
    simpa [Dict.keys] using this
  rw [h, this]

example : rankNorm ([(7, 9), (8, 5), (9, 5)] : Results Nat ℚ) = [(7, 1), (8, 2 / 3), (9, 1 / 3)] := by
  decide +kernel

/-! ## C46: affine invariance -/

/-- scores of a query transformed by `s ↦ a·s + b` -/
def affine (a b : α) (r : Results δ α) : Results δ α := r.map (fun p => (p.1, a * p.2 + b))

theorem affine_nodup {a b : α} {r : Results δ α} (h : NodupKeys r) : NodupKeys (affine a b r) := by
  unfold NodupKeys affine; rw [List.map_map]; exact h

theorem affine_values (a b : α) (r : Results δ α) :
    (affine a b r).values = r.values.map (fun s => a * s + b) := by
  simp [affine, Dict.values, Function.comp_def]

theorem normLoop_affine (a b : α) (r : Results δ α) (h : NodupKeys r) (f g : α → α)
    (hfg : ∀ s ∈ r.values, f (a * s + b) = g s) : normLoop (affine a b r) f = normLoop r g := by
  rw [normLoop_eq _ (affine_nodup h), normLoop_eq _ h]
  unfold affine
  rw [List.map_map]
  apply List.map_congr_left
  intro p hp
  simp only [Function.comp_apply]
  rw [hfg p.2 (List.mem_map_of_mem hp)]

/-- **C46** (min-max and sum): a positive affine change of a query's scores changes nothing, provided
the spread (resp. the sum of scores above the minimum) is at least 1e-9 before and after. -/
theorem C46_affine (r : Results δ α) (h : NodupKeys r) (a b : α) (ha : 0 < a) :
    ((∃ d e x y, r.get? d = some x ∧ r.get? e = some y ∧ 1 / 10 ^ 9 ≤ x - y ∧
        1 / 10 ^ 9 ≤ a * (x - y)) →
      (∀ invert, minMax invert (affine a b r) = minMax invert r)) ∧
    (∀ e worst, r.get? e = some worst → (∀ x v, r.get? x = some v → worst ≤ v) →
      1 / 10 ^ 9 ≤ (r.values.map (fun s => s - worst)).sum →
      1 / 10 ^ 9 ≤ a * (r.values.map (fun s => s - worst)).sum →
      sumNorm (affine a b r) = sumNorm r) := by
  have hlen : r.values.length = r.length := List.length_map _
  have hlen' : (affine a b r).length = r.length := by simp [affine]
  constructor
  · rintro ⟨d, e, x, y, hd, he, h1, h2⟩ invert
    have hne : r.values ≠ [] := List.ne_nil_of_mem (mem_values hd)
    unfold minMax extractScores
    simp only [affine_values, safeMin_affine ha hne, safeMax_affine ha hne]
    have hx := safeMax_ge (mem_values hd)
    have hy := safeMin_le (mem_values he)
    have hsp : 1 / 10 ^ 9 ≤ safeMax r.values - safeMin r.values := by linarith
    have hsp' : 1 / 10 ^ 9 ≤ a * safeMax r.values + b - (a * safeMin r.values + b) := by nlinarith
    have e1 : max (safeMax r.values - safeMin r.values) eps = safeMax r.values - safeMin r.values :=
      max_eq_left hsp
    have e2 : max (a * safeMax r.values + b - (a * safeMin r.values + b)) eps =
        a * (safeMax r.values - safeMin r.values) := by
      rw [max_eq_left (show eps ≤ _ from hsp')]; ring
    rw [e1, e2]
    have hne0 : safeMax r.values - safeMin r.values ≠ 0 := (lt_of_lt_of_le eps_pos hsp).ne'
    apply normLoop_affine a b r h
    intro s _
    cases invert
    · simp only [Bool.false_eq_true, if_false]
      rw [show a * s + b - (a * safeMin r.values + b) = a * (s - safeMin r.values) by ring,
        mul_div_mul_left _ _ ha.ne']
    · simp only [if_true]
      rw [show a * safeMax r.values + b - (a * s + b) = a * (safeMax r.values - s) by ring,
        mul_div_mul_left _ _ ha.ne']
  · intro e worst he hworst h1 h2
    have hmin : safeMin r.values = worst := safeMin_eq_of (mem_values he) (fun y hy => by
      obtain ⟨x, hx⟩ := of_mem_values h hy
      exact hworst x y hx)
    rw [← hmin] at h1 h2
    by_cases hne : r.values = []
    · have : r = [] := by simpa [Dict.values] using hne
      subst this; rfl
    · rw [sum_sub_const, hlen] at h1 h2
      unfold sumNorm extractScores
      simp only [affine_values, safeMin_affine ha hne, sum_affine, hlen', hlen]
      have e1 : max (r.values.sum - safeMin r.values * (r.length : α)) eps =
        r.values.sum - safeMin r.values * (r.length : α) := max_eq_left h1
      have e2 : max (a * r.values.sum + b * (r.length : α) -
          (a * safeMin r.values + b) * (r.length : α)) eps =
          a * (r.values.sum - safeMin r.values * (r.length : α)) := by
        rw [show a * r.values.sum + b * (r.length : α) - (a * safeMin r.values + b) * (r.length : α) =
          a * (r.values.sum - safeMin r.values * (r.length : α)) by ring]
        exact max_eq_left h2
      rw [e1, e2]
      apply normLoop_affine a b r h
      intro s _
      rw [show a * s + b - (a * safeMin r.values + b) = a * (s - safeMin r.values) by ring,
        mul_div_mul_left _ _ ha.ne']

end

/-! ## C44 and C46 for zmuv -/

section
variable [DecidableEq δ]

/-- Specification: mean and (population) variance of a list -/
noncomputable def Spec.mean (l : List ℝ) : ℝ := l.sum / (l.length : ℝ)
noncomputable def Spec.variance (l : List ℝ) : ℝ :=
  (l.map (fun s => (s - Spec.mean l) ^ 2)).sum / (l.length : ℝ)

theorem zmuv_eq (r : Results δ ℝ) : zmuv r = normLoop r (fun s =>
    (s - Spec.mean r.values) / max (Real.sqrt (Spec.variance r.values)) eps) := by
  unfold zmuv Spec.variance Spec.mean extractScores
  simp only [sq_abs]

theorem sum_nonneg_sq (l : List ℝ) (f : ℝ → ℝ) : 0 ≤ (l.map (fun s => (f s) ^ 2)).sum := by
  apply List.sum_nonneg
  intro y hy
  obtain ⟨s, _, rfl⟩ := List.mem_map.1 hy
  positivity

/-- **C44**: mean 0 always (non-empty query), variance 1 when the standard deviation is at least
1e-9. -/
theorem C44_zmuv (r : Results δ ℝ) (h : NodupKeys r) (hne : r ≠ []) :
    Spec.mean (zmuv r).values = 0 ∧
    (1 / 10 ^ 9 ≤ Real.sqrt (Spec.variance r.values) → Spec.variance (zmuv r).values = 1) := by
  set c := max (Real.sqrt (Spec.variance r.values)) eps with hc
  have hv : (zmuv r).values = r.values.map (fun s => (s - Spec.mean r.values) / c) := by
    rw [zmuv_eq, normLoop_eq r h]
    simp [Dict.values, Function.comp_def, hc]
  have hvne : (r.values.length : ℝ) ≠ 0 := by
    have : r.values.length ≠ 0 := by simpa [Dict.values] using hne
    exact_mod_cast this
  have hmean : Spec.mean (zmuv r).values = 0 := by
    unfold Spec.mean
    rw [hv, sum_div_const r.values (fun s => s - Spec.mean r.values), sum_sub_const]
    unfold Spec.mean
    rw [div_mul_cancel₀ _ hvne]; simp
  refine ⟨hmean, fun hs => ?_⟩
  have hce : c = Real.sqrt (Spec.variance r.values) := max_eq_left hs
  have hcpos : 0 < c := den_pos _
  have hc2 : c ^ 2 = Spec.variance r.values := by
    rw [hce, Real.sq_sqrt]
    unfold Spec.variance
    exact div_nonneg (sum_nonneg_sq _ _) (Nat.cast_nonneg _)
  unfold Spec.variance
  rw [hmean, hv, List.map_map, List.length_map]
  have : (fun s => (s - 0) ^ 2) ∘ (fun s => (s - Spec.mean r.values) / c) =
      fun s => (s - Spec.mean r.values) ^ 2 / c ^ 2 := by
    funext s; simp only [Function.comp_apply]; rw [sub_zero, div_pow]
  rw [this, sum_div_const r.values (fun s => (s - Spec.mean r.values) ^ 2)]
  rw [div_right_comm]
  change Spec.variance r.values / c ^ 2 = 1
  rw [← hc2]
  exact div_self (pow_pos hcpos 2).ne'

theorem mean_affine (a b : ℝ) (l : List ℝ) (hne : l ≠ []) :
    Spec.mean (l.map (fun s => a * s + b)) = a * Spec.mean l + b := by
  have : (l.length : ℝ) ≠ 0 := by
    have : l.length ≠ 0 := by simpa using hne
    exact_mod_cast this
  unfold Spec.mean
  rw [sum_affine, List.length_map]
  field_simp

theorem variance_affine (a b : ℝ) (l : List ℝ) (hne : l ≠ []) :
    Spec.variance (l.map (fun s => a * s + b)) = a ^ 2 * Spec.variance l := by
  unfold Spec.variance
  rw [mean_affine a b l hne, List.map_map, List.length_map]
  have : (fun s => (s - (a * Spec.mean l + b)) ^ 2) ∘ (fun s => a * s + b) =
      fun s => a ^ 2 * (s - Spec.mean l) ^ 2 := by
    funext s; simp only [Function.comp_apply]; ring
  rw [this, List.sum_map_mul_left]
  ring

/-- **C46** (zmuv) -/
theorem C46_affine_zmuv (r : Results δ ℝ) (h : NodupKeys r) (a b : ℝ) (ha : 0 < a)
    (h1 : 1 / 10 ^ 9 ≤ Real.sqrt (Spec.variance r.values))
    (h2 : 1 / 10 ^ 9 ≤ a * Real.sqrt (Spec.variance r.values)) : zmuv (affine a b r) = zmuv r := by
  rw [zmuv_eq, zmuv_eq, affine_values]
  by_cases hne : r.values = []
  · have : r = [] := by simpa [Dict.values] using hne
    subst this; rfl
  · rw [mean_affine a b _ hne, variance_affine a b _ hne]
    have hs : Real.sqrt (a ^ 2 * Spec.variance r.values) = a * Real.sqrt (Spec.variance r.values) := by
      rw [Real.sqrt_mul (sq_nonneg a), Real.sqrt_sq ha.le]
    rw [hs, max_eq_left (show eps ≤ _ from h1), max_eq_left (show eps ≤ _ from h2)]
    apply normLoop_affine a b r h
    intro s _
    rw [show a * s + b - (a * Spec.mean r.values + b) = a * (s - Spec.mean r.values) by ring,
      mul_div_mul_left _ _ ha.ne']

/-- the hypothesis of C44/C46 holds e.g. for the scores 0, 2 (standard deviation 1) -/
example : (1 : ℝ) / 10 ^ 9 ≤ Real.sqrt (Spec.variance (Dict.values ([(1, 0), (2, 2)] : Results Nat ℝ))) := by
  have : Spec.variance (Dict.values ([(1, 0), (2, 2)] : Results Nat ℝ)) = 1 := by
    norm_num [Spec.variance, Spec.mean, Dict.values]
  rw [this, Real.sqrt_one]; norm_num

end
end Ranx
