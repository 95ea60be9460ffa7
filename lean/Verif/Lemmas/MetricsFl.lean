import Verif.Model.MetricsFl
import Verif.Lemmas.Float64
import Verif.Props.Metrics2

/-!
# The float kernels compute correctly rounded results, and stay in range
-/

set_option linter.unusedSectionVars false

namespace Ranx
open Metrics F64

/-- a rounding of real results: monotone, stable, exact on the integers up to 2^53 and compatible with
doubling. Every IEEE 754 binary64 rounding direction is one (away from overflow and underflow). -/
structure Spec.Rounding (rnd : ℚ → ℚ) : Prop where
  mono : ∀ x y, x ≤ y → rnd x ≤ rnd y
  idem : ∀ x, rnd (rnd x) = rnd x
  nat : ∀ n : ℕ, n ≤ 2 ^ 53 → rnd n = n
  double : ∀ x, rnd (2 * x) = 2 * rnd x

namespace Metrics.Rnd
variable {rnd : ℚ → ℚ} (R : Spec.Rounding rnd)
include R

theorem rnd_zero : rnd 0 = 0 := by simpa using R.nat 0 (by norm_num)
theorem rnd_one : rnd 1 = 1 := by simpa using R.nat 1 (by norm_num)
theorem rnd_half : rnd (1 / 2) = 1 / 2 := by
  have := R.double (1 / 2)
  rw [show (2 : ℚ) * (1 / 2) = 1 by norm_num, rnd_one R] at this
  linarith
theorem rnd_nonneg {x : ℚ} (h : 0 ≤ x) : 0 ≤ rnd x := by
  have := R.mono 0 x h; rwa [rnd_zero R] at this
theorem rnd_le_one {x : ℚ} (h : x ≤ 1) : rnd x ≤ 1 := by
  have := R.mono x 1 h; rwa [rnd_one R] at this
theorem rnd_unit {x : ℚ} (h : 0 ≤ x ∧ x ≤ 1) : 0 ≤ rnd x ∧ rnd x ≤ 1 :=
  ⟨rnd_nonneg R h.1, rnd_le_one R h.2⟩

/-- sums of numbers in the unit interval stay below the number of nonzero ones, however bracketed -/
theorem eval_bounds (t : SumTree) (h : ∀ x ∈ t.leaves, 0 ≤ x ∧ x ≤ 1)
    (hn : t.leaves.countP (fun x => decide (x ≠ 0)) ≤ 2 ^ 53) :
    0 ≤ t.eval rnd ∧ t.eval rnd ≤ (t.leaves.countP (fun x => decide (x ≠ 0)) : ℕ) := by
  induction t with
  | zero => simp [SumTree.eval, SumTree.leaves]
  | leaf x =>
    have := h x (by simp [SumTree.leaves])
    by_cases hx : x = 0
    · simp [SumTree.eval, SumTree.leaves, hx]
    · simp [SumTree.eval, SumTree.leaves, hx, this]
  | node a b iha ihb =>
    simp only [SumTree.leaves, List.mem_append, List.countP_append] at h hn ⊢
    obtain ⟨a1, a2⟩ := iha (fun x hx => h x (.inl hx)) (by omega)
    obtain ⟨b1, b2⟩ := ihb (fun x hx => h x (.inr hx)) (by omega)
    simp only [SumTree.eval]
    refine ⟨rnd_nonneg R (add_nonneg a1 b1), ?_⟩
    have := R.mono _ _ (add_le_add a2 b2)
    rw [← Nat.cast_add, R.nat _ hn] at this
    exact this

/-- sums of zeros and ones are exact -/
theorem eval_bits (t : SumTree) (h : ∀ x ∈ t.leaves, x = 0 ∨ x = 1)
    (hn : t.leaves.countP (fun x => decide (x ≠ 0)) ≤ 2 ^ 53) : t.eval rnd = t.leaves.sum := by
  have hs : ∀ l : List ℚ, (∀ x ∈ l, x = 0 ∨ x = 1) → l.sum = (l.countP (fun x => decide (x ≠ 0)) : ℕ) := by
    intro l
    induction l with
    | nil => intro _; simp
    | cons a l ih =>
      intro hl
      rw [List.sum_cons, ih (fun x hx => hl x (List.mem_cons_of_mem _ hx)), List.countP_cons]
      rcases hl a (List.mem_cons_self ..) with rfl | rfl
      · simp
      · simp [add_comm]
  rw [hs _ h]
  induction t with
  | zero => simp [SumTree.eval, SumTree.leaves]
  | leaf x => rcases h x (by simp [SumTree.leaves]) with rfl | rfl <;> simp [SumTree.eval, SumTree.leaves]
  | node a b iha ihb =>
    simp only [SumTree.leaves, List.mem_append, List.countP_append] at h hn ⊢
    rw [SumTree.eval, iha (fun x hx => h x (.inl hx)) (by omega), ihb (fun x hx => h x (.inr hx)) (by omega),
      ← Nat.cast_add, R.nat _ hn]

theorem sum_bounds {sum : List ℚ → ℚ} (hs : IsSum rnd sum) (l : List ℚ) (h : ∀ x ∈ l, 0 ≤ x ∧ x ≤ 1) (n : ℕ)
    (hn : l.countP (fun x => decide (x ≠ 0)) ≤ n) (hn' : n ≤ 2 ^ 53) : 0 ≤ sum l ∧ sum l ≤ n := by
  obtain ⟨t, hp, he⟩ := hs l
  have hc := hp.countP_eq (fun x => decide (x ≠ 0))
  obtain ⟨h1, h2⟩ := eval_bounds R t (fun x hx => h x (hp.mem_iff.1 hx)) (by omega)
  rw [he]
  refine ⟨h1, h2.trans ?_⟩
  rw [hc]
  exact_mod_cast hn

theorem sum_bits {sum : List ℚ → ℚ} (hs : IsSum rnd sum) (l : List ℚ) (h : ∀ x ∈ l, x = 0 ∨ x = 1)
    (hn : l.length ≤ 2 ^ 53) : sum l = l.sum := by
  obtain ⟨t, hp, he⟩ := hs l
  have hc := hp.countP_eq (fun x => decide (x ≠ 0))
  have hle : l.countP (fun x => decide (x ≠ 0)) ≤ l.length := List.countP_le_length
  rw [he, eval_bits R t (fun x hx => h x (hp.mem_iff.1 hx)) (by omega)]
  exact hp.sum_eq

variable {ι : Type*} [LinearOrder ι]

theorem foldl_count_rnd (q l : Rows ι ℚ) (a : ℕ) (h : a + l.length ≤ 2 ^ 53) :
    l.foldl (fun hits r => if (look q r.1).isSome then rnd (hits + 1) else hits) (a : ℚ) =
      l.foldl (fun hits r => if (look q r.1).isSome then hits + 1 else hits) (a : ℚ) := by
  induction l generalizing a with
  | nil => rfl
  | cons r t ih =>
    simp only [List.length_cons] at h
    rw [List.foldl_cons, List.foldl_cons]
    split
    · have : rnd ((a : ℚ) + 1) = ((a + 1 : ℕ) : ℚ) := by
        rw [← R.nat (a + 1) (by omega)]; push_cast; rfl
      rw [this]
      have h2 := ih (a + 1) (by omega)
      push_cast at h2 ⊢
      exact h2
    · exact ih a (by omega)

theorem hits_exact (q run : Rows ι ℚ) (k : ℕ) (lvl : ℚ) (hr : run.length ≤ 2 ^ 53) :
    hits rnd q run k lvl = Metrics.hits q run k lvl := by
  unfold hits Metrics.hits
  simp only
  split
  · rfl
  · have := foldl_count_rnd R (cleanQrels q lvl) (run.take (fixK k run)) 0 (by
      rw [List.length_take]; omega)
    simpa using this

theorem clean_le (q : Rows ι ℚ) (lvl : ℚ) : (cleanQrels q lvl).length ≤ q.length :=
  List.length_filter_le _ _

theorem precision_rounded (q run : Rows ι ℚ) (k : ℕ) (lvl : ℚ) (hr : run.length ≤ 2 ^ 53) (hk : k ≤ 2 ^ 53) :
    precision rnd q run k lvl = rnd (Metrics.precision q run k lvl) := by
  unfold precision Metrics.precision
  simp only
  have hk' : (if k ≠ 0 then k else run.length) ≤ 2 ^ 53 := by split <;> assumption
  generalize (if k ≠ 0 then k else run.length) = k' at hk' ⊢
  by_cases h : k' = 0
  · rw [if_pos h, if_pos h, rnd_zero R]
  · rw [if_neg h, if_neg h, hits_exact R q run _ lvl hr, R.nat _ hk']

theorem recall_rounded (q run : Rows ι ℚ) (k : ℕ) (lvl : ℚ) (hr : run.length ≤ 2 ^ 53)
    (hq : q.length ≤ 2 ^ 53) : recall rnd q run k lvl = rnd (Metrics.recall q run k lvl) := by
  unfold recall Metrics.recall
  simp only
  generalize (if k ≠ 0 then k else run.length) = k'
  by_cases h : (cleanQrels q lvl).length = 0
  · rw [if_pos h, if_pos h, rnd_zero R]
  · rw [if_neg h, if_neg h]
    by_cases h' : k' = 0
    · rw [if_pos h', if_pos h', rnd_zero R]
    · rw [if_neg h', if_neg h', hits_exact R _ run _ lvl hr, R.nat _ ((clean_le R q lvl).trans hq)]

theorem rPrecision_rounded (q run : Rows ι ℚ) (lvl : ℚ) (hr : run.length ≤ 2 ^ 53)
    (hq : q.length ≤ 2 ^ 53) : rPrecision rnd q run lvl = rnd (Metrics.rPrecision q run lvl) := by
  unfold rPrecision Metrics.rPrecision
  simp only
  by_cases h : (cleanQrels q lvl).length = 0
  · rw [if_pos h, if_pos h, rnd_zero R]
  · rw [if_neg h, if_neg h, precision_rounded R _ _ _ _ hr ((clean_le R q lvl).trans hq)]

theorem rrLoop_rounded (q l : Rows ι ℚ) (i : ℕ) (h : i + l.length ≤ 2 ^ 53) :
    rrLoop rnd q l i = rnd (Metrics.rrLoop q l i) := by
  induction l generalizing i with
  | nil => simp [rrLoop, Metrics.rrLoop, rnd_zero R]
  | cons r t ih =>
    simp only [List.length_cons] at h
    unfold rrLoop Metrics.rrLoop
    split
    · rw [R.nat (i + 1) (by omega)]; push_cast; rfl
    · exact ih (i + 1) (by omega)

theorem reciprocalRank_rounded (q run : Rows ι ℚ) (k : ℕ) (lvl : ℚ) (hr : run.length ≤ 2 ^ 53) :
    reciprocalRank rnd q run k lvl = rnd (Metrics.reciprocalRank q run k lvl) := by
  unfold reciprocalRank Metrics.reciprocalRank
  simp only
  split
  · exact (rnd_zero R).symm
  · exact rrLoop_rounded R _ _ 0 (by rw [List.length_take]; omega)

theorem hitList_bits (q run : Rows ι ℚ) (k : ℕ) : ∀ x ∈ (hitList q run k : List ℚ), x = 0 ∨ x = 1 := by
  intro x hx
  obtain ⟨r, -, rfl⟩ := List.mem_map.1 hx
  split <;> simp

theorem precisionScore_rounded {sum : List ℚ → ℚ} (hs : IsSum rnd sum) (q run : Rows ι ℚ) (k r : ℕ)
    (hk : k ≤ 2 ^ 53) (hr : r < k) :
    precisionScore rnd sum (hitList q run k) r = rnd (Metrics.precisionScore (hitList q run k) r) := by
  unfold precisionScore Metrics.precisionScore
  split
  · rw [sum_bits R hs _ (fun x hx => hitList_bits R q run k x (List.mem_of_mem_take hx)) (by
      rw [List.length_take]; omega), R.nat (r + 1) (by omega)]
    push_cast; rfl
  · exact (rnd_zero R).symm

theorem exact_score_unit (q run : Rows ι ℚ) (k r : ℕ) :
    0 ≤ Metrics.precisionScore (hitList q run k : List ℚ) r ∧
      Metrics.precisionScore (hitList q run k : List ℚ) r ≤ 1 := by
  unfold Metrics.precisionScore
  split
  · have hb : ∀ l : List ℚ, (∀ x ∈ l, x = 0 ∨ x = 1) → 0 ≤ l.sum ∧ l.sum ≤ l.length := by
      intro l
      induction l with
      | nil => simp
      | cons a l ih =>
        intro hl
        have := ih (fun x hx => hl x (List.mem_cons_of_mem _ hx))
        rcases hl a (List.mem_cons_self ..) with rfl | rfl <;> simp <;> constructor <;> linarith
    obtain ⟨h1, h2⟩ := hb ((hitList q run k).take (r + 1))
      (fun x hx => hitList_bits R q run k x (List.mem_of_mem_take hx))
    have h3 : (((hitList q run k : List ℚ).take (r + 1)).length : ℚ) ≤ (r : ℚ) + 1 := by
      have : ((hitList q run k : List ℚ).take (r + 1)).length ≤ r + 1 := by rw [List.length_take]; omega
      exact_mod_cast this
    have hpos : (0 : ℚ) < (r : ℚ) + 1 := by positivity
    exact ⟨div_nonneg h1 hpos.le, (div_le_one hpos).2 (h2.trans h3)⟩
  · exact ⟨le_refl _, zero_le_one⟩

theorem scores_unit {sum : List ℚ → ℚ} (hs : IsSum rnd sum) (q run : Rows ι ℚ) (k : ℕ) (hk : k ≤ 2 ^ 53) :
    ∀ x ∈ (List.range k).map (precisionScore rnd sum (hitList q run k)), 0 ≤ x ∧ x ≤ 1 := by
  intro x hx
  obtain ⟨r, hr, rfl⟩ := List.mem_map.1 hx
  rw [precisionScore_rounded R hs q run k r hk (List.mem_range.1 hr)]
  exact rnd_unit R (exact_score_unit R q run k r)

theorem countP_scores (sum : List ℚ → ℚ) (hl : List ℚ) :
    ((List.range hl.length).map (precisionScore rnd sum hl)).countP (fun x => decide (x ≠ 0)) ≤
      hl.countP (fun x => decide (x ≠ 0)) := by
  have h1 : hl = (List.range hl.length).map (fun r => hl.getD r 0) := by
    apply List.ext_getElem (by simp)
    intro i h1 h2
    simp [List.getD_eq_getElem?_getD, h1]
  have h2 : hl.countP (fun x => decide (x ≠ 0)) =
      (List.range hl.length).countP (fun r => decide (hl.getD r 0 ≠ 0)) := by
    conv_lhs => rw [h1]
    rw [List.countP_map]
    rfl
  rw [h2, List.countP_map]
  apply List.countP_mono_left
  intro r _ h
  simp only [Function.comp_apply, decide_eq_true_eq] at h ⊢
  intro h0
  apply h
  unfold precisionScore
  rw [if_neg (by simpa using h0)]

theorem count_hits_le (q run : Rows ι ℚ) (hrun : (ids run).Nodup) (k : ℕ) (lvl : ℚ) :
    (hitList (cleanQrels q lvl) run k : List ℚ).countP (fun x => decide (x ≠ 0)) ≤
      (cleanQrels q lvl).length := by
  classical
  have h := relIn_le_numRel q lvl (ids run) hrun k
  rw [numRel_eq, relIn_eq_countP] at h
  refine le_trans (le_of_eq ?_) h
  unfold hitList
  rw [List.countP_map, ids, ← List.map_take, List.countP_map]
  congr 1
  funext r
  simp only [Function.comp_apply]
  rw [decide_eq_decide, ← look_clean_isSome]
  split <;> simp_all

theorem averagePrecision_unit {sum : List ℚ → ℚ} (hs : IsSum rnd sum) (q run : Rows ι ℚ) (k : ℕ) (lvl : ℚ)
    (hrun : (ids run).Nodup) (hr : run.length ≤ 2 ^ 53) (hq : q.length ≤ 2 ^ 53) :
    0 ≤ averagePrecision rnd sum q run k lvl ∧ averagePrecision rnd sum q run k lvl ≤ 1 := by
  unfold averagePrecision
  simp only
  have hc := (clean_le R q lvl).trans hq
  by_cases h : (cleanQrels q lvl).length = 0
  · rw [if_pos h]; exact ⟨le_refl _, zero_le_one⟩
  · rw [if_neg h, R.nat _ hc]
    have hfk := (fixK_le k run).trans hr
    have hlen : (hitList (cleanQrels q lvl) run (fixK k run) : List ℚ).length = fixK k run := by
      unfold hitList
      rw [List.length_map, List.length_take, min_eq_left (fixK_le k run)]
    have hcount := countP_scores R sum (hitList (cleanQrels q lvl) run (fixK k run) : List ℚ)
    rw [hlen] at hcount
    obtain ⟨h1, h2⟩ := sum_bounds R hs _ (scores_unit R hs (cleanQrels q lvl) run (fixK k run) hfk)
      (cleanQrels q lvl).length (hcount.trans (count_hits_le R q run hrun _ lvl)) hc
    have hpos : (0 : ℚ) < (cleanQrels q lvl).length := by exact_mod_cast Nat.pos_of_ne_zero h
    exact rnd_unit R ⟨div_nonneg h1 hpos.le, (div_le_one hpos).2 h2⟩

theorem f1_unit (q run : Rows ι ℚ) (k : ℕ) (lvl : ℚ) (hrun : (ids run).Nodup) (hr : run.length ≤ 2 ^ 53)
    (hq : q.length ≤ 2 ^ 53) (hk : k ≤ 2 ^ 53) : 0 ≤ f1 rnd q run k lvl ∧ f1 rnd q run k lvl ≤ 1 := by
  unfold f1
  simp only
  have hc := (clean_le R q lvl).trans hq
  have hk' : (if k ≠ 0 then k else run.length) ≤ 2 ^ 53 := by split <;> assumption
  by_cases h : (cleanQrels q lvl).length = 0
  · rw [if_pos h]; exact ⟨le_refl _, zero_le_one⟩
  rw [if_neg h]
  have hP := C22_ranges_any_run (cleanQrels q lvl) run k lvl
  have hRc := (C22_ranges (cleanQrels q lvl) run hrun k lvl).1
  unfold Metrics.recall at hRc
  simp only [clean_clean, if_neg h] at hRc
  have hPr := hP.2.2.1
  unfold Metrics.precision at hPr
  simp only at hPr
  generalize hkk : (if k ≠ 0 then k else run.length) = k' at hk' hRc hPr ⊢
  by_cases h' : k' = 0
  · rw [if_pos h']; exact ⟨le_refl _, zero_le_one⟩
  simp only [if_neg h'] at hRc hPr ⊢
  rw [hits_exact R _ _ _ _ hr, R.nat _ hk', R.nat _ hc]
  have p1 := rnd_unit R hPr
  have r1 := rnd_unit R hRc
  have pi := R.idem (Metrics.hits (cleanQrels q lvl) run k' lvl / (k' : ℚ))
  have ri := R.idem (Metrics.hits (cleanQrels q lvl) run k' lvl / ((cleanQrels q lvl).length : ℚ))
  generalize rnd (Metrics.hits (cleanQrels q lvl) run k' lvl / (k' : ℚ)) = p at p1 pi ⊢
  generalize rnd (Metrics.hits (cleanQrels q lvl) run k' lvl / ((cleanQrels q lvl).length : ℚ)) = r at r1 ri ⊢
  split
  · exact ⟨le_refl _, zero_le_one⟩
  rename_i hne
  have hsum : 0 ≤ rnd (p + r) := rnd_nonneg R (by linarith)
  have hpos : 0 < rnd (p + r) := lt_of_le_of_ne hsum (Ne.symm hne)
  have hprod : 0 ≤ rnd (p * r) := rnd_nonneg R (mul_nonneg p1.1 r1.1)
  -- the smaller of the two
  have hmin : rnd (p * r) ≤ min p r := by
    refine le_min ?_ ?_
    · have := R.mono (p * r) p (by nlinarith [p1.1, r1.2]); rwa [pi] at this
    · have := R.mono (p * r) r (by nlinarith [r1.1, p1.2]); rwa [ri] at this
  have hdouble : 2 * min p r ≤ rnd (p + r) := by
    have hm : rnd (min p r) = min p r := by
      rcases le_total p r with hpr | hpr
      · rw [min_eq_left hpr, pi]
      · rw [min_eq_right hpr, ri]
    have := R.mono (2 * min p r) (p + r) (by linarith [min_le_left p r, min_le_right p r])
    rwa [R.double, hm] at this
  have hq : rnd (p * r) / rnd (p + r) ≤ 1 / 2 := by
    rw [div_le_iff₀ hpos]; linarith
  have h0 : 0 ≤ rnd (p * r) / rnd (p + r) := div_nonneg hprod hsum
  have h2 := R.mono _ _ hq
  rw [rnd_half R] at h2
  have h3 := rnd_nonneg R h0
  exact rnd_unit R ⟨by linarith, by linarith⟩

theorem mean_unit {sum : List ℚ → ℚ} (hs : IsSum rnd sum) (l : List ℚ) (h : ∀ x ∈ l, 0 ≤ x ∧ x ≤ 1)
    (hn : l.length ≤ 2 ^ 53) (hne : l ≠ []) : 0 ≤ mean rnd sum l ∧ mean rnd sum l ≤ 1 := by
  unfold mean
  rw [R.nat _ hn]
  obtain ⟨h1, h2⟩ := sum_bounds R hs l h l.length List.countP_le_length hn
  have hpos : (0 : ℚ) < l.length := by exact_mod_cast List.length_pos_iff.2 hne
  exact rnd_unit R ⟨div_nonneg h1 hpos.le, (div_le_one hpos).2 h2⟩

theorem interpolated_unit {sum : List ℚ → ℚ} (hs : IsSum rnd sum) (cutoff : ℕ → ℕ → ℕ) (q run : Rows ι ℚ)
    (lvl : ℚ) (hr : run.length ≤ 2 ^ 53) :
    ∀ x ∈ interpolatedPrecision rnd sum cutoff q run lvl, 0 ≤ x ∧ x ≤ 1 := by
  unfold interpolatedPrecision
  simp only
  intro x hx
  split at hx
  · rw [List.eq_of_mem_replicate hx]; exact ⟨le_refl _, zero_le_one⟩
  have hsc := scores_unit R hs (cleanQrels q lvl) run run.length hr
  generalize (List.range run.length).map (precisionScore rnd sum (hitList (cleanQrels q lvl) run run.length)) = ps
    at hsc hx
  have hall : ∀ y ∈ maxList (0 :: ps) :: ps, 0 ≤ y ∧ y ≤ 1 := by
    intro y hy
    rcases List.mem_cons.1 hy with rfl | hy
    · rcases List.mem_cons.1 (maxList_greatest (0 :: ps) (by simp)).1 with h | h
      · rw [h]; exact ⟨le_refl _, zero_le_one⟩
      · exact hsc _ h
    · exact hsc y hy
  obtain ⟨c, -, rfl⟩ := List.mem_map.1 hx
  split
  · rename_i hlt
    have hne : ((maxList (0 :: ps) :: ps).filter (fun x => decide (x ≠ 0))).drop c ≠ [] := by
      rw [Ne, List.drop_eq_nil_iff]; omega
    have := (maxList_greatest _ hne).1
    exact hall _ (List.mem_filter.1 (List.mem_of_mem_drop this)).1
  · exact ⟨le_refl _, zero_le_one⟩

theorem nonHits_bound (rel jud : ι → Bool) (hj : ∀ x, rel x → jud x) (l : List ι) (m : ℕ)
    (hm : ∀ i, Spec.relIn (fun x => jud x = true ∧ ¬ rel x = true) l i ≤ m) :
    ∀ c ∈ nonHitsBefore (judgedHits rel jud l : List ℚ) 0, c ≤ m := by
  intro c hc
  have h := nonHits_sum (α := ℚ) rel jud hj l 0 (fun c => if c ≤ m then 0 else 1)
  have h0 : (∑ i ∈ Finset.range l.length, if ∃ x, l[i]? = some x ∧ rel x = true then
      (if 0 + Spec.relIn (fun x => jud x = true ∧ ¬ rel x = true) l i ≤ m then (0 : ℚ) else 1) else 0) = 0 := by
    apply Finset.sum_eq_zero
    intro i _
    have hi : 0 + Spec.relIn (fun x => jud x = true ∧ ¬ rel x = true) l i ≤ m := by
      simpa only [zero_add] using hm i
    rw [if_pos hi, ite_self]
  rw [h0] at h
  by_contra hcm
  have hmem : (1 : ℚ) ∈ (nonHitsBefore (judgedHits rel jud l : List ℚ) 0).map
      (fun c => if c ≤ m then (0 : ℚ) else 1) := List.mem_map.2 ⟨c, hc, if_neg hcm⟩
  have hnn : ∀ y ∈ (nonHitsBefore (judgedHits rel jud l : List ℚ) 0).map
      (fun c => if c ≤ m then (0 : ℚ) else 1), 0 ≤ y := by
    intro y hy
    obtain ⟨d, -, rfl⟩ := List.mem_map.1 hy
    split <;> norm_num
  have := List.single_le_sum hnn _ hmem
  rw [h] at this
  norm_num at this

theorem nonHits_length (rel jud : ι → Bool) (hj : ∀ x, rel x → jud x) (l : List ι) :
    (nonHitsBefore (judgedHits rel jud l : List ℚ) 0).length = Spec.relIn (fun x => rel x = true) l l.length := by
  classical
  have h := nonHits_sum (α := ℚ) rel jud hj l 0 (fun _ => 1)
  have h2 : (∑ i ∈ Finset.range l.length, if ∃ x, l[i]? = some x ∧ rel x = true then (1 : ℚ) else 0) =
      (Spec.relIn (fun x => rel x = true) l l.length : ℚ) := by
    rw [relIn_eq_sum]
    apply Finset.sum_congr rfl
    intro i _
    unfold ind
    congr
  rw [h2] at h
  have h3 : ((nonHitsBefore (judgedHits rel jud l : List ℚ) 0).map (fun _ => (1 : ℚ))).sum =
      ((nonHitsBefore (judgedHits rel jud l : List ℚ) 0).length : ℚ) := by simp
  rw [h3] at h
  exact_mod_cast h

theorem bpref_unit {sum : List ℚ → ℚ} (hs : IsSum rnd sum) (q run : Rows ι ℚ) (lvl : ℚ)
    (hrun : (ids run).Nodup) (hq : q.length ≤ 2 ^ 53) {v : ℚ}
    (h : bpref rnd sum q run lvl = .ok (.val v)) : 0 ≤ v ∧ v ≤ 1 := by
  classical
  have hj : ∀ x, (look (cleanQrels q lvl) x).isSome = true → (look q x).isSome = true := by
    intro x hx
    rw [look_clean_isSome] at hx
    rw [look_isSome]
    obtain ⟨v, hv, _⟩ := hx
    exact ⟨v, hv⟩
  have hl : ((List.zip (getHitList q run 0 lvl) (getUnjudgedList q run 0)).filter
      (fun x => decide (x.2 ≠ 1))).map Prod.fst =
      (judgedHits (fun x => (look (cleanQrels q lvl) x).isSome) (fun x => (look q x).isSome)
        (run.map Prod.fst) : List ℚ) := by
    rw [getHitList_eq, getUnjudgedList_eq]
    simp only [Spec.top, if_pos]
    rfl
  unfold bpref at h
  simp only [hl] at h
  have hR : (q.filter (fun r => decide (lvl ≤ r.2))).length ≤ 2 ^ 53 := (List.length_filter_le _ _).trans hq
  have hN : (q.filter (fun r => decide (r.2 < lvl))).length ≤ 2 ^ 53 := (List.length_filter_le _ _).trans hq
  split at h
  · cases h
  rename_i hR0
  split at h
  · split at h
    · cases h; exact ⟨le_refl _, zero_le_one⟩
    · cases h
  rename_i hm0
  simp only [Except.ok.injEq, Num.val.injEq] at h
  rw [R.nat _ hR] at h
  have hpos : (0 : ℚ) < ((q.filter (fun r => decide (lvl ≤ r.2))).length : ℕ) := by
    exact_mod_cast Nat.pos_of_ne_zero hR0
  have hmle : min (q.filter (fun r => decide (lvl ≤ r.2))).length
      (q.filter (fun r => decide (r.2 < lvl))).length ≤ 2 ^ 53 := by omega
  have hcs : ∀ c ∈ nonHitsBefore (judgedHits (fun x => (look (cleanQrels q lvl) x).isSome)
      (fun x => (look q x).isSome) (run.map Prod.fst) : List ℚ) 0,
      c ≤ (q.filter (fun r => decide (r.2 < lvl))).length := by
    refine nonHits_bound R _ _ hj _ _ (fun i => ?_)
    apply count_le_rows q _ _ _ hrun
    rintro x ⟨hx1, hx2⟩
    rw [look_isSome] at hx1
    obtain ⟨v, hv⟩ := hx1
    refine ⟨v, hv, ?_⟩
    simp only [decide_eq_true_eq]
    exact not_le.1 (fun hc => hx2 (look_clean_isSome.2 ⟨v, hv, hc⟩))
  have hlen : (nonHitsBefore (judgedHits (fun x => (look (cleanQrels q lvl) x).isSome)
      (fun x => (look q x).isSome) (run.map Prod.fst) : List ℚ) 0).length ≤
      (q.filter (fun r => decide (lvl ≤ r.2))).length := by
    rw [nonHits_length R _ _ hj]
    have := relIn_le_numRel q lvl (ids run) hrun (run.map Prod.fst).length
    rw [numRel_eq] at this
    rw [relIn_congr (fun x => look_clean_isSome)]
    exact this
  generalize nonHitsBefore (judgedHits (fun x => (look (cleanQrels q lvl) x).isSome)
      (fun x => (look q x).isSome) (run.map Prod.fst) : List ℚ) 0 = cs at hcs hlen h
  generalize (q.filter (fun r => decide (lvl ≤ r.2))).length = nR at *
  generalize (q.filter (fun r => decide (r.2 < lvl))).length = nN at *
  have hmpos : (0 : ℚ) < ((min nR nN : ℕ) : ℚ) := by exact_mod_cast Nat.pos_of_ne_zero hm0
  obtain ⟨s1, s2⟩ := sum_bounds R hs ((cs.map (fun c => min c nR)).map (fun c : ℕ =>
      rnd (1 - rnd (rnd (c : ℚ) / rnd ((min nR nN : ℕ) : ℚ))))) (by
    intro y hy
    obtain ⟨c, hc, rfl⟩ := List.mem_map.1 hy
    obtain ⟨d, hd, rfl⟩ := List.mem_map.1 hc
    have hd' := hcs d hd
    have hle : min d nR ≤ min nR nN := by omega
    rw [R.nat _ hmle, R.nat _ (hle.trans hmle)]
    have hu : 0 ≤ ((min d nR : ℕ) : ℚ) / ((min nR nN : ℕ) : ℚ) ∧
        ((min d nR : ℕ) : ℚ) / ((min nR nN : ℕ) : ℚ) ≤ 1 :=
      ⟨div_nonneg (Nat.cast_nonneg _) hmpos.le, (div_le_one hmpos).2 (by exact_mod_cast hle)⟩
    have := rnd_unit R hu
    exact rnd_unit R ⟨by linarith, by linarith⟩) nR
    (le_trans List.countP_le_length (by simpa using hlen)) hR
  rw [← h]
  exact rnd_unit R ⟨div_nonneg s1 hpos.le, (div_le_one hpos).2 s2⟩

end Metrics.Rnd
end Ranx
