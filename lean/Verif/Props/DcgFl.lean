import Verif.Props.Dcg
import Verif.Props.MetricsFl
import Mathlib.Algebra.Order.Ring.Pow

/-!
# Property C143: DCG, NDCG and rank-biased precision in float64

`np.log2` and `**` are not correctly rounded; they are arbitrary functions within a relative error of
2^-52 of the real logarithm and power.
-/

set_option linter.unusedSectionVars false

namespace Ranx
open Metrics F64
variable {ι : Type*} [LinearOrder ι]

/-- the same array of real numbers -/
def Spec.realRows (q : Rows ι ℚ) : Rows ι ℝ := q.map (fun r => (r.1, (r.2 : ℝ)))

/-- `disc i` is a float approximation of `log2 (i + 2)`, with a relative error of at most 2^-52 -/
def Spec.ApproxLog2 (disc : Nat → ℚ) : Prop :=
  ∀ i : Nat, |(disc i : ℝ) - Real.logb 2 ((i : ℝ) + 2)| ≤ Real.logb 2 ((i : ℝ) + 2) / 2 ^ 52

/-- `pow i` is a float approximation of `p ^ i`, with a relative error of at most 2^-52 -/
def Spec.ApproxPow (p : ℚ) (pow : Nat → ℚ) : Prop := ∀ i : Nat, |pow i - p ^ i| ≤ p ^ i / 2 ^ 52

namespace Metrics.Rnd

theorem maxId_real (x : ι) (t : Rows ι ℚ) : maxId x (Spec.realRows t) = maxId x t := by
  unfold maxId Spec.realRows
  rw [List.foldl_map]

theorem minId_real (x : ι) (t : Rows ι ℚ) : minId x (Spec.realRows t) = minId x t := by
  unfold minId Spec.realRows
  rw [List.foldl_map]

theorem scan_real (q : Rows ι ℚ) (x : ι) : scan (Spec.realRows q) x = (scan q x).map (fun v : ℚ => (v : ℝ)) := by
  induction q with
  | nil => rfl
  | cons r t ih =>
    show (if x = r.1 then some (r.2 : ℝ) else scan (Spec.realRows t) x) =
      (if x = r.1 then some r.2 else scan t x).map _
    by_cases h : x = r.1
    · rw [if_pos h, if_pos h]; rfl
    · rw [if_neg h, if_neg h, ih]

theorem look_real (q : Rows ι ℚ) (x : ι) : look (Spec.realRows q) x = (look q x).map (fun v : ℚ => (v : ℝ)) := by
  cases q with
  | nil => rfl
  | cons r t =>
    have e : look (Spec.realRows (r :: t)) x = if maxId r.1 (Spec.realRows t) < x then none
      else if x < minId r.1 (Spec.realRows t) then none else scan (Spec.realRows (r :: t)) x := rfl
    rw [e, maxId_real, minId_real, scan_real]
    show _ = (if maxId r.1 t < x then none else if x < minId r.1 t then none else scan (r :: t) x).map _
    by_cases h : maxId r.1 t < x
    · rw [if_pos h, if_pos h]; rfl
    · rw [if_neg h, if_neg h]
      by_cases h' : x < minId r.1 t
      · rw [if_pos h', if_pos h']; rfl
      · rw [if_neg h', if_neg h']

theorem clean_real (q : Rows ι ℚ) (lvl : ℚ) :
    cleanQrels (Spec.realRows q) (lvl : ℝ) = Spec.realRows (cleanQrels q lvl) := by
  unfold cleanQrels Spec.realRows
  rw [List.filter_map]
  congr 1
  apply List.filter_congr
  intro r _
  simp

theorem weighted_real (q run : Rows ι ℚ) (k : Nat) :
    weightedHitList (Spec.realRows q) (Spec.realRows run) k =
      (weightedHitList q run k).map (fun v : ℚ => (v : ℝ)) := by
  unfold weightedHitList
  have e : List.take k (Spec.realRows run) = (run.take k).map (fun r => (r.1, (r.2 : ℝ))) := by
    unfold Spec.realRows; rw [List.map_take]
  rw [e, List.map_map, List.map_map]
  apply List.map_congr_left
  intro r _
  simp only [Function.comp_apply]
  rw [look_real]
  cases look q r.1 <;> simp

theorem fixK_real (k : Nat) (run : Rows ι ℚ) : fixK k (Spec.realRows run) = fixK k run := by
  unfold fixK Spec.realRows
  rw [List.length_map]

/-- the exact DCG, term by term -/
theorem dcgCore_real (gain : ℝ → ℝ) (disc : Nat → ℝ) (q run : Rows ι ℚ) (k : Nat) (lvl : ℚ) :
    dcgCore gain disc (Spec.realRows q) (Spec.realRows run) k (lvl : ℝ) =
      if (cleanQrels q lvl).length = 0 then 0
      else (((weightedHitList (cleanQrels q lvl) run (fixK k run)).zip (List.range (fixK k run))).map
        (fun wi => gain (wi.1 : ℝ) / disc wi.2)).sum := by
  unfold dcgCore
  simp only
  rw [clean_real]
  have hl : (Spec.realRows (cleanQrels q lvl)).length = (cleanQrels q lvl).length := by
    unfold Spec.realRows; rw [List.length_map]
  rw [hl]
  by_cases h : (cleanQrels q lvl).length = 0
  · rw [if_pos h, if_pos h]
  · rw [if_neg h, if_neg h, fixK_real, weighted_real]
    congr 1
    rw [List.zip_map_left, List.map_map]
    rfl

theorem u_real : ((u : ℚ) : ℝ) = 1 / 2 ^ 53 := by unfold u; norm_num

/-- weights are 0 or at least the level -/
theorem weight_cases (q run : Rows ι ℚ) (lvl : ℚ) (k : Nat) (w : ℚ)
    (h : w ∈ weightedHitList (cleanQrels q lvl) run k) : w = 0 ∨ ((∃ x, (x, w) ∈ q) ∧ lvl ≤ w) := by
  obtain ⟨r, -, rfl⟩ := List.mem_map.1 h
  by_cases hx : Spec.Rel q lvl r.1
  · right
    have := gradeFn_of_rel hx
    exact ⟨⟨_, this.1⟩, this.2⟩
  · left
    exact gradeFn_of_not_rel hx

/-- the float gain of a relevance is within one rounding of the exact gain -/
structure GainOk (lvl : ℚ) (q : Rows ι ℚ) (gain : ℚ → ℚ) (g : ℝ → ℝ) : Prop where
  zero : gain 0 = 0
  gzero : g 0 = 0
  near : ∀ x w, (x, w) ∈ q → lvl ≤ w → 0 ≤ g w ∧ (1 - 1 / 2 ^ 53) * g w ≤ (gain w : ℝ) ∧
    (gain w : ℝ) ≤ (1 + 1 / 2 ^ 53) * g w

theorem logb_ge_one (i : Nat) : (1 : ℝ) ≤ Real.logb 2 ((i : ℝ) + 2) := by
  rw [Real.le_logb_iff_rpow_le (by norm_num) (by positivity)]
  have : (0 : ℝ) ≤ i := Nat.cast_nonneg _
  rw [Real.rpow_one]; linarith

theorem disc_bounds {disc : Nat → ℚ} (hd : Spec.ApproxLog2 disc) (i : Nat) :
    0 < (disc i : ℝ) ∧ (1 - 1 / 2 ^ 53 : ℝ) ^ 3 * (disc i : ℝ) ≤ Real.logb 2 ((i : ℝ) + 2) ∧
      Real.logb 2 ((i : ℝ) + 2) ≤ (1 + 1 / 2 ^ 53 : ℝ) ^ 3 * (disc i : ℝ) := by
  have h1 := logb_ge_one i
  have h2 := abs_le.1 (hd i)
  generalize Real.logb 2 ((i : ℝ) + 2) = L at *
  generalize (disc i : ℝ) = d at *
  have l1 : (1 - 1 / 2 ^ 52) * L ≤ d := by linarith [h2.1]
  have l2 : d ≤ (1 + 1 / 2 ^ 52) * L := by linarith [h2.2]
  have p1 : (0 : ℝ) < 1 - 1 / 2 ^ 52 := by norm_num
  refine ⟨lt_of_lt_of_le (mul_pos p1 (by linarith)) l1, ?_, ?_⟩
  · calc (1 - 1 / 2 ^ 53 : ℝ) ^ 3 * d ≤ (1 - 1 / 2 ^ 53 : ℝ) ^ 3 * ((1 + 1 / 2 ^ 52) * L) :=
          mul_le_mul_of_nonneg_left l2 (by norm_num)
      _ = ((1 - 1 / 2 ^ 53 : ℝ) ^ 3 * (1 + 1 / 2 ^ 52)) * L := by ring
      _ ≤ 1 * L := mul_le_mul_of_nonneg_right (by norm_num) (by linarith)
      _ = L := one_mul _
  · calc L = 1 * L := (one_mul _).symm
      _ ≤ ((1 + 1 / 2 ^ 53 : ℝ) ^ 3 * (1 - 1 / 2 ^ 52)) * L :=
          mul_le_mul_of_nonneg_right (by norm_num) (by linarith)
      _ = (1 + 1 / 2 ^ 53 : ℝ) ^ 3 * ((1 - 1 / 2 ^ 52) * L) := by ring
      _ ≤ (1 + 1 / 2 ^ 53 : ℝ) ^ 3 * d := mul_le_mul_of_nonneg_left l1 (by norm_num)

theorem fl_rel_real {x : ℚ} (h : 0 ≤ x) :
    (1 - 1 / 2 ^ 53 : ℝ) * (x : ℝ) ≤ (fl x : ℝ) ∧ (fl x : ℝ) ≤ (1 + 1 / 2 ^ 53) * (x : ℝ) := by
  obtain ⟨h1, h2⟩ := rnd_rel (rnd := fl) fl_err h
  have h1' : (((1 - u) * x : ℚ) : ℝ) ≤ (fl x : ℝ) := by exact_mod_cast h1
  have h2' : (fl x : ℝ) ≤ (((1 + u) * x : ℚ) : ℝ) := by exact_mod_cast h2
  push_cast at h1' h2'
  rw [u_real] at h1' h2'
  exact ⟨h1', h2'⟩

/-- one term of the sum -/
theorem term_err {disc : Nat → ℚ} (hd : Spec.ApproxLog2 disc) (a : ℚ) (G : ℝ) (hG : 0 ≤ G)
    (h1 : (1 - 1 / 2 ^ 53) * G ≤ (a : ℝ)) (h2 : (a : ℝ) ≤ (1 + 1 / 2 ^ 53) * G) (i : Nat) :
    0 ≤ fl (a / disc i) ∧
    (1 - 1 / 2 ^ 53 : ℝ) ^ 5 * (G / log2Disc i) ≤ (fl (a / disc i) : ℝ) ∧
      (fl (a / disc i) : ℝ) ≤ (1 + 1 / 2 ^ 53 : ℝ) ^ 5 * (G / log2Disc i) := by
  obtain ⟨d0, d1, d2⟩ := disc_bounds hd i
  have L1 := logb_ge_one i
  unfold log2Disc
  have a0 : (0 : ℝ) ≤ (a : ℝ) := le_trans (mul_nonneg (by norm_num) hG) h1
  have hq : 0 ≤ a / disc i := by
    have : (0 : ℝ) ≤ ((a / disc i : ℚ) : ℝ) := by push_cast; exact div_nonneg a0 d0.le
    exact_mod_cast this
  refine ⟨rnd_nonneg rounding_fl hq, ?_⟩
  obtain ⟨r1, r2⟩ := fl_rel_real hq
  push_cast at r1 r2
  generalize (fl (a / disc i) : ℝ) = y at *
  generalize Real.logb 2 ((i : ℝ) + 2) = L at *
  generalize (disc i : ℝ) = d at *
  generalize (a : ℝ) = b at *
  have L0 : 0 < L := by linarith
  constructor
  · refine le_trans ?_ r1
    have : (1 - 1 / 2 ^ 53 : ℝ) ^ 4 * (G / L) ≤ b / d := by
      rw [le_div_iff₀ d0]
      calc (1 - 1 / 2 ^ 53 : ℝ) ^ 4 * (G / L) * d
          = ((1 - 1 / 2 ^ 53) * G / L) * ((1 - 1 / 2 ^ 53 : ℝ) ^ 3 * d) := by ring
        _ ≤ ((1 - 1 / 2 ^ 53) * G / L) * L :=
            mul_le_mul_of_nonneg_left d1 (div_nonneg (mul_nonneg (by norm_num) hG) L0.le)
        _ = (1 - 1 / 2 ^ 53) * G := by field_simp
        _ ≤ b := h1
    calc (1 - 1 / 2 ^ 53 : ℝ) ^ 5 * (G / L) = (1 - 1 / 2 ^ 53) * ((1 - 1 / 2 ^ 53 : ℝ) ^ 4 * (G / L)) := by ring
      _ ≤ (1 - 1 / 2 ^ 53) * (b / d) := mul_le_mul_of_nonneg_left this (by norm_num)
  · refine le_trans r2 ?_
    have : b / d ≤ (1 + 1 / 2 ^ 53 : ℝ) ^ 4 * (G / L) := by
      rw [div_le_iff₀ d0]
      calc b ≤ (1 + 1 / 2 ^ 53) * G := h2
        _ = ((1 + 1 / 2 ^ 53) * G / L) * L := by field_simp
        _ ≤ ((1 + 1 / 2 ^ 53) * G / L) * ((1 + 1 / 2 ^ 53 : ℝ) ^ 3 * d) :=
            mul_le_mul_of_nonneg_left d2 (div_nonneg (mul_nonneg (by norm_num) hG) L0.le)
        _ = (1 + 1 / 2 ^ 53 : ℝ) ^ 4 * (G / L) * d := by ring
    calc (1 + 1 / 2 ^ 53) * (b / d) ≤ (1 + 1 / 2 ^ 53) * ((1 + 1 / 2 ^ 53 : ℝ) ^ 4 * (G / L)) :=
          mul_le_mul_of_nonneg_left this (by norm_num)
      _ = (1 + 1 / 2 ^ 53 : ℝ) ^ 5 * (G / L) := by ring

theorem sum_cast (l : List ℚ) : ((l.sum : ℚ) : ℝ) = (l.map (fun x : ℚ => (x : ℝ))).sum := by
  induction l with
  | nil => simp
  | cons x t ih => simp [ih]

/-- a float sum of non-negative floats, in ℝ -/
theorem sum_err_real {sum : List ℚ → ℚ} (hs : IsSum fl sum) (l : List ℚ) (h : ∀ x ∈ l, 0 ≤ x ∧ fl x = x) :
    (1 - 1 / 2 ^ 53 : ℝ) ^ l.length * (l.map (fun x : ℚ => (x : ℝ))).sum ≤ (sum l : ℝ) ∧
      (sum l : ℝ) ≤ (1 + 1 / 2 ^ 53 : ℝ) ^ l.length * (l.map (fun x : ℚ => (x : ℝ))).sum := by
  obtain ⟨h1, h2⟩ := sum_err rounding_fl fl_err hs l h
  have h1' : (((1 - u) ^ l.length * l.sum : ℚ) : ℝ) ≤ (sum l : ℝ) := by exact_mod_cast h1
  have h2' : (sum l : ℝ) ≤ (((1 + u) ^ l.length * l.sum : ℚ) : ℝ) := by exact_mod_cast h2
  push_cast at h1' h2'
  rw [u_real] at h1' h2'
  exact ⟨h1', h2'⟩

theorem lo_pow_le {m n : Nat} (h : m ≤ n) : (1 - 1 / 2 ^ 53 : ℝ) ^ n ≤ (1 - 1 / 2 ^ 53 : ℝ) ^ m :=
  pow_le_pow_of_le_one (by norm_num) (by norm_num) h
theorem hi_pow_le {m n : Nat} (h : m ≤ n) : (1 + 1 / 2 ^ 53 : ℝ) ^ m ≤ (1 + 1 / 2 ^ 53 : ℝ) ^ n :=
  pow_le_pow_right₀ (by norm_num) h

theorem dcg_err {sum : List ℚ → ℚ} (hs : IsSum fl sum) {disc : Nat → ℚ} (hd : Spec.ApproxLog2 disc)
    {gain : ℚ → ℚ} {g : ℝ → ℝ} (q run : Rows ι ℚ) (k : Nat) (lvl : ℚ) (hg : GainOk lvl q gain g) :
    0 ≤ dcgCore g log2Disc (Spec.realRows q) (Spec.realRows run) k (lvl : ℝ) ∧
    (1 - 1 / 2 ^ 53 : ℝ) ^ (run.length + 5) *
        dcgCore g log2Disc (Spec.realRows q) (Spec.realRows run) k (lvl : ℝ) ≤
      (dcg fl sum gain disc q run k lvl : ℝ) ∧
    (dcg fl sum gain disc q run k lvl : ℝ) ≤ (1 + 1 / 2 ^ 53 : ℝ) ^ (run.length + 5) *
        dcgCore g log2Disc (Spec.realRows q) (Spec.realRows run) k (lvl : ℝ) := by
  rw [dcgCore_real]
  unfold dcg
  simp only
  by_cases h : (cleanQrels q lvl).length = 0
  · rw [if_pos h, if_pos h]; simp
  rw [if_neg h, if_neg h]
  have hk := fixK_le k run
  generalize fixK k run = k' at *
  have hw : ∀ wi ∈ (weightedHitList (cleanQrels q lvl) run k').zip (List.range k'),
      0 ≤ fl (gain wi.1 / disc wi.2) ∧ 0 ≤ g (wi.1 : ℝ) / log2Disc wi.2 ∧
      (1 - 1 / 2 ^ 53 : ℝ) ^ 5 * (g (wi.1 : ℝ) / log2Disc wi.2) ≤ (fl (gain wi.1 / disc wi.2) : ℝ) ∧
      (fl (gain wi.1 / disc wi.2) : ℝ) ≤ (1 + 1 / 2 ^ 53 : ℝ) ^ 5 * (g (wi.1 : ℝ) / log2Disc wi.2) := by
    rintro ⟨w, i⟩ hwi
    have hw := weight_cases q run lvl k' w (List.of_mem_zip hwi).1
    have hb : 0 ≤ g (w : ℝ) ∧ (1 - 1 / 2 ^ 53) * g w ≤ (gain w : ℝ) ∧ (gain w : ℝ) ≤ (1 + 1 / 2 ^ 53) * g w := by
      rcases hw with rfl | ⟨⟨x, hx⟩, hl⟩
      · rw [hg.zero]
        have : g ((0 : ℚ) : ℝ) = 0 := by rw [Rat.cast_zero]; exact hg.gzero
        rw [this]; simp
      · exact hg.near x w hx hl
    obtain ⟨t0, t1, t2⟩ := term_err hd (gain w) (g w) hb.1 hb.2.1 hb.2.2 i
    exact ⟨t0, div_nonneg hb.1 (log2Disc_pos i).le, t1, t2⟩
  have hlen : ((weightedHitList (cleanQrels q lvl) run k').zip (List.range k')).length ≤ run.length := by
    rw [List.length_zip, List.length_range]; omega
  generalize (weightedHitList (cleanQrels q lvl) run k').zip (List.range k') = l at *
  obtain ⟨s1, s2⟩ := sum_err_real hs (l.map (fun wi => fl (gain wi.1 / disc wi.2))) (by
    intro x hx
    obtain ⟨wi, hwi, rfl⟩ := List.mem_map.1 hx
    exact ⟨(hw wi hwi).1, fl_fl _⟩)
  rw [List.length_map, List.map_map] at s1 s2
  have t0 : 0 ≤ (l.map (fun wi => g (wi.1 : ℝ) / log2Disc wi.2)).sum := List.sum_nonneg (by
    intro x hx
    obtain ⟨wi, hwi, rfl⟩ := List.mem_map.1 hx
    exact (hw wi hwi).2.1)
  have t1 : (1 - 1 / 2 ^ 53 : ℝ) ^ 5 * (l.map (fun wi => g (wi.1 : ℝ) / log2Disc wi.2)).sum ≤
      (l.map ((fun x : ℚ => (x : ℝ)) ∘ fun wi => fl (gain wi.1 / disc wi.2))).sum := by
    rw [← List.sum_map_mul_left]
    exact List.sum_le_sum (fun wi hwi => (hw wi hwi).2.2.1)
  have t2 : (l.map ((fun x : ℚ => (x : ℝ)) ∘ fun wi => fl (gain wi.1 / disc wi.2))).sum ≤
      (1 + 1 / 2 ^ 53 : ℝ) ^ 5 * (l.map (fun wi => g (wi.1 : ℝ) / log2Disc wi.2)).sum := by
    rw [← List.sum_map_mul_left]
    exact List.sum_le_sum (fun wi hwi => (hw wi hwi).2.2.2)
  generalize (l.map (fun wi => g (wi.1 : ℝ) / log2Disc wi.2)).sum = S at *
  refine ⟨t0, ?_, ?_⟩
  · refine (mul_le_mul_of_nonneg_right (lo_pow_le (show l.length + 5 ≤ run.length + 5 by omega)) t0).trans ?_
    refine le_trans (le_of_eq ?_) ((mul_le_mul_of_nonneg_left t1 (pow_nonneg (by norm_num) l.length)).trans s1)
    ring
  · refine le_trans ?_ (mul_le_mul_of_nonneg_right (hi_pow_le (show l.length + 5 ≤ run.length + 5 by omega)) t0)
    refine (s2.trans (mul_le_mul_of_nonneg_left t2 (pow_nonneg (by norm_num) l.length))).trans (le_of_eq ?_)
    ring

theorem ndcg_err {sum : List ℚ → ℚ} (hs : IsSum fl sum) {disc : Nat → ℚ} (hd : Spec.ApproxLog2 disc)
    {gain : ℚ → ℚ} {g : ℝ → ℝ} (q run : Rows ι ℚ) (k : Nat) (lvl : ℚ) (hg : GainOk lvl q gain g) :
    0 ≤ ndcg fl sum gain disc q run k lvl ∧
    (1 - 1 / 2 ^ 53 : ℝ) ^ (run.length + 6) / (1 + 1 / 2 ^ 53 : ℝ) ^ (q.length + 5) *
        ndcgCore g log2Disc (Spec.realRows q) (Spec.realRows run) k (lvl : ℝ) ≤
      (ndcg fl sum gain disc q run k lvl : ℝ) ∧
    (ndcg fl sum gain disc q run k lvl : ℝ) ≤
      (1 + 1 / 2 ^ 53 : ℝ) ^ (run.length + 6) / (1 - 1 / 2 ^ 53 : ℝ) ^ (q.length + 5) *
        ndcgCore g log2Disc (Spec.realRows q) (Spec.realRows run) k (lvl : ℝ) := by
  obtain ⟨a0, a1, a2⟩ := dcg_err hs hd q run k lvl hg
  obtain ⟨b0, b1, b2⟩ := dcg_err hs hd q q k lvl hg
  unfold ndcg ndcgCore idcgCore
  simp only
  generalize dcg fl sum gain disc q run k lvl = D at *
  generalize dcg fl sum gain disc q q k lvl = I at *
  generalize dcgCore g log2Disc (Spec.realRows q) (Spec.realRows run) k (lvl : ℝ) = X at *
  generalize dcgCore g log2Disc (Spec.realRows q) (Spec.realRows q) k (lvl : ℝ) = Y at *
  have lop : ∀ n : Nat, (0 : ℝ) < (1 - 1 / 2 ^ 53) ^ n := fun n => pow_pos (by norm_num) n
  have hip : ∀ n : Nat, (0 : ℝ) < (1 + 1 / 2 ^ 53) ^ n := fun n => pow_pos (by norm_num) n
  have lo1 : ∀ n : Nat, (1 - 1 / 2 ^ 53 : ℝ) ^ n ≤ 1 := fun n => pow_le_one₀ (by norm_num) (by norm_num)
  have hi1 : ∀ n : Nat, (1 : ℝ) ≤ (1 + 1 / 2 ^ 53) ^ n := fun n => one_le_pow₀ (by norm_num)
  have D0' : (0 : ℝ) ≤ (D : ℝ) := le_trans (mul_nonneg (lop _).le a0) a1
  have D0 : 0 ≤ D := by exact_mod_cast D0'
  have I0' : (0 : ℝ) ≤ (I : ℝ) := le_trans (mul_nonneg (lop _).le b0) b1
  have I0 : 0 ≤ I := by exact_mod_cast I0'
  by_cases hY : Y = 0
  · have hI : I = 0 := by
      have : (I : ℝ) = 0 := le_antisymm (by rw [hY, mul_zero] at b2; exact b2) I0'
      exact_mod_cast this
    rw [if_pos hI, if_pos hY, div_one, div_one]
    obtain ⟨r1, r2⟩ := fl_rel_real D0
    refine ⟨rnd_nonneg rounding_fl D0, ?_, ?_⟩
    · refine le_trans ?_ r1
      rw [pow_succ]
      calc (1 - 1 / 2 ^ 53 : ℝ) ^ (run.length + 5) * (1 - 1 / 2 ^ 53) / (1 + 1 / 2 ^ 53 : ℝ) ^ (q.length + 5) * X
          ≤ (1 - 1 / 2 ^ 53 : ℝ) ^ (run.length + 5) * (1 - 1 / 2 ^ 53) * X := by
            apply mul_le_mul_of_nonneg_right _ a0
            exact div_le_self (mul_nonneg (lop _).le (by norm_num)) (hi1 _)
        _ = (1 - 1 / 2 ^ 53) * ((1 - 1 / 2 ^ 53 : ℝ) ^ (run.length + 5) * X) := by ring
        _ ≤ (1 - 1 / 2 ^ 53) * (D : ℝ) := mul_le_mul_of_nonneg_left a1 (by norm_num)
    · refine le_trans r2 ?_
      rw [pow_succ]
      calc (1 + 1 / 2 ^ 53) * (D : ℝ) ≤ (1 + 1 / 2 ^ 53) * ((1 + 1 / 2 ^ 53 : ℝ) ^ (run.length + 5) * X) :=
            mul_le_mul_of_nonneg_left a2 (by norm_num)
        _ = (1 + 1 / 2 ^ 53 : ℝ) ^ (run.length + 5) * (1 + 1 / 2 ^ 53) * X := by ring
        _ ≤ (1 + 1 / 2 ^ 53 : ℝ) ^ (run.length + 5) * (1 + 1 / 2 ^ 53) / (1 - 1 / 2 ^ 53 : ℝ) ^ (q.length + 5) * X := by
            apply mul_le_mul_of_nonneg_right _ a0
            rw [le_div_iff₀ (lop _)]
            exact mul_le_of_le_one_right (mul_nonneg (hip _).le (by norm_num)) (lo1 _)
  · have Y0 : 0 < Y := lt_of_le_of_ne b0 (Ne.symm hY)
    have Ip' : (0 : ℝ) < (I : ℝ) := lt_of_lt_of_le (mul_pos (lop _) Y0) b1
    have hI : I ≠ 0 := by
      intro h; rw [h] at Ip'; simp at Ip'
    rw [if_neg hI, if_neg hY]
    have hq : 0 ≤ D / I := div_nonneg D0 I0
    obtain ⟨r1, r2⟩ := fl_rel_real hq
    push_cast at r1 r2
    refine ⟨rnd_nonneg rounding_fl hq, ?_, ?_⟩
    · refine le_trans ?_ r1
      have : (1 - 1 / 2 ^ 53 : ℝ) ^ (run.length + 5) / (1 + 1 / 2 ^ 53 : ℝ) ^ (q.length + 5) * (X / Y) ≤
          (D : ℝ) / (I : ℝ) := by
        rw [div_mul_div_comm]
        exact div_le_div₀ D0' a1 Ip' b2
      calc (1 - 1 / 2 ^ 53 : ℝ) ^ (run.length + 6) / (1 + 1 / 2 ^ 53 : ℝ) ^ (q.length + 5) * (X / Y)
          = (1 - 1 / 2 ^ 53) * ((1 - 1 / 2 ^ 53 : ℝ) ^ (run.length + 5) / (1 + 1 / 2 ^ 53 : ℝ) ^ (q.length + 5) * (X / Y)) := by
            rw [pow_succ]; ring
        _ ≤ _ := mul_le_mul_of_nonneg_left this (by norm_num)
    · refine le_trans r2 ?_
      have : (D : ℝ) / (I : ℝ) ≤
          (1 + 1 / 2 ^ 53 : ℝ) ^ (run.length + 5) / (1 - 1 / 2 ^ 53 : ℝ) ^ (q.length + 5) * (X / Y) := by
        rw [div_mul_div_comm]
        exact div_le_div₀ (mul_nonneg (hip _).le a0) a2 (mul_pos (lop _) Y0) b1
      calc (1 + 1 / 2 ^ 53) * ((D : ℝ) / (I : ℝ))
          ≤ (1 + 1 / 2 ^ 53) * ((1 + 1 / 2 ^ 53 : ℝ) ^ (run.length + 5) / (1 - 1 / 2 ^ 53 : ℝ) ^ (q.length + 5) * (X / Y)) :=
            mul_le_mul_of_nonneg_left this (by norm_num)
        _ = _ := by rw [pow_succ]; ring

theorem jarvelin_ok (lvl : ℚ) (hl : 0 ≤ lvl) (q : Rows ι ℚ) : GainOk lvl q id jarvelinGain where
  zero := rfl
  gzero := rfl
  near x w _ hw := by
    have h0 : (0 : ℝ) ≤ (w : ℝ) := by exact_mod_cast hl.trans hw
    unfold jarvelinGain
    simp only [id]
    refine ⟨h0, ?_, ?_⟩ <;> nlinarith

theorem burges_ok (lvl : ℚ) (hl : 0 ≤ lvl) (q : Rows ι ℚ) (hq : ∀ x w, (x, w) ∈ q → ∃ n : ℤ, w = n) :
    GainOk lvl q (burgesGain fl) Metrics.burgesGain where
  zero := by
    unfold burgesGain
    simp [fl_zero]
  gzero := burges_zero
  near x w hx hw := by
    obtain ⟨n, rfl⟩ := hq x w hx
    have hn : 0 ≤ n := by exact_mod_cast hl.trans hw
    obtain ⟨m, rfl⟩ := Int.eq_ofNat_of_zero_le hn
    have e : Metrics.burgesGain (((m : ℤ) : ℚ) : ℝ) = (((2 : ℚ) ^ m - 1 : ℚ) : ℝ) := by
      unfold Metrics.burgesGain
      push_cast
      rw [Real.rpow_natCast]
    have e2 : burgesGain fl ((m : ℤ) : ℚ) = fl ((2 : ℚ) ^ m - 1) := by
      unfold burgesGain
      rw [Rat.num_intCast, zpow_natCast]
    have h0 : (0 : ℚ) ≤ (2 : ℚ) ^ m - 1 := sub_nonneg.2 (one_le_pow₀ (by norm_num))
    rw [e, e2]
    exact ⟨by exact_mod_cast h0, (fl_rel_real h0).1, (fl_rel_real h0).2⟩

theorem sorted_real {q : Rows ι ℚ} (h : q.Pairwise (fun a b => b.2 ≤ a.2)) :
    Spec.SortedByRelevance (Spec.realRows q) := by
  unfold Spec.SortedByRelevance Spec.realRows
  rw [List.pairwise_map]
  refine h.imp (fun {a b} h => ?_)
  show ((b.2 : ℚ) : ℝ) ≤ (a.2 : ℝ)
  exact_mod_cast h

theorem ids_real (q : Rows ι ℚ) : ids (Spec.realRows q) = ids q := by
  unfold ids Spec.realRows
  rw [List.map_map]; rfl

theorem small_err {n m : Nat} (hn : n ≤ 10 ^ 6) (hm : m ≤ 10 ^ 6) :
    (1 + 1 / 2 ^ 53 : ℝ) ^ (n + 6) / (1 - 1 / 2 ^ 53 : ℝ) ^ (m + 5) ≤ 1 + 1 / 10 ^ 9 := by
  have l1 : ∀ k : Nat, k ≤ 10 ^ 6 + 6 → (1 - 1 / 2 ^ 32 : ℝ) ≤ (1 - 1 / 2 ^ 53 : ℝ) ^ k := by
    intro k hk
    have hb := one_add_mul_le_pow (a := -(1 / 2 ^ 53 : ℝ)) (by norm_num) k
    have hk' : (k : ℝ) ≤ 10 ^ 6 + 6 := by exact_mod_cast hk
    have : (1 : ℝ) + (k : ℝ) * -(1 / 2 ^ 53) ≥ 1 - 1 / 2 ^ 32 := by
      have : (k : ℝ) * (1 / 2 ^ 53) ≤ (10 ^ 6 + 6) * (1 / 2 ^ 53) :=
        mul_le_mul_of_nonneg_right hk' (by norm_num)
      have h2 : ((10 : ℝ) ^ 6 + 6) * (1 / 2 ^ 53) ≤ 1 / 2 ^ 32 := by norm_num
      linarith
    have e : (1 + -(1 / 2 ^ 53) : ℝ) = 1 - 1 / 2 ^ 53 := by ring
    rw [e] at hb
    linarith
  have a := l1 (n + 6) (by omega)
  have b := l1 (m + 5) (by omega)
  have prod : (1 + 1 / 2 ^ 53 : ℝ) ^ (n + 6) * (1 - 1 / 2 ^ 53 : ℝ) ^ (n + 6) ≤ 1 := by
    rw [← mul_pow]
    exact pow_le_one₀ (by norm_num) (by norm_num)
  have p1 : (0 : ℝ) < (1 - 1 / 2 ^ 53 : ℝ) ^ (n + 6) := pow_pos (by norm_num) _
  have p2 : (0 : ℝ) < (1 - 1 / 2 ^ 53 : ℝ) ^ (m + 5) := pow_pos (by norm_num) _
  have p3 : (0 : ℝ) < (1 + 1 / 2 ^ 53 : ℝ) ^ (n + 6) := pow_pos (by norm_num) _
  rw [div_le_iff₀ p2]
  generalize (1 - 1 / 2 ^ 53 : ℝ) ^ (n + 6) = A at *
  generalize (1 - 1 / 2 ^ 53 : ℝ) ^ (m + 5) = B at *
  generalize (1 + 1 / 2 ^ 53 : ℝ) ^ (n + 6) = C at *
  have c1 : C * (1 - 1 / 2 ^ 32) ≤ 1 := (mul_le_mul_of_nonneg_left a p3.le).trans prod
  have c2 : C ≤ 1 / (1 - 1 / 2 ^ 32) := by rw [le_div_iff₀ (by norm_num)]; exact c1
  have c3 : (1 / (1 - 1 / 2 ^ 32) : ℝ) ≤ (1 + 1 / 10 ^ 9) * (1 - 1 / 2 ^ 32) := by norm_num
  have c4 : (1 + 1 / 10 ^ 9 : ℝ) * (1 - 1 / 2 ^ 32) ≤ (1 + 1 / 10 ^ 9) * B :=
    mul_le_mul_of_nonneg_left b (by norm_num)
  linarith

/-! ### the ideal ranking -/

theorem sorted_zeros (l : List ℚ) (h : l.Pairwise (fun a b => b ≤ a)) (h0 : ∀ x ∈ l, 0 ≤ x) :
    ∃ n, l = l.filter (fun x => decide (x ≠ 0)) ++ List.replicate n 0 := by
  induction l with
  | nil => exact ⟨0, rfl⟩
  | cons x t ih =>
    rw [List.pairwise_cons] at h
    by_cases hx : x = 0
    · refine ⟨t.length + 1, ?_⟩
      have ht : t = List.replicate t.length 0 := by
        rw [List.eq_replicate_iff]
        refine ⟨rfl, fun y hy => le_antisymm (hx ▸ h.1 y hy) (h0 y (List.mem_cons_of_mem _ hy))⟩
      have hf : (x :: t).filter (fun x => decide (x ≠ 0)) = [] := by
        rw [List.filter_eq_nil_iff]
        intro y hy
        rcases List.mem_cons.1 hy with rfl | hy
        · simp [hx]
        · rw [ht, List.mem_replicate] at hy
          simp [hy.2]
      rw [hf, List.nil_append, List.replicate_succ, ← ht, hx]
    · obtain ⟨n, hn⟩ := ih h.2 (fun y hy => h0 y (List.mem_cons_of_mem _ hy))
      refine ⟨n, ?_⟩
      rw [List.filter_cons_of_pos (by simpa using hx), List.cons_append, ← hn]

/-- the float sum from left to right of the terms of a list of grades -/
def seqDcg (gain : ℚ → ℚ) (disc : Nat → ℚ) : List ℚ → Nat → ℚ → ℚ
  | [], _, a => a
  | w :: t, i, a => seqDcg gain disc t (i + 1) (fl (a + fl (gain w / disc i)))

theorem seqDcg_eq (gain : ℚ → ℚ) (disc : Nat → ℚ) (l : List ℚ) (i : Nat) (a : ℚ) :
    ((l.zip (List.range' i l.length)).map (fun wi => fl (gain wi.1 / disc wi.2))).foldl F64.add a =
      seqDcg gain disc l i a := by
  induction l generalizing i a with
  | nil => rfl
  | cons w t ih =>
    rw [List.length_cons, List.range'_succ, List.zip_cons_cons, List.map_cons, List.foldl_cons, ih]
    rfl

theorem seqDcg_zeros (gain : ℚ → ℚ) (h0 : gain 0 = 0) (disc : Nat → ℚ) (n i : Nat) (a : ℚ) (ha : fl a = a) :
    seqDcg gain disc (List.replicate n 0) i a = a := by
  induction n generalizing i with
  | zero => rfl
  | succ n ih =>
    rw [List.replicate_succ]
    unfold seqDcg
    rw [h0, zero_div, fl_zero, add_zero, ha]
    exact ih (i + 1)

theorem seqDcg_append (gain : ℚ → ℚ) (disc : Nat → ℚ) (l l' : List ℚ) (i : Nat) (a : ℚ) :
    seqDcg gain disc (l ++ l') i a = seqDcg gain disc l' (i + l.length) (seqDcg gain disc l i a) := by
  induction l generalizing i a with
  | nil => rfl
  | cons w t ih =>
    rw [List.cons_append]
    have e : ∀ l'' : List ℚ, seqDcg gain disc (w :: l'') i a =
        seqDcg gain disc l'' (i + 1) (fl (a + fl (gain w / disc i))) := fun _ => rfl
    rw [e, e, ih, List.length_cons, show i + 1 + t.length = i + (t.length + 1) from by omega]

theorem seqDcg_stable (gain : ℚ → ℚ) (disc : Nat → ℚ) (l : List ℚ) (i : Nat) (a : ℚ) (ha : fl a = a) :
    fl (seqDcg gain disc l i a) = seqDcg gain disc l i a := by
  induction l generalizing i a with
  | nil => exact ha
  | cons w t ih => exact ih _ _ (fl_fl _)

theorem take_zeros (l : List ℚ) (n k : Nat) : ∃ m, (l ++ List.replicate n 0).take k = l.take k ++ List.replicate m 0 := by
  refine ⟨min (k - l.length) n, ?_⟩
  rw [List.take_append, List.take_replicate]

/-- the terms of `dcg` are those of the grades of the docs -/
theorem dcg_seq (gain : ℚ → ℚ) (disc : Nat → ℚ) (q run : Rows ι ℚ) (k : Nat) (lvl : ℚ) :
    dcg fl F64.sum gain disc q run k lvl = if (cleanQrels q lvl).length = 0 then 0
      else seqDcg gain disc (((ids run).map (gradeFn q lvl)).take (fixK k run)) 0 0 := by
  unfold dcg
  simp only
  by_cases h : (cleanQrels q lvl).length = 0
  · rw [if_pos h, if_pos h]
  · rw [if_neg h, if_neg h]
    have e : weightedHitList (cleanQrels q lvl) run (fixK k run) =
        ((ids run).map (gradeFn q lvl)).take (fixK k run) := by
      unfold weightedHitList ids gradeFn
      rw [List.map_map, ← List.map_take]
      rfl
    rw [e]
    have hlen : (((ids run).map (gradeFn q lvl)).take (fixK k run)).length = fixK k run := by
      have := fixK_le k run
      simp [ids]; exact this
    generalize ((ids run).map (gradeFn q lvl)).take (fixK k run) = l at *
    rw [← seqDcg_eq, ← hlen, List.range_eq_range']
    rfl

theorem grade_nonneg (q : Rows ι ℚ) (lvl : ℚ) (hl : 0 ≤ lvl) (x : ι) : 0 ≤ gradeFn q lvl x := by
  by_cases hx : Spec.Rel q lvl x
  · exact hl.trans (gradeFn_of_rel hx).2
  · rw [gradeFn_of_not_rel hx]

theorem fixK_take (k : Nat) (run : Rows ι ℚ) (l : List ℚ) (h : l.length = run.length) :
    l.take (fixK k run) = if k = 0 then l else l.take k := by
  unfold fixK
  by_cases hk : k = 0
  · rw [if_pos hk, if_pos (.inl hk), ← h, List.take_length]
  · rw [if_neg hk]
    by_cases hr : run.length < k
    · rw [if_pos (.inr hr), List.take_of_length_le (by omega), List.take_of_length_le (by omega)]
    · rw [if_neg (by tauto)]

theorem dcg_ideal (gain : ℚ → ℚ) (h0 : gain 0 = 0) (disc : Nat → ℚ) (q run : Rows ι ℚ)
    (hq : (ids q).Nodup) (hs : q.Pairwise (fun a b => b.2 ≤ a.2)) (hrun : (ids run).Nodup) (k : Nat) (lvl : ℚ)
    (hl : 0 ≤ lvl) (hideal : (ids run).Pairwise (fun x y => gradeFn q lvl y ≤ gradeFn q lvl x))
    (hall : ∀ x, Spec.Rel q lvl x → x ∈ ids run) :
    dcg fl F64.sum gain disc q run k lvl = dcg fl F64.sum gain disc q q k lvl := by
  rw [dcg_seq, dcg_seq]
  by_cases h : (cleanQrels q lvl).length = 0
  · rw [if_pos h, if_pos h]
  rw [if_neg h, if_neg h, fixK_take k run _ (by simp [ids]), fixK_take k q _ (by simp [ids])]
  -- both lists of grades are sorted
  have hsq : (ids q).Pairwise (fun x y => gradeFn q lvl y ≤ gradeFn q lvl x) := by
    unfold ids
    rw [List.pairwise_map]
    have hgr := gradeFn_isGrade hq lvl
    apply List.Pairwise.imp_of_mem _ hs
    intro a b ha hb hab
    by_cases hb' : lvl ≤ b.2
    · rw [hgr.1 b.1 b.2 hb hb', hgr.1 a.1 a.2 ha (hb'.trans hab)]
      exact hab
    · have hnr : ¬ Spec.Rel q lvl b.1 := by
        rintro ⟨v, hv, hle⟩
        have h1 := scan_of_mem hq (show (b.1, b.2) ∈ q from hb)
        rw [scan_of_mem hq hv] at h1
        cases h1
        exact hb' hle
      rw [gradeFn_of_not_rel hnr]
      exact grade_nonneg q lvl hl _
  have hA := sorted_zeros ((ids run).map (gradeFn q lvl)) (by rw [List.pairwise_map]; exact hideal) (by
    intro x hx; obtain ⟨y, -, rfl⟩ := List.mem_map.1 hx; exact grade_nonneg q lvl hl y)
  have hB := sorted_zeros ((ids q).map (gradeFn q lvl)) (by rw [List.pairwise_map]; exact hsq) (by
    intro x hx; obtain ⟨y, -, rfl⟩ := List.mem_map.1 hx; exact grade_nonneg q lvl hl y)
  have hf : ((ids run).map (gradeFn q lvl)).filter (fun x => decide (x ≠ 0)) =
      ((ids q).map (gradeFn q lvl)).filter (fun x => decide (x ≠ 0)) := by
    have hp : (((ids run).map (gradeFn q lvl)).filter (fun x => decide (x ≠ 0))).Perm
        (((ids q).map (gradeFn q lvl)).filter (fun x => decide (x ≠ 0))) := by
      have e : ∀ l : List ι, (l.map (gradeFn q lvl)).filter (fun x => decide (x ≠ 0)) =
          (l.filter ((fun x => decide (x ≠ 0)) ∘ gradeFn q lvl)).map (gradeFn q lvl) := fun l => List.filter_map
      rw [e, e]
      apply List.Perm.map
      refine (List.perm_ext_iff_of_nodup (hrun.filter _) (hq.filter _)).2 ?_
      intro x
      rw [List.mem_filter, List.mem_filter]
      constructor
      · rintro ⟨hx, hg⟩
        refine ⟨?_, hg⟩
        have hr : Spec.Rel q lvl x := by
          by_contra hc
          simp [gradeFn_of_not_rel hc] at hg
        obtain ⟨v, hv, -⟩ := hr
        exact List.mem_map.2 ⟨(x, v), hv, rfl⟩
      · rintro ⟨hx, hg⟩
        refine ⟨?_, hg⟩
        apply hall
        by_contra hc
        simp [gradeFn_of_not_rel hc] at hg
    refine hp.eq_of_pairwise (le := fun a b : ℚ => b ≤ a) (fun a b _ _ h1 h2 => le_antisymm h2 h1) ?_ ?_
    · exact (List.pairwise_map.2 hideal).filter _
    · exact (List.pairwise_map.2 hsq).filter _
  obtain ⟨n, hn⟩ := hA
  obtain ⟨m, hm⟩ := hB
  rw [hf] at hn
  generalize ((ids q).map (gradeFn q lvl)).filter (fun x => decide (x ≠ 0)) = Z at hn hm
  have key : ∀ j : Nat, seqDcg gain disc (Z ++ List.replicate j 0) 0 0 = seqDcg gain disc Z 0 0 := by
    intro j
    rw [seqDcg_append, seqDcg_zeros gain h0 disc j _ _ (seqDcg_stable gain disc Z 0 0 fl_zero)]
  have key2 : ∀ j : Nat, seqDcg gain disc ((Z ++ List.replicate j 0).take k) 0 0 =
      seqDcg gain disc (Z.take k) 0 0 := by
    intro j
    obtain ⟨i, hi⟩ := take_zeros Z j k
    rw [hi, seqDcg_append, seqDcg_zeros gain h0 disc i _ _ (seqDcg_stable gain disc _ 0 0 fl_zero)]
  by_cases hk : k = 0
  · rw [if_pos hk, if_pos hk, hn, hm, key, key]
  · rw [if_neg hk, if_neg hk, hn, hm, key2, key2]

end Metrics.Rnd
open Metrics.Rnd

/-- **C143** (accuracy): with `np.log2` within a relative error of 2^-52 and any order of the additions, the
float64 DCG (both gains; judgements whole numbers for the exponential gain) is within `n + 5` rounding
errors of the exact DCG, where `n` is the number of docs, and NDCG within `n + 6` and `m + 5` (`m` the number
of judgements). -/
theorem C143_accuracy {sum : List ℚ → ℚ} (hs : IsSum fl sum) {disc : Nat → ℚ} (hd : Spec.ApproxLog2 disc)
    (q run : Rows ι ℚ) (k : Nat) (lvl : ℚ) (hl : 0 ≤ lvl) :
    (((1 - 1 / 2 ^ 53 : ℝ) ^ (run.length + 5) * Metrics.dcg (Spec.realRows q) (Spec.realRows run) k (lvl : ℝ) ≤
        (Rnd.dcg fl sum id disc q run k lvl : ℝ) ∧
      (Rnd.dcg fl sum id disc q run k lvl : ℝ) ≤ (1 + 1 / 2 ^ 53 : ℝ) ^ (run.length + 5) *
        Metrics.dcg (Spec.realRows q) (Spec.realRows run) k (lvl : ℝ)) ∧
     ((1 - 1 / 2 ^ 53 : ℝ) ^ (run.length + 6) / (1 + 1 / 2 ^ 53 : ℝ) ^ (q.length + 5) *
        Metrics.ndcg (Spec.realRows q) (Spec.realRows run) k (lvl : ℝ) ≤
        (Rnd.ndcg fl sum id disc q run k lvl : ℝ) ∧
      (Rnd.ndcg fl sum id disc q run k lvl : ℝ) ≤
        (1 + 1 / 2 ^ 53 : ℝ) ^ (run.length + 6) / (1 - 1 / 2 ^ 53 : ℝ) ^ (q.length + 5) *
        Metrics.ndcg (Spec.realRows q) (Spec.realRows run) k (lvl : ℝ))) ∧
    ((∀ x w, (x, w) ∈ q → ∃ n : ℤ, w = n) →
     ((1 - 1 / 2 ^ 53 : ℝ) ^ (run.length + 5) *
        Metrics.dcgBurges (Spec.realRows q) (Spec.realRows run) k (lvl : ℝ) ≤
        (Rnd.dcg fl sum (Rnd.burgesGain fl) disc q run k lvl : ℝ) ∧
      (Rnd.dcg fl sum (Rnd.burgesGain fl) disc q run k lvl : ℝ) ≤ (1 + 1 / 2 ^ 53 : ℝ) ^ (run.length + 5) *
        Metrics.dcgBurges (Spec.realRows q) (Spec.realRows run) k (lvl : ℝ)) ∧
     ((1 - 1 / 2 ^ 53 : ℝ) ^ (run.length + 6) / (1 + 1 / 2 ^ 53 : ℝ) ^ (q.length + 5) *
        Metrics.ndcgBurges (Spec.realRows q) (Spec.realRows run) k (lvl : ℝ) ≤
        (Rnd.ndcg fl sum (Rnd.burgesGain fl) disc q run k lvl : ℝ) ∧
      (Rnd.ndcg fl sum (Rnd.burgesGain fl) disc q run k lvl : ℝ) ≤
        (1 + 1 / 2 ^ 53 : ℝ) ^ (run.length + 6) / (1 - 1 / 2 ^ 53 : ℝ) ^ (q.length + 5) *
        Metrics.ndcgBurges (Spec.realRows q) (Spec.realRows run) k (lvl : ℝ))) :=
  ⟨⟨(dcg_err hs hd q run k lvl (jarvelin_ok lvl hl q)).2, (ndcg_err hs hd q run k lvl (jarvelin_ok lvl hl q)).2⟩,
   fun hq => ⟨(dcg_err hs hd q run k lvl (burges_ok lvl hl q hq)).2,
    (ndcg_err hs hd q run k lvl (burges_ok lvl hl q hq)).2⟩⟩

/-- **C143** (range): for judgements arranged by relevance and runs without repeated docs, of up to a million
rows each, the float64 NDCG lies between 0 and 1 + 10^-9. -/
theorem C143_ndcg_range {sum : List ℚ → ℚ} (hs : IsSum fl sum) {disc : Nat → ℚ} (hd : Spec.ApproxLog2 disc)
    (q run : Rows ι ℚ) (hq : (ids q).Nodup) (hsort : q.Pairwise (fun a b => b.2 ≤ a.2)) (hrun : (ids run).Nodup)
    (hn : run.length ≤ 10 ^ 6) (hm : q.length ≤ 10 ^ 6) (k : Nat) (lvl : ℚ) (hl : 0 ≤ lvl) :
    (0 ≤ Rnd.ndcg fl sum id disc q run k lvl ∧ Rnd.ndcg fl sum id disc q run k lvl ≤ 1 + 1 / 10 ^ 9) ∧
    ((∀ x w, (x, w) ∈ q → ∃ n : ℤ, w = n) →
      0 ≤ Rnd.ndcg fl sum (Rnd.burgesGain fl) disc q run k lvl ∧
      Rnd.ndcg fl sum (Rnd.burgesGain fl) disc q run k lvl ≤ 1 + 1 / 10 ^ 9) := by
  have hr := C18_ndcg_range (Spec.realRows q) (Spec.realRows run) (by rw [ids_real]; exact hq)
    (sorted_real hsort) (by rw [ids_real]; exact hrun) k (lvl : ℝ) (by exact_mod_cast hl)
  have he := small_err hn hm
  have key : ∀ (v : ℚ) (X : ℝ), X ≤ 1 →
      (v : ℝ) ≤ (1 + 1 / 2 ^ 53 : ℝ) ^ (run.length + 6) / (1 - 1 / 2 ^ 53 : ℝ) ^ (q.length + 5) * X →
      v ≤ 1 + 1 / 10 ^ 9 := by
    intro v X hX hv
    have hc : (0 : ℝ) ≤ (1 + 1 / 2 ^ 53 : ℝ) ^ (run.length + 6) / (1 - 1 / 2 ^ 53 : ℝ) ^ (q.length + 5) :=
      div_nonneg (pow_nonneg (by norm_num) _) (pow_nonneg (by norm_num) _)
    have : (v : ℝ) ≤ 1 + 1 / 10 ^ 9 :=
      hv.trans ((mul_le_mul_of_nonneg_left hX hc).trans (by rw [mul_one]; exact he))
    have e : ((1 + 1 / 10 ^ 9 : ℚ) : ℝ) = 1 + 1 / 10 ^ 9 := by push_cast; ring
    rw [← e] at this
    exact_mod_cast this
  refine ⟨?_, fun hint => ?_⟩
  · have := ndcg_err hs hd q run k lvl (jarvelin_ok lvl hl q)
    exact ⟨this.1, key _ _ hr.1.2 this.2.2⟩
  · have := ndcg_err hs hd q run k lvl (burges_ok lvl hl q hint)
    exact ⟨this.1, key _ _ hr.2.2 this.2.2⟩

/-- **C143** (perfect ranking): if the run lists every relevant doc and orders its docs by non-increasing
relevance, the float64 NDCG is exactly 1 (adding from left to right, as compiled code does), whatever the
discounts are; unless the ideal DCG is 0. -/
theorem C143_perfect (gain : ℚ → ℚ) (h0 : gain 0 = 0) (disc : Nat → ℚ) (q run : Rows ι ℚ)
    (hq : (ids q).Nodup) (hs : q.Pairwise (fun a b => b.2 ≤ a.2)) (hrun : (ids run).Nodup) (k : Nat) (lvl : ℚ)
    (hl : 0 ≤ lvl) (g : ι → ℚ) (hg : Spec.IsGrade q lvl g) (hideal : (ids run).Pairwise (fun x y => g y ≤ g x))
    (hall : ∀ x, Spec.Rel q lvl x → x ∈ ids run) (hne : Rnd.dcg fl F64.sum gain disc q q k lvl ≠ 0) :
    Rnd.ndcg fl F64.sum gain disc q run k lvl = 1 := by
  have hgg := grade_unique hg (gradeFn_isGrade hq lvl)
  subst hgg
  unfold Rnd.ndcg
  simp only
  rw [if_neg hne, dcg_ideal gain h0 disc q run hq hs hrun k lvl hl hideal hall, div_self hne]
  exact fl_one

/-- **C143** (nothing found): without a relevant doc in the run the float64 DCG and NDCG are exactly 0. -/
theorem C143_nothing (gain : ℚ → ℚ) (h0 : gain 0 = 0) (disc : Nat → ℚ) (q run : Rows ι ℚ) (k : Nat) (lvl : ℚ)
    (h : ∀ x ∈ ids run, ¬ Spec.Rel q lvl x) :
    Rnd.dcg fl F64.sum gain disc q run k lvl = 0 ∧ Rnd.ndcg fl F64.sum gain disc q run k lvl = 0 := by
  have hd : Rnd.dcg fl F64.sum gain disc q run k lvl = 0 := by
    rw [dcg_seq]
    by_cases hc : (cleanQrels q lvl).length = 0
    · rw [if_pos hc]
    · rw [if_neg hc]
      have : ((ids run).map (gradeFn q lvl)).take (fixK k run) =
          List.replicate (((ids run).map (gradeFn q lvl)).take (fixK k run)).length 0 := by
        rw [List.eq_replicate_iff]
        refine ⟨rfl, fun y hy => ?_⟩
        obtain ⟨x, hx, rfl⟩ := List.mem_map.1 (List.mem_of_mem_take hy)
        exact gradeFn_of_not_rel (h x hx)
      rw [this]
      exact seqDcg_zeros gain h0 disc _ _ _ fl_zero
  refine ⟨hd, ?_⟩
  unfold Rnd.ndcg
  simp only
  rw [hd, zero_div]
  exact fl_zero

namespace Metrics.Rnd

theorem sum_foldl (l : List ℚ) : l.foldl (fun a x => fl (a + x)) 0 = F64.sum l := rfl

theorem pow_bounds {p : ℚ} (hp : 0 ≤ p) {pow : Nat → ℚ} (h : Spec.ApproxPow p pow) (i : Nat) :
    (1 - u) ^ 3 * p ^ i ≤ pow i ∧ pow i ≤ (1 + u) ^ 3 * p ^ i := by
  have hi := abs_le.1 (h i)
  have h0 : 0 ≤ p ^ i := pow_nonneg hp i
  generalize p ^ i = x at *
  unfold u
  constructor
  · nlinarith [hi.1, mul_nonneg (show (0 : ℚ) ≤ 1 - 2 / 2 ^ 53 - (1 - 1 / 2 ^ 53) ^ 3 by norm_num) h0]
  · nlinarith [hi.2, mul_nonneg (show (0 : ℚ) ≤ (1 + 1 / 2 ^ 53) ^ 3 - (1 + 2 / 2 ^ 53) by norm_num) h0]

theorem zip_lt {w : List ℚ} {pow : Nat → ℚ} {x : ℚ × ℚ} (h : x ∈ w.zip ((List.range w.length).map pow)) :
    x.1 ∈ w ∧ ∃ i, x.2 = pow i := by
  obtain ⟨h1, h2⟩ := List.of_mem_zip (show (x.1, x.2) ∈ _ from h)
  obtain ⟨i, -, e⟩ := List.mem_map.1 h2
  exact ⟨h1, i, e.symm⟩

theorem rbp_sum_eq (w : List ℚ) (f : Nat → ℚ) (g : ℚ → ℚ) :
    ((w.zip ((List.range w.length).map f)).map (fun x => g (x.1 * x.2))) =
      (w.zip (List.range w.length)).map (fun x => g (x.1 * f x.2)) := by
  rw [List.zip_map_right, List.map_map]; rfl

end Metrics.Rnd

/-- **C143** (rank-biased precision): with `**` within a relative error of 2^-52, the float64 score is within
`n + 6` rounding errors of the exact one, where `n` is the number of docs. -/
theorem C143_rbp {p : ℚ} (hp : 0 ≤ p) (hp1 : p ≤ 1) {pow : Nat → ℚ} (hpow : Spec.ApproxPow p pow)
    (q run : Rows ι ℚ) (lvl : ℚ) (hl : 0 ≤ lvl) :
    0 ≤ Rnd.rbp fl pow q run p lvl ∧
    (1 - 1 / 2 ^ 53 : ℚ) ^ (run.length + 6) * Metrics.rbp q run p lvl ≤ Rnd.rbp fl pow q run p lvl ∧
    Rnd.rbp fl pow q run p lvl ≤ (1 + 1 / 2 ^ 53 : ℚ) ^ (run.length + 6) * Metrics.rbp q run p lvl := by
  change _ ∧ (1 - u) ^ _ * _ ≤ _ ∧ _ ≤ (1 + u) ^ _ * _
  unfold Rnd.rbp Metrics.rbp
  simp only
  by_cases h : (cleanQrels q lvl).length = 0
  · rw [if_pos h, if_pos h]; simp
  rw [if_neg h, if_neg h, sum_foldl, rbp_sum_eq _ _ fl, rbp_sum_eq _ _ (fun x => x)]
  have hw0 : ∀ x ∈ weightedHitList (cleanQrels q lvl) run run.length, 0 ≤ x := by
    intro x hx
    rcases weight_cases q run lvl _ x hx with rfl | ⟨-, h⟩
    · exact le_refl _
    · exact hl.trans h
  have hlen : (weightedHitList (cleanQrels q lvl) run run.length).length = run.length := by
    unfold weightedHitList; simp
  generalize weightedHitList (cleanQrels q lvl) run run.length = w at *
  have hlz : (w.zip (List.range w.length)).length = run.length := by
    rw [List.length_zip, List.length_range]; omega
  have hz : ∀ x ∈ w.zip (List.range w.length), 0 ≤ x.1 := fun x hx => hw0 _ (List.of_mem_zip (show (x.1, x.2) ∈ _ from hx)).1
  generalize w.zip (List.range w.length) = l at *
  have hu : (0 : ℚ) ≤ 1 - u := by unfold u; norm_num
  have hu1 : (0 : ℚ) ≤ 1 + u := by unfold u; norm_num
  have ht : ∀ x ∈ l, 0 ≤ fl (x.1 * pow x.2) ∧ 0 ≤ x.1 * p ^ x.2 ∧
      (1 - u) ^ 4 * (x.1 * p ^ x.2) ≤ fl (x.1 * pow x.2) ∧ fl (x.1 * pow x.2) ≤ (1 + u) ^ 4 * (x.1 * p ^ x.2) := by
    intro x hx
    have hx0 := hz x hx
    obtain ⟨b1, b2⟩ := pow_bounds hp hpow x.2
    have p0 : 0 ≤ p ^ x.2 := pow_nonneg hp _
    have q0 : 0 ≤ pow x.2 := le_trans (mul_nonneg (pow_nonneg hu 3) p0) b1
    have m0 := mul_nonneg hx0 q0
    obtain ⟨r1, r2⟩ := rnd_rel (rnd := fl) fl_err m0
    refine ⟨rnd_nonneg rounding_fl m0, mul_nonneg hx0 p0, ?_, ?_⟩
    · refine le_trans ?_ r1
      calc (1 - u) ^ 4 * (x.1 * p ^ x.2) = (1 - u) * (x.1 * ((1 - u) ^ 3 * p ^ x.2)) := by ring
        _ ≤ _ := mul_le_mul_of_nonneg_left (mul_le_mul_of_nonneg_left b1 hx0) hu
    · refine r2.trans ?_
      calc (1 + u) * (x.1 * pow x.2) ≤ (1 + u) * (x.1 * ((1 + u) ^ 3 * p ^ x.2)) :=
            mul_le_mul_of_nonneg_left (mul_le_mul_of_nonneg_left b2 hx0) hu1
        _ = _ := by ring
  obtain ⟨s1, s2⟩ := sum_err rounding_fl fl_err C82_float64.2.2.2.1 (l.map (fun x => fl (x.1 * pow x.2))) (by
    intro x hx
    obtain ⟨y, hy, rfl⟩ := List.mem_map.1 hx
    exact ⟨(ht y hy).1, fl_fl _⟩)
  rw [List.length_map, hlz] at s1 s2
  have T0 : 0 ≤ (l.map (fun x => x.1 * p ^ x.2)).sum := List.sum_nonneg (by
    intro x hx
    obtain ⟨y, hy, rfl⟩ := List.mem_map.1 hx
    exact (ht y hy).2.1)
  have T1 : (1 - u) ^ 4 * (l.map (fun x => x.1 * p ^ x.2)).sum ≤ (l.map (fun x => fl (x.1 * pow x.2))).sum := by
    rw [← List.sum_map_mul_left]
    exact List.sum_le_sum (fun y hy => (ht y hy).2.2.1)
  have T2 : (l.map (fun x => fl (x.1 * pow x.2))).sum ≤ (1 + u) ^ 4 * (l.map (fun x => x.1 * p ^ x.2)).sum := by
    rw [← List.sum_map_mul_left]
    exact List.sum_le_sum (fun y hy => (ht y hy).2.2.2)
  generalize (l.map (fun x => x.1 * p ^ x.2)).sum = S at *
  generalize (l.map (fun x => fl (x.1 * pow x.2))).sum = S' at *
  generalize F64.sum (l.map (fun x => fl (x.1 * pow x.2))) = F at *
  generalize run.length = n at *
  obtain ⟨d1, d2⟩ := rnd_rel (rnd := fl) fl_err (show 0 ≤ 1 - p by linarith)
  have c0 : 0 ≤ 1 - p := by linarith
  have d0 : 0 ≤ fl (1 - p) := rnd_nonneg rounding_fl c0
  generalize fl (1 - p) = d at *
  generalize 1 - p = c at *
  have A1 : (1 - u) ^ (n + 4) * S ≤ F := by
    refine le_trans (le_of_eq ?_) ((mul_le_mul_of_nonneg_left T1 (pow_nonneg hu n)).trans s1); ring
  have A2 : F ≤ (1 + u) ^ (n + 4) * S := by
    refine (s2.trans (mul_le_mul_of_nonneg_left T2 (pow_nonneg hu1 n))).trans (le_of_eq ?_); ring
  have F0 : 0 ≤ F := le_trans (mul_nonneg (pow_nonneg hu _) T0) A1
  have m0 := mul_nonneg d0 F0
  obtain ⟨r1, r2⟩ := rnd_rel (rnd := fl) fl_err m0
  refine ⟨rnd_nonneg rounding_fl m0, le_trans ?_ r1, r2.trans ?_⟩
  · calc (1 - u) ^ (n + 6) * (c * S) = (1 - u) * (((1 - u) * c) * ((1 - u) ^ (n + 4) * S)) := by ring
      _ ≤ (1 - u) * (d * F) := mul_le_mul_of_nonneg_left
          (mul_le_mul d1 A1 (mul_nonneg (pow_nonneg hu _) T0) d0) hu
  · calc (1 + u) * (d * F) ≤ (1 + u) * (((1 + u) * c) * ((1 + u) ^ (n + 4) * S)) := mul_le_mul_of_nonneg_left
          (mul_le_mul d2 A2 F0 (mul_nonneg hu1 c0)) hu1
      _ = _ := by ring

/-- the approximations assumed exist: correctly rounded powers, and a logarithm exact at 2 -/
theorem C143_approximations : (∀ p : ℚ, 0 ≤ p → Spec.ApproxPow p (fun i => fl (p ^ i))) ∧
    ∃ disc : Nat → ℚ, Spec.ApproxLog2 disc ∧ disc 0 = 1 := by
  refine ⟨fun p hp i => ?_, ?_⟩
  · have h0 : 0 ≤ p ^ i := pow_nonneg hp i
    have := fl_err (p ^ i)
    rw [abs_of_nonneg h0] at this
    refine this.trans ?_
    generalize p ^ i = x at *
    linarith
  · have hex : ∀ i : Nat, ∃ r : ℚ, |(r : ℝ) - Real.logb 2 ((i : ℝ) + 2)| ≤ Real.logb 2 ((i : ℝ) + 2) / 2 ^ 52 := by
      intro i
      have h1 := logb_ge_one i
      generalize Real.logb 2 ((i : ℝ) + 2) = L at *
      obtain ⟨r, hr1, hr2⟩ := exists_rat_btwn (show L - L / 2 ^ 52 < L from by linarith [show (0 : ℝ) < L / 2 ^ 52 by positivity])
      refine ⟨r, ?_⟩
      rw [abs_le]
      constructor <;> linarith [show (0 : ℝ) < L / 2 ^ 52 by positivity]
    choose f hf using hex
    refine ⟨fun i => if i = 0 then 1 else f i, fun i => ?_, if_pos rfl⟩
    by_cases hi : i = 0
    · subst hi
      simp
    · simp only [if_neg hi]; exact hf i

/-- **C143** (refutation): with every relevant doc at the top, rank-biased precision exceeds 1 in float64. -/
theorem C143_rbp_exceeds_one :
    ∃ (q run : Rows Nat ℚ) (p : ℚ), 0 < p ∧ p < 1 ∧ fl p = p ∧ (ids q).Nodup ∧ (ids run).Nodup ∧
      (∀ r ∈ q, r.2 = 1) ∧ 1 < Rnd.rbp fl (fun i => fl (p ^ i)) q run p 1 := by
  refine ⟨(List.range 12).map (fun i => (i, 1)), (List.range 12).map (fun i => (i, 12 - (i : ℚ))), fl (4 / 100), ?_, ?_, ?_, ?_, ?_, ?_, ?_⟩ <;>
    decide +kernel

def exExceedQ : Rows Nat ℚ := [(0, 2 ^ 55), (1, 9), (2, 7)]
def exExceedR : Rows Nat ℚ := [(0, 3), (2, 2), (1, 1)]

theorem squeeze {x a b c : ℚ} (h1 : a ≤ x) (h2 : x ≤ b) (ha : fl a = c) (hb : fl b = c) : fl x = c :=
  le_antisymm ((fl_mono h2).trans_eq hb) (ha.symm.le.trans (fl_mono h1))

/-- **C143** (refutation): whatever approximation of `log2` (exact at 2) is used, rounding can lift the NDCG of
a run above 1 although the run is not ideal. -/
theorem C143_ndcg_exceeds_one {disc : Nat → ℚ} (hd : Spec.ApproxLog2 disc) (h0 : disc 0 = 1) :
    (ids exExceedQ).Nodup ∧ exExceedQ.Pairwise (fun a b => b.2 ≤ a.2) ∧ (ids exExceedR).Nodup ∧
      exExceedR.Pairwise (fun a b => b.2 ≤ a.2) ∧
      1 < Rnd.ndcg fl F64.sum id disc exExceedQ exExceedR 0 1 := by
  refine ⟨by decide, by unfold exExceedQ; decide +kernel, by decide, by unfold exExceedR; decide +kernel, ?_⟩
  have l3 : Real.logb 2 3 ≤ 17 / 10 := by
    rw [Real.logb_le_iff_le_rpow (by norm_num) (by norm_num)]
    have : (3 : ℝ) = ((3 : ℝ) ^ (10 : ℕ)) ^ ((1 : ℝ) / 10) := by
      rw [← Real.rpow_natCast, ← Real.rpow_mul (by norm_num)]; norm_num
    rw [this, show (17 : ℝ) / 10 = ((17 : ℕ) : ℝ) * (1 / 10) by norm_num, Real.rpow_mul (by norm_num), Real.rpow_natCast]
    exact Real.rpow_le_rpow (by norm_num) (by norm_num) (by norm_num)
  have l4 : Real.logb 2 4 = 2 := by
    rw [show (4 : ℝ) = 2 ^ (2 : ℕ) by norm_num, Real.logb_pow, Real.logb_self_eq_one (by norm_num)]; norm_num
  have hd1 : 99 / 100 ≤ disc 1 ∧ disc 1 ≤ 1701 / 1000 := by
    have h := abs_le.1 (hd 1)
    have g := logb_ge_one 1
    have e : ((1 : ℕ) : ℝ) + 2 = 3 := by norm_num
    rw [e] at h g
    generalize Real.logb 2 3 = L at *
    have a1 : ((99 / 100 : ℚ) : ℝ) ≤ (disc 1 : ℝ) := by push_cast; linarith [h.1, h.2]
    have a2 : (disc 1 : ℝ) ≤ ((1701 / 1000 : ℚ) : ℝ) := by push_cast; linarith [h.1, h.2]
    exact ⟨by exact_mod_cast a1, by exact_mod_cast a2⟩
  have hd2 : 19 / 10 ≤ disc 2 ∧ disc 2 ≤ 21 / 10 := by
    have h := abs_le.1 (hd 2)
    have e : ((2 : ℕ) : ℝ) + 2 = 4 := by norm_num
    rw [e, l4] at h
    have a1 : ((19 / 10 : ℚ) : ℝ) ≤ (disc 2 : ℝ) := by push_cast; linarith [h.1, h.2]
    have a2 : (disc 2 : ℝ) ≤ ((21 / 10 : ℚ) : ℝ) := by push_cast; linarith [h.1, h.2]
    exact ⟨by exact_mod_cast a1, by exact_mod_cast a2⟩
  have hr : Rnd.dcg fl F64.sum id disc exExceedQ exExceedR 0 1 = 2 ^ 55 + 16 := by
    rw [dcg_seq, if_neg (by decide +kernel), show ((ids exExceedR).map (gradeFn exExceedQ 1)).take (fixK 0 exExceedR) = [2 ^ 55, 7, 9] from by decide +kernel]
    simp only [seqDcg, h0, id]
    rw [show fl (0 + fl (2 ^ 55 / 1)) = 2 ^ 55 from by decide +kernel]
    rw [squeeze (x := 2 ^ 55 + fl (7 / disc 1)) (a := 2 ^ 55 + fl (7 * 1000 / 1701)) (b := 2 ^ 55 + fl (7 * 100 / 99)) (c := 2 ^ 55 + 8) ?_ ?_ (by decide +kernel) (by decide +kernel)]
    · apply squeeze (a := 2 ^ 55 + 8 + fl (9 * 10 / 21)) (b := 2 ^ 55 + 8 + fl (9 * 10 / 19)) ?_ ?_ (by decide +kernel) (by decide +kernel)
      · have : fl (9 * 10 / 21) ≤ fl (9 / disc 2) := fl_mono (by rw [div_le_div_iff₀ (by norm_num) (by linarith)]; linarith)
        linarith
      · have : fl (9 / disc 2) ≤ fl (9 * 10 / 19) := fl_mono (by rw [div_le_div_iff₀ (by linarith) (by norm_num)]; linarith)
        linarith
    · have : fl (7 * 1000 / 1701) ≤ fl (7 / disc 1) := fl_mono (by rw [div_le_div_iff₀ (by norm_num) (by linarith)]; linarith)
      linarith
    · have : fl (7 / disc 1) ≤ fl (7 * 100 / 99) := fl_mono (by rw [div_le_div_iff₀ (by linarith) (by norm_num)]; linarith)
      linarith
  have hq : Rnd.dcg fl F64.sum id disc exExceedQ exExceedQ 0 1 = 2 ^ 55 + 8 := by
    rw [dcg_seq, if_neg (by decide +kernel), show ((ids exExceedQ).map (gradeFn exExceedQ 1)).take (fixK 0 exExceedQ) = [2 ^ 55, 9, 7] from by decide +kernel]
    simp only [seqDcg, h0, id]
    rw [show fl (0 + fl (2 ^ 55 / 1)) = 2 ^ 55 from by decide +kernel]
    rw [squeeze (x := 2 ^ 55 + fl (9 / disc 1)) (a := 2 ^ 55 + fl (9 * 1000 / 1701)) (b := 2 ^ 55 + fl (9 * 100 / 99)) (c := 2 ^ 55 + 8) ?_ ?_ (by decide +kernel) (by decide +kernel)]
    · apply squeeze (a := 2 ^ 55 + 8 + fl (7 * 10 / 21)) (b := 2 ^ 55 + 8 + fl (7 * 10 / 19)) ?_ ?_ (by decide +kernel) (by decide +kernel)
      · have : fl (7 * 10 / 21) ≤ fl (7 / disc 2) := fl_mono (by rw [div_le_div_iff₀ (by norm_num) (by linarith)]; linarith)
        linarith
      · have : fl (7 / disc 2) ≤ fl (7 * 10 / 19) := fl_mono (by rw [div_le_div_iff₀ (by linarith) (by norm_num)]; linarith)
        linarith
    · have : fl (9 * 1000 / 1701) ≤ fl (9 / disc 1) := fl_mono (by rw [div_le_div_iff₀ (by norm_num) (by linarith)]; linarith)
      linarith
    · have : fl (9 / disc 1) ≤ fl (9 * 100 / 99) := fl_mono (by rw [div_le_div_iff₀ (by linarith) (by norm_num)]; linarith)
      linarith
  unfold Rnd.ndcg
  simp only
  rw [hr, hq]
  decide +kernel

/-- the hypotheses of `C143_perfect` are met and the ideal DCG is not 0, with discounts 1, 2, 2, … -/
example : Rnd.ndcg fl F64.sum id (fun i => if i = 0 then 1 else 2) [(0, 3), (1, 2), (2, 0)]
    [((0 : Nat), (9 : ℚ)), (1, 8), (7, 7), (2, 6)] 0 1 = 1 := by
  refine C143_perfect id rfl _ _ _ (by decide) (by decide +kernel) (by decide) 0 1 (by norm_num)
    (gradeFn [((0 : Nat), (3 : ℚ)), (1, 2), (2, 0)] 1) (gradeFn_isGrade (by decide) _) ?_ ?_ (by decide +kernel)
  · decide +kernel
  · rintro x ⟨v, hv, hle⟩
    simp only [List.mem_cons, List.not_mem_nil, or_false, Prod.mk.injEq] at hv
    rcases hv with ⟨rfl, rfl⟩ | ⟨rfl, rfl⟩ | ⟨rfl, rfl⟩
    · decide
    · decide
    · norm_num at hle

/-- a concrete instance of the accuracy bounds -/
example (disc : Nat → ℚ) (hd : Spec.ApproxLog2 disc) :=
  C143_accuracy C82_float64.2.2.2.1 hd exExceedQ exExceedR 0 1 (by norm_num)

end Ranx
