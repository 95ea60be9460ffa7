import Verif.Lemmas.MetricsFl

/-!
# Rounding errors of the float kernels, and float64 as an instance
-/

set_option linter.unusedSectionVars false

namespace Ranx
namespace F64

theorem log_double {x : ℚ} (hx : 0 < x) : Int.log 2 (2 * x) = Int.log 2 x + 1 := by
  have hb := binade hx
  have h2 : (0:ℚ) < 2 * x := by positivity
  apply le_antisymm
  · rw [← Int.lt_add_one_iff, ← Int.lt_zpow_iff_log_lt (by norm_num) h2]
    rw [zpow_add_one₀ (by norm_num)]
    push_cast
    linarith [hb.2]
  · rw [← Int.zpow_le_iff_le_log (by norm_num) h2]
    rw [zpow_add_one₀ (by norm_num)]
    push_cast
    linarith [hb.1]

theorem fl_double (x : ℚ) : fl (2 * x) = 2 * fl x := by
  by_cases h : x = 0
  · simp [h, fl_zero]
  have hu : ulp (2 * x) = 2 * ulp x := by
    unfold ulp
    rw [abs_mul, abs_two, log_double (abs_pos.2 h), show Int.log 2 |x| + 1 - 52 = (Int.log 2 |x| - 52) + 1 by ring,
      zpow_add_one₀ (by norm_num)]
    ring
  unfold fl
  rw [if_neg h, if_neg (by simpa using h), hu, mul_div_mul_left _ _ (by norm_num)]
  ring

theorem fl_half_ulp (x : ℚ) : |fl x - x| ≤ ulp x / 2 := by
  by_cases h : x = 0
  · have := ulp_pos x
    simp only [h, fl_zero, sub_self, abs_zero]
    rw [h] at this
    positivity
  have hp := ulp_pos x
  obtain ⟨h1, h2⟩ := rhe_bounds (x / ulp x)
  have hx : x / ulp x * ulp x = x := div_mul_cancel₀ _ hp.ne'
  unfold fl
  rw [if_neg h, abs_le]
  constructor <;> nlinarith

theorem fl_err (x : ℚ) : |fl x - x| ≤ |x| / 2 ^ 53 := by
  by_cases h : x = 0
  · simp [h, fl_zero]
  have e1 := fl_half_ulp x
  have e2 : ulp x * 2 ^ 52 ≤ |x| := by
    have := ulp_mul_pow (abs_pos.2 h)
    have hu : ulp |x| = ulp x := by unfold ulp; rw [abs_abs]
    rw [hu] at this
    rw [this]; exact (binade (abs_pos.2 h)).1
  rw [le_div_iff₀ (by positivity)]
  nlinarith

/-- the rounding error of a 64-bit integer is at most 512 -/
theorem fl_int64_err (a : ℤ) (h : |a| ≤ 2 ^ 63) : |fl a - a| ≤ 512 := by
  by_cases h0 : a = 0
  · simp [h0, fl_zero]
  rcases lt_or_eq_of_le h with hlt | heq
  · have hpos : (0 : ℚ) < |(a : ℚ)| := abs_pos.2 (by exact_mod_cast h0)
    have hlog : Int.log 2 |(a : ℚ)| < 63 := by
      rw [← Int.lt_zpow_iff_log_lt (by norm_num) hpos]
      have : ((|a| : ℤ) : ℚ) < ((2 ^ 63 : ℤ) : ℚ) := by exact_mod_cast hlt
      rw [Int.cast_abs] at this
      norm_num at this ⊢
      exact this
    have hu : ulp (a : ℚ) ≤ (2 : ℚ) ^ (10 : ℤ) := by
      unfold ulp
      exact zpow_le_zpow_right₀ (by norm_num) (by omega)
    have := fl_half_ulp (a : ℚ)
    norm_num at hu
    linarith
  · have hsgn : a = 2 ^ 63 ∨ a = -(2 ^ 63) := by
      rcases abs_choice a with h1 | h1 <;> rw [h1] at heq <;> omega
    have h63 : fl (9223372036854775808 : ℚ) = 9223372036854775808 := by
      have := fl_exact 1 63 (by norm_num)
      norm_num at this
      exact this
    rcases hsgn with rfl | rfl
    · norm_num [h63]
    · norm_num [fl_neg, h63]

end F64

/-- float64 rounding satisfies every requirement -/
theorem rounding_fl : Spec.Rounding F64.fl where
  mono _ _ h := F64.fl_mono h
  idem x := F64.fl_fl x
  nat n h := by
    have := F64.fl_int (n : ℤ) (by rw [abs_of_nonneg (by positivity)]; exact_mod_cast h)
    exact_mod_cast this
  double x := F64.fl_double x

/-- exact arithmetic satisfies every requirement -/
theorem rounding_id : Spec.Rounding id where
  mono _ _ h := h
  idem _ := rfl
  nat _ _ := rfl
  double _ := rfl

namespace Metrics.Rnd

/-- adding from left to right is one of the admitted orders -/
theorem sequential_isSum (rnd : ℚ → ℚ) : IsSum rnd (fun l => l.foldl (fun a x => rnd (a + x)) 0) := by
  intro l
  have h : ∀ (l : List ℚ) (t : SumTree), ∃ u : SumTree, u.leaves.Perm (t.leaves ++ l) ∧
      l.foldl (fun a x => rnd (a + x)) (t.eval rnd) = u.eval rnd := by
    intro l
    induction l with
    | nil => intro t; exact ⟨t, by simp, rfl⟩
    | cons x l ih =>
      intro t
      obtain ⟨u, h1, h2⟩ := ih (.node t (.leaf x))
      exact ⟨u, by simpa [SumTree.leaves] using h1, by rw [List.foldl_cons]; exact h2⟩
  obtain ⟨u, h1, h2⟩ := h l .zero
  exact ⟨u, by simpa [SumTree.leaves] using h1, h2⟩

variable {rnd : ℚ → ℚ} (R : Spec.Rounding rnd) (E : ∀ x, |rnd x - x| ≤ |x| / 2 ^ 53)

/-- unit roundoff of float64 -/
def u : ℚ := 1 / 2 ^ 53

theorem u_pos : 0 < u := by unfold u; positivity
theorem u_lt : u < 1 := by unfold u; norm_num

include E in
theorem rnd_rel {x : ℚ} (h : 0 ≤ x) : (1 - u) * x ≤ rnd x ∧ rnd x ≤ (1 + u) * x := by
  have := E x
  rw [abs_of_nonneg h, abs_le] at this
  unfold u
  constructor <;> linarith [this.1, this.2]

theorem pow_le_lo {m n : ℕ} (h : m ≤ n) : (1 - u) ^ n ≤ (1 - u) ^ m :=
  pow_le_pow_of_le_one (by linarith [u_lt]) (by linarith [u_pos]) h
theorem pow_le_hi {m n : ℕ} (h : m ≤ n) : (1 + u) ^ m ≤ (1 + u) ^ n :=
  pow_le_pow_right₀ (by linarith [u_pos]) h
theorem lo_nonneg (n : ℕ) : 0 ≤ (1 - u) ^ n := pow_nonneg (by linarith [u_lt]) n
theorem hi_nonneg (n : ℕ) : 0 ≤ (1 + u) ^ n := pow_nonneg (by linarith [u_pos]) n

include R in
theorem eval_of_no_leaves (t : SumTree) (h : t.leaves = []) : t.eval rnd = 0 := by
  induction t with
  | zero => rfl
  | leaf x => simp [SumTree.leaves] at h
  | node a b iha ihb =>
    simp only [SumTree.leaves, List.append_eq_nil_iff] at h
    unfold SumTree.eval
    rw [iha h.1, ihb h.2, add_zero, rnd_zero R]

include R in
theorem eval_stable (t : SumTree) (h : ∀ x ∈ t.leaves, rnd x = x) : rnd (t.eval rnd) = t.eval rnd := by
  cases t with
  | zero => exact rnd_zero R
  | leaf x => exact h x (by simp [SumTree.leaves])
  | node a b => exact R.idem _

include R E in
theorem eval_err (t : SumTree) (h : ∀ x ∈ t.leaves, 0 ≤ x ∧ rnd x = x) :
    (1 - u) ^ t.leaves.length * t.leaves.sum ≤ t.eval rnd ∧
      t.eval rnd ≤ (1 + u) ^ t.leaves.length * t.leaves.sum := by
  induction t with
  | zero => simp [SumTree.leaves, SumTree.eval]
  | leaf x =>
    have hx := (h x (by simp [SumTree.leaves])).1
    simp only [SumTree.leaves, SumTree.eval, List.length_singleton, List.sum_singleton, pow_one]
    constructor <;> nlinarith [u_pos]
  | node a b iha ihb =>
    have ha : ∀ x ∈ a.leaves, 0 ≤ x ∧ rnd x = x := fun x hx => h x (List.mem_append_left _ hx)
    have hb : ∀ x ∈ b.leaves, 0 ≤ x ∧ rnd x = x := fun x hx => h x (List.mem_append_right _ hx)
    have iha := iha ha
    have ihb := ihb hb
    have sa : 0 ≤ a.leaves.sum := List.sum_nonneg (fun x hx => (ha x hx).1)
    have sb : 0 ≤ b.leaves.sum := List.sum_nonneg (fun x hx => (hb x hx).1)
    unfold SumTree.eval
    simp only [SumTree.leaves, List.length_append, List.sum_append]
    by_cases la : a.leaves = []
    · rw [eval_of_no_leaves R a la, zero_add, eval_stable R b (fun x hx => (hb x hx).2), la]
      simpa using ihb
    by_cases lb : b.leaves = []
    · rw [eval_of_no_leaves R b lb, add_zero, eval_stable R a (fun x hx => (ha x hx).2), lb]
      simpa using iha
    have na : 0 < a.leaves.length := List.length_pos_iff.2 la
    have nb : 0 < b.leaves.length := List.length_pos_iff.2 lb
    obtain ⟨n, hn⟩ : ∃ n, a.leaves.length + b.leaves.length = n + 1 := ⟨_, (Nat.succ_pred_eq_of_pos (by omega)).symm⟩
    rw [hn]
    have l1 : (1 - u) ^ n * a.leaves.sum ≤ a.eval rnd :=
      (mul_le_mul_of_nonneg_right (pow_le_lo (by omega)) sa).trans iha.1
    have l2 : (1 - u) ^ n * b.leaves.sum ≤ b.eval rnd :=
      (mul_le_mul_of_nonneg_right (pow_le_lo (by omega)) sb).trans ihb.1
    have g1 : a.eval rnd ≤ (1 + u) ^ n * a.leaves.sum :=
      iha.2.trans (mul_le_mul_of_nonneg_right (pow_le_hi (by omega)) sa)
    have g2 : b.eval rnd ≤ (1 + u) ^ n * b.leaves.sum :=
      ihb.2.trans (mul_le_mul_of_nonneg_right (pow_le_hi (by omega)) sb)
    have p1 := mul_nonneg (lo_nonneg n) sa
    have p2 := mul_nonneg (lo_nonneg n) sb
    have h0 : 0 ≤ a.eval rnd + b.eval rnd := by linarith
    obtain ⟨r1, r2⟩ := rnd_rel E h0
    have q1 := mul_le_mul_of_nonneg_left (add_le_add l1 l2) (show 0 ≤ 1 - u by linarith [u_lt])
    have q2 := mul_le_mul_of_nonneg_left (add_le_add g1 g2) (show 0 ≤ 1 + u by linarith [u_pos])
    rw [pow_succ, pow_succ]
    constructor
    · refine le_trans (le_of_eq ?_) (q1.trans r1); ring
    · refine (r2.trans q2).trans (le_of_eq ?_); ring

include R E in
theorem sum_err {sum : List ℚ → ℚ} (hs : IsSum rnd sum) (l : List ℚ) (h : ∀ x ∈ l, 0 ≤ x ∧ rnd x = x) :
    (1 - u) ^ l.length * l.sum ≤ sum l ∧ sum l ≤ (1 + u) ^ l.length * l.sum := by
  obtain ⟨t, hp, he⟩ := hs l
  have := eval_err R E t (fun x hx => h x (hp.mem_iff.1 hx))
  rwa [hp.sum_eq, hp.length_eq, ← he] at this

include R E in
theorem mean_err {sum : List ℚ → ℚ} (hs : IsSum rnd sum) (l : List ℚ) (h : ∀ x ∈ l, 0 ≤ x ∧ rnd x = x)
    (hn : l.length ≤ 2 ^ 53) :
    (1 - u) ^ (l.length + 1) * (l.sum / l.length) ≤ mean rnd sum l ∧
      mean rnd sum l ≤ (1 + u) ^ (l.length + 1) * (l.sum / l.length) := by
  unfold mean
  rw [R.nat _ hn]
  obtain ⟨h1, h2⟩ := sum_err R E hs l h
  have s0 : 0 ≤ l.sum := List.sum_nonneg (fun x hx => (h x hx).1)
  have n0 : (0 : ℚ) ≤ l.length := by positivity
  have d1 := div_le_div_of_nonneg_right h1 n0
  have d2 := div_le_div_of_nonneg_right h2 n0
  have p : 0 ≤ (1 - u) ^ l.length * l.sum / l.length := div_nonneg (mul_nonneg (lo_nonneg _) s0) n0
  obtain ⟨r1, r2⟩ := rnd_rel E (p.trans d1)
  have q1 := mul_le_mul_of_nonneg_left d1 (show 0 ≤ 1 - u by linarith [u_lt])
  have q2 := mul_le_mul_of_nonneg_left d2 (show 0 ≤ 1 + u by linarith [u_pos])
  rw [pow_succ, pow_succ]
  constructor
  · refine le_trans (le_of_eq ?_) (q1.trans r1); ring
  · refine (r2.trans q2).trans (le_of_eq ?_); ring

theorem map_sum_le {β : Type*} (l : List β) (f g : β → ℚ) (c : ℚ) (h : ∀ x ∈ l, c * f x ≤ g x) :
    c * (l.map f).sum ≤ (l.map g).sum := by
  rw [← List.sum_map_mul_left]
  exact List.sum_le_sum h

theorem map_le_sum {β : Type*} (l : List β) (f g : β → ℚ) (c : ℚ) (h : ∀ x ∈ l, g x ≤ c * f x) :
    (l.map g).sum ≤ c * (l.map f).sum := by
  rw [← List.sum_map_mul_left]
  exact List.sum_le_sum h

variable {ι : Type*} [LinearOrder ι]

include R E in
theorem averagePrecision_err {sum : List ℚ → ℚ} (hs : IsSum rnd sum) (q run : Rows ι ℚ) (k : ℕ) (lvl : ℚ)
    (hr : run.length ≤ 2 ^ 53) (hq : q.length ≤ 2 ^ 53) :
    (1 - u) ^ (run.length + 2) * Metrics.averagePrecision q run k lvl ≤ averagePrecision rnd sum q run k lvl ∧
      averagePrecision rnd sum q run k lvl ≤
        (1 + u) ^ (run.length + 2) * Metrics.averagePrecision q run k lvl := by
  unfold averagePrecision Metrics.averagePrecision
  simp only
  have hc := (clean_le R q lvl).trans hq
  by_cases h : (cleanQrels q lvl).length = 0
  · rw [if_pos h, if_pos h, mul_zero, mul_zero]; exact ⟨le_refl _, le_refl _⟩
  rw [if_neg h, if_neg h, R.nat _ hc]
  have hfk := (fixK_le k run).trans hr
  have hfl := fixK_le k run
  generalize cleanQrels q lvl = q' at *
  generalize fixK k run = k' at *
  have hps : ∀ r ∈ List.range k', precisionScore rnd sum (hitList q' run k') r =
      rnd (Metrics.precisionScore (hitList q' run k') r) :=
    fun r hr => precisionScore_rounded R hs q' run k' r hfk (List.mem_range.1 hr)
  rw [List.map_congr_left hps]
  have hnn := fun r => (exact_score_unit R q' run k' r).1
  obtain ⟨s1, s2⟩ := sum_err R E hs ((List.range k').map (fun r => rnd (Metrics.precisionScore (hitList q' run k') r)))
    (by
      intro x hx
      obtain ⟨r, -, rfl⟩ := List.mem_map.1 hx
      exact ⟨rnd_nonneg R (hnn r), R.idem _⟩)
  have t1 := map_sum_le (List.range k') (Metrics.precisionScore (hitList q' run k'))
    (fun r => rnd (Metrics.precisionScore (hitList q' run k') r)) (1 - u) (fun r _ => (rnd_rel E (hnn r)).1)
  have t2 := map_le_sum (List.range k') (Metrics.precisionScore (hitList q' run k'))
    (fun r => rnd (Metrics.precisionScore (hitList q' run k') r)) (1 + u) (fun r _ => (rnd_rel E (hnn r)).2)
  have s0 : 0 ≤ ((List.range k').map (Metrics.precisionScore (hitList q' run k'))).sum :=
    List.sum_nonneg (by
      intro x hx
      obtain ⟨r, -, rfl⟩ := List.mem_map.1 hx
      exact hnn r)
  rw [List.length_map, List.length_range] at s1 s2
  generalize ((List.range k').map (Metrics.precisionScore (hitList q' run k'))).sum = S at *
  generalize (List.map (fun r => rnd (Metrics.precisionScore (hitList q' run k') r)) (List.range k')) = ps at *
  have n0 : (0 : ℚ) ≤ q'.length := by positivity
  have a1 : (1 - u) ^ (k' + 1) * S ≤ sum ps := by
    refine le_trans (le_of_eq ?_) ((mul_le_mul_of_nonneg_left t1 (lo_nonneg k')).trans s1)
    ring
  have a2 : sum ps ≤ (1 + u) ^ (k' + 1) * S := by
    refine (s2.trans (mul_le_mul_of_nonneg_left t2 (hi_nonneg k'))).trans (le_of_eq ?_)
    ring
  have d1 := div_le_div_of_nonneg_right a1 n0
  have d2 := div_le_div_of_nonneg_right a2 n0
  have p : 0 ≤ (1 - u) ^ (k' + 1) * S / q'.length := div_nonneg (mul_nonneg (lo_nonneg _) s0) n0
  obtain ⟨r1, r2⟩ := rnd_rel E (p.trans d1)
  have q1 := mul_le_mul_of_nonneg_left d1 (show 0 ≤ 1 - u by linarith [u_lt])
  have q2 := mul_le_mul_of_nonneg_left d2 (show 0 ≤ 1 + u by linarith [u_pos])
  have e0 : 0 ≤ S / (q'.length : ℚ) := div_nonneg s0 n0
  constructor
  · refine (mul_le_mul_of_nonneg_right (pow_le_lo (show k' + 2 ≤ run.length + 2 by omega)) e0).trans ?_
    refine le_trans (le_of_eq ?_) (q1.trans r1); ring
  · refine le_trans ?_ (mul_le_mul_of_nonneg_right (pow_le_hi (show k' + 2 ≤ run.length + 2 by omega)) e0)
    refine (r2.trans q2).trans (le_of_eq ?_); ring

end Metrics.Rnd
end Ranx
