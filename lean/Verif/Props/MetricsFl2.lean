import Verif.Props.MetricsFl

/-!
# Property C82, continued: f1, bpref and interpolated precision in float64
-/

set_option linter.unusedSectionVars false

namespace Ranx
open Metrics F64

namespace Metrics.Rnd
variable {rnd : ℚ → ℚ} (R : Spec.Rounding rnd) (E : ∀ x, |rnd x - x| ≤ |x| / 2 ^ 53)
variable {ι : Type*} [LinearOrder ι]

include R E in
/-- a rounded number is zero only if the number is -/
theorem rnd_eq_zero {x : ℚ} (h : 0 ≤ x) : rnd x = 0 ↔ x = 0 := by
  refine ⟨fun e => ?_, fun e => by rw [e, rnd_zero R]⟩
  have h1 := (rnd_rel E h).1
  rw [e] at h1
  have h2 := u_lt
  by_contra hne
  have : 0 < x := lt_of_le_of_ne h (Ne.symm hne)
  have := mul_pos (show 0 < 1 - u by linarith) this
  linarith

include R E in
theorem f1_err (q run : Rows ι ℚ) (k : ℕ) (lvl : ℚ) (hr : run.length ≤ 2 ^ 53) (hq : q.length ≤ 2 ^ 53)
    (hk : k ≤ 2 ^ 53) : |f1 rnd q run k lvl - Metrics.f1 q run k lvl| ≤ 7 * u * Metrics.f1 q run k lvl := by
  unfold f1 Metrics.f1
  simp only
  have hc := (clean_le R q lvl).trans hq
  have hk' : (if k ≠ 0 then k else run.length) ≤ 2 ^ 53 := by split <;> assumption
  by_cases h : (cleanQrels q lvl).length = 0
  · rw [if_pos h, if_pos h]; simp
  rw [if_neg h, if_neg h]
  generalize (if k ≠ 0 then k else run.length) = k' at hk' ⊢
  by_cases h' : k' = 0
  · rw [if_pos h', if_pos h']; simp
  rw [if_neg h', if_neg h', hits_exact R _ _ _ _ hr, R.nat _ hk', R.nat _ hc]
  have hh : 0 ≤ Metrics.hits (cleanQrels q lvl) run k' lvl := by
    rw [C09_hits]; exact Nat.cast_nonneg _
  have hkp : (0 : ℚ) < k' := by exact_mod_cast Nat.pos_of_ne_zero h'
  have hcp : (0 : ℚ) < (cleanQrels q lvl).length := by exact_mod_cast Nat.pos_of_ne_zero h
  have p0 := div_nonneg hh hkp.le
  have r0 := div_nonneg hh hcp.le
  have hpr : Metrics.hits (cleanQrels q lvl) run k' lvl / (k' : ℚ) = 0 ↔
      Metrics.hits (cleanQrels q lvl) run k' lvl / ((cleanQrels q lvl).length : ℚ) = 0 := by
    rw [div_eq_zero_iff, div_eq_zero_iff]
    simp only [hkp.ne', hcp.ne', or_false]
  generalize Metrics.hits (cleanQrels q lvl) run k' lvl / (k' : ℚ) = p at *
  generalize Metrics.hits (cleanQrels q lvl) run k' lvl / ((cleanQrels q lvl).length : ℚ) = r at *
  obtain ⟨p1, p2⟩ := rnd_rel E p0
  obtain ⟨r1, r2⟩ := rnd_rel E r0
  have pn := rnd_nonneg R p0
  have rn := rnd_nonneg R r0
  have e0 := rnd_eq_zero R E p0
  have e1 := rnd_eq_zero R E r0
  by_cases hz : p = 0
  · have hz' := hpr.1 hz
    rw [e0.2 hz, e1.2 hz', hz, hz']
    simp [rnd_zero R]
  have pp : 0 < p := lt_of_le_of_ne p0 (Ne.symm hz)
  have rp : 0 < r := lt_of_le_of_ne r0 (fun e => hz (hpr.2 e.symm))
  have ppn : 0 < rnd p := lt_of_le_of_ne pn (fun e => hz (e0.1 e.symm))
  generalize rnd p = p' at *
  generalize rnd r = r' at *
  obtain ⟨s1, s2⟩ := rnd_rel E (add_nonneg pn rn)
  obtain ⟨m1, m2⟩ := rnd_rel E (mul_nonneg pn rn)
  have mn := rnd_nonneg R (mul_nonneg pn rn)
  have hsne : rnd (p' + r') ≠ 0 := fun e => by
    have := (rnd_eq_zero R E (add_nonneg pn rn)).1 e
    linarith
  have sn := rnd_nonneg R (add_nonneg pn rn)
  have sp : 0 < rnd (p' + r') := lt_of_le_of_ne sn (Ne.symm hsne)
  rw [if_neg hsne, if_neg (show ¬ p + r = 0 by linarith), R.double, R.idem]
  generalize rnd (p' + r') = s at *
  generalize rnd (p' * r') = m at *
  obtain ⟨d1, d2⟩ := rnd_rel E (div_nonneg mn sn)
  generalize rnd (m / s) = d at *
  have hlo : 0 < 1 - u := by linarith [u_lt]
  have hhi : 0 < 1 + u := by linarith [u_pos]
  have S1 : (1 - u) ^ 2 * (p + r) ≤ s := by
    refine le_trans ?_ s1
    rw [pow_two, mul_assoc]
    refine mul_le_mul_of_nonneg_left ?_ hlo.le
    linarith
  have S2 : s ≤ (1 + u) ^ 2 * (p + r) := by
    refine s2.trans ?_
    rw [pow_two, mul_assoc]
    refine mul_le_mul_of_nonneg_left ?_ hhi.le
    linarith
  have M1 : (1 - u) ^ 3 * (p * r) ≤ m := by
    refine le_trans ?_ m1
    have := mul_le_mul p1 r1 (mul_nonneg hlo.le r0) pn
    refine le_trans (le_of_eq ?_) (mul_le_mul_of_nonneg_left this hlo.le)
    ring
  have M2 : m ≤ (1 + u) ^ 3 * (p * r) := by
    refine m2.trans ?_
    have := mul_le_mul p2 r2 rn (mul_nonneg hhi.le p0)
    refine (mul_le_mul_of_nonneg_left this hhi.le).trans (le_of_eq ?_)
    ring
  have spr : 0 < p + r := by linarith
  have t0 : 0 ≤ p * r / (p + r) := div_nonneg (mul_nonneg p0 r0) spr.le
  have Q1 : (1 - 7 * u) * (p * r / (p + r)) ≤ d := by
    refine le_trans ?_ d1
    have hnum : (1 - 7 * u) * (1 + u) ^ 2 ≤ (1 - u) ^ 4 := by unfold u; norm_num
    have h7 : 0 ≤ 1 - 7 * u := by unfold u; norm_num
    rw [← mul_div_assoc, ← mul_div_assoc, div_le_div_iff₀ spr sp]
    calc (1 - 7 * u) * (p * r) * s ≤ (1 - 7 * u) * (p * r) * ((1 + u) ^ 2 * (p + r)) :=
          mul_le_mul_of_nonneg_left S2 (mul_nonneg h7 (mul_nonneg p0 r0))
      _ = (1 - 7 * u) * (1 + u) ^ 2 * (p * r * (p + r)) := by ring
      _ ≤ (1 - u) ^ 4 * (p * r * (p + r)) :=
          mul_le_mul_of_nonneg_right hnum (mul_nonneg (mul_nonneg p0 r0) spr.le)
      _ = (1 - u) * ((1 - u) ^ 3 * (p * r)) * (p + r) := by ring
      _ ≤ (1 - u) * m * (p + r) :=
          mul_le_mul_of_nonneg_right (mul_le_mul_of_nonneg_left M1 hlo.le) spr.le
  have Q2 : d ≤ (1 + 7 * u) * (p * r / (p + r)) := by
    refine d2.trans ?_
    have hnum : (1 + u) ^ 4 ≤ (1 + 7 * u) * (1 - u) ^ 2 := by unfold u; norm_num
    have h7 : 0 ≤ 1 + 7 * u := by unfold u; norm_num
    rw [← mul_div_assoc, ← mul_div_assoc, div_le_div_iff₀ sp spr]
    calc (1 + u) * m * (p + r) ≤ (1 + u) * ((1 + u) ^ 3 * (p * r)) * (p + r) :=
          mul_le_mul_of_nonneg_right (mul_le_mul_of_nonneg_left M2 hhi.le) spr.le
      _ = (1 + u) ^ 4 * (p * r * (p + r)) := by ring
      _ ≤ (1 + 7 * u) * (1 - u) ^ 2 * (p * r * (p + r)) :=
          mul_le_mul_of_nonneg_right hnum (mul_nonneg (mul_nonneg p0 r0) spr.le)
      _ = (1 + 7 * u) * (p * r) * ((1 - u) ^ 2 * (p + r)) := by ring
      _ ≤ (1 + 7 * u) * (p * r) * s :=
          mul_le_mul_of_nonneg_left S1 (mul_nonneg h7 (mul_nonneg p0 r0))
  rw [abs_le]
  constructor <;> linarith

/-- the rounded maximum is the maximum of the rounded numbers -/
theorem maxList_map {f : ℚ → ℚ} (hf : Monotone f) (l : List ℚ) (hl : l ≠ []) :
    maxList (l.map f) = f (maxList l) := by
  cases l with
  | nil => exact absurd rfl hl
  | cons a t =>
    change (t.map f).foldl max (f a) = f (t.foldl max a)
    clear hl
    induction t generalizing a with
    | nil => rfl
    | cons b t ih =>
      rw [List.map_cons, List.foldl_cons, List.foldl_cons, ← hf.map_max, ih]

include R E in
theorem interpolated_rounded {sum : List ℚ → ℚ} (hs : IsSum rnd sum) (cutoff : ℕ → ℕ → ℕ) (q run : Rows ι ℚ)
    (lvl : ℚ) (hr : run.length ≤ 2 ^ 53) :
    interpolatedPrecision rnd sum cutoff q run lvl =
      (Metrics.interpolatedPrecision cutoff q run lvl).map rnd := by
  unfold interpolatedPrecision Metrics.interpolatedPrecision
  simp only
  by_cases h : (cleanQrels q lvl).length = 0
  · rw [if_pos h, if_pos h, List.map_replicate, rnd_zero R]
  rw [if_neg h, if_neg h]
  have hmono : Monotone rnd := fun x y hxy => R.mono x y hxy
  have hps : (List.range run.length).map (precisionScore rnd sum (hitList (cleanQrels q lvl) run run.length)) =
      ((List.range run.length).map
        (Metrics.precisionScore (hitList (cleanQrels q lvl) run run.length : List ℚ))).map rnd := by
    rw [List.map_map]
    refine List.map_congr_left (fun r hr' => ?_)
    exact precisionScore_rounded R hs _ run _ r hr (List.mem_range.1 hr')
  have hnn : ∀ x ∈ (List.range run.length).map
      (Metrics.precisionScore (hitList (cleanQrels q lvl) run run.length : List ℚ)), 0 ≤ x := by
    intro x hx
    obtain ⟨r, -, rfl⟩ := List.mem_map.1 hx
    exact (exact_score_unit R _ run _ r).1
  rw [hps]
  generalize (List.range run.length).map
      (Metrics.precisionScore (hitList (cleanQrels q lvl) run run.length : List ℚ)) = ps at hnn ⊢
  have hmx : maxList (0 :: ps.map rnd) = rnd (maxList (0 :: ps)) := by
    rw [← maxList_map hmono (0 :: ps) (by simp), List.map_cons, rnd_zero R]
  rw [hmx, ← List.map_cons]
  have hnn' : ∀ x ∈ maxList (0 :: ps) :: ps, 0 ≤ x := by
    intro x hx
    rcases List.mem_cons.1 hx with rfl | hx
    · exact (maxList_greatest (0 :: ps) (by simp)).2 0 (by simp)
    · exact hnn x hx
  generalize maxList (0 :: ps) :: ps = l at hnn' ⊢
  have hfil : (l.map rnd).filter (fun x => decide (x ≠ 0)) = (l.filter (fun x => decide (x ≠ 0))).map rnd := by
    rw [List.filter_map]
    congr 1
    refine List.filter_congr (fun x hx => ?_)
    simp only [Function.comp_apply, ne_eq, decide_not, rnd_eq_zero R E (hnn' x hx)]
  rw [hfil]
  generalize l.filter (fun x => decide (x ≠ 0)) = m
  rw [List.map_map (g := rnd)]
  refine List.map_congr_left (fun c _ => ?_)
  simp only [Function.comp_apply, List.length_map]
  by_cases hc : c < m.length
  · rw [if_pos hc, if_pos hc, ← List.map_drop, maxList_map hmono]
    rw [Ne, List.drop_eq_nil_iff]; omega
  · rw [if_neg hc, if_neg hc, rnd_zero R]

theorem pow_lin (n : ℕ) (hn : n ≤ 2 ^ 53) : (1 + u) ^ n ≤ 1 + 2 * n * u ∧ 1 - n * u ≤ (1 - u) ^ n := by
  have hu := u_pos
  have hnu : ∀ m : ℕ, m ≤ 2 ^ 53 → (m : ℚ) * u ≤ 1 := by
    intro m hm
    have : (m : ℚ) ≤ 2 ^ 53 := by exact_mod_cast hm
    unfold u
    rw [mul_one_div, div_le_one (by positivity)]
    exact this
  constructor
  · have key : (1 + u) ^ n ≤ 1 + n * u + (n * u) ^ 2 := by
      induction n with
      | zero => simp
      | succ m ih =>
        have h1 := ih (by omega)
        have h2 := hnu m (by omega)
        have h0 : (0 : ℚ) ≤ m := Nat.cast_nonneg _
        have h3 : (m : ℚ) * (m * u) ≤ m * 1 := mul_le_mul_of_nonneg_left h2 h0
        have h4 : u ^ 2 * ((m : ℚ) * (m * u)) ≤ u ^ 2 * m := by
          refine mul_le_mul_of_nonneg_left ?_ (by positivity)
          linarith
        have h5 : 0 ≤ u ^ 2 * (m : ℚ) := by positivity
        have h6 : 0 ≤ u ^ 2 := by positivity
        rw [pow_succ]
        refine (mul_le_mul_of_nonneg_right h1 (by linarith)).trans ?_
        push_cast
        nlinarith
    have h2 := hnu n hn
    have h0 : 0 ≤ (n : ℚ) * u := by positivity
    nlinarith
  · have := one_add_mul_le_pow (show (-2 : ℚ) ≤ -u by linarith [u_lt]) n
    have e : (1 : ℚ) + -u = 1 - u := by ring
    rw [e] at this
    linarith

include R E in
theorem bpref_err {sum : List ℚ → ℚ} (hs : IsSum rnd sum) (q run : Rows ι ℚ) (lvl : ℚ)
    (hrun : (ids run).Nodup) (hq : q.length ≤ 2 ^ 53) :
    (∀ e, Metrics.bpref q run lvl = .error e ↔ bpref rnd sum q run lvl = .error e) ∧
    (Metrics.bpref q run lvl = .ok .nan ↔ bpref rnd sum q run lvl = .ok .nan) ∧
    (∀ v w, Metrics.bpref q run lvl = .ok (.val v) → bpref rnd sum q run lvl = .ok (.val w) →
      |w - v| ≤ (2 * Spec.numRel q lvl + 3) * u) := by
  classical
  have hj : ∀ x, (look (cleanQrels q lvl) x).isSome = true → (look q x).isSome = true := by
    intro x hx
    rw [look_clean_isSome] at hx
    rw [look_isSome]
    obtain ⟨v, hv, _⟩ := hx
    exact ⟨v, hv⟩
  have hl : ((List.zip (getHitList q run 0 lvl) (getUnjudgedList q run 0)).filter
      (fun x => decide (x.2 ≠ 1))).map Prod.fst =
      (judgedHits (fun x => (look (cleanQrels q lvl) x).isSome) (fun x => (look q x).isSome)
        (run.map Prod.fst) : List ℚ) := by
    rw [getHitList_eq, getUnjudgedList_eq]
    simp only [Spec.top, if_pos]
    rfl
  have hnum : (Spec.numRel q lvl : ℕ) = (q.filter (fun r => decide (lvl ≤ r.2))).length := by
    rw [numRel_eq]; rfl
  unfold bpref Metrics.bpref
  simp only [hl]
  rw [hnum]
  have hR : (q.filter (fun r => decide (lvl ≤ r.2))).length ≤ 2 ^ 53 := (List.length_filter_le _ _).trans hq
  have hN : (q.filter (fun r => decide (r.2 < lvl))).length ≤ 2 ^ 53 := (List.length_filter_le _ _).trans hq
  have hcs : ∀ c ∈ nonHitsBefore (judgedHits (fun x => (look (cleanQrels q lvl) x).isSome)
      (fun x => (look q x).isSome) (run.map Prod.fst) : List ℚ) 0,
      c ≤ (q.filter (fun r => decide (r.2 < lvl))).length := by
    refine nonHits_bound R _ _ hj _ _ (fun i => ?_)
    apply count_le_rows q _ _ _ hrun
    rintro x ⟨hx1, hx2⟩
    rw [look_isSome] at hx1
    obtain ⟨v, hv⟩ := hx1
    refine ⟨v, hv, ?_⟩
    simp only [decide_eq_true_eq]
    exact not_le.1 (fun hc => hx2 (look_clean_isSome.2 ⟨v, hv, hc⟩))
  have hlen : (nonHitsBefore (judgedHits (fun x => (look (cleanQrels q lvl) x).isSome)
      (fun x => (look q x).isSome) (run.map Prod.fst) : List ℚ) 0).length ≤
      (q.filter (fun r => decide (lvl ≤ r.2))).length := by
    rw [nonHits_length R _ _ hj]
    have := relIn_le_numRel q lvl (ids run) hrun (run.map Prod.fst).length
    rw [numRel_eq] at this
    rw [relIn_congr (fun x => look_clean_isSome)]
    exact this
  generalize nonHitsBefore (judgedHits (fun x => (look (cleanQrels q lvl) x).isSome)
      (fun x => (look q x).isSome) (run.map Prod.fst) : List ℚ) 0 = cs at hcs hlen ⊢
  generalize (q.filter (fun r => decide (lvl ≤ r.2))).length = nR at *
  generalize (q.filter (fun r => decide (r.2 < lvl))).length = nN at *
  by_cases hR0 : nR = 0
  · rw [if_pos hR0, if_pos hR0]
    exact ⟨fun _ => Iff.rfl, ⟨(fun h => nomatch h), (fun h => nomatch h)⟩, (fun _ _ h => nomatch h)⟩
  rw [if_neg hR0, if_neg hR0]
  by_cases hm0 : min nR nN = 0
  · rw [if_pos hm0, if_pos hm0]
    by_cases hc0 : cs.map (fun c => min c nR) = []
    · rw [if_pos hc0]
      refine ⟨fun _ => ⟨(fun h => nomatch h), (fun h => nomatch h)⟩, ⟨(fun h => nomatch h), (fun h => nomatch h)⟩, ?_⟩
      intro v w hv hw
      simp only [Except.ok.injEq, Num.val.injEq] at hv hw
      rw [← hv, ← hw, sub_self, abs_zero]
      have := u_pos
      positivity
    · rw [if_neg hc0]
      exact ⟨fun _ => ⟨(fun h => nomatch h), (fun h => nomatch h)⟩, ⟨fun _ => rfl, fun _ => rfl⟩,
        (fun _ _ h => nomatch h)⟩
  rw [if_neg hm0, if_neg hm0]
  refine ⟨fun _ => ⟨(fun h => nomatch h), (fun h => nomatch h)⟩, ⟨(fun h => nomatch h), (fun h => nomatch h)⟩, ?_⟩
  intro v w hv hw
  simp only [Except.ok.injEq, Num.val.injEq] at hv hw
  rw [R.nat _ hR] at hw
  have hmle : min nR nN ≤ 2 ^ 53 := by omega
  have hpos : (0 : ℚ) < nR := by exact_mod_cast Nat.pos_of_ne_zero hR0
  have hmpos : (0 : ℚ) < ((min nR nN : ℕ) : ℚ) := by exact_mod_cast Nat.pos_of_ne_zero hm0
  have hu := u_pos
  -- one term
  have hterm : ∀ c ∈ cs.map (fun c => min c nR),
      (0 ≤ rnd (1 - rnd (rnd (c : ℚ) / rnd ((min nR nN : ℕ) : ℚ))) ∧
        rnd (1 - rnd (rnd (c : ℚ) / rnd ((min nR nN : ℕ) : ℚ))) ≤ 1) ∧
      |rnd (1 - rnd (rnd (c : ℚ) / rnd ((min nR nN : ℕ) : ℚ))) - (1 - (c : ℚ) / ((min nR nN : ℕ) : ℚ))| ≤
        2 * u := by
    intro c hc
    obtain ⟨d, hd, rfl⟩ := List.mem_map.1 hc
    have hd' := hcs d hd
    have hle : min d nR ≤ min nR nN := by omega
    rw [R.nat _ hmle, R.nat _ (hle.trans hmle)]
    have hu1 : 0 ≤ ((min d nR : ℕ) : ℚ) / ((min nR nN : ℕ) : ℚ) ∧
        ((min d nR : ℕ) : ℚ) / ((min nR nN : ℕ) : ℚ) ≤ 1 :=
      ⟨div_nonneg (Nat.cast_nonneg _) hmpos.le, (div_le_one hmpos).2 (by exact_mod_cast hle)⟩
    generalize ((min d nR : ℕ) : ℚ) / ((min nR nN : ℕ) : ℚ) = x at hu1 ⊢
    have h1 := rnd_unit R hu1
    have h2 := rnd_rel E hu1.1
    have h3 : 0 ≤ 1 - rnd x ∧ 1 - rnd x ≤ 1 := ⟨by linarith, by linarith⟩
    have h4 := rnd_unit R h3
    have h5 := rnd_rel E h3.1
    refine ⟨h4, ?_⟩
    generalize rnd (1 - rnd x) = z at *
    generalize rnd x = y at *
    have a1 : u * x ≤ u := mul_le_of_le_one_right hu.le hu1.2
    have a2 : u * (1 - y) ≤ u := mul_le_of_le_one_right hu.le h3.2
    rw [abs_le]
    constructor <;> linarith
  generalize hcs' : cs.map (fun c => min c nR) = cs' at *
  have hlen' : cs'.length ≤ nR := by rw [← hcs', List.length_map]; exact hlen
  obtain ⟨s1, s2⟩ := sum_bounds R hs (cs'.map (fun c : ℕ =>
      rnd (1 - rnd (rnd (c : ℚ) / rnd ((min nR nN : ℕ) : ℚ))))) (by
    intro y hy
    obtain ⟨c, hc, rfl⟩ := List.mem_map.1 hy
    exact (hterm c hc).1) nR
    (le_trans List.countP_le_length (by simpa using hlen')) hR
  obtain ⟨t1, t2⟩ := sum_err R E hs (cs'.map (fun c : ℕ =>
      rnd (1 - rnd (rnd (c : ℚ) / rnd ((min nR nN : ℕ) : ℚ))))) (by
    intro y hy
    obtain ⟨c, hc, rfl⟩ := List.mem_map.1 hy
    exact ⟨(hterm c hc).1.1, R.idem _⟩)
  rw [List.length_map] at t1 t2
  have hsums : ∀ l : List ℕ, (∀ c ∈ l, c ∈ cs') →
      0 ≤ (l.map (fun c : ℕ => rnd (1 - rnd (rnd (c : ℚ) / rnd ((min nR nN : ℕ) : ℚ))))).sum ∧
      (l.map (fun c : ℕ => rnd (1 - rnd (rnd (c : ℚ) / rnd ((min nR nN : ℕ) : ℚ))))).sum ≤ l.length ∧
      |(l.map (fun c : ℕ => rnd (1 - rnd (rnd (c : ℚ) / rnd ((min nR nN : ℕ) : ℚ))))).sum -
        (l.map (fun c : ℕ => 1 - (c : ℚ) / ((min nR nN : ℕ) : ℚ))).sum| ≤ l.length * (2 * u) := by
    intro l
    induction l with
    | nil => intro _; simp
    | cons c l ih =>
      intro hl
      obtain ⟨i1, i2, i3⟩ := ih (fun x hx => hl x (List.mem_cons_of_mem _ hx))
      obtain ⟨⟨j1, j2⟩, j3⟩ := hterm c (hl c (List.mem_cons_self ..))
      simp only [List.map_cons, List.sum_cons, List.length_cons]
      push_cast at *
      rw [abs_le] at *
      refine ⟨by linarith, by linarith, ?_, ?_⟩ <;> linarith [i3.1, i3.2, j3.1, j3.2]
  obtain ⟨i1, i2, i3⟩ := hsums cs' (fun _ h => h)
  obtain ⟨g1, g2⟩ := pow_lin cs'.length (hlen'.trans hR)
  generalize (cs'.map (fun c : ℕ => 1 - (c : ℚ) / ((min nR nN : ℕ) : ℚ))).sum = S at *
  generalize cs'.map (fun c : ℕ => rnd (1 - rnd (rnd (c : ℚ) / rnd ((min nR nN : ℕ) : ℚ)))) = l at *
  generalize cs'.length = n at *
  generalize sum l = T at *
  generalize l.sum = S' at *
  have hn' : (n : ℚ) ≤ nR := by exact_mod_cast hlen'
  have n0 : (0 : ℚ) ≤ n := Nat.cast_nonneg _
  have hS' : S' ≤ nR := i2.trans hn'
  have b1 := mul_le_mul_of_nonneg_right g1 i1
  have b2 := mul_le_mul_of_nonneg_right g2 i1
  -- sum against the sum of the rounded terms
  have c1 : (n : ℚ) * u * S' ≤ nR * u * nR :=
    mul_le_mul (mul_le_mul_of_nonneg_right hn' hu.le) hS' i1 (by positivity)
  have c2 : (n : ℚ) * (2 * u) ≤ nR * (2 * u) := mul_le_mul_of_nonneg_right hn' (by positivity)
  have c0 : 0 ≤ (n : ℚ) * u * S' := mul_nonneg (mul_nonneg n0 hu.le) i1
  have hTS : |T - S| ≤ nR * ((2 * nR + 2) * u) := by
    rw [abs_le] at i3 ⊢
    constructor <;> nlinarith [i3.1, i3.2]
  have hdiv : |T / nR - S / nR| ≤ (2 * nR + 2) * u := by
    rw [← sub_div, abs_div, abs_of_pos hpos, div_le_iff₀ hpos]
    linarith
  have hT1 : T / nR ≤ 1 := (div_le_one hpos).2 s2
  obtain ⟨k1, k2⟩ := rnd_rel E (div_nonneg s1 hpos.le)
  have hT2 : u * (T / nR) ≤ u := mul_le_of_le_one_right hu.le hT1
  rw [← hv, ← hw]
  rw [abs_le] at hdiv ⊢
  constructor <;> linarith [hdiv.1, hdiv.2]

end Metrics.Rnd

variable {ι : Type*} [LinearOrder ι]

/-- **C82**: in float64, f1 agrees with the exact value of C13 up to a relative error of 7 parts in 2^53. -/
theorem C82_f1_error (q run : Rows ι ℚ) (k : ℕ) (lvl : ℚ)
    (hr : run.length ≤ 2 ^ 53) (hq : q.length ≤ 2 ^ 53) (hk : k ≤ 2 ^ 53) :
    |Rnd.f1 fl q run k lvl - f1 q run k lvl| ≤ 7 / 2 ^ 53 * f1 q run k lvl := by
  have h := Rnd.f1_err rounding_fl fl_err q run k lvl hr hq hk
  have e : (7 : ℚ) * Rnd.u = 7 / 2 ^ 53 := by unfold Rnd.u; ring
  rwa [e] at h

/-- **C82**: in float64, each of the eleven interpolated precision values is the exact value of C21 (with the
same cutoffs) rounded once. -/
theorem C82_interpolated {sum : List ℚ → ℚ} (hs : Rnd.IsSum fl sum) (cutoff : ℕ → ℕ → ℕ) (q run : Rows ι ℚ)
    (lvl : ℚ) (hr : run.length ≤ 2 ^ 53) :
    Rnd.interpolatedPrecision fl sum cutoff q run lvl =
      (interpolatedPrecision cutoff q run lvl).map fl :=
  Rnd.interpolated_rounded rounding_fl fl_err hs cutoff q run lvl hr

/-- **C82**: in float64, bpref raises and returns NaN exactly when the exact bpref of C20 does, and otherwise
is off by at most (2·R + 3)·2^-53 for R relevant docs, whatever the order in which `np.sum` adds. -/
theorem C82_bpref_error {sum : List ℚ → ℚ} (hs : Rnd.IsSum fl sum) (q run : Rows ι ℚ) (lvl : ℚ)
    (hrun : (ids run).Nodup) (hq : q.length ≤ 2 ^ 53) :
    (∀ e, bpref q run lvl = .error e ↔ Rnd.bpref fl sum q run lvl = .error e) ∧
    (bpref q run lvl = .ok .nan ↔ Rnd.bpref fl sum q run lvl = .ok .nan) ∧
    (∀ v w, bpref q run lvl = .ok (.val v) → Rnd.bpref fl sum q run lvl = .ok (.val w) →
      |w - v| ≤ (2 * Spec.numRel q lvl + 3) / 2 ^ 53) := by
  obtain ⟨h1, h2, h3⟩ := Rnd.bpref_err rounding_fl fl_err hs q run lvl hrun hq
  refine ⟨h1, h2, fun v w hv hw => (h3 v w hv hw).trans (le_of_eq ?_)⟩
  unfold Rnd.u; ring

/-- Non-vacuity: on the query of `Props/Metrics.lean` the float64 f1 at cutoff 4 is 4/7 rounded, not 4/7, and
interpolated precision at recall 0 is 1/2. -/
example : f1 exQ exRun 4 1 = 4 / 7 ∧ Rnd.f1 fl exQ exRun 4 1 ≠ 4 / 7 ∧
    Rnd.interpolatedPrecision fl F64.sum (fun _ _ => 0) exQ exRun 1 = List.replicate 11 (fl (1 / 2)) := by
  decide +kernel

/-- Non-vacuity: bpref of a query with three relevant and three other judged docs, 7/9, and its float64 value -/
example : bpref [(1, 1), (2, 1), (3, 1), (4, 0), (5, 0), (6, 0)] [(1, 9), (4, 8), (2, 7), ((3 : ℕ), (5 : ℚ))] 1 =
      .ok (.val (7 / 9)) ∧
    Rnd.bpref fl F64.sum [(1, 1), (2, 1), (3, 1), (4, 0), (5, 0), (6, 0)]
      [(1, 9), (4, 8), (2, 7), ((3 : ℕ), (5 : ℚ))] 1 = .ok (.val (28022397681416420 / 2 ^ 55)) := by
  decide +kernel

end Ranx
