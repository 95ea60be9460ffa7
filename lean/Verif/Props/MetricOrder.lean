import Verif.Props.MetricRelations

/-!
# C154: orderings between metrics, at the level of `evaluate`
-/

set_option linter.unusedSectionVars false

namespace Ranx
open Dict Eval Metrics Py Store

namespace Spec

/-- one query's score is at most the other's -/
inductive ScoreAtMost {α : Type*} [LE α] : Num α → Num α → Prop
  | val {x y : α} (h : x ≤ y) : ScoreAtMost (.val x) (.val y)
  | nan : ScoreAtMost .nan .nan

/-- two outcomes of `evaluate` with one metric (no standard deviation asked): they fail alike, or the mean of the first
is at most the mean of the second (both are NaN if there is no query), or each score of the first is at most the
corresponding score of the second -/
inductive OutcomeAtMost {α : Type*} [LE α] : Except Err (Out α) → Except Err (Out α) → Prop
  | fails (e : Err) : OutcomeAtMost (.error e) (.error e)
  | mean {x y : Num α} (h : ScoreAtMost x y) : OutcomeAtMost (.ok (.single (.mean x))) (.ok (.single (.mean y)))
  | scores {l l' : List (Num α)} (h : List.Forall₂ ScoreAtMost l l') :
      OutcomeAtMost (.ok (.single (.scores l))) (.ok (.single (.scores l')))

end Spec

section
variable {α : Type*}

theorem prange_forall₂ {γ : Type*} (R : γ → γ → Prop) (f g : Nat → γ) (h : ∀ i, R (f i) (g i)) (sched : List Nat) :
    ∀ out out' : List γ, List.Forall₂ R out out' → List.Forall₂ R (prange out f sched) (prange out' g sched) := by
  induction sched with
  | nil => exact fun _ _ h => h
  | cons i t ih =>
    intro out out' ho
    refine ih _ _ ?_
    clear ih
    induction ho generalizing i with
    | nil => simp
    | cons hab htl ih2 =>
      rename_i a b l l'
      have key : ∀ (j : Nat) (u v : γ), R u v → List.Forall₂ R ((a :: l).set j u) ((b :: l').set j v) := by
        clear ih2
        intro j u v huv
        have gen : ∀ (l l' : List γ), List.Forall₂ R l l' → ∀ j, List.Forall₂ R (l.set j u) (l'.set j v) := by
          intro l l' hl
          induction hl with
          | nil => intro j; simp
          | cons hx hr ih3 =>
            intro j
            cases j with
            | zero => exact List.Forall₂.cons huv hr
            | succ j => exact List.Forall₂.cons hx (ih3 j)
        exact gen _ _ (List.Forall₂.cons hab htl) j
      exact key i _ _ (h i)

theorem collect_forall₂ {γ : Type*} (R : γ → γ → Prop) {l l' : List (Except Err γ)}
    (h : List.Forall₂ (fun a b => ∃ u v, a = .ok u ∧ b = .ok v ∧ R u v) l l') :
    ∃ x y, collect l = .ok x ∧ collect l' = .ok y ∧ List.Forall₂ R x y := by
  induction h with
  | nil => exact ⟨[], [], rfl, rfl, List.Forall₂.nil⟩
  | cons hab _ ih =>
    obtain ⟨u, v, rfl, rfl, huv⟩ := hab
    obtain ⟨x, y, hx, hy, hxy⟩ := ih
    exact ⟨u :: x, v :: y, by simp only [collect, hx], by simp only [collect, hy], List.Forall₂.cons huv hxy⟩

variable [LinearOrder α] [Field α] [IsStrictOrderedRing α]

theorem vals_forall₂ {l l' : List (Num α)} (h : List.Forall₂ Spec.ScoreAtMost l l') :
    (vals l = none ∧ vals l' = none) ∨ ∃ x y, vals l = some x ∧ vals l' = some y ∧ List.Forall₂ (· ≤ ·) x y := by
  induction h with
  | nil => exact .inr ⟨[], [], rfl, rfl, List.Forall₂.nil⟩
  | cons hab _ ih =>
    cases hab with
    | nan => exact .inl ⟨rfl, rfl⟩
    | val hle =>
      rcases ih with ⟨h1, h2⟩ | ⟨x, y, h1, h2, h3⟩
      · exact .inl ⟨by simp [vals, h1], by simp [vals, h2]⟩
      · exact .inr ⟨_, _, by simp [vals, h1], by simp [vals, h2], List.Forall₂.cons hle h3⟩

/-- smaller scores, smaller mean -/
theorem mean_forall₂ {l l' : List (Num α)} (h : List.Forall₂ Spec.ScoreAtMost l l') :
    Spec.ScoreAtMost (Eval.mean l) (Eval.mean l') := by
  unfold Eval.mean
  rcases vals_forall₂ h with ⟨h1, h2⟩ | ⟨x, y, h1, h2, h3⟩
  · rw [h1, h2]; exact .nan
  · rw [h1, h2]
    cases h3 with
    | nil => exact .nan
    | cons hab ht =>
      refine .val ?_
      have hl := (List.Forall₂.cons hab ht).length_eq
      rw [hl]
      exact div_le_div_of_nonneg_right (List.Forall₂.sum_le_sum (List.Forall₂.cons hab ht)) (Nat.cast_nonneg _)

end

section kernels
variable {ι α : Type*} [LinearOrder ι] [LinearOrder α] [Field α] [IsStrictOrderedRing α]

theorem hitRate_of_pos (q run : Rows ι α) (k : Nat) (lvl : α) (x : α) (hx : x ≤ 1)
    (h0 : (∀ x ∈ Spec.top k (ids run), ¬ Spec.Rel q lvl x) → x = 0) : x ≤ hitRate q run k lvl := by
  by_cases h : ∃ x ∈ Spec.top k (ids run), Spec.Rel q lvl x
  · rw [(C10_hit_rate q run k lvl).1 h]; exact hx
  · have hn : ∀ x ∈ Spec.top k (ids run), ¬ Spec.Rel q lvl x := fun x hm hr => h ⟨x, hm, hr⟩
    rw [(C10_hit_rate q run k lvl).2 hn, h0 hn]

theorem mrr_le_hitRate (q run : Rows ι α) (k : Nat) (lvl : α) : reciprocalRank q run k lvl ≤ hitRate q run k lvl := by
  refine hitRate_of_pos q run k lvl _ (C22_ranges_any_run q run k lvl).2.2.2.2.2 (fun hn => ?_)
  rcases C15_reciprocal_rank q run k lvl with ⟨r, x, hx, hr, -⟩ | ⟨-, e⟩
  · exact absurd hr (hn x (List.mem_of_getElem? hx))
  · exact e

theorem precision_le_hitRate (q run : Rows ι α) (k : Nat) (lvl : α) : precision q run k lvl ≤ hitRate q run k lvl := by
  refine hitRate_of_pos q run k lvl _ (C22_ranges_any_run q run k lvl).2.2.1.2 (fun hn => ?_)
  rw [precision_eq]
  unfold Spec.precision
  rw [(hits_eq_zero_iff _ _ _).2 hn, Nat.cast_zero, zero_div]

theorem recall_le_hitRate (q run : Rows ι α) (hrun : (ids run).Nodup) (k : Nat) (lvl : α) :
    recall q run k lvl ≤ hitRate q run k lvl := by
  refine hitRate_of_pos q run k lvl _ (C22_ranges q run hrun k lvl).1.2 (fun hn => ?_)
  rw [recall_eq]
  unfold Spec.recall
  rw [(hits_eq_zero_iff _ _ _).2 hn, Nat.cast_zero, zero_div]

theorem hitRate_le_hits (q run : Rows ι α) (k : Nat) (lvl : α) : hitRate q run k lvl ≤ hits q run k lvl := by
  rw [hits_eq]
  by_cases h : ∃ x ∈ Spec.top k (ids run), Spec.Rel q lvl x
  · rw [(C10_hit_rate q run k lvl).1 h]
    have := (hits_pos_iff (Spec.Rel q lvl) (run.map Prod.fst) k).2 h
    exact_mod_cast this
  · rw [(C10_hit_rate q run k lvl).2 (fun x hm hr => h ⟨x, hm, hr⟩)]
    exact Nat.cast_nonneg _

theorem ap_le_recall (q run : Rows ι α) (k : Nat) (lvl : α) : averagePrecision q run k lvl ≤ recall q run k lvl := by
  classical
  rw [averagePrecision_eq, recall_eq]
  unfold Spec.averagePrecision Spec.recall
  refine div_le_div_of_nonneg_right ?_ (Nat.cast_nonneg _)
  have hle : ∀ r ∈ Finset.range (Spec.top k (run.map Prod.fst)).length,
      (if ∃ x, (Spec.top k (run.map Prod.fst))[r]? = some x ∧ Spec.Rel q lvl x then
        (Spec.relIn (Spec.Rel q lvl) (run.map Prod.fst) (r + 1) : α) / ((r + 1 : Nat) : α) else 0) ≤
      (if ∃ x, (Spec.top k (run.map Prod.fst))[r]? = some x ∧ Spec.Rel q lvl x then (1 : α) else 0) := by
    intro r _
    split
    · rw [div_le_one (by positivity)]
      exact_mod_cast relIn_le (Spec.Rel q lvl) (run.map Prod.fst) (r + 1)
    · exact le_rfl
  refine (Finset.sum_le_sum hle).trans (le_of_eq ?_)
  rw [hits_eq_countP]
  generalize Spec.top k (run.map Prod.fst) = l
  induction l using List.reverseRecOn with
  | nil => simp
  | append_singleton l x ih =>
    rw [List.length_append, List.length_singleton, Finset.sum_range_succ, List.countP_append, Nat.cast_add]
    congr 1
    · rw [← ih]
      refine Finset.sum_congr rfl (fun i hi => ?_)
      rw [List.getElem?_append_left (Finset.mem_range.1 hi)]
    · rw [List.getElem?_append_right le_rfl, Nat.sub_self]
      by_cases hx : Spec.Rel q lvl x <;> simp [hx]

end kernels

variable {κ δ ι α : Type*} [LinearOrder κ] [DecidableEq δ] [LinearOrder ι] [LinearOrder α] [Field α] [IsStrictOrderedRing α]

/-- two metrics whose functions are ordered on the arrays at hand -/
theorem evaluate_ordered (F : Fn α) (other : Str → Except Err α) (SQ : ArgSort Int) (SR : ArgSort α)
    (hash : δ → ι) (sched : Nat → List Nat) (o : Opts) (ho : o.save = true ∨ o.returnMean = true) (hstd : o.returnStd = false)
    (s : Store κ δ Int) (r : RunObj κ δ α) (m m' : Str) (f f' : Rows ι α → Rows ι α → α)
    (hf : metricOf F other m = .ok (total f)) (hf' : metricOf F other m' = .ok (total f'))
    (h : ∀ i : Nat, f (((Store.rows hash (fun z : Int => (z : α)) (s.ensureSorted SQ).data)[i]?).getD [])
        (((Store.rows hash id ((comparable SR o s r).ensureSorted SR).data)[i]?).getD []) ≤
      f' (((Store.rows hash (fun z : Int => (z : α)) (s.ensureSorted SQ).data)[i]?).getD [])
        (((Store.rows hash id ((comparable SR o s r).ensureSorted SR).data)[i]?).getD [])) :
    Spec.OutcomeAtMost (evaluate F other SQ SR hash sched o (.obj s) (.obj r) [m]).2
      (evaluate F other SQ SR hash sched o (.obj s) (.obj r) [m']).2 := by
  rw [evaluate_obj, evaluate_obj]
  by_cases hk : sameKeys s.data.keys (comparable SR o s r).data.keys = true
  swap
  · rw [if_neg hk, if_neg hk]; exact .fails _
  rw [if_pos hk, if_pos hk]
  have hlast : ∀ x : Str, lastM other o true x = x := by
    intro x
    unfold lastM
    rw [if_pos]
    rcases ho with ho | ho <;> simp [ho]
  have hout : ∀ (x : Str) (l : List (Num α)), outOf F other o true (Dict.set [] x l) [x] =
      .ok (.single (present F o (o.returnMean && o.returnStd) l)) := by
    intro x l
    unfold outOf
    simp only [hlast]
    simp [Dict.set, Dict.get?]
  have e : ∀ x : Str, [x].zipIdx = [(x, 0)] := fun _ => rfl
  rw [e, e]
  by_cases hl : (Store.rows hash id ((comparable SR o s r).ensureSorted SR).data).length <
      (Store.rows hash (fun z : Int => (z : α)) (s.ensureSorted SQ).data).length
  · simp only [scoreAll, hf, hf', parallel, if_pos hl]
    exact .fails _
  simp only [scoreAll, hf, hf', parallel, if_neg hl]
  obtain ⟨x, y, hx, hy, hxy⟩ := collect_forall₂ Spec.ScoreAtMost (prange_forall₂
    (fun a b : Except Err (Num α) => ∃ u v, a = .ok u ∧ b = .ok v ∧ Spec.ScoreAtMost u v)
    (fun i => total f (((Store.rows hash (fun z : Int => (z : α)) (s.ensureSorted SQ).data)[i]?).getD [])
        (((Store.rows hash id ((comparable SR o s r).ensureSorted SR).data)[i]?).getD []))
    (fun i => total f' (((Store.rows hash (fun z : Int => (z : α)) (s.ensureSorted SQ).data)[i]?).getD [])
        (((Store.rows hash id ((comparable SR o s r).ensureSorted SR).data)[i]?).getD []))
    (fun i => ⟨_, _, rfl, rfl, .val (h i)⟩) (sched 0)
    (List.replicate (Store.rows hash (fun z : Int => (z : α)) (s.ensureSorted SQ).data).length (.ok (.val 0)))
    (List.replicate (Store.rows hash (fun z : Int => (z : α)) (s.ensureSorted SQ).data).length (.ok (.val 0)))
    (List.forall₂_same.2 (fun a ha => by
      rw [List.eq_of_mem_replicate ha]; exact ⟨_, _, rfl, rfl, .val le_rfl⟩)))
  rw [hx, hy]
  simp only
  rw [hout, hout]
  unfold present
  rw [hstd, Bool.and_false]
  by_cases hm : o.returnMean = true
  · rw [if_pos hm, if_pos hm]
    simp only [Bool.false_eq_true, if_false]
    exact .mean (mean_forall₂ hxy)
  · rw [if_neg hm, if_neg hm]
    exact .scores hxy

namespace Spec

/-- (metric, cutoff) pairs, the first never above the second -/
inductive Below : BinaryMetric → Nat → BinaryMetric → Nat → Prop
  | mrr (k : Nat) : Below .mrr k .hitRate k
  | precision (k : Nat) : Below .precision k .hitRate k
  | hitRate (k : Nat) : Below .hitRate k .hits k
  | map (k : Nat) : Below .map k .recall k

/-- raising the cutoff from `k` to `k'` (0: none) -/
def Deeper (k k' : Nat) : Prop := k' = 0 ∨ (k ≠ 0 ∧ k ≤ k')

/-- the metrics that grow with the cutoff -/
inductive Growing : BinaryMetric → Prop
  | hits : Growing .hits
  | hitRate : Growing .hitRate
  | recall : Growing .recall
  | mrr : Growing .mrr
  | map : Growing .map

end Spec

/-- **C154** (between metrics): whatever the qrels and the run, the mean of `mrr@k` is at most the mean of `hit_rate@k`,
that of `precision@k` at most that of `hit_rate@k`, that of `hit_rate@k` at most that of `hits@k`, that of `map@k` at
most that of `recall@k`; the same for the per-query scores; and one call fails if and only if the other does, with the
same exception. -/
theorem C154_between (F : Fn α) (other : Str → Except Err α) (SQ : ArgSort Int) (SR : ArgSort α)
    (hash : δ → ι) (sched : Nat → List Nat) (o : Opts) (ho : o.save = true ∨ o.returnMean = true) (hstd : o.returnStd = false)
    (s : Store κ δ Int) (r : RunObj κ δ α) (M M' : Spec.BinaryMetric) (k k' L : Nat) (hM : Spec.Below M k M' k')
    (m m' : Str) (ha : Spec.AskBoth M.name k M'.name k' L m m') :
    Spec.OutcomeAtMost (evaluate F other SQ SR hash sched o (.obj s) (.obj r) [m]).2
      (evaluate F other SQ SR hash sched o (.obj s) (.obj r) [m']).2 := by
  have e := metricOf_asks (ι := ι) F other M.name k L M.code M.plain M.switch m ha.1
  have e' := metricOf_asks (ι := ι) F other M'.name k' L M'.code M'.plain M'.switch m' ha.2
  cases hM with
  | mrr =>
    exact evaluate_ordered F other SQ SR hash sched o ho hstd s r m m' _ _ (e.trans rfl) (e'.trans rfl)
      (fun i => mrr_le_hitRate _ _ k _)
  | precision =>
    exact evaluate_ordered F other SQ SR hash sched o ho hstd s r m m' _ _ (e.trans rfl) (e'.trans rfl)
      (fun i => precision_le_hitRate _ _ k _)
  | hitRate =>
    exact evaluate_ordered F other SQ SR hash sched o ho hstd s r m m' _ _ (e.trans rfl) (e'.trans rfl)
      (fun i => hitRate_le_hits _ _ k _)
  | map =>
    exact evaluate_ordered F other SQ SR hash sched o ho hstd s r m m' _ _ (e.trans rfl) (e'.trans rfl)
      (fun i => ap_le_recall _ _ k _)

/-- **C154** (recall and hit rate): if no two results of a query have the same hash then the mean of `recall@k` is at
most the mean of `hit_rate@k` (and so for the scores). -/
theorem C154_recall_hit_rate (F : Fn α) (other : Str → Except Err α) (SQ : ArgSort Int) (SR : ArgSort α)
    (hash : δ → ι) (sched : Nat → List Nat) (o : Opts) (ho : o.save = true ∨ o.returnMean = true) (hstd : o.returnStd = false)
    (s : Store κ δ Int) (r : RunObj κ δ α) (hr : Spec.Usable SR r.store) (hh : Spec.ResultsApart hash r.store) (k L : Nat)
    (m m' : Str) (ha : Spec.AskBoth "recall" k "hit_rate" k L m m') :
    Spec.OutcomeAtMost (evaluate F other SQ SR hash sched o (.obj s) (.obj r) [m]).2
      (evaluate F other SQ SR hash sched o (.obj s) (.obj r) [m']).2 := by
  have e := metricOf_asks (ι := ι) F other "recall" k L .recall (Spec.BinaryMetric.plain .recall)
    (Spec.BinaryMetric.switch .recall) m ha.1
  have e' := metricOf_asks (ι := ι) F other "hit_rate" k L .hitRate (Spec.BinaryMetric.plain .hitRate)
    (Spec.BinaryMetric.switch .hitRate) m' ha.2
  exact evaluate_ordered F other SQ SR hash sched o ho hstd s r m m' _ _ (e.trans rfl) (e'.trans rfl)
    (fun i => recall_le_hitRate _ _ (run_row_nodup SR o hash s r hr hh i) k _)

/-- **C154** (deeper cutoffs): the mean (and each per-query score) of hits, hit_rate, recall, mrr and map never goes down
when the cutoff is raised or dropped. -/
theorem C154_deeper (F : Fn α) (other : Str → Except Err α) (SQ : ArgSort Int) (SR : ArgSort α)
    (hash : δ → ι) (sched : Nat → List Nat) (o : Opts) (ho : o.save = true ∨ o.returnMean = true) (hstd : o.returnStd = false)
    (s : Store κ δ Int) (r : RunObj κ δ α) (M : Spec.BinaryMetric) (hM : Spec.Growing M) (k k' L : Nat)
    (hk : Spec.Deeper k k') (m m' : Str) (ha : Spec.AskBoth M.name k M.name k' L m m') :
    Spec.OutcomeAtMost (evaluate F other SQ SR hash sched o (.obj s) (.obj r) [m]).2
      (evaluate F other SQ SR hash sched o (.obj s) (.obj r) [m']).2 := by
  have e := metricOf_asks (ι := ι) F other M.name k L M.code M.plain M.switch m ha.1
  have e' := metricOf_asks (ι := ι) F other M.name k' L M.code M.plain M.switch m' ha.2
  cases hM with
  | hits =>
    exact evaluate_ordered F other SQ SR hash sched o ho hstd s r m m' _ _ (e.trans rfl) (e'.trans rfl)
      (fun i => (C24_monotone_in_k _ _ _ hk).1)
  | hitRate =>
    exact evaluate_ordered F other SQ SR hash sched o ho hstd s r m m' _ _ (e.trans rfl) (e'.trans rfl)
      (fun i => (C24_monotone_in_k _ _ _ hk).2.1)
  | recall =>
    exact evaluate_ordered F other SQ SR hash sched o ho hstd s r m m' _ _ (e.trans rfl) (e'.trans rfl)
      (fun i => (C24_monotone_in_k _ _ _ hk).2.2.1)
  | mrr =>
    exact evaluate_ordered F other SQ SR hash sched o ho hstd s r m m' _ _ (e.trans rfl) (e'.trans rfl)
      (fun i => (C24_monotone_in_k _ _ _ hk).2.2.2.1)
  | map =>
    exact evaluate_ordered F other SQ SR hash sched o ho hstd s r m m' _ _ (e.trans rfl) (e'.trans rfl)
      (fun i => (C24_monotone_in_k _ _ _ hk).2.2.2.2)

/-- **C154** (deeper cutoffs, dcg): the same for `dcg`, and for `dcg_burges` if `2**x ≥ 1` for `x ≥ 0` and `2**0 = 1`;
the discounts are positive. -/
theorem C154_deeper_dcg (F : Fn α) (other : Str → Except Err α) (SQ : ArgSort Int) (SR : ArgSort α)
    (hash : δ → ι) (sched : Nat → List Nat) (o : Opts) (ho : o.save = true ∨ o.returnMean = true) (hstd : o.returnStd = false)
    (s : Store κ δ Int) (r : RunObj κ δ α) (hd : ∀ i, 0 < F.log2Disc i) (hp0 : F.pow2 0 = 1)
    (hp : ∀ x, 0 ≤ x → 1 ≤ F.pow2 x) (k k' L : Nat) (hk : Spec.Deeper k k') (m m' : Str)
    (ha : Spec.AskBoth "dcg" k "dcg" k' L m m' ∨ Spec.AskBoth "dcg_burges" k "dcg_burges" k' L m m') :
    Spec.OutcomeAtMost (evaluate F other SQ SR hash sched o (.obj s) (.obj r) [m]).2
      (evaluate F other SQ SR hash sched o (.obj s) (.obj r) [m']).2 := by
  have hL : (0 : α) ≤ (((L : Int) : α)) := by simp
  rcases ha with ha | ha
  · have e := metricOf_asks (ι := ι) F other "dcg" k L .dcg (Spec.GradedMetric.plain .dcg) (Spec.GradedMetric.switch .dcg) m ha.1
    have e' := metricOf_asks (ι := ι) F other "dcg" k' L .dcg (Spec.GradedMetric.plain .dcg) (Spec.GradedMetric.switch .dcg) m' ha.2
    exact evaluate_ordered F other SQ SR hash sched o ho hstd s r m m' _ _ (e.trans rfl) (e'.trans rfl)
      (fun i => C24_monotone_in_k_dcg id _ rfl (fun _ h => h) hd _ _ _ hL hk)
  · have e := metricOf_asks (ι := ι) F other "dcg_burges" k L .dcgBurges (Spec.GradedMetric.plain .dcgBurges)
      (Spec.GradedMetric.switch .dcgBurges) m ha.1
    have e' := metricOf_asks (ι := ι) F other "dcg_burges" k' L .dcgBurges (Spec.GradedMetric.plain .dcgBurges)
      (Spec.GradedMetric.switch .dcgBurges) m' ha.2
    exact evaluate_ordered F other SQ SR hash sched o ho hstd s r m m' _ _ (e.trans rfl) (e'.trans rfl)
      (fun i => C24_monotone_in_k_dcg (fun x => F.pow2 x - 1) _ (by rw [hp0]; exact sub_self _)
        (fun x h => sub_nonneg.2 (hp x h)) hd _ _ _ hL hk)

/-- precision may go down with the cutoff, and so may f1 and ndcg; map and mrr are not ordered -/
theorem C154_exceptions :
    (∃ q run : Rows Nat ℚ, precision q run 2 1 < precision q run 1 1) ∧
    (∃ q run : Rows Nat ℚ, f1 q run 2 1 < f1 q run 1 1) ∧
    (∃ q run : Rows Nat ℚ, ndcgCore id (fun i => (i : ℚ) + 1) q run 2 1 < ndcgCore id (fun i => (i : ℚ) + 1) q run 1 1) ∧
    (∃ q run : Rows Nat ℚ, averagePrecision q run 0 1 < reciprocalRank q run 0 1) ∧
    (∃ q run : Rows Nat ℚ, precision q run 2 1 < recall q run 2 1) ∧
    (∃ q run : Rows Nat ℚ, recall q run 1 1 < precision q run 1 1) :=
  ⟨⟨[(1, 1)], [(1, 5), (2, 4)], by decide +kernel⟩, ⟨[(1, 1)], [(1, 5), (2, 4)], by decide +kernel⟩,
    ⟨[(1, 1), (2, 1)], [(1, 5), (3, 4)], by decide +kernel⟩, ⟨[(1, 1), (2, 1)], [(1, 5)], by decide +kernel⟩,
    ⟨[(1, 1)], [(1, 5), (2, 4)], by decide +kernel⟩, ⟨[(1, 1), (2, 1)], [(1, 5)], by decide +kernel⟩⟩

/-- non-vacuity: strings, cutoffs, and the real functions -/
example : Spec.Below .map 10 .recall 10 ∧ Spec.AskBoth (Spec.BinaryMetric.name .map) 10 (Spec.BinaryMetric.name .recall) 10 1
      "map@10".toList "recall@10".toList ∧
    Spec.Growing .mrr ∧ Spec.Deeper 5 10 ∧ Spec.Deeper 5 0 ∧ ¬ Spec.Deeper 10 5 ∧ ¬ Spec.Deeper 0 5 ∧
    Spec.AskBoth (Spec.BinaryMetric.name .mrr) 5 (Spec.BinaryMetric.name .mrr) 0 1 "mrr@5".toList "mrr".toList ∧
    Spec.Usable (.stable ℚ) exRunObj.store ∧ Spec.ResultsApart (fun n : Nat => n) exRunObj.store ∧
    (∀ i, 0 < log2Disc i) ∧ (2 : ℝ) ^ (0 : ℝ) = 1 ∧ ∀ x : ℝ, 0 ≤ x → 1 ≤ (2 : ℝ) ^ x :=
  ⟨.map 10, ⟨.inr (.inl ⟨by decide +kernel, rfl⟩), .inr (.inl ⟨by decide +kernel, rfl⟩)⟩, .mrr, .inr ⟨by decide, by decide⟩, .inl rfl,
    by unfold Spec.Deeper; decide, by unfold Spec.Deeper; decide,
    ⟨.inr (.inl ⟨by decide +kernel, rfl⟩), .inl ⟨rfl, rfl, rfl⟩⟩, exRunObj_usable, fun _ _ _ _ _ _ h => h,
    log2Disc_pos, Real.rpow_zero 2, fun x hx => Real.one_le_rpow (by norm_num) hx⟩

end Ranx
