import Verif.Props.EndToEnd

/-!
# C140: a cutoff that cuts nothing changes nothing
-/

set_option linter.unusedSectionVars false

namespace Ranx
open Dict Eval Metrics Py Store

section kernels
variable {ι α : Type*} [LinearOrder ι] [LinearOrder α] [Field α]

theorem fixK_deep {k : Nat} {run : Rows ι α} (h : run.length ≤ k) : fixK k run = fixK 0 run := by
  unfold fixK
  rw [if_pos (Or.inl rfl)]
  split
  · rfl
  · omega

theorem hits_deep (q run : Rows ι α) (k : Nat) (lvl : α) (h : run.length ≤ k) : hits q run k lvl = hits q run 0 lvl := by
  unfold hits
  simp only [fixK_deep h]

theorem hitRate_deep (q run : Rows ι α) (k : Nat) (lvl : α) (h : run.length ≤ k) :
    hitRate q run k lvl = hitRate q run 0 lvl := by
  unfold hitRate
  simp only [fixK_deep h]

theorem reciprocalRank_deep (q run : Rows ι α) (k : Nat) (lvl : α) (h : run.length ≤ k) :
    reciprocalRank q run k lvl = reciprocalRank q run 0 lvl := by
  unfold reciprocalRank
  simp only [fixK_deep h]

theorem averagePrecision_deep (q run : Rows ι α) (k : Nat) (lvl : α) (h : run.length ≤ k) :
    averagePrecision q run k lvl = averagePrecision q run 0 lvl := by
  unfold averagePrecision
  simp only [fixK_deep h]

theorem dcgCore_deep (gain : α → α) (disc : Nat → α) (q run : Rows ι α) (k : Nat) (lvl : α) (h : run.length ≤ k) :
    dcgCore gain disc q run k lvl = dcgCore gain disc q run 0 lvl := by
  unfold dcgCore
  simp only [fixK_deep h]

theorem ndcgCore_deep (gain : α → α) (disc : Nat → α) (q run : Rows ι α) (k : Nat) (lvl : α) (h : run.length ≤ k)
    (hq : q.length ≤ k) : ndcgCore gain disc q run k lvl = ndcgCore gain disc q run 0 lvl := by
  unfold ndcgCore idcgCore
  simp only [dcgCore_deep gain disc q run k lvl h, dcgCore_deep gain disc q q k lvl hq]

theorem deep_hits_nil (q : Rows ι α) (k : Nat) (lvl : α) : hits q [] k lvl = 0 := by
  unfold hits
  simp

theorem recall_deep (q run : Rows ι α) (k : Nat) (lvl : α) (h : run.length ≤ k) :
    recall q run k lvl = recall q run 0 lvl := by
  unfold recall
  simp only
  split
  · rfl
  have e : (if (0 : Nat) ≠ 0 then 0 else run.length) = run.length := if_neg (by simp)
  rw [e]
  by_cases hk : k = 0
  · subst hk
    have : run.length = 0 := by omega
    rw [this]
    rfl
  · rw [if_pos hk, if_neg hk]
    by_cases hr : run.length = 0
    · rw [if_pos hr, List.length_eq_zero_iff.1 hr, deep_hits_nil, zero_div]
    · rw [if_neg hr, hits_deep _ _ k lvl h, hits_deep _ _ run.length lvl le_rfl]

end kernels

namespace Spec

/-- the metrics on which a cutoff beyond the results has no effect; `true`: if it is also beyond the judgements -/
inductive DeepMetric : String → Bool → Prop
  | hits : DeepMetric "hits" false
  | hitRate : DeepMetric "hit_rate" false
  | recall : DeepMetric "recall" false
  | mrr : DeepMetric "mrr" false
  | map : DeepMetric "map" false
  | dcg : DeepMetric "dcg" false
  | dcgBurges : DeepMetric "dcg_burges" false
  | ndcg : DeepMetric "ndcg" true
  | ndcgBurges : DeepMetric "ndcg_burges" true

/-- no query has more than `k` docs -/
def NoMoreThan {κ δ β : Type*} (k : Nat) (s : Store κ δ β) : Prop := ∀ l ∈ s.data.values, l.length ≤ k

end Spec

variable {κ δ ι α : Type*} [LinearOrder κ] [DecidableEq δ] [LinearOrder ι] [LinearOrder α] [Field α] [IsStrictOrderedRing α]

/-- the kernels agree on rows that short -/
theorem deep_kernel (F : Fn α) (other : Str → Except Err α) {name : String} {both : Bool} (hm : Spec.DeepMetric name both)
    (k L : Nat) (m m' : Str) (ha : Spec.Asks name k L m) (ha' : Spec.Asks name 0 L m') :
    ∃ f f' : Kernel ι α, metricOf F other m = .ok f ∧ metricOf F other m' = .ok f' ∧
      ∀ q run, run.length ≤ k → (both = true → q.length ≤ k) → f q run = f' q run := by
  have hp : ∀ name ∈ ["hits", "hit_rate", "precision", "recall", "f1", "r-precision", "mrr",
    "map", "dcg", "dcg_burges", "ndcg", "ndcg_burges", "bpref"], Spec.PlainName name.toList := plain_names
  cases hm with
  | hits =>
    have hs : metricSwitch "hits".toList = .ok .hits := by decide +kernel
    rw [metricOf_asks F other _ k L _ (hp _ (by simp)) hs m ha, metricOf_asks F other _ 0 L _ (hp _ (by simp)) hs m' ha']
    refine ⟨_, _, rfl, rfl, fun q run h _ => ?_⟩
    exact congrArg (fun x => Except.ok (Num.val x)) (hits_deep q run k _ h)
  | hitRate =>
    have hs : metricSwitch "hit_rate".toList = .ok .hitRate := by decide +kernel
    rw [metricOf_asks F other _ k L _ (hp _ (by simp)) hs m ha, metricOf_asks F other _ 0 L _ (hp _ (by simp)) hs m' ha']
    refine ⟨_, _, rfl, rfl, fun q run h _ => ?_⟩
    exact congrArg (fun x => Except.ok (Num.val x)) (hitRate_deep q run k _ h)
  | recall =>
    have hs : metricSwitch "recall".toList = .ok .recall := by decide +kernel
    rw [metricOf_asks F other _ k L _ (hp _ (by simp)) hs m ha, metricOf_asks F other _ 0 L _ (hp _ (by simp)) hs m' ha']
    refine ⟨_, _, rfl, rfl, fun q run h _ => ?_⟩
    exact congrArg (fun x => Except.ok (Num.val x)) (recall_deep q run k _ h)
  | mrr =>
    have hs : metricSwitch "mrr".toList = .ok .mrr := by decide +kernel
    rw [metricOf_asks F other _ k L _ (hp _ (by simp)) hs m ha, metricOf_asks F other _ 0 L _ (hp _ (by simp)) hs m' ha']
    refine ⟨_, _, rfl, rfl, fun q run h _ => ?_⟩
    exact congrArg (fun x => Except.ok (Num.val x)) (reciprocalRank_deep q run k _ h)
  | map =>
    have hs : metricSwitch "map".toList = .ok .map := by decide +kernel
    rw [metricOf_asks F other _ k L _ (hp _ (by simp)) hs m ha, metricOf_asks F other _ 0 L _ (hp _ (by simp)) hs m' ha']
    refine ⟨_, _, rfl, rfl, fun q run h _ => ?_⟩
    exact congrArg (fun x => Except.ok (Num.val x)) (averagePrecision_deep q run k _ h)
  | dcg =>
    have hs : metricSwitch "dcg".toList = .ok .dcg := by decide +kernel
    rw [metricOf_asks F other _ k L _ (hp _ (by simp)) hs m ha, metricOf_asks F other _ 0 L _ (hp _ (by simp)) hs m' ha']
    refine ⟨_, _, rfl, rfl, fun q run h _ => ?_⟩
    exact congrArg (fun x => Except.ok (Num.val x)) (dcgCore_deep _ _ q run k _ h)
  | dcgBurges =>
    have hs : metricSwitch "dcg_burges".toList = .ok .dcgBurges := by decide +kernel
    rw [metricOf_asks F other _ k L _ (hp _ (by simp)) hs m ha, metricOf_asks F other _ 0 L _ (hp _ (by simp)) hs m' ha']
    refine ⟨_, _, rfl, rfl, fun q run h _ => ?_⟩
    exact congrArg (fun x => Except.ok (Num.val x)) (dcgCore_deep _ _ q run k _ h)
  | ndcg =>
    have hs : metricSwitch "ndcg".toList = .ok .ndcg := by decide +kernel
    rw [metricOf_asks F other _ k L _ (hp _ (by simp)) hs m ha, metricOf_asks F other _ 0 L _ (hp _ (by simp)) hs m' ha']
    refine ⟨_, _, rfl, rfl, fun q run h hq => ?_⟩
    exact congrArg (fun x => Except.ok (Num.val x)) (ndcgCore_deep _ _ q run k _ h (hq rfl))
  | ndcgBurges =>
    have hs : metricSwitch "ndcg_burges".toList = .ok .ndcgBurges := by decide +kernel
    rw [metricOf_asks F other _ k L _ (hp _ (by simp)) hs m ha, metricOf_asks F other _ 0 L _ (hp _ (by simp)) hs m' ha']
    refine ⟨_, _, rfl, rfl, fun q run h hq => ?_⟩
    exact congrArg (fun x => Except.ok (Num.val x)) (ndcgCore_deep _ _ q run k _ h (hq rfl))

/-- a single metric's outcome depends on the metric only through its values on the arrays -/
theorem evaluate_single_congr (F : Fn α) (other : Str → Except Err α) (SQ : ArgSort Int) (SR : ArgSort α)
    (hash : δ → ι) (sched : Nat → List Nat) (o : Opts) (ho : o.save = true ∨ o.returnMean = true)
    (s : Store κ δ Int) (r : RunObj κ δ α) (m m' : Str)
    (f f' : Kernel ι α) (hf : metricOf F other m = .ok f) (hf' : metricOf F other m' = .ok f')
    (h : ∀ i : Nat, f (((Store.rows hash (fun z : Int => (z : α)) (s.ensureSorted SQ).data)[i]?).getD [])
        (((Store.rows hash id ((comparable SR o s r).ensureSorted SR).data)[i]?).getD []) =
      f' (((Store.rows hash (fun z : Int => (z : α)) (s.ensureSorted SQ).data)[i]?).getD [])
        (((Store.rows hash id ((comparable SR o s r).ensureSorted SR).data)[i]?).getD [])) :
    (evaluate F other SQ SR hash sched o (.obj s) (.obj r) [m]).2 =
      (evaluate F other SQ SR hash sched o (.obj s) (.obj r) [m']).2 := by
  rw [evaluate_obj, evaluate_obj]
  split
  swap
  · rfl
  have hpar : parallel f (sched 0) (Store.rows hash (fun z : Int => (z : α)) (s.ensureSorted SQ).data)
        (Store.rows hash id ((comparable SR o s r).ensureSorted SR).data) =
      parallel f' (sched 0) (Store.rows hash (fun z : Int => (z : α)) (s.ensureSorted SQ).data)
        (Store.rows hash id ((comparable SR o s r).ensureSorted SR).data) := by
    unfold parallel
    rw [funext h]
  have hlast : ∀ x : Str, lastM other o true x = x := by
    intro x
    unfold lastM
    rw [if_pos]
    rcases ho with ho | ho <;> simp [ho]
  have hout : ∀ (x : Str) (l : List (Num α)), outOf F other o true (Dict.set [] x l) [x] =
      .ok (.single (present F o (o.returnMean && o.returnStd) l)) := by
    intro x l
    unfold outOf
    simp only [hlast]
    simp [Dict.set, Dict.get?]
  have e : ∀ x : Str, [x].zipIdx = [(x, 0)] := fun _ => rfl
  rw [e, e]
  simp only [scoreAll, hf, hf', hpar]
  cases parallel f' (sched 0) (Store.rows hash (fun z : Int => (z : α)) (s.ensureSorted SQ).data)
        (Store.rows hash id ((comparable SR o s r).ensureSorted SR).data) with
  | error e => rfl
  | ok l =>
    simp only
    rw [hout, hout]

theorem rows_short {β : Type*} (hash : δ → ι) (cast : β → α) (k : Nat) (d : Dict κ (Dict δ β))
    (h : ∀ l ∈ d.values, l.length ≤ k) (i : Nat) : (((Store.rows hash cast d)[i]?).getD []).length ≤ k := by
  unfold Store.rows
  rw [List.getElem?_map]
  cases hi : d.values[i]? with
  | none => exact Nat.zero_le _
  | some l =>
    simp only [Option.map_some, Option.getD_some, List.length_map]
    exact h l (List.mem_of_getElem? hi)

theorem short_iff {β : Type*} {k : Nat} {d : Dict κ (Dict δ β)} (hnd : NodupKeys d) :
    (∀ l ∈ d.values, l.length ≤ k) ↔ ∀ q l, d.get? q = some l → l.length ≤ k := by
  constructor
  · intro h q l hl
    exact h l (List.mem_map.2 ⟨_, mem_of_get? hl, rfl⟩)
  · intro h l hl
    obtain ⟨p, hp, rfl⟩ := List.mem_map.1 hl
    exact h p.1 p.2 (get?_of_mem hnd hp)

section
variable {β : Type*} [AddCommGroup β] [LinearOrder β] [IsOrderedAddMonoid β]

theorem sortAll_short (S : ArgSort β) (k : Nat) (d : Dict κ (Dict δ β)) (hw : Wf d)
    (h : ∀ q l, d.get? q = some l → l.length ≤ k) : ∀ l ∈ (Ranx.sortAll S d).values, l.length ≤ k := by
  refine (short_iff (nodupKeys_sortAll S hw.1)).2 (fun q l hl => ?_)
  rw [get?_sortAll S hw.1] at hl
  obtain ⟨l', hl', rfl⟩ := Option.map_eq_some_iff.1 hl
  rw [(sortDictByValue_perm S (hw.2 _ (mem_of_get? hl'))).length_eq]
  exact h q l' hl'

theorem ensureSorted_short (S : ArgSort β) (k : Nat) (s : Store κ δ β) (hw : Wf s.data)
    (h : Spec.NoMoreThan k s) : ∀ l ∈ (s.ensureSorted S).data.values, l.length ≤ k := by
  unfold Store.ensureSorted
  split
  · exact h
  · exact sortAll_short S k s.data hw ((short_iff hw.1).1 h)

end

theorem comparable_short (SR : ArgSort α) (o : Opts) (s : Store κ δ Int) (r : RunObj κ δ α) (hw : Wf r.store.data)
    (k : Nat) (h : Spec.NoMoreThan k r.store) : Spec.NoMoreThan k (comparable SR o s r) := by
  unfold comparable
  split
  · obtain ⟨d2, hw2, hg, e⟩ := makeComparable_spec SR r.store s.data.keys hw
    rw [e]
    refine sortAll_short SR k d2 hw2 (fun q l hl => ?_)
    rw [hg] at hl
    split at hl
    · cases hl
      cases hq : r.store.data.get? q with
      | none => exact Nat.zero_le _
      | some l' => exact (short_iff hw.1).1 h q l' hq
    · cases hl
  · exact h

/-- **C140**: let every query of the run have at most `k` results (and, for ndcg, at most `k` judgements). Then
`evaluate(qrels, run, "metric@k")` and `evaluate(qrels, run, "metric")` have the same outcome, for hits, hit_rate,
recall, mrr, map, dcg, dcg_burges, ndcg, ndcg_burges, with or without a relevance level: the same mean, the same standard
deviation, the same per-query scores or the same exception. -/
theorem C140_deep_cutoff (F : Fn α) (other : Str → Except Err α) (SQ : ArgSort Int) (SR : ArgSort α)
    (hash : δ → ι) (sched : Nat → List Nat) (o : Opts) (ho : o.save = true ∨ o.returnMean = true)
    (s : Store κ δ Int) (r : RunObj κ δ α) (hs : Spec.Usable SQ s) (hr : Spec.Usable SR r.store)
    {name : String} {both : Bool} (hm : Spec.DeepMetric name both) (k L : Nat) (m m' : Str)
    (ha : Spec.Asks name k L m) (ha' : Spec.Asks name 0 L m')
    (hk : Spec.NoMoreThan k r.store) (hq : both = true → Spec.NoMoreThan k s) :
    (evaluate F other SQ SR hash sched o (.obj s) (.obj r) [m]).2 =
      (evaluate F other SQ SR hash sched o (.obj s) (.obj r) [m']).2 := by
  obtain ⟨f, f', hf, hf', hff⟩ := deep_kernel (ι := ι) F other hm k L m m' ha ha'
  refine evaluate_single_congr F other SQ SR hash sched o ho s r m m' f f' hf hf' (fun i => hff _ _ ?_ (fun hb => ?_))
  · refine rows_short hash id k _ ?_ i
    exact ensureSorted_short SR k _ (comparable_ok SR o s r hr.ok).1 (comparable_short SR o s r hr.ok.1 k hk)
  · refine rows_short hash _ k _ ?_ i
    exact ensureSorted_short SQ k s hs.ok.1 (hq hb)

/-- precision and f1 are different: they divide by `k` (C11), so `precision@k` is smaller than `precision` when the run
has fewer than `k` results; and ndcg compares with the best ranking of length `k`, so with more relevant docs than `k` the
cutoff matters even if the run has at most `k` results. -/
theorem C140_exceptions :
    ∃ (q run : Rows Nat ℚ) (k : Nat), run.length ≤ k ∧ precision q run k 1 < precision q run 0 1 ∧ f1 q run k 1 < f1 q run 0 1 ∧
      ∃ (q' run' : Rows Nat ℚ) (k' : Nat), run'.length ≤ k' ∧
        ndcgCore id (fun i => (i : ℚ) + 1) q' run' 0 1 < ndcgCore id (fun i => (i : ℚ) + 1) q' run' k' 1 :=
  ⟨[(1, 1)], [(1, 5)], 2, by decide, by decide +kernel, by decide +kernel, [(1, 1), (2, 1)], [(1, 5)], 1, by decide, by decide +kernel⟩

/-- non-vacuity: a run with up to two results per query, `map@2` -/
example : Spec.DeepMetric "map" false ∧ Spec.Asks "map" 10 1 "map@10".toList ∧ Spec.Asks "map" 0 1 "map".toList ∧
    Spec.NoMoreThan 10 exRunObj.store ∧ Spec.Usable (.stable Int) exQrelsObj ∧ Spec.Usable (.stable ℚ) exRunObj.store :=
  ⟨.map, Or.inr (Or.inl ⟨by decide +kernel, rfl⟩), Or.inl ⟨rfl, rfl, rfl⟩, by unfold Spec.NoMoreThan; decide, exQrelsObj_usable, exRunObj_usable⟩

end Ranx
