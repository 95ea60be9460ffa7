import Verif.Props.DeepCutoff

/-!
# C153: metrics that coincide

Identities between metrics that users rely on: at rank 1 many metrics are one; with at most one relevant doc per query
recall is hit rate and map is mrr; with 0/1 judgements the two dcg variants are one; at the break-even point precision,
recall, f1 and r-precision are one.
-/

set_option linter.unusedSectionVars false

namespace Ranx
open Dict Eval Metrics Py Store

section kernels
variable {ι α : Type*} [LinearOrder ι] [LinearOrder α] [Field α] [IsStrictOrderedRing α]

theorem precision_one (q run : Rows ι α) (lvl : α) : precision q run 1 lvl = hits q run 1 lvl := by
  rw [(C11_precision q run 1 lvl).1 one_ne_zero, hits_eq]
  simp

theorem hits_le_one (q run : Rows ι α) (lvl : α) : Spec.hits (Spec.Rel q lvl) (run.map Prod.fst) 1 ≤ 1 := by
  rw [hits_eq_relIn]
  refine (relIn_le _ _ _).trans ?_
  rw [top_length, if_neg one_ne_zero]
  exact min_le_left _ _

/-- at most one hit: hits is hit rate -/
theorem hits_hitRate (q run : Rows ι α) (k : Nat) (lvl : α)
    (h : Spec.hits (Spec.Rel q lvl) (run.map Prod.fst) k ≤ 1) : hits q run k lvl = hitRate q run k lvl := by
  rw [hits_eq]
  by_cases hx : ∃ x ∈ Spec.top k (run.map Prod.fst), Spec.Rel q lvl x
  · rw [(C10_hit_rate q run k lvl).1 hx]
    have := (hits_pos_iff (Spec.Rel q lvl) (run.map Prod.fst) k).2 hx
    have e : Spec.hits (Spec.Rel q lvl) (run.map Prod.fst) k = 1 := by omega
    rw [e, Nat.cast_one]
  · have hn : ∀ x ∈ Spec.top k (run.map Prod.fst), ¬ Spec.Rel q lvl x := fun x hm hr => hx ⟨x, hm, hr⟩
    rw [(C10_hit_rate q run k lvl).2 hn, (hits_eq_zero_iff _ _ _).2 hn, Nat.cast_zero]

theorem mrr_hitRate (q run : Rows ι α) (lvl : α) : reciprocalRank q run 1 lvl = hitRate q run 1 lvl := by
  rcases C15_reciprocal_rank q run 1 lvl with ⟨r, x, hx, hr, -, e⟩ | ⟨hn, e⟩
  · have hl : r < (Spec.top 1 (ids run)).length := (List.getElem?_eq_some_iff.1 hx).1
    rw [top_length, if_neg one_ne_zero] at hl
    have h0 : r = 0 := by have := min_le_left 1 (ids run).length; omega
    subst h0
    rw [(C10_hit_rate q run 1 lvl).1 ⟨x, List.mem_of_getElem? hx, hr⟩, e]
    simp
  · rw [(C10_hit_rate q run 1 lvl).2 hn, e]

theorem recall_single (q run : Rows ι α) (k : Nat) (lvl : α) (h1 : Spec.numRel q lvl ≤ 1) :
    recall q run k lvl = hits q run k lvl := by
  by_cases h0 : Spec.numRel q lvl = 0
  · rw [(C12_recall q run k lvl).2 h0, hits_eq,
      (hits_eq_zero_iff _ _ _).2 (fun x _ => not_rel_of_numRel_zero h0 x), Nat.cast_zero]
  · rw [(C12_recall q run k lvl).1 h0, hits_eq, (by omega : Spec.numRel q lvl = 1)]
    unfold ids
    simp

theorem rPrecision_single (q run : Rows ι α) (lvl : α) (h1 : Spec.numRel q lvl ≤ 1) :
    rPrecision q run lvl = precision q run 1 lvl := by
  rw [rPrecision_eq]
  by_cases h0 : Spec.numRel q lvl = 0
  · rw [if_pos h0, precision_one, hits_eq,
      (hits_eq_zero_iff _ _ _).2 (fun x _ => not_rel_of_numRel_zero h0 x), Nat.cast_zero]
  · rw [if_neg h0, (by omega : Spec.numRel q lvl = 1)]

/-- at most one relevant doc, results distinct: average precision is the reciprocal rank -/
theorem map_single (q run : Rows ι α) (k : Nat) (lvl : α) (h1 : Spec.numRel q lvl ≤ 1) (hrun : (ids run).Nodup) :
    averagePrecision q run k lvl = reciprocalRank q run k lvl := by
  classical
  by_cases h0 : Spec.numRel q lvl = 0
  · rw [(C16_average_precision q run k lvl).2 h0]
    rcases C15_reciprocal_rank q run k lvl with ⟨r, x, hx, hr, -, e⟩ | ⟨hn, e⟩
    · exact absurd hr (not_rel_of_numRel_zero h0 x)
    · exact e.symm
  have hR : Spec.numRel q lvl = 1 := by omega
  rw [(C16_average_precision q run k lvl).1 h0, hR]
  unfold Spec.averagePrecision
  rw [Nat.cast_one, div_one]
  rcases C15_reciprocal_rank q run k lvl with ⟨r, x, hx, hr, hbefore, e⟩ | ⟨hn, e⟩
  · rw [e]
    have hl : r < (Spec.top k (ids run)).length := (List.getElem?_eq_some_iff.1 hx).1
    have hx' : (ids run)[r]? = some x := by
      have := take_top k (r + 1) (ids run) (by omega)
      have h2 : ((Spec.top k (ids run)).take (r + 1))[r]? = some x := by
        rw [List.getElem?_take_of_lt (by omega)]; exact hx
      rw [this, List.getElem?_take_of_lt (by omega)] at h2
      exact h2
    have hone : ∀ n, Spec.relIn (Spec.Rel q lvl) (ids run) n ≤ 1 := by
      intro n
      have := relIn_le_numRel q lvl (ids run) hrun n
      omega
    have hat : Spec.relIn (Spec.Rel q lvl) (ids run) (r + 1) = 1 := by
      refine le_antisymm (hone _) ?_
      rw [relIn_eq_countP]
      refine List.countP_pos_iff.2 ⟨x, ?_, by simpa using hr⟩
      refine List.mem_of_getElem? (i := r) ?_
      rw [List.getElem?_take_of_lt (by omega)]
      exact hx'
    rw [Finset.sum_eq_single_of_mem r (Finset.mem_range.2 hl)]
    · rw [if_pos ⟨x, hx, hr⟩, hat, Nat.cast_one]
    · intro b hb hne
      rw [if_neg]
      rintro ⟨y, hy, hry⟩
      rcases lt_or_gt_of_ne hne with hlt | hgt
      · exact hbefore b hlt y hy hry
      · have hyl := Finset.mem_range.1 hb
        have hb2 : Spec.relIn (Spec.Rel q lvl) (ids run) (b + 1) ≤ 1 := hone _
        rw [relIn_eq_countP, List.take_succ_eq_append_getElem (by
            have := top_length_le k (ids run); omega), List.countP_append] at hb2
        have h3 : 0 < ((ids run).take b).countP (fun x => decide (Spec.Rel q lvl x)) := by
          refine List.countP_pos_iff.2 ⟨x, ?_, by simpa using hr⟩
          refine List.mem_of_getElem? (i := r) ?_
          rw [List.getElem?_take_of_lt (by omega)]
          exact hx'
        have hy' : (ids run)[b]? = some y := by
          have := take_top k (b + 1) (ids run) (by omega)
          have h2 : ((Spec.top k (ids run)).take (b + 1))[b]? = some y := by
            rw [List.getElem?_take_of_lt (by omega)]; exact hy
          rw [this, List.getElem?_take_of_lt (by omega)] at h2
          exact h2
        have hge : (ids run)[b]'(by have := top_length_le k (ids run); omega) = y := by
          have := List.getElem?_eq_some_iff.1 hy'
          exact this.2
        rw [hge] at hb2
        have h4 : [y].countP (fun x => decide (Spec.Rel q lvl x)) = 1 := by simp [hry]
        omega
  · rw [e]
    refine Finset.sum_eq_zero (fun i _ => ?_)
    rw [if_neg]
    rintro ⟨x, hx, hr⟩
    exact hn x (List.mem_of_getElem? hx) hr

/-- R relevant docs: precision@R = recall@R -/
theorem breakEven (q run : Rows ι α) (R : Nat) (hR : R ≠ 0) (lvl : α) (h : Spec.numRel q lvl = R ∨ Spec.numRel q lvl = 0) :
    recall q run R lvl = precision q run R lvl ∧ f1 q run R lvl = precision q run R lvl ∧
      rPrecision q run lvl = precision q run R lvl := by
  have hp := (C11_precision q run R lvl).1 hR
  have hrec : recall q run R lvl = precision q run R lvl := by
    rw [hp]
    rcases h with h | h
    · rw [(C12_recall q run R lvl).1 (by omega), h]
    · rw [(C12_recall q run R lvl).2 h, (hits_eq_zero_iff _ _ _).2 (fun x _ => not_rel_of_numRel_zero h x)]
      simp
  refine ⟨hrec, ?_, ?_⟩
  · rw [f1_eq, hrec]
    by_cases h0 : precision q run R lvl = 0
    · rw [h0]; simp
    · have h2 : precision q run R lvl + precision q run R lvl ≠ 0 := by
        rw [← two_mul]; exact mul_ne_zero two_ne_zero h0
      rw [if_neg h2, ← two_mul, ← mul_div_assoc]
      rw [div_eq_iff (mul_ne_zero two_ne_zero h0)]
      ring
  · rw [rPrecision_eq]
    rcases h with h | h
    · rw [if_neg (by omega), h]
    · rw [if_pos h, hp, (hits_eq_zero_iff _ _ _).2 (fun x _ => not_rel_of_numRel_zero h x)]
      simp

/-- 0/1 grades: the two gains are the same -/
theorem dcgCore_gain (gain gain' : α → α) (disc : Nat → α) (q run : Rows ι α) (k : Nat) (lvl : α)
    (h : ∀ x : α, (x = 0 ∨ ∃ p ∈ q, p.2 = x ∧ lvl ≤ x) → gain x = gain' x) :
    dcgCore gain disc q run k lvl = dcgCore gain' disc q run k lvl := by
  unfold dcgCore
  simp only
  split
  · rfl
  refine congrArg List.sum (List.map_congr_left (fun wi hwi => ?_))
  have hw : wi.1 ∈ weightedHitList (cleanQrels q lvl) run (fixK k run) := (List.of_mem_zip (a := wi.1) (b := wi.2) hwi).1
  unfold weightedHitList at hw
  obtain ⟨r, -, hr⟩ := List.mem_map.1 hw
  have : gain wi.1 = gain' wi.1 := by
    refine h _ ?_
    rw [← hr, look_eq_scan]
    cases hsc : scan (cleanQrels q lvl) r.1 with
    | none => exact .inl rfl
    | some v =>
      have hm := mem_of_scan hsc
      unfold cleanQrels at hm
      obtain ⟨hm, hd⟩ := List.mem_filter.1 hm
      exact .inr ⟨_, hm, rfl, by simpa using hd⟩
  rw [this]

theorem ndcgCore_gain (gain gain' : α → α) (disc : Nat → α) (q run : Rows ι α) (k : Nat) (lvl : α)
    (h : ∀ x : α, (x = 0 ∨ ∃ p ∈ q, p.2 = x ∧ lvl ≤ x) → gain x = gain' x) :
    ndcgCore gain disc q run k lvl = ndcgCore gain' disc q run k lvl := by
  unfold ndcgCore idcgCore
  simp only [dcgCore_gain gain gain' disc q run k lvl h, dcgCore_gain gain gain' disc q q k lvl h]

theorem grade_binary {q : Rows ι α} (hb : ∀ p ∈ q, p.2 ≤ 1) (x : ι) [Decidable (Spec.Rel q 1 x)] :
    gradeFn q 1 x = if Spec.Rel q 1 x then 1 else 0 := by
  by_cases hr : Spec.Rel q 1 x
  · rw [if_pos hr]
    obtain ⟨h1, h2⟩ := gradeFn_of_rel hr
    exact le_antisymm (hb _ h1) h2
  · rw [if_neg hr, gradeFn_of_not_rel hr]

/-- 0/1 judgements: dcg@1 is hits@1 -/
theorem dcgCore_one (disc : Nat → α) (hd : disc 0 = 1) (q run : Rows ι α) (hb : ∀ p ∈ q, p.2 ≤ 1) :
    dcgCore id disc q run 1 1 = hits q run 1 1 := by
  classical
  rw [dcgCore_eq id rfl, hits_eq, hits_eq_countP]
  unfold Spec.dcg Spec.top
  rw [if_neg one_ne_zero]
  cases hrun : run.map Prod.fst with
  | nil => simp
  | cons x t =>
    simp only [List.take_succ_cons, List.take_zero, List.length_singleton, Finset.sum_range_one, Spec.gainAt,
      List.getElem?_cons_zero, Option.map_some, Option.getD_some, id, hd, div_one, List.countP_singleton]
    rw [grade_binary hb]
    by_cases hr : Spec.Rel q 1 x <;> simp [hr]

/-- 0/1 judgements, best first: ndcg@1 is hits@1 -/
theorem ndcgCore_one (disc : Nat → α) (hd : disc 0 = 1) (q run : Rows ι α) (hb : ∀ p ∈ q, p.2 ≤ 1)
    (hs : q.Pairwise (fun a b => b.2 ≤ a.2)) : ndcgCore id disc q run 1 1 = hits q run 1 1 := by
  classical
  unfold ndcgCore idcgCore
  simp only [dcgCore_one disc hd _ _ hb]
  by_cases h0 : Spec.numRel q (1 : α) = 0
  · have : ∀ r : Rows ι α, hits q r 1 1 = 0 := by
      intro r
      rw [hits_eq, (hits_eq_zero_iff _ _ _).2 (fun x _ => not_rel_of_numRel_zero h0 x), Nat.cast_zero]
    rw [this, this, if_pos rfl, zero_div]
  · have h1 : hits q q 1 1 = 1 := by
      cases q with
      | nil => exact absurd (by rw [numRel_eq]; rfl) h0
      | cons p t =>
        have hp : (1 : α) ≤ p.2 := by
          rw [numRel_eq] at h0
          obtain ⟨x, hx⟩ := List.exists_mem_of_length_pos (Nat.pos_of_ne_zero h0)
          unfold cleanQrels at hx
          obtain ⟨hm, hl⟩ := List.mem_filter.1 hx
          have hl : (1 : α) ≤ x.2 := by simpa using hl
          rcases List.mem_cons.1 hm with rfl | hm
          · exact hl
          · exact hl.trans ((List.pairwise_cons.1 hs).1 x hm)
        rw [hits_eq, hits_eq_countP]
        unfold Spec.top
        rw [if_neg one_ne_zero]
        have hr : Spec.Rel (p :: t) (1 : α) p.1 := ⟨p.2, List.mem_cons_self, hp⟩
        simp [List.countP_singleton, hr]
    rw [h1, if_neg one_ne_zero, div_one]

end kernels

/-! ### the conditions, on the objects -/

namespace Spec

/-- the number of docs of one query judged at the level -/
def relevant {δ : Type*} (L : Nat) (l : Dict δ Int) : Nat := (l.filter (fun p => decide ((L : Int) ≤ p.2))).length

/-- every query has at most one relevant doc at level `L` -/
def OneRelevant {κ δ : Type*} (L : Nat) (s : Store κ δ Int) : Prop := ∀ l ∈ s.data.values, relevant L l ≤ 1

/-- every query has `R` relevant docs at level `L`, or none -/
def AllRelevant {κ δ : Type*} (R L : Nat) (s : Store κ δ Int) : Prop :=
  ∀ l ∈ s.data.values, relevant L l = R ∨ relevant L l = 0

/-- no judgement is above 1 -/
def ZeroOne {κ δ : Type*} (s : Store κ δ Int) : Prop := ∀ l ∈ s.data.values, ∀ p ∈ l, p.2 ≤ 1

/-- no two docs of one query's results have the same hash -/
def ResultsApart {κ δ ι β : Type*} (hash : δ → ι) (r : Store κ δ β) : Prop :=
  ∀ l ∈ r.data.values, ∀ d ∈ l.keys, ∀ d' ∈ l.keys, hash d = hash d' → d = d'

/-- the metric strings `m` (of metric `name`, cutoff `k`) and `m'` (of `name'`, cutoff `k'`), both at level `L` -/
def AskBoth (name : String) (k : Nat) (name' : String) (k' L : Nat) (m m' : Str) : Prop :=
  Asks name k L m ∧ Asks name' k' L m'

end Spec

variable {κ δ ι α : Type*} [LinearOrder κ] [DecidableEq δ] [LinearOrder ι] [LinearOrder α] [Field α] [IsStrictOrderedRing α]

section
variable {β : Type*} [AddCommGroup β] [LinearOrder β] [IsOrderedAddMonoid β]

/-- sorting an object only rearranges each query's docs -/
theorem ensureSorted_values (S : ArgSort β) (s : Store κ δ β) (hw : Wf s.data) :
    ∀ l ∈ (s.ensureSorted S).data.values, ∃ l' ∈ s.data.values, l.Perm l' := by
  unfold Store.ensureSorted
  split
  · exact fun l hl => ⟨l, hl, List.Perm.refl _⟩
  intro l hl
  obtain ⟨p, hp, rfl⟩ := List.mem_map.1 hl
  have h := get?_of_mem (nodupKeys_sortAll S hw.1) (k := p.1) (v := p.2) hp
  rw [get?_sortAll S hw.1] at h
  obtain ⟨l', hl', e⟩ := Option.map_eq_some_iff.1 h
  refine ⟨l', List.mem_map.2 ⟨_, mem_of_get? hl', rfl⟩, ?_⟩
  rw [← e]
  exact sortDictByValue_perm S (hw.2 _ (mem_of_get? hl'))

end

theorem comparable_values (SR : ArgSort α) (o : Opts) (s : Store κ δ Int) (r : RunObj κ δ α) (hw : Wf r.store.data) :
    ∀ l ∈ (comparable SR o s r).data.values, l = [] ∨ ∃ l' ∈ r.store.data.values, l.Perm l' := by
  unfold comparable
  split
  · obtain ⟨d2, hw2, hg, e⟩ := makeComparable_spec SR r.store s.data.keys hw
    rw [e]
    intro l hl
    obtain ⟨p, hp, rfl⟩ := List.mem_map.1 hl
    have h := get?_of_mem (nodupKeys_sortAll SR hw2.1) (k := p.1) (v := p.2) hp
    rw [get?_sortAll SR hw2.1] at h
    obtain ⟨l', hl', e⟩ := Option.map_eq_some_iff.1 h
    have hperm := sortDictByValue_perm SR (hw2.2 _ (mem_of_get? hl'))
    rw [e] at hperm
    rw [hg] at hl'
    split at hl'
    · cases hl'
      cases hq : r.store.data.get? p.1 with
      | none =>
        rw [hq] at hperm
        exact .inl (List.Perm.eq_nil hperm)
      | some l'' =>
        rw [hq] at hperm
        exact .inr ⟨l'', List.mem_map.2 ⟨_, mem_of_get? hq, rfl⟩, hperm⟩
    · cases hl'
  · exact fun l hl => .inr ⟨l, hl, List.Perm.refl _⟩

/-- an array of judgements: the rows of one query's judgements, best first, or nothing -/
theorem qrels_row (SQ : ArgSort Int) (hash : δ → ι) (s : Store κ δ Int) (hs : Spec.Usable SQ s) (i : Nat) :
    ((Store.rows hash (fun z : Int => (z : α)) (s.ensureSorted SQ).data)[i]?).getD [] = [] ∨
      ∃ l : Dict δ Int, ∃ l' ∈ s.data.values, l.Perm l' ∧ l.Pairwise (fun a b => b.2 ≤ a.2) ∧
        ((Store.rows hash (fun z : Int => (z : α)) (s.ensureSorted SQ).data)[i]?).getD [] =
          l.map (fun p => (hash p.1, ((p.2 : Int) : α))) := by
  unfold Store.rows
  rw [List.getElem?_map]
  cases hi : (s.ensureSorted SQ).data.values[i]? with
  | none => exact .inl rfl
  | some l =>
    have hm := List.mem_of_getElem? hi
    obtain ⟨l', hl', hp⟩ := ensureSorted_values SQ s hs.ok.1 l hm
    refine .inr ⟨l, l', hl', hp, ?_, rfl⟩
    obtain ⟨p, hpm, rfl⟩ := List.mem_map.1 hm
    have := (ensureSorted_facts SQ s hs.ok.1 hs.ok.2).2.2.2.1 p hpm
    unfold Spec.Ranked Dict.values at this
    rw [List.pairwise_map] at this
    exact this

/-- an array of results: the rows of one query's results, or nothing -/
theorem run_row (SR : ArgSort α) (o : Opts) (hash : δ → ι) (s : Store κ δ Int) (r : RunObj κ δ α)
    (hr : Spec.Usable SR r.store) (i : Nat) :
    ((Store.rows hash id ((comparable SR o s r).ensureSorted SR).data)[i]?).getD [] = [] ∨
      ∃ l : Dict δ α, ∃ l' ∈ r.store.data.values, l.Perm l' ∧
        ((Store.rows hash id ((comparable SR o s r).ensureSorted SR).data)[i]?).getD [] =
          l.map (fun p => (hash p.1, p.2)) := by
  unfold Store.rows
  rw [List.getElem?_map]
  cases hi : ((comparable SR o s r).ensureSorted SR).data.values[i]? with
  | none => exact .inl rfl
  | some l =>
    have hm := List.mem_of_getElem? hi
    obtain ⟨l', hl', hp⟩ := ensureSorted_values SR _ (comparable_ok SR o s r hr.ok).1 l hm
    rcases comparable_values SR o s r hr.ok.1 l' hl' with rfl | ⟨l'', hl'', hp'⟩
    · rw [hp.eq_nil]
      exact .inl rfl
    · exact .inr ⟨l, l'', hl'', hp.trans hp', rfl⟩

theorem numRel_row (hash : δ → ι) (L : Nat) (l : Dict δ Int) :
    Spec.numRel (l.map (fun p => (hash p.1, ((p.2 : Int) : α)))) (((L : Int) : α)) = Spec.relevant L l := by
  rw [numRel_eq]
  unfold cleanQrels Spec.relevant
  rw [List.filter_map, List.length_map]
  congr 1
  refine List.filter_congr (fun p _ => ?_)
  simp only [Function.comp]
  rw [decide_eq_decide]
  exact Int.cast_le

theorem relevant_perm {l l' : Dict δ Int} (L : Nat) (h : l.Perm l') : Spec.relevant L l = Spec.relevant L l' :=
  (h.filter _).length_eq

/-- no two results of a query hash alike: the ids of the array are distinct -/
theorem run_row_nodup (SR : ArgSort α) (o : Opts) (hash : δ → ι) (s : Store κ δ Int) (r : RunObj κ δ α)
    (hr : Spec.Usable SR r.store) (hh : Spec.ResultsApart hash r.store) (i : Nat) :
    (ids (((Store.rows hash id ((comparable SR o s r).ensureSorted SR).data)[i]?).getD [])).Nodup := by
  rcases run_row SR o hash s r hr i with e | ⟨l, l', hl', hp, e⟩
  · rw [e]; exact List.nodup_nil
  · rw [e]
    have : ids (l.map (fun p => (hash p.1, p.2))) = (l.map Prod.fst).map hash := by
      unfold ids; rw [List.map_map, List.map_map]; rfl
    rw [this, ((hp.map Prod.fst).map hash).nodup_iff]
    obtain ⟨p, hpm, rfl⟩ := List.mem_map.1 hl'
    refine (List.nodup_map_iff_inj_on (hr.ok.1.2 _ hpm)).2 (fun d hd d' hd' hdd => ?_)
    exact hh p.2 hl' d hd d' hd' hdd

/-- two metrics whose functions agree on the arrays at hand -/
theorem evaluate_coincide (F : Fn α) (other : Str → Except Err α) (SQ : ArgSort Int) (SR : ArgSort α)
    (hash : δ → ι) (sched : Nat → List Nat) (o : Opts) (ho : o.save = true ∨ o.returnMean = true)
    (s : Store κ δ Int) (r : RunObj κ δ α) (name name' : String) (k k' L : Nat) (m m' : Str)
    (ha : Spec.AskBoth name k name' k' L m m') (met met' : Metric)
    (hp : Spec.PlainName name.toList) (hp' : Spec.PlainName name'.toList)
    (hs : metricSwitch name.toList = .ok met) (hs' : metricSwitch name'.toList = .ok met')
    (f f' : Rows ι α → Rows ι α → α)
    (hk : kernel F met (.cutoff (k : Int)) (L : Int) = .ok (total f))
    (hk' : kernel F met' (.cutoff (k' : Int)) (L : Int) = .ok (total f'))
    (h : ∀ i : Nat, f (((Store.rows hash (fun z : Int => (z : α)) (s.ensureSorted SQ).data)[i]?).getD [])
        (((Store.rows hash id ((comparable SR o s r).ensureSorted SR).data)[i]?).getD []) =
      f' (((Store.rows hash (fun z : Int => (z : α)) (s.ensureSorted SQ).data)[i]?).getD [])
        (((Store.rows hash id ((comparable SR o s r).ensureSorted SR).data)[i]?).getD [])) :
    (evaluate F other SQ SR hash sched o (.obj s) (.obj r) [m]).2 =
      (evaluate F other SQ SR hash sched o (.obj s) (.obj r) [m']).2 :=
  evaluate_single_congr F other SQ SR hash sched o ho s r m m' (total f) (total f')
    ((metricOf_asks F other name k L met hp hs m ha.1).trans hk)
    ((metricOf_asks F other name' k' L met' hp' hs' m' ha.2).trans hk')
    (fun i => congrArg (fun x => Except.ok (Num.val x)) (h i))

namespace Spec

/-- the metrics that are one at cutoff 1 -/
inductive FirstResult : BinaryMetric → Prop
  | hits : FirstResult .hits
  | hitRate : FirstResult .hitRate
  | precision : FirstResult .precision
  | mrr : FirstResult .mrr

/-- pairs (metric, cutoff) that agree if every query has at most one relevant doc -/
inductive SingleRelevant (k : Nat) : BinaryMetric → Nat → BinaryMetric → Nat → Prop
  | recall : SingleRelevant k .recall k .hitRate k
  | hits : SingleRelevant k .hits k .hitRate k
  | map : SingleRelevant k .map k .mrr k
  | rPrecision : SingleRelevant k .rPrecision 0 .precision 1

/-- metrics that agree with precision@R if every query has `R` relevant docs or none -/
inductive AtBreakEven (R : Nat) : BinaryMetric → Nat → Prop
  | recall : AtBreakEven R .recall R
  | f1 : AtBreakEven R .f1 R
  | rPrecision : AtBreakEven R .rPrecision 0

end Spec

/-- **C153** (first result): `hits@1`, `hit_rate@1`, `precision@1` and `mrr@1`, at any relevance level, have the same
outcome in `evaluate`: the same mean, the same standard deviation, the same per-query scores or the same exception. -/
theorem C153_first_result (F : Fn α) (other : Str → Except Err α) (SQ : ArgSort Int) (SR : ArgSort α)
    (hash : δ → ι) (sched : Nat → List Nat) (o : Opts) (ho : o.save = true ∨ o.returnMean = true)
    (s : Store κ δ Int) (r : RunObj κ δ α) (M M' : Spec.BinaryMetric) (hM : Spec.FirstResult M)
    (hM' : Spec.FirstResult M') (L : Nat) (m m' : Str) (ha : Spec.AskBoth M.name 1 M'.name 1 L m m') :
    (evaluate F other SQ SR hash sched o (.obj s) (.obj r) [m]).2 =
      (evaluate F other SQ SR hash sched o (.obj s) (.obj r) [m']).2 := by
  have key : ∀ (M : Spec.BinaryMetric), Spec.FirstResult M → ∃ f : Rows ι α → Rows ι α → α,
      kernel F M.code (.cutoff ((1 : Nat) : Int)) (L : Int) = .ok (total f) ∧
      ∀ q run, f q run = hits q run 1 (((L : Int) : α)) := by
    intro M hM
    cases hM with
    | hits => exact ⟨_, rfl, fun _ _ => rfl⟩
    | hitRate => exact ⟨_, rfl, fun q run => (hits_hitRate q run 1 _ (hits_le_one q run _)).symm⟩
    | precision => exact ⟨_, rfl, fun q run => precision_one q run _⟩
    | mrr => exact ⟨_, rfl, fun q run => (mrr_hitRate q run _).trans (hits_hitRate q run 1 _ (hits_le_one q run _)).symm⟩
  obtain ⟨f, hf, e⟩ := key M hM
  obtain ⟨f', hf', e'⟩ := key M' hM'
  exact evaluate_coincide F other SQ SR hash sched o ho s r M.name M'.name 1 1 L m m' ha M.code M'.code M.plain M'.plain
    M.switch M'.switch f f' hf hf' (fun i => (e _ _).trans (e' _ _).symm)

/-- **C153** (one relevant doc): let every query have at most one doc relevant at level `L`, and no two results of a
query the same hash. Then `recall@k`, `hits@k` and `hit_rate@k` have the same outcome in `evaluate`, so do `map@k` and
`mrr@k` (any `k`, or none), and so do `r-precision` and `precision@1`. -/
theorem C153_single_relevant (F : Fn α) (other : Str → Except Err α) (SQ : ArgSort Int) (SR : ArgSort α)
    (hash : δ → ι) (sched : Nat → List Nat) (o : Opts) (ho : o.save = true ∨ o.returnMean = true)
    (s : Store κ δ Int) (r : RunObj κ δ α) (hs : Spec.Usable SQ s) (hr : Spec.Usable SR r.store)
    (k L : Nat) (M M' : Spec.BinaryMetric) (j j' : Nat) (hM : Spec.SingleRelevant k M j M' j')
    (hone : Spec.OneRelevant L s) (hh : Spec.ResultsApart hash r.store)
    (m m' : Str) (ha : Spec.AskBoth M.name j M'.name j' L m m') :
    (evaluate F other SQ SR hash sched o (.obj s) (.obj r) [m]).2 =
      (evaluate F other SQ SR hash sched o (.obj s) (.obj r) [m']).2 := by
  have hq : ∀ i : Nat, Spec.numRel (((Store.rows hash (fun z : Int => (z : α)) (s.ensureSorted SQ).data)[i]?).getD [])
      (((L : Int) : α)) ≤ 1 := by
    intro i
    rcases qrels_row (α := α) SQ hash s hs i with e | ⟨l, l', hl', hp, -, e⟩
    · rw [e, numRel_eq]; exact Nat.zero_le _
    · rw [e, numRel_row, relevant_perm L hp]; exact hone l' hl'
  have hrun := run_row_nodup SR o hash s r hr hh
  have hle := fun i => (hits_le_numRel (((Store.rows hash (fun z : Int => (z : α)) (s.ensureSorted SQ).data)[i]?).getD [])
    _ (hrun i) k (((L : Int) : α))).trans (hq i)
  cases hM with
  | recall =>
    exact evaluate_coincide F other SQ SR hash sched o ho s r _ _ k k L m m' ha .recall .hitRate
      (Spec.BinaryMetric.plain .recall) (Spec.BinaryMetric.plain .hitRate) (Spec.BinaryMetric.switch .recall)
      (Spec.BinaryMetric.switch .hitRate) _ _ rfl rfl
      (fun i => (recall_single _ _ k _ (hq i)).trans (hits_hitRate _ _ k _ (hle i)))
  | hits =>
    exact evaluate_coincide F other SQ SR hash sched o ho s r _ _ k k L m m' ha .hits .hitRate
      (Spec.BinaryMetric.plain .hits) (Spec.BinaryMetric.plain .hitRate) (Spec.BinaryMetric.switch .hits)
      (Spec.BinaryMetric.switch .hitRate) _ _ rfl rfl (fun i => hits_hitRate _ _ k _ (hle i))
  | map =>
    exact evaluate_coincide F other SQ SR hash sched o ho s r _ _ k k L m m' ha .map .mrr
      (Spec.BinaryMetric.plain .map) (Spec.BinaryMetric.plain .mrr) (Spec.BinaryMetric.switch .map)
      (Spec.BinaryMetric.switch .mrr) _ _ rfl rfl (fun i => map_single _ _ k _ (hq i) (hrun i))
  | rPrecision =>
    exact evaluate_coincide F other SQ SR hash sched o ho s r _ _ 0 1 L m m' ha .rPrecision .precision
      (Spec.BinaryMetric.plain .rPrecision) (Spec.BinaryMetric.plain .precision) (Spec.BinaryMetric.switch .rPrecision)
      (Spec.BinaryMetric.switch .precision) _ _ rfl rfl (fun i => rPrecision_single _ _ _ (hq i))

/-- **C153** (break-even point): if every query has exactly `R ≥ 1` docs relevant at level `L` (or none), then
`recall@R`, `f1@R` and `r-precision` have the same outcome in `evaluate` as `precision@R`. -/
theorem C153_break_even (F : Fn α) (other : Str → Except Err α) (SQ : ArgSort Int) (SR : ArgSort α)
    (hash : δ → ι) (sched : Nat → List Nat) (o : Opts) (ho : o.save = true ∨ o.returnMean = true)
    (s : Store κ δ Int) (r : RunObj κ δ α) (hs : Spec.Usable SQ s) (R L : Nat) (hR : 1 ≤ R)
    (hall : Spec.AllRelevant R L s) (M : Spec.BinaryMetric) (j : Nat) (hM : Spec.AtBreakEven R M j)
    (m m' : Str) (ha : Spec.AskBoth M.name j "precision" R L m m') :
    (evaluate F other SQ SR hash sched o (.obj s) (.obj r) [m]).2 =
      (evaluate F other SQ SR hash sched o (.obj s) (.obj r) [m']).2 := by
  have hq : ∀ i : Nat, Spec.numRel (((Store.rows hash (fun z : Int => (z : α)) (s.ensureSorted SQ).data)[i]?).getD [])
      (((L : Int) : α)) = R ∨
      Spec.numRel (((Store.rows hash (fun z : Int => (z : α)) (s.ensureSorted SQ).data)[i]?).getD []) (((L : Int) : α)) = 0 := by
    intro i
    rcases qrels_row (α := α) SQ hash s hs i with e | ⟨l, l', hl', hp, -, e⟩
    · rw [e, numRel_eq]; exact .inr rfl
    · rw [e, numRel_row, relevant_perm L hp]; exact hall l' hl'
  cases hM with
  | recall =>
    exact evaluate_coincide F other SQ SR hash sched o ho s r _ _ R R L m m' ha .recall .precision
      (Spec.BinaryMetric.plain .recall) (Spec.BinaryMetric.plain .precision) (Spec.BinaryMetric.switch .recall)
      (Spec.BinaryMetric.switch .precision) _ _ rfl rfl (fun i => (breakEven _ _ R (by omega) _ (hq i)).1)
  | f1 =>
    exact evaluate_coincide F other SQ SR hash sched o ho s r _ _ R R L m m' ha .f1 .precision
      (Spec.BinaryMetric.plain .f1) (Spec.BinaryMetric.plain .precision) (Spec.BinaryMetric.switch .f1)
      (Spec.BinaryMetric.switch .precision) _ _ rfl rfl (fun i => (breakEven _ _ R (by omega) _ (hq i)).2.1)
  | rPrecision =>
    exact evaluate_coincide F other SQ SR hash sched o ho s r _ _ 0 R L m m' ha .rPrecision .precision
      (Spec.BinaryMetric.plain .rPrecision) (Spec.BinaryMetric.plain .precision) (Spec.BinaryMetric.switch .rPrecision)
      (Spec.BinaryMetric.switch .precision) _ _ rfl rfl (fun i => (breakEven _ _ R (by omega) _ (hq i)).2.2)

/-- judgements of at most 1, as rows -/
theorem zeroOne_row (SQ : ArgSort Int) (hash : δ → ι) (s : Store κ δ Int) (hs : Spec.Usable SQ s)
    (hz : Spec.ZeroOne s) (i : Nat) :
    (∀ p ∈ ((Store.rows hash (fun z : Int => (z : α)) (s.ensureSorted SQ).data)[i]?).getD [], ∃ z : Int, p.2 = (z : α) ∧ z ≤ 1) ∧
      (((Store.rows hash (fun z : Int => (z : α)) (s.ensureSorted SQ).data)[i]?).getD []).Pairwise (fun a b => b.2 ≤ a.2) := by
  rcases qrels_row (α := α) SQ hash s hs i with e | ⟨l, l', hl', hp, hsort, e⟩
  · rw [e]; exact ⟨fun p hpm => absurd hpm List.not_mem_nil, List.Pairwise.nil⟩
  · rw [e]
    refine ⟨fun p hpm => ?_, ?_⟩
    · obtain ⟨x, hx, rfl⟩ := List.mem_map.1 hpm
      exact ⟨x.2, rfl, hz l' hl' x (hp.mem_iff.1 hx)⟩
    · rw [List.pairwise_map]
      exact hsort.imp (fun h => by simpa using h)

/-- **C153** (0/1 judgements): if no judgement is above 1 then `dcg@k` and `dcg_burges@k` have the same outcome in
`evaluate`, and so do `ndcg@k` and `ndcg_burges@k`, for every `k` (or none) and every level. (`2^0 = 1` and `2^1 = 2`
is all that is used of the power function.) -/
theorem C153_binary (F : Fn α) (other : Str → Except Err α) (SQ : ArgSort Int) (SR : ArgSort α)
    (hash : δ → ι) (sched : Nat → List Nat) (o : Opts) (ho : o.save = true ∨ o.returnMean = true)
    (s : Store κ δ Int) (r : RunObj κ δ α) (hs : Spec.Usable SQ s) (hz : Spec.ZeroOne s)
    (hp0 : F.pow2 0 = 1) (hp1 : F.pow2 1 = 2) (k L : Nat) (m m' : Str)
    (ha : Spec.AskBoth "dcg" k "dcg_burges" k L m m' ∨ Spec.AskBoth "ndcg" k "ndcg_burges" k L m m') :
    (evaluate F other SQ SR hash sched o (.obj s) (.obj r) [m]).2 =
      (evaluate F other SQ SR hash sched o (.obj s) (.obj r) [m']).2 := by
  have hg : ∀ i : Nat, ∀ x : α, (x = 0 ∨ ∃ p ∈ (((Store.rows hash (fun z : Int => (z : α)) (s.ensureSorted SQ).data)[i]?).getD []),
      p.2 = x ∧ (((L : Int) : α)) ≤ x) → id x = F.pow2 x - 1 := by
    intro i x hx
    rcases hx with rfl | ⟨p, hp, rfl, hle⟩
    · rw [hp0]; simp
    · obtain ⟨z, hz1, hz2⟩ := (zeroOne_row (α := α) SQ hash s hs hz i).1 p hp
      rw [hz1] at hle ⊢
      have : (L : Int) ≤ z := by exact_mod_cast hle
      have : z = 0 ∨ z = 1 := by omega
      rcases this with rfl | rfl
      · rw [Int.cast_zero, hp0]; simp
      · rw [Int.cast_one, hp1, id]; norm_num
  rcases ha with ha | ha
  · exact evaluate_coincide F other SQ SR hash sched o ho s r _ _ k k L m m' ha .dcg .dcgBurges
      (Spec.GradedMetric.plain .dcg) (Spec.GradedMetric.plain .dcgBurges) (Spec.GradedMetric.switch .dcg)
      (Spec.GradedMetric.switch .dcgBurges) _ _ rfl rfl (fun i => dcgCore_gain _ _ _ _ _ k _ (hg i))
  · exact evaluate_coincide F other SQ SR hash sched o ho s r _ _ k k L m m' ha .ndcg .ndcgBurges
      (Spec.GradedMetric.plain .ndcg) (Spec.GradedMetric.plain .ndcgBurges) (Spec.GradedMetric.switch .ndcg)
      (Spec.GradedMetric.switch .ndcgBurges) _ _ rfl rfl (fun i => ndcgCore_gain _ _ _ _ _ k _ (hg i))

/-- **C153** (0/1 judgements, first result): if no judgement is above 1 then `ndcg@1` and `dcg@1` have the same outcome
as `precision@1` (`log2(2) = 1` is used). -/
theorem C153_binary_first (F : Fn α) (other : Str → Except Err α) (SQ : ArgSort Int) (SR : ArgSort α)
    (hash : δ → ι) (sched : Nat → List Nat) (o : Opts) (ho : o.save = true ∨ o.returnMean = true)
    (s : Store κ δ Int) (r : RunObj κ δ α) (hs : Spec.Usable SQ s) (hz : Spec.ZeroOne s)
    (hd : F.log2Disc 0 = 1) (m m' : Str)
    (ha : Spec.AskBoth "ndcg" 1 "precision" 1 1 m m' ∨ Spec.AskBoth "dcg" 1 "precision" 1 1 m m') :
    (evaluate F other SQ SR hash sched o (.obj s) (.obj r) [m]).2 =
      (evaluate F other SQ SR hash sched o (.obj s) (.obj r) [m']).2 := by
  have e1 : ((((1 : Nat) : Int) : Int) : α) = 1 := by simp
  have hb : ∀ i : Nat, ∀ p ∈ (((Store.rows hash (fun z : Int => (z : α)) (s.ensureSorted SQ).data)[i]?).getD []), p.2 ≤ 1 := by
    intro i p hp
    obtain ⟨z, hz1, hz2⟩ := (zeroOne_row (α := α) SQ hash s hs hz i).1 p hp
    rw [hz1]
    exact_mod_cast hz2
  rcases ha with ha | ha
  · refine evaluate_coincide F other SQ SR hash sched o ho s r _ _ 1 1 1 m m' ha .ndcg .precision
      (Spec.GradedMetric.plain .ndcg) (Spec.BinaryMetric.plain .precision) (Spec.GradedMetric.switch .ndcg)
      (Spec.BinaryMetric.switch .precision) _ _ rfl rfl (fun i => ?_)
    simp only [e1]
    rw [precision_one]
    exact ndcgCore_one _ hd _ _ (hb i) (zeroOne_row (α := α) SQ hash s hs hz i).2
  · refine evaluate_coincide F other SQ SR hash sched o ho s r _ _ 1 1 1 m m' ha .dcg .precision
      (Spec.GradedMetric.plain .dcg) (Spec.BinaryMetric.plain .precision) (Spec.GradedMetric.switch .dcg)
      (Spec.BinaryMetric.switch .precision) _ _ rfl rfl (fun i => ?_)
    simp only [e1]
    rw [precision_one]
    exact dcgCore_one _ hd _ _ (hb i)

/-- the conditions matter: with two relevant docs recall is not hit rate, map is not mrr and r-precision is not
precision@1; with a judgement of 2 the two dcg variants differ; without `R` relevant docs precision@R is not recall@R;
and at cutoff 2 mrr is not hit rate. -/
theorem C153_exceptions :
    (∃ q run : Rows Nat ℚ, recall q run 1 1 ≠ hitRate q run 1 1 ∧ averagePrecision q run 1 1 ≠ reciprocalRank q run 1 1) ∧
    (∃ q run : Rows Nat ℚ, rPrecision q run 1 ≠ precision q run 1 1) ∧
    (∃ q run : Rows Nat ℚ, dcgCore id (fun _ => 1) q run 0 1 ≠ dcgCore (fun x => (if x = 2 then 4 else x + 1) - 1) (fun _ => 1) q run 0 1) ∧
    (∃ q run : Rows Nat ℚ, precision q run 2 1 ≠ recall q run 2 1) ∧
    (∃ q run : Rows Nat ℚ, reciprocalRank q run 2 1 ≠ hitRate q run 2 1) :=
  ⟨⟨[(1, 1), (2, 1)], [(1, 5)], by decide +kernel, by decide +kernel⟩, ⟨[(1, 1), (2, 1)], [(1, 5), (3, 4)], by decide +kernel⟩,
    ⟨[(1, 2)], [(1, 5)], by decide +kernel⟩, ⟨[(1, 1)], [(1, 5)], by decide +kernel⟩,
    ⟨[(1, 1)], [(2, 5), (1, 4)], by decide +kernel⟩⟩

/-- non-vacuity: at level 2 the example judgements have at most one relevant doc per query, at level 1 not -/
example : Spec.OneRelevant 2 exQrelsObj ∧ ¬ Spec.OneRelevant 1 exQrelsObj ∧ Spec.AllRelevant 1 2 exQrelsObj ∧
    Spec.ResultsApart (fun n : Nat => n) exRunObj.store ∧
    Spec.AskBoth (Spec.BinaryMetric.name .map) 10 (Spec.BinaryMetric.name .mrr) 10 2 "map@10-l2".toList "mrr@10-l2".toList ∧
    Spec.AskBoth (Spec.BinaryMetric.name .rPrecision) 0 (Spec.BinaryMetric.name .precision) 1 2 "r-precision-l2".toList "precision@1-l2".toList ∧
    Spec.AskBoth (Spec.BinaryMetric.name .f1) 1 "precision" 1 2 "f1@1-l2".toList "precision@1-l2".toList ∧
    Spec.Usable (.stable Int) exQrelsObj ∧ Spec.Usable (.stable ℚ) exRunObj.store :=
  ⟨by unfold Spec.OneRelevant; decide +kernel, by unfold Spec.OneRelevant; decide +kernel, by unfold Spec.AllRelevant; decide +kernel,
    fun _ _ _ _ _ _ h => h, ⟨.inr (.inr (.inr (by decide +kernel))), .inr (.inr (.inr (by decide +kernel)))⟩,
    ⟨.inr (.inr (.inl (by decide +kernel))), .inr (.inr (.inr (by decide +kernel)))⟩,
    ⟨.inr (.inr (.inr (by decide +kernel))), .inr (.inr (.inr (by decide +kernel)))⟩, exQrelsObj_usable, exRunObj_usable⟩

/-- judgements that are all 1 -/
def exZeroOne : Store Nat Nat Int := ⟨[(2, [(20, 1)]), (1, [(10, 0), (11, 1)])], false⟩

theorem exZeroOne_usable : Spec.Usable (ArgSort.stable Int) exZeroOne :=
  ⟨exZeroOne, [], ⟨exZeroOne.data, by unfold NodupKeys; decide +kernel, by unfold NodupKeys; decide +kernel,
    .inl rfl⟩, rfl, by simp [Store.exec]⟩

/-- non-vacuity: 0/1 judgements, and the real functions -/
example : Spec.ZeroOne exZeroOne ∧ Spec.Usable (.stable Int) exZeroOne ∧ Spec.OneRelevant 1 exZeroOne ∧
    Spec.AskBoth "ndcg" 10 "ndcg_burges" 10 1 "ndcg@10".toList "ndcg_burges@10".toList ∧
    Spec.AskBoth "ndcg" 1 "precision" 1 1 "ndcg@1".toList "precision@1".toList ∧
    (2 : ℝ) ^ (0 : ℝ) = 1 ∧ (2 : ℝ) ^ (1 : ℝ) = 2 ∧ Real.logb 2 ((0 : Nat) + 2 : ℝ) = 1 := by
  refine ⟨by unfold Spec.ZeroOne; decide +kernel, exZeroOne_usable, by unfold Spec.OneRelevant; decide +kernel,
    ⟨.inr (.inl ⟨by decide +kernel, rfl⟩), .inr (.inl ⟨by decide +kernel, rfl⟩)⟩,
    ⟨.inr (.inl ⟨by decide +kernel, rfl⟩), .inr (.inl ⟨by decide +kernel, rfl⟩)⟩, Real.rpow_zero 2, Real.rpow_one 2, ?_⟩
  rw [Nat.cast_zero, zero_add]
  exact Real.logb_self_eq_one (by norm_num)

end Ranx
