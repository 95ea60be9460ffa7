import Verif.Props.Fusion
import Mathlib.Algebra.Order.Floor.Div
import Mathlib.Tactic.IntervalCases
import Mathlib.Data.Nat.Cast.Order.Ring

/-!
# Properties C51, C58, C60: rank based and probability based fusion

Positions are 0-based indices in the order in which a run lists the docs of the query
(see C85 for runs that are not sorted).
-/

set_option linter.unusedSectionVars false

namespace Ranx
open Dict Fuse
open _root_.Ranx.Norm (Results)
variable {κ δ α : Type*}

section
variable [LinearOrder κ] [DecidableEq δ] [LinearOrder α] [Field α] [IsStrictOrderedRing α]
  (S : ArgSort α) (sched : List Nat) (scheds : Nat → List Nat)

theorem rank_sum (g : Nat → α) (f : Results δ α → Results δ α) (hfg : f = rankLoop (fun i _ => g i))
    (runs : List (Dict κ (Results δ α)))
    (hf : Spec.Fusable runs) (hs : Schedule (queryCount runs) sched)
    (hss : ∀ (j : Nat) run, runs[j]? = some run → Schedule run.length (scheds j)) :
    ∃ out, combSum S sched (rescoreAll f scheds runs) = .ok out ∧
      Spec.FusedBy runs (fun q d => ((Spec.positions runs q d).map g).sum) out := by
  subst hfg
  have hsc := scores_rank (rankLoop (fun i _ => g i)) g runs hf.nodupD
    (fun r hr d => get?_rankLoop _ r hr d)
  obtain ⟨out, h1, h2⟩ := rescoreAll_spec S (rankLoop (fun i _ => g i))
    (fun r hr => ⟨nodupKeys_rankLoop _ r, keys_rankLoop _ r hr⟩) sumScore
    (fun rs d => (rs.map (fun res => (res.get? d).getD 0)).sum) sched scheds runs hf hs hss
    (fun q d => rfl)
  refine ⟨out, h1, FusedBy_congr h2 ?_⟩
  intro q d _
  have := sumScore_eq (runs.map (mapRun (fun _ r => rankLoop (fun i _ => g i) r))) q d
  unfold sumScore at this
  rw [Except.ok.inj this, hsc]

theorem rank_present (g : Nat → α) (f : Results δ α → Results δ α) (hfg : f = rankLoop (fun i _ => g i))
    (F : List α → α) (runs : List (Dict κ (Results δ α)))
    (hf : Spec.Fusable runs) (hs : Schedule (queryCount runs) sched)
    (hss : ∀ (j : Nat) run, runs[j]? = some run → Schedule run.length (scheds j)) :
    ∃ out, fuseRun S (fun rs d => .ok (F (present rs d))) sched (rescoreAll f scheds runs) = .ok out ∧
      Spec.FusedBy runs (fun q d => F ((Spec.positions runs q d).map g)) out := by
  subst hfg
  have hsc := scores_rank (rankLoop (fun i _ => g i)) g runs hf.nodupD
    (fun r hr d => get?_rankLoop _ r hr d)
  obtain ⟨out, h1, h2⟩ := rescoreAll_spec S (rankLoop (fun i _ => g i))
    (fun r hr => ⟨nodupKeys_rankLoop _ r, keys_rankLoop _ r hr⟩) (fun rs d => .ok (F (present rs d)))
    (fun rs d => F (present rs d)) sched scheds runs hf hs hss (fun q d => rfl)
  refine ⟨out, h1, FusedBy_congr h2 ?_⟩
  intro q d _
  simp only [present_eq, hsc]

/-- no results list of the runs reaches a rank (from 1) with `k + rank = 0` -/
def Spec.RanksClear (k : α) (runs : List (Dict κ (Results δ α))) : Prop :=
  ∀ run ∈ runs, ∀ q r, run.get? q = some r → ∀ i : Nat, 1 ≤ i → i ≤ r.length → k + (i : α) ≠ 0

omit [IsStrictOrderedRing α] in
theorem rankZero_iff (k : α) (runs : List (Dict κ (Results δ α))) (hn : ∀ run ∈ runs, NodupKeys run) :
    rankZero k runs = false ↔ Spec.RanksClear k runs := by
  have h0 : rankZero k runs = true ↔ ∃ run ∈ runs, ∃ qr ∈ run, ∃ i : Nat, i < qr.2.length ∧ k + (i : α) + 1 = 0 := by
    unfold rankZero
    simp only [List.any_eq_true, List.mem_range, decide_eq_true_eq]
  constructor
  · intro h run hr q r hg i h1 hi hz
    have : rankZero k runs = true := by
      obtain ⟨j, rfl⟩ : ∃ j, i = j + 1 := ⟨i - 1, by omega⟩
      rw [Nat.cast_add, Nat.cast_one, ← add_assoc] at hz
      exact h0.2 ⟨run, hr, (q, r), mem_of_get? hg, j, by simp only; omega, hz⟩
    rw [h] at this
    cases this
  · intro h
    cases hb : rankZero k runs with
    | false => rfl
    | true =>
      obtain ⟨run, hr, qr, hq, i, hi, hz⟩ := h0.1 hb
      refine absurd ?_ (h run hr qr.1 qr.2 (get?_of_mem (hn run hr) hq) (i + 1) (by omega) (by omega))
      rw [Nat.cast_add, Nat.cast_one, ← add_assoc, hz]

theorem ranksClear_of_nonneg {k : α} (hk : 0 ≤ k) (runs : List (Dict κ (Results δ α))) : Spec.RanksClear k runs := by
  intro run _ q r _ i h1 _
  have : (0 : α) < (i : α) := Nat.cast_pos.2 (by omega)
  exact (add_pos_of_nonneg_of_pos hk this).ne'

omit [IsStrictOrderedRing α] in
theorem ranksClear_of_ne {k : α} (hk : ∀ i : ℕ, k + ((i + 1 : ℕ) : α) ≠ 0) (runs : List (Dict κ (Results δ α))) :
    Spec.RanksClear k runs := by
  intro run _ q r _ i h1 _
  obtain ⟨j, rfl⟩ : ∃ j, i = j + 1 := ⟨i - 1, by omega⟩
  exact hk j

theorem rankZero_of_nonneg {k : α} (hk : 0 ≤ k) (runs : List (Dict κ (Results δ α))) : rankZero k runs = false := by
  cases hb : rankZero k runs with
  | false => rfl
  | true =>
    unfold rankZero at hb
    simp only [List.any_eq_true, List.mem_range, decide_eq_true_eq] at hb
    obtain ⟨_, _, _, _, i, _, hz⟩ := hb
    exact absurd hz (add_pos_of_nonneg_of_pos (add_nonneg hk (Nat.cast_nonneg i)) one_pos).ne'

omit [IsStrictOrderedRing α] in
theorem rrf_eq (k : α) (runs : List (Dict κ (Results δ α))) (h : rankZero k runs = false) :
    rrf S sched scheds k runs = combSum S sched (rescoreAll (rrfScore k) scheds runs) := by
  unfold rrf
  rw [h]
  exact if_neg Bool.false_ne_true

omit [IsStrictOrderedRing α] in
theorem rrf_ok {k : α} {runs : List (Dict κ (Results δ α))} {out : Store κ δ α}
    (h : rrf S sched scheds k runs = .ok out) :
    rankZero k runs = false ∧ combSum S sched (rescoreAll (rrfScore k) scheds runs) = .ok out := by
  cases hz : rankZero k runs with
  | false => exact ⟨rfl, (rrf_eq S sched scheds k runs hz) ▸ h⟩
  | true =>
    unfold rrf at h
    rw [hz, if_pos rfl] at h
    cases h

/-- **C51** (refusal): rrf raises ZeroDivisionError exactly when some results list is long enough to have a doc at a
rank `i` with `k + i = 0`; never for `k ≥ 0`. -/
theorem C51_rrf_zero_division (k : α) (runs : List (Dict κ (Results δ α)))
    (hf : Spec.Fusable runs) (hs : Schedule (queryCount runs) sched)
    (hss : ∀ (j : Nat) run, runs[j]? = some run → Schedule run.length (scheds j)) :
    (rrf S sched scheds k runs = .error .zeroDivision ↔ ¬ Spec.RanksClear k runs) ∧
    (0 ≤ k → Spec.RanksClear k runs) := by
  refine ⟨?_, fun hk => ranksClear_of_nonneg hk runs⟩
  rw [← rankZero_iff k runs hf.nodupQ]
  cases hz : rankZero k runs with
  | true =>
    unfold rrf
    rw [hz, if_pos rfl]
    simp
  | false =>
    rw [rrf_eq S sched scheds k runs hz]
    obtain ⟨out, h1, -⟩ := rank_sum S sched scheds (fun i => 1 / (k + (i : α) + 1)) _ rfl runs hf hs hss
    constructor
    · intro h
      have := h1.symm.trans h
      cases this
    · intro h
      exact absurd rfl h

/-- **C51** rrf: Σ 1/(k + rank) over the runs that have the doc, rank = position + 1. -/
theorem C51_rrf (k : α) (runs : List (Dict κ (Results δ α))) (hk : Spec.RanksClear k runs)
    (hf : Spec.Fusable runs) (hs : Schedule (queryCount runs) sched)
    (hss : ∀ (j : Nat) run, runs[j]? = some run → Schedule run.length (scheds j)) :
    ∃ out, rrf S sched scheds k runs = .ok out ∧
      Spec.FusedBy runs
        (fun q d => ((Spec.positions runs q d).map (fun (i : Nat) => 1 / (k + (i : α) + 1))).sum) out := by
  rw [rrf_eq S sched scheds k runs ((rankZero_iff k runs hf.nodupQ).2 hk)]
  exact rank_sum S sched scheds (fun i => 1 / (k + (i : α) + 1)) _ rfl runs hf hs hss

/-- **C51** rbc: Σ (1 - φ) φ^position over the runs that have the doc. -/
theorem C51_rbc (phi : α) (runs : List (Dict κ (Results δ α)))
    (hf : Spec.Fusable runs) (hs : Schedule (queryCount runs) sched)
    (hss : ∀ (j : Nat) run, runs[j]? = some run → Schedule run.length (scheds j)) :
    ∃ out, rbc S sched scheds phi runs = .ok out ∧
      Spec.FusedBy runs
        (fun q d => ((Spec.positions runs q d).map (fun i => (1 - phi) * phi ^ i)).sum) out :=
  rank_sum S sched scheds (fun i => (1 - phi) * phi ^ i) _ rfl runs hf hs hss

/-- **C51** isr: Σ 1/rank² times the number of runs that have the doc. -/
theorem C51_isr (runs : List (Dict κ (Results δ α)))
    (hf : Spec.Fusable runs) (hs : Schedule (queryCount runs) sched)
    (hss : ∀ (j : Nat) run, runs[j]? = some run → Schedule run.length (scheds j)) :
    ∃ out, isr S sched scheds runs = .ok out ∧
      Spec.FusedBy runs
        (fun q d => ((Spec.positions runs q d).map (fun (i : Nat) => 1 / ((i : α) + 1) ^ 2)).sum *
          ((Spec.positions runs q d).length : α)) out := by
  have := rank_present S sched scheds (fun i => 1 / ((i : α) + 1) ^ 2) _ rfl
    (fun l => l.sum * (l.length : α)) runs hf hs hss
  simp only [List.length_map] at this
  exact this

/-! ### methods with a parameter per run (C58) -/

theorem occ_sum {π : Type*} (f : π → Results δ α → Results δ α) (g : π → Results δ α → Nat → α → α)
    (hfg : ∀ p r, f p r = rankLoop (g p r) r) (params : List π) (h : Spec.Occurrence π α → α)
    (runs : List (Dict κ (Results δ α))) (hl : runs.length ≤ params.length)
    (hh : ∀ p r i s, i < r.length → g p r i s = h ⟨i, s, p, r.length⟩)
    (hf : Spec.Fusable runs) (hs : Schedule (queryCount runs) sched)
    (hss : ∀ (j : Nat) run, runs[j]? = some run → Schedule run.length (scheds j)) :
    ∃ out, rescoreThen S sched scheds f params sumScore runs = .ok out ∧
      Spec.FusedBy runs (fun q d => ((Spec.occurrences runs params q d).map h).sum) out := by
  have hsc := scores_occ f h runs params hf.nodupD
    (fun p r hr d => by
      rw [hfg, get?_rankLoop_occ _ r hr d]
      cases hi : List.idxOf? d r.keys with
      | none => rfl
      | some i =>
        have hlt : i < r.length := by
          have := (List.getElem?_eq_some_iff.1 ((idxOf?_eq_some_iff hr).1 hi)).1
          simpa using this
        simp only [Option.bind_some]
        cases r.get? d with
        | none => rfl
        | some s => simp only [Option.map_some, hh p r i s hlt])
  obtain ⟨out, h1, h2⟩ := rescoreThen_spec S f
    (fun p r hr => by rw [hfg]; exact keys_rankLoop _ r hr)
    (fun p r => by rw [hfg]; exact nodupKeys_rankLoop _ r) params sumScore
    (fun rs d => (rs.map (fun res => (res.get? d).getD 0)).sum) sched scheds runs hf hl hs hss
    (fun q d => rfl)
  refine ⟨out, h1, FusedBy_congr h2 ?_⟩
  intro q d _
  have := sumScore_eq ((runs.zip params).map (fun rp => mapRun (fun _ r => f rp.2 r) rp.1)) q d
  unfold sumScore at this
  rw [Except.ok.inj this, hsc]

/-- **C58** mapfuse: Σ (MAP score of the run) / rank. -/
theorem C58_mapfuse (maps : List α) (runs : List (Dict κ (Results δ α)))
    (hl : runs.length ≤ maps.length)
    (hf : Spec.Fusable runs) (hs : Schedule (queryCount runs) sched)
    (hss : ∀ (j : Nat) run, runs[j]? = some run → Schedule run.length (scheds j)) :
    ∃ out, mapfuse S sched scheds maps runs = .ok out ∧
      Spec.FusedBy runs (fun q d => ((Spec.occurrences runs maps q d).map
        (fun o => o.param / ((o.pos : α) + 1))).sum) out :=
  occ_sum S sched scheds mapScore (fun p _ i _ => p / ((i : α) + 1)) (fun _ _ => rfl) maps
    (fun o => o.param / ((o.pos : α) + 1)) runs hl (fun _ _ _ _ _ => rfl) hf hs hss

/-- **C58** posfuse: Σ trained probability of the position (0 beyond the trained positions). -/
theorem C58_posfuse (probs : List (List α)) (runs : List (Dict κ (Results δ α)))
    (hl : runs.length ≤ probs.length)
    (hf : Spec.Fusable runs) (hs : Schedule (queryCount runs) sched)
    (hss : ∀ (j : Nat) run, runs[j]? = some run → Schedule run.length (scheds j)) :
    ∃ out, posfuse S sched scheds probs runs = .ok out ∧
      Spec.FusedBy runs (fun q d => ((Spec.occurrences runs probs q d).map
        (fun o => (o.param[o.pos]?).getD 0)).sum) out := by
  refine occ_sum S sched scheds posScore
    (fun p _ i _ => if i < p.length then (p[i]?).getD 0 else 0) (fun _ _ => rfl) probs
    (fun o => (o.param[o.pos]?).getD 0) runs hl ?_ hf hs hss
  intro p r i s _
  by_cases hi : i < p.length
  · simp only [if_pos hi]
  · simp only [if_neg hi, List.getElem?_eq_none (not_lt.1 hi), Option.getD_none]

theorem take_sum_eq (l : List α) (n : Nat) :
    (l.take n).sum = ((List.range n).map (fun j => (l[j]?).getD 0)).sum := by
  induction l generalizing n with
  | nil =>
    simp only [List.take_nil, List.sum_nil, List.getElem?_nil, Option.getD_none]
    rw [eq_comm]
    apply List.sum_eq_zero
    intro x hx
    obtain ⟨_, _, rfl⟩ := List.mem_map.1 hx
    rfl
  | cons a t ih =>
    cases n with
    | zero => rfl
    | succ m =>
      rw [List.take_succ_cons, List.sum_cons, ih m, List.range_succ_eq_map, List.map_cons, List.sum_cons,
        List.map_map]
      rfl

theorem slice_sum_eq (l : List α) (a b : Nat) :
    (slice l a b).sum = ((List.range (b - a)).map (fun j => (l[a + j]?).getD 0)).sum := by
  unfold slice
  rw [List.drop_take, take_sum_eq]
  congr 1
  apply List.map_congr_left
  intro j _
  rw [List.getElem?_drop]

/-- **C58** slidefuse: Σ over the runs that have the doc of the mean trained probability over the window
`[max(0, p - w), min(p + w, n - 1)]` around its position `p` among the run's `n` docs (positions beyond
the trained ones count as 0). -/
theorem C58_slidefuse (probs : List (List α)) (w : Nat) (runs : List (Dict κ (Results δ α)))
    (hl : runs.length ≤ probs.length)
    (hf : Spec.Fusable runs) (hs : Schedule (queryCount runs) sched)
    (hss : ∀ (j : Nat) run, runs[j]? = some run → Schedule run.length (scheds j)) :
    ∃ out, slidefuse S sched scheds probs w runs = .ok out ∧
      Spec.FusedBy runs (fun q d => ((Spec.occurrences runs probs q d).map (fun o =>
        let window := (List.range o.count).filter (fun j => decide (o.pos ≤ j + w ∧ j ≤ o.pos + w))
        (window.map (fun j => (o.param[j]?).getD 0)).sum / (window.length : α))).sum) out := by
  refine occ_sum S sched scheds (fun p => slideScore p w) (fun p r i _ =>
    (slice p (i - w) (min (i + w) (r.length - 1) + 1)).sum /
      ((min (i + w) (r.length - 1) : Nat) - ((i - w : Nat) : α) + 1)) (fun _ _ => rfl) probs
    _ runs hl ?_ hf hs hss
  intro p r i s hi
  simp only
  -- the window is an interval
  have hwin : (List.range r.length).filter (fun j => decide (i ≤ j + w ∧ j ≤ i + w)) =
      (List.range (min (i + w) (r.length - 1) + 1 - (i - w))).map (fun j => (i - w) + j) := by
    apply eq_of_mem_iff_of_sorted_lt
    · exact (List.pairwise_lt_range).filter _
    · rw [List.pairwise_map]
      exact (List.pairwise_lt_range).imp (by intro a b h; omega)
    · intro x
      simp only [List.mem_filter, List.mem_range, decide_eq_true_eq, List.mem_map]
      constructor
      · rintro ⟨h1, h2, h3⟩
        exact ⟨x - (i - w), by omega, by omega⟩
      · rintro ⟨j, hj, rfl⟩
        omega
  rw [hwin, slice_sum_eq, List.map_map, List.length_map, List.length_range]
  congr 1
  have hle : i - w ≤ min (i + w) (r.length - 1) + 1 := by omega
  rw [Nat.cast_sub hle]
  push_cast
  ring

/-- the array filled segment by segment -/
theorem fill_getElem? (start stop : Nat → Nat) (v : Nat → α) (n i : Nat) (hi : i < n) (m : Nat)
    (k0 : Nat) (hk : ∀ k < m, (start k ≤ i ∧ i < stop k) ↔ k = k0) :
    ((List.range m).foldl (fun a (k : Nat) => assignSlice a (start k) (stop k) (v k))
      (List.replicate n (0 : α)))[i]? = some (if k0 < m then v k0 else 0) := by
  induction m with
  | zero => simp [hi]
  | succ m ih =>
    rw [List.range_succ, List.foldl_append, List.foldl_cons, List.foldl_nil]
    have := ih (fun k hkm => hk k (by omega))
    unfold assignSlice at this ⊢
    rw [List.getElem?_map, List.getElem?_zipIdx, this]
    simp only [Option.map_some, Option.some.injEq, Nat.zero_add]
    by_cases hm : m = k0
    · subst hm
      rw [if_pos ((hk m (by omega)).2 rfl), if_pos (by omega)]
    · rw [if_neg (fun h => hm ((hk m (by omega)).1 h))]
      by_cases hlt : k0 < m
      · rw [if_pos hlt, if_pos (by omega)]
      · rw [if_neg hlt, if_neg (by omega)]

/-- **C58** probfuse: the run's `n` docs are cut into segments of `⌈n / m⌉` docs for `m` trained
segment probabilities; Σ (probability of the doc's segment k, 1-based) / k. -/
theorem C58_probfuse (probs : List (List α)) (hp : ∀ p ∈ probs, p ≠ [])
    (runs : List (Dict κ (Results δ α))) (hl : runs.length ≤ probs.length)
    (hf : Spec.Fusable runs) (hs : Schedule (queryCount runs) sched)
    (hss : ∀ (j : Nat) run, runs[j]? = some run → Schedule run.length (scheds j)) :
    ∃ out, probfuse S sched scheds probs runs = .ok out ∧
      Spec.FusedBy runs (fun q d => ((Spec.occurrences runs probs q d).map (fun o =>
        let segment : Nat := o.pos / (o.count ⌈/⌉ o.param.length)
        (o.param[segment]?).getD 0 / ((segment : α) + 1))).sum) out := by
  unfold probfuse
  rw [if_neg (by
    intro h
    obtain ⟨p, hpm, he⟩ := List.any_eq_true.1 h
    exact hp p (List.mem_of_mem_take hpm) (List.isEmpty_iff.1 he))]
  refine occ_sum S sched scheds probScore (fun p r i _ =>
    (((List.range p.length).foldl (fun a (k : Nat) =>
      assignSlice a (k * ceilDiv r.length p.length) ((k + 1) * ceilDiv r.length p.length)
        ((p[k]?).getD 0 / ((k : α) + 1))) (List.replicate r.length 0))[i]?).getD 0)
    (fun _ _ => rfl) probs _ runs hl ?_ hf hs hss
  intro p r i s hi
  have hc : r.length ⌈/⌉ p.length = ceilDiv r.length p.length := by
    rw [Nat.ceilDiv_eq_add_pred_div]; rfl
  simp only [hc]
  by_cases hpe : p.length = 0
  · have : p = [] := List.length_eq_zero_iff.1 hpe
    subst this
    simp [hi]
  have hmul : r.length ≤ p.length * ceilDiv r.length p.length := by
    unfold ceilDiv
    have h1 := Nat.div_add_mod (r.length + p.length - 1) p.length
    have h2 := Nat.mod_lt (r.length + p.length - 1) (Nat.pos_of_ne_zero hpe)
    omega
  generalize ceilDiv r.length p.length = c at hmul
  have hcpos : 0 < c := by
    rcases Nat.eq_zero_or_pos c with h | h
    · subst h; omega
    · exact h
  rw [fill_getElem? (fun k => k * c) (fun k => (k + 1) * c) (fun k => (p[k]?).getD 0 / ((k : α) + 1))
    r.length i hi p.length (i / c) (by
      intro k _
      constructor
      · rintro ⟨h1, h2⟩
        exact ((Nat.div_eq_iff hcpos).2 ⟨h1, by rw [Nat.add_mul] at h2; omega⟩).symm
      · rintro rfl
        refine ⟨Nat.div_mul_le_self i c, ?_⟩
        rw [Nat.mul_comm]; exact Nat.lt_mul_div_succ i hcpos)]
  rw [if_pos]
  · rfl
  · rw [Nat.div_lt_iff_lt_mul hcpos]
    omega

/-- Specification: the SegFuse segment of a position: segment `k` (0-based) ends before position
`10·2^k - 5`; there are ten segments. -/
def Spec.segFuseSegment (pos : Nat) : Option Nat :=
  (List.range 10).find? (fun k => decide (pos < 10 * 2 ^ k - 5))

theorem segment_small (k : Nat) (hk : k < 10) :
    (segmentSizes[k]?).getD 0 = (if k = 0 then 0 else 10 * 2 ^ (k - 1) - 5) ∧
    (segmentSizes[k + 1]?).getD 0 = 10 * 2 ^ k - 5 := by
  interval_cases k <;> decide

theorem segment_big (k : Nat) (hk : 10 ≤ k) : (segmentSizes[k + 1]?).getD 0 = 0 := by
  rw [List.getElem?_eq_none]
  · rfl
  · change 11 ≤ k + 1; omega

theorem segment_none {i : Nat} (h : Spec.segFuseSegment i = none) (k : Nat) :
    ¬ ((segmentSizes[k]?).getD 0 ≤ i ∧ i < (segmentSizes[k + 1]?).getD 0) := by
  rintro ⟨_, h2⟩
  by_cases hk : k < 10
  · rw [(segment_small k hk).2] at h2
    have := List.find?_eq_none.1 h k (List.mem_range.2 hk)
    simp at this; omega
  · rw [segment_big k (by omega)] at h2; omega

theorem segment_some {i k0 : Nat} (h : Spec.segFuseSegment i = some k0) (k : Nat) :
    ((segmentSizes[k]?).getD 0 ≤ i ∧ i < (segmentSizes[k + 1]?).getD 0) ↔ k = k0 := by
  obtain ⟨hp, hlt, hmin⟩ := List.find?_range_eq_some.1 h
  simp only [decide_eq_true_eq, List.mem_range, Bool.not_eq_true', decide_eq_false_iff_not,
    not_lt] at hp hlt hmin
  constructor
  · rintro ⟨h1, h2⟩
    by_cases hk : k < 10
    · rw [(segment_small k hk).2] at h2
      rw [(segment_small k hk).1] at h1
      by_contra hne
      rcases Nat.lt_or_gt_of_ne hne with hlt' | hgt
      · have := hmin k hlt'; omega
      · rw [if_neg (by omega)] at h1
        have : 2 ^ k0 ≤ 2 ^ (k - 1) := Nat.pow_le_pow_right (by norm_num) (by omega)
        omega
    · rw [segment_big k (by omega)] at h2; omega
  · rintro rfl
    rw [(segment_small k hlt).1, (segment_small k hlt).2]
    refine ⟨?_, hp⟩
    split
    · omega
    · exact hmin (k - 1) (by omega)

/-- **C58** segfuse: Σ (probability of the doc's segment, 0 beyond the last trained one) · (score + 1). -/
theorem C58_segfuse (probs : List (List α)) (hp : ∀ p ∈ probs, p.length ≤ 10)
    (runs : List (Dict κ (Results δ α))) (hl : runs.length ≤ probs.length)
    (hf : Spec.Fusable runs) (hs : Schedule (queryCount runs) sched)
    (hss : ∀ (j : Nat) run, runs[j]? = some run → Schedule run.length (scheds j)) :
    ∃ out, segfuse S sched scheds probs runs = .ok out ∧
      Spec.FusedBy runs (fun q d => ((Spec.occurrences runs probs q d).map (fun o =>
        ((Spec.segFuseSegment o.pos).bind (fun k => o.param[k]?)).getD 0 * (o.score + 1))).sum) out := by
  unfold segfuse
  rw [if_neg (by
    intro h
    obtain ⟨p, hpm, he⟩ := List.any_eq_true.1 h
    have := hp p (List.mem_of_mem_take hpm)
    simp at he; omega)]
  refine occ_sum S sched scheds segScore (fun p r i s =>
    (((List.range p.length).foldl (fun a (k : Nat) =>
      assignSlice a ((segmentSizes[k]?).getD 0) ((segmentSizes[k + 1]?).getD 0) ((p[k]?).getD 0))
      (List.replicate r.length 0))[i]?).getD 0 * (s + 1))
    (fun _ _ => rfl) probs _ runs hl ?_ hf hs hss
  intro p r i s hi
  simp only
  congr 1
  cases hseg : Spec.segFuseSegment i with
  | none =>
    rw [fill_getElem? (fun k => (segmentSizes[k]?).getD 0) (fun k => (segmentSizes[k + 1]?).getD 0)
      (fun k => (p[k]?).getD 0) r.length i hi p.length p.length
      (by
        intro k hk
        constructor
        · intro h
          exact absurd h (segment_none hseg k)
        · intro h; omega)]
    simp
  | some k0 =>
    rw [fill_getElem? (fun k => (segmentSizes[k]?).getD 0) (fun k => (segmentSizes[k + 1]?).getD 0)
      (fun k => (p[k]?).getD 0) r.length i hi p.length k0 (fun k _ => segment_some hseg k)]
    simp only [Option.getD_some, Option.bind_some]
    by_cases hk : k0 < p.length
    · rw [if_pos hk]
    · rw [if_neg hk, List.getElem?_eq_none (not_lt.1 hk)]; rfl

end
section
variable [LinearOrder κ] [DecidableEq δ] (S : ArgSort ℝ) (sched : List Nat) (scheds : Nat → List Nat)

/-- **C51** log_isr: Σ 1/rank² times the natural logarithm of the number of runs that have the doc. -/
theorem C51_log_isr (runs : List (Dict κ (Results δ ℝ)))
    (hf : Spec.Fusable runs) (hs : Schedule (queryCount runs) sched)
    (hss : ∀ (j : Nat) run, runs[j]? = some run → Schedule run.length (scheds j)) :
    ∃ out, logIsr S sched scheds runs = .ok out ∧
      Spec.FusedBy runs
        (fun q d => ((Spec.positions runs q d).map (fun (i : Nat) => 1 / ((i : ℝ) + 1) ^ 2)).sum *
          Real.log ((Spec.positions runs q d).length : ℝ)) out := by
  have := rank_present S sched scheds (fun i => 1 / ((i : ℝ) + 1) ^ 2) _ rfl
    (fun l => l.sum * Real.log (l.length : ℝ)) runs hf hs hss
  simp only [List.length_map] at this
  exact this

/-- **C51** logn_isr: the same with `σ` added under the logarithm; `σ` outside [0, 1] is rejected. -/
theorem C51_logn_isr (sigma : ℝ) (runs : List (Dict κ (Results δ ℝ)))
    (hf : Spec.Fusable runs) (hs : Schedule (queryCount runs) sched)
    (hss : ∀ (j : Nat) run, runs[j]? = some run → Schedule run.length (scheds j)) :
    (¬ (0 ≤ sigma ∧ sigma ≤ 1) → lognIsr S sched scheds sigma runs = .error .assertionError) ∧
    (0 ≤ sigma ∧ sigma ≤ 1 → ∃ out, lognIsr S sched scheds sigma runs = .ok out ∧
      Spec.FusedBy runs
        (fun q d => ((Spec.positions runs q d).map (fun (i : Nat) => 1 / ((i : ℝ) + 1) ^ 2)).sum *
          Real.log (((Spec.positions runs q d).length : ℝ) + sigma)) out) := by
  constructor
  · intro h
    unfold lognIsr
    rw [if_neg h]
  · intro h
    unfold lognIsr
    rw [if_pos h]
    have := rank_present S sched scheds (fun i => 1 / ((i : ℝ) + 1) ^ 2) _ rfl
      (fun l => l.sum * Real.log ((l.length : ℝ) + sigma)) runs hf hs hss
    simp only [List.length_map] at this
    exact this

end

/-! ### instances: two runs listing their queries in different orders, both schedules reversed -/

theorem fuseEx_scheds : Schedule (queryCount [fuseEx1, fuseEx2]) [1, 0] ∧
    ∀ (j : Nat) run, [fuseEx1, fuseEx2][j]? = some run → Schedule run.length [1, 0] := by
  refine ⟨by unfold Schedule; decide, ?_⟩
  intro j run h
  have : run ∈ [fuseEx1, fuseEx2] := List.mem_of_getElem? h
  revert run
  intro run _ h
  simp only [List.mem_cons, List.not_mem_nil, or_false] at h
  rcases h with rfl | rfl <;> (unfold Schedule; decide)

example : readOut (rrf (.stable ℚ) [1, 0] (fun _ => [1, 0]) 60 [fuseEx1, fuseEx2]) 1 10 =
    some (1 / 61 + 1 / 62) := by decide +kernel
/-- `k = -2` divides by zero at the second doc; `k = -5/2` does not. -/
example : readOut (rrf (.stable ℚ) [1, 0] (fun _ => [1, 0]) (-5 / 2) [fuseEx1, fuseEx2]) 1 10 =
    some (-2 / 3 - 2) ∧ rankZero (-2 : ℚ) [fuseEx1, fuseEx2] = true ∧
    ¬ Spec.RanksClear (-2 : ℚ) [fuseEx1, fuseEx2] := by
  have h : rankZero (-2 : ℚ) [fuseEx1, fuseEx2] = true := by decide +kernel
  refine ⟨by decide +kernel, h, fun hc => ?_⟩
  rw [(rankZero_iff (-2 : ℚ) [fuseEx1, fuseEx2] (by
    intro run hr
    simp only [List.mem_cons, List.not_mem_nil, or_false] at hr
    rcases hr with rfl | rfl <;> (unfold NodupKeys; decide))).2 hc] at h
  cases h
example : readOut (rbc (.stable ℚ) [1, 0] (fun _ => [1, 0]) (1 / 2) [fuseEx1, fuseEx2]) 1 10 =
    some (1 / 2 + 1 / 4) := by decide +kernel
example : readOut (isr (.stable ℚ) [1, 0] (fun _ => [1, 0]) [fuseEx1, fuseEx2]) 1 10 =
    some ((1 + 1 / 4) * 2) := by decide +kernel
example : readOut (mapfuse (.stable ℚ) [1, 0] (fun _ => [1, 0]) [1 / 3, 1 / 2] [fuseEx1, fuseEx2]) 1 10 =
    some (1 / 3 + 1 / 4) := by decide +kernel
example : readOut (posfuse (.stable ℚ) [1, 0] (fun _ => [1, 0]) [[1 / 3, 1], [1 / 2]] [fuseEx1, fuseEx2])
    1 10 = some (1 / 3) := by decide +kernel
example : readOut (probfuse (.stable ℚ) [1, 0] (fun _ => [1, 0]) [[1 / 3, 1], [1 / 2, 1]]
    [fuseEx1, fuseEx2]) 1 10 = some (1 / 3 + 1 / 2) := by decide +kernel
example : readOut (slidefuse (.stable ℚ) [1, 0] (fun _ => [1, 0]) [[1 / 3, 1], [1 / 2, 1]] 1
    [fuseEx1, fuseEx2]) 1 11 = some (2 / 3) := by decide +kernel
example : readOut (segfuse (.stable ℚ) [1, 0] (fun _ => [1, 0]) [[1 / 3, 1], [1 / 2, 1]]
    [fuseEx1, fuseEx2]) 1 10 = some (1 / 3 * 6 + 1 / 2 * 3) := by decide +kernel

end Ranx
