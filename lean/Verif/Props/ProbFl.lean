import Verif.Model.ProbFl
import Verif.Props.FusionFl
import Verif.Props.TrainFl
import Verif.Props.DcgFl

/-!
# C161: the probability based fusion methods in float64, training included

Training (C160) rounds, rescoring rounds and the final sums round; here the errors of a whole pipeline are put
together: train in float64, fuse in float64, and compare with the run obtained by exact arithmetic throughout
(C58, C59).
-/

set_option linter.unusedSectionVars false

namespace Ranx
open Dict Store Fuse F64
open _root_.Ranx.Norm (Results)
variable {κ δ ι : Type*}

/-! ## Specification -/

/-- Specification: `exact` and `out` are fusions of the same runs (same queries, same docs, ranked by their scores,
see `Spec.FusedBy`), and every score of `out` is that of `exact` up to a relative error `ε`. -/
def Spec.CloseFusion [LinearOrder κ] [DecidableEq δ] (runs : List (Dict κ (Results δ ℚ))) (ε : ℚ)
    (exact out : Store κ δ ℚ) : Prop :=
  ∃ valE val : κ → δ → ℚ, Spec.FusedBy runs valE exact ∧ Spec.FusedBy runs val out ∧
    ∀ q d, |val q d - valE q d| ≤ ε * valE q d

/-- Specification: no results list has 2^53 docs or more. -/
def Spec.ShortLists (runs : List (Dict κ (Results δ ℚ))) : Prop := ∀ run ∈ runs, ∀ p ∈ run, p.2.length < 2 ^ 53

/-- Specification: no score is below -1 (segfuse multiplies by score + 1). -/
def Spec.ScoresFromMinusOne (runs : List (Dict κ (Results δ ℚ))) : Prop := ∀ run ∈ runs, ∀ p ∈ run, ∀ x ∈ p.2, -1 ≤ x.2

/-! ## Lemmas -/

namespace Fuse.Rnd

theorem rel_trans {x y z ε η : ℚ} (h : |y - x| ≤ ε * x) (h' : |z - y| ≤ η * y) (hη : 0 ≤ η) :
    |z - x| ≤ (ε + η + ε * η) * x := by
  have e : z - x = (z - y) + (y - x) := by ring
  have h1 : y ≤ x + ε * x := by linarith [(abs_le.1 h).2]
  rw [e]
  refine (abs_add_le _ _).trans ?_
  have : η * y ≤ η * (x + ε * x) := mul_le_mul_of_nonneg_left h1 hη
  nlinarith

theorem sum_rel {ε : ℚ} {l l' : List ℚ} (h : List.Forall₂ (fun x y => |y - x| ≤ ε * x) l l') :
    |l'.sum - l.sum| ≤ ε * l.sum := by
  induction h with
  | nil => simp
  | @cons x y t t' hxy _ ih =>
    rw [List.sum_cons, List.sum_cons]
    have e : y + t'.sum - (x + t.sum) = (y - x) + (t'.sum - t.sum) := by ring
    rw [e, mul_add]
    exact (abs_add_le _ _).trans (add_le_add hxy ih)

/-- the table `t` is the table `e` of non-negative numbers, up to relative errors `c / 2^53` -/
structure Tbl (c : ℚ) (e t : List ℚ) : Prop where
  length : t.length = e.length
  nonneg : ∀ k : Nat, 0 ≤ (e[k]?).getD 0
  nonneg' : ∀ k : Nat, 0 ≤ (t[k]?).getD 0
  close : ∀ k : Nat, |(t[k]?).getD 0 - (e[k]?).getD 0| ≤ c / 2 ^ 53 * (e[k]?).getD 0

theorem Tbl.of_close {c : ℚ} (hc : 0 < c) {e t : List ℚ} (h : Spec.CloseTables c e t) : Tbl c e t := by
  have hk : ∀ k : Nat, 0 ≤ (e[k]?).getD 0 ∧ 0 ≤ (t[k]?).getD 0 ∧
      |(t[k]?).getD 0 - (e[k]?).getD 0| ≤ c / 2 ^ 53 * (e[k]?).getD 0 := by
    intro k
    cases ht : t[k]? with
    | none =>
      have : e[k]? = none := List.getElem?_eq_none (by rw [← h.length]; exact List.getElem?_eq_none_iff.1 ht)
      rw [this]; simp
    | some v =>
      obtain ⟨hk', -⟩ := List.getElem?_eq_some_iff.1 ht
      have he : e[k]? = some (e[k]'(by rw [← h.length]; exact hk')) := List.getElem?_eq_getElem _
      generalize e[k]'(by rw [← h.length]; exact hk') = x at he
      rw [he]
      have hcl := h.close k v x ht he
      refine ⟨?_, (h.range v (List.mem_of_getElem? ht)).1, hcl⟩
      have := (abs_nonneg _).trans hcl
      exact (mul_nonneg_iff_of_pos_left (by positivity)).1 this
  exact ⟨h.length, fun k => (hk k).1, fun k => (hk k).2.1, fun k => (hk k).2.2⟩

theorem Tbl.of_fl {e : List ℚ} (he : ∀ x ∈ e, 0 ≤ x) : Tbl 1 e (e.map fl) := by
  have hk : ∀ k : Nat, 0 ≤ (e[k]?).getD 0 ∧ ((e.map fl)[k]?).getD 0 = fl ((e[k]?).getD 0) := by
    intro k
    rw [List.getElem?_map]
    cases h : e[k]? with
    | none => simp [fl_zero]
    | some x => exact ⟨he x (List.mem_of_getElem? h), rfl⟩
  refine ⟨List.length_map _, fun k => (hk k).1, fun k => ?_, fun k => ?_⟩
  · rw [(hk k).2]; exact fl_nonneg (hk k).1
  · rw [(hk k).2]
    have := fl_err ((e[k]?).getD 0)
    rw [abs_of_nonneg (hk k).1] at this
    rw [div_mul_eq_mul_div, one_mul]
    exact this

theorem Tbl.refl {t : List ℚ} (h : ∀ x ∈ t, 0 ≤ x) : Tbl 0 t t := by
  have : ∀ k : Nat, 0 ≤ (t[k]?).getD 0 := by
    intro k
    cases hk : t[k]? with
    | none => exact le_rfl
    | some x => exact h x (List.mem_of_getElem? hk)
  exact ⟨rfl, this, this, fun k => by simp⟩

section
variable [LinearOrder κ] [DecidableEq δ]

/-- what is known of an occurrence of a doc in one of the runs -/
def Occurs {π : Type*} (runs : List (Dict κ (Results δ ℚ))) (o : Spec.Occurrence π ℚ) : Prop :=
  o.pos < o.count ∧ ∃ run ∈ runs, ∃ p ∈ run, p.2.length = o.count ∧ ∃ x ∈ p.2, x.2 = o.score

theorem occ_forall₂ {π π' : Type*} (R : π → π' → Prop) (runs : List (Dict κ (Results δ ℚ))) {E : List π} {T : List π'}
    (h : List.Forall₂ R E T) (q : κ) (d : δ) :
    List.Forall₂ (fun o o' => o'.pos = o.pos ∧ o'.score = o.score ∧ o'.count = o.count ∧ R o.param o'.param ∧ Occurs runs o)
      (Spec.occurrences runs E q d) (Spec.occurrences runs T q d) := by
  suffices hg : ∀ rs : List (Dict κ (Results δ ℚ)), (∀ r ∈ rs, r ∈ runs) →
      List.Forall₂ (fun o o' => o'.pos = o.pos ∧ o'.score = o.score ∧ o'.count = o.count ∧ R o.param o'.param ∧ Occurs runs o)
      (Spec.occurrences rs E q d) (Spec.occurrences rs T q d) from hg runs (fun _ h => h)
  intro rs hrs
  unfold Spec.occurrences
  induction h generalizing rs with
  | nil => simp
  | @cons e t E T het _ ih =>
    cases rs with
    | nil => simp
    | cons r rs =>
      have hI := ih rs (fun r' h' => hrs r' (List.mem_cons_of_mem _ h'))
      simp only [List.zip_cons_cons]
      cases hq : r.get? q with
      | none =>
        rw [List.filterMap_cons_none (by simp [hq]), List.filterMap_cons_none (by simp [hq])]
        exact hI
      | some row =>
        cases hi : row.keys.idxOf? d with
        | none =>
          rw [List.filterMap_cons_none (by simp [hq, hi]), List.filterMap_cons_none (by simp [hq, hi])]
          exact hI
        | some i =>
          cases hs : row.get? d with
          | none =>
            rw [List.filterMap_cons_none (by simp [hq, hi, hs]), List.filterMap_cons_none (by simp [hq, hi, hs])]
            exact hI
          | some s =>
            rw [List.filterMap_cons_some (b := ⟨i, s, e, row.length⟩) (by simp [hq, hi, hs]),
              List.filterMap_cons_some (b := ⟨i, s, t, row.length⟩) (by simp [hq, hi, hs])]
            refine List.Forall₂.cons ⟨rfl, rfl, rfl, het, ?_, r, hrs r List.mem_cons_self, (q, row), mem_of_get? hq, rfl,
              (d, s), mem_of_get? hs, rfl⟩ hI
            have : i < row.keys.length := by
              have hlt := List.findIdx?_eq_some_iff_findIdx_eq.1 hi
              exact hlt.1
            rw [length_keys] at this
            exact this

theorem forall₂_and_right {π π' : Type*} {R : π → π' → Prop} {P : π' → Prop} {E : List π} {T : List π'}
    (h : List.Forall₂ R E T) (hP : ∀ t ∈ T, P t) : List.Forall₂ (fun e t => R e t ∧ P t) E T := by
  induction h with
  | nil => exact .nil
  | cons hR _ ih => exact .cons ⟨hR, hP _ List.mem_cons_self⟩ (ih (fun t ht => hP t (List.mem_cons_of_mem _ ht)))

theorem occ_length_le {π : Type*} (runs : List (Dict κ (Results δ ℚ))) (params : List π) (q : κ) (d : δ) :
    (Spec.occurrences runs params q d).length ≤ runs.length := by
  unfold Spec.occurrences
  refine (List.length_filterMap_le _ _).trans ?_
  rw [List.length_zip]; exact min_le_left _ _

/-- rescoring with a parameter per run, then the float sum -/
theorem flOcc_sum {π : Type*} (S : ArgSort ℚ) (sched : List Nat) (scheds : Nat → List Nat)
    (f : π → Results δ ℚ → Results δ ℚ) (g : π → Results δ ℚ → Nat → ℚ → ℚ)
    (hfg : ∀ p r, f p r = rankLoop (g p r) r) (params : List π) (h : Spec.Occurrence π ℚ → ℚ)
    (runs : List (Dict κ (Results δ ℚ))) (hl : runs.length ≤ params.length)
    (hh : ∀ p r i s, i < r.length → g p r i s = h ⟨i, s, p, r.length⟩)
    (hf : Spec.Fusable runs) (hs : Schedule (queryCount runs) sched)
    (hss : ∀ (j : Nat) run, runs[j]? = some run → Schedule run.length (scheds j)) :
    ∃ out, rescoreThen S sched scheds f params (sumScore fl) runs = .ok out ∧
      Spec.FusedBy runs (fun q d => Norm.Rnd.sum fl ((Spec.occurrences runs params q d).map h)) out := by
  have hsc := scores_occ f h runs params hf.nodupD
    (fun p r hr d => by
      rw [hfg, get?_rankLoop_occ _ r hr d]
      cases hi : List.idxOf? d r.keys with
      | none => rfl
      | some i =>
        have hlt : i < r.length := by
          have := (List.getElem?_eq_some_iff.1 ((idxOf?_eq_some_iff hr).1 hi)).1
          simpa using this
        simp only [Option.bind_some]
        cases r.get? d with
        | none => rfl
        | some s => simp only [Option.map_some, hh p r i s hlt])
  obtain ⟨out, h1, h2⟩ := rescoreThen_spec S f
    (fun p r hr => by rw [hfg]; exact keys_rankLoop _ r hr)
    (fun p r => by rw [hfg]; exact nodupKeys_rankLoop _ r) params (sumScore fl)
    (fun rs d => Norm.Rnd.sum fl (rs.map (fun res => (res.get? d).getD 0))) sched scheds runs hf hl hs hss
    (fun q d => rfl)
  refine ⟨out, h1, FusedBy_congr h2 ?_⟩
  intro q d _
  have := flSumScore_eq ((runs.zip params).map (fun rp => mapRun (fun _ r => f rp.2 r) rp.1)) q d
  unfold sumScore at this
  rw [Except.ok.inj this, hsc]

/-- the errors of tables, rescoring and summing, put together -/
theorem occ_close {π π' : Type*} (R : π → π' → Prop) (runs : List (Dict κ (Results δ ℚ))) {E : List π} {T : List π'}
    (hET : List.Forall₂ R E T) (c : ℚ) (hc : 0 ≤ c) (k : Nat) (h : Spec.Occurrence π ℚ → ℚ)
    (h' hF : Spec.Occurrence π' ℚ → ℚ)
    (hrel : ∀ o o', o'.pos = o.pos → o'.score = o.score → o'.count = o.count → R o.param o'.param → Occurs runs o →
      0 ≤ h o ∧ 0 ≤ h' o' ∧ |h' o' - h o| ≤ c / 2 ^ 53 * h o ∧ NearK k (h' o') (hF o'))
    (hn : runs.length + k ≤ 2 ^ 52) (q : κ) (d : δ) :
    |Norm.Rnd.sum fl ((Spec.occurrences runs T q d).map hF) - ((Spec.occurrences runs E q d).map h).sum| ≤
      (c / 2 ^ 53 + 2 * ((runs.length + k : Nat) : ℚ) / 2 ^ 53 + c / 2 ^ 53 * (2 * ((runs.length + k : Nat) : ℚ) / 2 ^ 53)) *
        ((Spec.occurrences runs E q d).map h).sum := by
  have hocc := occ_forall₂ R runs hET q d
  have hall := hocc.imp (fun o o' hh => hrel o o' hh.1 hh.2.1 hh.2.2.1 hh.2.2.2.1 hh.2.2.2.2)
  have h1 : |((Spec.occurrences runs T q d).map h').sum - ((Spec.occurrences runs E q d).map h).sum| ≤
      c / 2 ^ 53 * ((Spec.occurrences runs E q d).map h).sum := by
    apply sum_rel
    rw [List.forall₂_map_left_iff, List.forall₂_map_right_iff]
    exact hall.imp (fun o o' hh => hh.2.2.1)
  have hpos : ∀ o' ∈ Spec.occurrences runs T q d, 0 ≤ h' o' ∧ NearK k (h' o') (hF o') := by
    intro o' ho'
    obtain ⟨o, -, hh⟩ := forall₂_mem_right hall ho'
    exact ⟨hh.2.1, hh.2.2.2⟩
  have h0 : ∀ x ∈ (Spec.occurrences runs T q d).map h', 0 ≤ x := by
    intro x hx
    obtain ⟨o', ho', rfl⟩ := List.mem_map.1 hx
    exact (hpos o' ho').1
  have h2 : NearK (runs.length + k) ((Spec.occurrences runs T q d).map h').sum
      (Norm.Rnd.sum fl ((Spec.occurrences runs T q d).map hF)) := by
    refine (flSum_near k _ _ ?_ h0).mono (List.sum_nonneg h0) ?_
    · rw [List.forall₂_map_left_iff, List.forall₂_map_right_iff, List.forall₂_same]
      exact fun o' ho' => (hpos o' ho').2
    · rw [List.length_map]
      have := occ_length_le runs T q d
      omega
  exact rel_trans h1 (h2.abs (List.sum_nonneg h0) hn) (by positivity)


theorem bound_le {n k : Nat} {c : ℚ} (hn : c * (2 * ((n + k : Nat) : ℚ)) ≤ 2 ^ 53) :
    c / 2 ^ 53 + 2 * ((n + k : Nat) : ℚ) / 2 ^ 53 + c / 2 ^ 53 * (2 * ((n + k : Nat) : ℚ) / 2 ^ 53) ≤
      (c + 2 * ((n + k : Nat) : ℚ) + 1) / 2 ^ 53 := by
  generalize 2 * ((n + k : Nat) : ℚ) = m at *
  have e : c / 2 ^ 53 * (m / 2 ^ 53) = c * m / 2 ^ 53 / 2 ^ 53 := by ring
  have h : c * m / 2 ^ 53 ≤ 1 := (div_le_one (by positivity)).2 hn
  rw [e, add_div, add_div]
  exact add_le_add le_rfl (div_le_div_of_nonneg_right h (by positivity))

theorem div_rel {ε x y m : ℚ} (hm : 0 ≤ m) (h : |y - x| ≤ ε * x) : |y / m - x / m| ≤ ε * (x / m) := by
  rw [← sub_div, abs_div, abs_of_nonneg hm, ← mul_div_assoc]
  exact div_le_div_of_nonneg_right h hm

theorem Tbl.entry {c : ℚ} {e t : List ℚ} (h : Tbl c e t) (k : Nat) : 0 ≤ (e[k]?).getD 0 ∧ 0 ≤ (t[k]?).getD 0 ∧
    |(t[k]?).getD 0 - (e[k]?).getD 0| ≤ c / 2 ^ 53 * (e[k]?).getD 0 := ⟨h.nonneg k, h.nonneg' k, h.close k⟩

theorem window_eq (n w i : Nat) (hi : i < n) :
    (List.range n).filter (fun j => decide (i ≤ j + w ∧ j ≤ i + w)) =
      (List.range (min (i + w) (n - 1) + 1 - (i - w))).map (fun j => (i - w) + j) := by
  apply eq_of_mem_iff_of_sorted_lt
  · exact (List.pairwise_lt_range).filter _
  · rw [List.pairwise_map]
    exact (List.pairwise_lt_range).imp (by intro a b h; omega)
  · intro x
    simp only [List.mem_filter, List.mem_range, decide_eq_true_eq, List.mem_map]
    constructor
    · rintro ⟨h1, h2, h3⟩
      exact ⟨x - (i - w), by omega, by omega⟩
    · rintro ⟨j, hj, rfl⟩
      omega

theorem prob_fill (v : Nat → ℚ) (c n m i : Nat) (hi : i < n) (hmul : n ≤ m * c) :
    ((List.range m).foldl (fun a (k : Nat) => assignSlice a (k * c) ((k + 1) * c) (v k)) (List.replicate n (0 : ℚ)))[i]? =
      some (v (i / c)) := by
  have hcpos : 0 < c := by
    rcases Nat.eq_zero_or_pos c with h | h
    · subst h; omega
    · exact h
  rw [fill_getElem? (fun k => k * c) (fun k => (k + 1) * c) v n i hi m (i / c) (by
      intro k _
      constructor
      · rintro ⟨h1, h2⟩
        exact ((Nat.div_eq_iff hcpos).2 ⟨h1, by rw [Nat.add_mul] at h2; omega⟩).symm
      · rintro rfl
        refine ⟨Nat.div_mul_le_self i c, ?_⟩
        rw [Nat.mul_comm]; exact Nat.lt_mul_div_succ i hcpos)]
  rw [if_pos]
  rw [Nat.div_lt_iff_lt_mul hcpos]
  omega

theorem seg_fill (p : List ℚ) (n i : Nat) (hi : i < n) :
    ((List.range p.length).foldl (fun a (k : Nat) =>
      assignSlice a ((segmentSizes[k]?).getD 0) ((segmentSizes[k + 1]?).getD 0) ((p[k]?).getD 0))
      (List.replicate n 0))[i]? = some (((Spec.segFuseSegment i).bind (fun k => p[k]?)).getD 0) := by
  cases hseg : Spec.segFuseSegment i with
  | none =>
    rw [fill_getElem? (fun k => (segmentSizes[k]?).getD 0) (fun k => (segmentSizes[k + 1]?).getD 0)
      (fun k => (p[k]?).getD 0) n i hi p.length p.length
      (by
        intro k hk
        constructor
        · intro h
          exact absurd h (segment_none hseg k)
        · intro h; omega)]
    simp
  | some k0 =>
    rw [fill_getElem? (fun k => (segmentSizes[k]?).getD 0) (fun k => (segmentSizes[k + 1]?).getD 0)
      (fun k => (p[k]?).getD 0) n i hi p.length k0 (fun k _ => segment_some hseg k)]
    simp only [Option.bind_some]
    by_cases hk : k0 < p.length
    · rw [if_pos hk]
    · rw [if_neg hk, List.getElem?_eq_none (not_lt.1 hk)]; rfl

theorem Occurs.short {π : Type*} {runs : List (Dict κ (Results δ ℚ))} {o : Spec.Occurrence π ℚ} (h : Occurs runs o)
    (hs : Spec.ShortLists runs) : o.count < 2 ^ 53 := by
  obtain ⟨-, run, hr, p, hp, he, -⟩ := h
  rw [← he]
  exact hs run hr p hp

theorem Occurs.from {π : Type*} {runs : List (Dict κ (Results δ ℚ))} {o : Spec.Occurrence π ℚ} (h : Occurs runs o)
    (hs : Spec.ScoresFromMinusOne runs) : -1 ≤ o.score := by
  obtain ⟨-, run, hr, p, hp, -, x, hx, he⟩ := h
  rw [← he]
  exact hs run hr p hp x hx

variable (S : ArgSort ℚ) (sched : List Nat) (scheds : Nat → List Nat) (runs : List (Dict κ (Results δ ℚ)))
  (hf : Spec.Fusable runs) (hs : Schedule (queryCount runs) sched)
  (hss : ∀ (j : Nat) run, runs[j]? = some run → Schedule run.length (scheds j))
include hf hs hss

theorem posfuse_close {E T : List (List ℚ)} {c : ℚ} (hc : 0 ≤ c) (hET : List.Forall₂ (Tbl c) E T)
    (hl : runs.length ≤ E.length) (hn : runs.length ≤ 2 ^ 52) (hb : c * (2 * ((runs.length + 0 : Nat) : ℚ)) ≤ 2 ^ 53) :
    ∃ outE out, Fuse.posfuse S sched scheds E runs = .ok outE ∧ posfuse fl S sched scheds T runs = .ok out ∧
      Spec.CloseFusion runs ((c + 2 * ((runs.length + 0 : Nat) : ℚ) + 1) / 2 ^ 53) outE out := by
  obtain ⟨outE, e1, e2⟩ := C58_posfuse S sched scheds E runs hl hf hs hss
  obtain ⟨out, h1, h2⟩ := flOcc_sum S sched scheds posScore
    (fun p _ i _ => if i < p.length then (p[i]?).getD 0 else 0) (fun _ _ => rfl) T
    (fun o => (o.param[o.pos]?).getD 0) runs (by rw [← hET.length_eq]; exact hl) (by
      intro p r i s _
      by_cases hi : i < p.length
      · simp only [if_pos hi]
      · simp only [if_neg hi, List.getElem?_eq_none (not_lt.1 hi), Option.getD_none]) hf hs hss
  refine ⟨outE, out, e1, h1, _, _, e2, h2, ?_⟩
  intro q d
  have hh0 : ∀ x ∈ (Spec.occurrences runs E q d).map (fun o => (o.param[o.pos]?).getD 0), (0 : ℚ) ≤ x := by
    intro x hx
    obtain ⟨o, ho, rfl⟩ := List.mem_map.1 hx
    obtain ⟨o', -, hh⟩ := forall₂_mem_left (occ_forall₂ (Tbl c) runs hET q d) ho
    exact hh.2.2.2.1.nonneg _
  refine (occ_close (Tbl c) runs hET c hc 0 (fun o => (o.param[o.pos]?).getD 0) (fun o => (o.param[o.pos]?).getD 0)
    (fun o => (o.param[o.pos]?).getD 0) ?_ (by omega) q d).trans (mul_le_mul_of_nonneg_right (bound_le hb) (List.sum_nonneg hh0))
  intro o o' hp _ _ hR _
  rw [hp]
  exact ⟨(hR.entry _).1, (hR.entry _).2.1, (hR.entry _).2.2, NearK.refl _⟩

theorem slidefuse_close {E T : List (List ℚ)} (w : Nat) {c : ℚ} (hc : 0 ≤ c) (hET : List.Forall₂ (Tbl c) E T)
    (hl : runs.length ≤ E.length) (hshort : Spec.ShortLists runs) (hn : runs.length + (2 * w + 2) ≤ 2 ^ 52)
    (hb : c * (2 * ((runs.length + (2 * w + 2) : Nat) : ℚ)) ≤ 2 ^ 53) :
    ∃ outE out, Fuse.slidefuse S sched scheds E w runs = .ok outE ∧ slidefuse fl S sched scheds T w runs = .ok out ∧
      Spec.CloseFusion runs ((c + 2 * ((runs.length + (2 * w + 2) : Nat) : ℚ) + 1) / 2 ^ 53) outE out := by
  obtain ⟨outE, e1, e2⟩ := C58_slidefuse S sched scheds E w runs hl hf hs hss
  obtain ⟨out, h1, h2⟩ := flOcc_sum S sched scheds (fun p => slideScore fl p w)
    (fun p r i _ => fl (Norm.Rnd.sum fl (slice p (i - w) (min (i + w) (r.length - 1) + 1)) /
      fl ((min (i + w) (r.length - 1) + 1 - (i - w) : Nat) : ℚ))) (fun _ _ => rfl) T
    (fun o => fl (Norm.Rnd.sum fl (slice o.param (o.pos - w) (min (o.pos + w) (o.count - 1) + 1)) /
      fl ((min (o.pos + w) (o.count - 1) + 1 - (o.pos - w) : Nat) : ℚ)))
    runs (by rw [← hET.length_eq]; exact hl) (fun _ _ _ _ _ => rfl) hf hs hss
  refine ⟨outE, out, e1, h1, _, _, e2, h2, ?_⟩
  intro q d
  set h : Spec.Occurrence (List ℚ) ℚ → ℚ := fun o =>
        let window := (List.range o.count).filter (fun j => decide (o.pos ≤ j + w ∧ j ≤ o.pos + w))
        (window.map (fun j => (o.param[j]?).getD 0)).sum / (window.length : ℚ) with hh
  have hnn : ∀ {e t : List ℚ} (_ : Tbl c e t) (W : List Nat),
      0 ≤ (W.map (fun j => (e[j]?).getD 0)).sum ∧ 0 ≤ (W.map (fun j => (t[j]?).getD 0)).sum ∧
      |(W.map (fun j => (t[j]?).getD 0)).sum - (W.map (fun j => (e[j]?).getD 0)).sum| ≤
        c / 2 ^ 53 * (W.map (fun j => (e[j]?).getD 0)).sum := by
    intro e t hR W
    refine ⟨List.sum_nonneg ?_, List.sum_nonneg ?_, sum_rel ?_⟩
    · intro x hx; obtain ⟨j, -, rfl⟩ := List.mem_map.1 hx; exact hR.nonneg j
    · intro x hx; obtain ⟨j, -, rfl⟩ := List.mem_map.1 hx; exact hR.nonneg' j
    · rw [List.forall₂_map_left_iff, List.forall₂_map_right_iff, List.forall₂_same]
      exact fun j _ => hR.close j
  have hh0 : ∀ x ∈ (Spec.occurrences runs E q d).map h, (0 : ℚ) ≤ x := by
    intro x hx
    obtain ⟨o, ho, rfl⟩ := List.mem_map.1 hx
    obtain ⟨o', -, hh'⟩ := forall₂_mem_left (occ_forall₂ (Tbl c) runs hET q d) ho
    exact div_nonneg (hnn hh'.2.2.2.1 _).1 (Nat.cast_nonneg _)
  refine (occ_close (Tbl c) runs hET c hc (2 * w + 2) h h _ ?_ hn q d).trans
    (mul_le_mul_of_nonneg_right (bound_le hb) (List.sum_nonneg hh0))
  intro o o' hp _ hcnt hR hO
  have hlt := hO.1
  have hsh := hO.short hshort
  simp only [hh]
  rw [hp, hcnt]
  obtain ⟨a1, a2, a3⟩ := hnn hR ((List.range o.count).filter (fun j => decide (o.pos ≤ j + w ∧ j ≤ o.pos + w)))
  refine ⟨div_nonneg a1 (Nat.cast_nonneg _), div_nonneg a2 (Nat.cast_nonneg _), div_rel (Nat.cast_nonneg _) a3, ?_⟩
  rw [window_eq o.count w o.pos hlt, List.map_map, List.length_map, List.length_range]
  have hsum := slice_sum_eq o'.param (o.pos - w) (min (o.pos + w) (o.count - 1) + 1)
  have hm : 0 < min (o.pos + w) (o.count - 1) + 1 - (o.pos - w) := by omega
  have hm53 : min (o.pos + w) (o.count - 1) + 1 - (o.pos - w) ≤ 2 ^ 53 := by omega
  rw [fl_nat hm53]
  have hsl : ∀ x ∈ slice o'.param (o.pos - w) (min (o.pos + w) (o.count - 1) + 1), 0 ≤ x := by
    intro x hx
    unfold slice at hx
    obtain ⟨j, hj⟩ := List.mem_iff_getElem?.1 (List.mem_of_mem_take (List.mem_of_mem_drop hx))
    have := hR.nonneg' j
    rw [hj] at this
    exact this
  have hnear := flSum_near 0 _ _ (forall₂_near_refl (slice o'.param (o.pos - w) (min (o.pos + w) (o.count - 1) + 1))) hsl
  rw [hsum] at hnear
  have hS0 : 0 ≤ ((List.range (min (o.pos + w) (o.count - 1) + 1 - (o.pos - w))).map
      (fun j => (o'.param[o.pos - w + j]?).getD 0)).sum := by
    rw [← hsum]; exact List.sum_nonneg hsl
  have hq : (0 : ℚ) < ((min (o.pos + w) (o.count - 1) + 1 - (o.pos - w) : Nat) : ℚ) := by exact_mod_cast hm
  refine ((hnear.div_exact hq).fl (div_nonneg hS0 hq.le)).mono (div_nonneg hS0 hq.le) ?_
  unfold slice
  rw [List.length_drop, List.length_take]
  omega

theorem probfuse_close {E T : List (List ℚ)} {c : ℚ} (hc : 0 ≤ c) (hET : List.Forall₂ (Tbl c) E T)
    (hl : runs.length ≤ E.length) (hshort : Spec.ShortLists runs) (hne : ∀ e ∈ E, e ≠ []) (hlen : ∀ e ∈ E, e.length ≤ 2 ^ 53)
    (hn : runs.length + 1 ≤ 2 ^ 52) (hb : c * (2 * ((runs.length + 1 : Nat) : ℚ)) ≤ 2 ^ 53) :
    ∃ outE out, Fuse.probfuse S sched scheds E runs = .ok outE ∧ probfuse fl S sched scheds T runs = .ok out ∧
      Spec.CloseFusion runs ((c + 2 * ((runs.length + 1 : Nat) : ℚ) + 1) / 2 ^ 53) outE out := by
  obtain ⟨outE, e1, e2⟩ := C58_probfuse S sched scheds E hne runs hl hf hs hss
  have hT : ∀ t ∈ T, t ≠ [] ∧ t.length ≤ 2 ^ 53 := by
    intro t ht
    obtain ⟨e, he, hR⟩ := forall₂_mem_right hET ht
    refine ⟨fun h0 => hne e he ?_, by rw [hR.length]; exact hlen e he⟩
    rw [h0] at hR
    exact List.length_eq_zero_iff.1 hR.length.symm
  obtain ⟨out, h1, h2⟩ := flOcc_sum S sched scheds (probScore fl) (fun p r i _ =>
    (((List.range p.length).foldl (fun a (k : Nat) =>
      assignSlice a (k * ceilDiv fl r.length p.length) ((k + 1) * ceilDiv fl r.length p.length)
        (fl ((p[k]?).getD 0 / fl ((k + 1 : Nat) : ℚ)))) (List.replicate r.length 0))[i]?).getD 0)
    (fun _ _ => rfl) T (fun o => (((List.range o.param.length).foldl (fun a (k : Nat) =>
      assignSlice a (k * ceilDiv fl o.count o.param.length) ((k + 1) * ceilDiv fl o.count o.param.length)
        (fl ((o.param[k]?).getD 0 / fl ((k + 1 : Nat) : ℚ)))) (List.replicate o.count 0))[o.pos]?).getD 0)
    runs (by rw [← hET.length_eq]; exact hl) (fun _ _ _ _ _ => rfl) hf hs hss
  refine ⟨outE, out, e1, ?_, _, _, e2, h2, ?_⟩
  · unfold probfuse
    rw [if_neg (by
      intro h
      obtain ⟨p, hpm, he⟩ := List.any_eq_true.1 h
      exact (hT p (List.mem_of_mem_take hpm)).1 (List.isEmpty_iff.1 he))]
    exact h1
  intro q d
  set h : Spec.Occurrence (List ℚ) ℚ → ℚ := fun o =>
        let segment : Nat := o.pos / (o.count ⌈/⌉ o.param.length)
        (o.param[segment]?).getD 0 / ((segment : ℚ) + 1) with hh
  have hh0 : ∀ x ∈ (Spec.occurrences runs E q d).map h, (0 : ℚ) ≤ x := by
    intro x hx
    obtain ⟨o, ho, rfl⟩ := List.mem_map.1 hx
    obtain ⟨o', -, hh'⟩ := forall₂_mem_left (occ_forall₂ (Tbl c) runs hET q d) ho
    exact div_nonneg (hh'.2.2.2.1.nonneg _) (by positivity)
  have hET' : List.Forall₂ (fun e t => Tbl c e t ∧ t ≠ [] ∧ t.length ≤ 2 ^ 53) E T :=
    forall₂_and_right hET hT
  refine (occ_close (fun e t => Tbl c e t ∧ t ≠ [] ∧ t.length ≤ 2 ^ 53) runs hET' c hc 1 h h _ ?_ hn q d).trans
    (mul_le_mul_of_nonneg_right (bound_le hb) (List.sum_nonneg hh0))
  intro o o' hp _ hcnt hR hO
  obtain ⟨hR, hne', hl53⟩ := hR
  have hlt := hO.1
  have hsh := hO.short hshort
  have hpos : 0 < o'.param.length := List.length_pos_iff.2 hne'
  simp only [hh]
  rw [hp, hcnt, ← hR.length]
  have hcd : o.count ⌈/⌉ o'.param.length = Fuse.ceilDiv o.count o'.param.length := by
    rw [Nat.ceilDiv_eq_add_pred_div]; rfl
  have hmul : o.count ≤ o'.param.length * Fuse.ceilDiv o.count o'.param.length := by
    unfold Fuse.ceilDiv
    have h1 := Nat.div_add_mod (o.count + o'.param.length - 1) o'.param.length
    have h2 := Nat.mod_lt (o.count + o'.param.length - 1) hpos
    omega
  rw [hcd, ceilDiv_fl o.count o'.param.length hpos hsh hl53]
  generalize Fuse.ceilDiv o.count o'.param.length = m at hmul
  rw [prob_fill (fun k => fl ((o'.param[k]?).getD 0 / fl ((k + 1 : Nat) : ℚ))) m o.count o'.param.length o.pos hlt hmul,
    Option.getD_some]
  obtain ⟨a1, a2, a3⟩ := hR.entry (o.pos / m)
  have hdle : o.pos / m ≤ o.pos := Nat.div_le_self _ _
  rw [fl_nat (show o.pos / m + 1 ≤ 2 ^ 53 by omega)]
  push_cast
  refine ⟨div_nonneg a1 (by positivity), div_nonneg a2 (by positivity), div_rel (by positivity) a3, ?_⟩
  exact (NearK.refl _).fl (div_nonneg a2 (by positivity))

theorem segfuse_close {E T : List (List ℚ)} {c : ℚ} (hc : 0 ≤ c) (hET : List.Forall₂ (Tbl c) E T)
    (hl : runs.length ≤ E.length) (hsc : Spec.ScoresFromMinusOne runs) (hlen : ∀ e ∈ E, e.length ≤ 10)
    (hn : runs.length + 2 ≤ 2 ^ 52) (hb : c * (2 * ((runs.length + 2 : Nat) : ℚ)) ≤ 2 ^ 53) :
    ∃ outE out, Fuse.segfuse S sched scheds E runs = .ok outE ∧ segfuse fl S sched scheds T runs = .ok out ∧
      Spec.CloseFusion runs ((c + 2 * ((runs.length + 2 : Nat) : ℚ) + 1) / 2 ^ 53) outE out := by
  obtain ⟨outE, e1, e2⟩ := C58_segfuse S sched scheds E hlen runs hl hf hs hss
  have hT : ∀ t ∈ T, t.length ≤ 10 := by
    intro t ht
    obtain ⟨e, he, hR⟩ := forall₂_mem_right hET ht
    rw [hR.length]; exact hlen e he
  obtain ⟨out, h1, h2⟩ := flOcc_sum S sched scheds (segScore fl) (fun p r i s =>
    fl ((((List.range p.length).foldl (fun a (k : Nat) =>
      assignSlice a ((segmentSizes[k]?).getD 0) ((segmentSizes[k + 1]?).getD 0) ((p[k]?).getD 0))
      (List.replicate r.length 0))[i]?).getD 0 * fl (s + 1)))
    (fun _ _ => rfl) T (fun o => fl (((Spec.segFuseSegment o.pos).bind (fun k => o.param[k]?)).getD 0 * fl (o.score + 1)))
    runs (by rw [← hET.length_eq]; exact hl) (by
      intro p r i s hi
      simp only
      rw [seg_fill p r.length i hi, Option.getD_some]) hf hs hss
  refine ⟨outE, out, e1, ?_, _, _, e2, h2, ?_⟩
  · unfold segfuse
    rw [if_neg (by
      intro h
      obtain ⟨p, hpm, he⟩ := List.any_eq_true.1 h
      have := hT p (List.mem_of_mem_take hpm)
      simp at he; omega)]
    exact h1
  intro q d
  have hent : ∀ {e t : List ℚ} (_ : Tbl c e t) (i : Nat), 0 ≤ ((Spec.segFuseSegment i).bind (fun k => e[k]?)).getD 0 ∧
      0 ≤ ((Spec.segFuseSegment i).bind (fun k => t[k]?)).getD 0 ∧
      |((Spec.segFuseSegment i).bind (fun k => t[k]?)).getD 0 - ((Spec.segFuseSegment i).bind (fun k => e[k]?)).getD 0| ≤
        c / 2 ^ 53 * ((Spec.segFuseSegment i).bind (fun k => e[k]?)).getD 0 := by
    intro e t hR i
    cases Spec.segFuseSegment i with
    | none => simp
    | some k => exact hR.entry k
  have hh0 : ∀ x ∈ (Spec.occurrences runs E q d).map (fun o =>
        ((Spec.segFuseSegment o.pos).bind (fun k => o.param[k]?)).getD 0 * (o.score + 1)), (0 : ℚ) ≤ x := by
    intro x hx
    obtain ⟨o, ho, rfl⟩ := List.mem_map.1 hx
    obtain ⟨o', -, hh'⟩ := forall₂_mem_left (occ_forall₂ (Tbl c) runs hET q d) ho
    exact mul_nonneg (hent hh'.2.2.2.1 _).1 (by linarith [hh'.2.2.2.2.from hsc])
  refine (occ_close (Tbl c) runs hET c hc 2 (fun o =>
        ((Spec.segFuseSegment o.pos).bind (fun k => o.param[k]?)).getD 0 * (o.score + 1)) (fun o =>
        ((Spec.segFuseSegment o.pos).bind (fun k => o.param[k]?)).getD 0 * (o.score + 1)) _ ?_ hn q d).trans
    (mul_le_mul_of_nonneg_right (bound_le hb) (List.sum_nonneg hh0))
  intro o o' hp hscore _ hR hO
  have hge := hO.from hsc
  rw [hp, hscore]
  obtain ⟨a1, a2, a3⟩ := hent hR o.pos
  have hs1 : 0 ≤ o.score + 1 := by linarith
  refine ⟨mul_nonneg a1 hs1, mul_nonneg a2 hs1, ?_, ?_⟩
  · rw [← sub_mul, abs_mul, abs_of_nonneg hs1, ← mul_assoc]
    exact mul_le_mul_of_nonneg_right a3 hs1
  · have := ((NearK.refl (((Spec.segFuseSegment o.pos).bind (fun k => o'.param[k]?)).getD 0)).mul
      ((NearK.refl (o.score + 1)).fl hs1) a2 hs1).fl (mul_nonneg a2 hs1)
    exact this

theorem mapfuse_close {maps : List ℚ} (hm : ∀ m ∈ maps, 0 ≤ m) (hl : runs.length ≤ maps.length) (hshort : Spec.ShortLists runs)
    (hn : runs.length + 1 ≤ 2 ^ 52) :
    ∃ outE out, Fuse.mapfuse S sched scheds maps runs = .ok outE ∧ mapfuse fl S sched scheds maps runs = .ok out ∧
      Spec.CloseFusion runs ((0 + 2 * ((runs.length + 1 : Nat) : ℚ) + 1) / 2 ^ 53) outE out := by
  obtain ⟨outE, e1, e2⟩ := C58_mapfuse S sched scheds maps runs hl hf hs hss
  obtain ⟨out, h1, h2⟩ := flOcc_sum S sched scheds (mapScore fl) (fun p _ i _ => fl (p / fl ((i + 1 : Nat) : ℚ)))
    (fun _ _ => rfl) maps (fun o => fl (o.param / fl ((o.pos + 1 : Nat) : ℚ))) runs hl (fun _ _ _ _ _ => rfl) hf hs hss
  refine ⟨outE, out, e1, h1, _, _, e2, h2, ?_⟩
  intro q d
  have hET : List.Forall₂ (fun a b : ℚ => b = a ∧ 0 ≤ a) maps maps := List.forall₂_same.2 (fun m h => ⟨rfl, hm m h⟩)
  have hh0 : ∀ x ∈ (Spec.occurrences runs maps q d).map (fun o => o.param / ((o.pos : ℚ) + 1)), (0 : ℚ) ≤ x := by
    intro x hx
    obtain ⟨o, ho, rfl⟩ := List.mem_map.1 hx
    obtain ⟨o', -, hh'⟩ := forall₂_mem_left (occ_forall₂ _ runs hET q d) ho
    exact div_nonneg hh'.2.2.2.1.2 (by positivity)
  refine (occ_close _ runs hET 0 le_rfl 1 (fun o => o.param / ((o.pos : ℚ) + 1)) (fun o => o.param / ((o.pos : ℚ) + 1))
    (fun o => fl (o.param / fl ((o.pos + 1 : Nat) : ℚ))) ?_ hn q d).trans
    (mul_le_mul_of_nonneg_right (bound_le (by rw [zero_mul]; positivity)) (List.sum_nonneg hh0))
  intro o o' hp _ _ hR hO
  have hlt := hO.1
  have hsh := hO.short hshort
  rw [hp, hR.1, fl_nat (show o.pos + 1 ≤ 2 ^ 53 by omega)]
  push_cast
  have hnn : 0 ≤ o.param / ((o.pos : ℚ) + 1) := div_nonneg hR.2 (by positivity)
  exact ⟨hnn, hnn, by simp, (NearK.refl _).fl hnn⟩

end

end Fuse.Rnd

section
variable [LinearOrder κ] [DecidableEq δ] [LinearOrder ι] (S : ArgSort ℚ) (sched : List Nat) (scheds : Nat → List Nat)
  (runs : List (Dict κ (Results δ ℚ)))

omit [LinearOrder ι] in
theorem Spec.CloseFusion.weaken {runs : List (Dict κ (Results δ ℚ))} {ε ε' : ℚ} {exact out : Store κ δ ℚ}
    (h : Spec.CloseFusion runs ε exact out) (h0 : 0 < ε) (hle : ε ≤ ε') : Spec.CloseFusion runs ε' exact out := by
  obtain ⟨valE, val, hE, hO, hc⟩ := h
  refine ⟨valE, val, hE, hO, fun q d => (hc q d).trans ?_⟩
  have := (mul_nonneg_iff_of_pos_left h0).1 ((abs_nonneg _).trans (hc q d))
  exact mul_le_mul_of_nonneg_right hle this

omit [LinearOrder ι] in
/-- **C161** (order): docs whose exact scores differ by more than the error keep their order. -/
theorem C161_order {ε : ℚ} {exact out : Store κ δ ℚ} (h : Spec.CloseFusion runs ε exact out) (q : κ) (d e : δ) (x y : ℚ)
    (hd : (Spec.content exact).read q d = some x) (he : (Spec.content exact).read q e = some y)
    (hxy : y * (1 + ε) < x * (1 - ε)) :
    ∃ x' y', (Spec.content out).read q d = some x' ∧ (Spec.content out).read q e = some y' ∧ y' < x' := by
  obtain ⟨valE, val, hE, hO, hc⟩ := h
  have hid := (hE.docs q d).1 (by rw [hd]; exact Option.some_ne_none _)
  have hie := (hE.docs q e).1 (by rw [he]; exact Option.some_ne_none _)
  have ex : x = valE q d := Option.some.inj (hd.symm.trans (hE.value q d hid))
  have ey : y = valE q e := Option.some.inj (he.symm.trans (hE.value q e hie))
  refine ⟨_, _, hO.value q d hid, hO.value q e hie, ?_⟩
  have h1 := (abs_le.1 (hc q d)).1
  have h2 := (abs_le.1 (hc q e)).2
  rw [← ex] at h1
  rw [← ey] at h2
  linarith

variable (hf : Spec.Fusable runs) (hs : Schedule (queryCount runs) sched)
  (hss : ∀ (j : Nat) run, runs[j]? = some run → Schedule run.length (scheds j))
include hf hs hss

omit [LinearOrder ι] in
/-- **C161** (given tables): with `n` runs and tables of non-negative floats (posfuse, slidefuse, probfuse, segfuse) or
non-negative MAP scores (mapfuse), fusing in float64 gives the docs that exact arithmetic gives, each with the score
that exact arithmetic gives up to a relative error of `2(n+1)`, `2(n+2w+3)`, `2(n+2)`, `2(n+3)` and `2(n+2)` times
`2^-53`. -/
theorem C161_tables (tables : List (List ℚ)) (maps : List ℚ) (w : Nat) (h0 : ∀ t ∈ tables, ∀ v ∈ t, 0 ≤ v)
    (hm : ∀ m ∈ maps, 0 ≤ m) (hl : runs.length ≤ tables.length) (hl' : runs.length ≤ maps.length)
    (hshort : Spec.ShortLists runs) (hn : runs.length + (2 * w + 2) ≤ 2 ^ 52) :
    (∃ outE out, Fuse.posfuse S sched scheds tables runs = .ok outE ∧
      Fuse.Rnd.posfuse fl S sched scheds tables runs = .ok out ∧
      Spec.CloseFusion runs (2 * ((runs.length + 1 : Nat) : ℚ) / 2 ^ 53) outE out) ∧
    (∃ outE out, Fuse.slidefuse S sched scheds tables w runs = .ok outE ∧
      Fuse.Rnd.slidefuse fl S sched scheds tables w runs = .ok out ∧
      Spec.CloseFusion runs (2 * ((runs.length + 2 * w + 3 : Nat) : ℚ) / 2 ^ 53) outE out) ∧
    ((∀ t ∈ tables, t ≠ [] ∧ t.length ≤ 2 ^ 53) → ∃ outE out, Fuse.probfuse S sched scheds tables runs = .ok outE ∧
      Fuse.Rnd.probfuse fl S sched scheds tables runs = .ok out ∧
      Spec.CloseFusion runs (2 * ((runs.length + 2 : Nat) : ℚ) / 2 ^ 53) outE out) ∧
    ((∀ t ∈ tables, t.length ≤ 10) → Spec.ScoresFromMinusOne runs → ∃ outE out,
      Fuse.segfuse S sched scheds tables runs = .ok outE ∧ Fuse.Rnd.segfuse fl S sched scheds tables runs = .ok out ∧
      Spec.CloseFusion runs (2 * ((runs.length + 3 : Nat) : ℚ) / 2 ^ 53) outE out) ∧
    (∃ outE out, Fuse.mapfuse S sched scheds maps runs = .ok outE ∧ Fuse.Rnd.mapfuse fl S sched scheds maps runs = .ok out ∧
      Spec.CloseFusion runs (2 * ((runs.length + 2 : Nat) : ℚ) / 2 ^ 53) outE out) := by
  have hT : List.Forall₂ (Fuse.Rnd.Tbl 0) tables tables := List.forall₂_same.2 (fun t ht => Fuse.Rnd.Tbl.refl (h0 t ht))
  have hz : ∀ x : ℚ, 0 * x ≤ 2 ^ 53 := fun x => by rw [zero_mul]; positivity
  refine ⟨?_, ?_, ?_, ?_, ?_⟩
  · obtain ⟨a, b, h1, h2, h3⟩ := Fuse.Rnd.posfuse_close S sched scheds runs hf hs hss le_rfl hT hl (by omega) (hz _)
    exact ⟨a, b, h1, h2, h3.weaken (by positivity) (by push_cast; linarith)⟩
  · obtain ⟨a, b, h1, h2, h3⟩ := Fuse.Rnd.slidefuse_close S sched scheds runs hf hs hss w le_rfl hT hl hshort hn (hz _)
    exact ⟨a, b, h1, h2, h3.weaken (by positivity) (by push_cast; linarith)⟩
  · intro ht
    obtain ⟨a, b, h1, h2, h3⟩ := Fuse.Rnd.probfuse_close S sched scheds runs hf hs hss le_rfl hT hl hshort
      (fun t h => (ht t h).1) (fun t h => (ht t h).2) (by omega) (hz _)
    exact ⟨a, b, h1, h2, h3.weaken (by positivity) (by push_cast; linarith)⟩
  · intro ht hsc
    obtain ⟨a, b, h1, h2, h3⟩ := Fuse.Rnd.segfuse_close S sched scheds runs hf hs hss le_rfl hT hl hsc ht (by omega) (hz _)
    exact ⟨a, b, h1, h2, h3.weaken (by positivity) (by push_cast; linarith)⟩
  · obtain ⟨a, b, h1, h2, h3⟩ := Fuse.Rnd.mapfuse_close S sched scheds runs hf hs hss hm hl' hshort (by omega)
    exact ⟨a, b, h1, h2, h3.weaken (by positivity) (by push_cast; linarith)⟩

omit [LinearOrder ι] in
/-- **C161** (rbc): for `0 ≤ phi ≤ 1` and powers `phi**i` computed up to `m` roundings, the scores are those of exact
arithmetic up to a relative error of `2(n+m+2)/2^53`. -/
theorem C161_rbc (phi : ℚ) (hp0 : 0 ≤ phi) (hp1 : phi ≤ 1) (pow : Nat → ℚ) (m : Nat)
    (hpow : ∀ run ∈ runs, ∀ p ∈ run, ∀ i < p.2.length, NearK m (phi ^ i) (pow i)) (hn : runs.length + (m + 2) ≤ 2 ^ 52) :
    ∃ outE out, Fuse.rbc S sched scheds phi runs = .ok outE ∧ Fuse.Rnd.rbc fl S sched scheds phi pow runs = .ok out ∧
      Spec.CloseFusion runs (2 * ((runs.length + (m + 2) : Nat) : ℚ) / 2 ^ 53) outE out := by
  obtain ⟨outE, e1, e2⟩ := C51_rbc S sched scheds phi runs hf hs hss
  obtain ⟨out, h1, h2⟩ := flRank_fused S sched scheds runs (fun i => fl (fl (1 - phi) * pow i))
    (Fuse.Rnd.rbcScore fl phi pow) rfl hf hs hss
  refine ⟨outE, out, e1, h1, _, _, e2, h2, ?_⟩
  intro q d
  have h1p : 0 ≤ 1 - phi := by linarith
  have hterm : ∀ x ∈ (Spec.positions runs q d).map (fun i => (1 - phi) * phi ^ i), (0 : ℚ) ≤ x := by
    intro x hx
    obtain ⟨i, -, rfl⟩ := List.mem_map.1 hx
    exact mul_nonneg h1p (pow_nonneg hp0 i)
  refine NearK.abs ?_ (List.sum_nonneg hterm) hn
  refine (flSum_near (m + 2) _ _ ?_ hterm).mono (List.sum_nonneg hterm) ?_
  · rw [List.forall₂_map_left_iff, List.forall₂_map_right_iff, List.forall₂_same]
    intro i hi
    obtain ⟨run, hr, hpos⟩ := List.mem_filterMap.1 hi
    unfold Spec.position? at hpos
    cases hq : run.get? q with
    | none => rw [hq] at hpos; cases hpos
    | some row =>
      rw [hq, Option.bind_some] at hpos
      have hlt : i < row.keys.length := (List.findIdx?_eq_some_iff_findIdx_eq.1 hpos).1
      rw [length_keys] at hlt
      have hnear := hpow run hr (q, row) (mem_of_get? hq) i hlt
      have := (((NearK.refl (1 - phi)).fl h1p).mul hnear h1p (pow_nonneg hp0 i)).fl (mul_nonneg h1p (pow_nonneg hp0 i))
      have e : 0 + 1 + m + 1 = m + 2 := by omega
      rw [e] at this
      exact this
  · rw [List.length_map]
    have := positions_length_le runs q d
    omega

omit [LinearOrder κ] [DecidableEq δ] [LinearOrder ι] hf hs hss in
/-- **C161** (powers): two ways to compute powers that meet the hypothesis of `C161_rbc`: rounding the exact power
once or within one unit in the last place, and multiplying repeatedly. -/
theorem C161_powers (phi : ℚ) (hp0 : 0 ≤ phi) :
    (∀ pow, Spec.ApproxPow phi pow → ∀ i, NearK 3 (phi ^ i) (pow i)) ∧
    (∀ pow : Nat → ℚ, pow 0 = 1 → (∀ i, pow (i + 1) = fl (pow i * phi)) → ∀ i, NearK i (phi ^ i) (pow i)) := by
  constructor
  · intro pow h i
    have := Metrics.Rnd.pow_bounds hp0 h i
    unfold NearK
    change (1 - 1 / 2 ^ 53 : ℚ) ^ 3 * phi ^ i ≤ pow i ∧ pow i ≤ (1 + 1 / 2 ^ 53) ^ 3 * phi ^ i at this
    rw [mul_comm (phi ^ i), mul_comm (phi ^ i)]
    exact this
  · intro pow h0 hstep i
    induction i with
    | zero => rw [h0, pow_zero]; exact NearK.refl 1
    | succ i ih =>
      rw [hstep, pow_succ]
      exact (ih.mul (NearK.refl phi) (pow_nonneg hp0 i) hp0).fl (mul_nonneg (pow_nonneg hp0 i) hp0)

variable (SQ : ArgSort Int) (SR : ArgSort ℚ) (hash : δ → ι) (tsched : Nat → List Nat) (s : Store κ δ Int)
  (train : List (Store κ δ ℚ)) (hT : Spec.Trainable SQ SR hash s train)
  (hts : ∀ i, Schedule s.data.length (tsched i)) (hlen : runs.length ≤ train.length)
include hT hts hlen

omit hf hs hss hlen in
theorem Fuse.Rnd.positions_tbl (hQ : s.data.length ≤ 2 ^ 53) :
    ∃ s' train' E T, Train.posfuseTrain SQ SR hash tsched s train = (s', train', .ok E) ∧
      Train.Rnd.posfuseTrain fl SQ SR hash tsched s train = (s', train', .ok T) ∧ E.length = train.length ∧
      List.Forall₂ (Fuse.Rnd.Tbl 1) E T := by
  obtain ⟨s', train', E, h1, h2⟩ := C59_positions SQ SR hash tsched s train hT hts
  refine ⟨s', train', E, E.map (fun e => e.map fl), h1, ?_, h2.length_eq.symm, ?_⟩
  · unfold Train.Rnd.posfuseTrain
    rw [Train.Rnd.trainEach_map SQ SR hash Train.estimateProbs (Train.Rnd.estimateProbs fl) (fun e => e.map fl) s.data.length
      (fun hls hb hl => Train.Rnd.estimateProbs_fl hls hb (by omega)) train tsched s hT.qrels rfl]
    change Train.trainEach SQ SR hash tsched Train.estimateProbs s train = _ at h1
    rw [h1]
    rfl
  · rw [List.forall₂_map_right_iff, List.forall₂_same]
    intro e he
    obtain ⟨r, -, hP⟩ := forall₂_mem_right h2 he
    refine Fuse.Rnd.Tbl.of_fl ?_
    intro x hx
    obtain ⟨p, hp⟩ := List.mem_iff_getElem?.1 hx
    obtain ⟨ids, -, -, h⟩ := hP
    exact (h p x hp).2.2.1

/-- **C161** (posfuse, trained): training and fusing in float64 give the docs that exact training and fusing give, each
with the same score up to a relative error of `2(n+1)/2^53` for `n` runs. -/
theorem C161_posfuse (hQ : s.data.length ≤ 2 ^ 53) (hn : runs.length + 1 ≤ 2 ^ 52) :
    ∃ s' train' E T outE out, Train.posfuseTrain SQ SR hash tsched s train = (s', train', .ok E) ∧
      Train.Rnd.posfuseTrain fl SQ SR hash tsched s train = (s', train', .ok T) ∧
      Fuse.posfuse S sched scheds E runs = .ok outE ∧ Fuse.Rnd.posfuse fl S sched scheds T runs = .ok out ∧
      Spec.CloseFusion runs (2 * ((runs.length + 1 : Nat) : ℚ) / 2 ^ 53) outE out := by
  obtain ⟨s', train', E, T, h1, h2, hl, hET⟩ := Fuse.Rnd.positions_tbl SQ SR hash tsched s train hT hts hQ
  have hq : ((runs.length : ℚ)) + 1 ≤ 2 ^ 52 := by exact_mod_cast hn
  obtain ⟨outE, out, h3, h4, h5⟩ := Fuse.Rnd.posfuse_close S sched scheds runs hf hs hss zero_le_one hET (by omega) (by omega)
    (by push_cast; linarith)
  exact ⟨s', train', E, T, outE, out, h1, h2, h3, h4, h5.weaken (by positivity) (le_of_eq (by push_cast; ring))⟩

/-- **C161** (slidefuse, trained): likewise, up to `2(n+2w+3)/2^53` for windows of width `w`. -/
theorem C161_slidefuse (w : Nat) (hQ : s.data.length ≤ 2 ^ 53) (hshort : Spec.ShortLists runs)
    (hn : runs.length + 2 * w + 3 ≤ 2 ^ 52) :
    ∃ s' train' E T outE out, Train.posfuseTrain SQ SR hash tsched s train = (s', train', .ok E) ∧
      Train.Rnd.posfuseTrain fl SQ SR hash tsched s train = (s', train', .ok T) ∧
      Fuse.slidefuse S sched scheds E w runs = .ok outE ∧ Fuse.Rnd.slidefuse fl S sched scheds T w runs = .ok out ∧
      Spec.CloseFusion runs (2 * ((runs.length + 2 * w + 3 : Nat) : ℚ) / 2 ^ 53) outE out := by
  obtain ⟨s', train', E, T, h1, h2, hl, hET⟩ := Fuse.Rnd.positions_tbl SQ SR hash tsched s train hT hts hQ
  have hq : ((runs.length : ℚ)) + 2 * w + 3 ≤ 2 ^ 52 := by exact_mod_cast hn
  obtain ⟨outE, out, h3, h4, h5⟩ := Fuse.Rnd.slidefuse_close S sched scheds runs hf hs hss w zero_le_one hET (by omega) hshort
    (by omega) (by push_cast; linarith)
  exact ⟨s', train', E, T, outE, out, h1, h2, h3, h4, h5.weaken (by positivity) (le_of_eq (by push_cast; ring))⟩

/-- **C161** (segfuse, trained): likewise, up to `2(n+m+5)/2^53` for `m` training queries, for scores of at least -1. -/
theorem C161_segfuse (hsc : Spec.ScoresFromMinusOne runs)
    (hn : ((Spec.queries s).card + 2) * (runs.length + 2) ≤ 2 ^ 51) :
    ∃ s' train' E T outE out, Train.segfuseTrain SQ SR hash tsched s train = (s', train', .ok E) ∧
      Train.Rnd.segfuseTrain fl SQ SR hash tsched s train = (s', train', .ok T) ∧
      Fuse.segfuse S sched scheds E runs = .ok outE ∧ Fuse.Rnd.segfuse fl S sched scheds T runs = .ok out ∧
      Spec.CloseFusion runs (2 * ((runs.length + (Spec.queries s).card + 5 : Nat) : ℚ) / 2 ^ 53) outE out := by
  have hQ : (Spec.queries s).card ≤ 2 ^ 51 := by nlinarith
  have hR : runs.length + 2 ≤ 2 ^ 51 := by nlinarith
  obtain ⟨s', train', E, T, h1, h2, h3⟩ := C160_segfuse SQ SR hash tsched s train hT hts hQ
  obtain ⟨s'', train'', E', h1', hE⟩ := C59_segfuse SQ SR hash tsched s train hT hts
  have hEE : E' = E := by
    rw [h1] at h1'
    simp only [Prod.mk.injEq, Except.ok.injEq] at h1'
    exact h1'.2.2.symm
  subst hEE
  have hET := h3.imp (fun e t h => Fuse.Rnd.Tbl.of_close (by positivity) h)
  have hq : (((Spec.queries s).card : ℚ) + 2) * (runs.length + 2) ≤ 2 ^ 51 := by exact_mod_cast hn
  obtain ⟨outE, out, h4, h5, h6⟩ := Fuse.Rnd.segfuse_close S sched scheds runs hf hs hss (by positivity) hET
    (by rw [← hE.length_eq]; exact hlen) hsc (fun e he => by
      obtain ⟨r, -, ids, -, hl, -⟩ := forall₂_mem_right hE he
      omega) (by omega) (by push_cast; nlinarith)
  exact ⟨s', train', _, T, outE, out, h1, h2, h4, h5, h6.weaken (by positivity) (by
    push_cast
    exact div_le_div_of_nonneg_right (by linarith) (by positivity))⟩

/-- **C161** (probfuse, trained with `k` segments): likewise, up to `2(n+m+4)/2^53` for `m` training queries. -/
theorem C161_probfuse (rowSched : List Nat) (k : Nat) (hk : 0 < k) (hk53 : k ≤ 2 ^ 53)
    (hrow : Schedule train.length rowSched) (hshort : Spec.ShortLists runs)
    (hlong : ∀ r ∈ train, ∀ q ids, Spec.RankedDocs (Spec.content r) q ids → ids.length < 2 ^ 53)
    (hn : ((Spec.queries s).card + 2) * (runs.length + 1) ≤ 2 ^ 51) :
    ∃ s' train' E T outE out, Train.probfuseTrain SQ SR hash tsched rowSched k s train = (s', train', .ok E) ∧
      Train.Rnd.probfuseTrain fl SQ SR hash tsched rowSched k s train = (s', train', .ok T) ∧
      Fuse.probfuse S sched scheds E runs = .ok outE ∧ Fuse.Rnd.probfuse fl S sched scheds T runs = .ok out ∧
      Spec.CloseFusion runs (2 * ((runs.length + (Spec.queries s).card + 4 : Nat) : ℚ) / 2 ^ 53) outE out := by
  have hQ : (Spec.queries s).card ≤ 2 ^ 51 := by nlinarith
  have hR : runs.length + 1 ≤ 2 ^ 51 := by nlinarith
  obtain ⟨s', train', E, T, h1, h2, h3⟩ := C160_segments SQ SR hash tsched rowSched k hk hk53 s train hT hts hrow hQ hlong
  obtain ⟨s'', train'', E', h1', hE⟩ := C59_segments SQ SR hash tsched rowSched k hk s train hT hts hrow
  have hEE : E' = E := by
    rw [h1] at h1'
    simp only [Prod.mk.injEq, Except.ok.injEq] at h1'
    exact h1'.2.2.symm
  subst hEE
  have hET := h3.imp (fun e t h => Fuse.Rnd.Tbl.of_close (by positivity) h)
  have hl : ∀ e ∈ E', e.length = k := fun e he => by
    obtain ⟨r, -, ids, -, hl, -⟩ := forall₂_mem_right hE he
    exact hl
  have hq : (((Spec.queries s).card : ℚ) + 2) * (runs.length + 1) ≤ 2 ^ 51 := by exact_mod_cast hn
  obtain ⟨outE, out, h4, h5, h6⟩ := Fuse.Rnd.probfuse_close S sched scheds runs hf hs hss (by positivity) hET
    (by rw [← hE.length_eq]; exact hlen) hshort (fun e he h0 => by
      have := hl e he
      rw [h0, List.length_nil] at this
      omega) (fun e he => by rw [hl e he]; exact hk53) (by omega) (by push_cast; nlinarith)
  exact ⟨s', train', _, T, outE, out, h1, h2, h4, h5, h6.weaken (by positivity) (by
    push_cast
    exact div_le_div_of_nonneg_right (by linarith) (by positivity))⟩

end

/-! ## Non-vacuity -/

section
open Fuse.Rnd in
/-- Non-vacuity of `C161_tables` and `C161_rbc`: two runs, tables that are not exactly representable, and scores that do
differ from the exact ones. -/
example : readOut (Fuse.posfuse (.stable ℚ) [1, 0] (fun _ => [0, 1]) [[1 / 4, fl (1 / 3)], [1, fl (1 / 10)]]
      [fuseEx1, fuseEx2]) 1 10 = some (1 / 4 + fl (1 / 10)) ∧
    readOut (Fuse.Rnd.posfuse fl (.stable ℚ) [1, 0] (fun _ => [0, 1]) [[1 / 4, fl (1 / 3)], [1, fl (1 / 10)]]
      [fuseEx1, fuseEx2]) 1 10 = some (fl (1 / 4 + fl (1 / 10))) ∧ fl (1 / 4 + fl (1 / 10)) ≠ 1 / 4 + fl (1 / 10) ∧
    readOut (Fuse.Rnd.mapfuse fl (.stable ℚ) [1, 0] (fun _ => [0, 1]) [fl (1 / 3), fl (1 / 5)]
      [fuseEx1, fuseEx2]) 1 10 = some (fl (fl (1 / 3) + fl (fl (1 / 5) / 2))) ∧
    readOut (Fuse.Rnd.segfuse fl (.stable ℚ) [1, 0] (fun _ => [0, 1]) [[fl (1 / 3)], [fl (1 / 5)]]
      [fuseEx1, fuseEx2]) 1 10 = some (fl (fl (fl (1 / 3) * 6) + fl (fl (1 / 5) * 3))) ∧
    readOut (Fuse.Rnd.probfuse fl (.stable ℚ) [1, 0] (fun _ => [0, 1]) [[1, fl (1 / 3)], [1, fl (1 / 5)]]
      [fuseEx1, fuseEx2]) 1 10 = some (fl (1 + fl (fl (1 / 5) / 2))) ∧
    readOut (Fuse.Rnd.slidefuse fl (.stable ℚ) [1, 0] (fun _ => [0, 1]) [[1, fl (1 / 3)], [1, fl (1 / 5)]] 1
      [fuseEx1, fuseEx2]) 1 11 = some (fl (fl (1 + fl (1 / 3)) / 2)) ∧
    readOut (Fuse.Rnd.rbc fl (.stable ℚ) [1, 0] (fun _ => [0, 1]) (fl (4 / 5)) (fun i => fl (fl (4 / 5) ^ i))
      [fuseEx1, fuseEx2]) 1 11 = some (fl (fl (1 - fl (4 / 5)) * fl (fl (4 / 5) ^ 1))) := by
  refine ⟨?_, ?_, ?_, ?_, ?_, ?_, ?_, ?_⟩ <;> decide +kernel

theorem fuseEx_short : Spec.ShortLists [fuseEx1, fuseEx2] := by
  unfold Spec.ShortLists; decide

/-- the hypotheses of the theorems hold for these runs and for the training data of C160 -/
example : Spec.Fusable [fuseEx1] ∧ Schedule (queryCount [fuseEx1]) [1, 0] ∧ Spec.ScoresFromMinusOne [fuseEx1, fuseEx2] ∧
    ∃ s' train' E T outE out, Train.posfuseTrain (ι := Nat) (ArgSort.stable Int) (ArgSort.stable ℚ) id (fun _ => [2, 0, 1])
        exThirdsQrels [exThirdsRun] = (s', train', .ok E) ∧
      Train.Rnd.posfuseTrain (ι := Nat) fl (ArgSort.stable Int) (ArgSort.stable ℚ) id (fun _ => [2, 0, 1])
        exThirdsQrels [exThirdsRun] = (s', train', .ok T) ∧
      Fuse.posfuse (.stable ℚ) [1, 0] (fun _ => [0, 1]) E [fuseEx1] = .ok outE ∧
      Fuse.Rnd.posfuse fl (.stable ℚ) [1, 0] (fun _ => [0, 1]) T [fuseEx1] = .ok out ∧
      Spec.CloseFusion [fuseEx1] (2 * (([fuseEx1].length + 1 : Nat) : ℚ) / 2 ^ 53) outE out := by
  have hf : Spec.Fusable [fuseEx1] := by
    refine ⟨by simp, ?_, ?_, ?_⟩
    · exact fun r h => fuseEx_fusable.nodupQ r (by rw [List.mem_singleton] at h; rw [h]; exact List.mem_cons_self)
    · exact fun r h => fuseEx_fusable.nodupD r (by rw [List.mem_singleton] at h; rw [h]; exact List.mem_cons_self)
    · intro r h r' h' q hq
      rw [List.mem_singleton] at h h'
      rw [h'] ; rw [h] at hq; exact hq
  have hs : Schedule (queryCount [fuseEx1]) [1, 0] := by unfold Schedule; decide
  refine ⟨hf, hs, by unfold Spec.ScoresFromMinusOne; decide +kernel, ?_⟩
  exact C161_posfuse (ι := Nat) (.stable ℚ) [1, 0] (fun _ => [0, 1]) [fuseEx1] hf hs (by
      intro j run h
      match j with
      | 0 =>
        simp only [List.getElem?_cons_zero, Option.some.injEq] at h
        subst h
        unfold Schedule; decide
      | j + 1 => simp at h) (ArgSort.stable Int) (ArgSort.stable ℚ) id (fun _ => [2, 0, 1]) exThirdsQrels [exThirdsRun]
    exThirds_trainable (fun i => by unfold Schedule; decide) (by decide) (by decide) (by decide)

end
end Ranx
