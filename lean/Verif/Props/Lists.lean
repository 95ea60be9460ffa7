import Verif.Model.Lists
import Verif.Lemmas.Metrics2
import Verif.Lemmas.Evaluate
import Verif.Props.Metrics

/-!
# C123: hit lists, unjudged lists, non-relevant lists
-/

set_option linter.unusedSectionVars false

namespace Ranx
open Metrics
variable {ι α : Type*} [LinearOrder ι] [LinearOrder α] [Field α] [IsStrictOrderedRing α]

open Classical in
/-- 1 at every position whose doc has the property, 0 elsewhere -/
noncomputable def Spec.markDocs (P : ι → Prop) (docs : List ι) : List α :=
  docs.map (fun x => if P x then 1 else 0)

/-- `out` has one list per query, the i-th being `f` of the i-th judgements and results -/
def Spec.PerList (f : Rows ι α → Rows ι α → List α) (qrels run : List (Rows ι α)) (out : List (List α)) : Prop :=
  out.length = qrels.length ∧
    ∀ (i : Nat) (q r : Rows ι α), qrels[i]? = some q → run[i]? = some r → out[i]? = some (f q r)

theorem listsParallel_eq (f : Rows ι α → Rows ι α → List α) (sched : List Nat) (qrels run : List (Rows ι α))
    (hs : Schedule qrels.length sched) (hl : qrels.length ≤ run.length) :
    ∃ out, listsParallel f sched qrels run = .ok out ∧ Spec.PerList f qrels run out := by
  unfold listsParallel
  rw [if_neg (by omega)]
  rw [prange_eq _ _ _ (by simpa using hs)]
  refine ⟨_, rfl, by simp, ?_⟩
  intro i q r hq hr
  have hi : i < qrels.length := (List.getElem?_eq_some_iff.1 hq).1
  rw [List.getElem?_map, List.getElem?_range (by simpa using hi)]
  simp only [Option.map_some, hq, hr, Option.getD_some]

/-- C123: for every schedule, depth `k ≥ 0` and relevance level, `get_hit_lists` has one list per query, and
the list says for each of the results looked at whether it is judged relevant. -/
theorem C123_hits (sched : List Nat) (qrels run : List (Rows ι α)) (k : Nat) (lvl : α)
    (hs : Schedule qrels.length sched) (hl : qrels.length ≤ run.length) :
    ∃ out, getHitLists sched qrels run k lvl = .ok out ∧
      Spec.PerList (fun q r => Spec.markDocs (Spec.Rel q lvl) (Spec.top k (r.map Prod.fst))) qrels run out := by
  obtain ⟨out, h1, h2, h3⟩ := listsParallel_eq (fun q r => getHitList q r k lvl) sched qrels run hs hl
  refine ⟨out, h1, h2, fun i q r hq hr => ?_⟩
  rw [h3 i q r hq hr]
  beta_reduce
  rw [getHitList_eq]
  unfold Spec.markDocs
  congr 1
  refine List.map_congr_left fun x _ => ?_
  by_cases hx : Spec.Rel q lvl x
  · rw [if_pos (look_clean_isSome.2 hx), if_pos hx]
  · rw [if_neg (fun hc => hx (look_clean_isSome.1 hc)), if_neg hx]

/-- C123: the unjudged lists -/
theorem C123_unjudged (sched : List Nat) (qrels run : List (Rows ι α)) (k : Nat)
    (hs : Schedule qrels.length sched) (hl : qrels.length ≤ run.length) :
    ∃ out, getUnjudgedLists sched qrels run k = .ok out ∧
      Spec.PerList (fun q r => Spec.markDocs (fun x => ¬ Spec.Judged q x) (Spec.top k (r.map Prod.fst)))
        qrels run out := by
  obtain ⟨out, h1, h2, h3⟩ := listsParallel_eq (fun q r => getUnjudgedList q r k) sched qrels run hs hl
  refine ⟨out, h1, h2, fun i q r hq hr => ?_⟩
  rw [h3 i q r hq hr]
  beta_reduce
  rw [getUnjudgedList_eq]
  unfold Spec.markDocs
  congr 1
  refine List.map_congr_left fun x _ => ?_
  by_cases hx : Spec.Judged q x
  · rw [if_pos (look_isSome.2 hx), if_neg (by simpa using hx)]
  · rw [if_neg (fun hc => hx (look_isSome.1 hc)), if_pos hx]

/-- C123: the lists of `get_non_rel_lists`: judged with grade exactly 0 -/
theorem C123_non_rel (sched : List Nat) (qrels run : List (Rows ι α)) (k : Nat)
    (hs : Schedule qrels.length sched) (hl : qrels.length ≤ run.length) :
    ∃ out, getNonRelLists sched qrels run k = .ok out ∧
      Spec.PerList (fun q r => Spec.markDocs (fun x => (x, (0 : α)) ∈ q) (Spec.top k (r.map Prod.fst)))
        qrels run out := by
  obtain ⟨out, h1, h2, h3⟩ := listsParallel_eq (fun q r => getNonRelList q r k) sched qrels run hs hl
  refine ⟨out, h1, h2, fun i q r hq hr => ?_⟩
  rw [h3 i q r hq hr]
  beta_reduce
  rw [getNonRelList_eq]
  unfold Spec.markDocs
  congr 1
  refine List.map_congr_left fun x _ => ?_
  have hiff : (look (q.filter (fun r => decide (r.2 = 0))) x).isSome ↔ (x, (0 : α)) ∈ q := by
    rw [look_isSome]
    constructor
    · rintro ⟨v, hv⟩
      rw [List.mem_filter] at hv
      have : v = 0 := by simpa using hv.2
      subst this
      exact hv.1
    · intro h
      exact ⟨0, List.mem_filter.2 ⟨h, by simp⟩⟩
  by_cases hx : (x, (0 : α)) ∈ q
  · rw [if_pos (hiff.2 hx), if_pos hx]
  · rw [if_neg (fun hc => hx (hiff.1 hc)), if_neg hx]

/-- C123: a negative depth is rejected, whatever the input. -/
theorem C123_negative (sched : List Nat) (qrels run : List (Rows ι α)) (k : Int) (hk : k < 0) (lvl : α) :
    getHitLists sched qrels run k lvl = .error .assertionError ∧
      getUnjudgedLists sched qrels run k = .error .assertionError ∧
      getNonRelLists sched qrels run k = .error .assertionError := by
  cases k with
  | ofNat n => exact absurd hk (by simp)
  | negSucc n => exact ⟨rfl, rfl, rfl⟩

/-- C123, the part that holds: with level 1 and grades that are 0 or at least 1, each doc judged once, every
result is exactly one of relevant, non-relevant, unjudged. -/
theorem C123_partition_partial (q : Rows ι α) (hq : (q.map Prod.fst).Nodup)
    (hg : ∀ p ∈ q, p.2 = 0 ∨ 1 ≤ p.2) (x : ι) :
    (Spec.Rel q 1 x ∧ (x, (0 : α)) ∉ q ∧ Spec.Judged q x) ∨
      (¬ Spec.Rel q 1 x ∧ (x, (0 : α)) ∈ q ∧ Spec.Judged q x) ∨
      (¬ Spec.Rel q 1 x ∧ (x, (0 : α)) ∉ q ∧ ¬ Spec.Judged q x) := by
  by_cases hj : Spec.Judged q x
  · obtain ⟨v, hv⟩ := hj
    have huniq : ∀ w, (x, w) ∈ q → w = v := by
      intro w hw
      have := List.inj_on_of_nodup_map hq hw hv rfl
      cases this; rfl
    rcases hg _ hv with h0 | h1
    · simp only at h0
      subst h0
      refine Or.inr (Or.inl ⟨?_, hv, ⟨0, hv⟩⟩)
      rintro ⟨w, hw, hw1⟩
      rw [huniq w hw] at hw1
      exact absurd hw1 (by norm_num)
    · refine Or.inl ⟨⟨v, hv, h1⟩, ?_, ⟨v, hv⟩⟩
      intro h0
      have := huniq 0 h0
      simp only at h1
      rw [← this] at h1
      exact absurd h1 (by norm_num)
  · refine Or.inr (Or.inr ⟨fun h => hj ?_, fun h => hj ⟨0, h⟩, hj⟩)
    obtain ⟨w, hw, _⟩ := h
    exact ⟨w, hw⟩

/-- C123, on the lists themselves: position by position the three lists of a query add up to 1. -/
theorem C123_lists_partial (sched : List Nat) (qrels run : List (Rows ι α)) (k : Nat)
    (hs : Schedule qrels.length sched) (hl : qrels.length ≤ run.length)
    (hq : ∀ q ∈ qrels, (q.map Prod.fst).Nodup) (hg : ∀ q ∈ qrels, ∀ p ∈ q, p.2 = 0 ∨ 1 ≤ p.2)
    (hit non unj : List (List α)) (h1 : getHitLists sched qrels run k 1 = .ok hit)
    (h2 : getNonRelLists sched qrels run k = .ok non) (h3 : getUnjudgedLists sched qrels run k = .ok unj)
    (i j : Nat) (a b c : List α) (x y z : α) (ha : hit[i]? = some a) (hb : non[i]? = some b)
    (hc : unj[i]? = some c) (hx : a[j]? = some x) (hy : b[j]? = some y) (hz : c[j]? = some z) :
    x + y + z = 1 := by
  obtain ⟨_, e1, l1, f1⟩ := C123_hits sched qrels run k (1 : α) hs hl
  obtain ⟨_, e2, l2, f2⟩ := C123_non_rel sched qrels run k hs hl
  obtain ⟨_, e3, l3, f3⟩ := C123_unjudged sched qrels run k hs hl
  rw [h1] at e1; rw [h2] at e2; rw [h3] at e3
  cases e1; cases e2; cases e3
  have hi := (List.getElem?_eq_some_iff.1 ha).1
  have e1 : qrels[i]? = some qrels[i] := List.getElem?_eq_getElem (by omega)
  have e2 : run[i]? = some run[i] := List.getElem?_eq_getElem (by omega)
  have hmem : qrels[i] ∈ qrels := List.getElem_mem _
  generalize hQ : qrels[i] = q at *
  generalize hR : run[i] = r at *
  rw [f1 i q r e1 e2] at ha
  rw [f2 i q r e1 e2] at hb
  rw [f3 i q r e1 e2] at hc
  cases ha; cases hb; cases hc
  unfold Spec.markDocs at hx hy hz
  rw [List.getElem?_map] at hx hy hz
  cases hd : (Spec.top k (r.map Prod.fst))[j]? with
  | none => rw [hd] at hx; cases hx
  | some d =>
    rw [hd] at hx hy hz
    simp only [Option.map_some, Option.some.injEq] at hx hy hz
    subst hx; subst hy; subst hz
    rcases C123_partition_partial q (hq q hmem) (hg q hmem) d with ⟨p1, p2, p3⟩ | ⟨p1, p2, p3⟩ | ⟨p1, p2, p3⟩
    · rw [if_pos p1, if_neg p2, if_neg (by simpa using p3)]; simp
    · rw [if_neg p1, if_pos p2, if_neg (by simpa using p3)]; simp
    · rw [if_neg p1, if_neg p2, if_pos p3]; simp

/-- C123 refuted: with `rel_lvl=2` a result of grade 1 is in none of the three lists, although it is judged
and not relevant; the same for a negative grade at level 1. -/
theorem C123_refuted :
    getHitLists [0] [[(7, 1)]] [[(7, 5)]] 0 (2 : ℚ) = .ok [[0]] ∧
      getNonRelLists [0] [[((7 : Nat), (1 : ℚ))]] [[(7, 5)]] 0 = .ok [[0]] ∧
      getUnjudgedLists [0] [[((7 : Nat), (1 : ℚ))]] [[(7, 5)]] 0 = .ok [[0]] ∧
      getHitLists [0] [[((7 : Nat), -1)]] [[(7, 5)]] 0 (1 : ℚ) = .ok [[0]] ∧
      getNonRelLists [0] [[((7 : Nat), (-1 : ℚ))]] [[(7, 5)]] 0 = .ok [[0]] := by
  decide +kernel

example : getHitLists [1, 0] [[(3, 1), (4, 0)], [(5, 2)]] [[(4, 9), (3, 8), (6, 7)], [(5, 1)]] 2 (1 : ℚ)
    = .ok [[0, 1], [1]] ∧
    getNonRelLists [1, 0] [[((3 : Nat), (1 : ℚ)), (4, 0)], [(5, 2)]] [[(4, 9), (3, 8), (6, 7)], [(5, 1)]] 0
      = .ok [[1, 0, 0], [0]] ∧
    getUnjudgedLists [1, 0] [[((3 : Nat), (1 : ℚ)), (4, 0)], [(5, 2)]] [[(4, 9), (3, 8), (6, 7)], [(5, 1)]] 0
      = .ok [[0, 0, 1], [0]] := by decide +kernel

end Ranx
