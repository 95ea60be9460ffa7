import Verif.Props.FusionFl
import Verif.Props.BordaOrder
import Verif.Props.Scale

/-!
# C138: bordafuse is exact in floating point

Borda points are half-integers, and so are their sums: no operation rounds.
-/

set_option linter.unusedSectionVars false

namespace Ranx
open Dict Store Fuse F64
open Norm (Results toRun SetIter getCandidates)

variable {κ δ : Type*} [LinearOrder κ] [DecidableEq δ]

/-- a half-integer of size at most `B / 2` -/
def HalfInt (B : Nat) (x : ℚ) : Prop := ∃ m : ℤ, |m| ≤ (B : ℤ) ∧ x = (m : ℚ) / 2

theorem HalfInt.fl {B : Nat} {x : ℚ} (h : HalfInt B x) (hB : B ≤ 2 ^ 53) : fl x = x := by
  obtain ⟨m, hm, rfl⟩ := h
  have := fl_exact m (-1) (hm.trans (by exact_mod_cast hB))
  rw [zpow_neg_one, ← div_eq_mul_inv] at this
  exact this

theorem HalfInt.zero (B : Nat) : HalfInt B 0 := ⟨0, by simp, by simp⟩

theorem HalfInt.add {B C : Nat} {x y : ℚ} (h : HalfInt B x) (h' : HalfInt C y) : HalfInt (B + C) (x + y) := by
  obtain ⟨m, hm, rfl⟩ := h
  obtain ⟨k, hk, rfl⟩ := h'
  refine ⟨m + k, (abs_add_le m k).trans ?_, by push_cast; ring⟩
  push_cast
  linarith

/-- a sum of half-integers is computed exactly -/
theorem sum_exact (B : Nat) (l : List ℚ) (h : ∀ x ∈ l, HalfInt B x) (hB : l.length * B ≤ 2 ^ 53) :
    Norm.Rnd.sum F64.fl l = l.sum := by
  have main : ∀ (l : List ℚ) (n : Nat) (a : ℚ), HalfInt (n * B) a → (∀ x ∈ l, HalfInt B x) → (n + l.length) * B ≤ 2 ^ 53 →
      l.foldl (fun a x => F64.fl (a + x)) a = a + l.sum := by
    intro l
    induction l with
    | nil => intro n a _ _ _; simp
    | cons x t ih =>
      intro n a ha hx hn
      have h1 : HalfInt ((n + 1) * B) (a + x) := by
        rw [Nat.add_mul, Nat.one_mul]
        exact ha.add (hx x List.mem_cons_self)
      have hle : (n + 1) * B ≤ 2 ^ 53 := by
        refine le_trans (Nat.mul_le_mul_right _ ?_) hn
        rw [List.length_cons]
        omega
      rw [List.foldl_cons, h1.fl hle, ih (n + 1) _ h1 (fun y hy => hx y (List.mem_cons_of_mem _ hy))
        (by rw [List.length_cons] at hn; rwa [show n + 1 + t.length = n + (t.length + 1) by omega]), List.sum_cons]
      ring
  have := main l 0 0 (HalfInt.zero _) h (by rwa [Nat.zero_add])
  rw [zero_add] at this
  exact this

theorem nat_le_abs {a b B : Nat} (h : a ≤ B) (h' : b ≤ B) : |(a : ℤ) - (b : ℤ)| ≤ (B : ℤ) := by
  rw [abs_le]
  constructor <;> omega

theorem mem_of_mem_ofList {ν : Type*} {l : List (δ × ν)} {p : δ × ν} (h : p ∈ ofList l) : p ∈ l := by
  have main : ∀ (l : List (δ × ν)) (acc : Dict δ ν), p ∈ l.foldl (fun d kv => d.set kv.1 kv.2) acc → p ∈ l ∨ p ∈ acc := by
    intro l
    induction l with
    | nil => exact fun acc h => Or.inr h
    | cons x t ih =>
      intro acc h
      rcases ih _ h with h | h
      · exact Or.inl (List.mem_cons_of_mem _ h)
      · have hset : ∀ acc : Dict δ ν, p ∈ acc.set x.1 x.2 → p = x ∨ p ∈ acc := by
          intro acc
          induction acc with
          | nil => intro h; left; simpa [Dict.set] using h
          | cons y u ihu =>
            intro h
            rw [Dict.set.eq_def] at h
            simp only at h
            split at h
            · rename_i hy
              rcases List.mem_cons.1 h with h | h
              · left; rw [h, hy]
              · exact Or.inr (List.mem_cons_of_mem _ h)
            · rcases List.mem_cons.1 h with h | h
              · right; rw [h]; exact List.mem_cons_self
              · rcases ihu h with h | h
                · exact Or.inl h
                · exact Or.inr (List.mem_cons_of_mem _ h)
        rcases hset acc h with h | h
        · left; rw [h]; exact List.mem_cons_self
        · exact Or.inr h
  rcases main l [] h with h | h
  · exact h
  · cases h

/-- the points of one run are half-integers, computed exactly -/
theorem bordaScore_exact (N : Nat) (hN : 2 * N + 1 ≤ 2 ^ 53) (r : Results δ ℚ) (c : List δ) (hr : r.length ≤ N)
    (hc : c.length ≤ N) :
    Fuse.Rnd.bordaScore F64.fl r c = bordaScore r c ∧
      ∀ d v, (bordaScore r c).get? d = some v → HalfInt (2 * N + 1) v := by
  have hk : r.keys.length ≤ N := by rw [Dict.keys, List.length_map]; exact hr
  have h1 : ∀ i : Nat, i < r.keys.length → HalfInt (2 * N + 1) ((c.length : ℚ) - (i : ℚ)) := by
    intro i hi
    refine ⟨2 * ((c.length : ℤ) - (i : ℤ)), ?_, by push_cast; ring⟩
    rw [abs_mul]
    have := nat_le_abs hc (show i ≤ N by omega)
    simp only [abs_two]
    push_cast
    linarith
  have h2 : HalfInt (2 * N + 1) (((c.length : ℚ) - (r.keys.length : ℚ) + 1) / 2) := by
    refine ⟨(c.length : ℤ) - (r.keys.length : ℤ) + 1, ?_, by push_cast; ring⟩
    refine (abs_add_le _ _).trans ?_
    have := nat_le_abs hc hk
    simp only [abs_one]
    push_cast
    linarith
  constructor
  · unfold Fuse.Rnd.bordaScore bordaScore
    simp only
    congr 2
    · refine List.map_congr_left (fun di hdi => ?_)
      have hlt : di.2 < r.keys.length := by
        have := List.mem_zipIdx hdi
        omega
      have := (h1 di.2 hlt).fl hN
      rw [show (((c.length : ℤ) - (di.2 : ℤ) : ℤ) : ℚ) = (c.length : ℚ) - (di.2 : ℚ) by push_cast; ring, this]
    · refine List.map_congr_left (fun d _ => ?_)
      have e : F64.fl (((c.length : ℤ) - (r.keys.length : ℤ) + 1 : ℤ) : ℚ) =
          (((c.length : ℤ) - (r.keys.length : ℤ) + 1 : ℤ) : ℚ) := by
        refine fl_int _ ((abs_add_le _ _).trans ?_)
        have := nat_le_abs hc hk
        simp only [abs_one]
        have h3 : ((2 * N + 1 : Nat) : ℤ) ≤ ((2 ^ 53 : Nat) : ℤ) := by exact_mod_cast hN
        push_cast at h3
        linarith
      rw [e, show (((c.length : ℤ) - (r.keys.length : ℤ) + 1 : ℤ) : ℚ) / 2 =
        ((c.length : ℚ) - (r.keys.length : ℚ) + 1) / 2 by push_cast; ring, h2.fl hN]
  · intro d v hv
    have hm := mem_of_get? hv
    unfold bordaScore at hm
    have hm' : (d, v) ∈ r.keys.zipIdx.map (fun di => (di.1, (c.length : ℚ) - (di.2 : ℚ))) ++
        (c.filter (fun d => decide (d ∉ r.keys))).map (fun d => (d, ((c.length : ℚ) - (r.keys.length : ℚ) + 1) / 2)) :=
      mem_of_mem_ofList hm
    rcases List.mem_append.1 hm' with h | h
    · obtain ⟨di, hdi, e⟩ := List.mem_map.1 h
      cases e
      have hlt : di.2 < r.keys.length := by
        have := List.mem_zipIdx hdi
        omega
      exact h1 _ hlt
    · obtain ⟨x, -, e⟩ := List.mem_map.1 h
      cases e
      exact h2

/-- every slot of a prange loop holds the initial value or one computed by the loop body -/
theorem mem_prange {ν : Type*} (f : Nat → ν) (sched : List Nat) (acc : List ν) {x : ν} (h : x ∈ prange acc f sched) :
    x ∈ acc ∨ ∃ i, x = f i := by
  unfold prange at h
  induction sched generalizing acc with
  | nil => exact Or.inl h
  | cons i t ih =>
    rw [List.foldl_cons] at h
    rcases ih _ h with h | h
    · rcases List.mem_or_eq_of_mem_set h with h | h
      · exact Or.inl h
      · exact Or.inr ⟨i, h⟩
    · exact Or.inr h

theorem getD_length {N : Nat} {run : Dict κ (Results δ ℚ)} (h : ∀ r ∈ run.values, r.length ≤ N) (q : κ) :
    ((run.get? q).getD []).length ≤ N := by
  cases hq : run.get? q with
  | none => exact Nat.zero_le _
  | some r => exact h r (List.mem_map.2 ⟨_, mem_of_get? hq, rfl⟩)

theorem slot_length {N : Nat} {run : Dict κ (Results δ ℚ)} (h : ∀ r ∈ run.values, r.length ≤ N) (i : Nat) :
    ((run.keys[i]?.bind run.get?).getD []).length ≤ N := by
  cases run.keys[i]? with
  | none => exact Nat.zero_le _
  | some q => exact getD_length h q

/-- the pool of a query is no longer than the runs' lists together -/
theorem candidates_length {N : Nat} (I : SetIter δ) (runs : List (Dict κ (Results δ ℚ)))
    (h : ∀ run ∈ runs, ∀ r ∈ run.values, r.length ≤ N) {cand : List (List δ)} (hc : getCandidates I runs = .ok cand)
    (i : Nat) : (cand[i]?.getD []).length ≤ runs.length * N := by
  cases hi : cand[i]? with
  | none => exact Nat.zero_le _
  | some c =>
    have hm := List.mem_of_getElem? hi
    cases runs with
    | nil => cases hc
    | cons r0 rest =>
      unfold getCandidates at hc
      simp only at hc
      split at hc
      · simp only [Except.ok.injEq] at hc
        subst hc
        obtain ⟨q, -, rfl⟩ := List.mem_map.1 hm
        have h1 : (I.run ((r0 :: rest).flatMap (fun run => ((run.get? q).getD []).keys))).length ≤
            ((r0 :: rest).flatMap (fun run => ((run.get? q).getD []).keys)).length :=
          (List.subperm_of_subset (I.nodup _) (fun x hx => (I.mem _ _).1 hx)).length_le
        refine h1.trans ?_
        generalize r0 :: rest = rs at h
        clear h1 hm hi
        induction rs with
        | nil => exact Nat.zero_le _
        | cons r t ih =>
          rw [List.flatMap_cons, List.length_append, List.length_cons, Nat.add_mul, Nat.one_mul, Nat.add_comm]
          refine Nat.add_le_add (ih (fun run hr => h run (List.mem_cons_of_mem _ hr))) ?_
          rw [Dict.keys, List.length_map]
          exact getD_length (h r List.mem_cons_self) q
      · cases hc

/-- one run's points: computed exactly, half-integers -/
theorem bordaScoreParallel_exact (N : Nat) (hN : 2 * N + 1 ≤ 2 ^ 53) (sched : List Nat) (run : Dict κ (Results δ ℚ))
    (cand : List (List δ)) (hr : ∀ r ∈ run.values, r.length ≤ N) (hc : ∀ i : Nat, (cand[i]?.getD []).length ≤ N) :
    Fuse.Rnd.bordaScoreParallel F64.fl sched run cand = bordaScoreParallel sched run cand ∧
      ∀ q d v, (((bordaScoreParallel sched run cand).get? q).getD []).get? d = some v → HalfInt (2 * N + 1) v := by
  constructor
  · unfold Fuse.Rnd.bordaScoreParallel bordaScoreParallel
    simp only
    congr 2
    funext i
    exact (bordaScore_exact N hN _ _ (slot_length hr i) (hc i)).1
  · intro q d v hv
    cases hq : (bordaScoreParallel sched run cand).get? q with
    | none => rw [hq] at hv; cases hv
    | some r =>
      rw [hq] at hv
      have hm := mem_of_get? hq
      unfold bordaScoreParallel toRun at hm
      have hm2 := (List.of_mem_zip (mem_of_mem_ofList hm)).2
      rcases mem_prange _ _ _ hm2 with h | ⟨i, h⟩
      · rw [List.eq_of_mem_replicate h] at hv
        cases hv
      · rw [h] at hv
        exact (bordaScore_exact N hN _ _ (slot_length hr i) (hc i)).2 d v hv

/-- two score functions that agree on the lists met during the fusion give the same fusion -/
theorem fuseRun_score_congr (S : ArgSort ℚ) (f g : Score δ ℚ) (sched : List Nat) (runs : List (Dict κ (Results δ ℚ)))
    (h : ∀ q d, f (runs.map (fun run => (run.get? q).getD [])) d = g (runs.map (fun run => (run.get? q).getD [])) d) :
    fuseRun S f sched runs = fuseRun S g sched runs := by
  have hslot : ∀ qs i, fuseSlot f runs qs i = fuseSlot g runs qs i := by
    intro qs i
    unfold fuseSlot
    cases qs[i]? with
    | none => rfl
    | some q =>
      simp only
      unfold combine
      rw [show f (runs.map (fun run => (run.get? q).getD [])) = g (runs.map (fun run => (run.get? q).getD [])) from
        funext (h q)]
  have hpar : fuseParallel f sched runs = fuseParallel g sched runs := by
    unfold fuseParallel
    cases runs with
    | nil => rfl
    | cons r0 rest => simp only [show ∀ qs, fuseSlot f (r0 :: rest) qs = fuseSlot g (r0 :: rest) qs from
        fun qs => funext (hslot qs)]
  unfold fuseRun
  rw [hpar]

namespace Spec

/-- no query of any run lists more than `N` docs -/
def AtMost (N : Nat) (runs : List (Dict κ (Results δ ℚ))) : Prop := ∀ run ∈ runs, ∀ r ∈ run.values, r.length ≤ N

end Spec

/-- **C138**: as long as the number of runs times (twice the size of the largest possible pool, plus one) is at most
`2 ^ 53`, `bordafuse` in float64 arithmetic returns exactly what it returns in exact arithmetic: the same scores bit for
bit, the same ranking, the same exception. No float rounding can create or break a tie between Borda totals. -/
theorem C138_exact (S : ArgSort ℚ) (sched : List Nat) (scheds : Nat → List Nat) (I : SetIter δ) (N : Nat)
    (runs : List (Dict κ (Results δ ℚ))) (hN : Spec.AtMost N runs)
    (hB : runs.length * (2 * (runs.length * N) + 1) ≤ 2 ^ 53) :
    Fuse.Rnd.bordafuse F64.fl S sched scheds I runs = Fuse.bordafuse S sched scheds I runs := by
  unfold Fuse.Rnd.bordafuse Fuse.bordafuse Fuse.Rnd.bordaRescored Fuse.bordaRescored
  cases hc : getCandidates I runs with
  | error e => rfl
  | ok cand =>
    simp only
    by_cases hlen : (runs.any fun run => decide (cand.length < List.length run)) = true
    · rw [if_pos hlen, if_pos hlen]
    rw [if_neg hlen, if_neg hlen]
    simp only
    have hpos : 1 ≤ runs.length := by
      cases runs with
      | nil => cases hc
      | cons _ _ => simp
    have hN' : 2 * (runs.length * N) + 1 ≤ 2 ^ 53 := le_trans (Nat.le_mul_of_pos_left _ hpos) hB
    have hle : N ≤ runs.length * N := Nat.le_mul_of_pos_left _ hpos
    have hex : ∀ run ∈ runs, ∀ s, _ := fun run hrun s => bordaScoreParallel_exact (runs.length * N) hN' s run cand
      (fun r hr => (hN run hrun r hr).trans hle) (candidates_length I runs hN hc)
    have e : runs.zipIdx.map (fun rj => Fuse.Rnd.bordaScoreParallel F64.fl (scheds rj.2) rj.1 cand) =
        runs.zipIdx.map (fun rj => bordaScoreParallel (scheds rj.2) rj.1 cand) :=
      List.map_congr_left (fun rj hrj => (hex rj.1 (List.fst_mem_of_mem_zipIdx hrj) _).1)
    rw [e]
    unfold Fuse.Rnd.combSum combSum
    refine fuseRun_score_congr S _ _ sched _ (fun q d => ?_)
    unfold Fuse.Rnd.sumScore sumScore
    congr 1
    refine sum_exact (2 * (runs.length * N) + 1) _ ?_ ?_
    · intro x hx
      obtain ⟨res, hres, rfl⟩ := List.mem_map.1 hx
      obtain ⟨run, hrun, rfl⟩ := List.mem_map.1 hres
      obtain ⟨rj, hrj, rfl⟩ := List.mem_map.1 hrun
      cases hv : ((((bordaScoreParallel (scheds rj.2) rj.1 cand).get? q).getD []).get? d) with
      | none => exact HalfInt.zero _
      | some v => exact (hex rj.1 (List.fst_mem_of_mem_zipIdx hrj) _).2 q d v hv
    · rwa [List.length_map, List.length_map, List.length_map, List.length_zipIdx]

/-- **C138** (the totals): hence, for runs that list their queries in the same order, the float score of every doc is
exactly the sum of its Borda points over the runs, and the fused list is ranked by that sum. -/
theorem C138_points (S : ArgSort ℚ) (sched : List Nat) (scheds : Nat → List Nat) (I : SetIter δ) (N : Nat)
    (runs : List (Dict κ (Results δ ℚ))) (hN : Spec.AtMost N runs)
    (hB : runs.length * (2 * (runs.length * N) + 1) ≤ 2 ^ 53)
    (hf : Spec.Fusable runs) (hq : ∀ run ∈ runs, ∀ run' ∈ runs, run.keys = run'.keys)
    (hs : Schedule (queryCount runs) sched)
    (hss : ∀ (j : Nat) run, runs[j]? = some run → Schedule run.length (scheds j)) :
    ∃ out, Fuse.Rnd.bordafuse F64.fl S sched scheds I runs = .ok out ∧
      Spec.FusedBy runs
        (fun q d => (runs.map (fun run => Spec.bordaPoints (Spec.poolSize runs q) run q d)).sum) out := by
  rw [C138_exact S sched scheds I N runs hN hB]
  exact C51_bordafuse_partial S sched scheds I runs hf hq hs hss

/-- **C138** (conservation): no point is lost to rounding either: the float scores of a query add up, exactly, to the
number of runs times `1 + 2 + … + pool size`. -/
theorem C138_total (S : ArgSort ℚ) (sched : List Nat) (scheds : Nat → List Nat) (I : SetIter δ) (N : Nat)
    (runs : List (Dict κ (Results δ ℚ))) (hN : Spec.AtMost N runs)
    (hB : runs.length * (2 * (runs.length * N) + 1) ≤ 2 ^ 53)
    (hf : Spec.Fusable runs) (hq : ∀ run ∈ runs, ∀ run' ∈ runs, run.keys = run'.keys)
    (hs : Schedule (queryCount runs) sched)
    (hss : ∀ (j : Nat) run, runs[j]? = some run → Schedule run.length (scheds j)) :
    ∃ out, Fuse.Rnd.bordafuse F64.fl S sched scheds I runs = .ok out ∧
      ∀ q res, out.data.get? q = some res → res.values.length = Spec.poolSize runs q ∧
        res.values.sum = (runs.length : ℚ) *
          ((Spec.poolSize runs q : ℚ) * ((Spec.poolSize runs q : ℚ) + 1) / 2) := by
  rw [C138_exact S sched scheds I N runs hN hB]
  exact C55_points_partial S sched scheds I runs hf hq hs hss

/-- non-vacuity: two runs, up to three docs per query, a doc ranked by one run only (half points) -/
example : Spec.AtMost 3 bordaEx ∧ bordaEx.length * (2 * (bordaEx.length * 3) + 1) ≤ 2 ^ 53 ∧
    Spec.Fusable bordaEx ∧ (∀ run ∈ bordaEx, ∀ run' ∈ bordaEx, run.keys = run'.keys) ∧
    readOut (Fuse.Rnd.bordafuse F64.fl (.stable ℚ) [0, 1] (fun _ => [1, 0]) dedupIter bordaEx) 1 10 = some (3 + 3 / 2) :=
  ⟨by unfold Spec.AtMost; decide, by decide,
    ⟨by decide, by unfold NodupKeys; decide, by unfold NodupKeys; decide, by decide⟩, by decide, by decide +kernel⟩

end Ranx
