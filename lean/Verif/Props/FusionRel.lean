import Verif.Props.FusionSym
import Verif.Props.FusionBorda
import Mathlib.Algebra.Order.BigOperators.Group.List

/-!
# Properties C53, C64: relations between fusion methods, linearity of wsum
-/

set_option linter.unusedSectionVars false

namespace Ranx
open Dict Fuse
open _root_.Ranx.Norm (Results SetIter)
variable {κ δ α : Type*}

section
variable [DecidableEq δ] [DecidableEq α] [Zero α]

theorem unionLoop_congr (s s' : δ → Except Err α) (h : ∀ d, s d = s' d) (ds : List δ) (acc : Dict δ α) :
    unionLoop s ds acc = unionLoop s' ds acc := by
  have : s = s' := funext h
  rw [this]

theorem fuseRun_congr [LinearOrder κ] [LE α] [Neg α] (S : ArgSort α) (score score' : Score δ α) (sched : List Nat)
    (runs : List (Dict κ (Results δ α)))
    (h : ∀ rs : List (Results δ α), rs.length = runs.length → ∀ d, score rs d = score' rs d) :
    fuseRun S score sched runs = fuseRun S score' sched runs := by
  have hs : ∀ qs i, fuseSlot score runs qs i = fuseSlot score' runs qs i := by
    intro qs i
    unfold fuseSlot combine
    cases qs[i]? with
    | none => rfl
    | some q =>
      simp only
      rw [unionLoop_congr _ _ (h (runs.map (fun run => (run.get? q).getD [])) (by simp))]
  unfold fuseRun
  have : fuseParallel score sched runs = fuseParallel score' sched runs := by
    cases runs with
    | nil => rfl
    | cons r0 t =>
      unfold fuseParallel
      simp only
      rw [funext (hs r0.keys)]
  rw [this]

end

section
variable [LinearOrder κ] [DecidableEq δ] [LinearOrder α] [Field α] [IsStrictOrderedRing α]
  (S : ArgSort α) (sched : List Nat)

theorem zip_replicate_map {A B : Type*} (f : A → α → B) (l : List A) :
    (l.zip (List.replicate l.length (1 : α))).map (fun p => f p.1 p.2) = l.map (fun a => f a 1) := by
  induction l with
  | nil => rfl
  | cons x t ih =>
    rw [List.length_cons, List.replicate_succ, List.zip_cons_cons, List.map_cons, List.map_cons, ih]

theorem zip_replicate_filterMap {A B : Type*} (f : A → α → Option B) (l : List A) :
    (l.zip (List.replicate l.length (1 : α))).filterMap (fun p => f p.1 p.2) = l.filterMap (fun a => f a 1) := by
  induction l with
  | nil => rfl
  | cons x t ih =>
    rw [List.length_cons, List.replicate_succ, List.zip_cons_cons, List.filterMap_cons, List.filterMap_cons, ih]

/-- **C53** wsum with all weights 1 is comb_sum: the same result (or the same error), tie order included. -/
theorem C53_wsum_ones (runs : List (Dict κ (Results δ α))) :
    wsum S sched (List.replicate runs.length 1) runs = combSum S sched runs := by
  unfold wsum combSum
  apply fuseRun_congr
  intro rs hl d
  unfold wsumScore sumScore
  rw [← hl, collect_weights_aux (List.replicate rs.length 1) (fun r w => w * (r.get? d).getD 0) rs 0 (by simp)]
  simp only [List.drop_zero]
  rw [zip_replicate_map (fun (a : Results δ α) (w : α) => w * (a.get? d).getD 0) rs]
  simp

theorem presentWeighted_ones (rs : List (Results δ α)) (d : δ) :
    presentWeighted (List.replicate rs.length (1 : α)) rs d = .ok ((present rs d).map (fun s => (s, 1))) := by
  unfold presentWeighted present
  rw [presentWeighted_aux _ d rs 0 (by simp), List.drop_zero,
    zip_replicate_filterMap (fun (a : Results δ α) (w : α) => (a.get? d).map (fun s => (s, w))) rs,
    List.map_filterMap]

/-- **C53** wmnz with all weights 1 is comb_mnz. -/
theorem C53_wmnz_ones (runs : List (Dict κ (Results δ α))) :
    wmnz S sched (List.replicate runs.length 1) runs = combMnz S sched runs := by
  unfold wmnz combMnz
  apply fuseRun_congr
  intro rs hl d
  unfold wmnzScore mnzScore
  rw [← hl, presentWeighted_ones]
  simp [List.map_map, Function.comp_def]

/-- **C53** for every doc, comb_mnz = comb_sum · hits and comb_anz · hits = comb_sum, where `hits` is the number
of runs that have the doc. -/
theorem C53_mnz_anz (runs : List (Dict κ (Results δ α))) (hf : Spec.Fusable runs)
    (hs : Schedule (queryCount runs) sched) :
    ∃ sum mnz anz, combSum S sched runs = .ok sum ∧ combMnz S sched runs = .ok mnz ∧
      combAnz S sched runs = .ok anz ∧ ∀ q d, Spec.InSome runs q d →
      ∃ x y z, (Spec.content sum).read q d = some x ∧ (Spec.content mnz).read q d = some y ∧
        (Spec.content anz).read q d = some z ∧
        y = x * ((Spec.scores runs q d).length : α) ∧ z * ((Spec.scores runs q d).length : α) = x := by
  obtain ⟨sum, h1, h2⟩ := C49_comb_sum S sched runs hf hs
  obtain ⟨mnz, h3, h4⟩ := C49_comb_mnz S sched runs hf hs
  obtain ⟨anz, h5, h6⟩ := C49_comb_anz S sched runs hf hs
  refine ⟨sum, mnz, anz, h1, h3, h5, fun q d hd => ⟨_, _, _, h2.value q d hd, h4.value q d hd, h6.value q d hd, rfl, ?_⟩⟩
  have : ((Spec.scores runs q d).length : α) ≠ 0 := by
    have := scores_ne_nil hd
    have := List.length_pos_iff.2 this
    exact_mod_cast this.ne'
  rw [div_mul_cancel₀ _ this]

end

section
variable [LinearOrder κ] [DecidableEq δ] (S : ArgSort ℝ) (sched : List Nat)

/-- **C53** comb_gmnz with γ = 0 is comb_sum, with γ = 1 comb_mnz. -/
theorem C53_gmnz (runs : List (Dict κ (Results δ ℝ))) :
    combGmnz S sched 0 runs = combSum S sched runs ∧ combGmnz S sched 1 runs = combMnz S sched runs := by
  constructor
  · unfold combGmnz combSum
    apply fuseRun_congr
    intro rs hl d
    unfold gmnzScore sumScore present
    rw [sum_getD_eq]
    simp
  · unfold combGmnz combMnz
    apply fuseRun_congr
    intro rs hl d
    unfold gmnzScore mnzScore
    simp

end

example : readOut (wsum (.stable ℚ) [1, 0] [1, 1] [fuseEx1, fuseEx2]) 1 10 = some 7 := by decide +kernel
example : readOut (combAnz (.stable ℚ) [1, 0] [fuseEx1, fuseEx2]) 1 10 = some (7 / 2) := by decide +kernel

/-! ### C64 -/

section
variable [LinearOrder κ] [DecidableEq δ] [LinearOrder α] [Field α] [IsStrictOrderedRing α]
  (S : ArgSort α) (sched : List Nat)

/-- Specification: every score of a run multiplied by `c` -/
def Spec.scaleRun (c : α) (run : Spec.RunData κ δ α) : Spec.RunData κ δ α :=
  run.map (fun p => (p.1, p.2.map (fun e => (e.1, c * e.2))))

/-- Specification: `r3` has for each query and doc of `r1` and `r2` (which have the same ones) the sum of the scores -/
def Spec.AddsUp (r1 r2 r3 : Spec.RunData κ δ α) : Prop :=
  ∀ q d, match Spec.score? r1 q d, Spec.score? r2 q d, Spec.score? r3 q d with
    | some a, some b, some c => c = a + b
    | none, none, none => True
    | _, _, _ => False

/-- the score of wsum as a sum over all runs, absent docs counting 0 -/
theorem weighted_sum_eq (runs : List (Spec.RunData κ δ α)) (ws : List α) (q : κ) (d : δ) :
    ((Spec.weighted runs ws q d).map (fun p => p.2 * p.1)).sum =
      ((runs.zip ws).map (fun rw => rw.2 * (Spec.score? rw.1 q d).getD 0)).sum := by
  unfold Spec.weighted
  generalize runs.zip ws = l
  induction l with
  | nil => rfl
  | cons x t ih =>
    rw [List.map_cons, List.sum_cons, ← ih, List.filterMap_cons]
    cases Spec.score? x.1 q d with
    | none => simp
    | some v => simp

theorem score?_scaleRun (c : α) (run : Spec.RunData κ δ α) (q : κ) (d : δ) :
    Spec.score? (Spec.scaleRun c run) q d = (Spec.score? run q d).map (fun s => c * s) := by
  have hi : ∀ (r : Dict δ α), Dict.get? (r.map (fun e => (e.1, c * e.2))) d = (r.get? d).map (fun s => c * s) := by
    intro r
    induction r with
    | nil => rfl
    | cons p t ih =>
      rw [List.map_cons, get?_cons, get?_cons, ih]
      by_cases hp : p.1 = d
      · rw [if_pos hp, if_pos hp]; rfl
      · rw [if_neg hp, if_neg hp]
  unfold Spec.score? Spec.scaleRun
  induction run with
  | nil => rfl
  | cons p t ih =>
    rw [List.map_cons, get?_cons, get?_cons]
    by_cases hp : p.1 = q
    · rw [if_pos hp, if_pos hp]
      exact hi p.2
    · rw [if_neg hp, if_neg hp]
      exact ih

/-- **C64** scaling: with all weights multiplied by `c`, every fused score is multiplied by `c`; for `c > 0` any two
docs of a query compare as before. -/
theorem C64_scale_weights (c : α) (ws : List α) (runs : List (Dict κ (Results δ α))) (hf : Spec.Fusable runs)
    (hw : runs.length ≤ ws.length) (hs : Schedule (queryCount runs) sched) :
    ∃ out out', wsum S sched ws runs = .ok out ∧ wsum S sched (ws.map (fun w => c * w)) runs = .ok out' ∧
      (∀ q d, (Spec.content out').read q d = ((Spec.content out).read q d).map (fun x => c * x)) ∧
      (0 < c → ∀ q d e x y x' y', (Spec.content out).read q d = some x → (Spec.content out).read q e = some y →
        (Spec.content out').read q d = some x' → (Spec.content out').read q e = some y' → (x < y ↔ x' < y')) := by
  obtain ⟨out, h1, h2⟩ := C49_wsum S sched ws runs hf hw hs
  obtain ⟨out', h3, h4⟩ := C49_wsum S sched (ws.map (fun w => c * w)) runs hf (by simpa using hw) hs
  have key : ∀ q d, (Spec.content out').read q d = ((Spec.content out).read q d).map (fun x => c * x) := by
    intro q d
    by_cases hi : Spec.InSome runs q d
    · rw [h2.value q d hi, h4.value q d hi, weighted_sum_eq, weighted_sum_eq, Option.map_some]
      congr 1
      rw [← List.sum_map_mul_left, List.zip_map_right, List.map_map]
      congr 1
      apply List.map_congr_left
      intro x _
      simp only [Function.comp_apply, Prod.map_fst, Prod.map_snd, id]
      ring
    · rw [not_not.1 (mt (h2.docs q d).1 hi), not_not.1 (mt (h4.docs q d).1 hi)]; rfl
  refine ⟨out, out', h1, h3, key, fun hc q d e x y x' y' hx hy hx' hy' => ?_⟩
  rw [key, hx] at hx'
  rw [key, hy] at hy'
  cases hx'
  cases hy'
  exact (mul_lt_mul_iff_right₀ hc).symm

/-- **C64** additivity in the weights: fusing with `ws₁ + ws₂` adds the fused scores. -/
theorem C64_add_weights (ws1 ws2 : List α) (runs : List (Dict κ (Results δ α))) (hf : Spec.Fusable runs)
    (hw1 : runs.length ≤ ws1.length) (hw2 : runs.length ≤ ws2.length) (hs : Schedule (queryCount runs) sched) :
    ∃ out1 out2 out, wsum S sched ws1 runs = .ok out1 ∧ wsum S sched ws2 runs = .ok out2 ∧
      wsum S sched (List.zipWith (· + ·) ws1 ws2) runs = .ok out ∧
      ∀ q d, Spec.InSome runs q d → ∃ x y, (Spec.content out1).read q d = some x ∧
        (Spec.content out2).read q d = some y ∧ (Spec.content out).read q d = some (x + y) := by
  obtain ⟨out1, h1, h2⟩ := C49_wsum S sched ws1 runs hf hw1 hs
  obtain ⟨out2, h3, h4⟩ := C49_wsum S sched ws2 runs hf hw2 hs
  obtain ⟨out, h5, h6⟩ := C49_wsum S sched (List.zipWith (· + ·) ws1 ws2) runs hf (by simp; omega) hs
  refine ⟨out1, out2, out, h1, h3, h5, fun q d hi => ⟨_, _, h2.value q d hi, h4.value q d hi, ?_⟩⟩
  rw [h6.value q d hi, weighted_sum_eq, weighted_sum_eq, weighted_sum_eq]
  congr 1
  clear h1 h2 h3 h4 h5 h6 hi hf hs
  induction runs generalizing ws1 ws2 with
  | nil => simp
  | cons r t ih =>
    cases ws1 with
    | nil => simp at hw1
    | cons a u =>
      cases ws2 with
      | nil => simp at hw2
      | cons b v =>
        simp only [List.length_cons, Nat.add_le_add_iff_right] at hw1 hw2
        simp only [List.zipWith_cons_cons, List.zip_cons_cons, List.map_cons, List.sum_cons]
        rw [ih u v hw1 hw2]
        ring

/-- **C64** homogeneity in the scores: multiplying all scores of all runs by `c` multiplies the fused scores by `c`. -/
theorem C64_scale_scores (c : α) (ws : List α) (runs : List (Dict κ (Results δ α))) (hf : Spec.Fusable runs)
    (hf' : Spec.Fusable (runs.map (Spec.scaleRun c)))
    (hw : runs.length ≤ ws.length) (hs : Schedule (queryCount runs) sched) :
    ∃ out out', wsum S sched ws runs = .ok out ∧ wsum S sched ws (runs.map (Spec.scaleRun c)) = .ok out' ∧
      ∀ q d, Spec.InSome runs q d → ∃ x, (Spec.content out).read q d = some x ∧
        (Spec.content out').read q d = some (c * x) := by
  obtain ⟨out, h1, h2⟩ := C49_wsum S sched ws runs hf hw hs
  obtain ⟨out', h3, h4⟩ := C49_wsum S sched ws (runs.map (Spec.scaleRun c)) hf' (by simpa using hw) (by
    cases runs with
    | nil => exact hs
    | cons r t => simpa [queryCount, Spec.scaleRun] using hs)
  refine ⟨out, out', h1, h3, fun q d hi => ⟨_, h2.value q d hi, ?_⟩⟩
  have hin : Spec.InSome (runs.map (Spec.scaleRun c)) q d := by
    obtain ⟨run, hr, r, hg, hd⟩ := hi
    refine ⟨Spec.scaleRun c run, List.mem_map.2 ⟨run, hr, rfl⟩, ?_⟩
    have hsc := score?_scaleRun c run q d
    unfold Spec.score? at hsc
    rw [hg] at hsc
    obtain ⟨v, hv⟩ := Option.isSome_iff_exists.1 (get?_isSome.2 hd)
    cases hg' : (Spec.scaleRun c run).get? q with
    | none => rw [hg'] at hsc; simp [hv] at hsc
    | some r' =>
      rw [hg'] at hsc
      simp only [Option.bind_some, hv, Option.map_some] at hsc
      exact ⟨r', rfl, get?_isSome.1 (by rw [hsc]; rfl)⟩
  rw [h4.value q d hin, weighted_sum_eq, weighted_sum_eq, ← List.sum_map_mul_left, List.zip_map_left, List.map_map]
  congr 2
  apply List.map_congr_left
  intro x _
  simp only [Function.comp_apply, Prod.map_fst, Prod.map_snd, id, score?_scaleRun]
  cases Spec.score? x.1 q d with
  | none => simp
  | some v => simp; ring

/-- **C64** additivity in the scores: if run by run the scores of `runs₃` are the sums of those of `runs₁` and
`runs₂`, so are the fused scores. -/
theorem C64_add_scores (ws : List α) (runs1 runs2 runs3 : List (Dict κ (Results δ α)))
    (hf1 : Spec.Fusable runs1) (hf2 : Spec.Fusable runs2) (hf3 : Spec.Fusable runs3)
    (sched2 sched3 : List Nat)
    (hw : runs1.length ≤ ws.length) (h12 : runs1.length = runs2.length) (h13 : runs1.length = runs3.length)
    (hadd : ∀ (j : Nat) r1 r2 r3, runs1[j]? = some r1 → runs2[j]? = some r2 → runs3[j]? = some r3 →
      Spec.AddsUp r1 r2 r3)
    (hs1 : Schedule (queryCount runs1) sched) (hs2 : Schedule (queryCount runs2) sched2)
    (hs3 : Schedule (queryCount runs3) sched3) :
    ∃ out1 out2 out3, wsum S sched ws runs1 = .ok out1 ∧ wsum S sched2 ws runs2 = .ok out2 ∧
      wsum S sched3 ws runs3 = .ok out3 ∧
      ∀ q d, Spec.InSome runs1 q d → Spec.InSome runs2 q d → Spec.InSome runs3 q d →
        ∃ x y, (Spec.content out1).read q d = some x ∧
        (Spec.content out2).read q d = some y ∧ (Spec.content out3).read q d = some (x + y) := by
  obtain ⟨out1, h1, h2⟩ := C49_wsum S sched ws runs1 hf1 hw hs1
  obtain ⟨out2, h3, h4⟩ := C49_wsum S sched2 ws runs2 hf2 (h12 ▸ hw) hs2
  obtain ⟨out3, h5, h6⟩ := C49_wsum S sched3 ws runs3 hf3 (h13 ▸ hw) hs3
  refine ⟨out1, out2, out3, h1, h3, h5, fun q d i1 i2 i3 => ⟨_, _, h2.value q d i1, h4.value q d i2, ?_⟩⟩
  rw [h6.value q d i3, weighted_sum_eq, weighted_sum_eq, weighted_sum_eq]
  congr 1
  clear h1 h2 h3 h4 h5 h6 i1 i2 i3 hf1 hf2 hf3 hs1 hs2 hs3
  induction runs1 generalizing ws runs2 runs3 with
  | nil =>
    rw [List.length_nil] at h12 h13
    rw [List.length_eq_zero_iff.1 h12.symm, List.length_eq_zero_iff.1 h13.symm]
    simp
  | cons r1 t1 ih =>
    cases runs2 with
    | nil => simp at h12
    | cons r2 t2 =>
      cases runs3 with
      | nil => simp at h13
      | cons r3 t3 =>
        cases ws with
        | nil => simp at hw
        | cons w ws =>
          simp only [List.length_cons, Nat.add_right_cancel_iff, Nat.add_le_add_iff_right] at h12 h13 hw
          simp only [List.zip_cons_cons, List.map_cons, List.sum_cons]
          rw [ih ws t2 t3 hw h12 h13 (fun j a b c ha hb hc => hadd (j + 1) a b c ha hb hc)]
          have := hadd 0 r1 r2 r3 rfl rfl rfl q d
          revert this
          cases Spec.score? r1 q d <;> cases Spec.score? r2 q d <;> cases Spec.score? r3 q d <;>
            simp only [Option.getD_none, Option.getD_some, false_imp_iff, forall_const]
          · ring
          · intro h; rw [h]; ring

end

/-- the hypotheses of the C64 theorems are met by the example runs -/
example : Spec.Fusable ([fuseEx1, fuseEx2].map (Spec.scaleRun 3)) :=
  ⟨by decide, by unfold NodupKeys; decide, by unfold NodupKeys; decide, by decide⟩
example : readOut (wsum (.stable ℚ) [1, 0] [6, 9] [fuseEx1, fuseEx2]) 1 10 = some 48 := by decide +kernel
example : Spec.score? fuseEx1 1 10 = some 5 ∧ Spec.score? (Spec.scaleRun 2 fuseEx1) 1 10 = some 10 := by
  constructor <;> decide +kernel
example : ∃ r : Dict Nat (Results Nat ℚ), r ≠ [] ∧ Spec.AddsUp r r (Spec.scaleRun 2 r) :=
  ⟨fuseEx1, by decide, by
    intro q d
    rw [score?_scaleRun]
    cases Spec.score? fuseEx1 q d with
    | none => trivial
    | some v => simp; ring⟩

end Ranx
