import Verif.Lemmas.CeilFl
import Verif.Props.BayesFl
import Mathlib.Data.List.Perm.Subperm

/-!
# Property C160: the other probabilistic fusion methods, trained in float64
-/

set_option linter.unusedSectionVars false

namespace Ranx
open Dict Store Eval Metrics Fuse F64
variable {κ δ ι : Type*}

/-! ## Specification -/

/-- Specification: the table `t` is the table `e` up to relative errors `c / 2^53`, and holds numbers in [0, 1]. -/
structure Spec.CloseTables (c : ℚ) (e t : List ℚ) : Prop where
  length : t.length = e.length
  close : ∀ (k : Nat) (v x : ℚ), t[k]? = some v → e[k]? = some x → |v - x| ≤ c / 2 ^ 53 * x
  range : ∀ v ∈ t, 0 ≤ v ∧ v ≤ 1

/-! ## Lemmas -/

namespace Train.Rnd

theorem getElem?_addAt (rnd : ℚ → ℚ) (a : List ℚ) (i k : Nat) (v : ℚ) :
    (addAt rnd a i v)[k]? = a[k]?.map (fun x => if i = k then rnd (x + v) else x) := by
  unfold addAt
  rw [List.getElem?_modify]
  cases a[k]? <;> rfl

/-- `n` updates, the `i`-th of cell `i` -/
theorem foldl_update (upd : Nat → ℚ → ℚ) (step : List ℚ → Nat → List ℚ)
    (hstep : ∀ a i k, (step a i)[k]? = a[k]?.map (fun x => if i = k then upd i x else x)) (n : Nat) (a : List ℚ) (k : Nat) :
    ((List.range n).foldl step a)[k]? = a[k]?.map (fun x => if k < n then upd k x else x) := by
  induction n with
  | zero => cases h : a[k]? <;> simp [h]
  | succ n ih =>
    rw [List.range_succ, List.foldl_append]
    simp only [List.foldl_cons, List.foldl_nil]
    rw [hstep, ih]
    cases a[k]? with
    | none => rfl
    | some x =>
      simp only [Option.map_some, Option.some.injEq]
      by_cases h1 : n = k
      · subst h1; simp
      · rw [if_neg h1]
        by_cases h2 : k < n
        · rw [if_pos h2, if_pos (by omega)]
        · rw [if_neg h2, if_neg (by omega)]

theorem foldl_cells {β : Type*} (step : List ℚ → β → List ℚ) (up : β → ℚ → ℚ) (k : Nat)
    (hk : ∀ acc b, (step acc b)[k]? = acc[k]?.map (up b)) (l : List β) (a : List ℚ) :
    (l.foldl step a)[k]? = a[k]?.map (fun x => l.foldl (fun x b => up b x) x) := by
  induction l generalizing a with
  | nil => cases h : a[k]? <;> simp [h]
  | cons b t ih =>
    rw [List.foldl_cons, ih, hk]
    cases a[k]? <;> rfl

/-- a cell that holds a float is the float sum of the contributions -/
theorem foldl_cell {β : Type*} (up : β → ℚ → ℚ) (c : β → ℚ) (l : List β)
    (hup : ∀ b ∈ l, ∀ x, fl x = x → up b x = fl (x + c b)) (x : ℚ) (hx : fl x = x) :
    l.foldl (fun x b => up b x) x = (l.map c).foldl (fun a y => fl (a + y)) x := by
  induction l generalizing x with
  | nil => rfl
  | cons b t ih =>
    rw [List.foldl_cons, List.map_cons, List.foldl_cons, hup b (by simp) x hx]
    exact ih (fun b hb => hup b (by simp [hb])) _ (fl_fl _)

theorem cells_sum {β : Type*} (step : List ℚ → β → List ℚ) (up : β → ℚ → ℚ) (c : β → ℚ) (l : List β) (n k : Nat) (hkn : k < n)
    (hk : ∀ acc b, (step acc b)[k]? = acc[k]?.map (up b))
    (hup : ∀ b ∈ l, ∀ x, fl x = x → up b x = fl (x + c b)) :
    (l.foldl step (List.replicate n 0))[k]? = some (Norm.Rnd.sum fl (l.map c)) := by
  rw [foldl_cells step up k hk, List.getElem?_replicate, if_pos hkn, Option.map_some, foldl_cell up c l hup 0 fl_zero]
  rfl

theorem length_foldl {β : Type*} (step : List ℚ → β → List ℚ) (hs : ∀ a b, (step a b).length = a.length) (l : List β)
    (a : List ℚ) : (l.foldl step a).length = a.length := by
  induction l generalizing a with
  | nil => rfl
  | cons b t ih => rw [List.foldl_cons, ih, hs]

/-- hit lists hold 0.0 and 1.0 only -/
def Bits (hls : List (List ℚ)) : Prop := ∀ hl ∈ hls, ∀ x ∈ hl, x = 0 ∨ x = 1

theorem estimateProbs_fl (hls : List (List ℚ)) (hb : Bits hls) (hn : hls.length ≤ 2 ^ 53) :
    estimateProbs fl hls = (Train.estimateProbs hls).map (fun e => e.map fl) := by
  unfold estimateProbs Train.estimateProbs
  cases hm : hls.map List.length with
  | nil => rfl
  | cons m ms =>
    simp only [Except.map]
    generalize ms.foldl max m = size
    rw [show (fun (acc : List ℚ × List ℚ) (hl : List ℚ) => (List.range hl.length).foldl (fun a i =>
        (Train.addAt a.1 i 1, Train.addAt a.2 i ((hl[i]?).getD 0))) acc) =
      (fun acc hl => ((List.range hl.length).foldl (fun a i => Train.addAt a i 1) acc.1,
        (List.range hl.length).foldl (fun a i => Train.addAt a i ((hl[i]?).getD 0)) acc.2)) from by
        funext acc hl
        obtain ⟨x, y⟩ := acc
        exact foldl_pair (fun (a : List ℚ) i => Train.addAt a i 1)
          (fun (a : List ℚ) i => Train.addAt a i ((hl[i]?).getD 0)) _ _ _,
      show (fun (acc : List ℚ × List ℚ) (hl : List ℚ) => (List.range hl.length).foldl (fun a i =>
        (addAt fl a.1 i 1, addAt fl a.2 i ((hl[i]?).getD 0))) acc) =
      (fun acc hl => ((List.range hl.length).foldl (fun a i => addAt fl a i 1) acc.1,
        (List.range hl.length).foldl (fun a i => addAt fl a i ((hl[i]?).getD 0)) acc.2)) from by
        funext acc hl
        obtain ⟨x, y⟩ := acc
        exact foldl_pair (fun (a : List ℚ) i => addAt fl a i 1)
          (fun (a : List ℚ) i => addAt fl a i ((hl[i]?).getD 0)) _ _ _]
    rw [foldl_pair (fun (acc : List ℚ) (hl : List ℚ) => (List.range hl.length).foldl (fun a i => Train.addAt a i 1) acc)
      (fun (acc : List ℚ) (hl : List ℚ) => (List.range hl.length).foldl
        (fun a i => Train.addAt a i ((hl[i]?).getD 0)) acc),
      foldl_pair (fun (acc : List ℚ) (hl : List ℚ) => (List.range hl.length).foldl (fun a i => addAt fl a i 1) acc)
      (fun (acc : List ℚ) (hl : List ℚ) => (List.range hl.length).foldl
        (fun a i => addAt fl a i ((hl[i]?).getD 0)) acc)]
    have hlenR : ∀ (g : Nat → ℚ) (n : Nat) (a : List ℚ),
        ((List.range n).foldl (fun a i => addAt fl a i (g i)) a).length = a.length := fun g n a =>
      length_foldl _ (fun a b => by unfold addAt; rw [List.length_modify]) _ _
    have hlenE : ∀ (g : Nat → ℚ) (n : Nat) (a : List ℚ),
        ((List.range n).foldl (fun a i => Train.addAt a i (g i)) a).length = a.length := fun g n a =>
      length_foldl _ (fun a b => by unfold Train.addAt; rw [List.length_modify]) _ _
    have key : ∀ g : List ℚ → Nat → ℚ, (∀ hl ∈ hls, ∀ p, g hl p = 0 ∨ g hl p = 1) →
        (hls.foldl (fun (acc : List ℚ) (hl : List ℚ) => (List.range hl.length).foldl
          (fun a i => addAt fl a i (g hl i)) acc) (List.replicate size 0)) =
        (hls.foldl (fun (acc : List ℚ) (hl : List ℚ) => (List.range hl.length).foldl
          (fun a i => Train.addAt a i (g hl i)) acc) (List.replicate size 0)) := by
      intro g hg
      apply List.ext_getElem?
      intro k
      by_cases hk : k < size
      · rw [cells_sum _ (fun hl x => if k < hl.length then fl (x + g hl k) else x)
          (fun hl => if k < hl.length then g hl k else 0) hls size k hk
          (fun acc hl => foldl_update (fun i x => fl (x + g hl i)) _ (fun a i k => getElem?_addAt fl a i k _) _ _ _)
          (fun hl _ x hx => by
            by_cases h : k < hl.length
            · rw [if_pos h, if_pos h]
            · rw [if_neg h, if_neg h, add_zero, hx]),
          foldl_step _ (fun hl k => if k < hl.length then g hl k else 0) k
            (fun acc hl => foldl_addAt hl.length (g hl) acc k), List.getElem?_replicate, if_pos hk]
        simp only [Option.map_some, zero_add, Option.some.injEq]
        apply sum_bits_fl
        · intro x hx
          obtain ⟨hl, hm, rfl⟩ := List.mem_map.1 hx
          by_cases h : k < hl.length
          · rw [if_pos h]; exact hg hl hm k
          · rw [if_neg h]; exact .inl rfl
        · rw [List.length_map]; exact hn
      · rw [List.getElem?_eq_none, List.getElem?_eq_none]
        · rw [length_foldl _ (fun a b => hlenE (g b) _ a), List.length_replicate]; omega
        · rw [length_foldl _ (fun a b => hlenR (g b) _ a), List.length_replicate]; omega
    have k1 := key (fun _ _ => 1) (fun _ _ _ => .inr rfl)
    have k2 := key (fun hl i => (hl[i]?).getD 0) (fun hl hm p => by
      cases h : hl[p]? with
      | none => exact .inl rfl
      | some x => exact hb hl hm x (List.mem_of_getElem? h))
    rw [k1, k2]
    simp only [List.map_zipWith]

theorem averages_close (hls : List (List ℚ)) (e c : List ℚ → ℚ) (hn : hls.length ≤ 2 ^ 51) (hne : hls ≠ [])
    (hc : ∀ hl ∈ hls, NearK 1 (e hl) (c hl) ∧ 0 ≤ e hl ∧ c hl ≤ 1) :
    |fl (Norm.Rnd.sum fl (hls.map c) / fl (hls.length : ℚ)) - (hls.map e).sum / (hls.length : ℚ)| ≤
      2 * ((hls.length + 2 : ℕ) : ℚ) / 2 ^ 53 * ((hls.map e).sum / (hls.length : ℚ)) ∧
    0 ≤ fl (Norm.Rnd.sum fl (hls.map c) / fl (hls.length : ℚ)) ∧
    fl (Norm.Rnd.sum fl (hls.map c) / fl (hls.length : ℚ)) ≤ 1 := by
  have hlen : fl (hls.length : ℚ) = hls.length := fl_nat (by omega)
  have hpos : (0 : ℚ) < hls.length := by exact_mod_cast List.length_pos_iff.2 hne
  have he0 : ∀ x ∈ hls.map e, 0 ≤ x := by
    intro x hx
    obtain ⟨hl, hm, rfl⟩ := List.mem_map.1 hx
    exact (hc hl hm).2.1
  have hS := flSum_near 1 (hls.map e) (hls.map c) (by
    rw [List.forall₂_map_left_iff, List.forall₂_map_right_iff, List.forall₂_same]
    exact fun hl hm => (hc hl hm).1) he0
  rw [List.length_map] at hS
  have hsum0 : 0 ≤ (hls.map e).sum := List.sum_nonneg he0
  have hq0 : 0 ≤ (hls.map e).sum / (hls.length : ℚ) := div_nonneg hsum0 hpos.le
  have hN := (hS.div_exact hpos).fl hq0
  rw [hlen]
  refine ⟨?_, hN.nonneg hq0, ?_⟩
  · have := hN.abs hq0 (by omega)
    rw [show 1 + hls.length + 1 = hls.length + 2 by omega] at this
    exact this
  · refine (fl_mono ?_).trans_eq fl_one
    rw [div_le_one hpos]
    have h1 : Norm.Rnd.sum fl (hls.map c) ≤ Norm.Rnd.sum fl (hls.map (fun _ => (1 : ℚ))) := by
      unfold Norm.Rnd.sum
      apply flSum_mono _ le_rfl
      rw [List.forall₂_map_left_iff, List.forall₂_map_right_iff, List.forall₂_same]
      exact fun hl hm => (hc hl hm).2.2
    refine h1.trans_eq ?_
    rw [sum_bits_fl _ (by
      intro x hx
      obtain ⟨hl, -, rfl⟩ := List.mem_map.1 hx
      exact .inr rfl) (by rw [List.length_map]; omega)]
    simp

theorem bits_slice {hl : List ℚ} (h : ∀ x ∈ hl, x = 0 ∨ x = 1) (a b : Nat) : ∀ x ∈ slice hl a b, x = 0 ∨ x = 1 := by
  intro x hx
  unfold slice at hx
  exact h x (List.mem_of_mem_take (List.mem_of_mem_drop hx))

theorem bits_sum {l : List ℚ} (h : ∀ x ∈ l, x = 0 ∨ x = 1) : 0 ≤ l.sum ∧ l.sum ≤ l.length := by
  induction l with
  | nil => simp
  | cons a t ih =>
    obtain ⟨h1, h2⟩ := ih (fun x hx => h x (by simp [hx]))
    rw [List.sum_cons, List.length_cons]
    push_cast
    rcases h a (by simp) with e | e <;> rw [e] <;> constructor <;> linarith

/-- one precision, computed in floating point -/
theorem ratio_close {l : List ℚ} (h : ∀ x ∈ l, x = 0 ∨ x = 1) (w : Nat) (hw : l.length ≤ w) (hw53 : w ≤ 2 ^ 53) :
    NearK 1 (l.sum / (w : ℚ)) (fl (Norm.Rnd.sum fl l / fl (w : ℚ))) ∧ 0 ≤ l.sum / (w : ℚ) ∧
      fl (Norm.Rnd.sum fl l / fl (w : ℚ)) ≤ 1 := by
  obtain ⟨h1, h2⟩ := bits_sum h
  have hw' : (l.length : ℚ) ≤ w := by exact_mod_cast hw
  have h0 : 0 ≤ l.sum / (w : ℚ) := div_nonneg h1 (by positivity)
  rw [sum_bits_fl l h (by omega), fl_nat hw53]
  exact ⟨(NearK.refl _).fl h0, h0, (fl_mono (div_le_one_of_le₀ (h2.trans hw') (by positivity))).trans_eq fl_one⟩

theorem segSegments_close (hls : List (List ℚ)) (hb : Bits hls) (hne : hls ≠ []) (hn : hls.length ≤ 2 ^ 51) :
    Spec.CloseTables (2 * ((hls.length + 2 : ℕ) : ℚ)) (Train.segSegments hls) (segSegments fl hls) := by
  obtain ⟨t1, t2⟩ := segSegments_eq hls
  set c : Nat → List ℚ → ℚ := fun k hl => fl (Norm.Rnd.sum fl (slice hl ((segmentSizes[k]?).getD 0) ((segmentSizes[k + 1]?).getD 0)) /
    fl (((segmentSizes[k + 1]?).getD 0 - (segmentSizes[k]?).getD 0 : Nat) : ℚ)) with hcdef
  have hlen : (segSegments fl hls).length = 10 := by
    unfold segSegments
    rw [List.length_map, length_foldl]
    · rfl
    · intro a b
      exact length_foldl _ (fun a b => by unfold addAt; rw [List.length_modify]) _ _
  have hent : ∀ k < 10, (segSegments fl hls)[k]? = some (fl (Norm.Rnd.sum fl (hls.map (c k)) / fl (hls.length : ℚ))) := by
    intro k hk
    unfold segSegments
    rw [List.getElem?_map]
    have h10 : segmentSizes.length - 1 = 10 := rfl
    simp only [h10]
    rw [cells_sum _ (fun hl x => if k < 10 then fl (x + c k hl) else x) (c k) hls 10 k hk
      (fun acc hl => foldl_update (fun i x => fl (x + c i hl)) _ (fun a i k => getElem?_addAt fl a i k _) _ _ _)
      (fun hl _ x _ => if_pos hk)]
    rfl
  have hw : ∀ k < 10, (segmentSizes[k + 1]?).getD 0 - (segmentSizes[k]?).getD 0 ≤ 10000 := by decide
  have hall : ∀ k < 10, _ := fun k hk => averages_close hls
    (fun hl => (slice hl ((segmentSizes[k]?).getD 0) ((segmentSizes[k + 1]?).getD 0)).sum /
        (((segmentSizes[k + 1]?).getD 0 - (segmentSizes[k]?).getD 0 : Nat) : ℚ)) (c k) hn hne
    (fun hl hm => ratio_close (bits_slice (hb hl hm) _ _) _
      (by unfold slice; rw [List.length_drop, List.length_take]; omega) (by have := hw k hk; omega))
  refine ⟨by rw [hlen, t1], ?_, ?_⟩
  · intro k v x hv hx
    have hk : k < 10 := by rw [← hlen]; exact (List.getElem?_eq_some_iff.1 hv).1
    rw [hent k hk, Option.some.injEq] at hv
    rw [t2 k hk, Option.some.injEq] at hx
    rw [← hv, ← hx]
    exact (hall k hk).1
  · intro v hv
    obtain ⟨k, hk⟩ := List.mem_iff_getElem?.1 hv
    have hk' : k < 10 := by rw [← hlen]; exact (List.getElem?_eq_some_iff.1 hk).1
    rw [hent k hk', Option.some.injEq] at hk
    rw [← hk]
    exact (hall k hk').2

/-- `probSegments` with exact segment sizes -/
theorem probSegments_sizes (n : Nat) (hn0 : 0 < n) (hn53 : n ≤ 2 ^ 53) (hls : List (List ℚ))
    (hlong : ∀ hl ∈ hls, hl.length < 2 ^ 53) :
    probSegments fl n hls = .ok ((hls.foldl (fun acc hl =>
      let size := ceilDiv hl.length n
      (List.range n).foldl (fun a k =>
        let segment := slice hl (k * size) ((k + 1) * size)
        if segment.length ≠ 0 then
          addAt fl a k (fl (Norm.Rnd.sum fl segment / fl (segment.length : ℚ))) else a) acc)
      (List.replicate n (0 : ℚ))).map (fun x => fl (x / fl (hls.length : ℚ)))) := by
  unfold probSegments
  rw [if_neg (by omega)]
  simp only
  congr 2
  apply List.foldl_ext
  intro a hl hm
  rw [Fuse.Rnd.ceilDiv_fl hl.length n hn0 (hlong hl hm) hn53]

theorem probSegments_close (n : Nat) (hn0 : 0 < n) (hn53 : n ≤ 2 ^ 53) (hls : List (List ℚ)) (hb : Bits hls) (hne : hls ≠ [])
    (hn : hls.length ≤ 2 ^ 51) (hlong : ∀ hl ∈ hls, hl.length < 2 ^ 53) :
    ∃ e t, Train.probSegments n hls = .ok e ∧ probSegments fl n hls = .ok t ∧
      Spec.CloseTables (2 * ((hls.length + 2 : ℕ) : ℚ)) e t := by
  obtain ⟨e, e1, e2, e3⟩ := probSegments_eq n hn0 hls
  set sg : Nat → List ℚ → List ℚ := fun k hl => slice hl (k * ceilDiv hl.length n) ((k + 1) * ceilDiv hl.length n) with hsg
  set c : Nat → List ℚ → ℚ := fun k hl =>
    if (sg k hl).length ≠ 0 then fl (Norm.Rnd.sum fl (sg k hl) / fl ((sg k hl).length : ℚ)) else 0 with hcdef
  set acc := hls.foldl (fun acc hl =>
      let size := ceilDiv hl.length n
      (List.range n).foldl (fun a k =>
        let segment := slice hl (k * size) ((k + 1) * size)
        if segment.length ≠ 0 then
          addAt fl a k (fl (Norm.Rnd.sum fl segment / fl (segment.length : ℚ))) else a) acc)
      (List.replicate n (0 : ℚ)) with hacc
  have hlen : acc.length = n := by
    rw [hacc, length_foldl, List.length_replicate]
    intro a b
    refine length_foldl _ (fun a k => ?_) _ _
    simp only
    split
    · unfold addAt; rw [List.length_modify]
    · rfl
  have hent : ∀ k < n, acc[k]? = some (Norm.Rnd.sum fl (hls.map (c k))) := by
    intro k hk
    rw [hacc]
    refine cells_sum _ (fun hl x => if k < n then
        (if (sg k hl).length ≠ 0 then fl (x + fl (Norm.Rnd.sum fl (sg k hl) / fl ((sg k hl).length : ℚ))) else x) else x)
      (c k) hls n k hk
      (fun acc hl => foldl_update (fun i x =>
        if (sg i hl).length ≠ 0 then fl (x + fl (Norm.Rnd.sum fl (sg i hl) / fl ((sg i hl).length : ℚ))) else x) _ ?_ _ _ _)
      ?_
    · intro a i j
      simp only [hsg]
      by_cases h : (slice hl (i * ceilDiv hl.length n) ((i + 1) * ceilDiv hl.length n)).length ≠ 0
      · rw [if_pos h, getElem?_addAt]
        simp only [if_pos h]
      · rw [if_neg h]
        simp only [if_neg h]
        cases a[j]? with
        | none => rfl
        | some x => simp
    · intro hl _ x hx
      simp only [if_pos hk, hcdef]
      by_cases h : (sg k hl).length ≠ 0
      · rw [if_pos h, if_pos h]
      · rw [if_neg h, if_neg h, add_zero, hx]
  refine ⟨e, acc.map (fun x => fl (x / fl (hls.length : ℚ))), e1, ?_, ?_⟩
  · exact probSegments_sizes n hn0 hn53 hls hlong
  have hall : ∀ k < n, _ := fun k (_ : k < n) => averages_close hls
    (fun hl => (sg k hl).sum / ((sg k hl).length : ℚ)) (c k) hn hne
    (fun hl hm => by
      have hl53 : (sg k hl).length ≤ 2 ^ 53 := by
        have := hlong hl hm
        simp only [hsg]
        unfold slice
        rw [List.length_drop, List.length_take]
        omega
      have := ratio_close (bits_slice (hb hl hm) (k * ceilDiv hl.length n) ((k + 1) * ceilDiv hl.length n))
        (sg k hl).length le_rfl hl53
      by_cases h : (sg k hl).length ≠ 0
      · simp only [hcdef, if_pos h]
        exact this
      · simp only [hcdef, if_neg h]
        rw [not_not] at h
        rw [h]
        simp only [Nat.cast_zero, div_zero]
        exact ⟨by unfold NearK; simp, le_rfl, zero_le_one⟩)
  refine ⟨by rw [List.length_map, hlen, e2], ?_, ?_⟩
  · intro k v x hv hx
    have hk : k < n := by rw [← e2]; exact (List.getElem?_eq_some_iff.1 hx).1
    rw [List.getElem?_map, hent k hk, Option.map_some, Option.some.injEq] at hv
    rw [e3 k hk, Option.some.injEq] at hx
    rw [← hv, ← hx]
    exact (hall k hk).1
  · intro v hv
    obtain ⟨k, hk⟩ := List.mem_iff_getElem?.1 hv
    have hk' : k < n := by
      have := (List.getElem?_eq_some_iff.1 hk).1
      rwa [List.length_map, hlen] at this
    rw [List.getElem?_map, hent k hk', Option.map_some, Option.some.injEq] at hk
    rw [← hk]
    exact (hall k hk').2

end Train.Rnd

section
variable [LinearOrder κ] [DecidableEq δ] [LinearOrder ι]
open Train

theorem Train.Rnd.hitLists_bits (sched : List Nat) (qrels run : List (Rows ι ℚ)) (hls : List (List ℚ))
    (h : hitLists sched qrels run = .ok hls) : Train.Rnd.Bits hls ∧ hls.length = qrels.length := by
  unfold hitLists at h
  by_cases hlt : run.length < qrels.length
  · rw [if_pos hlt] at h; cases h
  rw [if_neg hlt, Except.ok.injEq] at h
  have hgen : ∀ (sched : List Nat) (out : List (List ℚ)), Train.Rnd.Bits out →
      Train.Rnd.Bits (prange out (fun i => getHitList ((qrels[i]?).getD []) ((run[i]?).getD []) 0 1) sched) ∧
      (prange out (fun i => getHitList ((qrels[i]?).getD []) ((run[i]?).getD []) 0 1) sched).length = out.length := by
    intro sched
    unfold prange
    induction sched with
    | nil => intro out ho; exact ⟨ho, rfl⟩
    | cons i is ih =>
      intro out ho
      rw [List.foldl_cons]
      obtain ⟨h1, h2⟩ := ih (out.set i (getHitList ((qrels[i]?).getD []) ((run[i]?).getD []) 0 1)) (by
        intro hl hm
        rcases List.mem_or_eq_of_mem_set hm with hm | rfl
        · exact ho hl hm
        · intro x hx
          rw [getHitList_eq] at hx
          obtain ⟨d, -, rfl⟩ := List.mem_map.1 hx
          split
          · exact .inr rfl
          · exact .inl rfl)
      exact ⟨h1, by rw [h2, List.length_set]⟩
  obtain ⟨h1, h2⟩ := hgen sched (List.replicate qrels.length [1]) (by
    intro hl hm x hx
    rw [List.eq_of_mem_replicate hm] at hx
    rw [List.mem_singleton] at hx
    exact .inr hx)
  rw [h] at h1 h2
  exact ⟨h1, by rw [h2, List.length_replicate]⟩

/-- training with a function that agrees on hit lists -/
theorem Train.Rnd.trainEach_map {γ γ' : Type*} (SQ : ArgSort Int) (SR : ArgSort ℚ) (hash : δ → ι)
    (f : List (List ℚ) → Except Err γ) (f' : List (List ℚ) → Except Err γ') (g : γ → γ') (n : Nat)
    (hfg : ∀ hls, Train.Rnd.Bits hls → hls.length = n → f' hls = (f hls).map g) (runs : List (Store κ δ ℚ))
    (sched : Nat → List Nat) (s : Store κ δ Int) (hs : Spec.Usable SQ s) (hn : s.data.length = n) :
    trainEach SQ SR hash sched f' s runs = ((trainEach SQ SR hash sched f s runs).1,
      (trainEach SQ SR hash sched f s runs).2.1, (trainEach SQ SR hash sched f s runs).2.2.map (fun ts => ts.map g)) := by
  induction runs generalizing sched s with
  | nil => rfl
  | cons r rs ih =>
    obtain ⟨-, -, -, -, -, l1⟩ := ensureSorted_facts SQ s hs.ok.1 hs.ok.2
    have hI := ih (fun i => sched (i + 1)) (s.ensureSorted SQ) (usable_ensureSorted SQ s hs) (by rw [l1, hn])
    unfold trainEach Store.toTypedList
    simp only
    cases hh : hitLists (sched 0) (Store.rows hash (fun z : Int => (z : ℚ)) (s.ensureSorted SQ).data)
        (Store.rows hash id (r.ensureSorted SR).data) with
    | error e => rfl
    | ok hls =>
      obtain ⟨hb, hl⟩ := Train.Rnd.hitLists_bits _ _ _ _ hh
      have hl' : hls.length = n := by
        rw [hl]
        unfold Store.rows Dict.values
        rw [List.length_map, List.length_map, l1, hn]
      simp only [bindArg]
      rw [hfg hls hb hl']
      cases f hls with
      | error e => rfl
      | ok t =>
        simp only [Except.map]
        rw [hI]
        cases (trainEach SQ SR hash (fun i => sched (i + 1)) f (s.ensureSorted SQ) rs).2.2 with
        | error e => rfl
        | ok ts => rfl

/-- **C160** (`posfuse_train`, `slidefuse_train`): in float64, with at most 2^53 training queries, training succeeds
and every entry of every table is the exact probability of `Spec.PositionTable` rounded once. -/
theorem C160_positions (SQ : ArgSort Int) (SR : ArgSort ℚ) (hash : δ → ι) (sched : Nat → List Nat)
    (s : Store κ δ Int) (runs : List (Store κ δ ℚ)) (hT : Spec.Trainable SQ SR hash s runs)
    (hsched : ∀ i, Schedule s.data.length (sched i)) (hn : s.data.length ≤ 2 ^ 53) :
    ∃ s' runs' tables, Train.Rnd.posfuseTrain fl SQ SR hash sched s runs = (s', runs', .ok tables) ∧
      List.Forall₂ (fun r (t : List ℚ) => (∃ e, Spec.PositionTable s r e ∧ t = e.map fl) ∧ ∀ v ∈ t, 0 ≤ v ∧ v ≤ 1)
        runs tables := by
  obtain ⟨s', runs', tables, h1, h2⟩ := C59_positions SQ SR hash sched s runs hT hsched
  refine ⟨s', runs', tables.map (fun e => e.map fl), ?_, ?_⟩
  · unfold Train.Rnd.posfuseTrain
    rw [Train.Rnd.trainEach_map SQ SR hash Train.estimateProbs (Train.Rnd.estimateProbs fl) (fun e => e.map fl) s.data.length
      (fun hls hb hl => Train.Rnd.estimateProbs_fl hls hb (by omega)) runs sched s hT.qrels rfl]
    change trainEach SQ SR hash sched Train.estimateProbs s runs = _ at h1
    rw [h1]
    rfl
  · rw [List.forall₂_map_right_iff]
    refine h2.imp ?_
    intro r e he
    refine ⟨⟨e, he, rfl⟩, ?_⟩
    intro v hv
    obtain ⟨x, hx, rfl⟩ := List.mem_map.1 hv
    obtain ⟨p, hp⟩ := List.mem_iff_getElem?.1 hx
    obtain ⟨ids, -, -, h⟩ := he
    obtain ⟨-, -, h0, h1⟩ := h p x hp
    exact ⟨fl_nonneg h0, (fl_mono h1).trans_eq fl_one⟩

theorem Train.Rnd.hls_facts (SQ : ArgSort Int) (SR : ArgSort ℚ) (hash : δ → ι) (sched : Nat → List Nat)
    (s : Store κ δ Int) (runs : List (Store κ δ ℚ)) (hT : Spec.Trainable SQ SR hash s runs)
    (hsched : ∀ i, Schedule s.data.length (sched i)) :
    ∃ s' hls, trainEach SQ SR hash sched Except.ok s runs = (s', runs.map (·.ensureSorted SR), .ok hls) ∧
      List.Forall₂ (fun r (h : List (List ℚ)) => Train.Rnd.Bits h ∧ h ≠ [] ∧ h.length = (Spec.queries s).card ∧
        ∃ ids, Spec.Rankings s r ids ∧ ∀ l ∈ h, ∃ q ∈ Spec.queries s, l.length = (ids q).length) runs hls := by
  obtain ⟨s', hls, h1, -, h3⟩ := trainEach_eq SQ SR hash (Except.ok : List (List ℚ) → _)
    (fun r t => ∃ ids, Spec.Rankings s r ids ∧
      t = (s.ensureSorted SQ).data.keys.map (fun q => hitRow (Spec.RelDoc s q 1) (ids q)))
    s runs sched hT hsched (fun r _ ids hids => ⟨_, rfl, ids, hids, rfl⟩) s rfl
  refine ⟨s', hls, h1, h3.imp ?_⟩
  rintro r t ⟨ids, hids, rfl⟩
  have hc := length_keys_eq SQ s hT.qrels
  have hpos := Finset.card_pos.2 (queries_nonempty hT)
  refine ⟨?_, ?_, by rw [List.length_map, hc], ids, hids, ?_⟩
  · intro hl hm
    obtain ⟨q, -, rfl⟩ := List.mem_map.1 hm
    exact Train.Rnd.hitRow_bits _ _
  · intro h
    have := congrArg List.length h
    rw [List.length_map, hc, List.length_nil] at this
    omega
  · intro l hl
    obtain ⟨q, hq, rfl⟩ := List.mem_map.1 hl
    exact ⟨q, (mem_keys_iff SQ s hT.qrels q).1 hq, by unfold hitRow; rw [List.length_map]⟩

/-- **C160** (`segfuse_train`): in float64, with at most 2^51 training queries, training succeeds; every table is
within relative error `2(n+2)/2^53` of the exact one (`n` training queries), which is that of `C59_segfuse`, and
holds numbers in [0, 1]. -/
theorem C160_segfuse (SQ : ArgSort Int) (SR : ArgSort ℚ) (hash : δ → ι) (sched : Nat → List Nat)
    (s : Store κ δ Int) (runs : List (Store κ δ ℚ)) (hT : Spec.Trainable SQ SR hash s runs)
    (hsched : ∀ i, Schedule s.data.length (sched i)) (hn : (Spec.queries s).card ≤ 2 ^ 51) :
    ∃ s' runs' exact tables, segfuseTrain SQ SR hash sched s runs = (s', runs', .ok exact) ∧
      Train.Rnd.segfuseTrain fl SQ SR hash sched s runs = (s', runs', .ok tables) ∧
      List.Forall₂ (Spec.CloseTables (2 * (((Spec.queries s).card + 2 : ℕ) : ℚ))) exact tables := by
  obtain ⟨s', hls, h1, h3⟩ := Train.Rnd.hls_facts SQ SR hash sched s runs hT hsched
  refine ⟨s', runs.map (·.ensureSorted SR), hls.map Train.segSegments, hls.map (Train.Rnd.segSegments fl), ?_, ?_, ?_⟩
  · unfold segfuseTrain; simp only [h1]; rfl
  · unfold Train.Rnd.segfuseTrain; simp only [h1]; rfl
  · rw [List.forall₂_map_left_iff, List.forall₂_map_right_iff, List.forall₂_same]
    intro h hm
    obtain ⟨r, -, hb, hne, hl, -⟩ := forall₂_mem_right h3 hm
    rw [← hl]
    exact Train.Rnd.segSegments_close h hb hne (by omega)

/-- **C160** (`probfuse_train`): likewise, for `1 ≤ n ≤ 2^53` segments and rankings of less than 2^53 docs; the exact tables are
those of `C59_segments`. -/
theorem C160_segments (SQ : ArgSort Int) (SR : ArgSort ℚ) (hash : δ → ι) (sched : Nat → List Nat)
    (rowSched : List Nat) (n : Nat) (hn0 : 0 < n) (hn53 : n ≤ 2 ^ 53) (s : Store κ δ Int) (runs : List (Store κ δ ℚ))
    (hT : Spec.Trainable SQ SR hash s runs) (hsched : ∀ i, Schedule s.data.length (sched i))
    (hrow : Schedule runs.length rowSched) (hn : (Spec.queries s).card ≤ 2 ^ 51)
    (hlong : ∀ r ∈ runs, ∀ q ids, Spec.RankedDocs (Spec.content r) q ids → ids.length < 2 ^ 53) :
    ∃ s' runs' exact tables, probfuseTrain SQ SR hash sched rowSched n s runs = (s', runs', .ok exact) ∧
      Train.Rnd.probfuseTrain fl SQ SR hash sched rowSched n s runs = (s', runs', .ok tables) ∧
      List.Forall₂ (Spec.CloseTables (2 * (((Spec.queries s).card + 2 : ℕ) : ℚ))) exact tables := by
  obtain ⟨s', hls, h1, h3⟩ := Train.Rnd.hls_facts SQ SR hash sched s runs hT hsched
  have hlen : hls.length = runs.length := h3.length_eq.symm
  have hex : ∀ h ∈ hls, ∃ e t, Train.probSegments n h = .ok e ∧ Train.Rnd.probSegments fl n h = .ok t ∧
      Spec.CloseTables (2 * (((Spec.queries s).card + 2 : ℕ) : ℚ)) e t := by
    intro h hm
    obtain ⟨r, hr, hb, hne, hl, ids, hids, hlens⟩ := forall₂_mem_right h3 hm
    rw [← hl]
    apply Train.Rnd.probSegments_close n hn0 hn53 h hb hne (by omega)
    intro l hlm
    obtain ⟨q, hq, e⟩ := hlens l hlm
    rw [e]
    exact hlong r hr q (ids q) (hids q hq)
  choose! e t he ht hc using hex
  have hcol : ∀ (f : List (List ℚ) → Except Err (List ℚ)) (g : List (List ℚ) → List ℚ), (∀ h ∈ hls, f h = .ok (g h)) →
      collect (prange (List.replicate hls.length (.ok (List.replicate n 0))) (fun i => f ((hls[i]?).getD [])) rowSched) =
        .ok (hls.map g) := by
    intro f g hfg
    rw [prange_eq _ _ _ (by simpa [hlen] using hrow), List.length_replicate, collect_ok_iff]
    apply List.ext_getElem?
    intro i
    simp only [List.getElem?_map]
    by_cases hi : i < hls.length
    · rw [List.getElem?_range hi]
      simp only [Option.map_some, List.getElem?_eq_getElem hi, Option.getD_some, hfg _ (List.getElem_mem hi)]
    · rw [List.getElem?_eq_none (by simpa using hi), List.getElem?_eq_none (by simpa using hi)]; rfl
  refine ⟨s', runs.map (·.ensureSorted SR), hls.map e, hls.map t, ?_, ?_, ?_⟩
  · unfold probfuseTrain
    simp only [h1, bindArg]
    rw [hcol (Train.probSegments n) e he]
  · unfold Train.Rnd.probfuseTrain
    simp only [h1, bindArg]
    rw [hcol (Train.Rnd.probSegments fl n) t ht]
  · rw [List.forall₂_map_left_iff, List.forall₂_map_right_iff, List.forall₂_same]
    exact fun h hm => hc h hm

/-! ## Examples -/

/-- three training queries; the first has two results, one of them relevant -/
def exThirdsQrels : Store Nat Nat Int := ⟨[(0, [(1, 1)]), (1, [(1, 1)]), (2, [(9, 1)])], false⟩
def exThirdsRun : Store Nat Nat ℚ := ⟨[(0, [(1, 2), (2, 1)]), (1, [(3, 1)]), (2, [(4, 1)])], false⟩

theorem exThirds_trainable : Spec.Trainable (ArgSort.stable Int) (ArgSort.stable ℚ) (id : Nat → Nat) exThirdsQrels
    [exThirdsRun] := by
  have hq : Store.Wf exThirdsQrels.data := by
    unfold Store.Wf NodupKeys; exact ⟨by decide +kernel, by decide +kernel⟩
  have hr : Store.Wf exThirdsRun.data := by
    unfold Store.Wf NodupKeys; exact ⟨by decide +kernel, by decide +kernel⟩
  refine ⟨⟨_, [], ⟨_, hq.1, hq.2, .inl rfl⟩, rfl, by simp [Store.exec]⟩, ?_, by decide, ?_, ?_⟩
  · intro r h
    rw [List.mem_singleton] at h
    subst h
    exact ⟨_, [], ⟨_, hr.1, hr.2, .inl rfl⟩, rfl, by simp [Store.exec]⟩
  · intro r h q
    rw [List.mem_singleton] at h
    subst h
    exact Iff.rfl
  · intro r h q
    exact fun _ _ _ _ _ h => h

/-- Non-vacuity of C160, with a probability that is not a float: a third of the queries has a relevant doc first. -/
example : (Train.Rnd.posfuseTrain fl (ι := Nat) (ArgSort.stable Int) (ArgSort.stable ℚ) id (fun _ => [2, 0, 1]) exThirdsQrels
      [exThirdsRun]).2.2 = .ok [[fl (1 / 3), 0]] ∧ fl (1 / 3) ≠ 1 / 3 ∧
    ∃ s' runs' tables, Train.Rnd.posfuseTrain fl (ι := Nat) (ArgSort.stable Int) (ArgSort.stable ℚ) id
      (fun _ => [2, 0, 1]) exThirdsQrels [exThirdsRun] = (s', runs', .ok tables) := by
  refine ⟨by decide +kernel, by decide +kernel, ?_⟩
  obtain ⟨s', runs', tables, h, -⟩ := C160_positions (ι := Nat) (ArgSort.stable Int) (ArgSort.stable ℚ) id
    (fun _ => [2, 0, 1]) exThirdsQrels [exThirdsRun] exThirds_trainable (fun i => by unfold Schedule; decide) (by decide)
  exact ⟨s', runs', tables, h⟩

example : (Train.Rnd.segfuseTrain fl (ι := Nat) (ArgSort.stable Int) (ArgSort.stable ℚ) id (fun _ => [2, 0, 1]) exThirdsQrels
      [exThirdsRun]).2.2 = .ok [[fl (fl (1 / 5) / 3), 0, 0, 0, 0, 0, 0, 0, 0, 0]] ∧
    (Train.Rnd.probfuseTrain fl (ι := Nat) (ArgSort.stable Int) (ArgSort.stable ℚ) id (fun _ => [2, 0, 1]) [0] 1 exThirdsQrels
      [exThirdsRun]).2.2 = .ok [[fl (1 / 6)]] ∧ (Spec.queries exThirdsQrels).card ≤ 2 ^ 51 := by
  refine ⟨by decide +kernel, by decide +kernel, by decide +kernel⟩

end
end Ranx
