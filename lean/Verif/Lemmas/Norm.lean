import Verif.Model.Norm
import Verif.Lemmas.Prange
import Verif.Lemmas.Dict
import Verif.Lemmas.Store
import Mathlib.Tactic.Linarith
import Mathlib.Tactic.Positivity
import Mathlib.Tactic.FieldSimp

/-! # Lemmas: normalization -/

set_option linter.unusedSectionVars false

namespace Ranx.Norm
open Dict
variable {κ δ α : Type*}

theorem toRun_map [DecidableEq κ] {ν μ : Type*} (run : Dict κ ν) (h : NodupKeys run) (f : ν → μ) :
    toRun run.keys (run.map (fun p => f p.2)) = run.map (fun p => (p.1, f p.2)) := by
  unfold toRun
  have : run.keys.zip (run.map (fun p => f p.2)) = run.map (fun p => (p.1, f p.2)) := by
    unfold Dict.keys
    rw [List.zip_map']
  rw [this, ofList_of_nodup]
  unfold NodupKeys
  rw [List.map_map]; exact h

theorem slots_eq [DecidableEq κ] {ν μ : Type*} (run : Dict κ ν) (h : NodupKeys run) (f : ν → μ)
    (dflt : ν) :
    (List.range run.keys.length).map (fun i => f ((run.keys[i]?.bind run.get?).getD dflt)) =
      run.map (fun p => f p.2) := by
  apply List.ext_getElem?
  intro i
  have hlen : run.keys.length = run.length := List.length_map _
  by_cases hi : i < run.length
  · rw [List.getElem?_map, List.getElem?_range (by omega), List.getElem?_map]
    have hk : run.keys[i]? = some run[i].1 := by
      unfold Dict.keys
      rw [List.getElem?_map, List.getElem?_eq_getElem hi]; rfl
    simp only [Option.map_some, hk, Option.bind_some, List.getElem?_eq_getElem hi]
    rw [get?_of_mem h (show (run[i].1, run[i].2) ∈ run from List.getElem_mem hi)]
    rfl
  · rw [List.getElem?_eq_none (by simp; omega), List.getElem?_eq_none (by simp; omega)]

theorem normParallel_eq [DecidableEq κ] (norm : Results δ α → Results δ α) (sched : List Nat)
    (run : Dict κ (Results δ α)) (h : NodupKeys run) (hs : Schedule run.length sched) :
    normParallel norm sched run = run.map (fun p => (p.1, norm p.2)) := by
  unfold normParallel
  simp only
  have hlen : run.keys.length = run.length := List.length_map _
  rw [prange_eq]
  · rw [List.length_replicate, slots_eq run h norm [], toRun_map run h norm]
  · rw [List.length_replicate, hlen]; exact hs

section
variable [DecidableEq δ] [LinearOrder α] [Field α]

theorem normLoop_eq (r : Results δ α) (h : NodupKeys r) (f : α → α) :
    normLoop r f = r.map (fun p => (p.1, f p.2)) := by
  unfold normLoop
  have : r.keys.map (fun d => (d, f ((r.get? d).getD 0))) = r.map (fun p => (p.1, f p.2)) := by
    unfold Dict.keys
    rw [List.map_map]
    apply List.map_congr_left
    intro p hp
    simp only [Function.comp_apply]
    rw [get?_of_mem h (show (p.1, p.2) ∈ r from hp)]; rfl
  rw [this, ofList_of_nodup]
  unfold NodupKeys
  rw [List.map_map]; exact h

theorem normLoop_get? (r : Results δ α) (h : NodupKeys r) (f : α → α) (d : δ) :
    (normLoop r f).get? d = (r.get? d).map f := by
  rw [normLoop_eq r h, get?_map_val]

theorem normLoop_keys (r : Results δ α) (h : NodupKeys r) (f : α → α) :
    (normLoop r f).keys = r.keys := by
  rw [normLoop_eq r h, keys_map_val]

theorem mem_values {r : Results δ α} {d : δ} {s : α} (h : r.get? d = some s) : s ∈ r.values :=
  List.mem_map.2 ⟨(d, s), mem_of_get? h, rfl⟩

theorem of_mem_values {r : Results δ α} (h : NodupKeys r) {s : α} (hs : s ∈ r.values) :
    ∃ d, r.get? d = some s := by
  obtain ⟨p, hp, rfl⟩ := List.mem_map.1 hs
  exact ⟨p.1, get?_of_mem h hp⟩

theorem foldl_max_spec (t : List α) (x : α) :
    (t.foldl max x ∈ x :: t) ∧ ∀ y ∈ x :: t, y ≤ t.foldl max x := by
  induction t generalizing x with
  | nil => simp
  | cons b t ih =>
    rw [List.foldl_cons]
    obtain ⟨h1, h2⟩ := ih (max x b)
    have hm := h2 (max x b) List.mem_cons_self
    refine ⟨?_, ?_⟩
    · rcases List.mem_cons.1 h1 with h | h
      · rw [h]; rcases max_choice x b with hc | hc <;> rw [hc] <;> simp
      · exact List.mem_cons_of_mem _ (List.mem_cons_of_mem _ h)
    · intro y hy
      rcases List.mem_cons.1 hy with rfl | hy
      · exact (le_max_left _ _).trans hm
      · rcases List.mem_cons.1 hy with rfl | hy
        · exact (le_max_right _ _).trans hm
        · exact h2 y (List.mem_cons_of_mem _ hy)

theorem foldl_min_spec (t : List α) (x : α) :
    (t.foldl min x ∈ x :: t) ∧ ∀ y ∈ x :: t, t.foldl min x ≤ y := by
  induction t generalizing x with
  | nil => simp
  | cons b t ih =>
    rw [List.foldl_cons]
    obtain ⟨h1, h2⟩ := ih (min x b)
    have hm := h2 (min x b) List.mem_cons_self
    refine ⟨?_, ?_⟩
    · rcases List.mem_cons.1 h1 with h | h
      · rw [h]; rcases min_choice x b with hc | hc <;> rw [hc] <;> simp
      · exact List.mem_cons_of_mem _ (List.mem_cons_of_mem _ h)
    · intro y hy
      rcases List.mem_cons.1 hy with rfl | hy
      · exact hm.trans (min_le_left _ _)
      · rcases List.mem_cons.1 hy with rfl | hy
        · exact hm.trans (min_le_right _ _)
        · exact h2 y (List.mem_cons_of_mem _ hy)

theorem safeMax_spec {l : List α} (h : l ≠ []) : safeMax l ∈ l ∧ ∀ y ∈ l, y ≤ safeMax l := by
  cases l with
  | nil => exact absurd rfl h
  | cons x t => exact foldl_max_spec t x

theorem safeMin_spec {l : List α} (h : l ≠ []) : safeMin l ∈ l ∧ ∀ y ∈ l, safeMin l ≤ y := by
  cases l with
  | nil => exact absurd rfl h
  | cons x t => exact foldl_min_spec t x

theorem safeMax_ge {l : List α} {y : α} (h : y ∈ l) : y ≤ safeMax l :=
  (safeMax_spec (List.ne_nil_of_mem h)).2 y h

theorem safeMin_le {l : List α} {y : α} (h : y ∈ l) : safeMin l ≤ y :=
  (safeMin_spec (List.ne_nil_of_mem h)).2 y h

variable [IsStrictOrderedRing α]

theorem eps_pos : (0 : α) < eps := by unfold eps; positivity

theorem den_pos (x : α) : 0 < max x eps := lt_of_lt_of_le eps_pos (le_max_right _ _)

theorem safeMin_eq_of {l : List α} {m : α} (hm : m ∈ l) (hl : ∀ y ∈ l, m ≤ y) : safeMin l = m :=
  le_antisymm (safeMin_le hm) (hl _ (safeMin_spec (List.ne_nil_of_mem hm)).1)

theorem safeMax_eq_of {l : List α} {m : α} (hm : m ∈ l) (hl : ∀ y ∈ l, y ≤ m) : safeMax l = m :=
  le_antisymm (hl _ (safeMax_spec (List.ne_nil_of_mem hm)).1) (safeMax_ge hm)

theorem safeMin_affine {a b : α} (ha : 0 < a) {l : List α} (h : l ≠ []) :
    safeMin (l.map (fun s => a * s + b)) = a * safeMin l + b := by
  obtain ⟨h1, h2⟩ := safeMin_spec h
  apply safeMin_eq_of
  · exact List.mem_map.2 ⟨_, h1, rfl⟩
  · intro y hy
    obtain ⟨s, hs, rfl⟩ := List.mem_map.1 hy
    have := mul_le_mul_of_nonneg_left (h2 s hs) ha.le
    linarith

theorem safeMax_affine {a b : α} (ha : 0 < a) {l : List α} (h : l ≠ []) :
    safeMax (l.map (fun s => a * s + b)) = a * safeMax l + b := by
  obtain ⟨h1, h2⟩ := safeMax_spec h
  apply safeMax_eq_of
  · exact List.mem_map.2 ⟨_, h1, rfl⟩
  · intro y hy
    obtain ⟨s, hs, rfl⟩ := List.mem_map.1 hy
    have := mul_le_mul_of_nonneg_left (h2 s hs) ha.le
    linarith

theorem sum_sub_const (l : List α) (m : α) :
    (l.map (fun s => s - m)).sum = l.sum - m * (l.length : α) := by
  induction l with
  | nil => simp
  | cons x t ih => simp only [List.map_cons, List.sum_cons, ih, List.length_cons]; push_cast; ring

theorem sum_div_const (l : List α) (f : α → α) (c : α) :
    (l.map (fun s => f s / c)).sum = (l.map f).sum / c := by
  induction l with
  | nil => simp
  | cons x t ih => simp only [List.map_cons, List.sum_cons, ih]; ring

theorem sum_affine (l : List α) (a b : α) :
    (l.map (fun s => a * s + b)).sum = a * l.sum + b * (l.length : α) := by
  induction l with
  | nil => simp
  | cons x t ih => simp only [List.map_cons, List.sum_cons, ih, List.length_cons]; push_cast; ring

end
end Ranx.Norm
