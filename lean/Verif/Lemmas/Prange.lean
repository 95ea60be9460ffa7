import Verif.Model.Prange
import Mathlib.Data.List.Nodup
import Mathlib.Data.List.Range

/-! # Lemmas: the result of a prange loop does not depend on the schedule -/

namespace Ranx
variable {γ : Type*}

theorem prange_length (out : List γ) (f : Nat → γ) (sched : List Nat) :
    (prange out f sched).length = out.length := by
  unfold prange
  induction sched generalizing out with
  | nil => rfl
  | cons i t ih => rw [List.foldl_cons, ih, List.length_set]

theorem prange_getElem? (out : List γ) (f : Nat → γ) (sched : List Nat) (i : Nat)
    (hi : i < out.length) :
    (prange out f sched)[i]? = if i ∈ sched then some (f i) else out[i]? := by
  unfold prange
  induction sched generalizing out with
  | nil => simp
  | cons j t ih =>
    rw [List.foldl_cons, ih _ (by simpa using hi)]
    by_cases h : i ∈ t
    · simp [h]
    · by_cases hij : i = j
      · subst hij; simp [h, hi]
      · have : ¬ j = i := fun hc => hij hc.symm
        simp [h, hij, this]

/-- whatever the schedule, the loop fills the array with `f 0, f 1, …` -/
theorem prange_eq (out : List γ) (f : Nat → γ) (sched : List Nat)
    (h : Schedule out.length sched) : prange out f sched = (List.range out.length).map f := by
  apply List.ext_getElem?
  intro i
  by_cases hi : i < out.length
  · rw [prange_getElem? _ _ _ _ hi, if_pos (h.mem_iff.2 (List.mem_range.2 hi)), List.getElem?_map,
      List.getElem?_range hi]; rfl
  · rw [List.getElem?_eq_none (by rw [prange_length]; omega),
      List.getElem?_eq_none (by simp; omega)]

theorem schedule_range (n : Nat) : Schedule n (List.range n) := List.Perm.refl _

end Ranx
