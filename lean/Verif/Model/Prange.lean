import Mathlib.Data.List.Perm.Basic

/-!
# numba `prange` loops

Every parallel loop of the code base has the shape
`for i in prange(n): out[i] = f(i)` where `f` reads only inputs that no iteration writes.
A run of the loop is modelled by the order in which the `n` slot writes take effect: any
permutation of `0 … n-1`.
-/

namespace Ranx

/-- `for i in prange(n): out[i] = f(i)`, the writes taking effect in the order `sched`
(e.g. normalization/min_max_norm.py:43-46, metrics/hits.py:37-42, fusion/comb_sum.py). -/
def prange {γ : Type*} (out : List γ) (f : Nat → γ) (sched : List Nat) : List γ :=
  sched.foldl (fun a i => a.set i (f i)) out

/-- schedules of a loop of `n` iterations: every iteration once, in any order -/
def Schedule (n : Nat) (sched : List Nat) : Prop := sched.Perm (List.range n)

end Ranx
