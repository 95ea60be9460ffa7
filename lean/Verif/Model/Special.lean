import Mathlib.Algebra.Order.Field.Basic
import Verif.Model.Store

/-!
# Scores that are not finite numbers: infinities and NaN

A `Run` stores any float64, also `inf`, `-inf` and `nan` (run.py:47-95).  `X α` adds these three to the numbers `α` with
the IEEE 754 rules for the operations and comparisons the code uses.  The arithmetic on finite numbers is exact (no
overflow, no signed zeros: a division by zero does not occur below, the denominators being at least `1e-9`).

The stores, their sorting and `to_typed_list` are the ones of `Model/Store.lean`, used here with `X α` as type of
values; the functions below model once more, over `X α`, the code that computes with scores.
-/

namespace Ranx.Special
variable {δ α : Type*}

/-- a float64: a number, `inf`, `-inf` or `nan` -/
inductive X (α : Type*) where
  | fin (v : α)
  | pinf
  | ninf
  | nan
  deriving DecidableEq, Repr

namespace X

/-- The order by which `np.argsort` sorts (common.py:54-59, compiled by numba): as numbers, `nan` after everything. -/
def sortLe [LE α] : X α → X α → Prop
  | _, nan => True
  | nan, _ => False
  | ninf, _ => True
  | _, pinf => True
  | fin a, fin b => a ≤ b
  | _, _ => False

instance [LinearOrder α] : DecidableRel (sortLe (α := α)) := fun a b => by
  cases a <;> cases b <;> simp only [sortLe] <;> infer_instance

instance [LinearOrder α] : LinearOrder (X α) where
  le := sortLe
  le_refl a := by cases a <;> simp [sortLe]
  le_trans a b c := by
    cases a <;> cases b <;> cases c <;> simp only [sortLe, imp_self, implies_true, false_implies, true_implies]
    exact fun h h' => le_trans h h'
  le_antisymm a b := by
    cases a <;> cases b <;> simp only [sortLe, imp_self, implies_true, false_implies, true_implies]
    exact fun h h' => by rw [le_antisymm h h']
  le_total a b := by
    cases a <;> cases b <;> simp only [sortLe, true_or, or_true]
    exact le_total _ _
  toDecidableLE := inferInstanceAs (DecidableRel sortLe)

/-- `-x` -/
def neg [Neg α] : X α → X α
  | fin v => fin (-v)
  | pinf => ninf
  | ninf => pinf
  | nan => nan

instance [Neg α] : Neg (X α) := ⟨neg⟩

section
variable [LinearOrder α]

/-- `x > y` on floats; false if one of them is `nan` -/
def gt : X α → X α → Bool
  | nan, _ => false
  | _, nan => false
  | fin a, fin b => decide (b < a)
  | pinf, pinf => false
  | pinf, _ => true
  | ninf, ninf => false
  | _, ninf => true
  | _, _ => false

/-- `x < y` on floats; false if one of them is `nan` -/
def lt (x y : X α) : Bool := gt y x

/-- numba's `max(x, y)` of two floats: `y if y > x else x` -/
def max2 (x y : X α) : X α := if gt y x then y else x
end

section
variable [Field α]

/-- `x + y` -/
def add : X α → X α → X α
  | nan, _ => nan
  | _, nan => nan
  | pinf, ninf => nan
  | ninf, pinf => nan
  | pinf, _ => pinf
  | _, pinf => pinf
  | ninf, _ => ninf
  | _, ninf => ninf
  | fin a, fin b => fin (a + b)

/-- `x - y` -/
def sub (x y : X α) : X α := add x (neg y)

variable [LinearOrder α]

/-- the infinity with the sign of `v`; `nan` for `0` (`0 * inf`) -/
def signed (v : α) : X α := if 0 < v then pinf else if v < 0 then ninf else nan

/-- `x * y` -/
def mul : X α → X α → X α
  | nan, _ => nan
  | _, nan => nan
  | fin a, fin b => fin (a * b)
  | fin a, pinf => signed a
  | fin a, ninf => neg (signed a)
  | pinf, fin b => signed b
  | ninf, fin b => neg (signed b)
  | pinf, pinf => pinf
  | ninf, ninf => pinf
  | _, _ => ninf

/-- `x / y` for `y ≠ 0` -/
def div : X α → X α → X α
  | nan, _ => nan
  | _, nan => nan
  | fin a, fin b => fin (a / b)
  | fin _, _ => fin 0
  | pinf, fin b => signed b
  | ninf, fin b => neg (signed b)
  | _, _ => nan

end
end X

open X

section
variable [DecidableEq δ] [Field α] [LinearOrder α]

/-- the constant `1e-9` -/
def eps : X α := .fin (1 / 10 ^ 9)

/-- normalization/common.py:46-50 `safe_max`; numba's `max(iterable)`: `for v in rest: if v > best: best = v` -/
def safeMax : List (X α) → X α
  | [] => .fin 0
  | x :: t => t.foldl (fun best v => if gt v best then v else best) x

/-- normalization/common.py:53-57 `safe_min`: `for v in rest: if v < best: best = v` -/
def safeMin : List (X α) → X α
  | [] => .fin 0
  | x :: t => t.foldl (fun best v => if lt v best then v else best) x

/-- `sum(scores)` -/
def sumX (l : List (X α)) : X α := l.foldl add (.fin 0)

/-- The loop `for doc_id in results.keys(): normalized_results[doc_id] = f(results[doc_id])`. -/
def normLoop (r : Dict δ (X α)) (f : X α → X α) : Dict δ (X α) :=
  Dict.ofList (r.keys.map (fun d => (d, f ((r.get? d).getD (.fin 0)))))

/-- min_max_norm.py:17-34 `_min_max_norm` -/
def minMax (invert : Bool) (r : Dict δ (X α)) : Dict δ (X α) :=
  let minScore := safeMin r.values
  let maxScore := safeMax r.values
  let denominator := max2 (sub maxScore minScore) eps
  normLoop r (fun s => if invert then div (sub maxScore s) denominator else div (sub s minScore) denominator)

/-- max_norm.py:16-30 `_max_norm` -/
def maxNorm (r : Dict δ (X α)) : Dict δ (X α) :=
  let denominator := max2 (safeMax r.values) eps
  normLoop r (fun s => div s denominator)

/-- sum_norm.py:16-30 `_sum_norm` -/
def sumNorm (r : Dict δ (X α)) : Dict δ (X α) :=
  let minScore := safeMin r.values
  let denominator := max2 (sub (sumX r.values) (mul minScore (.fin (r.length : α)))) eps
  normLoop r (fun s => div (sub s minScore) denominator)

/-- `np.sqrt`; `root` is the square root of numbers -/
def sqrtX (root : α → α) : X α → X α
  | .fin v => if v < 0 then .nan else .fin (root v)
  | .pinf => .pinf
  | _ => .nan

/-- zmuv_norm.py:16-29 `_zmuv_norm`: `np.mean`, and `np.std` as the root of the mean of the squared deviations (both
only matter for non-empty results) -/
def zmuv (root : α → α) (r : Dict δ (X α)) : Dict δ (X α) :=
  let n : X α := .fin (r.length : α)
  let mean := div (sumX r.values) n
  let std := sqrtX root (div (sumX (r.values.map (fun s => mul (sub s mean) (sub s mean)))) n)
  let denominator := max2 std eps
  normLoop r (fun s => div (sub s mean) denominator)

/-- rank_norm.py:15-24 `_rank_norm`: scores are not read -/
def rankNorm (r : Dict δ (X α)) : Dict δ (X α) :=
  Dict.ofList (r.keys.zipIdx.map (fun di => (di.1, .fin (1 - (di.2 : α) / (r.length : α)))))

end
end Ranx.Special
