import Mathlib.Data.Rat.Floor

/-!
# `ceil(a / b)` in floating point (probfuse.py:26, 65)
-/

namespace Ranx.Fuse.Rnd

/-- probfuse.py:26, 65 `ceil(a / b)` for integers: true division of the two integers (rounded), then `ceil` -/
def ceilDiv (rnd : ℚ → ℚ) (a b : Nat) : Nat := ⌈rnd (rnd (a : ℚ) / rnd (b : ℚ))⌉.toNat

end Ranx.Fuse.Rnd
