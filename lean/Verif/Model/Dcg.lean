import Mathlib.Analysis.SpecialFunctions.Log.Base
import Mathlib.Analysis.SpecialFunctions.Pow.Real
import Verif.Model.Metrics

/-!
# dcg / ndcg with the code's gains and discount, over the reals (ndcg.py)
-/

namespace Ranx.Metrics
variable {ι : Type*} [LinearOrder ι]

/-- ndcg.py:34-40 `np.log2(i + 2)` for 0-based position `i`. -/
noncomputable def log2Disc (i : Nat) : ℝ := Real.logb 2 ((i : ℝ) + 2)

/-- ndcg.py:35 (jarvelin): the gain is the relevance itself. -/
def jarvelinGain (x : ℝ) : ℝ := x

/-- ndcg.py:37 (burges): `2**x - 1`. -/
noncomputable def burgesGain (x : ℝ) : ℝ := (2 : ℝ) ^ x - 1

/-- ndcg.py:12-40 with jarvelin=True (dcg.py). -/
noncomputable def dcg (q run : Rows ι ℝ) (k : Nat) (lvl : ℝ) : ℝ :=
  dcgCore jarvelinGain log2Disc q run k lvl

/-- ndcg.py:12-40 with jarvelin=False (dcg_burges). -/
noncomputable def dcgBurges (q run : Rows ι ℝ) (k : Nat) (lvl : ℝ) : ℝ :=
  dcgCore burgesGain log2Disc q run k lvl

/-- ndcg.py:51-53. -/
noncomputable def idcg (q : Rows ι ℝ) (k : Nat) (lvl : ℝ) : ℝ :=
  idcgCore jarvelinGain log2Disc q k lvl

/-- ndcg.py:51-53. -/
noncomputable def idcgBurges (q : Rows ι ℝ) (k : Nat) (lvl : ℝ) : ℝ :=
  idcgCore burgesGain log2Disc q k lvl

/-- ndcg.py:56-65, jarvelin=True. -/
noncomputable def ndcg (q run : Rows ι ℝ) (k : Nat) (lvl : ℝ) : ℝ :=
  ndcgCore jarvelinGain log2Disc q run k lvl

/-- ndcg.py:56-65, jarvelin=False. -/
noncomputable def ndcgBurges (q run : Rows ι ℝ) (k : Nat) (lvl : ℝ) : ℝ :=
  ndcgCore burgesGain log2Disc q run k lvl

end Ranx.Metrics
