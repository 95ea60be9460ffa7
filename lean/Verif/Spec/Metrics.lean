import Mathlib.Algebra.Field.Defs
import Mathlib.Algebra.Order.Ring.Defs
import Mathlib.Algebra.BigOperators.Group.Finset.Defs
import Mathlib.Data.Finset.Range

/-!
# Textbook definitions of the metrics

Independent of the code: a ranking is a list of doc ids, relevance a predicate on
ids, grades a function on ids.
-/

namespace Ranx.Spec
open Finset

variable {ι α : Type*}

/-- the doc is judged with relevance at least `lvl` -/
def Rel [LE α] (qrels : List (ι × α)) (lvl : α) (x : ι) : Prop := ∃ v, (x, v) ∈ qrels ∧ lvl ≤ v

/-- the doc is judged -/
def Judged (qrels : List (ι × α)) (x : ι) : Prop := ∃ v, (x, v) ∈ qrels

/-- number of docs judged with relevance at least `lvl` -/
noncomputable def numRel [LE α] (qrels : List (ι × α)) (lvl : α) : Nat := by
  classical exact (qrels.filter (fun r => decide (lvl ≤ r.2))).length

/-- the results the metric looks at: the first `k`, or all if `k = 0` -/
def top (k : Nat) (ids : List ι) : List ι := if k = 0 then ids else ids.take k

/-- number of relevant docs among the first `n` -/
noncomputable def relIn (rel : ι → Prop) (ids : List ι) (n : Nat) : Nat := by
  classical exact (ids.take n).countP (fun x => decide (rel x))

section
variable [Field α]

/-- hits@k -/
noncomputable def hits (rel : ι → Prop) (ids : List ι) (k : Nat) : Nat :=
  relIn rel (top k ids) ids.length

/-- precision@k: relevant among the top k over k (over the number of results if k = 0) -/
noncomputable def precision (rel : ι → Prop) (ids : List ι) (k : Nat) : α :=
  (hits rel ids k : α) / ((if k = 0 then ids.length else k : Nat) : α)

/-- recall@k for `R` relevant docs -/
noncomputable def recall (rel : ι → Prop) (R : Nat) (ids : List ι) (k : Nat) : α :=
  (hits rel ids k : α) / (R : α)

/-- average precision at k: the precision at each rank holding a relevant doc, summed, over `R` -/
noncomputable def averagePrecision (rel : ι → Prop) (R : Nat) (ids : List ι) (k : Nat) : α := by
  classical exact
    (∑ r ∈ range (top k ids).length,
      if ∃ x, (top k ids)[r]? = some x ∧ rel x then
        (relIn rel ids (r + 1) : α) / ((r + 1 : Nat) : α) else 0) / (R : α)

/-- the gain of the doc at 0-based position `i`, 0 past the end -/
def gainAt (g : ι → α) (ids : List ι) (i : Nat) : α := (ids[i]?.map g).getD 0

/-- discounted cumulative gain at k of the grades `g`, 0-based position `i` discounted by `disc i` -/
def dcg (g : ι → α) (disc : Nat → α) (ids : List ι) (k : Nat) : α :=
  ∑ i ∈ range (top k ids).length,
    gainAt g (top k ids) i / disc i

/-- rank-biased precision of the grades `g` -/
def rbp (g : ι → α) (p : α) (ids : List ι) : α :=
  (1 - p) * ∑ i ∈ range ids.length, gainAt g ids i * p ^ i

end

/-- `v` is the reciprocal rank at k: `1/r` for the least rank `r` holding a relevant doc, or 0 -/
def IsReciprocalRank [Field α] (rel : ι → Prop) (ids : List ι) (k : Nat) (v : α) : Prop :=
  (∃ r x, (top k ids)[r]? = some x ∧ rel x ∧
      (∀ r' < r, ∀ y, (top k ids)[r']? = some y → ¬ rel y) ∧ v = 1 / ((r + 1 : Nat) : α)) ∨
  ((∀ x ∈ top k ids, ¬ rel x) ∧ v = 0)

/-- the grade used by graded metrics: the judged relevance if it reaches `lvl`, else 0 -/
def IsGrade [Zero α] [LE α] (qrels : List (ι × α)) (lvl : α) (g : ι → α) : Prop :=
  (∀ x v, (x, v) ∈ qrels → lvl ≤ v → g x = v) ∧ (∀ x, ¬ Rel qrels lvl x → g x = 0)

/-- the doc is judged, but not at the level -/
def NonRel [LE α] (qrels : List (ι × α)) (lvl : α) (x : ι) : Prop :=
  Judged qrels x ∧ ¬ Rel qrels lvl x

/-- number of judgements below the level -/
noncomputable def numNonRel [LT α] (qrels : List (ι × α)) (lvl : α) : Nat := by
  classical exact (qrels.filter (fun r => decide (r.2 < lvl))).length

/-- bpref with `R` relevant and `N` judged non-relevant docs: mean over the relevant docs of
`1 - min(#judged non-relevant docs ranked above, R) / min(R, N)`, unretrieved ones counting 0 -/
noncomputable def bpref [Field α] (rel nonRel : ι → Prop) (R N : Nat) (ids : List ι) : α := by
  classical exact
    (∑ r ∈ range ids.length,
      if ∃ x, ids[r]? = some x ∧ rel x then
        1 - ((min (relIn nonRel ids r) R : Nat) : α) / ((min R N : Nat) : α) else 0) / (R : α)

/-- `v` is the interpolated precision when `c` relevant docs are required: the greatest precision at
a rank `m` whose first `m` results contain at least `c` relevant docs, 0 if there is no such rank -/
def IsInterpolated [Field α] [LE α] (rel : ι → Prop) (ids : List ι) (c : Nat) (v : α) : Prop :=
  ((∃ m, 1 ≤ m ∧ m ≤ ids.length ∧ c ≤ relIn rel ids m ∧ v = (relIn rel ids m : α) / (m : α)) ∧
    ∀ m, 1 ≤ m → m ≤ ids.length → c ≤ relIn rel ids m → (relIn rel ids m : α) / (m : α) ≤ v) ∨
  ((∀ m, 1 ≤ m → m ≤ ids.length → ¬ c ≤ relIn rel ids m) ∧ v = 0)

end Ranx.Spec
