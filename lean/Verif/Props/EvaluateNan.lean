import Verif.Props.EvaluateStd

/-!
# C32: an undefined score is not hidden

`bpref` of a query without judged non-relevant docs (metrics/bpref.py) is NaN; `np.mean` and `np.std`
(evaluate.py:161-178) propagate it, so the reported and the stored mean of that metric are NaN too:
the query is not left out of the mean.
-/

set_option linter.unusedSectionVars false

namespace Ranx
open Metrics Eval Dict Py

section
variable {κ δ ι α : Type*}
variable [LinearOrder κ] [DecidableEq δ] [LinearOrder ι] [Field α] [LinearOrder α] [IsStrictOrderedRing α]

theorem vals_nan (l : List (Num α)) (h : Num.nan ∈ l) : vals l = none := by
  induction l with
  | nil => simp at h
  | cons x t ih =>
    cases x with
    | nan => rfl
    | val x => rw [vals, ih (by simpa using h)]; rfl

theorem mean_nan (l : List (Num α)) (h : Num.nan ∈ l) : mean l = .nan := by
  unfold mean; rw [vals_nan l h]

theorem std_nan (F : Fn α) (l : List (Num α)) (h : Num.nan ∈ l) : std F l = .nan := by
  unfold std; rw [vals_nan l h]

/-- **C32** (undefined scores): if the saved score of some judged query is NaN, the mean reported for that
metric and the mean stored in `run.mean_scores` are NaN (with `return_std` the standard deviation too). -/
theorem C32_nan (F : Fn α) (other : Str → Except Err α) (SQ : ArgSort Int) (SR : ArgSort α)
    (hash : δ → ι) (sched : Nat → List Nat) (o : Opts) (ho : o.save = true) (hmean : o.returnMean = true)
    (s : Store κ δ Int) (r : RunObj κ δ α) (ms : List Str) (m : Str) (hm : m ∈ ms)
    (hs : Spec.Usable SQ s) (hr : Spec.Usable SR r.store)
    (hsched : ∀ i, Schedule s.data.length (sched i))
    (after : After κ δ α) (out : Out α)
    (h : evaluate F other SQ SR hash sched o (.obj s) (.obj r) ms = (after, .ok out))
    (r' : RunObj κ δ α) (hafter : after.run = .obj r')
    (q : κ) (hq : q ∈ s.data.keys) (hnan : r'.saved m q = some .nan) :
    Spec.Reports ms out m (if o.returnStd = true then .meanStd .nan .nan else .mean .nan) ∧
    r'.meanScores.get? m = some .nan ∧
    (o.returnStd = true → r'.stdScores.get? m = some .nan) := by
  obtain ⟨d, hd⟩ := success F other SQ SR hash sched o s r ms hs hr hsched h
  obtain ⟨f, hf, l, hl, hlen, hqq⟩ := hd.query hs hr hm
  obtain ⟨w1, -, k1, -, o1, l1⟩ := ensureSorted_facts SQ s hs.ok.1 hs.ok.2
  have hr' := comparable_ok SR o s r hr.ok
  obtain ⟨w2, -, k2, -, o2, l2⟩ := ensureSorted_facts SR (comparable SR o s r) hr'.1 hr'.2
  have hlen' : ((comparable SR o s r).ensureSorted SR).data.length = s.data.length := by
    have := congrArg List.length hd.keys
    simp only [length_keys] at this
    omega
  rw [hd.state] at hafter
  simp only [RunArg.obj.injEq] at hafter
  have hmem : Num.nan ∈ l := by
    obtain ⟨jl, rl, v, -, -, -, hv⟩ := hqq q hq
    have : r'.saved m q = some v := by
      rw [← hafter]
      unfold saveAll
      rw [if_pos ho, saved_fold F _ d hd.nodup]
      · simp only
        rw [if_pos (by rw [← hd.keys]; exact (k1 q).2 hq), hl]
        simp only
        rw [← hd.keys]; exact hv
      · exact w2.1
      · intro p hp
        obtain ⟨f', hf', hz⟩ := hd.scores p.1 p.2 (get?_of_mem hd.nodup hp)
        have := congrArg List.length hz
        simp [Store.rows, hlen', l1] at this
        rw [hlen']; exact this.symm
    rw [this] at hnan
    cases hnan
    exact List.mem_of_getElem? hv
  refine ⟨?_, ?_, ?_⟩
  · have := reports_of_outOf F other o true d ms out hd.result hd.metrics m _ hl
    unfold present at this
    rw [if_pos hmean, mean_nan l hmem, std_nan F l hmem] at this
    by_cases hst : o.returnStd = true
    · rw [if_pos (by rw [hmean, hst]; rfl)] at this
      rw [if_pos hst]; exact this
    · rw [if_neg (by rw [hmean]; simpa using hst)] at this
      rw [if_neg hst]; exact this
  · rw [← hafter]
    unfold saveAll
    rw [if_pos ho, mean_fold F _ d hd.nodup, hl]
    simp only
    rw [mean_nan l hmem]
  · intro hst
    rw [← hafter]
    unfold saveAll
    rw [if_pos ho]
    have hb : (o.returnMean && o.returnStd) = true := by rw [hmean, hst]; rfl
    rw [hb, std_fold F d hd.nodup, hl]
    simp only
    rw [std_nan F l hmem]

end

/-- Non-vacuity of C32_nan: query 1 has no judged non-relevant doc, query 2 has one and scores 1. -/
example :
    (evaluate (κ := Nat) (δ := Nat) (ι := Nat) ratFn (fun _ => .error .valueError) (ArgSort.stable Int)
      (ArgSort.stable ℚ) id (fun _ => [1, 0]) {}
      (.obj ⟨[(1, [(10, 1)]), (2, [(10, 1), (11, 0)])], true⟩)
      (.obj ⟨⟨[(1, [(10, 3)]), (2, [(10, 3), (11, 2)])], true⟩, [], [], []⟩) ["bpref".toList]).2 =
        .ok (.single (.mean .nan)) ∧
    (match (evaluate (κ := Nat) (δ := Nat) (ι := Nat) ratFn (fun _ => .error .valueError) (ArgSort.stable Int)
      (ArgSort.stable ℚ) id (fun _ => [1, 0]) {}
      (.obj ⟨[(1, [(10, 1)]), (2, [(10, 1), (11, 0)])], true⟩)
      (.obj ⟨⟨[(1, [(10, 3)]), (2, [(10, 3), (11, 2)])], true⟩, [], [], []⟩) ["bpref".toList]).1.run with
      | .obj r => some (r.saved "bpref".toList 1, r.saved "bpref".toList 2, r.meanScores.get? "bpref".toList)
      | .dict _ => none) = some (some .nan, some (.val 1), some .nan) := by
  refine ⟨?_, ?_⟩ <;> decide +kernel

end Ranx
