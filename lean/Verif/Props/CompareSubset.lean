import Verif.Props.Compare2
import Verif.Props.Report
import Verif.Props.Labels

/-!
# Property C141: what `compare` says about two models does not depend on the other models

Two comparisons on the same qrels may differ in the list of runs (other runs, another order), the list of
metrics, the threads' schedules and the random draws. What the reports say about two named runs that occur
in both, for a metric that occurs in both, is the same: the scores, the wins, ties and losses and, for
Student's test, the p-value and whether it is significant.
-/

set_option linter.unusedSectionVars false

namespace Ranx
open Dict Store Eval Metrics Py Stat Rep
variable {κ δ ι α : Type*}
variable [LinearOrder κ] [DecidableEq δ] [LinearOrder ι] [Field α] [LinearOrder α]
  [IsStrictOrderedRing α]

/-- `evaluate` returns one list of scores -/
theorem perQuery_unique {F : Fn α} {other : Str → Except Err α} {SQ : ArgSort Int} {SR : ArgSort α}
    {hash : δ → ι} {mc : Bool} {s : Store κ δ Int} {r : RunObj κ δ α} {m : Str} {l l' : List (Num α)}
    (h : Spec.PerQuery F other SQ SR hash mc s r m l) (h' : Spec.PerQuery F other SQ SR hash mc s r m l') :
    l = l' := by
  obtain ⟨a, ha⟩ := h
  obtain ⟨b, hb⟩ := h'
  rw [ha] at hb
  simp only [Prod.mk.injEq, Except.ok.injEq, Out.single.injEq, Value.scores.injEq] at hb
  exact hb.2

theorem modelName_named {r : NamedRun κ δ α} {a : Str} (h : r.name = some a) (i : Nat) : modelName i r = a := by
  cases r with
  | mk n o => cases h; rfl

/-- the table of wins, ties and losses as a function of the per-query scores -/
theorem compare_wtl (F : Fn α) (other : Str → Except Err α) (SQ : ArgSort Int) (SR : ArgSort α)
    (hash : δ → ι) (sched : Nat → Nat → List Nat) (E : Env α) (mc : Bool) (test : Str) (n : Nat) (maxP : α)
    (s : Store κ δ Int) (runs : List (NamedRun κ δ α)) (ms : List Str)
    (hc : Spec.Comparable SQ SR sched s runs)
    (rep : Report α) (q' : QrelsArg κ δ α) (rs' : List (RunArg κ δ α))
    (h : Rep.compare F other SQ SR hash sched E mc test n maxP (.obj s) runs ms = .ok (rep, q', rs'))
    (i j : Nat) (r r' : NamedRun κ δ α) (hi : runs[i]? = some r) (hj : runs[j]? = some r')
    (hne : modelName i r ≠ modelName j r') (m : Str) (hm : m ∈ ms) :
    ∃ (l l' : List (Num α)),
      Spec.PerQuery F other SQ SR hash mc s r.obj m l ∧ Spec.PerQuery F other SQ SR hash mc s r'.obj m l' ∧
      wtlAt rep.winTieLoss (modelName i r, modelName j r') m = some (winTieLossOf l l') := by
  obtain ⟨a, h1, h2, -, -, -, -, -, -, hw, h9, -⟩ := compare_ok F other SQ SR hash sched E mc test n maxP s runs ms
    hc rep q' rs' h
  have hms : ms ≠ [] := List.ne_nil_of_mem hm
  obtain ⟨sc, hp, hsc, -⟩ := h9 i r hi
  obtain ⟨sc', hp', hsc', -⟩ := h9 j r' hj
  obtain ⟨l, hl, hlen, hq⟩ := hp.scores hm
  obtain ⟨l', hl', hlen', hq'⟩ := hp'.scores hm
  have hmem : ∀ (i : Nat) (r : NamedRun κ δ α), runs[i]? = some r → modelName i r ∈ a.names := by
    intro i r hir
    rw [h1, modelNames_eq]
    exact List.mem_map.2 ⟨(r, i), mem_runs_zipIdx hir, rfl⟩
  have hpair : (modelName i r, modelName j r') ∈ pairs a.names := by
    unfold pairs
    rw [List.mem_flatMap]
    exact ⟨_, hmem i r hi, List.mem_map.2 ⟨_, hmem j r' hj, rfl⟩⟩
  obtain ⟨ca, cb, cs, ts, e1, e2, e3, e4, e5⟩ :=
    (wtlPairs_ok a.scores ms hms _ _ _ hw (modelName i r) (modelName j r') m hm).1 hpair hne
  rw [hsc] at e1; cases e1
  rw [hsc'] at e2; cases e2
  rw [hl] at e3; cases e3
  rw [hl'] at e4; cases e4
  exact ⟨_, _, hq, hq', e5⟩

/-- **C141** (scores, wins): two successful comparisons on the same qrels, whatever else is compared and in
whatever order, whatever tests, thresholds, schedules and random draws: a named run which takes part in
both has the same score for every metric requested in both, and two runs which take part in both have
the same numbers of wins, ties and losses against each other. -/
theorem C141_scores (F : Fn α) (other : Str → Except Err α) (SQ : ArgSort Int) (SR : ArgSort α)
    (hash : δ → ι) (sched₁ sched₂ : Nat → Nat → List Nat) (E₁ E₂ : Env α) (mc : Bool) (test₁ test₂ : Str)
    (n₁ n₂ : Nat) (maxP₁ maxP₂ : α)
    (s : Store κ δ Int) (runs₁ runs₂ : List (NamedRun κ δ α)) (ms₁ ms₂ : List Str)
    (hc₁ : Spec.Comparable SQ SR sched₁ s runs₁) (hc₂ : Spec.Comparable SQ SR sched₂ s runs₂)
    (rep₁ rep₂ : Report α) (q₁ q₂ : QrelsArg κ δ α) (rs₁ rs₂ : List (RunArg κ δ α))
    (h₁ : Rep.compare F other SQ SR hash sched₁ E₁ mc test₁ n₁ maxP₁ (.obj s) runs₁ ms₁ = .ok (rep₁, q₁, rs₁))
    (h₂ : Rep.compare F other SQ SR hash sched₂ E₂ mc test₂ n₂ maxP₂ (.obj s) runs₂ ms₂ = .ok (rep₂, q₂, rs₂))
    (r : NamedRun κ δ α) (a : Str) (ha : r.name = some a) (hr₁ : r ∈ runs₁) (hr₂ : r ∈ runs₂)
    (m : Str) (hm₁ : m ∈ ms₁) (hm₂ : m ∈ ms₂) :
    (∃ x, rep₁.score a m = .ok x ∧ rep₂.score a m = .ok x) ∧
    ∀ (r' : NamedRun κ δ α) (b : Str), r'.name = some b → r' ∈ runs₁ → r' ∈ runs₂ → a ≠ b →
      ∃ w, wtlAt rep₁.winTieLoss (a, b) m = some w ∧ wtlAt rep₂.winTieLoss (a, b) m = some w := by
  obtain ⟨i₁, hi₁⟩ := List.mem_iff_getElem?.1 hr₁
  obtain ⟨i₂, hi₂⟩ := List.mem_iff_getElem?.1 hr₂
  constructor
  · obtain ⟨l, hl, e⟩ := (C73_own_results_partial F other SQ SR hash sched₁ E₁ mc test₁ n₁ maxP₁ s runs₁ ms₁ hc₁
      rep₁ q₁ rs₁ h₁).2.2 i₁ r hi₁ m hm₁
    obtain ⟨l', hl', e'⟩ := (C73_own_results_partial F other SQ SR hash sched₂ E₂ mc test₂ n₂ maxP₂ s runs₂ ms₂ hc₂
      rep₂ q₂ rs₂ h₂).2.2 i₂ r hi₂ m hm₂
    rw [modelName_named ha] at e e'
    rw [perQuery_unique hl' hl] at e'
    exact ⟨_, e, e'⟩
  · intro r' b hb hr₁' hr₂' hab
    obtain ⟨j₁, hj₁⟩ := List.mem_iff_getElem?.1 hr₁'
    obtain ⟨j₂, hj₂⟩ := List.mem_iff_getElem?.1 hr₂'
    obtain ⟨l, l', g1, g2, e⟩ := compare_wtl F other SQ SR hash sched₁ E₁ mc test₁ n₁ maxP₁ s runs₁ ms₁ hc₁
      rep₁ q₁ rs₁ h₁ i₁ j₁ r r' hi₁ hj₁ (by rw [modelName_named ha, modelName_named hb]; exact hab) m hm₁
    obtain ⟨k, k', f1, f2, e'⟩ := compare_wtl F other SQ SR hash sched₂ E₂ mc test₂ n₂ maxP₂ s runs₂ ms₂ hc₂
      rep₂ q₂ rs₂ h₂ i₂ j₂ r r' hi₂ hj₂ (by rw [modelName_named ha, modelName_named hb]; exact hab) m hm₂
    rw [modelName_named ha, modelName_named hb] at e e'
    rw [perQuery_unique f1 g1, perQuery_unique f2 g2] at e'
    exact ⟨_, e, e'⟩

/-- **C141** (Student's test): if moreover both comparisons use Student's test (the same, symmetric
p-value) and the same threshold, they report the same p-value and the same significance for two named runs
which take part in both, and hence agree on which of the two is significantly better - which is what the
superscripts of the tables show (C71). -/
theorem C141_student (F : Fn α) (other : Str → Except Err α) (SQ : ArgSort Int) (SR : ArgSort α)
    (hash : δ → ι) (sched₁ sched₂ : Nat → Nat → List Nat) (E₁ E₂ : Env α) (mc : Bool)
    (hE : E₁.ttest = E₂.ttest) (hsym : ∀ x y, E₁.ttest x y = E₁.ttest y x)
    (n₁ n₂ : Nat) (maxP : α)
    (s : Store κ δ Int) (runs₁ runs₂ : List (NamedRun κ δ α)) (ms₁ ms₂ : List Str)
    (hc₁ : Spec.Comparable SQ SR sched₁ s runs₁) (hc₂ : Spec.Comparable SQ SR sched₂ s runs₂)
    (rep₁ rep₂ : Report α) (q₁ q₂ : QrelsArg κ δ α) (rs₁ rs₂ : List (RunArg κ δ α))
    (h₁ : Rep.compare F other SQ SR hash sched₁ E₁ mc "student".toList n₁ maxP (.obj s) runs₁ ms₁ =
      .ok (rep₁, q₁, rs₁))
    (h₂ : Rep.compare F other SQ SR hash sched₂ E₂ mc "student".toList n₂ maxP (.obj s) runs₂ ms₂ =
      .ok (rep₂, q₂, rs₂))
    (r r' : NamedRun κ δ α) (a b : Str) (ha : r.name = some a) (hb : r'.name = some b) (hab : a ≠ b)
    (hr₁ : r ∈ runs₁) (hr₂ : r ∈ runs₂) (hr₁' : r' ∈ runs₁) (hr₂' : r' ∈ runs₂)
    (m : Str) (hm₁ : m ∈ ms₁) (hm₂ : m ∈ ms₂) :
    (∃ c, rep₁.comparison a b m = .ok c ∧ rep₂.comparison a b m = .ok c) ∧
    (Spec.SigBetter rep₁ a m b ↔ Spec.SigBetter rep₂ a m b) := by
  obtain ⟨i₁, hi₁⟩ := List.mem_iff_getElem?.1 hr₁
  obtain ⟨i₂, hi₂⟩ := List.mem_iff_getElem?.1 hr₂
  obtain ⟨j₁, hj₁⟩ := List.mem_iff_getElem?.1 hr₁'
  obtain ⟨j₂, hj₂⟩ := List.mem_iff_getElem?.1 hr₂'
  have hne : ∀ i j, modelName i r ≠ modelName j r' := fun i j => by
    rw [modelName_named ha, modelName_named hb]; exact hab
  obtain ⟨l, l', g1, g2, e, -⟩ := C86_student F other SQ SR hash sched₁ E₁ mc n₁ maxP s runs₁ ms₁ hc₁ hsym
    rep₁ q₁ rs₁ h₁ i₁ j₁ r r' hi₁ hj₁ (hne _ _) m hm₁
  obtain ⟨k, k', f1, f2, e', -⟩ := C86_student F other SQ SR hash sched₂ E₂ mc n₂ maxP s runs₂ ms₂ hc₂
    (by rw [← hE]; exact hsym) rep₂ q₂ rs₂ h₂ i₂ j₂ r r' hi₂ hj₂ (hne _ _) m hm₂
  rw [modelName_named ha, modelName_named hb] at e e'
  rw [perQuery_unique f1 g1, perQuery_unique f2 g2, ← hE] at e'
  refine ⟨⟨_, e, e'⟩, ?_⟩
  have hs := fun (t : NamedRun κ δ α) (x : Str) hx k₁ k₂ => (C141_scores F other SQ SR hash sched₁ sched₂ E₁ E₂ mc _ _
    n₁ n₂ maxP maxP s runs₁ runs₂ ms₁ ms₂ hc₁ hc₂ rep₁ rep₂ q₁ q₂ rs₁ rs₂ h₁ h₂ t x hx k₁ k₂ m hm₁ hm₂).1
  obtain ⟨x, x₁, x₂⟩ := hs r a ha hr₁ hr₂
  obtain ⟨y, y₁, y₂⟩ := hs r' b hb hr₁' hr₂'
  unfold Spec.SigBetter
  rw [e, e', x₁, x₂, y₁, y₂]

/-- **C141** (unnamed runs): what a run is called in the report depends on its place only if it has no name
of its own. -/
theorem C141_names (r : NamedRun κ δ α) (i j : Nat) :
    (∀ a, r.name = some a → modelName i r = a ∧ modelName j r = a) ∧
    (r.name = none → i ≠ j → modelName i r ≠ modelName j r) := by
  refine ⟨fun a ha => ⟨modelName_named ha i, modelName_named ha j⟩, ?_⟩
  intro hn hij h
  cases r with
  | mk n o =>
    cases hn
    have := List.append_cancel_left (h : "run_".toList ++ natStr (i + 1) = "run_".toList ++ natStr (j + 1))
    have := natStr_inj this
    omega

/-- Non-vacuity of C141: the runs of two comparisons in different order, the second with a third run. -/
def exOrder₁ : List (NamedRun Nat Nat ℚ) := [exBm25, ⟨some "best".toList, exPerfect⟩]
def exOrder₂ : List (NamedRun Nat Nat ℚ) := [⟨some "best".toList, exPerfect⟩, exAnon, exBm25]

theorem exOrder_comparable :
    Spec.Comparable (ArgSort.stable Int) (ArgSort.stable ℚ) (fun _ _ => [1, 0]) exQrelsObj exOrder₁ ∧
    Spec.Comparable (ArgSort.stable Int) (ArgSort.stable ℚ) (fun _ _ => [1, 0]) exQrelsObj exOrder₂ := by
  constructor
  · refine ⟨exQrelsObj_usable, ?_, ?_, by decide +kernel⟩
    · intro r hr
      simp only [exOrder₁, List.mem_cons, List.not_mem_nil, or_false] at hr
      rcases hr with rfl | rfl
      · exact exRunObj_usable
      · exact exPerfect_usable
    · exact exComparable.schedOk
  · refine ⟨exQrelsObj_usable, ?_, ?_, by decide +kernel⟩
    · intro r hr
      simp only [exOrder₂, List.mem_cons, List.not_mem_nil, or_false] at hr
      rcases hr with rfl | rfl | rfl
      · exact exPerfect_usable
      · exact exPerfect_usable
      · exact exRunObj_usable
    · exact exComparable.schedOk

example :
    (exCompare "student" exOrder₁).map (fun r => (r.score "bm25".toList "recall@2".toList,
      wtlAt r.winTieLoss ("bm25".toList, "best".toList) "recall@2".toList)) =
      .ok (.ok (.val (1/4)), some ⟨0, 0, 2⟩) ∧
    (exCompare "student" exOrder₂).map (fun r => (r.score "bm25".toList "recall@2".toList,
      wtlAt r.winTieLoss ("bm25".toList, "best".toList) "recall@2".toList)) =
      .ok (.ok (.val (1/4)), some ⟨0, 0, 2⟩) := by
  decide +kernel

end Ranx
