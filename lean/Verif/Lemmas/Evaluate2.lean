import Verif.Lemmas.Evaluate
import Verif.Props.Store
import Mathlib.Algebra.Order.Field.Basic

/-! # Lemmas: evaluate on `Qrels` and `Run` objects -/

set_option linter.unusedSectionVars false

namespace Ranx
open Dict Store
variable {κ δ β : Type*}

/-- Specification: an object obtained by `Run()` / `Run(d)` / `Qrels(d)` … or returned by a normalization or
fusion (a new object whose dictionary was assigned, not flagged as sorted), followed by any public calls none
of which raised. -/
def Spec.Usable [LinearOrder κ] [DecidableEq δ] [LE β] [Neg β] (S : ArgSort β) (s : Store κ δ β) : Prop :=
  ∃ (s0 : Store κ δ β) (h : List (Op κ δ β)),
    (∃ d : Dict κ (Dict δ β), NodupKeys d ∧ (∀ p ∈ d, NodupKeys p.2) ∧
      (s0 = ⟨d, false⟩ ∨ Store.ofDict S d = .ok s0)) ∧
    s = (s0.exec S h).1 ∧ ∀ e ∈ (s0.exec S h).2, e = none

/-- Specification: `l` lists the docs of query `q` with their values, best first. -/
structure Spec.Ranking [DecidableEq κ] [DecidableEq δ] [LE β] (m : Spec.Content κ δ β) (q : κ)
    (l : List (δ × β)) : Prop where
  nodup : (l.map Prod.fst).Nodup
  sorted : l.Pairwise (fun a b => b.2 ≤ a.2)
  docs : ∀ d v, (d, v) ∈ l ↔ m.read q d = some v

section
variable [LinearOrder κ] [DecidableEq δ] [AddCommGroup β] [LinearOrder β] [IsOrderedAddMonoid β]
  (S : ArgSort β)

theorem Spec.Usable.ok {s : Store κ δ β} (h : Spec.Usable S s) : Wf s.data ∧ FlagOk s := by
  obtain ⟨s0, h, hstart, rfl, hok⟩ := h
  have hbase : Wf s0.data ∧ FlagOk s0 := by
    obtain ⟨d, hd, hi, hof⟩ := hstart
    rcases hof with rfl | hof
    · exact ⟨⟨hd, hi⟩, fun hc => by simp at hc⟩
    · rw [ofDict_eq S d ⟨hd, hi⟩] at hof
      split at hof
      · cases hof
      · cases hof
        exact ⟨Wf.sortAll S ⟨hd, hi⟩, fun _ => sortAll_ranked S ⟨hd, hi⟩⟩
  have key : ∀ (os : List (Op κ δ β)) (s : Store κ δ β), Wf s.data → FlagOk s →
      (∀ e ∈ (s.exec S os).2, e = none) →
      Wf (s.exec S os).1.data ∧ FlagOk (s.exec S os).1 := by
    intro os
    induction os with
    | nil => intro s h1 h2 _; exact ⟨h1, h2⟩
    | cons o os ih =>
      intro s h1 h2 h3
      rw [exec_cons] at h3 ⊢
      exact ih _ (step_spec S s o h1).1 (step_flagOk S s o h1 h2 (h3 _ (by simp)))
        (fun e he => h3 e (by simp [he]))
  exact key h s0 hbase.1 hbase.2 hok

theorem ensureSorted_facts (s : Store κ δ β) (h : Wf s.data) (hf : FlagOk s) :
    Wf (s.ensureSorted S).data ∧ Spec.content (s.ensureSorted S) = Spec.content s ∧
    (∀ q, q ∈ (s.ensureSorted S).data.keys ↔ q ∈ s.data.keys) ∧
    (∀ p ∈ (s.ensureSorted S).data, Spec.Ranked p.2.values) ∧
    (s.ensureSorted S).data.keys.Pairwise (· < ·) ∧
    (s.ensureSorted S).data.length = s.data.length := by
  obtain ⟨h1, h2⟩ := ensureSorted_ranked S s h hf
  unfold ensureSorted at *
  by_cases hs : s.sorted
  · rw [if_pos hs] at *
    exact ⟨h, rfl, fun _ => Iff.rfl, h1, h2, rfl⟩
  · rw [if_neg hs] at *
    refine ⟨Wf.sortAll S h, cont_sortAll S h, fun q => mem_keys_sortAll S h.1 q, h1, h2, ?_⟩
    have := keys_sortAll S h.1
    have hl := congrArg List.length this
    simp only [length_keys] at hl
    change (sortAll S s.data).length = _
    rw [hl]
    exact (sortDictByKey_perm h.1).length_eq

/-- an entry of a sorted store is a ranking of its query -/
theorem ranking_of_mem (s : Store κ δ β) (h : Wf s.data) (hr : ∀ p ∈ s.data, Spec.Ranked p.2.values)
    {q : κ} {l : Dict δ β} (hm : s.data.get? q = some l) : Spec.Ranking (Spec.content s) q l := by
  have hmem := mem_of_get? hm
  refine ⟨h.2 _ hmem, List.pairwise_map.1 (hr _ hmem), ?_⟩
  intro d v
  have : (Spec.content s).read q d = l.get? d := by
    unfold Spec.Content.read Spec.content
    rw [hm]; rfl
  rw [this]
  exact (get?_eq_some_iff (h.2 _ hmem)).symm

end
end Ranx

namespace Ranx.Eval
open Dict Metrics Py Store
variable {κ δ ι α : Type*}
variable [LinearOrder κ] [DecidableEq δ] [LinearOrder ι] [Field α] [LinearOrder α]

/-- the run's store after the optional `make_comparable` -/
def comparable (SR : ArgSort α) (o : Opts) (s : Store κ δ Int) (r : RunObj κ δ α) : Store κ δ α :=
  if o.makeComparable then r.store.makeComparable SR s.data.keys else r.store

/-- the returned value -/
def outOf (F : Fn α) (other : Str → Except Err α) (o : Opts) (isRun : Bool)
    (d : Dict Str (List (Num α))) (ms : List Str) : Except Err (Out α) :=
  let out : Dict Str (Value α) := d.map (fun p => (p.1, present F o (o.returnMean && o.returnStd) p.2))
  match ms with
  | [metric] =>
    match out.get? (lastM other o isRun metric) with
    | some v => .ok (.single v)
    | none => .error .keyError
  | _ => .ok (.dict out)

/-- the run object with the results saved -/
def saveAll (F : Fn α) (o : Opts) (d : Dict Str (List (Num α))) (r : RunObj κ δ α) : RunObj κ δ α :=
  if o.save then d.foldl (fun r p => saveOne F (o.returnMean && o.returnStd) r p.1 p.2) r else r

theorem evaluate_obj (F : Fn α) (other : Str → Except Err α) (SQ : ArgSort Int) (SR : ArgSort α)
    (hash : δ → ι) (sched : Nat → List Nat) (o : Opts) (s : Store κ δ Int) (r : RunObj κ δ α)
    (ms : List Str) :
    evaluate F other SQ SR hash sched o (.obj s) (.obj r) ms =
      if sameKeys s.data.keys (comparable SR o s r).data.keys then
        match scoreAll F other sched (Store.rows hash (fun z : Int => (z : α)) (s.ensureSorted SQ).data)
          (Store.rows hash id ((comparable SR o s r).ensureSorted SR).data) ms.zipIdx [] with
        | .error e => (⟨.obj (s.ensureSorted SQ),
            .obj { r with store := (comparable SR o s r).ensureSorted SR }⟩, .error e)
        | .ok d => (⟨.obj (s.ensureSorted SQ),
            .obj (saveAll F o d { r with store := (comparable SR o s r).ensureSorted SR })⟩,
            outOf F other o true d ms)
      else (⟨.obj s, .obj { r with store := comparable SR o s r }⟩, .error .assertionError) := by
  have hp : prepare SR o (.obj s) (.obj r) = .obj { r with store := comparable SR o s r } := by
    unfold prepare comparable
    cases o.makeComparable <;> rfl
  unfold evaluate
  rw [hp]
  simp only [QrelsArg.keys, RunArg.keys]
  by_cases hk : sameKeys s.data.keys (comparable SR o s r).data.keys = true
  · have hk' : ¬ (!sameKeys s.data.keys (comparable SR o s r).data.keys) = true := by
      rw [hk]; decide
    refine (if_neg hk').trans ?_
    rw [if_pos hk]
    simp only [convertQrels, convertRun, Store.toTypedList]
    cases hd : scoreAll F other sched (Store.rows hash (fun z : Int => (z : α)) (s.ensureSorted SQ).data)
          (Store.rows hash id ((comparable SR o s r).ensureSorted SR).data) ms.zipIdx [] with
    | error e => rfl
    | ok d =>
      have hsave : (if o.save = true then RunArg.obj (d.foldl (fun r p =>
          saveOne F (o.returnMean && o.returnStd) r p.1 p.2)
            { r with store := (comparable SR o s r).ensureSorted SR })
          else RunArg.obj { r with store := (comparable SR o s r).ensureSorted SR }) =
          RunArg.obj (saveAll F o d { r with store := (comparable SR o s r).ensureSorted SR }) := by
        unfold saveAll; cases o.save <;> rfl
      simp only [hsave]
      unfold outOf
      cases ms with
      | nil => rfl
      | cons m t =>
        cases t with
        | nil =>
          simp only
          generalize Dict.get? (List.map (fun p : Str × List (Num α) =>
            (p.1, present F o (o.returnMean && o.returnStd) p.2)) d) (lastM other o true m) = x
          cases x <;> rfl
        | cons m' t => rfl
  · have hk' : (!sameKeys s.data.keys (comparable SR o s r).data.keys) = true := by
      simpa using hk
    refine (if_pos hk').trans ?_
    rw [if_neg hk]

/-- both objects list the same queries in the same order -/
theorem aligned [IsStrictOrderedRing α] (SQ : ArgSort Int) (SR : ArgSort α) (s : Store κ δ Int)
    (t : Store κ δ α) (hs : Wf s.data ∧ FlagOk s) (ht : Wf t.data ∧ FlagOk t)
    (hk : sameKeys s.data.keys t.data.keys = true) :
    (s.ensureSorted SQ).data.keys = (t.ensureSorted SR).data.keys := by
  obtain ⟨-, -, k1, -, o1, -⟩ := ensureSorted_facts SQ s hs.1 hs.2
  obtain ⟨-, -, k2, -, o2, -⟩ := ensureSorted_facts SR t ht.1 ht.2
  apply eq_of_mem_iff_of_sorted_lt o1 o2
  intro q
  rw [k1, k2]
  unfold sameKeys at hk
  rw [Bool.and_eq_true, List.all_eq_true, List.all_eq_true] at hk
  exact ⟨fun h => by simpa using hk.1 q h, fun h => by simpa using hk.2 q h⟩

theorem comparable_ok [IsStrictOrderedRing α] (SR : ArgSort α) (o : Opts) (s : Store κ δ Int)
    (r : RunObj κ δ α) (hr : Wf r.store.data ∧ FlagOk r.store) :
    Wf (comparable SR o s r).data ∧ FlagOk (comparable SR o s r) := by
  unfold comparable
  by_cases hm : o.makeComparable
  · rw [if_pos hm]
    obtain ⟨d2, hw2, -, he⟩ := makeComparable_spec SR r.store s.data.keys hr.1
    rw [he]
    exact ⟨Wf.sortAll SR hw2, fun _ => sortAll_ranked SR hw2⟩
  · rw [if_neg hm]; exact hr

/-- after `make_comparable` the key check always passes -/
theorem comparable_sameKeys [IsStrictOrderedRing α] (SR : ArgSort α) (o : Opts) (s : Store κ δ Int)
    (r : RunObj κ δ α) (hr : Wf r.store.data) (hm : o.makeComparable = true) :
    sameKeys s.data.keys (comparable SR o s r).data.keys = true := by
  unfold comparable
  rw [if_pos hm]
  obtain ⟨d2, hw2, hc, he⟩ := makeComparable_spec SR r.store s.data.keys hr
  rw [he]
  have hmem : ∀ q, q ∈ (sortAll SR d2).keys ↔ q ∈ s.data.keys := by
    intro q
    rw [mem_keys_sortAll SR hw2.1, ← get?_isSome, hc q]
    by_cases hq : q ∈ s.data.keys <;> simp [hq]
  unfold sameKeys
  rw [Bool.and_eq_true, List.all_eq_true, List.all_eq_true]
  exact ⟨fun q h => by simpa using (hmem q).2 h, fun q h => by simpa using (hmem q).1 h⟩

end Ranx.Eval
