import Verif.Model.Evaluate
import Verif.Lemmas.Prange
import Verif.Lemmas.Store
import Verif.Lemmas.PyStr

/-! # Lemmas: evaluate -/

set_option linter.unusedSectionVars false

namespace Ranx.Eval
open Dict Metrics Py
variable {κ δ ι α : Type*}

theorem collect_ok_iff {ν : Type*} (l : List (Except Err ν)) (vs : List ν) :
    collect l = .ok vs ↔ l = vs.map .ok := by
  induction l generalizing vs with
  | nil => cases vs <;> simp [collect]
  | cons x t ih =>
    cases x with
    | error e => cases vs <;> simp [collect]
    | ok v =>
      unfold collect
      cases hc : collect t with
      | error e =>
        simp only [reduceCtorEq, false_iff]
        intro h
        cases vs with
        | nil => simp at h
        | cons w ws =>
          simp only [List.map_cons, List.cons.injEq] at h
          have := (ih ws).2 h.2
          rw [hc] at this; cases this
      | ok ws =>
        have := (ih ws).1 hc
        subst this
        cases vs with
        | nil => simp
        | cons w us =>
          simp only [Except.ok.injEq, List.cons.injEq, List.map_cons]
          constructor
          · rintro ⟨rfl, rfl⟩; exact ⟨rfl, rfl⟩
          · rintro ⟨h1, h2⟩
            refine ⟨h1, ?_⟩
            exact List.map_injective_iff.2 (fun a b hab => by cases hab; rfl) h2

section
variable [LinearOrder ι] [Field α] [LinearOrder α]

/-- the loop does not depend on the schedule -/
theorem parallel_eq (f : Kernel ι α) (sched : List Nat) (qrels run : List (Rows ι α))
    (hs : Schedule qrels.length sched) (hlen : run.length = qrels.length) :
    parallel f sched qrels run = collect (List.zipWith f qrels run) := by
  unfold parallel
  rw [if_neg (by omega), prange_eq _ _ _ (by rw [List.length_replicate]; exact hs),
    List.length_replicate]
  congr 1
  apply List.ext_getElem?
  intro i
  by_cases hi : i < qrels.length
  · rw [List.getElem?_map, List.getElem?_range hi, List.getElem?_zipWith,
      List.getElem?_eq_getElem hi, List.getElem?_eq_getElem (show i < run.length by omega)]
    simp only [Option.map_some, List.getElem?_eq_getElem hi, Option.getD_some,
      List.getElem?_eq_getElem (show i < run.length by omega)]
  · rw [List.getElem?_eq_none (by simp; omega), List.getElem?_eq_none (by simp; omega)]

theorem scoreAll_sched (F : Fn α) (other : Str → Except Err α) (sched sched' : Nat → List Nat)
    (ql rl : List (Rows ι α)) (h : ∀ i, Schedule ql.length (sched i))
    (h' : ∀ i, Schedule ql.length (sched' i)) (hlen : rl.length = ql.length)
    (ms : List (Str × Nat)) (acc : Dict Str (List (Num α))) :
    scoreAll F other sched ql rl ms acc = scoreAll F other sched' ql rl ms acc := by
  induction ms generalizing acc with
  | nil => rfl
  | cons m t ih =>
    obtain ⟨m, i⟩ := m
    unfold scoreAll
    cases metricOf (ι := ι) F other m with
    | error e => rfl
    | ok f =>
      simp only
      rw [parallel_eq f (sched i) ql rl (h i) hlen, parallel_eq f (sched' i) ql rl (h' i) hlen]
      cases collect (List.zipWith f ql rl) with
      | error e => rfl
      | ok s => exact ih _

/-- what a successful run of the metric loop has computed -/
theorem scoreAll_ok (F : Fn α) (other : Str → Except Err α) (sched : Nat → List Nat)
    (ql rl : List (Rows ι α)) (h : ∀ i, Schedule ql.length (sched i)) (hlen : rl.length = ql.length)
    (ms : List (Str × Nat)) (acc d : Dict Str (List (Num α)))
    (hd : scoreAll F other sched ql rl ms acc = .ok d)
    (hacc : ∀ m scores, acc.get? m = some scores →
      ∃ f, metricOf F other m = .ok f ∧ collect (List.zipWith f ql rl) = .ok scores)
    (hnd : NodupKeys acc) :
    NodupKeys d ∧
    (∀ m scores, d.get? m = some scores →
      ∃ f, metricOf F other m = .ok f ∧ collect (List.zipWith f ql rl) = .ok scores) ∧
    (∀ m, m ∈ d.keys ↔ m ∈ acc.keys ∨ m ∈ ms.map Prod.fst) := by
  induction ms generalizing acc with
  | nil =>
    simp only [scoreAll, Except.ok.injEq] at hd
    subst hd
    exact ⟨hnd, hacc, fun m => by simp⟩
  | cons p t ih =>
    obtain ⟨m, i⟩ := p
    unfold scoreAll at hd
    cases hm : metricOf (ι := ι) F other m with
    | error e => rw [hm] at hd; cases hd
    | ok f =>
      rw [hm] at hd
      simp only at hd
      rw [parallel_eq f (sched i) ql rl (h i) hlen] at hd
      cases hc : collect (List.zipWith f ql rl) with
      | error e => rw [hc] at hd; cases hd
      | ok s =>
        rw [hc] at hd
        simp only at hd
        obtain ⟨h1, h2, h3⟩ := ih (acc.set m s) hd (by
          intro m' scores hg
          rw [get?_set] at hg
          by_cases hmm : m = m'
          · rw [if_pos hmm] at hg
            cases hg
            exact ⟨f, hmm ▸ hm, hc⟩
          · rw [if_neg hmm] at hg
            exact hacc m' scores hg) (hnd.set m s)
        refine ⟨h1, h2, fun m' => ?_⟩
        rw [h3, mem_keys_set]
        simp only [List.map_cons, List.mem_cons]
        tauto

/-- the loop succeeds if every metric string is valid and no kernel raises -/
theorem scoreAll_succeeds (F : Fn α) (other : Str → Except Err α) (sched : Nat → List Nat)
    (ql rl : List (Rows ι α)) (h : ∀ i, Schedule ql.length (sched i)) (hlen : rl.length = ql.length)
    (ms : List (Str × Nat)) (acc : Dict Str (List (Num α)))
    (hok : ∀ m ∈ ms.map Prod.fst, ∃ f scores, metricOf F other m = .ok f ∧
      collect (List.zipWith f ql rl) = .ok scores) :
    ∃ d, scoreAll F other sched ql rl ms acc = .ok d := by
  induction ms generalizing acc with
  | nil => exact ⟨acc, rfl⟩
  | cons p t ih =>
    obtain ⟨m, i⟩ := p
    obtain ⟨f, scores, hf, hc⟩ := hok m (by simp)
    unfold scoreAll
    rw [hf]
    simp only
    rw [parallel_eq f (sched i) ql rl (h i) hlen, hc]
    exact ih _ (fun m hm => hok m (by simp only [List.map_cons, List.mem_cons]; exact .inr hm))

end

/-! ### saving -/

section
variable [LinearOrder κ] [Field α]

theorem saveOne_store (F : Fn α) (b : Bool) (r : RunObj κ δ α) (m : Str) (s : List (Num α)) :
    (saveOne F b r m s).store = r.store := rfl

/-- saved score of query `q` for metric string `m` -/
def RunObj.saved (r : RunObj κ δ α) (m : Str) (q : κ) : Option (Num α) :=
  (r.scores.get? m).bind (fun d => d.get? q)

theorem saved_saveOne (F : Fn α) (b : Bool) (r : RunObj κ δ α) (m : Str) (s : List (Num α))
    (m' : Str) (q : κ) (hnd : r.store.data.keys.Nodup) (hlen : s.length = r.store.data.length) :
    (saveOne F b r m s).saved m' q =
      if m' = m ∧ q ∈ r.store.data.keys then s[r.store.data.keys.idxOf q]? else r.saved m' q := by
  unfold RunObj.saved saveOne
  simp only
  by_cases hq : r.store.data.keys = []
  · rw [if_pos hq, if_neg (by rintro ⟨-, hm⟩; rw [hq] at hm; simp at hm)]
  · rw [if_neg hq, get?_set]
    by_cases hm : m = m'
    · subst hm
      rw [if_pos rfl, Option.bind_some, get?_foldl_set]
      by_cases hmem : q ∈ r.store.data.keys
      · rw [if_pos ⟨rfl, hmem⟩]
        have hlt : r.store.data.keys.idxOf q < r.store.data.keys.length := List.idxOf_lt_length_iff.2 hmem
        have hz : (r.store.data.keys.zip s)[r.store.data.keys.idxOf q]? =
            some (q, s[r.store.data.keys.idxOf q]'(by rw [hlen]; simpa using hlt)) := by
          rw [List.getElem?_eq_getElem (by simp [hlen] at hlt ⊢; exact hlt)]
          simp
        have hzip : ∀ p ∈ r.store.data.keys.zip s, p.1 = q →
            p = (q, s[r.store.data.keys.idxOf q]'(by rw [hlen]; simpa using hlt)) := by
          intro p hp hpq
          obtain ⟨i, hi, hpi⟩ := List.mem_iff_getElem.1 hp
          have hi' : i < r.store.data.keys.length := by simp at hi; simpa using hi.1
          have h1 : r.store.data.keys[i] = q := by
            rw [← hpq, ← hpi]; simp
          have h2 : i = r.store.data.keys.idxOf q := by
            rw [← h1, List.Nodup.idxOf_getElem hnd]
          subst h2
          rw [← hpi]; simp
        cases hf : (r.store.data.keys.zip s).reverse.find? (fun p => p.1 = q) with
        | none =>
          exfalso
          rw [List.find?_eq_none] at hf
          exact hf _ (List.mem_reverse.2 (List.mem_of_getElem? hz)) (by simp)
        | some p =>
          have hp1 := List.find?_some hf
          have hp2 := List.mem_reverse.1 (List.mem_of_find?_eq_some hf)
          rw [hzip p hp2 (by simpa using hp1)]
          simp
      · rw [if_neg (fun h => hmem h.2)]
        have hf : (r.store.data.keys.zip s).reverse.find? (fun p => p.1 = q) = none := by
          rw [List.find?_eq_none]
          intro p hp
          have := (List.of_mem_zip (List.mem_reverse.1 hp)).1
          simp only [decide_eq_true_eq]
          rintro rfl; exact hmem this
        rw [hf]
        cases r.scores.get? m <;> rfl
    · rw [if_neg hm, if_neg (fun h => hm h.1.symm)]

theorem fold_store (F : Fn α) (b : Bool) (d : Dict Str (List (Num α))) (r : RunObj κ δ α) :
    (d.foldl (fun r p => saveOne F b r p.1 p.2) r).store = r.store := by
  induction d generalizing r with
  | nil => rfl
  | cons p t ih => rw [List.foldl_cons, ih]; rfl

theorem saved_fold (F : Fn α) (b : Bool) (d : Dict Str (List (Num α))) (hd : NodupKeys d)
    (r : RunObj κ δ α) (hnd : r.store.data.keys.Nodup)
    (hlen : ∀ p ∈ d, p.2.length = r.store.data.length) (m : Str) (q : κ) :
    (d.foldl (fun r p => saveOne F b r p.1 p.2) r).saved m q =
      if q ∈ r.store.data.keys then
        match d.get? m with
        | some s => s[r.store.data.keys.idxOf q]?
        | none => r.saved m q
      else r.saved m q := by
  induction d generalizing r with
  | nil => simp
  | cons p t ih =>
    rw [nodupKeys_cons] at hd
    rw [List.foldl_cons, ih hd.2 (saveOne F b r p.1 p.2) hnd (fun x hx => hlen x (List.mem_cons_of_mem _ hx))]
    rw [saveOne_store]
    rw [saved_saveOne F b r p.1 p.2 m q hnd (hlen p List.mem_cons_self)]
    rw [get?_cons]
    by_cases hq : q ∈ r.store.data.keys
    · rw [if_pos hq, if_pos hq]
      by_cases hm : p.1 = m
      · subst hm
        have : Dict.get? t p.1 = none := get?_eq_none.2 hd.1
        rw [this, if_pos rfl, if_pos ⟨rfl, hq⟩]
      · rw [if_neg hm, if_neg (fun h => hm h.1.symm)]
    · rw [if_neg hq, if_neg hq, if_neg (fun h => hq h.2)]

theorem mean_fold (F : Fn α) (b : Bool) (d : Dict Str (List (Num α))) (hd : NodupKeys d)
    (r : RunObj κ δ α) (m : Str) :
    (d.foldl (fun r p => saveOne F b r p.1 p.2) r).meanScores.get? m =
      match d.get? m with
      | some s => some (mean s)
      | none => r.meanScores.get? m := by
  induction d generalizing r with
  | nil => rfl
  | cons p t ih =>
    rw [nodupKeys_cons] at hd
    rw [List.foldl_cons, ih hd.2, get?_cons]
    have hs : (saveOne F b r p.1 p.2).meanScores.get? m =
        if p.1 = m then some (mean p.2) else r.meanScores.get? m := by
      unfold saveOne; simp only; rw [get?_set]
    by_cases hm : p.1 = m
    · subst hm
      rw [get?_eq_none.2 hd.1, if_pos rfl, hs, if_pos rfl]
    · rw [if_neg hm, hs, if_neg hm]

end
end Ranx.Eval
