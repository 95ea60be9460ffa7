import Verif.Props.EvaluateCongr
import Verif.Props.Norm

/-!
# Property C105: evaluating a normalized run
-/

set_option linter.unusedSectionVars false

namespace Ranx
open Dict Store Eval Metrics Py Norm
variable {κ δ ι : Type*}
variable [LinearOrder κ] [DecidableEq δ] [LinearOrder ι]

/-- a run that does not claim to be sorted can be evaluated -/
theorem usable_unsorted {β : Type*} [LE β] [Neg β] (S : ArgSort β) (s : Store κ δ β) (hw : Store.Wf s.data)
    (hf : s.sorted = false) : Spec.Usable S s := by
  refine ⟨s, [], ⟨s.data, hw.1, hw.2, .inl ?_⟩, rfl, by simp [Store.exec]⟩
  rw [← hf]

/-- Specification: the normalizations min-max, max, sum and zmuv. -/
inductive Spec.OrderNorm : (Results δ ℝ → Results δ ℝ) → Prop
  | minMax : Spec.OrderNorm (minMax false)
  | max : Spec.OrderNorm maxNorm
  | sum : Spec.OrderNorm sumNorm
  | zmuv : Spec.OrderNorm zmuv

theorem orderNorm_same {norm : Results δ ℝ → Results δ ℝ} (hn : Spec.OrderNorm norm) (r : Results δ ℝ)
    (h : NodupKeys r) : Spec.SameOrder r (norm r) ∧ (norm r).keys = r.keys := by
  obtain ⟨h1, h2, h3, -⟩ := C40_order r h
  cases hn with
  | minMax => exact ⟨h1, C39_keeps_docs _ (.minMax _) r h⟩
  | max => exact ⟨h2, C39_keeps_docs _ .max r h⟩
  | sum => exact ⟨h3, C39_keeps_docs _ .sum r h⟩
  | zmuv => exact ⟨C40_order_zmuv r h, C39_keeps_docs _ .zmuv r h⟩

/-- the content of a normalized run ranks like the run -/
theorem normRun_sameRanking (norm : Results δ ℝ → Results δ ℝ) (s : Store κ δ ℝ) (hw : Store.Wf s.data)
    (sched : List Nat) (hs : Schedule s.data.length sched)
    (hn : ∀ r, (∃ q, s.data.get? q = some r) → (norm r).keys = r.keys ∧
      ∀ d e a b a' b', r.get? d = some a → r.get? e = some b → (norm r).get? d = some a' → (norm r).get? e = some b' →
        a < b → a' < b')
    (htie : ∀ q d d' v, (Spec.content s).read q d = some v → (Spec.content s).read q d' = some v → d = d') (q : κ) :
    Spec.SameRanking (Spec.content s) (Spec.content (normRun norm sched s)) q := by
  have hg := (C39_per_query norm s hw sched hs).2 q
  cases hq : s.data.get? q with
  | none =>
    rw [hq] at hg
    have e1 : ∀ d, (Spec.content s).read q d = none := fun d => by
      unfold Spec.Content.read Spec.content; rw [hq]; rfl
    have e2 : ∀ d, (Spec.content (normRun norm sched s)).read q d = none := fun d => by
      unfold Spec.Content.read Spec.content; rw [hg]; rfl
    refine ⟨fun d => by rw [e1, e2], htie q, ?_⟩
    intro d d' v v' w w' h1
    rw [e1] at h1; cases h1
  | some r =>
    rw [hq] at hg
    have e1 : ∀ d, (Spec.content s).read q d = r.get? d := fun d => by
      unfold Spec.Content.read Spec.content; rw [hq]; rfl
    have e2 : ∀ d, (Spec.content (normRun norm sched s)).read q d = (norm r).get? d := fun d => by
      unfold Spec.Content.read Spec.content; rw [hg]; rfl
    obtain ⟨hk, ho⟩ := hn r ⟨q, hq⟩
    refine ⟨fun d => ?_, htie q, ?_⟩
    · rw [e1, e2, Bool.eq_iff_iff]
      exact (get?_isSome.trans (by rw [hk])).trans get?_isSome.symm
    · intro d d' v v' w w' h1 h2 h3 h4
      rw [e1] at h1 h2
      rw [e2] at h3 h4
      exact ho d d' v v' w w' h1 h2 h3 h4

theorem normRun_wf (norm : Results δ ℝ → Results δ ℝ) (s : Store κ δ ℝ) (hw : Store.Wf s.data)
    (sched : List Nat) (hs : Schedule s.data.length sched)
    (hn : ∀ r, NodupKeys r → NodupKeys (norm r)) : Store.Wf (normRun norm sched s).data := by
  unfold normRun
  rw [normParallel_eq norm sched s.data hw.1 hs]
  refine ⟨?_, ?_⟩
  · unfold NodupKeys; rw [List.map_map]; exact hw.1
  · intro p hp
    obtain ⟨p', hp', rfl⟩ := List.mem_map.1 hp
    exact hn _ (hw.2 _ hp')

/-- **C105**: min-max, max, sum and zmuv normalization of a tie-free run change no metric: `evaluate` returns for the
normalized run exactly what it returns for the run itself (means, scores or exception), for every list of metrics and
every option. -/
theorem C105_normalized (F : Fn ℝ) (other : Str → Except Err ℝ) (SQ : ArgSort Int) (SR SR' : ArgSort ℝ) (hash : δ → ι)
    (sched : Nat → List Nat) (o : Opts) (s : Store κ δ Int) (r : RunObj κ δ ℝ) (ms : List Str) (hs : Spec.Usable SQ s)
    (hr : Spec.Usable SR r.store) (norm : Results δ ℝ → Results δ ℝ) (hn : Spec.OrderNorm norm) (sched' : List Nat)
    (hsched : Schedule r.store.data.length sched')
    (htie : ∀ q d d' v, (Spec.content r.store).read q d = some v → (Spec.content r.store).read q d' = some v → d = d') :
    (evaluate F other SQ SR' hash sched o (.obj s) (.obj ⟨normRun norm sched' r.store, [], [], []⟩) ms).2 =
      (evaluate F other SQ SR hash sched o (.obj s) (.obj r) ms).2 := by
  have hw := hr.ok.1
  refine (evaluate_same_order F other SQ SR SR' hash sched o s r ⟨normRun norm sched' r.store, [], [], []⟩ ms hs hr
    (usable_unsorted SR' _ (normRun_wf norm r.store hw sched' hsched (fun x hx => ?_)) rfl) (.inr ?_) ?_).symm
  · rw [nodupKeys_iff, (orderNorm_same hn x hx).2]; exact hx
  · intro q
    rw [(C39_per_query norm r.store hw sched' hsched).1]
  · intro q _
    apply normRun_sameRanking norm r.store hw sched' hsched _ htie
    rintro x ⟨q', hq'⟩
    obtain ⟨h1, h2⟩ := orderNorm_same hn x (hw.get? hq')
    refine ⟨h2, ?_⟩
    intro d e a b a' b' ha hb ha' hb' hlt
    obtain ⟨a'', b'', e1, e2, e3, -⟩ := h1 d e a b ha hb
    rw [ha'] at e1
    rw [hb'] at e2
    cases e1
    cases e2
    exact e3.2 hlt

/-- **C105** (rank): the same for rank normalization of a run that is sorted. -/
theorem C105_rank (F : Fn ℝ) (other : Str → Except Err ℝ) (SQ : ArgSort Int) (SR SR' : ArgSort ℝ) (hash : δ → ι)
    (sched : Nat → List Nat) (o : Opts) (s : Store κ δ Int) (r : RunObj κ δ ℝ) (ms : List Str) (hs : Spec.Usable SQ s)
    (hr : Spec.Usable SR r.store) (hsorted : r.store.sorted = true) (sched' : List Nat)
    (hsched : Schedule r.store.data.length sched')
    (htie : ∀ q d d' v, (Spec.content r.store).read q d = some v → (Spec.content r.store).read q d' = some v → d = d') :
    (evaluate F other SQ SR' hash sched o (.obj s) (.obj ⟨normRun rankNorm sched' r.store, [], [], []⟩) ms).2 =
      (evaluate F other SQ SR hash sched o (.obj s) (.obj r) ms).2 := by
  have hw := hr.ok.1
  have hkeys : ∀ x : Results δ ℝ, NodupKeys x → (rankNorm x).keys = x.keys := fun x hx => C39_keeps_docs _ .rank x hx
  refine (evaluate_same_order F other SQ SR SR' hash sched o s r ⟨normRun rankNorm sched' r.store, [], [], []⟩ ms hs hr
    (usable_unsorted SR' _ (normRun_wf rankNorm r.store hw sched' hsched (fun x hx => ?_)) rfl) (.inr ?_) ?_).symm
  · rw [nodupKeys_iff, hkeys x hx]; exact hx
  · intro q
    rw [(C39_per_query rankNorm r.store hw sched' hsched).1]
  · intro q _
    apply normRun_sameRanking rankNorm r.store hw sched' hsched _ htie
    rintro x ⟨q', hq'⟩
    have hx := hw.get? hq'
    refine ⟨hkeys x hx, ?_⟩
    have hrk : x.Pairwise (fun a b => b.2 ≤ a.2) := by
      obtain ⟨-, -, -, rk, -, -⟩ := ensureSorted_facts SR r.store hr.ok.1 hr.ok.2
      have he : r.store.ensureSorted SR = r.store := by unfold ensureSorted; rw [if_pos hsorted]
      rw [he] at rk
      exact List.pairwise_map.1 (rk _ (mem_of_get? hq'))
    intro d e a b a' b' ha hb ha' hb' hlt
    obtain ⟨i, hi⟩ := List.mem_iff_getElem?.1 (mem_of_get? ha)
    obtain ⟨j, hj⟩ := List.mem_iff_getElem?.1 (mem_of_get? hb)
    have hji : j < i := by
      by_contra hc
      rcases Nat.lt_or_eq_of_le (Nat.le_of_not_lt hc) with h | h
      · obtain ⟨hi', ei⟩ := List.getElem?_eq_some_iff.1 hi
        obtain ⟨hj', ej⟩ := List.getElem?_eq_some_iff.1 hj
        have := List.pairwise_iff_getElem.1 hrk i j hi' hj' h
        rw [ei, ej] at this
        exact absurd hlt (not_lt.2 this)
      · subst h
        rw [hi] at hj
        cases hj
        exact lt_irrefl _ hlt
    have hval : ∀ (i : Nat) (d : δ) (a : ℝ), x[i]? = some (d, a) → (rankNorm x).get? d = some (1 - (i : ℝ) / (x.length : ℝ)) := by
      intro i d a hid
      refine (C45_rank_norm x hx i d ?_).1
      unfold Dict.keys
      rw [List.getElem?_map, hid]; rfl
    rw [hval i d a hi] at ha'
    rw [hval j e b hj] at hb'
    cases ha'
    cases hb'
    have hpos : (0 : ℝ) < (x.length : ℝ) := by
      obtain ⟨hi', -⟩ := List.getElem?_eq_some_iff.1 hi
      exact_mod_cast (Nat.lt_of_le_of_lt (Nat.zero_le i) hi')
    have : (j : ℝ) / (x.length : ℝ) < (i : ℝ) / (x.length : ℝ) :=
      div_lt_div_of_pos_right (by exact_mod_cast hji) hpos
    linarith

/-- non-vacuity of `C105`: a tie-free run that can be normalized and evaluated -/
example : ∃ r : RunObj Nat Nat ℝ, Spec.Usable (ArgSort.stable ℝ) r.store ∧ Schedule r.store.data.length [0] ∧
    (∀ q d d' v, (Spec.content r.store).read q d = some v → (Spec.content r.store).read q d' = some v → d = d') ∧
    (Spec.content r.store).read 1 10 = some 3 ∧ (Spec.content r.store).read 1 11 = some 2 := by
  have e10 : Dict.get? [(10, (3 : ℝ)), (11, 2)] 10 = some 3 := rfl
  have e11 : Dict.get? [(10, (3 : ℝ)), (11, 2)] 11 = some 2 := rfl
  refine ⟨⟨⟨[(1, [(10, 3), (11, 2)])], false⟩, [], [], []⟩, usable_unsorted _ _ ⟨?_, ?_⟩ rfl, ?_, ?_, e10, e11⟩
  · unfold NodupKeys; simp
  · intro p hp
    rw [List.mem_singleton] at hp
    subst hp
    unfold NodupKeys; simp
  · exact List.Perm.refl _
  · intro q d d' v h1 h2
    have mem : ∀ x, (Spec.content (⟨[(1, [(10, (3 : ℝ)), (11, 2)])], false⟩ : Store Nat Nat ℝ)).read q x = some v →
        (x = 10 ∧ v = 3) ∨ (x = 11 ∧ v = 2) := by
      intro x hx
      simp only [Spec.Content.read, Spec.content] at hx
      obtain ⟨y, hy, hyx⟩ := Option.bind_eq_some_iff.1 hx
      obtain ⟨z, hz, rfl⟩ := Option.map_eq_some_iff.1 hy
      have h1 := mem_of_get? hz
      rw [List.mem_singleton, Prod.mk.injEq] at h1
      obtain ⟨-, rfl⟩ := h1
      have h2 := mem_of_get? hyx
      simp only [List.mem_cons, Prod.mk.injEq, List.not_mem_nil, or_false] at h2
      exact h2
    rcases mem d h1 with ⟨rfl, hv⟩ | ⟨rfl, hv⟩ <;> rcases mem d' h2 with ⟨rfl, hv'⟩ | ⟨rfl, hv'⟩ <;>
      first | rfl | (exfalso; rw [hv] at hv'; norm_num at hv')

/-- The side condition of `C105_rank` is needed: on a run that has not been sorted rank normalization scores docs by
the order in which they were stored, and precision@1 drops from 1 to 0. -/
theorem C105_rank_unsorted :
    let r : RunObj Nat Nat ℚ := ⟨⟨[(1, [(10, 1), (11, 2)])], false⟩, [], [], []⟩
    let s : Store Nat Nat Int := ⟨[(1, [(11, 1)])], true⟩
    (evaluate ratFn (fun _ => .error .valueError) (ArgSort.stable Int) (ArgSort.stable ℚ) (id : Nat → Nat) (fun _ => [0])
      {} (.obj s) (.obj r) ["precision@1".toList]).2 = .ok (.single (.mean (.val 1))) ∧
    (evaluate ratFn (fun _ => .error .valueError) (ArgSort.stable Int) (ArgSort.stable ℚ) (id : Nat → Nat) (fun _ => [0])
      {} (.obj s) (.obj ⟨normRun rankNorm [0] r.store, [], [], []⟩) ["precision@1".toList]).2 =
      .ok (.single (.mean (.val 0))) := by
  constructor <;> decide +kernel

end Ranx
