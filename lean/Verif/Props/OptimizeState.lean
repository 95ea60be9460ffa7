import Verif.Model.OptimizeState
import Verif.Props.Optimize2
import Verif.Props.FuseContent

/-!
# C100: what `optimize_fusion` does to the caller's objects, and calling it again
-/

set_option linter.unusedSectionVars false

namespace Ranx
open Dict Store Metrics Eval Fuse Train Opt

section
variable {κ δ ι : Type} [LinearOrder κ] [DecidableEq δ] [LinearOrder ι]

/-- `s'` is `s`, or `s` after sorting it -/
def Opt.Touched {β : Type} [LE β] [Neg β] (S : ArgSort β) (s s' : Store κ δ β) : Prop :=
  s' = s ∨ s' = s.ensureSorted S

theorem Opt.Touched.refl {β : Type} [LE β] [Neg β] (S : ArgSort β) (s : Store κ δ β) : Touched S s s := .inl rfl

theorem Opt.Touched.sorted {β : Type} [LE β] [Neg β] (S : ArgSort β) (s : Store κ δ β) :
    Touched S s (s.ensureSorted S) := .inr rfl

theorem Opt.Touched.ensure {β : Type} [LE β] [Neg β] {S : ArgSort β} {s s' : Store κ δ β} (h : Touched S s s') :
    s'.ensureSorted S = s.ensureSorted S := by
  rcases h with rfl | rfl
  · rfl
  · exact ensureSorted_idem S s

theorem Opt.Touched.trans {β : Type} [LE β] [Neg β] {S : ArgSort β} {a b c : Store κ δ β} (h : Touched S a b)
    (h' : Touched S b c) : Touched S a c := by
  rcases h' with rfl | rfl
  · exact h
  · exact .inr h.ensure

theorem Opt.Touched.forall₂_refl {β : Type} [LE β] [Neg β] (S : ArgSort β) (l : List (Store κ δ β)) :
    List.Forall₂ (Touched S) l l := List.forall₂_same.2 (fun s _ => .refl S s)

theorem Opt.Touched.map_ensure {β : Type} [LE β] [Neg β] {S : ArgSort β} {l l' : List (Store κ δ β)}
    (h : List.Forall₂ (Touched S) l l') : l'.map (·.ensureSorted S) = l.map (·.ensureSorted S) := by
  induction h with
  | nil => rfl
  | cons h _ ih => rw [List.map_cons, List.map_cons, h.ensure, ih]

theorem Opt.Touched.forall₂_trans {β : Type} [LE β] [Neg β] {S : ArgSort β} {a b c : List (Store κ δ β)}
    (h : List.Forall₂ (Touched S) a b) (h' : List.Forall₂ (Touched S) b c) : List.Forall₂ (Touched S) a c := by
  induction h generalizing c with
  | nil => exact h'
  | cons h _ ih => cases h' with
    | cons h1 h2 => exact .cons (h.trans h1) (ih h2)

/-! ### Training -/

theorem Opt.trainEach_touched {γ : Type} (SQ : ArgSort Int) (SR : ArgSort ℝ) (hash : δ → ι)
    (f : List (List ℝ) → Except Err γ) (runs : List (Store κ δ ℝ)) :
    ∀ (sched : Nat → List Nat) (s : Store κ δ Int),
      Touched SQ s (trainEach SQ SR hash sched f s runs).1 ∧
      List.Forall₂ (Touched SR) runs (trainEach SQ SR hash sched f s runs).2.1 := by
  induction runs with
  | nil => intro sched s; exact ⟨.inl rfl, .nil⟩
  | cons r rs ih =>
    intro sched s
    unfold trainEach Store.toTypedList
    simp only
    cases bindArg (hitLists (sched 0) (Store.rows hash (fun z : Int => (z : ℝ)) (s.ensureSorted SQ).data)
        (Store.rows hash id (r.ensureSorted SR).data)) f with
    | error e => exact ⟨.inr rfl, .cons (.inr rfl) (Touched.forall₂_refl SR rs)⟩
    | ok t =>
      obtain ⟨a, b⟩ := ih (fun i => sched (i + 1)) (s.ensureSorted SQ)
      exact ⟨(Touched.sorted SQ s).trans a, .cons (.inr rfl) b⟩

theorem Opt.probfuseTrain_touched (SQ : ArgSort Int) (SR : ArgSort ℝ) (hash : δ → ι) (runs : List (Store κ δ ℝ))
    (sched : Nat → List Nat) (rowSched : List Nat) (n : Nat) (s : Store κ δ Int) :
    Touched SQ s (probfuseTrain SQ SR hash sched rowSched n s runs).1 ∧
    List.Forall₂ (Touched SR) runs (probfuseTrain SQ SR hash sched rowSched n s runs).2.1 :=
  trainEach_touched SQ SR hash Except.ok runs sched s

theorem Opt.segfuseTrain_touched (SQ : ArgSort Int) (SR : ArgSort ℝ) (hash : δ → ι) (runs : List (Store κ δ ℝ))
    (sched : Nat → List Nat) (s : Store κ δ Int) :
    Touched SQ s (segfuseTrain SQ SR hash sched s runs).1 ∧
    List.Forall₂ (Touched SR) runs (segfuseTrain SQ SR hash sched s runs).2.1 :=
  trainEach_touched SQ SR hash Except.ok runs sched s

/-- the state after a loop -/
theorem Opt.optLoop_inv {σ τ ρ : Type} (eval : σ → τ → σ × Except Err (ρ × Num ℝ)) (label : τ → Py.Str)
    (Inv : σ → Prop) (h : ∀ s t, Inv s → Inv (eval s t).1) (s : σ) (hs : Inv s) (acc : Search ρ ℝ)
    (ts : List τ) : Inv (optLoop eval label s acc ts).1 := by
  induction ts generalizing s acc with
  | nil => exact hs
  | cons t ts ih =>
    have h1 := h s t hs
    unfold optLoop
    rcases he : eval s t with ⟨s', out⟩
    rw [he] at h1
    cases out with
    | error e => exact h1
    | ok p =>
      obtain ⟨a, b⟩ := p
      exact ih s' h1 _

/-- two runs of a loop from states in an invariant under which the trials do not depend on the state -/
theorem Opt.optLoop_same {σ τ ρ : Type} (eval : σ → τ → σ × Except Err (ρ × Num ℝ)) (label : τ → Py.Str)
    (Inv : σ → Prop) (s : σ) (hs : Inv s) (h : ∀ s' t, Inv s' → (eval s' t).2 = (eval s t).2 ∧ Inv (eval s' t).1)
    (s' : σ) (hs' : Inv s') (acc : Search ρ ℝ) (ts : List τ) :
    (optLoop eval label s' acc ts).2 = (optLoop eval label s acc ts).2 := by
  rw [optLoop_pure eval label Inv (fun t => (eval s t).2) (fun s t hi => ⟨(h s t hi).1, fun _ => (h s t hi).2⟩)
      s' hs' acc ts,
    optLoop_pure eval label Inv (fun t => (eval s t).2) (fun s t hi => ⟨(h s t hi).1, fun _ => (h s t hi).2⟩)
      s hs acc ts]

/-! ### Evaluating -/

theorem Opt.evalRun_touched (V : EvalEnv δ ι) (S : ArgSort ℝ) (metric : Py.Str) (s : Store κ δ Int)
    (fused : Store κ δ ℝ) : Touched V.SQ s (evalRun V S metric s fused).1 := by
  have hcomp : ∀ s : Store κ δ Int, comparable S { save := false } s ⟨fused, [], [], []⟩ = fused := fun _ => rfl
  unfold evalRun
  simp only [evaluate_obj, hcomp]
  by_cases hb : Eval.sameKeys s.data.keys fused.data.keys = true
  · simp only [if_pos hb]
    cases scoreAll V.F V.other V.sched (Store.rows V.hash (fun z : Int => (z : ℝ)) (s.ensureSorted V.SQ).data)
      (Store.rows V.hash id (fused.ensureSorted S).data) [metric].zipIdx [] with
    | error e => exact .inr rfl
    | ok d => exact .inr rfl
  · simp only [if_neg hb]
    exact .inl rfl

theorem Opt.plainTrial_touched (E : Env δ) (V : EvalEnv δ ι) (metric : Py.Str) (m : Method)
    (runs : List (Dict κ (Norm.Results δ ℝ))) (s : Store κ δ Int) (config : Kwargs) :
    Touched V.SQ s (plainTrial E V metric m runs s config).1 := by
  unfold plainTrial
  cases m.call E config runs with
  | error e => exact .inl rfl
  | ok fused => exact evalRun_touched V E.S metric s fused

theorem Opt.slidefuseTrial_touched (E : Env δ) (V : EvalEnv δ ι) (metric : Py.Str) (probs : List (List ℝ))
    (runs : List (Store κ δ ℝ)) (s : Store κ δ Int) (w : Nat) :
    Touched V.SQ s (slidefuseTrial E V metric probs runs s w).1 := by
  unfold slidefuseTrial
  cases Fuse.slidefuse E.S E.sched E.scheds probs w (runs.map (fun r => r.data)) with
  | error e => exact .inl rfl
  | ok fused => exact evalRun_touched V E.S metric s fused

theorem Opt.probfuseTrial_touched (E : Env δ) (V : EvalEnv δ ι) (rowSched : List Nat) (metric : Py.Str)
    (st : Store κ δ Int × List (Store κ δ ℝ)) (n : Nat) :
    Touched V.SQ st.1 (probfuseTrial E V rowSched metric st n).1.1 ∧
    List.Forall₂ (Touched E.S) st.2 (probfuseTrial E V rowSched metric st n).1.2 := by
  obtain ⟨a, b⟩ := probfuseTrain_touched V.SQ E.S V.hash st.2 V.sched rowSched n st.1
  unfold probfuseTrial
  simp only
  cases (probfuseTrain V.SQ E.S V.hash V.sched rowSched n st.1 st.2).2.2 with
  | error e => exact ⟨a, b⟩
  | ok probs =>
    simp only
    cases Fuse.probfuse E.S E.sched E.scheds probs
      ((probfuseTrain V.SQ E.S V.hash V.sched rowSched n st.1 st.2).2.1.map (fun r => r.data)) with
    | error e => exact ⟨a, b⟩
    | ok fused => exact ⟨a.trans (evalRun_touched V E.S metric _ fused), b⟩

/-! ### The runs are only sorted and given results for "map" -/

/-- the results saved in a run for every metric but "map" are those of `r` -/
structure Opt.SameResults (r r' : RunObj κ δ ℝ) : Prop where
  scores : ∀ m, m ≠ "map".toList → r'.scores.get? m = r.scores.get? m
  mean : ∀ m, m ≠ "map".toList → r'.meanScores.get? m = r.meanScores.get? m
  std : r'.stdScores = r.stdScores

theorem Opt.evalMap (V : EvalEnv δ ι) (S : ArgSort ℝ) (sched : Nat → List Nat) (s : Store κ δ Int)
    (r : RunObj κ δ ℝ) :
    let a := evaluate V.F V.other V.SQ S V.hash sched {} (.obj s) (.obj r) ["map".toList]
    Touched V.SQ s (qrelsAfter s a.1) ∧ Touched S r.store (runAfter r a.1).store ∧
      SameResults r (runAfter r a.1) ∧ a.1.qrels = .obj (qrelsAfter s a.1) := by
  have hcomp : comparable S {} s r = r.store := rfl
  intro a
  have ha : a = evaluate V.F V.other V.SQ S V.hash sched {} (.obj s) (.obj r) ["map".toList] := rfl
  rw [evaluate_obj, hcomp] at ha
  by_cases hb : Eval.sameKeys s.data.keys r.store.data.keys = true
  · rw [if_pos hb] at ha
    cases hd : scoreAll V.F V.other sched (Store.rows V.hash (fun z : Int => (z : ℝ)) (s.ensureSorted V.SQ).data)
      (Store.rows V.hash id (r.store.ensureSorted S).data) ["map".toList].zipIdx [] with
    | error e =>
      rw [hd] at ha
      rw [ha]
      exact ⟨.inr rfl, .inr rfl, ⟨fun _ _ => rfl, fun _ _ => rfl, rfl⟩, rfl⟩
    | ok d =>
      have hdk : ∃ v, d = [("map".toList, v)] := by
        have hz : ["map".toList].zipIdx = [("map".toList, 0)] := rfl
        rw [hz] at hd
        unfold scoreAll at hd
        cases hm : metricOf (ι := ι) V.F V.other "map".toList with
        | error e => rw [hm] at hd; cases hd
        | ok f =>
          rw [hm] at hd
          simp only at hd
          cases hp : parallel f (sched 0) (Store.rows V.hash (fun z : Int => (z : ℝ)) (s.ensureSorted V.SQ).data)
              (Store.rows V.hash id (r.store.ensureSorted S).data) with
          | error e => rw [hp] at hd; cases hd
          | ok v =>
            rw [hp] at hd
            exact ⟨v, (Except.ok.inj hd).symm⟩
      obtain ⟨v, rfl⟩ := hdk
      rw [hd] at ha
      rw [ha]
      have hsave : saveAll V.F {} [("map".toList, v)] { r with store := r.store.ensureSorted S } =
          saveOne V.F false { r with store := r.store.ensureSorted S } "map".toList v := rfl
      refine ⟨.inr rfl, .inr ?_, ⟨?_, ?_, ?_⟩, rfl⟩
      · simp only [hsave]; rfl
      · intro m hm
        simp only [hsave]
        show (saveOne V.F false { r with store := r.store.ensureSorted S } "map".toList v).scores.get? m = _
        unfold saveOne
        simp only
        by_cases hq : (r.store.ensureSorted S).data.keys = []
        · rw [if_pos hq]
        · rw [if_neg hq, get?_set_ne _ _ (Ne.symm hm)]
      · intro m hm
        simp only [hsave]
        show (saveOne V.F false { r with store := r.store.ensureSorted S } "map".toList v).meanScores.get? m = _
        unfold saveOne
        exact get?_set_ne _ _ (Ne.symm hm)
      · simp only [hsave]; rfl
  · rw [if_neg hb] at ha
    rw [ha]
    exact ⟨.inl rfl, .inl rfl, ⟨fun _ _ => rfl, fun _ _ => rfl, rfl⟩, rfl⟩

theorem Opt.mapTrain_touched (V : EvalEnv δ ι) (S : ArgSort ℝ) (runs : List (RunObj κ δ ℝ)) :
    ∀ (sched : Nat → List Nat) (s : Store κ δ Int),
      Touched V.SQ s (mapTrain V S sched s runs).1 ∧
      List.Forall₂ (fun r r' => Touched S r.store r'.store ∧ SameResults r r') runs
        (mapTrain V S sched s runs).2.1 := by
  induction runs with
  | nil => intro sched s; exact ⟨.inl rfl, .nil⟩
  | cons r rs ih =>
    intro sched s
    have hsame : List.Forall₂ (fun r r' : RunObj κ δ ℝ => Touched S r.store r'.store ∧ SameResults r r') rs rs :=
      List.forall₂_same.2 (fun r _ => ⟨.inl rfl, ⟨fun _ _ => rfl, fun _ _ => rfl, rfl⟩⟩)
    obtain ⟨h1, h2, h3, -⟩ := evalMap V S (fun _ => sched 0) s r
    unfold mapTrain
    rcases he : evaluate V.F V.other V.SQ S V.hash (fun _ => sched 0) {} (.obj s) (.obj r) ["map".toList] with ⟨a, out⟩
    rw [he] at h1 h2 h3
    cases out with
    | error e => exact ⟨h1, .cons ⟨h2, h3⟩ hsame⟩
    | ok v =>
      obtain ⟨b1, b2⟩ := ih (fun i => sched (i + 1)) (qrelsAfter s a)
      exact ⟨h1.trans b1, .cons ⟨h2, h3⟩ b2⟩

/-- the same ranking when sorted, and the same queries -/
def Opt.Eqv {β : Type} [LE β] [Neg β] (S : ArgSort β) (a b : Store κ δ β) : Prop :=
  a.ensureSorted S = b.ensureSorted S ∧ ∀ q, q ∈ a.data.keys ↔ q ∈ b.data.keys

theorem Opt.Eqv.symm {β : Type} [LE β] [Neg β] {S : ArgSort β} {a b : Store κ δ β} (h : Eqv S a b) : Eqv S b a :=
  ⟨h.1.symm, fun q => (h.2 q).symm⟩

theorem Opt.Eqv.trans {β : Type} [LE β] [Neg β] {S : ArgSort β} {a b c : Store κ δ β} (h : Eqv S a b)
    (h' : Eqv S b c) : Eqv S a c :=
  ⟨h.1.trans h'.1, fun q => (h.2 q).trans (h'.2 q)⟩

theorem Opt.Touched.mem_keys {β : Type} [LE β] [Neg β] {S : ArgSort β} {s s' : Store κ δ β}
    (h : Touched S s s') (hw : NodupKeys s.data) (q : κ) : q ∈ s'.data.keys ↔ q ∈ s.data.keys := by
  rcases h with rfl | rfl
  · rfl
  · unfold Store.ensureSorted
    by_cases hs : s.sorted
    · rw [if_pos hs]
    · rw [if_neg hs]; exact mem_keys_sortAll S hw q

theorem Opt.Touched.eqv {β : Type} [LE β] [Neg β] {S : ArgSort β} {s s' : Store κ δ β} (h : Touched S s s')
    (hw : NodupKeys s.data) : Eqv S s' s := ⟨h.ensure, h.mem_keys hw⟩

theorem Opt.sameKeys_congr {a a' b b' : List κ} (ha : ∀ q, q ∈ a ↔ q ∈ a') (hb : ∀ q, q ∈ b ↔ q ∈ b') :
    Eval.sameKeys a b = Eval.sameKeys a' b' := by
  rw [Bool.eq_iff_iff]
  unfold Eval.sameKeys
  simp only [Bool.and_eq_true, List.all_eq_true, List.contains_iff_mem]
  constructor
  · rintro ⟨h1, h2⟩
    exact ⟨fun q hq => (hb q).1 (h1 q ((ha q).2 hq)), fun q hq => (ha q).1 (h2 q ((hb q).2 hq))⟩
  · rintro ⟨h1, h2⟩
    exact ⟨fun q hq => (hb q).2 (h1 q ((ha q).1 hq)), fun q hq => (ha q).2 (h2 q ((hb q).1 hq))⟩

theorem Opt.evalMap_same (V : EvalEnv δ ι) (S : ArgSort ℝ) (sched : Nat → List Nat) (s s' : Store κ δ Int)
    (r r' : RunObj κ δ ℝ) (hs : Eqv V.SQ s s') (hr : Eqv S r.store r'.store) :
    (evaluate V.F V.other V.SQ S V.hash sched {} (.obj s) (.obj r) ["map".toList]).2 =
      (evaluate V.F V.other V.SQ S V.hash sched {} (.obj s') (.obj r') ["map".toList]).2 := by
  have hcomp : ∀ (s : Store κ δ Int) (r : RunObj κ δ ℝ), comparable S {} s r = r.store := fun _ _ => rfl
  simp only [evaluate_obj, hcomp, sameKeys_congr hs.2 hr.2, hs.1, hr.1]
  by_cases hb : Eval.sameKeys s'.data.keys r'.store.data.keys = true
  · simp only [if_pos hb]
    cases scoreAll V.F V.other sched (Store.rows V.hash (fun z : Int => (z : ℝ)) (s'.ensureSorted V.SQ).data)
      (Store.rows V.hash id (r'.store.ensureSorted S).data) ["map".toList].zipIdx [] <;> rfl
  · simp only [if_neg hb]

theorem Opt.mapTrain_same (V : EvalEnv δ ι) (S : ArgSort ℝ) (runs runs' : List (RunObj κ δ ℝ))
    (hr : List.Forall₂ (fun r r' => Eqv S r.store r'.store) runs runs') :
    ∀ (sched : Nat → List Nat) (s s' : Store κ δ Int), Eqv V.SQ s s' → NodupKeys s.data → NodupKeys s'.data →
      (mapTrain V S sched s runs).2.2 = (mapTrain V S sched s' runs').2.2 := by
  induction hr with
  | nil => intro sched s s' _ _ _; rfl
  | @cons r r' rs rs' h _ ih =>
    intro sched s s' hs hn hn'
    have he := evalMap_same V S (fun _ => sched 0) s s' r r' hs h
    obtain ⟨a1, -, -, -⟩ := evalMap V S (fun _ => sched 0) s r
    obtain ⟨b1, -, -, -⟩ := evalMap V S (fun _ => sched 0) s' r'
    unfold mapTrain
    rcases hx : evaluate V.F V.other V.SQ S V.hash (fun _ => sched 0) {} (.obj s) (.obj r) ["map".toList] with ⟨a, out⟩
    rcases hy : evaluate V.F V.other V.SQ S V.hash (fun _ => sched 0) {} (.obj s') (.obj r') ["map".toList] with
      ⟨b, out'⟩
    rw [hx] at he a1
    rw [hy] at he b1
    simp only at he a1 b1
    subst he
    cases out with
    | error e => rfl
    | ok v =>
      have hnd : ∀ (s s' : Store κ δ Int), Touched V.SQ s s' → NodupKeys s.data → NodupKeys s'.data := by
        intro s s' ht hn
        rcases ht with rfl | rfl
        · exact hn
        · unfold Store.ensureSorted
          by_cases hf : s.sorted
          · rw [if_pos hf]; exact hn
          · rw [if_neg hf]
            have := keys_sortAll_sorted V.SQ hn
            exact this.imp (fun h => h.ne)
      simp only
      rw [ih (fun i => sched (i + 1)) (qrelsAfter s a) (qrelsAfter s' b)
        (((a1.eqv hn).trans hs).trans (b1.eqv hn').symm) (hnd _ _ a1 hn) (hnd _ _ b1 hn')]

/-- `mapTrain` returns what `mapfuseTrain` returns -/
theorem Opt.mapTrain_result (V : EvalEnv δ ι) (S : ArgSort ℝ) (runs : List (RunObj κ δ ℝ)) :
    ∀ (sched : Nat → List Nat) (s : Store κ δ Int),
      (mapTrain V S sched s runs).2.2 = mapfuseTrain V.F V.other V.SQ S V.hash sched (.obj s)
        (runs.map (fun r => ⟨r.store, [], [], []⟩)) := by
  induction runs with
  | nil => intro sched s; rfl
  | cons r rs ih =>
    intro sched s
    have hr : Eqv S r.store r.store := ⟨rfl, fun _ => Iff.rfl⟩
    have he := evalMap_same V S (fun _ => sched 0) s s r ⟨r.store, [], [], []⟩ ⟨rfl, fun _ => Iff.rfl⟩ hr
    have ha : qrelsAfter s (evaluate V.F V.other V.SQ S V.hash (fun _ => sched 0) {} (.obj s) (.obj r)
        ["map".toList]).1 = qrelsAfter s (evaluate V.F V.other V.SQ S V.hash (fun _ => sched 0) {} (.obj s)
          (.obj ⟨r.store, [], [], []⟩) ["map".toList]).1 := by
      have hcomp : ∀ (s : Store κ δ Int) (r : RunObj κ δ ℝ), comparable S {} s r = r.store := fun _ _ => rfl
      simp only [evaluate_obj, hcomp]
      by_cases hb : Eval.sameKeys s.data.keys r.store.data.keys = true
      · simp only [if_pos hb]
        cases scoreAll V.F V.other (fun _ => sched 0)
          (Store.rows V.hash (fun z : Int => (z : ℝ)) (s.ensureSorted V.SQ).data)
          (Store.rows V.hash id (r.store.ensureSorted S).data) ["map".toList].zipIdx [] <;> rfl
      · simp only [if_neg hb]
        rfl
    obtain ⟨-, -, -, hobj⟩ := evalMap V S (fun _ => sched 0) s ⟨r.store, [], [], []⟩
    rw [List.map_cons]
    unfold mapTrain mapfuseTrain
    rcases hx : evaluate V.F V.other V.SQ S V.hash (fun _ => sched 0) {} (.obj s) (.obj r) ["map".toList] with ⟨a, out⟩
    rcases hy : evaluate V.F V.other V.SQ S V.hash (fun _ => sched 0) {} (.obj s) (.obj ⟨r.store, [], [], []⟩)
      ["map".toList] with ⟨b, out'⟩
    rw [hx] at he ha
    rw [hy] at he ha hobj
    simp only at he ha hobj
    subst he
    cases out with
    | error e => rfl
    | ok v =>
      simp only [hobj, ha]
      rw [ih]

/-! ### The searches -/

theorem Opt.withStores_touched {S : ArgSort ℝ} {runs : List (RunObj κ δ ℝ)} {ss : List (Store κ δ ℝ)}
    (h : List.Forall₂ (Touched S) (runs.map (fun r => r.store)) ss) :
    List.Forall₂ (fun r r' => Touched S r.store r'.store ∧ r'.scores = r.scores ∧ r'.meanScores = r.meanScores ∧
      r'.stdScores = r.stdScores) runs (withStores runs ss) := by
  induction runs generalizing ss with
  | nil => cases h; exact .nil
  | cons r rs ih =>
    rw [List.map_cons] at h
    cases h with
    | cons h1 h2 => exact .cons ⟨h1, rfl, rfl, rfl⟩ (ih h2)

theorem Opt.runOptimizerS_result (E : Env δ) (V : EvalEnv δ ι) (rowSched : List Nat) (rnd : ℚ → ℚ)
    (str : Kwargs → Py.Str) (strNat : Nat → Py.Str) (metric : Py.Str) (space : Space) (s : Store κ δ Int)
    (runs : List (RunObj κ δ ℝ)) (o : Optimizer) :
    (runOptimizerS E V rowSched rnd str strNat metric space s runs o).result =
      runOptimizer E V rowSched rnd str strNat metric space s (runs.map (fun r => r.store)) o := by
  cases o with
  | plain m =>
    simp only [runOptimizerS, runOptimizer, List.length_map, List.map_map]
    cases configs rnd runs.length m space <;> rfl
  | probfuse =>
    cases space with
    | ints lo hi step =>
      by_cases hs : step = 1
      · subst hs
        simp only [runOptimizerS, runOptimizer]
        cases intGrid lo hi 1 <;> rfl
      · have h1 : runOptimizerS E V rowSched rnd str strNat metric (.ints lo hi step) s runs .probfuse =
            ⟨s, runs, .error .typeError⟩ := by
          simp only [runOptimizerS]
          split
          · rename_i h; cases h; exact absurd rfl hs
          · rfl
        have h2 : runOptimizer E V rowSched rnd str strNat metric (.ints lo hi step) s (runs.map (fun r => r.store))
            .probfuse = .error .typeError := by
          simp only [runOptimizer]
          split
          · rename_i h; cases h; exact absurd rfl hs
          · rfl
        rw [h1, h2]
    | weights _ _ => rfl
    | floats _ _ _ _ => rfl
    | nothing => rfl
  | slidefuse =>
    cases space with
    | ints lo hi step =>
      by_cases hs : step = 1
      · subst hs
        simp only [runOptimizerS, runOptimizer]
        cases intGrid lo hi 1 with
        | error e => rfl
        | ok ws =>
          simp only [bindArg]
          cases (posfuseTrain V.SQ E.S V.hash V.sched s (runs.map (fun r => r.store))).2.2 <;> rfl
      · have h1 : runOptimizerS E V rowSched rnd str strNat metric (.ints lo hi step) s runs .slidefuse =
            ⟨s, runs, .error .typeError⟩ := by
          simp only [runOptimizerS]
          split
          · rename_i h; cases h; exact absurd rfl hs
          · rfl
        have h2 : runOptimizer E V rowSched rnd str strNat metric (.ints lo hi step) s (runs.map (fun r => r.store))
            .slidefuse = .error .typeError := by
          simp only [runOptimizer]
          split
          · rename_i h; cases h; exact absurd rfl hs
          · rfl
        rw [h1, h2]
    | weights _ _ => rfl
    | floats _ _ _ _ => rfl
    | nothing => rfl
  | trainBayes => rfl
  | trainMap =>
    simp only [runOptimizerS, runOptimizer]
    rw [mapTrain_result, List.map_map]
    rfl
  | trainPos => rfl
  | trainSeg => rfl

/-- the objects after a search -/
theorem Opt.runOptimizerS_touched (E : Env δ) (V : EvalEnv δ ι) (rowSched : List Nat) (rnd : ℚ → ℚ)
    (str : Kwargs → Py.Str) (strNat : Nat → Py.Str) (metric : Py.Str) (space : Space) (s : Store κ δ Int)
    (runs : List (RunObj κ δ ℝ)) (o : Optimizer) :
    Touched V.SQ s (runOptimizerS E V rowSched rnd str strNat metric space s runs o).qrels ∧
    List.Forall₂ (fun r r' => Touched E.S r.store r'.store ∧ SameResults r r' ∧
      (o ≠ .trainMap → r'.scores = r.scores ∧ r'.meanScores = r.meanScores ∧ r'.stdScores = r.stdScores)) runs
      (runOptimizerS E V rowSched rnd str strNat metric space s runs o).runs ∧
    (∀ m, o = .plain m → (runOptimizerS E V rowSched rnd str strNat metric space s runs o).runs = runs) := by
  have hself : List.Forall₂ (fun r r' : RunObj κ δ ℝ => Touched E.S r.store r'.store ∧ SameResults r r' ∧
      (o ≠ .trainMap → r'.scores = r.scores ∧ r'.meanScores = r.meanScores ∧ r'.stdScores = r.stdScores)) runs runs :=
    List.forall₂_same.2 (fun r _ => ⟨.inl rfl, ⟨fun _ _ => rfl, fun _ _ => rfl, rfl⟩, fun _ => ⟨rfl, rfl, rfl⟩⟩)
  have hws : ∀ ss, List.Forall₂ (Touched E.S) (runs.map (fun r => r.store)) ss →
      List.Forall₂ (fun r r' : RunObj κ δ ℝ => Touched E.S r.store r'.store ∧ SameResults r r' ∧
      (o ≠ .trainMap → r'.scores = r.scores ∧ r'.meanScores = r.meanScores ∧ r'.stdScores = r.stdScores)) runs
        (withStores runs ss) := by
    intro ss h
    refine (withStores_touched h).imp ?_
    rintro r r' ⟨a, b, c, d⟩
    exact ⟨a, ⟨fun m _ => by rw [b], fun m _ => by rw [c], d⟩, fun _ => ⟨b, c, d⟩⟩
  have hpl : ∀ {o' : Optimizer} {P : Prop}, (∀ m, o' ≠ .plain m) → ∀ m, o' = .plain m → P :=
    fun h m hm => absurd hm (h m)
  cases o with
  | plain m =>
    simp only [runOptimizerS]
    cases configs rnd runs.length m space with
    | error e => exact ⟨.inl rfl, hself, fun _ _ => rfl⟩
    | ok ts =>
      exact ⟨optLoop_inv _ str (Touched V.SQ s)
        (fun s' t h => h.trans (plainTrial_touched E V metric m _ s' t)) s (.inl rfl) _ ts, hself, fun _ _ => rfl⟩
  | probfuse =>
    refine ⟨?_, ?_, hpl (fun m h => by cases h)⟩ <;>
    · simp only [runOptimizerS]
      split
      · rename_i lo hi
        cases intGrid lo hi 1 with
        | error e => first | exact .inl rfl | exact hself
        | ok ns =>
          have := optLoop_inv (probfuseTrial E V rowSched metric) strNat
            (fun st => Touched V.SQ s st.1 ∧ List.Forall₂ (Touched E.S) (runs.map (fun r => r.store)) st.2)
            (fun st n h => by
              obtain ⟨a, b⟩ := probfuseTrial_touched E V rowSched metric st n
              exact ⟨h.1.trans a, Touched.forall₂_trans h.2 b⟩)
            (s, runs.map (fun r => r.store)) ⟨.inl rfl, Touched.forall₂_refl E.S _⟩ ⟨none, 0, []⟩ (counts ns)
          first | exact this.1 | exact hws _ this.2
      · first | exact .inl rfl | exact hself
  | slidefuse =>
    refine ⟨?_, ?_, hpl (fun m h => by cases h)⟩ <;>
    · simp only [runOptimizerS]
      split
      · rename_i lo hi
        cases intGrid lo hi 1 with
        | error e => first | exact .inl rfl | exact hself
        | ok ws =>
          obtain ⟨a, b⟩ := trainEach_touched V.SQ E.S V.hash estimateProbs (runs.map (fun r => r.store)) V.sched s
          change Touched V.SQ s (posfuseTrain V.SQ E.S V.hash V.sched s (runs.map (fun r => r.store))).1 at a
          simp only
          cases (posfuseTrain V.SQ E.S V.hash V.sched s (runs.map (fun r => r.store))).2.2 with
          | error e => first | exact a | exact hws _ b
          | ok probs =>
            have := optLoop_inv (slidefuseTrial E V metric probs
                (posfuseTrain V.SQ E.S V.hash V.sched s (runs.map (fun r : RunObj κ δ ℝ => r.store))).2.1) strNat (Touched V.SQ s)
              (fun s' w h => h.trans (slidefuseTrial_touched E V metric probs _ s' w))
              (posfuseTrain V.SQ E.S V.hash V.sched s (runs.map (fun r : RunObj κ δ ℝ => r.store))).1 a ⟨none, 0, []⟩ (counts ws)
            first | exact this | exact hws _ b
      · first | exact .inl rfl | exact hself
  | trainBayes =>
    obtain ⟨a, b⟩ := trainEach_touched V.SQ E.S V.hash (fun hls => .ok (logOdds hls)) (runs.map (fun r => r.store))
      V.sched s
    exact ⟨a, hws _ b, hpl (fun m h => by cases h)⟩
  | trainMap =>
    obtain ⟨a, b⟩ := mapTrain_touched V E.S runs V.sched s
    exact ⟨a, b.imp (fun r r' h => ⟨h.1, h.2, fun h => absurd rfl h⟩), hpl (fun m h => by cases h)⟩
  | trainPos =>
    obtain ⟨a, b⟩ := trainEach_touched V.SQ E.S V.hash estimateProbs (runs.map (fun r => r.store)) V.sched s
    exact ⟨a, hws _ b, hpl (fun m h => by cases h)⟩
  | trainSeg =>
    obtain ⟨a, b⟩ := segfuseTrain_touched V.SQ E.S V.hash (runs.map (fun r => r.store)) V.sched s
    exact ⟨a, hws _ b, hpl (fun m h => by cases h)⟩

/-- a search returns the same from touched objects -/
theorem Opt.runOptimizer_same (E : Env δ) (V : EvalEnv δ ι) (rowSched : List Nat) (rnd : ℚ → ℚ)
    (str : Kwargs → Py.Str) (strNat : Nat → Py.Str) (metric : Py.Str) (space : Space) (s s' : Store κ δ Int)
    (hq : Spec.Usable V.SQ s) (hs : Touched V.SQ s s') (runs runs' : List (Store κ δ ℝ))
    (hw : runs' = runs ∨ ∀ r ∈ runs, NodupKeys r.data) (hr : List.Forall₂ (Touched E.S) runs runs') (o : Optimizer)
    (hp : ∀ m, o = .plain m → runs' = runs) :
    runOptimizer E V rowSched rnd str strNat metric space s' runs' o =
      runOptimizer E V rowSched rnd str strNat metric space s runs o := by
  have hens := Touched.map_ensure hr
  have hinv : ∀ (s1 : Store κ δ Int) (fused : Store κ δ ℝ), Touched V.SQ s s1 →
      (evalRun V E.S metric s1 fused).2 = (evalRun V E.S metric s fused).2 :=
    fun s1 fused h => (evalRun_inv V E.S metric s hq fused s1 h).1
  cases o with
  | plain m =>
    obtain rfl := hp m rfl
    simp only [runOptimizer]
    cases configs rnd runs'.length m space with
    | error e => rfl
    | ok ts =>
      simp only [bindArg]
      rw [optLoop_same (plainTrial E V metric m (runs'.map (fun r => r.data))) str (Touched V.SQ s) s (.inl rfl)
        (fun s1 t h => ⟨?_, h.trans (plainTrial_touched E V metric m _ s1 t)⟩) s' hs _ ts]
      unfold plainTrial
      cases m.call E t (runs'.map (fun r => r.data)) with
      | error e => rfl
      | ok fused => simp only [hinv s1 fused h]
  | probfuse =>
    simp only [runOptimizer]
    split
    · rename_i lo hi
      cases intGrid lo hi 1 with
      | error e => rfl
      | ok ns =>
        simp only [bindArg]
        rw [optLoop_same (probfuseTrial E V rowSched metric) strNat
          (fun st => Touched V.SQ s st.1 ∧ List.Forall₂ (Touched E.S) runs st.2) (s, runs)
          ⟨.inl rfl, Touched.forall₂_refl E.S _⟩ ?_ (s', runs') ⟨hs, hr⟩ _ (counts ns)]
        rintro ⟨s1, runs1⟩ n ⟨h1, h2⟩
        obtain ⟨a, b⟩ := probfuseTrial_touched E V rowSched metric (s1, runs1) n
        refine ⟨?_, h1.trans a, Touched.forall₂_trans h2 b⟩
        simp only at h1 h2
        obtain ⟨c, d⟩ := probfuseTrain_sorted V.SQ E.S V.hash runs V.sched rowSched n s s1 runs1 h1.ensure
          (Touched.map_ensure h2)
        obtain ⟨-, d'⟩ := probfuseTrain_sorted V.SQ E.S V.hash runs V.sched rowSched n s s runs rfl rfl
        have ht := (probfuseTrain_touched V.SQ E.S V.hash runs V.sched rowSched n s).1
        have ht1 := h1.trans (probfuseTrain_touched V.SQ E.S V.hash runs1 V.sched rowSched n s1).1
        unfold probfuseTrial
        simp only
        rw [c]
        cases hts : (probfuseTrain V.SQ E.S V.hash V.sched rowSched n s runs).2.2 with
        | error e => rfl
        | ok probs =>
          simp only [(d probs hts).1, (d' probs hts).1]
          cases Fuse.probfuse E.S E.sched E.scheds probs
            ((runs.map (fun r => r.ensureSorted E.S)).map (fun r => r.data)) with
          | error e => rfl
          | ok fused => simp only [hinv _ fused ht1, hinv _ fused ht]
    · rfl
  | slidefuse =>
    simp only [runOptimizer]
    split
    · rename_i lo hi
      cases intGrid lo hi 1 with
      | error e => rfl
      | ok ws =>
        simp only [bindArg]
        obtain ⟨c, d⟩ := trainEach_sorted V.SQ E.S V.hash estimateProbs runs V.sched s s' runs' hs.ensure hens
        obtain ⟨-, d'⟩ := trainEach_sorted V.SQ E.S V.hash estimateProbs runs V.sched s s runs rfl rfl
        have ht := (trainEach_touched V.SQ E.S V.hash estimateProbs runs V.sched s).1
        have ht1 := hs.trans (trainEach_touched V.SQ E.S V.hash estimateProbs runs' V.sched s').1
        unfold posfuseTrain
        rw [c]
        cases hts : (trainEach V.SQ E.S V.hash V.sched estimateProbs s runs).2.2 with
        | error e => rfl
        | ok probs =>
          simp only [(d probs hts).1, (d' probs hts).1]
          have hstep : ∀ (s0 s1 : Store κ δ Int) (w : Nat), Touched V.SQ s s0 → Touched V.SQ s s1 →
              (slidefuseTrial E V metric probs (runs.map (·.ensureSorted E.S)) s1 w).2 =
                (slidefuseTrial E V metric probs (runs.map (·.ensureSorted E.S)) s0 w).2 := by
            intro s0 s1 w h0 h1
            unfold slidefuseTrial
            cases Fuse.slidefuse E.S E.sched E.scheds probs w
              ((runs.map (·.ensureSorted E.S)).map (fun r => r.data)) with
            | error e => rfl
            | ok fused => simp only [hinv _ fused h0, hinv _ fused h1]
          rw [optLoop_same (slidefuseTrial E V metric probs (runs.map (·.ensureSorted E.S))) strNat
            (Touched V.SQ s) _ ht (fun s1 w h => ⟨hstep _ s1 w ht h,
              h.trans (slidefuseTrial_touched E V metric probs _ s1 w)⟩) _ ht1 _ (counts ws)]
    · rfl
  | trainBayes =>
    have := (trainEach_sorted V.SQ E.S V.hash (fun hls => .ok (logOdds hls)) runs V.sched s s' runs' hs.ensure hens).1
    simp only [runOptimizer, bayesfuseTrain]
    rw [this]
  | trainMap =>
    have hsn : NodupKeys s.data := hq.ok.1.1
    have hfre : ∀ l : List (Store κ δ ℝ), (l.map (fun r => (⟨r, [], [], []⟩ : RunObj κ δ ℝ))) =
        (l.map fresh).map (fun r => (⟨r.store, [], [], []⟩ : RunObj κ δ ℝ)) := by
      intro l; rw [List.map_map]; rfl
    simp only [runOptimizer]
    rw [hfre runs', hfre runs, ← mapTrain_result, ← mapTrain_result]
    have hs'n : NodupKeys s'.data := by
      rcases hs with rfl | rfl
      · exact hsn
      · exact (usable_ensureSorted V.SQ s hq).ok.1.1
    have hrel : List.Forall₂ (fun r r' : RunObj κ δ ℝ => Eqv E.S r.store r'.store) (runs'.map fresh)
        (runs.map fresh) := by
      rw [List.forall₂_map_left_iff, List.forall₂_map_right_iff]
      clear hens hinv hp hfre
      rcases hw with rfl | hw
      · exact List.forall₂_same.2 (fun r _ => ⟨rfl, fun _ => Iff.rfl⟩)
      induction hr with
      | nil => exact .nil
      | @cons a b l l' h _ ih =>
        exact .cons (h.eqv (hw a (by simp))) (ih (fun r hr => hw r (by simp [hr])))
    rw [mapTrain_same V E.S _ _ hrel V.sched s' s (hs.eqv hsn) hs'n hsn]
  | trainPos =>
    have := (trainEach_sorted V.SQ E.S V.hash estimateProbs runs V.sched s s' runs' hs.ensure hens).1
    simp only [runOptimizer, posfuseTrain]
    rw [this]
  | trainSeg =>
    have := (trainEach_sorted V.SQ E.S V.hash Except.ok runs V.sched s s' runs' hs.ensure hens).1
    simp only [runOptimizer, segfuseTrain]
    rw [this]

/-! ### The call -/

/-- **C100** (the outcome): with the state of the caller's objects tracked, the call returns or raises what
`optimizeFusion` (C65) says; results saved in the runs do not matter. -/
theorem C100_result (E : Env δ) (V : EvalEnv δ ι) (rowSched : List Nat) (rnd : ℚ → ℚ)
    (str : Kwargs → Py.Str) (strNat : Nat → Py.Str) (norm : Option String) (method : String) (metric : Py.Str)
    (wantReport : Bool) (space : Space) (qrels : Store κ δ Int) (runs : List (RunObj κ δ ℝ)) :
    (optimizeFusionS E V rowSched rnd str strNat norm method metric wantReport space qrels runs).result =
      optimizeFusion E V rowSched rnd str strNat qrels (runs.map (fun r => r.store)) norm method metric wantReport
        space := by
  unfold optimizeFusionS optimizeFusion
  simp only
  split
  · rfl
  · split
    · split
      · cases hn : normalizeStores E norm (runs.map (fun r => r.store)) with
        | error e => rfl
        | ok rs =>
          simp only [bindArg]
          cases (if wantReport then hasHyperparams method else .ok ()) with
          | error e => rfl
          | ok u =>
            simp only
            cases optimizationSwitch method with
            | error e => rfl
            | ok o =>
              cases norm with
              | none =>
                simp only [normalizeStores, Except.ok.injEq] at hn
                subst hn
                exact runOptimizerS_result E V rowSched rnd str strNat metric space qrels runs o
              | some n =>
                simp only
                rw [runOptimizerS_result, List.map_map]
                congr 1
                exact List.map_id rs
      · rfl
    · rfl

/-- Specification: the methods whose parameters are trained on the runs' rankings -/
def Spec.trained : List String := ["probfuse", "slidefuse", "bayesfuse", "mapfuse", "posfuse", "segfuse"]

theorem Opt.switch_trained (method : String) (o : Optimizer) (h : optimizationSwitch method = .ok o) :
    (∃ m, o = .plain m) ∨ (method ∈ Spec.trained ∧ (o = .trainMap → method = "mapfuse")) := by
  unfold optimizationSwitch at h
  by_cases h1 : method = "logn_isr"
  · rw [if_pos h1] at h; cases h; exact .inl ⟨_, rfl⟩
  rw [if_neg h1] at h
  by_cases h1 : method = "gmnz"
  · rw [if_pos h1] at h; cases h; exact .inl ⟨_, rfl⟩
  rw [if_neg h1] at h
  by_cases h1 : method = "mixed"
  · rw [if_pos h1] at h; cases h; exact .inl ⟨_, rfl⟩
  rw [if_neg h1] at h
  by_cases h1 : method = "probfuse"
  · rw [if_pos h1] at h; cases h; subst h1; exact .inr ⟨by decide +kernel, fun h => by cases h⟩
  rw [if_neg h1] at h
  by_cases h1 : method = "rbc"
  · rw [if_pos h1] at h; cases h; exact .inl ⟨_, rfl⟩
  rw [if_neg h1] at h
  by_cases h1 : method = "rrf"
  · rw [if_pos h1] at h; cases h; exact .inl ⟨_, rfl⟩
  rw [if_neg h1] at h
  by_cases h1 : method = "slidefuse"
  · rw [if_pos h1] at h; cases h; subst h1; exact .inr ⟨by decide +kernel, fun h => by cases h⟩
  rw [if_neg h1] at h
  by_cases h1 : method = "w_bordafuse"
  · rw [if_pos h1] at h; cases h; exact .inl ⟨_, rfl⟩
  rw [if_neg h1] at h
  by_cases h1 : method = "w_condorcet"
  · rw [if_pos h1] at h; cases h; exact .inl ⟨_, rfl⟩
  rw [if_neg h1] at h
  by_cases h1 : method = "wmnz"
  · rw [if_pos h1] at h; cases h; exact .inl ⟨_, rfl⟩
  rw [if_neg h1] at h
  by_cases h1 : method = "wsum"
  · rw [if_pos h1] at h; cases h; exact .inl ⟨_, rfl⟩
  rw [if_neg h1] at h
  by_cases h1 : method = "bayesfuse"
  · rw [if_pos h1] at h; cases h; subst h1; exact .inr ⟨by decide +kernel, fun h => by cases h⟩
  rw [if_neg h1] at h
  by_cases h1 : method = "mapfuse"
  · subst h1; exact .inr ⟨by decide +kernel, fun _ => rfl⟩
  rw [if_neg h1] at h
  by_cases h1 : method = "posfuse"
  · rw [if_pos h1] at h; cases h; subst h1; exact .inr ⟨by decide +kernel, fun h => by cases h⟩
  rw [if_neg h1] at h
  by_cases h1 : method = "segfuse"
  · rw [if_pos h1] at h; cases h; subst h1; exact .inr ⟨by decide +kernel, fun h => by cases h⟩
  rw [if_neg h1] at h
  cases h

theorem Opt.switch_not_plain (method : String) (hm : method ∈ Spec.trained) (m : Method) :
    optimizationSwitch method ≠ .ok (.plain m) := by
  have key : ∀ s ∈ Spec.trained, ∀ m, optimizationSwitch s ≠ .ok (.plain m) := by
    have hf : ∀ s ∈ Spec.trained, (match optimizationSwitch s with | .ok (.plain _) => true | _ => false) = false := by
      decide +kernel
    intro s hs m h
    have := hf s hs
    rw [h] at this
    cases this
  exact key method hm m

/-- what a call may do to the objects -/
structure Opt.CallOk (E : Env δ) (V : EvalEnv δ ι) (norm : Option String) (method : String)
    (qrels : Store κ δ Int) (runs : List (RunObj κ δ ℝ)) (c : Called κ δ) : Prop where
  qrelsOk : Touched V.SQ qrels c.qrels
  runsOk : List.Forall₂ (fun r r' => Touched E.S r.store r'.store ∧ SameResults r r' ∧
      (method ≠ "mapfuse" → r'.scores = r.scores ∧ r'.meanScores = r.meanScores ∧ r'.stdScores = r.stdScores))
      runs c.runs
  fixed : norm ≠ none ∨ method ∉ Spec.trained → c.runs = runs

/-- the objects after the call -/
theorem Opt.optimizeFusionS_touched (E : Env δ) (V : EvalEnv δ ι) (rowSched : List Nat) (rnd : ℚ → ℚ)
    (str : Kwargs → Py.Str) (strNat : Nat → Py.Str) (norm : Option String) (method : String) (metric : Py.Str)
    (wantReport : Bool) (space : Space) (qrels : Store κ δ Int) (runs : List (RunObj κ δ ℝ)) :
    CallOk E V norm method qrels runs
      (optimizeFusionS E V rowSched rnd str strNat norm method metric wantReport space qrels runs) := by
  have hself : List.Forall₂ (fun r r' : RunObj κ δ ℝ => Touched E.S r.store r'.store ∧ SameResults r r' ∧
      (method ≠ "mapfuse" → r'.scores = r.scores ∧ r'.meanScores = r.meanScores ∧ r'.stdScores = r.stdScores))
      runs runs :=
    List.forall₂_same.2 (fun r _ => ⟨.inl rfl, ⟨fun _ _ => rfl, fun _ _ => rfl, rfl⟩, fun _ => ⟨rfl, rfl, rfl⟩⟩)
  have hstay : ∀ e, CallOk E V norm method qrels runs ⟨qrels, runs, .error e⟩ :=
    fun e => ⟨.inl rfl, hself, fun _ => rfl⟩
  unfold optimizeFusionS
  simp only
  split
  · exact hstay _
  · split
    · split
      · cases hn : normalizeStores E norm (runs.map (fun r => r.store)) with
        | error e => exact hstay _
        | ok rs =>
          simp only
          cases hh : (if wantReport then hasHyperparams method else .ok ()) with
          | error e => exact hstay _
          | ok u =>
            simp only
            cases ho : optimizationSwitch method with
            | error e => exact hstay _
            | ok o =>
              simp only
              rcases norm with _ | n
              · obtain ⟨h1, h2, h3⟩ := runOptimizerS_touched E V rowSched rnd str strNat metric space qrels runs o
                refine ⟨h1, h2.imp ?_, ?_⟩
                · rintro r r' ⟨a, b, d⟩
                  refine ⟨a, b, fun hm => d ?_⟩
                  rintro rfl
                  rcases switch_trained method _ ho with ⟨m, h⟩ | ⟨-, h⟩
                  · cases h
                  · exact hm (h rfl)
                · rintro (h | h)
                  · exact absurd rfl h
                  · rcases switch_trained method _ ho with ⟨m, rfl⟩ | ⟨h', -⟩
                    · exact h3 m rfl
                    · exact absurd h' h
              · obtain ⟨h1, -, -⟩ := runOptimizerS_touched E V rowSched rnd str strNat metric space qrels
                  (rs.map fresh) o
                exact ⟨h1, hself, fun _ => rfl⟩
      · exact hstay _
    · exact hstay _

theorem Opt.optimizeFusion_same (E : Env δ) (V : EvalEnv δ ι) (rowSched : List Nat) (rnd : ℚ → ℚ)
    (str : Kwargs → Py.Str) (strNat : Nat → Py.Str) (norm : Option String) (method : String) (metric : Py.Str)
    (wantReport : Bool) (space : Space) (qrels qrels' : Store κ δ Int) (hq : Spec.Usable V.SQ qrels)
    (hs : Touched V.SQ qrels qrels') (runs runs' : List (Store κ δ ℝ)) (hw : ∀ r ∈ runs, NodupKeys r.data)
    (hr : List.Forall₂ (Touched E.S) runs runs')
    (hp : runs' = runs ∨ norm = none ∧ ∀ m, optimizationSwitch method ≠ .ok (.plain m)) :
    optimizeFusion E V rowSched rnd str strNat qrels' runs' norm method metric wantReport space =
      optimizeFusion E V rowSched rnd str strNat qrels runs norm method metric wantReport space := by
  have hlen : runs'.length = runs.length := hr.length_eq.symm
  have hkeys : List.Forall₂ (fun r r' : Store κ δ ℝ => ∀ q, q ∈ r'.data.keys ↔ q ∈ r.data.keys) runs runs' := by
    clear hp hlen
    induction hr with
    | nil => exact .nil
    | @cons a b l l' h _ ih => exact .cons (h.mem_keys (hw a (by simp))) (ih (fun r hr => hw r (by simp [hr])))
  have hpair : pairwiseSameKeys runs' = pairwiseSameKeys runs := by
    rw [Bool.eq_iff_iff, pairwiseSameKeys_iff, pairwiseSameKeys_iff]
    constructor
    · intro h s hs' t ht q hq'
      obtain ⟨s', hs'', hse⟩ := forall₂_mem_left hkeys hs'
      obtain ⟨t', ht'', hte⟩ := forall₂_mem_left hkeys ht
      exact (hte q).1 (h s' hs'' t' ht'' q ((hse q).2 hq'))
    · intro h s hs' t ht q hq'
      obtain ⟨s', hs'', hse⟩ := forall₂_mem_right hkeys hs'
      obtain ⟨t', ht'', hte⟩ := forall₂_mem_right hkeys ht
      exact (hte q).2 (h s' hs'' t' ht'' q ((hse q).1 hq'))
  have hall : (runs'.all fun r => Eval.sameKeys r.data.keys qrels'.data.keys) =
      runs.all fun r => Eval.sameKeys r.data.keys qrels.data.keys := by
    have hqk := hs.mem_keys hq.ok.1.1
    clear hp hlen hpair hr hw
    induction hkeys with
    | nil => rfl
    | @cons a b l l' h _ ih => rw [List.all_cons, List.all_cons, ih, sameKeys_congr h hqk]
  unfold optimizeFusion
  rw [hlen, hpair, hall]
  split
  · rfl
  · split
    · split
      · rcases hp with rfl | ⟨rfl, hp⟩
        · cases normalizeStores E norm runs' with
          | error e => rfl
          | ok rs =>
            simp only [bindArg]
            cases (if wantReport then hasHyperparams method else .ok ()) with
            | error e => rfl
            | ok u =>
              simp only
              cases optimizationSwitch method with
              | error e => rfl
              | ok o =>
                exact runOptimizer_same E V rowSched rnd str strNat metric space qrels qrels' hq hs rs rs (.inl rfl)
                  (Touched.forall₂_refl E.S rs) o (fun _ _ => rfl)
        · simp only [normalizeStores, bindArg]
          cases (if wantReport then hasHyperparams method else .ok ()) with
          | error e => rfl
          | ok u =>
            simp only
            cases ho : optimizationSwitch method with
            | error e => rfl
            | ok o =>
              exact runOptimizer_same E V rowSched rnd str strNat metric space qrels qrels' hq hs runs runs' (.inr hw)
                hr o (fun m h => absurd (ho.trans (by rw [h])) (hp m))
      · rfl
    · rfl

/-! ### Histories of calls -/

/-- the arguments of a call besides `qrels` and `runs` -/
structure Spec.OptArgs where
  norm : Option String
  method : String
  metric : Py.Str
  wantReport : Bool
  space : Space

/-- one call with these arguments -/
noncomputable def Spec.optCall (E : Env δ) (V : EvalEnv δ ι) (rowSched : List Nat) (rnd : ℚ → ℚ)
    (str : Kwargs → Py.Str) (strNat : Nat → Py.Str) (a : Spec.OptArgs)
    (p : Store κ δ Int × List (RunObj κ δ ℝ)) : Called κ δ :=
  optimizeFusionS E V rowSched rnd str strNat a.norm a.method a.metric a.wantReport a.space p.1 p.2

/-- the objects after calls with these arguments, whether they returned or raised -/
noncomputable def Spec.afterCalls (E : Env δ) (V : EvalEnv δ ι) (rowSched : List Nat) (rnd : ℚ → ℚ)
    (str : Kwargs → Py.Str) (strNat : Nat → Py.Str) (p : Store κ δ Int × List (RunObj κ δ ℝ))
    (h : List Spec.OptArgs) : Store κ δ Int × List (RunObj κ δ ℝ) :=
  h.foldl (fun p a => ((Spec.optCall E V rowSched rnd str strNat a p).qrels,
    (Spec.optCall E V rowSched rnd str strNat a p).runs)) p

theorem Opt.SameResults.trans {a b c : RunObj κ δ ℝ} (h : SameResults a b) (h' : SameResults b c) :
    SameResults a c :=
  ⟨fun m hm => (h'.scores m hm).trans (h.scores m hm), fun m hm => (h'.mean m hm).trans (h.mean m hm),
    h'.std.trans h.std⟩

theorem Opt.afterCalls_touched (E : Env δ) (V : EvalEnv δ ι) (rowSched : List Nat) (rnd : ℚ → ℚ)
    (str : Kwargs → Py.Str) (strNat : Nat → Py.Str) (h : List Spec.OptArgs) :
    ∀ (qrels : Store κ δ Int) (runs : List (RunObj κ δ ℝ)),
      let p := Spec.afterCalls E V rowSched rnd str strNat (qrels, runs) h
      Touched V.SQ qrels p.1 ∧
      List.Forall₂ (fun r r' => Touched E.S r.store r'.store ∧ SameResults r r' ∧
        ((∀ a ∈ h, a.method ≠ "mapfuse") →
          r'.scores = r.scores ∧ r'.meanScores = r.meanScores ∧ r'.stdScores = r.stdScores)) runs p.2 ∧
      ((∀ a ∈ h, a.norm ≠ none ∨ a.method ∉ Spec.trained) → p.2 = runs) := by
  induction h with
  | nil =>
    intro qrels runs
    exact ⟨.inl rfl, List.forall₂_same.2
      (fun r _ => ⟨.inl rfl, ⟨fun _ _ => rfl, fun _ _ => rfl, rfl⟩, fun _ => ⟨rfl, rfl, rfl⟩⟩), fun _ => rfl⟩
  | cons a h ih =>
    intro qrels runs
    have h1 := optimizeFusionS_touched E V rowSched rnd str strNat a.norm a.method a.metric a.wantReport a.space
      qrels runs
    obtain ⟨k1, k2, k3⟩ := ih (Spec.optCall E V rowSched rnd str strNat a (qrels, runs)).qrels
      (Spec.optCall E V rowSched rnd str strNat a (qrels, runs)).runs
    refine ⟨h1.qrelsOk.trans k1, ?_, ?_⟩
    · have h2 := h1.runsOk
      have key : ∀ (l l' l'' : List (RunObj κ δ ℝ)),
          List.Forall₂ (fun r r' => Touched E.S r.store r'.store ∧ SameResults r r' ∧
            (a.method ≠ "mapfuse" → r'.scores = r.scores ∧ r'.meanScores = r.meanScores ∧
              r'.stdScores = r.stdScores)) l l' →
          List.Forall₂ (fun r r' => Touched E.S r.store r'.store ∧ SameResults r r' ∧
            ((∀ a ∈ h, a.method ≠ "mapfuse") →
              r'.scores = r.scores ∧ r'.meanScores = r.meanScores ∧ r'.stdScores = r.stdScores)) l' l'' →
          List.Forall₂ (fun r r' => Touched E.S r.store r'.store ∧ SameResults r r' ∧
            ((∀ b ∈ a :: h, b.method ≠ "mapfuse") →
              r'.scores = r.scores ∧ r'.meanScores = r.meanScores ∧ r'.stdScores = r.stdScores)) l l'' := by
        intro l l' l'' x
        induction x generalizing l'' with
        | nil => intro y; cases y; exact .nil
        | cons u _ ih' =>
          intro y
          cases y with
          | cons v w =>
            refine .cons ⟨u.1.trans v.1, u.2.1.trans v.2.1, fun hm => ?_⟩ (ih' _ w)
            obtain ⟨a1, a2, a3⟩ := u.2.2 (hm a (by simp))
            obtain ⟨b1, b2, b3⟩ := v.2.2 (fun b hb => hm b (by simp [hb]))
            exact ⟨b1.trans a1, b2.trans a2, b3.trans a3⟩
      exact key _ _ _ h2 k2
    · intro hall
      exact (k3 (fun b hb => hall b (by simp [hb]))).trans (h1.fixed (hall a (by simp)))

/-- **C100** (the arguments): whatever calls of `optimize_fusion` are made on the same `qrels` and `runs`,
whether they return or raise, the judgements and the scores in the objects are unchanged and only their order may
be (an object already flagged sorted is untouched). Results saved in a run are unchanged for every metric but
"map", and also for "map" unless a call used mapfuse. Calls with a normalization or a method that is not trained
leave the run objects exactly as they were. -/
theorem C100_arguments (E : Env δ) (V : EvalEnv δ ι) (rowSched : List Nat) (rnd : ℚ → ℚ)
    (str : Kwargs → Py.Str) (strNat : Nat → Py.Str) (qrels : Store κ δ Int) (hq : Spec.Usable V.SQ qrels)
    (runs : List (RunObj κ δ ℝ)) (hr : ∀ r ∈ runs, Spec.Usable E.S r.store) (h : List Spec.OptArgs)
    (qrels' : Store κ δ Int) (runs' : List (RunObj κ δ ℝ))
    (he : Spec.afterCalls E V rowSched rnd str strNat (qrels, runs) h = (qrels', runs')) :
    Spec.content qrels' = Spec.content qrels ∧ (qrels.sorted = true → qrels' = qrels) ∧
    List.Forall₂ (fun r r' =>
      Spec.content r'.store = Spec.content r.store ∧ (r.store.sorted = true → r'.store = r.store) ∧
      (∀ m, m ≠ "map".toList → r'.scores.get? m = r.scores.get? m ∧ r'.meanScores.get? m = r.meanScores.get? m) ∧
      r'.stdScores = r.stdScores ∧
      ((∀ a ∈ h, a.method ≠ "mapfuse") → r'.scores = r.scores ∧ r'.meanScores = r.meanScores)) runs runs' ∧
    ((∀ a ∈ h, a.norm ≠ none ∨ a.method ∉ Spec.trained) → runs' = runs) := by
  obtain ⟨h1, h2, h3⟩ := afterCalls_touched E V rowSched rnd str strNat h qrels runs
  rw [he] at h1 h2 h3
  simp only at h1 h2 h3
  have flag : ∀ {β : Type} [LE β] [Neg β] (S : ArgSort β) (s s' : Store κ δ β), Touched S s s' →
      s.sorted = true → s' = s := by
    intro β _ _ S s s' ht hs
    rcases ht with rfl | rfl
    · rfl
    · unfold Store.ensureSorted; rw [if_pos hs]
  refine ⟨?_, flag _ _ _ h1, ?_, h3⟩
  · rcases h1 with h1 | h1
    · rw [h1]
    · rw [h1]; exact (ensureSorted_facts V.SQ qrels hq.ok.1 hq.ok.2).2.1
  · clear h3 he
    induction h2 with
    | nil => exact .nil
    | @cons r r' l l' hh _ ih =>
      refine .cons ⟨?_, flag _ _ _ hh.1, fun m hm => ⟨hh.2.1.scores m hm, hh.2.1.mean m hm⟩, hh.2.1.std,
        fun hm => ⟨(hh.2.2 hm).1, (hh.2.2 hm).2.1⟩⟩ (ih (fun x hx => hr x (by simp [hx])))
      have hu := hr r (by simp)
      rcases hh.1 with h1 | h1
      · rw [h1]
      · rw [h1]; exact (ensureSorted_facts E.S r.store hu.ok.1 hu.ok.2).2.1

/-- **C100** (after other calls): a call of `optimize_fusion` after any history of calls on the same objects
returns, or raises, what it would have done as the first call, provided (1) it trains its method and does not
normalize, or (2) every earlier call normalized or used a method that is not trained, or (3) the runs were sorted
to begin with. -/
theorem C100_history_partial (E : Env δ) (V : EvalEnv δ ι) (rowSched : List Nat) (rnd : ℚ → ℚ)
    (str : Kwargs → Py.Str) (strNat : Nat → Py.Str) (qrels : Store κ δ Int) (hq : Spec.Usable V.SQ qrels)
    (runs : List (RunObj κ δ ℝ)) (hr : ∀ r ∈ runs, Spec.Usable E.S r.store) (h : List Spec.OptArgs)
    (a : Spec.OptArgs)
    (hcase : (a.norm = none ∧ a.method ∈ Spec.trained) ∨
      (∀ b ∈ h, b.norm ≠ none ∨ b.method ∉ Spec.trained) ∨ ∀ r ∈ runs, r.store.sorted = true) :
    (Spec.optCall E V rowSched rnd str strNat a
      (Spec.afterCalls E V rowSched rnd str strNat (qrels, runs) h)).result =
    (Spec.optCall E V rowSched rnd str strNat a (qrels, runs)).result := by
  obtain ⟨h1, h2, h3⟩ := afterCalls_touched E V rowSched rnd str strNat h qrels runs
  rcases he : Spec.afterCalls E V rowSched rnd str strNat (qrels, runs) h with ⟨qrels', runs'⟩
  rw [he] at h1 h2 h3
  simp only at h1 h2 h3
  unfold Spec.optCall
  rw [C100_result, C100_result]
  have hr2 : List.Forall₂ (Touched E.S) (runs.map (fun r => r.store)) (runs'.map (fun r => r.store)) := by
    rw [List.forall₂_map_left_iff, List.forall₂_map_right_iff]
    exact h2.imp (fun _ _ h => h.1)
  refine optimizeFusion_same E V rowSched rnd str strNat a.norm a.method a.metric a.wantReport a.space qrels qrels'
    hq h1 _ _ ?_ hr2 ?_
  · intro s hs
    obtain ⟨r, hrm, rfl⟩ := List.mem_map.1 hs
    exact (hr r hrm).ok.1.1
  · rcases hcase with ⟨c1, c2⟩ | c | c
    · exact .inr ⟨c1, switch_not_plain a.method c2⟩
    · left; simp only; rw [h3 c]
    · left
      show runs'.map (fun r => r.store) = runs.map (fun r => r.store)
      clear h1 h3 he hr2
      induction h2 with
      | nil => rfl
      | @cons r r' l l' hh _ ih =>
        rw [List.map_cons, List.map_cons, ih (fun x hx => hr x (by simp [hx])) (fun x hx => c x (by simp [hx]))]
        congr 1
        rcases hh.1 with h1 | h1
        · exact h1
        · rw [h1]; unfold Store.ensureSorted; rw [if_pos (c r (by simp))]

/-- **C100** (repeating the call): calling `optimize_fusion` again with the same arguments, any number of times,
gives the same result or exception as the first call. -/
theorem C100_repeat (E : Env δ) (V : EvalEnv δ ι) (rowSched : List Nat) (rnd : ℚ → ℚ)
    (str : Kwargs → Py.Str) (strNat : Nat → Py.Str) (qrels : Store κ δ Int) (hq : Spec.Usable V.SQ qrels)
    (runs : List (RunObj κ δ ℝ)) (hr : ∀ r ∈ runs, Spec.Usable E.S r.store) (a : Spec.OptArgs) (n : Nat) :
    (Spec.optCall E V rowSched rnd str strNat a
      (Spec.afterCalls E V rowSched rnd str strNat (qrels, runs) (List.replicate n a))).result =
    (Spec.optCall E V rowSched rnd str strNat a (qrels, runs)).result := by
  apply C100_history_partial E V rowSched rnd str strNat qrels hq runs hr
  by_cases h : a.norm = none ∧ a.method ∈ Spec.trained
  · exact .inl h
  · refine .inr (.inl ?_)
    intro b hb
    rw [List.eq_of_mem_replicate hb]
    by_cases hn : a.norm = none
    · exact .inr (fun hm => h ⟨hn, hm⟩)
    · exact .inl hn

/-! ### Using the returned parameters on the same objects -/

/-- Specification: `f p` is a score, listed in the report, and no listed score is higher. -/
def Spec.TopOfReport (f : Kwargs → Except Err (Num ℝ)) (res : Result) (p : Kwargs) : Prop :=
  ∃ v : ℝ, f p = .ok (.val v) ∧ Num.val v ∈ res.report.values ∧ ∀ u : ℝ, Num.val u ∈ res.report.values → u ≤ v

theorem Opt.top_of_best (f : Kwargs → Except Err (Num ℝ)) (cands : List Kwargs) (labels : List Py.Str)
    (hl : labels.length = cands.length) (scores : List (Num ℝ)) (hs : cands.map f = scores.map .ok) (res : Result)
    (p : Kwargs) (hp : res.params = some p) (hb : Spec.LastBest (cands.zip scores) res.params)
    (hrep : res.report = labels.zip scores) : Spec.TopOfReport f res p := by
  have hlen : scores.length = cands.length := by
    have := congrArg List.length hs
    simpa using this.symm
  have hval : res.report.values = scores := by
    rw [hrep]
    exact List.map_snd_zip (by rw [hl, hlen])
  have hmem : ∀ (l : List Kwargs) (sc : List (Num ℝ)), l.map f = sc.map .ok → ∀ q ∈ l.zip sc, f q.1 = .ok q.2 := by
    intro l
    induction l with
    | nil => intro sc _ q hq; simp at hq
    | cons a l ih =>
      intro sc h q hq
      cases sc with
      | nil => simp at hq
      | cons c cs =>
        simp only [List.map_cons, List.cons.injEq] at h
        rw [List.zip_cons_cons] at hq
        rcases List.mem_cons.1 hq with rfl | hq
        · exact h.1
        · exact ih cs h.2 q hq
  rcases hb with ⟨h1, -⟩ | ⟨t, v, x, y, h1, h2, -, h4, h5⟩
  · rw [hp] at h1; cases h1
  · rw [hp] at h1
    cases h1
    have hsc : scores = x.map Prod.snd ++ .val v :: y.map Prod.snd := by
      have := congrArg (List.map Prod.snd) h2
      rw [List.map_snd_zip (by rw [hlen])] at this
      simpa using this
    refine ⟨v, ?_, ?_, ?_⟩
    · exact hmem cands scores hs (p, .val v) (by rw [h2]; simp)
    · rw [hval, hsc]; simp
    · intro u hu
      rw [hval, hsc] at hu
      rcases List.mem_append.1 hu with hu | hu
      · obtain ⟨q, hq, he⟩ := List.mem_map.1 hu
        exact h4 q hq u he
      · rcases List.mem_cons.1 hu with hu | hu
        · cases hu; exact le_refl _
        · obtain ⟨q, hq, he⟩ := List.mem_map.1 hu
          exact (h5 q hq u he).le

theorem Opt.scoreOf_touched (V : EvalEnv δ ι) (S : ArgSort ℝ) (s s' : Store κ δ Int) (hq : Spec.Usable V.SQ s)
    (h : Touched V.SQ s s') (metric : Py.Str) (fused : Except Err (Store κ δ ℝ)) :
    Spec.scoreOf V S s' metric fused = Spec.scoreOf V S s metric fused := by
  cases fused with
  | error e => rfl
  | ok f =>
    have := (evalRun_inv V S metric s hq f s' h).1
    rw [evalRun_snd, evalRun_snd] at this
    exact this

/-- **C100** (using the result, plain searches): for a method that is searched without training, with any
normalization, fusing the same run objects with the returned parameters and evaluating with the same qrels object
gives a score that the report lists and that no score in the report exceeds. -/
theorem C100_then_fuse (E : Env δ) (V : EvalEnv δ ι) (rowSched : List Nat) (rnd : ℚ → ℚ)
    (str : Kwargs → Py.Str) (strNat : Nat → Py.Str) (qrels : Store κ δ Int) (hq : Spec.Usable V.SQ qrels)
    (runs : List (RunObj κ δ ℝ)) (a : Spec.OptArgs) (m : Method)
    (hm : optimizationSwitch a.method = .ok (.plain m))
    (hlab : ∀ tried, configs rnd runs.length m a.space = .ok tried → (tried.map str).Nodup)
    (res : Result) (hres : (Spec.optCall E V rowSched rnd str strNat a (qrels, runs)).result = .ok res)
    (p : Kwargs) (hp : res.params = some p) :
    let c := Spec.optCall E V rowSched rnd str strNat a (qrels, runs)
    Spec.TopOfReport (Spec.fusedScore E V c.qrels (c.runs.map (fun r => r.store)) a.norm a.method a.metric) res p := by
  intro c
  have hok : CallOk E V a.norm a.method qrels runs c :=
    optimizeFusionS_touched E V rowSched rnd str strNat a.norm a.method a.metric a.wantReport a.space qrels runs
  have hruns : c.runs = runs := hok.fixed (.inr (fun ht => switch_not_plain a.method ht m hm))
  have hf : Spec.fusedScore E V c.qrels (c.runs.map (fun r => r.store)) a.norm a.method a.metric =
      Spec.fusedScore E V qrels (runs.map (fun r => r.store)) a.norm a.method a.metric := by
    funext k
    unfold Spec.fusedScore
    rw [hruns]
    exact scoreOf_touched V E.S qrels c.qrels hq hok.qrelsOk a.metric _
  rw [hf]
  unfold Spec.optCall at hres
  rw [C100_result] at hres
  obtain ⟨tried, scores, h1, h2, h3, h4⟩ := C65_best_configuration E V rowSched rnd str strNat qrels hq
    (runs.map (fun r => r.store)) a.norm a.method a.metric a.wantReport a.space m hm res hres
  rw [List.length_map] at h1
  exact top_of_best _ tried (tried.map str) (by simp) scores h2 res p hp h3 (h4 (hlab tried h1))

/-- state after a successful loop that tried something -/
theorem Opt.optLoop_after {σ τ ρ : Type} (eval : σ → τ → σ × Except Err (ρ × Num ℝ)) (label : τ → Py.Str)
    (Inv Inv2 : σ → Prop) (h21 : ∀ s, Inv2 s → Inv s)
    (h : ∀ s t p, Inv s → (eval s t).2 = .ok p → Inv2 (eval s t).1) (ts : List τ) :
    ∀ (s : σ), Inv s → (ts = [] → Inv2 s) → ∀ (acc r : Search ρ ℝ), (optLoop eval label s acc ts).2 = .ok r →
      Inv2 (optLoop eval label s acc ts).1 := by
  induction ts with
  | nil => intro s _ h0 acc r _; exact h0 rfl
  | cons t ts ih =>
    intro s hs _ acc r hok
    have h1 := h s t
    unfold optLoop at hok ⊢
    rcases he : eval s t with ⟨s', out⟩
    rw [he] at h1 hok
    cases out with
    | error e => cases hok
    | ok p =>
      have h2 := h1 p hs rfl
      obtain ⟨a, b⟩ := p
      exact ih s' (h21 _ h2) (fun _ => h2) _ r hok

theorem Opt.withStores_stores (runs : List (RunObj κ δ ℝ)) (ss : List (Store κ δ ℝ)) (h : ss.length = runs.length) :
    (withStores runs ss).map (fun r => r.store) = ss := by
  induction runs generalizing ss with
  | nil => cases ss with
    | nil => rfl
    | cons _ _ => simp at h
  | cons r rs ih =>
    cases ss with
    | nil => simp at h
    | cons s ss =>
      have := ih ss (by simpa using h)
      unfold withStores at this ⊢
      rw [List.zipWith_cons_cons, List.map_cons, this]

/-- the outcome of the loop when the call succeeded, `norm=None` -/
theorem Opt.optimizeFusionS_none {E : Env δ} {V : EvalEnv δ ι} {rowSched : List Nat} {rnd : ℚ → ℚ}
    {str : Kwargs → Py.Str} {strNat : Nat → Py.Str} {method : String} {metric : Py.Str} {wantReport : Bool}
    {space : Space} {qrels : Store κ δ Int} {runs : List (RunObj κ δ ℝ)} {res : Result} {o : Optimizer}
    (ho : optimizationSwitch method = .ok o)
    (h : (optimizeFusionS E V rowSched rnd str strNat none method metric wantReport space qrels runs).result =
      .ok res) :
    optimizeFusionS E V rowSched rnd str strNat none method metric wantReport space qrels runs =
      runOptimizerS E V rowSched rnd str strNat metric space qrels runs o := by
  unfold optimizeFusionS at h ⊢
  simp only [normalizeStores] at h ⊢
  split at h
  · cases h
  · rename_i h1
    rw [if_neg h1]
    split at h
    · rename_i h2
      rw [if_pos h2]
      split at h
      · rename_i h3
        rw [if_pos h3]
        rw [ho] at h ⊢
        cases hh : (if wantReport then hasHyperparams method else .ok ()) with
        | error e => rw [hh] at h; cases h
        | ok u => rfl
      · cases h
    · cases h

/-- after a successful call of probfuse or slidefuse with `norm=None` and a candidate, the runs are sorted -/
theorem Opt.runs_sorted_after (E : Env δ) (V : EvalEnv δ ι) (rowSched : List Nat) (rnd : ℚ → ℚ)
    (str : Kwargs → Py.Str) (strNat : Nat → Py.Str) (qrels : Store κ δ Int)
    (runs : List (RunObj κ δ ℝ)) (metric : Py.Str) (wantReport : Bool) (method : String)
    (hm : method = "probfuse" ∨ method = "slidefuse") (lo hi : Int) (hne : lo ≤ hi) (res : Result)
    (h : (optimizeFusionS E V rowSched rnd str strNat none method metric wantReport (.ints lo hi 1) qrels runs).result =
      .ok res) :
    (optimizeFusionS E V rowSched rnd str strNat none method metric wantReport (.ints lo hi 1) qrels runs).runs.map
      (fun r => r.store) = runs.map (fun r => r.store.ensureSorted E.S) := by
  obtain ⟨g, hg, -, hmem⟩ := C67_ints lo hi 1 (by norm_num)
  have hgne : counts g ≠ [] := by
    have : lo ∈ g := (hmem lo).2 ⟨le_refl _, hne, by simp⟩
    unfold counts
    intro h
    rw [List.map_eq_nil_iff] at h
    rw [h] at this
    simp at this
  have hmap : runs.map (fun r => r.store.ensureSorted E.S) =
      (runs.map (fun r => r.store)).map (fun s => s.ensureSorted E.S) := by rw [List.map_map]; rfl
  rcases hm with rfl | rfl
  · have ho : optimizationSwitch "probfuse" = .ok .probfuse := by decide +kernel
    have hcall := optimizeFusionS_none ho h
    rw [hcall] at h ⊢
    simp only [runOptimizerS, hg] at h ⊢
    have := optLoop_after (probfuseTrial E V rowSched metric) strNat
      (fun st => Touched V.SQ qrels st.1 ∧ List.Forall₂ (Touched E.S) (runs.map (fun r => r.store)) st.2)
      (fun st => (Touched V.SQ qrels st.1 ∧ List.Forall₂ (Touched E.S) (runs.map (fun r => r.store)) st.2) ∧
        st.2 = (runs.map (fun r => r.store)).map (fun s => s.ensureSorted E.S)) (fun _ h => h.1)
      (by
        rintro ⟨s1, runs1⟩ n p ⟨h1, h2⟩ hok
        obtain ⟨a, b⟩ := probfuseTrial_touched E V rowSched metric (s1, runs1) n
        refine ⟨⟨h1.trans a, Touched.forall₂_trans h2 b⟩, ?_⟩
        obtain ⟨c, d⟩ := probfuseTrain_sorted V.SQ E.S V.hash (runs.map (fun r => r.store)) V.sched rowSched n qrels s1
          runs1 h1.ensure (Touched.map_ensure h2)
        unfold probfuseTrial at hok ⊢
        simp only at hok ⊢
        rw [c] at hok ⊢
        cases hts : (probfuseTrain V.SQ E.S V.hash V.sched rowSched n qrels (runs.map (fun r => r.store))).2.2 with
        | error e => rw [hts] at hok; cases hok
        | ok probs =>
          rw [hts] at hok
          simp only at hok ⊢
          cases hf : Fuse.probfuse E.S E.sched E.scheds probs
              ((probfuseTrain V.SQ E.S V.hash V.sched rowSched n s1 runs1).2.1.map (fun r => r.data)) with
          | error e => rw [hf] at hok; cases hok
          | ok fused => exact (d probs hts).1) (counts g) (qrels, runs.map (fun r => r.store))
      ⟨.inl rfl, Touched.forall₂_refl E.S _⟩ (fun h => absurd h hgne) ⟨none, 0, []⟩
    cases hl : (optLoop (probfuseTrial E V rowSched metric) strNat (qrels, runs.map (fun r => r.store)) ⟨none, 0, []⟩
        (counts g)).2 with
    | error e => rw [hl] at h; cases h
    | ok r =>
      have h2 := (this r hl).2
      rw [h2, withStores_stores _ _ (by simp), hmap]
  · have ho : optimizationSwitch "slidefuse" = .ok .slidefuse := by decide +kernel
    have hcall := optimizeFusionS_none ho h
    rw [hcall] at h ⊢
    simp only [runOptimizerS, hg] at h ⊢
    obtain ⟨-, d⟩ := trainEach_sorted V.SQ E.S V.hash estimateProbs (runs.map (fun r => r.store)) V.sched qrels qrels
      (runs.map (fun r => r.store)) rfl rfl
    unfold posfuseTrain at h ⊢
    cases hts : (trainEach V.SQ E.S V.hash V.sched estimateProbs qrels (runs.map (fun r => r.store))).2.2 with
    | error e => rw [hts] at h; cases h
    | ok probs =>
      simp only
      rw [(d probs hts).1, withStores_stores _ _ (by simp), hmap]

/-- **C100** (using the result, probfuse and slidefuse without normalization): fusing the run objects as the call
left them with the returned parameters and evaluating gives a score that the report lists and that no score in the
report exceeds. -/
theorem C100_then_fuse_trained (E : Env δ) (V : EvalEnv δ ι) (rowSched : List Nat) (rnd : ℚ → ℚ)
    (str : Kwargs → Py.Str) (strNat : Nat → Py.Str) (hstr : Function.Injective strNat) (qrels : Store κ δ Int)
    (hq : Spec.Usable V.SQ qrels) (runs : List (RunObj κ δ ℝ)) (hr : ∀ r ∈ runs, Spec.Usable E.S r.store)
    (a : Spec.OptArgs) (hn : a.norm = none) (hm : a.method = "probfuse" ∨ a.method = "slidefuse")
    (lo hi : Int) (h0 : 0 ≤ lo) (hsp : a.space = .ints lo hi 1)
    (res : Result) (hres : (Spec.optCall E V rowSched rnd str strNat a (qrels, runs)).result = .ok res)
    (p : Kwargs) (hp : res.params = some p) :
    let c := Spec.optCall E V rowSched rnd str strNat a (qrels, runs)
    Spec.TopOfReport (Spec.fusedScore E V c.qrels (c.runs.map (fun r => r.store)) none a.method a.metric) res p := by
  intro c
  have hok : CallOk E V a.norm a.method qrels runs c :=
    optimizeFusionS_touched E V rowSched rnd str strNat a.norm a.method a.metric a.wantReport a.space qrels runs
  have hc : c = optimizeFusionS E V rowSched rnd str strNat none a.method a.metric a.wantReport (.ints lo hi 1)
      qrels runs := by
    show Spec.optCall E V rowSched rnd str strNat a (qrels, runs) = _
    unfold Spec.optCall
    rw [hn, hsp]
  have hres' : c.result = .ok res := hres
  have hopt : optimizeFusion E V rowSched rnd str strNat qrels (runs.map (fun r => r.store)) none a.method a.metric
      a.wantReport (.ints lo hi 1) = .ok res := by
    rw [← C100_result, ← hc]; exact hres'
  obtain ⟨g, hg, hgp, hmem⟩ := C67_ints lo hi 1 (by norm_num)
  have hlab : (g.map (fun n => strNat n.toNat)).Nodup := by
    refine List.Nodup.map_on ?_ (hgp.imp (fun h => ne_of_lt h))
    intro x hx y hy he
    have hx0 := ((hmem x).1 hx).1
    have hy0 := ((hmem y).1 hy).1
    have := hstr he
    omega
  obtain ⟨k1, k2, -, -⟩ := optimizeFusion_ok hopt
  -- what fusing the objects computes
  have hfuse : lo ≤ hi → ∀ (meth : Method) (k : Kwargs), fusionSwitch a.method = .ok meth →
      Spec.fusedScore E V c.qrels (c.runs.map (fun r => r.store)) none a.method a.metric k =
      Spec.scoreOf V E.S qrels a.metric (meth.call E k
        ((runs.map (fun r => r.store)).map (fun r => (r.ensureSorted E.S).data))) := by
    intro hle meth k hsw
    have hs : c.runs.map (fun r => r.store) = runs.map (fun r => r.store.ensureSorted E.S) := by
      rw [hc]
      exact runs_sorted_after E V rowSched rnd str strNat qrels runs a.metric a.wantReport a.method hm lo hi hle res
        (by rw [← hc]; exact hres')
    unfold Spec.fusedScore
    rw [scoreOf_touched V E.S qrels c.qrels hq hok.qrelsOk, hs]
    rw [fuse_of_normalized E _ _ none a.method meth k ?_ ?_ rfl hsw]
    · rw [List.map_map, List.map_map]; rfl
    · simpa using k1
    · rw [pairwiseSameKeys_iff] at k2 ⊢
      have hkey : ∀ r ∈ runs, ∀ q, q ∈ (r.store.ensureSorted E.S).data.keys ↔ q ∈ r.store.data.keys :=
        fun r hrm q => (Touched.sorted E.S r.store).mem_keys (hr r hrm).ok.1.1 q
      intro s hs t ht q hq'
      obtain ⟨r, hrm, rfl⟩ := List.mem_map.1 hs
      obtain ⟨r', hrm', rfl⟩ := List.mem_map.1 ht
      exact (hkey r' hrm' q).2 (k2 _ (List.mem_map_of_mem hrm) _ (List.mem_map_of_mem hrm') q ((hkey r hrm q).1 hq'))
  have hle : ∀ (cands : List Kwargs) (scores : List (Num ℝ)), cands.length = g.length →
      Spec.LastBest (cands.zip scores) res.params → lo ≤ hi := by
    intro cands scores hl hb
    by_contra hcon
    have : g = [] := by
      rw [List.eq_nil_iff_forall_not_mem]
      intro k hk
      have := (hmem k).1 hk
      omega
    rw [this] at hl
    have hnil : cands = [] := List.eq_nil_of_length_eq_zero hl
    subst hnil
    rcases hb with ⟨h1, -⟩ | ⟨t, v, x, y, h1, h2, -⟩
    · rw [hp] at h1; cases h1
    · simp at h2
  rcases hm with hm | hm
  · rw [hm] at hopt
    obtain ⟨segs, tables, scores, s1, s2, s3, s4, s5⟩ := C65_probfuse E V rowSched rnd str strNat qrels hq
      (runs.map (fun r => r.store)) _ none rfl a.metric a.wantReport lo hi res hopt
    rw [hg] at s1
    cases s1
    have hlt : tables.length = g.length := by
      have := congrArg List.length s2
      simpa using this.symm
    have hl2 := hle (tables.map (fun t => [("probs", PyVal.tables t)])) scores (by simp [hlt]) s4
    refine top_of_best _ (tables.map (fun t => [("probs", PyVal.tables t)])) (g.map (fun n => strNat n.toNat))
      (by simp [hlt]) scores ?_ res p hp s4 (s5 hlab)
    rw [← s3, List.map_map]
    apply List.map_congr_left
    intro t _
    rw [Function.comp_apply, hfuse hl2 .probfuse _ (by rw [hm]; decide +kernel)]
    rfl
  · rw [hm] at hopt
    obtain ⟨wins, tables, scores, s1, s2, s3, s4, s5⟩ := C65_slidefuse E V rowSched rnd str strNat qrels hq
      (runs.map (fun r => r.store)) _ none rfl a.metric a.wantReport lo hi res hopt
    rw [hg] at s1
    cases s1
    have hl2 := hle (g.map (fun w => [("probs", PyVal.tables tables), ("w", PyVal.int w.toNat)])) scores (by simp) s4
    refine top_of_best _ (g.map (fun w => [("probs", PyVal.tables tables), ("w", PyVal.int w.toNat)]))
      (g.map (fun n => strNat n.toNat)) (by simp) scores ?_ res p hp s4 (s5 hlab)
    rw [← s3, List.map_map]
    apply List.map_congr_left
    intro w _
    rw [Function.comp_apply, hfuse hl2 .slidefuse _ (by rw [hm]; decide +kernel)]
    rfl

end
/-! ### A search can change later fusions -/

/-- one query, one relevant doc -/
def oneQrels : Store Nat Nat Int := ⟨[(1, [(11, 1)])], true⟩

noncomputable def oneEvalEnv : EvalEnv Nat Nat :=
  ⟨realFn, fun _ => .error .valueError, .stable Int, id, fun _ => [0]⟩

theorem oneQrels_usable : Spec.Usable oneEvalEnv.SQ oneQrels := by
  refine ⟨⟨[(1, [(11, 1)])], false⟩, [.toTypedList], ⟨[(1, [(11, 1)])], by unfold NodupKeys; decide,
    by unfold NodupKeys; decide, .inl rfl⟩, ?_, ?_⟩
  · decide +kernel
  · decide +kernel

theorem low_usable : Spec.Usable oneEnv.S lowFirst := usable_of_unsorted _ _ wf_low rfl

theorem sorted_low : (lowFirst.ensureSorted oneEnv.S).data = highFirst.data := by
  obtain ⟨h1, h2, h3, h4, -, h6⟩ := ensureSorted_facts oneEnv.S lowFirst wf_low low_usable.ok.2
  have h2' : ∀ q, Spec.content (lowFirst.ensureSorted oneEnv.S) q = Spec.content highFirst q := by
    intro q
    rw [h2]
    have := low_high_same
    cases this with
    | cons h _ => exact h q
  rcases hd : (lowFirst.ensureSorted oneEnv.S).data with _ | ⟨⟨k, r⟩, t⟩
  · rw [hd] at h6; simp [lowFirst_eq] at h6
  · rw [hd] at h1 h3 h4 h6
    have ht : t = [] := by
      have : (lowFirst.data).length = 1 := rfl
      rw [this] at h6
      simpa using h6
    subst ht
    have hk : k = 1 := by
      have := (h3 k).1 (by simp [Dict.keys])
      rw [lowFirst_eq] at this
      simpa [Dict.keys] using this
    subst hk
    have hc := h2' 1
    unfold Spec.content at hc
    rw [hd, highFirst_eq] at hc
    simp only [get?_cons, if_true, Option.map_some, Option.some.injEq] at hc
    have hrow : [((11 : Nat), (5 : ℝ)), (10, 3)] = r := by
      refine rows_eq_of_ranked ?_ (h1.2 (1, r) List.mem_cons_self) (fun d => (congrFun hc d).symm) ?_
        (h4 (1, r) List.mem_cons_self) ?_
      · unfold NodupKeys; simp
      · unfold Spec.Ranked Dict.values; simp; norm_num
      · unfold Dict.values; simp
    rw [highFirst_eq, hrow]

/-- the two runs of the refutation, as objects -/
noncomputable def lowRuns : List (RunObj Nat Nat ℝ) := [fresh lowFirst, fresh lowFirst]

/-- `optimize_fusion(qrels, runs, norm=None, method="posfuse")` -/
def posCall : Spec.OptArgs := ⟨none, "posfuse", "map".toList, false, .nothing⟩

theorem lowTrainable : Spec.Trainable oneEvalEnv.SQ oneEnv.S oneEvalEnv.hash oneQrels [lowFirst, lowFirst] := by
  refine ⟨oneQrels_usable, ?_, by decide, ?_, fun r _ q d d' v _ _ h => h⟩
  · intro r hr
    simp only [List.mem_cons, List.not_mem_nil, or_false, or_self] at hr
    subst hr; exact low_usable
  · intro r hr q
    simp only [List.mem_cons, List.not_mem_nil, or_false, or_self] at hr
    subst hr
    have h1 : lowFirst.data.keys = [1] := rfl
    have h2 : oneQrels.data.keys = [1] := rfl
    rw [h1, h2]

theorem lowAfter : (Spec.optCall oneEnv oneEvalEnv [0] id (fun _ => []) (fun _ => []) posCall
    (oneQrels, lowRuns)).runs.map (fun r => r.store.data) = [highFirst.data, highFirst.data] ∧
    ∃ res, (Spec.optCall oneEnv oneEvalEnv [0] id (fun _ => []) (fun _ => []) posCall
      (oneQrels, lowRuns)).result = .ok res := by
  obtain ⟨s', runs', tables, h1, -⟩ := C59_positions oneEvalEnv.SQ oneEnv.S oneEvalEnv.hash oneEvalEnv.sched oneQrels
    [lowFirst, lowFirst] lowTrainable (fun i => by show Schedule 1 [0]; unfold Schedule; decide)
  have hacc : Spec.Accepted oneQrels [lowFirst, lowFirst] := ⟨by decide, lowTrainable.queries⟩
  have hres : (Spec.optCall oneEnv oneEvalEnv [0] id (fun _ => []) (fun _ => []) posCall
      (oneQrels, lowRuns)).result = .ok ⟨some [("probs", .tables tables)], []⟩ := by
    unfold Spec.optCall
    rw [C100_result]
    have hst : lowRuns.map (fun r => r.store) = [lowFirst, lowFirst] := rfl
    simp only [posCall, hst]
    rw [optimizeFusion_eq oneEnv oneEvalEnv [0] id _ _ oneQrels [lowFirst, lowFirst] _ hacc none rfl "posfuse" _ _
      .trainPos (by decide +kernel)]
    simp only [runOptimizer, h1, Except.map]
  refine ⟨?_, _, hres⟩
  have ho : optimizationSwitch "posfuse" = .ok .trainPos := by decide +kernel
  have hcall := optimizeFusionS_none (E := oneEnv) (V := oneEvalEnv) (rowSched := [0]) (rnd := id)
    (str := fun _ => []) (strNat := fun _ => []) (metric := "map".toList) (wantReport := false) (space := .nothing)
    (qrels := oneQrels) (runs := lowRuns) ho hres
  unfold Spec.optCall
  simp only [posCall]
  rw [hcall]
  simp only [runOptimizerS]
  obtain ⟨-, d⟩ := trainEach_sorted oneEvalEnv.SQ oneEnv.S oneEvalEnv.hash estimateProbs [lowFirst, lowFirst]
    oneEvalEnv.sched oneQrels oneQrels [lowFirst, lowFirst] rfl rfl
  have hst : lowRuns.map (fun r => r.store) = [lowFirst, lowFirst] := rfl
  rw [hst]
  have h2 : (posfuseTrain oneEvalEnv.SQ oneEnv.S oneEvalEnv.hash oneEvalEnv.sched oneQrels
      [lowFirst, lowFirst]).2.1 = [lowFirst, lowFirst].map (fun s => s.ensureSorted oneEnv.S) :=
    (d tables (congrArg (fun x => x.2.2) h1)).1
  rw [h2]
  have hm : ∀ (l : List (RunObj Nat Nat ℝ)) (ss : List (Store Nat Nat ℝ)), ss.length = l.length →
      (withStores l ss).map (fun r => r.store.data) = ss.map (fun s => s.data) := by
    intro l ss hl
    have := congrArg (List.map (fun s : Store Nat Nat ℝ => s.data)) (withStores_stores l ss hl)
    rw [List.map_map] at this
    exact this
  rw [hm _ _ rfl]
  simp only [List.map_cons, List.map_nil, sorted_low]

/-- **C100 refuted for histories that mix methods**: two runs filled by `add_score`, not sorted. `fuse` with
`norm=None` and method "rrf" gives doc 10 the score 2/61. After `optimize_fusion(…, norm=None, method="posfuse")`,
which returns normally, the same `fuse` call on the same objects gives it 2/62: training sorted the caller's runs
in place. -/
theorem C100_search_changes_fusion :
    ∃ out out' after, (∃ res, (Spec.optCall oneEnv oneEvalEnv [0] id (fun _ => []) (fun _ => []) posCall
        (oneQrels, lowRuns)).result = .ok res) ∧
      (Spec.optCall oneEnv oneEvalEnv [0] id (fun _ => []) (fun _ => []) posCall (oneQrels, lowRuns)).runs = after ∧
      fuse oneEnv (lowRuns.map (fun r => r.store)) none "rrf" (some []) = .ok out ∧
      fuse oneEnv (after.map (fun r => r.store)) none "rrf" (some []) = .ok out' ∧
      (Spec.content out).read 1 10 = some (2 / 61) ∧ (Spec.content out').read 1 10 = some (2 / 62) := by
  obtain ⟨out, out', h1, h2, -, h3, h4⟩ := C99_unsorted
  obtain ⟨hd, hres⟩ := lowAfter
  refine ⟨out, out', _, hres, rfl, h1, ?_, h3, h4⟩
  generalize (Spec.optCall oneEnv oneEvalEnv [0] id (fun _ => []) (fun _ => []) posCall (oneQrels, lowRuns)).runs =
    after at hd
  rw [← h2]
  have hdata : (after.map (fun r => r.store)).map (fun s => s.data) = [highFirst, highFirst].map (fun s => s.data) := by
    rw [List.map_map]; exact hd
  have hlen : (after.map (fun r => r.store)).length = 2 := by
    have := congrArg List.length hdata
    simpa using this
  have hpair : pairwiseSameKeys (after.map (fun r => r.store)) = true := by
    rw [pairwiseSameKeys_iff]
    have hin : ∀ s ∈ after.map (fun r => r.store), s.data = highFirst.data := by
      intro s hs
      have : s.data ∈ (after.map (fun r => r.store)).map (fun s => s.data) := List.mem_map_of_mem hs
      rw [hdata] at this
      simpa using this
    intro s hs t ht q hq
    rw [hin t ht]; rw [hin s hs] at hq; exact hq
  have hsw : fusionSwitch "rrf" = .ok .rrf := by decide +kernel
  rw [fuse_of_normalized oneEnv _ _ none "rrf" .rrf [] (by omega) hpair rfl hsw,
    fuse_of_normalized oneEnv _ _ none "rrf" .rrf [] (by decide) ((pairwiseSameKeys_iff _).2 (sameQueries_pair _)) rfl
      hsw, hdata]

/-- the hypotheses of `C100_arguments`, `C100_repeat` and `C100_history_partial` are met, also by a call that
trains on unsorted runs -/
example : Spec.Usable oneEvalEnv.SQ oneQrels ∧ (∀ r ∈ lowRuns, Spec.Usable oneEnv.S r.store) ∧
    posCall.norm = none ∧ posCall.method ∈ Spec.trained ∧
    ∃ res, (Spec.optCall oneEnv oneEvalEnv [0] id (fun _ => []) (fun _ => []) posCall
      (Spec.afterCalls oneEnv oneEvalEnv [0] id (fun _ => []) (fun _ => []) (oneQrels, lowRuns)
        (List.replicate 3 posCall))).result = .ok res := by
  have hu : ∀ r ∈ lowRuns, Spec.Usable oneEnv.S r.store := by
    intro r hr
    simp only [lowRuns, List.mem_cons, List.not_mem_nil, or_false, or_self] at hr
    subst hr; exact low_usable
  obtain ⟨-, res, hres⟩ := lowAfter
  refine ⟨oneQrels_usable, hu, rfl, by decide +kernel, res, ?_⟩
  rw [C100_repeat oneEnv oneEvalEnv [0] id _ _ oneQrels oneQrels_usable lowRuns hu posCall 3]
  exact hres

end Ranx
