import Verif.Model.Session
import Verif.Props.OptimizeState
import Verif.Props.EvaluateCongr

/-!
# Property C107: evaluations in a session do not depend on what was done before
-/

set_option linter.unusedSectionVars false

namespace Ranx
open Dict Store Metrics Eval Rep Opt Session
open Py (Str)
variable {ι : Type} [LinearOrder ι]

/-- Specification: the calls that may change what run `r` holds: adding results, and `make_comparable`. With
`own = true`, `make_comparable` with qrels `q` itself is not counted. -/
def Spec.ChangesRun (own : Bool) (q r : Nat) : Call ι → Prop
  | .runOp _ r' op => r' = r ∧ op ≠ .sort ∧ op ≠ .toTypedList
  | .evaluate _ _ o q' r' _ => r' = r ∧ o.makeComparable = true ∧ ¬(own = true ∧ q' = q)
  | .compare _ _ _ a q' rs _ => r ∈ rs ∧ a.makeComparable = true ∧ ¬(own = true ∧ q' = q)
  | _ => False

/-- Specification: the calls that may change what a qrels holds. -/
def Spec.ChangesQrels (q : Nat) : Call ι → Prop
  | .qrelsOp _ q' op => q' = q ∧ op ≠ .sort ∧ op ≠ .toTypedList
  | .setLevel q' _ => q' = q
  | _ => False

namespace Session

section
variable {β : Type} [LinearOrder β] [AddCommGroup β] [IsOrderedAddMonoid β]

/-- what the object holds is the same -/
structure Kept (s s' : Store Str Str β) : Prop where
  ok : Wf s'.data ∧ FlagOk s'
  content : Spec.content s' = Spec.content s
  same : s.sorted = true → TieFree s.data → s' = s

/-- as `Kept`, for any state of the first object that the methods can produce -/
def Keeps (s s' : Store Str Str β) : Prop := (Wf s.data ∧ FlagOk s) → Kept s s'

theorem Keeps.refl (s : Store Str Str β) : Keeps s s := fun h => ⟨h, rfl, fun _ _ => rfl⟩

theorem Keeps.trans {a b c : Store Str Str β} (h : Keeps a b) (h' : Keeps b c) : Keeps a c := fun ha =>
  ⟨(h' (h ha).ok).ok, (h' (h ha).ok).content.trans (h ha).content, fun hs ht => by
    have e := (h ha).same hs ht
    have e' := (h' (h ha).ok).same (by rw [e]; exact hs) (by rw [e]; exact ht)
    rw [e', e]⟩

/-- sorting a sorted, tie-free object changes nothing -/
theorem sort_fixed (S : ArgSort β) (s : Store Str Str β) (h : Wf s.data) (hf : FlagOk s) (hs : s.sorted = true)
    (ht : TieFree s.data) : s.sort S = s := by
  obtain ⟨h1, h2⟩ := hf hs
  have hd : Ranx.sortAll S s.data = s.data := by
    apply dict_ext_sorted (keys_sortAll_sorted S h.1) h2
    intro q
    rw [get?_sortAll S h.1]
    cases hg : s.data.get? q with
    | none => rfl
    | some v =>
      have hm := mem_of_get? hg
      have hp := sortDictByValue_perm S (d := v) (h.2 _ hm)
      have hr := sortDictByValue_sorted S (d := v) (h.2 _ hm)
      have : sortDictByValue S v = v := by
        refine hp.eq_of_pairwise (le := fun a b : Str × β => b.2 ≤ a.2) ?_ hr (List.pairwise_map.1 (h1 _ hm))
        intro a b ha hb hab hba
        have hv : a.2 = b.2 := le_antisymm hba hab
        have hn : (v.map Prod.snd).Nodup := ht _ hm
        exact List.inj_on_of_nodup_map hn (hp.mem_iff.1 ha) hb hv
      rw [Option.map_some, this]
  unfold Store.sort
  rw [hd, ← hs]

theorem keeps_sort (S : ArgSort β) (s : Store Str Str β) : Keeps s (s.sort S) := fun h =>
  ⟨⟨Wf.sortAll S h.1, fun _ => sortAll_ranked S h.1⟩, cont_sortAll S h.1,
    fun hs ht => sort_fixed S s h.1 h.2 hs ht⟩

theorem keeps_ensure (S : ArgSort β) (s : Store Str Str β) : Keeps s (s.ensureSorted S) := by
  unfold ensureSorted
  split
  · exact .refl s
  · exact keeps_sort S s

theorem keeps_touched {S : ArgSort β} {s s' : Store Str Str β} (h : Touched S s s') : Keeps s s' := by
  rcases h with rfl | rfl
  · exact .refl _
  · exact keeps_ensure S s

theorem keeps_step (S : ArgSort β) (s : Store Str Str β) (op : Store.Op Str Str β)
    (h : ¬(op ≠ .sort ∧ op ≠ .toTypedList)) : Keeps s (s.step S op).1 := by
  cases op with
  | sort => exact keeps_sort S s
  | toTypedList => exact keeps_ensure S s
  | addScore q d v => exact absurd ⟨by simp, by simp⟩ h
  | add q ds ss => exact absurd ⟨by simp, by simp⟩ h
  | addMulti q ds ss => exact absurd ⟨by simp, by simp⟩ h
  | makeComparable q => exact absurd ⟨by simp, by simp⟩ h

end

/-- what the run holds for the queries of `K` is the same; unless `own`, the queries too -/
structure Held (own : Bool) (K : Str → Prop) (s s' : Store Str Str ℝ) : Prop where
  ok : Wf s'.data ∧ FlagOk s'
  keys : own = false → ∀ q, q ∈ s'.data.keys ↔ q ∈ s.data.keys
  reads : ∀ q, K q → ∀ d, (Spec.content s').read q d = (Spec.content s).read q d
  same : own = false → s.sorted = true → TieFree s.data → s' = s

/-- as `Held`, for any state of the first object that the methods can produce -/
def Holds (own : Bool) (K : Str → Prop) (s s' : Store Str Str ℝ) : Prop := (Wf s.data ∧ FlagOk s) → Held own K s s'

theorem Holds.refl (own : Bool) (K : Str → Prop) (s : Store Str Str ℝ) : Holds own K s s :=
  fun h => ⟨h, fun _ _ => Iff.rfl, fun _ _ _ => rfl, fun _ _ _ => rfl⟩

theorem Holds.trans {own : Bool} {K : Str → Prop} {a b c : Store Str Str ℝ} (h : Holds own K a b) (h' : Holds own K b c) :
    Holds own K a c := fun ha =>
  ⟨(h' (h ha).ok).ok, fun e q => ((h' (h ha).ok).keys e q).trans ((h ha).keys e q),
    fun q hq d => ((h' (h ha).ok).reads q hq d).trans ((h ha).reads q hq d), fun ho hs ht => by
    have e := (h ha).same ho hs ht
    have e' := (h' (h ha).ok).same ho (by rw [e]; exact hs) (by rw [e]; exact ht)
    rw [e', e]⟩

theorem mem_keys_content {β : Type} {s s' : Store Str Str β} (h : Spec.content s' = Spec.content s) (q : Str) :
    q ∈ s'.data.keys ↔ q ∈ s.data.keys := by
  have hq := congrArg (fun c : Spec.Content Str Str β => (c q).isSome) h
  simp only [Spec.content, Option.isSome_map] at hq
  rw [← get?_isSome, ← get?_isSome, hq]

theorem Keeps.holds {own : Bool} {K : Str → Prop} {a b : Store Str Str ℝ} (h : Keeps a b) : Holds own K a b := fun ha =>
  ⟨(h ha).ok, fun _ => mem_keys_content (h ha).content, fun _ _ _ => by rw [(h ha).content],
    fun _ => (h ha).same⟩

theorem holds_comparable (S : ArgSort ℝ) (o : Opts) (s : Store Str Str Int) (r : RunObj Str Str ℝ) (K : Str → Prop)
    (hK : ∀ x, K x → x ∈ s.data.keys) : Holds true K r.store (comparable S o s r) := fun ha =>
  ⟨comparable_ok S o s r ha, (fun e => nomatch e), fun q hq d => read_comparable S o s r ha.1 q (hK q hq) d,
    (fun e => nomatch e)⟩

/-! ### objects of the session are kept -/

/-- run `j` of `w` is still there in `w'` -/
def RunKept (own : Bool) (K : Str → Prop) (w w' : State) (j : Nat) : Prop :=
  ∀ n, w.runs[j]? = some n →
    ∃ n', w'.runs[j]? = some n' ∧ n'.name = n.name ∧ Holds own K n.obj.store n'.obj.store

/-- qrels `q` of `w` has the queries of `K` -/
def HasQrels (K : Str → Prop) (w : State) (q : Nat) : Prop :=
  ∃ s, w.qrels[q]? = some s ∧ (Wf s.data ∧ FlagOk s) ∧ ∀ x, K x → x ∈ s.data.keys

/-- qrels `j` of `w` is still there in `w'` -/
def QrelsKept (w w' : State) (j : Nat) : Prop :=
  ∀ s, w.qrels[j]? = some s → ∃ s', w'.qrels[j]? = some s' ∧ Keeps s s'

variable {own : Bool} {K : Str → Prop}

theorem RunKept.refl (w : State) (j : Nat) : RunKept own K w w j := fun n h => ⟨n, h, rfl, .refl _ _ _⟩

theorem QrelsKept.refl (w : State) (j : Nat) : QrelsKept w w j := fun s h => ⟨s, h, .refl _⟩

theorem RunKept.trans {a b c : State} {j : Nat} (h : RunKept own K a b j) (h' : RunKept own K b c j) : RunKept own K a c j := by
  intro n hn
  obtain ⟨n1, h1, e1, k1⟩ := h n hn
  obtain ⟨n2, h2, e2, k2⟩ := h' n1 h1
  exact ⟨n2, h2, e2.trans e1, k1.trans k2⟩

theorem QrelsKept.trans {a b c : State} {j : Nat} (h : QrelsKept a b j) (h' : QrelsKept b c j) : QrelsKept a c j := by
  intro n hn
  obtain ⟨n1, h1, k1⟩ := h n hn
  obtain ⟨n2, h2, k2⟩ := h' n1 h1
  exact ⟨n2, h2, k1.trans k2⟩

theorem HasQrels.kept {w w' : State} {q : Nat} (h : HasQrels K w q) (hk : QrelsKept w w' q) : HasQrels K w' q := by
  obtain ⟨s, h1, h2, h3⟩ := h
  obtain ⟨s', h1', h2'⟩ := hk s h1
  exact ⟨s', h1', (h2' h2).ok, fun x hx => (mem_keys_content (h2' h2).content x).2 (h3 x hx)⟩

theorem setRun_get (w : State) (r : Nat) (x : RunObj Str Str ℝ) (j : Nat) :
    (w.setRun r x).runs[j]? = (w.runs[j]?).map (fun n => if r = j then { n with obj := x } else n) := by
  unfold State.setRun
  rw [List.getElem?_modify]
  by_cases h : r = j
  · simp only [if_pos h]; rfl
  · simp only [if_neg h]; cases w.runs[j]? <;> rfl

/-- writing back a run that holds the same as in `w0` -/
theorem runKept_setRun {w0 w : State} {j : Nat} (h : RunKept own K w0 w j) (r : Nat) (x : RunObj Str Str ℝ)
    (hx : r = j → ∀ n, w0.runs[j]? = some n → Holds own K n.obj.store x.store) : RunKept own K w0 (w.setRun r x) j := by
  intro n hn
  obtain ⟨n1, h1, e1, k1⟩ := h n hn
  rw [setRun_get, h1]
  by_cases hr : r = j
  · refine ⟨{ n1 with obj := x }, ?_, e1, hx hr n hn⟩
    rw [Option.map_some, if_pos hr]
  · exact ⟨n1, by rw [Option.map_some, if_neg hr], e1, k1⟩

theorem qrelsKept_setRun {w0 w : State} {j : Nat} (h : QrelsKept w0 w j) (r : Nat) (x : RunObj Str Str ℝ) :
    QrelsKept w0 (w.setRun r x) j := h

theorem runKept_setQrels {w0 w : State} {j : Nat} (h : RunKept own K w0 w j) (q : Nat) (s : Store Str Str Int) :
    RunKept own K w0 (w.setQrels q s) j := h

theorem qrelsKept_setQrels {w0 w : State} {j : Nat} (h : QrelsKept w0 w j) (q : Nat) (s : Store Str Str Int)
    (hx : q = j → ∀ n, w0.qrels[j]? = some n → Keeps n s) : QrelsKept w0 (w.setQrels q s) j := by
  intro n hn
  obtain ⟨n1, h1, k1⟩ := h n hn
  unfold State.setQrels
  simp only [List.getElem?_set]
  by_cases hq : q = j
  · have hl : q < w.qrels.length := by
      rw [hq]; exact (List.getElem?_eq_some_iff.1 h1).1
    exact ⟨s, by rw [if_pos hq, if_pos hl], hx hq n hn⟩
  · exact ⟨n1, by rw [if_neg hq, h1], k1⟩

theorem qrelsKept_setRuns {w0 : State} {j : Nat} : ∀ (rs : List Nat) (xs : List (RunObj Str Str ℝ)) (w : State),
    QrelsKept w0 w j → QrelsKept w0 (w.setRuns rs xs) j
  | [], _, _, h => by unfold State.setRuns; exact h
  | _ :: _, [], _, h => by unfold State.setRuns; exact h
  | r :: rs, x :: xs, w, h => by
    unfold State.setRuns
    exact qrelsKept_setRuns rs xs _ (qrelsKept_setRun h r x)

theorem runKept_setRuns {w0 : State} {j : Nat} : ∀ (rs : List Nat) (xs : List (RunObj Str Str ℝ)) (w : State),
    RunKept own K w0 w j → (∀ p ∈ rs.zip xs, p.1 = j → ∀ n, w0.runs[j]? = some n → Holds own K n.obj.store p.2.store) →
    RunKept own K w0 (w.setRuns rs xs) j
  | [], _, _, h, _ => by unfold State.setRuns; exact h
  | _ :: _, [], _, h, _ => by unfold State.setRuns; exact h
  | r :: rs, x :: xs, w, h, hx => by
    unfold State.setRuns
    refine runKept_setRuns rs xs _ (runKept_setRun h r x (hx (r, x) (by simp))) ?_
    intro p hp
    exact hx p (by rw [List.zip_cons_cons]; exact List.mem_cons_of_mem _ hp)

/-! ### `evaluate` -/

theorem evaluate_after (V : EvalEnv Str ι) (S : ArgSort ℝ) (sched : Nat → List Nat) (o : Opts) (s : Store Str Str Int)
    (r : RunObj Str Str ℝ) (ms : List Str) :
    let a := Eval.evaluate V.F V.other V.SQ S V.hash sched o (.obj s) (.obj r) ms
    Touched V.SQ s (qrelsAfter s a.1) ∧ Touched S (comparable S o s r) (runAfter r a.1).store := by
  intro a
  have ha : a = Eval.evaluate V.F V.other V.SQ S V.hash sched o (.obj s) (.obj r) ms := rfl
  rw [evaluate_obj] at ha
  by_cases hb : Eval.sameKeys s.data.keys (comparable S o s r).data.keys = true
  · rw [if_pos hb] at ha
    cases hd : scoreAll V.F V.other sched (Store.rows V.hash (fun z : Int => (z : ℝ)) (s.ensureSorted V.SQ).data)
      (Store.rows V.hash id ((comparable S o s r).ensureSorted S).data) ms.zipIdx [] with
    | error e =>
      rw [hd] at ha
      rw [ha]
      exact ⟨.inr rfl, .inr rfl⟩
    | ok d =>
      rw [hd] at ha
      rw [ha]
      refine ⟨.inr rfl, .inr ?_⟩
      show (saveAll V.F o d _).store = _
      unfold saveAll
      by_cases hsv : o.save = true
      · rw [if_pos hsv, fold_store]
      · rw [if_neg hsv]
  · rw [if_neg hb] at ha
    rw [ha]
    exact ⟨.inl rfl, .inl rfl⟩

theorem evaluate_isObj (V : EvalEnv Str ι) (S : ArgSort ℝ) (sched : Nat → List Nat) (o : Opts) (s : Store Str Str Int)
    (r : RunObj Str Str ℝ) (ms : List Str) :
    ∃ s', (Eval.evaluate V.F V.other V.SQ S V.hash sched o (.obj s) (.obj r) ms).1.qrels = .obj s' := by
  rw [evaluate_obj]
  by_cases hb : Eval.sameKeys s.data.keys (comparable S o s r).data.keys = true
  · rw [if_pos hb]
    cases scoreAll V.F V.other sched (Store.rows V.hash (fun z : Int => (z : ℝ)) (s.ensureSorted V.SQ).data)
      (Store.rows V.hash id ((comparable S o s r).ensureSorted S).data) ms.zipIdx [] with
    | error e => exact ⟨_, rfl⟩
    | ok d => exact ⟨_, rfl⟩
  · rw [if_neg hb]
    exact ⟨_, rfl⟩

theorem comparable_off (S : ArgSort ℝ) (o : Opts) (h : ¬o.makeComparable = true) (s : Store Str Str Int)
    (r : RunObj Str Str ℝ) : comparable S o s r = r.store := by
  unfold comparable; rw [if_neg h]

theorem evalCall_kept (V : EvalEnv Str ι) (S : ArgSort ℝ) (sched : Nat → List Nat) (o : Opts) (q r : Nat)
    (s : Store Str Str Int) (n : NamedRun Str Str ℝ) (ms : List Str) (w : State) (hs : w.qrels[q]? = some s)
    (hn : w.runs[r]? = some n) (q0 j : Nat) (hK : own = true → HasQrels K w q0) :
    (¬(r = j ∧ o.makeComparable = true ∧ ¬(own = true ∧ q = q0)) → RunKept own K w (evalCall V S sched o q r s n ms w).1 j) ∧
      ∀ j', QrelsKept w (evalCall V S sched o q r s n ms w).1 j' := by
  obtain ⟨h1, h2⟩ := evaluate_after V S sched o s n.obj ms
  unfold evalCall
  constructor
  · intro hj
    apply runKept_setRun (runKept_setQrels (.refl w j) q _)
    intro hrj m hm
    rw [← hrj, hn] at hm
    cases hm
    by_cases hmc : o.makeComparable = true
    · by_cases hown : own = true ∧ q = q0
      · obtain ⟨h3, h4⟩ := hown
        subst h3
        obtain ⟨s0, e1, -, e3⟩ := hK rfl
        rw [← h4, hs] at e1
        cases e1
        exact (holds_comparable S o s n.obj K e3).trans (keeps_touched h2).holds
      · exact absurd ⟨hrj, hmc, hown⟩ hj
    · rw [comparable_off S o hmc] at h2
      exact (keeps_touched h2).holds
  · intro j'
    apply qrelsKept_setRun
    apply qrelsKept_setQrels (.refl w j')
    intro hqj m hm
    rw [← hqj, hs] at hm
    cases hm
    exact keeps_touched h1

theorem compareLoop_kept (V : EvalEnv Str ι) (S : ArgSort ℝ) (sched : Nat → Nat → List Nat) (mc : Bool)
    (ms : List Str) (q q0 j : Nat) : ∀ (l : List (Nat × Nat)) (b : Built) (w : State),
    (own = true → HasQrels K w q0) →
    (¬(j ∈ l.map Prod.fst ∧ mc = true ∧ ¬(own = true ∧ q = q0)) →
        RunKept own K w (compareLoop V S sched mc ms q l b w).1 j) ∧
      ∀ j', QrelsKept w (compareLoop V S sched mc ms q l b w).1 j' := by
  intro l
  induction l with
  | nil => intro b w _; simp only [compareLoop]; exact ⟨fun _ => .refl w j, .refl w⟩
  | cons p t ih =>
    obtain ⟨r, i⟩ := p
    intro b w hK
    simp only [compareLoop]
    cases hs : w.qrels[q]? with
    | none => exact ⟨fun _ => .refl w j, .refl w⟩
    | some s =>
      cases hn : w.runs[r]? with
      | none => exact ⟨fun _ => .refl w j, .refl w⟩
      | some n =>
        simp only
        obtain ⟨k1, k2⟩ := evalCall_kept (own := own) (K := K) V S (sched i)
          { returnMean := false, makeComparable := mc } q r s n ms w hs hn q0 j hK
        have k1' : ¬(j ∈ (((r, i) :: t).map Prod.fst) ∧ mc = true ∧ ¬(own = true ∧ q = q0)) →
            RunKept own K w (evalCall V S (sched i) { returnMean := false, makeComparable := mc } q r s n ms w).1 j :=
          fun hj => k1 (fun h => hj ⟨by rw [← h.1]; simp, h.2⟩)
        rcases hc : evalCall V S (sched i) { returnMean := false, makeComparable := mc } q r s n ms w with ⟨w', res⟩
        rw [hc] at k1' k2
        cases res with
        | error e => exact ⟨k1', k2⟩
        | ok out =>
          simp only
          cases means (asScores ms out) ms ((b.results.get? (modelName i n)).getD []) with
          | error e => exact ⟨k1', k2⟩
          | ok x =>
            simp only
            obtain ⟨g1, g2⟩ := ih ⟨b.names ++ [modelName i n], b.scores.set (modelName i n) (asScores ms out),
              if ms = [] then b.results else b.results.set (modelName i n) x⟩ w' (fun e => (hK e).kept (k2 q0))
            exact ⟨fun hj => (k1' hj).trans (g1 (fun h => hj ⟨by
              rw [List.map_cons]; exact List.mem_cons_of_mem _ h.1, h.2⟩)), fun j' => (k2 j').trans (g2 j')⟩

theorem get_zip (w : State) {P : RunObj Str Str ℝ → RunObj Str Str ℝ → Prop} :
    ∀ (rs : List Nat) (_ : w.has rs = true) (xs : List (RunObj Str Str ℝ))
      (_ : List.Forall₂ P ((w.get rs).map (fun n => n.obj)) xs) (p : Nat × RunObj Str Str ℝ) (_ : p ∈ rs.zip xs)
      (n : NamedRun Str Str ℝ) (_ : w.runs[p.1]? = some n), P n.obj p.2 := by
  intro rs
  induction rs with
  | nil => intro _ xs _ p hp; simp at hp
  | cons r rs ih =>
    intro hh xs hf p hp n hn
    unfold State.has at hh
    rw [List.all_cons, Bool.and_eq_true] at hh
    obtain ⟨m, hm⟩ : ∃ m, w.runs[r]? = some m :=
      ⟨_, List.getElem?_eq_getElem (of_decide_eq_true hh.1)⟩
    have hg : w.get (r :: rs) = m :: w.get rs := by
      unfold State.get
      rw [List.filterMap_cons, hm]
    rw [hg, List.map_cons] at hf
    cases hf with
    | cons a b =>
      rw [List.zip_cons_cons] at hp
      rcases List.mem_cons.1 hp with rfl | hp
      · rw [hm] at hn
        cases hn
        exact a
      · exact ih hh.2 _ b p hp n hn

theorem forall₂_withStores (S : ArgSort ℝ) : ∀ (l : List (NamedRun Str Str ℝ)),
    List.Forall₂ (fun r r' : RunObj Str Str ℝ => Keeps r.store r'.store) (l.map (fun n => n.obj))
      (withStores (l.map (fun n => n.obj)) (l.map (fun n => n.obj.store.ensureSorted S))) := by
  intro l
  induction l with
  | nil => exact .nil
  | cons n t ih => exact .cons (keeps_ensure S _) ih

theorem addRun_kept (w : State) (name : Option Str) (x : Except Err (Store Str Str ℝ)) (j : Nat) :
    RunKept own K w (w.addRun name x).1 j ∧ QrelsKept w (w.addRun name x).1 j := by
  cases x with
  | error e => exact ⟨.refl w j, .refl w j⟩
  | ok s =>
    refine ⟨?_, .refl w j⟩
    intro n hn
    refine ⟨n, ?_, rfl, .refl _ _ _⟩
    show (w.runs ++ _)[j]? = _
    rw [List.getElem?_append_left (List.getElem?_eq_some_iff.1 hn).1]
    exact hn

/-- a call keeps every run and qrels it does not change -/
theorem step_kept (w : State) (c : Call ι) (q0 j : Nat) (hK : own = true → HasQrels K w q0) :
    (¬Spec.ChangesRun own q0 j c → RunKept own K w (step w c).1 j) ∧
      (¬Spec.ChangesQrels j c → QrelsKept w (step w c).1 j) := by
  cases c with
  | qrelsOp S q op =>
    simp only [step]
    cases hs : w.qrels[q]? with
    | none => exact ⟨fun _ => .refl w j, fun _ => .refl w j⟩
    | some s =>
      refine ⟨fun _ => runKept_setQrels (.refl w j) q _, fun hc => qrelsKept_setQrels (.refl w j) q _ ?_⟩
      intro hq m hm
      rw [← hq, hs] at hm
      cases hm
      exact keeps_step S s op (fun h => hc ⟨hq, h.1, h.2⟩)
  | setLevel q lvl =>
    simp only [step]
    cases hs : w.qrels[q]? with
    | none => exact ⟨fun _ => .refl w j, fun _ => .refl w j⟩
    | some s =>
      refine ⟨fun _ => runKept_setQrels (.refl w j) q _, fun hc => qrelsKept_setQrels (.refl w j) q _ ?_⟩
      intro hq m hm
      exact absurd hq hc
  | runOp S r op =>
    simp only [step]
    cases hs : w.runs[r]? with
    | none => exact ⟨fun _ => .refl w j, fun _ => .refl w j⟩
    | some n =>
      refine ⟨fun hc => runKept_setRun (.refl w j) r _ ?_, fun _ => .refl w j⟩
      intro hq m hm
      rw [← hq, hs] at hm
      cases hm
      exact (keeps_step S n.obj.store op (fun h => hc ⟨hq, h.1, h.2⟩)).holds
  | newQrels S d =>
    simp only [step]
    cases Store.ofDict S d with
    | error e => exact ⟨fun _ => .refl w j, fun _ => .refl w j⟩
    | ok s =>
      refine ⟨fun _ => .refl w j, fun _ => ?_⟩
      intro n hn
      refine ⟨n, ?_, .refl _⟩
      show (w.qrels ++ _)[j]? = _
      rw [List.getElem?_append_left (List.getElem?_eq_some_iff.1 hn).1]
      exact hn
  | newRun S name d => exact ⟨fun _ => (addRun_kept (own := own) (K := K) w name _ j).1, fun _ => (addRun_kept (own := own) (K := K) w name _ j).2⟩
  | evaluate V S o q r ms =>
    simp only [step]
    cases hs : w.qrels[q]? with
    | none => exact ⟨fun _ => .refl w j, fun _ => .refl w j⟩
    | some s =>
      cases hn : w.runs[r]? with
      | none => exact ⟨fun _ => .refl w j, fun _ => .refl w j⟩
      | some n =>
        obtain ⟨k1, k2⟩ := evalCall_kept (own := own) (K := K) V S V.sched o q r s n ms w hs hn q0 j hK
        exact ⟨fun h => k1 (fun h' => h h'), fun _ => k2 j⟩
  | compare V S sched a q rs ms =>
    simp only [step]
    obtain ⟨k1, k2⟩ := compareLoop_kept (own := own) (K := K) V S sched a.makeComparable ms q q0 j rs.zipIdx
      ⟨[], [], []⟩ w hK
    have hz : (rs.zipIdx).map Prod.fst = rs := List.zipIdx_map_fst ..
    rw [hz] at k1
    rcases hc : compareLoop V S sched a.makeComparable ms q rs.zipIdx ⟨[], [], []⟩ w with ⟨w', res⟩
    rw [hc] at k1 k2
    cases res with
    | error e => exact ⟨fun h => k1 (fun h' => h h'), fun _ => k2 j⟩
    | ok b => exact ⟨fun h => k1 (fun h' => h h'), fun _ => k2 j⟩
  | plot cutoff V S single q rs =>
    simp only [step]
    cases hs : w.qrels[q]? with
    | none => exact ⟨fun _ => .refl w j, fun _ => .refl w j⟩
    | some s =>
      simp only
      by_cases hh : w.has rs = true
      · rw [if_neg (by rw [hh]; decide)]
        refine ⟨fun _ => runKept_setRuns rs _ _ (runKept_setQrels (.refl w j) q _) ?_,
          fun _ => qrelsKept_setRuns rs _ _ (qrelsKept_setQrels (.refl w j) q _ ?_)⟩
        · intro p hp hpj n hn
          rw [← hpj] at hn
          have hst : (Plot.plot cutoff V.SQ S V.hash V.sched single s
              ((w.get rs).map (fun n => (n.name, n.obj.store)))).2.1 =
              (w.get rs).map (fun n => n.obj.store.ensureSorted S) := by
            unfold Plot.plot Store.toTypedList
            simp only [List.map_map]
            rfl
          rw [hst] at hp
          exact (get_zip w rs hh _ (forall₂_withStores S (w.get rs)) p hp n hn).holds
        · intro hqj m hm
          rw [← hqj, hs] at hm
          cases hm
          exact keeps_ensure V.SQ s
      · rw [if_pos (by simpa using hh)]
        exact ⟨fun _ => .refl w j, fun _ => .refl w j⟩
  | optimize E norm method metric wantReport space q rs =>
    simp only [step]
    cases hs : w.qrels[q]? with
    | none => exact ⟨fun _ => .refl w j, fun _ => .refl w j⟩
    | some s =>
      simp only
      by_cases hh : w.has rs = true
      · rw [if_neg (by rw [hh]; decide)]
        have ht := optimizeFusionS_touched E.fuse E.eval E.rowSched E.rnd E.str E.strNat norm method metric wantReport
          space s ((w.get rs).map (fun n => n.obj))
        refine ⟨fun _ => runKept_setRuns rs _ _ (runKept_setQrels (.refl w j) q _) ?_,
          fun _ => qrelsKept_setRuns rs _ _ (qrelsKept_setQrels (.refl w j) q _ ?_)⟩
        · intro p hp hpj n hn
          rw [← hpj] at hn
          have := get_zip w rs hh _ (ht.runsOk.imp (fun _ _ h => keeps_touched h.1)) p hp n hn
          exact this.holds
        · intro hqj m hm
          rw [← hqj, hs] at hm
          cases hm
          exact keeps_touched ht.qrelsOk
      · rw [if_pos (by simpa using hh)]
        exact ⟨fun _ => .refl w j, fun _ => .refl w j⟩
  | fuse E rs norm method params =>
    exact ⟨fun _ => (addRun_kept (own := own) (K := K) w none _ j).1, fun _ => (addRun_kept (own := own) (K := K) w none _ j).2⟩
  | normalize E norm r =>
    simp only [step]
    cases hs : w.runs[r]? with
    | none => exact ⟨fun _ => .refl w j, fun _ => .refl w j⟩
    | some n => exact ⟨fun _ => (addRun_kept (own := own) (K := K) w none _ j).1, fun _ => (addRun_kept (own := own) (K := K) w none _ j).2⟩
  | save S r path kind =>
    simp only [step]
    cases hs : w.runs[r]? with
    | none => exact ⟨fun _ => .refl w j, fun _ => .refl w j⟩
    | some n =>
      simp only
      cases Files.runKind path kind with
      | error e => exact ⟨fun _ => .refl w j, fun _ => .refl w j⟩
      | ok k =>
        refine ⟨fun hc => runKept_setRun (.refl w j) r _ ?_, fun _ => .refl w j⟩
        intro hq m hm
        rw [← hq, hs] at hm
        cases hm
        exact (keeps_ensure S n.obj.store).holds

theorem exec_qrelsKept (j : Nat) : ∀ (cs : List (Call ι)) (w : State), (∀ c ∈ cs, ¬Spec.ChangesQrels j c) →
    QrelsKept w (exec w cs) j
  | [], w, _ => .refl w j
  | c :: cs, w, h => ((step_kept (own := false) (K := fun _ => False) w c 0 j (by simp)).2 (h c (by simp))).trans
      (exec_qrelsKept j cs (step w c).1 (fun c hc => h c (by simp [hc])))

theorem exec_runKept (q0 j : Nat) : ∀ (cs : List (Call ι)) (w : State), (own = true → HasQrels K w q0) →
    (∀ c ∈ cs, ¬Spec.ChangesQrels q0 c) → (∀ c ∈ cs, ¬Spec.ChangesRun own q0 j c) → RunKept own K w (exec w cs) j
  | [], w, _, _, _ => .refl w j
  | c :: cs, w, hK, hq, h =>
    ((step_kept w c q0 j hK).1 (h c (by simp))).trans
      (exec_runKept q0 j cs (step w c).1 (fun e => (hK e).kept
          ((step_kept (own := own) (K := K) w c q0 q0 hK).2 (hq c (by simp))))
        (fun c hc => hq c (by simp [hc])) (fun c hc => h c (by simp [hc])))

/-! ### `evaluate` and `compare` in a later state -/

theorem evaluate_held (V : EvalEnv Str ι) (SQ' : ArgSort Int) (S S' : ArgSort ℝ) (sched : Nat → List Nat) (o : Opts)
    (s s' : Store Str Str Int) (r r' : RunObj Str Str ℝ) (ms : List Str) (hs : Wf s.data ∧ FlagOk s)
    (hr : Wf r.store.data ∧ FlagOk r.store) (hk : Kept s s') (hh : Held own (· ∈ s.data.keys) r.store r'.store)
    (ho : own = true → o.makeComparable = true) (ha : ∀ x ∈ s.data.keys, Spec.JudgedApart V.hash s x)
    (ht : ∀ x ∈ s.data.keys, ∀ d d' v, (Spec.content r.store).read x d = some v →
      (Spec.content r.store).read x d' = some v → d = d') :
    (evaluate V.F V.other SQ' S' V.hash sched o (.obj s') (.obj r') ms).2 =
      (evaluate V.F V.other V.SQ S V.hash sched o (.obj s) (.obj r) ms).2 := by
  symm
  rw [evaluate_same_order_ok V.F V.other V.SQ S S' V.hash sched o s r r' ms hs hr hh.ok ?_ ?_]
  · refine evaluate_same_qrels_ok V.F V.other V.SQ SQ' S' V.hash sched o s s' r' ms hs hk.ok hh.ok
      (fun x => (mem_keys_content hk.content x).symm) (fun x d => by rw [hk.content]) ha
  · cases hown : own with
    | true => exact .inl (ho hown)
    | false => exact .inr (fun x => (hh.keys hown x).symm)
  · intro x hx
    refine ⟨fun d => by rw [hh.reads x hx], ht x hx, ?_⟩
    intro d d' v v' u u' h1 h2 h3 h4 hlt
    rw [hh.reads x hx, h1] at h3
    rw [hh.reads x hx, h2] at h4
    cases h3
    cases h4
    exact hlt

/-- the objects of `w` named by `q` and `rs` hold what `s` and `n r` hold -/
structure Like (own : Bool) (s : Store Str Str Int) (n : Nat → NamedRun Str Str ℝ) (q : Nat) (rs : List Nat) (w : State) :
    Prop where
  qrels : ∃ s', w.qrels[q]? = some s' ∧ Kept s s'
  runs : ∀ r ∈ rs, ∃ n', w.runs[r]? = some n' ∧ n'.name = (n r).name ∧
    Held own (· ∈ s.data.keys) (n r).obj.store n'.obj.store

theorem Like.has {s : Store Str Str Int} {n : Nat → NamedRun Str Str ℝ} {q : Nat} {rs : List Nat} {w : State}
    (h : Like own s n q rs w) : HasQrels (· ∈ s.data.keys) w q := by
  obtain ⟨s', h1, h2⟩ := h.qrels
  exact ⟨s', h1, h2.ok, fun x hx => (mem_keys_content h2.content x).2 hx⟩

theorem Like.next {s : Store Str Str Int} {n : Nat → NamedRun Str Str ℝ} {q : Nat} {rs : List Nat} {w w' : State}
    (h : Like own s n q rs w) (hq : QrelsKept w w' q) (hr : ∀ r ∈ rs, RunKept own (· ∈ s.data.keys) w w' r) :
    Like own s n q rs w' := by
  constructor
  · obtain ⟨s', h1, h2⟩ := h.qrels
    obtain ⟨s'', h3, h4⟩ := hq s' h1
    exact ⟨s'', h3, (h4 h2.ok).ok, (h4 h2.ok).content.trans h2.content, fun hs ht => by
      have e := h2.same hs ht
      have e' := (h4 h2.ok).same (by rw [e]; exact hs) (by rw [e]; exact ht)
      rw [e', e]⟩
  · intro r hrs
    obtain ⟨n', h1, h2, h3⟩ := h.runs r hrs
    obtain ⟨n'', h4, h5, h6⟩ := hr r hrs n' h1
    have h7 := h6 h3.ok
    exact ⟨n'', h4, h5.trans h2, h7.ok, fun e x => (h7.keys e x).trans (h3.keys e x),
      fun x hx d => (h7.reads x hx d).trans (h3.reads x hx d), fun ho hs ht => by
      have e := h3.same ho hs ht
      have e' := h7.same ho (by rw [e]; exact hs) (by rw [e]; exact ht)
      rw [e', e]⟩

/-- the loop of `compare` on copies of the objects -/
noncomputable def copyLoop (V : EvalEnv Str ι) (S : ArgSort ℝ) (sched : Nat → Nat → List Nat) (mc : Bool)
    (ms : List Str) (s : Store Str Str Int) (n : Nat → NamedRun Str Str ℝ) :
    List (Nat × Nat) → Built → Except Err Built
  | [], b => .ok b
  | (r, i) :: t, b =>
    match (evaluate V.F V.other V.SQ S V.hash (sched i) { returnMean := false, makeComparable := mc } (.obj s)
        (.obj (n r).obj) ms).2 with
    | .error e => .error e
    | .ok out =>
      match means (asScores ms out) ms ((b.results.get? (modelName i (n r))).getD []) with
      | .error e => .error e
      | .ok x => copyLoop V S sched mc ms s n t
          ⟨b.names ++ [modelName i (n r)], b.scores.set (modelName i (n r)) (asScores ms out),
            if ms = [] then b.results else b.results.set (modelName i (n r)) x⟩

theorem modelName_congr (i : Nat) {n n' : NamedRun Str Str ℝ} (h : n'.name = n.name) : modelName i n' = modelName i n := by
  unfold modelName; rw [h]

/-- what `compare` asks of the objects -/
structure Tame (V : EvalEnv Str ι) (s : Store Str Str Int) (n : Nat → NamedRun Str Str ℝ) (rs : List Nat) : Prop where
  qrels : Wf s.data ∧ FlagOk s
  runs : ∀ r ∈ rs, Wf (n r).obj.store.data ∧ FlagOk (n r).obj.store
  apart : ∀ x ∈ s.data.keys, Spec.JudgedApart V.hash s x
  tie : ∀ r ∈ rs, ∀ x ∈ s.data.keys, ∀ d d' v, (Spec.content (n r).obj.store).read x d = some v →
      (Spec.content (n r).obj.store).read x d' = some v → d = d'

theorem compareLoop_copies (V : EvalEnv Str ι) (SQ' : ArgSort Int) (S S' : ArgSort ℝ) (sched : Nat → Nat → List Nat)
    (mc : Bool) (ms : List Str) (q : Nat) (s : Store Str Str Int) (n : Nat → NamedRun Str Str ℝ) (rs : List Nat)
    (hT : Tame V s n rs) : ∀ (l : List (Nat × Nat)) (b : Built) (w : State), (∀ p ∈ l, p.1 ∈ rs) → Like mc s n q rs w →
    (compareLoop { V with SQ := SQ' } S' sched mc ms q l b w).2 = copyLoop V S sched mc ms s n l b := by
  intro l
  induction l with
  | nil => intro b w _ _; rfl
  | cons p t ih =>
    obtain ⟨r, i⟩ := p
    intro b w hl hw
    have hr : r ∈ rs := hl (r, i) (by simp)
    obtain ⟨s', hs, hk⟩ := hw.qrels
    obtain ⟨n', hn, hname, hh⟩ := hw.runs r hr
    simp only [compareLoop, copyLoop, hs, hn]
    have he := evaluate_held V SQ' S S' (sched i) { returnMean := false, makeComparable := mc } s s' (n r).obj n'.obj ms
      hT.qrels (hT.runs r hr) hk hh (fun e => e) hT.apart (hT.tie r hr)
    have hk2 : ∀ j, _ := fun j => evalCall_kept (own := mc) (K := (· ∈ s.data.keys)) { V with SQ := SQ' } S' (sched i)
      { returnMean := false, makeComparable := mc } q r s' n' ms w hs hn q j (fun _ => hw.has)
    have hw2 : Like mc s n q rs (evalCall { V with SQ := SQ' } S' (sched i)
        { returnMean := false, makeComparable := mc } q r s' n' ms w).1 :=
      hw.next ((hk2 0).2 q) (fun j _ => (hk2 j).1 (fun h => h.2.2 ⟨h.2.1, rfl⟩))
    have hres : (evalCall { V with SQ := SQ' } S' (sched i)
        { returnMean := false, makeComparable := mc } q r s' n' ms w).2 = _ := he
    rcases hc : evalCall { V with SQ := SQ' } S' (sched i) { returnMean := false, makeComparable := mc } q r s' n' ms w
      with ⟨w', res⟩
    rw [hc] at hw2 hres
    simp only at hres
    rw [← hres]
    cases res with
    | error e => rfl
    | ok out =>
      simp only [modelName_congr i hname]
      cases means (asScores ms out) ms ((b.results.get? (modelName i (n r))).getD []) with
      | error e => rfl
      | ok x => exact ih _ _ (fun p hp => hl p (by simp [hp])) hw2

theorem like_self (w : State) (q : Nat) (rs : List Nat) (s : Store Str Str Int) (n : Nat → NamedRun Str Str ℝ)
    (hs : w.qrels[q]? = some s) (hn : ∀ r ∈ rs, w.runs[r]? = some (n r)) (hok : Wf s.data ∧ FlagOk s)
    (hr : ∀ r ∈ rs, Wf (n r).obj.store.data ∧ FlagOk (n r).obj.store) : Like own s n q rs w :=
  ⟨⟨s, hs, hok, rfl, fun _ _ => rfl⟩,
    fun r h => ⟨n r, hn r h, rfl, hr r h, fun _ _ => Iff.rfl, fun _ _ _ => rfl, fun _ _ _ => rfl⟩⟩

theorem like_exec (w : State) (q : Nat) (rs : List Nat) (s : Store Str Str Int) (n : Nat → NamedRun Str Str ℝ)
    (h : Like own s n q rs w) (cs : List (Call ι)) (hq : ∀ c ∈ cs, ¬Spec.ChangesQrels q c)
    (hr : ∀ r ∈ rs, ∀ c ∈ cs, ¬Spec.ChangesRun own q r c) : Like own s n q rs (exec w cs) :=
  h.next (exec_qrelsKept q cs w hq) (fun r hrs => exec_runKept q r cs w (fun _ => h.has) hq (hr r hrs))

/-- how `compare` ends, from the result of its loop -/
noncomputable def ending (a : CompareArgs) (ms : List Str) : Except Err Built → Outcome
  | .error e => .raised e
  | .ok b => .of .report (compareEnd a ms b)

theorem step_compare (w : State) (V : EvalEnv Str ι) (S : ArgSort ℝ) (sched : Nat → Nat → List Nat) (a : CompareArgs)
    (q : Nat) (rs : List Nat) (ms : List Str) : (step w (.compare V S sched a q rs ms)).2 =
      ending a ms (compareLoop V S sched a.makeComparable ms q rs.zipIdx ⟨[], [], []⟩ w).2 := by
  simp only [step]
  rcases compareLoop V S sched a.makeComparable ms q rs.zipIdx ⟨[], [], []⟩ w with ⟨w', res⟩
  cases res <;> rfl

theorem mem_zipIdx_fst (rs : List Nat) : ∀ p ∈ rs.zipIdx, p.1 ∈ rs := by
  intro p hp
  have : p.1 ∈ (rs.zipIdx).map Prod.fst := List.mem_map_of_mem hp
  rwa [List.zipIdx_map_fst] at this

/-- `compare` on copies: the loop of `Rep.compare` -/
theorem evalRuns_copies (V : EvalEnv Str ι) (S : ArgSort ℝ) (sched : Nat → Nat → List Nat)
    (mc : Bool) (ms : List Str) (s : Store Str Str Int) (n : Nat → NamedRun Str Str ℝ) (rs : List Nat)
    (hT : Tame V s n rs) : ∀ (l : List (Nat × Nat)) (acc : Acc Str Str ℝ), (∀ p ∈ l, p.1 ∈ rs) →
    (∃ s', acc.qrels = .obj s' ∧ Kept s s') →
    (evalRuns V.F V.other V.SQ S V.hash sched mc ms (l.map (fun p => (n p.1, p.2))) acc).map
        (fun a => (⟨a.names, a.scores, a.results⟩ : Built)) =
      copyLoop V S sched mc ms s n l ⟨acc.names, acc.scores, acc.results⟩ := by
  intro l
  induction l with
  | nil => intro acc _ _; rfl
  | cons p t ih =>
    obtain ⟨r, i⟩ := p
    intro acc hl hq
    obtain ⟨s', hs, hk⟩ := hq
    have hr : r ∈ rs := hl (r, i) (by simp)
    have he := evaluate_held (own := mc) V V.SQ S S (sched i) { returnMean := false, makeComparable := mc } s s'
      (n r).obj (n r).obj ms hT.qrels (hT.runs r hr) hk ⟨hT.runs r hr, fun _ _ => Iff.rfl, fun _ _ _ => rfl, fun _ _ _ => rfl⟩
      (fun e => e) hT.apart (hT.tie r hr)
    have hk2 := (evaluate_after V S (sched i) { returnMean := false, makeComparable := mc } s' (n r).obj ms).1
    simp only [List.map_cons, evalRuns, copyLoop, hs]
    rcases hc : evaluate V.F V.other V.SQ S V.hash (sched i) { returnMean := false, makeComparable := mc } (.obj s')
      (.obj (n r).obj) ms with ⟨after, res⟩
    rw [hc] at he hk2
    simp only at he
    rw [← he]
    cases res with
    | error e => rfl
    | ok out =>
      simp only
      cases means (asScores ms out) ms ((acc.results.get? (modelName i (n r))).getD []) with
      | error e => rfl
      | ok x =>
        simp only
        refine ih _ (fun p hp => hl p (by simp [hp])) ?_
        obtain ⟨s'', ho⟩ := evaluate_isObj V S (sched i) { returnMean := false, makeComparable := mc } s' (n r).obj ms
        rw [hc] at ho
        simp only at ho
        refine ⟨s'', ho, ?_⟩
        unfold qrelsAfter at hk2
        rw [ho] at hk2
        have k1 : Keeps s' s'' := keeps_touched hk2
        have k2 : Keeps s s' := fun _ => hk
        exact k2.trans k1 hT.qrels

end Session

/-- **C107** (`evaluate`): after any calls that neither change the qrels nor the run, an evaluation gives the same
result (or raises the same error) as it would have given before them: neither the evaluations, comparisons, plots,
fusions and optimizations made in between, nor the sorting they do to their arguments, nor the sorting algorithm, can
be seen. The run has no ties in the queries judged. -/
theorem C107_evaluate (w : State) (cs : List (Call ι)) (q r : Nat) (s : Store Str Str Int) (n : NamedRun Str Str ℝ)
    (hs : w.qrels[q]? = some s) (hn : w.runs[r]? = some n) (V : EvalEnv Str ι) (SQ' : ArgSort Int) (S S' : ArgSort ℝ)
    (o : Opts) (ms : List Str) (hsu : Spec.Usable V.SQ s) (hru : Spec.Usable S n.obj.store)
    (ha : ∀ x ∈ s.data.keys, Spec.JudgedApart V.hash s x)
    (ht : ∀ x ∈ s.data.keys, ∀ d d' v, (Spec.content n.obj.store).read x d = some v →
      (Spec.content n.obj.store).read x d' = some v → d = d')
    (hq : ∀ c ∈ cs, ¬Spec.ChangesQrels q c) (hr : ∀ c ∈ cs, ¬Spec.ChangesRun false q r c) :
    (step (exec w cs) (.evaluate { V with SQ := SQ' } S' o q r ms)).2 = (step w (.evaluate V S o q r ms)).2 := by
  have hl := like_exec (own := false) w q [r] s (fun _ => n)
    (like_self w q [r] s (fun _ => n) hs (by simpa using hn) hsu.ok (fun _ _ => hru.ok)) cs hq
    (fun r' h => by rw [List.mem_singleton] at h; rw [h]; exact hr)
  obtain ⟨s', e1, hk⟩ := hl.qrels
  obtain ⟨n', e2, -, hh⟩ := hl.runs r (by simp)
  have he := evaluate_held V SQ' S S' V.sched o s s' n.obj n'.obj ms hsu.ok hru.ok hk hh (by simp) ha ht
  simp only [Session.step, hs, hn, e1, e2]
  exact congrArg (Outcome.of Outcome.out) he

/-- **C107** (`make_comparable`): and evaluations and comparisons with `make_comparable=True` against the same qrels may
have removed queries from the run and added some: with `make_comparable=True`, the result is still the same. -/
theorem C107_comparable (w : State) (cs : List (Call ι)) (q r : Nat) (s : Store Str Str Int) (n : NamedRun Str Str ℝ)
    (hs : w.qrels[q]? = some s) (hn : w.runs[r]? = some n) (V : EvalEnv Str ι) (SQ' : ArgSort Int) (S S' : ArgSort ℝ)
    (o : Opts) (ho : o.makeComparable = true) (ms : List Str) (hsu : Spec.Usable V.SQ s)
    (hru : Spec.Usable S n.obj.store) (ha : ∀ x ∈ s.data.keys, Spec.JudgedApart V.hash s x)
    (ht : ∀ x ∈ s.data.keys, ∀ d d' v, (Spec.content n.obj.store).read x d = some v →
      (Spec.content n.obj.store).read x d' = some v → d = d')
    (hq : ∀ c ∈ cs, ¬Spec.ChangesQrels q c) (hr : ∀ c ∈ cs, ¬Spec.ChangesRun true q r c) :
    (step (exec w cs) (.evaluate { V with SQ := SQ' } S' o q r ms)).2 = (step w (.evaluate V S o q r ms)).2 := by
  have hl := like_exec (own := true) w q [r] s (fun _ => n)
    (like_self w q [r] s (fun _ => n) hs (by simpa using hn) hsu.ok (fun _ _ => hru.ok)) cs hq
    (fun r' h => by rw [List.mem_singleton] at h; rw [h]; exact hr)
  obtain ⟨s', e1, hk⟩ := hl.qrels
  obtain ⟨n', e2, -, hh⟩ := hl.runs r (by simp)
  have he := evaluate_held V SQ' S S' V.sched o s s' n.obj n'.obj ms hsu.ok hru.ok hk hh (fun _ => ho) ha ht
  simp only [Session.step, hs, hn, e1, e2]
  exact congrArg (Outcome.of Outcome.out) he

/-- **C107** (`compare`): likewise for a comparison of any of the runs, with or without `make_comparable`: names,
scores, test results, wins, ties and losses of the report are what they would have been before the calls. -/
theorem C107_compare (w : State) (cs : List (Call ι)) (q : Nat) (rs : List Nat) (s : Store Str Str Int)
    (n : Nat → NamedRun Str Str ℝ) (hs : w.qrels[q]? = some s) (hn : ∀ r ∈ rs, w.runs[r]? = some (n r))
    (V : EvalEnv Str ι) (SQ' : ArgSort Int) (S S' : ArgSort ℝ) (sched : Nat → Nat → List Nat) (a : CompareArgs)
    (ms : List Str) (hsu : Spec.Usable V.SQ s) (hru : ∀ r ∈ rs, Spec.Usable S (n r).obj.store)
    (ha : ∀ x ∈ s.data.keys, Spec.JudgedApart V.hash s x)
    (ht : ∀ r ∈ rs, ∀ x ∈ s.data.keys, ∀ d d' v, (Spec.content (n r).obj.store).read x d = some v →
      (Spec.content (n r).obj.store).read x d' = some v → d = d')
    (hq : ∀ c ∈ cs, ¬Spec.ChangesQrels q c)
    (hr : ∀ r ∈ rs, ∀ c ∈ cs, ¬Spec.ChangesRun a.makeComparable q r c) :
    (step (exec w cs) (.compare { V with SQ := SQ' } S' sched a q rs ms)).2 =
      (step w (.compare V S sched a q rs ms)).2 := by
  have hT : Tame V s n rs := ⟨hsu.ok, fun r h => (hru r h).ok, ha, ht⟩
  have h0 := like_self (own := a.makeComparable) w q rs s n hs hn hT.qrels hT.runs
  rw [step_compare, step_compare,
    compareLoop_copies V SQ' S S' sched a.makeComparable ms q s n rs hT rs.zipIdx _ _ (mem_zipIdx_fst rs)
      (like_exec w q rs s n h0 cs hq hr),
    ← compareLoop_copies V V.SQ S S sched a.makeComparable ms q s n rs hT rs.zipIdx ⟨[], [], []⟩ w (mem_zipIdx_fst rs) h0]

theorem Session.get_eq (w : State) (n : Nat → NamedRun Str Str ℝ) : ∀ (rs : List Nat),
    (∀ r ∈ rs, w.runs[r]? = some (n r)) → w.get rs = rs.map n := by
  intro rs
  induction rs with
  | nil => intro _; rfl
  | cons r rs ih =>
    intro h
    unfold State.get
    rw [List.filterMap_cons, h r (by simp), List.map_cons]
    exact congrArg (n r :: ·) (ih (fun r' hr' => h r' (by simp [hr'])))

/-- **C107** (aliasing): `compare` may be given the same run object several times, and evaluates every run in the
state the others have left; the report is the one for separate copies of the objects. -/
theorem C107_copies (w : State) (q : Nat) (rs : List Nat) (s : Store Str Str Int)
    (n : Nat → NamedRun Str Str ℝ) (hs : w.qrels[q]? = some s) (hn : ∀ r ∈ rs, w.runs[r]? = some (n r))
    (V : EvalEnv Str ι) (S : ArgSort ℝ) (sched : Nat → Nat → List Nat) (a : CompareArgs)
    (ms : List Str) (hsu : Spec.Usable V.SQ s) (hru : ∀ r ∈ rs, Spec.Usable S (n r).obj.store)
    (ha : ∀ x ∈ s.data.keys, Spec.JudgedApart V.hash s x)
    (ht : ∀ r ∈ rs, ∀ x ∈ s.data.keys, ∀ d d' v, (Spec.content (n r).obj.store).read x d = some v →
      (Spec.content (n r).obj.store).read x d' = some v → d = d') :
    (step w (.compare V S sched a q rs ms)).2 =
      .of .report ((Rep.compare V.F V.other V.SQ S V.hash sched a.stat a.makeComparable a.test a.permutations a.maxP
        (.obj s) (rs.map n) ms).map (fun x => x.1)) := by
  have hT : Tame V s n rs := ⟨hsu.ok, fun r h => (hru r h).ok, ha, ht⟩
  have h0 := like_self (own := a.makeComparable) w q rs s n hs hn hT.qrels hT.runs
  have h1 := compareLoop_copies V V.SQ S S sched a.makeComparable ms q s n rs hT rs.zipIdx ⟨[], [], []⟩ w
    (mem_zipIdx_fst rs) h0
  have h2 := evalRuns_copies V S sched a.makeComparable ms s n rs hT rs.zipIdx ⟨.obj s, [], [], [], []⟩
    (mem_zipIdx_fst rs) ⟨s, rfl, hsu.ok, rfl, fun _ _ => rfl⟩
  have hz : (rs.map n).zipIdx = rs.zipIdx.map (fun p => (n p.1, p.2)) := List.zipIdx_map ..
  rw [step_compare]
  have h1' : (compareLoop V S sched a.makeComparable ms q rs.zipIdx ⟨[], [], []⟩ w).2 = _ := h1
  rw [h1', ← h2]
  unfold Rep.compare
  rw [hz]
  cases evalRuns V.F V.other V.SQ S V.hash sched a.makeComparable ms (rs.zipIdx.map (fun p => (n p.1, p.2)))
      ⟨.obj s, [], [], [], []⟩ with
  | error e => rfl
  | ok acc =>
    show Outcome.of Outcome.report (compareEnd a ms ⟨acc.names, acc.scores, acc.results⟩) = _
    unfold compareEnd
    simp only
    cases Stat.significance a.stat acc.names acc.scores a.test a.permutations a.maxP with
    | error e => rfl
    | ok c =>
      simp only
      cases wtlPairs acc.scores ms (pairs acc.names) [] with
      | error e => rfl
      | ok t => rfl

theorem Session.exec_runKept_plain (j : Nat) : ∀ (cs : List (Call ι)) (w : State),
    (∀ c ∈ cs, ¬Spec.ChangesRun false 0 j c) → RunKept false (fun _ => False) w (exec w cs) j
  | [], w, _ => .refl w j
  | c :: cs, w, h =>
    ((step_kept (own := false) w c 0 j (fun e => nomatch e)).1 (h c (by simp))).trans
      (exec_runKept_plain j cs (step w c).1 (fun c hc => h c (by simp [hc])))

theorem Session.tieFree_of_reads {s : Store Str Str ℝ} (hw : Wf s.data)
    (ht : ∀ x d d' v, (Spec.content s).read x d = some v → (Spec.content s).read x d' = some v → d = d') :
    TieFree s.data := by
  rintro ⟨x, inner⟩ hm
  have hn : (inner.map Prod.fst).Nodup := hw.2 _ hm
  have hg := get?_of_mem hw.1 hm
  have hread : ∀ p ∈ inner, (Spec.content s).read x p.1 = some p.2 := by
    intro p hp
    unfold Spec.Content.read Spec.content
    rw [hg]
    exact get?_of_mem (hw.2 _ hm) (k := p.1) (v := p.2) hp
  refine (List.nodup_map_iff_inj_on hn.of_map).2 ?_
  intro a ha b hb hab
  have h1 := hread a ha
  have h2 := hread b hb
  rw [← hab] at h2
  exact Prod.ext (ht x _ _ _ h1 h2) hab

/-- Specification: the run is sorted and has no ties. -/
structure Spec.SortedTieFree (S : ArgSort ℝ) (s : Store Str Str ℝ) : Prop where
  usable : Spec.Usable S s
  sorted : s.sorted = true
  tieFree : ∀ x d d' v, (Spec.content s).read x d = some v → (Spec.content s).read x d' = some v → d = d'

/-- **C107** (untouched): a sorted run without ties is not changed at all by such calls, whatever the sorting
algorithm: every query and every result is where it was. -/
theorem C107_untouched (w : State) (cs : List (Call ι)) (r : Nat) (n : NamedRun Str Str ℝ)
    (hn : w.runs[r]? = some n) (S : ArgSort ℝ) (hru : Spec.SortedTieFree S n.obj.store)
    (hr : ∀ c ∈ cs, ¬Spec.ChangesRun false 0 r c) :
    ∃ n', (exec w cs).runs[r]? = some n' ∧ n'.name = n.name ∧ n'.obj.store = n.obj.store := by
  obtain ⟨n', h1, h2, h3⟩ := exec_runKept_plain r cs w hr n hn
  exact ⟨n', h1, h2, (h3 hru.usable.ok).same rfl hru.sorted (tieFree_of_reads hru.usable.ok.1 hru.tieFree)⟩

theorem Session.get_stores (w w' : State) : ∀ (rs : List Nat),
    (∀ r ∈ rs, ∃ n n', w.runs[r]? = some n ∧ w'.runs[r]? = some n' ∧ n'.obj.store = n.obj.store) →
    (w'.get rs).map (fun n => n.obj.store) = (w.get rs).map (fun n => n.obj.store) := by
  intro rs
  induction rs with
  | nil => intro _; rfl
  | cons r rs ih =>
    intro h
    obtain ⟨n, n', e1, e2, e3⟩ := h r (by simp)
    have := ih (fun r' hr' => h r' (by simp [hr']))
    unfold State.get at this ⊢
    rw [List.filterMap_cons, List.filterMap_cons, e1, e2]
    simp only [List.map_cons, e3, this]

/-- **C107** (`fuse`): hence fusing such runs later creates the same run as fusing them first, or raises the same error,
for every method and normalization. -/
theorem C107_fuse (w : State) (cs : List (Call ι)) (rs : List Nat) (n : Nat → NamedRun Str Str ℝ)
    (hn : ∀ r ∈ rs, w.runs[r]? = some (n r)) (S : ArgSort ℝ) (hru : ∀ r ∈ rs, Spec.SortedTieFree S (n r).obj.store)
    (hr : ∀ r ∈ rs, ∀ c ∈ cs, ¬Spec.ChangesRun false 0 r c) (E : Fuse.Env Str) (norm : Option String)
    (method : String) (params : Option Fuse.Kwargs) :
    ∃ (new : List (NamedRun Str Str ℝ)) (res : Outcome),
      step w (.fuse (ι := ι) E rs norm method params) = ({ w with runs := w.runs ++ new }, res) ∧
      step (exec w cs) (.fuse (ι := ι) E rs norm method params) =
        ({ exec w cs with runs := (exec w cs).runs ++ new }, res) := by
  have hst := get_stores w (exec w cs) rs (fun r h => by
    obtain ⟨n', h1, -, h3⟩ := C107_untouched w cs r (n r) (hn r h) S (hru r h) (hr r h)
    exact ⟨n r, n', hn r h, h1, h3⟩)
  simp only [Session.step, hst]
  cases Fuse.fuse E ((w.get rs).map (fun n => n.obj.store)) norm method params with
  | error e => exact ⟨[], .raised e, by simp [State.addRun], by simp [State.addRun]⟩
  | ok s => exact ⟨_, .done, rfl, rfl⟩

/-- **C107** (`normalize`): likewise normalizing such a run later creates the same run as normalizing it first; and this
run has the queries of the run and, for each of them, its docs with their normalized scores. -/
theorem C107_normalize (w : State) (cs : List (Call ι)) (r : Nat) (n : NamedRun Str Str ℝ)
    (hn : w.runs[r]? = some n) (S : ArgSort ℝ) (hru : Spec.SortedTieFree S n.obj.store)
    (hr : ∀ c ∈ cs, ¬Spec.ChangesRun false 0 r c) (E : Fuse.Env Str) (name : String) (k : Norm.Kind)
    (hk : (name, k) ∈ Spec.normNames) (hb : k ≠ .borda)
    (hE : Schedule n.obj.store.data.length (E.normScheds 0)) :
    ∃ new : Store Str Str ℝ,
      step w (.normalize (ι := ι) E name r) = ({ w with runs := w.runs ++ [⟨none, ⟨new, [], [], []⟩⟩] }, .done) ∧
      step (exec w cs) (.normalize (ι := ι) E name r) =
        ({ exec w cs with runs := (exec w cs).runs ++ [⟨none, ⟨new, [], [], []⟩⟩] }, .done) ∧
      (∀ q, q ∈ new.data.keys ↔ q ∈ n.obj.store.data.keys) ∧
      ∀ q results, n.obj.store.data.get? q = some results → ∀ d,
        (Spec.content new).read q d = (results.get? d).map (Spec.normScore k results d) := by
  obtain ⟨n', h1, -, h3⟩ := C107_untouched w cs r n hn S hru hr
  have hsw : Norm.normSwitch name = .ok k := by
    rcases normSwitch_cases name with ⟨k', hk', h⟩ | ⟨h, _⟩
    · have huniq : ∀ p ∈ Spec.normNames, ∀ p' ∈ Spec.normNames, p.1 = p'.1 → p.2 = p'.2 := by
        decide +kernel
      rw [h, show k' = k from huniq _ hk' _ hk rfl]
    · exact absurd (List.mem_map.2 ⟨_, hk, rfl⟩) h
  have hwf := hru.usable.ok.1
  obtain ⟨hkeys, hg, -⟩ := Fuse.normOne_local E k hb 0 n.obj.store hwf hE
  have hs : ∀ (v : State) (m : NamedRun Str Str ℝ), v.runs[r]? = some m → m.obj.store = n.obj.store →
      Session.step v (.normalize (ι := ι) E name r) =
        ({ v with runs := v.runs ++ [⟨none, ⟨Fuse.normOne E k 0 n.obj.store, [], [], []⟩⟩] }, .done) := by
    intro v m hv hm
    simp only [Session.step, hv, hsw, if_neg hb, hm, State.addRun]
  refine ⟨Fuse.normOne E k 0 n.obj.store, hs w n hn rfl, hs _ n' h1 h3, ?_, ?_⟩
  · intro q
    exact hkeys.1.mem_iff
  · intro q results hq d
    unfold Spec.Content.read Spec.content
    rw [hg q, hq]
    simp only [Option.map_some]
    rw [← get?_specRow]
    exact get?_normFun E.S k results (hwf.2 (q, results) (mem_of_get? hq)) d

/-- the qrels, the runs and the calls of the examples: the second run is unsorted and lacks a query -/
noncomputable def exSession : State where
  qrels := [⟨[("q1".toList, [("d1".toList, 1), ("d2".toList, 0)])], true⟩]
  runs := [⟨some "A".toList, ⟨⟨[("q1".toList, [("d1".toList, 3), ("d2".toList, 2)])], true⟩, [], [], []⟩⟩,
    ⟨none, ⟨⟨[("q2".toList, [("d2".toList, 1), ("d1".toList, 2)])], false⟩, [], [], []⟩⟩]

/-- non-vacuity of C107: the calls add to the second run, compare the second run with the first, plot both, and
evaluate the first. -/
noncomputable def exSessionCalls (V : EvalEnv Str ι) (a : CompareArgs) (cut : Nat → Nat → Nat) : List (Call ι) :=
  [.runOp (ArgSort.stable ℝ) 1 (.addScore "q1".toList "d1".toList 2),
   .compare V (ArgSort.stable ℝ) (fun _ _ => [0]) a 0 [1, 0] ["map".toList],
   .plot cut V (ArgSort.stable ℝ) true 0 [0, 1],
   .evaluate V (ArgSort.stable ℝ) {} 0 0 ["map".toList]]

example (V : EvalEnv Str ι) (a : CompareArgs) (cut : Nat → Nat → Nat) :
    (∀ c ∈ exSessionCalls V a cut, ¬Spec.ChangesQrels 0 c) ∧
    (∀ c ∈ exSessionCalls V { a with makeComparable := true } cut, ¬Spec.ChangesRun true 0 0 c) ∧
    (∀ c ∈ exSessionCalls V { a with makeComparable := false } cut, ¬Spec.ChangesRun false 0 0 c) := by
  refine ⟨?_, ?_, ?_⟩ <;> intro c hc <;>
    simp only [exSessionCalls, List.mem_cons, List.not_mem_nil, or_false] at hc <;>
    rcases hc with rfl | rfl | rfl | rfl <;> simp [Spec.ChangesQrels, Spec.ChangesRun]

theorem Session.usable_of_sorted {β : Type} [LinearOrder β] [AddCommGroup β] [IsOrderedAddMonoid β] (S : ArgSort β)
    (d : Dict Str (Dict Str β)) (hw : Wf d) (hf : FlagOk (⟨d, true⟩ : Store Str Str β)) (ht : TieFree d) :
    Spec.Usable S (⟨d, true⟩ : Store Str Str β) := by
  refine ⟨⟨d, false⟩, [.sort], ⟨d, hw.1, hw.2, .inl rfl⟩, ?_, by simp [Store.exec, Store.step]⟩
  have := sort_fixed S ⟨d, true⟩ hw hf rfl ht
  exact this.symm

/-- the qrels and both runs of the example are as C107 wants them -/
example (S : ArgSort ℝ) (SQ : ArgSort Int) : (∃ s, exSession.qrels[0]? = some s ∧ Spec.Usable SQ s ∧
      ∀ x ∈ s.data.keys, Spec.JudgedApart (id : Str → Str) s x) ∧
    (∃ n, exSession.runs[0]? = some n ∧ Spec.SortedTieFree S n.obj.store) ∧
    (∃ n, exSession.runs[1]? = some n ∧ Spec.Usable S n.obj.store) := by
  have hd : "d1".toList ≠ "d2".toList := by decide
  refine ⟨⟨_, rfl, usable_of_sorted SQ _ ⟨?_, ?_⟩ ?_ ?_, fun x _ d d' v v' _ _ h => h⟩,
    ⟨_, rfl, ?_⟩, ⟨_, rfl, usable_of_unsorted S _ ⟨?_, ?_⟩ rfl⟩⟩
  · unfold NodupKeys; decide
  · intro p hp; simp only [List.mem_singleton] at hp; subst hp; unfold NodupKeys; decide
  · intro _
    constructor
    · intro p hp; simp only [List.mem_singleton] at hp; subst hp; unfold Spec.Ranked; decide
    · decide
  · intro p hp; simp only [List.mem_singleton] at hp; subst hp; decide
  · have hw : Wf [("q1".toList, [("d1".toList, (3 : ℝ)), ("d2".toList, 2)])] := by
      constructor
      · unfold NodupKeys; decide
      · intro p hp; simp only [List.mem_singleton] at hp; subst hp; unfold NodupKeys; simp
    have htf : TieFree [("q1".toList, [("d1".toList, (3 : ℝ)), ("d2".toList, 2)])] := by
      intro p hp; simp only [List.mem_singleton] at hp; subst hp; simp [Dict.values]
    refine ⟨usable_of_sorted S _ hw ?_ htf, rfl, ?_⟩
    · intro _
      constructor
      · intro p hp; simp only [List.mem_singleton] at hp; subst hp; unfold Spec.Ranked Dict.values; simp; norm_num
      · simp [Dict.keys]
    · intro x d d' v h1 h2
      have key : ∀ e u, (Spec.content (⟨[("q1".toList, [("d1".toList, (3 : ℝ)), ("d2".toList, 2)])], true⟩ :
          Store Str Str ℝ)).read x e = some u → (e = "d1".toList ∧ u = 3) ∨ (e = "d2".toList ∧ u = 2) := by
        intro e u h
        unfold Spec.Content.read Spec.content at h
        rw [get?_cons] at h
        by_cases hx : "q1".toList = x
        · rw [if_pos hx] at h
          simp only [Option.map_some, Option.bind_some] at h
          have := mem_of_get? h
          simpa using this
        · rw [if_neg hx] at h
          exact absurd h (by simp [Dict.get?])
      rcases key d v h1 with ⟨rfl, rfl⟩ | ⟨rfl, rfl⟩ <;> rcases key d' _ h2 with ⟨rfl, h⟩ | ⟨rfl, h⟩
      · rfl
      · norm_num at h
      · norm_num at h
      · rfl
  · unfold NodupKeys; simp
  · intro p hp; simp only [List.mem_singleton] at hp; subst hp; unfold NodupKeys; simp

end Ranx
