import Verif.Props.EvaluateCongr
import Verif.Props.Metrics2
import Mathlib.SetTheory.Cardinal.Order

/-!
# C129: `evaluate` does not depend on how doc ids are hashed

ranx replaces every doc id by `hash(id)`, and Python's string hash changes from process to process. Two hash
functions under which no two of the ids at hand collide give the same result, the same saved scores and the same
exceptions.
-/

set_option linter.unusedSectionVars false

namespace Ranx
open Dict Store Eval Metrics Py
variable {κ δ ι ι' α : Type*}

/-! ### renaming the ids under a metric -/

section
variable {γ : Type*} [LinearOrder γ] [LinearOrder ι] [Field α] [LinearOrder α] [IsStrictOrderedRing α]

/-- both sides fail alike, or give functions that agree on renamed rows -/
def Agrees (h : γ → ι) (D : Set γ) (a : Except Err (Kernel ι α)) (b : Except Err (Kernel γ α)) : Prop :=
  (∃ e, a = .error e ∧ b = .error e) ∨
  ∃ f g, a = .ok f ∧ b = .ok g ∧ ∀ q r : Rows γ α, (∀ x ∈ ids q, x ∈ D) → (∀ x ∈ ids r, x ∈ D) →
    f (rename h q) (rename h r) = g q r

theorem kernel_rename (h : γ → ι) (D : Set γ) (hD : Set.InjOn h D) (F : Fn α) (m : Metric) (k : Param α)
    (lvl : Int) : Agrees h D (kernel (ι := ι) F m k lvl) (kernel (ι := γ) F m k lvl) := by
  have rel : ∀ q r : Rows γ α, (∀ x ∈ ids q, x ∈ D) → (∀ x ∈ ids r, x ∈ D) →
      Set.InjOn h {x | x ∈ ids q ∨ x ∈ ids r} := by
    intro q r hq hr
    exact hD.mono (fun x hx => hx.elim (hq x) (hr x))
  have tot : ∀ (f : Rows ι α → Rows ι α → α) (g : Rows γ α → Rows γ α → α),
      (∀ q r : Rows γ α, Set.InjOn h {x | x ∈ ids q ∨ x ∈ ids r} → f (rename h q) (rename h r) = g q r) →
      Agrees h D (.ok (total f)) (.ok (total g)) := by
    intro f g hfg
    refine .inr ⟨_, _, rfl, rfl, fun q r hq hr => ?_⟩
    unfold total
    rw [hfg q r (rel q r hq hr)]
  have cut : ∀ (f : Nat → Rows ι α → Rows ι α → α) (g : Nat → Rows γ α → Rows γ α → α),
      (∀ n, ∀ q r : Rows γ α, Set.InjOn h {x | x ∈ ids q ∨ x ∈ ids r} →
        f n (rename h q) (rename h r) = g n q r) →
      Agrees h D (withCutoff k (fun n => total (f n))) (withCutoff k (fun n => total (g n))) := by
    intro f g hfg
    unfold withCutoff
    split
    · exact tot _ _ (hfg _)
    · exact .inl ⟨_, rfl, rfl⟩
    · exact .inl ⟨_, rfl, rfl⟩
  have C := fun (q r : Rows γ α) hi n p gain =>
    C25_relabel (ι' := ι) q r h hi n p (lvl : α) gain F.log2Disc (fun _ _ => 0)
  cases m
  · exact cut _ _ (fun n q r hi => (C q r hi n 0 id).1)
  · exact cut _ _ (fun n q r hi => (C q r hi n 0 id).2.1)
  · exact cut _ _ (fun n q r hi => (C q r hi n 0 id).2.2.1)
  · exact cut _ _ (fun n q r hi => (C q r hi n 0 id).2.2.2.1)
  · exact cut _ _ (fun n q r hi => (C q r hi n 0 id).2.2.2.2.1)
  · exact tot _ _ (fun q r hi => (C q r hi 0 0 id).2.2.2.2.2.1)
  · exact cut _ _ (fun n q r hi => (C q r hi n 0 id).2.2.2.2.2.2.1)
  · exact cut _ _ (fun n q r hi => (C q r hi n 0 id).2.2.2.2.2.2.2.1)
  · exact cut _ _ (fun n q r hi => (C q r hi n 0 id).2.2.2.2.2.2.2.2.1)
  · exact cut _ _ (fun n q r hi => (C q r hi n 0 (fun x => F.pow2 x - 1)).2.2.2.2.2.2.2.2.1)
  · exact cut _ _ (fun n q r hi => (C q r hi n 0 id).2.2.2.2.2.2.2.2.2.1)
  · exact cut _ _ (fun n q r hi => (C q r hi n 0 (fun x => F.pow2 x - 1)).2.2.2.2.2.2.2.2.2.1)
  · refine .inr ⟨_, _, rfl, rfl, fun q r hq hr => ?_⟩
    exact (C q r (rel q r hq hr) 0 0 id).2.2.2.2.2.2.2.2.2.2.2.1
  · unfold kernel
    cases k
    · exact tot _ _ (fun q r hi => (C q r hi 0 _ id).2.2.2.2.2.2.2.2.2.2.1)
    · exact tot _ _ (fun q r hi => (C q r hi 0 _ id).2.2.2.2.2.2.2.2.2.2.1)

theorem metricOf_rename (h : γ → ι) (D : Set γ) (hD : Set.InjOn h D) (F : Fn α)
    (other : Str → Except Err α) (m : Str) :
    Agrees h D (metricOf (ι := ι) F other m) (metricOf (ι := γ) F other m) := by
  unfold metricOf
  cases extract other m with
  | error e => exact .inl ⟨_, rfl, rfl⟩
  | ok p =>
    obtain ⟨m, k, lvl⟩ := p
    simp only
    cases metricSwitch m with
    | error e => exact .inl ⟨_, rfl, rfl⟩
    | ok met => exact kernel_rename h D hD F met k lvl

theorem scoreAll_rename (h : γ → ι) (D : Set γ) (hD : Set.InjOn h D) (F : Fn α) (other : Str → Except Err α)
    (sched : Nat → List Nat) (Q R : List (Rows γ α)) (hQ : ∀ q ∈ Q, ∀ x ∈ ids q, x ∈ D)
    (hR : ∀ r ∈ R, ∀ x ∈ ids r, x ∈ D) (ms : List (Str × Nat)) (acc : Dict Str (List (Num α))) :
    scoreAll F other sched (Q.map (rename h)) (R.map (rename h)) ms acc = scoreAll F other sched Q R ms acc := by
  induction ms generalizing acc with
  | nil => rfl
  | cons p t ih =>
    obtain ⟨m, i⟩ := p
    unfold scoreAll
    rcases metricOf_rename h D hD F other m with ⟨e, h1, h2⟩ | ⟨f, g, h1, h2, hfg⟩
    · rw [h1, h2]
    · rw [h1, h2]
      have hp : parallel f (sched i) (Q.map (rename h)) (R.map (rename h)) = parallel g (sched i) Q R := by
        unfold parallel
        rw [List.length_map, List.length_map]
        congr 3
        funext j
        rw [List.getElem?_map, List.getElem?_map]
        have a : ∀ (L : List (Rows γ α)), ((L[j]?).map (rename h)).getD [] = rename h ((L[j]?).getD []) := by
          intro L; cases L[j]? <;> rfl
        have b : ∀ (L : List (Rows γ α)), (∀ q ∈ L, ∀ x ∈ ids q, x ∈ D) → ∀ x ∈ ids ((L[j]?).getD []), x ∈ D := by
          intro L hL
          cases hj : L[j]? with
          | none => intro x hx; simp [ids] at hx
          | some q => exact hL q (List.mem_of_getElem? hj)
        rw [a, a]
        exact hfg _ _ (b Q hQ) (b R hR)
      simp only [hp]
      cases parallel g (sched i) Q R with
      | error e => rfl
      | ok s => exact ih _

end

section
variable [LinearOrder ι] [LinearOrder ι'] [Field α] [LinearOrder α] [IsStrictOrderedRing α]

/-- two hash functions without collisions: the same scores -/
theorem scoreAll_hash (h : δ → ι) (h' : δ → ι') (D : Set δ) (hD : Set.InjOn h D) (hD' : Set.InjOn h' D)
    (F : Fn α) (other : Str → Except Err α)
    (sched : Nat → List Nat) (Q R : List (Rows δ α)) (hQ : ∀ q ∈ Q, ∀ x ∈ ids q, x ∈ D)
    (hR : ∀ r ∈ R, ∀ x ∈ ids r, x ∈ D) (ms : List (Str × Nat)) (acc : Dict Str (List (Num α))) :
    scoreAll F other sched (Q.map (rename h)) (R.map (rename h)) ms acc =
      scoreAll F other sched (Q.map (rename h')) (R.map (rename h')) ms acc := by
  letI : LinearOrder δ := WellOrderingRel.isWellOrder.linearOrder
  rw [scoreAll_rename h D hD F other sched Q R hQ hR, scoreAll_rename h' D hD' F other sched Q R hQ hR]

end

/-! ### the rows handed to the metrics -/

section
variable [LinearOrder κ] [DecidableEq δ] [LinearOrder ι] [LinearOrder ι'] [Field α] [LinearOrder α] [IsStrictOrderedRing α]

namespace Spec

/-- the docs that occur in the judgements or in the run -/
def Mentions (qrels : QrelsArg κ δ α) (run : RunArg κ δ α) (d : δ) : Prop :=
  (match qrels with
    | .obj s => ∃ p ∈ s.data, d ∈ p.2.keys
    | .dict x => ∃ p ∈ x, d ∈ p.2.keys) ∨
  (match run with
    | .obj r => ∃ p ∈ r.store.data, d ∈ p.2.keys
    | .dict x => ∃ p ∈ x, d ∈ p.2.keys)

/-- no two different docs of the judgements and the run have the same hash -/
def NoClash (hash : δ → ι) (qrels : QrelsArg κ δ α) (run : RunArg κ δ α) : Prop :=
  ∀ d d', Mentions qrels run d → Mentions qrels run d' → hash d = hash d' → d = d'

end Spec

theorem rows_rename {β : Type*} (hash : δ → ι) (cast : β → α) (d : Dict κ (Dict δ β)) :
    Store.rows hash cast d = (d.values.map (fun inner => inner.map (fun p => (p.1, cast p.2)))).map (rename hash) := by
  unfold Store.rows rename
  rw [List.map_map]
  apply List.map_congr_left
  intro x _
  simp only [Function.comp_apply, List.map_map]
  rfl

/-- `descendingSort` does not look at the ids -/
theorem descendingSort_rename {γ : Type*} (S : ArgSort α) (h : γ → ι) (x : Rows γ α) :
    descendingSort S (x.map (fun p => (h p.1, p.2))) =
      rename h ((S.run (x.map Prod.snd)).reverse.filterMap (fun i => x[i]?)) := by
  unfold descendingSort rename
  rw [List.map_map, List.map_filterMap]
  have e : (Prod.snd ∘ fun p : γ × α => (h p.1, p.2)) = Prod.snd := rfl
  rw [e]
  congr 1
  funext i
  rw [List.getElem?_map]

/-- the sorted rows of a dictionary before hashing -/
def plainRows (S : ArgSort α) (x : Dict κ (Dict δ α)) : List (Rows δ α) :=
  x.values.map (fun d => (S.run (d.map Prod.snd)).reverse.filterMap (fun i => d[i]?))

theorem dictToTypedList_rename (S : ArgSort α) (hash : δ → ι) (x : Dict κ (Dict δ α)) :
    dictToTypedList S hash x = if x.values.any (fun d => d.isEmpty) then .error .typeError
      else .ok ((plainRows S x).map (rename hash)) := by
  unfold dictToTypedList plainRows
  rw [List.map_map]
  congr 2
  apply List.map_congr_left
  intro d _
  exact descendingSort_rename S hash d

theorem plainRows_mem {S : ArgSort α} {x : Dict κ (Dict δ α)} {q : Rows δ α} (hq : q ∈ plainRows S x) {d : δ}
    (hd : d ∈ ids q) : ∃ p ∈ x, d ∈ p.2.keys := by
  unfold plainRows at hq
  obtain ⟨v, hv, rfl⟩ := List.mem_map.1 hq
  obtain ⟨p, hp, rfl⟩ := List.mem_map.1 hv
  obtain ⟨e, he, rfl⟩ := List.mem_map.1 hd
  obtain ⟨i, -, hi⟩ := List.mem_filterMap.1 he
  exact ⟨p, hp, List.mem_map.2 ⟨e, List.mem_of_getElem? hi, rfl⟩⟩

theorem docs_of_read {β : Type*} (s : Store κ δ β) (q : κ) (d : δ) (v : β)
    (h : (Spec.content s).read q d = some v) : ∃ p ∈ s.data, d ∈ p.2.keys := by
  unfold Spec.content Spec.Content.read at h
  beta_reduce at h
  cases hg : s.data.get? q with
  | none => rw [hg] at h; simp at h
  | some r =>
    rw [hg] at h
    exact ⟨(q, r), mem_of_get? hg, get?_isSome.1 (by rw [show r.get? d = some v from h]; rfl)⟩

theorem read_of_docs {β : Type*} (s : Store κ δ β) (hw : Wf s.data) {p : κ × Dict δ β} (hp : p ∈ s.data) {d : δ}
    (hd : d ∈ p.2.keys) : ∃ v, (Spec.content s).read p.1 d = some v := by
  obtain ⟨v, hv⟩ := Option.isSome_iff_exists.1 (get?_isSome.2 hd)
  refine ⟨v, ?_⟩
  unfold Spec.content Spec.Content.read
  beta_reduce
  rw [get?_of_mem hw.1 hp]
  exact hv

/-- sorting adds no docs -/
theorem docs_ensureSorted {β : Type*} [AddCommGroup β] [LinearOrder β] [IsOrderedAddMonoid β] (S : ArgSort β)
    (s : Store κ δ β) (hw : Wf s.data) (hf : FlagOk s) {p : κ × Dict δ β}
    (hp : p ∈ (s.ensureSorted S).data) {d : δ} (hd : d ∈ p.2.keys) : ∃ p' ∈ s.data, d ∈ p'.2.keys := by
  obtain ⟨w, c, -, -, -, -⟩ := ensureSorted_facts S s hw hf
  obtain ⟨v, hv⟩ := read_of_docs _ w hp hd
  rw [c] at hv
  exact docs_of_read s _ _ _ hv

/-- neither does `make_comparable` -/
theorem docs_makeComparable {β : Type*} [AddCommGroup β] [LinearOrder β] [IsOrderedAddMonoid β] (S : ArgSort β)
    (s : Store κ δ β) (hw : Wf s.data) (qs : List κ) :
    Wf (s.makeComparable S qs).data ∧ FlagOk (s.makeComparable S qs) ∧
    ∀ p ∈ (s.makeComparable S qs).data, ∀ d ∈ p.2.keys, ∃ p' ∈ s.data, d ∈ p'.2.keys := by
  obtain ⟨d2, hw2, hg, he⟩ := makeComparable_spec S s qs hw
  rw [he]
  refine ⟨Wf.sortAll S hw2, fun _ => sortAll_ranked S hw2, ?_⟩
  intro p hp d hd
  obtain ⟨v, hv⟩ := read_of_docs ⟨sortAll S d2, true⟩ (Wf.sortAll S hw2) hp hd
  rw [content_eq] at hv
  change (cont (sortAll S d2)).read p.1 d = some v at hv
  rw [cont_sortAll S hw2] at hv
  obtain ⟨p', hp', hd'⟩ := docs_of_read ⟨d2, true⟩ _ _ _ hv
  have := get?_of_mem hw2.1 hp'
  rw [hg] at this
  split_ifs at this
  cases hx : s.data.get? p'.1 with
  | none =>
    rw [hx] at this
    have e : p'.2 = [] := (Option.some.inj this).symm
    rw [e] at hd'
    simp [Dict.keys] at hd'
  | some r =>
    rw [hx] at this
    have e : r = p'.2 := Option.some.inj this
    exact ⟨(p'.1, r), mem_of_get? hx, by rw [e]; exact hd'⟩

/-- Specification: arguments `evaluate` can be given: `Qrels` and `Run` objects made with the public API, or any
dictionaries. -/
def Spec.EvalArgs (SQ : ArgSort Int) (SR : ArgSort α) (qrels : QrelsArg κ δ α) (run : RunArg κ δ α) : Prop :=
  (∀ s, qrels = .obj s → Spec.Usable SQ s) ∧ ∀ r, run = .obj r → Spec.Usable SR r.store

/-- the docs of a run argument -/
def runDocs : RunArg κ δ α → Set δ
  | .obj r => {d | ∃ p ∈ r.store.data, d ∈ p.2.keys}
  | .dict x => {d | ∃ p ∈ x, d ∈ p.2.keys}

def qrelsDocs : QrelsArg κ δ α → Set δ
  | .obj s => {d | ∃ p ∈ s.data, d ∈ p.2.keys}
  | .dict x => {d | ∃ p ∈ x, d ∈ p.2.keys}

theorem mentions_iff (qrels : QrelsArg κ δ α) (run : RunArg κ δ α) (d : δ) :
    Spec.Mentions qrels run d ↔ d ∈ qrelsDocs qrels ∨ d ∈ runDocs run := by
  cases qrels <;> cases run <;> rfl

theorem convertQrels_hash (SQ : ArgSort Int) (SR : ArgSort α) (hash : δ → ι) (hash' : δ → ι')
    (a : QrelsArg κ δ α) (ha : ∀ s, a = .obj s → Wf s.data ∧ FlagOk s) :
    (∃ e, convertQrels SQ SR hash a = .error e ∧ convertQrels SQ SR hash' a = .error e) ∨
    ∃ (a' : QrelsArg κ δ α) (L : List (Rows δ α)), convertQrels SQ SR hash a = .ok (a', L.map (rename hash)) ∧
      convertQrels SQ SR hash' a = .ok (a', L.map (rename hash')) ∧
      ∀ q ∈ L, ∀ x ∈ ids q, x ∈ qrelsDocs a := by
  cases a with
  | obj s =>
    obtain ⟨hw, hf⟩ := ha s rfl
    refine .inr ⟨.obj (s.ensureSorted SQ),
      (s.ensureSorted SQ).data.values.map (fun inner => inner.map (fun p => (p.1, ((p.2 : Int) : α)))), ?_, ?_, ?_⟩
    · change Except.ok (_, Store.rows hash _ _) = _
      rw [rows_rename]
    · change Except.ok (_, Store.rows hash' _ _) = _
      rw [rows_rename]
    · intro q hq x hx
      obtain ⟨v, hv, rfl⟩ := List.mem_map.1 hq
      obtain ⟨p, hp, rfl⟩ := List.mem_map.1 hv
      have hx' : x ∈ p.2.keys := by
        obtain ⟨e, he, rfl⟩ := List.mem_map.1 hx
        obtain ⟨e', he', rfl⟩ := List.mem_map.1 he
        exact List.mem_map.2 ⟨e', he', rfl⟩
      exact docs_ensureSorted SQ s hw hf hp hx'
  | dict d =>
    simp only [convertQrels]
    rw [dictToTypedList_rename, dictToTypedList_rename]
    by_cases he : d.values.any (fun d => d.isEmpty) = true
    · rw [if_pos he, if_pos he]; exact .inl ⟨_, rfl, rfl⟩
    · rw [if_neg he, if_neg he]
      exact .inr ⟨_, _, rfl, rfl, fun q hq x hx => plainRows_mem hq hx⟩

theorem convertRun_hash (SR : ArgSort α) (hash : δ → ι) (hash' : δ → ι')
    (a : RunArg κ δ α) (ha : ∀ r, a = .obj r → Wf r.store.data ∧ FlagOk r.store) :
    (∃ e, convertRun SR hash a = .error e ∧ convertRun SR hash' a = .error e) ∨
    ∃ (a' : RunArg κ δ α) (L : List (Rows δ α)), convertRun SR hash a = .ok (a', L.map (rename hash)) ∧
      convertRun SR hash' a = .ok (a', L.map (rename hash')) ∧
      ∀ q ∈ L, ∀ x ∈ ids q, x ∈ runDocs a := by
  cases a with
  | obj r =>
    obtain ⟨hw, hf⟩ := ha r rfl
    refine .inr ⟨.obj { r with store := r.store.ensureSorted SR },
      (r.store.ensureSorted SR).data.values.map (fun inner => inner.map (fun p => (p.1, id p.2))), ?_, ?_, ?_⟩
    · change Except.ok (_, Store.rows hash _ _) = _
      rw [rows_rename]
    · change Except.ok (_, Store.rows hash' _ _) = _
      rw [rows_rename]
    · intro q hq x hx
      obtain ⟨v, hv, rfl⟩ := List.mem_map.1 hq
      obtain ⟨p, hp, rfl⟩ := List.mem_map.1 hv
      have hx' : x ∈ p.2.keys := by
        obtain ⟨e, he, rfl⟩ := List.mem_map.1 hx
        obtain ⟨e', he', rfl⟩ := List.mem_map.1 he
        exact List.mem_map.2 ⟨e', he', rfl⟩
      exact docs_ensureSorted SR r.store hw hf hp hx'
  | dict d =>
    simp only [convertRun]
    rw [dictToTypedList_rename, dictToTypedList_rename]
    by_cases he : d.values.any (fun d => d.isEmpty) = true
    · rw [if_pos he, if_pos he]; exact .inl ⟨_, rfl, rfl⟩
    · rw [if_neg he, if_neg he]
      exact .inr ⟨_, _, rfl, rfl, fun q hq x hx => plainRows_mem hq hx⟩

theorem prepare_docs (SR : ArgSort α) (o : Opts) (qrels : QrelsArg κ δ α) (run : RunArg κ δ α)
    (ha : ∀ r, run = .obj r → Wf r.store.data ∧ FlagOk r.store) :
    (∀ r, prepare SR o qrels run = .obj r → Wf r.store.data ∧ FlagOk r.store) ∧
    ∀ d, d ∈ runDocs (prepare SR o qrels run) → d ∈ runDocs run := by
  unfold prepare
  by_cases ho : o.makeComparable = true
  · rw [if_pos ho]
    cases qrels with
    | dict x => exact ⟨ha, fun _ h => h⟩
    | obj s =>
      cases run with
      | dict x => exact ⟨ha, fun _ h => h⟩
      | obj r =>
        obtain ⟨h1, h2, h3⟩ := docs_makeComparable SR r.store (ha r rfl).1 s.data.keys
        refine ⟨?_, ?_⟩
        · intro r' hr'
          simp only at hr'
          cases hr'
          exact ⟨h1, h2⟩
        · rintro d ⟨p, hp, hd⟩
          exact h3 p hp d hd
  · rw [if_neg ho]; exact ⟨ha, fun _ h => h⟩

/-- **C129**: `evaluate` gives the same result, leaves the same state and raises the same exceptions for any two
hash functions (even into different types of numbers) under which no two docs of the arguments collide. -/
theorem C129_hash_seed (F : Fn α) (other : Str → Except Err α) (SQ : ArgSort Int) (SR : ArgSort α)
    (hash : δ → ι) (hash' : δ → ι') (sched : Nat → List Nat) (o : Opts) (qrels : QrelsArg κ δ α)
    (run : RunArg κ δ α) (hargs : Spec.EvalArgs SQ SR qrels run) (h : Spec.NoClash hash qrels run)
    (h' : Spec.NoClash hash' qrels run) (ms : List Str) :
    evaluate F other SQ SR hash sched o qrels run ms = evaluate F other SQ SR hash' sched o qrels run ms := by
  have hq : ∀ s, qrels = .obj s → Wf s.data ∧ FlagOk s := fun s hs => (hargs.1 s hs).ok
  have hr : ∀ r, run = .obj r → Wf r.store.data ∧ FlagOk r.store := fun r hs => (hargs.2 r hs).ok
  obtain ⟨hp1, hp2⟩ := prepare_docs SR o qrels run hr
  have hD : Set.InjOn hash {d | Spec.Mentions qrels run d} := fun d hd d' hd' e => h d d' hd hd' e
  have hD' : Set.InjOn hash' {d | Spec.Mentions qrels run d} := fun d hd d' hd' e => h' d d' hd hd' e
  unfold evaluate
  simp only
  split
  · rfl
  · rcases convertQrels_hash SQ SR hash hash' qrels hq with ⟨e, e1, e2⟩ | ⟨a, L, e1, e2, hL⟩
    · rw [e1, e2]
    · rw [e1, e2]
      simp only
      rcases convertRun_hash SR hash hash' (prepare SR o qrels run) hp1 with ⟨e, f1, f2⟩ | ⟨b, M, f1, f2, hM⟩
      · rw [f1, f2]
      · rw [f1, f2]
        simp only
        rw [scoreAll_hash hash hash' _ hD hD' F other sched L M
          (fun q hq x hx => (mentions_iff qrels run x).2 (.inl (hL q hq x hx)))
          (fun q hq x hx => (mentions_iff qrels run x).2 (.inr (hp2 x (hM q hq x hx))))]
end

/-- non-vacuity of `C129_hash_seed`: two hash functions that order the docs the opposite way round, objects and
dictionaries; the value is not trivial -/
example : Spec.EvalArgs (ArgSort.stable Int) (ArgSort.stable ℚ) (.obj exQrelsObj) (.obj exRunObj) ∧
    Spec.NoClash (α := ℚ) (fun n : Nat => (n : Int)) (.obj exQrelsObj) (.obj exRunObj) ∧
    Spec.NoClash (α := ℚ) (fun n : Nat => -(n : Int)) (.obj exQrelsObj) (.obj exRunObj) ∧
    (∃ d, Spec.Mentions (α := ℚ) (.obj exQrelsObj) (.obj exRunObj) d) ∧
    (Eval.evaluate ratFn (fun _ => .error .valueError) (ArgSort.stable Int) (ArgSort.stable ℚ)
      (fun n : Nat => -(n : Int)) (fun _ => [1, 0]) { makeComparable := true } (.obj exQrelsObj) (.obj exRunObj)
      ["precision@2".toList]).2 = .ok (.single (.mean (.val (1 / 4)))) := by
  refine ⟨⟨?_, ?_⟩, fun d d' _ _ h => by simpa using h, fun d d' _ _ h => by simpa using h, ?_, by decide +kernel⟩
  · intro s hs; cases hs; exact exQrelsObj_usable
  · intro r hr; cases hr; exact exRunObj_usable
  · exact ⟨20, .inl (by decide)⟩

example : Spec.EvalArgs (κ := Nat) (δ := Nat) (α := ℚ) (ArgSort.stable Int) (ArgSort.stable ℚ)
    (.dict [(1, [(11, 1), (12, 0)])]) (.dict [(1, [(11, 2), (12, 3)])]) :=
  ⟨fun _ h => (by cases h), fun _ h => (by cases h)⟩

end Ranx
