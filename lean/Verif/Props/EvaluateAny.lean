import Verif.Model.EvaluateAny
import Verif.Props.EvaluateArgs
import Verif.Props.HashFree
import Verif.Props.QueryNames

/-!
# C146: evaluating pre-converted arrays, and the metric functions called directly
-/

set_option linter.unusedSectionVars false

namespace Ranx
open Dict Store Metrics Py Eval
variable {κ δ ι α : Type*}

section
variable [LinearOrder ι] [Field α] [LinearOrder α]

/-- the loop of a metric on arrays of any lengths, whatever the schedule -/
theorem parallel_any (f : Kernel ι α) (sched : List Nat) (ql rl : List (Rows ι α)) (hs : Schedule ql.length sched) :
    parallel f sched ql rl =
      if rl.length < ql.length then .error .indexError else collect (List.zipWith f ql rl) := by
  by_cases h : rl.length < ql.length
  · unfold parallel; rw [if_pos h, if_pos h]
  · rw [if_neg h]
    have e : parallel f sched ql rl = parallel f sched ql (rl.take ql.length) := by
      unfold parallel
      rw [if_neg h, if_neg (by rw [List.length_take]; omega)]
      congr 1
      have hi : ∀ i ∈ sched, i < ql.length := fun i hi => List.mem_range.1 (hs.mem_iff.1 hi)
      clear hs
      unfold prange
      generalize List.replicate ql.length (Except.ok (Num.val 0) : Except Err (Num α)) = acc
      induction sched generalizing acc with
      | nil => rfl
      | cons i t ih =>
        rw [List.foldl_cons, List.foldl_cons]
        beta_reduce at ih ⊢
        rw [List.getElem?_take_of_lt (hi i List.mem_cons_self),
          ih (fun j hj => hi j (List.mem_cons_of_mem _ hj))]
    rw [e, parallel_eq f sched ql _ hs (by rw [List.length_take]; omega)]
    congr 1
    conv_rhs => rw [← List.take_append_drop ql.length rl]
    generalize hd : rl.drop ql.length = rest
    have hl : (rl.take ql.length).length = ql.length := by rw [List.length_take]; omega
    generalize rl.take ql.length = r at hl
    clear e hs h hd
    induction ql generalizing r with
    | nil => rfl
    | cons a t ih =>
      cases r with
      | nil => cases hl
      | cons b u =>
        rw [List.cons_append, List.zipWith_cons_cons, List.zipWith_cons_cons,
          ih u (by simpa using hl)]

theorem parallel_len (f : Kernel ι α) (sched : List Nat) (ql rl : List (Rows ι α)) (l : List (Num α))
    (h : parallel f sched ql rl = .ok l) : l.length = ql.length := by
  unfold parallel at h
  by_cases hl : rl.length < ql.length
  · rw [if_pos hl] at h; cases h
  · rw [if_neg hl] at h
    have := congrArg List.length ((collect_ok_iff _ _).1 h)
    rw [prange_length, List.length_replicate, List.length_map] at this
    exact this.symm

theorem scoreAll_len (F : Fn α) (other : Str → Except Err α) (sched : Nat → List Nat) (ql rl : List (Rows ι α))
    (ms : List (Str × Nat)) (acc d : Dict Str (List (Num α))) (hacc : ∀ p ∈ acc, p.2.length = ql.length)
    (h : scoreAll F other sched ql rl ms acc = .ok d) : ∀ p ∈ d, p.2.length = ql.length := by
  induction ms generalizing acc with
  | nil => cases h; exact hacc
  | cons mi t ih =>
    obtain ⟨m, i⟩ := mi
    unfold scoreAll at h
    cases hm : (metricOf F other m : Except Err (Kernel ι α)) with
    | error e => rw [hm] at h; cases h
    | ok f =>
      rw [hm] at h
      simp only at h
      cases hp : parallel f (sched i) ql rl with
      | error e => rw [hp] at h; cases h
      | ok l =>
        rw [hp] at h
        refine ih _ (fun p hp' => ?_) h
        rcases Store.mem_set hp' with h' | h'
        · exact hacc _ h'
        · rw [h']; exact parallel_len f _ _ _ _ hp

/-- **C146** (the metric functions): `precision(qrels, run, k, rel_lvl)` and the other metric functions, on arrays,
return one score per query of `qrels`; the i-th depends on nothing but the i-th array of `qrels` and of `run` and is
what `kernel` computes from these two; arrays of `run` beyond the length of `qrels` are ignored; missing ones are an
`IndexError`; any schedule. -/
theorem C146_function (F : Fn α) (m : Metric) (k : Param α) (lvl : Int) (f : Kernel ι α)
    (hf : kernel F m k lvl = .ok f) (sched : List Nat) (ql rl : List (Rows ι α)) (hs : Schedule ql.length sched) :
    (rl.length < ql.length → metricFunction F m k lvl sched ql rl = .error .indexError) ∧
    (ql.length ≤ rl.length →
      (∀ l, metricFunction F m k lvl sched ql rl = .ok l ↔ l.length = ql.length ∧
        ∀ (i : Nat) a b, ql[i]? = some a → rl[i]? = some b → ∃ v, l[i]? = some v ∧ f a b = .ok v) ∧
      ((∀ l, metricFunction F m k lvl sched ql rl ≠ .ok l) →
        ∃ (i : Nat) (a b : Rows ι α) (e : Err), ql[i]? = some a ∧ rl[i]? = some b ∧ f a b = .error e ∧
          metricFunction F m k lvl sched ql rl = .error e)) := by
  unfold metricFunction
  rw [hf]
  simp only
  rw [parallel_any f sched ql rl hs]
  refine ⟨fun h => if_pos h, fun h => ?_⟩
  rw [if_neg (by omega)]
  constructor
  · intro l
    rw [collect_ok_iff]
    constructor
    · intro e
      have hl := congrArg List.length e
      rw [List.length_zipWith, List.length_map] at hl
      refine ⟨by omega, fun i a b ha hb => ?_⟩
      have hi := congrArg (fun x => x[i]?) e
      simp only [List.getElem?_zipWith, ha, hb, List.getElem?_map] at hi
      cases hv : l[i]? with
      | none => rw [hv] at hi; simp at hi
      | some v => rw [hv] at hi; exact ⟨v, rfl, by simpa using hi⟩
    · rintro ⟨hl, he⟩
      apply List.ext_getElem?
      intro i
      rw [List.getElem?_zipWith, List.getElem?_map]
      by_cases hi : i < ql.length
      · obtain ⟨v, hv, hfv⟩ := he i ql[i] (rl[i]'(by omega)) (List.getElem?_eq_getElem hi) (List.getElem?_eq_getElem _)
        rw [List.getElem?_eq_getElem hi, List.getElem?_eq_getElem (show i < rl.length by omega), hv]
        simp only [Option.map_some, hfv]
      · rw [List.getElem?_eq_none (by omega), List.getElem?_eq_none (l := l) (by omega)]
        simp
  · intro hno
    clear hf hs h
    induction ql generalizing rl with
    | nil => exact absurd rfl (hno [])
    | cons a t ih =>
      cases rl with
      | nil => exact absurd rfl (hno [])
      | cons b u =>
        rw [List.zipWith_cons_cons] at hno ⊢
        unfold collect at hno ⊢
        cases hab : f a b with
        | error e => exact ⟨0, a, b, e, rfl, rfl, hab, rfl⟩
        | ok v =>
          rw [hab] at hno
          simp only at hno ⊢
          obtain ⟨i, a', b', e, h1, h2, h3, h4⟩ := ih u (fun l hl => hno (v :: l) (by rw [hl]))
          exact ⟨i + 1, a', b', e, by simpa using h1, by simpa using h2, h3, by rw [h4]⟩

/-- **C146** (negative cutoffs): a negative `k` is rejected with an `AssertionError` by every metric function that has
a cutoff, before anything is computed. -/
theorem C146_negative_k (F : Fn α) (m : Metric) (k : Int) (hk : k < 0) (lvl : Int) (sched : List Nat)
    (ql rl : List (Rows ι α)) (hm : m ≠ .rPrecision ∧ m ≠ .bpref ∧ m ≠ .rbp) :
    metricFunction F m (.cutoff k) lvl sched ql rl = .error .assertionError := by
  obtain ⟨n, rfl⟩ : ∃ n, k = Int.negSucc n := ⟨(-k - 1).toNat, by omega⟩
  obtain ⟨h1, h2, h3⟩ := hm
  cases m <;> first | rfl | contradiction

end

section
variable [LinearOrder κ] [DecidableEq δ] [LinearOrder ι] [Field α] [LinearOrder α]

/-- nothing is out of range when there is a score for every query -/
theorem saveAny_eq (F : Fn α) (b : Bool) (r : RunObj κ δ α) (m : Str) (scores : List (Num α))
    (h : r.store.data.keys.length = scores.length) : saveAny F b r m scores = (saveOne F b r m scores, .ok ()) := by
  have hlt : ¬ scores.length < r.store.data.keys.length := by omega
  have e : (r.store.data.keys = [] ∨ scores = []) ↔ r.store.data.keys = [] := by
    rw [← List.length_eq_zero_iff, ← List.length_eq_zero_iff (l := scores)]; omega
  unfold saveAny saveOne
  simp only
  by_cases hk : r.store.data.keys = []
  · rw [if_pos (e.2 hk), if_pos hk, if_neg hlt]
  · rw [if_neg (fun x => hk (e.1 x)), if_neg hk, if_neg hlt]

theorem saveOne_store (F : Fn α) (b : Bool) (r : RunObj κ δ α) (m : Str) (scores : List (Num α)) :
    (saveOne F b r m scores).store = r.store := rfl

theorem saveEach_eq (F : Fn α) (b : Bool) (d : List (Str × List (Num α))) (r : RunObj κ δ α)
    (h : ∀ p ∈ d, p.2.length = r.store.data.keys.length) :
    saveEach F b r d = (d.foldl (fun r p => saveOne F b r p.1 p.2) r, .ok ()) := by
  induction d generalizing r with
  | nil => rfl
  | cons p t ih =>
    obtain ⟨m, scores⟩ := p
    unfold saveEach
    rw [saveAny_eq F b r m scores (h _ List.mem_cons_self).symm]
    simp only
    rw [ih _ (fun p hp => by rw [saveOne_store]; exact h p (List.mem_cons_of_mem _ hp)), List.foldl_cons]

/-- the call of `evaluate` up to the returned value -/
theorem evaluateAny_eq (F : Fn α) (other : Str → Except Err α) (SQ : ArgSort Int) (SR : ArgSort α) (hash : δ → ι)
    (sched : Nat → List Nat) (o : Opts) (qrels : QrelsIn κ δ ι α) (run : RunIn κ δ ι α) (ms : List Str) :
    evaluateAny F other SQ SR hash sched o qrels run ms =
      if checkAny qrels (prepareAny SR o qrels run) = true then
        match convertQrelsAny SQ SR hash qrels with
        | .error e => ((qrels, prepareAny SR o qrels run), .error e)
        | .ok (q', ql) =>
          match convertRunAny SR hash (prepareAny SR o qrels run) with
          | .error e => ((q', prepareAny SR o qrels run), .error e)
          | .ok (r', rl) =>
            match scoreAll F other sched ql rl ms.zipIdx [] with
            | .error e => ((q', r'), .error e)
            | .ok d =>
              match saveIn F o (o.returnMean && o.returnStd) d r' with
              | (r'', .error e) => ((q', r''), .error e)
              | (r'', .ok ()) => ((q', r''), outOf F other o r'.isRun d ms)
      else ((qrels, prepareAny SR o qrels run), .error .assertionError) := by
  unfold evaluateAny
  simp only
  generalize prepareAny SR o qrels run = r0
  by_cases hk : checkAny qrels r0 = true
  swap
  · rw [if_neg hk, if_pos (by simpa using hk)]
  rw [if_pos hk, if_neg (by rw [hk]; decide)]
  cases convertQrelsAny SQ SR hash qrels with
  | error e => rfl
  | ok p =>
    obtain ⟨q', ql⟩ := p
    simp only
    cases convertRunAny SR hash r0 with
    | error e => rfl
    | ok p =>
      obtain ⟨r', rl⟩ := p
      simp only
      cases scoreAll F other sched ql rl ms.zipIdx [] with
      | error e => rfl
      | ok d =>
        simp only
        generalize saveIn F o (o.returnMean && o.returnStd) d r' = x
        obtain ⟨r'', x | x⟩ := x
        · rfl
        · simp only
          unfold outOf
          match ms with
          | [] => rfl
          | [m] =>
            simp only
            generalize Dict.get? (List.map (fun p : Str × List (Num α) =>
              (p.1, present F o (o.returnMean && o.returnStd) p.2)) d) (lastM other o r'.isRun m) = x
            cases x <;> rfl
          | _ :: _ :: _ => rfl

variable [IsStrictOrderedRing α]

/-- a run argument without repeated ids, its flag right -/
def RunWf : RunArg κ δ α → Prop
  | .obj r => Wf r.store.data ∧ FlagOk r.store
  | .dict d => NodupKeys d

theorem prepare_usable (SR : ArgSort α) (o : Opts) (q : QrelsArg κ δ α) (r : RunArg κ δ α)
    (hr : Spec.RunUsable SR r) :
    RunWf (prepare SR o q r) := by
  have h0 : RunWf r := by
    cases r with
    | obj r => exact Spec.Usable.ok SR hr
    | dict d => exact hr
  unfold prepare
  by_cases hm : o.makeComparable = true
  · rw [if_pos hm]
    cases q with
    | dict x => exact h0
    | obj s =>
      cases r with
      | dict x => exact h0
      | obj r =>
        have := comparable_ok SR o s r h0
        unfold comparable at this
        rw [if_pos hm] at this
        exact this
  · rw [if_neg hm]; exact h0

theorem perm_of_sameKeys {a b : List κ} (ha : a.Nodup) (hb : b.Nodup) (h : sameKeys a b = true) : a.Perm b :=
  (List.perm_ext_iff_of_nodup ha hb).2 ((sameKeys_iff' a b).1 h)

theorem convertQrels_len (SQ : ArgSort Int) (SR : ArgSort α) (hash : δ → ι) (q q' : QrelsArg κ δ α)
    (hq : Spec.QrelsUsable SQ q) (ql : List (Rows ι α)) (h : convertQrels SQ SR hash q = .ok (q', ql)) :
    q.keys.Nodup ∧ ql.length = q.keys.length := by
  obtain ⟨ks, hm, hn, hl⟩ := convertQrels_listed SQ SR hash q hq q' ql h
  have hqn : q.keys.Nodup := by
    cases q with
    | obj s => exact (Spec.Usable.ok SQ hq).1.1
    | dict d => exact hq
  exact ⟨hqn, by rw [hl.length]; exact ((List.perm_ext_iff_of_nodup hn hqn).2 hm).length_eq⟩

/-- the queries of the run as converted, and the number of its arrays -/
theorem convertRun_len (SR : ArgSort α) (hash : δ → ι) (r r' : RunArg κ δ α)
    (hr : RunWf r) (rl : List (Rows ι α)) (h : convertRun SR hash r = .ok (r', rl)) :
    r.keys.Nodup ∧ rl.length = r.keys.length ∧ Spec.isObj r' = Spec.isObj r ∧
      ∀ x, r' = .obj x → x.store.data.keys.length = r.keys.length := by
  cases r with
  | obj r =>
    simp only [convertRun, Store.toTypedList, Except.ok.injEq, Prod.mk.injEq] at h
    obtain ⟨rfl, rfl⟩ := h
    obtain ⟨-, -, -, -, -, l1⟩ := ensureSorted_facts SR r.store hr.1 hr.2
    refine ⟨hr.1.1, ?_, rfl, ?_⟩
    · simp only [Store.rows, Dict.values, List.length_map, RunArg.keys, Dict.keys]; exact l1
    · intro x hx
      cases hx
      simp only [List.length_map, RunArg.keys, Dict.keys]; exact l1
  | dict d =>
    simp only [convertRun] at h
    cases hd : dictToTypedList SR hash d with
    | error e => rw [hd] at h; cases h
    | ok l =>
      rw [hd] at h
      cases h
      refine ⟨hr, ?_, rfl, fun x hx => by cases hx⟩
      unfold dictToTypedList at hd
      by_cases e : (d.values.any fun d => d.isEmpty) = true
      · rw [if_pos e] at hd; cases hd
      rw [if_neg e] at hd
      cases hd
      simp only [Dict.values, List.length_map, RunArg.keys, Dict.keys]

/-- what is saved in a run argument -/
def saveArg (F : Fn α) (o : Opts) (d : Dict Str (List (Num α))) : RunArg κ δ α → RunArg κ δ α
  | .obj r => if o.save = true then .obj (d.foldl (fun r p => saveOne F (o.returnMean && o.returnStd) r p.1 p.2) r)
    else .obj r
  | .dict x => .dict x

theorem evaluate_whole (F : Fn α) (other : Str → Except Err α) (SQ : ArgSort Int) (SR : ArgSort α) (hash : δ → ι)
    (sched : Nat → List Nat) (o : Opts) (q : QrelsArg κ δ α) (r : RunArg κ δ α) (ms : List Str) :
    evaluate F other SQ SR hash sched o q r ms =
      if sameKeys q.keys (prepare SR o q r).keys = true then
        match convertQrels SQ SR hash q with
        | .error e => (⟨q, prepare SR o q r⟩, .error e)
        | .ok (q', ql) =>
          match convertRun SR hash (prepare SR o q r) with
          | .error e => (⟨q', prepare SR o q r⟩, .error e)
          | .ok (r', rl) =>
            match scoreAll F other sched ql rl ms.zipIdx [] with
            | .error e => (⟨q', r'⟩, .error e)
            | .ok d => (⟨q', saveArg F o d r'⟩, outOf F other o (Spec.isObj r') d ms)
      else (⟨q, prepare SR o q r⟩, .error .assertionError) := by
  unfold evaluate
  simp only
  by_cases hk : sameKeys q.keys (prepare SR o q r).keys = true
  swap
  · have hk' : (!sameKeys q.keys (prepare SR o q r).keys) = true := by simpa using hk
    rw [if_neg hk]
    exact if_pos hk'
  have hk' : ¬ (!sameKeys q.keys (prepare SR o q r).keys) = true := by rw [hk]; decide
  rw [if_pos hk]
  refine (if_neg hk').trans ?_
  cases convertQrels SQ SR hash q with
  | error e => rfl
  | ok p =>
    obtain ⟨q', ql⟩ := p
    simp only
    cases convertRun SR hash (prepare SR o q r) with
    | error e => rfl
    | ok p =>
      obtain ⟨r', rl⟩ := p
      simp only
      cases scoreAll F other sched ql rl ms.zipIdx [] with
      | error e => rfl
      | ok d =>
        simp only
        unfold outOf
        match ms with
        | [] => cases r' <;> rfl
        | [m] =>
          cases r' with
          | obj x =>
            simp only [Spec.isObj]
            generalize Dict.get? (List.map (fun p : Str × List (Num α) =>
              (p.1, present F o (o.returnMean && o.returnStd) p.2)) d) (lastM other o true m) = y
            cases y <;> rfl
          | dict x =>
            simp only [Spec.isObj]
            generalize Dict.get? (List.map (fun p : Str × List (Num α) =>
              (p.1, present F o (o.returnMean && o.returnStd) p.2)) d) (lastM other o false m) = y
            cases y <;> rfl
        | _ :: _ :: _ => cases r' <;> rfl

theorem saveIn_arg (F : Fn α) (o : Opts) (d : Dict Str (List (Num α))) (n : Nat) (r : RunArg κ δ α)
    (hd : ∀ p ∈ d, p.2.length = n) (hr : ∀ x, r = .obj x → x.store.data.keys.length = n) :
    saveIn F o (o.returnMean && o.returnStd) d (.given r : RunIn κ δ ι α) = (.given (saveArg F o d r), .ok ()) := by
  cases r with
  | dict x => rfl
  | obj x =>
    unfold saveIn saveArg
    simp only
    by_cases hsv : o.save = true
    · rw [if_pos hsv, if_pos hsv, saveEach_eq F _ d x (fun p hp' => by rw [hd p hp', hr x rfl])]
    · rw [if_neg hsv, if_neg hsv]

theorem isRun_arg (r : RunArg κ δ α) : (RunIn.given r : RunIn κ δ ι α).isRun = Spec.isObj r := by cases r <;> rfl

/-- **C146** (objects and dictionaries): on arguments that are no arrays the call with all kinds of arguments is the
call modelled before: same returned value or exception, same state of both arguments. -/
theorem C146_objects (F : Fn α) (other : Str → Except Err α) (SQ : ArgSort Int) (SR : ArgSort α) (hash : δ → ι)
    (sched : Nat → List Nat) (o : Opts) (q : QrelsArg κ δ α) (r : RunArg κ δ α) (hq : Spec.QrelsUsable SQ q)
    (hr : Spec.RunUsable SR r) (ms : List Str) :
    evaluateAny F other SQ SR hash sched o (.given q) (.given r) ms =
      ((.given (evaluate F other SQ SR hash sched o q r ms).1.qrels,
        .given (evaluate F other SQ SR hash sched o q r ms).1.run), (evaluate F other SQ SR hash sched o q r ms).2) := by
  have hu := prepare_usable SR o q r hr
  rw [evaluateAny_eq, evaluate_whole]
  simp only [prepareAny, checkAny, convertQrelsAny, convertRunAny]
  by_cases hk : sameKeys q.keys (prepare SR o q r).keys = true
  swap
  · rw [if_neg hk]
    exact if_neg hk
  rw [if_pos hk]
  refine (if_pos hk).trans ?_
  cases hcq : convertQrels SQ SR hash q with
  | error e => rfl
  | ok p =>
    obtain ⟨q', ql⟩ := p
    simp only [Except.map]
    cases hcr : convertRun SR hash (prepare SR o q r) with
    | error e => rfl
    | ok p =>
      obtain ⟨r', rl⟩ := p
      simp only
      obtain ⟨n1, l1⟩ := convertQrels_len SQ SR hash q q' hq ql hcq
      obtain ⟨n2, l2, ho, l3⟩ := convertRun_len SR hash _ r' hu rl hcr
      have hp := (perm_of_sameKeys n1 n2 hk).length_eq
      cases hd : scoreAll F other sched ql rl ms.zipIdx [] with
      | error e => rfl
      | ok d =>
        simp only
        have hlen := scoreAll_len F other sched ql rl ms.zipIdx [] d (by simp) hd
        rw [saveIn_arg F o d ql.length r' hlen (fun x hx => by rw [l3 x hx, l1, hp]), isRun_arg]

/-- Specification: `l` are the arrays of a qrels argument: `qrels.to_typed_list()` of an object,
`python_dict_to_typed_list(qrels)` of a dictionary. -/
def Spec.QrelsArrays (SQ : ArgSort Int) (SR : ArgSort α) (hash : δ → ι) (q : QrelsArg κ δ α) (l : List (Rows ι α)) : Prop :=
  match q with
  | .obj s => l = (s.toTypedList SQ hash (fun z : Int => (z : α))).2
  | .dict d => dictToTypedList SR hash d = .ok l

/-- Specification: `l` are the arrays of a run argument. -/
def Spec.RunArrays (SR : ArgSort α) (hash : δ → ι) (r : RunArg κ δ α) (l : List (Rows ι α)) : Prop :=
  match r with
  | .obj r => l = (r.store.toTypedList SR hash id).2
  | .dict d => dictToTypedList SR hash d = .ok l

theorem qrelsArrays_iff (SQ : ArgSort Int) (SR : ArgSort α) (hash : δ → ι) (q : QrelsArg κ δ α) (l : List (Rows ι α)) :
    Spec.QrelsArrays SQ SR hash q l → ∃ q', convertQrels SQ SR hash q = .ok (q', l) := by
  intro h
  cases q with
  | obj s => cases h; exact ⟨_, rfl⟩
  | dict d =>
    have h' : dictToTypedList SR hash d = .ok l := h
    exact ⟨.dict d, by simp only [convertQrels, h']⟩

theorem runArrays_iff (SR : ArgSort α) (hash : δ → ι) (r : RunArg κ δ α) (l : List (Rows ι α)) :
    Spec.RunArrays SR hash r l → ∃ r', convertRun SR hash r = .ok (r', l) := by
  intro h
  cases r with
  | obj s => cases h; exact ⟨_, rfl⟩
  | dict d =>
    have h' : dictToTypedList SR hash d = .ok l := h
    exact ⟨.dict d, by simp only [convertRun, h']⟩

theorem outOf_isRun (F : Fn α) (other : Str → Except Err α) (o : Opts) (b b' : Bool) (d : Dict Str (List (Num α)))
    (ms : List Str) (h : o.returnMean = true ∨ ms.length ≠ 1) : outOf F other o b d ms = outOf F other o b' d ms := by
  unfold outOf
  match ms with
  | [] => rfl
  | _ :: _ :: _ => rfl
  | [m] =>
    have h1 : o.returnMean = true := h.resolve_right (by simp)
    simp only
    have e : ∀ b, lastM other o b m = m := fun b => by unfold lastM; rw [h1]; rfl
    rw [e, e]

/-- **C146** (pre-converted arrays): converting the arguments first and evaluating the arrays — the qrels, the run or
both — returns what evaluating the objects or dictionaries themselves returns (same exception if a metric fails), for
every list of metrics, if means are returned or several metrics are asked for. -/
theorem C146_arrays (F : Fn α) (other : Str → Except Err α) (SQ : ArgSort Int) (SR : ArgSort α) (hash : δ → ι)
    (sched : Nat → List Nat) (o : Opts) (hc : o.makeComparable = false) (q : QrelsArg κ δ α) (r : RunArg κ δ α)
    (hq : Spec.QrelsUsable SQ q) (hr : Spec.RunUsable SR r) (hk : ∀ x, x ∈ q.keys ↔ x ∈ r.keys)
    (ql rl : List (Rows ι α)) (hql : Spec.QrelsArrays SQ SR hash q ql) (hrl : Spec.RunArrays SR hash r rl)
    (ms : List Str) (hone : o.returnMean = true ∨ ms.length ≠ 1) :
    let value := (evaluate F other SQ SR hash sched o q r ms).2
    (evaluateAny F other SQ SR hash sched o (.arrays ql : QrelsIn κ δ ι α) (.arrays rl) ms).2 = value ∧
    (evaluateAny F other SQ SR hash sched o (.given q) (.arrays rl) ms).2 = value ∧
    (evaluateAny F other SQ SR hash sched o (.arrays ql) (.given r) ms).2 = value := by
  obtain ⟨q', hq'⟩ := qrelsArrays_iff SQ SR hash q ql hql
  obtain ⟨r', hr'⟩ := runArrays_iff SR hash r rl hrl
  have hp : prepare SR o q r = r := by unfold prepare; rw [hc]; rfl
  have hu : RunWf r := by have := prepare_usable SR o q r hr; rwa [hp] at this
  have hk' : sameKeys q.keys r.keys = true := (sameKeys_iff' _ _).2 hk
  obtain ⟨n1, l1⟩ := convertQrels_len SQ SR hash q q' hq ql hq'
  obtain ⟨n2, l2, ho, l3⟩ := convertRun_len SR hash _ r' hu rl hr'
  have hpl := (perm_of_sameKeys n1 n2 hk').length_eq
  simp only
  rw [evaluate_whole, hp, if_pos hk', hq', evaluateAny_eq, evaluateAny_eq, evaluateAny_eq]
  simp only [prepareAny, checkAny, convertQrelsAny, convertRunAny, hq', hr', Except.map, if_true]
  cases hd : scoreAll F other sched ql rl ms.zipIdx [] with
  | error e => exact ⟨rfl, rfl, rfl⟩
  | ok d =>
    simp only
    have hlen := scoreAll_len F other sched ql rl ms.zipIdx [] d (by simp) hd
    rw [saveIn_arg F o d ql.length r' hlen (fun x hx => by rw [l3 x hx, l1, hpl])]
    exact ⟨outOf_isRun F other o _ _ d ms hone, outOf_isRun F other o _ _ d ms hone, outOf_isRun F other o _ _ d ms hone⟩

/-- **C146** (too few result lists): with fewer arrays in the run than in the qrels the call raises `IndexError` as
soon as a valid metric is computed. -/
theorem C146_short_run (F : Fn α) (other : Str → Except Err α) (SQ : ArgSort Int) (SR : ArgSort α) (hash : δ → ι)
    (sched : Nat → List Nat) (o : Opts) (ql rl : List (Rows ι α)) (h : rl.length < ql.length) (m : Str) (ms : List Str)
    (f : Kernel ι α) (hf : metricOf F other m = .ok f) :
    (evaluateAny F other SQ SR hash sched o (.arrays ql : QrelsIn κ δ ι α) (.arrays rl) (m :: ms)).2 =
      .error .indexError := by
  rw [evaluateAny_eq]
  simp only [prepareAny, checkAny, convertQrelsAny, convertRunAny, if_true, List.zipIdx_cons]
  unfold scoreAll
  rw [hf]
  simp only
  have : parallel f (sched 0) ql rl = .error .indexError := by unfold parallel; rw [if_pos h]
  rw [this]

theorem scoreAll_extra (F : Fn α) (other : Str → Except Err α) (sched : Nat → List Nat) (ql rl extra : List (Rows ι α))
    (hs : ∀ i, Schedule ql.length (sched i)) (hlen : ql.length = rl.length) (ms : List (Str × Nat))
    (acc : Dict Str (List (Num α))) :
    scoreAll F other sched ql (rl ++ extra) ms acc = scoreAll F other sched ql rl ms acc := by
  induction ms generalizing acc with
  | nil => rfl
  | cons mi t ih =>
    obtain ⟨m, i⟩ := mi
    unfold scoreAll
    cases (metricOf F other m : Except Err (Kernel ι α)) with
    | error e => rfl
    | ok f =>
      simp only
      have e : parallel f (sched i) ql (rl ++ extra) = parallel f (sched i) ql rl := by
        rw [parallel_any f _ _ _ (hs i), parallel_any f _ _ _ (hs i), if_neg (by rw [List.length_append]; omega),
          if_neg (by omega)]
        congr 1
        clear ih hs
        induction ql generalizing rl with
        | nil => rfl
        | cons a t ih =>
          cases rl with
          | nil => cases hlen
          | cons b u =>
            rw [List.cons_append, List.zipWith_cons_cons, List.zipWith_cons_cons, ih u (by simpa using hlen)]
      rw [e]
      cases parallel f (sched i) ql rl with
      | error e => rfl
      | ok l => exact ih _

/-- **C146** (too many result lists): arrays of the run beyond those of the qrels change nothing. -/
theorem C146_extra_ignored (F : Fn α) (other : Str → Except Err α) (SQ : ArgSort Int) (SR : ArgSort α) (hash : δ → ι)
    (sched : Nat → List Nat) (o : Opts) (ql rl extra : List (Rows ι α)) (hlen : ql.length = rl.length)
    (hs : ∀ i, Schedule ql.length (sched i)) (ms : List Str) :
    (evaluateAny F other SQ SR hash sched o (.arrays ql : QrelsIn κ δ ι α) (.arrays (rl ++ extra)) ms).2 =
      (evaluateAny F other SQ SR hash sched o (.arrays ql : QrelsIn κ δ ι α) (.arrays rl) ms).2 := by
  rw [evaluateAny_eq, evaluateAny_eq]
  simp only [prepareAny, checkAny, convertQrelsAny, convertRunAny, if_true]
  rw [scoreAll_extra F other sched ql rl extra hs hlen]
  cases scoreAll F other sched ql rl ms.zipIdx [] with
  | error e => rfl
  | ok d => rfl

/-- **C146** (fewer arrays than queries in a `Run` object): if the qrels arrays are fewer than the queries of the `Run`
object, a call that saves its results raises `IndexError`, but the mean of the metric is already stored in the run,
and it is the mean over the first queries of the run (in ascending order) as many as there are arrays; without saving the call
returns that mean. -/
theorem C146_short_qrels (F : Fn α) (other : Str → Except Err α) (SQ : ArgSort Int) (SR : ArgSort α) (hash : δ → ι)
    (sched : Nat → List Nat) (o : Opts) (hm : o.returnMean = true) (hstd : o.returnStd = false) (r : RunObj κ δ α)
    (hr : Spec.Usable SR r.store) (ql : List (Rows ι α)) (h : ql.length < r.store.data.length)
    (hs : ∀ i, Schedule ql.length (sched i)) (m : Str)
    (f : Kernel ι α) (hf : metricOf F other m = .ok f) (l : List (Num α))
    (hl : l.map .ok = List.zipWith f ql (r.store.toTypedList SR hash id).2) :
    (o.save = true → ∃ after : RunObj κ δ α,
      evaluateAny F other SQ SR hash sched o (.arrays ql) (.given (.obj r)) [m] =
        ((.arrays ql, .given (.obj after)), .error .indexError) ∧ after.meanScores.get? m = some (mean l)) ∧
    (o.save = false →
      (evaluateAny F other SQ SR hash sched o (.arrays ql) (.given (.obj r)) [m]).2 = .ok (.single (.mean (mean l)))) := by
  obtain ⟨-, -, -, -, -, l1⟩ := ensureSorted_facts SR r.store (Spec.Usable.ok SR hr).1 (Spec.Usable.ok SR hr).2
  have hrl : (r.store.toTypedList SR hash (id : α → α)).2.length = r.store.data.length := by
    simp only [Store.toTypedList, Store.rows, Dict.values, List.length_map]; exact l1
  have hsc : scoreAll F other sched ql (r.store.toTypedList SR hash (id : α → α)).2 [(m, 0)] [] = .ok [(m, l)] := by
    unfold scoreAll
    rw [hf]
    simp only
    rw [parallel_any f _ _ _ (hs 0), if_neg (by omega), ← hl, (collect_ok_iff _ _).2 rfl]
    rfl
  have hll : l.length = ql.length := by
    have := congrArg List.length hl
    rw [List.length_map, List.length_zipWith, hrl] at this
    omega
  have hstd' : (o.returnMean && o.returnStd) = false := by rw [hstd, Bool.and_false]
  constructor
  · intro hsv
    refine ⟨(saveAny F false { r with store := (r.store.toTypedList SR hash (id : α → α)).1 } m l).1, ?_, ?_⟩
    · rw [evaluateAny_eq]
      simp only [prepareAny, checkAny, convertQrelsAny, convertRunAny, convertRun, if_true, Except.map, List.zipIdx_cons,
        List.zipIdx_nil]
      rw [hsc]
      simp only [saveIn]
      rw [if_pos hsv, hstd']
      have e : (saveAny F false { r with store := (r.store.toTypedList SR hash (id : α → α)).1 } m l).2 = .error .indexError := by
        unfold saveAny
        simp only
        rw [if_pos]
        have : (Dict.keys (r.store.toTypedList SR hash (id : α → α)).1.data).length = r.store.data.length := by
          simp only [Dict.keys, List.length_map, Store.toTypedList]; exact l1
        omega
      unfold saveEach
      generalize hx : saveAny F false { r with store := (r.store.toTypedList SR hash (id : α → α)).1 } m l = x at e
      obtain ⟨x1, x2⟩ := x
      simp only at e
      subst e
      rfl
    · exact get?_set_self _ _ _
  · intro hsv
    rw [evaluateAny_eq]
    simp only [prepareAny, checkAny, convertQrelsAny, convertRunAny, convertRun, if_true, Except.map, List.zipIdx_cons,
      List.zipIdx_nil]
    rw [hsc]
    simp only [saveIn]
    rw [if_neg (by rw [hsv]; decide)]
    simp only [RunIn.isRun]
    unfold outOf
    simp only [List.map_cons, List.map_nil]
    have e : lastM other o true m = m := by unfold lastM; rw [hm]; rfl
    rw [e, get?_cons, if_pos rfl]
    simp only
    unfold present
    rw [if_pos hm, hstd', if_neg (by decide)]

/-- **C146** (metric strings and metric functions): evaluating arrays with a metric string returns the mean of what the
metric function the string stands for returns, or its exception. -/
theorem C146_string (F : Fn α) (other : Str → Except Err α) (SQ : ArgSort Int) (SR : ArgSort α) (hash : δ → ι)
    (sched : Nat → List Nat) (o : Opts) (hm : o.returnMean = true) (hstd : o.returnStd = false)
    (ql rl : List (Rows ι α)) (metric name : Str) (k : Param α) (lvl : Int) (met : Metric)
    (hx : extract other metric = .ok (name, k, lvl)) (hsw : metricSwitch name = .ok met) :
    (evaluateAny F other SQ SR hash sched o (.arrays ql : QrelsIn κ δ ι α) (.arrays rl) [metric]).2 =
      (metricFunction F met k lvl (sched 0) ql rl).map (fun l => .single (.mean (mean l))) := by
  have hstd' : (o.returnMean && o.returnStd) = false := by rw [hstd, Bool.and_false]
  have hmo : (metricOf F other metric : Except Err (Kernel ι α)) = kernel F met k lvl := by
    unfold metricOf; rw [hx]; simp only; rw [hsw]
  rw [evaluateAny_eq]
  simp only [prepareAny, checkAny, convertQrelsAny, convertRunAny, if_true, List.zipIdx_cons, List.zipIdx_nil]
  unfold scoreAll metricFunction
  rw [hmo]
  cases (kernel F met k lvl : Except Err (Kernel ι α)) with
  | error e => rfl
  | ok f =>
    simp only
    cases parallel f (sched 0) ql rl with
    | error e => rfl
    | ok l =>
      simp only [scoreAll, saveIn, RunIn.isRun]
      unfold outOf
      have e : lastM other o false metric = metric := by unfold lastM; rw [hm]; rfl
      simp only [Dict.set, List.map_cons, List.map_nil]
      rw [e, get?_cons, if_pos rfl]
      simp only [Except.map]
      unfold present
      rw [if_pos hm, hstd', if_neg (by decide)]

end

/-! ### instances -/

/-- arrays of two queries; the run has a third array -/
def exArraysQ : List (Rows Nat ℚ) := [[(11, 2), (12, 0)], [(20, 1)]]
def exArraysR : List (Rows Nat ℚ) := [[(12, 3), (11, 2)], [(20, 1)], [(30, 1)]]

example :
    metricFunction ratFn .precision (.cutoff 1) 1 [1, 0] exArraysQ exArraysR = .ok [.val 0, .val 1] ∧
    metricFunction ratFn .precision (.cutoff 1) 1 [1, 0] exArraysR exArraysQ = .error .indexError ∧
    metricFunction ratFn .precision (.cutoff (-1)) 1 [1, 0] exArraysQ exArraysR = .error .assertionError ∧
    (evaluateAny (κ := Nat) (δ := Nat) ratFn (fun _ => .error .valueError) (ArgSort.stable Int) (ArgSort.stable ℚ) id
      (fun _ => [1, 0]) {} (.arrays exArraysQ) (.arrays exArraysR) ["precision@1".toList]).2 =
        .ok (.single (.mean (.val (1/2)))) := by
  set_option synthInstance.maxSize 1000 in
  set_option synthInstance.maxHeartbeats 200000 in
  decide +kernel

example : Schedule exArraysQ.length [1, 0] := by unfold Schedule; decide

example (f : Kernel Nat ℚ) (hf : kernel ratFn .precision (.cutoff 1) 1 = .ok f) : exArraysQ.length ≤ exArraysR.length ∧
    ∃ l, metricFunction ratFn .precision (.cutoff 1) 1 [1, 0] exArraysQ exArraysR = .ok l :=
  ⟨by decide, [.val 0, .val 1], by
    set_option synthInstance.maxSize 1000 in
    set_option synthInstance.maxHeartbeats 200000 in
    decide +kernel⟩

/-- a run for the queries of `exQrelsObj` -/
def exArrayRun : Dict Nat (Dict Nat ℚ) := [(2, [(20, 1)]), (1, [(11, 2), (12, 3)])]

/-- an object and a dictionary, the arrays of the object, and the agreement of the values -/
example (metrics : List Str) :
    (evaluateAny ratFn (fun _ => .error .valueError) (ArgSort.stable Int) (ArgSort.stable ℚ) (id : Nat → Nat)
      (fun _ => [1, 0]) {} (.arrays (exQrelsObj.toTypedList (ArgSort.stable Int) id (fun z : Int => (z : ℚ))).2 : QrelsIn Nat Nat Nat ℚ)
      (.given (.dict exArrayRun)) metrics).2 =
    (evaluate ratFn (fun _ => .error .valueError) (ArgSort.stable Int) (ArgSort.stable ℚ) id
      (fun _ => [1, 0]) {} (.obj exQrelsObj) (.dict exArrayRun) metrics).2 :=
  (C146_arrays ratFn _ (ArgSort.stable Int) (ArgSort.stable ℚ) id _ {} rfl (.obj exQrelsObj) (.dict exArrayRun)
    exQrelsObj_usable (show NodupKeys exArrayRun by unfold NodupKeys; decide) (by
      intro x
      change x ∈ [1, 2] ↔ x ∈ [2, 1]
      simp [or_comm]) _ [[(20, 1)], [(12, 3), (11, 2)]] rfl
      (show dictToTypedList (ArgSort.stable ℚ) id exArrayRun = .ok _ by
        set_option synthInstance.maxSize 1000 in
        set_option synthInstance.maxHeartbeats 200000 in
        decide +kernel) metrics (Or.inl rfl)).2.2

/-- one array of judgements for a run with two queries: `IndexError`, but the mean over query 1 is saved -/
example : ∃ after : RunObj Nat Nat ℚ,
    evaluateAny ratFn (fun _ => .error .valueError) (ArgSort.stable Int) (ArgSort.stable ℚ) (id : Nat → Nat)
      (fun _ => [0]) {} (.arrays [[(11, 1)]]) (.given (.obj exRunObj)) ["precision".toList] =
        ((.arrays [[(11, 1)]], .given (.obj after)), .error .indexError) ∧
      after.meanScores.get? "precision".toList = some (.val (1/2)) := by
  have hf : (metricOf ratFn (fun _ => .error .valueError) "precision".toList : Except Err (Kernel Nat ℚ)) =
      .ok (total (fun q r => Metrics.precision q r 0 1)) := by
    have h1 : extract (α := ℚ) (fun _ => .error .valueError) "precision".toList =
        .ok ("precision".toList, .cutoff 0, 1) := by
      set_option synthInstance.maxSize 1000 in
      set_option synthInstance.maxHeartbeats 200000 in
      decide +kernel
    have h2 : metricSwitch "precision".toList = .ok .precision := by decide +kernel
    unfold metricOf
    rw [h1]
    simp only
    rw [h2]
    simp only [kernel, withCutoff]
    norm_num
  have h := (C146_short_qrels ratFn (fun _ => .error .valueError) (ArgSort.stable Int) (ArgSort.stable ℚ)
    (id : Nat → Nat) (fun _ => [0]) {} rfl rfl exRunObj exRunObj_usable [[(11, 1)]] (by decide)
    (fun _ => by unfold Schedule; decide) _ _ hf [.val (1/2)] (by
      set_option synthInstance.maxSize 1000 in
      set_option synthInstance.maxHeartbeats 200000 in
      decide +kernel)).1 rfl
  obtain ⟨a, ha, hb⟩ := h
  refine ⟨a, ha, hb.trans ?_⟩
  decide +kernel

end Ranx
