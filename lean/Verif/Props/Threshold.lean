import Verif.Props.CompareSubset

/-!
# Property C142: `max_p` only decides which differences are marked

The same comparison (same draws, same schedules) with two thresholds.
-/

set_option linter.unusedSectionVars false

namespace Ranx
open Dict Store Eval Metrics Py Stat Rep
variable {κ δ ι α : Type*}
variable [LinearOrder κ] [DecidableEq δ] [LinearOrder ι] [Field α] [LinearOrder α]
  [IsStrictOrderedRing α]

/-- the result with another threshold -/
def reThreshold (p : α) (c : Result α) : Result α := ⟨c.p, leNum c.p (.val p)⟩

theorem set_map_val {κ ν μ : Type*} [DecidableEq κ] (f : ν → μ) (d : Dict κ ν) (k : κ) (v : ν) :
    (d.set k v).map (fun p => (p.1, f p.2)) = Dict.set (d.map (fun p => (p.1, f p.2))) k (f v) := by
  induction d with
  | nil => rfl
  | cons p t ih =>
    unfold Dict.set
    simp only [List.map_cons]
    by_cases h : p.1 = k
    · rw [if_pos h, if_pos h]; rfl
    · rw [if_neg h, if_neg h, List.map_cons, ih]

abbrev reDict (p : α) (d : Dict Str (Result α)) : Dict Str (Result α) :=
  d.map (fun e => (e.1, reThreshold p e.2))

abbrev reAll (p : α) (c : Comparisons α) : Comparisons α :=
  List.map (fun e => (e.1, reDict p e.2)) c

theorem reThreshold_same (p : Num α) (x y : α) :
    reThreshold y ⟨p, leNum p (.val x)⟩ = ⟨p, leNum p (.val y)⟩ := rfl

theorem fisher_threshold (coin : Nat → Nat → Bool) (sched : List Nat) (c t : List (Num α)) (n : Nat) (x y : α) :
    fisher coin sched c t n y = (fisher coin sched c t n x).map (reThreshold y) := by
  unfold fisher
  by_cases h : c.length ≠ t.length
  · simp only [if_pos h]; rfl
  · simp only [if_neg h]; rfl

theorem student_threshold (tt : List (Num α) → List (Num α) → Num α) (c t : List (Num α)) (x y : α) :
    student tt c t y = (student tt c t x).map (reThreshold y) := by
  unfold student
  by_cases h : c.length ≠ t.length
  · simp only [if_pos h]; rfl
  · simp only [if_neg h]; rfl

theorem pairTest_threshold (E : Env α) (test : Str) (n : Nat) (x y : α) (i j : Nat)
    (c t : Dict Str (List (Num α))) (ms : List Str) (acc : Dict Str (Result α)) :
    pairTest E test n y i j c t ms (reDict y acc) = (pairTest E test n x i j c t ms acc).map (reDict y) := by
  induction ms generalizing acc with
  | nil => rfl
  | cons m ms ih =>
    have key : ∀ r : Result α, pairTest E test n y i j c t ms ((reDict y acc).set m (reThreshold y r)) =
        (pairTest E test n x i j c t ms (acc.set m r)).map (reDict y) := by
      intro r
      rw [← set_map_val (reThreshold y) acc m r]
      exact ih _
    unfold pairTest
    simp only
    by_cases h1 : test = "fisher".toList ∨ test = "student".toList
    · rw [if_pos h1, if_pos h1]
      cases c.get? m with
      | none => rfl
      | some a =>
        cases t.get? m with
        | none => rfl
        | some b =>
          by_cases h2 : test = "fisher".toList
          · simp only [if_pos h2]
            rw [fisher_threshold _ _ a b n x y]
            cases fisher (E.coin i j m) (E.sched i j m) a b n x with
            | error e => rfl
            | ok r => exact key r
          · simp only [if_neg h2]
            rw [student_threshold _ a b x y]
            cases student E.ttest a b x with
            | error e => rfl
            | ok r => exact key r
    · rw [if_neg h1, if_neg h1]; rfl

theorem treatments_threshold (E : Env α) (test : Str) (n : Nat) (x y : α)
    (scores : Dict Str (Dict Str (List (Num α)))) (i : Nat) (control : Str) (cs : Dict Str (List (Num α)))
    (l : List (Str × Nat)) (acc : Comparisons α) :
    treatments E test n y scores i control cs l (reAll y acc) =
      (treatments E test n x scores i control cs l acc).map (reAll y) := by
  induction l generalizing acc with
  | nil => rfl
  | cons p l ih =>
    obtain ⟨tr, j⟩ := p
    unfold treatments
    by_cases h : control ≠ tr
    · rw [if_pos h, if_pos h]
      cases scores.get? tr with
      | none => rfl
      | some ts =>
        simp only
        have := pairTest_threshold E test n x y i j cs ts cs.keys []
        rw [show reDict y ([] : Dict Str (Result α)) = [] from rfl] at this
        rw [this]
        cases pairTest E test n x i j cs ts cs.keys [] with
        | error e => rfl
        | ok r =>
          simp only [Except.map]
          have e : FrozensetDict.setItem (reAll y acc) [control, tr] (reDict y r) =
              reAll y (FrozensetDict.setItem acc [control, tr] r) := (set_map_val (reDict y) acc _ r).symm
          rw [e]
          exact ih _
    · rw [if_neg h, if_neg h]; exact ih _

theorem controls_threshold (E : Env α) (test : Str) (n : Nat) (x y : α)
    (scores : Dict Str (Dict Str (List (Num α)))) (names : List (Str × Nat))
    (l : List (Str × Nat)) (acc : Comparisons α) :
    controls E test n y scores names l (reAll y acc) = (controls E test n x scores names l acc).map (reAll y) := by
  induction l generalizing acc with
  | nil => rfl
  | cons p l ih =>
    obtain ⟨c, i⟩ := p
    unfold controls
    cases scores.get? c with
    | none => rfl
    | some cs =>
      simp only
      rw [treatments_threshold E test n x y]
      cases treatments E test n x scores i c cs names acc with
      | error e => rfl
      | ok a => exact ih a

theorem tukeyStore_threshold (y : α) (m : Str) (acc : Comparisons α) (a b : Str) (r : Result α) :
    tukeyStore m (reAll y acc) (a, b, reThreshold y r) = reAll y (tukeyStore m acc (a, b, r)) := by
  unfold tukeyStore
  have e : FrozensetDict.getItem (reAll y acc) [a, b] = (FrozensetDict.getItem acc [a, b]).map (reDict y) :=
    get?_map_val acc (reDict y) _
  simp only
  rw [e]
  cases FrozensetDict.getItem acc [a, b] with
  | none => rfl
  | some d =>
    simp only [Option.map]
    rw [← set_map_val (reThreshold y) d m r]
    exact (set_map_val (reDict y) acc _ _).symm

theorem tukeyFold_threshold (y : α) (m : Str) (l : List (Str × Str × Result α)) (acc : Comparisons α) :
    (l.map (fun r => (r.1, r.2.1, reThreshold y r.2.2))).foldl (tukeyStore m) (reAll y acc) =
      reAll y (l.foldl (tukeyStore m) acc) := by
  induction l generalizing acc with
  | nil => rfl
  | cons r t ih =>
    obtain ⟨a, b, r⟩ := r
    rw [List.map_cons, List.foldl_cons, List.foldl_cons, tukeyStore_threshold]
    exact ih _

theorem tukeyAll_threshold (E : Env α) (names : List Str) (scores : Dict Str (Dict Str (List (Num α)))) (x y : α)
    (ms : List Str) (acc : Comparisons α) :
    tukeyAll E names scores y ms (reAll y acc) = (tukeyAll E names scores x ms acc).map (reAll y) := by
  induction ms generalizing acc with
  | nil => rfl
  | cons m ms ih =>
    unfold tukeyAll
    cases scoresFor names scores m with
    | error e => rfl
    | ok sc =>
      simp only
      unfold tukeyTest
      cases E.tukey sc with
      | error e => rfl
      | ok p =>
        simp only
        rw [← ih, ← tukeyFold_threshold]
        congr 2
        simp only [List.map_flatMap, List.map_map]
        rfl

theorem tukeyInit_threshold (y : α) (names : List Str) : reAll y (tukeyInit names) = tukeyInit names := by
  have inner : ∀ (a : Str) (l : List Str) (acc : Comparisons α),
      reAll y (l.foldl (fun acc b => FrozensetDict.setItem acc [a, b] []) acc) =
        l.foldl (fun acc b => FrozensetDict.setItem acc [a, b] []) (reAll y acc) := by
    intro a l
    induction l with
    | nil => intro acc; rfl
    | cons b t ih =>
      intro acc
      rw [List.foldl_cons, List.foldl_cons, ih]
      congr 1
      exact set_map_val (reDict y) acc _ []
  have outer : ∀ (l : List (Str × Nat)) (acc : Comparisons α),
      reAll y (l.foldl (fun acc a => (names.drop a.2).foldl (fun acc b =>
        FrozensetDict.setItem acc [a.1, b] []) acc) acc) =
        l.foldl (fun acc a => (names.drop a.2).foldl (fun acc b =>
        FrozensetDict.setItem acc [a.1, b] []) acc) (reAll y acc) := by
    intro l
    induction l with
    | nil => intro acc; rfl
    | cons b t ih =>
      intro acc
      rw [List.foldl_cons, List.foldl_cons, ih, inner]
  exact outer _ []

theorem significance_threshold (E : Env α) (names : List Str) (scores : Dict Str (Dict Str (List (Num α))))
    (test : Str) (n : Nat) (x y : α) :
    significance E names scores test n y = (significance E names scores test n x).map (reAll y) := by
  unfold significance
  by_cases h1 : test = "fisher".toList ∨ test = "student".toList
  · rw [if_pos h1, if_pos h1]
    exact controls_threshold E test n x y scores _ _ []
  · rw [if_neg h1, if_neg h1]
    by_cases h2 : test = "tukey".toList
    · rw [if_pos h2, if_pos h2]
      cases names with
      | nil => rfl
      | cons f t =>
        simp only
        cases scores.get? f with
        | none => rfl
        | some d =>
          simp only
          rw [← tukeyAll_threshold E (f :: t) scores x y, tukeyInit_threshold]
    · rw [if_neg h2, if_neg h2]; rfl

theorem compare_threshold (F : Fn α) (other : Str → Except Err α) (SQ : ArgSort Int) (SR : ArgSort α)
    (hash : δ → ι) (sched : Nat → Nat → List Nat) (E : Env α) (mc : Bool) (test : Str) (n : Nat) (x y : α)
    (q : QrelsArg κ δ α) (runs : List (NamedRun κ δ α)) (ms : List Str) :
    Rep.compare F other SQ SR hash sched E mc test n y q runs ms =
      (Rep.compare F other SQ SR hash sched E mc test n x q runs ms).map
        (fun o => ({ o.1 with comparisons := reAll y o.1.comparisons, maxP := y }, o.2)) := by
  unfold Rep.compare
  cases evalRuns F other SQ SR hash sched mc ms runs.zipIdx ⟨q, [], [], [], []⟩ with
  | error e => rfl
  | ok a =>
    simp only
    rw [significance_threshold E a.names a.scores test n x y]
    cases significance E a.names a.scores test n x with
    | error e => rfl
    | ok c =>
      simp only [Except.map]
      cases wtlPairs a.scores ms (pairs a.names) [] with
      | error e => rfl
      | ok w => rfl

/-- the p-value the report gives for a pair and a metric -/
def Spec.pValue (r : Report α) (a b m : Str) (p : Num α) : Prop := ∃ s, r.comparison a b m = .ok ⟨p, s⟩

theorem comparison_threshold (r : Report α) (y : α) (a b m : Str) :
    Report.comparison { r with comparisons := reAll y r.comparisons, maxP := y } a b m =
      (r.comparison a b m).map (reThreshold y) := by
  unfold Report.comparison
  have e : FrozensetDict.getItem (reAll y r.comparisons) [a, b] =
      (FrozensetDict.getItem r.comparisons [a, b]).map (reDict y) := get?_map_val r.comparisons (reDict y) _
  simp only
  rw [e]
  cases FrozensetDict.getItem r.comparisons [a, b] with
  | none => rfl
  | some d =>
    simp only [Option.map, Option.bind_some]
    rw [get?_map_val d (reThreshold y)]
    cases Dict.get? d m <;> rfl

/-- every comparison in a report of `compare` is significant exactly if its p-value is at most `max_p` -/
theorem compare_significant (F : Fn α) (other : Str → Except Err α) (SQ : ArgSort Int) (SR : ArgSort α)
    (hash : δ → ι) (sched : Nat → Nat → List Nat) (E : Env α) (mc : Bool) (test : Str) (n : Nat) (x : α)
    (q : QrelsArg κ δ α) (runs : List (NamedRun κ δ α)) (ms : List Str)
    (rep : Report α) (q' : QrelsArg κ δ α) (rs' : List (RunArg κ δ α))
    (h : Rep.compare F other SQ SR hash sched E mc test n x q runs ms = .ok (rep, q', rs'))
    (a b m : Str) (c : Result α) (hc : rep.comparison a b m = .ok c) :
    c.significant = leNum c.p (.val x) := by
  have e := compare_threshold F other SQ SR hash sched E mc test n x x q runs ms
  rw [h] at e
  simp only [Except.map, Except.ok.injEq, Prod.mk.injEq, and_true] at e
  have e2 := comparison_threshold rep x a b m
  rw [← e, hc] at e2
  simp only [Except.map, Except.ok.injEq] at e2
  have := congrArg Result.significant e2
  exact this

/-- `model` has the mark of every model it had a mark of -/
theorem marks_mono (r r' : Report α) (cs : List Char) (model metric : Str)
    (hb : ∀ o v v', r.better model metric o = .ok v → r'.better model metric o = .ok v' → v = true → v' = true)
    (l : List (Str × Nat)) (s s' : Str)
    (h : r.marks cs true model metric l = .ok s) (h' : r'.marks cs true model metric l = .ok s') :
    s.Sublist s' := by
  induction l generalizing s s' with
  | nil => cases h; cases h'; exact List.Sublist.refl _
  | cons p t ih =>
    obtain ⟨o, j⟩ := p
    unfold Report.marks at h h'
    by_cases hm : model ≠ o
    · rw [if_pos hm] at h h'
      cases h1 : r.better model metric o with
      | error e => rw [h1] at h; cases h
      | ok v =>
        cases h2 : r'.better model metric o with
        | error e => rw [h2] at h'; cases h'
        | ok v' =>
          rw [h1] at h; rw [h2] at h'
          simp only at h h'
          have hvv := hb o v v' h1 h2
          cases hcj : cs[j]? with
          | none =>
            rw [hcj] at h h'
            cases v' with
            | true => simp at h'
            | false =>
              cases v with
              | true => simp at h
              | false => simp only [Bool.false_eq_true, if_false] at h h'; exact ih _ _ h h'
          | some c =>
            rw [hcj] at h h'
            cases hs : r.marks cs true model metric t with
            | error e =>
              rw [hs] at h
              cases v <;> simp at h
            | ok u =>
              cases hs' : r'.marks cs true model metric t with
              | error e =>
                rw [hs'] at h'
                cases v' <;> simp at h'
              | ok u' =>
                rw [hs] at h; rw [hs'] at h'
                have hsub := ih _ _ hs hs'
                cases v with
                | true =>
                  rw [hvv rfl] at h'
                  simp only [if_true, Except.ok.injEq] at h h'
                  rw [← h, ← h']
                  exact hsub.cons_cons c
                | false =>
                  simp only [Bool.false_eq_true, if_false, Except.ok.injEq] at h
                  cases v' with
                  | true =>
                    simp only [if_true, Except.ok.injEq] at h'
                    rw [← h, ← h']
                    exact hsub.cons c
                  | false =>
                    simp only [Bool.false_eq_true, if_false, Except.ok.injEq] at h'
                    rw [← h, ← h']
                    exact hsub
    · rw [if_neg hm] at h h'
      exact ih _ _ h h'

/-- **C142** (threshold): repeating a comparison (same draws, same schedules) with another `max_p` succeeds
or fails alike, and the reports agree on everything but the significance of the differences: models,
scores, p-values, wins, ties, losses - for every test. -/
theorem C142_only_significance (F : Fn α) (other : Str → Except Err α) (SQ : ArgSort Int) (SR : ArgSort α)
    (hash : δ → ι) (sched : Nat → Nat → List Nat) (E : Env α) (mc : Bool) (test : Str) (n : Nat) (x y : α)
    (q : QrelsArg κ δ α) (runs : List (NamedRun κ δ α)) (ms : List Str) :
    (∀ e, Rep.compare F other SQ SR hash sched E mc test n x q runs ms = .error e →
      Rep.compare F other SQ SR hash sched E mc test n y q runs ms = .error e) ∧
    ∀ rep q' rs', Rep.compare F other SQ SR hash sched E mc test n x q runs ms = .ok (rep, q', rs') →
      ∃ rep', Rep.compare F other SQ SR hash sched E mc test n y q runs ms = .ok (rep', q', rs') ∧
        rep'.modelNames = rep.modelNames ∧ rep'.metrics = rep.metrics ∧
        (∀ a m, rep'.score a m = rep.score a m) ∧
        (∀ a b m, wtlAt rep'.winTieLoss (a, b) m = wtlAt rep.winTieLoss (a, b) m) ∧
        (∀ a b m p, Spec.pValue rep' a b m p ↔ Spec.pValue rep a b m p) ∧
        (∀ a b m p s, rep.comparison a b m = .ok ⟨p, s⟩ → (s = true ↔ ∃ v, p = .val v ∧ v ≤ x)) ∧
        ∀ a b m p s, rep'.comparison a b m = .ok ⟨p, s⟩ → (s = true ↔ ∃ v, p = .val v ∧ v ≤ y) := by
  have e := compare_threshold F other SQ SR hash sched E mc test n x y q runs ms
  have hsig : ∀ (x : α) (c : Result α), c.significant = leNum c.p (.val x) →
      (c.significant = true ↔ ∃ v, c.p = .val v ∧ v ≤ x) := by
    intro x c hc
    rw [hc]
    cases c.p with
    | nan => simp [leNum]
    | val v => simp [leNum]
  constructor
  · intro er h
    rw [e, h]; rfl
  · intro rep q' rs' h
    rw [h] at e
    simp only [Except.map] at e
    refine ⟨_, e, rfl, rfl, fun a m => rfl, fun a b m => rfl, ?_, ?_, ?_⟩
    · intro a b m p
      unfold Spec.pValue
      rw [comparison_threshold]
      cases rep.comparison a b m with
      | error er => simp [Except.map]
      | ok c =>
        obtain ⟨cp, cs⟩ := c
        simp [Except.map, reThreshold]
    · intro a b m p s hc
      exact hsig x ⟨p, s⟩ (compare_significant F other SQ SR hash sched E mc test n x q runs ms rep q' rs' h a b m _ hc)
    · intro a b m p s hc
      exact hsig y ⟨p, s⟩ (compare_significant F other SQ SR hash sched E mc test n y q runs ms _ q' rs' e a b m _ hc)

/-- **C142** (superscripts): with a larger `max_p` every model keeps the superscripts it had, in the table
and in LaTeX: the marks for the smaller threshold are among the marks for the larger one, in order. -/
theorem C142_superscripts (F : Fn α) (other : Str → Except Err α) (SQ : ArgSort Int) (SR : ArgSort α)
    (hash : δ → ι) (sched : Nat → Nat → List Nat) (E : Env α) (mc : Bool) (test : Str) (n : Nat) (x y : α)
    (hxy : x ≤ y) (q : QrelsArg κ δ α) (runs : List (NamedRun κ δ α)) (ms : List Str)
    (rep rep' : Report α) (o o' : QrelsArg κ δ α × List (RunArg κ δ α))
    (h : Rep.compare F other SQ SR hash sched E mc test n x q runs ms = .ok (rep, o))
    (h' : Rep.compare F other SQ SR hash sched E mc test n y q runs ms = .ok (rep', o'))
    (model metric : Str) (s s' : Str) :
    (rep.superscriptTable model metric = .ok s → rep'.superscriptTable model metric = .ok s' → s.Sublist s') ∧
    (rep.superscriptLatex model metric = .ok s → rep'.superscriptLatex model metric = .ok s' → s.Sublist s') := by
  have e := compare_threshold F other SQ SR hash sched E mc test n x y q runs ms
  rw [h, h'] at e
  simp only [Except.map, Except.ok.injEq, Prod.mk.injEq] at e
  obtain ⟨e, -⟩ := e
  have hb : ∀ o v v', rep.better model metric o = .ok v → rep'.better model metric o = .ok v' →
      v = true → v' = true := by
    intro o v v' h1 h2 hv
    obtain ⟨c, a, b, hc, hsig, ha, hb, hlt⟩ := (better_iff rep model metric o v h1).1 hv
    refine (better_iff rep' model metric o v' h2).2 ⟨reThreshold y c, a, b, ?_, ?_, ?_, ?_, hlt⟩
    · rw [e, comparison_threshold, hc]; rfl
    · have := compare_significant F other SQ SR hash sched E mc test n x q runs ms rep _ _ h _ _ _ c hc
      rw [hsig] at this
      unfold reThreshold
      cases hp : c.p with
      | nan => rw [hp] at this; simp [leNum] at this
      | val v =>
        rw [hp] at this
        simp only [leNum] at this ⊢
        exact decide_eq_true ((of_decide_eq_true this.symm).trans hxy)
    · rw [e]; exact ha
    · rw [e]; exact hb
  have hn : rep'.modelNames = rep.modelNames := by rw [e]
  unfold Report.superscriptTable Report.superscriptLatex
  rw [hn]
  exact ⟨marks_mono rep rep' _ model metric hb _ s s', marks_mono rep rep' _ model metric hb _ s s'⟩

/-- Non-vacuity of C142: a comparison with p-value 1/2 (Tukey's test of `exStatEnv`) and thresholds
1/100 and 3/5. -/
def exThreshold (p : ℚ) : Except Err (Report ℚ) :=
  (Rep.compare (ι := Nat) ratFn (fun _ => .error .valueError) (ArgSort.stable Int) (ArgSort.stable ℚ) id
    (fun _ _ => [1, 0]) exStatEnv true "tukey".toList 2 p (.obj exQrelsObj) exOrder₁
    ["precision@2".toList, "recall@2".toList]).map Prod.fst

example :
    (exThreshold (1/100)).map (fun r => (r.superscriptTable "best".toList "recall@2".toList,
      r.comparison "best".toList "bm25".toList "recall@2".toList)) = .ok (.ok [], .ok ⟨.val (1/2), false⟩) ∧
    (exThreshold (3/5)).map (fun r => (r.superscriptTable "best".toList "recall@2".toList,
      r.comparison "best".toList "bm25".toList "recall@2".toList)) = .ok (.ok "ᵃ".toList, .ok ⟨.val (1/2), true⟩) := by
  decide +kernel

end Ranx
