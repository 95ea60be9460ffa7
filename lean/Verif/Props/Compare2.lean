import Verif.Props.Compare
import Verif.Props.Train

/-!
# Properties C73, C85: `compare` succeeds; same names; concrete reports
-/

set_option linter.unusedSectionVars false

namespace Ranx
open Dict Store Eval Metrics Py Stat Rep
variable {κ δ ι α : Type*}
variable [LinearOrder κ] [DecidableEq δ] [LinearOrder ι] [Field α] [LinearOrder α]
  [IsStrictOrderedRing α]

theorem evalRuns_succeeds (F : Fn α) (other : Str → Except Err α) (SQ : ArgSort Int) (SR : ArgSort α)
    (hash : δ → ι) (sched : Nat → Nat → List Nat) (mc : Bool) (ms : List Str) (s : Store κ δ Int)
    (hs : Spec.Usable SQ s) (hsched : ∀ i j, Schedule s.data.length (sched i j))
    (hms : ∀ m ∈ ms, ∃ f : Kernel ι α, metricOf F other m = .ok f ∧ ∀ a b, ∃ v, f a b = .ok v)
    (runs : List (NamedRun κ δ α × Nat)) (hr : ∀ p ∈ runs, Spec.Usable SR p.1.obj.store)
    (hk : mc = true ∨ ∀ p ∈ runs, ∀ q, q ∈ s.data.keys ↔ q ∈ p.1.obj.store.data.keys)
    (acc : Acc κ δ α) (hq : acc.qrels = .obj s ∨ acc.qrels = .obj (s.ensureSorted SQ)) :
    ∃ a, evalRuns F other SQ SR hash sched mc ms runs acc = .ok a := by
  induction runs generalizing acc with
  | nil => exact ⟨acc, rfl⟩
  | cons p t ih =>
    obtain ⟨r, i⟩ := p
    have hru := hr (r, i) (by simp)
    obtain ⟨after, out, he⟩ := C31_succeeds F other SQ SR hash (sched i) (cmpOpts mc) (.inl rfl) s r.obj ms hs hru
      (hsched i) (by
        rcases hk with hk | hk
        · left; exact hk
        · right; exact hk (r, i) (by simp)) hms
    have he' : evaluate F other SQ SR hash (sched i)
        { returnMean := false, makeComparable := mc } acc.qrels (.obj r.obj) ms = (after, .ok out) := by
      rcases hq with hq | hq
      · rw [hq]; exact he
      · rw [hq]
        exact (evaluate_ensureSorted F other SQ SR hash (sched i) (cmpOpts mc) s r.obj ms hs.ok.1
          hru.ok.1 after out).2 he
    obtain ⟨d, hd⟩ := success F other SQ SR hash (sched i) (cmpOpts mc) s r.obj ms hs hru (hsched i) he
    have hget := asScores_success F other SQ SR hash mc s r.obj ms after out d hd
    obtain ⟨x, hx⟩ := means_succeeds (asScores ms out) ms ((acc.results.get? (modelName i r)).getD []) (by
      intro m hm
      rw [← get?_isSome, hget, get?_isSome, hd.metrics]
      exact hm)
    unfold evalRuns
    simp only
    rw [he']
    simp only
    rw [hx]
    simp only
    exact ih (fun p hp => hr p (by simp [hp])) (by
      rcases hk with hk | hk
      · left; exact hk
      · right; exact fun p hp => hk p (by simp [hp])) _ (by right; rw [hd.state])

/-- the test is one of the three, and SciPy's Tukey test accepts the samples if it is used -/
def Spec.TestWorks (E : Env α) (test : Str) (models queries : Nat) : Prop :=
  test = "fisher".toList ∨ test = "student".toList ∨
    (test = "tukey".toList ∧ 0 < models ∧ ∀ scores : List (List (Num α)), scores.length = models →
      (∀ l ∈ scores, l.length = queries) → ∃ p, E.tukey scores = .ok p)

theorem significance_succeeds (E : Env α) (names : List Str) (scores : Dict Str (Dict Str (List (Num α))))
    (test : Str) (n : Nat) (maxP : α) (q : Nat) (ms : List Str)
    (ht : Spec.TestWorks E test names.length q)
    (h : ∀ x ∈ names, ∃ sc, scores.get? x = some sc ∧ (∀ m, m ∈ sc.keys ↔ m ∈ ms) ∧
      ∀ m l, sc.get? m = some l → l.length = q) :
    ∃ c, significance E names scores test n maxP = .ok c := by
  have pair : ∀ (test : Str), test = "fisher".toList ∨ test = "student".toList →
      ∃ c, significance E names scores test n maxP = .ok c := by
    intro test ht
    unfold significance
    rw [if_pos ht]
    refine controls_succeeds E test n maxP scores ht _ _ _ ?_
    intro p hp
    obtain ⟨ca, h1, h2, h3⟩ := h p.1 (List.fst_mem_of_mem_zipIdx hp)
    refine ⟨ca, h1, ?_⟩
    intro p' hp'
    obtain ⟨cb, g1, g2, g3⟩ := h p'.1 (List.fst_mem_of_mem_zipIdx hp')
    refine ⟨cb, g1, ?_⟩
    intro m hm
    obtain ⟨x, hx⟩ := Option.isSome_iff_exists.1 (get?_isSome.2 hm)
    obtain ⟨y, hy⟩ := Option.isSome_iff_exists.1 (get?_isSome.2 ((g2 m).2 ((h2 m).1 hm)))
    exact ⟨x, y, hx, hy, (h3 m x hx).trans (g3 m y hy).symm⟩
  rcases ht with ht | ht | ⟨ht, hpos, htk⟩
  · exact pair test (.inl ht)
  · exact pair test (.inr ht)
  · unfold significance
    subst ht
    rw [if_neg (by decide +kernel), if_pos rfl]
    cases hn : names with
    | nil => rw [hn] at hpos; simp at hpos
    | cons first rest =>
      simp only
      obtain ⟨d, hd, hdk, -⟩ := h first (by rw [hn]; simp)
      rw [hd]
      simp only
      rw [← hn]
      have key : ∀ (l : List Str) (acc : Comparisons α), (∀ m ∈ l, m ∈ ms) →
          ∃ c, tukeyAll E names scores maxP l acc = .ok c := by
        intro l
        induction l with
        | nil => intro acc _; exact ⟨acc, rfl⟩
        | cons m t ih =>
          intro acc hl
          have hsc : ∃ sc, scoresFor names scores m = .ok sc ∧ sc.length = names.length ∧
              ∀ l ∈ sc, l.length = q := by
            unfold scoresFor
            have hall : ∀ x ∈ names, ∃ l, ((scores.get? x).bind (fun d => d.get? m)) = some l ∧ l.length = q := by
              intro x hx
              obtain ⟨sc, h1, h2, h3⟩ := h x hx
              obtain ⟨l, hl'⟩ := Option.isSome_iff_exists.1 (get?_isSome.2 ((h2 m).2 (hl m (by simp))))
              exact ⟨l, by rw [h1, Option.bind_some, hl'], h3 m l hl'⟩
            clear hpos hn hd h htk ih pair
            induction names with
            | nil => exact ⟨[], rfl, rfl, by simp⟩
            | cons x xs ihn =>
              obtain ⟨l, h1, h2⟩ := hall x (by simp)
              obtain ⟨sc, g1, g2, g3⟩ := ihn (fun y hy => hall y (by simp [hy]))
              refine ⟨l :: sc, ?_, by simp [g2], ?_⟩
              · rw [collect_ok_iff] at g1 ⊢
                rw [List.map_cons, List.map_cons, h1, g1]
              · intro l' hl'
                rcases List.mem_cons.1 hl' with rfl | hl'
                · exact h2
                · exact g3 l' hl'
          obtain ⟨sc, h1, h2, h3⟩ := hsc
          obtain ⟨p, hp⟩ := htk sc h2 h3
          unfold tukeyAll
          rw [h1]
          simp only
          unfold tukeyTest
          rw [hp]
          simp only
          exact ih _ (fun m hm => hl m (by simp [hm]))
      exact key _ _ (fun m hm => (hdk m).1 hm)

/-- **C85** (success): `compare` produces a report for usable objects, pairwise different names, metrics
that are defined everywhere, a test that works and either `make_comparable=True` or runs over exactly the
judged queries. -/
theorem C85_succeeds (F : Fn α) (other : Str → Except Err α) (SQ : ArgSort Int) (SR : ArgSort α)
    (hash : δ → ι) (sched : Nat → Nat → List Nat) (E : Env α) (mc : Bool) (test : Str) (n : Nat) (maxP : α)
    (s : Store κ δ Int) (runs : List (NamedRun κ δ α)) (ms : List Str)
    (hc : Spec.Comparable SQ SR sched s runs)
    (hms : ∀ m ∈ ms, ∃ f : Kernel ι α, metricOf F other m = .ok f ∧ ∀ a b, ∃ v, f a b = .ok v)
    (hk : mc = true ∨ ∀ r ∈ runs, ∀ q, q ∈ s.data.keys ↔ q ∈ r.obj.store.data.keys)
    (ht : Spec.TestWorks E test runs.length s.data.length) :
    ∃ rep q' rs', Rep.compare F other SQ SR hash sched E mc test n maxP (.obj s) runs ms =
      .ok (rep, q', rs') := by
  obtain ⟨a, ha⟩ := evalRuns_succeeds F other SQ SR hash sched mc ms s hc.qrelsOk hc.schedOk hms runs.zipIdx
    (fun p hp => hc.runsOk _ (List.fst_mem_of_mem_zipIdx hp)) (by
      rcases hk with hk | hk
      · left; exact hk
      · right; exact fun p hp => hk _ (List.fst_mem_of_mem_zipIdx hp)) ⟨.obj s, [], [], [], []⟩ (.inl rfl)
  obtain ⟨-, g2, -, g4, -, -⟩ := evalRuns_ok F other SQ SR hash sched mc ms s hc.qrelsOk hc.schedOk
    runs.zipIdx (fun p hp => hc.runsOk _ (List.fst_mem_of_mem_zipIdx hp)) _ a (.inl rfl) ha
    (by simpa [modelNames_eq] using hc.namesOk) (by simp [Dict.keys]) (by simp [Dict.keys])
  simp only [List.nil_append] at g2
  have hall : ∀ x ∈ a.names, ∃ sc, a.scores.get? x = some sc ∧ (∀ m, m ∈ sc.keys ↔ m ∈ ms) ∧
      ∀ m l, sc.get? m = some l → l.length = s.data.length := by
    intro x hx
    rw [g2] at hx
    obtain ⟨p, hp, rfl⟩ := List.mem_map.1 hx
    obtain ⟨sc, h1, h2, -⟩ := g4 p hp
    exact ⟨sc, h2, h1.keys, h1.len⟩
  have hlen : a.names.length = runs.length := by rw [g2]; simp
  obtain ⟨c, hcm⟩ := significance_succeeds E a.names a.scores test n maxP s.data.length ms (by rw [hlen]; exact ht) hall
  obtain ⟨w, hw⟩ := wtlPairs_succeeds a.scores ms (pairs a.names) [] (by
    intro p hp
    unfold pairs at hp
    obtain ⟨x, hx, hp⟩ := List.mem_flatMap.1 hp
    obtain ⟨y, hy, rfl⟩ := List.mem_map.1 hp
    obtain ⟨ca, h1, h2, -⟩ := hall x hx
    obtain ⟨cb, g1, g2, -⟩ := hall y hy
    exact ⟨ca, cb, h1, g1, fun m hm => ⟨(h2 m).2 hm, (g2 m).2 hm⟩⟩)
  unfold Rep.compare
  rw [ha]
  simp only
  rw [hcm]
  simp only
  rw [hw]
  exact ⟨_, _, _, rfl⟩

/-- **C85** (unknown test): any other name of a test is refused, once the runs have been evaluated. -/
theorem C85_unknown_test (F : Fn α) (other : Str → Except Err α) (SQ : ArgSort Int) (SR : ArgSort α)
    (hash : δ → ι) (sched : Nat → Nat → List Nat) (E : Env α) (mc : Bool) (test : Str) (n : Nat) (maxP : α)
    (q : QrelsArg κ δ α) (runs : List (NamedRun κ δ α)) (ms : List Str)
    (ht : test ≠ "fisher".toList ∧ test ≠ "student".toList ∧ test ≠ "tukey".toList) :
    ∃ e, Rep.compare F other SQ SR hash sched E mc test n maxP q runs ms = .error e := by
  unfold Rep.compare
  cases evalRuns F other SQ SR hash sched mc ms runs.zipIdx ⟨q, [], [], [], []⟩ with
  | error e => exact ⟨e, rfl⟩
  | ok a =>
    simp only
    unfold significance
    rw [if_neg (not_or.2 ⟨ht.1, ht.2.1⟩), if_neg ht.2.2]
    exact ⟨_, rfl⟩

/-- the last run with a given name decides what is stored under the name -/
theorem evalRuns_last (F : Fn α) (other : Str → Except Err α) (SQ : ArgSort Int) (SR : ArgSort α)
    (hash : δ → ι) (sched : Nat → Nat → List Nat) (mc : Bool) (ms : List Str) (s : Store κ δ Int)
    (hs : Spec.Usable SQ s) (hsched : ∀ i j, Schedule s.data.length (sched i j))
    (runs : List (NamedRun κ δ α × Nat)) (hr : ∀ p ∈ runs, Spec.Usable SR p.1.obj.store)
    (acc a : Acc κ δ α) (hq : acc.qrels = .obj s ∨ acc.qrels = .obj (s.ensureSorted SQ))
    (h : evalRuns F other SQ SR hash sched mc ms runs acc = .ok a) (name : Str) :
    ((∀ p ∈ runs, modelName p.2 p.1 ≠ name) → a.results.get? name = acc.results.get? name) ∧
    (∀ pre p post, runs = pre ++ p :: post → modelName p.2 p.1 = name →
      (∀ p' ∈ post, modelName p'.2 p'.1 ≠ name) → ∀ m ∈ ms, ∃ l res,
        Spec.PerQuery F other SQ SR hash mc s p.1.obj m l ∧ a.results.get? name = some res ∧
        res.get? m = some (mean l)) := by
  induction runs generalizing acc with
  | nil =>
    cases h
    exact ⟨fun _ => rfl, by simp⟩
  | cons p t ih =>
    obtain ⟨r, i⟩ := p
    unfold evalRuns at h
    simp only at h
    cases he : evaluate F other SQ SR hash (sched i)
        { returnMean := false, makeComparable := mc } acc.qrels (.obj r.obj) ms with
    | mk after res =>
      rw [he] at h
      cases res with
      | error e => cases h
      | ok out =>
        simp only at h
        have hru := hr (r, i) (by simp)
        have he' : evaluate F other SQ SR hash (sched i) (cmpOpts mc) (.obj s) (.obj r.obj) ms =
            (after, .ok out) := by
          rcases hq with hq | hq
          · rw [hq] at he; exact he
          · rw [hq] at he
            exact (evaluate_ensureSorted F other SQ SR hash (sched i) (cmpOpts mc) s r.obj ms hs.ok.1
              hru.ok.1 after out).1 he
        obtain ⟨d, hd⟩ := success F other SQ SR hash (sched i) (cmpOpts mc) s r.obj ms hs hru
          (hsched i) he'
        have hsame := sameKeys_of_success F other SQ SR hash (sched i) (cmpOpts mc) s r.obj ms after out he'
        have hget := asScores_success F other SQ SR hash mc s r.obj ms after out d hd
        cases hmn : means (asScores ms out) ms ((acc.results.get? (modelName i r)).getD []) with
        | error e => rw [hmn] at h; cases h
        | ok x =>
          rw [hmn] at h
          simp only at h
          have hx := means_ok _ _ _ _ hmn
          obtain ⟨g1, g2⟩ := ih (fun p hp => hr p (by simp [hp])) _ (by right; rw [hd.state]) h
          constructor
          · intro hne
            rw [g1 (fun p hp => hne p (by simp [hp]))]
            by_cases hms : ms = []
            · simp only [if_pos hms]
            · simp only [if_neg hms]
              rw [get?_set_ne _ _ (hne (r, i) (by simp))]
          · intro pre p post hsplit hname hpost m hm
            cases pre with
            | nil =>
              simp only [List.nil_append, List.cons.injEq] at hsplit
              obtain ⟨rfl, rfl⟩ := hsplit
              simp only at hname
              obtain ⟨l, hl⟩ := Option.isSome_iff_exists.1 (get?_isSome.2 ((hd.metrics m).2 hm))
              refine ⟨l, x, perQuery_of_success F other SQ SR hash mc s r.obj ms hs.ok after out d hd hsame m l hl, ?_, ?_⟩
              · rw [g1 hpost, ← hname]
                simp only [if_neg (List.ne_nil_of_mem hm)]
                rw [get?_set, if_pos rfl]
              · rw [hx m, if_pos hm, hget, hl]; rfl
            | cons p0 pre =>
              simp only [List.cons_append, List.cons.injEq] at hsplit
              exact g2 pre p post hsplit.2 hname hpost m hm

/-- **C73** (repeated names): if several runs have the same name, the report's scores for the name are
those of the last one. -/
theorem C73_last_wins (F : Fn α) (other : Str → Except Err α) (SQ : ArgSort Int) (SR : ArgSort α)
    (hash : δ → ι) (sched : Nat → Nat → List Nat) (E : Env α) (mc : Bool) (test : Str) (n : Nat) (maxP : α)
    (s : Store κ δ Int) (runs : List (NamedRun κ δ α)) (ms : List Str)
    (hs : Spec.Usable SQ s) (hr : ∀ r ∈ runs, Spec.Usable SR r.obj.store)
    (hsched : ∀ i j, Schedule s.data.length (sched i j))
    (rep : Report α) (q' : QrelsArg κ δ α) (rs' : List (RunArg κ δ α))
    (h : Rep.compare F other SQ SR hash sched E mc test n maxP (.obj s) runs ms = .ok (rep, q', rs'))
    (i : Nat) (r : NamedRun κ δ α) (hir : runs[i]? = some r)
    (hlast : ∀ (j : Nat) r', i < j → runs[j]? = some r' → modelName j r' ≠ modelName i r)
    (m : Str) (hm : m ∈ ms) :
    ∃ l, Spec.PerQuery F other SQ SR hash mc s r.obj m l ∧ rep.score (modelName i r) m = .ok (mean l) := by
  unfold Rep.compare at h
  cases he : evalRuns F other SQ SR hash sched mc ms runs.zipIdx ⟨.obj s, [], [], [], []⟩ with
  | error e => rw [he] at h; cases h
  | ok a =>
    rw [he] at h
    simp only at h
    have hres : rep.results = a.results := by
      cases hs : significance E a.names a.scores test n maxP with
      | error e => rw [hs] at h; cases h
      | ok comps =>
        rw [hs] at h
        simp only at h
        cases hw : wtlPairs a.scores ms (pairs a.names) [] with
        | error e => rw [hw] at h; cases h
        | ok w =>
          rw [hw] at h
          simp only [Except.ok.injEq, Prod.mk.injEq] at h
          rw [← h.1]
    have hlt : i < runs.length := by
      by_contra hc; rw [List.getElem?_eq_none (by omega)] at hir; cases hir
    have hsplit : runs.zipIdx = (runs.zipIdx.take i) ++ (r, i) :: (runs.zipIdx.drop (i + 1)) := by
      have hlt' : i < runs.zipIdx.length := by simpa using hlt
      have e : runs.zipIdx[i] = (r, i) := by
        have := List.getElem?_eq_getElem hlt
        rw [hir, Option.some.injEq] at this
        simp [← this]
      rw [← e, List.getElem_cons_drop, List.take_append_drop]
    obtain ⟨-, g⟩ := evalRuns_last F other SQ SR hash sched mc ms s hs hsched runs.zipIdx
      (fun p hp => hr _ (List.fst_mem_of_mem_zipIdx hp)) _ a (.inl rfl) he (modelName i r)
    obtain ⟨l, res, h1, h2, h3⟩ := g _ _ _ hsplit rfl (by
      intro p' hp'
      obtain ⟨j, hj⟩ := List.mem_iff_getElem?.1 hp'
      rw [List.getElem?_drop, List.getElem?_zipIdx] at hj
      cases hg : runs[i + 1 + j]? with
      | none => rw [hg] at hj; cases hj
      | some r' =>
        rw [hg] at hj
        simp only [Option.map_some, Option.some.injEq] at hj
        rw [← hj]
        simp only [Nat.zero_add]
        exact hlast _ r' (by omega) hg) m hm
    refine ⟨l, h1, ?_⟩
    unfold Report.score
    rw [hres, h2, Option.bind_some, h3]

/-! ## concrete reports -/

set_option synthInstance.maxSize 1000
set_option synthInstance.maxHeartbeats 200000

/-- an environment for running the tests: t-test p-value 0 unless the samples are equal -/
def exStatEnv : Env ℚ where
  ttest := fun a b => if a = b then .nan else .val 0
  tukey := fun sc => if sc.length < 2 then .error .valueError else .ok (fun _ _ => .val (1/2))
  coin := fun _ _ _ i j => (i + j) % 2 == 1
  sched := fun _ _ _ => [1, 0]

/-- a perfect run -/
def exPerfect : RunObj Nat Nat ℚ := ⟨⟨[(1, [(11, 9), (10, 8)]), (2, [(20, 1)])], true⟩, [], [], []⟩

theorem exPerfect_usable : Spec.Usable (ArgSort.stable ℚ) exPerfect.store :=
  ⟨exPerfect.store, [], ⟨[(2, [(20, 1)]), (1, [(10, 8), (11, 9)])], by unfold NodupKeys; decide +kernel,
    by unfold NodupKeys; decide +kernel, .inr (by decide +kernel)⟩, rfl, by simp [Store.exec]⟩

def exCompare (test : String) (runs : List (NamedRun Nat Nat ℚ)) : Except Err (Report ℚ) :=
  (Rep.compare (ι := Nat) ratFn (fun _ => .error .valueError) (ArgSort.stable Int) (ArgSort.stable ℚ) id
    (fun _ _ => [1, 0]) exStatEnv true test.toList 2 (1/100) (.obj exQrelsObj) runs
    ["precision@2".toList, "recall@2".toList]).map Prod.fst

def exBm25 : NamedRun Nat Nat ℚ := ⟨some "bm25".toList, exRunObj⟩
def exAnon : NamedRun Nat Nat ℚ := ⟨none, exPerfect⟩

/-- Non-vacuity of C70, C73, C85, C86. -/
theorem exComparable : Spec.Comparable (ArgSort.stable Int) (ArgSort.stable ℚ) (fun _ _ => [1, 0]) exQrelsObj
    [exBm25, exAnon] := by
  refine ⟨exQrelsObj_usable, ?_, ?_, by decide +kernel⟩
  · intro r hr
    simp only [List.mem_cons, List.not_mem_nil, or_false] at hr
    rcases hr with rfl | rfl
    · exact exRunObj_usable
    · exact exPerfect_usable
  · intro i j
    show List.Perm _ _
    decide

example : Spec.TestWorks exStatEnv "tukey".toList 2 2 :=
  .inr (.inr ⟨rfl, by decide, fun sc h _ => ⟨fun _ _ => .val (1/2), by
    show (if sc.length < 2 then _ else _) = _
    rw [if_neg (by omega)]⟩⟩)

def exPrec : Str := "precision@2".toList

/-- the example report of each test: names, scores, counts and comparisons -/
theorem exReport_values (test : String) (htest : test ∈ ["fisher", "student"]) :
    ((exCompare test [exBm25, exAnon]).map fun r =>
      (r.modelNames, r.score "bm25".toList exPrec, r.score "run_2".toList exPrec,
        wtlAt r.winTieLoss ("bm25".toList, "run_2".toList) exPrec,
        wtlAt r.winTieLoss ("run_2".toList, "bm25".toList) exPrec,
        r.comparison "run_2".toList "bm25".toList exPrec)) =
    .ok (["bm25".toList, "run_2".toList], .ok (.val (1/4)), .ok (.val (3/4)), some ⟨0, 0, 2⟩, some ⟨2, 0, 0⟩,
      .ok ⟨.val 0, true⟩) := by
  simp only [List.mem_cons, List.not_mem_nil, or_false] at htest
  rcases htest with rfl | rfl <;> decide +kernel

example : ((exCompare "tukey" [exBm25, exAnon]).map fun r =>
      (r.modelNames, r.comparison "run_2".toList "bm25".toList exPrec)) =
    .ok (["bm25".toList, "run_2".toList], .ok ⟨.val (1/2), false⟩) := by decide +kernel

/-- **C73 refuted** for repeated names: both runs are listed as "bm25", there is one row of scores, the
second run's, although the first run's precision is 1/4; the two models are not compared at all. -/
theorem C73_same_name :
    ((exCompare "student" [exBm25, ⟨some "bm25".toList, exPerfect⟩]).map fun r =>
      (r.modelNames, r.results, r.winTieLoss.keys.length, r.comparisons.keys.length)) =
    .ok (["bm25".toList, "bm25".toList],
      [("bm25".toList, [("precision@2".toList, .val (3/4)), ("recall@2".toList, .val 1)])], 0, 0) ∧
    ((exCompare "student" [exBm25]).map fun r => r.results) =
      .ok [("bm25".toList, [("precision@2".toList, .val (1/4)), ("recall@2".toList, .val (1/4))])] := by
  decide +kernel

/-- **C73 refuted** for an unnamed run beside one called like its number: the first run is unnamed and
becomes "run_1", the name of the second. -/
theorem C73_generated_name :
    ((exCompare "student" [⟨none, exRunObj⟩, ⟨some "run_1".toList, exPerfect⟩]).map fun r =>
      (r.modelNames, r.results)) =
    .ok (["run_1".toList, "run_1".toList],
      [("run_1".toList, [("precision@2".toList, .val (3/4)), ("recall@2".toList, .val 1)])]) := by
  decide +kernel

/-- Non-vacuity of `C85_unknown_test`. -/
example : (exCompare "Tukey" [exBm25, exAnon]).map (fun _ => ()) = .error .notImplemented := by decide +kernel

end Ranx
