import Verif.Props.Report

/-!
# Properties C72, C74, C87: table layout, boldface, export
-/

set_option linter.unusedSectionVars false

namespace Ranx
open Dict Store Eval Metrics Py Stat Rep
variable {κ δ ι α : Type*}

theorem keys_set_of_mem {κ ν : Type*} [DecidableEq κ] (d : Dict κ ν) (k : κ) (v : ν) (h : k ∈ d.keys) :
    (d.set k v).keys = d.keys := by
  induction d with
  | nil => simp [Dict.keys] at h
  | cons p t ih =>
    obtain ⟨k', v'⟩ := p
    unfold Dict.set
    by_cases hk : k' = k
    · simp [hk, Dict.keys]
    · simp only [hk, if_false]
      have : k ∈ Dict.keys t := by
        simp only [Dict.keys, List.map_cons, List.mem_cons] at h
        rcases h with h | h
        · exact absurd h.symm hk
        · exact h
      have e := ih this
      simp only [Dict.keys, List.map_cons] at e ⊢
      rw [e]

section
variable [Field α] [LinearOrder α] [IsStrictOrderedRing α]

theorem means_keys (d : Dict Str (List (Num α))) (ms done : List Str) (acc x : Dict Str (Num α))
    (h : means d ms acc = .ok x) (hnd : (done ++ ms).Nodup) :
    (acc.keys = done → x.keys = done ++ ms) ∧ (acc.keys = done ++ ms → x.keys = done ++ ms) := by
  induction ms generalizing acc done with
  | nil => cases h; exact ⟨fun h => by simp [h], fun h => h⟩
  | cons m t ih =>
    unfold means at h
    cases hd : d.get? m with
    | none => rw [hd] at h; cases h
    | some l =>
      rw [hd] at h
      obtain ⟨g1, g2⟩ := ih (done ++ [m]) _ h (by simpa using hnd)
      constructor
      · intro hk
        have hm : m ∉ done := by
          intro hc
          exact (List.nodup_append.1 hnd).2.2 _ hc m (by simp) rfl
        rw [g1 (by
          rw [set_of_notMem _ (by show m ∉ acc.keys; rw [hk]; exact hm)]
          simp only [Dict.keys, List.map_append] at hk ⊢
          rw [hk]; rfl)]
        simp
      · intro hk
        rw [g2 (by
          rw [keys_set_of_mem _ _ _ (by rw [hk]; simp), hk]; simp)]
        simp
end

section
variable [LinearOrder κ] [DecidableEq δ] [LinearOrder ι] [Field α] [LinearOrder α]
  [IsStrictOrderedRing α]

theorem evalRuns_resultKeys (F : Fn α) (other : Str → Except Err α) (SQ : ArgSort Int) (SR : ArgSort α)
    (hash : δ → ι) (sched : Nat → Nat → List Nat) (mc : Bool) (ms : List Str) (hnd : ms.Nodup)
    (runs : List (NamedRun κ δ α × Nat)) (acc a : Acc κ δ α)
    (h : evalRuns F other SQ SR hash sched mc ms runs acc = .ok a)
    (hacc : ∀ n res, acc.results.get? n = some res → Dict.keys res = ms) :
    ∀ n res, a.results.get? n = some res → Dict.keys res = ms := by
  induction runs generalizing acc with
  | nil => cases h; exact hacc
  | cons p t ih =>
    obtain ⟨r, i⟩ := p
    unfold evalRuns at h
    simp only at h
    cases he : evaluate F other SQ SR hash (sched i)
        { returnMean := false, makeComparable := mc } acc.qrels (.obj r.obj) ms with
    | mk after res =>
      rw [he] at h
      cases res with
      | error e => cases h
      | ok out =>
        simp only at h
        cases hmn : means (asScores ms out) ms ((acc.results.get? (modelName i r)).getD []) with
        | error e => rw [hmn] at h; cases h
        | ok x =>
          rw [hmn] at h
          simp only at h
          refine ih _ h ?_
          by_cases hms : ms = []
          · simp only [if_pos hms]; exact hacc
          · simp only [if_neg hms]
            intro n res hres
            rw [get?_set] at hres
            by_cases hn : modelName i r = n
            · rw [if_pos hn, Option.some.injEq] at hres
              subst hres
              obtain ⟨g1, g2⟩ := means_keys _ ms [] _ _ hmn (by simpa using hnd)
              cases hg : acc.results.get? (modelName i r) with
              | none =>
                rw [hg] at g1
                simpa using g1 (by simp [Dict.keys])
              | some y =>
                rw [hg] at g2
                simpa using g2 (by simpa using hacc _ _ hg)
            · rw [if_neg hn] at hres
              exact hacc n res hres

theorem getElem?_of_keys {ν : Type*} (d : Dict Str ν) (ks : List Str) (h : d.keys = ks) (hnd : ks.Nodup)
    (i : Nat) (k : Str) (hk : ks[i]? = some k) (v : ν) (hv : d.get? k = some v) : d[i]? = some (k, v) := by
  have hw : NodupKeys d := by show (Dict.keys d).Nodup; rw [h]; exact hnd
  have hlt : i < ks.length := (List.getElem?_eq_some_iff.1 hk).1
  have hlt' : i < d.length := by rw [← h, length_keys] at hlt; exact hlt
  have e : d[i]? = some d[i] := List.getElem?_eq_getElem hlt'
  have hfst : d[i].1 = k := by
    subst h
    unfold Dict.keys at hk
    rw [List.getElem?_map, e, Option.map_some, Option.some.injEq] at hk
    exact hk
  rw [e]
  congr 1
  have hmem : d[i] ∈ d := List.getElem_mem hlt'
  have : d.get? d[i].1 = some d[i].2 := (get?_eq_some_iff hw).2 hmem
  rw [hfst, hv, Option.some.injEq] at this
  exact Prod.ext hfst this.symm

/-- **C87**: in the table of a comparison of distinctly named runs by distinct metrics there is one row
per run, in the order given and labelled with consecutive letters, and one cell per metric, in the order
given: the formatted mean of the scores of `evaluate` followed by the superscript of C71. -/
theorem C87_table_partial (F : Fn α) (other : Str → Except Err α) (SQ : ArgSort Int) (SR : ArgSort α)
    (hash : δ → ι) (sched : Nat → Nat → List Nat) (E : Env α) (mc : Bool) (test : Str) (n : Nat) (maxP : α)
    (s : Store κ δ Int) (runs : List (NamedRun κ δ α)) (ms : List Str)
    (hc : Spec.Comparable SQ SR sched s runs) (hms : ms ≠ []) (hnd : ms.Nodup)
    (rep : Report α) (q' : QrelsArg κ δ α) (rs' : List (RunArg κ δ α))
    (h : Rep.compare F other SQ SR hash sched E mc test n maxP (.obj s) runs ms = .ok (rep, q', rs'))
    (fm : Fmt α) (rows : List (Char × Str × List Str)) (ht : rep.table fm = .ok rows) :
    rows.length = runs.length ∧ ∀ (i : Nat) r, runs[i]? = some r →
      ∃ c cells, chars[i]? = some c ∧ rows[i]? = some (c, modelName i r, cells) ∧
        cells.length = ms.length ∧ ∀ (k : Nat) m, ms[k]? = some m →
          ∃ l t sup, Spec.PerQuery F other SQ SR hash mc s r.obj m l ∧ fm.format (mean l) = .ok t ∧
            rep.superscriptTable (modelName i r) m = .ok sup ∧ cells[k]? = some (t ++ sup) := by
  obtain ⟨hn1, hn2, hn3⟩ := C73_own_results_partial F other SQ SR hash sched E mc test n maxP s runs ms hc rep q' rs' h
  have hkeys : ∀ n res, rep.results.get? n = some res → Dict.keys res = ms := by
    unfold Rep.compare at h
    cases hr : evalRuns F other SQ SR hash sched mc ms runs.zipIdx ⟨.obj s, [], [], [], []⟩ with
    | error e => rw [hr] at h; cases h
    | ok a =>
      rw [hr] at h
      simp only at h
      have hres : rep.results = a.results := by
        cases hs : significance E a.names a.scores test n maxP with
        | error e => rw [hs] at h; cases h
        | ok comps =>
          rw [hs] at h
          simp only at h
          cases hw : wtlPairs a.scores ms (pairs a.names) [] with
          | error e => rw [hw] at h; cases h
          | ok w =>
            rw [hw] at h
            simp only [Except.ok.injEq, Prod.mk.injEq] at h
            rw [← h.1]
      rw [hres]
      exact evalRuns_resultKeys F other SQ SR hash sched mc ms hnd _ _ a hr (by simp [Dict.get?])
  have hk := hn2 hms
  obtain ⟨g1, g2⟩ := tableRows_spec rep fm rep.results 0 rows ht
  have hlen : rep.results.length = runs.length := by
    rw [← length_keys, hk]; simp [modelNames_eq]
  refine ⟨by rw [g1, hlen], ?_⟩
  intro i r hir
  obtain ⟨m0, hm0⟩ := List.exists_mem_of_ne_nil ms hms
  have hsc := hn3 i r hir
  have hres : ∃ res, rep.results.get? (modelName i r) = some res := by
    obtain ⟨l, -, hl⟩ := hsc m0 hm0
    unfold Report.score at hl
    cases hg : rep.results.get? (modelName i r) with
    | none => rw [hg] at hl; cases hl
    | some res => exact ⟨res, rfl⟩
  obtain ⟨res, hres⟩ := hres
  have hni : (Spec.modelNames runs)[i]? = some (modelName i r) := by
    simp [modelNames_eq, List.getElem?_zipIdx, hir]
  obtain ⟨c, cells, e1, e2, e3⟩ := g2 i _ _ (getElem?_of_keys rep.results _ hk hc.namesOk i _ hni res hres)
  obtain ⟨f1, f2⟩ := tableCells_spec rep fm _ _ _ e2
  have hrk := hkeys _ _ hres
  refine ⟨c, cells, by simpa using e1, e3, by rw [f1, ← length_keys, hrk], ?_⟩
  intro k m hkm
  obtain ⟨l, hl1, hl2⟩ := hsc m (List.mem_of_getElem? hkm)
  have hget : Dict.get? res m = some (mean l) := by
    unfold Report.score at hl2
    rw [hres, Option.bind_some] at hl2
    cases hg : Dict.get? res m with
    | none => rw [hg] at hl2; cases hl2
    | some x => rw [hg] at hl2; cases hl2; rfl
  obtain ⟨t, sup, q1, q2, q3⟩ := f2 k m (mean l) (getElem?_of_keys res ms hrk hnd k m hkm _ hget)
  exact ⟨l, t, sup, hl1, q1, q2, q3⟩

end

/-! ## boldface -/

section
variable [Field α] [LinearOrder α] [IsStrictOrderedRing α]

theorem bestLoop_spec (r : Report α) (fm : Fmt α) (m : Str) (rd : Str → α) (names : List Str)
    (hrd : ∀ x ∈ names, ∃ v, r.score x m = .ok v ∧ fm.round v = .val (rd x)) (b : Option Str) (v : α) :
    ∃ o, r.bestLoop fm m names (b, .val v) = .ok o ∧
      ((∀ x ∈ names, rd x ≤ v) → o = b) ∧
      ((∃ x ∈ names, v < rd x) → ∃ (i : Nat) (x : Str), names[i]? = some x ∧ o = some x ∧ v < rd x ∧
        (∀ (j : Nat) y, names[j]? = some y → rd y ≤ rd x) ∧
        ∀ (j : Nat) y, j < i → names[j]? = some y → rd y < rd x) := by
  induction names generalizing b v with
  | nil => exact ⟨b, rfl, fun _ => rfl, by simp⟩
  | cons x t ih =>
    obtain ⟨w, h1, h2⟩ := hrd x (by simp)
    have hstep : r.bestLoop fm m (x :: t) (b, .val v) =
        r.bestLoop fm m t (if v < rd x then (some x, .val (rd x)) else (b, .val v)) := by
      conv_lhs => unfold Report.bestLoop
      rw [h1]
      simp only [h2, ltNum]
      by_cases hv : v < rd x <;> simp [hv]
    rw [hstep]
    by_cases hv : v < rd x
    · rw [if_pos hv]
      obtain ⟨o, e1, e2, e3⟩ := ih (fun y hy => hrd y (by simp [hy])) (some x) (rd x)
      refine ⟨o, e1, fun hall => absurd (hall x (by simp)) (not_le.2 hv), fun _ => ?_⟩
      by_cases hall : ∀ y ∈ t, rd y ≤ rd x
      · refine ⟨0, x, rfl, e2 hall, hv, ?_, by omega⟩
        intro j y hy
        rcases List.mem_cons.1 (List.mem_of_getElem? hy) with rfl | hy
        · exact le_refl _
        · exact hall y hy
      · push Not at hall
        obtain ⟨y, hy, hlt⟩ := hall
        obtain ⟨i, z, f1, f2, f3, f4, f5⟩ := e3 ⟨y, hy, hlt⟩
        refine ⟨i + 1, z, by simpa using f1, f2, hv.trans f3, ?_, ?_⟩
        · intro j y hy
          cases j with
          | zero => simp only [List.getElem?_cons_zero, Option.some.injEq] at hy; subst hy; exact f3.le
          | succ j => exact f4 j y (by simpa using hy)
        · intro j y hj hy
          cases j with
          | zero => simp only [List.getElem?_cons_zero, Option.some.injEq] at hy; subst hy; exact f3
          | succ j => exact f5 j y (by omega) (by simpa using hy)
    · rw [if_neg hv]
      obtain ⟨o, e1, e2, e3⟩ := ih (fun y hy => hrd y (by simp [hy])) b v
      refine ⟨o, e1, fun hall => e2 (fun y hy => hall y (by simp [hy])), ?_⟩
      rintro ⟨y, hy, hlt⟩
      have hyt : y ∈ t := by
        rcases List.mem_cons.1 hy with rfl | hy
        · exact absurd hlt hv
        · exact hy
      obtain ⟨i, z, f1, f2, f3, f4, f5⟩ := e3 ⟨y, hyt, hlt⟩
      refine ⟨i + 1, z, by simpa using f1, f2, f3, ?_, ?_⟩
      · intro j y hy
        cases j with
        | zero =>
          simp only [List.getElem?_cons_zero, Option.some.injEq] at hy
          subst hy; exact (not_lt.1 hv).trans f3.le
        | succ j => exact f4 j y (by simpa using hy)
      · intro j y hj hy
        cases j with
        | zero =>
          simp only [List.getElem?_cons_zero, Option.some.injEq] at hy
          subst hy; exact (not_lt.1 hv).trans_lt f3
        | succ j => exact f5 j y (by omega) (by simpa using hy)

/-- `rd x` is the rounded score of model `x` for the metric -/
def Spec.Rounded (r : Report α) (fm : Fmt α) (m : Str) (rd : Str → α) : Prop :=
  ∀ x ∈ r.modelNames, ∃ v, r.score x m = .ok v ∧ fm.round v = .val (rd x)

/-- **C72**: the model highlighted for a metric is the first one whose rounded score is maximal,
if that score is positive. -/
theorem C72_first_best (r : Report α) (fm : Fmt α) (m : Str) (rd : Str → α) (hrd : Spec.Rounded r fm m rd)
    (hpos : ∃ x ∈ r.modelNames, 0 < rd x) :
    ∃ (i : Nat) (x : Str), r.modelNames[i]? = some x ∧ r.best fm m = .ok (some x) ∧
      (∀ (j : Nat) y, r.modelNames[j]? = some y → rd y ≤ rd x) ∧
      ∀ (j : Nat) y, j < i → r.modelNames[j]? = some y → rd y < rd x := by
  obtain ⟨o, e1, -, e3⟩ := bestLoop_spec r fm m rd r.modelNames hrd none 0
  obtain ⟨i, x, f1, f2, -, f4, f5⟩ := e3 hpos
  exact ⟨i, x, f1, by unfold Report.best; rw [e1, f2], f4, f5⟩

/-- **C72** (none): if no rounded score is positive, nothing is highlighted. -/
theorem C72_none (r : Report α) (fm : Fmt α) (m : Str) (rd : Str → α) (hrd : Spec.Rounded r fm m rd)
    (hpos : ∀ x ∈ r.modelNames, rd x ≤ 0) : r.best fm m = .ok none := by
  obtain ⟨o, e1, e2, -⟩ := bestLoop_spec r fm m rd r.modelNames hrd none 0
  unfold Report.best; rw [e1, e2 hpos]

theorem latexCell_spec (r : Report α) (fm : Fmt α) (model m : Str) (c : Cell) (h : r.latexCell fm model m = .ok c) :
    ∃ x b, r.score model m = .ok x ∧ fm.format x = .ok c.score ∧ r.best fm m = .ok b ∧
      c.bold = decide (b = some model) ∧ r.superscriptLatex model m = .ok c.superscript ∧
      r.phantoms model m = .ok c.phantoms := by
  unfold Report.latexCell at h
  cases h1 : r.score model m with
  | error e => rw [h1] at h; cases h
  | ok x =>
    rw [h1] at h
    simp only at h
    cases h2 : fm.format x with
    | error e => rw [h2] at h; cases h
    | ok s =>
      rw [h2] at h
      simp only at h
      cases h3 : r.best fm m with
      | error e => rw [h3] at h; cases h
      | ok b =>
        rw [h3] at h
        simp only at h
        cases h4 : r.superscriptLatex model m with
        | error e => rw [h4] at h; cases h
        | ok sup =>
          rw [h4] at h
          simp only at h
          cases h5 : r.phantoms model m with
          | error e => rw [h5] at h; cases h
          | ok ph =>
            rw [h5] at h
            simp only [Except.ok.injEq] at h
            subst h
            exact ⟨x, b, rfl, h2, rfl, rfl, rfl, rfl⟩

theorem latexRows_spec (r : Report α) (fm : Fmt α) (names : List Str) (k : Nat)
    (rows : List (Char × Str × List Cell)) (h : r.latexRows fm (names.zipIdx k) = .ok rows) :
    rows.length = names.length ∧ ∀ (i : Nat) n, names[i]? = some n →
      ∃ c cells, chars[k + i]? = some c ∧ rows[i]? = some (c, n, cells) ∧
        r.metrics.map (r.latexCell fm n) = cells.map .ok := by
  induction names generalizing k rows with
  | nil => cases h; simp
  | cons x t ih =>
    rw [List.zipIdx_cons] at h
    unfold Report.latexRows at h
    cases hc : chars[k]? with
    | none => rw [hc] at h; cases h
    | some c =>
      rw [hc] at h
      simp only at h
      cases hcol : collect (r.metrics.map (r.latexCell fm x)) with
      | error e => rw [hcol] at h; cases h
      | ok cells =>
        rw [hcol] at h
        cases cells with
        | nil => cases h
        | cons y ys =>
          simp only at h
          cases hr : r.latexRows fm (t.zipIdx (k + 1)) with
          | error e => rw [hr] at h; cases h
          | ok rs =>
            rw [hr] at h
            simp only [Except.ok.injEq] at h
            subst h
            obtain ⟨g1, g2⟩ := ih (k + 1) rs hr
            refine ⟨by simp [g1], ?_⟩
            intro i n hi
            cases i with
            | zero =>
              simp only [List.getElem?_cons_zero, Option.some.injEq] at hi
              subst hi
              exact ⟨c, y :: ys, hc, rfl, (collect_ok_iff _ _).1 hcol⟩
            | succ i =>
              obtain ⟨c', cells', e1, e2, e3⟩ := g2 i n (by simpa using hi)
              exact ⟨c', cells', by rw [show k + (i + 1) = k + 1 + i by omega]; exact e1, by simpa using e2, e3⟩

/-- **C72** (LaTeX table): the table has one row per model, in order and with consecutive letters, and
one cell per metric, in order (also for repeated metrics); the cell shows the formatted score of the model
for the metric, the superscript and phantoms of C71, and is bold exactly if the model is the one
`C72_first_best` describes. -/
theorem C72_latex (r : Report α) (fm : Fmt α) (rows : List (Char × Str × List Cell)) (h : r.latex fm = .ok rows) :
    rows.length = r.modelNames.length ∧ ∀ (i : Nat) n, r.modelNames[i]? = some n →
      ∃ c cells, chars[i]? = some c ∧ rows[i]? = some (c, n, cells) ∧ cells.length = r.metrics.length ∧
        ∀ (k : Nat) m, r.metrics[k]? = some m → ∃ cell x, cells[k]? = some cell ∧
          r.score n m = .ok x ∧ fm.format x = .ok cell.score ∧
          (cell.bold = true ↔ r.best fm m = .ok (some n)) ∧
          r.superscriptLatex n m = .ok cell.superscript ∧ r.phantoms n m = .ok cell.phantoms := by
  obtain ⟨g1, g2⟩ := latexRows_spec r fm r.modelNames 0 rows h
  refine ⟨g1, ?_⟩
  intro i n hi
  obtain ⟨c, cells, e1, e2, e3⟩ := g2 i n hi
  refine ⟨c, cells, by simpa using e1, e2, ?_, ?_⟩
  · have := congrArg List.length e3
    simpa using this.symm
  · intro k m hk
    have e := congrArg (fun l => l[k]?) e3
    simp only [List.getElem?_map, hk, Option.map_some] at e
    cases hg : cells[k]? with
    | none => rw [hg] at e; cases e
    | some cell =>
      rw [hg] at e
      simp only [Option.map_some, Option.some.injEq] at e
      obtain ⟨x, b, f1, f2, f3, f4, f5, f6⟩ := latexCell_spec r fm n m cell e
      refine ⟨cell, x, rfl, f1, f2, ?_, f5, f6⟩
      rw [f4, f3, decide_eq_true_iff]
      constructor
      · rintro rfl; rfl
      · intro hb; cases hb; rfl

/-! ## export -/

theorem pairEntry_spec (r : Report α) (m1 m2 : Str) (ms : List Str) (c : Dict Str (Num α)) (w : Dict Str WTL)
    (c' : Dict Str (Num α)) (w' : Dict Str WTL) (h : r.pairEntry m1 m2 ms c w = .ok (c', w')) :
    ∀ m, (m ∈ ms → ∃ res, r.comparison m1 m2 m = .ok res ∧ c'.get? m = some res.p ∧
        ∃ x, wtlAt r.winTieLoss (m1, m2) m = some x ∧ w'.get? m = some x) ∧
      (m ∉ ms → c'.get? m = c.get? m ∧ w'.get? m = w.get? m) := by
  induction ms generalizing c w with
  | nil => cases h; intro m; exact ⟨by simp, fun _ => ⟨rfl, rfl⟩⟩
  | cons m0 t ih =>
    unfold Report.pairEntry at h
    cases hc : r.comparison m1 m2 m0 with
    | error e => rw [hc] at h; cases h
    | ok res =>
      rw [hc] at h
      simp only at h
      cases hw : (r.winTieLoss.get? (m1, m2)).bind (fun d => d.get? m0) with
      | none => rw [hw] at h; cases h
      | some x =>
        rw [hw] at h
        simp only at h
        intro m
        obtain ⟨g1, g2⟩ := ih _ _ h m
        constructor
        · intro hm
          by_cases hmt : m ∈ t
          · exact g1 hmt
          · have : m = m0 := by simpa [hmt] using hm
            subst this
            obtain ⟨e1, e2⟩ := g2 hmt
            refine ⟨res, hc, by rw [e1, get?_set, if_pos rfl], x, ?_, by rw [e2, get?_set, if_pos rfl]⟩
            unfold wtlAt
            exact hw
        · intro hm
          simp only [List.mem_cons, not_or] at hm
          obtain ⟨e1, e2⟩ := g2 hm.2
          rw [e1, e2, get?_set_ne _ _ (fun hc => hm.1 hc.symm), get?_set_ne _ _ (fun hc => hm.1 hc.symm)]
          exact ⟨rfl, rfl⟩

theorem modelEntry_spec (r : Report α) (m1 : Str) (names : List Str) (c : Dict Str (Dict Str (Num α)))
    (w : Dict Str (Dict Str WTL)) (c' : Dict Str (Dict Str (Num α))) (w' : Dict Str (Dict Str WTL))
    (h : r.modelEntry m1 names c w = .ok (c', w')) (m2 : Str) :
    (m2 ∈ names → m1 ≠ m2 → ∃ pc pw, c'.get? m2 = some pc ∧ w'.get? m2 = some pw ∧
        r.pairEntry m1 m2 r.metrics [] [] = .ok (pc, pw)) ∧
      (m2 ∉ names ∨ m1 = m2 → c'.get? m2 = c.get? m2 ∧ w'.get? m2 = w.get? m2) := by
  induction names generalizing c w with
  | nil => cases h; exact ⟨by simp, fun _ => ⟨rfl, rfl⟩⟩
  | cons x t ih =>
    unfold Report.modelEntry at h
    by_cases hne : m1 ≠ x
    · rw [if_pos hne] at h
      cases hp : r.pairEntry m1 x r.metrics [] [] with
      | error e => rw [hp] at h; cases h
      | ok p =>
        obtain ⟨pc, pw⟩ := p
        rw [hp] at h
        simp only at h
        obtain ⟨g1, g2⟩ := ih _ _ h
        constructor
        · intro hm hn
          by_cases hmt : m2 ∈ t
          · exact g1 hmt hn
          · have : m2 = x := by simpa [hmt] using hm
            subst this
            obtain ⟨e1, e2⟩ := g2 (.inl hmt)
            exact ⟨pc, pw, by rw [e1, get?_set, if_pos rfl], by rw [e2, get?_set, if_pos rfl], hp⟩
        · intro hor
          have hx : x ≠ m2 := by
            rintro rfl
            rcases hor with hor | hor
            · simp at hor
            · exact hne hor
          obtain ⟨e1, e2⟩ := g2 (by
            rcases hor with hor | hor
            · left; exact fun hc => hor (by simp [hc])
            · right; exact hor)
          rw [e1, e2, get?_set_ne _ _ hx, get?_set_ne _ _ hx]
          exact ⟨rfl, rfl⟩
    · rw [if_neg hne] at h
      obtain ⟨g1, g2⟩ := ih _ _ h
      have hx : m1 = x := not_not.1 hne
      constructor
      · intro hm hn
        refine g1 ?_ hn
        rcases List.mem_cons.1 hm with rfl | hm
        · exact absurd hx hn
        · exact hm
      · intro hor
        refine g2 ?_
        rcases hor with hor | hor
        · left; exact fun hc => hor (by simp [hc])
        · right; exact hor

theorem dictLoop_spec (r : Report α) (names : List Str) (d d' : Dict Str (Entry α))
    (h : r.dictLoop names d = .ok d') (m : Str) :
    (m ∈ names → ∃ sc c w, r.results.get? m = some sc ∧ r.modelEntry m r.modelNames [] [] = .ok (c, w) ∧
      d'.get? m = some (.model sc c w)) ∧
    (m ∉ names → d'.get? m = d.get? m) := by
  induction names generalizing d with
  | nil => cases h; exact ⟨by simp, fun _ => rfl⟩
  | cons x t ih =>
    unfold Report.dictLoop at h
    cases hs : r.results.get? x with
    | none => rw [hs] at h; cases h
    | some sc =>
      rw [hs] at h
      simp only at h
      cases he : r.modelEntry x r.modelNames [] [] with
      | error e => rw [he] at h; cases h
      | ok p =>
        obtain ⟨c, w⟩ := p
        rw [he] at h
        simp only at h
        obtain ⟨g1, g2⟩ := ih _ h
        constructor
        · intro hm
          by_cases hmt : m ∈ t
          · exact g1 hmt
          · have : m = x := by simpa [hmt] using hm
            subst this
            exact ⟨sc, c, w, hs, he, by rw [g2 hmt, get?_set, if_pos rfl]⟩
        · intro hm
          simp only [List.mem_cons, not_or] at hm
          rw [g2 hm.2, get?_set_ne _ _ (fun hc => hm.1 hc.symm)]

/-- the names `to_dict` uses itself -/
def Spec.headerNames : List Str := ["stat_test".toList, "metrics".toList, "model_names".toList]

/-- **C74** (models): the exported dictionary maps every model to its scores, and under it every other
model and metric to the p-value and the win/tie/loss counts of the report. -/
theorem C74_models (r : Report α) (d : Dict Str (Entry α)) (h : r.toDict = .ok d) (a : Str)
    (ha : a ∈ r.modelNames) :
    ∃ sc c w, d.get? a = some (.model sc c w) ∧ r.results.get? a = some sc ∧
      ∀ b ∈ r.modelNames, a ≠ b → ∃ pc pw, c.get? b = some pc ∧ w.get? b = some pw ∧
        ∀ m ∈ r.metrics, ∃ res x, r.comparison a b m = .ok res ∧ pc.get? m = some res.p ∧
          wtlAt r.winTieLoss (a, b) m = some x ∧ pw.get? m = some x := by
  obtain ⟨g1, -⟩ := dictLoop_spec r r.modelNames _ d h a
  obtain ⟨sc, c, w, h1, h2, h3⟩ := g1 ha
  refine ⟨sc, c, w, h3, h1, ?_⟩
  intro b hb hne
  obtain ⟨f1, -⟩ := modelEntry_spec r a r.modelNames [] [] c w h2 b
  obtain ⟨pc, pw, e1, e2, e3⟩ := f1 hb hne
  refine ⟨pc, pw, e1, e2, ?_⟩
  intro m hm
  obtain ⟨res, q1, q2, x, q3, q4⟩ := (pairEntry_spec r a b r.metrics [] [] pc pw e3 m).1 hm
  exact ⟨res, x, q1, q2, q3, q4⟩

/-- **C74** (header, partial): the name of the test, the metrics and the names of the models are found
under their keys, if no model is called like one of these keys. -/
theorem C74_header_partial (r : Report α) (d : Dict Str (Entry α)) (h : r.toDict = .ok d)
    (hn : ∀ a ∈ r.modelNames, a ∉ Spec.headerNames) :
    d.get? "stat_test".toList = some (.text r.statTest) ∧ d.get? "metrics".toList = some (.texts r.metrics) ∧
    d.get? "model_names".toList = some (.texts r.modelNames) := by
  have key : ∀ x ∈ Spec.headerNames, x ∉ r.modelNames := fun x hx hc => hn x hc hx
  have g : ∀ x ∈ Spec.headerNames, d.get? x = Dict.get? [("stat_test".toList, Entry.text r.statTest),
      ("metrics".toList, .texts r.metrics), ("model_names".toList, .texts r.modelNames)] x :=
    fun x hx => (dictLoop_spec r r.modelNames _ d h x).2 (key x hx)
  have n1 : ¬ ("stat_test".toList = "metrics".toList) := by decide +kernel
  have n2 : ¬ ("stat_test".toList = "model_names".toList) := by decide +kernel
  have n3 : ¬ ("metrics".toList = "model_names".toList) := by decide +kernel
  refine ⟨?_, ?_, ?_⟩
  · rw [g _ (List.mem_cons_self ..)]
    unfold Dict.get?
    rw [if_pos rfl]
  · rw [g _ (List.mem_cons_of_mem _ (List.mem_cons_self ..))]
    unfold Dict.get?
    rw [if_neg n1]
    unfold Dict.get?
    rw [if_pos rfl]
  · rw [g _ (List.mem_cons_of_mem _ (List.mem_cons_of_mem _ (List.mem_cons_self ..)))]
    unfold Dict.get?
    rw [if_neg n2]
    unfold Dict.get?
    rw [if_neg n3]
    unfold Dict.get?
    rw [if_pos rfl]

end
end Ranx
