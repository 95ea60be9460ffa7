import Verif.Props.Report2

/-!
# Properties C71, C72, C74, C87: a report made by `compare` can be shown and exported; examples
-/

set_option linter.unusedSectionVars false

namespace Ranx
open Dict Store Eval Metrics Py Stat Rep
variable {κ δ ι α : Type*}

section
variable [LinearOrder κ] [DecidableEq δ] [LinearOrder ι] [Field α] [LinearOrder α]
  [IsStrictOrderedRing α]

/-- a report made by `compare` has all the entries it needs -/
theorem compare_complete (F : Fn α) (other : Str → Except Err α) (SQ : ArgSort Int) (SR : ArgSort α)
    (hash : δ → ι) (sched : Nat → Nat → List Nat) (E : Env α) (mc : Bool) (test : Str) (n : Nat) (maxP : α)
    (s : Store κ δ Int) (runs : List (NamedRun κ δ α)) (ms : List Str)
    (hc : Spec.Comparable SQ SR sched s runs)
    (rep : Report α) (q' : QrelsArg κ δ α) (rs' : List (RunArg κ δ α))
    (h : Rep.compare F other SQ SR hash sched E mc test n maxP (.obj s) runs ms = .ok (rep, q', rs')) :
    rep.metrics = ms ∧ rep.statTest = test ∧ ∀ m ∈ ms, Spec.Complete rep m ∧ ∀ a ∈ rep.modelNames, ∀ b ∈ rep.modelNames, a ≠ b →
      ∃ w, wtlAt rep.winTieLoss (a, b) m = some w := by
  obtain ⟨a, h1, h2, h3, h4, h5, -, -, hs, hw, h9, -⟩ := compare_ok F other SQ SR hash sched E mc test n maxP s runs ms
    hc rep q' rs' h
  have hname : ∀ x ∈ rep.modelNames, ∃ (i : Nat) (r : NamedRun κ δ α), runs[i]? = some r ∧ x = modelName i r := by
    intro x hx
    rw [h2, h1, modelNames_eq] at hx
    obtain ⟨p, hp, rfl⟩ := List.mem_map.1 hx
    exact ⟨p.2, p.1, List.mk_mem_zipIdx_iff_getElem?.1 hp, rfl⟩
  refine ⟨h4, h5, ?_⟩
  intro m hm
  have hscore : ∀ x ∈ rep.modelNames, ∃ sc l, a.scores.get? x = some sc ∧ sc.get? m = some l ∧
      rep.score x m = .ok (mean l) ∧ ∀ m, m ∈ sc.keys ↔ m ∈ ms := by
    intro x hx
    obtain ⟨i, r, hir, rfl⟩ := hname x hx
    obtain ⟨sc, hp, hsc, hres⟩ := h9 i r hir
    obtain ⟨l, hl, -, -⟩ := hp.scores hm
    obtain ⟨res, hr1, hr2⟩ := hres (List.ne_nil_of_mem hm)
    refine ⟨sc, l, hsc, hl, ?_, hp.keys⟩
    unfold Report.score
    rw [h3, hr1, Option.bind_some, hr2 m, hl]
    rfl
  refine ⟨⟨?_, ?_⟩, ?_⟩
  · intro x hx
    obtain ⟨sc, l, -, -, e, -⟩ := hscore x hx
    exact ⟨_, e⟩
  · intro x hx y hy hne
    obtain ⟨sx, lx, x1, x2, -, x4⟩ := hscore x hx
    obtain ⟨sy, ly, y1, y2, -, y4⟩ := hscore y hy
    by_cases ht : test = "fisher".toList ∨ test = "student".toList
    · obtain ⟨d, la, lb, res, i, j, g1, -, -, g4, -⟩ := significance_ok E a.names a.scores test n maxP ht
        rep.comparisons hs x y (h2 ▸ hx) (h2 ▸ hy) hne sx sy x1 y1 (fun m => by rw [x4, y4]) m ((x4 m).2 hm)
      refine ⟨res, ?_⟩
      unfold Report.comparison
      rw [g1, Option.bind_some, g4]
    · unfold significance at hs
      rw [if_neg ht] at hs
      by_cases ht2 : test = "tukey".toList
      · rw [if_pos ht2] at hs
        cases hn : a.names with
        | nil => rw [h2, hn] at hx; simp at hx
        | cons first rest =>
          rw [hn] at hs
          simp only at hs
          cases hf : a.scores.get? first with
          | none => rw [hf] at hs; cases hs
          | some d =>
            rw [hf] at hs
            simp only at hs
            rw [← hn] at hs
            have hd : m ∈ d.keys := by
              obtain ⟨sc, l, e1, -, -, e4⟩ := hscore first (by rw [h2, hn]; simp)
              rw [hf] at e1; cases e1
              exact (e4 m).2 hm
            obtain ⟨-, -, g⟩ := tukeyAll_ok E a.names a.scores maxP d.keys _ _ hs x y (h2 ▸ hx) (h2 ▸ hy)
              (tukeyInit_keys a.names x y (h2 ▸ hx) (h2 ▸ hy)) m
            obtain ⟨sc, p, -, -, i, j, -, hcell⟩ := g hd
            refine ⟨⟨p i j, leNum (p i j) (.val maxP)⟩, ?_⟩
            unfold Report.comparison
            unfold cell at hcell
            unfold FrozensetDict.getItem
            rw [hcell]
      · rw [if_neg ht2] at hs; cases hs
  · intro x hx y hy hne
    have hpair : (x, y) ∈ pairs a.names := by
      unfold pairs
      rw [List.mem_flatMap]
      exact ⟨x, h2 ▸ hx, List.mem_map.2 ⟨y, h2 ▸ hy, rfl⟩⟩
    obtain ⟨ca, cb, cs, ts, -, -, -, -, e5⟩ := (wtlPairs_ok a.scores ms (List.ne_nil_of_mem hm) _ _ _ hw x y m hm).1
      hpair hne
    exact ⟨_, e5⟩
end

section
variable [Field α] [LinearOrder α] [IsStrictOrderedRing α]

theorem tableCells_succeeds (r : Report α) (fm : Fmt α) (hfm : ∀ x, ∃ t, fm.format x = .ok t) (run : Str)
    (v : Dict Str (Num α)) (h : ∀ m ∈ v.keys, ∃ s, r.superscriptTable run m = .ok s) :
    ∃ cells, r.tableCells fm run v = .ok cells := by
  induction v with
  | nil => exact ⟨[], rfl⟩
  | cons p t ih =>
    obtain ⟨m, x⟩ := p
    obtain ⟨f, hf⟩ := hfm x
    obtain ⟨s, hs⟩ := h m (by simp [Dict.keys])
    obtain ⟨cs, hcs⟩ := ih (fun m hm => h m (by simp only [Dict.keys, List.map_cons, List.mem_cons]; right; exact hm))
    unfold Report.tableCells
    rw [hf]; simp only; rw [hs]; simp only; rw [hcs]
    exact ⟨_, rfl⟩

theorem tableRows_succeeds (r : Report α) (fm : Fmt α) (res : List (Str × Dict Str (Num α))) (k : Nat)
    (hlen : k + res.length ≤ 26) (h : ∀ p ∈ res, ∃ cells, r.tableCells fm p.1 p.2 = .ok cells) :
    ∃ rows, r.tableRows fm (res.zipIdx k) = .ok rows := by
  induction res generalizing k with
  | nil => exact ⟨[], rfl⟩
  | cons p t ih =>
    obtain ⟨n, v⟩ := p
    simp only [List.length_cons] at hlen
    obtain ⟨cells, hcells⟩ := h (n, v) (by simp)
    obtain ⟨rs, hrs⟩ := ih (k + 1) (by omega) (fun p hp => h p (by simp [hp]))
    have h26 : chars.length = 26 := by decide +kernel
    rw [List.zipIdx_cons]
    unfold Report.tableRows
    rw [List.getElem?_eq_getElem (by omega : k < chars.length)]
    simp only at hcells ⊢
    rw [hcells]; simp only; rw [hrs]
    exact ⟨_, rfl⟩

theorem tableRows_too_many (r : Report α) (fm : Fmt α) (res : List (Str × Dict Str (Num α))) (k : Nat)
    (hk : k ≤ 26) (hlen : 26 < k + res.length) : ∃ e, r.tableRows fm (res.zipIdx k) = .error e := by
  induction res generalizing k with
  | nil => simp at hlen; omega
  | cons p t ih =>
    obtain ⟨n, v⟩ := p
    have h26 : chars.length = 26 := by decide +kernel
    rw [List.zipIdx_cons]
    unfold Report.tableRows
    cases hc : chars[k]? with
    | none => exact ⟨_, rfl⟩
    | some c =>
      have hlt : k < 26 := by
        have := (List.getElem?_eq_some_iff.1 hc).1; omega
      simp only
      cases r.tableCells fm n v with
      | error e => exact ⟨_, rfl⟩
      | ok cells =>
        simp only
        obtain ⟨e, he⟩ := ih (k + 1) (by omega) (by simp at hlen; omega)
        rw [he]
        exact ⟨_, rfl⟩

theorem latexRows_too_many (r : Report α) (fm : Fmt α) (names : List Str) (k : Nat)
    (hk : k ≤ 26) (hlen : 26 < k + names.length) : ∃ e, r.latexRows fm (names.zipIdx k) = .error e := by
  induction names generalizing k with
  | nil => simp at hlen; omega
  | cons x t ih =>
    have h26 : chars.length = 26 := by decide +kernel
    rw [List.zipIdx_cons]
    unfold Report.latexRows
    cases hc : chars[k]? with
    | none => exact ⟨_, rfl⟩
    | some c =>
      have hlt : k < 26 := by
        have := (List.getElem?_eq_some_iff.1 hc).1; omega
      simp only
      cases collect (r.metrics.map (r.latexCell fm x)) with
      | error e => exact ⟨_, rfl⟩
      | ok cells =>
        cases cells with
        | nil => exact ⟨_, rfl⟩
        | cons y ys =>
          simp only
          obtain ⟨e, he⟩ := ih (k + 1) (by omega) (by simp at hlen; omega)
          rw [he]
          exact ⟨_, rfl⟩

/-- **C87** (limit): a report of more than 26 models can be shown neither as table nor as LaTeX: both
fail (there are 26 letters), whatever the scores. -/
theorem C87_too_many (r : Report α) (fm : Fmt α) :
    (26 < r.results.length → ∃ e, r.table fm = .error e) ∧
    (26 < r.modelNames.length → ∃ e, r.latex fm = .error e) :=
  ⟨fun h => tableRows_too_many r fm r.results 0 (by omega) (by omega),
    fun h => latexRows_too_many r fm r.modelNames 0 (by omega) (by omega)⟩

theorem pairEntry_succeeds (r : Report α) (a b : Str) (ms : List Str) (c : Dict Str (Num α)) (w : Dict Str WTL)
    (h : ∀ m ∈ ms, (∃ res, r.comparison a b m = .ok res) ∧ ∃ x, wtlAt r.winTieLoss (a, b) m = some x) :
    ∃ p, r.pairEntry a b ms c w = .ok p := by
  induction ms generalizing c w with
  | nil => exact ⟨_, rfl⟩
  | cons m t ih =>
    obtain ⟨⟨res, hr⟩, x, hx⟩ := h m (by simp)
    unfold wtlAt at hx
    unfold Report.pairEntry
    rw [hr]; simp only; rw [hx]; simp only
    exact ih _ _ (fun m hm => h m (by simp [hm]))

theorem modelEntry_succeeds (r : Report α) (a : Str) (names : List Str) (c : Dict Str (Dict Str (Num α)))
    (w : Dict Str (Dict Str WTL))
    (h : ∀ b ∈ names, a ≠ b → ∃ p, r.pairEntry a b r.metrics [] [] = .ok p) :
    ∃ p, r.modelEntry a names c w = .ok p := by
  induction names generalizing c w with
  | nil => exact ⟨_, rfl⟩
  | cons x t ih =>
    unfold Report.modelEntry
    by_cases hne : a ≠ x
    · rw [if_pos hne]
      obtain ⟨p, hp⟩ := h x (by simp) hne
      rw [hp]
      obtain ⟨pc, pw⟩ := p
      exact ih _ _ (fun b hb => h b (by simp [hb]))
    · rw [if_neg hne]
      exact ih _ _ (fun b hb => h b (by simp [hb]))

theorem dictLoop_succeeds (r : Report α) (names : List Str) (d : Dict Str (Entry α))
    (h : ∀ a ∈ names, (∃ sc, r.results.get? a = some sc) ∧ ∃ p, r.modelEntry a r.modelNames [] [] = .ok p) :
    ∃ d', r.dictLoop names d = .ok d' := by
  induction names generalizing d with
  | nil => exact ⟨_, rfl⟩
  | cons x t ih =>
    obtain ⟨⟨sc, hs⟩, p, hp⟩ := h x (by simp)
    unfold Report.dictLoop
    rw [hs]; simp only; rw [hp]
    obtain ⟨c, w⟩ := p
    exact ih _ (fun a ha => h a (by simp [ha]))
end

section
variable [LinearOrder κ] [DecidableEq δ] [LinearOrder ι] [Field α] [LinearOrder α]
  [IsStrictOrderedRing α]

/-- **C87** (success): the report of a comparison of at most 26 distinctly named runs by at least one
metric can be printed, provided scores can be formatted. -/
theorem C87_table_succeeds (F : Fn α) (other : Str → Except Err α) (SQ : ArgSort Int) (SR : ArgSort α)
    (hash : δ → ι) (sched : Nat → Nat → List Nat) (E : Env α) (mc : Bool) (test : Str) (n : Nat) (maxP : α)
    (s : Store κ δ Int) (runs : List (NamedRun κ δ α)) (ms : List Str)
    (hc : Spec.Comparable SQ SR sched s runs) (hms : ms ≠ []) (hlen : runs.length ≤ 26)
    (rep : Report α) (q' : QrelsArg κ δ α) (rs' : List (RunArg κ δ α))
    (h : Rep.compare F other SQ SR hash sched E mc test n maxP (.obj s) runs ms = .ok (rep, q', rs'))
    (fm : Fmt α) (hfm : ∀ x, ∃ t, fm.format x = .ok t) : ∃ rows, rep.table fm = .ok rows := by
  obtain ⟨-, -, hcomp⟩ := compare_complete F other SQ SR hash sched E mc test n maxP s runs ms hc rep q' rs' h
  obtain ⟨a, h1, h2, h3, -, -, -, -, -, -, h9, h10⟩ := compare_ok F other SQ SR hash sched E mc test n maxP s runs ms
    hc rep q' rs' h
  have hk : rep.results.keys = Spec.modelNames runs := by rw [h3, h10 hms]
  have hnames : rep.modelNames = Spec.modelNames runs := by rw [h2, h1]
  have hw : NodupKeys rep.results := by show (Dict.keys rep.results).Nodup; rw [hk]; exact hc.namesOk
  unfold Report.table
  refine tableRows_succeeds rep fm rep.results 0 ?_ ?_
  · rw [← length_keys, hk]; simpa [modelNames_eq] using hlen
  · rintro ⟨x, v⟩ hp
    refine tableCells_succeeds rep fm hfm x v ?_
    intro m hm
    have hget : rep.results.get? x = some v := (get?_eq_some_iff hw).2 hp
    have hx : x ∈ rep.modelNames := by
      rw [hnames, ← hk]; exact List.mem_map.2 ⟨(x, v), hp, rfl⟩
    have hmm : m ∈ ms := by
      rw [hnames, modelNames_eq] at hx
      obtain ⟨p, hp', rfl⟩ := List.mem_map.1 hx
      obtain ⟨sc, hpart, hsc, hres⟩ := h9 p.2 p.1 (List.mk_mem_zipIdx_iff_getElem?.1 hp')
      obtain ⟨res, hr1, hr2⟩ := hres hms
      rw [← h3, hget, Option.some.injEq] at hr1
      subst hr1
      rw [← hpart.keys, ← get?_isSome]
      have := get?_isSome.2 hm
      rw [hr2] at this
      simpa using this
    have := (C71_succeeds rep x m (hcomp m hmm).1 hx (by rw [hnames]; simpa [modelNames_eq] using hlen)).1
    exact this

/-- **C74** (success): the report of a comparison of distinctly named runs by at least one metric can be
exported. -/
theorem C74_succeeds (F : Fn α) (other : Str → Except Err α) (SQ : ArgSort Int) (SR : ArgSort α)
    (hash : δ → ι) (sched : Nat → Nat → List Nat) (E : Env α) (mc : Bool) (test : Str) (n : Nat) (maxP : α)
    (s : Store κ δ Int) (runs : List (NamedRun κ δ α)) (ms : List Str)
    (hc : Spec.Comparable SQ SR sched s runs) (hms : ms ≠ [])
    (rep : Report α) (q' : QrelsArg κ δ α) (rs' : List (RunArg κ δ α))
    (h : Rep.compare F other SQ SR hash sched E mc test n maxP (.obj s) runs ms = .ok (rep, q', rs')) :
    ∃ d, rep.toDict = .ok d := by
  obtain ⟨hm, -, hcomp⟩ := compare_complete F other SQ SR hash sched E mc test n maxP s runs ms hc rep q' rs' h
  unfold Report.toDict
  refine dictLoop_succeeds rep rep.modelNames _ ?_
  intro x hx
  constructor
  · obtain ⟨m, hm'⟩ := List.exists_mem_of_ne_nil ms hms
    obtain ⟨v, hv⟩ := (hcomp m hm').1.1 x hx
    unfold Report.score at hv
    cases hg : rep.results.get? x with
    | none => rw [hg] at hv; cases hv
    | some sc => exact ⟨sc, rfl⟩
  · refine modelEntry_succeeds rep x _ _ _ ?_
    intro b hb hne
    refine pairEntry_succeeds rep x b _ _ _ ?_
    intro m hmm
    rw [hm] at hmm
    exact ⟨(hcomp m hmm).1.2 x hx b hb hne, (hcomp m hmm).2 x hx b hb hne⟩
end

/-! ## examples -/

set_option synthInstance.maxSize 1000
set_option synthInstance.maxHeartbeats 200000

/-- round to one digit (towards zero, scores are non-negative) and show the numerator of tenths -/
def exFmt : Fmt ℚ where
  round := fun x => match x with
    | .val v => .val (((10 * v).num / (10 * v).den : Int) / 10)
    | .nan => .nan
  format := fun x => match x with
    | .val v => .ok (natStr ((10 * v).num / (10 * v).den).toNat)
    | .nan => .ok "nan".toList

/-- Non-vacuity of C71, C72, C87: the table and the LaTeX table of the example comparison. The second model is
better than the first one. -/
theorem exReport_table :
    ((exCompare "student" [exBm25, exAnon]).bind fun r => r.table exFmt) =
      .ok [('a', "bm25".toList, ["2".toList, "2".toList]), ('b', "run_2".toList, ["7ᵃ".toList, "10ᵃ".toList])] ∧
    ((exCompare "student" [exBm25, exAnon]).bind fun r => r.latex exFmt) =
      .ok [('a', "bm25".toList, [⟨false, "2".toList, [], ['b']⟩, ⟨false, "2".toList, [], ['b']⟩]),
        ('b', "run_2".toList, [⟨true, "7".toList, ['a'], []⟩, ⟨true, "10".toList, ['a'], []⟩])] := by
  constructor <;> decide +kernel

/-- Non-vacuity of C74: the exported dictionary. -/
example : ((exCompare "student" [exBm25, exAnon]).bind fun r => r.toDict.map fun d =>
      (d.get? "stat_test".toList, d.get? "run_2".toList)) =
    .ok (some (.text "student".toList), some (.model
      [("precision@2".toList, .val (3/4)), ("recall@2".toList, .val 1)]
      [("bm25".toList, [("precision@2".toList, .val 0), ("recall@2".toList, .val 0)])]
      [("bm25".toList, [("precision@2".toList, ⟨2, 0, 0⟩), ("recall@2".toList, ⟨2, 0, 0⟩)])])) := by
  decide +kernel

/-- **C74 refuted** for a model called "metrics": its entry replaces the list of metrics. -/
theorem C74_clobbered :
    ((exCompare "student" [⟨some "metrics".toList, exRunObj⟩, exAnon]).bind fun r => r.toDict.map fun d =>
      (d.get? "metrics".toList, r.metrics)) =
    .ok (some (.model
      [("precision@2".toList, .val (1/4)), ("recall@2".toList, .val (1/4))]
      [("run_2".toList, [("precision@2".toList, .val 0), ("recall@2".toList, .val 0)])]
      [("run_2".toList, [("precision@2".toList, ⟨0, 0, 2⟩), ("recall@2".toList, ⟨0, 0, 2⟩)])]),
      ["precision@2".toList, "recall@2".toList]) := by
  decide +kernel

/-- **C72**: rounding can leave nothing to highlight, although the scores are positive and different. -/
theorem C72_rounded_away :
    let r : Report ℚ := ⟨["a".toList, "b".toList],
      [("a".toList, [("map".toList, .val (1/100))]), ("b".toList, [("map".toList, .val (2/100))])], [], ["map".toList],
      1/100, [], "student".toList⟩
    r.best exFmt "map".toList = .ok none := by
  decide +kernel

/-- **C87 refuted** for a repeated metric: three metrics are requested (three headers), but every row has
two cells, so that the cell under the second header is the recall instead of the precision. -/
theorem C87_repeated_metric :
    (((Rep.compare (ι := Nat) ratFn (fun _ => .error .valueError) (ArgSort.stable Int) (ArgSort.stable ℚ) id
        (fun _ _ => [1, 0]) exStatEnv true "student".toList 2 (1/100) (.obj exQrelsObj) [exBm25, exAnon]
        ["precision@2".toList, "precision@2".toList, "recall@2".toList]).map Prod.fst).bind
      fun r => (r.table exFmt).map fun rows => (r.metrics.length, rows)) =
    .ok (3, [('a', "bm25".toList, ["2".toList, "2".toList]), ('b', "run_2".toList, ["7ᵃ".toList, "10ᵃ".toList])]) := by
  decide +kernel

/-- **C73/C87 refuted** for repeated names: the table labels the third run 'b', but its letter in the
superscripts is the third one. -/
theorem C87_repeated_name :
    ((exCompare "student" [exBm25, exBm25, exAnon]).bind fun r => r.table exFmt) =
      .ok [('a', "bm25".toList, ["2".toList, "2".toList]), ('b', "run_3".toList, ["7ᵃᵇ".toList, "10ᵃᵇ".toList])] ∧
    ((exCompare "student" [⟨none, exPerfect⟩, exBm25, exBm25, ⟨some "x".toList, exRunObj⟩]).bind fun r => r.table exFmt) =
      .ok [('a', "run_1".toList, ["7ᵇᶜᵈ".toList, "10ᵇᶜᵈ".toList]), ('b', "bm25".toList, ["2".toList, "2".toList]),
        ('c', "x".toList, ["2".toList, "2".toList])] := by
  constructor <;> decide +kernel

end Ranx
