import Verif.Lemmas.Compare2
import Verif.Props.Stats
import Verif.Props.Evaluate2

/-!
# Properties C70, C73, C85, C86: `compare`

`Spec.PerQuery … s r m l` says that `evaluate(qrels, run, m, return_mean=False)` returns `l`.
-/

set_option linter.unusedSectionVars false

namespace Ranx
open Dict Store Eval Metrics Py Stat Rep
variable {κ δ ι α : Type*}
variable [LinearOrder κ] [DecidableEq δ] [LinearOrder ι] [Field α] [LinearOrder α]
  [IsStrictOrderedRing α]

/-- the names `compare` uses, in order: the name of the run, `run_1`, `run_2`, … (its place) if it has none -/
def Spec.modelNames (runs : List (NamedRun κ δ α)) : List Str :=
  runs.zipIdx.map (fun p => p.1.name.getD ("run_".toList ++ natStr (p.2 + 1)))

theorem modelNames_eq (runs : List (NamedRun κ δ α)) :
    Spec.modelNames runs = runs.zipIdx.map (fun p => modelName p.2 p.1) := by
  unfold Spec.modelNames
  apply List.map_congr_left
  rintro ⟨⟨n, o⟩, i⟩ -
  cases n <;> rfl

/-- the usual situation: objects built by public calls, valid schedules, pairwise different names -/
structure Spec.Comparable (SQ : ArgSort Int) (SR : ArgSort α) (sched : Nat → Nat → List Nat)
    (s : Store κ δ Int) (runs : List (NamedRun κ δ α)) : Prop where
  qrelsOk : Spec.Usable SQ s
  runsOk : ∀ r ∈ runs, Spec.Usable SR r.obj.store
  schedOk : ∀ i j, Schedule s.data.length (sched i j)
  namesOk : (Spec.modelNames runs).Nodup

theorem mem_runs_zipIdx {runs : List (NamedRun κ δ α)} {r : NamedRun κ δ α} {i : Nat}
    (h : runs[i]? = some r) : (r, i) ∈ runs.zipIdx := List.mk_mem_zipIdx_iff_getElem?.2 h

/-- everything a successful `compare` has computed -/
theorem compare_ok (F : Fn α) (other : Str → Except Err α) (SQ : ArgSort Int) (SR : ArgSort α)
    (hash : δ → ι) (sched : Nat → Nat → List Nat) (E : Env α) (mc : Bool) (test : Str) (n : Nat) (maxP : α)
    (s : Store κ δ Int) (runs : List (NamedRun κ δ α)) (ms : List Str)
    (hc : Spec.Comparable SQ SR sched s runs)
    (rep : Report α) (q' : QrelsArg κ δ α) (rs' : List (RunArg κ δ α))
    (h : Rep.compare F other SQ SR hash sched E mc test n maxP (.obj s) runs ms = .ok (rep, q', rs')) :
    ∃ a : Acc κ δ α, a.names = Spec.modelNames runs ∧ rep.modelNames = a.names ∧ rep.results = a.results ∧
      rep.metrics = ms ∧ rep.statTest = test ∧ rep.maxP = maxP ∧
      (q' = .obj s ∨ q' = .obj (s.ensureSorted SQ)) ∧
      significance E a.names a.scores test n maxP = .ok rep.comparisons ∧
      wtlPairs a.scores ms (pairs a.names) [] = .ok rep.winTieLoss ∧
      (∀ i r, runs[i]? = some r → ∃ sc, RunPart F other SQ SR hash mc s ms r.obj sc ∧
        a.scores.get? (modelName i r) = some sc ∧
        (ms ≠ [] → ∃ res, a.results.get? (modelName i r) = some res ∧
          ∀ m, res.get? m = (sc.get? m).map mean)) ∧
      (ms ≠ [] → a.results.keys = Spec.modelNames runs) := by
  unfold Rep.compare at h
  cases hr : evalRuns F other SQ SR hash sched mc ms runs.zipIdx ⟨.obj s, [], [], [], []⟩ with
  | error e => rw [hr] at h; cases h
  | ok a =>
    rw [hr] at h
    simp only at h
    obtain ⟨g1, g2, g3, g4, g5, g6⟩ := evalRuns_ok F other SQ SR hash sched mc ms s hc.qrelsOk hc.schedOk
      runs.zipIdx (by
        intro p hp
        exact hc.runsOk _ (List.fst_mem_of_mem_zipIdx hp)) _ a (.inl rfl) hr (by simpa [modelNames_eq] using hc.namesOk)
      (by simp [Dict.keys]) (by simp [Dict.keys])
    cases hs : significance E a.names a.scores test n maxP with
    | error e => rw [hs] at h; cases h
    | ok comps =>
      rw [hs] at h
      simp only at h
      cases hw : wtlPairs a.scores ms (pairs a.names) [] with
      | error e => rw [hw] at h; cases h
      | ok w =>
        rw [hw] at h
        simp only [Except.ok.injEq, Prod.mk.injEq] at h
        obtain ⟨rfl, rfl, rfl⟩ := h
        refine ⟨a, by simpa [modelNames_eq] using g2, rfl, rfl, rfl, rfl, rfl, g1, hs, hw, ?_, ?_⟩
        · intro i r hir
          exact g4 (r, i) (mem_runs_zipIdx hir)
        · intro hms
          simpa [modelNames_eq, Dict.keys] using g6 hms

theorem RunPart.scores {F : Fn α} {other : Str → Except Err α} {SQ : ArgSort Int} {SR : ArgSort α}
    {hash : δ → ι} {mc : Bool} {s : Store κ δ Int} {ms : List Str} {r : RunObj κ δ α}
    {sc : Dict Str (List (Num α))} (h : RunPart F other SQ SR hash mc s ms r sc) {m : Str} (hm : m ∈ ms) :
    ∃ l, sc.get? m = some l ∧ l.length = s.data.length ∧ Spec.PerQuery F other SQ SR hash mc s r m l := by
  obtain ⟨l, hl⟩ := Option.isSome_iff_exists.1 (get?_isSome.2 ((h.keys m).2 hm))
  exact ⟨l, hl, h.len m l hl, h.perQuery m l hl⟩

/-- **C73** (partial: pairwise different names): the report lists one model per run, in order, and the
score shown for a run and a metric is the mean of the per-query scores `evaluate` returns for that very run. -/
theorem C73_own_results_partial (F : Fn α) (other : Str → Except Err α) (SQ : ArgSort Int) (SR : ArgSort α)
    (hash : δ → ι) (sched : Nat → Nat → List Nat) (E : Env α) (mc : Bool) (test : Str) (n : Nat) (maxP : α)
    (s : Store κ δ Int) (runs : List (NamedRun κ δ α)) (ms : List Str)
    (hc : Spec.Comparable SQ SR sched s runs)
    (rep : Report α) (q' : QrelsArg κ δ α) (rs' : List (RunArg κ δ α))
    (h : Rep.compare F other SQ SR hash sched E mc test n maxP (.obj s) runs ms = .ok (rep, q', rs')) :
    rep.modelNames = Spec.modelNames runs ∧ (ms ≠ [] → rep.results.keys = Spec.modelNames runs) ∧
    ∀ (i : Nat) r, runs[i]? = some r → ∀ m ∈ ms, ∃ l, Spec.PerQuery F other SQ SR hash mc s r.obj m l ∧
      rep.score (modelName i r) m = .ok (mean l) := by
  obtain ⟨a, h1, h2, h3, -, -, -, -, -, -, h9, h10⟩ := compare_ok F other SQ SR hash sched E mc test n maxP s runs ms
    hc rep q' rs' h
  refine ⟨by rw [h2, h1], fun hms => by rw [h3, h10 hms], ?_⟩
  intro i r hir m hm
  obtain ⟨sc, hp, hsc, hres⟩ := h9 i r hir
  obtain ⟨l, hl, -, hq⟩ := hp.scores hm
  obtain ⟨res, hr1, hr2⟩ := hres (List.ne_nil_of_mem hm)
  refine ⟨l, hq, ?_⟩
  unfold Report.score
  rw [h3, hr1, Option.bind_some, hr2 m, hl]
  rfl

/-- **C85**: the score `compare` reports for a run and a metric is what `evaluate` returns for that run,
metric and `make_comparable` on its own: comparing several runs does not influence any score. -/
theorem C85_compare_is_evaluate (F : Fn α) (other : Str → Except Err α) (SQ : ArgSort Int) (SR : ArgSort α)
    (hash : δ → ι) (sched : Nat → Nat → List Nat) (E : Env α) (mc : Bool) (test : Str) (n : Nat) (maxP : α)
    (s : Store κ δ Int) (runs : List (NamedRun κ δ α)) (ms : List Str)
    (hc : Spec.Comparable SQ SR sched s runs)
    (rep : Report α) (q' : QrelsArg κ δ α) (rs' : List (RunArg κ δ α))
    (h : Rep.compare F other SQ SR hash sched E mc test n maxP (.obj s) runs ms = .ok (rep, q', rs'))
    (i : Nat) (r : NamedRun κ δ α) (hir : runs[i]? = some r) (m : Str) (hm : m ∈ ms) :
    ∃ x, rep.score (modelName i r) m = .ok x ∧
      (evaluate F other SQ SR hash (fun _ => List.range s.data.length) { makeComparable := mc }
        (.obj s) (.obj r.obj) [m]).2 = .ok (.single (.mean x)) := by
  obtain ⟨-, -, h3⟩ := C73_own_results_partial F other SQ SR hash sched E mc test n maxP s runs ms hc rep q' rs' h
  obtain ⟨l, ⟨after, hl⟩, hsc⟩ := h3 i r hir m hm
  refine ⟨mean l, hsc, ?_⟩
  rw [evaluate_obj] at hl ⊢
  have hcomp : comparable SR { makeComparable := mc } s r.obj = comparable SR (cmpOpts mc) s r.obj := rfl
  rw [hcomp]
  by_cases hk : sameKeys s.data.keys (comparable SR (cmpOpts mc) s r.obj).data.keys = true
  · rw [if_pos hk] at hl ⊢
    cases hd : scoreAll F other (fun _ => List.range s.data.length)
        (Store.rows hash (fun z : Int => (z : α)) (s.ensureSorted SQ).data)
        (Store.rows hash id ((comparable SR (cmpOpts mc) s r.obj).ensureSorted SR).data)
        ([m] : List Str).zipIdx [] with
    | error e => rw [hd] at hl; simp at hl
    | ok d =>
      rw [hd] at hl
      simp only [Prod.mk.injEq] at hl
      have ho := hl.2
      unfold outOf at ho ⊢
      simp only at ho ⊢
      have hl1 : lastM other (cmpOpts mc) true m = m := by unfold lastM; simp [cmpOpts]
      have hl2 : lastM other { makeComparable := mc } true m = m := by unfold lastM; simp
      rw [hl1, get?_map_val] at ho
      rw [hl2, get?_map_val]
      cases hg : d.get? m with
      | none => rw [hg] at ho; cases ho
      | some l' =>
        rw [hg] at ho
        simp only [Option.map_some, Except.ok.injEq, Out.single.injEq, present, cmpOpts] at ho ⊢
        simp at ho ⊢
        rw [ho]
  · rw [if_neg hk] at hl; simp at hl

/-- number of positions where `p` holds of the two scores -/
def Spec.countPairs (p : α → α → Prop) [DecidableRel p] (a b : List α) : Nat :=
  ((a.zip b).filter (fun x => decide (p x.1 x.2))).length

theorem countBy_vals (f : Num α → Num α → Bool) (p : α → α → Prop) [DecidableRel p]
    (hf : ∀ x y, f (.val x) (.val y) = decide (p x y)) (a b : List α) :
    countBy f (a.map .val) (b.map .val) = Spec.countPairs p a b := by
  unfold countBy Spec.countPairs
  induction a generalizing b with
  | nil => simp
  | cons x t ih =>
    cases b with
    | nil => simp
    | cons y u =>
      simp only [List.map_cons, List.zipWith_cons_cons, hf, List.zip_cons_cons]
      rw [List.count_cons, ih, List.filter_cons]
      by_cases h : p x y
      · simp [h]
      · simp [h]

theorem countBy_swap (f g : Num α → Num α → Bool) (h : ∀ x y, f x y = g y x) (a b : List (Num α)) :
    countBy f a b = countBy g b a := by
  unfold countBy
  congr 1
  induction a generalizing b with
  | nil => simp
  | cons x t ih =>
    cases b with
    | nil => simp
    | cons y u => simp [h, ih]

theorem eqNum_comm (x y : Num α) : eqNum x y = eqNum y x := by
  cases x <;> cases y <;> simp [eqNum, eq_comm]

theorem counts_total (a b : List α) (h : a.length = b.length) :
    Spec.countPairs (fun x y => y < x) a b + Spec.countPairs (fun x y => x = y) a b +
      Spec.countPairs (fun x y => x < y) a b = a.length := by
  unfold Spec.countPairs
  induction a generalizing b with
  | nil => simp
  | cons x t ih =>
    cases b with
    | nil => simp at h
    | cons y u =>
      have := ih u (by simpa using h)
      simp only [List.zip_cons_cons, List.filter_cons, List.length_cons]
      rcases lt_trichotomy x y with hxy | hxy | hxy
      · simp [hxy, hxy.ne, not_lt.2 hxy.le] at this ⊢; omega
      · subst hxy; simp at this ⊢; omega
      · simp [hxy, hxy.ne', not_lt.2 hxy.le] at this ⊢; omega

/-- **C70**: for two different models and a metric the report's table holds, for the pair in either
order, the number of queries won, tied and lost according to the per-query scores of `evaluate`;
swapping the models swaps wins and losses; and if all scores are numbers the three counts add up to the
number of judged queries. -/
theorem C70_win_tie_loss (F : Fn α) (other : Str → Except Err α) (SQ : ArgSort Int) (SR : ArgSort α)
    (hash : δ → ι) (sched : Nat → Nat → List Nat) (E : Env α) (mc : Bool) (test : Str) (n : Nat) (maxP : α)
    (s : Store κ δ Int) (runs : List (NamedRun κ δ α)) (ms : List Str)
    (hc : Spec.Comparable SQ SR sched s runs)
    (rep : Report α) (q' : QrelsArg κ δ α) (rs' : List (RunArg κ δ α))
    (h : Rep.compare F other SQ SR hash sched E mc test n maxP (.obj s) runs ms = .ok (rep, q', rs'))
    (i j : Nat) (r r' : NamedRun κ δ α) (hi : runs[i]? = some r) (hj : runs[j]? = some r') (hij : i ≠ j)
    (m : Str) (hm : m ∈ ms) :
    ∃ (l l' : List (Num α)) (w : WTL),
      Spec.PerQuery F other SQ SR hash mc s r.obj m l ∧ Spec.PerQuery F other SQ SR hash mc s r'.obj m l' ∧
      wtlAt rep.winTieLoss (modelName i r, modelName j r') m = some w ∧
      wtlAt rep.winTieLoss (modelName j r', modelName i r) m = some ⟨w.l, w.t, w.w⟩ ∧
      ∀ a b : List α, l = a.map .val → l' = b.map .val →
        w.w = Spec.countPairs (fun x y => y < x) a b ∧ w.t = Spec.countPairs (fun x y => x = y) a b ∧
        w.l = Spec.countPairs (fun x y => x < y) a b ∧ w.w + w.t + w.l = s.data.length := by
  obtain ⟨a, h1, h2, -, -, -, -, -, -, hw, h9, -⟩ := compare_ok F other SQ SR hash sched E mc test n maxP s runs ms
    hc rep q' rs' h
  have hms : ms ≠ [] := List.ne_nil_of_mem hm
  obtain ⟨sc, hp, hsc, -⟩ := h9 i r hi
  obtain ⟨sc', hp', hsc', -⟩ := h9 j r' hj
  obtain ⟨l, hl, hlen, hq⟩ := hp.scores hm
  obtain ⟨l', hl', hlen', hq'⟩ := hp'.scores hm
  have hmem : ∀ (i : Nat) (r : NamedRun κ δ α), runs[i]? = some r → modelName i r ∈ a.names := by
    intro i r hir
    rw [h1, modelNames_eq]
    exact List.mem_map.2 ⟨(r, i), mem_runs_zipIdx hir, rfl⟩
  have hne : modelName i r ≠ modelName j r' := by
    intro hcon
    have e1 : (Spec.modelNames runs)[i]? = some (modelName i r) := by
      simp [modelNames_eq, List.getElem?_zipIdx, hi]
    have e2 : (Spec.modelNames runs)[j]? = some (modelName i r) := by
      simp [modelNames_eq, List.getElem?_zipIdx, hj, hcon]
    have hlt : i < (Spec.modelNames runs).length := by
      by_contra hc; rw [List.getElem?_eq_none (by omega)] at e1; cases e1
    exact hij ((List.getElem?_inj hlt hc.namesOk).1 (e1.trans e2.symm))
  have hpair : ∀ x y, x ∈ a.names → y ∈ a.names → (x, y) ∈ pairs a.names := by
    intro x y hx hy
    unfold pairs
    rw [List.mem_flatMap]
    exact ⟨x, hx, List.mem_map.2 ⟨y, hy, rfl⟩⟩
  have hw1 := (wtlPairs_ok a.scores ms hms _ _ _ hw (modelName i r) (modelName j r') m hm).1
    (hpair _ _ (hmem i r hi) (hmem j r' hj)) hne
  have hw2 := (wtlPairs_ok a.scores ms hms _ _ _ hw (modelName j r') (modelName i r) m hm).1
    (hpair _ _ (hmem j r' hj) (hmem i r hi)) hne.symm
  obtain ⟨ca, cb, cs, ts, e1, e2, e3, e4, e5⟩ := hw1
  rw [hsc] at e1; cases e1
  rw [hsc'] at e2; cases e2
  rw [hl] at e3; cases e3
  rw [hl'] at e4; cases e4
  obtain ⟨ca, cb, cs, ts, f1, f2, f3, f4, f5⟩ := hw2
  rw [hsc'] at f1; cases f1
  rw [hsc] at f2; cases f2
  rw [hl'] at f3; cases f3
  rw [hl] at f4; cases f4
  refine ⟨_, _, _, hq, hq', e5, ?_, ?_⟩
  · rw [f5]
    congr 1
    unfold winTieLossOf
    simp only [WTL.mk.injEq]
    refine ⟨countBy_swap _ _ (fun x y => rfl) _ _, countBy_swap _ _ eqNum_comm _ _, countBy_swap _ _ (fun x y => rfl) _ _⟩
  · rintro a b rfl rfl
    have c1 : (winTieLossOf (a.map Num.val) (b.map Num.val)).w = Spec.countPairs (fun x y => y < x) a b :=
      countBy_vals _ (fun x y : α => y < x) (fun x y => rfl) a b
    have c2 : (winTieLossOf (a.map Num.val) (b.map Num.val)).t = Spec.countPairs (fun x y => x = y) a b :=
      countBy_vals _ (fun x y : α => x = y) (fun x y => rfl) a b
    have c3 : (winTieLossOf (a.map Num.val) (b.map Num.val)).l = Spec.countPairs (fun x y => x < y) a b :=
      countBy_vals _ (fun x y : α => x < y) (fun x y => rfl) a b
    refine ⟨c1, c2, c3, ?_⟩
    rw [c1, c2, c3, counts_total a b (by simpa using hlen.trans hlen'.symm)]
    simpa using hlen

/-- **C86** (Fisher): the comparison reported for two different models is Fisher's test on their
per-query scores (for some random draws and, if the environment's schedules are valid, some valid
schedule), whichever order the pair is looked up in. -/
theorem C86_fisher (F : Fn α) (other : Str → Except Err α) (SQ : ArgSort Int) (SR : ArgSort α)
    (hash : δ → ι) (sched : Nat → Nat → List Nat) (E : Env α) (mc : Bool) (n : Nat) (maxP : α)
    (s : Store κ δ Int) (runs : List (NamedRun κ δ α)) (ms : List Str)
    (hc : Spec.Comparable SQ SR sched s runs) (hE : ∀ i j m, Schedule n (E.sched i j m))
    (rep : Report α) (q' : QrelsArg κ δ α) (rs' : List (RunArg κ δ α))
    (h : Rep.compare F other SQ SR hash sched E mc "fisher".toList n maxP (.obj s) runs ms = .ok (rep, q', rs'))
    (i j : Nat) (r r' : NamedRun κ δ α) (hi : runs[i]? = some r) (hj : runs[j]? = some r')
    (hne : modelName i r ≠ modelName j r') (m : Str) (hm : m ∈ ms) :
    ∃ (l l' : List (Num α)) (coin : Nat → Nat → Bool) (sc : List Nat) (res : Result α),
      Spec.PerQuery F other SQ SR hash mc s r.obj m l ∧ Spec.PerQuery F other SQ SR hash mc s r'.obj m l' ∧
      Schedule n sc ∧ fisher coin sc l l' n maxP = .ok res ∧
      rep.comparison (modelName i r) (modelName j r') m = .ok res ∧
      rep.comparison (modelName j r') (modelName i r) m = .ok res := by
  obtain ⟨a, h1, h2, -, -, -, -, -, hs, -, h9, -⟩ := compare_ok F other SQ SR hash sched E mc _ n maxP s runs ms
    hc rep q' rs' h
  obtain ⟨sc, hp, hsc, -⟩ := h9 i r hi
  obtain ⟨sc', hp', hsc', -⟩ := h9 j r' hj
  obtain ⟨l, hl, hlen, hq⟩ := hp.scores hm
  obtain ⟨l', hl', hlen', hq'⟩ := hp'.scores hm
  have hmem : ∀ (i : Nat) (r : NamedRun κ δ α), runs[i]? = some r → modelName i r ∈ a.names := by
    intro i r hir
    rw [h1, modelNames_eq]
    exact List.mem_map.2 ⟨(r, i), mem_runs_zipIdx hir, rfl⟩
  obtain ⟨d, la, lb, res, x, y, g1, g2, g3, g4, g5⟩ := significance_ok E a.names a.scores "fisher".toList n maxP
    (.inl rfl) rep.comparisons hs _ _ (hmem i r hi) (hmem j r' hj) hne sc sc' hsc hsc'
    (fun m => by rw [hp.keys, hp'.keys]) m ((hp.keys m).2 hm)
  rw [hl] at g2; cases g2
  rw [hl'] at g3; cases g3
  have hcmp : rep.comparison (modelName i r) (modelName j r') m = .ok res := by
    unfold Report.comparison
    rw [g1, Option.bind_some, g4]
  have hcmp' : rep.comparison (modelName j r') (modelName i r) m = .ok res := by
    unfold Report.comparison
    rw [C69_symmetric, g1, Option.bind_some, g4]
  have hone : ∀ i j u v, oneTest E "fisher".toList n maxP i j m u v =
      fisher (E.coin i j m) (E.sched i j m) u v n maxP := by
    intro i j u v; unfold oneTest; rw [if_pos rfl]
  refine ⟨l, l', E.coin x y m, E.sched x y m, res, hq, hq', hE x y m, ?_, hcmp, hcmp'⟩
  rcases g5 with g5 | g5
  · rw [hone] at g5; exact g5
  · rw [hone, C68_symmetric] at g5; exact g5

/-- **C86** (Student): the comparison reported is SciPy's paired t-test on the per-query scores (for a
test statistic symmetric in the two samples, as the two-sided p-value is). -/
theorem C86_student (F : Fn α) (other : Str → Except Err α) (SQ : ArgSort Int) (SR : ArgSort α)
    (hash : δ → ι) (sched : Nat → Nat → List Nat) (E : Env α) (mc : Bool) (n : Nat) (maxP : α)
    (s : Store κ δ Int) (runs : List (NamedRun κ δ α)) (ms : List Str)
    (hc : Spec.Comparable SQ SR sched s runs) (hE : ∀ x y, E.ttest x y = E.ttest y x)
    (rep : Report α) (q' : QrelsArg κ δ α) (rs' : List (RunArg κ δ α))
    (h : Rep.compare F other SQ SR hash sched E mc "student".toList n maxP (.obj s) runs ms = .ok (rep, q', rs'))
    (i j : Nat) (r r' : NamedRun κ δ α) (hi : runs[i]? = some r) (hj : runs[j]? = some r')
    (hne : modelName i r ≠ modelName j r') (m : Str) (hm : m ∈ ms) :
    ∃ (l l' : List (Num α)),
      Spec.PerQuery F other SQ SR hash mc s r.obj m l ∧ Spec.PerQuery F other SQ SR hash mc s r'.obj m l' ∧
      rep.comparison (modelName i r) (modelName j r') m =
        .ok ⟨E.ttest l l', leNum (E.ttest l l') (.val maxP)⟩ ∧
      rep.comparison (modelName j r') (modelName i r) m =
        .ok ⟨E.ttest l l', leNum (E.ttest l l') (.val maxP)⟩ := by
  obtain ⟨a, h1, h2, -, -, -, -, -, hs, -, h9, -⟩ := compare_ok F other SQ SR hash sched E mc _ n maxP s runs ms
    hc rep q' rs' h
  obtain ⟨sc, hp, hsc, -⟩ := h9 i r hi
  obtain ⟨sc', hp', hsc', -⟩ := h9 j r' hj
  obtain ⟨l, hl, hlen, hq⟩ := hp.scores hm
  obtain ⟨l', hl', hlen', hq'⟩ := hp'.scores hm
  have hmem : ∀ (i : Nat) (r : NamedRun κ δ α), runs[i]? = some r → modelName i r ∈ a.names := by
    intro i r hir
    rw [h1, modelNames_eq]
    exact List.mem_map.2 ⟨(r, i), mem_runs_zipIdx hir, rfl⟩
  obtain ⟨d, la, lb, res, x, y, g1, g2, g3, g4, g5⟩ := significance_ok E a.names a.scores "student".toList n maxP
    (.inr rfl) rep.comparisons hs _ _ (hmem i r hi) (hmem j r' hj) hne sc sc' hsc hsc'
    (fun m => by rw [hp.keys, hp'.keys]) m ((hp.keys m).2 hm)
  rw [hl] at g2; cases g2
  rw [hl'] at g3; cases g3
  have hone : ∀ i j u v, u.length = v.length → oneTest E "student".toList n maxP i j m u v =
      .ok ⟨E.ttest u v, leNum (E.ttest u v) (.val maxP)⟩ := by
    intro i j u v huv
    unfold oneTest
    rw [if_neg (by decide +kernel)]
    unfold student
    rw [if_neg (by simp [huv])]
  have hres : res = ⟨E.ttest l l', leNum (E.ttest l l') (.val maxP)⟩ := by
    rcases g5 with g5 | g5
    · rw [hone _ _ _ _ (hlen.trans hlen'.symm)] at g5; cases g5; rfl
    · rw [hone _ _ _ _ (hlen'.trans hlen.symm), hE] at g5; cases g5; rfl
  refine ⟨l, l', hq, hq', ?_, ?_⟩
  · unfold Report.comparison
    rw [g1, Option.bind_some, g4, hres]
  · unfold Report.comparison
    rw [C69_symmetric, g1, Option.bind_some, g4, hres]

/-- **C86** (Tukey): the comparison reported for the models number `i` and `j` is the entry `(i, j)` of
SciPy's (symmetric) matrix of p-values for the per-query scores of all the models. -/
theorem C86_tukey (F : Fn α) (other : Str → Except Err α) (SQ : ArgSort Int) (SR : ArgSort α)
    (hash : δ → ι) (sched : Nat → Nat → List Nat) (E : Env α) (mc : Bool) (n : Nat) (maxP : α)
    (s : Store κ δ Int) (runs : List (NamedRun κ δ α)) (ms : List Str)
    (hc : Spec.Comparable SQ SR sched s runs)
    (hE : ∀ scores p, E.tukey scores = .ok p → ∀ x y, p x y = p y x)
    (rep : Report α) (q' : QrelsArg κ δ α) (rs' : List (RunArg κ δ α))
    (h : Rep.compare F other SQ SR hash sched E mc "tukey".toList n maxP (.obj s) runs ms = .ok (rep, q', rs'))
    (i j : Nat) (r r' : NamedRun κ δ α) (hi : runs[i]? = some r) (hj : runs[j]? = some r')
    (m : Str) (hm : m ∈ ms) :
    ∃ (scores : List (List (Num α))) (p : Nat → Nat → Num α), E.tukey scores = .ok p ∧
      scores.length = runs.length ∧
      (∀ (x : Nat) rx, runs[x]? = some rx → ∃ l, scores[x]? = some l ∧
        Spec.PerQuery F other SQ SR hash mc s rx.obj m l) ∧
      rep.comparison (modelName i r) (modelName j r') m = .ok ⟨p i j, leNum (p i j) (.val maxP)⟩ := by
  obtain ⟨a, h1, h2, -, -, -, -, -, hs, -, h9, -⟩ := compare_ok F other SQ SR hash sched E mc _ n maxP s runs ms
    hc rep q' rs' h
  have hmem : ∀ (i : Nat) (r : NamedRun κ δ α), runs[i]? = some r → a.names[i]? = some (modelName i r) := by
    intro i r hir
    rw [h1]
    simp [modelNames_eq, List.getElem?_zipIdx, hir]
  have hnames : a.names.length = runs.length := by rw [h1]; simp [modelNames_eq]
  unfold significance at hs
  rw [if_neg (by decide +kernel), if_pos rfl] at hs
  cases hn : a.names with
  | nil =>
    have := hmem i r hi
    rw [hn] at this; cases this
  | cons first rest =>
    rw [hn] at hs
    simp only at hs
    cases hf : a.scores.get? first with
    | none => rw [hf] at hs; cases hs
    | some d =>
      rw [hf] at hs
      simp only at hs
      rw [← hn] at hs
      have hm' : m ∈ d.keys := by
        have hlen0 : 0 < runs.length := by rw [← hnames, hn]; simp
        have h0 := List.getElem?_eq_getElem hlen0
        have hfirst := hmem 0 _ h0
        rw [hn] at hfirst
        simp only [List.getElem?_cons_zero, Option.some.injEq] at hfirst
        obtain ⟨sc, hp, hsc, -⟩ := h9 0 _ h0
        rw [← hfirst, hf] at hsc
        cases hsc
        exact (hp.keys m).2 hm
      have hia := List.mem_of_getElem? (hmem i r hi)
      have hjb := List.mem_of_getElem? (hmem j r' hj)
      obtain ⟨-, -, h3⟩ := tukeyAll_ok E a.names a.scores maxP d.keys _ _ hs _ _ hia hjb
        (tukeyInit_keys a.names _ _ hia hjb) m
      obtain ⟨sc, p, hsf, hp, x, y, hxy, hcell⟩ := h3 hm'
      have hsc := (collect_ok_iff _ _).1 hsf
      refine ⟨sc, p, hp, ?_, ?_, ?_⟩
      · have := congrArg List.length hsc
        simp at this
        omega
      · intro z rz hz
        have e := congrArg (fun l => l[z]?) hsc
        simp only [List.getElem?_map, hmem z rz hz, Option.map_some] at e
        obtain ⟨scz, hpz, hscz, -⟩ := h9 z rz hz
        obtain ⟨l, hl, -, hq⟩ := hpz.scores hm
        rw [hscz, Option.bind_some, hl] at e
        simp only at e
        cases hg : sc[z]? with
        | none => rw [hg] at e; cases e
        | some l2 =>
          rw [hg] at e
          simp only [Option.map_some, Option.some.injEq, Except.ok.injEq] at e
          exact ⟨l2, rfl, e ▸ hq⟩
      · have hnd : a.names.Nodup := by rw [h1]; exact hc.namesOk
        have inj : ∀ (x y : Nat) (v : Str), a.names[x]? = some v → a.names[y]? = some v → x = y := by
          intro x y v hx hy
          have hlt : x < a.names.length := by
            by_contra hcn; rw [List.getElem?_eq_none (by omega)] at hx; cases hx
          exact (List.getElem?_inj hlt hnd).1 (hx.trans hy.symm)
        have hpe : p x y = p i j := by
          rcases hxy with ⟨e1, e2⟩ | ⟨e1, e2⟩
          · rw [inj x i _ e1 (hmem i r hi), inj y j _ e2 (hmem j r' hj)]
          · rw [inj x j _ e1 (hmem j r' hj), inj y i _ e2 (hmem i r hi), hE sc p hp]
        unfold Report.comparison
        unfold cell at hcell
        unfold FrozensetDict.getItem
        rw [hcell, hpe]

end Ranx
