import Verif.Model.Frame
import Verif.Props.Report3

/-!
# C109: the exported data frame
-/

set_option linter.unusedSectionVars false

namespace Ranx
open Dict Store Eval Metrics Py Stat Rep
variable {κ δ ι α : Type*}

theorem addNew_all (xs l : List Str) (h : ∀ x ∈ l, x ∈ xs) : addNew xs l = xs := by
  induction l with
  | nil => rfl
  | cons x t ih =>
    unfold addNew
    rw [if_pos (h x (by simp))]
    exact ih (fun y hy => h y (by simp [hy]))

theorem addNew_new (xs l : List Str) (hn : l.Nodup) (hd : ∀ x ∈ l, x ∉ xs) : addNew xs l = xs ++ l := by
  induction l generalizing xs with
  | nil => simp [addNew]
  | cons x t ih =>
    rw [List.nodup_cons] at hn
    unfold addNew
    rw [if_neg (hd x (by simp)), ih _ hn.2 (by
      intro y hy hc
      rcases List.mem_append.1 hc with hc | hc
      · exact hd y (by simp [hy]) hc
      · rw [List.mem_singleton] at hc
        exact hn.1 (hc ▸ hy))]
    simp

theorem addNew_append (xs a b : List Str) : addNew xs (a ++ b) = addNew (addNew xs a) b := by
  induction a generalizing xs with
  | nil => rfl
  | cons x t ih =>
    have e : ∀ l, addNew xs (x :: l) = if x ∈ xs then addNew xs l else addNew (xs ++ [x]) l := fun _ => rfl
    rw [List.cons_append, e, e]
    by_cases h : x ∈ xs
    · rw [if_pos h, if_pos h, ih]
    · rw [if_neg h, if_neg h, ih]

/-- a rectangular dictionary of dictionaries -/
theorem frameOf_eq (d : Dict Str (Dict Str (Num α))) (ms : List Str) (hd : NodupKeys d) (hms : ms ≠ [])
    (hnd : ms.Nodup) (hk : ∀ p ∈ d, Dict.keys p.2 = ms) (hne : d ≠ []) :
    frameOf d = ⟨"model_names".toList :: ms, d.keys.map (fun n => (n, ms.map (fun c =>
      ((d.get? n).bind (fun e => e.get? c)).getD .nan)))⟩ := by
  have hcols : addNew [] (d.flatMap (fun p => Dict.keys p.2)) = ms := by
    cases d with
    | nil => exact absurd rfl hne
    | cons p t =>
      rw [List.flatMap_cons, addNew_append, hk p (by simp), addNew_new [] ms hnd (by simp), List.nil_append]
      apply addNew_all
      intro x hx
      obtain ⟨p', hp', hx'⟩ := List.mem_flatMap.1 hx
      rwa [hk p' (by simp [hp'])] at hx'
  have hcol : ∀ c ∈ ms, (d.filter (fun p => Dict.contains p.2 c)).map Prod.fst = d.keys := by
    intro c hc
    rw [List.filter_eq_self.2]
    · rfl
    · intro p hp
      rw [contains_iff, hk p hp]; exact hc
  have hindex : addNew [] (ms.flatMap (fun c => (d.filter (fun p => Dict.contains p.2 c)).map Prod.fst)) =
      d.keys := by
    cases ms with
    | nil => exact absurd rfl hms
    | cons c t =>
      rw [List.flatMap_cons, addNew_append, hcol c (by simp), addNew_new [] d.keys hd (by simp),
        List.nil_append]
      apply addNew_all
      intro x hx
      obtain ⟨c', hc', hx'⟩ := List.mem_flatMap.1 hx
      rwa [hcol c' (by simp [hc'])] at hx'
  unfold frameOf
  simp only
  rw [hcols, hindex]

theorem scoresLoop_ok (d : Dict Str (Entry α)) (names : List Str) (hn : names.Nodup)
    (f : Str → Dict Str (Num α)) (hf : ∀ n ∈ names, ∃ c w, d.get? n = some (.model (f n) c w))
    (acc : Dict Str (Dict Str (Num α))) (hacc : ∀ n ∈ names, n ∉ acc.keys) :
    scoresLoop d names acc = .ok (acc ++ names.map (fun n => (n, f n))) := by
  induction names generalizing acc with
  | nil => simp [scoresLoop]
  | cons n t ih =>
    rw [List.nodup_cons] at hn
    obtain ⟨c, w, h⟩ := hf n (by simp)
    unfold scoresLoop
    rw [h]
    simp only
    have hset : acc.set n (f n) = acc ++ [(n, f n)] := set_of_notMem _ (hacc n (by simp))
    rw [hset, ih hn.2 (fun m hm => hf m (by simp [hm]))]
    · simp
    · intro m hm hc
      simp only [Dict.keys, List.map_append, List.mem_append] at hc
      rcases hc with hc | hc
      · exact hacc m (by simp [hm]) hc
      · simp only [List.map_cons, List.map_nil, List.mem_singleton] at hc
        exact hn.1 (hc ▸ hm)

section
variable [LinearOrder κ] [DecidableEq δ] [LinearOrder ι] [Field α] [LinearOrder α]
  [IsStrictOrderedRing α]

/-- **C109** (partial: no model is called "model_names"): the data frame of a comparison of distinctly named
runs by distinct metrics has a first column with the names of the runs, in the order given, and one column per
metric, in the order given, which holds for every run the mean score `evaluate` returns for it. -/
theorem C109_frame_partial (F : Fn α) (other : Str → Except Err α) (SQ : ArgSort Int) (SR : ArgSort α)
    (hash : δ → ι) (sched : Nat → Nat → List Nat) (E : Env α) (mc : Bool) (test : Str) (n : Nat) (maxP : α)
    (s : Store κ δ Int) (runs : List (NamedRun κ δ α)) (hruns : runs ≠ []) (ms : List Str)
    (hc : Spec.Comparable SQ SR sched s runs) (hms : ms ≠ []) (hnd : ms.Nodup)
    (hname : ∀ (i : Nat) r, runs[i]? = some r → modelName i r ≠ "model_names".toList)
    (rep : Report α) (q' : QrelsArg κ δ α) (rs' : List (RunArg κ δ α))
    (h : Rep.compare F other SQ SR hash sched E mc test n maxP (.obj s) runs ms = .ok (rep, q', rs')) :
    ∃ fr, rep.toDataframe = .ok fr ∧ fr.columns = "model_names".toList :: ms ∧
      fr.rows.length = runs.length ∧
      ∀ (i : Nat) r, runs[i]? = some r → ∃ cells, fr.rows[i]? = some (modelName i r, cells) ∧
        cells.length = ms.length ∧ ∀ (k : Nat) m, ms[k]? = some m → ∃ x, cells[k]? = some x ∧
          (evaluate F other SQ SR hash (fun _ => List.range s.data.length) { makeComparable := mc }
            (.obj s) (.obj r.obj) [m]).2 = .ok (.single (.mean x)) := by
  obtain ⟨hn1, hn2, hn3⟩ := C73_own_results_partial F other SQ SR hash sched E mc test n maxP s runs ms hc rep q' rs' h
  have hkeys : ∀ n res, rep.results.get? n = some res → Dict.keys res = ms := by
    have h' := h
    unfold Rep.compare at h'
    cases hr : evalRuns F other SQ SR hash sched mc ms runs.zipIdx ⟨.obj s, [], [], [], []⟩ with
    | error e => rw [hr] at h'; cases h'
    | ok a =>
      rw [hr] at h'
      simp only at h'
      have hres : rep.results = a.results := by
        cases hs : significance E a.names a.scores test n maxP with
        | error e => rw [hs] at h'; cases h'
        | ok comps =>
          rw [hs] at h'
          simp only at h'
          cases hw : wtlPairs a.scores ms (pairs a.names) [] with
          | error e => rw [hw] at h'; cases h'
          | ok w =>
            rw [hw] at h'
            simp only [Except.ok.injEq, Prod.mk.injEq] at h'
            rw [← h'.1]
      rw [hres]
      exact evalRuns_resultKeys F other SQ SR hash sched mc ms hnd _ _ a hr (by simp [Dict.get?])
  obtain ⟨d, hd⟩ := C74_succeeds F other SQ SR hash sched E mc test n maxP s runs ms hc hms rep q' rs' h
  have hmn : "model_names".toList ∉ rep.modelNames := by
    rw [hn1, modelNames_eq]
    intro hcc
    obtain ⟨p, hp, he⟩ := List.mem_map.1 hcc
    exact hname p.2 p.1 (List.mk_mem_zipIdx_iff_getElem?.1 hp) he
  have hnames : modelNamesOf d = .ok rep.modelNames := by
    have n2 : ¬ ("stat_test".toList = "model_names".toList) := by decide +kernel
    have n3 : ¬ ("metrics".toList = "model_names".toList) := by decide +kernel
    unfold modelNamesOf
    rw [(dictLoop_spec rep rep.modelNames _ d hd _).2 hmn]
    unfold Dict.get?
    rw [if_neg n2]
    unfold Dict.get?
    rw [if_neg n3]
    unfold Dict.get?
    rw [if_pos rfl]
  have hnod : rep.modelNames.Nodup := by rw [hn1]; exact hc.namesOk
  have hmodel : ∀ x ∈ rep.modelNames, ∃ c w,
      d.get? x = some (.model ((rep.results.get? x).getD []) c w) := by
    intro x hx
    obtain ⟨sc, c, w, e1, e2, -⟩ := C74_models rep d hd x hx
    exact ⟨c, w, by rw [e1, e2]; rfl⟩
  have hloop := scoresLoop_ok d rep.modelNames hnod (fun x => (rep.results.get? x).getD []) hmodel [] (by
    simp [Dict.keys])
  rw [List.nil_append] at hloop
  have hsome : ∀ x ∈ rep.modelNames, ∃ res, rep.results.get? x = some res := by
    intro x hx
    obtain ⟨sc, c, w, -, e2, -⟩ := C74_models rep d hd x hx
    exact ⟨sc, e2⟩
  have hkk : Dict.keys (rep.modelNames.map (fun x => (x, (rep.results.get? x).getD []))) = rep.modelNames := by
    simp [Dict.keys, Function.comp_def]
  have hdn : NodupKeys (rep.modelNames.map (fun x => (x, (rep.results.get? x).getD []))) := by
    change (Dict.keys _).Nodup
    rw [hkk]; exact hnod
  have hlenN : rep.modelNames.length = runs.length := by rw [hn1, modelNames_eq]; simp
  have hfr := frameOf_eq (rep.modelNames.map (fun x => (x, (rep.results.get? x).getD []))) ms hdn hms hnd
    (by
      intro p hp
      obtain ⟨x, hx, rfl⟩ := List.mem_map.1 hp
      obtain ⟨res, hres⟩ := hsome x hx
      simp only [hres, Option.getD_some]
      exact hkeys x res hres)
    (by
      intro hc0
      have := congrArg List.length hc0
      rw [List.length_map, hlenN] at this
      exact hruns (List.eq_nil_of_length_eq_zero this))
  refine ⟨frameOf (rep.modelNames.map (fun x => (x, (rep.results.get? x).getD []))), ?_, by rw [hfr], by rw [hfr, hkk]; simpa using hlenN, ?_⟩
  · unfold Report.toDataframe
    rw [hd]
    simp only
    rw [hnames]
    simp only
    rw [hloop]
  · intro i r hir
    rw [hfr, hkk]
    have hni : rep.modelNames[i]? = some (modelName i r) := by
      rw [hn1]; simp [modelNames_eq, List.getElem?_zipIdx, hir]
    have hmem : modelName i r ∈ rep.modelNames := List.mem_of_getElem? hni
    obtain ⟨res, hres⟩ := hsome _ hmem
    have hget : Dict.get? (rep.modelNames.map (fun x => (x, (rep.results.get? x).getD []))) (modelName i r) =
        some res := by
      rw [get?_of_mem hdn (List.mem_map.2 ⟨modelName i r, hmem, rfl⟩), hres]; rfl
    refine ⟨ms.map (fun c => (Dict.get? res c).getD .nan), ?_, by simp, ?_⟩
    · rw [List.getElem?_map, hni, Option.map_some, hget]
      rfl
    · intro k m hkm
      obtain ⟨x, hx, hev⟩ := C85_compare_is_evaluate F other SQ SR hash sched E mc test n maxP s runs ms hc rep q' rs'
        h i r hir m (List.mem_of_getElem? hkm)
      refine ⟨x, ?_, hev⟩
      unfold Report.score at hx
      rw [hres, Option.bind_some] at hx
      rw [List.getElem?_map, hkm, Option.map_some]
      cases hg : Dict.get? res m with
      | none => rw [hg] at hx; cases hx
      | some y => rw [hg] at hx; cases hx; rfl

/-- **C109 refuted** for a model called "model_names": whatever is compared, the export fails (unless there are
also models called "scores", "comparisons" and "win_tie_loss"). -/
theorem C109_refuted (r : Report α) (d : Dict Str (Entry α)) (h : r.toDict = .ok d)
    (hm : "model_names".toList ∈ r.modelNames) (hs : "scores".toList ∉ r.modelNames) :
    r.toDataframe = .error .keyError := by
  obtain ⟨sc, c, w, e1, -, -⟩ := C74_models r d h _ hm
  unfold Report.toDataframe
  rw [h]
  simp only
  have hn : modelNamesOf d = .ok ["scores".toList, "comparisons".toList, "win_tie_loss".toList] := by
    unfold modelNamesOf; rw [e1]
  rw [hn]
  simp only
  have n1 : ¬ ("stat_test".toList = "scores".toList) := by decide +kernel
  have n2 : ¬ ("metrics".toList = "scores".toList) := by decide +kernel
  have n3 : ¬ ("model_names".toList = "scores".toList) := by decide +kernel
  have hnone : d.get? "scores".toList = none := by
    rw [(dictLoop_spec r r.modelNames _ d h _).2 hs]
    unfold Dict.get?
    rw [if_neg n1]
    unfold Dict.get?
    rw [if_neg n2]
    unfold Dict.get?
    rw [if_neg n3]
    rfl
  unfold scoresLoop
  rw [hnone]

end

/-- Non-vacuity of C109_frame_partial (and the repeated scores are those of `exReport_values`). -/
example : ((exCompare "student" [exBm25, exAnon]).bind fun r => r.toDataframe) =
    .ok ⟨["model_names".toList, "precision@2".toList, "recall@2".toList],
      [("bm25".toList, [.val (1/4), .val (1/4)]), ("run_2".toList, [.val (3/4), .val 1])]⟩ := by
  decide +kernel

/-- Non-vacuity of C109_refuted -/
example : ((exCompare "student" [⟨some "model_names".toList, exRunObj⟩, exAnon]).bind fun r => r.toDataframe) =
    .error .keyError := by
  decide +kernel

end Ranx
