import Verif.Model.Report
import Verif.Props.Evaluate

/-! # Lemmas: `compare` -/

set_option linter.unusedSectionVars false

namespace Ranx
open Dict Store Eval Metrics Py Stat Rep
variable {κ δ ι α : Type*}
variable [LinearOrder κ] [DecidableEq δ] [LinearOrder ι] [Field α] [LinearOrder α]
  [IsStrictOrderedRing α]

theorem perm_of_get? {ν : Type*} {a b : Dict κ ν} (ha : NodupKeys a) (hb : NodupKeys b)
    (h : ∀ x, a.get? x = b.get? x) : a.Perm b := by
  have na : a.Nodup := List.Nodup.of_map Prod.fst ha
  have nb : b.Nodup := List.Nodup.of_map Prod.fst hb
  refine (List.perm_ext_iff_of_nodup na nb).2 ?_
  intro p
  obtain ⟨k, v⟩ := p
  rw [← get?_eq_some_iff ha, ← get?_eq_some_iff hb, h]

theorem sortDictByKey_congr {ν : Type*} {a b : Dict κ ν} (ha : NodupKeys a) (hb : NodupKeys b)
    (h : ∀ x, a.get? x = b.get? x) : sortDictByKey a = sortDictByKey b := by
  have hp : (sortDictByKey a).Perm (sortDictByKey b) :=
    (sortDictByKey_perm ha).trans ((perm_of_get? ha hb h).trans (sortDictByKey_perm hb).symm)
  have s1 := sortDictByKey_sorted ha
  have s2 := sortDictByKey_sorted hb
  refine List.Perm.eq_of_pairwise (le := fun p q => p.1 < q.1) ?_ s1 s2 hp
  intro x y _ _ h1 h2
  exact absurd h1 (not_lt.2 h2.le)

theorem sortAll_congr (S : ArgSort α) {a b : Dict κ (Dict δ α)} (ha : Wf a) (hb : Wf b)
    (h : ∀ x, a.get? x = b.get? x) : sortAll S a = sortAll S b := by
  rw [sortAll_eq S ha.1, sortAll_eq S hb.1, sortDictByKey_congr ha.1 hb.1 h]

theorem makeComparable_congr (S : ArgSort α) (s : Store κ δ α) (qs qs' : List κ) (h : Wf s.data)
    (hq : ∀ q, q ∈ qs ↔ q ∈ qs') : s.makeComparable S qs = s.makeComparable S qs' := by
  obtain ⟨d, hw, hg, he⟩ := makeComparable_spec S s qs h
  obtain ⟨d', hw', hg', he'⟩ := makeComparable_spec S s qs' h
  rw [he, he', sortAll_congr S hw hw']
  intro x
  rw [hg, hg']
  by_cases hx : x ∈ qs
  · rw [if_pos hx, if_pos ((hq x).1 hx)]
  · rw [if_neg hx, if_neg (fun hc => hx ((hq x).2 hc))]

/-- evaluating against sorted qrels gives the same result -/
theorem evaluate_ensureSorted (F : Fn α) (other : Str → Except Err α) (SQ : ArgSort Int) (SR : ArgSort α)
    (hash : δ → ι) (sched : Nat → List Nat) (o : Opts) (s : Store κ δ Int) (r : RunObj κ δ α)
    (ms : List Str) (hs : Wf s.data) (hr : Wf r.store.data) (after : After κ δ α) (out : Out α) :
    evaluate F other SQ SR hash sched o (.obj (s.ensureSorted SQ)) (.obj r) ms = (after, .ok out) ↔
    evaluate F other SQ SR hash sched o (.obj s) (.obj r) ms = (after, .ok out) := by
  have hk := ensureSorted_keys_sameKeys SQ s hs
  have hcomp : comparable SR o (s.ensureSorted SQ) r = comparable SR o s r := by
    unfold comparable
    by_cases hm : o.makeComparable = true
    · rw [if_pos hm, if_pos hm, makeComparable_congr SR r.store _ _ hr hk]
    · rw [if_neg hm, if_neg hm]
  have hsame : sameKeys (s.ensureSorted SQ).data.keys (comparable SR o s r).data.keys =
      sameKeys s.data.keys (comparable SR o s r).data.keys := by
    unfold sameKeys
    rw [Bool.eq_iff_iff]
    simp only [Bool.and_eq_true, List.all_eq_true, List.contains_iff_mem, hk]
  rw [evaluate_obj, evaluate_obj, hcomp, hsame, ensureSorted_idem]
  by_cases h : sameKeys s.data.keys (comparable SR o s r).data.keys = true
  · rw [if_pos h, if_pos h]
  · rw [if_neg h, if_neg h]
    simp

/-- the options `compare` passes to `evaluate` -/
def cmpOpts (mc : Bool) : Opts := { returnMean := false, makeComparable := mc }

/-- `evaluate(qrels, run, m, return_mean=False, make_comparable=mc)` returns the scores `l` -/
def Spec.PerQuery (F : Fn α) (other : Str → Except Err α) (SQ : ArgSort Int) (SR : ArgSort α)
    (hash : δ → ι) (mc : Bool) (s : Store κ δ Int) (r : RunObj κ δ α) (m : Str) (l : List (Num α)) : Prop :=
  ∃ after, evaluate F other SQ SR hash (fun _ => List.range s.data.length) (cmpOpts mc)
    (.obj s) (.obj r) [m] = (after, .ok (.single (.scores l)))

theorem perQuery_of_success (F : Fn α) (other : Str → Except Err α) (SQ : ArgSort Int) (SR : ArgSort α)
    (hash : δ → ι) (mc : Bool) (s : Store κ δ Int) (r : RunObj κ δ α) (ms : List Str)
    (hs : Wf s.data ∧ FlagOk s) (after : After κ δ α) (out : Out α)
    (d : Dict Str (List (Num α))) (h : Success F other SQ SR hash (cmpOpts mc) s r ms after out d)
    (hk : sameKeys s.data.keys (comparable SR (cmpOpts mc) s r).data.keys = true)
    (m : Str) (l : List (Num α)) (hl : d.get? m = some l) :
    Spec.PerQuery F other SQ SR hash mc s r m l := by
  obtain ⟨f, hf, hz⟩ := h.scores m l hl
  have hlen : (Store.rows hash id ((comparable SR (cmpOpts mc) s r).ensureSorted SR).data).length =
      (Store.rows hash (fun z : Int => (z : α)) (s.ensureSorted SQ).data).length := by
    have := congrArg List.length h.keys
    simp only [length_keys] at this
    simp [Store.rows, this]
  have hql : (Store.rows hash (fun z : Int => (z : α)) (s.ensureSorted SQ).data).length =
      s.data.length := by
    have := (ensureSorted_facts SQ s hs.1 hs.2).2.2.2.2.2
    simp [Store.rows, this]
  have hsc : scoreAll F other (fun _ => List.range s.data.length)
      (Store.rows hash (fun z : Int => (z : α)) (s.ensureSorted SQ).data)
      (Store.rows hash id ((comparable SR (cmpOpts mc) s r).ensureSorted SR).data) ([m] : List Str).zipIdx [] =
      .ok [(m, l)] := by
    show scoreAll F other _ _ _ [(m, 0)] [] = _
    unfold scoreAll
    rw [hf]
    simp only
    rw [parallel_eq f _ _ _ (by rw [hql]; exact schedule_range _) hlen, (collect_ok_iff _ _).2 hz]
    rfl
  have hout : outOf F other (cmpOpts mc) true [(m, l)] [m] = .ok (.single (.scores l)) := by
    unfold outOf
    simp only
    have hlast : lastM other (cmpOpts mc) true m = m := by unfold lastM; simp [cmpOpts]
    rw [hlast]
    simp [Dict.get?, present, cmpOpts]
  unfold Spec.PerQuery
  rw [evaluate_obj, if_pos hk, hsc]
  simp only [hout]
  exact ⟨_, rfl⟩

/-- what a successful call in `compare` has produced -/
theorem asScores_success (F : Fn α) (other : Str → Except Err α) (SQ : ArgSort Int) (SR : ArgSort α)
    (hash : δ → ι) (mc : Bool) (s : Store κ δ Int) (r : RunObj κ δ α) (ms : List Str)
    (after : After κ δ α) (out : Out α)
    (d : Dict Str (List (Num α))) (h : Success F other SQ SR hash (cmpOpts mc) s r ms after out d)
    (m : Str) : (asScores ms out).get? m = d.get? m := by
  have hr := h.result
  unfold outOf at hr
  have hp : ∀ l : List (Num α), present F (cmpOpts mc) ((cmpOpts mc).returnMean && (cmpOpts mc).returnStd) l =
      .scores l := by intro l; rfl
  match ms, hr with
  | [], hr =>
    simp only [Except.ok.injEq] at hr
    rw [← hr]
    simp only [asScores, List.map_map, Function.comp_def, hp, valueList]
    simp
  | [m'], hr =>
    simp only at hr
    have hlast : lastM other (cmpOpts mc) true m' = m' := by unfold lastM; simp [cmpOpts]
    rw [hlast, get?_map_val] at hr
    cases hg : d.get? m' with
    | none => rw [hg] at hr; cases hr
    | some l =>
      rw [hg] at hr
      simp only [Option.map_some, Except.ok.injEq] at hr
      rw [← hr]
      have hps := hp l
      simp only [asScores, List.take_one, List.head?_cons, Option.toList_some, List.map_cons,
        List.map_nil, hps, valueList]
      by_cases hm : m' = m
      · subst hm; simp [Dict.get?, hg]
      · have : m ∉ d.keys := by
          rw [h.metrics]; simpa using fun hc => hm hc.symm
        rw [get?_eq_none.2 this]
        simp [Dict.get?, hm]
  | m1 :: m2 :: t, hr =>
    simp only [Except.ok.injEq] at hr
    rw [← hr]
    simp only [asScores, List.map_map, Function.comp_def, hp, valueList]
    simp

theorem sameKeys_of_success (F : Fn α) (other : Str → Except Err α) (SQ : ArgSort Int) (SR : ArgSort α)
    (hash : δ → ι) (sched : Nat → List Nat) (o : Opts) (s : Store κ δ Int) (r : RunObj κ δ α)
    (ms : List Str) (after : After κ δ α) (out : Out α)
    (h : evaluate F other SQ SR hash sched o (.obj s) (.obj r) ms = (after, .ok out)) :
    sameKeys s.data.keys (comparable SR o s r).data.keys = true := by
  by_contra hk
  rw [evaluate_obj, if_neg hk] at h
  simp at h

theorem means_ok (d : Dict Str (List (Num α))) (ms : List Str) (acc x : Dict Str (Num α))
    (h : means d ms acc = .ok x) :
    ∀ m, x.get? m = if m ∈ ms then (d.get? m).map mean else acc.get? m := by
  induction ms generalizing acc with
  | nil => cases h; intro m; simp
  | cons m' t ih =>
    unfold means at h
    cases hd : d.get? m' with
    | none => rw [hd] at h; cases h
    | some l =>
      rw [hd] at h
      intro m
      rw [ih _ h m, get?_set]
      by_cases h1 : m ∈ t
      · simp [h1]
      · by_cases h2 : m' = m
        · subst h2; simp [h1, hd]
        · simp [h1, h2, Ne.symm h2]

theorem means_succeeds (d : Dict Str (List (Num α))) (ms : List Str) (acc : Dict Str (Num α))
    (h : ∀ m ∈ ms, m ∈ d.keys) : ∃ x, means d ms acc = .ok x := by
  induction ms generalizing acc with
  | nil => exact ⟨acc, rfl⟩
  | cons m t ih =>
    unfold means
    obtain ⟨l, hl⟩ := Option.isSome_iff_exists.1 (get?_isSome.2 (h m (by simp)))
    rw [hl]
    exact ih _ (fun m hm => h m (by simp [hm]))

/-- one run's part of the comparison -/
structure RunPart (F : Fn α) (other : Str → Except Err α) (SQ : ArgSort Int) (SR : ArgSort α)
    (hash : δ → ι) (mc : Bool) (s : Store κ δ Int) (ms : List Str) (r : RunObj κ δ α)
    (sc : Dict Str (List (Num α))) : Prop where
  keys : ∀ m, m ∈ sc.keys ↔ m ∈ ms
  len : ∀ m l, sc.get? m = some l → l.length = s.data.length
  perQuery : ∀ m l, sc.get? m = some l → Spec.PerQuery F other SQ SR hash mc s r m l

/-- the loop over the runs -/
theorem evalRuns_ok (F : Fn α) (other : Str → Except Err α) (SQ : ArgSort Int) (SR : ArgSort α)
    (hash : δ → ι) (sched : Nat → Nat → List Nat) (mc : Bool) (ms : List Str) (s : Store κ δ Int)
    (hs : Spec.Usable SQ s) (hsched : ∀ i j, Schedule s.data.length (sched i j))
    (runs : List (NamedRun κ δ α × Nat)) (hr : ∀ p ∈ runs, Spec.Usable SR p.1.obj.store)
    (acc a : Acc κ δ α) (hq : acc.qrels = .obj s ∨ acc.qrels = .obj (s.ensureSorted SQ))
    (h : evalRuns F other SQ SR hash sched mc ms runs acc = .ok a)
    (hnd : (acc.names ++ runs.map (fun p => modelName p.2 p.1)).Nodup)
    (hsk : ∀ n ∈ acc.scores.keys, n ∈ acc.names) (hrk : ∀ n ∈ acc.results.keys, n ∈ acc.names) :
    (a.qrels = .obj s ∨ a.qrels = .obj (s.ensureSorted SQ)) ∧
    a.names = acc.names ++ runs.map (fun p => modelName p.2 p.1) ∧
    (∀ n ∈ acc.names, a.scores.get? n = acc.scores.get? n ∧ a.results.get? n = acc.results.get? n) ∧
    (∀ p ∈ runs, ∃ sc, RunPart F other SQ SR hash mc s ms p.1.obj sc ∧
      a.scores.get? (modelName p.2 p.1) = some sc ∧
      (ms ≠ [] → ∃ res, a.results.get? (modelName p.2 p.1) = some res ∧
        ∀ m, res.get? m = (sc.get? m).map mean)) ∧
    (∀ n ∈ a.results.keys, n ∈ a.names) ∧
    (ms ≠ [] → a.results.keys = acc.results.keys ++ runs.map (fun p => modelName p.2 p.1)) := by
  induction runs generalizing acc with
  | nil =>
    cases h
    exact ⟨hq, by simp, fun _ _ => ⟨rfl, rfl⟩, by simp, hrk, by simp⟩
  | cons p t ih =>
    obtain ⟨r, i⟩ := p
    unfold evalRuns at h
    simp only at h
    cases he : evaluate F other SQ SR hash (sched i)
        { returnMean := false, makeComparable := mc } acc.qrels (.obj r.obj) ms with
    | mk after res =>
      rw [he] at h
      cases res with
      | error e => cases h
      | ok out =>
        simp only at h
        have hru := hr (r, i) (by simp)
        have he' : evaluate F other SQ SR hash (sched i) (cmpOpts mc) (.obj s) (.obj r.obj) ms =
            (after, .ok out) := by
          rcases hq with hq | hq
          · rw [hq] at he; exact he
          · rw [hq] at he
            exact (evaluate_ensureSorted F other SQ SR hash (sched i) (cmpOpts mc) s r.obj ms hs.ok.1
              hru.ok.1 after out).1 he
        obtain ⟨d, hd⟩ := success F other SQ SR hash (sched i) (cmpOpts mc) s r.obj ms hs hru
          (hsched i) he'
        have hsame := sameKeys_of_success F other SQ SR hash (sched i) (cmpOpts mc) s r.obj ms after out he'
        have hget := asScores_success F other SQ SR hash mc s r.obj ms after out d hd
        have hpart : RunPart F other SQ SR hash mc s ms r.obj (asScores ms out) := by
          refine ⟨?_, ?_, ?_⟩
          · intro m
            rw [← get?_isSome, hget, get?_isSome, hd.metrics]
          · intro m l hl
            rw [hget] at hl
            obtain ⟨f, hf, l', hl', hlen, -⟩ := hd.query hs hru ((hd.metrics m).1 (get?_isSome.1 (by rw [hl]; rfl)))
            rw [hl] at hl'
            cases hl'
            exact hlen
          · intro m l hl
            rw [hget] at hl
            exact perQuery_of_success F other SQ SR hash mc s r.obj ms hs.ok after out d hd hsame m l hl
        cases hmn : means (asScores ms out) ms ((acc.results.get? (modelName i r)).getD []) with
        | error e => rw [hmn] at h; cases h
        | ok x =>
          rw [hmn] at h
          simp only at h
          simp only [List.map_cons] at hnd
          have hnew : modelName i r ∉ acc.names := by
            intro hc
            have := (List.nodup_append.1 hnd).2.2 _ hc _ (List.mem_cons_self ..)
            exact this rfl
          have hx := means_ok _ _ _ _ hmn
          obtain ⟨g1, g2, g3, g4, g5, g6⟩ := ih (fun p hp => hr p (by simp [hp])) _ (by
              right
              rw [hd.state]) h (by
              simp only [List.append_assoc, List.singleton_append]
              exact hnd) (by
              intro n hn
              simp only [mem_keys_set] at hn
              rcases hn with rfl | hn
              · simp
              · simp [hsk n hn]) (by
              intro n hn
              by_cases hms : ms = []
              · rw [if_pos hms] at hn
                simp [hrk n hn]
              · rw [if_neg hms] at hn
                simp only [mem_keys_set] at hn
                rcases hn with rfl | hn
                · simp
                · simp [hrk n hn])
          refine ⟨g1, ?_, ?_, ?_, g5, ?_⟩
          · rw [g2]; simp
          · intro n hn
            obtain ⟨e1, e2⟩ := g3 n (by simp [hn])
            have hne : modelName i r ≠ n := fun hc => hnew (hc ▸ hn)
            refine ⟨?_, ?_⟩
            · rw [e1, get?_set_ne _ _ hne]
            · rw [e2]
              by_cases hms : ms = []
              · rw [if_pos hms]
              · rw [if_neg hms, get?_set_ne _ _ hne]
          · intro p hp
            rcases List.mem_cons.1 hp with rfl | hp
            · refine ⟨_, hpart, ?_, ?_⟩
              · rw [(g3 (modelName i r) (by simp)).1, get?_set, if_pos rfl]
              · intro hms
                refine ⟨x, ?_, ?_⟩
                · rw [(g3 (modelName i r) (by simp)).2, if_neg hms, get?_set, if_pos rfl]
                · intro m
                  rw [hx m]
                  by_cases hm : m ∈ ms
                  · rw [if_pos hm]
                  · rw [if_neg hm]
                    have h1 : (asScores ms out).get? m = none := by
                      rw [get?_eq_none, hpart.keys]; exact hm
                    have h2 : acc.results.get? (modelName i r) = none :=
                      get?_eq_none.2 (fun hc => hnew (hrk _ hc))
                    rw [h1, h2]; rfl
            · exact g4 p hp
          · intro hms
            rw [g6 hms, if_neg hms, set_of_notMem _ (fun hc => hnew (hrk _ hc))]
            simp [Dict.keys]

end Ranx
