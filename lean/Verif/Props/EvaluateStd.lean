import Verif.Props.Evaluate2
import Verif.Props.MetricString

/-!
# C30, C32, C33, continued: negative cut-offs, several metrics, standard deviations, dict runs
-/

set_option linter.unusedSectionVars false

namespace Ranx
open Dict Eval Py Store Metrics
variable {κ δ ι α : Type*}

section
variable [LinearOrder ι] [Field α] [LinearOrder α]

/-- **C30** (negative cut-offs): `m@-1`, `m@-2`, … raise, for every metric that has a cut-off. -/
theorem C30_negative_cutoff (F : Fn α) (other : Str → Except Err α) (m : Str) (hm : Spec.PlainName m)
    (met : Metric) (hmet : (m, met) ∈ metricTable) (h1 : met ≠ .rPrecision) (h2 : met ≠ .bpref)
    (n : Nat) : (metricOf F other (m ++ '@' :: '-' :: natStr (n + 1)) : Except Err (Kernel ι α))
      = .error .assertionError := by
  have hl : ¬ "-l".toList <:+: m ++ '@' :: '-' :: natStr (n + 1) := by
    intro hi
    rcases infix_append_cons (by decide) hi with h | h
    · exact hm.noLevel h
    · have h' : "-l".toList <:+: ([] : Str) ++ '-' :: natStr (n + 1) := h
      have hd : 'l' ∉ ('-' :: natStr (n + 1)) := by
        rw [List.mem_cons, not_or]
        exact ⟨by decide, not_mem_digits (by decide) _⟩
      exact hd (h.subset (by decide))
  have hr : ¬ "rbp".toList <:+: m ++ '@' :: '-' :: natStr (n + 1) := by
    intro hi
    rcases infix_append_cons (by decide) hi with h | h
    · exact hm.noRbp h
    · have hd : 'r' ∉ ('-' :: natStr (n + 1)) := by
        rw [List.mem_cons, not_or]
        exact ⟨by decide, not_mem_digits (by decide) _⟩
      exact hd (h.subset (by decide))
  have hat : '@' ∉ ('-' :: natStr (n + 1)) := by
    rw [List.mem_cons, not_or]
    exact ⟨by decide, not_mem_digits (by decide) _⟩
  have hz : pyIntE ('-' :: natStr (n + 1)) = .ok (Int.negSucc n) := by
    have := pyInt_intStr (Int.negSucc n)
    unfold pyIntE
    have e : intStr (Int.negSucc n) = '-' :: natStr (n + 1) := rfl
    rw [e] at this
    rw [this]
  have hex : extract other (m ++ '@' :: '-' :: natStr (n + 1)) = .ok (m, .cutoff (Int.negSucc n), 1) := by
    unfold extract
    rw [hasSub_false hl]
    simp only [Bool.false_eq_true, if_false]
    rw [hasSub_false hr]
    simp only [Bool.false_eq_true, if_false]
    rw [splitChar_append _ _ _ hm.noAt, splitChar_of_notMem _ _ hat]
    simp only
    rw [hz]
  have hsw : metricSwitch m = .ok met := ((C30_switch m).1 met).2 hmet
  have hrbp : met ≠ .rbp := by
    rintro rfl
    have : m = "rbp".toList := by
      have key : ∀ p ∈ metricTable, p.2 = Metric.rbp → p.1 = "rbp".toList := by decide +kernel
      exact key _ hmet rfl
    exact hm.noRbp (this ▸ ⟨[], [], by simp⟩)
  unfold metricOf
  rw [hex]
  simp only
  rw [hsw]
  simp only
  cases met <;> first | rfl | exact absurd rfl h1 | exact absurd rfl h2 | exact absurd rfl hrbp

end

section
variable [LinearOrder κ] [DecidableEq δ] [LinearOrder ι] [Field α] [LinearOrder α] [IsStrictOrderedRing α]

theorem std_map_val (F : Fn α) (l : List α) (hl : l ≠ []) : std F (l.map .val) =
    .val (F.sqrt ((l.map (fun s => (s - l.sum / (l.length : α)) ^ 2)).sum / (l.length : α))) := by
  unfold std
  rw [vals_map_val]
  cases l with
  | nil => exact absurd rfl hl
  | cons x t => rfl

theorem std_fold (F : Fn α) (d : Dict Str (List (Num α))) (hd : NodupKeys d)
    (r : RunObj κ δ α) (m : Str) :
    (d.foldl (fun r p => saveOne F true r p.1 p.2) r).stdScores.get? m =
      match d.get? m with
      | some s => some (std F s)
      | none => r.stdScores.get? m := by
  induction d generalizing r with
  | nil => rfl
  | cons p t ih =>
    rw [nodupKeys_cons] at hd
    rw [List.foldl_cons, ih hd.2, get?_cons]
    have hs : (saveOne F true r p.1 p.2).stdScores.get? m =
        if p.1 = m then some (std F p.2) else r.stdScores.get? m := by
      unfold saveOne; simp only [if_true]; rw [get?_set]
    by_cases hm : p.1 = m
    · subst hm
      rw [get?_eq_none.2 hd.1, if_pos rfl, hs, if_pos rfl]
    · rw [if_neg hm, hs, if_neg hm]

theorem std_fold_false (F : Fn α) (d : Dict Str (List (Num α))) (r : RunObj κ δ α) :
    (d.foldl (fun r p => saveOne F false r p.1 p.2) r).stdScores = r.stdScores := by
  induction d generalizing r with
  | nil => rfl
  | cons p t ih => rw [List.foldl_cons, ih]; rfl

/-- the scores computed for a metric are the saved ones, query by query -/
theorem saved_list (F : Fn α) (other : Str → Except Err α) (SQ : ArgSort Int) (SR : ArgSort α)
    (hash : δ → ι) (sched : Nat → List Nat) (o : Opts) (ho : o.save = true) (s : Store κ δ Int)
    (r : RunObj κ δ α) (ms : List Str) (m : Str) (hm : m ∈ ms)
    (hs : Spec.Usable SQ s) (hr : Spec.Usable SR r.store)
    (hsched : ∀ i, Schedule s.data.length (sched i))
    (after : After κ δ α) (out : Out α)
    (h : evaluate F other SQ SR hash sched o (.obj s) (.obj r) ms = (after, .ok out))
    (r' : RunObj κ δ α) (hafter : after.run = .obj r')
    (g : κ → α) (hg : ∀ q ∈ s.data.keys, r'.saved m q = some (.val (g q))) :
    ∃ d, Success F other SQ SR hash o s r ms after out d ∧ ∃ qs : List κ, qs.Perm s.data.keys ∧
      d.get? m = some ((qs.map g).map .val) := by
  obtain ⟨d, hd⟩ := success F other SQ SR hash sched o s r ms hs hr hsched h
  obtain ⟨f, hf, l, hl, hlen, hq⟩ := hd.query hs hr hm
  have hs' := hs.ok
  obtain ⟨w1, -, k1, -, o1, l1⟩ := ensureSorted_facts SQ s hs'.1 hs'.2
  have w1k : (s.ensureSorted SQ).data.keys.Nodup := w1.1
  have hsk : s.data.keys.Nodup := hs'.1.1
  have hst := hd.state
  rw [hst] at hafter
  simp only [RunArg.obj.injEq] at hafter
  have hperm : (s.ensureSorted SQ).data.keys.Perm s.data.keys := by
    exact (List.perm_ext_iff_of_nodup w1k hsk).2 k1
  refine ⟨d, hd, (s.ensureSorted SQ).data.keys, hperm, ?_⟩
  rw [hl, List.map_map]
  congr 1
  apply List.ext_getElem?
  intro i
  by_cases hi : i < (s.ensureSorted SQ).data.keys.length
  · rw [List.getElem?_map, List.getElem?_eq_getElem hi]
    have hmem : (s.ensureSorted SQ).data.keys[i] ∈ s.data.keys := (k1 _).1 (List.getElem_mem hi)
    obtain ⟨jl, rl, v, -, -, hv, hv'⟩ := hq _ hmem
    rw [List.Nodup.idxOf_getElem w1k] at hv'
    have hsv := hg _ hmem
    have : r'.saved m (s.ensureSorted SQ).data.keys[i] = some v := by
      have hr' := comparable_ok SR o s r hr.ok
      obtain ⟨w2, -, k2, -, o2, l2⟩ := ensureSorted_facts SR (comparable SR o s r) hr'.1 hr'.2
      have hlen' : ((comparable SR o s r).ensureSorted SR).data.length = s.data.length := by
        have := congrArg List.length hd.keys
        simp only [length_keys] at this
        omega
      rw [← hafter]
      unfold saveAll
      rw [if_pos ho, saved_fold F _ d hd.nodup]
      · simp only
        rw [← hd.keys, if_pos (List.getElem_mem hi), hl]
        simp only
        rw [List.Nodup.idxOf_getElem w1k]; exact hv'
      · exact w2.1
      · intro p hp
        obtain ⟨f', hf', hz⟩ := hd.scores p.1 p.2 (get?_of_mem hd.nodup hp)
        have := congrArg List.length hz
        simp [Store.rows, hlen', l1] at this
        rw [hlen']; exact this.symm
    rw [this] at hsv
    rw [hv', hsv]; rfl
  · rw [List.getElem?_eq_none (by rw [hlen]; simp [l1] at hi; omega),
      List.getElem?_eq_none (by simpa using hi)]

/-- Specification: mean and (population) standard deviation of the values of `g` over the queries `qs`. -/
def Spec.meanOver (qs : List κ) (g : κ → α) : α := (qs.map g).sum / (qs.length : α)

/-- the population variance -/
def Spec.varianceOver (qs : List κ) (g : κ → α) : α :=
  (qs.map (fun q => (g q - Spec.meanOver qs g) ^ 2)).sum / (qs.length : α)

theorem mean_std_perm (F : Fn α) {qs qs' : List κ} (hp : qs.Perm qs') (hne : qs' ≠ []) (g : κ → α) :
    mean ((qs.map g).map .val) = .val (Spec.meanOver qs' g) ∧
    std F ((qs.map g).map .val) = .val (F.sqrt (Spec.varianceOver qs' g)) := by
  have hne' : qs.map g ≠ [] := by
    intro hc
    have := congrArg List.length hc
    rw [List.length_map, hp.length_eq] at this
    exact hne (List.eq_nil_of_length_eq_zero this)
  have hm : (qs.map g).sum / ((qs.map g).length : α) = Spec.meanOver qs' g := by
    unfold Spec.meanOver
    rw [(hp.map g).sum_eq, List.length_map, hp.length_eq]
  constructor
  · rw [mean_map_val _ hne', hm]
  · rw [std_map_val F _ hne', hm]
    unfold Spec.varianceOver
    rw [List.map_map, List.length_map, hp.length_eq]
    congr 3
    exact (hp.map _).sum_eq

/-- **C32** (any list of metrics, with `return_std`): for every requested metric the reported value is the
mean and the population standard deviation of the saved scores of the judged queries, and
`run.mean_scores[m]` and `run.std_scores[m]` store these two. -/
theorem C32_std (F : Fn α) (other : Str → Except Err α) (SQ : ArgSort Int) (SR : ArgSort α)
    (hash : δ → ι) (sched : Nat → List Nat) (o : Opts) (ho : o.save = true) (hmean : o.returnMean = true)
    (hstd : o.returnStd = true) (s : Store κ δ Int)
    (r : RunObj κ δ α) (ms : List Str) (m : Str) (hm : m ∈ ms) (hs : Spec.Usable SQ s)
    (hr : Spec.Usable SR r.store)
    (hsched : ∀ i, Schedule s.data.length (sched i)) (hne : s.data ≠ [])
    (after : After κ δ α) (out : Out α)
    (h : evaluate F other SQ SR hash sched o (.obj s) (.obj r) ms = (after, .ok out))
    (r' : RunObj κ δ α) (hafter : after.run = .obj r')
    (g : κ → α) (hg : ∀ q ∈ s.data.keys, r'.saved m q = some (.val (g q))) :
    Spec.Reports ms out m (.meanStd (.val (Spec.meanOver s.data.keys g))
      (.val (F.sqrt (Spec.varianceOver s.data.keys g)))) ∧
    r'.meanScores.get? m = some (.val (Spec.meanOver s.data.keys g)) ∧
    r'.stdScores.get? m = some (.val (F.sqrt (Spec.varianceOver s.data.keys g))) := by
  obtain ⟨d, hd, qs, hp, hl⟩ := saved_list F other SQ SR hash sched o ho s r ms m hm hs hr hsched after out h r'
    hafter g hg
  have hne' : s.data.keys ≠ [] := by
    intro hc
    have := congrArg List.length hc
    rw [length_keys] at this
    exact hne (List.eq_nil_of_length_eq_zero this)
  obtain ⟨e1, e2⟩ := mean_std_perm F hp hne' g
  have hst := hd.state
  rw [hst] at hafter
  simp only [RunArg.obj.injEq] at hafter
  refine ⟨?_, ?_, ?_⟩
  · have := reports_of_outOf F other o true d ms out hd.result hd.metrics m _ hl
    unfold present at this
    rw [if_pos hmean] at this
    have hb : (o.returnMean && o.returnStd) = true := by rw [hmean, hstd]; rfl
    rw [if_pos hb, e1, e2] at this
    exact this
  · rw [← hafter]
    unfold saveAll
    rw [if_pos ho, mean_fold F _ d hd.nodup, hl]
    simp only
    rw [e1]
  · rw [← hafter]
    unfold saveAll
    rw [if_pos ho]
    have hb : (o.returnMean && o.returnStd) = true := by rw [hmean, hstd]; rfl
    rw [hb, std_fold F d hd.nodup, hl]
    simp only
    rw [e2]

/-- **C32** (any list of metrics, without `return_std`): every requested metric is reported by its mean, the
mean is stored, and the stored standard deviations are left alone. -/
theorem C32_means (F : Fn α) (other : Str → Except Err α) (SQ : ArgSort Int) (SR : ArgSort α)
    (hash : δ → ι) (sched : Nat → List Nat) (o : Opts) (ho : o.save = true) (hmean : o.returnMean = true)
    (hstd : o.returnStd = false) (s : Store κ δ Int)
    (r : RunObj κ δ α) (ms : List Str) (m : Str) (hm : m ∈ ms) (hs : Spec.Usable SQ s)
    (hr : Spec.Usable SR r.store)
    (hsched : ∀ i, Schedule s.data.length (sched i)) (hne : s.data ≠ [])
    (after : After κ δ α) (out : Out α)
    (h : evaluate F other SQ SR hash sched o (.obj s) (.obj r) ms = (after, .ok out))
    (r' : RunObj κ δ α) (hafter : after.run = .obj r')
    (g : κ → α) (hg : ∀ q ∈ s.data.keys, r'.saved m q = some (.val (g q))) :
    Spec.Reports ms out m (.mean (.val (Spec.meanOver s.data.keys g))) ∧
    r'.meanScores.get? m = some (.val (Spec.meanOver s.data.keys g)) ∧
    r'.stdScores = r.stdScores := by
  obtain ⟨d, hd, qs, hp, hl⟩ := saved_list F other SQ SR hash sched o ho s r ms m hm hs hr hsched after out h r'
    hafter g hg
  have hne' : s.data.keys ≠ [] := by
    intro hc
    have := congrArg List.length hc
    rw [length_keys] at this
    exact hne (List.eq_nil_of_length_eq_zero this)
  obtain ⟨e1, e2⟩ := mean_std_perm F hp hne' g
  have hst := hd.state
  rw [hst] at hafter
  simp only [RunArg.obj.injEq] at hafter
  have hb : (o.returnMean && o.returnStd) = false := by rw [hmean, hstd]; rfl
  refine ⟨?_, ?_, ?_⟩
  · have := reports_of_outOf F other o true d ms out hd.result hd.metrics m _ hl
    unfold present at this
    rw [if_pos hmean, if_neg (by rw [hb]; decide), e1] at this
    exact this
  · rw [← hafter]
    unfold saveAll
    rw [if_pos ho, mean_fold F _ d hd.nodup, hl]
    simp only
    rw [e1]
  · rw [← hafter]
    unfold saveAll
    rw [if_pos ho, hb, std_fold_false]

/-- **C33 refuted for dict runs**: with `return_mean=False` a run given as a dictionary and a single
parameterised metric string never return, whether or not results are to be saved. -/
theorem C33_key_error_dict (F : Fn α) (other : Str → Except Err α) (SQ : ArgSort Int) (SR : ArgSort α)
    (hash : δ → ι) (sched : Nat → List Nat) (o : Opts) (hm : o.returnMean = false)
    (qrels : QrelsArg κ δ α) (b : Dict κ (Dict δ α)) (m name : Str) (p : Param α) (L : Int)
    (hparse : extract other m = .ok (name, p, L)) (hne : name ≠ m) :
    ∀ after out, evaluate F other SQ SR hash sched o qrels (.dict b) [m] ≠ (after, .ok out) := by
  intro after out h
  have hp : prepare SR o qrels (RunArg.dict b) = RunArg.dict b := by
    unfold prepare
    split
    · cases qrels <;> rfl
    · rfl
  unfold evaluate at h
  rw [hp] at h
  simp only at h
  by_cases hk : (!sameKeys qrels.keys (RunArg.dict b : RunArg κ δ α).keys) = true
  · replace h := (if_pos hk).symm.trans h
    cases h
  replace h := (if_neg hk).symm.trans h
  cases hq : convertQrels SQ SR hash qrels with
  | error e => rw [hq] at h; cases h
  | ok qp =>
    obtain ⟨q', ql⟩ := qp
    rw [hq] at h
    simp only [convertRun] at h
    cases hb : dictToTypedList SR hash b with
    | error e => rw [hb] at h; cases h
    | ok rl =>
      rw [hb] at h
      simp only at h
      cases hd : scoreAll F other sched ql rl [m].zipIdx [] with
      | error e => rw [hd] at h; cases h
      | ok d =>
        rw [hd] at h
        simp only at h
        have hdk : d.keys = [m] := by
          simp only [List.zipIdx_cons, List.zipIdx_nil, scoreAll] at hd
          cases hf : (metricOf F other m : Except Err (Kernel ι α)) with
          | error e => rw [hf] at hd; cases hd
          | ok f =>
            rw [hf] at hd
            simp only at hd
            cases hpar : parallel f (sched 0) ql rl with
            | error e => rw [hpar] at hd; cases hd
            | ok sc => rw [hpar] at hd; cases hd; rfl
        have hlast : lastM other o false m = name := by
          unfold lastM
          rw [if_neg (by simp [hm]), hparse]
        rw [hlast, get?_map_val] at h
        have hnone : d.get? name = none := by
          rw [get?_eq_none, hdk]; simpa using hne
        rw [hnone] at h
        cases h

end

/-- Non-vacuity of C32_std: two metrics with standard deviations (`ratFn` takes the variance for the standard
deviation, so that the numbers stay rational); the scores of the two judged queries are 1/2 and 0. -/
example :
    (evaluate (ι := Nat) ratFn (fun _ => .error .valueError) (ArgSort.stable Int)
      (ArgSort.stable ℚ) id (fun _ => [1, 0]) { makeComparable := true, returnStd := true }
      (.obj exQrelsObj) (.obj exRunObj) ["precision@2".toList]).2 =
        .ok (.single (.meanStd (.val (1/4)) (.val (1/16)))) ∧
    (match (evaluate (ι := Nat) ratFn (fun _ => .error .valueError) (ArgSort.stable Int)
      (ArgSort.stable ℚ) id (fun _ => [1, 0]) { makeComparable := true, returnStd := true }
      (.obj exQrelsObj) (.obj exRunObj) ["precision@2".toList]).1.run with
      | .obj r => some (r.saved "precision@2".toList 1, r.saved "precision@2".toList 2,
          r.stdScores.get? "precision@2".toList)
      | .dict _ => none) = some (some (.val (1/2)), some (.val 0), some (.val (1/16))) ∧
    Spec.meanOver exQrelsObj.data.keys (fun q => if q = 1 then (1/2 : ℚ) else 0) = 1/4 ∧
    Spec.varianceOver exQrelsObj.data.keys (fun q => if q = 1 then (1/2 : ℚ) else 0) = 1/16 := by
  refine ⟨?_, ?_, ?_, ?_⟩ <;> decide +kernel

/-- Non-vacuity of C33_key_error_dict -/
example : (evaluate (κ := Nat) (δ := Nat) (ι := Nat) ratFn (fun _ => .error .valueError) (ArgSort.stable Int)
      (ArgSort.stable ℚ) id (fun _ => [0]) { returnMean := false }
      (.obj ⟨[(1, [(10, 1)])], true⟩) (.dict [(1, [(10, 1)])]) ["precision@2".toList]).2 = .error .keyError := by
  decide +kernel

/-- Non-vacuity of C30_negative_cutoff -/
example : (metricOf ratFn (fun _ => .error .valueError) "ndcg@-3".toList : Except Err (Kernel Nat ℚ)) =
    .error .assertionError := C30_negative_cutoff ratFn _ "ndcg".toList
      ⟨by decide +kernel, by decide +kernel, by decide +kernel⟩ .ndcg (by decide +kernel) (by decide) (by decide) 2

end Ranx
