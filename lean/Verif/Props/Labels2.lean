import Verif.Model.Labels
import Verif.Props.Labels
import Verif.Props.Format
import Verif.Props.Optimize

/-!
# C93 (run cards) and C94 (printed optimization reports)
-/

set_option linter.unusedSectionVars false

namespace Ranx
open Dict Py Rep Eval

/-- the metrics a run card knows: those of `Spec.labels` but dcg and dcg_burges -/
def Spec.hubLabels : List (Str × Str) :=
  Spec.labels.filter (fun p => p.1 ≠ "dcg".toList ∧ p.1 ≠ "dcg_burges".toList)

theorem hubLabels_get : ∀ p ∈ Spec.hubLabels, labelIn hubTable p.1 = .ok p.2 := by decide +kernel

theorem hubTable_keys : Dict.keys hubTable = Spec.hubLabels.map Prod.fst := by decide +kernel

theorem cutIn_spec (table : Dict Str Str) (m : Str) (h1 : '@' ∉ m) (k : Option Nat) :
    cutIn table (m ++ Spec.cutText k) = (labelIn table m).map (fun l => l ++ Spec.cutText k) := by
  cases k with
  | none =>
    simp only [Spec.cutText, List.append_nil]
    unfold cutIn
    rw [if_neg h1]
    cases labelIn table m <;> rfl
  | some k =>
    simp only [Spec.cutText]
    unfold cutIn
    rw [if_pos (by simp), splitChar_append _ _ _ h1, splitChar_of_notMem _ _ (at_notMem_natStr k)]
    simp only
    cases labelIn table m <;> rfl

theorem hubLabel_cut (m : Str) (h1 : '@' ∉ m) (h2 : ¬ "-l".toList <:+: m) (k L : Option Nat) :
    hubLabel (Spec.withParams m k L) = (labelIn hubTable m).map (fun l => l ++ Spec.cutText k) := by
  have hcut : ¬ "-l".toList <:+: m ++ Spec.cutText k := by
    cases k with
    | none => simpa [Spec.cutText] using h2
    | some k => exact noLevel_at' h2 k
  unfold Spec.withParams hubLabel
  cases L with
  | none =>
    simp only [Spec.levelText, List.append_nil]
    rw [hasSub_false hcut, if_neg (by decide)]
    exact cutIn_spec hubTable m h1 k
  | some L =>
    rw [if_pos (hasSub_level _ L), split2_level hcut L]
    simp only
    exact cutIn_spec hubTable m h1 k

/-- **C93** (labels): a score is recorded under the label of its metric and its cutoff; the relevance level is
dropped. -/
theorem C93_label (p : Str × Str) (hp : p ∈ Spec.hubLabels) (k L : Option Nat) :
    hubLabel (Spec.withParams p.1 k L) = .ok (Spec.withParams p.2 k none) := by
  have hp' : p ∈ Spec.labels := (List.mem_filter.1 hp).1
  obtain ⟨h1, h2, -, -⟩ := labels_plain p hp'
  rw [hubLabel_cut p.1 h1 (not_infix_of_hasSub h2), hubLabels_get p hp]
  simp [Except.map, Spec.withParams, Spec.levelText]

/-- the loop: each score ends up under its label unless a later metric has the same label -/
theorem hubRecord_spec {α : Type} (l : List (Str × α)) (lab : Str → Str)
    (hl : ∀ p ∈ l, hubLabel p.1 = .ok (lab p.1)) (results : Option (Dict Str α)) :
    ∃ out, hubRecord l results = .ok out ∧
      (∀ x, x ∉ l.map (fun p => lab p.1) → (out.getD []).get? x = (results.getD []).get? x) ∧
      ∀ a p b, l = a ++ p :: b → lab p.1 ∉ b.map (fun p => lab p.1) →
        (out.getD []).get? (lab p.1) = some p.2 := by
  induction l generalizing results with
  | nil => exact ⟨results, rfl, fun _ _ => rfl, by simp⟩
  | cons q t ih =>
    obtain ⟨out, h1, h2, h3⟩ := ih (fun p hp => hl p (by simp [hp])) (some ((results.getD []).set (lab q.1) q.2))
    refine ⟨out, ?_, ?_, ?_⟩
    · rw [show q :: t = (q.1, q.2) :: t from rfl, hubRecord, hl q (by simp)]
      exact h1
    · intro x hx
      simp only [List.map_cons, List.mem_cons, not_or] at hx
      rw [h2 x hx.2, Option.getD_some, get?_set, if_neg (Ne.symm hx.1)]
    · intro a p b e hb
      cases a with
      | nil =>
        obtain ⟨rfl, rfl⟩ := List.cons.inj e
        rw [h2 _ hb, Option.getD_some, get?_set_self]
      | cons a0 a =>
        obtain ⟨rfl, rfl⟩ := List.cons.inj e
        exact h3 a p b rfl hb

/-- **C93**: if all metrics of the run's mean scores have a label and none carries a relevance level, `save`
succeeds; the new card and the archived card hold every mean score under the metric's label, entries under other
labels are kept, and the archive holds the run. -/
theorem C93_recorded_partial {α ρ : Type} (scores : Dict Str α) (hnd : NodupKeys scores)
    (hs : ∀ p ∈ scores, ∃ n ∈ Spec.hubLabels, ∃ k, p.1 = Spec.withParams n.1 k none)
    (card : Option (Dict Str α)) (run : ρ) :
    ∃ card', hubSave scores card run = .ok (card', card', run) ∧
      (∀ n ∈ Spec.hubLabels, ∀ k v, scores.get? (Spec.withParams n.1 k none) = some v →
        (card'.getD []).get? (Spec.withParams n.2 k none) = some v) ∧
      ∀ x, (∀ n ∈ Spec.hubLabels, ∀ k v, scores.get? (Spec.withParams n.1 k none) = some v →
          x ≠ Spec.withParams n.2 k none) → (card'.getD []).get? x = (card.getD []).get? x := by
  classical
  have hlab : ∀ p ∈ scores, hubLabel p.1 = .ok (match hubLabel p.1 with | .ok l => l | .error _ => []) := by
    intro p hp
    obtain ⟨n, hn, k, e⟩ := hs p hp
    rw [e, C93_label n hn]
  obtain ⟨out, h1, h2, h3⟩ := hubRecord_spec scores
    (fun m => match hubLabel m with | .ok l => l | .error _ => []) hlab card
  have hinj : ∀ p ∈ scores, ∀ p' ∈ scores, (match hubLabel p.1 with | .ok l => l | .error _ => []) =
      (match hubLabel p'.1 with | .ok l => l | .error _ => []) → p.1 = p'.1 := by
    intro p hp p' hp' e
    obtain ⟨n, hn, k, e1⟩ := hs p hp
    obtain ⟨n', hn', k', e2⟩ := hs p' hp'
    rw [e1, e2, C93_label n hn, C93_label n' hn'] at e
    have hn1 := (List.mem_filter.1 hn).1
    have hn2 := (List.mem_filter.1 hn').1
    obtain ⟨-, -, a1, a2⟩ := labels_plain n hn1
    obtain ⟨-, -, b1, b2⟩ := labels_plain n' hn2
    obtain ⟨f1, f2, -⟩ := withParams_inj a1 b1 (not_infix_of_hasSub a2) (not_infix_of_hasSub b2) _ _ _ _ e
    rw [e1, e2, labels_inj n hn1 n' hn2 f1, f2]
  refine ⟨out, by unfold hubSave; rw [h1], ?_, ?_⟩
  · intro n hn k v hv
    have hm := mem_of_get? hv
    obtain ⟨a, b, e⟩ := List.append_of_mem hm
    have := h3 a _ b e (by
      intro hc
      obtain ⟨p', hp', e'⟩ := List.mem_map.1 hc
      have hp's : p' ∈ scores := by rw [e]; simp [hp']
      have hk := hinj p' hp's _ hm e'
      have hnd' : (scores.map Prod.fst).Nodup := hnd
      rw [e, List.map_append, List.map_cons] at hnd'
      have := (List.nodup_cons.1 (List.nodup_append.1 hnd').2.1).1
      exact this (hk ▸ List.mem_map.2 ⟨p', hp', rfl⟩))
    simp only [C93_label n hn] at this
    exact this
  · intro x hx
    apply h2
    intro hc
    obtain ⟨p, hp, e⟩ := List.mem_map.1 hc
    obtain ⟨n, hn, k, e1⟩ := hs p hp
    refine hx n hn k p.2 ?_ ?_
    · rw [← e1]; exact get?_of_mem hnd hp
    · rw [← e, e1, C93_label n hn]

set_option synthInstance.maxSize 1000
set_option synthInstance.maxHeartbeats 200000

/-- **C93** refuted for relevance levels: `ndcg` and `ndcg-l2` share a label, so only the last score is recorded;
and for `dcg`: nothing can be saved at all. -/
theorem C93_refuted :
    hubSave [("ndcg".toList, (9 : Nat)), ("ndcg-l2".toList, 5)] none () =
      .ok (some [("NDCG".toList, 5)], some [("NDCG".toList, 5)], ()) ∧
    hubSave [("map".toList, (9 : Nat)), ("dcg".toList, 5)] none () = .error .keyError ∧
    hubSave [("map@10".toList, (9 : Nat)), ("rbp.95".toList, 5)] (some [("MAP@10".toList, 1), ("x".toList, 2)]) () =
      .ok (some [("MAP@10".toList, 9), ("x".toList, 2), ("RBP.95".toList, 5)],
        some [("MAP@10".toList, 9), ("x".toList, 2), ("RBP.95".toList, 5)], ()) := by
  refine ⟨?_, ?_, ?_⟩ <;> decide +kernel

/-- **C93** (failure): a metric without a label makes `save` fail with a KeyError. -/
theorem C93_unlabelled {α ρ : Type} (scores : Dict Str α) (m : Str) (h1 : '@' ∉ m) (h2 : ¬ "-l".toList <:+: m)
    (hm : m ∉ Spec.hubLabels.map Prod.fst) (k L : Option Nat) (v : α)
    (hmem : (Spec.withParams m k L, v) ∈ scores) (card : Option (Dict Str α)) (run : ρ) :
    ∃ e, hubSave scores card run = .error e := by
  have hE : hubLabel (Spec.withParams m k L) = .error .keyError := by
    rw [hubLabel_cut m h1 h2]
    have : hubTable.get? m = none := by rw [get?_eq_none, hubTable_keys]; exact hm
    unfold labelIn
    rw [this]; rfl
  have : ∀ (l : List (Str × α)) (c : Option (Dict Str α)), (Spec.withParams m k L, v) ∈ l →
      ∃ e, hubRecord l c = .error e := by
    intro l
    induction l with
    | nil => intro c h; simp at h
    | cons q t ih =>
      intro c h
      rw [show q :: t = (q.1, q.2) :: t from rfl, hubRecord]
      cases hq : hubLabel q.1 with
      | error e => exact ⟨e, rfl⟩
      | ok l =>
        simp only
        rcases List.mem_cons.1 h with h | h
        · rw [← h, hE] at hq; cases hq
        · exact ih _ h
  obtain ⟨e, he⟩ := this scores card hmem
  exact ⟨e, by unfold hubSave; rw [he]⟩

/-! ## C94: the printed optimization report -/

/-- the metrics an optimization report can show -/
def Spec.optLabels : List (Str × Str) :=
  [("hits".toList, "Hits".toList), ("hit_rate".toList, "Hit_Rate".toList),
    ("precision".toList, "P".toList), ("recall".toList, "Recall".toList), ("f1".toList, "F1".toList),
    ("r-precision".toList, "R-Prec".toList), ("mrr".toList, "MRR".toList), ("map".toList, "MAP".toList),
    ("ndcg".toList, "NDCG".toList), ("ndcg_burges".toList, "NDCG_Burges".toList)]

/-- the methods with hyperparameters -/
def Spec.tunable : List String :=
  ["gmnz", "logn_isr", "mixed", "probfuse", "rbc", "rrf", "slidefuse", "w_bordafuse", "w_condorcet", "wmnz", "wsum"]

/-- Specification: each method with hyperparameters, its title and the name of its parameters. -/
def Spec.optTitles : List (String × String × String) :=
  [("gmnz", "GMNZ", "Gamma"), ("logn_isr", "LogN_ISR", "Sigma"), ("mixed", "Mixed", "Weights"),
    ("probfuse", "ProbFuse", "# Segments"), ("rbc", "RBC", "phi"), ("rrf", "RRF", "k"), ("slidefuse", "SlideFuse", "w"),
    ("w_bordafuse", "Weighted BordaFuse", "Weights"), ("w_condorcet", "Weighted Condorcet", "Weights"),
    ("wmnz", "WMNZ", "Weights"), ("wsum", "Weighted SUM", "Weights")]

/-- Specification: a cell in bold green (the markup of `rich`) -/
def Spec.highlight (x : Str) : Str := "[bold green]".toList ++ x ++ "[/bold green]".toList

example : Spec.optTitles.map Prod.fst = Spec.tunable := by decide

theorem optRows_spec (format : ℚ → Except Err Str) (mi : Nat) (l : List (Str × ℚ)) (j : Nat)
    (hf : ∀ x ∈ l, ∃ t, format x.2 = .ok t) :
    ∃ rows, optRows format mi (l.zipIdx j) = .ok rows ∧ rows.length = l.length ∧
      ∀ (i : Nat) c v, l[i]? = some (c, v) → ∃ t, format v = .ok t ∧
        rows[i]? = some (if j + i = mi then (styleBest c, styleBest t) else (c, t)) := by
  induction l generalizing j with
  | nil => exact ⟨[], rfl, rfl, by simp⟩
  | cons p t ih =>
    obtain ⟨s, hs⟩ := hf p (by simp)
    obtain ⟨rows, h1, h2, h3⟩ := ih (j + 1) (fun x hx => hf x (by simp [hx]))
    refine ⟨(if j = mi then (styleBest p.1, styleBest s) else (p.1, s)) :: rows, ?_, by simp [h2], ?_⟩
    · rw [List.zipIdx_cons, show p = (p.1, p.2) from rfl, optRows, hs]
      simp only
      rw [h1]
    · intro i c v hi
      cases i with
      | zero =>
        simp only [List.getElem?_cons_zero, Option.some.injEq] at hi
        subst hi
        exact ⟨s, hs, by simp⟩
      | succ i =>
        obtain ⟨t', e1, e2⟩ := h3 i c v (by simpa using hi)
        refine ⟨t', e1, ?_⟩
        rw [List.getElem?_cons_succ, e2]
        have : j + 1 + i = j + (i + 1) := by omega
        rw [this]

/-- **C94**: for a tunable method, a metric `name` or `name@k` with a label and printable scores, the table has one
row per tried configuration, in the order tried, with its printed score (C90); exactly the first best row is
highlighted, under the titles of the method, its parameters and the metric. -/
theorem C94_table_partial (digits : Nat) (m : String × String × String) (hm : m ∈ Spec.optTitles) (n : Str × Str)
    (hn : n ∈ Spec.optLabels) (k : Option Nat) (configs : List Str) (results : List ℚ) (hne : results ≠ [])
    (hlen : configs.length = results.length) (hb : ∀ x ∈ results, 0 ≤ x ∧ x * 10 ^ digits ≤ 2 ^ 51) :
    ∃ table best, optTable' (formatScore F64.fl false digits) m.1 (Spec.withParams n.1 k none) configs results =
        .ok table ∧ table.title = m.2.1 ∧ table.paramHeader = m.2.2 ∧
      table.metricHeader = Spec.withParams n.2 k none ∧ table.rows.length = results.length ∧
      (∀ (i : Nat) c v, configs[i]? = some c → results[i]? = some v → ∃ t w,
        formatScore F64.fl false digits v = .ok t ∧ Spec.Decimal t digits w ∧
        |w - v| ≤ 1 / 2 / 10 ^ digits + v / 2 ^ 53 ∧
        table.rows[i]? = some (if i = best then (Spec.highlight c, Spec.highlight t) else (c, t))) ∧
      (∃ v, results[best]? = some v ∧ (∀ u ∈ results, u ≤ v) ∧
        ∀ (j : Nat) u, j < best → results[j]? = some u → u < v) := by
  have hlabel : cutIn optTable (Spec.withParams n.1 k none) = .ok (Spec.withParams n.2 k none) := by
    have hat : ∀ p ∈ Spec.optLabels, '@' ∉ p.1 ∧ labelIn optTable p.1 = .ok p.2 := by decide +kernel
    obtain ⟨h1, h2⟩ := hat n hn
    have := cutIn_spec optTable n.1 h1 k
    rw [h2] at this
    simp only [Spec.withParams, Spec.levelText, List.append_nil]
    exact this
  have htp : methodLabels.lookup m.1 = some m.2 := by
    have : ∀ m ∈ Spec.optTitles, methodLabels.lookup m.1 = some m.2 := by decide +kernel
    exact this m hm
  have hzip : ∀ (i : Nat) c v, configs[i]? = some c → results[i]? = some v →
      (configs.zip results)[i]? = some (c, v) := fun i c v h1 h2 => List.getElem?_zip_eq_some.2 ⟨h1, h2⟩
  obtain ⟨rows, h1, h2, h3⟩ := optRows_spec (formatScore F64.fl false digits) (Opt.highlighted results)
    (configs.zip results) 0 (by
      intro x hx
      have := (List.of_mem_zip (a := x.1) (b := x.2) hx).2
      obtain ⟨s, v, e, -⟩ := C90_rounded digits x.2 (hb _ this).1 (hb _ this).2
      exact ⟨s, e⟩)
  refine ⟨⟨m.2.1, m.2.2, _, rows⟩, Opt.highlighted results, ?_, rfl, rfl, rfl, ?_, ?_, ?_⟩
  · unfold optTable'
    rw [htp]
    simp only
    rw [hlabel]
    simp only
    rw [if_neg hne, h1]
    rfl
  · rw [h2, List.length_zip, hlen]; simp
  · intro i c v hc hv
    have hmem := List.mem_of_getElem? hv
    obtain ⟨s, w, e, d1, d2⟩ := C90_rounded digits v (hb _ hmem).1 (hb _ hmem).2
    obtain ⟨t, e1, e2⟩ := h3 i c v (hzip i c v hc hv)
    rw [e] at e1
    cases e1
    refine ⟨s, w, e, d1, d2, ?_⟩
    rw [e2, Nat.zero_add]
    rfl
  · obtain ⟨x, v, y, g1, g2, g3, g4⟩ := C65_highlighted_row results hne
    refine ⟨v, by rw [← g2, g1]; simp, ?_, ?_⟩
    · intro u hu
      rw [g1] at hu
      rcases List.mem_append.1 hu with hu | hu
      · exact (g3 u hu).le
      · rcases List.mem_cons.1 hu with rfl | hu
        · exact le_rfl
        · exact g4 u hu
    · intro j u hj hu
      rw [← g2] at hj
      rw [g1, List.getElem?_append_left hj] at hu
      exact g3 u (List.mem_of_getElem? hu)

/-- **C94** refuted in general: an optimization by one of these metrics runs, but its report cannot be printed
(KeyError): bpref, dcg, the rank-biased precisions, and every metric with a relevance level but no cutoff. -/
theorem C94_unprintable (format : ℚ → Except Err Str) (method : String) (configs : List Str) (results : List ℚ)
    (hm : method ∈ Spec.tunable) :
    (∀ m ∈ ["bpref".toList, "dcg".toList, "dcg_burges".toList, "rbp.95".toList, "ndcg-l2".toList, "map-l2".toList],
      ∃ e, optTable' format method m configs results = .error e) ∧
    ∀ n ∈ Spec.optLabels, ∀ L, ∃ e,
      optTable' format method (Spec.withParams n.1 none (some L)) configs results = .error e := by
  have hmeth : ∃ tp, methodLabels.lookup method = some tp := by
    have : ∀ m ∈ Spec.tunable, (methodLabels.lookup m).isSome = true := by decide +kernel
    exact Option.isSome_iff_exists.1 (this method hm)
  obtain ⟨⟨title, param⟩, htp⟩ := hmeth
  have key : ∀ m e, cutIn optTable m = .error e → optTable' format method m configs results = .error e := by
    intro m e he
    unfold optTable'
    rw [htp]
    simp only
    rw [he]
  refine ⟨?_, ?_⟩
  · intro m hmm
    have : ∀ m ∈ ["bpref".toList, "dcg".toList, "dcg_burges".toList, "rbp.95".toList, "ndcg-l2".toList,
        "map-l2".toList], cutIn optTable m = .error .keyError := by decide +kernel
    exact ⟨_, key m _ (this m hmm)⟩
  · intro n hn L
    refine ⟨.keyError, key _ _ ?_⟩
    have hat : ∀ p ∈ Spec.optLabels, '@' ∉ p.1 := by decide +kernel
    have hkl : ∀ p ∈ optTable, hasSub "-l".toList p.1 = false := by decide +kernel
    have h1 : '@' ∉ Spec.withParams n.1 none (some L) := by
      simp only [Spec.withParams, Spec.cutText, Spec.levelText, List.append_nil, List.mem_append, not_or]
      exact ⟨hat n hn, by decide, at_notMem_natStr L⟩
    unfold cutIn
    rw [if_neg h1]
    have h2 : optTable.get? (Spec.withParams n.1 none (some L)) = none := by
      rw [get?_eq_none]
      intro hc
      obtain ⟨p, hp, e⟩ := List.mem_map.1 hc
      have := hkl p hp
      rw [e] at this
      have h3 : hasSub "-l".toList (Spec.withParams n.1 none (some L)) = true := by
        unfold Spec.withParams
        exact hasSub_level _ L
      rw [h3] at this
      cases this
    unfold labelIn
    rw [h2]

/-- Non-vacuity of C94: a report of three configurations, the first two equally good -/
example : (optTable' (formatScore F64.fl false 3) "rrf" "ndcg@10".toList ["10".toList, "20".toList, "30".toList]
    [F64.fl (2 / 3), F64.fl (2 / 3), F64.fl (1 / 3)]).map (fun t => (t.title, t.paramHeader, t.metricHeader, t.rows)) =
    .ok ("RRF", "k", "NDCG@10".toList,
      [("[bold green]10[/bold green]".toList, "[bold green]0.667[/bold green]".toList),
        ("20".toList, "0.667".toList), ("30".toList, "0.333".toList)]) := by decide +kernel

end Ranx
