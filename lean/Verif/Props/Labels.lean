import Verif.Model.Report
import Verif.Lemmas.Dict
import Verif.Props.MetricString

/-!
# Property C83: metric labels
-/

set_option linter.unusedSectionVars false

namespace Ranx
open Dict Py Rep Eval

/-- `@k` or nothing -/
def Spec.cutText : Option Nat → Str
  | some k => '@' :: natStr k
  | none => []

/-- `-lL` or nothing -/
def Spec.levelText : Option Nat → Str
  | some L => "-l".toList ++ natStr L
  | none => []

/-- `name`, `name@k`, `name-lL` or `name@k-lL` -/
def Spec.withParams (name : Str) (cutoff level : Option Nat) : Str :=
  name ++ Spec.cutText cutoff ++ Spec.levelText level

/-- the metrics with a label: the thirteen plain ones and `rbp.1` … `rbp.99` -/
def Spec.labels : List (Str × Str) :=
  [("hits".toList, "Hits".toList), ("hit_rate".toList, "Hit Rate".toList),
    ("precision".toList, "P".toList), ("recall".toList, "Recall".toList), ("f1".toList, "F1".toList),
    ("r-precision".toList, "R-Prec".toList), ("mrr".toList, "MRR".toList), ("map".toList, "MAP".toList),
    ("dcg".toList, "DCG".toList), ("dcg_burges".toList, "DCG Burges".toList),
    ("ndcg".toList, "NDCG".toList), ("ndcg_burges".toList, "NDCG Burges".toList),
    ("bpref".toList, "BPref".toList)] ++
  (List.range' 1 99).map (fun i => ("rbp.".toList ++ natStr i, "RBP.".toList ++ natStr i))

theorem labels_get : ∀ p ∈ Spec.labels, metricLabel p.1 = some p.2 := by decide +kernel

theorem labels_plain : ∀ p ∈ Spec.labels, '@' ∉ p.1 ∧ hasSub "-l".toList p.1 = false ∧ '@' ∉ p.2 ∧
    hasSub "-l".toList p.2 = false := by decide +kernel

theorem labels_inj : ∀ p ∈ Spec.labels, ∀ p' ∈ Spec.labels, p.2 = p'.2 → p.1 = p'.1 := by decide +kernel

theorem not_infix_of_hasSub {sub s : Str} (h : hasSub sub s = false) : ¬ sub <:+: s := by
  intro hc; rw [(hasSub_iff _ _).2 hc] at h; cases h

theorem at_notMem_natStr (k : Nat) : '@' ∉ natStr k := by
  intro h
  have := natStr_isDigit h
  revert this; decide

theorem noLevel_at' {m : Str} (h : ¬ "-l".toList <:+: m) (k : Nat) : ¬ "-l".toList <:+: m ++ '@' :: natStr k := by
  intro hi
  rcases infix_append_cons (by decide) hi with h1 | h1
  · exact h h1
  · exact not_infix_digits (c := '-') (by decide) (by decide) k h1

theorem split2_level {m : Str} (h : ¬ "-l".toList <:+: m) (L : Nat) :
    split2 '-' 'l' (m ++ Spec.levelText (some L)) = [m, natStr L] := by
  have e : m ++ Spec.levelText (some L) = m ++ '-' :: 'l' :: natStr L := rfl
  rw [e, split2_append '-' 'l' (by decide) _ _ h,
    split2_of_not_hasSub _ _ _ (not_infix_digits (c := '-') (by decide) (by decide) L)]

theorem hasSub_level (m : Str) (L : Nat) : hasSub "-l".toList (m ++ Spec.levelText (some L)) = true :=
  (hasSub_iff _ _).2 ⟨m, natStr L, List.append_assoc _ _ _⟩

theorem labelCut_spec (m l : Str) (h1 : '@' ∉ m) (hl : metricLabel m = some l) (k : Option Nat) :
    labelCut (m ++ Spec.cutText k) =
      .ok (l ++ Spec.cutText k) := by
  have hE : metricLabelE m = .ok l := by unfold metricLabelE; rw [hl]
  cases k with
  | none =>
    simp only [Spec.cutText, Spec.levelText, List.append_nil]
    unfold labelCut
    rw [if_neg h1, hE]
  | some k =>
    simp only [Spec.cutText]
    unfold labelCut
    rw [if_pos (by simp), splitChar_append _ _ _ h1, splitChar_of_notMem _ _ (at_notMem_natStr k)]
    simp only
    rw [hE]

/-- **C83**: the label of a metric string is the name of the metric's label followed by the same cutoff
and relevance level. -/
theorem C83_label (p : Str × Str) (hp : p ∈ Spec.labels) (k L : Option Nat) :
    getMetricLabel (Spec.withParams p.1 k L) = .ok (Spec.withParams p.2 k L) := by
  obtain ⟨h1, h2, -, -⟩ := labels_plain p hp
  have hl := labels_get p hp
  have hlev := not_infix_of_hasSub h2
  have hcut : ¬ "-l".toList <:+: p.1 ++ Spec.cutText k := by
    cases k with
    | none => simpa [Spec.cutText] using hlev
    | some k => exact noLevel_at' hlev k
  have hspec := labelCut_spec p.1 p.2 h1 hl k
  unfold Spec.withParams getMetricLabel
  cases L with
  | none =>
    simp only [Spec.levelText, List.append_nil]
    rw [hasSub_false hcut, if_neg (by decide)]
    exact hspec
  | some L =>
    rw [if_pos (hasSub_level _ L), split2_level hcut L]
    simp only
    rw [hspec]
    simp only [List.append_assoc, Spec.levelText]

theorem natStr_inj {a b : Nat} (h : natStr a = natStr b) : a = b := by
  have := pyNat_natStr a
  rw [h, pyNat_natStr, Option.some.injEq] at this
  exact this.symm

theorem withParams_inj {a b : Str} (ha : '@' ∉ a) (hb : '@' ∉ b) (la : ¬ "-l".toList <:+: a)
    (lb : ¬ "-l".toList <:+: b) (k L k' L' : Option Nat)
    (h : Spec.withParams a k L = Spec.withParams b k' L') : a = b ∧ k = k' ∧ L = L' := by
  have cut : ∀ (m : Str) (hl : ¬ "-l".toList <:+: m) (k : Option Nat),
      ¬ "-l".toList <:+: m ++ Spec.cutText k := by
    intro m hl k
    cases k with
    | none => simpa [Spec.cutText] using hl
    | some k => exact noLevel_at' hl k
  have lev : ∀ (m : Str) (hl : ¬ "-l".toList <:+: m) (k L : Option Nat),
      split2 '-' 'l' (Spec.withParams m k L) =
        (m ++ Spec.cutText k) :: (L.map natStr).toList := by
    intro m hl k L
    unfold Spec.withParams
    cases L with
    | none =>
      simp only [Spec.levelText, List.append_nil]
      rw [split2_of_not_hasSub '-' 'l' _ (cut m hl k)]
      rfl
    | some L =>
      rw [split2_level (cut m hl k) L]
      rfl
  have e := congrArg (split2 '-' 'l') h
  rw [lev a la, lev b lb, List.cons.injEq] at e
  obtain ⟨e1, e2⟩ := e
  have at' : ∀ (m : Str) (hm : '@' ∉ m) (k : Option Nat),
      splitChar '@' (m ++ Spec.cutText k) = m :: (k.map natStr).toList := by
    intro m hm k
    cases k with
    | none => simp only [Spec.cutText, Spec.levelText, List.append_nil]; rw [splitChar_of_notMem _ _ hm]; rfl
    | some k =>
      simp only [Spec.cutText]
      rw [splitChar_append _ _ _ hm, splitChar_of_notMem _ _ (at_notMem_natStr k)]
      rfl
  have f := congrArg (splitChar '@') e1
  rw [at' a ha, at' b hb, List.cons.injEq] at f
  obtain ⟨f1, f2⟩ := f
  have opt : ∀ x y : Option Nat, (x.map natStr).toList = (y.map natStr).toList → x = y := by
    intro x y hxy
    cases x with
    | none => cases y with
      | none => rfl
      | some y => simp at hxy
    | some x => cases y with
      | none => simp at hxy
      | some y =>
        simp only [Option.map_some, Option.toList_some, List.cons.injEq, and_true] at hxy
        rw [natStr_inj hxy]
  exact ⟨f1, opt _ _ f2, opt _ _ e2⟩

/-- **C83** (distinct): metric strings of this form with the same label are the same string. -/
theorem C83_distinct (p p' : Str × Str) (hp : p ∈ Spec.labels) (hp' : p' ∈ Spec.labels) (k L k' L' : Option Nat)
    (h : getMetricLabel (Spec.withParams p.1 k L) = getMetricLabel (Spec.withParams p'.1 k' L')) :
    Spec.withParams p.1 k L = Spec.withParams p'.1 k' L' := by
  rw [C83_label p hp, C83_label p' hp', Except.ok.injEq] at h
  obtain ⟨-, -, h1, h2⟩ := labels_plain p hp
  obtain ⟨-, -, h1', h2'⟩ := labels_plain p' hp'
  obtain ⟨e1, rfl, rfl⟩ := withParams_inj h1 h1' (not_infix_of_hasSub h2) (not_infix_of_hasSub h2') _ _ _ _ h
  rw [labels_inj p hp p' hp' e1]

/-- **C83** (unlabelled): a metric string of one of the accepted shapes whose name has no label cannot be
shown: printing the report fails with a KeyError. -/
theorem C83_unlabelled (m : Str) (h1 : '@' ∉ m) (h2 : ¬ "-l".toList <:+: m) (hm : m ∉ Spec.labels.map Prod.fst)
    (k L : Option Nat) : getMetricLabel (Spec.withParams m k L) = .error .keyError := by
  have hl : metricLabel m = none := by
    unfold metricLabel
    rw [get?_eq_none]
    have : Dict.keys labelTable = Spec.labels.map Prod.fst := by decide +kernel
    rw [this]
    exact hm
  have hE : metricLabelE m = .error .keyError := by unfold metricLabelE; rw [hl]
  have hcut : ¬ "-l".toList <:+: m ++ Spec.cutText k := by
    cases k with
    | none => simpa [Spec.cutText] using h2
    | some k => exact noLevel_at' h2 k
  have hspec : labelCut (m ++ Spec.cutText k) = .error .keyError := by
    cases k with
    | none =>
      simp only [Spec.cutText, Spec.levelText, List.append_nil]
      unfold labelCut
      rw [if_neg h1, hE]
    | some k =>
      simp only [Spec.cutText]
      unfold labelCut
      rw [if_pos (by simp), splitChar_append _ _ _ h1, splitChar_of_notMem _ _ (at_notMem_natStr k)]
      simp only
      rw [hE]
  unfold Spec.withParams getMetricLabel
  cases L with
  | none =>
    simp only [Spec.levelText, List.append_nil]
    rw [hasSub_false hcut, if_neg (by decide)]
    exact hspec
  | some L =>
    rw [if_pos (hasSub_level _ L), split2_level hcut L]
    simp only
    rw [hspec]

/-- Non-vacuity of C83, and two metric strings accepted by `evaluate` which have no label: `rbp@95` and
`rbp.950`; strings with two cutoffs share a label with the string `evaluate` reads them as. -/
theorem C83_examples :
    getMetricLabel "ndcg_burges@10-l2".toList = .ok "NDCG Burges@10-l2".toList ∧
    getMetricLabel "r-precision-l3".toList = .ok "R-Prec-l3".toList ∧
    getMetricLabel "rbp.95".toList = .ok "RBP.95".toList ∧
    getMetricLabel "rbp@95".toList = .error .keyError ∧
    getMetricLabel "rbp.950".toList = .error .keyError ∧
    getMetricLabel "map@10@5".toList = getMetricLabel "map@10".toList := by
  decide +kernel

end Ranx
