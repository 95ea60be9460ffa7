import Verif.Props.JsonFiles
import Verif.Props.Report3

/-!
# C125: `Report.save` and `Report.print_results`, at the level of the text
-/

set_option linter.unusedSectionVars false

namespace Ranx
open Dict Jsn Rep
open Py (Str)

/-- the value found in a JSON value under a path of member names -/
def Spec.under {ν : Type*} : Json ν → List Str → Option (Json ν)
  | v, [] => some v
  | .obj l, k :: ks => (Dict.get? l k).bind (fun v => Spec.under v ks)
  | _, _ :: _ => none

section
variable {ν : Type*}

theorem Jsn.noNanMembers_iff (l : List (Str × Json ν)) : Spec.noNanMembers l ↔ ∀ p ∈ l, Spec.noNan p.2 := by
  induction l with
  | nil => simp [Spec.noNanMembers]
  | cons p t ih => obtain ⟨k, v⟩ := p; simp [Spec.noNanMembers, ih]

theorem Jsn.noNanItems_iff (l : List (Json ν)) : Spec.noNanItems l ↔ ∀ v ∈ l, Spec.noNan v := by
  induction l with
  | nil => simp [Spec.noNanItems]
  | cons p t ih => simp [Spec.noNanItems, ih]

theorem Jsn.noNan_under (ks : List Str) : ∀ (v w : Json ν), Spec.noNan v → Spec.under v ks = some w → Spec.noNan w := by
  induction ks with
  | nil =>
    intro v w h e
    simp only [Spec.under, Option.some.injEq] at e
    rw [← e]; exact h
  | cons k ks ih =>
    intro v w h e
    match v, h, e with
    | .obj l, h, e =>
      simp only [Spec.under] at e
      cases hg : Dict.get? l k with
      | none => rw [hg] at e; cases e
      | some x =>
        rw [hg] at e
        simp only [Spec.noNan] at h
        exact ih x w ((noNanMembers_iff l).1 h _ (mem_of_get? hg)) e

theorem Jsn.under_obj (f : β → Json ν) (d : Dict Str β) (k : Str) (ks : List Str) :
    Spec.under (objOf f d) (k :: ks) = (d.get? k).bind (fun x => Spec.under (f x) ks) := by
  unfold objOf
  simp only [Spec.under]
  rw [get?_map_val]
  cases d.get? k <;> rfl

theorem Jsn.under_three {k1 k2 k3 : Str} (n1 : ¬ k1 = k2) (n2 : ¬ k1 = k3) (n3 : ¬ k2 = k3) (v1 v2 v3 : Json ν) :
    (∀ ks, Spec.under (.obj [(k1, v1), (k2, v2), (k3, v3)]) (k1 :: ks) = Spec.under v1 ks) ∧
    (∀ ks, Spec.under (.obj [(k1, v1), (k2, v2), (k3, v3)]) (k2 :: ks) = Spec.under v2 ks) ∧
    (∀ ks, Spec.under (.obj [(k1, v1), (k2, v2), (k3, v3)]) (k3 :: ks) = Spec.under v3 ks) := by
  refine ⟨fun ks => ?_, fun ks => ?_, fun ks => ?_⟩ <;> simp only [Spec.under]
  · rw [get?_cons, if_pos rfl]; rfl
  · rw [get?_cons, if_neg n1, get?_cons, if_pos rfl]; rfl
  · rw [get?_cons, if_neg n2, get?_cons, if_neg n3, get?_cons, if_pos rfl]; rfl

theorem Jsn.under_nested (f : β → Json ν) (d : Dict Str (Dict Str β)) (k l : Str) (i : Dict Str β)
    (h : d.get? k = some i) (ks : List Str) :
    Spec.under (nested f d) (k :: l :: ks) = (i.get? l).bind (fun x => Spec.under (f x) ks) := by
  have e : nested f d = objOf (objOf f) d := rfl
  rw [e, under_obj, h]
  exact under_obj f i l ks
end

section
variable {α : Type*} [Field α] [LinearOrder α] [IsStrictOrderedRing α]

/-- **C125** (what is saved): the text `Report.save` writes is read by Python's `json.loads`, and in the value read one
finds, for every model, its score under every metric, and for every other model and metric the p-value and the counts of
wins, ties and losses, whatever characters the names of the models contain. -/
theorem C125_saved (N : NumText (Int ⊕ α)) (r : Report α) (text : Str) (h : reportText N r = .ok text) :
    ∃ v, loads N true text = some v ∧ ∀ a ∈ r.modelNames,
      (∃ sc, r.results.get? a = some sc ∧
        ∀ m x, sc.get? m = some x → Spec.under v [a, "scores".toList, m] = some (numJson x)) ∧
      ∀ b ∈ r.modelNames, a ≠ b → ∀ m ∈ r.metrics, ∃ res x,
        r.comparison a b m = .ok res ∧ Spec.under v [a, "comparisons".toList, b, m] = some (numJson res.p) ∧
        wtlAt r.winTieLoss (a, b) m = some x ∧
        Spec.under v [a, "win_tie_loss".toList, b, m, ['W']] = some (.num (.inl x.w)) ∧
        Spec.under v [a, "win_tie_loss".toList, b, m, ['T']] = some (.num (.inl x.t)) ∧
        Spec.under v [a, "win_tie_loss".toList, b, m, ['L']] = some (.num (.inl x.l)) := by
  unfold reportText at h
  cases hd : r.toDict with
  | error e => rw [hd] at h; cases h
  | ok d =>
    rw [hd] at h
    simp only [Except.ok.injEq] at h
    subst h
    refine ⟨_, C124_python_reads N true 4 _, ?_⟩
    intro a ha
    obtain ⟨sc, c, w, e1, e2, e3⟩ := C74_models r d hd a ha
    have n1 : ¬ ("scores".toList = "comparisons".toList) := by decide
    have n2 : ¬ ("scores".toList = "win_tie_loss".toList) := by decide
    have n3 : ¬ ("comparisons".toList = "win_tie_loss".toList) := by decide
    have u0 : ∀ ks, Spec.under (entryJson (.model sc c w)) ("scores".toList :: ks) = Spec.under (objOf numJson sc) ks :=
      (under_three n1 n2 n3 _ _ _).1
    have u1 : ∀ ks, Spec.under (entryJson (.model sc c w)) ("comparisons".toList :: ks) =
        Spec.under (nested numJson c) ks := (under_three n1 n2 n3 _ _ _).2.1
    have u2 : ∀ ks, Spec.under (entryJson (.model sc c w)) ("win_tie_loss".toList :: ks) =
        Spec.under (nested wtlJson w) ks := (under_three n1 n2 n3 _ _ _).2.2
    refine ⟨⟨sc, e2, ?_⟩, ?_⟩
    · intro m x hx
      rw [under_obj, e1]
      simp only [Option.bind_some]
      rw [u0, under_obj, hx]
      simp only [Option.bind_some]
      cases numJson x <;> rfl
    · intro b hb hne m hm
      obtain ⟨pc, pw, f1, f2, f3⟩ := e3 b hb hne
      obtain ⟨res, x, g1, g2, g3, g4⟩ := f3 m hm
      refine ⟨res, x, g1, ?_, g3, ?_⟩
      · rw [under_obj, e1]
        simp only [Option.bind_some]
        rw [u1, under_nested _ _ _ _ _ f1, g2]
        simp only [Option.bind_some]
        cases numJson res.p <;> rfl
      · have k : ∀ ks, Spec.under (objOf entryJson d) (a :: "win_tie_loss".toList :: b :: m :: ks) =
            Spec.under (wtlJson x) ks := by
          intro ks
          rw [under_obj, e1]
          simp only [Option.bind_some]
          rw [u2, under_nested _ _ _ _ _ f2, g4]
          rfl
        refine ⟨?_, ?_, ?_⟩ <;> rw [k] <;> rfl

/-- **C125** (header): the test, the metrics and the models are found in the file, unless a model is called like one of
the three keys. -/
theorem C125_header_partial (N : NumText (Int ⊕ α)) (r : Report α) (text : Str) (h : reportText N r = .ok text)
    (hn : ∀ a ∈ r.modelNames, a ∉ Spec.headerNames) :
    ∃ v, loads N true text = some v ∧ Spec.under v ["stat_test".toList] = some (.str r.statTest) ∧
      Spec.under v ["metrics".toList] = some (.arr (r.metrics.map .str)) ∧
      Spec.under v ["model_names".toList] = some (.arr (r.modelNames.map .str)) := by
  unfold reportText at h
  cases hd : r.toDict with
  | error e => rw [hd] at h; cases h
  | ok d =>
    rw [hd] at h
    simp only [Except.ok.injEq] at h
    subst h
    obtain ⟨h1, h2, h3⟩ := C74_header_partial r d hd hn
    refine ⟨_, C124_python_reads N true 4 _, ?_, ?_, ?_⟩
    · rw [under_obj, h1]; rfl
    · rw [under_obj, h2]; rfl
    · rw [under_obj, h3]; rfl

theorem Jsn.noNan_numJson (x : Metrics.Num α) : Spec.noNan (numJson x) ↔ x ≠ .nan := by
  cases x <;> simp [numJson, Spec.noNan]

theorem Jsn.noNan_obj {β ν : Type*} (f : β → Json ν) (d : Dict Str β) :
    Spec.noNan (objOf f d) ↔ ∀ e ∈ d, Spec.noNan (f e.2) := by
  unfold objOf
  simp only [Spec.noNan]
  rw [noNanMembers_iff]
  constructor
  · intro h e he
    exact h _ (List.mem_map.2 ⟨e, he, rfl⟩)
  · intro h p hp
    obtain ⟨e, he, rfl⟩ := List.mem_map.1 hp
    exact h e he

/-- the entries of a dictionary satisfy `P` -/
def Jsn.AllVals {β : Type*} (P : β → Prop) (d : Dict Str β) : Prop := ∀ e ∈ d, P e.2

theorem Jsn.allVals_set {β : Type*} {P : β → Prop} {d : Dict Str β} (h : AllVals P d) (k : Str) {v : β} (hv : P v) :
    AllVals P (d.set k v) := by
  intro e he
  rcases Store.mem_set (d := d) (k := k) (v := v) he with h1 | h1
  · exact h e h1
  · rw [h1]; exact hv

theorem Jsn.pairEntry_noNan (r : Report α) (a b : Str) (hp : ∀ m ∈ r.metrics, ∀ res, r.comparison a b m = .ok res → res.p ≠ .nan)
    (ms : List Str) (hms : ∀ m ∈ ms, m ∈ r.metrics) : ∀ c w c' w', AllVals (· ≠ .nan) c →
      r.pairEntry a b ms c w = .ok (c', w') → AllVals (· ≠ .nan) c' := by
  induction ms with
  | nil =>
    intro c w c' w' hc h
    simp only [Report.pairEntry, Except.ok.injEq, Prod.mk.injEq] at h
    rw [← h.1]; exact hc
  | cons m ms ih =>
    intro c w c' w' hc h
    simp only [Report.pairEntry] at h
    cases hr : r.comparison a b m with
    | error e => rw [hr] at h; cases h
    | ok res =>
      rw [hr] at h
      simp only at h
      split at h
      · cases h
      · exact ih (fun x hx => hms x (by simp [hx])) _ _ _ _ (allVals_set hc m (hp m (hms m (by simp)) res hr)) h

theorem Jsn.modelEntry_noNan (r : Report α) (a : Str)
    (hp : ∀ b ∈ r.modelNames, ∀ m ∈ r.metrics, ∀ res, a ≠ b → r.comparison a b m = .ok res → res.p ≠ .nan)
    (bs : List Str) (hbs : ∀ b ∈ bs, b ∈ r.modelNames) : ∀ c w c' w', AllVals (AllVals (· ≠ .nan)) c →
      r.modelEntry a bs c w = .ok (c', w') → AllVals (AllVals (· ≠ .nan)) c' := by
  induction bs with
  | nil =>
    intro c w c' w' hc h
    simp only [Report.modelEntry, Except.ok.injEq, Prod.mk.injEq] at h
    rw [← h.1]; exact hc
  | cons b bs ih =>
    intro c w c' w' hc h
    simp only [Report.modelEntry] at h
    by_cases hab : a ≠ b
    · rw [if_pos hab] at h
      cases hr : r.pairEntry a b r.metrics [] [] with
      | error e => rw [hr] at h; cases h
      | ok res =>
        obtain ⟨pc, pw⟩ := res
        rw [hr] at h
        refine ih (fun x hx => hbs x (by simp [hx])) _ _ _ _ (allVals_set hc b ?_) h
        exact pairEntry_noNan r a b (fun m hm res he => hp b (hbs b (by simp)) m hm res hab he) _ (fun _ h => h) _ _ _ _
          (fun e he => (List.not_mem_nil he).elim) hr
    · rw [if_neg hab] at h
      exact ih (fun x hx => hbs x (by simp [hx])) _ _ _ _ hc h

theorem Jsn.noNan_entry (sc : Dict Str (Metrics.Num α)) (c : Dict Str (Dict Str (Metrics.Num α)))
    (w : Dict Str (Dict Str WTL)) (hsc : AllVals (· ≠ .nan) sc) (hc : AllVals (AllVals (· ≠ .nan)) c) :
    Spec.noNan (entryJson (.model sc c w)) := by
  unfold entryJson
  simp only [Spec.noNan]
  rw [noNanMembers_iff]
  intro p hp
  have hn : ∀ {β : Type} (f : β → Json (Int ⊕ α)) (d : Dict Str (Dict Str β)), nested f d = objOf (objOf f) d := fun _ _ => rfl
  simp only [List.mem_cons, List.not_mem_nil, or_false] at hp
  rcases hp with rfl | rfl | rfl
  · exact (noNan_obj numJson sc).2 (fun e he => (noNan_numJson _).2 (hsc e he))
  · exact (noNan_obj (objOf numJson) c).2 (fun e he => (noNan_obj _ _).2 (fun e' he' => (noNan_numJson _).2 (hc e he e' he')))
  · refine (noNan_obj (objOf wtlJson) w).2 (fun e _ => (noNan_obj _ _).2 (fun e' _ => ?_))
    simp [wtlJson, Spec.noNan, Spec.noNanMembers]

theorem Jsn.dictLoop_noNan (r : Report α)
    (hs : ∀ a ∈ r.modelNames, ∀ sc, r.results.get? a = some sc → ∀ e ∈ sc, e.2 ≠ .nan)
    (hp : ∀ a ∈ r.modelNames, ∀ b ∈ r.modelNames, ∀ m ∈ r.metrics, ∀ res, a ≠ b → r.comparison a b m = .ok res →
      res.p ≠ .nan)
    (as : List Str) (has : ∀ a ∈ as, a ∈ r.modelNames) : ∀ d d', AllVals (fun e => Spec.noNan (entryJson e)) d →
      r.dictLoop as d = .ok d' → AllVals (fun e => Spec.noNan (entryJson e)) d' := by
  induction as with
  | nil =>
    intro d d' hd h
    simp only [Report.dictLoop, Except.ok.injEq] at h
    rw [← h]; exact hd
  | cons a as ih =>
    intro d d' hd h
    simp only [Report.dictLoop] at h
    cases hsc : r.results.get? a with
    | none => rw [hsc] at h; cases h
    | some sc =>
      rw [hsc] at h
      simp only at h
      cases hr : r.modelEntry a r.modelNames [] [] with
      | error e => rw [hr] at h; cases h
      | ok res =>
        obtain ⟨c, w⟩ := res
        rw [hr] at h
        refine ih (fun x hx => has x (by simp [hx])) _ _ (allVals_set hd a ?_) h
        have ha := has a (by simp)
        exact noNan_entry sc c w (hs a ha sc hsc)
          (modelEntry_noNan r a (hp a ha) _ (fun _ h => h) _ _ _ _ (fun e he => (List.not_mem_nil he).elim) hr)

/-- **C125** (proved part): if no score and no p-value is NaN, the file is JSON, as every JSON reader understands it. -/
theorem C125_json_partial (N : NumText (Int ⊕ α)) (r : Report α) (text : Str) (h : reportText N r = .ok text)
    (hs : ∀ a ∈ r.modelNames, ∀ sc, r.results.get? a = some sc → ∀ e ∈ sc, e.2 ≠ .nan)
    (hp : ∀ a ∈ r.modelNames, ∀ b ∈ r.modelNames, ∀ m ∈ r.metrics, ∀ res, a ≠ b → r.comparison a b m = .ok res →
      res.p ≠ .nan) :
    ∃ v, Spec.JsonText N false text v ∧ loads N true text = some v := by
  unfold reportText at h
  cases hd : r.toDict with
  | error e => rw [hd] at h; cases h
  | ok d =>
    rw [hd] at h
    simp only [Except.ok.injEq] at h
    subst h
    refine ⟨_, C124_writer N true 4 _ ?_, C124_python_reads N true 4 _⟩
    rw [noNan_obj]
    refine dictLoop_noNan r hs hp r.modelNames (fun _ h => h) _ d ?_ hd
    intro e he
    simp only [List.mem_cons, List.not_mem_nil, or_false] at he
    have ht : ∀ l : List Str, Spec.noNan (entryJson (α := α) (.texts l)) := by
      intro l
      unfold entryJson
      simp only [Spec.noNan]
      rw [noNanItems_iff]
      intro v hv
      obtain ⟨s, -, rfl⟩ := List.mem_map.1 hv
      simp [Spec.noNan]
    rcases he with rfl | rfl | rfl
    · simp [entryJson, Spec.noNan]
    · exact ht _
    · exact ht _

/-- **C125** (refuted): if the p-value of two models is NaN, as Student's test gives for two models with equal scores on
all queries, the file is not JSON: no reader that follows the grammar accepts it. -/
theorem C125_nan_refuted (N : NumText (Int ⊕ α)) (r : Report α) (text : Str) (h : reportText N r = .ok text)
    (a b m : Str) (ha : a ∈ r.modelNames) (hb : b ∈ r.modelNames) (hab : a ≠ b) (hm : m ∈ r.metrics)
    (res : Stat.Result α) (hc : r.comparison a b m = .ok res) (hnan : res.p = .nan) :
    (∀ v, ¬ Spec.JsonText N false text v) ∧ loads N false text = none := by
  have key : ∀ v, ¬ Spec.JsonText N false text v := by
    intro v hv
    obtain ⟨v', hl, hv'⟩ := C125_saved N r text h
    obtain ⟨res', x, h1, h2, -⟩ := (hv' a ha).2 b hb hab m hm
    rw [hc, Except.ok.injEq] at h1
    subst h1
    obtain ⟨w, t, w', e, hw, ht, hw'⟩ := hv
    have hl' := (C124_reader N true text v).2 ⟨w, t, w', e, hw, denotes_lax ht, hw'⟩
    rw [hl, Option.some.injEq] at hl'
    subst hl'
    exact (noNan_numJson res.p).1 (noNan_under _ _ _ (denotes_noNan ht) h2) hnan
  refine ⟨key, ?_⟩
  cases hl : loads N false text with
  | none => rfl
  | some v => exact absurd ((C124_reader N false text v).1 hl) (key v)

/-- **C125** (`print_results`): what is printed is read back by `json.loads` as the scores of every model. -/
theorem C125_printed (N : NumText (Int ⊕ α)) (r : Report α) :
    ∃ v, loads N true (resultsText N r) = some v ∧
      ∀ a sc, r.results.get? a = some sc → ∀ m x, sc.get? m = some x → Spec.under v [a, m] = some (numJson x) := by
  refine ⟨_, C124_python_reads N true 4 _, ?_⟩
  intro a sc ha m x hx
  rw [under_nested _ _ _ _ _ ha, hx]
  simp only [Option.bind_some]
  cases numJson x <;> rfl

end

end Ranx
