import Mathlib.Data.List.Nodup
import Mathlib.Data.List.Sublists
import Verif.Props.Compare2

/-!
# Properties C71, C72, C74, C87: what a report shows

`Spec.SigBetter r a m b`: the report's comparison of `a` and `b` for the metric is significant and `a`'s
score is greater.
-/

set_option linter.unusedSectionVars false

namespace Ranx
open Dict Store Eval Metrics Py Stat Rep
variable {κ δ ι α : Type*}
variable [Field α] [LinearOrder α] [IsStrictOrderedRing α]

/-- model `a` is significantly better than `b` for the metric `m` -/
def Spec.SigBetter (r : Report α) (a m b : Str) : Prop :=
  ∃ (c : Result α) (x y : α), r.comparison a b m = .ok c ∧ c.significant = true ∧
    r.score a m = .ok (.val x) ∧ r.score b m = .ok (.val y) ∧ y < x

theorem better_iff (r : Report α) (a m b : Str) (v : Bool) (h : r.better a m b = .ok v) :
    v = true ↔ Spec.SigBetter r a m b := by
  unfold Report.better at h
  unfold Spec.SigBetter
  cases hc : r.comparison a b m with
  | error e => rw [hc] at h; cases h
  | ok c =>
    rw [hc] at h
    simp only at h
    by_cases hs : c.significant = true
    · rw [if_pos hs] at h
      cases ha : r.score a m with
      | error e => rw [ha] at h; cases h
      | ok x =>
        cases hb : r.score b m with
        | error e => rw [ha, hb] at h; cases h
        | ok y =>
          rw [ha, hb] at h
          simp only [Except.ok.injEq] at h
          subst h
          constructor
          · intro hlt
            cases x with
            | nan => cases y <;> cases hlt
            | val x =>
              cases y with
              | nan => cases hlt
              | val y =>
                refine ⟨c, x, y, rfl, hs, rfl, rfl, ?_⟩
                simpa [ltNum] using hlt
          · rintro ⟨c', x', y', -, -, h1, h2, h3⟩
            cases h1; cases h2
            simpa [ltNum] using h3
    · rw [if_neg hs] at h
      cases h
      constructor
      · intro h; cases h
      · rintro ⟨c', x', y', h0, h1, -⟩
        cases h0
        exact absurd h1 hs

theorem marks_spec (r : Report α) (cs : List Char) (hcs : cs.Nodup) (want : Bool) (model metric : Str)
    (names : List Str) (k : Nat) (s : Str) (h : r.marks cs want model metric (names.zipIdx k) = .ok s) :
    s.Sublist (cs.drop k) ∧
    (∀ c ∈ s, ∃ (j : Nat) (other : Str), cs[k + j]? = some c ∧ names[j]? = some other) ∧
    ∀ (j : Nat) (c : Char) (other : Str), cs[k + j]? = some c → names[j]? = some other →
      (c ∈ s ↔ model ≠ other ∧ (if want then Spec.SigBetter r model metric other
        else ¬ Spec.SigBetter r model metric other)) := by
  induction names generalizing k s with
  | nil =>
    simp only [List.zipIdx_nil, Report.marks, Except.ok.injEq] at h
    subst h
    exact ⟨List.nil_sublist _, by simp, by simp⟩
  | cons x t ih =>
    rw [List.zipIdx_cons] at h
    unfold Report.marks at h
    have drop1 : ∀ c, cs[k]? = some c → cs.drop k = c :: cs.drop (k + 1) := by
      intro c hc
      obtain ⟨hlt, rfl⟩ := List.getElem?_eq_some_iff.1 hc
      exact List.drop_eq_getElem_cons hlt
    have notlater : ∀ (s' : Str) c, s'.Sublist (cs.drop (k + 1)) → cs[k]? = some c → c ∉ s' := by
      intro s' c hs' hc hmem
      have hm := hs'.subset hmem
      have hnd : (cs.drop k).Nodup := hcs.sublist (List.drop_sublist _ _)
      rw [drop1 c hc] at hnd
      exact (List.nodup_cons.1 hnd).1 hm
    have hskip : ∀ (s' : Str), r.marks cs want model metric (t.zipIdx (k + 1)) = .ok s' →
        (∀ c, cs[k]? = some c → ¬ (model ≠ x ∧ (if want then Spec.SigBetter r model metric x
          else ¬ Spec.SigBetter r model metric x))) → 
        s'.Sublist (cs.drop k) ∧
        (∀ c ∈ s', ∃ (j : Nat) (other : Str), cs[k + j]? = some c ∧ (x :: t)[j]? = some other) ∧
        ∀ (j : Nat) (c : Char) (other : Str), cs[k + j]? = some c → (x :: t)[j]? = some other →
          (c ∈ s' ↔ model ≠ other ∧ (if want then Spec.SigBetter r model metric other
            else ¬ Spec.SigBetter r model metric other)) := by
      intro s' hs' hno
      obtain ⟨g1, g2, g3⟩ := ih (k + 1) s' hs'
      refine ⟨g1.trans (by rw [← List.drop_drop]; exact List.drop_sublist _ _), ?_, ?_⟩
      · intro c hc
        obtain ⟨j, o, e1, e2⟩ := g2 c hc
        exact ⟨j + 1, o, by rw [show k + (j + 1) = k + 1 + j by omega]; exact e1, by simpa using e2⟩
      · intro j c o hc ho
        cases j with
        | zero =>
          simp only [List.getElem?_cons_zero, Option.some.injEq] at ho
          subst ho
          constructor
          · intro hm; exact absurd hm (notlater s' c g1 hc)
          · intro hb; exact absurd hb (hno c hc)
        | succ j =>
          refine g3 j c o ?_ (by simpa using ho)
          rw [show k + 1 + j = k + (j + 1) by omega]; exact hc
    by_cases hne : model ≠ x
    · rw [if_pos hne] at h
      cases hb : r.better model metric x with
      | error e => rw [hb] at h; cases h
      | ok b =>
        rw [hb] at h
        simp only at h
        have hbi := better_iff r model metric x b hb
        by_cases hw : b = want
        · rw [if_pos hw] at h
          cases hc : cs[k]? with
          | none => rw [hc] at h; cases h
          | some c =>
            rw [hc] at h
            simp only at h
            cases hrec : r.marks cs want model metric (t.zipIdx (k + 1)) with
            | error e => rw [hrec] at h; cases h
            | ok s' =>
              rw [hrec] at h
              simp only [Except.ok.injEq] at h
              subst h
              obtain ⟨g1, g2, g3⟩ := ih (k + 1) s' hrec
              refine ⟨by rw [drop1 c hc]; exact List.Sublist.cons_cons c g1, ?_, ?_⟩
              · intro c' hc'
                rcases List.mem_cons.1 hc' with rfl | hc'
                · exact ⟨0, x, hc, rfl⟩
                · obtain ⟨j, o, e1, e2⟩ := g2 c' hc'
                  exact ⟨j + 1, o, by rw [show k + (j + 1) = k + 1 + j by omega]; exact e1, by simpa using e2⟩
              · intro j c' o hc' ho
                cases j with
                | zero =>
                  simp only [List.getElem?_cons_zero, Option.some.injEq] at ho
                  subst ho
                  rw [Nat.add_zero, hc] at hc'
                  cases hc'
                  refine ⟨fun _ => ⟨hne, ?_⟩, fun _ => List.mem_cons_self ..⟩
                  cases want with
                  | true => simpa using hbi.1 hw
                  | false => simpa using fun hc => by rw [hbi.2 hc] at hw; cases hw
                | succ j =>
                  have hidx : cs[k + 1 + j]? = some c' := by
                    rw [show k + 1 + j = k + (j + 1) by omega]; exact hc'
                  have := g3 j c' o hidx (by simpa using ho)
                  rw [← this, List.mem_cons]
                  constructor
                  · rintro (rfl | h)
                    · exfalso
                      have hlt : k < cs.length := (List.getElem?_eq_some_iff.1 hc).1
                      have := (List.getElem?_inj hlt hcs).1 (hc.trans hc'.symm)
                      omega
                    · exact h
                  · exact fun h => .inr h
        · rw [if_neg hw] at h
          refine hskip s h ?_
          rintro c - ⟨-, hcond⟩
          cases want with
          | true =>
            simp only [if_true] at hcond
            exact hw (hbi.2 hcond)
          | false =>
            simp only [Bool.false_eq_true, if_false] at hcond
            cases b with
            | true => exact hcond (hbi.1 rfl)
            | false => exact hw rfl
    · rw [if_neg hne] at h
      exact hskip s h (fun c _ hcond => hne hcond.1)

theorem chars_nodup : chars.Nodup := by decide +kernel
theorem superChars_nodup : superChars.Nodup := by decide +kernel

/-- **C71** (the letters): the `j`-th letter of the LaTeX table is the `j`-th letter of the alphabet, and
the letters of the printed table are, in this order, the Unicode modifier letters a, b, c, … (code points
in hexadecimal; the letter for `q`, which Unicode lacked, is the digit U+06F9). -/
theorem C71_letters :
    (∀ j : Nat, j < 26 → chars[j]? = some (Char.ofNat ('a'.toNat + j))) ∧ chars.length = 26 ∧
    superChars.map Char.toNat = [0x1D43, 0x1D47, 0x1D9C, 0x1D48, 0x1D49, 0x1DA0, 0x1D4D, 0x02B0, 0x2071,
      0x02B2, 0x1D4F, 0x02E1, 0x1D50, 0x207F, 0x1D52, 0x1D56, 0x06F9, 0x02B3, 0x02E2, 0x1D57, 0x1D58,
      0x1D5B, 0x02B7, 0x02E3, 0x02B8, 0x1DBB] := by
  refine ⟨by decide +kernel, by decide +kernel, by decide +kernel⟩

/-- **C71** (table): the superscript of a cell is a selection, in alphabetical order, of the letters of
the models (the `j`-th model has the `j`-th letter); the letter of another model is shown exactly when
the row's model is significantly better than that model for the metric. -/
theorem C71_table (r : Report α) (model metric : Str) (s : Str) (h : r.superscriptTable model metric = .ok s) :
    s.Sublist superChars ∧
    (∀ c ∈ s, ∃ (j : Nat) (other : Str), superChars[j]? = some c ∧ r.modelNames[j]? = some other) ∧
    ∀ (j : Nat) (c : Char) (other : Str), superChars[j]? = some c → r.modelNames[j]? = some other →
      (c ∈ s ↔ model ≠ other ∧ Spec.SigBetter r model metric other) := by
  obtain ⟨g1, g2, g3⟩ := marks_spec r superChars superChars_nodup true model metric r.modelNames 0 s h
  simp only [Nat.zero_add, if_true, List.drop_zero] at g1 g2 g3
  exact ⟨g1, g2, g3⟩

/-- **C71** (LaTeX): the same for the LaTeX table, whose phantoms are the letters not shown: the letters
of the other models which are not significantly worse. -/
theorem C71_latex (r : Report α) (model metric : Str) (s ph : Str) (h : r.superscriptLatex model metric = .ok s)
    (hp : r.phantoms model metric = .ok ph) :
    s.Sublist chars ∧ ph.Sublist chars ∧
    (∀ c, c ∈ s ∨ c ∈ ph → ∃ (j : Nat) (other : Str), chars[j]? = some c ∧ r.modelNames[j]? = some other) ∧
    ∀ (j : Nat) (c : Char) (other : Str), chars[j]? = some c → r.modelNames[j]? = some other →
      (c ∈ s ↔ model ≠ other ∧ Spec.SigBetter r model metric other) ∧
      (c ∈ ph ↔ model ≠ other ∧ ¬ Spec.SigBetter r model metric other) := by
  obtain ⟨g1, g2, g3⟩ := marks_spec r chars chars_nodup true model metric r.modelNames 0 s h
  obtain ⟨f1, f2, f3⟩ := marks_spec r chars chars_nodup false model metric r.modelNames 0 ph hp
  simp only [Nat.zero_add, if_true, List.drop_zero, Bool.false_eq_true, if_false] at g1 g2 g3 f1 f2 f3
  refine ⟨g1, f1, ?_, fun j c o hc ho => ⟨g3 j c o hc ho, f3 j c o hc ho⟩⟩
  rintro c (hc | hc)
  · exact g2 c hc
  · exact f2 c hc

/-- every pair of models has been compared and every model scored for the metric, as `compare` does -/
def Spec.Complete (r : Report α) (metric : Str) : Prop :=
  (∀ a ∈ r.modelNames, ∃ x, r.score a metric = .ok x) ∧
  ∀ a ∈ r.modelNames, ∀ b ∈ r.modelNames, a ≠ b → ∃ c, r.comparison a b metric = .ok c

theorem marks_succeeds (r : Report α) (cs : List Char) (want : Bool) (model metric : Str)
    (hc : Spec.Complete r metric) (hm : model ∈ r.modelNames)
    (names : List Str) (hn : ∀ x ∈ names, x ∈ r.modelNames) (k : Nat) (hlen : k + names.length ≤ cs.length) :
    ∃ s, r.marks cs want model metric (names.zipIdx k) = .ok s := by
  induction names generalizing k with
  | nil => exact ⟨[], rfl⟩
  | cons x t ih =>
    simp only [List.length_cons] at hlen
    obtain ⟨s, hs⟩ := ih (fun y hy => hn y (by simp [hy])) (k + 1) (by omega)
    rw [List.zipIdx_cons]
    unfold Report.marks
    by_cases hne : model ≠ x
    · rw [if_pos hne]
      have hb : ∃ b, r.better model metric x = .ok b := by
        unfold Report.better
        obtain ⟨c, h1⟩ := hc.2 model hm x (hn x (by simp)) hne
        obtain ⟨u, h2⟩ := hc.1 model hm
        obtain ⟨v, h3⟩ := hc.1 x (hn x (by simp))
        rw [h1, h2, h3]
        by_cases hs : c.significant = true
        · simp only [if_pos hs]; exact ⟨_, rfl⟩
        · simp only [if_neg hs]; exact ⟨_, rfl⟩
      obtain ⟨b, hb⟩ := hb
      rw [hb]
      simp only
      by_cases hw : b = want
      · rw [if_pos hw, List.getElem?_eq_getElem (by omega : k < cs.length)]
        simp only
        rw [hs]
        exact ⟨_, rfl⟩
      · rw [if_neg hw]; exact ⟨s, hs⟩
    · rw [if_neg hne]; exact ⟨s, hs⟩

/-- **C71** (success): with at most 26 models the superscripts and phantoms exist. -/
theorem C71_succeeds (r : Report α) (model metric : Str) (hc : Spec.Complete r metric)
    (hm : model ∈ r.modelNames) (hlen : r.modelNames.length ≤ 26) :
    (∃ s, r.superscriptTable model metric = .ok s) ∧ (∃ s, r.superscriptLatex model metric = .ok s) ∧
    ∃ s, r.phantoms model metric = .ok s := by
  have h1 : superChars.length = 26 := by decide +kernel
  have h2 : chars.length = 26 := by decide +kernel
  exact ⟨marks_succeeds r _ _ _ _ hc hm _ (fun _ h => h) 0 (by omega),
    marks_succeeds r _ _ _ _ hc hm _ (fun _ h => h) 0 (by omega),
    marks_succeeds r _ _ _ _ hc hm _ (fun _ h => h) 0 (by omega)⟩

/-! ## the rows of the table -/

theorem tableCells_spec (r : Report α) (fm : Fmt α) (run : Str) (v : Dict Str (Num α)) (cells : List Str)
    (h : r.tableCells fm run v = .ok cells) :
    cells.length = v.length ∧ ∀ (k : Nat) m x, v[k]? = some (m, x) →
      ∃ t sup, fm.format x = .ok t ∧ r.superscriptTable run m = .ok sup ∧ cells[k]? = some (t ++ sup) := by
  induction v generalizing cells with
  | nil => cases h; simp
  | cons p t ih =>
    obtain ⟨m, x⟩ := p
    unfold Report.tableCells at h
    cases hf : fm.format x with
    | error e => rw [hf] at h; cases h
    | ok s =>
      rw [hf] at h
      simp only at h
      cases hs : r.superscriptTable run m with
      | error e => rw [hs] at h; cases h
      | ok sup =>
        rw [hs] at h
        simp only at h
        cases hr : r.tableCells fm run t with
        | error e => rw [hr] at h; cases h
        | ok cs =>
          rw [hr] at h
          simp only [Except.ok.injEq] at h
          subst h
          obtain ⟨g1, g2⟩ := ih cs hr
          refine ⟨by simp [g1], ?_⟩
          intro k m' x' hk
          cases k with
          | zero =>
            simp only [List.getElem?_cons_zero, Option.some.injEq, Prod.mk.injEq] at hk
            obtain ⟨rfl, rfl⟩ := hk
            exact ⟨s, sup, hf, hs, rfl⟩
          | succ k =>
            obtain ⟨t', sup', e1, e2, e3⟩ := g2 k m' x' (by simpa using hk)
            exact ⟨t', sup', e1, e2, by simpa using e3⟩

theorem tableRows_spec (r : Report α) (fm : Fmt α) (res : List (Str × Dict Str (Num α))) (k : Nat)
    (rows : List (Char × Str × List Str)) (h : r.tableRows fm (res.zipIdx k) = .ok rows) :
    rows.length = res.length ∧ ∀ (i : Nat) n v, res[i]? = some (n, v) →
      ∃ c cells, chars[k + i]? = some c ∧ r.tableCells fm n v = .ok cells ∧ rows[i]? = some (c, n, cells) := by
  induction res generalizing k rows with
  | nil => cases h; simp
  | cons p t ih =>
    obtain ⟨n, v⟩ := p
    rw [List.zipIdx_cons] at h
    unfold Report.tableRows at h
    cases hc : chars[k]? with
    | none => rw [hc] at h; cases h
    | some c =>
      rw [hc] at h
      simp only at h
      cases ht : r.tableCells fm n v with
      | error e => rw [ht] at h; cases h
      | ok cells =>
        rw [ht] at h
        simp only at h
        cases hr : r.tableRows fm (t.zipIdx (k + 1)) with
        | error e => rw [hr] at h; cases h
        | ok rs =>
          rw [hr] at h
          simp only [Except.ok.injEq] at h
          subst h
          obtain ⟨g1, g2⟩ := ih (k + 1) rs hr
          refine ⟨by simp [g1], ?_⟩
          intro i n' v' hi
          cases i with
          | zero =>
            simp only [List.getElem?_cons_zero, Option.some.injEq, Prod.mk.injEq] at hi
            obtain ⟨rfl, rfl⟩ := hi
            exact ⟨c, cells, hc, ht, rfl⟩
          | succ i =>
            obtain ⟨c', cells', e1, e2, e3⟩ := g2 i n' v' (by simpa using hi)
            exact ⟨c', cells', by rw [show k + (i + 1) = k + 1 + i by omega]; exact e1, e2, by simpa using e3⟩

end Ranx
