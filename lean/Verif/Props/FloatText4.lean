import Verif.Props.FloatText3
import Verif.Props.FilesEval
import Verif.Props.JsonFiles
import Verif.Props.JsonReport

/-!
# C126: the assumptions on numbers in files are met by Python's and orjson's numbers

`Files.FloatText` and `Jsn.NumText` are what the theorems on files assume of the texts of numbers.  Here are the
instances for binary64 numbers.
-/

set_option linter.unusedSectionVars false

namespace Ranx
open F64 FText Files Jsn Special
open Py (Str natStr intStr isSpace strip pyNat natStr_isDigit natStr_ne_nil isDigit_not_space pyNat_natStr)

instance FText.decIsFloat (x : ℚ) : Decidable (IsFloat x) := inferInstanceAs (Decidable (_ ∧ _))

theorem FText.binary64_toFloat {x y : ℚ} (h : toFloat x = some y) : Spec.Binary64 y := by
  obtain ⟨rfl, h2⟩ := (toFloat_eq_some _ _).1 h
  exact binary64_rd h2

theorem FText.binary64_jsonFloat {s : Str} {y : ℚ} (h : jsonFloat s = some y) : Spec.Binary64 y := by
  obtain ⟨x, -, h1, h2⟩ := (C126_reading_json s y).1 h
  exact binary64_toFloat ((toFloat_eq_some x y).2 ⟨h1, h2⟩)

theorem FText.binary64_pyFloat {s : Str} {y : ℚ} (h : pyFloat s = some y) : Spec.Binary64 y := by
  obtain ⟨x, -, h1, h2⟩ := (C126_reading s y).1 h
  exact binary64_toFloat ((toFloat_eq_some x y).2 ⟨h1, h2⟩)

theorem FText.text_ne_nil {p : Parts} (h : p.pyOk = true) : p.text ≠ [] := by
  intro e
  unfold Parts.text at e
  simp only [List.append_eq_nil_iff] at e
  obtain ⟨-, h2, h3, -⟩ := e
  unfold Parts.pyOk at h
  cases hf : p.frac with
  | none => rw [h2, hf] at h; exact absurd h (by decide)
  | some f => rw [hf] at h3; cases h3

theorem FText.text_head {p : Parts} (h : p.Ok) (hi : p.int ≠ []) : p.text.head? ≠ some 'e' := by
  unfold Parts.text
  intro e
  cases hs : p.sign with
  | some c =>
    rw [hs] at e
    simp only [Option.toList_some, List.cons_append, List.head?_cons, Option.some.injEq] at e
    rcases h.sign c hs with hc | hc <;> rw [hc] at e <;> revert e <;> decide
  | none =>
    cases hn : p.int with
    | nil => exact hi hn
    | cons c t =>
      rw [hs, hn] at e
      simp only [Option.toList_none, List.nil_append, List.cons_append, List.head?_cons, Option.some.injEq] at e
      have := h.int c (by rw [hn]; simp)
      rw [e] at this
      revert this; decide

theorem FText.jsonOk_int {p : Parts} (h : p.jsonOk = true) : p.int ≠ [] := by
  unfold Parts.jsonOk at h
  simp only [Bool.and_eq_true, Bool.or_eq_true, decide_eq_true_eq, beq_iff_eq, Bool.not_eq_true',
    List.isEmpty_eq_false_iff] at h
  rcases h.1.2 with h | h
  · rw [h]; simp
  · exact h.1

theorem FText.text_numChar {p : Parts} (h : p.Ok) : ∀ c ∈ p.text, numChar c = true := by
  have hd : ∀ {c : Char}, c.isDigit = true → numChar c = true := by
    intro c hc; unfold numChar; rw [hc]; rfl
  have hsign : ∀ {s : Option Char}, SignOk s → ∀ c ∈ s.toList, numChar c = true := by
    intro s hs c hc
    rw [Option.mem_toList] at hc
    rcases hs c hc with rfl | rfl <;> decide
  intro c hc
  unfold Parts.text at hc
  simp only [List.mem_append] at hc
  rcases hc with hc | hc | hc | hc
  · exact hsign h.sign c hc
  · exact hd (h.int c hc)
  · cases hf : p.frac with
    | none => rw [hf] at hc; cases hc
    | some f =>
      rw [hf] at hc
      rcases List.mem_cons.1 hc with rfl | hc
      · decide
      · exact hd (h.frac f hf c hc)
  · cases he : p.exp with
    | none => rw [he] at hc; cases hc
    | some e =>
      obtain ⟨a, s, d⟩ := e
      obtain ⟨h1, h2, h3, h4⟩ := h.exp a s d he
      rw [he] at hc
      rcases List.mem_cons.1 hc with rfl | hc
      · rcases h1 with rfl | rfl <;> decide
      · rcases List.mem_append.1 hc with hc | hc
        · exact hsign h2 c hc
        · exact hd (h4 c hc)

/-- the texts of floats: no white space, only characters of numbers, does not start with `e` -/
theorem FText.floatStr_chars (st : Style) {x : ℚ} (hx : IsFloat x) : floatStr st x ≠ [] ∧
    (∀ c ∈ floatStr st x, isSpace c = false) ∧ (∀ c ∈ floatStr st x, numChar c = true) ∧
    (floatStr st x).head? ≠ some 'e' := by
  obtain ⟨q, hq⟩ := floatStr_spec st hx.1
  rw [← hq.text]
  exact ⟨text_ne_nil hq.python, text_no_space hq.ok, text_numChar hq.ok, text_head hq.ok (jsonOk_int hq.json)⟩

theorem FText.no_e {s : Str} (h : s.head? = some 'e') : split s = none ∨ ∃ p, split s = some p ∧ p.int = [] ∧
    p.frac = none := by
  cases hs : split s with
  | none => exact .inl rfl
  | some p =>
    right
    obtain ⟨h1, h2⟩ := split_spec hs
    refine ⟨p, rfl, ?_, ?_⟩
    · by_contra hi
      exact text_head h1 hi (by rw [← h2]; exact h)
    · cases hf : p.frac with
      | none => rfl
      | some f =>
        exfalso
        rw [h2] at h
        unfold Parts.text at h
        cases hsg : p.sign with
        | some c =>
          rw [hsg] at h
          simp only [Option.toList_some, List.cons_append, List.head?_cons, Option.some.injEq] at h
          rcases h1.sign c hsg with hc | hc <;> rw [hc] at h <;> revert h <;> decide
        | none =>
          cases hi : p.int with
          | nil =>
            rw [hsg, hi, hf] at h
            simp only [Option.toList_none, List.nil_append, fracText, List.cons_append, List.head?_cons,
              Option.some.injEq] at h
            revert h; decide
          | cons c t =>
            exact text_head h1 (by rw [hi]; simp) (by unfold Parts.text; exact h)

theorem FText.strip_head {s : Str} (h : s.head? = some 'e') : (strip s).head? = some 'e' := by
  cases s with
  | nil => cases h
  | cons c t =>
    simp only [List.head?_cons, Option.some.injEq] at h
    subst h
    have e1 : ('e' :: t).dropWhile isSpace = 'e' :: t := by
      rw [List.dropWhile_cons, if_neg (by decide)]
    unfold strip
    rw [e1]
    rw [List.head?_reverse]
    have : ∀ l : Str, (∃ c ∈ l, isSpace c = false) → (l.dropWhile isSpace).getLast? = l.getLast? := by
      intro l
      induction l with
      | nil => rintro ⟨c, hc, -⟩; cases hc
      | cons a l ih =>
        rintro ⟨c, hc, hs⟩
        rw [List.dropWhile_cons]
        split_ifs with ha
        · rcases List.mem_cons.1 hc with rfl | hc
          · rw [hs] at ha; cases ha
          · rw [ih ⟨c, hc, hs⟩]
            cases l with
            | nil => cases hc
            | cons b l => rw [List.getLast?_cons_cons]
        · rfl
    rw [this _ ⟨'e', by simp, by decide⟩, List.getLast?_reverse]
    rfl

/-- `float(...)` rejects texts that start with `e` -/
theorem FText.pyFloat_e {s : Str} (h : s.head? = some 'e') : pyFloat s = none := by
  unfold pyFloat
  rcases no_e (strip_head h) with h | ⟨p, h, h1, h2⟩
  · rw [h]
  · rw [h]
    simp only
    rw [if_neg]
    unfold Parts.pyOk
    rw [h1, h2]
    decide

/-! ## Scores of TREC files -/

/-- `f"{score}"` (run.py:217) and `float(text)` (run.py:282) on binary64 numbers.  Other rational numbers, which are not
scores of any run, get texts that `float` rejects. -/
def FText.pyText : FloatText ℚ where
  show' x := if IsFloat x then floatStr .python x else 'e' :: natStr (Encodable.encode x)
  parse s := if s.head? = some 'e' then (pyNat s.tail).bind Encodable.decode else pyFloat s
  parse_show x := by
    by_cases h : IsFloat x
    · rw [if_pos h, if_neg (floatStr_chars .python h).2.2.2]
      exact (C126_roundtrip .python ((isFloat_iff x).1 h)).1
    · rw [if_neg h, if_pos (by rfl)]
      rw [List.tail_cons, pyNat_natStr, Option.bind_some, Encodable.encodek]
  ne_nil x := by
    by_cases h : IsFloat x
    · rw [if_pos h]; exact (floatStr_chars .python h).1
    · rw [if_neg h]; simp
  noSpace x c hc := by
    by_cases h : IsFloat x
    · rw [if_pos h] at hc; exact (floatStr_chars .python h).2.1 c hc
    · rw [if_neg h] at hc
      rcases List.mem_cons.1 hc with rfl | hc
      · decide
      · exact isDigit_not_space (natStr_isDigit hc)

/-- **C126** (texts of scores): on binary64 numbers, `pyText` is `repr` and `float`. -/
theorem C126_python_text :
    (∀ x, Spec.Binary64 x → pyText.show' x = floatStr .python x) ∧
      ∀ s y, Spec.Binary64 y → s.head? ≠ some 'e' → (pyText.parse s = some y ↔ pyFloat s = some y) := by
  refine ⟨fun x hx => if_pos ((isFloat_iff x).2 hx), fun s y _ hs => ?_⟩
  show (if s.head? = some 'e' then _ else _) = _ ↔ _
  rw [if_neg hs]

section
variable {B : Type*}

/-- **C126** (TREC files): a run with binary64 scores, its docs and queries being words, saved in TREC format and loaded
again has exactly the scores it had. -/
theorem C126_trec (C : Codec B ℚ) (S S' : ArgSort ℚ) (r : RunFile ℚ) (hs : Reachable S r.store) (path : Str)
    (kind : Option Str) (hk : runKind path kind = .ok .trec) (hids : Spec.WordIds r.store)
    (hn : Files.Spec.Word (nameText r.name)) (hne : ∃ p ∈ r.store.data, p.2 ≠ []) :
    ∃ bytes r', (saveRun C pyText S r path kind).2 = .ok bytes ∧
      loadRun C pyText S' bytes path kind none = .ok r' ∧
      (∀ q x, (Spec.content r'.store).read q x = (Spec.content r.store).read q x) ∧
      (∀ p ∈ r'.store.data, Spec.Ranked p.2.values) := by
  obtain ⟨b, r', h1, h2, -, -, h4, -, h6⟩ :=
    C75_trec_roundtrip C pyText S S' r hs path path kind kind hk hk none hids hn hne
  exact ⟨b, r', h1, h2, h4, h6.2.1⟩

end

/-! ## Numbers of JSON files -/

/-- floats in JSON files, exactly -/
def FText.floatNum (st : Style) : NumText {x : ℚ // Spec.Binary64 x} where
  write x := floatStr st x.1
  read s := (jsonFloat s).pmap (fun y h => ⟨y, h⟩) (fun _ h => binary64_jsonFloat h)
  read_write x := by
    have := (C126_roundtrip st x.2).2.1
    rw [Option.pmap_eq_some_iff]
    exact ⟨x.1, x.2, this, rfl⟩
  read_nil := by
    rw [Option.pmap_eq_none_iff]; decide +kernel
  chars x := (floatStr_chars st ((isFloat_iff x.1).2 x.2)).2.2.1

/-- **C126** (JSON): any JSON value with binary64 numbers, written by `orjson` or by `json`, is JSON text that stands for
this value only and is read back as this value by both libraries. -/
theorem C126_json (st : Style) (ascii : Bool) (indent : Nat) (v : Json {x : ℚ // Spec.Binary64 x}) (h : Spec.noNan v) :
    (∀ v', Spec.JsonText (floatNum st) false (dumps (floatNum st) ascii indent 0 v) v' ↔ v' = v) ∧
      ∀ lax, loads (floatNum st) lax (dumps (floatNum st) ascii indent 0 v) = some v := by
  have hs := fun v' => C124_strict (N := floatNum st) ascii indent v v'
  refine ⟨fun v' => by rw [hs]; exact ⟨fun h => h.1, fun e => ⟨e, h⟩⟩, ?_⟩
  intro lax
  cases lax with
  | false => exact (C124_reader _ _ _ _).2 ((hs v).2 ⟨rfl, h⟩)
  | true => exact C124_python_reads _ ascii indent v

/-- numbers of the JSON file of a run; rational numbers that are not floats get texts that are not JSON -/
def FText.ratNum (st : Style) : NumText ℚ where
  write x := if IsFloat x then floatStr st x else 'e' :: natStr (Encodable.encode x)
  read s := if s.head? = some 'e' then (pyNat s.tail).bind Encodable.decode else jsonFloat s
  read_write x := by
    by_cases h : IsFloat x
    · rw [if_pos h, if_neg (floatStr_chars st h).2.2.2]
      exact (C126_roundtrip st ((isFloat_iff x).1 h)).2.1
    · rw [if_neg h, if_pos (by rfl)]
      rw [List.tail_cons, pyNat_natStr, Option.bind_some, Encodable.encodek]
  read_nil := by decide +kernel
  chars x c hc := by
    by_cases h : IsFloat x
    · rw [if_pos h] at hc; exact (floatStr_chars st h).2.2.1 c hc
    · rw [if_neg h] at hc
      rcases List.mem_cons.1 hc with rfl | hc
      · decide
      · unfold numChar; rw [natStr_isDigit hc]; rfl

/-! ## Integers -/

theorem FText.natStr_ok (n : Nat) : natStr n = ['0'] ∨ (natStr n ≠ [] ∧ (natStr n).head? ≠ some '0') := by
  rcases Nat.eq_zero_or_pos n with rfl | h
  · exact .inl rfl
  · exact .inr ⟨natStr_ne_nil n, natStr_head n h⟩

/-- the parts of an integer -/
def FText.intParts : Int → Parts
  | .ofNat n => ⟨none, natStr n, none, none⟩
  | .negSucc n => ⟨some '-', natStr (n + 1), none, none⟩

theorem FText.intParts_spec (z : Int) : (intParts z).Ok ∧ (intParts z).text = intStr z ∧ (intParts z).jsonOk = true := by
  cases z with
  | ofNat n =>
    refine ⟨⟨(fun c h => by cases h), natStr_digits n, (fun f h => by cases h), (fun c s d h => by cases h)⟩, ?_, ?_⟩
    · simp [intParts, Parts.text, fracText, expText, intStr]
    · unfold Parts.jsonOk
      simp only [Bool.and_eq_true, Bool.or_eq_true, decide_eq_true_eq, beq_iff_eq, Bool.not_eq_true',
        List.isEmpty_eq_false_iff]
      exact ⟨⟨by simp [intParts], natStr_ok n⟩, by simp [intParts]⟩
  | negSucc n =>
    refine ⟨⟨?_, natStr_digits (n + 1), (fun f h => by cases h), (fun c s d h => by cases h)⟩, ?_, ?_⟩
    · intro c h
      simp only [intParts, Option.some.injEq] at h
      exact .inl h.symm
    · simp [intParts, Parts.text, fracText, expText, intStr]
    · unfold Parts.jsonOk
      simp only [Bool.and_eq_true, Bool.or_eq_true, decide_eq_true_eq, beq_iff_eq, Bool.not_eq_true',
        List.isEmpty_eq_false_iff]
      exact ⟨⟨by simp [intParts], natStr_ok (n + 1)⟩, by simp [intParts]⟩

/-- **C126** (integers): an integer written in a JSON file is read back as this integer, not as a float. -/
theorem C126_integers (z : Int) : jsonNumber (intStr z) = some (.inl z) := by
  obtain ⟨h1, h2, h3⟩ := intParts_spec z
  unfold jsonNumber
  rw [← h2, split_text h1]
  simp only [h3, if_true]
  rw [if_pos (by cases z <;> exact ⟨rfl, rfl⟩)]
  cases z with
  | ofNat n =>
    simp only [intParts, natOf_natStr]
    rfl
  | negSucc n =>
    simp only [intParts, natOf_natStr, if_true]
    rfl

/-- integers in JSON files -/
def FText.intNum : NumText Int where
  write := intStr
  read s := match jsonNumber s with
    | some (.inl z) => some z
    | _ => none
  read_write z := by simp only [C126_integers]
  read_nil := by decide +kernel
  chars z := by
    obtain ⟨h1, h2, -⟩ := intParts_spec z
    rw [← h2]; exact text_numChar h1

/-- numbers of a report: counts are integers, scores and p-values floats -/
def FText.reportNum : NumText (Int ⊕ ℚ) where
  write
    | .inl z => intStr z
    | .inr x => if IsFloat x then floatStr .python x else 'e' :: natStr (Encodable.encode x)
  read s := if s.head? = some 'e' then ((pyNat s.tail).bind Encodable.decode).map .inr else jsonNumber s
  read_write x := by
    cases x with
    | inl z =>
      obtain ⟨h1, h2, h3⟩ := intParts_spec z
      simp only
      rw [if_neg (by rw [← h2]; exact text_head h1 (jsonOk_int h3)), C126_integers]
    | inr x =>
      simp only
      by_cases h : IsFloat x
      · rw [if_pos h, if_neg (floatStr_chars .python h).2.2.2]
        exact (C126_roundtrip .python ((isFloat_iff x).1 h)).2.2
      · rw [if_neg h, if_pos (by rfl)]
        rw [List.tail_cons, pyNat_natStr, Option.bind_some, Encodable.encodek]
        rfl
  read_nil := by decide +kernel
  chars x := by
    cases x with
    | inl z =>
      obtain ⟨h1, h2, -⟩ := intParts_spec z
      simp only
      rw [← h2]; exact text_numChar h1
    | inr x =>
      intro c hc
      simp only at hc
      by_cases h : IsFloat x
      · rw [if_pos h] at hc; exact (floatStr_chars .python h).2.2.1 c hc
      · rw [if_neg h] at hc
        rcases List.mem_cons.1 hc with rfl | hc
        · decide
        · unfold numChar; rw [natStr_isDigit hc]; rfl

/-! ## Non-vacuity -/

/-- floats Python users know: `0.1`, `1/3`, the smallest and the largest float, and the texts of both styles -/
example :
    IsFloat (3602879701896397 / 2 ^ 55) ∧ floatStr .python (3602879701896397 / 2 ^ 55) = "0.1".toList ∧
    floatStr .python (6004799503160661 / 2 ^ 54) = "0.3333333333333333".toList ∧
    floatStr .python (-(5 / 2)) = "-2.5".toList ∧ floatStr .python 0 = "0.0".toList ∧
    floatStr .python 12 = "12.0".toList ∧ floatStr .python (10 ^ 16) = "1e+16".toList ∧
    floatStr .orjson (10 ^ 16) = "1e16".toList ∧
    floatStr .python (rd (1 / 100000)) = "1e-05".toList ∧ floatStr .orjson (rd (1 / 100000)) = "0.00001".toList ∧
    floatStr .python (rd (10 ^ 23)) = "1e+23".toList ∧
    floatStr .python (1 / 2 ^ 1074) = "5e-324".toList ∧
    floatStr .python ((2 ^ 53 - 1) * 2 ^ 971) = "1.7976931348623157e+308".toList := by decide +kernel

/-- `0.1 + 0.2` is not `0.3` -/
example : floatStr .python (rd (rd (1 / 10) + rd (2 / 10))) = "0.30000000000000004".toList ∧
    floatStr .python (rd (3 / 10)) = "0.3".toList := by decide +kernel

/-- texts that are read, and texts that are not -/
example : pyFloat " 1.5e1\n".toList = some 15 ∧ pyFloat "+.5".toList = some (1 / 2) ∧ pyFloat "5.".toList = some 5 ∧
    pyFloat "1e999".toList = none ∧ pyFloat "".toList = none ∧ pyFloat ".".toList = none ∧ pyFloat "1e".toList = none ∧
    jsonFloat "1.5e1".toList = some 15 ∧ jsonFloat "+1".toList = none ∧ jsonFloat "01".toList = none ∧
    jsonFloat ".5".toList = none ∧ jsonFloat "5.".toList = none ∧ jsonFloat "-0.5E+2".toList = some (-50) ∧
    jsonNumber "12".toList = some (.inl 12) ∧ jsonNumber "12.0".toList = some (.inr 12) := by decide +kernel

/-- the hypotheses of `C126_roundtrip` and `C126_shortest` -/
example : Spec.Binary64 (rd (1 / 3)) ∧ 0 < rd (1 / 3) ∧ Spec.Binary64 (1 / 2 ^ 1074) ∧ ¬ Spec.Binary64 (1 / 3) := by
  simp only [← isFloat_iff]
  decide +kernel

/-- the hypotheses of `C126_trec` -/
example : Spec.Binary64 (5 / 2) ∧ runKind "run.trec".toList none = .ok .trec ∧ Spec.WordIds exSavedRun.store ∧
    Files.Spec.Word (nameText exSavedRun.name) ∧ (∃ p ∈ exSavedRun.store.data, p.2 ≠ []) ∧
    writeText (runLine pyText (nameText exSavedRun.name)) (exSavedRun.store.data) =
      "q1 Q0 d2 1 1.0 bm25\nq1 Q0 d3 2 2.5 bm25".toList := by
  refine ⟨(isFloat_iff _).1 (by decide +kernel), by decide +kernel, by unfold Spec.WordIds; decide +kernel,
    by decide +kernel, by decide +kernel, by decide +kernel⟩

end Ranx
