import Verif.Props.FloatText2
import Mathlib.Tactic.IntervalCases

/-!
# C126: writing of floats, and reading back what was written
-/

set_option linter.unusedSectionVars false

namespace Ranx
open F64 FText
open Py (Str natStr isSpace strip natStr_isDigit natStr_ne_nil isDigit_not_space strip_eq_self)

/-! ## Digits -/

theorem FText.trim_spec (s : Str) : ∃ z, s = trim s ++ List.replicate z '0' := by
  refine ⟨(s.reverse.takeWhile (fun c => c == '0')).length, ?_⟩
  have h : s.reverse.takeWhile (fun c => c == '0') =
      List.replicate (s.reverse.takeWhile (fun c => c == '0')).length '0' := by
    rw [List.eq_replicate_iff]
    refine ⟨rfl, fun b hb => ?_⟩
    have := List.mem_takeWhile_imp hb
    simpa using this
  have h2 := List.takeWhile_append_dropWhile (p := fun c : Char => c == '0') (l := s.reverse)
  have h3 := congrArg List.reverse h2
  rw [List.reverse_append, List.reverse_reverse] at h3
  unfold trim
  conv_lhs => rw [← h3]
  congr 1
  rw [h, List.reverse_replicate, List.length_replicate]

theorem FText.natOf_natStr (m : Nat) : natOf (natStr m) = m := Nat.ofDigitChars_ten_toDigits

theorem FText.natStr_head (m : Nat) (hm : 0 < m) : (natStr m).head? ≠ some '0' := by
  induction m using Nat.strong_induction_on with
  | _ m ih =>
    unfold natStr
    rw [Nat.toDigits_eq_if (by norm_num)]
    split_ifs with h
    · simp only [List.head?_cons, ne_eq, Option.some.injEq]
      interval_cases m <;> decide
    · have hd : 0 < m / 10 := by omega
      have := ih (m / 10) (by omega) hd
      unfold natStr at this
      cases ht : Nat.toDigits 10 (m / 10) with
      | nil => exact absurd ht Nat.toDigits_ne_nil
      | cons c t => rw [ht] at this; simpa using this

/-- digits without needless zeros -/
structure FText.GoodDigits (d : Str) : Prop where
  ne : d ≠ []
  digits : Spec.AllDigits d
  head : d.head? ≠ some '0'

theorem FText.trim_good {m : Nat} (hm : 0 < m) : GoodDigits (trim (natStr m)) ∧
    ∃ z, m = natOf (trim (natStr m)) * 10 ^ z ∧ (natStr m).length = (trim (natStr m)).length + z := by
  obtain ⟨z, hz⟩ := trim_spec (natStr m)
  have hval : m = natOf (trim (natStr m)) * 10 ^ z := by
    have := natOf_natStr m
    conv_lhs => rw [← this, hz]
    rw [natOf_append, natOf_zeros, List.length_replicate, Nat.add_zero]
  have hne : trim (natStr m) ≠ [] := by
    intro h
    rw [h] at hval
    have : natOf [] = 0 := rfl
    rw [this, Nat.zero_mul] at hval
    omega
  refine ⟨⟨hne, fun c hc => ?_, ?_⟩, z, hval, ?_⟩
  · exact natStr_isDigit (n := m) (by rw [hz]; exact List.mem_append_left _ hc)
  · have := natStr_head m hm
    rw [hz] at this
    rwa [List.head?_append_of_ne_nil _ hne] at this
  · conv_lhs => rw [hz]
    simp

/-- digits of a decimal and the position of its point -/
theorem FText.digitsOf_spec {d : Nat × ℤ} (hd : 0 < d.1) : GoodDigits (digitsOf d).1 ∧
    decVal d = (natOf (digitsOf d).1 : ℚ) * 10 ^ ((digitsOf d).2 - (digitsOf d).1.length) := by
  obtain ⟨h, z, hz, hl⟩ := trim_good hd
  refine ⟨h, ?_⟩
  unfold digitsOf decVal
  simp only
  conv_lhs => rw [hz]
  rw [hl]
  push_cast
  have : ((trim (natStr d.1)).length : ℤ) + (z : ℤ) + d.2 - (trim (natStr d.1)).length = z + d.2 := by ring
  rw [this, zpow_add₀ (by norm_num), zpow_natCast, mul_assoc]

/-! ## The layout -/

/-- the parts of a written exponent -/
def FText.expParts (st : Style) (e : ℤ) : Char × Option Char × Str :=
  match st with
  | .python => ('e', some (if e < 0 then '-' else '+'), pad2 (natStr e.natAbs))
  | .orjson => ('e', if e < 0 then some '-' else none, natStr e.natAbs)

theorem FText.pad2_digits {s : Str} (h : Spec.AllDigits s) : Spec.AllDigits (pad2 s) := by
  unfold pad2
  split_ifs
  · intro c hc
    rcases List.mem_cons.1 hc with rfl | hc
    · decide
    · exact h c hc
  · exact h

theorem FText.pad2_ne {s : Str} (h : s ≠ []) : pad2 s ≠ [] := by
  unfold pad2
  split_ifs
  · simp
  · exact h

theorem FText.natOf_pad2 (s : Str) : natOf (pad2 s) = natOf s := by
  unfold pad2
  split_ifs
  · rw [natOf_cons]; simp
  · rfl

theorem FText.natStr_digits (n : Nat) : Spec.AllDigits (natStr n) := fun _ h => natStr_isDigit h

theorem FText.expParts_spec (st : Style) (e : ℤ) : ExpOk (some (expParts st e)) ∧
    expText (some (expParts st e)) = expStr st e ∧ expVal (some (expParts st e)) = e := by
  cases st with
  | python =>
    refine ⟨?_, rfl, ?_⟩
    · intro c s d h
      unfold expParts at h
      simp only [Option.some.injEq, Prod.mk.injEq] at h
      obtain ⟨rfl, rfl, rfl⟩ := h
      refine ⟨.inl rfl, ?_, pad2_ne (natStr_ne_nil _), pad2_digits (natStr_digits _)⟩
      intro c hc
      rw [Option.some.injEq] at hc
      rw [← hc]
      split_ifs
      · exact .inl rfl
      · exact .inr rfl
    · simp only [expParts, expVal, natOf_pad2, natOf_natStr]
      by_cases h : e < 0
      · rw [if_pos (by rw [if_pos h])]; omega
      · rw [if_neg (by rw [if_neg h]; decide)]; omega
  | orjson =>
    refine ⟨?_, ?_, ?_⟩
    · intro c s d h
      unfold expParts at h
      simp only [Option.some.injEq, Prod.mk.injEq] at h
      obtain ⟨rfl, rfl, rfl⟩ := h
      refine ⟨.inl rfl, ?_, natStr_ne_nil _, natStr_digits _⟩
      intro c hc
      split_ifs at hc
      rw [Option.some.injEq] at hc
      rw [← hc]
      exact .inl rfl
    · simp only [expParts, expText, expStr]
      by_cases h : e < 0
      · rw [if_pos h, if_pos h]; rfl
      · rw [if_neg h, if_neg h]; rfl
    · simp only [expParts, expVal, natOf_natStr]
      by_cases h : e < 0
      · rw [if_pos (by rw [if_pos h])]; omega
      · rw [if_neg (by rw [if_neg h]; simp)]; omega

/-- what is known of the text of a positive decimal -/
structure FText.Written (t d : Str) (p : ℤ) (q : Parts) : Prop where
  ok : q.Ok
  text : q.text = t
  sign : q.sign = none
  int : q.int = ['0'] ∨ (q.int ≠ [] ∧ q.int.head? ≠ some '0')
  frac : q.frac ≠ some []
  float : q.frac ≠ none ∨ q.exp ≠ none
  value : q.value = (natOf d : ℚ) * 10 ^ (p - d.length)

theorem FText.layout_spec (st : Style) {d : Str} (hd : GoodDigits d) (p : ℤ) : ∃ q, Written (layout st d p) d p q := by
  unfold layout
  by_cases h1 : st.low ≤ p ∧ p ≤ 16
  · rw [if_pos h1]
    by_cases h2 : p ≤ 0
    · rw [if_pos h2]
      refine ⟨⟨none, ['0'], some (List.replicate p.natAbs '0' ++ d), none⟩, ⟨(fun c h => by cases h), ?_, ?_,
        (fun c s d h => by cases h)⟩, ?_, rfl, .inl rfl, ?_, .inl (by simp), ?_⟩
      · intro c hc
        rw [List.mem_singleton] at hc
        rw [hc]; decide
      · intro f hf c hc
        rw [Option.some.injEq] at hf
        rw [← hf, List.mem_append] at hc
        rcases hc with hc | hc
        · rw [List.eq_of_mem_replicate hc]; decide
        · exact hd.digits c hc
      · unfold Parts.text fracText expText
        simp
      · simp only [ne_eq, Option.some.injEq, List.append_eq_nil_iff, not_and]
        exact fun _ => hd.ne
      · unfold Parts.value
        simp only [Option.getD_some, signVal, expVal, one_mul]
        have e1 : natOf (['0'] ++ (List.replicate p.natAbs '0' ++ d)) = natOf d := by
          rw [natOf_append, natOf_append, natOf_zeros]
          have : natOf ['0'] = 0 := by decide
          rw [this]; ring
        have e2 : (0 : ℤ) - ((List.replicate p.natAbs '0' ++ d).length : ℤ) = p - d.length := by
          rw [List.length_append, List.length_replicate, Nat.cast_add]; omega
        rw [e1, e2]
    · rw [if_neg h2]
      by_cases h3 : (d.length : ℤ) ≤ p
      · rw [if_pos h3]
        refine ⟨⟨none, d ++ List.replicate (p.natAbs - d.length) '0', some ['0'], none⟩, ⟨(fun c h => by cases h), ?_, ?_,
          (fun c s d h => by cases h)⟩, ?_, rfl, .inr ⟨?_, ?_⟩, by simp, .inl (by simp), ?_⟩
        · intro c hc
          rw [List.mem_append] at hc
          rcases hc with hc | hc
          · exact hd.digits c hc
          · rw [List.eq_of_mem_replicate hc]; decide
        · intro f hf c hc
          rw [Option.some.injEq] at hf
          rw [← hf, List.mem_singleton] at hc
          rw [hc]; decide
        · unfold Parts.text fracText expText
          simp
        · simp only [ne_eq, List.append_eq_nil_iff, not_and]
          exact fun h => absurd h hd.ne
        · show (d ++ _).head? ≠ _
          rw [List.head?_append_of_ne_nil _ hd.ne]
          exact hd.head
        · unfold Parts.value
          simp only [Option.getD_some, signVal, expVal, one_mul]
          have e1 : natOf (d ++ List.replicate (p.natAbs - d.length) '0' ++ ['0']) =
              natOf d * 10 ^ (p.natAbs - d.length + 1) := by
            rw [natOf_append, natOf_append, natOf_zeros]
            have : natOf ['0'] = 0 := by decide
            rw [this, List.length_replicate, List.length_singleton]; ring
          rw [e1]
          push_cast
          rw [mul_assoc, ← zpow_natCast, ← zpow_add₀ (by norm_num)]
          congr 2
          simp only [List.length_singleton]
          omega
      · rw [if_neg h3]
        have hp : 0 < p.natAbs := by omega
        have hlen : p.natAbs < d.length := by omega
        refine ⟨⟨none, d.take p.natAbs, some (d.drop p.natAbs), none⟩, ⟨(fun c h => by cases h), ?_, ?_,
          (fun c s d h => by cases h)⟩, ?_, rfl, .inr ⟨?_, ?_⟩, ?_, .inl (by simp), ?_⟩
        · exact fun c hc => hd.digits c (List.mem_of_mem_take hc)
        · intro f hf c hc
          rw [Option.some.injEq] at hf
          rw [← hf] at hc
          exact hd.digits c (List.mem_of_mem_drop hc)
        · unfold Parts.text fracText expText
          simp
        · intro h
          have := congrArg List.length h
          simp only [List.length_take, List.length_nil] at this
          omega
        · have := hd.head
          rw [List.head?_take, if_neg (by omega)]
          exact this
        · simp only [ne_eq, Option.some.injEq]
          intro h
          have := congrArg List.length h
          simp only [List.length_drop, List.length_nil] at this
          omega
        · unfold Parts.value
          simp only [Option.getD_some, signVal, expVal, one_mul, List.take_append_drop]
          congr 2
          rw [List.length_drop]
          omega
  · rw [if_neg h1]
    obtain ⟨x1, x2, x3⟩ := expParts_spec st (p - 1)
    cases d with
    | nil => exact absurd rfl hd.ne
    | cons c t =>
      have hc : Spec.AllDigits [c] := fun y hy => hd.digits y (by rw [List.mem_singleton.1 hy]; simp)
      have hh : [c].head? ≠ some '0' := hd.head
      cases t with
      | nil =>
        refine ⟨⟨none, [c], none, some (expParts st (p - 1))⟩, ⟨(fun c h => by cases h), hc, (fun f h => by cases h), x1⟩,
          ?_, rfl, .inr ⟨by simp, hh⟩, by simp, .inr (by simp), ?_⟩
        · unfold Parts.text
          rw [x2]
          rfl
        · unfold Parts.value
          simp only [Option.getD_none, signVal, one_mul, x3, List.append_nil]
          congr 2
          simp
      | cons b t =>
        refine ⟨⟨none, [c], some (b :: t), some (expParts st (p - 1))⟩, ⟨(fun c h => by cases h), hc, ?_, x1⟩,
          ?_, rfl, .inr ⟨by simp, hh⟩, by simp, .inr (by simp), ?_⟩
        · intro f hf y hy
          rw [Option.some.injEq] at hf
          rw [← hf] at hy
          exact hd.digits y (List.mem_cons_of_mem _ hy)
        · unfold Parts.text
          rw [x2]
          rfl
        · unfold Parts.value
          simp only [Option.getD_some, signVal, one_mul, x3]
          congr 2
          simp only [List.length_cons]
          push_cast
          ring

/-! ## The text of a float -/

theorem FText.shortest_pos {x : ℚ} (hx : 0 < x) (hf : rd x = x) : 0 < (shortest x).1 := by
  obtain ⟨n, h1, h2, -, h4, -⟩ := shortest_spec hx hf
  rcases Nat.eq_zero_or_pos (shortest x).1 with h | h
  · unfold decVal at h4
    rw [h] at h4
    simp only [Nat.cast_zero, zero_mul, rd_zero] at h4
    exact absurd h4 hx.ne
  · exact h

/-- what is known of the text of a float -/
structure FText.WrittenFloat (t : Str) (x : ℚ) (q : Parts) : Prop where
  ok : q.Ok
  text : q.text = t
  json : q.jsonOk = true
  python : q.pyOk = true
  float : q.frac ≠ none ∨ q.exp ≠ none
  value : rd q.value = x

theorem FText.Written.float_of {t d : Str} {p : ℤ} {q : Parts} (h : Written t d p q) {x : ℚ} (s : Option Char)
    (hs : s = none ∨ s = some '-') (hx : rd (signVal s * q.value) = x) :
    WrittenFloat (s.toList ++ t) x { q with sign := s } := by
  have hv : ({ q with sign := s } : Parts).value = signVal s * q.value := by
    unfold Parts.value
    rw [h.sign]
    simp only [signVal, one_mul]
  refine ⟨⟨?_, h.ok.int, h.ok.frac, h.ok.exp⟩, ?_, ?_, ?_, h.float, by rw [hv]; exact hx⟩
  · intro c hc
    rcases hs with rfl | rfl
    · cases hc
    · rw [Option.some.injEq] at hc; exact .inl hc.symm
  · rw [← h.text]
    unfold Parts.text
    rw [h.sign]
    simp
  · unfold Parts.jsonOk
    simp only [Bool.and_eq_true, Bool.or_eq_true, decide_eq_true_eq, beq_iff_eq, Bool.not_eq_true',
      List.isEmpty_eq_false_iff]
    refine ⟨⟨?_, h.int⟩, h.frac⟩
    rcases hs with rfl | rfl <;> decide
  · unfold Parts.pyOk
    simp only [Bool.not_eq_true', List.isEmpty_eq_false_iff, ne_eq, List.append_eq_nil_iff, not_and]
    intro h2
    rcases h.int with h3 | h3
    · rw [h3] at h2; cases h2
    · exact absurd h2 h3.1

theorem FText.floatStr_spec (st : Style) {x : ℚ} (hf : rd x = x) : ∃ q, WrittenFloat (floatStr st x) x q := by
  unfold floatStr
  by_cases h0 : x = 0
  · rw [if_pos h0]
    refine ⟨⟨none, ['0'], some ['0'], none⟩, ⟨(fun c h => by cases h), ?_, ?_, (fun c s d h => by cases h)⟩, rfl,
      by decide, by decide, .inl (by simp), ?_⟩
    · intro c hc
      rw [List.mem_singleton] at hc
      rw [hc]; decide
    · intro f hf c hc
      rw [Option.some.injEq] at hf
      rw [← hf, List.mem_singleton] at hc
      rw [hc]; decide
    · have : (⟨none, ['0'], some ['0'], none⟩ : Parts).value = 0 := by
        unfold Parts.value
        have : natOf (['0'] ++ (some ['0']).getD []) = 0 := by decide
        simp only [this]
        simp
      rw [this, rd_zero, h0]
  · rw [if_neg h0]
    by_cases h1 : x < 0
    · rw [if_pos h1]
      have hpos : 0 < -x := by linarith
      have hf' : rd (-x) = -x := by rw [rd_neg, hf]
      obtain ⟨g1, g2⟩ := digitsOf_spec (shortest_pos hpos hf')
      obtain ⟨q, hq⟩ := layout_spec st g1 (digitsOf (shortest (-x))).2
      obtain ⟨n, -, -, -, h4, -⟩ := shortest_spec hpos hf'
      refine ⟨_, hq.float_of (some '-') (.inr rfl) ?_⟩
      rw [hq.value, ← g2]
      simp only [signVal, if_true]
      rw [neg_one_mul, rd_neg, h4, neg_neg]
    · rw [if_neg h1]
      have hpos : 0 < x := lt_of_le_of_ne (not_lt.1 h1) (Ne.symm h0)
      obtain ⟨g1, g2⟩ := digitsOf_spec (shortest_pos hpos hf)
      obtain ⟨q, hq⟩ := layout_spec st g1 (digitsOf (shortest x)).2
      obtain ⟨n, -, -, -, h4, -⟩ := shortest_spec hpos hf
      refine ⟨_, hq.float_of none (.inl rfl) ?_⟩
      rw [hq.value, ← g2]
      simp only [signVal, one_mul]
      exact h4

theorem FText.text_no_space {p : Parts} (h : p.Ok) : ∀ c ∈ p.text, isSpace c = false := by
  have hsign : ∀ {s : Option Char}, SignOk s → ∀ c ∈ s.toList, isSpace c = false := by
    intro s hs c hc
    rw [Option.mem_toList] at hc
    rcases hs c hc with rfl | rfl <;> decide
  intro c hc
  unfold Parts.text at hc
  simp only [List.mem_append] at hc
  rcases hc with hc | hc | hc | hc
  · exact hsign h.sign c hc
  · exact isDigit_not_space (h.int c hc)
  · cases hf : p.frac with
    | none => rw [hf] at hc; cases hc
    | some f =>
      rw [hf] at hc
      rcases List.mem_cons.1 hc with rfl | hc
      · decide
      · exact isDigit_not_space (h.frac f hf c hc)
  · cases he : p.exp with
    | none => rw [he] at hc; cases hc
    | some e =>
      obtain ⟨a, s, d⟩ := e
      obtain ⟨h1, h2, h3, h4⟩ := h.exp a s d he
      rw [he] at hc
      rcases List.mem_cons.1 hc with rfl | hc
      · rcases h1 with rfl | rfl <;> decide
      · rcases List.mem_append.1 hc with hc | hc
        · exact hsign h2 c hc
        · exact isDigit_not_space (h4 c hc)

/-- **C126** (no information is lost): a finite float written by `f"{x}"`, `json` or `orjson` is read back exactly, by
`float(...)` and by the JSON readers; in JSON it is a number, and stays a float. -/
theorem C126_roundtrip (st : Style) {x : ℚ} (hx : Spec.Binary64 x) :
    pyFloat (floatStr st x) = some x ∧ jsonFloat (floatStr st x) = some x ∧
      jsonNumber (floatStr st x) = some (.inr x) := by
  obtain ⟨h1, h2⟩ := (isFloat_iff x).2 hx
  obtain ⟨q, hq⟩ := floatStr_spec st h1
  have ht : toFloat q.value = some x := by rw [toFloat_eq_some, hq.value]; exact ⟨rfl, h2⟩
  have hsp : split (floatStr st x) = some q := by rw [← hq.text]; exact split_text hq.ok
  have hst : strip (floatStr st x) = floatStr st x := by
    rw [← hq.text]; exact strip_eq_self _ (text_no_space hq.ok)
  refine ⟨?_, ?_, ?_⟩
  · unfold pyFloat
    rw [hst, hsp]
    simp only [hq.python, if_true, ht]
  · unfold jsonFloat
    rw [hsp]
    simp only [hq.json, if_true, ht]
  · unfold jsonNumber
    rw [hsp]
    simp only [hq.json, if_true, ht]
    rw [if_neg]
    · rfl
    · rintro ⟨a, b⟩
      rcases hq.float with h | h
      · exact h a
      · exact h b

/-- distinct floats have distinct texts -/
theorem C126_distinct (st : Style) {x y : ℚ} (hx : Spec.Binary64 x) (hy : Spec.Binary64 y)
    (h : floatStr st x = floatStr st y) : x = y := by
  have a := (C126_roundtrip st hx).1
  rw [h, (C126_roundtrip st hy).1, Option.some.injEq] at a
  exact a.symm

/-- the text is a decimal and a JSON number -/
theorem C126_syntax (st : Style) {x : ℚ} (hx : Spec.Binary64 x) :
    ∃ v, Spec.JsonNumber (floatStr st x) v ∧ Spec.DecimalText (floatStr st x) v ∧ rd v = x := by
  obtain ⟨h1, h2⟩ := (isFloat_iff x).2 hx
  obtain ⟨q, hq⟩ := floatStr_spec st h1
  exact ⟨q.value, (json_iff _ _).2 ⟨q, hq.ok, hq.json, hq.text.symm, rfl⟩,
    (decimal_iff _ _).2 ⟨q, hq.ok, hq.python, hq.text.symm, rfl⟩, hq.value⟩

theorem FText.natOf_lt (d : Str) (h : Spec.AllDigits d) : natOf d < 10 ^ d.length := by
  induction d with
  | nil => decide
  | cons c t ih =>
    have h1 := ih (fun x hx => h x (by simp [hx]))
    have h2 := (Py.isDigit_iff.1 (h c (by simp))).2
    rw [natOf_cons, List.length_cons, Nat.pow_succ]
    have : c.toNat - '0'.toNat ≤ 9 := by
      have : '0'.toNat = 48 := rfl
      omega
    nlinarith [Nat.mul_le_mul_right (10 ^ t.length) this]

/-- **C126** (shortest): the text of a positive float is a decimal `M · 10 ^ E` with the least number of digits among
all decimals read back as the float, at most 17, and the closest to the float among those with as few digits. -/
theorem C126_shortest (st : Style) {x : ℚ} (hx : Spec.Binary64 x) (hpos : 0 < x) :
    ∃ (M : Nat) (E : ℤ), Spec.DecimalText (floatStr st x) (M * 10 ^ E) ∧ M < 10 ^ 17 ∧
      (∀ (m k : Nat) (e : ℤ), rd (m * 10 ^ e) = x → m < 10 ^ k → M < 10 ^ k) ∧
      (∀ (m : Nat) (e : ℤ), rd (m * 10 ^ e) = x → (∀ k, M < 10 ^ k → m < 10 ^ k) →
        |(M * 10 ^ E : ℚ) - x| ≤ |(m * 10 ^ e : ℚ) - x|) := by
  obtain ⟨hf, hlt⟩ := (isFloat_iff x).2 hx
  have hs := shortest_pos hpos hf
  obtain ⟨g1, g2⟩ := digitsOf_spec hs
  obtain ⟨q, hq⟩ := layout_spec st g1 (digitsOf (shortest x)).2
  obtain ⟨n, n1, n17, hor, hrd, hclose, hnone⟩ := shortest_spec hpos hf
  have hM : natOf (digitsOf (shortest x)).1 < 10 ^ n := by
    -- at most `10 ^ n`; and `10 ^ n` itself becomes `1`
    have hle : decVal (shortest x) ≤ (10 : ℚ) ^ (log10 x + 1) := by
      rcases hor with h | h
      · rw [h]; exact ((below_bounds hpos n).1.trans (decade hpos).2.le)
      · rw [h]; exact next_upper hpos n n1
    have he : (shortest x).2 = log10 x + 1 - n := by
      rcases hor with h | h <;> rw [h] <;> rfl
    have hle2 : (shortest x).1 ≤ 10 ^ n := by
      unfold decVal at hle
      rw [he] at hle
      have hp : (0 : ℚ) < 10 ^ (log10 x + 1 - n) := by positivity
      have e2 : (10 : ℚ) ^ (log10 x + 1) = 10 ^ n * 10 ^ (log10 x + 1 - n) := by
        rw [← zpow_natCast, ← zpow_add₀ (by norm_num)]
        congr 1; ring
      rw [e2] at hle
      have := le_of_mul_le_mul_right hle hp
      exact_mod_cast this
    obtain ⟨_, z, hz, hl⟩ := trim_good hs
    show natOf (trim (natStr (shortest x).1)) < 10 ^ n
    generalize hT : natOf (trim (natStr (shortest x).1)) = T at hz ⊢
    rcases Nat.lt_or_ge (shortest x).1 (10 ^ n) with h | h
    · refine lt_of_le_of_lt ?_ h
      rw [hz]
      exact Nat.le_mul_of_pos_right _ (by positivity)
    · have heq : (shortest x).1 = 10 ^ n := le_antisymm hle2 h
      have h2 : natOf (trim (natStr (10 ^ n))) = 1 := by
        have e3 : natStr (10 ^ n) = '1' :: List.replicate n '0' := by
          clear * -
          induction n with
          | zero => decide
          | succ n ih =>
            unfold natStr at ih ⊢
            have := Nat.toDigits_append_toDigits (b := 10) (n := 10 ^ n) (d := 0) (by norm_num) (by positivity) (by norm_num)
            rw [ih, Nat.toDigits_zero] at this
            have e : 10 ^ (n + 1) = 10 * 10 ^ n + 0 := by ring
            rw [e, ← this, List.replicate_succ']
            rfl
        have e4 : trim (natStr (10 ^ n)) = ['1'] := by
          rw [e3]
          unfold trim
          rw [List.reverse_cons, List.reverse_replicate, List.dropWhile_append_of_pos]
          · rfl
          · intro a ha; rw [List.eq_of_mem_replicate ha]; rfl
        rw [e4]; rfl
      rw [heq, h2] at hT
      rw [← hT]
      exact Nat.one_lt_pow (by omega) (by norm_num)
  have hval : (natOf (digitsOf (shortest x)).1 : ℚ) * 10 ^ ((digitsOf (shortest x)).2 - (digitsOf (shortest x)).1.length) =
      decVal (shortest x) := g2.symm
  refine ⟨natOf (digitsOf (shortest x)).1, (digitsOf (shortest x)).2 - (digitsOf (shortest x)).1.length, ?_, ?_, ?_, ?_⟩
  · have hw := hq.float_of (x := x) none (.inl rfl) (by
      simp only [signVal, one_mul]; rw [hq.value, hval]; exact hrd)
    have hw2 := (decimal_iff (floatStr st x) ({ q with sign := none } : Parts).value).2
      ⟨_, hw.ok, hw.python, ?_, rfl⟩
    · have : ({ q with sign := none } : Parts).value = q.value := by
        unfold Parts.value; rw [hq.sign]
      rw [this, hq.value] at hw2
      exact hw2
    · rw [hw.text]
      unfold floatStr
      rw [if_neg hpos.ne', if_neg (not_lt.2 hpos.le)]
      rfl
  · exact hM.trans_le (Nat.pow_le_pow_right (by norm_num) n17)
  · intro m k e hm hk
    rcases Nat.lt_or_ge k n with h | h
    · exfalso
      rcases Nat.eq_zero_or_pos k with h0 | h0
      · rw [h0] at hk
        have : m = 0 := by omega
        rw [this] at hm
        simp only [Nat.cast_zero, zero_mul, rd_zero] at hm
        exact absurd hm hpos.ne
      · have hn := hnone k h0 h
        rcases cands_of hpos hf h0 hk e hm with ⟨a, -⟩ | ⟨a, -⟩
        · have := mem_cands.2 ⟨.inl rfl, a⟩
          rw [hn] at this; cases this
        · have := mem_cands.2 ⟨.inr rfl, a⟩
          rw [hn] at this; cases this
    · exact hM.trans_le (Nat.pow_le_pow_right (by norm_num) h)
  · intro m e hm hk
    rw [hval]
    obtain ⟨b1, b2, -⟩ := below_bounds hpos n
    rcases cands_of hpos hf n1 (hk n hM) e hm with ⟨a, b⟩ | ⟨a, b⟩
    · refine (hclose _ (mem_cands.2 ⟨.inl rfl, a⟩)).trans ?_
      rw [abs_sub_comm, abs_of_nonneg (by linarith)]
      exact b
    · refine (hclose _ (mem_cands.2 ⟨.inr rfl, a⟩)).trans ?_
      rw [abs_of_nonneg (by linarith)]
      exact b

end Ranx
