import Verif.Props.FloatText

/-!
# C126: reading and writing of floats
-/

set_option linter.unusedSectionVars false

namespace Ranx
open F64 FText
open Py (Str natStr isSpace strip)

/-! ## Reading: the parts of a text -/

/-- the fraction as text -/
def FText.fracText : Option Str → Str
  | none => []
  | some f => '.' :: f

/-- the exponent as text -/
def FText.expText : Option (Char × Option Char × Str) → Str
  | none => []
  | some (c, s, d) => c :: (s.toList ++ d)

/-- the text with these parts -/
def FText.Parts.text (p : Parts) : Str := p.sign.toList ++ (p.int ++ (fracText p.frac ++ expText p.exp))

/-- an optional sign -/
def FText.SignOk (s : Option Char) : Prop := ∀ c, s = some c → c = '-' ∨ c = '+'

/-- an optional exponent -/
def FText.ExpOk (e : Option (Char × Option Char × Str)) : Prop :=
  ∀ c s d, e = some (c, s, d) → (c = 'e' ∨ c = 'E') ∧ SignOk s ∧ d ≠ [] ∧ Spec.AllDigits d

/-- parts of a decimal -/
structure FText.Parts.Ok (p : Parts) : Prop where
  sign : SignOk p.sign
  int : Spec.AllDigits p.int
  frac : ∀ f, p.frac = some f → Spec.AllDigits f
  exp : ExpOk p.exp

/-- does not start with a digit -/
def FText.NoDigit (s : Str) : Prop := ∀ c, s.head? = some c → c.isDigit = false

theorem FText.takeWhile_digits {d r : Str} (hd : Spec.AllDigits d) (hr : NoDigit r) :
    (d ++ r).takeWhile Char.isDigit = d ∧ (d ++ r).dropWhile Char.isDigit = r := by
  induction d with
  | nil =>
    cases r with
    | nil => exact ⟨rfl, rfl⟩
    | cons c t =>
      have := hr c rfl
      simp [List.takeWhile_cons, List.dropWhile_cons, this]
  | cons c d ih =>
    have hc := hd c (by simp)
    obtain ⟨h1, h2⟩ := ih (fun x hx => hd x (by simp [hx]))
    simp [List.takeWhile_cons, List.dropWhile_cons, hc, h1, h2]

theorem FText.isDigit_sign {c : Char} (h : c.isDigit = true) : ¬ (c = '-' ∨ c = '+') := by
  rintro (rfl | rfl) <;> revert h <;> decide

theorem FText.signOf_cons (c : Char) (t : Str) :
    signOf (c :: t) = if c = '-' ∨ c = '+' then (some c, t) else (none, c :: t) := rfl

theorem FText.expOf_cons (c : Char) (t : Str) : expOf (c :: t) =
    if c = 'e' ∨ c = 'E' then
      if (signOf t).2 ≠ [] ∧ (signOf t).2.all Char.isDigit then some (some (c, signOf t)) else none
    else none := rfl

theorem FText.fracOf_cons (c : Char) (t : Str) : fracOf (c :: t) =
    if c = '.' then (some (t.takeWhile Char.isDigit), t.dropWhile Char.isDigit) else (none, c :: t) := rfl

theorem FText.signOf_text {s : Option Char} (hs : SignOk s) {r : Str}
    (hr : ∀ c, r.head? = some c → ¬ (c = '-' ∨ c = '+')) : signOf (s.toList ++ r) = (s, r) := by
  cases s with
  | some c =>
    show signOf (c :: r) = _
    rw [signOf_cons]
    rw [if_pos (hs c rfl)]
  | none =>
    show signOf r = _
    cases r with
    | nil => rfl
    | cons c t =>
      rw [signOf_cons]
      rw [if_neg (hr c rfl)]

theorem FText.signOf_spec (s : Str) : SignOk (signOf s).1 ∧ s = (signOf s).1.toList ++ (signOf s).2 := by
  cases s with
  | nil => exact ⟨(fun c h => by simp [signOf] at h), rfl⟩
  | cons c t =>
    rw [signOf_cons]
    by_cases h : c = '-' ∨ c = '+'
    · rw [if_pos h]
      refine ⟨fun x hx => ?_, rfl⟩
      simp only [Option.some.injEq] at hx
      rw [← hx]; exact h
    · rw [if_neg h]
      exact ⟨(fun x hx => by simp at hx), rfl⟩

theorem FText.head_digits {d : Str} (hd : Spec.AllDigits d) : ∀ c, d.head? = some c → ¬ (c = '-' ∨ c = '+') := by
  intro c hc
  exact isDigit_sign (hd c (List.mem_of_head? hc))

theorem FText.expOf_text {e : Option (Char × Option Char × Str)} (he : ExpOk e) : expOf (expText e) = some e := by
  cases e with
  | none => rfl
  | some p =>
    obtain ⟨c, s, d⟩ := p
    obtain ⟨h1, h2, h3, h4⟩ := he c s d rfl
    show expOf (c :: (s.toList ++ d)) = _
    rw [expOf_cons]
    rw [if_pos h1, signOf_text h2 (head_digits h4), if_pos ⟨h3, List.all_eq_true.2 h4⟩]

theorem FText.expOf_spec {s : Str} {e : Option (Char × Option Char × Str)} (h : expOf s = some e) :
    ExpOk e ∧ s = expText e := by
  cases s with
  | nil =>
    simp only [expOf, Option.some.injEq] at h
    rw [← h]
    exact ⟨(fun c s d h => by cases h), rfl⟩
  | cons c t =>
    rw [expOf_cons] at h
    by_cases hc : c = 'e' ∨ c = 'E'
    · rw [if_pos hc] at h
      by_cases h2 : (signOf t).2 ≠ [] ∧ (signOf t).2.all Char.isDigit = true
      · rw [if_pos h2, Option.some.injEq] at h
        obtain ⟨g1, g2⟩ := signOf_spec t
        rw [← h]
        refine ⟨?_, ?_⟩
        · intro c' s' d' hh
          simp only [Option.some.injEq, Prod.mk.injEq] at hh
          obtain ⟨rfl, hh⟩ := hh
          have e1 : (signOf t).1 = s' := by rw [hh]
          have e2 : (signOf t).2 = d' := by rw [hh]
          rw [← e1, ← e2]
          exact ⟨hc, g1, h2.1, by simpa [List.all_eq_true, Spec.AllDigits] using h2.2⟩
        · show c :: t = c :: ((signOf t).1.toList ++ (signOf t).2)
          rw [← g2]
      · rw [if_neg h2] at h; cases h
    · rw [if_neg hc] at h; cases h

theorem FText.expText_head {e : Option (Char × Option Char × Str)} (he : ExpOk e) :
    ∀ c, (expText e).head? = some c → c.isDigit = false ∧ c ≠ '.' ∧ ¬ (c = '-' ∨ c = '+') := by
  intro c hc
  cases e with
  | none => cases hc
  | some p =>
    obtain ⟨x, s, d⟩ := p
    obtain ⟨h1, -⟩ := he x s d rfl
    simp only [expText, List.head?_cons, Option.some.injEq] at hc
    rw [← hc]
    rcases h1 with rfl | rfl <;> exact ⟨by decide, by decide, by decide⟩

theorem FText.fracOf_text {f : Option Str} (hf : ∀ d, f = some d → Spec.AllDigits d) {r : Str}
    (hr : ∀ c, r.head? = some c → c.isDigit = false ∧ c ≠ '.') : fracOf (fracText f ++ r) = (f, r) := by
  cases f with
  | none =>
    show fracOf r = _
    cases r with
    | nil => rfl
    | cons c t =>
      rw [fracOf_cons]
      rw [if_neg (hr c rfl).2]
  | some d =>
    show fracOf ('.' :: (d ++ r)) = _
    rw [fracOf_cons]
    obtain ⟨h1, h2⟩ := takeWhile_digits (hf d rfl) (r := r) (fun c hc => (hr c hc).1)
    rw [if_pos rfl, h1, h2]

theorem FText.fracOf_spec (s : Str) : (∀ d, (fracOf s).1 = some d → Spec.AllDigits d) ∧
    s = fracText (fracOf s).1 ++ (fracOf s).2 := by
  cases s with
  | nil => exact ⟨(fun d h => by simp [fracOf] at h), rfl⟩
  | cons c t =>
    rw [fracOf_cons]
    by_cases h : c = '.'
    · rw [if_pos h]
      refine ⟨?_, ?_⟩
      · intro d hd
        simp only [Option.some.injEq] at hd
        rw [← hd]
        exact fun x hx => List.mem_takeWhile_imp hx
      · show c :: t = '.' :: (_ ++ _)
        rw [List.takeWhile_append_dropWhile, h]
    · rw [if_neg h]
      exact ⟨(fun d hd => by simp at hd), rfl⟩

/-- the parts of a text with these parts -/
theorem FText.split_text {p : Parts} (hp : p.Ok) : split p.text = some p := by
  have hx := expText_head hp.exp
  have hfr : ∀ c, (fracText p.frac ++ expText p.exp).head? = some c → c.isDigit = false ∧ ¬ (c = '-' ∨ c = '+') := by
    intro c hc
    cases hf : p.frac with
    | none => rw [hf] at hc; exact ⟨(hx c hc).1, (hx c hc).2.2⟩
    | some d =>
      rw [hf] at hc
      simp only [fracText, List.cons_append, List.head?_cons, Option.some.injEq] at hc
      rw [← hc]; exact ⟨by decide, by decide⟩
  have h1 : signOf p.text = (p.sign, p.int ++ (fracText p.frac ++ expText p.exp)) := by
    unfold Parts.text
    apply signOf_text hp.sign
    intro c hc
    cases hi : p.int with
    | nil => rw [hi, List.nil_append] at hc; exact (hfr c hc).2
    | cons a t =>
      rw [hi, List.cons_append, List.head?_cons, Option.some.injEq] at hc
      rw [← hc]
      exact isDigit_sign (hp.int a (by rw [hi]; simp))
  obtain ⟨h2, h3⟩ := takeWhile_digits hp.int (fun c hc => (hfr c hc).1)
  have h4 := fracOf_text hp.frac (r := expText p.exp) (fun c hc => ⟨(hx c hc).1, (hx c hc).2.1⟩)
  unfold split
  simp only [h1, h2, h3, h4, expOf_text hp.exp]

/-- a text has the parts `split` returns -/
theorem FText.split_spec {s : Str} {p : Parts} (h : split s = some p) : p.Ok ∧ s = p.text := by
  unfold split at h
  simp only at h
  obtain ⟨a1, a2⟩ := signOf_spec s
  obtain ⟨b1, b2⟩ := fracOf_spec ((signOf s).2.dropWhile Char.isDigit)
  cases he : expOf (fracOf ((signOf s).2.dropWhile Char.isDigit)).2 with
  | none => rw [he] at h; cases h
  | some e =>
    rw [he] at h
    simp only [Option.some.injEq] at h
    obtain ⟨c1, c2⟩ := expOf_spec he
    subst h
    refine ⟨⟨a1, fun x hx => List.mem_takeWhile_imp hx, b1, c1⟩, ?_⟩
    unfold Parts.text
    simp only
    rw [← c2, ← b2, List.takeWhile_append_dropWhile, ← a2]

/-! ## Values -/

theorem FText.natOf_cons (c : Char) (t : Str) : natOf (c :: t) = (c.toNat - '0'.toNat) * 10 ^ t.length + natOf t := by
  unfold natOf
  rw [Nat.ofDigitChars_cons, Nat.ofDigitChars_eq_ofDigitChars_zero]
  ring

theorem FText.natOf_eq (s : Str) : natOf s = Spec.number s := by
  induction s with
  | nil => rfl
  | cons c t ih => rw [natOf_cons, ih]; rfl

theorem FText.natOf_append (s t : Str) : natOf (s ++ t) = natOf s * 10 ^ t.length + natOf t := by
  unfold natOf
  rw [Nat.ofDigitChars_append, Nat.ofDigitChars_eq_ofDigitChars_zero]
  ring

theorem FText.natOf_zeros (n : Nat) : natOf (List.replicate n '0') = 0 := by
  unfold natOf
  rw [Nat.ofDigitChars_replicate_zero, Nat.mul_zero]

/-- the value of an optional sign -/
def FText.signInt : Option Char → ℤ
  | some c => if c = '-' then -1 else 1
  | none => 1

theorem FText.signText_of {s : Option Char} (h : SignOk s) : Spec.SignText s.toList (signInt s) := by
  cases s with
  | none => exact .none
  | some c => rcases h c rfl with rfl | rfl <;> [exact .minus; exact .plus]

theorem FText.of_signText {s : Str} {σ : ℤ} (h : Spec.SignText s σ) :
    ∃ o : Option Char, SignOk o ∧ s = o.toList ∧ σ = signInt o := by
  cases h with
  | none => exact ⟨none, (fun c h => by cases h), rfl, rfl⟩
  | plus => exact ⟨some '+', (fun c h => by cases h; exact .inr rfl), rfl, rfl⟩
  | minus => exact ⟨some '-', (fun c h => by cases h; exact .inl rfl), rfl, rfl⟩

theorem FText.signVal_eq (s : Option Char) : signVal s = (signInt s : ℚ) := by
  cases s with
  | none => simp [signVal, signInt]
  | some c =>
    simp only [signVal, signInt]
    split_ifs <;> simp

theorem FText.expText_spec {e : Option (Char × Option Char × Str)} (h : ExpOk e) :
    Spec.ExpText (expText e) (expVal e) := by
  cases e with
  | none => exact .none
  | some p =>
    obtain ⟨c, s, d⟩ := p
    obtain ⟨h1, h2, h3, h4⟩ := h c s d rfl
    have := Spec.ExpText.some c s.toList (signInt s) d h1 (signText_of h2) h3 h4
    have e2 : expVal (some (c, s, d)) = signInt s * (Spec.number d : ℤ) := by
      simp only [expVal, natOf_eq]
      cases s with
      | none => simp [signInt]
      | some x =>
        simp only [Option.some.injEq, signInt]
        split_ifs <;> simp
    rw [e2]
    exact this

theorem FText.of_expText {t : Str} {e : ℤ} (h : Spec.ExpText t e) :
    ∃ o, ExpOk o ∧ t = expText o ∧ e = expVal o := by
  cases h with
  | none => exact ⟨none, (fun c s d h => by cases h), rfl, rfl⟩
  | some c s σ d h1 h2 h3 h4 =>
    obtain ⟨o, g1, rfl, rfl⟩ := of_signText h2
    refine ⟨some (c, o, d), ?_, rfl, ?_⟩
    · intro c' s' d' hh
      cases hh
      exact ⟨h1, g1, h3, h4⟩
    · simp only [expVal, natOf_eq]
      cases o with
      | none => simp [signInt]
      | some x =>
        simp only [Option.some.injEq, signInt]
        split_ifs <;> simp

theorem FText.fracText_spec {f : Option Str} (h : ∀ d, f = some d → Spec.AllDigits d) :
    Spec.FracText (fracText f) (f.getD []) := by
  cases f with
  | none => exact .none
  | some d => exact .some d (h d rfl)

theorem FText.of_fracText {t d : Str} (h : Spec.FracText t d) :
    ∃ o : Option Str, (∀ x, o = some x → Spec.AllDigits x) ∧ t = fracText o ∧ d = o.getD [] := by
  cases h with
  | none => exact ⟨none, (fun c h => by cases h), rfl, rfl⟩
  | some d h => exact ⟨some d, (fun c hc => by cases hc; exact h), rfl, rfl⟩

theorem FText.value_eq (p : Parts) : p.value = (signInt p.sign : ℚ) *
    (Spec.number p.int + Spec.number (p.frac.getD []) / 10 ^ (p.frac.getD []).length) * (10 : ℚ) ^ expVal p.exp := by
  unfold Parts.value
  rw [signVal_eq, natOf_append, ← natOf_eq, ← natOf_eq, zpow_sub₀ (by norm_num), zpow_natCast]
  push_cast
  have h : (10 : ℚ) ^ (p.frac.getD []).length ≠ 0 := by positivity
  field_simp

theorem FText.decimal_iff (t : Str) (x : ℚ) :
    Spec.DecimalText t x ↔ ∃ p : Parts, p.Ok ∧ p.pyOk = true ∧ t = p.text ∧ x = p.value := by
  constructor
  · rintro ⟨s, σ, i, ft, f, et, e, rfl, h1, h2, h3, h4, h5, rfl⟩
    obtain ⟨o1, a1, rfl, rfl⟩ := of_signText h1
    obtain ⟨o2, b1, rfl, rfl⟩ := of_fracText h3
    obtain ⟨o3, c1, rfl, rfl⟩ := of_expText h4
    refine ⟨⟨o1, i, o2, o3⟩, ⟨a1, h2, b1, c1⟩, ?_, ?_, ?_⟩
    · unfold Parts.pyOk
      simp only [Bool.not_eq_true', List.isEmpty_eq_false_iff]
      intro h
      rw [List.append_eq_nil_iff] at h
      rcases h5 with h5 | h5
      · exact h5 h.1
      · exact h5 h.2
    · unfold Parts.text; simp
    · exact (value_eq ⟨o1, i, o2, o3⟩).symm
  · rintro ⟨p, hp, hok, rfl, rfl⟩
    refine ⟨p.sign.toList, signInt p.sign, p.int, fracText p.frac, p.frac.getD [], expText p.exp, expVal p.exp, ?_,
      signText_of hp.sign, hp.int, fracText_spec hp.frac, expText_spec hp.exp, ?_, value_eq p⟩
    · unfold Parts.text; simp
    · unfold Parts.pyOk at hok
      simp only [Bool.not_eq_true', List.isEmpty_eq_false_iff] at hok
      by_contra hc
      rw [not_or, not_not, not_not] at hc
      exact hok (by rw [hc.1, hc.2]; rfl)

theorem FText.toFloat_eq_some (x y : ℚ) : toFloat x = some y ↔ y = rd x ∧ |y| < 2 ^ 1024 := by
  unfold toFloat
  constructor
  · intro h
    split_ifs at h with hc
    rw [Option.some.injEq] at h
    rw [← h]; exact ⟨rfl, hc⟩
  · rintro ⟨rfl, h⟩
    rw [if_pos h]

/-- **C126** (reading): `float(text)` accepts a decimal, with white space around it, and returns its value rounded to
the nearest float. -/
theorem C126_reading (t : Str) (y : ℚ) :
    pyFloat t = some y ↔ ∃ x, Spec.DecimalText (strip t) x ∧ y = rd x ∧ |y| < 2 ^ 1024 := by
  unfold pyFloat
  constructor
  · intro h
    cases hs : split (strip t) with
    | none => rw [hs] at h; cases h
    | some p =>
      rw [hs] at h
      simp only at h
      split_ifs at h with hok
      obtain ⟨h1, h2⟩ := split_spec hs
      exact ⟨p.value, (decimal_iff _ _).2 ⟨p, h1, hok, h2, rfl⟩, (toFloat_eq_some _ _).1 h⟩
  · rintro ⟨x, hx, hy⟩
    obtain ⟨p, h1, h2, h3, rfl⟩ := (decimal_iff _ _).1 hx
    rw [h3, split_text h1]
    simp only
    rw [if_pos h2]
    exact (toFloat_eq_some _ _).2 hy

theorem FText.json_iff (t : Str) (x : ℚ) :
    Spec.JsonNumber t x ↔ ∃ p : Parts, p.Ok ∧ p.jsonOk = true ∧ t = p.text ∧ x = p.value := by
  constructor
  · rintro ⟨s, σ, i, ft, f, et, e, rfl, h1, h1', h2, h2', h3, h3', h4, rfl⟩
    obtain ⟨o1, a1, rfl, rfl⟩ := of_signText h1
    obtain ⟨o2, b1, rfl, rfl⟩ := of_fracText h3
    obtain ⟨o3, c1, rfl, rfl⟩ := of_expText h4
    refine ⟨⟨o1, i, o2, o3⟩, ⟨a1, h2, b1, c1⟩, ?_, ?_, ?_⟩
    · unfold Parts.jsonOk
      simp only [Bool.and_eq_true, Bool.or_eq_true, decide_eq_true_eq, beq_iff_eq, Bool.not_eq_true',
        List.isEmpty_eq_false_iff]
      refine ⟨⟨?_, h2'⟩, ?_⟩
      · rintro rfl; exact h1' rfl
      · rintro rfl; exact h3' (by simp [fracText]) rfl
    · unfold Parts.text; simp
    · exact (value_eq ⟨o1, i, o2, o3⟩).symm
  · rintro ⟨p, hp, hok, rfl, rfl⟩
    unfold Parts.jsonOk at hok
    simp only [Bool.and_eq_true, Bool.or_eq_true, decide_eq_true_eq, beq_iff_eq, Bool.not_eq_true',
      List.isEmpty_eq_false_iff] at hok
    obtain ⟨⟨k1, k2⟩, k3⟩ := hok
    refine ⟨p.sign.toList, signInt p.sign, p.int, fracText p.frac, p.frac.getD [], expText p.exp, expVal p.exp, ?_,
      signText_of hp.sign, ?_, hp.int, k2, fracText_spec hp.frac, ?_, expText_spec hp.exp, value_eq p⟩
    · unfold Parts.text; simp
    · intro h
      cases hs : p.sign with
      | none => rw [hs] at h; cases h
      | some c =>
        rw [hs] at h
        simp only [Option.toList_some, List.cons.injEq, and_true] at h
        exact k1 (by rw [hs, h])
    · intro h
      cases hf : p.frac with
      | none => rw [hf] at h; exact absurd rfl h
      | some d =>
        intro hd
        simp only [Option.getD_some] at hd
        exact k3 (by rw [hf, hd])

/-- **C126** (JSON numbers): a number in a JSON file is read as its value rounded to the nearest float. -/
theorem C126_reading_json (t : Str) (y : ℚ) :
    jsonFloat t = some y ↔ ∃ x, Spec.JsonNumber t x ∧ y = rd x ∧ |y| < 2 ^ 1024 := by
  unfold jsonFloat
  constructor
  · intro h
    cases hs : split t with
    | none => rw [hs] at h; cases h
    | some p =>
      rw [hs] at h
      simp only at h
      split_ifs at h with hok
      obtain ⟨h1, h2⟩ := split_spec hs
      exact ⟨p.value, (json_iff _ _).2 ⟨p, h1, hok, h2, rfl⟩, (toFloat_eq_some _ _).1 h⟩
  · rintro ⟨x, hx, hy⟩
    obtain ⟨p, h1, h2, h3, rfl⟩ := (json_iff _ _).1 hx
    rw [h3, split_text h1]
    simp only
    rw [if_pos h2]
    exact (toFloat_eq_some _ _).2 hy

end Ranx
