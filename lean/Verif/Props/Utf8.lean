import Verif.Model.Bytes

/-!
# C132: text survives its bytes

UTF-8 as written by `open(path, "w")`: decoding accepts exactly the encoded texts and gives them back, no text looks
like a gzip file, and bytes below 128 stand for themselves and for nothing else.
-/

set_option linter.unusedSectionVars false

namespace Ranx
open Byt
open Py (Str)

/-! ## Specification -/

/-- `b` is the UTF-8 form of the character `c` (RFC 3629, section 3): one to four bytes, the first says how many, the
others are `10xxxxxx`; the payload bits spell the code; the shortest form is used. -/
inductive Spec.Utf8Char : Bytes → Char → Prop
  | one (c : Char) (a : Nat) : a < 128 → c.toNat = a → Spec.Utf8Char [a] c
  | two (c : Char) (a b : Nat) : a < 2 ^ 5 → b < 2 ^ 6 → c.toNat = a * 64 + b → 128 ≤ c.toNat →
      Spec.Utf8Char [0b11000000 + a, 0b10000000 + b] c
  | three (c : Char) (a b d : Nat) : a < 2 ^ 4 → b < 2 ^ 6 → d < 2 ^ 6 → c.toNat = (a * 64 + b) * 64 + d →
      2048 ≤ c.toNat → Spec.Utf8Char [0b11100000 + a, 0b10000000 + b, 0b10000000 + d] c
  | four (c : Char) (a b d e : Nat) : a < 2 ^ 3 → b < 2 ^ 6 → d < 2 ^ 6 → e < 2 ^ 6 →
      c.toNat = ((a * 64 + b) * 64 + d) * 64 + e → 65536 ≤ c.toNat →
      Spec.Utf8Char [0b11110000 + a, 0b10000000 + b, 0b10000000 + d, 0b10000000 + e] c

/-- a text and its bytes -/
inductive Spec.Utf8Text : Bytes → Str → Prop
  | nil : Spec.Utf8Text [] []
  | cons (b t : Bytes) (c : Char) (s : Str) : Spec.Utf8Char b c → Spec.Utf8Text t s → Spec.Utf8Text (b ++ t) (c :: s)

namespace Byt

theorem charOf_toNat (c : Char) : charOf c.toNat = some c := by
  unfold charOf
  rw [if_pos (show c.toNat.isValidChar from c.valid), Char.ofNat_toNat]

theorem charOf_some {n : Nat} {c : Char} (h : charOf n = some c) : c.toNat = n := by
  unfold charOf at h
  split at h
  · rename_i hv
    cases h
    unfold Char.ofNat
    rw [dif_pos hv]
    rfl
  · cases h

theorem toNat_lt (c : Char) : c.toNat < 0x110000 := by
  have : c.toNat.isValidChar := c.valid
  unfold Nat.isValidChar at this
  omega

theorem utf8Char_encode (c : Char) : Spec.Utf8Char (encodeChar c) c := by
  have hc := toNat_lt c
  unfold encodeChar
  simp only
  split_ifs with h1 h2 h3
  · exact .one c _ h1 rfl
  · exact .two c _ _ (by omega) (by omega) (by omega) (by omega)
  · exact .three c _ _ _ (by omega) (by omega) (by omega) (by omega) (by omega)
  · exact .four c _ _ _ _ (by omega) (by omega) (by omega) (by omega) (by omega) (by omega)

theorem encode_of_utf8Char {b : Bytes} {c : Char} (h : Spec.Utf8Char b c) : encodeChar c = b := by
  have hc := toNat_lt c
  unfold encodeChar
  simp only
  cases h with
  | one _ a h1 h2 => rw [if_pos (by omega), h2]
  | two _ a b h1 h2 h3 h4 =>
    rw [if_neg (by omega), if_pos (by omega)]
    congr 1
    · omega
    · congr 1; omega
  | three _ a b d h1 h2 h3 h4 h5 =>
    rw [if_neg (by omega), if_neg (by omega), if_pos (by omega)]
    congr 1
    · omega
    · congr 1
      · omega
      · congr 1; omega
  | four _ a b d e h1 h2 h3 h4 h5 h6 =>
    rw [if_neg (by omega), if_neg (by omega), if_neg (by omega)]
    congr 1
    · omega
    · congr 1
      · omega
      · congr 1
        · omega
        · congr 1; omega

theorem isCont_iff {b : Nat} : isCont b = true ↔ 0x80 ≤ b ∧ b < 0xC0 := by
  unfold isCont
  rw [Bool.and_eq_true, decide_eq_true_iff, decide_eq_true_iff]

theorem readUtf8_of {b : Bytes} {c : Char} (h : Spec.Utf8Char b c) (t : Bytes) : readUtf8 (b ++ t) = some (c, t) := by
  have hc := toNat_lt c
  cases h with
  | one _ a h1 h2 =>
    simp only [List.cons_append, List.nil_append, readUtf8]
    rw [if_pos (by omega), ← h2, charOf_toNat]; rfl
  | two _ a b h1 h2 h3 h4 =>
    simp only [List.cons_append, List.nil_append, readUtf8]
    rw [if_neg (by omega), if_neg (by omega), if_pos (by omega)]
    have e : (192 + a - 0xC0) * 64 + (128 + b - 0x80) = c.toNat := by omega
    rw [if_pos (by rw [e, Bool.and_eq_true, isCont_iff, decide_eq_true_iff]; omega), e, charOf_toNat]; rfl
  | three _ a b d h1 h2 h3 h4 h5 =>
    simp only [List.cons_append, List.nil_append, readUtf8]
    rw [if_neg (by omega), if_neg (by omega), if_neg (by omega), if_pos (by omega)]
    have e : (224 + a - 0xE0) * 4096 + (128 + b - 0x80) * 64 + (128 + d - 0x80) = c.toNat := by omega
    rw [if_pos (by rw [e, Bool.and_eq_true, Bool.and_eq_true, isCont_iff, isCont_iff, decide_eq_true_iff]; omega), e,
      charOf_toNat]; rfl
  | four _ a b d f h1 h2 h3 h4 h5 h6 =>
    simp only [List.cons_append, List.nil_append, readUtf8]
    rw [if_neg (by omega), if_neg (by omega), if_neg (by omega), if_neg (by omega), if_pos (by omega)]
    have e : (240 + a - 0xF0) * 262144 + (128 + b - 0x80) * 4096 + (128 + d - 0x80) * 64 + (128 + f - 0x80) = c.toNat := by
      omega
    rw [if_pos (by rw [e, Bool.and_eq_true, Bool.and_eq_true, Bool.and_eq_true, isCont_iff, isCont_iff, isCont_iff,
      decide_eq_true_iff]; omega), e, charOf_toNat]; rfl

theorem map_charOf {n : Nat} {t t' : Bytes} {c : Char} (h : (charOf n).map (fun c => (c, t)) = some (c, t')) :
    c.toNat = n ∧ t' = t := by
  cases hn : charOf n with
  | none => rw [hn] at h; cases h
  | some c' =>
    rw [hn, Option.map_some, Option.some.injEq, Prod.mk.injEq] at h
    obtain ⟨rfl, rfl⟩ := h
    exact ⟨charOf_some hn, rfl⟩

theorem of_readUtf8 {b t : Bytes} {c : Char} (h : readUtf8 b = some (c, t)) :
    ∃ p, b = p ++ t ∧ Spec.Utf8Char p c := by
  cases b with
  | nil => cases h
  | cons a r =>
    simp only [readUtf8] at h
    split_ifs at h with h1 h2 h3 h4 h5
    · obtain ⟨e, rfl⟩ := map_charOf h
      exact ⟨[a], rfl, .one c a (by omega) e⟩
    · cases r with
      | nil => cases h
      | cons b t' =>
        simp only at h
        split_ifs at h with hh
        rw [Bool.and_eq_true, isCont_iff, decide_eq_true_iff] at hh
        obtain ⟨e, rfl⟩ := map_charOf h
        have := Spec.Utf8Char.two c (a - 192) (b - 128) (by omega) (by omega) (by omega) (by omega)
        rw [show 0b11000000 + (a - 192) = a by omega, show 0b10000000 + (b - 128) = b by omega] at this
        exact ⟨[a, b], rfl, this⟩
    · rcases r with _ | ⟨b, _ | ⟨d, t'⟩⟩
      · cases h
      · cases h
      · simp only at h
        split_ifs at h with hh
        rw [Bool.and_eq_true, Bool.and_eq_true, isCont_iff, isCont_iff, decide_eq_true_iff] at hh
        obtain ⟨e, rfl⟩ := map_charOf h
        have := Spec.Utf8Char.three c (a - 224) (b - 128) (d - 128) (by omega) (by omega) (by omega) (by omega) (by omega)
        rw [show 0b11100000 + (a - 224) = a by omega, show 0b10000000 + (b - 128) = b by omega,
          show 0b10000000 + (d - 128) = d by omega] at this
        exact ⟨[a, b, d], rfl, this⟩
    · rcases r with _ | ⟨b, _ | ⟨d, _ | ⟨f, t'⟩⟩⟩
      · cases h
      · cases h
      · cases h
      · simp only at h
        split_ifs at h with hh
        rw [Bool.and_eq_true, Bool.and_eq_true, Bool.and_eq_true, isCont_iff, isCont_iff, isCont_iff,
          decide_eq_true_iff] at hh
        obtain ⟨e, rfl⟩ := map_charOf h
        have := Spec.Utf8Char.four c (a - 240) (b - 128) (d - 128) (f - 128) (by omega) (by omega) (by omega) (by omega)
          (by omega) (by omega)
        rw [show 0b11110000 + (a - 240) = a by omega, show 0b10000000 + (b - 128) = b by omega,
          show 0b10000000 + (d - 128) = d by omega, show 0b10000000 + (f - 128) = f by omega] at this
        exact ⟨[a, b, d, f], rfl, this⟩

theorem utf8Char_ne_nil {b : Bytes} {c : Char} (h : Spec.Utf8Char b c) : b ≠ [] := by cases h <;> simp

theorem utf8Text_utf8 (s : Str) : Spec.Utf8Text (utf8 s) s := by
  induction s with
  | nil => exact .nil
  | cons c t ih => exact .cons _ _ c t (utf8Char_encode c) ih

theorem utf8_of_text {b : Bytes} {s : Str} (h : Spec.Utf8Text b s) : utf8 s = b := by
  induction h with
  | nil => rfl
  | cons b t c s hc _ ih =>
    change encodeChar c ++ utf8 s = _
    rw [encode_of_utf8Char hc, ih]

theorem ofUtf8N_of {b : Bytes} {s : Str} (h : Spec.Utf8Text b s) (n : Nat) (hn : b.length ≤ n) :
    ofUtf8N n b = some s := by
  induction h generalizing n with
  | nil => cases n <;> rfl
  | cons b t c s hc _ ih =>
    have hb := utf8Char_ne_nil hc
    cases b with
    | nil => exact absurd rfl hb
    | cons a r =>
      cases n with
      | zero => simp at hn
      | succ n =>
        have := readUtf8_of hc t
        rw [List.cons_append] at this ⊢
        unfold ofUtf8N
        rw [this]
        simp only
        rw [ih n (by simp at hn; omega)]
        rfl

theorem of_ofUtf8N {n : Nat} {b : Bytes} {s : Str} (h : ofUtf8N n b = some s) : Spec.Utf8Text b s := by
  induction n generalizing b s with
  | zero =>
    cases b with
    | nil => cases h; exact .nil
    | cons a r => cases h
  | succ n ih =>
    cases b with
    | nil => cases h; exact .nil
    | cons a r =>
      unfold ofUtf8N at h
      cases hr : readUtf8 (a :: r) with
      | none => rw [hr] at h; cases h
      | some p =>
        obtain ⟨c, t⟩ := p
        rw [hr] at h
        simp only at h
        cases ht : ofUtf8N n t with
        | none => rw [ht] at h; cases h
        | some s' =>
          rw [ht] at h
          cases h
          obtain ⟨q, e, hq⟩ := of_readUtf8 hr
          rw [e]
          exact .cons _ _ _ _ hq (ih ht)

end Byt

/-- **C132**: the decoder accepts exactly the UTF-8 texts of the standard and gives the text they spell. -/
theorem C132_decoder (b : Bytes) (s : Str) : ofUtf8 b = some s ↔ Spec.Utf8Text b s :=
  ⟨of_ofUtf8N, fun h => ofUtf8N_of h _ (Nat.le_refl _)⟩

/-- **C132**: the encoder writes the one UTF-8 form of a text; so reading back gives the text, and no other bytes
are read as that text. -/
theorem C132_encoder (b : Bytes) (s : Str) : Spec.Utf8Text b s ↔ utf8 s = b :=
  ⟨utf8_of_text, fun h => h ▸ utf8Text_utf8 s⟩

theorem C132_roundtrip (b : Bytes) (s : Str) : ofUtf8 b = some s ↔ utf8 s = b :=
  (C132_decoder b s).trans (C132_encoder b s)

namespace Byt

theorem encodeChar_bytes (c : Char) : ∀ x ∈ encodeChar c, x < 256 := by
  intro x hx
  have h := utf8Char_encode c
  revert hx
  generalize encodeChar c = b at h
  intro hx
  cases h <;> simp only [List.mem_cons, List.not_mem_nil, or_false] at hx <;> omega

theorem encodeChar_ascii (c : Char) (x : Nat) (hx : x ∈ encodeChar c) (h : x < 128) : encodeChar c = [x] ∧ c.toNat = x := by
  have hu := utf8Char_encode c
  revert hx
  generalize encodeChar c = b at hu
  intro hx
  cases hu <;> simp only [List.mem_cons, List.not_mem_nil, or_false] at hx
  · subst hx; exact ⟨rfl, by assumption⟩
  all_goals omega

end Byt

/-- **C132**: bytes are below 256, and a byte below 128 is the character with that code, never part of another one;
so line breaks and spaces can be found in the bytes. -/
theorem C132_ascii (s t : Str) (b : Bytes) (x : Nat) (hx : x < 128) :
    (∀ y ∈ utf8 s, y < 256) ∧
    (utf8 s = b ++ x :: utf8 t → ∃ s', s = s' ++ Char.ofNat x :: t ∧ utf8 s' = b) := by
  constructor
  · intro y hy
    obtain ⟨c, -, hc⟩ := List.mem_flatMap.1 hy
    exact encodeChar_bytes c y hc
  · have inj : ∀ s s' : Str, utf8 s = utf8 s' → s = s' := by
      intro s s' h
      have := (C132_roundtrip (utf8 s) s).2 rfl
      rw [(C132_roundtrip (utf8 s) s').2 h.symm] at this
      exact (Option.some.inj this).symm
    intro h
    induction s generalizing b with
    | nil => cases b <;> cases h
    | cons c r ih =>
      change encodeChar c ++ utf8 r = b ++ x :: utf8 t at h
      rcases List.append_eq_append_iff.1 h with ⟨a, e1, e2⟩ | ⟨a, e1, e2⟩
      · obtain ⟨s', rfl, hs'⟩ := ih a e2
        refine ⟨c :: s', rfl, ?_⟩
        rw [e1, ← hs']; rfl
      · cases a with
        | nil =>
          rw [List.append_nil] at e1
          obtain ⟨s', rfl, hs'⟩ := ih [] e2.symm
          refine ⟨c :: s', rfl, ?_⟩
          change encodeChar c ++ utf8 s' = b
          rw [hs', List.append_nil, e1]
        | cons y a =>
          rw [List.cons_append, List.cons.injEq] at e2
          obtain ⟨rfl, e2⟩ := e2
          obtain ⟨e3, e4⟩ := encodeChar_ascii c x (by rw [e1]; simp) hx
          rw [e3] at e1
          have hb : b = [] := by
            cases b with
            | nil => rfl
            | cons z b =>
              have := congrArg List.length e1
              simp at this
          subst hb
          have ha : a = [] := by
            have := congrArg List.length e1
            simp at this
            exact this
          subst ha
          refine ⟨[], ?_, rfl⟩
          rw [inj t r e2, ← e4, Char.ofNat_toNat]
          rfl

/-- **C132**: no text starts with the magic number of gzip, `1f 8b`: a text file is never taken for a gzip file. -/
theorem C132_not_gzip (s : Str) (t : Bytes) : utf8 s ≠ 0x1F :: 0x8B :: t := by
  intro h
  have h0 := (C132_roundtrip _ s).2 h
  unfold ofUtf8 at h0
  rw [show (0x1F :: 0x8B :: t).length = t.length + 1 + 1 from rfl] at h0
  rw [show ofUtf8N (t.length + 1 + 1) (0x1F :: 0x8B :: t) =
    (ofUtf8N (t.length + 1) (0x8B :: t)).map (fun s => Char.ofNat 0x1F :: s) from rfl] at h0
  rw [show ofUtf8N (t.length + 1) (0x8B :: t) = none from rfl] at h0
  cases h0

/-- non-vacuity: two, three and four bytes; overlong forms, surrogates and cut characters are rejected -/
example : utf8 "aé€😀".toList = [0x61, 0xC3, 0xA9, 0xE2, 0x82, 0xAC, 0xF0, 0x9F, 0x98, 0x80] ∧
    ofUtf8 [0x61, 0xC3, 0xA9, 0xE2, 0x82, 0xAC, 0xF0, 0x9F, 0x98, 0x80] = some "aé€😀".toList ∧
    ofUtf8 [0xC0, 0x80] = none ∧ ofUtf8 [0xED, 0xA0, 0x80] = none ∧ ofUtf8 [0xC3] = none ∧ ofUtf8 [0xF4, 0x90, 0x80, 0x80] = none := by
  decide +kernel

end Ranx
