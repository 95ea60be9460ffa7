import Mathlib.Tactic.IntervalCases
import Mathlib.Tactic.Ring
import Mathlib.Data.List.TakeWhile
import Mathlib.Data.Char
import Verif.Model.Json
import Verif.Lemmas.PyStr

/-!
# C124: JSON text

The grammar of RFC 8259 as inductive predicates, independent of the writer and the reader of `Model/Json.lean`.
-/

set_option linter.unusedSectionVars false

namespace Ranx
open Jsn
open Py (Str)

/-! ## The grammar -/

/-- JSON white space -/
def Spec.Blank (w : Str) : Prop := ∀ c ∈ w, c = ' ' ∨ c = '\n' ∨ c = '\r' ∨ c = '\t'

/-- `c` is a hexadecimal digit, in lower or upper case, of value `v` -/
def Spec.HexDigit (c : Char) (v : Nat) : Prop :=
  v < 16 ∧ (c = Nat.digitChar v ∨ c = (Nat.digitChar v).toUpper)

/-- four hexadecimal digits of value `n` -/
def Spec.Hex4 (t : Str) (n : Nat) : Prop :=
  ∃ a b c d va vb vc vd, t = [a, b, c, d] ∧ Spec.HexDigit a va ∧ Spec.HexDigit b vb ∧ Spec.HexDigit c vc ∧
    Spec.HexDigit d vd ∧ n = va * 16 ^ 3 + vb * 16 ^ 2 + vc * 16 + vd

/-- RFC 8259, section 7: the texts of a character inside a string -/
inductive Spec.CharText : Str → Char → Prop
  | plain (c : Char) : 32 ≤ c.toNat → c ≠ '"' → c ≠ '\\' → Spec.CharText [c] c
  | quote : Spec.CharText ['\\', '"'] '"'
  | backslash : Spec.CharText ['\\', '\\'] '\\'
  | slash : Spec.CharText ['\\', '/'] '/'
  | newline : Spec.CharText ['\\', 'n'] '\n'
  | ret : Spec.CharText ['\\', 'r'] '\r'
  | tab : Spec.CharText ['\\', 't'] '\t'
  | backspace : Spec.CharText ['\\', 'b'] (Char.ofNat 8)
  | formfeed : Spec.CharText ['\\', 'f'] (Char.ofNat 12)
  | unicode (t : Str) (c : Char) : Spec.Hex4 t c.toNat → Spec.CharText ('\\' :: 'u' :: t) c
  | pair (t u : Str) (c : Char) (hi lo : Nat) : Spec.Hex4 t (0xD800 + hi) → Spec.Hex4 u (0xDC00 + lo) → lo < 0x400 →
      c.toNat = 0x10000 + hi * 0x400 + lo → Spec.CharText ('\\' :: 'u' :: t ++ '\\' :: 'u' :: u) c

/-- the texts between the quotes of a string -/
inductive Spec.StrText : Str → Str → Prop
  | nil : Spec.StrText [] []
  | cons (t : Str) (c : Char) (u s : Str) : Spec.CharText t c → Spec.StrText u s → Spec.StrText (t ++ u) (c :: s)

section
variable {ν : Type*}

mutual
/-- RFC 8259, sections 3 to 7: `t` is a text of the value `v` (without white space around it).  `lax`: the literal `NaN`
is allowed too. -/
inductive Spec.Denotes (N : NumText ν) (lax : Bool) : Str → Json ν → Prop
  | null : Spec.Denotes N lax "null".toList .null
  | true : Spec.Denotes N lax "true".toList (.bool true)
  | false : Spec.Denotes N lax "false".toList (.bool false)
  | nan : lax = true → Spec.Denotes N lax "NaN".toList .nan
  | num (t : Str) (x : ν) : (∀ c ∈ t, numChar c = true) → N.read t = some x → Spec.Denotes N lax t (.num x)
  | str (t s : Str) : Spec.StrText t s → Spec.Denotes N lax ('"' :: t ++ ['"']) (.str s)
  | emptyArr (w : Str) : Spec.Blank w → Spec.Denotes N lax ('[' :: w ++ [']']) (.arr [])
  | arr (t : Str) (vs : List (Json ν)) : Spec.Items N lax t vs → Spec.Denotes N lax ('[' :: t ++ [']']) (.arr vs)
  | emptyObj (w : Str) : Spec.Blank w → Spec.Denotes N lax ('{' :: w ++ ['}']) (.obj [])
  | obj (t : Str) (ms : List (Str × Json ν)) : Spec.Members N lax t ms →
      Spec.Denotes N lax ('{' :: t ++ ['}']) (.obj ms)
/-- one or more values separated by commas -/
inductive Spec.Items (N : NumText ν) (lax : Bool) : Str → List (Json ν) → Prop
  | one (w t w' : Str) (v : Json ν) : Spec.Blank w → Spec.Denotes N lax t v → Spec.Blank w' →
      Spec.Items N lax (w ++ t ++ w') [v]
  | cons (w t w' rest : Str) (v : Json ν) (vs : List (Json ν)) : Spec.Blank w → Spec.Denotes N lax t v →
      Spec.Blank w' → Spec.Items N lax rest vs → Spec.Items N lax (w ++ t ++ w' ++ ',' :: rest) (v :: vs)
/-- one or more members `"name" : value` separated by commas -/
inductive Spec.Members (N : NumText ν) (lax : Bool) : Str → List (Str × Json ν) → Prop
  | one (w0 t0 w1 w t w' k : Str) (v : Json ν) : Spec.Blank w0 → Spec.StrText t0 k → Spec.Blank w1 → Spec.Blank w →
      Spec.Denotes N lax t v → Spec.Blank w' →
      Spec.Members N lax (w0 ++ ('"' :: t0 ++ ['"']) ++ w1 ++ ':' :: (w ++ t ++ w')) [(k, v)]
  | cons (w0 t0 w1 w t w' rest k : Str) (v : Json ν) (ms : List (Str × Json ν)) : Spec.Blank w0 →
      Spec.StrText t0 k → Spec.Blank w1 → Spec.Blank w → Spec.Denotes N lax t v → Spec.Blank w' →
      Spec.Members N lax rest ms →
      Spec.Members N lax (w0 ++ ('"' :: t0 ++ ['"']) ++ w1 ++ ':' :: (w ++ t ++ w' ++ ',' :: rest)) ((k, v) :: ms)
end

/-- a JSON text: a value with white space around it -/
def Spec.JsonText (N : NumText ν) (lax : Bool) (s : Str) (v : Json ν) : Prop :=
  ∃ w t w', s = w ++ t ++ w' ∧ Spec.Blank w ∧ Spec.Denotes N lax t v ∧ Spec.Blank w'

/-! ## The reader accepts what the grammar allows -/

theorem Jsn.isWs_iff {c : Char} : isWs c = true ↔ c = ' ' ∨ c = '\n' ∨ c = '\r' ∨ c = '\t' := by
  unfold isWs
  simp only [Bool.or_eq_true, beq_iff_eq, or_assoc]

theorem Jsn.skip_blank {w : Str} (h : Spec.Blank w) (s : Str) : skip (w ++ s) = skip s := by
  unfold skip
  induction w with
  | nil => rfl
  | cons c t ih =>
    rw [List.cons_append, List.dropWhile_cons_of_pos (isWs_iff.2 (h c (by simp)))]
    exact ih (fun x hx => h x (by simp [hx]))

theorem Jsn.skip_of_head {c : Char} {t : Str} (h : isWs c = false) : skip (c :: t) = c :: t := by
  unfold skip
  rw [List.dropWhile_cons_of_neg (by rw [h]; decide)]

theorem Jsn.skip_eq (s : Str) : ∃ w, Spec.Blank w ∧ s = w ++ skip s := by
  refine ⟨s.takeWhile isWs, ?_, (List.takeWhile_append_dropWhile).symm⟩
  intro c hc
  exact isWs_iff.1 (List.mem_takeWhile_imp hc)

theorem Jsn.skip_skip (s : Str) : skip (skip s) = skip s := by
  unfold skip
  induction s with
  | nil => rfl
  | cons c t ih =>
    by_cases h : isWs c = true
    · rw [List.dropWhile_cons_of_pos h, ih]
    · rw [List.dropWhile_cons_of_neg h, List.dropWhile_cons_of_neg h]

theorem Jsn.skip_nil_of_blank {w : Str} (h : Spec.Blank w) : skip w = [] := by
  have := skip_blank h []
  rwa [List.append_nil] at this

theorem Jsn.blank_of_skip_nil {s : Str} (h : skip s = []) : Spec.Blank s := by
  obtain ⟨w, hw, e⟩ := skip_eq s
  rw [h, List.append_nil] at e
  rw [e]; exact hw

theorem Jsn.hexVal_of {c : Char} {v : Nat} (h : Spec.HexDigit c v) : hexVal c = some v := by
  obtain ⟨hv, h⟩ := h
  have key : ∀ v < 16, hexVal (Nat.digitChar v) = some v ∧ hexVal (Nat.digitChar v).toUpper = some v := by decide
  rcases h with rfl | rfl
  · exact (key v hv).1
  · exact (key v hv).2

theorem Jsn.hexDigit_of {c : Char} {v : Nat} (h : hexVal c = some v) : Spec.HexDigit c v := by
  have hc : c = Char.ofNat c.toNat := (Char.ofNat_toNat c).symm
  unfold hexVal at h
  by_cases h1 : c.isDigit = true
  · rw [if_pos h1] at h
    rw [Py.isDigit_iff] at h1
    obtain ⟨a, b⟩ := h1
    rw [hc]
    generalize c.toNat = n at *
    cases h
    interval_cases n <;> exact ⟨by decide, .inl (by decide)⟩
  rw [if_neg h1] at h
  by_cases h2 : 97 ≤ c.toNat ∧ c.toNat ≤ 102
  · rw [if_pos h2] at h
    obtain ⟨a, b⟩ := h2
    rw [hc]
    generalize c.toNat = n at *
    cases h
    interval_cases n <;> exact ⟨by decide, .inl (by decide)⟩
  rw [if_neg h2] at h
  by_cases h3 : 65 ≤ c.toNat ∧ c.toNat ≤ 70
  · rw [if_pos h3] at h
    obtain ⟨a, b⟩ := h3
    rw [hc]
    generalize c.toNat = n at *
    cases h
    interval_cases n <;> exact ⟨by decide, .inr (by decide)⟩
  rw [if_neg h3] at h
  cases h

theorem Jsn.readHex_of {t : Str} {n : Nat} (h : Spec.Hex4 t n) (r : Str) : readHex (t ++ r) = some (n, r) := by
  obtain ⟨a, b, c, d, va, vb, vc, vd, rfl, ha, hb, hc, hd, rfl⟩ := h
  show readHex (a :: b :: c :: d :: r) = _
  simp only [readHex, hexVal_of ha, hexVal_of hb, hexVal_of hc, hexVal_of hd, Option.some.injEq, Prod.mk.injEq, and_true]
  ring

theorem Jsn.hex4_of {s r : Str} {n : Nat} (h : readHex s = some (n, r)) : ∃ t, s = t ++ r ∧ Spec.Hex4 t n := by
  unfold readHex at h
  split at h
  · rename_i a b c d t
    split at h
    · rename_i va vb vc vd ha hb hc hd
      cases h
      exact ⟨[a, b, c, d], rfl, a, b, c, d, va, vb, vc, vd, rfl, hexDigit_of ha, hexDigit_of hb, hexDigit_of hc,
        hexDigit_of hd, by ring⟩
    · cases h
  · cases h

theorem Jsn.hex4_lt {t : Str} {n : Nat} (h : Spec.Hex4 t n) : n < 0x10000 := by
  obtain ⟨a, b, c, d, va, vb, vc, vd, -, ⟨ha, -⟩, ⟨hb, -⟩, ⟨hc, -⟩, ⟨hd, -⟩, rfl⟩ := h
  norm_num
  omega

theorem Jsn.char_valid (c : Char) : c.toNat < 0xD800 ∨ (0xE000 ≤ c.toNat ∧ c.toNat < 0x110000) := by
  have h : c.toNat.isValidChar := c.valid
  rcases h with h | ⟨h1, h2⟩
  · exact .inl h
  · exact .inr ⟨h1, h2⟩

theorem Jsn.toNat_ofNat {n : Nat} (h : n < 0xD800 ∨ (0xE000 ≤ n ∧ n < 0x110000)) : (Char.ofNat n).toNat = n := by
  have hv : n.isValidChar := by
    rcases h with h | ⟨h1, h2⟩
    · exact .inl h
    · exact .inr ⟨h1, h2⟩
  unfold Char.ofNat
  rw [dif_pos hv]
  rfl

/-- every way to write a character is read as this character -/
theorem Jsn.readChar_of {t : Str} {c : Char} (h : Spec.CharText t c) (r : Str) :
    readChar (t ++ r) = some (c, r) ∧ ∃ x t', t = x :: t' ∧ x ≠ '"' := by
  cases h with
  | plain _ h1 h2 h3 =>
    refine ⟨?_, _, _, rfl, h2⟩
    show readChar (c :: r) = _
    have h4 : ¬ c.toNat < 32 := by omega
    simp only [readChar, if_neg h3, if_neg h4]
  | unicode t _ h =>
    refine ⟨?_, _, _, rfl, by decide⟩
    show readChar ('\\' :: 'u' :: (t ++ r)) = _
    simp only [readChar, if_true]
    unfold readU
    rw [readHex_of h]
    simp only
    rw [if_pos (by rcases char_valid c with h | h <;> omega), Char.ofNat_toNat]
  | pair t u _ hi lo h1 h2 h3 h4 =>
    refine ⟨?_, _, _, rfl, by decide⟩
    have e : ('\\' :: 'u' :: t ++ '\\' :: 'u' :: u) ++ r = '\\' :: 'u' :: (t ++ ('\\' :: 'u' :: (u ++ r))) := by simp
    rw [e]
    have hv := char_valid c
    have hhi : hi < 0x400 := by omega
    simp only [readChar, if_true]
    unfold readU
    rw [readHex_of h1]
    simp only
    rw [if_neg (by omega), if_neg (by omega), if_pos ⟨trivial, trivial⟩, readHex_of h2]
    simp only
    rw [if_pos (by omega)]
    have : 0x10000 + (0xD800 + hi - 0xD800) * 0x400 + (0xDC00 + lo - 0xDC00) = c.toNat := by omega
    rw [this, Char.ofNat_toNat]
  | _ => exact ⟨rfl, _, _, rfl, by decide⟩

/-- what is read as a character is one of its texts -/
theorem Jsn.charText_of {s r : Str} {c : Char} (h : readChar s = some (c, r)) (hq : s.head? ≠ some '"') :
    ∃ t, s = t ++ r ∧ Spec.CharText t c := by
  cases s with
  | nil => cases h
  | cons x t =>
    simp only [readChar] at h
    by_cases hx : x = '\\'
    · subst hx
      rw [if_pos rfl] at h
      cases t with
      | nil => cases h
      | cons e t =>
        simp only at h
        by_cases he : e = 'u'
        · subst he
          rw [if_pos rfl] at h
          unfold readU at h
          cases hr : readHex t with
          | none => rw [hr] at h; cases h
          | some p =>
            obtain ⟨n, t'⟩ := p
            rw [hr] at h
            simp only at h
            obtain ⟨u, rfl, hu⟩ := hex4_of hr
            have hlt := hex4_lt hu
            by_cases h1 : n < 0xD800 ∨ 0xE000 ≤ n
            · rw [if_pos h1] at h
              cases h
              refine ⟨'\\' :: 'u' :: u, by simp, .unicode _ _ ?_⟩
              rw [toNat_ofNat (by omega)]; exact hu
            rw [if_neg h1] at h
            by_cases h2 : 0xDC00 ≤ n
            · rw [if_pos h2] at h; cases h
            rw [if_neg h2] at h
            match t', h with
            | [], h => cases h
            | [_], h => cases h
            | y :: z :: t'', h =>
              simp only at h
              by_cases hyz : y = '\\' ∧ z = 'u'
              · rw [if_pos hyz] at h
                obtain ⟨rfl, rfl⟩ := hyz
                cases hr' : readHex t'' with
                | none => rw [hr'] at h; cases h
                | some p =>
                  obtain ⟨m, t3⟩ := p
                  rw [hr'] at h
                  simp only at h
                  obtain ⟨u', rfl, hu'⟩ := hex4_of hr'
                  by_cases h3 : 0xDC00 ≤ m ∧ m < 0xE000
                  · rw [if_pos h3, Option.some.injEq, Prod.mk.injEq] at h
                    obtain ⟨rfl, rfl⟩ := h
                    refine ⟨'\\' :: 'u' :: u ++ '\\' :: 'u' :: u', by simp, .pair u u' _ (n - 0xD800) (m - 0xDC00) ?_ ?_ ?_ ?_⟩
                    · rw [show 0xD800 + (n - 0xD800) = n by omega]; exact hu
                    · rw [show 0xDC00 + (m - 0xDC00) = m by omega]; exact hu'
                    · omega
                    · rw [toNat_ofNat (by omega)]
                  · rw [if_neg h3] at h; cases h
              · rw [if_neg hyz] at h; cases h
        · rw [if_neg he] at h
          have : ∃ c', simpleEscape e = some c' ∧ c' = c ∧ t = r := by
            cases hs : simpleEscape e with
            | none => rw [hs] at h; cases h
            | some c' =>
              rw [hs] at h
              simp only [Option.map_some, Option.some.injEq, Prod.mk.injEq] at h
              exact ⟨c', rfl, h.1, h.2⟩
          obtain ⟨c', hs, rfl, rfl⟩ := this
          refine ⟨['\\', e], rfl, ?_⟩
          unfold simpleEscape at hs
          by_cases a1 : e = '"' ∨ e = '\\' ∨ e = '/'
          · rw [if_pos a1] at hs
            cases hs
            rcases a1 with rfl | rfl | rfl
            · exact .quote
            · exact .backslash
            · exact .slash
          rw [if_neg a1] at hs
          by_cases a2 : e = 'n'
          · rw [if_pos a2] at hs; subst a2; cases hs; exact .newline
          rw [if_neg a2] at hs
          by_cases a3 : e = 'r'
          · rw [if_pos a3] at hs; subst a3; cases hs; exact .ret
          rw [if_neg a3] at hs
          by_cases a4 : e = 't'
          · rw [if_pos a4] at hs; subst a4; cases hs; exact .tab
          rw [if_neg a4] at hs
          by_cases a5 : e = 'b'
          · rw [if_pos a5] at hs; subst a5; cases hs; exact .backspace
          rw [if_neg a5] at hs
          by_cases a6 : e = 'f'
          · rw [if_pos a6] at hs; subst a6; cases hs; exact .formfeed
          rw [if_neg a6] at hs; cases hs
    · rw [if_neg hx] at h
      by_cases h2 : x.toNat < 32
      · rw [if_pos h2] at h; cases h
      · rw [if_neg h2] at h
        rw [Option.some.injEq, Prod.mk.injEq] at h
        obtain ⟨rfl, rfl⟩ := h
        refine ⟨[x], rfl, .plain _ (by omega) (fun e => hq (by rw [e]; rfl)) hx⟩

theorem Jsn.readChars_of {t s : Str} (h : Spec.StrText t s) (n : Nat) (hn : t.length < n) (r : Str) :
    readChars n (t ++ '"' :: r) = some (s, r) := by
  induction h generalizing n with
  | nil =>
    cases n with
    | zero => omega
    | succ n =>
      show readChars (n + 1) ('"' :: r) = _
      unfold readChars
      rw [if_pos rfl]
  | cons t c u s hc _ ih =>
    obtain ⟨h1, x, t', rfl, hx⟩ := readChar_of hc (u ++ '"' :: r)
    cases n with
    | zero => omega
    | succ n =>
      rw [List.append_assoc]
      show readChars (n + 1) (x :: (t' ++ (u ++ '"' :: r))) = _
      unfold readChars
      rw [if_neg hx]
      rw [List.cons_append] at h1
      rw [h1]
      simp only
      rw [ih n (by simp at hn; omega)]
      rfl

theorem Jsn.strText_of (n : Nat) {u s r : Str} (h : readChars n u = some (s, r)) :
    ∃ t, u = t ++ '"' :: r ∧ Spec.StrText t s := by
  induction n generalizing u s with
  | zero => unfold readChars at h; cases h
  | succ n ih =>
    cases u with
    | nil => unfold readChars at h; cases h
    | cons c t =>
      unfold readChars at h
      by_cases hc : c = '"'
      · rw [if_pos hc] at h
        cases h
        exact ⟨[], by rw [hc]; rfl, .nil⟩
      · rw [if_neg hc] at h
        cases hr : readChar (c :: t) with
        | none => rw [hr] at h; cases h
        | some p =>
          obtain ⟨x, t'⟩ := p
          rw [hr] at h
          simp only at h
          obtain ⟨a, ha, hax⟩ := charText_of hr (by simpa using hc)
          cases hrc : readChars n t' with
          | none => rw [hrc] at h; cases h
          | some q =>
            rw [hrc] at h
            simp only [Option.map_some, Option.some.injEq, Prod.mk.injEq] at h
            obtain ⟨rfl, rfl⟩ := h
            obtain ⟨b, hb, hbs⟩ := ih hrc
            refine ⟨a ++ b, ?_, .cons _ _ _ _ hax hbs⟩
            rw [ha, hb, List.append_assoc]

theorem Jsn.readStr_of {t s : Str} (h : Spec.StrText t s) (r : Str) :
    readStr (('"' :: t ++ ['"']) ++ r) = some (s, r) := by
  have e : ('"' :: t ++ ['"']) ++ r = '"' :: (t ++ '"' :: r) := by simp
  rw [e]
  simp only [readStr, if_true]
  exact readChars_of h _ (by simp; omega) r

theorem Jsn.readStr_sound {u s r : Str} (h : readStr u = some (s, r)) :
    ∃ t, u = ('"' :: t ++ ['"']) ++ r ∧ Spec.StrText t s := by
  cases u with
  | nil => cases h
  | cons c t =>
    simp only [readStr] at h
    by_cases hc : c = '"'
    · rw [if_pos hc] at h
      obtain ⟨a, rfl, ha⟩ := strText_of _ h
      exact ⟨a, by rw [hc]; simp, ha⟩
    · rw [if_neg hc] at h; cases h

/-- the text does not go on with a number -/
def Jsn.Stops (r : Str) : Prop := ∀ c, r.head? = some c → numChar c = false

theorem Jsn.stops_blank {w r : Str} (hw : Spec.Blank w) (hr : Stops r) : Stops (w ++ r) := by
  intro c hc
  cases w with
  | nil => exact hr c hc
  | cons x t =>
    simp only [List.cons_append, List.head?_cons, Option.some.injEq] at hc
    subst hc
    rcases hw x (by simp) with rfl | rfl | rfl | rfl <;> decide

theorem Jsn.stops_cons {c : Char} {r : Str} (h : numChar c = false) : Stops (c :: r) := by
  intro x hx
  simp only [List.head?_cons, Option.some.injEq] at hx
  rw [← hx]; exact h

theorem Jsn.stops_nil : Stops [] := fun _ h => nomatch h

/-- a value starts with a character that is neither white space nor a closing bracket or brace -/
theorem Jsn.denotes_head {N : NumText ν} {lax : Bool} {t : Str} {v : Json ν} (h : Spec.Denotes N lax t v) :
    ∃ c t', t = c :: t' ∧ isWs c = false ∧ c ≠ ']' ∧ c ≠ '}' := by
  cases h with
  | num _ x h1 h2 =>
    cases t with
    | nil => rw [N.read_nil] at h2; cases h2
    | cons c t =>
      have hc := h1 c (by simp)
      refine ⟨c, t, rfl, ?_, ?_, ?_⟩
      · cases hw : isWs c with
        | false => rfl
        | true =>
          rcases isWs_iff.1 hw with rfl | rfl | rfl | rfl <;> exact absurd hc (by decide)
      · rintro rfl; exact absurd hc (by decide)
      · rintro rfl; exact absurd hc (by decide)
  | _ => exact ⟨_, _, rfl, by decide, by decide, by decide⟩

theorem Jsn.denotes_skip {N : NumText ν} {lax : Bool} {t : Str} {v : Json ν} (h : Spec.Denotes N lax t v)
    (r : Str) : skip (t ++ r) = t ++ r := by
  obtain ⟨c, t', rfl, hc, -⟩ := denotes_head h
  exact skip_of_head hc

theorem Jsn.keyword_of (pre : Str) (v : Json ν) (r : Str) : keyword pre v (pre ++ r) = some (v, r) := by
  unfold keyword
  rw [if_pos (List.prefix_append _ _), List.drop_left]

theorem Jsn.readItems_skip (N : NumText ν) (lax : Bool) (n : Nat) (s : Str) :
    readItems N lax n (skip s) = readItems N lax n s := by
  cases n with
  | zero => simp only [readItems]
  | succ n => simp only [readItems, skip_skip]

theorem Jsn.readMembers_skip (N : NumText ν) (lax : Bool) (n : Nat) (s : Str) :
    readMembers N lax n (skip s) = readMembers N lax n s := by
  cases n with
  | zero => simp only [readMembers]
  | succ n => simp only [readMembers, skip_skip]

theorem Jsn.takeWhile_num {t r : Str} (h : ∀ c ∈ t, numChar c = true) (hr : Stops r) :
    (t ++ r).takeWhile numChar = t ∧ (t ++ r).dropWhile numChar = r := by
  induction t with
  | nil =>
    cases r with
    | nil => exact ⟨rfl, rfl⟩
    | cons c r =>
      have := hr c rfl
      exact ⟨List.takeWhile_cons_of_neg (by rw [this]; decide), List.dropWhile_cons_of_neg (by rw [this]; decide)⟩
  | cons c t ih =>
    have hc := h c (by simp)
    obtain ⟨i1, i2⟩ := ih (fun x hx => h x (by simp [hx]))
    rw [List.cons_append, List.takeWhile_cons_of_pos hc, List.dropWhile_cons_of_pos hc, i1, i2]
    exact ⟨rfl, rfl⟩

theorem Jsn.readValue_num {N : NumText ν} {lax : Bool} {t : Str} {x : ν} (h1 : ∀ c ∈ t, numChar c = true)
    (h2 : N.read t = some x) (n : Nat) (r : Str) (hr : Stops r) :
    readValue N lax (n + 1) (t ++ r) = some (.num x, r) := by
  cases t with
  | nil => rw [N.read_nil] at h2; cases h2
  | cons c t =>
    have hc := h1 c (by simp)
    have ne : ∀ d, numChar d = false → c ≠ d := by
      intro d hd e
      rw [e, hd] at hc; cases hc
    obtain ⟨i1, i2⟩ := takeWhile_num h1 hr
    rw [List.cons_append] at i1 i2 ⊢
    simp only [readValue, if_neg (ne 'n' (by decide)), if_neg (ne 't' (by decide)), if_neg (ne 'f' (by decide)),
      if_neg (ne 'N' (by decide)), if_neg (ne '"' (by decide)), if_neg (ne '[' (by decide)),
      if_neg (ne '{' (by decide)), i1, i2, h2, Option.map_some]

theorem Jsn.members_head {N : NumText ν} {lax : Bool} {t : Str} {ms : List (Str × Json ν)}
    (h : Spec.Members N lax t ms) (r : Str) : ∃ u, skip (t ++ r) = '"' :: u := by
  cases h with
  | one w0 t0 w1 w t w' k v hw0 h0 hw1 hw h hw' =>
    exact ⟨t0 ++ ('"' :: (w1 ++ (':' :: (w ++ t ++ w') ++ r))), by
      simp only [List.append_assoc, List.cons_append, List.nil_append]
      rw [skip_blank hw0, skip_of_head (by decide)]⟩
  | cons w0 t0 w1 w t w' rest k v ms hw0 h0 hw1 hw h hw' hm =>
    exact ⟨t0 ++ ('"' :: (w1 ++ (':' :: (w ++ t ++ w' ++ ',' :: rest) ++ r))), by
      simp only [List.append_assoc, List.cons_append, List.nil_append]
      rw [skip_blank hw0, skip_of_head (by decide)]⟩

theorem Jsn.items_head {N : NumText ν} {lax : Bool} {t : Str} {vs : List (Json ν)}
    (h : Spec.Items N lax t vs) (r : Str) : ∃ c u, skip (t ++ r) = c :: u ∧ c ≠ ']' := by
  cases h with
  | one w t w' v hw h hw' =>
    obtain ⟨c, t', rfl, h1, h2, -⟩ := denotes_head h
    exact ⟨c, t' ++ (w' ++ r), by
      simp only [List.append_assoc, List.cons_append]
      rw [skip_blank hw, skip_of_head h1], h2⟩
  | cons w t w' rest v vs hw h hw' hm =>
    obtain ⟨c, t', rfl, h1, h2, -⟩ := denotes_head h
    exact ⟨c, t' ++ (w' ++ (',' :: (rest ++ r))), by
      simp only [List.append_assoc, List.cons_append]
      rw [skip_blank hw, skip_of_head h1], h2⟩

mutual
theorem Jsn.complete_value {N : NumText ν} {lax : Bool} {t : Str} {v : Json ν} (h : Spec.Denotes N lax t v) :
    ∀ (n : Nat), t.length < n → ∀ r, Stops r → readValue N lax n (t ++ r) = some (v, r) := by
  intro n hn r hr
  cases n with
  | zero => omega
  | succ n =>
    match h with
    | .null => exact keyword_of "null".toList .null r
    | .true => exact keyword_of "true".toList (.bool true) r
    | .false => exact keyword_of "false".toList (.bool false) r
    | .nan hl =>
      subst hl
      exact keyword_of "NaN".toList .nan r
    | .num _ x h1 h2 => exact readValue_num h1 h2 n r hr
    | .str t s hs =>
      have := readStr_of hs r
      simp only [List.append_assoc, List.cons_append, List.nil_append] at this ⊢
      simp [readValue, this]
    | .emptyArr w hw =>
      have e : skip (w ++ ']' :: r) = ']' :: r := by rw [skip_blank hw, skip_of_head (by decide)]
      simp [readValue, e]
    | .emptyObj w hw =>
      have e : skip (w ++ '}' :: r) = '}' :: r := by rw [skip_blank hw, skip_of_head (by decide)]
      simp [readValue, e]
    | .arr t vs hi =>
      obtain ⟨c, u, e, hc⟩ := items_head hi (']' :: r)
      have := complete_items hi n (by simp at hn; omega) r
      rw [← readItems_skip, e] at this
      simp [readValue, e, hc, this]
    | .obj t ms hm =>
      obtain ⟨u, e⟩ := members_head hm ('}' :: r)
      have := complete_members hm n (by simp at hn; omega) r
      rw [← readMembers_skip, e] at this
      simp [readValue, e, this]
theorem Jsn.complete_items {N : NumText ν} {lax : Bool} {t : Str} {vs : List (Json ν)} (h : Spec.Items N lax t vs) :
    ∀ (n : Nat), t.length + 1 < n → ∀ r, readItems N lax n (t ++ ']' :: r) = some (vs, r) := by
  intro n hn r
  cases n with
  | zero => omega
  | succ n =>
    match h with
    | .one w t w' v hw hv hw' =>
      have h1 := complete_value hv n (by simp at hn; omega) (w' ++ ']' :: r)
        (stops_blank hw' (stops_cons (by decide)))
      have e : skip (w ++ t ++ w' ++ ']' :: r) = t ++ (w' ++ ']' :: r) := by
        simp only [List.append_assoc]
        rw [skip_blank hw, denotes_skip hv]
      have e' : skip (w' ++ ']' :: r) = ']' :: r := by rw [skip_blank hw', skip_of_head (by decide)]
      simp only [readItems, e, h1, e', if_true]
    | .cons w t w' rest v vs hw hv hw' hi =>
      have h1 := complete_value hv n (by simp at hn; omega) (w' ++ ',' :: (rest ++ ']' :: r))
        (stops_blank hw' (stops_cons (by decide)))
      have h2 := complete_items hi n (by simp at hn; omega) r
      have e : skip (w ++ t ++ w' ++ ',' :: rest ++ ']' :: r) = t ++ (w' ++ ',' :: (rest ++ ']' :: r)) := by
        simp only [List.append_assoc, List.cons_append]
        rw [skip_blank hw, denotes_skip hv]
      have e' : skip (w' ++ ',' :: (rest ++ ']' :: r)) = ',' :: (rest ++ ']' :: r) := by
        rw [skip_blank hw', skip_of_head (by decide)]
      have ne : ¬ ',' = ']' := by decide
      simp only [readItems, e, h1, e', if_true, if_neg ne, h2, Option.map_some]
theorem Jsn.complete_members {N : NumText ν} {lax : Bool} {t : Str} {ms : List (Str × Json ν)}
    (h : Spec.Members N lax t ms) :
    ∀ (n : Nat), t.length + 1 < n → ∀ r, readMembers N lax n (t ++ '}' :: r) = some (ms, r) := by
  intro n hn r
  cases n with
  | zero => omega
  | succ n =>
    match h with
    | .one w0 t0 w1 w t w' k v hw0 h0 hw1 hw hv hw' =>
      have h1 := complete_value hv n (by simp at hn; omega) (w' ++ '}' :: r)
        (stops_blank hw' (stops_cons (by decide)))
      have e0 : skip (w0 ++ ('"' :: t0 ++ ['"']) ++ w1 ++ ':' :: (w ++ t ++ w') ++ '}' :: r) =
          ('"' :: t0 ++ ['"']) ++ (w1 ++ ':' :: (w ++ t ++ w' ++ '}' :: r)) := by
        simp only [List.append_assoc, List.cons_append]
        rw [skip_blank hw0, skip_of_head (by decide)]
      have e1 : skip (w1 ++ ':' :: (w ++ t ++ w' ++ '}' :: r)) = ':' :: (w ++ t ++ w' ++ '}' :: r) := by
        rw [skip_blank hw1, skip_of_head (by decide)]
      have e : skip (w ++ t ++ w' ++ '}' :: r) = t ++ (w' ++ '}' :: r) := by
        simp only [List.append_assoc]
        rw [skip_blank hw, denotes_skip hv]
      have e' : skip (w' ++ '}' :: r) = '}' :: r := by rw [skip_blank hw', skip_of_head (by decide)]
      simp only [readMembers, e0, readStr_of h0, e1, e, h1, e', if_true]
    | .cons w0 t0 w1 w t w' rest k v ms hw0 h0 hw1 hw hv hw' hm =>
      have h1 := complete_value hv n (by simp at hn; omega) (w' ++ ',' :: (rest ++ '}' :: r))
        (stops_blank hw' (stops_cons (by decide)))
      have h2 := complete_members hm n (by simp at hn; omega) r
      have e0 : skip (w0 ++ ('"' :: t0 ++ ['"']) ++ w1 ++ ':' :: (w ++ t ++ w' ++ ',' :: rest) ++ '}' :: r) =
          ('"' :: t0 ++ ['"']) ++ (w1 ++ ':' :: (w ++ t ++ w' ++ ',' :: (rest ++ '}' :: r))) := by
        simp only [List.append_assoc, List.cons_append]
        rw [skip_blank hw0, skip_of_head (by decide)]
      have e1 : skip (w1 ++ ':' :: (w ++ t ++ w' ++ ',' :: (rest ++ '}' :: r))) =
          ':' :: (w ++ t ++ w' ++ ',' :: (rest ++ '}' :: r)) := by
        rw [skip_blank hw1, skip_of_head (by decide)]
      have e : skip (w ++ t ++ w' ++ ',' :: (rest ++ '}' :: r)) = t ++ (w' ++ ',' :: (rest ++ '}' :: r)) := by
        simp only [List.append_assoc]
        rw [skip_blank hw, denotes_skip hv]
      have e' : skip (w' ++ ',' :: (rest ++ '}' :: r)) = ',' :: (rest ++ '}' :: r) := by
        rw [skip_blank hw', skip_of_head (by decide)]
      have ne : ¬ ',' = '}' := by decide
      simp only [readMembers, e0, readStr_of h0, e1, e, h1, e', if_true, if_neg ne, h2, Option.map_some]
end

/-! ## The reader rejects everything else -/

theorem Jsn.keyword_sound {pre s r : Str} {v v' : Json ν} (h : keyword pre v s = some (v', r)) :
    v' = v ∧ s = pre ++ r := by
  unfold keyword at h
  by_cases hp : pre <+: s
  · rw [if_pos hp, Option.some.injEq, Prod.mk.injEq] at h
    obtain ⟨rfl, rfl⟩ := h
    obtain ⟨t, rfl⟩ := hp
    exact ⟨rfl, by rw [List.drop_left]⟩
  · rw [if_neg hp] at h; cases h

/-- what the three readers accept with recursion depth `n` -/
structure Jsn.SoundAt (N : NumText ν) (lax : Bool) (n : Nat) : Prop where
  value : ∀ s v r, readValue N lax n s = some (v, r) → ∃ t, s = t ++ r ∧ Spec.Denotes N lax t v
  items : ∀ s vs r, readItems N lax n s = some (vs, r) → ∃ t, s = t ++ ']' :: r ∧ Spec.Items N lax t vs
  members : ∀ s ms r, readMembers N lax n s = some (ms, r) → ∃ t, s = t ++ '}' :: r ∧ Spec.Members N lax t ms

theorem Jsn.soundAt (N : NumText ν) (lax : Bool) (n : Nat) : SoundAt N lax n := by
  induction n with
  | zero =>
    refine ⟨?_, ?_, ?_⟩
    · intro s v r h; simp [readValue] at h
    · intro s v r h; simp [readItems] at h
    · intro s v r h; simp [readMembers] at h
  | succ n ih =>
    refine ⟨?_, ?_, ?_⟩
    · intro s v r h
      cases s with
      | nil => simp [readValue] at h
      | cons c t =>
        simp only [readValue] at h
        by_cases c1 : c = 'n'
        · rw [if_pos c1] at h
          obtain ⟨rfl, e⟩ := keyword_sound h
          exact ⟨_, e, .null⟩
        rw [if_neg c1] at h
        by_cases c2 : c = 't'
        · rw [if_pos c2] at h
          obtain ⟨rfl, e⟩ := keyword_sound h
          exact ⟨_, e, .true⟩
        rw [if_neg c2] at h
        by_cases c3 : c = 'f'
        · rw [if_pos c3] at h
          obtain ⟨rfl, e⟩ := keyword_sound h
          exact ⟨_, e, .false⟩
        rw [if_neg c3] at h
        by_cases c4 : c = 'N'
        · rw [if_pos c4] at h
          cases hl : lax with
          | false => rw [hl] at h; cases h
          | true =>
            rw [hl] at h
            obtain ⟨rfl, e⟩ := keyword_sound h
            exact ⟨_, e, .nan rfl⟩
        rw [if_neg c4] at h
        by_cases c5 : c = '"'
        · rw [if_pos c5] at h
          cases hs : readStr (c :: t) with
          | none => rw [hs] at h; cases h
          | some p =>
            rw [hs] at h
            simp only [Option.map_some, Option.some.injEq, Prod.mk.injEq] at h
            obtain ⟨rfl, rfl⟩ := h
            obtain ⟨a, e, ha⟩ := readStr_sound hs
            exact ⟨_, e, .str _ _ ha⟩
        rw [if_neg c5] at h
        by_cases c6 : c = '['
        · rw [if_pos c6] at h
          obtain ⟨w, hw, ew⟩ := skip_eq t
          cases hs : skip t with
          | nil => rw [hs] at h; cases h
          | cons d u =>
            rw [hs] at h ew
            simp only at h
            by_cases hd : d = ']'
            · rw [if_pos hd, Option.some.injEq, Prod.mk.injEq] at h
              obtain ⟨rfl, rfl⟩ := h
              exact ⟨'[' :: w ++ [']'], by rw [ew, c6, hd]; simp, .emptyArr w hw⟩
            · rw [if_neg hd] at h
              cases hr : readItems N lax n (d :: u) with
              | none => rw [hr] at h; cases h
              | some p =>
                rw [← hs, readItems_skip] at hr
                rw [← hs, readItems_skip, hr] at h
                simp only [Option.map_some, Option.some.injEq, Prod.mk.injEq] at h
                obtain ⟨rfl, rfl⟩ := h
                obtain ⟨a, e, ha⟩ := ih.items _ _ _ hr
                exact ⟨'[' :: a ++ [']'], by rw [e, c6]; simp, .arr _ _ ha⟩
        rw [if_neg c6] at h
        by_cases c7 : c = '{'
        · rw [if_pos c7] at h
          obtain ⟨w, hw, ew⟩ := skip_eq t
          cases hs : skip t with
          | nil => rw [hs] at h; cases h
          | cons d u =>
            rw [hs] at h ew
            simp only at h
            by_cases hd : d = '}'
            · rw [if_pos hd, Option.some.injEq, Prod.mk.injEq] at h
              obtain ⟨rfl, rfl⟩ := h
              exact ⟨'{' :: w ++ ['}'], by rw [ew, c7, hd]; simp, .emptyObj w hw⟩
            · rw [if_neg hd] at h
              cases hr : readMembers N lax n (d :: u) with
              | none => rw [hr] at h; cases h
              | some p =>
                rw [← hs, readMembers_skip] at hr
                rw [← hs, readMembers_skip, hr] at h
                simp only [Option.map_some, Option.some.injEq, Prod.mk.injEq] at h
                obtain ⟨rfl, rfl⟩ := h
                obtain ⟨a, e, ha⟩ := ih.members _ _ _ hr
                exact ⟨'{' :: a ++ ['}'], by rw [e, c7]; simp, .obj _ _ ha⟩
        rw [if_neg c7] at h
        cases hs : N.read ((c :: t).takeWhile numChar) with
        | none => rw [hs] at h; cases h
        | some x =>
          rw [hs] at h
          simp only [Option.map_some, Option.some.injEq, Prod.mk.injEq] at h
          obtain ⟨rfl, rfl⟩ := h
          exact ⟨_, List.takeWhile_append_dropWhile.symm, .num _ _ (fun c hc => List.mem_takeWhile_imp hc) hs⟩
    · intro s vs r h
      simp only [readItems] at h
      obtain ⟨w, hw, ew⟩ := skip_eq s
      cases hv : readValue N lax n (skip s) with
      | none => rw [hv] at h; cases h
      | some p =>
        obtain ⟨v, t⟩ := p
        rw [hv] at h
        simp only at h
        obtain ⟨a, ea, ha⟩ := ih.value _ _ _ hv
        obtain ⟨w', hw', ew'⟩ := skip_eq t
        cases hs : skip t with
        | nil => rw [hs] at h; cases h
        | cons d u =>
          rw [hs] at h ew'
          simp only at h
          by_cases hd : d = ']'
          · rw [if_pos hd, Option.some.injEq, Prod.mk.injEq] at h
            obtain ⟨rfl, rfl⟩ := h
            exact ⟨w ++ a ++ w', by rw [ew, ea, ew', hd]; simp, .one _ _ _ _ hw ha hw'⟩
          rw [if_neg hd] at h
          by_cases hd' : d = ','
          · rw [if_pos hd'] at h
            cases hr : readItems N lax n u with
            | none => rw [hr] at h; cases h
            | some p =>
              rw [hr] at h
              simp only [Option.map_some, Option.some.injEq, Prod.mk.injEq] at h
              obtain ⟨rfl, rfl⟩ := h
              obtain ⟨b, eb, hb⟩ := ih.items _ _ _ hr
              exact ⟨w ++ a ++ w' ++ ',' :: b, by rw [ew, ea, ew', hd', eb]; simp, .cons _ _ _ _ _ _ hw ha hw' hb⟩
          · rw [if_neg hd'] at h; cases h
    · intro s ms r h
      simp only [readMembers] at h
      obtain ⟨w0, hw0, ew0⟩ := skip_eq s
      cases hk : readStr (skip s) with
      | none => rw [hk] at h; cases h
      | some p =>
        obtain ⟨k, t1⟩ := p
        rw [hk] at h
        simp only at h
        obtain ⟨t0, e0, h0⟩ := readStr_sound hk
        obtain ⟨w1, hw1, ew1⟩ := skip_eq t1
        cases hs1 : skip t1 with
        | nil => rw [hs1] at h; cases h
        | cons c t2 =>
          rw [hs1] at h ew1
          simp only at h
          by_cases hc : c = ':'
          · rw [if_pos hc] at h
            obtain ⟨w, hw, ew⟩ := skip_eq t2
            cases hv : readValue N lax n (skip t2) with
            | none => rw [hv] at h; cases h
            | some p =>
              obtain ⟨v, t⟩ := p
              rw [hv] at h
              simp only at h
              obtain ⟨a, ea, ha⟩ := ih.value _ _ _ hv
              obtain ⟨w', hw', ew'⟩ := skip_eq t
              cases hs : skip t with
              | nil => rw [hs] at h; cases h
              | cons d u =>
                rw [hs] at h ew'
                simp only at h
                by_cases hd : d = '}'
                · rw [if_pos hd, Option.some.injEq, Prod.mk.injEq] at h
                  obtain ⟨rfl, rfl⟩ := h
                  exact ⟨_, by rw [ew0, e0, ew1, ew, ea, ew', hd, hc]; simp,
                    .one w0 t0 w1 w a w' k v hw0 h0 hw1 hw ha hw'⟩
                rw [if_neg hd] at h
                by_cases hd' : d = ','
                · rw [if_pos hd'] at h
                  cases hr : readMembers N lax n u with
                  | none => rw [hr] at h; cases h
                  | some p =>
                    rw [hr] at h
                    simp only [Option.map_some, Option.some.injEq, Prod.mk.injEq] at h
                    obtain ⟨rfl, rfl⟩ := h
                    obtain ⟨b, eb, hb⟩ := ih.members _ _ _ hr
                    exact ⟨_, by rw [ew0, e0, ew1, ew, ea, ew', hd', eb, hc]; simp,
                      .cons w0 t0 w1 w a w' b k v _ hw0 h0 hw1 hw ha hw' hb⟩
                · rw [if_neg hd'] at h; cases h
          · rw [if_neg hc] at h; cases h

/-- **C124** (reading): the readers accept exactly the texts of the grammar, and return the value they denote. -/
theorem C124_reader (N : NumText ν) (lax : Bool) (s : Str) (v : Json ν) :
    loads N lax s = some v ↔ Spec.JsonText N lax s v := by
  constructor
  · intro h
    unfold loads at h
    cases hr : readValue N lax (s.length + 1) (skip s) with
    | none => rw [hr] at h; cases h
    | some p =>
      obtain ⟨x, t⟩ := p
      rw [hr] at h
      simp only at h
      by_cases ht : skip t = []
      · rw [if_pos ht, Option.some.injEq] at h
        subst h
        obtain ⟨w, hw, ew⟩ := skip_eq s
        obtain ⟨a, ea, ha⟩ := (soundAt N lax _).value _ _ _ hr
        exact ⟨w, a, t, by rw [List.append_assoc, ← ea]; exact ew, hw, ha, blank_of_skip_nil ht⟩
      · rw [if_neg ht] at h; cases h
  · rintro ⟨w, t, w', rfl, hw, ht, hw'⟩
    unfold loads
    have e : skip (w ++ t ++ w') = t ++ w' := by
      rw [List.append_assoc, skip_blank hw, denotes_skip ht]
    have hst : Stops w' := by
      have := stops_blank hw' stops_nil
      rwa [List.append_nil] at this
    rw [e, complete_value ht _ (by simp; omega) w' hst]
    simp only
    rw [if_pos (skip_nil_of_blank hw')]

/-- **C124**: a text denotes at most one value, so every reader that follows the grammar reads the same. -/
theorem C124_unambiguous (N : NumText ν) (lax : Bool) (s : Str) (v v' : Json ν) (h : Spec.JsonText N lax s v)
    (h' : Spec.JsonText N lax s v') : v = v' := by
  have := (C124_reader N lax s v).2 h
  rw [(C124_reader N lax s v').2 h'] at this
  exact (Option.some.inj this).symm

/-! ## What is written denotes the value -/

mutual
/-- no NaN anywhere in the value -/
def Spec.noNan : Json ν → Prop
  | .nan => False
  | .arr l => Spec.noNanItems l
  | .obj l => Spec.noNanMembers l
  | _ => True
/-- no NaN in any element -/
def Spec.noNanItems : List (Json ν) → Prop
  | [] => True
  | v :: vs => Spec.noNan v ∧ Spec.noNanItems vs
/-- no NaN in any member -/
def Spec.noNanMembers : List (Str × Json ν) → Prop
  | [] => True
  | (_, v) :: ms => Spec.noNan v ∧ Spec.noNanMembers ms
end

theorem Jsn.blank_nil : Spec.Blank [] := fun _ h => nomatch h

theorem Jsn.blank_newline (indent lvl : Nat) : Spec.Blank (newline indent lvl) := by
  intro c hc
  unfold newline at hc
  rcases List.mem_cons.1 hc with rfl | hc
  · exact .inr (.inl rfl)
  · exact .inl (List.mem_replicate.1 hc).2

theorem Jsn.hex4_spec {n : Nat} (h : n < 0x10000) : Spec.Hex4 (hex4 n) n := by
  refine ⟨_, _, _, _, n / 4096 % 16, n / 256 % 16, n / 16 % 16, n % 16, rfl, ⟨by omega, .inl rfl⟩,
    ⟨by omega, .inl rfl⟩, ⟨by omega, .inl rfl⟩, ⟨by omega, .inl rfl⟩, ?_⟩
  omega

theorem Jsn.escape_spec (ascii : Bool) (c : Char) : Spec.CharText (escape ascii c) c := by
  unfold escape
  by_cases c1 : c = '"'
  · rw [if_pos c1, c1]; exact .quote
  rw [if_neg c1]
  by_cases c2 : c = '\\'
  · rw [if_pos c2, c2]; exact .backslash
  rw [if_neg c2]
  by_cases c3 : c = '\n'
  · rw [if_pos c3, c3]; exact .newline
  rw [if_neg c3]
  by_cases c4 : c = '\r'
  · rw [if_pos c4, c4]; exact .ret
  rw [if_neg c4]
  by_cases c5 : c = '\t'
  · rw [if_pos c5, c5]; exact .tab
  rw [if_neg c5]
  by_cases c6 : c.toNat = 8
  · rw [if_pos c6]
    have : c = Char.ofNat 8 := by rw [← c6, Char.ofNat_toNat]
    rw [this]; exact .backspace
  rw [if_neg c6]
  by_cases c7 : c.toNat = 12
  · rw [if_pos c7]
    have : c = Char.ofNat 12 := by rw [← c7, Char.ofNat_toNat]
    rw [this]; exact .formfeed
  rw [if_neg c7]
  by_cases c8 : c.toNat < 32 ∨ (ascii = true ∧ 127 ≤ c.toNat)
  · rw [if_pos c8]
    unfold uEscape
    have hv := char_valid c
    by_cases h : c.toNat < 0x10000
    · rw [if_pos h]
      exact .unicode _ _ (hex4_spec h)
    · rw [if_neg h]
      refine .pair _ _ c ((c.toNat - 0x10000) / 0x400) ((c.toNat - 0x10000) % 0x400) (hex4_spec (by omega))
        (hex4_spec (by omega)) (by omega) (by omega)
  · rw [if_neg c8]
    exact .plain c (by omega) c1 c2

theorem Jsn.quoted_spec (ascii : Bool) (s : Str) : Spec.StrText (s.flatMap (escape ascii)) s := by
  induction s with
  | nil => exact .nil
  | cons c t ih =>
    rw [List.flatMap_cons]
    exact .cons _ _ _ _ (escape_spec ascii c) ih

mutual
theorem Jsn.dumps_spec (N : NumText ν) (lax ascii : Bool) (indent lvl : Nat) (v : Json ν)
    (h : lax = true ∨ Spec.noNan v) : Spec.Denotes N lax (dumps N ascii indent lvl v) v := by
  match v with
  | .null => simp only [dumps]; exact .null
  | .bool true => simp only [dumps]; exact .true
  | .bool false => simp only [dumps]; exact .false
  | .num x => simp only [dumps]; exact .num _ _ (N.chars x) (N.read_write x)
  | .nan =>
    simp only [dumps]
    refine .nan ?_
    rcases h with h | h
    · exact h
    · simp [Spec.noNan] at h
  | .str s => simp only [dumps]; exact .str _ _ (quoted_spec ascii s)
  | .arr [] => simp only [dumps]; exact .emptyArr [] blank_nil
  | .arr (v :: vs) =>
    simp only [dumps]
    have := items_spec N lax ascii indent (lvl + 1) (newline indent (lvl + 1)) (newline indent lvl) v vs
      (blank_newline _ _) (blank_newline _ _) (h.imp id (fun h => by simpa only [Spec.noNan, Spec.noNanItems] using h))
    exact .arr _ _ this
  | .obj [] => simp only [dumps]; exact .emptyObj [] blank_nil
  | .obj ((k, v) :: ms) =>
    simp only [dumps]
    have := members_spec N lax ascii indent (lvl + 1) (newline indent (lvl + 1)) (newline indent lvl) k v ms
      (blank_newline _ _) (blank_newline _ _)
      (h.imp id (fun h => by simpa only [Spec.noNan, Spec.noNanMembers] using h))
    exact .obj _ _ this
termination_by sizeOf v
theorem Jsn.items_spec (N : NumText ν) (lax ascii : Bool) (indent lvl : Nat) (w w' : Str) (v : Json ν)
    (vs : List (Json ν)) (hw : Spec.Blank w) (hw' : Spec.Blank w')
    (h : lax = true ∨ (Spec.noNan v ∧ Spec.noNanItems vs)) :
    Spec.Items N lax (w ++ dumps N ascii indent lvl v ++ dumpItems N ascii indent lvl vs ++ w') (v :: vs) := by
  have hv := dumps_spec N lax ascii indent lvl v (h.imp id And.left)
  match vs with
  | [] =>
    simp only [dumpItems, List.append_nil]
    exact .one _ _ _ _ hw hv hw'
  | v2 :: vs =>
    have := items_spec N lax ascii indent lvl (newline indent lvl) w' v2 vs (blank_newline _ _) hw'
      (h.imp id (fun h => by simpa only [Spec.noNanItems] using h.2))
    have r := Spec.Items.cons w _ [] _ v _ hw hv blank_nil this
    simp only [dumpItems]
    simpa only [List.append_assoc, List.cons_append, List.append_nil, List.nil_append] using r
termination_by sizeOf v + sizeOf vs + 1
theorem Jsn.members_spec (N : NumText ν) (lax ascii : Bool) (indent lvl : Nat) (w w' : Str) (k : Str) (v : Json ν)
    (ms : List (Str × Json ν)) (hw : Spec.Blank w) (hw' : Spec.Blank w')
    (h : lax = true ∨ (Spec.noNan v ∧ Spec.noNanMembers ms)) :
    Spec.Members N lax (w ++ quote ascii k ++ [':', ' '] ++ dumps N ascii indent lvl v ++
      dumpMembers N ascii indent lvl ms ++ w') ((k, v) :: ms) := by
  have hv := dumps_spec N lax ascii indent lvl v (h.imp id And.left)
  have hb : Spec.Blank [' '] := fun c hc => .inl (by simpa using hc)
  match ms with
  | [] =>
    have r := Spec.Members.one w _ [] [' '] _ w' k v hw (quoted_spec ascii k) blank_nil hb hv hw'
    simp only [dumpMembers, quote]
    simpa only [List.append_assoc, List.cons_append, List.append_nil, List.nil_append] using r
  | (k2, v2) :: ms =>
    have := members_spec N lax ascii indent lvl (newline indent lvl) w' k2 v2 ms (blank_newline _ _) hw'
      (h.imp id (fun h => by simpa only [Spec.noNanMembers] using h.2))
    have r := Spec.Members.cons w _ [] [' '] _ [] _ k v _ hw (quoted_spec ascii k) blank_nil hb hv
      blank_nil this
    simp only [dumpMembers, quote] at r ⊢
    simpa only [List.append_assoc, List.cons_append, List.append_nil, List.nil_append] using r
termination_by sizeOf v + sizeOf ms + 1
end

/-- **C124** (writing): the text written for a value without NaN, by `orjson.dumps` or `json.dumps` with any indentation,
is a JSON text that denotes this value, whatever characters its strings contain. -/
theorem C124_writer (N : NumText ν) (ascii : Bool) (indent : Nat) (v : Json ν) (h : Spec.noNan v) :
    Spec.JsonText N false (dumps N ascii indent 0 v) v :=
  ⟨[], _, [], (by rw [List.nil_append, List.append_nil]), blank_nil, dumps_spec N false ascii indent 0 v (.inr h), blank_nil⟩

/-- **C124**: `json.loads(json.dumps(v)) == v`, also with NaN, which Python's reader accepts -/
theorem C124_python_reads (N : NumText ν) (ascii : Bool) (indent : Nat) (v : Json ν) :
    loads N true (dumps N ascii indent 0 v) = some v :=
  (C124_reader N true _ v).2
    ⟨[], _, [], (by rw [List.nil_append, List.append_nil]), blank_nil, dumps_spec N true ascii indent 0 v (.inl rfl), blank_nil⟩

end

end Ranx
