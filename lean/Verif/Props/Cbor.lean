import Mathlib.Data.Nat.Digits.Lemmas
import Verif.Props.Utf8
import Verif.Props.FloatText

/-!
# C133: values survive their CBOR bytes

`cbor2.dumps` and `cbor2.loads` as used by `ranx/io.py:57-69`: the reader accepts exactly the encodings of RFC 8949
(of the part described in `Model/Bytes.lean`), the writer writes one of them, and reading it back gives the value, with
all bits of every float, infinities and NaN included.
-/

set_option linter.unusedSectionVars false

namespace Ranx
open Byt
open Py (Str)
open Special (X)

/-! ## Specification -/

/-- the number given by bytes, the most significant first -/
def Spec.bigEndian (b : Bytes) : Nat := Nat.ofDigits 256 b.reverse

/-- the head of an item of major type `m` with argument `n` (RFC 8949, section 3): the argument is in the low five
bits of the initial byte, or in the 1, 2, 4 or 8 bytes after it -/
inductive Spec.Head (m : Nat) : Bytes → Nat → Prop
  | low (n : Nat) : n < 24 → Spec.Head m [m * 32 + n] n
  | wide (i : Nat) (b : Bytes) : i < 4 → b.length = 2 ^ i → Spec.Head m ((m * 32 + (24 + i)) :: b) (Spec.bigEndian b)

/-- the value of the IEEE 754 number with `w` exponent bits and `p` fraction bits whose sign bit is `s`, whose biased
exponent is `e` and whose fraction is `m` -/
inductive Spec.Ieee (w p : Nat) : Nat → X ℚ → Prop
  | inf : Spec.Ieee w p ((2 ^ w - 1) * 2 ^ p) .pinf
  | ninf : Spec.Ieee w p (2 ^ (w + p) + (2 ^ w - 1) * 2 ^ p) .ninf
  | nan (s m : Nat) : s < 2 → m < 2 ^ p → m ≠ 0 → Spec.Ieee w p (s * 2 ^ (w + p) + (2 ^ w - 1) * 2 ^ p + m) .nan
  | subnormal (s m : Nat) : s < 2 → m < 2 ^ p →
      Spec.Ieee w p (s * 2 ^ (w + p) + m) (.fin ((-1) ^ s * (m * 2 ^ (2 - 2 ^ (w - 1) - p : ℤ))))
  | normal (s e m : Nat) : s < 2 → 0 < e → e < 2 ^ w - 1 → m < 2 ^ p →
      Spec.Ieee w p (s * 2 ^ (w + p) + e * 2 ^ p + m)
        (.fin ((-1) ^ s * ((1 + m / 2 ^ p) * 2 ^ (e + 1 - 2 ^ (w - 1) : ℤ))))

/-- a text string: major type 3, the length in bytes, UTF-8 -/
inductive Spec.CborText : Bytes → Str → Prop
  | mk (h t : Bytes) (s : Str) : Spec.Head 3 h t.length → Spec.Utf8Text t s → Spec.CborText (h ++ t) s

mutual
/-- `b` is an encoding of the value `v` (RFC 8949, sections 3.1, 3.3, 3.4.3) -/
inductive Spec.Cbor : Bytes → Val → Prop
  | uint (h : Bytes) (n : Nat) : Spec.Head 0 h n → Spec.Cbor h (.int n)
  | nint (h : Bytes) (n : Nat) : Spec.Head 1 h n → Spec.Cbor h (.int (-1 - n))
  | big (g h b : Bytes) : Spec.Head 6 g 2 → Spec.Head 2 h b.length → Spec.Cbor (g ++ (h ++ b)) (.int (Spec.bigEndian b))
  | nbig (g h b : Bytes) : Spec.Head 6 g 3 → Spec.Head 2 h b.length →
      Spec.Cbor (g ++ (h ++ b)) (.int (-1 - Spec.bigEndian b))
  | text (b : Bytes) (s : Str) : Spec.CborText b s → Spec.Cbor b (.text s)
  | false : Spec.Cbor [0xF4] (.bool false)
  | true : Spec.Cbor [0xF5] (.bool true)
  | null : Spec.Cbor [0xF6] .null
  | half (b : Bytes) (x : X ℚ) : b.length = 2 → Spec.Ieee 5 10 (Spec.bigEndian b) x → Spec.Cbor (0xF9 :: b) (.float x)
  | single (b : Bytes) (x : X ℚ) : b.length = 4 → Spec.Ieee 8 23 (Spec.bigEndian b) x → Spec.Cbor (0xFA :: b) (.float x)
  | double (b : Bytes) (x : X ℚ) : b.length = 8 → Spec.Ieee 11 52 (Spec.bigEndian b) x → Spec.Cbor (0xFB :: b) (.float x)
  | arr (h b : Bytes) (l : List Val) : Spec.Head 4 h l.length → Spec.CborItems b l → Spec.Cbor (h ++ b) (.arr l)
  | map (h b : Bytes) (l : List (Str × Val)) : Spec.Head 5 h l.length → Spec.CborMembers b l → Spec.Cbor (h ++ b) (.map l)
inductive Spec.CborItems : Bytes → List Val → Prop
  | nil : Spec.CborItems [] []
  | cons (a b : Bytes) (v : Val) (l : List Val) : Spec.Cbor a v → Spec.CborItems b l → Spec.CborItems (a ++ b) (v :: l)
inductive Spec.CborMembers : Bytes → List (Str × Val) → Prop
  | nil : Spec.CborMembers [] []
  | cons (k a b : Bytes) (s : Str) (v : Val) (l : List (Str × Val)) : Spec.CborText k s → Spec.Cbor a v →
      Spec.CborMembers b l → Spec.CborMembers (k ++ (a ++ b)) ((s, v) :: l)
end

/-- bytes are below 256 -/
def Spec.IsBytes (b : Bytes) : Prop := ∀ x ∈ b, x < 256

mutual
/-- every float in the value is a float64 -/
def Spec.doubles : Val → Prop
  | .float (.fin x) => Spec.Binary64 x
  | .arr l => Spec.doublesItems l
  | .map l => Spec.doublesMembers l
  | _ => True
def Spec.doublesItems : List Val → Prop
  | [] => True
  | v :: t => Spec.doubles v ∧ Spec.doublesItems t
def Spec.doublesMembers : List (Str × Val) → Prop
  | [] => True
  | p :: t => Spec.doubles p.2 ∧ Spec.doublesMembers t
end

namespace Byt

/-! ## Numbers -/

theorem ofBe_eq (b : Bytes) : ofBe b = Spec.bigEndian b := by
  induction b using List.reverseRecOn with
  | nil => rfl
  | append_singleton b x ih =>
    unfold Spec.bigEndian at *
    unfold ofBe at *
    rw [List.foldl_append, ih, List.reverse_append, List.reverse_singleton, List.singleton_append, Nat.ofDigits_cons]
    simp only [List.foldl_cons, List.foldl_nil, Nat.cast_id]
    omega

theorem length_be (k n : Nat) : (be k n).length = k := by
  induction k with
  | zero => rfl
  | succ k ih => simp [be, ih]

theorem isBytes_be (k n : Nat) : Spec.IsBytes (be k n) := by
  induction k with
  | zero => intro x hx; simp [be] at hx
  | succ k ih =>
    intro x hx
    rcases List.mem_cons.1 hx with rfl | hx
    · exact Nat.mod_lt _ (by decide)
    · exact ih x hx

theorem bigEndian_be (k n : Nat) : Spec.bigEndian (be k n) = n % 256 ^ k := by
  induction k with
  | zero => simp [be, Spec.bigEndian, Nat.mod_one]
  | succ k ih =>
    unfold Spec.bigEndian at *
    rw [be, List.reverse_cons, Nat.ofDigits_append, ih, List.length_reverse, length_be, Nat.ofDigits_singleton, pow_succ,
      Nat.mod_mul]

theorem bigEndian_natBytes (n : Nat) : Spec.bigEndian (natBytes n) = n := by
  unfold Spec.bigEndian natBytes
  rw [List.reverse_reverse, Nat.ofDigits_digits]

theorem isBytes_natBytes (n : Nat) : Spec.IsBytes (natBytes n) := by
  intro x hx
  unfold natBytes at hx
  exact Nat.digits_lt_base (by decide) (List.mem_reverse.1 hx)

theorem bigEndian_lt {b : Bytes} (h : Spec.IsBytes b) : Spec.bigEndian b < 256 ^ b.length := by
  unfold Spec.bigEndian
  rw [← List.length_reverse]
  exact Nat.ofDigits_lt_base_pow_length (by decide) (fun x hx => h x (List.mem_reverse.1 hx))

/-! ## Heads -/

theorem isBytes_append {a b : Bytes} : Spec.IsBytes (a ++ b) ↔ Spec.IsBytes a ∧ Spec.IsBytes b := by
  unfold Spec.IsBytes
  constructor
  · exact fun h => ⟨fun x hx => h x (by simp [hx]), fun x hx => h x (by simp [hx])⟩
  · rintro ⟨h1, h2⟩ x hx
    rcases List.mem_append.1 hx with h | h
    · exact h1 x h
    · exact h2 x h

theorem isBytes_cons {a : Nat} {b : Bytes} : Spec.IsBytes (a :: b) ↔ a < 256 ∧ Spec.IsBytes b := by
  unfold Spec.IsBytes
  simp

theorem takeBytes_of {a b : Bytes} {k : Nat} (h : a.length = k) : takeBytes k (a ++ b) = some (a, b) := by
  unfold takeBytes
  rw [if_neg (by simp; omega), List.take_left' h, List.drop_left' h]

theorem of_takeBytes {a b c : Bytes} {k : Nat} (h : takeBytes k c = some (a, b)) : c = a ++ b ∧ a.length = k := by
  unfold takeBytes at h
  split_ifs at h with hk
  rw [Option.some.injEq, Prod.mk.injEq] at h
  obtain ⟨rfl, rfl⟩ := h
  exact ⟨(List.take_append_drop k c).symm, by rw [List.length_take]; omega⟩

theorem head_ne_nil {m n : Nat} {h : Bytes} (H : Spec.Head m h n) : 1 ≤ h.length := by
  cases H <;> simp

theorem readArg_of {m n : Nat} {h : Bytes} (H : Spec.Head m h n) :
    ∃ a r, h = a :: r ∧ a / 32 = m ∧ ∀ t, readArg (a % 32) (r ++ t) = some (n, t) := by
  cases H with
  | low _ hn =>
    refine ⟨_, _, rfl, by omega, fun t => ?_⟩
    have e : (m * 32 + n) % 32 = n := by omega
    rw [e]
    unfold readArg
    rw [if_pos hn]; rfl
  | wide i b hi hb =>
    refine ⟨_, _, rfl, by omega, fun t => ?_⟩
    have e : (m * 32 + (24 + i)) % 32 = 24 + i := by omega
    rw [e]
    unfold readArg
    rw [if_neg (by omega), if_pos (by omega), show 24 + i - 24 = i by omega, takeBytes_of hb]
    simp only [Option.map_some]
    rw [ofBe_eq]

theorem of_readArg {a n : Nat} {b t : Bytes} (h : readArg (a % 32) b = some (n, t)) :
    ∃ r, b = r ++ t ∧ Spec.Head (a / 32) (a :: r) n := by
  unfold readArg at h
  split_ifs at h with h1 h2
  · rw [Option.some.injEq, Prod.mk.injEq] at h
    obtain ⟨rfl, rfl⟩ := h
    refine ⟨[], rfl, ?_⟩
    have := Spec.Head.low (m := a / 32) (a % 32) h1
    rwa [show a / 32 * 32 + a % 32 = a by omega] at this
  · cases hq : takeBytes (2 ^ (a % 32 - 24)) b with
    | none => rw [hq] at h; cases h
    | some p =>
      obtain ⟨r, t'⟩ := p
      rw [hq, Option.map_some, Option.some.injEq, Prod.mk.injEq] at h
      obtain ⟨rfl, rfl⟩ := h
      obtain ⟨e1, e2⟩ := of_takeBytes hq
      refine ⟨r, e1, ?_⟩
      have := Spec.Head.wide (m := a / 32) (a % 32 - 24) r (by omega) e2
      rwa [show a / 32 * 32 + (24 + (a % 32 - 24)) = a by omega, ← ofBe_eq] at this

theorem head_spec {m n : Nat} (hn : n < 2 ^ 64) : Spec.Head m (head m n) n := by
  have key : ∀ i, i < 4 → n < 256 ^ 2 ^ i → Spec.Head m ((32 * m + (24 + i)) :: be (2 ^ i) n) n := by
    intro i hi h
    have := Spec.Head.wide (m := m) i (be (2 ^ i) n) hi (length_be _ _)
    rwa [bigEndian_be, Nat.mod_eq_of_lt h, Nat.mul_comm m 32] at this
  unfold head
  split_ifs with h1 h2 h3 h4
  · have := Spec.Head.low (m := m) n h1
    rwa [Nat.mul_comm m 32] at this
  · exact key 0 (by decide) (by norm_num; omega)
  · exact key 1 (by decide) (by norm_num; omega)
  · exact key 2 (by decide) (by norm_num; omega)
  · exact key 3 (by decide) (by norm_num; omega)

theorem isBytes_head {m n : Nat} (hm : m < 8) : Spec.IsBytes (head m n) := by
  unfold head
  split_ifs
  all_goals rw [isBytes_cons]
  · exact ⟨by omega, fun x hx => by cases hx⟩
  all_goals exact ⟨by omega, isBytes_be _ _⟩

/-! ## Floats -/

theorem parts {w p s e m : Nat} (he : e < 2 ^ w) (hm : m < 2 ^ p) :
    (s * 2 ^ (w + p) + e * 2 ^ p + m) / 2 ^ (w + p) = s ∧
    (s * 2 ^ (w + p) + e * 2 ^ p + m) / 2 ^ p % 2 ^ w = e ∧
    (s * 2 ^ (w + p) + e * 2 ^ p + m) % 2 ^ p = m := by
  have hP : 0 < 2 ^ p := Nat.two_pow_pos p
  have hW : 0 < 2 ^ w := Nat.two_pow_pos w
  have e1 : s * 2 ^ (w + p) + e * 2 ^ p + m = (s * 2 ^ w + e) * 2 ^ p + m := by rw [pow_add]; ring
  have e2 : ((s * 2 ^ w + e) * 2 ^ p + m) / 2 ^ p = s * 2 ^ w + e := by
    rw [Nat.add_comm, Nat.add_mul_div_right _ _ hP, Nat.div_eq_of_lt hm, Nat.zero_add]
  refine ⟨?_, ?_, ?_⟩
  · rw [e1, pow_add, Nat.mul_comm (2 ^ w), ← Nat.div_div_eq_div_mul, e2, Nat.add_comm, Nat.add_mul_div_right _ _ hW,
      Nat.div_eq_of_lt he, Nat.zero_add]
  · rw [e1, e2, Nat.add_comm, Nat.add_mul_mod_self_right, Nat.mod_eq_of_lt he]
  · rw [e1, Nat.add_comm, Nat.add_mul_mod_self_right, Nat.mod_eq_of_lt hm]

/-- the value by its parts -/
def ieeeParts (w p s e m : Nat) : X ℚ :=
  if e = 2 ^ w - 1 then (if m = 0 then (if s = 1 then .ninf else .pinf) else .nan)
  else .fin ((-1) ^ s * (if e = 0 then (m : ℚ) * 2 ^ (2 - 2 ^ (w - 1) - p : ℤ)
      else (1 + m / 2 ^ p) * 2 ^ ((e : ℤ) + 1 - 2 ^ (w - 1))))

theorem ofIeee_parts {w p s e m : Nat} (hs : s < 2) (he : e < 2 ^ w) (hm : m < 2 ^ p) :
    ofIeee w p (s * 2 ^ (w + p) + e * 2 ^ p + m) = ieeeParts w p s e m := by
  obtain ⟨e1, e2, e3⟩ := parts (s := s) he hm
  unfold ofIeee ieeeParts
  simp only [e1, e2, e3]
  have hv : ((2 ^ p + m : Nat) : ℚ) * 2 ^ ((e : ℤ) + 1 - 2 ^ (w - 1) - p) =
      (1 + m / 2 ^ p) * 2 ^ ((e : ℤ) + 1 - 2 ^ (w - 1)) := by
    rw [zpow_sub₀ (by norm_num : (2 : ℚ) ≠ 0) _ (p : ℤ), zpow_natCast]
    push_cast
    field_simp
  rw [hv]
  have hs' : s = 0 ∨ s = 1 := by omega
  rcases hs' with rfl | rfl
  · simp
  · simp
    split_ifs <;> rfl

theorem ieee_iff {w p b : Nat} {x : X ℚ} (hw : 2 ≤ w) (hb : b < 2 ^ (w + p + 1)) : ofIeee w p b = x ↔ Spec.Ieee w p b x := by
  have hP : 0 < 2 ^ p := Nat.two_pow_pos p
  have hW : 0 < 2 ^ w := Nat.two_pow_pos w
  have hW4 : 4 ≤ 2 ^ w := (Nat.pow_le_pow_right (by decide) hw : 2 ^ 2 ≤ 2 ^ w)
  constructor
  · have hs : b / 2 ^ (w + p) < 2 := by
      rw [Nat.div_lt_iff_lt_mul (Nat.two_pow_pos _)]
      rw [pow_succ] at hb; omega
    have he : b / 2 ^ p % 2 ^ w < 2 ^ w := Nat.mod_lt _ hW
    have hm : b % 2 ^ p < 2 ^ p := Nat.mod_lt _ hP
    have hd : b = b / 2 ^ (w + p) * 2 ^ (w + p) + (b / 2 ^ p % 2 ^ w) * 2 ^ p + b % 2 ^ p := by
      have h1 := Nat.div_add_mod b (2 ^ p)
      have h2 := Nat.div_add_mod (b / 2 ^ p) (2 ^ w)
      rw [Nat.div_div_eq_div_mul, Nat.mul_comm (2 ^ p), ← pow_add] at h2
      rw [pow_add, ← Nat.mul_assoc, ← Nat.add_mul, ← pow_add, Nat.mul_comm _ (2 ^ w), h2, Nat.mul_comm _ (2 ^ p), h1]
    generalize b / 2 ^ (w + p) = s at *
    generalize b / 2 ^ p % 2 ^ w = e at *
    generalize b % 2 ^ p = m at *
    subst hd
    rw [ofIeee_parts hs he hm]
    rintro rfl
    unfold ieeeParts
    split_ifs with h1 h2 h3 h4
    · subst h1 h2 h3
      rw [Nat.one_mul, Nat.add_zero]; exact .ninf
    · subst h1 h2
      have : s = 0 := by omega
      subst this
      rw [Nat.zero_mul, Nat.zero_add, Nat.add_zero]; exact .inf
    · subst h1; exact .nan s m hs hm h2
    · subst h4
      rw [Nat.zero_mul, Nat.add_zero]; exact .subnormal s m hs hm
    · exact .normal s e m hs (by omega) (by omega) hm
  · intro h
    cases h with
    | inf =>
      have := ofIeee_parts (w := w) (p := p) (s := 0) (e := 2 ^ w - 1) (m := 0) (by decide) (by omega) hP
      rw [Nat.zero_mul, Nat.zero_add, Nat.add_zero] at this
      rw [this]; simp [ieeeParts]
    | ninf =>
      have := ofIeee_parts (w := w) (p := p) (s := 1) (e := 2 ^ w - 1) (m := 0) (by decide) (by omega) hP
      rw [Nat.one_mul, Nat.add_zero] at this
      rw [this]; simp [ieeeParts]
    | nan s m hs hm h0 =>
      rw [ofIeee_parts hs (by omega) hm]
      simp [ieeeParts, h0]
    | subnormal s m hs hm =>
      have := ofIeee_parts (w := w) (p := p) (s := s) (e := 0) (m := m) hs hW hm
      rw [Nat.zero_mul, Nat.add_zero] at this
      rw [this]
      unfold ieeeParts
      rw [if_neg (by omega), if_pos rfl]
    | normal s e m hs h0 h1 hm =>
      rw [ofIeee_parts hs (by omega) hm]
      unfold ieeeParts
      rw [if_neg (by omega), if_neg (by omega)]

theorem doubleBits_spec {x : ℚ} (h : Spec.Binary64 x) : doubleBits x < 2 ^ 64 ∧ Spec.Ieee 11 52 (doubleBits x) (.fin x) := by
  have two : (2 : ℚ) ≠ 0 := by norm_num
  by_cases hx : x = 0
  · subst hx
    have e : doubleBits 0 = 0 := by unfold doubleBits; simp
    rw [e]
    refine ⟨by norm_num, ?_⟩
    have := Spec.Ieee.subnormal (w := 11) (p := 52) 0 0 (by decide) (by decide)
    simpa using this
  obtain ⟨m, e, hm, he1, he2, hxe⟩ := h
  have hax : |x| = (m.natAbs : ℚ) * 2 ^ e := by
    rw [hxe, abs_mul, abs_of_pos (zpow_pos (by norm_num : (0 : ℚ) < 2) e), ← Int.cast_abs, Int.abs_eq_natAbs, Int.cast_natCast]
  have hm' : m.natAbs < 2 ^ 53 := by rw [Int.abs_eq_natAbs] at hm; omega
  have hpos : 0 < |x| := abs_pos.2 hx
  have hL1 : (2 : ℚ) ^ Int.log 2 |x| ≤ |x| := by
    have := Int.zpow_log_le_self (b := 2) (by decide) hpos
    simpa using this
  have hL2 : |x| < (2 : ℚ) ^ (Int.log 2 |x| + 1) := by
    have := Int.lt_zpow_succ_log_self (b := 2) (by decide) |x|
    simpa using this
  obtain ⟨s, hs, hsx, hsv⟩ : ∃ s : Nat, s < 2 ∧ (if x < 0 then 2 ^ 63 else 0) = s * 2 ^ 63 ∧ x = (-1) ^ s * |x| := by
    by_cases hn : x < 0
    · exact ⟨1, by decide, by rw [if_pos hn, Nat.one_mul], by rw [abs_of_neg hn]; ring⟩
    · exact ⟨0, by decide, by rw [if_neg hn, Nat.zero_mul], by rw [abs_of_nonneg (not_lt.1 hn)]; ring⟩
  unfold doubleBits
  simp only
  rw [if_neg hx, hsx]
  generalize hLd : Int.log 2 |x| = L at *
  by_cases hsmall : L < -1022
  · rw [if_pos hsmall]
    obtain ⟨k, hk⟩ := Int.eq_ofNat_of_zero_le (show 0 ≤ e + 1074 by omega)
    have hN : |x| * 2 ^ 1074 = ((m.natAbs * 2 ^ k : Nat) : ℚ) := by
      rw [hax, mul_assoc, ← zpow_natCast (2 : ℚ) 1074, ← zpow_add₀ two]
      push_cast
      rw [hk, zpow_natCast]
    have hlt : m.natAbs * 2 ^ k < 2 ^ 52 := by
      have h1 : |x| < (2 : ℚ) ^ (-1022 : ℤ) :=
        hL2.trans_le (zpow_le_zpow_right₀ (by norm_num) (by omega))
      have h2 : |x| * 2 ^ 1074 < (2 : ℚ) ^ (52 : ℤ) := by
        rw [← zpow_natCast (2 : ℚ) 1074]
        calc |x| * 2 ^ ((1074 : ℕ) : ℤ) < (2 : ℚ) ^ (-1022 : ℤ) * 2 ^ ((1074 : ℕ) : ℤ) :=
              mul_lt_mul_of_pos_right h1 (zpow_pos (by norm_num) _)
          _ = (2 : ℚ) ^ (52 : ℤ) := by rw [← zpow_add₀ two]; rfl
      rw [hN, show (52 : ℤ) = ((52 : ℕ) : ℤ) from rfl, zpow_natCast] at h2
      exact_mod_cast h2
    have hv : |x| = ((m.natAbs * 2 ^ k : Nat) : ℚ) * 2 ^ (2 - 2 ^ (11 - 1) - (52 : ℕ) : ℤ) := by
      rw [← hN, mul_assoc, ← zpow_natCast (2 : ℚ) 1074, ← zpow_add₀ two]
      norm_num
    rw [hN, Nat.floor_natCast]
    generalize m.natAbs * 2 ^ k = N at *
    refine ⟨by omega, ?_⟩
    have := Spec.Ieee.subnormal (w := 11) (p := 52) s N hs hlt
    rw [← hv, ← hsv] at this
    exact this
  · rw [if_neg hsmall]
    have hLhi : L < 1024 := by
      by_contra hc
      have h1 : (2 : ℚ) ^ (1024 : ℤ) ≤ |x| := (zpow_le_zpow_right₀ (by norm_num) (by omega)).trans hL1
      have h2 : |x| < (2 : ℚ) ^ (1024 : ℤ) := by
        rw [hax]
        calc (m.natAbs : ℚ) * 2 ^ e < (2 : ℚ) ^ (53 : ℤ) * 2 ^ e := by
              refine mul_lt_mul_of_pos_right ?_ (zpow_pos (by norm_num) _)
              rw [show (53 : ℤ) = ((53 : ℕ) : ℤ) from rfl, zpow_natCast]
              exact_mod_cast hm'
          _ = (2 : ℚ) ^ (53 + e) := by rw [← zpow_add₀ two]
          _ ≤ _ := zpow_le_zpow_right₀ (by norm_num) (by omega)
      exact absurd (h1.trans_lt h2) (lt_irrefl _)
    have hle : L - 52 ≤ e := by
      by_contra hc
      have h1 : |x| < (2 : ℚ) ^ L := by
        rw [hax]
        calc (m.natAbs : ℚ) * 2 ^ e < (2 : ℚ) ^ (53 : ℤ) * 2 ^ e := by
              refine mul_lt_mul_of_pos_right ?_ (zpow_pos (by norm_num) _)
              rw [show (53 : ℤ) = ((53 : ℕ) : ℤ) from rfl, zpow_natCast]
              exact_mod_cast hm'
          _ = (2 : ℚ) ^ (53 + e) := by rw [← zpow_add₀ two]
          _ ≤ _ := zpow_le_zpow_right₀ (by norm_num) (by omega)
      exact absurd (hL1.trans_lt h1) (lt_irrefl _)
    obtain ⟨k, hk⟩ := Int.eq_ofNat_of_zero_le (show 0 ≤ e - (L - 52) by omega)
    have hN : |x| / 2 ^ (L - 52) = ((m.natAbs * 2 ^ k : Nat) : ℚ) := by
      rw [hax, mul_div_assoc, ← zpow_sub₀ two, hk]
      push_cast
      rw [zpow_natCast]
    have hlo : 2 ^ 52 ≤ m.natAbs * 2 ^ k := by
      have : (2 : ℚ) ^ (52 : ℤ) ≤ |x| / 2 ^ (L - 52) := by
        rw [le_div_iff₀ (zpow_pos (by norm_num) _), ← zpow_add₀ two, show 52 + (L - 52) = L by omega]
        exact hL1
      rw [hN, show (52 : ℤ) = ((52 : ℕ) : ℤ) from rfl, zpow_natCast] at this
      exact_mod_cast this
    have hhi : m.natAbs * 2 ^ k < 2 ^ 53 := by
      have : |x| / 2 ^ (L - 52) < (2 : ℚ) ^ (53 : ℤ) := by
        rw [div_lt_iff₀ (zpow_pos (by norm_num) _), ← zpow_add₀ two, show 53 + (L - 52) = L + 1 by omega]
        exact hL2
      rw [hN, show (53 : ℤ) = ((53 : ℕ) : ℤ) from rfl, zpow_natCast] at this
      exact_mod_cast this
    have hback : |x| = ((m.natAbs * 2 ^ k : Nat) : ℚ) * 2 ^ (L - 52) := by
      rw [← hN, div_mul_cancel₀ _ (zpow_ne_zero _ two)]
    rw [hN, Nat.floor_natCast]
    generalize m.natAbs * 2 ^ k = N at *
    obtain ⟨E, hE⟩ := Int.eq_ofNat_of_zero_le (show 0 ≤ L + 1023 by omega)
    rw [show (L + 1023).toNat = E by omega]
    obtain ⟨M, rfl⟩ : ∃ M, N = 2 ^ 52 + M := ⟨N - 2 ^ 52, by omega⟩
    rw [Nat.add_sub_cancel_left]
    refine ⟨by omega, ?_⟩
    have := Spec.Ieee.normal (w := 11) (p := 52) s E M hs (by omega) (by omega) (by omega)
    have hv : |x| = (1 + (M : ℚ) / 2 ^ 52) * 2 ^ ((E : ℤ) + 1 - 2 ^ (11 - 1)) := by
      rw [hback, zpow_sub₀ two L 52, show (E : ℤ) + 1 - 2 ^ (11 - 1) = L by omega]
      push_cast
      generalize (2 : ℚ) ^ L = y
      ring
    rw [← hv, ← hsv] at this
    rw [← Nat.add_assoc]
    exact this

/-! ## The reader -/

theorem readText_of {b : Bytes} {s : Str} (h : Spec.CborText b s) (t : Bytes) : readText (b ++ t) = some (s, t) := by
  cases h with
  | mk h r _ hh hr =>
    obtain ⟨a, q, rfl, ha, hq⟩ := readArg_of hh
    simp only [List.cons_append, List.append_assoc, readText]
    rw [if_pos ha, hq (r ++ t)]
    simp only
    rw [takeBytes_of rfl]
    simp only
    rw [(C132_decoder r s).2 hr]; rfl

theorem of_readText {b t : Bytes} {s : Str} (h : readText b = some (s, t)) : ∃ p, b = p ++ t ∧ Spec.CborText p s := by
  cases b with
  | nil => cases h
  | cons a r =>
    simp only [readText] at h
    split_ifs at h with h3
    cases h1 : readArg (a % 32) r with
    | none => rw [h1] at h; cases h
    | some q =>
      obtain ⟨n, u⟩ := q
      rw [h1] at h
      simp only at h
      cases h2 : takeBytes n u with
      | none => rw [h2] at h; cases h
      | some q =>
        obtain ⟨x, y⟩ := q
        rw [h2] at h
        simp only at h
        cases h4 : ofUtf8 x with
        | none => rw [h4] at h; cases h
        | some s' =>
          rw [h4, Option.map_some, Option.some.injEq, Prod.mk.injEq] at h
          obtain ⟨rfl, rfl⟩ := h
          obtain ⟨g, rfl, hg⟩ := of_readArg h1
          obtain ⟨rfl, rfl⟩ := of_takeBytes h2
          rw [h3] at hg
          exact ⟨(a :: g) ++ x, by simp, .mk _ _ _ hg ((C132_decoder x s').1 h4)⟩

theorem readBlob_of {h b : Bytes} (hh : Spec.Head 2 h b.length) (t : Bytes) :
    readBlob (h ++ (b ++ t)) = some (Spec.bigEndian b, t) := by
  obtain ⟨a, q, rfl, ha, hq⟩ := readArg_of hh
  simp only [List.cons_append, readBlob]
  rw [if_pos ha, hq (b ++ t)]
  simp only
  rw [takeBytes_of rfl, Option.map_some, ofBe_eq]

theorem of_readBlob {b t : Bytes} {n : Nat} (h : readBlob b = some (n, t)) :
    ∃ g c, b = (g ++ c) ++ t ∧ Spec.Head 2 g c.length ∧ n = Spec.bigEndian c := by
  cases b with
  | nil => cases h
  | cons a r =>
    simp only [readBlob] at h
    split_ifs at h with h3
    cases h1 : readArg (a % 32) r with
    | none => rw [h1] at h; cases h
    | some q =>
      obtain ⟨k, u⟩ := q
      rw [h1] at h
      simp only at h
      cases h2 : takeBytes k u with
      | none => rw [h2] at h; cases h
      | some q =>
        obtain ⟨x, y⟩ := q
        rw [h2, Option.map_some, Option.some.injEq, Prod.mk.injEq] at h
        obtain ⟨rfl, rfl⟩ := h
        obtain ⟨g, rfl, hg⟩ := of_readArg h1
        obtain ⟨rfl, rfl⟩ := of_takeBytes h2
        rw [h3] at hg
        exact ⟨a :: g, x, by simp, hg, ofBe_eq x⟩

theorem ieee_bytes {w p : Nat} {b : Bytes} {x : X ℚ} (hw : 2 ≤ w) (hb : Spec.IsBytes b)
    (hl : 256 ^ b.length = 2 ^ (w + p + 1)) : ofIeee w p (ofBe b) = x ↔ Spec.Ieee w p (Spec.bigEndian b) x := by
  rw [ofBe_eq]
  exact ieee_iff hw (hl ▸ bigEndian_lt hb)

theorem of_readSimple {a : Nat} {b t : Bytes} {v : Val} (hb : Spec.IsBytes b) (ha : a / 32 = 7)
    (h : readSimple (a % 32) b = some (v, t)) : ∃ p, a :: b = p ++ t ∧ Spec.Cbor p v := by
  unfold readSimple at h
  have e := Nat.div_add_mod a 32
  rw [ha] at e
  have flt : ∀ k w p (c : Val → Prop), (takeBytes k b).map (fun q => (Val.float (ofIeee w p (ofBe q.1)), q.2)) = some (v, t) →
      ∃ q, q.length = k ∧ b = q ++ t ∧ v = Val.float (ofIeee w p (ofBe q)) := by
    intro k w p _ h
    cases h2 : takeBytes k b with
    | none => rw [h2] at h; cases h
    | some q =>
      obtain ⟨x, y⟩ := q
      rw [h2, Option.map_some, Option.some.injEq, Prod.mk.injEq] at h
      obtain ⟨rfl, rfl⟩ := h
      obtain ⟨e1, e2⟩ := of_takeBytes h2
      exact ⟨x, e2, e1, rfl⟩
  split_ifs at h with h1 h2 h3 h4 h5 h6
  · rw [Option.some.injEq, Prod.mk.injEq] at h
    obtain ⟨rfl, rfl⟩ := h
    exact ⟨[0xF4], by rw [show a = 0xF4 by omega]; rfl, .false⟩
  · rw [Option.some.injEq, Prod.mk.injEq] at h
    obtain ⟨rfl, rfl⟩ := h
    exact ⟨[0xF5], by rw [show a = 0xF5 by omega]; rfl, .true⟩
  · rw [Option.some.injEq, Prod.mk.injEq] at h
    obtain ⟨rfl, rfl⟩ := h
    exact ⟨[0xF6], by rw [show a = 0xF6 by omega]; rfl, .null⟩
  · obtain ⟨q, hq, rfl, rfl⟩ := flt 2 5 10 (fun _ => True) h
    refine ⟨0xF9 :: q, by rw [show a = 0xF9 by omega]; rfl, .half q _ hq ?_⟩
    exact (ieee_bytes (by decide) (isBytes_append.1 hb).1 (by rw [hq]; norm_num)).1 rfl
  · obtain ⟨q, hq, rfl, rfl⟩ := flt 4 8 23 (fun _ => True) h
    refine ⟨0xFA :: q, by rw [show a = 0xFA by omega]; rfl, .single q _ hq ?_⟩
    exact (ieee_bytes (by decide) (isBytes_append.1 hb).1 (by rw [hq]; norm_num)).1 rfl
  · obtain ⟨q, hq, rfl, rfl⟩ := flt 8 11 52 (fun _ => True) h
    refine ⟨0xFB :: q, by rw [show a = 0xFB by omega]; rfl, .double q _ hq ?_⟩
    exact (ieee_bytes (by decide) (isBytes_append.1 hb).1 (by rw [hq]; norm_num)).1 rfl

theorem cbor_ne_nil {b : Bytes} {v : Val} (h : Spec.Cbor b v) : 1 ≤ b.length := by
  cases h with
  | uint _ _ h => exact head_ne_nil h
  | nint _ _ h => exact head_ne_nil h
  | big _ _ _ h => have := head_ne_nil h; simp; omega
  | nbig _ _ _ h => have := head_ne_nil h; simp; omega
  | text _ _ h => cases h with | mk _ _ _ h => have := head_ne_nil h; simp; omega
  | arr _ _ _ h => have := head_ne_nil h; simp; omega
  | map _ _ _ h => have := head_ne_nil h; simp; omega
  | _ => simp

theorem of_read (f : Nat) :
    (∀ b v t, Spec.IsBytes b → readVal f b = some (v, t) → ∃ p, b = p ++ t ∧ Spec.Cbor p v) ∧
    (∀ n b l t, Spec.IsBytes b → readItems f n b = some (l, t) → ∃ p, b = p ++ t ∧ Spec.CborItems p l ∧ l.length = n) ∧
    (∀ n b l t, Spec.IsBytes b → readMembers f n b = some (l, t) → ∃ p, b = p ++ t ∧ Spec.CborMembers p l ∧ l.length = n) := by
  induction f with
  | zero =>
    refine ⟨fun b v t _ h => by simp [readVal] at h, fun n b l t _ h => ?_, fun n b l t _ h => ?_⟩
    · cases n with
      | zero => simp only [readItems, Option.some.injEq, Prod.mk.injEq] at h; obtain ⟨rfl, rfl⟩ := h; exact ⟨[], rfl, .nil, rfl⟩
      | succ n => simp [readItems] at h
    · cases n with
      | zero => simp only [readMembers, Option.some.injEq, Prod.mk.injEq] at h; obtain ⟨rfl, rfl⟩ := h; exact ⟨[], rfl, .nil, rfl⟩
      | succ n => simp [readMembers] at h
  | succ f ih =>
    obtain ⟨ih1, ih2, ih3⟩ := ih
    refine ⟨fun b v t hb h => ?_, fun n b l t hb h => ?_, fun n b l t hb h => ?_⟩
    · cases b with
      | nil => simp [readVal] at h
      | cons a r =>
        have hr := (isBytes_cons.1 hb).2
        simp only [readVal] at h
        by_cases h7 : a / 32 = 7
        · rw [if_pos h7] at h
          exact of_readSimple hr h7 h
        rw [if_neg h7] at h
        by_cases h3 : a / 32 = 3
        · rw [if_pos h3] at h
          cases ht : readText (a :: r) with
          | none => rw [ht] at h; cases h
          | some q =>
            obtain ⟨s, u⟩ := q
            rw [ht, Option.map_some, Option.some.injEq, Prod.mk.injEq] at h
            obtain ⟨rfl, rfl⟩ := h
            obtain ⟨p, e, hp⟩ := of_readText ht
            exact ⟨p, e, .text _ _ hp⟩
        · rw [if_neg h3] at h
          cases h1 : readArg (a % 32) r with
          | none => rw [h1] at h; cases h
          | some q =>
            obtain ⟨n, u⟩ := q
            rw [h1] at h
            simp only at h
            obtain ⟨g, rfl, hg⟩ := of_readArg h1
            have hu := (isBytes_append.1 hr).2
            split_ifs at h with k0 k1 k4 k5 k6 k2 k3
            · rw [Option.some.injEq, Prod.mk.injEq] at h
              obtain ⟨rfl, rfl⟩ := h
              rw [k0] at hg
              exact ⟨a :: g, rfl, .uint _ _ hg⟩
            · rw [Option.some.injEq, Prod.mk.injEq] at h
              obtain ⟨rfl, rfl⟩ := h
              rw [k1] at hg
              exact ⟨a :: g, rfl, .nint _ _ hg⟩
            · cases ht : readItems f n u with
              | none => rw [ht] at h; cases h
              | some q =>
                obtain ⟨s, u'⟩ := q
                rw [ht, Option.map_some, Option.some.injEq, Prod.mk.injEq] at h
                obtain ⟨rfl, rfl⟩ := h
                obtain ⟨p, rfl, hp, rfl⟩ := ih2 _ _ _ _ hu ht
                rw [k4] at hg
                exact ⟨(a :: g) ++ p, by simp, .arr _ _ _ hg hp⟩
            · cases ht : readMembers f n u with
              | none => rw [ht] at h; cases h
              | some q =>
                obtain ⟨s, u'⟩ := q
                rw [ht, Option.map_some, Option.some.injEq, Prod.mk.injEq] at h
                obtain ⟨rfl, rfl⟩ := h
                obtain ⟨p, rfl, hp, rfl⟩ := ih3 _ _ _ _ hu ht
                rw [k5] at hg
                exact ⟨(a :: g) ++ p, by simp, .map _ _ _ hg hp⟩
            · cases ht : readBlob u with
              | none => rw [ht] at h; cases h
              | some q =>
                obtain ⟨s, u'⟩ := q
                rw [ht, Option.map_some, Option.some.injEq, Prod.mk.injEq] at h
                obtain ⟨rfl, rfl⟩ := h
                obtain ⟨x, c, rfl, hx, rfl⟩ := of_readBlob ht
                rw [k6, k2] at hg
                exact ⟨(a :: g) ++ (x ++ c), by simp, .big _ _ _ hg hx⟩
            · cases ht : readBlob u with
              | none => rw [ht] at h; cases h
              | some q =>
                obtain ⟨s, u'⟩ := q
                rw [ht, Option.map_some, Option.some.injEq, Prod.mk.injEq] at h
                obtain ⟨rfl, rfl⟩ := h
                obtain ⟨x, c, rfl, hx, rfl⟩ := of_readBlob ht
                rw [k6, k3] at hg
                exact ⟨(a :: g) ++ (x ++ c), by simp, .nbig _ _ _ hg hx⟩
    · cases n with
      | zero => simp only [readItems, Option.some.injEq, Prod.mk.injEq] at h; obtain ⟨rfl, rfl⟩ := h; exact ⟨[], rfl, .nil, rfl⟩
      | succ n =>
        simp only [readItems] at h
        cases h1 : readVal f b with
        | none => rw [h1] at h; cases h
        | some q =>
          obtain ⟨v, u⟩ := q
          rw [h1] at h
          simp only at h
          obtain ⟨p, rfl, hp⟩ := ih1 _ _ _ hb h1
          cases h2 : readItems f n u with
          | none => rw [h2] at h; cases h
          | some q =>
            obtain ⟨l', u'⟩ := q
            rw [h2, Option.map_some, Option.some.injEq, Prod.mk.injEq] at h
            obtain ⟨rfl, rfl⟩ := h
            obtain ⟨p', rfl, hp', rfl⟩ := ih2 _ _ _ _ (isBytes_append.1 hb).2 h2
            exact ⟨p ++ p', by simp, .cons _ _ _ _ hp hp', rfl⟩
    · cases n with
      | zero => simp only [readMembers, Option.some.injEq, Prod.mk.injEq] at h; obtain ⟨rfl, rfl⟩ := h; exact ⟨[], rfl, .nil, rfl⟩
      | succ n =>
        simp only [readMembers] at h
        cases h0 : readText b with
        | none => rw [h0] at h; cases h
        | some q =>
          obtain ⟨k, w⟩ := q
          rw [h0] at h
          simp only at h
          obtain ⟨pk, rfl, hpk⟩ := of_readText h0
          cases h1 : readVal f w with
          | none => rw [h1] at h; cases h
          | some q =>
            obtain ⟨v, u⟩ := q
            rw [h1] at h
            simp only at h
            obtain ⟨p, rfl, hp⟩ := ih1 _ _ _ (isBytes_append.1 hb).2 h1
            cases h2 : readMembers f n u with
            | none => rw [h2] at h; cases h
            | some q =>
              obtain ⟨l', u'⟩ := q
              rw [h2, Option.map_some, Option.some.injEq, Prod.mk.injEq] at h
              obtain ⟨rfl, rfl⟩ := h
              obtain ⟨p', rfl, hp', rfl⟩ := ih3 _ _ _ _ (isBytes_append.1 (isBytes_append.1 hb).2).2 h2
              exact ⟨pk ++ (p ++ p'), by simp, .cons _ _ _ _ _ _ hpk hp hp', rfl⟩

theorem readSimple_float {k w p i a : Nat} {b : Bytes} {x : X ℚ} (hw : 2 ≤ w) (hb : Spec.IsBytes b) (hl : b.length = k)
    (hk : 256 ^ k = 2 ^ (w + p + 1)) (hx : Spec.Ieee w p (Spec.bigEndian b) x) (t : Bytes)
    (ha : ∀ c, readSimple i c = (takeBytes k c).map (fun q => (Val.float (ofIeee w p (ofBe q.1)), q.2)))
    (h7 : a / 32 = 7) (hi : a % 32 = i) (f : Nat) : readVal (f + 1) (a :: (b ++ t)) = some (.float x, t) := by
  simp only [readVal]
  rw [if_pos h7, hi, ha, takeBytes_of hl, Option.map_some]
  rw [(ieee_bytes hw hb (hl ▸ hk)).2 hx]

mutual
theorem readVal_of {b : Bytes} {v : Val} (h : Spec.Cbor b v) (hb : Spec.IsBytes b) (t : Bytes) (f : Nat)
    (hf : 2 * b.length + 1 ≤ f) : readVal f (b ++ t) = some (v, t) := by
  obtain ⟨f, rfl⟩ : ∃ g, f = g + 1 := ⟨f - 1, by omega⟩
  cases h with
  | uint _ n h =>
    obtain ⟨a, r, rfl, ha, hr⟩ := readArg_of h
    simp only [List.cons_append, readVal]
    rw [if_neg (by omega), if_neg (by omega), hr t]
    simp only
    rw [if_pos ha]
  | nint _ n h =>
    obtain ⟨a, r, rfl, ha, hr⟩ := readArg_of h
    simp only [List.cons_append, readVal]
    rw [if_neg (by omega), if_neg (by omega), hr t]
    simp only
    rw [if_neg (by omega), if_pos ha]
  | big g h c hg hh =>
    obtain ⟨a, r, rfl, ha, hr⟩ := readArg_of hg
    simp only [List.cons_append, List.append_assoc, readVal]
    rw [if_neg (by omega), if_neg (by omega), hr]
    simp only
    rw [if_neg (by omega), if_neg (by omega), if_neg (by omega), if_neg (by omega), if_pos ha, if_pos trivial,
      readBlob_of hh]
    rfl
  | nbig g h c hg hh =>
    obtain ⟨a, r, rfl, ha, hr⟩ := readArg_of hg
    simp only [List.cons_append, List.append_assoc, readVal]
    rw [if_neg (by omega), if_neg (by omega), hr]
    simp only
    rw [if_neg (by omega), if_neg (by omega), if_neg (by omega), if_neg (by omega), if_pos ha, if_neg (by decide),
      if_pos trivial, readBlob_of hh]
    rfl
  | text _ s h =>
    have := readText_of h t
    cases h with
    | mk h r _ hh hr =>
      obtain ⟨a, q, rfl, ha, hq⟩ := readArg_of hh
      simp only [List.cons_append, readVal] at this ⊢
      rw [if_neg (by omega), if_pos ha, this]; rfl
  | false => simp [readVal, readSimple]
  | true => simp [readVal, readSimple]
  | null => simp [readVal, readSimple]
  | half b x hl hx =>
    exact readSimple_float (by decide) (isBytes_cons.1 hb).2 hl (by norm_num) hx t (fun _ => rfl) (by decide) rfl f
  | single b x hl hx =>
    exact readSimple_float (by decide) (isBytes_cons.1 hb).2 hl (by norm_num) hx t (fun _ => rfl) (by decide) rfl f
  | double b x hl hx =>
    exact readSimple_float (by decide) (isBytes_cons.1 hb).2 hl (by norm_num) hx t (fun _ => rfl) (by decide) rfl f
  | arr h b l hh hl =>
    have h1 := head_ne_nil hh
    rw [List.length_append] at hf
    have := readItems_of hl (isBytes_append.1 hb).2 t f (by omega)
    obtain ⟨a, r, rfl, ha, hr⟩ := readArg_of hh
    simp only [List.cons_append, List.append_assoc, readVal]
    rw [if_neg (by omega), if_neg (by omega), hr]
    simp only
    rw [if_neg (by omega), if_neg (by omega), if_pos ha, this]; rfl
  | map h b l hh hl =>
    have h1 := head_ne_nil hh
    rw [List.length_append] at hf
    have := readMembers_of hl (isBytes_append.1 hb).2 t f (by omega)
    obtain ⟨a, r, rfl, ha, hr⟩ := readArg_of hh
    simp only [List.cons_append, List.append_assoc, readVal]
    rw [if_neg (by omega), if_neg (by omega), hr]
    simp only
    rw [if_neg (by omega), if_neg (by omega), if_neg (by omega), if_pos ha, this]; rfl
theorem readItems_of {b : Bytes} {l : List Val} (h : Spec.CborItems b l) (hb : Spec.IsBytes b) (t : Bytes) (f : Nat)
    (hf : 2 * b.length + 2 ≤ f) : readItems f l.length (b ++ t) = some (l, t) := by
  obtain ⟨f, rfl⟩ : ∃ g, f = g + 1 := ⟨f - 1, by omega⟩
  cases h with
  | nil => simp [readItems]
  | cons a b v l ha hl =>
    have h1 := cbor_ne_nil ha
    rw [List.length_append] at hf
    have e1 := readVal_of ha (isBytes_append.1 hb).1 (b ++ t) f (by omega)
    have e2 := readItems_of hl (isBytes_append.1 hb).2 t f (by omega)
    simp only [List.append_assoc, List.length_cons, readItems]
    rw [e1]
    simp only
    rw [e2]; rfl
theorem readMembers_of {b : Bytes} {l : List (Str × Val)} (h : Spec.CborMembers b l) (hb : Spec.IsBytes b) (t : Bytes)
    (f : Nat) (hf : 2 * b.length + 2 ≤ f) : readMembers f l.length (b ++ t) = some (l, t) := by
  obtain ⟨f, rfl⟩ : ∃ g, f = g + 1 := ⟨f - 1, by omega⟩
  cases h with
  | nil => simp [readMembers]
  | cons k a b s v l hk ha hl =>
    have h1 := cbor_ne_nil ha
    rw [List.length_append, List.length_append] at hf
    have e0 := readText_of hk (a ++ (b ++ t))
    have e1 := readVal_of ha (isBytes_append.1 (isBytes_append.1 hb).2).1 (b ++ t) f (by omega)
    have e2 := readMembers_of hl (isBytes_append.1 (isBytes_append.1 hb).2).2 t f (by omega)
    simp only [List.append_assoc, List.length_cons, readMembers]
    rw [e0]
    simp only
    rw [e1]
    simp only
    rw [e2]; rfl
end

/-! ## The writer -/

theorem utf8_isBytes (s : Str) : Spec.IsBytes (utf8 s) := (C132_ascii s [] [] 0 (by decide)).1

theorem dumpText_spec {s : Str} (h : (dumpText s).length < 2 ^ 64) : Spec.CborText (dumpText s) s := by
  unfold dumpText at *
  rw [List.length_append] at h
  exact .mk _ _ _ (head_spec (by omega)) (utf8Text_utf8 s)

theorem isBytes_dumpText (s : Str) : Spec.IsBytes (dumpText s) :=
  isBytes_append.2 ⟨isBytes_head (by decide), utf8_isBytes s⟩

theorem dumpInt_spec {z : Int} (h : (dumpInt z).length < 2 ^ 64) : Spec.Cbor (dumpInt z) (.int z) := by
  unfold dumpInt at *
  split_ifs at h ⊢ with h0 h1 h1
  · have := Spec.Cbor.uint _ _ (head_spec (m := 0) h1)
    rwa [Int.toNat_of_nonneg h0] at this
  · rw [List.length_cons, List.length_append] at h
    have := Spec.Cbor.big [0xC2] _ _ (.low 2 (by decide)) (head_spec (m := 2) (n := (natBytes z.toNat).length) (by omega))
    rwa [bigEndian_natBytes, Int.toNat_of_nonneg h0] at this
  · have := Spec.Cbor.nint _ _ (head_spec (m := 1) h1)
    rwa [Int.toNat_of_nonneg (by omega), show -1 - (-1 - z) = z by omega] at this
  · rw [List.length_cons, List.length_append] at h
    have := Spec.Cbor.nbig [0xC3] _ _ (.low 3 (by decide))
      (head_spec (m := 2) (n := (natBytes (-1 - z).toNat).length) (by omega))
    rwa [bigEndian_natBytes, Int.toNat_of_nonneg (by omega), show -1 - (-1 - z) = z by omega] at this

theorem isBytes_dumpInt (z : Int) : Spec.IsBytes (dumpInt z) := by
  unfold dumpInt
  split_ifs
  · exact isBytes_head (by decide)
  · exact isBytes_cons.2 ⟨by decide, isBytes_append.2 ⟨isBytes_head (by decide), isBytes_natBytes _⟩⟩
  · exact isBytes_head (by decide)
  · exact isBytes_cons.2 ⟨by decide, isBytes_append.2 ⟨isBytes_head (by decide), isBytes_natBytes _⟩⟩

theorem dumpFloat_spec {x : X ℚ} (h : Spec.doubles (.float x)) : Spec.Cbor (dumpFloat x) (.float x) := by
  cases x with
  | fin x =>
    simp only [Spec.doubles] at h
    obtain ⟨h1, h2⟩ := doubleBits_spec h
    refine .double _ _ (length_be _ _) ?_
    rwa [bigEndian_be, Nat.mod_eq_of_lt (by norm_num at h1 ⊢; exact h1)]
  | pinf => exact .half [0x7C, 0] _ rfl (.inf (w := 5) (p := 10))
  | ninf => exact .half [0xFC, 0] _ rfl (.ninf (w := 5) (p := 10))
  | nan => exact .half [0x7E, 0] _ rfl (.nan (w := 5) (p := 10) 0 512 (by decide) (by decide) (by decide))

theorem isBytes_dumpFloat (x : X ℚ) : Spec.IsBytes (dumpFloat x) := by
  cases x with
  | fin x => exact isBytes_cons.2 ⟨by decide, isBytes_be _ _⟩
  | _ => unfold Spec.IsBytes dumpFloat; decide

mutual
theorem isBytes_dumps (v : Val) : Spec.IsBytes (dumps v) := by
  cases v with
  | int z => simp only [dumps]; exact isBytes_dumpInt z
  | float x => simp only [dumps]; exact isBytes_dumpFloat x
  | text s => simp only [dumps]; exact isBytes_dumpText s
  | bool b => cases b <;> simp [dumps, Spec.IsBytes]
  | null => simp [dumps, Spec.IsBytes]
  | arr l => simp only [dumps]; exact isBytes_append.2 ⟨isBytes_head (by decide), isBytes_dumpItems l⟩
  | map l => simp only [dumps]; exact isBytes_append.2 ⟨isBytes_head (by decide), isBytes_dumpMembers l⟩
termination_by sizeOf v + 1
theorem isBytes_dumpItems (l : List Val) : Spec.IsBytes (dumpItems l) := by
  cases l with
  | nil => simp [dumpItems, Spec.IsBytes]
  | cons v t => simp only [dumpItems]; exact isBytes_append.2 ⟨isBytes_dumps v, isBytes_dumpItems t⟩
termination_by sizeOf l + 1
theorem isBytes_dumpMembers (l : List (Str × Val)) : Spec.IsBytes (dumpMembers l) := by
  cases l with
  | nil => simp [dumpMembers, Spec.IsBytes]
  | cons p t =>
    obtain ⟨k, v⟩ := p
    simp only [dumpMembers]
    exact isBytes_append.2 ⟨isBytes_dumpText k, isBytes_append.2 ⟨isBytes_dumps v, isBytes_dumpMembers t⟩⟩
termination_by sizeOf l + 1
end

theorem head_len (m n : Nat) : 1 ≤ (head m n).length := by
  unfold head
  split_ifs <;> simp

mutual
theorem dumps_len (v : Val) : 1 ≤ (dumps v).length := by
  cases v with
  | int z =>
    simp only [dumps, dumpInt]
    split_ifs
    · exact head_len _ _
    · simp
    · exact head_len _ _
    · simp
  | float x => cases x <;> simp [dumps, dumpFloat]
  | text s => have := head_len 3 (utf8 s).length; simp only [dumps, dumpText, List.length_append]; omega
  | bool b => simp [dumps]
  | null => simp [dumps]
  | arr l => have := head_len 4 l.length; simp only [dumps, List.length_append]; omega
  | map l => have := head_len 5 l.length; simp only [dumps, List.length_append]; omega
end

theorem dumpItems_len (l : List Val) : l.length ≤ (dumpItems l).length := by
  induction l with
  | nil => simp
  | cons v t ih => have := dumps_len v; simp only [dumpItems, List.length_append, List.length_cons]; omega

theorem dumpMembers_len (l : List (Str × Val)) : l.length ≤ (dumpMembers l).length := by
  induction l with
  | nil => simp
  | cons p t ih =>
    obtain ⟨k, v⟩ := p
    have := dumps_len v; simp only [dumpMembers, List.length_append, List.length_cons]; omega

mutual
theorem dumps_spec (v : Val) (hd : Spec.doubles v) (h : (dumps v).length < 2 ^ 64) : Spec.Cbor (dumps v) v := by
  cases v with
  | int z => simp only [dumps] at h ⊢; exact dumpInt_spec h
  | float x => simp only [dumps]; exact dumpFloat_spec hd
  | text s => simp only [dumps] at h ⊢; exact .text _ _ (dumpText_spec h)
  | bool b =>
    cases b
    · simp only [dumps]; exact .false
    · simp only [dumps]; exact .true
  | null => simp only [dumps]; exact .null
  | arr l =>
    simp only [dumps, List.length_append] at h ⊢
    have := dumpItems_len l
    exact .arr _ _ _ (head_spec (by omega)) (dumpItems_spec l (by simpa only [Spec.doubles] using hd) (by omega))
  | map l =>
    simp only [dumps, List.length_append] at h ⊢
    have := dumpMembers_len l
    exact .map _ _ _ (head_spec (by omega)) (dumpMembers_spec l (by simpa only [Spec.doubles] using hd) (by omega))
termination_by sizeOf v + 1
theorem dumpItems_spec (l : List Val) (hd : Spec.doublesItems l) (h : (dumpItems l).length < 2 ^ 64) :
    Spec.CborItems (dumpItems l) l := by
  cases l with
  | nil => simp only [dumpItems]; exact .nil
  | cons v t =>
    simp only [dumpItems, List.length_append, Spec.doublesItems] at hd h ⊢
    exact .cons _ _ _ _ (dumps_spec v hd.1 (by omega)) (dumpItems_spec t hd.2 (by omega))
termination_by sizeOf l + 1
theorem dumpMembers_spec : ∀ (l : List (Str × Val)), Spec.doublesMembers l → (dumpMembers l).length < 2 ^ 64 →
    Spec.CborMembers (dumpMembers l) l
  | [], _, _ => by simp only [dumpMembers]; exact .nil
  | (k, v) :: t, hd, h => by
    have hd1 : Spec.doubles v := by simp only [Spec.doublesMembers] at hd; exact hd.1
    have hd2 : Spec.doublesMembers t := by simp only [Spec.doublesMembers] at hd; exact hd.2
    simp only [dumpMembers, List.length_append] at h ⊢
    exact .cons _ _ _ _ _ _ (dumpText_spec (by omega)) (dumps_spec v hd1 (by omega)) (dumpMembers_spec t hd2 (by omega))
termination_by l => sizeOf l + 1
end

end Byt

/-- **C133**: `cbor2.loads` accepts exactly the bytes that begin with an encoding and gives the value encoded. -/
theorem C133_reader (b : Bytes) (hb : Spec.IsBytes b) (v : Val) :
    loads b = some v ↔ ∃ p t, b = p ++ t ∧ Spec.Cbor p v := by
  unfold loads
  constructor
  · intro h
    cases hr : readVal (2 * b.length + 2) b with
    | none => rw [hr] at h; cases h
    | some q =>
      obtain ⟨v', t⟩ := q
      rw [hr] at h
      cases h
      obtain ⟨p, e, hp⟩ := (of_read _).1 _ _ _ hb hr
      exact ⟨p, t, e, hp⟩
  · rintro ⟨p, t, rfl, hp⟩
    rw [readVal_of hp (isBytes_append.1 hb).1 t _ (by rw [List.length_append]; omega)]
    rfl

/-- **C133**: no encoding is a proper prefix of another, and one encoding has one value. -/
theorem C133_prefix_free (p p' t t' : Bytes) (hb : Spec.IsBytes (p ++ t)) (v v' : Val) (h : Spec.Cbor p v)
    (h' : Spec.Cbor p' v') (e : p ++ t = p' ++ t') : p = p' ∧ v = v' ∧ t = t' := by
  have h1 := readVal_of h (isBytes_append.1 hb).1 t (2 * (p ++ t).length + 1) (by rw [List.length_append]; omega)
  have h2 := readVal_of h' (isBytes_append.1 (e ▸ hb)).1 t' (2 * (p ++ t).length + 1)
    (by rw [e, List.length_append]; omega)
  rw [e] at h1 h2
  rw [h2, Option.some.injEq, Prod.mk.injEq] at h1
  obtain ⟨rfl, rfl⟩ := h1
  exact ⟨List.append_cancel_right e, rfl, rfl⟩

/-- **C133**: `cbor2.dumps` writes bytes, and an encoding of the value (unless they are 16 exabytes or more). -/
theorem C133_writer (v : Val) (hd : Spec.doubles v) (h : (dumps v).length < 2 ^ 64) :
    Spec.IsBytes (dumps v) ∧ Spec.Cbor (dumps v) v :=
  ⟨isBytes_dumps v, dumps_spec v hd h⟩

/-- **C133**: what was written is read back: integers of any size, float64 with all bits, infinities and NaN, texts,
and the order of the members. -/
theorem C133_roundtrip (v : Val) (hd : Spec.doubles v) (h : (dumps v).length < 2 ^ 64) : loads (dumps v) = some v :=
  (C133_reader _ (isBytes_dumps v) v).2 ⟨_, [], (List.append_nil _).symm, dumps_spec v hd h⟩

/-- **C133**: a file cut short is not read: no proper prefix of what was written is accepted. -/
theorem C133_truncated (v : Val) (hd : Spec.doubles v) (h : (dumps v).length < 2 ^ 64) (n : Nat)
    (hn : n < (dumps v).length) : loads ((dumps v).take n) = none := by
  have hb := isBytes_dumps v
  have e := List.take_append_drop n (dumps v)
  cases hl : loads ((dumps v).take n) with
  | none => rfl
  | some w =>
    have hbt : Spec.IsBytes ((dumps v).take n) := fun x hx => hb x (List.mem_of_mem_take hx)
    obtain ⟨p, t, e1, hp⟩ := (C133_reader _ hbt w).1 hl
    have hbw : Spec.IsBytes (p ++ (t ++ (dumps v).drop n)) := by rw [← List.append_assoc, ← e1, e]; exact hb
    obtain ⟨e2, -, -⟩ := C133_prefix_free p (dumps v) (t ++ (dumps v).drop n) [] hbw w v hp (dumps_spec v hd h)
      (by rw [← List.append_assoc, ← e1, e, List.append_nil])
    have h1 := congrArg List.length e1
    rw [List.length_append, e2, List.length_take] at h1
    omega

/-- **C133**: the eight bytes of a float64 are its IEEE 754 form. -/
theorem C133_double {x : ℚ} (h : Spec.Binary64 x) :
    Spec.Ieee 11 52 (Spec.bigEndian (be 8 (doubleBits x))) (.fin x) := by
  obtain ⟨h1, h2⟩ := doubleBits_spec h
  rwa [bigEndian_be, Nat.mod_eq_of_lt (by norm_num at h1 ⊢; exact h1)]

/-- an example value -/
def exCbor : Val := .map [("q1".toList, .map [("dé".toList, .float (.fin (5 / 2))), ("d2".toList, .float .ninf)]),
  ("q2".toList, .arr [.int (-500), .int (2 ^ 70), .null, .bool true, .text []])]

/-- non-vacuity, and agreement with `cbor2.dumps` on known bytes -/
example : Spec.doubles exCbor ∧ dumps (.int 1000000) = [0x1A, 0x00, 0x0F, 0x42, 0x40] ∧
    dumps (.int (-500)) = [0x39, 0x01, 0xF3] ∧
    dumps (.int (2 ^ 64)) = [0xC2, 0x49, 0x01, 0, 0, 0, 0, 0, 0, 0, 0] := by
  refine ⟨?_, by decide +kernel, by decide +kernel, by decide +kernel⟩
  simp only [exCbor, Spec.doubles, Spec.doublesMembers, Spec.doublesItems, and_true]
  exact ⟨5, -1, by norm_num, by norm_num, by norm_num, by norm_num⟩

end Ranx
