import Mathlib.Data.List.Infix
import Mathlib.Data.List.TakeWhile
import Verif.Model.PyStr

/-! # Lemmas: Python strings -/

namespace Ranx.Py

theorem splitChar_of_notMem (c : Char) (s : Str) (h : c ∉ s) : splitChar c s = [s] := by
  induction s with
  | nil => rfl
  | cons x t ih =>
    rw [List.mem_cons, not_or] at h
    unfold splitChar
    rw [if_neg (fun e => h.1 e.symm), ih h.2]; rfl

theorem splitChar_append (c : Char) (s t : Str) (h : c ∉ s) :
    splitChar c (s ++ c :: t) = s :: splitChar c t := by
  induction s with
  | nil => simp [splitChar]
  | cons x s ih =>
    rw [List.mem_cons, not_or] at h
    rw [List.cons_append]
    rw [splitChar, if_neg (fun e => h.1 e.symm), ih h.2]; rfl

theorem hasSub_iff (sub s : Str) : hasSub sub s = true ↔ sub <:+: s := by
  unfold hasSub
  rw [List.any_eq_true]
  constructor
  · rintro ⟨t, ht, hp⟩
    rw [List.mem_tails] at ht
    rw [List.isPrefixOf_iff_prefix] at hp
    exact hp.isInfix.trans ht.isInfix
  · rintro ⟨a, b, rfl⟩
    refine ⟨sub ++ b, ?_, ?_⟩
    · rw [List.mem_tails, List.append_assoc]; exact List.suffix_append _ _
    · rw [List.isPrefixOf_iff_prefix]; exact List.prefix_append _ _

theorem split2_of_not_hasSub (a b : Char) (s : Str) (h : ¬ [a, b] <:+: s) : split2 a b s = [s] := by
  induction s with
  | nil => rfl
  | cons x t ih =>
    cases t with
    | nil => rfl
    | cons y t =>
      have hxy : ¬ (x = a ∧ y = b) := by
        rintro ⟨rfl, rfl⟩
        exact h ⟨[], t, rfl⟩
      rw [split2, if_neg hxy, ih (fun hi => h (hi.trans (List.suffix_cons _ _).isInfix))]
      rfl

/-- a two-character separator behind a string that does not contain it -/
theorem split2_append (a b : Char) (hab : a ≠ b) (s t : Str) (h : ¬ [a, b] <:+: s) :
    split2 a b (s ++ a :: b :: t) = s :: split2 a b t := by
  induction s with
  | nil => simp [split2]
  | cons x s ih =>
    have hs : ¬ [a, b] <:+: s := fun hi => h (hi.trans (List.suffix_cons _ _).isInfix)
    cases s with
    | nil =>
      have : ([x] : Str) ++ a :: b :: t = x :: a :: b :: t := rfl
      rw [this, split2, if_neg (by rintro ⟨-, e⟩; exact hab e)]
      have := ih hs
      rw [List.nil_append] at this
      rw [this]; rfl
    | cons y s =>
      have hxy : ¬ (x = a ∧ y = b) := by
        rintro ⟨rfl, rfl⟩
        exact h ⟨[], s, rfl⟩
      have : (x :: y :: s) ++ a :: b :: t = x :: y :: (s ++ a :: b :: t) := rfl
      rw [this, split2, if_neg hxy]
      have := ih hs
      rw [List.cons_append] at this
      rw [this]; rfl

theorem digits1_of_all (s : Str) (h : ∀ c ∈ s, c.isDigit = true) : digits1 s = true := by
  induction s with
  | nil => simp [digits1]
  | cons c t ih =>
    simp [digits1, h c List.mem_cons_self, ih (fun x hx => h x (List.mem_cons_of_mem _ hx))]

theorem digits0_of_all (s : Str) (hne : s ≠ []) (h : ∀ c ∈ s, c.isDigit = true) :
    digits0 s = true := by
  cases s with
  | nil => exact absurd rfl hne
  | cons c t =>
    simp [digits0, h c List.mem_cons_self, digits1_of_all t (fun x hx => h x (List.mem_cons_of_mem _ hx))]

theorem isDigit_ne_underscore {c : Char} (h : c.isDigit = true) : c ≠ '_' := by
  rintro rfl; exact absurd h (by decide)

theorem natStr_isDigit {n : Nat} {c : Char} (h : c ∈ natStr n) : c.isDigit = true :=
  Nat.isDigit_of_mem_toDigits (by decide) (by decide) h

theorem natStr_ne_nil (n : Nat) : natStr n ≠ [] := Nat.toDigits_ne_nil

theorem pyNat_natStr (n : Nat) : pyNat (natStr n) = some n := by
  unfold pyNat
  rw [if_pos (digits0_of_all _ (natStr_ne_nil n) (fun c hc => natStr_isDigit hc))]
  rw [List.filter_eq_self.2 (fun c hc => by simpa using isDigit_ne_underscore (natStr_isDigit hc))]
  unfold natStr
  rw [Nat.ofDigitChars_toDigits (by decide) (by decide)]

theorem isDigit_iff {c : Char} : c.isDigit = true ↔ 48 ≤ c.toNat ∧ c.toNat ≤ 57 := by
  unfold Char.isDigit
  rw [Bool.and_eq_true, decide_eq_true_iff, decide_eq_true_iff]
  exact Iff.rfl

theorem isDigit_not_space {c : Char} (h : c.isDigit = true) : isSpace c = false := by
  rw [isDigit_iff] at h
  unfold isSpace
  simp
  omega

theorem dropWhile_eq_self {γ : Type*} (p : γ → Bool) (l : List γ)
    (h : ∀ x, l.head? = some x → p x = false) : l.dropWhile p = l := by
  cases l with
  | nil => rfl
  | cons a t => rw [List.dropWhile_cons, h a rfl]; rfl

/-- stripping does nothing to a string with no space at either end -/
theorem strip_eq_self (s : Str) (h : ∀ c ∈ s, isSpace c = false) : strip s = s := by
  unfold strip
  rw [dropWhile_eq_self isSpace s (fun x hx => h x (List.mem_of_head? hx)),
    dropWhile_eq_self isSpace s.reverse
      (fun x hx => h x (List.mem_reverse.1 (List.mem_of_head? hx))), List.reverse_reverse]

theorem dropWhile_spaces {a x : Str} (ha : ∀ c ∈ a, isSpace c = true) :
    (a ++ x).dropWhile isSpace = x.dropWhile isSpace := by
  induction a with
  | nil => rfl
  | cons c a ih =>
    rw [List.cons_append, List.dropWhile_cons, if_pos (ha c (by simp))]
    exact ih (fun c hc => ha c (by simp [hc]))

theorem strip_pad {a x b : Str} (ha : ∀ c ∈ a, isSpace c = true) (hb : ∀ c ∈ b, isSpace c = true) :
    strip (a ++ x ++ b) = strip x := by
  unfold strip
  rw [List.append_assoc, dropWhile_spaces ha]
  congr 1
  by_cases hx : ∀ c ∈ x, isSpace c = true
  · rw [dropWhile_spaces hx]
    have h1 : b.dropWhile isSpace = [] := List.dropWhile_eq_nil_iff.2 hb
    have h2 : x.dropWhile isSpace = [] := List.dropWhile_eq_nil_iff.2 hx
    rw [h1, h2]
  · have : (x ++ b).dropWhile isSpace = x.dropWhile isSpace ++ b := by
      rw [List.dropWhile_append]
      have hne : (x.dropWhile isSpace).isEmpty = false := by
        rw [List.isEmpty_eq_false_iff]
        intro h
        exact hx (List.dropWhile_eq_nil_iff.1 h)
      rw [hne]; rfl
    rw [this, List.reverse_append]
    exact dropWhile_spaces (fun c hc => hb c (List.mem_reverse.1 hc))

theorem pyInt_natStr (n : Nat) : pyInt (natStr n) = some (n : Int) := by
  unfold pyInt
  rw [strip_eq_self _ (fun c hc => isDigit_not_space (natStr_isDigit hc))]
  have hd := fun c (hc : c ∈ natStr n) => natStr_isDigit hc
  have hp := pyNat_natStr n
  revert hd hp
  generalize natStr n = s
  intro hd hp
  split
  · exact absurd (hd '-' List.mem_cons_self) (by decide)
  · exact absurd (hd '+' List.mem_cons_self) (by decide)
  · rw [hp]; rfl

theorem pyInt_intStr (z : Int) : pyInt (intStr z) = some z := by
  cases z with
  | ofNat n => exact pyInt_natStr n
  | negSucc n =>
    unfold pyInt intStr
    rw [strip_eq_self]
    · simp only
      rw [pyNat_natStr]; rfl
    · intro c hc
      rcases List.mem_cons.1 hc with rfl | hc
      · decide
      · exact isDigit_not_space (natStr_isDigit hc)

end Ranx.Py
