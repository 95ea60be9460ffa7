import Verif.Lemmas.IO
import Verif.Lemmas.PyStr

/-!
# What the text operations do, stated without them: fields, lines and extensions
-/

namespace Ranx.Files
open Py

/-- `Fields s ws`: the text `s` consists of the words `ws` separated by white space (and possibly
surrounded by it) -/
inductive Spec.Fields : Str → List Str → Prop
  | nil (s : Str) : (∀ c ∈ s, isSpace c = true) → Spec.Fields s []
  | cons (pre w t : Str) (ws : List Str) : (∀ c ∈ pre, isSpace c = true) → Spec.Word w →
      (∀ c, t.head? = some c → isSpace c = true) → Spec.Fields t ws → Spec.Fields (pre ++ w ++ t) (w :: ws)

open Spec (Word Fields)

theorem splitWs_allSpace (s : Str) (h : ∀ c ∈ s, isSpace c = true) : splitWs s = [] := by
  have : pieces s = List.replicate (s.length + 1) [] := by
    induction s with
    | nil => rfl
    | cons c t ih =>
      rw [pieces, if_pos (h c (List.mem_cons_self ..)), ih (fun x hx => h x (List.mem_cons_of_mem _ hx))]
      rfl
  unfold splitWs
  rw [this, List.filter_eq_nil_iff]
  intro a ha
  rw [List.eq_of_mem_replicate ha]
  decide

theorem splitWs_pre (pre t : Str) (h : ∀ c ∈ pre, isSpace c = true) : splitWs (pre ++ t) = splitWs t := by
  induction pre with
  | nil => rfl
  | cons c p ih =>
    rw [List.cons_append, splitWs, pieces, if_pos (h c (List.mem_cons_self ..)), List.filter_cons,
      if_neg (by decide)]
    exact ih (fun x hx => h x (List.mem_cons_of_mem _ hx))

theorem splitWs_of_fields {s : Str} {ws : List Str} (h : Fields s ws) : splitWs s = ws := by
  induction h with
  | nil s h => exact splitWs_allSpace s h
  | cons pre w t ws hpre hw ht _ ih =>
    rw [List.append_assoc, splitWs_pre _ _ hpre]
    cases t with
    | nil => rw [List.append_nil, splitWs_word hw, ← ih]; rfl
    | cons c t =>
      have hc := ht c rfl
      rw [splitWs_append hw c t hc, ← ih]
      congr 1
      exact (splitWs_pre [c] t (by simpa using hc)).symm

theorem fields_cons_space (c : Char) (hc : isSpace c = true) {t : Str} {ws : List Str} (h : Fields t ws) :
    Fields (c :: t) ws := by
  cases h with
  | nil s h =>
    refine .nil _ ?_
    intro x hx
    rcases List.mem_cons.1 hx with rfl | hx
    · exact hc
    · exact h x hx
  | cons pre w t ws hpre hw ht h =>
    have : c :: (pre ++ w ++ t) = (c :: pre) ++ w ++ t := by simp
    rw [this]
    refine .cons _ _ _ _ ?_ hw ht h
    intro x hx
    rcases List.mem_cons.1 hx with rfl | hx
    · exact hc
    · exact hpre x hx

theorem fields_total (s : Str) : ∃ ws, Fields s ws := by
  induction s with
  | nil => exact ⟨[], .nil _ (by simp)⟩
  | cons c t ih =>
    obtain ⟨ws, h⟩ := ih
    cases hc : isSpace c with
    | true => exact ⟨ws, fields_cons_space c hc h⟩
    | false =>
      cases h with
      | nil s h =>
        refine ⟨[[c]], ?_⟩
        have := Fields.cons [] [c] t [] (by simp) ⟨by simp, by simpa using hc⟩
          (fun x hx => h x (List.mem_of_head? hx)) (.nil _ h)
        simpa using this
      | cons pre w t ws hpre hw ht h =>
        cases pre with
        | nil =>
          refine ⟨(c :: w) :: ws, ?_⟩
          have := Fields.cons [] (c :: w) t ws (by simp) ⟨by simp, ?_⟩ ht h
          · simpa using this
          · intro x hx
            rcases List.mem_cons.1 hx with rfl | hx
            · exact hc
            · exact hw.2 x hx
        | cons p pre =>
          refine ⟨[c] :: w :: ws, ?_⟩
          have := Fields.cons [] [c] (p :: pre ++ w ++ t) (w :: ws) (by simp) ⟨by simp, by simpa using hc⟩
            (by intro x hx; simp at hx; subst hx; exact hpre _ (List.mem_cons_self ..))
            (.cons (p :: pre) w t ws hpre hw ht h)
          simpa using this

/-- `str.split()` computes the fields -/
theorem fields_iff {s : Str} {ws : List Str} : Fields s ws ↔ splitWs s = ws := by
  constructor
  · exact splitWs_of_fields
  · rintro rfl
    obtain ⟨ws, h⟩ := fields_total s
    rw [splitWs_of_fields h]
    exact h

/-- `Lines s ls`: the text `s` consists of the lines `ls`, each ended by `\n`, `\r` or `\r\n` (the last
line may end with the text instead, if it is not empty) -/
inductive Spec.Lines : Str → List Str → Prop
  | nil : Spec.Lines [] []
  | last (l : Str) : l ≠ [] → '\n' ∉ l → '\r' ∉ l → Spec.Lines l [l]
  | cons (l e t : Str) (ls : List Str) : '\n' ∉ l → '\r' ∉ l →
      (e = ['\n'] ∨ e = ['\r', '\n'] ∨ (e = ['\r'] ∧ t.head? ≠ some '\n')) → Spec.Lines t ls →
      Spec.Lines (l ++ e ++ t) (l :: ls)

open Spec (Lines)

theorem translate_cons (c : Char) (t : Str) (h : c ≠ '\r') : translate (c :: t) = c :: translate t := by
  conv_lhs => unfold translate
  rw [if_neg h]

theorem translate_append (l t : Str) (h : '\r' ∉ l) : translate (l ++ t) = l ++ translate t := by
  induction l with
  | nil => rfl
  | cons c l ih =>
    have hc : c ≠ '\r' := by rintro rfl; exact h (List.mem_cons_self ..)
    rw [List.cons_append, translate_cons _ _ hc, ih (fun hm => h (List.mem_cons_of_mem _ hm))]
    rfl

theorem translate_lf (t : Str) : translate ('\n' :: t) = '\n' :: translate t :=
  translate_cons _ _ (by decide)

theorem translate_cr (t : Str) (h : t.head? ≠ some '\n') : translate ('\r' :: t) = '\n' :: translate t := by
  conv_lhs => unfold translate
  rw [if_pos rfl]
  split
  · exact absurd rfl h
  · rfl

theorem translate_crlf (t : Str) : translate ('\r' :: '\n' :: t) = '\n' :: translate t := by
  conv_lhs => unfold translate
  rw [if_pos rfl]
  exact translate_lf t

theorem fileLines_of_lines {s : Str} {ls : List Str} (h : Lines s ls) : fileLines s = ls := by
  induction h with
  | nil => rfl
  | last l hne hn hr => rw [fileLines, translate_eq_self _ hr, lines_single _ hn hne]
  | cons l e t ls hn hr he _ ih =>
    rw [fileLines, List.append_assoc, translate_append _ _ hr]
    have : translate (e ++ t) = '\n' :: translate t := by
      rcases he with rfl | rfl | ⟨rfl, hh⟩
      · exact translate_lf t
      · exact translate_crlf t
      · exact translate_cr t hh
    rw [this, lines_append _ _ hn, ← ih]
    rfl

theorem lines_total (s : Str) : ∃ ls, Lines s ls := by
  induction hn : s.length using Nat.strong_induction_on generalizing s with
  | _ n ih =>
    by_cases hs : s = []
    · exact ⟨[], hs ▸ .nil⟩
    have hsplit := List.takeWhile_append_dropWhile (p := fun c => !(c == '\n' || c == '\r')) (l := s)
    generalize hl : s.takeWhile (fun c => !(c == '\n' || c == '\r')) = l at hsplit
    generalize ht : s.dropWhile (fun c => !(c == '\n' || c == '\r')) = t at hsplit
    have hmem : ∀ c ∈ l, c ≠ '\n' ∧ c ≠ '\r' := by
      intro c hc
      rw [← hl] at hc
      have := (List.all_takeWhile (p := fun c => !(c == '\n' || c == '\r')) (l := s))
      rw [List.all_eq_true] at this
      simpa using this c hc
    have h1 : '\n' ∉ l := fun hm => (hmem _ hm).1 rfl
    have h2 : '\r' ∉ l := fun hm => (hmem _ hm).2 rfl
    cases t with
    | nil =>
      rw [List.append_nil] at hsplit
      subst hsplit
      exact ⟨[l], .last l hs h1 h2⟩
    | cons c t =>
      have hc : c = '\n' ∨ c = '\r' := by
        have := List.head?_dropWhile_not (fun c => !(c == '\n' || c == '\r')) s
        rw [ht] at this
        simpa [or_iff_not_imp_left] using this
      have hlen : s.length = l.length + (t.length + 1) := by rw [← hsplit]; simp
      rcases hc with rfl | rfl
      · obtain ⟨ls, hls⟩ := ih t.length (by omega) t rfl
        exact ⟨l :: ls, by rw [← hsplit]; simpa using Lines.cons l ['\n'] t ls h1 h2 (.inl rfl) hls⟩
      · by_cases hh : t.head? = some '\n'
        · cases t with
          | nil => cases hh
          | cons d t =>
            simp only [List.head?_cons, Option.some.injEq] at hh
            subst hh
            obtain ⟨ls, hls⟩ := ih t.length (by simp at hlen; omega) t rfl
            exact ⟨l :: ls, by
              rw [← hsplit]; simpa using Lines.cons l ['\r', '\n'] t ls h1 h2 (.inr (.inl rfl)) hls⟩
        · obtain ⟨ls, hls⟩ := ih t.length (by omega) t rfl
          exact ⟨l :: ls, by
            rw [← hsplit]; simpa using Lines.cons l ['\r'] t ls h1 h2 (.inr (.inr ⟨rfl, hh⟩)) hls⟩

/-- iterating over a text file yields its lines -/
theorem lines_iff {s : Str} {ls : List Str} : Lines s ls ↔ fileLines s = ls := by
  constructor
  · exact fileLines_of_lines
  · rintro rfl
    obtain ⟨ls, h⟩ := lines_total s
    rw [fileLines_of_lines h]
    exact h

/-- `HasExt path ext`: `path` is `dir/stem.ext`, where `stem` contains something else than dots -/
def Spec.HasExt (path ext : Str) : Prop :=
  ∃ dir stem, path = dir ++ stem ++ '.' :: ext ∧ (dir = [] ∨ dir.getLast? = some '/') ∧
    '/' ∉ stem ∧ '/' ∉ ext ∧ '.' ∉ ext ∧ ∃ c ∈ stem, c ≠ '.'

theorem splitChar_ne_nil (c : Char) (s : Str) : splitChar c s ≠ [] := by
  cases s with
  | nil => simp [splitChar]
  | cons x t =>
    rw [splitChar]
    split
    · simp
    · cases splitChar c t <;> simp [consHead]

theorem splitChar_getLast (c : Char) (pre last : Str) (h : c ∉ last) :
    (splitChar c (pre ++ c :: last)).getLastD [] = last := by
  induction pre with
  | nil =>
    simp only [List.nil_append, splitChar, if_pos, splitChar_of_notMem c last h]
    rfl
  | cons x t ih =>
    rw [List.cons_append, splitChar]
    have hne := splitChar_ne_nil c (t ++ c :: last)
    revert ih hne
    have hlong : 2 ≤ (splitChar c (t ++ c :: last)).length := by
      clear * -
      induction t with
      | nil =>
        simp only [List.nil_append, splitChar, if_pos, List.length_cons]
        have := List.length_pos_iff.2 (splitChar_ne_nil c last)
        omega
      | cons y t ih =>
        rw [List.cons_append, splitChar]
        split
        · simp only [List.length_cons]; omega
        · revert ih
          cases splitChar c (t ++ c :: last) with
          | nil => simp
          | cons a as => simp [consHead]
    revert hlong
    generalize splitChar c (t ++ c :: last) = L
    intro hlong ih hne
    split
    · cases L with
      | nil => exact absurd rfl hne
      | cons a as => simpa [List.getLastD] using ih
    · match L, hlong with
      | a :: b :: as, _ => simpa [consHead, List.getLastD] using ih

theorem exists_last_split (c : Char) (s : Str) :
    c ∉ s ∨ ∃ pre last, s = pre ++ c :: last ∧ c ∉ last := by
  by_cases h : c ∈ s
  · right
    obtain ⟨a, b, hab, hna⟩ := List.eq_append_cons_of_mem (List.mem_reverse.2 h)
    refine ⟨b.reverse, a.reverse, ?_, by simpa using hna⟩
    have := congrArg List.reverse hab
    simpa using this
  · exact .inl h

/-- the last component of a path -/
theorem base_of (dir base : Str) (hd : dir = [] ∨ dir.getLast? = some '/') (hb : '/' ∉ base) :
    (splitChar '/' (dir ++ base)).getLastD [] = base := by
  rcases hd with rfl | hd
  · rw [List.nil_append, splitChar_of_notMem _ _ hb]; rfl
  · obtain ⟨d, rfl⟩ := List.getLast?_eq_some_iff.1 hd
    rw [List.append_assoc]
    exact splitChar_getLast '/' d base hb

theorem exists_base (path : Str) : ∃ dir base, path = dir ++ base ∧
    (dir = [] ∨ dir.getLast? = some '/') ∧ '/' ∉ base := by
  rcases exists_last_split '/' path with h | ⟨pre, last, rfl, h⟩
  · exact ⟨[], path, rfl, .inl rfl, h⟩
  · exact ⟨pre ++ ['/'], last, by simp, .inr (by simp), h⟩

theorem splitext_of_hasExt {path ext : Str} (h : Spec.HasExt path ext) : splitext path = '.' :: ext := by
  obtain ⟨dir, stem, rfl, hd, hs, he, hdot, c, hc, hcd⟩ := h
  have hb : '/' ∉ stem ++ '.' :: ext := by
    simp only [List.mem_append, List.mem_cons, not_or]
    exact ⟨hs, by decide, he⟩
  simp only [splitext]
  rw [List.append_assoc, base_of dir _ hd hb, splitChar_getLast '.' stem ext hdot]
  rw [if_pos]
  refine ⟨by simp, ?_⟩
  have hlen : (stem ++ '.' :: ext).length - ext.length - 1 = stem.length := by simp; omega
  rw [hlen, List.take_left, List.any_eq_true]
  exact ⟨c, hc, by simpa using hcd⟩

theorem splitext_of_not {path : Str} (h : ∀ ext, ¬ Spec.HasExt path ext) : splitext path = [] := by
  obtain ⟨dir, base, rfl, hd, hb⟩ := exists_base path
  simp only [splitext]
  rw [base_of dir base hd hb, if_neg]
  rintro ⟨hdot, hany⟩
  rcases exists_last_split '.' base with h' | ⟨stem, ext, rfl, he⟩
  · exact h' hdot
  · rw [splitChar_getLast '.' stem ext he] at hany
    have hlen : (stem ++ '.' :: ext).length - ext.length - 1 = stem.length := by simp; omega
    rw [hlen, List.take_left, List.any_eq_true] at hany
    obtain ⟨c, hc, hcd⟩ := hany
    refine h ext ⟨dir, stem, by simp, hd, ?_, ?_, he, c, hc, by simpa using hcd⟩
    · exact fun hm => hb (List.mem_append_left _ hm)
    · exact fun hm => hb (List.mem_append_right _ (List.mem_cons_of_mem _ hm))

end Ranx.Files
