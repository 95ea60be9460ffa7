import Mathlib.Data.Rat.Defs
import Mathlib.Algebra.Field.Rat
import Verif.Model.Evaluate
import Verif.Lemmas.PyStr

/-!
# Property C30: metric strings
-/

set_option linter.unusedSectionVars false

namespace Ranx
open Eval Py
variable {α : Type*} [Field α] (other : Str → Except Err α)

/-- Specification: a plain metric name: no cutoff sign, no level mark, not an rbp string. All names of
`metric_switch` except rbp are of this form (`plain_names` below). -/
structure Spec.PlainName (m : Str) : Prop where
  noAt : '@' ∉ m
  noLevel : ¬ "-l".toList <:+: m
  noRbp : ¬ "rbp".toList <:+: m

/-- the names `metric_switch` knows, except rbp, are plain -/
theorem plain_names : ∀ m ∈ ["hits", "hit_rate", "precision", "recall", "f1", "r-precision", "mrr",
    "map", "dcg", "dcg_burges", "ndcg", "ndcg_burges", "bpref"], Spec.PlainName m.toList := by
  intro m hm
  have key : ∀ m ∈ ["hits", "hit_rate", "precision", "recall", "f1", "r-precision", "mrr",
    "map", "dcg", "dcg_burges", "ndcg", "ndcg_burges", "bpref"].map String.toList,
    '@' ∉ m ∧ hasSub "-l".toList m = false ∧ hasSub "rbp".toList m = false := by decide +kernel
  obtain ⟨h1, h2, h3⟩ := key _ (List.mem_map_of_mem hm)
  refine ⟨h1, ?_, ?_⟩
  · intro h; rw [(hasSub_iff _ _).2 h] at h2; cases h2
  · intro h; rw [(hasSub_iff _ _).2 h] at h3; cases h3

/-- an infix of `a ++ b` of length ≤ … : if no character of `sub` occurs in `b`'s first position … -/
theorem infix_append_cons {sub a b : Str} {c : Char} (hc : c ∉ sub) (h : sub <:+: a ++ c :: b) :
    sub <:+: a ∨ sub <:+: b := by
  obtain ⟨x, y, hxy⟩ := h
  -- split at the position of `c`
  by_cases hx : x.length + sub.length ≤ a.length
  · left
    have hp : x ++ sub <+: a := by
      apply List.prefix_of_prefix_length_le (l₃ := a ++ c :: b) (l₁ := x ++ sub)
      · exact ⟨y, hxy⟩
      · exact List.prefix_append _ _
      · simpa using hx
    exact (List.suffix_append x sub).isInfix.trans hp.isInfix
  · by_cases hxa : a.length < x.length
    · right
      have hs : sub ++ y <:+ b := by
        apply List.suffix_of_suffix_length_le (l₃ := a ++ c :: b)
        · exact ⟨x, by rw [← hxy, List.append_assoc]⟩
        · exact ⟨a ++ [c], by simp⟩
        · have := congrArg List.length hxy
          simp at this ⊢
          omega
      exact (List.prefix_append sub y).isInfix.trans hs.isInfix
    · exfalso
      have h1 : (x ++ sub ++ y)[a.length]? = some c := by rw [hxy]; simp
      rw [List.append_assoc, List.getElem?_append_right (by omega),
        List.getElem?_append_left (by omega)] at h1
      exact hc (List.mem_of_getElem? h1)

theorem not_infix_digits {sub : Str} {c : Char} (hc : c ∈ sub) (hcd : c.isDigit = false) (n : Nat) :
    ¬ sub <:+: natStr n := by
  intro h
  have := natStr_isDigit (h.subset hc)
  rw [hcd] at this; cases this

theorem not_mem_digits {c : Char} (hcd : c.isDigit = false) (n : Nat) : c ∉ natStr n := by
  intro h
  have := natStr_isDigit h
  rw [hcd] at this; cases this

theorem noLevel_at {m : Str} (h : Spec.PlainName m) (k : Nat) : ¬ "-l".toList <:+: m ++ '@' :: natStr k := by
  intro hi
  rcases infix_append_cons (by decide) hi with h1 | h1
  · exact h.noLevel h1
  · exact not_infix_digits (c := '-') (by decide) (by decide) k h1

theorem noRbp_at {m : Str} (h : Spec.PlainName m) (k : Nat) : ¬ "rbp".toList <:+: m ++ '@' :: natStr k := by
  intro hi
  rcases infix_append_cons (by decide) hi with h1 | h1
  · exact h.noRbp h1
  · exact not_infix_digits (c := 'r') (by decide) (by decide) k h1

theorem hasSub_false {sub s : Str} (h : ¬ sub <:+: s) : hasSub sub s = false := by
  cases hb : hasSub sub s with
  | false => rfl
  | true => exact absurd ((hasSub_iff _ _).1 hb) h

/-- the level part: `s-lL` is `s` with level `L`, for every `s` without level mark -/
theorem extract_level (s : Str) (hs : ¬ "-l".toList <:+: s) (L : Nat) (m : Str) (p : Param α)
    (h : extract other s = .ok (m, p, 1)) :
    extract other (s ++ "-l".toList ++ natStr L) = .ok (m, p, (L : Int)) := by
  have e : s ++ "-l".toList ++ natStr L = s ++ '-' :: 'l' :: natStr L := by simp
  have h1 : hasSub "-l".toList (s ++ '-' :: 'l' :: natStr L) = true := by
    rw [hasSub_iff]; exact ⟨s, natStr L, by simp⟩
  have h2 : split2 '-' 'l' (s ++ '-' :: 'l' :: natStr L) = [s, natStr L] := by
    rw [split2_append '-' 'l' (by decide) s _ hs,
      split2_of_not_hasSub _ _ _ (not_infix_digits (c := '-') (by decide) (by decide) L)]
  have h3 := hasSub_false hs
  unfold extract at h ⊢
  rw [h3] at h
  rw [e, h1, h2]
  simp only [if_true, Bool.false_eq_true, if_false] at h ⊢
  have hl : pyIntE (natStr L) = .ok (L : Int) := by unfold pyIntE; rw [pyInt_natStr]
  rw [hl]
  split at h
  · cases h
  · rename_i heq
    simp only [Except.ok.injEq, Prod.mk.injEq] at h ⊢
    exact ⟨h.1, h.2.1, trivial⟩

/-- **C30**: for every plain name `m`, cutoff `k` and level `L`, the strings `m`, `m@k`, `m-lL` and
`m@k-lL` select `m` with cutoff `k` (0 if absent) and level `L` (1 if absent). -/
theorem C30_parse (m : Str) (hm : Spec.PlainName m) (k L : Nat) :
    extract other m = .ok (m, .cutoff 0, 1) ∧
    extract other (m ++ '@' :: natStr k) = .ok (m, .cutoff k, 1) ∧
    extract other (m ++ "-l".toList ++ natStr L) = .ok (m, .cutoff 0, (L : Int)) ∧
    extract other (m ++ '@' :: natStr k ++ "-l".toList ++ natStr L) = .ok (m, .cutoff k, (L : Int)) := by
  have h1 : extract other m = .ok (m, .cutoff 0, 1) := by
    unfold extract
    rw [hasSub_false hm.noLevel]
    simp only [Bool.false_eq_true, if_false]
    rw [hasSub_false hm.noRbp]
    simp only [Bool.false_eq_true, if_false]
    rw [splitChar_of_notMem _ _ hm.noAt]
  have h2 : extract other (m ++ '@' :: natStr k) = .ok (m, .cutoff k, 1) := by
    unfold extract
    rw [hasSub_false (noLevel_at hm k)]
    simp only [Bool.false_eq_true, if_false]
    rw [hasSub_false (noRbp_at hm k)]
    simp only [Bool.false_eq_true, if_false]
    rw [splitChar_append _ _ _ hm.noAt,
      splitChar_of_notMem _ _ (not_mem_digits (by decide) k)]
    simp only
    have hl : pyIntE (natStr k) = .ok (k : Int) := by unfold pyIntE; rw [pyInt_natStr]
    rw [hl]
  exact ⟨h1, h2, extract_level other m hm.noLevel L m _ h1,
    extract_level other _ (noLevel_at hm k) L m _ h2⟩

theorem frac_parse (ds : Str) (hd : ∀ c ∈ ds, c.isDigit = true) (sep : Char) (hsep : sep = '.' ∨ sep = '@') :
    extract other ("rbp".toList ++ sep :: ds) =
      .ok ("rbp".toList, .persistence ((Nat.ofDigitChars 10 ds 0 : α) / 10 ^ ds.length), 1) := by
  have hnot : ∀ c, c.isDigit = false → c ∉ ds := fun c hc hm => by
    have := hd c hm; rw [hc] at this; cases this
  have hsd : sep.isDigit = false := by rcases hsep with rfl | rfl <;> decide
  have hns : sep ∉ "-l".toList ∧ sep ∉ "rbp".toList := by
    rcases hsep with rfl | rfl <;> decide
  have h1 : hasSub "-l".toList ("rbp".toList ++ sep :: ds) = false := by
    apply hasSub_false
    intro hi
    rcases infix_append_cons hns.1 hi with h | h
    · have := (hasSub_iff _ _).2 h; revert this; decide
    · exact hnot '-' (by decide) (h.subset (by decide))
  have h2 : hasSub "rbp".toList ("rbp".toList ++ sep :: ds) = true := by
    rw [hasSub_iff]; exact (List.prefix_append _ _).isInfix
  have hp : pyFrac other ds = .ok ((Nat.ofDigitChars 10 ds 0 : α) / 10 ^ ds.length) := by
    unfold pyFrac; rw [if_pos (List.all_eq_true.2 hd)]
  have hsplit : splitChar sep ("rbp".toList ++ sep :: ds) = ["rbp".toList, ds] := by
    rw [splitChar_append _ _ _ hns.2, splitChar_of_notMem _ _ (hnot sep hsd)]
  unfold extract
  rw [h1]
  simp only [Bool.false_eq_true, if_false]
  rw [h2]
  simp only [if_true]
  rcases hsep with rfl | rfl
  · rw [if_pos (by simp), hsplit]
    simp only
    rw [hp]
  · have : '.' ∉ "rbp".toList ++ '@' :: ds := by
      rw [List.mem_append, List.mem_cons]
      rintro (h | h | h)
      · revert h; decide
      · revert h; decide
      · exact hnot '.' (by decide) h
    rw [if_neg this, if_pos (by simp), hsplit]
    simp only
    rw [hp]

/-- **C30** (rbp): `rbp.p` and `rbp@p` select rbp with persistence `0.p` for every digit string `p`,
also with a level; `rbp` without persistence is rejected. -/
theorem C30_rbp (ds : Str) (hd : ∀ c ∈ ds, c.isDigit = true) (L : Nat) :
    (∀ sep, sep = '.' ∨ sep = '@' →
      extract other ("rbp".toList ++ sep :: ds) =
        .ok ("rbp".toList, .persistence ((Nat.ofDigitChars 10 ds 0 : α) / 10 ^ ds.length), 1) ∧
      extract other ("rbp".toList ++ sep :: ds ++ "-l".toList ++ natStr L) =
        .ok ("rbp".toList, .persistence ((Nat.ofDigitChars 10 ds 0 : α) / 10 ^ ds.length), (L : Int))) ∧
    extract other "rbp".toList = .error .valueError := by
  constructor
  · intro sep hsep
    have h := frac_parse other ds hd sep hsep
    refine ⟨h, extract_level other _ ?_ L _ _ h⟩
    intro hi
    have hns : sep ∉ "-l".toList := by rcases hsep with rfl | rfl <;> decide
    rcases infix_append_cons hns hi with h | h
    · have := (hasSub_iff _ _).2 h; revert this; decide
    · have := hd '-' (h.subset (by decide)); revert this; decide
  · unfold extract
    have h1 : hasSub "-l".toList "rbp".toList = false := by decide +kernel
    have h2 : hasSub "rbp".toList "rbp".toList = true := by decide +kernel
    rw [h1]
    simp only [Bool.false_eq_true, if_false]
    rw [h2]
    simp only [if_true]
    rw [if_neg (by decide), if_neg (by decide)]

/-! ### integer literals -/

/-- Specification: ASCII digits, at least one -/
def Spec.Digits (g : Str) : Prop := g ≠ [] ∧ ∀ c ∈ g, c.isDigit = true

/-- Specification: the strings Python's `int` accepts (with ASCII digits) and their value: blanks, an optional sign, groups of
digits separated by single underscores, blanks. -/
def Spec.IntLiteral (x : Str) (n : Int) : Prop :=
  ∃ (pre sign first post : Str) (rest : List Str), x = pre ++ (sign ++ (first ++ rest.flatMap (fun g => '_' :: g))) ++ post ∧
    (∀ c ∈ pre, isSpace c = true) ∧ (∀ c ∈ post, isSpace c = true) ∧ Spec.Digits first ∧
    (∀ g ∈ rest, Spec.Digits g) ∧
    ((sign = ['-'] ∧ n = -(Nat.ofDigitChars 10 (first ++ rest.flatten) 0 : Int)) ∨
      ((sign = [] ∨ sign = ['+']) ∧ n = (Nat.ofDigitChars 10 (first ++ rest.flatten) 0 : Int)))

theorem digits1_groups (g : Str) (rest : List Str) (hg : ∀ c ∈ g, c.isDigit = true)
    (hr : ∀ g ∈ rest, Spec.Digits g) : digits1 (g ++ rest.flatMap (fun g => '_' :: g)) = true := by
  induction rest generalizing g with
  | nil =>
    rw [List.flatMap_nil, List.append_nil]
    induction g with
    | nil => rfl
    | cons c g ih =>
      rw [digits1, hg c (by simp), ih (fun c hc => hg c (by simp [hc]))]; rfl
  | cons h rest ih =>
    induction g with
    | nil =>
      obtain ⟨hne, hd⟩ := hr h (by simp)
      cases h with
      | nil => exact absurd rfl hne
      | cons d h =>
        change digits1 ('_' :: (d :: h ++ rest.flatMap (fun g => '_' :: g))) = true
        rw [List.cons_append, digits1, digits0, hd d (by simp),
          ih h (fun c hc => hd c (by simp [hc])) (fun g hg => hr g (by simp [hg]))]
        simp
    | cons c g ihg =>
      rw [List.cons_append, digits1, hg c (by simp), ihg (fun c hc => hg c (by simp [hc]))]; rfl

theorem groups_of_digits (s : Str) :
    (digits0 s = true → ∃ (g : Str) (rest : List Str), Spec.Digits g ∧ (∀ g ∈ rest, Spec.Digits g) ∧
      s = g ++ rest.flatMap (fun g => '_' :: g)) ∧
    (digits1 s = true → ∃ (g : Str) (rest : List Str), (∀ c ∈ g, c.isDigit = true) ∧ (∀ g ∈ rest, Spec.Digits g) ∧
      s = g ++ rest.flatMap (fun g => '_' :: g)) := by
  induction s with
  | nil => exact ⟨(fun h => by rw [digits0] at h; cases h), fun _ => ⟨[], [], by simp, by simp, rfl⟩⟩
  | cons c t ih =>
    constructor
    · intro h
      rw [digits0, Bool.and_eq_true] at h
      obtain ⟨g, rest, h1, h2, rfl⟩ := ih.2 h.2
      refine ⟨c :: g, rest, ⟨by simp, fun x hx => ?_⟩, h2, rfl⟩
      rcases List.mem_cons.1 hx with rfl | hx
      · exact h.1
      · exact h1 x hx
    · intro h
      rw [digits1, Bool.or_eq_true, Bool.and_eq_true, Bool.and_eq_true] at h
      rcases h with h | h
      · obtain ⟨g, rest, h1, h2, rfl⟩ := ih.2 h.2
        refine ⟨c :: g, rest, fun x hx => ?_, h2, rfl⟩
        rcases List.mem_cons.1 hx with rfl | hx
        · exact h.1
        · exact h1 x hx
      · obtain ⟨g, rest, h1, h2, rfl⟩ := ih.1 h.2
        have : c = '_' := by simpa using h.1
        subst this
        refine ⟨[], g :: rest, by simp, fun x hx => ?_, rfl⟩
        rcases List.mem_cons.1 hx with rfl | hx
        · exact h1
        · exact h2 x hx

theorem filter_groups (g : Str) (rest : List Str) (hg : ∀ c ∈ g, c.isDigit = true)
    (hr : ∀ g ∈ rest, Spec.Digits g) :
    (g ++ rest.flatMap (fun g => '_' :: g)).filter (fun c => c != '_') = g ++ rest.flatten := by
  have key : ∀ g : Str, (∀ c ∈ g, c.isDigit = true) → g.filter (fun c => c != '_') = g := by
    intro g hg
    rw [List.filter_eq_self]
    intro c hc
    have := hg c hc
    by_cases he : c = '_'
    · subst he; exact absurd this (by decide)
    · simpa using he
  rw [List.filter_append, key g hg]
  congr 1
  induction rest with
  | nil => rfl
  | cons h rest ih =>
    rw [List.flatMap_cons, List.filter_append, List.flatten_cons, ih (fun g hg => hr g (by simp [hg])),
      List.filter_cons, if_neg (by decide), key h (hr h (by simp)).2]

theorem pyNat_iff (s : Str) (n : Nat) : pyNat s = some n ↔ ∃ (first : Str) (rest : List Str), Spec.Digits first ∧
    (∀ g ∈ rest, Spec.Digits g) ∧ s = first ++ rest.flatMap (fun g => '_' :: g) ∧
    n = Nat.ofDigitChars 10 (first ++ rest.flatten) 0 := by
  unfold pyNat
  constructor
  · intro h
    by_cases hd : digits0 s = true
    · rw [if_pos hd, Option.some.injEq] at h
      obtain ⟨g, rest, h1, h2, rfl⟩ := (groups_of_digits s).1 hd
      rw [filter_groups g rest h1.2 h2] at h
      exact ⟨g, rest, h1, h2, rfl, h.symm⟩
    · rw [if_neg hd] at h; cases h
  · rintro ⟨g, rest, h1, h2, rfl, rfl⟩
    obtain ⟨hne, hd⟩ := h1
    rw [filter_groups g rest hd h2]
    cases g with
    | nil => exact absurd rfl hne
    | cons c g =>
      rw [List.cons_append, digits0, hd c (by simp), digits1_groups g rest (fun c hc => hd c (by simp [hc])) h2]
      rfl

theorem strip_parts (x : Str) : ∃ pre post, x = pre ++ strip x ++ post ∧ (∀ c ∈ pre, isSpace c = true) ∧
    ∀ c ∈ post, isSpace c = true := by
  refine ⟨x.takeWhile isSpace, ((x.dropWhile isSpace).reverse.takeWhile isSpace).reverse, ?_, ?_, ?_⟩
  · unfold strip
    rw [List.append_assoc, ← List.reverse_append, List.takeWhile_append_dropWhile, List.reverse_reverse,
      List.takeWhile_append_dropWhile]
  · exact fun c hc => List.mem_takeWhile_imp hc
  · intro c hc
    exact List.mem_takeWhile_imp (List.mem_reverse.1 hc)

/-- nothing to strip when the first and the last character are not blanks -/
theorem strip_ends (s : Str) (h1 : ∀ c, s.head? = some c → isSpace c = false)
    (h2 : ∀ c, s.getLast? = some c → isSpace c = false) : strip s = s := by
  unfold strip
  rw [dropWhile_eq_self isSpace s h1, dropWhile_eq_self isSpace s.reverse
    (fun c hc => h2 c (by rw [List.head?_reverse] at hc; exact hc)), List.reverse_reverse]

theorem groups_all (first : Str) (rest : List Str) (h1 : Spec.Digits first) (h2 : ∀ g ∈ rest, Spec.Digits g) :
    ∀ c ∈ first ++ rest.flatMap (fun g => '_' :: g), c.isDigit = true ∨ c = '_' := by
  intro c hc
  rcases List.mem_append.1 hc with hc | hc
  · exact .inl (h1.2 c hc)
  · obtain ⟨g, hg, hc⟩ := List.mem_flatMap.1 hc
    rcases List.mem_cons.1 hc with rfl | hc
    · exact .inr rfl
    · exact .inl ((h2 g hg).2 c hc)

/-- **C30** (integer literals): the model's `int` accepts exactly the integer literals, with their value. -/
theorem pyInt_iff (x : Str) (n : Int) : pyInt x = some n ↔ Spec.IntLiteral x n := by
  have hsp : ∀ c : Char, c.isDigit = true ∨ c = '_' → isSpace c = false := by
    rintro c (h | rfl)
    · exact isDigit_not_space h
    · decide
  constructor
  · intro h
    obtain ⟨pre, post, e, h1, h2⟩ := strip_parts x
    unfold pyInt at h
    generalize strip x = t at h e
    have plain : ∀ (sign u : Str) (f : Nat → Int), t = sign ++ u → (pyNat u).map f = some n →
        (sign = ['-'] ∧ f = (fun n : Nat => -(n : Int)) ∨ (sign = [] ∨ sign = ['+']) ∧ f = (fun n : Nat => (n : Int))) →
        Spec.IntLiteral x n := by
      intro sign u f ht hu hf
      obtain ⟨v, hv, rfl⟩ := Option.map_eq_some_iff.1 hu
      obtain ⟨first, rest, g1, g2, rfl, rfl⟩ := (pyNat_iff u v).1 hv
      refine ⟨pre, sign, first, post, rest, by rw [e, ht], h1, h2, g1, g2, ?_⟩
      rcases hf with ⟨hs, rfl⟩ | ⟨hs, rfl⟩
      · exact .inl ⟨hs, rfl⟩
      · exact .inr ⟨hs, rfl⟩
    split at h
    · rename_i u
      exact plain ['-'] u _ rfl h (.inl ⟨rfl, rfl⟩)
    · rename_i u
      exact plain ['+'] u _ rfl h (.inr ⟨.inr rfl, rfl⟩)
    · exact plain [] t _ rfl h (.inr ⟨.inl rfl, rfl⟩)
  · rintro ⟨pre, sign, first, post, rest, rfl, h1, h2, g1, g2, hs⟩
    have hall := groups_all first rest g1 g2
    have hne : first ++ rest.flatMap (fun g => '_' :: g) ≠ [] := by
      intro h; exact g1.1 (List.append_eq_nil_iff.1 h).1
    obtain ⟨c0, w, hcw⟩ := List.exists_cons_of_ne_nil hne
    have hc0 : c0.isDigit = true := by
      obtain ⟨hne1, hd⟩ := g1
      cases first with
      | nil => exact absurd rfl hne1
      | cons c f =>
        rw [List.cons_append, List.cons.injEq] at hcw
        rw [← hcw.1]; exact hd c (by simp)
    have hpn : pyNat (first ++ rest.flatMap (fun g => '_' :: g)) =
        some (Nat.ofDigitChars 10 (first ++ rest.flatten) 0) :=
      (pyNat_iff _ _).2 ⟨first, rest, g1, g2, rfl, rfl⟩
    have hstrip : strip (pre ++ (sign ++ (first ++ rest.flatMap (fun g => '_' :: g))) ++ post) =
        sign ++ (first ++ rest.flatMap (fun g => '_' :: g)) := by
      rw [strip_pad h1 h2]
      apply strip_ends
      · intro c hc
        have hsign : sign = ['-'] ∨ sign = [] ∨ sign = ['+'] := by
          rcases hs with ⟨h, _⟩ | ⟨h, _⟩
          · exact .inl h
          · exact .inr h
        rcases hsign with rfl | rfl | rfl
        · cases hc; decide
        · exact hsp c (hall c (List.mem_of_head? hc))
        · cases hc; decide
      · intro c hc
        rw [List.getLast?_append_of_ne_nil _ hne] at hc
        exact hsp c (hall c (List.mem_of_getLast? hc))
    unfold pyInt
    rw [hstrip]
    rcases hs with ⟨rfl, rfl⟩ | ⟨rfl | rfl, rfl⟩
    · change (pyNat (first ++ rest.flatMap (fun g => '_' :: g))).map _ = _
      rw [hpn]; rfl
    · rw [List.nil_append]
      split
      · rename_i u he
        rw [hcw, List.cons.injEq] at he
        rw [he.1] at hc0; exact absurd hc0 (by decide)
      · rename_i u he
        rw [hcw, List.cons.injEq] at he
        rw [he.1] at hc0; exact absurd hc0 (by decide)
      · rw [hpn]; rfl
    · change (pyNat (first ++ rest.flatMap (fun g => '_' :: g))).map _ = _
      rw [hpn]; rfl

/-- **C30** (rejection): a cutoff or level that is not an integer literal is rejected. -/
theorem C30_rejects (m : Str) (hm : Spec.PlainName m) (x : Str) (hx : '@' ∉ x) (hn : ¬ ∃ n, Spec.IntLiteral x n)
    (hl : ¬ "-l".toList <:+: x) (hr : ¬ "rbp".toList <:+: x) :
    extract other (m ++ '@' :: x) = .error .valueError ∧
    extract other (m ++ "-l".toList ++ x) = .error .valueError := by
  have hp : pyInt x = none := by
    cases h : pyInt x with
    | none => rfl
    | some n => exact absurd ⟨n, (pyInt_iff x n).1 h⟩ hn
  have hpe : pyIntE x = .error .valueError := by unfold pyIntE; rw [hp]
  constructor
  · have h1 : hasSub "-l".toList (m ++ '@' :: x) = false := hasSub_false (fun h => by
      rcases infix_append_cons (by decide) h with h | h
      · exact hm.noLevel h
      · exact hl h)
    have h2 : hasSub "rbp".toList (m ++ '@' :: x) = false := hasSub_false (fun h => by
      rcases infix_append_cons (by decide) h with h | h
      · exact hm.noRbp h
      · exact hr h)
    unfold extract
    rw [h1]
    simp only [Bool.false_eq_true, if_false]
    rw [h2]
    simp only [Bool.false_eq_true, if_false]
    rw [splitChar_append _ _ _ hm.noAt, splitChar_of_notMem _ _ hx]
    simp only
    rw [hpe]
  · have e : m ++ "-l".toList ++ x = m ++ '-' :: 'l' :: x := by simp
    have h1 : hasSub "-l".toList (m ++ '-' :: 'l' :: x) = true := by
      rw [hasSub_iff]; exact ⟨m, x, by simp⟩
    unfold extract
    rw [e, h1, split2_append '-' 'l' (by decide) m _ hm.noLevel, split2_of_not_hasSub '-' 'l' x hl]
    simp only [if_true]
    rw [hasSub_false hm.noRbp]
    simp only [Bool.false_eq_true, if_false]
    rw [splitChar_of_notMem _ _ hm.noAt]
    simp only
    rw [hpe]

/-- **C30** (any way to write the number): whenever `x` is an integer literal with value `n`, in a metric string
`m@x` or `m-lx` it is the cutoff or the level `n`. -/
theorem C30_accepts (m : Str) (hm : Spec.PlainName m) (x : Str) (hx : '@' ∉ x) (n : Int) (hn : Spec.IntLiteral x n)
    (hl : ¬ "-l".toList <:+: x) (hr : ¬ "rbp".toList <:+: x) :
    extract other (m ++ '@' :: x) = .ok (m, .cutoff n, 1) ∧
    extract other (m ++ "-l".toList ++ x) = .ok (m, .cutoff 0, n) := by
  have hpe : pyIntE x = .ok n := by unfold pyIntE; rw [(pyInt_iff x n).2 hn]
  constructor
  · have h1 : hasSub "-l".toList (m ++ '@' :: x) = false := hasSub_false (fun h => by
      rcases infix_append_cons (by decide) h with h | h
      · exact hm.noLevel h
      · exact hl h)
    have h2 : hasSub "rbp".toList (m ++ '@' :: x) = false := hasSub_false (fun h => by
      rcases infix_append_cons (by decide) h with h | h
      · exact hm.noRbp h
      · exact hr h)
    unfold extract
    rw [h1]
    simp only [Bool.false_eq_true, if_false]
    rw [h2]
    simp only [Bool.false_eq_true, if_false]
    rw [splitChar_append _ _ _ hm.noAt, splitChar_of_notMem _ _ hx]
    simp only
    rw [hpe]
  · have e : m ++ "-l".toList ++ x = m ++ '-' :: 'l' :: x := by simp
    have h1 : hasSub "-l".toList (m ++ '-' :: 'l' :: x) = true := by
      rw [hasSub_iff]; exact ⟨m, x, by simp⟩
    unfold extract
    rw [e, h1, split2_append '-' 'l' (by decide) m _ hm.noLevel, split2_of_not_hasSub '-' 'l' x hl]
    simp only [if_true]
    rw [hasSub_false hm.noRbp]
    simp only [Bool.false_eq_true, if_false]
    rw [splitChar_of_notMem _ _ hm.noAt]
    simp only
    rw [hpe]

/-- Non-vacuity: ` +1_0 ` is an integer literal with value 10; `1__0`, the empty string and `ten` are none. -/
example : Spec.IntLiteral " +1_0 ".toList 10 ∧ (∀ n, ¬ Spec.IntLiteral "1__0".toList n) ∧
    (∀ n, ¬ Spec.IntLiteral [] n) ∧ ∀ n, ¬ Spec.IntLiteral "ten".toList n := by
  have h : pyInt " +1_0 ".toList = some 10 ∧ pyInt "1__0".toList = none ∧ pyInt [] = none ∧
      pyInt "ten".toList = none := by decide +kernel
  refine ⟨(pyInt_iff _ _).1 h.1, fun n hn => ?_, fun n hn => ?_, fun n hn => ?_⟩
  · have := (pyInt_iff _ _).2 hn; rw [h.2.1] at this; cases this
  · have := (pyInt_iff _ _).2 hn; rw [h.2.2.1] at this; cases this
  · have := (pyInt_iff _ _).2 hn; rw [h.2.2.2] at this; cases this

/-- the documented names and the metrics they stand for -/
def metricTable : List (Str × Metric) := [("hits".toList, Metric.hits), ("hit_rate".toList, .hitRate),
      ("precision".toList, .precision), ("recall".toList, .recall), ("f1".toList, .f1),
      ("r-precision".toList, .rPrecision), ("mrr".toList, .mrr), ("map".toList, .map),
      ("dcg".toList, .dcg), ("dcg_burges".toList, .dcgBurges), ("ndcg".toList, .ndcg),
      ("ndcg_burges".toList, .ndcgBurges), ("bpref".toList, .bpref), ("rbp".toList, .rbp)]

theorem metricSwitch_cases (m : Str) :
    (∃ f, (m, f) ∈ metricTable ∧ metricSwitch m = .ok f) ∨ metricSwitch m = .error .valueError := by
  unfold metricSwitch
  by_cases h0 : m = "hits".toList
  · rw [if_pos h0, h0]; exact .inl ⟨_, (.head _), rfl⟩
  rw [if_neg h0]
  by_cases h1 : m = "hit_rate".toList
  · rw [if_pos h1, h1]; exact .inl ⟨_, (.tail _ (.head _)), rfl⟩
  rw [if_neg h1]
  by_cases h2 : m = "precision".toList
  · rw [if_pos h2, h2]; exact .inl ⟨_, (.tail _ (.tail _ (.head _))), rfl⟩
  rw [if_neg h2]
  by_cases h3 : m = "recall".toList
  · rw [if_pos h3, h3]; exact .inl ⟨_, (.tail _ (.tail _ (.tail _ (.head _)))), rfl⟩
  rw [if_neg h3]
  by_cases h4 : m = "f1".toList
  · rw [if_pos h4, h4]; exact .inl ⟨_, (.tail _ (.tail _ (.tail _ (.tail _ (.head _))))), rfl⟩
  rw [if_neg h4]
  by_cases h5 : m = "r-precision".toList
  · rw [if_pos h5, h5]; exact .inl ⟨_, (.tail _ (.tail _ (.tail _ (.tail _ (.tail _ (.head _)))))), rfl⟩
  rw [if_neg h5]
  by_cases h6 : m = "mrr".toList
  · rw [if_pos h6, h6]; exact .inl ⟨_, (.tail _ (.tail _ (.tail _ (.tail _ (.tail _ (.tail _ (.head _))))))), rfl⟩
  rw [if_neg h6]
  by_cases h7 : m = "map".toList
  · rw [if_pos h7, h7]; exact .inl ⟨_, (.tail _ (.tail _ (.tail _ (.tail _ (.tail _ (.tail _ (.tail _ (.head _)))))))), rfl⟩
  rw [if_neg h7]
  by_cases h8 : m = "dcg".toList
  · rw [if_pos h8, h8]; exact .inl ⟨_, (.tail _ (.tail _ (.tail _ (.tail _ (.tail _ (.tail _ (.tail _ (.tail _ (.head _))))))))), rfl⟩
  rw [if_neg h8]
  by_cases h9 : m = "dcg_burges".toList
  · rw [if_pos h9, h9]; exact .inl ⟨_, (.tail _ (.tail _ (.tail _ (.tail _ (.tail _ (.tail _ (.tail _ (.tail _ (.tail _ (.head _)))))))))), rfl⟩
  rw [if_neg h9]
  by_cases h10 : m = "ndcg".toList
  · rw [if_pos h10, h10]; exact .inl ⟨_, (.tail _ (.tail _ (.tail _ (.tail _ (.tail _ (.tail _ (.tail _ (.tail _ (.tail _ (.tail _ (.head _))))))))))), rfl⟩
  rw [if_neg h10]
  by_cases h11 : m = "ndcg_burges".toList
  · rw [if_pos h11, h11]; exact .inl ⟨_, (.tail _ (.tail _ (.tail _ (.tail _ (.tail _ (.tail _ (.tail _ (.tail _ (.tail _ (.tail _ (.tail _ (.head _)))))))))))), rfl⟩
  rw [if_neg h11]
  by_cases h12 : m = "bpref".toList
  · rw [if_pos h12, h12]; exact .inl ⟨_, (.tail _ (.tail _ (.tail _ (.tail _ (.tail _ (.tail _ (.tail _ (.tail _ (.tail _ (.tail _ (.tail _ (.tail _ (.head _))))))))))))), rfl⟩
  rw [if_neg h12]
  by_cases h13 : m = "rbp".toList
  · rw [if_pos h13, h13]; exact .inl ⟨_, (.tail _ (.tail _ (.tail _ (.tail _ (.tail _ (.tail _ (.tail _ (.tail _ (.tail _ (.tail _ (.tail _ (.tail _ (.tail _ (.head _)))))))))))))), rfl⟩
  rw [if_neg h13]
  exact .inr rfl

/-- **C30** (unknown names): a name outside the list is rejected, and each listed name selects its own
metric. -/
theorem C30_switch (m : Str) :
    (∀ f, metricSwitch m = .ok f ↔ (m, f) ∈ metricTable) ∧
    ∀ e, metricSwitch m = .error e → e = .valueError := by
  constructor
  · intro f
    constructor
    · intro h
      rcases metricSwitch_cases m with ⟨g, hg, hs⟩ | hs
      · rw [hs] at h; cases h; exact hg
      · rw [hs] at h; cases h
    · intro h
      have key : ∀ p ∈ metricTable, metricSwitch p.1 = .ok p.2 := by decide +kernel
      exact key (m, f) h
  · intro e h
    rcases metricSwitch_cases m with ⟨g, hg, hs⟩ | hs
    · rw [hs] at h; cases h
    · rw [hs] at h; cases h; rfl

/-- **C30 refuted for some malformed strings**: extra parts are silently ignored instead of rejected;
`hits@5@7` means `hits@5`, `rbp.9.5` means `rbp.9`, and the level may be negative. -/
theorem C30_extra_parts_ignored :
    let other : Str → Except Err ℚ := fun _ => .error .valueError
    extract other "hits@5@7".toList = .ok ("hits".toList, .cutoff 5, 1) ∧
    extract other "rbp.9.5".toList = .ok ("rbp".toList, .persistence (9 / 10), 1) ∧
    extract other "hits@5-l-2".toList = .ok ("hits".toList, .cutoff 5, -2) := by
  decide +kernel

end Ranx
