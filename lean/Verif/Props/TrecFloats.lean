import Verif.Model.FloatTextX
import Verif.Props.FloatText4
import Verif.Props.BytesRun
import Verif.Props.Files

/-!
# C135: scores in TREC files

`float(text)` accepts exactly the texts of the documentation, and a TREC file gives back every float64 score, infinities
and NaN included, from its bytes.
-/

set_option linter.unusedSectionVars false

namespace Ranx
open Dict Store FText Files Special Special.X Byt
open Py

/-! ## Specification -/

/-- `t` is `s` without its underscores, each of which is between two digits -/
def Spec.Underscored (s t : Str) : Prop :=
  t = s.filter (fun c => c != '_') ∧
  ∀ a b, s = a ++ '_' :: b → (∃ a' c, a = a' ++ [c] ∧ c.isDigit = true) ∧ ∃ d b', b = d :: b' ∧ d.isDigit = true

/-- the texts of Python's `float` and their values: decimals, rounded to the nearest float64 (infinite from `2 ^ 1024`
on), and `inf`, `infinity`, `nan` in any case, with an optional sign -/
inductive Spec.PyFloatText : Str → X ℚ → Prop
  | number (t : Str) (x : ℚ) : Spec.DecimalText t x → |rd x| < 2 ^ 1024 → Spec.PyFloatText t (.fin (rd x))
  | large (t : Str) (x : ℚ) : Spec.DecimalText t x → 2 ^ 1024 ≤ |rd x| → 0 < x → Spec.PyFloatText t .pinf
  | small (t : Str) (x : ℚ) : Spec.DecimalText t x → 2 ^ 1024 ≤ |rd x| → x < 0 → Spec.PyFloatText t .ninf
  | inf (s w : Str) (σ : ℤ) : Spec.SignText s σ → w.map Char.toLower = "inf".toList ∨ w.map Char.toLower = "infinity".toList →
      Spec.PyFloatText (s ++ w) (if σ = 1 then .pinf else .ninf)
  | nan (s w : Str) (σ : ℤ) : Spec.SignText s σ → w.map Char.toLower = "nan".toList → Spec.PyFloatText (s ++ w) .nan

namespace FText

theorem unscore_cons_us (prev : Bool) (t : Str) : unscore prev ('_' :: t) =
    match t with | [] => none | d :: _ => if prev && d.isDigit then unscore false t else none := by
  cases t with
  | nil => simp [unscore]
  | cons d t => rw [unscore.eq_def]; simp only; rw [if_pos trivial]

theorem unscore_cons (prev : Bool) {c : Char} (hc : c ≠ '_') (t : Str) :
    unscore prev (c :: t) = (unscore c.isDigit t).map (fun u => c :: u) := by
  rw [unscore.eq_def]
  simp only
  rw [if_neg hc]

/-- as `Spec.Underscored`, after a character that is a digit if `prev` -/
def UnderAfter (prev : Bool) (s : Str) : Prop :=
  ∀ a b, s = a ++ '_' :: b → ((a = [] ∧ prev = true) ∨ ∃ a' c, a = a' ++ [c] ∧ c.isDigit = true) ∧
    ∃ d b', b = d :: b' ∧ d.isDigit = true

theorem unscore_iff (s : Str) : ∀ (prev : Bool) (t : Str),
    unscore prev s = some t ↔ t = s.filter (fun c => c != '_') ∧ UnderAfter prev s := by
  induction s with
  | nil =>
    intro prev t
    constructor
    · intro h
      rw [unscore, Option.some.injEq] at h
      subst h
      exact ⟨rfl, fun a b h => by cases a <;> cases h⟩
    · rintro ⟨rfl, -⟩; rfl
  | cons c r ih =>
    intro prev t
    by_cases hc : c = '_'
    · subst hc
      rw [unscore_cons_us]
      cases r with
      | nil =>
        constructor
        · intro h; cases h
        · rintro ⟨-, h⟩
          obtain ⟨-, d, b', h2, -⟩ := h [] [] rfl
          cases h2
      | cons d r =>
        simp only
        by_cases hd : (prev && d.isDigit) = true
        · rw [if_pos hd, ih]
          rw [Bool.and_eq_true] at hd
          have e : ('_' :: d :: r).filter (fun c => c != '_') = (d :: r).filter (fun c => c != '_') := by
            rw [List.filter_cons_of_neg (by simp)]
          rw [e]
          refine and_congr_right (fun _ => ?_)
          have hdu : d ≠ '_' := by rintro rfl; exact absurd hd.2 (by decide)
          constructor
          · intro h a b hab
            cases a with
            | nil =>
              rw [List.nil_append, List.cons.injEq] at hab
              exact ⟨.inl ⟨rfl, hd.1⟩, d, r, hab.2.symm, hd.2⟩
            | cons x a =>
              rw [List.cons_append, List.cons.injEq] at hab
              obtain ⟨rfl, hab⟩ := hab
              obtain ⟨h1, h2⟩ := h a b hab
              refine ⟨.inr ?_, h2⟩
              rcases h1 with ⟨rfl, h1⟩ | ⟨a', c, rfl, h1⟩
              · cases h1
              · exact ⟨'_' :: a', c, rfl, h1⟩
          · intro h a b hab
            obtain ⟨h1, h2⟩ := h ('_' :: a) b (by rw [hab]; rfl)
            refine ⟨.inr ?_, h2⟩
            rcases h1 with ⟨h1, -⟩ | ⟨a', c, h1, hcd⟩
            · cases h1
            · cases a' with
              | nil =>
                rw [List.nil_append, List.cons.injEq] at h1
                obtain ⟨rfl, -⟩ := h1
                exact absurd hcd (by decide)
              | cons y a' =>
                rw [List.cons_append, List.cons.injEq] at h1
                exact ⟨a', c, h1.2, hcd⟩
        · rw [if_neg hd]
          constructor
          · intro h; cases h
          · rintro ⟨-, h⟩
            obtain ⟨h1, d', b', h2, h3⟩ := h [] (d :: r) rfl
            rw [List.cons.injEq] at h2
            obtain ⟨rfl, -⟩ := h2
            rcases h1 with ⟨-, h1⟩ | ⟨a', c, h1, -⟩
            · exact absurd (by rw [h1, h3]; rfl) hd
            · cases a' <;> cases h1
    · rw [unscore_cons prev hc]
      have e : (c :: r).filter (fun c => c != '_') = c :: r.filter (fun c => c != '_') := by
        rw [List.filter_cons_of_pos (by simpa using hc)]
      rw [e]
      have hiff : UnderAfter prev (c :: r) ↔ UnderAfter c.isDigit r := by
        constructor
        · intro h a b hab
          obtain ⟨h1, h2⟩ := h (c :: a) b (by rw [hab]; rfl)
          refine ⟨?_, h2⟩
          rcases h1 with ⟨h1, -⟩ | ⟨a', x, h1, hx⟩
          · cases h1
          · cases a' with
            | nil =>
              rw [List.nil_append, List.cons.injEq] at h1
              exact .inl ⟨h1.2, h1.1 ▸ hx⟩
            | cons y a' =>
              rw [List.cons_append, List.cons.injEq] at h1
              exact .inr ⟨a', x, h1.2, hx⟩
        · intro h a b hab
          cases a with
          | nil =>
            rw [List.nil_append, List.cons.injEq] at hab
            exact absurd hab.1 hc
          | cons x a =>
            rw [List.cons_append, List.cons.injEq] at hab
            obtain ⟨rfl, hab⟩ := hab
            obtain ⟨h1, h2⟩ := h a b hab
            refine ⟨.inr ?_, h2⟩
            rcases h1 with ⟨rfl, h1⟩ | ⟨a', y, rfl, h1⟩
            · exact ⟨[], c, rfl, h1⟩
            · exact ⟨c :: a', y, rfl, h1⟩
      rw [hiff]
      constructor
      · intro h
        obtain ⟨u, hu, rfl⟩ := Option.map_eq_some_iff.1 h
        obtain ⟨rfl, h2⟩ := (ih _ _).1 hu
        exact ⟨rfl, h2⟩
      · rintro ⟨rfl, h2⟩
        rw [(ih _ _).2 ⟨rfl, h2⟩]; rfl

theorem unscore_spec (s t : Str) : unscore false s = some t ↔ Spec.Underscored s t := by
  rw [unscore_iff]
  unfold Spec.Underscored
  refine and_congr_right (fun _ => ?_)
  constructor
  · intro h a b hab
    obtain ⟨h1, h2⟩ := h a b hab
    rcases h1 with ⟨-, h1⟩ | h1
    · cases h1
    · exact ⟨h1, h2⟩
  · intro h a b hab
    exact ⟨.inr (h a b hab).1, (h a b hab).2⟩

theorem toLower_head {w : Str} {c : Char} {r : Str} (h : w.map Char.toLower = c :: r) :
    ∃ x t, w = x :: t ∧ x.toLower = c := by
  cases w with
  | nil => cases h
  | cons x t =>
    rw [List.map_cons, List.cons.injEq] at h
    exact ⟨x, t, rfl, h.1⟩

theorem toLower_digit {c : Char} (h : c.isDigit = true) : c.toLower = c := by
  have h1 : 48 ≤ c.val ∧ c.val ≤ 57 := by
    unfold Char.isDigit at h
    simpa using h
  unfold Char.toLower
  rw [dif_neg]
  intro h2
  have := UInt32.le_iff_toNat_le.1 h1.2
  have h3 := UInt32.le_iff_toNat_le.1 h2.1
  simp at this h3
  omega

/-- a word that starts with `i` or `n` in any case is not the start of a number -/
theorem split_word {s w : Str} {σ : ℤ} (hs : Spec.SignText s σ) {c : Char} {r : Str} (hw : w.map Char.toLower = c :: r)
    (hc : c = 'i' ∨ c = 'n') : signOf (s ++ w) = (if s = [] then none else s.head?, w) ∧ split (s ++ w) = none := by
  obtain ⟨x, t, rfl, hx⟩ := toLower_head hw
  have ne : ∀ y : Char, y.toLower ≠ 'i' → y.toLower ≠ 'n' → x ≠ y := by
    rintro y h1 h2 rfl
    rcases hc with rfl | rfl
    · exact h1 hx
    · exact h2 hx
  have hd : x.isDigit = false := by
    by_contra h
    rw [Bool.not_eq_false] at h
    rw [toLower_digit h] at hx
    subst hx
    rcases hc with rfl | rfl <;> exact absurd h (by decide)
  have e1 : signOf (s ++ x :: t) = (if s = [] then none else s.head?, x :: t) := by
    cases hs with
    | none =>
      have : ¬ (x = '-' ∨ x = '+') := by
        rintro (h | h)
        · exact ne '-' (by decide) (by decide) h
        · exact ne '+' (by decide) (by decide) h
      simp only [List.nil_append, signOf]
      rw [if_neg this]; rfl
    | plus => rfl
    | minus => rfl
  refine ⟨e1, ?_⟩
  unfold split
  simp only [e1]
  have e2 : (x :: t).dropWhile Char.isDigit = x :: t := by rw [List.dropWhile_cons, if_neg (by rw [hd]; decide)]
  rw [e2]
  have e3 : fracOf (x :: t) = (none, x :: t) := by
    simp only [fracOf]
    rw [if_neg (ne '.' (by decide) (by decide))]
  rw [e3]
  simp only [expOf]
  rw [if_neg (by
    rintro (h | h)
    · exact ne 'e' (by decide) (by decide) h
    · exact ne 'E' (by decide) (by decide) h)]

theorem signOf_parts (s : Str) : ∃ g σ, s = g ++ (signOf s).2 ∧ Spec.SignText g σ ∧ (σ = 1 ↔ (signOf s).1 ≠ some '-') := by
  cases s with
  | nil => exact ⟨[], 1, rfl, .none, by simp [signOf]⟩
  | cons c t =>
    simp only [signOf]
    split_ifs with h
    · rcases h with rfl | rfl
      · exact ⟨['-'], -1, rfl, .minus, by simp⟩
      · exact ⟨['+'], 1, rfl, .plus, by simp⟩
    · exact ⟨[], 1, rfl, .none, by simp⟩

theorem toFloatX_spec {t : Str} {x : ℚ} (h : Spec.DecimalText t x) : Spec.PyFloatText t (toFloatX x) := by
  unfold toFloatX
  split_ifs with h1 h2
  · exact .number t x h h1
  · exact .small t x h (not_lt.1 h1) h2
  · refine .large t x h (not_lt.1 h1) (lt_of_le_of_ne (not_lt.1 h2) ?_)
    rintro rfl
    refine h1 ?_
    rw [rd_zero, abs_zero]
    exact pow_pos (by norm_num) _

end FText

/-- **C135** (reading): `float(text)` accepts exactly the texts of Python's documentation, with white space around them
and underscores between digits, and returns their values. -/
theorem C135_reading (t : Str) (v : X ℚ) :
    pyFloatX t = some v ↔ ∃ u, Spec.Underscored (strip t) u ∧ Spec.PyFloatText u v := by
  unfold pyFloatX
  constructor
  · intro h
    cases hu : unscore false (strip t) with
    | none => rw [hu] at h; cases h
    | some u =>
      rw [hu] at h
      simp only at h
      refine ⟨u, (unscore_spec _ _).1 hu, ?_⟩
      cases hs : split u with
      | some p =>
        rw [hs] at h
        simp only at h
        split_ifs at h with hok
        rw [Option.some.injEq] at h
        obtain ⟨h1, h2⟩ := split_spec hs
        rw [← h]
        exact toFloatX_spec ((decimal_iff _ _).2 ⟨p, h1, hok, h2, rfl⟩)
      | none =>
        rw [hs] at h
        simp only at h
        unfold special at h
        simp only at h
        obtain ⟨g, σ, e, hg, hσ⟩ := signOf_parts u
        split_ifs at h with h1 h2 h3
        · rw [Option.some.injEq] at h
          have := Spec.PyFloatText.inf g _ σ hg h1
          rwa [← e, if_neg (by rw [hσ]; exact fun hh => hh h2), h] at this
        · rw [Option.some.injEq] at h
          have := Spec.PyFloatText.inf g _ σ hg h1
          rwa [← e, if_pos (by rw [hσ]; exact h2), h] at this
        · rw [Option.some.injEq] at h
          have := Spec.PyFloatText.nan g _ σ hg h3
          rwa [← e, h] at this
  · rintro ⟨u, hu, h⟩
    rw [(unscore_spec _ _).2 hu]
    simp only
    have dec : ∀ x, Spec.DecimalText u x → ∃ p, split u = some p ∧ p.pyOk = true ∧ p.value = x := by
      intro x hx
      obtain ⟨p, h1, h2, h3, rfl⟩ := (decimal_iff _ _).1 hx
      exact ⟨p, by rw [h3, split_text h1], h2, rfl⟩
    cases h with
    | number _ x hx hlt =>
      obtain ⟨p, e1, e2, e3⟩ := dec x hx
      rw [e1]
      simp only
      rw [if_pos e2, e3]
      unfold toFloatX
      rw [if_pos hlt]
    | large _ x hx hge hpos =>
      obtain ⟨p, e1, e2, e3⟩ := dec x hx
      rw [e1]
      simp only
      rw [if_pos e2, e3]
      unfold toFloatX
      rw [if_neg (not_lt.2 hge), if_neg (not_lt.2 hpos.le)]
    | small _ x hx hge hneg =>
      obtain ⟨p, e1, e2, e3⟩ := dec x hx
      rw [e1]
      simp only
      rw [if_pos e2, e3]
      unfold toFloatX
      rw [if_neg (not_lt.2 hge), if_pos hneg]
    | inf s w σ hs hw =>
      obtain ⟨c, r, hc, e⟩ : ∃ c r, w.map Char.toLower = c :: r ∧ c = 'i' := by
        rcases hw with h | h
        · exact ⟨_, _, h, rfl⟩
        · exact ⟨_, _, h, rfl⟩
      obtain ⟨e1, e2⟩ := split_word hs hc (.inl e)
      rw [e2]
      simp only
      unfold special
      simp only [e1]
      rw [if_pos hw]
      cases hs with
      | none => rfl
      | plus => rfl
      | minus => rfl
    | nan s w σ hs hw =>
      obtain ⟨e1, e2⟩ := split_word hs hw (.inr rfl)
      rw [e2]
      simp only
      unfold special
      simp only [e1]
      rw [hw, if_neg (by decide), if_pos rfl]

namespace FText

theorem unscore_id {s : Str} (h : '_' ∉ s) : unscore false s = some s := by
  rw [unscore_spec]
  refine ⟨(List.filter_eq_self.2 ?_).symm, ?_⟩
  · intro c hc
    have : c ≠ '_' := fun e => h (e ▸ hc)
    simpa using this
  · rintro a b rfl
    exact absurd (by simp) h

theorem pyFloatX_of {s : Str} {y : ℚ} (h : '_' ∉ strip s) (hy : pyFloat s = some y) : pyFloatX s = some (.fin y) := by
  unfold pyFloat at hy
  unfold pyFloatX
  rw [unscore_id h]
  simp only
  cases hs : split (strip s) with
  | none => rw [hs] at hy; cases hy
  | some p =>
    rw [hs] at hy
    simp only at hy ⊢
    split_ifs at hy with hok
    rw [if_pos hok]
    unfold toFloat at hy
    split_ifs at hy with hlt
    rw [Option.some.injEq] at hy
    unfold toFloatX
    rw [if_pos hlt, hy]

end FText

/-- **C135** (scores): every float64, infinities and NaN included, written by `f"{x}"` is read back by `float`. -/
theorem C135_roundtrip (x : X ℚ) (h : ∀ v, x = .fin v → Spec.Binary64 v) : pyFloatX (reprX x) = some x := by
  cases x with
  | fin v =>
    have hv := h v rfl
    have hc := floatStr_chars .python ((isFloat_iff v).2 hv)
    refine pyFloatX_of ?_ (C126_roundtrip .python hv).1
    have : strip (floatStr .python v) = floatStr .python v := strip_eq_self _ hc.2.1
    change '_' ∉ strip (floatStr .python v)
    rw [this]
    intro hm
    exact absurd (hc.2.2.1 _ hm) (by decide)
  | pinf => decide +kernel
  | ninf => decide +kernel
  | nan => decide +kernel

/-- the texts of scores; rational numbers that are not floats, which do not occur, get texts of their own -/
def FText.pyTextX : FloatText (X ℚ) where
  show' x := match x with
    | .fin v => pyText.show' v
    | x => reprX x
  parse s := if s.head? = some 'e' then (pyText.parse s).map .fin else pyFloatX s
  parse_show x := by
    cases x with
    | fin v =>
      simp only
      by_cases h : IsFloat v
      · have e : pyText.show' v = reprX (.fin v) := if_pos h
        rw [e, if_neg (show (reprX (.fin v)).head? ≠ some 'e' from (floatStr_chars .python h).2.2.2)]
        exact C135_roundtrip _ (by rintro w ⟨⟩; exact (isFloat_iff v).1 h)
      · have e : (pyText.show' v).head? = some 'e' := by
          show (if IsFloat v then _ else _ : Str).head? = _
          rw [if_neg h]; rfl
        rw [if_pos e, pyText.parse_show]; rfl
    | pinf => decide +kernel
    | ninf => decide +kernel
    | nan => decide +kernel
  ne_nil x := by
    cases x with
    | fin v => exact pyText.ne_nil v
    | _ => decide
  noSpace x := by
    cases x with
    | fin v => exact pyText.noSpace v
    | _ => decide

/-- **C135**: on float64 scores, the texts in the files are those of Python. -/
theorem C135_python_text : (∀ x : X ℚ, (∀ v, x = .fin v → Spec.Binary64 v) → pyTextX.show' x = reprX x) ∧
    ∀ s, s.head? ≠ some 'e' → pyTextX.parse s = pyFloatX s := by
  constructor
  · intro x h
    cases x with
    | fin v => exact if_pos ((isFloat_iff v).2 (h v rfl))
    | _ => rfl
  · intro s hs
    exact if_neg hs

/-- **C135** (files): a run with float64 scores, infinities and NaN included, whose ids and name are words, saved in the
TREC format and loaded from the bytes of the file has the same docs with the same scores, is ranked, and has its name
(or the one given).  Exactly the queries without docs are lost. -/
theorem C135_trec (S S' : ArgSort (X ℚ)) (r : RunFile (X ℚ)) (hs : Reachable S r.store) (given : Option Str)
    (hids : Spec.WordIds r.store) (hn : Files.Spec.Word (nameText r.name)) (hne : ∃ p ∈ r.store.data, p.2 ≠ []) :
    ∃ r', runOfTrec pyTextX S' given (trecBytes pyTextX S r) = .ok r' ∧
      r'.name = some (given.getD (nameText r.name)) ∧ Reachable S' r'.store ∧
      (∀ q x, (Spec.content r'.store).read q x = (Spec.content r.store).read q x) ∧
      (∀ q, q ∈ r'.store.data.keys ↔ ∃ inner, r.store.data.get? q = some inner ∧ inner ≠ []) ∧
      (∀ p ∈ r'.store.data, p.2.Pairwise (fun a b => Spec.FloatAtLeast a.2 b.2)) ∧
      r'.store.data.keys.Pairwise (· < ·) := by
  have hw := hs.wf
  obtain ⟨hw', hc⟩ := sorted_cont S hw
  have hget : ∀ q i, (r.store.ensureSorted S).data.get? q = some i → ∃ j, r.store.data.get? q = some j ∧
      ∀ x, i.get? x = j.get? x := by
    intro q i hi
    have := congrFun hc q
    simp only [Store.cont, hi, Option.map_some] at this
    cases h' : r.store.data.get? q with
    | none => rw [h'] at this; cases this
    | some j =>
      rw [h'] at this
      simp only [Option.map_some, Option.some.injEq] at this
      exact ⟨j, rfl, fun x => congrFun this x⟩
  have hids' : Spec.WordIds (r.store.ensureSorted S) := by
    intro p hp
    obtain ⟨j, h1, h2⟩ := hget p.1 p.2 (get?_of_mem hw'.1 (show (p.1, p.2) ∈ _ from hp))
    refine ⟨(hids _ (mem_of_get? h1)).1, ?_⟩
    intro e he
    have hk : e.1 ∈ keys p.2 := List.mem_map.2 ⟨e, he, rfl⟩
    rw [← get?_isSome, h2, Option.isSome_iff_exists] at hk
    obtain ⟨v, hv⟩ := hk
    exact (hids _ (mem_of_get? h1)).2 (e.1, v) (mem_of_get? hv)
  have hne' := Jsn.nonempty_of_cont hw hc hne
  have hw2 := wf_nonEmpty hw'
  have hof := (ofDict_eq S' _ hw2).trans (if_neg (nonEmpty_not_all hne'))
  obtain ⟨r1, r2⟩ := Special.sortAll_ranked S' hw2
  refine ⟨⟨some (given.getD (nameText r.name)), ⟨sortAll S' (nonEmpty (r.store.ensureSorted S).data), true⟩⟩, ?_, rfl,
    .ofDict _ _ hw2.1 hw2.2 hof, ?_, ?_, r1, r2⟩
  · unfold runOfTrec trecBytes
    rw [(C132_roundtrip _ _).2 rfl]
    simp only
    obtain ⟨n, hp, hnn⟩ := parse_saved_run pyTextX (nameText r.name) given (r.store.ensureSorted S) hw' hn hids'
    unfold runOfText
    rw [hp]
    simp only
    rw [hof, hnn hne']
  · intro q x
    rw [content_eq, content_eq]
    show (Store.cont (sortAll S' _)).read q x = _
    rw [cont_sortAll S' hw2, read_nonEmpty hw', hc]
  · intro q
    show q ∈ keys (sortAll S' _) ↔ _
    rw [mem_keys_sortAll S' hw2.1, mem_keys_nonEmpty hw']
    have hcq := congrFun hc q
    simp only [Store.cont] at hcq
    constructor
    · rintro ⟨i, hi, hne⟩
      rw [hi] at hcq
      obtain ⟨j, hj, he⟩ := Option.map_eq_some_iff.1 hcq.symm
      refine ⟨j, hj, fun h0 => hne ?_⟩
      rw [h0] at he
      exact (eq_nil_iff_get? _).2 (fun x => (congrFun he x).symm)
    · rintro ⟨i, hi, hne⟩
      rw [hi] at hcq
      obtain ⟨j, hj, he⟩ := Option.map_eq_some_iff.1 hcq
      refine ⟨j, hj, fun h0 => hne ?_⟩
      rw [h0] at he
      exact (eq_nil_iff_get? _).2 (fun x => (congrFun he x).symm)

/-- a run with a nan, an infinite and an ordinary score -/
def exTrecRun : RunFile (X ℚ) :=
  ⟨some "bm25".toList, ⟨[("q1".toList, [("dé".toList, .pinf), ("d2".toList, .fin (5 / 2)), ("d3".toList, .ninf),
    ("d4".toList, .nan)])], true⟩⟩

theorem exTrecRun_reachable : Reachable (ArgSort.stable (X ℚ)) exTrecRun.store := by
  have h : Store.ofDict (ArgSort.stable (X ℚ)) exTrecRun.store.data = .ok exTrecRun.store := by decide +kernel
  exact .ofDict _ _ (by unfold Dict.NodupKeys; decide +kernel) (by unfold Dict.NodupKeys; decide +kernel) h

/-- non-vacuity: the bytes, and the file read back; texts `float` accepts and rejects -/
example : (∃ r', runOfTrec pyTextX (ArgSort.stable _) none (trecBytes pyTextX (ArgSort.stable _) exTrecRun) = .ok r' ∧
      (Spec.content r'.store).read "q1".toList "d3".toList = some .ninf ∧
      (Spec.content r'.store).read "q1".toList "dé".toList = some .pinf) ∧
    trecBytes pyTextX (ArgSort.stable _) exTrecRun =
      utf8 "q1 Q0 dé 1 inf bm25\nq1 Q0 d2 2 2.5 bm25\nq1 Q0 d3 3 -inf bm25\nq1 Q0 d4 4 nan bm25".toList ∧
    pyFloatX " 1_000.5e-1 ".toList = some (.fin (rd (10005 / 100))) ∧ pyFloatX "-Infinity".toList = some .ninf ∧
    pyFloatX "+nAn".toList = some .nan ∧ pyFloatX "1__0".toList = none ∧ pyFloatX "_1".toList = none ∧
    pyFloatX "infin".toList = none ∧ pyFloatX "1e".toList = none := by
  refine ⟨?_, ?_, by decide +kernel, by decide +kernel, by decide +kernel, by decide +kernel, by decide +kernel,
    by decide +kernel, by decide +kernel⟩
  · obtain ⟨r', h1, -, -, h2, -⟩ := C135_trec (ArgSort.stable _) (ArgSort.stable _) exTrecRun exTrecRun_reachable none
      (by unfold Spec.WordIds Files.Spec.Word; decide +kernel) (by unfold Files.Spec.Word; decide +kernel)
      (by decide +kernel)
    refine ⟨r', h1, ?_, ?_⟩ <;> rw [h2] <;> decide +kernel
  · decide +kernel

end Ranx
