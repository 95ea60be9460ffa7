import Verif.Model.Latex
import Verif.Props.Labels
import Verif.Props.Report3
import Verif.Model.Format
import Mathlib.Data.List.TakeWhile

/-!
# Property C108: the LaTeX table that is written
-/

set_option linter.unusedSectionVars false

namespace Ranx
open Dict Py Rep Eval Metrics Stat

/-! ### specification: how LaTeX reads the body of a `tabular` -/

/-- Specification: the body of a `tabular` is cut at `\\` into rows and at `&` into cells; `\` and the character after
it belong together (`esc`: the previous character was an unfinished `\`). The last row is not ended by `\\`. -/
def Spec.texScan : Bool → Str → Str → List Str → List (List Str) × List Str
  | _, [], cell, row => ([], row ++ [cell])
  | true, c :: t, cell, row =>
    if c = '\\' then ((row ++ [cell]) :: (Spec.texScan false t [] []).1, (Spec.texScan false t [] []).2)
    else Spec.texScan false t (cell ++ ['\\', c]) row
  | false, c :: t, cell, row =>
    if c = '\\' then Spec.texScan true t cell row
    else if c = '&' then Spec.texScan false t [] (row ++ [cell])
    else Spec.texScan false t (cell ++ [c]) row

/-- Specification: leave out a horizontal rule -/
def Spec.dropRule (rule s : Str) : Str := if rule.isPrefixOf s then s.drop rule.length else s

/-- Specification: the cells of a row, without surrounding spaces and without the rule above the row -/
def Spec.texRow : List Str → List Str
  | [] => []
  | x :: xs => strip (Spec.dropRule "\\midrule".toList (Spec.dropRule "\\toprule".toList (strip x))) :: xs.map strip

/-- Specification: the rows of a table, and what is left after the last one -/
def Spec.texTable (s : Str) : List (List Str) × List Str :=
  ((Spec.texScan false s [] []).1.map Spec.texRow, Spec.texRow (Spec.texScan false s [] []).2)

/-- Specification: text in which every `_` is escaped -/
def Spec.texEscape (s : Str) : Str := s.flatMap (fun c => if c = '_' then ['\\', '_'] else [c])

/-- Specification: a superscript, if there is any -/
def Spec.texSup (s : Str) : Str := if s = [] then [] else "$^{".toList ++ s ++ "}$".toList

/-- Specification: a cell: the score, bold or not, its superscript, and the space of the letters not shown -/
def Spec.texCell (c : Cell) : Str :=
  (if c.bold then "\\textbf{".toList ++ c.score ++ "}".toList else c.score) ++ Spec.texSup c.superscript ++
    "\\hphantom{".toList ++ Spec.texSup c.phantoms ++ "}".toList

/-- Specification: no character is special in LaTeX, except `_` -/
def Spec.TexName (s : Str) : Prop := ∀ c ∈ s, c ∉ ['\\', '&', '$', '%', '#', '{', '}', '~', '^']

/-! ### reading -/

/-- the reader takes the text over into the current cell -/
def inertB : Bool → Str → Bool
  | esc, [] => !esc
  | true, c :: t => c != '\\' && inertB false t
  | false, c :: t => if c = '\\' then inertB true t else c != '&' && inertB false t

theorem texScan_inert : ∀ (x t cell : Str) (row : List Str),
    (inertB false x = true → Spec.texScan false (x ++ t) cell row = Spec.texScan false t (cell ++ x) row) ∧
    (inertB true x = true → Spec.texScan true (x ++ t) cell row = Spec.texScan false t (cell ++ '\\' :: x) row) := by
  intro x
  induction x with
  | nil => intro t cell row; exact ⟨fun _ => by simp, fun h => by simp [inertB] at h⟩
  | cons c x ih =>
    intro t cell row
    constructor
    · intro h
      simp only [inertB] at h
      by_cases hc : c = '\\'
      · rw [if_pos hc] at h
        subst hc
        simp only [List.cons_append, Spec.texScan, if_true]
        exact (ih t cell row).2 h
      · rw [if_neg hc, Bool.and_eq_true] at h
        have hc' : c ≠ '&' := by simpa using h.1
        simp only [List.cons_append, Spec.texScan, if_neg hc, if_neg hc']
        rw [(ih t (cell ++ [c]) row).1 h.2]
        simp
    · intro h
      simp only [inertB, Bool.and_eq_true] at h
      have hc : c ≠ '\\' := by simpa using h.1
      simp only [List.cons_append, Spec.texScan, if_neg hc]
      rw [(ih t (cell ++ ['\\', c]) row).1 h.2]
      simp

theorem inertB_append : ∀ (x y : Str) (esc : Bool), inertB esc x = true → inertB false y = true →
    inertB esc (x ++ y) = true := by
  intro x
  induction x with
  | nil => intro y esc h hy; simp only [inertB, Bool.not_eq_true'] at h; rw [h]; exact hy
  | cons c x ih =>
    intro y esc h hy
    cases esc with
    | true =>
      simp only [inertB, Bool.and_eq_true, List.cons_append] at h ⊢
      exact ⟨h.1, ih y false h.2 hy⟩
    | false =>
      simp only [inertB, List.cons_append] at h ⊢
      by_cases hc : c = '\\'
      · rw [if_pos hc] at h ⊢; exact ih y true h hy
      · rw [if_neg hc] at h ⊢
        rw [Bool.and_eq_true] at h ⊢
        exact ⟨h.1, ih y false h.2 hy⟩

theorem inertB_plain (x : Str) (h : ∀ c ∈ x, c ≠ '\\' ∧ c ≠ '&') : inertB false x = true := by
  induction x with
  | nil => rfl
  | cons c x ih =>
    simp only [inertB]
    rw [if_neg (h c (by simp)).1, Bool.and_eq_true]
    exact ⟨by simpa using (h c (by simp)).2, ih (fun c hc => h c (by simp [hc]))⟩

/-- the cells after the first of a row are written on lines of their own -/
def rowTail (xs : List Str) : Str := xs.flatMap (fun x => "&\n".toList ++ x ++ " ".toList)

theorem texScan_row : ∀ (xs : List Str) (t cell : Str) (row : List Str), (∀ x ∈ xs, inertB false x = true) →
    Spec.texScan false (rowTail xs ++ ("\\\\".toList ++ t)) cell row =
      ((row ++ cell :: xs.map (fun x => "\n".toList ++ x ++ " ".toList)) :: (Spec.texScan false t [] []).1,
        (Spec.texScan false t [] []).2) := by
  intro xs
  induction xs with
  | nil =>
    intro t cell row _
    show Spec.texScan false ('\\' :: '\\' :: t) cell row = _
    simp [Spec.texScan]
  | cons x xs ih =>
    intro t cell row h
    have e : rowTail (x :: xs) ++ ("\\\\".toList ++ t) =
        '&' :: (("\n".toList ++ x ++ " ".toList) ++ (rowTail xs ++ ("\\\\".toList ++ t))) := by
      simp [rowTail]
    rw [e]
    have hx : inertB false ("\n".toList ++ x ++ " ".toList) = true :=
      inertB_append _ _ _ (inertB_append _ _ _ (by decide) (h x (by simp))) (by decide)
    simp only [Spec.texScan, if_neg (show ¬'&' = '\\' by decide), if_true]
    rw [(texScan_inert _ _ _ _).1 hx, ih t _ _ (fun y hy => h y (by simp [hy]))]
    simp

/-! ### spaces -/

/-! ### replacing `$^{}$` -/

/-- what `replace("$^{}$", "")` does -/
abbrev noEmptySup (s : Str) : Str := replaceSub "$^{}$".toList [] 0 s

/-- `x` becomes `y`, whatever follows -/
def Goes (x y : Str) : Prop := ∀ t, noEmptySup (x ++ t) = y ++ noEmptySup t

theorem Goes.append {x y x' y' : Str} (h : Goes x y) (h' : Goes x' y') : Goes (x ++ x') (y ++ y') := by
  intro t
  rw [List.append_assoc, h, h', List.append_assoc]

theorem noEmptySup_cons (c : Char) (t : Str) (h : ¬"$^{}$".toList <+: c :: t) : noEmptySup (c :: t) = c :: noEmptySup t := by
  show replaceSub _ _ 0 (c :: t) = _
  simp only [replaceSub]
  rw [if_neg (by rw [List.isPrefixOf_iff_prefix]; exact h)]

theorem goes_plain (x : Str) (h : '$' ∉ x) : Goes x x := by
  intro t
  induction x with
  | nil => rfl
  | cons c x ih =>
    rw [List.cons_append, noEmptySup_cons, ih (fun hh => h (by simp [hh]))]
    · rfl
    · intro hp
      have hc := (List.cons_prefix_cons (a := '$') (l₁ := "^{}$".toList)).1 hp
      exact h (by rw [hc.1]; simp)

/-- a `$` not followed by `^` stays -/
theorem noEmptySup_dollar (c : Char) (t : Str) (h : c ≠ '^') : noEmptySup ('$' :: c :: t) = '$' :: noEmptySup (c :: t) := by
  apply noEmptySup_cons
  intro hp
  have h1 := (List.cons_prefix_cons (a := '$') (l₁ := "^{}$".toList)).1 hp
  have h2 := (List.cons_prefix_cons (a := '^') (l₁ := "{}$".toList)).1 h1.2
  exact h h2.1.symm

theorem noEmptySup_sup (s : Str) (hs : ∀ c ∈ s, c ≠ '$' ∧ c ≠ '}') (c : Char) (t : Str) (h : c ≠ '^') :
    noEmptySup ("$^{".toList ++ s ++ "}$".toList ++ c :: t) = Spec.texSup s ++ noEmptySup (c :: t) := by
  unfold Spec.texSup
  cases s with
  | nil =>
    rw [if_pos rfl]
    rfl
  | cons a s =>
    rw [if_neg (by simp)]
    have e : "$^{".toList ++ (a :: s) ++ "}$".toList ++ c :: t =
        '$' :: (("^{".toList ++ (a :: s) ++ "}".toList) ++ ('$' :: c :: t)) := by simp
    rw [e, noEmptySup_cons]
    · rw [goes_plain ("^{".toList ++ (a :: s) ++ "}".toList) ?_ ('$' :: c :: t), noEmptySup_dollar c t h]
      · simp
      · intro hm
        simp only [List.mem_append] at hm
        rcases hm with (hm | hm) | hm
        · exact absurd hm (by decide)
        · exact (hs '$' hm).1 rfl
        · exact absurd hm (by decide)
    · intro hp
      have h1 := (List.cons_prefix_cons (a := '$') (l₁ := "^{}$".toList)).1 hp
      have h2 := (List.cons_prefix_cons (a := '^') (l₁ := "{}$".toList)).1 h1.2
      have h3 := (List.cons_prefix_cons (a := '{') (l₁ := "}$".toList)).1 h2.2
      have h4 := (List.cons_prefix_cons (a := '}') (l₁ := "$".toList)).1 h3.2
      exact (hs a (by simp)).2 h4.1.symm

/-- Specification: a formatted score -/
def Spec.TexScore (s : Str) : Prop := ∀ c ∈ s, c.isDigit = true ∨ c = '.' ∨ c = '-' ∨ c = 'n' ∨ c = 'a'

/-- the characters of a cell -/
structure CellOk (c : Cell) : Prop where
  score : Spec.TexScore c.score
  sup : ∀ a ∈ c.superscript, a ∈ chars
  ph : ∀ a ∈ c.phantoms, a ∈ chars

theorem score_char {s : Str} (h : Spec.TexScore s) : ∀ c ∈ s, c ≠ '\\' ∧ c ≠ '&' ∧ c ≠ '$' ∧ c ≠ '_' ∧ isSpace c = false := by
  intro c hc
  rcases h c hc with hd | rfl | rfl | rfl | rfl
  · refine ⟨?_, ?_, ?_, ?_, isDigit_not_space hd⟩ <;> rintro rfl <;> exact absurd hd (by decide)
  all_goals decide

theorem chars_char : ∀ c ∈ chars, c ≠ '\\' ∧ c ≠ '&' ∧ c ≠ '$' ∧ c ≠ '_' ∧ c ≠ '}' ∧ isSpace c = false := by
  decide +kernel

/-- the text of a cell before the `&` -/
def cellCore (c : Cell) : Str :=
  (if c.bold then "\\textbf{".toList ++ c.score ++ "}".toList else c.score) ++ ("$^{".toList ++ c.superscript ++
    "}$".toList) ++ "\\hphantom{".toList ++ ("$^{".toList ++ c.phantoms ++ "}$".toList) ++ "}".toList

theorem cellText_core (c : Cell) : cellText c = cellCore c ++ " &".toList := by
  have e1 : "}$\\hphantom{$^{".toList = "}$".toList ++ ("\\hphantom{".toList ++ "$^{".toList) := by decide
  have e2 : "}$} &".toList = "}$".toList ++ ("}".toList ++ " &".toList) := by decide
  unfold cellText cellCore
  rw [e1, e2]
  simp only [List.append_assoc]

theorem goes_core {c : Cell} (h : CellOk c) : Goes (cellCore c) (Spec.texCell c) := by
  intro t
  have hs : ∀ (s : Str), (∀ a ∈ s, a ∈ chars) → ∀ a ∈ s, a ≠ '$' ∧ a ≠ '}' := fun s hs a ha =>
    ⟨(chars_char a (hs a ha)).2.2.1, (chars_char a (hs a ha)).2.2.2.2.1⟩
  have h1 : '$' ∉ (if c.bold then "\\textbf{".toList ++ c.score ++ "}".toList else c.score) := by
    have hsc : '$' ∉ c.score := fun hm => (score_char h.score '$' hm).2.2.1 rfl
    cases c.bold with
    | true =>
      simp only [if_true, List.mem_append, not_or]
      exact ⟨⟨by decide, hsc⟩, by decide⟩
    | false => exact hsc
  unfold cellCore Spec.texCell
  generalize (if c.bold then "\\textbf{".toList ++ c.score ++ "}".toList else c.score) = b at h1
  have e1 : b ++ ("$^{".toList ++ c.superscript ++ "}$".toList) ++ "\\hphantom{".toList ++
      ("$^{".toList ++ c.phantoms ++ "}$".toList) ++ "}".toList ++ t =
      b ++ ("$^{".toList ++ c.superscript ++ "}$".toList ++ '\\' :: ("hphantom{".toList ++
        ("$^{".toList ++ c.phantoms ++ "}$".toList ++ '}' :: t))) := by simp
  rw [e1, goes_plain b h1, noEmptySup_sup _ (hs _ h.sup) '\\' _ (by decide)]
  have e2 : ∀ u, noEmptySup ('\\' :: ("hphantom{".toList ++ u)) = '\\' :: ("hphantom{".toList ++ noEmptySup u) :=
    fun u => goes_plain "\\hphantom{".toList (by decide) u
  rw [e2, noEmptySup_sup _ (hs _ h.ph) '}' t (by decide)]
  have e3 : noEmptySup ('}' :: t) = '}' :: noEmptySup t := goes_plain "}".toList (by decide) t
  rw [e3]
  simp

/-! ### the rows as they are written -/

theorem escape_append (x y : Str) : Spec.texEscape (x ++ y) = Spec.texEscape x ++ Spec.texEscape y := List.flatMap_append ..

theorem escape_plain (x : Str) (h : '_' ∉ x) : Spec.texEscape x = x := by
  unfold Spec.texEscape
  induction x with
  | nil => rfl
  | cons c x ih =>
    rw [List.flatMap_cons, if_neg (fun e => h (by simp [e])), ih (fun e => h (by simp [e]))]
    rfl

theorem escape_name {x : Str} (h : Spec.TexName x) :
    inertB false (Spec.texEscape x) = true ∧ '$' ∉ Spec.texEscape x := by
  unfold Spec.texEscape
  induction x with
  | nil => exact ⟨rfl, by simp⟩
  | cons c x ih =>
    obtain ⟨i1, i2⟩ := ih (fun d hd => h d (by simp [hd]))
    have hc := h c (by simp)
    rw [List.flatMap_cons]
    by_cases he : c = '_'
    · rw [if_pos he]
      exact ⟨inertB_append _ _ _ (by decide) i1, by simp [i2]⟩
    · rw [if_neg he]
      simp only [List.mem_cons, not_or] at hc
      refine ⟨inertB_append _ _ _ (inertB_plain _ (fun d hd => ?_)) i1, ?_⟩
      · rw [List.mem_singleton] at hd
        rw [hd]
        exact ⟨hc.1, hc.2.1⟩
      · simp only [List.cons_append, List.nil_append, List.mem_cons, not_or]
        exact ⟨fun e => hc.2.2.1 e.symm, i2⟩

theorem join_cells : ∀ (x : Cell) (xs : List Cell),
    joinWith "\n".toList (dropLastAmp ((x :: xs).map cellText)) =
      cellCore x ++ " ".toList ++ rowTail (xs.map cellCore) := by
  intro x xs
  induction xs generalizing x with
  | nil =>
    simp only [List.map_cons, List.map_nil, dropLastAmp, joinWith, cellText_core]
    show (cellCore x ++ [' ', '&']).dropLast = cellCore x ++ [' '] ++ []
    rw [List.append_nil, List.dropLast_append_of_ne_nil (by simp)]
    rfl
  | cons y ys ih =>
    have h1 : dropLastAmp ((x :: y :: ys).map cellText) = cellText x :: dropLastAmp ((y :: ys).map cellText) := rfl
    have h2 : ∀ (l : List Str), l ≠ [] → joinWith "\n".toList (cellText x :: l) =
        cellText x ++ ("\n".toList ++ joinWith "\n".toList l) := by
      intro l hl
      cases l with
      | nil => exact absurd rfl hl
      | cons a b => rfl
    have h3 : dropLastAmp ((y :: ys).map cellText) ≠ [] := by
      cases ys <;> simp [dropLastAmp]
    rw [h1, h2 _ h3, ih y, cellText_core]
    have h4 : " &".toList = " ".toList ++ "&".toList := by decide
    have h5 : "&\n".toList = "&".toList ++ "\n".toList := by decide
    simp only [rowTail, List.map_cons, List.flatMap_cons, h4, h5, List.append_assoc]

/-- a row of the text of `to_latex` -/
def rowOut (row : Char × Str × List Cell) : Str :=
  [row.1] ++ " ".toList ++ rowTail (Spec.texEscape row.2.1 :: row.2.2.map Spec.texCell) ++ "\\\\".toList

/-- what is asked of a row -/
structure RowOk (row : Char × Str × List Cell) : Prop where
  letter : row.1 ∈ chars
  name : Spec.TexName row.2.1
  cells : row.2.2 ≠ []
  cellOk : ∀ c ∈ row.2.2, CellOk c

theorem core_noUnderscore {c : Cell} (h : CellOk c) : '_' ∉ cellCore c := by
  have h1 : '_' ∉ c.score := fun hm => (score_char h.score '_' hm).2.2.2.1 rfl
  have h2 : '_' ∉ c.superscript := fun hm => (chars_char '_' (h.sup _ hm)).2.2.2.1 rfl
  have h3 : '_' ∉ c.phantoms := fun hm => (chars_char '_' (h.ph _ hm)).2.2.2.1 rfl
  have k1 : '_' ∉ "\\textbf{".toList := by decide
  have k2 : '_' ∉ "}".toList := by decide
  have k3 : '_' ∉ "$^{".toList := by decide
  have k4 : '_' ∉ "}$".toList := by decide
  have k5 : '_' ∉ "\\hphantom{".toList := by decide
  unfold cellCore
  cases c.bold
  · simp only [List.mem_append, not_or, Bool.false_eq_true, if_false]
    exact ⟨⟨⟨⟨h1, ⟨k3, h2⟩, k4⟩, k5⟩, ⟨k3, h3⟩, k4⟩, k2⟩
  · simp only [List.mem_append, not_or, if_true]
    exact ⟨⟨⟨⟨⟨⟨k1, h1⟩, k2⟩, ⟨k3, h2⟩, k4⟩, k5⟩, ⟨k3, h3⟩, k4⟩, k2⟩

theorem escape_tail : ∀ (xs : List Str), Spec.texEscape (rowTail xs) = rowTail (xs.map Spec.texEscape) := by
  intro xs
  induction xs with
  | nil => rfl
  | cons x xs ih =>
    have h1 : Spec.texEscape "&\n".toList = "&\n".toList := by decide
    have h2 : Spec.texEscape " ".toList = " ".toList := by decide
    unfold rowTail at ih ⊢
    rw [List.flatMap_cons, escape_append, escape_append, escape_append, ih, h1, h2, List.map_cons, List.flatMap_cons]

theorem escape_row {row : Char × Str × List Cell} (h : RowOk row) :
    Spec.texEscape (rowText row) =
      [row.1] ++ " ".toList ++ rowTail (Spec.texEscape row.2.1 :: row.2.2.map cellCore) ++ "\\\\".toList := by
  obtain ⟨c, n, cells⟩ := row
  cases cells with
  | nil => exact absurd rfl h.cells
  | cons x xs =>
    have e : rowText (c, n, x :: xs) =
        [c] ++ " ".toList ++ rowTail (n :: (x :: xs).map cellCore) ++ "\\\\".toList := by
      unfold rowText
      rw [join_cells]
      have h4 : " &\n".toList = " ".toList ++ "&\n".toList := by decide
      simp only [rowTail, List.map_cons, List.flatMap_cons, h4, List.append_assoc]
    have h1 : Spec.texEscape [c] = [c] := escape_plain _ (by
      rw [List.mem_singleton]
      exact fun hh => (chars_char c h.letter).2.2.2.1 hh.symm)
    have h2 : Spec.texEscape " ".toList = " ".toList := by decide
    have h3 : Spec.texEscape "\\\\".toList = "\\\\".toList := by decide
    rw [e, escape_append, escape_append, escape_append, escape_tail, h1, h2, h3, List.map_cons, List.map_map]
    have h5 : ((x :: xs).map (Spec.texEscape ∘ cellCore)) = (x :: xs).map cellCore :=
      List.map_congr_left (fun y hy => escape_plain _ (core_noUnderscore (h.cellOk y hy)))
    rw [h5]

theorem goes_tail : ∀ (xs ys : List Str), List.Forall₂ Goes xs ys → Goes (rowTail xs) (rowTail ys) := by
  intro xs ys h
  induction h with
  | nil => intro t; rfl
  | cons hx _ ih =>
    unfold rowTail at ih ⊢
    rw [List.flatMap_cons, List.flatMap_cons]
    exact (((goes_plain _ (by decide)).append hx).append (goes_plain _ (by decide))).append ih

theorem goes_row {row : Char × Str × List Cell} (h : RowOk row) : Goes (Spec.texEscape (rowText row)) (rowOut row) := by
  rw [escape_row h]
  have hc : '$' ∉ [row.1] := by
    rw [List.mem_singleton]
    exact fun hh => (chars_char _ h.letter).2.2.1 hh.symm
  have hf : ∀ (cells : List Cell), (∀ c ∈ cells, CellOk c) →
      List.Forall₂ Goes (cells.map cellCore) (cells.map Spec.texCell) := by
    intro cells
    induction cells with
    | nil => intro _; exact .nil
    | cons x xs ih => intro h; exact .cons (goes_core (h x (by simp))) (ih (fun c hc => h c (by simp [hc])))
  exact (((goes_plain _ hc).append (goes_plain _ (by decide))).append
    (goes_tail _ _ (.cons (goes_plain _ (escape_name h.name).2) (hf _ h.cellOk)))).append (goes_plain _ (by decide))

/-- the rows, each on a new line -/
theorem content_eq_rows (rows : List (Char × Str × List Cell)) (hne : rows ≠ []) (h : ∀ row ∈ rows, RowOk row) :
    "\n".toList ++ latexContent rows = rows.flatMap (fun row => "\n".toList ++ rowOut row) := by
  have hj : ∀ (l : List Str), l ≠ [] → "\n".toList ++ joinWith "\n".toList l = l.flatMap (fun x => "\n".toList ++ x) := by
    intro l
    induction l with
    | nil => intro hl; exact absurd rfl hl
    | cons x t ih =>
      intro _
      cases t with
      | nil => simp [joinWith]
      | cons y u =>
        have := ih (by simp)
        rw [List.flatMap_cons, ← this]
        simp [joinWith]
  have h1 : latexContent rows = noEmptySup (Spec.texEscape (joinWith "\n".toList (rows.map rowText))) := rfl
  have h2 : Spec.texEscape "\n".toList = "\n".toList := by decide
  rw [h1, ← goes_plain "\n".toList (by decide)]
  have h3 : "\n".toList ++ Spec.texEscape (joinWith "\n".toList (rows.map rowText)) =
      Spec.texEscape ("\n".toList ++ joinWith "\n".toList (rows.map rowText)) := by rw [escape_append, h2]
  rw [h3, hj _ (by simpa using hne)]
  clear h1 h3 hne
  have key : ∀ (l : List (Char × Str × List Cell)), (∀ row ∈ l, RowOk row) →
      Goes (Spec.texEscape ((l.map rowText).flatMap (fun x => "\n".toList ++ x)))
        (l.flatMap (fun row => "\n".toList ++ rowOut row)) := by
    intro l
    induction l with
    | nil => intro _ t; rfl
    | cons x t ih =>
      intro hl
      rw [List.map_cons, List.flatMap_cons, List.flatMap_cons, escape_append, escape_append, h2]
      exact ((goes_plain _ (by decide)).append (goes_row (hl x (by simp)))).append (ih (fun r hr => hl r (by simp [hr])))
  have := key rows h []
  rw [List.append_nil] at this
  rw [this]
  simp [noEmptySup, replaceSub]

/-! ### reading the rows -/

theorem texCell_chars {c : Cell} (h : CellOk c) :
    inertB false (Spec.texCell c) = true ∧ ∀ a ∈ Spec.texCell c, isSpace a = false := by
  have hsc := inertB_plain c.score (fun a ha => ⟨(score_char h.score a ha).1, (score_char h.score a ha).2.1⟩)
  have hsc' : ∀ a ∈ c.score, isSpace a = false := fun a ha => (score_char h.score a ha).2.2.2.2
  have hsup : ∀ (s : Str), (∀ a ∈ s, a ∈ chars) → inertB false (Spec.texSup s) = true ∧
      ∀ a ∈ Spec.texSup s, isSpace a = false := by
    intro s hs
    unfold Spec.texSup
    by_cases he : s = []
    · rw [if_pos he]; exact ⟨rfl, by simp⟩
    · rw [if_neg he]
      refine ⟨inertB_append _ _ _ (inertB_append _ _ _ (by decide)
        (inertB_plain s (fun a ha => ⟨(chars_char a (hs a ha)).1, (chars_char a (hs a ha)).2.1⟩))) (by decide), ?_⟩
      intro a ha
      simp only [List.mem_append] at ha
      rcases ha with (ha | ha) | ha
      · revert a; decide
      · exact (chars_char a (hs a ha)).2.2.2.2.2
      · revert a; decide
  have hb : inertB false (if c.bold then "\\textbf{".toList ++ c.score ++ "}".toList else c.score) = true ∧
      ∀ a ∈ (if c.bold then "\\textbf{".toList ++ c.score ++ "}".toList else c.score), isSpace a = false := by
    cases c.bold with
    | false => exact ⟨hsc, hsc'⟩
    | true =>
      refine ⟨inertB_append _ _ _ (inertB_append _ _ _ (by decide) hsc) (by decide), ?_⟩
      intro a ha
      simp only [if_true, List.mem_append] at ha
      rcases ha with (ha | ha) | ha
      · revert a; decide
      · exact hsc' a ha
      · revert a; decide
  unfold Spec.texCell
  refine ⟨inertB_append _ _ _ (inertB_append _ _ _ (inertB_append _ _ _ (inertB_append _ _ _ hb.1
    (hsup _ h.sup).1) (by decide)) (hsup _ h.ph).1) (by decide), ?_⟩
  intro a ha
  simp only [List.mem_append] at ha
  rcases ha with (((ha | ha) | ha) | ha) | ha
  · exact hb.2 a ha
  · exact (hsup _ h.sup).2 a ha
  · revert a; decide
  · exact (hsup _ h.ph).2 a ha
  · revert a; decide

/-- Specification: the row a reader sees -/
def Spec.texSeen (row : Char × Str × List Cell) : List Str :=
  [row.1] :: strip (Spec.texEscape row.2.1) :: row.2.2.map Spec.texCell

theorem texScan_rows (post : Str) (hpost : inertB false post = true) : ∀ (rows : List (Char × Str × List Cell))
    (_ : ∀ row ∈ rows, RowOk row) (_ : rows ≠ []) (pre : Str) (_ : inertB false pre = true)
    (_ : ∀ c ∈ chars, Spec.texRow [pre ++ "\n".toList ++ [c] ++ " ".toList] = [[c]]),
    Spec.texTable (pre ++ (rows.flatMap (fun row => "\n".toList ++ rowOut row) ++ post)) =
      (rows.map Spec.texSeen, Spec.texRow [post]) := by
  intro rows
  induction rows with
  | nil => intro _ h; exact absurd rfl h
  | cons row t ih =>
    intro h _ pre hpre hclean
    have hrow := h row (by simp)
    have hc := chars_char _ hrow.letter
    have hin : inertB false (pre ++ "\n".toList ++ [row.1] ++ " ".toList) = true :=
      inertB_append _ _ _ (inertB_append _ _ _ (inertB_append _ _ _ hpre (by decide))
        (inertB_plain _ (fun a ha => by rw [List.mem_singleton] at ha; rw [ha]; exact ⟨hc.1, hc.2.1⟩))) (by decide)
    have hcells : ∀ x ∈ Spec.texEscape row.2.1 :: row.2.2.map Spec.texCell, inertB false x = true := by
      intro x hx
      rcases List.mem_cons.1 hx with rfl | hx
      · exact (escape_name hrow.name).1
      · obtain ⟨c, hc, rfl⟩ := List.mem_map.1 hx
        exact (texCell_chars (hrow.cellOk c hc)).1
    have hseen : Spec.texRow ((pre ++ "\n".toList ++ [row.1] ++ " ".toList) ::
        (Spec.texEscape row.2.1 :: row.2.2.map Spec.texCell).map (fun x => "\n".toList ++ x ++ " ".toList)) =
        Spec.texSeen row := by
      have h1 := hclean row.1 hrow.letter
      simp only [Spec.texRow] at h1 ⊢
      simp only [List.map_nil, List.cons.injEq, and_true] at h1
      rw [h1, List.map_map]
      unfold Spec.texSeen
      have hs : ∀ x : Str, strip ("\n".toList ++ x ++ " ".toList) = strip x := fun x => strip_pad (by decide) (by decide)
      have h2 : (Spec.texEscape row.2.1 :: row.2.2.map Spec.texCell).map (strip ∘ fun x => "\n".toList ++ x ++ " ".toList) =
          strip (Spec.texEscape row.2.1) :: row.2.2.map Spec.texCell := by
        rw [List.map_cons, List.map_map]
        simp only [Function.comp, hs]
        congr 1
        exact List.map_congr_left (fun c hc => (hs _).trans (strip_eq_self _ (texCell_chars (hrow.cellOk c hc)).2))
      rw [h2]
    have htext : pre ++ ((row :: t).flatMap (fun row => "\n".toList ++ rowOut row) ++ post) =
        (pre ++ "\n".toList ++ [row.1] ++ " ".toList) ++ (rowTail (Spec.texEscape row.2.1 :: row.2.2.map Spec.texCell) ++
          ("\\\\".toList ++ (t.flatMap (fun row => "\n".toList ++ rowOut row) ++ post))) := by
      rw [List.flatMap_cons]
      unfold rowOut
      simp only [List.append_assoc]
    rw [htext]
    unfold Spec.texTable
    rw [(texScan_inert _ _ _ _).1 hin, texScan_row _ _ _ _ hcells]
    simp only [List.nil_append, List.map_cons]
    have hseen' := hseen
    rw [List.map_cons] at hseen'
    rw [hseen']
    cases t with
    | nil =>
      have he : Spec.texScan false (([] : List (Char × Str × List Cell)).flatMap (fun row => "\n".toList ++ rowOut row) ++ post)
          [] [] = ([], [post]) := by
        show Spec.texScan false post [] [] = _
        have := (texScan_inert post [] [] []).1 hpost
        rw [List.append_nil] at this
        rw [this]
        rfl
      rw [he]
      rfl
    | cons r2 t2 =>
      have hih := ih (fun r hr => h r (by simp [hr])) (by simp) [] rfl (by decide +kernel)
      unfold Spec.texTable at hih
      rw [List.nil_append, Prod.mk.injEq] at hih
      rw [hih.1, hih.2]

/-! ### the head of the table -/

/-- the cells of the head after the first -/
def headTail (xs : List Str) : Str := xs.flatMap (fun x => "\n& ".toList ++ x)

/-- the cells of the head as they are read -/
def headCells : Str → List Str → List Str
  | cell, [] => [cell ++ " ".toList]
  | cell, x :: xs => (cell ++ "\n".toList) :: headCells (" ".toList ++ x) xs

theorem texScan_head : ∀ (xs : List Str) (t cell : Str) (row : List Str), (∀ x ∈ xs, inertB false x = true) →
    Spec.texScan false (headTail xs ++ (" \\\\".toList ++ t)) cell row =
      ((row ++ headCells cell xs) :: (Spec.texScan false t [] []).1, (Spec.texScan false t [] []).2) := by
  intro xs
  induction xs with
  | nil =>
    intro t cell row _
    show Spec.texScan false (' ' :: '\\' :: '\\' :: t) cell row = _
    simp only [Spec.texScan, if_true, if_neg (show ¬' ' = '\\' by decide), if_neg (show ¬' ' = '&' by decide)]
    rfl
  | cons x xs ih =>
    intro t cell row h
    have e : headTail (x :: xs) ++ (" \\\\".toList ++ t) =
        '\n' :: '&' :: ((" ".toList ++ x) ++ (headTail xs ++ (" \\\\".toList ++ t))) := by
      simp [headTail]
    rw [e]
    have hx : inertB false (" ".toList ++ x) = true := inertB_append _ _ _ (by decide) (h x (by simp))
    simp only [Spec.texScan, if_neg (show ¬'&' = '\\' by decide), if_neg (show ¬'\n' = '\\' by decide),
      if_neg (show ¬'\n' = '&' by decide), if_true]
    rw [(texScan_inert _ _ _ _).1 hx, ih t _ _ (fun y hy => h y (by simp [hy]))]
    simp [headCells]

theorem strip_headCells : ∀ (xs : List Str) (x : Str),
    (headCells (" ".toList ++ x) xs).map strip = strip x :: xs.map strip := by
  intro xs
  induction xs with
  | nil =>
    intro x
    simp only [headCells, List.map_cons, List.map_nil]
    rw [strip_pad (a := " ".toList) (b := " ".toList) (by decide) (by decide)]
  | cons y ys ih =>
    intro x
    simp only [headCells, List.map_cons, ih]
    rw [strip_pad (a := " ".toList) (b := "\n".toList) (by decide) (by decide)]

/-- Specification: bold text -/
def Spec.texBold (s : Str) : Str := "\\textbf{".toList ++ s ++ "}".toList

theorem strip_bold (s : Str) : strip (Spec.texBold s) = Spec.texBold s := by
  unfold strip
  have h1 : (Spec.texBold s).dropWhile isSpace = Spec.texBold s := by
    apply dropWhile_eq_self
    intro c hc
    have : c = '\\' := (Option.some.inj hc).symm
    rw [this]
    decide
  have h2 : (Spec.texBold s).reverse.dropWhile isSpace = (Spec.texBold s).reverse := by
    apply dropWhile_eq_self
    intro c hc
    unfold Spec.texBold at hc
    rw [List.reverse_append] at hc
    have : c = '}' := (Option.some.inj hc).symm
    rw [this]
    decide
  rw [h1, h2, List.reverse_reverse]

theorem inertB_bold {s : Str} (h : inertB false s = true) : inertB false (Spec.texBold s) = true :=
  inertB_append _ _ _ (inertB_append _ _ _ (by decide) h) (by decide)

theorem texScan_table (labels : List Str) (hl : ∀ l ∈ labels, inertB false l = true)
    (rows : List (Char × Str × List Cell)) (hne : rows ≠ []) (h : ∀ row ∈ rows, RowOk row) :
    Spec.texTable ("\n\\toprule".toList ++ "\n\\textbf{\\#}".toList ++ "\n& \\textbf{Model}".toList ++
        labels.flatMap (fun l => "\n& \\textbf{".toList ++ l ++ "}".toList) ++ " \\\\ \n\\midrule".toList ++ "\n".toList ++
        latexContent rows ++ "\n".toList ++ "\\bottomrule\n".toList) =
      (("\\textbf{\\#}".toList :: "\\textbf{Model}".toList :: labels.map Spec.texBold) :: rows.map Spec.texSeen,
        ["\\bottomrule".toList]) := by
  have e1 : labels.flatMap (fun l => "\n& \\textbf{".toList ++ l ++ "}".toList) = headTail (labels.map Spec.texBold) := by
    unfold headTail Spec.texBold
    rw [List.flatMap_map]
    have : "\n& \\textbf{".toList = "\n& ".toList ++ "\\textbf{".toList := by decide
    simp only [this, List.append_assoc]
  have e2 : "\n& \\textbf{Model}".toList ++ headTail (labels.map Spec.texBold) =
      headTail ("\\textbf{Model}".toList :: labels.map Spec.texBold) := by
    unfold headTail
    rw [List.flatMap_cons]
    have : "\n& \\textbf{Model}".toList = "\n& ".toList ++ "\\textbf{Model}".toList := by decide
    rw [this]
  have e3 : " \\\\ \n\\midrule".toList = " \\\\".toList ++ " \n\\midrule".toList := by decide
  have e4 := content_eq_rows rows hne h
  have htext : "\n\\toprule".toList ++ "\n\\textbf{\\#}".toList ++ "\n& \\textbf{Model}".toList ++
        labels.flatMap (fun l => "\n& \\textbf{".toList ++ l ++ "}".toList) ++ " \\\\ \n\\midrule".toList ++ "\n".toList ++
        latexContent rows ++ "\n".toList ++ "\\bottomrule\n".toList =
      ("\n\\toprule".toList ++ "\n\\textbf{\\#}".toList) ++ (headTail ("\\textbf{Model}".toList :: labels.map Spec.texBold) ++
        (" \\\\".toList ++ (" \n\\midrule".toList ++ (rows.flatMap (fun row => "\n".toList ++ rowOut row) ++
          ("\n".toList ++ "\\bottomrule\n".toList))))) := by
    rw [← e4, ← e2, e1, e3]
    simp only [List.append_assoc]
  rw [htext]
  unfold Spec.texTable
  rw [(texScan_inert _ _ _ _).1 (show inertB false ("\n\\toprule".toList ++ "\n\\textbf{\\#}".toList) = true by decide),
    texScan_head _ _ _ _ (by
      intro x hx
      rcases List.mem_cons.1 hx with rfl | hx
      · decide
      · obtain ⟨l, hm, rfl⟩ := List.mem_map.1 hx
        exact inertB_bold (hl l hm))]
  have hrows := texScan_rows ("\n".toList ++ "\\bottomrule\n".toList) (by decide) rows h hne " \n\\midrule".toList (by decide)
    (by decide +kernel)
  unfold Spec.texTable at hrows
  rw [Prod.mk.injEq] at hrows
  simp only [List.map_cons, List.nil_append]
  rw [hrows.1, hrows.2]
  have hhead : Spec.texRow (headCells ("\n\\toprule".toList ++ "\n\\textbf{\\#}".toList)
      ("\\textbf{Model}".toList :: labels.map Spec.texBold)) =
      "\\textbf{\\#}".toList :: "\\textbf{Model}".toList :: labels.map Spec.texBold := by
    simp only [headCells, Spec.texRow, strip_headCells, List.map_map]
    have h1 : labels.map (strip ∘ Spec.texBold) = labels.map Spec.texBold :=
      List.map_congr_left (fun l _ => strip_bold l)
    rw [h1]
    congr 1
  rw [hhead]
  congr 1

/-! ### the property -/

theorem marks_chars {α : Type*} [Field α] [LinearOrder α] [IsStrictOrderedRing α] (r : Report α) (want : Bool) (model metric : Str) (s : Str)
    (h : r.marks chars want model metric r.modelNames.zipIdx = .ok s) : ∀ a ∈ s, a ∈ chars := by
  have := (marks_spec r chars chars_nodup want model metric r.modelNames 0 s h).1
  intro a ha
  exact this.subset ha

/-- **C108**: the text of `to_latex` contains one `tabular` environment with one column for the letters, one for the
names and one per metric; read as LaTeX reads it, the table has a head with the labels of the metrics and then one row
per model: its letter, its name with every underscore escaped, and per metric the formatted score (bold if it is the
best), the letters of the models it is significantly better than as superscript, and invisible letters for the others.
The contents of the rows are those of C71 and C72. The names have none of LaTeX's special characters but `_`. -/
theorem C108_table {α : Type*} [Field α] [LinearOrder α] [IsStrictOrderedRing α] (r : Report α) (fm : Fmt α) (strP text : Str)
    (h : r.toLatex fm strP = .ok text) (hne : r.modelNames ≠ []) (hnames : ∀ n ∈ r.modelNames, Spec.TexName n)
    (hfm : ∀ x s, fm.format x = .ok s → Spec.TexScore s)
    (hms : ∀ m ∈ r.metrics, ∃ p ∈ Spec.labels, ∃ k L, m = Spec.withParams p.1 k L) :
    ∃ (rows : List (Char × Str × List Cell)) (labels : List Str) (before body after : Str), r.latex fm = .ok rows ∧
      List.Forall₂ (fun m l => ∃ p ∈ Spec.labels, ∃ k L, m = Spec.withParams p.1 k L ∧ l = Spec.withParams p.2 k L)
        r.metrics labels ∧
      text = before ++ "\\begin{tabular}{c|l".toList ++ (List.replicate r.metrics.length "|c".toList).flatten ++
        "}".toList ++ body ++ "\\end{tabular}".toList ++ after ∧
      Spec.texTable body =
        (("\\textbf{\\#}".toList :: "\\textbf{Model}".toList :: labels.map Spec.texBold) :: rows.map Spec.texSeen,
          ["\\bottomrule".toList]) := by
  unfold Report.toLatex at h
  cases ht : statTestLabel r.statTest with
  | error e => rw [ht] at h; cases h
  | ok test =>
    cases hlab : collect (r.metrics.map getMetricLabel) with
    | error e => rw [ht, hlab] at h; cases h
    | ok labels =>
      cases hrows : r.latex fm with
      | error e => rw [ht, hlab, hrows] at h; cases h
      | ok rows =>
        rw [ht, hlab, hrows] at h
        simp only [Except.ok.injEq] at h
        have hmap := (collect_ok_iff _ _).1 hlab
        have hall : List.Forall₂ (fun m l => ∃ p ∈ Spec.labels, ∃ k L, m = Spec.withParams p.1 k L ∧
            l = Spec.withParams p.2 k L) r.metrics labels := by
          have hlen : r.metrics.length = labels.length := by simpa using congrArg List.length hmap
          rw [List.forall₂_iff_get]
          refine ⟨hlen, fun i h1 h2 => ?_⟩
          obtain ⟨p, hp, k, L, hm⟩ := hms (r.metrics.get ⟨i, h1⟩) (List.get_mem ..)
          refine ⟨p, hp, k, L, hm, ?_⟩
          have e := congrArg (fun l => l[i]?) hmap
          simp only [List.getElem?_map, List.getElem?_eq_getElem h1, List.getElem?_eq_getElem h2, Option.map_some,
            Option.some.injEq] at e
          have hm' : r.metrics[i] = Spec.withParams p.1 k L := hm
          rw [hm', C83_label p hp k L, Except.ok.injEq] at e
          exact e.symm
        have hlabels : ∀ l ∈ labels, inertB false l = true := by
          intro l hl
          obtain ⟨i, hi, rfl⟩ := List.getElem_of_mem hl
          have h1 : i < r.metrics.length := by rw [hall.length_eq]; exact hi
          obtain ⟨p, hp, k, L, -, hl⟩ := List.Forall₂.get hall h1 hi
          have hl' : labels[i] = Spec.withParams p.2 k L := hl
          rw [hl']
          have hp2 : ∀ p ∈ Spec.labels, inertB false p.2 = true := by decide +kernel
          have hn : ∀ n, inertB false (natStr n) = true := fun n => inertB_plain _ (fun c hc => by
            have hd := natStr_isDigit hc
            constructor <;> rintro rfl <;> exact absurd hd (by decide))
          unfold Spec.withParams
          refine inertB_append _ _ _ (inertB_append _ _ _ (hp2 p hp) ?_) ?_
          · cases k with
            | none => rfl
            | some k => exact inertB_append ['@'] _ _ (by decide) (hn k)
          · cases L with
            | none => rfl
            | some L => exact inertB_append "-l".toList _ _ (by decide) (hn L)
        obtain ⟨g1, g2⟩ := C72_latex r fm rows hrows
        have hrne : rows ≠ [] := by
          intro e
          rw [e] at g1
          exact hne (List.length_eq_zero_iff.1 g1.symm)
        have hok : ∀ row ∈ rows, RowOk row := by
          intro row hrow
          obtain ⟨i, hi, rfl⟩ := List.getElem_of_mem hrow
          have h1 : i < r.modelNames.length := by rw [← g1]; exact hi
          obtain ⟨c, cells, k1, k2, k3, k4⟩ := g2 i r.modelNames[i] (List.getElem?_eq_getElem h1)
          rw [List.getElem?_eq_getElem hi, Option.some.injEq] at k2
          rw [k2]
          refine ⟨List.mem_of_getElem? k1, hnames _ (List.getElem_mem h1), ?_, ?_⟩
          · intro e
            have e' : cells = [] := e
            have hm0 : r.metrics.length = 0 := by rw [← k3, e']; rfl
            have hm := List.length_eq_zero_iff.1 hm0
            cases hnl : r.modelNames with
            | nil => exact hne hnl
            | cons n t =>
              unfold Report.latex at hrows
              rw [hnl, List.zipIdx_cons] at hrows
              unfold Report.latexRows at hrows
              rw [hm] at hrows
              cases hc0 : chars[0]? with
              | none => rw [hc0] at hrows; cases hrows
              | some c0 => rw [hc0] at hrows; cases hrows
          · intro c hc
            obtain ⟨k, hk, rfl⟩ := List.getElem_of_mem hc
            have h2 : k < r.metrics.length := by rw [← k3]; exact hk
            obtain ⟨cell, x, f1, f2, f3, f4, f5, f6⟩ := k4 k r.metrics[k] (List.getElem?_eq_getElem h2)
            have f1' : cells[k]? = some cell := f1
            have hk' : k < cells.length := hk
            rw [List.getElem?_eq_getElem hk', Option.some.injEq] at f1'
            show CellOk cells[k]
            rw [f1']
            exact ⟨hfm x _ f3, marks_chars r true _ _ _ f5, marks_chars r false _ _ _ f6⟩
        refine ⟨rows, labels, latexPreamble ++ "\n".toList ++ (latexCaption ++ test ++ " with $p \\le ".toList ++ strP ++
            "$.\n}\n\\resizebox{0.8\\textwidth}{!}{".toList ++ "\n".toList), _,
          "\n}\n\\label{tab:results}\n\\end{table*}".toList, rfl, hall, ?_,
          texScan_table labels hlabels rows hrne hok⟩
        rw [← h]
        unfold latexPrefix latexSuffix
        have q1 : "\n\\begin{tabular}{c|l".toList = "\n".toList ++ "\\begin{tabular}{c|l".toList := by decide
        have q2 : "\\bottomrule\n\\end{tabular}\n}\n\\label{tab:results}\n\\end{table*}".toList =
            "\\bottomrule\n".toList ++ ("\\end{tabular}".toList ++ "\n}\n\\label{tab:results}\n\\end{table*}".toList) := by
          decide
        rw [q1, q2, hall.length_eq]
        simp only [List.append_assoc]

theorem fixed_score (d : Nat) (x : ℚ) : Spec.TexScore (fixed d x) := by
  have hn : ∀ n, Spec.TexScore (natStr n) := fun n c hc => .inl (natStr_isDigit hc)
  intro c hc
  unfold fixed fixedNat at hc
  rcases List.mem_append.1 hc with hc | hc
  · by_cases hx : x < 0
    · rw [if_pos hx, List.mem_singleton] at hc; exact .inr (.inr (.inl hc))
    · rw [if_neg hx] at hc; exact absurd hc (by simp)
  · rcases List.mem_append.1 hc with hc | hc
    · exact hn _ c hc
    · by_cases hd : d = 0
      · rw [if_pos hd] at hc; exact absurd hc (by simp)
      · rw [if_neg hd] at hc
        rcases List.mem_cons.1 hc with rfl | hc
        · exact .inr (.inl rfl)
        · rcases List.mem_append.1 hc with hc | hc
          · rw [(List.mem_replicate.1 hc).2]; exact .inl (by decide)
          · exact hn _ c hc

/-- **C108** (scores): the scores `format_score` prints, also as percentages, have only the characters the table needs. -/
theorem C108_scores (rnd : ℚ → ℚ) (pct : Bool) (digits : Int) (x : Num ℚ) (s : Str)
    (h : (pyFmt rnd pct digits).format x = .ok s) : Spec.TexScore s := by
  have hp : ∀ (d : Int) (v : ℚ), percentF d v = .ok s → Spec.TexScore s := by
    intro d v hv
    cases d with
    | ofNat d => simp only [percentF, Except.ok.injEq] at hv; rw [← hv]; exact fixed_score d v
    | negSucc d => simp only [percentF] at hv; cases hv
  cases x with
  | val v =>
    have h' : formatScore rnd pct digits v = .ok s := h
    unfold formatScore at h'
    by_cases hpct : pct = true
    · rw [if_pos hpct] at h'; exact hp _ _ h'
    · rw [if_neg hpct] at h'; exact hp _ _ h'
  | nan =>
    have h' : (if 0 ≤ (if pct then digits - 2 else digits) then .ok "nan".toList else .error .valueError : Except Err Str) =
      .ok s := h
    by_cases hd : 0 ≤ (if pct then digits - 2 else digits)
    · rw [if_pos hd, Except.ok.injEq] at h'
      rw [← h']
      unfold Spec.TexScore
      decide
    · rw [if_neg hd] at h'; cases h'

/-- **C108** (names): reading the escaped name with `\_` for `_` gives the name, and different names stay different. -/
theorem C108_names (s s' : Str) (h : Spec.texEscape s = Spec.texEscape s') (hs : Spec.TexName s) (hs' : Spec.TexName s') :
    s = s' := by
  have key : ∀ x : Str, Spec.TexName x → (Spec.texEscape x).filter (fun c => c ≠ '\\') = x := by
    intro x hx
    unfold Spec.texEscape
    induction x with
    | nil => rfl
    | cons c x ih =>
      rw [List.flatMap_cons, List.filter_append, ih (fun d hd => hx d (by simp [hd]))]
      by_cases hc : c = '_'
      · rw [if_pos hc, hc]; rfl
      · rw [if_neg hc]
        have hb : c ≠ '\\' := by
          have := hx c (by simp)
          simp only [List.mem_cons, not_or] at this
          exact this.1
        simp [hb]
  rw [← key s hs, ← key s' hs', h]

/-- Specification: how the caption names the tests. -/
def Spec.testPhrases : List (Str × Str) :=
  [("fisher".toList, "Fisher's randomization test".toList), ("student".toList, "paired Student's t-test".toList),
    ("tukey".toList, "Tukey's HSD test".toList)]

/-- **C108** (caption): the caption names the test the report was made with, and the threshold as `str` prints it. -/
theorem C108_caption {α : Type*} [Field α] [LinearOrder α] [IsStrictOrderedRing α] (r : Report α) (fm : Fmt α) (strP text : Str)
    (h : r.toLatex fm strP = .ok text) :
    ∃ (phrase before after : Str), (r.statTest, phrase) ∈ Spec.testPhrases ∧
      text = before ++ ("\nSuperscripts denote significant differences in ".toList ++ phrase ++ " with $p \\le ".toList ++
        strP ++ "$.\n}".toList) ++ after := by
  unfold Report.toLatex at h
  cases ht : statTestLabel r.statTest with
  | error e => rw [ht] at h; cases h
  | ok test =>
    cases hlab : collect (r.metrics.map getMetricLabel) with
    | error e => rw [ht, hlab] at h; cases h
    | ok labels =>
      cases hrows : r.latex fm with
      | error e => rw [ht, hlab, hrows] at h; cases h
      | ok rows =>
        rw [ht, hlab, hrows] at h
        simp only [Except.ok.injEq] at h
        have hmem : (r.statTest, test) ∈ statTestLabels := by
          unfold statTestLabel at ht
          cases hg : statTestLabels.get? r.statTest with
          | none => rw [hg] at ht; cases ht
          | some s =>
            rw [hg] at ht
            cases ht
            exact mem_of_get? hg
        have hsub : ∀ p ∈ statTestLabels, p ∈ Spec.testPhrases := by
          unfold statTestLabels Spec.testPhrases; decide +kernel
        have q1 : latexCaption = ("% To change the table size, act on the resizebox argument `0.8`.\n" ++
            "\\begin{table*}[ht]\n\\centering\n\\caption{\nOverall effectiveness of the models.\n" ++
            "The best results are highlighted in boldface.").toList ++
            "\nSuperscripts denote significant differences in ".toList := by decide +kernel
        have q2 : "$.\n}\n\\resizebox{0.8\\textwidth}{!}{".toList =
            "$.\n}".toList ++ "\n\\resizebox{0.8\\textwidth}{!}{".toList := by decide +kernel
        refine ⟨test, ?_, ?_, hsub _ hmem, ?_⟩
        · exact latexPreamble ++ "\n".toList ++ ("% To change the table size, act on the resizebox argument `0.8`.\n" ++
            "\\begin{table*}[ht]\n\\centering\n\\caption{\nOverall effectiveness of the models.\n" ++
            "The best results are highlighted in boldface.").toList
        · exact "\n\\resizebox{0.8\\textwidth}{!}{".toList ++ ("\n\\begin{tabular}{c|l".toList ++
            ((List.replicate labels.length "|c".toList).flatten ++ ("}".toList ++ ("\n\\toprule".toList ++
            ("\n\\textbf{\\#}".toList ++ ("\n& \\textbf{Model}".toList ++
            (labels.flatMap (fun l => "\n& \\textbf{".toList ++ l ++ "}".toList) ++ (" \\\\ \n\\midrule".toList ++
            ("\n".toList ++ (latexContent rows ++ ("\n".toList ++ latexSuffix)))))))))))
        · rw [← h]
          unfold latexPrefix
          rw [q1, q2]
          simp only [List.append_assoc]

/-- Other special characters are not escaped: a name with `&` adds a column to its row, an already escaped underscore
ends the row before its time, and `$^{}$` is deleted from a name. -/
theorem C108_special :
    Spec.texTable (latexContent [('a', "R&D".toList, [⟨true, "0.5".toList, [], []⟩])]) =
      ([["a".toList, "R".toList, "D".toList, "\\textbf{0.5}\\hphantom{}".toList]], [[]]) ∧
    Spec.texTable (latexContent [('a', "m\\_1".toList, [⟨true, "0.5".toList, [], []⟩])]) =
      ([["a".toList, "m".toList], ["_1".toList, "\\textbf{0.5}\\hphantom{}".toList]], [[]]) ∧
    Spec.texTable (latexContent [('a', "x$^{}$y".toList, [⟨true, "0.5".toList, [], []⟩])]) =
      ([["a".toList, "xy".toList, "\\textbf{0.5}\\hphantom{}".toList]], [[]]) := by
  decide +kernel

/-- non-vacuity of `C108_table`: a report on two models, with a significant difference -/
def exLatexReport : Report ℚ where
  modelNames := ["bm_25".toList, "dense".toList]
  results := [("bm_25".toList, [("map@10".toList, .val (1 / 4))]), ("dense".toList, [("map@10".toList, .val (1 / 2))])]
  comparisons := FrozensetDict.setItem [] ["bm_25".toList, "dense".toList] [("map@10".toList, ⟨.val (1 / 100), true⟩)]
  metrics := ["map@10".toList]
  maxP := 1 / 20
  winTieLoss := []
  statTest := "student".toList

set_option synthInstance.maxSize 1000 in
set_option synthInstance.maxHeartbeats 200000 in
example : (∃ text, exLatexReport.toLatex (pyFmt id false 2) "0.05".toList = .ok text) ∧
    exLatexReport.latex (pyFmt id false 2) = .ok [('a', "bm_25".toList, [⟨false, "0.25".toList, [], ['b']⟩]),
      ('b', "dense".toList, [⟨true, "0.50".toList, ['a'], []⟩])] ∧
    (∀ n ∈ exLatexReport.modelNames, Spec.TexName n) ∧
    (∀ m ∈ exLatexReport.metrics, ∃ p ∈ Spec.labels, ∃ k L, m = Spec.withParams p.1 k L) := by
  have h1 : exLatexReport.latex (pyFmt id false 2) = .ok [('a', "bm_25".toList, [⟨false, "0.25".toList, [], ['b']⟩]),
      ('b', "dense".toList, [⟨true, "0.50".toList, ['a'], []⟩])] := by decide +kernel
  have h2 : collect (exLatexReport.metrics.map getMetricLabel) = .ok ["MAP@10".toList] := by decide +kernel
  have h3 : statTestLabel exLatexReport.statTest = .ok "paired Student's t-test".toList := by decide +kernel
  refine ⟨?_, h1, ?_, ?_⟩
  · unfold Report.toLatex
    rw [h3, h2, h1]
    exact ⟨_, rfl⟩
  · unfold Spec.TexName exLatexReport
    decide
  · intro m hm
    exact ⟨("map".toList, "MAP".toList), by decide +kernel, some 10, none, by
      rw [show m = "map@10".toList by simpa [exLatexReport] using hm]; decide +kernel⟩

/-- the rows a reader of the example sees -/
example : (Spec.texTable (latexContent [('a', "bm_25".toList, [⟨false, "0.25".toList, [], ['b']⟩]),
      ('b', "dense".toList, [⟨true, "0.50".toList, ['a'], []⟩])])).1 =
    [["a".toList, "bm\\_25".toList, "0.25\\hphantom{$^{b}$}".toList],
      ["b".toList, "dense".toList, "\\textbf{0.50}$^{a}$\\hphantom{}".toList]] := by decide +kernel

end Ranx
