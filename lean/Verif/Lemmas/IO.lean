import Verif.Model.IO
import Verif.Lemmas.PyStr
import Verif.Lemmas.Store

/-! Helper lemmas about text files. -/

set_option linter.unusedSectionVars false

namespace Ranx.Files
open Py Dict Store

/-- a non-empty text without white space -/
def Spec.Word (s : Str) : Prop := s ≠ [] ∧ ∀ c ∈ s, isSpace c = false

open Spec (Word)

theorem consHead_ne_nil (c : Char) (l : List Str) : consHead c l ≠ [] := by
  cases l <;> simp [consHead]

theorem pieces_word (w : Str) (h : ∀ c ∈ w, isSpace c = false) : pieces w = [w] := by
  induction w with
  | nil => rfl
  | cons c t ih =>
    have hc := h c (List.mem_cons_self ..)
    rw [pieces, if_neg (by simp [hc]), ih (fun x hx => h x (List.mem_cons_of_mem _ hx))]
    rfl

theorem pieces_append (w : Str) (c : Char) (t : Str) (h : ∀ x ∈ w, isSpace x = false)
    (hc : isSpace c = true) : pieces (w ++ c :: t) = w :: pieces t := by
  induction w with
  | nil => rw [List.nil_append, pieces, if_pos hc]
  | cons x w ih =>
    have hx := h x (List.mem_cons_self ..)
    rw [List.cons_append, pieces, if_neg (by simp [hx]),
      ih (fun y hy => h y (List.mem_cons_of_mem _ hy))]
    rfl

theorem splitWs_word {w : Str} (h : Word w) : splitWs w = [w] := by
  rw [splitWs, pieces_word w h.2]
  simp [h.1]

theorem splitWs_append {w : Str} (h : Word w) (c : Char) (t : Str) (hc : isSpace c = true) :
    splitWs (w ++ c :: t) = w :: splitWs t := by
  rw [splitWs, pieces_append w c t h.2 hc, List.filter_cons_of_pos (by simp [h.1])]
  rfl

theorem splitWs_space (w t : Str) (h : Word w) : splitWs (w ++ " ".toList ++ t) = w :: splitWs t := by
  rw [List.append_assoc]
  exact splitWs_append h ' ' t rfl

theorem word_natStr (n : Nat) : Word (natStr n) :=
  ⟨natStr_ne_nil n, fun _ hc => isDigit_not_space (natStr_isDigit hc)⟩

theorem word_intStr (z : Int) : Word (intStr z) := by
  cases z with
  | ofNat n => exact word_natStr n
  | negSucc n =>
    refine ⟨by simp [intStr], ?_⟩
    intro c hc
    rcases List.mem_cons.1 hc with rfl | hc
    · rfl
    · exact (word_natStr _).2 c hc

theorem splitWs_runLine {α : Type*} (T : FloatText α) {name q doc : Str} (hn : Word name) (hq : Word q)
    (hd : Word doc) (rank : Nat) (v : α) :
    splitWs (runLine T name q doc rank v) =
      [q, "Q0".toList, doc, natStr (rank + 1), T.show' v, name] := by
  have hQ : Word "Q0".toList := by constructor <;> decide
  have e : runLine T name q doc rank v = q ++ " ".toList ++ ("Q0".toList ++ " ".toList ++
      (doc ++ " ".toList ++ (natStr (rank + 1) ++ " ".toList ++ (T.show' v ++ " ".toList ++ name)))) := by
    have : " Q0 ".toList = " ".toList ++ ("Q0".toList ++ " ".toList) := by decide
    simp only [runLine, this, List.append_assoc]
  rw [e, splitWs_space _ _ hq, splitWs_space _ _ hQ, splitWs_space _ _ hd,
    splitWs_space _ _ (word_natStr _), splitWs_space _ _ ⟨T.ne_nil v, T.noSpace v⟩, splitWs_word hn]

theorem splitWs_qrelsLine {q doc : Str} (hq : Word q) (hd : Word doc) (v : Int) :
    splitWs (qrelsLine q doc v) = [q, "0".toList, doc, intStr v] := by
  have hQ : Word "0".toList := by constructor <;> decide
  have e : qrelsLine q doc v = q ++ " ".toList ++ ("0".toList ++ " ".toList ++
      (doc ++ " ".toList ++ intStr v)) := by
    have : " 0 ".toList = " ".toList ++ ("0".toList ++ " ".toList) := by decide
    simp only [qrelsLine, this, List.append_assoc]
  rw [e, splitWs_space _ _ hq, splitWs_space _ _ hQ, splitWs_space _ _ hd,
    splitWs_word (word_intStr v)]

/-! ### lines -/

theorem translate_eq_self (s : Str) (h : '\r' ∉ s) : translate s = s := by
  induction s with
  | nil => rfl
  | cons c t ih =>
    have hc : c ≠ '\r' := fun e => h (by simp [e])
    have ih := ih (fun hm => h (List.mem_cons_of_mem _ hm))
    unfold translate
    split
    · contradiction
    · rw [ih]

theorem lines_append (l t : Str) (h : '\n' ∉ l) : lines (l ++ '\n' :: t) = l :: lines t := by
  induction l with
  | nil => rw [List.nil_append, lines, if_pos rfl]
  | cons c l ih =>
    rw [List.cons_append, lines, if_neg (fun e => h (by simp [e])),
      ih (fun hm => h (List.mem_cons_of_mem _ hm))]
    rfl

theorem lines_single (l : Str) (h : '\n' ∉ l) (hne : l ≠ []) : lines l = [l] := by
  induction l with
  | nil => exact absurd rfl hne
  | cons c l ih =>
    rw [lines, if_neg (fun e => h (by simp [e]))]
    cases l with
    | nil => rfl
    | cons d l =>
      rw [ih (fun hm => h (List.mem_cons_of_mem _ hm)) (by simp)]
      rfl

/-- a sequence of lines, each followed by a newline or not -/
theorem lines_items (items : List (Str × Bool)) (hn : ∀ p ∈ items, '\n' ∉ p.1 ∧ p.1 ≠ [])
    (hp : items.Pairwise (fun a _ => a.2 = true)) :
    lines (items.flatMap (fun p => p.1 ++ (if p.2 then ['\n'] else []))) = items.map Prod.fst := by
  induction items with
  | nil => rfl
  | cons p t ih =>
    rw [List.pairwise_cons] at hp
    have h1 := hn p (List.mem_cons_self ..)
    have ih := ih (fun x hx => hn x (List.mem_cons_of_mem _ hx)) hp.2
    rw [List.flatMap_cons]
    cases hb : p.2 with
    | true =>
      simp only [if_true, List.append_assoc, List.cons_append, List.nil_append]
      rw [lines_append _ _ h1.1, ih]; rfl
    | false =>
      cases t with
      | nil =>
        simp only [Bool.false_eq_true, if_false, List.append_nil, List.flatMap_nil]
        rw [lines_single _ h1.1 h1.2]; rfl
      | cons a t => simp [hp.1 a (List.mem_cons_self ..)] at hb

/-- the lines `writeText` writes -/
def textLines {β : Type*} (line : Str → Str → Nat → β → Str) (d : Dict Str (Dict Str β)) : List Str :=
  d.flatMap (fun p => p.2.zipIdx.map (fun ej => line p.1 ej.1.1 ej.2 ej.1.2))

theorem fileLines_writeText {β : Type*} (line : Str → Str → Nat → β → Str) (d : Dict Str (Dict Str β))
    (h : ∀ l ∈ textLines line d, '\n' ∉ l ∧ '\r' ∉ l ∧ l ≠ []) :
    fileLines (writeText line d) = textLines line d := by
  let items : List (Str × Bool) := d.zipIdx.flatMap (fun qi => qi.1.2.zipIdx.map (fun ej =>
    (line qi.1.1 ej.1.1 ej.2 ej.1.2,
      decide (qi.2 ≠ d.length - 1 ∨ ej.2 ≠ qi.1.2.length - 1))))
  have hw : writeText line d = items.flatMap (fun p => p.1 ++ (if p.2 then ['\n'] else [])) := by
    simp only [items, writeText, List.flatMap_assoc, List.flatMap_map, decide_eq_true_eq]
  have hl : items.map Prod.fst = textLines line d := by
    simp only [items, textLines, List.map_flatMap, List.map_map, Function.comp_def]
    conv_rhs => rw [← List.zipIdx_map_fst 0 d]
    rw [List.flatMap_map]
  have hmem : ∀ p ∈ items, p.1 ∈ textLines line d := by
    intro p hp; rw [← hl]; exact List.mem_map_of_mem hp
  have hr : '\r' ∉ writeText line d := by
    rw [hw]
    intro hm
    obtain ⟨p, hp, hm⟩ := List.mem_flatMap.1 hm
    rcases List.mem_append.1 hm with hm | hm
    · exact (h _ (hmem p hp)).2.1 hm
    · split at hm <;> simp at hm
  rw [fileLines, translate_eq_self _ hr, hw, lines_items, hl]
  · intro p hp; exact ⟨(h _ (hmem p hp)).1, (h _ (hmem p hp)).2.2⟩
  · rw [List.pairwise_flatMap]
    constructor
    · rintro ⟨⟨q, docs⟩, i⟩ _
      rw [List.pairwise_map, List.pairwise_iff_getElem]
      intro a b ha hb hab
      simp only [List.length_zipIdx] at ha hb
      simp only [List.getElem_zipIdx, decide_eq_true_eq]
      right; omega
    · rw [List.pairwise_iff_getElem]
      intro a b ha hb hab x hx y _
      simp only [List.length_zipIdx] at ha hb
      obtain ⟨e, _, rfl⟩ := List.mem_map.1 hx
      simp only [List.getElem_zipIdx, decide_eq_true_eq]
      left; omega

/-! ### building the dictionary -/

section
variable {β : Type*}

/-- the facts of a content in order -/
def facts (d : Dict Str (Dict Str β)) : List (Str × Str × β) :=
  d.flatMap (fun p => p.2.map (fun e => (p.1, e.1, e.2)))

/-- assigning facts one after the other -/
def assign (d : Dict Str (Dict Str β)) (fs : List (Str × Str × β)) : Dict Str (Dict Str β) :=
  fs.foldl (fun d f => setDefault d f.1 f.2.1 f.2.2) d

theorem set_append_last {ν : Type*} (d : Dict Str ν) (q : Str) (a v : ν) (h : q ∉ keys d) :
    Dict.set (d ++ [(q, a)]) q v = d ++ [(q, v)] := by
  induction d with
  | nil => simp [Dict.set]
  | cons p t ih =>
    have hp : p.1 ≠ q := fun e => h (by simp [Dict.keys, e])
    have : Dict.set (p :: (t ++ [(q, a)])) q v = p :: Dict.set (t ++ [(q, a)]) q v := by
      obtain ⟨x, y⟩ := p
      rw [Dict.set, if_neg hp]
    rw [List.cons_append, this, ih (fun hm => h (by simp only [Dict.keys_cons]; exact List.mem_cons_of_mem _ hm))]
    rfl

theorem get?_append_last {ν : Type*} (d : Dict Str ν) (q : Str) (a : ν) (h : q ∉ keys d) :
    Dict.get? (d ++ [(q, a)]) q = some a := by
  induction d with
  | nil => simp [Dict.get?]
  | cons p t ih =>
    have hp : p.1 ≠ q := fun e => h (by simp [Dict.keys, e])
    obtain ⟨x, y⟩ := p
    rw [List.cons_append, Dict.get?, if_neg hp]
    exact ih (fun hm => h (by simp only [Dict.keys_cons]; exact List.mem_cons_of_mem _ hm))

theorem assign_query_more (d : Dict Str (Dict Str β)) (q : Str) (pre es : Dict Str β) (h : q ∉ keys d)
    (hn : NodupKeys (pre ++ es)) :
    assign (d ++ [(q, pre)]) (es.map (fun e => (q, e.1, e.2))) = d ++ [(q, pre ++ es)] := by
  induction es generalizing pre with
  | nil => simp [assign]
  | cons e es ih =>
    have h1 : e.1 ∉ keys pre := by
      have := hn
      unfold NodupKeys at this
      rw [List.map_append, List.nodup_append] at this
      intro hm
      exact this.2.2 _ hm e.1 (by simp) rfl
    have hs : setDefault (d ++ [(q, pre)]) q e.1 e.2 = d ++ [(q, pre ++ [e])] := by
      rw [setDefault, get?_append_last d q pre h, set_append_last d q pre _ h]
      simp only [Option.getD_some]
      rw [set_of_notMem e.2 h1]
    have := ih (pre ++ [e]) (by simpa using hn)
    rw [List.map_cons]
    show assign (setDefault (d ++ [(q, pre)]) q e.1 e.2) _ = _
    rw [hs, this]
    simp

theorem assign_query (d : Dict Str (Dict Str β)) (q : Str) (es : Dict Str β) (h : q ∉ keys d)
    (hn : NodupKeys es) (hne : es ≠ []) :
    assign d (es.map (fun e => (q, e.1, e.2))) = d ++ [(q, es)] := by
  cases es with
  | nil => exact absurd rfl hne
  | cons e es =>
    have hs : setDefault d q e.1 e.2 = d ++ [(q, [e])] := by
      rw [setDefault, (get?_eq_none).2 h]
      simp only [Option.getD_none]
      rw [set_of_notMem _ h]
      rfl
    show assign (setDefault d q e.1 e.2) _ = _
    rw [hs]
    have := assign_query_more d q [e] es h (by simpa using hn)
    simpa using this

/-- the queries that have docs -/
def nonEmpty (d : Dict Str (Dict Str β)) : Dict Str (Dict Str β) := d.filter (fun p => !p.2.isEmpty)

theorem assign_facts_append (acc d : Dict Str (Dict Str β)) (hd : NodupKeys (acc ++ d))
    (hi : ∀ p ∈ d, NodupKeys p.2) : assign acc (facts d) = acc ++ nonEmpty d := by
  induction d generalizing acc with
  | nil => simp [assign, facts, nonEmpty]
  | cons p d ih =>
    have hq : p.1 ∉ keys acc := by
      have := hd
      unfold NodupKeys at this
      rw [List.map_append, List.nodup_append] at this
      intro hm
      exact this.2.2 _ hm p.1 (by simp) rfl
    have e : assign acc (facts (p :: d)) = assign (assign acc (p.2.map (fun e => (p.1, e.1, e.2)))) (facts d) := by
      simp only [assign, facts, List.flatMap_cons, List.foldl_append]
    rw [e]
    by_cases hp : p.2 = []
    · rw [hp]
      have : nonEmpty (p :: d) = nonEmpty d := by simp [nonEmpty, hp]
      rw [this]
      refine ih acc ?_ (fun x hx => hi x (List.mem_cons_of_mem _ hx))
      unfold NodupKeys at hd ⊢
      exact hd.sublist ((List.Sublist.refl acc).append (List.sublist_cons_self p d) |>.map Prod.fst)
    · rw [assign_query acc p.1 p.2 hq (hi p (List.mem_cons_self ..)) hp]
      have : nonEmpty (p :: d) = p :: nonEmpty d := by simp [nonEmpty, hp]
      rw [this, ih (acc ++ [p]) (by simpa using hd) (fun x hx => hi x (List.mem_cons_of_mem _ hx))]
      simp

theorem assign_facts (d : Dict Str (Dict Str β)) (hw : Wf d) : assign [] (facts d) = nonEmpty d := by
  simpa using assign_facts_append [] d (by simpa using hw.1) hw.2

/-- reading a fact after assignments: the last one for this query and doc wins -/
theorem read_assign (fs : List (Str × Str × β)) (d : Dict Str (Dict Str β)) (q x : Str) :
    (cont (assign d fs)).read q x =
      ((fs.reverse.find? (fun r => r.1 = q ∧ r.2.1 = x)).map (fun r => r.2.2)).or ((cont d).read q x) := by
  induction fs generalizing d with
  | nil => simp [assign]
  | cons f fs ih =>
    have e : assign d (f :: fs) = assign (setDefault d f.1 f.2.1 f.2.2) fs := rfl
    rw [e, ih, List.reverse_cons, List.find?_append]
    have hr : (cont (setDefault d f.1 f.2.1 f.2.2)).read q x =
        if f.1 = q ∧ f.2.1 = x then some f.2.2 else (cont d).read q x := by
      simp only [setDefault, cont, Ranx.Spec.Content.read, get?_set]
      by_cases h1 : f.1 = q
      · subst h1
        simp only [if_true, Option.map_some, Option.bind_some, get?_set, true_and]
        by_cases h2 : f.2.1 = x
        · simp [h2]
        · rw [if_neg h2, if_neg h2]
          cases Dict.get? d f.1 <;> simp
      · rw [if_neg h1, if_neg (fun h => h1 h.1)]
    rw [hr]
    cases hf : fs.reverse.find? (fun r => decide (r.1 = q ∧ r.2.1 = x)) with
    | some a => simp
    | none =>
      simp only [Option.none_or, Option.map_none]
      by_cases h : f.1 = q ∧ f.2.1 = x
      · rw [if_pos h]; simp [h]
      · rw [if_neg h, List.find?_cons_of_neg (by simpa using h)]; simp

theorem mem_keys_assign (fs : List (Str × Str × β)) (d : Dict Str (Dict Str β)) (q : Str) :
    q ∈ keys (assign d fs) ↔ q ∈ keys d ∨ ∃ f ∈ fs, f.1 = q := by
  induction fs generalizing d with
  | nil => simp [assign]
  | cons f fs ih =>
    have e : assign d (f :: fs) = assign (setDefault d f.1 f.2.1 f.2.2) fs := rfl
    rw [e, ih, setDefault, mem_keys_set]
    simp only [List.mem_cons, exists_eq_or_imp]
    constructor
    · rintro ((h | h) | h)
      · exact .inr (.inl h.symm)
      · exact .inl h
      · exact .inr (.inr h)
    · rintro (h | h | h)
      · exact .inl (.inr h)
      · exact .inl (.inl h.symm)
      · exact .inr h

theorem wf_assign (fs : List (Str × Str × β)) (d : Dict Str (Dict Str β)) (h : Wf d) :
    Wf (assign d fs) := by
  induction fs generalizing d with
  | nil => exact h
  | cons f fs ih =>
    refine ih (setDefault d f.1 f.2.1 f.2.2) (h.set _ (NodupKeys.set ?_ _ _))
    cases hg : Dict.get? d f.1 with
    | none => exact nodupKeys_nil
    | some inner => exact h.get? hg

theorem ne_nil_assign (fs : List (Str × Str × β)) (d : Dict Str (Dict Str β))
    (h : ∀ p ∈ d, p.2 ≠ []) : ∀ p ∈ assign d fs, p.2 ≠ [] := by
  induction fs generalizing d with
  | nil => exact h
  | cons f fs ih =>
    refine ih (setDefault d f.1 f.2.1 f.2.2) ?_
    intro p hp
    rcases mem_set hp with hp | hp
    · exact h p hp
    · rw [hp]
      intro e
      have : f.2.1 ∈ keys (Dict.set ((Dict.get? d f.1).getD []) f.2.1 f.2.2) :=
        mem_keys_set.2 (.inl rfl)
      simp only [] at e
      rw [e] at this
      simp at this

end

/-! ### parsing -/

section
variable {α : Type*} (T : FloatText α)

/-- what a line of a run file says -/
def runFact (l : Str) : Option (Str × Str × α) :=
  match splitWs l with
  | [q, _, doc, _, rel, _] => (T.parse rel).map (fun v => (q, doc, v))
  | _ => none

/-- the name on a line of a run file -/
def runNameOf (l : Str) : Option Str := (splitWs l)[5]?

theorem parseRun_cons_none (l : Str) (ls : List Str) (d : Dict Str (Dict Str α)) (name : Option Str)
    (h : runFact T l = none) : parseRun T (l :: ls) d name = .error .valueError := by
  rw [parseRun]
  unfold runFact at h
  split
  · rename_i q a doc b rel n he
    rw [he] at h
    simp only [Option.map_eq_none_iff] at h
    rw [h]
  · rfl

theorem parseRun_cons_some (l : Str) (ls : List Str) (d : Dict Str (Dict Str α)) (name : Option Str)
    (f : Str × Str × α) (h : runFact T l = some f) :
    parseRun T (l :: ls) d name =
      parseRun T ls (setDefault d f.1 f.2.1 f.2.2) (name.or (runNameOf l)) := by
  rw [parseRun]
  unfold runFact at h
  split
  · rename_i q a doc b rel n he
    rw [he] at h
    obtain ⟨v, hv, rfl⟩ := Option.map_eq_some_iff.1 h
    rw [hv]
    simp only [runNameOf, he]
    cases name <;> rfl
  · rename_i hno
    split at h
    · rename_i q a doc b rel n he
      exact absurd he (hno _ _ _ _ _ _)
    · cases h

theorem parseRun_error (ls : List Str) (d : Dict Str (Dict Str α)) (name : Option Str)
    (h : ∃ l ∈ ls, runFact T l = none) : parseRun T ls d name = .error .valueError := by
  induction ls generalizing d name with
  | nil => obtain ⟨l, hl, _⟩ := h; cases hl
  | cons l ls ih =>
    cases hf : runFact T l with
    | none => exact parseRun_cons_none T l ls d name hf
    | some f =>
      rw [parseRun_cons_some T l ls d name f hf]
      apply ih
      obtain ⟨l', hl', hn⟩ := h
      rcases List.mem_cons.1 hl' with rfl | hl'
      · rw [hf] at hn; cases hn
      · exact ⟨l', hl', hn⟩

theorem parseRun_ok (ls : List Str) (d : Dict Str (Dict Str α)) (name : Option Str)
    (fs : List (Str × Str × α)) (h : ls.map (runFact T) = fs.map some) :
    parseRun T ls d name = .ok (assign d fs, name.or (ls.head?.bind runNameOf)) := by
  induction ls generalizing d name fs with
  | nil =>
    cases fs with
    | nil => simp [parseRun, assign]
    | cons => simp at h
  | cons l ls ih =>
    cases fs with
    | nil => simp at h
    | cons f fs =>
      simp only [List.map_cons, List.cons.injEq] at h
      rw [parseRun_cons_some T l ls d name f h.1, ih _ _ fs h.2]
      have hn : ∃ n, runNameOf l = some n := by
        have h1 := h.1
        unfold runFact at h1
        split at h1
        · rename_i q a doc b rel n he
          exact ⟨n, by simp [runNameOf, he]⟩
        · cases h1
      obtain ⟨n, hn⟩ := hn
      cases name <;> simp [hn, assign]

/-- what a line of a qrels file says -/
def qrelsFact (l : Str) : Option (Str × Str × Int) :=
  match splitWs l with
  | [q, _, doc, rel] => (pyInt rel).map (fun v => (q, doc, v))
  | _ => none

theorem parseQrels_cons_none (l : Str) (ls : List Str) (d : Dict Str (Dict Str Int))
    (h : qrelsFact l = none) : parseQrels (l :: ls) d = .error .valueError := by
  rw [parseQrels]
  unfold qrelsFact at h
  split
  · rename_i q a doc rel he
    rw [he] at h
    simp only [Option.map_eq_none_iff] at h
    rw [h]
  · rfl

theorem parseQrels_cons_some (l : Str) (ls : List Str) (d : Dict Str (Dict Str Int))
    (f : Str × Str × Int) (h : qrelsFact l = some f) :
    parseQrels (l :: ls) d = parseQrels ls (setDefault d f.1 f.2.1 f.2.2) := by
  rw [parseQrels]
  unfold qrelsFact at h
  split
  · rename_i q a doc rel he
    rw [he] at h
    obtain ⟨v, hv, rfl⟩ := Option.map_eq_some_iff.1 h
    rw [hv]
  · rename_i hno
    split at h
    · rename_i q a doc rel he
      exact absurd he (hno _ _ _ _)
    · cases h

theorem parseQrels_error (ls : List Str) (d : Dict Str (Dict Str Int))
    (h : ∃ l ∈ ls, qrelsFact l = none) : parseQrels ls d = .error .valueError := by
  induction ls generalizing d with
  | nil => obtain ⟨l, hl, _⟩ := h; cases hl
  | cons l ls ih =>
    cases hf : qrelsFact l with
    | none => exact parseQrels_cons_none l ls d hf
    | some f =>
      rw [parseQrels_cons_some l ls d f hf]
      apply ih
      obtain ⟨l', hl', hn⟩ := h
      rcases List.mem_cons.1 hl' with rfl | hl'
      · rw [hf] at hn; cases hn
      · exact ⟨l', hl', hn⟩

theorem parseQrels_ok (ls : List Str) (d : Dict Str (Dict Str Int))
    (fs : List (Str × Str × Int)) (h : ls.map qrelsFact = fs.map some) :
    parseQrels ls d = .ok (assign d fs) := by
  induction ls generalizing d fs with
  | nil =>
    cases fs with
    | nil => simp [parseQrels, assign]
    | cons => simp at h
  | cons l ls ih =>
    cases fs with
    | nil => simp at h
    | cons f fs =>
      simp only [List.map_cons, List.cons.injEq] at h
      rw [parseQrels_cons_some l ls d f h.1, ih _ fs h.2]
      rfl

/-- every line means something, or one does not -/
theorem facts_or_none {γ : Type*} (f : Str → Option γ) (ls : List Str) :
    (∃ fs : List γ, ls.map f = fs.map some) ∨ ∃ l ∈ ls, f l = none := by
  induction ls with
  | nil => exact .inl ⟨[], rfl⟩
  | cons l ls ih =>
    cases h : f l with
    | none => exact .inr ⟨l, List.mem_cons_self .., h⟩
    | some a =>
      rcases ih with ⟨fs, hfs⟩ | ⟨l', hl', hn⟩
      · exact .inl ⟨a :: fs, by simp [h, hfs]⟩
      · exact .inr ⟨l', List.mem_cons_of_mem _ hl', hn⟩

end
end Ranx.Files
