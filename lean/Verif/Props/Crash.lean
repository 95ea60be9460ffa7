import Verif.Model.Crash
import Verif.Props.TrecFloats
import Verif.Props.FilesB

/-!
# C148: interrupted saves

Whenever the process stops during `save`, a JSON file it leaves behind is the old one, the complete new one, or one that
`from_file` rejects.  TREC files are not protected: an initial part of one is loaded without complaint.
-/

set_option linter.unusedSectionVars false

namespace Ranx
open Dict Store FText Files Special Special.X Byt
open Py
open Files.Spec (Word)

/-! ## Specification -/

/-- `cut` is `full` without some of its last elements; the last element of `cut` may also be a version (`R`) of the
element of `full` at its place -/
inductive Spec.Shortened {γ : Type*} (R : γ → γ → Prop) : List γ → List γ → Prop
  | nil (l : List γ) : Spec.Shortened R l []
  | last (a b : γ) (l : List γ) : R a b → Spec.Shortened R (a :: l) [b]
  | cons (a : γ) (l l' : List γ) : Spec.Shortened R l l' → Spec.Shortened R (a :: l) (a :: l')

/-- `e` is a non-empty initial part of `w` -/
def Spec.StartOf (w e : Str) : Prop := e ≠ [] ∧ e <+: w

/-- the row `b` has the query and the doc of the row `a`, and its value is written like the first digits of the value of
`a` -/
def Spec.CutRow (a b : Str × Str × Int) : Prop :=
  b.1 = a.1 ∧ b.2.1 = a.2.1 ∧ ∃ c, Spec.StartOf (intStr a.2.2) c ∧ pyInt c = some b.2.2

/-! ## Bytes -/

/-- an initial part of a UTF-8 text that can be decoded is an initial part of the text -/
theorem utf8_cut (p : Str) : ∀ (s : Str) (rest : Bytes), utf8 p ++ rest = utf8 s → ∃ t, s = p ++ t ∧ utf8 t = rest := by
  induction p with
  | nil => intro s rest h; exact ⟨s, rfl, by simpa [utf8] using h.symm⟩
  | cons c p ih =>
    intro s rest h
    have e : utf8 (c :: p) = encodeChar c ++ utf8 p := by simp [utf8]
    rw [e, List.append_assoc] at h
    have h1 := readUtf8_of (utf8Char_encode c) (utf8 p ++ rest)
    cases s with
    | nil =>
      have := utf8Char_ne_nil (utf8Char_encode c)
      simp only [utf8, List.flatMap_nil, List.append_eq_nil_iff] at h
      exact absurd h.1 this
    | cons c' s =>
      have e' : utf8 (c' :: s) = encodeChar c' ++ utf8 s := by simp [utf8]
      have h2 := readUtf8_of (utf8Char_encode c') (utf8 s)
      rw [h, e', h2, Option.some.injEq, Prod.mk.injEq] at h1
      obtain ⟨rfl, h1⟩ := h1
      obtain ⟨t, rfl, ht⟩ := ih s rest h1.symm
      exact ⟨t, rfl, ht⟩

/-! ## JSON -/

namespace Jsn
variable {ν : Type*}

/-- reading the text of an object does not look beyond its closing brace -/
theorem readValue_obj {N : NumText ν} {lax : Bool} {t : Str} {v : Json ν} (h : Spec.Denotes N lax ('{' :: t) v)
    (n : Nat) (hn : t.length + 1 < n) (r : Str) : readValue N lax n ('{' :: t ++ r) = some (v, r) := by
  cases n with
  | zero => omega
  | succ n =>
    generalize hs : '{' :: t = s at h
    cases h with
    | null => exact absurd hs (by simp)
    | true => exact absurd hs (by simp)
    | false => exact absurd hs (by simp)
    | nan => exact absurd hs (by simp)
    | num _ x h1 h2 => subst hs; exact absurd (h1 '{' (by simp)) (by decide)
    | str t s h => exact absurd hs (by simp)
    | emptyArr => exact absurd hs (by simp)
    | arr => exact absurd hs (by simp)
    | emptyObj w hw =>
      have e : skip (w ++ '}' :: r) = '}' :: r := by rw [skip_blank hw, skip_of_head (by decide)]
      simp [readValue, e]
    | obj t ms hm =>
      obtain ⟨u, e⟩ := members_head hm ('}' :: r)
      have := complete_members hm n (by simp at hs; simp [hs] at hn; omega) r
      rw [← readMembers_skip, e] at this
      simp [readValue, e, this]

theorem dumps_obj_head (N : NumText ν) (ascii : Bool) (indent lvl : Nat) (ms : List (Str × Json ν)) :
    ∃ t, dumps N ascii indent lvl (.obj ms) = '{' :: t := by
  cases ms with
  | nil => exact ⟨['}'], by simp only [dumps]⟩
  | cons p ms => exact ⟨_, by simp only [dumps, List.cons_append]; rfl⟩

theorem noNan_nested {β : Type*} (g : β → Json ν) (hn : ∀ x, Spec.noNan (g x)) (d : Dict Str (Dict Str β)) :
    Spec.noNan (nested g d) := by
  have hnn : ∀ d : Dict Str β, Spec.noNanMembers (d.map (fun e => (e.1, g e.2))) := by
    intro d
    induction d with
    | nil => simp [Spec.noNanMembers]
    | cons p t ih => simp only [List.map_cons, Spec.noNanMembers]; exact ⟨hn _, ih⟩
  unfold nested
  simp only [Spec.noNan]
  induction d with
  | nil => simp [Spec.noNanMembers]
  | cons p t ih => simp only [List.map_cons, Spec.noNanMembers, Spec.noNan]; exact ⟨hnn _, ih⟩

end Jsn

open Jsn in
/-- **C148** (JSON text): what `orjson.dumps` or `json.dumps` writes for a dictionary, cut anywhere before its end, is
rejected by the reader. -/
theorem C148_json_text {ν : Type*} (N : NumText ν) (lax ascii : Bool) (indent : Nat) (ms : List (Str × Json ν))
    (hn : lax = true ∨ Spec.noNan (.obj ms)) (p t : Str) (h : p ++ t = Jsn.dumps N ascii indent 0 (.obj ms))
    (ht : t ≠ []) : Jsn.loads N lax p = none := by
  cases hl : Jsn.loads N lax p with
  | none => rfl
  | some v' =>
    exfalso
    obtain ⟨w, tx, w', rfl, hw, hd, hw'⟩ := (C124_reader N lax p v').1 hl
    obtain ⟨u, hu⟩ := dumps_obj_head N ascii indent 0 ms
    have hs := dumps_spec N lax ascii indent 0 (.obj ms) hn
    rw [hu] at h hs
    have hw0 : w = [] := by
      cases w with
      | nil => rfl
      | cons c w =>
        simp only [List.cons_append, List.cons.injEq] at h
        have := hw c (by simp)
        rw [h.1] at this
        exact absurd this (by decide)
    subst hw0
    obtain ⟨c, tx', rfl, -⟩ := denotes_head hd
    have hc : c = '{' := by simp only [List.nil_append, List.cons_append, List.cons.injEq] at h; exact h.1
    subst hc
    have r1 := readValue_obj hd (tx'.length + u.length + 2) (by omega) (w' ++ t)
    have r2 := readValue_obj hs (tx'.length + u.length + 2) (by omega) []
    have e : '{' :: tx' ++ (w' ++ t) = '{' :: u ++ [] := by rw [← h]; simp
    rw [e, r2, Option.some.injEq, Prod.mk.injEq] at r1
    have := r1.2.symm
    simp only [List.append_eq_nil_iff] at this
    exact ht this.2

/-- a cut JSON file is not decoded, or its text is rejected -/
theorem cut_json {ν β : Type*} (N : Jsn.NumText ν) (g : β → Jsn.Json ν) (hg : ∀ x, Spec.noNan (g x))
    (d : Dict Str (Dict Str β)) (b rest : Bytes) (h : b ++ rest = utf8 (Jsn.dumps N false 2 0 (Jsn.nested g d)))
    (hr : rest ≠ []) : ∀ p, ofUtf8 b = some p → Jsn.loads N false p = none := by
  intro p hp
  have e := (C132_roundtrip _ _).1 hp
  subst e
  obtain ⟨t, ht, htr⟩ := utf8_cut p _ _ h
  refine C148_json_text N false false 2 _ (.inr (Jsn.noNan_nested g hg d)) p t ht.symm ?_
  rintro rfl
  exact hr (by rw [← htr]; rfl)

/-- **C148** (runs as JSON): when the process stops during `run.save(path, kind="json")`, the file at the path is the one
that was there before, or the complete one, or `Run.from_file` raises a ValueError: no other run is ever loaded. -/
theorem C148_run_json (N : Jsn.NumText ℚ) (S S' : ArgSort (X ℚ)) (s : Store Str Str (X ℚ)) (old : Option Bytes)
    (b : Bytes) (h : Left old (runJsonBytes N S s) (some b)) :
    old = some b ∨ b = runJsonBytes N S s ∨ runOfJsonBytes N S' b = .error .valueError := by
  generalize hb : some b = ob at h
  cases h with
  | unopened => exact .inl rfl
  | written b' rest h =>
    rw [Option.some.injEq] at hb
    subst hb
    refine .inr ?_
    by_cases hr : rest = []
    · subst hr; exact .inl (by rw [← h, List.append_nil])
    · refine .inr ?_
      have := cut_json N Jsn.scoreJson (fun x => by cases x <;> simp [Jsn.scoreJson, Spec.noNan]) _ b rest h hr
      unfold runOfJsonBytes
      cases hp : ofUtf8 b with
      | none => rfl
      | some p => simp only [Jsn.runOfJson, Jsn.nestedOf, this p hp]

/-- **C148** (qrels as JSON): the same for `qrels.save(path, kind="json")` and `Qrels.from_file`. -/
theorem C148_qrels_json (N : Jsn.NumText Int) (S : ArgSort Int) (s : Store Str Str Int) (old : Option Bytes)
    (b : Bytes) (h : Left old (qrelsJsonBytes N s) (some b)) :
    old = some b ∨ b = qrelsJsonBytes N s ∨ qrelsOfJsonBytes N S b = .error .valueError := by
  generalize hb : some b = ob at h
  cases h with
  | unopened => exact .inl rfl
  | written b' rest h =>
    rw [Option.some.injEq] at hb
    subst hb
    refine .inr ?_
    by_cases hr : rest = []
    · subst hr; exact .inl (by rw [← h, List.append_nil])
    · refine .inr ?_
      have := cut_json N .num (fun x => by simp [Spec.noNan]) _ b rest h hr
      unfold qrelsOfJsonBytes
      cases hp : ofUtf8 b with
      | none => rfl
      | some p => simp only [Jsn.qrelsOfJson, Jsn.nestedOf, this p hp]

/-! ## TREC -/

namespace Files

/-- words with a space between them -/
def joinSp : List Str → Str
  | [] => []
  | [w] => w
  | w :: v :: ws => w ++ " ".toList ++ joinSp (v :: ws)

theorem prefix_append_cases {γ : Type*} {c a b : List γ} (h : c <+: a ++ b) : c <+: a ∨ ∃ d, c = a ++ d ∧ d <+: b := by
  rcases List.prefix_append_right_inj a |>.2 (List.prefix_refl b) |> fun _ => List.prefix_or_prefix_of_prefix h
    (List.prefix_append a b) with h1 | ⟨d, rfl⟩
  · exact .inl h1
  · exact .inr ⟨d, rfl, (List.prefix_append_right_inj a).1 h⟩

theorem word_start {w e : Str} (h : Word w) (he : Spec.StartOf w e) : Word e :=
  ⟨he.1, fun c hc => h.2 c (he.2.subset hc)⟩

theorem splitWs_nil : splitWs [] = [] := rfl

/-- the fields of an initial part of a line -/
theorem splitWs_cut (ws : List Str) (hw : ∀ w ∈ ws, Word w) : ∀ c, c <+: joinSp ws →
    Spec.Shortened Spec.StartOf ws (splitWs c) := by
  induction ws with
  | nil =>
    intro c hc
    simp only [joinSp, List.prefix_nil] at hc
    subst hc
    exact .nil _
  | cons w ws ih =>
    have start : ∀ c, c <+: w → Spec.Shortened Spec.StartOf (w :: ws) (splitWs c) := by
      intro c hc
      by_cases h0 : c = []
      · subst h0; exact .nil _
      · rw [splitWs_word (word_start (hw w (by simp)) ⟨h0, hc⟩)]
        exact .last _ _ _ ⟨h0, hc⟩
    cases ws with
    | nil => intro c hc; exact start c hc
    | cons v ws =>
      intro c hc
      rw [joinSp] at hc
      rcases prefix_append_cases hc with h | ⟨d, rfl, hd⟩
      · rcases prefix_append_cases h with h | ⟨d, rfl, hd⟩
        · exact start c h
        · by_cases h0 : d = []
          · subst h0; rw [List.append_nil]; exact start w (List.prefix_refl _)
          · have : d = " ".toList := by
              have e : " ".toList = [' '] := by decide
              rw [e] at hd ⊢
              rcases List.prefix_cons_iff.1 hd with rfl | ⟨t, rfl, ht⟩
              · exact absurd rfl h0
              · rw [List.prefix_nil.1 ht]
            subst this
            have := splitWs_space w [] (hw w (by simp))
            rw [List.append_nil] at this
            rw [this, splitWs_nil]
            exact .cons _ _ _ (.nil _)
      · rw [splitWs_space _ _ (hw w (by simp))]
        exact .cons _ _ _ (ih (fun x hx => hw x (by simp [hx])) d hd)

/-- the lines of an initial part of a text -/
theorem lines_cut (items : List (Str × Bool)) (hn : ∀ p ∈ items, '\n' ∉ p.1)
    (hp : items.Pairwise (fun a _ => a.2 = true)) :
    ∀ c, c <+: items.flatMap (fun p => p.1 ++ (if p.2 then ['\n'] else [])) →
      Spec.Shortened Spec.StartOf (items.map Prod.fst) (lines c) := by
  induction items with
  | nil =>
    intro c hc
    simp only [List.flatMap_nil, List.prefix_nil] at hc
    subst hc
    exact .nil _
  | cons p t ih =>
    intro c hc
    rw [List.pairwise_cons] at hp
    have h1 := hn p (List.mem_cons_self ..)
    have start : ∀ c, c <+: p.1 → Spec.Shortened Spec.StartOf ((p :: t).map Prod.fst) (lines c) := by
      intro c hc
      by_cases h0 : c = []
      · subst h0; exact .nil _
      · rw [lines_single c (fun hm => h1 (hc.subset hm)) h0]
        exact .last _ _ _ ⟨h0, hc⟩
    rw [List.flatMap_cons, List.append_assoc] at hc
    rcases prefix_append_cases hc with h | ⟨d, rfl, hd⟩
    · exact start c h
    · cases hb : p.2 with
      | true =>
        rw [hb] at hd
        simp only [if_true, List.cons_append, List.nil_append] at hd
        rcases List.prefix_cons_iff.1 hd with rfl | ⟨d', rfl, hd'⟩
        · rw [List.append_nil]; exact start _ (List.prefix_refl _)
        · rw [lines_append _ _ h1]
          exact .cons _ _ _ (ih (fun x hx => hn x (List.mem_cons_of_mem _ hx)) hp.2 d' hd')
      | false =>
        cases t with
        | nil =>
          rw [hb] at hd
          simp only [Bool.false_eq_true, if_false, List.flatMap_nil, List.append_nil, List.prefix_nil] at hd
          subst hd
          rw [List.append_nil]; exact start _ (List.prefix_refl _)
        | cons a t => simp [hp.1 a (List.mem_cons_self ..)] at hb

theorem fileLines_cut {β : Type*} (line : Str → Str → Nat → β → Str) (d : Dict Str (Dict Str β))
    (h : ∀ l ∈ textLines line d, '\n' ∉ l ∧ '\r' ∉ l) (c : Str) (hc : c <+: writeText line d) :
    Spec.Shortened Spec.StartOf (textLines line d) (fileLines c) := by
  let items : List (Str × Bool) := d.zipIdx.flatMap (fun qi => qi.1.2.zipIdx.map (fun ej =>
    (line qi.1.1 ej.1.1 ej.2 ej.1.2,
      decide (qi.2 ≠ d.length - 1 ∨ ej.2 ≠ qi.1.2.length - 1))))
  have hw : writeText line d = items.flatMap (fun p => p.1 ++ (if p.2 then ['\n'] else [])) := by
    simp only [items, writeText, List.flatMap_assoc, List.flatMap_map, decide_eq_true_eq]
  have hl : items.map Prod.fst = textLines line d := by
    simp only [items, textLines, List.map_flatMap, List.map_map, Function.comp_def]
    conv_rhs => rw [← List.zipIdx_map_fst 0 d]
    rw [List.flatMap_map]
  have hmem : ∀ p ∈ items, p.1 ∈ textLines line d := by
    intro p hp; rw [← hl]; exact List.mem_map_of_mem hp
  have hr : '\r' ∉ c := by
    intro hm
    have hm := hc.subset hm
    rw [hw] at hm
    obtain ⟨p, hp, hm⟩ := List.mem_flatMap.1 hm
    rcases List.mem_append.1 hm with hm | hm
    · exact (h _ (hmem p hp)).2 hm
    · split at hm <;> simp at hm
  rw [fileLines, translate_eq_self _ hr, ← hl]
  rw [hw] at hc
  refine lines_cut items (fun p hp => (h _ (hmem p hp)).1) ?_ c hc
  rw [List.pairwise_flatMap]
  constructor
  · rintro ⟨⟨q, docs⟩, i⟩ _
    rw [List.pairwise_map, List.pairwise_iff_getElem]
    intro a b ha hb hab
    simp only [List.length_zipIdx] at ha hb
    simp only [List.getElem_zipIdx, decide_eq_true_eq]
    right; omega
  · rw [List.pairwise_iff_getElem]
    intro a b ha hb hab x hx y _
    simp only [List.length_zipIdx] at ha hb
    obtain ⟨e, _, rfl⟩ := List.mem_map.1 hx
    simp only [List.getElem_zipIdx, decide_eq_true_eq]
    left; omega

/-- a shortened list of six fields that still has six -/
theorem shortened_length {γ : Type*} {R : γ → γ → Prop} (hR : ∀ a, R a a) {l l' : List γ} (h : Spec.Shortened R l l')
    (hl : l.length ≤ l'.length) : l = [] ∧ l' = [] ∨ ∃ pre a b, l = pre ++ [a] ∧ l' = pre ++ [b] ∧ R a b := by
  induction h with
  | nil l => left; simp at hl; exact ⟨hl, rfl⟩
  | last a b l hab =>
    have : l = [] := by simp at hl; exact hl
    subst this
    exact .inr ⟨[], a, b, rfl, rfl, hab⟩
  | cons a l l' h ih =>
    rcases ih (by simpa using hl) with ⟨rfl, rfl⟩ | ⟨pre, x, y, rfl, rfl, hxy⟩
    · exact .inr ⟨[], a, a, rfl, rfl, hR a⟩
    · exact .inr ⟨a :: pre, x, y, rfl, rfl, hxy⟩

/-- the rows of a shortened list of lines -/
theorem rows_cut {γ : Type*} {R : γ → γ → Prop} (f : Str → Option γ) {ls ls' : List Str}
    (h : Spec.Shortened Spec.StartOf ls ls')
    (hR : ∀ l ∈ ls, ∀ e a b, Spec.StartOf l e → f l = some a → f e = some b → R a b) :
    ∀ fs fs' : List γ, ls.map f = fs.map some → ls'.map f = fs'.map some → Spec.Shortened R fs fs' := by
  induction h with
  | nil l =>
    intro fs fs' _ h'
    cases fs' with
    | nil => exact .nil _
    | cons => simp at h'
  | last l e ls hle =>
    intro fs fs' h h'
    match fs, fs', h, h' with
    | a :: fs, [b], h, h' =>
      simp only [List.map_cons, List.cons.injEq] at h h'
      exact .last _ _ _ (hR l (by simp) e a b hle h.1 h'.1)
    | [], _, h, _ => simp at h
    | _ :: _, [], _, h' => simp at h'
    | _ :: _, _ :: _ :: _, _, h' => simp at h'
  | cons l ls ls' h0 ih =>
    intro fs fs' h h'
    match fs, fs', h, h' with
    | a :: fs, b :: fs', h, h' =>
      simp only [List.map_cons, List.cons.injEq] at h h'
      have : a = b := by
        have := h.1
        rw [h'.1] at this
        exact (Option.some.inj this).symm
      subst this
      exact .cons _ _ _ (ih (fun l hl => hR l (by simp [hl])) fs fs' h.2 h'.2)
    | [], _, h, _ => simp at h
    | _ :: _, [], _, h' => simp at h'

theorem shortened_eq {γ : Type*} {l l' : List γ} (h : Spec.Shortened Eq l l') : l' <+: l := by
  induction h with
  | nil l => exact List.nil_prefix
  | last a b l hab => subst hab; exact ⟨l, rfl⟩
  | cons a l l' h ih => exact (List.prefix_cons_inj a).2 ih

theorem shortened_keys {γ ε : Type*} {R : γ → γ → Prop} (k : γ → ε) (hk : ∀ a b, R a b → k b = k a) {l l' : List γ}
    (h : Spec.Shortened R l l') : l'.map k <+: l.map k := by
  induction h with
  | nil l => exact List.nil_prefix
  | last a b l hab => exact ⟨l.map k, by simp [hk a b hab]⟩
  | cons a l l' h ih => exact (List.prefix_cons_inj _).2 ih

/-- queries and docs are listed once -/
theorem facts_nodup {β : Type*} (d : Dict Str (Dict Str β)) (hw : Wf d) :
    ((facts d).map (fun r => (r.1, r.2.1))).Nodup := by
  have e : (facts d).map (fun r => (r.1, r.2.1)) = d.flatMap (fun p => (keys p.2).map (fun x => (p.1, x))) := by
    simp only [facts, List.map_flatMap, List.map_map, keys]
    rfl
  rw [e, List.nodup_flatMap]
  refine ⟨fun p hp => (hw.2 p hp).map (fun a b h => by simpa using h), ?_⟩
  have := hw.1
  unfold NodupKeys List.Nodup at this
  rw [List.pairwise_map] at this
  refine this.imp ?_
  intro a b hab
  rw [Function.onFun, List.disjoint_left]
  intro x hx hx'
  obtain ⟨_, _, rfl⟩ := List.mem_map.1 hx
  obtain ⟨_, _, h⟩ := List.mem_map.1 hx'
  exact hab (Prod.mk.inj h).1.symm

theorem read_rows {β : Type*} (fs : List (Str × Str × β)) (hn : (fs.map (fun r => (r.1, r.2.1))).Nodup) (q x : Str)
    (v : β) : (cont (assign [] fs)).read q x = some v ↔ (q, x, v) ∈ fs := by
  rw [read_assign]
  have e : (cont ([] : Dict Str (Dict Str β))).read q x = none := rfl
  rw [e, Option.or_none]
  constructor
  · intro h
    obtain ⟨r, hr, rfl⟩ := Option.map_eq_some_iff.1 h
    have h1 := List.mem_of_find?_eq_some hr
    have h2 := List.find?_some hr
    simp only [decide_eq_true_eq] at h2
    obtain ⟨rfl, rfl⟩ := h2
    exact List.mem_reverse.1 h1
  · intro h
    cases hf : fs.reverse.find? (fun r => decide (r.1 = q ∧ r.2.1 = x)) with
    | none =>
      rw [List.find?_eq_none] at hf
      exact absurd (hf (q, x, v) (List.mem_reverse.2 h)) (by simp)
    | some r =>
      have h1 := List.mem_of_find?_eq_some hf
      have h2 := List.find?_some hf
      simp only [decide_eq_true_eq] at h2
      have := List.inj_on_of_nodup_map hn (List.mem_reverse.1 h1) h (by simp [h2.1, h2.2])
      rw [this]; rfl

theorem startOf_refl {l : Str} (h : l ≠ []) : Spec.StartOf l l := ⟨h, List.prefix_refl _⟩

theorem runLine_join {α : Type*} (T : FloatText α) (name q doc : Str) (rank : Nat) (v : α) :
    runLine T name q doc rank v = joinSp [q, "Q0".toList, doc, natStr (rank + 1), T.show' v, name] := by
  have : " Q0 ".toList = " ".toList ++ ("Q0".toList ++ " ".toList) := by decide
  simp only [runLine, this, List.append_assoc, joinSp]

theorem qrelsLine_join (q doc : Str) (v : Int) :
    qrelsLine q doc v = joinSp [q, "0".toList, doc, intStr v] := by
  have : " 0 ".toList = " ".toList ++ ("0".toList ++ " ".toList) := by decide
  simp only [qrelsLine, this, List.append_assoc, joinSp]

end Files

/-- `pre ++ [b]` with six fields, cut -/
theorem Files.runFact_cut {α : Type*} (T : FloatText α) {name q doc : Str} (hn : Word name) (hq : Word q)
    (hd : Word doc) (rank : Nat) (v : α) (e : Str) (he : Spec.StartOf (runLine T name q doc rank v) e)
    (f : Str × Str × α) (hf : runFact T e = some f) : f = (q, doc, v) ∧ ∃ n, runNameOf e = some n ∧ Spec.StartOf name n := by
  have hQ : Word "Q0".toList := by constructor <;> decide
  have hws : ∀ w ∈ [q, "Q0".toList, doc, natStr (rank + 1), T.show' v, name], Word w := by
    intro w hw
    simp only [List.mem_cons, List.not_mem_nil, or_false] at hw
    rcases hw with rfl | rfl | rfl | rfl | rfl | rfl
    exacts [hq, hQ, hd, word_natStr _, ⟨T.ne_nil v, T.noSpace v⟩, hn]
  have h := he.2
  rw [runLine_join] at h
  have hc := splitWs_cut _ hws e h
  unfold runFact at hf
  split at hf
  · rename_i q' a doc' b rel n hs
    rw [hs] at hc
    generalize hQ' : "Q0".toList = Q at hc
    cases hc with
    | cons _ _ _ hc =>
    cases hc with
    | cons _ _ _ hc =>
    cases hc with
    | cons _ _ _ hc =>
    cases hc with
    | cons _ _ _ hc =>
    cases hc with
    | cons _ _ _ hc =>
      rw [T.parse_show] at hf
      simp only [Option.map_some, Option.some.injEq] at hf
      refine ⟨hf.symm, n, by simp [runNameOf, hs], ?_⟩
      cases hc with
      | last _ _ _ h => exact h
      | cons _ _ _ _ => exact startOf_refl hn.1
  · cases hf

theorem Files.qrelsFact_cut {q doc : Str} (hq : Word q) (hd : Word doc) (v : Int) (e : Str)
    (he : Spec.StartOf (qrelsLine q doc v) e) (f : Str × Str × Int) (hf : qrelsFact e = some f) :
    Spec.CutRow (q, doc, v) f := by
  have hQ : Word "0".toList := by constructor <;> decide
  have hws : ∀ w ∈ [q, "0".toList, doc, intStr v], Word w := by
    intro w hw
    simp only [List.mem_cons, List.not_mem_nil, or_false] at hw
    rcases hw with rfl | rfl | rfl | rfl
    exacts [hq, hQ, hd, word_intStr _]
  have h := he.2
  rw [qrelsLine_join] at h
  have hc := splitWs_cut _ hws e h
  unfold qrelsFact at hf
  split at hf
  · rename_i q' a doc' rel hs
    rw [hs] at hc
    generalize hQ' : "0".toList = Q at hc
    obtain ⟨y, hy, rfl⟩ := Option.map_eq_some_iff.1 hf
    cases hc with
    | cons _ _ _ hc =>
    cases hc with
    | cons _ _ _ hc =>
    cases hc with
    | cons _ _ _ hc =>
      refine ⟨rfl, rfl, rel, ?_, hy⟩
      cases hc with
      | last _ _ _ h => exact h
      | cons _ _ _ _ => exact startOf_refl (word_intStr v).1
  · cases hf

/-- sorting a run first does not change its ids -/
theorem wordIds_sorted (S : ArgSort (X ℚ)) {s : Store Str Str (X ℚ)} (hw : Wf s.data) (hids : Spec.WordIds s) :
    Spec.WordIds (s.ensureSorted S) := by
  obtain ⟨hw', hc⟩ := sorted_cont S hw
  intro p hp
  have hi := get?_of_mem hw'.1 (show (p.1, p.2) ∈ _ from hp)
  have hcq := congrFun hc p.1
  simp only [Store.cont, hi, Option.map_some] at hcq
  cases h' : s.data.get? p.1 with
  | none => rw [h'] at hcq; cases hcq
  | some j =>
    rw [h'] at hcq
    simp only [Option.map_some, Option.some.injEq] at hcq
    refine ⟨(hids _ (mem_of_get? h')).1, ?_⟩
    intro e he
    have hk : e.1 ∈ keys p.2 := List.mem_map.2 ⟨e, he, rfl⟩
    rw [← get?_isSome, show Dict.get? p.2 e.1 = Dict.get? j e.1 from congrFun hcq e.1, Option.isSome_iff_exists] at hk
    obtain ⟨v, hv⟩ := hk
    exact (hids _ (mem_of_get? h')).2 (e.1, v) (mem_of_get? hv)

/-- **C148** (runs as TREC files, proved part): if an initial part of the file `run.save(path, kind="trec")` writes is
loaded at all, what is loaded are the first rows of the (sorted) run's `to_dataframe()`, with their scores: nothing is
ever loaded that was not saved.  The name is the one given or an initial part of the run's name.
Missing: that the part is recognised as incomplete (`C148_trec_refuted`). -/
theorem C148_trec_partial (T : FloatText (X ℚ)) (S S' : ArgSort (X ℚ)) (r : RunFile (X ℚ)) (hs : Reachable S r.store)
    (hids : Spec.WordIds r.store) (hn : Word (nameText r.name)) (given : Option Str) (b rest : Bytes)
    (hb : b ++ rest = trecBytes T S r) (r' : RunFile (X ℚ)) (h : runOfTrec T S' given b = .ok r') :
    (∃ rows, rows <+: (r.store.ensureSorted S).toDataframe ∧
      ∀ q x v, (Spec.content r'.store).read q x = some v ↔ (q, x, v) ∈ rows) ∧
    (∀ q x v, (Spec.content r'.store).read q x = some v → (Spec.content r.store).read q x = some v) ∧
    (∀ n, given = some n → r'.name = some n) ∧
    (given = none → ∃ n, r'.name = some n ∧ Spec.StartOf (nameText r.name) n) := by
  obtain ⟨hw, hc⟩ := sorted_cont S hs.wf
  have hids' := wordIds_sorted S hs.wf hids
  obtain ⟨s, hsd⟩ : ∃ s, r.store.ensureSorted S = s := ⟨_, rfl⟩
  rw [hsd] at hw hc hids' ⊢
  unfold runOfTrec at h
  cases hp : ofUtf8 b with
  | none => rw [hp] at h; cases h
  | some p =>
    rw [hp] at h
    simp only at h
    have e := (C132_roundtrip _ _).1 hp
    subst e
    unfold trecBytes at hb
    rw [hsd] at hb
    obtain ⟨t, ht, -⟩ := utf8_cut p _ _ hb
    have hlines : ∀ l ∈ textLines (runLine T (nameText r.name)) s.data, '\n' ∉ l ∧ '\r' ∉ l := by
      intro l hl
      obtain ⟨p, hp, hl⟩ := List.mem_flatMap.1 hl
      obtain ⟨ej, hej, rfl⟩ := List.mem_map.1 hl
      have := runLine_ok T hn (hids' p hp).1 ((hids' p hp).2 _ (List.fst_mem_of_mem_zipIdx hej)) ej.2 ej.1.2
      exact ⟨this.1, this.2.1⟩
    have hmap : (textLines (runLine T (nameText r.name)) s.data).map (runFact T) = (facts s.data).map some := by
      refine textLines_map (runLine T (nameText r.name)) (runFact T) (fun q x v => (q, x, v)) s.data ?_
      intro p hp e he i
      unfold runFact
      rw [splitWs_runLine T hn (hids' p hp).1 ((hids' p hp).2 e he)]
      simp [T.parse_show]
    have hcut := fileLines_cut _ s.data hlines p ⟨t, ht.symm⟩
    have hline : ∀ l ∈ textLines (runLine T (nameText r.name)) s.data, ∀ e f, Spec.StartOf l e →
        runFact T e = some f → runFact T l = some f ∧ ∃ n, runNameOf e = some n ∧ Spec.StartOf (nameText r.name) n := by
      intro l hl e f hle hf
      obtain ⟨p, hp, hl⟩ := List.mem_flatMap.1 hl
      obtain ⟨ej, hej, rfl⟩ := List.mem_map.1 hl
      have hx := (hids' p hp).2 _ (List.fst_mem_of_mem_zipIdx hej)
      obtain ⟨rfl, h2⟩ := runFact_cut T hn (hids' p hp).1 hx ej.2 ej.1.2 e hle f hf
      refine ⟨?_, h2⟩
      unfold runFact
      rw [splitWs_runLine T hn (hids' p hp).1 hx]
      simp [T.parse_show]
    unfold runOfText at h
    rcases facts_or_none (runFact T) (fileLines p) with ⟨fs, hfs⟩ | hbad
    · have hrows : Spec.Shortened Eq (facts s.data) fs := by
        refine rows_cut (runFact T) hcut ?_ _ _ hmap hfs
        intro l hl e a b hle ha hb
        have := (hline l hl e b hle hb).1
        rw [ha] at this
        exact Option.some.inj this
      have hpre := shortened_eq hrows
      have hnd : (fs.map (fun r => (r.1, r.2.1))).Nodup := by
        obtain ⟨u, hu⟩ := hpre
        have := facts_nodup s.data hw
        rw [← hu, List.map_append] at this
        exact (List.nodup_append.1 this).1
      have hwa := wf_assign fs ([] : Dict Str (Dict Str (X ℚ))) ⟨nodupKeys_nil, fun _ h => nomatch h⟩
      rw [parseRun_ok T _ _ _ fs hfs] at h
      simp only at h
      rw [ofDict_eq S' _ hwa] at h
      by_cases hall : (values (assign [] fs)).all (fun x => x.isEmpty) = true
      · rw [if_pos hall] at h; cases h
      · rw [if_neg hall] at h
        simp only [Except.ok.injEq] at h
        subst h
        have hread : ∀ q x v, (Spec.content (⟨sortAll S' (assign [] fs), true⟩ : Store Str Str (X ℚ))).read q x = some v ↔
            (q, x, v) ∈ fs := by
          intro q x v
          rw [content_eq]
          show (Store.cont (sortAll S' _)).read q x = _ ↔ _
          rw [cont_sortAll S' hwa]
          exact read_rows fs hnd q x v
        refine ⟨⟨fs, hpre, hread⟩, ?_, ?_, ?_⟩
        · intro q x v hv
          have hm := hpre.subset ((hread q x v).1 hv)
          rw [content_eq, ← hc]
          have := (read_rows (facts s.data) (facts_nodup s.data hw) q x v).2 hm
          rw [assign_facts _ hw] at this
          rwa [← read_nonEmpty hw]
        · rintro n rfl; rfl
        · rintro rfl
          · simp only [Option.none_or]
            have hfs0 : fs ≠ [] := by
              rintro rfl
              exact hall rfl
            cases hl : fileLines p with
            | nil => rw [hl] at hfs; cases fs with
              | nil => exact absurd rfl hfs0
              | cons => simp at hfs
            | cons l ls =>
              simp only [List.head?_cons, Option.bind_some]
              rw [hl] at hcut hfs
              cases fs with
              | nil => simp at hfs
              | cons f fs =>
                simp only [List.map_cons, List.cons.injEq] at hfs
                generalize textLines (runLine T (nameText r.name)) s.data = tl at *
                cases hcut with
                | last a _ l' ha => exact (hline a (by simp) l f ha hfs.1).2
                | cons a l' _ _ =>
                  refine (hline l (by simp) l f (startOf_refl ?_) hfs.1).2
                  rintro rfl
                  cases hfs.1
    · rw [parseRun_error T _ _ _ hbad] at h
      cases h

/-- **C148** (qrels as TREC files, proved part): if an initial part of the file `qrels.save(path, kind="trec")` writes is
loaded at all, what is loaded are the first rows of `to_dataframe()`, except that the last judgment may have lost its last
digits.  Missing: that the part is recognised as incomplete, and the last value (`C148_qrels_trec_refuted`). -/
theorem C148_qrels_trec_partial (S S' : ArgSort Int) (s : Store Str Str Int) (hs : Reachable S s)
    (hids : Spec.WordIds s) (b rest : Bytes) (hb : b ++ rest = qrelsTrecBytes s) (s' : Store Str Str Int)
    (h : qrelsOfTrec S' b = .ok s') :
    ∃ rows, Spec.Shortened Spec.CutRow s.toDataframe rows ∧
      ∀ q x v, (Spec.content s').read q x = some v ↔ (q, x, v) ∈ rows := by
  have hw := hs.wf
  unfold qrelsOfTrec at h
  cases hp : ofUtf8 b with
  | none => rw [hp] at h; cases h
  | some p =>
    rw [hp] at h
    simp only at h
    have e := (C132_roundtrip _ _).1 hp
    subst e
    unfold qrelsTrecBytes at hb
    obtain ⟨t, ht, -⟩ := utf8_cut p _ _ hb
    have hlines : ∀ l ∈ textLines (fun q d _ v => qrelsLine q d v) s.data, '\n' ∉ l ∧ '\r' ∉ l := by
      intro l hl
      obtain ⟨p, hp, hl⟩ := List.mem_flatMap.1 hl
      obtain ⟨ej, hej, rfl⟩ := List.mem_map.1 hl
      have := qrelsLine_ok (hids p hp).1 ((hids p hp).2 _ (List.fst_mem_of_mem_zipIdx hej)) ej.1.2
      exact ⟨this.1, this.2.1⟩
    have hmap : (textLines (fun q d _ v => qrelsLine q d v) s.data).map qrelsFact = (facts s.data).map some := by
      refine textLines_map (fun q d _ v => qrelsLine q d v) qrelsFact (fun q x v => (q, x, v)) s.data ?_
      intro p hp e he i
      unfold qrelsFact
      rw [splitWs_qrelsLine (hids p hp).1 ((hids p hp).2 e he)]
      simp [pyInt_intStr]
    have hcut := fileLines_cut _ s.data hlines p ⟨t, ht.symm⟩
    rcases facts_or_none qrelsFact (fileLines p) with ⟨fs, hfs⟩ | hbad
    · have hrows : Spec.Shortened Spec.CutRow (facts s.data) fs := by
        refine rows_cut qrelsFact hcut ?_ _ _ hmap hfs
        intro l hl e a b hle ha hb
        obtain ⟨p, hp, hl⟩ := List.mem_flatMap.1 hl
        obtain ⟨ej, hej, rfl⟩ := List.mem_map.1 hl
        have hx := (hids p hp).2 _ (List.fst_mem_of_mem_zipIdx hej)
        have h1 := qrelsFact_cut (hids p hp).1 hx ej.1.2 e hle b hb
        have h2 : a = (p.1, ej.1.1, ej.1.2) := by
          unfold qrelsFact at ha
          rw [splitWs_qrelsLine (hids p hp).1 hx] at ha
          simp [pyInt_intStr] at ha
          exact ha.symm
        rw [h2]; exact h1
      have hpre := shortened_keys (fun r : Str × Str × Int => (r.1, r.2.1)) (fun a b hab => by
        simp only [hab.1, hab.2.1]) hrows
      have hnd : (fs.map (fun r => (r.1, r.2.1))).Nodup := by
        obtain ⟨u, hu⟩ := hpre
        have := facts_nodup s.data hw
        rw [← hu] at this
        exact (List.nodup_append.1 this).1
      have hwa := wf_assign fs ([] : Dict Str (Dict Str Int)) ⟨nodupKeys_nil, fun _ h => nomatch h⟩
      rw [parseQrels_ok _ _ fs hfs] at h
      simp only at h
      rw [ofDict_eq S' _ hwa] at h
      by_cases hall : (values (assign [] fs)).all (fun x => x.isEmpty) = true
      · rw [if_pos hall] at h; cases h
      · rw [if_neg hall] at h
        simp only [Except.ok.injEq] at h
        subst h
        refine ⟨fs, hrows, ?_⟩
        intro q x v
        rw [content_eq]
        show (Store.cont (sortAll S' _)).read q x = _ ↔ _
        rw [cont_sortAll S' hwa]
        exact read_rows fs hnd q x v
    · rw [parseQrels_error _ _ hbad] at h
      cases h

/-- the judgments 0 to 9 have one digit -/
theorem digit_start {v : Int} (h0 : 0 ≤ v) (h9 : v ≤ 9) {c : Str} (hc : Spec.StartOf (intStr v) c) : pyInt c = some v := by
  have hl : (intStr v).length = 1 := by
    obtain rfl | rfl | rfl | rfl | rfl | rfl | rfl | rfl | rfl | rfl : v = 0 ∨ v = 1 ∨ v = 2 ∨ v = 3 ∨ v = 4 ∨ v = 5 ∨
      v = 6 ∨ v = 7 ∨ v = 8 ∨ v = 9 := by omega
    all_goals decide
  have : c = intStr v := by
    refine hc.2.eq_of_length ?_
    have h1 := hc.2.length_le
    have h2 : c.length ≠ 0 := fun h => hc.1 (List.length_eq_zero_iff.1 h)
    omega
  rw [this, pyInt_intStr]

/-- **C148** (qrels as TREC files, proved part): with judgments from 0 to 9, nothing is ever loaded from an initial part
of the file that was not saved. -/
theorem C148_qrels_digits_partial (S S' : ArgSort Int) (s : Store Str Str Int) (hs : Reachable S s)
    (hids : Spec.WordIds s) (hv : ∀ q x v, (Spec.content s).read q x = some v → 0 ≤ v ∧ v ≤ 9) (b rest : Bytes)
    (hb : b ++ rest = qrelsTrecBytes s) (s' : Store Str Str Int) (h : qrelsOfTrec S' b = .ok s') :
    (∃ rows, rows <+: s.toDataframe ∧ ∀ q x v, (Spec.content s').read q x = some v ↔ (q, x, v) ∈ rows) ∧
    ∀ q x v, (Spec.content s').read q x = some v → (Spec.content s).read q x = some v := by
  have hw := hs.wf
  have hsaved : ∀ q x v, (q, x, v) ∈ facts s.data → (Spec.content s).read q x = some v := by
    intro q x v hm
    rw [content_eq]
    have := (read_rows (facts s.data) (facts_nodup s.data hw) q x v).2 hm
    rw [assign_facts _ hw] at this
    rwa [← read_nonEmpty hw]
  obtain ⟨rows, hrows, hread⟩ := C148_qrels_trec_partial S S' s hs hids b rest hb s' h
  have hpre : ∀ l : List (Str × Str × Int), (∀ r ∈ l, r ∈ facts s.data) → Spec.Shortened Spec.CutRow l rows →
      rows <+: l := by
    clear hread hrows
    intro l hl hsh
    refine shortened_eq ?_
    induction hsh with
    | nil l => exact .nil _
    | last a b l hab =>
      refine .last _ _ _ ?_
      obtain ⟨h1, h2, c, hc, hp⟩ := hab
      obtain ⟨q, x, v⟩ := a
      obtain ⟨q', x', v'⟩ := b
      simp only at h1 h2 hc hp
      subst h1 h2
      obtain ⟨h0, h9⟩ := hv _ _ _ (hsaved _ _ _ (hl _ (List.mem_cons_self ..)))
      rw [digit_start h0 h9 hc, Option.some.injEq] at hp
      rw [hp]
    | cons a l l' h ih => exact .cons _ _ _ (ih (fun r hr => hl r (by simp [hr])))
  have hp := hpre _ (fun _ h => h) hrows
  exact ⟨⟨rows, hp, hread⟩, fun q x v h => hsaved q x v (hp.subset ((hread q x v).1 h))⟩

/-! ## Refutations -/

deriving instance DecidableEq for RunFile

/-- **C148** (refuted for TREC runs): of a run with four docs, the first 16 characters of its file are loaded without an
error as a run with one doc and another name. -/
theorem C148_trec_refuted : ∃ (b rest : Bytes) (r' : RunFile (X ℚ)), rest ≠ [] ∧
    b ++ rest = trecBytes pyTextX (ArgSort.stable _) exTrecRun ∧
    runOfTrec pyTextX (ArgSort.stable _) none b = .ok r' ∧
    (Spec.content exTrecRun.store).read "q1".toList "d2".toList = some (.fin (5 / 2)) ∧
    (Spec.content r'.store).read "q1".toList "d2".toList = none ∧ r'.name = some "b".toList ∧
    exTrecRun.name = some "bm25".toList := by
  refine ⟨utf8 "q1 Q0 dé 1 inf b".toList,
    utf8 "m25\nq1 Q0 d2 2 2.5 bm25\nq1 Q0 d3 3 -inf bm25\nq1 Q0 d4 4 nan bm25".toList,
    ⟨some "b".toList, ⟨[("q1".toList, [("dé".toList, .pinf)])], true⟩⟩, by decide +kernel, by decide +kernel,
    by decide +kernel, by decide +kernel, by decide +kernel, by decide +kernel, by decide +kernel⟩

/-- qrels with a judgment of two digits -/
def exTwoDigits : Store Str Str Int := ⟨[("q1".toList, [("d1".toList, 12)])], true⟩

theorem exTwoDigits_reachable : Reachable (ArgSort.stable Int) exTwoDigits := by
  have h : Store.ofDict (ArgSort.stable Int) exTwoDigits.data = .ok exTwoDigits := by decide +kernel
  exact .ofDict _ _ (by unfold Dict.NodupKeys; decide +kernel) (by unfold Dict.NodupKeys; decide +kernel) h

/-- **C148** (refuted for TREC qrels): the file without its last character gives another judgment, without an error. -/
theorem C148_qrels_trec_refuted : ∃ (b rest : Bytes) (s' : Store Str Str Int), rest ≠ [] ∧
    b ++ rest = qrelsTrecBytes exTwoDigits ∧ qrelsOfTrec (ArgSort.stable Int) b = .ok s' ∧
    (Spec.content exTwoDigits).read "q1".toList "d1".toList = some 12 ∧
    (Spec.content s').read "q1".toList "d1".toList = some 1 := by
  refine ⟨utf8 "q1 0 d1 1".toList, utf8 "2".toList, ⟨[("q1".toList, [("d1".toList, 1)])], true⟩, by decide +kernel,
    by decide +kernel, by decide +kernel, by decide +kernel, by decide +kernel⟩

/-- **C148** (refuted: saving is not atomic): whatever was at the path, a stop right after the file was opened leaves an
empty file, from which neither the old nor the new version can be loaded in either format. -/
theorem C148_atomic_refuted (old : Option Bytes) (new : Bytes) : Left old new (some []) ∧
    (∀ N S, runOfJsonBytes N S [] = .error .valueError) ∧ (∀ N S, qrelsOfJsonBytes N S [] = .error .valueError) ∧
    (∀ T S given, runOfTrec T S given [] = .error .valueError) ∧ (∀ S, qrelsOfTrec S [] = .error .valueError) :=
  ⟨.written [] new rfl, fun _ _ => rfl, fun _ _ => rfl, fun _ _ _ => rfl, fun _ => rfl⟩

/-! ## Examples -/

/-- a run saved as JSON in UTF-8, and the process stopped in the middle of the character `é` -/
example : ∃ b rest : Bytes, rest ≠ [] ∧ b ++ rest = runJsonBytes (ratNum .orjson) (ArgSort.stable _) exJsonRun ∧
    b.getLast? = some 0xC3 ∧ Left (some [1]) (runJsonBytes (ratNum .orjson) (ArgSort.stable _) exJsonRun) (some b) ∧
    runOfJsonBytes (ratNum .orjson) (ArgSort.stable _) b = .error .valueError := by
  have e : (runJsonBytes (ratNum .orjson) (ArgSort.stable _) exJsonRun).take 21 ++
      (runJsonBytes (ratNum .orjson) (ArgSort.stable _) exJsonRun).drop 21 =
      runJsonBytes (ratNum .orjson) (ArgSort.stable _) exJsonRun := List.take_append_drop ..
  refine ⟨_, _, by decide +kernel, e, by decide +kernel, .written _ _ e, by decide +kernel⟩

/-- the hypotheses of the theorems about TREC files hold for the runs and qrels of the refutations, and for qrels with
one-digit judgments of which a part is loaded -/
example : Reachable (ArgSort.stable _) exTrecRun.store ∧ Spec.WordIds exTrecRun.store ∧ Word (nameText exTrecRun.name) ∧
    Spec.WordIds exTwoDigits ∧
    (∃ s : Store Str Str Int, Reachable (ArgSort.stable Int) s ∧ Spec.WordIds s ∧ (∀ p ∈ s.data, ∀ e ∈ p.2, 0 ≤ e.2 ∧ e.2 ≤ 9) ∧
      utf8 "q1 0 d1 2\n".toList ++ utf8 "q1 0 d2 1".toList = qrelsTrecBytes s ∧
      qrelsOfTrec (ArgSort.stable Int) (utf8 "q1 0 d1 2\n".toList) = .ok ⟨[("q1".toList, [("d1".toList, 2)])], true⟩) := by
  refine ⟨exTrecRun_reachable, by unfold Spec.WordIds Files.Spec.Word; decide +kernel,
    by unfold Files.Spec.Word; decide +kernel, by unfold Spec.WordIds Files.Spec.Word; decide +kernel,
    ⟨[("q1".toList, [("d1".toList, 2), ("d2".toList, 1)])], true⟩, ?_,
    by unfold Spec.WordIds Files.Spec.Word; decide +kernel, by decide +kernel, by decide +kernel, by decide +kernel⟩
  exact .ofDict [("q1".toList, [("d1".toList, 2), ("d2".toList, 1)])] _ (by unfold Dict.NodupKeys; decide +kernel)
    (by unfold Dict.NodupKeys; decide +kernel) (by decide +kernel)

end Ranx
