import Mathlib.Algebra.Order.Group.Int
import Verif.Lemmas.Text
import Verif.Props.Files

/-!
# Properties C76-C79: qrels files, malformed files, kinds of files, other formats
-/

set_option linter.unusedSectionVars false

namespace Ranx
open Dict Store Py Files
open Files.Spec (Word)

section
variable {B : Type*}

/-- parsing what `Qrels.save` writes in the TREC format -/
theorem parse_saved_qrels (s : Store Str Str Int) (hw : Wf s.data) (hids : Spec.WordIds s) :
    parseQrels (fileLines (writeText (fun q d _ v => qrelsLine q d v) s.data)) [] =
      .ok (nonEmpty s.data) := by
  have hlines : ∀ l ∈ textLines (fun q d _ v => qrelsLine q d v) s.data, '\n' ∉ l ∧ '\r' ∉ l ∧ l ≠ [] := by
    intro l hl
    obtain ⟨p, hp, hl⟩ := List.mem_flatMap.1 hl
    obtain ⟨ej, hej, rfl⟩ := List.mem_map.1 hl
    exact qrelsLine_ok (hids p hp).1 ((hids p hp).2 _ (List.fst_mem_of_mem_zipIdx hej)) _
  have hmap : (textLines (fun q d _ v => qrelsLine q d v) s.data).map qrelsFact =
      (facts s.data).map some := by
    refine textLines_map (fun q d _ v => qrelsLine q d v) qrelsFact (fun q x v => (q, x, v)) s.data ?_
    intro p hp e he i
    unfold qrelsFact
    rw [splitWs_qrelsLine (hids p hp).1 ((hids p hp).2 e he)]
    simp [pyInt_intStr]
  rw [fileLines_writeText _ _ hlines, parseQrels_ok _ _ _ hmap, assign_facts s.data hw]

/-- **C76.** Qrels saved in the TREC format and loaded again have the same judgements of the same docs of
the same queries, for all qrels a user can build whose ids are non-empty and free of white space. Exactly
the queries without docs are lost. No assumption on how floats are written is needed: judgements are
integers. -/
theorem C76_trec_qrels_roundtrip (C : Codec B Int) (S S' : ArgSort Int) (s : Store Str Str Int)
    (hs : Reachable S s) (path path' : Str) (kind kind' : Option Str)
    (hk : qrelsKind path kind = .ok .trec) (hk' : qrelsKind path' kind' = .ok .trec)
    (hids : Spec.WordIds s) (hne : ∃ p ∈ s.data, p.2 ≠ []) :
    ∃ bytes s', saveQrels C s path kind = .ok bytes ∧
      loadQrels C S' bytes path' kind' = .ok s' ∧
      Reachable S' s' ∧
      (∀ q x, (Spec.content s').read q x = (Spec.content s).read q x) ∧
      (∀ q, q ∈ s'.data.keys ↔ ∃ inner, s.data.get? q = some inner ∧ inner ≠ []) ∧
      (s'.sorted = true ∧ (∀ p ∈ s'.data, Spec.Ranked p.2.values) ∧ s'.data.keys.Pairwise (· < ·)) := by
  have hw := hs.wf
  have hof : Store.ofDict S' (nonEmpty s.data) = .ok ⟨sortAll S' (nonEmpty s.data), true⟩ := by
    rw [ofDict_eq S' _ (wf_nonEmpty hw), if_neg (nonEmpty_not_all hne)]
  refine ⟨C.encodeText (writeText (fun q d _ v => qrelsLine q d v) s.data),
    ⟨sortAll S' (nonEmpty s.data), true⟩, ?_, ?_, ?_, ?_, ?_, rfl, sortAll_ranked S' (wf_nonEmpty hw)⟩
  · simp only [saveQrels, hk]
  · simp only [loadQrels, hk']
    rw [if_neg (by decide), C.text_text]
    simp only [parse_saved_qrels s hw hids, hof]
  · exact .ofDict (nonEmpty s.data) _ (wf_nonEmpty hw).1 (wf_nonEmpty hw).2 hof
  · intro q x
    rw [content_eq, content_eq]
    show (cont (sortAll S' _)).read q x = _
    rw [cont_sortAll S' (wf_nonEmpty hw), read_nonEmpty hw]
  · intro q
    show q ∈ keys (sortAll S' _) ↔ _
    rw [mem_keys_sortAll S' (wf_nonEmpty hw).1, mem_keys_nonEmpty hw]

end

/-! ### C77: what a file means -/

/-- the line `l` of a run file says: doc `x` of query `q` has score `v`; the run is called `n` -/
def Spec.RunLine {α : Type*} (T : FloatText α) (l : Str) (q x : Str) (v : α) (n : Str) : Prop :=
  ∃ a b rel, Files.Spec.Fields l [q, a, x, b, rel, n] ∧ T.parse rel = some v

/-- the line `l` of a qrels file says: doc `x` of query `q` has judgement `v` -/
def Spec.QrelsLine (l : Str) (q x : Str) (v : Int) : Prop :=
  ∃ a rel, Files.Spec.Fields l [q, a, x, rel] ∧ pyInt rel = some v

theorem runFact_some {α : Type*} {T : FloatText α} {l q x n : Str} {v : α} (h : Spec.RunLine T l q x v n) :
    runFact T l = some (q, x, v) ∧ runNameOf l = some n := by
  obtain ⟨a, b, rel, hf, hp⟩ := h
  rw [runFact, runNameOf, fields_iff.1 hf]
  simp [hp]

theorem runFact_none {α : Type*} {T : FloatText α} {l : Str} (h : ¬ ∃ q x v n, Spec.RunLine T l q x v n) :
    runFact T l = none := by
  unfold runFact
  split
  · rename_i q a x b rel n he
    cases hp : T.parse rel with
    | none => rfl
    | some v => exact absurd ⟨q, x, v, n, a, b, rel, fields_iff.2 he, hp⟩ h
  · rfl

theorem qrelsFact_some {l q x : Str} {v : Int} (h : Spec.QrelsLine l q x v) :
    qrelsFact l = some (q, x, v) := by
  obtain ⟨a, rel, hf, hp⟩ := h
  rw [qrelsFact, fields_iff.1 hf]
  simp [hp]

theorem qrelsFact_none {l : Str} (h : ¬ ∃ q x v, Spec.QrelsLine l q x v) : qrelsFact l = none := by
  unfold qrelsFact
  split
  · rename_i q a x rel he
    cases hp : pyInt rel with
    | none => rfl
    | some v => exact absurd ⟨q, x, v, a, rel, fields_iff.2 he, hp⟩ h
  · rfl

section
variable {B α : Type*} [AddCommGroup α] [LinearOrder α] [IsOrderedAddMonoid α]

theorem wf_nil {β : Type*} : Wf ([] : Dict Str (Dict Str β)) :=
  ⟨List.nodup_nil, fun p hp => by cases hp⟩

theorem assign_not_all {β : Type*} (fs : List (Str × Str × β)) (hne : fs ≠ []) :
    ¬ (values (assign [] fs)).all (fun x => x.isEmpty) = true := by
  intro hall
  obtain ⟨f, t, rfl⟩ := List.exists_cons_of_ne_nil hne
  have hk : f.1 ∈ keys (assign [] (f :: t)) :=
    (mem_keys_assign _ _ _).2 (.inr ⟨f, List.mem_cons_self .., rfl⟩)
  obtain ⟨p, hp, -⟩ := List.mem_map.1 hk
  have h1 : p.2 ≠ [] := ne_nil_assign (f :: t) [] (fun p hp => by cases hp) p hp
  rw [List.all_eq_true] at hall
  have := hall p.2 (List.mem_map.2 ⟨p, hp, rfl⟩)
  exact h1 (by simpa using this)

theorem read_assign_nil {β : Type*} (fs : List (Str × Str × β)) (q x : Str) :
    (cont (assign [] fs)).read q x = Spec.lastRow fs q x := by
  have := read_assign fs [] q x
  rw [this]
  unfold Spec.lastRow
  cases List.find? (fun r => decide (r.1 = q ∧ r.2.1 = x)) fs.reverse <;> rfl

/-- **C77** (runs, rejection): if some line of the file does not consist of six fields of which the fifth is
a float, loading it fails with ValueError, whatever the rest of the file; so does loading an empty file. -/
theorem C77_run_malformed (C : Codec B α) (T : FloatText α) (S : ArgSort α) (bytes : B) (text path : Str)
    (kind given : Option Str) (hk : runKind path kind = .ok .trec) (hb : C.decodeText bytes = .ok text)
    (ls : List Str) (hl : Files.Spec.Lines text ls)
    (h : ls = [] ∨ ∃ l ∈ ls, ¬ ∃ q x v n, Spec.RunLine T l q x v n) :
    loadRun C T S bytes path kind given = .error .valueError := by
  simp only [loadRun, hk]
  rw [if_neg (by decide), hb]
  simp only [runOfText, lines_iff.1 hl]
  rcases h with rfl | ⟨l, hl, hn⟩
  · rfl
  · rw [parseRun_error T ls [] given ⟨l, hl, runFact_none hn⟩]

/-- **C77** (runs, acceptance): if every line of a non-empty file is well formed, loading it succeeds; the
run has exactly the queries of the lines, every (query, doc) pair has the score of the last line about it,
pairs without a line have none; the name is the one given, otherwise that of the first line. -/
theorem C77_run_content (C : Codec B α) (T : FloatText α) (S : ArgSort α) (bytes : B) (text path : Str)
    (kind given : Option Str) (hk : runKind path kind = .ok .trec) (hb : C.decodeText bytes = .ok text)
    (ls : List Str) (hl : Files.Spec.Lines text ls) (rows : List (Str × Str × α)) (names : List Str)
    (hlen : ls.length = rows.length) (hlen' : ls.length = names.length) (hne : ls ≠ [])
    (h : ∀ i (hi : i < ls.length), Spec.RunLine T ls[i] (rows[i]'(hlen ▸ hi)).1 (rows[i]'(hlen ▸ hi)).2.1
      (rows[i]'(hlen ▸ hi)).2.2 (names[i]'(hlen' ▸ hi))) :
    ∃ r, loadRun C T S bytes path kind given = .ok r ∧ Reachable S r.store ∧
      (∀ q x, (Spec.content r.store).read q x = Spec.lastRow rows q x) ∧
      (∀ q, q ∈ r.store.data.keys ↔ ∃ row ∈ rows, row.1 = q) ∧
      r.name = given.or names.head? := by
  have hmap : ls.map (runFact T) = rows.map some := by
    apply List.ext_getElem (by simp [hlen])
    intro i h1 h2
    simp only [List.length_map] at h1
    simp only [List.getElem_map]
    exact (runFact_some (h i h1)).1
  have hrows : rows ≠ [] := by
    intro h0; rw [h0] at hlen; exact hne (List.length_eq_zero_iff.1 hlen)
  have hname : ls.head?.bind runNameOf = names.head? := by
    cases ls with
    | nil => exact absurd rfl hne
    | cons l t =>
      cases names with
      | nil => simp at hlen'
      | cons n t' => exact (runFact_some (h 0 (by simp))).2
  have hwf : Wf (assign [] rows) := wf_assign rows [] wf_nil
  have hof : Store.ofDict S (assign [] rows) = .ok ⟨sortAll S (assign [] rows), true⟩ := by
    rw [ofDict_eq S _ hwf, if_neg (assign_not_all rows hrows)]
  refine ⟨⟨given.or names.head?, ⟨sortAll S (assign [] rows), true⟩⟩, ?_, ?_, ?_, ?_, rfl⟩
  · simp only [loadRun, hk]
    rw [if_neg (by decide), hb]
    simp only [runOfText, lines_iff.1 hl, parseRun_ok T ls [] given rows hmap, hof, hname]
  · exact .ofDict _ _ hwf.1 hwf.2 hof
  · intro q x
    rw [content_eq]
    show (cont (sortAll S _)).read q x = _
    rw [cont_sortAll S hwf, read_assign_nil]
  · intro q
    show q ∈ keys (sortAll S _) ↔ _
    rw [mem_keys_sortAll S hwf.1, mem_keys_assign]
    constructor
    · rintro (h | h)
      · cases h
      · exact h
    · exact .inr

/-- **C77** (qrels, rejection) -/
theorem C77_qrels_malformed (C : Codec B Int) (S : ArgSort Int) (bytes : B) (text path : Str)
    (kind : Option Str) (hk : qrelsKind path kind = .ok .trec) (hb : C.decodeText bytes = .ok text)
    (ls : List Str) (hl : Files.Spec.Lines text ls)
    (h : ls = [] ∨ ∃ l ∈ ls, ¬ ∃ q x v, Spec.QrelsLine l q x v) :
    loadQrels C S bytes path kind = .error .valueError := by
  simp only [loadQrels, hk]
  rw [if_neg (by decide), hb]
  simp only [lines_iff.1 hl]
  rcases h with rfl | ⟨l, hl, hn⟩
  · rfl
  · rw [parseQrels_error ls [] ⟨l, hl, qrelsFact_none hn⟩]

/-- **C77** (qrels, acceptance) -/
theorem C77_qrels_content (C : Codec B Int) (S : ArgSort Int) (bytes : B) (text path : Str)
    (kind : Option Str) (hk : qrelsKind path kind = .ok .trec) (hb : C.decodeText bytes = .ok text)
    (ls : List Str) (hl : Files.Spec.Lines text ls) (rows : List (Str × Str × Int))
    (hlen : ls.length = rows.length) (hne : ls ≠ [])
    (h : ∀ i (hi : i < ls.length), Spec.QrelsLine ls[i] (rows[i]'(hlen ▸ hi)).1 (rows[i]'(hlen ▸ hi)).2.1
      (rows[i]'(hlen ▸ hi)).2.2) :
    ∃ s, loadQrels C S bytes path kind = .ok s ∧ Reachable S s ∧
      (∀ q x, (Spec.content s).read q x = Spec.lastRow rows q x) ∧
      (∀ q, q ∈ s.data.keys ↔ ∃ row ∈ rows, row.1 = q) := by
  have hmap : ls.map qrelsFact = rows.map some := by
    apply List.ext_getElem (by simp [hlen])
    intro i h1 h2
    simp only [List.length_map] at h1
    simp only [List.getElem_map]
    exact qrelsFact_some (h i h1)
  have hrows : rows ≠ [] := by
    intro h0; rw [h0] at hlen; exact hne (List.length_eq_zero_iff.1 hlen)
  have hwf : Wf (assign [] rows) := wf_assign rows [] wf_nil
  have hof : Store.ofDict S (assign [] rows) = .ok ⟨sortAll S (assign [] rows), true⟩ := by
    rw [ofDict_eq S _ hwf, if_neg (assign_not_all rows hrows)]
  refine ⟨⟨sortAll S (assign [] rows), true⟩, ?_, ?_, ?_, ?_⟩
  · simp only [loadQrels, hk]
    rw [if_neg (by decide), hb]
    simp only [lines_iff.1 hl, parseQrels_ok ls [] rows hmap, hof]
  · exact .ofDict _ _ hwf.1 hwf.2 hof
  · intro q x
    rw [content_eq]
    show (cont (sortAll S _)).read q x = _
    rw [cont_sortAll S hwf, read_assign_nil]
  · intro q
    show q ∈ keys (sortAll S _) ↔ _
    rw [mem_keys_sortAll S hwf.1, mem_keys_assign]
    constructor
    · rintro (h | h)
      · cases h
      · exact h
    · exact .inr

end

/-! ### C78: kinds -/

/-- which extensions run files may have -/
def Spec.runExt : List (String × Kind) :=
  [("json", .json), ("trec", .trec), ("txt", .trec), ("lz4", .lz4), ("gz", .gz), ("parquet", .parquet),
    ("parq", .parquet)]

/-- which explicit kinds runs accept -/
def Spec.runKinds : List (String × Kind) :=
  [("json", .json), ("trec", .trec), ("lz4", .lz4), ("gz", .gz), ("parquet", .parquet)]

/-- which extensions qrels files may have -/
def Spec.qrelsExt : List (String × Kind) :=
  [("json", .json), ("trec", .trec), ("txt", .trec), ("gz", .gz), ("parquet", .parquet),
    ("parq", .parquet)]

/-- which explicit kinds qrels accept -/
def Spec.qrelsKinds : List (String × Kind) :=
  [("json", .json), ("trec", .trec), ("gz", .gz), ("parquet", .parquet)]

/-- look a word up in a table of kinds: AssertionError if it is not there -/
def Spec.lookupKind (table : List (String × Kind)) (w : Str) : Except Err Kind :=
  match table.find? (fun p => p.1.toList = w) with
  | some p => .ok p.2
  | none => .error .assertionError

theorem lookupKind_nil (w : Str) : Spec.lookupKind [] w = .error .assertionError := rfl

theorem lookupKind_cons (a : String) (k : Kind) (t : List (String × Kind)) (w : Str) :
    Spec.lookupKind ((a, k) :: t) w = if w = a.toList then .ok k else Spec.lookupKind t w := by
  unfold Spec.lookupKind
  by_cases h : w = a.toList
  · rw [List.find?_cons_of_pos (by simpa using h.symm), if_pos h]
  · rw [List.find?_cons_of_neg (by simpa using fun e => h e.symm), if_neg h]

/-- **C78** (explicit kind): an explicitly given kind decides, whatever the path. -/
theorem C78_explicit_kind (path k : Str) :
    runKind path (some k) = Spec.lookupKind Spec.runKinds k ∧
      qrelsKind path (some k) = Spec.lookupKind Spec.qrelsKinds k := by
  constructor
  · simp only [runKind, inferKind, Spec.runKinds, lookupKind_cons, lookupKind_nil]
    rfl
  · simp only [qrelsKind, inferKind, Spec.qrelsKinds, lookupKind_cons, lookupKind_nil]
    rfl

theorem inferKind_none {path ext : Str} (h : splitext path = '.' :: ext ∨ (splitext path = [] ∧ ext = [])) :
    inferKind path none = if ext = "txt".toList then "trec".toList
      else if ext = "parq".toList then "parquet".toList else ext := by
  have hd : (splitext path).drop 1 = ext := by
    rcases h with h | ⟨h, rfl⟩ <;> rw [h] <;> rfl
  simp only [inferKind, hd]
  by_cases h1 : ext = "txt".toList
  · rw [if_pos h1, if_pos h1, if_neg (by decide)]
  · rw [if_neg h1, if_neg h1]

theorem kinds_of_ext {path ext : Str}
    (h : splitext path = '.' :: ext ∨ (splitext path = [] ∧ ext = [])) :
    runKind path none = Spec.lookupKind Spec.runExt ext ∧
      qrelsKind path none = Spec.lookupKind Spec.qrelsExt ext := by
  simp only [runKind, qrelsKind, inferKind_none h, Spec.runExt, Spec.qrelsExt, lookupKind_cons,
    lookupKind_nil]
  by_cases h1 : ext = "txt".toList
  · subst h1; constructor <;> decide
  · by_cases h2 : ext = "parq".toList
    · subst h2; constructor <;> decide
    · rw [if_neg h1, if_neg h2]
      constructor
      · simp only [if_neg h1, if_neg h2]
      · simp only [if_neg h1, if_neg h2]

/-- **C78** (inferred kind): otherwise the last extension of the last component of the path decides, and
`txt` and `parq` are synonyms; paths with another extension, or none, are rejected. -/
theorem C78_inferred_kind (path : Str) :
    (∀ ext, Files.Spec.HasExt path ext →
      runKind path none = Spec.lookupKind Spec.runExt ext ∧
        qrelsKind path none = Spec.lookupKind Spec.qrelsExt ext) ∧
    ((∀ ext, ¬ Files.Spec.HasExt path ext) →
      runKind path none = .error .assertionError ∧ qrelsKind path none = .error .assertionError) := by
  constructor
  · intro ext h
    exact kinds_of_ext (.inl (splitext_of_hasExt h))
  · intro h
    have := kinds_of_ext (.inr ⟨splitext_of_not h, rfl⟩)
    rw [this.1, this.2]
    decide

/-- a path has at most one extension -/
theorem C78_extension_unique {path a b : Str} (ha : Files.Spec.HasExt path a)
    (hb : Files.Spec.HasExt path b) : a = b := by
  have h1 := splitext_of_hasExt ha
  rw [splitext_of_hasExt hb] at h1
  exact (List.cons.inj h1).2.symm

section
variable {B α : Type*} [AddCommGroup α] [LinearOrder α] [IsOrderedAddMonoid α]

/-- **C78** (effects): `save` and `from_file` reject the same requests, and a rejected `save` leaves the
run as it was. -/
theorem C78_rejected (C : Codec B α) (T : FloatText α) (S : ArgSort α) (r : RunFile α) (bytes : B)
    (path : Str) (kind name : Option Str) :
    ((saveRun C T S r path kind).2 = .error .assertionError ↔ ∃ e, runKind path kind = .error e) ∧
    ((∃ e, runKind path kind = .error e) →
      loadRun C T S bytes path kind name = .error .assertionError ∧
        (saveRun C T S r path kind).1 = r) := by
  have herr : ∀ e, runKind path kind = .error e → e = .assertionError := by
    intro e he
    simp only [runKind] at he
    split at he; · cases he
    split at he; · cases he
    split at he; · cases he
    split at he; · cases he
    split at he; · cases he
    cases he; rfl
  cases hk : runKind path kind with
  | error e =>
    have := herr e hk
    subst this
    refine ⟨⟨fun _ => ⟨_, rfl⟩, fun _ => by simp only [saveRun, hk]⟩, fun _ => ⟨?_, ?_⟩⟩
    · simp only [loadRun, hk]
    · simp only [saveRun, hk]
  | ok k =>
    refine ⟨⟨fun h => ?_, ?_⟩, ?_⟩
    · simp only [saveRun, hk] at h; cases h
    · rintro ⟨e, he⟩; cases he
    · rintro ⟨e, he⟩; cases he

/-! ### C79: the other formats -/

theorem not_all_of_cont {d : Dict Str (Dict Str α)} (hne : ∃ p ∈ d, p.2 ≠ []) :
    ¬ (values d).all (fun x => x.isEmpty) = true := by
  obtain ⟨p, hp, hpe⟩ := hne
  intro hall
  rw [List.all_eq_true] at hall
  exact hpe (by simpa using hall p.2 (List.mem_map.2 ⟨p, hp, rfl⟩))

theorem nonempty_ensureSorted (S : ArgSort α) {s : Store Str Str α} (hw : Wf s.data)
    (hne : ∃ p ∈ s.data, p.2 ≠ []) : ∃ p ∈ (s.ensureSorted S).data, p.2 ≠ [] := by
  obtain ⟨p, hp, hpe⟩ := hne
  have hg := get?_of_mem hw.1 (show (p.1, p.2) ∈ _ from hp)
  have hc := congrFun (cont_ensureSorted S hw) p.1
  simp only [cont, hg, Option.map_some] at hc
  obtain ⟨i, hi, he⟩ := Option.map_eq_some_iff.1 hc
  refine ⟨(p.1, i), mem_of_get? hi, ?_⟩
  intro h0
  simp only [] at h0
  rw [h0] at he
  exact hpe ((eq_nil_iff_get? _).2 (fun x => (congrFun he x).symm))

/-- **C79** (JSON and LZ4): every run with at least one doc, whatever its ids and name, is restored,
including its queries without docs; the name is not stored in the file. -/
theorem C79_json_lz4_roundtrip_partial (C : Codec B α) (T : FloatText α) (S S' : ArgSort α) (r : RunFile α)
    (hs : Reachable S r.store) (path path' : Str) (kind kind' given : Option Str) (k : Kind)
    (hkk : k = .json ∨ k = .lz4)
    (hk : runKind path kind = .ok k) (hk' : runKind path' kind' = .ok k)
    (hne : ∃ p ∈ r.store.data, p.2 ≠ []) :
    ∃ bytes r', (saveRun C T S r path kind).2 = .ok bytes ∧
      loadRun C T S' bytes path' kind' given = .ok r' ∧ r'.name = given ∧ Reachable S' r'.store ∧
      (∀ q x, (Spec.content r'.store).read q x = (Spec.content r.store).read q x) ∧
      (∀ q, q ∈ r'.store.data.keys ↔ q ∈ r.store.data.keys) ∧
      (r'.store.sorted = true ∧ (∀ p ∈ r'.store.data, Spec.Ranked p.2.values) ∧
        r'.store.data.keys.Pairwise (· < ·)) := by
  have hw := hs.wf
  have hw' := ensureSorted_wf S hw
  have hne' := nonempty_ensureSorted S hw hne
  have hof : Store.ofDict S' (r.store.ensureSorted S).data =
      .ok ⟨sortAll S' (r.store.ensureSorted S).data, true⟩ := by
    rw [ofDict_eq S' _ hw', if_neg (not_all_of_cont hne')]
  have hread : ∀ q x, (Spec.content (⟨sortAll S' (r.store.ensureSorted S).data, true⟩ :
      Store Str Str α)).read q x = (Spec.content r.store).read q x := by
    intro q x
    rw [content_eq, content_eq]
    show (cont (sortAll S' _)).read q x = _
    rw [cont_sortAll S' hw', cont_ensureSorted S hw]
  have hkeys : ∀ q, q ∈ keys (sortAll S' (r.store.ensureSorted S).data) ↔ q ∈ r.store.data.keys := by
    intro q
    rw [mem_keys_sortAll S' hw'.1]
    exact mem_keys_of_cont (cont_ensureSorted S hw) q
  rcases hkk with rfl | rfl
  · refine ⟨C.dumpJson (r.store.ensureSorted S).data, ⟨given, ⟨sortAll S' _, true⟩⟩, ?_, ?_, rfl,
      .ofDict _ _ hw'.1 hw'.2 hof, hread, hkeys, rfl, sortAll_ranked S' hw'⟩
    · simp only [saveRun, hk]
    · simp only [loadRun, hk', C.json_json _ hw'.1 hw'.2, runOfDict, hof]
  · refine ⟨C.dumpLz4 (r.store.ensureSorted S).data, ⟨given, ⟨sortAll S' _, true⟩⟩, ?_, ?_, rfl,
      .ofDict _ _ hw'.1 hw'.2 hof, hread, hkeys, rfl, sortAll_ranked S' hw'⟩
    · simp only [saveRun, hk]
    · simp only [loadRun, hk', C.lz4_lz4 _ hw'.1 hw'.2, runOfDict, hof]

/-- **C79** (parquet): `from_parquet` restores what `save` wrote, except queries without docs and the
name. -/
theorem C79_parquet_roundtrip_partial (C : Codec B α) (T : FloatText α) (S : ArgSort α) (r : RunFile α)
    (hs : Reachable S r.store) (path : Str) (kind given : Option Str)
    (hk : runKind path kind = .ok .parquet) (hne : ∃ p ∈ r.store.data, p.2 ≠ []) :
    ∃ bytes r', (saveRun C T S r path kind).2 = .ok bytes ∧
      loadRunParquet C S bytes given = .ok r' ∧ r'.name = given ∧
      (∀ q x, (Spec.content r'.store).read q x = (Spec.content r.store).read q x) ∧
      (∀ q, q ∈ r'.store.data.keys ↔ ∃ inner, r.store.data.get? q = some inner ∧ inner ≠ []) := by
  have hw := hs.wf
  have hsr : Reachable S (r.store.ensureSorted S) := .step r.store .toTypedList hs
  obtain ⟨s', h1, h2, h3⟩ := C08_roundtrip (r.store.ensureSorted S) hsr (nonempty_ensureSorted S hw hne)
  refine ⟨C.dumpParquet (r.store.ensureSorted S).toDataframe, ⟨given, s'⟩, ?_, ?_, rfl, ?_, ?_⟩
  · simp only [saveRun, hk]
  · simp only [loadRunParquet, C.parquet_parquet, h1]
  · intro q x
    rw [h2 q x, content_eq, content_eq, cont_ensureSorted S hw]
  · intro q
    show q ∈ s'.data.keys ↔ _
    rw [h3 q]
    have hc := congrFun (cont_ensureSorted S hw) q
    simp only [cont] at hc
    constructor
    · rintro ⟨i, hi, hne⟩
      rw [hi] at hc
      obtain ⟨j, hj, he⟩ := Option.map_eq_some_iff.1 hc.symm
      refine ⟨j, hj, fun h0 => hne ?_⟩
      rw [h0] at he
      exact (eq_nil_iff_get? _).2 (fun x => (congrFun he x).symm)
    · rintro ⟨i, hi, hne⟩
      rw [hi] at hc
      obtain ⟨j, hj, he⟩ := Option.map_eq_some_iff.1 hc
      refine ⟨j, hj, fun h0 => hne ?_⟩
      rw [h0] at he
      exact (eq_nil_iff_get? _).2 (fun x => (congrFun he x).symm)

theorem writeText_ne_nil {β : Type*} (line : Str → Str → Nat → β → Str) (d : Dict Str (Dict Str β))
    (hl : ∀ q x i v, line q x i v ≠ []) (hne : ∃ p ∈ d, p.2 ≠ []) : writeText line d ≠ [] := by
  obtain ⟨p, hp, hpe⟩ := hne
  obtain ⟨e, he⟩ := List.exists_mem_of_ne_nil _ hpe
  obtain ⟨i, hi, rfl⟩ := List.getElem_of_mem hp
  obtain ⟨j, hj, rfl⟩ := List.getElem_of_mem he
  intro h0
  rw [writeText, List.flatMap_eq_nil_iff] at h0
  have h1 := h0 (d[i], i) (by rw [List.mk_mem_zipIdx_iff_getElem?]; simp [hi])
  rw [List.flatMap_eq_nil_iff] at h1
  have h2 := h1 (d[i].2[j], j) (by rw [List.mk_mem_zipIdx_iff_getElem?]; simp [hj])
  exact hl _ _ _ _ (List.append_eq_nil_iff.1 h2).1

theorem runLine_ne_nil (T : FloatText α) (name q x : Str) (i : Nat) (v : α) :
    runLine T name q x i v ≠ [] := by
  intro h
  have := congrArg List.length h
  simp [runLine] at this

theorem qrelsLine_ne_nil (q x : Str) (v : Int) : qrelsLine q x v ≠ [] := by
  intro h
  have := congrArg List.length h
  simp [qrelsLine] at this

/-- **C79, refuted for gz**: `save` accepts `.gz` but writes plain text, so loading the file fails with
an OSError (`BadGzipFile`) for every run with at least one doc, and likewise for qrels. -/
theorem C79_gz_refuted (C : Codec B α) (T : FloatText α) (S S' : ArgSort α) (r : RunFile α)
    (hs : Reachable S r.store) (path path' : Str) (kind kind' given : Option Str)
    (hk : runKind path kind = .ok .gz) (hk' : runKind path' kind' = .ok .gz)
    (hne : ∃ p ∈ r.store.data, p.2 ≠ []) :
    ∃ bytes, (saveRun C T S r path kind).2 = .ok bytes ∧
      loadRun C T S' bytes path' kind' given = .error .osError := by
  refine ⟨_, by simp only [saveRun, hk]; rfl, ?_⟩
  simp only [loadRun, hk']
  rw [if_pos (by trivial), C.gunzip_text]
  exact writeText_ne_nil _ _ (fun q x i v => runLine_ne_nil T _ q x i v)
    (nonempty_ensureSorted S hs.wf hne)

/-- **C79** (qrels JSON) -/
theorem C79_qrels_json_roundtrip_partial (C : Codec B Int) (S S' : ArgSort Int) (s : Store Str Str Int)
    (hs : Reachable S s) (path path' : Str) (kind kind' : Option Str)
    (hk : qrelsKind path kind = .ok .json) (hk' : qrelsKind path' kind' = .ok .json)
    (hne : ∃ p ∈ s.data, p.2 ≠ []) :
    ∃ bytes s', saveQrels C s path kind = .ok bytes ∧ loadQrels C S' bytes path' kind' = .ok s' ∧
      Reachable S' s' ∧
      (∀ q x, (Spec.content s').read q x = (Spec.content s).read q x) ∧
      (∀ q, q ∈ s'.data.keys ↔ q ∈ s.data.keys) ∧
      (s'.sorted = true ∧ (∀ p ∈ s'.data, Spec.Ranked p.2.values) ∧ s'.data.keys.Pairwise (· < ·)) := by
  have hw := hs.wf
  have hof : Store.ofDict S' s.data = .ok ⟨sortAll S' s.data, true⟩ := by
    rw [ofDict_eq S' _ hw, if_neg (not_all_of_cont hne)]
  refine ⟨C.dumpJson s.data, ⟨sortAll S' s.data, true⟩, ?_, ?_, .ofDict _ _ hw.1 hw.2 hof, ?_, ?_, rfl, sortAll_ranked S' hw⟩
  · simp only [saveQrels, hk]
  · simp only [loadQrels, hk', C.json_json _ hw.1 hw.2, hof]
  · intro q x
    rw [content_eq, content_eq]
    show (cont (sortAll S' _)).read q x = _
    rw [cont_sortAll S' hw]
  · intro q
    show q ∈ keys (sortAll S' _) ↔ _
    rw [mem_keys_sortAll S' hw.1]

/-- **C79** (qrels parquet) -/
theorem C79_qrels_parquet_roundtrip_partial (C : Codec B Int) (S : ArgSort Int) (s : Store Str Str Int)
    (hs : Reachable S s) (path : Str) (kind : Option Str)
    (hk : qrelsKind path kind = .ok .parquet) (hne : ∃ p ∈ s.data, p.2 ≠ []) :
    ∃ bytes s', saveQrels C s path kind = .ok bytes ∧ loadQrelsParquet C S bytes = .ok s' ∧
      (∀ q x, (Spec.content s').read q x = (Spec.content s).read q x) ∧
      (∀ q, q ∈ s'.data.keys ↔ ∃ inner, s.data.get? q = some inner ∧ inner ≠ []) := by
  obtain ⟨s', h1, h2, h3⟩ := C08_roundtrip s hs hne
  refine ⟨C.dumpParquet s.toDataframe, s', ?_, ?_, h2, h3⟩
  · simp only [saveQrels, hk]
  · simp only [loadQrelsParquet, C.parquet_parquet, h1]

/-- **C79, refuted for gz** (qrels) -/
theorem C79_qrels_gz_refuted (C : Codec B Int) (S S' : ArgSort Int) (s : Store Str Str Int)
    (path path' : Str) (kind kind' : Option Str)
    (hk : qrelsKind path kind = .ok .gz) (hk' : qrelsKind path' kind' = .ok .gz)
    (hne : ∃ p ∈ s.data, p.2 ≠ []) :
    ∃ bytes, saveQrels C s path kind = .ok bytes ∧
      loadQrels C S' bytes path' kind' = .error .osError := by
  refine ⟨_, by simp only [saveQrels, hk]; rfl, ?_⟩
  simp only [loadQrels, hk']
  rw [if_pos (by trivial), C.gunzip_text]
  exact writeText_ne_nil _ _ (fun q x i v => qrelsLine_ne_nil q x v) hne

end
end Ranx
