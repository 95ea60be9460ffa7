import Verif.Props.Crash

/-!
# C149: qrels and their files, byte by byte

The `Codec` of `Model/IO` is an abstract interface to the libraries.  Here it is instantiated with bytes: UTF-8 (C132), the
text of JSON (C124) with Python's integers, and a gzip reader that looks at the magic number.  Parquet stays a parameter.
-/

set_option linter.unusedSectionVars false

namespace Ranx
open Dict Store FText Files Special Special.X Byt
open Py
open Files.Spec (Word)

namespace Byt

/-- pandas' Parquet files: reading gives back the rows written -/
structure Parquet (β : Type*) where
  dump : List (Str × Str × β) → Bytes
  load : Bytes → Except Err (List (Str × Str × β))
  undo : ∀ d, load (dump d) = .ok d

/-- `gzip.open(path, "rt")` (qrels.py:269): an empty file is an empty text, a file that does not start with `1f 8b` raises
BadGzipFile (an OSError), any other is decompressed by `gz` -/
def gunzip (gz : Bytes → Except Err Str) : Bytes → Except Err Str
  | [] => .ok []
  | [_] => .error .osError
  | a :: b :: t => if a = 0x1F ∧ b = 0x8B then gz (a :: b :: t) else .error .osError

/-- the dictionary in the bytes of a JSON file (qrels.py:265-266) -/
def loadJsonInt (b : Bytes) : Except Err (Dict Str (Dict Str Int)) :=
  match ofUtf8 b with
  | none => .error .valueError
  | some s => Jsn.nestedOf intNum Jsn.relOfJson s

theorem loadJsonInt_dump (d : Dict Str (Dict Str Int)) (hw : Wf d) :
    loadJsonInt (utf8 (Jsn.qrelsText intNum d)) = .ok d := by
  unfold loadJsonInt
  rw [(C132_roundtrip _ _).2 rfl]
  simp only
  unfold Jsn.qrelsText
  rw [Jsn.nestedOf_nested Jsn.relOfJson .num id (fun _ => rfl) (fun x => by simp [Spec.noNan]) _ hw]
  simp [Jsn.mapVals]

/-- the formats of qrels as bytes (qrels.py:202-218, 265-274).  Qrels have no LZ4 files (qrels.py:370-385): the two LZ4
fields of the interface, which qrels never use, are those of JSON. -/
def qrelsCodec (gz : Bytes → Except Err Str) (P : Parquet Int) : Codec Bytes Int where
  encodeText := utf8
  decodeText b := match ofUtf8 b with
    | none => .error .valueError
    | some s => .ok s
  gunzip := gunzip gz
  dumpJson d := utf8 (Jsn.qrelsText intNum d)
  loadJson := loadJsonInt
  dumpLz4 d := utf8 (Jsn.qrelsText intNum d)
  loadLz4 := loadJsonInt
  dumpParquet := P.dump
  loadParquet := P.load
  text_text s := by rw [(C132_roundtrip _ _).2 rfl]
  json_json d h1 h2 := loadJsonInt_dump d ⟨h1, h2⟩
  lz4_lz4 d h1 h2 := loadJsonInt_dump d ⟨h1, h2⟩
  parquet_parquet := P.undo
  gunzip_text s hs := by
    cases hu : utf8 s with
    | nil =>
      cases s with
      | nil => exact absurd rfl hs
      | cons c s =>
        have := utf8Char_ne_nil (utf8Char_encode c)
        simp only [utf8, List.flatMap_cons, List.append_eq_nil_iff] at hu
        exact absurd hu.1 this
    | cons a t =>
      cases t with
      | nil => rfl
      | cons b t =>
        show (if _ then _ else _) = _
        rw [if_neg]
        rintro ⟨rfl, rfl⟩
        exact C132_not_gzip s t hu

end Byt

/-- `s'` are the qrels `s`, ranked -/
structure Spec.SameQrels (s s' : Store Str Str Int) : Prop where
  values : ∀ q x, (Spec.content s').read q x = (Spec.content s).read q x
  ranked : ∀ p ∈ s'.data, Spec.Ranked p.2.values
  sorted : s'.data.keys.Pairwise (· < ·)

/-- **C149** (JSON): qrels with at least one judgment, with any ids and integers of any size, saved as JSON and loaded from
the bytes of the file are the same qrels, with the same queries. -/
theorem C149_json (S S' : ArgSort Int) (s : Store Str Str Int) (hs : Reachable S s) (hne : ∃ p ∈ s.data, p.2 ≠ []) :
    ∃ s', qrelsOfJsonBytes intNum S' (qrelsJsonBytes intNum s) = .ok s' ∧ Reachable S' s' ∧ Spec.SameQrels s s' ∧
      ∀ q, q ∈ s'.data.keys ↔ q ∈ s.data.keys := by
  obtain ⟨s', h1, h2, h3, h4, h5, h6⟩ := C124_qrels intNum S S' s hs hne
  refine ⟨s', ?_, h2, ⟨h3, h5, h6⟩, h4⟩
  unfold qrelsOfJsonBytes qrelsJsonBytes
  rw [(C132_roundtrip _ _).2 rfl]
  exact h1

/-- **C149** (TREC): qrels whose ids are words, saved in the TREC format and loaded from the bytes of the file are the same
qrels; exactly the queries without judgments are lost. -/
theorem C149_trec (S S' : ArgSort Int) (s : Store Str Str Int) (hs : Reachable S s) (hids : Spec.WordIds s)
    (hne : ∃ p ∈ s.data, p.2 ≠ []) :
    ∃ s', qrelsOfTrec S' (qrelsTrecBytes s) = .ok s' ∧ Reachable S' s' ∧ Spec.SameQrels s s' ∧
      ∀ q, q ∈ s'.data.keys ↔ ∃ inner, s.data.get? q = some inner ∧ inner ≠ [] := by
  have hw := hs.wf
  have hof := (ofDict_eq S' _ (wf_nonEmpty hw)).trans (if_neg (nonEmpty_not_all hne))
  obtain ⟨r1, r2⟩ := sortAll_ranked S' (wf_nonEmpty hw)
  refine ⟨⟨sortAll S' (nonEmpty s.data), true⟩, ?_, .ofDict _ _ (wf_nonEmpty hw).1 (wf_nonEmpty hw).2 hof, ⟨?_, r1, r2⟩, ?_⟩
  · unfold qrelsOfTrec qrelsTrecBytes
    rw [(C132_roundtrip _ _).2 rfl]
    simp only
    rw [parse_saved_qrels s hw hids]
    exact hof
  · intro q x
    rw [content_eq, content_eq]
    show (Store.cont (sortAll S' _)).read q x = _
    rw [cont_sortAll S' (wf_nonEmpty hw), read_nonEmpty hw]
  · intro q
    show q ∈ keys (sortAll S' _) ↔ _
    rw [mem_keys_sortAll S' (wf_nonEmpty hw).1, mem_keys_nonEmpty hw]

/-- **C149** (what is written): with the formats as bytes, `qrels.save` writes, according to the kind of the path, the JSON
text or the TREC text in UTF-8 (for `.gz` as well), and `Qrels.from_file` reads them. -/
theorem C149_files (gz : Bytes → Except Err Str) (P : Parquet Int) (S : ArgSort Int) (s : Store Str Str Int) (path : Str)
    (kind : Option Str) (b : Bytes) :
    (qrelsKind path kind = .ok .json → saveQrels (qrelsCodec gz P) s path kind = .ok (qrelsJsonBytes intNum s) ∧
      loadQrels (qrelsCodec gz P) S b path kind = qrelsOfJsonBytes intNum S b) ∧
    (qrelsKind path kind = .ok .trec → saveQrels (qrelsCodec gz P) s path kind = .ok (qrelsTrecBytes s) ∧
      loadQrels (qrelsCodec gz P) S b path kind = qrelsOfTrec S b) ∧
    (qrelsKind path kind = .ok .gz → saveQrels (qrelsCodec gz P) s path kind = .ok (qrelsTrecBytes s)) := by
  refine ⟨fun hk => ⟨by simp only [saveQrels, hk]; rfl, ?_⟩, fun hk => ⟨by simp only [saveQrels, hk]; rfl, ?_⟩,
    fun hk => by simp only [saveQrels, hk]; rfl⟩
  · simp only [loadQrels, hk]
    have e : (qrelsCodec gz P).loadJson b = loadJsonInt b := rfl
    rw [e]
    unfold loadJsonInt qrelsOfJsonBytes Jsn.qrelsOfJson
    cases ofUtf8 b with
    | none => rfl
    | some t => rfl
  · simp only [loadQrels, hk]
    rw [if_neg (by decide)]
    unfold qrelsOfTrec
    cases hu : ofUtf8 b with
    | none =>
      have e : (qrelsCodec gz P).decodeText b = .error .valueError := by simp only [qrelsCodec, hu]
      rw [e]
    | some t =>
      have e : (qrelsCodec gz P).decodeText b = .ok t := by simp only [qrelsCodec, hu]
      rw [e]
      rfl

/-- **C149** (any bytes): loading any bytes as a TREC qrels file succeeds exactly if they are UTF-8, there is a line, and
every line has four fields of which the last is an integer; each (query, doc) then has the value of its last line. -/
theorem C149_any_bytes (S : ArgSort Int) (b : Bytes) :
    (∀ text ls rows, Spec.Utf8Text b text → Files.Spec.Lines text ls → List.Forall₂
        (fun l (row : Str × Str × Int) => Spec.QrelsLine l row.1 row.2.1 row.2.2) ls rows → ls ≠ [] →
      ∃ s, qrelsOfTrec S b = .ok s ∧ Reachable S s ∧ (∀ q x, (Spec.content s).read q x = Spec.lastRow rows q x) ∧
        ∀ q, q ∈ s.data.keys ↔ ∃ row ∈ rows, row.1 = q) ∧
    ((¬ ∃ text ls rows, Spec.Utf8Text b text ∧ Files.Spec.Lines text ls ∧ ls ≠ [] ∧ List.Forall₂
        (fun l (row : Str × Str × Int) => Spec.QrelsLine l row.1 row.2.1 row.2.2) ls rows) →
      qrelsOfTrec S b = .error .valueError) := by
  constructor
  · intro text ls rows ht hl hrows hne
    have hmap : ls.map qrelsFact = rows.map some := by
      clear hne hl
      induction hrows with
      | nil => rfl
      | cons h _ ih => rw [List.map_cons, List.map_cons, ih, qrelsFact_some h]
    have hrows0 : rows ≠ [] := by
      rintro rfl
      cases hrows
      exact hne rfl
    have hwf : Wf (assign [] rows) := wf_assign rows [] wf_nil
    have hof : Store.ofDict S (assign [] rows) = .ok ⟨sortAll S (assign [] rows), true⟩ := by
      rw [ofDict_eq S _ hwf, if_neg (assign_not_all rows hrows0)]
    refine ⟨⟨sortAll S (assign [] rows), true⟩, ?_, .ofDict _ _ hwf.1 hwf.2 hof, ?_, ?_⟩
    · unfold qrelsOfTrec
      rw [(C132_decoder _ _).2 ht]
      simp only [lines_iff.1 hl, parseQrels_ok ls [] rows hmap, hof]
    · intro q x
      rw [content_eq]
      show (cont (sortAll S _)).read q x = _
      rw [cont_sortAll S hwf, read_assign_nil]
    · intro q
      show q ∈ keys (sortAll S _) ↔ _
      rw [mem_keys_sortAll S hwf.1, mem_keys_assign]
      constructor
      · rintro (h | h)
        · cases h
        · exact h
      · exact .inr
  · intro hno
    unfold qrelsOfTrec
    cases hu : ofUtf8 b with
    | none => rfl
    | some text =>
      simp only
      rcases facts_or_none qrelsFact (fileLines text) with ⟨fs, hfs⟩ | hbad
      · by_cases h0 : fileLines text = []
        · rw [h0]; rfl
        · exfalso
          refine hno ⟨text, fileLines text, fs, (C132_decoder _ _).1 hu, lines_iff.2 rfl, h0, ?_⟩
          clear h0 hno
          generalize fileLines text = ls at hfs
          induction ls generalizing fs with
          | nil =>
            cases fs with
            | nil => exact .nil
            | cons => simp at hfs
          | cons l ls ih =>
            cases fs with
            | nil => simp at hfs
            | cons f fs =>
              simp only [List.map_cons, List.cons.injEq] at hfs
              refine .cons ?_ (ih fs hfs.2)
              have h1 := hfs.1
              unfold qrelsFact at h1
              split at h1
              · rename_i q a x rel he
                obtain ⟨v, hv, rfl⟩ := Option.map_eq_some_iff.1 h1
                exact ⟨a, rel, fields_iff.2 he, hv⟩
              · cases h1
      · rw [parseQrels_error _ _ hbad]

/-- **C149** (gzip): qrels saved to a path of kind `gz` are plain text, and loading them raises an OSError, whatever the
decompressor does. -/
theorem C149_gz_refuted (gz : Bytes → Except Err Str) (P : Parquet Int) (S : ArgSort Int) (s : Store Str Str Int)
    (path : Str) (kind : Option Str) (hk : qrelsKind path kind = .ok .gz) (hne : ∃ p ∈ s.data, p.2 ≠ []) :
    saveQrels (qrelsCodec gz P) s path kind = .ok (qrelsTrecBytes s) ∧
    loadQrels (qrelsCodec gz P) S (qrelsTrecBytes s) path kind = .error .osError := by
  have h1 := (C149_files gz P S s path kind []).2.2 hk
  refine ⟨h1, ?_⟩
  obtain ⟨b, h2, h3⟩ := C79_qrels_gz_refuted (qrelsCodec gz P) S S s path path kind kind hk hk hne
  rw [h1, Except.ok.injEq] at h2
  rw [h2]; exact h3

/-- a run saved with `kind="lz4"` and cut is rejected if the frame format rejects its proper prefixes -/
def Spec.RejectsCuts (Z : Frame) : Prop := ∀ c b rest : Bytes, rest ≠ [] → b ++ rest = Z.compress c → Z.decompress b = none

/-- **C148** (runs as LZ4): if the frame format rejects cut frames (a truncated LZ4 frame raises EOFError), an interrupted
`run.save(path, kind="lz4")` leaves the old file, the complete one, or one `Run.from_file` rejects. -/
theorem C148_run_lz4 (Z : Frame) (hZ : Spec.RejectsCuts Z) (rnd : ℚ → ℚ) (S S' : ArgSort (X ℚ))
    (s : Store Str Str (X ℚ)) (old : Option Bytes) (b : Bytes)
    (h : Left old (saveLz4 Z (runVal (s.ensureSorted S).data)) (some b)) :
    old = some b ∨ b = saveLz4 Z (runVal (s.ensureSorted S).data) ∨ runOfLz4 Z rnd S' b = .error .osError := by
  generalize hb : some b = ob at h
  cases h with
  | unopened => exact .inl rfl
  | written b' rest h =>
    rw [Option.some.injEq] at hb
    subst hb
    refine .inr ?_
    by_cases hr : rest = []
    · subst hr; exact .inl (by rw [← h, List.append_nil])
    · refine .inr ?_
      unfold runOfLz4 loadLz4
      rw [hZ _ b rest hr h]

/-! ## Examples -/

/-- a frame with its length in front, one byte per unit; it rejects cut frames -/
def exCountFrame : Frame where
  compress b := List.replicate b.length 1 ++ 0 :: b
  decompress b := if ((b.dropWhile (· == 1)).drop 1).length = (b.takeWhile (· == 1)).length ∧ b ≠ [] then
    some ((b.dropWhile (· == 1)).drop 1) else none
  undo b := by
    have h1 : (List.replicate b.length 1 ++ 0 :: b).takeWhile (· == 1) = List.replicate b.length 1 := by
      rw [List.takeWhile_append_of_pos (by simp)]
      simp
    have h2 : (List.replicate b.length 1 ++ 0 :: b).dropWhile (· == 1) = 0 :: b := by
      rw [List.dropWhile_append_of_pos (by simp)]
      simp
    simp only [h1, h2]
    rw [if_pos (by simp)]
    simp

theorem exCountFrame_rejects : Spec.RejectsCuts exCountFrame := by
  intro c b rest hr h
  change b ++ rest = List.replicate c.length 1 ++ 0 :: c at h
  show (if ((b.dropWhile (· == 1)).drop 1).length = (b.takeWhile (· == 1)).length ∧ b ≠ [] then _ else _) = _
  rw [if_neg]
  rintro ⟨hl, hb⟩
  rcases prefix_append_cases (show b <+: _ from ⟨rest, h⟩) with hp | ⟨d, rfl, hd⟩
  · have hall : ∀ x ∈ b, (x == 1) = true := by
      intro x hx
      have := List.eq_of_mem_replicate (hp.subset hx)
      rw [this]; rfl
    have e1 : b.dropWhile (· == 1) = [] := List.dropWhile_eq_nil_iff.2 hall
    have e2 : b.takeWhile (· == 1) = b := List.takeWhile_eq_self_iff.2 hall
    rw [e1, e2] at hl
    exact hb (List.length_eq_zero_iff.1 (by simpa using hl.symm))
  · rw [List.append_assoc] at h
    have h := List.append_cancel_left h
    cases d with
    | nil =>
      have hall : ∀ x ∈ List.replicate c.length 1 ++ [], (x == 1) = true := by
        intro x hx
        rw [List.append_nil] at hx
        rw [List.eq_of_mem_replicate hx]; rfl
      have e1 := List.dropWhile_eq_nil_iff.2 hall
      have e2 := List.takeWhile_eq_self_iff.2 hall
      rw [e1, e2] at hl
      exact hb (List.length_eq_zero_iff.1 (by simpa using hl.symm))
    | cons a d =>
      simp only [List.cons_append, List.cons.injEq] at h
      obtain ⟨rfl, h'⟩ := h
      have h1 : (List.replicate c.length 1 ++ 0 :: d).takeWhile (· == 1) = List.replicate c.length 1 := by
        rw [List.takeWhile_append_of_pos (by simp)]
        simp
      have h2 : (List.replicate c.length 1 ++ 0 :: d).dropWhile (· == 1) = 0 :: d := by
        rw [List.dropWhile_append_of_pos (by simp)]
        simp
      rw [h1, h2] at hl
      have : c.length = d.length + rest.length := by rw [← h', List.length_append]
      have hr' : rest.length ≠ 0 := fun h => hr (List.length_eq_zero_iff.1 h)
      simp at hl
      omega

/-- non-vacuity: qrels with an id with a quote and a large judgment, in both formats -/
example : ∃ s : Store Str Str Int, Reachable (ArgSort.stable Int) s ∧ (∃ p ∈ s.data, p.2 ≠ []) ∧ Spec.WordIds s ∧
    qrelsTrecBytes s = utf8 "q\"1 0 é 123456789012345678901\nq\"1 0 d2 -1".toList ∧
    qrelsJsonBytes intNum s =
      utf8 "{\n  \"q\\\"1\": {\n    \"é\": 123456789012345678901,\n    \"d2\": -1\n  }\n}".toList := by
  refine ⟨⟨[("q\"1".toList, [("é".toList, 123456789012345678901), ("d2".toList, -1)])], true⟩, ?_, by decide +kernel,
    by unfold Spec.WordIds Files.Spec.Word; decide +kernel, by decide +kernel, by decide +kernel⟩
  exact .ofDict [("q\"1".toList, [("é".toList, 123456789012345678901), ("d2".toList, -1)])] _
    (by unfold Dict.NodupKeys; decide +kernel) (by unfold Dict.NodupKeys; decide +kernel) (by decide +kernel)

/-- bytes that are loaded (with tabs, Windows line ends, a sign and underscores) and bytes that are not -/
example : qrelsOfTrec (ArgSort.stable Int) (utf8 "q1 0 d1 +1_0\r\n q1\t0 d2 2 \r\n".toList) =
      .ok ⟨[("q1".toList, [("d1".toList, 10), ("d2".toList, 2)])], true⟩ ∧
    qrelsOfTrec (ArgSort.stable Int) (utf8 "q1 0 d1 1\n\nq1 0 d2 2".toList) = .error .valueError ∧
    qrelsOfTrec (ArgSort.stable Int) (utf8 "q1 0 d1 1.0".toList) = .error .valueError ∧
    qrelsOfTrec (ArgSort.stable Int) [0x71, 0x20, 0x30, 0x20, 0xFF, 0x20, 0x31] = .error .valueError := by
  decide +kernel

end Ranx
