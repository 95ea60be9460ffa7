import Verif.Props.FilesB

/-!
# Property C75: limits of the round-trip; non-vacuity of C75-C79
-/

set_option linter.unusedSectionVars false

namespace Ranx
open Dict Store Py Files
open Files.Spec (Word)

section
variable {B α : Type*} [AddCommGroup α] [LinearOrder α] [IsOrderedAddMonoid α]

/-- **C75, limit**: a run whose name is not one word (say `BM25 tuned`, or empty) can be saved in the TREC
format, but the file cannot be loaded: ValueError, for every such run with at least one doc. -/
theorem C75_name_not_a_word (C : Codec B α) (T : FloatText α) (S S' : ArgSort α) (r : RunFile α)
    (hs : Reachable S r.store) (path path' : Str) (kind kind' : Option Str)
    (hk : runKind path kind = .ok .trec) (hk' : runKind path' kind' = .ok .trec) (given : Option Str)
    (hids : Spec.WordIds r.store) (hne : ∃ p ∈ r.store.data, p.2 ≠ []) (ns : List Str)
    (hn : Files.Spec.Fields (nameText r.name) ns) (hlen : ns.length ≠ 1)
    (hnl : '\n' ∉ nameText r.name ∧ '\r' ∉ nameText r.name) :
    ∃ bytes, (saveRun C T S r path kind).2 = .ok bytes ∧
      loadRun C T S' bytes path' kind' given = .error .valueError := by
  have hw := hs.wf
  have hids' := wordIds_ensureSorted S hw hids
  have hne' := nonempty_ensureSorted S hw hne
  refine ⟨_, by simp only [saveRun, hk]; rfl, ?_⟩
  simp only [loadRun, hk']
  rw [if_neg (by decide), C.text_text]
  simp only [runOfText]
  have hQ : Word "Q0".toList := by constructor <;> decide
  have hline : ∀ p ∈ (r.store.ensureSorted S).data, ∀ e ∈ p.2, ∀ i,
      splitWs (runLine T (nameText r.name) p.1 e.1 i e.2) =
        [p.1, "Q0".toList, e.1, natStr (i + 1), T.show' e.2] ++ ns := by
    intro p hp e he i
    have e' : runLine T (nameText r.name) p.1 e.1 i e.2 = p.1 ++ " ".toList ++ ("Q0".toList ++ " ".toList ++
        (e.1 ++ " ".toList ++ (natStr (i + 1) ++ " ".toList ++ (T.show' e.2 ++ " ".toList ++
          nameText r.name)))) := by
      have : " Q0 ".toList = " ".toList ++ ("Q0".toList ++ " ".toList) := by decide
      simp only [runLine, this, List.append_assoc]
    rw [e', splitWs_space _ _ (hids' p hp).1, splitWs_space _ _ hQ, splitWs_space _ _ ((hids' p hp).2 e he),
      splitWs_space _ _ (word_natStr _), splitWs_space _ _ ⟨T.ne_nil _, T.noSpace _⟩,
      Files.fields_iff.1 hn]
    rfl
  have hlines : ∀ l ∈ textLines (runLine T (nameText r.name)) (r.store.ensureSorted S).data,
      '\n' ∉ l ∧ '\r' ∉ l ∧ l ≠ [] := by
    intro l hl
    obtain ⟨p, hp, hl⟩ := List.mem_flatMap.1 hl
    obtain ⟨ej, hej, rfl⟩ := List.mem_map.1 hl
    have h2 := noNewline_of_word (hids' p hp).1
    have h3 := noNewline_of_word ((hids' p hp).2 _ (List.fst_mem_of_mem_zipIdx hej))
    have h4 := noNewline_of_word (word_natStr (ej.2 + 1))
    have h5 := noNewline_of_word ⟨T.ne_nil ej.1.2, T.noSpace ej.1.2⟩
    refine ⟨?_, ?_, runLine_ne_nil T _ _ _ _ _⟩
    · simp only [runLine, List.mem_append, not_or]
      exact ⟨⟨⟨⟨⟨⟨⟨⟨h2.1, by decide⟩, h3.1⟩, by decide⟩, h4.1⟩, by decide⟩, h5.1⟩, by decide⟩, hnl.1⟩
    · simp only [runLine, List.mem_append, not_or]
      exact ⟨⟨⟨⟨⟨⟨⟨⟨h2.2, by decide⟩, h3.2⟩, by decide⟩, h4.2⟩, by decide⟩, h5.2⟩, by decide⟩, hnl.2⟩
  rw [fileLines_writeText _ _ hlines, parseRun_error]
  obtain ⟨p, hp, hpe⟩ := hne'
  obtain ⟨e, he⟩ := List.exists_mem_of_ne_nil _ hpe
  obtain ⟨j, hj, rfl⟩ := List.getElem_of_mem he
  refine ⟨runLine T (nameText r.name) p.1 p.2[j].1 j p.2[j].2, ?_, ?_⟩
  · refine List.mem_flatMap.2 ⟨p, hp, List.mem_map.2 ⟨(p.2[j], j), ?_, rfl⟩⟩
    rw [List.mk_mem_zipIdx_iff_getElem?]
    simp [hj]
  · unfold runFact
    rw [hline p hp _ he]
    match ns, hlen with
    | [], _ => rfl
    | _ :: _ :: _, _ => rfl

end

/-! ### Concrete files -/

/-- integers written in decimal -/
def exFloatText : FloatText Int where
  show' := intStr
  parse := pyInt
  parse_show := pyInt_intStr
  ne_nil x := (word_intStr x).1
  noSpace x := (word_intStr x).2

/-- a file system that keeps what was written -/
inductive ExBytes where
  | text (s : Str)
  | json (d : Dict Str (Dict Str Int))
  | lz4 (d : Dict Str (Dict Str Int))
  | parquet (d : List (Str × Str × Int))

/-- formats that recognise their own files only -/
def exCodec : Codec ExBytes Int where
  encodeText := .text
  decodeText := fun | .text s => .ok s | _ => .error .valueError
  gunzip := fun _ => .error .osError
  dumpJson := .json
  loadJson := fun | .json d => .ok d | _ => .error .valueError
  dumpLz4 := .lz4
  loadLz4 := fun | .lz4 d => .ok d | _ => .error .valueError
  dumpParquet := .parquet
  loadParquet := fun | .parquet d => .ok d | _ => .error .valueError
  text_text _ := rfl
  json_json _ _ _ := rfl
  lz4_lz4 _ _ _ := rfl
  parquet_parquet _ := rfl
  gunzip_text _ _ := rfl

/-- a run with two queries, not sorted; the third query has no docs -/
def exFileStore : Store Str Str Int :=
  ⟨[("q2".toList, [("d1".toList, 3), ("d2".toList, -4)]), ("q1".toList, [("d3".toList, 1), ("d1".toList, 7)])],
    false⟩

theorem exFileStore_reachable : Reachable (ArgSort.stable Int) exFileStore := by
  have h : exFileStore = (((((Store.empty : Store Str Str Int).addScore "q2".toList "d1".toList (3 : Int)).addScore "q2".toList
      "d2".toList (-4)).addScore "q1".toList "d3".toList 1).addScore "q1".toList "d1".toList 7) := by
    decide +kernel
  rw [h]
  exact .step _ (.addScore "q1".toList "d1".toList 7) (.step _ (.addScore "q1".toList "d3".toList 1)
    (.step _ (.addScore "q2".toList "d2".toList (-4)) (.step _ (.addScore "q2".toList "d1".toList 3) .new)))

instance {β : Type*} [DecidableEq β] : DecidableEq (Store Str Str β) := fun a b =>
  decidable_of_iff (a.data = b.data ∧ a.sorted = b.sorted)
    ⟨fun h => by cases a; cases b; simp_all, fun h => by simp [h]⟩

instance (w : Str) : Decidable (Word w) := by unfold Files.Spec.Word; infer_instance

instance (s : Store Str Str Int) : Decidable (Spec.WordIds s) := by unfold Spec.WordIds; infer_instance

/-- Non-vacuity of C75: saved as `out/bm25.txt`, loaded again under the kind `trec`. -/
example : ∃ bytes r', (saveRun exCodec exFloatText (ArgSort.stable Int) ⟨some "bm25".toList, exFileStore⟩
      "out/bm25.txt".toList none).2 = .ok bytes ∧
      loadRun exCodec exFloatText (ArgSort.stable Int) bytes "x".toList (some "trec".toList) none = .ok r' ∧
      r'.name = some "bm25".toList := by
  obtain ⟨b, r', h1, h2, h3, -⟩ := C75_trec_roundtrip exCodec exFloatText (ArgSort.stable Int)
    (ArgSort.stable Int) ⟨some "bm25".toList, exFileStore⟩ exFileStore_reachable
    "out/bm25.txt".toList "x".toList none (some "trec".toList) (by decide +kernel) (by decide +kernel) none
    (by decide +kernel) (by decide +kernel) ⟨_, List.mem_cons_self .., by decide +kernel⟩
  exact ⟨b, r', h1, h2, h3⟩

example : FlagOk exFileStore ∧ (∀ p ∈ exFileStore.data, p.2 ≠ []) ∧
    (∀ p ∈ exFileStore.data, p.2.values.Nodup) :=
  ⟨fun h => (by cases h), by decide +kernel, by decide +kernel⟩

/-- what the file looks like -/
example : writeText (runLine exFloatText "bm25".toList)
    (exFileStore.ensureSorted (ArgSort.stable Int)).data =
    "q1 Q0 d1 1 7 bm25\nq1 Q0 d3 2 1 bm25\nq2 Q0 d1 1 3 bm25\nq2 Q0 d2 2 -4 bm25".toList := by
  decide +kernel

/-- Non-vacuity of `C75_name_not_a_word` -/
example : Files.Spec.Fields "BM25 tuned".toList ["BM25".toList, "tuned".toList] :=
  fields_iff.2 (by decide +kernel)

/-- **C75, limit**: a run without a name comes back with the name `None`. -/
theorem C75_none_name : ∃ bytes, (saveRun exCodec exFloatText (ArgSort.stable Int) ⟨none, exFileStore⟩
      "run.trec".toList none).2 = .ok bytes ∧
    ((loadRun exCodec exFloatText (ArgSort.stable Int) bytes "run.trec".toList none none).toOption.map
      (fun r => r.name)) = some (some "None".toList) := by
  obtain ⟨b, r', h1, h2, h3, -⟩ := C75_trec_roundtrip exCodec exFloatText (ArgSort.stable Int)
    (ArgSort.stable Int) ⟨none, exFileStore⟩ exFileStore_reachable
    "run.trec".toList "run.trec".toList none none (by decide +kernel) (by decide +kernel) none
    (by decide +kernel) (by decide +kernel) ⟨_, List.mem_cons_self .., by decide +kernel⟩
  refine ⟨b, h1, ?_⟩
  rw [h2]
  simp only [Except.toOption, Option.map_some, h3]
  rfl

/-- a doc id with a space -/
def exShifted : Store Str Str Int := ⟨[("q".toList, [("a b".toList, 50)])], false⟩

/-- **C75, limit**: a doc id with a space in a run with the empty name gives lines of six fields which mean
something else: the file loads without an error, as doc `a` with score 1 (the rank) and name `50`. -/
theorem C75_shifted_fields : Reachable (ArgSort.stable Int) exShifted ∧
    ∃ bytes r', (saveRun exCodec exFloatText (ArgSort.stable Int) ⟨some [], exShifted⟩
      "run.trec".toList none).2 = .ok bytes ∧
    loadRun exCodec exFloatText (ArgSort.stable Int) bytes "run.trec".toList none none = .ok r' ∧
    r'.name = some "50".toList ∧ r'.store.data = [("q".toList, [("a".toList, 1)])] := by
  refine ⟨?_, ?_⟩
  · have : exShifted = (Store.empty : Store Str Str Int).addScore "q".toList "a b".toList (50 : Int) := by decide +kernel
    rw [this]
    exact .step _ (.addScore _ _ _) .new
  · refine ⟨.text "q Q0 a b 1 50 ".toList, ⟨some "50".toList, ⟨[("q".toList, [("a".toList, 1)])], true⟩⟩,
      ?_, ?_, rfl, rfl⟩
    · have h : runKind "run.trec".toList none = .ok .trec := by decide +kernel
      have h' : writeText (runLine exFloatText []) (exShifted.ensureSorted (ArgSort.stable Int)).data =
        "q Q0 a b 1 50 ".toList := by decide +kernel
      simp only [saveRun, h]
      show Except.ok (ExBytes.text (writeText (runLine exFloatText []) _)) = _
      rw [h']
    · have h : runKind "run.trec".toList none = .ok .trec := by decide +kernel
      have hp : parseRun exFloatText (fileLines "q Q0 a b 1 50 ".toList) [] none =
          .ok ([("q".toList, [("a".toList, 1)])], some "50".toList) := by
        have hm : (fileLines "q Q0 a b 1 50 ".toList).map (runFact exFloatText) =
          [("q".toList, "a".toList, (1 : Int))].map some := by decide +kernel
        rw [parseRun_ok exFloatText _ _ _ _ hm]
        have h1 : assign [] [("q".toList, "a".toList, (1 : Int))] = [("q".toList, [("a".toList, 1)])] := by
          decide +kernel
        have h2 : (fileLines "q Q0 a b 1 50 ".toList).head?.bind runNameOf = some "50".toList := by
          decide +kernel
        rw [h1, h2]
        rfl
      have ho : (Store.ofDict (ArgSort.stable Int) [("q".toList, [("a".toList, (1 : Int))])]) =
          .ok ⟨[("q".toList, [("a".toList, 1)])], true⟩ := by decide +kernel
      simp only [loadRun, h]
      rw [if_neg (by decide)]
      simp only [exCodec, runOfText, hp, ho]

/-- Non-vacuity of C76, and the text written (Qrels.save keeps the order of the object) -/
example : (∃ bytes s', saveQrels exCodec exFileStore "a/b.qrels.trec".toList none = .ok bytes ∧
      loadQrels exCodec (ArgSort.stable Int) bytes "y.txt".toList none = .ok s') ∧
    writeText (fun q d _ v => qrelsLine q d v) exFileStore.data =
      "q2 0 d1 3\nq2 0 d2 -4\nq1 0 d3 1\nq1 0 d1 7".toList := by
  refine ⟨?_, by decide +kernel⟩
  obtain ⟨b, s', h1, h2, -⟩ := C76_trec_qrels_roundtrip exCodec (ArgSort.stable Int) (ArgSort.stable Int)
    exFileStore exFileStore_reachable "a/b.qrels.trec".toList "y.txt".toList none none (by decide +kernel)
    (by decide +kernel) (by decide +kernel) ⟨_, List.mem_cons_self .., by decide +kernel⟩
  exact ⟨b, s', h1, h2⟩

/-- Non-vacuity of C77: a text with Windows line ends, tabs and a repeated pair -/
example : Files.Spec.Lines "q1 Q0 d1 1 7 x\r\nq1\tQ0  d1 2 5 y\n".toList
      ["q1 Q0 d1 1 7 x".toList, "q1\tQ0  d1 2 5 y".toList] ∧
    Spec.RunLine exFloatText "q1 Q0 d1 1 7 x".toList "q1".toList "d1".toList 7 "x".toList ∧
    Spec.RunLine exFloatText "q1\tQ0  d1 2 5 y".toList "q1".toList "d1".toList 5 "y".toList ∧
    Spec.lastRow [("q1".toList, "d1".toList, (7 : Int)), ("q1".toList, "d1".toList, 5)] "q1".toList
      "d1".toList = some 5 ∧
    ¬ (∃ q x v n, Spec.RunLine exFloatText "q1 Q0 d1 1 7".toList q x v n) ∧
    ¬ (∃ q x v, Spec.QrelsLine "q1 0 d1 1.5".toList q x v) := by
  refine ⟨lines_iff.2 (by decide +kernel), ⟨"Q0".toList, "1".toList, "7".toList,
    fields_iff.2 (by decide +kernel), by decide +kernel⟩, ⟨"Q0".toList, "2".toList, "5".toList,
    fields_iff.2 (by decide +kernel), by decide +kernel⟩, by decide +kernel, ?_, ?_⟩
  · rintro ⟨q, x, v, n, h⟩
    have h := (runFact_some h).1
    have : runFact exFloatText "q1 Q0 d1 1 7".toList = none := by decide +kernel
    rw [this] at h; cases h
  · rintro ⟨q, x, v, h⟩
    have h := qrelsFact_some h
    have : qrelsFact "q1 0 d1 1.5".toList = none := by decide +kernel
    rw [this] at h; cases h

/-- Non-vacuity of C78: extensions -/
example : Files.Spec.HasExt "dir.d/run.v2.parq".toList "parq".toList ∧
    (∀ ext, ¬ Files.Spec.HasExt "dir.json/run".toList ext) ∧
    (∀ ext, ¬ Files.Spec.HasExt "dir/.json".toList ext) ∧
    Spec.lookupKind Spec.runExt "parq".toList = .ok .parquet ∧
    Spec.lookupKind Spec.qrelsExt "lz4".toList = .error .assertionError := by
  refine ⟨⟨"dir.d/".toList, "run.v2".toList, by decide +kernel, .inr (by decide +kernel), by decide +kernel,
    by decide +kernel, by decide +kernel, 'r', by decide +kernel, by decide +kernel⟩, ?_, ?_,
    by decide +kernel, by decide +kernel⟩
  · intro ext h
    have := splitext_of_hasExt h
    have h2 : splitext "dir.json/run".toList = [] := by decide +kernel
    rw [h2] at this; cases this
  · intro ext h
    have := splitext_of_hasExt h
    have h2 : splitext "dir/.json".toList = [] := by decide +kernel
    rw [h2] at this; cases this

/-- Non-vacuity of C79 -/
example : runKind "r.json".toList none = .ok .json ∧ runKind "r.lz4".toList none = .ok .lz4 ∧
    runKind "r.trec.gz".toList none = .ok .gz ∧ qrelsKind "r".toList (some "gz".toList) = .ok .gz ∧
    runKind "r.parq".toList none = .ok .parquet := by decide +kernel

end Ranx
