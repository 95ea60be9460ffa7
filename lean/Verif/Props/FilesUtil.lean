import Verif.Props.FilesB
import Verif.Props.FilesC

/-!
# C112: the dictionary readers of `ranx.utils`

`run_file_to_dict` and `qrels_file_to_dict` read the same TREC files as `from_file`, but cut the text with
`str.splitlines` instead of iterating over the file.
-/

set_option linter.unusedSectionVars false

namespace Ranx
open Dict Py Files Store
open Files.Spec (Word)
variable {B α : Type*}

/-- the characters `str.splitlines` takes for line ends and files do not: VT, FF, FS, GS, RS, NEL, LS, PS -/
def Spec.unusualBreaks : List Char :=
  ['\x0b', '\x0c', '\x1c', '\x1d', '\x1e', '\u0085', '\u2028', '\u2029']

/-- Specification: `d[q][x]` of a dictionary of dictionaries -/
def Spec.entry {β : Type*} (d : Dict Str (Dict Str β)) (q x : Str) : Option β := (d.get? q).bind (fun i => i.get? x)

theorem isLineBreak_iff (c : Char) : isLineBreak c = true ↔ c = '\n' ∨ c = '\r' ∨ c ∈ Spec.unusualBreaks := by
  have hval : ∀ d : Char, c = d ↔ c.toNat = d.toNat := fun d =>
    ⟨fun h => by rw [h], fun h => Char.toNat_inj.1 h⟩
  unfold isLineBreak Spec.unusualBreaks
  simp only [List.mem_cons, List.not_mem_nil, or_false, hval, Bool.or_eq_true, Bool.and_eq_true, decide_eq_true_eq,
    beq_iff_eq]
  simp only [show '\n'.toNat = 10 from rfl, show '\r'.toNat = 13 from rfl, show '\x0b'.toNat = 11 from rfl,
    show '\x0c'.toNat = 12 from rfl, show '\x1c'.toNat = 28 from rfl, show '\x1d'.toNat = 29 from rfl,
    show '\x1e'.toNat = 30 from rfl, show '\u0085'.toNat = 133 from rfl, show '\u2028'.toNat = 8232 from rfl,
    show '\u2029'.toNat = 8233 from rfl]
  omega

theorem splitLines_eq_lines (s : Str) (h : ∀ c ∈ s, c ≠ '\r' ∧ c ∉ Spec.unusualBreaks) : splitLines s = lines s := by
  induction s with
  | nil => rfl
  | cons c t ih =>
    have hc := h c List.mem_cons_self
    have ih := ih (fun c hc => h c (List.mem_cons_of_mem _ hc))
    unfold splitLines lines
    by_cases hn : c = '\n'
    · rw [if_pos hn, if_pos ((isLineBreak_iff c).2 (.inl hn)), ih]
    · rw [if_neg hn, if_neg (fun hb => ?_), ih]
      rcases (isLineBreak_iff c).1 hb with h1 | h1 | h1
      · exact hn h1
      · exact hc.1 h1
      · exact hc.2 h1

theorem mem_translate (s : Str) : ∀ c ∈ translate s, c ≠ '\r' ∧ (c = '\n' ∨ c ∈ s) := by
  induction s with
  | nil => intro c hc; cases hc
  | cons x t ih =>
    intro c hc
    unfold translate at hc
    by_cases hx : x = '\r'
    · rw [if_pos hx] at hc
      have : c ∈ '\n' :: translate t := by
        split at hc
        · exact List.mem_cons_of_mem _ hc
        · exact hc
      rcases List.mem_cons.1 this with rfl | h
      · exact ⟨by decide, .inl rfl⟩
      · exact ⟨(ih c h).1, (ih c h).2.imp_right (List.mem_cons_of_mem _)⟩
    · rw [if_neg hx] at hc
      rcases List.mem_cons.1 hc with rfl | h
      · exact ⟨hx, .inr List.mem_cons_self⟩
      · exact ⟨(ih c h).1, (ih c h).2.imp_right (List.mem_cons_of_mem _)⟩

theorem splitLines_fileLines (s : Str) (h : ∀ c ∈ s, c ∉ Spec.unusualBreaks) :
    splitLines (translate s) = fileLines s := by
  refine splitLines_eq_lines _ (fun c hc => ⟨(mem_translate s c hc).1, ?_⟩)
  rcases (mem_translate s c hc).2 with rfl | hm
  · decide
  · exact h c hm

theorem usual_of_word {w : Str} (h : Word w) : ∀ c ∈ w, c ∉ Spec.unusualBreaks := by
  have hs : ∀ c ∈ Spec.unusualBreaks, isSpace c = true := by decide +kernel
  intro c hc hu
  have := h.2 c hc
  rw [hs c hu] at this
  cases this

theorem usual_writeText {β : Type*} (line : Str → Str → Nat → β → Str) (d : Dict Str (Dict Str β))
    (h : ∀ p ∈ d, ∀ e ∈ p.2, ∀ i, ∀ c ∈ line p.1 e.1 i e.2, c ∉ Spec.unusualBreaks) :
    ∀ c ∈ writeText line d, c ∉ Spec.unusualBreaks := by
  intro c hc
  unfold writeText at hc
  obtain ⟨qi, hqi, hc⟩ := List.mem_flatMap.1 hc
  obtain ⟨ej, hej, hc⟩ := List.mem_flatMap.1 hc
  rcases List.mem_append.1 hc with hc | hc
  · exact h _ (List.fst_mem_of_mem_zipIdx hqi) _ (List.fst_mem_of_mem_zipIdx hej) _ c hc
  · split at hc
    · rw [List.mem_singleton] at hc
      rw [hc]; decide
    · cases hc

theorem usual_literal : ∀ w ∈ [" Q0 ".toList, " 0 ".toList, " ".toList], ∀ c ∈ w, c ∉ Spec.unusualBreaks := by decide

theorem usual_append {u v : Str} (hu : ∀ c ∈ u, c ∉ Spec.unusualBreaks) (hv : ∀ c ∈ v, c ∉ Spec.unusualBreaks) :
    ∀ c ∈ u ++ v, c ∉ Spec.unusualBreaks := fun c hc => (List.mem_append.1 hc).elim (hu c) (hv c)

theorem usual_qrelsLine {q doc : Str} (hq : Word q) (hd : Word doc) (v : Int) :
    ∀ c ∈ qrelsLine q doc v, c ∉ Spec.unusualBreaks :=
  usual_append (usual_append (usual_append (usual_append (usual_of_word hq) (usual_literal _ (by decide)))
    (usual_of_word hd)) (usual_literal _ (by decide))) (usual_of_word (word_intStr v))

/-- **C112** (agreement, qrels): the same for `Qrels.from_file(path, kind="trec")` and `Qrels(qrels_file_to_dict(path))`. -/
theorem C112_qrels_same (C : Codec B Int) (S : ArgSort Int) (bytes : B) (s path : Str)
    (kind : Option Str) (hk : qrelsKind path kind = .ok .trec) (hb : C.decodeText bytes = .ok s)
    (h : ∀ c ∈ s, c ∉ Spec.unusualBreaks) :
    loadQrels C S bytes path kind =
      match qrelsFileToDict s with
      | .error e => .error e
      | .ok d => Store.ofDict S d := by
  unfold qrelsFileToDict
  rw [splitLines_fileLines s h]
  simp only [loadQrels, hk]
  rw [if_neg (by decide), hb]
  rfl

/-- **C112** (round trip, qrels): the dictionary read from saved qrels has their judgements; exactly the queries
without docs are lost. -/
theorem C112_qrels_roundtrip (C : Codec B Int) (S : ArgSort Int) (qrels : Store Str Str Int)
    (hs : Reachable S qrels) (path : Str) (kind : Option Str) (hk : qrelsKind path kind = .ok .trec)
    (hids : Spec.WordIds qrels) :
    ∃ bytes s d, saveQrels C qrels path kind = .ok bytes ∧ C.decodeText bytes = .ok s ∧
      qrelsFileToDict s = .ok d ∧
      (∀ q x, Spec.entry d q x = (Spec.content qrels).read q x) ∧
      ∀ q, q ∈ d.keys ↔ ∃ inner, qrels.data.get? q = some inner ∧ inner ≠ [] := by
  have hw := hs.wf
  refine ⟨_, _, nonEmpty qrels.data, by simp only [saveQrels, hk]; rfl, C.text_text _, ?_, ?_, mem_keys_nonEmpty hw⟩
  · unfold qrelsFileToDict
    rw [splitLines_fileLines _ (usual_writeText _ _ (fun p hp e he i =>
      usual_qrelsLine (hids p hp).1 ((hids p hp).2 e he) _))]
    exact parse_saved_qrels qrels hw hids
  · intro q x
    rw [content_eq, ← read_nonEmpty hw]
    unfold Spec.entry Spec.Content.read cont
    cases get? (nonEmpty qrels.data) q <;> rfl

section
variable [AddCommGroup α] [LinearOrder α] [IsOrderedAddMonoid α]

theorem usual_runLine (T : FloatText α) {name q doc : Str} (hn : Word name) (hq : Word q) (hd : Word doc)
    (rank : Nat) (v : α) : ∀ c ∈ runLine T name q doc rank v, c ∉ Spec.unusualBreaks :=
  usual_append (usual_append (usual_append (usual_append (usual_append (usual_append (usual_append (usual_append
    (usual_of_word hq) (usual_literal _ (by decide))) (usual_of_word hd)) (usual_literal _ (by decide)))
    (usual_of_word (word_natStr _))) (usual_literal _ (by decide))) (usual_of_word ⟨T.ne_nil v, T.noSpace v⟩))
    (usual_literal _ (by decide))) (usual_of_word hn)

/-- **C112** (agreement, runs): for a text file without unusual line ends, `Run.from_file(path, kind="trec")` is
`Run(run_file_to_dict(path))` up to the name, errors included. -/
theorem C112_run_same (C : Codec B α) (T : FloatText α) (S : ArgSort α) (bytes : B) (s path : Str)
    (kind name : Option Str) (hk : runKind path kind = .ok .trec) (hb : C.decodeText bytes = .ok s)
    (h : ∀ c ∈ s, c ∉ Spec.unusualBreaks) :
    (loadRun C T S bytes path kind name).map (fun r => r.store) =
      match runFileToDict T s with
      | .error e => .error e
      | .ok d => Store.ofDict S d := by
  have hname : ∀ (ls : List Str) (d : Dict Str (Dict Str α)) (n n' : Option Str),
      (parseRun T ls d n).map (fun r => r.1) = (parseRun T ls d n').map (fun r => r.1) := by
    intro ls
    induction ls with
    | nil => intro d n n'; rfl
    | cons l t ih =>
      intro d n n'
      unfold parseRun
      split
      · split
        · rfl
        · exact ih _ _ _
      · rfl
  have hd : (parseRun T (fileLines s) [] name).map (fun r => r.1) = runFileToDict T s := by
    unfold runFileToDict
    rw [splitLines_fileLines s h]
    exact hname _ _ _ _
  rw [← hd]
  simp only [loadRun, hk]
  rw [if_neg (by decide), hb]
  simp only [runOfText]
  cases parseRun T (fileLines s) [] name with
  | error e => rfl
  | ok r =>
    simp only [Except.map]
    cases Store.ofDict S r.1 <;> rfl

/-- **C112** (round trip, runs): the dictionary read from a run saved in the TREC format has the run's scores; exactly
the queries without docs are lost. For every run a user can build whose ids and name are non-empty and free of
white space. -/
theorem C112_run_roundtrip (C : Codec B α) (T : FloatText α) (S : ArgSort α) (r : RunFile α)
    (hs : Reachable S r.store) (path : Str) (kind : Option Str) (hk : runKind path kind = .ok .trec)
    (hids : Spec.WordIds r.store) (hn : Word (nameText r.name)) :
    ∃ bytes s d, (saveRun C T S r path kind).2 = .ok bytes ∧ C.decodeText bytes = .ok s ∧
      runFileToDict T s = .ok d ∧
      (∀ q x, Spec.entry d q x = (Spec.content r.store).read q x) ∧
      ∀ q, q ∈ d.keys ↔ ∃ inner, r.store.data.get? q = some inner ∧ inner ≠ [] := by
  have hw := hs.wf
  have hw' := ensureSorted_wf S hw
  have hids' := wordIds_ensureSorted S hw hids
  obtain ⟨n, hp, -⟩ := parse_saved_run T (nameText r.name) none (r.store.ensureSorted S) hw' hn hids'
  refine ⟨_, _, nonEmpty (r.store.ensureSorted S).data, by simp only [saveRun, hk]; rfl, C.text_text _, ?_, ?_, ?_⟩
  · unfold runFileToDict
    rw [splitLines_fileLines _ (usual_writeText _ _ (fun p hp e he i =>
      usual_runLine T hn (hids' p hp).1 ((hids' p hp).2 e he) _ _)), hp]
    rfl
  · intro q x
    rw [content_eq, ← cont_ensureSorted S hw, ← read_nonEmpty hw']
    unfold Spec.entry Spec.Content.read cont
    cases get? (nonEmpty (r.store.ensureSorted S).data) q <;> rfl
  · intro q
    rw [mem_keys_nonEmpty hw']
    have hc := congrFun (cont_ensureSorted S hw) q
    simp only [cont] at hc
    constructor
    · rintro ⟨i, hi, hne⟩
      rw [hi] at hc
      obtain ⟨j, hj, he⟩ := Option.map_eq_some_iff.1 hc.symm
      refine ⟨j, hj, fun h0 => hne ?_⟩
      rw [h0] at he
      exact (eq_nil_iff_get? _).2 (fun x => (congrFun he x).symm)
    · rintro ⟨i, hi, hne⟩
      rw [hi] at hc
      obtain ⟨j, hj, he⟩ := Option.map_eq_some_iff.1 hc
      refine ⟨j, hj, fun h0 => hne ?_⟩
      rw [h0] at he
      exact (eq_nil_iff_get? _).2 (fun x => (congrFun he x).symm)
end

set_option synthInstance.maxSize 1000
set_option synthInstance.maxHeartbeats 200000

/-- **C112 refuted** for unusual line ends: with a form feed between two judgements `qrels_file_to_dict` reads both,
`Qrels.from_file` raises ValueError. -/
theorem C112_form_feed (C : Codec B Int) (S : ArgSort Int) (path : Str) :
    qrelsFileToDict "q 0 d 1\x0cq 0 e 2".toList = .ok [("q".toList, [("d".toList, 1), ("e".toList, 2)])] ∧
    loadQrels C S (C.encodeText "q 0 d 1\x0cq 0 e 2".toList) path (some "trec".toList) = .error .valueError := by
  refine ⟨by decide +kernel, ?_⟩
  have hk : qrelsKind path (some "trec".toList) = .ok .trec := by
    have : inferKind path (some "trec".toList) = "trec".toList := rfl
    unfold qrelsKind
    rw [this]
    decide +kernel
  simp only [loadQrels, hk]
  rw [if_neg (by decide), C.text_text]
  have : parseQrels (fileLines "q 0 d 1\x0cq 0 e 2".toList) [] = .error .valueError := by decide +kernel
  simp only [this]

/-- Non-vacuity: a saved run read back with `run_file_to_dict` -/
example : ∃ s d, runFileToDict exFloatText s = .ok d ∧
    (∀ q x, Spec.entry d q x = (Spec.content exFileStore).read q x) := by
  obtain ⟨-, s, d, -, -, h, h', -⟩ := C112_run_roundtrip exCodec exFloatText (ArgSort.stable Int)
    ⟨some "bm25".toList, exFileStore⟩ exFileStore_reachable "run.trec".toList none (by decide +kernel)
    (by unfold Spec.WordIds Word; decide +kernel) (by unfold Word; decide +kernel)
  exact ⟨s, d, h, h'⟩

end Ranx
