import Verif.Props.EvaluateCongr
import Verif.Props.FilesC
import Mathlib.Data.Rat.Denumerable

/-!
# Property C106 (files): evaluating what was saved and loaded again
-/

set_option linter.unusedSectionVars false

namespace Ranx
open Dict Store Eval Metrics Py Files
open Files.Spec (Word)
variable {B BQ ι α : Type*} [LinearOrder ι] [Field α] [LinearOrder α] [IsStrictOrderedRing α]

/-- Specification: `s'` holds what `s` holds, query by query. -/
def Spec.SameContent {β : Type*} (s s' : Store Str Str β) : Prop :=
  (∀ q, q ∈ s'.data.keys ↔ q ∈ s.data.keys) ∧
  ∀ q x, (Spec.content s').read q x = (Spec.content s).read q x

/-- Specification: the file formats that can hold the qrels `s`: JSON any, TREC when ids are words (no white space)
and every query has a judgement. -/
def Spec.QrelsFormat (path : Str) (kind : Option Str) (s : Store Str Str Int) : Prop :=
  qrelsKind path kind = .ok .json ∨
  (qrelsKind path kind = .ok .trec ∧ Spec.WordIds s ∧ ∀ p ∈ s.data, p.2 ≠ [])

/-- Specification: the same for runs; also LZ4, and the name is a word for TREC. -/
def Spec.RunFormat (path : Str) (kind : Option Str) (r : RunFile α) : Prop :=
  runKind path kind = .ok .json ∨ runKind path kind = .ok .lz4 ∨
  (runKind path kind = .ok .trec ∧ Spec.WordIds r.store ∧ Word (nameText r.name) ∧ ∀ p ∈ r.store.data, p.2 ≠ [])

theorem keys_nonempty {β : Type*} {s : Store Str Str β} (hw : Wf s.data) (hall : ∀ p ∈ s.data, p.2 ≠ []) (q : Str) :
    (∃ inner, s.data.get? q = some inner ∧ inner ≠ []) ↔ q ∈ s.data.keys := by
  constructor
  · rintro ⟨i, hi, -⟩
    exact get?_isSome.1 (by rw [hi]; rfl)
  · intro hq
    obtain ⟨i, hi⟩ := Option.isSome_iff_exists.1 (get?_isSome.2 hq)
    exact ⟨i, hi, hall _ (mem_of_get? hi)⟩

theorem reload_qrels (C : Codec BQ Int) (S S' : ArgSort Int) (s : Store Str Str Int) (hs : Reachable S s) (path : Str)
    (kind : Option Str) (hf : Spec.QrelsFormat path kind s) (hne : ∃ p ∈ s.data, p.2 ≠ []) :
    ∃ bytes s', saveQrels C s path kind = .ok bytes ∧ loadQrels C S' bytes path kind = .ok s' ∧
      (Wf s'.data ∧ FlagOk s') ∧ Spec.SameContent s s' := by
  rcases hf with hk | ⟨hk, hids, hall⟩
  · obtain ⟨b, s', h1, h2, h3, h4, h5, h6⟩ := C79_qrels_json_roundtrip_partial C S S' s hs path path kind kind hk hk hne
    exact ⟨b, s', h1, h2, ⟨h3.wf, fun _ => h6.2⟩, h5, h4⟩
  · obtain ⟨b, s', h1, h2, h3, h4, h5, h6⟩ := C76_trec_qrels_roundtrip C S S' s hs path path kind kind hk hk hids hne
    exact ⟨b, s', h1, h2, ⟨h3.wf, fun _ => h6.2⟩, fun q => by rw [h5, keys_nonempty hs.wf hall], h4⟩

theorem reload_run (C : Codec B α) (T : FloatText α) (S S' : ArgSort α) (r : RunFile α) (hs : Reachable S r.store)
    (path : Str) (kind given : Option Str) (hf : Spec.RunFormat path kind r) (hne : ∃ p ∈ r.store.data, p.2 ≠ []) :
    ∃ bytes r', (saveRun C T S r path kind).2 = .ok bytes ∧ loadRun C T S' bytes path kind given = .ok r' ∧
      (Wf r'.store.data ∧ FlagOk r'.store) ∧ Spec.SameContent r.store r'.store := by
  have other : ∀ k, (k = Kind.json ∨ k = Kind.lz4) → runKind path kind = .ok k →
      ∃ bytes r', (saveRun C T S r path kind).2 = .ok bytes ∧ loadRun C T S' bytes path kind given = .ok r' ∧
        (Wf r'.store.data ∧ FlagOk r'.store) ∧ Spec.SameContent r.store r'.store := by
    intro k hkk hk
    obtain ⟨b, r', h1, h2, -, h3, h4, h5, h6⟩ :=
      C79_json_lz4_roundtrip_partial C T S S' r hs path path kind kind given k hkk hk hk hne
    exact ⟨b, r', h1, h2, ⟨h3.wf, fun _ => h6.2⟩, h5, h4⟩
  rcases hf with hk | hk | ⟨hk, hids, hn, hall⟩
  · exact other _ (.inl rfl) hk
  · exact other _ (.inr rfl) hk
  · obtain ⟨b, r', h1, h2, -, h3, h4, h5, h6⟩ :=
      C75_trec_roundtrip C T S S' r hs path path kind kind hk hk given hids hn hne
    exact ⟨b, r', h1, h2, ⟨h3.wf, fun _ => h6.2⟩, fun q => by rw [h5, keys_nonempty hs.wf hall], h4⟩

/-- **C106** (files): save qrels and run, each in a format that can hold it, load both files and evaluate: the result
is the one of evaluating the original objects (tie-free run, judged docs told apart by the hash), for every list of
metrics and every option. -/
theorem C106_saved_and_loaded (F : Fn α) (other : Str → Except Err α) (CQ : Codec BQ Int) (C : Codec B α)
    (T : FloatText α) (SQ SQ' : ArgSort Int) (SR SR' : ArgSort α) (hash : Str → ι) (sched : Nat → List Nat) (o : Opts)
    (s : Store Str Str Int) (r : RunFile α) (ms : List Str) (hs : Reachable SQ s) (hsu : Spec.Usable SQ s)
    (hr : Reachable SR r.store) (hru : Spec.Usable SR r.store) (qpath rpath : Str) (qkind rkind given : Option Str)
    (hqf : Spec.QrelsFormat qpath qkind s) (hrf : Spec.RunFormat rpath rkind r) (hqne : ∃ p ∈ s.data, p.2 ≠ [])
    (hrne : ∃ p ∈ r.store.data, p.2 ≠ []) (ha : ∀ q ∈ s.data.keys, Spec.JudgedApart hash s q)
    (htie : ∀ q d d' v, (Spec.content r.store).read q d = some v → (Spec.content r.store).read q d' = some v → d = d') :
    ∃ qbytes rbytes s' r', saveQrels CQ s qpath qkind = .ok qbytes ∧ (saveRun C T SR r rpath rkind).2 = .ok rbytes ∧
      loadQrels CQ SQ' qbytes qpath qkind = .ok s' ∧ loadRun C T SR' rbytes rpath rkind given = .ok r' ∧
      (evaluate F other SQ' SR' hash sched o (.obj s') (.obj ⟨r'.store, [], [], []⟩) ms).2 =
        (evaluate F other SQ SR hash sched o (.obj s) (.obj ⟨r.store, [], [], []⟩) ms).2 := by
  obtain ⟨qb, s', q1, q2, q3, q4, q5⟩ := reload_qrels CQ SQ SQ' s hs qpath qkind hqf hqne
  obtain ⟨rb, r', r1, r2, r3, r4, r5⟩ := reload_run C T SR SR' r hr rpath rkind given hrf hrne
  refine ⟨qb, rb, s', r', q1, r1, q2, r2, ?_⟩
  exact (evaluate_content_ok F other SQ SQ' SR SR' hash sched o s s' ⟨r.store, [], [], []⟩ ⟨r'.store, [], [], []⟩ ms
    hsu.ok q3 hru.ok r3 (fun q => (q4 q).symm) (fun q d => (q5 q d).symm) ha (fun q => (r4 q).symm)
    (fun q d => (r5 q d).symm) htie).symm

/-! ### non-vacuity -/

/-- a text for every rational number -/
def exRatText : FloatText ℚ where
  show' x := natStr (Encodable.encode x)
  parse s := (pyNat s).bind Encodable.decode
  parse_show x := by rw [pyNat_natStr, Option.bind_some, Encodable.encodek]
  ne_nil x := natStr_ne_nil _
  noSpace x c hc := isDigit_not_space (natStr_isDigit hc)

/-- file contents -/
inductive ExBytesOf (β : Type) where
  | text (s : Str)
  | json (d : Dict Str (Dict Str β))
  | lz4 (d : Dict Str (Dict Str β))
  | parquet (d : List (Str × Str × β))

/-- formats that recognise their own files only -/
def exCodecOf (β : Type) : Codec (ExBytesOf β) β where
  encodeText := .text
  decodeText := fun | .text s => .ok s | _ => .error .valueError
  gunzip := fun _ => .error .osError
  dumpJson := .json
  loadJson := fun | .json d => .ok d | _ => .error .valueError
  dumpLz4 := .lz4
  loadLz4 := fun | .lz4 d => .ok d | _ => .error .valueError
  dumpParquet := .parquet
  loadParquet := fun | .parquet d => .ok d | _ => .error .valueError
  text_text _ := rfl
  json_json _ _ _ := rfl
  lz4_lz4 _ _ _ := rfl
  parquet_parquet _ := rfl
  gunzip_text _ _ := rfl

/-- qrels and run built by `add_score` and `add`, not sorted -/
def exSavedQrels : Store Str Str Int := ⟨[("q1".toList, [("d1".toList, 1), ("d2".toList, 2)])], false⟩
def exSavedRun : RunFile ℚ := ⟨some "bm25".toList, ⟨[("q1".toList, [("d2".toList, 1), ("d3".toList, 5 / 2)])], false⟩⟩

/-- the hypotheses of `C106_saved_and_loaded` are met: TREC qrels, TREC, JSON and LZ4 run. -/
example : Reachable (ArgSort.stable Int) exSavedQrels ∧ Spec.Usable (ArgSort.stable Int) exSavedQrels ∧
    Reachable (ArgSort.stable ℚ) exSavedRun.store ∧ Spec.Usable (ArgSort.stable ℚ) exSavedRun.store ∧
    Spec.QrelsFormat "qrels.trec".toList none exSavedQrels ∧ Spec.QrelsFormat "qrels.json".toList none exSavedQrels ∧
    Spec.RunFormat "run.trec".toList none exSavedRun ∧ Spec.RunFormat "run.lz4".toList none exSavedRun ∧
    (∃ p ∈ exSavedQrels.data, p.2 ≠ []) ∧ (∃ p ∈ exSavedRun.store.data, p.2 ≠ []) ∧
    (∀ q ∈ exSavedQrels.data.keys, Spec.JudgedApart (id : Str → Str) exSavedQrels q) ∧
    (∀ p ∈ exSavedRun.store.data, p.2.values.Nodup) := by
  have wq : Wf exSavedQrels.data := ⟨by unfold NodupKeys; decide +kernel, by unfold NodupKeys; decide +kernel⟩
  have wr : Wf exSavedRun.store.data := ⟨by unfold NodupKeys; decide +kernel, by unfold NodupKeys; decide +kernel⟩
  refine ⟨?_, ⟨_, [], ⟨_, wq.1, wq.2, .inl rfl⟩, rfl, by simp [Store.exec]⟩, ?_,
    ⟨_, [], ⟨_, wr.1, wr.2, .inl rfl⟩, rfl, by simp [Store.exec]⟩, .inr ⟨by decide +kernel, ?_, ?_⟩,
    .inl (by decide +kernel), .inr (.inr ⟨by decide +kernel, ?_, ?_, ?_⟩), .inr (.inl (by decide +kernel)), ?_, ?_,
    fun _ _ _ _ _ _ _ _ h => h, ?_⟩
  · have h : exSavedQrels = ((Store.empty : Store Str Str Int).addScore "q1".toList "d1".toList (1 : Int)).addScore
        "q1".toList "d2".toList (2 : Int) := by decide +kernel
    rw [h]
    exact .step _ (.addScore "q1".toList "d2".toList 2) (.step _ (.addScore "q1".toList "d1".toList 1) .new)
  · have h : exSavedRun.store = ((Store.empty : Store Str Str ℚ).addScore "q1".toList "d2".toList (1 : ℚ)).addScore
        "q1".toList "d3".toList (5 / 2 : ℚ) := by decide +kernel
    rw [h]
    exact .step _ (.addScore "q1".toList "d3".toList (5 / 2)) (.step _ (.addScore "q1".toList "d2".toList 1) .new)
  all_goals first | decide +kernel | (unfold Spec.WordIds; decide +kernel)

end Ranx
