import Verif.Model.BytesRun
import Verif.Props.Cbor
import Verif.Props.JsonFiles
import Verif.Props.JsonExamples

/-!
# C134: runs survive their files, byte by byte
-/

set_option linter.unusedSectionVars false

namespace Ranx
open Dict Store Jsn Special Special.X Byt
open Py (Str)

namespace Byt

theorem asDict_run (rnd : ℚ → ℚ) (d : Dict Str (Dict Str (X ℚ))) (hw : Wf d) :
    asDict (asDict (scoreOfVal rnd)) (runVal d) = .ok d := by
  show dictOf (asDict (scoreOfVal rnd)) _ [] = _
  have := dictOf_map (asDict (scoreOfVal rnd)) (fun i : Dict Str (X ℚ) => .map (i.map (fun e => (e.1, .float e.2))))
    (fun i => i) d (by
      intro p hp
      have := dictOf_map (scoreOfVal rnd) Val.float (fun x => x) p.2 (fun _ _ => rfl) []
        (by simpa [keys, NodupKeys] using hw.2 p hp)
      simpa [asDict] using this) [] (by simpa [keys, NodupKeys] using hw.1)
  simpa using this

theorem doubles_runVal {d : Dict Str (Dict Str (X ℚ))}
    (h : ∀ p ∈ d, ∀ e ∈ p.2, ∀ x, e.2 = .fin x → Spec.Binary64 x) : Spec.doubles (runVal d) := by
  have h1 : ∀ l : Dict Str (X ℚ), (∀ e ∈ l, ∀ x, e.2 = .fin x → Spec.Binary64 x) →
      Spec.doublesMembers (l.map (fun e => (e.1, Val.float e.2))) := by
    intro l
    induction l with
    | nil => intro _; simp [Spec.doublesMembers]
    | cons e t ih =>
      intro hl
      simp only [List.map_cons, Spec.doublesMembers]
      refine ⟨?_, ih (fun e he => hl e (by simp [he]))⟩
      cases he : e.2 with
      | fin x => simp only [Spec.doubles]; exact hl e (by simp) x he
      | _ => simp [Spec.doubles]
  unfold runVal
  simp only [Spec.doubles]
  induction d with
  | nil => simp [Spec.doublesMembers]
  | cons p t ih =>
    simp only [List.map_cons, Spec.doublesMembers, Spec.doubles]
    exact ⟨h1 _ (h p (by simp)), ih (fun p hp => h p (by simp [hp]))⟩

theorem loadLz4_saveLz4 (Z : Frame) (v : Val) (hd : Spec.doubles v) (h : (dumps v).length < 2 ^ 64) :
    loadLz4 Z (saveLz4 Z v) = .ok v := by
  unfold loadLz4 saveLz4
  rw [Z.undo]
  simp only
  rw [Z.undo]
  simp only
  rw [C133_roundtrip v hd h]

theorem sorted_cont (S : ArgSort (X ℚ)) {s : Store Str Str (X ℚ)} (hw : Wf s.data) :
    Wf (s.ensureSorted S).data ∧ Store.cont (s.ensureSorted S).data = Store.cont s.data := by
  unfold Store.ensureSorted
  split
  · exact ⟨hw, rfl⟩
  · exact ⟨Wf.sortAll S hw, cont_sortAll S hw⟩

end Byt

/-- every finite score of the run is a float64 -/
def Spec.FloatScores (s : Store Str Str (X ℚ)) : Prop :=
  ∀ q x v, (Spec.content s).read q x = some (.fin v) → Spec.Binary64 v

/-- `s'` is the run `s`: the same queries, docs and scores, to the last bit, ranked -/
structure Spec.SameRun (s s' : Store Str Str (X ℚ)) : Prop where
  scores : ∀ q x, (Spec.content s').read q x = (Spec.content s).read q x
  queries : ∀ q, q ∈ s'.data.keys ↔ q ∈ s.data.keys
  ranked : ∀ p ∈ s'.data, p.2.Pairwise (fun a b => Spec.FloatAtLeast a.2 b.2)
  sorted : s'.data.keys.Pairwise (· < ·)

namespace Byt

theorem floats_of {s : Store Str Str (X ℚ)} {d : Dict Str (Dict Str (X ℚ))} (hf : Spec.FloatScores s) (hw : Wf d)
    (hc : Store.cont d = Store.cont s.data) : ∀ p ∈ d, ∀ e ∈ p.2, ∀ x, e.2 = .fin x → Spec.Binary64 x := by
  intro p hp e he x hx
  refine hf p.1 e.1 x ?_
  rw [content_eq, ← hc]
  unfold Spec.Content.read Store.cont
  rw [get?_of_mem hw.1 (show (p.1, p.2) ∈ d from hp)]
  rw [← hx]
  exact get?_of_mem (hw.2 p hp) (show (e.1, e.2) ∈ p.2 from he)

theorem runOfVal_runVal (rnd : ℚ → ℚ) (S' : ArgSort (X ℚ)) (s : Store Str Str (X ℚ)) (d : Dict Str (Dict Str (X ℚ)))
    (hw : Wf s.data) (hwd : Wf d) (hc : Store.cont d = Store.cont s.data) (hne : ∃ p ∈ s.data, p.2 ≠ []) :
    ∃ s', runOfVal rnd S' (runVal d) = .ok s' ∧ Reachable S' s' ∧ Spec.SameRun s s' := by
  have hof := (ofDict_eq S' _ hwd).trans (if_neg (not_all (nonempty_of_cont hw hc hne)))
  obtain ⟨r1, r2⟩ := Special.sortAll_ranked S' hwd
  refine ⟨⟨sortAll S' d, true⟩, ?_, .ofDict _ _ hwd.1 hwd.2 hof, ?_, ?_, r1, r2⟩
  · unfold runOfVal
    rw [asDict_run rnd d hwd]
    exact hof
  · intro q x
    rw [content_eq, content_eq]
    show (Store.cont (sortAll S' _)).read q x = _
    rw [cont_sortAll S' hwd, hc]
  · intro q
    show q ∈ keys (sortAll S' _) ↔ _
    rw [mem_keys_sortAll S' hwd.1]
    have := congrFun hc q
    rw [← get?_isSome, ← get?_isSome]
    simp only [Store.cont] at this
    cases h1 : Dict.get? s.data q <;> cases h2 : Dict.get? d q <;> simp_all

end Byt

/-- **C134**: a run with at least one doc, saved with `kind="lz4"` and loaded from the bytes of the file, is the same
run: the ids with all their characters, the scores with all their bits, infinities and NaN included. -/
theorem C134_run (Z : Frame) (rnd : ℚ → ℚ) (S S' : ArgSort (X ℚ)) (s : Store Str Str (X ℚ)) (hs : Reachable S s)
    (hf : Spec.FloatScores s) (hne : ∃ p ∈ s.data, p.2 ≠ [])
    (hsize : (dumps (runVal (s.ensureSorted S).data)).length < 2 ^ 64) :
    ∃ s', runOfLz4 Z rnd S' (saveLz4 Z (runVal (s.ensureSorted S).data)) = .ok s' ∧ Reachable S' s' ∧
      Spec.SameRun s s' := by
  obtain ⟨hwd, hc⟩ := sorted_cont S hs.wf
  obtain ⟨s', h1, h2⟩ := runOfVal_runVal rnd S' s _ hs.wf hwd hc hne
  refine ⟨s', ?_, h2⟩
  unfold runOfLz4
  rw [loadLz4_saveLz4 Z _ (doubles_runVal (floats_of hf hwd hc)) hsize]
  exact h1

/-- **C134** (ranxhub): the archive written by `ranxhub.save` and loaded by `Run.from_ranxhub` gives the same run, the
same run card, and the name in the card. -/
theorem C134_hub (Z : Frame) (rnd : ℚ → ℚ) (S S' : ArgSort (X ℚ)) (s : Store Str Str (X ℚ)) (hs : Reachable S s)
    (hf : Spec.FloatScores s) (hne : ∃ p ∈ s.data, p.2 ≠ []) (card : Val) (hcard : Spec.doubles card) (sec name : Val)
    (hsec : card.item "run".toList = .ok sec) (hname : sec.item "name".toList = .ok name)
    (hsize : (dumps (.map [("metadata".toList, card), ("run".toList, runVal s.data)])).length < 2 ^ 64) :
    ∃ s', runOfHub Z rnd S' (hubBytes Z card s.data) = .ok (s', name, card) ∧ Reachable S' s' ∧ Spec.SameRun s s' := by
  obtain ⟨s', h1, h2⟩ := runOfVal_runVal rnd S' s s.data hs.wf hs.wf rfl hne
  refine ⟨s', ?_, h2⟩
  have hd : Spec.doubles (.map [("metadata".toList, card), ("run".toList, runVal s.data)]) := by
    simp only [Spec.doubles, Spec.doublesMembers]
    exact ⟨hcard, doubles_runVal (floats_of hf hs.wf rfl), trivial⟩
  have hne2 : ("metadata".toList : Str) ≠ "run".toList := by decide
  unfold runOfHub hubBytes
  generalize "run".toList = kr at *
  generalize "metadata".toList = km at *
  have e1 : ∀ x y : Val, (Val.map [(km, x), (kr, y)]).item kr = .ok y := by
    intro x y
    unfold Val.item
    have : asDict Except.ok (Val.map [(km, x), (kr, y)]) = .ok (((Dict.set [] km x)).set kr y) := rfl
    rw [this]
    simp only
    rw [get?_set_self]
  have e2 : ∀ x y : Val, (Val.map [(km, x), (kr, y)]).item km = .ok x := by
    intro x y
    unfold Val.item
    have : asDict Except.ok (Val.map [(km, x), (kr, y)]) = .ok (((Dict.set [] km x)).set kr y) := rfl
    rw [this]
    simp only
    rw [get?_set_ne _ _ hne2.symm, get?_set_self]
  rw [loadLz4_saveLz4 Z _ hd hsize]
  simp only [bind, Except.bind, e1, e2, h1, hsec, hname]
  rfl

/-- **C134** (JSON): as C124, from the bytes of the file. -/
theorem C134_json (N : NumText ℚ) (S S' : ArgSort (X ℚ)) (s : Store Str Str (X ℚ)) (hs : Reachable S s)
    (hne : ∃ p ∈ s.data, p.2 ≠ []) (hinf : ∀ q x v, (Spec.content s).read q x = some v → v ≠ .pinf ∧ v ≠ .ninf) :
    ∃ s', runOfJsonBytes N S' (utf8 (runText N (s.ensureSorted S).data)) = .ok s' ∧
      ∀ q x, (Spec.content s').read q x = (Spec.content s).read q x := by
  unfold runOfJsonBytes
  rw [(C132_roundtrip _ _).2 rfl]
  exact C124_run_partial N S S' s hs hne hinf

/-- a frame: four magic bytes before the content, uncompressed -/
def exLz4Frame : Frame where
  compress b := [0x04, 0x22, 0x4D, 0x18] ++ b
  decompress b := if b.take 4 = [0x04, 0x22, 0x4D, 0x18] then some (b.drop 4) else none
  undo b := by simp

theorem exJsonRun_floats : Spec.FloatScores exJsonRun := by
  have h : ∀ p ∈ exJsonRun.data, ∀ e ∈ p.2, ∀ x : ℚ, e.2 = .fin x → x = 1 / 2 ∨ x = FText.rd (1 / 10) := by
    intro p hp e he x hx
    simp only [exJsonRun, List.mem_cons, List.not_mem_nil, or_false] at hp
    rcases hp with rfl | rfl
    · simp only [List.mem_cons, List.not_mem_nil, or_false] at he
      rcases he with rfl | rfl
      · left; exact (X.fin.inj hx).symm
      · right; exact (X.fin.inj hx).symm
    · simp only [List.mem_cons, List.not_mem_nil, or_false] at he
      subst he
      cases hx
  intro q d v hv
  rw [content_eq] at hv
  unfold Spec.Content.read Store.cont at hv
  cases hq : Dict.get? exJsonRun.data q with
  | none => rw [hq] at hv; cases hv
  | some i =>
    rw [hq] at hv
    rcases h _ (mem_of_get? hq) (d, .fin v) (mem_of_get? hv) v rfl with rfl | rfl
    · exact ⟨1, -1, by norm_num, by norm_num, by norm_num, by norm_num⟩
    · exact FText.binary64_rd (by
        have : FText.rd (1 / 10) = 3602879701896397 / 36028797018963968 := by decide +kernel
        rw [this, abs_of_pos (by norm_num)]
        exact lt_of_lt_of_le (by norm_num : (3602879701896397 / 36028797018963968 : ℚ) < 1) (one_le_pow₀ (by norm_num)))

/-- the hypotheses of `C134_run` and `C134_hub` are met: the infinite score comes back -/
example : ∃ s', runOfLz4 exLz4Frame id (ArgSort.stable (X ℚ))
      (saveLz4 exLz4Frame (runVal (exJsonRun.ensureSorted (ArgSort.stable (X ℚ))).data)) = .ok s' ∧
    (Spec.content s').read "q2".toList "∞".toList = some .pinf := by
  obtain ⟨s', h1, -, h2⟩ := C134_run exLz4Frame id (ArgSort.stable _) (ArgSort.stable _) exJsonRun exJsonRun_reachable
    exJsonRun_floats (by decide +kernel) (by
      show (Byt.dumps (runVal exJsonRun.data)).length < 2 ^ 64
      have : (Byt.dumps (runVal exJsonRun.data)).length ≤ 1000 := by
        simp [exJsonRun, runVal, Byt.dumps, Byt.dumpMembers, dumpText, dumpFloat, Byt.head, length_be, utf8, encodeChar]
      exact lt_of_le_of_lt this (by decide))
  refine ⟨s', h1, ?_⟩
  rw [h2.scores]; decide +kernel

/-- a run card -/
def exHubCard : Val := .map [("version".toList, .float (.fin (1 / 2))),
  ("run".toList, .map [("name".toList, .text "bm25".toList), ("results".toList, .map [("MAP".toList, .float .nan)])])]

example : ∃ s', runOfHub exLz4Frame id (ArgSort.stable (X ℚ)) (hubBytes exLz4Frame exHubCard exJsonRun.data) =
      .ok (s', .text "bm25".toList, exHubCard) ∧ (Spec.content s').read "q2".toList "∞".toList = some .pinf := by
  obtain ⟨s', h1, -, h2⟩ := C134_hub exLz4Frame id (ArgSort.stable _) (ArgSort.stable _) exJsonRun exJsonRun_reachable
    exJsonRun_floats (by decide +kernel) exHubCard (by
      simp only [exHubCard, Spec.doubles, Spec.doublesMembers, and_true]
      exact ⟨1, -1, by norm_num, by norm_num, by norm_num, by norm_num⟩)
    (.map [("name".toList, .text "bm25".toList), ("results".toList, .map [("MAP".toList, .float .nan)])])
    (.text "bm25".toList) rfl rfl (by
      have : (Byt.dumps (.map [("metadata".toList, exHubCard), ("run".toList, runVal exJsonRun.data)])).length ≤ 1000 := by
        simp [exHubCard, exJsonRun, runVal, Byt.dumps, Byt.dumpMembers, dumpText, dumpFloat, Byt.head, length_be, utf8,
          encodeChar]
      exact lt_of_le_of_lt this (by decide))
  refine ⟨s', h1, ?_⟩
  rw [h2.scores]; decide +kernel

end Ranx
