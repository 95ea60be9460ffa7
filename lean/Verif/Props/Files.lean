import Verif.Lemmas.IO
import Verif.Props.Store
import Verif.Props.Dataframe

/-!
# Properties C75-C77: TREC files
-/

set_option linter.unusedSectionVars false

namespace Ranx
open Dict Store Py Files
open Files.Spec (Word)

section
variable {B α : Type*} [AddCommGroup α] [LinearOrder α] [IsOrderedAddMonoid α]

/-- ids a TREC file can hold: non-empty, without white space -/
def Spec.WordIds {β : Type*} (s : Store Str Str β) : Prop :=
  ∀ p ∈ s.data, Word p.1 ∧ ∀ e ∈ p.2, Word e.1

theorem noNewline_of_word {w : Str} (h : Word w) : '\n' ∉ w ∧ '\r' ∉ w := by
  constructor <;> intro hm <;> have := h.2 _ hm <;> revert this <;> decide

omit [AddCommGroup α] [LinearOrder α] [IsOrderedAddMonoid α] in
theorem runLine_ok (T : FloatText α) {name q doc : Str} (hn : Word name) (hq : Word q) (hd : Word doc)
    (rank : Nat) (v : α) : '\n' ∉ runLine T name q doc rank v ∧ '\r' ∉ runLine T name q doc rank v ∧
      runLine T name q doc rank v ≠ [] := by
  have h1 := noNewline_of_word hn
  have h2 := noNewline_of_word hq
  have h3 := noNewline_of_word hd
  have h4 := noNewline_of_word (word_natStr (rank + 1))
  have h5 := noNewline_of_word ⟨T.ne_nil v, T.noSpace v⟩
  refine ⟨?_, ?_, ?_⟩
  · simp only [runLine, List.mem_append, not_or]
    exact ⟨⟨⟨⟨⟨⟨⟨⟨h2.1, by decide⟩, h3.1⟩, by decide⟩, h4.1⟩, by decide⟩, h5.1⟩, by decide⟩, h1.1⟩
  · simp only [runLine, List.mem_append, not_or]
    exact ⟨⟨⟨⟨⟨⟨⟨⟨h2.2, by decide⟩, h3.2⟩, by decide⟩, h4.2⟩, by decide⟩, h5.2⟩, by decide⟩, h1.2⟩
  · simp [runLine, hq.1]

theorem qrelsLine_ok {q doc : Str} (hq : Word q) (hd : Word doc) (v : Int) :
    '\n' ∉ qrelsLine q doc v ∧ '\r' ∉ qrelsLine q doc v ∧ qrelsLine q doc v ≠ [] := by
  have h2 := noNewline_of_word hq
  have h3 := noNewline_of_word hd
  have h4 := noNewline_of_word (word_intStr v)
  refine ⟨?_, ?_, ?_⟩
  · simp only [qrelsLine, List.mem_append, not_or]
    exact ⟨⟨⟨⟨h2.1, by decide⟩, h3.1⟩, by decide⟩, h4.1⟩
  · simp only [qrelsLine, List.mem_append, not_or]
    exact ⟨⟨⟨⟨h2.2, by decide⟩, h3.2⟩, by decide⟩, h4.2⟩
  · simp [qrelsLine, hq.1]

/-- the facts of the rendered lines are the facts of the content -/
theorem textLines_map {β γ : Type*} (line : Str → Str → Nat → β → Str) (f : Str → Option γ)
    (g : Str → Str → β → γ) (d : Dict Str (Dict Str β))
    (h : ∀ p ∈ d, ∀ e ∈ p.2, ∀ i, f (line p.1 e.1 i e.2) = some (g p.1 e.1 e.2)) :
    (textLines line d).map f = (d.flatMap (fun p => p.2.map (fun e => g p.1 e.1 e.2))).map some := by
  simp only [textLines, List.map_flatMap, List.map_map]
  apply List.flatMap_congr
  intro p hp
  conv_rhs => rw [← List.zipIdx_map_fst 0 p.2]
  rw [List.map_map]
  apply List.map_congr_left
  intro ej hej
  exact h p hp _ (List.fst_mem_of_mem_zipIdx hej) _

omit [AddCommGroup α] [LinearOrder α] [IsOrderedAddMonoid α] in
/-- parsing what `Run.save` writes in the TREC format -/
theorem parse_saved_run (T : FloatText α) (name : Str) (given : Option Str) (s : Store Str Str α)
    (hw : Wf s.data) (hn : Word name) (hids : Spec.WordIds s) :
    ∃ n, parseRun T (fileLines (writeText (runLine T name) s.data)) [] given =
      .ok (nonEmpty s.data, n) ∧ ((∃ p ∈ s.data, p.2 ≠ []) → n = some (given.getD name)) := by
  have hlines : ∀ l ∈ textLines (runLine T name) s.data, '\n' ∉ l ∧ '\r' ∉ l ∧ l ≠ [] := by
    intro l hl
    obtain ⟨p, hp, hl⟩ := List.mem_flatMap.1 hl
    obtain ⟨ej, hej, rfl⟩ := List.mem_map.1 hl
    exact runLine_ok T hn (hids p hp).1 ((hids p hp).2 _ (List.fst_mem_of_mem_zipIdx hej)) _ _
  have hmap : (textLines (runLine T name) s.data).map (runFact T) = (facts s.data).map some := by
    refine textLines_map (runLine T name) (runFact T) (fun q x v => (q, x, v)) s.data ?_
    intro p hp e he i
    unfold runFact
    rw [splitWs_runLine T hn (hids p hp).1 ((hids p hp).2 e he)]
    simp [T.parse_show]
  rw [fileLines_writeText _ _ hlines, parseRun_ok T _ _ _ _ hmap, assign_facts s.data hw]
  refine ⟨_, rfl, ?_⟩
  rintro ⟨p, hp, hpe⟩
  have hnames : ∀ l ∈ textLines (runLine T name) s.data, runNameOf l = some name := by
    intro l hl
    obtain ⟨p, hp, hl⟩ := List.mem_flatMap.1 hl
    obtain ⟨ej, hej, rfl⟩ := List.mem_map.1 hl
    rw [runNameOf, splitWs_runLine T hn (hids p hp).1 ((hids p hp).2 _ (List.fst_mem_of_mem_zipIdx hej))]
    rfl
  have hne : textLines (runLine T name) s.data ≠ [] := by
    intro h
    obtain ⟨e, he⟩ := List.exists_mem_of_ne_nil _ hpe
    have : (facts s.data).map some = [] := by rw [← hmap, h]; rfl
    have h2 : (p.1, e.1, e.2) ∈ facts s.data :=
      List.mem_flatMap.2 ⟨p, hp, List.mem_map.2 ⟨e, he, rfl⟩⟩
    rw [List.map_eq_nil_iff] at this
    rw [this] at h2
    cases h2
  cases hl : textLines (runLine T name) s.data with
  | nil => exact absurd hl hne
  | cons l ls =>
    have := hnames l (by rw [hl]; exact List.mem_cons_self ..)
    cases given <;> simp [this]

theorem wf_nonEmpty {β : Type*} {d : Dict Str (Dict Str β)} (h : Wf d) : Wf (nonEmpty d) := by
  refine ⟨?_, fun p hp => h.2 p (List.mem_filter.1 hp).1⟩
  have := h.1
  unfold NodupKeys at this ⊢
  exact this.sublist (List.filter_sublist.map Prod.fst)

theorem mem_keys_nonEmpty {β : Type*} {d : Dict Str (Dict Str β)} (h : Wf d) (q : Str) :
    q ∈ keys (nonEmpty d) ↔ ∃ inner, d.get? q = some inner ∧ inner ≠ [] := by
  constructor
  · intro hq
    obtain ⟨p, hp, rfl⟩ := List.mem_map.1 hq
    obtain ⟨h1, h2⟩ := List.mem_filter.1 hp
    exact ⟨p.2, get?_of_mem h.1 h1, by simpa using h2⟩
  · rintro ⟨inner, hg, hne⟩
    exact List.mem_map.2 ⟨(q, inner), List.mem_filter.2 ⟨mem_of_get? hg, by simpa using hne⟩, rfl⟩

theorem read_nonEmpty {β : Type*} {d : Dict Str (Dict Str β)} (h : Wf d) (q x : Str) :
    (cont (nonEmpty d)).read q x = (cont d).read q x := by
  simp only [cont, Spec.Content.read]
  cases hg : d.get? q with
  | none =>
    have : q ∉ keys (nonEmpty d) := by
      rw [mem_keys_nonEmpty h]; rintro ⟨_, h1, _⟩; rw [hg] at h1; cases h1
    rw [(get?_eq_none).2 this]
  | some inner =>
    by_cases he : inner = []
    · have : q ∉ keys (nonEmpty d) := by
        rw [mem_keys_nonEmpty h]; rintro ⟨i, h1, h2⟩; rw [hg] at h1; cases h1; exact h2 he
      rw [(get?_eq_none).2 this, he]; rfl
    · have : (q, inner) ∈ nonEmpty d := List.mem_filter.2 ⟨mem_of_get? hg, by simpa using he⟩
      rw [get?_of_mem (wf_nonEmpty h).1 this]

theorem nonEmpty_not_all {β : Type*} {d : Dict Str (Dict Str β)} (hne : ∃ p ∈ d, p.2 ≠ []) :
    ¬ (values (nonEmpty d)).all (fun x => x.isEmpty) = true := by
  obtain ⟨p, hp, hpe⟩ := hne
  intro hall
  rw [List.all_eq_true] at hall
  have := hall p.2 (List.mem_map.2 ⟨p, List.mem_filter.2 ⟨hp, by simpa using hpe⟩, rfl⟩)
  exact hpe (by simpa using this)

theorem ensureSorted_wf (S : ArgSort α) {s : Store Str Str α} (h : Wf s.data) :
    Wf (s.ensureSorted S).data := by
  unfold Store.ensureSorted
  split
  · exact h
  · exact Wf.sortAll S h

theorem cont_ensureSorted (S : ArgSort α) {s : Store Str Str α} (h : Wf s.data) :
    cont (s.ensureSorted S).data = cont s.data := by
  unfold Store.ensureSorted
  split
  · rfl
  · exact cont_sortAll S h

theorem mem_of_cont_ensureSorted (S : ArgSort α) {s : Store Str Str α} (h : Wf s.data) {q : Str}
    {inner : Dict Str α} (hg : (s.ensureSorted S).data.get? q = some inner) :
    ∃ inner', s.data.get? q = some inner' ∧ ∀ x, inner.get? x = inner'.get? x := by
  have := congrFun (cont_ensureSorted S h) q
  simp only [cont, hg, Option.map_some] at this
  cases h' : s.data.get? q with
  | none => rw [h'] at this; cases this
  | some i =>
    rw [h'] at this
    simp only [Option.map_some, Option.some.injEq] at this
    exact ⟨i, rfl, fun x => congrFun this x⟩

theorem eq_nil_iff_get? {κ ν : Type*} [DecidableEq κ] (d : Dict κ ν) : d = [] ↔ ∀ x, d.get? x = none := by
  constructor
  · rintro rfl x; rfl
  · intro h
    cases d with
    | nil => rfl
    | cons p t =>
      have := h p.1
      rw [get?_eq_none] at this
      exact absurd (List.mem_cons_self ..) this

theorem wordIds_ensureSorted (S : ArgSort α) {s : Store Str Str α} (h : Wf s.data) (hids : Spec.WordIds s) :
    Spec.WordIds (s.ensureSorted S) := by
  intro p hp
  have hg := get?_of_mem (ensureSorted_wf S h).1 (show (p.1, p.2) ∈ _ from hp)
  obtain ⟨inner', h1, h2⟩ := mem_of_cont_ensureSorted S h hg
  refine ⟨(hids _ (mem_of_get? h1)).1, ?_⟩
  intro e he
  have hk : e.1 ∈ keys p.2 := List.mem_map.2 ⟨e, he, rfl⟩
  rw [← get?_isSome, h2, Option.isSome_iff_exists] at hk
  obtain ⟨v, hv⟩ := hk
  exact (hids _ (mem_of_get? h1)).2 (e.1, v) (mem_of_get? hv)

/-- **C75.** A run saved in the TREC format (whatever the spelling of the path or kind) and loaded again
has the same scores for the same docs of the same queries, and its name: for every run a user can build
whose ids and name are non-empty and free of white space. Exactly the queries without docs are lost. A
name passed to `from_file` takes precedence. `S'` is the sort at load time. -/
theorem C75_trec_roundtrip (C : Codec B α) (T : FloatText α) (S S' : ArgSort α) (r : RunFile α)
    (hs : Reachable S r.store) (path path' : Str) (kind kind' : Option Str)
    (hk : runKind path kind = .ok .trec) (hk' : runKind path' kind' = .ok .trec) (given : Option Str)
    (hids : Spec.WordIds r.store) (hn : Word (nameText r.name)) (hne : ∃ p ∈ r.store.data, p.2 ≠ []) :
    ∃ bytes r', (saveRun C T S r path kind).2 = .ok bytes ∧
      loadRun C T S' bytes path' kind' given = .ok r' ∧
      r'.name = some (given.getD (nameText r.name)) ∧
      Reachable S' r'.store ∧
      (∀ q x, (Spec.content r'.store).read q x = (Spec.content r.store).read q x) ∧
      (∀ q, q ∈ r'.store.data.keys ↔ ∃ inner, r.store.data.get? q = some inner ∧ inner ≠ []) ∧
      (r'.store.sorted = true ∧ (∀ p ∈ r'.store.data, Spec.Ranked p.2.values) ∧
        r'.store.data.keys.Pairwise (· < ·)) := by
  have hw := hs.wf
  have hw' := ensureSorted_wf S hw
  have hids' := wordIds_ensureSorted S hw hids
  have hne' : ∃ p ∈ (r.store.ensureSorted S).data, p.2 ≠ [] := by
    obtain ⟨p, hp, hpe⟩ := hne
    have hg := get?_of_mem hw.1 (show (p.1, p.2) ∈ _ from hp)
    have hc := congrFun (cont_ensureSorted S hw) p.1
    simp only [cont, hg, Option.map_some] at hc
    obtain ⟨i, hi, he⟩ := Option.map_eq_some_iff.1 hc
    refine ⟨(p.1, i), mem_of_get? hi, ?_⟩
    intro h0
    simp only [] at h0
    rw [h0] at he
    exact hpe ((eq_nil_iff_get? _).2 (fun x => (congrFun he x).symm))
  refine ⟨C.encodeText (writeText (runLine T (nameText r.name)) (r.store.ensureSorted S).data),
    ⟨some (given.getD (nameText r.name)), ⟨sortAll S' (nonEmpty (r.store.ensureSorted S).data), true⟩⟩,
    ?_, ?_, rfl, ?_, ?_, ?_, rfl, sortAll_ranked S' (wf_nonEmpty hw')⟩
  · simp only [saveRun, hk]
  · obtain ⟨n, hp, hnn⟩ := parse_saved_run T (nameText r.name) given (r.store.ensureSorted S) hw' hn hids'
    simp only [loadRun, hk', runOfText]
    rw [if_neg (by decide), C.text_text]
    simp only [hp, ofDict_eq S' _ (wf_nonEmpty hw'), if_neg (nonEmpty_not_all hne'), hnn hne']
  · refine .ofDict (nonEmpty (r.store.ensureSorted S).data) _ (wf_nonEmpty hw').1 (wf_nonEmpty hw').2 ?_
    rw [ofDict_eq S' _ (wf_nonEmpty hw'), if_neg (nonEmpty_not_all hne')]
  · intro q x
    rw [content_eq, content_eq]
    show (cont (sortAll S' _)).read q x = _
    rw [cont_sortAll S' (wf_nonEmpty hw'), read_nonEmpty hw', cont_ensureSorted S hw]
  · intro q
    show q ∈ keys (sortAll S' _) ↔ _
    rw [mem_keys_sortAll S' (wf_nonEmpty hw').1, mem_keys_nonEmpty hw']
    have hc := congrFun (cont_ensureSorted S hw) q
    simp only [cont] at hc
    constructor
    · rintro ⟨i, hi, hne⟩
      rw [hi] at hc
      obtain ⟨j, hj, he⟩ := Option.map_eq_some_iff.1 hc.symm
      refine ⟨j, hj, fun h0 => hne ?_⟩
      rw [h0] at he
      exact (eq_nil_iff_get? _).2 (fun x => (congrFun he x).symm)
    · rintro ⟨i, hi, hne⟩
      rw [hi] at hc
      obtain ⟨j, hj, he⟩ := Option.map_eq_some_iff.1 hc
      refine ⟨j, hj, fun h0 => hne ?_⟩
      rw [h0] at he
      exact (eq_nil_iff_get? _).2 (fun x => (congrFun he x).symm)

/-- two ranked, tie-free arrangements of the same content are equal -/
theorem ranked_unique {d d' : Dict Str (Dict Str α)} (h : Wf d) (h' : Wf d') (hc : cont d = cont d')
    (hr : (∀ p ∈ d, Spec.Ranked p.2.values) ∧ d.keys.Pairwise (· < ·))
    (hr' : (∀ p ∈ d', Spec.Ranked p.2.values) ∧ d'.keys.Pairwise (· < ·)) (ht : TieFree d) : d = d' := by
  have hk : d.keys = d'.keys := eq_of_mem_iff_of_sorted_lt hr.2 hr'.2 (mem_keys_of_cont hc)
  rw [← filterMap_keys h.1, ← filterMap_keys h'.1, hk]
  apply List.filterMap_congr
  intro q _
  have hq := congrFun hc q
  unfold cont at hq
  cases h1 : d.get? q with
  | none =>
    cases h2 : d'.get? q with
    | none => rfl
    | some v => simp [h1, h2] at hq
  | some u =>
    cases h2 : d'.get? q with
    | none => simp [h1, h2] at hq
    | some v =>
      simp only [h1, h2, Option.map_some, Option.some.injEq] at hq
      have pp := perm_of_cont_inner (h.get? h1) (h'.get? h2) (congrFun hq)
      have nd := ht _ (mem_of_get? h1)
      have e : u = v := by
        refine pp.eq_of_pairwise ?_ (List.pairwise_map.1 (hr.1 _ (mem_of_get? h1)))
          (List.pairwise_map.1 (hr'.1 _ (mem_of_get? h2)))
        intro a b ha hb hab hba
        exact List.inj_on_of_nodup_map nd ha (pp.mem_iff.2 hb) (le_antisymm hba hab)
      rw [e]

theorem tieFree_of_cont {d d' : Dict Str (Dict Str α)} (h : Wf d) (h' : Wf d') (hc : cont d = cont d')
    (ht : TieFree d) : TieFree d' := by
  intro p hp
  have h2 := get?_of_mem h'.1 (show (p.1, p.2) ∈ _ from hp)
  have hq := congrFun hc p.1
  unfold cont at hq
  rw [h2] at hq
  obtain ⟨u, h1, hu⟩ := Option.map_eq_some_iff.1 hq
  have pp := perm_of_cont_inner (h.get? h1) (h'.get? h2) (congrFun hu)
  exact (pp.map Prod.snd).nodup_iff.1 (ht _ (mem_of_get? h1))

theorem cont_eq_of_read {d d' : Dict Str (Dict Str α)} (hk : ∀ q, q ∈ d.keys ↔ q ∈ d'.keys)
    (hr : ∀ q x, (cont d).read q x = (cont d').read q x) : cont d = cont d' := by
  funext q
  have h1 := hk q
  have h2 := hr q
  rw [← get?_isSome, ← get?_isSome] at h1
  simp only [cont, Spec.Content.read] at h2 ⊢
  cases ha : d.get? q with
  | none =>
    cases hb : d'.get? q with
    | none => rfl
    | some v => simp [ha, hb] at h1
  | some u =>
    cases hb : d'.get? q with
    | none => simp [ha, hb] at h1
    | some v =>
      rw [ha, hb] at h2
      simp only [Option.map_some, Option.some.injEq]
      funext x
      exact h2 x

/-- **C75** (rankings): if no query has tied scores and every query has docs, the loaded run is the saved
object (the run as `save` leaves it: sorted). -/
theorem C75_trec_ranking (C : Codec B α) (T : FloatText α) (S S' : ArgSort α) (r : RunFile α)
    (hs : Reachable S r.store) (hflag : FlagOk r.store) (path : Str) (kind : Option Str)
    (hk : runKind path kind = .ok .trec)
    (hids : Spec.WordIds r.store) (hn : Word (nameText r.name)) (hne : ∃ p ∈ r.store.data, p.2 ≠ [])
    (hall : ∀ p ∈ r.store.data, p.2 ≠ []) (ht : ∀ p ∈ r.store.data, p.2.values.Nodup) :
    ∃ bytes, (saveRun C T S r path kind).2 = .ok bytes ∧
      loadRun C T S' bytes path kind none =
        .ok ⟨some (nameText r.name), ⟨(saveRun C T S r path kind).1.store.data, true⟩⟩ := by
  have hw := hs.wf
  obtain ⟨bytes, r', h1, h2, h3, h4, h5, h6, h7⟩ :=
    C75_trec_roundtrip C T S S' r hs path path kind kind hk hk none hids hn hne
  refine ⟨bytes, h1, ?_⟩
  rw [h2]
  have hdata : (saveRun C T S r path kind).1.store.data = (r.store.ensureSorted S).data := by
    simp only [saveRun, hk]
  have hc : cont r.store.data = cont r'.store.data := by
    refine cont_eq_of_read ?_ (fun q x => by rw [← content_eq, ← content_eq]; exact (h5 q x).symm)
    intro q
    rw [h6 q]
    constructor
    · intro hq
      obtain ⟨p, hp, rfl⟩ := List.mem_map.1 hq
      exact ⟨p.2, get?_of_mem hw.1 hp, hall p hp⟩
    · rintro ⟨i, hi, -⟩
      exact List.mem_map.2 ⟨(q, i), mem_of_get? hi, rfl⟩
  have he : (r.store.ensureSorted S).data = r'.store.data := by
    have hw' := ensureSorted_wf S hw
    have hc' := cont_ensureSorted S hw
    exact ranked_unique hw' h4.wf (hc'.trans hc) (ensureSorted_ranked S _ hw hflag) h7.2
      (tieFree_of_cont hw hw' hc'.symm ht)
  rw [hdata, he]
  obtain ⟨n, d, f⟩ := r'
  simp only [] at h3 h7
  rw [h3, h7.1]
  rfl

end
end Ranx
