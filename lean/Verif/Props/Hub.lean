import Verif.Model.Hub
import Verif.Props.Labels2
import Verif.Props.FilesC
import Verif.Props.Download

/-!
# Property C98: a run published with `ranxhub.save` is loaded back by `Run.from_ranxhub`
-/

set_option linter.unusedSectionVars false

namespace Ranx
open Dict Store Py Files Rep Hub

variable {β α ρ : Type} [AddCommGroup α] [LinearOrder α] [IsOrderedAddMonoid α]

/-- loading the bytes of an archive -/
theorem ofBytes_dump (A : Archive β α ρ) (S S' : ArgSort α) (s : Store Str Str α) (hs : Reachable S s)
    (card : Card α ρ) :
    (∀ n, card.name = some n → (∃ p ∈ s.data, p.2 ≠ []) →
      ∃ r : HubRun α ρ, ofBytes A S' (A.dump card s.data) = .ok r ∧ r.name = some n ∧ r.metadata = some card ∧
        r.store.sorted = true ∧ Reachable S' r.store ∧
        (∀ q x, (Spec.content r.store).read q x = (Spec.content s).read q x) ∧
        (∀ q, q ∈ r.store.data.keys ↔ q ∈ s.data.keys)) ∧
    ((∀ p ∈ s.data, p.2 = []) → ofBytes A S' (A.dump card s.data) = .error .valueError) ∧
    (card.name = none → ∃ e, ofBytes A S' (A.dump card s.data) = .error e) := by
  have hw := hs.wf
  refine ⟨?_, ?_, ?_⟩
  · intro n hn hne
    have hof : Store.ofDict S' s.data = .ok ⟨sortAll S' s.data, true⟩ := by
      rw [ofDict_eq S' _ hw, if_neg (not_all_of_cont hne)]
    refine ⟨⟨some n, ⟨sortAll S' s.data, true⟩, [], some card⟩, ?_, rfl, rfl, rfl, .ofDict _ _ hw.1 hw.2 hof, ?_, ?_⟩
    · simp only [ofBytes, A.load_dump, hof, hn]
    · intro q x
      rw [content_eq, content_eq]
      show (cont (sortAll S' _)).read q x = _
      rw [cont_sortAll S' hw]
    · intro q
      show q ∈ keys (sortAll S' _) ↔ _
      rw [mem_keys_sortAll S' hw.1]
  · intro h
    have := (C07_construct (S := S') s.data hw.1 hw.2).1 h
    simp only [ofBytes, A.load_dump, this]
  · intro hn
    simp only [ofBytes, A.load_dump]
    cases Store.ofDict S' s.data with
    | error e => exact ⟨e, rfl⟩
    | ok st => exact ⟨.keyError, by simp only [hn]⟩

/-- the history of calls that leads to a disk on which `bytes` may be partly or completely downloaded -/
theorem fromRanxhub_eq (A : Archive β α ρ) (S : ArgSort α) (bytes : List β) (as : List (Dl.Attempt β))
    (has : ∀ a ∈ as, Spec.Serves bytes a) (a : Dl.Attempt β) (ha : Spec.Serves bytes a) (hstop : a.stop = .never) :
    (fromRanxhub A S a (Dl.downloads as ⟨none, none⟩)).2 = some (ofBytes A S bytes) := by
  have h := (C80_crash_safe bytes as has ⟨none, none⟩ ⟨fun f hf => (by cases hf), fun f hf => (by cases hf)⟩).2 a ha
  unfold fromRanxhub
  rw [(h.2 hstop).1]
  rfl

/-- **C98** (round-trip): a run with at least one doc, saved with a card that has a name, put on the server and loaded
with `from_ranxhub` (after any history of interrupted downloads of it) has the queries, docs and scores of the
original; its name and metadata are those of the card, in which the mean scores of the run have been recorded and
nothing else has changed. -/
theorem C98_roundtrip (A : Archive β α ρ) (S S' : ArgSort α) (r : HubRun α ρ) (hs : Reachable S r.store)
    (hne : ∃ p ∈ r.store.data, p.2 ≠ []) (hnd : NodupKeys r.meanScores)
    (hms : ∀ p ∈ r.meanScores, ∃ n ∈ Spec.hubLabels, ∃ k, p.1 = Spec.withParams n.1 k none)
    (card : Card α ρ) (n : Str) (hn : card.name = some n) :
    ∃ card' bytes, Hub.save A r card = .ok (card', bytes) ∧
      card'.name = some n ∧ card'.rest = card.rest ∧
      (∀ p ∈ Spec.hubLabels, ∀ k v, r.meanScores.get? (Spec.withParams p.1 k none) = some v →
        (card'.results.getD []).get? (Spec.withParams p.2 k none) = some v) ∧
      (∀ x, (∀ p ∈ Spec.hubLabels, ∀ k v, r.meanScores.get? (Spec.withParams p.1 k none) = some v →
          x ≠ Spec.withParams p.2 k none) → (card'.results.getD []).get? x = (card.results.getD []).get? x) ∧
      ∀ as : List (Dl.Attempt β), (∀ a ∈ as, Spec.Serves bytes a) → ∀ a, Spec.Serves bytes a → a.stop = .never →
        ∃ r' : HubRun α ρ, (fromRanxhub A S' a (Dl.downloads as ⟨none, none⟩)).2 = some (.ok r') ∧
          r'.name = some n ∧ r'.metadata = some card' ∧ r'.store.sorted = true ∧ Reachable S' r'.store ∧
          (∀ q x, (Spec.content r'.store).read q x = (Spec.content r.store).read q x) ∧
          (∀ q, q ∈ r'.store.data.keys ↔ q ∈ r.store.data.keys) := by
  obtain ⟨res, h1, h2, h3⟩ := C93_recorded_partial r.meanScores hnd hms card.results r.store.data
  refine ⟨{ card with results := res }, A.dump { card with results := res } r.store.data, ?_, hn, rfl, h2, h3, ?_⟩
  · simp only [Hub.save, h1]
  · intro as has a ha hstop
    obtain ⟨r', g1, g2⟩ := (ofBytes_dump A S S' r.store hs { card with results := res }).1 n hn hne
    exact ⟨r', by rw [fromRanxhub_eq A S' _ as has a ha hstop, g1], g2⟩

/-- **C98** (unchecked at publication): `save` accepts a run without docs and a card without a name, but what it writes
cannot be loaded. -/
theorem C98_unloadable (A : Archive β α ρ) (S S' : ArgSort α) (r : HubRun α ρ) (hs : Reachable S r.store)
    (card card' : Card α ρ) (bytes : List β) (h : Hub.save A r card = .ok (card', bytes))
    (hbad : card.name = none ∨ ∀ p ∈ r.store.data, p.2 = [])
    (as : List (Dl.Attempt β)) (has : ∀ a ∈ as, Spec.Serves bytes a) (a : Dl.Attempt β)
    (ha : Spec.Serves bytes a) (hstop : a.stop = .never) :
    ∃ e, (fromRanxhub A S' a (Dl.downloads as ⟨none, none⟩)).2 = some (.error e) := by
  rw [fromRanxhub_eq A S' _ as has a ha hstop]
  unfold Hub.save hubSave at h
  cases hr : hubRecord r.meanScores card.results with
  | error e => rw [hr] at h; cases h
  | ok res =>
    rw [hr] at h
    simp only [Except.ok.injEq, Prod.mk.injEq] at h
    obtain ⟨rfl, rfl⟩ := h
    have g := ofBytes_dump A S S' r.store hs { card with results := res }
    rcases hbad with hb | hb
    · obtain ⟨e, he⟩ := g.2.2 hb
      exact ⟨e, by rw [he]⟩
    · exact ⟨.valueError, by rw [g.2.1 hb]⟩

/-- **C98** (the name of the run is not published): two runs that differ in their names only are published as the
same file. -/
theorem C98_name_ignored (A : Archive β α ρ) (r : HubRun α ρ) (name : Option Str) (card : Card α ρ) :
    Hub.save A { r with name := name } card = Hub.save A r card := rfl

/-! ### non-vacuity -/

/-- an archive whose bytes are the content itself -/
def exArchive (α ρ : Type) : Archive (Card α ρ × Dict Str (Dict Str α)) α ρ where
  dump := fun c d => [(c, d)]
  load := fun l => match l with
    | [x] => .ok x
    | _ => .error .valueError
  load_dump := fun _ _ => rfl

/-- a good server for a file of any kind of bytes -/
def exServerOf {β : Type} (c : List β) (stop : Dl.Stop) : Dl.Attempt β :=
  ⟨some c.length, fun | none => c | some n => c.drop n, stop⟩

theorem exServerOf_serves {β : Type} (c : List β) (stop : Dl.Stop) : Spec.Serves c (exServerOf c stop) :=
  ⟨rfl, rfl, fun _ => rfl⟩

/-- an evaluated run -/
def exHubRun : HubRun Int Nat :=
  ⟨some "my run".toList, exFileStore, [("map".toList, 9), ("ndcg@10".toList, 4)], none⟩

/-- its card, with an older result of another metric and of MAP -/
def exCard : Card Int Nat := ⟨some "BM25".toList, some [("MAP".toList, 1), ("MRR".toList, 7)], 42⟩

/-- the hypotheses of the round-trip are met, the download being killed once -/
example : ∃ card' bytes, Hub.save (exArchive Int Nat) exHubRun exCard = .ok (card', bytes) ∧
    (card'.results.getD []).get? "NDCG@10".toList = some 4 ∧ (card'.results.getD []).get? "MRR".toList = some 7 ∧
    ∃ r' : HubRun Int Nat, (fromRanxhub (exArchive Int Nat) (ArgSort.stable Int) (exServerOf bytes .never)
        (Dl.downloads [exServerOf bytes (.written 0)] ⟨none, none⟩)).2 = some (.ok r') ∧
      r'.name = some "BM25".toList ∧ (Spec.content r'.store).read "q1".toList "d1".toList = some 7 := by
  obtain ⟨card', bytes, h1, h2, h3, h4, h5, h6⟩ := C98_roundtrip (exArchive Int Nat) (ArgSort.stable Int)
    (ArgSort.stable Int) exHubRun exFileStore_reachable ⟨_, .head _, by decide⟩ (by unfold NodupKeys; decide +kernel)
    (by
      intro p hp
      rcases List.mem_cons.1 hp with rfl | hp
      · exact ⟨("map".toList, "MAP".toList), by decide +kernel, none, by decide +kernel⟩
      · rcases List.mem_cons.1 hp with rfl | hp
        · exact ⟨("ndcg".toList, "NDCG".toList), by decide +kernel, some 10, by decide +kernel⟩
        · cases hp) exCard "BM25".toList rfl
  refine ⟨card', bytes, h1, ?_, ?_, ?_⟩
  · exact h4 ("ndcg".toList, "NDCG".toList) (by decide +kernel) (some 10) 4 (by decide +kernel)
  · have : Hub.save (exArchive Int Nat) exHubRun exCard = .ok (⟨some "BM25".toList, some [("MAP".toList, 9),
        ("MRR".toList, 7), ("NDCG@10".toList, 4)], 42⟩, [(⟨some "BM25".toList, some [("MAP".toList, 9),
        ("MRR".toList, 7), ("NDCG@10".toList, 4)], 42⟩, exFileStore.data)]) := by rfl
    rw [this] at h1
    cases h1
    decide +kernel
  · obtain ⟨r', g1, g2, -, -, -, g6, -⟩ := h6 [exServerOf bytes (.written 0)]
      (fun a ha => by rw [List.mem_singleton.1 ha]; exact exServerOf_serves _ _) (exServerOf bytes .never)
      (exServerOf_serves _ _) rfl
    exact ⟨r', g1, g2, by rw [g6, content_eq]; decide +kernel⟩

/-- a card without a name is published, and the hypotheses of `C98_unloadable` are met -/
example : ∃ out e, Hub.save (exArchive Int Nat) exHubRun { exCard with name := none } = .ok out ∧
    (fromRanxhub (exArchive Int Nat) (ArgSort.stable Int) (exServerOf out.2 .never) ⟨none, none⟩).2 =
      some (.error e) := by
  have h : ∃ out, Hub.save (exArchive Int Nat) exHubRun { exCard with name := none } = .ok out := ⟨_, rfl⟩
  obtain ⟨⟨card', bytes⟩, h⟩ := h
  obtain ⟨e, he⟩ := C98_unloadable (exArchive Int Nat) (ArgSort.stable Int) (ArgSort.stable Int) exHubRun
    exFileStore_reachable _ _ _ h (.inl rfl) [] (fun _ h => absurd h (List.not_mem_nil)) (exServerOf bytes .never)
    (exServerOf_serves _ _) rfl
  exact ⟨_, e, h, he⟩

end Ranx
