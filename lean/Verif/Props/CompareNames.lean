import Verif.Props.OptimizeNames
import Verif.Props.Compare2
import Verif.Props.Plot

/-!
# C155: doc ids are only names for compare and plot, and the hash seed does not matter
-/

set_option linter.unusedSectionVars false

namespace Ranx
open Dict Eval Metrics Py Store Rep Plot Stat
open Spec (renamed renamedDocs renamedStore renamedRun renamedQrelsArg renamedRunArg)

section rename
variable {κ δ δ' ι α : Type} [LinearOrder κ] [DecidableEq δ] [DecidableEq δ'] [LinearOrder ι] [LinearOrder α] [Field α]
  [IsStrictOrderedRing α]

/-- Specification: the run with its docs renamed; its name and its saved results are the same -/
def Spec.renamedNamed (f : δ → δ') (r : NamedRun κ δ α) : NamedRun κ δ' α := ⟨r.name, renamedRun f r.obj⟩

/-- Specification: what compare returns, with the docs renamed: the report is the same, the objects have renamed docs -/
def Spec.renamedReport (f : δ → δ') (x : Report α × QrelsArg κ δ α × List (RunArg κ δ α)) :
    Report α × QrelsArg κ δ' α × List (RunArg κ δ' α) :=
  (x.1, renamedQrelsArg f x.2.1, x.2.2.map (renamedRunArg f))

/-- the accumulator with its docs renamed -/
def renamedAcc (f : δ → δ') (a : Acc κ δ α) : Acc κ δ' α :=
  ⟨renamedQrelsArg f a.qrels, a.names, a.scores, a.results, a.runs.map (renamedRunArg f)⟩

theorem evalRuns_renamed (F : Fn α) (other : Str → Except Err α) (SQ : ArgSort Int) (SR : ArgSort α) (hash : δ' → ι)
    {f : δ → δ'} (hf : Function.Injective f) (sched : Nat → Nat → List Nat) (mc : Bool) (ms : List Str)
    (runs : List (NamedRun κ δ α × Nat)) (acc : Acc κ δ α) :
    evalRuns F other SQ SR hash sched mc ms (runs.map (fun p => (Spec.renamedNamed f p.1, p.2))) (renamedAcc f acc) =
      (evalRuns F other SQ SR (hash ∘ f) sched mc ms runs acc).map (renamedAcc f) := by
  induction runs generalizing acc with
  | nil => rfl
  | cons p t ih =>
    obtain ⟨r, i⟩ := p
    have e : evaluate F other SQ SR hash (sched i) { returnMean := false, makeComparable := mc }
        (renamedQrelsArg f acc.qrels) (RunArg.obj (renamedRun f r.obj)) ms = _ :=
      evaluate_renamed F other SQ SR hash hf (sched i) { returnMean := false, makeComparable := mc } acc.qrels (.obj r.obj) ms
    have hn : modelName i (Spec.renamedNamed f r) = modelName i r := rfl
    have hq : (renamedAcc f acc).qrels = renamedQrelsArg f acc.qrels := rfl
    have ho : (Spec.renamedNamed f r).obj = renamedRun f r.obj := rfl
    have hr : (renamedAcc f acc).results = acc.results := rfl
    simp only [List.map_cons, evalRuns]
    rw [hn, hq, ho, hr, e]
    cases hev : evaluate F other SQ SR (hash ∘ f) (sched i) { returnMean := false, makeComparable := mc } acc.qrels
        (.obj r.obj) ms with
    | mk after out =>
      cases out with
      | error e => rfl
      | ok out =>
        simp only
        cases hme : means (asScores ms out) ms ((acc.results.get? (modelName i r)).getD []) with
        | error e => rfl
        | ok mm =>
          simp only
          rw [← ih]
          simp only [renamedAcc, List.map_append, List.map_cons, List.map_nil]

theorem zipIdx_named (f : δ → δ') (runs : List (NamedRun κ δ α)) (n : Nat) :
    (runs.map (Spec.renamedNamed f)).zipIdx n = (runs.zipIdx n).map (fun p => (Spec.renamedNamed f p.1, p.2)) := by
  induction runs generalizing n with
  | nil => rfl
  | cons r t ih => simp only [List.map_cons, List.zipIdx_cons, ih]

/-- compare on renamed docs is compare with the hashes of the new names -/
theorem compare_renamed (F : Fn α) (other : Str → Except Err α) (SQ : ArgSort Int) (SR : ArgSort α) (hash : δ' → ι)
    {f : δ → δ'} (hf : Function.Injective f) (sched : Nat → Nat → List Nat) (E : Stat.Env α) (mc : Bool) (test : Str) (n : Nat)
    (maxP : α) (qrels : QrelsArg κ δ α) (runs : List (NamedRun κ δ α)) (ms : List Str) :
    Rep.compare F other SQ SR hash sched E mc test n maxP (renamedQrelsArg f qrels) (runs.map (Spec.renamedNamed f)) ms =
      (Rep.compare F other SQ SR (hash ∘ f) sched E mc test n maxP qrels runs ms).map (Spec.renamedReport f) := by
  unfold Rep.compare
  rw [zipIdx_named]
  have e := evalRuns_renamed F other SQ SR hash hf sched mc ms runs.zipIdx ⟨qrels, [], [], [], []⟩
  change evalRuns F other SQ SR hash sched mc ms _ ⟨renamedQrelsArg f qrels, [], [], [], []⟩ = _ at e
  rw [e]
  cases evalRuns F other SQ SR (hash ∘ f) sched mc ms runs.zipIdx ⟨qrels, [], [], [], []⟩ with
  | error e => rfl
  | ok a =>
    simp only [Except.map, renamedAcc]
    cases significance E a.names a.scores test n maxP with
    | error e => rfl
    | ok c =>
      simp only
      cases wtlPairs a.scores ms (pairs a.names) [] <;> rfl

/-- plot on renamed docs is plot with the hashes of the new names -/
theorem plot_renamed (cutoff : Nat → Nat → Nat) (SQ : ArgSort Int) (SR : ArgSort α) (hash : δ' → ι) {f : δ → δ'}
    (hf : Function.Injective f) (sched : Nat → List Nat) (single : Bool) (s : Store κ δ Int)
    (runs : List (Option Str × Store κ δ α)) :
    Plot.plot cutoff SQ SR hash sched single (renamedStore f s) (runs.map (fun r => (r.1, renamedStore f r.2))) =
      (renamedStore f (Plot.plot cutoff SQ SR (hash ∘ f) sched single s runs).1,
        (Plot.plot cutoff SQ SR (hash ∘ f) sched single s runs).2.1.map (renamedStore f),
        (Plot.plot cutoff SQ SR (hash ∘ f) sched single s runs).2.2) := by
  unfold Plot.plot
  have h1 : (runs.map (fun r => (r.1, renamedStore f r.2))).map (fun r => r.2.toTypedList SR hash id) =
      (runs.map (fun r => r.2.toTypedList SR (hash ∘ f) id)).map (fun p => (renamedStore f p.1, p.2)) := by
    rw [List.map_map, List.map_map]
    refine List.map_congr_left (fun r _ => ?_)
    exact toTypedList_renamed SR hash id hf r.2
  have h2 : (runs.map (fun r => (r.1, renamedStore f r.2))).zipIdx.map (fun r => plotName single r.2 r.1.1) =
      runs.zipIdx.map (fun r => plotName single r.2 r.1.1) := by
    have gen : ∀ (l : List (Option Str × Store κ δ α)) (n : Nat),
        ((l.map (fun r => (r.1, renamedStore f r.2))).zipIdx n).map (fun r => plotName single r.2 r.1.1) =
          (l.zipIdx n).map (fun r => plotName single r.2 r.1.1) := by
      intro l
      induction l with
      | nil => intro n; rfl
      | cons r t ih => intro n; simp only [List.map_cons, List.zipIdx_cons, ih]
    exact gen runs 0
  simp only
  rw [toTypedList_renamed SQ hash (fun z : Int => (z : α)) hf s, h1, h2]
  simp only [List.map_map, Function.comp_def]

end rename

/-! ### hash functions without any collision -/

section injective
variable {κ δ ι ι' α : Type} [LinearOrder κ] [DecidableEq δ] [LinearOrder ι] [LinearOrder ι'] [LinearOrder α] [Field α]
  [IsStrictOrderedRing α]

theorem evaluate_inj (F : Fn α) (other : Str → Except Err α) (SQ : ArgSort Int) (SR : ArgSort α)
    {hash : δ → ι} {hash' : δ → ι'} (h : Function.Injective hash) (h' : Function.Injective hash')
    (sched : Nat → List Nat) (o : Opts) (s : Store κ δ Int) (r : RunObj κ δ α) (ms : List Str) :
    evaluate F other SQ SR hash sched o (.obj s) (.obj r) ms = evaluate F other SQ SR hash' sched o (.obj s) (.obj r) ms := by
  unfold evaluate
  simp only
  split
  · rfl
  · have hp : ∃ r', prepare SR o (.obj s) (.obj r) = RunArg.obj r' := by
      unfold prepare
      by_cases ho : o.makeComparable = true
      · rw [if_pos ho]; exact ⟨_, rfl⟩
      · rw [if_neg ho]; exact ⟨_, rfl⟩
    obtain ⟨r', hr'⟩ := hp
    rw [hr']
    simp only [convertQrels, convertRun, Store.toTypedList]
    rw [rows_rename hash, rows_rename hash', rows_rename hash, rows_rename hash',
      scoreAll_hash hash hash' Set.univ h.injOn h'.injOn F other sched _ _ (fun _ _ _ _ => trivial) (fun _ _ _ _ => trivial)]

/-- the qrels stay an object -/
theorem evaluate_qrels_obj (F : Fn α) (other : Str → Except Err α) (SQ : ArgSort Int) (SR : ArgSort α)
    (hash : δ → ι) (sched : Nat → List Nat) (o : Opts) (s : Store κ δ Int) (r : RunObj κ δ α) (ms : List Str) :
    ∃ s', (evaluate F other SQ SR hash sched o (.obj s) (.obj r) ms).1.qrels = .obj s' := by
  rw [evaluate_obj]
  split
  · split
    · exact ⟨_, rfl⟩
    · exact ⟨_, rfl⟩
  · exact ⟨_, rfl⟩

theorem evalRuns_inj (F : Fn α) (other : Str → Except Err α) (SQ : ArgSort Int) (SR : ArgSort α)
    {hash : δ → ι} {hash' : δ → ι'} (h : Function.Injective hash) (h' : Function.Injective hash')
    (sched : Nat → Nat → List Nat) (mc : Bool) (ms : List Str)
    (runs : List (NamedRun κ δ α × Nat)) (acc : Acc κ δ α) (s : Store κ δ Int) (hs : acc.qrels = .obj s) :
    evalRuns F other SQ SR hash sched mc ms runs acc = evalRuns F other SQ SR hash' sched mc ms runs acc := by
  induction runs generalizing acc s with
  | nil => rfl
  | cons p t ih =>
    obtain ⟨r, i⟩ := p
    simp only [evalRuns]
    rw [hs, evaluate_inj F other SQ SR h h' (sched i) _ s r.obj ms]
    obtain ⟨s', hs'⟩ := evaluate_qrels_obj F other SQ SR hash' (sched i) { returnMean := false, makeComparable := mc } s r.obj ms
    cases hev : evaluate F other SQ SR hash' (sched i) { returnMean := false, makeComparable := mc } (.obj s) (.obj r.obj) ms with
    | mk after out =>
      rw [hev] at hs'
      cases out with
      | error e => rfl
      | ok out =>
        simp only
        cases means (asScores ms out) ms ((acc.results.get? (modelName i r)).getD []) with
        | error e => rfl
        | ok mm => exact ih _ s' hs'

theorem compare_inj (F : Fn α) (other : Str → Except Err α) (SQ : ArgSort Int) (SR : ArgSort α)
    {hash : δ → ι} {hash' : δ → ι'} (h : Function.Injective hash) (h' : Function.Injective hash')
    (sched : Nat → Nat → List Nat) (E : Stat.Env α) (mc : Bool) (test : Str) (n : Nat)
    (maxP : α) (s : Store κ δ Int) (runs : List (NamedRun κ δ α)) (ms : List Str) :
    Rep.compare F other SQ SR hash sched E mc test n maxP (.obj s) runs ms =
      Rep.compare F other SQ SR hash' sched E mc test n maxP (.obj s) runs ms := by
  unfold Rep.compare
  rw [evalRuns_inj F other SQ SR h h' sched mc ms runs.zipIdx ⟨.obj s, [], [], [], []⟩ s rfl]

theorem interpolatedRows_inj {γ : Type} [LinearOrder γ] (cutoff : Nat → Nat → Nat) {hash : γ → ι}
    (h : Function.Injective hash) (sched : List Nat) (Q R : List (Rows γ α)) :
    interpolatedRows cutoff sched (Q.map (rename hash)) (R.map (rename hash)) = interpolatedRows cutoff sched Q R := by
  unfold interpolatedRows
  rw [List.length_map, List.length_map]
  congr 2
  congr 1
  funext i
  rw [List.getElem?_map, List.getElem?_map]
  have a : ∀ (L : List (Rows γ α)), ((L[i]?).map (rename hash)).getD [] = rename hash ((L[i]?).getD []) := by
    intro L; cases L[i]? <;> rfl
  rw [a, a]
  exact (C25_relabel _ _ hash h.injOn 0 0 1 id (fun _ => 0) cutoff).2.2.2.2.2.2.2.2.2.2.2.2.1

theorem curves_inj {γ : Type} [LinearOrder γ] (cutoff : Nat → Nat → Nat) {hash : γ → ι}
    (h : Function.Injective hash) (sched : Nat → List Nat) (Q : List (Rows γ α)) (Rs : List (List (Rows γ α))) :
    Plot.curves cutoff sched (Q.map (rename hash)) (Rs.map (fun R => R.map (rename hash))) = Plot.curves cutoff sched Q Rs := by
  induction Rs generalizing sched with
  | nil => rfl
  | cons R t ih => simp only [List.map_cons, Plot.curves, interpolatedRows_inj cutoff h, ih]

/-- the docs themselves in the place of their hashes -/
theorem plot_inj (cutoff : Nat → Nat → Nat) (SQ : ArgSort Int) (SR : ArgSort α) {hash : δ → ι} {hash' : δ → ι'}
    (h : Function.Injective hash) (h' : Function.Injective hash') (sched : Nat → List Nat) (single : Bool) (s : Store κ δ Int)
    (runs : List (Option Str × Store κ δ α)) :
    Plot.plot cutoff SQ SR hash sched single s runs = Plot.plot cutoff SQ SR hash' sched single s runs := by
  letI : LinearOrder δ := WellOrderingRel.isWellOrder.linearOrder
  unfold Plot.plot
  simp only [Store.toTypedList, List.map_map, Function.comp_def]
  rw [rows_rename hash, rows_rename hash']
  have e : ∀ {τ : Type} [LinearOrder τ] (g : δ → τ), (runs.map (fun r => Store.rows g id (r.2.ensureSorted SR).data)) =
      (runs.map (fun r => Store.rows id id (r.2.ensureSorted SR).data)).map (fun R => R.map (rename g)) := by
    intro τ _ g
    rw [List.map_map]
    refine List.map_congr_left (fun r _ => ?_)
    exact rows_rename g id _
  rw [e hash, e hash', curves_inj cutoff h, curves_inj cutoff h']

end injective

/-! ### the theorems -/

section main
variable {κ δ δ' ι ι' α : Type} [LinearOrder κ] [DecidableEq δ] [DecidableEq δ'] [LinearOrder ι] [LinearOrder ι']
  [LinearOrder α] [Field α] [IsStrictOrderedRing α]

/-- Specification: the doc is judged for some query or retrieved for some query by some run -/
def Spec.DocOf (qrels : Store κ δ Int) (runs : List (Store κ δ α)) (d : δ) : Prop :=
  (∃ p ∈ qrels.data, d ∈ p.2.keys) ∨ ∃ r ∈ runs, ∃ p ∈ r.data, d ∈ p.2.keys

/-- Specification: no two different docs of the judgements and of the runs have the same hash -/
def Spec.HashesApart (hash : δ → ι) (qrels : Store κ δ Int) (runs : List (Store κ δ α)) : Prop :=
  ∀ d d', Spec.DocOf qrels runs d → Spec.DocOf qrels runs d' → hash d = hash d' → d = d'

theorem docOf_renamed (f : δ → δ') {qrels : Store κ δ Int} {runs : List (Store κ δ α)} {d : δ}
    (h : Spec.DocOf qrels runs d) : Spec.DocOf (renamedStore f qrels) (runs.map (renamedStore f)) (f d) := by
  have one : ∀ {β : Type} (s : Store κ δ β), (∃ p ∈ s.data, d ∈ p.2.keys) →
      ∃ p ∈ (renamedStore f s).data, f d ∈ p.2.keys := by
    rintro β s ⟨p, hp, hd⟩
    refine ⟨(p.1, renamed f p.2), List.mem_map.2 ⟨p, hp, rfl⟩, ?_⟩
    obtain ⟨x, hx, rfl⟩ := List.mem_map.1 hd
    exact List.mem_map.2 ⟨(f x.1, x.2), List.mem_map.2 ⟨x, hx, rfl⟩, rfl⟩
  rcases h with h | ⟨r, hr, h⟩
  · exact .inl (one _ h)
  · exact .inr ⟨_, List.mem_map.2 ⟨r, hr, rfl⟩, one _ h⟩

theorem restrict_named (D : δ → Prop) (runs : List (NamedRun κ δ α))
    (h : ∀ r ∈ runs, ∀ p ∈ r.obj.store.data, ∀ d ∈ p.2.keys, D d) :
    ∃ ts : List (NamedRun κ {d // D d} α), ts.map (Spec.renamedNamed Subtype.val) = runs := by
  induction runs with
  | nil => exact ⟨[], rfl⟩
  | cons r t ih =>
    obtain ⟨ts, hts⟩ := ih (fun x hx => h x (List.mem_cons_of_mem _ hx))
    obtain ⟨u, hu⟩ := restrict_store D r.obj.store (h r List.mem_cons_self)
    refine ⟨⟨r.name, ⟨u, r.obj.scores, r.obj.meanScores, r.obj.stdScores⟩⟩ :: ts, ?_⟩
    rw [List.map_cons, hts]
    unfold Spec.renamedNamed renamedRun
    simp only [hu]

theorem renamedStore_named (f : δ → δ') (runs : List (NamedRun κ δ α)) :
    (runs.map (Spec.renamedNamed f)).map (fun r => r.obj.store) = (runs.map (fun r => r.obj.store)).map (renamedStore f) := by
  rw [List.map_map, List.map_map]; rfl

/-- **C155** (compare): rename the docs by any one-to-one map, hash them by any other hash function (no two docs at hand
clash under either). Then `compare` gives the very same report (scores, significance, wins, ties and losses, names) or
raises the same exception, and leaves the same objects behind up to the names; for every test, threshold, metric list. -/
theorem C155_compare (F : Fn α) (other : Str → Except Err α) (SQ : ArgSort Int) (SR : ArgSort α) (hash : δ → ι)
    (hash' : δ' → ι') (f : δ → δ') (hf : Function.Injective f) (sched : Nat → Nat → List Nat) (E : Stat.Env α) (mc : Bool)
    (test : Str) (n : Nat) (maxP : α) (qrels : Store κ δ Int) (runs : List (NamedRun κ δ α)) (ms : List Str)
    (h : Spec.HashesApart hash qrels (runs.map (fun r => r.obj.store)))
    (h' : Spec.HashesApart hash' (renamedStore f qrels) ((runs.map (Spec.renamedNamed f)).map (fun r => r.obj.store))) :
    Rep.compare F other SQ SR hash' sched E mc test n maxP (.obj (renamedStore f qrels)) (runs.map (Spec.renamedNamed f)) ms =
      (Rep.compare F other SQ SR hash sched E mc test n maxP (.obj qrels) runs ms).map (Spec.renamedReport f) := by
  obtain ⟨q0, hq0⟩ := restrict_store (Spec.DocOf qrels (runs.map (fun r => r.obj.store))) qrels
    (fun p hp d hd => .inl ⟨p, hp, hd⟩)
  obtain ⟨rs0, hrs0⟩ := restrict_named (Spec.DocOf qrels (runs.map (fun r => r.obj.store))) runs
    (fun r hr p hp d hd => .inr ⟨r.obj.store, List.mem_map.2 ⟨r, hr, rfl⟩, p, hp, hd⟩)
  have inj0 : Function.Injective (hash ∘ (Subtype.val : {d // Spec.DocOf qrels (runs.map (fun r => r.obj.store)) d} → δ)) :=
    fun a b e => Subtype.ext (h _ _ a.2 b.2 e)
  have inj1 : Function.Injective ((hash' ∘ f) ∘ (Subtype.val : {d // Spec.DocOf qrels (runs.map (fun r => r.obj.store)) d} → δ)) := by
    intro a b e
    refine Subtype.ext (hf (h' _ _ ?_ ?_ e))
    · rw [renamedStore_named]; exact docOf_renamed f a.2
    · rw [renamedStore_named]; exact docOf_renamed f b.2
  have e1 := compare_renamed F other SQ SR hash' hf sched E mc test n maxP (.obj qrels) runs ms
  change Rep.compare F other SQ SR hash' sched E mc test n maxP (.obj (renamedStore f qrels)) _ ms = _ at e1
  rw [e1]
  congr 1
  have e2 := compare_renamed F other SQ SR (hash' ∘ f) Subtype.val_injective sched E mc test n maxP (.obj q0) rs0 ms
  have e3 := compare_renamed F other SQ SR hash Subtype.val_injective sched E mc test n maxP (.obj q0) rs0 ms
  rw [hrs0] at e2 e3
  change Rep.compare F other SQ SR _ sched E mc test n maxP (.obj (renamedStore Subtype.val q0)) _ ms = _ at e2 e3
  rw [hq0] at e2 e3
  rw [e2, e3, compare_inj F other SQ SR inj1 inj0]

/-- **C155** (compare, hash seed): `compare` does not depend on the hash function. -/
theorem C155_compare_hash (F : Fn α) (other : Str → Except Err α) (SQ : ArgSort Int) (SR : ArgSort α) (hash : δ → ι)
    (hash' : δ → ι') (sched : Nat → Nat → List Nat) (E : Stat.Env α) (mc : Bool)
    (test : Str) (n : Nat) (maxP : α) (qrels : Store κ δ Int) (runs : List (NamedRun κ δ α)) (ms : List Str)
    (h : Spec.HashesApart hash qrels (runs.map (fun r => r.obj.store)))
    (h' : Spec.HashesApart hash' qrels (runs.map (fun r => r.obj.store))) :
    Rep.compare F other SQ SR hash' sched E mc test n maxP (.obj qrels) runs ms =
      Rep.compare F other SQ SR hash sched E mc test n maxP (.obj qrels) runs ms := by
  obtain ⟨q0, hq0⟩ := restrict_store (Spec.DocOf qrels (runs.map (fun r => r.obj.store))) qrels
    (fun p hp d hd => .inl ⟨p, hp, hd⟩)
  obtain ⟨rs0, hrs0⟩ := restrict_named (Spec.DocOf qrels (runs.map (fun r => r.obj.store))) runs
    (fun r hr p hp d hd => .inr ⟨r.obj.store, List.mem_map.2 ⟨r, hr, rfl⟩, p, hp, hd⟩)
  have inj0 : Function.Injective (hash ∘ (Subtype.val : {d // Spec.DocOf qrels (runs.map (fun r => r.obj.store)) d} → δ)) :=
    fun a b e => Subtype.ext (h _ _ a.2 b.2 e)
  have inj1 : Function.Injective (hash' ∘ (Subtype.val : {d // Spec.DocOf qrels (runs.map (fun r => r.obj.store)) d} → δ)) :=
    fun a b e => Subtype.ext (h' _ _ a.2 b.2 e)
  have e2 := compare_renamed F other SQ SR hash' Subtype.val_injective sched E mc test n maxP (.obj q0) rs0 ms
  have e3 := compare_renamed F other SQ SR hash Subtype.val_injective sched E mc test n maxP (.obj q0) rs0 ms
  rw [hrs0] at e2 e3
  change Rep.compare F other SQ SR _ sched E mc test n maxP (.obj (renamedStore Subtype.val q0)) _ ms = _ at e2 e3
  rw [hq0] at e2 e3
  rw [e2, e3, compare_inj F other SQ SR inj1 inj0]

theorem restrict_plotted (D : δ → Prop) (runs : List (Option Str × Store κ δ α))
    (h : ∀ r ∈ runs, ∀ p ∈ r.2.data, ∀ d ∈ p.2.keys, D d) :
    ∃ ts : List (Option Str × Store κ {d // D d} α), ts.map (fun r => (r.1, renamedStore Subtype.val r.2)) = runs := by
  induction runs with
  | nil => exact ⟨[], rfl⟩
  | cons r t ih =>
    obtain ⟨ts, hts⟩ := ih (fun x hx => h x (List.mem_cons_of_mem _ hx))
    obtain ⟨u, hu⟩ := restrict_store D r.2 (h r List.mem_cons_self)
    exact ⟨(r.1, u) :: ts, by rw [List.map_cons, hts, hu]⟩

/-- **C155** (plot): rename the docs by any one-to-one map and hash them by any other hash function. Then `plot` draws
the same curves (the same rows of model, recall level and precision) or raises the same exception, and leaves the same
objects behind up to the names. -/
theorem C155_plot (cutoff : Nat → Nat → Nat) (SQ : ArgSort Int) (SR : ArgSort α) (hash : δ → ι) (hash' : δ' → ι')
    (f : δ → δ') (hf : Function.Injective f) (sched : Nat → List Nat) (single : Bool) (qrels : Store κ δ Int)
    (runs : List (Option Str × Store κ δ α)) (h : Spec.HashesApart hash qrels (runs.map Prod.snd))
    (h' : Spec.HashesApart hash' (renamedStore f qrels) ((runs.map Prod.snd).map (renamedStore f))) :
    Plot.plot cutoff SQ SR hash' sched single (renamedStore f qrels) (runs.map (fun r => (r.1, renamedStore f r.2))) =
      (renamedStore f (Plot.plot cutoff SQ SR hash sched single qrels runs).1,
        (Plot.plot cutoff SQ SR hash sched single qrels runs).2.1.map (renamedStore f),
        (Plot.plot cutoff SQ SR hash sched single qrels runs).2.2) := by
  obtain ⟨q0, hq0⟩ := restrict_store (Spec.DocOf qrels (runs.map Prod.snd)) qrels (fun p hp d hd => .inl ⟨p, hp, hd⟩)
  obtain ⟨rs0, hrs0⟩ := restrict_plotted (Spec.DocOf qrels (runs.map Prod.snd)) runs
    (fun r hr p hp d hd => .inr ⟨r.2, List.mem_map.2 ⟨r, hr, rfl⟩, p, hp, hd⟩)
  have inj0 : Function.Injective (hash ∘ (Subtype.val : {d // Spec.DocOf qrels (runs.map Prod.snd) d} → δ)) :=
    fun a b e => Subtype.ext (h _ _ a.2 b.2 e)
  have inj1 : Function.Injective ((hash' ∘ f) ∘ (Subtype.val : {d // Spec.DocOf qrels (runs.map Prod.snd) d} → δ)) :=
    fun a b e => Subtype.ext (hf (h' _ _ (docOf_renamed f a.2) (docOf_renamed f b.2) e))
  rw [plot_renamed cutoff SQ SR hash' hf]
  have e2 := plot_renamed cutoff SQ SR (hash' ∘ f) Subtype.val_injective sched single q0 rs0
  have e3 := plot_renamed cutoff SQ SR hash Subtype.val_injective sched single q0 rs0
  rw [hrs0, hq0] at e2 e3
  have key : Plot.plot cutoff SQ SR (hash' ∘ f) sched single qrels runs = Plot.plot cutoff SQ SR hash sched single qrels runs := by
    rw [e2, e3, plot_inj cutoff SQ SR inj1 inj0]
  rw [key]

end main

/-- non-vacuity: docs numbered from 100, hashed with the opposite sign; the example of C141 -/
example : Function.Injective (fun n : Nat => n + 100) ∧
    Spec.HashesApart (fun n : Nat => n) exQrelsObj [exRunObj.store] ∧
    Spec.HashesApart (fun n : Nat => -(n : Int)) (renamedStore (fun n : Nat => n + 100) exQrelsObj)
      ([exRunObj.store].map (renamedStore (fun n : Nat => n + 100))) ∧
    Spec.DocOf exQrelsObj [exRunObj.store] 11 ∧ Spec.DocOf exQrelsObj [exRunObj.store] 12 :=
  ⟨fun a b h => by simpa using h, fun _ _ _ _ h => h, fun _ _ _ _ h => by simpa using h,
    .inl ⟨(1, [(11, 2), (10, 1)]), by decide, by decide⟩, .inr ⟨_, List.mem_singleton.2 rfl, (1, [(12, 3), (11, 2)]), by decide, by decide⟩⟩

/-- the condition matters: with a hash that maps two docs to one, the score changes -/
theorem C155_clash :
    ∃ (q run : Rows Nat ℚ) (hash : Nat → Nat), hits (rename hash q) (rename hash run) 0 1 ≠ hits q run 0 1 :=
  ⟨[(1, 1)], [(2, 5)], fun _ => 0, by decide +kernel⟩

end Ranx
