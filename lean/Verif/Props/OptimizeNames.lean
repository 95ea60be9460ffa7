import Verif.Props.FuseRenaming
import Verif.Props.OptimizeTotal2

/-!
# C152: doc ids are only names, for `optimize_fusion`

Calling the docs by other names, in the judgements and in all runs, and hashing them in another way (without collisions)
does not change the parameters found, the report or the exception.
-/

set_option linter.unusedSectionVars false

namespace Ranx
open Dict Store Metrics Eval Fuse Train Opt
open _root_.Ranx.Norm (Results SetIter)
open Spec (renamed renamedDocs renamedStore renamedRun renamedQrelsArg renamedRunArg)

/-- the same evaluation with another hash function -/
def Opt.EvalEnv.rehash {δ δ' ι ι' : Type} (V : EvalEnv δ ι) (h : δ' → ι') : EvalEnv δ' ι' :=
  ⟨V.F, V.other, V.SQ, h, V.sched⟩

section
variable {κ δ δ' ι ι' : Type} [LinearOrder κ] [DecidableEq δ] [DecidableEq δ'] [LinearOrder ι] [LinearOrder ι']

theorem toTypedList_renamed {α β : Type} [LE β] [Neg β] [Field α] (S : ArgSort β) (hash : δ' → ι) (cast : β → α)
    {f : δ → δ'} (hf : Function.Injective f) (s : Store κ δ β) :
    (renamedStore f s).toTypedList S hash cast =
      (renamedStore f (s.toTypedList S (hash ∘ f) cast).1, (s.toTypedList S (hash ∘ f) cast).2) := by
  unfold Store.toTypedList
  simp only
  rw [ensureSorted_renamed S hf]
  exact Prod.ext rfl (rows_renamed hash cast f _)

theorem trainEach_renamed {γ : Type} (SQ : ArgSort Int) (SR : ArgSort ℝ) (hash : δ' → ι) {f : δ → δ'}
    (hf : Function.Injective f) (g : List (List ℝ) → Except Err γ) (runs : List (Store κ δ ℝ)) :
    ∀ (sched : Nat → List Nat) (s : Store κ δ Int),
    trainEach SQ SR hash sched g (renamedStore f s) (runs.map (renamedStore f)) =
      (renamedStore f (trainEach SQ SR (hash ∘ f) sched g s runs).1,
       (trainEach SQ SR (hash ∘ f) sched g s runs).2.1.map (renamedStore f),
       (trainEach SQ SR (hash ∘ f) sched g s runs).2.2) := by
  induction runs with
  | nil => intro sched s; rfl
  | cons r rs ih =>
    intro sched s
    rw [List.map_cons]
    unfold trainEach
    rw [toTypedList_renamed SQ hash _ hf, toTypedList_renamed SR hash _ hf]
    simp only
    cases bindArg (hitLists (sched 0) (s.toTypedList SQ (hash ∘ f) (fun z : Int => (z : ℝ))).2
      (r.toTypedList SR (hash ∘ f) id).2) g with
    | error e => rfl
    | ok t =>
      simp only
      rw [ih]
      rfl

theorem mapfuseTrain_renamed (F : Fn ℝ) (other : Py.Str → Except Err ℝ) (SQ : ArgSort Int) (SR : ArgSort ℝ)
    (hash : δ' → ι) {f : δ → δ'} (hf : Function.Injective f) (runs : List (RunObj κ δ ℝ)) :
    ∀ (sched : Nat → List Nat) (s : QrelsArg κ δ ℝ),
    mapfuseTrain F other SQ SR hash sched (renamedQrelsArg f s) (runs.map (renamedRun f)) =
      mapfuseTrain F other SQ SR (hash ∘ f) sched s runs := by
  induction runs with
  | nil => intro sched s; rfl
  | cons r rs ih =>
    intro sched s
    rw [List.map_cons]
    unfold mapfuseTrain
    have e := evaluate_renamed F other SQ SR hash hf (fun _ => sched 0) {} s (.obj r) ["map".toList]
    rw [show renamedRunArg f (.obj r) = .obj (renamedRun f r) from rfl] at e
    rw [e]
    generalize evaluate F other SQ SR (hash ∘ f) (fun _ => sched 0) {} s (.obj r) ["map".toList] = x
    obtain ⟨a, o⟩ := x
    cases o with
    | error e => rfl
    | ok v =>
      simp only
      rw [ih]

/-- loops whose turns correspond give the same outcome -/
theorem optLoop_corresponds {σ σ' τ ρ : Type} (g : σ → σ') (eval : σ → τ → σ × Except Err (ρ × Num ℝ))
    (eval' : σ' → τ → σ' × Except Err (ρ × Num ℝ)) (h : ∀ s t, eval' (g s) t = (g (eval s t).1, (eval s t).2))
    (label : τ → Py.Str) (ts : List τ) :
    ∀ (s : σ) (acc : Search ρ ℝ), optLoop eval' label (g s) acc ts =
      (g (optLoop eval label s acc ts).1, (optLoop eval label s acc ts).2) := by
  induction ts with
  | nil => intro s acc; rfl
  | cons t ts ih =>
    intro s acc
    unfold optLoop
    rw [h]
    generalize eval s t = x
    obtain ⟨s', o⟩ := x
    cases o with
    | error e => rfl
    | ok p => exact ih _ _

theorem evalRun_renamed (V : EvalEnv δ' ι) (S : ArgSort ℝ) (metric : Py.Str) {f : δ → δ'} (hf : Function.Injective f)
    (s : Store κ δ Int) (fused : Store κ δ ℝ) :
    evalRun V S metric (renamedStore f s) (renamedStore f fused) =
      (renamedStore f (evalRun (V.rehash (V.hash ∘ f)) S metric s fused).1,
        (evalRun (V.rehash (V.hash ∘ f)) S metric s fused).2) := by
  unfold evalRun
  have e := evaluate_renamed V.F V.other V.SQ S V.hash hf V.sched { save := false } (.obj s) (.obj ⟨fused, [], [], []⟩)
    [metric]
  rw [show renamedQrelsArg f (.obj s : QrelsArg κ δ ℝ) = .obj (renamedStore f s) from rfl,
    show renamedRunArg f (.obj (⟨fused, [], [], []⟩ : RunObj κ δ ℝ)) = .obj ⟨renamedStore f fused, [], [], []⟩ from rfl] at e
  rw [e]
  simp only [EvalEnv.rehash]
  generalize evaluate V.F V.other V.SQ S (V.hash ∘ f) V.sched { save := false } (.obj s) (.obj ⟨fused, [], [], []⟩)
    [metric] = x
  obtain ⟨⟨q, r⟩, o⟩ := x
  cases q <;> rfl

theorem plainTrial_renamed {f : δ → δ'} (hf : Function.Injective f) {E : Env δ} {E' : Env δ'}
    (hE : Spec.SameMachine f E E') (V : EvalEnv δ' ι) (metric : Py.Str) (m : Method)
    (runs : List (Dict κ (Results δ ℝ))) (s : Store κ δ Int) (c : Kwargs) :
    plainTrial E' V metric m (runs.map (renamedDocs f)) (renamedStore f s) c =
      (renamedStore f (plainTrial E (V.rehash (V.hash ∘ f)) metric m runs s c).1,
        (plainTrial E (V.rehash (V.hash ∘ f)) metric m runs s c).2) := by
  unfold plainTrial
  rw [call_renamed hf hE]
  cases m.call E c runs with
  | error e => rfl
  | ok fused =>
    simp only [Except.map, hE.S]
    rw [evalRun_renamed V E.S metric hf]

theorem probfuse_renamed {f : δ → δ'} (hf : Function.Injective f) (S : ArgSort ℝ) (sched : List Nat)
    (scheds : Nat → List Nat) (probs : List (List ℝ)) (runs : List (Dict κ (Results δ ℝ))) :
    Fuse.probfuse S sched scheds probs (runs.map (renamedDocs f)) =
      (Fuse.probfuse S sched scheds probs runs).map (renamedStore f) := by
  unfold probfuse
  rw [List.length_map]
  by_cases hs : ((probs.take runs.length).any (fun p => p.isEmpty)) = true
  · rw [if_pos hs, if_pos hs]; rfl
  · rw [if_neg hs, if_neg hs]
    exact rescoreThen_renamed hf (probScore_renamed hf) (sumScore_renamed hf) _ _ _ _ _

theorem slidefuse_renamed {f : δ → δ'} (hf : Function.Injective f) (S : ArgSort ℝ) (sched : List Nat)
    (scheds : Nat → List Nat) (probs : List (List ℝ)) (w : Nat) (runs : List (Dict κ (Results δ ℝ))) :
    Fuse.slidefuse S sched scheds probs w (runs.map (renamedDocs f)) =
      (Fuse.slidefuse S sched scheds probs w runs).map (renamedStore f) :=
  rescoreThen_renamed hf (fun p r => slideScore_renamed hf p w r) (sumScore_renamed hf) _ _ _ _ _

theorem map_data_renamed (f : δ → δ') (runs : List (Store κ δ ℝ)) :
    (runs.map (renamedStore f)).map (fun r => r.data) = (runs.map (fun r => r.data)).map (renamedDocs f) := by
  rw [List.map_map, List.map_map]
  rfl

theorem slidefuseTrial_renamed {f : δ → δ'} (hf : Function.Injective f) {E : Env δ} {E' : Env δ'}
    (hE : Spec.SameMachine f E E') (V : EvalEnv δ' ι) (metric : Py.Str) (probs : List (List ℝ))
    (runs : List (Store κ δ ℝ)) (s : Store κ δ Int) (w : Nat) :
    slidefuseTrial E' V metric probs (runs.map (renamedStore f)) (renamedStore f s) w =
      (renamedStore f (slidefuseTrial E (V.rehash (V.hash ∘ f)) metric probs runs s w).1,
        (slidefuseTrial E (V.rehash (V.hash ∘ f)) metric probs runs s w).2) := by
  unfold slidefuseTrial
  rw [map_data_renamed, slidefuse_renamed hf, hE.S, hE.sched, hE.scheds]
  cases Fuse.slidefuse E.S E.sched E.scheds probs w (runs.map (fun r => r.data)) with
  | error e => rfl
  | ok fused =>
    simp only [Except.map]
    rw [evalRun_renamed V E.S metric hf]

theorem probfuseTrain_renamed (SQ : ArgSort Int) (SR : ArgSort ℝ) (hash : δ' → ι) {f : δ → δ'}
    (hf : Function.Injective f) (runs : List (Store κ δ ℝ)) (sched : Nat → List Nat) (rowSched : List Nat) (n : Nat)
    (s : Store κ δ Int) :
    probfuseTrain SQ SR hash sched rowSched n (renamedStore f s) (runs.map (renamedStore f)) =
      (renamedStore f (probfuseTrain SQ SR (hash ∘ f) sched rowSched n s runs).1,
       (probfuseTrain SQ SR (hash ∘ f) sched rowSched n s runs).2.1.map (renamedStore f),
       (probfuseTrain SQ SR (hash ∘ f) sched rowSched n s runs).2.2) := by
  unfold probfuseTrain
  rw [trainEach_renamed SQ SR hash hf]

theorem probfuseTrial_renamed {f : δ → δ'} (hf : Function.Injective f) {E : Env δ} {E' : Env δ'}
    (hE : Spec.SameMachine f E E') (V : EvalEnv δ' ι) (rowSched : List Nat) (metric : Py.Str)
    (st : Store κ δ Int × List (Store κ δ ℝ)) (n : Nat) :
    probfuseTrial E' V rowSched metric (renamedStore f st.1, st.2.map (renamedStore f)) n =
      ((renamedStore f (probfuseTrial E (V.rehash (V.hash ∘ f)) rowSched metric st n).1.1,
        (probfuseTrial E (V.rehash (V.hash ∘ f)) rowSched metric st n).1.2.map (renamedStore f)),
        (probfuseTrial E (V.rehash (V.hash ∘ f)) rowSched metric st n).2) := by
  unfold probfuseTrial
  simp only
  rw [hE.S, probfuseTrain_renamed V.SQ E.S V.hash hf, hE.sched, hE.scheds]
  change _ = _
  simp only [EvalEnv.rehash]
  generalize probfuseTrain V.SQ E.S (V.hash ∘ f) V.sched rowSched n st.1 st.2 = x
  obtain ⟨q, rs, o⟩ := x
  cases o with
  | error e => rfl
  | ok probs =>
    simp only
    rw [map_data_renamed, probfuse_renamed hf]
    cases Fuse.probfuse E.S E.sched E.scheds probs (rs.map (fun r => r.data)) with
    | error e => rfl
    | ok fused =>
      simp only [Except.map]
      rw [evalRun_renamed V E.S metric hf]
      rfl

theorem normalizeStores_renamed {f : δ → δ'} (hf : Function.Injective f) {E : Env δ} {E' : Env δ'}
    (hE : Spec.SameMachine f E E') (norm : Option String) (runs : List (Store κ δ ℝ)) :
    normalizeStores E' norm (runs.map (renamedStore f)) =
      (normalizeStores E norm runs).map (List.map (renamedStore f)) := by
  unfold normalizeStores
  cases norm with
  | none => rfl
  | some n =>
    simp only
    by_cases h : n ≠ "borda"
    · rw [if_pos h, if_pos h]
      cases _root_.Ranx.Norm.normSwitch n with
      | error e => rfl
      | ok k =>
        simp only [Except.map, Except.ok.injEq]
        rw [List.zipIdx_map, List.map_map, List.map_map]
        refine List.map_congr_left (fun rj _ => ?_)
        simp only [Function.comp_apply, Prod.map_fst, Prod.map_snd]
        rw [normOne_renamed hf hE]
        rfl
    · rw [if_neg h, if_neg h, hE.normScheds, map_data_renamed, bordaRuns_renamed hf hE.sets]
      cases _root_.Ranx.Norm.bordaRuns E.I E.normScheds (runs.map (fun s => s.data)) with
      | error e => rfl
      | ok l =>
        simp only [Except.map, Except.ok.injEq, List.map_map]
        rfl

theorem runOptimizer_renamed {f : δ → δ'} (hf : Function.Injective f) {E : Env δ} {E' : Env δ'}
    (hE : Spec.SameMachine f E E') (V : EvalEnv δ' ι) (rowSched : List Nat) (rnd : ℚ → ℚ) (str : Kwargs → Py.Str)
    (strNat : Nat → Py.Str) (metric : Py.Str) (space : Space) (s : Store κ δ Int) (runs : List (Store κ δ ℝ))
    (o : Optimizer) :
    runOptimizer E' V rowSched rnd str strNat metric space (renamedStore f s) (runs.map (renamedStore f)) o =
      runOptimizer E (V.rehash (V.hash ∘ f)) rowSched rnd str strNat metric space s runs o := by
  cases o with
  | plain m =>
    unfold runOptimizer
    simp only
    rw [List.length_map, map_data_renamed]
    congr 1
    funext ts
    rw [optLoop_corresponds (renamedStore f) _ _ (fun s c => plainTrial_renamed hf hE V metric m _ s c)]
  | probfuse =>
    unfold runOptimizer
    simp only
    split
    · congr 1
      funext ns
      rw [optLoop_corresponds (fun st : Store κ δ Int × List (Store κ δ ℝ) =>
        (renamedStore f st.1, st.2.map (renamedStore f))) _ _
        (fun st n => probfuseTrial_renamed hf hE V rowSched metric st n) _ _ (s, runs)]
    · rfl
  | slidefuse =>
    unfold runOptimizer
    simp only
    split
    · congr 1
      funext ws
      unfold posfuseTrain
      rw [hE.S, trainEach_renamed V.SQ E.S V.hash hf]
      simp only [EvalEnv.rehash]
      congr 1
      funext probs
      rw [optLoop_corresponds (renamedStore f) _ _ (fun s w => slidefuseTrial_renamed hf hE V metric probs _ s w)]
      rfl
    · rfl
  | trainBayes =>
    unfold runOptimizer bayesfuseTrain
    simp only
    rw [hE.S, trainEach_renamed V.SQ E.S V.hash hf]
    rfl
  | trainMap =>
    unfold runOptimizer
    simp only
    rw [hE.S, show (runs.map (renamedStore f)).map (fun r => (⟨r, [], [], []⟩ : RunObj κ δ' ℝ)) =
      (runs.map (fun r => (⟨r, [], [], []⟩ : RunObj κ δ ℝ))).map (renamedRun f) by
        rw [List.map_map, List.map_map]; rfl]
    have e := mapfuseTrain_renamed V.F V.other V.SQ E.S V.hash hf
      (runs.map (fun r => (⟨r, [], [], []⟩ : RunObj κ δ ℝ))) V.sched (.obj s)
    rw [show renamedQrelsArg f (.obj s : QrelsArg κ δ ℝ) = .obj (renamedStore f s) from rfl] at e
    rw [e]
    rfl
  | trainPos =>
    unfold runOptimizer posfuseTrain
    simp only
    rw [hE.S, trainEach_renamed V.SQ E.S V.hash hf]
    rfl
  | trainSeg =>
    unfold runOptimizer segfuseTrain
    simp only
    rw [hE.S, trainEach_renamed V.SQ E.S V.hash hf]
    rfl

theorem optimizeFusion_renamed {f : δ → δ'} (hf : Function.Injective f) {E : Env δ} {E' : Env δ'}
    (hE : Spec.SameMachine f E E') (V : EvalEnv δ' ι) (rowSched : List Nat) (rnd : ℚ → ℚ) (str : Kwargs → Py.Str)
    (strNat : Nat → Py.Str) (qrels : Store κ δ Int) (runs : List (Store κ δ ℝ)) (norm : Option String) (method : String)
    (metric : Py.Str) (wantReport : Bool) (space : Space) :
    optimizeFusion E' V rowSched rnd str strNat (renamedStore f qrels) (runs.map (renamedStore f)) norm method metric
        wantReport space =
      optimizeFusion E (V.rehash (V.hash ∘ f)) rowSched rnd str strNat qrels runs norm method metric wantReport space := by
  unfold optimizeFusion
  rw [List.length_map, pairwise_renamed, normalizeStores_renamed hf hE]
  have hall : (runs.map (renamedStore f)).all (fun r => Eval.sameKeys r.data.keys (renamedStore f qrels).data.keys) =
      runs.all (fun r => Eval.sameKeys r.data.keys qrels.data.keys) := by
    rw [List.all_map]
    congr 1
    funext r
    change Eval.sameKeys (renamedDocs f r.data).keys (renamedDocs f qrels.data).keys = _
    rw [renamedDocs_keys, renamedDocs_keys]
  rw [hall]
  congr 2
  congr 1
  cases normalizeStores E norm runs with
  | error e => rfl
  | ok nr =>
    simp only [Except.map, bindArg]
    cases (if wantReport = true then hasHyperparams method else Except.ok ()) with
    | error e => rfl
    | ok _ =>
      simp only
      cases optimizationSwitch method with
      | error e => rfl
      | ok o => exact runOptimizer_renamed hf hE V rowSched rnd str strNat metric space qrels nr o

end

/-! ### hash functions without any collision -/

section
variable {κ δ ι ι' : Type} [LinearOrder κ] [DecidableEq δ] [LinearOrder ι] [LinearOrder ι']

theorem evaluate_injective (F : Fn ℝ) (other : Py.Str → Except Err ℝ) (SQ : ArgSort Int) (SR : ArgSort ℝ)
    {hash : δ → ι} {hash' : δ → ι'} (h : Function.Injective hash) (h' : Function.Injective hash')
    (sched : Nat → List Nat) (o : Opts) (s : Store κ δ Int) (r : RunObj κ δ ℝ) (ms : List Py.Str) :
    evaluate F other SQ SR hash sched o (.obj s) (.obj r) ms = evaluate F other SQ SR hash' sched o (.obj s) (.obj r) ms := by
  unfold evaluate
  simp only
  split
  · rfl
  · have hp : ∃ r', prepare SR o (.obj s) (.obj r) = RunArg.obj r' := by
      unfold prepare
      by_cases ho : o.makeComparable = true
      · rw [if_pos ho]; exact ⟨_, rfl⟩
      · rw [if_neg ho]; exact ⟨_, rfl⟩
    obtain ⟨r', hr'⟩ := hp
    rw [hr']
    simp only [convertQrels, convertRun, Store.toTypedList]
    rw [rows_rename hash, rows_rename hash', rows_rename hash, rows_rename hash',
      scoreAll_hash hash hash' Set.univ h.injOn h'.injOn F other sched _ _ (fun _ _ _ _ => trivial) (fun _ _ _ _ => trivial)]

theorem hitLists_injective {γ : Type} [LinearOrder γ] {hash : γ → ι} (h : Function.Injective hash) (sched : List Nat)
    (Q R : List (Rows γ ℝ)) :
    hitLists sched (Q.map (rename hash)) (R.map (rename hash)) = hitLists sched Q R := by
  unfold hitLists
  rw [List.length_map, List.length_map]
  congr 2
  congr 1
  funext i
  rw [List.getElem?_map, List.getElem?_map]
  have a : ∀ (L : List (Rows γ ℝ)), ((L[i]?).map (rename hash)).getD [] = rename hash ((L[i]?).getD []) := by
    intro L; cases L[i]? <;> rfl
  rw [a, a]
  exact (C25_relabel _ _ hash h.injOn 0 0 1 id (fun _ => 0) (fun _ _ => 0)).2.2.2.2.2.2.2.2.2.2.2.2.2.1

theorem hitLists_rows {hash : δ → ι} {hash' : δ → ι'} (h : Function.Injective hash) (h' : Function.Injective hash')
    (sched : List Nat) (s : Dict κ (Dict δ Int)) (r : Dict κ (Dict δ ℝ)) :
    hitLists sched (Store.rows hash (fun z : Int => (z : ℝ)) s) (Store.rows hash id r) =
      hitLists sched (Store.rows hash' (fun z : Int => (z : ℝ)) s) (Store.rows hash' id r) := by
  letI : LinearOrder δ := WellOrderingRel.isWellOrder.linearOrder
  rw [rows_rename hash, rows_rename hash', rows_rename hash, rows_rename hash', hitLists_injective h, hitLists_injective h']

theorem trainEach_injective {γ : Type} (SQ : ArgSort Int) (SR : ArgSort ℝ) {hash : δ → ι} {hash' : δ → ι'}
    (h : Function.Injective hash) (h' : Function.Injective hash') (g : List (List ℝ) → Except Err γ)
    (runs : List (Store κ δ ℝ)) :
    ∀ (sched : Nat → List Nat) (s : Store κ δ Int),
    trainEach SQ SR hash sched g s runs = trainEach SQ SR hash' sched g s runs := by
  induction runs with
  | nil => intro sched s; rfl
  | cons r rs ih =>
    intro sched s
    unfold trainEach
    simp only [Store.toTypedList]
    rw [hitLists_rows h h']
    simp only [ih]

theorem evalRun_injective (V : EvalEnv δ ι) {hash' : δ → ι'} (h : Function.Injective V.hash)
    (h' : Function.Injective hash') (S : ArgSort ℝ) (metric : Py.Str) (s : Store κ δ Int) (fused : Store κ δ ℝ) :
    evalRun V S metric s fused = evalRun (V.rehash hash') S metric s fused := by
  unfold evalRun
  rw [evaluate_injective V.F V.other V.SQ S h h']
  rfl

theorem mapfuseTrain_injective (F : Fn ℝ) (other : Py.Str → Except Err ℝ) (SQ : ArgSort Int) (SR : ArgSort ℝ)
    {hash : δ → ι} {hash' : δ → ι'} (h : Function.Injective hash) (h' : Function.Injective hash')
    (runs : List (RunObj κ δ ℝ)) :
    ∀ (sched : Nat → List Nat) (s : QrelsArg κ δ ℝ), (∃ q, s = .obj q) →
    mapfuseTrain F other SQ SR hash sched s runs = mapfuseTrain F other SQ SR hash' sched s runs := by
  induction runs with
  | nil => intro sched s _; rfl
  | cons r rs ih =>
    rintro sched s ⟨q, rfl⟩
    unfold mapfuseTrain
    rw [evaluate_injective F other SQ SR h h']
    have hq : ∃ q', (evaluate F other SQ SR hash' (fun _ => sched 0) {} (.obj q) (.obj r) ["map".toList]).1.qrels = .obj q' := by
      unfold evaluate
      simp only [prepare, convertQrels, convertRun]
      repeat' first | exact ⟨_, rfl⟩ | split
    generalize evaluate F other SQ SR hash' (fun _ => sched 0) {} (.obj q) (.obj r) ["map".toList] = x at hq
    obtain ⟨a, o⟩ := x
    cases o with
    | error e => rfl
    | ok v =>
      simp only
      rw [ih _ _ hq]

theorem runOptimizer_injective (E : Env δ) (V : EvalEnv δ ι) {hash' : δ → ι'} (h : Function.Injective V.hash)
    (h' : Function.Injective hash') (rowSched : List Nat) (rnd : ℚ → ℚ) (str : Kwargs → Py.Str)
    (strNat : Nat → Py.Str) (metric : Py.Str) (space : Space) (s : Store κ δ Int) (runs : List (Store κ δ ℝ))
    (o : Optimizer) :
    runOptimizer E V rowSched rnd str strNat metric space s runs o =
      runOptimizer E (V.rehash hash') rowSched rnd str strNat metric space s runs o := by
  have e1 : ∀ m rs, plainTrial E V metric m rs = plainTrial (κ := κ) E (V.rehash hash') metric m rs := by
    intro m rs
    funext s c
    unfold plainTrial
    simp only [evalRun_injective V h h']
  have e2 : probfuseTrial (κ := κ) E V rowSched metric = probfuseTrial E (V.rehash hash') rowSched metric := by
    funext st n
    unfold probfuseTrial probfuseTrain
    simp only [evalRun_injective V h h', trainEach_injective V.SQ E.S h h']
    rfl
  have e3 : ∀ probs rs, slidefuseTrial (κ := κ) E V metric probs rs = slidefuseTrial E (V.rehash hash') metric probs rs := by
    intro probs rs
    funext s w
    unfold slidefuseTrial
    simp only [evalRun_injective V h h']
  cases o with
  | plain m => unfold runOptimizer; simp only [e1]
  | probfuse => unfold runOptimizer; simp only [e2]
  | slidefuse =>
    unfold runOptimizer posfuseTrain
    simp only [e3, trainEach_injective V.SQ E.S h h']
    rfl
  | trainBayes =>
    unfold runOptimizer bayesfuseTrain
    simp only
    rw [trainEach_injective V.SQ E.S h h']
    rfl
  | trainMap =>
    unfold runOptimizer
    simp only
    rw [mapfuseTrain_injective V.F V.other V.SQ E.S h h' _ _ _ ⟨_, rfl⟩]
    rfl
  | trainPos =>
    unfold runOptimizer posfuseTrain
    simp only
    rw [trainEach_injective V.SQ E.S h h']
    rfl
  | trainSeg =>
    unfold runOptimizer segfuseTrain
    simp only
    rw [trainEach_injective V.SQ E.S h h']
    rfl

theorem optimizeFusion_injective (E : Env δ) (V : EvalEnv δ ι) {hash' : δ → ι'} (h : Function.Injective V.hash)
    (h' : Function.Injective hash') (rowSched : List Nat) (rnd : ℚ → ℚ) (str : Kwargs → Py.Str)
    (strNat : Nat → Py.Str) (qrels : Store κ δ Int) (runs : List (Store κ δ ℝ)) (norm : Option String) (method : String)
    (metric : Py.Str) (wantReport : Bool) (space : Space) :
    optimizeFusion E V rowSched rnd str strNat qrels runs norm method metric wantReport space =
      optimizeFusion E (V.rehash hash') rowSched rnd str strNat qrels runs norm method metric wantReport space := by
  unfold optimizeFusion
  simp only [runOptimizer_injective E V h h']

end

/-! ### hash functions without a collision among the docs at hand -/

section
variable {κ δ δ' ι ι' : Type} [LinearOrder κ] [DecidableEq δ] [DecidableEq δ'] [LinearOrder ι] [LinearOrder ι']

/-- Specification: the docs of the judgements and of the runs -/
def Spec.KnownDoc (qrels : Store κ δ Int) (runs : List (Store κ δ ℝ)) (d : δ) : Prop :=
  (∃ p ∈ qrels.data, d ∈ p.2.keys) ∨ ∃ r ∈ runs, ∃ p ∈ r.data, d ∈ p.2.keys

/-- Specification: no two different docs of the judgements and of the runs have the same hash -/
def Spec.NoHashClash (hash : δ → ι) (qrels : Store κ δ Int) (runs : List (Store κ δ ℝ)) : Prop :=
  ∀ d d', Spec.KnownDoc qrels runs d → Spec.KnownDoc qrels runs d' → hash d = hash d' → d = d'

/-- an object whose docs are all in a set, as an object over that set -/
theorem restrict_store {β : Type} (D : δ → Prop) (s : Store κ δ β) (h : ∀ p ∈ s.data, ∀ d ∈ p.2.keys, D d) :
    ∃ t : Store κ {d // D d} β, renamedStore Subtype.val t = s := by
  have inner : ∀ (l : Dict δ β), (∀ d ∈ l.keys, D d) → ∃ t : Dict {d // D d} β, renamed Subtype.val t = l := by
    intro l
    induction l with
    | nil => intro _; exact ⟨[], rfl⟩
    | cons p t ih =>
      intro hl
      obtain ⟨t', rfl⟩ := ih (fun d hd => hl d (List.mem_cons_of_mem _ hd))
      exact ⟨(⟨p.1, hl p.1 List.mem_cons_self⟩, p.2) :: t', rfl⟩
  have outer : ∀ (l : Dict κ (Dict δ β)), (∀ p ∈ l, ∀ d ∈ p.2.keys, D d) →
      ∃ t : Dict κ (Dict {d // D d} β), renamedDocs Subtype.val t = l := by
    intro l
    induction l with
    | nil => intro _; exact ⟨[], rfl⟩
    | cons p t ih =>
      intro hl
      obtain ⟨t', rfl⟩ := ih (fun q hq => hl q (List.mem_cons_of_mem _ hq))
      obtain ⟨u, hu⟩ := inner p.2 (hl p List.mem_cons_self)
      refine ⟨(p.1, u) :: t', ?_⟩
      change (p.1, renamed Subtype.val u) :: _ = _
      rw [hu]
      rfl
  obtain ⟨t, ht⟩ := outer s.data h
  exact ⟨⟨t, s.sorted⟩, by unfold renamedStore; simp only [ht]⟩

theorem restrict_runs {β : Type} (D : δ → Prop) (runs : List (Store κ δ β))
    (h : ∀ s ∈ runs, ∀ p ∈ s.data, ∀ d ∈ p.2.keys, D d) :
    ∃ ts : List (Store κ {d // D d} β), ts.map (renamedStore Subtype.val) = runs := by
  induction runs with
  | nil => exact ⟨[], rfl⟩
  | cons s t ih =>
    obtain ⟨ts, hts⟩ := ih (fun r hr => h r (List.mem_cons_of_mem _ hr))
    obtain ⟨u, hu⟩ := restrict_store D s (h s List.mem_cons_self)
    exact ⟨u :: ts, by rw [List.map_cons, hu, hts]⟩

/-- the same machine, seen from a set of docs -/
def restrictIter (D : δ → Prop) (I : SetIter δ) : SetIter {d // D d} where
  run l := (I.run (l.map Subtype.val)).attachWith D (fun x hx => by
    obtain ⟨y, -, rfl⟩ := List.mem_map.1 ((I.mem _ _).1 hx)
    exact y.2)
  nodup l := by
    apply List.Nodup.of_map Subtype.val
    rw [List.attachWith_map_subtype_val]
    exact I.nodup _
  mem l x := by
    rw [List.mem_attachWith, I.mem]
    exact List.mem_map_of_injective Subtype.val_injective

theorem restrict_machine (D : δ → Prop) (E : Env δ) :
    Spec.SameMachine Subtype.val (⟨E.S, E.sched, E.scheds, E.normScheds, restrictIter D E.I, E.C, E.oob⟩ : Env {d // D d}) E :=
  ⟨rfl, rfl, rfl, rfl, rfl, rfl, fun l => (List.attachWith_map_subtype_val ..).symm⟩

theorem sameMachine_comp {δ'' : Type} [DecidableEq δ''] {f : δ → δ'} {g : δ' → δ''} {E : Env δ} {E' : Env δ'} {E'' : Env δ''}
    (h : Spec.SameMachine f E E') (h' : Spec.SameMachine g E' E'') : Spec.SameMachine (g ∘ f) E E'' :=
  ⟨h'.S.trans h.S, h'.sched.trans h.sched, h'.scheds.trans h.scheds, h'.normScheds.trans h.normScheds, h'.C.trans h.C,
    h'.oob.trans h.oob, fun l => by rw [← List.map_map, h'.sets, h.sets, List.map_map]⟩

theorem renamedStore_comp {δ'' β : Type} (f : δ → δ') (g : δ' → δ'') (s : Store κ δ β) :
    renamedStore g (renamedStore f s) = renamedStore (g ∘ f) s := by
  unfold renamedStore renamedDocs renamed
  simp only [List.map_map, Function.comp_def]

theorem knownDoc_renamed (f : δ → δ') {qrels : Store κ δ Int} {runs : List (Store κ δ ℝ)} {d : δ}
    (h : Spec.KnownDoc qrels runs d) :
    Spec.KnownDoc (renamedStore f qrels) (runs.map (renamedStore f)) (f d) := by
  rcases h with h | ⟨r, hr, h⟩
  · exact .inl (renamedDocs_mem h)
  · exact .inr ⟨_, List.mem_map_of_mem hr, renamedDocs_mem h⟩

/-- **C152**: if every doc `d` is called `f d` instead, in the judgements and in the runs, with `f` injective, then
`optimize_fusion` finds the same parameters with the same report, or raises the same exception, for every normalization,
method, metric and search space; the two machines agree (they list a set of docs in the same order whatever the docs are
called) but hash the docs in any way without collisions among the docs at hand. -/
theorem C152_doc_names {f : δ → δ'} (hf : Function.Injective f) (E : Env δ) (E' : Env δ') (hE : Spec.SameMachine f E E')
    (V : EvalEnv δ ι) (hash' : δ' → ι') (rowSched : List Nat) (rnd : ℚ → ℚ) (str : Kwargs → Py.Str)
    (strNat : Nat → Py.Str) (qrels : Store κ δ Int) (runs : List (Store κ δ ℝ))
    (h : Spec.NoHashClash V.hash qrels runs)
    (h' : Spec.NoHashClash hash' (renamedStore f qrels) (runs.map (renamedStore f)))
    (norm : Option String) (method : String) (metric : Py.Str) (wantReport : Bool) (space : Space) :
    optimizeFusion E' ⟨V.F, V.other, V.SQ, hash', V.sched⟩ rowSched rnd str strNat (renamedStore f qrels)
        (runs.map (renamedStore f)) norm method metric wantReport space =
      optimizeFusion E V rowSched rnd str strNat qrels runs norm method metric wantReport space := by
  obtain ⟨q0, hq0⟩ := restrict_store (Spec.KnownDoc qrels runs) qrels (fun p hp d hd => .inl ⟨p, hp, hd⟩)
  obtain ⟨rs0, hrs0⟩ := restrict_runs (Spec.KnownDoc qrels runs) runs (fun s hs p hp d hd => .inr ⟨s, hs, p, hp, hd⟩)
  have inj0 : Function.Injective (V.hash ∘ (Subtype.val : {d // Spec.KnownDoc qrels runs d} → δ)) :=
    fun a b e => Subtype.ext (h _ _ a.2 b.2 e)
  have inj1 : Function.Injective (hash' ∘ (f ∘ (Subtype.val : {d // Spec.KnownDoc qrels runs d} → δ))) :=
    fun a b e => Subtype.ext (hf (h' _ _ (knownDoc_renamed f a.2) (knownDoc_renamed f b.2) e))
  have hm := restrict_machine (Spec.KnownDoc qrels runs) E
  have e1 := optimizeFusion_renamed Subtype.val_injective hm V rowSched rnd str strNat q0 rs0 norm method metric
    wantReport space
  have e2 := optimizeFusion_renamed (hf.comp Subtype.val_injective) (sameMachine_comp hm hE)
    ⟨V.F, V.other, V.SQ, hash', V.sched⟩ rowSched rnd str strNat q0 rs0 norm method metric wantReport space
  rw [hq0, hrs0] at e1
  rw [← renamedStore_comp, hq0] at e2
  have e3 : rs0.map (renamedStore (f ∘ Subtype.val)) = runs.map (renamedStore f) := by
    have : (rs0.map (renamedStore Subtype.val)).map (renamedStore f) = rs0.map (renamedStore (f ∘ Subtype.val)) := by
      rw [List.map_map]
      exact List.map_congr_left (fun s _ => renamedStore_comp Subtype.val f s)
    rw [← this, hrs0]
  rw [e3] at e2
  rw [e1, e2]
  exact optimizeFusion_injective _ _ inj1 inj0 rowSched rnd str strNat q0 rs0 norm method metric wantReport space

/-- **C152** (hash seed): two hash functions without collisions among the docs of the judgements and the runs give the same
search. (How a machine lists sets is `E.I`, which is kept: see C111.) -/
theorem C152_hash_seed (E : Env δ) (V : EvalEnv δ ι) (hash' : δ → ι') (rowSched : List Nat) (rnd : ℚ → ℚ)
    (str : Kwargs → Py.Str) (strNat : Nat → Py.Str) (qrels : Store κ δ Int) (runs : List (Store κ δ ℝ))
    (h : Spec.NoHashClash V.hash qrels runs) (h' : Spec.NoHashClash hash' qrels runs)
    (norm : Option String) (method : String) (metric : Py.Str) (wantReport : Bool) (space : Space) :
    optimizeFusion E ⟨V.F, V.other, V.SQ, hash', V.sched⟩ rowSched rnd str strNat qrels runs norm method metric
        wantReport space =
      optimizeFusion E V rowSched rnd str strNat qrels runs norm method metric wantReport space := by
  have hid : ∀ {β : Type} (s : Store κ δ β), renamedStore id s = s := by
    intro β s
    unfold renamedStore renamedDocs renamed
    simp
  have hids : runs.map (renamedStore id) = runs := by
    rw [List.map_congr_left (g := id) (fun s _ => hid s), List.map_id]
  have := C152_doc_names (f := id) Function.injective_id E E ⟨rfl, rfl, rfl, rfl, rfl, rfl, fun l => by simp⟩ V hash'
    rowSched rnd str strNat qrels runs h (by rw [hid, hids]; exact h') norm method metric wantReport space
  rw [hid, hids] at this
  exact this

/-- **C152** (another process): with another hash seed both the hashes and the order in which sets are listed change. For
the methods that build no set, and normalizations other than borda, the search is the same. -/
theorem C152_process (E : Env δ) (E' : Env δ) (hE : Spec.Reseeded E E') (V : EvalEnv δ ι) (hash' : δ → ι')
    (rowSched : List Nat) (rnd : ℚ → ℚ)
    (str : Kwargs → Py.Str) (strNat : Nat → Py.Str) (qrels : Store κ δ Int) (runs : List (Store κ δ ℝ))
    (h : Spec.NoHashClash V.hash qrels runs) (h' : Spec.NoHashClash hash' qrels runs)
    (norm : Option String) (hb : norm ≠ some "borda") (method : String) (hm : method ∉ Spec.setMethods)
    (metric : Py.Str) (wantReport : Bool) (space : Space) :
    optimizeFusion E' ⟨V.F, V.other, V.SQ, hash', V.sched⟩ rowSched rnd str strNat qrels runs norm method metric
        wantReport space =
      optimizeFusion E V rowSched rnd str strNat qrels runs norm method metric wantReport space := by
  rw [C152_hash_seed E' V hash' rowSched rnd str strNat qrels runs h h' norm method metric wantReport space]
  obtain ⟨I, rfl⟩ := hE
  unfold optimizeFusion
  have hn : normalizeStores { E with I := I } norm runs = normalizeStores E norm runs := by
    unfold normalizeStores
    cases norm with
    | none => rfl
    | some n =>
      have : n ≠ "borda" := fun h => hb (by rw [h])
      simp only
      rw [if_pos this, if_pos this]
      rfl
  rw [hn]
  have hrun : ∀ o, optimizationSwitch method = .ok o → ∀ nr,
      runOptimizer { E with I := I } V rowSched rnd str strNat metric space qrels nr o =
        runOptimizer E V rowSched rnd str strNat metric space qrels nr o := by
    intro o ho nr
    cases o with
    | plain m =>
      have hno : ∀ n ∈ ["logn_isr", "gmnz", "mixed", "probfuse", "rbc", "rrf", "slidefuse", "w_bordafuse", "w_condorcet",
          "wmnz", "wsum", "bayesfuse", "mapfuse", "posfuse", "segfuse"], n ∉ Spec.setMethods →
          optimizationSwitch n ≠ .ok (.plain .weightedBordafuse) ∧ optimizationSwitch n ≠ .ok (.plain .weightedCondorcet) ∧
          optimizationSwitch n ≠ .ok (.plain .bordafuse) ∧ optimizationSwitch n ≠ .ok (.plain .condorcet) := by
        decide +kernel
      have hin : method ∈ ["logn_isr", "gmnz", "mixed", "probfuse", "rbc", "rrf", "slidefuse", "w_bordafuse", "w_condorcet",
          "wmnz", "wsum", "bayesfuse", "mapfuse", "posfuse", "segfuse"] := by
        by_contra hc
        simp only [List.mem_cons, List.not_mem_nil, or_false, not_or] at hc
        obtain ⟨h1, h2, h3, h4, h5, h6, h7, h8, h9, h10, h11, h12, h13, h14, h15⟩ := hc
        unfold optimizationSwitch at ho
        rw [if_neg h1, if_neg h2, if_neg h3, if_neg h4, if_neg h5, if_neg h6, if_neg h7, if_neg h8, if_neg h9, if_neg h10,
          if_neg h11, if_neg h12, if_neg h13, if_neg h14, if_neg h15] at ho
        cases ho
      obtain ⟨h1, h2, h3, h4⟩ := hno method hin hm
      rw [ho] at h1 h2 h3 h4
      have hcall : ∀ c (rs : List (Dict κ (Results δ ℝ))), m.call { E with I := I } c rs = m.call E c rs := by
        intro c rs
        unfold Method.call
        cases m <;> first | rfl | exact absurd rfl h1 | exact absurd rfl h2 | exact absurd rfl h3 | exact absurd rfl h4
      have e1 : ∀ rs, plainTrial { E with I := I } V metric m rs = plainTrial (κ := κ) E V metric m rs := by
        intro rs
        funext s c
        unfold plainTrial
        rw [hcall]
      unfold runOptimizer
      simp only [e1]
    | _ => rfl
  congr 2
  congr 1
  cases normalizeStores E norm runs with
  | error e => rfl
  | ok nr =>
    simp only [bindArg]
    cases (if wantReport = true then hasHyperparams method else Except.ok ()) with
    | error e => rfl
    | ok _ =>
      simp only
      cases ho : optimizationSwitch method with
      | error e => rfl
      | ok o => exact hrun o ho nr

end

/-! ### examples -/

/-- the docs of the example search called by negative integers, hashed in another way: the default weight search still
succeeds -/
example : ∃ res p, optimizeFusion (renamedEnv exNegName exNegName_injective oneEnv)
    ⟨oneEvalEnv.F, oneEvalEnv.other, oneEvalEnv.SQ, fun z : Int => 5 - z, oneEvalEnv.sched⟩ [0, 1] F64.fl rrfLabel Py.natStr
    (renamedStore exNegName oneQrels) ([lowFirst, lowFirst].map (renamedStore exNegName))
    (some "min-max") "wsum" "map".toList false (.weights (F64.fl (1 / 10)) "0.1".toList) = .ok res ∧ res.params = some p := by
  obtain ⟨h, -⟩ := C101_defaults oneEnv oneEvalEnv [0, 1] rrfLabel Py.natStr oneQrels [lowFirst, lowFirst]
    "map".toList low_valid (C101_metrics oneEvalEnv "map" _ (.inl rfl) (.inl (by decide +kernel))) (by decide)
    (some "min-max") (.inr ⟨"min-max", by decide +kernel, rfl⟩) false
  obtain ⟨res, p, e, hp⟩ := h "wsum" (.weights (F64.fl (1 / 10)) "0.1".toList) (by simp [Spec.defaultSpaces])
  refine ⟨res, p, ?_, hp⟩
  rw [← e]
  refine C152_doc_names exNegName_injective oneEnv _ (sameMachine_renamedEnv _ _ _) oneEvalEnv _ _ _ _ _ _ _ ?_ ?_ _ _ _ _ _
  · intro d d' _ _ e
    exact e
  · intro d d' _ _ e
    simp only at e
    omega

/-- non-vacuity of `C152_hash_seed` and `C152_process`: the search above satisfies the hypotheses for two hash functions and
two orders of listing sets -/
example : Spec.NoHashClash oneEvalEnv.hash oneQrels [lowFirst, lowFirst] ∧
    Spec.NoHashClash (fun n : Nat => -(n : Int)) oneQrels [lowFirst, lowFirst] ∧
    (∃ d, Spec.KnownDoc oneQrels [lowFirst, lowFirst] d) ∧ Spec.Reseeded oneEnv { oneEnv with I := dedupIter } ∧
    "wsum" ∉ Spec.setMethods := by
  refine ⟨fun d d' _ _ e => e, fun d d' _ _ e => by simp only at e; omega, ⟨10, .inr ⟨lowFirst, by simp, ?_⟩⟩, ⟨_, rfl⟩, by decide⟩
  exact ⟨_, List.mem_cons_self, List.mem_cons_self⟩

end Ranx
