import Verif.Props.Renaming
import Verif.Props.FuseHash

/-!
# C145: doc ids are only names, for normalization and fusion

Renaming the docs of all runs by one injective function renames the docs of the fused run and changes nothing else.
-/

set_option linter.unusedSectionVars false

namespace Ranx
open Dict Store Fuse
open _root_.Ranx.Norm (Results toRun normParallel SetIter getCandidates normLoop Kind normSwitch)
open Spec (renamed renamedDocs renamedStore)
variable {κ δ δ' α β : Type*}

section
variable [DecidableEq δ] [DecidableEq δ']

theorem renamed_ofList {f : δ → δ'} (hf : Function.Injective f) (l : List (δ × β)) :
    renamed f (Dict.ofList l) = Dict.ofList (l.map (fun p => (f p.1, p.2))) := by
  unfold Dict.ofList
  rw [List.foldl_map, show ([] : Dict δ' β) = renamed f [] from rfl]
  generalize ([] : Dict δ β) = acc
  induction l generalizing acc with
  | nil => rfl
  | cons p t ih =>
    rw [List.foldl_cons, List.foldl_cons, ih, renamed_set hf]

theorem renamed_get? {f : δ → δ'} (hf : Function.Injective f) (r : Dict δ β) (d : δ) :
    (renamed f r).get? (f d) = r.get? d := by
  induction r with
  | nil => rfl
  | cons p t ih =>
    obtain ⟨k, v⟩ := p
    change Dict.get? ((f k, v) :: renamed f t) (f d) = _
    rw [get?_cons, get?_cons, ih]
    by_cases h : k = d
    · rw [if_pos h, if_pos (by rw [h])]
    · rw [if_neg h, if_neg (fun e => h (hf e))]

theorem renamed_keys (f : δ → δ') (r : Dict δ β) : (renamed f r).keys = r.keys.map f := by
  unfold renamed Dict.keys; rw [List.map_map, List.map_map]; rfl

theorem renamed_length (f : δ → δ') (r : Dict δ β) : (renamed f r).length = r.length := by
  unfold renamed; exact List.length_map _

theorem renamed_contains {f : δ → δ'} (hf : Function.Injective f) (r : Dict δ β) (d : δ) :
    (renamed f r).contains (f d) = r.contains d := by
  rw [Bool.eq_iff_iff, contains_iff, contains_iff, renamed_keys, List.mem_map_of_injective hf]

theorem flatMap_keys_renamed (f : δ → δ') (rs : List (Dict δ β)) :
    (rs.map (renamed f)).flatMap Dict.keys = (rs.flatMap Dict.keys).map f := by
  rw [List.flatMap_map, List.map_flatMap]
  congr 1
  funext r
  exact renamed_keys f r

theorem prange_map {X Y : Type*} (h : X → Y) (out : List X) (g : Nat → X) (sched : List Nat) :
    prange (out.map h) (fun i => h (g i)) sched = (prange out g sched).map h := by
  unfold prange
  induction sched generalizing out with
  | nil => rfl
  | cons i t ih => rw [List.foldl_cons, List.foldl_cons, ← ih, List.map_set]

theorem collect_map_except {X Y : Type*} (h : X → Y) (l : List (Except Err X)) :
    Eval.collect (l.map (Except.map h)) = (Eval.collect l).map (List.map h) := by
  induction l with
  | nil => rfl
  | cons x t ih =>
    cases x with
    | error e => rfl
    | ok v =>
      change (match Eval.collect (t.map (Except.map h)) with
        | .ok vs => Except.ok (h v :: vs)
        | .error e => .error e) = _
      rw [ih]
      change _ = Except.map _ (match Eval.collect t with
        | .ok vs => Except.ok (v :: vs)
        | .error e => .error e)
      cases Eval.collect t <;> rfl

/-! ### normalization -/

section
variable [LinearOrder α] [Field α]

theorem normLoop_renamed {f : δ → δ'} (hf : Function.Injective f) (r : Results δ α) (g : α → α) :
    normLoop (renamed f r) g = renamed f (normLoop r g) := by
  unfold normLoop
  rw [renamed_ofList hf, renamed_keys, List.map_map, List.map_map]
  congr 1
  refine List.map_congr_left (fun d _ => ?_)
  simp only [Function.comp_apply, renamed_get? hf]

theorem extractScores_renamed (f : δ → δ') (r : Results δ α) :
    Norm.extractScores (renamed f r) = Norm.extractScores r := renamed_values f r

theorem minMax_renamed {f : δ → δ'} (hf : Function.Injective f) (b : Bool) (r : Results δ α) :
    Norm.minMax b (renamed f r) = renamed f (Norm.minMax b r) := by
  unfold Norm.minMax
  simp only [extractScores_renamed]
  exact normLoop_renamed hf r _

theorem maxNorm_renamed {f : δ → δ'} (hf : Function.Injective f) (r : Results δ α) :
    Norm.maxNorm (renamed f r) = renamed f (Norm.maxNorm r) := by
  unfold Norm.maxNorm
  simp only [extractScores_renamed]
  exact normLoop_renamed hf r _

theorem sumNorm_renamed {f : δ → δ'} (hf : Function.Injective f) (r : Results δ α) :
    Norm.sumNorm (renamed f r) = renamed f (Norm.sumNorm r) := by
  unfold Norm.sumNorm
  simp only [extractScores_renamed, renamed_length]
  exact normLoop_renamed hf r _

theorem rankNorm_renamed {f : δ → δ'} (hf : Function.Injective f) (r : Results δ α) :
    Norm.rankNorm (renamed f r) = renamed f (Norm.rankNorm r) := by
  unfold Norm.rankNorm
  rw [renamed_ofList hf, renamed_keys, renamed_length, List.zipIdx_map, List.map_map, List.map_map]
  rfl

theorem idxOf_map_inj {δ δ' : Type*} [DecidableEq δ] [DecidableEq δ'] {f : δ → δ'} (hf : Function.Injective f)
    (d : δ) (l : List δ) : List.idxOf (f d) (l.map f) = List.idxOf d l := by
  induction l with
  | nil => rfl
  | cons y t ih =>
    rw [List.map_cons, List.idxOf_cons, List.idxOf_cons, ih]
    by_cases h : y = d
    · rw [h, beq_self_eq_true, beq_self_eq_true]
    · rw [beq_eq_false_iff_ne.2 h, beq_eq_false_iff_ne.2 (fun e => h (hf e))]

theorem bordaNorm_renamed {f : δ → δ'} (hf : Function.Injective f) (r : Results δ α) (c : List δ) :
    Norm.bordaNorm (renamed f r) (c.map f) = renamed f (Norm.bordaNorm r c) := by
  unfold Norm.bordaNorm
  simp only
  rw [renamed_ofList hf, List.map_map, List.map_map, renamed_length, renamed_keys]
  congr 1
  refine List.map_congr_left (fun d _ => ?_)
  simp only [Function.comp_apply, renamed_contains hf, List.length_map, idxOf_map_inj hf]

end

theorem zmuv_renamed {f : δ → δ'} (hf : Function.Injective f) (r : Results δ ℝ) :
    Norm.zmuv (renamed f r) = renamed f (Norm.zmuv r) := by
  unfold Norm.zmuv
  simp only [extractScores_renamed]
  exact normLoop_renamed hf r _

end

section
variable [LinearOrder κ] [DecidableEq δ] [DecidableEq δ']

theorem toRun_renamed (f : δ → δ') (qs : List κ) (rs : List (Dict δ β)) :
    toRun qs (rs.map (renamed f)) = renamedDocs f (toRun qs rs) := by
  unfold toRun Dict.ofList
  rw [show ([] : Dict κ (Dict δ' β)) = renamedDocs f [] from rfl]
  generalize ([] : Dict κ (Dict δ β)) = acc
  induction qs generalizing rs acc with
  | nil => rfl
  | cons q t ih =>
    cases rs with
    | nil => rfl
    | cons r rs =>
      rw [List.map_cons, List.zip_cons_cons, List.zip_cons_cons, List.foldl_cons, List.foldl_cons, ← ih, renamedDocs_set]

theorem bind_get?_renamed (f : δ → δ') (run : Dict κ (Dict δ β)) (q : Option κ) :
    (q.bind (renamedDocs f run).get?).getD [] = renamed f ((q.bind run.get?).getD []) := by
  cases q with
  | none => rfl
  | some q =>
    change ((renamedDocs f run).get? q).getD [] = renamed f ((run.get? q).getD [])
    rw [renamedDocs_get?]
    cases run.get? q <;> rfl

theorem getD_get?_renamed (f : δ → δ') (run : Dict κ (Dict δ β)) (q : κ) :
    ((renamedDocs f run).get? q).getD [] = renamed f ((run.get? q).getD []) :=
  bind_get?_renamed f run (some q)

theorem slots_renamed (f : δ → δ') (qs : List κ) (g : Nat → Dict δ β) (g' : Nat → Dict δ' β)
    (h : ∀ i, g' i = renamed f (g i)) (sched : List Nat) :
    toRun qs (prange (List.replicate qs.length []) g' sched) =
      renamedDocs f (toRun qs (prange (List.replicate qs.length []) g sched)) := by
  rw [← toRun_renamed, ← prange_map, List.map_replicate, funext h]
  rfl

theorem normParallel_renamed (f : δ → δ') {norm : Results δ β → Results δ β} {norm' : Results δ' β → Results δ' β}
    (hn : ∀ r, norm' (renamed f r) = renamed f (norm r)) (sched : List Nat) (run : Dict κ (Results δ β)) :
    normParallel norm' sched (renamedDocs f run) = renamedDocs f (normParallel norm sched run) := by
  unfold normParallel
  simp only
  rw [renamedDocs_keys]
  exact slots_renamed f run.keys _ _ (fun i => by rw [bind_get?_renamed, hn]) sched

theorem sort_renamed [LE β] [Neg β] (S : ArgSort β) {f : δ → δ'} (hf : Function.Injective f) (d : Dict κ (Dict δ β)) (b : Bool) :
    (⟨renamedDocs f d, b⟩ : Store κ δ' β).sort S = renamedStore f ((⟨d, b⟩ : Store κ δ β).sort S) := by
  unfold Store.sort renamedStore
  rw [sortAll_renamed S hf]

theorem covered_renamed (f : δ → δ') (runs : List (Dict κ (Dict δ β))) (q : κ) :
    (runs.map (renamedDocs f)).all (fun run => run.contains q) = runs.all (fun run => run.contains q) := by
  rw [List.all_map]
  congr 1
  funext run
  exact renamedDocs_contains f run q

theorem allCovered_renamed (f : δ → δ') (runs : List (Dict κ (Dict δ β))) (qs : List κ) :
    (runs.map (renamedDocs f)).all (fun run => qs.all (fun q => run.contains q)) =
      runs.all (fun run => qs.all (fun q => run.contains q)) := by
  rw [List.all_map]
  congr 1
  funext run
  simp only [Function.comp_apply, renamedDocs_contains]

/-- Specification: the two machines agree in everything, and list a set of docs in the same order whatever the docs
are called. -/
structure Spec.SameMachine (f : δ → δ') (E : Env δ) (E' : Env δ') : Prop where
  S : E'.S = E.S
  sched : E'.sched = E.sched
  scheds : E'.scheds = E.scheds
  normScheds : E'.normScheds = E.normScheds
  C : E'.C = E.C
  oob : E'.oob = E.oob
  sets : ∀ l, E'.I.run (l.map f) = (E.I.run l).map f

theorem getCandidates_renamed {f : δ → δ'} {I : SetIter δ} {I' : SetIter δ'} (hI : ∀ l, I'.run (l.map f) = (I.run l).map f)
    (runs : List (Dict κ (Results δ β))) :
    getCandidates I' (runs.map (renamedDocs f)) = (getCandidates I runs).map (List.map (List.map f)) := by
  cases runs with
  | nil => rfl
  | cons r0 rs =>
    have e : ∀ (I : SetIter δ) (a : Dict κ (Results δ β)) (as : List (Dict κ (Results δ β))), getCandidates I (a :: as) =
      if (a :: as).all (fun run => a.keys.all (fun q => run.contains q)) then
        .ok (a.keys.map (fun q => I.run ((a :: as).flatMap (fun run => ((run.get? q).getD []).keys))))
      else .error .keyError := fun _ _ _ => rfl
    have e' : ∀ (I : SetIter δ') (a : Dict κ (Results δ' β)) (as : List (Dict κ (Results δ' β))), getCandidates I (a :: as) =
      if (a :: as).all (fun run => a.keys.all (fun q => run.contains q)) then
        .ok (a.keys.map (fun q => I.run ((a :: as).flatMap (fun run => ((run.get? q).getD []).keys))))
      else .error .keyError := fun _ _ _ => rfl
    rw [List.map_cons, e', e, renamedDocs_keys, ← List.map_cons, allCovered_renamed]
    generalize r0 :: rs = runs
    by_cases h : runs.all (fun run => r0.keys.all (fun q => run.contains q)) = true
    · rw [if_pos h, if_pos h]
      simp only [Except.map, Except.ok.injEq, List.map_map]
      refine List.map_congr_left (fun q _ => ?_)
      simp only [Function.comp_apply]
      rw [← hI]
      congr 1
      rw [List.flatMap_map, List.map_flatMap]
      congr 1
      funext run
      rw [getD_get?_renamed, renamed_keys]
    · rw [if_neg h, if_neg h]; rfl

theorem anyLength_renamed (f : δ → δ') (runs : List (Dict κ (Dict δ β))) (n : Nat) :
    (runs.map (renamedDocs f)).any (fun run => decide (n < run.length)) = runs.any (fun run => decide (n < run.length)) := by
  rw [List.any_map]
  congr 1
  funext run
  simp only [Function.comp_apply]
  unfold renamedDocs
  rw [List.length_map]

theorem getD_map_cands (f : δ → δ') (c : List (List δ)) (i : Nat) :
    ((c.map (List.map f))[i]?).getD [] = ((c[i]?).getD []).map f := by
  rw [List.getElem?_map]
  cases c[i]? <;> rfl

theorem zipIdx_map_renamed (f : δ → δ') {X : Type*} (runs : List (Dict κ (Dict δ β)))
    (G : Dict κ (Dict δ β) × Nat → X) (G' : Dict κ (Dict δ' β) × Nat → X)
    (h : ∀ run j, G' (renamedDocs f run, j) = G (run, j)) :
    (runs.map (renamedDocs f)).zipIdx.map G' = runs.zipIdx.map G := by
  rw [List.zipIdx_map, List.map_map]
  exact List.map_congr_left (fun rj _ => h rj.1 rj.2)

theorem bordaRuns_renamed [LinearOrder α] [Field α] {f : δ → δ'} (hf : Function.Injective f) {I : SetIter δ}
    {I' : SetIter δ'} (hI : ∀ l, I'.run (l.map f) = (I.run l).map f) (scheds : Nat → List Nat)
    (runs : List (Dict κ (Results δ α))) :
    Norm.bordaRuns I' scheds (runs.map (renamedDocs f)) = (Norm.bordaRuns I scheds runs).map (List.map (renamedDocs f)) := by
  unfold Norm.bordaRuns
  rw [getCandidates_renamed hI]
  cases getCandidates I runs with
  | error e => rfl
  | ok c =>
    simp only [Except.map]
    rw [List.length_map, anyLength_renamed]
    by_cases h : runs.any (fun run => decide (c.length < run.length)) = true
    · rw [if_pos h, if_pos h]
    · rw [if_neg h, if_neg h]
      simp only [Except.ok.injEq, List.map_map]
      refine zipIdx_map_renamed f runs _ _ (fun run j => ?_)
      simp only [Function.comp_apply]
      unfold Norm.bordaParallel
      simp only
      rw [renamedDocs_keys]
      exact slots_renamed f run.keys _ _ (fun i => by rw [bind_get?_renamed, getD_map_cands, bordaNorm_renamed hf]) _

theorem normOne_renamed {f : δ → δ'} (hf : Function.Injective f) {E : Env δ} {E' : Env δ'}
    (hE : Spec.SameMachine f E E') (k : Kind) (j : Nat) (s : Store κ δ ℝ) :
    normOne E' k j (renamedStore f s) = renamedStore f (normOne E k j s) := by
  have hp : ∀ (n : Results δ ℝ → Results δ ℝ) (n' : Results δ' ℝ → Results δ' ℝ),
      (∀ r, n' (renamed f r) = renamed f (n r)) →
      Norm.normRun n' (E'.normScheds j) (renamedStore f s) = renamedStore f (Norm.normRun n (E.normScheds j) s) := by
    intro n n' h
    unfold Norm.normRun renamedStore
    simp only
    rw [hE.normScheds, normParallel_renamed f h]
  cases k with
  | max => exact hp _ _ (maxNorm_renamed hf)
  | minMax => exact hp _ _ (minMax_renamed hf false)
  | minMaxInverted =>
    change (⟨normParallel (Norm.minMax true) (E'.normScheds j) (renamedDocs f s.data), false⟩ : Store κ δ' ℝ).sort E'.S = _
    rw [hE.normScheds, hE.S, normParallel_renamed f (minMax_renamed hf true), sort_renamed E.S hf]
    rfl
  | rank => exact hp _ _ (rankNorm_renamed hf)
  | sum => exact hp _ _ (sumNorm_renamed hf)
  | zmuv => exact hp _ _ (zmuv_renamed hf)
  | borda => rfl

theorem normalizeRuns_renamed {f : δ → δ'} (hf : Function.Injective f) {E : Env δ} {E' : Env δ'}
    (hE : Spec.SameMachine f E E') (norm : Option String) (runs : List (Store κ δ ℝ)) :
    normalizeRuns E' norm (runs.map (renamedStore f)) =
      (normalizeRuns E norm runs).map (List.map (renamedDocs f)) := by
  unfold normalizeRuns
  cases norm with
  | none =>
    simp only [Except.map, List.map_map]
    rfl
  | some n =>
    simp only
    by_cases h : n ≠ "borda"
    · rw [if_pos h, if_pos h]
      cases normSwitch n with
      | error e => rfl
      | ok k =>
        simp only [Except.map, Except.ok.injEq]
        rw [List.zipIdx_map, List.map_map, List.map_map]
        refine List.map_congr_left (fun rj _ => ?_)
        simp only [Function.comp_apply, Prod.map_fst, Prod.map_snd]
        rw [normOne_renamed hf hE]
        rfl
    · rw [if_neg h, if_neg h, hE.normScheds, ← bordaRuns_renamed hf hE.sets, List.map_map, List.map_map]
      rfl

/-! ### fusion -/

section
variable [DecidableEq α] [Zero α]

theorem unionLoop_renamed {f : δ → δ'} (hf : Function.Injective f) (s : δ → Except Err α) (s' : δ' → Except Err α)
    (hs : ∀ d, s' (f d) = s d) (ds : List δ) (acc : Dict δ α) :
    unionLoop s' (ds.map f) (renamed f acc) = (unionLoop s ds acc).map (renamed f) := by
  induction ds generalizing acc with
  | nil => rfl
  | cons d t ih =>
    have e : ∀ (s : δ → Except Err α) d t acc, unionLoop s (d :: t) acc =
      if (Dict.get? acc d).getD 0 = 0 then
        match s d with
        | .error e => .error e
        | .ok v => unionLoop s t (acc.set d v)
      else unionLoop s t acc := fun _ _ _ _ => rfl
    have e' : ∀ (s : δ' → Except Err α) d t acc, unionLoop s (d :: t) acc =
      if (Dict.get? acc d).getD 0 = 0 then
        match s d with
        | .error e => .error e
        | .ok v => unionLoop s t (acc.set d v)
      else unionLoop s t acc := fun _ _ _ _ => rfl
    rw [List.map_cons, e', e, renamed_get? hf, hs]
    by_cases h : (Dict.get? acc d).getD 0 = 0
    · rw [if_pos h, if_pos h]
      cases s d with
      | error e => rfl
      | ok v =>
        simp only
        rw [← renamed_set hf, ih]
    · rw [if_neg h, if_neg h, ih]

/-- the two scores do the same under the two names of a doc -/
def SameScore (f : δ → δ') (s : Score δ α) (s' : Score δ' α) : Prop :=
  ∀ rs d, s' (rs.map (renamed f)) (f d) = s rs d

theorem combine_renamed {f : δ → δ'} (hf : Function.Injective f) {s : Score δ α} {s' : Score δ' α}
    (hs : SameScore f s s') (rs : List (Results δ α)) :
    combine s' (rs.map (renamed f)) = (combine s rs).map (renamed f) := by
  unfold combine
  rw [flatMap_keys_renamed]
  exact unionLoop_renamed hf _ _ (hs rs) _ []

theorem fuseSlot_renamed {f : δ → δ'} (hf : Function.Injective f) {s : Score δ α} {s' : Score δ' α}
    (hs : SameScore f s s') (runs : List (Dict κ (Results δ α))) (qs : List κ) (i : Nat) :
    fuseSlot s' (runs.map (renamedDocs f)) qs i = (fuseSlot s runs qs i).map (renamed f) := by
  unfold fuseSlot
  cases qs[i]? with
  | none => rfl
  | some q =>
    simp only
    rw [covered_renamed]
    by_cases h : runs.all (fun run => run.contains q) = true
    · rw [if_pos h, if_pos h, ← combine_renamed hf hs, List.map_map, List.map_map]
      congr 1
      exact List.map_congr_left (fun run _ => getD_get?_renamed f run q)
    · rw [if_neg h, if_neg h]; rfl

theorem fuseParallel_renamed {f : δ → δ'} (hf : Function.Injective f) {s : Score δ α} {s' : Score δ' α}
    (hs : SameScore f s s') (sched : List Nat) (runs : List (Dict κ (Results δ α))) :
    fuseParallel s' sched (runs.map (renamedDocs f)) = (fuseParallel s sched runs).map (renamedDocs f) := by
  cases runs with
  | nil => rfl
  | cons r0 rs =>
    have e : ∀ (a : Dict κ (Results δ α)) (as : List (Dict κ (Results δ α))), fuseParallel s sched (a :: as) =
      match Eval.collect (prange (List.replicate a.keys.length (.ok [])) (fuseSlot s (a :: as) a.keys) sched) with
      | .error e => .error e
      | .ok rs => .ok (toRun a.keys rs) := fun _ _ => rfl
    have e' : ∀ (a : Dict κ (Results δ' α)) (as : List (Dict κ (Results δ' α))), fuseParallel s' sched (a :: as) =
      match Eval.collect (prange (List.replicate a.keys.length (.ok [])) (fuseSlot s' (a :: as) a.keys) sched) with
      | .error e => .error e
      | .ok rs => .ok (toRun a.keys rs) := fun _ _ => rfl
    rw [List.map_cons, e', e, renamedDocs_keys, ← List.map_cons]
    have hp : prange (List.replicate r0.keys.length (.ok [])) (fuseSlot s' ((r0 :: rs).map (renamedDocs f)) r0.keys) sched =
        (prange (List.replicate r0.keys.length (.ok [])) (fuseSlot s (r0 :: rs) r0.keys) sched).map
          (Except.map (renamed f)) := by
      rw [← prange_map, List.map_replicate]
      congr 1
      funext i
      exact fuseSlot_renamed hf hs (r0 :: rs) r0.keys i
    rw [hp, collect_map_except]
    cases Eval.collect (prange (List.replicate r0.keys.length (.ok [])) (fuseSlot s (r0 :: rs) r0.keys) sched) with
    | error e => rfl
    | ok l =>
      simp only [Except.map]
      rw [toRun_renamed]

theorem fuseRun_renamed [LE α] [Neg α] (S : ArgSort α) {f : δ → δ'} (hf : Function.Injective f) {s : Score δ α}
    {s' : Score δ' α} (hs : SameScore f s s') (sched : List Nat) (runs : List (Dict κ (Results δ α))) :
    fuseRun S s' sched (runs.map (renamedDocs f)) = (fuseRun S s sched runs).map (renamedStore f) := by
  unfold fuseRun
  rw [fuseParallel_renamed hf hs]
  cases fuseParallel s sched runs with
  | error e => rfl
  | ok d =>
    simp only [Except.map]
    rw [sort_renamed S hf]

end

theorem map_getD_renamed {f : δ → δ'} (hf : Function.Injective f) (rs : List (Results δ β)) (d : δ) (z : β) :
    (rs.map (renamed f)).map (fun res => (res.get? (f d)).getD z) = rs.map (fun res => (res.get? d).getD z) := by
  rw [List.map_map]
  refine List.map_congr_left (fun r _ => ?_)
  simp only [Function.comp_apply, renamed_get? hf]

theorem present_renamed {f : δ → δ'} (hf : Function.Injective f) (rs : List (Results δ β)) (d : δ) :
    present (rs.map (renamed f)) (f d) = present rs d := by
  unfold present
  rw [List.filterMap_map]
  congr 1
  funext r
  exact renamed_get? hf r d

theorem presentWeighted_renamed [LinearOrder α] [Field α] {f : δ → δ'} (hf : Function.Injective f) (ws : List α)
    (rs : List (Results δ α)) (d : δ) :
    presentWeighted ws (rs.map (renamed f)) (f d) = presentWeighted ws rs d := by
  unfold presentWeighted
  rw [List.zipIdx_map, List.filterMap_map]
  congr 2
  funext ri
  simp only [Function.comp_apply, Prod.map_fst, Prod.map_snd, renamed_get? hf]
  rfl

section
variable [LinearOrder α] [Field α] {f : δ → δ'} (hf : Function.Injective f)
include hf

theorem sumScore_renamed : SameScore f (sumScore : Score δ α) sumScore := by
  intro rs d; unfold sumScore; rw [map_getD_renamed hf]
theorem minScore_renamed : SameScore f (minScore : Score δ α) minScore := by
  intro rs d; unfold minScore; rw [map_getD_renamed hf]
theorem maxScore_renamed : SameScore f (maxScore : Score δ α) maxScore := by
  intro rs d; unfold maxScore; rw [map_getD_renamed hf]
theorem medScore_renamed : SameScore f (medScore : Score δ α) medScore := by
  intro rs d; unfold medScore; rw [present_renamed hf]
theorem anzScore_renamed : SameScore f (anzScore : Score δ α) anzScore := by
  intro rs d; unfold anzScore; simp only [present_renamed hf]
theorem mnzScore_renamed : SameScore f (mnzScore : Score δ α) mnzScore := by
  intro rs d; unfold mnzScore; simp only [present_renamed hf]
theorem wsumScore_renamed (ws : List α) : SameScore f (wsumScore ws : Score δ α) (wsumScore ws) := by
  intro rs d; unfold wsumScore
  rw [List.zipIdx_map, List.map_map]
  have e : ((fun ri : Results δ' α × Nat => (weightAt ws ri.2).map (fun w => w * (ri.1.get? (f d)).getD 0)) ∘
      Prod.map (renamed f) id) = fun ri : Results δ α × Nat => (weightAt ws ri.2).map (fun w => w * (ri.1.get? d).getD 0) := by
    funext ri
    simp only [Function.comp_apply, Prod.map_fst, Prod.map_snd, renamed_get? hf, id]
  rw [e]
theorem wmnzScore_renamed (ws : List α) : SameScore f (wmnzScore ws : Score δ α) (wmnzScore ws) := by
  intro rs d; unfold wmnzScore; rw [presentWeighted_renamed hf]

theorem rankLoop_renamed (g : Nat → α → α) (r : Results δ α) : rankLoop g (renamed f r) = renamed f (rankLoop g r) := by
  unfold rankLoop
  rw [renamed_ofList hf]
  unfold renamed
  rw [List.zipIdx_map, List.map_map, List.map_map]
  rfl

theorem probScore_renamed (p : List α) (r : Results δ α) : probScore p (renamed f r) = renamed f (probScore p r) := by
  unfold probScore; simp only [renamed_length]; exact rankLoop_renamed hf _ r
theorem slideScore_renamed (p : List α) (w : Nat) (r : Results δ α) :
    slideScore p w (renamed f r) = renamed f (slideScore p w r) := by
  unfold slideScore; simp only [renamed_length]; exact rankLoop_renamed hf _ r
theorem segScore_renamed (p : List α) (r : Results δ α) : segScore p (renamed f r) = renamed f (segScore p r) := by
  unfold segScore; simp only [renamed_length]; exact rankLoop_renamed hf _ r

theorem bordaScore_renamed (r : Results δ α) (c : List δ) :
    bordaScore (renamed f r) (c.map f) = renamed f (bordaScore r c) := by
  unfold bordaScore
  simp only
  rw [renamed_ofList hf, renamed_keys, List.map_append, List.zipIdx_map, List.map_map, List.map_map, List.length_map,
    List.length_map, List.filter_map, List.map_map, List.map_map]
  have e : ((fun d' : δ' => decide (d' ∉ r.keys.map f)) ∘ f) = fun d => decide (d ∉ r.keys) := by
    funext d
    simp only [Function.comp_apply, List.mem_map_of_injective hf]
  rw [e]
  rfl

end

theorem rescoreAll_renamed [LinearOrder α] [Field α] (f : δ → δ') {g : Results δ α → Results δ α}
    {g' : Results δ' α → Results δ' α} (hg : ∀ r, g' (renamed f r) = renamed f (g r)) (scheds : Nat → List Nat)
    (runs : List (Dict κ (Results δ α))) :
    rescoreAll g' scheds (runs.map (renamedDocs f)) = (rescoreAll g scheds runs).map (renamedDocs f) := by
  unfold rescoreAll
  rw [List.map_map]
  exact zipIdx_map_renamed f runs _ _ (fun run j => normParallel_renamed f hg _ run)

theorem rescoreWith_renamed [LinearOrder α] [Field α] (f : δ → δ') {π : Type*} {g : π → Results δ α → Results δ α}
    {g' : π → Results δ' α → Results δ' α} (hg : ∀ p r, g' p (renamed f r) = renamed f (g p r)) (params : List π)
    (scheds : Nat → List Nat) (runs : List (Dict κ (Results δ α))) :
    rescoreWith g' params scheds (runs.map (renamedDocs f)) =
      (rescoreWith g params scheds runs).map (List.map (renamedDocs f)) := by
  unfold rescoreWith
  rw [← collect_map_except, List.map_map]
  congr 1
  refine zipIdx_map_renamed f runs _ _ (fun run j => ?_)
  simp only [Function.comp_apply]
  cases params[j]? with
  | none => rfl
  | some p =>
    simp only [Except.map]
    rw [normParallel_renamed f (hg p)]

theorem rescoreThen_renamed [LinearOrder α] [Field α] {f : δ → δ'} (hf : Function.Injective f) {π : Type*}
    {g : π → Results δ α → Results δ α} {g' : π → Results δ' α → Results δ' α}
    (hg : ∀ p r, g' p (renamed f r) = renamed f (g p r)) {s : Score δ α} {s' : Score δ' α} (hs : SameScore f s s')
    (S : ArgSort α) (sched : List Nat) (scheds : Nat → List Nat) (params : List π) (runs : List (Dict κ (Results δ α))) :
    rescoreThen S sched scheds g' params s' (runs.map (renamedDocs f)) =
      (rescoreThen S sched scheds g params s runs).map (renamedStore f) := by
  unfold rescoreThen
  rw [rescoreWith_renamed f hg]
  cases rescoreWith g params scheds runs with
  | error e => rfl
  | ok rs => exact fuseRun_renamed S hf hs sched rs

theorem rankZero_renamed [LinearOrder α] [Field α] (f : δ → δ') (k : α) (runs : List (Dict κ (Results δ α))) :
    rankZero k (runs.map (renamedDocs f)) = rankZero k runs := by
  unfold rankZero
  rw [List.any_map]
  congr 1
  funext run
  simp only [Function.comp_apply]
  unfold renamedDocs
  rw [List.any_map]
  congr 1
  funext qr
  simp only [Function.comp_apply, renamed_length]

theorem bordaRescored_renamed [LinearOrder α] [Field α] {f : δ → δ'} (hf : Function.Injective f) {I : SetIter δ}
    {I' : SetIter δ'} (hI : ∀ l, I'.run (l.map f) = (I.run l).map f) (scheds : Nat → List Nat)
    (runs : List (Dict κ (Results δ α))) :
    bordaRescored scheds I' (runs.map (renamedDocs f)) =
      (bordaRescored scheds I runs).map (List.map (renamedDocs f)) := by
  unfold bordaRescored
  rw [getCandidates_renamed hI]
  cases getCandidates I runs with
  | error e => rfl
  | ok c =>
    simp only [Except.map]
    rw [List.length_map, anyLength_renamed]
    by_cases h : runs.any (fun run => decide (c.length < run.length)) = true
    · rw [if_pos h, if_pos h]
    · rw [if_neg h, if_neg h]
      simp only [Except.ok.injEq, List.map_map]
      refine zipIdx_map_renamed f runs _ _ (fun run j => ?_)
      simp only [Function.comp_apply]
      unfold bordaScoreParallel
      simp only
      rw [renamedDocs_keys]
      exact slots_renamed f run.keys _ _ (fun i => by rw [bind_get?_renamed, getD_map_cands, bordaScore_renamed hf]) _

theorem idxOf?_map_inj {f : δ → δ'} (hf : Function.Injective f) (x : δ) (run : List δ) :
    (run.map f).idxOf? (f x) = run.idxOf? x := by
  induction run with
  | nil => rfl
  | cons y t ih =>
    rw [List.map_cons, List.idxOf?_cons, List.idxOf?_cons, ih]
    by_cases h : y = x
    · rw [if_pos (by simp [h]), if_pos (by simp [h])]
    · rw [if_neg (by simpa using fun e => h (hf e)), if_neg (by simpa using h)]

theorem runIndices_renamed {f : δ → δ'} (hf : Function.Injective f) (rs : List (List δ)) (c : List δ) :
    runIndices (rs.map (List.map f)) (c.map f) = runIndices rs c := by
  unfold runIndices
  rw [List.map_map]
  refine List.map_congr_left (fun run _ => ?_)
  simp only [Function.comp_apply, List.map_map]
  refine List.map_congr_left (fun x _ => ?_)
  simp only [Function.comp_apply]
  rw [idxOf?_map_inj hf]

theorem condorcetQuery_renamed [Field α] {f : δ → δ'} (hf : Function.Injective f) (C : CmpSort)
    (lt : List (List Nat) → Nat → Nat → Bool) (rs : List (List δ)) (c : List δ) :
    (condorcetQuery C lt (rs.map (List.map f)) (c.map f) : Results δ' α) = renamed f (condorcetQuery C lt rs c) := by
  unfold condorcetQuery
  simp only
  rw [runIndices_renamed hf, List.length_map, renamed_ofList hf]
  have e : (C.run (lt (runIndices rs c)) (List.range c.length)).filterMap (fun i => (c.map f)[i]?) =
      ((C.run (lt (runIndices rs c)) (List.range c.length)).filterMap (fun i => c[i]?)).map f := by
    rw [List.map_filterMap]
    congr 1
    funext i
    exact List.getElem?_map
  rw [e, List.length_map, List.zipIdx_map, List.map_map, List.map_map]
  rfl

theorem getResults_renamed (f : δ → δ') (runs : List (Dict κ (Results δ β))) :
    getResults (runs.map (renamedDocs f)) = (getResults runs).map (List.map (List.map (List.map f))) := by
  cases runs with
  | nil => rfl
  | cons r0 rs =>
    have e : ∀ (a : Dict κ (Results δ β)) (as : List (Dict κ (Results δ β))), getResults (a :: as) =
      if (a :: as).all (fun run => a.keys.all (fun q => run.contains q)) then
        .ok (a.keys.map (fun q => (a :: as).map (fun run => ((run.get? q).getD []).keys)))
      else .error .keyError := fun _ _ => rfl
    have e' : ∀ (a : Dict κ (Results δ' β)) (as : List (Dict κ (Results δ' β))), getResults (a :: as) =
      if (a :: as).all (fun run => a.keys.all (fun q => run.contains q)) then
        .ok (a.keys.map (fun q => (a :: as).map (fun run => ((run.get? q).getD []).keys)))
      else .error .keyError := fun _ _ => rfl
    rw [List.map_cons, e', e, renamedDocs_keys, ← List.map_cons, allCovered_renamed]
    generalize r0 :: rs = runs
    by_cases h : runs.all (fun run => r0.keys.all (fun q => run.contains q)) = true
    · rw [if_pos h, if_pos h]
      simp only [Except.map, Except.ok.injEq, List.map_map]
      refine List.map_congr_left (fun q _ => ?_)
      simp only [Function.comp_apply, List.map_map]
      refine List.map_congr_left (fun run _ => ?_)
      simp only [Function.comp_apply]
      rw [getD_get?_renamed, renamed_keys]
    · rw [if_neg h, if_neg h]; rfl

theorem condorcetWith_renamed [Field α] {f : δ → δ'} (hf : Function.Injective f) {I : SetIter δ} {I' : SetIter δ'}
    (hI : ∀ l, I'.run (l.map f) = (I.run l).map f) (C : CmpSort) (lt : List (List Nat) → Nat → Nat → Bool)
    (runs : List (Dict κ (Results δ α))) :
    condorcetWith C I' lt (runs.map (renamedDocs f)) = (condorcetWith C I lt runs).map (renamedStore f) := by
  unfold condorcetWith
  rw [getResults_renamed, getCandidates_renamed hI]
  cases getResults runs with
  | error e => rfl
  | ok rs =>
    cases getCandidates I runs with
    | error e => rfl
    | ok c =>
      simp only [Except.map, Except.ok.injEq]
      have e0 : Dict.keys (((runs.map (renamedDocs f))[0]?).getD []) = Dict.keys ((runs[0]?).getD []) := by
        rw [List.getElem?_map]
        cases runs[0]? with
        | none => rfl
        | some r => exact renamedDocs_keys f r
      rw [e0]
      unfold renamedStore
      simp only
      rw [← toRun_renamed, List.map_map, List.zip_map, List.map_map]
      congr 2
      exact List.map_congr_left (fun rc _ => condorcetQuery_renamed hf C lt rc.1 rc.2)

theorem bindArg_map {A B B' : Type*} (a : Except Err A) (g : A → Except Err B) (g' : A → Except Err B') (h : B → B')
    (hg : ∀ x, g' x = (g x).map h) : bindArg a g' = (bindArg a g).map h := by
  unfold bindArg
  cases a with
  | error e => rfl
  | ok x => exact hg x

theorem call_renamed {f : δ → δ'} (hf : Function.Injective f) {E : Env δ} {E' : Env δ'} (hE : Spec.SameMachine f E E')
    (m : Method) (params : Kwargs) (runs : List (Dict κ (Results δ ℝ))) :
    m.call E' params (runs.map (renamedDocs f)) = (m.call E params runs).map (renamedStore f) := by
  obtain ⟨S, sched, scheds, ns, I, C, oob⟩ := E
  obtain ⟨S', sched', scheds', ns', I', C', oob'⟩ := E'
  obtain ⟨h1, h2, h3, h4, h5, h6, hI⟩ := hE
  simp only at h1 h2 h3 h4 h5 h6 hI
  subst h1 h2 h3 h4 h5 h6
  unfold Method.call
  by_cases hp : params.keys.all (fun k => decide (k ∈ m.parameters)) = true
  swap
  · rw [if_neg hp, if_neg hp]; rfl
  rw [if_pos hp, if_pos hp]
  have hlen : (runs.map (renamedDocs f)).length = runs.length := List.length_map _
  have hrank : ∀ (g : Nat → ℝ → ℝ) (r : Results δ ℝ), rankLoop g (renamed f r) = renamed f (rankLoop g r) :=
    rankLoop_renamed hf
  have hall : ∀ (g : Nat → ℝ → ℝ) (s : Score δ ℝ) (s' : Score δ' ℝ), SameScore f s s' →
      fuseRun S' s' sched' (rescoreAll (rankLoop g) scheds' (runs.map (renamedDocs f))) =
        (fuseRun S' s sched' (rescoreAll (rankLoop g) scheds' runs)).map (renamedStore f) := by
    intro g s s' hs
    rw [rescoreAll_renamed f (hrank g)]
    exact fuseRun_renamed S' hf hs sched' _
  have hlog : ∀ g : List ℝ → ℝ, SameScore f (fun rs d => .ok (g (present rs d)) : Score δ ℝ)
      (fun rs d => .ok (g (present rs d))) := by
    intro g rs d
    simp only [present_renamed hf]
  have hodds : SameScore f (oddsScore : Score δ ℝ) oddsScore := by
    intro rs d; unfold oddsScore; rw [map_getD_renamed hf]
  have hmixed : ∀ ws, SameScore f (mixedScore ws : Score δ ℝ) (mixedScore ws) := by
    intro ws rs d; unfold mixedScore; rw [presentWeighted_renamed hf]
  cases m with
  | bayesfuse => exact bindArg_map _ _ _ _ (fun t => rescoreThen_renamed hf (fun p r => hrank _ r) hodds _ _ _ _ _)
  | bordafuse =>
    simp only [bordafuse]
    rw [bordaRescored_renamed hf hI]
    cases bordaRescored scheds' I runs with
    | error e => rfl
    | ok rs => exact fuseRun_renamed S' hf (sumScore_renamed hf) sched' rs
  | combAnz => exact fuseRun_renamed S' hf (anzScore_renamed hf) sched' runs
  | combGmnz =>
    exact bindArg_map _ _ _ _ (fun t => fuseRun_renamed S' hf (hlog (fun l => l.sum * (l.length : ℝ) ^ t)) sched' runs)
  | combMax => exact fuseRun_renamed S' hf (maxScore_renamed hf) sched' runs
  | combMed => exact fuseRun_renamed S' hf (medScore_renamed hf) sched' runs
  | combMin => exact fuseRun_renamed S' hf (minScore_renamed hf) sched' runs
  | combMnz => exact fuseRun_renamed S' hf (mnzScore_renamed hf) sched' runs
  | combSum => exact fuseRun_renamed S' hf (sumScore_renamed hf) sched' runs
  | condorcet => exact condorcetWith_renamed hf hI C' compareVotes runs
  | isr => exact hall _ _ _ (mnzScore_renamed hf)
  | logIsr => exact hall _ _ _ (hlog (fun l => l.sum * Real.log (l.length : ℝ)))
  | lognIsr =>
    refine bindArg_map _ _ _ _ (fun t => ?_)
    unfold lognIsr
    by_cases hs : 0 ≤ t ∧ t ≤ 1
    · rw [if_pos hs, if_pos hs]
      exact hall _ _ _ (hlog (fun l => l.sum * Real.log ((l.length : ℝ) + t)))
    · rw [if_neg hs, if_neg hs]; rfl
  | mapfuse =>
    exact bindArg_map _ _ _ _ (fun t => rescoreThen_renamed hf (fun p r => hrank _ r) (sumScore_renamed hf) _ _ _ _ _)
  | mixed => exact bindArg_map _ _ _ _ (fun t => fuseRun_renamed S' hf (hmixed t) sched' runs)
  | posfuse =>
    exact bindArg_map _ _ _ _ (fun t => rescoreThen_renamed hf (fun p r => hrank _ r) (sumScore_renamed hf) _ _ _ _ _)
  | probfuse =>
    refine bindArg_map _ _ _ _ (fun t => ?_)
    unfold probfuse
    rw [hlen]
    by_cases hs : ((t.take runs.length).any (fun p => p.isEmpty)) = true
    · rw [if_pos hs, if_pos hs]; rfl
    · rw [if_neg hs, if_neg hs]
      exact rescoreThen_renamed hf (probScore_renamed hf) (sumScore_renamed hf) _ _ _ _ _
  | rbc => exact bindArg_map _ _ _ _ (fun t => hall _ _ _ (sumScore_renamed hf))
  | rrf =>
    refine bindArg_map _ _ _ _ (fun t => ?_)
    unfold rrf
    rw [rankZero_renamed]
    by_cases hs : rankZero t runs = true
    · rw [if_pos hs, if_pos hs]; rfl
    · rw [if_neg hs, if_neg hs]
      exact hall _ _ _ (sumScore_renamed hf)
  | segfuse =>
    refine bindArg_map _ _ _ _ (fun t => ?_)
    unfold segfuse
    rw [hlen]
    by_cases hs : ((t.take runs.length).any (fun p => decide (10 < p.length))) = true
    · rw [if_pos hs, if_pos hs]; rfl
    · rw [if_neg hs, if_neg hs]
      exact rescoreThen_renamed hf (segScore_renamed hf) (sumScore_renamed hf) _ _ _ _ _
  | slidefuse =>
    exact bindArg_map _ _ _ _ (fun t => bindArg_map _ _ _ _ (fun w =>
      rescoreThen_renamed hf (fun p r => slideScore_renamed hf p w r) (sumScore_renamed hf) _ _ _ _ _))
  | weightedBordafuse =>
    refine bindArg_map _ _ _ _ (fun t => ?_)
    simp only [weightedBordafuse]
    rw [bordaRescored_renamed hf hI]
    cases bordaRescored scheds' I runs with
    | error e => rfl
    | ok rs => exact fuseRun_renamed S' hf (wsumScore_renamed hf t) sched' rs
  | weightedCondorcet =>
    refine bindArg_map _ _ _ _ (fun t => ?_)
    unfold weightedCondorcet
    simp only
    rw [getCandidates_renamed hI, condorcetWith_renamed hf hI, hlen]
    cases getCandidates I runs with
    | error e => rfl
    | ok c =>
      simp only [Except.map]
      have e : (c.map (List.map f)).any (fun c => decide (2 ≤ c.length)) = c.any (fun c => decide (2 ≤ c.length)) := by
        rw [List.any_map]
        congr 1
        funext l
        simp only [Function.comp_apply, List.length_map]
      rw [e]
      by_cases hc : t.length < runs.length ∧ c.any (fun c => decide (2 ≤ c.length)) = true
      · rw [if_pos hc, if_pos hc]
      · rw [if_neg hc, if_neg hc]
  | wmnz => exact bindArg_map _ _ _ _ (fun t => fuseRun_renamed S' hf (wmnzScore_renamed hf t) sched' runs)
  | wsum => exact bindArg_map _ _ _ _ (fun t => fuseRun_renamed S' hf (wsumScore_renamed hf t) sched' runs)

theorem pairwise_renamed (f : δ → δ') (runs : List (Store κ δ ℝ)) :
    pairwiseSameKeys (runs.map (renamedStore f)) = pairwiseSameKeys runs := by
  have h1 : ∀ a b : Store κ δ ℝ, Fuse.sameKeys (renamedStore f a) (renamedStore f b) = Fuse.sameKeys a b := by
    intro a b
    unfold Fuse.sameKeys renamedStore
    simp only [renamedDocs_keys, renamedDocs_contains]
  induction runs with
  | nil => rfl
  | cons a t ih =>
    change ((t.map (renamedStore f)).all (Fuse.sameKeys (renamedStore f a)) && pairwiseSameKeys (t.map (renamedStore f))) =
      (t.all (Fuse.sameKeys a) && pairwiseSameKeys t)
    rw [ih, List.all_map]
    congr 2
    funext b
    exact h1 a b

/-- **C145**: calling the docs by other names in all runs, `fuse` with any normalization, method and parameters returns
the same fused run with the docs called by these names (same order, same scores, same flag), or raises the same
exception, on a machine that lists a set of docs in an order not depending on their names. -/
theorem C145_fuse {f : δ → δ'} (hf : Function.Injective f) (E : Env δ) (E' : Env δ') (hE : Spec.SameMachine f E E')
    (runs : List (Store κ δ ℝ)) (norm : Option String) (method : String) (params : Option Kwargs) :
    fuse E' (runs.map (renamedStore f)) norm method params =
      (fuse E runs norm method params).map (renamedStore f) := by
  unfold fuse
  rw [List.length_map, pairwise_renamed, normalizeRuns_renamed hf hE]
  by_cases h1 : runs.length ≤ 1
  · rw [if_pos h1, if_pos h1]; rfl
  rw [if_neg h1, if_neg h1]
  by_cases h2 : pairwiseSameKeys runs = true
  swap
  · rw [if_neg h2, if_neg h2]; rfl
  rw [if_pos h2, if_pos h2]
  cases normalizeRuns E norm runs with
  | error e => rfl
  | ok nr =>
    cases fusionSwitch method with
    | error e => rfl
    | ok m => exact call_renamed hf hE m (params.getD []) nr

open Classical in
/-- the iteration order of sets carried over to the other names (other sets are listed in some order) -/
noncomputable def SetIter.renamed (f : δ → δ') (hf : Function.Injective f) (I : SetIter δ) : SetIter δ' where
  run l := if h : ∃ k : List δ, k.map f = l then (I.run h.choose).map f else l.dedup
  nodup l := by
    by_cases h : ∃ k : List δ, k.map f = l
    · rw [dif_pos h]; exact (I.nodup _).map hf
    · rw [dif_neg h]; exact List.nodup_dedup _
  mem l x := by
    by_cases h : ∃ k : List δ, k.map f = l
    · rw [dif_pos h]
      conv_rhs => rw [← h.choose_spec]
      simp only [List.mem_map, I.mem]
    · rw [dif_neg h]; exact List.mem_dedup

/-- a machine for the other names -/
noncomputable def renamedEnv (f : δ → δ') (hf : Function.Injective f) (E : Env δ) : Env δ' :=
  ⟨E.S, E.sched, E.scheds, E.normScheds, SetIter.renamed f hf E.I, E.C, E.oob⟩

theorem sameMachine_renamedEnv (f : δ → δ') (hf : Function.Injective f) (E : Env δ) :
    Spec.SameMachine f E (renamedEnv f hf E) := by
  refine ⟨rfl, rfl, rfl, rfl, rfl, rfl, fun l => ?_⟩
  have h : ∃ k : List δ, k.map f = l.map f := ⟨l, rfl⟩
  simp only [renamedEnv, SetIter.renamed]
  rw [dif_pos h, List.map_injective_iff.2 hf h.choose_spec]

/-- **C145** (no sets involved): for the methods that build no set, and normalizations other than borda, the machines may
list sets in any order. -/
theorem C145_fuse_any_order {f : δ → δ'} (hf : Function.Injective f) (E : Env δ) (I' : SetIter δ')
    (runs : List (Store κ δ ℝ)) (norm : Option String) (hb : norm ≠ some "borda") (method : String)
    (hm : method ∉ Spec.setMethods) (params : Option Kwargs) :
    fuse ⟨E.S, E.sched, E.scheds, E.normScheds, I', E.C, E.oob⟩ (runs.map (renamedStore f)) norm method params =
      (fuse E runs norm method params).map (renamedStore f) := by
  rw [← C145_fuse hf E (renamedEnv f hf E) (sameMachine_renamedEnv f hf E)]
  exact (C111_identical (renamedEnv f hf E) _ ⟨I', rfl⟩ _ norm hb method hm params).symm

end

/-! ### instances -/

/-- the docs of the example runs called by negative integers instead of natural numbers; the fusion succeeds -/
def exNegName (n : Nat) : Int := -(n : Int) - 1

theorem exNegName_injective : Function.Injective exNegName := fun a b h => by unfold exNegName at h; omega

example : ∃ out, fuse exEnv [fuseStore1, fuseStore2] none "sum" = .ok out ∧
    ∀ I' : SetIter Int, fuse ⟨exEnv.S, exEnv.sched, exEnv.scheds, exEnv.normScheds, I', exEnv.C, exEnv.oob⟩
      ([fuseStore1, fuseStore2].map (renamedStore exNegName)) none "sum" = .ok (renamedStore exNegName out) := by
  obtain ⟨out, h⟩ := exFuse_ok
  refine ⟨out, h, fun I' => ?_⟩
  rw [C145_fuse_any_order exNegName_injective exEnv I' _ none (fun e => nomatch e) "sum" (by decide) none, h]
  rfl

example (method : String) : fuse (renamedEnv exNegName exNegName_injective exEnv)
      ([fuseStore1, fuseStore2].map (renamedStore exNegName)) (some "borda") method none =
    (fuse exEnv [fuseStore1, fuseStore2] (some "borda") method none).map (renamedStore exNegName) :=
  C145_fuse exNegName_injective exEnv _ (sameMachine_renamedEnv _ _ _) _ _ _ _

example : (renamedStore exNegName fuseStore1).data = [(1, [(-11, 5), (-12, 4)]), (2, [(-21, 1)])] := by
  unfold renamedStore fuseStore1 renamedDocs renamed exNegName
  norm_num

end Ranx
