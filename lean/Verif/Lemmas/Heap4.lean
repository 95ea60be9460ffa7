import Verif.Lemmas.Heap3
import Verif.Spec.Heap

/-! `fuse`, `normalize` and `Run(dict)` in memory make the runs of the pure model -/

set_option linter.unusedSectionVars false
set_option linter.unusedSimpArgs false
set_option linter.unusedVariables false

namespace Ranx.Heap
open Dict
open _root_.Ranx.Norm (Results SetIter Kind normSwitch getCandidates bordaNorm)
open _root_.Ranx.Fuse (Score combine unionLoop Env Method Kwargs numArg intArg numsArg tablesArg)

section
variable {κ δ β : Type} [LinearOrder κ] [DecidableEq δ]

theorem collect_map_ok {X Y : Type*} (f : X → Y) (l : List X) :
    Eval.collect (l.map (fun x => (.ok (f x) : Except Err Y))) = .ok (l.map f) := by
  induction l with
  | nil => rfl
  | cons x t ih => simp only [List.map_cons, Eval.collect, ih]

theorem ofDict_makes [LE β] [Neg β] (S : ArgSort β) (d : Dict κ (Dict δ β)) (h : Mem κ δ β) :
    Makes h (ofDict S d h) (Store.ofDict S d) := by
  unfold ofDict Store.ofDict
  by_cases hd : (d.values.all (fun x => x.isEmpty)) = true
  · rw [if_pos hd, if_pos hd]
    exact Makes.error
  · rw [if_neg hd, if_neg hd]
    rw [bind_ok (alloc_apply _ _)]
    obtain ⟨h', m', e1, e2, e3, e4, e5, e6⟩ := addBulk_heap d.keys (d.values.map Dict.keys)
      (d.values.map Dict.values) (h ++ [.queries []]) h.length [] [] (look_new _ _ _) .nil List.nodup_nil
    have hres : Ranx.addBulk [] d.keys (d.values.map Dict.keys) (d.values.map Dict.values)
      = ((Ranx.addBulk [] d.keys (d.values.map Dict.keys) (d.values.map Dict.values)).1,
        (Ranx.addBulk [] d.keys (d.values.map Dict.keys) (d.values.map Dict.values)).2) := rfl
    generalize (Ranx.addBulk [] d.keys (d.values.map Dict.keys) (d.values.map Dict.values)).1 = D' at *
    generalize (Ranx.addBulk [] d.keys (d.values.map Dict.keys) (d.values.map Dict.values)).2 = er at *
    rw [hres]
    have hE : Ext h h' := Changes.trans (Ext.app h [.queries []]) e6 (by
      intro x hx
      rw [List.mem_singleton] at hx
      exact Or.inr (by omega))
    cases er with
    | some e =>
      rw [bind_error e1]
      exact ⟨hE, Or.inr ⟨e, rfl, rfl⟩⟩
    | none =>
      obtain ⟨e, b1, e', b', f1, f2, mm, f3, f4, f5, f6, f7⟩ := sortBoth_ok S e2 e3
      rw [bind_ok e1, bind_ok f1, bind_ok f2, alloc_apply]
      have hl := hE.1
      refine ⟨hE.trans ((Ext.app _ _).trans ((Ext.app _ _).trans (Ext.app _ _))),
        Or.inl ⟨_, _, rfl, rfl, b', mm, ⟨look_new _ _ _, look_app _ f3, f4.app _⟩, f5, ?_⟩⟩
      intro x hx
      simp only [foot, List.mem_cons] at hx
      rcases hx with rfl | rfl | hx
      · simp; omega
      · omega
      · have := f7 x hx; omega

end

section
variable {κ δ : Type} [LinearOrder κ] [DecidableEq δ]

theorem rescored_const (f : Dict δ ℝ → Dict δ ℝ) (sched : List Nat) (D : Dict κ (Dict δ ℝ)) :
    rescored (fun _ => f) sched D = Norm.normParallel f sched D := rfl

theorem rescored_bordaScore (c : List (List δ)) (sched : List Nat) (D : Dict κ (Dict δ ℝ)) :
    rescored (fun i r => Fuse.bordaScore r ((c[i]?).getD [])) sched D
      = Fuse.bordaScoreParallel sched D c := rfl

theorem rescored_bordaNorm (c : List (List δ)) (sched : List Nat) (D : Dict κ (Dict δ ℝ)) :
    rescored (fun i r => bordaNorm r ((c[i]?).getD [])) sched D = Norm.bordaParallel sched D c := rfl

/-- the contents the rescoring loop computes -/
def rescoredAll (g : Nat → Except Err (Nat → Dict δ ℝ → Dict δ ℝ)) (scheds : Nat → List Nat)
    (Ds : List (Dict κ (Dict δ ℝ))) : Except Err (List (Dict κ (Dict δ ℝ))) :=
  Eval.collect (Ds.zipIdx.map (fun rj => (g rj.2).map (fun f => rescored f (scheds rj.2) rj.1)))

theorem rescoredAll_ok (f : Nat → Dict δ ℝ → Dict δ ℝ) (scheds : Nat → List Nat)
    (Ds : List (Dict κ (Dict δ ℝ))) :
    rescoredAll (fun _ => .ok f) scheds Ds = .ok (Ds.zipIdx.map (fun rj => rescored f (scheds rj.2) rj.1)) :=
  collect_map_ok _ _

theorem rescoredAll_with {π : Type} (f : π → Dict δ ℝ → Dict δ ℝ) (ps : List π) (scheds : Nat → List Nat)
    (Ds : List (Dict κ (Dict δ ℝ))) :
    rescoredAll (fun j => (nth ps j).map (fun p _ => f p)) scheds Ds = Fuse.rescoreWith f ps scheds Ds := by
  unfold rescoredAll Fuse.rescoreWith nth
  congr 1
  apply List.map_congr_left
  intro rj _
  simp only
  generalize ps[rj.2]? = o
  cases o <;> rfl

theorem rescoreThen_makes (E : Env δ) (g : Nat → Except Err (Nat → Dict δ ℝ → Dict δ ℝ))
    (hg : ∀ j f, g j = .ok f → ∀ i r, NodupKeys (f i r)) (score : Score δ ℝ) {h : Mem κ δ ℝ}
    {as : List Nat} {Ds : List (Dict κ (Dict δ ℝ))} (H : List.Forall₂ (Holds h) as Ds)
    {out : Except Err (Store κ δ ℝ)}
    (hok : ∀ Ds', rescoredAll g E.scheds Ds = .ok Ds' → out = Fuse.fuseRun E.S score E.sched Ds')
    (herr : ∀ x, rescoredAll g E.scheds Ds = .error x → out = .error x) :
    Makes h (rescoreThen E g score as h) out := by
  obtain ⟨h', E', hr⟩ := rescoreLoop_ok g hg E.scheds as h Ds 0 H
  rcases hr with ⟨as', Ds', l1, l2, l3⟩ | ⟨x, l1, l2⟩
  · rw [rescoreThen, bind_ok l1, hok Ds' l2]
    exact Makes.mono E' (fuseRun_makes E.S score E.sched
      (List.Forall₂.imp (fun a D hab => NewRun.holds hab) l3))
  · rw [rescoreThen, bind_error l1, herr x l2]
    exact ⟨E', Or.inr ⟨x, rfl, rfl⟩⟩

theorem rescoreAllThen_makes (E : Env δ) (f : Dict δ ℝ → Dict δ ℝ) (hf : ∀ r, NodupKeys (f r))
    (score : Score δ ℝ) {h : Mem κ δ ℝ} {as : List Nat} {Ds : List (Dict κ (Dict δ ℝ))}
    (H : List.Forall₂ (Holds h) as Ds) :
    Makes h (rescoreThen E (fun _ => .ok (fun _ => f)) score as h)
      (Fuse.fuseRun E.S score E.sched (Fuse.rescoreAll f E.scheds Ds)) := by
  refine rescoreThen_makes E _ ?_ score H ?_ ?_
  · rintro j f' hf' i r
    cases hf'; exact hf r
  · intro Ds' hd
    rw [rescoredAll_ok] at hd
    cases hd; rfl
  · intro x hx
    rw [rescoredAll_ok] at hx
    cases hx

theorem rescoreWithThen_makes (E : Env δ) {π : Type} (f : π → Dict δ ℝ → Dict δ ℝ)
    (hf : ∀ p r, NodupKeys (f p r)) (ps : List π)
    (score : Score δ ℝ) {h : Mem κ δ ℝ} {as : List Nat} {Ds : List (Dict κ (Dict δ ℝ))}
    (H : List.Forall₂ (Holds h) as Ds) :
    Makes h (rescoreThen E (fun j => (nth ps j).map (fun p _ => f p)) score as h)
      (Fuse.rescoreThen E.S E.sched E.scheds f ps score Ds) := by
  refine rescoreThen_makes E _ ?_ score H ?_ ?_
  · intro j f' hf' i r
    cases hp : nth ps j with
    | error e => rw [hp] at hf'; cases hf'
    | ok p => rw [hp] at hf'; cases hf'; exact hf p r
  · intro Ds' hd
    rw [rescoredAll_with] at hd
    unfold Fuse.rescoreThen
    rw [hd]
  · intro x hx
    rw [rescoredAll_with] at hx
    unfold Fuse.rescoreThen
    rw [hx]

theorem bordaThen_makes (E : Env δ) (score : Score δ ℝ) {h : Mem κ δ ℝ} {as : List Nat}
    {Ds : List (Dict κ (Dict δ ℝ))} (H : List.Forall₂ (Holds h) as Ds) {out : Except Err (Store κ δ ℝ)}
    (hok : ∀ Ds', Fuse.bordaRescored E.scheds E.I Ds = .ok Ds' → out = Fuse.fuseRun E.S score E.sched Ds')
    (herr : ∀ x, Fuse.bordaRescored E.scheds E.I Ds = .error x → out = .error x) :
    Makes h (bordaThen E score as h) out := by
  obtain ⟨ms, r1, r2⟩ := readData_ok H
  rw [bordaThen, bind_ok r1, bind_ok (readContents_ok r2)]
  unfold Fuse.bordaRescored at hok herr
  cases hc : getCandidates E.I Ds with
  | error x =>
    rw [hc] at herr
    rw [bind_error (lift_apply _ _), herr x rfl]
    exact Makes.error
  | ok c =>
    rw [hc] at herr hok
    simp only at herr hok
    rw [bind_ok (lift_apply _ _)]
    by_cases hlen : (Ds.any (fun run => decide (c.length < run.length))) = true
    · rw [if_pos hlen] at herr ⊢
      rw [herr _ rfl]
      exact Makes.error
    · rw [if_neg hlen] at hok ⊢
      refine rescoreThen_makes E _ ?_ score H ?_ ?_
      · intro j f' hf' i r
        cases hf'
        exact nodupKeys_ofList _
      · intro Ds' hd
        rw [rescoredAll_ok] at hd
        cases hd
        exact hok _ rfl
      · intro x hx
        rw [rescoredAll_ok] at hx
        cases hx

theorem condorcetWith_makes (o : List (Dict κ (Results δ ℝ)) → Except Err (Store κ δ ℝ)) {h : Mem κ δ ℝ}
    {as : List Nat} {Ds : List (Dict κ (Dict δ ℝ))} (H : List.Forall₂ (Holds h) as Ds)
    (ho : ∀ s, o Ds = .ok s → s.sorted = false ∧ NodupKeys s.data ∧ ∀ r ∈ Dict.values s.data, NodupKeys r) :
    Makes h (condorcetWith o as h) (o Ds) := by
  obtain ⟨ms, r1, r2⟩ := readData_ok H
  rw [condorcetWith, bind_ok r1, bind_ok (readContents_ok r2)]
  cases hs : o Ds with
  | error x =>
    rw [bind_error (lift_apply _ _)]
    exact Makes.error
  | ok s =>
    obtain ⟨s1, s2, s3⟩ := ho s hs
    rw [bind_ok (lift_apply _ _)]
    have E0 : Ext h (h ++ [.queries [], .run h.length false]) := Ext.app _ _
    obtain ⟨h3, E3, hres⟩ := parallel_ok
      (fun i => kernel (fun _ => .ok ((s.data.values[i]?).getD [])) [])
      (fun i => .ok ((s.data.values[i]?).getD [])) (h ++ [.queries [], .run h.length false])
      (fun h' E' i => kernel_slot (f := fun _ => .ok ((s.data.values[i]?).getD [])) (rs := []) .nil (by
        intro d hd
        cases hd
        cases hv : s.data.values[i]? with
        | none => exact nodupKeys_nil
        | some r => exact s3 r (List.mem_of_getElem? hv)))
      s.data.keys (List.range s.data.length)
    have hcol : Eval.collect (prange (List.replicate s.data.keys.length (.ok []))
        (fun i => (.ok ((s.data.values[i]?).getD []) : Except Err (Dict δ ℝ))) (List.range s.data.length))
        = .ok s.data.values := by
      have hlen : s.data.keys.length = s.data.length := by simp [Dict.keys]
      have hvl : s.data.values.length = s.data.length := by simp [Dict.values]
      rw [prange_eq _ _ _ (by rw [List.length_replicate, hlen]; exact schedule_range _), collect_map_ok,
        List.length_replicate, hlen]
      congr 1
      apply List.ext_getElem?
      intro i
      rw [List.getElem?_map]
      by_cases hi : i < s.data.length
      · rw [List.getElem?_range hi, Option.map_some,
          List.getElem?_eq_getElem (by rw [hvl]; exact hi), Option.getD_some]
      · rw [List.getElem?_eq_none (by simp; omega), List.getElem?_eq_none (by rw [hvl]; omega)]
        rfl
    rcases hres with ⟨b, rs, p1, p2, p3⟩ | ⟨x, p1, p2⟩
    · rw [hcol] at p2
      cases p2
      have hd : Norm.toRun s.data.keys s.data.values = s.data := by
        unfold Norm.toRun
        rw [zip_keys_values, ofList_of_nodup s2]
      rw [hd] at p3
      have hl : (h ++ [Obj.queries [], .run h.length false]).length = h.length + 2 := by simp
      rw [hl] at p3
      obtain ⟨h4, n1, n2, n3⟩ := newRunWith_ok p1 E3 p3
      refine ⟨?_, Or.inl ⟨h.length + 1, s, ?_, rfl, ?_⟩⟩
      · rw [n1]; exact n2
      · rw [n1]
      · rw [n1]
        have : s = ⟨s.data, false⟩ := by rw [← s1]
        rw [this]
        exact n3
    · rw [hcol] at p2
      cases p2

theorem condorcetQuery_nodup (C : Fuse.CmpSort) (lt : List (List Nat) → Nat → Nat → Bool)
    (results : List (List δ)) (c : List δ) :
    NodupKeys (Fuse.condorcetQuery (α := ℝ) C lt results c) := nodupKeys_ofList _

theorem mem_values_ofList {ν : Type*} {l : List (κ × ν)} {x : ν} (hx : x ∈ Dict.values (ofList l)) :
    x ∈ l.map Prod.snd := by
  rcases mem_values_foldl _ hx with hx | hx
  · exact hx
  · cases hx

theorem pure_condorcetWith (C : Fuse.CmpSort) (I : SetIter δ) (lt : List (List Nat) → Nat → Nat → Bool)
    (Ds : List (Dict κ (Results δ ℝ))) (s : Store κ δ ℝ) (hs : Fuse.condorcetWith C I lt Ds = .ok s) :
    s.sorted = false ∧ NodupKeys s.data ∧ ∀ r ∈ Dict.values s.data, NodupKeys r := by
  unfold Fuse.condorcetWith at hs
  cases h1 : Fuse.getResults Ds with
  | error e => rw [h1] at hs; cases hs
  | ok rs =>
    rw [h1] at hs
    simp only at hs
    cases h2 : getCandidates I Ds with
    | error e => rw [h2] at hs; cases hs
    | ok c =>
      rw [h2] at hs
      simp only [Except.ok.injEq] at hs
      subst hs
      refine ⟨rfl, nodupKeys_ofList _, ?_⟩
      intro r hr
      have := mem_values_ofList hr
      obtain ⟨p, hp, rfl⟩ := List.mem_map.1 this
      have := (List.of_mem_zip hp).2
      obtain ⟨rc, _, hrc⟩ := List.mem_map.1 this
      rw [← hrc]
      exact condorcetQuery_nodup _ _ _ _

theorem pure_weightedCondorcet (C : Fuse.CmpSort) (I : SetIter δ) (ws : List ℝ)
    (Ds : List (Dict κ (Results δ ℝ))) (s : Store κ δ ℝ) (hs : Fuse.weightedCondorcet C I ws Ds = .ok s) :
    s.sorted = false ∧ NodupKeys s.data ∧ ∀ r ∈ Dict.values s.data, NodupKeys r := by
  unfold Fuse.weightedCondorcet at hs
  cases h2 : getCandidates I Ds with
  | error e => rw [h2] at hs; cases hs
  | ok c =>
    rw [h2] at hs
    simp only at hs
    by_cases hc : ws.length < Ds.length ∧ (c.any (fun c => decide (2 ≤ c.length))) = true
    · rw [if_pos hc] at hs; cases hs
    · rw [if_neg hc] at hs
      exact pure_condorcetWith _ _ _ _ _ hs

theorem bindArg_makes {X : Type} {h : Mem κ δ ℝ} (a : Except Err X) {f : X → Prog κ δ ℝ Nat}
    {F : X → Except Err (Store κ δ ℝ)} (hf : ∀ x, Makes h (f x h) (F x)) :
    Makes h (bindArg a f h) (Fuse.bindArg a F) := by
  cases a with
  | error e => exact Makes.error
  | ok x => exact hf x

theorem rankLoop_nodup (f : Nat → ℝ → ℝ) (r : Dict δ ℝ) : NodupKeys (Fuse.rankLoop f r) := nodupKeys_ofList _

theorem probScore_nodup (p : List ℝ) (r : Dict δ ℝ) : NodupKeys (Fuse.probScore p r) := by
  unfold Fuse.probScore; exact rankLoop_nodup _ _
theorem segScore_nodup (p : List ℝ) (r : Dict δ ℝ) : NodupKeys (Fuse.segScore p r) := by
  unfold Fuse.segScore; exact rankLoop_nodup _ _

theorem call_makes (E : Env δ) (m : Method) (params : Kwargs) {h : Mem κ δ ℝ} {as : List Nat}
    {Ds : List (Dict κ (Dict δ ℝ))} (H : List.Forall₂ (Holds h) as Ds) :
    Makes h (call E m params as h) (m.call E params Ds) := by
  have hlen := H.length_eq
  unfold call Fuse.Method.call
  by_cases hp : (params.keys.all (fun k => decide (k ∈ m.parameters))) = true
  · rw [if_pos hp, if_pos hp]
    cases m with
    | bayesfuse =>
      exact bindArg_makes _ fun t => rescoreWithThen_makes E _ (fun p r => rankLoop_nodup _ _) t _ H
    | bordafuse =>
      refine bordaThen_makes E _ H ?_ ?_
      · intro Ds' hd; simp only [Fuse.bordafuse, hd]; rfl
      · intro x hx; simp only [Fuse.bordafuse, hx]
    | combAnz => exact fuseRun_makes E.S _ E.sched H
    | combGmnz => exact bindArg_makes _ fun g => fuseRun_makes E.S _ E.sched H
    | combMax => exact fuseRun_makes E.S _ E.sched H
    | combMed => exact fuseRun_makes E.S _ E.sched H
    | combMin => exact fuseRun_makes E.S _ E.sched H
    | combMnz => exact fuseRun_makes E.S _ E.sched H
    | combSum => exact fuseRun_makes E.S _ E.sched H
    | condorcet => exact condorcetWith_makes _ H (fun s hs => pure_condorcetWith _ _ _ _ s hs)
    | isr => exact rescoreAllThen_makes E _ (fun r => rankLoop_nodup _ _) _ H
    | logIsr => exact rescoreAllThen_makes E _ (fun r => rankLoop_nodup _ _) _ H
    | lognIsr =>
      refine bindArg_makes _ fun s => ?_
      unfold lognThen Fuse.lognIsr
      by_cases hs : 0 ≤ s ∧ s ≤ 1
      · rw [if_pos hs, if_pos hs]
        exact rescoreAllThen_makes E _ (fun r => rankLoop_nodup _ _) _ H
      · rw [if_neg hs, if_neg hs]
        exact Makes.error
    | mapfuse =>
      exact bindArg_makes _ fun t => rescoreWithThen_makes E _ (fun p r => rankLoop_nodup _ _) t _ H
    | mixed => exact bindArg_makes _ fun ws => fuseRun_makes E.S _ E.sched H
    | posfuse =>
      exact bindArg_makes _ fun t => rescoreWithThen_makes E _ (fun p r => rankLoop_nodup _ _) t _ H
    | probfuse =>
      refine bindArg_makes _ fun t => ?_
      unfold Fuse.probfuse
      rw [hlen]
      by_cases hs : ((t.take Ds.length).any (fun p => p.isEmpty)) = true
      · rw [if_pos hs, if_pos hs]
        exact Makes.error
      · rw [if_neg hs, if_neg hs]
        exact rescoreWithThen_makes E Fuse.probScore probScore_nodup t _ H
    | rbc =>
      exact bindArg_makes _ fun t => rescoreAllThen_makes E _ (fun r => rankLoop_nodup _ _) _ H
    | rrf =>
      refine bindArg_makes _ fun t => ?_
      obtain ⟨ms, r1, r2⟩ := readData_ok H
      rw [rrfThen, bind_ok r1, bind_ok (readContents_ok r2)]
      unfold Fuse.rrf
      by_cases hs : Fuse.rankZero t Ds = true
      · rw [if_pos hs, if_pos hs]
        exact Makes.error
      · rw [if_neg hs, if_neg hs]
        exact rescoreAllThen_makes E _ (fun r => rankLoop_nodup _ _) _ H
    | segfuse =>
      refine bindArg_makes _ fun t => ?_
      unfold Fuse.segfuse
      rw [hlen]
      by_cases hs : ((t.take Ds.length).any (fun p => decide (10 < p.length))) = true
      · rw [if_pos hs, if_pos hs]
        exact Makes.error
      · rw [if_neg hs, if_neg hs]
        exact rescoreWithThen_makes E Fuse.segScore segScore_nodup t _ H
    | slidefuse =>
      exact bindArg_makes _ fun t => bindArg_makes _ fun w =>
        rescoreWithThen_makes E (fun p => Fuse.slideScore p w) (fun p r => rankLoop_nodup _ _) t _ H
    | weightedBordafuse =>
      refine bindArg_makes _ fun ws => bordaThen_makes E _ H ?_ ?_
      · intro Ds' hd; simp only [Fuse.weightedBordafuse, hd]; rfl
      · intro x hx; simp only [Fuse.weightedBordafuse, hx]
    | weightedCondorcet =>
      exact bindArg_makes _ fun ws => condorcetWith_makes _ H (fun s hs => pure_weightedCondorcet _ _ _ _ s hs)
    | wmnz => exact bindArg_makes _ fun ws => fuseRun_makes E.S _ E.sched H
    | wsum => exact bindArg_makes _ fun ws => fuseRun_makes E.S _ E.sched H
  · rw [if_neg hp, if_neg hp]
    exact Makes.error

/-! ### normalization -/

/-- a run of the given content, newly made, whatever its flag -/
def NewHolds (n : Nat) (h : Mem κ δ ℝ) (a : Nat) (D : Dict κ (Dict δ ℝ)) : Prop :=
  ∃ f, NewRun n h a ⟨D, f⟩

theorem normLoop_nodup (r : Dict δ ℝ) (f : ℝ → ℝ) : NodupKeys (Norm.normLoop r f) := nodupKeys_ofList _

theorem minMax_nodup (b : Bool) (r : Dict δ ℝ) : NodupKeys (Norm.minMax b r) := by
  unfold Norm.minMax; exact normLoop_nodup _ _
theorem maxNorm_nodup (r : Dict δ ℝ) : NodupKeys (Norm.maxNorm r) := by
  unfold Norm.maxNorm; exact normLoop_nodup _ _
theorem sumNorm_nodup (r : Dict δ ℝ) : NodupKeys (Norm.sumNorm r) := by
  unfold Norm.sumNorm; exact normLoop_nodup _ _
theorem zmuv_nodup (r : Dict δ ℝ) : NodupKeys (Norm.zmuv r) := by
  unfold Norm.zmuv; exact normLoop_nodup _ _
theorem rankNorm_nodup (r : Dict δ ℝ) : NodupKeys (Norm.rankNorm r) := nodupKeys_ofList _

theorem rescoreRun_ok (E : Env δ) (f : Dict δ ℝ → Dict δ ℝ) (hf : ∀ r, NodupKeys (f r)) (sched : List Nat)
    {h : Mem κ δ ℝ} {a : Nat} {s : Store κ δ ℝ} (H : Holds h a s.data) :
    Makes h (rescore (fun _ => f) sched a h) (.ok (Norm.normRun f sched s)) := by
  obtain ⟨a', h', r1, r2, r3⟩ := rescore_ok (fun _ => f) (fun _ r => hf r) sched H
  rw [r1]
  exact ⟨r2, Or.inl ⟨a', _, rfl, rfl, r3⟩⟩

theorem normOne_makes (E : Env δ) (k : Kind) (hk : k ≠ .borda) (j : Nat) {h : Mem κ δ ℝ} {a : Nat}
    {s : Store κ δ ℝ} (H : Holds h a s.data) :
    Makes h (normOne E k j a h) (.ok (Fuse.normOne E k j s)) := by
  cases k with
  | borda => exact absurd rfl hk
  | max => exact rescoreRun_ok E Norm.maxNorm maxNorm_nodup _ H
  | minMax => exact rescoreRun_ok E (Norm.minMax false) (minMax_nodup false) _ H
  | rank => exact rescoreRun_ok E Norm.rankNorm rankNorm_nodup _ H
  | sum => exact rescoreRun_ok E Norm.sumNorm sumNorm_nodup _ H
  | zmuv => exact rescoreRun_ok E Norm.zmuv zmuv_nodup _ H
  | minMaxInverted =>
    obtain ⟨a', h', r1, r2, b4, m4, f1, f2, f3⟩ :=
      rescore_ok (fun _ => Norm.minMax true) (fun _ r => minMax_nodup true r) (E.normScheds j) H
    obtain ⟨h5, b5, m5, g1, g2, g3, g4, g5⟩ := sort_spec E.S f1
    have hrun : normOne E .minMaxInverted j a h = (.ok a', h5) := by
      show (rescore (fun _ => Norm.minMax true) (E.normScheds j) a >>= fun a' =>
        sort E.S a' >>= fun _ => pure a') h = _
      rw [bind_ok r1, bind_ok g1, pure_apply]
    rw [hrun]
    have ha' : h.length ≤ a' := f3 a' (by simp [foot])
    refine ⟨Changes.trans r2 g5 (by intro x hx; rw [List.mem_singleton] at hx; exact Or.inr (by omega)),
      Or.inl ⟨a', _, rfl, rfl, b5, m5, g2, g3, ?_⟩⟩
    intro x hx
    rcases List.mem_cons.mp hx with rfl | hx
    · exact ha'
    · exact le_trans r2.1 (g4 x hx)

theorem normLoop_ok (E : Env δ) (k : Kind) (hk : k ≠ .borda) (as : List Nat) :
    ∀ (h : Mem κ δ ℝ) (ss : List (Store κ δ ℝ)) (j : Nat),
    List.Forall₂ (fun a s => Holds h a s.data) as ss →
    ∃ h' as', normLoop E k as j h = (.ok as', h') ∧ Ext h h' ∧
      List.Forall₂ (fun a s => NewRun h.length h' a s) as'
        ((ss.zipIdx j).map (fun rj => Fuse.normOne E k rj.2 rj.1)) := by
  induction as with
  | nil =>
    intro h ss j H
    cases H
    exact ⟨h, [], rfl, Ext.refl h, .nil⟩
  | cons a t ih =>
    intro h ss j H
    cases H with
    | @cons _ s _ ss ha ht =>
      obtain ⟨E1, hm⟩ := normOne_makes E k hk j ha
      rcases hm with ⟨a', s', e1, e2, e3⟩ | ⟨x, _, e2⟩
      · cases e2
        obtain ⟨h', as', l1, l2, l3⟩ := ih (normOne E k j a h).2 ss (j + 1)
          (List.Forall₂.imp (fun _ _ hab => hab.ext E1) ht)
        refine ⟨h', a' :: as', ?_, E1.trans l2, ?_⟩
        · have : normOne E k j a h = (.ok a', (normOne E k j a h).2) := by rw [← e1]
          rw [normLoop, bind_ok this, bind_ok l1, pure_apply]
        · rw [List.zipIdx_cons, List.map_cons]
          exact .cons (e3.ext l2) (List.Forall₂.imp (fun _ _ hab => hab.mono E1.1) l3)
      · cases e2

theorem normSwitch_borda {n : String} {k : Kind} (hn : n ≠ "borda") (h : normSwitch n = .ok k) :
    k ≠ .borda := by
  unfold normSwitch at h
  rw [if_neg hn] at h
  rintro rfl
  by_cases h1 : n = "max"
  · rw [if_pos h1] at h; cases h
  rw [if_neg h1] at h
  by_cases h1 : n = "min_max" ∨ n = "min-max"
  · rw [if_pos h1] at h; cases h
  rw [if_neg h1] at h
  by_cases h1 : n = "min_max_inverted" ∨ n = "min-max-inverted"
  · rw [if_pos h1] at h; cases h
  rw [if_neg h1] at h
  by_cases h1 : n = "rank"
  · rw [if_pos h1] at h; cases h
  rw [if_neg h1] at h
  by_cases h1 : n = "sum"
  · rw [if_pos h1] at h; cases h
  rw [if_neg h1] at h
  by_cases h1 : n = "zmuv"
  · rw [if_pos h1] at h; cases h
  rw [if_neg h1] at h
  cases h

/-- what `bordaNorms` and the loop over the runs do: new objects, the contents of the pure model -/
def MakesAll (h : Mem κ δ ℝ) (r : Except Err (List Nat) × Mem κ δ ℝ)
    (out : Except Err (List (Dict κ (Dict δ ℝ)))) : Prop :=
  Ext h r.2 ∧ ((∃ as Ds, r.1 = .ok as ∧ out = .ok Ds ∧ List.Forall₂ (Holds r.2) as Ds) ∨
    ∃ x, r.1 = .error x ∧ out = .error x)

theorem bordaNorms_makes (E : Env δ) {h : Mem κ δ ℝ} {as : List Nat}
    {Ds : List (Dict κ (Dict δ ℝ))} (H : List.Forall₂ (Holds h) as Ds) :
    MakesAll h (bordaNorms E as h) (Norm.bordaRuns E.I E.normScheds Ds) := by
  obtain ⟨ms, r1, r2⟩ := readData_ok H
  rw [bordaNorms, bind_ok r1, bind_ok (readContents_ok r2)]
  unfold Norm.bordaRuns
  cases hc : getCandidates E.I Ds with
  | error x =>
    rw [bind_error (lift_apply _ _)]
    exact ⟨Ext.refl h, Or.inr ⟨x, rfl, rfl⟩⟩
  | ok c =>
    simp only
    rw [bind_ok (lift_apply _ _)]
    by_cases hlen : (Ds.any (fun run => decide (c.length < run.length))) = true
    · rw [if_pos hlen, if_pos hlen]
      exact ⟨Ext.refl h, Or.inr ⟨_, rfl, rfl⟩⟩
    · rw [if_neg hlen, if_neg hlen]
      obtain ⟨h', E', hr⟩ := rescoreLoop_ok
        (fun _ => .ok (fun i r => bordaNorm r ((c[i]?).getD []))) (by
          intro j f' hf' i r
          cases hf'
          exact nodupKeys_ofList _) E.normScheds as h Ds 0 H
      have hcol : Eval.collect (Ds.zipIdx.map (fun rj =>
          ((.ok (fun i r => bordaNorm r ((c[i]?).getD [])) : Except Err (Nat → Dict δ ℝ → Dict δ ℝ))).map
            (fun f => rescored f (E.normScheds rj.2) rj.1)))
          = .ok (Ds.zipIdx.map (fun rj => Norm.bordaParallel (E.normScheds rj.2) rj.1 c)) :=
        collect_map_ok _ _
      rcases hr with ⟨as', Ds', l1, l2, l3⟩ | ⟨x, l1, l2⟩
      · rw [hcol] at l2
        cases l2
        rw [l1]
        exact ⟨E', Or.inl ⟨_, _, rfl, rfl, List.Forall₂.imp (fun _ _ hab => hab.holds) l3⟩⟩
      · rw [hcol] at l2
        cases l2

theorem normalizeRuns_makes (E : Env δ) (norm : Option String) {h : Mem κ δ ℝ} {as : List Nat}
    {ss : List (Store κ δ ℝ)} (H : List.Forall₂ (fun a s => Holds h a s.data) as ss) :
    MakesAll h (normalizeRuns E norm as h) (Fuse.normalizeRuns E norm ss) := by
  have H' : List.Forall₂ (Holds h) as (ss.map (fun s => s.data)) := by
    rw [List.forall₂_map_right_iff]; exact H
  unfold normalizeRuns Fuse.normalizeRuns
  cases norm with
  | none => exact ⟨Ext.refl h, Or.inl ⟨as, _, rfl, rfl, H'⟩⟩
  | some n =>
    simp only
    by_cases hn : n ≠ "borda"
    · rw [if_pos hn, if_pos hn]
      cases hk : normSwitch n with
      | error e =>
        rw [bind_error (lift_apply _ _)]
        exact ⟨Ext.refl h, Or.inr ⟨e, rfl, rfl⟩⟩
      | ok k =>
        rw [bind_ok (lift_apply _ _)]
        obtain ⟨h', as', l1, l2, l3⟩ := normLoop_ok E k (normSwitch_borda hn hk) as h ss 0 H
        rw [l1]
        refine ⟨l2, Or.inl ⟨as', _, rfl, rfl, ?_⟩⟩
        have := List.Forall₂.imp (fun _ _ hab => NewRun.holds hab) l3
        rw [List.forall₂_map_right_iff] at this ⊢
        exact this
    · rw [if_neg hn, if_neg hn]
      exact bordaNorms_makes E H'

theorem sameKeys_data (a b a' b' : Store κ δ ℝ) (ha : a.data = a'.data) (hb : b.data = b'.data) :
    Fuse.sameKeys a b = Fuse.sameKeys a' b' := by
  unfold Fuse.sameKeys; rw [ha, hb]

theorem pairwiseSameKeys_data (ss : List (Store κ δ ℝ)) :
    Fuse.pairwiseSameKeys ((ss.map (fun s => s.data)).map (fun c => (⟨c, false⟩ : Store κ δ ℝ)))
      = Fuse.pairwiseSameKeys ss := by
  induction ss with
  | nil => rfl
  | cons s t ih =>
    simp only [List.map_cons, Fuse.pairwiseSameKeys, ih]
    congr 1
    simp only [List.map_map, List.all_map]
    rfl

theorem fuse_makes (E : Env δ) (norm : Option String) (method : String) (params : Option Kwargs)
    {h : Mem κ δ ℝ} {as : List Nat} {ss : List (Store κ δ ℝ)}
    (H : List.Forall₂ (fun a s => Holds h a s.data) as ss) :
    Makes h (fuse E as norm method params h) (Fuse.fuse E ss norm method params) := by
  have H' : List.Forall₂ (Holds h) as (ss.map (fun s => s.data)) := by
    rw [List.forall₂_map_right_iff]; exact H
  unfold fuse Fuse.fuse
  rw [H.length_eq]
  by_cases hl : ss.length ≤ 1
  · rw [if_pos hl, if_pos hl]
    exact Makes.error
  · rw [if_neg hl, if_neg hl]
    obtain ⟨ms, r1, r2⟩ := readData_ok H'
    rw [bind_ok r1, bind_ok (readContents_ok r2), pairwiseSameKeys_data]
    by_cases hs : Fuse.pairwiseSameKeys ss = true
    · rw [if_pos hs, if_pos hs]
      obtain ⟨E1, hm⟩ := normalizeRuns_makes E norm H
      rcases hm with ⟨as', Ds, e1, e2, e3⟩ | ⟨x, e1, e2⟩
      · have e1' : normalizeRuns E norm as h = (.ok as', (normalizeRuns E norm as h).2) := by rw [← e1]
        rw [e2, bind_ok e1']
        simp only
        cases hf : Fuse.fusionSwitch method with
        | error x =>
          rw [bind_error (lift_apply _ _)]
          exact ⟨E1, Or.inr ⟨x, rfl, rfl⟩⟩
        | ok m =>
          rw [bind_ok (lift_apply _ _)]
          exact Makes.mono E1 (call_makes E m (params.getD []) e3)
      · have e1' : normalizeRuns E norm as h = (.error x, (normalizeRuns E norm as h).2) := by rw [← e1]
        rw [e2, bind_error e1']
        exact ⟨E1, Or.inr ⟨x, rfl, rfl⟩⟩
    · rw [if_neg hs, if_neg hs]
      exact Makes.error

theorem normalize_makes (E : Env δ) (norm : String) {h : Mem κ δ ℝ} {a : Nat} {s : Store κ δ ℝ}
    (H : Holds h a s.data) : Makes h (normalize E norm a h) (Spec.normalized E norm s) := by
  unfold normalize Spec.normalized
  cases hk : normSwitch norm with
  | error e =>
    rw [bind_error (lift_apply _ _)]
    exact Makes.error
  | ok k =>
    rw [bind_ok (lift_apply _ _)]
    simp only
    by_cases hb : k = .borda
    · rw [if_pos hb, if_pos hb]
      exact Makes.error
    · rw [if_neg hb, if_neg hb]
      exact normOne_makes E k hb 0 H

end
end Ranx.Heap
