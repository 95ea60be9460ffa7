import Verif.Props.QueryNames
import Verif.Props.CompareSubset
import Verif.Props.Plot

/-!
# Property C162: query ids are only names for `compare` and `plot`

Two comparisons of the same runs whose queries have other ids (so that ranx lists them in another order) report
the same scores and the same wins, ties and losses, and any test that does not look at the order of the queries
gives the same p-values; the curves of the two plots are the same.
-/

set_option linter.unusedSectionVars false

namespace Ranx
open Dict Store Eval Metrics Py Stat Rep

section
variable {κ κ' δ ι α : Type*}
variable [LinearOrder κ] [LinearOrder κ'] [DecidableEq δ] [LinearOrder ι] [Field α] [LinearOrder α]
  [IsStrictOrderedRing α]

/-- what `evaluate` returns query by query -/
theorem perQuery_keyed {F : Fn α} {other : Str → Except Err α} {SQ : ArgSort Int} {SR : ArgSort α}
    {hash : δ → ι} {mc : Bool} {s : Store κ δ Int} {r : RunObj κ δ α} {m : Str} {l : List (Num α)}
    (hs : Spec.Usable SQ s) (hr : Spec.Usable SR r.store)
    (h : Spec.PerQuery F other SQ SR hash mc s r m l) :
    ∃ f : Kernel ι α, metricOf F other m = .ok f ∧
      (s.ensureSorted SQ).data.keys = ((comparable SR (cmpOpts mc) s r).ensureSorted SR).data.keys ∧
      (s.ensureSorted SQ).data.keys.map (fun q =>
        f (asRows hash (fun z : Int => (z : α)) (((s.ensureSorted SQ).data.get? q).getD []))
          (asRows hash id ((((comparable SR (cmpOpts mc) s r).ensureSorted SR).data.get? q).getD []))) =
        l.map .ok := by
  have h0 := hs.ok
  have h1 := comparable_ok SR (cmpOpts mc) s r hr.ok
  obtain ⟨after, h⟩ := h
  rw [evaluate_obj] at h
  by_cases hk : sameKeys s.data.keys (comparable SR (cmpOpts mc) s r).data.keys = true
  · rw [if_pos hk] at h
    have al := aligned SQ SR s (comparable SR (cmpOpts mc) s r) h0 h1 hk
    obtain ⟨wA, cA, kA, rA, oA, lA⟩ := ensureSorted_facts SQ s h0.1 h0.2
    obtain ⟨wB, cB, kB, rB, oB, lB⟩ := ensureSorted_facts SR (comparable SR (cmpOpts mc) s r) h1.1 h1.2
    have e0 : ∀ Q R : List (Rows ι α), scoreAll F other (fun _ => List.range s.data.length) Q R ([m] : List Str).zipIdx [] =
        match metricOf F other m with
        | .error e => .error e
        | .ok f => match parallel f (List.range s.data.length) Q R with
          | .error e => .error e
          | .ok l => .ok [(m, l)] := by
      intro Q R
      show scoreAll F other _ Q R [(m, 0)] [] = _
      unfold scoreAll
      cases metricOf (ι := ι) F other m with
      | error e => rfl
      | ok f =>
        simp only
        cases parallel f (List.range s.data.length) Q R <;> rfl
    rw [e0] at h
    cases hf : metricOf (ι := ι) F other m with
    | error e => rw [hf] at h; cases h
    | ok f =>
      rw [hf] at h
      simp only at h
      rw [parallel_by_key hash _ _ _ wA.1 wB.1 al f _ (by rw [lA]; exact schedule_range _)] at h
      refine ⟨f, rfl, al, ?_⟩
      generalize hcol : collect ((s.ensureSorted SQ).data.keys.map (fun q =>
        f (asRows hash (fun z : Int => (z : α)) (((s.ensureSorted SQ).data.get? q).getD []))
          (asRows hash id ((((comparable SR (cmpOpts mc) s r).ensureSorted SR).data.get? q).getD [])))) = C at h
      cases C with
      | error e => cases h
      | ok l' =>
        simp only [Prod.mk.injEq] at h
        have hout : outOf F other (cmpOpts mc) true [(m, l')] [m] = .ok (.single (.scores l')) := by
          unfold outOf
          simp only
          have hlast : lastM other (cmpOpts mc) true m = m := by unfold lastM; simp [cmpOpts]
          rw [hlast]
          simp [Dict.get?, present, cmpOpts]
        rw [hout] at h
        have e := h.2
        simp only [Except.ok.injEq, Out.single.injEq, Value.scores.injEq] at e
        subst e
        exact (collect_ok_iff _ _).1 hcol
  · rw [if_neg hk] at h; cases h

/-- the value of a query under its new name -/
theorem value_renamed {F : Fn α} {other : Str → Except Err α} {SQ SQ' : ArgSort Int} {SR SR' : ArgSort α}
    {hash : δ → ι} {o : Opts} {g : κ → κ'} {s : Store κ δ Int} {s' : Store κ' δ Int} {r : RunObj κ δ α}
    {r' : RunObj κ' δ α} (hg : Function.Injective g)
    (hs : Spec.Usable SQ s) (hs' : Spec.Usable SQ' s') (hr : Spec.Usable SR r.store) (hr' : Spec.Usable SR' r'.store)
    (hq : Spec.QueriesRenamed g s s') (hqr : Spec.QueriesRenamed g r.store r'.store)
    (ha : ∀ q ∈ s.data.keys, Spec.JudgedApart hash s q)
    (htie : ∀ q d d' v, (Spec.content r.store).read q d = some v → (Spec.content r.store).read q d' = some v → d = d')
    (al : (s.ensureSorted SQ).data.keys = ((comparable SR o s r).ensureSorted SR).data.keys)
    (al' : (s'.ensureSorted SQ').data.keys = ((comparable SR' o s' r').ensureSorted SR').data.keys)
    (q : κ) (hqA : q ∈ (s.ensureSorted SQ).data.keys) (m : Str) (f : Kernel ι α) (hf : metricOf F other m = .ok f) :
    f (asRows hash (fun z : Int => (z : α)) (((s'.ensureSorted SQ').data.get? (g q)).getD []))
      (asRows hash id ((((comparable SR' o s' r').ensureSorted SR').data.get? (g q)).getD [])) =
    f (asRows hash (fun z : Int => (z : α)) (((s.ensureSorted SQ).data.get? q).getD []))
      (asRows hash id ((((comparable SR o s r).ensureSorted SR).data.get? q).getD [])) := by
  have h0 := hs.ok
  have h0' := hs'.ok
  have h1 := comparable_ok SR o s r hr.ok
  have h1' := comparable_ok SR' o s' r' hr'.ok
  have qk : ∀ q, g q ∈ s'.data.keys ↔ q ∈ s.data.keys := fun q => by
    rw [hq.queries]
    exact ⟨fun ⟨q2, h2, e⟩ => hg e ▸ h2, fun h => ⟨q, h, rfl⟩⟩
  have rk : ∀ q, g q ∈ r'.store.data.keys ↔ q ∈ r.store.data.keys := fun q => by
    rw [hqr.queries]
    exact ⟨fun ⟨q2, h2, e⟩ => hg e ▸ h2, fun h => ⟨q, h, rfl⟩⟩
  obtain ⟨wA, cA, kA, rA, oA, lA⟩ := ensureSorted_facts SQ s h0.1 h0.2
  obtain ⟨wA', cA', kA', rA', oA', lA'⟩ := ensureSorted_facts SQ' s' h0'.1 h0'.2
  obtain ⟨wB, cB, kB, rB, oB, lB⟩ := ensureSorted_facts SR (comparable SR o s r) h1.1 h1.2
  obtain ⟨wB', cB', kB', rB', oB', lB'⟩ := ensureSorted_facts SR' (comparable SR' o s' r') h1'.1 h1'.2
  have hqs : q ∈ s.data.keys := (kA q).1 hqA
  obtain ⟨jl, hjl⟩ := Option.isSome_iff_exists.1 (get?_isSome.2 hqA)
  obtain ⟨rl, hrl⟩ := Option.isSome_iff_exists.1 (get?_isSome.2 (al ▸ hqA))
  have hqA' : g q ∈ (s'.ensureSorted SQ').data.keys := (kA' _).2 ((qk q).2 hqs)
  obtain ⟨jl', hjl'⟩ := Option.isSome_iff_exists.1 (get?_isSome.2 hqA')
  obtain ⟨rl', hrl'⟩ := Option.isSome_iff_exists.1 (get?_isSome.2 (al' ▸ hqA'))
  rw [hjl, hrl, hjl', hrl']
  simp only [Option.getD_some]
  have R1 := ranking_of_mem _ wA rA hjl
  have R2 := ranking_of_mem _ wA' rA' hjl'
  have R3 := ranking_of_mem _ wB rB hrl
  have R4 := ranking_of_mem _ wB' rB' hrl'
  rw [cA] at R1
  rw [cA'] at R2
  rw [cB] at R3
  rw [cB'] at R4
  have hread : ∀ d, (Spec.content (comparable SR' o s' r')).read (g q) d = (Spec.content (comparable SR o s r)).read q d := by
    intro d
    rw [read_comparable SR o s r hr.ok.1 q hqs, read_comparable SR' o s' r' hr'.ok.1 (g q) ((qk q).2 hqs)]
    by_cases hqr' : q ∈ r.store.data.keys
    · exact hqr.docs q hqr' d
    · have none1 : r.store.data.get? q = none := get?_eq_none.2 hqr'
      have none2 : r'.store.data.get? (g q) = none := get?_eq_none.2 (fun h => hqr' ((rk q).1 h))
      unfold Spec.Content.read Spec.content
      rw [none1, none2]
  have e := ranking_tieFree R3 R4 hread (by
    intro d d' v h h'
    rw [read_comparable SR o s r hr.ok.1 q hqs] at h h'
    exact htie q d d' v h h')
  subst e
  exact (metricOf_qrels F other m f hf _ _ _ (sameRows_renamed (ha q hqs) (hq.docs q hqs) R1 R2)).symm

/-- the queries of the renamed qrels, sorted, are the new names in some order -/
theorem keys_renamed {SQ SQ' : ArgSort Int} {g : κ → κ'} {s : Store κ δ Int} {s' : Store κ' δ Int}
    (hg : Function.Injective g) (hs : Spec.Usable SQ s) (hs' : Spec.Usable SQ' s')
    (hq : Spec.QueriesRenamed g s s') :
    (s'.ensureSorted SQ').data.keys.Perm ((s.ensureSorted SQ).data.keys.map g) := by
  obtain ⟨wA, cA, kA, rA, oA, lA⟩ := ensureSorted_facts SQ s hs.ok.1 hs.ok.2
  obtain ⟨wA', cA', kA', rA', oA', lA'⟩ := ensureSorted_facts SQ' s' hs'.ok.1 hs'.ok.2
  refine (List.perm_ext_iff_of_nodup wA'.1 ((List.nodup_map_iff hg).2 wA.1)).2 ?_
  intro q'
  change q' ∈ (s'.ensureSorted SQ').data.keys ↔ q' ∈ List.map g (s.ensureSorted SQ).data.keys
  rw [kA', hq.queries, List.mem_map]
  simp only [kA]

/-- Specification: the run `r'` has the name of `r` and holds what `r` holds, query `q` being called `g q`; no two
docs of a query of `r` have the same score. -/
structure Spec.RunRenamed (g : κ → κ') (r : NamedRun κ δ α) (r' : NamedRun κ' δ α) : Prop where
  name : r'.name = r.name
  queries : Spec.QueriesRenamed g r.obj.store r'.obj.store
  apart : ∀ q d d' v, (Spec.content r.obj.store).read q d = some v →
    (Spec.content r.obj.store).read q d' = some v → d = d'

/-- the per-query scores of two runs, side by side, are the same pairs in another order -/
theorem perQuery_pairs {F : Fn α} {other : Str → Except Err α} {SQ SQ' : ArgSort Int} {SR SR' : ArgSort α}
    {hash : δ → ι} {mc : Bool} {g : κ → κ'} {s : Store κ δ Int} {s' : Store κ' δ Int} (hg : Function.Injective g)
    (hs : Spec.Usable SQ s) (hs' : Spec.Usable SQ' s') (hq : Spec.QueriesRenamed g s s')
    (ha : ∀ q ∈ s.data.keys, Spec.JudgedApart hash s q)
    {r₁ r₂ : NamedRun κ δ α} {r₁' r₂' : NamedRun κ' δ α}
    (h₁ : Spec.RunRenamed g r₁ r₁') (h₂ : Spec.RunRenamed g r₂ r₂')
    (u₁ : Spec.Usable SR r₁.obj.store) (u₂ : Spec.Usable SR r₂.obj.store)
    (u₁' : Spec.Usable SR' r₁'.obj.store) (u₂' : Spec.Usable SR' r₂'.obj.store) {m : Str}
    {l₁ l₂ l₁' l₂' : List (Num α)}
    (p₁ : Spec.PerQuery F other SQ SR hash mc s r₁.obj m l₁) (p₂ : Spec.PerQuery F other SQ SR hash mc s r₂.obj m l₂)
    (p₁' : Spec.PerQuery F other SQ' SR' hash mc s' r₁'.obj m l₁')
    (p₂' : Spec.PerQuery F other SQ' SR' hash mc s' r₂'.obj m l₂') :
    l₁.length = l₂.length ∧ l₁'.length = l₂'.length ∧ (l₁'.zip l₂').Perm (l₁.zip l₂) := by
  obtain ⟨f, hf, a₁, e₁⟩ := perQuery_keyed hs u₁ p₁
  obtain ⟨f2, hf2, a₂, e₂⟩ := perQuery_keyed hs u₂ p₂
  obtain ⟨f3, hf3, a₁', e₁'⟩ := perQuery_keyed hs' u₁' p₁'
  obtain ⟨f4, hf4, a₂', e₂'⟩ := perQuery_keyed hs' u₂' p₂'
  rw [hf] at hf2 hf3 hf4
  cases hf2; cases hf3; cases hf4
  have len : ∀ {κ₀ : Type _} {ν : Type _} {K : List κ₀} {φ : κ₀ → Except Err ν} {l : List ν}, K.map φ = l.map .ok →
      l.length = K.length := by
    intro _ _ K φ l h
    have := congrArg List.length h
    simpa using this.symm
  refine ⟨by rw [len e₁, len e₂], by
    have x := congrArg List.length e₁'
    have y := congrArg List.length e₂'
    simp only [List.length_map] at x y
    omega, ?_⟩
  have inj : Function.Injective (fun p : Num α × Num α => ((.ok p.1, .ok p.2) : Except Err (Num α) × Except Err (Num α))) := by
    rintro ⟨a, b⟩ ⟨c, d⟩ h
    simp only [Prod.mk.injEq, Except.ok.injEq] at h
    exact Prod.ext h.1 h.2
  rw [← List.map_perm_map_iff inj]
  have zip : ∀ (a b : List (Num α)), (a.zip b).map (fun p => ((.ok p.1, .ok p.2) : Except Err (Num α) × Except Err (Num α))) =
      (a.map .ok).zip (b.map .ok) := by
    intro a b
    rw [List.zip_map]
    rfl
  rw [zip, zip, ← e₁, ← e₂, ← e₁', ← e₂', List.zip_map', List.zip_map']
  refine ((keys_renamed hg hs hs' hq).map _).trans ?_
  rw [List.map_map]
  refine List.Perm.of_eq (List.map_congr_left ?_)
  intro q hqA
  simp only [Function.comp_apply]
  rw [value_renamed hg hs hs' u₁ u₁' hq h₁.queries ha h₁.apart a₁ a₁' q hqA m f hf,
    value_renamed hg hs hs' u₂ u₂' hq h₂.queries ha h₂.apart a₂ a₂' q hqA m f hf]

/-- counting pairs does not depend on the order of the queries -/
theorem winTieLossOf_perm {a b a' b' : List (Num α)} (h : (a'.zip b').Perm (a.zip b)) :
    winTieLossOf a' b' = winTieLossOf a b := by
  have key : ∀ f : Num α → Num α → Bool, countBy f a' b' = countBy f a b := by
    intro f
    unfold countBy
    have e : ∀ x y : List (Num α), List.zipWith f x y = (x.zip y).map (fun p => f p.1 p.2) := by
      intro x y
      rw [List.zip_eq_zipWith, List.map_zipWith]
    rw [e, e]
    exact (h.map _).count_eq _
  unfold winTieLossOf
  rw [key, key, key]

/-- `mean` only depends on the scores, not on their order -/
theorem mean_of_pairs {a b a' b' : List (Num α)} (l : a.length = b.length) (l' : a'.length = b'.length)
    (h : (a'.zip b').Perm (a.zip b)) : mean a' = mean a := by
  have := h.map Prod.fst
  rw [List.map_fst_zip (by omega), List.map_fst_zip (by omega)] at this
  exact mean_perm_num this

theorem modelName_renamed {g : κ → κ'} {r : NamedRun κ δ α} {r' : NamedRun κ' δ α} (h : r'.name = r.name) (i : Nat) :
    modelName i r' = modelName i r := by
  unfold modelName
  rw [h]

/-- **C162** (compare): two successful comparisons of the same runs over the same judgements, the queries being
called by other names in the second one: the models have the same names, every model has the same score for every
metric, and every two models have the same numbers of wins, ties and losses. -/
theorem C162_compare (F : Fn α) (other : Str → Except Err α) (SQ SQ' : ArgSort Int) (SR SR' : ArgSort α)
    (hash : δ → ι) (sched sched' : Nat → Nat → List Nat) (E E' : Env α) (mc : Bool) (test test' : Str) (n n' : Nat)
    (maxP maxP' : α) (g : κ → κ') (hg : Function.Injective g) (s : Store κ δ Int) (s' : Store κ' δ Int)
    (runs : List (NamedRun κ δ α)) (runs' : List (NamedRun κ' δ α)) (ms : List Str)
    (hc : Spec.Comparable SQ SR sched s runs) (hc' : Spec.Comparable SQ' SR' sched' s' runs')
    (hq : Spec.QueriesRenamed g s s') (hr : List.Forall₂ (Spec.RunRenamed g) runs runs')
    (ha : ∀ q ∈ s.data.keys, Spec.JudgedApart hash s q)
    (rep rep' : Report α) (q₁ : QrelsArg κ δ α) (q₂ : QrelsArg κ' δ α) (rs₁ : List (RunArg κ δ α))
    (rs₂ : List (RunArg κ' δ α))
    (h : Rep.compare F other SQ SR hash sched E mc test n maxP (.obj s) runs ms = .ok (rep, q₁, rs₁))
    (h' : Rep.compare F other SQ' SR' hash sched' E' mc test' n' maxP' (.obj s') runs' ms = .ok (rep', q₂, rs₂)) :
    rep'.modelNames = rep.modelNames ∧
    ∀ m ∈ ms, ∀ a ∈ rep.modelNames,
      (∃ x, rep.score a m = .ok x ∧ rep'.score a m = .ok x) ∧
      ∀ b ∈ rep.modelNames, a ≠ b →
        ∃ w, wtlAt rep.winTieLoss (a, b) m = some w ∧ wtlAt rep'.winTieLoss (a, b) m = some w := by
  have hget : ∀ (i : Nat) (r : NamedRun κ δ α), runs[i]? = some r →
      ∃ r' : NamedRun κ' δ α, runs'[i]? = some r' ∧ Spec.RunRenamed g r r' ∧ r ∈ runs ∧ r' ∈ runs' := by
    intro i r hi
    obtain ⟨hlt, e⟩ := List.getElem?_eq_some_iff.1 hi
    have hlt' : i < runs'.length := by rw [← hr.length_eq]; exact hlt
    have x := hr.get hlt hlt'
    simp only [List.get_eq_getElem] at x
    rw [e] at x
    exact ⟨_, List.getElem?_eq_getElem hlt', x, List.mem_of_getElem? hi, List.getElem_mem _⟩
  obtain ⟨n1, -, c1⟩ := C73_own_results_partial F other SQ SR hash sched E mc test n maxP s runs ms hc rep q₁ rs₁ h
  obtain ⟨n2, -, c2⟩ := C73_own_results_partial F other SQ' SR' hash sched' E' mc test' n' maxP' s' runs' ms hc' rep' q₂ rs₂ h'
  have hnames : rep'.modelNames = rep.modelNames := by
    rw [n1, n2, modelNames_eq, modelNames_eq]
    apply List.ext_getElem?
    intro i
    rw [List.getElem?_map, List.getElem?_map, List.getElem?_zipIdx, List.getElem?_zipIdx]
    cases hi : runs[i]? with
    | none =>
      have : runs'[i]? = none := by
        rw [List.getElem?_eq_none_iff] at hi ⊢
        rw [← hr.length_eq]; exact hi
      rw [this]; rfl
    | some r =>
      obtain ⟨r', hi', hrr, -, -⟩ := hget i r hi
      rw [hi']
      simp only [Option.map_some]
      rw [modelName_renamed (g := g) hrr.name]
  have hnm : ∀ a ∈ rep.modelNames, ∃ (i : Nat) (r : NamedRun κ δ α), runs[i]? = some r ∧ modelName i r = a := by
    intro a ham
    rw [n1, modelNames_eq, List.mem_map] at ham
    obtain ⟨⟨r, i⟩, hm, e⟩ := ham
    exact ⟨i, r, List.mk_mem_zipIdx_iff_getElem?.1 hm, e⟩
  refine ⟨hnames, ?_⟩
  intro m hm a ham
  obtain ⟨i, r, hi, rfl⟩ := hnm a ham
  obtain ⟨r', hi', hrr, hmr, hmr'⟩ := hget i r hi
  constructor
  · obtain ⟨l, hl, e⟩ := c1 i r hi m hm
    obtain ⟨l', hl', e'⟩ := c2 i r' hi' m hm
    rw [modelName_renamed (g := g) hrr.name] at e'
    obtain ⟨k1, k2, hp⟩ := perQuery_pairs hg hc.qrelsOk hc'.qrelsOk hq ha hrr hrr (hc.runsOk r hmr) (hc.runsOk r hmr)
      (hc'.runsOk r' hmr') (hc'.runsOk r' hmr') hl hl hl' hl'
    rw [mean_of_pairs k1 k2 hp] at e'
    exact ⟨_, e, e'⟩
  · intro b hbm hab
    obtain ⟨j, t, hj, rfl⟩ := hnm b hbm
    obtain ⟨t', hj', htt, hmt, hmt'⟩ := hget j t hj
    obtain ⟨l, k, g1, g2, e⟩ := compare_wtl F other SQ SR hash sched E mc test n maxP s runs ms hc rep q₁ rs₁ h i j r t
      hi hj hab m hm
    obtain ⟨l', k', f1, f2, e'⟩ := compare_wtl F other SQ' SR' hash sched' E' mc test' n' maxP' s' runs' ms hc' rep' q₂ rs₂
      h' i j r' t' hi' hj' (by rw [modelName_renamed (g := g) hrr.name, modelName_renamed (g := g) htt.name]; exact hab) m hm
    rw [modelName_renamed (g := g) hrr.name, modelName_renamed (g := g) htt.name] at e'
    obtain ⟨-, -, hp⟩ := perQuery_pairs hg hc.qrelsOk hc'.qrelsOk hq ha hrr htt (hc.runsOk r hmr) (hc.runsOk t hmt)
      (hc'.runsOk r' hmr') (hc'.runsOk t' hmt') g1 g2 f1 f2
    rw [winTieLossOf_perm hp] at e'
    exact ⟨_, e, e'⟩

/-- Specification: the p-value of the paired test only depends on the pairs of scores, not on their order. -/
def Spec.OrderFree (test : List (Num α) → List (Num α) → Num α) : Prop :=
  ∀ a b a' b' : List (Num α), a.length = b.length → a'.length = b'.length → (a'.zip b').Perm (a.zip b) →
    test a' b' = test a b

/-- **C162** (Student's test): if the p-value of Student's test is symmetric and does not depend on the order of the
pairs, and both comparisons use the same threshold, they report the same p-values and the same significances. -/
theorem C162_student (F : Fn α) (other : Str → Except Err α) (SQ SQ' : ArgSort Int) (SR SR' : ArgSort α)
    (hash : δ → ι) (sched sched' : Nat → Nat → List Nat) (E E' : Env α) (hE : E'.ttest = E.ttest)
    (hsym : ∀ x y, E.ttest x y = E.ttest y x) (hfree : Spec.OrderFree E.ttest) (mc : Bool) (n n' : Nat)
    (maxP : α) (g : κ → κ') (hg : Function.Injective g) (s : Store κ δ Int) (s' : Store κ' δ Int)
    (runs : List (NamedRun κ δ α)) (runs' : List (NamedRun κ' δ α)) (ms : List Str)
    (hc : Spec.Comparable SQ SR sched s runs) (hc' : Spec.Comparable SQ' SR' sched' s' runs')
    (hq : Spec.QueriesRenamed g s s') (hr : List.Forall₂ (Spec.RunRenamed g) runs runs')
    (ha : ∀ q ∈ s.data.keys, Spec.JudgedApart hash s q)
    (rep rep' : Report α) (q₁ : QrelsArg κ δ α) (q₂ : QrelsArg κ' δ α) (rs₁ : List (RunArg κ δ α))
    (rs₂ : List (RunArg κ' δ α))
    (h : Rep.compare F other SQ SR hash sched E mc "student".toList n maxP (.obj s) runs ms = .ok (rep, q₁, rs₁))
    (h' : Rep.compare F other SQ' SR' hash sched' E' mc "student".toList n' maxP (.obj s') runs' ms =
      .ok (rep', q₂, rs₂)) :
    ∀ m ∈ ms, ∀ (i j : Nat) (r t : NamedRun κ δ α), runs[i]? = some r → runs[j]? = some t →
      modelName i r ≠ modelName j t →
      ∃ c, rep.comparison (modelName i r) (modelName j t) m = .ok c ∧
        rep'.comparison (modelName i r) (modelName j t) m = .ok c := by
  intro m hm i j r t hi hj hne
  have hget : ∀ (i : Nat) (r : NamedRun κ δ α), runs[i]? = some r →
      ∃ r' : NamedRun κ' δ α, runs'[i]? = some r' ∧ Spec.RunRenamed g r r' ∧ r ∈ runs ∧ r' ∈ runs' := by
    intro i r hi
    obtain ⟨hlt, e⟩ := List.getElem?_eq_some_iff.1 hi
    have hlt' : i < runs'.length := by rw [← hr.length_eq]; exact hlt
    have x := hr.get hlt hlt'
    simp only [List.get_eq_getElem] at x
    rw [e] at x
    exact ⟨_, List.getElem?_eq_getElem hlt', x, List.mem_of_getElem? hi, List.getElem_mem _⟩
  obtain ⟨r', hi', hrr, hmr, hmr'⟩ := hget i r hi
  obtain ⟨t', hj', htt, hmt, hmt'⟩ := hget j t hj
  obtain ⟨l, k, g1, g2, e, -⟩ := C86_student F other SQ SR hash sched E mc n maxP s runs ms hc hsym rep q₁ rs₁ h i j r t
    hi hj hne m hm
  obtain ⟨l', k', f1, f2, e', -⟩ := C86_student F other SQ' SR' hash sched' E' mc n' maxP s' runs' ms hc'
    (by rw [hE]; exact hsym) rep' q₂ rs₂ h' i j r' t' hi' hj'
    (by rw [modelName_renamed (g := g) hrr.name, modelName_renamed (g := g) htt.name]; exact hne) m hm
  rw [modelName_renamed (g := g) hrr.name, modelName_renamed (g := g) htt.name] at e'
  obtain ⟨x, y, hp⟩ := perQuery_pairs hg hc.qrelsOk hc'.qrelsOk hq ha hrr htt (hc.runsOk r hmr) (hc.runsOk t hmt)
    (hc'.runsOk r' hmr') (hc'.runsOk t' hmt') g1 g2 f1 f2
  rw [hE, hfree _ _ _ _ x y hp] at e'
  exact ⟨_, e, e'⟩

end

section
variable {κ κ' δ ι α : Type}
variable [LinearOrder κ] [LinearOrder κ'] [DecidableEq δ] [LinearOrder ι] [Field α] [LinearOrder α]
  [IsStrictOrderedRing α]

/-- Specification: the store `r'` holds what `r` holds, query `q` being called `g q`, under the same run name; no two docs
of a query of `r` have the same score. -/
structure Spec.PlottedRenamed (g : κ → κ') (r : Option Str × Store κ δ α) (r' : Option Str × Store κ' δ α) : Prop where
  name : r'.1 = r.1
  queries : Spec.QueriesRenamed g r.2 r'.2
  apart : ∀ q d d' v, (Spec.content r.2).read q d = some v → (Spec.content r.2).read q d' = some v → d = d'

theorem relDoc_renamed {g : κ → κ'} {s : Store κ δ Int} {s' : Store κ' δ Int} (hq : Spec.QueriesRenamed g s s') {q : κ}
    (h : q ∈ s.data.keys) (L : Nat) : Spec.RelDoc s' (g q) L = Spec.RelDoc s q L := by
  funext d
  unfold Spec.RelDoc
  rw [hq.docs q h]

theorem curve_renamed (need : Nat → Nat → Nat) {g : κ → κ'} (hg : Function.Injective g) {s : Store κ δ Int}
    {s' : Store κ' δ Int} (hq : Spec.QueriesRenamed g s s') {r : Option Str × Store κ δ α} {r' : Option Str × Store κ' δ α}
    (hr : Spec.PlottedRenamed g r r') (hk : ∀ q, q ∈ r.2.data.keys ↔ q ∈ s.data.keys) {c c' : List α}
    (h : Spec.Curve need s r.2 c) (h' : Spec.Curve need s' r'.2 c') : c' = c := by
  obtain ⟨l, ids, v, hi, hv⟩ := h
  obtain ⟨l', ids', v', hi', hv'⟩ := h'
  have hqs : Spec.queries s' = (Spec.queries s).image g := by
    ext q'
    rw [Finset.mem_image]
    unfold Spec.queries
    simp only [List.mem_toFinset]
    exact hq.queries q'
  have hmem : ∀ q ∈ Spec.queries s, g q ∈ Spec.queries s' := fun q h => by
    rw [hqs]; exact Finset.mem_image_of_mem g h
  have hids : ∀ q ∈ Spec.queries s, ids' (g q) = ids q := by
    intro q hqm
    obtain ⟨x, hx, e⟩ := hi q hqm
    obtain ⟨x', hx', e'⟩ := hi' (g q) (hmem q hqm)
    have hqk : q ∈ r.2.data.keys := (hk q).2 (List.mem_toFinset.1 hqm)
    rw [e, e', ranking_tieFree hx hx' (hr.queries.docs q hqk) (hr.apart q)]
  have hval : ∀ i < 11, ∀ q ∈ Spec.queries s, v' (g q) i = v q i := by
    intro i hi11 q hqm
    obtain ⟨a, b⟩ := (hv i hi11).1 q hqm
    obtain ⟨a', b'⟩ := (hv' i hi11).1 (g q) (hmem q hqm)
    have hR := relDoc_renamed hq (List.mem_toFinset.1 hqm) 1
    have hn : Spec.numRelDocs s' (g q) 1 = Spec.numRelDocs s q 1 := by
      unfold Spec.numRelDocs
      rw [hR]
    rw [hn] at a' b'
    by_cases h0 : Spec.numRelDocs s q 1 = 0
    · rw [b h0, b' h0]
    · have x := a h0
      have x' := a' h0
      rw [hR, hids q hqm] at x'
      generalize v q i = y at x ⊢
      generalize v' (g q) i = y' at x' ⊢
      rcases x with ⟨⟨m, h1, h2, h3, rfl⟩, hmax⟩ | ⟨hno, rfl⟩
      · rcases x' with ⟨⟨n, g1, g2, g3, rfl⟩, gmax⟩ | ⟨gno, _⟩
        · exact le_antisymm (hmax n g1 g2 g3) (gmax m h1 h2 h3)
        · exact absurd h3 (gno m h1 h2)
      · rcases x' with ⟨⟨n, g1, g2, g3, _⟩, _⟩ | ⟨_, e⟩
        · exact absurd g3 (hno n g1 g2)
        · exact e
  apply List.ext_getElem?
  intro i
  by_cases h11 : i < 11
  · rw [(hv i h11).2, (hv' i h11).2, hqs, Finset.card_image_of_injective _ hg,
      Finset.sum_image (fun a _ b _ e => hg e)]
    congr 2
    exact Finset.sum_congr rfl (hval i h11)
  · rw [List.getElem?_eq_none (by omega), List.getElem?_eq_none (by omega)]

open Plot in
/-- **C162** (plot): for runs over the queries of the judgements, `plot` returns the same rows when the queries have
other ids. -/
theorem C162_plot (cutoff : Nat → Nat → Nat) (SQ SQ' : ArgSort Int) (SR SR' : ArgSort α) (hash : δ → ι)
    (sched sched' : Nat → List Nat) (single : Bool) (g : κ → κ') (hg : Function.Injective g) (s : Store κ δ Int)
    (s' : Store κ' δ Int) (runs : List (Option Str × Store κ δ α)) (runs' : List (Option Str × Store κ' δ α))
    (hT : Spec.Trainable SQ SR hash s (runs.map Prod.snd)) (hT' : Spec.Trainable SQ' SR' hash s' (runs'.map Prod.snd))
    (hsched : ∀ i, Schedule s.data.length (sched i)) (hsched' : ∀ i, Schedule s'.data.length (sched' i))
    (hq : Spec.QueriesRenamed g s s') (hr : List.Forall₂ (Spec.PlottedRenamed g) runs runs') :
    (plot cutoff SQ' SR' hash sched' single s' runs').2.2 = (plot cutoff SQ SR hash sched single s runs).2.2 := by
  obtain ⟨cs, h1, h2⟩ := Plot.curves_eq cutoff SQ SR hash sched s (runs.map Prod.snd) hT hsched
  obtain ⟨cs', h1', h2'⟩ := Plot.curves_eq cutoff SQ' SR' hash sched' s' (runs'.map Prod.snd) hT' hsched'
  have hcs : cs' = cs := by
    have hk := hT.queries
    clear h1 h1' hT hT'
    induction hr generalizing cs cs' with
    | nil => cases h2; cases h2'; rfl
    | cons hab _ ih =>
      rw [List.map_cons] at h2 h2'
      cases h2 with
      | cons a b =>
        cases h2' with
        | cons a' b' =>
          rw [curve_renamed cutoff hg hq hab (hk _ (by simp)) a a',
            ih _ b _ b' (fun r hr => hk r (by rw [List.map_cons]; exact List.mem_cons_of_mem _ hr))]
  have hnames : runs'.zipIdx.map (fun r => plotName single r.2 r.1.1) =
      runs.zipIdx.map (fun r => plotName single r.2 r.1.1) := by
    have : ∀ n, (runs'.zipIdx n).map (fun r => plotName single r.2 r.1.1) =
        (runs.zipIdx n).map (fun r => plotName single r.2 r.1.1) := by
      clear h2 h2' h1 h1' hT hT'
      induction hr with
      | nil => intro n; rfl
      | cons hab _ ih =>
        intro n
        rw [List.zipIdx_cons, List.zipIdx_cons, List.map_cons, List.map_cons, ih, hab.name]
    exact this 0
  have key : ∀ {κ₀ : Type} [LinearOrder κ₀] (SQ : ArgSort Int) (SR : ArgSort α) (sched : Nat → List Nat)
      (s : Store κ₀ δ Int) (runs : List (Option Str × Store κ₀ δ α)) (cs : List (List α)),
      curves cutoff sched (Store.rows hash (fun z : Int => (z : α)) (s.ensureSorted SQ).data)
        ((runs.map Prod.snd).map (fun r => Store.rows hash id (r.ensureSorted SR).data)) = .ok cs →
      (plot cutoff SQ SR hash sched single s runs).2.2 =
        match recallLevels with
        | .error e => .error e
        | .ok levels => frame (runs.zipIdx.map (fun r => plotName single r.2 r.1.1)) levels cs := by
    intro κ₀ _ SQ SR sched s runs cs h
    have htyped : (runs.map (fun r : Option Str × Store κ₀ δ α => (r.2.ensureSorted SR,
        Store.rows hash id (r.2.ensureSorted SR).data))).map Prod.snd =
        (runs.map Prod.snd).map (fun r => Store.rows hash id (r.ensureSorted SR).data) := by
      rw [List.map_map, List.map_map]; rfl
    unfold plot Store.toTypedList
    simp only
    rw [htyped, h]
    beta_reduce
    rfl
  rw [key SQ' SR' sched' s' runs' cs' h1', key SQ SR sched s runs cs h1, hnames, hcs]

end

/-- the runs of the example comparison with query `q` called `-q` -/
def exBm25Neg : NamedRun Int Nat ℚ := ⟨some "bm25".toList, exRunNeg⟩

def exPerfectNeg : RunObj Int Nat ℚ := ⟨⟨[(-2, [(20, 1)]), (-1, [(11, 9), (10, 8)])], true⟩, [], [], []⟩

def exAnonNeg : NamedRun Int Nat ℚ := ⟨none, exPerfectNeg⟩

theorem exPerfectNeg_usable : Spec.Usable (ArgSort.stable ℚ) exPerfectNeg.store :=
  ⟨exPerfectNeg.store, [], ⟨[(-2, [(20, 1)]), (-1, [(10, 8), (11, 9)])], by unfold NodupKeys; decide +kernel,
    by unfold NodupKeys; decide +kernel, .inr (by decide +kernel)⟩, rfl, by simp [Store.exec]⟩

/-- the hypotheses of C162 are met, and the reports agree -/
example : Spec.Comparable (ArgSort.stable Int) (ArgSort.stable ℚ) (fun _ _ => [1, 0]) exQrelsNeg [exBm25Neg, exAnonNeg] ∧
    List.Forall₂ (Spec.RunRenamed (fun n : Nat => -(n : Int))) [exBm25, exAnon] [exBm25Neg, exAnonNeg] ∧
    (Rep.compare (ι := Nat) ratFn (fun _ => .error .valueError) (ArgSort.stable Int) (ArgSort.stable ℚ) id
      (fun _ _ => [1, 0]) exStatEnv true "student".toList 2 (1/100) (.obj exQrelsNeg) [exBm25Neg, exAnonNeg]
      ["precision@2".toList, "recall@2".toList]).map (fun x => (x.1.score "bm25".toList "recall@2".toList,
        wtlAt x.1.winTieLoss ("bm25".toList, "run_2".toList) "recall@2".toList)) =
      .ok (.ok (.val (1/4)), some ⟨0, 0, 2⟩) ∧
    (exCompare "student" [exBm25, exAnon]).map (fun x => (x.score "bm25".toList "recall@2".toList,
        wtlAt x.winTieLoss ("bm25".toList, "run_2".toList) "recall@2".toList)) =
      .ok (.ok (.val (1/4)), some ⟨0, 0, 2⟩) := by
  refine ⟨⟨exQrelsNeg_usable, ?_, ?_, by decide +kernel⟩, ?_, by decide +kernel, by decide +kernel⟩
  · intro r hr
    simp only [List.mem_cons, List.not_mem_nil, or_false] at hr
    rcases hr with rfl | rfl
    · exact exRunNeg_usable
    · exact exPerfectNeg_usable
  · intro i j
    show List.Perm _ _
    decide
  · have apart : ∀ (r : Store Nat Nat ℚ), (∀ p ∈ r.data, ∀ a ∈ p.2, ∀ b ∈ p.2, a.2 = b.2 → a.1 = b.1) →
        ∀ q d d' v, (Spec.content r).read q d = some v → (Spec.content r).read q d' = some v → d = d' := by
      intro r key q d d' v h h'
      unfold Spec.Content.read Spec.content at h h'
      beta_reduce at h h'
      cases hg : r.data.get? q with
      | none => rw [hg] at h; cases h
      | some row =>
        rw [hg] at h h'
        change row.get? d = some v at h
        change row.get? d' = some v at h'
        exact key _ (mem_of_get? hg) _ (mem_of_get? h) _ (mem_of_get? h') rfl
    refine .cons ⟨rfl, ⟨?_, ?_⟩, apart _ (by decide +kernel)⟩ (.cons ⟨rfl, ⟨?_, ?_⟩, apart _ (by decide +kernel)⟩ .nil)
    · intro q'
      simp only [exBm25, exBm25Neg, exRunObj, exRunNeg, Dict.keys, List.map_cons, List.map_nil, List.mem_cons,
        List.not_mem_nil, or_false, exists_eq_or_imp, exists_eq_left]
      constructor
      · rintro (rfl | rfl)
        · exact .inr rfl
        · exact .inl rfl
      · rintro (rfl | rfl)
        · exact .inr rfl
        · exact .inl rfl
    · intro q hq d
      simp only [exBm25, exRunObj, Dict.keys, List.map_cons, List.map_nil, List.mem_cons, List.not_mem_nil, or_false] at hq
      rcases hq with rfl | rfl <;> rfl
    · intro q'
      simp only [exAnon, exAnonNeg, exPerfect, exPerfectNeg, Dict.keys, List.map_cons, List.map_nil, List.mem_cons,
        List.not_mem_nil, or_false, exists_eq_or_imp, exists_eq_left]
      constructor
      · rintro (rfl | rfl)
        · exact .inr rfl
        · exact .inl rfl
      · rintro (rfl | rfl)
        · exact .inr rfl
        · exact .inl rfl
    · intro q hq d
      simp only [exAnon, exPerfect, Dict.keys, List.map_cons, List.map_nil, List.mem_cons, List.not_mem_nil, or_false] at hq
      rcases hq with rfl | rfl <;> rfl

/-- a test whose p-value does not depend on the order of the pairs -/
example : Spec.OrderFree (fun a b : List (Num ℚ) => .val ((winTieLossOf a b).t : ℚ)) := by
  intro a b a' b' _ _ h
  simp only [winTieLossOf_perm h]

end Ranx
