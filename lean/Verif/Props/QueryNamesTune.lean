import Verif.Props.QueryNamesFuse
import Verif.Props.QueryNamesCompare
import Verif.Props.Optimize2

/-!
# Property C163: query ids are only names for `optimize_fusion`

Two calls of `optimize_fusion` on the same judgements and runs, whose queries have other ids in the second call (so that
ranx stores and visits them in another order), find the same best parameters, with the same report; the methods that
are trained rather than searched return the same tables.
-/

set_option linter.unusedSectionVars false

namespace Ranx
open Dict Store Metrics Eval Fuse Opt
open _root_.Ranx.Norm (Kind SetIter Results)

/-- at most one candidate is the last of the best -/
theorem Spec.LastBest.unique {ρ : Type*} {l : List (ρ × Num ℝ)} {b b' : Option ρ} (h : Spec.LastBest l b)
    (h' : Spec.LastBest l b') : b' = b := by
  rcases h with ⟨rfl, h⟩ | ⟨t, v, x, y, rfl, rfl, hv, hx, hy⟩
  · rcases h' with ⟨rfl, _⟩ | ⟨t, v, x, y, rfl, rfl, hv, _, _⟩
    · rfl
    · exact absurd hv (not_le.2 (h (t, .val v) (by simp) v rfl))
  · rcases h' with ⟨rfl, h'⟩ | ⟨t', v', x', y', rfl, e, hv', hx', hy'⟩
    · exact absurd hv (not_le.2 (h' (t, .val v) (by simp) v rfl))
    · rcases List.append_eq_append_iff.1 e with ⟨a, ha, hb⟩ | ⟨a, ha, hb⟩
      · cases a with
        | nil =>
          rw [List.nil_append, List.cons.injEq, Prod.mk.injEq] at hb
          rw [hb.1.1]
        | cons c a =>
          rw [List.cons_append, List.cons.injEq] at hb
          have h1 := hy (t', .val v') (by rw [hb.2]; simp) v' rfl
          have h2 := hx' (t, .val v) (by rw [ha, ← hb.1]; simp) v rfl
          exact absurd h1 (not_lt.2 h2)
      · cases a with
        | nil =>
          rw [List.nil_append, List.cons.injEq, Prod.mk.injEq] at hb
          rw [hb.1.1]
        | cons c a =>
          rw [List.cons_append, List.cons.injEq] at hb
          have h1 := hy' (t, .val v) (by rw [hb.2]; simp) v rfl
          have h2 := hx (t', .val v') (by rw [ha, ← hb.1]; simp) v' rfl
          exact absurd h1 (not_lt.2 h2)

section
variable {κ κ' δ ι : Type} [LinearOrder κ] [LinearOrder κ'] [DecidableEq δ] [LinearOrder ι]

/-- **C163** (methods with a search): `optimize_fusion` called on judgements and runs whose queries have other ids finds
the same best parameters, and (when the labels of the configurations differ) reports the same scores. -/
theorem C163_search (g : κ → κ') (hg : Function.Injective g) (E E' : Env δ) (hS : E.S = E'.S) (hI : E.I = E'.I)
    (hC : E.C = E'.C) (hO : E.oob = E'.oob) (V V' : EvalEnv δ ι) (hF : V'.F = V.F) (hot : V'.other = V.other)
    (hhash : V'.hash = V.hash) (rowSched rowSched' : List Nat) (rnd : ℚ → ℚ) (str : Kwargs → Py.Str)
    (strNat : Nat → Py.Str) (qrels : Store κ δ Int) (qrels' : Store κ' δ Int) (hu : Spec.Usable V.SQ qrels)
    (hu' : Spec.Usable V'.SQ qrels') (hq : Spec.QueriesRenamed g qrels qrels')
    (hj : ∀ q ∈ qrels.data.keys, Spec.JudgedApart V.hash qrels q)
    (hV : ∀ i, Schedule qrels.data.length (V.sched i)) (hV' : ∀ i, Schedule qrels.data.length (V'.sched i))
    (runs : List (Store κ δ ℝ)) (runs' : List (Store κ' δ ℝ)) (hr : List.Forall₂ (Spec.Relabelled g) runs runs')
    (hw : ∀ s ∈ runs, Store.Wf s.data) (hw' : ∀ s ∈ runs', Store.Wf s.data)
    (hE : Spec.SchedulesCover E runs) (hE' : Spec.SchedulesCover E' runs')
    (norm : Option String) (method : String) (metric : Py.Str) (wantReport : Bool) (space : Space)
    (ha : Spec.UsesBorda norm method → Spec.SameQueryOrder runs ∧ Spec.SameQueryOrder runs')
    (m : Method) (hm : optimizationSwitch method = .ok (.plain m)) (res res' : Result)
    (h : optimizeFusion E V rowSched rnd str strNat qrels runs norm method metric wantReport space = .ok res)
    (h' : optimizeFusion E' V' rowSched' rnd str strNat qrels' runs' norm method metric wantReport space = .ok res') :
    res'.params = res.params ∧
    ((∀ tried, configs rnd runs.length m space = .ok tried → (tried.map str).Nodup) → res'.report = res.report) := by
  obtain ⟨tried, scores, h1, h2, h3, h4⟩ := C65_best_configuration E V rowSched rnd str strNat qrels hu runs norm method
    metric wantReport space m hm res h
  obtain ⟨tried', scores', h1', h2', h3', h4'⟩ := C65_best_configuration E' V' rowSched' rnd str strNat qrels' hu' runs'
    norm method metric wantReport space m hm res' h'
  rw [← hr.length_eq, h1] at h1'
  cases h1'
  have hsc : ∀ t, (∃ v, Spec.fusedScore E V qrels runs norm method metric t = .ok v) →
      (∃ v, Spec.fusedScore E' V' qrels' runs' norm method metric t = .ok v) →
      Spec.fusedScore E' V' qrels' runs' norm method metric t = Spec.fusedScore E V qrels runs norm method metric t := by
    rintro t ⟨v, hv⟩ ⟨v', hv'⟩
    cases hf : fuse E runs norm method (some t) with
    | error e => unfold Spec.fusedScore at hv; rw [hf] at hv; cases hv
    | ok out =>
      cases hf' : fuse E' runs' norm method (some t) with
      | error e => unfold Spec.fusedScore at hv'; rw [hf'] at hv'; cases hv'
      | ok out' =>
        unfold Spec.fusedScore Spec.scoreOf
        rw [hf, hf']
        have e := C158_fuse_then_evaluate g hg E E' hS hI hC hO runs runs' hr hw hw' norm method (some t) hE hE' ha
          out out' hf hf' V.F V.other V.SQ V'.SQ V.hash V.sched V'.sched { save := false } rfl qrels qrels' [metric]
          hu hu' hV hV' hq hj
        simp only [hF, hot, hhash, e]
  have hlist : tried.map (Spec.fusedScore E' V' qrels' runs' norm method metric) =
      tried.map (Spec.fusedScore E V qrels runs norm method metric) := by
    apply List.map_congr_left
    intro t ht
    refine hsc t ?_ ?_
    · have := List.mem_map_of_mem (f := Spec.fusedScore E V qrels runs norm method metric) ht
      rw [h2] at this
      obtain ⟨v, _, e⟩ := List.mem_map.1 this
      exact ⟨v, e.symm⟩
    · have := List.mem_map_of_mem (f := Spec.fusedScore E' V' qrels' runs' norm method metric) ht
      rw [h2'] at this
      obtain ⟨v, _, e⟩ := List.mem_map.1 this
      exact ⟨v, e.symm⟩
  rw [h2, h2'] at hlist
  have hs : scores' = scores := (List.map_inj_right (fun _ _ e => Except.ok.inj e)).1 hlist
  subst hs
  refine ⟨h3.unique h3', fun hd => ?_⟩
  rw [h4 (hd _ h1), h4' (hd _ h1)]

/-- normalizing renamed runs gives the renamed normalized runs -/
theorem normalized_relabelled (g : κ → κ') (hg : Function.Injective g) (E E' : Env δ) (hS : E.S = E'.S)
    (hI : E.I = E'.I) (runs : List (Store κ δ ℝ)) (runs' : List (Store κ' δ ℝ))
    (hr : List.Forall₂ (Spec.Relabelled g) runs runs')
    (hf : Spec.Fusable (runs.map (fun s => s.data))) (hf' : Spec.Fusable (runs'.map (fun s => s.data)))
    (hE : ∀ (j : Nat) s, runs[j]? = some s → Schedule s.data.length (E.normScheds j))
    (hE' : ∀ (j : Nat) s, runs'[j]? = some s → Schedule s.data.length (E'.normScheds j))
    (norm : Option String)
    (ha : norm = some "borda" → Spec.SameQueryOrder runs ∧ Spec.SameQueryOrder runs')
    (rs : List (Store κ δ ℝ)) (rs' : List (Store κ' δ ℝ))
    (hn : normalizeStores E norm runs = .ok rs) (hn' : normalizeStores E' norm runs' = .ok rs') :
    List.Forall₂ (Spec.Relabelled g) rs rs' := by
  have e : normalizeRuns E norm runs = .ok (rs.map (fun s => s.data)) := by
    rw [normalizeStores_data, hn]; rfl
  have e' : normalizeRuns E' norm runs' = .ok (rs'.map (fun s => s.data)) := by
    rw [normalizeStores_data, hn']; rfl
  have L := normalize_local E norm runs hf hE (fun h => (ha h).1) _ e
  have L' := normalize_local E' norm runs' hf' hE' (fun h => (ha h).2) _ e'
  have hN : normQuery E norm = normQuery E' norm := by
    unfold normQuery
    rw [hS, hI]
  -- the queries of the normalized runs
  have k : List.Forall₂ (fun s r : Store κ δ ℝ => ∀ q, q ∈ r.data.keys ↔ q ∈ s.data.keys) runs rs := by
    have := L.keys
    rw [List.forall₂_map_left_iff, List.forall₂_map_right_iff] at this
    exact this.imp fun s r h q => h.1.mem_iff
  have k' : List.Forall₂ (fun s r : Store κ' δ ℝ => ∀ q, q ∈ r.data.keys ↔ q ∈ s.data.keys) runs' rs' := by
    have := L'.keys
    rw [List.forall₂_map_left_iff, List.forall₂_map_right_iff] at this
    exact this.imp fun s r h q => h.1.mem_iff
  have hres : ∀ q, resultsFor (runs.map (fun s => s.data)) q = resultsFor (runs'.map (fun s => s.data)) (g q) := by
    intro q
    unfold resultsFor
    rw [List.map_map, List.map_map]
    clear L L' e e' hE hE' hf hf' ha hn hn' k k'
    induction hr with
    | nil => rfl
    | cons hp _ ih =>
      rw [List.map_cons, List.map_cons, ih]
      simp only [Function.comp_apply, hp.get hg q]
  have hget : ∀ q, (∃ s ∈ runs, q ∈ s.data.keys) →
      rs'.map (fun r => (r.data.get? (g q)).getD []) = rs.map (fun r => (r.data.get? q).getD []) := by
    rintro q ⟨s, hs, hqs⟩
    obtain ⟨s', hs', hss⟩ := forall₂_mem_left hr hs
    have a := L.get q ⟨s.data, List.mem_map.2 ⟨s, hs, rfl⟩, hqs⟩
    have a' := L'.get (g q) ⟨s'.data, List.mem_map.2 ⟨s', hs', rfl⟩, (hss.queries _).2 ⟨q, hqs, rfl⟩⟩
    rw [← hN, ← hres, ← a] at a'
    unfold resultsFor at a'
    rw [List.map_map, List.map_map] at a'
    exact a'
  have hlen := hr.length_eq
  have l1 := k.length_eq
  have l2 := k'.length_eq
  rw [List.forall₂_iff_get]
  refine ⟨by omega, fun i hi hi' => ?_⟩
  have g1 := (List.forall₂_iff_get.1 k).2 i (by omega) hi
  have g2 := (List.forall₂_iff_get.1 k').2 i (by omega) hi'
  have g3 := (List.forall₂_iff_get.1 hr).2 i (by omega) (by omega)
  have hq : ∀ q', q' ∈ (rs'.get ⟨i, hi'⟩).data.keys ↔ ∃ q ∈ (rs.get ⟨i, hi⟩).data.keys, g q = q' := by
    intro q'
    rw [g2, g3.queries]
    simp only [g1]
  refine ⟨hq, fun q hqm => ?_⟩
  have := hget q ⟨runs.get ⟨i, by omega⟩, List.get_mem _ _, (g1 q).1 hqm⟩
  have := congrArg (fun l => l[i]?) this
  simp only [List.getElem?_map] at this
  rw [List.getElem?_eq_getElem hi, List.getElem?_eq_getElem hi'] at this
  simp only [Option.map_some, Option.some.injEq] at this
  obtain ⟨x, hx⟩ := Option.isSome_iff_exists.1 (get?_isSome.2 hqm)
  obtain ⟨x', hx'⟩ := Option.isSome_iff_exists.1 (get?_isSome.2 ((hq _).2 ⟨q, hqm, rfl⟩))
  rw [hx, hx']
  rw [List.get_eq_getElem] at hx hx'
  rw [hx, hx'] at this
  simp only [Option.getD_some] at this
  rw [this]

theorem queries_renamed {g : κ → κ'} {s : Store κ δ Int} {s' : Store κ' δ Int} (hq : Spec.QueriesRenamed g s s') :
    Spec.queries s' = (Spec.queries s).image g := by
  ext q'
  rw [Finset.mem_image]
  unfold Spec.queries
  simp only [List.mem_toFinset]
  exact hq.queries q'

/-- runs without ties have the same rankings under the new names -/
theorem rankings_renamed {g : κ → κ'} {s : Store κ δ Int} {s' : Store κ' δ Int} (hq : Spec.QueriesRenamed g s s')
    {r : Store κ δ ℝ} {r' : Store κ' δ ℝ} (hr : Spec.Relabelled g r r')
    (hk : ∀ q, q ∈ r.data.keys ↔ q ∈ s.data.keys) (ht : Spec.FusedApart r) {ids : κ → List δ} {ids' : κ' → List δ}
    (h : Spec.Rankings s r ids) (h' : Spec.Rankings s' r' ids') : ∀ q ∈ Spec.queries s, ids' (g q) = ids q := by
  intro q hqm
  obtain ⟨x, hx, e⟩ := h q hqm
  obtain ⟨x', hx', e'⟩ := h' (g q) (by rw [queries_renamed hq]; exact Finset.mem_image_of_mem g hqm)
  have hqk : q ∈ r.data.keys := (hk q).2 (List.mem_toFinset.1 hqm)
  rw [e, e', ranking_tieFree hx hx' (hr.renamed.docs q hqk) (ht q)]

theorem numRelDocs_renamed {g : κ → κ'} {s : Store κ δ Int} {s' : Store κ' δ Int} (hq : Spec.QueriesRenamed g s s')
    {q : κ} (h : q ∈ s.data.keys) (L : Nat) : Spec.numRelDocs s' (g q) L = Spec.numRelDocs s q L := by
  unfold Spec.numRelDocs
  rw [relDoc_renamed hq h]

/-- two lists related to related lists, entry by entry determined -/
theorem forall₂_determined {A A' B : Type*} {R : A → A' → Prop} {P : A → B → Prop} {P' : A' → B → Prop}
    {l : List A} {l' : List A'} {t t' : List B} (h : List.Forall₂ R l l') (hp : List.Forall₂ P l t)
    (hp' : List.Forall₂ P' l' t') (hd : ∀ a ∈ l, ∀ a' b b', R a a' → P a b → P' a' b' → b' = b) : t' = t := by
  induction h generalizing t t' with
  | nil => cases hp; cases hp'; rfl
  | cons hab _ ih =>
    cases hp with
    | cons h1 hp =>
      cases hp' with
      | cons h2 hp' =>
        rw [hd _ (List.mem_cons_self ..) _ _ _ hab h1 h2,
          ih hp hp' (fun a ha => hd a (List.mem_cons_of_mem _ ha))]

/-- **C163** (trained methods): on judgements and runs whose queries have other ids, `optimize_fusion` with mapfuse,
posfuse, segfuse and bayesfuse returns the same parameters, if no normalized run has ties. -/
theorem C163_trained (g : κ → κ') (hg : Function.Injective g) (E E' : Env δ) (hS : E.S = E'.S) (hI : E.I = E'.I)
    (V V' : EvalEnv δ ι) (hhash : V'.hash = V.hash) (rowSched rowSched' : List Nat) (rnd : ℚ → ℚ) (str : Kwargs → Py.Str)
    (strNat : Nat → Py.Str) (qrels : Store κ δ Int) (qrels' : Store κ' δ Int) (hq : Spec.QueriesRenamed g qrels qrels')
    (hV : ∀ i, Schedule qrels.data.length (V.sched i)) (hV' : ∀ i, Schedule qrels'.data.length (V'.sched i))
    (runs : List (Store κ δ ℝ)) (runs' : List (Store κ' δ ℝ)) (hr : List.Forall₂ (Spec.Relabelled g) runs runs')
    (hacc : Spec.Accepted qrels runs) (hacc' : Spec.Accepted qrels' runs')
    (hf : Spec.Fusable (runs.map (fun s => s.data))) (hf' : Spec.Fusable (runs'.map (fun s => s.data)))
    (hE : ∀ (j : Nat) s, runs[j]? = some s → Schedule s.data.length (E.normScheds j))
    (hE' : ∀ (j : Nat) s, runs'[j]? = some s → Schedule s.data.length (E'.normScheds j))
    (norm : Option String) (ha : norm = some "borda" → Spec.SameQueryOrder runs ∧ Spec.SameQueryOrder runs')
    (rs : List (Store κ δ ℝ)) (rs' : List (Store κ' δ ℝ))
    (hn : normalizeStores E norm runs = .ok rs) (hn' : normalizeStores E' norm runs' = .ok rs')
    (hT : Spec.Trainable V.SQ E.S V.hash qrels rs) (hT' : Spec.Trainable V'.SQ E'.S V'.hash qrels' rs')
    (ht : ∀ r ∈ rs, Spec.FusedApart r) (metric : Py.Str) (space : Space) (method : String)
    (hm : method ∈ ["mapfuse", "posfuse", "segfuse", "bayesfuse"]) :
    optimizeFusion E' V' rowSched' rnd str strNat qrels' runs' norm method metric false space =
      optimizeFusion E V rowSched rnd str strNat qrels runs norm method metric false space := by
  have hrs := normalized_relabelled g hg E E' hS hI runs runs' hr hf hf' hE hE' norm ha rs rs' hn hn'
  have hids : ∀ r ∈ rs, ∀ r', Spec.Relabelled g r r' → ∀ ids ids', Spec.Rankings qrels r ids →
      Spec.Rankings qrels' r' ids' → ∀ q ∈ Spec.queries qrels, ids' (g q) = ids q :=
    fun r hrm r' hrr ids ids' h h' => rankings_renamed hq hrr (hT.queries r hrm) (ht r hrm) h h'
  have hrel : ∀ q ∈ Spec.queries qrels, Spec.RelDoc qrels' (g q) 1 = Spec.RelDoc qrels q 1 :=
    fun q h => relDoc_renamed hq (List.mem_toFinset.1 h) 1
  have hcard : (Spec.queries qrels').card = (Spec.queries qrels).card := by
    rw [queries_renamed hq, Finset.card_image_of_injective _ hg]
  have hbet : ∀ {ids ids'}, (∀ q ∈ Spec.queries qrels, ids' (g q) = ids q) → ∀ a b, ∀ q ∈ Spec.queries qrels,
      Spec.relBetween qrels' ids' a b (g q) = Spec.relBetween qrels ids a b q := by
    intro ids ids' hi a b q h
    unfold Spec.relBetween
    rw [hrel q h, hi q h]
  have hsum : ∀ {ids ids'}, (∀ q ∈ Spec.queries qrels, ids' (g q) = ids q) → ∀ a b (n : ℝ),
      (∑ q ∈ Spec.queries qrels', (Spec.relBetween qrels' ids' a b q : ℝ) / n) =
        ∑ q ∈ Spec.queries qrels, (Spec.relBetween qrels ids a b q : ℝ) / n := by
    intro ids ids' hi a b n
    rw [queries_renamed hq, Finset.sum_image (fun a _ b _ e => hg e)]
    refine Finset.sum_congr rfl fun q h => ?_
    rw [hbet hi a b q h]
  obtain ⟨⟨t1, e1, p1⟩, ⟨t2, e2, p2⟩, ⟨t3, e3, p3⟩⟩ := C65_trained_tables E V rowSched rnd str strNat qrels runs rs hacc
    norm hn hT hV metric space
  obtain ⟨⟨t1', e1', p1'⟩, ⟨t2', e2', p2'⟩, ⟨t3', e3', p3'⟩⟩ := C65_trained_tables E' V' rowSched' rnd str strNat qrels'
    runs' rs' hacc' norm hn' hT' hV' metric space
  obtain ⟨l, e0, p0⟩ := C65_mapfuse E V rowSched rnd str strNat qrels runs rs hacc norm hn hT hV metric space
  obtain ⟨l', e0', p0'⟩ := C65_mapfuse E' V' rowSched' rnd str strNat qrels' runs' rs' hacc' norm hn' hT' hV' metric space
  have c0 : l' = l := by
    refine forall₂_determined hrs p0 p0' ?_
    rintro r hrm r' x x' hrr ⟨ids, h1, rfl⟩ ⟨ids', h1', rfl⟩
    have hi := hids r hrm r' hrr ids ids' h1 h1'
    rw [hcard, queries_renamed hq, Finset.sum_image (fun a _ b _ e => hg e)]
    congr 1
    refine Finset.sum_congr rfl fun q h => ?_
    rw [hrel q h, hi q h, numRelDocs_renamed hq (List.mem_toFinset.1 h)]
  have c1 : t1' = t1 := by
    refine forall₂_determined hrs p1 p1' ?_
    rintro r hrm r' t t' hrr ⟨ids, h1, hl, hv⟩ ⟨ids', h1', hl', hv'⟩
    have hi := hids r hrm r' hrr ids ids' h1 h1'
    have hlen : t'.length = t.length := by
      rw [hl, hl', queries_renamed hq, Finset.sup_image]
      refine Finset.sup_congr rfl fun q h => ?_
      simp only [Function.comp_apply, hi q h]
    apply List.ext_getElem hlen
    intro p hp hp'
    obtain ⟨a, -⟩ := hv p _ (List.getElem?_eq_getElem hp')
    obtain ⟨a', -⟩ := hv' p _ (List.getElem?_eq_getElem hp)
    rw [a, a']
    classical
    have f1 : ((Spec.queries qrels').filter (Spec.RelAt qrels' ids' p)).card =
        ((Spec.queries qrels).filter (Spec.RelAt qrels ids p)).card := by
      rw [queries_renamed hq, Finset.filter_image, Finset.card_image_of_injective _ hg]
      congr 1
      apply Finset.filter_congr
      intro q h
      unfold Spec.RelAt
      rw [hrel q h, hi q h]
    have f2 : ((Spec.queries qrels').filter (fun q => p < (ids' q).length)).card =
        ((Spec.queries qrels).filter (fun q => p < (ids q).length)).card := by
      rw [queries_renamed hq, Finset.filter_image, Finset.card_image_of_injective _ hg]
      congr 1
      apply Finset.filter_congr
      intro q h
      rw [hi q h]
    rw [f1, f2]
  have c2 : t2' = t2 := by
    refine forall₂_determined hrs p2 p2' ?_
    rintro r hrm r' t t' hrr ⟨ids, h1, hl, hv⟩ ⟨ids', h1', hl', hv'⟩
    have hi := hids r hrm r' hrr ids ids' h1 h1'
    apply List.ext_getElem (by rw [hl, hl'])
    intro p hp hp'
    rw [hv p _ (List.getElem?_eq_getElem hp'), hv' p _ (List.getElem?_eq_getElem hp), hsum hi, hcard]
  have c3 : t3' = t3 := by
    refine forall₂_determined hrs p3 p3' ?_
    rintro r hrm r' t t' hrr ⟨ids, h1, hl, hv⟩ ⟨ids', h1', hl', hv'⟩
    have hi := hids r hrm r' hrr ids ids' h1 h1'
    apply List.ext_getElem? 
    intro p
    by_cases hp : p < 1000
    · have hband : ∃ ab ∈ Spec.bands, ab.1 ≤ p ∧ p < ab.2 := by
        unfold Spec.bands
        by_cases h1 : p < 5
        · exact ⟨(0, 5), by simp, by omega, h1⟩
        by_cases h2 : p < 10
        · exact ⟨(5, 10), by simp, by omega, h2⟩
        by_cases h3 : p < 15
        · exact ⟨(10, 15), by simp, by omega, h3⟩
        by_cases h4 : p < 20
        · exact ⟨(15, 20), by simp, by omega, h4⟩
        by_cases h5 : p < 30
        · exact ⟨(20, 30), by simp, by omega, h5⟩
        by_cases h6 : p < 100
        · exact ⟨(30, 100), by simp, by omega, h6⟩
        by_cases h7 : p < 200
        · exact ⟨(100, 200), by simp, by omega, h7⟩
        by_cases h8 : p < 500
        · exact ⟨(200, 500), by simp, by omega, h8⟩
        · exact ⟨(500, 1000), by simp, by omega, hp⟩
      obtain ⟨ab, hab, ha1, ha2⟩ := hband
      rw [hv ab hab p ha1 ha2, hv' ab hab p ha1 ha2]
      unfold Spec.bandPrecision
      rw [hsum hi, hcard]
    · rw [List.getElem?_eq_none (by omega), List.getElem?_eq_none (by omega)]
  simp only [List.mem_cons, List.not_mem_nil, or_false] at hm
  rcases hm with rfl | rfl | rfl | rfl
  · rw [e0, e0', c0]
  · rw [e1, e1', c1]
  · rw [e2, e2', c2]
  · rw [e3, e3', c3]

end

/-! ## The hypotheses are met -/

/-- the runs of the examples with query `q` called `-q`, listed in another order -/
def fuseNeg1 : Store Int Nat ℝ := ⟨[(-2, [(20, 1)]), (-1, [(10, 5), (11, 4)])], true⟩
def fuseNeg2 : Store Int Nat ℝ := ⟨[(-1, [(12, 6), (10, 2)]), (-2, [(21, 3)])], false⟩

theorem fuseNeg_wf : ∀ s ∈ [fuseNeg1, fuseNeg2], Store.Wf s.data := by
  intro s hs
  simp only [List.mem_cons, List.not_mem_nil, or_false] at hs
  rcases hs with rfl | rfl
  · exact ⟨by unfold NodupKeys fuseNeg1; decide, by unfold fuseNeg1 NodupKeys; simp⟩
  · exact ⟨by unfold NodupKeys fuseNeg2; decide, by unfold fuseNeg2 NodupKeys; simp⟩

theorem fuseNeg_cover : Spec.SchedulesCover exEnv [fuseNeg1, fuseNeg2] := by
  have two : Schedule 2 [1, 0] := by unfold Schedule; decide
  have two' : Schedule 2 [0, 1] := by unfold Schedule; decide
  have hlen : ∀ (j : Nat) s, [fuseNeg1, fuseNeg2][j]? = some s → s.data.length = 2 := by
    intro j s hj
    have := List.mem_of_getElem? hj
    simp only [List.mem_cons, List.not_mem_nil, or_false] at this
    rcases this with rfl | rfl <;> rfl
  constructor
  · intro s hs
    rw [hlen 0 s hs]; exact two
  · intro j s hs
    rw [hlen j s hs]; exact two'
  · intro j s hs
    rw [hlen j s hs]; exact two

theorem fuseNeg_relabelled : List.Forall₂ (Spec.Relabelled (fun n : Nat => -(n : Int))) [fuseStore1, fuseStore2]
    [fuseNeg1, fuseNeg2] := by
  refine .cons ⟨?_, ?_⟩ (.cons ⟨?_, ?_⟩ .nil)
  · intro q'
    simp only [fuseStore1, fuseNeg1, Dict.keys, List.map_cons, List.map_nil, List.mem_cons, List.not_mem_nil, or_false,
      exists_eq_or_imp, exists_eq_left]
    constructor
    · rintro (rfl | rfl)
      · exact .inr rfl
      · exact .inl rfl
    · rintro (rfl | rfl)
      · exact .inr rfl
      · exact .inl rfl
  · intro q hq
    simp only [fuseStore1, Dict.keys, List.map_cons, List.map_nil, List.mem_cons, List.not_mem_nil, or_false] at hq
    rcases hq with rfl | rfl <;> rfl
  · intro q'
    simp only [fuseStore2, fuseNeg2, Dict.keys, List.map_cons, List.map_nil, List.mem_cons, List.not_mem_nil, or_false,
      exists_eq_or_imp, exists_eq_left]
    constructor
    · rintro (rfl | rfl)
      · exact .inr rfl
      · exact .inl rfl
    · rintro (rfl | rfl)
      · exact .inr rfl
      · exact .inl rfl
  · intro q hq
    simp only [fuseStore2, Dict.keys, List.map_cons, List.map_nil, List.mem_cons, List.not_mem_nil, or_false] at hq
    rcases hq with rfl | rfl <;> rfl

theorem exNeg_renamed : Spec.QueriesRenamed (fun n : Nat => -(n : Int)) exQrelsObj exQrelsNeg := by
  refine ⟨?_, ?_⟩
  · intro q'
    simp only [exQrelsObj, exQrelsNeg, Dict.keys, List.map_cons, List.map_nil, List.mem_cons, List.not_mem_nil, or_false,
      exists_eq_or_imp, exists_eq_left]
    constructor
    · rintro (rfl | rfl)
      · exact .inr rfl
      · exact .inl rfl
    · rintro (rfl | rfl)
      · exact .inr rfl
      · exact .inl rfl
  · intro q hq d
    simp only [exQrelsObj, Dict.keys, List.map_cons, List.map_nil, List.mem_cons, List.not_mem_nil, or_false] at hq
    rcases hq with rfl | rfl <;> rfl

theorem neg_injective : Function.Injective (fun n : Nat => -(n : Int)) := fun a b h => by
  simp only at h; omega

/-- a concrete search, under both sets of query ids -/
example : ∃ res res' : Result,
    optimizeFusion exEnv exEvalEnv [0, 1] F64.fl (fun _ => []) (fun _ => []) exQrelsObj [fuseStore1, fuseStore2] none
      "wsum" "map".toList true (.weights (F64.fl (1 / 10)) "0.1".toList) = .ok res ∧
    optimizeFusion exEnv exEvalEnv [1, 0] F64.fl (fun _ => []) (fun _ => []) exQrelsNeg [fuseNeg1, fuseNeg2] none
      "wsum" "map".toList true (.weights (F64.fl (1 / 10)) "0.1".toList) = .ok res' ∧ res'.params = res.params := by
  have hV : ∀ i, Schedule exQrelsObj.data.length (exEvalEnv.sched i) := by
    intro i; show Schedule 2 [0, 1]; unfold Schedule; decide
  have hV' : ∀ i, Schedule exQrelsNeg.data.length (exEvalEnv.sched i) := hV
  obtain ⟨res, h⟩ := C65_wsum_succeeds exEnv exEvalEnv [0, 1] F64.fl (fun _ => []) (fun _ => []) exQrelsObj
    exQrelsObj_usable [fuseStore1, fuseStore2] (by decide) fuseStore_wf exEnv_cover hV (by
      intro r hr q
      have h0 : exQrelsObj.data.keys = [1, 2] := rfl
      have h1 : fuseStore1.data.keys = [1, 2] := rfl
      have h2 : fuseStore2.data.keys = [2, 1] := rfl
      simp only [List.mem_cons, List.not_mem_nil, or_false] at hr
      rcases hr with rfl | rfl
      · rw [h0, h1]
      · rw [h0, h2]; simp; tauto) "map".toList ⟨_, metricOf_map _ _, fun a b => ⟨_, rfl⟩⟩
    true (F64.fl (1 / 10)) (by decide +kernel) "0.1".toList
  obtain ⟨res', h'⟩ := C65_wsum_succeeds exEnv exEvalEnv [1, 0] F64.fl (fun _ => []) (fun _ => []) exQrelsNeg
    exQrelsNeg_usable [fuseNeg1, fuseNeg2] (by decide) fuseNeg_wf fuseNeg_cover hV' (by
      intro r hr q
      have h0 : exQrelsNeg.data.keys = [-2, -1] := rfl
      have h1 : fuseNeg1.data.keys = [-2, -1] := rfl
      have h2 : fuseNeg2.data.keys = [-1, -2] := rfl
      simp only [List.mem_cons, List.not_mem_nil, or_false] at hr
      rcases hr with rfl | rfl
      · rw [h0, h1]
      · rw [h0, h2]; simp; tauto) "map".toList ⟨_, metricOf_map _ _, fun a b => ⟨_, rfl⟩⟩
    true (F64.fl (1 / 10)) (by decide +kernel) "0.1".toList
  exact ⟨res, res', h, h', (C163_search _ neg_injective exEnv exEnv rfl rfl rfl rfl exEvalEnv exEvalEnv rfl rfl rfl
    [0, 1] [1, 0] F64.fl _ _ exQrelsObj exQrelsNeg exQrelsObj_usable exQrelsNeg_usable exNeg_renamed
    (fun _ _ _ _ _ _ _ _ h => h) hV hV' _ _ fuseNeg_relabelled fuseStore_wf fuseNeg_wf exEnv_cover fuseNeg_cover
    none "wsum" _ true _ (fun hb => absurd hb (by
      rintro (h | h | h)
      · cases h
      · exact absurd h (by decide)
      · exact absurd h (by decide))) .wsum (by decide +kernel) res res' h h').1⟩

/-- training, under both sets of query ids -/
example : ∃ t, optimizeFusion exEnv exEvalEnv [0, 1] F64.fl (fun _ => []) (fun _ => []) exQrelsObj
      [fuseStore2, fuseStore2] none "posfuse" "map".toList false .nothing = .ok ⟨some [("probs", .tables t)], []⟩ ∧
    optimizeFusion exEnv exEvalEnv [1, 0] F64.fl (fun _ => []) (fun _ => []) exQrelsNeg
      [fuseNeg2, fuseNeg2] none "posfuse" "map".toList false .nothing = .ok ⟨some [("probs", .tables t)], []⟩ := by
  have hV : ∀ i, Schedule exQrelsObj.data.length (exEvalEnv.sched i) := by
    intro i; show Schedule 2 [0, 1]; unfold Schedule; decide
  have hacc : Spec.Accepted exQrelsNeg [fuseNeg2, fuseNeg2] := by
    refine ⟨by decide, ?_⟩
    intro r hr q
    simp only [List.mem_cons, List.not_mem_nil, or_false, or_self] at hr
    subst hr
    have h1 : fuseNeg2.data.keys = [-1, -2] := rfl
    have h2 : exQrelsNeg.data.keys = [-2, -1] := rfl
    rw [h1, h2]
    simp [or_comm]
  have hT : Spec.Trainable exEvalEnv.SQ exEnv.S exEvalEnv.hash exQrelsNeg [fuseNeg2, fuseNeg2] := by
    refine ⟨exQrelsNeg_usable, ?_, by decide, hacc.queries, ?_⟩
    · intro r hr
      simp only [List.mem_cons, List.not_mem_nil, or_false, or_self] at hr
      subst hr
      exact usable_of_unsorted _ _ (fuseNeg_wf _ (by simp)) rfl
    · exact fun r _ q d d' v _ _ h => h
  have hapart : Spec.FusedApart fuseStore2 := by
    intro q d d' v h1 h2
    have key : ∀ d, (Spec.content fuseStore2).read q d = some v →
        q = 2 ∧ d = 21 ∨ q = 1 ∧ (d = 12 ∧ v = 6 ∨ d = 10 ∧ v = 2) := by
      intro d h1
      rw [read_score?] at h1
      unfold Spec.score? at h1
      change ((Dict.get? [(2, [(21, (3 : ℝ))]), (1, [(12, 6), (10, 2)])] q).bind _) = some v at h1
      rw [get?_cons] at h1
      split at h1
      · next e =>
        change Dict.get? [(21, (3 : ℝ))] d = some v at h1
        rw [get?_cons] at h1
        split at h1
        · next e' => exact .inl ⟨e.symm, e'.symm⟩
        · cases h1
      · rw [get?_cons] at h1
        split at h1
        · next e =>
          change Dict.get? [(12, (6 : ℝ)), (10, 2)] d = some v at h1
          rw [get?_cons] at h1
          split at h1
          · next e' => exact .inr ⟨e.symm, .inl ⟨e'.symm, (Option.some.inj h1).symm⟩⟩
          · rw [get?_cons] at h1
            split at h1
            · next e' => exact .inr ⟨e.symm, .inr ⟨e'.symm, (Option.some.inj h1).symm⟩⟩
            · cases h1
        · cases h1
    rcases key d h1 with ⟨e, rfl⟩ | ⟨e, ⟨rfl, f⟩ | ⟨rfl, f⟩⟩ <;>
      rcases key d' h2 with ⟨e', rfl⟩ | ⟨e', ⟨rfl, f'⟩ | ⟨rfl, f'⟩⟩ <;>
      first | rfl | (rw [e] at e'; exact absurd e' (by decide)) | (rw [f] at f'; norm_num at f')
  have hrel := (List.forall₂_cons.1 (List.forall₂_cons.1 fuseNeg_relabelled).2).1
  have hw : Store.Wf fuseStore2.data := fuseStore_wf _ (by simp)
  have hw' : Store.Wf fuseNeg2.data := fuseNeg_wf _ (by simp)
  have two : Schedule 2 [1, 0] := by unfold Schedule; decide
  have hs : ∀ (j : Nat) s, [fuseStore2, fuseStore2][j]? = some s → Schedule s.data.length (exEnv.normScheds j) := by
    intro j s hj
    have := List.mem_of_getElem? hj
    simp only [List.mem_cons, List.not_mem_nil, or_false, or_self] at this
    subst this; exact two
  have hs' : ∀ (j : Nat) s, [fuseNeg2, fuseNeg2][j]? = some s → Schedule s.data.length (exEnv.normScheds j) := by
    intro j s hj
    have := List.mem_of_getElem? hj
    simp only [List.mem_cons, List.not_mem_nil, or_false, or_self] at this
    subst this; exact two
  have hf := fusable_of [fuseStore2, fuseStore2] (by decide) (by
      intro s hs; simp only [List.mem_cons, List.not_mem_nil, or_false, or_self] at hs; subst hs; exact hw) (by
      intro s hs s' hs' q h
      simp only [List.mem_cons, List.not_mem_nil, or_false, or_self] at hs hs'
      subst hs; subst hs'; exact h)
  have hf' := fusable_of [fuseNeg2, fuseNeg2] (by decide) (by
      intro s hs; simp only [List.mem_cons, List.not_mem_nil, or_false, or_self] at hs; subst hs; exact hw') (by
      intro s hs s' hs' q h
      simp only [List.mem_cons, List.not_mem_nil, or_false, or_self] at hs hs'
      subst hs; subst hs'; exact h)
  obtain ⟨⟨t, h6, -⟩, -⟩ := C65_trained_tables exEnv exEvalEnv [0, 1] F64.fl (fun _ => []) (fun _ => [])
    exQrelsObj [fuseStore2, fuseStore2] _ exAccepted none rfl exTrainableReal hV "map".toList .nothing
  refine ⟨t, h6, ?_⟩
  rw [C163_trained _ neg_injective exEnv exEnv rfl rfl exEvalEnv exEvalEnv rfl [0, 1] [1, 0] F64.fl _ _ exQrelsObj exQrelsNeg
    exNeg_renamed hV hV [fuseStore2, fuseStore2] [fuseNeg2, fuseNeg2] (.cons hrel (.cons hrel .nil)) exAccepted hacc hf hf' hs hs'
    none (fun h => nomatch h) _ _ rfl rfl exTrainableReal hT (by
      intro r hr
      simp only [List.mem_cons, List.not_mem_nil, or_false, or_self] at hr
      subst hr; exact hapart) "map".toList .nothing "posfuse" (by simp)]
  exact h6

end Ranx
