import Verif.Props.Evaluate
import Verif.Lemmas.Metrics2

/-!
# Properties C34, C37 and end-to-end corollaries: what `evaluate` returns depends on
-/

set_option linter.unusedSectionVars false

namespace Ranx
open Dict Store Eval Metrics Py
variable {κ δ ι α : Type*}
variable [LinearOrder κ] [DecidableEq δ] [LinearOrder ι] [Field α] [LinearOrder α]

/-! ## a metric sees the ids of the run, not its scores -/

theorem rrLoop_ids (q : Rows ι α) (r r' : Rows ι α) (i : Nat) (h : r.map Prod.fst = r'.map Prod.fst) :
    rrLoop q r i = rrLoop q r' i := by
  induction r generalizing r' i with
  | nil =>
    cases r' with
    | nil => rfl
    | cons _ _ => simp at h
  | cons a t ih =>
    cases r' with
    | nil => simp at h
    | cons b t' =>
      simp only [List.map_cons, List.cons.injEq] at h
      unfold rrLoop
      rw [h.1, ih t' (i + 1) h.2]

theorem fixK_ids (r r' : Rows ι α) (k : Nat) (h : r.map Prod.fst = r'.map Prod.fst) :
    fixK k r = fixK k r' := by
  have hl : r.length = r'.length := by simpa using congrArg List.length h
  unfold fixK
  rw [hl]

theorem take_ids (r r' : Rows ι α) (k : Nat) (h : r.map Prod.fst = r'.map Prod.fst) :
    (r.take k).map Prod.fst = (r'.take k).map Prod.fst := by
  rw [List.map_take, List.map_take, h]

theorem map_ids {γ : Type*} (g : ι → γ) (r r' : Rows ι α) (h : r.map Prod.fst = r'.map Prod.fst) :
    r.map (fun p => g p.1) = r'.map (fun p => g p.1) := by
  have h1 : ∀ x : Rows ι α, x.map (fun p => g p.1) = (x.map Prod.fst).map g := by
    intro x; rw [List.map_map]; rfl
  rw [h1, h1, h]

theorem kernel_ids (F : Fn α) (m : Metric) (k : Param α) (lvl : Int) (f : Kernel ι α)
    (hf : kernel F m k lvl = .ok f) (q r r' : Rows ι α) (h : r.map Prod.fst = r'.map Prod.fst) :
    f q r = f q r' := by
  have hl : r.length = r'.length := by simpa using congrArg List.length h
  have hhits : ∀ q n l, Metrics.hits q r n l = Metrics.hits q r' n (l : α) := by
    intro q n l; rw [hits_eq, hits_eq, h]
  have hw : ∀ q n, weightedHitList q r n = weightedHitList q r' n := by
    intro q n
    exact map_ids (fun x => (look q x).getD 0) _ _ (take_ids r r' n h)
  have hh : ∀ q n, hitList q r n = hitList q r' n := by
    intro q n
    exact map_ids (fun x => if (look q x).isSome then (1 : α) else 0) _ _ (take_ids r r' n h)
  have hfk := fun n => fixK_ids r r' n h
  have cut : ∀ g : Nat → Kernel ι α, withCutoff k g = .ok f → (∀ n, g n q r = g n q r') →
      f q r = f q r' := by
    intro g hg hgn
    unfold withCutoff at hg
    split at hg
    · cases hg; exact hgn _
    · cases hg
    · cases hg
  have hdcg : ∀ gain n l, dcgCore gain F.log2Disc q r n l = dcgCore gain F.log2Disc q r' n (l : α) := by
    intro gain n l
    unfold dcgCore
    simp only [hfk, hw]
  have hprec : ∀ q n l, precision q r n l = precision q r' n (l : α) := by
    intro q n l
    unfold precision
    simp only [hl, hhits]
  cases m
  · exact cut _ hf (fun n => by unfold total; simp only [hhits])
  · exact cut _ hf (fun n => by unfold total; simp only [hitRate_eq, hitRate_eq, h])
  · exact cut _ hf (fun n => by unfold total; simp only [hprec])
  · exact cut _ hf (fun n => by unfold total recall; simp only [hl, hhits])
  · exact cut _ hf (fun n => by unfold total f1; simp only [hl, hhits])
  · simp only [kernel, Except.ok.injEq] at hf
    subst hf
    unfold total rPrecision
    simp only [hprec]
  · exact cut _ hf (fun n => by
      unfold total reciprocalRank
      simp only [hfk]
      rw [rrLoop_ids _ _ _ 0 (take_ids r r' _ h)])
  · exact cut _ hf (fun n => by unfold total averagePrecision; simp only [hfk, hh])
  · exact cut _ hf (fun n => by unfold total; simp only [hdcg])
  · exact cut _ hf (fun n => by unfold total; simp only [hdcg])
  · exact cut _ hf (fun n => by unfold total ndcgCore; simp only [hdcg])
  · exact cut _ hf (fun n => by unfold total ndcgCore; simp only [hdcg])
  · simp only [kernel, Except.ok.injEq] at hf
    subst hf
    unfold bpref
    simp only [getHitList_eq, getUnjudgedList_eq, h]
  · have hr : ∀ p, rbp q r p (lvl : α) = rbp q r' p (lvl : α) := by
      intro p
      unfold rbp
      simp only [hl, hw]
    unfold kernel at hf
    cases k <;>
    · simp only [Except.ok.injEq] at hf
      subst hf
      unfold total
      simp only [hr]

theorem metricOf_ids (F : Fn α) (other : Str → Except Err α) (m : Str) (f : Kernel ι α)
    (hf : metricOf F other m = .ok f) (q r r' : Rows ι α) (h : r.map Prod.fst = r'.map Prod.fst) :
    f q r = f q r' := by
  unfold metricOf at hf
  split at hf
  · cases hf
  · split at hf
    · cases hf
    · exact kernel_ids F _ _ _ f hf q r r' h

theorem scoreAll_ids (F : Fn α) (other : Str → Except Err α) (sched : Nat → List Nat)
    (Q R R' : List (Rows ι α)) (h : R.map (List.map Prod.fst) = R'.map (List.map Prod.fst))
    (ms : List (Str × Nat)) (acc : Dict Str (List (Num α))) :
    scoreAll F other sched Q R ms acc = scoreAll F other sched Q R' ms acc := by
  induction ms generalizing acc with
  | nil => rfl
  | cons p t ih =>
    obtain ⟨m, i⟩ := p
    unfold scoreAll
    cases hf : metricOf (ι := ι) F other m with
    | error e => rfl
    | ok f =>
      have hp : parallel f (sched i) Q R = parallel f (sched i) Q R' := by
        have hl : R.length = R'.length := by simpa using congrArg List.length h
        unfold parallel
        rw [hl]
        congr 3
        funext j
        apply metricOf_ids F other m f hf
        have := congrArg (fun x => x[j]?) h
        simp only [List.getElem?_map] at this
        cases h1 : R[j]? <;> cases h2 : R'[j]? <;> rw [h1, h2] at this <;> simp_all
      simp only [hp]
      cases parallel f (sched i) Q R' with
      | error e => rfl
      | ok s => exact ih _

/-- tie-free rankings are determined by the content, also after a strictly increasing map -/
theorem ranking_map_unique [IsStrictOrderedRing α] (m m' : Spec.Content κ δ α) (q : κ) (f : α → α)
    (hf : StrictMono f)
    (hmap : ∀ d, m'.read q d = (m.read q d).map f)
    (htie : ∀ d d' v, m.read q d = some v → m.read q d' = some v → d = d')
    (l l' : List (δ × α)) (hl : Spec.Ranking m q l) (hl' : Spec.Ranking m' q l') :
    l.map Prod.fst = l'.map Prod.fst := by
  have key : l.map (fun p => (p.1, f p.2)) = l' := by
    have nd1 : (l.map (fun p => (p.1, f p.2))).Nodup := by
      have : ((l.map (fun p => (p.1, f p.2))).map Prod.fst).Nodup := by
        rw [List.map_map]; exact hl.nodup
      exact this.of_map _
    have nd2 : l'.Nodup := hl'.nodup.of_map _
    have hp : (l.map (fun p => (p.1, f p.2))).Perm l' := by
      rw [List.perm_ext_iff_of_nodup nd1 nd2]
      rintro ⟨d, v⟩
      rw [hl'.docs, hmap, List.mem_map]
      constructor
      · rintro ⟨⟨d', v'⟩, hmem, he⟩
        simp only [Prod.mk.injEq] at he
        obtain ⟨rfl, rfl⟩ := he
        rw [(hl.docs _ _).1 hmem]; rfl
      · intro h
        obtain ⟨v', hv', rfl⟩ := Option.map_eq_some_iff.1 h
        exact ⟨(d, v'), (hl.docs _ _).2 hv', rfl⟩
    refine hp.eq_of_pairwise (le := fun a b : δ × α => b.2 ≤ a.2) ?_ ?_ hl'.sorted
    · rintro ⟨d, v⟩ ⟨d', v'⟩ ha hb h1 h2
      have hv : v = v' := le_antisymm h2 h1
      subst hv
      rw [List.mem_map] at ha
      obtain ⟨⟨e, w⟩, hm1, he⟩ := ha
      simp only [Prod.mk.injEq] at he
      obtain ⟨rfl, rfl⟩ := he
      have hb' := (hl'.docs _ _).1 hb
      rw [hmap] at hb'
      obtain ⟨w', hw', he⟩ := Option.map_eq_some_iff.1 hb'
      have : w' = w := hf.injective he
      subst this
      rw [htie e d' w' ((hl.docs _ _).1 hm1) hw']
    · rw [List.pairwise_map]
      exact hl.sorted.imp (fun h => hf.monotone h)
  rw [← key, List.map_map]; rfl

/-! ## C34 -/

/-- Specification: `m'` scores for `q` the same docs as the tie-free `m` (no two docs share a score) and puts them in
the same order. -/
def Spec.SameRanking {β : Type*} [LT β] (m : Spec.Content κ δ α) (m' : Spec.Content κ δ β) (q : κ) : Prop :=
  (∀ d, (m.read q d).isSome = (m'.read q d).isSome) ∧
  (∀ d d' v, m.read q d = some v → m.read q d' = some v → d = d') ∧
  ∀ d d' v v' w w', m.read q d = some v → m.read q d' = some v' → m'.read q d = some w → m'.read q d' = some w' →
    v < v' → w < w'

/-- the ranking of a tie-free query is determined by the order of its docs -/
theorem ranking_same_order {β : Type*} [LinearOrder β] (m : Spec.Content κ δ α) (m' : Spec.Content κ δ β) (q : κ)
    (h : Spec.SameRanking m m' q) (l : List (δ × α)) (l' : List (δ × β)) (hl : Spec.Ranking m q l)
    (hl' : Spec.Ranking m' q l') : l.map Prod.fst = l'.map Prod.fst := by
  obtain ⟨hsame, htie, hord⟩ := h
  have hp : (l.map Prod.fst).Perm (l'.map Prod.fst) := by
    rw [List.perm_ext_iff_of_nodup hl.nodup hl'.nodup]
    intro d
    have e1 : d ∈ l.map Prod.fst ↔ (m.read q d).isSome = true := by
      rw [List.mem_map, Option.isSome_iff_exists]
      constructor
      · rintro ⟨⟨d', v⟩, hm, rfl⟩; exact ⟨v, (hl.docs _ _).1 hm⟩
      · rintro ⟨v, hv⟩; exact ⟨(d, v), (hl.docs _ _).2 hv, rfl⟩
    have e2 : d ∈ l'.map Prod.fst ↔ (m'.read q d).isSome = true := by
      rw [List.mem_map, Option.isSome_iff_exists]
      constructor
      · rintro ⟨⟨d', v⟩, hm, rfl⟩; exact ⟨v, (hl'.docs _ _).1 hm⟩
      · rintro ⟨v, hv⟩; exact ⟨(d, v), (hl'.docs _ _).2 hv, rfl⟩
    rw [e1, e2, hsame]
  refine hp.eq_of_pairwise (le := fun a b => ∃ v v', m.read q a = some v ∧ m.read q b = some v' ∧ v' ≤ v) ?_ ?_ ?_
  · rintro a b - - ⟨v, v', h1, h2, h3⟩ ⟨w, w', h4, h5, h6⟩
    rw [h2] at h4
    rw [h1] at h5
    cases h4
    cases h5
    have : v = v' := le_antisymm h6 h3
    subst this
    exact htie a b v h1 h2
  · rw [List.pairwise_map]
    refine hl.sorted.imp_of_mem ?_
    rintro ⟨a, v⟩ ⟨b, v'⟩ h1 h2 h3
    exact ⟨v, v', (hl.docs _ _).1 h1, (hl.docs _ _).1 h2, h3⟩
  · rw [List.pairwise_map]
    refine hl'.sorted.imp_of_mem ?_
    rintro ⟨a, w⟩ ⟨b, w'⟩ h1 h2 h3
    have r1 := (hl'.docs _ _).1 h1
    have r2 := (hl'.docs _ _).1 h2
    have s1 := hsame a
    have s2 := hsame b
    rw [r1, Option.isSome_some, Option.isSome_iff_exists] at s1
    rw [r2, Option.isSome_some, Option.isSome_iff_exists] at s2
    obtain ⟨v, hv⟩ := s1
    obtain ⟨v', hv'⟩ := s2
    refine ⟨v, v', hv, hv', ?_⟩
    by_contra hlt
    exact absurd (hord a b v v' w w' hv hv' r1 r2 (not_le.1 hlt)) (not_lt.2 h3)

/-- `evaluate` sees of the run only the order of the docs of the judged queries (for tie-free runs) -/
theorem evaluate_same_order_ok [IsStrictOrderedRing α] (F : Fn α) (other : Str → Except Err α)
    (SQ : ArgSort Int) (SR SR' : ArgSort α) (hash : δ → ι) (sched : Nat → List Nat) (o : Opts)
    (s : Store κ δ Int) (r r' : RunObj κ δ α) (ms : List Str) (hs' : Wf s.data ∧ FlagOk s)
    (hr : Wf r.store.data ∧ FlagOk r.store) (hr' : Wf r'.store.data ∧ FlagOk r'.store)
    (hq : o.makeComparable = true ∨ ∀ q, q ∈ r.store.data.keys ↔ q ∈ r'.store.data.keys)
    (hord : ∀ q ∈ s.data.keys, Spec.SameRanking (Spec.content r.store) (Spec.content r'.store) q) :
    (evaluate F other SQ SR hash sched o (.obj s) (.obj r) ms).2 =
      (evaluate F other SQ SR' hash sched o (.obj s) (.obj r') ms).2 := by
  have h1 := comparable_ok SR o s r hr
  have h2 := comparable_ok SR' o s r' hr'
  rw [evaluate_obj, evaluate_obj]
  have hkeys : ∀ q, q ∈ (comparable SR o s r).data.keys ↔ q ∈ (comparable SR' o s r').data.keys := by
    intro q
    by_cases hm : o.makeComparable = true
    · have a := comparable_sameKeys SR o s r hr.1 hm
      have b := comparable_sameKeys SR' o s r' hr'.1 hm
      unfold sameKeys at a b
      rw [Bool.and_eq_true, List.all_eq_true, List.all_eq_true] at a b
      exact ⟨fun h => by simpa using b.1 q (by simpa using a.2 q h),
        fun h => by simpa using a.1 q (by simpa using b.2 q h)⟩
    · unfold comparable; rw [if_neg hm, if_neg hm]; exact (hq.resolve_left hm) q
  have hsame : sameKeys s.data.keys (comparable SR o s r).data.keys =
      sameKeys s.data.keys (comparable SR' o s r').data.keys := by
    rw [Bool.eq_iff_iff]
    unfold sameKeys
    simp only [Bool.and_eq_true, List.all_eq_true, List.contains_iff_mem, hkeys]
  rw [hsame]
  by_cases hk : sameKeys s.data.keys (comparable SR' o s r').data.keys = true
  · rw [if_pos hk, if_pos hk]
    have a1 := aligned SQ SR s (comparable SR o s r) hs' h1 (hsame.trans hk)
    have a2 := aligned SQ SR' s (comparable SR' o s r') hs' h2 hk
    obtain ⟨w1, c1, k1, rk1, o1, l1⟩ := ensureSorted_facts SR (comparable SR o s r) h1.1 h1.2
    obtain ⟨w2, c2, k2, rk2, o2, l2⟩ := ensureSorted_facts SR' (comparable SR' o s r') h2.1 h2.2
    obtain ⟨-, -, k0, -, -, -⟩ := ensureSorted_facts SQ s hs'.1 hs'.2
    have hrows : (Store.rows hash (id : α → α) ((comparable SR o s r).ensureSorted SR).data).map
          (List.map Prod.fst) =
        (Store.rows hash (id : α → α) ((comparable SR' o s r').ensureSorted SR').data).map
          (List.map Prod.fst) := by
      have hlen : ((comparable SR o s r).ensureSorted SR).data.length =
          ((comparable SR' o s r').ensureSorted SR').data.length := by
        have := congrArg List.length (a1.symm.trans a2)
        simpa using this
      apply List.ext_getElem?
      intro i
      by_cases hi : i < ((comparable SR o s r).ensureSorted SR).data.length
      · have hi' : i < ((comparable SR' o s r').ensureSorted SR').data.length := by omega
        simp only [Store.rows, Dict.values, List.getElem?_map, List.getElem?_eq_getElem hi,
          List.getElem?_eq_getElem hi', Option.map_some, Option.some.injEq, List.map_map]
        have hkey : (((comparable SR o s r).ensureSorted SR).data[i]).1 =
            (((comparable SR' o s r').ensureSorted SR').data[i]).1 := by
          have := congrArg (fun x => x[i]?) (a1.symm.trans a2)
          simp only [Dict.keys, List.getElem?_map, List.getElem?_eq_getElem hi,
            List.getElem?_eq_getElem hi', Option.map_some, Option.some.injEq] at this
          exact this
        set p := ((comparable SR o s r).ensureSorted SR).data[i] with hp
        set p' := ((comparable SR' o s r').ensureSorted SR').data[i] with hp'
        have m1 : p ∈ ((comparable SR o s r).ensureSorted SR).data := List.getElem_mem hi
        have m2 : p' ∈ ((comparable SR' o s r').ensureSorted SR').data := List.getElem_mem hi'
        have r1 := ranking_of_mem _ w1 rk1 (get?_of_mem w1.1 m1)
        have r2 := ranking_of_mem _ w2 rk2 (get?_of_mem w2.1 m2)
        rw [c1] at r1
        rw [c2] at r2
        have r2 : Spec.Ranking (Spec.content (comparable SR' o s r')) p.1 p'.2 := by
          rw [hkey]; exact r2
        have hpq : p.1 ∈ s.data.keys := by
          rw [← k0, a1]
          exact List.mem_map_of_mem (f := Prod.fst) m1
        have e : p.2.map Prod.fst = p'.2.map Prod.fst := by
          refine ranking_same_order _ _ p.1 ?_ _ _ r1 r2
          have ho := hord p.1 hpq
          unfold Spec.SameRanking at ho ⊢
          simp only [read_comparable SR o s r hr.1 _ hpq, read_comparable SR' o s r' hr'.1 _ hpq]
          exact ho
        have := congrArg (List.map hash) e
        simpa only [List.map_map, Function.comp_def] using this
      · rw [List.getElem?_eq_none (by simpa [Store.rows] using hi),
          List.getElem?_eq_none (by simp [Store.rows]; omega)]
    rw [scoreAll_ids F other sched _ _ _ hrows]
    cases scoreAll F other sched (Store.rows hash (fun z : Int => (z : α)) (s.ensureSorted SQ).data)
        (Store.rows hash id ((comparable SR' o s r').ensureSorted SR').data) ms.zipIdx [] <;> rfl
  · rw [if_neg hk, if_neg hk]

theorem evaluate_same_order [IsStrictOrderedRing α] (F : Fn α) (other : Str → Except Err α)
    (SQ : ArgSort Int) (SR SR' : ArgSort α) (hash : δ → ι) (sched : Nat → List Nat) (o : Opts)
    (s : Store κ δ Int) (r r' : RunObj κ δ α) (ms : List Str) (hs : Spec.Usable SQ s)
    (hr : Spec.Usable SR r.store) (hr' : Spec.Usable SR' r'.store)
    (hq : o.makeComparable = true ∨ ∀ q, q ∈ r.store.data.keys ↔ q ∈ r'.store.data.keys)
    (hord : ∀ q ∈ s.data.keys, Spec.SameRanking (Spec.content r.store) (Spec.content r'.store) q) :
    (evaluate F other SQ SR hash sched o (.obj s) (.obj r) ms).2 =
      (evaluate F other SQ SR' hash sched o (.obj s) (.obj r') ms).2 :=
  evaluate_same_order_ok F other SQ SR SR' hash sched o s r r' ms hs.ok hr.ok hr'.ok hq hord

/-- **C34**: two runs with the same queries and docs, the second scoring every doc by a strictly
increasing function of its score in the tie-free first one (no two docs of a query share a score),
get the same result from `evaluate`: same returned means or per-query arrays, same exception if any.
The two runs may have been built in any order and sorted by any correct argsort. -/
theorem C34_only_ranking_matters [IsStrictOrderedRing α] (F : Fn α) (other : Str → Except Err α)
    (SQ : ArgSort Int) (SR SR' : ArgSort α) (hash : δ → ι) (sched : Nat → List Nat) (o : Opts)
    (s : Store κ δ Int) (r r' : RunObj κ δ α) (ms : List Str) (hs : Spec.Usable SQ s)
    (hr : Spec.Usable SR r.store) (hr' : Spec.Usable SR' r'.store) (f : α → α) (hf : StrictMono f)
    (hq : ∀ q, q ∈ r.store.data.keys ↔ q ∈ r'.store.data.keys)
    (hmap : ∀ q d, (Spec.content r'.store).read q d = ((Spec.content r.store).read q d).map f)
    (htie : ∀ q d d' v, (Spec.content r.store).read q d = some v →
      (Spec.content r.store).read q d' = some v → d = d') :
    (evaluate F other SQ SR hash sched o (.obj s) (.obj r) ms).2 =
      (evaluate F other SQ SR' hash sched o (.obj s) (.obj r') ms).2 := by
  refine evaluate_same_order F other SQ SR SR' hash sched o s r r' ms hs hr hr' (.inr hq) (fun q _ => ⟨?_, htie q, ?_⟩)
  · intro d
    rw [hmap]
    cases (Spec.content r.store).read q d <;> rfl
  · intro d d' v v' w w' h1 h2 h3 h4 hlt
    rw [hmap, h1] at h3
    rw [hmap, h2] at h4
    cases h3
    cases h4
    exact hf hlt

/-! ## C37: plain dictionaries -/

/-- Specification: `l` lists the rows of the dictionary `d` (hashed ids), best value first. -/
def Spec.RankedRows (hash : δ → ι) (d : Dict δ α) (l : Rows ι α) : Prop :=
  l.Perm (d.map (fun p => (hash p.1, p.2))) ∧ l.Pairwise (fun a b => b.2 ≤ a.2)

/-- Specification: `v` is what the call reports for metric `m`: the returned value itself for a single
metric, the entry of the returned dictionary for several. -/
def Spec.Reports (ms : List Str) (out : Out α) (m : Str) (v : Value α) : Prop :=
  (ms = [m] ∧ out = .single v) ∨ ∃ d, out = .dict d ∧ d.get? m = some v

theorem descendingSort_ranked (S : ArgSort α) (x : Rows ι α) :
    (descendingSort S x).Perm x ∧ (descendingSort S x).Pairwise (fun a b => b.2 ≤ a.2) := by
  unfold descendingSort
  constructor
  · have h := ((List.reverse_perm _).trans (S.perm (x.map Prod.snd))).filterMap (fun i => x[i]?)
    rw [List.length_map, filterMap_range_getElem?] at h
    exact h
  · rw [List.pairwise_filterMap, List.pairwise_reverse]
    refine (S.sorted (x.map Prod.snd)).imp ?_
    intro i j hij a ha b hb
    exact hij b.2 a.2 (by rw [List.getElem?_map, hb]; rfl) (by rw [List.getElem?_map, ha]; rfl)

theorem reports_of_outOf (F : Fn α) (other : Str → Except Err α) (o : Opts) (isRun : Bool)
    (d : Dict Str (List (Num α))) (ms : List Str) (out : Out α)
    (h : outOf F other o isRun d ms = .ok out) (hd : ∀ m, m ∈ d.keys ↔ m ∈ ms) (m : Str)
    (l : List (Num α)) (hl : d.get? m = some l) :
    Spec.Reports ms out m (present F o (o.returnMean && o.returnStd) l) := by
  have hm : m ∈ ms := (hd m).1 (get?_isSome.1 (by rw [hl]; rfl))
  unfold outOf at h
  match ms, hd, hm, h with
  | [], _, hm, _ => simp at hm
  | [m'], hd, hm, h =>
    simp only [List.mem_singleton] at hm
    subst hm
    left
    refine ⟨rfl, ?_⟩
    simp only at h
    rw [get?_map_val] at h
    generalize hz : Dict.get? d (lastM other o isRun m) = z at h
    cases z with
    | none => cases h
    | some l' =>
      have hk : lastM other o isRun m ∈ d.keys := get?_isSome.1 (by rw [hz]; rfl)
      rw [hd, List.mem_singleton] at hk
      rw [hk, hl] at hz
      cases hz
      simp only [Option.map_some, Except.ok.injEq] at h
      exact h.symm
  | m1 :: m2 :: t, _, _, h =>
    right
    simp only [Except.ok.injEq] at h
    refine ⟨_, h.symm, ?_⟩
    rw [get?_map_val, hl]; rfl

/-- **C37** (partial: the two dictionaries list their queries in the same order): `evaluate` on plain
dictionaries reports for every metric the array (or mean of the array) whose i-th entry is the metric
applied to the i-th query's judgements and the same query's results.  In the unchanged code the claim
is false when the orders differ, see `C37_dicts_mispaired`. -/
theorem C37_dict_inputs_partial (F : Fn α) (other : Str → Except Err α) (SQ : ArgSort Int)
    (SR : ArgSort α) (hash : δ → ι) (sched : Nat → List Nat) (o : Opts)
    (a b : Dict κ (Dict δ α)) (ms : List Str) (ha : NodupKeys a) (hab : a.keys = b.keys)
    (hsched : ∀ i, Schedule a.length (sched i)) (after : After κ δ α) (out : Out α)
    (h : evaluate F other SQ SR hash sched o (.dict a) (.dict b) ms = (after, .ok out)) :
    after = ⟨.dict a, .dict b⟩ ∧
    ∀ m ∈ ms, ∃ f : Kernel ι α, metricOf F other m = .ok f ∧ ∃ l : List (Num α),
      l.length = a.length ∧
      (∀ (i : Nat) q ja, a[i]? = some (q, ja) → ∃ rb jr rr v, b.get? q = some rb ∧
        Spec.RankedRows hash ja jr ∧ Spec.RankedRows hash rb rr ∧
        f jr rr = .ok v ∧ l[i]? = some v) ∧
      (o.returnMean = false → Spec.Reports ms out m (.scores l)) ∧
      (o.returnMean = true → o.returnStd = false → Spec.Reports ms out m (.mean (mean l))) := by
  have hb : NodupKeys b := by
    have : a.keys.Nodup := ha
    rw [hab] at this
    exact this
  have hlab : a.length = b.length := by
    have := congrArg List.length hab
    simpa using this
  have hk : sameKeys a.keys b.keys = true := by
    unfold sameKeys
    rw [hab, Bool.and_eq_true, List.all_eq_true]
    exact ⟨fun q hq => by simpa using hq, fun q hq => by simpa using hq⟩
  have hp : prepare SR o (QrelsArg.dict a) (RunArg.dict b) = RunArg.dict b := by
    unfold prepare
    split <;> rfl
  unfold evaluate at h
  rw [hp] at h
  simp only [QrelsArg.keys, RunArg.keys] at h
  have hk' : ¬ (!sameKeys a.keys b.keys) = true := by rw [hk]; decide
  replace h := (if_neg hk').symm.trans h
  simp only [convertQrels, convertRun] at h
  unfold dictToTypedList at h
  by_cases e1 : (a.values.any fun d => d.isEmpty) = true
  · simp [e1] at h
  by_cases e2 : (b.values.any fun d => d.isEmpty) = true
  · simp [e1, e2] at h
  simp only [if_neg e1, if_neg e2] at h
  set ql := a.values.map (fun d => descendingSort SR (d.map (fun p => (hash p.1, p.2)))) with hql
  set rl := b.values.map (fun d => descendingSort SR (d.map (fun p => (hash p.1, p.2)))) with hrl
  have hqlen : ql.length = a.length := by simp [hql, Dict.values]
  have hrlen : rl.length = ql.length := by rw [hqlen, hlab]; simp [hrl, Dict.values]
  cases hd : scoreAll F other sched ql rl ms.zipIdx [] with
  | error e => rw [hd] at h; simp at h
  | ok d =>
    rw [hd] at h
    have h' : after = ⟨.dict a, .dict b⟩ ∧ outOf F other o false d ms = .ok out := by
      unfold outOf
      match ms, h with
      | [], h => simp only [Prod.mk.injEq] at h ⊢; exact ⟨h.1.symm, h.2⟩
      | [m], h =>
        simp only at h ⊢
        generalize Dict.get? (List.map (fun p : Str × List (Num α) =>
          (p.1, present F o (o.returnMean && o.returnStd) p.2)) d) (lastM other o false m) = x at h ⊢
        cases x with
        | none => simp at h
        | some v => simp only [Prod.mk.injEq] at h ⊢; exact ⟨h.1.symm, h.2⟩
      | m :: m' :: t, h => simp only [Prod.mk.injEq] at h ⊢; exact ⟨h.1.symm, h.2⟩
    refine ⟨h'.1, ?_⟩
    obtain ⟨-, h2, h3⟩ := scoreAll_ok F other sched ql rl (fun i => by rw [hqlen]; exact hsched i) hrlen
        ms.zipIdx [] d hd (by simp) nodupKeys_nil
    have h3' : ∀ m, m ∈ d.keys ↔ m ∈ ms := by
      intro m; rw [h3, List.zipIdx_map_fst]; simp
    intro m hm
    obtain ⟨l, hl⟩ := Option.isSome_iff_exists.1 (get?_isSome.2 ((h3' m).2 hm))
    obtain ⟨f, hf, hc⟩ := h2 m l hl
    have hz := (collect_ok_iff _ _).1 hc
    have hrep := reports_of_outOf F other o false d ms out h'.2 h3' m l hl
    refine ⟨f, hf, l, ?_, ?_, ?_, ?_⟩
    · have := congrArg List.length hz
      rw [List.length_zipWith, hrlen, hqlen, Nat.min_self, List.length_map] at this
      exact this.symm
    · intro i q ja hi
      have hib : ∃ rb, b[i]? = some (q, rb) := by
        have e := congrArg (fun x => x[i]?) hab
        simp only [Dict.keys, List.getElem?_map, hi, Option.map_some] at e
        obtain ⟨⟨q', rb⟩, hq', he⟩ := Option.map_eq_some_iff.1 e.symm
        simp only at he
        subst he
        exact ⟨rb, hq'⟩
      obtain ⟨rb, hrb⟩ := hib
      have hzi := congrArg (fun x => x[i]?) hz
      simp only [List.getElem?_zipWith, hql, hrl, Dict.values, List.getElem?_map, hi, hrb,
        Option.map_some] at hzi
      cases hli : l[i]? with
      | none => rw [hli] at hzi; simp at hzi
      | some v =>
        rw [hli] at hzi
        simp only [Option.map_some, Option.some.injEq] at hzi
        exact ⟨rb, _, _, v, get?_of_mem hb (List.mem_of_getElem? hrb),
          descendingSort_ranked SR _, descendingSort_ranked SR _, hzi, rfl⟩
    · intro hr
      unfold present at hrep
      rw [hr] at hrep
      exact hrep
    · intro hr hs
      unfold present at hrep
      rw [hr, hs] at hrep
      exact hrep

/-! ## concrete runs of the model -/

/-- functions for running the model on rationals (the metrics used below do not need them) -/
def ratFn : Fn ℚ := ⟨fun i => i + 1, fun x => x, fun x => x⟩

/-- **C37 refuted**: two queries whose only result is relevant; the dictionaries list the
queries in different orders, `evaluate(..., "precision")` returns 0 instead of 1. -/
theorem C37_dicts_mispaired :
    (evaluate (κ := Nat) (δ := Nat) (ι := Nat) ratFn (fun _ => .error .valueError)
      (ArgSort.stable Int) (ArgSort.stable ℚ) id (fun _ => [0, 1]) {}
      (.dict [(1, [(10, 1)]), (2, [(20, 1)])]) (.dict [(2, [(20, 1)]), (1, [(10, 1)])])
      ["precision".toList]).2 = .ok (.single (.mean (.val 0))) ∧
    (evaluate (κ := Nat) (δ := Nat) (ι := Nat) ratFn (fun _ => .error .valueError)
      (ArgSort.stable Int) (ArgSort.stable ℚ) id (fun _ => [0, 1]) {}
      (.dict [(1, [(10, 1)]), (2, [(20, 1)])]) (.dict [(1, [(10, 1)]), (2, [(20, 1)])])
      ["precision".toList]).2 = .ok (.single (.mean (.val 1))) := by
  constructor <;> decide +kernel

/-- Non-vacuity of `C37_dict_inputs_partial`: a successful call with several metrics. -/
example : (evaluate (κ := Nat) (δ := Nat) (ι := Nat) ratFn (fun _ => .error .valueError)
      (ArgSort.stable Int) (ArgSort.stable ℚ) id (fun _ => [1, 0]) {}
      (.dict [(1, [(10, 1), (11, 2)]), (2, [(20, 1)])]) (.dict [(1, [(11, 2), (12, 3)]), (2, [(20, 1)])])
      ["precision@1".toList, "recall".toList]).2 =
    .ok (.dict [("precision@1".toList, .mean (.val (1/2))), ("recall".toList, .mean (.val (3/4)))]) := by
  decide +kernel

/-- the objects of the following examples: qrels and run built by `Qrels(d)` / `Run(d)` -/
def exQrelsObj : Store Nat Nat Int := ⟨[(1, [(11, 2), (10, 1)]), (2, [(20, 1)])], true⟩
def exRunObj : RunObj Nat Nat ℚ :=
  ⟨⟨[(1, [(12, 3), (11, 2)]), (3, [(30, 1)])], true⟩, [], [], []⟩

theorem exQrelsObj_usable : Spec.Usable (ArgSort.stable Int) exQrelsObj :=
  ⟨exQrelsObj, [], ⟨[(2, [(20, 1)]), (1, [(10, 1), (11, 2)])], by unfold NodupKeys; decide +kernel, by unfold NodupKeys; decide +kernel,
    .inr (by decide +kernel)⟩, rfl, by simp [Store.exec]⟩

theorem exRunObj_usable : Spec.Usable (ArgSort.stable ℚ) exRunObj.store :=
  ⟨exRunObj.store, [], ⟨[(3, [(30, 1)]), (1, [(11, 2), (12, 3)])], by unfold NodupKeys; decide +kernel, by unfold NodupKeys; decide +kernel,
    .inr (by decide +kernel)⟩, rfl, by simp [Store.exec]⟩

/-- Non-vacuity of C31 – C33, C35, C36, C38: usable objects with different queries, evaluated with
`make_comparable=True`; the returned value, the saved results and the aligned run. -/
example :
    let res := evaluate (ι := Nat) ratFn (fun _ => .error .valueError) (ArgSort.stable Int)
      (ArgSort.stable ℚ) id (fun _ => [1, 0]) { makeComparable := true } (.obj exQrelsObj) (.obj exRunObj)
      ["precision@2".toList]
    res.2 = .ok (.single (.mean (.val (1/4)))) ∧
    ∃ r : RunObj Nat Nat ℚ, res.1.run = .obj r ∧
      r.store = ⟨[(1, [(12, 3), (11, 2)]), (2, [])], true⟩ ∧
      r.saved "precision@2".toList 1 = some (.val (1/2)) ∧
      r.saved "precision@2".toList 2 = some (.val 0) ∧
      r.meanScores = [("precision@2".toList, .val (1/4))] := by
  constructor
  · decide +kernel
  · refine ⟨saveAll ratFn { makeComparable := true } [("precision@2".toList, [.val (1/2), .val 0])]
      { exRunObj with store := ⟨[(1, [(12, 3), (11, 2)]), (2, [])], true⟩ }, ?_, ?_⟩
    · rw [evaluate_obj]
      rw [if_pos (by decide +kernel)]
      have : scoreAll ratFn (fun _ => .error .valueError) (fun _ => [1, 0])
          (Store.rows (ι := Nat) id (fun z : Int => (z : ℚ)) (exQrelsObj.ensureSorted (ArgSort.stable Int)).data)
          (Store.rows id id ((comparable (ArgSort.stable ℚ) { makeComparable := true } exQrelsObj exRunObj).ensureSorted
            (ArgSort.stable ℚ)).data) (["precision@2".toList] : List Str).zipIdx [] =
          .ok [("precision@2".toList, [.val (1/2), .val 0])] := by decide +kernel
      rw [this]
      have h2 : (comparable (ArgSort.stable ℚ) { makeComparable := true } exQrelsObj exRunObj).ensureSorted
            (ArgSort.stable ℚ) = ⟨[(1, [(12, 3), (11, 2)]), (2, [])], true⟩ := by decide +kernel
      simp only [h2]
    · decide +kernel

/-- without `make_comparable` the different query sets are refused; and C33's KeyError is reached -/
example : (evaluate (ι := Nat) ratFn (fun _ => .error .valueError) (ArgSort.stable Int)
      (ArgSort.stable ℚ) id (fun _ => [1, 0]) {} (.obj exQrelsObj) (.obj exRunObj)
      ["precision@2".toList]).2 = .error .assertionError ∧
    (evaluate (ι := Nat) ratFn (fun _ => .error .valueError) (ArgSort.stable Int)
      (ArgSort.stable ℚ) id (fun _ => [1, 0]) { makeComparable := true, save := false, returnMean := false }
      (.obj exQrelsObj) (.obj exRunObj) ["precision@2".toList]).2 = .error .keyError ∧
    (evaluate (ι := Nat) ratFn (fun _ => .error .valueError) (ArgSort.stable Int)
      (ArgSort.stable ℚ) id (fun _ => [1, 0]) { makeComparable := true, returnMean := false }
      (.obj exQrelsObj) (.obj exRunObj) ["precision@2".toList]).2 =
        .ok (.single (.scores [.val (1/2), .val 0])) := by
  refine ⟨?_, ?_, ?_⟩ <;> decide +kernel

theorem read_mem {β : Type*} {s : Store κ δ β} {q : κ} {d : δ} {v : β}
    (h : (Spec.content s).read q d = some v) : ∃ p ∈ s.data, p.1 = q ∧ (d, v) ∈ p.2 := by
  unfold Spec.Content.read Spec.content at h
  cases hg : s.data.get? q with
  | none => rw [hg] at h; cases h
  | some l => rw [hg] at h; exact ⟨(q, l), mem_of_get? hg, rfl, mem_of_get? h⟩

/-- Non-vacuity of C34: `x ↦ 2x - 1` on a tie-free run, the transformed run built in another order. -/
example : ∃ r' : RunObj Nat Nat ℚ, Spec.Usable (ArgSort.stable ℚ) r'.store ∧
    (∀ q, q ∈ exRunObj.store.data.keys ↔ q ∈ r'.store.data.keys) ∧
    (∀ q d, (Spec.content r'.store).read q d =
      ((Spec.content exRunObj.store).read q d).map (fun x => 2 * x - 1)) ∧
    (∀ q d d' v, (Spec.content exRunObj.store).read q d = some v →
      (Spec.content exRunObj.store).read q d' = some v → d = d') ∧
    r'.store.data ≠ exRunObj.store.data := by
  refine ⟨⟨⟨[(3, [(30, 1)]), (1, [(11, 3), (12, 5)])], false⟩, [], [], []⟩, ?_, ?_, ?_, ?_, ?_⟩
  · exact ⟨Store.empty, [.addScore 3 30 1, .addScore 1 11 3, .addScore 1 12 5],
      ⟨[], by unfold NodupKeys; decide, by simp, .inl rfl⟩,
      by decide +kernel, by decide +kernel⟩
  · intro q
    simp [exRunObj, Dict.keys]
    tauto
  · intro q d
    simp only [Spec.Content.read, Spec.content, exRunObj, Dict.get?]
    by_cases h1 : q = 1
    · subst h1
      by_cases h2 : d = 11
      · subst h2; decide +kernel
      · by_cases h3 : d = 12
        · subst h3; decide +kernel
        · simp [Dict.get?, Ne.symm h2, Ne.symm h3]
    · by_cases h2 : q = 3
      · subst h2
        by_cases h3 : d = 30
        · subst h3; decide +kernel
        · simp [Dict.get?, Ne.symm h3]
      · simp [Ne.symm h1, Ne.symm h2]
  · intro q d d' v h1 h2
    obtain ⟨p, hp, e1, m1⟩ := read_mem h1
    obtain ⟨p', hp', e2, m2⟩ := read_mem h2
    simp only [exRunObj, List.mem_cons, List.not_mem_nil, or_false] at hp hp'
    rcases hp with rfl | rfl <;> rcases hp' with rfl | rfl <;> simp_all
    rcases m1 with ⟨rfl, rfl⟩ | ⟨rfl, rfl⟩ <;> norm_num at m2 <;> omega
  · decide +kernel

end Ranx
