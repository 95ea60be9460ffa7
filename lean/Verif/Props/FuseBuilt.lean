import Verif.Props.FuseContent

/-!
# C110: fusing runs as they come out of the constructor

The claims C47, C48, C51, C52, C55 and C62 fail for runs that list their queries in different orders (filled by
`add_score`). `Run(d)`, `from_dict`, `from_file`, `from_df`, `sort()` and a successful `add_multi` list the
queries in increasing order; for such runs the claims hold as they stand, borda included.
-/

set_option linter.unusedSectionVars false

namespace Ranx
open Dict Fuse
open _root_.Ranx.Norm (Results SetIter Kind normSwitch bordaRuns bordaNorm)
variable {κ δ : Type*}

namespace Spec
variable [LinearOrder κ] [DecidableEq δ]

/-- Specification: a run as returned by `Run(d)` / `Run.from_dict(d)` (which the loaders call), or left by `sort()`
or by an `add_multi` that raised nothing. -/
inductive Built : Store κ δ ℝ → Prop
  | ofDict (S : ArgSort ℝ) (d : Dict κ (Dict δ ℝ)) (h : Store.Wf d) (s : Store κ δ ℝ)
      (hs : Store.ofDict S d = .ok s) : Built s
  | sorted (S : ArgSort ℝ) (s : Store κ δ ℝ) (h : Store.Wf s.data) : Built (s.sort S)
  | added (S : ArgSort ℝ) (s : Store κ δ ℝ) (h : Store.Wf s.data) (qs : List κ) (docs : List (List δ))
      (scores : List (List ℝ)) (he : (s.addMulti S qs docs scores).2 = none) : Built (s.addMulti S qs docs scores).1

/-- Specification: the docs of all runs for query `q`, in order of appearance. -/
def pool (runs : List (RunData κ δ ℝ)) (q : κ) : List δ :=
  (runs.flatMap (fun run => ((run.get? q).getD []).keys)).dedup

/-- Specification: the Borda-normalized score of doc `d` in one run: `1 - i/n` at 0-based position `i` when `n` docs
are in the pool, `1/2 - (len - 1)/(2n)` if the run lacks `d` and has `len` docs. -/
noncomputable def bordaNormScore (n : Nat) (r : Dict δ ℝ) (d : δ) : ℝ :=
  match r.keys.idxOf? d with
  | some i => 1 - (i : ℝ) / (n : ℝ)
  | none => 1 / 2 - ((r.length : ℝ) - 1) / (2 * (n : ℝ))

/-- Specification: the Borda-normalized runs: every doc of the pool gets a score in every run. -/
noncomputable def bordaNormalised (runs : List (RunData κ δ ℝ)) : List (RunData κ δ ℝ) :=
  runs.map (fun run => run.map (fun p =>
    (p.1, (pool runs p.1).map (fun d => (d, bordaNormScore (poolSize runs p.1) p.2 d)))))

end Spec

section
variable [LinearOrder κ] [DecidableEq δ]

/-- **C110** (construction): such a run lists its queries in increasing order and every ranking by falling score, and
has each query and each doc of a query once. -/
theorem C110_sorted {s : Store κ δ ℝ} (h : Spec.Built s) :
    Store.Wf s.data ∧ s.data.keys.Pairwise (· < ·) ∧ ∀ p ∈ s.data, Spec.Ranked p.2.values := by
  have key : ∀ (S : ArgSort ℝ) (d : Dict κ (Dict δ ℝ)), Store.Wf d →
      Store.Wf (sortAll S d) ∧ (sortAll S d).keys.Pairwise (· < ·) ∧ ∀ p ∈ sortAll S d, Spec.Ranked p.2.values := by
    intro S d hd
    exact ⟨hd.sortAll S, (Store.sortAll_ranked S hd).2, (Store.sortAll_ranked S hd).1⟩
  cases h with
  | ofDict S d h s hs =>
    rw [Store.ofDict_eq S d h] at hs
    by_cases he : d.values.all (fun x => x.isEmpty) = true
    · rw [if_pos he] at hs; cases hs
    · rw [if_neg he] at hs; cases hs; exact key S d h
  | sorted S s h => exact key S _ h
  | added S s h qs docs scores he =>
    unfold Store.addMulti at he ⊢
    by_cases hu : Store.untyped qs docs scores = true
    · rw [if_pos hu] at he; cases he
    rw [if_neg hu] at he ⊢
    have hb := Store.addBulk_spec s.data qs docs scores h
    rcases hab : addBulk s.data qs docs scores with ⟨m, e⟩
    rw [hab] at he hb
    cases e with
    | some e => cases he
    | none => exact key S m hb.1

theorem built_wf {runs : List (Store κ δ ℝ)} (hb : ∀ s ∈ runs, Spec.Built s) : ∀ s ∈ runs, Store.Wf s.data :=
  fun s hs => (C110_sorted (hb s hs)).1

theorem built_order {runs : List (Store κ δ ℝ)} (hb : ∀ s ∈ runs, Spec.Built s) (hq : Spec.SameQueries runs) :
    Spec.SameQueryOrder runs := by
  intro s hs s' hs'
  exact eq_of_mem_iff_of_sorted_lt (C110_sorted (hb s hs)).2.1 (C110_sorted (hb s' hs')).2.1
    (fun q => ⟨hq s hs s' hs' q, hq s' hs' s hs q⟩)

/-- **C110** (C48 for built runs): whatever the normalization and the method, a fusion that returns has the queries
of the runs and for each query exactly the docs that some run has. -/
theorem C110_union (E : Env δ) (runs : List (Store κ δ ℝ)) (hb : ∀ s ∈ runs, Spec.Built s)
    (norm : Option String) (method : String) (params : Option Kwargs) (hE : Spec.SchedulesCover E runs)
    (out : Store κ δ ℝ) (h : fuse E runs norm method params = .ok out) :
    (∀ q, q ∈ out.data.keys ↔ ∃ s ∈ runs, q ∈ s.data.keys) ∧
    ∀ q d, (Spec.content out).read q d ≠ none ↔ ∃ s ∈ runs, (Spec.content s).read q d ≠ none :=
  C48_fuse_union_partial E runs (built_wf hb) norm method params hE
    (fun _ => built_order hb (fuse_ok h).2.1) out h

/-- **C110** (C62 for built runs): the fused ranking of a query depends only on the rankings of that query. -/
theorem C110_query_local (E E' : Env δ) (hS : E.S = E'.S) (hI : E.I = E'.I) (hC : E.C = E'.C)
    (hO : E.oob = E'.oob) (runs runs' : List (Store κ δ ℝ))
    (hb : ∀ s ∈ runs, Spec.Built s) (hb' : ∀ s ∈ runs', Spec.Built s)
    (norm : Option String) (method : String) (params : Option Kwargs)
    (hE : Spec.SchedulesCover E runs) (hE' : Spec.SchedulesCover E' runs')
    (q : κ) (hq : runs.map (fun s => s.data.get? q) = runs'.map (fun s => s.data.get? q))
    (out out' : Store κ δ ℝ) (h : fuse E runs norm method params = .ok out)
    (h' : fuse E' runs' norm method params = .ok out') :
    out.data.get? q = out'.data.get? q :=
  C62_query_local_partial E E' hS hI hC hO runs runs' (built_wf hb) (built_wf hb') norm method params hE hE'
    (fun _ => ⟨built_order hb (fuse_ok h).2.1, built_order hb' (fuse_ok h').2.1⟩) q hq out out' h h'

/-! ### bordafuse -/

/-- **C110** (C51 and C55 for built runs): bordafuse gives every doc the sum of its Borda points, the points of a query
add up to `n(n+1)/2` per run; weighted bordafuse gives the weighted sum. -/
theorem C110_bordafuse (E : Env δ) (runs : List (Store κ δ ℝ)) (hn : 2 ≤ runs.length)
    (hb : ∀ s ∈ runs, Spec.Built s) (hq : Spec.SameQueries runs) (hE : Spec.SchedulesCover E runs) :
    (∃ out, fuse E runs none "bordafuse" none = .ok out ∧
      Spec.FusedBy (runs.map (fun s => s.data)) (fun q d => ((runs.map (fun s => s.data)).map (fun run =>
        Spec.bordaPoints (Spec.poolSize (runs.map (fun s => s.data)) q) run q d)).sum) out ∧
      ∀ q res, out.data.get? q = some res → res.values.sum = (runs.length : ℝ) *
        ((Spec.poolSize (runs.map (fun s => s.data)) q : ℝ) *
          ((Spec.poolSize (runs.map (fun s => s.data)) q : ℝ) + 1) / 2)) ∧
    ∀ ws : List ℝ, runs.length ≤ ws.length →
      ∃ out, fuse E runs none "w_bordafuse" (some [("weights", .nums ws)]) = .ok out ∧
        Spec.FusedBy (runs.map (fun s => s.data)) (fun q d => (((runs.map (fun s => s.data)).zip ws).map (fun rw =>
          rw.2 * Spec.bordaPoints (Spec.poolSize (runs.map (fun s => s.data)) q) rw.1 q d)).sum) out := by
  have hw := built_wf hb
  have ho := built_order hb hq
  have hf := fusable_of runs hn hw hq
  have hfit := fits_of E runs hE (by intro h; subst h; simp at hn)
  have ho' : ∀ run ∈ runs.map (fun s => s.data), ∀ run' ∈ runs.map (fun s => s.data), run.keys = run'.keys := by
    intro a ha b hb
    obtain ⟨s, hs, rfl⟩ := List.mem_map.1 ha
    obtain ⟨t, ht, rfl⟩ := List.mem_map.1 hb
    exact ho s hs t ht
  constructor
  · obtain ⟨out, h1, h2⟩ := C51_bordafuse_partial E.S E.sched E.scheds E.I _ hf ho' hfit.main hfit.rescore
    obtain ⟨out', h1', h2'⟩ := C55_points_partial E.S E.sched E.scheds E.I _ hf ho' hfit.main hfit.rescore
    rw [h1] at h1'
    cases h1'
    refine ⟨out, ?_, h2, fun q res hres => ?_⟩
    · have : fuse E runs none "bordafuse" none = fuse E runs none "bordafuse" (some []) := rfl
      rw [this, fuse_named E runs hn hq none "bordafuse" .bordafuse (by decide +kernel) [] _ rfl]
      exact h1
    · have := (h2' q res hres).2
      rw [List.length_map] at this
      exact this
  · intro ws hws
    obtain ⟨out, h1, h2⟩ := C51_weighted_bordafuse_partial E.S E.sched E.scheds E.I ws _ hf ho'
      (by rw [List.length_map]; exact hws) hfit.main hfit.rescore
    refine ⟨out, ?_, h2⟩
    rw [fuse_named E runs hn hq none "w_bordafuse" .weightedBordafuse (by decide +kernel) _ _ rfl]
    exact h1

/-! ### borda normalization -/

theorem bordaNormalised_score (runs : List (Dict κ (Results δ ℝ))) (run : Dict κ (Results δ ℝ)) (q : κ) (d : δ) :
    Spec.score? (run.map (fun p => (p.1, (Spec.pool runs p.1).map (fun d =>
      (d, Spec.bordaNormScore (Spec.poolSize runs p.1) p.2 d))))) q d =
    (run.get? q).bind (fun r => if d ∈ Spec.pool runs q then
      some (Spec.bordaNormScore (Spec.poolSize runs q) r d) else none) := by
  unfold Spec.score?
  rw [get?_map_entry run (fun q r => (Spec.pool runs q).map (fun d =>
      (d, Spec.bordaNormScore (Spec.poolSize runs q) r d)))]
  cases run.get? q with
  | none => rfl
  | some r =>
    simp only [Option.map_some, Option.bind_some]
    by_cases hd : d ∈ Spec.pool runs q
    · rw [if_pos hd]
      apply get?_of_mem
      · unfold NodupKeys
        rw [List.map_map]
        exact (List.map_id _).symm ▸ List.nodup_dedup _
      · exact List.mem_map.2 ⟨d, hd, rfl⟩
    · rw [if_neg hd, get?_eq_none]
      intro h
      apply hd
      unfold Dict.keys at h
      rw [List.map_map] at h
      exact (List.map_id (Spec.pool runs q)) ▸ h

theorem mem_pool (runs : List (Dict κ (Results δ ℝ))) (q : κ) (d : δ) :
    d ∈ Spec.pool runs q ↔ Spec.InSome runs q d := by
  unfold Spec.pool
  rw [List.mem_dedup, List.mem_flatMap]
  constructor
  · rintro ⟨run, hr, hd⟩
    cases hg : run.get? q with
    | none => rw [hg] at hd; simp [Dict.keys] at hd
    | some r => rw [hg] at hd; exact ⟨run, hr, r, hg, hd⟩
  · rintro ⟨run, hr, r, hg, hd⟩
    exact ⟨run, hr, by rw [hg]; exact hd⟩

/-- the scores after borda normalization -/
theorem bordaStep (E : Env δ) (runs : List (Store κ δ ℝ)) (hn : 2 ≤ runs.length)
    (hw : ∀ s ∈ runs, Store.Wf s.data) (ho : Spec.SameQueryOrder runs) (hE : Spec.SchedulesCover E runs) :
    ∃ nr, normalizeRuns E (some "borda") runs = .ok nr ∧
      List.Forall₂ (fun (run' : Dict κ (Results δ ℝ)) run => run'.keys = run.keys ∧
        (∀ p ∈ run', NodupKeys p.2) ∧ ∀ q d, Spec.score? run' q d = Spec.score? run q d) nr
        (Spec.bordaNormalised (runs.map (fun s => s.data))) := by
  set D := runs.map (fun s => s.data) with hD
  have hne : D ≠ [] := by
    intro h
    rw [hD, List.map_eq_nil_iff] at h
    subst h
    simp at hn
  have hwD : ∀ run ∈ D, NodupKeys run ∧ ∀ p ∈ run, NodupKeys p.2 := by
    intro run hr
    obtain ⟨s, hs, rfl⟩ := List.mem_map.1 hr
    exact hw s hs
  have hoD : ∀ run ∈ D, ∀ run' ∈ D, run.keys = run'.keys := by
    intro a ha b hb
    obtain ⟨s, hs, rfl⟩ := List.mem_map.1 ha
    obtain ⟨t, ht, rfl⟩ := List.mem_map.1 hb
    exact ho s hs t ht
  obtain ⟨nr, h1, h2, h3⟩ := C47_borda_norm_partial E.I E.normScheds D hne hwD hoD (by
    intro j run hj
    rw [hD, List.getElem?_map] at hj
    cases hs : runs[j]? with
    | none => rw [hs] at hj; cases hj
    | some s => rw [hs] at hj; cases hj; exact hE.norm j s hs)
  refine ⟨nr, ?_, ?_⟩
  · unfold normalizeRuns
    simp only
    rw [if_neg (by simp)]
    exact h1
  · unfold Spec.bordaNormalised
    rw [List.forall₂_map_right_iff, List.forall₂_iff_get]
    refine ⟨h2, fun j hj hj' => ?_⟩
    rw [List.get_eq_getElem, List.get_eq_getElem]
    obtain ⟨k1, k2⟩ := h3 j D[j] nr[j] (List.getElem?_eq_getElem hj') (List.getElem?_eq_getElem hj)
    generalize hr : D[j] = run at *
    generalize nr[j] = run' at *
    have hmem : run ∈ D := hr ▸ List.getElem_mem hj'
    refine ⟨?_, ?_, ?_⟩
    · rw [k1]
      unfold Dict.keys
      rw [List.map_map]
      rfl
    · intro p hp
      have hk : p.1 ∈ run.keys := by rw [← k1]; exact List.mem_map.2 ⟨p, hp, rfl⟩
      obtain ⟨r, hg⟩ := Option.isSome_iff_exists.1 (get?_isSome.2 hk)
      obtain ⟨r', hg', hnd, -⟩ := k2 p.1 r hg
      have hnk : NodupKeys run' := by
        have := (hwD run hmem).1
        unfold NodupKeys at this ⊢
        have k1' : run'.map Prod.fst = run.map Prod.fst := k1
        rw [k1']
        exact this
      rw [get?_of_mem hnk hp] at hg'
      cases hg'
      exact hnd
    · intro q d
      rw [bordaNormalised_score]
      cases hg : run.get? q with
      | none =>
        have : run'.get? q = none := by
          rw [get?_eq_none, k1, ← get?_eq_none]; exact hg
        unfold Spec.score?
        rw [this]
        rfl
      | some r =>
        obtain ⟨r', hg', hnd, hc, hp, ha⟩ := k2 q r hg
        have hlen : r'.length = Spec.poolSize D q := by
          unfold Spec.poolSize
          have : r'.length = r'.keys.length := (List.length_map _).symm
          rw [this, ← List.toFinset_card_of_nodup (show r'.keys.Nodup from hnd)]
          congr 1
          ext x
          rw [List.mem_toFinset, List.mem_toFinset, hc]
          have := (mem_pool D q x)
          unfold Spec.pool at this
          rw [List.mem_dedup] at this
          rw [this]
          unfold Spec.InSome
          rfl
        unfold Spec.score?
        rw [hg']
        simp only [Option.bind_some]
        by_cases hd : d ∈ Spec.pool D q
        · rw [if_pos hd]
          have hd' : d ∈ r'.keys := (hc d).2 ((mem_pool D q d).1 hd)
          unfold Spec.bordaNormScore
          cases hi : r.keys.idxOf? d with
          | none =>
            simp only
            have : d ∉ r.keys := by
              intro hm
              have := (idxOf?_isSome).2 hm
              rw [hi] at this
              cases this
            rw [ha d hd' this, hlen]
          | some i =>
            simp only
            rw [hp i d (by
              rw [List.idxOf?_eq_some_iff] at hi
              obtain ⟨h, e, -⟩ := hi
              rw [List.getElem?_eq_getElem h]
              simpa using e), hlen]
        · rw [if_neg hd, get?_eq_none]
          exact fun h => hd ((mem_pool D q d).2 ((hc d).1 h))

/-- the rules of the score methods look only at the scores -/
theorem scoreRule_congr {runs A B : List (Dict κ (Results δ ℝ))} {name : String} {params : Kwargs}
    {R : List (Dict κ (Results δ ℝ)) → κ → δ → ℝ → Prop} (h : Spec.ScoreRule runs name params R)
    (hs : List.Forall₂ (fun run' run => ∀ q d, Spec.score? run' q d = Spec.score? run q d) A B) (q : κ) (d : δ)
    (v : ℝ) (hv : R A q d v) : R B q d v := by
  have h1 := scores_congr hs q d
  have h2 := fun ws => weighted_congr hs ws q d
  cases h <;> simp only [h1, h2] at hv ⊢ <;> exact hv

/-- **C110** (C47 and C89 for built runs): after `norm="borda"` the methods on scores combine, for every doc of a
query, its Borda-normalized scores in all runs. -/
theorem C110_borda_norm (E : Env δ) (runs : List (Store κ δ ℝ)) (hn : 2 ≤ runs.length)
    (hb : ∀ s ∈ runs, Spec.Built s) (hq : Spec.SameQueries runs) (hE : Spec.SchedulesCover E runs)
    (name : String) (params : Kwargs) (R : List (Dict κ (Results δ ℝ)) → κ → δ → ℝ → Prop)
    (hR : Spec.ScoreRule (runs.map (fun s => s.data)) name params R) :
    ∃ out val, fuse E runs (some "borda") name (some params) = .ok out ∧
      Spec.FusedBy (runs.map (fun s => s.data)) val out ∧
      ∀ q d, Spec.InSome (runs.map (fun s => s.data)) q d →
        R (Spec.bordaNormalised (runs.map (fun s => s.data))) q d (val q d) := by
  have hw := built_wf hb
  have ho := built_order hb hq
  obtain ⟨nr, hnr, hrow⟩ := bordaStep E runs hn hw ho hE
  have hlen : nr.length = runs.length := by
    rw [hrow.length_eq]
    unfold Spec.bordaNormalised
    rw [List.length_map, List.length_map]
  have hrow' := hrow
  unfold Spec.bordaNormalised at hrow'
  rw [List.forall₂_map_right_iff, List.forall₂_map_right_iff] at hrow'
  have hkeys : ∀ s : Store κ δ ℝ, Dict.keys (s.data.map (fun p => (p.1, (Spec.pool (runs.map (fun s => s.data)) p.1).map (fun d =>
      (d, Spec.bordaNormScore (Spec.poolSize (runs.map (fun s => s.data)) p.1) p.2 d))))) = s.data.keys := by
    intro s
    unfold Dict.keys
    rw [List.map_map]
    rfl
  set st : List (Store κ δ ℝ) := nr.map (fun r => ⟨r, true⟩) with hst
  have hdat : st.map (fun s => s.data) = nr := by rw [hst, List.map_map]; exact List.map_id _
  have hws : ∀ s ∈ st, Store.Wf s.data := by
    intro s hs
    obtain ⟨r, hr, rfl⟩ := List.mem_map.1 hs
    obtain ⟨s0, hs0, k, nd, -⟩ := forall₂_mem_left hrow' hr
    rw [hkeys] at k
    refine ⟨?_, nd⟩
    have := (hw s0 hs0).1
    unfold NodupKeys at this ⊢
    have k' : r.map Prod.fst = s0.data.map Prod.fst := k
    change (r.map Prod.fst).Nodup
    rw [k']
    exact this
  have hqs : Spec.SameQueries st := by
    intro s hs t ht q hqm
    obtain ⟨r, hr, rfl⟩ := List.mem_map.1 hs
    obtain ⟨r', hr', rfl⟩ := List.mem_map.1 ht
    obtain ⟨s0, hs0, k, -, -⟩ := forall₂_mem_left hrow' hr
    obtain ⟨t0, ht0, k', -, -⟩ := forall₂_mem_left hrow' hr'
    rw [hkeys] at k k'
    change q ∈ r.keys at hqm
    change q ∈ r'.keys
    rw [k'] 
    rw [k] at hqm
    exact hq s0 hs0 t0 ht0 q hqm
  have hlenj : ∀ (j : Nat) s, st[j]? = some s → ∃ s0, runs[j]? = some s0 ∧ s.data.length = s0.data.length := by
    intro j s hs
    rw [hst, List.getElem?_map] at hs
    cases hj : nr[j]? with
    | none => rw [hj] at hs; cases hs
    | some r =>
      rw [hj] at hs
      cases hs
      obtain ⟨hjl, e⟩ := List.getElem?_eq_some_iff.1 hj
      have hjr : j < runs.length := by omega
      refine ⟨runs[j], List.getElem?_eq_getElem hjr, ?_⟩
      have := (List.forall₂_iff_get.1 hrow').2 j hjl hjr
      rw [hkeys] at this
      have hk := congrArg List.length this.1
      rw [List.get_eq_getElem, List.get_eq_getElem, e] at hk
      simpa [Dict.keys] using hk
  have hEs : Spec.SchedulesCover E st := by
    constructor
    · intro s hs
      obtain ⟨s0, h0, e⟩ := hlenj 0 s hs
      rw [e]; exact hE.fusion s0 h0
    · intro j s hs
      obtain ⟨s0, h0, e⟩ := hlenj j s hs
      rw [e]; exact hE.rescore j s0 h0
    · intro j s hs
      obtain ⟨s0, h0, e⟩ := hlenj j s hs
      rw [e]; exact hE.norm j s0 h0
  have hns : 2 ≤ st.length := by rw [hst, List.length_map, hlen]; exact hn
  obtain ⟨out, val, h1, h2, h3⟩ := C89_score_methods E st hns hws hqs hEs none none (.inl ⟨rfl, rfl⟩) name params R
    (scoreRule_length (by rw [hdat, hlen, List.length_map]) hR)
  obtain ⟨m, hname, -⟩ := scoreRule_method hR
  rw [fuse_named E st hns hqs none name m hname params nr (by unfold normalizeRuns; simp only [hdat])] at h1
  rw [hdat] at h2 h3
  have hscore : List.Forall₂ (fun run' run => ∀ q d, Spec.score? run' q d = Spec.score? run q d) nr
      (Spec.bordaNormalised (runs.map (fun s => s.data))) := hrow.imp (fun _ _ h => h.2.2)
  have hQ : ∀ q, (∃ run ∈ nr, q ∈ run.keys) ↔ ∃ run ∈ runs.map (fun s => s.data), q ∈ run.keys := by
    intro q
    constructor
    · rintro ⟨r, hr, hqr⟩
      obtain ⟨s0, hs0, k, -⟩ := forall₂_mem_left hrow' hr
      rw [hkeys] at k
      exact ⟨s0.data, List.mem_map.2 ⟨s0, hs0, rfl⟩, k ▸ hqr⟩
    · rintro ⟨r, hr, hqr⟩
      obtain ⟨s0, hs0, rfl⟩ := List.mem_map.1 hr
      obtain ⟨r', hr', k, -⟩ := forall₂_mem_right hrow' hs0
      rw [hkeys] at k
      exact ⟨r', hr', k.symm ▸ hqr⟩
  have hI : ∀ q d, Spec.InSome nr q d ↔ Spec.InSome (runs.map (fun s => s.data)) q d := by
    intro q d
    have hin : ∀ l : List (Dict κ (Results δ ℝ)), Spec.InSome l q d ↔ ∃ run ∈ l, Spec.score? run q d ≠ none := by
      intro l
      constructor
      · rintro ⟨run, hr, v, hg, hd⟩
        refine ⟨run, hr, ?_⟩
        unfold Spec.score?
        rw [hg, Option.bind_some]
        intro h
        exact (get?_eq_none.1 h) hd
      · rintro ⟨run, hr, h⟩
        unfold Spec.score? at h
        cases hg : run.get? q with
        | none => rw [hg] at h; exact absurd rfl h
        | some v =>
          rw [hg, Option.bind_some] at h
          exact ⟨run, hr, v, hg, not_not.1 (fun hn => h (get?_eq_none.2 hn))⟩
    rw [hin]
    constructor
    · rintro ⟨r, hr, h⟩
      obtain ⟨s0, hs0, -, -, hsc⟩ := forall₂_mem_left hrow' hr
      rw [hsc, bordaNormalised_score] at h
      cases hg : s0.data.get? q with
      | none => rw [hg] at h; exact absurd rfl h
      | some v =>
        rw [hg, Option.bind_some] at h
        by_cases hd : d ∈ Spec.pool (runs.map (fun s => s.data)) q
        · exact (mem_pool _ q d).1 hd
        · rw [if_neg hd] at h; exact absurd rfl h
    · intro h
      obtain ⟨run, hr, v, hg, hd⟩ := h
      obtain ⟨s0, hs0, rfl⟩ := List.mem_map.1 hr
      obtain ⟨r', hr', -, -, hsc⟩ := forall₂_mem_right hrow' hs0
      refine ⟨r', hr', ?_⟩
      rw [hsc, bordaNormalised_score, hg, Option.bind_some, if_pos ((mem_pool _ q d).2 ⟨_, hr, v, hg, hd⟩)]
      exact Option.some_ne_none _
  refine ⟨out, val, ?_, FusedBy_transfer h2 hQ hI, fun q d hd => ?_⟩
  · rw [fuse_named E runs hn hq (some "borda") name m hname params nr hnr]
    exact h1
  · exact scoreRule_congr hR hscore q d _ (h3 q d ((hI q d).2 hd))

/-! ### symmetry -/

theorem borda_scores_perm {D D' : List (Dict κ (Results δ ℝ))} (hp : D.Perm D') (q : κ) (d : δ) :
    (Spec.scores (Spec.bordaNormalised D) q d).Perm (Spec.scores (Spec.bordaNormalised D') q d) := by
  have hm : ∀ x, x ∈ Spec.pool D q ↔ x ∈ Spec.pool D' q := by
    intro x
    rw [mem_pool, mem_pool]
    constructor
    · rintro ⟨r, hr, h⟩; exact ⟨r, hp.mem_iff.1 hr, h⟩
    · rintro ⟨r, hr, h⟩; exact ⟨r, hp.mem_iff.2 hr, h⟩
  have hsz : Spec.poolSize D q = Spec.poolSize D' q := by
    unfold Spec.poolSize
    congr 1
    ext x
    have := hm x
    unfold Spec.pool at this
    rw [List.mem_dedup, List.mem_dedup] at this
    rw [List.mem_toFinset, List.mem_toFinset, this]
  unfold Spec.scores Spec.bordaNormalised
  rw [List.filterMap_map, List.filterMap_map]
  have e : ∀ X : List (Dict κ (Results δ ℝ)), ((fun run => Spec.score? run q d) ∘ fun run : Spec.RunData κ δ ℝ =>
      run.map (fun p => (p.1, (Spec.pool X p.1).map (fun d => (d, Spec.bordaNormScore (Spec.poolSize X p.1) p.2 d))))) =
      fun run => (Dict.get? run q).bind (fun r => if d ∈ Spec.pool X q then
        some (Spec.bordaNormScore (Spec.poolSize X q) r d) else none) := by
    intro X
    funext run
    exact bordaNormalised_score X run q d
  rw [e, e, hsz]
  simp only [hm]
  exact hp.filterMap _

theorem borda_score_range {D : List (Dict κ (Results δ ℝ))} (hw : ∀ run ∈ D, Store.Wf run) {q : κ} {d : δ}
    (h : Spec.InSome D q d) : ∃ s ∈ Spec.scores (Spec.bordaNormalised D) q d, 0 ≤ s ∧ s ≤ 1 := by
  have hd := (mem_pool D q d).2 h
  obtain ⟨run, hr, r, hg, hk⟩ := h
  have hnd : NodupKeys r := (hw run hr).2 (q, r) (mem_of_get? hg)
  obtain ⟨i, hi⟩ := Option.isSome_iff_exists.1 (idxOf?_isSome.2 hk)
  have hil : i < r.keys.length := by
    rw [List.idxOf?_eq_some_iff] at hi
    exact hi.1
  have hln : r.keys.length ≤ Spec.poolSize D q := by
    unfold Spec.poolSize
    rw [← List.toFinset_card_of_nodup (show r.keys.Nodup from hnd)]
    apply Finset.card_le_card
    intro x hx
    rw [List.mem_toFinset] at hx ⊢
    exact List.mem_flatMap.2 ⟨run, hr, by rw [hg]; exact hx⟩
  refine ⟨1 - (i : ℝ) / (Spec.poolSize D q : ℝ), ?_, ?_, ?_⟩
  · unfold Spec.scores Spec.bordaNormalised
    rw [List.filterMap_map]
    refine List.mem_filterMap.2 ⟨run, hr, ?_⟩
    refine (bordaNormalised_score D run q d).trans ?_
    rw [hg, Option.bind_some, if_pos hd]
    unfold Spec.bordaNormScore
    rw [hi]
  · have hpos : (0 : ℝ) < (Spec.poolSize D q : ℝ) := by exact_mod_cast (by omega : 0 < Spec.poolSize D q)
    have : (i : ℝ) / (Spec.poolSize D q : ℝ) ≤ 1 := by
      rw [div_le_one hpos]
      exact_mod_cast (by omega : i ≤ Spec.poolSize D q)
    linarith
  · have : (0 : ℝ) ≤ (i : ℝ) / (Spec.poolSize D q : ℝ) := by positivity
    linarith

/-- a rule of an unweighted score method determines the fused score of a doc from the multiset of its scores -/
theorem scoreRule_symm {runs A B : List (Dict κ (Results δ ℝ))} {name : String} {params : Kwargs}
    {R : List (Dict κ (Results δ ℝ)) → κ → δ → ℝ → Prop} (h : Spec.ScoreRule runs name params R)
    (hname : name ∉ ["wsum", "wmnz", "mixed"]) (q : κ) (d : δ)
    (hp : (Spec.scores A q d).Perm (Spec.scores B q d))
    (hr : ∃ s ∈ Spec.scores A q d, 0 ≤ s ∧ s ≤ 1) (v v' : ℝ) (hv : R A q d v) (hv' : R B q d v') : v = v' := by
  cases h with
  | sum => rw [hv, hv', hp.sum_eq]
  | anz => rw [hv, hv', hp.sum_eq, hp.length_eq]
  | mnz => rw [hv, hv', hp.sum_eq, hp.length_eq]
  | gmnz g => rw [hv, hv', hp.sum_eq, hp.length_eq]
  | med =>
    refine Spec.IsMedian.unique hv ?_
    obtain ⟨l, hl, h1, h2⟩ := hv'
    exact ⟨l, hl.trans hp.symm, h1, by rw [hp.length_eq]; exact h2⟩
  | min =>
    obtain ⟨s, hs, h0, h1⟩ := hr
    have a := hv ⟨s, hs, by linarith [show (1:ℝ) ≤ 10 ^ 9 by norm_num]⟩
    have b := hv' ⟨s, hp.mem_iff.1 hs, by linarith [show (1:ℝ) ≤ 10 ^ 9 by norm_num]⟩
    simp only [← hp.mem_iff] at b
    exact a.unique b
  | max =>
    obtain ⟨s, hs, h0, h1⟩ := hr
    have a := hv ⟨s, hs, by linarith [show (0:ℝ) ≤ 10 ^ 9 by norm_num]⟩
    have b := hv' ⟨s, hp.mem_iff.1 hs, by linarith [show (0:ℝ) ≤ 10 ^ 9 by norm_num]⟩
    simp only [← hp.mem_iff] at b
    exact a.unique b
  | wsum ws h => exact absurd (by simp) hname
  | wmnz ws h => exact absurd (by simp) hname
  | mixed ws h => exact absurd (by simp) hname

/-- **C110** (C52 for built runs): permuting the runs changes no fused score and no doc: all unweighted methods after
every normalization but borda, and the methods on scores after borda. Schedules and the iteration orders of sets
may differ between the two calls. -/
theorem C110_symmetric (E E' : Env δ) (runs runs' : List (Store κ δ ℝ)) (hp : runs.Perm runs')
    (hb : ∀ s ∈ runs, Spec.Built s) (hE : Spec.SchedulesCover E runs) (hE' : Spec.SchedulesCover E' runs')
    (norm : Option String) (name : String) (m : Method) (hname : (name, m) ∈ Spec.methodNames) (params : Kwargs)
    (hcase : (norm ≠ some "borda" ∧ m ∈ Spec.unweighted ∧ E.S = E'.S) ∨
      (norm = some "borda" ∧ name ∉ ["wsum", "wmnz", "mixed"] ∧
        ∃ R, Spec.ScoreRule (runs.map (fun s => s.data)) name params R))
    (out out' : Store κ δ ℝ) (h : fuse E runs norm name (some params) = .ok out)
    (h' : fuse E' runs' norm name (some params) = .ok out') :
    (∀ q, q ∈ out.data.keys ↔ q ∈ out'.data.keys) ∧
    ∀ q d, (Spec.content out).read q d = (Spec.content out').read q d := by
  rcases hcase with ⟨hnb, hm, hS⟩ | ⟨rfl, hnw, R, hR⟩
  · exact C52_symmetric_partial E E' hS runs runs' hp (built_wf hb) norm hnb name m hname hm (some params) hE hE'
      (fun _ => built_order hb (fuse_ok h).2.1) out out' h h'
  · have hb' : ∀ s ∈ runs', Spec.Built s := fun s hs => hb s (hp.mem_iff.2 hs)
    have hpd : (runs.map (fun s => s.data)).Perm (runs'.map (fun s => s.data)) := hp.map _
    obtain ⟨o, val, h1, h2, h3⟩ := C110_borda_norm E runs (fuse_ok h).1 hb (fuse_ok h).2.1 hE name params R hR
    obtain ⟨o', val', h1', h2', h3'⟩ := C110_borda_norm E' runs' (fuse_ok h').1 hb' (fuse_ok h').2.1 hE' name params R
      (scoreRule_length (by rw [List.length_map, List.length_map, hp.length_eq]) hR)
    rw [h] at h1
    cases h1
    rw [h'] at h1'
    cases h1'
    have hin : ∀ q d, Spec.InSome (runs.map (fun s => s.data)) q d ↔ Spec.InSome (runs'.map (fun s => s.data)) q d := by
      intro q d
      constructor
      · rintro ⟨r, hr, h⟩; exact ⟨r, hpd.mem_iff.1 hr, h⟩
      · rintro ⟨r, hr, h⟩; exact ⟨r, hpd.mem_iff.2 hr, h⟩
    refine ⟨fun q => ?_, fun q d => ?_⟩
    · rw [h2.queries, h2'.queries]
      constructor
      · rintro ⟨r, hr, h⟩; exact ⟨r, hpd.mem_iff.1 hr, h⟩
      · rintro ⟨r, hr, h⟩; exact ⟨r, hpd.mem_iff.2 hr, h⟩
    · by_cases hi : Spec.InSome (runs.map (fun s => s.data)) q d
      · rw [h2.value q d hi, h2'.value q d ((hin q d).1 hi)]
        congr 1
        refine scoreRule_symm hR hnw q d (borda_scores_perm hpd q d) (borda_score_range ?_ hi) _ _ (h3 q d hi)
          (h3' q d ((hin q d).1 hi))
        intro run hr
        obtain ⟨s, hs, rfl⟩ := List.mem_map.1 hr
        exact built_wf hb s hs
      · rw [not_not.1 (mt (h2.docs q d).1 hi), not_not.1 (mt (h2'.docs q d).1 (fun c => hi ((hin q d).2 c)))]

end

/-! ### instances: the two example runs (the second lists its queries in the other order) after `sort()` -/

noncomputable def builtRuns : List (Store Nat Nat ℝ) :=
  [fuseStore1.sort (.stable ℝ), fuseStore2.sort (.stable ℝ)]

theorem builtRuns_built : ∀ s ∈ builtRuns, Spec.Built s := by
  intro s hs
  unfold builtRuns at hs
  simp only [List.mem_cons, List.not_mem_nil, or_false] at hs
  rcases hs with rfl | rfl
  · exact .sorted _ _ (fuseStore_wf _ (by simp))
  · exact .sorted _ _ (fuseStore_wf _ (by simp))

theorem builtRuns_same : Spec.SameQueries builtRuns := by
  have hk : ∀ s ∈ builtRuns, ∀ q, q ∈ s.data.keys ↔ q = 1 ∨ q = 2 := by
    intro s hs q
    unfold builtRuns at hs
    simp only [List.mem_cons, List.not_mem_nil, or_false] at hs
    rcases hs with rfl | rfl
    · refine (mem_keys_sortAll _ (fuseStore_wf fuseStore1 (by simp)).1 q).trans ?_
      simp [fuseStore1, Dict.keys]
    · refine (mem_keys_sortAll _ (fuseStore_wf fuseStore2 (by simp)).1 q).trans ?_
      simp [fuseStore2, Dict.keys]
      tauto
  intro s hs s' hs' q h
  rw [hk s' hs', ← hk s hs]
  exact h

theorem builtRuns_cover : Spec.SchedulesCover exEnv builtRuns := by
  have hl : ∀ (j : Nat) s, builtRuns[j]? = some s → s.data.length = 2 := by
    intro j s hs
    have hm := List.mem_of_getElem? hs
    have hn : s.data.keys.Nodup := (C110_sorted (builtRuns_built s hm)).1.1
    have hk : s.data.keys.Perm [1, 2] := by
      apply (List.perm_ext_iff_of_nodup hn (by decide)).2
      intro q
      unfold builtRuns at hm
      simp only [List.mem_cons, List.not_mem_nil, or_false] at hm ⊢
      rcases hm with rfl | rfl
      · refine (mem_keys_sortAll _ (fuseStore_wf fuseStore1 (by simp)).1 q).trans ?_
        simp [fuseStore1, Dict.keys]
      · refine (mem_keys_sortAll _ (fuseStore_wf fuseStore2 (by simp)).1 q).trans ?_
        simp [fuseStore2, Dict.keys]
        tauto
    simpa [Dict.keys] using hk.length_eq
  constructor
  · intro s hs; rw [hl 0 s hs]; exact (by decide : List.Perm [1, 0] (List.range 2))
  · intro j s hs; rw [hl j s hs]; exact (by decide : List.Perm [0, 1] (List.range 2))
  · intro j s hs; rw [hl j s hs]; exact (by decide : List.Perm [1, 0] (List.range 2))

/-- bordafuse and borda normalization of the example runs succeed -/
example : (∃ out, fuse exEnv builtRuns none "bordafuse" none = .ok out) ∧
    ∃ out, fuse exEnv builtRuns (some "borda") "med" (some []) = .ok out := by
  obtain ⟨⟨out, h, -⟩, -⟩ := C110_bordafuse exEnv builtRuns (by simp [builtRuns]) builtRuns_built builtRuns_same
    builtRuns_cover
  obtain ⟨out', -, h', -⟩ := C110_borda_norm exEnv builtRuns (by simp [builtRuns]) builtRuns_built builtRuns_same
    builtRuns_cover "med" [] _ .med
  exact ⟨⟨out, h⟩, out', h'⟩

end Ranx
