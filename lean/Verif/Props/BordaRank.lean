import Verif.Props.WmnzWeights

/-!
# Property C172: when the runs rank the same docs, bordafuse is the sum of the rank-normalized scores

On freshly built runs (which list their queries in the same order) that re-rank the same candidates, `bordafuse`, summing
after rank normalization and ordering by the sum of positions are the same.
-/

set_option linter.unusedSectionVars false

namespace Ranx
open Dict Store Metrics Eval Fuse Train Opt F64
open _root_.Ranx.Norm (Kind SetIter)

section
variable {κ δ ι : Type} [LinearOrder κ] [DecidableEq δ] [LinearOrder ι]

/-- Specification: the sum of the 0-based positions of doc `d` in the results for query `q` of the runs that have it. -/
def Spec.positionSum (runs : List (Store κ δ ℝ)) (q : κ) (d : δ) : ℕ :=
  (Spec.positions (runs.map (fun s => s.data)) q d).sum

/-- Specification: the docs of query `q` are in one run `n`, in all runs alike. -/
def Spec.DocCount (runs : List (Store κ δ ℝ)) (q : κ) (n : ℕ) : Prop :=
  ∀ s ∈ runs, ∀ r, s.data.get? q = some r → r.length = n

theorem Opt.same_doc_keys (runs : List (Store κ δ ℝ)) (hdocs : Spec.SameDocs runs)
    (s s' : Store κ δ ℝ) (hs : s ∈ runs) (hs' : s' ∈ runs) (q : κ) (r r' : Dict δ ℝ)
    (hr : s.data.get? q = some r) (hr' : s'.data.get? q = some r') (d : δ) (h : d ∈ r.keys) : d ∈ r'.keys := by
  have h1 : (Spec.content s).read q d ≠ none := by
    rw [read_score?]
    unfold Spec.score?
    rw [hr]
    exact Option.isSome_iff_ne_none.1 (get?_isSome.2 h)
  have h2 := hdocs s hs s' hs' q d h1
  rw [read_score?] at h2
  unfold Spec.score? at h2
  rw [hr'] at h2
  exact get?_isSome.1 (Option.isSome_iff_ne_none.2 h2)

/-- the pool has as many docs as each run -/
theorem Opt.pool_eq (runs : List (Store κ δ ℝ)) (hw : ∀ s ∈ runs, Store.Wf s.data) (hdocs : Spec.SameDocs runs)
    (hq : Spec.SameQueries runs) (s : Store κ δ ℝ) (hs : s ∈ runs) (q : κ) (r : Dict δ ℝ)
    (hr : s.data.get? q = some r) : Spec.poolSize (runs.map (fun s => s.data)) q = r.length := by
  have hnd : r.keys.Nodup := (hw s hs).2 (q, r) (mem_of_get? hr)
  have hl : r.length = r.keys.toFinset.card := by
    rw [List.toFinset_card_of_nodup hnd]
    unfold Dict.keys
    rw [List.length_map]
  unfold Spec.poolSize
  rw [hl]
  congr 1
  ext d
  rw [List.mem_toFinset, List.mem_toFinset, List.mem_flatMap]
  constructor
  · rintro ⟨run, h1, h2⟩
    obtain ⟨s', hs', rfl⟩ := List.mem_map.1 h1
    cases hr' : s'.data.get? q with
    | none => rw [hr'] at h2; cases h2
    | some r' =>
      rw [hr'] at h2
      exact same_doc_keys runs hdocs s' s hs' hs q r' r hr' hr d h2
  · intro h
    exact ⟨s.data, List.mem_map.2 ⟨s, hs, rfl⟩, by rw [hr]; exact h⟩

theorem Opt.idxOf?_mem {l : List δ} {d : δ} (h : d ∈ l) : l.idxOf? d = some (l.idxOf d) := by
  rw [List.idxOf?_eq_some_iff]
  exact ⟨List.idxOf_lt_length_of_mem h, List.getElem_idxOf _, fun j hj => by
    have := List.not_of_lt_findIdx hj
    simpa using this⟩

/-- the points and the rank-normalized scores of a doc that all runs have, from its positions -/
theorem Opt.rank_sums (n : ℕ) (hn : n ≠ 0) (q : κ) (d : δ) (L : List (Dict κ (Norm.Results δ ℝ)))
    (h : ∀ run ∈ L, ∃ r, run.get? q = some r ∧ r.length = n ∧ d ∈ r.keys ∧ r.keys.Nodup) :
    (L.map (fun run => (Spec.bordaPoints n run q d : ℝ))).sum =
      n * L.length - ((Spec.positions L q d).sum : ℕ) ∧
    (Spec.scores (L.map (fun run => run.map (fun p => (p.1, specRow .rank p.2)))) q d).sum =
      (n * L.length - ((Spec.positions L q d).sum : ℕ)) / n := by
  induction L with
  | nil => simp [Spec.scores, Spec.positions]
  | cons run L ih =>
    obtain ⟨i1, i2⟩ := ih (fun r hr => h r (List.mem_cons_of_mem _ hr))
    obtain ⟨r, h1, h2, h3, h4⟩ := h run (by simp)
    have hp : Spec.position? run q d = some (r.keys.idxOf d) := by
      unfold Spec.position?
      rw [h1, Option.bind_some, idxOf?_mem h3]
    have hs : Spec.score? (run.map (fun p => (p.1, specRow .rank p.2))) q d =
        some (1 - (r.keys.idxOf d : ℝ) / n) := by
      unfold Spec.score?
      have : Dict.get? (run.map (fun p => (p.1, specRow .rank p.2))) q = (run.get? q).map (specRow .rank) :=
        get?_map_val _ _ _
      rw [this, h1, Option.map_some, Option.bind_some]
      have hk : (specRow .rank r).keys = r.keys := keys_specRow _ _
      obtain ⟨v, hv⟩ := Option.isSome_iff_exists.1 (get?_isSome.2 (hk ▸ h3 : d ∈ (specRow .rank r).keys))
      have hm := mem_of_get? hv
      unfold specRow at hm
      obtain ⟨e, -, he⟩ := List.mem_map.1 hm
      rw [hv]
      have e1 : e.1 = d := congrArg Prod.fst he
      have e2 := congrArg Prod.snd he
      simp only [Spec.normScore, e1, h2] at e2
      rw [← e2]
    have hpl : Spec.positions (run :: L) q d = r.keys.idxOf d :: Spec.positions L q d := by
      unfold Spec.positions
      rw [List.filterMap_cons, hp]
    have hsl : Spec.scores ((run :: L).map (fun run => run.map (fun p => (p.1, specRow .rank p.2)))) q d =
        (1 - (r.keys.idxOf d : ℝ) / n) :: Spec.scores (L.map (fun run => run.map (fun p => (p.1, specRow .rank p.2)))) q d := by
      unfold Spec.scores
      rw [List.map_cons, List.filterMap_cons, hs]
    have hb : (Spec.bordaPoints n run q d : ℝ) = n - (r.keys.idxOf d : ℝ) := by
      unfold Spec.bordaPoints
      rw [hp]
    have hn' : (n : ℝ) ≠ 0 := by exact_mod_cast hn
    rw [hpl, hsl, List.map_cons, List.sum_cons, List.sum_cons, List.sum_cons, i1, i2, hb, List.length_cons]
    push_cast
    refine ⟨by ring, ?_⟩
    field_simp
    ring

/-- **C172**: if all runs list their queries in the same order and have the same docs per query, then `bordafuse` gives
every doc of a query with `n` docs the points `n * (number of runs) - (sum of its positions)`, and summing after rank
normalization gives the `n`-th part of that. -/
theorem C172_borda_is_rank_sum (E : Env δ) (runs : List (Store κ δ ℝ)) (hn : 2 ≤ runs.length)
    (hw : ∀ s ∈ runs, Store.Wf s.data) (hq : Spec.SameQueries runs) (ho : Spec.SameQueryOrder runs)
    (hdocs : Spec.SameDocs runs) (hE : Spec.SchedulesCover E runs) :
    ∃ out out', fuse E runs none "bordafuse" none = .ok out ∧ fuse E runs (some "rank") "sum" none = .ok out' ∧
      (∀ q, q ∈ out.data.keys ↔ q ∈ out'.data.keys) ∧
      ∀ q n, Spec.DocCount runs q n → ∀ d,
        ((Spec.content out).read q d = none ↔ ∀ s ∈ runs, (Spec.content s).read q d = none) ∧
        (∀ x, (Spec.content out).read q d = some x → x = n * runs.length - Spec.positionSum runs q d) ∧
        (Spec.content out).read q d = ((Spec.content out').read q d).map (fun x : ℝ => (n : ℝ) * x) := by
  obtain ⟨nr, hnr, hS⟩ := normStep E runs hn hw hq hE none none (.inl ⟨rfl, rfl⟩)
  obtain ⟨nr', hnr', hS'⟩ := normStep E runs hn hw hq hE (some "rank") (some .rank)
    (.inr ⟨"rank", .rank, rfl, rfl, by decide +kernel, by decide⟩)
  have e0 : nr = runs.map (fun s => s.data) := hS.exact (by decide)
  have e0' := hS'.exact (by decide)
  subst e0
  have hko : ∀ run ∈ runs.map (fun s => s.data), ∀ run' ∈ runs.map (fun s => s.data), run.keys = run'.keys := by
    intro run h1 run' h2
    obtain ⟨s, hs, rfl⟩ := List.mem_map.1 h1
    obtain ⟨s', hs', rfl⟩ := List.mem_map.1 h2
    exact ho s hs s' hs'
  obtain ⟨out, e1, b1⟩ := C51_bordafuse_partial E.S E.sched E.scheds E.I _ hS.fusable hko hS.fits.main hS.fits.rescore
  obtain ⟨out', e2, b2⟩ := C49_comb_sum E.S E.sched nr' hS'.fusable hS'.fits.main
  have f1 := (fuse_named_none E runs hn hq none "bordafuse" .bordafuse (by decide +kernel) _ hnr).trans e1
  have f2 := (fuse_named_none E runs hn hq (some "rank") "sum" .combSum (by decide +kernel) nr' hnr').trans e2
  refine ⟨out, out', f1, f2, fun q => (b1.queries q).trans ((hS.queries q).trans ((hS'.queries q).symm.trans
    (b2.queries q).symm)), ?_⟩
  intro q n hc d
  have hnone : (Spec.content out).read q d = none ↔ ∀ s ∈ runs, (Spec.content s).read q d = none := by
    rw [← not_iff_not, ← ne_eq, b1.docs q d, inSome_iff]
    push Not
    constructor
    · rintro ⟨run, h1, h2⟩
      obtain ⟨s, hs, rfl⟩ := List.mem_map.1 h1
      exact ⟨s, hs, by rw [read_score?]; exact Option.isSome_iff_ne_none.1 h2⟩
    · rintro ⟨s, hs, h⟩
      rw [read_score?] at h
      exact ⟨s.data, List.mem_map.2 ⟨s, hs, rfl⟩, Option.isSome_iff_ne_none.2 h⟩
  have hin' : Spec.InSome nr' q d ↔ Spec.InSome (runs.map (fun s => s.data)) q d := by
    have hd : ∀ run ∈ runs.map (fun s => s.data), ∀ p ∈ run, NodupKeys p.2 := by
      intro run hr p hp
      obtain ⟨s, hs, rfl⟩ := List.mem_map.1 hr
      exact (hw s hs).2 p hp
    have hF := normalised_docs (some .rank) (runs.map (fun s => s.data)) hd
    rw [← e0'] at hF
    rw [inSome_iff, inSome_iff]
    clear * - hF
    generalize runs.map (fun s => s.data) = rs at hF ⊢
    induction hF with
    | nil => simp
    | cons h _ ih => simp only [List.mem_cons, exists_eq_or_imp, h q d, ih]
  refine ⟨hnone, ?_⟩
  by_cases hi : Spec.InSome (runs.map (fun s => s.data)) q d
  · have hrow : ∀ run ∈ runs.map (fun s => s.data), ∃ r, run.get? q = some r ∧ r.length = n ∧ d ∈ r.keys ∧
        r.keys.Nodup := by
      obtain ⟨run0, h1, r0, h2, h3⟩ := hi
      obtain ⟨s0, hs0, rfl⟩ := List.mem_map.1 h1
      intro run hr
      obtain ⟨s, hs, rfl⟩ := List.mem_map.1 hr
      have hqs : q ∈ s.data.keys := hq s0 hs0 s hs q (get?_isSome.1 (by rw [h2]; rfl))
      obtain ⟨r, hr'⟩ := Option.isSome_iff_exists.1 (get?_isSome.2 hqs)
      exact ⟨r, hr', hc s hs r hr', same_doc_keys runs hdocs s0 s hs0 hs q r0 r h2 hr' d h3,
        (hw s hs).2 (q, r) (mem_of_get? hr')⟩
    have hpool : Spec.poolSize (runs.map (fun s => s.data)) q = n := by
      obtain ⟨run0, h1, r0, h2, -⟩ := hi
      obtain ⟨s0, hs0, rfl⟩ := List.mem_map.1 h1
      rw [pool_eq runs hw hdocs hq s0 hs0 q r0 h2, hc s0 hs0 r0 h2]
    have hpos : n ≠ 0 := by
      obtain ⟨run0, h1, -⟩ := hi
      obtain ⟨r, -, h2, h3, -⟩ := hrow run0 h1
      intro h0
      rw [h0] at h2
      rw [List.length_eq_zero_iff.1 h2] at h3
      cases h3
    obtain ⟨s1, s2⟩ := rank_sums n hpos q d _ hrow
    rw [b1.value q d hi, b2.value q d (hin'.2 hi), hpool, s1, e0', normalised_some, s2, List.length_map]
    refine ⟨fun x hx => (Option.some.inj hx).symm, ?_⟩
    rw [Option.map_some]
    congr 1
    have : (n : ℝ) ≠ 0 := by exact_mod_cast hpos
    field_simp
  · rw [not_not.1 (mt (b1.docs q d).1 hi), not_not.1 (mt (b2.docs q d).1 (fun h => hi (hin'.1 h)))]
    exact ⟨fun x hx => (by cases hx), rfl⟩

/-- **C172** (order): so a doc gets more points than another exactly if the sum of its positions is smaller. -/
theorem C172_mean_rank (E : Env δ) (runs : List (Store κ δ ℝ)) (hn : 2 ≤ runs.length)
    (hw : ∀ s ∈ runs, Store.Wf s.data) (hq : Spec.SameQueries runs) (ho : Spec.SameQueryOrder runs)
    (hdocs : Spec.SameDocs runs) (hE : Spec.SchedulesCover E runs) (out : Store κ δ ℝ)
    (h : fuse E runs none "bordafuse" none = .ok out) (q : κ) (n : ℕ) (hc : Spec.DocCount runs q n) (d d' : δ)
    (x x' : ℝ) (hx : (Spec.content out).read q d = some x) (hx' : (Spec.content out).read q d' = some x') :
    x' < x ↔ Spec.positionSum runs q d < Spec.positionSum runs q d' := by
  obtain ⟨o, o', f1, -, -, hv⟩ := C172_borda_is_rank_sum E runs hn hw hq ho hdocs hE
  rw [h] at f1
  cases f1
  rw [(hv q n hc d).2.1 x hx, (hv q n hc d').2.1 x' hx', sub_lt_sub_iff_left]
  exact Nat.cast_lt

/-- **C172** (evaluation): if no two docs of a query have the same sum of positions (the same number of points), every
metric gives `bordafuse` and the sum after rank normalization the same value. -/
theorem C172_same_score (E : Env δ) (V : EvalEnv δ ι) (qrels : Store κ δ Int) (hqr : Spec.Usable V.SQ qrels)
    (metric : Py.Str) (runs : List (Store κ δ ℝ)) (hn : 2 ≤ runs.length)
    (hw : ∀ s ∈ runs, Store.Wf s.data) (hq : Spec.SameQueries runs) (ho : Spec.SameQueryOrder runs)
    (hdocs : Spec.SameDocs runs) (hE : Spec.SchedulesCover E runs)
    (ht : ∀ out, fuse E runs none "bordafuse" none = .ok out → Spec.FusedApart out) :
    Spec.scoreOf V E.S qrels metric (fuse E runs none "bordafuse" none) =
      Spec.scoreOf V E.S qrels metric (fuse E runs (some "rank") "sum" none) := by
  obtain ⟨out, out', f1, f2, hk, hv⟩ := C172_borda_is_rank_sum E runs hn hw hq ho hdocs hE
  rw [f1, f2]
  unfold Spec.scoreOf
  have := evaluate_same_order V.F V.other V.SQ E.S E.S V.hash V.sched { save := false } qrels
    ⟨out, [], [], []⟩ ⟨out', [], [], []⟩ [metric] hqr (fuse_usable E runs _ _ _ out f1)
    (fuse_usable E runs _ _ _ out' f2) (.inr hk) (by
      intro q _
      have hcn : Spec.DocCount runs q (Spec.poolSize (runs.map (fun s => s.data)) q) :=
        fun s hs r hr => (pool_eq runs hw hdocs hq s hs q r hr).symm
      have hm := fun d => (hv q _ hcn d).2.2
      refine ⟨fun d => ?_, ht out f1 q, ?_⟩
      · rw [hm]
        cases (Spec.content out').read q d <;> rfl
      · intro d d' v v' w w' h1 h2 h3 h4 hlt
        rw [hm, h3] at h1
        rw [hm, h4] at h2
        cases h1
        cases h2
        exact lt_of_mul_lt_mul_left hlt (Nat.cast_nonneg _))
  simp only [this]

end

/-! ### concrete cases -/

theorem low_same : Spec.SameQueryOrder [lowFirst, lowFirst] ∧ Spec.SameDocs [lowFirst, lowFirst] ∧
    Spec.DocCount [lowFirst, lowFirst] 1 2 := by
  have h1 : ∀ s ∈ [lowFirst, lowFirst], s = lowFirst := by
    intro s hs
    simpa using hs
  refine ⟨fun s hs s' hs' => by rw [h1 s hs, h1 s' hs'], twoDocs_same _ (fun s hs => ⟨3, 5, h1 s hs⟩), ?_⟩
  intro s hs r hr
  rw [h1 s hs] at hr
  cases hr
  rfl

/-- the points of the two docs: 4 and 2 -/
theorem low_borda (out : Store Nat Nat ℝ) (h : fuse oneEnv [lowFirst, lowFirst] none "bordafuse" none = .ok out) :
    (Spec.content out).read 1 10 = some 4 ∧ (Spec.content out).read 1 11 = some 2 ∧ Spec.FusedApart out := by
  obtain ⟨o, _, f1, -, -, hv⟩ := C172_borda_is_rank_sum oneEnv [lowFirst, lowFirst] (by decide) low_valid.wf
    low_valid.sameQueries low_same.1 low_same.2.1 low_valid.schedules
  rw [h] at f1
  cases f1
  have hread : ∀ q d, (Spec.content lowFirst).read q d = if q = 1 then if d = 10 then some 3 else if d = 11 then some 5
      else none else none := twoDocs_read 3 5
  have p10 : Spec.positionSum [lowFirst, lowFirst] 1 10 = 0 := rfl
  have p11 : Spec.positionSum [lowFirst, lowFirst] 1 11 = 2 := rfl
  have get : ∀ d, (d = 10 ∨ d = 11) → ∃ x, (Spec.content out).read 1 d = some x := by
    intro d hd
    rw [← Option.isSome_iff_exists, Option.isSome_iff_ne_none, ne_eq, (hv 1 2 low_same.2.2 d).1]
    intro hc
    have := hc lowFirst (by simp)
    rw [hread] at this
    rcases hd with rfl | rfl <;> simp at this
  obtain ⟨x, hx⟩ := get 10 (.inl rfl)
  obtain ⟨y, hy⟩ := get 11 (.inr rfl)
  have ex := (hv 1 2 low_same.2.2 10).2.1 x hx
  have ey := (hv 1 2 low_same.2.2 11).2.1 y hy
  rw [p10] at ex
  rw [p11] at ey
  norm_num at ex ey
  subst ex ey
  refine ⟨hx, hy, ?_⟩
  have hdoc : ∀ q d v, (Spec.content out).read q d = some v → q = 1 ∧ (d = 10 ∨ d = 11) := by
    intro q d v hr
    by_contra hne
    have hcn : Spec.DocCount [lowFirst, lowFirst] q (Spec.poolSize ([lowFirst, lowFirst].map (fun s => s.data)) q) :=
      fun s hs r hr => (pool_eq _ low_valid.wf low_same.2.1 low_valid.sameQueries s hs q r hr).symm
    have h0 := (hv q _ hcn d).1.2 (by
      intro s hs
      have : s = lowFirst := by simpa using hs
      rw [this, hread]
      split_ifs <;> simp_all)
    rw [hr] at h0
    cases h0
  intro q d d' v h1 h2
  obtain ⟨rfl, e1⟩ := hdoc q d v h1
  obtain ⟨-, e2⟩ := hdoc 1 d' v h2
  rcases e1 with rfl | rfl <;> rcases e2 with rfl | rfl
  · rfl
  · rw [hx] at h1; rw [hy] at h2; cases h1; norm_num at h2
  · rw [hy] at h1; rw [hx] at h2; cases h1; norm_num at h2
  · rfl

/-- the hypotheses of the three theorems are met -/
example : 2 ≤ [lowFirst, lowFirst].length ∧ (∀ s ∈ [lowFirst, lowFirst], Store.Wf s.data) ∧
    Spec.SameQueries [lowFirst, lowFirst] ∧ Spec.SameQueryOrder [lowFirst, lowFirst] ∧
    Spec.SameDocs [lowFirst, lowFirst] ∧ Spec.SchedulesCover oneEnv [lowFirst, lowFirst] ∧
    Spec.DocCount [lowFirst, lowFirst] 1 2 ∧ Spec.Usable oneEvalEnv.SQ oneQrels ∧
    ∀ out, fuse oneEnv [lowFirst, lowFirst] none "bordafuse" none = .ok out → Spec.FusedApart out :=
  ⟨by decide, low_valid.wf, low_valid.sameQueries, low_same.1, low_same.2.1, low_valid.schedules, low_same.2.2,
    low_valid.qrelsOk, fun out h => (low_borda out h).2.2⟩

end Ranx
