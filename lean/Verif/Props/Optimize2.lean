import Verif.Props.Optimize
import Verif.Props.Grid2
import Verif.Lemmas.Heap4

/-!
# C65 with the search spaces spelled out: which parameter is searched, over which values
-/

set_option linter.unusedSectionVars false

namespace Ranx
open Dict Store Metrics Eval Fuse Train Opt

section
variable {κ δ ι : Type} [LinearOrder κ] [DecidableEq δ] [LinearOrder ι]

/-- Specification: among the values `x` with `P x`, the result `params` is the configuration `cfg x` of the
greatest score (of the last one in the order `<` among equals), unless no score reaches 0. All values have a
score. NaN scores never count. -/
def Spec.BestOf {X : Type} [LT X] (P : X → Prop) (cfg : X → Kwargs) (score : Kwargs → Except Err (Num ℝ))
    (params : Option Kwargs) : Prop :=
  (∀ x, P x → ∃ v, score (cfg x) = .ok v) ∧
  ((params = none ∧ ∀ x, P x → ∀ v, score (cfg x) = .ok (.val v) → v < 0) ∨
   ∃ x v, P x ∧ params = some (cfg x) ∧ score (cfg x) = .ok (.val v) ∧ 0 ≤ v ∧
     ∀ y, P y → ∀ u, score (cfg y) = .ok (.val u) → u ≤ v ∧ (x < y → u < v))

theorem Opt.bestOf {X : Type} [Preorder X] (xs : List X) (hx : xs.Pairwise (· < ·)) (cfg : X → Kwargs)
    (score : Kwargs → Except Err (Num ℝ)) (scores : List (Num ℝ))
    (hs : (xs.map cfg).map score = scores.map .ok) (params : Option Kwargs)
    (hb : Spec.LastBest ((xs.map cfg).zip scores) params) : Spec.BestOf (· ∈ xs) cfg score params := by
  have hall : ∀ x ∈ xs, ∃ v, score (cfg x) = .ok v := by
    intro x hxm
    have : score (cfg x) ∈ (xs.map cfg).map score := List.mem_map_of_mem (List.mem_map_of_mem hxm)
    rw [hs] at this
    obtain ⟨v, -, hv⟩ := List.mem_map.1 this
    exact ⟨v, hv.symm⟩
  refine ⟨hall, ?_⟩
  -- the pairs are the values with their scores
  have hzip : ∀ p ∈ (xs.map cfg).zip scores, score p.1 = .ok p.2 := by
    have : ∀ (l : List Kwargs) (sc : List (Num ℝ)), l.map score = sc.map .ok →
        ∀ p ∈ l.zip sc, score p.1 = .ok p.2 := by
      intro l
      induction l with
      | nil => intro sc _ p hp; simp at hp
      | cons a t ih =>
        intro sc h p hp
        cases sc with
        | nil => simp at hp
        | cons c cs =>
          simp only [List.map_cons, List.cons.injEq] at h
          rw [List.zip_cons_cons] at hp
          rcases List.mem_cons.1 hp with rfl | hp
          · exact h.1
          · exact ih cs h.2 p hp
    exact this _ _ hs
  have hlen : scores.length = xs.length := by
    have := congrArg List.length hs
    simpa using this.symm
  rcases hb with ⟨h1, h2⟩ | ⟨t, v, a, b, h1, h2, h3, h4, h5⟩
  · refine .inl ⟨h1, ?_⟩
    intro x hxm v hv
    have hmem : cfg x ∈ ((xs.map cfg).zip scores).map Prod.fst := by
      rw [List.map_fst_zip (by simp [hlen])]; exact List.mem_map_of_mem hxm
    obtain ⟨p, hp, hpx⟩ := List.mem_map.1 hmem
    have := hzip p hp
    rw [hpx, hv] at this
    exact h2 p hp v (Except.ok.inj this).symm
  · have hxs : xs.map cfg = a.map Prod.fst ++ t :: b.map Prod.fst := by
      have := congrArg (List.map Prod.fst) h2
      rw [List.map_fst_zip (by simp [hlen])] at this
      simpa using this
    obtain ⟨l, r, rfl, hl, hr⟩ := List.map_eq_append_iff.1 hxs
    obtain ⟨x, r, rfl, rfl, hr'⟩ := List.map_eq_cons_iff.1 hr
    refine .inr ⟨x, v, by simp, h1, ?_, h3, ?_⟩
    · have := hzip (cfg x, .val v) (by rw [h2]; simp)
      exact this
    · intro y hy u hu
      rw [List.pairwise_append] at hx
      obtain ⟨-, hxr, hlr⟩ := hx
      have hpair : ∀ z ∈ l, ∀ w, score (cfg z) = .ok (.val w) → w ≤ v := by
        intro z hz w hw
        have : cfg z ∈ a.map Prod.fst := by rw [← hl]; exact List.mem_map_of_mem hz
        obtain ⟨p, hp, hpz⟩ := List.mem_map.1 this
        have h := hzip p (by rw [h2]; simp [hp])
        rw [hpz, hw] at h
        exact h4 p hp w (Except.ok.inj h).symm
      have hpair' : ∀ z ∈ r, ∀ w, score (cfg z) = .ok (.val w) → w < v := by
        intro z hz w hw
        have : cfg z ∈ b.map Prod.fst := by rw [← hr']; exact List.mem_map_of_mem hz
        obtain ⟨p, hp, hpz⟩ := List.mem_map.1 this
        have h := hzip p (by rw [h2]; simp [hp])
        rw [hpz, hw] at h
        exact h5 p hp w (Except.ok.inj h).symm
      rcases List.mem_append.1 hy with hy | hy
      · exact ⟨hpair y hy u hu, fun hlt => absurd hlt (lt_asymm (hlr y hy x (by simp)))⟩
      · rcases List.mem_cons.1 hy with rfl | hy
        · have := hzip (cfg y, .val v) (by rw [h2]; simp)
          simp only [hu, Except.ok.injEq, Num.val.injEq] at this
          exact ⟨this.le, fun hlt => absurd hlt (lt_irrefl _)⟩
        · have := hpair' y hy u hu
          exact ⟨this.le, fun _ => this⟩

theorem Spec.BestOf.congr {X : Type} [LT X] {P Q : X → Prop} (h : ∀ x, P x ↔ Q x) {cfg : X → Kwargs}
    {score : Kwargs → Except Err (Num ℝ)} {params : Option Kwargs} (hb : Spec.BestOf P cfg score params) :
    Spec.BestOf Q cfg score params := by
  have : P = Q := funext fun x => propext (h x)
  rwa [this] at hb

/-- **C65** (rrf, search space spelled out): `optimize_fusion(method="rrf", min_k=lo, max_k=hi, step=step)`
returns `{"k": k}` for the k in `lo, lo+step, …, ≤ hi` whose score (fusing with that k and evaluating) is
greatest, the largest such k among equals. -/
theorem C65_best_k (E : Env δ) (V : EvalEnv δ ι) (rowSched : List Nat) (rnd : ℚ → ℚ)
    (str : Kwargs → Py.Str) (strNat : Nat → Py.Str) (qrels : Store κ δ Int) (hq : Spec.Usable V.SQ qrels)
    (runs : List (Store κ δ ℝ)) (norm : Option String) (metric : Py.Str) (wantReport : Bool)
    (lo hi step : ℤ) (hs : 0 < step) (res : Result)
    (h : optimizeFusion E V rowSched rnd str strNat qrels runs norm "rrf" metric wantReport
      (.ints lo hi step) = .ok res) :
    Spec.BestOf (fun k : ℤ => lo ≤ k ∧ k ≤ hi ∧ step ∣ k - lo) (fun k => [("k", .num (k : ℝ))])
      (Spec.fusedScore E V qrels runs norm "rrf" metric) res.params := by
  obtain ⟨tried, scores, h1, h2, h3, -⟩ := C65_best_configuration E V rowSched rnd str strNat qrels hq runs norm
    "rrf" metric wantReport _ .rrf (by decide +kernel) res h
  obtain ⟨g, hg, hp, hm⟩ := C67_ints lo hi step hs
  have ht : tried = g.map (fun k : ℤ => [("k", PyVal.num (k : ℝ))]) := by
    simp only [configs, hg, Except.map, Except.ok.injEq] at h1
    exact h1.symm
  subst ht
  exact (bestOf g hp _ _ scores h2 _ h3).congr hm

/-- the parameter a float grid tunes -/
def Spec.tunes (method param : String) : Prop :=
  (method = "rbc" ∧ param = "phi") ∨ (method = "gmnz" ∧ param = "gamma") ∨ (method = "logn_isr" ∧ param = "sigma")

/-- **C65** (rbc, gmnz, logn_isr, search space spelled out, grid in exact arithmetic): the returned
`{"phi": x}` / `{"gamma": x}` / `{"sigma": x}` has the greatest score among `lo, lo+step, …` below
`hi + step`, the largest such x among equals. -/
theorem C65_best_float (E : Env δ) (V : EvalEnv δ ι) (rowSched : List Nat)
    (str : Kwargs → Py.Str) (strNat : Nat → Py.Str) (qrels : Store κ δ Int) (hq : Spec.Usable V.SQ qrels)
    (runs : List (Store κ δ ℝ)) (norm : Option String) (metric : Py.Str) (wantReport : Bool)
    (method param : String) (hm : Spec.tunes method param)
    (lo hi step : ℚ) (stepStr : Py.Str) (d : ℕ) (hs : 0 < step)
    (hd : roundingDigits stepStr = d) (hlo : Spec.Decimals d lo) (hst : Spec.Decimals d step) (res : Result)
    (h : optimizeFusion E V rowSched id str strNat qrels runs norm method metric wantReport
      (.floats lo hi step stepStr) = .ok res) :
    Spec.BestOf (fun x : ℚ => (∃ i : ℕ, x = lo + i * step) ∧ x < hi + step) (fun x => [(param, .num (x : ℝ))])
      (Spec.fusedScore E V qrels runs norm method metric) res.params := by
  obtain ⟨g, hg, hp, hmem, -⟩ := C67_grid_partial lo hi step stepStr d hs hd hlo hst
  have key : ∀ m : Method, optimizationSwitch method = .ok (.plain m) →
      configs id runs.length m (.floats lo hi step stepStr) =
        .ok (g.map (fun x : ℚ => [(param, PyVal.num (x : ℝ))])) →
      Spec.BestOf (fun x : ℚ => (∃ i : ℕ, x = lo + i * step) ∧ x < hi + step) (fun x => [(param, .num (x : ℝ))])
        (Spec.fusedScore E V qrels runs norm method metric) res.params := by
    intro m hsw hc
    obtain ⟨tried, scores, h1, h2, h3, -⟩ := C65_best_configuration E V rowSched id str strNat qrels hq runs norm
      method metric wantReport _ m hsw res h
    rw [hc] at h1
    have := Except.ok.inj h1
    subst this
    exact (bestOf g hp _ _ scores h2 _ h3).congr hmem
  rcases hm with ⟨rfl, rfl⟩ | ⟨rfl, rfl⟩ | ⟨rfl, rfl⟩
  · exact key .rbc (by decide +kernel) (by simp only [configs, hg, Except.map])
  · exact key .combGmnz (by decide +kernel) (by simp only [configs, hg, Except.map])
  · exact key .lognIsr (by decide +kernel) (by simp only [configs, hg, Except.map])

/-- **C65** (weights, search space spelled out, grid in exact arithmetic): for mixed, w_bordafuse, w_condorcet,
wmnz and wsum the returned `{"weights": w}` has the greatest score among all weight vectors, one weight per run,
over the multiples of the step that sum to 1; `none` (the code's `[]`) only if no score reaches 0. -/
theorem C65_best_weights (E : Env δ) (V : EvalEnv δ ι) (rowSched : List Nat)
    (str : Kwargs → Py.Str) (strNat : Nat → Py.Str) (qrels : Store κ δ Int) (hq : Spec.Usable V.SQ qrels)
    (runs : List (Store κ δ ℝ)) (norm : Option String) (metric : Py.Str) (wantReport : Bool)
    (method : String) (hm : method ∈ ["mixed", "w_bordafuse", "w_condorcet", "wmnz", "wsum"])
    (step : ℚ) (stepStr : Py.Str) (d : ℕ) (hs : 0 < step)
    (hd : roundingDigits stepStr = d) (hst : Spec.Decimals d step) (res : Result)
    (h : optimizeFusion E V rowSched id str strNat qrels runs norm method metric wantReport
      (.weights step stepStr) = .ok res) :
    (∀ w, Spec.Weighting step runs.length w → ∃ v, Spec.fusedScore E V qrels runs norm method metric
      [("weights", .nums (w.map (fun x : ℚ => (x : ℝ))))] = .ok v) ∧
    ((res.params = none ∧ ∀ w, Spec.Weighting step runs.length w → ∀ v, Spec.fusedScore E V qrels runs norm method
        metric [("weights", .nums (w.map (fun x : ℚ => (x : ℝ))))] = .ok (.val v) → v < 0) ∨
     ∃ w v, Spec.Weighting step runs.length w ∧
      res.params = some [("weights", .nums (w.map (fun x : ℚ => (x : ℝ))))] ∧
      Spec.fusedScore E V qrels runs norm method metric
        [("weights", .nums (w.map (fun x : ℚ => (x : ℝ))))] = .ok (.val v) ∧
      ∀ w', Spec.Weighting step runs.length w' → ∀ u, Spec.fusedScore E V qrels runs norm method metric
        [("weights", .nums (w'.map (fun x : ℚ => (x : ℝ))))] = .ok (.val u) → u ≤ v) := by
  obtain ⟨T, hT, -, hmem⟩ := C66_exact_partial step stepStr d hs hd hst runs.length
  have key : ∀ m : Method, optimizationSwitch method = .ok (.plain m) →
      configs id runs.length m (.weights step stepStr) =
        .ok (T.map (fun ws => [("weights", .nums (ws.map (fun (x : ℚ) => (x : ℝ))))])) →
      ∃ scores, (T.map (fun ws => [("weights", PyVal.nums (ws.map (fun (x : ℚ) => (x : ℝ))))])).map
          (Spec.fusedScore E V qrels runs norm method metric) = scores.map .ok ∧
        Spec.LastBest ((T.map (fun ws => [("weights", PyVal.nums (ws.map (fun (x : ℚ) => (x : ℝ))))])).zip scores)
          res.params := by
    intro m hsw hc
    obtain ⟨tried, scores, h1, h2, h3, -⟩ := C65_best_configuration E V rowSched id str strNat qrels hq runs norm
      method metric wantReport _ m hsw res h
    rw [hc] at h1
    have := Except.ok.inj h1
    subst this
    exact ⟨scores, h2, h3⟩
  have hex : ∃ scores, (T.map (fun ws => [("weights", PyVal.nums (ws.map (fun (x : ℚ) => (x : ℝ))))])).map
          (Spec.fusedScore E V qrels runs norm method metric) = scores.map .ok ∧
        Spec.LastBest ((T.map (fun ws => [("weights", PyVal.nums (ws.map (fun (x : ℚ) => (x : ℝ))))])).zip scores)
          res.params := by
    simp only [List.mem_cons, List.not_mem_nil, or_false] at hm
    rcases hm with rfl | rfl | rfl | rfl | rfl
    · exact key .mixed (by decide +kernel) (by simp only [configs, hT, Except.map])
    · exact key .weightedBordafuse (by decide +kernel) (by simp only [configs, hT, Except.map])
    · exact key .weightedCondorcet (by decide +kernel) (by simp only [configs, hT, Except.map])
    · exact key .wmnz (by decide +kernel) (by simp only [configs, hT, Except.map])
    · exact key .wsum (by decide +kernel) (by simp only [configs, hT, Except.map])
  obtain ⟨scores, h2, h3⟩ := hex
  have hidx : ((List.range T.length).map (fun i => (T[i]?).getD [])) = T := by
    apply List.ext_getElem
    · simp
    · intro i h1 h2
      simp [List.getElem?_eq_getElem h2]
  have hb := bestOf (List.range T.length) List.pairwise_lt_range
    (fun i => [("weights", PyVal.nums (((T[i]?).getD []).map (fun (x : ℚ) => (x : ℝ))))])
    (Spec.fusedScore E V qrels runs norm method metric) scores
    (by
      rw [← h2]
      congr 1
      conv_rhs => rw [← hidx]
      rw [List.map_map]; rfl) res.params
    (by
      have e : (List.range T.length).map
          (fun i => [("weights", PyVal.nums (((T[i]?).getD []).map (fun (x : ℚ) => (x : ℝ))))]) =
          T.map (fun ws => [("weights", PyVal.nums (ws.map (fun (x : ℚ) => (x : ℝ))))]) := by
        conv_rhs => rw [← hidx]
        rw [List.map_map]; rfl
      rw [e]; exact h3)
  have hin : ∀ w, Spec.Weighting step runs.length w → ∃ i ∈ List.range T.length, (T[i]?).getD [] = w := by
    intro w hw
    have := (hmem w).2 hw
    rw [← hidx] at this
    obtain ⟨i, hi, he⟩ := List.mem_map.1 this
    exact ⟨i, hi, he⟩
  obtain ⟨hall, hbest⟩ := hb
  refine ⟨?_, ?_⟩
  · intro w hw
    obtain ⟨i, hi, rfl⟩ := hin w hw
    exact hall i hi
  · rcases hbest with ⟨a, b⟩ | ⟨i, v, hi, a, b, -, c⟩
    · refine .inl ⟨a, ?_⟩
      intro w hw v hv
      obtain ⟨i, hi, rfl⟩ := hin w hw
      exact b i hi v hv
    · refine .inr ⟨(T[i]?).getD [], v, ?_, a, b, ?_⟩
      · rw [← hmem]
        have hlt := List.mem_range.1 hi
        rw [List.getElem?_eq_getElem hlt]
        exact List.getElem_mem hlt
      · intro w' hw' u hu
        obtain ⟨j, hj, rfl⟩ := hin w' hw'
        exact (c j hj u hu).1

/-! ### Normalized runs can be trained on -/

omit [LinearOrder ι] in
theorem usable_of_unsorted {β : Type} [LE β] [Neg β] (S : ArgSort β) (s : Store κ δ β) (hw : Store.Wf s.data)
    (hf : s.sorted = false) : Spec.Usable S s := by
  refine ⟨s, [], ⟨s.data, hw.1, hw.2, .inl ?_⟩, rfl, by simp [Store.exec]⟩
  rw [← hf]

theorem Opt.usable_normOne (E : Env δ) (k : Norm.Kind) (hk : k ≠ .borda) (j : Nat) (s : Store κ δ ℝ)
    (hw : Store.Wf s.data) (hs : Schedule s.data.length (E.normScheds j)) :
    Spec.Usable E.S (normOne E k j s) := by
  obtain ⟨⟨h1, h2⟩, -, -⟩ := normOne_local E k hk j s hw hs
  have hwf : Store.Wf (normOne E k j s).data := ⟨(h1.nodup_iff).2 hw.1, h2⟩
  by_cases hi : k = .minMaxInverted
  · subst hi
    have hm : Store.Wf (Norm.normParallel (Norm.minMax true) (E.normScheds j) s.data) := by
      rw [Norm.normParallel_eq _ _ _ hw.1 hs]
      refine ⟨?_, ?_⟩
      · have hk' := keys_map_val s.data (Norm.minMax (α := ℝ) true)
        unfold NodupKeys at *
        unfold keys at hk'
        rw [hk']; exact hw.1
      · intro p hp
        obtain ⟨p', -, rfl⟩ := List.mem_map.1 hp
        exact nodupKeys_ofList _
    exact ⟨⟨Norm.normParallel (Norm.minMax true) (E.normScheds j) s.data, false⟩, [.sort],
      ⟨_, hm.1, hm.2, .inl rfl⟩, rfl, by simp [Store.exec, Store.step]⟩
  · refine usable_of_unsorted E.S _ hwf ?_
    cases k <;> first | rfl | exact absurd rfl hk | exact absurd rfl hi

/-- **C65** (trained methods, normalization): with any normalization but borda (or none), usable runs over the
qrels' queries, without hash collisions, normalize to runs that can be trained on, so that `C65_mapfuse` and
`C65_trained_tables` apply. -/
theorem C65_trainable (E : Env δ) (V : EvalEnv δ ι) (qrels : Store κ δ Int) (runs : List (Store κ δ ℝ))
    (norm : Option String) (hnb : norm ≠ some "borda") (hne : ∀ n, norm = some n → ∃ k, Norm.normSwitch n = .ok k)
    (hT : Spec.Trainable V.SQ E.S V.hash qrels runs)
    (hs : ∀ (j : Nat) s, runs[j]? = some s → Schedule s.data.length (E.normScheds j)) :
    ∃ rs, normalizeStores E norm runs = .ok rs ∧ rs.length = runs.length ∧
      Spec.Trainable V.SQ E.S V.hash qrels rs := by
  cases norm with
  | none => exact ⟨runs, rfl, rfl, hT⟩
  | some n =>
    obtain ⟨k, hk⟩ := hne n rfl
    have hb : n ≠ "borda" := fun h => hnb (by rw [h])
    have hkb := Heap.normSwitch_borda hb hk
    refine ⟨runs.zipIdx.map (fun rj => normOne E k rj.2 rj.1), ?_, by simp, ?_⟩
    · unfold normalizeStores
      simp only
      rw [if_pos hb, hk]
    · have hmem : ∀ r ∈ runs.zipIdx.map (fun rj => normOne E k rj.2 rj.1), ∃ j s, runs[j]? = some s ∧
          r = normOne E k j s := by
        intro r hr
        obtain ⟨rj, hrj, rfl⟩ := List.mem_map.1 hr
        obtain ⟨i, hi⟩ := List.getElem?_of_mem hrj
        rw [List.getElem?_zipIdx] at hi
        cases hg : runs[i]? with
        | none => rw [hg] at hi; simp at hi
        | some s =>
          rw [hg] at hi
          simp only [Option.map_some, Nat.zero_add, Option.some.injEq] at hi
          subst hi
          exact ⟨i, s, hg, rfl⟩
      have hwf : ∀ s ∈ runs, Store.Wf s.data := fun s hsm => (hT.usable s hsm).ok.1
      refine ⟨hT.qrels, ?_, hT.nonempty, ?_, ?_⟩
      · intro r hr
        obtain ⟨j, s, hj, rfl⟩ := hmem r hr
        exact usable_normOne E k hkb j s (hwf s (List.mem_of_getElem? hj)) (hs j s hj)
      · intro r hr q
        obtain ⟨j, s, hj, rfl⟩ := hmem r hr
        obtain ⟨⟨h1, -⟩, -, -⟩ := normOne_local E k hkb j s (hwf s (List.mem_of_getElem? hj)) (hs j s hj)
        rw [h1.mem_iff]
        exact hT.queries s (List.mem_of_getElem? hj) q
      · intro r hr q
        obtain ⟨j, s, hj, rfl⟩ := hmem r hr
        have hw := hwf s (List.mem_of_getElem? hj)
        obtain ⟨-, h2, -⟩ := normOne_local E k hkb j s hw (hs j s hj)
        have hread : ∀ d, (∃ v, (Spec.content (normOne E k j s)).read q d = some v) →
            ∃ v, (Spec.content s).read q d = some v := by
          rintro d ⟨v, hv⟩
          simp only [Spec.Content.read, Spec.content] at hv ⊢
          rw [h2 q] at hv
          cases hg : Dict.get? s.data q with
          | none => rw [hg] at hv; simp at hv
          | some r =>
            rw [hg] at hv
            simp only [Option.map_some, Option.bind_some] at hv ⊢
            have hnd : NodupKeys r := hw.2 _ (mem_of_get? hg)
            have hin := ((normFun_keys E.S k r hnd).2 d).1
              (get?_isSome.1 (by rw [hv]; rfl))
            exact Option.isSome_iff_exists.1 (get?_isSome.2 hin)
        intro d d' v hv hor hh
        exact hT.hash s (List.mem_of_getElem? hj) q d d' v hv
          (hor.imp (fun h => h) (fun h => hread d' h)) hh

/-! ### Methods that are only trained -/

/-- Specification: the arguments `optimize_fusion` accepts: two runs or more, all over the queries of the qrels. -/
structure Spec.Accepted (qrels : Store κ δ Int) (runs : List (Store κ δ ℝ)) : Prop where
  many : 2 ≤ runs.length
  queries : ∀ r ∈ runs, ∀ q, q ∈ r.data.keys ↔ q ∈ qrels.data.keys

theorem Opt.optimizeFusion_eq (E : Env δ) (V : EvalEnv δ ι) (rowSched : List Nat) (rnd : ℚ → ℚ)
    (str : Kwargs → Py.Str) (strNat : Nat → Py.Str) (qrels : Store κ δ Int) (runs rs : List (Store κ δ ℝ))
    (ha : Spec.Accepted qrels runs) (norm : Option String) (hn : normalizeStores E norm runs = .ok rs)
    (method : String) (metric : Py.Str) (space : Space) (o : Optimizer) (ho : optimizationSwitch method = .ok o) :
    optimizeFusion E V rowSched rnd str strNat qrels runs norm method metric false space =
      runOptimizer E V rowSched rnd str strNat metric space qrels rs o := by
  have hsame : ∀ a b : List κ, Eval.sameKeys a b = true ↔ ∀ q, q ∈ a ↔ q ∈ b := by
    intro a b
    unfold Eval.sameKeys
    simp only [Bool.and_eq_true, List.all_eq_true, List.contains_iff_mem]
    exact ⟨fun h q => ⟨h.1 q, h.2 q⟩, fun h => ⟨fun q => (h q).1, fun q => (h q).2⟩⟩
  have hsq : Spec.SameQueries runs :=
    fun s hs s' hs' q hq' => (ha.queries s' hs' q).2 ((ha.queries s hs q).1 hq')
  have h1 : ¬ runs.length ≤ 1 := by have := ha.many; omega
  unfold optimizeFusion
  rw [if_neg h1, if_pos ((pairwiseSameKeys_iff runs).2 hsq),
    if_pos (List.all_eq_true.2 (fun r hr => (hsame _ _).2 (ha.queries r hr))), hn]
  simp only [bindArg, Bool.false_eq_true, if_false, ho]

theorem Opt.mapValues_eq (xs : List ℝ) : mapValues (xs.map (fun x => .single (.mean (.val x)))) = .ok xs := by
  induction xs with
  | nil => rfl
  | cons x t ih => rw [List.map_cons, mapValues, ih]; rfl

/-- **C65** (trained methods): `optimize_fusion` with `method="mapfuse"` returns `{"map_scores": l}`, `l` holding
for every run, in the order of the runs, the mean average precision of the normalized run. -/
theorem C65_mapfuse (E : Env δ) (V : EvalEnv δ ι) (rowSched : List Nat) (rnd : ℚ → ℚ)
    (str : Kwargs → Py.Str) (strNat : Nat → Py.Str) (qrels : Store κ δ Int) (runs rs : List (Store κ δ ℝ))
    (ha : Spec.Accepted qrels runs) (norm : Option String) (hn : normalizeStores E norm runs = .ok rs)
    (hT : Spec.Trainable V.SQ E.S V.hash qrels rs) (hV : ∀ i, Schedule qrels.data.length (V.sched i))
    (metric : Py.Str) (space : Space) :
    ∃ l, optimizeFusion E V rowSched rnd str strNat qrels runs norm "mapfuse" metric false space =
        .ok ⟨some [("map_scores", .nums l)], []⟩ ∧
      List.Forall₂ (fun r x => ∃ ids, Spec.Rankings qrels r ids ∧
        x = (∑ q ∈ Spec.queries qrels,
          Spec.averagePrecision (Spec.RelDoc qrels q 1) (Spec.numRelDocs qrels q 1) (ids q) 0) /
            ((Spec.queries qrels).card : ℝ)) rs l := by
  rw [optimizeFusion_eq E V rowSched rnd str strNat qrels runs rs ha norm hn "mapfuse" metric space .trainMap
    (by decide +kernel)]
  have hstore : (rs.map (fun r => (⟨r, [], [], []⟩ : RunObj κ δ ℝ))).map (·.store) = rs := by
    rw [List.map_map]; exact List.map_id rs
  obtain ⟨outs, h1, h2⟩ := C59_mapfuse V.F V.other V.SQ E.S V.hash V.sched qrels
    (rs.map (fun r => (⟨r, [], [], []⟩ : RunObj κ δ ℝ))) (by rw [hstore]; exact hT) hV
  have hex : ∃ l, outs = l.map (fun x => .single (.mean (.val x))) ∧
      List.Forall₂ (fun r x => ∃ ids, Spec.Rankings qrels r ids ∧
        x = (∑ q ∈ Spec.queries qrels,
          Spec.averagePrecision (Spec.RelDoc qrels q 1) (Spec.numRelDocs qrels q 1) (ids q) 0) /
            ((Spec.queries qrels).card : ℝ)) rs l := by
    clear h1 hT hstore hn
    rw [List.forall₂_map_left_iff] at h2
    induction h2 with
    | nil => exact ⟨[], rfl, .nil⟩
    | cons h _ ih =>
      obtain ⟨ids, hids, rfl⟩ := h
      obtain ⟨l, rfl, hl⟩ := ih
      exact ⟨_ :: l, rfl, .cons ⟨ids, hids, rfl⟩ hl⟩
  obtain ⟨l, rfl, hl⟩ := hex
  refine ⟨l, ?_, hl⟩
  unfold runOptimizer
  simp only [h1, bindArg, mapValues_eq, Except.map]

/-- **C65** (trained methods): with `method="posfuse"`, `"segfuse"`, `"bayesfuse"` the returned
`{"probs": tables}` / `{"log_odds": tables}` holds one table per run, in the order of the runs, trained on
the qrels and the normalized run: the position probabilities, the segment probabilities and the log odds
of the bands. -/
theorem C65_trained_tables (E : Env δ) (V : EvalEnv δ ι) (rowSched : List Nat) (rnd : ℚ → ℚ)
    (str : Kwargs → Py.Str) (strNat : Nat → Py.Str) (qrels : Store κ δ Int) (runs rs : List (Store κ δ ℝ))
    (ha : Spec.Accepted qrels runs) (norm : Option String) (hn : normalizeStores E norm runs = .ok rs)
    (hT : Spec.Trainable V.SQ E.S V.hash qrels rs) (hV : ∀ i, Schedule qrels.data.length (V.sched i))
    (metric : Py.Str) (space : Space) :
    (∃ tables, optimizeFusion E V rowSched rnd str strNat qrels runs norm "posfuse" metric false space =
        .ok ⟨some [("probs", .tables tables)], []⟩ ∧ List.Forall₂ (Spec.PositionTable qrels) rs tables) ∧
    (∃ tables, optimizeFusion E V rowSched rnd str strNat qrels runs norm "segfuse" metric false space =
        .ok ⟨some [("probs", .tables tables)], []⟩ ∧
      List.Forall₂ (fun r t => ∃ ids, Spec.Rankings qrels r ids ∧ t.length = 10 ∧
        ∀ (k : Nat) (v : ℝ), t[k]? = some v →
          v = (∑ q ∈ Spec.queries qrels,
            (Spec.relBetween qrels ids (Spec.segStart k) (Spec.segStart (k + 1)) q : ℝ) /
              ((Spec.segStart (k + 1) - Spec.segStart k : Nat) : ℝ)) / ((Spec.queries qrels).card : ℝ)) rs tables) ∧
    (∃ tables, optimizeFusion E V rowSched rnd str strNat qrels runs norm "bayesfuse" metric false space =
        .ok ⟨some [("log_odds", .tables tables)], []⟩ ∧
      List.Forall₂ (fun r t => ∃ ids, Spec.Rankings qrels r ids ∧ t.length = 1000 ∧
        ∀ ab ∈ Spec.bands, ∀ (p : Nat), ab.1 ≤ p → p < ab.2 →
          t[p]? = some (Spec.logOddsOf (Spec.bandPrecision qrels ids ab.1 ab.2))) rs tables) := by
  refine ⟨?_, ?_, ?_⟩
  · obtain ⟨s', runs', tables, h1, h2⟩ := C59_positions V.SQ E.S V.hash V.sched qrels rs hT hV
    refine ⟨tables, ?_, h2⟩
    rw [optimizeFusion_eq E V rowSched rnd str strNat qrels runs rs ha norm hn "posfuse" metric space .trainPos
      (by decide +kernel)]
    unfold runOptimizer
    simp only [h1, Except.map]
  · obtain ⟨s', runs', tables, h1, h2⟩ := C59_segfuse V.SQ E.S V.hash V.sched qrels rs hT hV
    refine ⟨tables, ?_, h2.imp ?_⟩
    · rw [optimizeFusion_eq E V rowSched rnd str strNat qrels runs rs ha norm hn "segfuse" metric space .trainSeg
        (by decide +kernel)]
      unfold runOptimizer
      simp only [h1, Except.map]
    · rintro r t ⟨ids, a, b, c⟩
      exact ⟨ids, a, b, fun k v hv => (c k v hv).1⟩
  · obtain ⟨s', runs', tables, h1, h2⟩ := C59_bayesfuse V.SQ E.S V.hash V.sched qrels rs hT hV
    refine ⟨tables, ?_, h2.imp ?_⟩
    · rw [optimizeFusion_eq E V rowSched rnd str strNat qrels runs rs ha norm hn "bayesfuse" metric space
        .trainBayes (by decide +kernel)]
      unfold runOptimizer
      simp only [h1, Except.map]
    · rintro r t ⟨ids, a, l, c⟩
      exact ⟨ids, a, l, fun ab hab p => (c ab hab).2.2 p⟩

end

/-- the hypotheses on the grids are met by the default search spaces -/
example : (0 : ℤ) < 10 ∧ Spec.tunes "rbc" "phi" ∧ roundingDigits "0.01".toList = (2 : ℕ) ∧
    Spec.Decimals 2 (1 / 100) :=
  ⟨by norm_num, .inl ⟨rfl, rfl⟩, by decide, ⟨1, by norm_num⟩⟩

/-- two real-valued runs over the queries of `exQrelsObj` -/
theorem exAccepted : Spec.Accepted exQrelsObj [fuseStore2, fuseStore2] := by
  refine ⟨by decide, ?_⟩
  intro r hr q
  simp only [List.mem_cons, List.not_mem_nil, or_false, or_self] at hr
  subst hr
  have h1 : fuseStore2.data.keys = [2, 1] := rfl
  have h2 : exQrelsObj.data.keys = [1, 2] := rfl
  rw [h1, h2]
  simp [or_comm]

theorem exTrainableReal : Spec.Trainable exEvalEnv.SQ exEnv.S exEvalEnv.hash exQrelsObj
    [fuseStore2, fuseStore2] := by
  refine ⟨exQrelsObj_usable, ?_, by decide, exAccepted.queries, ?_⟩
  · intro r hr
    simp only [List.mem_cons, List.not_mem_nil, or_false, or_self] at hr
    subst hr
    exact usable_of_unsorted _ _ (fuseStore_wf _ (by simp)) rfl
  · exact fun r _ q d d' v _ _ h => h

/-- the hypotheses of `C65_trainable`, `C65_mapfuse`, `C65_trained_tables` are met, with min-max normalization -/
example : ∃ rs, normalizeStores exEnv (some "min-max") [fuseStore2, fuseStore2] = .ok rs ∧
    (∃ l, optimizeFusion exEnv exEvalEnv [0, 1] F64.fl (fun _ => []) (fun _ => []) exQrelsObj
      [fuseStore2, fuseStore2] (some "min-max") "mapfuse" "map".toList false .nothing =
        .ok ⟨some [("map_scores", .nums l)], []⟩ ∧ l.length = 2) ∧
    (∃ t, optimizeFusion exEnv exEvalEnv [0, 1] F64.fl (fun _ => []) (fun _ => []) exQrelsObj
      [fuseStore2, fuseStore2] (some "min-max") "posfuse" "map".toList false .nothing =
        .ok ⟨some [("probs", .tables t)], []⟩) := by
  have hV : ∀ i, Schedule exQrelsObj.data.length (exEvalEnv.sched i) := by
    intro i; show Schedule 2 [0, 1]; unfold Schedule; decide
  obtain ⟨rs, h1, h2, h3⟩ := C65_trainable exEnv exEvalEnv exQrelsObj [fuseStore2, fuseStore2] (some "min-max")
    (by decide +kernel) (fun n h => ⟨.minMax, by cases h; decide +kernel⟩) exTrainableReal (by
      intro j s hj
      have := List.mem_of_getElem? hj
      simp only [List.mem_cons, List.not_mem_nil, or_false, or_self] at this
      subst this
      show Schedule 2 [1, 0]; unfold Schedule; decide)
  obtain ⟨l, h4, h5⟩ := C65_mapfuse exEnv exEvalEnv [0, 1] F64.fl (fun _ => []) (fun _ => []) exQrelsObj
    [fuseStore2, fuseStore2] rs exAccepted _ h1 h3 hV "map".toList .nothing
  obtain ⟨⟨t, h6, -⟩, -⟩ := C65_trained_tables exEnv exEvalEnv [0, 1] F64.fl (fun _ => []) (fun _ => [])
    exQrelsObj [fuseStore2, fuseStore2] rs exAccepted _ h1 h3 hV "map".toList .nothing
  exact ⟨rs, h1, ⟨l, h4, by rw [← h5.length_eq, h2]; rfl⟩, ⟨t, h6⟩⟩

end Ranx
