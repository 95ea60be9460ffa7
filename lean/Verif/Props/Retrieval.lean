import Verif.Props.EndToEnd
import Verif.Props.Fuse
import Verif.Props.BordaOrder
import Verif.Props.OptimizeState
import Verif.Props.EvaluateStd

/-!
# Property C102: fusing never loses a relevant document
-/

set_option linter.unusedSectionVars false

namespace Ranx
open Dict Store Eval Metrics Py Fuse
variable {κ δ ι : Type*} [LinearOrder κ] [DecidableEq δ] [LinearOrder ι]

/-! ## what `fuse` returns is an object like any other -/

theorem prange_mem {γ : Type*} (f : Nat → γ) (sched : List Nat) (out : List γ) (x : γ)
    (h : x ∈ prange out f sched) : x ∈ out ∨ ∃ i, x = f i := by
  unfold prange at h
  induction sched generalizing out with
  | nil => exact .inl h
  | cons i t ih =>
    rcases ih (out.set i (f i)) h with h | h
    · rcases List.mem_or_eq_of_mem_set h with h | h
      · exact .inl h
      · exact .inr ⟨i, h⟩
    · exact .inr h

theorem unionLoop_nodup {α : Type*} [DecidableEq α] [Zero α] (score : δ → Except Err α) (ds : List δ)
    (acc out : Dict δ α) (ha : NodupKeys acc) (h : unionLoop score ds acc = .ok out) : NodupKeys out := by
  induction ds generalizing acc with
  | nil => unfold unionLoop at h; cases h; exact ha
  | cons d t ih =>
    unfold unionLoop at h
    split at h
    · split at h
      · cases h
      · exact ih _ (NodupKeys.set ha _ _) h
    · exact ih _ ha h

theorem toRun_values_mem {ν : Type*} (qs : List κ) (rs : List ν) (p : κ × ν) (h : p ∈ Norm.toRun qs rs) : p.2 ∈ rs := by
  have key : ∀ (l : List (κ × ν)) (d : Dict κ ν), (∀ p ∈ l, p.2 ∈ rs) → (∀ p ∈ d, p.2 ∈ rs) →
      ∀ p ∈ l.foldl (fun d kv => d.set kv.1 kv.2) d, p.2 ∈ rs := by
    intro l
    induction l with
    | nil => intro d _ hd p hp; exact hd p hp
    | cons a t ih =>
      intro d hl hd p hp
      refine ih _ (fun p hp => hl p (List.mem_cons_of_mem _ hp)) ?_ p hp
      rintro ⟨k, v⟩ hkv
      rcases mem_set hkv with h | h
      · exact hd _ h
      · cases h; exact hl a List.mem_cons_self
  unfold Norm.toRun Dict.ofList at h
  exact key _ [] (fun p hp => (List.of_mem_zip hp).2) (fun p hp => by cases hp) p h

theorem usable_sorted (S : ArgSort ℝ) (d : Dict κ (Dict δ ℝ)) (hd : NodupKeys d) (hi : ∀ p ∈ d, NodupKeys p.2) :
    Spec.Usable S ((⟨d, false⟩ : Store κ δ ℝ).sort S) :=
  ⟨⟨d, false⟩, [.sort], ⟨d, hd, hi, .inl rfl⟩, rfl, by intro e he; simpa [Store.exec, Store.step] using he⟩

theorem fuseRun_usable (S : ArgSort ℝ) (score : Score δ ℝ) (sched : List Nat)
    (runs : List (Dict κ (Norm.Results δ ℝ))) (out : Store κ δ ℝ)
    (h : fuseRun S score sched runs = .ok out) : Spec.Usable S out := by
  unfold fuseRun at h
  split at h
  · cases h
  · rename_i d hd
    cases h
    unfold fuseParallel at hd
    split at hd
    · cases hd
    · split at hd
      · cases hd
      · rename_i rs hrs
        cases hd
        refine usable_sorted S _ (nodupKeys_ofList _) ?_
        intro p hp
        have hm := toRun_values_mem _ _ p hp
        have hmem : (Except.ok p.2 : Except Err (Norm.Results δ ℝ)) ∈ rs.map Except.ok := List.mem_map_of_mem hm
        rw [← (collect_ok_iff _ _).1 hrs] at hmem
        rcases prange_mem _ _ _ _ hmem with h | ⟨i, h⟩
        · rw [List.mem_replicate] at h
          have h2 := h.2
          rw [Except.ok.injEq] at h2
          rw [h2]
          exact nodupKeys_nil
        · unfold fuseSlot at h
          split at h
          · cases h
          · split at h
            · unfold combine at h
              exact unionLoop_nodup _ _ _ _ nodupKeys_nil h.symm
            · cases h

theorem rescoreThen_usable (S : ArgSort ℝ) (sched : List Nat) (scheds : Nat → List Nat) {π : Type*}
    (f : π → Norm.Results δ ℝ → Norm.Results δ ℝ) (params : List π) (score : Score δ ℝ)
    (runs : List (Dict κ (Norm.Results δ ℝ))) (out : Store κ δ ℝ)
    (h : rescoreThen S sched scheds f params score runs = .ok out) : Spec.Usable S out := by
  unfold rescoreThen at h
  split at h
  · cases h
  · exact fuseRun_usable _ _ _ _ _ h

theorem condorcetWith_usable (S : ArgSort ℝ) (C : CmpSort) (I : Norm.SetIter δ)
    (lt : List (List Nat) → Nat → Nat → Bool)
    (runs : List (Dict κ (Norm.Results δ ℝ))) (out : Store κ δ ℝ)
    (h : condorcetWith C I lt runs = .ok out) : Spec.Usable S out := by
  unfold condorcetWith at h
  split at h
  · cases h
  · split at h
    · cases h
    · cases h
      refine ⟨_, [], ⟨_, nodupKeys_ofList _, ?_, .inl rfl⟩, rfl, by intro e he; cases he⟩
      intro p hp
      have hm := toRun_values_mem _ _ p hp
      obtain ⟨rc, -, hrc⟩ := List.mem_map.1 hm
      rw [← hrc]
      unfold condorcetQuery
      exact nodupKeys_ofList _

theorem bindArg_ok {A B : Type*} {a : Except Err A} {f : A → Except Err B} {b : B} (h : bindArg a f = .ok b) :
    ∃ x, a = .ok x ∧ f x = .ok b := by
  unfold bindArg at h
  split at h
  · cases h
  · exact ⟨_, rfl, h⟩

theorem call_usable (E : Env δ) (m : Method) (params : Kwargs) (runs : List (Dict κ (Norm.Results δ ℝ)))
    (out : Store κ δ ℝ) (h : m.call E params runs = .ok out) : Spec.Usable E.S out := by
  unfold Method.call at h
  split at h
  · cases m with
    | bayesfuse => obtain ⟨x, -, h⟩ := bindArg_ok h; exact rescoreThen_usable _ _ _ _ _ _ _ _ h
    | bordafuse =>
      simp only [Fuse.bordafuse] at h
      split at h
      · cases h
      · exact fuseRun_usable _ _ _ _ _ h
    | combGmnz => obtain ⟨x, -, h⟩ := bindArg_ok h; exact fuseRun_usable _ _ _ _ _ h
    | condorcet => exact condorcetWith_usable _ _ _ _ _ _ h
    | lognIsr =>
      obtain ⟨x, -, h⟩ := bindArg_ok h
      simp only [Fuse.lognIsr] at h
      split at h
      · exact fuseRun_usable _ _ _ _ _ h
      · cases h
    | mapfuse => obtain ⟨x, -, h⟩ := bindArg_ok h; exact rescoreThen_usable _ _ _ _ _ _ _ _ h
    | posfuse => obtain ⟨x, -, h⟩ := bindArg_ok h; exact rescoreThen_usable _ _ _ _ _ _ _ _ h
    | probfuse =>
      obtain ⟨x, -, h⟩ := bindArg_ok h
      simp only [Fuse.probfuse] at h
      split at h
      · cases h
      · exact rescoreThen_usable _ _ _ _ _ _ _ _ h
    | segfuse =>
      obtain ⟨x, -, h⟩ := bindArg_ok h
      simp only [Fuse.segfuse] at h
      split at h
      · cases h
      · exact rescoreThen_usable _ _ _ _ _ _ _ _ h
    | slidefuse =>
      obtain ⟨x, -, h⟩ := bindArg_ok h
      obtain ⟨w, -, h⟩ := bindArg_ok h
      exact rescoreThen_usable _ _ _ _ _ _ _ _ h
    | weightedBordafuse =>
      obtain ⟨x, -, h⟩ := bindArg_ok h
      simp only [Fuse.weightedBordafuse] at h
      split at h
      · cases h
      · exact fuseRun_usable _ _ _ _ _ h
    | weightedCondorcet =>
      obtain ⟨x, -, h⟩ := bindArg_ok h
      simp only [Fuse.weightedCondorcet] at h
      split at h
      · cases h
      · split at h
        · cases h
        · exact condorcetWith_usable _ _ _ _ _ _ h
    | wmnz => obtain ⟨x, -, h⟩ := bindArg_ok h; exact fuseRun_usable _ _ _ _ _ h
    | wsum => obtain ⟨x, -, h⟩ := bindArg_ok h; exact fuseRun_usable _ _ _ _ _ h
    | mixed => obtain ⟨x, -, h⟩ := bindArg_ok h; exact fuseRun_usable _ _ _ _ _ h
    | rbc => obtain ⟨x, -, h⟩ := bindArg_ok h; exact fuseRun_usable _ _ _ _ _ h
    | rrf => obtain ⟨x, -, h⟩ := bindArg_ok h; exact fuseRun_usable _ _ _ _ _ (rrf_ok _ _ _ h).2
    | combAnz => exact fuseRun_usable _ _ _ _ _ h
    | combMax => exact fuseRun_usable _ _ _ _ _ h
    | combMed => exact fuseRun_usable _ _ _ _ _ h
    | combMin => exact fuseRun_usable _ _ _ _ _ h
    | combMnz => exact fuseRun_usable _ _ _ _ _ h
    | combSum => exact fuseRun_usable _ _ _ _ _ h
    | isr => exact fuseRun_usable _ _ _ _ _ h
    | logIsr => exact fuseRun_usable _ _ _ _ _ h
  · cases h

/-- whatever `fuse` returns can be passed to every other function -/
theorem fuse_usable (E : Env δ) (runs : List (Store κ δ ℝ)) (norm : Option String) (method : String)
    (params : Option Kwargs) (out : Store κ δ ℝ) (h : fuse E runs norm method params = .ok out) :
    Spec.Usable E.S out := by
  unfold fuse at h
  split at h
  · cases h
  · split at h
    · split at h
      · cases h
      · split at h
        · cases h
        · exact call_usable _ _ _ _ _ h
    · cases h

/-! ## the property -/

/-- Specification: the run retrieves `d` for `q`. -/
def Spec.Retrieves {β : Type*} (s : Store κ δ β) (q : κ) (d : δ) : Prop := ∃ v, (Spec.content s).read q d = some v

theorem hits_retrieved (s : Store κ δ ℝ) (q : κ) (ids : List δ) (hi : Spec.RankedDocs (Spec.content s) q ids)
    (rel : δ → Prop) : Spec.hits rel ids 0 = Set.ncard {d | rel d ∧ Spec.Retrieves s q d} := by
  classical
  obtain ⟨l, hl, rfl⟩ := hi
  have hset : {d | rel d ∧ Spec.Retrieves s q d} = (((l.map Prod.fst).filter (fun d => decide (rel d))).toFinset : Set δ) := by
    ext d
    simp only [Set.mem_setOf_eq, List.coe_toFinset, List.mem_map, List.mem_filter, decide_eq_true_eq,
      Spec.Retrieves, ← hl.docs]
    constructor
    · rintro ⟨hr, v, hv⟩; exact ⟨⟨(d, v), hv, rfl⟩, hr⟩
    · rintro ⟨⟨⟨d', v⟩, hm, rfl⟩, hr⟩; exact ⟨hr, v, hm⟩
  rw [hset, Set.ncard_coe_finset, List.toFinset_card_of_nodup (hl.nodup.sublist List.filter_sublist)]
  unfold Spec.hits
  rw [relIn_eq_countP]
  unfold Spec.top
  rw [if_pos rfl, List.take_length, List.countP_eq_length_filter]

theorem retrieved_finite (s : Store κ δ ℝ) (q : κ) (ids : List δ) (hi : Spec.RankedDocs (Spec.content s) q ids) :
    {d | Spec.Retrieves s q d}.Finite := by
  obtain ⟨l, hl, rfl⟩ := hi
  refine (List.finite_toSet (l.map Prod.fst)).subset ?_
  rintro d ⟨v, hv⟩
  exact List.mem_map.2 ⟨(d, v), (hl.docs d v).2 hv, rfl⟩

theorem fused_retrieves (E : Env δ) (runs : List (Store κ δ ℝ)) (hruns : ∀ s ∈ runs, Spec.Usable E.S s)
    (norm : Option String) (method : String) (params : Option Kwargs) (hE : Spec.SchedulesCover E runs)
    (hb : Spec.UsesBorda norm method → Spec.SameQueryOrder runs) (fused : Store κ δ ℝ)
    (hf : fuse E runs norm method params = .ok fused) (q : κ) (d : δ) :
    Spec.Retrieves fused q d ↔ ∃ s ∈ runs, Spec.Retrieves s q d := by
  have h := (C48_fuse_union_partial E runs (fun s hs => (hruns s hs).ok.1) norm method params hE hb fused hf).2 q d
  simpa only [Option.ne_none_iff_exists', Spec.Retrieves] using h

/-- what the normalization step of `fuse` hands to the method still has every doc -/
theorem normalized_keeps (E : Env δ) (runs : List (Store κ δ ℝ)) (hf : Spec.Fusable (runs.map (fun s => s.data)))
    (hE : E.Fits (runs.map (fun s => s.data)))
    (hss : ∀ (j : Nat) s, runs[j]? = some s → Schedule s.data.length (E.normScheds j)) (norm : Option String)
    (nr : List (Dict κ (Norm.Results δ ℝ))) (h : normalizeRuns E norm runs = .ok nr) :
    Spec.Fusable nr ∧ E.Fits nr ∧ ∀ q d, Spec.InSome (runs.map (fun s => s.data)) q d → Spec.InSome nr q d := by
  by_cases hb : norm = some "borda"
  · subst hb
    have h' : Norm.bordaRuns E.I E.normScheds (runs.map (fun s => s.data)) = .ok nr := h
    obtain ⟨h1, h2, h3⟩ := C47_borda_norm_keeps E.normScheds E.I _ hf (by
      intro j run hj
      rw [List.getElem?_map] at hj
      obtain ⟨s, hs, rfl⟩ := Option.map_eq_some_iff.1 hj
      exact hss j s hs) nr h'
    refine ⟨h1, ?_, h3⟩
    have hlen : ∀ (j : Nat) run', nr[j]? = some run' →
        ∃ run, (runs.map (fun s => s.data))[j]? = some run ∧ run'.length = run.length := by
      intro j run' hj
      have hjl := (List.getElem?_eq_some_iff.1 hj).1
      have hjl' : j < (runs.map (fun s => s.data)).length := by rw [h2.length_eq]; exact hjl
      refine ⟨_, List.getElem?_eq_getElem hjl', ?_⟩
      have := (List.forall₂_iff_get.1 h2).2 j hjl' hjl
      have he : run' = nr[j] := by rw [List.getElem?_eq_getElem hjl] at hj; exact (Option.some.inj hj).symm
      rw [he]
      have := congrArg List.length this
      simpa using this
    constructor
    · have hq : queryCount nr = queryCount (runs.map (fun s => s.data)) := by
        revert h2
        generalize runs.map (fun s => s.data) = rs
        intro h2
        cases h2 with
        | nil => rfl
        | cons hk _ =>
          unfold queryCount
          have := congrArg List.length hk
          simpa using this
      rw [hq]; exact hE.main
    · intro j run' hj
      obtain ⟨run, h1, h2⟩ := hlen j run' hj
      rw [h2]; exact hE.rescore j run h1
  · have hN := normalize_local E norm runs hf hss (fun hc => absurd hc hb) nr h
    refine ⟨hN.fusable hf, hN.fits E hE, ?_⟩
    intro q d hd
    have hqx : ∃ run ∈ runs.map (fun s => s.data), q ∈ run.keys := by
      obtain ⟨run, hr, r, hg, -⟩ := hd
      exact ⟨run, hr, get?_isSome.1 (by rw [hg]; rfl)⟩
    rw [← mem_flatMap_resultsFor, hN.get q hqx]
    have hnd : ∀ x ∈ resultsFor (runs.map (fun s => s.data)) q, NodupKeys x := by
      intro x hx
      obtain ⟨run, hr, rfl⟩ := List.mem_map.1 hx
      cases hg : run.get? q with
      | none => exact nodupKeys_nil
      | some r => exact hf.nodupD run hr (q, r) (mem_of_get? hg)
    rw [(normQuery_spec E norm _ hnd).2 d, mem_flatMap_resultsFor]
    exact hd

/-- no method drops a doc -/
theorem call_keeps (E : Env δ) (m : Method) (params : Kwargs) (nr : List (Dict κ (Norm.Results δ ℝ)))
    (hf : Spec.Fusable nr) (hE : E.Fits nr) (out : Store κ δ ℝ) (h : m.call E params nr = .ok out) (q : κ) (d : δ)
    (hin : Spec.InSome nr q d) : (Spec.content out).read q d ≠ none := by
  by_cases hm : m.borda = true
  · unfold Method.call at h
    split at h
    swap
    · cases h
    cases m <;> first | (exfalso; revert hm; decide) | skip
    · exact C51_bordafuse_keeps E.S E.sched E.scheds E.I nr hf hE.1 hE.2 out h q d hin
    · obtain ⟨ws, -, h⟩ := bindArg_ok h
      exact C51_weighted_bordafuse_keeps E.S E.sched E.scheds E.I ws nr hf hE.1 hE.2 out h q d hin
  · have hL := call_local E m params nr hf hE (fun hc => absurd hc hm) out h
    have hqx : ∃ run ∈ nr, q ∈ run.keys := by
      obtain ⟨run, hr, r, hg, -⟩ := hin
      exact ⟨run, hr, get?_isSome.1 (by rw [hg]; rfl)⟩
    obtain ⟨r, h1, h2⟩ := hL.get q hqx
    have hnd : ∀ x ∈ resultsFor nr q, NodupKeys x := by
      intro x hx
      obtain ⟨run, hr, rfl⟩ := List.mem_map.1 hx
      cases hg : run.get? q with
      | none => exact nodupKeys_nil
      | some r => exact hf.nodupD run hr (q, r) (mem_of_get? hg)
    have hd : d ∈ r.keys := by
      rw [(unionOf_perQuery E m params _ _ hnd h1).2 d, mem_flatMap_resultsFor]
      exact hin
    unfold Spec.Content.read Spec.content
    rw [h2]
    simpa [← Option.isSome_iff_ne_none] using get?_isSome.2 hd

/-- **C102** (docs): no doc is ever lost: whatever the method, its parameters, the normalization, and the order in
which the runs list their queries, the fused run has every doc of every run. -/
theorem C102_keeps_docs (E : Env δ) (runs : List (Store κ δ ℝ)) (hruns : ∀ s ∈ runs, Spec.Usable E.S s)
    (norm : Option String) (method : String) (params : Option Kwargs) (hE : Spec.SchedulesCover E runs)
    (fused : Store κ δ ℝ) (hf : fuse E runs norm method params = .ok fused) (q : κ) (d : δ) (s : Store κ δ ℝ)
    (hs : s ∈ runs) (hd : Spec.Retrieves s q d) : Spec.Retrieves fused q d := by
  obtain ⟨hl, hsq, nr, m, h1, h2, h3⟩ := fuse_ok hf
  have hfus := fusable_of runs hl (fun s hs => (hruns s hs).ok.1) hsq
  obtain ⟨k1, k2, k3⟩ := normalized_keeps E runs hfus
    (fits_of E runs hE (by intro hn; subst hn; simp at hl)) hE.norm norm nr h1
  obtain ⟨v, hv⟩ := hd
  have hin : Spec.InSome (runs.map (fun s => s.data)) q d := by
    unfold Spec.Content.read Spec.content at hv
    cases hg : s.data.get? q with
    | none => rw [hg] at hv; simp at hv
    | some r =>
      rw [hg] at hv
      exact ⟨s.data, List.mem_map.2 ⟨s, hs, rfl⟩, r, hg, get?_isSome.1 (by rw [show r.get? d = some v from hv]; rfl)⟩
  exact Option.ne_none_iff_exists'.1 (call_keeps E m _ nr k1 k2 fused h3 q d (k3 q d hin))

/-- Specification: the metrics that count or check the relevant docs retrieved. -/
inductive Spec.CoverageMetric where
  | hits | hitRate | recall

/-- among the binary metrics -/
def Spec.CoverageMetric.metric : Spec.CoverageMetric → Spec.BinaryMetric
  | .hits => .hits | .hitRate => .hitRate | .recall => .recall

/-- **C102** (hits): evaluating a fused run with `hits` (no cutoff) gives, for every judged query, the number of docs
that are relevant and retrieved by at least one of the runs fused. -/
theorem C102_fused_hits (E : Env δ) (runs : List (Store κ δ ℝ)) (hruns : ∀ s ∈ runs, Spec.Usable E.S s)
    (norm : Option String) (method : String) (params : Option Kwargs) (hE : Spec.SchedulesCover E runs)
    (hb : Spec.UsesBorda norm method → Spec.SameQueryOrder runs) (fused : Store κ δ ℝ)
    (hf : fuse E runs norm method params = .ok fused)
    (other : Str → Except Err ℝ) (SQ : ArgSort Int) (hash : δ → ι) (sched : Nat → List Nat) (o : Opts)
    (ho : o.save = true) (s : Store κ δ Int) (hs : Spec.Usable SQ s) (hsched : ∀ i, Schedule s.data.length (sched i))
    (r : RunObj κ δ ℝ) (hr : r.store = fused) (ms : List Str) (after : After κ δ ℝ) (out : Out ℝ)
    (h : evaluate realFn other SQ E.S hash sched o (.obj s) (.obj r) ms = (after, .ok out))
    (L : Nat) (m : Str) (hm : m ∈ ms) (hask : Spec.Asks "hits" 0 L m) (q : κ) (hq : q ∈ s.data.keys)
    (hc : Spec.NoCollision hash s fused q) :
    ∃ r', after.run = .obj r' ∧ r'.saved m q = some (.val
      ((Set.ncard {d | Spec.RelDoc s q L d ∧ ∃ run ∈ runs, Spec.Retrieves run q d} : ℕ) : ℝ)) := by
  obtain ⟨r', ha, ids, v, hi, hv, hsv⟩ := C84_textbook_values realFn other SQ E.S hash sched o ho s r ms hs
    (by rw [hr]; exact fuse_usable E runs norm method params fused hf) hsched after out h .hits 0 L m hm hask q hq
    (by rw [hr]; exact hc)
  refine ⟨r', ha, ?_⟩
  have hv' : v = ((Spec.hits (Spec.RelDoc s q L) ids 0 : Nat) : ℝ) := hv
  rw [hsv, hv', hits_retrieved r.store q ids hi]
  simp only [hr, fused_retrieves E runs hruns norm method params hE hb fused hf]

theorem coverage_mono {rel : δ → Prop} {R : Nat} {a b : Store κ δ ℝ} {q : κ} {ia ib : List δ}
    (ha : Spec.RankedDocs (Spec.content a) q ia) (hb : Spec.RankedDocs (Spec.content b) q ib)
    (hsub : ∀ d, Spec.Retrieves a q d → Spec.Retrieves b q d) (M : Spec.CoverageMetric) {x y : ℝ}
    (hx : M.metric.Value rel R ia 0 x) (hy : M.metric.Value rel R ib 0 y) : x ≤ y := by
  have hcard : Spec.hits rel ia 0 ≤ Spec.hits rel ib 0 := by
    rw [hits_retrieved a q ia ha, hits_retrieved b q ib hb]
    exact Set.ncard_le_ncard (fun d hd => ⟨hd.1, hsub d hd.2⟩)
      ((retrieved_finite b q ib hb).subset (fun d hd => hd.2))
  have hcard' : ((Spec.hits rel ia 0 : ℕ) : ℝ) ≤ ((Spec.hits rel ib 0 : ℕ) : ℝ) := by exact_mod_cast hcard
  cases M with
  | hits =>
    have h1 : x = ((Spec.hits rel ia 0 : ℕ) : ℝ) := hx
    have h2 : y = ((Spec.hits rel ib 0 : ℕ) : ℝ) := hy
    rw [h1, h2]; exact hcard'
  | recall =>
    have h1 : x = Spec.recall rel R ia 0 := hx
    have h2 : y = Spec.recall rel R ib 0 := hy
    rw [h1, h2]
    unfold Spec.recall
    exact div_le_div_of_nonneg_right hcard' (Nat.cast_nonneg _)
  | hitRate =>
    obtain ⟨x1, x0⟩ := hx
    obtain ⟨y1, y0⟩ := hy
    have htop : ∀ l : List δ, Spec.top 0 l = l := fun l => if_pos rfl
    rw [htop] at x1 x0 y1 y0
    by_cases hex : ∃ d ∈ ia, rel d
    · obtain ⟨d, hd, hrel⟩ := hex
      rw [x1 ⟨d, hd, hrel⟩, y1]
      obtain ⟨la, hla, rfl⟩ := ha
      obtain ⟨lb, hlb, rfl⟩ := hb
      obtain ⟨⟨d', v⟩, hm, rfl⟩ := List.mem_map.1 hd
      obtain ⟨v', hv'⟩ := hsub d' ⟨v, (hla.docs _ _).1 hm⟩
      exact ⟨d', List.mem_map.2 ⟨(d', v'), (hlb.docs _ _).2 hv', rfl⟩, hrel⟩
    · have hno : ∀ d ∈ ia, ¬ rel d := fun d hd hr => hex ⟨d, hd, hr⟩
      rw [x0 hno]
      by_cases hex' : ∃ d ∈ ib, rel d
      · rw [y1 hex']; exact zero_le_one
      · rw [y0 (fun d hd hr => hex' ⟨d, hd, hr⟩)]

/-- **C102**: without a cutoff, the fused run's `hits`, `hit_rate` and `recall` of every judged query are at least
those of every run that was fused, whatever the method, its parameters and the normalization. -/
theorem C102_no_loss (E : Env δ) (runs : List (Store κ δ ℝ)) (hruns : ∀ s ∈ runs, Spec.Usable E.S s)
    (norm : Option String) (method : String) (params : Option Kwargs) (hE : Spec.SchedulesCover E runs)
    (fused : Store κ δ ℝ)
    (hf : fuse E runs norm method params = .ok fused)
    (other : Str → Except Err ℝ) (SQ : ArgSort Int) (hash : δ → ι) (sched sched₁ : Nat → List Nat) (o : Opts)
    (ho : o.save = true) (s : Store κ δ Int) (hs : Spec.Usable SQ s) (hsched : ∀ i, Schedule s.data.length (sched i))
    (hsched₁ : ∀ i, Schedule s.data.length (sched₁ i))
    (r r₁ : RunObj κ δ ℝ) (hr : r.store = fused) (hr₁ : r₁.store ∈ runs) (ms : List Str)
    (after after₁ : After κ δ ℝ) (out out₁ : Out ℝ)
    (h : evaluate realFn other SQ E.S hash sched o (.obj s) (.obj r) ms = (after, .ok out))
    (h₁ : evaluate realFn other SQ E.S hash sched₁ o (.obj s) (.obj r₁) ms = (after₁, .ok out₁))
    (M : Spec.CoverageMetric) (L : Nat) (m : Str) (hm : m ∈ ms) (hask : Spec.Asks M.metric.name 0 L m)
    (q : κ) (hq : q ∈ s.data.keys) (hc : Spec.NoCollision hash s fused q) :
    ∃ r' r₁' v v₁, after.run = .obj r' ∧ after₁.run = .obj r₁' ∧ r'.saved m q = some (.val v) ∧
      r₁'.saved m q = some (.val v₁) ∧ v₁ ≤ v := by
  have hsub : ∀ d, Spec.Retrieves r₁.store q d → Spec.Retrieves r.store q d := by
    intro d hd
    rw [hr]
    exact C102_keeps_docs E runs hruns norm method params hE fused hf q d _ hr₁ hd
  have hc₁ : Spec.NoCollision hash s r₁.store q := by
    intro d d' v hd hd' he
    refine hc d d' v hd ?_ he
    rcases hd' with hd' | hd'
    · exact .inl hd'
    · right; rw [← hr]; exact hsub _ hd'
  obtain ⟨r', ha, ids, v, hi, hv, hsv⟩ := C84_textbook_values realFn other SQ E.S hash sched o ho s r ms hs
    (by rw [hr]; exact fuse_usable E runs norm method params fused hf) hsched after out h M.metric 0 L m hm hask q hq
    (by rw [hr]; exact hc)
  obtain ⟨r₁', ha₁, ids₁, v₁, hi₁, hv₁, hsv₁⟩ := C84_textbook_values realFn other SQ E.S hash sched₁ o ho s r₁ ms hs
    (hruns _ hr₁) hsched₁ after₁ out₁ h₁ M.metric 0 L m hm hask q hq hc₁
  exact ⟨r', r₁', v, v₁, ha, ha₁, hsv, hsv₁, coverage_mono hi₁ hi hsub M hv₁ hv⟩

theorem sum_map_le {γ : Type*} (l : List γ) (f g : γ → ℝ) (h : ∀ x ∈ l, f x ≤ g x) : (l.map f).sum ≤ (l.map g).sum := by
  induction l with
  | nil => exact le_refl _
  | cons a t ih =>
    rw [List.map_cons, List.map_cons, List.sum_cons, List.sum_cons]
    exact add_le_add (h a List.mem_cons_self) (ih (fun x hx => h x (List.mem_cons_of_mem _ hx)))

/-- **C102** (means): the mean returned for the fused run is at least the mean returned for each run fused. -/
theorem C102_mean_no_loss (E : Env δ) (runs : List (Store κ δ ℝ)) (hruns : ∀ s ∈ runs, Spec.Usable E.S s)
    (norm : Option String) (method : String) (params : Option Kwargs) (hE : Spec.SchedulesCover E runs)
    (fused : Store κ δ ℝ)
    (hf : fuse E runs norm method params = .ok fused)
    (other : Str → Except Err ℝ) (SQ : ArgSort Int) (hash : δ → ι) (sched sched₁ : Nat → List Nat) (o : Opts)
    (ho : o.save = true) (hmean : o.returnMean = true) (hstd : o.returnStd = false)
    (s : Store κ δ Int) (hs : Spec.Usable SQ s) (hne : s.data ≠ []) (hsched : ∀ i, Schedule s.data.length (sched i))
    (hsched₁ : ∀ i, Schedule s.data.length (sched₁ i))
    (r r₁ : RunObj κ δ ℝ) (hr : r.store = fused) (hr₁ : r₁.store ∈ runs) (m : Str)
    (after after₁ : After κ δ ℝ) (out out₁ : Out ℝ)
    (h : evaluate realFn other SQ E.S hash sched o (.obj s) (.obj r) [m] = (after, .ok out))
    (h₁ : evaluate realFn other SQ E.S hash sched₁ o (.obj s) (.obj r₁) [m] = (after₁, .ok out₁))
    (M : Spec.CoverageMetric) (L : Nat) (hask : Spec.Asks M.metric.name 0 L m)
    (hc : ∀ q ∈ s.data.keys, Spec.NoCollision hash s fused q) :
    ∃ v v₁, out = .single (.mean (.val v)) ∧ out₁ = .single (.mean (.val v₁)) ∧ v₁ ≤ v := by
  have hall := fun q hq => C102_no_loss E runs hruns norm method params hE fused hf other SQ hash sched sched₁ o ho s hs
    hsched hsched₁ r r₁ hr hr₁ [m] after after₁ out out₁ h h₁ M L m List.mem_cons_self hask q hq (hc q hq)
  obtain ⟨q0, hq0⟩ : ∃ q, q ∈ s.data.keys := by
    cases hd : s.data with
    | nil => exact absurd hd hne
    | cons p t => exact ⟨p.1, by simp [Dict.keys]⟩
  obtain ⟨r', r₁', -, -, ha, ha₁, -⟩ := hall q0 hq0
  have hall' : ∀ q ∈ s.data.keys, ∃ v v₁ : ℝ, r'.saved m q = some (.val v) ∧ r₁'.saved m q = some (.val v₁) ∧ v₁ ≤ v := by
    intro q hq
    obtain ⟨r'', r₁'', v, v₁, hb, hb₁, h1, h2, h3⟩ := hall q hq
    rw [ha] at hb
    rw [ha₁] at hb₁
    cases hb
    cases hb₁
    exact ⟨v, v₁, h1, h2, h3⟩
  choose! g g₁ hg hg₁ hle using hall'
  obtain ⟨e1, -⟩ := C32_mean realFn other SQ E.S hash sched o ho hmean hstd s r m hs
    (by rw [hr]; exact fuse_usable E runs norm method params fused hf) hsched hne after out h r' ha g hg
  obtain ⟨e2, -⟩ := C32_mean realFn other SQ E.S hash sched₁ o ho hmean hstd s r₁ m hs (hruns _ hr₁) hsched₁ hne after₁
    out₁ h₁ r₁' ha₁ g₁ hg₁
  exact ⟨_, _, e1, e2, div_le_div_of_nonneg_right (sum_map_le _ _ _ hle) (Nat.cast_nonneg _)⟩

/-! ### an instance: two runs, two judged queries -/

def retRun1 : Store Nat Nat ℝ := ⟨fuseStore1.data, false⟩
def retQrels : Store Nat Nat Int := ⟨[(1, [(11, 1), (12, 2)]), (2, [(20, 1), (21, 0)])], false⟩

theorem retRuns_usable : ∀ s ∈ [retRun1, fuseStore2], Spec.Usable exEnv.S s := by
  intro s hs
  simp only [List.mem_cons, List.not_mem_nil, or_false] at hs
  rcases hs with rfl | rfl
  · exact usable_of_unsorted _ _ (fuseStore_wf fuseStore1 (by simp)) rfl
  · exact usable_of_unsorted _ _ (fuseStore_wf fuseStore2 (by simp)) rfl

theorem retQrels_usable : Spec.Usable (ArgSort.stable Int) retQrels :=
  usable_of_unsorted _ _ ⟨by unfold NodupKeys retQrels; decide, by unfold retQrels NodupKeys; decide⟩ rfl

theorem retFuse_ok : ∃ out, fuse exEnv [retRun1, fuseStore2] none "sum" = .ok out := by
  have hsame : Spec.SameQueries [retRun1, fuseStore2] := by
    intro s hs s' hs' q hq
    have := fuseStore_same
    simp only [List.mem_cons, List.not_mem_nil, or_false] at hs hs'
    rcases hs with rfl | rfl <;> rcases hs' with rfl | rfl
    · exact hq
    · exact fuseStore_same fuseStore1 (by simp) fuseStore2 (by simp) q hq
    · exact fuseStore_same fuseStore2 (by simp) fuseStore1 (by simp) q hq
    · exact hq
  rw [(C61_dispatch exEnv _ (by decide) hsame "sum" .combSum (by decide +kernel) none).1]
  obtain ⟨out, h, _⟩ := C49_comb_sum (.stable ℝ) [1, 0]
    ([retRun1, fuseStore2].map (fun s : Store Nat Nat ℝ => s.data))
    (fusable_of _ (by decide) (fun s hs => (retRuns_usable s hs).ok.1) hsame) (exEnv_cover.fusion fuseStore1 rfl)
  exact ⟨out, h⟩

theorem retEnv_cover : Spec.SchedulesCover exEnv [retRun1, fuseStore2] := by
  have hlen : ∀ (j : Nat) s, [retRun1, fuseStore2][j]? = some s →
      ∃ s', [fuseStore1, fuseStore2][j]? = some s' ∧ s'.data.length = s.data.length := by
    intro j s hj
    match j with
    | 0 => cases hj; exact ⟨_, rfl, rfl⟩
    | 1 => cases hj; exact ⟨_, rfl, rfl⟩
    | j + 2 => cases hj
  constructor
  · intro s hs
    obtain ⟨s', h1, h2⟩ := hlen 0 s hs
    rw [← h2]; exact exEnv_cover.fusion s' h1
  · intro j s hs
    obtain ⟨s', h1, h2⟩ := hlen j s hs
    rw [← h2]; exact exEnv_cover.rescore j s' h1
  · intro j s hs
    obtain ⟨s', h1, h2⟩ := hlen j s hs
    rw [← h2]; exact exEnv_cover.norm j s' h1

/-- Non-vacuity of C102: two runs are fused, the fused run and the first run are evaluated with `recall-l1`, and the
means returned are compared. -/
example : ∃ fused, fuse exEnv [retRun1, fuseStore2] none "sum" = .ok fused ∧ ∃ v v₁ : ℝ,
    (evaluate (ι := Nat) realFn (fun _ => .error .valueError) (.stable Int) exEnv.S id (fun _ => [1, 0]) {}
      (.obj retQrels) (.obj ⟨fused, [], [], []⟩) ["recall-l1".toList]).2 = .ok (.single (.mean (.val v))) ∧
    (evaluate (ι := Nat) realFn (fun _ => .error .valueError) (.stable Int) exEnv.S id (fun _ => [1, 0]) {}
      (.obj retQrels) (.obj ⟨retRun1, [], [], []⟩) ["recall-l1".toList]).2 = .ok (.single (.mean (.val v₁))) ∧
    v₁ ≤ v := by
  obtain ⟨fused, hf⟩ := retFuse_ok
  refine ⟨fused, hf, ?_⟩
  have hsc : Schedule 2 [1, 0] := by unfold Schedule; decide
  have hask : Spec.Asks Spec.CoverageMetric.recall.metric.name 0 1 "recall-l1".toList :=
    .inr (.inr (.inl ⟨by decide +kernel, rfl⟩))
  have hmet : ∀ m ∈ ["recall-l1".toList], ∃ f : Kernel Nat ℝ,
      metricOf realFn (fun _ => .error .valueError) m = .ok f ∧ ∀ a b, ∃ v, f a b = .ok v := by
    intro m hm
    rw [List.mem_singleton] at hm
    subst hm
    exact ⟨_, (metricOf_asks realFn _ _ 0 1 Spec.CoverageMetric.recall.metric.code Spec.CoverageMetric.recall.metric.plain
      Spec.CoverageMetric.recall.metric.switch _ hask).trans rfl, fun a b => ⟨_, rfl⟩⟩
  have hb : Spec.UsesBorda none "sum" → Spec.SameQueryOrder [retRun1, fuseStore2] := by
    intro h
    have hn : ¬ Spec.UsesBorda none "sum" := by unfold Spec.UsesBorda; decide +kernel
    exact absurd h hn
  have hk := (C48_fuse_union_partial exEnv _ (fun s hs => (retRuns_usable s hs).ok.1) none "sum" none retEnv_cover hb fused hf).1
  obtain ⟨a1, o1, e1⟩ := C31_succeeds realFn (fun _ => .error .valueError) (.stable Int) exEnv.S (id : Nat → Nat)
    (fun _ => [1, 0]) {} (.inl rfl) retQrels ⟨fused, [], [], []⟩ ["recall-l1".toList] retQrels_usable
    (fuse_usable _ _ _ _ _ _ hf) (fun _ => hsc) (.inr (fun q => by
      change q ∈ [1, 2] ↔ q ∈ fused.data.keys
      rw [hk]
      simp only [List.mem_cons, List.not_mem_nil, or_false, exists_eq_or_imp, exists_eq_left]
      change _ ↔ q ∈ [1, 2] ∨ q ∈ [2, 1]
      simp only [List.mem_cons, List.not_mem_nil, or_false]
      tauto)) hmet
  obtain ⟨a2, o2, e2⟩ := C31_succeeds realFn (fun _ => .error .valueError) (.stable Int) exEnv.S (id : Nat → Nat)
    (fun _ => [1, 0]) {} (.inl rfl) retQrels ⟨retRun1, [], [], []⟩ ["recall-l1".toList] retQrels_usable
    (retRuns_usable _ (by simp)) (fun _ => hsc) (.inr (fun q => Iff.rfl)) hmet
  obtain ⟨v, v₁, h1, h2, h3⟩ := C102_mean_no_loss exEnv _ retRuns_usable none "sum" none retEnv_cover fused hf
    (fun _ => .error .valueError) (.stable Int) (id : Nat → Nat) (fun _ => [1, 0]) (fun _ => [1, 0]) {} rfl rfl rfl retQrels
    retQrels_usable (by decide) (fun _ => hsc) (fun _ => hsc) ⟨fused, [], [], []⟩ ⟨retRun1, [], [], []⟩ rfl (by simp) _
    a1 a2 o1 o2 e1 e2 .recall 1 hask (fun q hq d d' v _ _ he => he)
  rw [e1, e2, h1, h2]
  exact ⟨v, v₁, rfl, rfl, h3⟩

end Ranx
