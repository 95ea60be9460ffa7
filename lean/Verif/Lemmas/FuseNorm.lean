import Verif.Lemmas.Fuse2

/-!
# Lemmas: the normalization step of `fuse` works query by query
-/

set_option linter.unusedSectionVars false

namespace Ranx.Fuse
open Dict
open _root_.Ranx.Norm (Results toRun SetIter getCandidates Kind normSwitch normRun minMaxInverted bordaRuns
  bordaNorm bordaParallel normParallel normLoop_keys)
variable {κ δ : Type*}

section
variable [DecidableEq δ]

/-- a normalization on the results of one query of one run -/
noncomputable def normFun (S : ArgSort ℝ) : Kind → Results δ ℝ → Results δ ℝ
  | .max => Norm.maxNorm
  | .minMax => Norm.minMax false
  | .minMaxInverted => fun r => sortDictByValue S (Norm.minMax true r)
  | .rank => Norm.rankNorm
  | .sum => Norm.sumNorm
  | .zmuv => Norm.zmuv
  | .borda => id

/-- the normalization step of `fuse` on the results of one query -/
noncomputable def normQuery (E : Env δ) (norm : Option String) (rs : List (Results δ ℝ)) :
    List (Results δ ℝ) :=
  match norm with
  | none => rs
  | some n =>
    if n ≠ "borda" then
      match normSwitch n with
      | .error _ => rs
      | .ok k => rs.map (normFun E.S k)
    else rs.map (fun r => bordaNorm r (E.I.run (rs.flatMap Dict.keys)))

/-- the docs stay the same -/
theorem normFun_keys (S : ArgSort ℝ) (k : Kind) (r : Results δ ℝ) (h : NodupKeys r) :
    NodupKeys (normFun S k r) ∧ ∀ d, d ∈ (normFun S k r).keys ↔ d ∈ r.keys := by
  cases k with
  | borda => exact ⟨h, fun d => Iff.rfl⟩
  | max => exact ⟨nodupKeys_ofList _, fun d => by rw [normFun, C39_keeps_docs _ .max r h]⟩
  | minMax => exact ⟨nodupKeys_ofList _, fun d => by rw [normFun, C39_keeps_docs _ (.minMax false) r h]⟩
  | rank => exact ⟨nodupKeys_ofList _, fun d => by rw [normFun, C39_keeps_docs _ .rank r h]⟩
  | sum => exact ⟨nodupKeys_ofList _, fun d => by rw [normFun, C39_keeps_docs _ .sum r h]⟩
  | zmuv => exact ⟨nodupKeys_ofList _, fun d => by rw [normFun, C39_keeps_docs _ .zmuv r h]⟩
  | minMaxInverted =>
    have h1 : NodupKeys (Norm.minMax true r) := nodupKeys_ofList _
    refine ⟨nodupKeys_sortDictByValue S h1, fun d => ?_⟩
    rw [← C39_keeps_docs _ (.minMax true) r h]
    exact ((sortDictByValue_perm S h1).map Prod.fst).mem_iff

theorem normQuery_spec (E : Env δ) (norm : Option String) (rs : List (Results δ ℝ))
    (h : ∀ r ∈ rs, NodupKeys r) :
    (∀ r ∈ normQuery E norm rs, NodupKeys r) ∧
      ∀ d, d ∈ (normQuery E norm rs).flatMap Dict.keys ↔ d ∈ rs.flatMap Dict.keys := by
  cases norm with
  | none => exact ⟨h, fun d => Iff.rfl⟩
  | some n =>
    unfold normQuery
    by_cases hb : n ≠ "borda"
    · simp only
      rw [if_pos hb]
      cases hk : normSwitch n with
      | error e => exact ⟨h, fun d => Iff.rfl⟩
      | ok k =>
        simp only
        refine ⟨fun r hr => ?_, fun d => ?_⟩
        · obtain ⟨x, hx, rfl⟩ := List.mem_map.1 hr
          exact (normFun_keys E.S k x (h x hx)).1
        · rw [List.mem_flatMap, List.mem_flatMap]
          constructor
          · rintro ⟨r, hr, hd⟩
            obtain ⟨x, hx, rfl⟩ := List.mem_map.1 hr
            exact ⟨x, hx, ((normFun_keys E.S k x (h x hx)).2 d).1 hd⟩
          · rintro ⟨x, hx, hd⟩
            exact ⟨_, List.mem_map.2 ⟨x, hx, rfl⟩, ((normFun_keys E.S k x (h x hx)).2 d).2 hd⟩
    · simp only
      rw [if_neg hb]
      refine ⟨fun r hr => ?_, fun d => ?_⟩
      · obtain ⟨x, hx, rfl⟩ := List.mem_map.1 hr
        exact nodupKeys_ofList _
      · constructor
        · intro hm
          obtain ⟨r, hr, hd⟩ := List.mem_flatMap.1 hm
          obtain ⟨x, hx, rfl⟩ := List.mem_map.1 hr
          rw [bordaNorm_keys _ _ (E.I.nodup _), E.I.mem] at hd
          exact hd
        · intro hm
          obtain ⟨x, hx, hd⟩ := List.mem_flatMap.1 hm
          refine List.mem_flatMap.2 ⟨_, List.mem_map.2 ⟨x, hx, rfl⟩, ?_⟩
          rw [bordaNorm_keys _ _ (E.I.nodup _), E.I.mem]
          exact hm

end

section
variable [LinearOrder κ] [DecidableEq δ]

theorem bordaRuns_eq (I : SetIter δ) (scheds : Nat → List Nat) (runs : List (Dict κ (Results δ ℝ)))
    (hf : Spec.Fusable runs) (hq : ∀ run ∈ runs, ∀ run' ∈ runs, run.keys = run'.keys)
    (hss : ∀ (j : Nat) run, runs[j]? = some run → Schedule run.length (scheds j)) :
    bordaRuns I scheds runs =
      .ok (runs.map (mapRun (fun q r => bordaNorm r (candsOf I runs q)))) := by
  obtain ⟨r0, rest, hruns⟩ : ∃ r0 rest, runs = r0 :: rest := by
    cases h : runs with
    | nil => exact absurd h hf.nonempty
    | cons a b => exact ⟨a, b, rfl⟩
  have h0 : r0 ∈ runs := by rw [hruns]; exact List.mem_cons_self
  have hcand : getCandidates I runs = .ok (r0.keys.map (candsOf I runs)) := by
    have hall : runs.all (fun run => r0.keys.all (fun q => run.contains q)) = true := by
      rw [List.all_eq_true]
      intro run hr
      rw [List.all_eq_true]
      intro q hq'
      rw [contains_iff, hq run hr r0 h0]; exact hq'
    unfold candsOf
    rw [hruns] at hall ⊢
    unfold getCandidates
    simp only
    rw [if_pos hall]
  have hlen : ∀ run ∈ runs, run.length = r0.length := by
    intro run hr
    have := congrArg List.length (hq run hr r0 h0)
    simpa using this
  unfold bordaRuns
  rw [hcand]
  simp only
  rw [if_neg]
  · congr 1
    apply List.ext_getElem?
    intro j
    rw [List.getElem?_map, List.getElem?_map, List.getElem?_zipIdx]
    cases hj : runs[j]? with
    | none => rfl
    | some run =>
      have hr : run ∈ runs := List.mem_of_getElem? hj
      simp only [Option.map_some, Option.some.injEq, Nat.zero_add]
      rw [← hq run hr r0 h0]
      exact bordaParallel_eq (scheds j) run (hf.nodupQ run hr) (hss j run hj) _
  · intro h
    obtain ⟨run, hr, hlt⟩ := List.any_eq_true.1 h
    have := hlen run hr
    simp at hlt
    omega

/-- what the normalization step does to all runs: one run per run, with the same queries, and query by
query `N` -/
structure NormLocal (runs out : List (Dict κ (Results δ ℝ)))
    (N : List (Results δ ℝ) → List (Results δ ℝ)) : Prop where
  keys : List.Forall₂ (fun run run' => run'.keys.Perm run.keys ∧ ∀ p ∈ run', NodupKeys p.2) runs out
  get : ∀ q, (∃ run ∈ runs, q ∈ run.keys) → resultsFor out q = N (resultsFor runs q)
  aligned : (∀ run ∈ runs, ∀ run' ∈ runs, run.keys = run'.keys) →
    ∀ run ∈ out, ∀ run' ∈ out, run.keys = run'.keys

theorem NormLocal.fusable {runs out : List (Dict κ (Results δ ℝ))} {N} (h : NormLocal runs out N)
    (hf : Spec.Fusable runs) : Spec.Fusable out := by
  refine ⟨?_, ?_, ?_, ?_⟩
  · intro hn
    have := h.keys
    subst hn
    cases this
    exact hf.nonempty rfl
  · intro run' hr'
    obtain ⟨run, hr, hk, _⟩ := forall₂_mem_right h.keys hr'
    have hk' : run.keys.Nodup := hf.nodupQ run hr
    exact hk.nodup_iff.2 hk'
  · intro run' hr'
    obtain ⟨run, hr, _, hn⟩ := forall₂_mem_right h.keys hr'
    exact hn
  · intro a ha b hb q hq
    obtain ⟨a', ha', hka, _⟩ := forall₂_mem_right h.keys ha
    obtain ⟨b', hb', hkb, _⟩ := forall₂_mem_right h.keys hb
    exact hkb.mem_iff.2 (hf.same a' ha' b' hb' q (hka.mem_iff.1 hq))

theorem NormLocal.queries {runs out : List (Dict κ (Results δ ℝ))} {N} (h : NormLocal runs out N) (q : κ) :
    (∃ run ∈ out, q ∈ run.keys) ↔ ∃ run ∈ runs, q ∈ run.keys := by
  constructor
  · rintro ⟨run', hr', hq⟩
    obtain ⟨run, hr, hk, _⟩ := forall₂_mem_right h.keys hr'
    exact ⟨run, hr, hk.mem_iff.1 hq⟩
  · rintro ⟨run, hr, hq⟩
    obtain ⟨run', hr', hk, _⟩ := forall₂_mem_left h.keys hr
    exact ⟨run', hr', hk.mem_iff.2 hq⟩

theorem NormLocal.fits {runs out : List (Dict κ (Results δ ℝ))} {N} (h : NormLocal runs out N)
    (E : Env δ) (hE : E.Fits runs) : E.Fits out := by
  have hk := h.keys
  constructor
  · have hm := hE.main
    cases hk with
    | nil => exact hm
    | cons hr _ =>
      have := hr.1.length_eq
      simp only [length_keys] at this
      simpa [queryCount, this] using hm
  · intro j run' hj
    obtain ⟨hlt, hget⟩ := List.getElem?_eq_some_iff.1 hj
    have hlt' : j < runs.length := by rw [hk.length_eq]; exact hlt
    have hp := List.Forall₂.get hk hlt' hlt
    have hl := hp.1.length_eq
    simp only [length_keys, List.get_eq_getElem] at hl
    rw [← hget, hl]
    exact hE.rescore j _ (List.getElem?_eq_getElem hlt')

theorem normOne_local (E : Env δ) (k : Kind) (hk : k ≠ .borda) (j : Nat) (s : Store κ δ ℝ)
    (hw : Store.Wf s.data) (hs : Schedule s.data.length (E.normScheds j)) :
    ((normOne E k j s).data.keys.Perm s.data.keys ∧ ∀ p ∈ (normOne E k j s).data, NodupKeys p.2) ∧
    (∀ q, (normOne E k j s).data.get? q = (s.data.get? q).map (normFun E.S k)) ∧
    ((k ≠ .minMaxInverted → (normOne E k j s).data.keys = s.data.keys) ∧
      (k = .minMaxInverted → (normOne E k j s).data.keys.Pairwise (· < ·))) := by
  have main : ∀ f : Results δ ℝ → Results δ ℝ, (∀ p ∈ s.data, NodupKeys (f p.2)) →
      ((normRun f (E.normScheds j) s).data.keys = s.data.keys ∧
        ∀ p ∈ (normRun f (E.normScheds j) s).data, NodupKeys p.2) ∧
      ∀ q, (normRun f (E.normScheds j) s).data.get? q = (s.data.get? q).map f := by
    intro f hf
    obtain ⟨h1, h2⟩ := C39_per_query f s hw (E.normScheds j) hs
    refine ⟨⟨h1, ?_⟩, h2⟩
    unfold normRun
    rw [Norm.normParallel_eq f (E.normScheds j) s.data hw.1 hs]
    intro p hp
    obtain ⟨p', hp', rfl⟩ := List.mem_map.1 hp
    exact hf p' hp'
  have simple : ∀ f : Results δ ℝ → Results δ ℝ, (normOne E k j s) = normRun f (E.normScheds j) s →
      normFun E.S k = f → k ≠ .minMaxInverted → (∀ p ∈ s.data, NodupKeys (f p.2)) →
      ((normOne E k j s).data.keys.Perm s.data.keys ∧ ∀ p ∈ (normOne E k j s).data, NodupKeys p.2) ∧
      (∀ q, (normOne E k j s).data.get? q = (s.data.get? q).map (normFun E.S k)) ∧
      ((k ≠ .minMaxInverted → (normOne E k j s).data.keys = s.data.keys) ∧
        (k = .minMaxInverted → (normOne E k j s).data.keys.Pairwise (· < ·))) := by
    intro f h1 h2 h3 h4
    rw [h1, h2]
    obtain ⟨⟨ha, hb⟩, hc⟩ := main f h4
    exact ⟨⟨by rw [ha], hb⟩, hc, fun _ => ha, fun h => absurd h h3⟩
  cases k with
  | borda => exact absurd rfl hk
  | max => exact simple _ rfl rfl (by simp) (fun p _ => nodupKeys_ofList _)
  | minMax => exact simple _ rfl rfl (by simp) (fun p _ => nodupKeys_ofList _)
  | rank => exact simple _ rfl rfl (by simp) (fun p _ => nodupKeys_ofList _)
  | sum => exact simple _ rfl rfl (by simp) (fun p _ => nodupKeys_ofList _)
  | zmuv => exact simple _ rfl rfl (by simp) (fun p _ => nodupKeys_ofList _)
  | minMaxInverted =>
    obtain ⟨⟨ha, hb⟩, hc⟩ := main (Norm.minMax true) (fun p _ => nodupKeys_ofList _)
    unfold normRun at ha hb hc
    have hn : NodupKeys (normParallel (Norm.minMax true) (E.normScheds j) s.data) := by
      have hk' : s.data.keys.Nodup := hw.1
      have : (normParallel (Norm.minMax true) (E.normScheds j) s.data).keys.Nodup := by
        simp only at ha; rw [ha]; exact hk'
      exact this
    refine ⟨⟨?_, ?_⟩, ?_, fun h => absurd rfl h, fun _ => ?_⟩
    · change (sortAll E.S (normParallel (Norm.minMax true) (E.normScheds j) s.data)).keys.Perm s.data.keys
      rw [keys_sortAll E.S hn, ← ha]
      exact (sortDictByKey_perm hn).map Prod.fst
    · exact (Store.Wf.sortAll E.S (d := normParallel (Norm.minMax true) (E.normScheds j) s.data) ⟨hn, hb⟩).2
    · intro q
      change (sortAll E.S (normParallel (Norm.minMax true) (E.normScheds j) s.data)).get? q = _
      rw [get?_sortAll E.S hn, hc q, Option.map_map]
      rfl
    · exact keys_sortAll_sorted E.S hn

theorem normalize_local (E : Env δ) (norm : Option String) (runs : List (Store κ δ ℝ))
    (hf : Spec.Fusable (runs.map (fun s => s.data)))
    (hs : ∀ (j : Nat) s, runs[j]? = some s → Schedule s.data.length (E.normScheds j))
    (ha : norm = some "borda" → ∀ s ∈ runs, ∀ s' ∈ runs, s.data.keys = s'.data.keys)
    (out : List (Dict κ (Results δ ℝ))) (h : normalizeRuns E norm runs = .ok out) :
    NormLocal (runs.map (fun s => s.data)) out (normQuery E norm) := by
  have hwf : ∀ s ∈ runs, Store.Wf s.data := fun s hsm =>
    ⟨hf.nodupQ _ (List.mem_map.2 ⟨s, hsm, rfl⟩), hf.nodupD _ (List.mem_map.2 ⟨s, hsm, rfl⟩)⟩
  cases norm with
  | none =>
    cases h
    refine ⟨?_, fun q _ => rfl, id⟩
    rw [List.forall₂_same]
    exact fun run hr => ⟨.refl _, hf.nodupD run hr⟩
  | some n =>
    unfold normalizeRuns at h
    simp only at h
    by_cases hb : n ≠ "borda"
    · rw [if_pos hb] at h
      cases hk : normSwitch n with
      | error e => rw [hk] at h; simp at h
      | ok k =>
        rw [hk] at h
        simp only [Except.ok.injEq] at h
        have hkb : k ≠ .borda := by
          rintro rfl
          unfold normSwitch at hk
          rw [if_neg hb] at hk
          by_cases h1 : n = "max"
          · rw [if_pos h1] at hk; simp at hk
          rw [if_neg h1] at hk
          by_cases h1 : n = "min_max" ∨ n = "min-max"
          · rw [if_pos h1] at hk; simp at hk
          rw [if_neg h1] at hk
          by_cases h1 : n = "min_max_inverted" ∨ n = "min-max-inverted"
          · rw [if_pos h1] at hk; simp at hk
          rw [if_neg h1] at hk
          by_cases h1 : n = "rank"
          · rw [if_pos h1] at hk; simp at hk
          rw [if_neg h1] at hk
          by_cases h1 : n = "sum"
          · rw [if_pos h1] at hk; simp at hk
          rw [if_neg h1] at hk
          by_cases h1 : n = "zmuv"
          · rw [if_pos h1] at hk; simp at hk
          rw [if_neg h1] at hk; simp at hk
        have hone : ∀ (j : Nat) s, runs[j]? = some s → _ := fun j s hj =>
          normOne_local E k hkb j s (hwf s (List.mem_of_getElem? hj)) (hs j s hj)
        have hmem : ∀ rj ∈ runs.zipIdx, runs[rj.2]? = some rj.1 := by
          intro rj hrj
          obtain ⟨i, hi⟩ := List.getElem?_of_mem hrj
          rw [List.getElem?_zipIdx] at hi
          cases hr : runs[i]? with
          | none => rw [hr] at hi; simp at hi
          | some s =>
            rw [hr] at hi
            simp only [Option.map_some, Nat.zero_add, Option.some.injEq] at hi
            subst hi
            exact hr
        subst h
        have hq : normQuery E (some n) = fun rs => rs.map (normFun E.S k) := by
          funext rs
          unfold normQuery
          simp only
          rw [if_pos hb, hk]
        have hruns : runs.map (fun s => s.data) = runs.zipIdx.map (fun rj => rj.1.data) := by
          conv_lhs => rw [← List.zipIdx_map_fst 0 runs]
          rw [List.map_map]; rfl
        constructor
        · rw [hruns, List.forall₂_map_left_iff, List.forall₂_map_right_iff, List.forall₂_same]
          intro rj hrj
          exact (hone rj.2 rj.1 (hmem rj hrj)).1
        · intro q hqm
          have hall := Fusable_all hf hqm
          rw [hq]
          unfold resultsFor
          simp only
          rw [hruns] at hall ⊢
          rw [List.map_map, List.map_map, List.map_map]
          apply List.map_congr_left
          intro rj hrj
          obtain ⟨r, hg⟩ := Option.isSome_iff_exists.1 (get?_isSome.2
            (hall rj.1.data (List.mem_map.2 ⟨rj, hrj, rfl⟩)))
          simp only [Function.comp_apply, (hone rj.2 rj.1 (hmem rj hrj)).2.1 q, hg, Option.map_some,
            Option.getD_some]
        · intro hal a hain b hbin
          obtain ⟨ra, hra, rfl⟩ := List.mem_map.1 hain
          obtain ⟨rb, hrb, rfl⟩ := List.mem_map.1 hbin
          have h1 := hone ra.2 ra.1 (hmem ra hra)
          have h2 := hone rb.2 rb.1 (hmem rb hrb)
          have hma : ra.1.data ∈ runs.map (fun s => s.data) := by
            rw [hruns]; exact List.mem_map.2 ⟨ra, hra, rfl⟩
          have hmb : rb.1.data ∈ runs.map (fun s => s.data) := by
            rw [hruns]; exact List.mem_map.2 ⟨rb, hrb, rfl⟩
          by_cases hinv : k = .minMaxInverted
          · refine eq_of_mem_iff_of_sorted_lt (h1.2.2.2 hinv) (h2.2.2.2 hinv) (fun x => ?_)
            rw [h1.1.1.mem_iff, h2.1.1.mem_iff, hal _ hma _ hmb]
          · rw [h1.2.2.1 hinv, h2.2.2.1 hinv]
            exact hal _ hma _ hmb
    · rw [if_neg hb] at h
      have hn : n = "borda" := not_not.1 hb
      have hal : ∀ run ∈ runs.map (fun s => s.data), ∀ run' ∈ runs.map (fun s => s.data),
          run.keys = run'.keys := by
        intro a hA b hB
        obtain ⟨s, hs', rfl⟩ := List.mem_map.1 hA
        obtain ⟨s2, hs2, rfl⟩ := List.mem_map.1 hB
        exact ha (by rw [hn]) s hs' s2 hs2
      rw [bordaRuns_eq E.I E.normScheds _ hf hal (by
        intro j run hj
        rw [List.getElem?_map] at hj
        cases hr : runs[j]? with
        | none => rw [hr] at hj; simp at hj
        | some s =>
          rw [hr] at hj
          simp only [Option.map_some, Option.some.injEq] at hj
          subst hj
          exact hs j s hr)] at h
      cases h
      refine ⟨?_, ?_, ?_⟩
      · rw [List.forall₂_map_right_iff, List.forall₂_same]
        intro run hr
        refine ⟨by rw [keys_mapRun], ?_⟩
        intro p hp
        unfold mapRun at hp
        obtain ⟨e, _, rfl⟩ := List.mem_map.1 hp
        exact nodupKeys_ofList _
      · intro q hqm
        have hall := Fusable_all hf hqm
        unfold normQuery
        simp only
        rw [if_neg hb]
        generalize runs.map (fun s => s.data) = rs at hall
        unfold resultsFor candsOf
        rw [List.map_map, List.map_map]
        apply List.map_congr_left
        intro run hr
        obtain ⟨r, hg⟩ := Option.isSome_iff_exists.1 (get?_isSome.2 (hall run hr))
        simp only [Function.comp_apply, get?_mapRun, hg, Option.map_some, Option.getD_some, List.flatMap_map]
      · intro _ a hA b hB
        obtain ⟨a', hA', rfl⟩ := List.mem_map.1 hA
        obtain ⟨b', hB', rfl⟩ := List.mem_map.1 hB
        rw [keys_mapRun, keys_mapRun]
        exact hal a' hA' b' hB'

end
end Ranx.Fuse
