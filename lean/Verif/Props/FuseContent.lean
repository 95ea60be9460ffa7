import Verif.Props.FuseEnd
import Verif.Props.FusionSym

/-!
# C99: fusion and the order in which runs were filled

Two runs with the same content (the same queries, docs and scores) may have been filled in different orders.
-/

set_option linter.unusedSectionVars false

namespace Ranx
open Dict Fuse
open _root_.Ranx.Norm (Results SetIter Kind normSwitch)
variable {κ δ : Type*}

namespace Spec
variable [DecidableEq κ] [DecidableEq δ]

/-- the two lists of runs have pairwise the same content -/
def SameContents (runs runs' : List (Store κ δ ℝ)) : Prop :=
  List.Forall₂ (fun s s' => ∀ q, content s q = content s' q) runs runs'

end Spec

section
variable [DecidableEq δ]

theorem sameScores_perm {r r' : Results δ ℝ} (hn : NodupKeys r) (hn' : NodupKeys r') (h : SameScores r r') :
    r.Perm r' := by
  have h1 : r.Nodup := List.Nodup.of_map _ hn
  have h2 : r'.Nodup := List.Nodup.of_map _ hn'
  refine (List.perm_ext_iff_of_nodup h1 h2).2 (fun p => ?_)
  obtain ⟨d, v⟩ := p
  rw [← get?_eq_some_iff hn, ← get?_eq_some_iff hn', h d]

theorem min?_perm {l l' : List ℝ} (h : l.Perm l') : l.min?.getD 0 = l'.min?.getD 0 := by
  rw [← safeMin_min?, ← safeMin_min?]
  cases l with
  | nil => rw [List.nil_perm.1 h]
  | cons x t =>
    have hm : Norm.safeMin l' ∈ l' ∧ ∀ y ∈ l', Norm.safeMin l' ≤ y := by
      cases l' with
      | nil => exact absurd (List.perm_nil.1 h) (by simp)
      | cons y u => exact Norm.foldl_min_spec u y
    exact Norm.safeMin_eq_of (h.mem_iff.2 hm.1) (fun y hy => hm.2 y (h.mem_iff.1 hy))

theorem max?_perm {l l' : List ℝ} (h : l.Perm l') : l.max?.getD 0 = l'.max?.getD 0 := by
  rw [← safeMax_max?, ← safeMax_max?]
  cases l with
  | nil => rw [List.nil_perm.1 h]
  | cons x t =>
    have hm : Norm.safeMax l' ∈ l' ∧ ∀ y ∈ l', y ≤ Norm.safeMax l' := by
      cases l' with
      | nil => exact absurd (List.perm_nil.1 h) (by simp)
      | cons y u => exact Norm.foldl_max_spec u y
    exact Norm.safeMax_eq_of (h.mem_iff.2 hm.1) (fun y hy => hm.2 y (h.mem_iff.1 hy))

theorem normScore_congr (k : Kind) (hk : k ≠ .rank) {r r' : Results δ ℝ} (h : r.Perm r') (d : δ) (s : ℝ) :
    Spec.normScore k r d s = Spec.normScore k r' d s := by
  have hv : r.values.Perm r'.values := h.map _
  unfold Spec.normScore
  cases k with
  | rank => exact absurd rfl hk
  | borda => rfl
  | minMax => simp only [min?_perm hv, max?_perm hv]
  | minMaxInverted => simp only [min?_perm hv, max?_perm hv]
  | max => simp only [max?_perm hv]
  | sum => simp only [min?_perm hv, (hv.map _).sum_eq]
  | zmuv =>
    have h1 : Spec.mean r.values = Spec.mean r'.values := by
      unfold Spec.mean; rw [hv.sum_eq, hv.length_eq]
    have h2 : Spec.variance r.values = Spec.variance r'.values := by
      unfold Spec.variance; rw [h1]; simp only [(hv.map _).sum_eq, hv.length_eq]
    simp only [h1, h2]

theorem normFun_same (S S' : ArgSort ℝ) (k : Kind) (hk : k ≠ .rank) {r r' : Results δ ℝ}
    (hn : NodupKeys r) (hn' : NodupKeys r') (h : SameScores r r') :
    SameScores (normFun S k r) (normFun S' k r') := by
  intro d
  rw [get?_normFun S k r hn, get?_normFun S' k r' hn', get?_specRow, get?_specRow, h d]
  congr 1
  funext s
  exact normScore_congr k hk (sameScores_perm hn hn' h) d s

/-- the methods that look only at scores -/
def scoreMethods : List Method :=
  [.combAnz, .combGmnz, .combMax, .combMed, .combMin, .combMnz, .combSum, .wsum, .wmnz, .mixed]

theorem present_same {rs rs' : List (Results δ ℝ)} (h : List.Forall₂ SameScores rs rs') (d : δ) :
    present rs d = present rs' d := by
  unfold present
  induction h with
  | nil => rfl
  | cons h _ ih => rw [List.filterMap_cons, List.filterMap_cons, h d, ih]

theorem map_same {rs rs' : List (Results δ ℝ)} (h : List.Forall₂ SameScores rs rs') (d : δ)
    {B : Type*} (f : Option ℝ → B) : rs.map (fun r => f (r.get? d)) = rs'.map (fun r => f (r.get? d)) := by
  induction h with
  | nil => rfl
  | cons h _ ih => rw [List.map_cons, List.map_cons, h d, ih]

theorem zipIdx_same {rs rs' : List (Results δ ℝ)} (h : List.Forall₂ SameScores rs rs') (d : δ) (i : Nat) :
    (rs.zipIdx i).map (fun ri => (ri.1.get? d, ri.2)) = (rs'.zipIdx i).map (fun ri => (ri.1.get? d, ri.2)) := by
  induction h generalizing i with
  | nil => rfl
  | cons h _ ih => rw [List.zipIdx_cons, List.zipIdx_cons, List.map_cons, List.map_cons, h d, ih]

theorem wsum_same {rs rs' : List (Results δ ℝ)} (h : List.Forall₂ SameScores rs rs') (ws : List ℝ) (d : δ) :
    wsumScore ws rs d = wsumScore ws rs' d := by
  have e : ∀ x : List (Results δ ℝ), x.zipIdx.map (fun ri => (weightAt ws ri.2).map (fun w => w * (ri.1.get? d).getD 0)) =
      (x.zipIdx.map (fun ri => (ri.1.get? d, ri.2))).map (fun p => (weightAt ws p.2).map (fun w => w * p.1.getD 0)) := by
    intro x; rw [List.map_map]; rfl
  unfold wsumScore
  rw [e rs, e rs', zipIdx_same h]

theorem presentWeighted_same {rs rs' : List (Results δ ℝ)} (h : List.Forall₂ SameScores rs rs') (ws : List ℝ)
    (d : δ) : presentWeighted ws rs d = presentWeighted ws rs' d := by
  have e : ∀ x : List (Results δ ℝ), x.zipIdx.filterMap (fun ri =>
      (ri.1.get? d).map (fun s => (weightAt ws ri.2).map (fun w => (s, w)))) =
      (x.zipIdx.map (fun ri => (ri.1.get? d, ri.2))).filterMap (fun p =>
        p.1.map (fun s => (weightAt ws p.2).map (fun w => (s, w)))) := by
    intro x; rw [List.filterMap_map]; rfl
  unfold presentWeighted
  rw [e rs, e rs', zipIdx_same h]

theorem flatMap_same {rs rs' : List (Results δ ℝ)} (h : List.Forall₂ SameScores rs rs') (d : δ) :
    d ∈ rs.flatMap Dict.keys ↔ d ∈ rs'.flatMap Dict.keys := by
  induction h with
  | nil => rfl
  | cons h _ ih =>
    rw [List.flatMap_cons, List.flatMap_cons, List.mem_append, List.mem_append, ih, ← get?_isSome, ← get?_isSome, h d]

theorem perQuery_same (E E' : Env δ) (m : Method) (hm : m ∈ scoreMethods) (params : Kwargs)
    (rs rs' : List (Results δ ℝ)) (hs : List.Forall₂ SameScores rs rs') (r r' : Results δ ℝ)
    (h : perQuery E m params rs = .ok r) (h' : perQuery E' m params rs' = .ok r') : SameScores r r' := by
  have key : ∀ score : Score δ ℝ, (∀ d, score rs d = score rs' d) →
      sortedCombine E.S score rs = .ok r → sortedCombine E'.S score rs' = .ok r' → SameScores r r' :=
    fun score he h h' => sortedCombine_congr _ _ score rs rs' r r' h h' (flatMap_same hs) (fun d _ => he d)
  have hmem : m = .combAnz ∨ m = .combGmnz ∨ m = .combMax ∨ m = .combMed ∨ m = .combMin ∨ m = .combMnz ∨
      m = .combSum ∨ m = .wsum ∨ m = .wmnz ∨ m = .mixed := by
    unfold scoreMethods at hm
    simpa using hm
  rcases hmem with rfl | rfl | rfl | rfl | rfl | rfl | rfl | rfl | rfl | rfl
  · exact key _ (fun d => by simp only [anzScore, present_same hs]) h h'
  · exact symm_bind h h' (fun g h h' => key _ (fun d => by simp only [gmnzScore, present_same hs]) h h')
  · refine key _ (fun d => ?_) h h'
    rw [maxScore_maxOf, maxScore_maxOf, map_same hs d (fun o => o.getD (-(10 ^ 9)))]
  · exact key _ (fun d => by simp only [medScore, present_same hs]) h h'
  · refine key _ (fun d => ?_) h h'
    rw [minScore_minOf, minScore_minOf, map_same hs d (fun o => o.getD (10 ^ 9))]
  · exact key _ (fun d => by simp only [mnzScore, present_same hs]) h h'
  · refine key _ (fun d => ?_) h h'
    unfold sumScore
    rw [map_same hs d (fun o => o.getD 0)]
  · exact symm_bind h h' (fun g h h' => key _ (fun d => wsum_same hs g d) h h')
  · exact symm_bind h h' (fun g h h' => key _ (fun d => by simp only [wmnzScore, presentWeighted_same hs]) h h')
  · exact symm_bind h h' (fun g h h' => key _ (fun d => by simp only [mixedScore, presentWeighted_same hs]) h h')

end

section
variable [LinearOrder κ] [DecidableEq δ]

theorem SameContents.keys {s s' : Store κ δ ℝ} (h : ∀ q, Spec.content s q = Spec.content s' q) (q : κ) :
    q ∈ s.data.keys ↔ q ∈ s'.data.keys := by
  rw [← get?_isSome, ← get?_isSome]
  have := congrArg Option.isSome (h q)
  simp only [Spec.content, Option.isSome_map] at this
  rw [this]

theorem SameContents.results {runs runs' : List (Store κ δ ℝ)} (h : Spec.SameContents runs runs') (q : κ) :
    List.Forall₂ SameScores (resultsFor (runs.map (fun s => s.data)) q)
      (resultsFor (runs'.map (fun s => s.data)) q) := by
  unfold resultsFor
  rw [List.map_map, List.map_map, List.forall₂_map_left_iff, List.forall₂_map_right_iff]
  refine h.imp (fun s s' hc d => ?_)
  have := hc q
  unfold Spec.content at this
  simp only [Function.comp_apply]
  cases h1 : s.data.get? q with
  | none =>
    cases h2 : s'.data.get? q with
    | none => rfl
    | some r' => rw [h1, h2] at this; simp at this
  | some r =>
    cases h2 : s'.data.get? q with
    | none => rw [h1, h2] at this; simp at this
    | some r' =>
      rw [h1, h2] at this
      simp only [Option.map_some, Option.some.injEq] at this
      exact congrFun this d


theorem scoreRule_method {runs : List (Dict κ (Results δ ℝ))} {name : String} {params : Kwargs}
    {R : List (Dict κ (Results δ ℝ)) → κ → δ → ℝ → Prop} (h : Spec.ScoreRule runs name params R) :
    ∃ m, (name, m) ∈ Spec.methodNames ∧ m ∈ scoreMethods := by
  cases h with
  | sum => exact ⟨.combSum, by decide +kernel, by decide⟩
  | anz => exact ⟨.combAnz, by decide +kernel, by decide⟩
  | mnz => exact ⟨.combMnz, by decide +kernel, by decide⟩
  | gmnz g => exact ⟨.combGmnz, by decide +kernel, by decide⟩
  | med => exact ⟨.combMed, by decide +kernel, by decide⟩
  | min => exact ⟨.combMin, by decide +kernel, by decide⟩
  | max => exact ⟨.combMax, by decide +kernel, by decide⟩
  | wsum ws h => exact ⟨.wsum, by decide +kernel, by decide⟩
  | wmnz ws h => exact ⟨.wmnz, by decide +kernel, by decide⟩
  | mixed ws h => exact ⟨.mixed, by decide +kernel, by decide⟩

theorem scoreRule_length {A B : List (Dict κ (Results δ ℝ))} (hl : A.length = B.length) {name : String}
    {params : Kwargs} {R : List (Dict κ (Results δ ℝ)) → κ → δ → ℝ → Prop}
    (h : Spec.ScoreRule A name params R) : Spec.ScoreRule B name params R := by
  cases h with
  | sum => exact .sum
  | anz => exact .anz
  | mnz => exact .mnz
  | gmnz g => exact .gmnz g
  | med => exact .med
  | min => exact .min
  | max => exact .max
  | wsum ws h => exact .wsum ws (hl ▸ h)
  | wmnz ws h => exact .wmnz ws (hl ▸ h)
  | mixed ws h => exact .mixed ws (hl ▸ h)

theorem sameQueries_of_contents {runs runs' : List (Store κ δ ℝ)} (hc : Spec.SameContents runs runs')
    (hq : Spec.SameQueries runs) : Spec.SameQueries runs' := by
  intro s' hs' t' ht' q
  obtain ⟨s, hs, hss⟩ := forall₂_mem_right hc hs'
  obtain ⟨t, ht, htt⟩ := forall₂_mem_right hc ht'
  rw [← SameContents.keys hss, ← SameContents.keys htt]
  exact hq s hs t ht q

/-- **C99** (methods on scores): for every accepted normalization name except borda and rank, every method that
works on scores and its parameters: two lists of runs with pairwise the same content fuse to runs with the same
content, whatever the order in which the runs were filled, the schedules, the sorting routine and the iteration
order of sets. -/
theorem C99_score_methods (E E' : Env δ) (runs runs' : List (Store κ δ ℝ)) (hn : 2 ≤ runs.length)
    (hw : ∀ s ∈ runs, Store.Wf s.data) (hw' : ∀ s ∈ runs', Store.Wf s.data)
    (hc : Spec.SameContents runs runs') (hq : Spec.SameQueries runs)
    (hE : Spec.SchedulesCover E runs) (hE' : Spec.SchedulesCover E' runs')
    (norm : Option String) (k : Option Kind) (hk : Spec.NormNamed norm k) (hr : k ≠ some .rank)
    (name : String) (params : Kwargs) (R : List (Dict κ (Results δ ℝ)) → κ → δ → ℝ → Prop)
    (hR : Spec.ScoreRule (runs.map (fun s => s.data)) name params R) :
    ∃ out out', fuse E runs norm name (some params) = .ok out ∧ fuse E' runs' norm name (some params) = .ok out' ∧
      ∀ q, Spec.content out q = Spec.content out' q := by
  have hl : runs.length = runs'.length := hc.length_eq
  have hq' := sameQueries_of_contents hc hq
  obtain ⟨m, hname, hm⟩ := scoreRule_method hR
  obtain ⟨out, -, h, -⟩ := C89_score_methods E runs hn hw hq hE norm k hk name params R hR
  obtain ⟨out', -, h', -⟩ := C89_score_methods E' runs' (hl ▸ hn) hw' hq' hE' norm k hk name params R
    (scoreRule_length (by simp [hl]) hR)
  refine ⟨out, out', h, h', fun q => ?_⟩
  have hsw := fusionSwitch_known (name, m) hname
  simp only at hsw
  have hnb : norm ≠ some "borda" := by
    rintro rfl
    rcases hk with ⟨h, -⟩ | ⟨n, x, h, -, hnx, hb⟩
    · cases h
    · cases h
      have : ∀ p ∈ Spec.normNames, p.1 = "borda" → p.2 = .borda := by decide +kernel
      exact hb (this _ hnx rfl)
  have hub : ¬ Spec.UsesBorda norm name := by
    have hno : ∀ p ∈ Spec.methodNames, p.1 = "bordafuse" ∨ p.1 = "w_bordafuse" → p.2 ∉ scoreMethods := by
      decide +kernel
    rintro (h | h | h)
    · exact hnb h
    · exact hno _ hname (.inl h) hm
    · exact hno _ hname (.inr h) hm
  obtain ⟨m1, hm1, hL⟩ := fuse_local E runs hw norm name _ hE (fun h => absurd h hub) out h
  obtain ⟨m2, hm2, hL'⟩ := fuse_local E' runs' hw' norm name _ hE' (fun h => absurd h hub) out' h'
  rw [hsw] at hm1 hm2
  cases hm1
  cases hm2
  have hnd : ∀ (l : List (Store κ δ ℝ)), (∀ s ∈ l, Store.Wf s.data) →
      ∀ x ∈ resultsFor (l.map (fun s => s.data)) q, NodupKeys x := by
    intro l hw x hx
    obtain ⟨run, hr, rfl⟩ := List.mem_map.1 hx
    obtain ⟨s, hs, rfl⟩ := List.mem_map.1 hr
    cases hg : s.data.get? q with
    | none => exact nodupKeys_nil
    | some r => exact (hw s hs).2 (q, r) (mem_of_get? hg)
  have hnorm : List.Forall₂ SameScores (normQuery E norm (resultsFor (runs.map (fun s => s.data)) q))
      (normQuery E' norm (resultsFor (runs'.map (fun s => s.data)) q)) := by
    have hres := SameContents.results hc q
    have n1 := hnd runs hw
    have n2 := hnd runs' hw'
    rcases hk with ⟨rfl, rfl⟩ | ⟨n, x, rfl, rfl, hnx, hb⟩
    · exact hres
    · have hsn : normSwitch n = .ok x := by
        rcases normSwitch_cases n with ⟨k', hk', h⟩ | ⟨h, _⟩
        · have huniq : ∀ p ∈ Spec.normNames, ∀ p' ∈ Spec.normNames, p.1 = p'.1 → p.2 = p'.2 := by
            decide +kernel
          rw [h, show k' = x from huniq _ hk' _ hnx rfl]
        · exact absurd (List.mem_map.2 ⟨_, hnx, rfl⟩) h
      have hx : x ≠ .rank := fun h => hr (by rw [h])
      have hne : n ≠ "borda" := fun h => hnb (by rw [h])
      have e : ∀ (F : Env δ) rs, normQuery F (some n) rs = rs.map (normFun F.S x) := by
        intro F rs
        unfold normQuery
        simp only
        rw [if_pos hne, hsn]
      rw [e, e, List.forall₂_map_left_iff, List.forall₂_map_right_iff]
      generalize resultsFor (runs.map (fun s => s.data)) q = A at hres n1
      generalize resultsFor (runs'.map (fun s => s.data)) q = B at hres n2
      clear e hL hL' h h'
      induction hres with
      | nil => exact .nil
      | cons hab _ ih =>
        exact .cons (normFun_same E.S E'.S x hx (n1 _ List.mem_cons_self) (n2 _ List.mem_cons_self) hab)
          (ih (fun r h => n1 r (List.mem_cons_of_mem _ h)) (fun r h => n2 r (List.mem_cons_of_mem _ h)))
  have hex : (∃ run ∈ runs.map (fun s => s.data), q ∈ run.keys) ↔
      ∃ run ∈ runs'.map (fun s => s.data), q ∈ run.keys := by
    constructor
    · rintro ⟨_, hs0, hk⟩
      obtain ⟨s, hs, rfl⟩ := List.mem_map.1 hs0
      obtain ⟨s', hs', hss⟩ := forall₂_mem_left hc hs
      exact ⟨_, List.mem_map.2 ⟨s', hs', rfl⟩, (SameContents.keys hss q).1 hk⟩
    · rintro ⟨_, hs0, hk⟩
      obtain ⟨s', hs', rfl⟩ := List.mem_map.1 hs0
      obtain ⟨s, hs, hss⟩ := forall₂_mem_right hc hs'
      exact ⟨_, List.mem_map.2 ⟨s, hs, rfl⟩, (SameContents.keys hss q).2 hk⟩
  by_cases hqq : ∃ run ∈ runs.map (fun s => s.data), q ∈ run.keys
  · obtain ⟨r, hr1, hr2⟩ := hL.get q hqq
    obtain ⟨r', hr1', hr2'⟩ := hL'.get q (hex.1 hqq)
    have := perQuery_same E E' m hm _ _ _ hnorm r r' hr1 hr1'
    unfold Spec.content
    rw [hr2, hr2']
    exact congrArg some (funext this)
  · have h1 : q ∉ out.data.keys := fun hc => hqq ((hL.queries q).1 hc)
    have h2 : q ∉ out'.data.keys := fun hc => hqq (hex.2 ((hL'.queries q).1 hc))
    unfold Spec.content
    rw [get?_eq_none.2 h1, get?_eq_none.2 h2]

theorem cont_of_content {s s' : Store κ δ ℝ} (h : ∀ q, Spec.content s q = Spec.content s' q) :
    Store.cont s.data = Store.cont s'.data := funext h

/-- **C99** (every method, sorted runs): if the scores of each query are distinct, fusing after `sort()` gives
exactly the same outcome - the same run or the same exception - for every normalization, method and
parameters, whatever the order in which the runs were filled. -/
theorem C99_sorted_runs (E : Env δ) (S S' : ArgSort ℝ) (runs runs' : List (Store κ δ ℝ))
    (hw : ∀ s ∈ runs, Store.Wf s.data) (hw' : ∀ s ∈ runs', Store.Wf s.data)
    (hc : Spec.SameContents runs runs') (ht : ∀ s ∈ runs, ∀ p ∈ s.data, p.2.values.Nodup)
    (norm : Option String) (method : String) (params : Option Kwargs) :
    fuse E (runs.map (fun s => s.sort S)) norm method params =
      fuse E (runs'.map (fun s => s.sort S')) norm method params := by
  have : runs.map (fun s => s.sort S) = runs'.map (fun s => s.sort S') := by
    unfold Spec.SameContents at hc
    induction hc with
    | nil => rfl
    | cons h _ ih =>
      rw [List.map_cons, List.map_cons, ih (fun s hs => hw s (List.mem_cons_of_mem _ hs))
        (fun s hs => hw' s (List.mem_cons_of_mem _ hs)) (fun s hs => ht s (List.mem_cons_of_mem _ hs))]
      congr 1
      unfold Store.sort
      congr 1
      exact Store.sortAll_unique S S' (hw _ List.mem_cons_self) (hw' _ List.mem_cons_self) (cont_of_content h)
        (ht _ List.mem_cons_self)
  rw [this]


theorem rows_eq_of_ranked {r r' : Results δ ℝ} (hn : NodupKeys r) (hn' : NodupKeys r') (h : SameScores r r')
    (hr : Spec.Ranked r.values) (hr' : Spec.Ranked r'.values) (ht : r.values.Nodup) : r = r' := by
  have pp := sameScores_perm hn hn' h
  refine pp.eq_of_pairwise ?_ (List.pairwise_map.1 hr) (List.pairwise_map.1 hr')
  intro a b ha hb hab hba
  exact List.inj_on_of_nodup_map ht ha (pp.mem_iff.2 hb) (le_antisymm hba hab)

/-- **C99** (every method, ranked runs; partial: borda normalization and the two bordafuse methods need the
queries in the same order in all runs, as for C48 and C62): if each run lists the docs of a query by
decreasing score, without ties, then every fused query is the same - docs, scores and order - for every
normalization, method and parameters. -/
theorem C99_ranked_runs_partial (E E' : Env δ) (hS : E.S = E'.S) (hI : E.I = E'.I) (hC : E.C = E'.C)
    (hO : E.oob = E'.oob) (runs runs' : List (Store κ δ ℝ))
    (hw : ∀ s ∈ runs, Store.Wf s.data) (hw' : ∀ s ∈ runs', Store.Wf s.data)
    (hc : Spec.SameContents runs runs')
    (hr : ∀ s ∈ runs, ∀ p ∈ s.data, Spec.Ranked p.2.values) (hr' : ∀ s ∈ runs', ∀ p ∈ s.data, Spec.Ranked p.2.values)
    (ht : ∀ s ∈ runs, ∀ p ∈ s.data, p.2.values.Nodup)
    (norm : Option String) (method : String) (params : Option Kwargs)
    (hE : Spec.SchedulesCover E runs) (hE' : Spec.SchedulesCover E' runs')
    (ha : Spec.UsesBorda norm method → Spec.SameQueryOrder runs ∧ Spec.SameQueryOrder runs')
    (out out' : Store κ δ ℝ) (h : fuse E runs norm method params = .ok out)
    (h' : fuse E' runs' norm method params = .ok out') (q : κ) : out.data.get? q = out'.data.get? q := by
  refine C62_query_local_partial E E' hS hI hC hO runs runs' hw hw' norm method params hE hE' ha q ?_ out out' h h'
  clear h h' hE hE' ha
  unfold Spec.SameContents at hc
  induction hc with
  | nil => rfl
  | cons hss _ ih =>
    rename_i s s' l l' _
    rw [List.map_cons, List.map_cons, ih (fun s hs => hw s (List.mem_cons_of_mem _ hs))
      (fun s hs => hw' s (List.mem_cons_of_mem _ hs)) (fun s hs => hr s (List.mem_cons_of_mem _ hs))
      (fun s hs => hr' s (List.mem_cons_of_mem _ hs)) (fun s hs => ht s (List.mem_cons_of_mem _ hs))]
    congr 1
    have hq := hss q
    unfold Spec.content at hq
    cases h1 : s.data.get? q with
    | none =>
      cases h2 : s'.data.get? q with
      | none => rfl
      | some r' => rw [h1, h2] at hq; simp at hq
    | some r =>
      cases h2 : s'.data.get? q with
      | none => rw [h1, h2] at hq; simp at hq
      | some r' =>
        rw [h1, h2] at hq
        simp only [Option.map_some, Option.some.injEq] at hq
        rw [rows_eq_of_ranked ((hw s List.mem_cons_self).get? h1) ((hw' s' List.mem_cons_self).get? h2) (congrFun hq)
          (hr s List.mem_cons_self _ (mem_of_get? h1)) (hr' s' List.mem_cons_self _ (mem_of_get? h2))
          (ht s List.mem_cons_self _ (mem_of_get? h1))]

end

/-! ### runs filled with `add_score`, not sorted -/

/-- `add_score("1", "10", 3); add_score("1", "11", 5)` -/
noncomputable def lowFirst : Store Nat Nat ℝ := (Store.empty.addScore 1 10 3).addScore 1 11 5
/-- the same two calls in the other order -/
noncomputable def highFirst : Store Nat Nat ℝ := (Store.empty.addScore 1 11 5).addScore 1 10 3

noncomputable def oneEnv : Env Nat :=
  ⟨.stable ℝ, [0], fun _ => [0], fun _ => [0], dedupIter, .python, fun _ => 0⟩

theorem lowFirst_eq : lowFirst = ⟨[(1, [(10, 3), (11, 5)])], false⟩ := rfl
theorem highFirst_eq : highFirst = ⟨[(1, [(11, 5), (10, 3)])], false⟩ := rfl

theorem wf_low : Store.Wf lowFirst.data := by
  rw [lowFirst_eq]; exact ⟨by unfold NodupKeys; decide, by unfold NodupKeys; simp⟩

theorem wf_high : Store.Wf highFirst.data := by
  rw [highFirst_eq]; exact ⟨by unfold NodupKeys; decide, by unfold NodupKeys; simp⟩

theorem oneEnv_cover (s : Store Nat Nat ℝ) (hs : s.data.length = 1) : Spec.SchedulesCover oneEnv [s, s] := by
  have one : Schedule 1 [0] := by unfold Schedule; decide
  have hlen : ∀ (j : Nat) t, [s, s][j]? = some t → t.data.length = 1 := by
    intro j t hj
    have := List.mem_of_getElem? hj
    simp only [List.mem_cons, List.not_mem_nil, or_false] at this
    rcases this with rfl | rfl <;> exact hs
  exact ⟨fun t ht => by rw [hlen 0 t ht]; exact one, fun j t ht => by rw [hlen j t ht]; exact one,
    fun j t ht => by rw [hlen j t ht]; exact one⟩

theorem sameQueries_pair (s : Store Nat Nat ℝ) : Spec.SameQueries [s, s] := by
  intro a ha b hb q h
  simp only [List.mem_cons, List.not_mem_nil, or_false, or_self] at ha hb
  rw [hb]; rw [ha] at h; exact h

theorem low_high_same : Spec.SameContents [lowFirst, lowFirst] [highFirst, highFirst] := by
  have h : ∀ q, Spec.content lowFirst q = Spec.content highFirst q := by
    intro q
    rw [lowFirst_eq, highFirst_eq]
    unfold Spec.content
    simp only [get?_cons]
    by_cases hq : (1 : Nat) = q
    · rw [if_pos hq, if_pos hq]
      simp only [Option.map_some, Option.some.injEq]
      funext d
      simp only [get?_cons]
      by_cases h10 : (10 : Nat) = d
      · subst h10; simp
      · by_cases h11 : (11 : Nat) = d
        · subst h11; simp
        · simp [h10, h11]
    · rw [if_neg hq, if_neg hq]
  exact .cons h (.cons h .nil)

/-- **C99 refuted for methods on positions**: two pairs of runs with the same content and distinct scores,
filled by `add_score` in different orders and never sorted. With `norm=None` and method "rrf" doc 10 gets
2/61 in one case (as if it were ranked first) and 2/62 in the other, although its score is the lower one in
both: `fuse` does not sort its arguments. -/
theorem C99_unsorted :
    ∃ out out', fuse oneEnv [lowFirst, lowFirst] none "rrf" (some []) = .ok out ∧
      fuse oneEnv [highFirst, highFirst] none "rrf" (some []) = .ok out' ∧
      Spec.SameContents [lowFirst, lowFirst] [highFirst, highFirst] ∧
      (Spec.content out).read 1 10 = some (2 / 61) ∧ (Spec.content out').read 1 10 = some (2 / 62) := by
  obtain ⟨out, val, h1, h2, h3⟩ := C89_rank_methods oneEnv [lowFirst, lowFirst] (by decide)
    (by intro s hs; simp only [List.mem_cons, List.not_mem_nil, or_false, or_self] at hs; rw [hs]; exact wf_low)
    (sameQueries_pair _) (oneEnv_cover _ rfl) none none (.inl ⟨rfl, rfl⟩) (by simp) "rrf" [] _ .rrf
  obtain ⟨out', val', h1', h2', h3'⟩ := C89_rank_methods oneEnv [highFirst, highFirst] (by decide)
    (by intro s hs; simp only [List.mem_cons, List.not_mem_nil, or_false, or_self] at hs; rw [hs]; exact wf_high)
    (sameQueries_pair _) (oneEnv_cover _ rfl) none none (.inl ⟨rfl, rfl⟩) (by simp) "rrf" [] _ .rrf
  have i1 : Spec.InSome [lowFirst.data, lowFirst.data] 1 10 :=
    ⟨_, List.mem_cons_self, [(10, 3), (11, 5)], rfl, by decide⟩
  have i2 : Spec.InSome [highFirst.data, highFirst.data] 1 10 :=
    ⟨_, List.mem_cons_self, [(11, 5), (10, 3)], rfl, by decide⟩
  refine ⟨out, out', h1, h1', low_high_same, ?_, ?_⟩
  · rw [h2.value 1 10 i1, h3 1 10 i1]
    have : Spec.positions (Spec.normalised none [lowFirst.data, lowFirst.data]) 1 10 = [0, 0] := rfl
    simp only [List.map_cons, List.map_nil]
    rw [this]
    norm_num
  · rw [h2'.value 1 10 i2, h3' 1 10 i2]
    have : Spec.positions (Spec.normalised none [highFirst.data, highFirst.data]) 1 10 = [1, 1] := rfl
    simp only [List.map_cons, List.map_nil]
    rw [this]
    norm_num

/-- **C99 refuted for rank normalization**: the same two pairs of runs with `norm="rank"` and method "sum": doc 10
gets 2 in one case and 1 in the other. -/
theorem C99_unsorted_rank_norm :
    ∃ out out', fuse oneEnv [lowFirst, lowFirst] (some "rank") "sum" (some []) = .ok out ∧
      fuse oneEnv [highFirst, highFirst] (some "rank") "sum" (some []) = .ok out' ∧
      (Spec.content out).read 1 10 = some 2 ∧ (Spec.content out').read 1 10 = some 1 := by
  have hk : Spec.NormNamed (some "rank") (some Kind.rank) :=
    .inr ⟨"rank", .rank, rfl, rfl, by decide +kernel, by decide⟩
  obtain ⟨out, val, h1, h2, h3⟩ := C89_score_methods oneEnv [lowFirst, lowFirst] (by decide)
    (by intro s hs; simp only [List.mem_cons, List.not_mem_nil, or_false, or_self] at hs; rw [hs]; exact wf_low)
    (sameQueries_pair _) (oneEnv_cover _ rfl) _ _ hk "sum" [] _ .sum
  obtain ⟨out', val', h1', h2', h3'⟩ := C89_score_methods oneEnv [highFirst, highFirst] (by decide)
    (by intro s hs; simp only [List.mem_cons, List.not_mem_nil, or_false, or_self] at hs; rw [hs]; exact wf_high)
    (sameQueries_pair _) (oneEnv_cover _ rfl) _ _ hk "sum" [] _ .sum
  have i1 : Spec.InSome [lowFirst.data, lowFirst.data] 1 10 :=
    ⟨_, List.mem_cons_self, [(10, 3), (11, 5)], rfl, by decide⟩
  have i2 : Spec.InSome [highFirst.data, highFirst.data] 1 10 :=
    ⟨_, List.mem_cons_self, [(11, 5), (10, 3)], rfl, by decide⟩
  refine ⟨out, out', h1, h1', ?_, ?_⟩
  · rw [h2.value 1 10 i1, h3 1 10 i1]
    have : Spec.scores (Spec.normalised (some .rank) [lowFirst.data, lowFirst.data]) 1 10 =
        [1 - ((0 : Nat) : ℝ) / ((2 : Nat) : ℝ), 1 - ((0 : Nat) : ℝ) / ((2 : Nat) : ℝ)] := rfl
    simp only [List.map_cons, List.map_nil]
    rw [this]
    norm_num
  · rw [h2'.value 1 10 i2, h3' 1 10 i2]
    have : Spec.scores (Spec.normalised (some .rank) [highFirst.data, highFirst.data]) 1 10 =
        [1 - ((1 : Nat) : ℝ) / ((2 : Nat) : ℝ), 1 - ((1 : Nat) : ℝ) / ((2 : Nat) : ℝ)] := rfl
    simp only [List.map_cons, List.map_nil]
    rw [this]
    norm_num

/-- Non-vacuity of C99: the two differently filled runs, min-max normalization and the default method with
weights; and sorted, with "rrf". -/
example : ∃ out out', fuse oneEnv [lowFirst, lowFirst] (some "min-max") "wsum" (some [("weights", .nums [1, 2])]) = .ok out ∧
    fuse oneEnv [highFirst, highFirst] (some "min-max") "wsum" (some [("weights", .nums [1, 2])]) = .ok out' ∧
    ∀ q, Spec.content out q = Spec.content out' q :=
  C99_score_methods oneEnv oneEnv _ _ (by decide)
    (by intro s hs; simp only [List.mem_cons, List.not_mem_nil, or_false, or_self] at hs; rw [hs]; exact wf_low)
    (by intro s hs; simp only [List.mem_cons, List.not_mem_nil, or_false, or_self] at hs; rw [hs]; exact wf_high)
    low_high_same (sameQueries_pair _) (oneEnv_cover _ rfl) (oneEnv_cover _ rfl) _ (some .minMax)
    (.inr ⟨_, _, rfl, rfl, by decide +kernel, by decide⟩) (by simp) _ _ _ (.wsum [1, 2] (by decide))

example : fuse oneEnv ([lowFirst, lowFirst].map (fun s => s.sort (.stable ℝ))) none "rrf" =
    fuse oneEnv ([highFirst, highFirst].map (fun s => s.sort (.stable ℝ))) none "rrf" :=
  C99_sorted_runs oneEnv _ _ _ _
    (by intro s hs; simp only [List.mem_cons, List.not_mem_nil, or_false, or_self] at hs; rw [hs]; exact wf_low)
    (by intro s hs; simp only [List.mem_cons, List.not_mem_nil, or_false, or_self] at hs; rw [hs]; exact wf_high)
    low_high_same
    (by
      intro s hs
      simp only [List.mem_cons, List.not_mem_nil, or_false, or_self] at hs
      rw [hs, lowFirst_eq]
      intro p hp
      simp only [List.mem_cons, List.not_mem_nil, or_false] at hp
      rw [hp]
      simp [Dict.values]) _ _ _

end Ranx
