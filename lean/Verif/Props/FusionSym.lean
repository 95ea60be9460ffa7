import Verif.Props.Fuse
import Mathlib.Algebra.BigOperators.Group.List.Basic

/-!
# Properties C52, C53: symmetry of unweighted fusion, relations between methods
-/

set_option linter.unusedSectionVars false

namespace Ranx
open Dict Fuse
open _root_.Ranx.Norm (Results SetIter Kind normSwitch)
variable {κ δ α : Type*}

section
variable [DecidableEq δ] [DecidableEq α] [Zero α]

/-- every fused score is the score function's value -/
theorem unionLoop_value (score : δ → Except Err α) (ds : List δ) (acc out : Dict δ α)
    (h : unionLoop score ds acc = .ok out) (hacc : ∀ d v, acc.get? d = some v → score d = .ok v) :
    ∀ d v, out.get? d = some v → score d = .ok v := by
  induction ds generalizing acc with
  | nil => cases h; exact hacc
  | cons x t ih =>
    unfold unionLoop at h
    by_cases h0 : (acc.get? x).getD 0 = 0
    · rw [if_pos h0] at h
      cases hs : score x with
      | error e => rw [hs] at h; simp at h
      | ok v =>
        rw [hs] at h
        refine ih _ h (fun d w hw => ?_)
        rw [get?_set] at hw
        by_cases hd : x = d
        · rw [if_pos hd] at hw
          cases hw
          rw [← hd, hs]
        · rw [if_neg hd] at hw
          exact hacc d w hw
    · rw [if_neg h0] at h
      exact ih _ h hacc

theorem combine_value (score : Score δ α) (rs : List (Results δ α)) (r : Results δ α)
    (h : combine score rs = .ok r) : ∀ d v, r.get? d = some v → score rs d = .ok v :=
  unionLoop_value _ _ _ _ h (by simp)

end

section
variable [DecidableEq δ]

/-- two result dictionaries with the same docs and scores -/
def SameScores (r r' : Results δ ℝ) : Prop := ∀ d, r.get? d = r'.get? d

theorem sortedCombine_get? (S : ArgSort ℝ) (score : Score δ ℝ) (rs : List (Results δ ℝ)) (r : Results δ ℝ)
    (h : sortedCombine S score rs = .ok r) :
    (∀ d v, r.get? d = some v → score rs d = .ok v) ∧ ∀ d, d ∈ r.keys ↔ d ∈ rs.flatMap Dict.keys := by
  unfold sortedCombine at h
  cases hc : combine score rs with
  | error e => rw [hc] at h; simp at h
  | ok r' =>
    rw [hc] at h
    simp only [Except.ok.injEq] at h
    subst h
    obtain ⟨h1, h2⟩ := combine_keys score rs r' hc
    refine ⟨fun d v hd => combine_value score rs r' hc d v ?_, fun d => ?_⟩
    · rw [get?_sortDictByValue S h1] at hd
      exact hd
    · rw [← h2 d]
      exact ((sortDictByValue_perm S h1).map Prod.fst).mem_iff

theorem sortedCombine_congr (S S' : ArgSort ℝ) (score : Score δ ℝ) (rs rs' : List (Results δ ℝ))
    (r r' : Results δ ℝ) (h : sortedCombine S score rs = .ok r) (h' : sortedCombine S' score rs' = .ok r')
    (hk : ∀ d, d ∈ rs.flatMap Dict.keys ↔ d ∈ rs'.flatMap Dict.keys)
    (hs : ∀ d, d ∈ rs.flatMap Dict.keys → score rs d = score rs' d) : SameScores r r' := by
  obtain ⟨h1, h2⟩ := sortedCombine_get? S score rs r h
  obtain ⟨h1', h2'⟩ := sortedCombine_get? S' score rs' r' h'
  intro d
  cases hd : r.get? d with
  | none =>
    rw [eq_comm, get?_eq_none, h2', ← hk, ← h2, ← get?_eq_none]
    exact hd
  | some v =>
    have hm : d ∈ r.keys := get?_isSome.1 (by rw [hd]; rfl)
    have hm' : d ∈ r'.keys := by rw [h2', ← hk, ← h2]; exact hm
    obtain ⟨v', hv'⟩ := Option.isSome_iff_exists.1 (get?_isSome.2 hm')
    have e1 := h1 d v hd
    have e2 := h1' d v' hv'
    rw [hs d ((h2 d).1 hm), e2] at e1
    cases e1
    rw [hv']

theorem present_perm {rs rs' : List (Results δ ℝ)} (h : rs.Perm rs') (d : δ) :
    (present rs d).Perm (present rs' d) := h.filterMap _

/-- helper: Python's `max` of a list -/
def maxOf {α : Type*} [LinearOrder α] : List α → Except Err α
  | [] => .error .valueError
  | x :: t => .ok (t.foldl max x)

/-- helper: Python's `min` of a list -/
def minOf {α : Type*} [LinearOrder α] : List α → Except Err α
  | [] => .error .valueError
  | x :: t => .ok (t.foldl min x)

theorem foldl_min_perm {l l' : List ℝ} (h : l.Perm l') : minOf l = minOf l' := by
  cases l with
  | nil => rw [List.nil_perm.1 h]
  | cons x t =>
    cases l' with
    | nil => exact absurd (List.perm_nil.1 h) (by simp)
    | cons y u =>
      simp only [minOf, maxOf, Except.ok.injEq]
      obtain ⟨h1, h2⟩ := Norm.foldl_min_spec t x
      obtain ⟨h3, h4⟩ := Norm.foldl_min_spec u y
      exact le_antisymm (h2 _ (h.mem_iff.2 h3)) (h4 _ (h.mem_iff.1 h1))

theorem foldl_max_perm {l l' : List ℝ} (h : l.Perm l') : maxOf l = maxOf l' := by
  cases l with
  | nil => rw [List.nil_perm.1 h]
  | cons x t =>
    cases l' with
    | nil => exact absurd (List.perm_nil.1 h) (by simp)
    | cons y u =>
      simp only [minOf, maxOf, Except.ok.injEq]
      obtain ⟨h1, h2⟩ := Norm.foldl_max_spec t x
      obtain ⟨h3, h4⟩ := Norm.foldl_max_spec u y
      exact le_antisymm (h4 _ (h.mem_iff.1 h1)) (h2 _ (h.mem_iff.2 h3))

theorem minScore_minOf (rs : List (Results δ ℝ)) (d : δ) :
    minScore rs d = minOf (rs.map (fun res => (res.get? d).getD (10 ^ 9))) := by
  unfold minScore minOf
  cases rs <;> rfl

theorem maxScore_maxOf (rs : List (Results δ ℝ)) (d : δ) :
    maxScore rs d = maxOf (rs.map (fun res => (res.get? d).getD (-(10 ^ 9)))) := by
  unfold maxScore maxOf
  cases rs <;> rfl

theorem median_perm {l l' : List ℝ} (h : l.Perm l') : median l = median l' := by
  have : isort (fun a b => decide (a ≤ b)) l = isort (fun a b => decide (a ≤ b)) l' := by
    have hs : ∀ x : List ℝ, (isort (fun a b => decide (a ≤ b)) x).Pairwise (· ≤ ·) := by
      intro x
      have := pairwise_isort (le := fun a b : ℝ => decide (a ≤ b))
        (fun a b c h1 h2 => by simp at h1 h2 ⊢; exact le_trans h1 h2)
        (fun a b => by simp; exact le_total a b) x
      exact this.imp (by intro a b hab; simpa using hab)
    exact ((isort_perm l _).trans (h.trans (isort_perm l' _).symm)).eq_of_pairwise
      (fun a b _ _ h1 h2 => le_antisymm h1 h2) (hs l) (hs l')
  unfold median
  rw [this]

theorem flatMap_perm_mem {rs rs' : List (Results δ ℝ)} (h : rs.Perm rs') (d : δ) :
    d ∈ rs.flatMap Dict.keys ↔ d ∈ rs'.flatMap Dict.keys := by
  rw [List.mem_flatMap, List.mem_flatMap]
  constructor
  · rintro ⟨r, hr, hd⟩; exact ⟨r, h.mem_iff.1 hr, hd⟩
  · rintro ⟨r, hr, hd⟩; exact ⟨r, h.mem_iff.2 hr, hd⟩

/-- the methods that treat all runs alike -/
def Spec.unweighted : List Method :=
  [.combAnz, .combGmnz, .combMax, .combMed, .combMin, .combMnz, .combSum, .isr, .logIsr, .lognIsr, .rbc,
   .rrf, .bordafuse]

theorem symm_direct (S S' : ArgSort ℝ) (score : Score δ ℝ)
    (hsym : ∀ rs rs' : List (Results δ ℝ), rs.Perm rs' → ∀ d, score rs d = score rs' d)
    (rs rs' : List (Results δ ℝ)) (hp : rs.Perm rs') (r r' : Results δ ℝ)
    (h : sortedCombine S score rs = .ok r) (h' : sortedCombine S' score rs' = .ok r') : SameScores r r' :=
  sortedCombine_congr S S' score rs rs' r r' h h' (flatMap_perm_mem hp) (fun d _ => hsym rs rs' hp d)

theorem sum_symm (rs rs' : List (Results δ ℝ)) (hp : rs.Perm rs') (d : δ) :
    sumScore rs d = sumScore rs' d := by
  unfold sumScore
  rw [(hp.map _).sum_eq]

theorem symm_bind {A : Type*} {a : Except Err A} {f g : A → Except Err (Results δ ℝ)} {r r' : Results δ ℝ}
    (h : bindArg a f = .ok r) (h' : bindArg a g = .ok r')
    (hfg : ∀ x, f x = .ok r → g x = .ok r' → SameScores r r') : SameScores r r' := by
  obtain ⟨x, hx, h1⟩ := bindArg_ok h
  obtain ⟨x', hx', h1'⟩ := bindArg_ok h'
  rw [hx] at hx'
  cases hx'
  exact hfg x h1 h1'

theorem perQuery_symm (E E' : Env δ) (m : Method) (hm : m ∈ Spec.unweighted) (params : Kwargs)
    (rs rs' : List (Results δ ℝ)) (hp : rs.Perm rs') (hn : ∀ x ∈ rs, NodupKeys x) (r r' : Results δ ℝ)
    (h : perQuery E m params rs = .ok r) (h' : perQuery E' m params rs' = .ok r') : SameScores r r' := by
  have hanz : ∀ rs rs' : List (Results δ ℝ), rs.Perm rs' → ∀ d, anzScore rs d = anzScore rs' d := by
    intro rs rs' hp d
    simp only [anzScore, (present_perm hp d).sum_eq, (present_perm hp d).length_eq]
  have hmnz : ∀ rs rs' : List (Results δ ℝ), rs.Perm rs' → ∀ d, mnzScore rs d = mnzScore rs' d := by
    intro rs rs' hp d
    simp only [mnzScore, (present_perm hp d).sum_eq, (present_perm hp d).length_eq]
  have hmem : m = .combAnz ∨ m = .combGmnz ∨ m = .combMax ∨ m = .combMed ∨ m = .combMin ∨ m = .combMnz ∨
      m = .combSum ∨ m = .isr ∨ m = .logIsr ∨ m = .lognIsr ∨ m = .rbc ∨ m = .rrf ∨ m = .bordafuse := by
    unfold Spec.unweighted at hm
    simpa using hm
  rcases hmem with rfl | rfl | rfl | rfl | rfl | rfl | rfl | rfl | rfl | rfl | rfl | rfl | rfl
  · exact symm_direct _ _ _ hanz rs rs' hp r r' h h'
  · refine symm_bind h h' (fun g h h' => symm_direct _ _ _ ?_ rs rs' hp r r' h h')
    intro rs rs' hp d
    simp only [gmnzScore, (present_perm hp d).sum_eq, (present_perm hp d).length_eq]
  · refine symm_direct _ _ _ ?_ rs rs' hp r r' h h'
    intro rs rs' hp d
    rw [maxScore_maxOf, maxScore_maxOf]
    exact foldl_max_perm (hp.map _)
  · refine symm_direct _ _ _ ?_ rs rs' hp r r' h h'
    intro rs rs' hp d
    simp only [medScore, median_perm (present_perm hp d)]
  · refine symm_direct _ _ _ ?_ rs rs' hp r r' h h'
    intro rs rs' hp d
    rw [minScore_minOf, minScore_minOf]
    exact foldl_min_perm (hp.map _)
  · exact symm_direct _ _ _ hmnz rs rs' hp r r' h h'
  · exact symm_direct _ _ _ sum_symm rs rs' hp r r' h h'
  · exact symm_direct _ _ _ hmnz _ _ (hp.map _) r r' h h'
  · refine symm_direct _ _ _ ?_ _ _ (hp.map _) r r' h h'
    intro rs rs' hp d
    simp only [logMnzScore, (present_perm hp d).sum_eq, (present_perm hp d).length_eq]
  · refine symm_bind h h' (fun g h h' => symm_direct _ _ _ ?_ _ _ (hp.map _) r r' h h')
    intro rs rs' hp d
    simp only [lognMnzScore, (present_perm hp d).sum_eq, (present_perm hp d).length_eq]
  · exact symm_bind h h' (fun g h h' => symm_direct _ _ _ sum_symm _ _ (hp.map _) r r' h h')
  · exact symm_bind h h' (fun g h h' => symm_direct _ _ _ sum_symm _ _ (hp.map _) r r' h h')
  · have hn' : ∀ x ∈ rs', NodupKeys x := fun x hx => hn x (hp.mem_iff.2 hx)
    have hlen : (E.I.run (rs.flatMap Dict.keys)).length = (E'.I.run (rs'.flatMap Dict.keys)).length := by
      apply List.Perm.length_eq
      apply (List.perm_ext_iff_of_nodup (E.I.nodup _) (E'.I.nodup _)).2
      intro x
      rw [E.I.mem, E'.I.mem, flatMap_perm_mem hp]
    refine sortedCombine_congr E.S E'.S sumScore (bordaQuery E.I rs) (bordaQuery E'.I rs') r r' h h' ?_ ?_
    · intro d
      rw [flatMap_bordaQuery _ _ hn, flatMap_bordaQuery _ _ hn', flatMap_perm_mem hp]
    · intro d hd
      rw [flatMap_bordaQuery _ _ hn] at hd
      unfold sumScore bordaQuery
      rw [List.map_map, List.map_map]
      congr 1
      rw [← (hp.map _).sum_eq]
      congr 1
      apply List.map_congr_left
      intro x hx
      simp only [Function.comp_apply]
      rw [bordaScore_get? x (hn x hx) _ (E.I.nodup _) d (by rw [E.I.mem]; exact hd),
        bordaScore_get? x (hn x hx) _ (E'.I.nodup _) d (by rw [E'.I.mem, ← flatMap_perm_mem hp]; exact hd),
        hlen]

end

section
variable [LinearOrder κ] [DecidableEq δ]

theorem normQuery_perm (E E' : Env δ) (hS : E.S = E'.S) (norm : Option String) (hb : norm ≠ some "borda")
    (rs rs' : List (Results δ ℝ)) (hp : rs.Perm rs') : (normQuery E norm rs).Perm (normQuery E' norm rs') := by
  unfold normQuery
  cases norm with
  | none => exact hp
  | some n =>
    simp only
    rw [if_pos (fun h => hb (by rw [h])), if_pos (fun h => hb (by rw [h]))]
    cases normSwitch n with
    | error e => exact hp
    | ok k =>
      simp only
      rw [hS]
      exact hp.map _

/-- **C52** (for every normalization but borda; bordafuse for runs that list their queries in the same order):
permuting the runs does not change any fused score, nor which docs are present. Schedules and set iteration
orders of the two calls may differ; the sorting routine matters only for min-max-inverted, which sorts the
normalized runs. -/
theorem C52_symmetric_partial (E E' : Env δ) (hS : E.S = E'.S) (runs runs' : List (Store κ δ ℝ)) (hp : runs.Perm runs')
    (hw : ∀ s ∈ runs, Store.Wf s.data) (norm : Option String) (hb : norm ≠ some "borda")
    (name : String) (m : Method) (hname : (name, m) ∈ Spec.methodNames) (hm : m ∈ Spec.unweighted)
    (params : Option Kwargs) (hE : Spec.SchedulesCover E runs) (hE' : Spec.SchedulesCover E' runs')
    (ha : name = "bordafuse" → Spec.SameQueryOrder runs) (out out' : Store κ δ ℝ)
    (h : fuse E runs norm name params = .ok out) (h' : fuse E' runs' norm name params = .ok out') :
    (∀ q, q ∈ out.data.keys ↔ q ∈ out'.data.keys) ∧
    ∀ q d, (Spec.content out).read q d = (Spec.content out').read q d := by
  have hsw := fusionSwitch_known (name, m) hname
  simp only at hsw
  have hw' : ∀ s ∈ runs', Store.Wf s.data := fun s hs => hw s (hp.mem_iff.2 hs)
  have hub : Spec.UsesBorda norm name → Spec.SameQueryOrder runs := by
    rintro (h | h | h)
    · exact absurd h hb
    · exact ha h
    · subst h
      have : ∀ p ∈ Spec.methodNames, p.1 = "w_bordafuse" → p.2 ∉ Spec.unweighted := by decide +kernel
      exact absurd hm (this _ hname rfl)
  have hub' : Spec.UsesBorda norm name → Spec.SameQueryOrder runs' := fun hu s hs s' hs' =>
    hub hu s (hp.mem_iff.2 hs) s' (hp.mem_iff.2 hs')
  obtain ⟨m1, hm1, hL⟩ := fuse_local E runs hw norm name params hE hub out h
  obtain ⟨m2, hm2, hL'⟩ := fuse_local E' runs' hw' norm name params hE' hub' out' h'
  rw [hsw] at hm1 hm2
  cases hm1
  cases hm2
  have hpd : (runs.map (fun s => s.data)).Perm (runs'.map (fun s => s.data)) := hp.map _
  have hex : ∀ q, (∃ run ∈ runs.map (fun s => s.data), q ∈ run.keys) ↔
      ∃ run ∈ runs'.map (fun s => s.data), q ∈ run.keys := by
    intro q
    constructor
    · rintro ⟨r, hr, hq⟩; exact ⟨r, hpd.mem_iff.1 hr, hq⟩
    · rintro ⟨r, hr, hq⟩; exact ⟨r, hpd.mem_iff.2 hr, hq⟩
  have hqs : ∀ q, q ∈ out.data.keys ↔ q ∈ out'.data.keys := fun q => by
    rw [hL.queries, hL'.queries, hex]
  refine ⟨hqs, fun q d => ?_⟩
  have hf := fusable_of runs (fuse_ok h).1 hw (fuse_ok h).2.1
  by_cases hq : ∃ run ∈ runs.map (fun s => s.data), q ∈ run.keys
  · obtain ⟨r, hr1, hr2⟩ := hL.get q hq
    obtain ⟨r', hr1', hr2'⟩ := hL'.get q ((hex q).1 hq)
    have hnd : ∀ x ∈ resultsFor (runs.map (fun s => s.data)) q, NodupKeys x := by
      intro x hx
      obtain ⟨run, hr, rfl⟩ := List.mem_map.1 hx
      cases hg : run.get? q with
      | none => exact nodupKeys_nil
      | some r => exact hf.nodupD run hr (q, r) (mem_of_get? hg)
    have := perQuery_symm E E' m hm _ _ _
      (normQuery_perm E E' hS norm hb _ _ (show (resultsFor (runs.map (fun s => s.data)) q).Perm
        (resultsFor (runs'.map (fun s => s.data)) q) from hpd.map _))
      (normQuery_spec E norm _ hnd).1 r r' hr1 hr1'
    unfold Spec.Content.read Spec.content
    rw [hr2, hr2']
    exact this d
  · have h1 : q ∉ out.data.keys := fun hc => hq ((hL.queries q).1 hc)
    have h2 : q ∉ out'.data.keys := fun hc => h1 ((hqs q).2 hc)
    unfold Spec.Content.read Spec.content
    rw [get?_eq_none.2 h1, get?_eq_none.2 h2]

end

/-! ### weighted methods: permuting runs together with their weights -/

section
variable [LinearOrder κ] [DecidableEq δ]

theorem FusedBy.same_content [LE α] {runs runs' : List (Spec.RunData κ δ α)} {val val' : κ → δ → α}
    {out out' : Store κ δ α} (h : Spec.FusedBy runs val out) (h' : Spec.FusedBy runs' val' out')
    (hp : runs.Perm runs') (hv : ∀ q d, val q d = val' q d) :
    (∀ q, q ∈ out.data.keys ↔ q ∈ out'.data.keys) ∧
    ∀ q d, (Spec.content out).read q d = (Spec.content out').read q d := by
  have hin : ∀ q d, Spec.InSome runs q d ↔ Spec.InSome runs' q d := by
    intro q d
    constructor
    · rintro ⟨r, hr, h⟩; exact ⟨r, hp.mem_iff.1 hr, h⟩
    · rintro ⟨r, hr, h⟩; exact ⟨r, hp.mem_iff.2 hr, h⟩
  refine ⟨fun q => ?_, fun q d => ?_⟩
  · rw [h.queries, h'.queries]
    constructor
    · rintro ⟨r, hr, h⟩; exact ⟨r, hp.mem_iff.1 hr, h⟩
    · rintro ⟨r, hr, h⟩; exact ⟨r, hp.mem_iff.2 hr, h⟩
  · by_cases hi : Spec.InSome runs q d
    · rw [h.value q d hi, h'.value q d ((hin q d).1 hi), hv]
    · rw [not_not.1 (mt (h.docs q d).1 hi), not_not.1 (mt (h'.docs q d).1 (fun c => hi ((hin q d).2 c)))]

theorem zip_fst_snd {A B : Type*} (l : List (A × B)) : (l.map Prod.fst).zip (l.map Prod.snd) = l := by
  induction l with
  | nil => rfl
  | cons x t ih => rw [List.map_cons, List.map_cons, List.zip_cons_cons, ih]

/-- **C52** weighted methods: permuting the runs together with their weights changes no fused score. -/
theorem C52_weighted_symmetric (S S' : ArgSort ℝ) (sched sched' : List Nat)
    (p p' : List (Dict κ (Results δ ℝ) × ℝ)) (hp : p.Perm p')
    (hf : Spec.Fusable (p.map Prod.fst)) (hf' : Spec.Fusable (p'.map Prod.fst))
    (hs : Schedule (queryCount (p.map Prod.fst)) sched) (hs' : Schedule (queryCount (p'.map Prod.fst)) sched')
    (f : ArgSort ℝ → List Nat → List ℝ → List (Dict κ (Results δ ℝ)) → Except Err (Store κ δ ℝ))
    (hm : f = wsum ∨ f = wmnz ∨ f = mixed) :
    ∃ out out', f S sched (p.map Prod.snd) (p.map Prod.fst) = .ok out ∧
      f S' sched' (p'.map Prod.snd) (p'.map Prod.fst) = .ok out' ∧
      (∀ q, q ∈ out.data.keys ↔ q ∈ out'.data.keys) ∧
      ∀ q d, (Spec.content out).read q d = (Spec.content out').read q d := by
  have hl : (p.map Prod.fst).length ≤ (p.map Prod.snd).length := by simp
  have hl' : (p'.map Prod.fst).length ≤ (p'.map Prod.snd).length := by simp
  have hpf : (p.map Prod.fst).Perm (p'.map Prod.fst) := hp.map _
  have hw : ∀ q d, (Spec.weighted (p.map Prod.fst) (p.map Prod.snd) q d).Perm
      (Spec.weighted (p'.map Prod.fst) (p'.map Prod.snd) q d) := by
    intro q d
    unfold Spec.weighted
    rw [zip_fst_snd, zip_fst_snd]
    exact hp.filterMap _
  rcases hm with rfl | rfl | rfl
  · obtain ⟨out, h1, h2⟩ := C49_wsum S sched _ _ hf hl hs
    obtain ⟨out', h1', h2'⟩ := C49_wsum S' sched' _ _ hf' hl' hs'
    exact ⟨out, out', h1, h1', FusedBy.same_content h2 h2' hpf (fun q d => ((hw q d).map _).sum_eq)⟩
  · obtain ⟨out, h1, h2⟩ := C49_wmnz S sched _ _ hf hl hs
    obtain ⟨out', h1', h2'⟩ := C49_wmnz S' sched' _ _ hf' hl' hs'
    exact ⟨out, out', h1, h1', FusedBy.same_content h2 h2' hpf (fun q d => by
      rw [((hw q d).map _).sum_eq, ((hw q d).map _).sum_eq])⟩
  · obtain ⟨out, h1, h2⟩ := C49_mixed S sched _ _ hf hl hs
    obtain ⟨out', h1', h2'⟩ := C49_mixed S' sched' _ _ hf' hl' hs'
    refine ⟨out, out', h1, h1', FusedBy.same_content h2 h2' hpf (fun q d => ?_)⟩
    have : (Spec.scores (p.map Prod.fst) q d).Perm (Spec.scores (p'.map Prod.fst) q d) := hpf.filterMap _
    rw [((hw q d).map _).sum_eq, this.length_eq]

end

/-- `C52_symmetric_partial` applies to swapping the two example runs -/
example : (∃ out out', fuse exEnv [fuseStore1, fuseStore2] none "sum" = .ok out ∧
    fuse exEnv [fuseStore2, fuseStore1] none "sum" = .ok out' ∧
    ∀ q d, (Spec.content out).read q d = (Spec.content out').read q d) := by
  have hp : [fuseStore1, fuseStore2].Perm [fuseStore2, fuseStore1] := List.Perm.swap _ _ _
  have hw' : ∀ s ∈ [fuseStore2, fuseStore1], Store.Wf s.data := fun s hs => fuseStore_wf s (hp.mem_iff.2 hs)
  have hsm' : Spec.SameQueries [fuseStore2, fuseStore1] := fun s hs s' hs' =>
    fuseStore_same s (hp.mem_iff.2 hs) s' (hp.mem_iff.2 hs')
  have two : Schedule 2 [1, 0] := by unfold Schedule; decide
  have two' : Schedule 2 [0, 1] := by unfold Schedule; decide
  have hlen : ∀ (j : Nat) s, [fuseStore2, fuseStore1][j]? = some s → s.data.length = 2 := by
    intro j s hj
    have := List.mem_of_getElem? hj
    simp only [List.mem_cons, List.not_mem_nil, or_false] at this
    rcases this with rfl | rfl <;> rfl
  have hc' : Spec.SchedulesCover exEnv [fuseStore2, fuseStore1] := by
    constructor
    · intro s hs
      rw [hlen 0 s hs]; exact two
    · intro j s hs
      rw [hlen j s hs]; exact two'
    · intro j s hs
      rw [hlen j s hs]; exact two
  obtain ⟨out, h, _⟩ := C49_comb_sum (.stable ℝ) [1, 0]
    ([fuseStore1, fuseStore2].map (fun s : Store Nat Nat ℝ => s.data))
    (fusable_of _ (by decide) fuseStore_wf fuseStore_same) (exEnv_cover.fusion fuseStore1 rfl)
  obtain ⟨out', h', _⟩ := C49_comb_sum (.stable ℝ) [1, 0]
    ([fuseStore2, fuseStore1].map (fun s : Store Nat Nat ℝ => s.data))
    (fusable_of _ (by decide) hw' hsm') (hc'.fusion fuseStore2 rfl)
  have e : fuse exEnv [fuseStore1, fuseStore2] none "sum" = .ok out := by
    rw [(C61_dispatch exEnv _ (by decide) fuseStore_same "sum" .combSum (by decide +kernel) none).1]
    exact h
  have e' : fuse exEnv [fuseStore2, fuseStore1] none "sum" = .ok out' := by
    rw [(C61_dispatch exEnv _ (by decide) hsm' "sum" .combSum (by decide +kernel) none).1]
    exact h'
  exact ⟨out, out', e, e', (C52_symmetric_partial exEnv exEnv rfl _ _ hp fuseStore_wf none (by simp) "sum" .combSum
    (by decide +kernel) (by decide) none exEnv_cover hc' (by intro h; exact absurd h (by decide +kernel)) out out' e e').2⟩

/-- **C52 refuted for bordafuse on runs with differently ordered queries**: swapping the two runs changes the
fused score of doc 20 for query 1 (a doc no run has for that query). -/
theorem C52_bordafuse_misaligned :
    ∃ (r1 r2 : Dict Nat (Results Nat ℚ)), Spec.Fusable [r1, r2] ∧
      readOut (bordafuse (.stable ℚ) [0, 1] (fun _ => [0, 1]) dedupIter [r1, r2]) 1 20 = some (1 / 2) ∧
      readOut (bordafuse (.stable ℚ) [0, 1] (fun _ => [0, 1]) dedupIter [r2, r1]) 1 20 = some 0 :=
  ⟨[(1, [(10, 5), (11, 4), (12, 3)]), (2, [(20, 1)])], [(2, [(21, 3)]), (1, [(12, 6), (10, 2)])],
    ⟨by decide, by unfold NodupKeys; decide, by unfold NodupKeys; decide, by decide⟩, by decide +kernel, by decide +kernel⟩

end Ranx
