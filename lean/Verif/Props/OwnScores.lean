import Verif.Props.SilentRun

/-!
# Property C165: the fused score of a doc depends only on what the runs say about that doc

With the methods based on scores, two lists of runs that give a doc the same scores give it the same fused score,
whatever other docs they retrieved; with the methods based on ranks, two lists of runs that list the doc at the same ranks.
-/

set_option linter.unusedSectionVars false

namespace Ranx
open Dict Store Metrics Eval Fuse Opt
open _root_.Ranx.Norm (Kind SetIter Results)

section
variable {δ : Type} [DecidableEq δ]

namespace Fuse

/-- the score of a doc is computed from the list of its own scores -/
def OwnScore (score : Score δ ℝ) : Prop :=
  ∀ d, ∃ G : List (Option ℝ) → Except Err ℝ, ∀ rs, score rs d = G (rs.map (fun r => r.get? d))

theorem sum_own : OwnScore (δ := δ) sumScore := fun d =>
  ⟨fun l => .ok (l.map (fun x => x.getD 0)).sum, fun rs => by unfold sumScore; beta_reduce; rw [List.map_map]; rfl⟩

theorem present_own (rs : List (Results δ ℝ)) (d : δ) : present rs d = (rs.map (fun r => r.get? d)).filterMap id := by
  unfold present
  rw [List.filterMap_map]
  rfl

theorem anz_own : OwnScore (δ := δ) anzScore := fun d =>
  ⟨fun l => .ok ((l.filterMap id).sum / ((l.filterMap id).length : ℝ)), fun rs => by
    unfold anzScore; simp only [present_own]⟩

theorem mnz_own : OwnScore (δ := δ) mnzScore := fun d =>
  ⟨fun l => .ok ((l.filterMap id).sum * ((l.filterMap id).length : ℝ)), fun rs => by
    unfold mnzScore; simp only [present_own]⟩

theorem med_own : OwnScore (δ := δ) medScore := fun d =>
  ⟨fun l => .ok (median (l.filterMap id)), fun rs => by unfold medScore; rw [present_own]⟩

theorem gmnz_own (g : ℝ) : OwnScore (δ := δ) (gmnzScore g) := fun d =>
  ⟨fun l => .ok ((l.filterMap id).sum * ((l.filterMap id).length : ℝ) ^ g), fun rs => by
    unfold gmnzScore; simp only [present_own]⟩

theorem logMnz_own : OwnScore (δ := δ) logMnzScore := fun d =>
  ⟨fun l => .ok ((l.filterMap id).sum * Real.log ((l.filterMap id).length : ℝ)), fun rs => by
    unfold logMnzScore; simp only [present_own]⟩

theorem lognMnz_own (s : ℝ) : OwnScore (δ := δ) (lognMnzScore s) := fun d =>
  ⟨fun l => .ok ((l.filterMap id).sum * Real.log (((l.filterMap id).length : ℝ) + s)), fun rs => by
    unfold lognMnzScore; simp only [present_own]⟩

theorem min_own : OwnScore (δ := δ) minScore := fun d =>
  ⟨fun l => match l.map (fun x => x.getD (10 ^ 9)) with
    | [] => .error .valueError
    | x :: t => .ok (t.foldl min x), fun rs => by
      unfold minScore; beta_reduce; rw [List.map_map]
      simp only [Function.comp_def]
      cases rs.map (fun res => (res.get? d).getD (10 ^ 9)) <;> rfl⟩

theorem max_own : OwnScore (δ := δ) maxScore := fun d =>
  ⟨fun l => match l.map (fun x => x.getD (-(10 ^ 9))) with
    | [] => .error .valueError
    | x :: t => .ok (t.foldl max x), fun rs => by
      unfold maxScore; beta_reduce; rw [List.map_map]
      simp only [Function.comp_def]
      cases rs.map (fun res => (res.get? d).getD (-(10 ^ 9))) <;> rfl⟩

theorem zipIdx_own (rs : List (Results δ ℝ)) (d : δ) :
    (rs.map (fun r => r.get? d)).zipIdx = rs.zipIdx.map (fun p => (p.1.get? d, p.2)) := by
  rw [List.zipIdx_map]
  rfl

theorem wsum_own (ws : List ℝ) : OwnScore (δ := δ) (wsumScore ws) := fun d =>
  ⟨fun l => match Eval.collect (l.zipIdx.map (fun ri => (weightAt ws ri.2).map (fun w => w * ri.1.getD 0))) with
    | .error e => .error e
    | .ok l => .ok l.sum, fun rs => by
      unfold wsumScore; beta_reduce; rw [zipIdx_own, List.map_map]
      simp only [Function.comp_def]
      cases Eval.collect (rs.zipIdx.map (fun ri => (weightAt ws ri.2).map (fun w => w * (ri.1.get? d).getD 0))) <;> rfl⟩

theorem presentWeighted_own (ws : List ℝ) (rs : List (Results δ ℝ)) (d : δ) : presentWeighted ws rs d =
    Eval.collect ((rs.map (fun r => r.get? d)).zipIdx.filterMap (fun ri =>
      ri.1.map (fun s => (weightAt ws ri.2).map (fun w => (s, w))))) := by
  unfold presentWeighted
  rw [zipIdx_own, List.filterMap_map]
  rfl

theorem wmnz_own (ws : List ℝ) : OwnScore (δ := δ) (wmnzScore ws) := fun d =>
  ⟨fun l => match Eval.collect (l.zipIdx.filterMap (fun ri =>
      ri.1.map (fun s => (weightAt ws ri.2).map (fun w => (s, w))))) with
    | .error e => .error e
    | .ok l => .ok ((l.map Prod.fst).sum * (l.map Prod.snd).sum), fun rs => by
      unfold wmnzScore; rw [presentWeighted_own]; beta_reduce
      cases Eval.collect ((rs.map (fun r => r.get? d)).zipIdx.filterMap (fun ri =>
        ri.1.map (fun s => (weightAt ws ri.2).map (fun w => (s, w))))) <;> rfl⟩

theorem mixed_own (ws : List ℝ) : OwnScore (δ := δ) (mixedScore ws) := fun d =>
  ⟨fun l => match Eval.collect (l.zipIdx.filterMap (fun ri =>
      ri.1.map (fun s => (weightAt ws ri.2).map (fun w => (s, w))))) with
    | .error e => .error e
    | .ok l => .ok ((l.map (fun p => p.1 * p.2)).sum * Real.sqrt (l.length : ℝ)), fun rs => by
      unfold mixedScore; rw [presentWeighted_own]; beta_reduce
      cases Eval.collect ((rs.map (fun r => r.get? d)).zipIdx.filterMap (fun ri =>
        ri.1.map (fun s => (weightAt ws ri.2).map (fun w => (s, w))))) <;> rfl⟩

theorem sortedCombine_own (S S' : ArgSort ℝ) (score : Score δ ℝ) (hs : OwnScore score) (rs rs' : List (Results δ ℝ))
    (d : δ) (he : rs.map (fun r => r.get? d) = rs'.map (fun r => r.get? d)) (r r' : Results δ ℝ)
    (h : sortedCombine S score rs = .ok r) (h' : sortedCombine S' score rs' = .ok r') : r.get? d = r'.get? d := by
  obtain ⟨a1, a2⟩ := sortedCombine_get? S score rs r h
  obtain ⟨b1, b2⟩ := sortedCombine_get? S' score rs' r' h'
  have hk : ∀ l : List (Results δ ℝ), d ∈ l.flatMap Dict.keys ↔ ∃ x ∈ l.map (fun r => r.get? d), x.isSome = true := by
    intro l
    rw [List.mem_flatMap]
    constructor
    · rintro ⟨x, hx, hd⟩
      exact ⟨_, List.mem_map.2 ⟨x, hx, rfl⟩, get?_isSome.2 hd⟩
    · rintro ⟨o, ho, hs⟩
      obtain ⟨x, hx, rfl⟩ := List.mem_map.1 ho
      exact ⟨x, hx, get?_isSome.1 hs⟩
  have hmem : d ∈ r.keys ↔ d ∈ r'.keys := by rw [a2, b2, hk, hk, he]
  obtain ⟨G, hG⟩ := hs d
  cases hr : r.get? d with
  | none =>
    cases hr' : r'.get? d with
    | none => rfl
    | some v' =>
      have : d ∈ r.keys := hmem.2 (get?_isSome.1 (by rw [hr']; rfl))
      have := get?_isSome.2 this
      rw [hr] at this
      cases this
  | some v =>
    cases hr' : r'.get? d with
    | none =>
      have : d ∈ r'.keys := hmem.1 (get?_isSome.1 (by rw [hr]; rfl))
      have := get?_isSome.2 this
      rw [hr'] at this
      cases this
    | some v' =>
      have e1 := a1 d v hr
      have e2 := b1 d v' hr'
      rw [hG] at e1 e2
      rw [he, e2] at e1
      rw [Except.ok.inj e1]

/-- rank based rescoring, seen from one doc -/
theorem map_rank_own (f : Nat → ℝ) (rs rs' : List (Results δ ℝ)) (hn : ∀ r ∈ rs, NodupKeys r)
    (hn' : ∀ r ∈ rs', NodupKeys r) (d : δ)
    (he : rs.map (fun r => r.keys.idxOf? d) = rs'.map (fun r => r.keys.idxOf? d)) :
    (rs.map (rankLoop (fun i _ => f i))).map (fun r => r.get? d) =
      (rs'.map (rankLoop (fun i _ => f i))).map (fun r => r.get? d) := by
  have key : ∀ l : List (Results δ ℝ), (∀ r ∈ l, NodupKeys r) →
      (l.map (rankLoop (fun i _ => f i))).map (fun r => r.get? d) =
        (l.map (fun r => r.keys.idxOf? d)).map (fun o => o.map f) := by
    intro l hl
    rw [List.map_map, List.map_map]
    refine List.map_congr_left fun r hr => ?_
    exact get?_rankLoop _ r (hl r hr) d
  rw [key rs hn, key rs' hn', he]

theorem zip_rank_own {π : Type*} (f : π → Nat → ℝ) (ps : List π) (rs rs' : List (Results δ ℝ))
    (hn : ∀ r ∈ rs, NodupKeys r) (hn' : ∀ r ∈ rs', NodupKeys r) (d : δ)
    (he : rs.map (fun r => r.keys.idxOf? d) = rs'.map (fun r => r.keys.idxOf? d)) :
    ((rs.zip ps).map (fun rp => rankLoop (fun i _ => f rp.2 i) rp.1)).map (fun r => r.get? d) =
      ((rs'.zip ps).map (fun rp => rankLoop (fun i _ => f rp.2 i) rp.1)).map (fun r => r.get? d) := by
  have key : ∀ l : List (Results δ ℝ), (∀ r ∈ l, NodupKeys r) →
      ((l.zip ps).map (fun rp => rankLoop (fun i _ => f rp.2 i) rp.1)).map (fun r => r.get? d) =
        ((l.map (fun r => r.keys.idxOf? d)).zip ps).map (fun op => op.1.map (f op.2)) := by
    intro l hl
    rw [List.zip_map_left, List.map_map, List.map_map]
    refine List.map_congr_left fun rp hr => ?_
    exact get?_rankLoop _ rp.1 (hl _ (List.of_mem_zip hr).1) d
  rw [key rs hn, key rs' hn', he]

theorem zipCombine_own {π : Type*} (S S' : ArgSort ℝ) (f : π → Nat → ℝ) (ps : List π) (rs rs' : List (Results δ ℝ))
    (hn : ∀ r ∈ rs, NodupKeys r) (hn' : ∀ r ∈ rs', NodupKeys r) (d : δ)
    (he : rs.map (fun r => r.keys.idxOf? d) = rs'.map (fun r => r.keys.idxOf? d)) (r r' : Results δ ℝ)
    (h : zipCombine S (fun p => rankLoop (fun i _ => f p i)) ps sumScore rs = .ok r)
    (h' : zipCombine S' (fun p => rankLoop (fun i _ => f p i)) ps sumScore rs' = .ok r') : r.get? d = r'.get? d := by
  unfold zipCombine at h h'
  split at h
  · split at h'
    · exact sortedCombine_own S S' sumScore sum_own _ _ d (zip_rank_own f ps rs rs' hn hn' d he) r r' h h'
    · cases h'
  · cases h

end Fuse

variable {κ : Type} [LinearOrder κ]

/-- Specification: run by run, the two lists give the doc the same score for the query, or both do not retrieve it. -/
def Spec.SameScoresFor (runs runs' : List (Store κ δ ℝ)) (q : κ) (d : δ) : Prop :=
  List.Forall₂ (fun s s' => (Spec.content s).read q d = (Spec.content s').read q d) runs runs'

/-- Specification: the docs of a query, in the order in which the run lists them. -/
def Spec.listed (s : Store κ δ ℝ) (q : κ) : List δ := ((s.data.get? q).getD []).keys

/-- Specification: run by run, the two lists have the doc at the same place of the query's docs, or both do not retrieve it. -/
def Spec.SamePlacesFor (runs runs' : List (Store κ δ ℝ)) (q : κ) (d : δ) : Prop :=
  List.Forall₂ (fun s s' => (Spec.listed s q).idxOf? d = (Spec.listed s' q).idxOf? d) runs runs'

/-- Specification: the methods that combine the scores. -/
def Spec.ScoreMethod (method : String) : Prop :=
  method ∈ ["anz", "gmnz", "max", "med", "min", "mnz", "sum", "wsum", "wmnz", "mixed"]

/-- Specification: the methods that combine the ranks. -/
def Spec.PlaceMethod (method : String) : Prop :=
  method ∈ ["isr", "log_isr", "logn_isr", "rbc", "rrf", "mapfuse", "posfuse"]

theorem read_resultsFor (runs : List (Store κ δ ℝ)) (q : κ) (d : δ) :
    (resultsFor (runs.map (fun s => s.data)) q).map (fun r => r.get? d) =
      runs.map (fun s => (Spec.content s).read q d) := by
  unfold resultsFor
  rw [List.map_map, List.map_map]
  refine List.map_congr_left fun s _ => ?_
  simp only [Function.comp_apply]
  rw [read_score?]
  unfold Spec.score?
  cases s.data.get? q <;> rfl

theorem listed_resultsFor (runs : List (Store κ δ ℝ)) (q : κ) (d : δ) :
    (resultsFor (runs.map (fun s => s.data)) q).map (fun r => r.keys.idxOf? d) =
      runs.map (fun s => (Spec.listed s q).idxOf? d) := by
  unfold resultsFor
  rw [List.map_map, List.map_map]
  rfl

theorem nodup_resultsFor (runs : List (Store κ δ ℝ)) (hw : ∀ s ∈ runs, Store.Wf s.data) (q : κ) :
    ∀ r ∈ resultsFor (runs.map (fun s => s.data)) q, NodupKeys r := by
  intro r hr
  unfold resultsFor at hr
  obtain ⟨x, hx, rfl⟩ := List.mem_map.1 hr
  obtain ⟨s, hs, rfl⟩ := List.mem_map.1 hx
  cases hg : s.data.get? q with
  | none => exact List.nodup_nil
  | some r => exact (hw s hs).2 _ (mem_of_get? hg)

theorem forall₂_map_eq {A B : Type*} (f : A → B) : ∀ {l l' : List A}, List.Forall₂ (fun a b => f a = f b) l l' →
    l.map f = l'.map f
  | _, _, .nil => rfl
  | _, _, .cons h t => by rw [List.map_cons, List.map_cons, h, forall₂_map_eq f t]

theorem map_eq_forall₂ {A B : Type*} (f : A → B) : ∀ {l l' : List A}, l.map f = l'.map f →
    List.Forall₂ (fun a b => f a = f b) l l'
  | [], [], _ => .nil
  | a :: l, b :: l', h => by
    rw [List.map_cons, List.map_cons, List.cons.injEq] at h
    exact .cons h.1 (map_eq_forall₂ f h.2)
  | [], _ :: _, h => by cases h
  | _ :: _, [], h => by cases h

theorem listed_none {s : Store κ δ ℝ} {q : κ} {d : δ} :
    (Spec.content s).read q d = none ↔ (Spec.listed s q).idxOf? d = none := by
  rw [read_score?]
  unfold Spec.score? Spec.listed
  rw [List.idxOf?_eq_none_iff]
  cases s.data.get? q with
  | none => exact ⟨fun _ => List.not_mem_nil, fun _ => rfl⟩
  | some r =>
    change r.get? d = none ↔ d ∉ r.keys
    constructor
    · intro h hd
      have := get?_isSome.2 hd
      rw [h] at this
      cases this
    · intro h
      cases hg : r.get? d with
      | none => rfl
      | some v => exact absurd (get?_isSome.1 (by rw [hg]; rfl)) h

/-- both calls of `fuse`, seen from one doc of one query -/
theorem fused_doc (E E' : Env δ) (runs runs' : List (Store κ δ ℝ)) (hw : ∀ s ∈ runs, Store.Wf s.data)
    (hw' : ∀ s ∈ runs', Store.Wf s.data) (method : String) (hm : method ≠ "bordafuse" ∧ method ≠ "w_bordafuse")
    (params : Option Kwargs) (hE : Spec.SchedulesCover E runs) (hE' : Spec.SchedulesCover E' runs')
    (out out' : Store κ δ ℝ) (h : fuse E runs none method params = .ok out)
    (h' : fuse E' runs' none method params = .ok out') (q : κ) (d : δ)
    (hnone : List.Forall₂ (fun s s' => (Spec.content s).read q d = none ↔ (Spec.content s').read q d = none) runs runs')
    (H : ∀ m r r', fusionSwitch method = .ok m →
      perQuery E m (params.getD []) (resultsFor (runs.map (fun s => s.data)) q) = .ok r →
      perQuery E' m (params.getD []) (resultsFor (runs'.map (fun s => s.data)) q) = .ok r' → r.get? d = r'.get? d) :
    (Spec.content out).read q d = (Spec.content out').read q d := by
  have hb : ¬ Spec.UsesBorda none method := by
    rintro (h | h | h)
    · cases h
    · exact hm.1 h
    · exact hm.2 h
  have u := (C48_fuse_union_partial E runs hw none method params hE (fun x => absurd x hb) out h).2 q d
  have u' := (C48_fuse_union_partial E' runs' hw' none method params hE' (fun x => absurd x hb) out' h').2 q d
  have hex : (∃ s ∈ runs, (Spec.content s).read q d ≠ none) ↔ ∃ s ∈ runs', (Spec.content s).read q d ≠ none := by
    clear u u' h h' hE hE' hw hw' H
    induction hnone with
    | nil => simp
    | cons hh _ ih => simp only [List.mem_cons, exists_eq_or_imp, ih, ne_eq, hh]
  by_cases hin : ∃ s ∈ runs, (Spec.content s).read q d ≠ none
  · have key : ∀ l : List (Store κ δ ℝ), (∃ s ∈ l, (Spec.content s).read q d ≠ none) →
        ∃ run ∈ l.map (fun s => s.data), q ∈ run.keys := by
      rintro l ⟨s, hs, hr⟩
      refine ⟨s.data, List.mem_map.2 ⟨s, hs, rfl⟩, ?_⟩
      by_contra hc
      apply hr
      rw [read_score?]
      unfold Spec.score?
      have : s.data.get? q = none := by
        cases hg : s.data.get? q with
        | none => rfl
        | some r => exact absurd (get?_isSome.1 (by rw [hg]; rfl)) hc
      rw [this]
      rfl
    obtain ⟨m, hm1, hL⟩ := fuse_local E runs hw none method params hE (fun x => absurd x hb) out h
    obtain ⟨m', hm2, hL'⟩ := fuse_local E' runs' hw' none method params hE' (fun x => absurd x hb) out' h'
    rw [hm1] at hm2
    cases hm2
    obtain ⟨r, g1, g2⟩ := hL.get q (key runs hin)
    obtain ⟨r', g1', g2'⟩ := hL'.get q (key runs' (hex.1 hin))
    have e := H m r r' hm1 g1 g1'
    rw [read_score?, read_score?]
    unfold Spec.score?
    rw [g2, g2']
    exact e
  · have n1 : (Spec.content out).read q d = none := by
      by_contra hc; exact hin (u.1 hc)
    have n2 : (Spec.content out').read q d = none := by
      by_contra hc; exact hin (hex.2 (u'.1 hc))
    rw [n1, n2]

/-- **C165** (methods that combine scores): if two lists of runs agree on the scores of a doc, they agree on its fused
score, whatever they say about the other docs. -/
theorem C165_own_scores (E E' : Env δ) (runs runs' : List (Store κ δ ℝ)) (hw : ∀ s ∈ runs, Store.Wf s.data)
    (hw' : ∀ s ∈ runs', Store.Wf s.data) (method : String) (hm : Spec.ScoreMethod method)
    (params : Option Kwargs) (hE : Spec.SchedulesCover E runs) (hE' : Spec.SchedulesCover E' runs')
    (out out' : Store κ δ ℝ) (h : fuse E runs none method params = .ok out)
    (h' : fuse E' runs' none method params = .ok out') (q : κ) (d : δ) (hd : Spec.SameScoresFor runs runs' q d) :
    (Spec.content out).read q d = (Spec.content out').read q d := by
  have hmem : method ≠ "bordafuse" ∧ method ≠ "w_bordafuse" := by
    have : ∀ n ∈ ["anz", "gmnz", "max", "med", "min", "mnz", "sum", "wsum", "wmnz", "mixed"],
        n ≠ "bordafuse" ∧ n ≠ "w_bordafuse" := by decide +kernel
    exact this _ hm
  refine fused_doc E E' runs runs' hw hw' method hmem params hE hE' out out' h h' q d
    (hd.imp fun _ _ e => by rw [e]) ?_
  intro m r r' hsw g g'
  have hm' : m ∈ [Method.combAnz, .combGmnz, .combMax, .combMed, .combMin, .combMnz, .combSum, .wsum, .wmnz, .mixed] := by
    have : ∀ n ∈ ["anz", "gmnz", "max", "med", "min", "mnz", "sum", "wsum", "wmnz", "mixed"],
        ∃ m ∈ [Method.combAnz, .combGmnz, .combMax, .combMed, .combMin, .combMnz, .combSum, .wsum, .wmnz, .mixed],
          fusionSwitch n = .ok m := by decide +kernel
    obtain ⟨m', h1, h2⟩ := this _ hm
    rw [h2] at hsw
    cases hsw
    exact h1
  have he : (resultsFor (runs.map (fun s => s.data)) q).map (fun r => r.get? d) =
      (resultsFor (runs'.map (fun s => s.data)) q).map (fun r => r.get? d) := by
    rw [read_resultsFor, read_resultsFor]
    exact forall₂_map_eq _ hd
  simp only [List.mem_cons, List.not_mem_nil, or_false] at hm'
  rcases hm' with rfl | rfl | rfl | rfl | rfl | rfl | rfl | rfl | rfl | rfl
  · exact sortedCombine_own E.S E'.S _ anz_own _ _ d he r r' g g'
  · obtain ⟨x, e1, e2⟩ := bindArg_ok g
    obtain ⟨x', e1', e2'⟩ := bindArg_ok g'
    cases e1.symm.trans e1'
    exact sortedCombine_own E.S E'.S _ (gmnz_own x) _ _ d he r r' e2 e2'
  · exact sortedCombine_own E.S E'.S _ max_own _ _ d he r r' g g'
  · exact sortedCombine_own E.S E'.S _ med_own _ _ d he r r' g g'
  · exact sortedCombine_own E.S E'.S _ min_own _ _ d he r r' g g'
  · exact sortedCombine_own E.S E'.S _ mnz_own _ _ d he r r' g g'
  · exact sortedCombine_own E.S E'.S _ sum_own _ _ d he r r' g g'
  · obtain ⟨x, e1, e2⟩ := bindArg_ok g
    obtain ⟨x', e1', e2'⟩ := bindArg_ok g'
    cases e1.symm.trans e1'
    exact sortedCombine_own E.S E'.S _ (wsum_own x) _ _ d he r r' e2 e2'
  · obtain ⟨x, e1, e2⟩ := bindArg_ok g
    obtain ⟨x', e1', e2'⟩ := bindArg_ok g'
    cases e1.symm.trans e1'
    exact sortedCombine_own E.S E'.S _ (wmnz_own x) _ _ d he r r' e2 e2'
  · obtain ⟨x, e1, e2⟩ := bindArg_ok g
    obtain ⟨x', e1', e2'⟩ := bindArg_ok g'
    cases e1.symm.trans e1'
    exact sortedCombine_own E.S E'.S _ (mixed_own x) _ _ d he r r' e2 e2'

/-- **C165** (methods that combine ranks): if two lists of runs list a doc at the same ranks, they agree on its fused
score, whatever the scores and whatever the other docs. -/
theorem C165_own_ranks (E E' : Env δ) (runs runs' : List (Store κ δ ℝ)) (hw : ∀ s ∈ runs, Store.Wf s.data)
    (hw' : ∀ s ∈ runs', Store.Wf s.data) (method : String) (hm : Spec.PlaceMethod method)
    (params : Option Kwargs) (hE : Spec.SchedulesCover E runs) (hE' : Spec.SchedulesCover E' runs')
    (out out' : Store κ δ ℝ) (h : fuse E runs none method params = .ok out)
    (h' : fuse E' runs' none method params = .ok out') (q : κ) (d : δ) (hd : Spec.SamePlacesFor runs runs' q d) :
    (Spec.content out).read q d = (Spec.content out').read q d := by
  have hmem : method ≠ "bordafuse" ∧ method ≠ "w_bordafuse" := by
    have : ∀ n ∈ ["isr", "log_isr", "logn_isr", "rbc", "rrf", "mapfuse", "posfuse"],
        n ≠ "bordafuse" ∧ n ≠ "w_bordafuse" := by decide +kernel
    exact this _ hm
  refine fused_doc E E' runs runs' hw hw' method hmem params hE hE' out out' h h' q d
    (hd.imp fun _ _ e => by rw [listed_none, listed_none, e]) ?_
  intro m r r' hsw g g'
  have hm' : m ∈ [Method.isr, .logIsr, .lognIsr, .rbc, .rrf, .mapfuse, .posfuse] := by
    have : ∀ n ∈ ["isr", "log_isr", "logn_isr", "rbc", "rrf", "mapfuse", "posfuse"],
        ∃ m ∈ [Method.isr, .logIsr, .lognIsr, .rbc, .rrf, .mapfuse, .posfuse],
          fusionSwitch n = .ok m := by decide +kernel
    obtain ⟨m', h1, h2⟩ := this _ hm
    rw [h2] at hsw
    cases hsw
    exact h1
  have he : (resultsFor (runs.map (fun s => s.data)) q).map (fun r => r.keys.idxOf? d) =
      (resultsFor (runs'.map (fun s => s.data)) q).map (fun r => r.keys.idxOf? d) := by
    rw [listed_resultsFor, listed_resultsFor]
    exact forall₂_map_eq _ hd
  have hn := nodup_resultsFor runs hw q
  have hn' := nodup_resultsFor runs' hw' q
  simp only [List.mem_cons, List.not_mem_nil, or_false] at hm'
  rcases hm' with rfl | rfl | rfl | rfl | rfl | rfl | rfl
  · exact sortedCombine_own E.S E'.S _ mnz_own _ _ d (map_rank_own _ _ _ hn hn' d he) r r' g g'
  · exact sortedCombine_own E.S E'.S _ logMnz_own _ _ d (map_rank_own _ _ _ hn hn' d he) r r' g g'
  · obtain ⟨x, e1, e2⟩ := bindArg_ok g
    obtain ⟨x', e1', e2'⟩ := bindArg_ok g'
    cases e1.symm.trans e1'
    exact sortedCombine_own E.S E'.S _ (lognMnz_own x) _ _ d (map_rank_own _ _ _ hn hn' d he) r r' e2 e2'
  · obtain ⟨x, e1, e2⟩ := bindArg_ok g
    obtain ⟨x', e1', e2'⟩ := bindArg_ok g'
    cases e1.symm.trans e1'
    exact sortedCombine_own E.S E'.S _ sum_own _ _ d (map_rank_own _ _ _ hn hn' d he) r r' e2 e2'
  · obtain ⟨x, e1, e2⟩ := bindArg_ok g
    obtain ⟨x', e1', e2'⟩ := bindArg_ok g'
    cases e1.symm.trans e1'
    exact sortedCombine_own E.S E'.S _ sum_own _ _ d (map_rank_own _ _ _ hn hn' d he) r r' e2 e2'
  · obtain ⟨x, e1, e2⟩ := bindArg_ok g
    obtain ⟨x', e1', e2'⟩ := bindArg_ok g'
    cases e1.symm.trans e1'
    exact zipCombine_own E.S E'.S (fun (p : ℝ) i => p / ((i : ℝ) + 1)) x _ _ hn hn' d he r r' e2 e2'
  · obtain ⟨x, e1, e2⟩ := bindArg_ok g
    obtain ⟨x', e1', e2'⟩ := bindArg_ok g'
    cases e1.symm.trans e1'
    exact zipCombine_own E.S E'.S (fun (p : List ℝ) i => if i < p.length then (p[i]?).getD 0 else 0) x _ _ hn hn' d he
      r r' e2 e2'

end

/-! ### the theorems are not vacuous: the first run loses doc 11, which leaves doc 10 alone -/

def lessStore : Store Nat Nat ℝ := ⟨[(1, [(10, 5)]), (2, [(20, 1)])], true⟩

theorem lessStores_wf : ∀ s ∈ [lessStore, fuseStore2], Store.Wf s.data := by
  intro s hs
  simp only [List.mem_cons, List.not_mem_nil, or_false] at hs
  rcases hs with rfl | rfl
  · exact ⟨by unfold NodupKeys lessStore; decide, by unfold lessStore NodupKeys; simp⟩
  · exact fuseStore_wf _ (by simp)

theorem lessStores_same : Spec.SameQueries [lessStore, fuseStore2] := by
  have h1 : lessStore.data.keys = [1, 2] := rfl
  have h2 : fuseStore2.data.keys = [2, 1] := rfl
  intro s hs s' hs' q hq
  simp only [List.mem_cons, List.not_mem_nil, or_false] at hs hs'
  rcases hs with rfl | rfl <;> rcases hs' with rfl | rfl <;> simp only [h1, h2] at hq ⊢ <;>
    simp at hq ⊢ <;> tauto

theorem lessEnv_cover : Spec.SchedulesCover exEnv [lessStore, fuseStore2] := by
  have two : Schedule 2 [1, 0] := by unfold Schedule; decide
  have two' : Schedule 2 [0, 1] := by unfold Schedule; decide
  have hlen : ∀ (j : Nat) s, [lessStore, fuseStore2][j]? = some s → s.data.length = 2 := by
    intro j s hj
    have := List.mem_of_getElem? hj
    simp only [List.mem_cons, List.not_mem_nil, or_false] at this
    rcases this with rfl | rfl <;> rfl
  constructor
  · intro s hs
    rw [hlen 0 s hs]; exact two
  · intro j s hs
    rw [hlen j s hs]; exact two'
  · intro j s hs
    rw [hlen j s hs]; exact two

theorem lessFuse_ok : ∃ out, fuse exEnv [lessStore, fuseStore2] none "sum" = .ok out := by
  rw [(C61_dispatch exEnv _ (by decide) lessStores_same "sum" .combSum (by decide +kernel) none).1]
  obtain ⟨out, h, _⟩ := C49_comb_sum (.stable ℝ) [1, 0]
    ([lessStore, fuseStore2].map (fun s : Store Nat Nat ℝ => s.data))
    (fusable_of _ (by decide) lessStores_wf lessStores_same) (lessEnv_cover.fusion lessStore rfl)
  exact ⟨out, h⟩

theorem less_scores : Spec.SameScoresFor [fuseStore1, fuseStore2] [lessStore, fuseStore2] 1 10 :=
  .cons (by rw [read_score?, read_score?]; rfl) (.cons rfl .nil)

theorem less_places : Spec.SamePlacesFor [fuseStore1, fuseStore2] [lessStore, fuseStore2] 1 10 :=
  .cons (by decide +kernel) (.cons rfl .nil)

/-- doc 11 is not in the changed run -/
example : (Spec.content lessStore).read 1 11 = none ∧ (Spec.content fuseStore1).read 1 11 ≠ none := by
  rw [read_score?, read_score?]
  exact ⟨rfl, fun h => nomatch h⟩

example : ∃ out out', fuse exEnv [fuseStore1, fuseStore2] none "sum" = .ok out ∧
    fuse exEnv [lessStore, fuseStore2] none "sum" = .ok out' ∧
    (Spec.content out).read 1 10 = (Spec.content out').read 1 10 := by
  obtain ⟨out, h⟩ := exFuse_ok
  obtain ⟨out', h'⟩ := lessFuse_ok
  exact ⟨out, out', h, h', C165_own_scores exEnv exEnv _ _ fuseStore_wf lessStores_wf "sum"
    (by unfold Spec.ScoreMethod; decide) none exEnv_cover lessEnv_cover out out' h h' 1 10 less_scores⟩

theorem isrFuse_ok : ∃ out, fuse exEnv [fuseStore1, fuseStore2] none "isr" = .ok out := by
  rw [(C61_dispatch exEnv _ (by decide) fuseStore_same "isr" .isr (by decide +kernel) none).1]
  obtain ⟨out, h, _⟩ := C51_isr (.stable ℝ) [1, 0] exEnv.scheds
    ([fuseStore1, fuseStore2].map (fun s : Store Nat Nat ℝ => s.data))
    (fusable_of _ (by decide) fuseStore_wf fuseStore_same) (exEnv_cover.fusion fuseStore1 rfl)
    (by
      intro j run hj
      rw [List.getElem?_map] at hj
      obtain ⟨s, hs, rfl⟩ := Option.map_eq_some_iff.1 hj
      exact exEnv_cover.rescore j s hs)
  exact ⟨out, h⟩

theorem isrLess_ok : ∃ out, fuse exEnv [lessStore, fuseStore2] none "isr" = .ok out := by
  rw [(C61_dispatch exEnv _ (by decide) lessStores_same "isr" .isr (by decide +kernel) none).1]
  obtain ⟨out, h, _⟩ := C51_isr (.stable ℝ) [1, 0] exEnv.scheds
    ([lessStore, fuseStore2].map (fun s : Store Nat Nat ℝ => s.data))
    (fusable_of _ (by decide) lessStores_wf lessStores_same) (lessEnv_cover.fusion lessStore rfl)
    (by
      intro j run hj
      rw [List.getElem?_map] at hj
      obtain ⟨s, hs, rfl⟩ := Option.map_eq_some_iff.1 hj
      exact lessEnv_cover.rescore j s hs)
  exact ⟨out, h⟩

example : ∃ out out', fuse exEnv [fuseStore1, fuseStore2] none "isr" = .ok out ∧
    fuse exEnv [lessStore, fuseStore2] none "isr" = .ok out' ∧
    (Spec.content out).read 1 10 = (Spec.content out').read 1 10 := by
  obtain ⟨out, h⟩ := isrFuse_ok
  obtain ⟨out', h'⟩ := isrLess_ok
  exact ⟨out, out', h, h', C165_own_ranks exEnv exEnv _ _ fuseStore_wf lessStores_wf "isr"
    (by unfold Spec.PlaceMethod; decide) none exEnv_cover lessEnv_cover out out' h h' 1 10 less_places⟩

end Ranx
