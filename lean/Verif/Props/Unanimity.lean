import Verif.Props.FuseEnd
import Verif.Props.FusionMono

/-!
# C127: fusion respects unanimity

If all the runs retrieve two docs of a query and all of them prefer the first, `fuse` prefers it too, for every
normalization that keeps the order of the scores and every method that only combines scores or positions.
-/

set_option linter.unusedSectionVars false

namespace Ranx
open Dict Fuse
open _root_.Ranx.Norm (Results SetIter Kind normSwitch normRun minMaxInverted)
variable {κ δ : Type*}

namespace Spec
variable [DecidableEq κ] [DecidableEq δ]

/-- every run retrieved both docs for the query, and gave `a` a score at least that of `b` -/
def AllPrefer (runs : List (RunData κ δ ℝ)) (q : κ) (a b : δ) : Prop :=
  ∀ run ∈ runs, ∃ x y, score? run q a = some x ∧ score? run q b = some y ∧ y ≤ x

/-- every run retrieved both docs for the query, and gave `a` a higher score than `b` -/
def AllPreferStrictly (runs : List (RunData κ δ ℝ)) (q : κ) (a b : δ) : Prop :=
  ∀ run ∈ runs, ∃ x y, score? run q a = some x ∧ score? run q b = some y ∧ y < x

/-- every run lists both docs for the query, `a` before `b` -/
def AllListFirst (runs : List (RunData κ δ ℝ)) (q : κ) (a b : δ) : Prop :=
  ∀ run ∈ runs, ∃ i j, position? run q a = some i ∧ position? run q b = some j ∧ i < j

/-- the run has both docs for the query, `a` with at least the score of `b` -/
def NotBelow (out : Store κ δ ℝ) (q : κ) (a b : δ) : Prop :=
  ∃ x y, score? out.data q a = some x ∧ score? out.data q b = some y ∧ y ≤ x

/-- the run has both docs for the query, `a` with a higher score than `b` and listed before it -/
def PlacedAbove (out : Store κ δ ℝ) (q : κ) (a b : δ) : Prop :=
  (∃ x y, score? out.data q a = some x ∧ score? out.data q b = some y ∧ y < x) ∧
  ∃ i j, position? out.data q a = some i ∧ position? out.data q b = some j ∧ i < j

/-- the methods that work on positions and need no training, with parameters in their usual range -/
inductive PositionRule (n : Nat) : String → Kwargs → Prop
  | rrf : PositionRule n "rrf" []
  | rrfK (k : ℝ) (h : 0 ≤ k) : PositionRule n "rrf" [("k", .num k)]
  | rbc (phi : ℝ) (h : 0 < phi ∧ phi < 1) : PositionRule n "rbc" [("phi", .num phi)]
  | isr : PositionRule n "isr" []
  | logIsr : PositionRule n "log_isr" []
  | lognIsr : PositionRule n "logn_isr" []
  | lognIsrS (s : ℝ) (h : 0 ≤ s ∧ s ≤ 1) : PositionRule n "logn_isr" [("sigma", .num s)]
  | mapfuse (maps : List ℝ) (h : n ≤ maps.length) (hp : ∀ m ∈ maps, 0 < m) :
      PositionRule n "mapfuse" [("map_scores", .nums maps)]

end Spec

/-! ### lists -/

theorem forall₂_sum_lt {l l' : List ℝ} (h : List.Forall₂ (· < ·) l l') (hne : l ≠ []) : l.sum < l'.sum := by
  cases h with
  | nil => exact absurd rfl hne
  | cons hab ht =>
    rw [List.sum_cons, List.sum_cons]
    exact add_lt_add_of_lt_of_le hab (forall₂_sum _ _ (ht.imp (fun _ _ h => h.le)))

/-- a common gap between two lists that are strictly ordered position by position -/
theorem forall₂_gap {l l' : List ℝ} (h : List.Forall₂ (· < ·) l l') :
    ∃ ε > 0, List.Forall₂ (fun x y => x + ε ≤ y) l l' := by
  induction h with
  | nil => exact ⟨1, one_pos, .nil⟩
  | @cons a b _ _ hab _ ih =>
    obtain ⟨ε, hε, h⟩ := ih
    refine ⟨min ε (b - a), lt_min hε (by linarith), .cons ?_ (h.imp ?_)⟩
    · have := min_le_right ε (b - a); linarith
    · intro x y hxy
      have := min_le_left ε (b - a); linarith

theorem isMedian_shift {l : List ℝ} {m : ℝ} (ε : ℝ) (h : Spec.IsMedian l m) :
    Spec.IsMedian (l.map (fun x => x + ε)) (m + ε) := by
  obtain ⟨t, hp, hs, a, b, ha, hb, rfl⟩ := h
  refine ⟨t.map (fun x => x + ε), hp.map _, ?_, a + ε, b + ε, ?_, ?_, by ring⟩
  · rw [List.pairwise_map]; exact hs.imp (fun h => by linarith)
  · rw [List.length_map, List.getElem?_map, ha]; rfl
  · rw [List.length_map, List.getElem?_map, hb]; rfl

theorem isMedian_mono {l l' : List ℝ} {m m' : ℝ} (hl : List.Forall₂ (· ≤ ·) l l') (hne : l ≠ [])
    (h : Spec.IsMedian l m) (h' : Spec.IsMedian l' m') : m ≤ m' := by
  have hne' : l' ≠ [] := by rintro rfl; cases hl; exact hne rfl
  rw [h.unique (median_spec l hne), h'.unique (median_spec l' hne')]
  exact median_mono l l' hl

theorem isMedian_strict {l l' : List ℝ} {m m' : ℝ} (hl : List.Forall₂ (· < ·) l l') (hne : l ≠ [])
    (h : Spec.IsMedian l m) (h' : Spec.IsMedian l' m') : m < m' := by
  obtain ⟨ε, hε, hg⟩ := forall₂_gap hl
  have := isMedian_mono (l := l.map (fun x => x + ε)) (List.forall₂_map_left_iff.2 hg) (by simpa using hne)
    (isMedian_shift ε h) h'
  linarith

theorem forall₂_of_mem {α β : Type*} {R : α → β → Prop} {l : List α} {l' : List β} (h : List.Forall₂ R l l') :
    (∀ y ∈ l', ∃ x ∈ l, R x y) ∧ ∀ x ∈ l, ∃ y ∈ l', R x y := by
  induction h with
  | nil => simp
  | cons hab _ ih =>
    constructor
    · intro y hy
      rcases List.mem_cons.1 hy with rfl | hy
      · exact ⟨_, List.mem_cons_self, hab⟩
      · obtain ⟨x, hx, h⟩ := ih.1 y hy
        exact ⟨x, List.mem_cons_of_mem _ hx, h⟩
    · intro y hy
      rcases List.mem_cons.1 hy with rfl | hy
      · exact ⟨_, List.mem_cons_self, hab⟩
      · obtain ⟨x, hx, h⟩ := ih.2 y hy
        exact ⟨x, List.mem_cons_of_mem _ hx, h⟩

section
variable [LinearOrder κ] [DecidableEq δ]

/-- both docs everywhere, the scores related by `rel` -/
def Everywhere (rel : ℝ → ℝ → Prop) (runs : List (Spec.RunData κ δ ℝ)) (q : κ) (a b : δ) : Prop :=
  ∀ run ∈ runs, ∃ x y, Spec.score? run q a = some x ∧ Spec.score? run q b = some y ∧ rel y x

theorem Everywhere.scores {rel : ℝ → ℝ → Prop} {runs : List (Spec.RunData κ δ ℝ)} {q : κ} {a b : δ}
    (h : Everywhere rel runs q a b) :
    List.Forall₂ rel (Spec.scores runs q b) (Spec.scores runs q a) ∧
      (Spec.scores runs q b).length = runs.length := by
  unfold Spec.scores
  induction runs with
  | nil => exact ⟨.nil, rfl⟩
  | cons r t ih =>
    obtain ⟨x, y, hx, hy, hr⟩ := h r List.mem_cons_self
    obtain ⟨h1, h2⟩ := ih (fun run hrun => h run (List.mem_cons_of_mem _ hrun))
    simp only [List.filterMap_cons, hx, hy]
    exact ⟨.cons hr h1, by rw [List.length_cons, List.length_cons, h2]⟩

theorem Everywhere.weighted {rel : ℝ → ℝ → Prop} {runs : List (Spec.RunData κ δ ℝ)} {q : κ} {a b : δ}
    (h : Everywhere rel runs q a b) (ws : List ℝ) :
    List.Forall₂ (fun p p' : ℝ × ℝ => rel p.1 p'.1 ∧ p.2 = p'.2 ∧ p.2 ∈ ws)
      (Spec.weighted runs ws q b) (Spec.weighted runs ws q a) ∧
    (runs.length ≤ ws.length → (Spec.weighted runs ws q b).length = runs.length) := by
  suffices ∀ us : List ℝ, (∀ u ∈ us, u ∈ ws) →
      List.Forall₂ (fun p p' : ℝ × ℝ => rel p.1 p'.1 ∧ p.2 = p'.2 ∧ p.2 ∈ ws)
        (Spec.weighted runs us q b) (Spec.weighted runs us q a) ∧
      (runs.length ≤ us.length → (Spec.weighted runs us q b).length = runs.length) from this ws (fun _ h => h)
  unfold Spec.weighted
  induction runs with
  | nil => intro us _; exact ⟨.nil, fun _ => rfl⟩
  | cons r t ih =>
    intro us hus
    cases us with
    | nil => exact ⟨.nil, fun h => absurd h (by simp)⟩
    | cons w us =>
      obtain ⟨x, y, hx, hy, hr⟩ := h r List.mem_cons_self
      obtain ⟨h1, h2⟩ := ih (fun run hrun => h run (List.mem_cons_of_mem _ hrun)) us
        (fun u hu => hus u (List.mem_cons_of_mem _ hu))
      simp only [List.zip_cons_cons, List.filterMap_cons, hx, hy, Option.map_some]
      refine ⟨.cons ⟨hr, rfl, hus w List.mem_cons_self⟩ h1, fun hl => ?_⟩
      rw [List.length_cons, List.length_cons, h2 (by simpa using hl)]

theorem Everywhere.mem_left {rel : ℝ → ℝ → Prop} {runs : List (Spec.RunData κ δ ℝ)} {q : κ} {a b : δ}
    (h : Everywhere rel runs q a b) (hne : runs ≠ []) :
    Spec.InSome runs q a ∧ Spec.InSome runs q b := by
  obtain ⟨r, hr⟩ := List.exists_mem_of_ne_nil runs hne
  obtain ⟨x, y, hx, hy, -⟩ := h r hr
  unfold Spec.score? at hx hy
  cases hg : r.get? q with
  | none => rw [hg] at hx; simp at hx
  | some v =>
    rw [hg] at hx hy
    exact ⟨⟨r, hr, v, hg, get?_isSome.1 (by rw [show v.get? a = some x from hx]; rfl)⟩,
      ⟨r, hr, v, hg, get?_isSome.1 (by rw [show v.get? b = some y from hy]; rfl)⟩⟩

/-- the value of every method on scores, for docs that all the runs have -/
theorem fuse_scores_everywhere (E : Env δ) (runs : List (Store κ δ ℝ)) (hn : 2 ≤ runs.length)
    (hw : ∀ s ∈ runs, Store.Wf s.data) (hq : Spec.SameQueries runs) (hE : Spec.SchedulesCover E runs)
    (norm : Option String) (k : Option Kind) (hk : Spec.NormNamed norm k) (name : String) (params : Kwargs)
    (R : List (Dict κ (Results δ ℝ)) → κ → δ → ℝ → Prop)
    (hR : Spec.ScoreRule (runs.map (fun s => s.data)) name params R) :
    ∃ out val, fuse E runs norm name (some params) = .ok out ∧
      Spec.FusedBy (runs.map (fun s => s.data)) val out ∧
      ∀ q d, Spec.InSome (runs.map (fun s => s.data)) q d →
        R (Spec.normalised k (runs.map (fun s => s.data))) q d (val q d) ∧
        ((∀ run ∈ Spec.normalised k (runs.map (fun s => s.data)), ∃ s, Spec.score? run q d = some s) →
          (name = "min" → IsLeast {s | s ∈ Spec.scores (Spec.normalised k (runs.map (fun s => s.data))) q d} (val q d)) ∧
          (name = "max" → IsGreatest {s | s ∈ Spec.scores (Spec.normalised k (runs.map (fun s => s.data))) q d} (val q d))) := by
  obtain ⟨out, val, h1, h2, h3⟩ := C89_score_methods E runs hn hw hq hE norm k hk name params R hR
  refine ⟨out, val, h1, h2, fun q d hd => ⟨h3 q d hd, fun hall => ?_⟩⟩
  obtain ⟨nr, hnr, hS⟩ := normStep E runs hn hw hq hE norm k hk
  have hsc := scores_congr hS.score
  have hall' : ∀ run ∈ nr, ∃ s, Spec.score? run q d = some s := by
    intro run hr
    obtain ⟨run', hr', h⟩ := forall₂_mem_left hS.score hr
    obtain ⟨s, hs⟩ := hall run' hr'
    exact ⟨s, by rw [h, hs]⟩
  have hval : ∀ (out' : Store κ δ ℝ) val', Spec.FusedBy nr val' out' → out' = out → val' q d = val q d := by
    rintro out' val' hf rfl
    have e1 := (FusedBy_transfer hf hS.queries hS.inSome).value q d hd
    have e2 := h2.value q d hd
    exact Option.some.inj (e1.symm.trans e2)
  constructor
  · intro hname
    have hp : params = [] := by
      revert hname
      cases hR <;> intro hname <;> first | rfl | exact absurd hname (by decide)
    subst hname hp
    obtain ⟨out', val', g1, g2, g3⟩ := C103_comb_min E.S E.sched nr hS.fusable hS.fits.main
    have e := fuse_named E runs hn hq norm "min" .combMin (by decide +kernel) [] nr hnr
    rw [h1] at e
    have eo : out' = out := (Except.ok.inj (e.trans g1)).symm
    rw [← hval out' val' g2 eo, ← hsc]
    exact (g3 q d ((hS.inSome q d).2 hd)).1 hall'
  · intro hname
    have hp : params = [] := by
      revert hname
      cases hR <;> intro hname <;> first | rfl | exact absurd hname (by decide)
    subst hname hp
    obtain ⟨out', val', g1, g2, g3⟩ := C103_comb_max E.S E.sched nr hS.fusable hS.fits.main
    have e := fuse_named E runs hn hq norm "max" .combMax (by decide +kernel) [] nr hnr
    rw [h1] at e
    have eo : out' = out := (Except.ok.inj (e.trans g1)).symm
    rw [← hval out' val' g2 eo, ← hsc]
    exact (g3 q d ((hS.inSome q d).2 hd)).1 hall'

/-- the order of two docs under a method on scores -/
theorem scoreRule_weak {runs0 runs : List (Spec.RunData κ δ ℝ)} {name : String} {params : Kwargs}
    {R : List (Dict κ (Results δ ℝ)) → κ → δ → ℝ → Prop} (hR : Spec.ScoreRule runs0 name params R)
    (hpos : ∀ ws, params = [("weights", .nums ws)] → ∀ w ∈ ws, 0 ≤ w) {q : κ} {a b : δ}
    (h : Everywhere (· ≤ ·) runs q a b) (hne : runs ≠ []) {x y : ℝ} (hx : R runs q a x) (hy : R runs q b y)
    (hmin : name = "min" → IsLeast {s | s ∈ Spec.scores runs q a} x ∧ IsLeast {s | s ∈ Spec.scores runs q b} y)
    (hmax : name = "max" → IsGreatest {s | s ∈ Spec.scores runs q a} x ∧
      IsGreatest {s | s ∈ Spec.scores runs q b} y) : y ≤ x := by
  obtain ⟨hs, hlen⟩ := h.scores
  have hsum := forall₂_sum _ _ hs
  have hll := hs.length_eq
  have hnil : Spec.scores runs q b ≠ [] := by
    intro e; rw [e] at hlen; exact hne (List.length_eq_zero_iff.1 hlen.symm)
  cases hR with
  | sum => rw [hx, hy]; exact hsum
  | anz => rw [hx, hy, hll]; exact div_le_div_of_nonneg_right hsum (Nat.cast_nonneg _)
  | mnz => rw [hx, hy, hll]; exact mul_le_mul_of_nonneg_right hsum (Nat.cast_nonneg _)
  | gmnz g =>
    rw [hx, hy, hll]; exact mul_le_mul_of_nonneg_right hsum (Real.rpow_nonneg (Nat.cast_nonneg _) _)
  | med => exact isMedian_mono hs hnil hy hx
  | min =>
    obtain ⟨h1, h2⟩ := hmin rfl
    obtain ⟨z, hz, hzx⟩ := (forall₂_of_mem hs).1 x h1.1
    exact (h2.2 hz).trans hzx
  | max =>
    obtain ⟨h1, h2⟩ := hmax rfl
    obtain ⟨z, hz, hzx⟩ := (forall₂_of_mem hs).2 y h2.1
    exact hzx.trans (h1.2 hz)
  | wsum ws hl =>
    rw [hx, hy]
    apply forall₂_sum
    rw [List.forall₂_map_left_iff, List.forall₂_map_right_iff]
    refine (h.weighted ws).1.imp ?_
    rintro p p' ⟨h1, h2, h3⟩
    rw [← h2]
    exact mul_le_mul_of_nonneg_left h1 (hpos ws rfl _ h3)
  | wmnz ws hl =>
    have hwt := (h.weighted ws).1
    have e2 : (Spec.weighted runs ws q b).map Prod.snd = (Spec.weighted runs ws q a).map Prod.snd := by
      rw [← List.forall₂_eq_eq_eq, List.forall₂_map_left_iff, List.forall₂_map_right_iff]
      exact hwt.imp (fun _ _ h => h.2.1)
    rw [hx, hy, ← e2]
    apply mul_le_mul_of_nonneg_right
    · apply forall₂_sum
      rw [List.forall₂_map_left_iff, List.forall₂_map_right_iff]
      exact hwt.imp (fun _ _ h => h.1)
    · apply List.sum_nonneg
      intro w hw
      obtain ⟨p, hp, rfl⟩ := List.mem_map.1 hw
      obtain ⟨_, _, h⟩ := (forall₂_of_mem hwt).2 p hp
      exact hpos ws rfl _ h.2.2
  | mixed ws hl =>
    rw [hx, hy, hll]
    apply mul_le_mul_of_nonneg_right _ (Real.sqrt_nonneg _)
    apply forall₂_sum
    rw [List.forall₂_map_left_iff, List.forall₂_map_right_iff]
    refine (h.weighted ws).1.imp ?_
    rintro p p' ⟨h1, h2, h3⟩
    rw [← h2]
    exact mul_le_mul_of_nonneg_right h1 (hpos ws rfl _ h3)

/-- the strict order of two docs under a method on scores -/
theorem scoreRule_strict {runs0 runs : List (Spec.RunData κ δ ℝ)} (h0 : runs.length = runs0.length)
    {name : String} {params : Kwargs}
    {R : List (Dict κ (Results δ ℝ)) → κ → δ → ℝ → Prop} (hR : Spec.ScoreRule runs0 name params R)
    (hpos : ∀ ws, params = [("weights", .nums ws)] → ∀ w ∈ ws, 0 < w) {q : κ} {a b : δ}
    (h : Everywhere (· < ·) runs q a b) (hne : runs ≠ []) {x y : ℝ} (hx : R runs q a x) (hy : R runs q b y)
    (hmin : name = "min" → IsLeast {s | s ∈ Spec.scores runs q a} x ∧ IsLeast {s | s ∈ Spec.scores runs q b} y)
    (hmax : name = "max" → IsGreatest {s | s ∈ Spec.scores runs q a} x ∧
      IsGreatest {s | s ∈ Spec.scores runs q b} y) : y < x := by
  obtain ⟨hs, hlen⟩ := h.scores
  have hll := hs.length_eq
  have hpl : 0 < runs.length := List.length_pos_iff.2 hne
  have hnil : Spec.scores runs q b ≠ [] := by
    intro e; rw [e] at hlen; exact hne (List.length_eq_zero_iff.1 hlen.symm)
  have hsum := forall₂_sum_lt hs hnil
  have hcast : (0 : ℝ) < ((Spec.scores runs q a).length : ℝ) := by
    rw [← hll, hlen]; exact_mod_cast hpl
  have hwnil : ∀ ws : List ℝ, runs.length ≤ ws.length → Spec.weighted runs ws q b ≠ [] := by
    intro ws hl e
    have := (h.weighted ws).2 hl
    rw [e] at this
    exact hne (List.length_eq_zero_iff.1 this.symm)
  cases hR with
  | sum => rw [hx, hy]; exact hsum
  | anz => rw [hx, hy, hll]; exact div_lt_div_of_pos_right hsum hcast
  | mnz => rw [hx, hy, hll]; exact mul_lt_mul_of_pos_right hsum hcast
  | gmnz g => rw [hx, hy, hll]; exact mul_lt_mul_of_pos_right hsum (Real.rpow_pos_of_pos hcast _)
  | med => exact isMedian_strict hs hnil hy hx
  | min =>
    obtain ⟨h1, h2⟩ := hmin rfl
    obtain ⟨z, hz, hzx⟩ := (forall₂_of_mem hs).1 x h1.1
    exact (h2.2 hz).trans_lt hzx
  | max =>
    obtain ⟨h1, h2⟩ := hmax rfl
    obtain ⟨z, hz, hzx⟩ := (forall₂_of_mem hs).2 y h2.1
    exact hzx.trans_le (h1.2 hz)
  | wsum ws hl =>
    rw [hx, hy]
    apply forall₂_sum_lt
    · rw [List.forall₂_map_left_iff, List.forall₂_map_right_iff]
      refine (h.weighted ws).1.imp ?_
      rintro p p' ⟨h1, h2, h3⟩
      rw [← h2]
      exact mul_lt_mul_of_pos_left h1 (hpos ws rfl _ h3)
    · simpa using hwnil ws (h0 ▸ hl)
  | wmnz ws hl =>
    have hwt := (h.weighted ws).1
    have e2 : (Spec.weighted runs ws q b).map Prod.snd = (Spec.weighted runs ws q a).map Prod.snd := by
      rw [← List.forall₂_eq_eq_eq, List.forall₂_map_left_iff, List.forall₂_map_right_iff]
      exact hwt.imp (fun _ _ h => h.2.1)
    rw [hx, hy, ← e2]
    apply mul_lt_mul_of_pos_right
    · apply forall₂_sum_lt
      · rw [List.forall₂_map_left_iff, List.forall₂_map_right_iff]
        exact hwt.imp (fun _ _ h => h.1)
      · simpa using hwnil ws (h0 ▸ hl)
    · apply List.sum_pos
      · intro w hw
        obtain ⟨p, hp, rfl⟩ := List.mem_map.1 hw
        obtain ⟨_, _, h⟩ := (forall₂_of_mem hwt).2 p hp
        exact hpos ws rfl _ h.2.2
      · simpa using hwnil ws (h0 ▸ hl)
  | mixed ws hl =>
    rw [hx, hy, hll]
    apply mul_lt_mul_of_pos_right _ (Real.sqrt_pos.2 hcast)
    apply forall₂_sum_lt
    · rw [List.forall₂_map_left_iff, List.forall₂_map_right_iff]
      refine (h.weighted ws).1.imp ?_
      rintro p p' ⟨h1, h2, h3⟩
      rw [← h2]
      exact mul_lt_mul_of_pos_right h1 (hpos ws rfl _ h3)
    · simpa using hwnil ws (h0 ▸ hl)

/-- normalization maps a comparison of the given scores to one of the normalized scores -/
theorem Everywhere.normalised {rel rel' : ℝ → ℝ → Prop} {runs : List (Spec.RunData κ δ ℝ)} {q : κ} {a b : δ}
    (h : Everywhere rel runs q a b) (k : Kind)
    (hk : ∀ (r : Dict δ ℝ) x y, rel y x → rel' (Spec.normScore k r b y) (Spec.normScore k r a x)) :
    Everywhere rel' (Spec.normalised (some k) runs) q a b := by
  rw [normalised_some]
  intro run' hr'
  obtain ⟨run, hr, rfl⟩ := List.mem_map.1 hr'
  obtain ⟨x, y, hx, hy, hxy⟩ := h run hr
  unfold Spec.score? at hx hy ⊢
  rw [show Dict.get? (run.map (fun p => (p.1, specRow k p.2))) q = (run.get? q).map (specRow k) from
    get?_map_val _ _ _]
  cases hg : run.get? q with
  | none => rw [hg] at hx; simp at hx
  | some v =>
    rw [hg] at hx hy
    simp only [Option.bind_some] at hx hy
    simp only [Option.map_some, Option.bind_some, get?_specRow, hx, hy]
    exact ⟨_, _, rfl, rfl, hk v x y hxy⟩

theorem max_e9_pos (x : ℝ) : (0 : ℝ) < max x (1 / 10 ^ 9) := lt_max_of_lt_right (by norm_num)

/-- the normalizations that keep the order of scores -/
theorem Everywhere.kept {runs : List (Spec.RunData κ δ ℝ)} {q : κ} {a b : δ} {k : Option Kind}
    (hi : k ≠ some .minMaxInverted) (hrk : k ≠ some .rank) :
    (Everywhere (· ≤ ·) runs q a b → Everywhere (· ≤ ·) (Spec.normalised k runs) q a b) ∧
    (Everywhere (· < ·) runs q a b → Everywhere (· < ·) (Spec.normalised k runs) q a b) := by
  cases k with
  | none => exact ⟨id, id⟩
  | some k =>
    refine ⟨fun h => h.normalised k ?_, fun h => h.normalised k ?_⟩ <;> intro r x y hxy <;>
      unfold Spec.normScore <;> cases k <;>
      first
      | exact absurd rfl hi
      | exact absurd rfl hrk
      | exact hxy
      | exact div_le_div_of_nonneg_right (by linarith) (max_e9_pos _).le
      | exact div_lt_div_of_pos_right (by linarith) (max_e9_pos _)

theorem normalised_length (k : Option Kind) (runs : List (Dict κ (Results δ ℝ))) :
    (Spec.normalised k runs).length = runs.length := by
  cases k with
  | none => rfl
  | some k => exact List.length_map _

theorem read_score? (s : Store κ δ ℝ) (q : κ) (d : δ) : (Spec.content s).read q d = Spec.score? s.data q d := by
  unfold Spec.content Spec.score? Spec.Content.read
  beta_reduce
  cases Dict.get? s.data q <;> rfl

/-- in a ranked list a doc with a higher score comes first -/
theorem ranked_position {r : Dict δ ℝ} (hnd : NodupKeys r) (hr : Spec.Ranked r.values) {a b : δ} {x y : ℝ}
    (ha : r.get? a = some x) (hb : r.get? b = some y) (h : y < x) :
    ∃ i j, r.keys.idxOf? a = some i ∧ r.keys.idxOf? b = some j ∧ i < j := by
  have hma := mem_of_get? ha
  have hmb := mem_of_get? hb
  obtain ⟨i, hi⟩ := List.mem_iff_getElem?.1 hma
  obtain ⟨j, hj⟩ := List.mem_iff_getElem?.1 hmb
  have hki : r.keys[i]? = some a := by unfold Dict.keys; rw [List.getElem?_map, hi]; rfl
  have hkj : r.keys[j]? = some b := by unfold Dict.keys; rw [List.getElem?_map, hj]; rfl
  have hvi : r.values[i]? = some x := by unfold Dict.values; rw [List.getElem?_map, hi]; rfl
  have hvj : r.values[j]? = some y := by unfold Dict.values; rw [List.getElem?_map, hj]; rfl
  refine ⟨i, j, (idxOf?_eq_some_iff (show r.keys.Nodup from hnd)).2 hki,
    (idxOf?_eq_some_iff (show r.keys.Nodup from hnd)).2 hkj, ?_⟩
  by_contra hc
  rcases Nat.lt_or_eq_of_le (Nat.le_of_not_lt hc) with hlt | heq
  · obtain ⟨hi', rfl⟩ := List.getElem?_eq_some_iff.1 hvi
    obtain ⟨hj', rfl⟩ := List.getElem?_eq_some_iff.1 hvj
    have := List.pairwise_iff_getElem.1 hr j i hj' hi' hlt
    exact absurd h (not_lt.2 this)
  · subst heq
    rw [hvi] at hvj
    exact absurd (Option.some.inj hvj) h.ne'

theorem FusedBy_placed {runs : List (Dict κ (Results δ ℝ))} {val : κ → δ → ℝ} {out : Store κ δ ℝ}
    (h : Spec.FusedBy runs val out) {q : κ} {a b : δ} (ha : Spec.InSome runs q a) (hb : Spec.InSome runs q b)
    (hv : val q b < val q a) : Spec.PlacedAbove out q a b := by
  have ea := h.value q a ha
  have eb := h.value q b hb
  rw [read_score?] at ea eb
  refine ⟨⟨_, _, ea, eb, hv⟩, ?_⟩
  unfold Spec.score? at ea eb
  unfold Spec.position?
  cases hg : out.data.get? q with
  | none => rw [hg] at ea; simp at ea
  | some r =>
    rw [hg] at ea eb
    have hm := mem_of_get? hg
    obtain ⟨i, j, h1, h2, h3⟩ := ranked_position (h.nodupD _ hm) (h.ranked _ hm) ea eb hv
    exact ⟨i, j, h1, h2, h3⟩

/-- **C127** (scores): if every run retrieves both docs of a query and gives `a` at least the score of `b`,
then so does the fused run, for no normalization, min-max, max, sum or zmuv, every method on scores and
non-negative weights. -/
theorem C127_scores (E : Env δ) (runs : List (Store κ δ ℝ)) (hn : 2 ≤ runs.length)
    (hw : ∀ s ∈ runs, Store.Wf s.data) (hq : Spec.SameQueries runs) (hE : Spec.SchedulesCover E runs)
    (norm : Option String) (k : Option Kind) (hk : Spec.NormNamed norm k)
    (hi : k ≠ some .minMaxInverted) (hrk : k ≠ some .rank) (name : String) (params : Kwargs)
    (R : List (Dict κ (Results δ ℝ)) → κ → δ → ℝ → Prop)
    (hR : Spec.ScoreRule (runs.map (fun s => s.data)) name params R)
    (hpos : ∀ ws, params = [("weights", .nums ws)] → ∀ w ∈ ws, 0 ≤ w) (q : κ) (a b : δ)
    (h : Spec.AllPrefer (runs.map (fun s => s.data)) q a b) :
    ∃ out, fuse E runs norm name (some params) = .ok out ∧ Spec.NotBelow out q a b := by
  obtain ⟨out, val, h1, h2, h3⟩ := fuse_scores_everywhere E runs hn hw hq hE norm k hk name params R hR
  have hne : runs.map (fun s => s.data) ≠ [] := by
    intro e; rw [List.map_eq_nil_iff] at e; subst e; simp at hn
  have hne' : Spec.normalised k (runs.map (fun s => s.data)) ≠ [] := by
    rw [← List.length_pos_iff, normalised_length]; exact List.length_pos_iff.2 hne
  have hev : Everywhere (· ≤ ·) (runs.map (fun s => s.data)) q a b := h
  obtain ⟨ia, ib⟩ := hev.mem_left hne
  have hnv := (Everywhere.kept hi hrk).1 hev
  obtain ⟨ra, ma⟩ := h3 q a ia
  obtain ⟨rb, mb⟩ := h3 q b ib
  have ma' := ma (fun run hr => by obtain ⟨x, y, hx, hy, -⟩ := hnv run hr; exact ⟨x, hx⟩)
  have mb' := mb (fun run hr => by obtain ⟨x, y, hx, hy, -⟩ := hnv run hr; exact ⟨y, hy⟩)
  have hle := scoreRule_weak hR hpos hnv hne' ra rb (fun e => ⟨ma'.1 e, mb'.1 e⟩) (fun e => ⟨ma'.2 e, mb'.2 e⟩)
  have ea := h2.value q a ia
  have eb := h2.value q b ib
  rw [read_score?] at ea eb
  exact ⟨out, h1, _, _, ea, eb, hle⟩

/-- a strict comparison of the normalized scores by all runs decides the fused ranking -/
theorem fuse_placed (E : Env δ) (runs : List (Store κ δ ℝ)) (hn : 2 ≤ runs.length)
    (hw : ∀ s ∈ runs, Store.Wf s.data) (hq : Spec.SameQueries runs) (hE : Spec.SchedulesCover E runs)
    (norm : Option String) (k : Option Kind) (hk : Spec.NormNamed norm k) (name : String) (params : Kwargs)
    (R : List (Dict κ (Results δ ℝ)) → κ → δ → ℝ → Prop)
    (hR : Spec.ScoreRule (runs.map (fun s => s.data)) name params R)
    (hpos : ∀ ws, params = [("weights", .nums ws)] → ∀ w ∈ ws, 0 < w) (q : κ) (a b : δ)
    (ia : Spec.InSome (runs.map (fun s => s.data)) q a) (ib : Spec.InSome (runs.map (fun s => s.data)) q b)
    (hnv : Everywhere (· < ·) (Spec.normalised k (runs.map (fun s => s.data))) q a b) :
    ∃ out, fuse E runs norm name (some params) = .ok out ∧ Spec.PlacedAbove out q a b := by
  obtain ⟨out, val, h1, h2, h3⟩ := fuse_scores_everywhere E runs hn hw hq hE norm k hk name params R hR
  have hne : runs.map (fun s => s.data) ≠ [] := by
    intro e; rw [List.map_eq_nil_iff] at e; subst e; simp at hn
  have hne' : Spec.normalised k (runs.map (fun s => s.data)) ≠ [] := by
    rw [← List.length_pos_iff, normalised_length]; exact List.length_pos_iff.2 hne
  obtain ⟨ra, ma⟩ := h3 q a ia
  obtain ⟨rb, mb⟩ := h3 q b ib
  have ma' := ma (fun run hr => by obtain ⟨x, y, hx, hy, -⟩ := hnv run hr; exact ⟨x, hx⟩)
  have mb' := mb (fun run hr => by obtain ⟨x, y, hx, hy, -⟩ := hnv run hr; exact ⟨y, hy⟩)
  have hlt := scoreRule_strict (normalised_length k _) hR hpos hnv hne' ra rb (fun e => ⟨ma'.1 e, mb'.1 e⟩)
    (fun e => ⟨ma'.2 e, mb'.2 e⟩)
  exact ⟨out, h1, FusedBy_placed h2 ia ib hlt⟩

/-- **C127** (scores, strict): if every run retrieves both docs and gives `a` a higher score than `b`, then in
the fused run `a` has a higher score and is listed before `b` (weights positive). -/
theorem C127_scores_strict (E : Env δ) (runs : List (Store κ δ ℝ)) (hn : 2 ≤ runs.length)
    (hw : ∀ s ∈ runs, Store.Wf s.data) (hq : Spec.SameQueries runs) (hE : Spec.SchedulesCover E runs)
    (norm : Option String) (k : Option Kind) (hk : Spec.NormNamed norm k)
    (hi : k ≠ some .minMaxInverted) (hrk : k ≠ some .rank) (name : String) (params : Kwargs)
    (R : List (Dict κ (Results δ ℝ)) → κ → δ → ℝ → Prop)
    (hR : Spec.ScoreRule (runs.map (fun s => s.data)) name params R)
    (hpos : ∀ ws, params = [("weights", .nums ws)] → ∀ w ∈ ws, 0 < w) (q : κ) (a b : δ)
    (h : Spec.AllPreferStrictly (runs.map (fun s => s.data)) q a b) :
    ∃ out, fuse E runs norm name (some params) = .ok out ∧ Spec.PlacedAbove out q a b := by
  have hne : runs.map (fun s => s.data) ≠ [] := by
    intro e; rw [List.map_eq_nil_iff] at e; subst e; simp at hn
  have hev : Everywhere (· < ·) (runs.map (fun s => s.data)) q a b := h
  obtain ⟨ia, ib⟩ := hev.mem_left hne
  exact fuse_placed E runs hn hw hq hE norm k hk name params R hR hpos q a b ia ib
    ((Everywhere.kept hi hrk).2 hev)

/-- **C127** (inverted min-max, for scores where lower is better): if every run gives `a` a lower score than
`b`, the fused run lists `a` first. -/
theorem C127_inverted (E : Env δ) (runs : List (Store κ δ ℝ)) (hn : 2 ≤ runs.length)
    (hw : ∀ s ∈ runs, Store.Wf s.data) (hq : Spec.SameQueries runs) (hE : Spec.SchedulesCover E runs)
    (norm : Option String) (hk : Spec.NormNamed norm (some .minMaxInverted)) (name : String) (params : Kwargs)
    (R : List (Dict κ (Results δ ℝ)) → κ → δ → ℝ → Prop)
    (hR : Spec.ScoreRule (runs.map (fun s => s.data)) name params R)
    (hpos : ∀ ws, params = [("weights", .nums ws)] → ∀ w ∈ ws, 0 < w) (q : κ) (a b : δ)
    (h : Spec.AllPreferStrictly (runs.map (fun s => s.data)) q b a) :
    ∃ out, fuse E runs norm name (some params) = .ok out ∧ Spec.PlacedAbove out q a b := by
  have hne : runs.map (fun s => s.data) ≠ [] := by
    intro e; rw [List.map_eq_nil_iff] at e; subst e; simp at hn
  have hev : Everywhere (fun y x => x < y) (runs.map (fun s => s.data)) q a b := by
    intro run hr
    obtain ⟨x, y, hx, hy, hxy⟩ := h run hr
    exact ⟨y, x, hy, hx, hxy⟩
  obtain ⟨ia, ib⟩ := hev.mem_left hne
  refine fuse_placed E runs hn hw hq hE norm _ hk name params R hR hpos q a b ia ib
    (hev.normalised .minMaxInverted ?_)
  intro r x y hxy
  unfold Spec.normScore
  exact div_lt_div_of_pos_right (by linarith) (max_e9_pos _)

/-- **C127** (rank normalization): if every run lists `a` before `b`, so does the fused run. -/
theorem C127_rank_norm (E : Env δ) (runs : List (Store κ δ ℝ)) (hn : 2 ≤ runs.length)
    (hw : ∀ s ∈ runs, Store.Wf s.data) (hq : Spec.SameQueries runs) (hE : Spec.SchedulesCover E runs)
    (norm : Option String) (hk : Spec.NormNamed norm (some .rank)) (name : String) (params : Kwargs)
    (R : List (Dict κ (Results δ ℝ)) → κ → δ → ℝ → Prop)
    (hR : Spec.ScoreRule (runs.map (fun s => s.data)) name params R)
    (hpos : ∀ ws, params = [("weights", .nums ws)] → ∀ w ∈ ws, 0 < w) (q : κ) (a b : δ)
    (h : Spec.AllListFirst (runs.map (fun s => s.data)) q a b) :
    ∃ out, fuse E runs norm name (some params) = .ok out ∧ Spec.PlacedAbove out q a b := by
  have hne : runs.map (fun s => s.data) ≠ [] := by
    intro e; rw [List.map_eq_nil_iff] at e; subst e; simp at hn
  have hall : ∀ run ∈ runs.map (fun s => s.data), ∃ v i j x y, run.get? q = some v ∧
      v.keys.idxOf? a = some i ∧ v.keys.idxOf? b = some j ∧ i < j ∧ v.get? a = some x ∧ v.get? b = some y := by
    intro run hr
    obtain ⟨i, j, hx, hy, hij⟩ := h run hr
    unfold Spec.position? at hx hy
    cases hg : run.get? q with
    | none => rw [hg] at hx; simp at hx
    | some v =>
      rw [hg] at hx hy
      simp only [Option.bind_some] at hx hy
      obtain ⟨x, hx'⟩ := Option.isSome_iff_exists.1 (get?_isSome.2 (idxOf?_isSome.1
        (by rw [hx]; rfl : (v.keys.idxOf? a).isSome)))
      obtain ⟨y, hy'⟩ := Option.isSome_iff_exists.1 (get?_isSome.2 (idxOf?_isSome.1
        (by rw [hy]; rfl : (v.keys.idxOf? b).isSome)))
      exact ⟨v, i, j, x, y, rfl, hx, hy, hij, hx', hy'⟩
  have hev : Everywhere (fun _ _ => True) (runs.map (fun s => s.data)) q a b := by
    intro run hr
    obtain ⟨v, i, j, x, y, hg, hx, hy, hij, hx', hy'⟩ := hall run hr
    refine ⟨x, y, ?_, ?_, trivial⟩ <;> unfold Spec.score? <;> rw [hg] <;> assumption
  obtain ⟨ia, ib⟩ := hev.mem_left hne
  refine fuse_placed E runs hn hw hq hE norm _ hk name params R hR hpos q a b ia ib ?_
  rw [normalised_some]
  intro run' hr'
  obtain ⟨run, hr, rfl⟩ := List.mem_map.1 hr'
  obtain ⟨v, i, j, x, y, hg, hx, hy, hij, hx', hy'⟩ := hall run hr
  unfold Spec.score?
  rw [show Dict.get? (run.map (fun p => (p.1, specRow .rank p.2))) q = (run.get? q).map (specRow .rank) from
    get?_map_val _ _ _, hg]
  simp only [Option.map_some, Option.bind_some, get?_specRow, hx', hy']
  refine ⟨_, _, rfl, rfl, ?_⟩
  have hnd : v.keys.Nodup := by
    obtain ⟨s, hs, rfl⟩ := List.mem_map.1 hr
    exact (hw s hs).2 _ (mem_of_get? hg)
  have hai := (idxOf?_eq_some_iff hnd).1 hx
  have hbj := (idxOf?_eq_some_iff hnd).1 hy
  obtain ⟨hi', hai'⟩ := List.getElem?_eq_some_iff.1 hai
  obtain ⟨hj', hbj'⟩ := List.getElem?_eq_some_iff.1 hbj
  have e1 : v.keys.idxOf a = i := by rw [← hai', List.Nodup.idxOf_getElem hnd]
  have e2 : v.keys.idxOf b = j := by rw [← hbj', List.Nodup.idxOf_getElem hnd]
  unfold Spec.normScore
  simp only [e1, e2]
  have hv : 0 < v.length := by
    have : v.keys.length = v.length := by unfold Dict.keys; exact List.length_map _
    omega
  have hv' : (0 : ℝ) < (v.length : ℝ) := by exact_mod_cast hv
  have hij' : (i : ℝ) < (j : ℝ) := by exact_mod_cast hij
  have := div_lt_div_of_pos_right hij' hv'
  linarith

theorem forall₂_positions {runs : List (Spec.RunData κ δ ℝ)} {q : κ} {a b : δ}
    (h : Spec.AllListFirst runs q a b) :
    List.Forall₂ (· < ·) (Spec.positions runs q a) (Spec.positions runs q b) ∧
      (Spec.positions runs q a).length = runs.length := by
  unfold Spec.positions
  induction runs with
  | nil => exact ⟨.nil, rfl⟩
  | cons r t ih =>
    obtain ⟨x, y, hx, hy, hr⟩ := h r List.mem_cons_self
    obtain ⟨h1, h2⟩ := ih (fun run hrun => h run (List.mem_cons_of_mem _ hrun))
    simp only [List.filterMap_cons, hx, hy]
    exact ⟨.cons hr h1, by rw [List.length_cons, List.length_cons, h2]⟩

theorem forall₂_occurrences {runs : List (Spec.RunData κ δ ℝ)} {q : κ} {a b : δ}
    (h : Spec.AllListFirst runs q a b) (ps : List ℝ) :
    List.Forall₂ (fun o o' : Spec.Occurrence ℝ ℝ => o.pos < o'.pos ∧ o.param = o'.param ∧ o.param ∈ ps)
      (Spec.occurrences runs ps q a) (Spec.occurrences runs ps q b) ∧
    (runs.length ≤ ps.length → (Spec.occurrences runs ps q a).length = runs.length) := by
  suffices ∀ us : List ℝ, (∀ u ∈ us, u ∈ ps) →
      List.Forall₂ (fun o o' : Spec.Occurrence ℝ ℝ => o.pos < o'.pos ∧ o.param = o'.param ∧ o.param ∈ ps)
        (Spec.occurrences runs us q a) (Spec.occurrences runs us q b) ∧
      (runs.length ≤ us.length → (Spec.occurrences runs us q a).length = runs.length) from this ps (fun _ h => h)
  unfold Spec.occurrences
  induction runs with
  | nil => intro us _; exact ⟨.nil, fun _ => rfl⟩
  | cons r t ih =>
    intro us hus
    cases us with
    | nil => exact ⟨.nil, fun h => absurd h (by simp)⟩
    | cons w us =>
      obtain ⟨i, j, hx, hy, hr⟩ := h r List.mem_cons_self
      obtain ⟨h1, h2⟩ := ih (fun run hrun => h run (List.mem_cons_of_mem _ hrun)) us
        (fun u hu => hus u (List.mem_cons_of_mem _ hu))
      unfold Spec.position? at hx hy
      cases hg : r.get? q with
      | none => rw [hg] at hx; simp at hx
      | some v =>
        rw [hg] at hx hy
        simp only [Option.bind_some] at hx hy
        obtain ⟨x, hx'⟩ := Option.isSome_iff_exists.1 (get?_isSome.2 (idxOf?_isSome.1
          (by rw [hx]; rfl : (v.keys.idxOf? a).isSome)))
        obtain ⟨y, hy'⟩ := Option.isSome_iff_exists.1 (get?_isSome.2 (idxOf?_isSome.1
          (by rw [hy]; rfl : (v.keys.idxOf? b).isSome)))
        simp only [List.zip_cons_cons, List.filterMap_cons, hg, Option.bind_some, hx, hy, hx', hy',
          Option.map_some]
        refine ⟨.cons ⟨hr, rfl, hus w List.mem_cons_self⟩ h1, fun hl => ?_⟩
        rw [List.length_cons, List.length_cons, h2 (by simpa using hl)]

/-- sums of a decreasing function of the positions -/
theorem positions_sum_lt {l l' : List Nat} (h : List.Forall₂ (· < ·) l l') (hne : l ≠ []) (f : Nat → ℝ)
    (hf : ∀ i j, i < j → f j < f i) : (l'.map f).sum < (l.map f).sum := by
  apply forall₂_sum_lt
  · rw [List.forall₂_map_left_iff, List.forall₂_map_right_iff]
    exact h.flip.imp (fun x y hxy => hf y x hxy)
  · intro e
    rw [List.map_eq_nil_iff] at e
    subst e
    cases h
    exact hne rfl

theorem allListFirst_normalised {runs : List (Spec.RunData κ δ ℝ)} {q : κ} {a b : δ} (k : Option Kind)
    (h : Spec.AllListFirst runs q a b) : Spec.AllListFirst (Spec.normalised k runs) q a b := by
  cases k with
  | none => exact h
  | some k =>
    rw [normalised_some]
    intro run' hr'
    obtain ⟨run, hr, rfl⟩ := List.mem_map.1 hr'
    simp only [position?_normalised]
    exact h run hr

/-- **C127** (positions): if every run lists both docs of a query, `a` before `b`, then in the fused run `a` has
a higher score and is listed before `b`, for the methods rrf, rbc, isr, log_isr, logn_isr and mapfuse with parameters
in their usual range, and every normalization that keeps the order of the docs. -/
theorem C127_positions (E : Env δ) (runs : List (Store κ δ ℝ)) (hn : 2 ≤ runs.length)
    (hw : ∀ s ∈ runs, Store.Wf s.data) (hq : Spec.SameQueries runs) (hE : Spec.SchedulesCover E runs)
    (norm : Option String) (k : Option Kind) (hk : Spec.NormNamed norm k) (hki : k ≠ some .minMaxInverted)
    (name : String) (params : Kwargs) (hR : Spec.PositionRule runs.length name params) (q : κ) (a b : δ)
    (h : Spec.AllListFirst (runs.map (fun s => s.data)) q a b) :
    ∃ out, fuse E runs norm name (some params) = .ok out ∧ Spec.PlacedAbove out q a b := by
  have hne : runs.map (fun s => s.data) ≠ [] := by
    intro e; rw [List.map_eq_nil_iff] at e; subst e; simp at hn
  have hin : Spec.InSome (runs.map (fun s => s.data)) q a ∧ Spec.InSome (runs.map (fun s => s.data)) q b := by
    obtain ⟨r, hr⟩ := List.exists_mem_of_ne_nil _ hne
    obtain ⟨i, j, hx, hy, -⟩ := h r hr
    unfold Spec.position? at hx hy
    cases hg : r.get? q with
    | none => rw [hg] at hx; simp at hx
    | some v =>
      rw [hg] at hx hy
      simp only [Option.bind_some] at hx hy
      exact ⟨⟨r, hr, v, hg, idxOf?_isSome.1 (by rw [hx]; rfl)⟩, ⟨r, hr, v, hg, idxOf?_isSome.1 (by rw [hy]; rfl)⟩⟩
  have hN := allListFirst_normalised k h
  obtain ⟨hps, hpl⟩ := forall₂_positions hN
  rw [normalised_length, List.length_map] at hpl
  have hpne : Spec.positions (Spec.normalised k (runs.map (fun s => s.data))) q a ≠ [] := by
    intro e; rw [e] at hpl; simp at hpl; omega
  have hll := hps.length_eq
  have fin : ∀ R, Spec.RankRule (runs.map (fun s => s.data)) name params R →
      (∀ x y, R (Spec.normalised k (runs.map (fun s => s.data))) q a x →
        R (Spec.normalised k (runs.map (fun s => s.data))) q b y → y < x) →
      ∃ out, fuse E runs norm name (some params) = .ok out ∧ Spec.PlacedAbove out q a b := by
    intro R hRR hlt
    obtain ⟨out, val, h1, h2, h3⟩ := C89_rank_methods E runs hn hw hq hE norm k hk hki name params R hRR
    exact ⟨out, h1, FusedBy_placed h2 hin.1 hin.2 (hlt _ _ (h3 q a hin.1) (h3 q b hin.2))⟩
  have hrrf : ∀ c : ℝ, 0 ≤ c → ∀ i j : Nat, i < j → 1 / (c + (j : ℝ) + 1) < 1 / (c + (i : ℝ) + 1) := by
    intro c hc i j hij
    have h1 : (i : ℝ) < (j : ℝ) := by exact_mod_cast hij
    have h2 : (0 : ℝ) ≤ (i : ℝ) := Nat.cast_nonneg i
    exact one_div_lt_one_div_of_lt (by linarith) (by linarith)
  have hisr : ∀ i j : Nat, i < j → 1 / ((j : ℝ) + 1) ^ 2 < 1 / ((i : ℝ) + 1) ^ 2 := by
    intro i j hij
    have h1 : (i : ℝ) < (j : ℝ) := by exact_mod_cast hij
    have h2 : (0 : ℝ) ≤ (i : ℝ) := Nat.cast_nonneg i
    exact one_div_lt_one_div_of_lt (by positivity) (by nlinarith)
  have hn2 : (2 : ℝ) ≤ (runs.length : ℝ) := by exact_mod_cast hn
  cases hR with
  | rrf =>
    refine fin _ .rrf (fun x y hx hy => ?_)
    rw [hx, hy]
    exact positions_sum_lt hps hpne _ (hrrf 60 (by norm_num))
  | rrfK c hc =>
    refine fin _ (.rrfK c (fun i => (add_pos_of_nonneg_of_pos hc (Nat.cast_pos.2 (Nat.succ_pos i))).ne')) (fun x y hx hy => ?_)
    rw [hx, hy]
    exact positions_sum_lt hps hpne _ (hrrf c hc)
  | rbc phi hphi =>
    refine fin _ (.rbc phi) (fun x y hx hy => ?_)
    rw [hx, hy]
    refine positions_sum_lt hps hpne _ (fun i j hij => ?_)
    exact mul_lt_mul_of_pos_left (pow_lt_pow_right_of_lt_one₀ hphi.1 hphi.2 hij) (by linarith [hphi.2])
  | isr =>
    refine fin _ .isr (fun x y hx hy => ?_)
    rw [hx, hy, ← hll, hpl]
    exact mul_lt_mul_of_pos_right (positions_sum_lt hps hpne _ hisr) (by linarith)
  | logIsr =>
    refine fin _ .logIsr (fun x y hx hy => ?_)
    rw [hx, hy, ← hll, hpl]
    exact mul_lt_mul_of_pos_right (positions_sum_lt hps hpne _ hisr) (Real.log_pos (by linarith))
  | lognIsr =>
    refine fin _ .lognIsr (fun x y hx hy => ?_)
    rw [hx, hy, ← hll, hpl]
    exact mul_lt_mul_of_pos_right (positions_sum_lt hps hpne _ hisr) (Real.log_pos (by norm_num; linarith))
  | lognIsrS s hs =>
    refine fin _ (.lognIsrS s hs) (fun x y hx hy => ?_)
    rw [hx, hy, ← hll, hpl]
    exact mul_lt_mul_of_pos_right (positions_sum_lt hps hpne _ hisr) (Real.log_pos (by linarith [hs.1]))
  | mapfuse maps hl hp =>
    refine fin _ (.mapfuse maps (by rw [List.length_map]; exact hl)) (fun x y hx hy => ?_)
    rw [hx, hy]
    obtain ⟨ho, hol⟩ := forall₂_occurrences hN maps
    have hol' := hol (by rw [normalised_length, List.length_map]; exact hl)
    rw [normalised_length, List.length_map] at hol'
    apply forall₂_sum_lt
    · rw [List.forall₂_map_left_iff, List.forall₂_map_right_iff]
      refine ho.flip.imp ?_
      rintro o o' ⟨h1, h2, h3⟩
      rw [← h2]
      have h4 : (o'.pos : ℝ) < (o.pos : ℝ) := by exact_mod_cast h1
      have h5 : (0 : ℝ) ≤ (o'.pos : ℝ) := Nat.cast_nonneg _
      exact div_lt_div_of_pos_left (hp _ h3) (by linarith) (by linarith)
    · intro e
      rw [List.map_eq_nil_iff] at e
      have := ho.length_eq
      rw [e, hol', List.length_nil] at this
      omega

theorem bordaPoints_lt {n : Nat} {run : Spec.RunData κ δ ℝ} {q : κ} {a b : δ} {i j : Nat}
    (hi : Spec.position? run q a = some i) (hj : Spec.position? run q b = some j) (hij : i < j) :
    Spec.bordaPoints n run q b < Spec.bordaPoints n run q a := by
  unfold Spec.bordaPoints
  rw [hi, hj]
  have : (i : ℝ) < (j : ℝ) := by exact_mod_cast hij
  simp only
  linarith

theorem forall₂_map_zip {runs : List (Spec.RunData κ δ ℝ)} {q : κ} {a b : δ}
    (h : Spec.AllListFirst runs q a b) (n : Nat) (ws : List ℝ) (hp : ∀ w ∈ ws, 0 < w) :
    List.Forall₂ (· < ·) ((runs.zip ws).map (fun rw => rw.2 * Spec.bordaPoints n rw.1 q b))
      ((runs.zip ws).map (fun rw => rw.2 * Spec.bordaPoints n rw.1 q a)) := by
  rw [List.forall₂_map_left_iff, List.forall₂_map_right_iff, List.forall₂_same]
  intro rw hrw
  obtain ⟨h1, h2⟩ := List.of_mem_zip hrw
  obtain ⟨i, j, hi, hj, hij⟩ := h rw.1 h1
  exact mul_lt_mul_of_pos_left (bordaPoints_lt hi hj hij) (hp _ h2)

/-- **C127** (borda): the same for bordafuse and, with positive weights, its weighted version, when the runs
list their queries in the same order. -/
theorem C127_borda (E : Env δ) (runs : List (Store κ δ ℝ)) (hn : 2 ≤ runs.length)
    (hw : ∀ s ∈ runs, Store.Wf s.data) (hq : Spec.SameQueries runs) (hE : Spec.SchedulesCover E runs)
    (hord : ∀ s ∈ runs, ∀ s' ∈ runs, s.data.keys = s'.data.keys)
    (norm : Option String) (k : Option Kind) (hk : Spec.NormNamed norm k) (hki : k ≠ some .minMaxInverted)
    (q : κ) (a b : δ) (h : Spec.AllListFirst (runs.map (fun s => s.data)) q a b) :
    (∃ out, fuse E runs norm "bordafuse" (some []) = .ok out ∧ Spec.PlacedAbove out q a b) ∧
    ∀ ws : List ℝ, runs.length ≤ ws.length → (∀ w ∈ ws, 0 < w) →
      ∃ out, fuse E runs norm "w_bordafuse" (some [("weights", .nums ws)]) = .ok out ∧
        Spec.PlacedAbove out q a b := by
  have hne : runs.map (fun s => s.data) ≠ [] := by
    intro e; rw [List.map_eq_nil_iff] at e; subst e; simp at hn
  have hin : Spec.InSome (runs.map (fun s => s.data)) q a ∧ Spec.InSome (runs.map (fun s => s.data)) q b := by
    obtain ⟨r, hr⟩ := List.exists_mem_of_ne_nil _ hne
    obtain ⟨i, j, hx, hy, -⟩ := h r hr
    unfold Spec.position? at hx hy
    cases hg : r.get? q with
    | none => rw [hg] at hx; simp at hx
    | some v =>
      rw [hg] at hx hy
      simp only [Option.bind_some] at hx hy
      exact ⟨⟨r, hr, v, hg, idxOf?_isSome.1 (by rw [hx]; rfl)⟩, ⟨r, hr, v, hg, idxOf?_isSome.1 (by rw [hy]; rfl)⟩⟩
  have hord' : ∀ run ∈ runs.map (fun s => s.data), ∀ run' ∈ runs.map (fun s => s.data), run.keys = run'.keys := by
    intro run hr run' hr'
    obtain ⟨s, hs, rfl⟩ := List.mem_map.1 hr
    obtain ⟨s', hs', rfl⟩ := List.mem_map.1 hr'
    exact hord s hs s' hs'
  have hN := allListFirst_normalised k h
  have hNne : Spec.normalised k (runs.map (fun s => s.data)) ≠ [] := by
    rw [← List.length_pos_iff, normalised_length]; exact List.length_pos_iff.2 hne
  constructor
  · obtain ⟨out, val, h1, h2, h3⟩ := C89_rank_methods E runs hn hw hq hE norm k hk hki "bordafuse" [] _
      (.bordafuse hord')
    refine ⟨out, h1, FusedBy_placed h2 hin.1 hin.2 ?_⟩
    rw [h3 q a hin.1, h3 q b hin.2]
    apply forall₂_sum_lt
    · rw [List.forall₂_map_left_iff, List.forall₂_map_right_iff, List.forall₂_same]
      intro run hr
      obtain ⟨i, j, hi, hj, hij⟩ := hN run hr
      exact bordaPoints_lt hi hj hij
    · simpa using hNne
  · intro ws hl hp
    obtain ⟨out, val, h1, h2, h3⟩ := C89_rank_methods E runs hn hw hq hE norm k hk hki "w_bordafuse"
      [("weights", .nums ws)] _ (.wBordafuse ws (by rw [List.length_map]; exact hl) hord')
    refine ⟨out, h1, FusedBy_placed h2 hin.1 hin.2 ?_⟩
    rw [h3 q a hin.1, h3 q b hin.2]
    apply forall₂_sum_lt (forall₂_map_zip hN _ ws hp)
    intro e
    rw [List.map_eq_nil_iff] at e
    have : ((Spec.normalised k (runs.map (fun s => s.data))).zip ws).length = 0 := by rw [e]; rfl
    rw [List.length_zip, normalised_length, List.length_map] at this
    omega

end

/-! ### instances: two runs that both retrieve docs 10 and 11 of query 1 and both prefer 10 -/

def unaStore1 : Store Nat Nat ℝ := ⟨[(1, [(10, 5), (11, 4)]), (2, [(20, 1)])], true⟩
def unaStore2 : Store Nat Nat ℝ := ⟨[(1, [(10, 9), (12, 6), (11, -2)]), (2, [(21, 3)])], true⟩

theorem unaStore_wf : ∀ s ∈ [unaStore1, unaStore2], Store.Wf s.data := by
  intro s hs
  simp only [List.mem_cons, List.not_mem_nil, or_false] at hs
  rcases hs with rfl | rfl
  · exact ⟨by unfold NodupKeys unaStore1; decide, by unfold unaStore1 NodupKeys; simp⟩
  · exact ⟨by unfold NodupKeys unaStore2; decide, by unfold unaStore2 NodupKeys; simp⟩

theorem unaStore_keys : ∀ s ∈ [unaStore1, unaStore2], s.data.keys = [1, 2] := by
  intro s hs
  simp only [List.mem_cons, List.not_mem_nil, or_false] at hs
  rcases hs with rfl | rfl <;> rfl

theorem unaStore_same : Spec.SameQueries [unaStore1, unaStore2] := by
  intro s hs s' hs' q hq
  rw [unaStore_keys s' hs']; rwa [unaStore_keys s hs] at hq

theorem unaEnv_cover : Spec.SchedulesCover exEnv [unaStore1, unaStore2] := by
  have two : Schedule 2 [1, 0] := by unfold Schedule; decide
  have two' : Schedule 2 [0, 1] := by unfold Schedule; decide
  have hlen : ∀ (j : Nat) s, [unaStore1, unaStore2][j]? = some s → s.data.length = 2 := by
    intro j s hj
    have := unaStore_keys s (List.mem_of_getElem? hj)
    have h2 : s.data.keys.length = s.data.length := List.length_map _
    rw [← h2, this]; rfl
  constructor
  · intro s hs
    rw [hlen 0 s hs]; exact two
  · intro j s hs
    rw [hlen j s hs]; exact two'
  · intro j s hs
    rw [hlen j s hs]; exact two

theorem una_prefer : Spec.AllPreferStrictly ([unaStore1, unaStore2].map (fun s => s.data)) 1 10 11 := by
  intro run hr
  simp only [List.map_cons, List.map_nil, List.mem_cons, List.not_mem_nil, or_false] at hr
  rcases hr with rfl | rfl
  · exact ⟨5, 4, rfl, rfl, by norm_num⟩
  · exact ⟨9, -2, rfl, rfl, by norm_num⟩

theorem una_first : Spec.AllListFirst ([unaStore1, unaStore2].map (fun s => s.data)) 1 10 11 := by
  intro run hr
  simp only [List.map_cons, List.map_nil, List.mem_cons, List.not_mem_nil, or_false] at hr
  rcases hr with rfl | rfl
  · exact ⟨0, 1, rfl, rfl, by norm_num⟩
  · exact ⟨0, 2, rfl, rfl, by norm_num⟩

/-- Non-vacuity of C127: zmuv and the median -/
example : ∃ out, fuse exEnv [unaStore1, unaStore2] (some "zmuv") "med" (some []) = .ok out ∧
    Spec.PlacedAbove out 1 10 11 :=
  C127_scores_strict exEnv _ (by decide) unaStore_wf unaStore_same unaEnv_cover (some "zmuv") (some .zmuv)
    (.inr ⟨_, _, rfl, rfl, by decide +kernel, by decide⟩) (by decide) (by decide) "med" [] _ .med
    (fun ws h => absurd h (by simp)) 1 10 11 una_prefer

/-- Non-vacuity of C127: weighted sums, one weight 0 -/
example : ∃ out, fuse exEnv [unaStore1, unaStore2] (some "min-max") "wsum" (some [("weights", .nums [1, 0])]) =
    .ok out ∧ Spec.NotBelow out 1 10 11 :=
  C127_scores exEnv _ (by decide) unaStore_wf unaStore_same unaEnv_cover (some "min-max") (some .minMax)
    (.inr ⟨_, _, rfl, rfl, by decide +kernel, by decide⟩) (by decide) (by decide) "wsum" _ _
    (.wsum [1, 0] (by simp)) (by
      intro ws h w hw
      have : ws = [1, 0] := by simpa using h.symm
      subst this
      simp only [List.mem_cons, List.not_mem_nil, or_false] at hw
      rcases hw with rfl | rfl <;> norm_num) 1 10 11
    (fun run hr => by obtain ⟨x, y, h1, h2, h3⟩ := una_prefer run hr; exact ⟨x, y, h1, h2, h3.le⟩)

/-- Non-vacuity of C127: inverted min-max turns the order round -/
example : ∃ out, fuse exEnv [unaStore1, unaStore2] (some "min-max-inverted") "max" (some []) = .ok out ∧
    Spec.PlacedAbove out 1 11 10 :=
  C127_inverted exEnv _ (by decide) unaStore_wf unaStore_same unaEnv_cover (some "min-max-inverted")
    (.inr ⟨_, _, rfl, rfl, by decide +kernel, by decide⟩) "max" [] _ .max
    (fun ws h => absurd h (by simp)) 1 11 10 una_prefer

/-- Non-vacuity of C127: rank normalization -/
example : ∃ out, fuse exEnv [unaStore1, unaStore2] (some "rank") "mnz" (some []) = .ok out ∧
    Spec.PlacedAbove out 1 10 11 :=
  C127_rank_norm exEnv _ (by decide) unaStore_wf unaStore_same unaEnv_cover (some "rank")
    (.inr ⟨_, _, rfl, rfl, by decide +kernel, by decide⟩) "mnz" [] _ .mnz
    (fun ws h => absurd h (by simp)) 1 10 11 una_first

/-- Non-vacuity of C127: positions and borda -/
example : (∃ out, fuse exEnv [unaStore1, unaStore2] none "log_isr" (some []) = .ok out ∧
      Spec.PlacedAbove out 1 10 11) ∧
    ∃ out, fuse exEnv [unaStore1, unaStore2] none "bordafuse" (some []) = .ok out ∧
      Spec.PlacedAbove out 1 10 11 :=
  ⟨C127_positions exEnv _ (by decide) unaStore_wf unaStore_same unaEnv_cover none none (.inl ⟨rfl, rfl⟩)
    (by decide) "log_isr" [] .logIsr 1 10 11 una_first,
   (C127_borda exEnv _ (by decide) unaStore_wf unaStore_same unaEnv_cover
    (fun s hs s' hs' => by rw [unaStore_keys s hs, unaStore_keys s' hs']) none none (.inl ⟨rfl, rfl⟩)
    (by decide) 1 10 11 una_first).1⟩

end Ranx
