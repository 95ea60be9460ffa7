import Verif.Model.Plot
import Verif.Props.Train
import Verif.Props.Metrics2
import Verif.Props.Format

/-!
# C91, C92: recall levels in floating point, and the precision-recall curves of `plot`
-/

set_option linter.unusedSectionVars false

namespace Ranx
open Dict Store Eval Metrics F64
open Py (Str natStr)
variable {κ δ ι α : Type}

/-! ## C91: the number of relevant docs a recall level requires -/

theorem flCutoff_near (i R : Nat) (hi : i ≤ 10) (hR : R ≤ 2 ^ 40) :
    |fl (fl (fl ((i : ℚ) / 10) * (R : ℚ)) + fl (9 / 10)) - ((i * R + 9 : Nat) : ℚ) / 10| ≤ 1 / 20 := by
  have hiq : (i : ℚ) ≤ 10 := by exact_mod_cast hi
  have hi0 : (0 : ℚ) ≤ i := Nat.cast_nonneg i
  have hRq : (R : ℚ) ≤ 2 ^ 40 := by exact_mod_cast hR
  have hR0 : (0 : ℚ) ≤ R := Nat.cast_nonneg R
  have h1 : (0 : ℚ) ≤ (i : ℚ) / 10 := by positivity
  have a0 := fl_nonneg h1
  obtain ⟨a1, a2⟩ := abs_le.1 (fl_rel _ h1)
  have hi1 : (i : ℚ) / 10 ≤ 1 := by linarith
  generalize fl ((i : ℚ) / 10) = a at *
  have ha2 : a ≤ 2 := by
    have : (i : ℚ) / 10 / 2 ^ 53 ≤ 1 := by rw [div_le_one (by positivity)]; linarith
    linarith
  have h2 : 0 ≤ a * R := by positivity
  have b0 := fl_nonneg h2
  obtain ⟨b1, b2⟩ := abs_le.1 (fl_rel _ h2)
  have haR : a * R ≤ 2 * R := mul_le_mul_of_nonneg_right ha2 hR0
  -- a * R is close to i * R / 10
  have e1 : (i : ℚ) / 10 / 2 ^ 53 ≤ 1 / 2 ^ 53 := div_le_div_of_nonneg_right hi1 (by positivity)
  have c1 : (a - (i : ℚ) / 10) * R ≤ 1 / 2 ^ 53 * R := mul_le_mul_of_nonneg_right (by linarith) hR0
  have c2 : -(1 / 2 ^ 53) * R ≤ (a - (i : ℚ) / 10) * R := mul_le_mul_of_nonneg_right (by linarith) hR0
  have e2 : a * R / 2 ^ 53 ≤ 2 * R / 2 ^ 53 := div_le_div_of_nonneg_right haR (by positivity)
  generalize fl (a * R) = b at *
  have n0 := fl_nonneg (show (0 : ℚ) ≤ 9 / 10 by norm_num)
  obtain ⟨n1, n2⟩ := abs_le.1 (fl_rel (9 / 10) (by norm_num))
  generalize fl (9 / 10) = n at *
  have h3 : 0 ≤ b + n := by positivity
  obtain ⟨d1, d2⟩ := abs_le.1 (fl_rel _ h3)
  generalize fl (b + n) = c at *
  have hR' : (R : ℚ) / 2 ^ 53 ≤ 1 / 2 ^ 13 := by
    rw [div_le_iff₀ (by positivity)]; norm_num; linarith
  have hb : b ≤ 3 * R := by
    have : 2 * (R : ℚ) / 2 ^ 53 ≤ R := by
      rw [div_le_iff₀ (by positivity)]
      nlinarith
    linarith
  have hn : n ≤ 1 := by norm_num at n2 ⊢; linarith
  have e3 : (b + n) / 2 ^ 53 ≤ (3 * R + 1) / 2 ^ 53 := div_le_div_of_nonneg_right (by linarith) (by positivity)
  have e4 : (3 * (R : ℚ) + 1) / 2 ^ 53 = 3 * ((R : ℚ) / 2 ^ 53) + 1 / 2 ^ 53 := by ring
  have e5 : 2 * (R : ℚ) / 2 ^ 53 = 2 * ((R : ℚ) / 2 ^ 53) := by ring
  have e6 : 1 / 2 ^ 53 * (R : ℚ) = (R : ℚ) / 2 ^ 53 := by ring
  have e7 : -(1 / 2 ^ 53) * (R : ℚ) = -((R : ℚ) / 2 ^ 53) := by ring
  have e8 : (a - (i : ℚ) / 10) * R = a * R - (i : ℚ) * R / 10 := by ring
  have e9 : ((i * R + 9 : Nat) : ℚ) / 10 = (i : ℚ) * R / 10 + 9 / 10 := by push_cast; ring
  rw [e6] at c1
  rw [e7] at c2
  rw [e8] at c1 c2
  rw [e4] at e3
  rw [e5] at e2
  rw [e9]
  generalize (R : ℚ) / 2 ^ 53 = ρ at *
  norm_num at *
  exact abs_le.2 ⟨by linarith, by linarith⟩

/-- **C91** (cutoffs): the number of relevant docs required for recall `i/10` is computed right except possibly
when `i·R` ends in 1, where it may be one too small. -/
theorem C91_cutoff (i R : Nat) (hi : i ≤ 10) (hR : R ≤ 2 ^ 40) :
    ((i * R) % 10 ≠ 1 → flCutoff i R = exactCutoff i R) ∧
    flCutoff i R ≤ exactCutoff i R ∧ exactCutoff i R ≤ flCutoff i R + 1 := by
  obtain ⟨h1, h2⟩ := abs_le.1 (flCutoff_near i R hi hR)
  unfold flCutoff exactCutoff
  generalize fl (fl (fl ((i : ℚ) / 10) * (R : ℚ)) + fl (9 / 10)) = c at *
  have hdm := Nat.div_add_mod (i * R + 9) 10
  have hj := Nat.mod_lt (i * R + 9) (show 10 > 0 by norm_num)
  have hjq : (((i * R + 9) % 10 : Nat) : ℚ) ≤ 9 := by exact_mod_cast Nat.le_of_lt_succ hj
  have hj0 : (0 : ℚ) ≤ (((i * R + 9) % 10 : Nat) : ℚ) := Nat.cast_nonneg _
  have he : ((i * R + 9 : Nat) : ℚ) / 10 = (((i * R + 9) / 10 : Nat) : ℚ) + (((i * R + 9) % 10 : Nat) : ℚ) / 10 := by
    have : ((i * R + 9 : Nat) : ℚ) = 10 * (((i * R + 9) / 10 : Nat) : ℚ) + (((i * R + 9) % 10 : Nat) : ℚ) := by
      exact_mod_cast hdm.symm
    rw [this]; ring
  rw [he] at h1 h2
  have hmod : (i * R) % 10 ≠ 1 → 1 ≤ (i * R + 9) % 10 := by omega
  generalize (i * R + 9) / 10 = m at *
  generalize (i * R + 9) % 10 = j at *
  have hup : ⌊c⌋ ≤ (m : ℤ) := by
    rw [← Int.lt_add_one_iff, Int.floor_lt]
    push_cast
    linarith
  have hlow : (m : ℤ) - 1 ≤ ⌊c⌋ := by
    rw [Int.le_floor]; push_cast; linarith
  refine ⟨?_, ?_, ?_⟩
  · intro hm
    have hj1 : (1 : ℚ) ≤ j := by exact_mod_cast hmod hm
    have : (m : ℤ) ≤ ⌊c⌋ := by
      rw [Int.le_floor]; push_cast; linarith
    omega
  · omega
  · omega

theorem flCutoff_mono (R i j : Nat) (h : i ≤ j) : flCutoff i R ≤ flCutoff j R := by
  unfold flCutoff
  apply Int.toNat_le_toNat
  apply Int.floor_le_floor
  apply fl_mono
  have : fl ((i : ℚ) / 10) * R ≤ fl ((j : ℚ) / 10) * R := by
    apply mul_le_mul_of_nonneg_right _ (Nat.cast_nonneg R)
    apply fl_mono
    apply div_le_div_of_nonneg_right _ (by norm_num)
    exact_mod_cast h
  linarith [fl_mono this]

section
variable [LinearOrder ι] [Field α] [LinearOrder α] [IsStrictOrderedRing α]

/-- **C91**: unless `i·R` ends in 1 (`R` relevant docs), entry `i` as computed with float cutoffs is the
greatest precision over the ranks with recall ≥ i/10, and 0 if there are none. -/
theorem C91_levels_partial (q run : Rows ι α) (lvl : α) (i : Nat) (hi : i < 11) (hR : Spec.numRel q lvl ≠ 0)
    (hb : Spec.numRel q lvl ≤ 2 ^ 40) (h1 : (i * Spec.numRel q lvl) % 10 ≠ 1) :
    ∃ v, (interpolatedPrecision flCutoff q run lvl)[i]? = some v ∧
      Spec.GreatestPrecision (Spec.Rel q lvl) (Spec.numRel q lvl) (run.map Prod.fst) ((i : α) / 10) v := by
  obtain ⟨v, e1, e2, -⟩ := C21_interpolated flCutoff q run lvl i hi
  obtain ⟨w, f1, f2⟩ := C21_interpolated_exact q run lvl i hi hR
  obtain ⟨w', g1, g2, -⟩ := C21_interpolated exactCutoff q run lvl i hi
  rw [f1] at g1
  cases g1
  have hc := (C91_cutoff i _ (by omega) hb).1 h1
  have k1 := e2 hR
  have k2 := g2 hR
  rw [hc] at k1
  have : v = w := le_antisymm (interpolated_antitone k2 k1 le_rfl) (interpolated_antitone k1 k2 le_rfl)
  subst this
  exact ⟨v, e1, f2⟩

/-- **C91** (one-sided): the computed value is never below the right one. -/
theorem C91_never_below (q run : Rows ι α) (lvl : α) (i : Nat) (hi : i < 11) (hb : Spec.numRel q lvl ≤ 2 ^ 40) :
    ∃ v w, (interpolatedPrecision flCutoff q run lvl)[i]? = some v ∧
      (interpolatedPrecision exactCutoff q run lvl)[i]? = some w ∧ w ≤ v := by
  obtain ⟨v, e1, e2, e3⟩ := C21_interpolated flCutoff q run lvl i hi
  obtain ⟨w, f1, f2, f3⟩ := C21_interpolated exactCutoff q run lvl i hi
  refine ⟨v, w, e1, f1, ?_⟩
  by_cases hR : Spec.numRel q lvl = 0
  · rw [e3 hR, f3 hR]
  · exact interpolated_antitone (e2 hR) (f2 hR) (C91_cutoff i _ (by omega) hb).2.1

/-- **C91** (shape): the eleven values computed with float cutoffs are non-increasing and in [0,1]. -/
theorem C91_shape (q run : Rows ι α) (lvl : α) :
    (interpolatedPrecision flCutoff q run lvl).length = 11 ∧
    ∀ (i j : Nat) (v w : α), i ≤ j → (interpolatedPrecision flCutoff q run lvl)[i]? = some v →
      (interpolatedPrecision flCutoff q run lvl)[j]? = some w → 0 ≤ w ∧ w ≤ v ∧ v ≤ 1 :=
  C21_shape flCutoff flCutoff_mono q run lvl

end

/-- **C91** refuted in general: three docs are relevant and two are retrieved, so recall never reaches 0.7; still
the value at recall 0.7 is 1, because `int(0.7 * 3 + 0.9)` is 2 in floating point. -/
theorem C91_refuted :
    (interpolatedPrecision flCutoff ([(1, 1), (2, 1), (3, 1)] : Rows Nat ℚ) [(1, 9), (2, 8)] 1)[7]? = some 1 ∧
    ∀ v : ℚ, Spec.GreatestPrecision (Spec.Rel [((1 : Nat), (1 : ℚ)), (2, 1), (3, 1)] 1)
      (Spec.numRel [((1 : Nat), (1 : ℚ)), (2, 1), (3, 1)] 1) [1, 2] (7 / 10) v ↔ v = 0 := by
  have low : ∀ m, 1 ≤ m → m ≤ 2 → (Spec.recall (Spec.Rel [((1 : Nat), (1 : ℚ)), (2, 1), (3, 1)] 1)
      (Spec.numRel [((1 : Nat), (1 : ℚ)), (2, 1), (3, 1)] 1) [1, 2] m : ℚ) < 7 / 10 := by
    intro m h1 h2
    have e := recall_eq ([(1, 1), (2, 1), (3, 1)] : Rows Nat ℚ) [(1, 9), (2, 8)] m 1
    refine lt_of_eq_of_lt e.symm ?_
    interval_cases m <;> decide +kernel
  refine ⟨by decide +kernel, fun v => ⟨?_, ?_⟩⟩
  · rintro (⟨m, h1, h2, h3, -⟩ | ⟨-, h⟩)
    · exact absurd h3 (not_le.2 (low m h1 h2))
    · exact h
  · rintro rfl
    exact Or.inr ⟨low, rfl⟩

/-- the hypotheses of `C91_levels_partial` hold for these judgements at every other recall level -/
example : Spec.numRel ([(1, 1), (2, 1), (3, 1)] : Rows Nat ℚ) 1 = 3 ∧ ∀ i < 11, i ≠ 7 → (i * 3) % 10 ≠ 1 := by
  refine ⟨by simp [Spec.numRel], by decide⟩

/-! ## C92: the curves of `plot` -/

section
variable [LinearOrder κ] [DecidableEq δ] [LinearOrder ι] [Field α] [LinearOrder α]
  [IsStrictOrderedRing α]
open Train Plot

theorem isInterpolated_map {hash : δ → ι} {rel : ι → Prop} {rel' : δ → Prop} {l : List δ} {c : Nat} {v : α}
    (hr : ∀ d ∈ l, rel (hash d) ↔ rel' d) (h : Spec.IsInterpolated rel (l.map hash) c v) :
    Spec.IsInterpolated rel' l c v := by
  unfold Spec.IsInterpolated at h ⊢
  simp only [relIn_map rel hash rel' l _ hr, List.length_map] at h
  exact h

/-- one query: the interpolated precisions of the ranking of the query against its judgements -/
theorem interpolated_asRows (cutoff : Nat → Nat → Nat) {hash : δ → ι} {s : Store κ δ Int} {r : Store κ δ α} {q : κ}
    (hc : Spec.NoCollision hash s r q) {jl : List (δ × Int)} {rl : List (δ × α)}
    (hj : Spec.Ranking (Spec.content s) q jl) (hrl : Spec.Ranking (Spec.content r) q rl) (i : Nat) (hi : i < 11) :
    ∃ v, (interpolatedPrecision cutoff (asRows hash (fun z : Int => (z : α)) jl) (asRows hash id rl) 1)[i]? = some v ∧
      (Spec.numRelDocs s q 1 ≠ 0 → Spec.IsInterpolated (Spec.RelDoc s q 1) (rl.map Prod.fst)
        (cutoff i (Spec.numRelDocs s q 1)) v) ∧
      (Spec.numRelDocs s q 1 = 0 → v = 0) := by
  have h1 : (((1 : Nat) : Int) : α) = 1 := by simp
  obtain ⟨v, e1, e2, e3⟩ := C21_interpolated cutoff (asRows hash (fun z : Int => (z : α)) jl)
    (asRows hash id rl) 1 i hi
  have hn := numRel_asRows (α := α) (hash := hash) hj 1
  rw [h1] at hn
  rw [hn] at e2 e3
  refine ⟨v, e1, fun hR => ?_, e3⟩
  have := e2 hR
  unfold ids at this
  rw [ids_asRows] at this
  refine isInterpolated_map ?_ this
  intro d hd
  obtain ⟨⟨d', w⟩, hm, rfl⟩ := List.mem_map.1 hd
  have hrel := rel_asRows (α := α) hc hj 1 d' (.inr ⟨w, (hrl.docs _ _).1 hm⟩)
  rwa [h1] at hrel

/-- Specification: `v` is the interpolated precision of the ranking `ids` of query `q` at level `i`, a recall level
requiring `need` of the `R` relevant docs; 0 for queries without relevant docs. -/
def Spec.InterpolatedAt (need : Nat → Nat → Nat) (s : Store κ δ Int) (ids : κ → List δ) (q : κ) (i : Nat)
    (v : α) : Prop :=
  (Spec.numRelDocs s q 1 ≠ 0 → Spec.IsInterpolated (Spec.RelDoc s q 1) (ids q)
    (need i (Spec.numRelDocs s q 1)) v) ∧ (Spec.numRelDocs s q 1 = 0 → v = 0)

theorem Plot.rows_obj (cutoff : Nat → Nat → Nat) (SQ : ArgSort Int) (SR : ArgSort α) (hash : δ → ι) (sched : List Nat)
    (s : Store κ δ Int) (r : Store κ δ α) (hs : Spec.Usable SQ s) (hr : Spec.Usable SR r)
    (hk : ∀ q, q ∈ r.data.keys ↔ q ∈ s.data.keys) (hc : ∀ q, Spec.NoCollision hash s r q)
    (hsched : Schedule s.data.length sched) :
    ∃ (ids : κ → List δ) (f : κ → List α), Spec.Rankings s r ids ∧
      (∀ q ∈ (s.ensureSorted SQ).data.keys, ∀ i < 11, ∃ v, (f q)[i]? = some v ∧
        Spec.InterpolatedAt cutoff s ids q i v) ∧
      interpolatedRows cutoff sched (Store.rows hash (fun z : Int => (z : α)) (s.ensureSorted SQ).data)
        (Store.rows hash id (r.ensureSorted SR).data) =
      .ok ((s.ensureSorted SQ).data.keys.map f) := by
  classical
  obtain ⟨w1, c1, k1, rk1, o1, l1⟩ := ensureSorted_facts SQ s hs.ok.1 hs.ok.2
  obtain ⟨w2, c2, k2, rk2, o2, l2⟩ := ensureSorted_facts SR r hr.ok.1 hr.ok.2
  have hkeys : (s.ensureSorted SQ).data.keys = (r.ensureSorted SR).data.keys := by
    apply eq_of_mem_iff_of_sorted_lt o1 o2
    intro q
    rw [k1, k2, hk]
  set ks := (s.ensureSorted SQ).data.keys with hks
  have hlen : ks.length = s.data.length := by rw [hks]; simp [l1]
  have hrank : ∀ q ∈ ks, ∃ l, (r.ensureSorted SR).data.get? q = some l ∧
      Spec.Ranking (Spec.content r) q l := by
    intro q hq
    rw [hkeys] at hq
    obtain ⟨l, hl⟩ := Option.isSome_iff_exists.1 (get?_isSome.2 hq)
    have := ranking_of_mem _ w2 rk2 hl
    rw [c2] at this
    exact ⟨l, hl, this⟩
  have hjud : ∀ q ∈ ks, ∃ l, (s.ensureSorted SQ).data.get? q = some l ∧
      Spec.Ranking (Spec.content s) q l := by
    intro q hq
    obtain ⟨l, hl⟩ := Option.isSome_iff_exists.1 (get?_isSome.2 hq)
    have := ranking_of_mem _ w1 rk1 hl
    rw [c1] at this
    exact ⟨l, hl, this⟩
  refine ⟨fun q => (((r.ensureSorted SR).data.get? q).getD []).map Prod.fst,
    fun q => interpolatedPrecision cutoff (asRows hash (fun z : Int => (z : α))
      (((s.ensureSorted SQ).data.get? q).getD [])) (asRows hash id (((r.ensureSorted SR).data.get? q).getD [])) 1,
    ?_, ?_, ?_⟩
  · intro q hq
    have hq' : q ∈ ks := by
      unfold Spec.queries at hq
      rw [List.mem_toFinset] at hq
      exact (k1 q).2 hq
    obtain ⟨l, hl, hrl⟩ := hrank q hq'
    exact ⟨l, hrl, by simp only [hl, Option.getD_some]⟩
  · intro q hq i hi
    obtain ⟨l, hl, hrl⟩ := hrank q hq
    obtain ⟨jl, hjl, hj⟩ := hjud q hq
    obtain ⟨v, g1, g2, g3⟩ := interpolated_asRows cutoff (hc q) hj hrl i hi
    refine ⟨v, ?_, ?_, g3⟩
    · simp only [hl, hjl, Option.getD_some]; exact g1
    · simp only [hl, Option.getD_some]; exact g2
  · unfold interpolatedRows
    rw [rows_eq _ _ _ w1.1, rows_eq _ _ _ w2.1, ← hkeys, ← hks]
    rw [if_neg (by simp)]
    rw [prange_eq _ _ _ (by simpa [hlen] using hsched)]
    congr 1
    apply List.ext_getElem?
    intro i
    simp only [List.length_map, List.length_replicate]
    by_cases hi : i < ks.length
    · have hq : ks[i]? = some ks[i] := List.getElem?_eq_getElem hi
      generalize ks[i] = q at hq
      rw [List.getElem?_map, List.getElem?_range hi, List.getElem?_map, hq]
      simp only [Option.map_some, List.getElem?_map, hq, Option.getD_some]
    · rw [List.getElem?_eq_none (by simpa using hi), List.getElem?_eq_none (by simpa using hi)]

/-- Specification: the curve of a run, its eleven points. -/
def Spec.Curve (need : Nat → Nat → Nat) (s : Store κ δ Int) (r : Store κ δ α) (c : List α) : Prop :=
  c.length = 11 ∧ ∃ (ids : κ → List δ) (v : κ → Nat → α), Spec.Rankings s r ids ∧
    ∀ i < 11, (∀ q ∈ Spec.queries s, Spec.InterpolatedAt need s ids q i (v q i)) ∧
      c[i]? = some ((∑ q ∈ Spec.queries s, v q i) / ((Spec.queries s).card : α))

theorem Plot.curves_eq (cutoff : Nat → Nat → Nat) (SQ : ArgSort Int) (SR : ArgSort α) (hash : δ → ι)
    (sched : Nat → List Nat) (s : Store κ δ Int) (runs : List (Store κ δ α))
    (hT : Spec.Trainable SQ SR hash s runs) (hsched : ∀ i, Schedule s.data.length (sched i)) :
    ∃ cs, curves cutoff sched (Store.rows hash (fun z : Int => (z : α)) (s.ensureSorted SQ).data)
        (runs.map (fun r => Store.rows hash id (r.ensureSorted SR).data)) = .ok cs ∧
      List.Forall₂ (Spec.Curve cutoff s) runs cs := by
  induction runs generalizing sched with
  | nil => exact ⟨[], rfl, .nil⟩
  | cons r rs ih =>
    obtain ⟨ids, f, h1, h2, h3⟩ := rows_obj cutoff SQ SR hash (sched 0) s r hT.qrels (hT.usable r (by simp))
      (hT.queries r (by simp)) (hT.hash r (by simp)) (hsched 0)
    obtain ⟨cs, g1, g2⟩ := ih (fun i => sched (i + 1))
      ⟨hT.qrels, fun r hr => hT.usable r (by simp [hr]), hT.nonempty,
        fun r hr => hT.queries r (by simp [hr]), fun r hr => hT.hash r (by simp [hr])⟩
      (fun i => hsched (i + 1))
    refine ⟨meanAxis0 ((s.ensureSorted SQ).data.keys.map f) :: cs, ?_, .cons ?_ g2⟩
    · rw [List.map_cons, curves, h3]
      simp only
      rw [g1]
    · refine ⟨by simp [meanAxis0], ids, fun q i => ((f q)[i]?).getD 0, h1, ?_⟩
      intro i hi
      constructor
      · intro q hq
        obtain ⟨v, a, b⟩ := h2 q ((mem_keys_iff SQ s hT.qrels q).2 hq) i hi
        simp only [a, Option.getD_some]
        exact b
      · unfold meanAxis0
        rw [List.getElem?_map, List.getElem?_range hi]
        simp only [Option.map_some, Option.some.injEq, List.length_map]
        rw [List.map_map, ← sum_keys SQ s hT.qrels, ← length_keys_eq SQ s hT.qrels]
        rfl

theorem frame_levels : ∃ levels, recallLevels = .ok levels ∧ levels.length = 11 ∧
    ∀ (i : Nat) (x : ℚ), levels[i]? = some x → |x - (i : ℚ) / 10| ≤ 1 / 10 ^ 15 := by
  have h : ∃ levels, recallLevels = .ok levels := by
    unfold recallLevels Opt.npArange
    rw [if_neg (by decide +kernel)]
    exact ⟨_, rfl⟩
  obtain ⟨levels, h⟩ := h
  have h2 : recallLevels.toOption.map List.length = some 11 ∧
      ∀ i : Nat, i < 11 → (recallLevels.toOption.bind (fun l => l[i]?)).all
        (fun x => decide (|x - (i : ℚ) / 10| ≤ 1 / 10 ^ 15)) = true := by decide +kernel
  rw [h] at h2
  obtain ⟨h3, h4⟩ := h2
  simp only [Except.toOption, Option.map_some, Option.some.injEq, Option.bind_some] at h3 h4
  refine ⟨levels, h, h3, ?_⟩
  intro i x hx
  have hi : i < 11 := by rw [← h3]; exact (List.getElem?_eq_some_iff.1 hx).1
  have := h4 i hi
  rw [hx] at this
  simpa using this

theorem flatten_get {γ : Type} (l : List (List γ)) (n : Nat) (h : ∀ x ∈ l, x.length = n) (j i : Nat) (hi : i < n)
    (x : List γ) (hx : l[j]? = some x) : l.flatten[n * j + i]? = x[i]? := by
  induction l generalizing j with
  | nil => simp at hx
  | cons a t ih =>
    rw [List.flatten_cons]
    have ha := h a (by simp)
    cases j with
    | zero =>
      simp only [List.getElem?_cons_zero, Option.some.injEq] at hx
      subst hx
      rw [Nat.mul_zero, Nat.zero_add, List.getElem?_append_left (by omega)]
    | succ j =>
      have : n * (j + 1) + i = n + (n * j + i) := by ring
      rw [List.getElem?_append_right (by rw [ha, this]; omega), ha, this, Nat.add_sub_cancel_left]
      exact ih (fun x hx => h x (by simp [hx])) j (by simpa using hx)

/-- the name of the run; without one it is `run`, or `run_1`, `run_2`, … if a list of runs is plotted -/
def Spec.legend (single : Bool) (j : Nat) (name : Option Str) : Str :=
  name.getD (if single then "run".toList else "run_".toList ++ Py.natStr (j + 1))

theorem plotName_eq (single : Bool) (j : Nat) (name : Option Str) :
    plotName single j name = Spec.legend single j name := by cases name <;> rfl

/-- **C92**: for runs over the queries of the qrels, `plot(..., return_graph=False)` returns eleven rows per run,
in the order of the runs and of the recall levels 0, 0.1, ..., 1: the name of the run, the level and the mean over
the queries of the interpolated precision of the run's ranking of the query against the query's judgements. -/
theorem C92_plot (cutoff : Nat → Nat → Nat) (SQ : ArgSort Int) (SR : ArgSort α) (hash : δ → ι)
    (sched : Nat → List Nat) (single : Bool) (s : Store κ δ Int) (runs : List (Option Str × Store κ δ α))
    (hne : runs ≠ []) (hT : Spec.Trainable SQ SR hash s (runs.map Prod.snd))
    (hsched : ∀ i, Schedule s.data.length (sched i)) :
    ∃ rows, (plot cutoff SQ SR hash sched single s runs).2.2 = .ok rows ∧ rows.length = 11 * runs.length ∧
      ∀ (j : Nat) name r, runs[j]? = some (name, r) → ∃ c, Spec.Curve cutoff s r c ∧
        ∀ i < 11, ∃ level p, c[i]? = some p ∧ rows[11 * j + i]? = some (Spec.legend single j name, level, p) ∧
          |level - (i : ℚ) / 10| ≤ 1 / 10 ^ 15 := by
  simp only [← plotName_eq]
  obtain ⟨cs, h1, h2⟩ := Plot.curves_eq cutoff SQ SR hash sched s (runs.map Prod.snd) hT hsched
  obtain ⟨levels, l1, l2, l3⟩ := frame_levels
  have hlen : cs.length = runs.length := by have := h2.length_eq; simpa using this.symm
  have hc11 : ∀ c ∈ cs, c.length = 11 := by
    intro c hc
    obtain ⟨j, hj⟩ := List.getElem?_of_mem hc
    have hlt : j < cs.length := (List.getElem?_eq_some_iff.1 hj).1
    have hr : (runs.map Prod.snd)[j]? = some (runs[j].2) := by
      rw [List.getElem?_map, List.getElem?_eq_getElem (by omega)]; rfl
    have := h2.get (by simpa using (hlen ▸ hlt)) hlt
    rw [List.getElem?_eq_getElem hlt] at hj
    cases hj
    exact this.1
  have hcne : cs ≠ [] := by
    intro h; rw [h] at hlen; exact hne (List.length_eq_zero_iff.1 hlen.symm)
  have htyped : (runs.map (fun r => r.2.toTypedList SR hash id)).map Prod.snd =
      (runs.map Prod.snd).map (fun r => Store.rows hash id (r.ensureSorted SR).data) := by
    rw [List.map_map, List.map_map]; rfl
  let names := runs.zipIdx.map (fun r => plotName single r.2 r.1.1)
  have hnl : names.length = runs.length := by simp [names]
  have hflat : ∀ (γ : Type) (l : List (List γ)), (∀ x ∈ l, x.length = 11) → l.flatten.length = 11 * l.length := by
    intro γ l h
    induction l with
    | nil => rfl
    | cons a t ih => rw [List.flatten_cons, List.length_append, h a (by simp), ih (fun x hx => h x (by simp [hx]))]; simp; ring
  have hml : (names.flatMap (fun n => List.replicate 11 n)).length = 11 * runs.length := by
    rw [List.flatMap_def, hflat _ _ (by simp), List.length_map, hnl]
  have hrl : (List.replicate cs.length levels).flatten.length = 11 * runs.length := by
    rw [hflat _ _ (by intro x hx; rw [List.eq_of_mem_replicate hx]; exact l2), List.length_replicate, hlen]
  have hpl : cs.flatten.length = 11 * runs.length := by rw [hflat _ _ hc11, hlen]
  refine ⟨(names.flatMap (fun n => List.replicate 11 n)).zip
    ((List.replicate cs.length levels).flatten.zip cs.flatten), ?_, ?_, ?_⟩
  · unfold plot Store.toTypedList
    simp only
    have htyped' : List.map Prod.snd (List.map (fun r : Option Str × Store κ δ α => (r.2.ensureSorted SR,
        Store.rows hash id (r.2.ensureSorted SR).data)) runs) = _ := htyped
    rw [htyped', h1]
    simp only
    rw [l1]
    simp only
    unfold frame
    simp only
    rw [if_neg hcne, if_neg]
    rw [hml, hrl, hpl]; simp
  · rw [List.length_zip, List.length_zip, hml, hrl, hpl]; simp
  · intro j name r hj
    have hlt : j < runs.length := (List.getElem?_eq_some_iff.1 hj).1
    have hltc : j < cs.length := by omega
    have hcurve := h2.get (by simpa using hlt) hltc
    refine ⟨cs[j], ?_, ?_⟩
    · have e : (runs.map Prod.snd)[j]'(by simpa using hlt) = r := by
        rw [List.getElem_map]
        rw [List.getElem?_eq_getElem hlt] at hj
        cases hj' : runs[j]
        rw [hj'] at hj; cases hj; rfl
      have hcurve' : Spec.Curve cutoff s ((runs.map Prod.snd)[j]'(by simpa using hlt)) cs[j] := hcurve
      rw [e] at hcurve'
      exact hcurve'
    · intro i hi
      have hcl := hc11 cs[j] (List.getElem_mem hltc)
      obtain ⟨p, hp⟩ : ∃ p, cs[j][i]? = some p := ⟨cs[j][i], List.getElem?_eq_getElem (by omega)⟩
      obtain ⟨x, hx⟩ : ∃ x, levels[i]? = some x := ⟨_, List.getElem?_eq_getElem (by omega)⟩
      refine ⟨x, p, hp, ?_, l3 i x hx⟩
      have e1 : (names.flatMap (fun n => List.replicate 11 n))[11 * j + i]? = some (plotName single j name) := by
        rw [List.flatMap_def, flatten_get _ 11 (by simp) j i hi (List.replicate 11 (plotName single j name))]
        · rw [List.getElem?_replicate, if_pos hi]
        · simp only [names, List.map_map, List.getElem?_map, List.getElem?_zipIdx, hj, Option.map_some,
            Function.comp, Nat.zero_add]
      have e2 : (List.replicate cs.length levels).flatten[11 * j + i]? = some x := by
        rw [flatten_get _ 11 (by intro y hy; rw [List.eq_of_mem_replicate hy]; exact l2) j i hi levels]
        · exact hx
        · rw [List.getElem?_replicate, if_pos hltc]
      have e3 : cs.flatten[11 * j + i]? = some p := by
        rw [flatten_get _ 11 hc11 j i hi cs[j] (List.getElem?_eq_getElem hltc)]
        exact hp
      rw [List.getElem?_zip_eq_some]
      refine ⟨e1, ?_⟩
      rw [List.getElem?_zip_eq_some]
      exact ⟨e2, e3⟩

/-- **C92** (shape): every curve is non-increasing and in [0,1]. -/
theorem C92_nonincreasing (s : Store κ δ Int) (r : Store κ δ α) (c : List α) (h : Spec.Curve flCutoff s r c)
    (i j : Nat) (v w : α) (hij : i ≤ j) (hv : c[i]? = some v) (hw : c[j]? = some w) :
    0 ≤ w ∧ w ≤ v ∧ v ≤ 1 := by
  obtain ⟨hl, ids, f, -, h⟩ := h
  have hj : j < 11 := by rw [← hl]; exact (List.getElem?_eq_some_iff.1 hw).1
  obtain ⟨a1, a2⟩ := h i (by omega)
  obtain ⟨b1, b2⟩ := h j hj
  rw [hv] at a2
  rw [hw] at b2
  cases a2
  cases b2
  have bnd : ∀ (k : Nat) q, (Spec.InterpolatedAt flCutoff s ids q k (f q k)) → 0 ≤ f q k ∧ f q k ≤ 1 := by
    intro k q hk
    by_cases hR : Spec.numRelDocs s q 1 = 0
    · rw [hk.2 hR]; simp
    · rcases hk.1 hR with ⟨⟨m, _, _, _, e⟩, _⟩ | ⟨_, e⟩
      · rw [e]; exact ⟨div_nonneg_nat _ _, div_le_one_of_nat (relIn_le _ _ _)⟩
      · rw [e]; simp
  have hmono : ∀ q ∈ Spec.queries s, f q j ≤ f q i := by
    intro q hq
    by_cases hR : Spec.numRelDocs s q 1 = 0
    · rw [(a1 q hq).2 hR, (b1 q hq).2 hR]
    · have x1 := (a1 q hq).1 hR
      have x2 := (b1 q hq).1 hR
      have hle := flCutoff_mono (Spec.numRelDocs s q 1) i j hij
      rcases x2 with ⟨⟨m, h1, h2, h3, e⟩, _⟩ | ⟨_, e⟩
      · rcases x1 with ⟨_, hmax⟩ | ⟨hno, _⟩
        · rw [e]; exact hmax m h1 h2 (hle.trans h3)
        · exact absurd (hle.trans h3) (hno m h1 h2)
      · rw [e]; exact (bnd i q (a1 q hq)).1
  have hcard : (0 : α) ≤ ((Spec.queries s).card : α) := Nat.cast_nonneg _
  refine ⟨?_, ?_, ?_⟩
  · exact div_nonneg (Finset.sum_nonneg (fun q hq => (bnd j q (b1 q hq)).1)) hcard
  · exact div_le_div_of_nonneg_right (Finset.sum_le_sum hmono) hcard
  · apply div_le_one_of_le₀ _ hcard
    calc _ ≤ ∑ q ∈ Spec.queries s, (1 : α) := Finset.sum_le_sum (fun q hq => (bnd i q (a1 q hq)).2)
      _ = _ := by simp

/-- **C92** (inputs): the qrels and the runs keep their content; at most they are sorted. -/
theorem C92_keeps_content (cutoff : Nat → Nat → Nat) (SQ : ArgSort Int) (SR : ArgSort α) (hash : δ → ι)
    (sched : Nat → List Nat) (single : Bool) (s : Store κ δ Int) (runs : List (Option Str × Store κ δ α))
    (hs : Spec.Usable SQ s) (hr : ∀ r ∈ runs, Spec.Usable SR r.2) :
    Spec.content (plot cutoff SQ SR hash sched single s runs).1 = Spec.content s ∧
    (plot cutoff SQ SR hash sched single s runs).2.1.map Spec.content = runs.map (fun r => Spec.content r.2) := by
  refine ⟨(ensureSorted_facts SQ s hs.ok.1 hs.ok.2).2.1, ?_⟩
  unfold plot Store.toTypedList
  simp only [List.map_map]
  apply List.map_congr_left
  intro r hrm
  exact (ensureSorted_facts SR r.2 (hr r hrm).ok.1 (hr r hrm).ok.2).2.1

end

/-- a named and an unnamed run -/
def runsEx : List (Option Str × Store Nat Nat ℚ) := [(some "bm25".toList, exTrainRun), (none, exTrainRun)]

/-- the hypotheses are met, and the values: two relevant docs for query 1, one for query 2 -/
example : runsEx.map Prod.snd = [exTrainRun, exTrainRun] ∧
    ((Plot.plot (ι := Nat) flCutoff (ArgSort.stable Int) (ArgSort.stable ℚ) id (fun _ => [1, 0]) false exQrelsObj
      runsEx).2.2.map (fun rows => rows.map (fun x => (x.1, x.2.2)))) =
    .ok (List.replicate 6 ("bm25".toList, 3 / 4) ++ List.replicate 5 ("bm25".toList, 1 / 2) ++
      List.replicate 6 ("run_2".toList, 3 / 4) ++ List.replicate 5 ("run_2".toList, 1 / 2)) := by
  refine ⟨rfl, by decide +kernel⟩

/-- What the hypothesis on the query sets protects from: `plot` pairs judgements and rankings by position. The run
ranks the only relevant doc of query 2 first and has no results for query 1; its ranking of query 2 is held
against the judgements of query 1, that of query 3 against those of query 2, and the curve is 0. -/
theorem C92_queries_not_checked :
    ((Plot.plot (ι := Nat) flCutoff (ArgSort.stable Int) (ArgSort.stable ℚ) id (fun _ => [1, 0]) true exQrelsObj
      [(none, ⟨[(2, [(20, 1)]), (3, [(30, 1)])], true⟩)]).2.2.map (fun rows => rows.map (fun x => (x.1, x.2.2)))) =
      .ok (List.replicate 11 ("run".toList, 0)) ∧
    Spec.RelDoc exQrelsObj 2 1 20 := by
  refine ⟨by decide +kernel, 1, by decide +kernel, by decide⟩

end Ranx
