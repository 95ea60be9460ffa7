import Verif.Props.Special
import Verif.Props.Norm

/-!
# C119: normalizing queries with infinite or NaN scores
-/

set_option linter.unusedSectionVars false

namespace Ranx
open Dict Special Special.X

section
variable {δ α : Type*} [DecidableEq δ] [Field α] [LinearOrder α] [IsStrictOrderedRing α]

theorem Special.normLoop_eq (r : Dict δ (X α)) (h : NodupKeys r) (f : X α → X α) :
    Special.normLoop r f = r.map (fun p => (p.1, f p.2)) := by
  unfold Special.normLoop
  have e : r.keys.map (fun d => (d, f ((r.get? d).getD (.fin 0)))) = r.map (fun p => (p.1, f p.2)) := by
    unfold Dict.keys
    rw [List.map_map]
    apply List.map_congr_left
    intro p hp
    simp only [Function.comp_apply]
    rw [get?_of_mem h (show (p.1, p.2) ∈ r from hp)]
    rfl
  rw [e]
  apply ofList_of_nodup
  unfold NodupKeys
  rw [List.map_map]
  exact h

theorem Special.normLoop_get? (r : Dict δ (X α)) (h : NodupKeys r) (f : X α → X α) (d : δ) :
    (Special.normLoop r f).get? d = (r.get? d).map f := by
  rw [Special.normLoop_eq r h f]
  exact get?_map_val _ _ _

/-! ### arithmetic -/

theorem Special.add_pinf (x : X α) : add x .pinf = .pinf ∨ add x .pinf = .nan := by
  cases x <;> simp [add]

theorem Special.add_comm (x y : X α) : add x y = add y x := by
  cases x <;> cases y <;> simp [add, _root_.add_comm]

theorem Special.add_assoc (x y z : X α) : add (add x y) z = add x (add y z) := by
  cases x <;> cases y <;> cases z <;> simp [add, _root_.add_assoc]

theorem Special.max2_eps {x : X α} (h : x = .pinf ∨ x = .nan) : max2 x eps = x := by
  rcases h with rfl | rfl <;> rfl

theorem Special.div_undefined {x y : X α} (hx : x = .pinf ∨ x = .nan) (hy : y = .pinf ∨ y = .nan) : div x y = .nan := by
  rcases hx with rfl | rfl <;> rcases hy with rfl | rfl <;> rfl

theorem Special.div_nan (x : X α) : div x .nan = .nan := by cases x <;> rfl

/-- what `min` returns if `-inf` is among the scores -/
theorem Special.safeMin_ninf (l : List (X α)) (h : .ninf ∈ l) : safeMin l = .ninf ∨ safeMin l = .nan := by
  have keep : ∀ (t : List (X α)) (x : X α), x = .ninf ∨ x = .nan →
      t.foldl (fun best v => if X.lt v best then v else best) x = x := by
    intro t
    induction t with
    | nil => intro x _; rfl
    | cons v t ih =>
      intro x hx
      rw [List.foldl_cons]
      have : X.lt v x = false := by rcases hx with rfl | rfl <;> cases v <;> rfl
      rw [this]
      exact ih x hx
  have key : ∀ (t : List (X α)) (x : X α), .ninf ∈ t →
      t.foldl (fun best v => if X.lt v best then v else best) x = .ninf ∨
      t.foldl (fun best v => if X.lt v best then v else best) x = .nan := by
    intro t
    induction t with
    | nil => intro x h; cases h
    | cons v t ih =>
      intro x h
      rw [List.foldl_cons]
      rcases List.mem_cons.1 h with rfl | h
      · cases x with
        | nan => exact .inr (keep t .nan (.inr rfl))
        | ninf => exact .inl (keep t .ninf (.inl rfl))
        | pinf => exact .inl (keep t .ninf (.inl rfl))
        | fin v => exact .inl (keep t .ninf (.inl rfl))
      · exact ih _ h
  cases l with
  | nil => cases h
  | cons x t =>
    rcases List.mem_cons.1 h with rfl | h
    · exact .inl (keep t .ninf (.inl rfl))
    · exact key t x h

/-- what `max` returns if `inf` is among the scores -/
theorem Special.safeMax_pinf (l : List (X α)) (h : .pinf ∈ l) : safeMax l = .pinf ∨ safeMax l = .nan := by
  have keep : ∀ (t : List (X α)) (x : X α), x = .pinf ∨ x = .nan →
      t.foldl (fun best v => if X.gt v best then v else best) x = x := by
    intro t
    induction t with
    | nil => intro x _; rfl
    | cons v t ih =>
      intro x hx
      rw [List.foldl_cons]
      have : X.gt v x = false := by rcases hx with rfl | rfl <;> cases v <;> rfl
      rw [this]
      exact ih x hx
  have key : ∀ (t : List (X α)) (x : X α), .pinf ∈ t →
      t.foldl (fun best v => if X.gt v best then v else best) x = .pinf ∨
      t.foldl (fun best v => if X.gt v best then v else best) x = .nan := by
    intro t
    induction t with
    | nil => intro x h; cases h
    | cons v t ih =>
      intro x h
      rw [List.foldl_cons]
      rcases List.mem_cons.1 h with rfl | h
      · cases x with
        | nan => exact .inr (keep t .nan (.inr rfl))
        | ninf => exact .inl (keep t .pinf (.inl rfl))
        | pinf => exact .inl (keep t .pinf (.inl rfl))
        | fin v => exact .inl (keep t .pinf (.inl rfl))
      · exact ih _ h
  cases l with
  | nil => cases h
  | cons x t =>
    rcases List.mem_cons.1 h with rfl | h
    · exact .inl (keep t .pinf (.inl rfl))
    · exact key t x h

/-- on scores without `nan`, `min` is one of the scores and above none -/
theorem Special.safeMin_le (l : List (X α)) (hl : l ≠ []) (hn : ∀ x ∈ l, x ≠ .nan) :
    safeMin l ∈ l ∧ ∀ x ∈ l, Spec.FloatAtLeast x (safeMin l) := by
  have ref : ∀ x : X α, Spec.FloatAtLeast x x := by intro x; cases x <;> simp [Spec.FloatAtLeast]
  have tr : ∀ x y z : X α, Spec.FloatAtLeast x y → Spec.FloatAtLeast y z → Spec.FloatAtLeast x z := by
    intro x y z
    cases x <;> cases y <;> cases z <;> simp only [Spec.FloatAtLeast, imp_self, implies_true, false_implies, true_implies]
    exact fun h h' => le_trans h' h
  have lt1 : ∀ x y : X α, X.lt x y = true → Spec.FloatAtLeast y x := by
    intro x y h
    cases x <;> cases y <;> simp_all [Spec.FloatAtLeast, X.lt, X.gt]
    exact le_of_lt h
  have lt2 : ∀ x y : X α, x ≠ .nan → y ≠ .nan → X.lt x y = false → Spec.FloatAtLeast x y := by
    intro x y hx hy h
    cases x <;> cases y <;> simp_all [Spec.FloatAtLeast, X.lt, X.gt]
  have key : ∀ (t : List (X α)) (x : X α), x ≠ .nan → (∀ y ∈ t, y ≠ .nan) →
      (t.foldl (fun best v => if X.lt v best then v else best) x ∈ x :: t) ∧
      ∀ y ∈ x :: t, Spec.FloatAtLeast y (t.foldl (fun best v => if X.lt v best then v else best) x) := by
    intro t
    induction t with
    | nil => intro x _ _; simp [ref]
    | cons v t ih =>
      intro x hx hy
      rw [List.foldl_cons]
      have hv := hy v (by simp)
      by_cases hlt : X.lt v x = true
      · rw [if_pos hlt]
        obtain ⟨h1, h2⟩ := ih v hv (fun y h => hy y (by simp [h]))
        refine ⟨List.mem_cons_of_mem _ h1, ?_⟩
        intro y hy'
        rcases List.mem_cons.1 hy' with rfl | hy'
        · exact tr _ _ _ (lt1 v y hlt) (h2 v (by simp))
        · exact h2 y hy'
      · rw [if_neg hlt]
        obtain ⟨h1, h2⟩ := ih x hx (fun y h => hy y (by simp [h]))
        refine ⟨?_, ?_⟩
        · rcases List.mem_cons.1 h1 with h | h
          · rw [h]; exact List.mem_cons_self
          · exact List.mem_cons_of_mem _ (List.mem_cons_of_mem _ h)
        · intro y hy'
          rcases List.mem_cons.1 hy' with rfl | hy'
          · exact h2 y (by simp)
          rcases List.mem_cons.1 hy' with rfl | hy'
          · exact tr _ _ _ (lt2 y x hv hx (by simpa using hlt)) (h2 x (by simp))
          · exact h2 y (by simp [hy'])
  cases l with
  | nil => exact absurd rfl hl
  | cons x t => exact key t x (hn x (by simp)) (fun y h => hn y (by simp [h]))

/-! ## C119 -/

/-- **C119** (min-max, masked docs): one doc with score `-inf` and every doc of the query gets `nan`. -/
theorem C119_minmax_minus_inf (r : Dict δ (X α)) (h : NodupKeys r) (d : δ) (hd : r.get? d = some .ninf) :
    ∀ d' v, (Special.minMax false r).get? d' = some v → v = .nan := by
  intro d' v hv
  have hm : X.ninf ∈ r.values := List.mem_map.2 ⟨_, mem_of_get? hd, rfl⟩
  unfold Special.minMax at hv
  simp only [Bool.false_eq_true, if_false] at hv
  rw [Special.normLoop_get? r h] at hv
  obtain ⟨s, -, rfl⟩ := Option.map_eq_some_iff.1 hv
  rcases Special.safeMin_ninf r.values hm with e | e <;> rw [e]
  · have h1 : ∀ x : X α, sub x .ninf = .pinf ∨ sub x .ninf = .nan := fun x => Special.add_pinf x
    rw [Special.max2_eps (h1 _)]
    exact Special.div_undefined (h1 _) (h1 _)
  · have h1 : ∀ x : X α, sub x .nan = .nan := by intro x; cases x <;> rfl
    rw [h1, h1, Special.max2_eps (.inr rfl)]; rfl

/-- **C119** (inverted min-max): one doc with score `inf` and every doc of the query gets `nan`. -/
theorem C119_inverted_plus_inf (r : Dict δ (X α)) (h : NodupKeys r) (d : δ) (hd : r.get? d = some .pinf) :
    ∀ d' v, (Special.minMax true r).get? d' = some v → v = .nan := by
  intro d' v hv
  have hm : X.pinf ∈ r.values := List.mem_map.2 ⟨_, mem_of_get? hd, rfl⟩
  unfold Special.minMax at hv
  simp only [if_true] at hv
  rw [Special.normLoop_get? r h] at hv
  obtain ⟨s, -, rfl⟩ := Option.map_eq_some_iff.1 hv
  rcases Special.safeMax_pinf r.values hm with e | e <;> rw [e]
  · have h1 : ∀ x : X α, sub .pinf x = .pinf ∨ sub .pinf x = .nan := by intro x; cases x <;> simp [sub, add, X.neg]
    rw [Special.max2_eps (h1 _)]
    exact Special.div_undefined (h1 _) (h1 _)
  · have h1 : ∀ x : X α, sub .nan x = .nan := by intro x; cases x <;> rfl
    rw [h1, h1, Special.max2_eps (.inr rfl)]; rfl

/-- **C119** (min-max, infinite scores): if a doc has score `inf`, another one a number, and none `-inf` or `nan`, the
docs with score `inf` get `nan`, and all the others 0. -/
theorem C119_minmax_plus_inf (r : Dict δ (X α)) (h : NodupKeys r) (d e : δ) (x : α) (hd : r.get? d = some .pinf)
    (he : r.get? e = some (.fin x)) (hno : ∀ d', r.get? d' ≠ some .ninf ∧ r.get? d' ≠ some .nan) :
    (∀ d', r.get? d' = some .pinf → (Special.minMax false r).get? d' = some .nan) ∧
    ∀ d' y, r.get? d' = some (.fin y) → (Special.minMax false r).get? d' = some (.fin 0) := by
  have hm : X.pinf ∈ r.values := List.mem_map.2 ⟨_, mem_of_get? hd, rfl⟩
  have hx : X.fin x ∈ r.values := List.mem_map.2 ⟨_, mem_of_get? he, rfl⟩
  have hv : ∀ v ∈ r.values, v ≠ .nan ∧ v ≠ .ninf := by
    intro v hv
    obtain ⟨p, hp, rfl⟩ := List.mem_map.1 hv
    have := get?_of_mem h (show (p.1, p.2) ∈ r from hp)
    exact ⟨fun hh => (hno p.1).2 (by rw [this, hh]), fun hh => (hno p.1).1 (by rw [this, hh])⟩
  obtain ⟨m1, m2⟩ := Special.safeMin_le r.values (List.ne_nil_of_mem hm) (fun v h => (hv v h).1)
  have hmin : ∃ m, safeMin r.values = .fin m := by
    have h1 := m2 _ hx
    have h2 := hv _ m1
    cases hs : safeMin r.values with
    | fin m => exact ⟨m, rfl⟩
    | pinf => rw [hs] at h1; exact absurd h1 (by simp [Spec.FloatAtLeast])
    | ninf => exact absurd hs h2.2
    | nan => exact absurd hs h2.1
  obtain ⟨m, hmin⟩ := hmin
  have hmax : safeMax r.values = .pinf := by
    rcases Special.safeMax_pinf r.values hm with e | e
    · exact e
    · exfalso
      have mem : safeMax r.values ∈ r.values := by
        have : ∀ (t : List (X α)) (x : X α), t.foldl (fun best v => if X.gt v best then v else best) x ∈ x :: t := by
          intro t
          induction t with
          | nil => intro x; simp
          | cons v t ih =>
            intro x
            rw [List.foldl_cons]
            have := ih (if X.gt v x then v else x)
            rcases List.mem_cons.1 this with h | h
            · rw [h]; split <;> simp
            · exact List.mem_cons_of_mem _ (List.mem_cons_of_mem _ h)
        cases hr : r.values with
        | nil => rw [hr] at hm; cases hm
        | cons x t => exact this t x
      exact (hv _ mem).1 e
  have hden : max2 (sub (.pinf : X α) (.fin m)) eps = .pinf := rfl
  have hg : ∀ d', (Special.minMax false r).get? d' = (r.get? d').map (fun s => div (sub s (.fin m)) .pinf) := by
    intro d'
    unfold Special.minMax
    simp only [Bool.false_eq_true, if_false]
    rw [Special.normLoop_get? r h, hmin, hmax, hden]
  refine ⟨fun d' h' => ?_, fun d' y h' => ?_⟩
  · rw [hg, h']; rfl
  · rw [hg, h']; rfl

/-- **C119** (sum): one doc with score `-inf` and every doc of the query gets `nan`. -/
theorem C119_sum_minus_inf (r : Dict δ (X α)) (h : NodupKeys r) (d : δ) (hd : r.get? d = some .ninf) :
    ∀ d' v, (Special.sumNorm r).get? d' = some v → v = .nan := by
  intro d' v hv
  have hmem := mem_of_get? hd
  have hm : X.ninf ∈ r.values := List.mem_map.2 ⟨_, hmem, rfl⟩
  have hlen : (0 : α) < (r.length : α) := by
    have : 0 < r.length := List.length_pos_of_mem hmem
    exact_mod_cast this
  unfold Special.sumNorm at hv
  simp only at hv
  rw [Special.normLoop_get? r h] at hv
  obtain ⟨s, -, rfl⟩ := Option.map_eq_some_iff.1 hv
  rcases Special.safeMin_ninf r.values hm with e | e <;> rw [e]
  · have h1 : ∀ x : X α, sub x .ninf = .pinf ∨ sub x .ninf = .nan := fun x => Special.add_pinf x
    have h2 : mul (.ninf : X α) (.fin (r.length : α)) = .ninf := by
      change X.neg (signed (r.length : α)) = _
      unfold signed
      rw [if_pos hlen]; rfl
    rw [h2, Special.max2_eps (h1 _)]
    exact Special.div_undefined (h1 _) (h1 _)
  · have h1 : ∀ x : X α, sub x .nan = .nan := by intro x; cases x <;> rfl
    have h2 : ∀ x : X α, mul .nan x = .nan := by intro x; cases x <;> rfl
    rw [h2, h1, h1, Special.max2_eps (.inr rfl)]; rfl

/-- Specification: a number (neither `inf` nor `-inf` nor `nan`) -/
def Spec.Number : X α → Prop
  | .fin _ => True
  | _ => False

theorem Special.foldl_add (l : List (X α)) (x : X α) : l.foldl add x = add x (sumX l) := by
  induction l generalizing x with
  | nil =>
    change x = add x (.fin 0)
    cases x <;> simp [add]
  | cons y t ih =>
    unfold sumX
    rw [List.foldl_cons, List.foldl_cons, ih, ih (add (.fin 0) y), ← Special.add_assoc, ← Special.add_assoc]
    congr 2
    cases x <;> simp [add]

theorem Special.sumX_cons (x : X α) (t : List (X α)) : sumX (x :: t) = add x (sumX t) := by
  unfold sumX
  rw [List.foldl_cons, Special.foldl_add]
  congr 1
  cases x <;> simp [add]

/-- a sum with a summand that is not a number is not a number -/
theorem Special.sumX_undefined (l : List (X α)) (x : X α) (hx : x ∈ l) (hn : ¬Spec.Number x) : ¬Spec.Number (sumX l) := by
  have absorb : ∀ a b : X α, ¬Spec.Number a ∨ ¬Spec.Number b → ¬Spec.Number (add a b) := by
    intro a b; cases a <;> cases b <;> simp [Spec.Number, add]
  induction l with
  | nil => cases hx
  | cons y t ih =>
    rw [Special.sumX_cons]
    rcases List.mem_cons.1 hx with rfl | hx
    · exact absorb _ _ (.inl hn)
    · exact absorb _ _ (.inr (ih hx))

theorem Special.sumX_nan (l : List (X α)) (hx : .nan ∈ l) : sumX l = .nan := by
  have absorb : ∀ a b : X α, a = .nan ∨ b = .nan → add a b = .nan := by
    intro a b; cases a <;> cases b <;> simp [add]
  induction l with
  | nil => cases hx
  | cons y t ih =>
    rw [Special.sumX_cons]
    rcases List.mem_cons.1 hx with h | hx
    · exact absorb _ _ (.inl h.symm)
    · exact absorb _ _ (.inr (ih hx))

/-- **C119** (zmuv): one doc whose score is not a number and every doc of the query gets `nan`. -/
theorem C119_zmuv (root : α → α) (r : Dict δ (X α)) (h : NodupKeys r) (d : δ) (x : X α) (hd : r.get? d = some x)
    (hx : ¬Spec.Number x) : ∀ d' v, (Special.zmuv root r).get? d' = some v → v = .nan := by
  intro d' v hv
  have hmem := mem_of_get? hd
  have hm : x ∈ r.values := List.mem_map.2 ⟨_, hmem, rfl⟩
  have hlen : (0 : α) < (r.length : α) := by
    have : 0 < r.length := List.length_pos_of_mem hmem
    exact_mod_cast this
  unfold Special.zmuv at hv
  simp only at hv
  rw [Special.normLoop_get? r h] at hv
  obtain ⟨s, -, rfl⟩ := Option.map_eq_some_iff.1 hv
  have hdiv : ∀ y : X α, ¬Spec.Number y → div y (.fin (r.length : α)) = y := by
    intro y hy
    cases y with
    | fin v => exact absurd trivial hy
    | nan => rfl
    | pinf => change signed _ = _; unfold signed; rw [if_pos hlen]
    | ninf => change X.neg (signed _) = _; unfold signed; rw [if_pos hlen]; rfl
  set mean := div (sumX r.values) (.fin (r.length : α)) with hmean
  have hmn : ¬Spec.Number mean := by
    have := Special.sumX_undefined r.values x hm hx
    rw [hmean, hdiv _ this]; exact this
  -- a score that is not a number differs from the mean by `nan`, or the mean is `nan`
  have hsq : .nan ∈ r.values.map (fun s => mul (sub s mean) (sub s mean)) ∨ mean = .nan := by
    cases hq : mean with
    | fin v => rw [hq] at hmn; exact absurd trivial hmn
    | nan => exact .inr rfl
    | pinf =>
      left
      -- the sum is `inf`, so some score is
      have hs : sumX r.values = .pinf := by
        rw [hmean] at hq
        cases hsum : sumX r.values with
        | fin v => rw [hsum] at hq; cases hq
        | nan => rw [hsum] at hq; cases hq
        | pinf => rfl
        | ninf =>
          have e : ¬Spec.Number (.ninf : X α) := id
          rw [hsum, hdiv _ e] at hq; cases hq
      have hp : ∀ l : List (X α), sumX l = .pinf → .pinf ∈ l := by
        intro l
        induction l with
        | nil => intro h; cases h
        | cons y t ih =>
          intro h
          rw [Special.sumX_cons] at h
          cases y with
          | pinf => simp
          | nan => cases h
          | fin v =>
            cases hst : sumX t with
            | pinf => exact List.mem_cons_of_mem _ (ih hst)
            | _ => rw [hst] at h; cases h
          | ninf =>
            cases hst : sumX t with
            | _ => rw [hst] at h; cases h
      exact List.mem_map.2 ⟨.pinf, hp _ hs, rfl⟩
    | ninf =>
      left
      have hs : sumX r.values = .ninf := by
        rw [hmean] at hq
        cases hsum : sumX r.values with
        | fin v => rw [hsum] at hq; cases hq
        | nan => rw [hsum] at hq; cases hq
        | ninf => rfl
        | pinf =>
          have e : ¬Spec.Number (.pinf : X α) := id
          rw [hsum, hdiv _ e] at hq; cases hq
      have hp : ∀ l : List (X α), sumX l = .ninf → .ninf ∈ l := by
        intro l
        induction l with
        | nil => intro h; cases h
        | cons y t ih =>
          intro h
          rw [Special.sumX_cons] at h
          cases y with
          | ninf => simp
          | nan => cases h
          | fin v =>
            cases hst : sumX t with
            | ninf => exact List.mem_cons_of_mem _ (ih hst)
            | _ => rw [hst] at h; cases h
          | pinf =>
            cases hst : sumX t with
            | _ => rw [hst] at h; cases h
      exact List.mem_map.2 ⟨.ninf, hp _ hs, rfl⟩
  rcases hsq with hn | hn
  · rw [Special.sumX_nan _ hn]
    exact Special.div_nan _
  · rw [hn]
    have : ∀ y : X α, sub y .nan = .nan := by intro y; cases y <;> rfl
    rw [this]
    cases max2 (sqrtX root (div (sumX (r.values.map (fun s => mul (sub s .nan) (sub s .nan)))) (.fin (r.length : α)))) eps <;> rfl

/-- **C119** (max; partial: no score is `inf` or `nan`): the scores are divided by a positive number, `-inf` stays `-inf`,
and a doc is before another one exactly if it was before. -/
theorem C119_max_partial (r : Dict δ (X α)) (h : NodupKeys r)
    (hno : ∀ d, r.get? d ≠ some .pinf ∧ r.get? d ≠ some .nan) (d e : δ) (a b : X α)
    (hd : r.get? d = some a) (he : r.get? e = some b) :
    ∃ a' b', (Special.maxNorm r).get? d = some a' ∧ (Special.maxNorm r).get? e = some b' ∧
      (Spec.FloatAtLeast a' b' ↔ Spec.FloatAtLeast a b) ∧ (a' = .ninf ↔ a = .ninf) := by
  have hv : ∀ v ∈ r.values, v ≠ .nan ∧ v ≠ .pinf := by
    intro v hv
    obtain ⟨p, hp, rfl⟩ := List.mem_map.1 hv
    have := get?_of_mem h (show (p.1, p.2) ∈ r from hp)
    exact ⟨fun hh => (hno p.1).2 (by rw [this, hh]), fun hh => (hno p.1).1 (by rw [this, hh])⟩
  have mem : r.values ≠ [] → safeMax r.values ∈ r.values := by
    have : ∀ (t : List (X α)) (x : X α), t.foldl (fun best v => if X.gt v best then v else best) x ∈ x :: t := by
      intro t
      induction t with
      | nil => intro x; simp
      | cons v t ih =>
        intro x
        rw [List.foldl_cons]
        have := ih (if X.gt v x then v else x)
        rcases List.mem_cons.1 this with h | h
        · rw [h]; split <;> simp
        · exact List.mem_cons_of_mem _ (List.mem_cons_of_mem _ h)
    cases hr : r.values with
    | nil => intro h; exact absurd rfl h
    | cons x t => intro _; exact this t x
  have hne : r.values ≠ [] := List.ne_nil_of_mem (List.mem_map.2 ⟨_, mem_of_get? hd, rfl⟩)
  have heps : (0 : α) < 1 / 10 ^ 9 := by positivity
  obtain ⟨c, hc, hden⟩ : ∃ c : α, 0 < c ∧ max2 (safeMax r.values) eps = .fin c := by
    have hm := hv _ (mem hne)
    cases hs : safeMax r.values with
    | nan => exact absurd hs hm.1
    | pinf => exact absurd hs hm.2
    | ninf => exact ⟨_, heps, rfl⟩
    | fin v =>
      unfold max2 eps X.gt
      simp only [decide_eq_true_eq]
      by_cases hlt : v < 1 / 10 ^ 9
      · rw [if_pos hlt]; exact ⟨_, heps, rfl⟩
      · rw [if_neg hlt]; exact ⟨_, lt_of_lt_of_le heps (not_lt.1 hlt), rfl⟩
  have hg : ∀ d', (Special.maxNorm r).get? d' = (r.get? d').map (fun s => div s (.fin c)) := by
    intro d'
    unfold Special.maxNorm
    simp only
    rw [Special.normLoop_get? r h, hden]
  refine ⟨div a (.fin c), div b (.fin c), by rw [hg, hd]; rfl, by rw [hg, he]; rfl, ?_, ?_⟩
  · have ha := hno d
    have hb := hno e
    rw [hd] at ha
    rw [he] at hb
    cases a with
    | pinf => exact absurd rfl ha.1
    | nan => exact absurd rfl ha.2
    | fin x =>
      cases b with
      | pinf => exact absurd rfl hb.1
      | nan => exact absurd rfl hb.2
      | fin y => simp only [div, Spec.FloatAtLeast]; exact div_le_div_iff_of_pos_right hc
      | ninf => simp [div, signed, hc, X.neg, Spec.FloatAtLeast]
    | ninf =>
      cases b with
      | pinf => exact absurd rfl hb.1
      | nan => exact absurd rfl hb.2
      | fin y => simp [div, signed, hc, X.neg, Spec.FloatAtLeast]
      | ninf => simp [div, signed, hc, X.neg, Spec.FloatAtLeast]
  · cases a with
    | ninf => simp [div, signed, hc, X.neg]
    | fin x => simp [div]
    | pinf => simp [div, signed, hc]
    | nan => simp [div]

/-- **C119** (max): if a doc has score `inf`, it gets `nan`, and so does every doc with score `-inf`; the others get 0
(no `nan` among the scores). -/
theorem C119_max_plus_inf (r : Dict δ (X α)) (h : NodupKeys r) (d : δ) (hd : r.get? d = some .pinf)
    (hno : ∀ d', r.get? d' ≠ some .nan) :
    (∀ d', r.get? d' = some .pinf ∨ r.get? d' = some .ninf → (Special.maxNorm r).get? d' = some .nan) ∧
    ∀ d' y, r.get? d' = some (.fin y) → (Special.maxNorm r).get? d' = some (.fin 0) := by
  have hm : X.pinf ∈ r.values := List.mem_map.2 ⟨_, mem_of_get? hd, rfl⟩
  have hmax : safeMax r.values = .pinf := by
    rcases Special.safeMax_pinf r.values hm with e | e
    · exact e
    · exfalso
      have mem : safeMax r.values ∈ r.values := by
        have : ∀ (t : List (X α)) (x : X α), t.foldl (fun best v => if X.gt v best then v else best) x ∈ x :: t := by
          intro t
          induction t with
          | nil => intro x; simp
          | cons v t ih =>
            intro x
            rw [List.foldl_cons]
            have := ih (if X.gt v x then v else x)
            rcases List.mem_cons.1 this with h | h
            · rw [h]; split <;> simp
            · exact List.mem_cons_of_mem _ (List.mem_cons_of_mem _ h)
        cases hr : r.values with
        | nil => rw [hr] at hm; cases hm
        | cons x t => exact this t x
      rw [e] at mem
      obtain ⟨p, hp, hp2⟩ := List.mem_map.1 mem
      have := get?_of_mem h (show (p.1, p.2) ∈ r from hp)
      exact hno p.1 (by rw [this, hp2])
  have hg : ∀ d', (Special.maxNorm r).get? d' = (r.get? d').map (fun s => div s .pinf) := by
    intro d'
    unfold Special.maxNorm
    simp only
    rw [Special.normLoop_get? r h, hmax]
    rfl
  refine ⟨fun d' h' => ?_, fun d' y h' => ?_⟩
  · rcases h' with h' | h' <;> rw [hg, h'] <;> rfl
  · rw [hg, h']; rfl

/-! ### the model agrees with the one of `Model/Norm.lean` on ordinary scores -/

/-- the same results, as floats -/
def Spec.asFloats (r : Dict δ α) : Dict δ (X α) := r.map (fun p => (p.1, X.fin p.2))

theorem Special.values_asFloats (r : Dict δ α) : (Spec.asFloats r).values = r.values.map X.fin := by
  unfold Spec.asFloats Dict.values
  rw [List.map_map, List.map_map]; rfl

theorem Special.nodup_asFloats {r : Dict δ α} (h : NodupKeys r) : NodupKeys (Spec.asFloats r) := by
  unfold NodupKeys Spec.asFloats
  rw [List.map_map]; exact h

theorem Special.safeMax_fin (l : List α) : safeMax (l.map X.fin) = .fin (Norm.safeMax l) := by
  cases l with
  | nil => rfl
  | cons x t =>
    change (t.map X.fin).foldl _ (X.fin x) = X.fin (t.foldl max x)
    induction t generalizing x with
    | nil => rfl
    | cons v t ih =>
      rw [List.map_cons, List.foldl_cons, List.foldl_cons]
      have : (if X.gt (X.fin v) (X.fin x) then X.fin v else X.fin x) = X.fin (max x v) := by
        change (if decide (x < v) = true then X.fin v else X.fin x) = _
        by_cases h : x < v
        · rw [if_pos (decide_eq_true h), max_eq_right (le_of_lt h)]
        · rw [if_neg (by simpa using h), max_eq_left (not_lt.1 h)]
      rw [this]; exact ih _

theorem Special.safeMin_fin (l : List α) : safeMin (l.map X.fin) = .fin (Norm.safeMin l) := by
  cases l with
  | nil => rfl
  | cons x t =>
    change (t.map X.fin).foldl _ (X.fin x) = X.fin (t.foldl min x)
    induction t generalizing x with
    | nil => rfl
    | cons v t ih =>
      rw [List.map_cons, List.foldl_cons, List.foldl_cons]
      have : (if X.lt (X.fin v) (X.fin x) then X.fin v else X.fin x) = X.fin (min x v) := by
        change (if decide (v < x) = true then X.fin v else X.fin x) = _
        by_cases h : v < x
        · rw [if_pos (decide_eq_true h), min_eq_right (le_of_lt h)]
        · rw [if_neg (by simpa using h), min_eq_left (not_lt.1 h)]
      rw [this]; exact ih _

theorem Special.max2_fin (x y : α) : max2 (X.fin x) (X.fin y) = .fin (max x y) := by
  change (if decide (x < y) = true then X.fin y else X.fin x) = _
  by_cases h : x < y
  · rw [if_pos (decide_eq_true h), max_eq_right (le_of_lt h)]
  · rw [if_neg (by simpa using h), max_eq_left (not_lt.1 h)]

theorem Special.sub_fin (x y : α) : sub (X.fin x) (X.fin y) = .fin (x - y) := by
  change X.fin (x + -y) = _
  rw [sub_eq_add_neg]

theorem Special.sumX_fin (l : List α) : sumX (l.map X.fin) = .fin l.sum := by
  induction l with
  | nil => rfl
  | cons x t ih => rw [List.map_cons, Special.sumX_cons, ih, List.sum_cons]; rfl

theorem Special.normLoop_fin (r : Dict δ α) (h : NodupKeys r) (f : X α → X α) (g : α → α)
    (hfg : ∀ v, f (.fin v) = .fin (g v)) :
    Special.normLoop (Spec.asFloats r) f = Spec.asFloats (Norm.normLoop r g) := by
  rw [Special.normLoop_eq _ (Special.nodup_asFloats h), Norm.normLoop_eq r h]
  unfold Spec.asFloats
  rw [List.map_map, List.map_map]
  apply List.map_congr_left
  intro p _
  simp only [Function.comp_apply, hfg]

/-- **C119** (ordinary scores): if all scores are numbers, so are the normalized ones, and they are those of the
theorems on ordinary scores. -/
theorem C119_numbers (r : Dict δ α) (h : NodupKeys r) :
    (∀ invert, Special.minMax invert (Spec.asFloats r) = Spec.asFloats (Norm.minMax invert r)) ∧
    Special.maxNorm (Spec.asFloats r) = Spec.asFloats (Norm.maxNorm r) ∧
    Special.sumNorm (Spec.asFloats r) = Spec.asFloats (Norm.sumNorm r) ∧
    Special.rankNorm (Spec.asFloats r) = Spec.asFloats (Norm.rankNorm r) := by
  refine ⟨?_, ?_, ?_, ?_⟩
  · intro invert
    unfold Special.minMax Norm.minMax Norm.extractScores
    simp only [Special.values_asFloats, Special.safeMax_fin, Special.safeMin_fin, Special.sub_fin]
    have e : max2 (X.fin (Norm.safeMax r.values - Norm.safeMin r.values)) Special.eps =
      .fin (max (Norm.safeMax r.values - Norm.safeMin r.values) Norm.eps) := Special.max2_fin _ _
    rw [e]
    apply Special.normLoop_fin r h
    intro v
    cases invert
    · simp only [Bool.false_eq_true, if_false, Special.sub_fin]; rfl
    · simp only [if_true, Special.sub_fin]; rfl
  · unfold Special.maxNorm Norm.maxNorm Norm.extractScores
    simp only [Special.values_asFloats, Special.safeMax_fin]
    have e : max2 (X.fin (Norm.safeMax r.values)) Special.eps = .fin (max (Norm.safeMax r.values) Norm.eps) :=
      Special.max2_fin _ _
    rw [e]
    exact Special.normLoop_fin r h _ _ (fun v => rfl)
  · unfold Special.sumNorm Norm.sumNorm Norm.extractScores
    have hl : (Spec.asFloats r).length = r.length := by unfold Spec.asFloats; rw [List.length_map]
    simp only [Special.values_asFloats, Special.safeMin_fin, Special.sumX_fin, hl]
    have e1 : mul (X.fin (Norm.safeMin r.values)) (.fin (r.length : α)) = .fin (Norm.safeMin r.values * (r.length : α)) := rfl
    rw [e1, Special.sub_fin]
    have e : max2 (X.fin (r.values.sum - Norm.safeMin r.values * (r.length : α))) Special.eps =
      .fin (max (r.values.sum - Norm.safeMin r.values * (r.length : α)) Norm.eps) := Special.max2_fin _ _
    rw [e]
    apply Special.normLoop_fin r h
    intro v
    rw [Special.sub_fin]; rfl
  · have hk : (Spec.asFloats r).keys = r.keys := by
      unfold Spec.asFloats Dict.keys; rw [List.map_map]; rfl
    have hl : (Spec.asFloats r).length = r.length := by unfold Spec.asFloats; rw [List.length_map]
    unfold Special.rankNorm Norm.rankNorm
    have hnd : (r.keys.zipIdx.map Prod.fst).Nodup := by
      rw [List.zipIdx_map_fst]; exact h
    rw [hk, hl, ofList_of_nodup, ofList_of_nodup]
    · unfold Spec.asFloats
      rw [List.map_map]; rfl
    · unfold NodupKeys
      rw [List.map_map]; exact hnd
    · unfold NodupKeys
      rw [List.map_map]; exact hnd

/-- **C119** (ranks): the scores of rank normalization do not depend on the scores at all, so with any mixture of
infinite and NaN scores they are numbers between 0 and 1, strictly decreasing along the ranking. -/
theorem C119_rank (r : Dict δ (X α)) (h : NodupKeys r) (i : Nat) (d : δ) (v : X α) (hd : r[i]? = some (d, v)) :
    (Special.rankNorm r).get? d = some (.fin (1 - (i : α) / (r.length : α))) := by
  unfold Special.rankNorm
  have hk : r.keys[i]? = some d := by unfold Dict.keys; rw [List.getElem?_map, hd]; rfl
  have hnd : NodupKeys (r.keys.zipIdx.map (fun di => (di.1, X.fin (1 - (di.2 : α) / (r.length : α))))) := by
    unfold NodupKeys
    rw [List.map_map]
    have : (r.keys.zipIdx.map Prod.fst).Nodup := by rw [List.zipIdx_map_fst]; exact h
    exact this
  rw [ofList_of_nodup hnd]
  apply get?_of_mem hnd
  refine List.mem_map.2 ⟨(d, i), ?_, rfl⟩
  rw [List.mem_iff_getElem?]
  exact ⟨i, by rw [List.getElem?_zipIdx, hk]; simp⟩

end

/-- **C119** (ordinary scores, zmuv) -/
theorem C119_numbers_zmuv {δ : Type*} [DecidableEq δ] (r : Dict δ ℝ) (h : NodupKeys r) :
    Special.zmuv Real.sqrt (Spec.asFloats r) = Spec.asFloats (Norm.zmuv r) := by
  have hl : (Spec.asFloats r).length = r.length := by unfold Spec.asFloats; rw [List.length_map]
  have hlv : r.values.length = r.length := by unfold Dict.values; rw [List.length_map]
  unfold Special.zmuv Norm.zmuv Norm.extractScores
  simp only [Special.values_asFloats, Special.sumX_fin, hl, hlv]
  have e1 : div (X.fin r.values.sum) (.fin (r.length : ℝ)) = .fin (r.values.sum / (r.length : ℝ)) := rfl
  rw [e1, List.map_map]
  generalize r.values.sum / (r.length : ℝ) = mean
  have e2 : r.values.map ((fun s : X ℝ => mul (sub s (.fin mean)) (sub s (.fin mean))) ∘ X.fin) =
      (r.values.map (fun s => |s - mean| ^ 2)).map X.fin := by
    rw [List.map_map]
    apply List.map_congr_left
    intro s _
    simp only [Function.comp_apply, Special.sub_fin, sq_abs]
    change X.fin ((s - mean) * (s - mean)) = _
    rw [sq]
  rw [e2, Special.sumX_fin]
  have hnn : 0 ≤ (r.values.map (fun s => |s - mean| ^ 2)).sum / (r.length : ℝ) := by
    apply div_nonneg
    · apply List.sum_nonneg
      intro x hx
      obtain ⟨s, -, rfl⟩ := List.mem_map.1 hx
      positivity
    · positivity
  have e3 : sqrtX Real.sqrt (div (X.fin (r.values.map (fun s => |s - mean| ^ 2)).sum) (.fin (r.length : ℝ))) =
      .fin (Real.sqrt ((r.values.map (fun s => |s - mean| ^ 2)).sum / (r.length : ℝ))) := if_neg (not_lt.2 hnn)
  rw [e3]
  generalize Real.sqrt ((r.values.map (fun s => |s - mean| ^ 2)).sum / (r.length : ℝ)) = std
  have e4 : max2 (X.fin std) Special.eps = .fin (max std Norm.eps) := Special.max2_fin _ _
  rw [e4]
  apply Special.normLoop_fin r h
  intro v
  rw [Special.sub_fin]; rfl

/-! ### refutations: a ranking is destroyed -/

/-- a query with a masked doc -/
def exMasked : Dict Nat (X ℚ) := [(1, .fin 3), (2, .fin 1), (3, .ninf)]

/-- a query with a pinned doc -/
def exPinned : Dict Nat (X ℚ) := [(1, .pinf), (2, .fin 3), (3, .fin 1)]

/-- **C119** (refutation): with a masked (`-inf`) doc, min-max and sum normalization give every doc `nan`, and the
ranking 1, 2, 3 is lost; with a pinned (`inf`) doc, min-max and max normalization give `nan` to the best doc, which is
ranked last from now on, and make the others indistinguishable. -/
theorem C119_refuted :
    Special.minMax false exMasked = [(1, .nan), (2, .nan), (3, .nan)] ∧
    Special.sumNorm exMasked = [(1, .nan), (2, .nan), (3, .nan)] ∧
    Special.minMax false exPinned = [(1, .nan), (2, .fin 0), (3, .fin 0)] ∧
    Special.maxNorm exPinned = [(1, .nan), (2, .fin 0), (3, .fin 0)] ∧
    ¬Spec.FloatAtLeast (X.nan : X ℚ) (.fin 0) := by
  refine ⟨?_, ?_, ?_, ?_, id⟩ <;> decide +kernel

/-- non-vacuity of `C119_minmax_minus_inf`, `C119_sum_minus_inf`, `C119_zmuv` -/
example : NodupKeys exMasked ∧ exMasked.get? 3 = some .ninf ∧ ¬Spec.Number (X.ninf : X ℚ) :=
  ⟨by unfold NodupKeys; decide, by decide, id⟩

/-- non-vacuity of `C119_inverted_plus_inf`, `C119_minmax_plus_inf` and `C119_max_plus_inf` -/
example : Special.minMax true exPinned = [(1, .nan), (2, .nan), (3, .nan)] ∧
    (Special.minMax false exPinned).get? 2 = some (.fin 0) := by
  refine ⟨by decide +kernel, ?_⟩
  refine (C119_minmax_plus_inf exPinned (by unfold NodupKeys; decide) 1 2 3 (by decide) (by decide) ?_).2 2 3 (by decide)
  intro d'
  constructor <;>
  · intro h
    have := mem_of_get? h
    simp [exPinned] at this

/-- non-vacuity of `C119_max_partial` -/
example : Special.maxNorm exMasked = [(1, .fin 1), (2, .fin (1 / 3)), (3, .ninf)] ∧
    ∀ d, exMasked.get? d ≠ some .pinf ∧ exMasked.get? d ≠ some .nan := by
  refine ⟨by decide +kernel, fun d => ?_⟩
  constructor <;>
  · intro h
    have := mem_of_get? h
    simp [exMasked] at this

/-- non-vacuity of `C119_rank` -/
example : Special.rankNorm (δ := Nat) (α := ℚ) [(1, .nan), (2, .ninf)] = [(1, .fin 1), (2, .fin (1 / 2))] := by decide +kernel

/-- non-vacuity of `C119_numbers` -/
example : Special.minMax false (Spec.asFloats [(1, (3 : ℚ)), (2, 1), (3, 2)]) =
    [(1, .fin 1), (2, .fin 0), (3, .fin (1 / 2))] := by decide +kernel

end Ranx
