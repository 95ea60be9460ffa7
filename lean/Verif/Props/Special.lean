import Verif.Model.Special
import Verif.Props.EvaluateCongr

/-!
# C118: runs with infinite and NaN scores are ranked and evaluated
-/

set_option linter.unusedSectionVars false

namespace Ranx
open Dict Store Metrics Eval Special Special.X

section
variable {κ δ α : Type*} [LinearOrder κ] [DecidableEq δ] [Field α] [LinearOrder α] [IsStrictOrderedRing α]

/-- Specification: a doc scored `a` may be ranked before a doc scored `b`: `inf` before the numbers, larger numbers
first, then `-inf`, and `nan` last. -/
def Spec.FloatAtLeast : X α → X α → Prop
  | _, .nan => True
  | .nan, _ => False
  | .pinf, _ => True
  | _, .pinf => False
  | _, .ninf => True
  | .ninf, _ => False
  | .fin a, .fin b => b ≤ a

theorem Special.neg_le_neg_iff (a b : X α) : -a ≤ -b ↔ Spec.FloatAtLeast a b := by
  change sortLe (X.neg a) (X.neg b) ↔ _
  cases a <;> cases b <;> simp [sortLe, X.neg, Spec.FloatAtLeast]

/-- a flagged store is really sorted -/
def Special.FlagOk (s : Store κ δ (X α)) : Prop :=
  s.sorted = true → (∀ p ∈ s.data, p.2.Pairwise (fun a b => Spec.FloatAtLeast a.2 b.2)) ∧ s.data.keys.Pairwise (· < ·)

variable (S : ArgSort (X α))

theorem Special.sortAll_ranked {d : Dict κ (Dict δ (X α))} (h : Wf d) :
    (∀ p ∈ Ranx.sortAll S d, p.2.Pairwise (fun a b => Spec.FloatAtLeast a.2 b.2)) ∧
      (Ranx.sortAll S d).keys.Pairwise (· < ·) := by
  refine ⟨?_, keys_sortAll_sorted S h.1⟩
  rw [sortAll_eq S h.1]
  intro p hp
  obtain ⟨a, ha, rfl⟩ := List.mem_map.1 hp
  have hn := h.2 a ((sortDictByKey_perm h.1).mem_iff.1 ha)
  simp only
  rw [sortDictByValue_eq_pick S hn]
  apply pick_pairwise
  refine (S.sorted (a.2.values.map (fun v => -v))).imp ?_
  intro i j h p q hp hq
  have := h (-p.2) (-q.2) (by simp [Dict.values, hp]) (by simp [Dict.values, hq])
  exact (neg_le_neg_iff _ _).1 this

theorem Special.step_flagOk (s : Store κ δ (X α)) (o : Op κ δ (X α)) (h : Wf s.data) (hf : Special.FlagOk s)
    (he : (s.step S o).2 = none) : Special.FlagOk (s.step S o).1 := by
  have multi : ∀ (qs : List κ) (dss : List (List δ)) (vss : List (List (X α))),
      (s.addMulti S qs dss vss).2 = none → Special.FlagOk (s.addMulti S qs dss vss).1 := by
    intro qs dss vss
    have hb := addBulk_spec s.data qs dss vss h
    unfold addMulti
    by_cases hu : untyped qs dss vss = true
    · rw [if_pos hu]; simp
    rw [if_neg hu]
    rcases hab : addBulk s.data qs dss vss with ⟨m, e⟩
    rw [hab] at hb
    cases e with
    | some e => simp
    | none => exact fun _ _ => Special.sortAll_ranked S hb.1
  cases o with
  | addScore q d v => intro h; simp [Store.step, addScore] at h
  | add q ds vs => exact multi _ _ _ he
  | addMulti qs dss vss => exact multi _ _ _ he
  | sort => exact fun _ => Special.sortAll_ranked S h
  | makeComparable qs =>
    obtain ⟨d2, hw, hg, hm⟩ := makeComparable_spec S s qs h
    simp only [Store.step, hm]
    exact fun _ => Special.sortAll_ranked S hw
  | toTypedList =>
    simp only [Store.step, ensureSorted]
    split
    · exact hf
    · exact fun _ => Special.sortAll_ranked S h

theorem Special.usable_ok {s : Store κ δ (X α)} (h : Spec.Usable S s) : Wf s.data ∧ Special.FlagOk s := by
  obtain ⟨s0, h, hstart, rfl, hok⟩ := h
  have hbase : Wf s0.data ∧ Special.FlagOk s0 := by
    obtain ⟨d, hd, hi, hof⟩ := hstart
    rcases hof with rfl | hof
    · exact ⟨⟨hd, hi⟩, fun hc => by simp at hc⟩
    · rw [ofDict_eq S d ⟨hd, hi⟩] at hof
      split at hof
      · cases hof
      · cases hof
        exact ⟨Wf.sortAll S ⟨hd, hi⟩, fun _ => Special.sortAll_ranked S ⟨hd, hi⟩⟩
  have key : ∀ (os : List (Op κ δ (X α))) (s : Store κ δ (X α)), Wf s.data → Special.FlagOk s →
      (∀ e ∈ (s.exec S os).2, e = none) →
      Wf (s.exec S os).1.data ∧ Special.FlagOk (s.exec S os).1 := by
    intro os
    induction os with
    | nil => intro s h1 h2 _; exact ⟨h1, h2⟩
    | cons o os ih =>
      intro s h1 h2 h3
      rw [exec_cons] at h3 ⊢
      exact ih _ (step_spec S s o h1).1 (Special.step_flagOk S s o h1 h2 (h3 _ (by simp)))
        (fun e he => h3 e (by simp [he]))
  exact key h s0 hbase.1 hbase.2 hok

theorem Special.ensureSorted_ranked {s : Store κ δ (X α)} (h : Wf s.data) (hf : Special.FlagOk s) :
    (∀ p ∈ (s.ensureSorted S).data, p.2.Pairwise (fun a b => Spec.FloatAtLeast a.2 b.2)) ∧
      (s.ensureSorted S).data.keys.Pairwise (· < ·) := by
  unfold ensureSorted
  split
  · rename_i hs; exact hf hs
  · exact Special.sortAll_ranked S h

/-- **C118** (ranking): whatever scores a run has been given, `inf`, `-inf` and `nan` included, and by whatever calls, the
ranking of each query that `evaluate` and `save` see (`to_typed_list`) holds exactly the docs of the query with their
scores, `inf` first, then the numbers from the largest to the smallest, then `-inf`, and `nan` last. -/
theorem C118_ranked (s : Store κ δ (X α)) (hs : Spec.Usable S s) (q : κ) (ranking : Dict δ (X α))
    (hq : (s.ensureSorted S).data.get? q = some ranking) :
    (ranking.map Prod.fst).Nodup ∧ ranking.Pairwise (fun a b => Spec.FloatAtLeast a.2 b.2) ∧
    ∀ d v, (d, v) ∈ ranking ↔ (Spec.content s).read q d = some v := by
  obtain ⟨hw, hf⟩ := Special.usable_ok S hs
  have hws : Wf (s.ensureSorted S).data := by
    unfold ensureSorted
    split
    · exact hw
    · exact Wf.sortAll S hw
  have hnd : NodupKeys ranking := hws.2 (q, ranking) (mem_of_get? hq)
  refine ⟨hnd, (Special.ensureSorted_ranked S hw hf).1 (q, ranking) (mem_of_get? hq), ?_⟩
  intro d v
  have hc : Spec.content (s.ensureSorted S) = Spec.content s := by
    unfold ensureSorted
    split
    · rfl
    · exact cont_sortAll S hw
  rw [← hc, ← get?_eq_some_iff hnd]
  unfold Spec.Content.read Spec.content
  rw [hq]; rfl

theorem Special.atLeast_antisymm {a b : X α} (h : Spec.FloatAtLeast a b) (h' : Spec.FloatAtLeast b a) : a = b := by
  cases a <;> cases b <;> simp only [Spec.FloatAtLeast] at h h' <;> first | rfl | exact absurd h id | exact absurd h' id | skip
  rw [le_antisymm h' h]

/-- **C118** (evaluation): such a run is evaluated like the run `t` of ordinary numbers in which every score is replaced
by a number (`g`) so that the ranking stays the same, e.g. `inf` by a number above all others, `-inf` by one below all
others and `nan` by one below those: for every query the metrics are handed the same doc ids in the same order, and so
every metric gives the same value. (No two docs of a query have the same score, or the ranking is not determined.) -/
theorem C118_evaluated {ι : Type*} [LinearOrder ι] (S0 : ArgSort α) (hash : δ → ι) (cast : X α → α)
    (s : Store κ δ (X α)) (t : Store κ δ α) (hs : Spec.Usable S s) (ht : Spec.Usable S0 t) (g : X α → α)
    (hk : ∀ q, q ∈ s.data.keys ↔ q ∈ t.data.keys)
    (hc : ∀ q d, (Spec.content t).read q d = ((Spec.content s).read q d).map g)
    (hg : ∀ q d d' a b, (Spec.content s).read q d = some a → (Spec.content s).read q d' = some b →
      ¬Spec.FloatAtLeast b a → g b < g a)
    (htie : ∀ q d d' v, (Spec.content s).read q d = some v → (Spec.content s).read q d' = some v → d = d') :
    (s.toTypedList S hash cast).2.map (List.map Prod.fst) = (t.toTypedList S0 hash id).2.map (List.map Prod.fst) ∧
    ∀ (F : Fn α) (other : Py.Str → Except Err α) (m : Py.Str) (f : Kernel ι α), metricOf F other m = .ok f →
      ∀ (judgements : Rows ι α) (i : Nat) (row row' : Rows ι α), (s.toTypedList S hash cast).2[i]? = some row →
        (t.toTypedList S0 hash id).2[i]? = some row' → f judgements row = f judgements row' := by
  obtain ⟨hw, hf⟩ := Special.usable_ok S hs
  obtain ⟨hw', hf'⟩ := ht.ok
  have hr := Special.ensureSorted_ranked S hw hf
  have hr' := Store.ensureSorted_ranked S0 t hw' hf'
  have hkey : ∀ (u : Dict κ (Dict δ (X α))) (sorted : Bool), Wf u → ∀ x,
      x ∈ ((⟨u, sorted⟩ : Store κ δ (X α)).ensureSorted S).data.keys ↔ x ∈ u.keys := by
    intro u b hu x
    unfold ensureSorted
    cases b
    · exact mem_keys_sortAll S hu.1 x
    · exact Iff.rfl
  have hkey' : ∀ (u : Dict κ (Dict δ α)) (sorted : Bool), Wf u → ∀ x,
      x ∈ ((⟨u, sorted⟩ : Store κ δ α).ensureSorted S0).data.keys ↔ x ∈ u.keys := by
    intro u b hu x
    unfold ensureSorted
    cases b
    · exact mem_keys_sortAll S0 hu.1 x
    · exact Iff.rfl
  have hkeys : (s.ensureSorted S).data.keys = (t.ensureSorted S0).data.keys :=
    eq_of_mem_iff_of_sorted_lt hr.2 hr'.2 (fun x => by
      rw [hkey s.data s.sorted hw x, hkey' t.data t.sorted hw' x, hk])
  have hwt : Wf (t.ensureSorted S0).data := by
    unfold ensureSorted
    split
    · exact hw'
    · exact Wf.sortAll S0 hw'
  have hct : Spec.content (t.ensureSorted S0) = Spec.content t := by
    unfold ensureSorted
    split
    · rfl
    · exact cont_sortAll S0 hw'
  have hids : ∀ q l l', (s.ensureSorted S).data.get? q = some l → (t.ensureSorted S0).data.get? q = some l' →
      l.map Prod.fst = l'.map Prod.fst := by
    intro q l l' hl hl'
    obtain ⟨n1, n2, n3⟩ := C118_ranked S s hs q l hl
    have m1 : NodupKeys l' := hwt.2 (q, l') (mem_of_get? hl')
    have m2 : l'.Pairwise (fun a b => b.2 ≤ a.2) := List.pairwise_map.1 (hr'.1 (q, l') (mem_of_get? hl'))
    have m3 : ∀ d v, (d, v) ∈ l' ↔ (Spec.content t).read q d = some v := by
      intro d v
      rw [← hct, ← get?_eq_some_iff m1]
      unfold Spec.Content.read Spec.content
      rw [hl']; rfl
    have key : l.map (fun p => (p.1, g p.2)) = l' := by
      have nd1 : (l.map (fun p => (p.1, g p.2))).Nodup := by
        have : ((l.map (fun p => (p.1, g p.2))).map Prod.fst).Nodup := by
          rw [List.map_map]; exact n1
        exact this.of_map _
      have nd2 : l'.Nodup := List.Nodup.of_map Prod.fst m1
      have hp : (l.map (fun p => (p.1, g p.2))).Perm l' := by
        rw [List.perm_ext_iff_of_nodup nd1 nd2]
        rintro ⟨d, v⟩
        rw [m3, hc, List.mem_map]
        constructor
        · rintro ⟨⟨d', v'⟩, hmem, he⟩
          simp only [Prod.mk.injEq] at he
          obtain ⟨rfl, rfl⟩ := he
          rw [(n3 _ _).1 hmem]; rfl
        · intro h
          obtain ⟨v', hv', rfl⟩ := Option.map_eq_some_iff.1 h
          exact ⟨(d, v'), (n3 _ _).2 hv', rfl⟩
      refine hp.eq_of_pairwise (le := fun a b : δ × α => b.2 ≤ a.2) ?_ ?_ m2
      · rintro ⟨d, v⟩ ⟨d', v'⟩ ha hb h1 h2
        have hv : v = v' := le_antisymm h2 h1
        subst hv
        have hb' := hp.mem_iff.2 hb
        rw [List.mem_map] at ha hb'
        obtain ⟨⟨e, w⟩, hm1, he⟩ := ha
        obtain ⟨⟨e', w'⟩, hm2, he'⟩ := hb'
        simp only [Prod.mk.injEq] at he he'
        obtain ⟨rfl, hw1⟩ := he
        obtain ⟨rfl, hw2⟩ := he'
        have r1 := (n3 _ _).1 hm1
        have r2 := (n3 _ _).1 hm2
        have hww : w = w' := by
          by_contra hne
          by_cases ha : Spec.FloatAtLeast w' w
          · have hb : ¬Spec.FloatAtLeast w w' := fun hx => hne (Special.atLeast_antisymm hx ha)
            have := hg q e' e w' w r2 r1 hb
            rw [hw1, hw2] at this
            exact lt_irrefl _ this
          · have := hg q e e' w w' r1 r2 ha
            rw [hw1, hw2] at this
            exact lt_irrefl _ this
        subst hww
        rw [htie q e e' w r1 r2]
      · rw [List.pairwise_map]
        refine n2.imp_of_mem ?_
        intro a b ha hb hab
        have r1 := (n3 a.1 a.2).1 ha
        have r2 := (n3 b.1 b.2).1 hb
        by_cases h' : Spec.FloatAtLeast b.2 a.2
        · rw [Special.atLeast_antisymm hab h']
        · exact le_of_lt (hg q _ _ _ _ r1 r2 h')
    rw [← key, List.map_map]; rfl
  have hrows : (s.toTypedList S hash cast).2.map (List.map Prod.fst) =
      (t.toTypedList S0 hash id).2.map (List.map Prod.fst) := by
    simp only [Store.toTypedList, Store.rows]
    apply List.ext_getElem?
    intro i
    have hi : ((s.ensureSorted S).data[i]?).map Prod.fst = ((t.ensureSorted S0).data[i]?).map Prod.fst := by
      have := congrArg (fun l => l[i]?) hkeys
      simpa [Dict.keys, List.getElem?_map] using this
    have hnd := hwt.1
    have hnds : NodupKeys (s.ensureSorted S).data := by
      unfold NodupKeys
      have : (s.ensureSorted S).data.map Prod.fst = (t.ensureSorted S0).data.map Prod.fst := hkeys
      rw [this]; exact hnd
    unfold Dict.values
    simp only [List.getElem?_map]
    cases h1 : (s.ensureSorted S).data[i]? with
    | none =>
      cases h2 : (t.ensureSorted S0).data[i]? with
      | none => rfl
      | some p' => rw [h1, h2] at hi; cases hi
    | some p =>
      cases h2 : (t.ensureSorted S0).data[i]? with
      | none => rw [h1, h2] at hi; cases hi
      | some p' =>
        rw [h1, h2] at hi
        have hpp : p.1 = p'.1 := Option.some.inj hi
        have g1 := get?_of_mem hnds (List.mem_of_getElem? h1 : (p.1, p.2) ∈ _)
        have g2 := get?_of_mem hnd (List.mem_of_getElem? h2 : (p'.1, p'.2) ∈ _)
        rw [← hpp] at g2
        have := hids p.1 p.2 p'.2 g1 g2
        simp only [Option.map_some, List.map_map]
        congr 1
        have e1 : ∀ l : Dict δ (X α), List.map (Prod.fst ∘ fun p => (hash p.1, cast p.2)) l = (l.map Prod.fst).map hash := by
          intro l; rw [List.map_map]; rfl
        have e2 : ∀ l : Dict δ α, List.map (Prod.fst ∘ fun p => (hash p.1, id p.2)) l = (l.map Prod.fst).map hash := by
          intro l; rw [List.map_map]; rfl
        rw [e1, e2, this]
  refine ⟨hrows, ?_⟩
  intro F other m f hm j i row row' h1 h2
  apply metricOf_ids F other m f hm
  have := congrArg (fun l => l[i]?) hrows
  simp only [List.getElem?_map, h1, h2, Option.map_some, Option.some.injEq] at this
  exact this

end

/-- a run with every kind of score -/
def exSpecial : Store Nat Nat (X ℚ) :=
  ⟨[(1, [(10, .nan), (11, .ninf), (12, .fin 2), (13, .pinf), (14, .fin 3)]), (0, [(10, .pinf)])], false⟩

theorem exSpecial_usable : Spec.Usable (ArgSort.stable (X ℚ)) exSpecial :=
  ⟨exSpecial, [], ⟨exSpecial.data, by unfold NodupKeys; decide, by unfold NodupKeys; decide, .inl rfl⟩, rfl, by
    intro e he; cases he⟩

/-- non-vacuity of `C118_ranked` -/
example : (exSpecial.ensureSorted (ArgSort.stable (X ℚ))).data =
    [(0, [(10, .pinf)]), (1, [(13, .pinf), (14, .fin 3), (12, .fin 2), (11, .ninf), (10, .nan)])] := by
  decide +kernel

/-- the same run with numbers instead -/
def exSpecialNum : Store Nat Nat ℚ :=
  ⟨[(0, [(10, 100)]), (1, [(10, -200), (11, -100), (12, 2), (13, 100), (14, 3)])], false⟩

def exSpecialNumber : X ℚ → ℚ
  | .fin v => v
  | .pinf => 100
  | .ninf => -100
  | .nan => -200

/-- non-vacuity of `C118_evaluated` -/
example : (exSpecial.toTypedList (ArgSort.stable (X ℚ)) id (fun _ => (0 : ℚ))).2.map (List.map Prod.fst) =
    (exSpecialNum.toTypedList (ArgSort.stable ℚ) id id).2.map (List.map Prod.fst) := by
  have key : ∀ q d v, (Spec.content exSpecial).read q d = some v →
      (q = 0 ∧ d = 10 ∧ v = .pinf) ∨ (q = 1 ∧ ((d = 10 ∧ v = .nan) ∨ (d = 11 ∧ v = .ninf) ∨ (d = 12 ∧ v = .fin 2) ∨
        (d = 13 ∧ v = .pinf) ∨ (d = 14 ∧ v = .fin 3))) := by
    intro q d v h
    unfold Spec.Content.read Spec.content exSpecial at h
    by_cases h1 : 1 = q
    · subst h1
      have := mem_of_get? (show Dict.get? [(10, X.nan), (11, .ninf), (12, .fin 2), (13, .pinf), (14, .fin 3)] d = some v from h)
      simp only [List.mem_cons, Prod.mk.injEq, List.not_mem_nil, or_false] at this
      exact .inr ⟨rfl, this⟩
    · by_cases h0 : 0 = q
      · subst h0
        have := mem_of_get? (show Dict.get? [(10, X.pinf)] d = some v from h)
        simp only [List.mem_cons, Prod.mk.injEq, List.not_mem_nil, or_false] at this
        exact .inl ⟨rfl, this⟩
      · simp only [get?_cons, if_neg h1, if_neg h0] at h
        exact absurd h (by simp [Dict.get?])
  refine (C118_evaluated (ArgSort.stable (X ℚ)) (ArgSort.stable ℚ) id (fun _ => 0) exSpecial exSpecialNum
    exSpecial_usable ⟨exSpecialNum, [], ⟨exSpecialNum.data, by unfold NodupKeys; decide, by unfold NodupKeys; decide,
      .inl rfl⟩, rfl, by intro e he; cases he⟩ exSpecialNumber ?_ ?_ ?_ ?_).1
  · intro q; simp [exSpecial, exSpecialNum, Dict.keys, or_comm]
  · intro q d
    unfold Spec.Content.read Spec.content exSpecial exSpecialNum
    by_cases h1 : 1 = q
    · subst h1
      change Dict.get? [(10, (-200 : ℚ)), (11, -100), (12, 2), (13, 100), (14, 3)] d =
        (Dict.get? [(10, X.nan), (11, .ninf), (12, .fin 2), (13, .pinf), (14, .fin 3)] d).map exSpecialNumber
      rw [← get?_map_val]
      rfl
    · by_cases h0 : 0 = q
      · subst h0
        change Dict.get? [(10, (100 : ℚ))] d = (Dict.get? [(10, X.pinf)] d).map exSpecialNumber
        rw [← get?_map_val]
        rfl
      · simp only [get?_cons, if_neg h1, if_neg h0]
        rfl
  · intro q d d' a b h1 h2 h3
    rcases key q d a h1 with ⟨rfl, rfl, rfl⟩ | ⟨rfl, h⟩
    · rcases key 0 d' b h2 with ⟨-, rfl, rfl⟩ | ⟨h, -⟩
      · exact absurd trivial h3
      · cases h
    · rcases key 1 d' b h2 with ⟨h', -⟩ | ⟨-, h'⟩
      · cases h'
      · rcases h with ⟨rfl, rfl⟩ | ⟨rfl, rfl⟩ | ⟨rfl, rfl⟩ | ⟨rfl, rfl⟩ | ⟨rfl, rfl⟩ <;>
          rcases h' with ⟨rfl, rfl⟩ | ⟨rfl, rfl⟩ | ⟨rfl, rfl⟩ | ⟨rfl, rfl⟩ | ⟨rfl, rfl⟩ <;>
          simp [Spec.FloatAtLeast] at h3 <;> simp only [exSpecialNumber] <;> norm_num at *
  · intro q d d' v h1 h2
    rcases key q d v h1 with ⟨rfl, rfl, rfl⟩ | ⟨rfl, h⟩
    · rcases key 0 d' _ h2 with ⟨-, rfl, -⟩ | ⟨h, -⟩
      · rfl
      · cases h
    · rcases key 1 d' v h2 with ⟨h', -⟩ | ⟨-, h'⟩
      · cases h'
      · rcases h with ⟨rfl, rfl⟩ | ⟨rfl, rfl⟩ | ⟨rfl, rfl⟩ | ⟨rfl, rfl⟩ | ⟨rfl, rfl⟩ <;>
          rcases h' with ⟨rfl, h'⟩ | ⟨rfl, h'⟩ | ⟨rfl, h'⟩ | ⟨rfl, h'⟩ | ⟨rfl, h'⟩ <;>
          first | rfl | (exfalso; simp at h')

end Ranx
