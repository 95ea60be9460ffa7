import Verif.Props.EndToEnd
import Mathlib.Data.List.TakeWhile

/-!
# Property C116: how scores change when runs and judgements change
-/

set_option linter.unusedSectionVars false

namespace Ranx
open Dict Store Eval Metrics Py
variable {κ δ ι α : Type*}
variable [LinearOrder κ] [DecidableEq δ] [LinearOrder ι] [Field α] [LinearOrder α]
  [IsStrictOrderedRing α]

/-- Specification: no two docs of `q` share a score. -/
def Spec.NoTies {β : Type*} (m : Spec.Content κ δ β) (q : κ) : Prop :=
  ∀ d d' v, m.read q d = some v → m.read q d' = some v → d = d'

/-- Specification: for query `q`, `m'` is what is left of `m` when only its best docs are kept. -/
def Spec.Cut {β : Type*} [LT β] (m m' : Spec.Content κ δ β) (q : κ) : Prop :=
  (∀ d v, m'.read q d = some v → m.read q d = some v) ∧
  ∀ d d' v v', m'.read q d = some v → m.read q d' = some v' → m'.read q d' = none → v' < v

/-- Specification: how many docs `m` has for `q`. -/
noncomputable def Spec.size {β : Type*} (m : Spec.Content κ δ β) (q : κ) : Nat :=
  Set.ncard {d | ∃ v, m.read q d = some v}

/-- Specification: for query `q`, `m'` is `m` with the score of doc `y` raised from `v` to `v'`. -/
def Spec.RaisedTo {β : Type*} [LT β] (m m' : Spec.Content κ δ β) (q : κ) (y : δ) (v v' : β) : Prop :=
  m.read q y = some v ∧ m'.read q y = some v' ∧ v < v' ∧ ∀ d, d ≠ y → m'.read q d = m.read q d

/-! ## rankings -/

theorem ranking_length {β : Type*} [LE β] {m : Spec.Content κ δ β} {q : κ} {l : List (δ × β)}
    (h : Spec.Ranking m q l) : l.length = Spec.size m q := by
  have hset : {d | ∃ v, m.read q d = some v} = ((l.map Prod.fst).toFinset : Set δ) := by
    ext d
    simp only [Set.mem_setOf_eq, List.coe_toFinset, List.mem_map]
    constructor
    · rintro ⟨v, hv⟩; exact ⟨(d, v), (h.docs _ _).2 hv, rfl⟩
    · rintro ⟨⟨d', v⟩, hm, rfl⟩; exact ⟨v, (h.docs _ _).1 hm⟩
  unfold Spec.size
  rw [hset, Set.ncard_coe_finset, List.toFinset_card_of_nodup h.nodup, List.length_map]

theorem ranking_unique_ids {m : Spec.Content κ δ α} {q : κ} (ht : Spec.NoTies m q) {l l' : List (δ × α)}
    (h : Spec.Ranking m q l) (h' : Spec.Ranking m q l') : l.map Prod.fst = l'.map Prod.fst :=
  ranking_map_unique m m q id strictMono_id (fun d => by cases m.read q d <;> rfl) ht l l' h h'

/-- the ranking of what is left is a prefix -/
theorem cut_prefix {m m' : Spec.Content κ δ α} {q : κ} (ht : Spec.NoTies m q) (hc : Spec.Cut m m' q)
    {l l' : List (δ × α)} (h : Spec.Ranking m q l) (h' : Spec.Ranking m' q l') :
    l'.map Prod.fst = (l.map Prod.fst).take l'.length := by
  obtain ⟨hsub, habove⟩ := hc
  set D := l.filter (fun p => (m'.read q p.1).isNone) with hD
  have hmem : ∀ d v, (d, v) ∈ D ↔ m.read q d = some v ∧ m'.read q d = none := by
    intro d v
    rw [hD, List.mem_filter, h.docs]
    simp
  have hr : Spec.Ranking m q (l' ++ D) := by
    refine ⟨?_, ?_, ?_⟩
    · rw [List.map_append, List.nodup_append]
      refine ⟨h'.nodup, h.nodup.sublist (List.filter_sublist.map _), ?_⟩
      intro a ha b hb hab
      subst hab
      obtain ⟨⟨d, v⟩, h1, rfl⟩ := List.mem_map.1 ha
      obtain ⟨⟨d', v'⟩, h2, he⟩ := List.mem_map.1 hb
      simp only at he
      subst he
      have := (h'.docs _ _).1 h1
      rw [((hmem _ _).1 h2).2] at this
      cases this
    · rw [List.pairwise_append]
      refine ⟨h'.sorted, h.sorted.sublist List.filter_sublist, ?_⟩
      rintro ⟨d, v⟩ h1 ⟨d', v'⟩ h2
      obtain ⟨h3, h4⟩ := (hmem _ _).1 h2
      exact (habove d d' v v' ((h'.docs _ _).1 h1) h3 h4).le
    · intro d v
      rw [List.mem_append, h'.docs, hmem]
      constructor
      · rintro (h1 | h1)
        · exact hsub d v h1
        · exact h1.1
      · intro h1
        cases h2 : m'.read q d with
        | none => exact .inr ⟨h1, rfl⟩
        | some w =>
          have := hsub d w h2
          rw [h1] at this
          cases this
          exact .inl rfl
  have := ranking_unique_ids ht h hr
  rw [this, List.map_append, List.take_append_of_le_length (by rw [List.length_map]),
    List.take_of_length_le (by rw [List.length_map])]

/-- the ranking with a raised doc: the doc jumps over some docs -/
theorem raised_ids {m m' : Spec.Content κ δ α} {q : κ} {y : δ} {v v' : α} (ht : Spec.NoTies m q)
    (ht' : Spec.NoTies m' q) (hr : Spec.RaisedTo m m' q y v v') {l l' : List (δ × α)} (h : Spec.Ranking m q l)
    (h' : Spec.Ranking m' q l') :
    ∃ A B C : List δ, l.map Prod.fst = A ++ B ++ y :: C ∧ l'.map Prod.fst = A ++ y :: B ++ C ∧
      ∀ b ∈ B, ∃ w, m.read q b = some w ∧ v < w ∧ w < v' := by
  obtain ⟨hy, hy', hlt, hsame⟩ := hr
  obtain ⟨P, C, hl⟩ := List.append_of_mem ((h.docs y v).2 hy)
  set A := P.takeWhile (fun p => decide (v' < p.2)) with hA
  set B := P.dropWhile (fun p => decide (v' < p.2)) with hB
  have hP : P = A ++ B := (List.takeWhile_append_dropWhile).symm
  have hnd := h.nodup
  have hs := h.sorted
  rw [hl, hP] at hnd hs
  simp only [List.map_append, List.map_cons] at hnd
  have hA' : ∀ p ∈ A, v' < p.2 := fun p hp => by
    have := List.mem_takeWhile_imp hp
    simpa using this
  rw [List.pairwise_append] at hs
  obtain ⟨hs1, hs2, hs3⟩ := hs
  rw [List.pairwise_append] at hs1
  obtain ⟨hsA, hsB, hsAB⟩ := hs1
  rw [List.pairwise_cons] at hs2
  obtain ⟨hsy, hsC⟩ := hs2
  have hB' : ∀ p ∈ B, p.2 ≤ v' := by
    intro p hp
    cases hb : B with
    | nil => rw [hb] at hp; cases hp
    | cons b t =>
      have hb0 : b.2 ≤ v' := by
        have := List.head_dropWhile_not (fun p : δ × α => decide (v' < p.2)) (l := P)
          (by rw [← hB, hb]; exact List.cons_ne_nil _ _)
        simp only [← hB, hb, List.head_cons] at this
        simpa using this
      rw [hb] at hp hsB
      rw [List.mem_cons] at hp
      rcases hp with rfl | hp
      · exact hb0
      · exact le_trans ((List.pairwise_cons.1 hsB).1 p hp) hb0
  have hmemB : ∀ p ∈ B, p ∈ l := fun p hp => by rw [hl, hP]; simp [hp]
  have hmemA : ∀ p ∈ A, p ∈ l := fun p hp => by rw [hl, hP]; simp [hp]
  have hmemC : ∀ p ∈ C, p ∈ l := fun p hp => by rw [hl, hP]; simp [hp]
  have hne : ∀ p, p ∈ A ++ B ++ C → p.1 ≠ y := by
    intro p hp he
    have hperm : (A.map Prod.fst ++ B.map Prod.fst ++ y :: C.map Prod.fst).Perm
        (y :: (A.map Prod.fst ++ B.map Prod.fst ++ C.map Prod.fst)) := List.perm_middle
    have := (hperm.nodup_iff.1 hnd)
    rw [List.nodup_cons] at this
    apply this.1
    rw [← he, ← List.map_append, ← List.map_append]
    exact List.mem_map_of_mem hp
  have hR : Spec.Ranking m' q (A ++ (y, v') :: (B ++ C)) := by
    refine ⟨?_, ?_, ?_⟩
    · have hperm : ((A ++ (y, v') :: (B ++ C)).map Prod.fst).Perm
          (A.map Prod.fst ++ B.map Prod.fst ++ y :: C.map Prod.fst) := by
        simp only [List.map_append, List.map_cons]
        rw [List.append_assoc]
        exact List.Perm.append_left _ List.perm_middle.symm
      exact hperm.nodup_iff.2 hnd
    · rw [List.pairwise_append, List.pairwise_cons, List.pairwise_append]
      refine ⟨hsA, ⟨?_, hsB, hsC, ?_⟩, ?_⟩
      · intro p hp
        rcases List.mem_append.1 hp with hp | hp
        · exact hB' p hp
        · exact le_trans (hsy p hp) hlt.le
      · intro a ha b hb
        exact hs3 a (List.mem_append_right _ ha) b (List.mem_cons_of_mem _ hb)
      · intro a ha b hb
        rcases List.mem_cons.1 hb with rfl | hb
        · exact (hA' a ha).le
        · rcases List.mem_append.1 hb with hb | hb
          · exact hsAB a ha b hb
          · exact hs3 a (List.mem_append_left _ ha) b (List.mem_cons_of_mem _ hb)
    · intro d w
      by_cases hd : d = y
      · subst hd
        rw [hy']
        constructor
        · intro hm
          rcases List.mem_append.1 hm with hm | hm
          · exact absurd rfl (hne (d, w) (by simp [hm]))
          · rcases List.mem_cons.1 hm with hm | hm
            · cases hm; rfl
            · exact absurd rfl (hne (d, w) (by rw [List.append_assoc]; exact List.mem_append_right _ hm))
        · intro he; cases he; simp
      · rw [hsame d hd, ← h.docs, hl, hP]
        simp [hd]
  have hids := ranking_unique_ids ht' h' hR
  refine ⟨A.map Prod.fst, B.map Prod.fst, C.map Prod.fst, ?_, ?_, ?_⟩
  · rw [hl, hP]; simp
  · rw [hids]; simp
  · intro b hb
    obtain ⟨⟨b', w⟩, hm, rfl⟩ := List.mem_map.1 hb
    have hby : b' ≠ y := hne (b', w) (by simp [hm])
    have hw := (h.docs _ _).1 (hmemB _ hm)
    refine ⟨w, hw, lt_of_le_of_ne (hs3 _ (List.mem_append_right _ hm) _ List.mem_cons_self) ?_,
      lt_of_le_of_ne (hB' _ hm) ?_⟩
    · intro he
      rw [← (show v = w from he)] at hw
      exact hby (ht b' y v hw hy)
    · intro he
      have h2 := hsame b' hby
      rw [hw, show w = v' from he] at h2
      exact hby (ht' b' y v' h2 hy')

/-! ## values -/

theorem relIn_take {ids ids' : List δ} (rel : δ → Prop) (n : Nat) (h : ids.take n = ids'.take n) :
    Spec.relIn rel ids n = Spec.relIn rel ids' n := by
  classical
  rw [relIn_eq_countP, relIn_eq_countP, h]

theorem hits_congr {ids ids' : List δ} (rel : δ → Prop) (k : Nat) (h : Spec.top k ids = Spec.top k ids') :
    Spec.hits rel ids k = Spec.hits rel ids' k := by
  letI : LinearOrder δ := WellOrderingRel.isWellOrder.linearOrder
  rw [hits_eq_relIn, hits_eq_relIn]
  have h1 := take_top k (Spec.top k ids).length ids le_rfl
  have h2 := take_top k (Spec.top k ids').length ids' le_rfl
  rw [← h] at h2
  rw [← h]
  exact relIn_take rel _ (h1.symm.trans h2)

theorem precision_congr {ids ids' : List δ} (rel : δ → Prop) (k : Nat) (h : Spec.top k ids = Spec.top k ids') :
    (Spec.precision rel ids k : α) = Spec.precision rel ids' k := by
  unfold Spec.precision
  rw [hits_congr rel k h]
  by_cases hk : k = 0
  · subst hk
    unfold Spec.top at h
    rw [if_pos rfl, if_pos rfl] at h
    rw [h]
  · rw [if_neg hk, if_neg hk]

/-- the value at cutoff `k` is determined by the first `k` docs (for r-precision: the first `R`) -/
theorem value_top (M : Spec.BinaryMetric) {rel : δ → Prop} {R k : Nat} {ids ids' : List δ} {v v' : α}
    (hv : M.Value rel R ids k v) (hv' : M.Value rel R ids' k v') (h : Spec.top k ids = Spec.top k ids')
    (hR : M = .rPrecision → ids.take R = ids'.take R) : v = v' := by
  have hp : (Spec.precision rel ids k : α) = Spec.precision rel ids' k := precision_congr rel k h
  have hr : (Spec.recall rel R ids k : α) = Spec.recall rel R ids' k := by
    unfold Spec.recall; rw [hits_congr rel k h]
  cases M with
  | hits =>
    change v = _ at hv; change v' = _ at hv'
    rw [hv, hv', hits_congr rel k h]
  | hitRate =>
    obtain ⟨a, b⟩ := hv
    obtain ⟨a', b'⟩ := hv'
    rw [← h] at a' b'
    by_cases hx : ∃ x ∈ Spec.top k ids, rel x
    · rw [a hx, a' hx]
    · have hn : ∀ x ∈ Spec.top k ids, ¬ rel x := fun x hx' hr => hx ⟨x, hx', hr⟩
      rw [b hn, b' hn]
  | precision => exact hv.trans (hp.trans hv'.symm)
  | recall => exact hv.trans (hr.trans hv'.symm)
  | f1 =>
    change v = _ at hv; change v' = _ at hv'
    rw [hv, hv', hp, hr]
  | rPrecision =>
    change v = _ at hv; change v' = _ at hv'
    rw [hv, hv', relIn_take rel R (hR rfl)]
  | mrr =>
    letI : LinearOrder δ := WellOrderingRel.isWellOrder.linearOrder
    change Spec.IsReciprocalRank _ _ _ _ at hv
    change Spec.IsReciprocalRank _ _ _ _ at hv'
    have hv2 : Spec.IsReciprocalRank rel ids k v' := by
      unfold Spec.IsReciprocalRank at hv' ⊢
      rw [h]; exact hv'
    exact rr_unique hv hv2
  | map =>
    letI : LinearOrder δ := WellOrderingRel.isWellOrder.linearOrder
    change v = _ at hv; change v' = _ at hv'
    rw [hv, hv']
    unfold Spec.averagePrecision
    rw [h]
    congr 1
    apply Finset.sum_congr rfl
    intro i hi
    rw [Finset.mem_range] at hi
    have e1 := take_top k (i + 1) ids (by rw [h]; exact hi)
    have e2 := take_top k (i + 1) ids' hi
    rw [relIn_take rel (i + 1) (ids := ids) (ids' := ids') (by rw [← e1, ← e2, h])]

theorem value_unique (M : Spec.BinaryMetric) {rel : δ → Prop} {R k : Nat} {ids : List δ} {v v' : α}
    (hv : M.Value rel R ids k v) (hv' : M.Value rel R ids k v') : v = v' :=
  value_top M hv hv' rfl (fun _ => rfl)

theorem value_exists (M : Spec.BinaryMetric) (rel : δ → Prop) (R k : Nat) (ids : List δ) :
    ∃ v : α, M.Value rel R ids k v := by
  classical
  cases M with
  | hits => exact ⟨_, rfl⟩
  | precision => exact ⟨_, rfl⟩
  | recall => exact ⟨_, rfl⟩
  | f1 => exact ⟨_, rfl⟩
  | rPrecision => exact ⟨_, rfl⟩
  | map => exact ⟨_, rfl⟩
  | hitRate =>
    by_cases hx : ∃ x ∈ Spec.top k ids, rel x
    · exact ⟨1, fun _ => rfl, fun hn => by obtain ⟨x, h1, h2⟩ := hx; exact absurd h2 (hn x h1)⟩
    · exact ⟨0, fun h => absurd h hx, fun _ => rfl⟩
  | mrr =>
    change ∃ v, Spec.IsReciprocalRank rel ids k v
    unfold Spec.IsReciprocalRank
    by_cases hx : ∃ i : Nat, ∃ x, (Spec.top k ids)[i]? = some x ∧ rel x
    · obtain ⟨x, h1, h2⟩ := Nat.find_spec hx
      exact ⟨_, .inl ⟨Nat.find hx, x, h1, h2, fun i hi y hy hr => Nat.find_min hx hi ⟨y, hy, hr⟩, rfl⟩⟩
    · refine ⟨0, .inr ⟨fun x hm hr => ?_, rfl⟩⟩
      obtain ⟨i, hi⟩ := List.mem_iff_getElem?.1 hm
      exact hx ⟨i, x, hi, hr⟩

/-- only the pattern of relevant docs matters -/
theorem value_map {δ' : Type*} (M : Spec.BinaryMetric) {rel : δ → Prop} {rel' : δ' → Prop} (f : δ → δ') {R k : Nat}
    {ids : List δ} {v : α} (h : ∀ d ∈ ids, rel' (f d) ↔ rel d) (hv : M.Value rel R ids k v) :
    M.Value rel' R (ids.map f) k v := by
  classical
  have hh : Spec.hits rel' (ids.map f) k = Spec.hits rel ids k := hits_map rel' f rel ids k h
  have hP : (Spec.precision rel' (ids.map f) k : α) = Spec.precision rel ids k := by
    unfold Spec.precision; rw [hh, List.length_map]
  have hR : (Spec.recall rel' R (ids.map f) k : α) = Spec.recall rel R ids k := by
    unfold Spec.recall; rw [hh]
  have hT := fun d (hd : d ∈ Spec.top k ids) => h d (mem_top hd)
  cases M with
  | hits => change v = _ at hv ⊢; rw [hh]; exact hv
  | precision => change v = _ at hv ⊢; rw [hP]; exact hv
  | recall => change v = _ at hv ⊢; rw [hR]; exact hv
  | f1 => change v = _ at hv ⊢; rw [hP, hR]; exact hv
  | rPrecision => change v = _ at hv ⊢; rw [relIn_map rel' f rel ids R h]; exact hv
  | hitRate =>
    obtain ⟨a, b⟩ := hv
    refine ⟨?_, ?_⟩
    · rintro ⟨x, hx, hr⟩
      rw [top_map] at hx
      obtain ⟨y, hy, rfl⟩ := List.mem_map.1 hx
      exact a ⟨y, hy, (hT y hy).1 hr⟩
    · intro hn
      apply b
      intro y hy hr
      exact hn (f y) (by rw [top_map]; exact List.mem_map_of_mem hy) ((hT y hy).2 hr)
  | mrr =>
    change Spec.IsReciprocalRank _ _ _ _ at hv ⊢
    unfold Spec.IsReciprocalRank at hv ⊢
    rw [top_map]
    rcases hv with ⟨i, x, hx, hxr, hbef, hv⟩ | ⟨hno, hv⟩
    · refine .inl ⟨i, f x, by rw [List.getElem?_map, hx]; rfl, (hT x (List.mem_of_getElem? hx)).2 hxr, ?_, hv⟩
      intro i' hi' z hz hzr
      rw [List.getElem?_map] at hz
      obtain ⟨y, hy, rfl⟩ := Option.map_eq_some_iff.1 hz
      exact hbef i' hi' y hy ((hT y (List.mem_of_getElem? hy)).1 hzr)
    · refine .inr ⟨?_, hv⟩
      intro y hy hyr
      obtain ⟨z, hz, rfl⟩ := List.mem_map.1 hy
      exact hno z hz ((hT z hz).1 hyr)
  | map =>
    change v = _ at hv ⊢
    rw [hv]
    unfold Spec.averagePrecision
    rw [top_map, List.length_map]
    congr 1
    apply Finset.sum_congr rfl
    intro i _
    rw [relIn_map rel' f rel ids _ h]
    have hiff : (∃ x, (List.map f (Spec.top k ids))[i]? = some x ∧ rel' x) ↔
        ∃ x, (Spec.top k ids)[i]? = some x ∧ rel x := by
      rw [List.getElem?_map]
      constructor
      · rintro ⟨x, hx, hx2⟩
        obtain ⟨y, hy, rfl⟩ := Option.map_eq_some_iff.1 hx
        exact ⟨y, hy, (hT y (List.mem_of_getElem? hy)).1 hx2⟩
      · rintro ⟨y, hy, hy2⟩
        exact ⟨f y, by rw [hy]; rfl, (hT y (List.mem_of_getElem? hy)).2 hy2⟩
    by_cases hc : ∃ x, (Spec.top k ids)[i]? = some x ∧ rel x
    · exact (if_pos hc).trans (if_pos (hiff.2 hc)).symm
    · exact (if_neg hc).trans (if_neg (fun h => hc (hiff.1 h))).symm

theorem f1_of_hits (h K R : α) (hh : 0 ≤ h) (hK : 0 ≤ K) (hR : 0 ≤ R) :
    2 * (h / K * (h / R)) / (h / K + h / R) = if K = 0 ∨ R = 0 then 0 else 2 * h / (K + R) := by
  by_cases hz : K = 0 ∨ R = 0
  · rw [if_pos hz]
    rcases hz with rfl | rfl <;> simp
  · rw [if_neg hz]
    rw [not_or] at hz
    have hK' : 0 < K := lt_of_le_of_ne hK (Ne.symm hz.1)
    have hR' : 0 < R := lt_of_le_of_ne hR (Ne.symm hz.2)
    by_cases h0 : h = 0
    · subst h0; simp
    · have : h / K + h / R ≠ 0 := by
        have h1 : 0 < h := lt_of_le_of_ne hh (Ne.symm h0)
        exact (add_pos (div_pos h1 hK') (div_pos h1 hR')).ne'
      rw [div_eq_div_iff this (add_pos hK' hR').ne']
      have hk := hK'.ne'
      have hr := hR'.ne'
      field_simp
      ring

/-- swapping a relevant doc with the doc above it -/
theorem value_swap (M : Spec.BinaryMetric) {rel : δ → Prop} {R k : Nat} (a b : List δ) (x y : δ) (hy : rel y)
    {v w : α} (hv : M.Value rel R (a ++ x :: y :: b) k v) (hw : M.Value rel R (a ++ y :: x :: b) k w) : v ≤ w := by
  classical
  by_cases hx : rel x
  · have hv' := value_map M (rel' := fun c : Bool => c = true) (fun d => decide (rel d)) (fun d _ => by simp) hv
    have hw' := value_map M (rel' := fun c : Bool => c = true) (fun d => decide (rel d)) (fun d _ => by simp) hw
    have e : (a ++ x :: y :: b).map (fun d => decide (rel d)) = (a ++ y :: x :: b).map (fun d => decide (rel d)) := by
      simp [hx, hy]
    rw [e] at hv'
    exact (value_unique M hv' hw').le
  · letI : LinearOrder δ := WellOrderingRel.isWellOrder.linearOrder
    have hh : (Spec.hits rel (a ++ x :: y :: b) k : α) ≤ Spec.hits rel (a ++ y :: x :: b) k := by
      rw [hits_eq_relIn, hits_eq_relIn, swap_top_length]
      exact relIn_swap_le _ _ _ _ hx hy _
    have hlen : (a ++ x :: y :: b).length = (a ++ y :: x :: b).length := by simp
    cases M with
    | hits => change v = _ at hv; change w = _ at hw; rw [hv, hw]; exact hh
    | precision =>
      change v = _ at hv; change w = _ at hw; rw [hv, hw]
      unfold Spec.precision
      rw [hlen]
      exact div_le_div_of_nonneg_right hh (Nat.cast_nonneg _)
    | recall =>
      change v = _ at hv; change w = _ at hw; rw [hv, hw]
      exact div_le_div_of_nonneg_right hh (Nat.cast_nonneg _)
    | f1 =>
      change v = _ at hv; change w = _ at hw; rw [hv, hw]
      unfold Spec.precision Spec.recall
      rw [f1_of_hits _ _ _ (Nat.cast_nonneg _) (Nat.cast_nonneg _) (Nat.cast_nonneg _),
        f1_of_hits _ _ _ (Nat.cast_nonneg _) (Nat.cast_nonneg _) (Nat.cast_nonneg _), hlen]
      have hK : (0 : α) ≤ ((if k = 0 then (a ++ y :: x :: b).length else k : Nat) : α) := Nat.cast_nonneg _
      generalize ((if k = 0 then (a ++ y :: x :: b).length else k : Nat) : α) = K at hK ⊢
      split
      · exact le_rfl
      · apply div_le_div_of_nonneg_right
        · exact mul_le_mul_of_nonneg_left hh zero_le_two
        · exact add_nonneg hK (Nat.cast_nonneg _)
    | rPrecision =>
      change v = _ at hv; change w = _ at hw; rw [hv, hw]
      exact div_le_div_of_nonneg_right (relIn_swap_le _ _ _ _ hx hy _) (Nat.cast_nonneg _)
    | mrr => exact rr_swap_le _ _ _ _ hx hy k hv hw
    | map =>
      change v = _ at hv; change w = _ at hw; rw [hv, hw]
      exact ap_swap_le _ _ _ _ hx hy _ _
    | hitRate =>
      obtain ⟨h1, h2⟩ := hv
      obtain ⟨h3, h4⟩ := hw
      by_cases hz : ∃ z ∈ Spec.top k (a ++ x :: y :: b), rel z
      · rw [h1 hz, h3]
        rw [← hits_pos_iff] at hz ⊢
        have : Spec.hits rel (a ++ x :: y :: b) k ≤ Spec.hits rel (a ++ y :: x :: b) k := by exact_mod_cast hh
        omega
      · rw [h2 (fun z h5 h6 => hz ⟨z, h5, h6⟩)]
        by_cases hz' : ∃ z ∈ Spec.top k (a ++ y :: x :: b), rel z
        · rw [h3 hz']; exact zero_le_one
        · rw [h4 (fun z h5 h6 => hz' ⟨z, h5, h6⟩)]

/-- a relevant doc jumps over some docs -/
theorem value_raise (M : Spec.BinaryMetric) {rel : δ → Prop} {R k : Nat} (A B C : List δ) (y : δ) (hy : rel y)
    {v w : α} (hv : M.Value rel R (A ++ B ++ y :: C) k v) (hw : M.Value rel R (A ++ y :: B ++ C) k w) : v ≤ w := by
  induction B generalizing A v w with
  | nil =>
    rw [List.append_nil] at hv
    rw [List.append_assoc] at hw
    exact (value_unique M hv hw).le
  | cons b B ih =>
    obtain ⟨u, hu⟩ := value_exists (α := α) M rel R k (A ++ b :: y :: (B ++ C))
    have h1 : v ≤ u := by
      apply ih (A ++ [b])
      · simpa using hv
      · simpa using hu
    have h2 : u ≤ w := by
      refine value_swap M A (B ++ C) b y hy hu ?_
      simpa using hw
    exact h1.trans h2

theorem gvalue_top (M : Spec.GradedMetric) {g : δ → ℝ} {k : Nat} {ids ids' : List δ} {v v' : ℝ}
    (hv : M.Value g ids k v) (hv' : M.Value g ids' k v') (h : Spec.top k ids = Spec.top k ids') : v = v' := by
  have hd : Spec.dcg (fun d => M.gain (g d)) Spec.log2Discount ids k =
      Spec.dcg (fun d => M.gain (g d)) Spec.log2Discount ids' k := by
    unfold Spec.dcg; rw [h]
  have key : ∀ {v v' : ℝ}, (∃ best, IsGreatest {x | ∃ l : List δ, l.Nodup ∧
        x = Spec.dcg (fun d => M.gain (g d)) Spec.log2Discount l k} best ∧
        v = Spec.dcg (fun d => M.gain (g d)) Spec.log2Discount ids k / best) →
      (∃ best, IsGreatest {x | ∃ l : List δ, l.Nodup ∧
        x = Spec.dcg (fun d => M.gain (g d)) Spec.log2Discount l k} best ∧
        v' = Spec.dcg (fun d => M.gain (g d)) Spec.log2Discount ids' k / best) → v = v' := by
    rintro v v' ⟨b, hb, rfl⟩ ⟨b', hb', rfl⟩
    rw [hb.unique hb', hd]
  cases M with
  | dcg => exact hv.trans (hd.trans hv'.symm)
  | dcgBurges => exact hv.trans (hd.trans hv'.symm)
  | ndcg => exact key hv hv'
  | ndcgBurges => exact key hv hv'

theorem gain_mono (M : Spec.GradedMetric) {x y : ℝ} (h : x ≤ y) : M.gain x ≤ M.gain y := by
  cases M with
  | dcg => exact h
  | ndcg => exact h
  | dcgBurges => exact burges_mono h
  | ndcgBurges => exact burges_mono h

theorem dcg_raise (G : δ → ℝ) {k : Nat} (A B C : List δ) (y : δ) (hB : ∀ b ∈ B, G b ≤ G y) :
    Spec.dcg G Spec.log2Discount (A ++ B ++ y :: C) k ≤ Spec.dcg G Spec.log2Discount (A ++ y :: B ++ C) k := by
  letI : LinearOrder δ := WellOrderingRel.isWellOrder.linearOrder
  induction B generalizing A with
  | nil => simp
  | cons b B ih =>
    have h1 := ih (A ++ [b]) (fun x hx => hB x (List.mem_cons_of_mem _ hx))
    have h2 : Spec.dcg G Spec.log2Discount (A ++ b :: y :: (B ++ C)) k ≤
        Spec.dcg G Spec.log2Discount (A ++ y :: b :: (B ++ C)) k := by
      rw [dcg_as_sum, dcg_as_sum, swap_top_length]
      apply weighted_swap_le G (fun i => (Spec.log2Discount i)⁻¹)
      · exact hB b List.mem_cons_self
      · intro i; exact inv_nonneg.2 (log2Disc_pos i).le
      · intro i; exact inv_anti₀ (log2Disc_pos i) (log2Disc_mono i)
    have e1 : A ++ (b :: B) ++ y :: C = A ++ [b] ++ B ++ y :: C := by simp
    have e2 : A ++ [b] ++ y :: B ++ C = A ++ b :: y :: (B ++ C) := by simp
    have e3 : A ++ y :: (b :: B) ++ C = A ++ y :: b :: (B ++ C) := by simp
    rw [e2] at h1
    rw [e1, e3]
    exact h1.trans h2

theorem gvalue_raise (M : Spec.GradedMetric) {g : δ → ℝ} {k : Nat} (A B C : List δ) (y : δ)
    (hB : ∀ b ∈ B, g b ≤ g y) {v w : ℝ} (hv : M.Value g (A ++ B ++ y :: C) k v)
    (hw : M.Value g (A ++ y :: B ++ C) k w) : v ≤ w := by
  have hd := dcg_raise (fun d => M.gain (g d)) (k := k) A B C y (fun b hb => gain_mono M (hB b hb))
  have key : ∀ {v w : ℝ}, (∃ best, IsGreatest {x | ∃ l : List δ, l.Nodup ∧
        x = Spec.dcg (fun d => M.gain (g d)) Spec.log2Discount l k} best ∧
        v = Spec.dcg (fun d => M.gain (g d)) Spec.log2Discount (A ++ B ++ y :: C) k / best) →
      (∃ best, IsGreatest {x | ∃ l : List δ, l.Nodup ∧
        x = Spec.dcg (fun d => M.gain (g d)) Spec.log2Discount l k} best ∧
        w = Spec.dcg (fun d => M.gain (g d)) Spec.log2Discount (A ++ y :: B ++ C) k / best) → v ≤ w := by
    rintro v w ⟨b, hb, rfl⟩ ⟨b', hb', rfl⟩
    rw [← hb.unique hb']
    apply div_le_div_of_nonneg_right hd
    refine hb.2 ⟨[], List.nodup_nil, ?_⟩
    unfold Spec.dcg Spec.top
    simp
  cases M with
  | dcg => change v = _ at hv; change w = _ at hw; rw [hv, hw]; exact hd
  | dcgBurges => change v = _ at hv; change w = _ at hw; rw [hv, hw]; exact hd
  | ndcg => exact key hv hw
  | ndcgBurges => exact key hv hw

theorem noCollision_raised {hash : δ → ι} {s : Store κ δ Int} {r r' : Store κ δ α} {q : κ}
    (hc : Spec.NoCollision hash s r q) {y : δ} {a b : α}
    (hraise : Spec.RaisedTo (Spec.content r) (Spec.content r') q y a b) : Spec.NoCollision hash s r' q := by
  obtain ⟨h1, h2, -, h3⟩ := hraise
  intro d d' v hv hd he
  refine hc d d' v hv (hd.imp id ?_) he
  rintro ⟨v', hv'⟩
  by_cases hy : d' = y
  · subst hy; exact ⟨a, h1⟩
  · exact ⟨v', by rw [← h3 d' hy]; exact hv'⟩

/-! ## C116 -/

/-- **C116** (cutting): the saved scores at cutoff `k` of a run do not change when only its best docs are kept, `k` of
them at least (for r-precision: as many as there are relevant docs). -/
theorem C116_cut (F : Fn α) (other : Str → Except Err α) (SQ : ArgSort Int) (SR SR' : ArgSort α)
    (hash : δ → ι) (sched sched' : Nat → List Nat) (o o' : Opts) (ho : o.save = true) (ho' : o'.save = true)
    (s : Store κ δ Int) (r r' : RunObj κ δ α) (ms : List Str) (hs : Spec.Usable SQ s) (hr : Spec.Usable SR r.store)
    (hr' : Spec.Usable SR' r'.store) (hsched : ∀ i, Schedule s.data.length (sched i))
    (hsched' : ∀ i, Schedule s.data.length (sched' i)) (after after' : After κ δ α) (out out' : Out α)
    (h : evaluate F other SQ SR hash sched o (.obj s) (.obj r) ms = (after, .ok out))
    (h' : evaluate F other SQ SR' hash sched' o' (.obj s) (.obj r') ms = (after', .ok out'))
    (M : Spec.BinaryMetric) (k L : Nat) (m : Str) (hm : m ∈ ms) (hask : Spec.Asks M.name k L m)
    (q : κ) (hq : q ∈ s.data.keys) (hc : Spec.NoCollision hash s r.store q)
    (ht : Spec.NoTies (Spec.content r.store) q)
    (hcut : Spec.Cut (Spec.content r.store) (Spec.content r'.store) q)
    (hk : M ≠ .rPrecision → k ≠ 0 ∧ k ≤ Spec.size (Spec.content r'.store) q)
    (hR : M = .rPrecision → Spec.numRelDocs s q L ≤ Spec.size (Spec.content r'.store) q) :
    ∃ r1 r2 v, after.run = .obj r1 ∧ after'.run = .obj r2 ∧ r1.saved m q = some (.val v) ∧
      r2.saved m q = some (.val v) := by
  have hc' : Spec.NoCollision hash s r'.store q := fun d d' v h1 h2 h3 =>
    hc d d' v h1 (h2.imp id (fun ⟨v', hv'⟩ => ⟨v', hcut.1 _ _ hv'⟩)) h3
  obtain ⟨r1, ha1, i1, v1, ⟨l1, hl1, rfl⟩, hv1, hs1⟩ := C84_textbook_values F other SQ SR hash sched o ho s r ms hs hr
    hsched after out h M k L m hm hask q hq hc
  obtain ⟨r2, ha2, i2, v2, ⟨l2, hl2, rfl⟩, hv2, hs2⟩ := C84_textbook_values F other SQ SR' hash sched' o' ho' s r' ms hs
    hr' hsched' after' out' h' M k L m hm hask q hq hc'
  have hpre := cut_prefix ht hcut hl1 hl2
  have hlen := ranking_length hl2
  have key : ∀ n, n ≤ l2.length → (l1.map Prod.fst).take n = (l2.map Prod.fst).take n := by
    intro n hn
    rw [hpre, List.take_take, Nat.min_eq_left hn]
  by_cases hM : M = .rPrecision
  · subst hM
    have : v1 = v2 := by
      change v1 = _ at hv1
      change v2 = _ at hv2
      rw [hv1, hv2, relIn_take _ _ (key _ (by rw [hlen]; exact hR rfl))]
    subst this
    exact ⟨r1, r2, v1, ha1, ha2, hs1, hs2⟩
  · obtain ⟨hk0, hkl⟩ := hk hM
    have : v1 = v2 := by
      refine value_top M hv1 hv2 ?_ (fun e => absurd e hM)
      unfold Spec.top
      rw [if_neg hk0, if_neg hk0]
      exact key k (by rw [hlen]; exact hkl)
    subst this
    exact ⟨r1, r2, v1, ha1, ha2, hs1, hs2⟩

/-- **C116** (cutting, graded metrics) -/
theorem C116_cut_graded (other : Str → Except Err ℝ) (SQ : ArgSort Int) (SR SR' : ArgSort ℝ)
    (hash : δ → ι) (sched sched' : Nat → List Nat) (o o' : Opts) (ho : o.save = true) (ho' : o'.save = true)
    (s : Store κ δ Int) (r r' : RunObj κ δ ℝ) (ms : List Str) (hs : Spec.Usable SQ s) (hr : Spec.Usable SR r.store)
    (hr' : Spec.Usable SR' r'.store) (hsched : ∀ i, Schedule s.data.length (sched i))
    (hsched' : ∀ i, Schedule s.data.length (sched' i)) (after after' : After κ δ ℝ) (out out' : Out ℝ)
    (h : evaluate realFn other SQ SR hash sched o (.obj s) (.obj r) ms = (after, .ok out))
    (h' : evaluate realFn other SQ SR' hash sched' o' (.obj s) (.obj r') ms = (after', .ok out'))
    (M : Spec.GradedMetric) (k L : Nat) (m : Str) (hm : m ∈ ms) (hask : Spec.Asks M.name k L m)
    (q : κ) (hq : q ∈ s.data.keys) (hc : Spec.NoCollision hash s r.store q)
    (ht : Spec.NoTies (Spec.content r.store) q)
    (hcut : Spec.Cut (Spec.content r.store) (Spec.content r'.store) q)
    (hk0 : k ≠ 0) (hk : k ≤ Spec.size (Spec.content r'.store) q) :
    ∃ r1 r2 v, after.run = .obj r1 ∧ after'.run = .obj r2 ∧ r1.saved m q = some (.val v) ∧
      r2.saved m q = some (.val v) := by
  have hc' : Spec.NoCollision hash s r'.store q := fun d d' v h1 h2 h3 =>
    hc d d' v h1 (h2.imp id (fun ⟨v', hv'⟩ => ⟨v', hcut.1 _ _ hv'⟩)) h3
  obtain ⟨r1, ha1, i1, v1, ⟨l1, hl1, rfl⟩, hv1, hs1⟩ := C84_graded_values other SQ SR hash sched o ho s r ms hs hr
    hsched after out h M k L m hm hask q hq hc
  obtain ⟨r2, ha2, i2, v2, ⟨l2, hl2, rfl⟩, hv2, hs2⟩ := C84_graded_values other SQ SR' hash sched' o' ho' s r' ms hs
    hr' hsched' after' out' h' M k L m hm hask q hq hc'
  have hpre := cut_prefix ht hcut hl1 hl2
  have hlen := ranking_length hl2
  have : v1 = v2 := by
    refine gvalue_top M hv1 hv2 ?_
    unfold Spec.top
    rw [if_neg hk0, if_neg hk0, hpre, List.take_take, Nat.min_eq_left (by rw [hlen]; exact hk)]
  subst this
  exact ⟨r1, r2, v1, ha1, ha2, hs1, hs2⟩

/-- **C116** (judging more): two qrels under which the same docs of `q` are relevant give the same scores, whatever
else they judge: judging a doc not relevant, or a relevant doc more or less relevant above the level, changes nothing. -/
theorem C116_judging (F : Fn α) (other : Str → Except Err α) (SQ SQ' : ArgSort Int) (SR SR' : ArgSort α)
    (hash : δ → ι) (sched sched' : Nat → List Nat) (o o' : Opts) (ho : o.save = true) (ho' : o'.save = true)
    (s s' : Store κ δ Int) (r : RunObj κ δ α) (ms : List Str) (hs : Spec.Usable SQ s) (hs' : Spec.Usable SQ' s')
    (hr : Spec.Usable SR r.store) (hr' : Spec.Usable SR' r.store) (hsched : ∀ i, Schedule s.data.length (sched i))
    (hsched' : ∀ i, Schedule s'.data.length (sched' i)) (after after' : After κ δ α) (out out' : Out α)
    (h : evaluate F other SQ SR hash sched o (.obj s) (.obj r) ms = (after, .ok out))
    (h' : evaluate F other SQ' SR' hash sched' o' (.obj s') (.obj r) ms = (after', .ok out'))
    (M : Spec.BinaryMetric) (k L : Nat) (m : Str) (hm : m ∈ ms) (hask : Spec.Asks M.name k L m)
    (q : κ) (hq : q ∈ s.data.keys) (hq' : q ∈ s'.data.keys) (hc : Spec.NoCollision hash s r.store q)
    (hc' : Spec.NoCollision hash s' r.store q) (ht : Spec.NoTies (Spec.content r.store) q)
    (hrel : ∀ d, Spec.RelDoc s q L d ↔ Spec.RelDoc s' q L d) :
    ∃ r1 r2 v, after.run = .obj r1 ∧ after'.run = .obj r2 ∧ r1.saved m q = some (.val v) ∧
      r2.saved m q = some (.val v) := by
  obtain ⟨r1, ha1, i1, v1, ⟨l1, hl1, rfl⟩, hv1, hs1⟩ := C84_textbook_values F other SQ SR hash sched o ho s r ms hs hr
    hsched after out h M k L m hm hask q hq hc
  obtain ⟨r2, ha2, i2, v2, ⟨l2, hl2, rfl⟩, hv2, hs2⟩ := C84_textbook_values F other SQ' SR' hash sched' o' ho' s' r ms
    hs' hr' hsched' after' out' h' M k L m hm hask q hq' hc'
  have e : Spec.RelDoc s q L = Spec.RelDoc s' q L := funext (fun d => propext (hrel d))
  have e2 : Spec.numRelDocs s q L = Spec.numRelDocs s' q L := by unfold Spec.numRelDocs; rw [e]
  rw [e, e2] at hv1
  rw [ranking_unique_ids ht hl1 hl2] at hv1
  have := value_unique M hv1 hv2
  subst this
  exact ⟨r1, r2, v1, ha1, ha2, hs1, hs2⟩

/-- **C116** (judging more, graded metrics): the same when the grades of the docs of `q` are the same. -/
theorem C116_judging_graded (other : Str → Except Err ℝ) (SQ SQ' : ArgSort Int) (SR SR' : ArgSort ℝ)
    (hash : δ → ι) (sched sched' : Nat → List Nat) (o o' : Opts) (ho : o.save = true) (ho' : o'.save = true)
    (s s' : Store κ δ Int) (r : RunObj κ δ ℝ) (ms : List Str) (hs : Spec.Usable SQ s) (hs' : Spec.Usable SQ' s')
    (hr : Spec.Usable SR r.store) (hr' : Spec.Usable SR' r.store) (hsched : ∀ i, Schedule s.data.length (sched i))
    (hsched' : ∀ i, Schedule s'.data.length (sched' i)) (after after' : After κ δ ℝ) (out out' : Out ℝ)
    (h : evaluate realFn other SQ SR hash sched o (.obj s) (.obj r) ms = (after, .ok out))
    (h' : evaluate realFn other SQ' SR' hash sched' o' (.obj s') (.obj r) ms = (after', .ok out'))
    (M : Spec.GradedMetric) (k L : Nat) (m : Str) (hm : m ∈ ms) (hask : Spec.Asks M.name k L m)
    (q : κ) (hq : q ∈ s.data.keys) (hq' : q ∈ s'.data.keys) (hc : Spec.NoCollision hash s r.store q)
    (hc' : Spec.NoCollision hash s' r.store q) (ht : Spec.NoTies (Spec.content r.store) q)
    (hgr : ∀ d, (Spec.docGrade s q L d : ℝ) = Spec.docGrade s' q L d) :
    ∃ r1 r2 v, after.run = .obj r1 ∧ after'.run = .obj r2 ∧ r1.saved m q = some (.val v) ∧
      r2.saved m q = some (.val v) := by
  obtain ⟨r1, ha1, i1, v1, ⟨l1, hl1, rfl⟩, hv1, hs1⟩ := C84_graded_values other SQ SR hash sched o ho s r ms hs hr
    hsched after out h M k L m hm hask q hq hc
  obtain ⟨r2, ha2, i2, v2, ⟨l2, hl2, rfl⟩, hv2, hs2⟩ := C84_graded_values other SQ' SR' hash sched' o' ho' s' r ms
    hs' hr' hsched' after' out' h' M k L m hm hask q hq' hc'
  have e : (Spec.docGrade s q L : δ → ℝ) = Spec.docGrade s' q L := funext hgr
  rw [e, ranking_unique_ids ht hl1 hl2] at hv1
  have := gvalue_top M hv1 hv2 rfl
  subst this
  exact ⟨r1, r2, v1, ha1, ha2, hs1, hs2⟩

/-- **C116** (raising): giving a relevant doc of `q` a higher score, whatever it jumps over, lowers none of the saved
scores of `q`. -/
theorem C116_raise (F : Fn α) (other : Str → Except Err α) (SQ : ArgSort Int) (SR SR' : ArgSort α)
    (hash : δ → ι) (sched sched' : Nat → List Nat) (o o' : Opts) (ho : o.save = true) (ho' : o'.save = true)
    (s : Store κ δ Int) (r r' : RunObj κ δ α) (ms : List Str) (hs : Spec.Usable SQ s) (hr : Spec.Usable SR r.store)
    (hr' : Spec.Usable SR' r'.store) (hsched : ∀ i, Schedule s.data.length (sched i))
    (hsched' : ∀ i, Schedule s.data.length (sched' i)) (after after' : After κ δ α) (out out' : Out α)
    (h : evaluate F other SQ SR hash sched o (.obj s) (.obj r) ms = (after, .ok out))
    (h' : evaluate F other SQ SR' hash sched' o' (.obj s) (.obj r') ms = (after', .ok out'))
    (M : Spec.BinaryMetric) (k L : Nat) (m : Str) (hm : m ∈ ms) (hask : Spec.Asks M.name k L m)
    (q : κ) (hq : q ∈ s.data.keys) (hc : Spec.NoCollision hash s r.store q)
    (ht : Spec.NoTies (Spec.content r.store) q) (ht' : Spec.NoTies (Spec.content r'.store) q)
    (y : δ) (a b : α) (hraise : Spec.RaisedTo (Spec.content r.store) (Spec.content r'.store) q y a b)
    (hrel : Spec.RelDoc s q L y) :
    ∃ r1 r2 v w, after.run = .obj r1 ∧ after'.run = .obj r2 ∧ r1.saved m q = some (.val v) ∧
      r2.saved m q = some (.val w) ∧ v ≤ w := by
  have hc' := noCollision_raised hc hraise
  obtain ⟨r1, ha1, i1, v1, ⟨l1, hl1, rfl⟩, hv1, hs1⟩ := C84_textbook_values F other SQ SR hash sched o ho s r ms hs hr
    hsched after out h M k L m hm hask q hq hc
  obtain ⟨r2, ha2, i2, v2, ⟨l2, hl2, rfl⟩, hv2, hs2⟩ := C84_textbook_values F other SQ SR' hash sched' o' ho' s r' ms hs
    hr' hsched' after' out' h' M k L m hm hask q hq hc'
  obtain ⟨A, B, C, e1, e2, -⟩ := raised_ids ht ht' hraise hl1 hl2
  rw [e1] at hv1
  rw [e2] at hv2
  exact ⟨r1, r2, v1, v2, ha1, ha2, hs1, hs2, value_raise M A B C y hrel hv1 hv2⟩

/-- **C116** (raising, graded metrics): giving a doc of `q` a higher score, jumping only over docs that are not more
relevant, lowers none of the saved scores of `q`. -/
theorem C116_raise_graded (other : Str → Except Err ℝ) (SQ : ArgSort Int) (SR SR' : ArgSort ℝ)
    (hash : δ → ι) (sched sched' : Nat → List Nat) (o o' : Opts) (ho : o.save = true) (ho' : o'.save = true)
    (s : Store κ δ Int) (r r' : RunObj κ δ ℝ) (ms : List Str) (hs : Spec.Usable SQ s) (hr : Spec.Usable SR r.store)
    (hr' : Spec.Usable SR' r'.store) (hsched : ∀ i, Schedule s.data.length (sched i))
    (hsched' : ∀ i, Schedule s.data.length (sched' i)) (after after' : After κ δ ℝ) (out out' : Out ℝ)
    (h : evaluate realFn other SQ SR hash sched o (.obj s) (.obj r) ms = (after, .ok out))
    (h' : evaluate realFn other SQ SR' hash sched' o' (.obj s) (.obj r') ms = (after', .ok out'))
    (M : Spec.GradedMetric) (k L : Nat) (m : Str) (hm : m ∈ ms) (hask : Spec.Asks M.name k L m)
    (q : κ) (hq : q ∈ s.data.keys) (hc : Spec.NoCollision hash s r.store q)
    (ht : Spec.NoTies (Spec.content r.store) q) (ht' : Spec.NoTies (Spec.content r'.store) q)
    (y : δ) (a b : ℝ) (hraise : Spec.RaisedTo (Spec.content r.store) (Spec.content r'.store) q y a b)
    (hgr : ∀ d w, (Spec.content r.store).read q d = some w → a < w → w < b →
      (Spec.docGrade s q L d : ℝ) ≤ Spec.docGrade s q L y) :
    ∃ r1 r2 v w, after.run = .obj r1 ∧ after'.run = .obj r2 ∧ r1.saved m q = some (.val v) ∧
      r2.saved m q = some (.val w) ∧ v ≤ w := by
  have hc' := noCollision_raised hc hraise
  obtain ⟨r1, ha1, i1, v1, ⟨l1, hl1, rfl⟩, hv1, hs1⟩ := C84_graded_values other SQ SR hash sched o ho s r ms hs hr
    hsched after out h M k L m hm hask q hq hc
  obtain ⟨r2, ha2, i2, v2, ⟨l2, hl2, rfl⟩, hv2, hs2⟩ := C84_graded_values other SQ SR' hash sched' o' ho' s r' ms hs
    hr' hsched' after' out' h' M k L m hm hask q hq hc'
  obtain ⟨A, B, C, e1, e2, hB⟩ := raised_ids ht ht' hraise hl1 hl2
  rw [e1] at hv1
  rw [e2] at hv2
  refine ⟨r1, r2, v1, v2, ha1, ha2, hs1, hs2, gvalue_raise M A B C y ?_ hv1 hv2⟩
  intro d hd
  obtain ⟨w, h1, h2, h3⟩ := hB d hd
  exact hgr d w h1 h2 h3

/-- Non-vacuity: query 1 of `exRunObj` (12 scored 3, 11 scored 2; 11 and 10 are relevant), cut to its best doc, and
with the relevant doc 11 raised to 4. -/
def exCutObj : RunObj Nat Nat ℚ := ⟨⟨[(1, [(12, 3)])], false⟩, [], [], []⟩
def exRaisedObj : RunObj Nat Nat ℚ := ⟨⟨[(1, [(12, 3), (11, 4)])], false⟩, [], [], []⟩

theorem read_exRunObj (d : Nat) : (Spec.content exRunObj.store).read 1 d =
    if 12 = d then some 3 else if 11 = d then some 2 else none := by
  change Dict.get? [(12, (3 : ℚ)), (11, 2)] d = _
  rw [get?_cons, get?_cons]; rfl

theorem read_exCutObj (d : Nat) : (Spec.content exCutObj.store).read 1 d = if 12 = d then some 3 else none := by
  change Dict.get? [(12, (3 : ℚ))] d = _
  rw [get?_cons]; rfl

theorem read_exRaisedObj (d : Nat) : (Spec.content exRaisedObj.store).read 1 d =
    if 12 = d then some 3 else if 11 = d then some 4 else none := by
  change Dict.get? [(12, (3 : ℚ)), (11, 4)] d = _
  rw [get?_cons, get?_cons]; rfl

example : Spec.NoTies (Spec.content exRunObj.store) 1 ∧
    Spec.Cut (Spec.content exRunObj.store) (Spec.content exCutObj.store) 1 ∧
    Spec.RaisedTo (Spec.content exRunObj.store) (Spec.content exRaisedObj.store) 1 11 2 4 ∧
    Spec.NoTies (Spec.content exRaisedObj.store) 1 := by
  refine ⟨?_, ⟨?_, ?_⟩, ⟨?_, ?_, by norm_num, ?_⟩, ?_⟩
  · intro d d' v h1 h2
    rw [read_exRunObj] at h1 h2
    split_ifs at h1 h2 <;> simp_all <;> linarith
  · intro d v h1
    rw [read_exRunObj]
    rw [read_exCutObj] at h1
    split_ifs at h1 ⊢ <;> simp_all
  · intro d d' v v' h1 h2 h3
    rw [read_exCutObj] at h1 h3
    rw [read_exRunObj] at h2
    split_ifs at h1 h2 h3 <;> simp_all
    rw [← h1, ← h2]; norm_num
  · rw [read_exRunObj]; norm_num
  · rw [read_exRaisedObj]; norm_num
  · intro d hd
    rw [read_exRunObj, read_exRaisedObj]
    split_ifs <;> simp_all
  · intro d d' v h1 h2
    rw [read_exRaisedObj] at h1 h2
    split_ifs at h1 h2 <;> simp_all <;> linarith

/-- the scores of the three runs: `precision@1` and `map` -/
example :
    (evaluate (ι := Nat) ratFn (fun _ => .error .valueError) (ArgSort.stable Int)
      (ArgSort.stable ℚ) id (fun _ => [1, 0]) { makeComparable := true, returnMean := false }
      (.obj exQrelsObj) (.obj exRunObj) ["precision@1".toList, "map".toList]).2 =
        .ok (.dict [("precision@1".toList, .scores [.val 0, .val 0]), ("map".toList, .scores [.val (1/4), .val 0])]) ∧
    (evaluate (ι := Nat) ratFn (fun _ => .error .valueError) (ArgSort.stable Int)
      (ArgSort.stable ℚ) id (fun _ => [1, 0]) { makeComparable := true, returnMean := false }
      (.obj exQrelsObj) (.obj exCutObj) ["precision@1".toList, "map".toList]).2 =
        .ok (.dict [("precision@1".toList, .scores [.val 0, .val 0]), ("map".toList, .scores [.val 0, .val 0])]) ∧
    (evaluate (ι := Nat) ratFn (fun _ => .error .valueError) (ArgSort.stable Int)
      (ArgSort.stable ℚ) id (fun _ => [1, 0]) { makeComparable := true, returnMean := false }
      (.obj exQrelsObj) (.obj exRaisedObj) ["precision@1".toList, "map".toList]).2 =
        .ok (.dict [("precision@1".toList, .scores [.val 1, .val 0]), ("map".toList, .scores [.val (1/2), .val 0])]) :=
  ⟨by decide +kernel, by decide +kernel, by decide +kernel⟩

end Ranx
