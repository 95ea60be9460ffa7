import Verif.Lemmas.Heap4
import Verif.Props.Fuse

/-!
# C63, C88: fusion and normalization write no existing object; runs never share objects
-/

set_option linter.unusedSectionVars false

namespace Ranx
open Dict Heap
open Spec (view objects)

section
variable {κ δ β : Type}

theorem resultsAt_iff {h : Mem κ δ β} {x : Nat} {r : Dict δ β} :
    Spec.resultsAt h x = some r ↔ h[x]? = some (.results r) := by
  unfold Spec.resultsAt
  cases hx : h[x]? with
  | none => simp
  | some o => cases o <;> simp

theorem queriesAt_iff {h : Mem κ δ β} {x : Nat} {m : Dict κ Nat} :
    Spec.queriesAt h x = some m ↔ h[x]? = some (.queries m) := by
  unfold Spec.queriesAt
  cases hx : h[x]? with
  | none => simp
  | some o => cases o <;> simp

theorem deref_iff {h : Mem κ δ β} : ∀ {m : Dict κ Nat} {D : Dict κ (Dict δ β)},
    Spec.deref h m = some D ↔ QRep h m D := by
  intro m
  induction m with
  | nil =>
    intro D
    constructor
    · intro hd; cases hd; exact .nil
    · intro hq; cases hq; rfl
  | cons p t ih =>
    intro D
    constructor
    · intro hd
      unfold Spec.deref at hd
      cases hr : Spec.resultsAt h p.2 with
      | none => rw [hr] at hd; cases hd
      | some r =>
        rw [hr] at hd
        cases ht : Spec.deref h t with
        | none => rw [ht] at hd; cases hd
        | some d =>
          rw [ht] at hd
          cases hd
          exact .cons ⟨rfl, resultsAt_iff.1 hr⟩ (ih.1 ht)
    · intro hq
      cases hq with
      | @cons _ P _ D h1 h2 =>
        unfold Spec.deref
        rw [resultsAt_iff.2 h1.2, ih.2 h2]
        obtain ⟨k, r⟩ := P
        obtain ⟨k', x⟩ := p
        have : k' = k := h1.1
        subst this
        rfl

/-- reading a run = its objects are where `RunAt` says -/
theorem view_iff {h : Mem κ δ β} {a : Nat} {s : Store κ δ β} :
    view h a = some s ↔ ∃ b m, RunAt h a b m s := by
  constructor
  · intro hv
    unfold Spec.view at hv
    cases ha : h[a]? with
    | none => rw [ha] at hv; cases hv
    | some o =>
      rw [ha] at hv
      cases o with
      | results r => cases hv
      | queries m => cases hv
      | run b f =>
        simp only at hv
        cases hq : Spec.queriesAt h b with
        | none => rw [hq] at hv; cases hv
        | some m =>
          rw [hq] at hv
          cases hd : Spec.deref h m with
          | none => simp [hd] at hv
          | some D =>
            simp [hd] at hv
            subst hv
            exact ⟨b, m, ha, queriesAt_iff.1 hq, deref_iff.1 hd⟩
  · rintro ⟨b, m, h1, h2, h3⟩
    unfold Spec.view
    rw [h1]
    simp only
    rw [queriesAt_iff.2 h2, Option.bind_some, deref_iff.2 h3]
    rfl

theorem objects_eq {h : Mem κ δ β} {a b : Nat} {m : Dict κ Nat} {s : Store κ δ β} (H : RunAt h a b m s) :
    objects h a = foot a b m := by
  unfold Spec.objects foot
  rw [H.obj]
  simp only
  rw [queriesAt_iff.2 H.data]
  rfl

theorem holds_of_view {h : Mem κ δ β} {a : Nat} {s : Store κ δ β} (H : view h a = some s) :
    Holds h a s.data := by
  obtain ⟨b, m, H⟩ := view_iff.1 H
  exact ⟨b, m, s.sorted, H⟩

end

section
variable {κ δ : Type} [LinearOrder κ] [DecidableEq δ]

/-- C63: a call of `fuse`, whether it returns or raises, leaves every object that existed before as it
was: nothing is written in place. -/
theorem C63_writes_nothing (E : Fuse.Env δ) (norm : Option String) (method : String)
    (params : Option Fuse.Kwargs) (h : Mem κ δ ℝ) (as : List Nat) (ss : List (Store κ δ ℝ))
    (H : List.Forall₂ (fun a s => view h a = some s) as ss) (x : Nat) (hx : x < h.length) :
    (Heap.fuse E as norm method params h).2[x]? = h[x]? :=
  (fuse_makes E norm method params (List.Forall₂.imp (fun _ _ hab => holds_of_view hab) H)).1.2 x hx (by simp)

/-- C63: in particular whatever run could be read before the call - an input or not - reads the same after
it: same queries, same documents, same scores, same order, same flag. -/
theorem C63_inputs_unchanged (E : Fuse.Env δ) (norm : Option String) (method : String)
    (params : Option Fuse.Kwargs) (h : Mem κ δ ℝ) (as : List Nat) (ss : List (Store κ δ ℝ))
    (H : List.Forall₂ (fun a s => view h a = some s) as ss) (a : Nat) (s : Store κ δ ℝ)
    (ha : view h a = some s) : view (Heap.fuse E as norm method params h).2 a = some s := by
  obtain ⟨b, m, hr⟩ := view_iff.1 ha
  exact view_iff.2 ⟨b, m, hr.ext
    (fuse_makes E norm method params (List.Forall₂.imp (fun _ _ hab => holds_of_view hab) H)).1⟩

/-- C63: the outcome is the one of fusing the values of the runs: the same exception, or a run that reads
as the fused value and is made of new objects only, none of them used twice. -/
theorem C63_result (E : Fuse.Env δ) (norm : Option String) (method : String)
    (params : Option Fuse.Kwargs) (h : Mem κ δ ℝ) (as : List Nat) (ss : List (Store κ δ ℝ))
    (H : List.Forall₂ (fun a s => view h a = some s) as ss) :
    (∃ x, (Heap.fuse E as norm method params h).1 = .error x ∧
      Fuse.fuse E ss norm method params = .error x) ∨
    ∃ a s, (Heap.fuse E as norm method params h).1 = .ok a ∧ Fuse.fuse E ss norm method params = .ok s ∧
      view (Heap.fuse E as norm method params h).2 a = some s ∧
      (objects (Heap.fuse E as norm method params h).2 a).Nodup ∧
      ∀ x ∈ objects (Heap.fuse E as norm method params h).2 a, h.length ≤ x := by
  rcases (fuse_makes E norm method params
    (List.Forall₂.imp (fun _ _ hab => holds_of_view hab) H)).2 with ⟨a, s, e1, e2, b, m, e3, e4, e5⟩ | ⟨x, e1, e2⟩
  · refine Or.inr ⟨a, s, e1, e2, view_iff.2 ⟨b, m, e3⟩, ?_, ?_⟩
    · rw [objects_eq e3]; exact e3.foot_nodup e4
    · rw [objects_eq e3]; exact e5
  · exact Or.inl ⟨x, e1, e2⟩

/-- C63: writing to the fused run later does not reach any run that existed before the call. -/
theorem C63_result_independent (E : Fuse.Env δ) (norm : Option String) (method : String)
    (params : Option Fuse.Kwargs) (h : Mem κ δ ℝ) (as : List Nat) (ss : List (Store κ δ ℝ))
    (H : List.Forall₂ (fun a s => view h a = some s) as ss) (out : Nat)
    (hout : (Heap.fuse E as norm method params h).1 = .ok out) (S : ArgSort ℝ) (o : Store.Op κ δ ℝ)
    (a : Nat) (s : Store κ δ ℝ) (ha : view h a = some s) :
    view (Heap.op S out o (Heap.fuse E as norm method params h).2).2 a = some s := by
  obtain ⟨E1, hm⟩ := fuse_makes E norm method params
    (List.Forall₂.imp (fun _ _ hab => holds_of_view hab) H)
  rcases hm with ⟨a', s', e1, e2, b, m, e3, e4, e5⟩ | ⟨x, e1, e2⟩
  · rw [hout] at e1
    cases e1
    obtain ⟨_, b', m', _, _, _, hc⟩ := refines_op S e3 e4 o
    obtain ⟨b0, m0, hr⟩ := view_iff.1 ha
    have hr' := hr.ext E1
    refine view_iff.2 ⟨b0, m0, hr'.congr fun x hx => hc.2 x ?_ ?_⟩
    · exact hr'.lt x hx
    · intro hc
      have h1 := e5 x hc
      have h2 := hr.lt x hx
      omega
  · rw [hout] at e1; cases e1

/-! ### C88: programs over several runs -/

theorem view_ext {h h' : Mem κ δ ℝ} (hE : Ext h h') {a : Nat} {s : Store κ δ ℝ} (H : view h a = some s) :
    view h' a = some s ∧ objects h' a = objects h a := by
  obtain ⟨b, m, hr⟩ := view_iff.1 H
  exact ⟨view_iff.2 ⟨b, m, hr.ext hE⟩, by rw [objects_eq hr, objects_eq (hr.ext hE)]⟩

theorem objects_lt {h : Mem κ δ ℝ} {a : Nat} {s : Store κ δ ℝ} (H : view h a = some s) :
    ∀ x ∈ objects h a, x < h.length := by
  obtain ⟨b, m, hr⟩ := view_iff.1 H
  rw [objects_eq hr]
  exact hr.lt

theorem forall₂_getElem? {X Y : Type*} {R : X → Y → Prop} {l : List X} {l' : List Y}
    (H : List.Forall₂ R l l') {i : Nat} {x : X} (hi : l[i]? = some x) : ∃ y, l'[i]? = some y ∧ R x y := by
  induction H generalizing i with
  | nil => cases hi
  | @cons a b l l' hab _ ih =>
    cases i with
    | zero => simp only [List.getElem?_cons_zero, Option.some.injEq] at hi ⊢; subst hi; exact ⟨b, rfl, hab⟩
    | succ i => simp only [List.getElem?_cons_succ] at hi ⊢; exact ih hi

theorem forall₂_getElem?_none {X Y : Type*} {R : X → Y → Prop} {l : List X} {l' : List Y}
    (H : List.Forall₂ R l l') {i : Nat} (hi : l[i]? = none) : l'[i]? = none := by
  rw [List.getElem?_eq_none_iff] at hi ⊢
  rw [← H.length_eq]; exact hi

theorem forall₂_filterMap {X Y : Type*} {R : X → Y → Prop} {l : List X} {l' : List Y}
    (H : List.Forall₂ R l l') (is : List Nat) :
    List.Forall₂ R (is.filterMap (fun i => l[i]?)) (is.filterMap (fun i => l'[i]?)) := by
  induction is with
  | nil => exact .nil
  | cons i t ih =>
    cases hi : l[i]? with
    | none =>
      rw [List.filterMap_cons_none hi, List.filterMap_cons_none (forall₂_getElem?_none H hi)]
      exact ih
    | some x =>
      obtain ⟨y, hy, hxy⟩ := forall₂_getElem? H hi
      rw [List.filterMap_cons_some hi, List.filterMap_cons_some hy]
      exact .cons hxy ih

/-- creating a run keeps the runs separate -/
theorem separate_keep {h : Mem κ δ ℝ} {as : List Nat} {ss : List (Store κ δ ℝ)} (H : Spec.Separate h as ss)
    {r : Except Err Nat × Mem κ δ ℝ} {out : Except Err (Store κ δ ℝ)} (M : Makes h r out) :
    (Heap.keep as r).2 = (Spec.World.keep ss out).2 ∧
      Spec.Separate (Heap.keep as r).1.1 (Heap.keep as r).1.2 (Spec.World.keep ss out).1 := by
  obtain ⟨r1, h'⟩ := r
  obtain ⟨hE, M⟩ := M
  simp only at hE M
  have hold : ∀ a ∈ as, ∃ s, view h a = some s := by
    intro a ha
    obtain ⟨i, hi⟩ := List.getElem?_of_mem ha
    obtain ⟨s, _, hs⟩ := forall₂_getElem? H.reads hi
    exact ⟨s, hs⟩
  have hobj : ∀ a ∈ as, objects h' a = objects h a := by
    intro a ha
    obtain ⟨s, hs⟩ := hold a ha
    exact (view_ext hE hs).2
  have hlt : ∀ a ∈ as, ∀ x ∈ objects h' a, x < h.length := by
    intro a ha
    obtain ⟨s, hs⟩ := hold a ha
    rw [hobj a ha]
    exact objects_lt hs
  have base : Spec.Separate h' as ss := by
    refine ⟨List.Forall₂.imp (fun _ _ hab => (view_ext hE hab).1) H.reads, ?_, ?_⟩
    · intro a ha
      rw [hobj a ha]
      exact H.once a ha
    · intro i j a a' hij hi hj
      rw [hobj a (List.mem_of_getElem? hi), hobj a' (List.mem_of_getElem? hj)]
      exact H.apart i j a a' hij hi hj
  rcases M with ⟨a, s, rfl, rfl, b, m, e3, e4, e5⟩ | ⟨x, rfl, rfl⟩
  · refine ⟨rfl, ?_, ?_, ?_⟩
    · exact List.rel_append base.reads (.cons (view_iff.2 ⟨b, m, e3⟩) .nil)
    · intro a' ha'
      simp only [Heap.keep, List.mem_append, List.mem_singleton] at ha' ⊢
      rcases ha' with ha' | rfl
      · exact base.once a' ha'
      · rw [objects_eq e3]; exact e3.foot_nodup e4
    · intro i j a1 a2 hij hi hj
      simp only [Heap.keep] at hi hj ⊢
      by_cases h1 : i < as.length
      · rw [List.getElem?_append_left h1] at hi
        by_cases h2 : j < as.length
        · rw [List.getElem?_append_left h2] at hj
          exact base.apart i j a1 a2 hij hi hj
        · rw [List.getElem?_append_right (by omega)] at hj
          have hj' := List.mem_of_getElem? hj
          rw [List.mem_singleton] at hj'
          subst hj'
          intro x hx hx'
          rw [objects_eq e3] at hx'
          have := hlt a1 (List.mem_of_getElem? hi) x hx
          have := e5 x hx'
          omega
      · rw [List.getElem?_append_right (by omega)] at hi
        have hi' := List.mem_of_getElem? hi
        rw [List.mem_singleton] at hi'
        subst hi'
        by_cases h2 : j < as.length
        · rw [List.getElem?_append_left h2] at hj
          intro x hx hx'
          rw [objects_eq e3] at hx
          have := hlt a2 (List.mem_of_getElem? hj) x hx'
          have := e5 x hx
          omega
        · exfalso
          rw [List.getElem?_append_right (by omega)] at hj
          have h3 := (List.getElem?_eq_some_iff.1 hi).1
          have h4 := (List.getElem?_eq_some_iff.1 hj).1
          simp at h3 h4
          omega
  · exact ⟨rfl, base⟩

/-- a method call keeps the runs separate -/
theorem separate_op (S : ArgSort ℝ) (o : Store.Op κ δ ℝ) {h : Mem κ δ ℝ} {as : List Nat}
    {ss : List (Store κ δ ℝ)} (H : Spec.Separate h as ss) {i a : Nat} {s : Store κ δ ℝ}
    (hi : as[i]? = some a) (hs : ss[i]? = some s) :
    (Heap.op S a o h).1 = (match (s.step S o).2 with | none => .ok () | some e => .error e) ∧
      Spec.Separate (Heap.op S a o h).2 as (ss.set i (s.step S o).1) := by
  obtain ⟨s', hs', hv⟩ := forall₂_getElem? H.reads hi
  rw [hs] at hs'
  cases hs'
  obtain ⟨b, m, hr⟩ := view_iff.1 hv
  have hn : (Dict.values m).Nodup := by
    have := H.once a (List.mem_of_getElem? hi)
    rw [objects_eq hr] at this
    simp only [foot, List.nodup_cons] at this
    exact this.2.2
  obtain ⟨q1, b', m', q2, q3, q4, q5⟩ := refines_op S hr hn o
  refine ⟨q1, ?_⟩
  generalize (Heap.op S a o h).2 = h' at q2 q5
  have hsame : ∀ j a', i ≠ j → as[j]? = some a' → ∃ t, ss[j]? = some t ∧ view h' a' = some t ∧
      objects h' a' = objects h a' := by
    intro j a' hij hj
    obtain ⟨t, ht, hvt⟩ := forall₂_getElem? H.reads hj
    obtain ⟨bt, mt, hrt⟩ := view_iff.1 hvt
    have hcon : RunAt h' a' bt mt t := hrt.congr fun x hx => q5.2 x (hrt.lt x hx) (by
      intro hc
      rw [← objects_eq hr] at hc
      rw [← objects_eq hrt] at hx
      exact H.apart i j a a' hij hi hj x hc hx)
    exact ⟨t, ht, view_iff.2 ⟨bt, mt, hcon⟩, by rw [objects_eq hcon, objects_eq hrt]⟩
  have hview : view h' a = some (s.step S o).1 := view_iff.2 ⟨b', m', q2⟩
  have hobj : ∀ x ∈ objects h' a, x ∈ objects h a ∨ h.length ≤ x := by
    rw [objects_eq q2, objects_eq hr]; exact q4
  refine ⟨?_, ?_, ?_⟩
  · rw [List.forall₂_iff_get]
    refine ⟨by rw [List.length_set]; exact H.reads.length_eq, ?_⟩
    intro j h1 h2
    simp only [List.get_eq_getElem]
    have hj : as[j]? = some as[j] := List.getElem?_eq_getElem h1
    rw [List.getElem_set]
    by_cases hij : i = j
    · subst hij
      rw [if_pos rfl]
      rw [hi] at hj
      cases hj
      exact hview
    · rw [if_neg hij]
      obtain ⟨t, ht, hvt, _⟩ := hsame j _ hij hj
      rw [List.getElem?_eq_some_iff] at ht
      obtain ⟨_, ht⟩ := ht
      rw [ht]; exact hvt
  · intro a' ha'
    obtain ⟨j, hj⟩ := List.getElem?_of_mem ha'
    by_cases hij : i = j
    · subst hij
      rw [hi] at hj
      cases hj
      rw [objects_eq q2]
      exact q2.foot_nodup q3
    · obtain ⟨t, _, _, ho⟩ := hsame j _ hij hj
      rw [ho]
      exact H.once a' ha'
  · intro i1 j1 a1 a2 hij h1 h2 x hx hx'
    by_cases c1 : i = i1
    · subst c1
      rw [hi] at h1
      cases h1
      obtain ⟨t, ht, _, ho⟩ := hsame j1 a2 hij h2
      rw [ho] at hx'
      rcases hobj x hx with hx | hx
      · exact H.apart i j1 a a2 hij hi h2 x hx hx'
      · obtain ⟨t', _, hvt⟩ := forall₂_getElem? H.reads h2
        have := objects_lt hvt x hx'
        omega
    · obtain ⟨t, ht, _, ho⟩ := hsame i1 a1 c1 h1
      rw [ho] at hx
      by_cases c2 : i = j1
      · subst c2
        rw [hi] at h2
        cases h2
        rcases hobj x hx' with hx' | hx'
        · exact H.apart i1 i a1 a hij h1 hi x hx hx'
        · obtain ⟨t', _, hvt⟩ := forall₂_getElem? H.reads h1
          have := objects_lt hvt x hx
          omega
      · obtain ⟨t2, _, _, ho2⟩ := hsame j1 a2 c2 h2
        rw [ho2] at hx'
        exact H.apart i1 j1 a1 a2 hij h1 h2 x hx hx'

/-- the outcome of a method call as the command loop records it -/
theorem op_step_eq (S : ArgSort ℝ) (o : Store.Op κ δ ℝ) (h : Mem κ δ ℝ) (as : List Nat) {a i : Nat}
    (hi : as[i]? = some a) (err : Option Err)
    (h1 : (Heap.op S a o h).1 = (match err with | none => .ok () | some e => .error e)) :
    Heap.step (h, as) (.op S i o) = (((Heap.op S a o h).2, as), err) := by
  have h2 : Heap.op S a o h = ((Heap.op S a o h).1, (Heap.op S a o h).2) := rfl
  unfold Heap.step
  simp only
  rw [hi]
  simp only
  rw [h2, h1]
  cases err <;> rfl

theorem C88_step (c : Cmd κ δ) (h : Mem κ δ ℝ) (as : List Nat) (ss : List (Store κ δ ℝ))
    (H : Spec.Separate h as ss) :
    (Heap.step (h, as) c).2 = (Spec.World.step ss c).2 ∧
      Spec.Separate (Heap.step (h, as) c).1.1 (Heap.step (h, as) c).1.2 (Spec.World.step ss c).1 := by
  cases c with
  | empty => exact separate_keep H (newRun_makes h)
  | new S d => exact separate_keep H (ofDict_makes S d h)
  | op S i o =>
    cases hi : as[i]? with
    | none =>
      have hn := forall₂_getElem?_none H.reads hi
      have e1 : Heap.step (h, as) (.op S i o) = ((h, as), none) := by
        unfold Heap.step; simp only; rw [hi]
      have e2 : Spec.World.step ss (.op S i o) = (ss, none) := by
        unfold Spec.World.step; simp only; rw [hn]
      rw [e1, e2]
      exact ⟨rfl, H⟩
    | some a =>
      obtain ⟨s, hs, _⟩ := forall₂_getElem? H.reads hi
      obtain ⟨e1, e2⟩ := separate_op S o H hi hs
      have e3 : Spec.World.step ss (.op S i o) = (ss.set i (s.step S o).1, (s.step S o).2) := by
        unfold Spec.World.step; simp only; rw [hs]
      rw [op_step_eq S o h as hi _ e1, e3]
      exact ⟨rfl, e2⟩
  | normalize E norm i =>
    cases hi : as[i]? with
    | none =>
      have hn := forall₂_getElem?_none H.reads hi
      have e1 : Heap.step (h, as) (.normalize E norm i) = ((h, as), none) := by
        unfold Heap.step; simp only; rw [hi]
      have e2 : Spec.World.step ss (.normalize E norm i) = (ss, none) := by
        unfold Spec.World.step; simp only; rw [hn]
      rw [e1, e2]
      exact ⟨rfl, H⟩
    | some a =>
      obtain ⟨s, hs, hv⟩ := forall₂_getElem? H.reads hi
      have e1 : Heap.step (h, as) (.normalize E norm i) = Heap.keep as (Heap.normalize E norm a h) := by
        unfold Heap.step; simp only; rw [hi]
      have e2 : Spec.World.step ss (.normalize E norm i) = Spec.World.keep ss (Spec.normalized E norm s) := by
        unfold Spec.World.step; simp only; rw [hs]
      rw [e1, e2]
      exact separate_keep H (normalize_makes E norm (holds_of_view hv))
  | fuse E is norm method params =>
    exact separate_keep H (fuse_makes E norm method params
      (List.Forall₂.imp (fun _ _ hab => holds_of_view hab) (forall₂_filterMap H.reads is)))

/-- C88: however runs are created, changed, sorted, normalized and fused, every command has the outcome it
has when runs are plain values, every run reads as its value, and no two runs share an object - so that no
later change of one of them is seen through another. -/
theorem C88_programs (cs : List (Cmd κ δ)) (h : Mem κ δ ℝ) (as : List Nat) (ss : List (Store κ δ ℝ))
    (H : Spec.Separate h as ss) :
    (Heap.exec (h, as) cs).2 = (Spec.World.exec ss cs).2 ∧
      Spec.Separate (Heap.exec (h, as) cs).1.1 (Heap.exec (h, as) cs).1.2 (Spec.World.exec ss cs).1 := by
  induction cs generalizing h as ss with
  | nil => exact ⟨rfl, H⟩
  | cons c cs ih =>
    obtain ⟨e1, e2⟩ := C88_step c h as ss H
    obtain ⟨e3, e4⟩ := ih _ _ _ e2
    unfold Heap.exec Spec.World.exec
    simp only
    exact ⟨by rw [e1, e3], e4⟩

/-- C88 for programs starting from nothing -/
theorem C88_from_nothing (cs : List (Cmd κ δ)) :
    (Heap.exec (([] : Mem κ δ ℝ), []) cs).2 = (Spec.World.exec [] cs).2 ∧
      Spec.Separate (Heap.exec (([] : Mem κ δ ℝ), []) cs).1.1 (Heap.exec (([] : Mem κ δ ℝ), []) cs).1.2
        (Spec.World.exec [] cs).1 :=
  C88_programs cs [] [] [] ⟨.nil, by simp, by simp⟩

end

/-! Non-vacuity -/

/-- two runs in memory -/
def exMem : Mem Nat Nat ℝ :=
  [.results [(10, 5), (11, 4)], .results [(20, 1)], .queries [(1, 0), (2, 1)], .run 2 true,
   .results [(21, 3)], .results [(12, 6), (10, 2)], .queries [(2, 4), (1, 5)], .run 6 false]

theorem exMem_separate : Spec.Separate exMem [3, 7] [fuseStore1, fuseStore2] where
  reads := .cons rfl (.cons rfl .nil)
  once := by
    intro a ha
    simp only [List.mem_cons, List.not_mem_nil, or_false] at ha
    rcases ha with rfl | rfl
    · show ([3, 2, 0, 1] : List Nat).Nodup; decide
    · show ([7, 6, 4, 5] : List Nat).Nodup; decide
  apart := by
    have key : ∀ a a' : Nat, a ∈ [3, 7] → a' ∈ [3, 7] → a ≠ a' → ∀ x ∈ objects exMem a, x ∉ objects exMem a' := by
      intro a a' ha ha' hne
      simp only [List.mem_cons, List.not_mem_nil, or_false] at ha ha'
      rcases ha with rfl | rfl <;> rcases ha' with rfl | rfl
      · exact absurd rfl hne
      · show ∀ x ∈ ([3, 2, 0, 1] : List Nat), x ∉ ([7, 6, 4, 5] : List Nat); decide
      · show ∀ x ∈ ([7, 6, 4, 5] : List Nat), x ∉ ([3, 2, 0, 1] : List Nat); decide
      · exact absurd rfl hne
    intro i j a a' hij hi hj
    refine key a a' (List.mem_of_getElem? hi) (List.mem_of_getElem? hj) ?_
    rintro rfl
    have h1 := (List.getElem?_eq_some_iff.1 hi)
    have h2 := (List.getElem?_eq_some_iff.1 hj)
    obtain ⟨l1, e1⟩ := h1
    obtain ⟨l2, e2⟩ := h2
    simp only [List.length_cons, List.length_nil] at l1 l2
    have : ([3, 7] : List Nat).Nodup := by decide
    exact hij ((this.getElem_inj_iff).1 (e1.trans e2.symm))

/-- on the example memory `fuse` succeeds, and the theorems above apply to it -/
example : ∃ out, (Heap.fuse exEnv [3, 7] none "sum" none exMem).1 = .ok out := by
  have H : List.Forall₂ (fun a s => view exMem a = some s) [3, 7] [fuseStore1, fuseStore2] :=
    exMem_separate.reads
  rcases C63_result exEnv none "sum" none exMem [3, 7] _ H with ⟨x, e1, e2⟩ | ⟨a, s, e1, _⟩
  · obtain ⟨out, hout⟩ : ∃ out, Fuse.fuse exEnv [fuseStore1, fuseStore2] none "sum" = .ok out := exFuse_ok
    rw [hout] at e2; cases e2
  · exact ⟨a, e1⟩

end Ranx
