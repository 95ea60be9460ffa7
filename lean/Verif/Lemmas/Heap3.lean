import Verif.Lemmas.Heap2

/-! Normalization and fusion in memory -/

set_option linter.unusedSectionVars false
set_option linter.unusedSimpArgs false
set_option linter.unusedVariables false

namespace Ranx.Heap
open Dict
open _root_.Ranx.Fuse (Score combine unionLoop)

variable {κ δ β : Type} {A B : Type}

/-- `h'` is `h` with new objects: no object of `h` was written -/
abbrev Ext (h h' : Mem κ δ β) : Prop := Changes [] h h'

theorem Ext.refl (h : Mem κ δ β) : Ext h h := Changes.refl _ _
theorem Ext.app (h e : Mem κ δ β) : Ext h (h ++ e) := Changes.app _ _ _
theorem Ext.trans {h h' h'' : Mem κ δ β} (H : Ext h h') (H' : Ext h' h'') : Ext h h'' :=
  Changes.trans H H' (by simp)

theorem Ext.look {h h' : Mem κ δ β} (H : Ext h h') {a : Nat} {o : Obj κ δ β} (ha : h[a]? = some o) :
    h'[a]? = some o := by rw [H.2 a (look_lt ha) (by simp), ha]

theorem ResAt.ext {h h' : Mem κ δ β} (E : Ext h h') {as : List Nat} {rs : List (Dict δ β)}
    (H : ResAt h as rs) : ResAt h' as rs := List.Forall₂.imp (fun _ _ hab => E.look hab) H

theorem QRep.ext {h h' : Mem κ δ β} (E : Ext h h') {m : Dict κ Nat} {D : Dict κ (Dict δ β)}
    (H : QRep h m D) : QRep h' m D := List.Forall₂.imp (fun _ _ hab => ⟨hab.1, E.look hab.2⟩) H

theorem RunAt.ext {h h' : Mem κ δ β} (E : Ext h h') {a b : Nat} {m : Dict κ Nat} {s : Store κ δ β}
    (H : RunAt h a b m s) : RunAt h' a b m s := ⟨E.look H.obj, E.look H.data, H.inner.ext E⟩

theorem NewQ.ext {n : Nat} {h h' : Mem κ δ β} (E : Ext h h') {b : Nat} {D : Dict κ (Dict δ β)}
    (H : NewQ n h b D) : NewQ n h' b D := by
  obtain ⟨m, h1, h2, h3, h4, h5⟩ := H
  exact ⟨m, E.look h1, h2.ext E, h3, h4, h5⟩

/-- the run at `a` has the content `D` -/
def Holds (h : Mem κ δ β) (a : Nat) (D : Dict κ (Dict δ β)) : Prop := ∃ b m f, RunAt h a b m ⟨D, f⟩

theorem Holds.ext {h h' : Mem κ δ β} (E : Ext h h') {a : Nat} {D : Dict κ (Dict δ β)} (H : Holds h a D) :
    Holds h' a D := by
  obtain ⟨b, m, f, H⟩ := H
  exact ⟨b, m, f, H.ext E⟩

/-- a run made of unshared objects at addresses from `n` on -/
def NewRun (n : Nat) (h : Mem κ δ β) (a : Nat) (s : Store κ δ β) : Prop :=
  ∃ b m, RunAt h a b m s ∧ (Dict.values m).Nodup ∧ ∀ x ∈ foot a b m, n ≤ x

theorem NewRun.mono {n n' : Nat} {h : Mem κ δ β} {a : Nat} {s : Store κ δ β} (hn : n' ≤ n)
    (H : NewRun n h a s) : NewRun n' h a s := by
  obtain ⟨b, m, h1, h2, h3⟩ := H
  exact ⟨b, m, h1, h2, fun x hx => le_trans hn (h3 x hx)⟩

theorem NewRun.ext {n : Nat} {h h' : Mem κ δ β} (E : Ext h h') {a : Nat} {s : Store κ δ β}
    (H : NewRun n h a s) : NewRun n h' a s := by
  obtain ⟨b, m, h1, h2, h3⟩ := H
  exact ⟨b, m, h1.ext E, h2, h3⟩

theorem NewRun.holds {n : Nat} {h : Mem κ δ β} {a : Nat} {s : Store κ δ β} (H : NewRun n h a s) :
    Holds h a s.data := by
  obtain ⟨b, m, h1, _⟩ := H
  exact ⟨b, m, s.sorted, h1⟩

/-- a creating call: it writes no existing object and creates the run `out` or raises as `out` says -/
def Makes (h : Mem κ δ β) (r : Except Err Nat × Mem κ δ β) (out : Except Err (Store κ δ β)) : Prop :=
  Ext h r.2 ∧ ((∃ a s, r.1 = .ok a ∧ out = .ok s ∧ NewRun h.length r.2 a s) ∨
    ∃ x, r.1 = .error x ∧ out = .error x)

theorem Makes.error {h : Mem κ δ β} {e : Err} : Makes h (.error e, h) (.error e : Except Err (Store κ δ β)) :=
  ⟨Ext.refl h, Or.inr ⟨e, rfl, rfl⟩⟩

theorem Makes.mono {h h' : Mem κ δ β} {r : Except Err Nat × Mem κ δ β} {out : Except Err (Store κ δ β)}
    (E : Ext h h') (H : Makes h' r out) : Makes h r out := by
  obtain ⟨h1, h2⟩ := H
  refine ⟨E.trans h1, ?_⟩
  rcases h2 with ⟨a, s, e1, e2, e3⟩ | hx
  · exact Or.inl ⟨a, s, e1, e2, e3.mono E.1⟩
  · exact Or.inr hx

section
variable [LinearOrder κ] [DecidableEq δ]

/-! ### prange loops -/

theorem newSlots_ok (n : Nat) : ∀ h : Mem κ δ β, ∃ e as, newSlots n h = (.ok as, h ++ e) ∧
    ResAt (h ++ e) as (List.replicate n []) ∧ as.Nodup ∧ ∀ x ∈ as, h.length ≤ x := by
  induction n with
  | zero => intro h; exact ⟨[], [], by simp [newSlots], .nil, List.nodup_nil, by simp⟩
  | succ n ih =>
    intro h
    obtain ⟨e, as, h1, h2, h3, h4⟩ := ih (h ++ [.results []])
    rw [List.append_assoc, List.singleton_append] at h1 h2
    refine ⟨.results [] :: e, h.length :: as, ?_, ?_, ?_, ?_⟩
    · rw [newSlots, bind_ok (newResults_apply h), bind_ok h1, pure_apply]
    · rw [List.replicate_succ]
      exact .cons (look_new _ _ _) h2
    · rw [List.nodup_cons]
      refine ⟨fun hc => ?_, h3⟩
      have := h4 _ hc
      simp at this
    · intro x hx
      rcases List.mem_cons.mp hx with rfl | hx
      · exact le_refl _
      · have := h4 x hx
        simp at this
        omega

/-- an outcome in memory and the outcome as a value -/
def SlotOk (h : Mem κ δ β) (o : Except Err Nat) (p : Except Err (Dict δ β)) : Prop :=
  (∃ a r, o = .ok a ∧ p = .ok r ∧ h[a]? = some (.results r)) ∨ ∃ x, o = .error x ∧ p = .error x

theorem SlotOk.ext {h h' : Mem κ δ β} (E : Ext h h') {o : Except Err Nat} {p : Except Err (Dict δ β)}
    (H : SlotOk h o p) : SlotOk h' o p := by
  rcases H with ⟨a, r, h1, h2, h3⟩ | H
  · exact Or.inl ⟨a, r, h1, h2, E.look h3⟩
  · exact Or.inr H

theorem forall₂_set {X Y : Type*} {R : X → Y → Prop} {l : List X} {l' : List Y} (H : List.Forall₂ R l l')
    {x : X} {y : Y} (hxy : R x y) : ∀ i, List.Forall₂ R (l.set i x) (l'.set i y) := by
  induction H with
  | nil => intro i; exact .nil
  | cons h t ih =>
    intro i
    cases i with
    | zero => exact .cons hxy t
    | succ i => exact .cons h (ih i)

/-- no two slots share an object, all are at addresses from `n` on -/
def SlotsNew (n : Nat) (slots : List (Except Err Nat)) : Prop :=
  (∀ (i j a : Nat), slots[i]? = some (Except.ok a) → slots[j]? = some (Except.ok a) → i = j) ∧
    ∀ a, (Except.ok a : Except Err Nat) ∈ slots → n ≤ a

theorem slotLoop_ok (body : Nat → Prog κ δ β Nat) (g : Nat → Except Err (Dict δ β)) (h0 : Mem κ δ β)
    (hbody : ∀ h, Ext h0 h → ∀ i, Ext h (body i h).2 ∧ SlotOk (body i h).2 (body i h).1 (g i) ∧
      ∀ a, (body i h).1 = .ok a → h.length ≤ a) (sched : List Nat) :
    ∀ (h : Mem κ δ β) (slots : List (Except Err Nat)) (outs : List (Except Err (Dict δ β))), Ext h0 h →
      List.Forall₂ (SlotOk h) slots outs → SlotsNew h0.length slots →
      ∃ h' slots', slotLoop body sched slots h = (.ok slots', h') ∧ Ext h h' ∧
        List.Forall₂ (SlotOk h') slots' (prange outs g sched) ∧ SlotsNew h0.length slots' := by
  induction sched with
  | nil => intro h slots outs E H hN; exact ⟨h, slots, rfl, Ext.refl h, H, hN⟩
  | cons i is ih =>
    intro h slots outs E H hN
    obtain ⟨b1, b2, b3⟩ := hbody h E i
    have hat : (attempt (body i) : Prog κ δ β _) h = (.ok (body i h).1, (body i h).2) := rfl
    have hlt : ∀ a, (Except.ok a : Except Err Nat) ∈ slots → a < h.length := by
      intro a ha
      obtain ⟨k, hk⟩ := List.getElem?_of_mem ha
      have hkl : k < slots.length := by
        by_contra hc
        rw [List.getElem?_eq_none (by omega)] at hk
        cases hk
      have hkl' : k < outs.length := by rw [← H.length_eq]; exact hkl
      have := (List.forall₂_iff_get.1 H).2 k hkl hkl'
      rw [List.getElem?_eq_getElem hkl, Option.some.injEq] at hk
      simp only [List.get_eq_getElem, hk] at this
      rcases this with ⟨a', r, e1, _, e3⟩ | ⟨x, e1, _⟩
      · cases e1; exact look_lt e3
      · cases e1
    have hN' : SlotsNew h0.length (slots.set i (body i h).1) := by
      constructor
      · intro j k a hj hk
        rw [List.getElem?_set] at hj hk
        by_cases hij : i = j <;> by_cases hik : i = k
        · omega
        · rw [if_pos hij] at hj
          rw [if_neg hik] at hk
          exfalso
          split at hj
          · have hj' : (body i h).1 = .ok a := Option.some.inj hj
            have h1 := b3 a hj'
            have h2 := hlt a (List.mem_of_getElem? hk)
            omega
          · cases hj
        · rw [if_neg hij] at hj
          rw [if_pos hik] at hk
          exfalso
          split at hk
          · have hk' : (body i h).1 = .ok a := Option.some.inj hk
            have h1 := b3 a hk'
            have h2 := hlt a (List.mem_of_getElem? hj)
            omega
          · cases hk
        · rw [if_neg hij] at hj
          rw [if_neg hik] at hk
          exact hN.1 j k a hj hk
      · intro a ha
        rcases List.mem_or_eq_of_mem_set ha with ha | ha
        · exact hN.2 a ha
        · exact le_trans E.1 (b3 a ha.symm)
    have H' : List.Forall₂ (SlotOk (body i h).2) (slots.set i (body i h).1) (outs.set i (g i)) :=
      forall₂_set (List.Forall₂.imp (fun _ _ hab => hab.ext b1) H) b2 i
    obtain ⟨h', slots', e1, e2, e3, e4⟩ := ih _ _ _ (E.trans b1) H' hN'
    refine ⟨h', slots', ?_, b1.trans e2, e3, e4⟩
    rw [slotLoop, bind_ok hat, e1]

theorem collect_slots {h : Mem κ δ β} {slots : List (Except Err Nat)} {outs : List (Except Err (Dict δ β))}
    (H : List.Forall₂ (SlotOk h) slots outs) :
    (∃ as rs, Eval.collect slots = .ok as ∧ Eval.collect outs = .ok rs ∧ ResAt h as rs) ∨
      ∃ x, Eval.collect slots = .error x ∧ Eval.collect outs = .error x := by
  induction H with
  | nil => exact Or.inl ⟨[], [], rfl, rfl, .nil⟩
  | @cons o p slots outs hop _ ih =>
    rcases hop with ⟨a, r, rfl, rfl, hr⟩ | ⟨x, rfl, rfl⟩
    · rcases ih with ⟨as, rs, h1, h2, h3⟩ | ⟨x, h1, h2⟩
      · refine Or.inl ⟨a :: as, r :: rs, ?_, ?_, .cons hr h3⟩
        · simp only [Eval.collect, h1]
        · simp only [Eval.collect, h2]
      · refine Or.inr ⟨x, ?_, ?_⟩
        · simp only [Eval.collect, h1]
        · simp only [Eval.collect, h2]
    · exact Or.inr ⟨x, rfl, rfl⟩

theorem slotsNew_ok {n : Nat} {as : List Nat} (hn : as.Nodup) (hl : ∀ x ∈ as, n ≤ x) :
    SlotsNew n (as.map (.ok : Nat → Except Err Nat)) := by
  constructor
  · intro i j a hi hj
    rw [List.getElem?_map] at hi hj
    cases hi' : as[i]? with
    | none => rw [hi'] at hi; cases hi
    | some x =>
      cases hj' : as[j]? with
      | none => rw [hj'] at hj; cases hj
      | some y =>
        rw [hi'] at hi; rw [hj'] at hj
        simp only [Option.map_some, Option.some.injEq, Except.ok.injEq] at hi hj
        subst hi; subst hj
        have hil : i < as.length := by
          by_contra hc
          rw [List.getElem?_eq_none (by omega)] at hi'; cases hi'
        rw [List.nodup_iff_getElem?_ne_getElem?] at hn
        have hjl : j < as.length := by
          by_contra hc
          rw [List.getElem?_eq_none (by omega)] at hj'; cases hj'
        rcases Nat.lt_trichotomy i j with hlt | heq | hgt
        · exact absurd (hi'.trans hj'.symm) (hn i j hlt hjl)
        · exact heq
        · exact absurd (hj'.trans hi'.symm) (hn j i hgt hil)
  · intro a ha
    obtain ⟨x, hx, he⟩ := List.mem_map.1 ha
    cases he
    exact hl _ hx

theorem slots_nodup {n : Nat} {as : List Nat} (H : SlotsNew n (as.map (.ok : Nat → Except Err Nat))) :
    as.Nodup ∧ ∀ x ∈ as, n ≤ x := by
  refine ⟨?_, fun x hx => H.2 x (List.mem_map.2 ⟨x, hx, rfl⟩)⟩
  rw [List.nodup_iff_getElem?_ne_getElem?]
  intro i j hij hj hc
  have hi : i < as.length := by omega
  rw [List.getElem?_eq_getElem hi, List.getElem?_eq_getElem hj, Option.some.injEq] at hc
  have := H.1 i j as[i] (by simp [hi]) (by simp [hj, hc])
  omega

theorem parallel_ok (body : Nat → Prog κ δ β Nat) (g : Nat → Except Err (Dict δ β)) (h0 : Mem κ δ β)
    (hbody : ∀ h, Ext h0 h → ∀ i, Ext h (body i h).2 ∧ SlotOk (body i h).2 (body i h).1 (g i) ∧
      ∀ a, (body i h).1 = .ok a → h.length ≤ a) (qs : List κ) (sched : List Nat) :
    ∃ h', Ext h0 h' ∧
      ((∃ b rs, parallel body qs sched h0 = (.ok b, h') ∧
        Eval.collect (prange (List.replicate qs.length (.ok [])) g sched) = .ok rs ∧
        NewQ h0.length h' b (Norm.toRun qs rs)) ∨
      ∃ x, parallel body qs sched h0 = (.error x, h') ∧
        Eval.collect (prange (List.replicate qs.length (.ok [])) g sched) = .error x) := by
  obtain ⟨e, as, s1, s2, s3, s4⟩ := newSlots_ok (κ := κ) qs.length h0
  have hF : List.Forall₂ (SlotOk (h0 ++ e)) (as.map .ok) (List.replicate qs.length (.ok [])) := by
    have : List.replicate qs.length (Except.ok [] : Except Err (Dict δ β))
        = (List.replicate qs.length []).map .ok := by simp
    rw [this, List.forall₂_map_left_iff, List.forall₂_map_right_iff]
    exact List.Forall₂.imp (fun a r hr => Or.inl ⟨a, r, rfl, rfl, hr⟩) s2
  obtain ⟨h', slots', l1, l2, l3, l4⟩ := slotLoop_ok body g h0 hbody sched (h0 ++ e) _ _ (Ext.app _ _) hF
    (slotsNew_ok s3 s4)
  have E' : Ext h0 h' := (Ext.app h0 e).trans l2
  rcases collect_slots l3 with ⟨as', rs, c1, c2, c3⟩ | ⟨x, c1, c2⟩
  · have hs : slots' = as'.map .ok := (Eval.collect_ok_iff _ _).1 c1
    rw [hs] at l4
    obtain ⟨n1, n2⟩ := slots_nodup l4
    obtain ⟨e', b, t1, t2⟩ := storeZip_ok c3 n1 n2 E'.1 qs
    refine ⟨h' ++ e', E'.trans (Ext.app _ _), Or.inl ⟨b, rs, ?_, c2, t2⟩⟩
    rw [parallel, bind_ok s1, bind_ok l1, c1, bind_ok (lift_apply _ _), t1]
  · refine ⟨h', E', Or.inr ⟨x, ?_, c2⟩⟩
    rw [parallel, bind_ok s1, bind_ok l1, c1, bind_error (lift_apply _ _)]

theorem prange_map_ok {γ : Type*} (f : Nat → γ) (sched : List Nat) : ∀ out : List γ,
    prange (out.map (Except.ok (ε := Err))) (fun i => .ok (f i)) sched = (prange out f sched).map .ok := by
  unfold prange
  induction sched with
  | nil => intro out; rfl
  | cons i is ih =>
    intro out
    rw [List.foldl_cons, List.foldl_cons, ← ih, List.map_set]

theorem kernel_slot {f : List (Dict δ β) → Except Err (Dict δ β)} {h : Mem κ δ β}
    {as : List Nat} {rs : List (Dict δ β)} (H : ResAt h as rs)
    (hd : ∀ d, f rs = .ok d → NodupKeys d) :
    Ext h (kernel f as h).2 ∧ SlotOk (kernel f as h).2 (kernel f as h).1 (f rs) ∧
      ∀ a, (kernel f as h).1 = .ok a → h.length ≤ a := by
  cases hf : f rs with
  | ok d =>
    rw [kernel_ok H hf (hd d hf)]
    exact ⟨Ext.app _ _, Or.inl ⟨_, _, rfl, rfl, look_new _ _ _⟩, fun a ha => by cases ha; exact le_refl _⟩
  | error e =>
    rw [kernel_error H hf]
    exact ⟨Ext.app _ _, Or.inr ⟨_, rfl, rfl⟩, fun a ha => by cases ha⟩

/-! ### new runs -/

theorem newRun_eq (h : Mem κ δ β) : newRun h = (.ok (h.length + 1), h ++ [.queries [], .run h.length false]) := by
  rw [newRun, bind_ok (alloc_apply _ _), alloc_apply]
  simp

theorem newRun_makes (h : Mem κ δ β) : Makes h (newRun h) (.ok Store.empty) := by
  rw [newRun_eq]
  refine ⟨Ext.app _ _, Or.inl ⟨_, _, rfl, rfl, h.length, [], ⟨?_, ?_, .nil⟩, List.nodup_nil, ?_⟩⟩
  · simp [Store.empty]
  · simp
  · simp [foot]

theorem newRunWith_ok {h : Mem κ δ β} {p : Prog κ δ β Nat} {D : Dict κ (Dict δ β)} {b : Nat}
    {h' : Mem κ δ β}
    (hp : p (h ++ [.queries [], .run h.length false]) = (.ok b, h'))
    (E : Ext (h ++ [.queries [], .run h.length false]) h') (hq : NewQ (h.length + 2) h' b D) :
    ∃ h'', newRunWith p h = (.ok (h.length + 1), h'') ∧ Ext h h'' ∧
      NewRun h.length h'' (h.length + 1) ⟨D, false⟩ := by
  obtain ⟨m, q1, q2, q3, q4, q5⟩ := hq
  have hlen := E.1
  simp only [List.length_append, List.length_cons, List.length_nil] at hlen
  refine ⟨h'.set (h.length + 1) (.run b false), ?_, ?_, b, m, ⟨?_, ?_, ?_⟩, q3, ?_⟩
  · rw [newRunWith, bind_ok (newRun_eq h), bind_ok hp, bind_ok (setRun_apply _ _ _ _), pure_apply]
  · exact Changes.trans ((Ext.app _ _).trans E) (Changes.set (F := [h.length + 1]) _ _ (Or.inl (by simp)))
      (by intro x hx; rw [List.mem_singleton] at hx; exact Or.inr (by omega))
  · rw [List.getElem?_set_self (by omega)]
  · rw [List.getElem?_set_ne (by omega), q1]
  · refine q2.congr fun x hx => List.getElem?_set_ne ?_
    have := q5 x hx
    omega
  · intro x hx
    simp only [foot, List.mem_cons] at hx
    rcases hx with rfl | rfl | hx
    · omega
    · omega
    · have := q5 x hx; omega

theorem newRunWith_error {h : Mem κ δ β} {p : Prog κ δ β Nat} {x : Err} {h' : Mem κ δ β}
    (hp : p (h ++ [.queries [], .run h.length false]) = (.error x, h')) :
    newRunWith p h = (.error x, h') := by
  rw [newRunWith, bind_ok (newRun_eq h), bind_error hp]

/-- the pure counterpart of `rescore` -/
def rescored (g : Nat → Dict δ β → Dict δ β) (sched : List Nat) (D : Dict κ (Dict δ β)) :
    Dict κ (Dict δ β) :=
  Norm.toRun D.keys (prange (List.replicate D.keys.length []) (fun i =>
    g i ((D.keys[i]?.bind D.get?).getD [])) sched)

theorem rescore_ok (g : Nat → Dict δ β → Dict δ β) (hg : ∀ i r, NodupKeys (g i r)) (sched : List Nat)
    {h : Mem κ δ β} {a : Nat} {D : Dict κ (Dict δ β)} (H : Holds h a D) :
    ∃ a' h', rescore g sched a h = (.ok a', h') ∧ Ext h h' ∧
      NewRun h.length h' a' ⟨rescored g sched D, false⟩ := by
  obtain ⟨b, m, f, H⟩ := H
  have h1 : (readRun a : Prog κ δ β _) h = (.ok (b, f), h) := by simp only [readRun, H.obj]
  have E0 : Ext h (h ++ [.queries [], .run h.length false]) := Ext.app _ _
  have H2 := H.ext E0
  generalize hh : h ++ [Obj.queries [], .run h.length false] = h2 at *
  have h2' : (readQueries b : Prog κ δ β _) h2 = (.ok m, h2) := by simp only [readQueries, H2.data]
  have hbody : ∀ h', Ext h2 h' → ∀ i,
      Ext h' (kernel (κ := κ) (fun rs => .ok (g i (rs.headD []))) (m.keys[i]?.bind m.get?).toList h').2 ∧
      SlotOk (kernel (κ := κ) (fun rs => .ok (g i (rs.headD []))) (m.keys[i]?.bind m.get?).toList h').2
        (kernel (κ := κ) (fun rs => .ok (g i (rs.headD []))) (m.keys[i]?.bind m.get?).toList h').1
        ((fun i => .ok (g i ((D.keys[i]?.bind D.get?).getD []))) i) ∧
      ∀ a, (kernel (κ := κ) (fun rs => .ok (g i (rs.headD []))) (m.keys[i]?.bind m.get?).toList h').1 = .ok a →
        h'.length ≤ a := by
    intro h' E' i
    obtain ⟨rs, hrs, hhd⟩ : ∃ rs, ResAt h' (m.keys[i]?.bind m.get?).toList rs ∧
        rs.headD [] = (D.keys[i]?.bind D.get?).getD [] := by
      rw [H.inner.keys]
      cases hk : (Dict.keys D)[i]? with
      | none => exact ⟨[], .nil, rfl⟩
      | some q =>
        rcases (H2.inner.ext E').get? q with ⟨e1, e2⟩ | ⟨x, r, e1, e2, e3⟩
        · refine ⟨[], ?_, ?_⟩
          · simp only [Option.bind_some, e1]; exact .nil
          · simp only at e2; simp only [Option.bind_some, e2]; rfl
        · refine ⟨[r], ?_, ?_⟩
          · simp only [Option.bind_some, e1]; exact .cons e3 .nil
          · simp only at e2; simp only [Option.bind_some, e2]; rfl
    have := kernel_slot (κ := κ) (f := fun rs => .ok (g i (rs.headD []))) hrs
      (fun d hd => by cases hd; exact hg _ _)
    simp only [hhd] at this
    exact this
  obtain ⟨h3, E3, hres⟩ := parallel_ok _ _ h2 hbody m.keys sched
  have hpm := prange_map_ok (fun i => g i ((D.keys[i]?.bind D.get?).getD [])) sched
    (List.replicate (Dict.keys m).length [])
  rw [List.map_replicate] at hpm
  rw [hpm] at hres
  have hco : ∀ l : List (Dict δ β), Eval.collect (l.map .ok) = .ok l := fun l =>
    (Eval.collect_ok_iff _ _).2 rfl
  rw [hco] at hres
  rcases hres with ⟨b', rs, p1, p2, p3⟩ | ⟨x, _, p2⟩
  · cases p2
    have hl2 : h2.length = h.length + 2 := by rw [← hh]; simp
    have hp : (do
        let m ← readQueries b
        parallel (fun i => kernel (fun rs => .ok (g i (rs.headD []))) (m.keys[i]?.bind m.get?).toList)
          m.keys sched : Prog κ δ β Nat) (h ++ [Obj.queries [], .run h.length false]) = (.ok b', h3) := by
      rw [hh, bind_ok h2', p1]
    rw [hl2] at p3
    rw [H.inner.keys] at p3
    obtain ⟨h4, n1, n2, n3⟩ := newRunWith_ok hp (by rw [hh]; exact E3) p3
    refine ⟨_, h4, ?_, n2, n3⟩
    rw [rescore, bind_ok h1, n1]
  · cases p2

theorem rescoreLoop_ok (g : Nat → Except Err (Nat → Dict δ β → Dict δ β))
    (hg : ∀ j f, g j = .ok f → ∀ i r, NodupKeys (f i r)) (scheds : Nat → List Nat) (as : List Nat) :
    ∀ (h : Mem κ δ β) (Ds : List (Dict κ (Dict δ β))) (j : Nat), List.Forall₂ (Holds h) as Ds →
    ∃ h', Ext h h' ∧
      ((∃ as' Ds', rescoreLoop g scheds as j h = (.ok as', h') ∧
        Eval.collect ((Ds.zipIdx j).map (fun rj => (g rj.2).map (fun f => rescored f (scheds rj.2) rj.1)))
          = .ok Ds' ∧ List.Forall₂ (fun a D => NewRun h.length h' a ⟨D, false⟩) as' Ds') ∨
      ∃ x, rescoreLoop g scheds as j h = (.error x, h') ∧
        Eval.collect ((Ds.zipIdx j).map (fun rj => (g rj.2).map (fun f => rescored f (scheds rj.2) rj.1)))
          = .error x) := by
  induction as with
  | nil =>
    intro h Ds j H
    cases H
    exact ⟨h, Ext.refl h, Or.inl ⟨[], [], rfl, rfl, .nil⟩⟩
  | cons a t ih =>
    intro h Ds j H
    cases H with
    | @cons _ D _ Ds ha ht =>
      rw [List.zipIdx_cons, List.map_cons]
      simp only
      cases hgj : g j with
      | error x =>
        refine ⟨h, Ext.refl h, Or.inr ⟨x, ?_, rfl⟩⟩
        rw [rescoreLoop, hgj, bind_error (lift_apply _ _)]
      | ok f =>
        obtain ⟨a', h1, r1, r2, r3⟩ := rescore_ok f (hg j f hgj) (scheds j) ha
        obtain ⟨h', E', hr⟩ := ih h1 Ds (j + 1) (List.Forall₂.imp (fun _ _ hab => hab.ext r2) ht)
        refine ⟨h', r2.trans E', ?_⟩
        rcases hr with ⟨as', Ds', l1, l2, l3⟩ | ⟨x, l1, l2⟩
        · refine Or.inl ⟨a' :: as', rescored f (scheds j) D :: Ds', ?_, ?_, .cons (r3.ext E') ?_⟩
          · rw [rescoreLoop, hgj, bind_ok (lift_apply _ _), bind_ok r1, bind_ok l1, pure_apply]
          · simp only [Except.map, Eval.collect]
            simp only [Except.map] at l2
            rw [l2]
          · exact List.Forall₂.imp (fun _ _ hab => hab.mono r2.1) l3
        · refine Or.inr ⟨x, ?_, ?_⟩
          · rw [rescoreLoop, hgj, bind_ok (lift_apply _ _), bind_ok r1, bind_error l1]
          · simp only [Except.map, Eval.collect]
            simp only [Except.map] at l2
            rw [l2]

theorem readData_ok {h : Mem κ δ β} {as : List Nat} {Ds : List (Dict κ (Dict δ β))}
    (H : List.Forall₂ (Holds h) as Ds) :
    ∃ ms, readData as h = (.ok ms, h) ∧ List.Forall₂ (QRep h) ms Ds := by
  induction H with
  | nil => exact ⟨[], rfl, .nil⟩
  | @cons a D as Ds ha _ ih =>
    obtain ⟨ms, h1, h2⟩ := ih
    obtain ⟨b, m, f, H⟩ := ha
    have e1 : (readRun a : Prog κ δ β _) h = (.ok (b, f), h) := by simp only [readRun, H.obj]
    have e2 : (readQueries b : Prog κ δ β _) h = (.ok m, h) := by simp only [readQueries, H.data]
    refine ⟨m :: ms, ?_, .cons H.inner h2⟩
    rw [readData, bind_ok e1, bind_ok e2, bind_ok h1, pure_apply]

theorem zip_keys_values {ν : Type*} (D : Dict κ ν) : (Dict.keys D).zip (Dict.values D) = D := by
  induction D with
  | nil => rfl
  | cons p t ih => simp [ih]

theorem readContents_ok {h : Mem κ δ β} {ms : List (Dict κ Nat)} {Ds : List (Dict κ (Dict δ β))}
    (H : List.Forall₂ (QRep h) ms Ds) : readContents ms h = (.ok Ds, h) := by
  induction H with
  | nil => rfl
  | @cons m D ms Ds hm _ ih =>
    have e1 : (readContent m : Prog κ δ β _) h = (.ok D, h) := by
      rw [readContent, bind_ok (readAll_eq hm.values), pure_apply, hm.keys, zip_keys_values]
    rw [readContents, bind_ok e1, bind_ok ih, pure_apply]

theorem unionLoop_nodup [DecidableEq β] [Zero β] (score : δ → Except Err β) (ds : List δ) :
    ∀ (acc d : Dict δ β), NodupKeys acc → unionLoop score ds acc = .ok d → NodupKeys d := by
  induction ds with
  | nil => intro acc d hn h; cases h; exact hn
  | cons x t ih =>
    intro acc d hn h
    unfold unionLoop at h
    by_cases h0 : (acc.get? x).getD 0 = 0
    · rw [if_pos h0] at h
      cases hs : score x with
      | error e => rw [hs] at h; cases h
      | ok v => rw [hs] at h; exact ih _ _ (hn.set x v) h
    · rw [if_neg h0] at h
      exact ih _ _ hn h

theorem fuseSlot_ok [DecidableEq β] [Zero β] (score : Score δ β) {h : Mem κ δ β} {ms : List (Dict κ Nat)}
    {Ds : List (Dict κ (Dict δ β))} (H : List.Forall₂ (QRep h) ms Ds) (qs : List κ) (i : Nat) :
    Ext h (fuseSlot score ms qs i h).2 ∧
    SlotOk (fuseSlot score ms qs i h).2 (fuseSlot score ms qs i h).1 (Fuse.fuseSlot score Ds qs i) ∧
      ∀ a, (fuseSlot score ms qs i h).1 = .ok a → h.length ≤ a := by
  unfold fuseSlot Fuse.fuseSlot
  cases qs[i]? with
  | none => exact ⟨Ext.refl _, Or.inr ⟨_, rfl, rfl⟩, fun a ha => by cases ha⟩
  | some q =>
    simp only
    have hall : ms.all (fun m => m.contains q) = Ds.all (fun D => D.contains q) := by
      induction H with
      | nil => rfl
      | cons hm _ ih => simp only [List.all_cons, hm.contains q, ih]
    rw [hall]
    cases hc : Ds.all (fun D => D.contains q) with
    | false => exact ⟨Ext.refl _, Or.inr ⟨_, rfl, rfl⟩, fun a ha => by cases ha⟩
    | true =>
      rw [if_pos rfl, if_pos rfl]
      have hres : ResAt h (ms.map (fun m => (m.get? q).getD 0)) (Ds.map (fun D => (D.get? q).getD [])) := by
        clear hall
        induction H with
        | nil => exact .nil
        | @cons m D ms Ds hm _ ih =>
          simp only [List.all_cons, Bool.and_eq_true] at hc
          refine .cons ?_ (ih hc.2)
          rcases hm.get? q with ⟨_, e2⟩ | ⟨x, r, e1, e2, e3⟩
          · have := hc.1
            unfold Dict.contains at this
            rw [e2] at this; cases this
          · simp only [e1, e2]; exact e3
      exact kernel_slot hres (fun d hd => unionLoop_nodup _ _ _ _ nodupKeys_nil hd)

theorem fuseRun_makes [DecidableEq β] [Zero β] [LE β] [Neg β] (S : ArgSort β) (score : Score δ β)
    (sched : List Nat) {h : Mem κ δ β} {as : List Nat} {Ds : List (Dict κ (Dict δ β))}
    (H : List.Forall₂ (Holds h) as Ds) :
    Makes h (fuseRun S score sched as h) (Fuse.fuseRun S score sched Ds) := by
  have E0 : Ext h (h ++ [.queries [], .run h.length false]) := Ext.app _ _
  have H2 := List.Forall₂.imp (fun _ _ hab => Holds.ext E0 hab) H
  obtain ⟨ms, r1, r2⟩ := readData_ok H2
  unfold Fuse.fuseRun Fuse.fuseParallel
  cases r2 with
  | nil =>
    have hp : fuseParallel score sched as (h ++ [.queries [], .run h.length false])
        = (.error .indexError, h ++ [.queries [], .run h.length false]) := by
      rw [fuseParallel, bind_ok r1]; rfl
    rw [fuseRun, bind_error (newRunWith_error hp)]
    exact ⟨E0, Or.inr ⟨_, rfl, rfl⟩⟩
  | @cons m0 D0 ms Ds hm0 hms =>
    simp only
    have r2 : List.Forall₂ (QRep (h ++ [.queries [], .run h.length false])) (m0 :: ms) (D0 :: Ds) :=
      .cons hm0 hms
    obtain ⟨h3, E3, hres⟩ := parallel_ok (fuseSlot score (m0 :: ms) m0.keys)
      (Fuse.fuseSlot score (D0 :: Ds) m0.keys) (h ++ [.queries [], .run h.length false])
      (fun h' E' i => fuseSlot_ok score (List.Forall₂.imp (fun _ _ hab => QRep.ext E' hab) r2) m0.keys i)
      m0.keys sched
    have hpe : fuseParallel score sched as (h ++ [.queries [], .run h.length false])
        = parallel (fuseSlot score (m0 :: ms) m0.keys) m0.keys sched
          (h ++ [.queries [], .run h.length false]) := by
      rw [fuseParallel, bind_ok r1]
    rw [hm0.keys] at hres hpe
    rcases hres with ⟨b, rs, p1, p2, p3⟩ | ⟨x, p1, p2⟩
    · rw [p2]
      simp only
      rw [p1] at hpe
      have hl : (h ++ [Obj.queries [], .run h.length false]).length = h.length + 2 := by simp
      rw [hl] at p3
      obtain ⟨h4, n1, n2, n3⟩ := newRunWith_ok hpe E3 p3
      obtain ⟨b4, m4, f1, f2, f3⟩ := n3
      obtain ⟨h5, b5, m5, g1, g2, g3, g4, g5⟩ := sort_spec S f1
      refine ⟨?_, Or.inl ⟨h.length + 1, _, ?_, rfl, b5, m5, ?_, g3, ?_⟩⟩
      · rw [fuseRun, bind_ok n1, bind_ok g1, pure_apply]
        exact Changes.trans n2 g5 (by intro x hx; rw [List.mem_singleton] at hx; exact Or.inr (by omega))
      · rw [fuseRun, bind_ok n1, bind_ok g1, pure_apply]
      · rw [fuseRun, bind_ok n1, bind_ok g1, pure_apply]
        exact g2
      · intro x hx
        rcases List.mem_cons.mp hx with rfl | hx
        · omega
        · exact le_trans n2.1 (g4 x hx)
    · rw [p2]
      simp only
      rw [p1] at hpe
      rw [fuseRun, bind_error (newRunWith_error hpe)]
      exact ⟨E0.trans E3, Or.inr ⟨_, rfl, rfl⟩⟩

end
end Ranx.Heap
