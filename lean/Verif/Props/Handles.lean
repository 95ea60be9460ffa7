import Verif.Lemmas.Handles
import Verif.Props.Store

/-!
# C121, C122: what `run[q]`, `to_dict()` and `get_doc_ids_and_scores()` hand out
-/

set_option linter.unusedSectionVars false

namespace Ranx
open Dict Heap
open Spec (Thing see parts view)

section
variable {κ δ : Type} [LinearOrder κ] [DecidableEq δ]

theorem isRun_iff {h : Mem κ δ ℝ} {a : Nat} {t : Thing κ δ} {P : List Nat} (H : At h a t P) :
    (isRun h a = true ↔ ∃ s, t = .run s) ∧ (isDict h a = true ↔ ∃ D, t = .dict D) ∧
      (isRow h a = true ↔ ∃ r, t = .row r) := by
  unfold isRun isDict isRow
  cases H with
  | run H => rw [H.obj]; simp
  | dict hm H => rw [hm]; simp
  | row hr => rw [hr]; simp

theorem pick_run {h : Mem κ δ ℝ} {as : List Nat} {ts : List (Thing κ δ)} (H : Spec.Disjoint h as ts) (i : Nat) :
    (held isRun (h, as) i = none ∧ Spec.runAt ts i = none) ∨
      ∃ a s b m, held isRun (h, as) i = some a ∧ Spec.runAt ts i = some s ∧ as[i]? = some a ∧
        RunAt h a b m s := by
  unfold held Spec.runAt
  simp only
  cases hi : as[i]? with
  | none => rw [forall₂_getElem?_none H.reads hi]; exact Or.inl ⟨rfl, rfl⟩
  | some a =>
    obtain ⟨t, ht, hs⟩ := forall₂_getElem? H.reads hi
    obtain ⟨P, hP⟩ := see_iff.1 hs
    have hk := (isRun_iff hP).1
    rw [ht]
    cases hP with
    | run HR =>
      refine Or.inr ⟨a, _, _, _, ?_, rfl, rfl, HR⟩
      rw [Option.filter_some, hk.2 ⟨_, rfl⟩]; rfl
    | dict hm HR =>
      refine Or.inl ⟨?_, rfl⟩
      rw [Option.filter_some, if_neg (fun hc => by simpa using hk.1 hc)]
    | row hr =>
      refine Or.inl ⟨?_, rfl⟩
      rw [Option.filter_some, if_neg (fun hc => by simpa using hk.1 hc)]

theorem pick_dict {h : Mem κ δ ℝ} {as : List Nat} {ts : List (Thing κ δ)} (H : Spec.Disjoint h as ts) (i : Nat) :
    (held isDict (h, as) i = none ∧ Spec.dictAt ts i = none) ∨
      ∃ a D m, held isDict (h, as) i = some a ∧ Spec.dictAt ts i = some D ∧ as[i]? = some a ∧
        h[a]? = some (.queries m) ∧ QRep h m D ∧ (Dict.values m).Nodup := by
  unfold held Spec.dictAt
  simp only
  cases hi : as[i]? with
  | none => rw [forall₂_getElem?_none H.reads hi]; exact Or.inl ⟨rfl, rfl⟩
  | some a =>
    obtain ⟨t, ht, hs⟩ := forall₂_getElem? H.reads hi
    obtain ⟨P, hP⟩ := see_iff.1 hs
    have hk := (isRun_iff hP).2.1
    have hn := H.once a (List.mem_of_getElem? hi)
    rw [hP.parts] at hn
    rw [ht]
    cases hP with
    | run HR =>
      refine Or.inl ⟨?_, rfl⟩
      rw [Option.filter_some, if_neg (fun hc => by simpa using hk.1 hc)]
    | dict hm HR =>
      refine Or.inr ⟨a, _, _, ?_, rfl, rfl, hm, HR, (List.nodup_cons.1 hn).2⟩
      rw [Option.filter_some, hk.2 ⟨_, rfl⟩]; rfl
    | row hr =>
      refine Or.inl ⟨?_, rfl⟩
      rw [Option.filter_some, if_neg (fun hc => by simpa using hk.1 hc)]

theorem pick_row {h : Mem κ δ ℝ} {as : List Nat} {ts : List (Thing κ δ)} (H : Spec.Disjoint h as ts) (i : Nat) :
    (held isRow (h, as) i = none ∧ Spec.rowAt ts i = none) ∨
      ∃ a r, held isRow (h, as) i = some a ∧ Spec.rowAt ts i = some r ∧ as[i]? = some a ∧
        h[a]? = some (.results r) := by
  unfold held Spec.rowAt
  simp only
  cases hi : as[i]? with
  | none => rw [forall₂_getElem?_none H.reads hi]; exact Or.inl ⟨rfl, rfl⟩
  | some a =>
    obtain ⟨t, ht, hs⟩ := forall₂_getElem? H.reads hi
    obtain ⟨P, hP⟩ := see_iff.1 hs
    have hk := (isRun_iff hP).2.2
    rw [ht]
    cases hP with
    | run HR =>
      refine Or.inl ⟨?_, rfl⟩
      rw [Option.filter_some, if_neg (fun hc => by simpa using hk.1 hc)]
    | dict hm HR =>
      refine Or.inl ⟨?_, rfl⟩
      rw [Option.filter_some, if_neg (fun hc => by simpa using hk.1 hc)]
    | row hr =>
      refine Or.inr ⟨a, _, ?_, rfl, rfl, hr⟩
      rw [Option.filter_some, hk.2 ⟨_, rfl⟩]; rfl

theorem pick_runs {h : Mem κ δ ℝ} {as : List Nat} {ts : List (Thing κ δ)} (H : Spec.Disjoint h as ts)
    (is : List Nat) :
    List.Forall₂ (fun a s => view h a = some s) (is.filterMap (held isRun (h, as)))
      (is.filterMap (Spec.runAt ts)) := by
  induction is with
  | nil => exact .nil
  | cons i t ih =>
    rcases pick_run H i with ⟨e1, e2⟩ | ⟨a, s, b, m, e1, e2, _, e3⟩
    · rw [List.filterMap_cons_none e1, List.filterMap_cons_none e2]; exact ih
    · rw [List.filterMap_cons_some e1, List.filterMap_cons_some e2]
      exact .cons (view_iff.2 ⟨b, m, e3⟩) ih

/-- creating a run next to the other things -/
theorem disjoint_makes {h : Mem κ δ ℝ} {as : List Nat} {ts : List (Thing κ δ)} (H : Spec.Disjoint h as ts)
    {r : Except Err Nat × Mem κ δ ℝ} {out : Except Err (Store κ δ ℝ)} (M : Makes h r out) :
    (Heap.keep as r).2 = (Spec.obtain' ts (out.map .run)).2 ∧
      Spec.Disjoint (Heap.keep as r).1.1 (Heap.keep as r).1.2 (Spec.obtain' ts (out.map .run)).1 := by
  obtain ⟨r1, h'⟩ := r
  obtain ⟨hE, M⟩ := M
  simp only at hE M
  obtain ⟨base, hnew⟩ := disjoint_keep H hE
  rcases M with ⟨a, s, rfl, rfl, b, m, e3, e4, e5⟩ | ⟨x, rfl, rfl⟩
  · exact ⟨rfl, hnew a _ _ (.run e3) (e3.foot_nodup e4) e5⟩
  · exact ⟨rfl, base⟩

theorem done_op {as : List Nat} {ts : List (Thing κ δ)} (r : Except Err Unit × Mem κ δ ℝ) (err : Option Err)
    (h1 : r.1 = (match err with | none => .ok () | some e => .error e)) (h2 : Spec.Disjoint r.2 as ts) :
    (Heap.done as r).2 = err ∧ Spec.Disjoint (Heap.done as r).1.1 (Heap.done as r).1.2 ts := by
  obtain ⟨r1, r2⟩ := r
  cases err with
  | none => simp only at h1; subst h1; exact ⟨rfl, h2⟩
  | some e => simp only at h1; subst h1; exact ⟨rfl, h2⟩

theorem C121_step (c : Act κ δ) (h : Mem κ δ ℝ) (as : List Nat) (ts : List (Thing κ δ))
    (H : Spec.Disjoint h as ts) :
    (Heap.act (h, as) c).2 = (Spec.act ts c).2 ∧
      Spec.Disjoint (Heap.act (h, as) c).1.1 (Heap.act (h, as) c).1.2 (Spec.act ts c).1 := by
  cases c with
  | empty => exact disjoint_makes H (newRun_makes h)
  | new S d => exact disjoint_makes H (ofDict_makes S d h)
  | fromDict S i =>
    simp only [Heap.act, Spec.act]
    rcases pick_dict H i with ⟨e1, e2⟩ | ⟨a, D, m, e1, e2, hi, e3, e4, e5⟩
    · rw [e1, e2]; exact ⟨rfl, H⟩
    · rw [e1, e2]; exact disjoint_makes H (fromDict_makes S e3 e4)
  | op S i o =>
    simp only [Heap.act, Spec.act]
    rcases pick_run H i with ⟨e1, e2⟩ | ⟨a, s, b, m, e1, e2, hi, e3⟩
    · rw [e1, e2]; exact ⟨rfl, H⟩
    · rw [e1, e2]
      have hn : (Dict.values m).Nodup := by
        have := H.once a (List.mem_of_getElem? hi)
        rw [(At.run e3).parts] at this
        simp only [foot, List.nodup_cons] at this
        exact this.2.2
      obtain ⟨q1, b', m', q2, q3, q4, q5⟩ := refines_op S e3 hn o
      have hd := disjoint_change H hi (.run e3) (.run q2) (q2.foot_nodup q3) q4 q5
      exact done_op _ _ q1 hd
  | normalize E norm i =>
    simp only [Heap.act, Spec.act]
    rcases pick_run H i with ⟨e1, e2⟩ | ⟨a, s, b, m, e1, e2, hi, e3⟩
    · rw [e1, e2]; exact ⟨rfl, H⟩
    · rw [e1, e2]
      exact disjoint_makes H (normalize_makes E norm (holds_of_view (view_iff.2 ⟨b, m, e3⟩)))
  | fuse E is norm method params =>
    exact disjoint_makes H (fuse_makes E norm method params
      (List.Forall₂.imp (fun _ _ hab => holds_of_view hab) (pick_runs H is)))
  | getItem i q =>
    simp only [Heap.act, Spec.act]
    rcases pick_run H i with ⟨e1, e2⟩ | ⟨a, s, b, m, e1, e2, hi, e3⟩
    · rw [e1, e2]; exact ⟨rfl, H⟩
    · rw [e1, e2]
      simp only [Spec.item]
      cases hq : s.data.get? q with
      | none => rw [getItem_none e3 hq]; exact ⟨rfl, H⟩
      | some r =>
        rw [getItem_ok e3 hq]
        exact ⟨rfl, (disjoint_keep H (Ext.app h [.results r])).2 _ _ _ (.row (look_new _ _ _)) (by simp)
          (by simp)⟩
  | toDict i =>
    simp only [Heap.act, Spec.act]
    rcases pick_run H i with ⟨e1, e2⟩ | ⟨a, s, b, m, e1, e2, hi, e3⟩
    · rw [e1, e2]; exact ⟨rfl, H⟩
    · rw [e1, e2]
      obtain ⟨h', mc, f1, f2, f3, f4, f5, f6⟩ := toDict_ok e3
      simp only
      rw [f1]
      refine ⟨rfl, (disjoint_keep H f6).2 _ _ _ (.dict f2 f3) ?_ ?_⟩
      · rw [List.nodup_cons]
        refine ⟨fun hc => ?_, f4⟩
        obtain ⟨r, hr⟩ := f3.values.mem hc
        rw [f2] at hr; cases hr
      · intro x hx
        rcases List.mem_cons.mp hx with rfl | hx
        · exact le_refl _
        · exact f5 x hx
  | writeItem i doc v =>
    simp only [Heap.act, Spec.act]
    rcases pick_row H i with ⟨e1, e2⟩ | ⟨a, r, e1, e2, hi, e3⟩
    · rw [e1, e2]; exact ⟨rfl, H⟩
    · rw [e1, e2]
      have h4 : (setItem a doc v : Prog κ δ ℝ Unit) h = (.ok (), h.set a (.results (r.set doc v))) := by
        simp only [setItem, e3]
      simp only
      rw [h4]
      refine ⟨rfl, disjoint_change H hi (.row e3) (.row ?_) (by simp) (fun x hx => Or.inl hx)
        (Changes.set _ _ (Or.inl (by simp)))⟩
      exact List.getElem?_set_self (look_lt e3)
  | lookDict i q =>
    simp only [Heap.act, Spec.act]
    rcases pick_dict H i with ⟨e1, e2⟩ | ⟨a, D, m, e1, e2, hi, e3, e4, e5⟩
    · rw [e1, e2]; exact ⟨rfl, H⟩
    · rw [e1, e2]
      obtain ⟨h', m', f1, f2, f3, f4, f5, f6⟩ := lookDict_ok e3 e4 e5 q
      have h2 : (readQueries a : Prog κ δ ℝ _) h = (.ok m, h) := by simp only [readQueries, e3]
      have h4 : (lookDict a q : Prog κ δ ℝ Unit) h = (.ok (), h') := by
        rw [lookDict, bind_ok h2, f1]
      simp only
      rw [h4]
      refine ⟨rfl, disjoint_change H hi (.dict e3 e4) (.dict f2 f3) ?_ ?_ (f6.mono (by simp))⟩
      · rw [List.nodup_cons]
        refine ⟨fun hc => ?_, f4⟩
        obtain ⟨r, hr⟩ := f3.values.mem hc
        rw [f2] at hr; cases hr
      · intro x hx
        rcases List.mem_cons.mp hx with rfl | hx
        · exact Or.inl List.mem_cons_self
        · exact (f5 x hx).imp (List.mem_cons_of_mem _) id
  | writeDict i q doc v =>
    simp only [Heap.act, Spec.act]
    rcases pick_dict H i with ⟨e1, e2⟩ | ⟨a, D, m, e1, e2, hi, e3, e4, e5⟩
    · rw [e1, e2]; exact ⟨rfl, H⟩
    · rw [e1, e2]
      obtain ⟨h', m', f1, f2, f3, f4, f5, f6⟩ := writeDict_ok e3 e4 e5 q doc v
      simp only
      rw [f1]
      refine ⟨rfl, disjoint_change H hi (.dict e3 e4) (.dict f2 f3) ?_ ?_ f6⟩
      · rw [List.nodup_cons]
        refine ⟨fun hc => ?_, f4⟩
        obtain ⟨r, hr⟩ := f3.values.mem hc
        rw [f2] at hr; cases hr
      · intro x hx
        rcases List.mem_cons.mp hx with rfl | hx
        · exact Or.inl List.mem_cons_self
        · exact (f5 x hx).imp (List.mem_cons_of_mem _) id

/-- C121: in every program that creates, changes, normalizes and fuses runs, takes `run[q]` and `to_dict()`
of them, writes to the dictionaries obtained and builds runs from them, every action has the outcome it has
when all these are plain values, everything held reads as its value, and no two of them share an object. -/
theorem C121_programs (cs : List (Act κ δ)) (h : Mem κ δ ℝ) (as : List Nat) (ts : List (Thing κ δ))
    (H : Spec.Disjoint h as ts) :
    (Heap.acts (h, as) cs).2 = (Spec.acts ts cs).2 ∧
      Spec.Disjoint (Heap.acts (h, as) cs).1.1 (Heap.acts (h, as) cs).1.2 (Spec.acts ts cs).1 := by
  induction cs generalizing h as ts with
  | nil => exact ⟨rfl, H⟩
  | cons c cs ih =>
    obtain ⟨e1, e2⟩ := C121_step c h as ts H
    obtain ⟨e3, e4⟩ := ih _ _ _ e2
    unfold Heap.acts Spec.acts
    simp only
    exact ⟨by rw [e1, e3], e4⟩

/-- C121 for programs starting from nothing -/
theorem C121_from_nothing (cs : List (Act κ δ)) :
    (Heap.acts (([] : Mem κ δ ℝ), []) cs).2 = (Spec.acts [] cs).2 ∧
      Spec.Disjoint (Heap.acts (([] : Mem κ δ ℝ), []) cs).1.1 (Heap.acts (([] : Mem κ δ ℝ), []) cs).1.2
        (Spec.acts [] cs).1 :=
  C121_programs cs [] [] [] ⟨.nil, by simp, by simp⟩

/-- does the action only use dictionaries? -/
def Spec.OnDicts : Act κ δ → Prop
  | .writeItem .. | .lookDict .. | .writeDict .. => True
  | _ => False

/-- does the action only use runs? -/
def Spec.OnRuns : Act κ δ → Prop
  | .op .. | .normalize .. | .fuse .. | .getItem .. | .toDict .. => True
  | _ => False

theorem acts_cons (w : List (Thing κ δ)) (c : Act κ δ) (cs : List (Act κ δ)) :
    (Spec.acts w (c :: cs)).1 = (Spec.acts (Spec.act w c).1 cs).1 := rfl

theorem obtain'_getElem? (w : List (Thing κ δ)) (r : Except Err (Thing κ δ)) {i : Nat} {t : Thing κ δ}
    (hi : w[i]? = some t) : (Spec.obtain' w r).1[i]? = some t := by
  cases r with
  | error e => exact hi
  | ok x =>
    have hl := (List.getElem?_eq_some_iff.1 hi).1
    show (w ++ [x])[i]? = some t
    rw [List.getElem?_append_left hl, hi]

theorem set_getElem?_other (w : List (Thing κ δ)) {i j : Nat} {t t' : Thing κ δ} (hij : j ≠ i)
    (hi : w[i]? = some t) : (w.set j t')[i]? = some t := by
  rw [List.getElem?_set_ne hij, hi]

/-- C121: whatever is written to dictionaries obtained from runs, each run is the one it was. -/
theorem C121_runs_unchanged (cs : List (Act κ δ)) (hcs : ∀ c ∈ cs, Spec.OnDicts c) (h : Mem κ δ ℝ)
    (as : List Nat) (ts : List (Thing κ δ)) (H : Spec.Disjoint h as ts) (a : Nat) (ha : a ∈ as)
    (s : Store κ δ ℝ) (hs : view h a = some s) : view (Heap.acts (h, as) cs).1.1 a = some s := by
  obtain ⟨i, hi⟩ := List.getElem?_of_mem ha
  obtain ⟨t, ht, hsee⟩ := forall₂_getElem? H.reads hi
  obtain ⟨P, hP⟩ := see_iff.1 hsee
  obtain ⟨b, m, hr⟩ := view_iff.1 hs
  obtain ⟨rfl, rfl⟩ := hP.unique (.run hr)
  obtain ⟨_, H'⟩ := C121_programs cs h as ts H
  -- addresses do not move
  have haddr : ∀ (cs : List (Act κ δ)) (w : Mem κ δ ℝ × List Nat), (∀ c ∈ cs, Spec.OnDicts c) →
      (Heap.acts w cs).1.2 = w.2 := by
    intro cs
    induction cs with
    | nil => intro w _; rfl
    | cons c cs ih =>
      intro w hcs
      have h1 : (Heap.act w c).1.2 = w.2 := by
        have hc := hcs c List.mem_cons_self
        cases c with
        | writeItem i doc v =>
          simp only [Heap.act]
          cases held isRow w i with
          | none => rfl
          | some x => simp only; obtain ⟨r, h'⟩ := setItem x doc v w.1; cases r <;> rfl
        | lookDict i q =>
          simp only [Heap.act]
          cases held isDict w i with
          | none => rfl
          | some x => simp only; obtain ⟨r, h'⟩ := lookDict x q w.1; cases r <;> rfl
        | writeDict i q doc v =>
          simp only [Heap.act]
          cases held isDict w i with
          | none => rfl
          | some x => simp only; obtain ⟨r, h'⟩ := writeDict x q doc v w.1; cases r <;> rfl
        | _ => exact absurd hc (by simp [Spec.OnDicts])
      have h2 := ih (Heap.act w c).1 (fun c hc => hcs c (List.mem_cons_of_mem _ hc))
      show (Heap.acts (Heap.act w c).1 cs).1.2 = w.2
      rw [h2, h1]
  -- values of runs do not change
  have hval : ∀ (cs : List (Act κ δ)) (w : List (Thing κ δ)), (∀ c ∈ cs, Spec.OnDicts c) →
      w[i]? = some (.run s) → (Spec.acts w cs).1[i]? = some (.run s) := by
    intro cs
    induction cs with
    | nil => intro w _ hw; exact hw
    | cons c cs ih =>
      intro w hcs hw
      rw [acts_cons]
      refine ih _ (fun c hc => hcs c (List.mem_cons_of_mem _ hc)) ?_
      have hc := hcs c List.mem_cons_self
      cases c with
      | writeItem j doc v =>
        simp only [Spec.act]
        cases hj : Spec.rowAt w j with
        | none => exact hw
        | some x =>
          refine set_getElem?_other w ?_ hw
          rintro rfl
          unfold Spec.rowAt at hj; rw [hw] at hj; cases hj
      | lookDict j q =>
        simp only [Spec.act]
        cases hj : Spec.dictAt w j with
        | none => exact hw
        | some x =>
          refine set_getElem?_other w ?_ hw
          rintro rfl
          unfold Spec.dictAt at hj; rw [hw] at hj; cases hj
      | writeDict j q doc v =>
        simp only [Spec.act]
        cases hj : Spec.dictAt w j with
        | none => exact hw
        | some x =>
          refine set_getElem?_other w ?_ hw
          rintro rfl
          unfold Spec.dictAt at hj; rw [hw] at hj; cases hj
      | _ => exact absurd hc (by simp [Spec.OnDicts])
  have h1 : (Heap.acts (h, as) cs).1.2[i]? = some a := by rw [haddr cs (h, as) hcs]; exact hi
  obtain ⟨t', ht', hsee'⟩ := forall₂_getElem? H'.reads h1
  rw [hval cs ts hcs ht] at ht'
  cases ht'
  obtain ⟨P', hP'⟩ := see_iff.1 hsee'
  cases hP' with
  | run HR => exact view_iff.2 ⟨_, _, HR⟩

/-- C121: whatever is done to the runs later, a dictionary obtained from one keeps the entries it had. -/
theorem C121_dicts_unchanged (cs : List (Act κ δ)) (hcs : ∀ c ∈ cs, Spec.OnRuns c) (h : Mem κ δ ℝ)
    (as : List Nat) (ts : List (Thing κ δ)) (H : Spec.Disjoint h as ts) (i : Nat) (t : Thing κ δ)
    (ht : ts[i]? = some t) (hrun : ∀ s, t ≠ .run s) :
    ∃ a, (Heap.acts (h, as) cs).1.2[i]? = some a ∧ see (Heap.acts (h, as) cs).1.1 a = some t := by
  obtain ⟨_, H'⟩ := C121_programs cs h as ts H
  have hval : ∀ (cs : List (Act κ δ)) (w : List (Thing κ δ)), (∀ c ∈ cs, Spec.OnRuns c) →
      w[i]? = some t → (Spec.acts w cs).1[i]? = some t := by
    intro cs
    induction cs with
    | nil => intro w _ hw; exact hw
    | cons c cs ih =>
      intro w hcs hw
      rw [acts_cons]
      refine ih _ (fun c hc => hcs c (List.mem_cons_of_mem _ hc)) ?_
      have hc := hcs c List.mem_cons_self
      cases c with
      | op S j o =>
        simp only [Spec.act]
        cases hj : Spec.runAt w j with
        | none => exact hw
        | some x =>
          refine set_getElem?_other w ?_ hw
          rintro rfl
          unfold Spec.runAt at hj
          rw [hw] at hj
          cases t with
          | run s => exact hrun s rfl
          | dict D => cases hj
          | row r => cases hj
      | normalize E norm j =>
        simp only [Spec.act]
        cases hj : Spec.runAt w j with
        | none => exact hw
        | some x => exact obtain'_getElem? w _ hw
      | fuse E is norm method params => exact obtain'_getElem? w _ hw
      | getItem j q =>
        simp only [Spec.act]
        cases hj : Spec.runAt w j with
        | none => exact hw
        | some x => exact obtain'_getElem? w _ hw
      | toDict j =>
        simp only [Spec.act]
        cases hj : Spec.runAt w j with
        | none => exact hw
        | some x => exact obtain'_getElem? w _ hw
      | _ => exact absurd hc (by simp [Spec.OnRuns])
  have h1 := hval cs ts hcs ht
  have hl := H'.reads.length_eq
  have hl' := (List.getElem?_eq_some_iff.1 h1).1
  have ha := List.getElem?_eq_getElem (l := (Heap.acts (h, as) cs).1.2) (i := i) (by omega)
  obtain ⟨t', ht', hsee'⟩ := forall₂_getElem? H'.reads ha
  rw [h1] at ht'
  cases ht'
  exact ⟨_, ha, hsee'⟩

/-- C121: `to_dict()` of a run with distinct queries is its content, query by query. -/
theorem C121_to_dict (D : Dict κ (Dict δ ℝ)) (hD : NodupKeys D) : Spec.asPython D = D := by
  have key : ∀ (t pre : Dict κ (Dict δ ℝ)), D = pre ++ t →
      (Dict.keys t).foldl (fun d q => d.set q ((D.get? q).getD [])) pre = D := by
    intro t
    induction t with
    | nil => intro pre h; simp [h, Dict.keys]
    | cons p t ih =>
      intro pre h
      have hm : p ∈ D := by rw [h]; simp
      have hg : D.get? p.1 = some p.2 := get?_of_mem hD hm
      rw [Dict.keys_cons, List.foldl_cons, hg]
      have hnot : p.1 ∉ Dict.keys pre := by
        intro hc
        unfold NodupKeys at hD
        rw [h, List.map_append, List.nodup_append] at hD
        exact hD.2.2 p.1 hc p.1 (by simp) rfl
      have : Dict.set pre p.1 ((some p.2).getD []) = pre ++ [p] := set_of_notMem p.2 hnot
      rw [this]
      exact ih (pre ++ [p]) (by rw [h]; simp)
  exact key D [] rfl

/-- C121: `get_query_ids()` lists every query of the run once and nothing else; `len(run)` and `run.size`
count them. -/
theorem C121_queries {β : Type} [LE β] [Neg β] (S : ArgSort β) (s : Store κ δ β) (hs : Reachable S s) :
    s.queryIds.Nodup ∧ (∀ q, q ∈ s.queryIds ↔ (Spec.content s q).isSome) ∧ s.size = s.queryIds.length := by
  refine ⟨hs.wf.1, fun q => ?_, ?_⟩
  · unfold Spec.content
    rw [Option.isSome_map]
    exact get?_isSome.symm
  · show s.data.length = (s.data.map Prod.fst).length
    rw [List.length_map]

/-! ### C122: references to the inside of a run -/

/-- C122: a write through `get_doc_ids_and_scores()` is a write to the run, behind the back of the flag
`sorted`. -/
theorem C122_live (h : Mem κ δ ℝ) (a : Nat) (s : Store κ δ ℝ) (hv : view h a = some s)
    (hone : (Spec.objects h a).Nodup) (hs : NodupKeys s.data) (i : Nat) (q : κ) (r : Dict δ ℝ)
    (hi : s.data[i]? = some (q, r)) (d : δ) (v : ℝ) :
    ∃ h', Heap.writeLive a i d v h = (.ok (), h') ∧
      view h' a = some ⟨s.data.set q (r.set d v), s.sorted⟩ ∧ Spec.objects h' a = Spec.objects h a := by
  obtain ⟨b, m, H⟩ := view_iff.1 hv
  have hn : (Dict.values m).Nodup := by
    rw [objects_eq H] at hone
    simp only [foot, List.nodup_cons] at hone
    exact hone.2.2
  obtain ⟨p, hp, hpq⟩ := forall₂_getElem? (l := s.data) (l' := m) (R := fun q p => p.1 = q.1 ∧
    h[p.2]? = some (.results q.2)) H.inner.flip hi
  obtain ⟨p1, x⟩ := p
  simp only at hpq
  obtain ⟨rfl, hx⟩ := hpq
  have hm : NodupKeys m := by
    have := H.inner.keys
    unfold NodupKeys at hs ⊢
    unfold Dict.keys at this
    rw [this]; exact hs
  have hg : m.get? p1 = some x := get?_of_mem hm (List.mem_of_getElem? hp)
  have hxs : (Dict.values m)[i]? = some x := by
    show (m.map Prod.snd)[i]? = some x
    rw [List.getElem?_map, hp]; rfl
  have h1 : (readRun a : Prog κ δ ℝ _) h = (.ok (b, s.sorted), h) := by simp only [readRun, H.obj]
  have h2 : (readQueries b : Prog κ δ ℝ _) h = (.ok m, h) := by simp only [readQueries, H.data]
  have h3 : (liveResults a : Prog κ δ ℝ _) h = (.ok (Dict.values m), h) := by
    rw [liveResults, bind_ok h1, bind_ok h2]; rfl
  have h4 : (setItem x d v : Prog κ δ ℝ Unit) h = (.ok (), h.set x (.results (r.set d v))) := by
    simp only [setItem, hx]
  have hne := H.ne
  have hxm := mem_values_of_get? hg
  have HR : RunAt (h.set x (.results (r.set d v))) a b m ⟨s.data.set p1 (r.set d v), s.sorted⟩ := by
    refine ⟨?_, ?_, RunAt.write H.inner hn hg _⟩
    · rw [List.getElem?_set_ne (by rintro rfl; exact hne.2.1 hxm), H.obj]
    · rw [List.getElem?_set_ne (by rintro rfl; exact hne.2.2 hxm), H.data]
  refine ⟨h.set x (.results (r.set d v)), ?_, view_iff.2 ⟨b, m, HR⟩, by rw [objects_eq HR, objects_eq H]⟩
  rw [writeLive, bind_ok h3, hxs]
  exact h4

/-- C122, the part that holds: after such a write, calling `sort()` (which nothing else does as long as the
flag says sorted) brings the run back in order with the value written. -/
theorem C122_sort_partial (S : ArgSort ℝ) (h : Mem κ δ ℝ) (a : Nat) (s : Store κ δ ℝ) (hv : view h a = some s)
    (hone : (Spec.objects h a).Nodup) (hs : NodupKeys s.data) (hin : ∀ p ∈ s.data, NodupKeys p.2) (i : Nat)
    (q : κ) (r : Dict δ ℝ) (hi : s.data[i]? = some (q, r)) (d : δ) (v : ℝ) :
    ∃ s', view (Heap.sort S a (Heap.writeLive a i d v h).2).2 a = some s' ∧
      Spec.content s' = Spec.writeOne (Spec.content s) q d v ∧ s'.sorted = true ∧
      ∀ p ∈ s'.data, Spec.Ranked p.2.values := by
  obtain ⟨h', e1, e2, e3⟩ := C122_live h a s hv hone hs i q r hi d v
  rw [e1]
  obtain ⟨b, m, H⟩ := view_iff.1 e2
  obtain ⟨_, b', m', e4, _⟩ := refines_sort S H
  have hget : s.data.get? q = some r := get?_of_mem hs (List.mem_of_getElem? hi)
  have hw0 : Store.Wf s.data := ⟨hs, hin⟩
  have hw : Store.Wf (s.data.set q (r.set d v)) :=
    Store.Wf.set hw0 q (NodupKeys.set (hin _ (List.mem_of_getElem? hi)) d v)
  refine ⟨_, view_iff.2 ⟨b', m', e4⟩, ?_, rfl, (Store.sortAll_ranked S hw).1⟩
  show Spec.content (Store.sort S ⟨s.data.set q (r.set d v), s.sorted⟩) = _
  refine (Store.cont_sortAll S hw).trans ?_
  funext q'
  unfold Spec.writeOne
  show (Dict.get? (s.data.set q (r.set d v)) q').map _ = _
  by_cases hq : q' = q
  · subst hq
    rw [if_pos rfl, get?_set_self, Option.map_some]
    congr 1
    funext d'
    by_cases hd : d' = d
    · subst hd; rw [if_pos rfl, get?_set_self]
    · rw [if_neg hd, get?_set_ne _ _ (Ne.symm hd)]
      unfold Spec.Content.read Spec.content
      rw [hget]; rfl
  · rw [if_neg hq, get?_set_ne _ _ (Ne.symm hq)]
    rfl

end

/-! Non-vacuity and refutations -/

theorem exParts (a : Nat) (ha : a ∈ [3, 7]) : parts exMem a = Spec.objects exMem a := by
  simp only [List.mem_cons, List.not_mem_nil, or_false] at ha
  rcases ha with rfl | rfl <;> rfl

theorem exMem_disjoint : Spec.Disjoint exMem [3, 7] [.run fuseStore1, .run fuseStore2] where
  reads := .cons rfl (.cons rfl .nil)
  once := by
    intro a ha
    rw [exParts a ha]
    exact exMem_separate.once a ha
  apart := by
    intro i j a a' hij hi hj
    rw [exParts a (List.mem_of_getElem? hi), exParts a' (List.mem_of_getElem? hj)]
    exact exMem_separate.apart i j a a' hij hi hj

/-- the program `d = run.to_dict(); d[1][10] = 9; row = run[2]; row[20] = 8`: the run still reads as before -/
example : view (Heap.acts (exMem, [3, 7]) [.toDict 0, .getItem 0 2]).1.1 3 = some fuseStore1 := rfl

example (S : ArgSort ℝ) : view (Heap.acts (exMem, [3, 7]) [.toDict 0, .getItem 0 2, .writeDict 2 1 10 9,
    .writeItem 3 20 8]).1.1 3 = some fuseStore1 := rfl

/-- reading a query that is not there: `run[q]` raises, but `d[q]` for `d = run.to_dict()` raises nothing and
adds the query to `d`; `Run(d)` would then have a query the original run does not have -/
example : Spec.acts [.run fuseStore1] [.toDict 0, .getItem 0 (7 : Nat), .lookDict 1 7]
    = ([.run fuseStore1, .dict [(1, [(10, 5), (11, 4)]), (2, [(20, 1)]), (7, [])]],
      [none, some .keyError, none]) := rfl

/-- C122 refuted: `run.get_doc_ids_and_scores()[0][11] = 9` leaves the run flagged sorted with document 11
(score 9) ranked below document 10 (score 5), and the next evaluation (`to_typed_list`) keeps that order. -/
theorem C122_refuted (S : ArgSort ℝ) :
    ∃ s, view (Heap.op S 3 .toTypedList (Heap.writeLive 3 0 11 9 exMem).2).2 3 = some s ∧
      s.data.get? 1 = some [(10, 5), (11, 9)] ∧ ¬ Spec.Ranked ([5, 9] : List ℝ) := by
  refine ⟨⟨[(1, [(10, 5), (11, 9)]), (2, [(20, 1)])], true⟩, rfl, rfl, ?_⟩
  unfold Spec.Ranked
  simp only [List.pairwise_cons, List.mem_singleton, forall_eq, not_and]
  norm_num

/-- the hypotheses of C122 on the example -/
example : ∃ h', Heap.writeLive 3 0 11 9 exMem = (.ok (), h') := by
  obtain ⟨h', h1, _⟩ := C122_live exMem 3 fuseStore1 rfl (exMem_separate.once 3 (by simp))
    (by unfold NodupKeys; decide) 0 1 [(10, 5), (11, 4)] rfl 11 9
  exact ⟨h', h1⟩

end Ranx
