import Verif.Model.Heap
import Verif.Lemmas.Store
import Verif.Lemmas.Fuse

/-! Lemmas on the memory model -/

set_option linter.unusedSectionVars false
set_option linter.unusedSimpArgs false

namespace Ranx.Heap
open Dict
open _root_.Ranx.Norm (Results)

variable {κ δ β : Type} {A B : Type}

theorem bind_apply (p : Prog κ δ β A) (f : A → Prog κ δ β B) (h : Mem κ δ β) :
    (p >>= f) h = match p h with
      | (.ok x, h') => f x h'
      | (.error e, h') => (.error e, h') := rfl

theorem bind_ok {p : Prog κ δ β A} {f : A → Prog κ δ β B} {h h' : Mem κ δ β} {x : A}
    (hp : p h = (.ok x, h')) : (p >>= f) h = f x h' := by rw [bind_apply, hp]

theorem bind_error {p : Prog κ δ β A} {f : A → Prog κ δ β B} {h h' : Mem κ δ β} {e : Err}
    (hp : p h = (.error e, h')) : (p >>= f) h = (.error e, h') := by rw [bind_apply, hp]

@[simp] theorem pure_apply (x : A) (h : Mem κ δ β) : (pure x : Prog κ δ β A) h = (.ok x, h) := rfl
@[simp] theorem fail_apply (e : Err) (h : Mem κ δ β) : (fail e : Prog κ δ β A) h = (.error e, h) := rfl
@[simp] theorem lift_apply (r : Except Err A) (h : Mem κ δ β) : (lift r : Prog κ δ β A) h = (r, h) := rfl
@[simp] theorem alloc_apply (o : Obj κ δ β) (h : Mem κ δ β) :
    (alloc o) h = (.ok h.length, h ++ [o]) := rfl
@[simp] theorem newResults_apply (h : Mem κ δ β) :
    (newResults : Prog κ δ β Nat) h = (.ok h.length, h ++ [.results []]) := rfl
@[simp] theorem setRun_apply (a b : Nat) (f : Bool) (h : Mem κ δ β) :
    (setRun a b f) h = (.ok (), h.set a (.run b f)) := rfl

/-! ### lookups -/

theorem look_app {h : Mem κ δ β} {a : Nat} {o : Obj κ δ β} (e : Mem κ δ β) (ha : h[a]? = some o) :
    (h ++ e)[a]? = some o := by
  have hl : a < h.length := by
    by_contra hc
    rw [List.getElem?_eq_none (by omega)] at ha
    cases ha
  rw [List.getElem?_append_left hl, ha]

theorem look_lt {h : Mem κ δ β} {a : Nat} {o : Obj κ δ β} (ha : h[a]? = some o) : a < h.length := by
  by_contra hc
  rw [List.getElem?_eq_none (by omega)] at ha
  cases ha

theorem look_new (h : Mem κ δ β) (o : Obj κ δ β) (e : Mem κ δ β) : (h ++ o :: e)[h.length]? = some o := by
  simp

theorem set_new (h : Mem κ δ β) (o o' : Obj κ δ β) (e : Mem κ δ β) :
    (h ++ o :: e).set h.length o' = h ++ o' :: e := by simp

/-! ### writing into a new dictionary -/

theorem storeAll_new [DecidableEq δ] (h e : Mem κ δ β) (l : List (δ × β)) :
    ∀ d : Dict δ β, storeAll h.length l (h ++ .results d :: e)
      = (.ok (), h ++ .results (l.foldl (fun d p => d.set p.1 p.2) d) :: e) := by
  induction l with
  | nil => intro d; rfl
  | cons p t ih =>
    intro d
    have h1 : (setItem h.length p.1 p.2 : Prog κ δ β Unit) (h ++ .results d :: e)
        = (.ok (), h ++ .results (d.set p.1 p.2) :: e) := by
      simp only [setItem, look_new, set_new]
    rw [storeAll, bind_ok h1, ih]
    rfl

theorem storeQueries_new [DecidableEq κ] (h e : Mem κ δ β) (l : List (κ × Nat)) :
    ∀ d : Dict κ Nat, storeQueries h.length l (h ++ .queries d :: e)
      = (.ok (), h ++ .queries (l.foldl (fun d p => d.set p.1 p.2) d) :: e) := by
  induction l with
  | nil => intro d; rfl
  | cons p t ih =>
    intro d
    have h1 : (setQuery h.length p.1 p.2 : Prog κ δ β Unit) (h ++ .queries d :: e)
        = (.ok (), h ++ .queries (d.set p.1 p.2) :: e) := by
      simp only [setQuery, look_new, set_new]
    rw [storeQueries, bind_ok h1, ih]
    rfl

/-- the results dictionaries at the addresses `as` are `rs` -/
def ResAt (h : Mem κ δ β) (as : List Nat) (rs : List (Dict δ β)) : Prop :=
  List.Forall₂ (fun a r => h[a]? = some (.results r)) as rs

theorem ResAt.app {h : Mem κ δ β} {as : List Nat} {rs : List (Dict δ β)} (e : Mem κ δ β)
    (H : ResAt h as rs) : ResAt (h ++ e) as rs :=
  List.Forall₂.imp (fun _ _ hab => look_app e hab) H

theorem ResAt.mem {h : Mem κ δ β} {as : List Nat} {rs : List (Dict δ β)} (H : ResAt h as rs) {x : Nat}
    (hx : x ∈ as) : ∃ r, h[x]? = some (.results r) := by
  unfold ResAt at H
  induction H with
  | nil => cases hx
  | @cons p q m D hpq _ ih =>
    rcases List.mem_cons.mp hx with rfl | hx
    · exact ⟨_, hpq⟩
    · exact ih hx

theorem readAll_eq {h : Mem κ δ β} {as : List Nat} {rs : List (Dict δ β)} (H : ResAt h as rs) :
    readAll as h = (.ok rs, h) := by
  unfold ResAt at H
  induction H with
  | nil => rfl
  | @cons a r as rs ha _ ih =>
    have h1 : (readResults a : Prog κ δ β (Dict δ β)) h = (.ok r, h) := by simp only [readResults, ha]
    rw [readAll, bind_ok h1, bind_ok ih]
    rfl

theorem kernel_ok [DecidableEq δ] {f : List (Dict δ β) → Except Err (Dict δ β)} {h : Mem κ δ β}
    {as : List Nat} {rs : List (Dict δ β)} {d : Dict δ β} (H : ResAt h as rs) (hf : f rs = .ok d)
    (hd : NodupKeys d) : kernel f as h = (.ok h.length, h ++ [.results d]) := by
  rw [kernel, bind_ok (newResults_apply h), bind_ok (readAll_eq (H.app _)), hf,
    bind_ok (lift_apply _ _), bind_ok (storeAll_new h [] d [])]
  have := ofList_of_nodup hd
  unfold ofList at this
  rw [this]
  rfl

theorem kernel_error [DecidableEq δ] {f : List (Dict δ β) → Except Err (Dict δ β)} {h : Mem κ δ β}
    {as : List Nat} {rs : List (Dict δ β)} {e : Err} (H : ResAt h as rs) (hf : f rs = .error e) :
    kernel f as h = (.error e, h ++ [.results []]) := by
  rw [kernel, bind_ok (newResults_apply h), bind_ok (readAll_eq (H.app _)), hf,
    bind_error (lift_apply _ _)]

/-! ### contents of a dictionary of queries -/

/-- the dictionary of references `m` stands for the content `D` -/
def QRep (h : Mem κ δ β) (m : Dict κ Nat) (D : Dict κ (Dict δ β)) : Prop :=
  List.Forall₂ (fun p q => p.1 = q.1 ∧ h[p.2]? = some (.results q.2)) m D

theorem QRep.app {h : Mem κ δ β} {m : Dict κ Nat} {D : Dict κ (Dict δ β)} (e : Mem κ δ β)
    (H : QRep h m D) : QRep (h ++ e) m D :=
  List.Forall₂.imp (fun _ _ hab => ⟨hab.1, look_app e hab.2⟩) H

theorem QRep.congr {h h' : Mem κ δ β} {m : Dict κ Nat} {D : Dict κ (Dict δ β)} (H : QRep h m D)
    (hh : ∀ x ∈ m.values, h'[x]? = h[x]?) : QRep h' m D := by
  unfold QRep at H ⊢
  induction H with
  | nil => exact .nil
  | @cons p q m D hpq _ ih =>
    refine .cons ⟨hpq.1, ?_⟩ (ih fun x hx => hh x (List.mem_cons_of_mem _ hx))
    rw [hh p.2 List.mem_cons_self, hpq.2]

theorem QRep.keys {h : Mem κ δ β} {m : Dict κ Nat} {D : Dict κ (Dict δ β)} (H : QRep h m D) :
    Dict.keys m = Dict.keys D := by
  unfold QRep at H
  induction H with
  | nil => rfl
  | @cons p q m D hpq _ ih => simp [Dict.keys_cons, hpq.1, ih]

theorem QRep.length {h : Mem κ δ β} {m : Dict κ Nat} {D : Dict κ (Dict δ β)} (H : QRep h m D) :
    m.length = D.length := List.Forall₂.length_eq H

theorem QRep.values {h : Mem κ δ β} {m : Dict κ Nat} {D : Dict κ (Dict δ β)} (H : QRep h m D) :
    ResAt h (Dict.values m) (Dict.values D) := by
  unfold QRep at H
  induction H with
  | nil => exact .nil
  | @cons p q m D hpq _ ih => exact .cons hpq.2 ih

theorem qrep_zip {h : Mem κ δ β} {as : List Nat} {rs : List (Dict δ β)} (H : ResAt h as rs) :
    ∀ qs : List κ, QRep h (qs.zip as) (qs.zip rs) := by
  unfold ResAt at H
  induction H with
  | nil => intro qs; cases qs <;> exact .nil
  | @cons a r as rs ha _ ih =>
    intro qs
    cases qs with
    | nil => exact .nil
    | cons q qs => exact .cons ⟨rfl, ha⟩ (ih qs)

theorem QRep.get? [DecidableEq κ] {h : Mem κ δ β} {m : Dict κ Nat} {D : Dict κ (Dict δ β)}
    (H : QRep h m D) (q : κ) :
    (m.get? q = none ∧ D.get? q = none) ∨
      ∃ a r, m.get? q = some a ∧ D.get? q = some r ∧ h[a]? = some (.results r) := by
  unfold QRep at H
  induction H with
  | nil => exact Or.inl ⟨rfl, rfl⟩
  | @cons p p' m D hpq _ ih =>
    rw [get?_cons, get?_cons, ← hpq.1]
    by_cases hq : p.1 = q
    · rw [if_pos hq, if_pos hq]
      exact Or.inr ⟨_, _, rfl, rfl, hpq.2⟩
    · rw [if_neg hq, if_neg hq]
      exact ih

theorem QRep.contains [DecidableEq κ] {h : Mem κ δ β} {m : Dict κ Nat} {D : Dict κ (Dict δ β)}
    (H : QRep h m D) (q : κ) : m.contains q = D.contains q := by
  unfold Dict.contains
  rcases H.get? q with ⟨h1, h2⟩ | ⟨a, r, h1, h2, _⟩ <;> rw [h1, h2] <;> rfl

theorem QRep.set [DecidableEq κ] {h : Mem κ δ β} {m : Dict κ Nat} {D : Dict κ (Dict δ β)}
    (H : QRep h m D) (q : κ) {a : Nat} {r : Dict δ β} (ha : h[a]? = some (.results r)) :
    QRep h (m.set q a) (D.set q r) := by
  unfold QRep at H ⊢
  induction H with
  | nil => exact .cons ⟨rfl, ha⟩ .nil
  | @cons p p' m D hpq ht ih =>
    obtain ⟨p1, p2⟩ := p
    obtain ⟨q1, q2⟩ := p'
    obtain ⟨h1, h2⟩ := hpq
    simp only at h1
    subst h1
    by_cases hq : p1 = q
    · simp only [Dict.set, if_pos hq]
      exact .cons ⟨rfl, ha⟩ ht
    · simp only [Dict.set, if_neg hq]
      exact .cons ⟨rfl, h2⟩ ih

theorem QRep.del [DecidableEq κ] {h : Mem κ δ β} {m : Dict κ Nat} {D : Dict κ (Dict δ β)}
    (H : QRep h m D) (q : κ) : QRep h (m.del q) (D.del q) := by
  unfold QRep at H ⊢
  induction H with
  | nil => exact .nil
  | @cons p p' m D hpq ht ih =>
    obtain ⟨p1, p2⟩ := p
    obtain ⟨q1, q2⟩ := p'
    obtain ⟨h1, h2⟩ := hpq
    simp only at h1
    subst h1
    by_cases hq : p1 = q
    · simp only [Dict.del, if_pos hq]
      exact ht
    · simp only [Dict.del, if_neg hq]
      exact .cons ⟨rfl, h2⟩ ih

theorem qrep_foldl [DecidableEq κ] {h : Mem κ δ β} {l : List (κ × Nat)} {L : List (κ × Dict δ β)}
    (H : QRep h l L) : ∀ {m : Dict κ Nat} {D : Dict κ (Dict δ β)}, QRep h m D →
      QRep h (l.foldl (fun d p => d.set p.1 p.2) m) (L.foldl (fun d p => d.set p.1 p.2) D) := by
  unfold QRep at H
  induction H with
  | nil => intro m D hm; exact hm
  | @cons p q l L hpq _ ih =>
    intro m D hm
    have := hm.set p.1 hpq.2
    rw [hpq.1] at this
    simp only [List.foldl_cons, hpq.1]
    exact ih this

theorem qrep_ofList [DecidableEq κ] {h : Mem κ δ β} {l : List (κ × Nat)} {L : List (κ × Dict δ β)}
    (H : QRep h l L) : QRep h (ofList l) (ofList L) := qrep_foldl H .nil

/-! ### which addresses a dictionary of queries refers to -/

theorem mem_values_set [DecidableEq κ] {ν : Type*} {m : Dict κ ν} {q : κ} {a x : ν}
    (hx : x ∈ Dict.values (m.set q a)) : x = a ∨ x ∈ Dict.values m := by
  induction m with
  | nil => simp [Dict.set] at hx; exact Or.inl hx
  | cons p t ih =>
    obtain ⟨p1, p2⟩ := p
    by_cases hq : p1 = q
    · simp only [Dict.set, if_pos hq, Dict.values_cons, List.mem_cons] at hx ⊢
      tauto
    · simp only [Dict.set, if_neg hq, Dict.values_cons, List.mem_cons] at hx ⊢
      rcases hx with hx | hx
      · tauto
      · rcases ih hx with h | h <;> tauto

theorem nodup_values_set [DecidableEq κ] {ν : Type*} {m : Dict κ ν} {q : κ} {a : ν}
    (hm : (Dict.values m).Nodup) (ha : a ∉ Dict.values m) : (Dict.values (m.set q a)).Nodup := by
  induction m with
  | nil => simp [Dict.set]
  | cons p t ih =>
    obtain ⟨p1, p2⟩ := p
    simp only [Dict.values_cons, List.nodup_cons, List.mem_cons, not_or] at hm ha
    by_cases hq : p1 = q
    · simp only [Dict.set, if_pos hq, Dict.values_cons, List.nodup_cons]
      exact ⟨ha.2, hm.2⟩
    · simp only [Dict.set, if_neg hq, Dict.values_cons, List.nodup_cons]
      refine ⟨fun hx => ?_, ih hm.2 ha.2⟩
      rcases mem_values_set hx with h | h
      · exact ha.1 h.symm
      · exact hm.1 h

theorem mem_values_foldl [DecidableEq κ] {ν : Type*} (l : List (κ × ν)) :
    ∀ {m : Dict κ ν} {x : ν}, x ∈ Dict.values (l.foldl (fun d p => d.set p.1 p.2) m) →
      x ∈ Dict.values l ∨ x ∈ Dict.values m := by
  induction l with
  | nil => intro m x hx; exact Or.inr hx
  | cons p t ih =>
    intro m x hx
    rcases ih hx with h | h
    · exact Or.inl (List.mem_cons_of_mem _ h)
    · rcases mem_values_set h with h | h
      · exact Or.inl (by simp [h])
      · exact Or.inr h

theorem nodup_values_foldl [DecidableEq κ] {ν : Type*} (l : List (κ × ν)) :
    ∀ {m : Dict κ ν}, (Dict.values m).Nodup → (Dict.values l).Nodup →
      (∀ x ∈ Dict.values l, x ∉ Dict.values m) →
      (Dict.values (l.foldl (fun d p => d.set p.1 p.2) m)).Nodup := by
  induction l with
  | nil => intro m hm _ _; exact hm
  | cons p t ih =>
    intro m hm hl hd
    simp only [Dict.values_cons, List.nodup_cons] at hl
    refine ih (nodup_values_set hm (hd _ List.mem_cons_self)) hl.2 fun x hx hc => ?_
    rcases mem_values_set hc with h | h
    · exact hl.1 (h ▸ hx)
    · exact hd x (List.mem_cons_of_mem _ hx) h

theorem values_del_sublist [DecidableEq κ] {ν : Type*} (m : Dict κ ν) (q : κ) :
    (Dict.values (m.del q)).Sublist (Dict.values m) := by
  induction m with
  | nil => exact List.Sublist.refl _
  | cons p t ih =>
    obtain ⟨p1, p2⟩ := p
    by_cases hq : p1 = q
    · simp only [Dict.del, if_pos hq, Dict.values_cons]
      exact List.sublist_cons_self _ _
    · simp only [Dict.del, if_neg hq, Dict.values_cons]
      exact ih.cons₂ _

theorem values_zip_sublist {ν : Type*} : ∀ (qs : List κ) (as : List ν),
    (Dict.values (qs.zip as)).Sublist as
  | [], as => by simp
  | _ :: _, [] => by simp
  | q :: qs, a :: as => by
    simp only [List.zip_cons_cons, Dict.values_cons]
    exact (values_zip_sublist qs as).cons₂ _

/-! ### runs in memory -/

/-- the run object at `a` holds the content and the flag of `s`: its dictionary of queries is at `b` and
refers to the results as `m` says -/
structure RunAt (h : Mem κ δ β) (a b : Nat) (m : Dict κ Nat) (s : Store κ δ β) : Prop where
  obj : h[a]? = some (.run b s.sorted)
  data : h[b]? = some (.queries m)
  inner : QRep h m s.data

theorem RunAt.app {h : Mem κ δ β} {a b : Nat} {m : Dict κ Nat} {s : Store κ δ β} (e : Mem κ δ β)
    (H : RunAt h a b m s) : RunAt (h ++ e) a b m s :=
  ⟨look_app e H.obj, look_app e H.data, H.inner.app e⟩

/-- the addresses of the objects making up a run -/
def foot (a b : Nat) (m : Dict κ Nat) : List Nat := a :: b :: Dict.values m

theorem RunAt.congr {h h' : Mem κ δ β} {a b : Nat} {m : Dict κ Nat} {s : Store κ δ β}
    (H : RunAt h a b m s) (hh : ∀ x ∈ foot a b m, h'[x]? = h[x]?) : RunAt h' a b m s where
  obj := by rw [hh a (by simp [foot])]; exact H.obj
  data := by rw [hh b (by simp [foot])]; exact H.data
  inner := H.inner.congr fun x hx => hh x (by simp [foot, hx])

theorem QRep.lt {h : Mem κ δ β} {m : Dict κ Nat} {D : Dict κ (Dict δ β)} (H : QRep h m D) :
    ∀ x ∈ Dict.values m, x < h.length := by
  unfold QRep at H
  induction H with
  | nil => intro x hx; cases hx
  | @cons p q m D hpq _ ih =>
    intro x hx
    rcases List.mem_cons.mp hx with rfl | hx
    · exact look_lt hpq.2
    · exact ih x hx

theorem RunAt.lt {h : Mem κ δ β} {a b : Nat} {m : Dict κ Nat} {s : Store κ δ β} (H : RunAt h a b m s) :
    ∀ x ∈ foot a b m, x < h.length := by
  intro x hx
  simp only [foot, List.mem_cons] at hx
  rcases hx with rfl | rfl | hx
  · exact look_lt H.obj
  · exact look_lt H.data
  · exact H.inner.lt x hx

theorem RunAt.ne {h : Mem κ δ β} {a b : Nat} {m : Dict κ Nat} {s : Store κ δ β} (H : RunAt h a b m s) :
    a ≠ b ∧ a ∉ Dict.values m ∧ b ∉ Dict.values m := by
  have key : ∀ x ∈ Dict.values m, ∃ r, h[x]? = some (.results r) := fun x hx => H.inner.values.mem hx
  refine ⟨fun hc => ?_, fun hc => ?_, fun hc => ?_⟩
  · have h1 := H.obj; rw [hc, H.data] at h1; cases h1
  · obtain ⟨r, hr⟩ := key a hc; rw [H.obj] at hr; cases hr
  · obtain ⟨r, hr⟩ := key b hc; rw [H.data] at hr; cases hr

theorem RunAt.foot_nodup {h : Mem κ δ β} {a b : Nat} {m : Dict κ Nat} {s : Store κ δ β}
    (H : RunAt h a b m s) (hm : (Dict.values m).Nodup) : (foot a b m).Nodup := by
  have := H.ne
  simp only [foot, List.nodup_cons, List.mem_cons, not_or]
  exact ⟨⟨this.1, this.2.1⟩, this.2.2, hm⟩

end Ranx.Heap
