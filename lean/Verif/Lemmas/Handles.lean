import Verif.Spec.Handles
import Verif.Props.Heap

/-! Lemmas on runs and dictionaries held by a user -/

set_option linter.unusedSectionVars false

namespace Ranx.Heap
open Dict
open _root_.Ranx.Spec (Thing see parts)
variable {κ δ : Type}

/-- the thing at address `a` and the objects it is made of -/
inductive At (h : Mem κ δ ℝ) (a : Nat) : Thing κ δ → List Nat → Prop
  | run {b : Nat} {m : Dict κ Nat} {s : Store κ δ ℝ} (H : RunAt h a b m s) : At h a (.run s) (foot a b m)
  | dict {m : Dict κ Nat} {D : Dict κ (Dict δ ℝ)} (hm : h[a]? = some (.queries m)) (H : QRep h m D) :
      At h a (.dict D) (a :: Dict.values m)
  | row {r : Dict δ ℝ} (hr : h[a]? = some (.results r)) : At h a (.row r) [a]

theorem see_iff {h : Mem κ δ ℝ} {a : Nat} {t : Thing κ δ} : see h a = some t ↔ ∃ P, At h a t P := by
  constructor
  · intro hs
    unfold Spec.see at hs
    cases ha : h[a]? with
    | none => rw [ha] at hs; cases hs
    | some o =>
      rw [ha] at hs
      cases o with
      | results r => cases hs; exact ⟨_, .row ha⟩
      | queries m =>
        simp only at hs
        cases hd : Spec.deref h m with
        | none => rw [hd] at hs; cases hs
        | some D =>
          rw [hd] at hs; cases hs
          exact ⟨_, .dict ha (deref_iff.1 hd)⟩
      | run b f =>
        simp only at hs
        cases hd : Spec.view h a with
        | none => rw [hd] at hs; cases hs
        | some s =>
          rw [hd] at hs; cases hs
          obtain ⟨b, m, H⟩ := view_iff.1 hd
          exact ⟨_, .run H⟩
  · rintro ⟨P, H⟩
    unfold Spec.see
    cases H with
    | run H => rw [H.obj]; simp only; rw [view_iff.2 ⟨_, _, H⟩]; rfl
    | dict hm H => rw [hm]; simp only; rw [deref_iff.2 H]; rfl
    | row hr => rw [hr]

theorem At.parts {h : Mem κ δ ℝ} {a : Nat} {t : Thing κ δ} {P : List Nat} (H : At h a t P) :
    Spec.parts h a = P := by
  unfold Spec.parts
  cases H with
  | run H => rw [H.obj]; exact objects_eq H
  | dict hm H => rw [hm]; rfl
  | row hr => rw [hr]

theorem At.lt {h : Mem κ δ ℝ} {a : Nat} {t : Thing κ δ} {P : List Nat} (H : At h a t P) :
    ∀ x ∈ P, x < h.length := by
  cases H with
  | run H => exact H.lt
  | dict hm H =>
    intro x hx
    rcases List.mem_cons.mp hx with rfl | hx
    · exact look_lt hm
    · exact H.lt x hx
  | row hr =>
    intro x hx
    rw [List.mem_singleton] at hx
    subst hx
    exact look_lt hr

theorem At.congr {h h' : Mem κ δ ℝ} {a : Nat} {t : Thing κ δ} {P : List Nat} (H : At h a t P)
    (hh : ∀ x ∈ P, h'[x]? = h[x]?) : At h' a t P := by
  cases H with
  | run H => exact .run (H.congr hh)
  | dict hm H =>
    refine .dict ?_ (H.congr fun x hx => hh x (List.mem_cons_of_mem _ hx))
    rw [hh a List.mem_cons_self, hm]
  | row hr => exact .row (by rw [hh a (by simp), hr])

theorem At.ext {h h' : Mem κ δ ℝ} (E : Ext h h') {a : Nat} {t : Thing κ δ} {P : List Nat} (H : At h a t P) :
    At h' a t P :=
  H.congr fun x hx => E.2 x (H.lt x hx) (by simp)

theorem At.unique {h : Mem κ δ ℝ} {a : Nat} {t t' : Thing κ δ} {P P' : List Nat} (H : At h a t P)
    (H' : At h a t' P') : t = t' ∧ P = P' := by
  have h1 := see_iff.2 ⟨_, H⟩
  have h2 := see_iff.2 ⟨_, H'⟩
  rw [h1] at h2
  exact ⟨by cases h2; rfl, by rw [← H.parts, ← H'.parts]⟩

/-- obtaining something made of new objects -/
theorem disjoint_keep {h h' : Mem κ δ ℝ} {as : List Nat} {ts : List (Thing κ δ)} (H : Spec.Disjoint h as ts)
    (hE : Ext h h') : Spec.Disjoint h' as ts ∧
      ∀ a t P, At h' a t P → P.Nodup → (∀ x ∈ P, h.length ≤ x) → Spec.Disjoint h' (as ++ [a]) (ts ++ [t]) := by
  have hold : ∀ a ∈ as, ∃ t P, At h a t P := by
    intro a ha
    obtain ⟨i, hi⟩ := List.getElem?_of_mem ha
    obtain ⟨s, _, hs⟩ := forall₂_getElem? H.reads hi
    obtain ⟨P, hP⟩ := see_iff.1 hs
    exact ⟨s, P, hP⟩
  have hobj : ∀ a ∈ as, parts h' a = parts h a := by
    intro a ha
    obtain ⟨t, P, hP⟩ := hold a ha
    rw [hP.parts, (hP.ext hE).parts]
  have hlt : ∀ a ∈ as, ∀ x ∈ parts h' a, x < h.length := by
    intro a ha
    obtain ⟨t, P, hP⟩ := hold a ha
    rw [hobj a ha, hP.parts]
    exact hP.lt
  have base : Spec.Disjoint h' as ts := by
    refine ⟨List.Forall₂.imp (fun a t hab => ?_) H.reads, ?_, ?_⟩
    · obtain ⟨P, hP⟩ := see_iff.1 hab
      exact see_iff.2 ⟨P, hP.ext hE⟩
    · intro a ha
      rw [hobj a ha]
      exact H.once a ha
    · intro i j a a' hij hi hj
      rw [hobj a (List.mem_of_getElem? hi), hobj a' (List.mem_of_getElem? hj)]
      exact H.apart i j a a' hij hi hj
  refine ⟨base, ?_⟩
  intro a t P hP hn hnew
  refine ⟨?_, ?_, ?_⟩
  · exact List.rel_append base.reads (.cons (see_iff.2 ⟨P, hP⟩) .nil)
  · intro a' ha'
    rw [List.mem_append, List.mem_singleton] at ha'
    rcases ha' with ha' | rfl
    · exact base.once a' ha'
    · rw [hP.parts]; exact hn
  · intro i j a1 a2 hij hi hj
    by_cases h1 : i < as.length
    · rw [List.getElem?_append_left h1] at hi
      by_cases h2 : j < as.length
      · rw [List.getElem?_append_left h2] at hj
        exact base.apart i j a1 a2 hij hi hj
      · rw [List.getElem?_append_right (by omega)] at hj
        have hj' := List.mem_of_getElem? hj
        rw [List.mem_singleton] at hj'
        subst hj'
        intro x hx hx'
        rw [hP.parts] at hx'
        have := hlt a1 (List.mem_of_getElem? hi) x hx
        have := hnew x hx'
        omega
    · rw [List.getElem?_append_right (by omega)] at hi
      have hi' := List.mem_of_getElem? hi
      rw [List.mem_singleton] at hi'
      subst hi'
      by_cases h2 : j < as.length
      · rw [List.getElem?_append_left h2] at hj
        intro x hx hx'
        rw [hP.parts] at hx
        have := hlt a2 (List.mem_of_getElem? hj) x hx'
        have := hnew x hx
        omega
      · exfalso
        rw [List.getElem?_append_right (by omega)] at hj
        have h3 := (List.getElem?_eq_some_iff.1 hi).1
        have h4 := (List.getElem?_eq_some_iff.1 hj).1
        simp at h3 h4
        omega

/-- changing something held, within its own objects and new ones -/
theorem disjoint_change {h h' : Mem κ δ ℝ} {as : List Nat} {ts : List (Thing κ δ)} (H : Spec.Disjoint h as ts)
    {i a : Nat} (hi : as[i]? = some a) {t t' : Thing κ δ} {P P' : List Nat} (hP : At h a t P)
    (hP' : At h' a t' P') (hn : P'.Nodup) (hsub : ∀ x ∈ P', x ∈ P ∨ h.length ≤ x) (hc : Changes P h h') :
    Spec.Disjoint h' as (ts.set i t') := by
  have hsame : ∀ j a', i ≠ j → as[j]? = some a' → ∃ u, ts[j]? = some u ∧ see h' a' = some u ∧
      parts h' a' = parts h a' ∧ ∀ x ∈ parts h a', x < h.length := by
    intro j a' hij hj
    obtain ⟨u, hu, hvu⟩ := forall₂_getElem? H.reads hj
    obtain ⟨Q, hQ⟩ := see_iff.1 hvu
    have hcon : At h' a' u Q := hQ.congr fun x hx => hc.2 x (hQ.lt x hx) (by
      intro hx'
      rw [← hP.parts] at hx'
      rw [← hQ.parts] at hx
      exact H.apart i j a a' hij hi hj x hx' hx)
    exact ⟨u, hu, see_iff.2 ⟨Q, hcon⟩, by rw [hcon.parts, hQ.parts], by rw [hQ.parts]; exact hQ.lt⟩
  have hobj : ∀ x ∈ parts h' a, x ∈ parts h a ∨ h.length ≤ x := by
    rw [hP'.parts, hP.parts]; exact hsub
  refine ⟨?_, ?_, ?_⟩
  · rw [List.forall₂_iff_get]
    refine ⟨by rw [List.length_set]; exact H.reads.length_eq, ?_⟩
    intro j h1 h2
    simp only [List.get_eq_getElem]
    have hj : as[j]? = some as[j] := List.getElem?_eq_getElem h1
    rw [List.getElem_set]
    by_cases hij : i = j
    · subst hij
      rw [if_pos rfl]
      rw [hi] at hj
      cases hj
      exact see_iff.2 ⟨_, hP'⟩
    · rw [if_neg hij]
      obtain ⟨u, hu, hvu, _⟩ := hsame j _ hij hj
      rw [List.getElem?_eq_some_iff] at hu
      obtain ⟨_, hu⟩ := hu
      rw [hu]; exact hvu
  · intro a' ha'
    obtain ⟨j, hj⟩ := List.getElem?_of_mem ha'
    by_cases hij : i = j
    · subst hij
      rw [hi] at hj
      cases hj
      rw [hP'.parts]
      exact hn
    · obtain ⟨u, _, _, ho, _⟩ := hsame j _ hij hj
      rw [ho]
      exact H.once a' ha'
  · intro i1 j1 a1 a2 hij h1 h2 x hx hx'
    by_cases c1 : i = i1
    · subst c1
      rw [hi] at h1
      cases h1
      obtain ⟨u, hu, _, ho, hl⟩ := hsame j1 a2 hij h2
      rw [ho] at hx'
      rcases hobj x hx with hx | hx
      · exact H.apart i j1 a a2 hij hi h2 x hx hx'
      · have := hl x hx'
        omega
    · obtain ⟨u, hu, _, ho, hl⟩ := hsame i1 a1 c1 h1
      rw [ho] at hx
      by_cases c2 : i = j1
      · subst c2
        rw [hi] at h2
        cases h2
        rcases hobj x hx' with hx' | hx'
        · exact H.apart i1 i a1 a hij h1 hi x hx hx'
        · have := hl x hx
          omega
      · obtain ⟨u2, _, _, ho2, _⟩ := hsame j1 a2 c2 h2
        rw [ho2] at hx'
        exact H.apart i1 j1 a1 a2 hij h1 h2 x hx hx'

section
variable [LinearOrder κ] [DecidableEq δ]

theorem set_set_same {ν : Type*} (D : Dict κ ν) (q : κ) (x y : ν) : (D.set q x).set q y = D.set q y := by
  induction D with
  | nil => simp [Dict.set]
  | cons p t ih =>
    obtain ⟨k, w⟩ := p
    by_cases hk : k = q
    · simp [Dict.set, hk]
    · simp [Dict.set, hk, ih]

theorem getItem_ok {h : Mem κ δ ℝ} {a b : Nat} {m : Dict κ Nat} {s : Store κ δ ℝ} (H : RunAt h a b m s)
    {q : κ} {r : Dict δ ℝ} (hq : s.data.get? q = some r) :
    getItem a q h = (.ok h.length, h ++ [.results r]) := by
  have h1 : (readRun a : Prog κ δ ℝ _) h = (.ok (b, s.sorted), h) := by simp only [readRun, H.obj]
  have h2 : (readQueries b : Prog κ δ ℝ _) h = (.ok m, h) := by simp only [readQueries, H.data]
  rw [getItem, bind_ok h1, bind_ok h2]
  rcases H.inner.get? q with ⟨_, e2⟩ | ⟨x, r', e1, e2, e3⟩
  · rw [hq] at e2; cases e2
  · rw [hq] at e2; cases e2
    rw [e1]
    have h3 : (readResults x : Prog κ δ ℝ _) h = (.ok r, h) := by simp only [readResults, e3]
    simp only [copyResults]
    rw [bind_ok h3, alloc_apply]

theorem getItem_none {h : Mem κ δ ℝ} {a b : Nat} {m : Dict κ Nat} {s : Store κ δ ℝ} (H : RunAt h a b m s)
    {q : κ} (hq : s.data.get? q = none) : getItem a q h = (.error .keyError, h) := by
  have h1 : (readRun a : Prog κ δ ℝ _) h = (.ok (b, s.sorted), h) := by simp only [readRun, H.obj]
  have h2 : (readQueries b : Prog κ δ ℝ _) h = (.ok m, h) := by simp only [readQueries, H.data]
  rw [getItem, bind_ok h1, bind_ok h2]
  rcases H.inner.get? q with ⟨e1, _⟩ | ⟨x, r', e1, e2, e3⟩
  · rw [e1]; rfl
  · rw [hq] at e2; cases e2

/-- the loop of `to_dict` -/
theorem copyLoop_ok {h0 : Mem κ δ ℝ} {a b : Nat} {m : Dict κ Nat} {s : Store κ δ ℝ} (H : RunAt h0 a b m s)
    (qs : List κ) : ∀ (h : Mem κ δ ℝ) (c : Nat) (mc : Dict κ Nat) (Dc : Dict κ (Dict δ ℝ)),
      (∀ q ∈ qs, q ∈ Dict.keys s.data) → RunAt h a b m s → h[c]? = some (.queries mc) → QRep h mc Dc →
      (Dict.values mc).Nodup → h0.length ≤ c → (∀ x ∈ Dict.values mc, h0.length ≤ x) →
      c ∉ foot a b m → Ext h0 h →
      ∃ h' mc', copyLoop a c qs h = (.ok (), h') ∧ h'[c]? = some (.queries mc') ∧
        QRep h' mc' (qs.foldl (fun d q => d.set q ((s.data.get? q).getD [])) Dc) ∧
        (Dict.values mc').Nodup ∧ (∀ x ∈ Dict.values mc', h0.length ≤ x) ∧ Ext h0 h' := by
  induction qs with
  | nil =>
    intro h c mc Dc _ _ hc hQ hn _ hv _ hE
    exact ⟨h, mc, rfl, hc, hQ, hn, hv, hE⟩
  | cons q qs ih =>
    intro h c mc Dc hqs hR hc hQ hn hcl hv hcf hE
    have hq := hqs q List.mem_cons_self
    obtain ⟨r, hr⟩ := Option.isSome_iff_exists.1 (get?_isSome.2 hq)
    have hstep : (setQuery c q h.length : Prog κ δ ℝ Unit) (h ++ [.results r])
        = (.ok (), (h ++ [Obj.results r]).set c (.queries (mc.set q h.length))) := by
      simp only [setQuery, look_app _ hc]
    have hcl' : c < (h ++ [Obj.results r]).length := by
      have := look_lt hc
      simp; omega
    have hlen := hE.1
    have hQ1 : QRep (h ++ [.results r]) (mc.set q h.length) (Dc.set q r) :=
      (hQ.app _).set q (look_new _ _ _)
    have hne : ∀ x ∈ Dict.values (mc.set q h.length), c ≠ x := by
      rintro x hx rfl
      obtain ⟨r', hr'⟩ := hQ1.values.mem hx
      rw [look_app _ hc] at hr'
      cases hr'
    have hE1 : Ext h0 ((h ++ [Obj.results r]).set c (.queries (mc.set q h.length))) := by
      refine ⟨?_, ?_⟩
      · simp; omega
      · intro x hx _
        rw [List.getElem?_set_ne (by omega), List.getElem?_append_left (by omega)]
        exact hE.2 x hx (by simp)
    obtain ⟨h', mc', e1, e2, e3, e4, e5, e6⟩ := ih _ c (mc.set q h.length) (Dc.set q r)
      (fun q' hq' => hqs q' (List.mem_cons_of_mem _ hq'))
      ((hR.app [.results r]).congr fun x hx => by
        rw [List.getElem?_set_ne]
        rintro rfl
        exact hcf hx)
      (by rw [List.getElem?_set_self hcl'])
      (hQ1.congr fun x hx => List.getElem?_set_ne (hne x hx))
      (nodup_values_set hn fun hx => absurd (hQ.lt _ hx) (lt_irrefl _)) hcl
      (fun x hx => by
        rcases mem_values_set hx with rfl | hx
        · exact hlen
        · exact hv x hx)
      hcf hE1
    refine ⟨h', mc', ?_, e2, ?_, e4, e5, e6⟩
    · rw [copyLoop, bind_ok (getItem_ok hR hr), bind_ok hstep, e1]
    · rw [List.foldl_cons, hr]
      exact e3

theorem toDict_ok {h : Mem κ δ ℝ} {a b : Nat} {m : Dict κ Nat} {s : Store κ δ ℝ} (H : RunAt h a b m s) :
    ∃ h' mc, toDict a h = (.ok h.length, h') ∧ h'[h.length]? = some (.queries mc) ∧
      QRep h' mc (Spec.asPython s.data) ∧ (Dict.values mc).Nodup ∧
      (∀ x ∈ Dict.values mc, h.length ≤ x) ∧ Ext h h' := by
  have H' := H.app [Obj.queries []]
  have h1 : (readRun a : Prog κ δ ℝ _) (h ++ [.queries []]) = (.ok (b, s.sorted), h ++ [.queries []]) := by
    simp only [readRun, H'.obj]
  have h2 : (readQueries b : Prog κ δ ℝ _) (h ++ [.queries []]) = (.ok m, h ++ [.queries []]) := by
    simp only [readQueries, H'.data]
  obtain ⟨h', mc', e1, e2, e3, e4, e5, e6⟩ := copyLoop_ok H (Dict.keys m) (h ++ [.queries []]) h.length [] []
    (fun q hq => by rw [← H.inner.keys]; exact hq) H' (look_new _ _ _) .nil List.nodup_nil (le_refl _)
    (by simp [Dict.values]) (fun hc => absurd (H.lt _ hc) (lt_irrefl _)) (Ext.app _ _)
  refine ⟨h', mc', ?_, e2, ?_, e4, e5, e6⟩
  · rw [toDict, bind_ok (alloc_apply _ _), bind_ok h1, bind_ok h2, bind_ok e1]
    rfl
  · rw [H.inner.keys] at e3
    exact e3

theorem fromDict_makes (S : ArgSort ℝ) {h : Mem κ δ ℝ} {b : Nat} {m : Dict κ Nat}
    {D : Dict κ (Dict δ ℝ)} (hb : h[b]? = some (.queries m)) (H : QRep h m D) :
    Makes h (fromDict S b h) (Store.ofDict S D) := by
  have h2 : (readQueries b : Prog κ δ ℝ _) h = (.ok m, h) := by simp only [readQueries, hb]
  have h3 : (readContent m : Prog κ δ ℝ _) h = (.ok D, h) := by
    rw [readContent, bind_ok (readAll_eq H.values), H.keys, zip_keys_values]
    rfl
  rw [fromDict, bind_ok h2, bind_ok h3]
  exact ofDict_makes S D h

/-- `d[q]` on a `defaultdict` in memory -/
theorem lookDict_ok {h : Mem κ δ ℝ} {b : Nat} {m : Dict κ Nat} {D : Dict κ (Dict δ ℝ)}
    (hb : h[b]? = some (.queries m)) (H : QRep h m D) (hn : (Dict.values m).Nodup) (q : κ) :
    ∃ (h' : Mem κ δ ℝ) (m' : Dict κ Nat), (ensureQuery b m q : Prog κ δ ℝ Unit) h = (.ok (), h') ∧
      h'[b]? = some (.queries m') ∧ QRep h' m' (if D.contains q then D else D.set q []) ∧
      (Dict.values m').Nodup ∧ (∀ x ∈ Dict.values m', x ∈ Dict.values m ∨ h.length ≤ x) ∧
      Changes [b] h h' := by
  by_cases hq : m.contains q = true
  · refine ⟨h, m, ?_, hb, ?_, hn, fun x hx => Or.inl hx, Changes.refl _ _⟩
    · rw [ensureQuery, if_pos hq]; rfl
    · rw [if_pos (H.contains q ▸ hq)]; exact H
  · have hg : m.get? q = none := by
      unfold Dict.contains at hq
      cases hg : m.get? q with
      | none => rfl
      | some x => rw [hg] at hq; simp at hq
    obtain ⟨h', e1, e2, e3, e4, e5, e6⟩ := addEmpty_spec hb H hn q hg
    refine ⟨h', m.set q h.length, e1, e2, ?_, e4, e5, e6⟩
    rw [if_neg (by rw [← H.contains q]; exact hq)]
    exact e3

/-- `d[q][doc] = v` on a `defaultdict` in memory -/
theorem writeDict_ok {h : Mem κ δ ℝ} {b : Nat} {m : Dict κ Nat} {D : Dict κ (Dict δ ℝ)}
    (hb : h[b]? = some (.queries m)) (H : QRep h m D) (hn : (Dict.values m).Nodup) (q : κ) (d : δ) (v : ℝ) :
    ∃ (h' : Mem κ δ ℝ) (m' : Dict κ Nat), (writeDict b q d v) h = (.ok (), h') ∧
      h'[b]? = some (.queries m') ∧ QRep h' m' (D.set q (((D.get? q).getD []).set d v)) ∧
      (Dict.values m').Nodup ∧ (∀ x ∈ Dict.values m', x ∈ Dict.values m ∨ h.length ≤ x) ∧
      Changes (b :: Dict.values m) h h' := by
  have h2 : (readQueries b : Prog κ δ ℝ _) h = (.ok m, h) := by simp only [readQueries, hb]
  obtain ⟨hm, m', e1, e2, e3, e4, e5, e6⟩ := lookDict_ok hb H hn q
  have h3 : (readQueries b : Prog κ δ ℝ _) hm = (.ok m', hm) := by simp only [readQueries, e2]
  have hset : (if D.contains q then D else D.set q []).set q (((D.get? q).getD []).set d v)
      = D.set q (((D.get? q).getD []).set d v) := by
    by_cases hc : D.contains q = true
    · rw [if_pos hc]
    · rw [if_neg hc, set_set_same]
  have hget : (if D.contains q then D else D.set q []).get? q = some ((D.get? q).getD []) := by
    by_cases hc : D.contains q = true
    · rw [if_pos hc]
      unfold Dict.contains at hc
      obtain ⟨r, hr⟩ := Option.isSome_iff_exists.1 hc
      rw [hr]; rfl
    · rw [if_neg hc, get?_set_self]
      unfold Dict.contains at hc
      cases hg : D.get? q with
      | none => rfl
      | some x => rw [hg] at hc; simp at hc
  obtain ⟨i, r, hi, hr, hir⟩ : ∃ i r, m'.get? q = some i ∧ r = (D.get? q).getD [] ∧
      hm[i]? = some (.results r) := by
    rcases e3.get? q with ⟨_, hnone⟩ | ⟨i, r, f1, f2, f3⟩
    · rw [hget] at hnone; cases hnone
    · rw [hget] at f2; cases f2
      exact ⟨i, _, f1, rfl, f3⟩
  have h4 : (setItem i d v : Prog κ δ ℝ Unit) hm = (.ok (), hm.set i (.results (r.set d v))) := by
    simp only [setItem, hir]
  have hbi : b ≠ i := by rintro rfl; rw [e2] at hir; cases hir
  refine ⟨hm.set i (.results (r.set d v)), m', ?_, ?_, ?_, e4, e5, ?_⟩
  · rw [writeDict, bind_ok h2, bind_ok e1, bind_ok h3, hi]
    exact h4
  · rw [List.getElem?_set_ne hbi.symm, e2]
  · have hw := RunAt.write e3 e4 hi (r.set d v)
    rw [hr] at hw ⊢
    rw [hset] at hw
    exact hw
  · refine (e6.mono (by simp)).trans (Changes.set (F := [i]) _ _ (Or.inl (by simp))) ?_
    intro x hx
    rw [List.mem_singleton] at hx
    subst hx
    rcases e5 _ (mem_values_of_get? hi) with hx | hx
    · exact Or.inl (List.mem_cons_of_mem _ hx)
    · exact Or.inr hx

end
end Ranx.Heap
