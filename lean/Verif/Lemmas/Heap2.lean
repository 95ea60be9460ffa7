import Verif.Lemmas.Heap

/-! The methods of `Run` in memory refine the methods on contents -/

set_option linter.unusedSectionVars false
set_option linter.unusedSimpArgs false
set_option linter.unusedVariables false

namespace Ranx.Heap
open Dict

variable {κ δ β : Type} {A B : Type}

/-- between `h` and `h'` only objects at addresses in `F` were written (and new ones created) -/
def Changes (F : List Nat) (h h' : Mem κ δ β) : Prop :=
  h.length ≤ h'.length ∧ ∀ x < h.length, x ∉ F → h'[x]? = h[x]?

theorem Changes.refl (F : List Nat) (h : Mem κ δ β) : Changes F h h := ⟨le_refl _, fun _ _ _ => rfl⟩

theorem Changes.app (F : List Nat) (h e : Mem κ δ β) : Changes F h (h ++ e) :=
  ⟨by simp, fun x hx _ => List.getElem?_append_left hx⟩

theorem Changes.set {F : List Nat} (h : Mem κ δ β) {a : Nat} (o : Obj κ δ β) (ha : a ∈ F ∨ h.length ≤ a) :
    Changes F h (h.set a o) := by
  refine ⟨by simp, fun x hx hF => ?_⟩
  rw [List.getElem?_set_ne]
  rintro rfl
  rcases ha with ha | ha
  · exact hF ha
  · omega

theorem Changes.trans {F G : List Nat} {h h' h'' : Mem κ δ β} (H : Changes F h h') (H' : Changes G h' h'')
    (hG : ∀ x ∈ G, x ∈ F ∨ h.length ≤ x) : Changes F h h'' := by
  refine ⟨le_trans H.1 H'.1, fun x hx hF => ?_⟩
  rw [H'.2 x (by have := H.1; omega), H.2 x hx hF]
  intro hc
  rcases hG x hc with h1 | h1
  · exact hF h1
  · omega

theorem Changes.mono {F G : List Nat} {h h' : Mem κ δ β} (H : Changes F h h') (hG : ∀ x ∈ F, x ∈ G) :
    Changes G h h' := ⟨H.1, fun x hx hF => H.2 x hx fun hc => hF (hG x hc)⟩

section
variable [LinearOrder κ] [DecidableEq δ]

theorem sortDictByKey_fold {ν : Type*} (d : Dict κ ν) : sortDictByKey d =
    ((isort (fun a b => decide (a ≤ b)) d.keys).filterMap
      (fun k => (d.get? k).map (fun v => (k, v)))).foldl (fun (d : Dict κ ν) p => d.set p.1 p.2) [] :=
  foldl_get?_eq d _ []

theorem sortDictByValue_fold [LE β] [Neg β] (S : ArgSort β) (d : Dict δ β) : sortDictByValue S d =
    (pick d (typedListArgsort S (d.values.map (fun v => -v)))).foldl (fun (d : Dict δ β) p => d.set p.1 p.2) [] :=
  foldl_match_eq d _ []

theorem nodup_sortDictByKey {ν : Type*} (d : Dict κ ν) : NodupKeys (sortDictByKey d) := by
  rw [sortDictByKey_fold]
  exact nodupKeys_foldl_set _ _ nodupKeys_nil

theorem nodup_sortDictByValue [LE β] [Neg β] (S : ArgSort β) (d : Dict δ β) :
    NodupKeys (sortDictByValue S d) := by
  rw [sortDictByValue_fold]
  exact nodupKeys_foldl_set _ _ nodupKeys_nil

theorem qrep_sortDictByKey {h : Mem κ δ β} {m : Dict κ Nat} {D : Dict κ (Dict δ β)} (H : QRep h m D) :
    QRep h (sortDictByKey m) (sortDictByKey D) := by
  rw [sortDictByKey_fold, sortDictByKey_fold, H.keys]
  refine qrep_foldl ?_ .nil
  generalize isort (fun a b => decide (a ≤ b)) (Dict.keys D) = ks
  induction ks with
  | nil => exact .nil
  | cons k t ih =>
    rw [List.filterMap_cons, List.filterMap_cons]
    rcases H.get? k with ⟨h1, h2⟩ | ⟨a, r, h1, h2, h3⟩
    · rw [h1, h2]; exact ih
    · rw [h1, h2]; exact .cons ⟨rfl, h3⟩ ih

theorem sortByKey_eq {h : Mem κ δ β} {b : Nat} {m : Dict κ Nat} (hb : h[b]? = some (.queries m)) :
    sortByKey b h = (.ok h.length, h ++ [.queries (sortDictByKey m)]) := by
  have h1 : (readQueries b : Prog κ δ β _) h = (.ok m, h) := by simp only [readQueries, hb]
  rw [sortByKey, bind_ok h1, bind_ok (alloc_apply _ _), bind_ok (storeQueries_new h [] _ [])]
  have := ofList_of_nodup (nodup_sortDictByKey m)
  unfold ofList at this
  rw [this]
  rfl

theorem sortValues_ok [LE β] [Neg β] (S : ArgSort β) (as : List Nat) :
    ∀ (h : Mem κ δ β) (rs : List (Dict δ β)), ResAt h as rs →
      ∃ e as', sortValues S as h = (.ok as', h ++ e) ∧ ResAt (h ++ e) as' (rs.map (sortDictByValue S)) ∧
        as'.Nodup ∧ ∀ x ∈ as', h.length ≤ x := by
  induction as with
  | nil =>
    intro h rs H
    cases H
    exact ⟨[], [], by simp [sortValues], .nil, List.nodup_nil, by simp⟩
  | cons a t ih =>
    intro h rs H
    cases H with
    | @cons _ r _ rs ha ht =>
      have hk := kernel_ok (κ := κ) (f := fun rs => .ok (sortDictByValue S (rs.headD [])))
        (rs := [r]) (as := [a]) (.cons ha .nil) rfl (nodup_sortDictByValue S r)
      obtain ⟨e, as', h1, h2, h3, h4⟩ := ih (h ++ [.results (sortDictByValue S r)]) rs
        (ResAt.app _ ht)
      refine ⟨.results (sortDictByValue S r) :: e, h.length :: as', ?_, ?_, ?_, ?_⟩
      · rw [sortValues, bind_ok hk]
        exact (bind_ok h1).trans (by rw [pure_apply, List.append_assoc, List.singleton_append])
      · rw [List.map_cons]
        rw [List.append_assoc, List.singleton_append] at h2
        exact .cons (look_new _ _ _) h2
      · rw [List.nodup_cons]
        refine ⟨fun hc => ?_, h3⟩
        have := h4 _ hc
        simp at this
      · intro x hx
        rcases List.mem_cons.mp hx with rfl | hx
        · exact le_refl _
        · have := h4 x hx
          simp at this
          omega

/-- a dictionary of queries made of objects at addresses from `n` on, not shared within it -/
def NewQ (n : Nat) (h : Mem κ δ β) (b : Nat) (D : Dict κ (Dict δ β)) : Prop :=
  ∃ m, h[b]? = some (.queries m) ∧ QRep h m D ∧ (Dict.values m).Nodup ∧ n ≤ b ∧ ∀ x ∈ Dict.values m, n ≤ x

theorem NewQ.app {n : Nat} {h : Mem κ δ β} {b : Nat} {D : Dict κ (Dict δ β)} (e : Mem κ δ β)
    (H : NewQ n h b D) : NewQ n (h ++ e) b D := by
  obtain ⟨m, h1, h2, h3, h4, h5⟩ := H
  exact ⟨m, look_app e h1, h2.app e, h3, h4, h5⟩

theorem NewQ.mono {n n' : Nat} {h : Mem κ δ β} {b : Nat} {D : Dict κ (Dict δ β)} (hn : n' ≤ n)
    (H : NewQ n h b D) : NewQ n' h b D := by
  obtain ⟨m, h1, h2, h3, h4, h5⟩ := H
  exact ⟨m, h1, h2, h3, le_trans hn h4, fun x hx => le_trans hn (h5 x hx)⟩

theorem storeZip_ok {h : Mem κ δ β} {n : Nat} {as : List Nat} {rs : List (Dict δ β)} (H : ResAt h as rs)
    (hn : as.Nodup) (hl : ∀ x ∈ as, n ≤ x) (hnh : n ≤ h.length) (qs : List κ) :
    ∃ e b, toRun qs as h = (.ok b, h ++ e) ∧ NewQ n (h ++ e) b (ofList (qs.zip rs)) := by
  refine ⟨[.queries (ofList (qs.zip as))], h.length, ?_, ofList (qs.zip as), look_new _ _ _, ?_, ?_,
    hnh, ?_⟩
  · rw [toRun, bind_ok (alloc_apply _ _), bind_ok (storeQueries_new h [] _ [])]
    rfl
  · exact (qrep_ofList (qrep_zip H qs)).app _
  · refine nodup_values_foldl _ List.nodup_nil ?_ (by simp)
    exact (values_zip_sublist qs as).nodup hn
  · intro x hx
    rcases mem_values_foldl _ hx with hx | hx
    · exact hl x ((values_zip_sublist qs as).subset hx)
    · cases hx

theorem sortByValue_ok [LE β] [Neg β] (S : ArgSort β) {h : Mem κ δ β} {b : Nat} {m : Dict κ Nat}
    {D : Dict κ (Dict δ β)} (hb : h[b]? = some (.queries m)) (H : QRep h m D) :
    ∃ e b', sortByValue S b h = (.ok b', h ++ e) ∧
      NewQ h.length (h ++ e) b' (sortDictOfDictByValue S D) := by
  have h1 : (readQueries b : Prog κ δ β _) h = (.ok m, h) := by simp only [readQueries, hb]
  obtain ⟨e, as', h2, h3, h4, h5⟩ := sortValues_ok S _ h _ H.values
  obtain ⟨e', b', h6, h7⟩ := storeZip_ok h3 h4 h5 (by simp) (Dict.keys m)
  refine ⟨e ++ e', b', ?_, ?_⟩
  · rw [sortByValue, bind_ok h1, bind_ok h2, ← List.append_assoc]
    exact h6
  · rw [← List.append_assoc]
    unfold sortDictOfDictByValue
    rw [createDictFromLists_eq _ _ _ (by simp), ← H.keys]
    exact h7

/-- `sort` writes the run object only; its new dictionaries are new objects -/
theorem sort_spec [LE β] [Neg β] (S : ArgSort β) {h : Mem κ δ β} {a b : Nat} {m : Dict κ Nat}
    {s : Store κ δ β} (H : RunAt h a b m s) :
    ∃ h' b' m', sort S a h = (.ok (), h') ∧ RunAt h' a b' m' (s.sort S) ∧ (Dict.values m').Nodup ∧
      (∀ x ∈ b' :: Dict.values m', h.length ≤ x) ∧ Changes [a] h h' := by
  have hal := look_lt H.obj
  have h1 : (readRun a : Prog κ δ β _) h = (.ok (b, s.sorted), h) := by simp only [readRun, H.obj]
  have h2 := sortByKey_eq H.data
  have hq2 := (qrep_sortDictByKey H.inner).app [.queries (sortDictByKey m)]
  have hb2 : (h ++ [Obj.queries (sortDictByKey m)])[h.length]? = some (.queries (sortDictByKey m)) :=
    look_new _ _ _
  generalize hh2 : h ++ [Obj.queries (sortDictByKey m)] = h2' at *
  have hc2 : Changes [a] h h2' := hh2 ▸ Changes.app _ _ _
  have hl2 : h2'.length = h.length + 1 := by rw [← hh2]; simp
  have ha2 : h2'[a]? = some (.run b s.sorted) := hh2 ▸ look_app _ H.obj
  -- the assignment `self.run = …`
  have hns : ∀ x ∈ Dict.values (sortDictByKey m), x ≠ a := by
    intro x hx hc
    obtain ⟨r, hr⟩ := hq2.values.mem hx
    rw [hc, ha2] at hr; cases hr
  have hq3 : QRep (h2'.set a (.run h.length s.sorted)) (sortDictByKey m) (sortDictByKey s.data) :=
    hq2.congr fun x hx => List.getElem?_set_ne (fun hc => hns x hx hc.symm)
  have hb3 : (h2'.set a (.run h.length s.sorted))[h.length]? = some (.queries (sortDictByKey m)) := by
    rw [List.getElem?_set_ne (by omega)]; exact hb2
  have hc3 : Changes [a] h (h2'.set a (.run h.length s.sorted)) :=
    hc2.trans (Changes.set _ _ (Or.inl (by simp))) (fun x hx => Or.inl hx)
  have ha3 : (h2'.set a (Obj.run h.length s.sorted))[a]? = some (.run h.length s.sorted) := by
    rw [List.getElem?_set_self]; omega
  generalize hh3 : h2'.set a (Obj.run h.length s.sorted) = h3 at *
  have hl3 : h.length ≤ h3.length := hc3.1
  obtain ⟨e, b', h4, m', hb4, hq4, hn4, hbl, hvl⟩ := sortByValue_ok S hb3 hq3
  have hna : a ≠ b' := by omega
  have ha4 : (h3 ++ e)[a]? = some (.run h.length s.sorted) := look_app e ha3
  refine ⟨((h3 ++ e).set a (.run b' s.sorted)).set a (.run b' true), b', m', ?_, ⟨?_, ?_, ?_⟩, hn4, ?_, ?_⟩
  · rw [sort, bind_ok h1, bind_ok h2, bind_ok (setRun_apply _ _ _ _)]
    simp only [hh3]
    rw [bind_ok h4, bind_ok (setRun_apply _ _ _ _), setRun_apply]
  · simp only [Store.sort]
    rw [List.getElem?_set_self]
    have := look_lt ha4
    simpa using this
  · rw [List.getElem?_set_ne hna, List.getElem?_set_ne hna]
    exact hb4
  · refine hq4.congr fun x hx => ?_
    have : a ≠ x := by have := hvl x hx; omega
    rw [List.getElem?_set_ne this, List.getElem?_set_ne this]
  · intro x hx
    rcases List.mem_cons.mp hx with rfl | hx
    · omega
    · have := hvl x hx; omega
  · refine (hc3.trans (Changes.app [a] h3 e) (fun x hx => Or.inl hx)).trans
      ((Changes.set (F := [a]) _ _ (Or.inl (by simp))).trans
        (Changes.set (F := [a]) _ _ (Or.inl (by simp))) (fun x hx => Or.inl hx)) (fun x hx => Or.inl hx)

/-! ### the public methods -/

/-- what a method call on the run at `a` may do: it turns the content `s` into `s'` with outcome `err`,
writes only objects of this run, and makes it up of its own and new objects -/
def Refines (h : Mem κ δ β) (a b : Nat) (m : Dict κ Nat) (r : Except Err Unit × Mem κ δ β)
    (s' : Store κ δ β) (err : Option Err) : Prop :=
  r.1 = (match err with | none => .ok () | some e => .error e) ∧
  ∃ b' m', RunAt r.2 a b' m' s' ∧ (Dict.values m').Nodup ∧
    (∀ x ∈ foot a b' m', x ∈ foot a b m ∨ h.length ≤ x) ∧ Changes (foot a b m) h r.2

theorem refines_sort [LE β] [Neg β] (S : ArgSort β) {h : Mem κ δ β} {a b : Nat} {m : Dict κ Nat}
    {s : Store κ δ β} (H : RunAt h a b m s) : Refines h a b m (sort S a h) (s.sort S) none := by
  obtain ⟨h', b', m', h1, h2, h3, h4, h5⟩ := sort_spec S H
  rw [h1]
  refine ⟨rfl, b', m', h2, h3, ?_, h5.mono (by simp [foot])⟩
  intro x hx
  rcases List.mem_cons.mp hx with rfl | hx
  · exact Or.inl (by simp [foot])
  · exact Or.inr (h4 x hx)

theorem refines_ensureSorted [LE β] [Neg β] (S : ArgSort β) {h : Mem κ δ β} {a b : Nat} {m : Dict κ Nat}
    {s : Store κ δ β} (H : RunAt h a b m s) (hn : (Dict.values m).Nodup) :
    Refines h a b m (ensureSorted S a h) (s.ensureSorted S) none := by
  have h1 : (readRun a : Prog κ δ β _) h = (.ok (b, s.sorted), h) := by simp only [readRun, H.obj]
  rw [ensureSorted, bind_ok h1]
  unfold Store.ensureSorted
  cases hs : s.sorted with
  | true => exact ⟨rfl, b, m, H, hn, fun x hx => Or.inl hx, Changes.refl _ _⟩
  | false => exact refines_sort S H

/-- writing to the results of one query -/
theorem RunAt.write {h : Mem κ δ β} {m : Dict κ Nat} {D : Dict κ (Dict δ β)} (H : QRep h m D)
    (hn : (Dict.values m).Nodup) {q : κ} {i : Nat} (hi : m.get? q = some i) (r : Dict δ β) :
    QRep (h.set i (.results r)) m (D.set q r) := by
  unfold QRep at H ⊢
  induction H with
  | nil => cases hi
  | @cons p p' m D hpq ht ih =>
    obtain ⟨p1, p2⟩ := p
    obtain ⟨q1, q2⟩ := p'
    obtain ⟨h1, h2⟩ := hpq
    simp only at h1 h2
    subst h1
    simp only [Dict.values_cons, List.nodup_cons] at hn
    rw [get?_cons] at hi
    by_cases hq : p1 = q
    · rw [if_pos hq] at hi
      cases hi
      simp only [Dict.set, if_pos hq]
      refine .cons ⟨rfl, ?_⟩ ?_
      · rw [List.getElem?_set_self (look_lt h2)]
      · have : QRep (h.set p2 (.results r)) m D := by
          refine QRep.congr ht fun x hx => ?_
          rw [List.getElem?_set_ne]
          rintro rfl
          exact hn.1 hx
        exact this
    · rw [if_neg hq] at hi
      simp only [Dict.set, if_neg hq]
      refine .cons ⟨rfl, ?_⟩ (ih hn.2 hi)
      simp only
      rw [List.getElem?_set_ne, h2]
      rintro rfl
      exact hn.1 (List.mem_map.2 ⟨(q, i), mem_of_get? hi, rfl⟩)

theorem mem_values_of_get? {ν : Type*} {m : Dict κ ν} {q : κ} {i : ν} (hi : m.get? q = some i) :
    i ∈ Dict.values m := List.mem_map.2 ⟨(q, i), mem_of_get? hi, rfl⟩

theorem set_get?_eq {ν : Type*} {m : Dict κ ν} {q : κ} {x : ν} : (m.set q x).get? q = some x :=
  get?_set_self m q x

/-- adding an empty entry for a query -/
theorem addEmpty_spec {h : Mem κ δ β} {b : Nat} {m : Dict κ Nat} {D : Dict κ (Dict δ β)}
    (hb : h[b]? = some (.queries m)) (H : QRep h m D) (hn : (Dict.values m).Nodup) (q : κ)
    (hq : m.get? q = none) :
    ∃ h', (ensureQuery b m q : Prog κ δ β Unit) h = (.ok (), h') ∧
      h'[b]? = some (.queries (m.set q h.length)) ∧ QRep h' (m.set q h.length) (D.set q []) ∧
      (Dict.values (m.set q h.length)).Nodup ∧
      (∀ x ∈ Dict.values (m.set q h.length), x ∈ Dict.values m ∨ h.length ≤ x) ∧ Changes [b] h h' := by
  have hbl := look_lt hb
  refine ⟨(h ++ [Obj.results []]).set b (.queries (m.set q h.length)), ?_, ?_, ?_, ?_, ?_, ?_⟩
  · have hc : ¬ m.contains q = true := by unfold Dict.contains; rw [hq]; simp
    rw [ensureQuery, if_neg hc, bind_ok (newResults_apply h)]
    simp only [setQuery, look_app _ hb]
  · rw [List.getElem?_set_self]
    simp; omega
  · have h1 : QRep (h ++ [.results []]) (m.set q h.length) (D.set q []) :=
      (H.app _).set q (look_new _ _ _)
    refine h1.congr fun x hx => List.getElem?_set_ne ?_
    rintro rfl
    obtain ⟨r, hr⟩ := h1.values.mem hx
    rw [look_app _ hb] at hr
    cases hr
  · exact nodup_values_set hn fun hc => absurd (H.lt _ hc) (lt_irrefl _)
  · intro x hx
    rcases mem_values_set hx with rfl | hx
    · exact Or.inr (le_refl _)
    · exact Or.inl hx
  · exact (Changes.app [b] h _).trans (Changes.set (F := [b]) _ _ (Or.inl (by simp))) (fun x hx => Or.inl hx)

theorem store_addScore_eq {s : Store κ δ β} {q : κ} {d : δ} {v : β} (D : Dict κ (Dict δ β)) (r : Dict δ β)
    (hD : D = if s.data.contains q then s.data else s.data.set q []) (hr : D.get? q = some r) :
    s.addScore q d v = ⟨D.set q (r.set d v), false⟩ := by
  unfold Store.addScore
  unfold Dict.contains at hD
  cases h : s.data.get? q with
  | none =>
    rw [h] at hD
    simp only at hD ⊢
    rw [if_neg (by simp)] at hD
    rw [← hD, hr]
    rfl
  | some x =>
    rw [h] at hD
    simp only at hD ⊢
    rw [if_pos (by rfl)] at hD
    rw [← hD, hr]
    rfl

theorem refines_addScore {h : Mem κ δ β} {a b : Nat} {m : Dict κ Nat} {s : Store κ δ β}
    (H : RunAt h a b m s) (hn : (Dict.values m).Nodup) (q : κ) (d : δ) (v : β) :
    Refines h a b m (addScore a q d v h) (s.addScore q d v) none := by
  have h1 : (readRun a : Prog κ δ β _) h = (.ok (b, s.sorted), h) := by simp only [readRun, H.obj]
  have h2 : (readQueries b : Prog κ δ β _) h = (.ok m, h) := by simp only [readQueries, H.data]
  -- the state after the entry exists
  obtain ⟨hm, m', D', hstep, hb', hq', hn', hv', hc', hD'⟩ : ∃ (hm : Mem κ δ β) (m' : Dict κ Nat)
      (D' : Dict κ (Dict δ β)),
      (ensureQuery b m q : Prog κ δ β Unit) h = (.ok (), hm) ∧
      hm[b]? = some (.queries m') ∧ QRep hm m' D' ∧ (Dict.values m').Nodup ∧
      (∀ x ∈ Dict.values m', x ∈ Dict.values m ∨ h.length ≤ x) ∧ Changes [b] h hm ∧
      D' = if s.data.contains q then s.data else s.data.set q [] := by
    by_cases hq : m.contains q = true
    · refine ⟨h, m, s.data, ?_, H.data, H.inner, hn, fun x hx => Or.inl hx, Changes.refl _ _, ?_⟩
      · rw [ensureQuery, if_pos hq]; rfl
      · rw [if_pos (H.inner.contains q ▸ hq)]
    · have hg : m.get? q = none := by
        unfold Dict.contains at hq
        cases hg : m.get? q with
        | none => rfl
        | some x => rw [hg] at hq; simp at hq
      obtain ⟨h', e1, e2, e3, e4, e5, e6⟩ := addEmpty_spec H.data H.inner hn q hg
      refine ⟨h', m.set q h.length, s.data.set q [], ?_, e2, e3, e4, e5, e6, ?_⟩
      · exact e1
      · rw [if_neg (by rw [← H.inner.contains q]; exact hq)]
  -- the entry
  obtain ⟨i, r, hi, hr, hir⟩ : ∃ i r, m'.get? q = some i ∧ D'.get? q = some r ∧
      hm[i]? = some (.results r) := by
    rcases hq'.get? q with ⟨_, hnone⟩ | ⟨i, r, e1, e2, e3⟩
    · exfalso
      rw [hD'] at hnone
      by_cases hc : s.data.contains q = true
      · rw [if_pos hc] at hnone
        unfold Dict.contains at hc
        rw [hnone] at hc; cases hc
      · rw [if_neg hc, get?_set_self] at hnone
        cases hnone
    · exact ⟨i, r, e1, e2, e3⟩
  have h3 : (readQueries b : Prog κ δ β _) hm = (.ok m', hm) := by simp only [readQueries, hb']
  have h4 : (setItem i d v : Prog κ δ β Unit) hm = (.ok (), hm.set i (.results (r.set d v))) := by
    simp only [setItem, hir]
  have ham : hm[a]? = some (.run b s.sorted) := by
    rw [hc'.2 a (look_lt H.obj) (by simpa using H.ne.1), H.obj]
  have hrun : addScore a q d v h = (.ok (), (hm.set i (.results (r.set d v))).set a (.run b false)) := by
    rw [addScore, bind_ok h1, bind_ok h2]
    simp only
    rw [bind_ok hstep, bind_ok h3, hi, setEntry, bind_ok h4, setRun_apply]
  rw [hrun, store_addScore_eq D' r hD' hr]
  have hai : a ≠ i := by rintro rfl; rw [ham] at hir; cases hir
  have hbi : b ≠ i := by rintro rfl; rw [hb'] at hir; cases hir
  refine ⟨rfl, b, m', ⟨?_, ?_, ?_⟩, hn', ?_, ?_⟩
  · rw [List.getElem?_set_self]
    have := look_lt ham
    simpa using this
  · rw [List.getElem?_set_ne H.ne.1, List.getElem?_set_ne hbi.symm, hb']
  · have hw := RunAt.write hq' hn' hi (r.set d v)
    refine hw.congr fun x hx => List.getElem?_set_ne ?_
    rintro rfl
    obtain ⟨r', hr'⟩ := hq'.values.mem hx
    rw [ham] at hr'; cases hr'
  · intro x hx
    simp only [foot, List.mem_cons] at hx ⊢
    rcases hx with hx | hx | hx
    · exact Or.inl (Or.inl hx)
    · exact Or.inl (Or.inr (Or.inl hx))
    · rcases hv' x hx with hx | hx
      · exact Or.inl (Or.inr (Or.inr hx))
      · exact Or.inr hx
  · refine ((hc'.mono (by simp [foot])).trans (Changes.set (F := [i]) _ _ (Or.inl (by simp))) ?_).trans
      (Changes.set (F := [a]) _ _ (Or.inl (by simp))) ?_
    · intro x hx
      rw [List.mem_singleton] at hx
      subst hx
      rcases hv' _ (mem_values_of_get? hi) with hx | hx
      · exact Or.inl (by simp [foot, hx])
      · exact Or.inr hx
    · intro x hx
      rw [List.mem_singleton] at hx
      subst hx
      exact Or.inl (by simp [foot])

/-! add_multi -/

theorem fillFromLists_new (h : Mem κ δ β) (ds : List δ) :
    ∀ (ss : List β) (d : Dict δ β), ∃ o : Obj κ δ β,
      fillFromLists h.length ds ss (h ++ [.results d]) =
        ((match createDictFromLists ds ss d with | some _ => .ok () | none => .error .indexError), h ++ [o]) ∧
      ∀ d', createDictFromLists ds ss d = some d' → o = .results d' := by
  induction ds with
  | nil => intro ss d; exact ⟨.results d, rfl, fun d' hd => by cases hd; rfl⟩
  | cons x t ih =>
    intro ss d
    cases ss with
    | nil => exact ⟨.results d, rfl, fun d' hd => by cases hd⟩
    | cons v vs =>
      have h1 : (setItem h.length x v : Prog κ δ β Unit) (h ++ [.results d])
          = (.ok (), h ++ [.results (d.set x v)]) := by
        simp only [setItem, look_new, set_new]
      obtain ⟨o, h2, h3⟩ := ih vs (d.set x v)
      refine ⟨o, ?_, h3⟩
      rw [fillFromLists, bind_ok h1, h2]
      rfl

theorem addBulk_heap (qs : List κ) :
    ∀ (dss : List (List δ)) (sss : List (List β)) (h : Mem κ δ β) (b : Nat) (m : Dict κ Nat)
      (D : Dict κ (Dict δ β)), h[b]? = some (.queries m) → QRep h m D → (Dict.values m).Nodup →
    ∃ h' m', addBulk b qs dss sss h =
        ((match (Ranx.addBulk D qs dss sss).2 with | none => .ok () | some e => .error e), h') ∧
      h'[b]? = some (.queries m') ∧ QRep h' m' (Ranx.addBulk D qs dss sss).1 ∧ (Dict.values m').Nodup ∧
      (∀ x ∈ Dict.values m', x ∈ Dict.values m ∨ h.length ≤ x) ∧ Changes [b] h h' := by
  induction qs with
  | nil =>
    intro dss sss h b m D hb H hn
    exact ⟨h, m, by cases dss <;> cases sss <;> rfl, hb, by cases dss <;> cases sss <;> exact H, hn,
      fun x hx => Or.inl hx, Changes.refl _ _⟩
  | cons q qs ih =>
    intro dss sss h b m D hb H hn
    cases dss with
    | nil => exact ⟨h, m, by cases sss <;> rfl, hb, by cases sss <;> exact H, hn, fun x hx => Or.inl hx,
        Changes.refl _ _⟩
    | cons ds dss =>
      cases sss with
      | nil => exact ⟨h, m, rfl, hb, H, hn, fun x hx => Or.inl hx, Changes.refl _ _⟩
      | cons ss sss =>
        obtain ⟨o, hf, ho⟩ := fillFromLists_new h ds ss []
        cases hc : createDictFromLists ds ss ([] : Dict δ β) with
        | none =>
          rw [hc] at hf
          refine ⟨h ++ [o], m, ?_, look_app _ hb, ?_, hn, fun x hx => Or.inl hx, Changes.app _ _ _⟩
          · rw [addBulk, bind_ok (newResults_apply h), bind_error hf]
            simp only [Ranx.addBulk, hc]
          · simp only [Ranx.addBulk, hc]
            exact H.app _
        | some inner =>
          rw [hc] at hf
          have ho' := ho _ hc
          subst ho'
          have hbl := look_lt hb
          have h1 : (setQuery b q h.length : Prog κ δ β Unit) (h ++ [.results inner])
              = (.ok (), (h ++ [Obj.results inner]).set b (.queries (m.set q h.length))) := by
            simp only [setQuery, look_app _ hb]
          have hq1 : QRep (h ++ [.results inner]) (m.set q h.length) (D.set q inner) :=
            (H.app _).set q (look_new _ _ _)
          have hq2 : QRep ((h ++ [Obj.results inner]).set b (.queries (m.set q h.length))) (m.set q h.length)
              (D.set q inner) := by
            refine hq1.congr fun x hx => List.getElem?_set_ne ?_
            rintro rfl
            obtain ⟨r, hr⟩ := hq1.values.mem hx
            rw [look_app _ hb] at hr
            cases hr
          have hb2 : ((h ++ [Obj.results inner]).set b (.queries (m.set q h.length)))[b]?
              = some (.queries (m.set q h.length)) := by
            rw [List.getElem?_set_self]; simp; omega
          have hn2 : (Dict.values (m.set q h.length)).Nodup :=
            nodup_values_set hn fun hc => absurd (H.lt _ hc) (lt_irrefl _)
          obtain ⟨h', m', e1, e2, e3, e4, e5, e6⟩ := ih dss sss _ b _ _ hb2 hq2 hn2
          refine ⟨h', m', ?_, e2, ?_, e4, ?_, ?_⟩
          · rw [addBulk, bind_ok (newResults_apply h), bind_ok hf, bind_ok h1, e1]
            simp only [Ranx.addBulk, hc]
          · simp only [Ranx.addBulk, hc]
            exact e3
          · intro x hx
            rcases e5 x hx with hx | hx
            · rcases mem_values_set hx with rfl | hx
              · exact Or.inr (le_refl _)
              · exact Or.inl hx
            · simp at hx
              exact Or.inr (by omega)
          · refine ((Changes.app [b] h _).trans (Changes.set (F := [b]) _ _ (Or.inl (by simp)))
              (fun x hx => Or.inl hx)).trans e6 (fun x hx => Or.inl hx)

theorem sortBoth_ok [LE β] [Neg β] (S : ArgSort β) {h : Mem κ δ β} {b : Nat} {m : Dict κ Nat}
    {D : Dict κ (Dict δ β)} (hb : h[b]? = some (.queries m)) (H : QRep h m D) :
    ∃ e b1 e' b', sortByKey b h = (.ok b1, h ++ e) ∧ sortByValue S b1 (h ++ e) = (.ok b', h ++ e ++ e') ∧
      NewQ h.length (h ++ e ++ e') b' (sortAll S D) := by
  have h2 := sortByKey_eq hb
  have hq2 := (qrep_sortDictByKey H).app [.queries (sortDictByKey m)]
  obtain ⟨e, b', h4, h5⟩ := sortByValue_ok S (look_new _ _ _) hq2
  exact ⟨_, _, e, b', h2, h4, h5.mono (by simp)⟩

theorem refines_addMulti [LE β] [Neg β] (S : ArgSort β) {h : Mem κ δ β} {a b : Nat} {m : Dict κ Nat}
    {s : Store κ δ β} (H : RunAt h a b m s) (hn : (Dict.values m).Nodup) (qs : List κ)
    (dss : List (List δ)) (sss : List (List β)) :
    Refines h a b m (addMulti S a qs dss sss h) (s.addMulti S qs dss sss).1 (s.addMulti S qs dss sss).2 := by
  have h1 : (readRun a : Prog κ δ β _) h = (.ok (b, s.sorted), h) := by simp only [readRun, H.obj]
  obtain ⟨h', m', e1, e2, e3, e4, e5, e6⟩ := addBulk_heap qs dss sss h b m s.data H.data H.inner hn
  have hres : Ranx.addBulk s.data qs dss sss
      = ((Ranx.addBulk s.data qs dss sss).1, (Ranx.addBulk s.data qs dss sss).2) := rfl
  unfold Store.addMulti
  unfold addMulti
  by_cases hu : Store.untyped qs dss sss = true
  · rw [if_pos hu, if_pos hu]
    exact ⟨rfl, b, m, H, hn, fun x hx => Or.inl hx, Changes.refl _ _⟩
  rw [if_neg hu, if_neg hu]
  generalize (Ranx.addBulk s.data qs dss sss).1 = D' at *
  generalize (Ranx.addBulk s.data qs dss sss).2 = er at *
  rw [hres]
  have ha' : h'[a]? = some (.run b s.sorted) := by
    rw [e6.2 a (look_lt H.obj) (by simpa using H.ne.1), H.obj]
  cases er with
  | some e =>
    rw [bind_ok h1, bind_error e1]
    refine ⟨rfl, b, m', ⟨ha', e2, e3⟩, e4, ?_, e6.mono (by simp [foot])⟩
    intro x hx
    simp only [foot, List.mem_cons] at hx ⊢
    rcases hx with hx | hx | hx
    · exact Or.inl (Or.inl hx)
    · exact Or.inl (Or.inr (Or.inl hx))
    · rcases e5 x hx with hx | hx
      · exact Or.inl (Or.inr (Or.inr hx))
      · exact Or.inr hx
  | none =>
    obtain ⟨e, b1, e', b', f1, f2, mm, f3, f4, f5, f6, f7⟩ := sortBoth_ok S e2 e3
    rw [bind_ok h1, bind_ok e1, bind_ok f1, bind_ok f2, bind_ok (setRun_apply _ _ _ _), setRun_apply]
    have hal := look_lt ha'
    have hna : a ≠ b' := by omega
    have hl := e6.1
    refine ⟨rfl, b', mm, ⟨?_, ?_, ?_⟩, f5, ?_, ?_⟩
    · simp only
      rw [List.getElem?_set_self]
      simp
      omega
    · rw [List.getElem?_set_ne hna, List.getElem?_set_ne hna]
      exact f3
    · refine f4.congr fun x hx => ?_
      have : a ≠ x := by have := f7 x hx; omega
      rw [List.getElem?_set_ne this, List.getElem?_set_ne this]
    · intro x hx
      simp only [foot, List.mem_cons] at hx ⊢
      rcases hx with hx | hx | hx
      · exact Or.inl (Or.inl hx)
      · exact Or.inr (by omega)
      · exact Or.inr (by have := f7 x hx; omega)
    · have hca : Changes (foot a b m) h (h' ++ e ++ e') := by
        rw [List.append_assoc]
        exact (e6.mono (by simp [foot])).trans (Changes.app [] h' _) (by simp)
      refine (hca.trans (Changes.set (F := [a]) _ _ (Or.inl (by simp))) ?_).trans
        (Changes.set (F := [a]) _ _ (Or.inl (by simp))) ?_ <;>
      · intro x hx
        rw [List.mem_singleton] at hx
        exact Or.inl (by simp [foot, hx])

/-! make_comparable -/

theorem addMissing_heap (qs : List κ) :
    ∀ (h : Mem κ δ β) (b : Nat) (m : Dict κ Nat) (D : Dict κ (Dict δ β)), h[b]? = some (.queries m) →
      QRep h m D → (Dict.values m).Nodup →
    ∃ h' m', addMissing b qs h = (.ok (), h') ∧ h'[b]? = some (.queries m') ∧
      QRep h' m' (qs.foldl (fun d q => if d.contains q then d else d.set q []) D) ∧
      (Dict.values m').Nodup ∧ (∀ x ∈ Dict.values m', x ∈ Dict.values m ∨ h.length ≤ x) ∧
      Changes [b] h h' := by
  induction qs with
  | nil => intro h b m D hb H hn; exact ⟨h, m, rfl, hb, H, hn, fun x hx => Or.inl hx, Changes.refl _ _⟩
  | cons q qs ih =>
    intro h b m D hb H hn
    have h1 : (readQueries b : Prog κ δ β _) h = (.ok m, h) := by simp only [readQueries, hb]
    rw [List.foldl_cons]
    by_cases hq : m.contains q = true
    · have hq' : D.contains q = true := H.contains q ▸ hq
      rw [if_pos hq']
      obtain ⟨h', m', e1, e2⟩ := ih h b m D hb H hn
      refine ⟨h', m', ?_, e2⟩
      rw [addMissing, bind_ok h1, ensureQuery, if_pos hq, bind_ok (pure_apply _ _), e1]
    · have hq' : ¬ D.contains q = true := by rw [← H.contains q]; exact hq
      rw [if_neg hq']
      have hg : m.get? q = none := by
        unfold Dict.contains at hq
        cases hg : m.get? q with
        | none => rfl
        | some x => rw [hg] at hq; simp at hq
      obtain ⟨h2, f1, f2, f3, f4, f5, f6⟩ := addEmpty_spec hb H hn q hg
      obtain ⟨h', m', e1, e2, e3, e4, e5, e6⟩ := ih h2 b _ _ f2 f3 f4
      refine ⟨h', m', ?_, e2, e3, e4, ?_, f6.trans e6 (fun x hx => Or.inl hx)⟩
      · rw [addMissing, bind_ok h1, bind_ok f1, e1]
      · intro x hx
        rcases e5 x hx with hx | hx
        · exact f5 x hx
        · exact Or.inr (le_trans f6.1 hx)

theorem delExtra_heap (qs ks : List κ) :
    ∀ (h : Mem κ δ β) (b : Nat) (m : Dict κ Nat) (D : Dict κ (Dict δ β)), h[b]? = some (.queries m) →
      QRep h m D →
    ∃ h' m', delExtra b qs ks h = (.ok (), h') ∧ h'[b]? = some (.queries m') ∧
      QRep h' m' (ks.foldl (fun d q => if qs.contains q then d else d.del q) D) ∧
      (Dict.values m').Sublist (Dict.values m) ∧ Changes [b] h h' ∧ h'.length = h.length := by
  induction ks with
  | nil => intro h b m D hb H; exact ⟨h, m, rfl, hb, H, List.Sublist.refl _, Changes.refl _ _, rfl⟩
  | cons k ks ih =>
    intro h b m D hb H
    rw [List.foldl_cons]
    by_cases hk : qs.contains k = true
    · rw [if_pos hk]
      obtain ⟨h', m', e1, e2⟩ := ih h b m D hb H
      refine ⟨h', m', ?_, e2⟩
      rw [delExtra, delUnless, if_pos hk, bind_ok (pure_apply _ _), e1]
    · rw [if_neg hk]
      have h1 : (delQuery b k : Prog κ δ β Unit) h = (.ok (), h.set b (.queries (m.del k))) := by
        simp only [delQuery, hb]
      have hq1 : QRep (h.set b (.queries (m.del k))) (m.del k) (D.del k) := by
        refine (H.del k).congr fun x hx => List.getElem?_set_ne ?_
        rintro rfl
        obtain ⟨r, hr⟩ := H.values.mem ((values_del_sublist m k).subset hx)
        rw [hb] at hr; cases hr
      obtain ⟨h', m', e1, e2, e3, e4, e5, e6⟩ := ih _ b _ _
        (by rw [List.getElem?_set_self (look_lt hb)]) hq1
      refine ⟨h', m', ?_, e2, e3, e4.trans (values_del_sublist m k), ?_, by simpa using e6⟩
      · rw [delExtra, delUnless, if_neg hk, bind_ok h1, e1]
      · exact (Changes.set (F := [b]) _ _ (Or.inl (by simp))).trans e5 (fun x hx => Or.inl hx)

theorem refines_makeComparable [LE β] [Neg β] (S : ArgSort β) {h : Mem κ δ β} {a b : Nat} {m : Dict κ Nat}
    {s : Store κ δ β} (H : RunAt h a b m s) (hn : (Dict.values m).Nodup) (qs : List κ) :
    Refines h a b m (makeComparable S a qs h) (s.makeComparable S qs) none := by
  have h1 : (readRun a : Prog κ δ β _) h = (.ok (b, s.sorted), h) := by simp only [readRun, H.obj]
  obtain ⟨h2, m2, e1, e2, e3, e4, e5, e6⟩ := addMissing_heap qs h b m s.data H.data H.inner hn
  have h3 : (readQueries b : Prog κ δ β _) h2 = (.ok m2, h2) := by simp only [readQueries, e2]
  obtain ⟨h4, m4, f1, f2, f3, f4, f5, f6⟩ := delExtra_heap qs m2.keys h2 b m2 _ e2 e3
  rw [e3.keys] at f3
  have ha2 : h2[a]? = some (.run b s.sorted) := by
    rw [e6.2 a (look_lt H.obj) (by simpa using H.ne.1), H.obj]
  have ha4 : h4[a]? = some (.run b s.sorted) := by
    rw [f5.2 a (look_lt ha2) (by simpa using H.ne.1), ha2]
  have hR : ∀ D, QRep h4 m4 D → RunAt h4 a b m4 (⟨D, s.sorted⟩ : Store κ δ β) := fun D hD => ⟨ha4, f2, hD⟩
  obtain ⟨h', b', m', g1, g2, g3, g4, g5⟩ := sort_spec S (hR _ f3)
  rw [makeComparable, bind_ok h1, bind_ok e1, bind_ok h3, bind_ok f1, g1]
  refine ⟨rfl, b', m', g2, g3, ?_, ?_⟩
  · intro x hx
    rcases List.mem_cons.mp hx with rfl | hx
    · exact Or.inl (by simp [foot])
    · exact Or.inr (le_trans (le_trans e6.1 f5.1) (g4 x hx))
  · refine ((e6.mono (by simp [foot])).trans f5 ?_).trans g5 ?_ <;>
    · intro x hx
      rw [List.mem_singleton] at hx
      exact Or.inl (by simp [foot, hx])

theorem refines_op [LE β] [Neg β] (S : ArgSort β) {h : Mem κ δ β} {a b : Nat} {m : Dict κ Nat}
    {s : Store κ δ β} (H : RunAt h a b m s) (hn : (Dict.values m).Nodup) (o : Store.Op κ δ β) :
    Refines h a b m (op S a o h) (s.step S o).1 (s.step S o).2 := by
  cases o with
  | addScore q d v => exact refines_addScore H hn q d v
  | add q ds ss => exact refines_addMulti S H hn _ _ _
  | addMulti qs dss sss => exact refines_addMulti S H hn _ _ _
  | sort => exact refines_sort S H
  | makeComparable qs => exact refines_makeComparable S H hn qs
  | toTypedList => exact refines_ensureSorted S H hn

end
end Ranx.Heap
