import Verif.Lemmas.Compare

/-! # Lemmas: statistical comparisons and win/tie/loss tables -/

set_option linter.unusedSectionVars false

namespace Ranx
open Dict Store Eval Metrics Py Stat Rep
variable {α : Type*} [Field α] [LinearOrder α]

/-- one test: Fisher or Student -/
def oneTest (E : Env α) (test : Str) (n : Nat) (maxP : α) (i j : Nat) (m : Str) (c t : List (Num α)) :
    Except Err (Result α) :=
  if test = "fisher".toList then fisher (E.coin i j m) (E.sched i j m) c t n maxP
  else student E.ttest c t maxP

theorem pairTest_ok (E : Env α) (test : Str) (n : Nat) (maxP : α) (i j : Nat)
    (c t : Dict Str (List (Num α))) (ms : List Str) (acc d : Dict Str (Result α))
    (ht : test = "fisher".toList ∨ test = "student".toList)
    (h : pairTest E test n maxP i j c t ms acc = .ok d) (m : Str) :
    (m ∈ ms → ∃ cs ts res, c.get? m = some cs ∧ t.get? m = some ts ∧ d.get? m = some res ∧
      oneTest E test n maxP i j m cs ts = .ok res) ∧
    (m ∉ ms → d.get? m = acc.get? m) := by
  induction ms generalizing acc with
  | nil => cases h; simp
  | cons m' ms ih =>
    unfold pairTest at h
    simp only at h
    rw [if_pos ht] at h
    cases hc : c.get? m' with
    | none => rw [hc] at h; cases h
    | some cs =>
      cases htm : t.get? m' with
      | none => rw [hc, htm] at h; cases h
      | some ts =>
        rw [hc, htm] at h
        simp only at h
        have e : (if test = "fisher".toList then fisher (E.coin i j m') (E.sched i j m') cs ts n maxP
          else student E.ttest cs ts maxP) = oneTest E test n maxP i j m' cs ts := rfl
        rw [e] at h
        cases hr : oneTest E test n maxP i j m' cs ts with
        | error e => rw [hr] at h; cases h
        | ok res =>
          rw [hr] at h
          simp only at h
          obtain ⟨h1, h2⟩ := ih _ h
          constructor
          · intro hm
            by_cases hin : m ∈ ms
            · exact h1 hin
            · have : m = m' := by simpa [hin] using hm
              subst this
              refine ⟨cs, ts, res, hc, htm, ?_, hr⟩
              rw [h2 hin, get?_set, if_pos rfl]
          · intro hm
            simp only [List.mem_cons, not_or] at hm
            rw [h2 hm.2, get?_set_ne _ _ (Ne.symm hm.1)]

theorem oneTest_succeeds (E : Env α) (test : Str) (n : Nat) (maxP : α) (i j : Nat) (m : Str)
    (c t : List (Num α)) (h : c.length = t.length) : ∃ res, oneTest E test n maxP i j m c t = .ok res := by
  unfold oneTest
  by_cases hf : test = "fisher".toList
  · rw [if_pos hf]
    unfold fisher
    simp only
    rw [if_neg (by simp [h])]
    exact ⟨_, rfl⟩
  · rw [if_neg hf]
    unfold student
    rw [if_neg (by simp [h])]
    exact ⟨_, rfl⟩

theorem pairTest_succeeds (E : Env α) (test : Str) (n : Nat) (maxP : α) (i j : Nat)
    (c t : Dict Str (List (Num α))) (ms : List Str) (acc : Dict Str (Result α))
    (ht : test = "fisher".toList ∨ test = "student".toList)
    (h : ∀ m ∈ ms, ∃ cs ts, c.get? m = some cs ∧ t.get? m = some ts ∧ cs.length = ts.length) :
    ∃ d, pairTest E test n maxP i j c t ms acc = .ok d := by
  induction ms generalizing acc with
  | nil => exact ⟨acc, rfl⟩
  | cons m ms ih =>
    obtain ⟨cs, ts, h1, h2, h3⟩ := h m (by simp)
    obtain ⟨res, hres⟩ := oneTest_succeeds E test n maxP i j m cs ts h3
    unfold pairTest
    simp only
    rw [if_pos ht, h1, h2]
    simp only
    have e : (if test = "fisher".toList then fisher (E.coin i j m) (E.sched i j m) cs ts n maxP
      else student E.ttest cs ts maxP) = oneTest E test n maxP i j m cs ts := rfl
    rw [e, hres]
    exact ih _ (fun m hm => h m (by simp [hm]))

/-- every stored comparison comes from a test of the two models it is stored under -/
def GoodComps (E : Env α) (test : Str) (n : Nat) (maxP : α) (scores : Dict Str (Dict Str (List (Num α))))
    (comps : Comparisons α) : Prop :=
  ∀ key d, comps.get? key = some d → ∃ (i j : Nat) (a b : Str) (ca cb : Dict Str (List (Num α))),
    key = [a, b].toFinset ∧ scores.get? a = some ca ∧ scores.get? b = some cb ∧
    ∀ m ∈ ca.keys, ∃ cs ts res, ca.get? m = some cs ∧ cb.get? m = some ts ∧ d.get? m = some res ∧
      oneTest E test n maxP i j m cs ts = .ok res

theorem treatments_ok (E : Env α) (test : Str) (n : Nat) (maxP : α)
    (scores : Dict Str (Dict Str (List (Num α)))) (ht : test = "fisher".toList ∨ test = "student".toList)
    (i : Nat) (control : Str) (cs : Dict Str (List (Num α))) (hcs : scores.get? control = some cs)
    (ts : List (Str × Nat)) (acc comps : Comparisons α)
    (h : treatments E test n maxP scores i control cs ts acc = .ok comps)
    (hg : GoodComps E test n maxP scores acc) :
    GoodComps E test n maxP scores comps ∧ (∀ k ∈ acc.keys, k ∈ comps.keys) ∧
    ∀ b ∈ ts.map Prod.fst, control ≠ b → [control, b].toFinset ∈ comps.keys := by
  induction ts generalizing acc with
  | nil => cases h; exact ⟨hg, fun _ h => h, by simp⟩
  | cons p t ih =>
    obtain ⟨b, j⟩ := p
    unfold treatments at h
    by_cases hne : control ≠ b
    · rw [if_pos hne] at h
      cases hb : scores.get? b with
      | none => rw [hb] at h; cases h
      | some tb =>
        rw [hb] at h
        simp only at h
        cases hp : pairTest E test n maxP i j cs tb cs.keys [] with
        | error e => rw [hp] at h; cases h
        | ok r =>
          rw [hp] at h
          simp only at h
          obtain ⟨g1, g2, g3⟩ := ih _ h (by
            intro key d hd
            unfold FrozensetDict.setItem at hd
            rw [get?_set] at hd
            by_cases hk : [control, b].toFinset = key
            · rw [if_pos hk] at hd
              cases hd
              exact ⟨i, j, control, b, cs, tb, hk.symm, hcs, hb, fun m hm =>
                (pairTest_ok E test n maxP i j cs tb _ _ _ ht hp m).1 hm⟩
            · rw [if_neg hk] at hd
              exact hg key d hd)
          refine ⟨g1, fun k hk => g2 k ?_, ?_⟩
          · unfold FrozensetDict.setItem
            rw [mem_keys_set]; exact .inr hk
          · intro b' hb' hne'
            rcases List.mem_cons.1 hb' with rfl | hb'
            · exact g2 _ (by unfold FrozensetDict.setItem; rw [mem_keys_set]; exact .inl rfl)
            · exact g3 b' hb' hne'
    · rw [if_neg hne] at h
      obtain ⟨g1, g2, g3⟩ := ih _ h hg
      refine ⟨g1, g2, ?_⟩
      intro b' hb' hne'
      rcases List.mem_cons.1 hb' with rfl | hb'
      · exact absurd hne' hne
      · exact g3 b' hb' hne'

theorem controls_ok (E : Env α) (test : Str) (n : Nat) (maxP : α)
    (scores : Dict Str (Dict Str (List (Num α)))) (ht : test = "fisher".toList ∨ test = "student".toList)
    (names cs : List (Str × Nat)) (acc comps : Comparisons α)
    (h : controls E test n maxP scores names cs acc = .ok comps)
    (hg : GoodComps E test n maxP scores acc) :
    GoodComps E test n maxP scores comps ∧ (∀ k ∈ acc.keys, k ∈ comps.keys) ∧
    ∀ a ∈ cs.map Prod.fst, ∀ b ∈ names.map Prod.fst, a ≠ b → [a, b].toFinset ∈ comps.keys := by
  induction cs generalizing acc with
  | nil => cases h; exact ⟨hg, fun _ h => h, by simp⟩
  | cons p t ih =>
    obtain ⟨a, i⟩ := p
    unfold controls at h
    cases ha : scores.get? a with
    | none => rw [ha] at h; cases h
    | some ca =>
      rw [ha] at h
      simp only at h
      cases htr : treatments E test n maxP scores i a ca names acc with
      | error e => rw [htr] at h; cases h
      | ok acc' =>
        rw [htr] at h
        simp only at h
        obtain ⟨t1, t2, t3⟩ := treatments_ok E test n maxP scores ht i a ca ha names acc acc' htr hg
        obtain ⟨g1, g2, g3⟩ := ih _ h t1
        refine ⟨g1, fun k hk => g2 k (t2 k hk), ?_⟩
        intro a' ha' b hb hne
        rcases List.mem_cons.1 ha' with rfl | ha'
        · exact g2 _ (t3 b hb hne)
        · exact g3 a' ha' b hb hne

theorem pair_eq {a b a' b' : Str} (h : [a, b].toFinset = [a', b'].toFinset) :
    (a = a' ∧ b = b') ∨ (a = b' ∧ b = a') := by
  have hc : ∀ x, x ∈ [a, b] ↔ x ∈ [a', b'] := fun x => by
    rw [← List.mem_toFinset, h, List.mem_toFinset]
  have h1 := (hc a).1 (by simp)
  have h2 := (hc b).1 (by simp)
  have h3 := (hc a').2 (by simp)
  have h4 := (hc b').2 (by simp)
  simp only [List.mem_cons, List.not_mem_nil, or_false] at h1 h2 h3 h4
  rcases h1 with rfl | rfl <;> rcases h2 with rfl | rfl <;> simp_all

/-- the comparison stored for two different models -/
theorem significance_ok (E : Env α) (names : List Str) (scores : Dict Str (Dict Str (List (Num α))))
    (test : Str) (n : Nat) (maxP : α) (ht : test = "fisher".toList ∨ test = "student".toList)
    (comps : Comparisons α) (h : significance E names scores test n maxP = .ok comps)
    (a b : Str) (ha : a ∈ names) (hb : b ∈ names) (hab : a ≠ b)
    (ca cb : Dict Str (List (Num α))) (hca : scores.get? a = some ca) (hcb : scores.get? b = some cb)
    (hk : ∀ m, m ∈ ca.keys ↔ m ∈ cb.keys) (m : Str) (hm : m ∈ ca.keys) :
    ∃ d la lb res i j, comps.getItem [a, b] = some d ∧ ca.get? m = some la ∧ cb.get? m = some lb ∧
      d.get? m = some res ∧
      (oneTest E test n maxP i j m la lb = .ok res ∨ oneTest E test n maxP i j m lb la = .ok res) := by
  unfold significance at h
  rw [if_pos ht] at h
  obtain ⟨g1, -, g3⟩ := controls_ok E test n maxP scores ht _ _ _ _ h (by intro key d hd; cases hd)
  have hmem : [a, b].toFinset ∈ comps.keys := by
    apply g3 a _ b _ hab
    · rw [List.zipIdx_map_fst]; exact ha
    · rw [List.zipIdx_map_fst]; exact hb
  obtain ⟨d, hd⟩ := Option.isSome_iff_exists.1 (get?_isSome.2 hmem)
  obtain ⟨i, j, a', b', ca', cb', hkey, ha', hb', hall⟩ := g1 _ d hd
  rcases pair_eq hkey with ⟨rfl, rfl⟩ | ⟨rfl, rfl⟩
  · rw [hca] at ha'; cases ha'
    rw [hcb] at hb'; cases hb'
    obtain ⟨cs, ts, res, h1, h2, h3, h4⟩ := hall m hm
    exact ⟨d, cs, ts, res, i, j, hd, h1, h2, h3, .inl h4⟩
  · rw [hcb] at ha'; cases ha'
    rw [hca] at hb'; cases hb'
    obtain ⟨cs, ts, res, h1, h2, h3, h4⟩ := hall m ((hk m).1 hm)
    exact ⟨d, ts, cs, res, i, j, hd, h2, h1, h3, .inr h4⟩

/-! ### the whole computation succeeds -/

theorem treatments_succeeds (E : Env α) (test : Str) (n : Nat) (maxP : α)
    (scores : Dict Str (Dict Str (List (Num α)))) (ht : test = "fisher".toList ∨ test = "student".toList)
    (i : Nat) (control : Str) (cs : Dict Str (List (Num α)))
    (ts : List (Str × Nat)) (acc : Comparisons α)
    (h : ∀ p ∈ ts, ∃ tb, scores.get? p.1 = some tb ∧ ∀ m ∈ cs.keys, ∃ x y, cs.get? m = some x ∧
      tb.get? m = some y ∧ x.length = y.length) :
    ∃ comps, treatments E test n maxP scores i control cs ts acc = .ok comps := by
  induction ts generalizing acc with
  | nil => exact ⟨acc, rfl⟩
  | cons p t ih =>
    obtain ⟨b, j⟩ := p
    unfold treatments
    by_cases hne : control ≠ b
    · rw [if_pos hne]
      obtain ⟨tb, htb, hall⟩ := h (b, j) (by simp)
      simp only at htb
      rw [htb]
      simp only
      obtain ⟨r, hr⟩ := pairTest_succeeds E test n maxP i j cs tb cs.keys [] ht hall
      rw [hr]
      exact ih _ (fun p hp => h p (by simp [hp]))
    · rw [if_neg hne]
      exact ih _ (fun p hp => h p (by simp [hp]))

theorem controls_succeeds (E : Env α) (test : Str) (n : Nat) (maxP : α)
    (scores : Dict Str (Dict Str (List (Num α)))) (ht : test = "fisher".toList ∨ test = "student".toList)
    (names cs : List (Str × Nat)) (acc : Comparisons α)
    (h : ∀ p ∈ cs, ∃ ca, scores.get? p.1 = some ca ∧ ∀ q ∈ names, ∃ tb, scores.get? q.1 = some tb ∧
      ∀ m ∈ ca.keys, ∃ x y, ca.get? m = some x ∧ tb.get? m = some y ∧ x.length = y.length) :
    ∃ comps, controls E test n maxP scores names cs acc = .ok comps := by
  induction cs generalizing acc with
  | nil => exact ⟨acc, rfl⟩
  | cons p t ih =>
    obtain ⟨a, i⟩ := p
    unfold controls
    obtain ⟨ca, hca, hall⟩ := h (a, i) (by simp)
    simp only at hca
    rw [hca]
    simp only
    obtain ⟨acc', h'⟩ := treatments_succeeds E test n maxP scores ht i a ca names acc hall
    rw [h']
    exact ih _ (fun p hp => h p (by simp [hp]))

/-! ### Tukey -/

/-- what is stored for a key and a metric -/
def cell (comps : Comparisons α) (key : Finset Str) (m : Str) : Option (Result α) :=
  (comps.get? key).bind (fun d => d.get? m)

theorem tukeyStore_cell (m : Str) (acc : Comparisons α) (r : Str × Str × Result α) (key : Finset Str) (m' : Str) :
    cell (tukeyStore m acc r) key m' =
      if key = [r.1, r.2.1].toFinset ∧ m' = m ∧ key ∈ acc.keys then some r.2.2 else cell acc key m' := by
  unfold tukeyStore FrozensetDict.getItem FrozensetDict.setItem cell
  cases hg : acc.get? [r.1, r.2.1].toFinset with
  | none =>
    rw [if_neg]
    rintro ⟨rfl, -, hk⟩
    exact get?_eq_none.1 hg hk
  | some d =>
    simp only
    rw [get?_set]
    by_cases hk : [r.1, r.2.1].toFinset = key
    · subst hk
      rw [if_pos rfl]
      have hin : [r.1, r.2.1].toFinset ∈ acc.keys := get?_isSome.1 (by rw [hg]; rfl)
      simp only [Option.bind_some]
      rw [get?_set, hg]
      by_cases hm : m = m'
      · subst hm; rw [if_pos (rfl : m = m)]; exact (if_pos ⟨trivial, rfl, hin⟩).symm
      · rw [if_neg hm, if_neg (fun h => hm h.2.1.symm)]; rfl
    · rw [if_neg hk, if_neg (fun h => hk h.1.symm)]

theorem tukeyStore_keys (m : Str) (acc : Comparisons α) (r : Str × Str × Result α) (key : Finset Str) :
    key ∈ (tukeyStore m acc r).keys ↔ key ∈ acc.keys := by
  unfold tukeyStore FrozensetDict.getItem FrozensetDict.setItem
  cases hg : acc.get? [r.1, r.2.1].toFinset with
  | none => rfl
  | some d =>
    simp only
    rw [mem_keys_set]
    constructor
    · rintro (rfl | h)
      · exact get?_isSome.1 (by rw [hg]; rfl)
      · exact h
    · exact .inr

theorem tukeyStore_fold (m : Str) (res : List (Str × Str × Result α)) (acc : Comparisons α)
    (key : Finset Str) (hk : key ∈ acc.keys) (m' : Str) :
    key ∈ (res.foldl (tukeyStore m) acc).keys ∧
    (m' ≠ m → cell (res.foldl (tukeyStore m) acc) key m' = cell acc key m') ∧
    cell (res.foldl (tukeyStore m) acc) key m =
      ((res.reverse.find? (fun r => decide (key = [r.1, r.2.1].toFinset))).map (fun r => some r.2.2)).getD
        (cell acc key m) := by
  induction res generalizing acc with
  | nil => exact ⟨hk, fun _ => rfl, rfl⟩
  | cons r t ih =>
    obtain ⟨h1, h2, h3⟩ := ih (tukeyStore m acc r) ((tukeyStore_keys m acc r key).2 hk)
    refine ⟨h1, ?_, ?_⟩
    · intro hm
      rw [List.foldl_cons, h2 hm, tukeyStore_cell, if_neg (fun h => hm h.2.1)]
    · rw [List.foldl_cons, h3, List.reverse_cons, List.find?_append]
      cases hf : List.find? (fun r => decide (key = [r.1, r.2.1].toFinset)) t.reverse with
      | some x => simp
      | none =>
        simp only [Option.none_or, List.find?_singleton, Option.map_none, Option.getD_none]
        rw [tukeyStore_cell]
        by_cases hkey : key = [r.1, r.2.1].toFinset
        · rw [if_pos ⟨hkey, rfl, hk⟩]
          rw [if_pos (by rw [decide_eq_true_iff]; exact hkey)]; rfl
        · rw [if_neg (fun h => hkey h.1)]
          rw [if_neg (by rw [decide_eq_true_iff]; exact hkey)]; rfl

theorem tukeyAll_ok (E : Env α) (names : List Str) (scores : Dict Str (Dict Str (List (Num α)))) (maxP : α)
    (ms : List Str) (acc comps : Comparisons α) (h : tukeyAll E names scores maxP ms acc = .ok comps)
    (a b : Str) (ha : a ∈ names) (hb : b ∈ names) (hk : [a, b].toFinset ∈ acc.keys) (m : Str) :
    [a, b].toFinset ∈ comps.keys ∧ (m ∉ ms → cell comps [a, b].toFinset m = cell acc [a, b].toFinset m) ∧
    (m ∈ ms → ∃ sc p, scoresFor names scores m = .ok sc ∧ E.tukey sc = .ok p ∧
      ∃ (x y : Nat), ((names[x]? = some a ∧ names[y]? = some b) ∨ (names[x]? = some b ∧ names[y]? = some a)) ∧
        cell comps [a, b].toFinset m = some ⟨p x y, leNum (p x y) (.val maxP)⟩) := by
  induction ms generalizing acc with
  | nil => cases h; exact ⟨hk, fun _ => rfl, by simp⟩
  | cons m' ms ih =>
    unfold tukeyAll at h
    cases hsc : scoresFor names scores m' with
    | error e => rw [hsc] at h; cases h
    | ok sc =>
      rw [hsc] at h
      simp only at h
      cases hp : E.tukey sc with
      | error e => unfold tukeyTest at h; rw [hp] at h; cases h
      | ok p =>
        unfold tukeyTest at h
        rw [hp] at h
        simp only at h
        set res := names.zipIdx.flatMap (fun a => names.zipIdx.map (fun b =>
          (a.1, b.1, (⟨p a.2 b.2, leNum (p a.2 b.2) (.val maxP)⟩ : Result α)))) with hres
        obtain ⟨f1, f2, f3⟩ := tukeyStore_fold m' res acc _ hk m
        obtain ⟨g1, g2, g3⟩ := ih _ h f1
        refine ⟨g1, ?_, ?_⟩
        · intro hm
          simp only [List.mem_cons, not_or] at hm
          rw [g2 hm.2, f2 hm.1]
        · intro hm
          by_cases hin : m ∈ ms
          · exact g3 hin
          · have : m = m' := by simpa [hin] using hm
            subst this
            refine ⟨sc, p, hsc, hp, ?_⟩
            rw [g2 hin, f3]
            obtain ⟨x, hx⟩ := List.getElem?_of_mem ha
            obtain ⟨y, hy⟩ := List.getElem?_of_mem hb
            have hmem : (a, b, (⟨p x y, leNum (p x y) (.val maxP)⟩ : Result α)) ∈ res := by
              rw [hres, List.mem_flatMap]
              refine ⟨(a, x), List.mk_mem_zipIdx_iff_getElem?.2 hx, List.mem_map.2
                ⟨(b, y), List.mk_mem_zipIdx_iff_getElem?.2 hy, rfl⟩⟩
            cases hf : res.reverse.find? (fun r => decide ([a, b].toFinset = [r.1, r.2.1].toFinset)) with
            | none =>
              have := List.find?_eq_none.1 hf _ (List.mem_reverse.2 hmem)
              simp only at this
              exact absurd (decide_eq_true trivial) this
            | some r =>
              have hr1 := List.find?_some hf
              have hr2 := List.mem_reverse.1 (List.mem_of_find?_eq_some hf)
              have hr1' := of_decide_eq_true hr1
              rw [hres, List.mem_flatMap] at hr2
              obtain ⟨⟨a', x'⟩, hx', hr2⟩ := hr2
              obtain ⟨⟨b', y'⟩, hy', rfl⟩ := List.mem_map.1 hr2
              simp only at hr1'
              have hx'' := List.mk_mem_zipIdx_iff_getElem?.1 hx'
              have hy'' := List.mk_mem_zipIdx_iff_getElem?.1 hy'
              refine ⟨x', y', ?_, rfl⟩
              rcases pair_eq hr1' with ⟨rfl, rfl⟩ | ⟨rfl, rfl⟩
              · exact .inl ⟨hx'', hy''⟩
              · exact .inr ⟨hx'', hy''⟩

theorem init_inner (c : Str) (ts : List Str) (acc : Comparisons α) (k : Finset Str) :
    k ∈ (ts.foldl (fun acc b => FrozensetDict.setItem acc [c, b] []) acc).keys ↔
      k ∈ acc.keys ∨ ∃ b ∈ ts, k = [c, b].toFinset := by
  induction ts generalizing acc with
  | nil => simp
  | cons b t ih =>
    rw [List.foldl_cons, ih]
    unfold FrozensetDict.setItem
    rw [mem_keys_set]
    constructor
    · rintro ((h | h) | ⟨x, hx, h⟩)
      · exact .inr ⟨b, by simp, h⟩
      · exact .inl h
      · exact .inr ⟨x, by simp [hx], h⟩
    · rintro (h | ⟨x, hx, h⟩)
      · exact .inl (.inr h)
      · rcases List.mem_cons.1 hx with rfl | hx
        · exact .inl (.inl h)
        · exact .inr ⟨x, hx, h⟩

theorem init_outer (names : List Str) (l : List (Str × Nat)) (acc : Comparisons α) (k : Finset Str) :
    k ∈ (l.foldl (fun acc a => (names.drop a.2).foldl (fun acc b =>
      FrozensetDict.setItem acc [a.1, b] []) acc) acc).keys ↔
      k ∈ acc.keys ∨ ∃ a ∈ l, ∃ b ∈ names.drop a.2, k = [a.1, b].toFinset := by
  induction l generalizing acc with
  | nil => simp
  | cons a t ih =>
    rw [List.foldl_cons, ih, init_inner]
    constructor
    · rintro ((h | h) | ⟨x, hx, h⟩)
      · exact .inl h
      · exact .inr ⟨a, by simp, h⟩
      · exact .inr ⟨x, by simp [hx], h⟩
    · rintro (h | ⟨x, hx, h⟩)
      · exact .inl (.inl h)
      · rcases List.mem_cons.1 hx with rfl | hx
        · exact .inl (.inr h)
        · exact .inr ⟨x, hx, h⟩

theorem tukeyInit_keys (names : List Str) (a b : Str) (ha : a ∈ names) (hb : b ∈ names) :
    [a, b].toFinset ∈ (tukeyInit (α := α) names).keys := by
  unfold tukeyInit
  rw [init_outer]
  right
  obtain ⟨x, hx⟩ := List.getElem?_of_mem ha
  obtain ⟨y, hy⟩ := List.getElem?_of_mem hb
  rcases Nat.le_total x y with h | h
  · refine ⟨(a, x), List.mk_mem_zipIdx_iff_getElem?.2 hx, b, ?_, rfl⟩
    refine List.mem_iff_getElem?.2 ⟨y - x, ?_⟩
    rw [List.getElem?_drop]
    simpa [Nat.add_sub_cancel' h] using hy
  · refine ⟨(b, y), List.mk_mem_zipIdx_iff_getElem?.2 hy, a, ?_, ?_⟩
    · refine List.mem_iff_getElem?.2 ⟨x - y, ?_⟩
      rw [List.getElem?_drop]
      simpa [Nat.add_sub_cancel' h] using hx
    · ext z; simp [or_comm]

/-! ### win / tie / loss -/

/-- an entry of the table -/
def wtlAt (t : Dict (Str × Str) (Dict Str WTL)) (p : Str × Str) (m : Str) : Option WTL :=
  (t.get? p).bind (fun d => d.get? m)

theorem wtlMetrics_ok (c t : Dict Str (List (Num α))) (pair : Str × Str) (ms : List Str)
    (acc acc' : Dict (Str × Str) (Dict Str WTL)) (h : wtlMetrics c t pair ms acc = .ok acc')
    (p : Str × Str) (m : Str) :
    ((p = pair ∧ m ∈ ms) → ∃ cs ts, c.get? m = some cs ∧ t.get? m = some ts ∧
      wtlAt acc' p m = some (winTieLossOf cs ts)) ∧
    (¬ (p = pair ∧ m ∈ ms) → wtlAt acc' p m = wtlAt acc p m) := by
  induction ms generalizing acc with
  | nil => cases h; simp
  | cons m' ms ih =>
    unfold wtlMetrics at h
    cases hc : c.get? m' with
    | none => rw [hc] at h; cases h
    | some cs =>
      cases ht : t.get? m' with
      | none => rw [hc, ht] at h; cases h
      | some ts =>
        rw [hc, ht] at h
        simp only at h
        obtain ⟨h1, h2⟩ := ih _ h
        have hset : wtlAt (acc.set pair (((acc.get? pair).getD []).set m' (winTieLossOf cs ts))) p m =
            if p = pair ∧ m = m' then some (winTieLossOf cs ts) else wtlAt acc p m := by
          unfold wtlAt
          rw [get?_set]
          by_cases hp : pair = p
          · subst hp
            rw [if_pos rfl, Option.bind_some, get?_set]
            by_cases hm : m' = m
            · rw [if_pos hm, if_pos ⟨rfl, hm.symm⟩]
            · rw [if_neg hm, if_neg (fun h => hm h.2.symm)]
              cases acc.get? pair <;> simp [Dict.get?]
          · rw [if_neg hp, if_neg (fun h => hp h.1.symm)]
        constructor
        · rintro ⟨rfl, hm⟩
          by_cases hin : m ∈ ms
          · exact h1 ⟨rfl, hin⟩
          · have : m = m' := by simpa [hin] using hm
            subst this
            refine ⟨cs, ts, hc, ht, ?_⟩
            rw [h2 (fun h => hin h.2), hset, if_pos ⟨rfl, rfl⟩]
        · intro hn
          have hn' : ¬ (p = pair ∧ m ∈ ms) := fun h => hn ⟨h.1, by simp [h.2]⟩
          rw [h2 hn', hset, if_neg (fun h => hn ⟨h.1, by simp [h.2]⟩)]

theorem wtlMetrics_succeeds (c t : Dict Str (List (Num α))) (pair : Str × Str) (ms : List Str)
    (acc : Dict (Str × Str) (Dict Str WTL)) (h : ∀ m ∈ ms, m ∈ c.keys ∧ m ∈ t.keys) :
    ∃ acc', wtlMetrics c t pair ms acc = .ok acc' := by
  induction ms generalizing acc with
  | nil => exact ⟨acc, rfl⟩
  | cons m ms ih =>
    obtain ⟨cs, hc⟩ := Option.isSome_iff_exists.1 (get?_isSome.2 (h m (by simp)).1)
    obtain ⟨ts, ht⟩ := Option.isSome_iff_exists.1 (get?_isSome.2 (h m (by simp)).2)
    unfold wtlMetrics
    rw [hc, ht]
    exact ih _ (fun m hm => h m (by simp [hm]))

theorem wtlPairs_ok (scores : Dict Str (Dict Str (List (Num α)))) (ms : List Str) (hms : ms ≠ [])
    (ps : List (Str × Str)) (acc acc' : Dict (Str × Str) (Dict Str WTL))
    (h : wtlPairs scores ms ps acc = .ok acc') (a b : Str) (m : Str) (hm : m ∈ ms) :
    ((a, b) ∈ ps → a ≠ b → ∃ ca cb cs ts, scores.get? a = some ca ∧ scores.get? b = some cb ∧
      ca.get? m = some cs ∧ cb.get? m = some ts ∧ wtlAt acc' (a, b) m = some (winTieLossOf cs ts)) ∧
    ((a, b) ∉ ps → wtlAt acc' (a, b) m = wtlAt acc (a, b) m) := by
  induction ps generalizing acc with
  | nil => cases h; simp
  | cons p t ih =>
    obtain ⟨c, d⟩ := p
    unfold wtlPairs at h
    by_cases hne : c ≠ d
    · rw [if_pos hne] at h
      cases hc : scores.get? c with
      | none => rw [hc] at h; simp [hms] at h
      | some ca =>
        cases hd : scores.get? d with
        | none => rw [hc, hd] at h; simp [hms] at h
        | some cb =>
          rw [hc, hd] at h
          simp only at h
          cases hw : wtlMetrics ca cb (c, d) ms acc with
          | error e => rw [hw] at h; cases h
          | ok acc1 =>
            rw [hw] at h
            simp only at h
            obtain ⟨h1, h2⟩ := ih _ h
            obtain ⟨w1, w2⟩ := wtlMetrics_ok ca cb (c, d) ms acc acc1 hw (a, b) m
            constructor
            · intro hin hab
              by_cases hin' : (a, b) ∈ t
              · exact h1 hin' hab
              · have heq : (a, b) = (c, d) := by simpa [hin'] using hin
                obtain ⟨cs, ts, e1, e2, e3⟩ := w1 ⟨heq, hm⟩
                cases heq
                exact ⟨ca, cb, cs, ts, hc, hd, e1, e2, by rw [h2 hin', e3]⟩
            · intro hin
              simp only [List.mem_cons, not_or] at hin
              rw [h2 hin.2, w2 (fun h => hin.1 h.1)]
    · rw [if_neg hne] at h
      obtain ⟨h1, h2⟩ := ih _ h
      constructor
      · intro hin hab
        rcases List.mem_cons.1 hin with heq | hin
        · cases heq; exact absurd hab hne
        · exact h1 hin hab
      · intro hin
        simp only [List.mem_cons, not_or] at hin
        exact h2 hin.2

theorem wtlPairs_succeeds (scores : Dict Str (Dict Str (List (Num α)))) (ms : List Str)
    (ps : List (Str × Str)) (acc : Dict (Str × Str) (Dict Str WTL))
    (h : ∀ p ∈ ps, ∃ ca cb, scores.get? p.1 = some ca ∧ scores.get? p.2 = some cb ∧
      ∀ m ∈ ms, m ∈ ca.keys ∧ m ∈ cb.keys) :
    ∃ acc', wtlPairs scores ms ps acc = .ok acc' := by
  induction ps generalizing acc with
  | nil => exact ⟨acc, rfl⟩
  | cons p t ih =>
    obtain ⟨c, d⟩ := p
    unfold wtlPairs
    by_cases hne : c ≠ d
    · rw [if_pos hne]
      obtain ⟨ca, cb, h1, h2, h3⟩ := h (c, d) (by simp)
      simp only at h1 h2
      rw [h1, h2]
      simp only
      obtain ⟨acc1, hw⟩ := wtlMetrics_succeeds ca cb (c, d) ms acc h3
      rw [hw]
      exact ih _ (fun p hp => h p (by simp [hp]))
    · rw [if_neg hne]
      exact ih _ (fun p hp => h p (by simp [hp]))

end Ranx
