import Verif.Props.Renaming
import Verif.Props.EvaluateNan

/-!
# C131: query ids are only names

Renaming the queries by an injective function — which changes the order in which ranx lists them — changes no mean,
no standard deviation and no exception, and every query keeps its scores under its new name.
-/

set_option linter.unusedSectionVars false

namespace Ranx
open Dict Store Eval Metrics Py
variable {κ κ' δ ι α β : Type*}

/-- both fail with the same exception, or both give the same list up to order -/
def SameUpToOrder {ν : Type*} (a b : Except Err (List ν)) : Prop :=
  (∃ e, a = .error e ∧ b = .error e) ∨ ∃ l l', a = .ok l ∧ b = .ok l' ∧ l.Perm l'

theorem collect_error {ν : Type*} {E : Err} (l : List (Except Err ν)) (hE : ∀ x ∈ l, ∀ e, x = .error e → e = E)
    (h : ∃ x ∈ l, ∃ e, x = .error e) : collect l = .error E := by
  induction l with
  | nil => simp at h
  | cons x t ih =>
    cases x with
    | error e => rw [hE _ (List.mem_cons_self ..) e rfl]; rfl
    | ok v =>
      have : ∃ x ∈ t, ∃ e, x = .error e := by
        obtain ⟨x, hx, e, rfl⟩ := h
        rcases List.mem_cons.1 hx with h | h
        · cases h
        · exact ⟨_, h, e, rfl⟩
      unfold collect
      rw [ih (fun x hx => hE x (List.mem_cons_of_mem _ hx)) this]

theorem collect_ok {ν : Type*} (l : List (Except Err ν)) (h : ¬ ∃ x ∈ l, ∃ e, x = .error e) :
    ∃ vs : List ν, l = vs.map .ok := by
  induction l with
  | nil => exact ⟨[], rfl⟩
  | cons x t ih =>
    obtain ⟨vs, rfl⟩ := ih (fun ⟨x, hx, e, he⟩ => h ⟨x, List.mem_cons_of_mem _ hx, e, he⟩)
    cases x with
    | error e => exact absurd ⟨_, List.mem_cons_self .., e, rfl⟩ h
    | ok v => exact ⟨v :: vs, rfl⟩

theorem collect_perm {ν : Type*} {E : Err} {l l' : List (Except Err ν)} (hp : l.Perm l')
    (hE : ∀ x ∈ l, ∀ e, x = .error e → e = E) : SameUpToOrder (collect l) (collect l') := by
  by_cases h : ∃ x ∈ l, ∃ e, x = .error e
  · refine .inl ⟨E, collect_error l hE h, collect_error l' (fun x hx => hE x (hp.mem_iff.2 hx)) ?_⟩
    obtain ⟨x, hx, e⟩ := h
    exact ⟨x, hp.mem_iff.1 hx, e⟩
  · obtain ⟨vs, rfl⟩ := collect_ok l h
    obtain ⟨vs', rfl⟩ := collect_ok l' (fun ⟨x, hx, e⟩ => h ⟨x, hp.mem_iff.2 hx, e⟩)
    refine .inr ⟨vs, vs', (collect_ok_iff _ _).2 rfl, (collect_ok_iff _ _).2 rfl, ?_⟩
    have := hp.map (fun x : Except Err ν => match x with | .ok v => some v | .error _ => none)
    rw [List.map_map, List.map_map] at this
    exact (List.map_perm_map_iff (Option.some_injective ν)).1 this

section
variable [LinearOrder ι] [Field α] [LinearOrder α] [IsStrictOrderedRing α]

/-- the only exception a metric raises on a query is the division by zero of bpref -/
theorem metricOf_errors (F : Fn α) (other : Str → Except Err α) (m : Str) (f : Kernel ι α)
    (hf : metricOf F other m = .ok f) (q r : Rows ι α) (e : Err) (he : f q r = .error e) : e = .zeroDivision := by
  unfold metricOf at hf
  split at hf
  · cases hf
  rename_i m' k lvl _
  split at hf
  · cases hf
  rename_i met _
  have tot : ∀ (g : Rows ι α → Rows ι α → α), Except.ok (ε := Err) (total g) = .ok f → e = .zeroDivision := by
    intro g hg
    cases hg
    cases he
  have cut : ∀ (g : Nat → Rows ι α → Rows ι α → α),
      withCutoff k (fun n => total (g n)) = .ok f → e = .zeroDivision := by
    intro g hg
    unfold withCutoff at hg
    split at hg
    · exact tot _ hg
    · cases hg
    · cases hg
  cases met
  · exact cut _ hf
  · exact cut _ hf
  · exact cut _ hf
  · exact cut _ hf
  · exact cut _ hf
  · exact tot _ hf
  · exact cut _ hf
  · exact cut _ hf
  · exact cut _ hf
  · exact cut _ hf
  · exact cut _ hf
  · exact cut _ hf
  · cases hf
    unfold Metrics.bpref at he
    simp only at he
    split at he
    · cases he; rfl
    · split at he
      · split at he <;> cases he
      · cases he
  · cases k <;> exact tot _ hf

theorem vals_perm {l l' : List (Num α)} (h : l.Perm l') :
    (vals l = none ∧ vals l' = none) ∨ ∃ v v', vals l = some v ∧ vals l' = some v' ∧ v.Perm v' := by
  by_cases hn : Num.nan ∈ l
  · exact .inl ⟨vals_nan l hn, vals_nan l' (h.mem_iff.1 hn)⟩
  · have key : ∀ l : List (Num α), Num.nan ∉ l → ∃ v : List α, l = v.map .val := by
      intro l
      induction l with
      | nil => intro _; exact ⟨[], rfl⟩
      | cons x t ih =>
        intro hx
        obtain ⟨v, rfl⟩ := ih (fun hc => hx (List.mem_cons_of_mem _ hc))
        cases x with
        | nan => exact absurd (List.mem_cons_self ..) hx
        | val x => exact ⟨x :: v, rfl⟩
    obtain ⟨v, rfl⟩ := key l hn
    obtain ⟨v', rfl⟩ := key l' (fun hc => hn (h.mem_iff.2 hc))
    refine .inr ⟨v, v', vals_map_val v, vals_map_val v', ?_⟩
    exact (List.map_perm_map_iff (fun a b (e : Num.val a = Num.val b) => by cases e; rfl)).1 h

theorem mean_perm_num {l l' : List (Num α)} (h : l.Perm l') : mean l = mean l' := by
  unfold mean
  rcases vals_perm h with ⟨a, b⟩ | ⟨v, v', a, b, hp⟩
  · rw [a, b]
  · rw [a, b]
    cases v with
    | nil => rw [List.nil_perm.1 hp]
    | cons x t =>
      cases v' with
      | nil => exact absurd hp.length_eq (by simp)
      | cons x' t' =>
        simp only
        rw [hp.sum_eq, hp.length_eq]

theorem std_perm_num (F : Fn α) {l l' : List (Num α)} (h : l.Perm l') : std F l = std F l' := by
  unfold std
  rcases vals_perm h with ⟨a, b⟩ | ⟨v, v', a, b, hp⟩
  · rw [a, b]
  · rw [a, b]
    cases v with
    | nil => rw [List.nil_perm.1 hp]
    | cons x t =>
      cases v' with
      | nil => exact absurd hp.length_eq (by simp)
      | cons x' t' =>
        simp only
        rw [hp.sum_eq, hp.length_eq, (hp.map _).sum_eq]

/-- the same metrics with the same scores up to order -/
def ScoresUpToOrder (d d' : Dict Str (List (Num α))) : Prop :=
  List.Forall₂ (fun p p' => p.1 = p'.1 ∧ p.2.Perm p'.2) d d'

theorem ScoresUpToOrder.set {d d' : Dict Str (List (Num α))} (h : ScoresUpToOrder d d') (m : Str) {l l' : List (Num α)}
    (hl : l.Perm l') : ScoresUpToOrder (d.set m l) (d'.set m l') := by
  unfold ScoresUpToOrder at h
  induction h with
  | nil => exact .cons ⟨rfl, hl⟩ .nil
  | @cons p p' t t' hp ht ih =>
    obtain ⟨k, v⟩ := p
    obtain ⟨k', v'⟩ := p'
    obtain ⟨rfl, hv⟩ := hp
    change List.Forall₂ _ (if k = m then _ else _) (if k = m then _ else _)
    by_cases hk : k = m
    · rw [if_pos hk, if_pos hk]; exact .cons ⟨rfl, hl⟩ ht
    · rw [if_neg hk, if_neg hk]; exact .cons ⟨rfl, hv⟩ ih

theorem scoreAll_order (F : Fn α) (other : Str → Except Err α) (sched sched' : Nat → List Nat)
    (Q R Q' R' : List (Rows ι α))
    (h : ∀ m i f, metricOf F other m = .ok f →
      SameUpToOrder (parallel f (sched i) Q R) (parallel f (sched' i) Q' R'))
    (ms : List (Str × Nat)) (acc acc' : Dict Str (List (Num α))) (hacc : ScoresUpToOrder acc acc') :
    (∃ e, scoreAll F other sched Q R ms acc = .error e ∧ scoreAll F other sched' Q' R' ms acc' = .error e) ∨
    ∃ d d', scoreAll F other sched Q R ms acc = .ok d ∧ scoreAll F other sched' Q' R' ms acc' = .ok d' ∧
      ScoresUpToOrder d d' := by
  induction ms generalizing acc acc' with
  | nil => exact .inr ⟨_, _, rfl, rfl, hacc⟩
  | cons p t ih =>
    obtain ⟨m, i⟩ := p
    unfold scoreAll
    cases hf : metricOf (ι := ι) F other m with
    | error e => exact .inl ⟨_, rfl, rfl⟩
    | ok f =>
      rcases h m i f hf with ⟨e, e1, e2⟩ | ⟨l, l', e1, e2, hp⟩
      · simp only [e1, e2]; exact .inl ⟨_, rfl, rfl⟩
      · simp only [e1, e2]; exact ih _ _ (hacc.set m hp)

theorem present_order (F : Fn α) (o : Opts) (ho : o.returnMean = true) (b : Bool) {l l' : List (Num α)}
    (h : l.Perm l') : present F o b l = present F o b l' := by
  unfold present
  rw [if_pos ho, if_pos ho, mean_perm_num h, std_perm_num F h]

theorem outOf_order (F : Fn α) (other : Str → Except Err α) (o : Opts) (ho : o.returnMean = true) (b : Bool)
    {d d' : Dict Str (List (Num α))} (h : ScoresUpToOrder d d') (ms : List Str) :
    outOf F other o b d ms = outOf F other o b d' ms := by
  have e : d.map (fun p => (p.1, present F o (o.returnMean && o.returnStd) p.2)) =
      d'.map (fun p => (p.1, present F o (o.returnMean && o.returnStd) p.2)) := by
    unfold ScoresUpToOrder at h
    induction h with
    | nil => rfl
    | cons hp ht ih =>
      rw [List.map_cons, List.map_cons, ih, hp.1, present_order F o ho _ hp.2]
  unfold outOf
  simp only [e]

end

namespace Spec

/-- `s'` holds what `s` holds, query `q` being called `g q`. -/
structure QueriesRenamed [DecidableEq κ] [DecidableEq κ'] [DecidableEq δ] (g : κ → κ') (s : Store κ δ β)
    (s' : Store κ' δ β) : Prop where
  queries : ∀ q', q' ∈ s'.data.keys ↔ ∃ q ∈ s.data.keys, g q = q'
  docs : ∀ q ∈ s.data.keys, ∀ d, (content s').read (g q) d = (content s).read q d

end Spec

section
variable [LinearOrder κ] [LinearOrder κ'] [DecidableEq δ] [LinearOrder ι] [Field α] [LinearOrder α]
  [IsStrictOrderedRing α]

theorem rows_by_key {γ : Type*} (hash : δ → ι) (cast : β → γ) (A : Dict κ (Dict δ β)) (hA : NodupKeys A) :
    Store.rows hash cast A = A.keys.map (fun q => asRows hash cast ((A.get? q).getD [])) := by
  unfold Store.rows Dict.values Dict.keys
  rw [List.map_map, List.map_map]
  apply List.map_congr_left
  intro p hp
  simp only [Function.comp_apply]
  rw [get?_of_mem hA (show (p.1, p.2) ∈ A from hp)]
  rfl

theorem zipWith_keys {γ ρ ν : Type*} (f : γ → ρ → ν) (K : List κ) (a : κ → γ) (b : κ → ρ) :
    List.zipWith f (K.map a) (K.map b) = K.map (fun q => f (a q) (b q)) := by
  induction K with
  | nil => rfl
  | cons x t ih => rw [List.map_cons, List.map_cons, List.zipWith_cons_cons, ih]; rfl

theorem ranking_tieFree {κ₁ κ₂ : Type*} [DecidableEq κ₁] [DecidableEq κ₂] {m : Spec.Content κ₁ δ α} {m' : Spec.Content κ₂ δ α} {q : κ₁} {q' : κ₂} {l l' : List (δ × α)}
    (hl : Spec.Ranking m q l) (hl' : Spec.Ranking m' q' l') (h : ∀ d, m'.read q' d = m.read q d)
    (ht : ∀ d d' v, m.read q d = some v → m.read q d' = some v → d = d') : l = l' := by
  have hp : l.Perm l' := by
    rw [List.perm_ext_iff_of_nodup (hl.nodup.of_map _) (hl'.nodup.of_map _)]
    rintro ⟨d, v⟩
    rw [hl.docs, hl'.docs, h]
  refine hp.eq_of_pairwise (le := fun a b => b.2 ≤ a.2) ?_ hl.sorted hl'.sorted
  rintro ⟨d, v⟩ ⟨d', v'⟩ ha _ h1 h2
  have e : v = v' := le_antisymm h2 h1
  subst e
  rename_i hb
  have h1 := (hl.docs d v).1 ha
  have h2 := (hl.docs d' v).1 (hp.mem_iff.2 hb)
  rw [ht d d' v h1 h2]

theorem sameRows_renamed {hash : δ → ι} {s : Store κ δ Int} {s' : Store κ' δ Int} {q : κ} {q' : κ'} {l l' : List (δ × Int)}
    (ha : Spec.JudgedApart hash s q) (hc : ∀ d, (Spec.content s').read q' d = (Spec.content s).read q d)
    (hl : Spec.Ranking (Spec.content s) q l) (hl' : Spec.Ranking (Spec.content s') q' l') :
    SameRows (asRows hash (fun z : Int => (z : α)) l) (asRows hash (fun z : Int => (z : α)) l') := by
  have hl'' : Spec.Ranking (Spec.content s) q l' :=
    ⟨hl'.nodup, hl'.sorted, fun d v => by rw [← hc]; exact hl'.docs d v⟩
  exact sameRows_of_rankings ha (fun _ => rfl) hl hl''


theorem comparable_keys (SR : ArgSort α) (o : Opts) (s : Store κ δ Int) (r : RunObj κ δ α) (hr : Wf r.store.data)
    (q : κ) : q ∈ (comparable SR o s r).data.keys ↔ q ∈ (if o.makeComparable then s.data.keys else r.store.data.keys) := by
  by_cases hm : o.makeComparable = true
  · rw [if_pos hm]
    have a := comparable_sameKeys SR o s r hr hm
    unfold sameKeys at a
    rw [Bool.and_eq_true, List.all_eq_true, List.all_eq_true] at a
    exact ⟨fun h => by simpa using a.2 q h, fun h => by simpa using a.1 q h⟩
  · rw [if_neg hm]
    unfold comparable
    rw [if_neg hm]

theorem sameKeys_iff' (a b : List κ) : sameKeys a b = true ↔ ∀ q, q ∈ a ↔ q ∈ b := by
  unfold sameKeys
  rw [Bool.and_eq_true, List.all_eq_true, List.all_eq_true]
  simp only [List.contains_iff_mem]
  exact ⟨fun h q => ⟨h.1 q, h.2 q⟩, fun h => ⟨fun q => (h q).1, fun q => (h q).2⟩⟩

/-- the scores of one metric, query by query -/
theorem parallel_by_key (hash : δ → ι) (cast : β → α) (A : Dict κ (Dict δ β)) (B : Dict κ (Dict δ α)) (hA : NodupKeys A)
    (hB : NodupKeys B) (hAB : A.keys = B.keys) (f : Kernel ι α) (sched : List Nat) (hs : Schedule A.length sched) :
    parallel f sched (Store.rows hash cast A) (Store.rows hash id B) =
      collect (A.keys.map (fun q => f (asRows hash cast ((A.get? q).getD [])) (asRows hash id ((B.get? q).getD [])))) := by
  have hlen : B.length = A.length := by
    have := congrArg List.length hAB
    simpa using this.symm
  rw [parallel_eq f sched _ _ (by simpa [Store.rows, Dict.values] using hs)
    (by simpa [Store.rows, Dict.values] using hlen), rows_by_key hash cast A hA, rows_by_key hash id B hB, ← hAB,
    zipWith_keys]

/-- what `evaluate` returns depends on the queries only through the rows it scores -/
theorem evaluate_queries_renamed (F : Fn α) (other : Str → Except Err α) (SQ SQ' : ArgSort Int) (SR SR' : ArgSort α)
    (hash : δ → ι) (sched sched' : Nat → List Nat) (o : Opts) (ho : o.returnMean = true) (g : κ → κ')
    (hg : Function.Injective g) (s : Store κ δ Int) (s' : Store κ' δ Int) (r : RunObj κ δ α) (r' : RunObj κ' δ α)
    (ms : List Str) (hs : Spec.Usable SQ s) (hs' : Spec.Usable SQ' s') (hr : Spec.Usable SR r.store)
    (hr' : Spec.Usable SR' r'.store) (hsched : ∀ i, Schedule s.data.length (sched i))
    (hsched' : ∀ i, Schedule s.data.length (sched' i))
    (hq : Spec.QueriesRenamed g s s')
    (hqr : ∀ q', q' ∈ r'.store.data.keys ↔ ∃ q ∈ r.store.data.keys, g q = q')
    (ha : ∀ q ∈ s.data.keys, Spec.JudgedApart hash s q)
    (hrow : ∀ q ∈ s.data.keys, q ∈ ((comparable SR o s r).ensureSorted SR).data.keys →
      g q ∈ ((comparable SR' o s' r').ensureSorted SR').data.keys →
      ((comparable SR' o s' r').ensureSorted SR').data.get? (g q) =
        ((comparable SR o s r).ensureSorted SR).data.get? q) :
    (evaluate F other SQ' SR' hash sched' o (.obj s') (.obj r') ms).2 =
      (evaluate F other SQ SR hash sched o (.obj s) (.obj r) ms).2 := by
  have h0 := hs.ok
  have h0' := hs'.ok
  have h1 := comparable_ok SR o s r hr.ok
  have h1' := comparable_ok SR' o s' r' hr'.ok
  rw [evaluate_obj, evaluate_obj]
  have qk : ∀ q, g q ∈ s'.data.keys ↔ q ∈ s.data.keys := fun q => by
    rw [hq.queries]
    exact ⟨fun ⟨q2, h2, e⟩ => hg e ▸ h2, fun h => ⟨q, h, rfl⟩⟩
  have rk : ∀ q, g q ∈ r'.store.data.keys ↔ q ∈ r.store.data.keys := fun q => by
    rw [hqr]
    exact ⟨fun ⟨q2, h2, e⟩ => hg e ▸ h2, fun h => ⟨q, h, rfl⟩⟩
  have hsame : sameKeys s'.data.keys (comparable SR' o s' r').data.keys =
      sameKeys s.data.keys (comparable SR o s r).data.keys := by
    rw [Bool.eq_iff_iff, sameKeys_iff', sameKeys_iff']
    by_cases hm : o.makeComparable = true
    · simp only [comparable_keys SR o s r hr.ok.1, comparable_keys SR' o s' r' hr'.ok.1, if_pos hm, implies_true]
    · simp only [comparable_keys SR o s r hr.ok.1, comparable_keys SR' o s' r' hr'.ok.1, if_neg hm]
      constructor
      · intro h q
        rw [← qk, ← rk]; exact h (g q)
      · intro h q'
        rw [hq.queries, hqr]
        exact ⟨fun ⟨q, a, b⟩ => ⟨q, (h q).1 a, b⟩, fun ⟨q, a, b⟩ => ⟨q, (h q).2 a, b⟩⟩
  rw [hsame]
  by_cases hk : sameKeys s.data.keys (comparable SR o s r).data.keys = true
  · rw [if_pos hk, if_pos hk]
    have al := aligned SQ SR s (comparable SR o s r) h0 h1 hk
    have al' := aligned SQ' SR' s' (comparable SR' o s' r') h0' h1' (hsame.trans hk)
    obtain ⟨wA, cA, kA, rA, oA, lA⟩ := ensureSorted_facts SQ s h0.1 h0.2
    obtain ⟨wA', cA', kA', rA', oA', lA'⟩ := ensureSorted_facts SQ' s' h0'.1 h0'.2
    obtain ⟨wB, cB, kB, rB, oB, lB⟩ := ensureSorted_facts SR (comparable SR o s r) h1.1 h1.2
    obtain ⟨wB', cB', kB', rB', oB', lB'⟩ := ensureSorted_facts SR' (comparable SR' o s' r') h1'.1 h1'.2
    have kperm : (s'.ensureSorted SQ').data.keys.Perm ((s.ensureSorted SQ).data.keys.map g) := by
      refine (List.perm_ext_iff_of_nodup wA'.1 ((List.nodup_map_iff hg).2 wA.1)).2 ?_
      intro q'
      change q' ∈ (s'.ensureSorted SQ').data.keys ↔ q' ∈ List.map g (s.ensureSorted SQ).data.keys
      rw [kA', hq.queries, List.mem_map]
      simp only [kA]
    have hlen : (s'.ensureSorted SQ').data.length = s.data.length := by
      have := kperm.length_eq
      rw [List.length_map, length_keys, length_keys, lA] at this
      exact this
    have hval : ∀ q ∈ (s.ensureSorted SQ).data.keys, ∀ (m : Str) (f : Kernel ι α), metricOf F other m = .ok f →
        f (asRows hash (fun z : Int => (z : α)) (((s'.ensureSorted SQ').data.get? (g q)).getD []))
          (asRows hash id ((((comparable SR' o s' r').ensureSorted SR').data.get? (g q)).getD [])) =
        f (asRows hash (fun z : Int => (z : α)) (((s.ensureSorted SQ).data.get? q).getD []))
          (asRows hash id ((((comparable SR o s r).ensureSorted SR).data.get? q).getD [])) := by
      intro q hqA m f hf
      have hqs : q ∈ s.data.keys := (kA q).1 hqA
      obtain ⟨jl, hjl⟩ := Option.isSome_iff_exists.1 (get?_isSome.2 hqA)
      obtain ⟨rl, hrl⟩ := Option.isSome_iff_exists.1 (get?_isSome.2 (al ▸ hqA))
      have hqA' : g q ∈ (s'.ensureSorted SQ').data.keys := (kA' _).2 ((qk q).2 hqs)
      obtain ⟨jl', hjl'⟩ := Option.isSome_iff_exists.1 (get?_isSome.2 hqA')
      obtain ⟨rl', hrl'⟩ := Option.isSome_iff_exists.1 (get?_isSome.2 (al' ▸ hqA'))
      have e := hrow q hqs (al ▸ hqA) (al' ▸ hqA')
      rw [hrl, hrl', Option.some.injEq] at e
      subst e
      rw [hjl, hrl, hjl', hrl']
      simp only [Option.getD_some]
      have R1 := ranking_of_mem _ wA rA hjl
      have R2 := ranking_of_mem _ wA' rA' hjl'
      rw [cA] at R1
      rw [cA'] at R2
      exact (metricOf_qrels F other m f hf _ _ _ (sameRows_renamed (ha q hqs) (hq.docs q hqs) R1 R2)).symm
    have hord : ∀ m i f, metricOf (ι := ι) F other m = .ok f →
        SameUpToOrder
          (parallel f (sched' i) (Store.rows hash (fun z : Int => (z : α)) (s'.ensureSorted SQ').data)
            (Store.rows hash id ((comparable SR' o s' r').ensureSorted SR').data))
          (parallel f (sched i) (Store.rows hash (fun z : Int => (z : α)) (s.ensureSorted SQ).data)
            (Store.rows hash id ((comparable SR o s r).ensureSorted SR).data)) := by
      intro m i f hf
      rw [parallel_by_key hash _ _ _ wA.1 wB.1 al f (sched i) (by rw [lA]; exact hsched i),
        parallel_by_key hash _ _ _ wA'.1 wB'.1 al' f (sched' i) (by rw [hlen]; exact hsched' i)]
      refine collect_perm (E := .zeroDivision) ?_ ?_
      · refine (kperm.map _).trans ?_
        rw [List.map_map]
        apply List.Perm.of_eq
        apply List.map_congr_left
        intro q hqA
        exact hval q hqA m f hf
      · intro x hx e he
        obtain ⟨q, -, rfl⟩ := List.mem_map.1 hx
        exact metricOf_errors F other m f hf _ _ e he
    rcases scoreAll_order F other sched' sched _ _ _ _ hord ms.zipIdx [] [] .nil with ⟨e, e1, e2⟩ | ⟨d, d', e1, e2, hd⟩
    · rw [e1, e2]
    · rw [e1, e2]
      exact outOf_order F other o ho true hd ms
  · rw [if_neg hk, if_neg hk]

/-- **C131**: queries are only names. If the judgements and the (tie-free) run are stored under other query ids,
`evaluate` returns the same means and standard deviations or raises the same exception. -/
theorem C131_query_names (F : Fn α) (other : Str → Except Err α) (SQ SQ' : ArgSort Int) (SR SR' : ArgSort α)
    (hash : δ → ι) (sched sched' : Nat → List Nat) (o : Opts) (ho : o.returnMean = true) (g : κ → κ')
    (hg : Function.Injective g) (s : Store κ δ Int) (s' : Store κ' δ Int) (r : RunObj κ δ α) (r' : RunObj κ' δ α)
    (ms : List Str) (hs : Spec.Usable SQ s) (hs' : Spec.Usable SQ' s') (hr : Spec.Usable SR r.store)
    (hr' : Spec.Usable SR' r'.store) (hsched : ∀ i, Schedule s.data.length (sched i))
    (hsched' : ∀ i, Schedule s.data.length (sched' i))
    (hq : Spec.QueriesRenamed g s s') (hqr : Spec.QueriesRenamed g r.store r'.store)
    (ha : ∀ q ∈ s.data.keys, Spec.JudgedApart hash s q)
    (htie : ∀ q d d' v, (Spec.content r.store).read q d = some v → (Spec.content r.store).read q d' = some v → d = d') :
    (evaluate F other SQ' SR' hash sched' o (.obj s') (.obj r') ms).2 =
      (evaluate F other SQ SR hash sched o (.obj s) (.obj r) ms).2 := by
  have h1 := comparable_ok SR o s r hr.ok
  have h1' := comparable_ok SR' o s' r' hr'.ok
  refine evaluate_queries_renamed F other SQ SQ' SR SR' hash sched sched' o ho g hg s s' r r' ms hs hs' hr hr' hsched hsched' hq
    hqr.queries ha ?_
  intro q hqs hm hm'
  obtain ⟨wB, cB, kB, rB, oB, lB⟩ := ensureSorted_facts SR (comparable SR o s r) h1.1 h1.2
  obtain ⟨wB', cB', kB', rB', oB', lB'⟩ := ensureSorted_facts SR' (comparable SR' o s' r') h1'.1 h1'.2
  have qk : g q ∈ s'.data.keys := (hq.queries _).2 ⟨q, hqs, rfl⟩
  obtain ⟨rl, hrl⟩ := Option.isSome_iff_exists.1 (get?_isSome.2 hm)
  obtain ⟨rl', hrl'⟩ := Option.isSome_iff_exists.1 (get?_isSome.2 hm')
  have R3 := ranking_of_mem _ wB rB hrl
  have R4 := ranking_of_mem _ wB' rB' hrl'
  rw [cB] at R3
  rw [cB'] at R4
  have hread : ∀ d, (Spec.content (comparable SR' o s' r')).read (g q) d = (Spec.content (comparable SR o s r)).read q d := by
    intro d
    rw [read_comparable SR o s r hr.ok.1 q hqs, read_comparable SR' o s' r' hr'.ok.1 (g q) qk]
    by_cases hqr' : q ∈ r.store.data.keys
    · exact hqr.docs q hqr' d
    · have none1 : r.store.data.get? q = none := get?_eq_none.2 hqr'
      have none2 : r'.store.data.get? (g q) = none := get?_eq_none.2 (fun h => by
        obtain ⟨q2, h2, e⟩ := (hqr.queries _).1 h
        exact hqr' (hg e ▸ h2))
      unfold Spec.Content.read Spec.content
      rw [none1, none2]
  have e := ranking_tieFree R3 R4 hread (by
    intro d d' v h h'
    rw [read_comparable SR o s r hr.ok.1 q hqs] at h h'
    exact htie q d d' v h h')
  rw [hrl, hrl', e]

/-- **C131** (saved scores): each query has the same saved score under its new name. -/
theorem C131_saved (F : Fn α) (other : Str → Except Err α) (SQ SQ' : ArgSort Int) (SR SR' : ArgSort α)
    (hash : δ → ι) (sched sched' : Nat → List Nat) (o : Opts) (ho : o.save = true) (g : κ → κ')
    (s : Store κ δ Int) (s' : Store κ' δ Int) (r : RunObj κ δ α) (r' : RunObj κ' δ α)
    (ms : List Str) (hs : Spec.Usable SQ s) (hs' : Spec.Usable SQ' s') (hr : Spec.Usable SR r.store)
    (hr' : Spec.Usable SR' r'.store) (hsched : ∀ i, Schedule s.data.length (sched i))
    (hsched' : ∀ i, Schedule s'.data.length (sched' i))
    (hq : Spec.QueriesRenamed g s s') (hqr : ∀ q ∈ s.data.keys, ∀ d, (Spec.content r'.store).read (g q) d = (Spec.content r.store).read q d)
    (ha : ∀ q ∈ s.data.keys, Spec.JudgedApart hash s q)
    (htie : ∀ q d d' v, (Spec.content r.store).read q d = some v → (Spec.content r.store).read q d' = some v → d = d')
    (after : After κ δ α) (after' : After κ' δ α) (out out' : Out α)
    (h : evaluate F other SQ SR hash sched o (.obj s) (.obj r) ms = (after, .ok out))
    (h' : evaluate F other SQ' SR' hash sched' o (.obj s') (.obj r') ms = (after', .ok out')) :
    ∃ a a', after.run = .obj a ∧ after'.run = .obj a' ∧
      ∀ m ∈ ms, ∀ q ∈ s.data.keys, ∃ v, a.saved m q = some v ∧ a'.saved m (g q) = some v := by
  obtain ⟨a, e, H⟩ := C31_pairs_queries F other SQ SR hash sched o ho s r ms hs hr hsched after out h
  obtain ⟨a', e', H'⟩ := C31_pairs_queries F other SQ' SR' hash sched' o ho s' r' ms hs' hr' hsched' after' out' h'
  refine ⟨a, a', e, e', ?_⟩
  intro m hm q hqs
  obtain ⟨f, hf, X⟩ := H m hm
  obtain ⟨f', hf', X'⟩ := H' m hm
  rw [hf] at hf'
  cases hf'
  obtain ⟨jl, rl, v, R1, R3, hv, hsv⟩ := X q hqs
  obtain ⟨jl', rl', v', R2, R4, hv', hsv'⟩ := X' (g q) ((hq.queries _).2 ⟨q, hqs, rfl⟩)
  have e := ranking_tieFree R3 R4 (hqr q hqs) (htie q)
  subst e
  rw [metricOf_qrels F other m f hf _ _ _ (sameRows_renamed (ha q hqs) (hq.docs q hqs) R1 R2), hv'] at hv
  cases hv
  exact ⟨v, hsv, hsv'⟩

end

/-- the example objects with query `q` called `-q`: the queries come in the opposite order -/
def exQrelsNeg : Store Int Nat Int := ⟨[(-2, [(20, 1)]), (-1, [(11, 2), (10, 1)])], true⟩
def exRunNeg : RunObj Int Nat ℚ :=
  ⟨⟨[(-3, [(30, 1)]), (-1, [(12, 3), (11, 2)])], true⟩, [], [], []⟩

theorem exQrelsNeg_usable : Spec.Usable (ArgSort.stable Int) exQrelsNeg :=
  ⟨exQrelsNeg, [], ⟨[(-2, [(20, 1)]), (-1, [(10, 1), (11, 2)])], by unfold NodupKeys; decide +kernel, by unfold NodupKeys; decide +kernel,
    .inr (by decide +kernel)⟩, rfl, by simp [Store.exec]⟩

theorem exRunNeg_usable : Spec.Usable (ArgSort.stable ℚ) exRunNeg.store :=
  ⟨exRunNeg.store, [], ⟨[(-3, [(30, 1)]), (-1, [(11, 2), (12, 3)])], by unfold NodupKeys; decide +kernel, by unfold NodupKeys; decide +kernel,
    .inr (by decide +kernel)⟩, rfl, by simp [Store.exec]⟩

/-- non-vacuity of `C131` -/
example : Spec.QueriesRenamed (fun n : Nat => -(n : Int)) exQrelsObj exQrelsNeg ∧
    Spec.QueriesRenamed (fun n : Nat => -(n : Int)) exRunObj.store exRunNeg.store ∧
    (∀ q ∈ exQrelsObj.data.keys, Spec.JudgedApart (id : Nat → Nat) exQrelsObj q) ∧
    (∀ q d d' v, (Spec.content exRunObj.store).read q d = some v → (Spec.content exRunObj.store).read q d' = some v → d = d') ∧
    (evaluate (ι := Nat) ratFn (fun _ => .error .valueError) (ArgSort.stable Int)
      (ArgSort.stable ℚ) id (fun _ => [1, 0]) { makeComparable := true } (.obj exQrelsNeg) (.obj exRunNeg)
      ["recall".toList]).2 = .ok (.single (.mean (.val (1 / 4)))) := by
  refine ⟨⟨?_, ?_⟩, ⟨?_, ?_⟩, fun _ _ _ _ _ _ _ _ h => h, ?_, by decide +kernel⟩
  · intro q'
    simp only [exQrelsObj, exQrelsNeg, Dict.keys, List.map_cons, List.map_nil, List.mem_cons, List.not_mem_nil, or_false,
      exists_eq_or_imp, exists_eq_left]
    constructor
    · rintro (rfl | rfl)
      · exact .inr rfl
      · exact .inl rfl
    · rintro (rfl | rfl)
      · exact .inr rfl
      · exact .inl rfl
  · intro q hq d
    simp only [exQrelsObj, Dict.keys, List.map_cons, List.map_nil, List.mem_cons, List.not_mem_nil, or_false] at hq
    rcases hq with rfl | rfl <;> rfl
  · intro q'
    simp only [exRunObj, exRunNeg, Dict.keys, List.map_cons, List.map_nil, List.mem_cons, List.not_mem_nil, or_false,
      exists_eq_or_imp, exists_eq_left]
    constructor
    · rintro (rfl | rfl)
      · exact .inr rfl
      · exact .inl rfl
    · rintro (rfl | rfl)
      · exact .inr rfl
      · exact .inl rfl
  · intro q hq d
    simp only [exRunObj, Dict.keys, List.map_cons, List.map_nil, List.mem_cons, List.not_mem_nil, or_false] at hq
    rcases hq with rfl | rfl <;> rfl
  · intro q d d' v h h'
    unfold Spec.Content.read Spec.content at h h'
    beta_reduce at h h'
    cases hg : exRunObj.store.data.get? q with
    | none => rw [hg] at h; cases h
    | some row =>
      rw [hg] at h h'
      change row.get? d = some v at h
      change row.get? d' = some v at h'
      have hm := mem_of_get? hg
      have key : ∀ p ∈ exRunObj.store.data, ∀ a ∈ p.2, ∀ b ∈ p.2, a.2 = b.2 → a.1 = b.1 := by decide +kernel
      exact key _ hm _ (mem_of_get? h) _ (mem_of_get? h') rfl

end Ranx
