import Verif.Model.Threads
import Verif.Lemmas.Store
import Verif.Props.Stats
import Mathlib.Algebra.Order.Ring.Rat
import Mathlib.Algebra.BigOperators.Group.List.Basic
import Mathlib.Algebra.Order.BigOperators.Group.List

/-!
# C114, C115: parallel loops under any interleaving; the seed of Fisher's test
-/

set_option linter.unusedSectionVars false

namespace Ranx
open Dict Par

namespace Spec

/-- from local variables `s`, iteration `i` ends after `k` actions with value `v` -/
inductive RunsIn {σ γ : Type*} (next : Nat → σ → σ ⊕ γ) (i : Nat) : σ → Nat → γ → Prop
  | ret {s : σ} {v : γ} (h : next i s = .inr v) : RunsIn next i s 1 v
  | go {s s' : σ} {k : Nat} {v : γ} (h : next i s = .inl s') (t : RunsIn next i s' k v) : RunsIn next i s (k + 1) v

end Spec

/-! ### slot loops -/

section
variable {σ γ : Type*} {start : Nat → σ} {next : Nat → σ → σ ⊕ γ} {n : Nat} {f : Nat → γ} {k : Nat → Nat}

/-- `c i` actions of iteration `i` have been made -/
def SlotInv (next : Nat → σ → σ ⊕ γ) (n : Nat) (f : Nat → γ) (k : Nat → Nat) (c : Nat → Nat)
    (st : State (Option σ) (List γ)) : Prop :=
  st.mem.length = n ∧ ∀ i < n, (∃ s r, st.locals i = some s ∧ c i + r = k i ∧ Spec.RunsIn next i s r (f i)) ∨
    (st.locals i = none ∧ c i = k i ∧ st.mem[i]? = some (f i))

theorem slotInv_step {c : Nat → Nat} {st st' : State (Option σ) (List γ)} {i : Nat} (h : SlotInv next n f k c st)
    (hs : step (slotBody start next) n i st = some st') :
    SlotInv next n f k (fun j => if j = i then c j + 1 else c j) st' := by
  unfold step at hs
  split at hs
  case isFalse => cases hs
  case isTrue hi =>
  obtain ⟨hin, hdone⟩ := hi
  obtain ⟨hlen, hinv⟩ := h
  rcases hinv i hin with ⟨s, r, hl, hc, hr⟩ | ⟨hl, -⟩
  swap
  · rw [hl] at hdone; cases hdone
  simp only [Option.some.injEq] at hs
  subst hs
  have hact : (slotBody start next).act i (st.locals i) st.mem = match next i s with
      | .inl s' => (some s', st.mem)
      | .inr v => (none, st.mem.set i v) := by
    rw [hl]; rfl
  cases hr with
  | ret he =>
    rw [hact, he]
    refine ⟨by simpa using hlen, fun j hj => ?_⟩
    by_cases hji : j = i
    · subst hji
      refine Or.inr ⟨if_pos rfl, ?_, ?_⟩
      · simp only [if_true]; omega
      · simp only
        rw [List.getElem?_set_self (by omega)]
    · rcases hinv j hj with ⟨s', r', h1, h2, h3⟩ | ⟨h1, h2, h3⟩
      · exact Or.inl ⟨s', r', by simpa [hji] using h1, by simpa [hji] using h2, h3⟩
      · refine Or.inr ⟨by simpa [hji] using h1, by simpa [hji] using h2, ?_⟩
        simp only
        rw [List.getElem?_set_ne (fun e => hji e.symm)]
        exact h3
  | @go _ s' r' _ he t =>
    rw [hact, he]
    refine ⟨hlen, fun j hj => ?_⟩
    by_cases hji : j = i
    · subst hji
      refine Or.inl ⟨s', r', if_pos rfl, ?_, t⟩
      simp only [if_true]; omega
    · rcases hinv j hj with ⟨s', r', h1, h2, h3⟩ | ⟨h1, h2, h3⟩
      · exact Or.inl ⟨s', r', by simpa [hji] using h1, by simpa [hji] using h2, h3⟩
      · exact Or.inr ⟨by simpa [hji] using h1, by simpa [hji] using h2, h3⟩

theorem slotInv_exec {c : Nat → Nat} {st st' : State (Option σ) (List γ)} {is : List Nat} (h : SlotInv next n f k c st)
    (hs : exec (slotBody start next) n is st = some st') :
    SlotInv next n f k (fun j => c j + is.count j) st' := by
  induction is generalizing c st with
  | nil => cases hs; simpa using h
  | cons i is ih =>
    unfold exec at hs
    obtain ⟨st1, h1, h2⟩ := Option.bind_eq_some_iff.1 hs
    have := ih (slotInv_step h h1) h2
    have e : (fun j => (if j = i then c j + 1 else c j) + is.count j) = fun j => c j + (i :: is).count j := by
      funext j
      rw [List.count_cons]
      by_cases hj : j = i
      · subst hj; simp; omega
      · have : ¬ i = j := fun e => hj e.symm
        simp [hj, this]
    rw [← e]
    exact this

theorem slotInv_init (out : List γ) (hout : out.length = n) (hf : ∀ i < n, Spec.RunsIn next i (start i) (k i) (f i)) :
    SlotInv next n f k (fun _ => 0) (init (slotBody start next) out) :=
  ⟨hout, fun i hi => Or.inl ⟨start i, k i, rfl, Nat.zero_add _, hf i hi⟩⟩

theorem slotInv_complete {c : Nat → Nat} {st : State (Option σ) (List γ)} (h : SlotInv next n f k c st) :
    Complete (slotBody start next) n st ↔ ∀ i < n, c i = k i := by
  constructor
  · intro hc i hi
    rcases h.2 i hi with ⟨s, r, h1, h2, -⟩ | ⟨-, h2, -⟩
    · have := hc i hi
      rw [h1] at this
      cases this
    · exact h2
  · intro hc i hi
    rcases h.2 i hi with ⟨s, r, h1, h2, h3⟩ | ⟨h1, -, -⟩
    · have := hc i hi
      have hr : 0 < r := by cases h3 <;> omega
      omega
    · rw [h1]; rfl

theorem slotInv_mem {c : Nat → Nat} {st : State (Option σ) (List γ)} (h : SlotInv next n f k c st)
    (hc : Complete (slotBody start next) n st) : st.mem = (List.range n).map f := by
  apply List.ext_getElem?
  intro i
  by_cases hi : i < n
  · rcases h.2 i hi with ⟨s, r, h1, -, -⟩ | ⟨-, -, h3⟩
    · have := hc i hi
      rw [h1] at this
      cases this
    · rw [h3, List.getElem?_map, List.getElem?_range hi]; rfl
  · rw [List.getElem?_eq_none (by rw [h.1]; omega), List.getElem?_eq_none (by simp; omega)]

theorem slotInv_finish {c : Nat → Nat} {st : State (Option σ) (List γ)} (h : SlotInv next n f k c st)
    (m : Nat) (hm : ((List.range n).map (fun i => k i - c i)).sum = m) :
    ∃ is st', exec (slotBody start next) n is st = some st' ∧ Complete (slotBody start next) n st' := by
  induction m generalizing c st with
  | zero =>
    refine ⟨[], st, rfl, ?_⟩
    rw [slotInv_complete h]
    intro i hi
    have h0 := List.sum_eq_zero_iff.1 hm (k i - c i) (List.mem_map.2 ⟨i, List.mem_range.2 hi, rfl⟩)
    rcases h.2 i hi with ⟨s, r, -, h2, -⟩ | ⟨-, h2, -⟩ <;> omega
  | succ m ih =>
    by_cases hc : Complete (slotBody start next) n st
    · exact ⟨[], st, rfl, hc⟩
    · unfold Complete at hc
      push Not at hc
      obtain ⟨i, hi, hd⟩ := hc
      have hd' : (slotBody start next).done (st.locals i) = false := by simpa using hd
      obtain ⟨st1, h1⟩ : ∃ st1, step (slotBody start next) n i st = some st1 :=
        ⟨_, if_pos ⟨hi, hd'⟩⟩
      have hinv := slotInv_step h h1
      have hci : c i < k i := by
        rcases h.2 i hi with ⟨s, r, -, h2, h3⟩ | ⟨hl, -, -⟩
        · have hr : 0 < r := by cases h3 <;> omega
          omega
        · rw [hl] at hd'; cases hd'
      have hsum : ((List.range n).map (fun j => k j - (if j = i then c j + 1 else c j))).sum + 1 =
          ((List.range n).map (fun j => k j - c j)).sum := by
        have key : ∀ l : List Nat, l.Nodup → i ∈ l →
            (l.map (fun j => k j - (if j = i then c j + 1 else c j))).sum + 1 = (l.map (fun j => k j - c j)).sum := by
          intro l hl hil
          induction l with
          | nil => cases hil
          | cons a l ihl =>
            rw [List.nodup_cons] at hl
            by_cases ha : a = i
            · subst ha
              have : l.map (fun j => k j - (if j = a then c j + 1 else c j)) = l.map (fun j => k j - c j) := by
                refine List.map_congr_left fun j hj => ?_
                rw [if_neg (by rintro rfl; exact hl.1 hj)]
              simp only [List.map_cons, List.sum_cons, this, if_true]
              omega
            · have := ihl hl.2 (by
                rcases List.mem_cons.1 hil with h | h
                · exact absurd h.symm ha
                · exact h)
              simp only [List.map_cons, List.sum_cons, if_neg ha]
              omega
        exact key _ List.nodup_range (List.mem_range.2 hi)
      obtain ⟨is, st', he, hc'⟩ := ih hinv (by omega)
      exact ⟨i :: is, st', by unfold exec; rw [h1]; exact he, hc'⟩

/-- **C114** (loops that fill an array).  However the actions of the iterations of `for i in prange(n): out[i] = f(i)` are
interleaved: no iteration makes more than its `k i` actions; the loop is over exactly when each has made them all; then
the array holds `f(0), …, f(n-1)`, whatever was in it before; and every partial execution can be brought to its end. -/
theorem C114_slots (out : List γ) (hout : out.length = n) (hf : ∀ i < n, Spec.RunsIn next i (start i) (k i) (f i))
    (is : List Nat) (st : State (Option σ) (List γ))
    (he : exec (slotBody start next) n is (init (slotBody start next) out) = some st) :
    (∀ i < n, is.count i ≤ k i) ∧
    (Complete (slotBody start next) n st ↔ ∀ i < n, is.count i = k i) ∧
    (Complete (slotBody start next) n st → st.mem = (List.range n).map f) ∧
    ∃ js st', exec (slotBody start next) n js st = some st' ∧ Complete (slotBody start next) n st' := by
  have hinv := slotInv_exec (slotInv_init out hout hf) he
  refine ⟨?_, ?_, slotInv_mem hinv, slotInv_finish hinv _ rfl⟩
  · intro i hi
    rcases hinv.2 i hi with ⟨s, r, -, h2, -⟩ | ⟨-, h2, -⟩ <;> (beta_reduce at h2; omega)
  · rw [slotInv_complete hinv]
    simp

end

/-! ### `_hits_parallel` -/

section
open Metrics
variable {ι α : Type*} [LinearOrder ι] [Field α] [LinearOrder α]

theorem hits_runs (i : Nat) (q r : Rows ι α) (h : α) :
    Spec.RunsIn (hitsNext (ι := ι) (α := α)) i (q, r, h) (r.length + 1)
      (r.foldl (fun hits r => if (look q r.1).isSome then hits + 1 else hits) h) := by
  induction r generalizing h with
  | nil => exact .ret rfl
  | cons a t ih => exact .go rfl (ih _)

/-- **C114** (`hits`, action by action): when all iterations of `_hits_parallel` have ended, the array holds for every
query what `_hits` returns for it. -/
theorem C114_hits (qrels run : List (Rows ι α)) (kk : Nat) (lvl : α) (out : List α) (hout : out.length = qrels.length)
    (is : List Nat) (st : State (Option (Rows ι α × Rows ι α × α)) (List α))
    (he : exec (hitsBody qrels run kk lvl) qrels.length is (init (hitsBody qrels run kk lvl) out) = some st)
    (hc : Complete (hitsBody qrels run kk lvl) qrels.length st) :
    st.mem = (List.range qrels.length).map (fun i => hits ((qrels[i]?).getD []) ((run[i]?).getD []) kk lvl) := by
  refine (C114_slots (k := fun i => (hitsStart qrels run kk lvl i).2.1.length + 1) out hout ?_ is st he).2.2.1 hc
  intro i _
  have := hits_runs i (hitsStart qrels run kk lvl i).1 (hitsStart qrels run kk lvl i).2.1
    (hitsStart qrels run kk lvl i).2.2
  refine (?_ : _ = hits ((qrels[i]?).getD []) ((run[i]?).getD []) kk lvl) ▸ this
  unfold hitsStart hits
  by_cases h : (cleanQrels ((qrels[i]?).getD []) lvl).length = 0
  · simp only [if_pos h]; rfl
  · simp only [if_neg h]

end

/-! ### `_set_relevance_level` -/

section
variable {κ δ : Type*} [DecidableEq κ] [DecidableEq δ]

theorem dict_ext {ν : Type*} {a b : Dict κ ν} (ha : NodupKeys a) (hk : a.keys = b.keys)
    (h : ∀ x, a.get? x = b.get? x) : a = b := by
  induction a generalizing b with
  | nil =>
    cases b with
    | nil => rfl
    | cons y t => simp [Dict.keys] at hk
  | cons x s ih =>
    cases b with
    | nil => simp [Dict.keys] at hk
    | cons y t =>
      obtain ⟨x1, x2⟩ := x
      obtain ⟨y1, y2⟩ := y
      simp only [Dict.keys, List.map_cons, List.cons.injEq] at hk
      obtain ⟨rfl, hk⟩ := hk
      have hnd : x1 ∉ Dict.keys s ∧ NodupKeys s := by
        unfold NodupKeys at ha ⊢
        rw [List.map_cons, List.nodup_cons] at ha
        exact ha
      have h0 := h x1
      rw [get?_cons, get?_cons, if_pos rfl, if_pos rfl, Option.some.injEq] at h0
      simp only at h0
      subst h0
      rw [ih hnd.2 hk fun z => ?_]
      have hz := h z
      rw [get?_cons, get?_cons] at hz
      by_cases e : x1 = z
      · subst e
        rw [(get?_eq_none (d := s)).2 hnd.1, (get?_eq_none (d := t)).2 (by unfold Dict.keys; rw [← hk]; exact hnd.1)]
      · rw [if_neg e, if_neg e] at hz; exact hz

theorem set_append_mid {ν : Type*} (pre post : Dict δ ν) (d : δ) (v w : ν) (h : d ∉ pre.keys) :
    Dict.set (pre ++ (d, v) :: post) d w = pre ++ (d, w) :: post := by
  induction pre with
  | nil => simp [Dict.set]
  | cons p t ih =>
    obtain ⟨a, b⟩ := p
    rw [Dict.keys, List.map_cons, List.mem_cons, not_or] at h
    have : ¬ a = d := fun e => h.1 e.symm
    simp only [List.cons_append, Dict.set, if_neg this, ih h.2]

theorem keys_set_mem {ν : Type*} (d : Dict κ ν) (k : κ) (v : ν) (h : k ∈ d.keys) : (d.set k v).keys = d.keys := by
  induction d with
  | nil => cases h
  | cons p t ih =>
    obtain ⟨a, b⟩ := p
    by_cases hk : a = k
    · simp [Dict.set, hk, Dict.keys]
    · have : k ∈ Dict.keys t := by
        rw [Dict.keys, List.map_cons, List.mem_cons] at h
        rcases h with h | h
        · exact absurd h.symm hk
        · exact h
      have := ih this
      unfold Dict.keys at this ⊢
      simp [Dict.set, hk, this]

/-- the judgement after the call -/
def Spec.shifted (lvl : Int) (p : δ × Int) : δ × Int := (p.1, p.2 - (lvl - 1))

/-- how far the query's iteration is -/
def RelAt (lvl : Int) (inner0 inner : Dict δ Int) : RelVars δ → Prop
  | .fresh => inner = inner0
  | .ids ds => ds = inner0.keys ∧ inner = inner0
  | .writing ds vs => ds.length = vs.length ∧
      ∃ pre, inner0 = pre ++ ds.zip vs ∧ inner = pre.map (Spec.shifted lvl) ++ ds.zip vs

def RelInv (lvl : Int) (data0 : Dict κ (Dict δ Int)) (st : State (RelVars δ) (Dict κ (Dict δ Int))) : Prop :=
  st.mem.keys = data0.keys ∧ ∀ i q inner0, data0.keys[i]? = some q → data0.get? q = some inner0 →
    ∃ inner, st.mem.get? q = some inner ∧ RelAt lvl inner0 inner (st.locals i)

theorem relInv_step {lvl : Int} {data0 : Dict κ (Dict δ Int)} (hw : Store.Wf data0)
    {st st' : State (RelVars δ) (Dict κ (Dict δ Int))} {i : Nat} (h : RelInv lvl data0 st)
    (hs : step (relBody data0.keys lvl) data0.keys.length i st = some st') : RelInv lvl data0 st' := by
  unfold step at hs
  split at hs
  case isFalse => cases hs
  case isTrue hi =>
  obtain ⟨hin, hdone⟩ := hi
  simp only [Option.some.injEq] at hs
  subst hs
  obtain ⟨hkeys, hinv⟩ := h
  have hnd : data0.keys.Nodup := hw.1
  obtain ⟨q, hq⟩ : ∃ q, data0.keys[i]? = some q := ⟨_, List.getElem?_eq_getElem hin⟩
  have hqm : q ∈ data0.keys := List.mem_of_getElem? hq
  obtain ⟨inner0, h0⟩ : ∃ x, data0.get? q = some x := Option.isSome_iff_exists.1 ((get?_isSome (d := data0)).2 hqm)
  obtain ⟨inner, hin1, hat⟩ := hinv i q inner0 hq h0
  have hne : ∀ j q', data0.keys[j]? = some q' → j ≠ i → q' ≠ q := by
    intro j q' hj hji e
    subst e
    obtain ⟨hj1, hj2⟩ := List.getElem?_eq_some_iff.1 hj
    obtain ⟨hi1, hi2⟩ := List.getElem?_eq_some_iff.1 hq
    exact hji ((hnd.getElem_inj_iff (hi := hj1) (hj := hi1)).1 (hj2.trans hi2.symm))
  have hnd0 : NodupKeys inner0 := Store.Wf.get? hw h0
  -- steps that only change the local variables
  have quiet : ∀ s' : RelVars δ, RelAt lvl inner0 inner s' →
      RelInv lvl data0 ⟨fun j => if j = i then s' else st.locals j, st.mem⟩ := by
    intro s' hs'
    refine ⟨hkeys, fun j q' x hj hx => ?_⟩
    by_cases hji : j = i
    · subst hji
      rw [hq, Option.some.injEq] at hj
      subst hj
      rw [h0, Option.some.injEq] at hx
      subst hx
      exact ⟨inner, hin1, by simpa using hs'⟩
    · obtain ⟨y, hy, ha⟩ := hinv j q' x hj hx
      exact ⟨y, hy, by simpa [hji] using ha⟩
  cases hl : st.locals i with
  | fresh =>
    rw [hl] at hat
    have e : (relBody data0.keys lvl).act i .fresh st.mem = (.ids inner.keys, st.mem) := by
      simp only [relBody, hq, hin1, Option.getD_some]
    rw [e]
    refine quiet _ ⟨?_, hat⟩
    rw [show inner = inner0 from hat]
  | ids ds =>
    rw [hl] at hat
    have e : (relBody data0.keys lvl).act i (.ids ds) st.mem = (.writing ds inner.values, st.mem) := by
      simp only [relBody, hq, hin1, Option.getD_some]
    rw [e]
    obtain ⟨rfl, rfl⟩ := hat
    refine quiet _ ⟨by simp [Dict.keys, Dict.values], [], ?_, ?_⟩
    all_goals
      simp only [List.nil_append, List.map_nil]
      clear * -
      induction inner with
      | nil => rfl
      | cons p t ih =>
        simp only [Dict.keys, Dict.values, List.map_cons, List.zip_cons_cons] at ih ⊢
        rw [← ih]
  | writing ds vs =>
    rw [hl] at hat hdone
    obtain ⟨hlen, pre, e0, e1⟩ := hat
    cases ds with
    | nil => cases hdone
    | cons d ds =>
      cases vs with
      | nil => cases hdone
      | cons v vs =>
        have e : (relBody data0.keys lvl).act i (.writing (d :: ds) (v :: vs)) st.mem =
            (.writing ds vs, st.mem.set q (inner.set d (v - (lvl - 1)))) := by
          simp only [relBody, hq, hin1, Option.getD_some]
        rw [e]
        have hd : d ∉ (pre.map (Spec.shifted lvl)).map Prod.fst := by
          rw [e0] at hnd0
          unfold NodupKeys at hnd0
          rw [List.map_append, List.zip_cons_cons, List.map_cons, List.nodup_append] at hnd0
          intro hc
          have : d ∈ pre.map Prod.fst := by
            rw [List.map_map] at hc
            exact hc
          exact hnd0.2.2 _ this _ (List.mem_cons_self ..) rfl
        have hset : inner.set d (v - (lvl - 1)) =
            (pre ++ [(d, v)]).map (Spec.shifted lvl) ++ ds.zip vs := by
          rw [e1, List.zip_cons_cons, set_append_mid _ _ _ _ _ hd]
          simp [Spec.shifted]
        refine ⟨?_, fun j q' x hj hx => ?_⟩
        · change Dict.keys (Dict.set st.mem q _) = _
          rw [keys_set_mem _ _ _ (hkeys ▸ hqm), hkeys]
        · by_cases hji : j = i
          · subst hji
            rw [hq, Option.some.injEq] at hj
            subst hj
            rw [h0, Option.some.injEq] at hx
            subst hx
            refine ⟨_, get?_set_self .., ?_⟩
            change RelAt lvl inner0 _ (if j = j then _ else _)
            rw [if_pos rfl]
            refine ⟨by simpa using hlen, pre ++ [(d, v)], ?_, hset⟩
            rw [e0]; simp
          · obtain ⟨y, hy, ha⟩ := hinv j q' x hj hx
            refine ⟨y, ?_, by simpa [hji] using ha⟩
            change Dict.get? (Dict.set st.mem q _) q' = _
            rw [get?_set_ne _ _ (fun e => hne j q' hj hji e.symm)]
            exact hy

theorem relInv_exec {lvl : Int} {data0 : Dict κ (Dict δ Int)} (hw : Store.Wf data0)
    {st st' : State (RelVars δ) (Dict κ (Dict δ Int))} {is : List Nat} (h : RelInv lvl data0 st)
    (hs : exec (relBody data0.keys lvl) data0.keys.length is st = some st') : RelInv lvl data0 st' := by
  induction is generalizing st with
  | nil => cases hs; exact h
  | cons i is ih =>
    unfold exec at hs
    obtain ⟨st1, h1, h2⟩ := Option.bind_eq_some_iff.1 hs
    exact ih (relInv_step hw h h1) h2

/-- **C114** (`set_relevance_level`): however the reads and the single assignments of its parallel loop are interleaved,
once all iterations have ended every judgement has been lowered by `rel_lvl - 1`, once, and nothing else has changed. -/
theorem C114_set_relevance_level (s : Store κ δ Int) (hw : Store.Wf s.data) (lvl : Int) (is : List Nat)
    (st : State (RelVars δ) (Dict κ (Dict δ Int)))
    (he : exec (relBody s.data.keys lvl) s.data.keys.length is (init (relBody s.data.keys lvl) s.data) = some st)
    (hc : Complete (relBody s.data.keys lvl) s.data.keys.length st) :
    st.mem = (s.setRelevanceLevel lvl).data ∧
      st.mem = s.data.map (fun p => (p.1, p.2.map (fun e => (e.1, e.2 - (lvl - 1))))) := by
  suffices h : st.mem = s.data.map (fun p => (p.1, p.2.map (fun e => (e.1, e.2 - (lvl - 1))))) from ⟨h, h⟩
  have hinit : RelInv lvl s.data (init (relBody s.data.keys lvl) s.data) :=
    ⟨rfl, fun i q x _ hx => ⟨x, hx, rfl⟩⟩
  obtain ⟨hk, hinv⟩ := relInv_exec hw hinit he
  have hkm : Dict.keys (s.data.map (fun p => (p.1, p.2.map (fun e => (e.1, e.2 - (lvl - 1)))))) = s.data.keys := by
    simp [Dict.keys, List.map_map, Function.comp_def]
  refine dict_ext (by unfold NodupKeys; rw [show st.mem.map Prod.fst = st.mem.keys from rfl, hk]; exact hw.1)
    (hk.trans hkm.symm) fun x => ?_
  rw [get?_map_val s.data (fun i => i.map (fun e => (e.1, e.2 - (lvl - 1)))) x]
  cases hx : s.data.get? x with
  | none =>
    rw [get?_eq_none] at hx
    rw [Option.map_none, get?_eq_none, hk]
    exact hx
  | some inner0 =>
    have hm : x ∈ s.data.keys := (get?_isSome (d := s.data)).1 (by rw [hx]; rfl)
    obtain ⟨i, hi, rfl⟩ := List.getElem_of_mem hm
    obtain ⟨inner, h1, h2⟩ := hinv i _ inner0 (List.getElem?_eq_getElem hi) hx
    rw [h1, Option.map_some]
    have hd := hc i hi
    cases hl : st.locals i with
    | fresh => rw [hl] at hd; cases hd
    | ids ds => rw [hl] at hd; cases hd
    | writing ds vs =>
      rw [hl] at hd h2
      obtain ⟨hlen, pre, e0, e1⟩ := h2
      have hz : ds.zip vs = [] := by
        cases ds with
        | nil => rfl
        | cons d ds =>
          cases vs with
          | nil => rfl
          | cons v vs => cases hd
      rw [hz, List.append_nil] at e0 e1
      subst e0
      rw [e1]
      rfl

end

/-! ### the seed of Fisher's test -/

section
open Stat Metrics
variable {ρ α : Type*} [Field α] [LinearOrder α] [IsStrictOrderedRing α]

/-- **C115** (partial: one thread).  When the calling thread runs all permutations, the p-value and the verdict depend on
the seed and the arguments only, not on the generators of other threads. -/
theorem C115_one_thread_partial (R : Rng ρ) (seed : Nat) (other other' : Nat → ρ) (chunk : List Nat)
    (rest rest' : List (List Nat)) (n : Nat) (hchunk : ∀ i < n, i ∈ chunk) (sched sched' : List Nat) (hs : Schedule n sched)
    (hs' : Schedule n sched') (a b : List (Num α)) (maxP : α) :
    seededFisher R seed other (chunk :: rest) sched a b n maxP =
      seededFisher R seed other' (chunk :: rest') sched' a b n maxP := by
  have hcoin : ∀ i < n, ∀ j, coins R seed other (chunk :: rest) a.length i j =
      coins R seed other' (chunk :: rest') a.length i j := by
    intro i hi j
    have e : ∀ r : List (List Nat), (chunk :: r).findIdx? (fun c => c.contains i) = some 0 := by
      intro r
      rw [List.findIdx?_cons]
      have : chunk.contains i = true := by simpa using hchunk i hi
      rw [if_pos this]
    unfold coins
    rw [e, e]
    simp
  unfold seededFisher fisher
  split
  · rfl
  · simp only
    rw [prange_eq _ _ _ (by simpa using hs), prange_eq _ _ _ (by simpa using hs')]
    have : ∀ i < n, permute (coins R seed other (chunk :: rest) a.length i) (a.zip b) =
        permute (coins R seed other' (chunk :: rest') a.length i) (a.zip b) := by
      intro i hi
      unfold permute
      refine List.map_congr_left fun r _ => ?_
      rw [hcoin i hi]
    rw [List.length_replicate]
    rw [List.map_congr_left fun i hi => by rw [this i (List.mem_range.1 hi)]]

/-- Specification: the successive outputs of a generator started in state `s` -/
def Spec.outputs (R : Rng ρ) (s : ρ) : Nat → Bool
  | 0 => (R.draw s).1
  | k + 1 => Spec.outputs R (R.draw s).2 k

theorem Spec.outputs_eq (R : Rng ρ) (s : ρ) (k : Nat) : Spec.outputs R s k = (R.draw (R.after s k)).1 := by
  have key : ∀ (k : Nat) (s : ρ), R.after (R.draw s).2 k = R.after s (k + 1) := by
    intro k
    induction k with
    | zero => intro s; rfl
    | succ k ih =>
      intro s
      change (R.draw (R.after (R.draw s).2 k)).2 = (R.draw (R.after s (k + 1))).2
      rw [ih]
  induction k generalizing s with
  | zero => rfl
  | succ k ih =>
    change Spec.outputs R (R.draw s).2 k = _
    rw [ih, key]

/-- **C115** (partial: one thread; fresh draws).  When the calling thread runs the permutations one after the other, they
use the outputs of the generator just seeded with `random_seed` in turn, none twice: the `i`-th permutation decides for row
`j` by output number `i * rows + j`. -/
theorem C115_draws_partial (R : Rng ρ) (seed : Nat) (other : Nat → ρ) (rest : List (List Nat)) (n : Nat)
    (sched : List Nat) (hs : Schedule n sched) (a b : List (Num α)) (maxP : α) :
    seededFisher R seed other (List.range n :: rest) sched a b n maxP =
      fisher (fun i j => Spec.outputs R (R.seed seed) (i * a.length + j)) sched a b n maxP := by
  have hcoin : ∀ i < n, ∀ j, coins R seed other (List.range n :: rest) a.length i j =
      Spec.outputs R (R.seed seed) (i * a.length + j) := by
    intro i hi j
    have e : (List.range n :: rest).findIdx? (fun c => c.contains i) = some 0 := by
      rw [List.findIdx?_cons]
      have : (List.range n).contains i = true := by simpa using hi
      rw [if_pos this]
    have hidx : (List.range n).idxOf i = i := by
      have := List.Nodup.idxOf_getElem (List.nodup_range (n := n)) i (by simpa using hi)
      simpa using this
    unfold coins
    rw [e]
    simp only [if_true, List.getElem?_cons_zero, Option.getD_some]
    rw [hidx, Spec.outputs_eq]
  unfold seededFisher fisher
  split
  · rfl
  · simp only
    rw [prange_eq _ _ _ (by simpa using hs), prange_eq _ _ _ (by simpa using hs)]
    have : ∀ i < n, permute (coins R seed other (List.range n :: rest) a.length i) (a.zip b) =
        permute (fun j => Spec.outputs R (R.seed seed) (i * a.length + j)) (a.zip b) := by
      intro i hi
      unfold permute
      refine List.map_congr_left fun r _ => ?_
      rw [hcoin i hi]
    rw [List.length_replicate]
    rw [List.map_congr_left fun i hi => by rw [this i (List.mem_range.1 hi)]]

/-- non-vacuity: a generator alternating between the two outcomes -/
example : (List.range 4).map (Spec.outputs (⟨fun _ => false, fun s => (s, !s)⟩ : Rng Bool) false) =
    [false, true, false, true] := by decide

/-- **C115 refuted** for two threads: with any generator that can lead to both outcomes of two draws (the same twice, or
different), and any seed, two executions of the same call with the same seed return different p-values. -/
theorem C115_refuted (R : Rng ρ) (seed : Nat) (s s' : ρ) (hs : (R.draw s).1 = (R.draw (R.draw s).2).1)
    (hs' : (R.draw s').1 ≠ (R.draw (R.draw s').2).1) (maxP : ℚ) :
    ∃ p p' : Result ℚ,
      seededFisher R seed (fun _ => s) [[0], [1]] [0, 1] [.val 1, .val 1] [.val 0, .val 0] 2 maxP = .ok p ∧
      seededFisher R seed (fun _ => s') [[0], [1]] [0, 1] [.val 1, .val 1] [.val 0, .val 0] 2 maxP = .ok p' ∧ p.p ≠ p'.p := by
  have hsch : Schedule 2 [0, 1] := by unfold Schedule; decide
  have val : ∀ o : ρ, seededFisher R seed (fun _ => o) [[0], [1]] [0, 1] [.val 1, .val 1] [.val 0, .val 0] 2 maxP =
      .ok ⟨.val ((Spec.atLeastObserved (coins R seed (fun _ => o) [[0], [1]] 2) 2 [(1 : ℚ), 1] [0, 0] : ℚ) / (2 : ℕ)),
        decide ((Spec.atLeastObserved (coins R seed (fun _ => o) [[0], [1]] 2) 2 [(1 : ℚ), 1] [0, 0] : ℚ) / (2 : ℕ) ≤ maxP)⟩ :=
    fun o => C68_p_value _ _ [(1 : ℚ), 1] [0, 0] 2 maxP rfl (by simp) (by norm_num) hsch
  refine ⟨_, _, val s, val s', ?_⟩
  intro hc
  simp only [Num.val.injEq] at hc
  have hc' : (Spec.atLeastObserved (coins R seed (fun _ => s) [[0], [1]] 2) 2 [(1 : ℚ), 1] [0, 0] : ℚ) =
      Spec.atLeastObserved (coins R seed (fun _ => s') [[0], [1]] 2) 2 [(1 : ℚ), 1] [0, 0] := by
    have h2 : ((2 : ℕ) : ℚ) ≠ 0 := by norm_num
    field_simp at hc
    exact hc
  have hcn : Spec.atLeastObserved (coins R seed (fun _ => s) [[0], [1]] 2) 2 [(1 : ℚ), 1] [0, 0] =
      Spec.atLeastObserved (coins R seed (fun _ => s') [[0], [1]] 2) 2 [(1 : ℚ), 1] [0, 0] := by exact_mod_cast hc'
  -- the four coins
  have c0 : ∀ o j, coins R seed (fun _ => o) [[0], [1]] 2 0 j = (R.draw (R.after (R.seed seed) j)).1 := by
    intro o j
    have : ([[0], [1]] : List (List Nat)).findIdx? (fun c => c.contains 0) = some 0 := by decide
    unfold coins
    rw [this]
    simp
  have c1 : ∀ o j, coins R seed (fun _ => o) [[0], [1]] 2 1 j = (R.draw (R.after o j)).1 := by
    intro o j
    have : ([[0], [1]] : List (List Nat)).findIdx? (fun c => c.contains 1) = some 1 := by decide
    unfold coins
    rw [this]
    simp
  have cnt : ∀ o, Spec.atLeastObserved (coins R seed (fun _ => o) [[0], [1]] 2) 2 [(1 : ℚ), 1] [0, 0] =
      (if (R.draw (R.seed seed)).1 = (R.draw (R.draw (R.seed seed)).2).1 then 1 else 0) +
      (if (R.draw o).1 = (R.draw (R.draw o).2).1 then 1 else 0) := by
    intro o
    have h00 := c0 o 0
    have h01 := c0 o 1
    have h10 := c1 o 0
    have h11 := c1 o 1
    simp only [Rng.after] at h00 h01 h10 h11
    unfold Spec.atLeastObserved Spec.signedSum
    rw [show List.range 2 = [0, 1] from rfl]
    simp only [List.length_cons, List.length_nil, List.range_succ, List.range_zero, List.filter, List.map, List.nil_append,
      List.cons_append, h00, h01, h10, h11]
    cases (R.draw (R.seed seed)).1 <;> cases (R.draw (R.draw (R.seed seed)).2).1 <;> cases (R.draw o).1 <;>
      cases (R.draw (R.draw o).2).1 <;> simp <;> norm_num
  rw [cnt, cnt, if_pos hs, if_neg hs'] at hcn
  omega

end

/-! ### the hypotheses can be met -/

/-- qrels of two queries -/
def exThreads : Store Nat Nat Int := ⟨[(1, [(10, 2), (11, 1)]), (2, [(12, 3)])], true⟩

/-- two iterations that read and write in turn -/
example : ∃ st, exec (relBody exThreads.data.keys 2) exThreads.data.keys.length [0, 1, 0, 1, 0, 1, 0]
      (init (relBody exThreads.data.keys 2) exThreads.data) = some st ∧
    Complete (relBody exThreads.data.keys 2) exThreads.data.keys.length st ∧
    st.mem = [(1, [(10, 1), (11, 0)]), (2, [(12, 2)])] := by
  refine ⟨_, rfl, ?_, rfl⟩
  intro i hi
  have : i = 0 ∨ i = 1 := by
    have : i < 2 := hi
    omega
  rcases this with rfl | rfl <;> rfl

example : Store.Wf exThreads.data := by unfold Store.Wf NodupKeys; decide

/-- two queries whose turns alternate -/
example : ∃ st, exec (hitsBody (ι := Nat) (α := ℚ) [[(1, 1)], [(2, 1)]] [[(3, 2), (1, 1)], [(2, 2)]] 0 1) 2 [0, 1, 0, 1, 0]
      (init (hitsBody [[(1, 1)], [(2, 1)]] [[(3, 2), (1, 1)], [(2, 2)]] 0 1) [7, 7]) = some st ∧
    Complete (hitsBody (ι := Nat) (α := ℚ) [[(1, 1)], [(2, 1)]] [[(3, 2), (1, 1)], [(2, 2)]] 0 1) 2 st := by
  refine ⟨_, rfl, ?_⟩
  intro i hi
  have : i = 0 ∨ i = 1 := by omega
  rcases this with rfl | rfl <;> rfl

/-- a generator with both outcomes -/
example : ∃ (R : Rng Nat) (s s' : Nat), (R.draw s).1 = (R.draw (R.draw s).2).1 ∧ (R.draw s').1 ≠ (R.draw (R.draw s').2).1 :=
  ⟨⟨id, fun s => (decide (s % 4 < 2), s + 1)⟩, 0, 1, by decide, by decide⟩

example : ∀ i < 3, i ∈ List.range 3 := by decide

end Ranx
