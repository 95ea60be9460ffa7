import Verif.Lemmas.Evaluate2
import Mathlib.Algebra.BigOperators.Group.List.Basic

/-!
# Properties C31 – C38: `evaluate`

`qrels` and `run` are objects built by public calls (`Spec.Usable`); `sched i` is the order in which
the parallel iterations of the i-th metric take effect.
-/

set_option linter.unusedSectionVars false

namespace Ranx
open Dict Store Eval Metrics Py
variable {κ δ ι α : Type*}
variable [LinearOrder κ] [DecidableEq δ] [LinearOrder ι] [Field α] [LinearOrder α]
  [IsStrictOrderedRing α]

/-- the array of a ranked list of docs: hashed ids and values as floats -/
def asRows {β : Type*} (hash : δ → ι) (cast : β → α) (l : List (δ × β)) : Rows ι α :=
  l.map (fun p => (hash p.1, cast p.2))

/-- everything a successful call has done -/
structure Success (F : Fn α) (other : Str → Except Err α) (SQ : ArgSort Int) (SR : ArgSort α)
    (hash : δ → ι) (o : Opts) (s : Store κ δ Int) (r : RunObj κ δ α) (ms : List Str)
    (after : After κ δ α) (out : Out α) (d : Dict Str (List (Num α))) : Prop where
  state : after = ⟨.obj (s.ensureSorted SQ),
    .obj (saveAll F o d { r with store := (comparable SR o s r).ensureSorted SR })⟩
  result : outOf F other o true d ms = .ok out
  keys : (s.ensureSorted SQ).data.keys = ((comparable SR o s r).ensureSorted SR).data.keys
  nodup : NodupKeys d
  scores : ∀ m l, d.get? m = some l → ∃ f : Kernel ι α, metricOf F other m = .ok f ∧
    List.zipWith f (Store.rows hash (fun z : Int => (z : α)) (s.ensureSorted SQ).data)
      (Store.rows hash id ((comparable SR o s r).ensureSorted SR).data) = l.map .ok
  metrics : ∀ m, m ∈ d.keys ↔ m ∈ ms

theorem success_ok (F : Fn α) (other : Str → Except Err α) (SQ : ArgSort Int) (SR : ArgSort α)
    (hash : δ → ι) (sched : Nat → List Nat) (o : Opts) (s : Store κ δ Int) (r : RunObj κ δ α)
    (ms : List Str) (hs' : Wf s.data ∧ FlagOk s) (hr : Wf r.store.data ∧ FlagOk r.store)
    (hsched : ∀ i, Schedule s.data.length (sched i)) {after : After κ δ α} {out : Out α}
    (h : evaluate F other SQ SR hash sched o (.obj s) (.obj r) ms = (after, .ok out)) :
    ∃ d, Success F other SQ SR hash o s r ms after out d := by
  have hr' := comparable_ok SR o s r hr
  rw [evaluate_obj] at h
  by_cases hk : sameKeys s.data.keys (comparable SR o s r).data.keys = true
  · rw [if_pos hk] at h
    have hal := aligned SQ SR s (comparable SR o s r) hs' hr' hk
    have hl1 : (s.ensureSorted SQ).data.length = s.data.length :=
      (ensureSorted_facts SQ s hs'.1 hs'.2).2.2.2.2.2
    have hlen : (Store.rows hash id ((comparable SR o s r).ensureSorted SR).data).length =
        (Store.rows hash (fun z : Int => (z : α)) (s.ensureSorted SQ).data).length := by
      have := congrArg List.length hal
      simp only [length_keys] at this
      simp [Store.rows, this]
    have hql : (Store.rows hash (fun z : Int => (z : α)) (s.ensureSorted SQ).data).length =
        s.data.length := by simp [Store.rows, hl1]
    cases hd : scoreAll F other sched (Store.rows hash (fun z : Int => (z : α)) (s.ensureSorted SQ).data)
        (Store.rows hash id ((comparable SR o s r).ensureSorted SR).data) ms.zipIdx [] with
    | error e => rw [hd] at h; simp at h
    | ok d =>
      rw [hd] at h
      simp only [Prod.mk.injEq] at h
      obtain ⟨h1, h2, h3⟩ := scoreAll_ok F other sched _ _ (fun i => by rw [hql]; exact hsched i) hlen
        ms.zipIdx [] d hd (by simp) nodupKeys_nil
      refine ⟨d, h.1.symm, h.2, hal, h1, ?_, ?_⟩
      · intro m l hml
        obtain ⟨f, hf, hc⟩ := h2 m l hml
        exact ⟨f, hf, (collect_ok_iff _ _).1 hc⟩
      · intro m
        rw [h3]
        simp [List.zipIdx_map_fst]
  · rw [if_neg hk] at h; simp at h

theorem success (F : Fn α) (other : Str → Except Err α) (SQ : ArgSort Int) (SR : ArgSort α)
    (hash : δ → ι) (sched : Nat → List Nat) (o : Opts) (s : Store κ δ Int) (r : RunObj κ δ α)
    (ms : List Str) (hs : Spec.Usable SQ s) (hr : Spec.Usable SR r.store)
    (hsched : ∀ i, Schedule s.data.length (sched i)) {after : After κ δ α} {out : Out α}
    (h : evaluate F other SQ SR hash sched o (.obj s) (.obj r) ms = (after, .ok out)) :
    ∃ d, Success F other SQ SR hash o s r ms after out d :=
  success_ok F other SQ SR hash sched o s r ms hs.ok hr.ok hsched h

theorem read_comparable (SR : ArgSort α) (o : Opts) (s : Store κ δ Int) (r : RunObj κ δ α)
    (hr : Wf r.store.data) (q : κ) (hq : q ∈ s.data.keys) (d : δ) :
    (Spec.content (comparable SR o s r)).read q d = (Spec.content r.store).read q d := by
  unfold comparable
  by_cases hm : o.makeComparable
  · rw [if_pos hm]
    obtain ⟨d2, hw2, hc, he⟩ := makeComparable_spec SR r.store s.data.keys hr
    rw [he, content_eq, cont_sortAll SR hw2]
    unfold Spec.Content.read cont Spec.content
    rw [hc q, if_pos hq]
    cases r.store.data.get? q <;> rfl
  · rw [if_neg hm]

/-- scores by query -/
theorem Success.query {F : Fn α} {other : Str → Except Err α} {SQ : ArgSort Int} {SR : ArgSort α}
    {hash : δ → ι} {o : Opts} {s : Store κ δ Int} {r : RunObj κ δ α} {ms : List Str}
    {after : After κ δ α} {out : Out α} {d : Dict Str (List (Num α))}
    (h : Success F other SQ SR hash o s r ms after out d)
    (hs : Spec.Usable SQ s) (hr : Spec.Usable SR r.store) {m : Str} (hm : m ∈ ms) :
    ∃ f : Kernel ι α, metricOf F other m = .ok f ∧ ∃ l, d.get? m = some l ∧
      l.length = s.data.length ∧
      ∀ q ∈ s.data.keys, ∃ jl rl v,
        Spec.Ranking (Spec.content s) q jl ∧ Spec.Ranking (Spec.content r.store) q rl ∧
        f (asRows hash (fun z : Int => (z : α)) jl) (asRows hash id rl) = .ok v ∧
        l[(s.ensureSorted SQ).data.keys.idxOf q]? = some v := by
  have hs' := hs.ok
  have hr' := comparable_ok SR o s r hr.ok
  obtain ⟨l, hl⟩ : ∃ l, d.get? m = some l := by
    have := get?_isSome.2 ((h.metrics m).2 hm)
    exact Option.isSome_iff_exists.1 this
  obtain ⟨f, hf, hz⟩ := h.scores m l hl
  obtain ⟨w1, c1, k1, rk1, o1, l1⟩ := ensureSorted_facts SQ s hs'.1 hs'.2
  obtain ⟨w2, c2, k2, rk2, o2, l2⟩ := ensureSorted_facts SR (comparable SR o s r) hr'.1 hr'.2
  have hlen : ((comparable SR o s r).ensureSorted SR).data.length = (s.ensureSorted SQ).data.length := by
    have := congrArg List.length h.keys
    simpa using this.symm
  refine ⟨f, hf, l, hl, ?_, ?_⟩
  · have := congrArg List.length hz
    simp [Store.rows, hlen, l1] at this
    exact this.symm
  intro q hq
  have hq1 : q ∈ (s.ensureSorted SQ).data.keys := (k1 q).2 hq
  set i := (s.ensureSorted SQ).data.keys.idxOf q with hi
  have hilt : i < (s.ensureSorted SQ).data.length := by
    have := List.idxOf_lt_length_iff.2 hq1
    simpa using this
  have e1 : (s.ensureSorted SQ).data.keys[i]? = some q := by
    rw [List.getElem?_eq_getElem (by simpa using hilt)]
    simp [hi]
  have e2 : ((comparable SR o s r).ensureSorted SR).data.keys[i]? = some q := by rw [← h.keys]; exact e1
  obtain ⟨p1, hp1, hp1q⟩ : ∃ p, (s.ensureSorted SQ).data[i]? = some p ∧ p.1 = q := by
    unfold Dict.keys at e1
    rw [List.getElem?_map] at e1
    obtain ⟨p, hp, hpq⟩ := Option.map_eq_some_iff.1 e1
    exact ⟨p, hp, hpq⟩
  obtain ⟨p2, hp2, hp2q⟩ : ∃ p, ((comparable SR o s r).ensureSorted SR).data[i]? = some p ∧ p.1 = q := by
    unfold Dict.keys at e2
    rw [List.getElem?_map] at e2
    obtain ⟨p, hp, hpq⟩ := Option.map_eq_some_iff.1 e2
    exact ⟨p, hp, hpq⟩
  have g1 : (s.ensureSorted SQ).data.get? q = some p1.2 := by
    rw [← hp1q]; exact get?_of_mem w1.1 (List.mem_of_getElem? hp1)
  have g2 : ((comparable SR o s r).ensureSorted SR).data.get? q = some p2.2 := by
    rw [← hp2q]; exact get?_of_mem w2.1 (List.mem_of_getElem? hp2)
  have r1 := ranking_of_mem _ w1 rk1 g1
  have r2 := ranking_of_mem _ w2 rk2 g2
  rw [c1] at r1
  rw [c2] at r2
  have r2' : Spec.Ranking (Spec.content r.store) q p2.2 :=
    ⟨r2.nodup, r2.sorted, fun x v => by rw [r2.docs, read_comparable SR o s r hr.ok.1 q hq]⟩
  have hzi := congrArg (fun x => x[i]?) hz
  simp only [List.getElem?_zipWith, Store.rows, Dict.values, List.getElem?_map, hp1, hp2,
    Option.map_some] at hzi
  cases hli : l[i]? with
  | none => rw [hli] at hzi; simp at hzi
  | some v =>
    rw [hli] at hzi
    simp only [Option.map_some, Option.some.injEq] at hzi
    exact ⟨p1.2, p2.2, v, r1, r2', hzi, rfl⟩

/-! ## C31: every query is scored from its own judgements and its own ranking -/

/-- **C31**: after a successful `evaluate(qrels, run, metrics)`, for every metric string and every
judged query, the saved score is the metric applied to that query's judgements and that query's
ranking (both best first); a query absent from the run is scored as an empty ranking. -/
theorem C31_pairs_queries (F : Fn α) (other : Str → Except Err α) (SQ : ArgSort Int) (SR : ArgSort α)
    (hash : δ → ι) (sched : Nat → List Nat) (o : Opts) (ho : o.save = true) (s : Store κ δ Int)
    (r : RunObj κ δ α) (ms : List Str) (hs : Spec.Usable SQ s) (hr : Spec.Usable SR r.store)
    (hsched : ∀ i, Schedule s.data.length (sched i)) (after : After κ δ α) (out : Out α)
    (h : evaluate F other SQ SR hash sched o (.obj s) (.obj r) ms = (after, .ok out)) :
    ∃ r' : RunObj κ δ α, after.run = .obj r' ∧
      ∀ m ∈ ms, ∃ f : Kernel ι α, metricOf F other m = .ok f ∧
        ∀ q ∈ s.data.keys, ∃ jl rl v,
          Spec.Ranking (Spec.content s) q jl ∧ Spec.Ranking (Spec.content r.store) q rl ∧
          f (asRows hash (fun z : Int => (z : α)) jl) (asRows hash id rl) = .ok v ∧
          r'.saved m q = some v := by
  obtain ⟨d, hd⟩ := success F other SQ SR hash sched o s r ms hs hr hsched h
  refine ⟨_, by rw [hd.state], ?_⟩
  intro m hm
  obtain ⟨f, hf, l, hl, hlen, hq⟩ := hd.query hs hr hm
  refine ⟨f, hf, ?_⟩
  intro q hqk
  obtain ⟨jl, rl, v, h1, h2, h3, h4⟩ := hq q hqk
  refine ⟨jl, rl, v, h1, h2, h3, ?_⟩
  have hs' := hs.ok
  have hr' := comparable_ok SR o s r hr.ok
  obtain ⟨w1, -, k1, -, o1, l1⟩ := ensureSorted_facts SQ s hs'.1 hs'.2
  obtain ⟨w2, -, k2, -, o2, l2⟩ := ensureSorted_facts SR (comparable SR o s r) hr'.1 hr'.2
  have hlen' : ((comparable SR o s r).ensureSorted SR).data.length = s.data.length := by
    have := congrArg List.length hd.keys
    simp only [length_keys] at this
    omega
  unfold saveAll
  rw [if_pos ho, saved_fold F _ d hd.nodup]
  · simp only
    rw [if_pos (by rw [← hd.keys]; exact (k1 q).2 hqk), hl]
    simp only
    rw [← hd.keys]; exact h4
  · exact w2.1
  · intro p hp
    obtain ⟨f', hf', hz⟩ := hd.scores p.1 p.2 (get?_of_mem hd.nodup hp)
    have := congrArg List.length hz
    simp [Store.rows, hlen', l1] at this
    rw [hlen']; exact this.symm

theorem evaluate_succeeds (F : Fn α) (other : Str → Except Err α) (SQ : ArgSort Int) (SR : ArgSort α)
    (hash : δ → ι) (sched : Nat → List Nat) (o : Opts) (ho : o.save = true ∨ o.returnMean = true)
    (s : Store κ δ Int) (r : RunObj κ δ α) (ms : List Str) (hs' : Wf s.data ∧ FlagOk s)
    (hr : Wf r.store.data ∧ FlagOk r.store) (hsched : ∀ i, Schedule s.data.length (sched i))
    (hk : o.makeComparable = true ∨ ∀ q, q ∈ s.data.keys ↔ q ∈ r.store.data.keys)
    (hms : ∀ m ∈ ms, ∃ f : Kernel ι α, metricOf F other m = .ok f ∧ ∀ a b, ∃ v, f a b = .ok v) :
    ∃ after out, evaluate F other SQ SR hash sched o (.obj s) (.obj r) ms = (after, .ok out) := by
  have hr' := comparable_ok SR o s r hr
  have hkeys : sameKeys s.data.keys (comparable SR o s r).data.keys = true := by
    by_cases hm : o.makeComparable = true
    · exact comparable_sameKeys SR o s r hr.1 hm
    · rcases hk with h | h
      · exact absurd h hm
      · unfold comparable sameKeys
        rw [if_neg hm, Bool.and_eq_true, List.all_eq_true, List.all_eq_true]
        exact ⟨fun q hq => by simpa using (h q).1 hq, fun q hq => by simpa using (h q).2 hq⟩
  have hal := aligned SQ SR s (comparable SR o s r) hs' hr' hkeys
  have hl1 : (s.ensureSorted SQ).data.length = s.data.length :=
    (ensureSorted_facts SQ s hs'.1 hs'.2).2.2.2.2.2
  have hlen : (Store.rows hash id ((comparable SR o s r).ensureSorted SR).data).length =
      (Store.rows hash (fun z : Int => (z : α)) (s.ensureSorted SQ).data).length := by
    have := congrArg List.length hal
    simp only [length_keys] at this
    simp [Store.rows, this]
  have hql : (Store.rows hash (fun z : Int => (z : α)) (s.ensureSorted SQ).data).length =
      s.data.length := by simp [Store.rows, hl1]
  have hcollect : ∀ (f : Kernel ι α), (∀ a b, ∃ v, f a b = .ok v) → ∀ (A B : List (Rows ι α)),
      ∃ scores, collect (List.zipWith f A B) = .ok scores := by
    intro f hf A
    induction A with
    | nil => intro B; exact ⟨[], by simp [collect]⟩
    | cons a A ih =>
      intro B
      cases B with
      | nil => exact ⟨[], by simp [collect]⟩
      | cons b B =>
        obtain ⟨v, hv⟩ := hf a b
        obtain ⟨vs, hvs⟩ := ih B
        exact ⟨v :: vs, by simp [collect, hv, hvs]⟩
  obtain ⟨d, hd⟩ := scoreAll_succeeds F other sched
    (Store.rows hash (fun z : Int => (z : α)) (s.ensureSorted SQ).data)
    (Store.rows hash id ((comparable SR o s r).ensureSorted SR).data)
    (fun i => by rw [hql]; exact hsched i) hlen ms.zipIdx [] (by
      intro m hm
      rw [List.zipIdx_map_fst] at hm
      obtain ⟨f, hf, hv⟩ := hms m hm
      obtain ⟨sc, hsc⟩ := hcollect f hv _ _
      exact ⟨f, sc, hf, hsc⟩)
  obtain ⟨_, _, h3⟩ := scoreAll_ok F other sched _ _ (fun i => by rw [hql]; exact hsched i) hlen
        ms.zipIdx [] d hd (by simp) nodupKeys_nil
  rw [evaluate_obj, if_pos hkeys, hd]
  simp only [Prod.mk.injEq]
  unfold outOf
  match ms, h3 with
  | [], _ => exact ⟨_, _, rfl, rfl⟩
  | [m], h3 =>
    have hm : m ∈ d.keys := (h3 m).2 (.inr (by simp))
    have hlast : lastM other o true m = m := by
      unfold lastM
      rw [if_pos]
      rcases ho with h | h <;> simp [h]
    simp only
    rw [hlast, get?_map_val]
    obtain ⟨l, hl⟩ := Option.isSome_iff_exists.1 (get?_isSome.2 hm)
    rw [hl]
    exact ⟨_, _, rfl, rfl⟩
  | m :: m' :: t, _ => exact ⟨_, _, rfl, rfl⟩

/-- **C31** (success): with `make_comparable=True`, or when both have the same queries, `evaluate`
returns normally if every metric string denotes a metric that does not raise on these rankings. -/
theorem C31_succeeds (F : Fn α) (other : Str → Except Err α) (SQ : ArgSort Int) (SR : ArgSort α)
    (hash : δ → ι) (sched : Nat → List Nat) (o : Opts) (ho : o.save = true ∨ o.returnMean = true)
    (s : Store κ δ Int) (r : RunObj κ δ α) (ms : List Str) (hs : Spec.Usable SQ s)
    (hr : Spec.Usable SR r.store) (hsched : ∀ i, Schedule s.data.length (sched i))
    (hk : o.makeComparable = true ∨ ∀ q, q ∈ s.data.keys ↔ q ∈ r.store.data.keys)
    (hms : ∀ m ∈ ms, ∃ f : Kernel ι α, metricOf F other m = .ok f ∧ ∀ a b, ∃ v, f a b = .ok v) :
    ∃ after out, evaluate F other SQ SR hash sched o (.obj s) (.obj r) ms = (after, .ok out) :=
  evaluate_succeeds F other SQ SR hash sched o ho s r ms hs.ok hr.ok hsched hk hms

/-- **C31** (mismatch): without `make_comparable`, different query sets are refused. -/
theorem C31_mismatch (F : Fn α) (other : Str → Except Err α) (SQ : ArgSort Int) (SR : ArgSort α)
    (hash : δ → ι) (sched : Nat → List Nat) (o : Opts) (ho : o.makeComparable = false)
    (s : Store κ δ Int) (r : RunObj κ δ α) (ms : List Str)
    (hk : ¬ ∀ q, q ∈ s.data.keys ↔ q ∈ r.store.data.keys) :
    evaluate F other SQ SR hash sched o (.obj s) (.obj r) ms = (⟨.obj s, .obj r⟩, .error .assertionError) := by
  rw [evaluate_obj]
  have : comparable SR o s r = r.store := by unfold comparable; rw [ho]; rfl
  rw [this, if_neg]
  intro h
  unfold sameKeys at h
  rw [Bool.and_eq_true, List.all_eq_true, List.all_eq_true] at h
  exact hk (fun q => ⟨fun hq => by simpa using h.1 q hq, fun hq => by simpa using h.2 q hq⟩)

/-! ## C32: means -/

theorem vals_map_val (l : List α) : vals (l.map .val) = some l := by
  induction l with
  | nil => rfl
  | cons x t ih => rw [List.map_cons, vals, ih]; rfl

theorem mean_map_val (l : List α) (hl : l ≠ []) : mean (l.map .val) = .val (l.sum / (l.length : α)) := by
  unfold mean
  rw [vals_map_val]
  cases l with
  | nil => exact absurd rfl hl
  | cons x t => rfl

/-- **C32**: the value returned for a single metric and the one stored in `run.mean_scores` are the
arithmetic mean, over the judged queries, of the saved per-query scores (when these are numbers). -/
theorem C32_mean (F : Fn α) (other : Str → Except Err α) (SQ : ArgSort Int) (SR : ArgSort α)
    (hash : δ → ι) (sched : Nat → List Nat) (o : Opts) (ho : o.save = true) (hm : o.returnMean = true)
    (hstd : o.returnStd = false) (s : Store κ δ Int)
    (r : RunObj κ δ α) (m : Str) (hs : Spec.Usable SQ s) (hr : Spec.Usable SR r.store)
    (hsched : ∀ i, Schedule s.data.length (sched i)) (hne : s.data ≠ [])
    (after : After κ δ α) (out : Out α)
    (h : evaluate F other SQ SR hash sched o (.obj s) (.obj r) [m] = (after, .ok out))
    (r' : RunObj κ δ α) (hafter : after.run = .obj r')
    (g : κ → α) (hg : ∀ q ∈ s.data.keys, r'.saved m q = some (.val (g q))) :
    out = .single (.mean (.val ((s.data.keys.map g).sum / (s.data.length : α)))) ∧
    r'.meanScores.get? m = some (.val ((s.data.keys.map g).sum / (s.data.length : α))) := by
  obtain ⟨r'', ha, hall⟩ := C31_pairs_queries F other SQ SR hash sched o ho s r [m] hs hr hsched after out h
  obtain ⟨d, hd⟩ := success F other SQ SR hash sched o s r [m] hs hr hsched h
  obtain ⟨f, hf, l, hl, hlen, hq⟩ := hd.query hs hr (List.mem_singleton.2 rfl)
  have hs' := hs.ok
  obtain ⟨w1, -, k1, -, o1, l1⟩ := ensureSorted_facts SQ s hs'.1 hs'.2
  have w1k : (s.ensureSorted SQ).data.keys.Nodup := w1.1
  have hsk : s.data.keys.Nodup := hs'.1.1
  -- the saved score of q is l[idx q]
  have hst := hd.state
  rw [hst] at hafter
  simp only [RunArg.obj.injEq] at hafter
  have hperm : (s.ensureSorted SQ).data.keys.Perm s.data.keys := by
    exact (List.perm_ext_iff_of_nodup w1k hsk).2 k1
  have hlval : l = (s.ensureSorted SQ).data.keys.map (fun q => Num.val (g q)) := by
    apply List.ext_getElem?
    intro i
    by_cases hi : i < (s.ensureSorted SQ).data.keys.length
    · rw [List.getElem?_map, List.getElem?_eq_getElem hi]
      have hmem : (s.ensureSorted SQ).data.keys[i] ∈ s.data.keys := (k1 _).1 (List.getElem_mem hi)
      obtain ⟨jl, rl, v, -, -, hv, hv'⟩ := hq _ hmem
      rw [List.Nodup.idxOf_getElem w1k] at hv'
      have hsv := hg _ hmem
      have : r'.saved m (s.ensureSorted SQ).data.keys[i] = some v := by
        have hr' := comparable_ok SR o s r hr.ok
        obtain ⟨w2, -, k2, -, o2, l2⟩ := ensureSorted_facts SR (comparable SR o s r) hr'.1 hr'.2
        have hlen' : ((comparable SR o s r).ensureSorted SR).data.length = s.data.length := by
          have := congrArg List.length hd.keys
          simp only [length_keys] at this
          omega
        rw [← hafter]
        unfold saveAll
        rw [if_pos ho, saved_fold F _ d hd.nodup]
        · simp only
          rw [← hd.keys, if_pos (List.getElem_mem hi), hl]
          simp only
          rw [List.Nodup.idxOf_getElem w1k]; exact hv'
        · exact w2.1
        · intro p hp
          obtain ⟨f', hf', hz⟩ := hd.scores p.1 p.2 (get?_of_mem hd.nodup hp)
          have := congrArg List.length hz
          simp [Store.rows, hlen', l1] at this
          rw [hlen']; exact this.symm
      rw [this] at hsv
      rw [hv', hsv]; rfl
    · rw [List.getElem?_eq_none (by rw [hlen]; simp [l1] at hi; omega),
        List.getElem?_eq_none (by simpa using hi)]
  have hmean : mean l = .val ((s.data.keys.map g).sum / (s.data.length : α)) := by
    have e : l = ((s.ensureSorted SQ).data.keys.map g).map .val := by
      rw [hlval, List.map_map]; rfl
    rw [e, mean_map_val]
    · rw [(hperm.map g).sum_eq]
      simp [l1]
    · intro hc
      have := congrArg List.length hc
      simp [l1] at this
      exact hne this
  constructor
  · have hres := hd.result
    unfold outOf at hres
    simp only at hres
    have hlast : lastM other o true m = m := by unfold lastM; simp [hm]
    rw [hlast, get?_map_val, hl] at hres
    simp only [Option.map_some, Except.ok.injEq] at hres
    rw [← hres]
    unfold present
    rw [hm, hstd]
    simp [hmean]
  · rw [← hafter]
    unfold saveAll
    rw [if_pos ho, mean_fold F _ d hd.nodup, hl]
    simp only
    rw [hmean]

/-! ## C33: return_mean=False -/

/-- **C33** (partial: results saved in a `Run` object): with `return_mean=False` a single metric
returns one score per judged query, in order of query id, each the saved score of its query. -/
theorem C33_per_query_scores_partial (F : Fn α) (other : Str → Except Err α) (SQ : ArgSort Int)
    (SR : ArgSort α) (hash : δ → ι) (sched : Nat → List Nat) (o : Opts) (ho : o.save = true)
    (hm : o.returnMean = false) (s : Store κ δ Int) (r : RunObj κ δ α) (m : Str)
    (hs : Spec.Usable SQ s) (hr : Spec.Usable SR r.store)
    (hsched : ∀ i, Schedule s.data.length (sched i)) (after : After κ δ α) (out : Out α)
    (h : evaluate F other SQ SR hash sched o (.obj s) (.obj r) [m] = (after, .ok out)) :
    ∃ (qs : List κ) (l : List (Num α)) (r' : RunObj κ δ α), out = .single (.scores l) ∧
      after.run = .obj r' ∧ qs.Pairwise (· < ·) ∧ qs.Perm s.data.keys ∧
      l.map some = qs.map (fun q => r'.saved m q) := by
  obtain ⟨d, hd⟩ := success F other SQ SR hash sched o s r [m] hs hr hsched h
  obtain ⟨f, hf, l, hl, hlen, hq⟩ := hd.query hs hr (List.mem_singleton.2 rfl)
  have hs' := hs.ok
  obtain ⟨w1, -, k1, -, o1, l1⟩ := ensureSorted_facts SQ s hs'.1 hs'.2
  have w1k : (s.ensureSorted SQ).data.keys.Nodup := w1.1
  have hsk : s.data.keys.Nodup := hs'.1.1
  have hr' := comparable_ok SR o s r hr.ok
  obtain ⟨w2, -, k2, -, o2, l2⟩ := ensureSorted_facts SR (comparable SR o s r) hr'.1 hr'.2
  have hlen' : ((comparable SR o s r).ensureSorted SR).data.length = s.data.length := by
    have := congrArg List.length hd.keys
    simp only [length_keys] at this
    omega
  refine ⟨(s.ensureSorted SQ).data.keys, l, _, ?_, by rw [hd.state], o1, ?_, ?_⟩
  · have hres := hd.result
    unfold outOf at hres
    simp only at hres
    have hlast : lastM other o true m = m := by unfold lastM; simp [ho]
    rw [hlast, get?_map_val, hl] at hres
    simp only [Option.map_some, Except.ok.injEq] at hres
    rw [← hres]
    unfold present
    rw [hm]
    rfl
  · exact (List.perm_ext_iff_of_nodup w1k hsk).2 k1
  · apply List.ext_getElem?
    intro i
    by_cases hi : i < (s.ensureSorted SQ).data.keys.length
    · rw [List.getElem?_map, List.getElem?_map, List.getElem?_eq_getElem hi]
      unfold saveAll
      rw [if_pos ho]
      simp only [Option.map_some]
      rw [saved_fold F _ d hd.nodup]
      · simp only
        rw [← hd.keys, if_pos (List.getElem_mem hi), hl]
        simp only
        rw [List.Nodup.idxOf_getElem w1k]
        have hil : i < l.length := by rw [hlen, ← l1]; simpa using hi
        rw [List.getElem?_eq_getElem hil]; rfl
      · exact w2.1
      · intro p hp
        obtain ⟨f', hf', hz⟩ := hd.scores p.1 p.2 (get?_of_mem hd.nodup hp)
        have := congrArg List.length hz
        simp [Store.rows, hlen', l1] at this
        rw [hlen']; exact this.symm
    · have : ¬ i < l.length := by rw [hlen, ← l1]; simpa using hi
      rw [List.getElem?_eq_none (by simpa using this), List.getElem?_eq_none (by simpa using hi)]

/-- **C33 refuted**: with `return_mean=False` and `save_results_in_run=False` (or a dict run), a
single parameterised metric string never returns: whenever the computation itself succeeds, the final
lookup raises KeyError because the name looked up is not the metric string. -/
theorem C33_key_error (F : Fn α) (other : Str → Except Err α) (SQ : ArgSort Int) (SR : ArgSort α)
    (hash : δ → ι) (sched : Nat → List Nat) (o : Opts) (ho : o.save = false)
    (hm : o.returnMean = false) (s : Store κ δ Int) (r : RunObj κ δ α) (m name : Str)
    (hs : Spec.Usable SQ s) (hr : Spec.Usable SR r.store)
    (hsched : ∀ i, Schedule s.data.length (sched i)) (p : Param α) (L : Int)
    (hparse : extract other m = .ok (name, p, L)) (hne : name ≠ m) :
    ∀ after out, evaluate F other SQ SR hash sched o (.obj s) (.obj r) [m] ≠ (after, .ok out) := by
  intro after out h
  obtain ⟨d, hd⟩ := success F other SQ SR hash sched o s r [m] hs hr hsched h
  have hres := hd.result
  unfold outOf at hres
  simp only at hres
  have hlast : lastM other o true m = name := by
    unfold lastM
    rw [if_neg (by simp [ho, hm]), hparse]
  have hnone : d.get? name = none := by
    rw [get?_eq_none, hd.metrics]; simpa using hne
  rw [hlast, get?_map_val, hnone] at hres
  cases hres

/-! ## C35: schedules -/

/-- **C35**: the whole call (returned value, saved results, state of both objects, exceptions) is the
same for all schedules of the parallel loops. -/
theorem C35_schedule_independent (F : Fn α) (other : Str → Except Err α) (SQ : ArgSort Int)
    (SR : ArgSort α) (hash : δ → ι) (sched sched' : Nat → List Nat) (o : Opts) (s : Store κ δ Int)
    (r : RunObj κ δ α) (ms : List Str) (hs : Spec.Usable SQ s) (hr : Spec.Usable SR r.store)
    (hsched : ∀ i, Schedule s.data.length (sched i)) (hsched' : ∀ i, Schedule s.data.length (sched' i)) :
    evaluate F other SQ SR hash sched o (.obj s) (.obj r) ms =
      evaluate F other SQ SR hash sched' o (.obj s) (.obj r) ms := by
  have hs' := hs.ok
  have hr' := comparable_ok SR o s r hr.ok
  rw [evaluate_obj, evaluate_obj]
  by_cases hk : sameKeys s.data.keys (comparable SR o s r).data.keys = true
  · rw [if_pos hk, if_pos hk]
    have hal := aligned SQ SR s (comparable SR o s r) hs' hr' hk
    have hl1 : (s.ensureSorted SQ).data.length = s.data.length :=
      (ensureSorted_facts SQ s hs'.1 hs'.2).2.2.2.2.2
    have hlen : (Store.rows hash id ((comparable SR o s r).ensureSorted SR).data).length =
        (Store.rows hash (fun z : Int => (z : α)) (s.ensureSorted SQ).data).length := by
      have := congrArg List.length hal
      simp only [length_keys] at this
      simp [Store.rows, this]
    have hql : (Store.rows hash (fun z : Int => (z : α)) (s.ensureSorted SQ).data).length =
        s.data.length := by simp [Store.rows, hl1]
    rw [scoreAll_sched F other sched sched' _ _ (fun i => by rw [hql]; exact hsched i)
      (fun i => by rw [hql]; exact hsched' i) hlen]
  · rw [if_neg hk, if_neg hk]

/-- **C35** (one loop): for every pair of array lists of equal length and every schedule, the parallel
loop returns position by position what the sequential loop would. -/
theorem C35_parallel_is_sequential (f : Kernel ι α) (sched : List Nat) (qrels run : List (Rows ι α))
    (hs : Schedule qrels.length sched) (hlen : run.length = qrels.length) (scores : List (Num α)) :
    parallel f sched qrels run = .ok scores ↔
      scores.length = qrels.length ∧
      ∀ (i : Nat) a b, qrels[i]? = some a → run[i]? = some b →
        ∃ v, scores[i]? = some v ∧ f a b = .ok v := by
  rw [parallel_eq f sched qrels run hs hlen, collect_ok_iff]
  constructor
  · intro h
    have hl := congrArg List.length h
    simp [hlen] at hl
    refine ⟨hl.symm, ?_⟩
    intro i a b ha hb
    have hi := congrArg (fun x => x[i]?) h
    simp only [List.getElem?_zipWith, ha, hb, List.getElem?_map] at hi
    cases hv : scores[i]? with
    | none => rw [hv] at hi; simp at hi
    | some v =>
      rw [hv] at hi
      simp only [Option.map_some, Option.some.injEq] at hi
      exact ⟨v, rfl, hi⟩
  · rintro ⟨hl, h⟩
    apply List.ext_getElem?
    intro i
    by_cases hi : i < qrels.length
    · obtain ⟨v, hv, hf⟩ := h i _ _ (List.getElem?_eq_getElem hi)
        (List.getElem?_eq_getElem (show i < run.length by omega))
      rw [List.getElem?_zipWith, List.getElem?_eq_getElem hi,
        List.getElem?_eq_getElem (show i < run.length by omega), List.getElem?_map, hv]
      simp [hf]
    · rw [List.getElem?_eq_none (by simp; omega), List.getElem?_eq_none (by simp; omega)]

/-! ## C36, C38: what evaluate changes -/

/-- **C38**: whatever happens (also on exceptions), `evaluate` leaves the content of the qrels as it
was; the run's content is unchanged, except that `make_comparable=True` restricts it to the judged
queries (adding missing ones as empty). -/
theorem C38_frame (F : Fn α) (other : Str → Except Err α) (SQ : ArgSort Int) (SR : ArgSort α)
    (hash : δ → ι) (sched : Nat → List Nat) (o : Opts) (s : Store κ δ Int) (r : RunObj κ δ α)
    (ms : List Str) (hs : Spec.Usable SQ s) (hr : Spec.Usable SR r.store) :
    ∃ s' r', (evaluate F other SQ SR hash sched o (.obj s) (.obj r) ms).1 = ⟨.obj s', .obj r'⟩ ∧
      Spec.content s' = Spec.content s ∧
      Spec.content r'.store = (if o.makeComparable then
        Spec.restrictTo (Spec.content r.store) s.data.keys else Spec.content r.store) := by
  have hs' := hs.ok
  have hr' := comparable_ok SR o s r hr.ok
  have hc1 := (ensureSorted_facts SQ s hs'.1 hs'.2).2.1
  have hc2 := (ensureSorted_facts SR (comparable SR o s r) hr'.1 hr'.2).2.1
  have hcomp : Spec.content (comparable SR o s r) = (if o.makeComparable then
        Spec.restrictTo (Spec.content r.store) s.data.keys else Spec.content r.store) := by
    unfold comparable
    by_cases hm : o.makeComparable
    · rw [if_pos hm, if_pos hm]
      obtain ⟨d2, hw2, hc, he⟩ := makeComparable_spec SR r.store s.data.keys hr.ok.1
      rw [he, content_eq, cont_sortAll SR hw2]
      funext q
      unfold cont Spec.restrictTo
      rw [hc q]
      by_cases hq : q ∈ s.data.keys
      · rw [if_pos hq, if_pos hq]
        simp only [Option.map_some, Option.some.injEq]
        funext x
        unfold Spec.Content.read Spec.content
        cases r.store.data.get? q <;> rfl
      · rw [if_neg hq, if_neg hq]; rfl
    · rw [if_neg hm, if_neg hm]
  rw [evaluate_obj]
  by_cases hk : sameKeys s.data.keys (comparable SR o s r).data.keys = true
  · rw [if_pos hk]
    cases hd : scoreAll F other sched (Store.rows hash (fun z : Int => (z : α)) (s.ensureSorted SQ).data)
        (Store.rows hash id ((comparable SR o s r).ensureSorted SR).data) ms.zipIdx [] with
    | error e => exact ⟨_, _, rfl, hc1, by rw [← hcomp]; exact hc2⟩
    | ok d =>
      refine ⟨_, _, rfl, hc1, ?_⟩
      rw [← hcomp, ← hc2]
      unfold saveAll
      by_cases hsv : o.save = true
      · rw [if_pos hsv, fold_store]
      · rw [if_neg hsv]
  · rw [if_neg hk]
    exact ⟨_, _, rfl, rfl, hcomp⟩

/-- **C36** (stale results): results saved earlier for other metric strings or for queries that are
not judged now stay as they were. -/
theorem C36_keeps_other_results (F : Fn α) (other : Str → Except Err α) (SQ : ArgSort Int)
    (SR : ArgSort α) (hash : δ → ι) (sched : Nat → List Nat) (o : Opts) (s : Store κ δ Int)
    (r : RunObj κ δ α) (ms : List Str) (hs : Spec.Usable SQ s) (hr : Spec.Usable SR r.store)
    (hsched : ∀ i, Schedule s.data.length (sched i)) (after : After κ δ α) (out : Out α)
    (h : evaluate F other SQ SR hash sched o (.obj s) (.obj r) ms = (after, .ok out)) :
    ∃ r', after.run = .obj r' ∧ ∀ m q, m ∉ ms ∨ q ∉ s.data.keys → r'.saved m q = r.saved m q := by
  obtain ⟨d, hd⟩ := success F other SQ SR hash sched o s r ms hs hr hsched h
  have hs' := hs.ok
  have hr' := comparable_ok SR o s r hr.ok
  obtain ⟨w1, -, k1, -, o1, l1⟩ := ensureSorted_facts SQ s hs'.1 hs'.2
  obtain ⟨w2, -, k2, -, o2, l2⟩ := ensureSorted_facts SR (comparable SR o s r) hr'.1 hr'.2
  have hlen' : ((comparable SR o s r).ensureSorted SR).data.length = s.data.length := by
    have := congrArg List.length hd.keys
    simp only [length_keys] at this
    omega
  refine ⟨_, by rw [hd.state], ?_⟩
  intro m q hmq
  unfold saveAll
  by_cases hsv : o.save = true
  · rw [if_pos hsv, saved_fold F _ d hd.nodup]
    · simp only
      rw [← hd.keys]
      by_cases hq : q ∈ (s.ensureSorted SQ).data.keys
      · rw [if_pos hq]
        have hm : m ∉ ms := by
          rcases hmq with h | h
          · exact h
          · exact absurd ((k1 q).1 hq) h
        rw [get?_eq_none.2 (fun hc => hm ((hd.metrics m).1 hc))]
        rfl
      · rw [if_neg hq]; rfl
    · exact w2.1
    · intro p hp
      obtain ⟨f', hf', hz⟩ := hd.scores p.1 p.2 (get?_of_mem hd.nodup hp)
      have := congrArg List.length hz
      simp [Store.rows, hlen', l1] at this
      rw [hlen']; exact this.symm
  · rw [if_neg hsv]; rfl

theorem ensureSorted_idem {β : Type*} [LE β] [Neg β] (S : ArgSort β) (s : Store κ δ β) :
    (s.ensureSorted S).ensureSorted S = s.ensureSorted S := by
  unfold ensureSorted
  by_cases h : s.sorted
  · rw [if_pos h, if_pos h]
  · rw [if_neg h]
    rw [if_pos (by rfl)]

theorem ensureSorted_keys_sameKeys {β : Type*} [LE β] [Neg β] (S : ArgSort β) (s : Store κ δ β)
    (h : Wf s.data) (q : κ) : q ∈ (s.ensureSorted S).data.keys ↔ q ∈ s.data.keys := by
  unfold ensureSorted
  by_cases hs : s.sorted
  · rw [if_pos hs]
  · rw [if_neg hs]; exact mem_keys_sortAll S h.1 q

/-- **C36** (repetition): calling `evaluate` again, without `make_comparable`, on the objects as the
first call left them returns the same value and leaves the rankings of both objects exactly as they
are (nothing is sorted again, so not even ties move). -/
theorem C36_repeat (F : Fn α) (other : Str → Except Err α) (SQ : ArgSort Int) (SR : ArgSort α)
    (hash : δ → ι) (sched : Nat → List Nat) (o : Opts) (s : Store κ δ Int) (r : RunObj κ δ α)
    (ms : List Str) (hs : Spec.Usable SQ s) (hr : Spec.Usable SR r.store)
    (hsched : ∀ i, Schedule s.data.length (sched i)) (s' : Store κ δ Int) (r' : RunObj κ δ α)
    (out : Out α)
    (h : evaluate F other SQ SR hash sched o (.obj s) (.obj r) ms = (⟨.obj s', .obj r'⟩, .ok out)) :
    ∃ r'', evaluate F other SQ SR hash sched { o with makeComparable := false } (.obj s') (.obj r') ms =
      (⟨.obj s', .obj r''⟩, .ok out) ∧ r''.store = r'.store := by
  have hr' := comparable_ok SR o s r hr.ok
  have h0 := h
  rw [evaluate_obj] at h
  by_cases hk : sameKeys s.data.keys (comparable SR o s r).data.keys = true
  · rw [if_pos hk] at h
    cases hd : scoreAll F other sched (Store.rows hash (fun z : Int => (z : α)) (s.ensureSorted SQ).data)
        (Store.rows hash id ((comparable SR o s r).ensureSorted SR).data) ms.zipIdx [] with
    | error e => rw [hd] at h; simp at h
    | ok d =>
      rw [hd] at h
      simp only [Prod.mk.injEq, After.mk.injEq, QrelsArg.obj.injEq, RunArg.obj.injEq] at h
      obtain ⟨⟨rfl, hr2⟩, hout⟩ := h
      have hstore : r'.store = (comparable SR o s r).ensureSorted SR := by
        rw [← hr2]
        unfold saveAll
        by_cases hsv : o.save = true
        · rw [if_pos hsv, fold_store]
        · rw [if_neg hsv]
      have hcomp : comparable SR { o with makeComparable := false } (s.ensureSorted SQ) r' =
          (comparable SR o s r).ensureSorted SR := by
        rw [← hstore]; rfl
      have hk' : sameKeys (s.ensureSorted SQ).data.keys
          ((comparable SR o s r).ensureSorted SR).data.keys = true := by
        unfold sameKeys at hk ⊢
        rw [Bool.and_eq_true, List.all_eq_true, List.all_eq_true] at hk ⊢
        constructor
        · intro q hq
          have := hk.1 q ((ensureSorted_keys_sameKeys SQ s hs.ok.1 q).1 hq)
          simpa using (ensureSorted_keys_sameKeys SR _ hr'.1 q).2 (by simpa using this)
        · intro q hq
          have := hk.2 q ((ensureSorted_keys_sameKeys SR _ hr'.1 q).1 hq)
          simpa using (ensureSorted_keys_sameKeys SQ s hs.ok.1 q).2 (by simpa using this)
      refine ⟨saveAll F { o with makeComparable := false } d
        { r' with store := (comparable SR o s r).ensureSorted SR }, ?_, ?_⟩
      · rw [evaluate_obj, hcomp, if_pos hk', ensureSorted_idem, ensureSorted_idem, hd]
        simp only [Prod.mk.injEq, true_and]
        exact hout
      · rw [hstore]
        unfold saveAll
        by_cases hsv : o.save = true
        · rw [if_pos hsv, fold_store]
        · rw [if_neg hsv]
  · rw [if_neg hk] at h; simp at h

end Ranx
