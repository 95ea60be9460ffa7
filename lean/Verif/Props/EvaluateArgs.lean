import Verif.Props.EvaluateStd

/-!
# C33, C37: what `evaluate` pairs and returns, for every kind of argument

`qrels` may be a `Qrels` or a dictionary and `run` a `Run` or a dictionary (evaluate.py:45-62).  An object
lists its queries by increasing id, a dictionary in its own order; the two lists are paired by position.
-/

set_option linter.unusedSectionVars false

namespace Ranx
open Metrics Eval Dict Py Store

/-! ## Specification -/

section
variable {κ δ ι α : Type*}
variable [LinearOrder κ] [DecidableEq δ] [LinearOrder ι] [Field α] [LinearOrder α]

/-- Specification: the order in which the queries of the judgements are handed to the metrics. -/
def Spec.QrelsOrder : QrelsArg κ δ α → List κ → Prop
  | .obj s, qs => qs.Pairwise (· < ·) ∧ qs.Perm s.data.keys
  | .dict d, qs => qs = d.keys

/-- Specification: the order in which the queries of the run are handed to the metrics. -/
def Spec.RunOrder : RunArg κ δ α → List κ → Prop
  | .obj r, qs => qs.Pairwise (· < ·) ∧ qs.Perm r.store.data.keys
  | .dict d, qs => qs = d.keys

/-- Specification: `l` is the array of the judgements of query `q`, best grade first. -/
def Spec.QrelsRows (hash : δ → ι) : QrelsArg κ δ α → κ → Rows ι α → Prop
  | .obj s, q, l => ∃ jl, Spec.Ranking (Spec.content s) q jl ∧ l = asRows hash (fun z : Int => (z : α)) jl
  | .dict d, q, l => ∃ jl, d.get? q = some jl ∧ Spec.RankedRows hash jl l

/-- Specification: `l` is the array of the results of query `q`, best score first. -/
def Spec.RunRows (hash : δ → ι) : RunArg κ δ α → κ → Rows ι α → Prop
  | .obj r, q, l => ∃ rl, Spec.Ranking (Spec.content r.store) q rl ∧ l = asRows hash id rl
  | .dict d, q, l => ∃ rl, d.get? q = some rl ∧ Spec.RankedRows hash rl l

/-- Specification: an argument built by public calls; a dictionary has each query once. -/
def Spec.QrelsUsable (SQ : ArgSort Int) : QrelsArg κ δ α → Prop
  | .obj s => Spec.Usable SQ s
  | .dict d => NodupKeys d

def Spec.RunUsable (SR : ArgSort α) : RunArg κ δ α → Prop
  | .obj r => Spec.Usable SR r.store
  | .dict d => NodupKeys d

/-- is the run a `Run` object? -/
def Spec.isObj : RunArg κ δ α → Bool
  | .obj _ => true
  | .dict _ => false

end

/-! ## Lemmas -/

section
variable {κ δ ι α : Type*}
variable [LinearOrder κ] [DecidableEq δ] [LinearOrder ι] [Field α] [LinearOrder α] [IsStrictOrderedRing α]

/-- the arrays of the queries, in order -/
structure Listed (keys : List κ) (rowsOf : κ → Rows ι α → Prop) (order : List κ → Prop)
    (l : List (Rows ι α)) : Prop where
  ordered : order keys
  length : l.length = keys.length
  rows : ∀ (i : Nat) q, keys[i]? = some q → ∃ x, l[i]? = some x ∧ rowsOf q x

theorem listed_obj {β : Type*} [AddCommGroup β] [LinearOrder β] [IsOrderedAddMonoid β] (S : ArgSort β)
    (hash : δ → ι) (cast : β → α) (s : Store κ δ β) (hs : Wf s.data ∧ FlagOk s) :
    Listed (s.ensureSorted S).data.keys
      (fun q l => ∃ jl, Spec.Ranking (Spec.content s) q jl ∧ l = asRows hash cast jl)
      (fun qs => qs.Pairwise (· < ·) ∧ qs.Perm s.data.keys)
      (Store.rows hash cast (s.ensureSorted S).data) := by
  obtain ⟨w1, c1, k1, rk1, o1, l1⟩ := ensureSorted_facts S s hs.1 hs.2
  refine ⟨⟨o1, (List.perm_ext_iff_of_nodup w1.1 hs.1.1).2 k1⟩, by simp [Store.rows], ?_⟩
  intro i q hi
  unfold Dict.keys at hi
  rw [List.getElem?_map] at hi
  obtain ⟨p, hp, hpq⟩ := Option.map_eq_some_iff.1 hi
  have g1 : (s.ensureSorted S).data.get? q = some p.2 := by
    rw [← hpq]; exact get?_of_mem w1.1 (List.mem_of_getElem? hp)
  have r1 := ranking_of_mem _ w1 rk1 g1
  rw [c1] at r1
  refine ⟨asRows hash cast p.2, ?_, p.2, r1, rfl⟩
  simp only [Store.rows, Dict.values, List.getElem?_map, hp, Option.map_some]
  rfl

theorem listed_dict (S : ArgSort α) (hash : δ → ι) (d : Dict κ (Dict δ α)) (hd : NodupKeys d)
    (l : List (Rows ι α)) (h : dictToTypedList S hash d = .ok l) :
    Listed d.keys (fun q l => ∃ jl, d.get? q = some jl ∧ Spec.RankedRows hash jl l)
      (fun qs => qs = d.keys) l := by
  unfold dictToTypedList at h
  by_cases e : (d.values.any fun d => d.isEmpty) = true
  · rw [if_pos e] at h; cases h
  rw [if_neg e] at h
  cases h
  refine ⟨rfl, by simp [Dict.values], ?_⟩
  intro i q hi
  unfold Dict.keys at hi
  rw [List.getElem?_map] at hi
  obtain ⟨p, hp, hpq⟩ := Option.map_eq_some_iff.1 hi
  refine ⟨descendingSort S ((p.2 : List (δ × α)).map (fun x => (hash x.1, x.2))), ?_, p.2, ?_, ?_⟩
  · simp only [Dict.values, List.getElem?_map, hp, Option.map_some]
  · rw [← hpq]; exact get?_of_mem hd (List.mem_of_getElem? hp)
  · exact descendingSort_ranked S _

theorem convertQrels_listed (SQ : ArgSort Int) (SR : ArgSort α) (hash : δ → ι) (q : QrelsArg κ δ α)
    (hq : Spec.QrelsUsable SQ q) (q' : QrelsArg κ δ α) (ql : List (Rows ι α))
    (h : convertQrels SQ SR hash q = .ok (q', ql)) :
    ∃ ks, (∀ x, x ∈ ks ↔ x ∈ q.keys) ∧ ks.Nodup ∧
      Listed ks (Spec.QrelsRows hash q) (Spec.QrelsOrder q) ql := by
  cases q with
  | obj s =>
    simp only [convertQrels, Store.toTypedList, Except.ok.injEq, Prod.mk.injEq] at h
    obtain ⟨-, rfl⟩ := h
    have hs : Wf s.data ∧ FlagOk s := Spec.Usable.ok SQ hq
    obtain ⟨w1, -, k1, -, -, -⟩ := ensureSorted_facts SQ s hs.1 hs.2
    exact ⟨_, k1, w1.1, listed_obj SQ hash _ s hs⟩
  | dict d =>
    simp only [convertQrels] at h
    cases hd : dictToTypedList SR hash d with
    | error e => rw [hd] at h; cases h
    | ok l =>
      rw [hd] at h
      cases h
      exact ⟨d.keys, fun _ => Iff.rfl, hq, listed_dict SR hash d hq _ hd⟩

theorem convertRun_listed (SR : ArgSort α) (hash : δ → ι) (r : RunArg κ δ α)
    (hr : Spec.RunUsable SR r) (r' : RunArg κ δ α) (rl : List (Rows ι α))
    (h : convertRun SR hash r = .ok (r', rl)) :
    ∃ ks, (∀ x, x ∈ ks ↔ x ∈ r.keys) ∧ ks.Nodup ∧
      Listed ks (Spec.RunRows hash r) (Spec.RunOrder r) rl ∧ Spec.isObj r' = Spec.isObj r := by
  cases r with
  | obj r =>
    simp only [convertRun, Store.toTypedList, Except.ok.injEq, Prod.mk.injEq] at h
    obtain ⟨rfl, rfl⟩ := h
    have hs : Wf r.store.data ∧ FlagOk r.store := Spec.Usable.ok SR hr
    obtain ⟨w1, -, k1, -, -, -⟩ := ensureSorted_facts SR r.store hs.1 hs.2
    exact ⟨_, k1, w1.1, listed_obj SR hash _ r.store hs, rfl⟩
  | dict d =>
    simp only [convertRun] at h
    cases hd : dictToTypedList SR hash d with
    | error e => rw [hd] at h; cases h
    | ok l =>
      rw [hd] at h
      cases h
      exact ⟨d.keys, fun _ => Iff.rfl, hr, listed_dict SR hash d hr _ hd, rfl⟩

/-- the end of the call -/
theorem evaluate_out (F : Fn α) (other : Str → Except Err α) (SQ : ArgSort Int) (SR : ArgSort α)
    (hash : δ → ι) (sched : Nat → List Nat) (o : Opts) (hc : o.makeComparable = false)
    (qrels : QrelsArg κ δ α) (run : RunArg κ δ α) (ms : List Str) :
    (evaluate F other SQ SR hash sched o qrels run ms).2 =
      if sameKeys qrels.keys run.keys = true then
        match convertQrels SQ SR hash qrels with
        | .error e => .error e
        | .ok (_, ql) =>
          match convertRun SR hash run with
          | .error e => .error e
          | .ok (run', rl) =>
            match scoreAll F other sched ql rl ms.zipIdx [] with
            | .error e => .error e
            | .ok d => outOf F other o (Spec.isObj run') d ms
      else .error .assertionError := by
  have hp : prepare SR o qrels run = run := by
    unfold prepare; rw [hc]; rfl
  unfold evaluate
  rw [hp]
  simp only
  by_cases hk : sameKeys qrels.keys run.keys = true
  · rw [if_pos hk]
    have hk' : ¬ (!sameKeys qrels.keys run.keys) = true := by rw [hk]; decide
    refine (congrArg Prod.snd (if_neg hk')).trans ?_
    cases hq : convertQrels SQ SR hash qrels with
    | error e => rfl
    | ok p =>
      obtain ⟨q', ql⟩ := p
      simp only
      cases hr : convertRun SR hash run with
      | error e => rfl
      | ok p =>
        obtain ⟨r', rl⟩ := p
        simp only
        cases hd : scoreAll F other sched ql rl ms.zipIdx [] with
        | error e => rfl
        | ok d =>
          simp only
          unfold outOf
          match ms with
          | [] => rfl
          | [m] =>
            simp only
            cases r' with
            | obj r' =>
              simp only [Spec.isObj]
              generalize Dict.get? (List.map (fun p : Str × List (Num α) =>
                (p.1, present F o (o.returnMean && o.returnStd) p.2)) d) (lastM other o true m) = x
              cases x <;> rfl
            | dict r' =>
              simp only [Spec.isObj]
              generalize Dict.get? (List.map (fun p : Str × List (Num α) =>
                (p.1, present F o (o.returnMean && o.returnStd) p.2)) d) (lastM other o false m) = x
              cases x <;> rfl
          | _ :: _ :: _ => rfl
  · rw [if_neg hk]
    have hk' : (!sameKeys qrels.keys run.keys) = true := by simpa using hk
    exact congrArg Prod.snd (if_pos hk')

/-- the pieces of a call that returned -/
theorem evaluate_parts (F : Fn α) (other : Str → Except Err α) (SQ : ArgSort Int) (SR : ArgSort α)
    (hash : δ → ι) (sched : Nat → List Nat) (o : Opts) (hc : o.makeComparable = false)
    (qrels : QrelsArg κ δ α) (run : RunArg κ δ α) (hq : Spec.QrelsUsable SQ qrels) (hr : Spec.RunUsable SR run)
    (ms : List Str) (hsched : ∀ i, Schedule qrels.keys.length (sched i))
    (after : After κ δ α) (out : Out α)
    (h : evaluate F other SQ SR hash sched o qrels run ms = (after, .ok out)) :
    ∃ qa qb ql rl d, Listed qa (Spec.QrelsRows hash qrels) (Spec.QrelsOrder qrels) ql ∧
      Listed qb (Spec.RunRows hash run) (Spec.RunOrder run) rl ∧ qa.length = qb.length ∧
      (∀ x, x ∈ qa ↔ x ∈ qb) ∧
      outOf F other o (Spec.isObj run) d ms = .ok out ∧ (∀ m, m ∈ d.keys ↔ m ∈ ms) ∧
      ∀ m l, d.get? m = some l → ∃ f : Kernel ι α, metricOf F other m = .ok f ∧
        List.zipWith f ql rl = l.map .ok := by
  have h2 := congrArg Prod.snd h
  rw [evaluate_out F other SQ SR hash sched o hc] at h2
  by_cases hk : sameKeys qrels.keys run.keys = true
  · rw [if_pos hk] at h2
    cases hcq : convertQrels SQ SR hash qrels with
    | error e => rw [hcq] at h2; cases h2
    | ok p =>
      obtain ⟨q', ql⟩ := p
      rw [hcq] at h2
      simp only at h2
      cases hcr : convertRun SR hash run with
      | error e => rw [hcr] at h2; cases h2
      | ok p =>
        obtain ⟨r', rl⟩ := p
        rw [hcr] at h2
        simp only at h2
        obtain ⟨qa, m1, n1, L1⟩ := convertQrels_listed SQ SR hash qrels hq q' ql hcq
        obtain ⟨qb, m2, n2, L2, hobj⟩ := convertRun_listed SR hash run hr r' rl hcr
        have hmem : ∀ x, x ∈ qa ↔ x ∈ qb := by
          unfold sameKeys at hk
          rw [Bool.and_eq_true, List.all_eq_true, List.all_eq_true] at hk
          intro x
          rw [m1, m2]
          exact ⟨fun h => by simpa using hk.1 x h, fun h => by simpa using hk.2 x h⟩
        have hperm : qa.Perm qb := (List.perm_ext_iff_of_nodup n1 n2).2 hmem
        have hqn : qrels.keys.Nodup := by
          cases qrels with
          | obj s => exact (Spec.Usable.ok SQ hq).1.1
          | dict d => exact hq
        have hlq : ql.length = qrels.keys.length := by
          rw [L1.length]
          exact ((List.perm_ext_iff_of_nodup n1 hqn).2 m1).length_eq
        have hlr : rl.length = ql.length := by rw [L1.length, L2.length, hperm.length_eq]
        cases hd : scoreAll F other sched ql rl ms.zipIdx [] with
        | error e => rw [hd] at h2; cases h2
        | ok d =>
          rw [hd] at h2
          simp only at h2
          rw [hobj] at h2
          obtain ⟨-, s2, s3⟩ := scoreAll_ok F other sched ql rl (fun i => by rw [hlq]; exact hsched i) hlr
            ms.zipIdx [] d hd (by simp) nodupKeys_nil
          refine ⟨qa, qb, ql, rl, d, L1, L2, hperm.length_eq, hmem, h2, ?_, ?_⟩
          · intro m; rw [s3, List.zipIdx_map_fst]; simp
          · intro m l hl
            obtain ⟨f, hf, hcf⟩ := s2 m l hl
            exact ⟨f, hf, (collect_ok_iff _ _).1 hcf⟩
  · rw [if_neg hk] at h2; cases h2

/-! ## C37: pairing -/

/-- **C37** (what the code does with any kind of arguments): the i-th score of a metric comes from the
judgements of the i-th query of the qrels and the results of the i-th query of the run, where an object
lists its queries by id and a dictionary in its own order. -/
theorem C37_by_position (F : Fn α) (other : Str → Except Err α) (SQ : ArgSort Int) (SR : ArgSort α)
    (hash : δ → ι) (sched : Nat → List Nat) (o : Opts) (hc : o.makeComparable = false)
    (qrels : QrelsArg κ δ α) (run : RunArg κ δ α) (hq : Spec.QrelsUsable SQ qrels) (hr : Spec.RunUsable SR run)
    (ms : List Str) (hsched : ∀ i, Schedule qrels.keys.length (sched i))
    (after : After κ δ α) (out : Out α)
    (h : evaluate F other SQ SR hash sched o qrels run ms = (after, .ok out)) :
    ∃ qa qb : List κ, Spec.QrelsOrder qrels qa ∧ Spec.RunOrder run qb ∧ (∀ x, x ∈ qa ↔ x ∈ qb) ∧
    ∀ m ∈ ms, ∃ f : Kernel ι α, metricOf F other m = .ok f ∧ ∃ l : List (Num α),
      l.length = qa.length ∧ l.length = qb.length ∧
      (∀ (i : Nat) q q', qa[i]? = some q → qb[i]? = some q' → ∃ jr rr v, Spec.QrelsRows hash qrels q jr ∧
        Spec.RunRows hash run q' rr ∧ f jr rr = .ok v ∧ l[i]? = some v) ∧
      Spec.Reports ms out m (if o.returnMean = true then
        if o.returnStd = true then .meanStd (mean l) (std F l) else .mean (mean l) else .scores l) := by
  obtain ⟨qa, qb, ql, rl, d, L1, L2, hlen, hmem, hout, hms, hs⟩ :=
    evaluate_parts F other SQ SR hash sched o hc qrels run hq hr ms hsched after out h
  refine ⟨qa, qb, L1.ordered, L2.ordered, hmem, ?_⟩
  intro m hm
  obtain ⟨l, hl⟩ := Option.isSome_iff_exists.1 (get?_isSome.2 ((hms m).2 hm))
  obtain ⟨f, hf, hz⟩ := hs m l hl
  have hll : l.length = qa.length := by
    have := congrArg List.length hz
    rw [List.length_zipWith, L1.length, L2.length, ← hlen, Nat.min_self, List.length_map] at this
    exact this.symm
  refine ⟨f, hf, l, hll, hll.trans hlen, ?_, ?_⟩
  · intro i q q' hi hi'
    obtain ⟨x, hx, hxr⟩ := L1.rows i q hi
    obtain ⟨y, hy, hyr⟩ := L2.rows i q' hi'
    have hzi := congrArg (fun z => z[i]?) hz
    simp only [List.getElem?_zipWith, hx, hy, List.getElem?_map] at hzi
    cases hli : l[i]? with
    | none => rw [hli] at hzi; simp at hzi
    | some v =>
      rw [hli] at hzi
      simp only [Option.map_some, Option.some.injEq] at hzi
      exact ⟨x, y, v, hxr, hyr, hzi, rfl⟩
  · have hrep := reports_of_outOf F other o (Spec.isObj run) d ms out hout hms m l hl
    unfold present at hrep
    by_cases h1 : o.returnMean = true
    · rw [if_pos h1] at hrep ⊢
      by_cases h2 : o.returnStd = true
      · rw [if_pos (by rw [h1, h2]; rfl)] at hrep
        rw [if_pos h2]; exact hrep
      · rw [if_neg (by rw [h1]; simpa using h2)] at hrep
        rw [if_neg h2]; exact hrep
    · rw [if_neg h1] at hrep ⊢
      exact hrep

/-- **C37** (partial: the two arguments list their queries in the same order; true if both are objects, if
dictionaries are filled in the same order, and if a dictionary used with an object is filled by increasing
query id): every score comes from the judgements and the results of one query. -/
theorem C37_any_arguments_partial (F : Fn α) (other : Str → Except Err α) (SQ : ArgSort Int) (SR : ArgSort α)
    (hash : δ → ι) (sched : Nat → List Nat) (o : Opts) (hc : o.makeComparable = false)
    (qrels : QrelsArg κ δ α) (run : RunArg κ δ α) (hq : Spec.QrelsUsable SQ qrels) (hr : Spec.RunUsable SR run)
    (ms : List Str) (hsched : ∀ i, Schedule qrels.keys.length (sched i))
    (hord : ∀ qa qb, Spec.QrelsOrder qrels qa → Spec.RunOrder run qb → (∀ x, x ∈ qa ↔ x ∈ qb) → qa = qb)
    (after : After κ δ α) (out : Out α)
    (h : evaluate F other SQ SR hash sched o qrels run ms = (after, .ok out)) :
    ∃ qs : List κ, Spec.QrelsOrder qrels qs ∧ ∀ m ∈ ms, ∃ f : Kernel ι α, metricOf F other m = .ok f ∧
      ∃ l : List (Num α), l.length = qs.length ∧
      (∀ (i : Nat) q, qs[i]? = some q → ∃ jr rr v, Spec.QrelsRows hash qrels q jr ∧
        Spec.RunRows hash run q rr ∧ f jr rr = .ok v ∧ l[i]? = some v) ∧
      Spec.Reports ms out m (if o.returnMean = true then
        if o.returnStd = true then .meanStd (mean l) (std F l) else .mean (mean l) else .scores l) := by
  obtain ⟨qa, qb, h1, h2, hmem, hall⟩ := C37_by_position F other SQ SR hash sched o hc qrels run hq hr ms
    hsched after out h
  have e := hord qa qb h1 h2 hmem
  subst e
  refine ⟨qa, h1, fun m hm => ?_⟩
  obtain ⟨f, hf, l, hl, -, hi, hrep⟩ := hall m hm
  exact ⟨f, hf, l, hl, fun i q hiq => hi i q q hiq hiq, hrep⟩

/-- the order condition holds for two objects, and for an object with a dictionary filled by query id -/
theorem order_obj_obj (s : Store κ δ Int) (r : RunObj κ δ α) (qa qb : List κ)
    (ha : Spec.QrelsOrder (.obj s : QrelsArg κ δ α) qa) (hb : Spec.RunOrder (.obj r) qb)
    (h : ∀ x, x ∈ qa ↔ x ∈ qb) : qa = qb := eq_of_mem_iff_of_sorted_lt ha.1 hb.1 h

theorem order_obj_dict (s : Store κ δ Int) (b : Dict κ (Dict δ α)) (hb' : b.keys.Pairwise (· < ·)) (qa qb : List κ)
    (ha : Spec.QrelsOrder (.obj s : QrelsArg κ δ α) qa) (hb : Spec.RunOrder (.dict b) qb)
    (h : ∀ x, x ∈ qa ↔ x ∈ qb) : qa = qb := by
  change qb = b.keys at hb
  subst hb
  exact eq_of_mem_iff_of_sorted_lt ha.1 hb' h

theorem order_dict_obj (a : Dict κ (Dict δ α)) (ha' : a.keys.Pairwise (· < ·)) (r : RunObj κ δ α) (qa qb : List κ)
    (ha : Spec.QrelsOrder (.dict a : QrelsArg κ δ α) qa) (hb : Spec.RunOrder (.obj r) qb)
    (h : ∀ x, x ∈ qa ↔ x ∈ qb) : qa = qb := by
  change qa = a.keys at ha
  subst ha
  exact eq_of_mem_iff_of_sorted_lt ha' hb.1 h

/-! ## C33: when scores per query are returned -/

theorem extract_of_metricOf (F : Fn α) (other : Str → Except Err α) (m : Str) (f : Kernel ι α)
    (h : metricOf F other m = .ok f) : ∃ name p L, extract other m = .ok (name, p, L) := by
  unfold metricOf at h
  cases he : extract other m with
  | error e => rw [he] at h; cases h
  | ok x => exact ⟨x.1, x.2.1, x.2.2, rfl⟩

/-- **C33** (exactly when): with `return_mean=False`, on arguments on which every metric can be computed,
`evaluate` returns the scores unless a single metric string is given, nothing is saved in a `Run`, and the
string is not just the name of the metric; in that case it raises KeyError. -/
theorem C33_returns_iff (F : Fn α) (other : Str → Except Err α) (SQ : ArgSort Int) (SR : ArgSort α)
    (hash : δ → ι) (sched : Nat → List Nat) (o : Opts) (hc : o.makeComparable = false)
    (hmean : o.returnMean = false)
    (qrels : QrelsArg κ δ α) (run : RunArg κ δ α) (hq : Spec.QrelsUsable SQ qrels) (hr : Spec.RunUsable SR run)
    (ms : List Str) (hsched : ∀ i, Schedule qrels.keys.length (sched i))
    (hcan : ∃ after out, evaluate F other SQ SR hash sched { o with returnMean := true } qrels run ms =
      (after, .ok out)) :
    ((∃ l, (evaluate F other SQ SR hash sched o qrels run ms).2 = .ok l) ↔
      ¬ ∃ m name p L, ms = [m] ∧ extract other m = .ok (name, p, L) ∧ name ≠ m ∧
        ¬ (o.save = true ∧ Spec.isObj run = true)) ∧
    ((∃ m name p L, ms = [m] ∧ extract other m = .ok (name, p, L) ∧ name ≠ m ∧
        ¬ (o.save = true ∧ Spec.isObj run = true)) →
      (evaluate F other SQ SR hash sched o qrels run ms).2 = .error .keyError) := by
  obtain ⟨after, out, h⟩ := hcan
  have h2 := congrArg Prod.snd h
  rw [evaluate_out F other SQ SR hash sched { o with returnMean := true } hc] at h2
  rw [evaluate_out F other SQ SR hash sched o hc]
  by_cases hk : sameKeys qrels.keys run.keys = true
  · rw [if_pos hk] at h2 ⊢
    cases hcq : convertQrels SQ SR hash qrels with
    | error e => rw [hcq] at h2; cases h2
    | ok p =>
      obtain ⟨q', ql⟩ := p
      rw [hcq] at h2
      simp only at h2 ⊢
      cases hcr : convertRun SR hash run with
      | error e => rw [hcr] at h2; cases h2
      | ok p =>
        obtain ⟨r', rl⟩ := p
        rw [hcr] at h2
        simp only at h2 ⊢
        have hobj := (convertRun_listed SR hash run hr r' rl hcr).choose_spec.2.2.2
        cases hd : scoreAll F other sched ql rl ms.zipIdx [] with
        | error e => rw [hd] at h2; cases h2
        | ok d =>
          rw [hd] at h2
          simp only at h2 ⊢
          rw [hobj] at h2 ⊢
          match ms, hd with
          | [], _ =>
            refine ⟨⟨fun _ => ?_, fun _ => ⟨_, rfl⟩⟩, ?_⟩
            · rintro ⟨m, _, _, _, h, _⟩; cases h
            · rintro ⟨m, _, _, _, h, _⟩; cases h
          | m1 :: m2 :: t, _ =>
            refine ⟨⟨fun _ => ?_, fun _ => ⟨_, rfl⟩⟩, ?_⟩
            · rintro ⟨m, _, _, _, h, _⟩; cases h
            · rintro ⟨m, _, _, _, h, _⟩; cases h
          | [m], hd =>
            have hdk : d.keys = [m] ∧ ∃ f : Kernel ι α, metricOf F other m = .ok f := by
              simp only [List.zipIdx_cons, List.zipIdx_nil, scoreAll] at hd
              cases hf : (metricOf F other m : Except Err (Kernel ι α)) with
              | error e => rw [hf] at hd; cases hd
              | ok f =>
                rw [hf] at hd
                simp only at hd
                cases hpar : parallel f (sched 0) ql rl with
                | error e => rw [hpar] at hd; cases hd
                | ok sc => rw [hpar] at hd; cases hd; exact ⟨rfl, f, rfl⟩
            obtain ⟨hdk, f, hf⟩ := hdk
            obtain ⟨name, p, L, hex⟩ := extract_of_metricOf F other m f hf
            obtain ⟨l, hl⟩ := Option.isSome_iff_exists.1 (get?_isSome.2 (show m ∈ d.keys by rw [hdk]; simp))
            by_cases hsv : o.save = true ∧ Spec.isObj run = true
            · have hlast : lastM other o (Spec.isObj run) m = m := by
                unfold lastM; rw [if_pos (by rw [hsv.1, hsv.2]; simp)]
              have hok : outOf F other o (Spec.isObj run) d [m] =
                  .ok (.single (present F o (o.returnMean && o.returnStd) l)) := by
                unfold outOf
                simp only
                rw [hlast, get?_map_val, hl]
                rfl
              rw [hok]
              exact ⟨⟨fun _ => fun ⟨_, _, _, _, _, _, _, h⟩ => h hsv, fun _ => ⟨_, rfl⟩⟩,
                fun ⟨_, _, _, _, _, _, _, h⟩ => absurd hsv h⟩
            · have hlast : lastM other o (Spec.isObj run) m = name := by
                unfold lastM
                rw [if_neg (by rw [hmean]; simpa [and_comm] using hsv), hex]
              by_cases hne : name = m
              · have hok : outOf F other o (Spec.isObj run) d [m] =
                    .ok (.single (present F o (o.returnMean && o.returnStd) l)) := by
                  unfold outOf
                  simp only
                  rw [hlast, hne, get?_map_val, hl]
                  rfl
                rw [hok]
                have hno : ¬ ∃ m' name p L, [m] = [m'] ∧ extract other m' = .ok (name, p, L) ∧ name ≠ m' ∧
                    ¬ (o.save = true ∧ Spec.isObj run = true) := by
                  rintro ⟨m', name', p', L', e, hex', hne', -⟩
                  cases e
                  rw [hex] at hex'
                  cases hex'
                  exact hne' hne
                exact ⟨⟨fun _ => hno, fun _ => ⟨_, rfl⟩⟩, fun h => absurd h hno⟩
              · have herr : outOf F other o (Spec.isObj run) d [m] = .error .keyError := by
                  unfold outOf
                  simp only
                  have hnone : d.get? name = none := by
                    rw [get?_eq_none, hdk]; simpa using hne
                  rw [hlast, get?_map_val, hnone]
                  rfl
                rw [herr]
                refine ⟨⟨?_, ?_⟩, fun _ => rfl⟩
                · rintro ⟨x, hx⟩; cases hx
                · intro hc
                  exact absurd ⟨m, name, p, L, rfl, hex, hne, hsv⟩ hc
  · rw [if_neg hk] at h2; cases h2

end

/-- Non-vacuity of C37_by_position and C37_any_arguments_partial: a `Qrels` object with a dictionary run filled
by query id (and, last, filled the other way round: the scores 1/2 and 1 become 0 and 0). -/
example :
    Spec.QrelsUsable (κ := Nat) (δ := Nat) (α := ℚ) (ArgSort.stable Int) (.obj exQrelsObj) ∧
    Spec.RunUsable (κ := Nat) (δ := Nat) (ArgSort.stable ℚ) (.dict [(1, [(11, 2), (12, 3)]), (2, [(20, 1)])]) ∧
    (evaluate (ι := Nat) ratFn (fun _ => .error .valueError) (ArgSort.stable Int)
      (ArgSort.stable ℚ) id (fun _ => [1, 0]) { returnMean := false }
      (.obj exQrelsObj) (.dict [(1, [(11, 2), (12, 3)]), (2, [(20, 1)])]) ["precision".toList]).2 =
        .ok (.single (.scores [.val (1/2), .val 1])) ∧
    (evaluate (ι := Nat) ratFn (fun _ => .error .valueError) (ArgSort.stable Int)
      (ArgSort.stable ℚ) id (fun _ => [1, 0]) { returnMean := false }
      (.obj exQrelsObj) (.dict [(2, [(20, 1)]), (1, [(11, 2), (12, 3)])]) ["precision".toList]).2 =
        .ok (.single (.scores [.val 0, .val 0])) := by
  refine ⟨exQrelsObj_usable, ?_, ?_, ?_⟩
  · change NodupKeys _
    unfold NodupKeys; decide
  all_goals decide +kernel

/-- Non-vacuity of C33_returns_iff: a dictionary run; `precision@2` raises, `precision` and a list of two
strings do not. -/
example :
    (evaluate (ι := Nat) ratFn (fun _ => .error .valueError) (ArgSort.stable Int)
      (ArgSort.stable ℚ) id (fun _ => [1, 0]) { returnMean := false }
      (.obj exQrelsObj) (.dict [(1, [(11, 2), (12, 3)]), (2, [(20, 1)])]) ["precision@2".toList]).2 =
        .error .keyError ∧
    (evaluate (ι := Nat) ratFn (fun _ => .error .valueError) (ArgSort.stable Int)
      (ArgSort.stable ℚ) id (fun _ => [1, 0]) { returnMean := false }
      (.obj exQrelsObj) (.dict [(1, [(11, 2), (12, 3)]), (2, [(20, 1)])])
      ["precision@2".toList, "mrr".toList]).2 =
        .ok (.dict [("precision@2".toList, .scores [.val (1/2), .val (1/2)]),
          ("mrr".toList, .scores [.val (1/2), .val 1])]) ∧
    (evaluate (ι := Nat) ratFn (fun _ => .error .valueError) (ArgSort.stable Int)
      (ArgSort.stable ℚ) id (fun _ => [1, 0]) {}
      (.obj exQrelsObj) (.dict [(1, [(11, 2), (12, 3)]), (2, [(20, 1)])]) ["precision@2".toList]).2 =
        .ok (.single (.mean (.val (1/2)))) := by
  refine ⟨?_, ?_, ?_⟩ <;> decide +kernel

end Ranx
