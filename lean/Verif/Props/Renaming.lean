import Verif.Props.HashFree

/-!
# C130: only the identity of the doc ids matters

Renaming the docs by an injective function, in the judgements and in the run alike, renames the docs in the
arguments after the call and changes nothing else: same results, same saved scores, same exceptions.
-/

set_option linter.unusedSectionVars false

namespace Ranx
open Dict Store Eval Metrics Py
variable {κ δ δ' ι ι' α β : Type*}

namespace Spec

/-- the same dictionary with other keys -/
def renamed (f : δ → δ') (d : Dict δ β) : Dict δ' β := d.map (fun p => (f p.1, p.2))

/-- the same queries, docs and scores, the docs called otherwise -/
def renamedDocs (f : δ → δ') (d : Dict κ (Dict δ β)) : Dict κ (Dict δ' β) := d.map (fun p => (p.1, renamed f p.2))

def renamedStore (f : δ → δ') (s : Store κ δ β) : Store κ δ' β := ⟨renamedDocs f s.data, s.sorted⟩

def renamedRun (f : δ → δ') (r : RunObj κ δ α) : RunObj κ δ' α :=
  { store := renamedStore f r.store, scores := r.scores, meanScores := r.meanScores, stdScores := r.stdScores }

def renamedQrelsArg (f : δ → δ') : QrelsArg κ δ α → QrelsArg κ δ' α
  | .obj s => .obj (renamedStore f s)
  | .dict d => .dict (renamedDocs f d)

def renamedRunArg (f : δ → δ') : RunArg κ δ α → RunArg κ δ' α
  | .obj r => .obj (renamedRun f r)
  | .dict d => .dict (renamedDocs f d)

end Spec
open Spec (renamed renamedDocs renamedStore renamedRun renamedQrelsArg renamedRunArg)

section
variable [LinearOrder κ] [DecidableEq δ] [DecidableEq δ']

theorem renamed_set {f : δ → δ'} (hf : Function.Injective f) (d : Dict δ β) (k : δ) (v : β) :
    renamed f (d.set k v) = (renamed f d).set (f k) v := by
  induction d with
  | nil => rfl
  | cons p t ih =>
    obtain ⟨k', w⟩ := p
    change renamed f (if k' = k then _ else _) = if f k' = f k then _ else _
    by_cases h : k' = k
    · rw [if_pos h, if_pos (by rw [h])]; rfl
    · rw [if_neg h, if_neg (fun e => h (hf e))]
      change (f k', w) :: renamed f (Dict.set t k v) = _
      rw [ih]; rfl

theorem renamed_values (f : δ → δ') (d : Dict δ β) : (renamed f d).values = d.values := by
  unfold renamed Dict.values; rw [List.map_map]; rfl

theorem sortDictByValue_renamed [LE β] [Neg β] (S : ArgSort β) {f : δ → δ'} (hf : Function.Injective f)
    (d : Dict δ β) : sortDictByValue S (renamed f d) = renamed f (sortDictByValue S d) := by
  unfold sortDictByValue
  rw [renamed_values]
  have : ∀ (L : List Nat) (acc : Dict δ β),
      L.foldl (fun newD i => match (renamed f d)[i]? with
        | some (k, v) => newD.set k v
        | none => newD) (renamed f acc) =
      renamed f (L.foldl (fun newD i => match d[i]? with
        | some (k, v) => newD.set k v
        | none => newD) acc) := by
    intro L
    induction L with
    | nil => intro acc; rfl
    | cons i t ih =>
      intro acc
      rw [List.foldl_cons, List.foldl_cons, ← ih]
      congr 1
      have e : (renamed f d)[i]? = (d[i]?).map (fun p => (f p.1, p.2)) := by
        unfold renamed; rw [List.getElem?_map]
      rw [e]
      cases d[i]? with
      | none => rfl
      | some p => exact (renamed_set hf _ _ _).symm
  exact this _ []

theorem renamedDocs_keys (f : δ → δ') (d : Dict κ (Dict δ β)) : (renamedDocs f d).keys = d.keys := by
  unfold renamedDocs Dict.keys; rw [List.map_map]; rfl

theorem renamedDocs_values (f : δ → δ') (d : Dict κ (Dict δ β)) :
    (renamedDocs f d).values = d.values.map (renamed f) := by
  unfold renamedDocs Dict.values; rw [List.map_map, List.map_map]; rfl

theorem renamedDocs_set (f : δ → δ') (d : Dict κ (Dict δ β)) (q : κ) (v : Dict δ β) :
    renamedDocs f (d.set q v) = (renamedDocs f d).set q (renamed f v) := by
  induction d with
  | nil => rfl
  | cons p t ih =>
    obtain ⟨k', w⟩ := p
    change renamedDocs f (if k' = q then _ else _) = if k' = q then _ else _
    by_cases h : k' = q
    · rw [if_pos h, if_pos h]; rfl
    · rw [if_neg h, if_neg h]
      change (k', renamed f w) :: renamedDocs f (Dict.set t q v) = _
      rw [ih]; rfl

theorem renamedDocs_get? (f : δ → δ') (d : Dict κ (Dict δ β)) (q : κ) :
    (renamedDocs f d).get? q = (d.get? q).map (renamed f) := by
  induction d with
  | nil => rfl
  | cons p t ih =>
    obtain ⟨k', w⟩ := p
    change Dict.get? ((k', renamed f w) :: renamedDocs f t) q = _
    rw [get?_cons, get?_cons, ih]
    split_ifs <;> rfl

theorem sortDictByKey_renamed (f : δ → δ') (d : Dict κ (Dict δ β)) :
    sortDictByKey (renamedDocs f d) = renamedDocs f (sortDictByKey d) := by
  unfold sortDictByKey
  rw [renamedDocs_keys, show ([] : Dict κ (Dict δ' β)) = renamedDocs f [] from rfl]
  generalize ([] : Dict κ (Dict δ β)) = acc
  generalize isort (fun a b => decide (a ≤ b)) d.keys = L
  induction L generalizing acc with
  | nil => rfl
  | cons k t ih =>
    rw [List.foldl_cons, List.foldl_cons, ← ih]
    congr 1
    rw [renamedDocs_get?]
    cases d.get? k with
    | none => rfl
    | some p => exact (renamedDocs_set f _ _ _).symm

theorem createDictFromLists_renamed (f : δ → δ') (ks : List κ) (vs : List (Dict δ β)) (acc : Dict κ (Dict δ β)) :
    createDictFromLists ks (vs.map (renamed f)) (renamedDocs f acc) =
      (createDictFromLists ks vs acc).map (renamedDocs f) := by
  induction ks generalizing vs acc with
  | nil => rfl
  | cons k t ih =>
    cases vs with
    | nil => rfl
    | cons v w =>
      change createDictFromLists t (w.map (renamed f)) ((renamedDocs f acc).set k (renamed f v)) = _
      rw [← renamedDocs_set, ih]; rfl

theorem sortAll_renamed [LE β] [Neg β] (S : ArgSort β) {f : δ → δ'} (hf : Function.Injective f)
    (d : Dict κ (Dict δ β)) : sortAll S (renamedDocs f d) = renamedDocs f (sortAll S d) := by
  unfold sortAll
  rw [sortDictByKey_renamed]
  unfold sortDictOfDictByValue
  rw [renamedDocs_keys, renamedDocs_values, List.map_map]
  have e : (sortDictByValue S ∘ renamed f) = (renamed f ∘ sortDictByValue S : Dict δ β → Dict δ' β) := by
    funext x; exact sortDictByValue_renamed S hf x
  rw [e, ← List.map_map]
  have := createDictFromLists_renamed f (sortDictByKey d).keys ((sortDictByKey d).values.map (sortDictByValue S)) []
  rw [show (renamedDocs f ([] : Dict κ (Dict δ β))) = [] from rfl] at this
  rw [this]
  cases createDictFromLists (sortDictByKey d).keys ((sortDictByKey d).values.map (sortDictByValue S)) [] <;> rfl

theorem ensureSorted_renamed [LE β] [Neg β] (S : ArgSort β) {f : δ → δ'} (hf : Function.Injective f)
    (s : Store κ δ β) : (renamedStore f s).ensureSorted S = renamedStore f (s.ensureSorted S) := by
  unfold Store.ensureSorted Store.sort
  obtain ⟨d, b⟩ := s
  cases b with
  | true => rfl
  | false =>
    change (⟨sortAll S (renamedDocs f d), true⟩ : Store κ δ' β) = ⟨renamedDocs f (sortAll S d), true⟩
    rw [sortAll_renamed S hf]

theorem renamedDocs_contains (f : δ → δ') (d : Dict κ (Dict δ β)) (q : κ) :
    (renamedDocs f d).contains q = d.contains q := by
  unfold Dict.contains
  rw [renamedDocs_get?]
  cases d.get? q <;> rfl

theorem renamedDocs_del (f : δ → δ') (d : Dict κ (Dict δ β)) (q : κ) :
    (renamedDocs f d).del q = renamedDocs f (d.del q) := by
  induction d with
  | nil => rfl
  | cons p t ih =>
    obtain ⟨k', w⟩ := p
    change (if k' = q then renamedDocs f t else (k', renamed f w) :: (renamedDocs f t).del q) =
      renamedDocs f (if k' = q then t else (k', w) :: Dict.del t q)
    by_cases h : k' = q
    · rw [if_pos h, if_pos h]
    · rw [if_neg h, if_neg h, ih]; rfl

theorem makeComparable_renamed [LE β] [Neg β] (S : ArgSort β) {f : δ → δ'} (hf : Function.Injective f)
    (s : Store κ δ β) (qs : List κ) :
    (renamedStore f s).makeComparable S qs = renamedStore f (s.makeComparable S qs) := by
  have h1 : ∀ (L : List κ) (d : Dict κ (Dict δ β)),
      L.foldl (fun d q => if d.contains q then d else d.set q []) (renamedDocs f d) =
        renamedDocs f (L.foldl (fun d q => if d.contains q then d else d.set q []) d) := by
    intro L
    induction L with
    | nil => intro d; rfl
    | cons q t ih =>
      intro d
      rw [List.foldl_cons, List.foldl_cons, ← ih]
      congr 1
      rw [renamedDocs_contains]
      by_cases h : d.contains q = true
      · rw [if_pos h, if_pos h]
      · rw [if_neg h, if_neg h]; exact (renamedDocs_set f d q []).symm
  have h2 : ∀ (L : List κ) (d : Dict κ (Dict δ β)),
      L.foldl (fun d q => if qs.contains q then d else d.del q) (renamedDocs f d) =
        renamedDocs f (L.foldl (fun d q => if qs.contains q then d else d.del q) d) := by
    intro L
    induction L with
    | nil => intro d; rfl
    | cons q t ih =>
      intro d
      rw [List.foldl_cons, List.foldl_cons, ← ih]
      congr 1
      by_cases h : qs.contains q = true
      · rw [if_pos h, if_pos h]
      · rw [if_neg h, if_neg h, renamedDocs_del]
  unfold Store.makeComparable Store.sort
  simp only
  change (⟨sortAll S _, true⟩ : Store κ δ' β) = ⟨renamedDocs f (sortAll S _), true⟩
  rw [show (renamedStore f s).data = renamedDocs f s.data from rfl, h1, renamedDocs_keys, h2, sortAll_renamed S hf]

end

section
variable [LinearOrder κ] [DecidableEq δ] [DecidableEq δ'] [LinearOrder ι] [LinearOrder ι'] [Field α] [LinearOrder α]

theorem rows_renamed {γ : Type*} (hash : δ' → ι) (cast : β → γ) (f : δ → δ') (d : Dict κ (Dict δ β)) :
    Store.rows hash cast (renamedDocs f d) = Store.rows (hash ∘ f) cast d := by
  unfold Store.rows
  rw [renamedDocs_values, List.map_map]
  apply List.map_congr_left
  intro x _
  change List.map _ (List.map _ x) = _
  rw [List.map_map]; rfl

theorem dictToTypedList_renamed (S : ArgSort α) (hash : δ' → ι) (f : δ → δ') (x : Dict κ (Dict δ α)) :
    dictToTypedList S hash (renamedDocs f x) = dictToTypedList S (hash ∘ f) x := by
  unfold dictToTypedList
  rw [renamedDocs_values, List.any_map, List.map_map]
  have e1 : ((fun d : Dict δ' α => d.isEmpty) ∘ renamed f) = (fun d : Dict δ α => d.isEmpty) := by
    funext x; cases x <;> rfl
  rw [e1]
  congr 2
  apply List.map_congr_left
  intro x _
  change descendingSort S (List.map _ (List.map _ x)) = _
  rw [List.map_map]; rfl

theorem convertQrels_renamed (SQ : ArgSort Int) (SR : ArgSort α) (hash : δ' → ι) {f : δ → δ'}
    (hf : Function.Injective f) (a : QrelsArg κ δ α) :
    convertQrels SQ SR hash (renamedQrelsArg f a) =
      (convertQrels SQ SR (hash ∘ f) a).map (fun p => (renamedQrelsArg f p.1, p.2)) := by
  cases a with
  | obj s =>
    change Except.ok (QrelsArg.obj ((renamedStore f s).ensureSorted SQ),
      Store.rows hash _ ((renamedStore f s).ensureSorted SQ).data) = Except.ok (renamedQrelsArg f (.obj _), Store.rows (hash ∘ f) _ _)
    rw [ensureSorted_renamed SQ hf, show (renamedStore f (s.ensureSorted SQ)).data = renamedDocs f (s.ensureSorted SQ).data from rfl,
      rows_renamed]
    rfl
  | dict d =>
    have e : renamedQrelsArg f (.dict d) = .dict (renamedDocs f d) := rfl
    rw [e]
    simp only [convertQrels]
    rw [dictToTypedList_renamed]
    cases dictToTypedList SR (hash ∘ f) d <;> rfl

theorem convertRun_renamed (SR : ArgSort α) (hash : δ' → ι) {f : δ → δ'}
    (hf : Function.Injective f) (a : RunArg κ δ α) :
    convertRun SR hash (renamedRunArg f a) =
      (convertRun SR (hash ∘ f) a).map (fun p => (renamedRunArg f p.1, p.2)) := by
  cases a with
  | obj s =>
    change Except.ok (RunArg.obj { renamedRun f s with store := (renamedStore f s.store).ensureSorted SR },
      Store.rows hash _ ((renamedStore f s.store).ensureSorted SR).data) =
        Except.ok (renamedRunArg f (.obj _), Store.rows (hash ∘ f) _ _)
    rw [ensureSorted_renamed SR hf, show (renamedStore f (s.store.ensureSorted SR)).data =
      renamedDocs f (s.store.ensureSorted SR).data from rfl, rows_renamed]
    rfl
  | dict d =>
    have e : renamedRunArg f (.dict d) = .dict (renamedDocs f d) := rfl
    rw [e]
    simp only [convertRun]
    rw [dictToTypedList_renamed]
    cases dictToTypedList SR (hash ∘ f) d <;> rfl

theorem prepare_renamed (SR : ArgSort α) (o : Opts) {f : δ → δ'} (hf : Function.Injective f)
    (qrels : QrelsArg κ δ α) (run : RunArg κ δ α) :
    prepare SR o (renamedQrelsArg f qrels) (renamedRunArg f run) = renamedRunArg f (prepare SR o qrels run) := by
  unfold prepare
  by_cases h : o.makeComparable = true
  · rw [if_pos h, if_pos h]
    cases qrels with
    | dict x => rfl
    | obj s =>
      cases run with
      | dict x => rfl
      | obj r =>
        change RunArg.obj { renamedRun f r with
          store := (renamedStore f r.store).makeComparable SR (renamedDocs f s.data).keys } = _
        rw [renamedDocs_keys, makeComparable_renamed SR hf]
        rfl
  · rw [if_neg h, if_neg h]

theorem saveOne_renamed (F : Fn α) (b : Bool) (f : δ → δ') (r : RunObj κ δ α) (m : Str) (sc : List (Num α)) :
    saveOne F b (renamedRun f r) m sc = renamedRun f (saveOne F b r m sc) := by
  unfold saveOne
  simp only
  rw [show (renamedRun f r).store.data = renamedDocs f r.store.data from rfl, renamedDocs_keys]
  rfl

theorem qkeys_renamed (f : δ → δ') (a : QrelsArg κ δ α) : (renamedQrelsArg f a).keys = a.keys := by
  cases a <;> exact renamedDocs_keys f _

theorem rkeys_renamed (f : δ → δ') (a : RunArg κ δ α) : (renamedRunArg f a).keys = a.keys := by
  cases a <;> exact renamedDocs_keys f _

theorem evaluate_renamed (F : Fn α) (other : Str → Except Err α) (SQ : ArgSort Int) (SR : ArgSort α)
    (hash : δ' → ι) {f : δ → δ'} (hf : Function.Injective f) (sched : Nat → List Nat) (o : Opts)
    (qrels : QrelsArg κ δ α) (run : RunArg κ δ α) (ms : List Str) :
    evaluate F other SQ SR hash sched o (renamedQrelsArg f qrels) (renamedRunArg f run) ms =
      (⟨renamedQrelsArg f (evaluate F other SQ SR (hash ∘ f) sched o qrels run ms).1.qrels,
        renamedRunArg f (evaluate F other SQ SR (hash ∘ f) sched o qrels run ms).1.run⟩,
        (evaluate F other SQ SR (hash ∘ f) sched o qrels run ms).2) := by
  unfold evaluate
  simp only
  rw [prepare_renamed SR o hf, qkeys_renamed, rkeys_renamed, convertQrels_renamed SQ SR hash hf,
    convertRun_renamed SR hash hf]
  generalize prepare SR o qrels run = run
  split
  · rfl
  · cases convertQrels SQ SR (hash ∘ f) qrels with
    | error e => rfl
    | ok p =>
      obtain ⟨a, ql⟩ := p
      simp only [Except.map]
      cases convertRun SR (hash ∘ f) run with
      | error e => rfl
      | ok p' =>
        obtain ⟨b, rl⟩ := p'
        simp only
        cases scoreAll F other sched ql rl ms.zipIdx [] with
        | error e => rfl
        | ok d =>
          simp only
          have hfold : ∀ (d : Dict Str (List (Num α))) (r : RunObj κ δ α),
              d.foldl (fun r p => saveOne F (o.returnMean && o.returnStd) r p.1 p.2) (renamedRun f r) =
                renamedRun f (d.foldl (fun r p => saveOne F (o.returnMean && o.returnStd) r p.1 p.2) r) := by
            intro d
            induction d with
            | nil => intro r; rfl
            | cons p t ih =>
              intro r
              rw [List.foldl_cons, List.foldl_cons, saveOne_renamed, ih]
          cases b with
          | dict x =>
            simp only [renamedRunArg]
            split
            · split <;> rfl
            · rfl
          | obj r =>
            have hs : (if o.save then RunArg.obj (d.foldl (fun r p => saveOne F (o.returnMean && o.returnStd) r p.1 p.2)
                (renamedRun f r)) else RunArg.obj (renamedRun f r)) =
              renamedRunArg f (if o.save then RunArg.obj (d.foldl (fun r p => saveOne F (o.returnMean && o.returnStd) r p.1 p.2)
                r) else RunArg.obj r) := by
              rw [hfold]; split <;> rfl
            have hr : renamedRunArg f (.obj r) = .obj (renamedRun f r) := rfl
            rw [hr]
            simp only
            rw [hs]
            split
            · split <;> rfl
            · rfl

end

section
variable [LinearOrder κ] [DecidableEq δ] [DecidableEq δ'] [LinearOrder ι] [LinearOrder ι'] [Field α] [LinearOrder α]
  [IsStrictOrderedRing α]

theorem renamedDocs_mem {f : δ → δ'} {x : Dict κ (Dict δ β)} {d : δ} (h : ∃ p ∈ x, d ∈ p.2.keys) :
    ∃ p ∈ renamedDocs f x, f d ∈ p.2.keys := by
  obtain ⟨p, hp, hd⟩ := h
  refine ⟨(p.1, renamed f p.2), List.mem_map.2 ⟨p, hp, rfl⟩, ?_⟩
  obtain ⟨e, he, rfl⟩ := List.mem_map.1 hd
  exact List.mem_map.2 ⟨(f e.1, e.2), List.mem_map.2 ⟨e, he, rfl⟩, rfl⟩

theorem mentions_renamed {f : δ → δ'} {qrels : QrelsArg κ δ α} {run : RunArg κ δ α} {d : δ}
    (h : Spec.Mentions qrels run d) : Spec.Mentions (renamedQrelsArg f qrels) (renamedRunArg f run) (f d) := by
  cases qrels <;> cases run <;> exact h.imp renamedDocs_mem renamedDocs_mem

/-- **C130**: docs are only names. If every doc `d` is called `f d` instead, in the judgements and in the run, with
`f` injective, then `evaluate` returns the same values or raises the same exception, saves the same scores, and
leaves behind the same objects up to the names of the docs — under any two hash functions of the old and the new
names that do not collide. -/
theorem C130_doc_names (F : Fn α) (other : Str → Except Err α) (SQ : ArgSort Int) (SR : ArgSort α)
    (hash : δ → ι) (hash' : δ' → ι') (f : δ → δ') (hf : Function.Injective f) (sched : Nat → List Nat) (o : Opts)
    (qrels : QrelsArg κ δ α) (run : RunArg κ δ α) (hargs : Spec.EvalArgs SQ SR qrels run)
    (h : Spec.NoClash hash qrels run)
    (h' : Spec.NoClash hash' (renamedQrelsArg f qrels) (renamedRunArg f run)) (ms : List Str) :
    (evaluate F other SQ SR hash' sched o (renamedQrelsArg f qrels) (renamedRunArg f run) ms).2 =
      (evaluate F other SQ SR hash sched o qrels run ms).2 ∧
    (evaluate F other SQ SR hash' sched o (renamedQrelsArg f qrels) (renamedRunArg f run) ms).1 =
      ⟨renamedQrelsArg f (evaluate F other SQ SR hash sched o qrels run ms).1.qrels,
        renamedRunArg f (evaluate F other SQ SR hash sched o qrels run ms).1.run⟩ := by
  have hc : Spec.NoClash (hash' ∘ f) qrels run := fun d d' hd hd' e =>
    hf (h' _ _ (mentions_renamed hd) (mentions_renamed hd') e)
  rw [evaluate_renamed F other SQ SR hash' hf, C129_hash_seed F other SQ SR hash (hash' ∘ f) sched o qrels run hargs h hc]
  exact ⟨rfl, rfl⟩

/-- what "the same up to names" means for a run object: scores are found under the new names, nothing else changes -/
theorem C130_reading (f : δ → δ') (hf : Function.Injective f) (r : RunObj κ δ α) (q : κ) (d : δ) :
    (Spec.content (renamedRun f r).store).read q (f d) = (Spec.content r.store).read q d ∧
    (renamedRun f r).scores = r.scores ∧ (renamedRun f r).meanScores = r.meanScores ∧
    (renamedRun f r).stdScores = r.stdScores := by
  refine ⟨?_, rfl, rfl, rfl⟩
  unfold Spec.content Spec.Content.read
  beta_reduce
  change (Option.map _ ((renamedDocs f r.store.data).get? q)).bind _ = _
  rw [renamedDocs_get?]
  cases r.store.data.get? q with
  | none => rfl
  | some v =>
    change (renamed f v).get? (f d) = v.get? d
    induction v with
    | nil => rfl
    | cons p t ih =>
      obtain ⟨k, w⟩ := p
      change Dict.get? ((f k, w) :: renamed f t) (f d) = _
      rw [get?_cons, get?_cons, ih]
      by_cases e : k = d
      · rw [if_pos e, if_pos (by rw [e])]
      · rw [if_neg e, if_neg (fun h => e (hf h))]

end

/-- non-vacuity of `C130` -/
example : Spec.EvalArgs (ArgSort.stable Int) (ArgSort.stable ℚ) (.obj exQrelsObj) (.obj exRunObj) ∧
    Spec.NoClash (α := ℚ) (fun n : Nat => (n : Int)) (.obj exQrelsObj) (.obj exRunObj) ∧
    Function.Injective (fun n : Nat => -(2 * (n : Int))) ∧
    Spec.NoClash (α := ℚ) (id : Int → Int) (renamedQrelsArg (fun n : Nat => -(2 * (n : Int))) (.obj exQrelsObj))
      (renamedRunArg (fun n : Nat => -(2 * (n : Int))) (.obj exRunObj)) ∧
    (Eval.evaluate ratFn (fun _ => .error .valueError) (ArgSort.stable Int) (ArgSort.stable ℚ)
      (id : Int → Int) (fun _ => [1, 0]) { makeComparable := true }
      (renamedQrelsArg (fun n : Nat => -(2 * (n : Int))) (.obj exQrelsObj))
      (renamedRunArg (fun n : Nat => -(2 * (n : Int))) (.obj exRunObj))
      ["precision@2".toList]).2 = .ok (.single (.mean (.val (1 / 4)))) := by
  refine ⟨⟨?_, ?_⟩, fun d d' _ _ h => by simpa using h, fun a b h => by simpa using h, fun _ _ _ _ h => h,
    by decide +kernel⟩
  · intro s hs; cases hs; exact exQrelsObj_usable
  · intro r hr; cases hr; exact exRunObj_usable

end Ranx
