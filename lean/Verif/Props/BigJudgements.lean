import Verif.Props.Convert
import Verif.Lemmas.Sort
import Mathlib.Algebra.Order.Ring.Rat

/-!
# Property C144: judgements of any size in float64

Judgements are int64, but sorting and the arrays given to the metrics go through float64.
-/

set_option linter.unusedSectionVars false

namespace Ranx
open Dict F64 Conv
variable {κ δ ι : Type*} [LinearOrder κ] [DecidableEq δ] (S : ArgSort ℚ)

/-- Specification: every judgement is a whole number of at most 2^53 in absolute value -/
def Spec.ExactJudgements (d : Dict κ (Dict δ Int)) : Prop := ∀ p ∈ d, ∀ e ∈ p.2, |e.2| ≤ 2 ^ 53

/-- Specification: the same judgements as float64 numbers -/
def Spec.floatJudgements (d : Dict κ (Dict δ Int)) : Dict κ (Dict δ ℚ) :=
  d.map (fun p => (p.1, p.2.map (fun e : δ × Int => (e.1, fl (e.2 : ℚ)))))

/-- sorting integers within 2^53 through float64 is a correct argsort of the integers -/
theorem exists_argsort : ∃ S' : ArgSort Int, ∀ l : List Int, (∀ z ∈ l, |z| ≤ 2 ^ 53) → S'.run l = argsortInt S l := by
  classical
  refine ⟨⟨fun l => if ∀ z ∈ l, |z| ≤ 2 ^ 53 then argsortInt S l else (ArgSort.stable Int).run l, ?_, ?_⟩, ?_⟩
  · intro l
    by_cases h : ∀ z ∈ l, |z| ≤ 2 ^ 53
    · simp only [if_pos h]
      have := S.perm (l.map (fun z : Int => fl (z : ℚ)))
      rw [List.length_map] at this
      exact this
    · simp only [if_neg h]; exact (ArgSort.stable Int).perm l
  · intro l
    by_cases h : ∀ z ∈ l, |z| ≤ 2 ^ 53
    · simp only [if_pos h]
      refine (S.sorted (l.map (fun z : Int => fl (z : ℚ)))).imp ?_
      intro i j hij a b ha hb
      have := hij (fl (a : ℚ)) (fl (b : ℚ)) (by rw [List.getElem?_map, ha]; rfl) (by rw [List.getElem?_map, hb]; rfl)
      rw [fl_int a (h a (List.mem_of_getElem? ha)), fl_int b (h b (List.mem_of_getElem? hb))] at this
      exact_mod_cast this
    · simp only [if_neg h]; exact (ArgSort.stable Int).sorted l
  · intro l h
    exact if_pos h

/-- one step of the loop of `sort_dict_by_value` -/
def putAt {ν : Type*} (d : Dict δ ν) (newD : Dict δ ν) (i : Nat) : Dict δ ν :=
  match d[i]? with
  | some p => newD.set p.1 p.2
  | none => newD

theorem sortDictByValue_put {β : Type*} [LE β] [Neg β] (S : ArgSort β) (d : Dict δ β) :
    sortDictByValue S d = (S.run (d.values.map (fun v => -v))).foldl (putAt d) [] := by
  unfold sortDictByValue typedListArgsort
  congr 1
  funext newD i
  unfold putAt
  cases d[i]? <;> rfl

theorem sortByValueInt_put (d : Dict δ Int) :
    sortByValueInt S d = (argsortInt S (d.values.map (fun v => -v))).foldl (putAt d) [] := by
  unfold sortByValueInt
  congr 1
  funext newD i
  unfold putAt
  cases d[i]? <;> rfl

theorem map_foldl_set {ν μ : Type*} (f : ν → μ) (d : Dict δ ν) (is : List Nat) (acc : Dict δ ν) :
    (is.foldl (putAt d) acc).map (fun p => (p.1, f p.2)) =
    is.foldl (putAt (d.map (fun p => (p.1, f p.2)) : Dict δ μ)) (acc.map (fun p => (p.1, f p.2))) := by
  have set_map : ∀ (d : Dict δ ν) (k : δ) (v : ν),
      (d.set k v).map (fun p => (p.1, f p.2)) = Dict.set (d.map (fun p => (p.1, f p.2))) k (f v) := by
    intro d k v
    induction d with
    | nil => rfl
    | cons p t ih =>
      unfold Dict.set
      simp only [List.map_cons]
      by_cases h : p.1 = k
      · rw [if_pos h, if_pos h]; rfl
      · rw [if_neg h, if_neg h, List.map_cons, ih]
  induction is generalizing acc with
  | nil => rfl
  | cons i is ih =>
    rw [List.foldl_cons, List.foldl_cons, ih]
    congr 1
    unfold putAt
    rw [List.getElem?_map]
    cases d[i]? with
    | none => rfl
    | some p => simp only [Option.map_some]; rw [set_map]

/-- sorting the integers through float64 = sorting their float64 images -/
theorem sortByValueInt_float (d : Dict δ Int) :
    (sortByValueInt S d).map (fun e : δ × Int => (e.1, fl (e.2 : ℚ))) =
      sortDictByValue S (d.map (fun e : δ × Int => (e.1, fl (e.2 : ℚ)))) := by
  rw [sortByValueInt_put, sortDictByValue_put]
  refine (map_foldl_set (fun z : Int => fl (z : ℚ)) d _ []).trans ?_
  unfold argsortInt
  have : (d.values.map (fun v => -v)).map (fun z : Int => fl (z : ℚ)) =
      (Dict.values (d.map (fun e : δ × Int => (e.1, fl (e.2 : ℚ))))).map (fun v => -v) := by
    unfold Dict.values
    rw [List.map_map, List.map_map, List.map_map, List.map_map]
    refine List.map_congr_left (fun e _ => ?_)
    simp only [Function.comp]
    rw [Int.cast_neg, fl_neg]
  rw [this, List.map_nil]

theorem createDict_map {ν μ : Type*} (g : ν → μ) (ks : List κ) (vs : List ν) (acc : Dict κ ν) :
    createDictFromLists ks (vs.map g) (acc.map (fun p => (p.1, g p.2))) =
      (createDictFromLists ks vs acc).map (List.map (fun p => (p.1, g p.2))) := by
  have set_map : ∀ (d : Dict κ ν) (k : κ) (v : ν),
      Dict.set (d.map (fun p => (p.1, g p.2))) k (g v) = (d.set k v).map (fun p => (p.1, g p.2)) := by
    intro d k v
    induction d with
    | nil => rfl
    | cons p t ih =>
      unfold Dict.set
      simp only [List.map_cons]
      by_cases h : p.1 = k
      · rw [if_pos h, if_pos h]; rfl
      · rw [if_neg h, if_neg h, List.map_cons, ih]
  induction ks generalizing vs acc with
  | nil => rfl
  | cons k ks ih =>
    cases vs with
    | nil => rfl
    | cons v vs =>
      change createDictFromLists ks (vs.map g) (Dict.set _ k (g v)) = _
      rw [set_map, ih]
      rfl

theorem sortDictByKey_map {ν μ : Type*} (g : ν → μ) (d : Dict κ ν) :
    sortDictByKey (d.map (fun p => (p.1, g p.2))) = (sortDictByKey d).map (fun p => (p.1, g p.2)) := by
  have set_map : ∀ (d : Dict κ ν) (k : κ) (v : ν),
      Dict.set (d.map (fun p => (p.1, g p.2))) k (g v) = (d.set k v).map (fun p => (p.1, g p.2)) := by
    intro d k v
    induction d with
    | nil => rfl
    | cons p t ih =>
      unfold Dict.set
      simp only [List.map_cons]
      by_cases h : p.1 = k
      · rw [if_pos h, if_pos h]; rfl
      · rw [if_neg h, if_neg h, List.map_cons, ih]
  unfold sortDictByKey
  rw [show Dict.keys (d.map (fun p => (p.1, g p.2))) = d.keys from by unfold Dict.keys; rw [List.map_map]; rfl]
  generalize isort (fun a b => decide (a ≤ b)) d.keys = ks
  have key : ∀ (ks : List κ) (acc : Dict κ ν),
      ks.foldl (fun (newD : Dict κ μ) k => match Dict.get? (d.map (fun p => (p.1, g p.2))) k with
        | some v => newD.set k v
        | none => newD) (acc.map (fun p => (p.1, g p.2))) =
      (ks.foldl (fun (newD : Dict κ ν) k => match d.get? k with
        | some v => newD.set k v
        | none => newD) acc).map (fun p => (p.1, g p.2)) := by
    intro ks
    induction ks with
    | nil => intro acc; rfl
    | cons k ks ih =>
      intro acc
      rw [List.foldl_cons, List.foldl_cons, ← ih, get?_map_val]
      cases d.get? k with
      | none => rfl
      | some v => simp only [Option.map_some]; rw [set_map]
  exact key ks []

theorem sortAllInt_float (d : Dict κ (Dict δ Int)) :
    Spec.floatJudgements (sortAllInt S d) = sortAll S (Spec.floatJudgements d) := by
  unfold sortAllInt sortAll sortDictOfDictByValue Spec.floatJudgements
  rw [sortDictByKey_map (fun x : Dict δ Int => x.map (fun e : δ × Int => (e.1, fl (e.2 : ℚ))))]
  generalize sortDictByKey d = d'
  have hk : Dict.keys (d'.map (fun p => (p.1, p.2.map (fun e : δ × Int => (e.1, fl (e.2 : ℚ)))))) = d'.keys := by
    unfold Dict.keys; rw [List.map_map]; rfl
  have hv : (Dict.values (d'.map (fun p => (p.1, p.2.map (fun e : δ × Int => (e.1, fl (e.2 : ℚ))))))).map (sortDictByValue S) =
      (d'.values.map (sortByValueInt S)).map (List.map (fun e : δ × Int => (e.1, fl (e.2 : ℚ)))) := by
    unfold Dict.values
    rw [List.map_map, List.map_map, List.map_map, List.map_map]
    exact List.map_congr_left (fun p _ => (sortByValueInt_float S p.2).symm)
  rw [hk, hv]
  have := createDict_map (fun x : Dict δ Int => (x.map (fun e : δ × Int => (e.1, fl (e.2 : ℚ))) : Dict δ ℚ)) d'.keys
    (d'.values.map (sortByValueInt S)) []
  refine Eq.trans ?_ (congrArg (fun o => Option.getD o []) this.symm)
  cases createDictFromLists d'.keys (d'.values.map (sortByValueInt S)) [] <;> rfl

/-- **C144** (arrays): whatever the judgements, the arrays handed to the metrics are those of the judgements
rounded to float64 and ranked: every row is in non-increasing order and the rows hold the rounded judgements. -/
theorem C144_arrays (hash : δ → ι) (d : Dict κ (Dict δ Int)) (h : Store.Wf d) :
    rowsInt hash (sortAllInt S d) = Store.rows hash id (sortAll S (Spec.floatJudgements d)) ∧
    (∀ row ∈ rowsInt hash (sortAllInt S d), Spec.Ranked (row.map Prod.snd)) ∧
    (Spec.ExactJudgements d → Spec.floatJudgements d = d.map (fun p => (p.1, p.2.map (fun e : δ × Int => (e.1, (e.2 : ℚ)))))) := by
  have e : rowsInt hash (sortAllInt S d) = Store.rows hash id (sortAll S (Spec.floatJudgements d)) := by
    rw [← sortAllInt_float]
    unfold rowsInt Store.rows Spec.floatJudgements Dict.values
    rw [List.map_map, List.map_map, List.map_map]
    refine List.map_congr_left (fun p _ => ?_)
    simp only [Function.comp, List.map_map]
    rfl
  refine ⟨e, ?_, ?_⟩
  · intro row hrow
    rw [e] at hrow
    have hw : Store.Wf (Spec.floatJudgements d) := by
      refine ⟨?_, ?_⟩
      · have : (Spec.floatJudgements d).keys = d.keys := by
          unfold Spec.floatJudgements Dict.keys; rw [List.map_map]; rfl
        have h1 := h.1
        unfold NodupKeys at *
        change (Dict.keys (Spec.floatJudgements d)).Nodup
        rw [this]; exact h1
      · intro p hp
        obtain ⟨p', hp', rfl⟩ := List.mem_map.1 hp
        have := h.2 p' hp'
        unfold NodupKeys at *
        rw [List.map_map]
        exact this
    simp only [Store.rows, List.mem_map, Dict.values] at hrow
    obtain ⟨inner, ⟨p, hp, rfl⟩, rfl⟩ := hrow
    have := (Store.sortAll_ranked S hw).1 p hp
    rw [List.map_map]
    exact this
  · intro hx
    unfold Spec.floatJudgements
    refine List.map_congr_left (fun p hp => ?_)
    congr 1
    exact List.map_congr_left (fun e he => by rw [fl_int e.2 (hx p hp e he)])

/-- **C144** (order of the Qrels itself): for judgements of at most 2^53 in absolute value, sorting through
float64 is sorting the integers, with one and the same correct argsort for all of them - the sort the other
properties are about. -/
theorem C144_order : ∃ S' : ArgSort Int, ∀ d : Dict κ (Dict δ Int), Store.Wf d → Spec.ExactJudgements d →
    sortAllInt S d = sortAll S' d := by
  obtain ⟨S', hS⟩ := exists_argsort S
  refine ⟨S', fun d hw hx => ?_⟩
  unfold sortAllInt sortAll sortDictOfDictByValue
  have : (sortDictByKey d).values.map (sortByValueInt S) = (sortDictByKey d).values.map (sortDictByValue S') := by
    unfold Dict.values
    rw [List.map_map, List.map_map]
    refine List.map_congr_left (fun p hp => ?_)
    have hp' := (sortDictByKey_perm hw.1).mem_iff.1 hp
    simp only [Function.comp]
    rw [sortByValueInt_put, sortDictByValue_put, hS (p.2.values.map (fun v => -v))]
    intro z hz
    obtain ⟨v, hv, rfl⟩ := List.mem_map.1 hz
    obtain ⟨e, he, rfl⟩ := List.mem_map.1 hv
    rw [abs_neg]
    exact hx p hp' e he
  rw [this]

/-- **C144** (refutation beyond 2^53): a Qrels holding 2^53 and 2^53 + 1 can list the lower judgement first
after `sort()`, and the metrics see the two as equal. -/
theorem C144_beyond : ∃ d : Dict Nat (Dict Nat Int), Store.Wf d ∧
    sortAllInt (ArgSort.stable ℚ) d = [(1, [(7, 2 ^ 53), (8, 2 ^ 53 + 1)])] ∧
    rowsInt id (sortAllInt (ArgSort.stable ℚ) d) = [[(7, 2 ^ 53), (8, 2 ^ 53)]] := by
  refine ⟨[(1, [(7, 2 ^ 53), (8, 2 ^ 53 + 1)])], ⟨?_, ?_⟩, by decide +kernel, by decide +kernel⟩
  · unfold NodupKeys; decide
  · unfold NodupKeys; decide

/-- Non-vacuity of `C144_order` and `C144_arrays`: two queries with judgements out of order. -/
example : Spec.ExactJudgements [((2 : Nat), [((7 : Nat), (1 : Int)), (8, 3)]), (1, [(9, -2), (5, 0)])] ∧
    sortAllInt (ArgSort.stable ℚ) [((2 : Nat), [((7 : Nat), (1 : Int)), (8, 3)]), (1, [(9, -2), (5, 0)])] =
      [(1, [(5, 0), (9, -2)]), (2, [(8, 3), (7, 1)])] ∧
    rowsInt id (sortAllInt (ArgSort.stable ℚ) [((2 : Nat), [((7 : Nat), (1 : Int)), (8, 3)]), (1, [(9, -2), (5, 0)])]) =
      [[(5, 0), (9, -2)], [(8, 3), (7, 1)]] := by
  refine ⟨?_, by decide +kernel, by decide +kernel⟩
  unfold Spec.ExactJudgements
  decide

end Ranx
