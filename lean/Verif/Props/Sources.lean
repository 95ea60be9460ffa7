import Verif.Model.Sources
import Verif.Props.FilesEval
import Verif.Props.FuseContent

/-!
# Property C147: the way in which the data are supplied does not matter
-/

set_option linter.unusedSectionVars false

namespace Ranx
open Dict Store
variable {κ δ β : Type*} [LinearOrder κ] [DecidableEq δ]

/-! ## Specification: a table of facts `(query, doc, value)` -/

/-- Specification: no two rows give different values to the same doc of the same query. -/
def Spec.Consistent (rows : List (κ × δ × β)) : Prop :=
  ∀ r ∈ rows, ∀ r' ∈ rows, r.1 = r'.1 → r.2.1 = r'.2.1 → r.2.2 = r'.2.2

/-- Specification: the store holds exactly the facts of the table. -/
def Spec.Holds (rows : List (κ × δ × β)) (s : Store κ δ β) : Prop :=
  (∀ q, q ∈ s.data.keys ↔ ∃ r ∈ rows, r.1 = q) ∧
  ∀ q d v, (Spec.content s).read q d = some v ↔ (q, d, v) ∈ rows

/-- Specification: a nested Python dictionary with the facts of the table, and no query without docs. -/
structure Spec.DictOf (rows : List (κ × δ × β)) (d : Dict κ (Dict δ β)) : Prop where
  keys : NodupKeys d
  docs : ∀ p ∈ d, NodupKeys p.2
  nonempty : ∀ p ∈ d, p.2 ≠ []
  facts : ∀ q x v, (∃ inner, (q, inner) ∈ d ∧ (x, v) ∈ inner) ↔ (q, x, v) ∈ rows

/-- Specification: `s` was made from the facts of the table, through one of the ways the API offers: a dictionary, a data
frame with the rows in any order, one `add_score` per row in any order, one `add` per query, one `add_multi`.
`S` is the sorting routine. -/
inductive Spec.MadeFrom [LE β] [Neg β] (S : ArgSort β) (rows : List (κ × δ × β)) : Store κ δ β → Prop
  | dict (d : Dict κ (Dict δ β)) (hd : Spec.DictOf rows d) (s : Store κ δ β) (h : Store.ofDict S d = .ok s) :
      Spec.MadeFrom S rows s
  | frame (df : List (κ × δ × β)) (hdf : ∀ r, r ∈ df ↔ r ∈ rows) (s : Store κ δ β)
      (h : fromDataframe S df = .ok s) : Spec.MadeFrom S rows s
  | oneByOne (df : List (κ × δ × β)) (hdf : ∀ r, r ∈ df ↔ r ∈ rows) :
      Spec.MadeFrom S rows ((Store.empty : Store κ δ β).exec S (df.map (fun r => .addScore r.1 r.2.1 r.2.2))).1
  | perQuery (d : Dict κ (Dict δ β)) (hd : Spec.DictOf rows d) :
      Spec.MadeFrom S rows ((Store.empty : Store κ δ β).exec S (d.map (fun p => .add p.1 p.2.keys p.2.values))).1
  | together (d : Dict κ (Dict δ β)) (hd : Spec.DictOf rows d) (hne : rows ≠ []) :
      Spec.MadeFrom S rows
        ((Store.empty : Store κ δ β).addMulti S d.keys (d.values.map Dict.keys) (d.values.map Dict.values)).1

/-! ## Lemmas -/

theorem lastRow_iff {rows df : List (κ × δ × β)} (hc : Spec.Consistent rows) (h : ∀ r, r ∈ df ↔ r ∈ rows) (q : κ)
    (d : δ) (v : β) : Spec.lastRow df q d = some v ↔ (q, d, v) ∈ rows := by
  unfold Spec.lastRow
  constructor
  · intro hl
    rw [Option.map_eq_some_iff] at hl
    obtain ⟨r, hf, rfl⟩ := hl
    have hm := (h r).1 (List.mem_reverse.1 (List.mem_of_find?_eq_some hf))
    have hp := List.find?_some hf
    simp only [decide_eq_true_eq] at hp
    rw [← hp.1, ← hp.2]
    exact hm
  · intro hm
    cases hf : df.reverse.find? (fun r => decide (r.1 = q ∧ r.2.1 = d)) with
    | none =>
      rw [List.find?_eq_none] at hf
      have := hf _ (List.mem_reverse.2 ((h _).2 hm))
      simp at this
    | some r =>
      have hm' := (h r).1 (List.mem_reverse.1 (List.mem_of_find?_eq_some hf))
      have hp := List.find?_some hf
      simp only [decide_eq_true_eq] at hp
      rw [Option.map_some, hc r hm' _ hm hp.1 hp.2]

/-- a store with the content of a dictionary of the facts holds the facts -/
theorem Spec.DictOf.holds {rows : List (κ × δ × β)} {d : Dict κ (Dict δ β)} (hd : Spec.DictOf rows d)
    {s : Store κ δ β} (hw : Wf s.data) (h : Spec.content s = cont d) : Spec.Holds rows s := by
  constructor
  · intro q
    have hq : q ∈ s.data.keys ↔ q ∈ d.keys := by
      rw [← get?_isSome, ← get?_isSome]
      have := congrFun h q
      unfold Spec.content cont at this
      have h2 := congrArg Option.isSome this
      rw [Option.isSome_map, Option.isSome_map] at h2
      rw [h2]
    rw [hq]
    constructor
    · intro hk
      obtain ⟨p, hp, rfl⟩ := List.mem_map.1 hk
      obtain ⟨e, he⟩ := List.exists_mem_of_ne_nil _ (hd.nonempty p hp)
      exact ⟨_, (hd.facts p.1 e.1 e.2).1 ⟨p.2, hp, he⟩, rfl⟩
    · rintro ⟨r, hr, rfl⟩
      obtain ⟨inner, hi, -⟩ := (hd.facts r.1 r.2.1 r.2.2).2 hr
      exact List.mem_map.2 ⟨_, hi, rfl⟩
  · intro q x v
    rw [h, ← hd.facts]
    simp only [Spec.Content.read, cont]
    constructor
    · intro hb
      cases hg : d.get? q with
      | none => rw [hg] at hb; cases hb
      | some inner =>
        rw [hg] at hb
        exact ⟨inner, mem_of_get? hg, mem_of_get? hb⟩
    · rintro ⟨inner, hi, he⟩
      rw [get?_of_mem hd.keys hi]
      exact get?_of_mem (hd.docs _ hi) he

theorem exec_scores (m : Spec.Content κ δ β) (df : List (κ × δ × β)) :
    (∀ q, ((Spec.exec m (df.map (fun r => Op.addScore r.1 r.2.1 r.2.2))).1 q).isSome = true ↔
      ((m q).isSome = true ∨ ∃ r ∈ df, r.1 = q)) ∧
    ∀ q d, (Spec.exec m (df.map (fun r => Op.addScore r.1 r.2.1 r.2.2))).1.read q d =
      (Spec.lastRow df q d).or (m.read q d) := by
  induction df generalizing m with
  | nil => exact ⟨fun q => by simp [Spec.exec], fun q d => rfl⟩
  | cons r t ih =>
    obtain ⟨h1, h2⟩ := ih (Spec.writeOne m r.1 r.2.1 r.2.2)
    have e : (Spec.exec m ((r :: t).map (fun r => Op.addScore r.1 r.2.1 r.2.2))).1 =
        (Spec.exec (Spec.writeOne m r.1 r.2.1 r.2.2) (t.map (fun r => Op.addScore r.1 r.2.1 r.2.2))).1 := rfl
    rw [e]
    constructor
    · intro q
      rw [h1 q]
      unfold Spec.writeOne
      by_cases hq : q = r.1
      · rw [if_pos hq]
        exact iff_of_true (.inl rfl) (.inr ⟨r, List.mem_cons_self, hq.symm⟩)
      · rw [if_neg hq]
        constructor
        · rintro (h | ⟨x, hx, hxq⟩)
          · exact .inl h
          · exact .inr ⟨x, List.mem_cons_of_mem _ hx, hxq⟩
        · rintro (h | ⟨x, hx, hxq⟩)
          · exact .inl h
          · rcases List.mem_cons.1 hx with rfl | hx
            · exact absurd hxq.symm hq
            · exact .inr ⟨x, hx, hxq⟩
    · intro q d
      rw [h2 q d]
      have hl : Spec.lastRow (r :: t) q d =
          (Spec.lastRow t q d).or (if r.1 = q ∧ r.2.1 = d then some r.2.2 else none) := by
        unfold Spec.lastRow
        rw [List.reverse_cons, List.find?_append]
        cases List.find? (fun r => decide (r.1 = q ∧ r.2.1 = d)) t.reverse with
        | some x => rfl
        | none =>
          simp only [Option.map_none, Option.none_or]
          by_cases hp : r.1 = q ∧ r.2.1 = d
          · rw [if_pos hp, List.find?_cons_of_pos (by simpa using hp)]; rfl
          · rw [if_neg hp, List.find?_cons_of_neg (by simpa using hp)]; rfl
      rw [hl, Option.or_assoc]
      congr 1
      unfold Spec.writeOne Spec.Content.read
      beta_reduce
      by_cases hq : q = r.1
      · subst hq
        rw [if_pos rfl]
        by_cases hd : d = r.2.1
        · subst hd
          simp
        · rw [if_neg (fun h => hd h.2.symm)]
          simp [hd]
      · rw [if_neg hq, if_neg (fun h => hq h.1.symm)]; rfl

theorem lastValue_dict (e : Dict δ β) (h : NodupKeys e) : Spec.lastValue e.keys e.values = fun x => e.get? x := by
  have hz : e.keys.zip e.values = e := by
    unfold Dict.keys Dict.values
    rw [List.zip_map', List.map_id']
  funext x
  unfold Spec.lastValue
  rw [hz]
  have := get?_foldl_set e ([] : Dict δ β) x
  rw [foldl_set_of_nodup e [] (by simpa using h), List.nil_append] at this
  rw [this]
  cases List.find? (fun p => decide (p.1 = x)) e.reverse <;> rfl

/-- replacing the queries of `d` one after the other -/
theorem replaceQueries_dict (m : Spec.Content κ δ β) (d : Dict κ (Dict δ β)) (hk : NodupKeys d)
    (hi : ∀ p ∈ d, NodupKeys p.2) :
    Spec.replaceQueries m d.keys (d.values.map Dict.keys) (d.values.map Dict.values) =
      (fun q => (cont d q).or (m q), true) := by
  induction d generalizing m with
  | nil => rfl
  | cons p t ih =>
    have hk' : NodupKeys t := (List.nodup_cons.1 hk).2
    have hp : p.1 ∉ Dict.keys t := (List.nodup_cons.1 hk).1
    change Spec.replaceQueries m (p.1 :: Dict.keys t) (p.2.keys :: (Dict.values t).map Dict.keys)
      (p.2.values :: (Dict.values t).map Dict.values) = _
    unfold Spec.replaceQueries
    rw [if_pos (by simp [Dict.keys, Dict.values]), ih _ hk' (fun e he => hi e (List.mem_cons_of_mem _ he)),
      lastValue_dict p.2 (hi p List.mem_cons_self)]
    congr 1
    funext q
    unfold Spec.replaceQuery cont
    rw [get?_cons]
    by_cases hq : p.1 = q
    · subst hq
      rw [if_pos rfl, if_pos rfl, get?_eq_none.2 hp]
      rfl
    · rw [if_neg hq, if_neg (fun h => hq h.symm)]

theorem exec_adds (m : Spec.Content κ δ β) (d : Dict κ (Dict δ β)) (hk : NodupKeys d)
    (hi : ∀ p ∈ d, NodupKeys p.2) (hne : ∀ p ∈ d, p.2 ≠ []) :
    Spec.exec m (d.map (fun p => Op.add p.1 p.2.keys p.2.values)) =
      (fun q => (cont d q).or (m q), d.map (fun _ => true)) := by
  induction d generalizing m with
  | nil => rfl
  | cons p t ih =>
    have hk' : NodupKeys t := (List.nodup_cons.1 hk).2
    have hp : p.1 ∉ Dict.keys t := (List.nodup_cons.1 hk).1
    have hpn := hne p List.mem_cons_self
    have hs : Spec.step m (Op.add p.1 p.2.keys p.2.values) = (Spec.replaceQuery m p.1 (fun x => p.2.get? x), true) := by
      unfold Spec.step
      have e1 : p.2.keys.isEmpty = false := by
        cases h : p.2 with
        | nil => exact absurd h hpn
        | cons a b => rfl
      have e2 : p.2.values.isEmpty = false := by
        cases h : p.2 with
        | nil => exact absurd h hpn
        | cons a b => rfl
      simp only [e1, e2, Bool.or_self, Bool.false_eq_true, if_false, Spec.replaceQueries]
      rw [if_pos (by simp [Dict.keys, Dict.values]), lastValue_dict p.2 (hi p List.mem_cons_self)]
    rw [List.map_cons]
    unfold Spec.exec
    rw [hs]
    simp only
    rw [ih _ hk' (fun e he => hi e (List.mem_cons_of_mem _ he)) (fun e he => hne e (List.mem_cons_of_mem _ he))]
    congr 1
    funext q
    unfold Spec.replaceQuery cont
    dsimp only
    rw [get?_cons]
    by_cases hq : p.1 = q
    · subst hq
      rw [if_pos rfl, if_pos rfl, get?_eq_none.2 hp]
      rfl
    · rw [if_neg hq, if_neg (fun h => hq h.symm)]

theorem cont_empty : Spec.content (Store.empty : Store κ δ β) = fun _ => none := rfl

section
variable [LE β] [Neg β] {S : ArgSort β}

/-- the empty store, after calls none of which raised -/
theorem usable_of_empty (os : List (Op κ δ β))
    (h : ∀ b ∈ (Spec.exec (fun _ => none : Spec.Content κ δ β) os).2, b = true) :
    Spec.Usable S ((Store.empty : Store κ δ β).exec S os).1 := by
  refine ⟨Store.empty, os, ⟨[], List.nodup_nil, (fun p hp => by cases hp), .inl rfl⟩, rfl, ?_⟩
  rw [(C01_history_refines_map (S := S) _ .new os).2, cont_empty]
  intro e he
  rw [List.mem_iff_getElem] at he
  obtain ⟨i, hi, rfl⟩ := he
  rw [List.getElem_zipWith, if_pos (h _ (List.getElem_mem _))]

theorem exec_scores_ok (m : Spec.Content κ δ β) (df : List (κ × δ × β)) :
    ∀ b ∈ (Spec.exec m (df.map (fun r => Op.addScore r.1 r.2.1 r.2.2))).2, b = true := by
  induction df generalizing m with
  | nil => intro b hb; cases hb
  | cons r t ih =>
    intro b hb
    rcases List.mem_cons.1 hb with rfl | hb
    · rfl
    · exact ih _ b hb

/-- the constructor on a dictionary of a non-empty table -/
theorem Spec.DictOf.ofDict {rows : List (κ × δ × β)} {d : Dict κ (Dict δ β)} (hd : Spec.DictOf rows d)
    (hne : rows ≠ []) : Store.ofDict S d = .ok ⟨sortAll S d, true⟩ := by
  rw [ofDict_eq S d ⟨hd.keys, hd.docs⟩, if_neg]
  intro hall
  obtain ⟨r, hr⟩ := List.exists_mem_of_ne_nil _ hne
  obtain ⟨inner, hi, he⟩ := (hd.facts r.1 r.2.1 r.2.2).2 hr
  rw [List.all_eq_true] at hall
  have := hall inner (List.mem_map.2 ⟨_, hi, rfl⟩)
  rw [List.isEmpty_iff] at this
  exact hd.nonempty _ hi this

theorem usable_ofDict {d : Dict κ (Dict δ β)} (hk : NodupKeys d) (hi : ∀ p ∈ d, NodupKeys p.2) {s : Store κ δ β}
    (h : Store.ofDict S d = .ok s) : Spec.Usable S s :=
  ⟨s, [], ⟨d, hk, hi, .inr h⟩, rfl, fun e he => by cases he⟩

theorem fromDataframe_eq (df : List (κ × δ × β)) : fromDataframe S df = Store.ofDict S (dataframeToDict df) := rfl

omit [LE β] [Neg β] in
theorem dataframeToDict_wf (df : List (κ × δ × β)) :
    NodupKeys (dataframeToDict df) ∧ ∀ p ∈ dataframeToDict df, NodupKeys p.2 := by
  constructor
  · rw [nodupKeys_iff]
    have : (dataframeToDict df).keys = isort (fun a b => decide (a ≤ b)) ((df.map (fun r => r.1)).dedup) := by
      simp [dataframeToDict, Dict.keys, Function.comp_def]
    rw [this]
    exact (isort_perm _ _).nodup_iff.2 (List.nodup_dedup _)
  · intro p hp
    obtain ⟨q, _, rfl⟩ := List.mem_map.1 hp
    exact nodupKeys_ofList _

/-- **C147** (content): however the facts of a table are supplied, the object holds exactly these facts, and it is one that
all functions of the API accept. -/
theorem C147_content {rows : List (κ × δ × β)} (hc : Spec.Consistent rows) {s : Store κ δ β}
    (h : Spec.MadeFrom S rows s) : Spec.Usable S s ∧ Spec.Holds rows s := by
  cases h with
  | dict d hd s h =>
    have hu := usable_ofDict hd.keys hd.docs h
    have hw : Wf d := ⟨hd.keys, hd.docs⟩
    rw [ofDict_eq S d hw] at h
    by_cases he : d.values.all (fun x => x.isEmpty) = true
    · rw [if_pos he] at h; cases h
    · rw [if_neg he] at h
      cases h
      refine ⟨hu, hd.holds (hw.sortAll S) ?_⟩
      rw [content_eq, cont_sortAll S hw]
  | frame df hdf s h =>
    have hu : Spec.Usable S s := by
      rw [fromDataframe_eq] at h
      exact usable_ofDict (dataframeToDict_wf df).1 (dataframeToDict_wf df).2 h
    have hne : df ≠ [] := by
      rintro rfl
      rw [(C08_from_df (S := S) _).1 rfl] at h
      cases h
    obtain ⟨s', hs', -, hk, hr⟩ := (C08_from_df (S := S) df).2 hne
    rw [hs'] at h
    cases h
    refine ⟨hu, fun q => ?_, fun q d v => ?_⟩
    · rw [hk]
      simp only [hdf]
    · rw [hr, lastRow_iff hc hdf]
  | oneByOne df hdf =>
    refine ⟨usable_of_empty _ (exec_scores_ok _ df), ?_⟩
    have hcont := C01_from_empty (S := S) (df.map (fun r => Op.addScore r.1 r.2.1 r.2.2))
    obtain ⟨h1, h2⟩ := exec_scores (fun _ => none : Spec.Content κ δ β) df
    refine ⟨fun q => ?_, fun q d v => ?_⟩
    · have := h1 q
      rw [← hcont] at this
      unfold Spec.content at this
      rw [Option.isSome_map, get?_isSome] at this
      rw [this]
      simp [hdf]
    · rw [hcont, h2, ← lastRow_iff hc hdf]
      have : Spec.Content.read (fun _ => none : Spec.Content κ δ β) q d = none := rfl
      rw [this, Option.or_none]
  | perQuery d hd =>
    have he := exec_adds (fun _ => none : Spec.Content κ δ β) d hd.keys hd.docs hd.nonempty
    refine ⟨usable_of_empty _ ?_, hd.holds (Reachable.new.exec _).wf ?_⟩
    · rw [he]
      intro b hb
      obtain ⟨_, _, rfl⟩ := List.mem_map.1 hb
      rfl
    · rw [C01_from_empty, he]
      funext q
      exact Option.or_none
  | together d hd hne =>
    have hu : untyped d.keys (d.values.map Dict.keys) (d.values.map Dict.values) = false := by
      obtain ⟨r, hr⟩ := List.exists_mem_of_ne_nil _ hne
      obtain ⟨inner, hi, -⟩ := (hd.facts r.1 r.2.1 r.2.2).2 hr
      have hdn : d ≠ [] := List.ne_nil_of_mem hi
      have e1 : d.keys.isEmpty = false := by
        cases h : d with
        | nil => exact absurd h hdn
        | cons a b => rfl
      have e2 : (d.values.map Dict.keys).isEmpty = false := by
        cases h : d with
        | nil => exact absurd h hdn
        | cons a b => rfl
      have e3 : (d.values.map Dict.values).isEmpty = false := by
        cases h : d with
        | nil => exact absurd h hdn
        | cons a b => rfl
      have e4 : (d.values.map Dict.keys).any List.isEmpty = false := by
        rw [List.any_eq_false]
        intro x hx hx'
        obtain ⟨v, hv, rfl⟩ := List.mem_map.1 hx
        obtain ⟨p, hp, rfl⟩ := List.mem_map.1 hv
        exact hd.nonempty p hp (List.map_eq_nil_iff.1 (List.isEmpty_iff.1 hx'))
      have e5 : (d.values.map Dict.values).any List.isEmpty = false := by
        rw [List.any_eq_false]
        intro x hx hx'
        obtain ⟨v, hv, rfl⟩ := List.mem_map.1 hx
        obtain ⟨p, hp, rfl⟩ := List.mem_map.1 hv
        exact hd.nonempty p hp (List.map_eq_nil_iff.1 (List.isEmpty_iff.1 hx'))
      unfold untyped
      rw [e1, e2, e3, e4, e5]
      rfl
    have hs : Spec.step (fun _ => none : Spec.Content κ δ β)
        (Op.addMulti d.keys (d.values.map Dict.keys) (d.values.map Dict.values)) = (cont d, true) := by
      unfold Spec.step
      unfold untyped at hu
      simp only
      rw [if_neg (by rw [hu]; exact Bool.false_ne_true),
        replaceQueries_dict _ d hd.keys hd.docs]
      congr 1
      funext q
      exact Option.or_none
    have hex : Spec.exec (fun _ => none : Spec.Content κ δ β)
        [Op.addMulti d.keys (d.values.map Dict.keys) (d.values.map Dict.values)] = (cont d, [true]) := by
      unfold Spec.exec
      rw [hs]
      rfl
    have hex' : ((Store.empty : Store κ δ β).addMulti S d.keys (d.values.map Dict.keys) (d.values.map Dict.values)).1 =
        ((Store.empty : Store κ δ β).exec S
          [Op.addMulti d.keys (d.values.map Dict.keys) (d.values.map Dict.values)]).1 := rfl
    rw [hex']
    refine ⟨usable_of_empty _ ?_, hd.holds (Reachable.new.exec _).wf ?_⟩
    · rw [hex]
      intro b hb
      rcases List.mem_cons.1 hb with rfl | hb
      · rfl
      · cases hb
    · rw [C01_from_empty, hex]

/-- **C147** (success): for a consistent, non-empty table every way of supplying it succeeds. -/
theorem C147_succeeds {rows : List (κ × δ × β)} (hne : rows ≠ []) :
    (∀ d, Spec.DictOf rows d → ∃ s, Store.ofDict S d = .ok s) ∧
    (∀ df, (∀ r, r ∈ df ↔ r ∈ rows) → ∃ s, fromDataframe S df = .ok s) ∧
    (∀ df : List (κ × δ × β), ∀ e ∈ ((Store.empty : Store κ δ β).exec S
      (df.map (fun r => .addScore r.1 r.2.1 r.2.2))).2, e = none) ∧
    (∀ d, Spec.DictOf rows d → ∀ e ∈ ((Store.empty : Store κ δ β).exec S
      (d.map (fun p => .add p.1 p.2.keys p.2.values))).2, e = none) := by
  refine ⟨fun d hd => ⟨_, hd.ofDict hne⟩, fun df hdf => ?_, fun df => ?_, fun d hd => ?_⟩
  · have : df ≠ [] := by
      rintro rfl
      obtain ⟨r, hr⟩ := List.exists_mem_of_ne_nil _ hne
      cases (hdf r).2 hr
    obtain ⟨s, hs, -⟩ := (C08_from_df (S := S) df).2 this
    exact ⟨s, hs⟩
  · rw [(C01_history_refines_map (S := S) _ .new _).2, cont_empty]
    intro e he
    rw [List.mem_iff_getElem] at he
    obtain ⟨i, hi, rfl⟩ := he
    rw [List.getElem_zipWith, if_pos (exec_scores_ok _ df _ (List.getElem_mem _))]
  · rw [(C01_history_refines_map (S := S) _ .new _).2, cont_empty,
      exec_adds (fun _ => none : Spec.Content κ δ β) d hd.keys hd.docs hd.nonempty]
    intro e he
    rw [List.mem_iff_getElem] at he
    obtain ⟨i, hi, rfl⟩ := he
    rw [List.getElem_zipWith, if_pos]
    simp

end

/-- **C147** (`dataframe_to_dict`): the dictionary has the queries of the rows, each once, and for every query and doc the
value of the last row about them. -/
theorem C147_dataframe_to_dict (df : List (κ × δ × β)) :
    NodupKeys (dataframeToDict df) ∧ (∀ p ∈ dataframeToDict df, NodupKeys p.2) ∧
    (∀ q, q ∈ (dataframeToDict df).keys ↔ ∃ r ∈ df, r.1 = q) ∧
    ∀ q x, (((dataframeToDict df).get? q).bind (fun e => e.get? x)) = Spec.lastRow df q x := by
  refine ⟨(dataframeToDict_wf df).1, (dataframeToDict_wf df).2, fun q => ?_, fun q x => ?_⟩
  · have : (dataframeToDict df).keys = isort (fun a b => decide (a ≤ b)) ((df.map (fun r => r.1)).dedup) := by
      simp [dataframeToDict, Dict.keys, Function.comp_def]
    rw [this, (isort_perm _ _).mem_iff, List.mem_dedup, List.mem_map]
  · have hm : ∀ q, q ∈ (dataframeToDict df).keys ↔ ∃ r ∈ df, r.1 = q := by
      intro q
      have : (dataframeToDict df).keys = isort (fun a b => decide (a ≤ b)) ((df.map (fun r => r.1)).dedup) := by
        simp [dataframeToDict, Dict.keys, Function.comp_def]
      rw [this, (isort_perm _ _).mem_iff, List.mem_dedup, List.mem_map]
    by_cases hq : q ∈ (dataframeToDict df).keys
    · obtain ⟨p, hp, rfl⟩ := List.mem_map.1 hq
      have hp' := hp
      obtain ⟨q, _, rfl⟩ := List.mem_map.1 hp'
      rw [get?_of_mem (dataframeToDict_wf df).1 hp, Option.bind_some, group_get?]
    · rw [get?_eq_none.2 hq, Option.bind_none]
      symm
      unfold Spec.lastRow
      rw [Option.map_eq_none_iff, List.find?_eq_none]
      intro r hr hc
      simp only [decide_eq_true_eq] at hc
      exact hq ((hm q).2 ⟨r, List.mem_reverse.1 hr, hc.1⟩)

open Py in
/-- **C147** (`from_ir_datasets`): the qrels of a data set are the qrels of its dictionary, named after the data set;
exceptions of the loader are passed on, a data set without judgements raises ValueError. -/
theorem C147_from_ir_datasets (S : ArgSort Int) (load : Str → Except Err (Dict κ (Dict δ Int))) (id : Str) :
    (∀ e, load id = .error e → fromIrDatasets S load id = .error e) ∧
    ∀ d, load id = .ok d → NodupKeys d → (∀ p ∈ d, NodupKeys p.2) →
      ((∀ p ∈ d, p.2 = []) → fromIrDatasets S load id = .error .valueError) ∧
      ((∃ p ∈ d, p.2 ≠ []) → ∃ s, fromIrDatasets S load id = .ok (s, id) ∧ Spec.Usable S s ∧
        (∀ q, q ∈ s.data.keys ↔ q ∈ d.keys) ∧
        ∀ q x, (Spec.content s).read q x = (d.get? q).bind (fun e => e.get? x)) := by
  constructor
  · intro e he
    unfold fromIrDatasets
    rw [he]
  · intro d hd hk hi
    have hw : Wf d := ⟨hk, hi⟩
    constructor
    · intro hall
      unfold fromIrDatasets
      rw [hd]
      simp only
      rw [ofDict_eq S d hw, if_pos]
      rw [List.all_eq_true]
      intro x hx
      obtain ⟨p, hp, rfl⟩ := List.mem_map.1 hx
      rw [hall p hp]
      rfl
    · rintro ⟨p, hp, hpn⟩
      have hof : Store.ofDict S d = .ok ⟨sortAll S d, true⟩ := by
        rw [ofDict_eq S d hw, if_neg]
        intro hall
        rw [List.all_eq_true] at hall
        exact hpn (List.isEmpty_iff.1 (hall p.2 (List.mem_map.2 ⟨p, hp, rfl⟩)))
      refine ⟨⟨sortAll S d, true⟩, ?_, usable_ofDict hk hi hof, fun q => mem_keys_sortAll S hk q, fun q x => ?_⟩
      · unfold fromIrDatasets
        rw [hd]
        simp only
        rw [hof]
      · rw [content_eq]
        change (cont (sortAll S d)).read q x = _
        rw [cont_sortAll S hw]
        unfold cont Spec.Content.read
        beta_reduce
        cases d.get? q <;> rfl

/-- two objects holding the same table have the same content -/
theorem Spec.Holds.same {rows : List (κ × δ × β)} {s s' : Store κ δ β} (h : Spec.Holds rows s) (h' : Spec.Holds rows s') :
    (∀ q, q ∈ s.data.keys ↔ q ∈ s'.data.keys) ∧ ∀ q d, (Spec.content s).read q d = (Spec.content s').read q d := by
  refine ⟨fun q => (h.1 q).trans (h'.1 q).symm, fun q d => ?_⟩
  apply Option.ext
  intro v
  exact (h.2 q d v).trans (h'.2 q d v).symm

/-! ## files -/

section
open Py Files
variable {B BQ α : Type*}

/-- Specification: a run made from the table: through the API or from a TREC file whose lines are the rows, in any order
and with any spacing, ranks and run names. -/
inductive Spec.RunMadeFrom [LE α] [Neg α] (C : Codec B α) (T : FloatText α) (S : ArgSort α)
    (rows : List (Str × Str × α)) : Store Str Str α → Prop
  | api (s : Store Str Str α) (h : Spec.MadeFrom S rows s) : Spec.RunMadeFrom C T S rows s
  | trec (bytes : B) (text path : Str) (kind given : Option Str) (hk : runKind path kind = .ok .trec)
      (hb : C.decodeText bytes = .ok text) (ls : List Str) (hl : Files.Spec.Lines text ls)
      (df : List (Str × Str × α)) (hdf : ∀ r, r ∈ df ↔ r ∈ rows)
      (h : List.Forall₂ (fun l r => ∃ n, Spec.RunLine T l r.1 r.2.1 r.2.2 n) ls df)
      (r : RunFile α) (hr : loadRun C T S bytes path kind given = .ok r) : Spec.RunMadeFrom C T S rows r.store

/-- Specification: the same for qrels, which may also come from `ir_datasets`. -/
inductive Spec.QrelsMadeFrom (C : Codec B Int) (S : ArgSort Int) (rows : List (Str × Str × Int)) :
    Store Str Str Int → Prop
  | api (s : Store Str Str Int) (h : Spec.MadeFrom S rows s) : Spec.QrelsMadeFrom C S rows s
  | ir (load : Str → Except Err (Dict Str (Dict Str Int))) (id : Str) (d : Dict Str (Dict Str Int))
      (hd : load id = .ok d) (h : Spec.DictOf rows d) (s : Store Str Str Int) (name : Str)
      (hs : fromIrDatasets S load id = .ok (s, name)) : Spec.QrelsMadeFrom C S rows s
  | trec (bytes : B) (text path : Str) (kind : Option Str) (hk : qrelsKind path kind = .ok .trec)
      (hb : C.decodeText bytes = .ok text) (ls : List Str) (hl : Files.Spec.Lines text ls)
      (df : List (Str × Str × Int)) (hdf : ∀ r, r ∈ df ↔ r ∈ rows)
      (h : List.Forall₂ (fun l r => Spec.QrelsLine l r.1 r.2.1 r.2.2) ls df)
      (s : Store Str Str Int) (hs : loadQrels C S bytes path kind = .ok s) : Spec.QrelsMadeFrom C S rows s

/-- building the dictionary line by line, then the object -/
theorem assign_holds {α : Type*} [LE α] [Neg α] {S : ArgSort α} {rows df : List (Str × Str × α)}
    (hc : Spec.Consistent rows) (hdf : ∀ r, r ∈ df ↔ r ∈ rows) {s : Store Str Str α}
    (h : Store.ofDict S (assign [] df) = .ok s) : Spec.Usable S s ∧ Spec.Holds rows s := by
  have hwf : Wf (assign [] df) := wf_assign df [] Ranx.wf_nil
  have hu := usable_ofDict hwf.1 hwf.2 h
  rw [ofDict_eq S _ hwf] at h
  by_cases he : (assign [] df).values.all (fun x => x.isEmpty) = true
  · rw [if_pos he] at h; cases h
  · rw [if_neg he] at h
    cases h
    refine ⟨hu, fun q => ?_, fun q d v => ?_⟩
    · change q ∈ keys (sortAll S _) ↔ _
      rw [mem_keys_sortAll S hwf.1, mem_keys_assign]
      constructor
      · rintro (h | ⟨r, hr, rfl⟩)
        · cases h
        · exact ⟨r, (hdf r).1 hr, rfl⟩
      · rintro ⟨r, hr, rfl⟩
        exact .inr ⟨r, (hdf r).2 hr, rfl⟩
    · rw [content_eq]
      change (cont (sortAll S _)).read q d = some v ↔ _
      rw [cont_sortAll S hwf, read_assign_nil, lastRow_iff hc hdf]

/-- **C147** (runs): through the API or from a TREC file, the run holds exactly the facts of the table. -/
theorem C147_run [LE α] [Neg α] (C : Codec B α) (T : FloatText α) {S : ArgSort α} {rows : List (Str × Str × α)}
    (hc : Spec.Consistent rows) {s : Store Str Str α} (h : Spec.RunMadeFrom C T S rows s) :
    Spec.Usable S s ∧ Spec.Holds rows s := by
  cases h with
  | api _ h => exact C147_content hc h
  | trec bytes text path kind given hk hb ls hl df hdf h r hr =>
    have hmap : ls.map (runFact T) = df.map some := by
      clear hl hdf
      induction h with
      | nil => rfl
      | cons h1 _ ih =>
        obtain ⟨n, hn⟩ := h1
        rw [List.map_cons, List.map_cons, ih, (runFact_some hn).1]
    simp only [loadRun, hk] at hr
    rw [if_neg (by decide), hb] at hr
    simp only [runOfText, lines_iff.1 hl, parseRun_ok T ls [] given df hmap] at hr
    cases hof : Store.ofDict S (assign [] df) with
    | error e => rw [hof] at hr; cases hr
    | ok st =>
      rw [hof] at hr
      cases hr
      exact assign_holds hc hdf hof

/-- **C147** (qrels): through the API, from `ir_datasets` or from a TREC file, the qrels hold exactly the facts of the
table. -/
theorem C147_qrels (C : Codec B Int) {S : ArgSort Int} {rows : List (Str × Str × Int)}
    (hc : Spec.Consistent rows) {s : Store Str Str Int} (h : Spec.QrelsMadeFrom C S rows s) :
    Spec.Usable S s ∧ Spec.Holds rows s := by
  cases h with
  | api _ h => exact C147_content hc h
  | ir load id d hd h _ name hs =>
    unfold fromIrDatasets at hs
    rw [hd] at hs
    simp only at hs
    cases hof : Store.ofDict S d with
    | error e => rw [hof] at hs; cases hs
    | ok st =>
      rw [hof] at hs
      cases hs
      exact C147_content hc (.dict d h _ hof)
  | trec bytes text path kind hk hb ls hl df hdf h _ hs =>
    have hmap : ls.map qrelsFact = df.map some := by
      clear hl hdf
      induction h with
      | nil => rfl
      | cons h1 _ ih => rw [List.map_cons, List.map_cons, ih, qrelsFact_some h1]
    simp only [loadQrels, hk] at hs
    rw [if_neg (by decide), hb] at hs
    simp only [lines_iff.1 hl, parseQrels_ok ls [] df hmap] at hs
    exact assign_holds hc hdf hs

open Eval Metrics in
/-- **C147** (evaluate): the result of an evaluation - means, scores or exception - depends on the tables only: qrels
supplied in two ways and runs supplied in two ways, whatever the order of rows and lines, give the same result, if the
run has no ties and the hash tells the judged docs of each query apart. -/
theorem C147_evaluate {ι : Type*} [LinearOrder ι] [Field α] [LinearOrder α] [IsStrictOrderedRing α] (F : Fn α)
    (other : Str → Except Err α) (CQ : Codec BQ Int) (C : Codec B α) (T : FloatText α) (SQ SQ' : ArgSort Int)
    (SR SR' : ArgSort α) (hash : Str → ι) (sched : Nat → List Nat) (o : Opts) (ms : List Str)
    (qrows : List (Str × Str × Int)) (rows : List (Str × Str × α)) (hq : Spec.Consistent qrows)
    (hr : Spec.Consistent rows)
    (ha : ∀ r ∈ qrows, ∀ r' ∈ qrows, r.1 = r'.1 → hash r.2.1 = hash r'.2.1 → r.2.1 = r'.2.1)
    (htie : ∀ r ∈ rows, ∀ r' ∈ rows, r.1 = r'.1 → r.2.2 = r'.2.2 → r.2.1 = r'.2.1)
    (s s' : Store Str Str Int) (r r' : Store Str Str α) (hs : Spec.QrelsMadeFrom CQ SQ qrows s)
    (hs' : Spec.QrelsMadeFrom CQ SQ' qrows s') (h : Spec.RunMadeFrom C T SR rows r)
    (h' : Spec.RunMadeFrom C T SR' rows r') :
    (evaluate F other SQ SR hash sched o (.obj s) (.obj ⟨r, [], [], []⟩) ms).2 =
      (evaluate F other SQ' SR' hash sched o (.obj s') (.obj ⟨r', [], [], []⟩) ms).2 := by
  obtain ⟨q1, q2⟩ := C147_qrels CQ hq hs
  obtain ⟨q1', q2'⟩ := C147_qrels CQ hq hs'
  obtain ⟨r1, r2⟩ := C147_run C T hr h
  obtain ⟨r1', r2'⟩ := C147_run C T hr h'
  refine evaluate_content_ok F other SQ SQ' SR SR' hash sched o s s' ⟨r, [], [], []⟩ ⟨r', [], [], []⟩ ms q1.ok q1'.ok
    r1.ok r1'.ok (q2.same q2').1 (q2.same q2').2 ?_ (r2.same r2').1 (r2.same r2').2 ?_
  · intro q _ d d' v v' h1 h2 he
    exact ha _ ((q2.2 q d v).1 h1) _ ((q2.2 q d' v').1 h2) rfl he
  · intro q d d' v h1 h2
    exact htie _ ((r2.2 q d v).1 h1) _ ((r2.2 q d' v).1 h2) rfl rfl

end

open Fuse in
/-- **C147** (fuse): runs supplied in two ways fuse to runs with the same content, for every method on scores and every
normalization but borda and rank (these look at positions; see C99). -/
theorem C147_fuse (E E' : Env δ) (S S' : ArgSort ℝ) (tables : List (List (κ × δ × ℝ)))
    (hc : ∀ t ∈ tables, Spec.Consistent t) (runs runs' : List (Store κ δ ℝ)) (hn : 2 ≤ runs.length)
    (h : List.Forall₂ (Spec.MadeFrom S) tables runs) (h' : List.Forall₂ (Spec.MadeFrom S') tables runs')
    (hq : Spec.SameQueries runs) (hE : Spec.SchedulesCover E runs) (hE' : Spec.SchedulesCover E' runs')
    (norm : Option String) (k : Option Norm.Kind) (hk : Spec.NormNamed norm k) (hr : k ≠ some .rank)
    (name : String) (params : Kwargs) (R : List (Dict κ (Norm.Results δ ℝ)) → κ → δ → ℝ → Prop)
    (hR : Spec.ScoreRule (runs.map (fun s => s.data)) name params R) :
    ∃ out out', fuse E runs norm name (some params) = .ok out ∧ fuse E' runs' norm name (some params) = .ok out' ∧
      ∀ q, Spec.content out q = Spec.content out' q := by
  have key : ∀ (t : List (κ × δ × ℝ)) (s s' : Store κ δ ℝ), Spec.Consistent t → Spec.MadeFrom S t s →
      Spec.MadeFrom S' t s' → ∀ q, Spec.content s q = Spec.content s' q := by
    intro t s s' ht h1 h2 q
    have e := (C147_content ht h1).2.same (C147_content ht h2).2
    have e1 := e.1 q
    have e2 := e.2 q
    unfold Spec.content Spec.Content.read at e2
    beta_reduce at e2
    rw [← get?_isSome, ← get?_isSome] at e1
    unfold Spec.content
    cases hs : s.data.get? q with
    | none =>
      cases hs' : s'.data.get? q with
      | none => rfl
      | some b => rw [hs, hs'] at e1; simp at e1
    | some a =>
      cases hs' : s'.data.get? q with
      | none => rw [hs, hs'] at e1; simp at e1
      | some b =>
        rw [hs, hs'] at e2
        change some _ = some _
        congr 1
        funext d
        exact e2 d
  have wf : ∀ (S : ArgSort ℝ) (l : List (Store κ δ ℝ)), List.Forall₂ (Spec.MadeFrom S) tables l →
      ∀ s ∈ l, Wf s.data := by
    intro S l hl s hs
    clear h h' hR
    induction hl with
    | nil => cases hs
    | cons h1 _ ih =>
      rcases List.mem_cons.1 hs with rfl | hs
      · exact ((C147_content (hc _ List.mem_cons_self) h1).1.ok).1
      · exact ih (fun t ht => hc t (List.mem_cons_of_mem _ ht)) hs
  refine C99_score_methods E E' runs runs' hn (wf S runs h) (wf S' runs' h') ?_ hq hE hE' norm k hk hr name params R hR
  clear hn hq hE hE' hR wf
  unfold Spec.SameContents
  induction h generalizing runs' with
  | nil => cases h'; exact .nil
  | cons h1 _ ih =>
    cases h' with
    | cons h2 t2 =>
      exact .cons (key _ _ _ (hc _ List.mem_cons_self) h1 h2)
        (ih (fun t ht => hc t (List.mem_cons_of_mem _ ht)) _ t2)

/-! ### non-vacuity -/

section
open Py Files

def exTableQ : List (Str × Str × Int) := [("q1".toList, "d1".toList, 1), ("q1".toList, "d2".toList, 2)]
def exTableR : List (Str × Str × ℚ) := [("q1".toList, "d2".toList, 1), ("q1".toList, "d3".toList, 5 / 2)]

/-- the judgements as a TREC file, the other way round, with odd spacing and a Windows line end -/
def exTableText : Str := "q1 0 d2  2\r\n\tq1 x d1 1".toList

theorem exTableQ_dict : Spec.DictOf exTableQ [("q1".toList, [("d2".toList, 2), ("d1".toList, 1)])] := by
  refine ⟨by unfold NodupKeys; decide +kernel, by unfold NodupKeys; decide +kernel, by decide +kernel, ?_⟩
  intro q x v
  simp only [List.mem_singleton, Prod.mk.injEq, exTableQ, List.mem_cons, List.not_mem_nil, or_false]
  constructor
  · rintro ⟨inner, ⟨rfl, rfl⟩, h⟩
    simp only [List.mem_cons, Prod.mk.injEq, List.not_mem_nil, or_false] at h
    rcases h with ⟨rfl, rfl⟩ | ⟨rfl, rfl⟩
    · exact .inr ⟨rfl, rfl, rfl⟩
    · exact .inl ⟨rfl, rfl, rfl⟩
  · rintro (⟨rfl, rfl, rfl⟩ | ⟨rfl, rfl, rfl⟩)
    · exact ⟨_, ⟨rfl, rfl⟩, by decide +kernel⟩
    · exact ⟨_, ⟨rfl, rfl⟩, by decide +kernel⟩

/-- the hypotheses of `C147_evaluate` are met: judgements from a dictionary and from a TREC file, a run by `add_score` and
from a data frame with the rows reversed -/
example : Spec.Consistent exTableQ ∧ Spec.Consistent exTableR ∧
    (∀ r ∈ exTableQ, ∀ r' ∈ exTableQ, r.1 = r'.1 → id r.2.1 = id r'.2.1 → r.2.1 = r'.2.1) ∧
    (∀ r ∈ exTableR, ∀ r' ∈ exTableR, r.1 = r'.1 → r.2.2 = r'.2.2 → r.2.1 = r'.2.1) ∧
    (∃ s, Store.ofDict (ArgSort.stable Int) [("q1".toList, [("d2".toList, 2), ("d1".toList, 1)])] = .ok s ∧
      Spec.QrelsMadeFrom (exCodecOf Int) (ArgSort.stable Int) exTableQ s) ∧
    (∃ s, loadQrels (exCodecOf Int) (ArgSort.stable Int) (.text exTableText) "qrels.txt".toList none = .ok s ∧
      Spec.QrelsMadeFrom (exCodecOf Int) (ArgSort.stable Int) exTableQ s) ∧
    (∃ s, fromDataframe (ArgSort.stable ℚ) exTableR.reverse = .ok s ∧
      Spec.RunMadeFrom (exCodecOf ℚ) exRatText (ArgSort.stable ℚ) exTableR s) ∧
    Spec.RunMadeFrom (exCodecOf ℚ) exRatText (ArgSort.stable ℚ) exTableR
      ((Store.empty : Store Str Str ℚ).exec (ArgSort.stable ℚ)
        (exTableR.map (fun r => .addScore r.1 r.2.1 r.2.2))).1 := by
  refine ⟨by unfold Spec.Consistent; decide +kernel, by unfold Spec.Consistent; decide +kernel, by decide +kernel,
    by decide +kernel, ?_, ?_, ?_, .api _ (.oneByOne _ (fun _ => Iff.rfl))⟩
  · exact ⟨_, exTableQ_dict.ofDict (by decide), .api _ (.dict _ exTableQ_dict _ (exTableQ_dict.ofDict (by decide)))⟩
  · have hl : Files.Spec.Lines exTableText ["q1 0 d2  2".toList, "\tq1 x d1 1".toList] := by
      rw [lines_iff]
      decide +kernel
    have h : List.Forall₂ (fun l (r : Str × Str × Int) => Spec.QrelsLine l r.1 r.2.1 r.2.2)
        ["q1 0 d2  2".toList, "\tq1 x d1 1".toList] exTableQ.reverse := by
      refine .cons ⟨"0".toList, "2".toList, ?_, by decide +kernel⟩
        (.cons ⟨"x".toList, "1".toList, ?_, by decide +kernel⟩ .nil)
      · rw [fields_iff]; decide +kernel
      · rw [fields_iff]; decide +kernel
    have hmap : ["q1 0 d2  2".toList, "\tq1 x d1 1".toList].map qrelsFact = exTableQ.reverse.map some := by
      decide +kernel
    have hof : Store.ofDict (ArgSort.stable Int) (assign [] exTableQ.reverse) =
        .ok ⟨sortAll (ArgSort.stable Int) (assign [] exTableQ.reverse), true⟩ := by
      rw [ofDict_eq _ _ (wf_assign _ [] Ranx.wf_nil), if_neg (assign_not_all _ (by decide))]
    have hk : qrelsKind "qrels.txt".toList none = .ok .trec := by decide +kernel
    have hload : loadQrels (exCodecOf Int) (ArgSort.stable Int) (.text exTableText) "qrels.txt".toList none =
        .ok ⟨sortAll (ArgSort.stable Int) (assign [] exTableQ.reverse), true⟩ := by
      simp only [loadQrels, hk]
      rw [if_neg (by decide)]
      have : (exCodecOf Int).decodeText (.text exTableText) = .ok exTableText := rfl
      rw [this]
      simp only [lines_iff.1 hl, parseQrels_ok _ [] _ hmap, hof]
    exact ⟨_, hload, .trec _ _ _ _ hk rfl _ hl _ (fun r => List.mem_reverse) h _ hload⟩
  · obtain ⟨s, hs, -⟩ := (C08_from_df (S := ArgSort.stable ℚ) exTableR.reverse).2 (by decide)
    exact ⟨s, hs, .api _ (.frame _ (fun r => List.mem_reverse) s hs)⟩

end

/-- the hypotheses of `C147_fuse` are met: the runs of C99, filled in opposite orders -/
example : Spec.Consistent [(1, 10, (3 : ℝ)), (1, 11, 5)] ∧
    List.Forall₂ (Spec.MadeFrom (ArgSort.stable ℝ)) [[(1, 10, 3), (1, 11, 5)], [(1, 10, 3), (1, 11, 5)]]
      [lowFirst, lowFirst] ∧
    List.Forall₂ (Spec.MadeFrom (ArgSort.stable ℝ)) [[(1, 10, 3), (1, 11, 5)], [(1, 10, 3), (1, 11, 5)]]
      [highFirst, highFirst] ∧
    lowFirst ≠ highFirst ∧ Spec.SameQueries [lowFirst, lowFirst] ∧ Spec.SchedulesCover oneEnv [lowFirst, lowFirst] ∧
    Spec.SchedulesCover oneEnv [highFirst, highFirst] := by
  have h1 : Spec.MadeFrom (ArgSort.stable ℝ) [(1, 10, 3), (1, 11, 5)] lowFirst :=
    .oneByOne [(1, 10, 3), (1, 11, 5)] (fun _ => Iff.rfl)
  have h2 : Spec.MadeFrom (ArgSort.stable ℝ) [(1, 10, 3), (1, 11, 5)] highFirst :=
    .oneByOne [(1, 11, 5), (1, 10, 3)] (fun r => by
      simp only [List.mem_cons, List.not_mem_nil, or_false]
      exact Or.comm)
  refine ⟨?_, .cons h1 (.cons h1 .nil), .cons h2 (.cons h2 .nil), ?_, sameQueries_pair _, oneEnv_cover _ rfl,
    oneEnv_cover _ rfl⟩
  · intro r hr r' hr' _ hd
    simp only [List.mem_cons, List.not_mem_nil, or_false] at hr hr'
    rcases hr with rfl | rfl <;> rcases hr' with rfl | rfl <;> first | rfl | (simp at hd)
  · intro h
    have := congrArg (fun s : Store Nat Nat ℝ => s.data.map (fun p => p.2.keys)) h
    exact absurd this (by decide)

end Ranx
