import Verif.Model.Convert
import Verif.Lemmas.Float64
import Verif.Lemmas.Evaluate
import Verif.Props.Store
import Mathlib.Tactic.Linarith
import Mathlib.Tactic.Ring
import Mathlib.Data.Rat.Floor
import Mathlib.Data.List.TakeWhile

/-!
# C113: the values read back from a `Run` or a `Qrels` are those given
-/

set_option linter.unusedSectionVars false

namespace Ranx
open Dict Store Py Conv

namespace Spec

/-- the number written by the caller -/
def num : PyNum → ℚ
  | .int z => z
  | .float x => x

/-- `t` is `v` without its fractional part -/
def WholePart (v : ℚ) (t : Int) : Prop := |(t : ℚ)| ≤ |v| ∧ |v - t| < 1 ∧ 0 ≤ t * v

/-- no id of the dictionary ends in a NUL character -/
def NoNul {κ β : Type} (d : Dict κ (Dict Str β)) : Prop :=
  ∀ p ∈ d, ∀ x ∈ p.2.keys, x.getLast? ≠ some (Char.ofNat 0)

/-- an int64 -/
def InInt64 (z : Int) : Prop := -2 ^ 63 ≤ z ∧ z < 2 ^ 63

/-- the dictionary holds a document -/
def HasDoc {κ β : Type} (d : Dict κ (Dict Str β)) : Prop := ∃ p ∈ d, p.2 ≠ []

end Spec

/-! ### the conversions -/

theorem wholePart_unique {v : ℚ} {a b : Int} (ha : Spec.WholePart v a) (hb : Spec.WholePart v b) : a = b := by
  obtain ⟨a1, a2, a3⟩ := ha
  obtain ⟨b1, b2, b3⟩ := hb
  rw [abs_lt] at a2 b2
  have key : ∀ x y : Int, |(x : ℚ)| ≤ |v| → |(y : ℚ)| ≤ |v| → 0 ≤ (x : ℚ) * v → 0 ≤ (y : ℚ) * v → v - y < 1 →
      -1 < v - y → v - x < 1 → -1 < v - x → x ≤ y := by
    intro x y h1 h2 h3 h4 h5 h6 h7 h8
    by_contra hc
    have hlt : y + 1 ≤ x := by omega
    have hlt' : (y : ℚ) + 1 ≤ x := by exact_mod_cast hlt
    rcases le_total 0 v with hv | hv
    · rw [abs_of_nonneg hv] at h1
      have := le_abs_self (x : ℚ)
      linarith
    · rw [abs_of_nonpos hv] at h2
      have := neg_abs_le (y : ℚ)
      linarith
  exact le_antisymm (key a b a1 b1 a3 b3 b2.2 b2.1 a2.2 a2.1) (key b a b1 a1 b3 a3 a2.2 a2.1 b2.2 b2.1)

theorem truncate_whole (v : PyNum) : Spec.WholePart (Spec.num v) (truncate v) := by
  cases v with
  | int z =>
    refine ⟨le_refl _, ?_, ?_⟩
    · simp [Spec.num, truncate]
    · exact mul_self_nonneg _
  | float x =>
    change Spec.WholePart x (x.num.tdiv x.den)
    unfold Spec.WholePart
    have hd : (0 : ℚ) < x.den := by exact_mod_cast x.den_pos
    have hx : x = (x.num : ℚ) / x.den := (Rat.num_div_den x).symm
    have hdi : (0 : Int) < (x.den : Int) := by exact_mod_cast x.den_pos
    rcases le_total 0 x.num with hn | hn
    · have e : x.num.tdiv x.den = x.num / x.den := Int.tdiv_eq_ediv_of_nonneg hn
      have h1 : (x.num / (x.den : Int)) * x.den ≤ x.num := Int.ediv_mul_le _ hdi.ne'
      have h2 : x.num < (x.num / (x.den : Int) + 1) * x.den := Int.lt_ediv_add_one_mul_self _ hdi
      have h0 : 0 ≤ x.num / (x.den : Int) := Int.ediv_nonneg hn hdi.le
      rw [e]
      generalize x.num / (x.den : Int) = t at *
      have h1' : (t : ℚ) ≤ x := by
        rw [hx, le_div_iff₀ hd]; exact_mod_cast h1
      have h2' : x < t + 1 := by
        rw [hx, div_lt_iff₀ hd]; exact_mod_cast h2
      have h0' : (0 : ℚ) ≤ t := by exact_mod_cast h0
      refine ⟨?_, ?_, mul_nonneg h0' (h0'.trans h1')⟩
      · rw [abs_of_nonneg h0', abs_of_nonneg (h0'.trans h1')]; exact h1'
      · rw [abs_lt]; constructor <;> linarith
    · have e : x.num.tdiv x.den = -((-x.num) / x.den) := by
        rw [← Int.tdiv_eq_ediv_of_nonneg (by omega), Int.neg_tdiv, neg_neg]
      have hn' : 0 ≤ -x.num := by omega
      have h1 : ((-x.num) / (x.den : Int)) * x.den ≤ -x.num := Int.ediv_mul_le _ hdi.ne'
      have h2 : -x.num < ((-x.num) / (x.den : Int) + 1) * x.den := Int.lt_ediv_add_one_mul_self _ hdi
      have h0 : 0 ≤ (-x.num) / (x.den : Int) := Int.ediv_nonneg hn' hdi.le
      rw [e]
      generalize (-x.num) / (x.den : Int) = t at *
      have hx' : -x = ((-x.num : Int) : ℚ) / x.den := by
        push_cast; rw [neg_div]; exact congrArg _ hx
      have h1' : (t : ℚ) ≤ -x := by
        rw [hx', le_div_iff₀ hd]; exact_mod_cast h1
      have h2' : -x < t + 1 := by
        rw [hx', div_lt_iff₀ hd]; exact_mod_cast h2
      have h0' : (0 : ℚ) ≤ t := by exact_mod_cast h0
      push_cast
      refine ⟨?_, ?_, mul_nonneg_of_nonpos_of_nonpos (by linarith) (by linarith)⟩
      · rw [abs_neg, abs_of_nonneg h0', abs_of_nonpos (by linarith)]; exact h1'
      · rw [abs_lt]; constructor <;> linarith

theorem stripNul_eq {x : Str} (h : x.getLast? ≠ some (Char.ofNat 0)) : stripNul x = x := by
  unfold stripNul
  rw [List.dropWhile_eq_self_iff.2, List.reverse_reverse]
  intro hp
  rw [List.getElem_zero, List.head_reverse]
  intro hc
  apply h
  rw [List.getLast?_eq_some_getLast (by rintro rfl; simp at hp)]
  simpa using hc

/-! ### the constructor with converted values -/

section
variable {κ β : Type} [LinearOrder κ] [LE β] [Neg β] (S : ArgSort β) (conv : PyNum → Except Err β)

theorem construct_eq (d : Dict κ (Dict Str PyNum)) (f : PyNum → β) (hn : Spec.NoNul d)
    (hf : ∀ p ∈ d, ∀ v ∈ p.2.values, conv v = .ok (f v)) :
    construct S conv d = Store.ofDict S (d.map (fun p => (p.1, p.2.map (fun e => (e.1, f e.2))))) := by
  have hkeys : ∀ x : Dict Str PyNum, (∀ i ∈ x.keys, i.getLast? ≠ some (Char.ofNat 0)) → x.keys.map stripNul = x.keys := by
    intro x hx
    conv_rhs => rw [← List.map_id x.keys]
    exact List.map_congr_left fun i hi => stripNul_eq (hx i hi)
  have hc : Eval.collect (d.values.map (fun x => Eval.collect (x.values.map conv))) =
      .ok (d.values.map (fun x => x.values.map f)) := by
    rw [Eval.collect_ok_iff, List.map_map]
    refine List.map_congr_left fun x hx => ?_
    obtain ⟨p, hp, rfl⟩ := List.mem_map.1 hx
    change _ = Except.ok _
    rw [Eval.collect_ok_iff, List.map_map]
    exact List.map_congr_left fun v hv => hf p hp v hv
  unfold construct Store.ofDict
  rw [hc]
  have e1 : Dict.keys (d.map (fun p => (p.1, p.2.map (fun e => (e.1, f e.2))))) = d.keys := by
    simp [Dict.keys, List.map_map, Function.comp_def]
  have e2 : (Dict.values (d.map (fun p => (p.1, p.2.map (fun e => (e.1, f e.2)))))).map Dict.keys =
      d.values.map (fun x => x.keys.map stripNul) := by
    unfold Dict.values
    rw [List.map_map, List.map_map, List.map_map]
    refine List.map_congr_left fun p hp => ?_
    change Dict.keys (p.2.map _) = p.2.keys.map stripNul
    rw [hkeys p.2 (hn p hp)]
    simp [Dict.keys, List.map_map, Function.comp_def]
  have e3 : (Dict.values (d.map (fun p => (p.1, p.2.map (fun e => (e.1, f e.2)))))).map Dict.values =
      d.values.map (fun x => x.values.map f) := by
    unfold Dict.values
    rw [List.map_map, List.map_map, List.map_map]
    refine List.map_congr_left fun p hp => ?_
    change Dict.values (p.2.map _) = p.2.values.map f
    simp [Dict.values, List.map_map, Function.comp_def]
  have e4 : (Dict.values (d.map (fun p => (p.1, p.2.map (fun e => (e.1, f e.2)))))).all (fun x => x.isEmpty) =
      d.values.all (fun x => x.isEmpty) := by
    simp only [Dict.values, List.map_map, List.all_map, Function.comp_def]
    congr 1
    funext p
    simp
  rw [e1, e2, e3, e4]
  by_cases h : d.values.all (fun x => x.isEmpty) = true
  · rw [if_pos h, if_pos h]
  · rw [if_neg h, if_neg h]
    simp only
    generalize addBulk [] d.keys (d.values.map (fun x => x.keys.map stripNul)) (d.values.map (fun x => x.values.map f)) = r
    obtain ⟨m, _ | e⟩ := r <;> rfl

/-- `d`'s own reading of a pair -/
def Spec.entryOf {ν : Type} (d : Dict κ (Dict Str ν)) (q : κ) (x : Str) : Option ν :=
  (d.get? q).bind (fun inner => inner.get? x)

theorem construct_reads (d : Dict κ (Dict Str PyNum)) (hd : Wf d) (f : PyNum → β) (hn : Spec.NoNul d) (hne : Spec.HasDoc d)
    (hf : ∀ p ∈ d, ∀ v ∈ p.2.values, conv v = .ok (f v)) :
    ∃ s : Store κ Str β, construct S conv d = .ok s ∧ (∀ q, (∃ g, Spec.content s q = some g) ↔ q ∈ d.keys) ∧
      ∀ q x, (Spec.content s).read q x = (Spec.entryOf d q x).map f := by
  set d' : Dict κ (Dict Str β) := d.map (fun p => (p.1, p.2.map (fun e => (e.1, f e.2)))) with hd'
  have hget : ∀ q, d'.get? q = (d.get? q).map (fun i => i.map (fun e => (e.1, f e.2))) := fun q => by
    rw [hd']; exact get?_map_val d (fun i => i.map (fun e => (e.1, f e.2))) q
  have hw : Wf d' := by
    refine ⟨?_, ?_⟩
    · unfold NodupKeys
      rw [hd', List.map_map]
      exact hd.1
    · intro p hp
      obtain ⟨p', hp', rfl⟩ := List.mem_map.1 hp
      unfold NodupKeys
      rw [List.map_map]
      exact hd.2 p' hp'
  have hall : ¬ d'.values.all (fun x => x.isEmpty) = true := by
    obtain ⟨p, hp, hpe⟩ := hne
    intro hc
    rw [List.all_eq_true] at hc
    have := hc (p.2.map (fun e => (e.1, f e.2)))
      (List.mem_map.2 ⟨_, List.mem_map_of_mem (f := fun p : κ × Dict Str PyNum => (p.1, p.2.map (fun e => (e.1, f e.2)))) hp, rfl⟩)
    rw [List.isEmpty_iff, List.map_eq_nil_iff] at this
    exact hpe this
  refine ⟨⟨sortAll S d', true⟩, ?_, ?_, ?_⟩
  · rw [construct_eq S conv d f hn hf, ofDict_eq S d' hw, if_neg hall]
  · intro q
    rw [content_eq]
    change (∃ g, cont (sortAll S d') q = some g) ↔ _
    rw [cont_sortAll S hw]
    unfold cont
    rw [hget, ← get?_isSome (d := d)]
    cases Dict.get? d q <;> simp
  · intro q x
    rw [content_eq]
    change (cont (sortAll S d')).read q x = _
    rw [cont_sortAll S hw]
    unfold cont Spec.Content.read Spec.entryOf
    beta_reduce
    rw [hget]
    cases Dict.get? d q with
    | none => rfl
    | some i => exact get?_map_val i f x

end

/-! ### the property -/

/-- **C113** (qrels; partial: fractional judgements are cut, see `C113_fraction_lost`).  `Qrels(d)` and
`Qrels.from_dict(d)`, for ids not ending in NUL and judgements in the int64 range: the queries and the judged pairs are
those of `d`, and each judgement read back is the whole part of the number given — so an integer is kept as it is. -/
theorem C113_qrels_partial {κ : Type} [LinearOrder κ] (S : ArgSort Int) (d : Dict κ (Dict Str PyNum)) (hd : Wf d)
    (hne : Spec.HasDoc d) (hn : Spec.NoNul d)
    (hr : ∀ p ∈ d, ∀ v ∈ p.2.values, ∀ t, Spec.WholePart (Spec.num v) t → Spec.InInt64 t) :
    ∃ s : Store κ Str Int, construct S toInt64 d = .ok s ∧ (∀ q, (∃ g, Spec.content s q = some g) ↔ q ∈ d.keys) ∧
      ∀ q x, (Spec.entryOf d q x = none → (Spec.content s).read q x = none) ∧
        (∀ v, Spec.entryOf d q x = some v →
          ∃ t, (Spec.content s).read q x = some t ∧ Spec.WholePart (Spec.num v) t) ∧
        (∀ v, ∀ z : Int, Spec.entryOf d q x = some v → Spec.num v = z → (Spec.content s).read q x = some z) := by
  obtain ⟨s, h, hq, hx⟩ := construct_reads S toInt64 d hd truncate hn hne fun p hp v hv => by
    unfold toInt64
    exact if_pos (hr p hp v hv _ (truncate_whole v))
  refine ⟨s, h, hq, fun q x => ⟨?_, ?_, ?_⟩⟩
  · intro e; rw [hx, e]; rfl
  · intro v e; exact ⟨_, by rw [hx, e]; rfl, truncate_whole v⟩
  · intro v z e hz
    rw [hx, e, Option.map_some, Option.some.injEq]
    refine wholePart_unique (truncate_whole v) ?_
    rw [hz]
    exact ⟨le_refl _, by simp, mul_self_nonneg _⟩

/-- **C113** (qrels, rejected values): a judgement outside int64 makes the constructor raise. -/
theorem C113_out_of_range {κ : Type} [LinearOrder κ] (S : ArgSort Int) (d : Dict κ (Dict Str PyNum)) (q : κ) (x : Str)
    (v : PyNum) (hv : Spec.entryOf d q x = some v) (hr : ∀ t, Spec.WholePart (Spec.num v) t → ¬ Spec.InInt64 t) :
    ∃ e, construct S toInt64 d = .error e := by
  unfold construct
  split
  · exact ⟨_, rfl⟩
  · cases hc : Eval.collect (d.values.map (fun x => Eval.collect (x.values.map toInt64))) with
    | error e => exact ⟨e, rfl⟩
    | ok vals =>
      exfalso
      rw [Eval.collect_ok_iff] at hc
      unfold Spec.entryOf at hv
      cases hg : Dict.get? d q with
      | none => rw [hg] at hv; cases hv
      | some i =>
        rw [hg] at hv
        have hm : Eval.collect (i.values.map toInt64) ∈ vals.map (Except.ok (ε := Err)) := by
          rw [← hc]
          exact List.mem_map.2 ⟨i, List.mem_map.2 ⟨_, mem_of_get? hg, rfl⟩, rfl⟩
        obtain ⟨vs, -, he⟩ := List.mem_map.1 hm
        have he' := he.symm
        rw [Eval.collect_ok_iff] at he'
        have hm2 : toInt64 v ∈ vs.map (Except.ok (ε := Err)) := by
          rw [← he']
          exact List.mem_map.2 ⟨v, List.mem_map.2 ⟨_, mem_of_get? hv, rfl⟩, rfl⟩
        obtain ⟨t, -, ht⟩ := List.mem_map.1 hm2
        unfold toInt64 at ht
        have hr' : ¬ (-2 ^ 63 ≤ truncate v ∧ truncate v < 2 ^ 63) := hr _ (truncate_whole v)
        rw [if_neg hr'] at ht
        cases ht

/-- **C113** (runs).  `Run(d)` and `Run.from_dict(d)`, for ids not ending in NUL: the queries and the retrieved pairs are
those of `d`; a float score is read back as it is, an integer one too when its magnitude is at most 2^53. -/
theorem C113_run {κ : Type} [LinearOrder κ] (S : ArgSort ℚ) (d : Dict κ (Dict Str PyNum)) (hd : Wf d)
    (hne : Spec.HasDoc d) (hn : Spec.NoNul d)
    (hr : ∀ p ∈ d, ∀ z : Int, PyNum.int z ∈ p.2.values → |z| ≤ 2 ^ 53) :
    ∃ s : Store κ Str ℚ, construct S toFloat64 d = .ok s ∧ (∀ q, (∃ g, Spec.content s q = some g) ↔ q ∈ d.keys) ∧
      ∀ q x, (Spec.content s).read q x = (Spec.entryOf d q x).map Spec.num := by
  refine construct_reads S toFloat64 d hd Spec.num hn hne fun p hp v hv => ?_
  cases v with
  | float x => rfl
  | int z =>
    have hz := hr p hp z hv
    unfold toFloat64 Spec.num
    simp only
    rw [F64.fl_int z hz, if_pos]
    have : ((|z| : Int) : ℚ) ≤ ((2 ^ 53 : Int) : ℚ) := by exact_mod_cast hz
    push_cast at this
    have h2 : (9007199254740992 : ℚ) = 2 ^ 53 := by norm_num
    rw [h2] at this
    exact lt_of_le_of_lt this (pow_lt_pow_right₀ (by norm_num) (by norm_num))

/-! ### one call at a time -/

section
variable {κ β : Type} [LinearOrder κ] [LE β] [Neg β] (conv : PyNum → Except Err β)

/-- the pairs of a dictionary given one by one to `add_score` -/
def Spec.addEach (s : Store κ Str β) (d : Dict κ (Dict Str PyNum)) : Store κ Str β :=
  d.foldl (fun s p => p.2.foldl (fun s e => (Conv.addScore conv s p.1 e.1 e.2).1) s) s

theorem read_addScore (s : Store κ Str β) (q q' : κ) (x x' : Str) (v : PyNum) (w : β) (h : conv v = .ok w) :
    (Spec.content (Conv.addScore conv s q x v).1).read q' x' =
      if q' = q ∧ x' = x then some w else (Spec.content s).read q' x' := by
  unfold Conv.addScore
  rw [h]
  simp only [Store.addScore, Spec.content, Spec.Content.read]
  rw [get?_set]
  by_cases hq : q = q'
  · subst hq
    rw [if_pos rfl]
    simp only [Option.map_some, Option.bind_some]
    rw [get?_set]
    by_cases hx : x = x'
    · subst hx; simp
    · have hx' : ¬ x' = x := fun e => hx e.symm
      rw [if_neg hx, if_neg (by tauto)]
      cases hg : Dict.get? s.data q with
      | none => simp [get?_set, Dict.get?]
      | some i => simp [hg]
  · have hq' : ¬ q' = q := fun e => hq e.symm
    rw [if_neg hq, if_neg (by tauto)]
    cases hg : Dict.get? s.data q with
    | none =>
      simp only
      rw [get?_set, if_neg hq]
    | some i => rfl

theorem read_addInner (f : PyNum → β) (s : Store κ Str β) (q q' : κ) (x' : Str) (i : Dict Str PyNum) (hi : NodupKeys i)
    (hf : ∀ v ∈ i.values, conv v = .ok (f v)) :
    (Spec.content (i.foldl (fun s e => (Conv.addScore conv s q e.1 e.2).1) s)).read q' x' =
      if q' = q then ((i.get? x').map f).or ((Spec.content s).read q' x') else (Spec.content s).read q' x' := by
  induction i generalizing s with
  | nil => by_cases h : q' = q <;> simp [h, Dict.get?]
  | cons e t ih =>
    have hnd : e.1 ∉ Dict.keys t ∧ NodupKeys t := by
      unfold NodupKeys at hi ⊢
      rw [List.map_cons, List.nodup_cons] at hi
      exact hi
    rw [List.foldl_cons, ih _ hnd.2 (fun v hv => hf v (List.mem_cons_of_mem _ hv)),
      read_addScore conv s q q' e.1 x' e.2 (f e.2) (hf _ (List.mem_cons_self ..))]
    by_cases h : q' = q
    · rw [if_pos h, if_pos h, get?_cons]
      by_cases hx : e.1 = x'
      · subst hx
        rw [if_pos rfl, if_pos ⟨h, rfl⟩, (get?_eq_none (d := t)).2 hnd.1]
        rfl
      · have hx' : ¬ x' = e.1 := fun c => hx c.symm
        rw [if_neg hx, if_neg (by tauto)]
    · rw [if_neg h, if_neg h, if_neg (by tauto)]

theorem read_addEach (f : PyNum → β) (s : Store κ Str β) (d : Dict κ (Dict Str PyNum)) (hd : Wf d)
    (hf : ∀ p ∈ d, ∀ v ∈ p.2.values, conv v = .ok (f v)) (q : κ) (x : Str) :
    (Spec.content (Spec.addEach conv s d)).read q x = ((Spec.entryOf d q x).map f).or ((Spec.content s).read q x) := by
  unfold Spec.addEach
  induction d generalizing s with
  | nil => rfl
  | cons p t ih =>
    have hnd : p.1 ∉ Dict.keys t ∧ NodupKeys t := by
      have := hd.1
      unfold NodupKeys at this ⊢
      rw [List.map_cons, List.nodup_cons] at this
      exact this
    rw [List.foldl_cons, ih _ ⟨hnd.2, fun p hp => hd.2 p (List.mem_cons_of_mem _ hp)⟩
      (fun p hp => hf p (List.mem_cons_of_mem _ hp)),
      read_addInner conv f s p.1 q x p.2 (hd.2 p (List.mem_cons_self ..)) (hf p (List.mem_cons_self ..))]
    unfold Spec.entryOf
    rw [get?_cons]
    by_cases h : p.1 = q
    · subst h
      rw [if_pos rfl, if_pos rfl, (get?_eq_none (d := t)).2 hnd.1]
      rfl
    · rw [if_neg h, if_neg (fun c => h c.symm)]

end

/-- **C113** (the two ways to build): giving the pairs of a dictionary one by one to `add_score` of an empty object leads to
the values the constructor leads to, whichever conversion (judgements or scores) and whichever pair is read. -/
theorem C113_add_score {κ β : Type} [LinearOrder κ] [LE β] [Neg β] (S : ArgSort β) (conv : PyNum → Except Err β)
    (d : Dict κ (Dict Str PyNum)) (hd : Wf d) (hne : Spec.HasDoc d) (hn : Spec.NoNul d)
    (hr : ∀ p ∈ d, ∀ v ∈ p.2.values, ∃ w, conv v = .ok w) :
    ∃ s : Store κ Str β, construct S conv d = .ok s ∧ ∀ q x,
      (Spec.content (Spec.addEach conv Store.empty d)).read q x = (Spec.content s).read q x := by
  obtain ⟨p0, hp0, hpe⟩ := hne
  obtain ⟨w0⟩ : Nonempty β := by
    cases hp : p0.2 with
    | nil => exact absurd hp hpe
    | cons e t =>
      obtain ⟨w, -⟩ := hr p0 hp0 e.2 (by rw [hp]; exact List.mem_cons_self ..)
      exact ⟨w⟩
  let f : PyNum → β := fun v => match conv v with
    | .ok w => w
    | .error _ => w0
  have hf : ∀ p ∈ d, ∀ v ∈ p.2.values, conv v = .ok (f v) := by
    intro p hp v hv
    obtain ⟨w, hw⟩ := hr p hp v hv
    simp only [f]
    rw [hw]
  obtain ⟨s, hs, -, hx⟩ := construct_reads S conv d hd f hn ⟨p0, hp0, hpe⟩ hf
  refine ⟨s, hs, fun q x => ?_⟩
  rw [hx, read_addEach conv f _ d hd hf]
  have : (Spec.content (Store.empty : Store κ Str β)).read q x = none := rfl
  rw [this, Option.or_none]

/-- **C113** (`add_multi` and `add`): when the conversions succeed the call is the one on the converted values; when one
fails nothing changes. -/
theorem C113_add_multi {κ β : Type} [LinearOrder κ] [LE β] [Neg β] (S : ArgSort β) (conv : PyNum → Except Err β)
    (s : Store κ Str β) (qs : List κ) (docs : List (List Str)) (scores : List (List PyNum)) :
    (∀ f : PyNum → β, (∀ l ∈ scores, ∀ v ∈ l, conv v = .ok (f v)) →
      Conv.addMulti S conv s qs docs scores = s.addMulti S qs docs (scores.map (List.map f))) ∧
    ((∃ l ∈ scores, ∃ v ∈ l, ∃ e, conv v = .error e) → (Conv.addMulti S conv s qs docs scores).1 = s ∧
      (Conv.addMulti S conv s qs docs scores).2 ≠ none) := by
  constructor
  · intro f hf
    unfold Conv.addMulti
    have hc : Eval.collect (scores.map (fun x => Eval.collect (x.map conv))) = .ok (scores.map (List.map f)) := by
      rw [Eval.collect_ok_iff, List.map_map]
      refine List.map_congr_left fun x hx => ?_
      change _ = Except.ok _
      rw [Eval.collect_ok_iff, List.map_map]
      exact List.map_congr_left fun v hv => hf x hx v hv
    rw [hc]
    by_cases hd : docs.any List.isEmpty = true
    · rw [if_pos hd]
      unfold Store.addMulti
      rw [if_pos]
      unfold Store.untyped
      rw [hd]; simp
    · rw [if_neg hd]
  · rintro ⟨l, hl, v, hv, e, he⟩
    unfold Conv.addMulti
    by_cases hd : docs.any List.isEmpty = true
    · rw [if_pos hd]; exact ⟨rfl, by simp⟩
    rw [if_neg hd]
    cases hc : Eval.collect (scores.map (fun x => Eval.collect (x.map conv))) with
    | error e' => exact ⟨rfl, by simp⟩
    | ok vals =>
      exfalso
      rw [Eval.collect_ok_iff] at hc
      have hm : Eval.collect (l.map conv) ∈ vals.map (Except.ok (ε := Err)) := by
        rw [← hc]; exact List.mem_map.2 ⟨l, hl, rfl⟩
      obtain ⟨vs, -, hvs⟩ := List.mem_map.1 hm
      have hvs' := hvs.symm
      rw [Eval.collect_ok_iff] at hvs'
      have hm2 : conv v ∈ vs.map (Except.ok (ε := Err)) := by
        rw [← hvs']; exact List.mem_map.2 ⟨v, hv, rfl⟩
      obtain ⟨t, -, ht⟩ := List.mem_map.1 hm2
      rw [he] at ht
      cases ht

/-! ### refutations -/

/-- **C113** (`add_score`, rejected values): when the value cannot be converted the call raises; no value of any pair
changes, and the only trace is that the query now exists (without documents if it did not). -/
theorem C113_add_score_rejected {κ β : Type} [LinearOrder κ] [LE β] [Neg β] (conv : PyNum → Except Err β)
    (s : Store κ Str β) (q : κ) (doc : Str) (v : PyNum) (e : Err) (he : conv v = .error e) :
    (Conv.addScore conv s q doc v).2 = some e ∧
    (∀ q' x, (Spec.content (Conv.addScore conv s q doc v).1).read q' x = (Spec.content s).read q' x) ∧
    (∀ q', q' ∈ (Conv.addScore conv s q doc v).1.data.keys ↔ q' ∈ s.data.keys ∨ q' = q) := by
  unfold Conv.addScore
  rw [he]
  cases hg : s.data.get? q with
  | some r =>
    refine ⟨rfl, fun _ _ => rfl, fun q' => ⟨Or.inl, ?_⟩⟩
    rintro (h | rfl)
    · exact h
    · exact get?_isSome.1 (by rw [hg]; rfl)
  | none =>
    refine ⟨rfl, ?_, ?_⟩
    · intro q' x
      unfold Spec.Content.read Spec.content
      change ((Dict.get? (s.data.set q []) q').map _).bind _ = _
      rw [get?_set]
      by_cases hq : q = q'
      · subst hq
        rw [if_pos rfl, hg]
        rfl
      · rw [if_neg hq]
    · intro q'
      change q' ∈ (s.data.set q []).keys ↔ _
      rw [mem_keys_set, or_comm]

/-- non-vacuity: a judgement that int64 cannot hold -/
example : Conv.addScore toInt64 (Store.empty : Store Nat Str Int) 1 "a".toList (.int (2 ^ 63)) =
    (⟨[(1, [])], false⟩, some .valueError) := by decide +kernel

/-- **C113 refuted** for fractional judgements: a judgement of `1/2` given to `Qrels(d)` or `add_score` is stored as 0. -/
theorem C113_fraction_lost (S : ArgSort Int) :
    (∃ s : Store Nat Str Int, construct S toInt64 [(1, [("a".toList, .float (1 / 2))])] = .ok s ∧
      (Spec.content s).read 1 "a".toList = some 0) ∧
    (Spec.content (Conv.addScore toInt64 (Store.empty : Store Nat Str Int) 1 "a".toList (.float (1 / 2))).1).read 1
      "a".toList = some 0 := by
  have ht : toInt64 (.float (1 / 2)) = .ok 0 := by decide +kernel
  constructor
  · obtain ⟨s, hs, -, hx⟩ := construct_reads S toInt64 [((1 : Nat), [("a".toList, PyNum.float (1 / 2))])]
      (by unfold Wf NodupKeys; decide +kernel) (fun _ => 0) (by unfold Spec.NoNul; decide +kernel)
      ⟨_, List.mem_cons_self .., by simp⟩ (by
        intro p hp v hv
        simp only [List.mem_singleton] at hp
        subst hp
        simp only [Dict.values, List.map_cons, List.map_nil, List.mem_singleton] at hv
        subst hv
        exact ht)
    exact ⟨s, hs, by rw [hx]; decide +kernel⟩
  · rw [read_addScore toInt64 _ _ _ _ _ _ _ ht]
    decide +kernel

/-- **C113 refuted** for large integer scores: two documents with the scores 2^53 and 2^53 + 1 are stored with one score. -/
theorem C113_big_score (S : ArgSort ℚ) :
    ∃ s : Store Nat Str ℚ, construct S toFloat64
        [(1, [("a".toList, .int (2 ^ 53)), ("b".toList, .int (2 ^ 53 + 1))])] = .ok s ∧
      (Spec.content s).read 1 "a".toList = some (2 ^ 53) ∧ (Spec.content s).read 1 "b".toList = some (2 ^ 53) := by
  have ha : toFloat64 (.int (2 ^ 53)) = .ok (2 ^ 53) := by decide +kernel
  have hb : toFloat64 (.int (2 ^ 53 + 1)) = .ok (2 ^ 53) := by decide +kernel
  obtain ⟨s, hs, -, hx⟩ := construct_reads S toFloat64
      [((1 : Nat), [("a".toList, PyNum.int (2 ^ 53)), ("b".toList, .int (2 ^ 53 + 1))])]
      (by unfold Wf NodupKeys; decide +kernel) (fun _ => 2 ^ 53) (by unfold Spec.NoNul; decide +kernel)
      ⟨_, List.mem_cons_self .., by simp⟩ (by
        intro p hp v hv
        simp only [List.mem_singleton] at hp
        subst hp
        simp only [Dict.values, List.map_cons, List.map_nil, List.mem_cons, List.not_mem_nil, or_false] at hv
        rcases hv with rfl | rfl
        · exact ha
        · exact hb)
  refine ⟨s, hs, ?_, ?_⟩ <;> (rw [hx]; decide +kernel)

/-- **C113 refuted** for ids ending in NUL: the constructor makes one document of `"a"` and `"a\0"`, `add_score` keeps two. -/
theorem C113_nul_merges (S : ArgSort ℚ) :
    (∃ s : Store Nat Str ℚ, construct S toFloat64
        [(1, [("a".toList, .float 1), (['a', Char.ofNat 0], .float 2)])] = .ok s ∧
      (Spec.content s).read 1 "a".toList = some 2 ∧ (Spec.content s).read 1 ['a', Char.ofNat 0] = none) ∧
    (Spec.content (Spec.addEach toFloat64 Store.empty
        [(1, [("a".toList, .float 1), (['a', Char.ofNat 0], .float 2)])] : Store Nat Str ℚ)).read 1 "a".toList = some 1 := by
  constructor
  · have hb : addBulk [] [(1 : Nat)] [["a".toList, "a".toList]] [[(1 : ℚ), 2]] = ([(1, [("a".toList, 2)])], none) := by
      decide +kernel
    have hw : Wf [((1 : Nat), [("a".toList, (2 : ℚ))])] := by unfold Wf NodupKeys; decide +kernel
    have hc : construct S toFloat64 [((1 : Nat), [("a".toList, .float 1), (['a', Char.ofNat 0], .float 2)])] =
        .ok ⟨sortAll S [(1, [("a".toList, 2)])], true⟩ := by
      have e : (Dict.values [((1 : Nat), [("a".toList, PyNum.float 1), (['a', Char.ofNat 0], .float 2)])]).map
          (fun x => (Dict.keys x).map stripNul) = [["a".toList, "a".toList]] := by decide +kernel
      unfold construct
      rw [if_neg (by decide), e]
      change (match addBulk [] [(1 : Nat)] [["a".toList, "a".toList]] [[(1 : ℚ), 2]] with
        | (_, some e) => Except.error e
        | (m, none) => Except.ok (Store.mk (sortAll S m) true)) = _
      rw [hb]
    refine ⟨_, hc, ?_, ?_⟩
    all_goals
      rw [content_eq]
      change (cont (sortAll S [(1, [("a".toList, 2)])])).read _ _ = _
      rw [cont_sortAll S hw]
      decide +kernel
  · rw [read_addEach toFloat64 Spec.num _ _ (by unfold Wf NodupKeys; decide +kernel) (by
      intro p hp v hv
      simp only [List.mem_singleton] at hp
      subst hp
      simp only [Dict.values, List.map_cons, List.map_nil, List.mem_cons, List.not_mem_nil, or_false] at hv
      rcases hv with rfl | rfl <;> rfl)]
    decide +kernel

/-! ### the hypotheses can be met -/

/-- a dictionary mixing integers and a float -/
def exGiven : Dict Nat (Dict Str PyNum) :=
  [(2, [("a".toList, .int 3), ("b".toList, .float (5 / 2))]), (1, [("c".toList, .int (-4))])]

theorem exGiven_ok : Wf exGiven ∧ Spec.HasDoc exGiven ∧ Spec.NoNul exGiven := by
  refine ⟨by unfold Wf NodupKeys; decide +kernel, ⟨_, List.mem_cons_self .., by decide⟩, ?_⟩
  unfold Spec.NoNul
  decide +kernel

example : ∃ s : Store Nat Str ℚ, construct (ArgSort.stable ℚ) toFloat64 exGiven = .ok s ∧
    (Spec.content s).read 2 "b".toList = some (5 / 2) := by
  obtain ⟨h1, h2, h3⟩ := exGiven_ok
  obtain ⟨s, hs, -, hx⟩ := C113_run (ArgSort.stable ℚ) exGiven h1 h2 h3 (by
    intro p hp z hz
    simp only [exGiven, List.mem_cons, List.not_mem_nil, or_false] at hp
    rcases hp with rfl | rfl <;>
      simp only [Dict.values, List.map_cons, List.map_nil, List.mem_cons, List.not_mem_nil, or_false, PyNum.int.injEq,
        reduceCtorEq] at hz <;> subst hz <;> decide)
  exact ⟨s, hs, by rw [hx]; decide +kernel⟩

example : ∃ s : Store Nat Str Int, construct (ArgSort.stable Int) toInt64 exGiven = .ok s ∧
    (Spec.content s).read 2 "a".toList = some 3 := by
  obtain ⟨h1, h2, h3⟩ := exGiven_ok
  obtain ⟨s, hs, -, hx⟩ := C113_qrels_partial (ArgSort.stable Int) exGiven h1 h2 h3 (by
    intro p hp v hv t ht
    rw [wholePart_unique ht (truncate_whole v)]
    revert hv
    unfold Spec.InInt64
    revert v
    simp only [exGiven, List.mem_cons, List.not_mem_nil, or_false] at hp
    rcases hp with rfl | rfl
    · intro v _ hv
      simp only [Dict.values, List.map_cons, List.map_nil, List.mem_cons, List.not_mem_nil, or_false] at hv
      rcases hv with rfl | rfl <;> decide +kernel
    · intro v _ hv
      simp only [Dict.values, List.map_cons, List.map_nil, List.mem_cons, List.not_mem_nil, or_false] at hv
      subst hv
      decide +kernel)
  exact ⟨s, hs, (hx 2 "a".toList).2.2 (.int 3) 3 (by decide +kernel) (by rfl)⟩

example : ∃ e, construct (ArgSort.stable Int) toInt64 [((1 : Nat), [("a".toList, .int (2 ^ 63))])] = .error e :=
  C113_out_of_range _ _ 1 "a".toList (.int (2 ^ 63)) (by decide +kernel) fun t ht h => by
    rw [wholePart_unique ht (truncate_whole (.int (2 ^ 63)))] at h
    exact absurd h.2 (by decide)

end Ranx
