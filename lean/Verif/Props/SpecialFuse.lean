import Verif.Model.SpecialFuse
import Verif.Props.SpecialNorm
import Verif.Props.Fusion

/-!
# C120: fusing runs with infinite or NaN scores
-/

set_option linter.unusedSectionVars false

namespace Ranx
open Dict Special Special.X Fuse
open _root_.Ranx.Norm (Results)

section
variable {κ δ α : Type*} [LinearOrder κ] [DecidableEq δ] [Field α] [LinearOrder α] [IsStrictOrderedRing α]

/-- Specification: the outcome of a computation with the floats `l` which for numbers is `number`: `nan` if one of them is
`nan` or both infinities are among them, else the infinity among them. -/
structure Spec.FloatTotal (l : List (X α)) (number : List α → α) (total : X α) : Prop where
  undefined : .nan ∈ l ∨ (.pinf ∈ l ∧ .ninf ∈ l) → total = .nan
  plus : .nan ∉ l → .pinf ∈ l → .ninf ∉ l → total = .pinf
  minus : .nan ∉ l → .ninf ∈ l → .pinf ∉ l → total = .ninf
  numbers : ∀ ns : List α, l = ns.map X.fin → total = .fin (number ns)

/-- Specification: `out` is the fusion of `runs` in which doc `d` of query `q` has score `val q d`: the queries of the
runs, for each exactly the docs that occur in some run, with these scores, ranked (`nan` last). -/
structure Spec.FusedFloats (runs : List (Spec.RunData κ δ (X α))) (val : κ → δ → X α) (out : Store κ δ (X α)) : Prop where
  queries : ∀ q, q ∈ out.data.keys ↔ ∃ run ∈ runs, q ∈ run.keys
  docs : ∀ q d, (Spec.content out).read q d ≠ none ↔ Spec.InSome runs q d
  value : ∀ q d, Spec.InSome runs q d → (Spec.content out).read q d = some (val q d)
  ranked : ∀ p ∈ out.data, p.2.Pairwise (fun a b => Spec.FloatAtLeast a.2 b.2)
  ordered : out.data.keys.Pairwise (· < ·)

/-! ### sums -/

theorem Special.add_zero' (x : X α) : add x (.fin 0) = x := by cases x <;> simp [add]
theorem Special.zero_add' (x : X α) : add (.fin 0) x = x := by cases x <;> simp [add]

theorem Special.sumX_pinf (l : List (X α)) (h : .pinf ∈ l) : sumX l = .pinf ∨ sumX l = .nan := by
  induction l with
  | nil => cases h
  | cons y t ih =>
    rw [Special.sumX_cons]
    rcases List.mem_cons.1 h with rfl | h
    · cases sumX t <;> simp [add]
    · rcases ih h with e | e <;> rw [e] <;> cases y <;> simp [add]

theorem Special.sumX_ninf (l : List (X α)) (h : .ninf ∈ l) : sumX l = .ninf ∨ sumX l = .nan := by
  induction l with
  | nil => cases h
  | cons y t ih =>
    rw [Special.sumX_cons]
    rcases List.mem_cons.1 h with rfl | h
    · cases sumX t <;> simp [add]
    · rcases ih h with e | e <;> rw [e] <;> cases y <;> simp [add]

theorem Special.mem_of_sumX (l : List (X α)) : (sumX l = .pinf → .pinf ∈ l) ∧ (sumX l = .ninf → .ninf ∈ l) ∧
    (sumX l = .nan → .nan ∈ l ∨ (.pinf ∈ l ∧ .ninf ∈ l)) := by
  induction l with
  | nil => refine ⟨?_, ?_, ?_⟩ <;> intro h <;> cases h
  | cons y t ih =>
    rw [Special.sumX_cons]
    obtain ⟨i1, i2, i3⟩ := ih
    cases hs : sumX t with
    | fin v =>
      rw [hs] at i1 i2 i3
      cases y <;> simp [add]
    | pinf =>
      have := i1 hs
      cases y <;> simp [add, this]
    | ninf =>
      have := i2 hs
      cases y <;> simp [add, this]
    | nan =>
      have := i3 hs
      refine ⟨?_, ?_, ?_⟩
      · intro h; cases y <;> cases h
      · intro h; cases y <;> cases h
      · intro _
        rcases this with h | ⟨h, h'⟩
        · exact .inl (List.mem_cons_of_mem _ h)
        · exact .inr ⟨List.mem_cons_of_mem _ h, List.mem_cons_of_mem _ h'⟩

theorem Special.floatTotal_sum (l : List (X α)) : Spec.FloatTotal l List.sum (sumX l) := by
  refine ⟨?_, ?_, ?_, fun ns e => by rw [e]; exact Special.sumX_fin ns⟩
  · rintro (h | ⟨h, h'⟩)
    · exact Special.sumX_nan l h
    · rcases Special.sumX_pinf l h with e | e
      · rcases Special.sumX_ninf l h' with e' | e'
        · rw [e] at e'; cases e'
        · exact e'
      · exact e
  · intro h1 h2 h3
    rcases Special.sumX_pinf l h2 with e | e
    · exact e
    · rcases (Special.mem_of_sumX l).2.2 e with h | ⟨-, h⟩
      · exact absurd h h1
      · exact absurd h h3
  · intro h1 h2 h3
    rcases Special.sumX_ninf l h2 with e | e
    · exact e
    · rcases (Special.mem_of_sumX l).2.2 e with h | ⟨h, -⟩
      · exact absurd h h1
      · exact absurd h h3

/-- an operation that keeps infinities and `nan` -/
theorem Special.floatTotal_map {l : List (X α)} {number : List α → α} {total : X α} (h : Spec.FloatTotal l number total)
    (f : X α → X α) (g : List α → α → α) (h1 : f .nan = .nan) (h2 : f .pinf = .pinf) (h3 : f .ninf = .ninf)
    (h4 : ∀ ns, l = ns.map X.fin → ∀ v, f (.fin v) = .fin (g ns v)) :
    Spec.FloatTotal l (fun ns => g ns (number ns)) (f total) :=
  ⟨fun e => by rw [h.undefined e, h1], fun a b c => by rw [h.plus a b c, h2], fun a b c => by rw [h.minus a b c, h3],
    fun ns e => by rw [h.numbers ns e, h4 ns e]⟩

theorem Special.sum_getD {γ : Type*} (l : List γ) (f : γ → Option (X α)) :
    sumX (l.map (fun x => (f x).getD 0)) = sumX (l.filterMap f) := by
  induction l with
  | nil => rfl
  | cons x t ih =>
    rw [List.map_cons, Special.sumX_cons, ih]
    cases h : f x with
    | none => rw [List.filterMap_cons_none h]; exact Special.zero_add' _
    | some v => rw [List.filterMap_cons_some h, Special.sumX_cons]; rfl

/-! ### the loops -/

theorem Special.fuseRun_spec (S : ArgSort (X α)) (score : Score δ (X α)) (f : List (Results δ (X α)) → δ → X α)
    (sched : List Nat) (runs : List (Dict κ (Results δ (X α)))) (hf : Spec.Fusable runs)
    (hs : Schedule (queryCount runs) sched)
    (hok : ∀ q d, Spec.InSome runs q d → score (resultsFor runs q) d = .ok (f (resultsFor runs q) d)) :
    ∃ out, Fuse.fuseRun S score sched runs = .ok out ∧ Spec.FusedFloats runs (fun q d => f (resultsFor runs q) d) out := by
  classical
  have hcomb : ∀ q, ∃ out, Fuse.combine score (resultsFor runs q) = .ok out ∧ NodupKeys out ∧
      (∀ d, d ∈ out.keys ↔ Spec.InSome runs q d) ∧
      (∀ d, Spec.InSome runs q d → out.get? d = some (f (resultsFor runs q) d)) := by
    intro q
    obtain ⟨out, h1, h2, h3, h4⟩ := combine_spec score (f (resultsFor runs q)) (resultsFor runs q)
      (fun d hd => hok q d ((mem_flatMap_resultsFor runs q d).1 hd))
    exact ⟨out, h1, h2, fun d => by rw [h3, mem_flatMap_resultsFor],
      fun d hd => h4 d ((mem_flatMap_resultsFor runs q d).2 hd)⟩
  choose comb hc1 hc2 hc3 hc4 using hcomb
  obtain ⟨qs, hnd, hqs, heq⟩ := fuseParallel_eq score sched runs hf hs comb (fun q _ => hc1 q)
  unfold Fuse.fuseRun
  rw [heq]
  simp only
  set data : Dict κ (Results δ (X α)) := qs.map (fun q => (q, comb q)) with hdata
  have hwf : Store.Wf data := by
    constructor
    · unfold NodupKeys
      rw [hdata, List.map_map]
      have : (Prod.fst ∘ fun q => (q, comb q)) = (id : κ → κ) := rfl
      rw [this, List.map_id]; exact hnd
    · intro p hp
      obtain ⟨q, _, rfl⟩ := List.mem_map.1 hp
      exact hc2 q
  have hkeys : data.keys = qs := by
    rw [hdata]; unfold Dict.keys; rw [List.map_map]
    exact List.map_id qs
  refine ⟨_, rfl, ?_⟩
  unfold Store.sort
  have hread : ∀ q d, (Spec.content (⟨sortAll S data, true⟩ : Store κ δ (X α))).read q d =
      if q ∈ qs then (comb q).get? d else none := by
    intro q d
    rw [Store.content_eq]
    change (Store.cont (sortAll S data)).read q d = _
    rw [Store.cont_sortAll S hwf]
    unfold Spec.Content.read Store.cont
    rw [hdata, get?_map_pair]
    by_cases hq : q ∈ qs
    · rw [if_pos hq, if_pos hq]; rfl
    · rw [if_neg hq, if_neg hq]; rfl
  have hin : ∀ q d, Spec.InSome runs q d → q ∈ qs := by
    rintro q d ⟨run, hr, r, hg, _⟩
    rw [hqs]
    exact ⟨run, hr, get?_isSome.1 (by rw [hg]; rfl)⟩
  obtain ⟨hrk, hord⟩ := Special.sortAll_ranked S hwf
  refine ⟨?_, ?_, ?_, hrk, hord⟩
  · intro q
    change q ∈ (sortAll S data).keys ↔ _
    rw [mem_keys_sortAll S hwf.1, hkeys, hqs]
  · intro q d
    rw [hread]
    constructor
    · intro h
      by_cases hq : q ∈ qs
      · rw [if_pos hq] at h
        rw [← hc3 q d, ← get?_isSome]
        exact Option.ne_none_iff_isSome.1 h
      · rw [if_neg hq] at h; exact absurd rfl h
    · intro h
      rw [if_pos (hin q d h), hc4 q d h]; simp
  · intro q d h
    rw [hread, if_pos (hin q d h), hc4 q d h]

theorem Special.length_pos_of_inSome {runs : List (Dict κ (Results δ (X α)))} {q : κ} {d : δ} (h : Spec.InSome runs q d) :
    (0 : α) < ((Spec.scores runs q d).length : α) := by
  have : 0 < (Spec.scores runs q d).length := List.length_pos_iff.2 (scores_ne_nil h)
  exact_mod_cast this

/-! ## C120 -/

variable (S : ArgSort (X α)) (sched : List Nat) (runs : List (Dict κ (Results δ (X α))))

/-- **C120** (comb_sum): each doc gets the sum of its scores as floats. -/
theorem C120_comb_sum (hf : Spec.Fusable runs) (hs : Schedule (queryCount runs) sched) :
    ∃ out val, Special.combSum S sched runs = .ok out ∧ Spec.FusedFloats runs val out ∧
      ∀ q d, Spec.InSome runs q d → Spec.FloatTotal (Spec.scores runs q d) List.sum (val q d) := by
  obtain ⟨out, h1, h2⟩ := Special.fuseRun_spec S Special.sumScore
    (fun rs d => sumX (rs.map (fun res => (res.get? d).getD 0))) sched runs hf hs (fun q d _ => rfl)
  refine ⟨out, _, h1, h2, ?_⟩
  intro q d _
  rw [Special.sum_getD]
  change Spec.FloatTotal _ _ (sumX (present (resultsFor runs q) d))
  rw [present_eq]
  exact Special.floatTotal_sum _

/-- **C120** (comb_mnz): the sum times the number of runs that have the doc. -/
theorem C120_comb_mnz (hf : Spec.Fusable runs) (hs : Schedule (queryCount runs) sched) :
    ∃ out val, Special.combMnz S sched runs = .ok out ∧ Spec.FusedFloats runs val out ∧
      ∀ q d, Spec.InSome runs q d →
        Spec.FloatTotal (Spec.scores runs q d) (fun ns => ns.sum * (ns.length : α)) (val q d) := by
  obtain ⟨out, h1, h2⟩ := Special.fuseRun_spec S Special.mnzScore
    (fun rs d => mul (sumX (present rs d)) (.fin ((present rs d).length : α))) sched runs hf hs (fun q d _ => rfl)
  refine ⟨out, _, h1, h2, ?_⟩
  intro q d hd
  have hpos := Special.length_pos_of_inSome hd
  simp only [present_eq]
  refine Special.floatTotal_map (Special.floatTotal_sum (Spec.scores runs q d))
    (fun x => mul x (.fin ((Spec.scores runs q d).length : α))) (fun ns v => v * (ns.length : α)) rfl ?_ ?_ ?_
  · change signed _ = _; unfold signed; rw [if_pos hpos]
  · change X.neg (signed _) = _; unfold signed; rw [if_pos hpos]; rfl
  · intro ns e v
    rw [e, List.length_map]; rfl

/-- **C120** (comb_anz): the sum divided by the number of runs that have the doc. -/
theorem C120_comb_anz (hf : Spec.Fusable runs) (hs : Schedule (queryCount runs) sched) :
    ∃ out val, Special.combAnz S sched runs = .ok out ∧ Spec.FusedFloats runs val out ∧
      ∀ q d, Spec.InSome runs q d →
        Spec.FloatTotal (Spec.scores runs q d) (fun ns => ns.sum / (ns.length : α)) (val q d) := by
  obtain ⟨out, h1, h2⟩ := Special.fuseRun_spec S Special.anzScore
    (fun rs d => div (sumX (present rs d)) (.fin ((present rs d).length : α))) sched runs hf hs (fun q d _ => rfl)
  refine ⟨out, _, h1, h2, ?_⟩
  intro q d hd
  have hpos := Special.length_pos_of_inSome hd
  simp only [present_eq]
  refine Special.floatTotal_map (Special.floatTotal_sum (Spec.scores runs q d))
    (fun x => div x (.fin ((Spec.scores runs q d).length : α))) (fun ns v => v / (ns.length : α)) rfl ?_ ?_ ?_
  · change signed _ = _; unfold signed; rw [if_pos hpos]
  · change X.neg (signed _) = _; unfold signed; rw [if_pos hpos]; rfl
  · intro ns e v
    rw [e, List.length_map]; rfl

/-- the total of a reordered list is the same -/
theorem Spec.FloatTotal.unique {l l' : List (X α)} (hp : l.Perm l') {number : List α → α}
    (hn : ∀ ns ns' : List α, ns.Perm ns' → number ns = number ns') {t t' : X α}
    (h : Spec.FloatTotal l number t) (h' : Spec.FloatTotal l' number t') : t = t' := by
  by_cases h1 : X.nan ∈ l
  · rw [h.undefined (.inl h1), h'.undefined (.inl (hp.mem_iff.1 h1))]
  by_cases h2 : X.pinf ∈ l
  · by_cases h3 : X.ninf ∈ l
    · rw [h.undefined (.inr ⟨h2, h3⟩), h'.undefined (.inr ⟨hp.mem_iff.1 h2, hp.mem_iff.1 h3⟩)]
    · rw [h.plus h1 h2 h3, h'.plus (fun x => h1 (hp.mem_iff.2 x)) (hp.mem_iff.1 h2) (fun x => h3 (hp.mem_iff.2 x))]
  · by_cases h3 : X.ninf ∈ l
    · rw [h.minus h1 h3 h2, h'.minus (fun x => h1 (hp.mem_iff.2 x)) (hp.mem_iff.1 h3) (fun x => h2 (hp.mem_iff.2 x))]
    · have nums : ∀ l : List (X α), .nan ∉ l → .pinf ∉ l → .ninf ∉ l → ∃ ns : List α, l = ns.map X.fin := by
        intro l
        induction l with
        | nil => intro _ _ _; exact ⟨[], rfl⟩
        | cons x t ih =>
          intro a b c
          obtain ⟨ns, rfl⟩ := ih (fun h => a (List.mem_cons_of_mem _ h)) (fun h => b (List.mem_cons_of_mem _ h))
            (fun h => c (List.mem_cons_of_mem _ h))
          cases x with
          | fin v => exact ⟨v :: ns, rfl⟩
          | nan => exact absurd List.mem_cons_self a
          | pinf => exact absurd List.mem_cons_self b
          | ninf => exact absurd List.mem_cons_self c
      obtain ⟨ns, rfl⟩ := nums l h1 h2 h3
      obtain ⟨ns', hns'⟩ := nums l' (fun x => h1 (hp.mem_iff.2 x)) (fun x => h2 (hp.mem_iff.2 x)) (fun x => h3 (hp.mem_iff.2 x))
      rw [h.numbers ns rfl, h'.numbers ns' hns']
      congr 1
      apply hn
      have inj : ∀ a b : α, X.fin a = X.fin b → a = b := fun a b h => X.fin.inj h
      have back : ∀ l : List α, (l.map X.fin).filterMap (fun x : X α => match x with | .fin v => some v | _ => none) = l := by
        intro l
        induction l with
        | nil => rfl
        | cons a t ih => rw [List.map_cons, List.filterMap_cons]; simp only [ih]
      rw [hns'] at hp
      have := hp.filterMap (fun x : X α => match x with | .fin v => some v | _ => none)
      rw [back, back] at this
      exact this

/-- **C120** (order of the runs): comb_sum, comb_mnz and comb_anz give every doc the same score for every order of the
runs, also with infinite and NaN scores. -/
theorem C120_symmetric (runs' : List (Dict κ (Results δ (X α)))) (hp : runs.Perm runs')
    (hf : Spec.Fusable runs) (hf' : Spec.Fusable runs') (sched' : List Nat)
    (hs : Schedule (queryCount runs) sched) (hs' : Schedule (queryCount runs') sched') :
    (∃ out out', Special.combSum S sched runs = .ok out ∧ Special.combSum S sched' runs' = .ok out' ∧
      ∀ q d, (Spec.content out).read q d = (Spec.content out').read q d) ∧
    (∃ out out', Special.combMnz S sched runs = .ok out ∧ Special.combMnz S sched' runs' = .ok out' ∧
      ∀ q d, (Spec.content out).read q d = (Spec.content out').read q d) ∧
    ∃ out out', Special.combAnz S sched runs = .ok out ∧ Special.combAnz S sched' runs' = .ok out' ∧
      ∀ q d, (Spec.content out).read q d = (Spec.content out').read q d := by
  have hin : ∀ q (d : δ), Spec.InSome runs q d ↔ Spec.InSome runs' q d := by
    intro q d
    unfold Spec.InSome
    constructor
    · rintro ⟨r, hr, h⟩; exact ⟨r, hp.mem_iff.1 hr, h⟩
    · rintro ⟨r, hr, h⟩; exact ⟨r, hp.mem_iff.2 hr, h⟩
  have key : ∀ (number : List α → α) (out out' : Store κ δ (X α)) (val val' : κ → δ → X α),
      (∀ ns ns' : List α, ns.Perm ns' → number ns = number ns') →
      Spec.FusedFloats runs val out → Spec.FusedFloats runs' val' out' →
      (∀ q d, Spec.InSome runs q d → Spec.FloatTotal (Spec.scores runs q d) number (val q d)) →
      (∀ q d, Spec.InSome runs' q d → Spec.FloatTotal (Spec.scores runs' q d) number (val' q d)) →
      ∀ q d, (Spec.content out).read q d = (Spec.content out').read q d := by
    intro number out out' val val' hn h1 h2 h3 h4 q d
    by_cases hd : Spec.InSome runs q d
    · rw [h1.value q d hd, h2.value q d ((hin q d).1 hd)]
      congr 1
      exact Spec.FloatTotal.unique (hp.filterMap _) hn (h3 q d hd) (h4 q d ((hin q d).1 hd))
    · have e1 : (Spec.content out).read q d = none := by
        by_contra h; exact hd ((h1.docs q d).1 h)
      have e2 : (Spec.content out').read q d = none := by
        by_contra h; exact hd ((hin q d).2 ((h2.docs q d).1 h))
      rw [e1, e2]
  refine ⟨?_, ?_, ?_⟩
  · obtain ⟨out, val, a, b, c⟩ := C120_comb_sum S sched runs hf hs
    obtain ⟨out', val', a', b', c'⟩ := C120_comb_sum S sched' runs' hf' hs'
    exact ⟨out, out', a, a', key _ _ _ _ _ (fun _ _ h => h.sum_eq) b b' c c'⟩
  · obtain ⟨out, val, a, b, c⟩ := C120_comb_mnz S sched runs hf hs
    obtain ⟨out', val', a', b', c'⟩ := C120_comb_mnz S sched' runs' hf' hs'
    exact ⟨out, out', a, a', key _ _ _ _ _ (fun _ _ h => by rw [h.sum_eq, h.length_eq]) b b' c c'⟩
  · obtain ⟨out, val, a, b, c⟩ := C120_comb_anz S sched runs hf hs
    obtain ⟨out', val', a', b', c'⟩ := C120_comb_anz S sched' runs' hf' hs'
    exact ⟨out, out', a, a', key _ _ _ _ _ (fun _ _ h => by rw [h.sum_eq, h.length_eq]) b b' c c'⟩

/-! ### weights -/

/-- Specification: the scores of doc `d` for query `q` in the runs that have it, each with the weight of its run -/
def Spec.scoredWeights (runs : List (Spec.RunData κ δ (X α))) (ws : List α) (q : κ) (d : δ) : List (X α × α) :=
  (runs.zip ws).filterMap (fun rw => (Spec.score? rw.1 q d).map (fun s => (s, rw.2)))

theorem Special.collect_weights (ws : List α) (g : Results δ (X α) → X α → X α) (rs : List (Results δ (X α))) (n : Nat)
    (h : n + rs.length ≤ ws.length) :
    Eval.collect ((rs.zipIdx n).map (fun ri => (Special.weightAt (ws.map X.fin) ri.2).map (fun w => g ri.1 w))) =
      .ok ((rs.zip (ws.drop n)).map (fun rw => g rw.1 (.fin rw.2))) := by
  induction rs generalizing n with
  | nil => rfl
  | cons r t ih =>
    simp only [List.length_cons] at h
    have hn : n < ws.length := by omega
    have hw : Special.weightAt (ws.map X.fin) n = .ok (.fin ws[n]) := by
      unfold Special.weightAt
      rw [List.getElem?_map, List.getElem?_eq_getElem hn]; rfl
    rw [List.zipIdx_cons, List.map_cons, hw]
    have hd : ws.drop n = ws[n] :: ws.drop (n + 1) := List.drop_eq_getElem_cons hn
    rw [hd, List.zip_cons_cons, List.map_cons]
    change Eval.collect (.ok (g r (.fin ws[n])) :: _) = _
    unfold Eval.collect
    rw [ih (n + 1) (by omega)]

theorem Special.mul_zero' (w : α) : mul (X.fin w) 0 = .fin 0 := by
  change X.fin (w * 0) = _
  rw [mul_zero]

theorem Special.wsumScore_eq (ws : List α) (hw : runs.length ≤ ws.length) (q : κ) (d : δ) :
    Special.wsumScore (ws.map X.fin) (resultsFor runs q) d =
      .ok (sumX ((Spec.scoredWeights runs ws q d).map (fun p => mul (.fin p.2) p.1))) := by
  unfold Special.wsumScore
  have hl : (resultsFor runs q).length = runs.length := by unfold resultsFor; simp
  rw [Special.collect_weights ws (fun r w => mul w ((r.get? d).getD 0)) (resultsFor runs q) 0 (by rw [hl]; omega)]
  simp only [List.drop_zero]
  congr 1
  have hz : (resultsFor runs q).zip ws = (runs.zip ws).map (fun rw => ((rw.1.get? q).getD [], rw.2)) := by
    unfold resultsFor
    rw [List.zip_map_left]; rfl
  rw [hz, List.map_map]
  unfold Spec.scoredWeights
  generalize runs.zip ws = l
  induction l with
  | nil => rfl
  | cons x t ih =>
    rw [List.map_cons, Special.sumX_cons, ih]
    simp only [Function.comp_apply, getD_get?]
    cases h : Spec.score? x.1 q d with
    | none =>
      rw [List.filterMap_cons_none (by rw [h]; rfl)]
      change add (mul (.fin x.2) 0) _ = _
      rw [Special.mul_zero', Special.zero_add']
    | some v =>
      rw [List.filterMap_cons_some (b := (v, x.2)) (by rw [h]; rfl), List.map_cons, Special.sumX_cons]
      rfl

/-- **C120** (wsum; partial: all weights are positive): the weighted sum as floats; infinite and NaN scores count as in
comb_sum. -/
theorem C120_wsum_partial (ws : List α) (hw : runs.length ≤ ws.length) (hpos : ∀ w ∈ ws, 0 < w)
    (hf : Spec.Fusable runs) (hs : Schedule (queryCount runs) sched) :
    ∃ out val, Special.wsum S sched runs (ws.map X.fin) = .ok out ∧ Spec.FusedFloats runs val out ∧
      ∀ q d, Spec.InSome runs q d →
        Spec.FloatTotal ((Spec.scoredWeights runs ws q d).map Prod.fst)
          (fun ns => (List.zipWith (fun w s => w * s) ((Spec.scoredWeights runs ws q d).map Prod.snd) ns).sum) (val q d) := by
  obtain ⟨out, h1, h2⟩ := Special.fuseRun_spec S (Special.wsumScore (ws.map X.fin))
    (fun rs d => match Special.wsumScore (ws.map X.fin) rs d with | .ok v => v | .error _ => 0) sched runs hf hs
    (fun q d _ => by rw [Special.wsumScore_eq runs ws hw])
  refine ⟨out, _, h1, h2, ?_⟩
  intro q d _
  simp only [Special.wsumScore_eq runs ws hw]
  have hp : ∀ p ∈ Spec.scoredWeights runs ws q d, 0 < p.2 := by
    intro p hp
    obtain ⟨rw', hr, he⟩ := List.mem_filterMap.1 hp
    obtain ⟨s, -, rfl⟩ := Option.map_eq_some_iff.1 he
    exact hpos _ (List.of_mem_zip hr).2
  generalize Spec.scoredWeights runs ws q d = l at hp ⊢
  have hk : ∀ p ∈ l, (mul (.fin p.2) p.1 = .nan ↔ p.1 = .nan) ∧ (mul (.fin p.2) p.1 = .pinf ↔ p.1 = .pinf) ∧
      (mul (.fin p.2) p.1 = .ninf ↔ p.1 = .ninf) := by
    intro p h
    obtain ⟨x, w⟩ := p
    have : 0 < w := hp _ h
    cases x <;> simp [mul, signed, this, X.neg]
  have hmem : ∀ y : X α, (∀ p ∈ l, mul (.fin p.2) p.1 = y ↔ p.1 = y) →
      (y ∈ l.map (fun p => mul (.fin p.2) p.1) ↔ y ∈ l.map Prod.fst) := by
    intro y hy
    rw [List.mem_map, List.mem_map]
    constructor
    · rintro ⟨p, h, e⟩; exact ⟨p, h, (hy p h).1 e⟩
    · rintro ⟨p, h, e⟩; exact ⟨p, h, (hy p h).2 e⟩
  have m1 := hmem .nan (fun p h => (hk p h).1)
  have m2 := hmem .pinf (fun p h => (hk p h).2.1)
  have m3 := hmem .ninf (fun p h => (hk p h).2.2)
  have base := Special.floatTotal_sum (l.map (fun p => mul (.fin p.2) p.1))
  refine ⟨fun h => base.undefined (by rw [m1, m2, m3]; exact h), fun a b c => base.plus (by rwa [m1]) (m2.2 b) (by rwa [m3]),
    fun a b c => base.minus (by rwa [m1]) (m3.2 b) (by rwa [m2]), ?_⟩
  intro ns e
  refine base.numbers _ ?_
  clear hp hk hmem m1 m2 m3 base
  induction l generalizing ns with
  | nil => cases ns <;> simp_all
  | cons p t ih =>
    cases ns with
    | nil => simp at e
    | cons n ns =>
      simp only [List.map_cons, List.cons.injEq] at e
      simp only [List.map_cons, List.zipWith_cons_cons]
      rw [ih ns e.2, e.1]
      rfl

/-- **C120** (wsum, weight 0): a run with weight 0 that gives a doc an infinite score turns the doc's fused score into
`nan`, whatever the other runs and weights are. -/
theorem C120_wsum_zero (ws : List α) (hw : runs.length ≤ ws.length) (hf : Spec.Fusable runs)
    (hs : Schedule (queryCount runs) sched) (q : κ) (d : δ) (i : Nat) (run : Dict κ (Results δ (X α)))
    (hr : runs[i]? = some run) (hi : ws[i]? = some 0)
    (hinf : Spec.score? run q d = some .pinf ∨ Spec.score? run q d = some .ninf) :
    ∃ out, Special.wsum S sched runs (ws.map X.fin) = .ok out ∧ (Spec.content out).read q d = some .nan := by
  obtain ⟨out, h1, h2⟩ := Special.fuseRun_spec S (Special.wsumScore (ws.map X.fin))
    (fun rs d => match Special.wsumScore (ws.map X.fin) rs d with | .ok v => v | .error _ => 0) sched runs hf hs
    (fun q d _ => by rw [Special.wsumScore_eq runs ws hw])
  refine ⟨out, h1, ?_⟩
  have hrm : run ∈ runs := List.mem_of_getElem? hr
  have hin : Spec.InSome runs q d := by
    rw [inSome_iff]
    refine ⟨run, hrm, ?_⟩
    rcases hinf with h | h <;> rw [h] <;> rfl
  rw [h2.value q d hin]
  simp only [Special.wsumScore_eq runs ws hw]
  congr 1
  apply Special.sumX_nan
  have hz : (run, (0 : α)) ∈ runs.zip ws := by
    rw [List.mem_iff_getElem?]
    exact ⟨i, List.getElem?_zip_eq_some.2 ⟨hr, hi⟩⟩
  have hnan : ∀ x : X α, x = .pinf ∨ x = .ninf → mul (.fin 0) x = .nan := by
    rintro x (rfl | rfl)
    · change signed (0 : α) = _; unfold signed; rw [if_neg (lt_irrefl _), if_neg (lt_irrefl _)]
    · change X.neg (signed (0 : α)) = _; unfold signed; rw [if_neg (lt_irrefl _), if_neg (lt_irrefl _)]; rfl
  rcases hinf with h | h
  · exact List.mem_map.2 ⟨(.pinf, 0), List.mem_filterMap.2 ⟨(run, 0), hz, by simp only [h]; rfl⟩, hnan _ (.inl rfl)⟩
  · exact List.mem_map.2 ⟨(.ninf, 0), List.mem_filterMap.2 ⟨(run, 0), hz, by simp only [h]; rfl⟩, hnan _ (.inr rfl)⟩

/-! ### best and worst scores -/

theorem Special.atLeast_refl (x : X α) : Spec.FloatAtLeast x x := by cases x <;> simp [Spec.FloatAtLeast]

theorem Special.atLeast_trans {x y z : X α} (h : Spec.FloatAtLeast x y) (h' : Spec.FloatAtLeast y z) : Spec.FloatAtLeast x z := by
  revert h h'
  cases x <;> cases y <;> cases z <;> simp only [Spec.FloatAtLeast, imp_self, implies_true, false_implies, true_implies]
  exact fun h h' => le_trans h' h

theorem Special.gt_iff (x y : X α) (hx : x ≠ .nan) (hy : y ≠ .nan) : X.gt x y = true ↔ ¬Spec.FloatAtLeast y x := by
  cases x <;> cases y <;> simp_all [Spec.FloatAtLeast, X.gt]

/-- a fold that keeps the first `nan` and otherwise picks the best w.r.t. `better` -/
theorem Special.fold_best (gt : X α → X α → Bool) (R : X α → X α → Prop)
    (hnan : ∀ x, gt x .nan = false) (hnan' : ∀ x, gt .nan x = false)
    (href : ∀ x, R x x) (htr : ∀ x y z, x ≠ .nan → y ≠ .nan → z ≠ .nan → R x y → R y z → R x z)
    (hgt : ∀ x y, x ≠ .nan → y ≠ .nan → gt x y = true → R x y)
    (hle : ∀ x y, x ≠ .nan → y ≠ .nan → gt x y = false → R y x)
    (t : List (X α)) (x : X α) :
    (x = .nan → t.foldl (fun best v => if gt v best then v else best) x = .nan) ∧
    (x ≠ .nan → t.foldl (fun best v => if gt v best then v else best) x ≠ .nan ∧
      t.foldl (fun best v => if gt v best then v else best) x ∈ x :: t ∧
      ∀ y ∈ x :: t, y ≠ .nan → R (t.foldl (fun best v => if gt v best then v else best) x) y) := by
  induction t generalizing x with
  | nil =>
    refine ⟨fun h => h, fun h => ⟨h, by simp, ?_⟩⟩
    intro y hy _
    rw [List.mem_singleton.1 hy]; exact href _
  | cons v t ih =>
    simp only [List.foldl_cons]
    refine ⟨?_, ?_⟩
    · rintro rfl
      rw [hnan]
      exact (ih .nan).1 rfl
    · intro hx
      by_cases hg : gt v x = true
      · have hv : v ≠ .nan := by rintro rfl; rw [hnan'] at hg; cases hg
        rw [if_pos hg]
        obtain ⟨a, b, c⟩ := (ih v).2 hv
        refine ⟨a, List.mem_cons_of_mem _ b, ?_⟩
        intro y hy hyn
        rcases List.mem_cons.1 hy with rfl | hy
        · exact htr _ _ _ a hv hx (c v (by simp) hv) (hgt _ _ hv hx hg)
        · exact c y hy hyn
      · rw [if_neg hg]
        obtain ⟨a, b, c⟩ := (ih x).2 hx
        refine ⟨a, ?_, ?_⟩
        · rcases List.mem_cons.1 b with h | h
          · rw [h]; exact List.mem_cons_self
          · exact List.mem_cons_of_mem _ (List.mem_cons_of_mem _ h)
        · intro y hy hyn
          rcases List.mem_cons.1 hy with rfl | hy
          · exact c y (by simp) hyn
          rcases List.mem_cons.1 hy with rfl | hy
          · exact htr _ _ _ a hx hyn (c x (by simp) hx) (hle _ _ hyn hx (by simpa using hg))
          · exact c y (by simp [hy]) hyn

theorem Special.fold_max (t : List (X α)) (x : X α) :
    (x = .nan → t.foldl (fun best v => if X.gt v best then v else best) x = .nan) ∧
    (x ≠ .nan → t.foldl (fun best v => if X.gt v best then v else best) x ≠ .nan ∧
      t.foldl (fun best v => if X.gt v best then v else best) x ∈ x :: t ∧
      ∀ y ∈ x :: t, y ≠ .nan → Spec.FloatAtLeast (t.foldl (fun best v => if X.gt v best then v else best) x) y) :=
  Special.fold_best X.gt Spec.FloatAtLeast (by intro x; cases x <;> rfl) (by intro x; cases x <;> rfl) Special.atLeast_refl
    (fun _ _ _ _ _ _ h h' => Special.atLeast_trans h h')
    (fun x y hx hy h => by
      have := (Special.gt_iff x y hx hy).1 h
      cases x <;> cases y <;> simp_all [Spec.FloatAtLeast]
      exact le_of_lt this)
    (fun x y hx hy h => by
      by_contra hc
      rw [(Special.gt_iff x y hx hy).2 hc] at h; cases h) t x

theorem Special.fold_min (t : List (X α)) (x : X α) :
    (x = .nan → t.foldl (fun best v => if X.lt v best then v else best) x = .nan) ∧
    (x ≠ .nan → t.foldl (fun best v => if X.lt v best then v else best) x ≠ .nan ∧
      t.foldl (fun best v => if X.lt v best then v else best) x ∈ x :: t ∧
      ∀ y ∈ x :: t, y ≠ .nan → Spec.FloatAtLeast y (t.foldl (fun best v => if X.lt v best then v else best) x)) :=
  Special.fold_best X.lt (fun a b => Spec.FloatAtLeast b a) (by intro x; cases x <;> rfl) (by intro x; cases x <;> rfl)
    Special.atLeast_refl
    (fun _ _ _ _ _ _ h h' => Special.atLeast_trans h' h)
    (fun x y hx hy h => by
      have := (Special.gt_iff y x hy hx).1 h
      cases x <;> cases y <;> simp_all [Spec.FloatAtLeast]
      exact le_of_lt this)
    (fun x y hx hy h => by
      by_contra hc
      have : X.lt x y = true := (Special.gt_iff y x hy hx).2 hc
      rw [this] at h; cases h) t x

theorem Special.mem_getD {q : κ} {d : δ} (v0 : X α) (y : X α) :
    y ∈ runs.map (fun run => (Spec.score? run q d).getD v0) → y = v0 ∨ y ∈ Spec.scores runs q d := by
  intro h
  obtain ⟨run, hr, rfl⟩ := List.mem_map.1 h
  cases hs : Spec.score? run q d with
  | none => exact .inl rfl
  | some v => exact .inr (List.mem_filterMap.2 ⟨run, hr, hs⟩)

theorem Special.getD_mem {q : κ} {d : δ} (v0 : X α) (y : X α) (h : y ∈ Spec.scores runs q d) :
    y ∈ runs.map (fun run => (Spec.score? run q d).getD v0) := by
  obtain ⟨run, hr, hs⟩ := List.mem_filterMap.1 h
  exact List.mem_map.2 ⟨run, hr, by rw [hs]; rfl⟩

/-- **C120** (comb_max): if the first run gives the doc `nan`, so does the fused run; otherwise `nan`s are ignored and the
doc gets the greatest of its other scores (one of them being at least -10⁹, the stand-in for an absent doc). -/
theorem C120_comb_max (hf : Spec.Fusable runs) (hs : Schedule (queryCount runs) sched) :
    ∃ out val, Special.combMax S sched runs = .ok out ∧ Spec.FusedFloats runs val out ∧
      ∀ q d, Spec.InSome runs q d →
        ((∃ first, runs.head? = some first ∧ Spec.score? first q d = some .nan) → val q d = .nan) ∧
        ((∀ first, runs.head? = some first → Spec.score? first q d ≠ some .nan) →
          (∃ s ∈ Spec.scores runs q d, s ≠ .nan ∧ Spec.FloatAtLeast s (.fin (-(10 ^ 9)))) →
          val q d ∈ Spec.scores runs q d ∧ val q d ≠ .nan ∧
            ∀ s ∈ Spec.scores runs q d, s ≠ .nan → Spec.FloatAtLeast (val q d) s) := by
  have hlist : ∀ q d, (resultsFor runs q).map (fun res => (res.get? d).getD (.fin (-(10 ^ 9)))) =
      runs.map (fun run => (Spec.score? run q d).getD (.fin (-(10 ^ 9)))) := by
    intro q d
    unfold resultsFor
    rw [List.map_map]
    apply List.map_congr_left
    intro run _
    simp only [Function.comp_apply, getD_get?]
  cases runs with
  | nil => exact absurd rfl hf.nonempty
  | cons r0 rest =>
    have hval : ∀ q d, Special.maxScore (resultsFor (r0 :: rest) q) d =
        .ok ((rest.map (fun run => (Spec.score? run q d).getD (.fin (-(10 ^ 9))))).foldl
          (fun best v => if X.gt v best then v else best) ((Spec.score? r0 q d).getD (.fin (-(10 ^ 9))))) := by
      intro q d
      unfold Special.maxScore
      rw [hlist]
      rfl
    obtain ⟨out, h1, h2⟩ := Special.fuseRun_spec S Special.maxScore
      (fun rs d => match Special.maxScore rs d with | .ok v => v | .error _ => 0) sched (r0 :: rest) hf hs
      (fun q d _ => by rw [hval])
    refine ⟨out, _, h1, h2, ?_⟩
    intro q d _
    simp only [hval]
    obtain ⟨f1, f2⟩ := Special.fold_max (rest.map (fun run => (Spec.score? run q d).getD (.fin (-(10 ^ 9)))))
      ((Spec.score? r0 q d).getD (.fin (-(10 ^ 9))))
    refine ⟨?_, ?_⟩
    · rintro ⟨first, e, h⟩
      cases e
      apply f1
      rw [h]; rfl
    · intro hno ⟨s0, hs0, hsn, hsa⟩
      have hx : (Spec.score? r0 q d).getD (.fin (-(10 ^ 9))) ≠ .nan := by
        cases hr : Spec.score? r0 q d with
        | none => exact fun e => nomatch e
        | some v => intro e; exact hno r0 rfl (by rw [hr]; exact congrArg some e)
      obtain ⟨a, b, c⟩ := f2 hx
      rw [← List.map_cons (f := fun run => (Spec.score? run q d).getD (X.fin (-(10 ^ 9 : α))))] at b c
      refine ⟨?_, a, ?_⟩
      · rcases Special.mem_getD (r0 :: rest) _ _ b with h | h
        · -- the stand-in: then every score is at most the stand-in, so `s0` equals it
          have := c s0 (Special.getD_mem (r0 :: rest) _ _ hs0) hsn
          rw [h] at this ⊢
          rw [Special.atLeast_antisymm this hsa]; exact hs0
        · exact h
      · intro s hs' hn
        exact c s (Special.getD_mem (r0 :: rest) _ _ hs') hn

/-- **C120** (comb_min): the same with the least score (one being at most 10⁹). -/
theorem C120_comb_min (hf : Spec.Fusable runs) (hs : Schedule (queryCount runs) sched) :
    ∃ out val, Special.combMin S sched runs = .ok out ∧ Spec.FusedFloats runs val out ∧
      ∀ q d, Spec.InSome runs q d →
        ((∃ first, runs.head? = some first ∧ Spec.score? first q d = some .nan) → val q d = .nan) ∧
        ((∀ first, runs.head? = some first → Spec.score? first q d ≠ some .nan) →
          (∃ s ∈ Spec.scores runs q d, s ≠ .nan ∧ Spec.FloatAtLeast (.fin (10 ^ 9)) s) →
          val q d ∈ Spec.scores runs q d ∧ val q d ≠ .nan ∧
            ∀ s ∈ Spec.scores runs q d, s ≠ .nan → Spec.FloatAtLeast s (val q d)) := by
  have hlist : ∀ q d, (resultsFor runs q).map (fun res => (res.get? d).getD (.fin (10 ^ 9))) =
      runs.map (fun run => (Spec.score? run q d).getD (.fin (10 ^ 9))) := by
    intro q d
    unfold resultsFor
    rw [List.map_map]
    apply List.map_congr_left
    intro run _
    simp only [Function.comp_apply, getD_get?]
  cases runs with
  | nil => exact absurd rfl hf.nonempty
  | cons r0 rest =>
    have hval : ∀ q d, Special.minScore (resultsFor (r0 :: rest) q) d =
        .ok ((rest.map (fun run => (Spec.score? run q d).getD (.fin (10 ^ 9)))).foldl
          (fun best v => if X.lt v best then v else best) ((Spec.score? r0 q d).getD (.fin (10 ^ 9)))) := by
      intro q d
      unfold Special.minScore
      rw [hlist]
      rfl
    obtain ⟨out, h1, h2⟩ := Special.fuseRun_spec S Special.minScore
      (fun rs d => match Special.minScore rs d with | .ok v => v | .error _ => 0) sched (r0 :: rest) hf hs
      (fun q d _ => by rw [hval])
    refine ⟨out, _, h1, h2, ?_⟩
    intro q d _
    simp only [hval]
    obtain ⟨f1, f2⟩ := Special.fold_min (rest.map (fun run => (Spec.score? run q d).getD (.fin (10 ^ 9))))
      ((Spec.score? r0 q d).getD (.fin (10 ^ 9)))
    refine ⟨?_, ?_⟩
    · rintro ⟨first, e, h⟩
      cases e
      apply f1
      rw [h]; rfl
    · intro hno ⟨s0, hs0, hsn, hsa⟩
      have hx : (Spec.score? r0 q d).getD (.fin (10 ^ 9)) ≠ .nan := by
        cases hr : Spec.score? r0 q d with
        | none => exact fun e => nomatch e
        | some v => intro e; exact hno r0 rfl (by rw [hr]; exact congrArg some e)
      obtain ⟨a, b, c⟩ := f2 hx
      rw [← List.map_cons (f := fun run => (Spec.score? run q d).getD (X.fin (10 ^ 9 : α)))] at b c
      refine ⟨?_, a, ?_⟩
      · rcases Special.mem_getD (r0 :: rest) _ _ b with h | h
        · have := c s0 (Special.getD_mem (r0 :: rest) _ _ hs0) hsn
          rw [h] at this ⊢
          rw [Special.atLeast_antisymm hsa this]; exact hs0
        · exact h
      · intro s hs' hn
        exact c s (Special.getD_mem (r0 :: rest) _ _ hs') hn

end

/-! ### refutations and examples -/

def exNanRun : Dict Nat (Dict Nat (X ℚ)) := [(0, [(1, .fin 2), (2, .nan)])]
def exNumRun : Dict Nat (Dict Nat (X ℚ)) := [(0, [(1, .fin 1), (2, .fin 3)])]
def exInfRun : Dict Nat (Dict Nat (X ℚ)) := [(0, [(1, .pinf), (2, .ninf)])]

set_option synthInstance.maxSize 1000 in
set_option synthInstance.maxHeartbeats 200000 in
/-- **C120** (refutation): with a `nan` among the scores, comb_max and comb_min depend on the order of the runs: doc 2 has
the scores `nan` and 3, and is last of the fused run or first. -/
theorem C120_order_refuted :
    Special.combMax (ArgSort.stable (X ℚ)) [0] [exNanRun, exNumRun] = .ok ⟨[(0, [(1, .fin 2), (2, .nan)])], true⟩ ∧
    Special.combMax (ArgSort.stable (X ℚ)) [0] [exNumRun, exNanRun] = .ok ⟨[(0, [(2, .fin 3), (1, .fin 2)])], true⟩ ∧
    Special.combMin (ArgSort.stable (X ℚ)) [0] [exNanRun, exNumRun] = .ok ⟨[(0, [(1, .fin 1), (2, .nan)])], true⟩ ∧
    Special.combMin (ArgSort.stable (X ℚ)) [0] [exNumRun, exNanRun] = .ok ⟨[(0, [(2, .fin 3), (1, .fin 1)])], true⟩ := by
  decide +kernel

set_option synthInstance.maxSize 1000 in
set_option synthInstance.maxHeartbeats 200000 in
/-- **C120** (refutation): a run with weight 0 destroys the ranking if its scores are infinite. -/
theorem C120_weight_refuted :
    Special.wsum (ArgSort.stable (X ℚ)) [0] [exNumRun, exInfRun] [.fin 1, .fin 0] =
      .ok ⟨[(0, [(1, .nan), (2, .nan)])], true⟩ := by
  decide +kernel

theorem exFloats_fusable : Spec.Fusable [exNumRun, exInfRun] := by
  refine ⟨by simp, ?_, ?_, ?_⟩
  · intro run hr
    simp only [List.mem_cons, List.not_mem_nil, or_false] at hr
    rcases hr with rfl | rfl <;> (unfold NodupKeys; decide)
  · intro run hr p hp
    simp only [List.mem_cons, List.not_mem_nil, or_false] at hr
    rcases hr with rfl | rfl <;> (simp only [exNumRun, exInfRun, List.mem_singleton] at hp; subst hp; unfold NodupKeys; decide)
  · intro run hr run' hr' q hq
    simp only [List.mem_cons, List.not_mem_nil, or_false] at hr hr'
    rcases hr with rfl | rfl <;> rcases hr' with rfl | rfl <;> simpa [exNumRun, exInfRun, Dict.keys] using hq

set_option synthInstance.maxSize 1000 in
set_option synthInstance.maxHeartbeats 200000 in
/-- non-vacuity of C120: the hypotheses hold, and the fused runs are -/
example : Spec.Fusable [exNumRun, exInfRun] ∧ Schedule (queryCount [exNumRun, exInfRun]) [0] ∧
    Special.combSum (ArgSort.stable (X ℚ)) [0] [exNumRun, exInfRun] = .ok ⟨[(0, [(1, .pinf), (2, .ninf)])], true⟩ ∧
    Special.combMnz (ArgSort.stable (X ℚ)) [0] [exNumRun, exNanRun] = .ok ⟨[(0, [(1, .fin 6), (2, .nan)])], true⟩ ∧
    Special.combAnz (ArgSort.stable (X ℚ)) [0] [exNumRun, exNanRun] = .ok ⟨[(0, [(1, .fin (3 / 2)), (2, .nan)])], true⟩ ∧
    Special.wsum (ArgSort.stable (X ℚ)) [0] [exNumRun, exInfRun] [.fin 1, .fin 2] =
      .ok ⟨[(0, [(1, .pinf), (2, .ninf)])], true⟩ := by
  refine ⟨exFloats_fusable, by unfold Schedule; decide, ?_, ?_, ?_, ?_⟩ <;> decide +kernel

end Ranx
