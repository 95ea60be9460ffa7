import Verif.Props.FusionBorda
import Verif.Lemmas.Fuse

/-!
# Properties C47, C51: the borda family for runs that list their queries in any order

`borda_norm` and `bordafuse` collect the candidate docs per query of the first run, and look them up for the other runs
*by position*. Here the result is characterised for all runs, whatever the order of their queries.
-/

set_option linter.unusedSectionVars false

namespace Ranx
open Dict Fuse
open _root_.Ranx.Norm (Results SetIter getCandidates toRun bordaRuns bordaParallel bordaNorm)
variable {κ δ α : Type*}

/-- Specification: the query that stands, in the first run, at the position `q` has in `run`. -/
def Spec.partner [DecidableEq κ] (runs : List (Spec.RunData κ δ α)) (run : Spec.RunData κ δ α) (q : κ) : κ :=
  ((Dict.keys ((runs[0]?).getD []))[(Dict.keys run).idxOf q]?).getD q

open Classical in
/-- Specification: the points a run gives to doc `d` of query `q` as computed: the pool is the one of the query's
partner; docs of the run get `n - i` at position `i`, the other docs of the pool share the rest, all others get none. -/
noncomputable def Spec.pairedPoints [DecidableEq κ] [DecidableEq δ] [Field α] (runs : List (Spec.RunData κ δ α))
    (run : Spec.RunData κ δ α) (q : κ) (d : δ) : Option α :=
  if (Spec.position? run q d).isSome ∨ Spec.InSome runs (Spec.partner runs run q) d then
    some (Spec.bordaPoints (Spec.poolSize runs (Spec.partner runs run q)) run q d)
  else none

/-- Specification: `out` has the queries for which `has` holds, and `score q d` for doc `d` of query `q`; queries in
increasing order, each ranking in non-increasing score order, marked as sorted. -/
structure Spec.FusedTo [LinearOrder κ] [DecidableEq δ] [LE α] (has : κ → Prop) (score : κ → δ → Option α)
    (out : Store κ δ α) : Prop where
  queries : ∀ q, q ∈ out.data.keys ↔ has q
  value : ∀ q, has q → ∀ d, (Spec.content out).read q d = score q d
  nodupQ : out.data.NodupKeys
  nodupD : ∀ p ∈ out.data, Dict.NodupKeys p.2
  ranked : ∀ p ∈ out.data, Spec.Ranked p.2.values
  ordered : out.data.keys.Pairwise (· < ·)
  flagged : out.sorted = true

/-- Specification: the sum of the numbers present, if any. -/
def Spec.sumPresent [AddMonoid α] (l : List (Option α)) : Option α :=
  if l.reduceOption = [] then none else some l.reduceOption.sum

section
variable [LinearOrder κ] [DecidableEq δ] [LinearOrder α] [Field α] [IsStrictOrderedRing α]

theorem fusable_first {runs : List (Dict κ (Results δ α))} (hf : Spec.Fusable runs) :
    ∃ r0 rest, runs = r0 :: rest ∧ r0 ∈ runs ∧ (runs[0]?).getD [] = r0 := by
  cases runs with
  | nil => exact absurd rfl hf.nonempty
  | cons a b => exact ⟨a, b, rfl, List.mem_cons_self, rfl⟩

theorem fusable_lengths {runs : List (Dict κ (Results δ α))} (hf : Spec.Fusable runs) :
    ∀ run ∈ runs, ∀ run' ∈ runs, run.length = run'.length := by
  intro run hr run' hr'
  have hp : run.keys.Perm run'.keys := (List.perm_ext_iff_of_nodup (hf.nodupQ run hr) (hf.nodupQ run' hr')).2
    (fun q => ⟨hf.same run hr run' hr' q, hf.same run' hr' run hr q⟩)
  simpa using hp.length_eq

theorem getCandidates_eq (I : SetIter δ) {runs : List (Dict κ (Results δ α))} (hf : Spec.Fusable runs) :
    getCandidates I runs = .ok ((Dict.keys ((runs[0]?).getD [])).map (candsOf I runs)) := by
  obtain ⟨r0, rest, hruns, h0, hget⟩ := fusable_first hf
  have hall : runs.all (fun run => r0.keys.all (fun q => run.contains q)) = true := by
    rw [List.all_eq_true]
    intro run hr
    rw [List.all_eq_true]
    intro q hq'
    rw [contains_iff]; exact hf.same r0 h0 run hr q hq'
  rw [hget]
  unfold candsOf
  rw [hruns] at hall ⊢
  unfold getCandidates
  simp only
  rw [if_pos hall]

/-- the candidates by position are the candidates of the partners -/
theorem candidates_partner (I : SetIter δ) {runs : List (Dict κ (Results δ α))} (hf : Spec.Fusable runs)
    (run : Dict κ (Results δ α)) (hr : run ∈ runs) :
    (Dict.keys ((runs[0]?).getD [])).map (candsOf I runs) =
      run.keys.map (fun q => candsOf I runs (Spec.partner runs run q)) := by
  obtain ⟨r0, rest, hruns, h0, hget⟩ := fusable_first hf
  have hlen := fusable_lengths hf run hr r0 h0
  have hk : (Dict.keys ((runs[0]?).getD [])) = run.keys.map (Spec.partner runs run) := by
    rw [hget]
    apply List.ext_getElem
    · simpa using hlen.symm
    · intro i h1 h2
      have hnd : run.keys.Nodup := hf.nodupQ run hr
      have hi : i < run.keys.length := by simpa using h2
      have hp : Spec.partner runs run (run.keys[i]) = r0.keys[i] := by
        unfold Spec.partner
        rw [hnd.idxOf_getElem i hi, hget, List.getElem?_eq_getElem h1]
        rfl
      rw [List.getElem_map, hp]
  rw [hk, List.map_map]
  rfl

theorem no_short {runs : List (Dict κ (Results δ α))} (hf : Spec.Fusable runs) (I : SetIter δ) :
    ¬ runs.any (fun run => decide (((Dict.keys ((runs[0]?).getD [])).map (candsOf I runs)).length < run.length)) = true := by
  obtain ⟨r0, rest, hruns, h0, hget⟩ := fusable_first hf
  intro h
  obtain ⟨run, hr, hlt⟩ := List.any_eq_true.1 h
  have := fusable_lengths hf run hr r0 h0
  rw [hget] at hlt
  simp at hlt
  omega

/-- a run rescored by bordafuse -/
def pairedRun (I : SetIter δ) (runs : List (Dict κ (Results δ α))) (run : Dict κ (Results δ α)) :
    Dict κ (Results δ α) :=
  mapRun (fun q r => bordaScore r (candsOf I runs (Spec.partner runs run q))) run

theorem bordaRescored_any (I : SetIter δ) (scheds : Nat → List Nat) (runs : List (Dict κ (Results δ α)))
    (hf : Spec.Fusable runs)
    (hss : ∀ (j : Nat) run, runs[j]? = some run → Schedule run.length (scheds j)) :
    bordaRescored scheds I runs = .ok (runs.map (pairedRun I runs)) := by
  unfold bordaRescored
  rw [getCandidates_eq I hf]
  simp only
  rw [if_neg (no_short hf I)]
  congr 1
  apply List.ext_getElem?
  intro j
  rw [List.getElem?_map, List.getElem?_map, List.getElem?_zipIdx]
  cases hj : runs[j]? with
  | none => rfl
  | some run =>
    have hr : run ∈ runs := List.mem_of_getElem? hj
    simp only [Option.map_some, Option.some.injEq, Nat.zero_add]
    rw [candidates_partner I hf run hr]
    exact bordaScoreParallel_eq (scheds j) run (hf.nodupQ run hr) (hss j run hj) _

/-- what `bordaScore` gives to any doc, in the pool or not -/
theorem bordaScore_get?_any (r : Results δ α) (hr : NodupKeys r) (cands : List δ) (hc : cands.Nodup) (x : δ) :
    (bordaScore r cands).get? x =
      if x ∈ r.keys ∨ x ∈ cands then some (match r.keys.idxOf? x with
        | some i => (cands.length : α) - (i : α)
        | none => ((cands.length : α) - (r.length : α) + 1) / 2) else none := by
  rw [bordaScore_list r hr cands hc, get?_append,
    get?_zipIdx_keys r.keys 0 (fun i => (cands.length : α) - (i : α))]
  cases hi : List.idxOf? x r.keys with
  | some i =>
    have : x ∈ r.keys := idxOf?_isSome.1 (by rw [hi]; rfl)
    rw [if_pos (.inl this)]
    simp
  | none =>
    have hnot : x ∉ r.keys := by
      intro h
      have := idxOf?_isSome.2 h
      rw [hi] at this; simp at this
    simp only [Option.map_none, Option.orElse_none, length_keys]
    rw [get?_map_pair]
    by_cases hx : x ∈ cands
    · rw [if_pos (List.mem_filter.2 ⟨hx, by simpa using hnot⟩), if_pos (.inr hx)]
    · rw [if_neg (fun h => hx (List.mem_filter.1 h).1), if_neg (fun h => h.elim hnot hx)]

theorem score?_paired (I : SetIter δ) (runs : List (Dict κ (Results δ α))) (hf : Spec.Fusable runs)
    (run : Dict κ (Results δ α)) (hr : run ∈ runs) (q : κ) (hk : q ∈ run.keys) (d : δ) :
    Spec.score? (pairedRun I runs run) q d = Spec.pairedPoints runs run q d := by
  unfold pairedRun
  rw [score?_mapRun]
  obtain ⟨r, hg⟩ := Option.isSome_iff_exists.1 (get?_isSome.2 hk)
  have hnr : NodupKeys r := hf.nodupD run hr (q, r) (mem_of_get? hg)
  rw [hg]
  simp only [Option.bind_some]
  rw [bordaScore_get?_any r hnr _ (show (candsOf I runs (Spec.partner runs run q)).Nodup from I.nodup _) d]
  unfold Spec.pairedPoints
  have hpos : (Spec.position? run q d).isSome ↔ d ∈ r.keys := by
    unfold Spec.position?
    rw [hg]
    exact idxOf?_isSome
  have hval : (match r.keys.idxOf? d with
        | some i => ((candsOf I runs (Spec.partner runs run q)).length : α) - (i : α)
        | none => (((candsOf I runs (Spec.partner runs run q)).length : α) - (r.length : α) + 1) / 2) =
      Spec.bordaPoints (Spec.poolSize runs (Spec.partner runs run q)) run q d := by
    rw [length_candsOf]
    unfold Spec.bordaPoints Spec.position?
    rw [hg]
    rfl
  by_cases h : d ∈ r.keys ∨ d ∈ candsOf I runs (Spec.partner runs run q)
  · rw [if_pos h, hval, if_pos]
    rcases h with h | h
    · exact .inl (hpos.2 h)
    · exact .inr ((mem_candsOf I runs _ d).1 h)
  · rw [if_neg h, if_neg]
    rintro (h' | h')
    · exact h (.inl (hpos.1 h'))
    · exact h (.inr ((mem_candsOf I runs _ d).2 h'))

theorem rescored_paired (I : SetIter δ) (runs : List (Dict κ (Results δ α))) :
    Rescored runs (runs.map (pairedRun I runs)) := by
  apply forall₂_map_right
  intro run hr
  refine ⟨keys_mapRun _ run, ?_⟩
  intro p hp
  obtain ⟨e, he, rfl⟩ := List.mem_map.1 hp
  exact nodupKeys_ofList _

theorem fusedTo_of (runs' : List (Dict κ (Results δ α))) (val : κ → δ → α) (out : Store κ δ α)
    (h : Spec.FusedBy runs' val out) (has : κ → Prop) (hq : ∀ q, (∃ run ∈ runs', q ∈ run.keys) ↔ has q)
    (score : κ → δ → Option α) (hs : ∀ q, has q → ∀ d, Spec.InSome runs' q d → score q d = some (val q d))
    (hn : ∀ q, has q → ∀ d, ¬ Spec.InSome runs' q d → score q d = none) : Spec.FusedTo has score out := by
  refine ⟨fun q => (h.queries q).trans (hq q), ?_, h.nodupQ, h.nodupD, h.ranked, h.ordered, h.flagged⟩
  intro q hqq d
  by_cases hd : Spec.InSome runs' q d
  · rw [h.value q d hd, hs q hqq d hd]
  · rw [hn q hqq d hd]
    by_contra hc
    exact hd ((h.docs q d).1 hc)

variable (S : ArgSort α) (sched : List Nat) (scheds : Nat → List Nat)

/-- **C51** bordafuse, queries in any order: the fused queries are those of the runs; each doc of a query gets the sum
of the points the runs give it, where each run takes the pool of the query that stands at the same position in the
first run; docs that get no points from any run are absent. -/
theorem C51_bordafuse_any_order (I : SetIter δ) (runs : List (Dict κ (Results δ α)))
    (hf : Spec.Fusable runs) (hs : Schedule (queryCount runs) sched)
    (hss : ∀ (j : Nat) run, runs[j]? = some run → Schedule run.length (scheds j)) :
    ∃ out, bordafuse S sched scheds I runs = .ok out ∧
      Spec.FusedTo (fun q => ∃ run ∈ runs, q ∈ run.keys)
        (fun q d => Spec.sumPresent (runs.map (fun run => Spec.pairedPoints runs run q d))) out := by
  unfold bordafuse
  rw [bordaRescored_any I scheds runs hf hss]
  simp only
  have hres := rescored_paired I runs
  obtain ⟨out, h1, h2⟩ := C49_comb_sum S sched _ (hres.fusable hf) (by rw [hres.queryCount]; exact hs)
  have hsc : ∀ q, (∃ run ∈ runs, q ∈ run.keys) → ∀ d,
      Spec.scores (runs.map (pairedRun I runs)) q d =
        (runs.map (fun run => Spec.pairedPoints runs run q d)).reduceOption := by
    intro q hq d
    unfold Spec.scores List.reduceOption
    rw [List.filterMap_map, List.filterMap_map]
    apply List.filterMap_congr
    intro run hr
    exact score?_paired I runs hf run hr q (Fusable_all hf hq run hr) d
  refine ⟨out, h1, fusedTo_of _ _ _ h2 _ hres.queries _ ?_ ?_⟩
  · intro q hq d hd
    rw [inSome_iff] at hd
    obtain ⟨run', hr', hd⟩ := hd
    unfold Spec.sumPresent
    rw [← hsc q hq d, if_neg]
    intro hnil
    unfold Spec.scores at hnil
    rw [List.filterMap_eq_nil_iff] at hnil
    rw [hnil run' hr'] at hd
    simp at hd
  · intro q hq d hd
    unfold Spec.sumPresent
    rw [← hsc q hq d, if_pos]
    unfold Spec.scores
    rw [List.filterMap_eq_nil_iff]
    intro run' hr'
    by_contra hc
    exact hd ((inSome_iff _ q d).2 ⟨run', hr', Option.isSome_iff_ne_none.2 hc⟩)

/-- **C51** weighted bordafuse, queries in any order: the same with each run's points multiplied by its weight. -/
theorem C51_weighted_bordafuse_any_order (I : SetIter δ) (ws : List α) (runs : List (Dict κ (Results δ α)))
    (hf : Spec.Fusable runs) (hw : runs.length ≤ ws.length) (hs : Schedule (queryCount runs) sched)
    (hss : ∀ (j : Nat) run, runs[j]? = some run → Schedule run.length (scheds j)) :
    ∃ out, weightedBordafuse S sched scheds I ws runs = .ok out ∧
      Spec.FusedTo (fun q => ∃ run ∈ runs, q ∈ run.keys)
        (fun q d => Spec.sumPresent ((runs.zip ws).map (fun rw =>
          (Spec.pairedPoints runs rw.1 q d).map (fun p => rw.2 * p)))) out := by
  unfold weightedBordafuse
  rw [bordaRescored_any I scheds runs hf hss]
  simp only
  have hres := rescored_paired I runs
  obtain ⟨out, h1, h2⟩ := C49_wsum S sched ws _ (hres.fusable hf) (by simpa using hw)
    (by rw [hres.queryCount]; exact hs)
  have hsc : ∀ q, (∃ run ∈ runs, q ∈ run.keys) → ∀ d,
      (Spec.weighted (runs.map (pairedRun I runs)) ws q d).map (fun p => p.2 * p.1) =
        ((runs.zip ws).map (fun rw => (Spec.pairedPoints runs rw.1 q d).map (fun p => rw.2 * p))).reduceOption := by
    intro q hq d
    unfold Spec.weighted List.reduceOption
    rw [List.zip_map_left, List.filterMap_map, List.filterMap_map, List.map_filterMap]
    apply List.filterMap_congr
    intro rw' hrw
    simp only [Function.comp_apply, Prod.map_fst, Prod.map_snd, id_eq]
    rw [score?_paired I runs hf rw'.1 (List.of_mem_zip hrw).1 q (Fusable_all hf hq _ (List.of_mem_zip hrw).1) d,
      Option.map_map]
    rfl
  have hnil : ∀ q, (∃ run ∈ runs, q ∈ run.keys) → ∀ d, Spec.InSome (runs.map (pairedRun I runs)) q d ↔
      ((runs.zip ws).map (fun rw => (Spec.pairedPoints runs rw.1 q d).map (fun p => rw.2 * p))).reduceOption ≠ [] := by
    intro q hq d
    rw [inSome_iff]
    constructor
    · rintro ⟨run', hr', hd⟩ he
      obtain ⟨run, hr, rfl⟩ := List.mem_map.1 hr'
      rw [score?_paired I runs hf run hr q (Fusable_all hf hq run hr) d] at hd
      obtain ⟨i, hi⟩ := List.getElem?_of_mem hr
      have hil := (List.getElem?_eq_some_iff.1 hi).1
      unfold List.reduceOption at he
      rw [List.filterMap_eq_nil_iff] at he
      have := he _ (List.mem_map.2 ⟨(run, ws[i]'(by omega)), List.mem_of_getElem? (i := i) (by
        rw [List.getElem?_zip_eq_some]; exact ⟨hi, List.getElem?_eq_getElem _⟩), rfl⟩)
      simp only [id_eq, Option.map_eq_none_iff] at this
      rw [this] at hd; simp at hd
    · intro he
      obtain ⟨x, hx⟩ := List.exists_mem_of_ne_nil _ he
      unfold List.reduceOption at hx
      obtain ⟨y, hy, hyx⟩ := List.mem_filterMap.1 hx
      obtain ⟨rw', hrw, rfl⟩ := List.mem_map.1 hy
      refine ⟨_, List.mem_map.2 ⟨rw'.1, (List.of_mem_zip hrw).1, rfl⟩, ?_⟩
      rw [score?_paired I runs hf rw'.1 (List.of_mem_zip hrw).1 q (Fusable_all hf hq _ (List.of_mem_zip hrw).1) d]
      obtain ⟨p, hp, -⟩ := Option.map_eq_some_iff.1 hyx
      rw [hp]; rfl
  refine ⟨out, h1, fusedTo_of _ _ _ h2 _ hres.queries _ ?_ ?_⟩
  · intro q hq d hd
    unfold Spec.sumPresent
    rw [if_neg ((hnil q hq d).1 hd), ← hsc q hq d]
  · intro q hq d hd
    unfold Spec.sumPresent
    rw [if_pos]
    by_contra hc
    exact hd ((hnil q hq d).2 hc)

/-- Specification: the normalized score a run gives to doc `d` of query `q` as computed by the borda normalization:
only the docs of the pool of the query's partner get one. -/
def Spec.pairedBordaNorm (runs : List (Spec.RunData κ δ α)) (run : Spec.RunData κ δ α) (q : κ) (d : δ) : α :=
  match Spec.position? run q d with
  | some i => 1 - (i : α) / (Spec.poolSize runs (Spec.partner runs run q) : α)
  | none => 1 / 2 - ((((run.get? q).getD []).length : α) - 1) /
      (2 * (Spec.poolSize runs (Spec.partner runs run q) : α))

/-- **C47** borda normalization, queries in any order: every run keeps its queries, in its order; for each query exactly
the docs of the pool of the query's partner (the query at the same position in the first run) get a score, by their
position in this run's ranking. -/
theorem C47_borda_norm_any_order (I : SetIter δ) (runs : List (Dict κ (Results δ α)))
    (hf : Spec.Fusable runs)
    (hss : ∀ (j : Nat) run, runs[j]? = some run → Schedule run.length (scheds j)) :
    ∃ out, bordaRuns I scheds runs = .ok out ∧ out.length = runs.length ∧
      ∀ (j : Nat) run run', runs[j]? = some run → out[j]? = some run' → run'.keys = run.keys ∧
        (∀ p ∈ run', NodupKeys p.2) ∧ ∀ q ∈ run.keys, ∀ d, (Spec.InSome runs (Spec.partner runs run q) d →
            Spec.score? run' q d = some (Spec.pairedBordaNorm runs run q d)) ∧
          (¬ Spec.InSome runs (Spec.partner runs run q) d → Spec.score? run' q d = none) := by
  refine ⟨runs.map (fun run => mapRun (fun q r => bordaNorm r (candsOf I runs (Spec.partner runs run q))) run), ?_, ?_, ?_⟩
  · unfold bordaRuns
    rw [getCandidates_eq I hf]
    simp only
    rw [if_neg (no_short hf I)]
    congr 1
    apply List.ext_getElem?
    intro j
    rw [List.getElem?_map, List.getElem?_map, List.getElem?_zipIdx]
    cases hj : runs[j]? with
    | none => rfl
    | some run =>
      have hr : run ∈ runs := List.mem_of_getElem? hj
      simp only [Option.map_some, Option.some.injEq, Nat.zero_add]
      rw [candidates_partner I hf run hr]
      exact bordaParallel_eq (scheds j) run (hf.nodupQ run hr) (hss j run hj) _
  · rw [List.length_map]
  intro j run run' hj hj'
  have hr : run ∈ runs := List.mem_of_getElem? hj
  rw [List.getElem?_map, hj] at hj'
  cases hj'
  refine ⟨keys_mapRun _ run, ?_, ?_⟩
  · intro p hp
    obtain ⟨e, he, rfl⟩ := List.mem_map.1 hp
    exact nodupKeys_ofList _
  intro q hq d
  obtain ⟨r, hg⟩ := Option.isSome_iff_exists.1 (get?_isSome.2 hq)
  have hnr : NodupKeys r := hf.nodupD run hr (q, r) (mem_of_get? hg)
  have hcn : (candsOf I runs (Spec.partner runs run q)).Nodup := I.nodup _
  have hval : Spec.score? (mapRun (fun q r => bordaNorm r (candsOf I runs (Spec.partner runs run q))) run) q d =
      if d ∈ candsOf I runs (Spec.partner runs run q) then some (if r.contains d then
          1 - (r.keys.idxOf d : α) / ((candsOf I runs (Spec.partner runs run q)).length : α)
        else 1 / 2 - ((r.length : α) - 1) / (2 * ((candsOf I runs (Spec.partner runs run q)).length : α))) else none := by
    rw [score?_mapRun, hg]
    simp only [Option.bind_some]
    unfold bordaNorm
    simp only
    rw [ofList_of_nodup, get?_map_pair]
    unfold NodupKeys
    rw [List.map_map]
    have : (Prod.fst ∘ fun d : δ => (d, if r.contains d = true then
        1 - (r.keys.idxOf d : α) / ((candsOf I runs (Spec.partner runs run q)).length : α)
      else 1 / 2 - ((r.length : α) - 1) / (2 * ((candsOf I runs (Spec.partner runs run q)).length : α)))) = id := rfl
    rw [this, List.map_id]
    exact hcn
  rw [hval, length_candsOf]
  constructor
  · intro h
    rw [if_pos ((mem_candsOf I runs _ d).2 h)]
    congr 1
    unfold Spec.pairedBordaNorm Spec.position?
    rw [hg]
    simp only [Option.bind_some, Option.getD_some]
    by_cases hd : d ∈ r.keys
    · rw [if_pos (contains_iff.2 hd)]
      obtain ⟨i, hi⟩ := Option.isSome_iff_exists.1 (idxOf?_isSome.2 hd)
      rw [hi]
      have : r.keys.idxOf d = i := by
        have := List.findIdx?_eq_some_iff_findIdx_eq.1 hi
        exact this.2
      rw [this]
    · rw [if_neg (fun h => hd (contains_iff.1 h))]
      cases hi : List.idxOf? d r.keys with
      | none => rfl
      | some i => exact absurd (idxOf?_isSome.1 (by rw [hi]; rfl)) hd
  · intro h
    rw [if_neg (fun hc => h ((mem_candsOf I runs _ d).1 hc))]

/-- when all runs list their queries in the same order, every query is its own partner -/
theorem partner_aligned (runs : List (Dict κ (Results δ α))) (hf : Spec.Fusable runs)
    (ha : ∀ run ∈ runs, ∀ run' ∈ runs, run.keys = run'.keys) (run : Dict κ (Results δ α)) (hr : run ∈ runs) (q : κ)
    (hq : q ∈ run.keys) : Spec.partner runs run q = q := by
  obtain ⟨r0, rest, hruns, h0, hget⟩ := fusable_first hf
  unfold Spec.partner
  rw [hget, ← ha run hr r0 h0, List.getElem?_eq_getElem (List.idxOf_lt_length_iff.2 hq), List.getElem_idxOf]
  rfl

theorem paired_keeps (score : Score δ α) (I : SetIter δ) (runs : List (Dict κ (Results δ α)))
    (hf : Spec.Fusable runs) (hs : Schedule (queryCount runs) sched) (out : Store κ δ α)
    (h : fuseRun S score sched (runs.map (pairedRun I runs)) = .ok out) (q : κ) (d : δ)
    (hd : Spec.InSome runs q d) : (Spec.content out).read q d ≠ none := by
  have hres := rescored_paired I runs
  have hl := fuseRun_local S score sched _ (hres.fusable hf) (by rw [hres.queryCount]; exact hs) out h
  obtain ⟨run, hr, r, hg, hk⟩ := hd
  have hq : q ∈ run.keys := get?_isSome.1 (by rw [hg]; rfl)
  obtain ⟨r', h1, h2⟩ := hl.get q ((hres.queries q).2 ⟨run, hr, hq⟩)
  have hnd : ∀ x ∈ resultsFor (runs.map (pairedRun I runs)) q, NodupKeys x := by
    intro x hx
    obtain ⟨run', hr', rfl⟩ := List.mem_map.1 hx
    cases hg' : run'.get? q with
    | none => exact nodupKeys_nil
    | some r1 => exact (hres.fusable hf).nodupD run' hr' (q, r1) (mem_of_get? hg')
  have hu := (unionOf_sortedCombine S score _ r' hnd h1).2 d
  have hin : d ∈ r'.keys := by
    rw [hu, mem_flatMap_resultsFor, inSome_iff]
    refine ⟨_, List.mem_map.2 ⟨run, hr, rfl⟩, ?_⟩
    rw [score?_paired I runs hf run hr q hq d]
    unfold Spec.pairedPoints
    rw [if_pos (.inl (by unfold Spec.position?; rw [hg]; exact idxOf?_isSome.2 hk))]
    rfl
  unfold Spec.Content.read Spec.content
  rw [h2]
  simpa [← Option.isSome_iff_ne_none] using get?_isSome.2 hin

/-- **C51**: bordafuse keeps every doc of every run, whatever the order of the queries. -/
theorem C51_bordafuse_keeps (I : SetIter δ) (runs : List (Dict κ (Results δ α)))
    (hf : Spec.Fusable runs) (hs : Schedule (queryCount runs) sched)
    (hss : ∀ (j : Nat) run, runs[j]? = some run → Schedule run.length (scheds j)) (out : Store κ δ α)
    (h : bordafuse S sched scheds I runs = .ok out) (q : κ) (d : δ) (hd : Spec.InSome runs q d) :
    (Spec.content out).read q d ≠ none := by
  unfold bordafuse at h
  rw [bordaRescored_any I scheds runs hf hss] at h
  exact paired_keeps S sched _ I runs hf hs out h q d hd

/-- **C51**: so does weighted bordafuse. -/
theorem C51_weighted_bordafuse_keeps (I : SetIter δ) (ws : List α) (runs : List (Dict κ (Results δ α)))
    (hf : Spec.Fusable runs) (hs : Schedule (queryCount runs) sched)
    (hss : ∀ (j : Nat) run, runs[j]? = some run → Schedule run.length (scheds j)) (out : Store κ δ α)
    (h : weightedBordafuse S sched scheds I ws runs = .ok out) (q : κ) (d : δ) (hd : Spec.InSome runs q d) :
    (Spec.content out).read q d ≠ none := by
  unfold weightedBordafuse at h
  rw [bordaRescored_any I scheds runs hf hss] at h
  exact paired_keeps S sched _ I runs hf hs out h q d hd

/-- **C47**: after the borda normalization every doc that some run has for a query has a score for that query in the
first normalized run; the runs keep their queries. -/
theorem C47_borda_norm_keeps (I : SetIter δ) (runs : List (Dict κ (Results δ α)))
    (hf : Spec.Fusable runs)
    (hss : ∀ (j : Nat) run, runs[j]? = some run → Schedule run.length (scheds j)) (out : List (Dict κ (Results δ α)))
    (h : bordaRuns I scheds runs = .ok out) :
    Spec.Fusable out ∧ List.Forall₂ (fun run run' => run'.keys = run.keys) runs out ∧
      ∀ q d, Spec.InSome runs q d → Spec.InSome out q d := by
  obtain ⟨out', h1, hlen, hall⟩ := C47_borda_norm_any_order scheds I runs hf hss
  rw [h] at h1
  cases h1
  have hF : List.Forall₂ (fun run run' => run'.keys = run.keys ∧ ∀ p ∈ run', NodupKeys p.2) runs out := by
    rw [List.forall₂_iff_get]
    refine ⟨hlen.symm, fun i h1 h2 => ?_⟩
    have := hall i runs[i] out[i] (List.getElem?_eq_getElem h1) (List.getElem?_eq_getElem h2)
    exact ⟨this.1, this.2.1⟩
  have hback : ∀ run' ∈ out, ∃ run ∈ runs, run'.keys = run.keys ∧ ∀ p ∈ run', NodupKeys p.2 := by
    intro run' hr'
    obtain ⟨i, hi⟩ := List.getElem?_of_mem hr'
    have hil := (List.getElem?_eq_some_iff.1 hi).1
    have hil' : i < runs.length := by omega
    have := hall i runs[i] run' (List.getElem?_eq_getElem hil') hi
    exact ⟨runs[i], List.getElem_mem _, this.1, this.2.1⟩
  refine ⟨⟨?_, ?_, ?_, ?_⟩, hF.imp (fun _ _ h => h.1), ?_⟩
  · intro hn
    subst hn
    exact hf.nonempty (List.eq_nil_of_length_eq_zero hlen.symm)
  · intro run' hr'
    obtain ⟨run, hr, hk, -⟩ := hback run' hr'
    rw [nodupKeys_iff, hk]
    exact hf.nodupQ run hr
  · intro run' hr'
    obtain ⟨run, hr, -, hn⟩ := hback run' hr'
    exact hn
  · intro run' hr' run'' hr'' q hq
    obtain ⟨run, hr, hk, -⟩ := hback run' hr'
    obtain ⟨run2, hr2, hk2, -⟩ := hback run'' hr''
    rw [hk] at hq
    rw [hk2]
    exact hf.same run hr run2 hr2 q hq
  · intro q d hd
    obtain ⟨r0, rest, hruns, h0, hget⟩ := fusable_first hf
    have hj : runs[0]? = some r0 := by rw [hruns]; rfl
    have hpos : 0 < out.length := by rw [hlen, hruns]; simp
    obtain ⟨-, -, hv⟩ := hall 0 r0 out[0] hj (List.getElem?_eq_getElem hpos)
    have hq0 : q ∈ r0.keys := by
      obtain ⟨run, hr, r, hg, -⟩ := hd
      exact hf.same run hr r0 h0 q (get?_isSome.1 (by rw [hg]; rfl))
    have hself : Spec.partner runs r0 q = q := by
      unfold Spec.partner
      rw [hget, List.getElem?_eq_getElem (List.idxOf_lt_length_iff.2 hq0), List.getElem_idxOf]
      rfl
    have := (hv q hq0 d).1 (by rw [hself]; exact hd)
    rw [inSome_iff]
    exact ⟨out[0], List.getElem_mem _, by rw [this]; rfl⟩

end

/-- Non-vacuity: two runs listing their queries in different orders; query 1 of the second run is paired with query 2. -/
def crossed1 : Dict Nat (Results Nat ℚ) := [(1, [(10, 5)]), (2, [(20, 1)])]
def crossed2 : Dict Nat (Results Nat ℚ) := [(2, [(20, 7)]), (1, [(12, 3)])]

set_option synthInstance.maxSize 1000 in
set_option synthInstance.maxHeartbeats 200000 in
example : Spec.Fusable [crossed1, crossed2] ∧ Spec.partner [crossed1, crossed2] crossed2 1 = 2 ∧
    Spec.partner [crossed1, crossed2] crossed1 1 = 1 ∧ Schedule (queryCount [crossed1, crossed2]) [0, 1] ∧
    bordafuse (.stable ℚ) [0, 1] (fun _ => [0, 1]) dedupIter [crossed1, crossed2] =
      .ok ⟨[(1, [(10, 2), (12, 2), (20, 1 / 2)]), (2, [(20, 3), (10, 1), (12, 1)])], true⟩ :=
  ⟨⟨by decide, by unfold NodupKeys; decide, by unfold NodupKeys; decide, by decide⟩, by decide, by decide,
    by unfold Schedule; decide, by decide +kernel⟩

end Ranx
