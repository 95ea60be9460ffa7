import Verif.Lemmas.Condorcet
import Verif.Props.FusionBorda

/-!
# Properties C56, C57: condorcet and weighted condorcet

All theorems hold for every iteration order of the candidate sets and for every sort with the neighbour
guarantee of CPython's (`CmpSort`).
-/

set_option linter.unusedSectionVars false

namespace Ranx
open Dict Fuse
open _root_.Ranx.Norm (Results SetIter getCandidates toRun)
variable {κ δ α : Type*}

namespace Spec
variable [DecidableEq κ] [DecidableEq δ]

/-- position `i` comes before position `j`; no position comes last -/
def before : Option Nat → Option Nat → Bool
  | some i, some j => decide (i < j)
  | some _, none => true
  | none, _ => false

/-- the run ranks `x` above `y` for query `q`; docs it does not have come after all others -/
def ranksAbove (run : RunData κ δ α) (q : κ) (x y : δ) : Bool :=
  before (position? run q x) (position? run q y)

/-- number of runs ranking `x` above `y` -/
def votes (runs : List (RunData κ δ α)) (q : κ) (x y : δ) : Nat :=
  runs.countP (fun run => ranksAbove run q x y)

/-- a strict majority of all runs ranks `x` above `y` -/
def Beats (runs : List (RunData κ δ α)) (q : κ) (x y : δ) : Prop := runs.length < 2 * votes runs q x y

/-- total weight of the runs ranking `x` above `y` -/
def voteWeight [AddCommMonoid α] (runs : List (RunData κ δ α)) (ws : List α) (q : κ) (x y : δ) : α :=
  ((runs.zip ws).map (fun rw => if ranksAbove rw.1 q x y then rw.2 else 0)).sum

/-- the runs ranking `x` above `y` weigh more than the others -/
def BeatsW [Field α] [LinearOrder α] (runs : List (RunData κ δ α)) (ws : List α) (q : κ) (x y : δ) : Prop :=
  ((runs.zip ws).map Prod.snd).sum - voteWeight runs ws q x y < voteWeight runs ws q x y

/-- `out` is a condorcet fusion of `runs`: the queries of the runs; every query's docs, each once, in an
order in which no doc is placed directly above one that beats it, with the scores n, n-1, …, 1. -/
structure CondorcetFused [Field α] (runs : List (RunData κ δ α)) (beats : κ → δ → δ → Prop)
    (out : Store κ δ α) : Prop where
  queries : ∀ q, q ∈ out.data.keys ↔ ∃ run ∈ runs, q ∈ run.keys
  ranking : ∀ q, (∃ run ∈ runs, q ∈ run.keys) → ∃ L : List δ,
    out.data.get? q = some (L.zipIdx.map (fun di => (di.1, (L.length : α) - (di.2 : α)))) ∧
    L.Nodup ∧ (∀ d, d ∈ L ↔ InSome runs q d) ∧
    ∀ (i : Nat) (a b : δ), L[i]? = some a → L[i + 1]? = some b → ¬ beats q b a

end Spec

section
variable [DecidableEq κ] [DecidableEq δ] [LinearOrder α] [Field α] [IsStrictOrderedRing α]

theorem before_iff (ox oy : Option Nat) (hx : ∀ i, ox = some i → i < 1000000)
    (hy : ∀ i, oy = some i → i < 1000000) :
    Spec.before ox oy = decide (ox.getD 1000000 < oy.getD 1000000) := by
  cases ox with
  | none =>
    cases oy with
    | none => simp [Spec.before]
    | some j =>
      have := hy j rfl
      simp [Spec.before]; omega
  | some i =>
    cases oy with
    | none =>
      have := hx i rfl
      simp [Spec.before]; omega
    | some j => simp [Spec.before]

theorem ranksAbove_iff (run : Dict κ (Results δ α)) (q : κ) (x y : δ)
    (hlen : ∀ p ∈ run, p.2.length ≤ 1000000) (hn : ∀ p ∈ run, NodupKeys p.2) :
    Spec.ranksAbove run q x y = decide (((((run.get? q).getD []).keys.idxOf? x).getD 1000000) <
      ((((run.get? q).getD []).keys.idxOf? y).getD 1000000)) := by
  unfold Spec.ranksAbove Spec.position?
  cases hq : run.get? q with
  | none => simp [Dict.keys, Spec.before]
  | some r =>
    simp only [Option.bind_some, Option.getD_some]
    have hlt : ∀ z i, r.keys.idxOf? z = some i → i < 1000000 := by
      intro z i hi
      have hrk : r.keys.Nodup := hn (q, r) (mem_of_get? hq)
      have := (List.getElem?_eq_some_iff.1 ((idxOf?_eq_some_iff hrk).1 hi)).1
      rw [length_keys] at this
      have h2 : r.length ≤ 1000000 := hlen (q, r) (mem_of_get? hq)
      omega
    exact before_iff _ _ (hlt x) (hlt y)

theorem condorcetFused_of (C : CmpSort) (I : SetIter δ) (lt : List (List Nat) → Nat → Nat → Bool)
    (beats : κ → δ → δ → Prop) (runs : List (Dict κ (Results δ α))) (hf : Spec.Fusable runs)
    (hb : ∀ q a b (cands : List δ) (x y : Nat), cands[x]? = some a → cands[y]? = some b →
      (lt (runIndices (runs.map (fun run => ((run.get? q).getD []).keys)) cands) x y = true ∨
        lt (runIndices (runs.map (fun run => ((run.get? q).getD []).keys)) cands) y x = false) →
      ¬ beats q b a) :
    ∃ out, condorcetWith C I lt runs = .ok out ∧ Spec.CondorcetFused runs beats out := by
  obtain ⟨r0, rest, hruns, heq⟩ := condorcetWith_eq C I lt runs hf
  have h0 : r0 ∈ runs := by rw [hruns]; exact List.mem_cons_self
  have hqs : ∀ q, q ∈ r0.keys ↔ ∃ run ∈ runs, q ∈ run.keys :=
    fun q => ⟨fun h => ⟨r0, h0, h⟩, fun ⟨run, hr, h⟩ => hf.same run hr r0 h0 q h⟩
  refine ⟨_, heq, ?_, ?_⟩
  · intro q
    rw [← hqs]
    unfold Dict.keys
    simp
  · intro q hq
    have hnd := I.nodup (runs.flatMap (fun run => ((run.get? q).getD []).keys))
    have hperm := condorcetOrder_perm C lt (runs.map (fun run => ((run.get? q).getD []).keys))
      (I.run (runs.flatMap (fun run => ((run.get? q).getD []).keys)))
    refine ⟨condorcetOrder C lt (runs.map (fun run => ((run.get? q).getD []).keys))
      (I.run (runs.flatMap (fun run => ((run.get? q).getD []).keys))), ?_, hperm.nodup_iff.2 hnd, ?_, ?_⟩
    · rw [hperm.length_eq, ← condorcetQuery_eq C lt _ _ hnd]
      change Dict.get? (r0.keys.map _) q = _
      rw [get?_map_pair, if_pos ((hqs q).2 hq)]
    · intro d
      rw [hperm.mem_iff]
      exact mem_candsOf I runs q d
    · intro i a b ha hb'
      obtain ⟨x, y, hx, hy, h⟩ := condorcetOrder_adjacent C lt _ _ i a b ha hb'
      exact hb q a b _ x y hx hy h

/-- what the comparison of condorcet.py counts -/
theorem compareVotes_eq (runs : List (Dict κ (Results δ α))) (hf : Spec.Fusable runs)
    (hlen : ∀ run ∈ runs, ∀ p ∈ run, p.2.length ≤ 1000000) (q : κ) (cands : List δ) (x y : Nat) (a b : δ)
    (hx : cands[x]? = some a) (hy : cands[y]? = some b) :
    compareVotes (runIndices (runs.map (fun run => ((run.get? q).getD []).keys)) cands) x y =
      decide (runs.length - Spec.votes runs q a b ≤ Spec.votes runs q a b) := by
  unfold compareVotes
  simp only
  rw [runIndices_get _ cands x a hx (· < ·) y b hy, List.countP_map]
  have : runs.countP ((fun run : List δ => decide ((run.idxOf? a).getD 1000000 < (run.idxOf? b).getD 1000000)) ∘
      fun run => ((run.get? q).getD []).keys) = Spec.votes runs q a b := by
    unfold Spec.votes
    apply List.countP_congr
    intro run hr
    rw [ranksAbove_iff run q a b (hlen run hr) (hf.nodupD run hr)]
    rfl
  rw [this]
  unfold runIndices
  rw [List.length_map, List.length_map]

theorem votes_add_le (runs : List (Dict κ (Results δ α))) (q : κ) (a b : δ) :
    Spec.votes runs q a b + Spec.votes runs q b a ≤ runs.length := by
  unfold Spec.votes
  induction runs with
  | nil => simp
  | cons run t ih =>
    rw [List.countP_cons, List.countP_cons, List.length_cons]
    have : ¬ (Spec.ranksAbove run q a b = true ∧ Spec.ranksAbove run q b a = true) := by
      unfold Spec.ranksAbove
      cases Spec.position? run q a with
      | none => simp [Spec.before]
      | some i =>
        cases Spec.position? run q b with
        | none => simp [Spec.before]
        | some j => simp [Spec.before]; omega
    by_cases h1 : Spec.ranksAbove run q a b = true
    · have h2 : ¬ Spec.ranksAbove run q b a = true := fun h => this ⟨h1, h⟩
      rw [if_pos h1, if_neg h2]; omega
    · rw [if_neg h1]
      split <;> omega

/-- **C56** condorcet: for runs over the same queries (rankings of at most 10⁶ docs), the fused run has
exactly the docs of each query, with scores n, …, 1, and no doc stands directly above one that a strict
majority of the runs prefers to it. -/
theorem C56_condorcet (C : CmpSort) (I : SetIter δ) (runs : List (Dict κ (Results δ α)))
    (hf : Spec.Fusable runs) (hlen : ∀ run ∈ runs, ∀ p ∈ run, p.2.length ≤ 1000000) :
    ∃ out, condorcet C I runs = .ok out ∧ Spec.CondorcetFused runs (Spec.Beats runs) out := by
  apply condorcetFused_of C I compareVotes (Spec.Beats runs) runs hf
  intro q a b cands x y hx hy h hbeat
  rw [compareVotes_eq runs hf hlen q cands x y a b hx hy,
    compareVotes_eq runs hf hlen q cands y x b a hy hx] at h
  have := votes_add_le runs q a b
  unfold Spec.Beats at hbeat
  rcases h with h | h
  · have := of_decide_eq_true h
    omega
  · have := of_decide_eq_false h
    omega

end

section
variable [DecidableEq κ] [DecidableEq δ] [LinearOrder α] [Field α] [IsStrictOrderedRing α]

theorem read_zipIdx (L : List δ) (hL : L.Nodup) (i : Nat) (d : δ) (hi : L[i]? = some d) :
    Dict.get? (L.zipIdx.map (fun di => (di.1, (L.length : α) - (di.2 : α)))) d =
      some ((L.length : α) - (i : α)) := by
  apply get?_of_mem
  · unfold NodupKeys
    rw [List.map_map]
    have : (Prod.fst ∘ fun di : δ × Nat => (di.1, (L.length : α) - (di.2 : α))) = Prod.fst := rfl
    rw [this, List.zipIdx_map_fst]; exact hL
  · rw [List.mem_map]
    exact ⟨(d, i), by rw [List.mk_mem_zipIdx_iff_getElem?]; exact hi, rfl⟩

theorem read_out {out : Store κ δ α} {q : κ} {r : Dict δ α} (h : out.data.get? q = some r) (d : δ) :
    (Spec.content out).read q d = r.get? d := by
  simp only [Spec.content, Spec.Content.read, h, Option.map_some, Option.bind_some]

/-- In a condorcet fusion a doc that beats every other doc of the query is first … -/
theorem winner_first {runs : List (Dict κ (Results δ α))} {beats : κ → δ → δ → Prop} {out : Store κ δ α}
    (h : Spec.CondorcetFused runs beats out) (q : κ) (w : δ) (hw : Spec.InSome runs q w)
    (hwin : ∀ y, Spec.InSome runs q y → y ≠ w → beats q w y) :
    ∃ v, (Spec.content out).read q w = some v ∧ v = (Spec.poolSize runs q : α) ∧
      ∀ y u, y ≠ w → (Spec.content out).read q y = some u → u < v := by
  obtain ⟨run, hr, r, hg, hd⟩ := hw
  have hw : Spec.InSome runs q w := ⟨run, hr, r, hg, hd⟩
  obtain ⟨L, hget, hnd, hmem, hadj⟩ := h.ranking q ⟨run, hr, get?_isSome.1 (by rw [hg]; rfl)⟩
  obtain ⟨i, hi⟩ := List.getElem?_of_mem ((hmem w).2 hw)
  have hi0 : i = 0 := by
    by_contra hne
    obtain ⟨j, rfl⟩ := Nat.exists_eq_succ_of_ne_zero hne
    have hj : j < L.length := by
      have := (List.getElem?_eq_some_iff.1 hi).1; omega
    have hjg := List.getElem?_eq_getElem hj
    have hne' : L[j] ≠ w := by
      intro he
      have := (List.getElem?_inj hj hnd).1 (hjg.trans ((congrArg some he).trans hi.symm))
      omega
    exact hadj j L[j] w hjg hi (hwin L[j] ((hmem _).1 (List.getElem_mem hj)) hne')
  subst hi0
  have hpool : L.length = Spec.poolSize runs q := by
    rw [← length_candsOf dedupIter runs q]
    apply List.Perm.length_eq
    apply (List.perm_ext_iff_of_nodup hnd (dedupIter.nodup _)).2
    intro d
    rw [hmem d, ← mem_candsOf dedupIter runs q d]; rfl
  refine ⟨(L.length : α) - ((0 : Nat) : α), ?_, ?_, ?_⟩
  · rw [read_out hget, read_zipIdx L hnd 0 w hi]
  · rw [hpool]; simp
  · intro y u hy hu
    rw [read_out hget] at hu
    have hyL : y ∈ L := by
      have : y ∈ Dict.keys (L.zipIdx.map (fun di => (di.1, (L.length : α) - (di.2 : α)))) :=
        get?_isSome.1 (by rw [hu]; rfl)
      unfold Dict.keys at this
      rw [List.map_map] at this
      have h1 : (Prod.fst ∘ fun di : δ × Nat => (di.1, (L.length : α) - (di.2 : α))) = Prod.fst := rfl
      rw [h1, List.zipIdx_map_fst] at this
      exact this
    obtain ⟨k, hk⟩ := List.getElem?_of_mem hyL
    rw [read_zipIdx L hnd k y hk] at hu
    rw [← Option.some.inj hu]
    have hk0 : 0 < k := by
      rcases Nat.eq_zero_or_pos k with rfl | h
      · rw [hk] at hi; exact absurd (Option.some.inj hi) hy
      · exact h
    have : (0 : α) < (k : α) := by exact_mod_cast hk0
    have h0 : ((0 : Nat) : α) = 0 := Nat.cast_zero
    rw [h0]
    linarith

/-- … and a doc that every other doc of the query beats is last. -/
theorem loser_last {runs : List (Dict κ (Results δ α))} {beats : κ → δ → δ → Prop} {out : Store κ δ α}
    (h : Spec.CondorcetFused runs beats out) (q : κ) (l : δ) (hl : Spec.InSome runs q l)
    (hlose : ∀ y, Spec.InSome runs q y → y ≠ l → beats q y l) :
    (Spec.content out).read q l = some 1 := by
  obtain ⟨run, hr, r, hg, hd⟩ := hl
  have hl : Spec.InSome runs q l := ⟨run, hr, r, hg, hd⟩
  obtain ⟨L, hget, hnd, hmem, hadj⟩ := h.ranking q ⟨run, hr, get?_isSome.1 (by rw [hg]; rfl)⟩
  obtain ⟨i, hi⟩ := List.getElem?_of_mem ((hmem l).2 hl)
  have hil := (List.getElem?_eq_some_iff.1 hi).1
  have hlast : i + 1 = L.length := by
    by_contra hne
    have hj : i + 1 < L.length := by omega
    have hjg := List.getElem?_eq_getElem hj
    have hne' : L[i + 1] ≠ l := by
      intro he
      have := (List.getElem?_inj hj hnd).1 (hjg.trans ((congrArg some he).trans hi.symm))
      omega
    exact hadj i l L[i + 1] hi hjg (hlose _ ((hmem _).1 (List.getElem_mem hj)) hne')
  rw [read_out hget, read_zipIdx L hnd i l hi, ← hlast]
  push_cast
  rw [add_sub_cancel_left]

/-- **C56** the condorcet winner (a doc that beats every other doc in a strict majority of the runs) gets the
strictly highest score, the number of docs of the query. -/
theorem C56_winner (C : CmpSort) (I : SetIter δ) (runs : List (Dict κ (Results δ α)))
    (hf : Spec.Fusable runs) (hlen : ∀ run ∈ runs, ∀ p ∈ run, p.2.length ≤ 1000000)
    (q : κ) (w : δ) (hw : Spec.InSome runs q w)
    (hwin : ∀ y, Spec.InSome runs q y → y ≠ w → Spec.Beats runs q w y) :
    ∃ out, condorcet C I runs = .ok out ∧
      ∃ v, (Spec.content out).read q w = some v ∧ v = (Spec.poolSize runs q : α) ∧
        ∀ y u, y ≠ w → (Spec.content out).read q y = some u → u < v := by
  obtain ⟨out, h1, h2⟩ := C56_condorcet C I runs hf hlen
  exact ⟨out, h1, winner_first h2 q w hw hwin⟩

/-- **C56** the condorcet loser is placed last, with score 1. -/
theorem C56_loser (C : CmpSort) (I : SetIter δ) (runs : List (Dict κ (Results δ α)))
    (hf : Spec.Fusable runs) (hlen : ∀ run ∈ runs, ∀ p ∈ run, p.2.length ≤ 1000000)
    (q : κ) (l : δ) (hl : Spec.InSome runs q l)
    (hlose : ∀ y, Spec.InSome runs q y → y ≠ l → Spec.Beats runs q y l) :
    ∃ out, condorcet C I runs = .ok out ∧ (Spec.content out).read q l = some 1 := by
  obtain ⟨out, h1, h2⟩ := C56_condorcet C I runs hf hlen
  exact ⟨out, h1, loser_last h2 q l hl hlose⟩

/-- **C57** (partial: the majorities are consistent, i.e. of every two docs of the query one beats the other
and `Beats` is transitive): then the fused ranking follows the majorities everywhere — in particular a doc
that all runs rank above another one scores higher. -/
theorem C57_consistent_majorities_partial (C : CmpSort) (I : SetIter δ) (runs : List (Dict κ (Results δ α)))
    (hf : Spec.Fusable runs) (hlen : ∀ run ∈ runs, ∀ p ∈ run, p.2.length ≤ 1000000) (q : κ)
    (htot : ∀ a b, Spec.InSome runs q a → Spec.InSome runs q b → a ≠ b →
      Spec.Beats runs q a b ∨ Spec.Beats runs q b a)
    (htrans : ∀ a b c, Spec.Beats runs q a b → Spec.Beats runs q b c → Spec.Beats runs q a c) :
    ∃ out, condorcet C I runs = .ok out ∧
      ∀ x y, Spec.InSome runs q x → Spec.InSome runs q y → Spec.Beats runs q x y →
        ∃ u v, (Spec.content out).read q x = some u ∧ (Spec.content out).read q y = some v ∧ v < u := by
  obtain ⟨out, h1, h2⟩ := C56_condorcet C I runs hf hlen
  refine ⟨out, h1, ?_⟩
  intro x y hx hy hxy
  obtain ⟨run, hr, r, hg, hd⟩ := hx
  have hx : Spec.InSome runs q x := ⟨run, hr, r, hg, hd⟩
  obtain ⟨L, hget, hnd, hmem, hadj⟩ := h2.ranking q ⟨run, hr, get?_isSome.1 (by rw [hg]; rfl)⟩
  have hchain : ∀ (k i : Nat) (a b : δ), L[i]? = some a → L[i + (k + 1)]? = some b → Spec.Beats runs q a b := by
    intro k
    induction k with
    | zero =>
      intro i a b ha hb
      have hne : a ≠ b := by
        rintro rfl
        have hi := (List.getElem?_eq_some_iff.1 ha).1
        have := (List.getElem?_inj hi hnd).1 (ha.trans hb.symm)
        omega
      rcases htot a b ((hmem a).1 (List.mem_of_getElem? ha)) ((hmem b).1 (List.mem_of_getElem? hb)) hne with h | h
      · exact h
      · exact absurd h (hadj i a b ha hb)
    | succ k ih =>
      intro i a b ha hb
      have hlt : i + (k + 1) < L.length := by
        have := (List.getElem?_eq_some_iff.1 hb).1; omega
      have hc := List.getElem?_eq_getElem hlt
      have hcb : Spec.Beats runs q L[i + (k + 1)] b := by
        have hne : L[i + (k + 1)] ≠ b := by
          intro he
          have := (List.getElem?_inj hlt hnd).1 (hc.trans ((congrArg some he).trans hb.symm))
          omega
        rcases htot _ b ((hmem _).1 (List.mem_of_getElem? hc)) ((hmem b).1 (List.mem_of_getElem? hb)) hne with h | h
        · exact h
        · exact absurd h (hadj (i + (k + 1)) _ b hc hb)
      exact htrans _ _ _ (ih i a _ ha hc) hcb
  obtain ⟨i, hi⟩ := List.getElem?_of_mem ((hmem x).2 hx)
  obtain ⟨j, hj⟩ := List.getElem?_of_mem ((hmem y).2 hy)
  have hasym : ¬ Spec.Beats runs q y x := by
    intro h
    have := votes_add_le runs q x y
    unfold Spec.Beats at h hxy
    omega
  have hij : i < j := by
    rcases lt_trichotomy i j with h | h | h
    · exact h
    · subst h
      rw [hi] at hj
      have := Option.some.inj hj
      subst this
      exact absurd hxy hasym
    · obtain ⟨k, rfl⟩ := Nat.exists_eq_add_of_lt h
      exact absurd (hchain k j y x hj hi) hasym
  refine ⟨_, _, (read_out hget x).trans (read_zipIdx L hnd i x hi),
    (read_out hget y).trans (read_zipIdx L hnd j y hj), ?_⟩
  have : (i : α) < (j : α) := by exact_mod_cast hij
  linarith

/-! ### weighted -/

theorem compareWeighted_votes (ws : List α) (ri : List (List Nat)) (x y n : Nat) (acc : α × α)
    (h : n + ri.length ≤ ws.length) :
    (ri.zipIdx n).foldl (fun (xy : α × α) runi =>
      if (runi.1[x]?).getD 0 < (runi.1[y]?).getD 0 then (xy.1 + (ws[runi.2]?).getD 0, xy.2)
      else (xy.1, xy.2 + (ws[runi.2]?).getD 0)) acc =
    (acc.1 + ((ri.zip (ws.drop n)).map (fun rw =>
        if (rw.1[x]?).getD 0 < (rw.1[y]?).getD 0 then rw.2 else 0)).sum,
      acc.2 + (((ri.zip (ws.drop n)).map Prod.snd).sum - ((ri.zip (ws.drop n)).map (fun rw =>
        if (rw.1[x]?).getD 0 < (rw.1[y]?).getD 0 then rw.2 else 0)).sum)) := by
  induction ri generalizing n acc with
  | nil => simp
  | cons r t ih =>
    simp only [List.length_cons] at h
    have hn : n < ws.length := by omega
    rw [List.zipIdx_cons, List.foldl_cons, ih (n + 1) _ (by omega), List.drop_eq_getElem_cons hn,
      List.zip_cons_cons, List.map_cons, List.map_cons, List.sum_cons, List.sum_cons]
    simp only [List.getElem?_eq_getElem hn, Option.getD_some]
    split_ifs <;> (apply Prod.ext <;> simp only <;> ring)

theorem compareWeighted_eq (ws : List α) (runs : List (Dict κ (Results δ α))) (hf : Spec.Fusable runs)
    (hw : runs.length ≤ ws.length)
    (hlen : ∀ run ∈ runs, ∀ p ∈ run, p.2.length ≤ 1000000) (q : κ) (cands : List δ) (x y : Nat) (a b : δ)
    (hx : cands[x]? = some a) (hy : cands[y]? = some b) :
    compareWeighted ws (runIndices (runs.map (fun run => ((run.get? q).getD []).keys)) cands) x y =
      decide (((runs.zip ws).map Prod.snd).sum - Spec.voteWeight runs ws q a b ≤
        Spec.voteWeight runs ws q a b) := by
  unfold compareWeighted
  simp only
  rw [compareWeighted_votes ws _ x y 0 (0, 0) (by unfold runIndices; simpa using hw)]
  simp only [List.drop_zero, zero_add]
  have h1 : ((runIndices (runs.map (fun run => ((run.get? q).getD []).keys)) cands).zip ws).map
      (fun rw : List Nat × α => if (rw.1[x]?).getD 0 < (rw.1[y]?).getD 0 then rw.2 else 0) =
      (runs.zip ws).map (fun rw => if Spec.ranksAbove rw.1 q a b then rw.2 else 0) := by
    unfold runIndices
    rw [List.map_map, List.zip_map_left, List.map_map]
    apply List.map_congr_left
    intro rw' hrw
    have hr := (List.of_mem_zip hrw).1
    simp only [Function.comp_apply, Prod.map_fst, Prod.map_snd, id_eq, List.getElem?_map, hx, hy,
      Option.map_some, Option.getD_some]
    rw [ranksAbove_iff rw'.1 q a b (hlen _ hr) (hf.nodupD _ hr)]
    simp
  have h2 : ((runIndices (runs.map (fun run => ((run.get? q).getD []).keys)) cands).zip ws).map Prod.snd =
      (runs.zip ws).map Prod.snd := by
    unfold runIndices
    rw [List.map_map, List.zip_map_left, List.map_map]
    rfl
  rw [h1, h2]
  rfl

theorem voteWeight_add_le (ws : List α) (hpos : ∀ w ∈ ws, 0 ≤ w) (runs : List (Dict κ (Results δ α)))
    (q : κ) (a b : δ) :
    Spec.voteWeight runs ws q a b + Spec.voteWeight runs ws q b a ≤ ((runs.zip ws).map Prod.snd).sum := by
  unfold Spec.voteWeight
  induction runs generalizing ws with
  | nil => simp
  | cons run t ih =>
    cases ws with
    | nil => simp
    | cons w ws =>
      rw [List.zip_cons_cons, List.map_cons, List.map_cons, List.map_cons, List.sum_cons, List.sum_cons,
        List.sum_cons]
      have hw : 0 ≤ w := hpos w List.mem_cons_self
      have h := ih ws (fun v hv => hpos v (List.mem_cons_of_mem _ hv))
      have : ¬ (Spec.ranksAbove run q a b = true ∧ Spec.ranksAbove run q b a = true) := by
        unfold Spec.ranksAbove
        cases Spec.position? run q a with
        | none => simp [Spec.before]
        | some i =>
          cases Spec.position? run q b with
          | none => simp [Spec.before]
          | some j => simp [Spec.before]; omega
      by_cases h1 : Spec.ranksAbove run q a b = true
      · have h2 : ¬ Spec.ranksAbove run q b a = true := fun h => this ⟨h1, h⟩
        simp only [h1, h2, if_true]
        simp only [Bool.false_eq_true, if_false]
        linarith
      · simp only [h1, Bool.false_eq_true, if_false]
        split <;> linarith

/-- **C56** weighted condorcet: the same with weighted votes, for non-negative weights. -/
theorem C56_weighted_condorcet (C : CmpSort) (I : SetIter δ) (ws : List α)
    (runs : List (Dict κ (Results δ α))) (hf : Spec.Fusable runs) (hw : runs.length ≤ ws.length)
    (hpos : ∀ w ∈ ws, 0 ≤ w) (hlen : ∀ run ∈ runs, ∀ p ∈ run, p.2.length ≤ 1000000) :
    ∃ out, weightedCondorcet C I ws runs = .ok out ∧
      Spec.CondorcetFused runs (Spec.BeatsW runs ws) out := by
  obtain ⟨out, h1, h2⟩ := condorcetFused_of C I (compareWeighted ws) (Spec.BeatsW runs ws) runs hf (by
    intro q a b cands x y hx hy h hbeat
    rw [compareWeighted_eq ws runs hf hw hlen q cands x y a b hx hy,
      compareWeighted_eq ws runs hf hw hlen q cands y x b a hy hx] at h
    have := voteWeight_add_le ws hpos runs q a b
    unfold Spec.BeatsW at hbeat
    rcases h with h | h
    · have := of_decide_eq_true h
      linarith
    · have := of_decide_eq_false h
      linarith)
  refine ⟨out, ?_, h2⟩
  unfold weightedCondorcet
  have hnl : ¬ ws.length < runs.length := not_lt.2 hw
  cases hc : getCandidates I runs with
  | error e =>
    exfalso
    unfold condorcetWith at h1
    rw [hc] at h1
    cases hg : getResults runs with
    | error e => rw [hg] at h1; simp at h1
    | ok r => rw [hg] at h1; simp at h1
  | ok c =>
    simp only
    rw [if_neg (fun h => hnl h.1)]
    exact h1

/-- **C56** the weighted condorcet winner gets the strictly highest score. -/
theorem C56_weighted_winner (C : CmpSort) (I : SetIter δ) (ws : List α)
    (runs : List (Dict κ (Results δ α))) (hf : Spec.Fusable runs) (hw : runs.length ≤ ws.length)
    (hpos : ∀ w ∈ ws, 0 ≤ w) (hlen : ∀ run ∈ runs, ∀ p ∈ run, p.2.length ≤ 1000000)
    (q : κ) (w : δ) (hin : Spec.InSome runs q w)
    (hwin : ∀ y, Spec.InSome runs q y → y ≠ w → Spec.BeatsW runs ws q w y) :
    ∃ out, weightedCondorcet C I ws runs = .ok out ∧
      ∃ v, (Spec.content out).read q w = some v ∧ v = (Spec.poolSize runs q : α) ∧
        ∀ y u, y ≠ w → (Spec.content out).read q y = some u → u < v := by
  obtain ⟨out, h1, h2⟩ := C56_weighted_condorcet C I ws runs hf hw hpos hlen
  exact ⟨out, h1, winner_first h2 q w hin hwin⟩

end

/-! ### instances and refutations -/

/-- three runs; doc 10 is the condorcet winner, doc 12 the loser -/
def condEx : List (Dict Nat (Results Nat ℚ)) :=
  [[(1, [(10, 3), (11, 2), (12, 1)])], [(1, [(11, 3), (10, 2), (12, 1)])], [(1, [(10, 9)])]]

example : Spec.Fusable condEx ∧ (∀ run ∈ condEx, ∀ p ∈ run, p.2.length ≤ 1000000) ∧
    (∀ y ∈ [11, 12], Spec.Beats condEx 1 10 y) ∧ (∀ y ∈ [10, 11], Spec.Beats condEx 1 y 12) :=
  ⟨⟨by decide, by unfold NodupKeys; decide, by unfold NodupKeys; decide, by decide⟩, by decide,
    by unfold Spec.Beats; decide, by unfold Spec.Beats; decide⟩

example : (∀ a ∈ [10, 11, 12], ∀ b ∈ [10, 11, 12], a ≠ b → Spec.Beats condEx 1 a b ∨ Spec.Beats condEx 1 b a) ∧
    (∀ a ∈ [10, 11, 12], ∀ b ∈ [10, 11, 12], ∀ c ∈ [10, 11, 12],
      Spec.Beats condEx 1 a b → Spec.Beats condEx 1 b c → Spec.Beats condEx 1 a c) := by
  unfold Spec.Beats; decide

example : readOut (condorcet .python dedupIter condEx) 1 10 = some 3 := by decide +kernel
example : readOut (condorcet .python dedupIter condEx) 1 12 = some 1 := by decide +kernel
example : readOut (weightedCondorcet .python dedupIter [1, 5, 1] condEx) 1 11 = some 3 := by decide +kernel

/-- **C57 refuted** by runs that lack both docs: only run 1 ranks docs 10 and 11, and it ranks 10 above 11;
no run ranks 11 above 10. With the candidate set iterated as 11, 10, 12, CPython's sort puts 11 above 10:
the runs with neither doc count as votes for the second argument of the comparison. -/
theorem C57_absent_runs_vote :
    ∃ (runs : List (Dict Nat (Results Nat ℚ))) (I : SetIter Nat), Spec.Fusable runs ∧
      Spec.votes runs 1 10 11 = 1 ∧ Spec.votes runs 1 11 10 = 0 ∧
      readOut (condorcet .python I runs) 1 11 = some 2 ∧
      readOut (condorcet .python I runs) 1 10 = some 1 := by
  refine ⟨[[(1, [(10, 2), (11, 1)])], [(1, [(12, 1)])], [(1, [(12, 1)])]],
    ⟨fun l => (dedupIter.run l).reverse, fun l => List.nodup_reverse.2 (dedupIter.nodup l),
      fun l x => List.mem_reverse.trans (dedupIter.mem l x)⟩,
    ⟨by decide, by unfold NodupKeys; decide, by unfold NodupKeys; decide, by decide⟩,
    by decide +kernel, by decide +kernel, by decide +kernel, by decide +kernel⟩

/-- **C57 refuted** even when every run ranks every doc: both runs rank 10 above 11, but with the candidate
set iterated as 10, 12, 11 CPython's sort returns 11, 12, 10 (ties make the comparison say `<` both ways,
which reverses the list). -/
theorem C57_ties_reverse :
    ∃ (runs : List (Dict Nat (Results Nat ℚ))) (I : SetIter Nat), Spec.Fusable runs ∧
      Spec.votes runs 1 10 11 = runs.length ∧
      readOut (condorcet .python I runs) 1 11 = some 3 ∧
      readOut (condorcet .python I runs) 1 10 = some 1 := by
  refine ⟨[[(1, [(10, 3), (11, 2), (12, 1)])], [(1, [(12, 3), (10, 2), (11, 1)])]],
    ⟨fun l => isort (fun a b => decide ((a * 2 + 1) % 3 ≤ (b * 2 + 1) % 3)) (dedupIter.run l),
      fun l => (isort_perm _ _).nodup_iff.2 (dedupIter.nodup l),
      fun l x => (isort_perm _ _).mem_iff.trans (dedupIter.mem l x)⟩,
    ⟨by decide, by unfold NodupKeys; decide, by unfold NodupKeys; decide, by decide⟩,
    by decide +kernel, by decide +kernel, by decide +kernel⟩

end Ranx
