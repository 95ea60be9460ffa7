import Verif.Props.EndToEnd
import Verif.Props.EvaluateStd

/-!
# Properties C104, C106: what `evaluate` depends on, and what `make_comparable` does
-/

set_option linter.unusedSectionVars false

namespace Ranx
open Dict Store Eval Metrics Py
variable {κ δ ι α : Type*}
variable [LinearOrder κ] [DecidableEq δ] [LinearOrder ι] [Field α] [LinearOrder α]

/-! ## a metric sees the judgements of a query, not the order in which ties among them are stored -/

/-- the same judgements, best first -/
structure SameRows (q q' : Rows ι α) : Prop where
  perm : q.Perm q'
  nodup : (q.map Prod.fst).Nodup
  sorted : q.Pairwise (fun a b => b.2 ≤ a.2)
  sorted' : q'.Pairwise (fun a b => b.2 ≤ a.2)

theorem look_perm {q q' : Rows ι α} (hp : q.Perm q') (hn : (q.map Prod.fst).Nodup) (x : ι) : look q x = look q' x := by
  rw [look_eq_scan, look_eq_scan]
  have hn' : (q'.map Prod.fst).Nodup := (hp.map Prod.fst).nodup_iff.1 hn
  have key : ∀ (a : Rows ι α), (a.map Prod.fst).Nodup → ∀ v, scan a x = some v ↔ (x, v) ∈ a := by
    intro a ha v
    constructor
    · intro h
      have hx : x ∈ a.map Prod.fst := scan_isSome.1 (by rw [h]; rfl)
      obtain ⟨⟨y, w⟩, hm, rfl⟩ := List.mem_map.1 hx
      rw [scan_of_mem ha hm] at h
      cases h
      exact hm
    · exact scan_of_mem ha
  apply Option.ext
  intro v
  rw [key q hn, key q' hn', hp.mem_iff]

theorem SameRows.clean {q q' : Rows ι α} (h : SameRows q q') (l : α) :
    SameRows (cleanQrels q l) (cleanQrels q' l) :=
  ⟨h.perm.filter _, h.nodup.sublist (List.filter_sublist.map _), h.sorted.filter _, h.sorted'.filter _⟩

theorem SameRows.look {q q' : Rows ι α} (h : SameRows q q') (x : ι) : look q x = look q' x :=
  look_perm h.perm h.nodup x

theorem SameRows.values {q q' : Rows ι α} (h : SameRows q q') : q.map Prod.snd = q'.map Prod.snd :=
  (h.perm.map Prod.snd).eq_of_pairwise (le := fun a b : α => b ≤ a) (fun _ _ _ _ h1 h2 => le_antisymm h2 h1)
    (List.pairwise_map.2 h.sorted) (List.pairwise_map.2 h.sorted')

theorem own_grades {q : Rows ι α} (h : (q.map Prod.fst).Nodup) (l : α) (n : Nat) :
    weightedHitList (cleanQrels q l) q n = ((q.map Prod.snd).take n).map (fun v => if l ≤ v then v else 0) := by
  unfold weightedHitList
  rw [← List.map_take, List.map_map]
  apply List.map_congr_left
  rintro ⟨x, v⟩ hm
  have hm := List.mem_of_mem_take hm
  simp only [Function.comp]
  rw [look_eq_scan]
  by_cases hv : l ≤ v
  · have hs : scan (cleanQrels q l) x = some v :=
      scan_of_mem (h.sublist (List.filter_sublist.map _)) (List.mem_filter.2 ⟨hm, by simpa using hv⟩)
    rw [hs, if_pos hv]; rfl
  · rw [if_neg hv]
    cases hs : scan (cleanQrels q l) x with
    | none => rfl
    | some w =>
      have hx : x ∈ (cleanQrels q l).map Prod.fst := scan_isSome.1 (by rw [hs]; rfl)
      obtain ⟨⟨y, w'⟩, hm', rfl⟩ := List.mem_map.1 hx
      unfold cleanQrels at hm'
      rw [List.mem_filter] at hm'
      have e1 := scan_of_mem h hm
      rw [scan_of_mem h hm'.1] at e1
      cases e1
      exact absurd (by simpa using hm'.2) hv

theorem SameRows.idcg {q q' : Rows ι α} (h : SameRows q q') (gain : α → α) (disc : Nat → α) (k : Nat) (l : α) :
    idcgCore gain disc q k l = idcgCore gain disc q' k l := by
  have h' : (q'.map Prod.fst).Nodup := (h.perm.map Prod.fst).nodup_iff.1 h.nodup
  unfold idcgCore dcgCore fixK
  simp only [own_grades h.nodup, own_grades h', h.values, h.perm.length_eq, (h.clean l).perm.length_eq]

theorem kernel_qrels (F : Fn α) (m : Metric) (k : Param α) (lvl : Int) (f : Kernel ι α)
    (hf : kernel F m k lvl = .ok f) (q q' r : Rows ι α) (h : SameRows q q') : f q r = f q' r := by
  have hrel : Spec.Rel q ((lvl : Int) : α) = Spec.Rel q' ((lvl : Int) : α) := by
    funext x; unfold Spec.Rel; simp only [h.perm.mem_iff]
  have hc := h.clean ((lvl : Int) : α)
  have hlen := hc.perm.length_eq
  have hhits : ∀ n, Metrics.hits q r n (lvl : α) = Metrics.hits q' r n (lvl : α) := by
    intro n; rw [hits_eq, hits_eq, hrel]
  have hhitsc : ∀ n, Metrics.hits (cleanQrels q (lvl : α)) r n (lvl : α) =
      Metrics.hits (cleanQrels q' (lvl : α)) r n (lvl : α) := by
    intro n
    rw [hits_eq, hits_eq]
    have : Spec.Rel (cleanQrels q (lvl : α)) ((lvl : Int) : α) = Spec.Rel (cleanQrels q' (lvl : α)) ((lvl : Int) : α) := by
      funext x; unfold Spec.Rel; simp only [hc.perm.mem_iff]
    rw [this]
  have hw : ∀ n, weightedHitList (cleanQrels q (lvl : α)) r n = weightedHitList (cleanQrels q' (lvl : α)) r n := by
    intro n; unfold weightedHitList; simp only [hc.look]
  have hh : ∀ n, hitList (cleanQrels q (lvl : α)) r n = hitList (cleanQrels q' (lvl : α)) r n := by
    intro n; unfold hitList; simp only [hc.look]
  have cut : ∀ g : Nat → Kernel ι α, withCutoff k g = .ok f → (∀ n, g n q r = g n q' r) → f q r = f q' r := by
    intro g hg hgn
    unfold withCutoff at hg
    split at hg
    · cases hg; exact hgn _
    · cases hg
    · cases hg
  have hdcg : ∀ gain n, dcgCore gain F.log2Disc q r n (lvl : α) = dcgCore gain F.log2Disc q' r n (lvl : α) := by
    intro gain n
    unfold dcgCore
    simp only [hw, hlen]
  cases m
  · exact cut _ hf (fun n => by unfold total; simp only [hhits])
  · exact cut _ hf (fun n => by unfold total; simp only [hitRate_eq, hc.look])
  · exact cut _ hf (fun n => by unfold total precision; simp only [hhits])
  · exact cut _ hf (fun n => by unfold total recall; simp only [hlen, hhitsc])
  · exact cut _ hf (fun n => by unfold total f1; simp only [hlen, hhitsc])
  · simp only [kernel, Except.ok.injEq] at hf
    subst hf
    unfold total rPrecision precision
    simp only [hlen, hhitsc]
  · exact cut _ hf (fun n => by
      unfold total reciprocalRank
      have : ∀ (t : Rows ι α) i, rrLoop (cleanQrels q (lvl : α)) t i = rrLoop (cleanQrels q' (lvl : α)) t i := by
        intro t
        induction t with
        | nil => intro i; rfl
        | cons a t ih =>
          intro i
          unfold rrLoop
          simp only [ih, (hc.perm.map Prod.fst).mem_iff]
      simp only [hlen, this])
  · exact cut _ hf (fun n => by unfold total averagePrecision; simp only [hlen, hh])
  · exact cut _ hf (fun n => by unfold total; simp only [hdcg])
  · exact cut _ hf (fun n => by unfold total; simp only [hdcg])
  · exact cut _ hf (fun n => by unfold total ndcgCore; simp only [hdcg, h.idcg])
  · exact cut _ hf (fun n => by unfold total ndcgCore; simp only [hdcg, h.idcg])
  · simp only [kernel, Except.ok.injEq] at hf
    subst hf
    unfold bpref
    have e1 := (h.perm.filter (fun r => decide (((lvl : Int) : α) ≤ r.2))).length_eq
    have e2 := (h.perm.filter (fun r => decide (r.2 < ((lvl : Int) : α)))).length_eq
    simp only [getHitList_eq, getUnjudgedList_eq, hc.look, h.look, e1, e2]
  · have hr : ∀ p, rbp q r p (lvl : α) = rbp q' r p (lvl : α) := by
      intro p
      unfold rbp
      simp only [hlen, hw]
    unfold kernel at hf
    cases k <;>
    · simp only [Except.ok.injEq] at hf
      subst hf
      unfold total
      simp only [hr]

theorem metricOf_qrels (F : Fn α) (other : Str → Except Err α) (m : Str) (f : Kernel ι α)
    (hf : metricOf F other m = .ok f) (q q' r : Rows ι α) (h : SameRows q q') : f q r = f q' r := by
  unfold metricOf at hf
  split at hf
  · cases hf
  · split at hf
    · cases hf
    · exact kernel_qrels F _ _ _ f hf q q' r h

theorem scoreAll_qrels (F : Fn α) (other : Str → Except Err α) (sched : Nat → List Nat)
    (Q Q' R : List (Rows ι α)) (h : List.Forall₂ SameRows Q Q')
    (ms : List (Str × Nat)) (acc : Dict Str (List (Num α))) :
    scoreAll F other sched Q R ms acc = scoreAll F other sched Q' R ms acc := by
  induction ms generalizing acc with
  | nil => rfl
  | cons p t ih =>
    obtain ⟨m, i⟩ := p
    unfold scoreAll
    cases hf : metricOf (ι := ι) F other m with
    | error e => rfl
    | ok f =>
      have hp : parallel f (sched i) Q R = parallel f (sched i) Q' R := by
        unfold parallel
        rw [h.length_eq]
        congr 3
        funext j
        apply metricOf_qrels F other m f hf
        have hlen := h.length_eq
        by_cases hj : j < Q.length
        · have hj' : j < Q'.length := by omega
          rw [List.getElem?_eq_getElem hj, List.getElem?_eq_getElem hj']
          exact List.Forall₂.get h hj hj'
        · rw [List.getElem?_eq_none (by omega), List.getElem?_eq_none (by omega)]
          exact ⟨.refl _, List.nodup_nil, List.Pairwise.nil, List.Pairwise.nil⟩
      simp only [hp]
      cases parallel f (sched i) Q' R with
      | error e => rfl
      | ok s => exact ih _

/-- dictionaries with increasing keys and the same entries are equal -/
theorem dict_ext_sorted {ν : Type*} {d d' : Dict κ ν} (h : d.keys.Pairwise (· < ·)) (h' : d'.keys.Pairwise (· < ·))
    (hg : ∀ q, d.get? q = d'.get? q) : d = d' := by
  have nd : d.keys.Nodup := h.imp (fun hab => ne_of_lt hab)
  have nd' : d'.keys.Nodup := h'.imp (fun hab => ne_of_lt hab)
  have hp : List.Perm d d' := by
    rw [List.perm_ext_iff_of_nodup (nd.of_map _) (nd'.of_map _)]
    rintro ⟨q, v⟩
    rw [← get?_eq_some_iff nd, ← get?_eq_some_iff nd', hg]
  exact hp.eq_of_pairwise (le := fun a b => a.1 < b.1) (fun a b _ _ h1 h2 => absurd h1 (asymm h2))
    (List.pairwise_map.1 h) (List.pairwise_map.1 h')

theorem comparable_congr (SR : ArgSort α) (o : Opts) (s s' : Store κ δ Int) (r : RunObj κ δ α) (hr : Wf r.store.data)
    (hk : ∀ q, q ∈ s.data.keys ↔ q ∈ s'.data.keys) : comparable SR o s r = comparable SR o s' r := by
  unfold comparable
  by_cases hm : o.makeComparable
  · rw [if_pos hm, if_pos hm]
    obtain ⟨d, hw, hg, he⟩ := makeComparable_spec SR r.store s.data.keys hr
    obtain ⟨d', hw', hg', he'⟩ := makeComparable_spec SR r.store s'.data.keys hr
    rw [he, he']
    congr 1
    apply dict_ext_sorted (keys_sortAll_sorted SR hw.1) (keys_sortAll_sorted SR hw'.1)
    intro q
    rw [get?_sortAll SR hw.1, get?_sortAll SR hw'.1, hg, hg']
    by_cases hq : q ∈ s.data.keys
    · rw [if_pos hq, if_pos ((hk q).1 hq)]
    · rw [if_neg hq, if_neg (fun h => hq ((hk q).2 h))]
  · rw [if_neg hm, if_neg hm]

/-- Specification: the hash tells the judged docs of `q` apart. -/
def Spec.JudgedApart (hash : δ → ι) (s : Store κ δ Int) (q : κ) : Prop :=
  ∀ d d' v v', (Spec.content s).read q d = some v → (Spec.content s).read q d' = some v' → hash d = hash d' → d = d'

theorem sameRows_of_rankings [IsStrictOrderedRing α] {hash : δ → ι} {s s' : Store κ δ Int} {q : κ} {l l' : List (δ × Int)}
    (ha : Spec.JudgedApart hash s q) (hc : ∀ d, (Spec.content s).read q d = (Spec.content s').read q d)
    (hl : Spec.Ranking (Spec.content s) q l) (hl' : Spec.Ranking (Spec.content s') q l') :
    SameRows (l.map (fun p => (hash p.1, ((p.2 : Int) : α)))) (l'.map (fun p => (hash p.1, ((p.2 : Int) : α)))) := by
  have hp : l.Perm l' := by
    rw [List.perm_ext_iff_of_nodup (hl.nodup.of_map _) (hl'.nodup.of_map _)]
    rintro ⟨d, v⟩
    rw [hl.docs, hl'.docs, hc]
  refine ⟨hp.map _, ?_, ?_, ?_⟩
  · rw [List.map_map]
    have : (l.map (Prod.fst ∘ fun p => (hash p.1, ((p.2 : Int) : α)))) = (l.map Prod.fst).map hash := by
      rw [List.map_map]; rfl
    rw [this]
    apply List.Nodup.map_on _ hl.nodup
    intro d hd d' hd' he
    obtain ⟨⟨d, v⟩, hm, rfl⟩ := List.mem_map.1 hd
    obtain ⟨⟨d', v'⟩, hm', rfl⟩ := List.mem_map.1 hd'
    exact ha d d' v v' ((hl.docs _ _).1 hm) ((hl.docs _ _).1 hm') he
  · rw [List.pairwise_map]
    exact hl.sorted.imp (fun h => by simp only; exact_mod_cast h)
  · rw [List.pairwise_map]
    exact hl'.sorted.imp (fun h => by simp only; exact_mod_cast h)

/-- `evaluate` sees of the qrels only which judgements they hold -/
theorem evaluate_same_qrels_ok [IsStrictOrderedRing α] (F : Fn α) (other : Str → Except Err α)
    (SQ SQ' : ArgSort Int) (SR : ArgSort α) (hash : δ → ι) (sched : Nat → List Nat) (o : Opts)
    (s s' : Store κ δ Int) (r : RunObj κ δ α) (ms : List Str) (hs : Wf s.data ∧ FlagOk s) (hs' : Wf s'.data ∧ FlagOk s')
    (hr : Wf r.store.data ∧ FlagOk r.store) (hk : ∀ q, q ∈ s.data.keys ↔ q ∈ s'.data.keys)
    (hc : ∀ q d, (Spec.content s).read q d = (Spec.content s').read q d)
    (ha : ∀ q ∈ s.data.keys, Spec.JudgedApart hash s q) :
    (evaluate F other SQ SR hash sched o (.obj s) (.obj r) ms).2 =
      (evaluate F other SQ' SR hash sched o (.obj s') (.obj r) ms).2 := by
  rw [evaluate_obj, evaluate_obj, ← comparable_congr SR o s s' r hr.1 hk]
  have hsame : sameKeys s.data.keys (comparable SR o s r).data.keys =
      sameKeys s'.data.keys (comparable SR o s r).data.keys := by
    rw [Bool.eq_iff_iff]
    unfold sameKeys
    simp only [Bool.and_eq_true, List.all_eq_true, List.contains_iff_mem, hk]
  rw [hsame]
  by_cases hkk : sameKeys s'.data.keys (comparable SR o s r).data.keys = true
  · rw [if_pos hkk, if_pos hkk]
    obtain ⟨w1, c1, k1, rk1, o1, l1⟩ := ensureSorted_facts SQ s hs.1 hs.2
    obtain ⟨w2, c2, k2, rk2, o2, l2⟩ := ensureSorted_facts SQ' s' hs'.1 hs'.2
    have hkeys : (s.ensureSorted SQ).data.keys = (s'.ensureSorted SQ').data.keys :=
      eq_of_mem_iff_of_sorted_lt o1 o2 (fun q => by rw [k1, k2, hk])
    have hrows : List.Forall₂ SameRows (Store.rows hash (fun z : Int => (z : α)) (s.ensureSorted SQ).data)
        (Store.rows hash (fun z : Int => (z : α)) (s'.ensureSorted SQ').data) := by
      have hlen : (s.ensureSorted SQ).data.length = (s'.ensureSorted SQ').data.length := by
        simpa using congrArg List.length hkeys
      rw [List.forall₂_iff_get]
      refine ⟨by simpa [Store.rows] using hlen, ?_⟩
      intro i hi hi'
      have hi1 : i < (s.ensureSorted SQ).data.length := by simpa [Store.rows] using hi
      have hi2 : i < (s'.ensureSorted SQ').data.length := by omega
      simp only [Store.rows, Dict.values, List.get_eq_getElem, List.getElem_map]
      have hkey : ((s.ensureSorted SQ).data[i]).1 = ((s'.ensureSorted SQ').data[i]).1 := by
        have := congrArg (fun x => x[i]?) hkeys
        simp only [Dict.keys, List.getElem?_map, List.getElem?_eq_getElem hi1,
          List.getElem?_eq_getElem hi2, Option.map_some, Option.some.injEq] at this
        exact this
      set p := (s.ensureSorted SQ).data[i] with hp
      set p' := (s'.ensureSorted SQ').data[i] with hp'
      have m1 : p ∈ (s.ensureSorted SQ).data := List.getElem_mem hi1
      have m2 : p' ∈ (s'.ensureSorted SQ').data := List.getElem_mem hi2
      have r1 := ranking_of_mem _ w1 rk1 (get?_of_mem w1.1 m1)
      have r2 := ranking_of_mem _ w2 rk2 (get?_of_mem w2.1 m2)
      rw [c1] at r1
      rw [c2] at r2
      have r2 : Spec.Ranking (Spec.content s') p.1 p'.2 := by rw [hkey]; exact r2
      refine sameRows_of_rankings (ha p.1 ?_) (hc p.1) r1 r2
      rw [← k1]
      exact List.mem_map_of_mem (f := Prod.fst) m1
    rw [scoreAll_qrels F other sched _ _ _ hrows]
    cases scoreAll F other sched (Store.rows hash (fun z : Int => (z : α)) (s'.ensureSorted SQ').data)
        (Store.rows hash id ((comparable SR o s r).ensureSorted SR).data) ms.zipIdx [] <;> rfl
  · rw [if_neg hkk, if_neg hkk]

theorem evaluate_same_qrels [IsStrictOrderedRing α] (F : Fn α) (other : Str → Except Err α)
    (SQ SQ' : ArgSort Int) (SR : ArgSort α) (hash : δ → ι) (sched : Nat → List Nat) (o : Opts)
    (s s' : Store κ δ Int) (r : RunObj κ δ α) (ms : List Str) (hs : Spec.Usable SQ s) (hs' : Spec.Usable SQ' s')
    (hr : Spec.Usable SR r.store) (hk : ∀ q, q ∈ s.data.keys ↔ q ∈ s'.data.keys)
    (hc : ∀ q d, (Spec.content s).read q d = (Spec.content s').read q d)
    (ha : ∀ q ∈ s.data.keys, Spec.JudgedApart hash s q) :
    (evaluate F other SQ SR hash sched o (.obj s) (.obj r) ms).2 =
      (evaluate F other SQ' SR hash sched o (.obj s') (.obj r) ms).2 :=
  evaluate_same_qrels_ok F other SQ SQ' SR hash sched o s s' r ms hs.ok hs'.ok hr.ok hk hc ha

/-- the result of `evaluate` is a function of the judgements and of the scores, for tie-free runs -/
theorem evaluate_content_ok [IsStrictOrderedRing α] (F : Fn α) (other : Str → Except Err α)
    (SQ SQ' : ArgSort Int) (SR SR' : ArgSort α) (hash : δ → ι) (sched : Nat → List Nat) (o : Opts)
    (s s' : Store κ δ Int) (r r' : RunObj κ δ α) (ms : List Str) (hs : Wf s.data ∧ FlagOk s)
    (hs' : Wf s'.data ∧ FlagOk s') (hr : Wf r.store.data ∧ FlagOk r.store) (hr' : Wf r'.store.data ∧ FlagOk r'.store)
    (hk : ∀ q, q ∈ s.data.keys ↔ q ∈ s'.data.keys)
    (hc : ∀ q d, (Spec.content s).read q d = (Spec.content s').read q d)
    (ha : ∀ q ∈ s.data.keys, Spec.JudgedApart hash s q)
    (hk' : ∀ q, q ∈ r.store.data.keys ↔ q ∈ r'.store.data.keys)
    (hc' : ∀ q d, (Spec.content r.store).read q d = (Spec.content r'.store).read q d)
    (htie : ∀ q d d' v, (Spec.content r.store).read q d = some v → (Spec.content r.store).read q d' = some v → d = d') :
    (evaluate F other SQ SR hash sched o (.obj s) (.obj r) ms).2 =
      (evaluate F other SQ' SR' hash sched o (.obj s') (.obj r') ms).2 := by
  rw [evaluate_same_qrels_ok F other SQ SQ' SR hash sched o s s' r ms hs hs' hr hk hc ha]
  refine evaluate_same_order_ok F other SQ' SR SR' hash sched o s' r r' ms hs' hr hr' (.inr hk') (fun q _ => ⟨?_, htie q, ?_⟩)
  · intro d; rw [hc']
  · intro d d' v v' w w' h1 h2 h3 h4 hlt
    rw [← hc', h1] at h3
    rw [← hc', h2] at h4
    cases h3
    cases h4
    exact hlt

/-! ## C104: `make_comparable` -/

/-- Specification: `m` is written `name`, `name@k`, `name-lL` or `name@k-lL` for one of the twelve metrics other than
bpref and rbp, or `rbp.95`, `rbp@95`, `rbp.95-lL`, `rbp@95-lL` (any digits). -/
def Spec.MetricText (m : Str) : Prop :=
  (∃ name ∈ ["hits", "hit_rate", "precision", "recall", "f1", "r-precision", "mrr", "map", "dcg", "dcg_burges", "ndcg",
      "ndcg_burges"], ∃ k L, Spec.Asks name k L m) ∨
  ∃ (ds : Str) (sep : Char) (L : Nat), (∀ c ∈ ds, c.isDigit = true) ∧ (sep = '.' ∨ sep = '@') ∧
    (m = "rbp".toList ++ sep :: ds ∨ m = "rbp".toList ++ sep :: ds ++ "-l".toList ++ natStr L)

theorem hits_nil (q : Rows ι α) (k : Nat) (l : α) : Metrics.hits q [] k l = 0 := by
  rw [hits_eq, List.map_nil]
  unfold Spec.hits Spec.relIn Spec.top
  simp

theorem dcgCore_nil (gain : α → α) (disc : Nat → α) (q : Rows ι α) (k : Nat) (l : α) : dcgCore gain disc q [] k l = 0 := by
  unfold dcgCore weightedHitList
  simp

/-- a metric of an empty ranking -/
theorem kernel_empty [IsStrictOrderedRing α] (F : Fn α) (met : Metric) (hb : met ≠ .bpref) (hrb : met ≠ .rbp) (k L : Nat) :
    ∃ g : Rows ι α → Rows ι α → α, kernel F met (.cutoff (k : Int)) (L : Int) = .ok (total g) ∧ ∀ q, g q [] = 0 := by
  have hp : ∀ (q : Rows ι α) n (l : α), precision q [] n l = 0 := by
    intro q n l; unfold precision; simp only [hits_nil]; split <;> simp
  cases met with
  | hits => exact ⟨_, rfl, fun q => hits_nil q k _⟩
  | hitRate => exact ⟨_, rfl, fun q => by unfold hitRate hitRateLoop; simp⟩
  | precision => exact ⟨_, rfl, fun q => hp q k _⟩
  | recall => exact ⟨_, rfl, fun q => by unfold recall; simp [hits_nil]⟩
  | f1 => exact ⟨_, rfl, fun q => by beta_reduce; rw [f1_closed]; simp [hp]⟩
  | rPrecision => exact ⟨_, rfl, fun q => by unfold rPrecision; simp [hp]⟩
  | mrr => exact ⟨_, rfl, fun q => by unfold reciprocalRank rrLoop; simp⟩
  | map => exact ⟨_, rfl, fun q => by
      have h0 : fixK k ([] : Rows ι α) = 0 := by unfold fixK; simp
      unfold averagePrecision
      simp [h0]⟩
  | dcg => exact ⟨_, rfl, fun q => dcgCore_nil _ _ q k _⟩
  | dcgBurges => exact ⟨_, rfl, fun q => dcgCore_nil _ _ q k _⟩
  | ndcg => exact ⟨_, rfl, fun q => by unfold ndcgCore; simp [dcgCore_nil]⟩
  | ndcgBurges => exact ⟨_, rfl, fun q => by unfold ndcgCore; simp [dcgCore_nil]⟩
  | bpref => exact absurd rfl hb
  | rbp => exact absurd rfl hrb

theorem metricText_kernel [IsStrictOrderedRing α] (F : Fn α) (other : Str → Except Err α) (m : Str) (h : Spec.MetricText m) :
    ∃ g : Rows ι α → Rows ι α → α, metricOf F other m = .ok (total g) ∧ ∀ q, g q [] = 0 := by
  rcases h with ⟨name, hn, k, L, hask⟩ | ⟨ds, sep, L, hd, hsep, hm⟩
  · have main : ∀ met, metricSwitch name.toList = .ok met → met ≠ .bpref → met ≠ .rbp →
        ∃ g : Rows ι α → Rows ι α → α, metricOf F other m = .ok (total g) ∧ ∀ q, g q [] = 0 := by
      intro met hsw h1 h2
      rw [metricOf_asks F other name k L met (plain_names _ (by
        revert hn; simp only [List.mem_cons, List.not_mem_nil, or_false]; tauto)) hsw m hask]
      exact kernel_empty F met h1 h2 k L
    simp only [List.mem_cons, List.not_mem_nil, or_false] at hn
    rcases hn with rfl | rfl | rfl | rfl | rfl | rfl | rfl | rfl | rfl | rfl | rfl | rfl
    · exact main .hits (by decide +kernel) (by decide) (by decide)
    · exact main .hitRate (by decide +kernel) (by decide) (by decide)
    · exact main .precision (by decide +kernel) (by decide) (by decide)
    · exact main .recall (by decide +kernel) (by decide) (by decide)
    · exact main .f1 (by decide +kernel) (by decide) (by decide)
    · exact main .rPrecision (by decide +kernel) (by decide) (by decide)
    · exact main .mrr (by decide +kernel) (by decide) (by decide)
    · exact main .map (by decide +kernel) (by decide) (by decide)
    · exact main .dcg (by decide +kernel) (by decide) (by decide)
    · exact main .dcgBurges (by decide +kernel) (by decide) (by decide)
    · exact main .ndcg (by decide +kernel) (by decide) (by decide)
    · exact main .ndcgBurges (by decide +kernel) (by decide) (by decide)
  · have hsw : metricSwitch "rbp".toList = .ok .rbp := by decide +kernel
    obtain ⟨L', key⟩ : ∃ L' : Nat, extract other m =
        .ok ("rbp".toList, .persistence ((Nat.ofDigitChars 10 ds 0 : α) / 10 ^ ds.length), (L' : Int)) := by
      rcases hm with rfl | rfl
      · exact ⟨1, ((C30_rbp other ds hd 0).1 sep hsep).1⟩
      · exact ⟨L, ((C30_rbp other ds hd L).1 sep hsep).2⟩
    refine ⟨fun a b => Metrics.rbp a b ((Nat.ofDigitChars 10 ds 0 : α) / 10 ^ ds.length) (((L' : Int) : α)), ?_, ?_⟩
    · unfold metricOf
      rw [key]
      simp only [hsw]
      rfl
    · intro q
      unfold rbp weightedHitList
      simp

/-- **C104**: with `make_comparable=True`, whatever queries qrels and run have, every metric (bpref apart) is computed:
each query of the qrels gets a score, 0 if the run has no docs for it, and the mean is the sum of the scores of the
queries the run answers divided by the number of queries of the qrels. -/
theorem C104_make_comparable [IsStrictOrderedRing α] (F : Fn α) (other : Str → Except Err α) (SQ : ArgSort Int)
    (SR : ArgSort α) (hash : δ → ι) (sched : Nat → List Nat) (o : Opts) (hmc : o.makeComparable = true)
    (ho : o.save = true) (hmean : o.returnMean = true) (hstd : o.returnStd = false) (s : Store κ δ Int)
    (r : RunObj κ δ α) (ms : List Str) (hms : ∀ m ∈ ms, Spec.MetricText m) (hs : Spec.Usable SQ s)
    (hr : Spec.Usable SR r.store) (hsched : ∀ i, Schedule s.data.length (sched i)) (hne : s.data ≠ []) :
    ∃ after out r', evaluate F other SQ SR hash sched o (.obj s) (.obj r) ms = (after, .ok out) ∧
      after.run = .obj r' ∧ ∀ m ∈ ms, ∃ score : κ → α,
        (∀ q ∈ s.data.keys, r'.saved m q = some (.val (score q))) ∧
        (∀ q ∈ s.data.keys, (∀ d, (Spec.content r.store).read q d = none) → score q = 0) ∧
        Spec.Reports ms out m (.mean (.val (((s.data.keys.filter (· ∈ r.store.data.keys)).map score).sum /
          (s.data.keys.length : α)))) := by
  obtain ⟨after, out, h⟩ := C31_succeeds F other SQ SR hash sched o (.inl ho) s r ms hs hr hsched (.inl hmc)
    (fun m hm => by
      obtain ⟨g, hg, -⟩ := metricText_kernel (ι := ι) F other m (hms m hm)
      exact ⟨_, hg, fun a b => ⟨_, rfl⟩⟩)
  obtain ⟨r', ha, hall⟩ := C31_pairs_queries F other SQ SR hash sched o ho s r ms hs hr hsched after out h
  refine ⟨after, out, r', h, ha, ?_⟩
  intro m hm
  obtain ⟨f, hf, hv⟩ := hall m hm
  obtain ⟨g, hg, hg0⟩ := metricText_kernel (ι := ι) F other m (hms m hm)
  rw [hg] at hf
  cases hf
  have hex : ∀ q ∈ s.data.keys, ∃ v, r'.saved m q = some (.val v) ∧
      ((∀ d, (Spec.content r.store).read q d = none) → v = 0) := by
    intro q hq
    obtain ⟨jl, rl, v, h1, h2, h3, h4⟩ := hv q hq
    unfold total at h3
    cases h3
    refine ⟨_, h4, ?_⟩
    intro hno
    have : rl = [] := by
      apply List.eq_nil_iff_forall_not_mem.2
      rintro ⟨d, v⟩ hmem
      have := (h2.docs d v).1 hmem
      rw [hno] at this
      cases this
    subst this
    exact hg0 _
  choose! score hsc h0 using hex
  refine ⟨score, hsc, h0, ?_⟩
  have := (C32_means F other SQ SR hash sched o ho hmean hstd s r ms m hm hs hr hsched hne after out h r' ha score hsc).1
  unfold Spec.meanOver at this
  have hsum : ∀ l : List κ, (∀ q ∈ l, q ∈ s.data.keys) →
      (l.map score).sum = ((l.filter (· ∈ r.store.data.keys)).map score).sum := by
    intro l hl
    induction l with
    | nil => rfl
    | cons q t ih =>
      have ih := ih (fun x hx => hl x (List.mem_cons_of_mem _ hx))
      by_cases hq : q ∈ r.store.data.keys
      · rw [List.filter_cons_of_pos (by simpa using hq), List.map_cons, List.map_cons, List.sum_cons, List.sum_cons, ih]
      · rw [List.filter_cons_of_neg (by simpa using hq), List.map_cons, List.sum_cons, ih,
          h0 q (hl q List.mem_cons_self) (fun d => by
            unfold Spec.Content.read Spec.content
            rw [get?_eq_none.2 hq]; rfl), zero_add]
  rw [hsum _ (fun q hq => hq)] at this
  exact this

/-- **C104** (extra queries): queries of the run that the qrels do not have play no role: two tie-free runs with the
same docs in the same order for the queries of the qrels get the same result. -/
theorem C104_extra_queries [IsStrictOrderedRing α] (F : Fn α) (other : Str → Except Err α)
    (SQ : ArgSort Int) (SR SR' : ArgSort α) (hash : δ → ι) (sched : Nat → List Nat) (o : Opts)
    (hmc : o.makeComparable = true) (s : Store κ δ Int) (r r' : RunObj κ δ α) (ms : List Str) (hs : Spec.Usable SQ s)
    (hr : Spec.Usable SR r.store) (hr' : Spec.Usable SR' r'.store)
    (hord : ∀ q ∈ s.data.keys, Spec.SameRanking (Spec.content r.store) (Spec.content r'.store) q) :
    (evaluate F other SQ SR hash sched o (.obj s) (.obj r) ms).2 =
      (evaluate F other SQ SR' hash sched o (.obj s) (.obj r') ms).2 :=
  evaluate_same_order F other SQ SR SR' hash sched o s r r' ms hs hr hr' (.inl hmc) hord

/-- non-vacuity of `C104`: query 2 is missing from the run and counts 0, query 3 of the run is ignored; precision@2 of
query 1 is 1/2, the mean over the two queries of the qrels 1/4. -/
example : (∀ m ∈ ["precision@2".toList], Spec.MetricText m) ∧ exQrelsObj.data ≠ [] ∧
    (2 ∈ exQrelsObj.data.keys ∧ 2 ∉ exRunObj.store.data.keys ∧ 3 ∈ exRunObj.store.data.keys) := by
  refine ⟨?_, by decide, by decide⟩
  intro m hm
  rw [List.mem_singleton] at hm
  subst hm
  exact .inl ⟨"precision", by decide, 2, 1, .inr (.inl ⟨by decide +kernel, rfl⟩)⟩

example : (Eval.evaluate ratFn (fun _ => .error .valueError) (ArgSort.stable Int) (ArgSort.stable ℚ) (id : Nat → Nat)
      (fun _ => [1, 0]) { makeComparable := true } (.obj exQrelsObj) (.obj exRunObj) ["precision@2".toList]).2 =
    .ok (.single (.mean (.val (1 / 4)))) := by decide +kernel

/-! ## C106: only the judgements matter -/

/-- **C106**: two qrels holding the same judgements, built in any order, by any constructor and sorted by any argsort,
give the same result of `evaluate` — the same means, scores or exception — as long as the hash tells the judged docs
of a query apart. -/
theorem C106_judgements_only [IsStrictOrderedRing α] (F : Fn α) (other : Str → Except Err α)
    (SQ SQ' : ArgSort Int) (SR : ArgSort α) (hash : δ → ι) (sched : Nat → List Nat) (o : Opts)
    (s s' : Store κ δ Int) (r : RunObj κ δ α) (ms : List Str) (hs : Spec.Usable SQ s) (hs' : Spec.Usable SQ' s')
    (hr : Spec.Usable SR r.store) (hk : ∀ q, q ∈ s.data.keys ↔ q ∈ s'.data.keys)
    (hc : ∀ q d, (Spec.content s).read q d = (Spec.content s').read q d)
    (ha : ∀ q ∈ s.data.keys, Spec.JudgedApart hash s q) :
    (evaluate F other SQ SR hash sched o (.obj s) (.obj r) ms).2 =
      (evaluate F other SQ' SR hash sched o (.obj s') (.obj r) ms).2 :=
  evaluate_same_qrels F other SQ SQ' SR hash sched o s s' r ms hs hs' hr hk hc ha

/-- **C106** (both sides): and two tie-free runs with the same content too, so the whole result is a function of the
judgements and of the scores. -/
theorem C106_content_only [IsStrictOrderedRing α] (F : Fn α) (other : Str → Except Err α)
    (SQ SQ' : ArgSort Int) (SR SR' : ArgSort α) (hash : δ → ι) (sched : Nat → List Nat) (o : Opts)
    (s s' : Store κ δ Int) (r r' : RunObj κ δ α) (ms : List Str) (hs : Spec.Usable SQ s) (hs' : Spec.Usable SQ' s')
    (hr : Spec.Usable SR r.store) (hr' : Spec.Usable SR' r'.store) (hk : ∀ q, q ∈ s.data.keys ↔ q ∈ s'.data.keys)
    (hc : ∀ q d, (Spec.content s).read q d = (Spec.content s').read q d)
    (ha : ∀ q ∈ s.data.keys, Spec.JudgedApart hash s q)
    (hk' : ∀ q, q ∈ r.store.data.keys ↔ q ∈ r'.store.data.keys)
    (hc' : ∀ q d, (Spec.content r.store).read q d = (Spec.content r'.store).read q d)
    (htie : ∀ q d d' v, (Spec.content r.store).read q d = some v → (Spec.content r.store).read q d' = some v → d = d') :
    (evaluate F other SQ SR hash sched o (.obj s) (.obj r) ms).2 =
      (evaluate F other SQ' SR' hash sched o (.obj s') (.obj r') ms).2 :=
  evaluate_content_ok F other SQ SQ' SR SR' hash sched o s s' r r' ms hs.ok hs'.ok hr.ok hr'.ok hk hc ha hk' hc' htie

/-- the qrels of the example, with the ties of query 1 stored the other way round -/
def exQrelsTied : Store Nat Nat Int := ⟨[(1, [(11, 1), (10, 1), (13, 0)])], true⟩
def exQrelsTied' : Store Nat Nat Int := ⟨[(1, [(13, 0), (10, 1), (11, 1)])], false⟩

example : Spec.Usable (ArgSort.stable Int) exQrelsTied ∧ Spec.Usable (ArgSort.stable Int) exQrelsTied' := by
  constructor
  · exact ⟨exQrelsTied, [], ⟨[(1, [(13, 0), (11, 1), (10, 1)])], by unfold NodupKeys; decide +kernel,
      by unfold NodupKeys; decide +kernel, .inr (by decide +kernel)⟩, rfl, by simp [Store.exec]⟩
  · exact ⟨exQrelsTied', [], ⟨exQrelsTied'.data, by unfold NodupKeys; decide +kernel,
      by unfold NodupKeys; decide +kernel, .inl rfl⟩, rfl, by simp [Store.exec]⟩

/-- non-vacuity of `C106` -/
example : exQrelsTied ≠ exQrelsTied' ∧ (∀ q, q ∈ exQrelsTied.data.keys ↔ q ∈ exQrelsTied'.data.keys) ∧
    (∀ q d, (Spec.content exQrelsTied).read q d = (Spec.content exQrelsTied').read q d) ∧
    (∀ q ∈ exQrelsTied.data.keys, Spec.JudgedApart (id : Nat → Nat) exQrelsTied q) := by
  refine ⟨(fun h => by cases h), (fun q => by simp [exQrelsTied, exQrelsTied', Dict.keys]), ?_, fun _ _ _ _ _ _ _ _ h => h⟩
  intro q d
  simp only [Spec.Content.read, Spec.content, exQrelsTied, exQrelsTied', Dict.get?]
  by_cases hq : q = 1
  · subst hq
    by_cases h1 : d = 11
    · subst h1; rfl
    · by_cases h2 : d = 10
      · subst h2; rfl
      · by_cases h3 : d = 13
        · subst h3; rfl
        · change Dict.get? _ d = Dict.get? _ d
          rw [get?_eq_none.2 (by simp [Dict.keys, h1, h2, h3]), get?_eq_none.2 (by simp [Dict.keys, h1, h2, h3])]
  · simp [Ne.symm hq]

end Ranx
