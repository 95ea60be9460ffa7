import Verif.Props.Evaluate2
import Verif.Props.MetricString
import Verif.Props.Dcg
import Mathlib.Data.Set.Card

/-!
# Property C84: metric strings, objects and textbook values end to end
-/

set_option linter.unusedSectionVars false

namespace Ranx
open Dict Store Eval Metrics Py
variable {κ δ ι α : Type*}
variable [LinearOrder κ] [DecidableEq δ] [LinearOrder ι] [Field α] [LinearOrder α]
  [IsStrictOrderedRing α]

/-- Specification: doc `d` is judged relevant for query `q` at level `L`. -/
def Spec.RelDoc (s : Store κ δ Int) (q : κ) (L : Nat) (d : δ) : Prop :=
  ∃ v, (Spec.content s).read q d = some v ∧ (L : Int) ≤ v

/-- Specification: the docs of query `q` in `m`, best first. -/
def Spec.RankedDocs {β : Type*} [LE β] (m : Spec.Content κ δ β) (q : κ) (ids : List δ) : Prop :=
  ∃ l, Spec.Ranking m q l ∧ ids = l.map Prod.fst

/-- Specification: no judged doc of `q` shares its hash with another judged or retrieved doc of `q`. -/
def Spec.NoCollision (hash : δ → ι) (s : Store κ δ Int) (r : Store κ δ α) (q : κ) : Prop :=
  ∀ d d' v, (Spec.content s).read q d = some v →
    ((∃ v', (Spec.content s).read q d' = some v') ∨ (∃ v', (Spec.content r).read q d' = some v')) →
    hash d = hash d' → d = d'

/-- Specification: number of docs judged relevant for `q` at level `L`. -/
noncomputable def Spec.numRelDocs (s : Store κ δ Int) (q : κ) (L : Nat) : Nat :=
  Set.ncard {d | Spec.RelDoc s q L d}

theorem rel_asRows {hash : δ → ι} {s : Store κ δ Int} {r : Store κ δ α} {q : κ}
    (hc : Spec.NoCollision hash s r q) {jl : List (δ × Int)} (hj : Spec.Ranking (Spec.content s) q jl)
    (L : Nat) (d : δ) (hd : (∃ v', (Spec.content s).read q d = some v') ∨
      (∃ v', (Spec.content r).read q d = some v')) :
    Spec.Rel (asRows hash (fun z : Int => (z : α)) jl) (((L : Int) : α)) (hash d) ↔ Spec.RelDoc s q L d := by
  unfold Spec.Rel Spec.RelDoc asRows
  constructor
  · rintro ⟨v, hv, hL⟩
    rw [List.mem_map] at hv
    obtain ⟨⟨d', z⟩, hm, he⟩ := hv
    simp only [Prod.mk.injEq] at he
    obtain ⟨h1, rfl⟩ := he
    have hz := (hj.docs _ _).1 hm
    have := hc d' d z hz hd h1
    subst this
    exact ⟨z, hz, by exact_mod_cast hL⟩
  · rintro ⟨v, hv, hL⟩
    exact ⟨(v : α), List.mem_map.2 ⟨(d, v), (hj.docs _ _).2 hv, rfl⟩, by exact_mod_cast hL⟩

theorem relIn_map {ι' : Type*} (rel : ι' → Prop) (h : δ → ι') (rel' : δ → Prop) (l : List δ) (n : Nat)
    (hr : ∀ d ∈ l, rel (h d) ↔ rel' d) : Spec.relIn rel (l.map h) n = Spec.relIn rel' l n := by
  classical
  rw [relIn_eq_countP, relIn_eq_countP, ← List.map_take, List.countP_map]
  apply List.countP_congr
  intro x hx
  simpa using hr x (List.mem_of_mem_take hx)

theorem top_map {ι' : Type*} (h : δ → ι') (k : Nat) (l : List δ) :
    Spec.top k (l.map h) = (Spec.top k l).map h := by
  unfold Spec.top
  split
  · rfl
  · rw [List.map_take]

theorem mem_top {k : Nat} {l : List δ} {x : δ} (h : x ∈ Spec.top k l) : x ∈ l := by
  unfold Spec.top at h
  split at h
  · exact h
  · exact List.mem_of_mem_take h

theorem hits_map {ι' : Type*} (rel : ι' → Prop) (h : δ → ι') (rel' : δ → Prop) (l : List δ) (k : Nat)
    (hr : ∀ d ∈ l, rel (h d) ↔ rel' d) : Spec.hits rel (l.map h) k = Spec.hits rel' l k := by
  unfold Spec.hits
  rw [top_map, List.length_map]
  exact relIn_map _ _ _ _ _ (fun d hd => hr d (mem_top hd))

theorem numRel_asRows {hash : δ → ι} {s : Store κ δ Int} {q : κ} {jl : List (δ × Int)}
    (hj : Spec.Ranking (Spec.content s) q jl) (L : Nat) :
    Spec.numRel (asRows hash (fun z : Int => (z : α)) jl) (((L : Int) : α)) = Spec.numRelDocs s q L := by
  classical
  unfold Spec.numRel Spec.numRelDocs asRows
  rw [List.filter_map, List.length_map]
  have hset : {d | Spec.RelDoc s q L d} =
      (((jl.filter (fun p => decide ((L : Int) ≤ p.2))).map Prod.fst).toFinset : Set δ) := by
    ext d
    simp only [Set.mem_setOf_eq, List.coe_toFinset, List.mem_map, List.mem_filter, decide_eq_true_eq,
      Spec.RelDoc]
    constructor
    · rintro ⟨v, hv, hL⟩
      exact ⟨(d, v), ⟨(hj.docs _ _).2 hv, hL⟩, rfl⟩
    · rintro ⟨⟨d', v⟩, ⟨hm, hL⟩, rfl⟩
      exact ⟨v, (hj.docs _ _).1 hm, hL⟩
  rw [hset, Set.ncard_coe_finset, List.toFinset_card_of_nodup, List.length_map]
  · congr 1
    apply List.filter_congr
    rintro ⟨d, v⟩ _
    simp only [Function.comp, decide_eq_decide]
    exact_mod_cast Iff.rfl
  · exact hj.nodup.sublist (List.filter_sublist.map _)

/-- the metric string `name@k-lL` -/
def metricString (name : String) (k L : Nat) : Str :=
  name.toList ++ '@' :: natStr k ++ "-l".toList ++ natStr L

theorem metricOf_string (F : Fn α) (other : Str → Except Err α) (name : String) (k L : Nat) (met : Metric)
    (hn : Spec.PlainName name.toList) (hs : metricSwitch name.toList = .ok met) :
    metricOf (ι := ι) F other (metricString name k L) = kernel F met (.cutoff (k : Int)) (L : Int) := by
  unfold metricOf metricString
  rw [(C30_parse other _ hn k L).2.2.2]
  simp only [hs]

/-- everything one needs to know about a saved score -/
theorem saved_value (F : Fn α) (other : Str → Except Err α) (SQ : ArgSort Int) (SR : ArgSort α)
    (hash : δ → ι) (sched : Nat → List Nat) (o : Opts) (ho : o.save = true) (s : Store κ δ Int)
    (r : RunObj κ δ α) (ms : List Str) (hs : Spec.Usable SQ s) (hr : Spec.Usable SR r.store)
    (hsched : ∀ i, Schedule s.data.length (sched i)) (after : After κ δ α) (out : Out α)
    (h : evaluate F other SQ SR hash sched o (.obj s) (.obj r) ms = (after, .ok out))
    (name : String) (k L : Nat) (met : Metric) (hn : Spec.PlainName name.toList)
    (hsw : metricSwitch name.toList = .ok met) (hm : metricString name k L ∈ ms)
    (g : Rows ι α → Rows ι α → α)
    (hg : kernel F met (.cutoff (k : Int)) (L : Int) = .ok (total g)) (q : κ) (hq : q ∈ s.data.keys) :
    ∃ r' : RunObj κ δ α, after.run = .obj r' ∧ ∃ jl rl,
      Spec.Ranking (Spec.content s) q jl ∧ Spec.Ranking (Spec.content r.store) q rl ∧
      r'.saved (metricString name k L) q =
        some (.val (g (asRows hash (fun z : Int => (z : α)) jl) (asRows hash id rl))) := by
  obtain ⟨r', ha, hall⟩ := C31_pairs_queries F other SQ SR hash sched o ho s r ms hs hr hsched after out h
  obtain ⟨f, hf, hv⟩ := hall _ hm
  rw [metricOf_string F other name k L met hn hsw, hg] at hf
  cases hf
  obtain ⟨jl, rl, v, h1, h2, h3, h4⟩ := hv q hq
  unfold total at h3
  cases h3
  exact ⟨r', ha, jl, rl, h1, h2, h4⟩

theorem ids_asRows {β : Type*} (hash : δ → ι) (cast : β → α) (l : List (δ × β)) :
    (asRows hash cast l).map Prod.fst = (l.map Prod.fst).map hash := by
  unfold asRows; rw [List.map_map, List.map_map]; rfl

/-- Specification: the text `m` asks for the metric `name` with cutoff `k` (0: no cutoff) and relevance level `L`:
`name`, `name@k`, `name-lL` or `name@k-lL`. -/
def Spec.Asks (name : String) (k L : Nat) (m : Str) : Prop :=
  (m = name.toList ∧ k = 0 ∧ L = 1) ∨ (m = name.toList ++ '@' :: natStr k ∧ L = 1) ∨
  (m = name.toList ++ "-l".toList ++ natStr L ∧ k = 0) ∨
  m = name.toList ++ '@' :: natStr k ++ "-l".toList ++ natStr L

/-- Specification: the metrics that only distinguish relevant docs from the others. -/
inductive Spec.BinaryMetric where
  | hits | hitRate | precision | recall | f1 | rPrecision | mrr | map

/-- how they are written -/
def Spec.BinaryMetric.name : Spec.BinaryMetric → String
  | .hits => "hits" | .hitRate => "hit_rate" | .precision => "precision" | .recall => "recall" | .f1 => "f1"
  | .rPrecision => "r-precision" | .mrr => "mrr" | .map => "map"

/-- Specification: `v` is the textbook value of the metric at cutoff `k` for the ranking `ids`, of which the docs
`rel` are relevant, when `R` docs are relevant in all. Where a textbook has a zero denominator the value is 0
(division by 0 is 0 in Lean). -/
def Spec.BinaryMetric.Value (M : Spec.BinaryMetric) (rel : δ → Prop) (R : Nat) (ids : List δ) (k : Nat) (v : α) :
    Prop :=
  match M with
  | .hits => v = ((Spec.hits rel ids k : Nat) : α)
  | .hitRate => ((∃ x ∈ Spec.top k ids, rel x) → v = 1) ∧ ((∀ x ∈ Spec.top k ids, ¬ rel x) → v = 0)
  | .precision => v = Spec.precision rel ids k
  | .recall => v = Spec.recall rel R ids k
  | .f1 => v = 2 * (Spec.precision rel ids k * Spec.recall rel R ids k) /
      (Spec.precision rel ids k + Spec.recall rel R ids k)
  | .rPrecision => v = (Spec.relIn rel ids R : α) / (R : α)
  | .mrr => Spec.IsReciprocalRank rel ids k v
  | .map => v = Spec.averagePrecision rel R ids k

/-- the function of `metric_switch` behind the name -/
def Spec.BinaryMetric.code : Spec.BinaryMetric → Metric
  | .hits => .hits | .hitRate => .hitRate | .precision => .precision | .recall => .recall | .f1 => .f1
  | .rPrecision => .rPrecision | .mrr => .mrr | .map => .map

theorem Spec.BinaryMetric.plain (M : Spec.BinaryMetric) : Spec.PlainName M.name.toList := by
  apply plain_names
  cases M <;> simp [Spec.BinaryMetric.name]

theorem Spec.BinaryMetric.switch (M : Spec.BinaryMetric) : metricSwitch M.name.toList = .ok M.code := by
  cases M <;> decide +kernel

theorem metricOf_asks (F : Fn α) (other : Str → Except Err α) (name : String) (k L : Nat) (met : Metric)
    (hn : Spec.PlainName name.toList) (hs : metricSwitch name.toList = .ok met) (m : Str)
    (hm : Spec.Asks name k L m) :
    metricOf (ι := ι) F other m = kernel F met (.cutoff (k : Int)) (L : Int) := by
  have key : extract other m = .ok (name.toList, .cutoff (k : Int), (L : Int)) := by
    rcases hm with ⟨rfl, rfl, rfl⟩ | ⟨rfl, rfl⟩ | ⟨rfl, rfl⟩ | rfl
    · exact (C30_parse other name.toList hn 0 0).1
    · exact (C30_parse other name.toList hn k 0).2.1
    · exact (C30_parse other name.toList hn 0 L).2.2.1
    · exact (C30_parse other name.toList hn k L).2.2.2
  unfold metricOf
  rw [key]
  simp only [hs]

/-- the score saved for a metric and the two rankings it was computed from -/
theorem saved_asks (F : Fn α) (other : Str → Except Err α) (SQ : ArgSort Int) (SR : ArgSort α)
    (hash : δ → ι) (sched : Nat → List Nat) (o : Opts) (ho : o.save = true) (s : Store κ δ Int)
    (r : RunObj κ δ α) (ms : List Str) (hs : Spec.Usable SQ s) (hr : Spec.Usable SR r.store)
    (hsched : ∀ i, Schedule s.data.length (sched i)) (after : After κ δ α) (out : Out α)
    (h : evaluate F other SQ SR hash sched o (.obj s) (.obj r) ms = (after, .ok out))
    (m : Str) (hm : m ∈ ms) (f : Kernel ι α) (hf : metricOf F other m = .ok f) (q : κ) (hq : q ∈ s.data.keys) :
    ∃ r' : RunObj κ δ α, after.run = .obj r' ∧ ∃ jl rl v,
      Spec.Ranking (Spec.content s) q jl ∧ Spec.Ranking (Spec.content r.store) q rl ∧
      f (asRows hash (fun z : Int => (z : α)) jl) (asRows hash id rl) = .ok v ∧ r'.saved m q = some v := by
  obtain ⟨r', ha, hall⟩ := C31_pairs_queries F other SQ SR hash sched o ho s r ms hs hr hsched after out h
  obtain ⟨f', hf', hv⟩ := hall _ hm
  rw [hf] at hf'
  cases hf'
  obtain ⟨jl, rl, v, h1, h2, h3, h4⟩ := hv q hq
  exact ⟨r', ha, jl, rl, v, h1, h2, h3, h4⟩

theorem f1_closed (q run : Rows ι α) (k : Nat) (lvl : α) :
    Metrics.f1 q run k lvl = 2 * (Metrics.precision q run k lvl * Metrics.recall q run k lvl) /
      (Metrics.precision q run k lvl + Metrics.recall q run k lvl) := by
  rw [f1_eq]
  split
  · rename_i h; rw [h, div_zero]
  · exact (mul_div_assoc _ _ _).symm

/-- the kernels on hashed rows are the textbook metrics on docs -/
theorem kernel_value {hash : δ → ι} {s : Store κ δ Int} {r : Store κ δ α} {q : κ}
    (hc : Spec.NoCollision hash s r q) {jl : List (δ × Int)} {rl : List (δ × α)}
    (hj : Spec.Ranking (Spec.content s) q jl) (hrl : Spec.Ranking (Spec.content r) q rl) (k L : Nat)
    (F : Fn α) (M : Spec.BinaryMetric) :
    ∃ g : Rows ι α → Rows ι α → α, kernel F M.code (.cutoff (k : Int)) (L : Int) = .ok (total g) ∧
      M.Value (Spec.RelDoc s q L) (Spec.numRelDocs s q L) (rl.map Prod.fst) k
        (g (asRows hash (fun z : Int => (z : α)) jl) (asRows hash id rl)) := by
  have rel : ∀ d ∈ rl.map Prod.fst,
      (Spec.Rel (asRows hash (fun z : Int => (z : α)) jl) (((L : Int) : α)) (hash d) ↔
        Spec.RelDoc s q L d) := by
    intro d hd
    rw [List.mem_map] at hd
    obtain ⟨⟨d', v⟩, hm, rfl⟩ := hd
    exact rel_asRows hc hj L d' (.inr ⟨v, (hrl.docs _ _).1 hm⟩)
  have hits' :
      Spec.hits (Spec.Rel (asRows hash (fun z : Int => (z : α)) jl) (((L : Int) : α)))
        ((asRows hash (id : α → α) rl).map Prod.fst) k = Spec.hits (Spec.RelDoc s q L) (rl.map Prod.fst) k := by
    rw [ids_asRows]
    exact hits_map _ _ _ _ _ rel
  have hP : Metrics.precision (asRows hash (fun z : Int => (z : α)) jl) (asRows hash (id : α → α) rl) k
      (((L : Int) : α)) = Spec.precision (Spec.RelDoc s q L) (rl.map Prod.fst) k := by
    rw [precision_eq]
    unfold Spec.precision
    rw [hits', ids_asRows, List.length_map]
  have hR : Metrics.recall (asRows hash (fun z : Int => (z : α)) jl) (asRows hash (id : α → α) rl) k
      (((L : Int) : α)) = Spec.recall (Spec.RelDoc s q L) (Spec.numRelDocs s q L) (rl.map Prod.fst) k := by
    rw [recall_eq]
    unfold Spec.recall
    rw [hits', numRel_asRows hj]
  cases M with
  | hits =>
    refine ⟨fun a b => Metrics.hits a b k (((L : Int) : α)), rfl, ?_⟩
    change Metrics.hits _ _ _ _ = _
    rw [hits_eq, hits']
  | hitRate =>
    refine ⟨fun a b => Metrics.hitRate a b k (((L : Int) : α)), rfl, ?_⟩
    obtain ⟨h1, h2⟩ := C10_hit_rate (asRows hash (fun z : Int => (z : α)) jl) (asRows hash (id : α → α) rl) k
      (((L : Int) : α))
    unfold ids at h1 h2
    rw [ids_asRows, top_map] at h1 h2
    constructor
    · rintro ⟨x, hx, hxr⟩
      exact h1 ⟨hash x, List.mem_map_of_mem hx, (rel x (mem_top hx)).2 hxr⟩
    · intro hno
      apply h2
      intro x hx
      obtain ⟨y, hy, rfl⟩ := List.mem_map.1 hx
      exact fun hxr => hno y hy ((rel y (mem_top hy)).1 hxr)
  | precision => exact ⟨fun a b => Metrics.precision a b k (((L : Int) : α)), rfl, hP⟩
  | recall => exact ⟨fun a b => Metrics.recall a b k (((L : Int) : α)), rfl, hR⟩
  | f1 =>
    refine ⟨fun a b => Metrics.f1 a b k (((L : Int) : α)), rfl, ?_⟩
    change Metrics.f1 _ _ _ _ = _
    rw [f1_closed, hP, hR]
  | rPrecision =>
    refine ⟨fun a b => Metrics.rPrecision a b (((L : Int) : α)), rfl, ?_⟩
    change Metrics.rPrecision _ _ _ = _
    obtain ⟨h1, h2⟩ := C14_r_precision (asRows hash (fun z : Int => (z : α)) jl) (asRows hash (id : α → α) rl)
      (((L : Int) : α))
    rw [numRel_asRows hj] at h1 h2
    by_cases h0 : Spec.numRelDocs s q L = 0
    · rw [h1 h0, h0]; simp
    · rw [(h2 h0).2]
      unfold ids
      rw [ids_asRows, relIn_map _ _ _ _ _ rel]
  | map =>
    refine ⟨fun a b => Metrics.averagePrecision a b k (((L : Int) : α)), rfl, ?_⟩
    change Metrics.averagePrecision _ _ _ _ = _
    rw [averagePrecision_eq]
    unfold Spec.averagePrecision
    rw [numRel_asRows hj, ids_asRows, top_map, List.length_map]
    congr 1
    apply Finset.sum_congr rfl
    intro i hi
    rw [relIn_map _ _ _ _ _ rel]
    have hiff : (∃ x, (List.map hash (Spec.top k (rl.map Prod.fst)))[i]? = some x ∧
        Spec.Rel (asRows hash (fun z : Int => (z : α)) jl) (((L : Int) : α)) x) ↔
        ∃ x, (Spec.top k (rl.map Prod.fst))[i]? = some x ∧ Spec.RelDoc s q L x := by
      rw [List.getElem?_map]
      constructor
      · rintro ⟨x, hx, hx2⟩
        obtain ⟨y, hy, rfl⟩ := Option.map_eq_some_iff.1 hx
        exact ⟨y, hy, (rel y (mem_top (List.mem_of_getElem? hy))).1 hx2⟩
      · rintro ⟨y, hy, hy2⟩
        exact ⟨hash y, by rw [hy]; rfl, (rel y (mem_top (List.mem_of_getElem? hy))).2 hy2⟩
    by_cases hh : ∃ x, (Spec.top k (rl.map Prod.fst))[i]? = some x ∧ Spec.RelDoc s q L x
    · exact (if_pos (hiff.2 hh)).trans (if_pos hh).symm
    · exact (if_neg (fun hc => hh (hiff.1 hc))).trans (if_neg hh).symm
  | mrr =>
    refine ⟨fun a b => Metrics.reciprocalRank a b k (((L : Int) : α)), rfl, ?_⟩
    change Spec.IsReciprocalRank _ _ _ _
    have := reciprocalRank_spec (asRows hash (fun z : Int => (z : α)) jl) (asRows hash id rl) k (((L : Int) : α))
    unfold Spec.IsReciprocalRank at this ⊢
    rw [ids_asRows, top_map] at this
    have relT := fun y (hy : y ∈ Spec.top k (rl.map Prod.fst)) => rel y (mem_top hy)
    rcases this with ⟨i, x, hx, hxr, hbef, hv⟩ | ⟨hno, hv⟩
    · left
      rw [List.getElem?_map] at hx
      obtain ⟨y, hy, rfl⟩ := Option.map_eq_some_iff.1 hx
      refine ⟨i, y, hy, (relT y (List.mem_of_getElem? hy)).1 hxr, ?_, hv⟩
      intro i' hi' z hz hzr
      exact hbef i' hi' (hash z) (by rw [List.getElem?_map, hz]; rfl)
        ((relT z (List.mem_of_getElem? hz)).2 hzr)
    · right
      refine ⟨?_, hv⟩
      intro y hy hyr
      exact hno (hash y) (List.mem_map_of_mem hy) ((relT y hy).2 hyr)

/-- **C84**: after a successful `evaluate(qrels, run, metrics)` on objects built by public calls, the score saved for
each judged query under a metric string (`map`, `map@10`, `map-l2`, `map@10-l2`, …) is the textbook metric of that
query: of the list of its retrieved docs, best first, and the docs judged at least `L` for it, provided the float64
hash does not identify a judged doc with another doc of the query. -/
theorem C84_textbook_values (F : Fn α) (other : Str → Except Err α) (SQ : ArgSort Int) (SR : ArgSort α)
    (hash : δ → ι) (sched : Nat → List Nat) (o : Opts) (ho : o.save = true) (s : Store κ δ Int)
    (r : RunObj κ δ α) (ms : List Str) (hs : Spec.Usable SQ s) (hr : Spec.Usable SR r.store)
    (hsched : ∀ i, Schedule s.data.length (sched i)) (after : After κ δ α) (out : Out α)
    (h : evaluate F other SQ SR hash sched o (.obj s) (.obj r) ms = (after, .ok out))
    (M : Spec.BinaryMetric) (k L : Nat) (m : Str) (hm : m ∈ ms) (hask : Spec.Asks M.name k L m)
    (q : κ) (hq : q ∈ s.data.keys) (hc : Spec.NoCollision hash s r.store q) :
    ∃ r', after.run = .obj r' ∧ ∃ ids v, Spec.RankedDocs (Spec.content r.store) q ids ∧
      M.Value (Spec.RelDoc s q L) (Spec.numRelDocs s q L) ids k v ∧ r'.saved m q = some (.val v) := by
  obtain ⟨r', ha, hall⟩ := C31_pairs_queries F other SQ SR hash sched o ho s r ms hs hr hsched after out h
  obtain ⟨f, hf, hv⟩ := hall _ hm
  obtain ⟨jl, rl, v, h1, h2, h3, h4⟩ := hv q hq
  obtain ⟨g, hg, hval⟩ := kernel_value hc h1 h2 k L F M
  rw [metricOf_asks F other M.name k L M.code M.plain M.switch m hask, hg] at hf
  cases hf
  unfold total at h3
  cases h3
  exact ⟨r', ha, _, _, ⟨rl, h2, rfl⟩, hval, h4⟩

/-- Non-vacuity: the objects of `Props/Evaluate2.lean`, metric string `map@2-l1` and the value. -/
example : metricString "map" 2 1 = "map@2-l1".toList ∧
    (evaluate (ι := Nat) ratFn (fun _ => .error .valueError) (ArgSort.stable Int)
      (ArgSort.stable ℚ) id (fun _ => [1, 0]) { makeComparable := true, returnMean := false }
      (.obj exQrelsObj) (.obj exRunObj) [metricString "map" 2 1, metricString "mrr" 2 2]).2 =
        .ok (.dict [("map@2-l1".toList, .scores [.val (1/4), .val 0]),
          ("mrr@2-l2".toList, .scores [.val (1/2), .val 0])]) := by
  constructor
  · decide +kernel
  · decide +kernel

/-- Non-vacuity of the texts, and values for several of them. -/
example : Spec.Asks Spec.BinaryMetric.hitRate.name 1 1 "hit_rate@1".toList ∧
    Spec.Asks Spec.BinaryMetric.f1.name 0 1 "f1".toList ∧
    Spec.Asks Spec.BinaryMetric.rPrecision.name 0 2 "r-precision-l2".toList ∧
    Spec.Asks Spec.BinaryMetric.map.name 10 2 "map@10-l2".toList ∧
    (evaluate (ι := Nat) ratFn (fun _ => .error .valueError) (ArgSort.stable Int)
      (ArgSort.stable ℚ) id (fun _ => [1, 0]) { makeComparable := true, returnMean := false }
      (.obj exQrelsObj) (.obj exRunObj) ["hit_rate@1".toList, "f1".toList, "rbp.5-l2".toList]).2 =
        .ok (.dict [("hit_rate@1".toList, .scores [.val 0, .val 0]), ("f1".toList, .scores [.val (1/2), .val 0]),
          ("rbp.5-l2".toList, .scores [.val (1/2), .val 0])]) :=
  ⟨.inr (.inl (by decide +kernel)), .inl (by decide +kernel), .inr (.inr (.inl (by decide +kernel))),
    .inr (.inr (.inr (by decide +kernel))), by decide +kernel⟩

example : Spec.NoCollision (id : Nat → Nat) exQrelsObj exRunObj.store 1 := fun _ _ _ _ _ h => h

/-- Specification: the grade of doc `d` for query `q`: its judged relevance if it reaches `L`, else 0. -/
noncomputable def Spec.docGrade (s : Store κ δ Int) (q : κ) (L : Nat) (d : δ) : α :=
  match (Spec.content s).read q d with
  | some v => if (L : Int) ≤ v then (v : α) else 0
  | none => 0

theorem gradeFn_docs {hash : δ → ι} {s : Store κ δ Int} {r : Store κ δ α} {q : κ}
    (hc : Spec.NoCollision hash s r q) {jl : List (δ × Int)} (hj : Spec.Ranking (Spec.content s) q jl)
    (L : Nat) (d : δ) (hd : (∃ v', (Spec.content s).read q d = some v') ∨
      (∃ v', (Spec.content r).read q d = some v')) :
    gradeFn (asRows hash (fun z : Int => (z : α)) jl) (((L : Int) : α)) (hash d) = Spec.docGrade s q L d := by
  by_cases hrel : Spec.RelDoc s q L d
  · obtain ⟨h1, h2⟩ := gradeFn_of_rel ((rel_asRows (α := α) hc hj L d hd).2 hrel)
    unfold asRows at h1
    rw [List.mem_map] at h1
    obtain ⟨⟨d', z⟩, hm, he⟩ := h1
    simp only [Prod.mk.injEq] at he
    obtain ⟨e1, e2⟩ := he
    have hz := (hj.docs _ _).1 hm
    have := hc d' d z hz hd e1
    subst this
    rw [show asRows hash (fun z : Int => (z : α)) jl = jl.map (fun p => (hash p.1, (p.2 : α))) from rfl, ← e2]
    unfold Spec.docGrade
    obtain ⟨v, hv, hL⟩ := hrel
    rw [hz] at hv ⊢
    cases hv
    exact (if_pos hL).symm
  · rw [gradeFn_of_not_rel (fun h => hrel ((rel_asRows (α := α) hc hj L d hd).1 h))]
    unfold Spec.docGrade
    cases hv : (Spec.content s).read q d with
    | none => rfl
    | some v =>
      simp only
      rw [if_neg]
      exact fun hL => hrel ⟨v, hv, hL⟩

theorem gainAt_map {ι' : Type*} (g : ι' → α) (h : δ → ι') (g' : δ → α) (l : List δ) (hg : ∀ d ∈ l, g (h d) = g' d)
    (i : Nat) : Spec.gainAt g (l.map h) i = Spec.gainAt g' l i := by
  unfold Spec.gainAt
  rw [List.getElem?_map]
  cases hi : l[i]? with
  | none => rfl
  | some d => simp [hg d (List.mem_of_getElem? hi)]

theorem dcg_map {ι' : Type*} (g : ι' → α) (h : δ → ι') (g' : δ → α) (disc : Nat → α) (l : List δ) (k : Nat)
    (hg : ∀ d ∈ l, g (h d) = g' d) : Spec.dcg g disc (l.map h) k = Spec.dcg g' disc l k := by
  unfold Spec.dcg
  rw [top_map, List.length_map]
  apply Finset.sum_congr rfl
  intro i _
  rw [gainAt_map g h g' _ (fun d hd => hg d (mem_top hd))]

/-- the real functions: `np.log2`, `2**x`, `np.sqrt` -/
noncomputable def realFn : Fn ℝ := ⟨log2Disc, fun x => (2 : ℝ) ^ x, Real.sqrt⟩

/-- Specification: the discount of 0-based position `i` -/
noncomputable def Spec.log2Discount (i : Nat) : ℝ := Real.logb 2 (i + 2)

/-- Specification: the metrics that use the grades of the docs. -/
inductive Spec.GradedMetric where
  | dcg | dcgBurges | ndcg | ndcgBurges

/-- how they are written -/
def Spec.GradedMetric.name : Spec.GradedMetric → String
  | .dcg => "dcg" | .dcgBurges => "dcg_burges" | .ndcg => "ndcg" | .ndcgBurges => "ndcg_burges"

/-- Specification: the gain of a doc of grade `x`: the grade itself, or `2^x - 1` -/
noncomputable def Spec.GradedMetric.gain (M : Spec.GradedMetric) (x : ℝ) : ℝ :=
  match M with
  | .dcg | .ndcg => x
  | .dcgBurges | .ndcgBurges => (2 : ℝ) ^ x - 1

/-- Specification: `v` is the textbook value of the metric at cutoff `k` for the ranking `ids` of docs with grades
`g`: the discounted cumulative gain, for ndcg divided by the greatest one any ranking can reach (0 if that is 0). -/
def Spec.GradedMetric.Value (M : Spec.GradedMetric) (g : δ → ℝ) (ids : List δ) (k : Nat) (v : ℝ) : Prop :=
  match M with
  | .dcg | .dcgBurges => v = Spec.dcg (fun d => M.gain (g d)) Spec.log2Discount ids k
  | .ndcg | .ndcgBurges =>
    ∃ best, IsGreatest {x | ∃ l : List δ, l.Nodup ∧ x = Spec.dcg (fun d => M.gain (g d)) Spec.log2Discount l k} best ∧
      v = Spec.dcg (fun d => M.gain (g d)) Spec.log2Discount ids k / best

/-- the function of `metric_switch` behind the name -/
def Spec.GradedMetric.code : Spec.GradedMetric → Metric
  | .dcg => .dcg | .dcgBurges => .dcgBurges | .ndcg => .ndcg | .ndcgBurges => .ndcgBurges

theorem Spec.GradedMetric.plain (M : Spec.GradedMetric) : Spec.PlainName M.name.toList := by
  apply plain_names
  cases M <;> simp [Spec.GradedMetric.name]

theorem Spec.GradedMetric.switch (M : Spec.GradedMetric) : metricSwitch M.name.toList = .ok M.code := by
  cases M <;> decide +kernel

theorem dcgCore_docs {hash : δ → ι} {s : Store κ δ Int} {r : Store κ δ ℝ} {q : κ}
    (hc : Spec.NoCollision hash s r q) {jl : List (δ × Int)} (hj : Spec.Ranking (Spec.content s) q jl)
    (gain : ℝ → ℝ) (h0 : gain 0 = 0) (k L : Nat) (rl : List (δ × ℝ))
    (hd : ∀ d ∈ rl.map Prod.fst, (∃ v', (Spec.content s).read q d = some v') ∨
      (∃ v', (Spec.content r).read q d = some v')) :
    dcgCore gain log2Disc (asRows hash (fun z : Int => (z : ℝ)) jl) (asRows hash (id : ℝ → ℝ) rl) k
      (((L : Int) : ℝ)) = Spec.dcg (fun d => gain (Spec.docGrade s q L d)) Spec.log2Discount (rl.map Prod.fst) k := by
  rw [dcgCore_eq gain h0, ids_asRows]
  exact dcg_map _ _ _ _ _ _ (fun d hm => congrArg gain (gradeFn_docs hc hj L d (hd d hm)))

/-- the ideal dcg of the code is the greatest dcg of any ranking -/
theorem ideal_docs {hash : δ → ι} {s : Store κ δ Int} {r : Store κ δ ℝ} {q : κ}
    (hc : Spec.NoCollision hash s r q) {jl : List (δ × Int)} (hj : Spec.Ranking (Spec.content s) q jl)
    (gain : ℝ → ℝ) (h0 : gain 0 = 0) (hg : ∀ v, 0 ≤ v → 0 ≤ gain v) (hm : ∀ x y, x ≤ y → gain x ≤ gain y)
    (k L : Nat) :
    IsGreatest {x | ∃ l : List δ, l.Nodup ∧
        x = Spec.dcg (fun d => gain (Spec.docGrade s q L d)) Spec.log2Discount l k}
      (idcgCore gain log2Disc (asRows hash (fun z : Int => (z : ℝ)) jl) k (((L : Int) : ℝ))) := by
  have hjd : ∀ d ∈ jl.map Prod.fst, (∃ v', (Spec.content s).read q d = some v') ∨
      (∃ v', (Spec.content r).read q d = some v') := by
    intro d hd
    obtain ⟨⟨d', v⟩, hm, rfl⟩ := List.mem_map.1 hd
    exact .inl ⟨v, (hj.docs _ _).1 hm⟩
  have hid : idcgCore gain log2Disc (asRows hash (fun z : Int => (z : ℝ)) jl) k (((L : Int) : ℝ)) =
      Spec.dcg (fun d => gain (Spec.docGrade s q L d)) Spec.log2Discount (jl.map Prod.fst) k := by
    unfold idcgCore
    rw [dcgCore_eq gain h0, ids_asRows]
    exact dcg_map _ _ _ _ _ _ (fun d hm => congrArg gain (gradeFn_docs hc hj L d (hjd d hm)))
  rw [hid]
  refine ⟨⟨_, hj.nodup, rfl⟩, ?_⟩
  rintro x ⟨l, hl, rfl⟩
  letI : LinearOrder δ := WellOrderingRel.isWellOrder.linearOrder
  have hcomp : (List.map (Prod.fst ∘ fun d : δ => (d, (0 : ℝ))) l) = l := List.map_id l
  set rows : Rows δ ℝ := asRows id (fun z : Int => (z : ℝ)) jl with hrows
  have hids : ids rows = jl.map Prod.fst := by unfold ids; rw [hrows, ids_asRows, List.map_id]
  have hgr : ∀ d, gradeFn rows (((L : Int) : ℝ)) d = Spec.docGrade s q L d := by
    intro d
    by_cases hd : ∃ v', (Spec.content s).read q d = some v'
    · exact gradeFn_docs (hash := id) (r := r) (fun _ _ _ _ _ h => h) hj L d (.inl hd)
    · have hn : (Spec.content s).read q d = none := by
        cases hv : (Spec.content s).read q d with
        | none => rfl
        | some v => exact absurd ⟨v, hv⟩ hd
      rw [gradeFn_of_not_rel]
      · unfold Spec.docGrade; rw [hn]
      · rintro ⟨v, hv, -⟩
        rw [hrows] at hv
        unfold asRows at hv
        obtain ⟨⟨d', z⟩, hm', he⟩ := List.mem_map.1 hv
        simp only [id, Prod.mk.injEq] at he
        obtain ⟨rfl, -⟩ := he
        rw [(hj.docs _ _).1 hm'] at hn
        cases hn
  have := (ndcgCore_props gain h0 hg hm rows (l.map (fun d => (d, (0 : ℝ)))) (by rw [hids]; exact hj.nodup) (by
      unfold Spec.SortedByRelevance
      rw [hrows]
      unfold asRows
      rw [List.pairwise_map]
      exact hj.sorted.imp (fun hab => by simp only; exact_mod_cast hab))
    (by unfold ids; rw [List.map_map, hcomp]; exact hl) k (((L : Int) : ℝ)) (by simp)).1
  unfold idcgCore at this
  rw [dcgCore_eq gain h0, dcgCore_eq gain h0, List.map_map] at this
  simp only [hgr] at this
  rw [hcomp] at this
  unfold ids at hids
  rw [hids] at this
  exact this

/-- **C84** (graded metrics): the saved scores of `dcg`, `ndcg` and the `_burges` variants, however written, are the
textbook values: the sum of the gains of the docs of the query, best first, each divided by the base 2 logarithm of its
rank plus one; for ndcg divided by the greatest such sum any ranking of docs can reach. -/
theorem C84_graded_values (other : Str → Except Err ℝ) (SQ : ArgSort Int) (SR : ArgSort ℝ)
    (hash : δ → ι) (sched : Nat → List Nat) (o : Opts) (ho : o.save = true) (s : Store κ δ Int)
    (r : RunObj κ δ ℝ) (ms : List Str) (hs : Spec.Usable SQ s) (hr : Spec.Usable SR r.store)
    (hsched : ∀ i, Schedule s.data.length (sched i)) (after : After κ δ ℝ) (out : Out ℝ)
    (h : evaluate realFn other SQ SR hash sched o (.obj s) (.obj r) ms = (after, .ok out))
    (M : Spec.GradedMetric) (k L : Nat) (m : Str) (hm : m ∈ ms) (hask : Spec.Asks M.name k L m)
    (q : κ) (hq : q ∈ s.data.keys) (hc : Spec.NoCollision hash s r.store q) :
    ∃ r', after.run = .obj r' ∧ ∃ ids v, Spec.RankedDocs (Spec.content r.store) q ids ∧
      M.Value (Spec.docGrade s q L) ids k v ∧ r'.saved m q = some (.val v) := by
  obtain ⟨r', ha, hall⟩ := C31_pairs_queries realFn other SQ SR hash sched o ho s r ms hs hr hsched after out h
  obtain ⟨f, hf, hv⟩ := hall _ hm
  obtain ⟨jl, rl, v, h1, h2, h3, h4⟩ := hv q hq
  rw [metricOf_asks realFn other M.name k L M.code M.plain M.switch m hask] at hf
  have hrd : ∀ d ∈ rl.map Prod.fst, (∃ v', (Spec.content s).read q d = some v') ∨
      (∃ v', (Spec.content r.store).read q d = some v') := by
    intro d hd
    obtain ⟨⟨d', v⟩, hm, rfl⟩ := List.mem_map.1 hd
    exact .inr ⟨v, (h2.docs _ _).1 hm⟩
  have hndcg : ∀ gain : ℝ → ℝ, gain 0 = 0 → (∀ v, 0 ≤ v → 0 ≤ gain v) → (∀ x y, x ≤ y → gain x ≤ gain y) →
      ∃ best, IsGreatest {x | ∃ l : List δ, l.Nodup ∧
          x = Spec.dcg (fun d => gain (Spec.docGrade s q L d)) Spec.log2Discount l k} best ∧
        ndcgCore gain log2Disc (asRows hash (fun z : Int => (z : ℝ)) jl) (asRows hash (id : ℝ → ℝ) rl) k
          (((L : Int) : ℝ)) =
          Spec.dcg (fun d => gain (Spec.docGrade s q L d)) Spec.log2Discount (rl.map Prod.fst) k / best := by
    intro gain h0 hg hmono
    have hbest := ideal_docs hc h1 gain h0 hg hmono k L
    refine ⟨_, hbest, ?_⟩
    have hd := dcgCore_docs hc h1 gain h0 k L rl hrd
    unfold ndcgCore
    simp only
    rw [hd]
    split
    · rename_i hz
      have hle := hbest.2 ⟨rl.map Prod.fst, h2.nodup, rfl⟩
      rw [hz] at hle ⊢
      rw [div_zero, div_one]
      refine le_antisymm hle ?_
      unfold Spec.dcg
      apply Finset.sum_nonneg
      intro i _
      apply div_nonneg
      · unfold Spec.gainAt
        cases (Spec.top k (rl.map Prod.fst))[i]? with
        | none => simp
        | some d =>
          simp only [Option.map_some, Option.getD_some]
          apply hg
          unfold Spec.docGrade
          split
          · split
            · rename_i hL; exact_mod_cast le_trans (Int.natCast_nonneg L) hL
            · exact le_rfl
          · exact le_rfl
      · exact (log2Disc_pos i).le
    · rfl
  cases M with
  | dcg =>
    cases hf
    unfold total at h3
    cases h3
    exact ⟨r', ha, _, _, ⟨rl, h2, rfl⟩, dcgCore_docs hc h1 _ rfl k L rl hrd, h4⟩
  | dcgBurges =>
    cases hf
    unfold total at h3
    cases h3
    exact ⟨r', ha, _, _, ⟨rl, h2, rfl⟩, dcgCore_docs hc h1 _ burges_zero k L rl hrd, h4⟩
  | ndcg =>
    cases hf
    unfold total at h3
    cases h3
    exact ⟨r', ha, _, _, ⟨rl, h2, rfl⟩, hndcg _ rfl (fun _ h => h) (fun _ _ h => h), h4⟩
  | ndcgBurges =>
    cases hf
    unfold total at h3
    cases h3
    exact ⟨r', ha, _, _, ⟨rl, h2, rfl⟩, hndcg _ burges_zero burges_nonneg (fun _ _ => burges_mono), h4⟩

/-- Specification: the docs judged, but below the level. -/
def Spec.NonRelDoc (s : Store κ δ Int) (q : κ) (L : Nat) (d : δ) : Prop :=
  ∃ v, (Spec.content s).read q d = some v ∧ v < (L : Int)

/-- Specification: how many there are. -/
noncomputable def Spec.numNonRelDocs (s : Store κ δ Int) (q : κ) (L : Nat) : Nat :=
  Set.ncard {d | Spec.NonRelDoc s q L d}

theorem nonRel_asRows {hash : δ → ι} {s : Store κ δ Int} {r : Store κ δ α} {q : κ}
    (hc : Spec.NoCollision hash s r q) {jl : List (δ × Int)} (hj : Spec.Ranking (Spec.content s) q jl)
    (L : Nat) (d : δ) (hd : (∃ v', (Spec.content s).read q d = some v') ∨
      (∃ v', (Spec.content r).read q d = some v')) :
    Spec.NonRel (asRows hash (fun z : Int => (z : α)) jl) (((L : Int) : α)) (hash d) ↔ Spec.NonRelDoc s q L d := by
  unfold Spec.NonRel
  rw [rel_asRows hc hj L d hd]
  unfold Spec.NonRelDoc Spec.RelDoc Spec.Judged asRows
  constructor
  · rintro ⟨⟨v, hv⟩, hn⟩
    obtain ⟨⟨d', z⟩, hm, he⟩ := List.mem_map.1 hv
    simp only [Prod.mk.injEq] at he
    obtain ⟨e1, -⟩ := he
    have hz := (hj.docs _ _).1 hm
    have := hc d' d z hz hd e1
    subst this
    exact ⟨z, hz, not_le.1 (fun hL => hn ⟨z, hz, hL⟩)⟩
  · rintro ⟨v, hv, hL⟩
    refine ⟨⟨(v : α), List.mem_map.2 ⟨(d, v), (hj.docs _ _).2 hv, rfl⟩⟩, ?_⟩
    rintro ⟨v', hv', hL'⟩
    rw [hv] at hv'
    cases hv'
    omega

theorem numNonRel_asRows {hash : δ → ι} {s : Store κ δ Int} {q : κ} {jl : List (δ × Int)}
    (hj : Spec.Ranking (Spec.content s) q jl) (L : Nat) :
    Spec.numNonRel (asRows hash (fun z : Int => (z : α)) jl) (((L : Int) : α)) = Spec.numNonRelDocs s q L := by
  classical
  unfold Spec.numNonRel Spec.numNonRelDocs asRows
  rw [List.filter_map, List.length_map]
  have hset : {d | Spec.NonRelDoc s q L d} =
      (((jl.filter (fun p => decide (p.2 < (L : Int)))).map Prod.fst).toFinset : Set δ) := by
    ext d
    simp only [Set.mem_setOf_eq, List.coe_toFinset, List.mem_map, List.mem_filter, decide_eq_true_eq,
      Spec.NonRelDoc]
    constructor
    · rintro ⟨v, hv, hL⟩
      exact ⟨(d, v), ⟨(hj.docs _ _).2 hv, hL⟩, rfl⟩
    · rintro ⟨⟨d', v⟩, ⟨hm, hL⟩, rfl⟩
      exact ⟨v, (hj.docs _ _).1 hm, hL⟩
  rw [hset, Set.ncard_coe_finset, List.toFinset_card_of_nodup, List.length_map]
  · congr 1
    apply List.filter_congr
    rintro ⟨d, v⟩ _
    simp only [Function.comp, decide_eq_decide]
    exact_mod_cast Iff.rfl
  · exact hj.nodup.sublist (List.filter_sublist.map _)

/-- **C84** (bpref): for a query with a relevant and a judged non-relevant doc the saved bpref is the textbook value. -/
theorem C84_bpref (F : Fn α) (other : Str → Except Err α) (SQ : ArgSort Int) (SR : ArgSort α)
    (hash : δ → ι) (sched : Nat → List Nat) (o : Opts) (ho : o.save = true) (s : Store κ δ Int)
    (r : RunObj κ δ α) (ms : List Str) (hs : Spec.Usable SQ s) (hr : Spec.Usable SR r.store)
    (hsched : ∀ i, Schedule s.data.length (sched i)) (after : After κ δ α) (out : Out α)
    (h : evaluate F other SQ SR hash sched o (.obj s) (.obj r) ms = (after, .ok out))
    (k L : Nat) (m : Str) (hm : m ∈ ms) (hask : Spec.Asks "bpref" k L m)
    (q : κ) (hq : q ∈ s.data.keys) (hc : Spec.NoCollision hash s r.store q)
    (hR : Spec.numRelDocs s q L ≠ 0) (hN : Spec.numNonRelDocs s q L ≠ 0) :
    ∃ r', after.run = .obj r' ∧ ∃ ids, Spec.RankedDocs (Spec.content r.store) q ids ∧
      r'.saved m q = some (.val (Spec.bpref (Spec.RelDoc s q L) (Spec.NonRelDoc s q L) (Spec.numRelDocs s q L)
        (Spec.numNonRelDocs s q L) ids)) := by
  have hsw : metricSwitch "bpref".toList = .ok .bpref := by decide +kernel
  obtain ⟨r', ha, jl, rl, v, h1, h2, h3, h4⟩ := saved_asks F other SQ SR hash sched o ho s r ms hs hr hsched after out h
    m hm _ (metricOf_asks F other "bpref" k L .bpref (plain_names _ (by decide)) hsw m hask) q hq
  refine ⟨r', ha, _, ⟨rl, h2, rfl⟩, ?_⟩
  rw [h4]
  have hrd : ∀ d ∈ rl.map Prod.fst, (∃ v', (Spec.content s).read q d = some v') ∨
      (∃ v', (Spec.content r.store).read q d = some v') := by
    intro d hd
    obtain ⟨⟨d', v⟩, hm, rfl⟩ := List.mem_map.1 hd
    exact .inr ⟨v, (h2.docs _ _).1 hm⟩
  have h3' : Metrics.bpref (asRows hash (fun z : Int => (z : α)) jl) (asRows hash id rl) (((L : Int) : α)) = .ok v := h3
  rw [C20_bpref _ _ _ (by rw [numRel_asRows h1]; exact hR) (by rw [numNonRel_asRows h1]; exact hN)] at h3'
  cases h3'
  rw [numRel_asRows h1, numNonRel_asRows h1]
  unfold ids Spec.bpref
  rw [ids_asRows, List.length_map]
  congr 3
  apply Finset.sum_congr rfl
  intro i hi
  rw [relIn_map _ _ _ _ _ (fun d hd => nonRel_asRows hc h1 L d (hrd d hd))]
  have hiff : (∃ x, (List.map hash (rl.map Prod.fst))[i]? = some x ∧
      Spec.Rel (asRows hash (fun z : Int => (z : α)) jl) (((L : Int) : α)) x) ↔
      ∃ x, (rl.map Prod.fst)[i]? = some x ∧ Spec.RelDoc s q L x := by
    rw [List.getElem?_map]
    constructor
    · rintro ⟨x, hx, hx2⟩
      obtain ⟨y, hy, rfl⟩ := Option.map_eq_some_iff.1 hx
      exact ⟨y, hy, (rel_asRows hc h1 L y (hrd y (List.mem_of_getElem? hy))).1 hx2⟩
    · rintro ⟨y, hy, hy2⟩
      exact ⟨hash y, by rw [hy]; rfl, (rel_asRows hc h1 L y (hrd y (List.mem_of_getElem? hy))).2 hy2⟩
  by_cases hh : ∃ x, (rl.map Prod.fst)[i]? = some x ∧ Spec.RelDoc s q L x
  · exact (if_pos (hiff.2 hh)).trans (if_pos hh).symm
  · exact (if_neg (fun hc => hh (hiff.1 hc))).trans (if_neg hh).symm

/-- **C84** (rbp): for the strings `rbp.95`, `rbp@95`, `rbp.95-l2`, … the saved score is rank-biased precision with
persistence 0.95, of the grades of the docs, best first. -/
theorem C84_rbp (F : Fn α) (other : Str → Except Err α) (SQ : ArgSort Int) (SR : ArgSort α)
    (hash : δ → ι) (sched : Nat → List Nat) (o : Opts) (ho : o.save = true) (s : Store κ δ Int)
    (r : RunObj κ δ α) (ms : List Str) (hs : Spec.Usable SQ s) (hr : Spec.Usable SR r.store)
    (hsched : ∀ i, Schedule s.data.length (sched i)) (after : After κ δ α) (out : Out α)
    (h : evaluate F other SQ SR hash sched o (.obj s) (.obj r) ms = (after, .ok out))
    (ds : Str) (hd : ∀ c ∈ ds, c.isDigit = true) (sep : Char) (hsep : sep = '.' ∨ sep = '@') (L : Nat) (m : Str)
    (hm : m ∈ ms) (hask : (m = "rbp".toList ++ sep :: ds ∧ L = 1) ∨
      m = "rbp".toList ++ sep :: ds ++ "-l".toList ++ natStr L)
    (q : κ) (hq : q ∈ s.data.keys) (hc : Spec.NoCollision hash s r.store q) :
    ∃ r', after.run = .obj r' ∧ ∃ ids, Spec.RankedDocs (Spec.content r.store) q ids ∧
      r'.saved m q = some (.val (Spec.rbp (Spec.docGrade s q L)
        ((Nat.ofDigitChars 10 ds 0 : α) / 10 ^ ds.length) ids)) := by
  have hsw : metricSwitch "rbp".toList = .ok .rbp := by decide +kernel
  have hf : metricOf (ι := ι) F other m =
      .ok (total (fun a b => Metrics.rbp a b ((Nat.ofDigitChars 10 ds 0 : α) / 10 ^ ds.length) (((L : Int) : α)))) := by
    have key : extract other m =
        .ok ("rbp".toList, .persistence ((Nat.ofDigitChars 10 ds 0 : α) / 10 ^ ds.length), (L : Int)) := by
      rcases hask with ⟨rfl, rfl⟩ | rfl
      · exact ((C30_rbp other ds hd 0).1 sep hsep).1
      · exact ((C30_rbp other ds hd L).1 sep hsep).2
    unfold metricOf
    rw [key]
    simp only [hsw]
    rfl
  obtain ⟨r', ha, jl, rl, v, h1, h2, h3, h4⟩ := saved_asks F other SQ SR hash sched o ho s r ms hs hr hsched after out h
    m hm _ hf q hq
  refine ⟨r', ha, _, ⟨rl, h2, rfl⟩, ?_⟩
  unfold total at h3
  cases h3
  rw [h4]
  beta_reduce
  rw [rbp_eq, ids_asRows]
  congr 2
  unfold Spec.rbp
  rw [List.length_map]
  congr 1
  apply Finset.sum_congr rfl
  intro i _
  rw [gainAt_map _ _ (Spec.docGrade s q L)]
  intro d hd
  obtain ⟨⟨d', v⟩, hm, rfl⟩ := List.mem_map.1 hd
  exact gradeFn_docs hc h1 L d' (.inr ⟨v, (h2.docs _ _).1 hm⟩)

/-- **C84** (range): the saved ndcg lies in [0, 1]. -/
theorem C84_ndcg_in_range (other : Str → Except Err ℝ) (SQ : ArgSort Int) (SR : ArgSort ℝ)
    (hash : δ → ι) (sched : Nat → List Nat) (o : Opts) (ho : o.save = true) (s : Store κ δ Int)
    (r : RunObj κ δ ℝ) (ms : List Str) (hs : Spec.Usable SQ s) (hr : Spec.Usable SR r.store)
    (hsched : ∀ i, Schedule s.data.length (sched i)) (after : After κ δ ℝ) (out : Out ℝ)
    (h : evaluate realFn other SQ SR hash sched o (.obj s) (.obj r) ms = (after, .ok out))
    (k L : Nat) (q : κ) (hq : q ∈ s.data.keys) (hinj : Function.Injective hash)
    (name : String) (hname : name = "ndcg" ∨ name = "ndcg_burges")
    (hm : metricString name k L ∈ ms) :
    ∃ r', after.run = .obj r' ∧ ∃ v, r'.saved (metricString name k L) q = some (.val v) ∧
      0 ≤ v ∧ v ≤ 1 := by
  have pn : ∀ name ∈ ["hits", "hit_rate", "precision", "recall", "f1", "r-precision", "mrr",
    "map", "dcg", "dcg_burges", "ndcg", "ndcg_burges", "bpref"], Spec.PlainName name.toList := plain_names
  have fin : ∀ {jl : List (δ × Int)} {rl : List (δ × ℝ)}, Spec.Ranking (Spec.content s) q jl →
      Spec.Ranking (Spec.content r.store) q rl →
      (ids (asRows hash (fun z : Int => (z : ℝ)) jl)).Nodup ∧ (ids (asRows hash (id : ℝ → ℝ) rl)).Nodup ∧
      Spec.SortedByRelevance (asRows hash (fun z : Int => (z : ℝ)) jl) := by
    intro jl rl hj hrl
    refine ⟨?_, ?_, ?_⟩
    · unfold ids; rw [ids_asRows]; exact hj.nodup.map hinj
    · unfold ids; rw [ids_asRows]; exact hrl.nodup.map hinj
    · unfold Spec.SortedByRelevance asRows
      rw [List.pairwise_map]
      exact hj.sorted.imp (fun hab => by simp only; exact_mod_cast hab)
  rcases hname with rfl | rfl
  · obtain ⟨r', ha, jl, rl, hj, hrl, he⟩ := saved_value realFn other SQ SR hash sched o ho s r ms hs hr
      hsched after out h "ndcg" k L .ndcg (pn _ (by decide)) (by decide +kernel) hm
      (fun a b => ndcg a b k (((L : Int) : ℝ))) rfl q hq
    obtain ⟨f1, f2, f3⟩ := fin hj hrl
    exact ⟨r', ha, _, he, (C18_ndcg_range _ _ f1 f3 f2 k _ (by simp)).1⟩
  · obtain ⟨r', ha, jl, rl, hj, hrl, he⟩ := saved_value realFn other SQ SR hash sched o ho s r ms hs hr
      hsched after out h "ndcg_burges" k L .ndcgBurges (pn _ (by decide)) (by decide +kernel) hm
      (fun a b => ndcgBurges a b k (((L : Int) : ℝ))) rfl q hq
    obtain ⟨f1, f2, f3⟩ := fin hj hrl
    exact ⟨r', ha, _, he, (C18_ndcg_range _ _ f1 f3 f2 k _ (by simp)).2⟩

end Ranx
