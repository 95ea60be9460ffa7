import Verif.Props.OptimizeTotal
import Verif.Props.Grid2
import Verif.Props.EndToEnd
import Verif.Props.Labels
import Verif.Props.FusionBayes
import Verif.Props.Retrieval

/-!
# C101 continued: which metrics work, the default searches, and a search that fails
-/

set_option linter.unusedSectionVars false

namespace Ranx
open Dict Store Metrics Eval Fuse Train Opt F64
open _root_.Ranx.Norm (Kind SetIter)

section
variable {κ δ ι : Type} [LinearOrder κ] [DecidableEq δ] [LinearOrder ι]

/-- Specification: the four ways to write a metric: `m`, `m@k`, `m-lL`, `m@k-lL`. -/
def Spec.Written (m metric : Py.Str) : Prop :=
  metric = m ∨ (∃ k : Nat, metric = m ++ '@' :: Py.natStr k) ∨ (∃ L : Nat, metric = m ++ "-l".toList ++ Py.natStr L) ∨
    ∃ k L : Nat, metric = m ++ '@' :: Py.natStr k ++ "-l".toList ++ Py.natStr L

theorem Opt.metricOf_written (V : EvalEnv δ ι) (name : String) (hn : Spec.PlainName name.toList) (met : Metric)
    (hs : metricSwitch name.toList = .ok met) (metric : Py.Str) (hw : Spec.Written name.toList metric) :
    ∃ k L : Nat, (metricOf V.F V.other metric : Except Err (Kernel ι ℝ)) = kernel V.F met (.cutoff (k : Int)) (L : Int) := by
  have key : ∀ (k L : Nat), extract V.other metric = .ok (name.toList, .cutoff (k : Int), (L : Int)) →
      (metricOf V.F V.other metric : Except Err (Kernel ι ℝ)) = kernel V.F met (.cutoff (k : Int)) (L : Int) := by
    intro k L h
    unfold metricOf
    rw [h]
    simp only [hs]
  rcases hw with rfl | ⟨k, rfl⟩ | ⟨L, rfl⟩ | ⟨k, L, rfl⟩
  · exact ⟨0, 1, key 0 1 (C30_parse V.other name.toList hn 0 0).1⟩
  · exact ⟨k, 1, key k 1 (C30_parse V.other name.toList hn k 0).2.1⟩
  · exact ⟨0, L, key 0 L (C30_parse V.other name.toList hn 0 L).2.2.1⟩
  · exact ⟨k, L, key k L (C30_parse V.other name.toList hn k L).2.2.2⟩

theorem Opt.dcgCore_nonneg (gain : ℝ → ℝ) (disc : Nat → ℝ) (h0 : gain 0 = 0) (hg : ∀ v, 0 ≤ v → 0 ≤ gain v)
    (hd : ∀ i, 0 < disc i) (q run : Rows ι ℝ) (k : Nat) (lvl : ℝ) (hl : 0 ≤ lvl) :
    0 ≤ dcgCore gain disc q run k lvl := by
  rw [dcgCore_eq gain h0, dcg_as_sum]
  apply Finset.sum_nonneg
  intro i _
  apply mul_nonneg _ (inv_nonneg.2 (hd i).le)
  unfold Spec.gainAt
  cases hx : (List.map Prod.fst run)[i]? with
  | none => simp
  | some x =>
    simp only [Option.map_some, Option.getD_some]
    by_cases hx : Spec.Rel q lvl x
    · exact hg _ (hl.trans (gradeFn_of_rel hx).2)
    · simp only [gradeFn_of_not_rel hx, h0]; exact le_rfl

theorem Opt.ndcgCore_nonneg (gain : ℝ → ℝ) (disc : Nat → ℝ) (h0 : gain 0 = 0) (hg : ∀ v, 0 ≤ v → 0 ≤ gain v)
    (hd : ∀ i, 0 < disc i) (q run : Rows ι ℝ) (k : Nat) (lvl : ℝ) (hl : 0 ≤ lvl) :
    0 ≤ ndcgCore gain disc q run k lvl := by
  have h1 := dcgCore_nonneg gain disc h0 hg hd q run k lvl hl
  have h2 := dcgCore_nonneg gain disc h0 hg hd q q k lvl hl
  unfold ndcgCore idcgCore
  simp only
  first
    | exact div_nonneg h1 h2
    | (split_ifs
       · exact div_nonneg h1 zero_le_one
       · exact div_nonneg h1 h2)

/-- **C101** (metrics): every documented metric but bpref and rbp works, however its cutoff and relevance level are
written: it is defined for every ranking, and never negative. -/
theorem C101_metrics (V : EvalEnv δ ι) (name : String) (metric : Py.Str) (hw : Spec.Written name.toList metric)
    (hn : name ∈ ["hits", "hit_rate", "precision", "recall", "f1", "r-precision", "mrr", "map"] ∨
      V.F = realFn ∧ name ∈ ["dcg", "dcg_burges", "ndcg", "ndcg_burges"]) : Spec.MetricNonneg V metric := by
  have hplain : Spec.PlainName name.toList := by
    refine plain_names name ?_
    simp only [List.mem_cons, List.not_mem_nil, or_false] at hn ⊢
    tauto
  have fin : ∀ (met : Metric), metricSwitch name.toList = .ok met →
      (∀ k L : Nat, ∃ g : Rows ι ℝ → Rows ι ℝ → ℝ, kernel V.F met (.cutoff (k : Int)) (L : Int) = .ok (total g) ∧
        ∀ a b, 0 ≤ g a b) → Spec.MetricNonneg V metric := by
    intro met hs h
    obtain ⟨k, L, hk⟩ := metricOf_written V name hplain met hs metric hw
    obtain ⟨g, hg, h0⟩ := h k L
    exact ⟨total g, hk.trans hg, fun a b => ⟨g a b, rfl, h0 a b⟩⟩
  have hlvl : ∀ L : Nat, (0 : ℝ) ≤ ((L : Int) : ℝ) := fun L => by positivity
  rcases hn with hn | ⟨hF, hn⟩
  · simp only [List.mem_cons, List.not_mem_nil, or_false] at hn
    rcases hn with rfl | rfl | rfl | rfl | rfl | rfl | rfl | rfl
    · exact fin .hits (by decide +kernel) (fun k L => ⟨_, rfl, fun a b => (C22_ranges_any_run a b k _).1.1⟩)
    · refine fin .hitRate (by decide +kernel) (fun k L => ⟨_, rfl, fun a b => ?_⟩)
      rcases (C22_ranges_any_run a b k (((L : Int) : ℝ))).2.1 with h | h <;> rw [h]
      norm_num
    · exact fin .precision (by decide +kernel) (fun k L => ⟨_, rfl, fun a b => precision_nonneg a b k _⟩)
    · exact fin .recall (by decide +kernel) (fun k L => ⟨_, rfl, fun a b => recall_nonneg a b k _⟩)
    · exact fin .f1 (by decide +kernel) (fun k L => ⟨_, rfl, fun a b =>
        (le_min (precision_nonneg a b k _) (recall_nonneg a b k _)).trans (C13_f1 a b k _).2.2.2.1⟩)
    · exact fin .rPrecision (by decide +kernel) (fun k L => ⟨_, rfl, fun a b => (C22_ranges_any_run a b k _).2.2.2.1.1⟩)
    · exact fin .mrr (by decide +kernel) (fun k L => ⟨_, rfl, fun a b => (C22_ranges_any_run a b k _).2.2.2.2.1⟩)
    · refine fin .map (by decide +kernel) (fun k L => ⟨_, rfl, fun a b => ?_⟩)
      rw [averagePrecision_eq, averagePrecision_sum]
      apply div_nonneg
      · apply Finset.sum_nonneg
        intro i _
        exact mul_nonneg (ind_nonneg _ _ _) (div_nonneg_nat _ _)
      · exact Nat.cast_nonneg _
  · have hd : ∀ i, 0 < V.F.log2Disc i := by rw [hF]; exact log2Disc_pos
    have h0 : V.F.pow2 0 - 1 = 0 := by rw [hF]; show (2 : ℝ) ^ (0 : ℝ) - 1 = 0; simp
    have hg : ∀ v, 0 ≤ v → 0 ≤ V.F.pow2 v - 1 := by
      intro v hv
      rw [hF]
      show 0 ≤ (2 : ℝ) ^ v - 1
      have := Real.one_le_rpow (x := 2) (by norm_num) hv
      linarith
    simp only [List.mem_cons, List.not_mem_nil, or_false] at hn
    rcases hn with rfl | rfl | rfl | rfl
    · exact fin .dcg (by decide +kernel) (fun k L => ⟨_, rfl, fun a b =>
        dcgCore_nonneg id _ rfl (fun _ h => h) hd a b k _ (hlvl L)⟩)
    · exact fin .dcgBurges (by decide +kernel) (fun k L => ⟨_, rfl, fun a b =>
        dcgCore_nonneg (fun x => V.F.pow2 x - 1) _ h0 hg hd a b k _ (hlvl L)⟩)
    · exact fin .ndcg (by decide +kernel) (fun k L => ⟨_, rfl, fun a b =>
        ndcgCore_nonneg id _ rfl (fun _ h => h) hd a b k _ (hlvl L)⟩)
    · exact fin .ndcgBurges (by decide +kernel) (fun k L => ⟨_, rfl, fun a b =>
        ndcgCore_nonneg (fun x => V.F.pow2 x - 1) _ h0 hg hd a b k _ (hlvl L)⟩)

/-- **C101** (metrics): so does rank-biased precision, for every persistence from `rbp.0` up to `rbp.999…`, at any
relevance level. -/
theorem C101_rbp (V : EvalEnv δ ι) (ds : Py.Str) (hd : ∀ c ∈ ds, c.isDigit = true)
    (sep : Char) (hsep : sep = '.' ∨ sep = '@') (L : Nat) (metric : Py.Str)
    (hm : metric = "rbp".toList ++ sep :: ds ∨ metric = "rbp".toList ++ sep :: ds ++ "-l".toList ++ Py.natStr L) :
    Spec.MetricNonneg V metric := by
  have hsw : metricSwitch "rbp".toList = .ok .rbp := by decide +kernel
  obtain ⟨L', hf⟩ : ∃ L' : Nat, metricOf (ι := ι) V.F V.other metric =
      .ok (total (fun a b => Metrics.rbp a b ((Nat.ofDigitChars 10 ds 0 : ℝ) / 10 ^ ds.length) (((L' : Int) : ℝ)))) := by
    have key : ∃ L' : Nat, extract V.other metric =
        .ok ("rbp".toList, .persistence ((Nat.ofDigitChars 10 ds 0 : ℝ) / 10 ^ ds.length), (L' : Int)) := by
      rcases hm with rfl | rfl
      · exact ⟨1, ((C30_rbp V.other ds hd 0).1 sep hsep).1⟩
      · exact ⟨L, ((C30_rbp V.other ds hd L).1 sep hsep).2⟩
    obtain ⟨L', key⟩ := key
    refine ⟨L', ?_⟩
    unfold metricOf
    rw [key]
    simp only [hsw]
    rfl
  refine ⟨_, hf, fun a b => ⟨_, rfl, ?_⟩⟩
  have hlt : Nat.ofDigitChars 10 ds 0 < 10 ^ ds.length := by
    have gen : ∀ (l : List Char) (a m : Nat), (∀ c ∈ l, c.isDigit = true) → a < 10 ^ m →
        Nat.ofDigitChars 10 l a < 10 ^ (m + l.length) := by
      intro l
      induction l with
      | nil => intro a m _ h; simpa [Nat.ofDigitChars] using h
      | cons c t ih =>
        intro a m hc h
        rw [Nat.ofDigitChars_cons, List.length_cons, show m + (t.length + 1) = (m + 1) + t.length by omega]
        refine ih _ _ (fun c hc' => hc c (by simp [hc'])) ?_
        have hcd := hc c (by simp)
        have hd9 : c.toNat - '0'.toNat ≤ 9 := by
          simp only [Char.isDigit, Bool.and_eq_true, decide_eq_true_eq, ge_iff_le, UInt32.le_iff_toNat_le] at hcd
          have h1 := hcd.2
          have h2 : c.val.toNat = c.toNat := rfl
          have h3 : '0'.toNat = 48 := rfl
          have h4 : '9'.val.toNat = 57 := rfl
          omega
        rw [pow_succ]
        omega
    simpa using gen ds 0 0 hd (by norm_num)
  have hp0 : (0 : ℝ) ≤ (Nat.ofDigitChars 10 ds 0 : ℝ) / 10 ^ ds.length := by positivity
  have hp1 : (Nat.ofDigitChars 10 ds 0 : ℝ) / 10 ^ ds.length ≤ 1 := by
    rw [div_le_one (by positivity)]
    exact_mod_cast hlt.le
  beta_reduce
  rw [rbp_eq]
  unfold Spec.rbp
  apply mul_nonneg (by linarith)
  apply Finset.sum_nonneg
  intro i _
  apply mul_nonneg _ (pow_nonneg hp0 _)
  unfold Spec.gainAt
  cases hx : (List.map Prod.fst b)[i]? with
  | none => simp
  | some x =>
    simp only [Option.map_some, Option.getD_some]
    by_cases hx : Spec.Rel a (((L' : Int) : ℝ)) x
    · exact le_trans (by positivity) (gradeFn_of_rel hx).2
    · rw [gradeFn_of_not_rel hx]

/-! ### methods that are trained, not searched -/

/-- **C101** (training): for the four methods that learn their parameters directly, `optimize_fusion` succeeds on valid
input, whatever the normalization, and `fuse` accepts the parameters it returns for the same runs. -/
theorem C101_training (E : Env δ) (V : EvalEnv δ ι) (rowSched : List Nat) (rnd : ℚ → ℚ)
    (str : Kwargs → Py.Str) (strNat : Nat → Py.Str) (qrels : Store κ δ Int) (runs : List (Store κ δ ℝ))
    (hmany : 2 ≤ runs.length) (hsch : Spec.SchedulesCover E runs)
    (hev : ∀ i, Schedule qrels.data.length (V.sched i))
    (hT : Spec.Trainable V.SQ E.S V.hash qrels runs) (norm : Option String) (hk : Spec.NormAccepted norm)
    (hb : norm = some "borda" → Spec.NoPoolCollision V.hash qrels runs) (metric : Py.Str) (space : Space)
    (method : String) (hm : method ∈ ["bayesfuse", "mapfuse", "posfuse", "segfuse"]) :
    ∃ res p out, optimizeFusion E V rowSched rnd str strNat qrels runs norm method metric false space = .ok res ∧
      res.params = some p ∧ fuse E runs norm method (some p) = .ok out ∧ Spec.Usable E.S out ∧
      ∀ q, q ∈ out.data.keys ↔ q ∈ qrels.data.keys := by
  have hw : ∀ s ∈ runs, Store.Wf s.data := fun s hs => (hT.usable s hs).ok.1
  have hsame : Spec.SameQueries runs :=
    fun s hs s' hs' q hq' => (hT.queries s' hs' q).2 ((hT.queries s hs q).1 hq')
  obtain ⟨nr, hnr, hS⟩ := normed E runs hmany hw hsame hsch norm hk
  obtain ⟨rs, hn, hlen, hT'⟩ := trainable_any E V qrels runs hmany hsch norm hk hT hb
  have ha : Spec.Accepted qrels runs := ⟨hmany, hT.queries⟩
  have hl : nr.length = runs.length := by rw [hS.length, List.length_map]
  have hkeys : ∀ q, (∃ run ∈ nr, q ∈ run.keys) ↔ q ∈ qrels.data.keys := by
    intro q
    rw [hS.queries q]
    constructor
    · rintro ⟨run, hr, hq'⟩
      obtain ⟨r, hr', rfl⟩ := List.mem_map.1 hr
      exact (hT.queries r hr' q).1 hq'
    · intro hq'
      obtain ⟨r, hr⟩ : ∃ r, r ∈ runs := by
        cases hc : runs with
        | nil => rw [hc] at hmany; simp at hmany
        | cons r t => exact ⟨r, by simp⟩
      exact ⟨r.data, List.mem_map.2 ⟨r, hr, rfl⟩, (hT.queries r hr q).2 hq'⟩
  obtain ⟨⟨t1, e1, f1⟩, ⟨t2, e2, f2⟩, ⟨t3, e3, f3⟩⟩ := C65_trained_tables E V rowSched rnd str strNat qrels runs rs ha
    norm hn hT' hev metric space
  obtain ⟨l, e4, f4⟩ := C65_mapfuse E V rowSched rnd str strNat qrels runs rs ha norm hn hT' hev metric space
  have fin : ∀ (m : Method) (p : Kwargs) (val : κ → δ → ℝ) out, (method, m) ∈ Spec.methodNames →
      m.call E p nr = .ok out → Spec.FusedBy nr val out →
      optimizeFusion E V rowSched rnd str strNat qrels runs norm method metric false space = .ok ⟨some p, []⟩ →
      ∃ res p out, optimizeFusion E V rowSched rnd str strNat qrels runs norm method metric false space = .ok res ∧
        res.params = some p ∧ fuse E runs norm method (some p) = .ok out ∧ Spec.Usable E.S out ∧
        ∀ q, q ∈ out.data.keys ↔ q ∈ qrels.data.keys := by
    intro m p val out hmn hc hfb ho
    have hfu : fuse E runs norm method (some p) = .ok out :=
      (fuse_named E runs hmany hsame norm method m hmn p nr hnr).trans hc
    exact ⟨_, p, out, ho, rfl, hfu, fuse_usable E runs norm method (some p) out hfu,
      fun q => (hfb.queries q).trans (hkeys q)⟩
  simp only [List.mem_cons, List.not_mem_nil, or_false] at hm
  rcases hm with rfl | rfl | rfl | rfl
  · obtain ⟨out, h1, h2⟩ := C60_bayesfuse E.S E.sched E.scheds E.oob t3 nr
      (by rw [hl, ← hlen, f3.length_eq]) hS.fusable hS.fits.main hS.fits.rescore
    exact fin .bayesfuse [("log_odds", .tables t3)] _ out (by decide +kernel) h1 h2 e3
  · obtain ⟨out, h1, h2⟩ := C58_mapfuse E.S E.sched E.scheds l nr
      (by rw [hl, ← hlen, f4.length_eq]) hS.fusable hS.fits.main hS.fits.rescore
    exact fin .mapfuse [("map_scores", .nums l)] _ out (by decide +kernel) h1 h2 e4
  · obtain ⟨out, h1, h2⟩ := C58_posfuse E.S E.sched E.scheds t1 nr
      (by rw [hl, ← hlen, f1.length_eq]) hS.fusable hS.fits.main hS.fits.rescore
    exact fin .posfuse [("probs", .tables t1)] _ out (by decide +kernel) h1 h2 e1
  · obtain ⟨out, h1, h2⟩ := C58_segfuse E.S E.sched E.scheds t2 (by
        intro p hp
        obtain ⟨r, -, ids, -, hl10, -⟩ := forall₂_mem_right f2 hp
        omega) nr (by rw [hl, ← hlen, f2.length_eq]) hS.fusable hS.fits.main hS.fits.rescore
    exact fin .segfuse [("probs", .tables t2)] _ out (by decide +kernel) h1 h2 e2

/-! ### the default searches -/

/-- Specification: the default keyword arguments of the searches (`fusion_optimization/optimize_*.py`), floats as binary64. -/
def Spec.defaultSpaces : List (String × Space) :=
  [("rrf", .ints 10 100 10),
   ("rbc", .floats (fl (1 / 100)) 1 (fl (1 / 100)) "0.01".toList),
   ("gmnz", .floats (fl (1 / 100)) 1 (fl (1 / 100)) "0.01".toList),
   ("logn_isr", .floats (fl (1 / 100)) 1 (fl (1 / 100)) "0.01".toList),
   ("mixed", .weights (fl (1 / 10)) "0.1".toList),
   ("wmnz", .weights (fl (1 / 10)) "0.1".toList),
   ("wsum", .weights (fl (1 / 10)) "0.1".toList),
   ("w_condorcet", .weights (fl (1 / 10)) "0.1".toList),
   ("w_bordafuse", .weights (fl (1 / 10)) "0.1".toList)]

theorem Opt.default_weights_nonempty (n : Nat) (hn : 1 ≤ n) :
    ∃ x xs, weightTrials fl (fl (1 / 10)) "0.1".toList n = .ok (x :: xs) := by
  obtain ⟨T, hT, h⟩ := C66_default_up_to_order n
  have hw : Spec.Weighting (1 / 10) n (1 :: List.replicate (n - 1) 0) := by
    refine ⟨by simp; omega, ?_, by simp⟩
    intro x hx
    rcases List.mem_cons.1 hx with rfl | hx
    · exact ⟨10, by norm_num⟩
    · rw [List.eq_of_mem_replicate hx]; exact ⟨0, by norm_num⟩
  obtain ⟨u, -, hu⟩ := (h _ hw).2 (by
    intro h0
    have := congrArg List.length h0
    rw [List.length_replicate, List.filter_cons_of_pos (by simp)] at this
    have h1 : (List.replicate (n - 1) (0 : ℚ)).filter (· ≠ 0) = [] := by
      rw [List.filter_eq_nil_iff]
      intro x hx
      rw [List.eq_of_mem_replicate hx]; simp
    rw [h1] at this
    simp at this)
  cases hTe : T with
  | nil => rw [hTe] at hu; cases hu
  | cons x xs => exact ⟨x, xs, by rw [hT, hTe]⟩

theorem Opt.default_grid_unit (xs : List ℚ)
    (h : grid fl (fl (1 / 100)) 1 (fl (1 / 100)) "0.01".toList = .ok xs) : ∀ x ∈ xs, 0 ≤ x ∧ x ≤ 1 := by
  rw [C67_defaults.1] at h
  cases h
  intro x hx
  obtain ⟨i, hi, rfl⟩ := List.mem_map.1 hx
  obtain ⟨a, ha, rfl⟩ : ∃ a : ℕ, a < 100 ∧ i = (a : ℚ) := by simpa using hi
  have h1 : ((a : ℚ) + 1) / 100 ≤ 1 := by
    rw [div_le_one (by norm_num)]
    exact_mod_cast ha
  refine ⟨?_, (fl_mono h1).trans_eq fl_one⟩
  have : fl 0 ≤ fl (((a : ℚ) + 1) / 100) := fl_mono (by positivity)
  exact (by decide +kernel : (0 : ℚ) ≤ fl 0).trans this

/-- **C101** (defaults): called without search arguments, with a metric that is never negative and a query to
evaluate, `optimize_fusion` returns the parameters it found, whatever the normalization. -/
theorem C101_defaults (E : Env δ) (V : EvalEnv δ ι) (rowSched : List Nat) (str : Kwargs → Py.Str)
    (strNat : Nat → Py.Str) (qrels : Store κ δ Int) (runs : List (Store κ δ ℝ))
    (metric : Py.Str) (hv : Spec.ValidSearch E V qrels runs metric) (hpos : Spec.MetricNonneg V metric)
    (hne : qrels.data ≠ []) (norm : Option String) (hk : Spec.NormAccepted norm)
    (wantReport : Bool) :
    (∀ method space, (method, space) ∈ Spec.defaultSpaces → ∃ res p,
      optimizeFusion E V rowSched fl str strNat qrels runs norm method metric wantReport space = .ok res ∧
      res.params = some p) ∧
    (Spec.Trainable V.SQ E.S V.hash qrels runs → Schedule runs.length rowSched →
      (norm = some "borda" → Spec.NoPoolCollision V.hash qrels runs) →
      ∀ method, method = "probfuse" ∨ method = "slidefuse" → ∃ res p,
        optimizeFusion E V rowSched fl str strNat qrels runs norm method metric wantReport (.ints 1 100 1) = .ok res ∧
        res.params = some p) := by
  have h01 : (0 : ℚ) < fl (1 / 100) := by decide +kernel
  have h1 : (0 : ℚ) < fl (1 / 10) := by decide +kernel
  have hg : ∃ x xs, grid fl (fl (1 / 100)) 1 (fl (1 / 100)) "0.01".toList = .ok (x :: xs) := by
    rw [C67_defaults.1]
    exact ⟨_, _, rfl⟩
  have hw : ∃ x xs, weightTrials fl (fl (1 / 10)) "0.1".toList runs.length = .ok (x :: xs) :=
    default_weights_nonempty _ (by have := hv.many; omega)
  have go : ∀ method space (c : Prop), Spec.Tuned fl runs method space c → c → ∃ res p,
      optimizeFusion E V rowSched fl str strNat qrels runs norm method metric wantReport space = .ok res ∧
      res.params = some p := by
    intro method space c hT hc
    obtain ⟨res, h1, h2⟩ := C101_succeeds_partial E V rowSched fl str strNat qrels runs metric hv norm hk wantReport
      method space c hT
    obtain ⟨p, hp⟩ := h2 hpos hne hc
    exact ⟨res, p, h1, hp⟩
  refine ⟨?_, ?_⟩
  · intro method space hm
    simp only [Spec.defaultSpaces, List.mem_cons, List.not_mem_nil, or_false, Prod.mk.injEq] at hm
    rcases hm with ⟨rfl, rfl⟩ | ⟨rfl, rfl⟩ | ⟨rfl, rfl⟩ | ⟨rfl, rfl⟩ | ⟨rfl, rfl⟩ | ⟨rfl, rfl⟩ | ⟨rfl, rfl⟩ |
      ⟨rfl, rfl⟩ | ⟨rfl, rfl⟩
    · exact go _ _ _ (.rrf 10 100 10 (by norm_num) (by norm_num)) (by norm_num)
    · exact go _ _ _ (.rbc _ _ _ _ h01) hg
    · exact go _ _ _ (.gmnz _ _ _ _ h01) hg
    · exact go _ _ _ (.lognIsr _ _ _ _ h01 default_grid_unit) hg
    · exact go _ _ _ (.weights "mixed" (by decide +kernel) _ _ h1) hw
    · exact go _ _ _ (.weights "wmnz" (by decide +kernel) _ _ h1) hw
    · exact go _ _ _ (.weights "wsum" (by decide +kernel) _ _ h1) hw
    · exact go _ _ _ (.weights "w_condorcet" (by decide +kernel) _ _ h1) hw
    · exact go _ _ _ (.weights "w_bordafuse" (by decide +kernel) _ _ h1) hw
  · intro hT hrow hb method hm
    obtain ⟨a, b⟩ := C101_trained_searches E V rowSched fl str strNat qrels runs metric hv hT hrow norm hk hb
      wantReport 1 100
    rcases hm with rfl | rfl
    · obtain ⟨res, e1, e2⟩ := a (le_refl _)
      obtain ⟨p, hp⟩ := e2 hpos hne (by norm_num)
      exact ⟨res, p, e1, hp⟩
    · obtain ⟨res, e1, e2⟩ := b (by norm_num)
      obtain ⟨p, hp⟩ := e2 hpos hne (by norm_num)
      exact ⟨res, p, e1, hp⟩

/-! ### a search that fails -/

theorem Opt.optLoop_fails {σ τ ρ : Type*} (eval : σ → τ → σ × Except Err (ρ × Num ℝ)) (label : τ → Py.Str)
    (Inv : σ → Prop) (e : Err) (ts : List τ)
    (h : ∀ s, Inv s → ∀ t ∈ ts, (Inv (eval s t).1 ∧ ∃ p, (eval s t).2 = .ok p) ∨ (eval s t).2 = .error e)
    (hbad : ∃ t ∈ ts, ∀ s, Inv s → (eval s t).2 = .error e) (s : σ) (hs : Inv s) (acc : Search ρ ℝ) :
    (optLoop eval label s acc ts).2 = .error e := by
  induction ts generalizing s acc with
  | nil => obtain ⟨t, ht, -⟩ := hbad; cases ht
  | cons t ts ih =>
    unfold optLoop
    rcases he : eval s t with ⟨s', out⟩
    have ht := h s hs t (by simp)
    rw [he] at ht
    simp only at ht
    rcases ht with ⟨h1, p, h2⟩ | h2
    · subst h2
      obtain ⟨a, b⟩ := p
      refine ih (fun s hs t ht => h s hs t (by simp [ht])) ?_ s' h1 _
      obtain ⟨t', ht', hb⟩ := hbad
      rcases List.mem_cons.1 ht' with rfl | ht'
      · have := hb s hs
        rw [he] at this
        cases this
      · exact ⟨t', ht', hb⟩
    · subst h2
      rfl

/-- **C101** fails for `logn_isr`: as soon as one candidate of the grid is not in `[0, 1]` the whole search raises
`AssertionError`, although the other candidates could be evaluated. -/
theorem C101_logn_isr_rejects (E : Env δ) (V : EvalEnv δ ι) (rowSched : List Nat) (rnd : ℚ → ℚ)
    (str : Kwargs → Py.Str) (strNat : Nat → Py.Str) (qrels : Store κ δ Int) (runs : List (Store κ δ ℝ))
    (metric : Py.Str) (hv : Spec.ValidSearch E V qrels runs metric) (norm : Option String)
    (hk : Spec.NormAccepted norm) (wantReport : Bool) (lo hi step : ℚ) (s : Py.Str) (g : List ℚ)
    (hg : grid rnd lo hi step s = .ok g) (hbad : ∃ x ∈ g, ¬ (0 ≤ x ∧ x ≤ 1)) :
    optimizeFusion E V rowSched rnd str strNat qrels runs norm "logn_isr" metric wantReport (.floats lo hi step s) =
      .error .assertionError := by
  obtain ⟨nr, hnr, hS⟩ := normed E runs hv.many hv.wf hv.sameQueries hv.schedules norm hk
  have hnd := normalizeStores_data E norm runs
  rw [hnr] at hnd
  obtain ⟨rs, hn⟩ : ∃ rs, normalizeStores E norm runs = .ok rs := by
    cases h : normalizeStores E norm runs with
    | error e => rw [h] at hnd; cases hnd
    | ok rs => exact ⟨rs, rfl⟩
  have hdata : nr = rs.map (fun r => r.data) := by
    rw [hn] at hnd
    simpa [Except.map] using hnd
  rw [search_starts E V rowSched rnd str strNat qrels runs rs metric hv norm hn "logn_isr" (.plain .lognIsr)
    (by decide +kernel) (by decide +kernel) wantReport _]
  have ht : configs rnd rs.length .lognIsr (.floats lo hi step s) =
      .ok (g.map (fun (x : ℚ) => [("sigma", PyVal.num (x : ℝ))])) := by
    simp only [configs, hg, Except.map]
  simp only [runOptimizer, ht, bindArg]
  have hkeys : ∀ out : Store κ δ ℝ, FusedOk runs out → ∀ q, q ∈ qrels.data.keys ↔ q ∈ out.data.keys := by
    intro out h q
    rw [h.queries q]
    constructor
    · intro hq'
      obtain ⟨r, hr⟩ : ∃ r, r ∈ runs := by
        have := hv.many
        cases hc : runs with
        | nil => rw [hc] at this; simp at this
        | cons r t => exact ⟨r, by simp⟩
      exact ⟨r.data, List.mem_map.2 ⟨r, hr, rfl⟩, (hv.queries r hr q).2 hq'⟩
    · rintro ⟨run, hr, hq'⟩
      obtain ⟨r, hr', rfl⟩ := List.mem_map.1 hr
      exact (hv.queries r hr' q).1 hq'
  have hcall : ∀ x : ℚ, Method.call E .lognIsr [("sigma", PyVal.num (x : ℝ))] (rs.map (fun r => r.data)) =
      lognIsr E.S E.sched E.scheds (x : ℝ) nr := by
    intro x
    rw [hdata]; rfl
  have hlog := fun x : ℝ => C51_logn_isr E.S E.sched E.scheds x nr hS.fusable hS.fits.main hS.fits.rescore
  have hfail : ∀ x : ℚ, ¬ (0 ≤ x ∧ x ≤ 1) → ∀ s', (plainTrial E V metric .lognIsr (rs.map (fun r => r.data)) s'
      [("sigma", PyVal.num (x : ℝ))]).2 = .error .assertionError := by
    intro x hx s'
    unfold plainTrial
    rw [hcall x, (hlog (x : ℝ)).1 (by
      rintro ⟨a, b⟩
      exact hx ⟨by exact_mod_cast a, by exact_mod_cast b⟩)]
  have := optLoop_fails (plainTrial E V metric .lognIsr (rs.map (fun r => r.data))) str
    (fun s' => s' = qrels ∨ s' = qrels.ensureSorted V.SQ) .assertionError
    (g.map (fun (x : ℚ) => [("sigma", PyVal.num (x : ℝ))])) (by
      intro s' hs' cfg hcfg
      obtain ⟨x, hx, rfl⟩ := List.mem_map.1 hcfg
      by_cases h01 : 0 ≤ x ∧ x ≤ 1
      · left
        obtain ⟨out, ho, hf⟩ := (hlog (x : ℝ)).2 ⟨by exact_mod_cast h01.1, by exact_mod_cast h01.2⟩
        have hok := fusedOk_of hS.queries hf
        obtain ⟨v, hval, -⟩ := evalRun_total V E.S metric hv.metric qrels hv.qrelsOk hv.evaluations out hok.ok
          (hkeys out hok)
        obtain ⟨a, b⟩ := evalRun_inv V E.S metric qrels hv.qrelsOk out s' hs'
        unfold plainTrial
        rw [hcall x, ho]
        simp only [a, hval, Except.map]
        exact ⟨b, _, rfl⟩
      · exact .inr (hfail x h01 s')) (by
      obtain ⟨x, hx, hb⟩ := hbad
      exact ⟨_, List.mem_map.2 ⟨x, hx, rfl⟩, fun s' _ => hfail x hb s'⟩) qrels (.inl rfl) ⟨none, 0, []⟩
  rw [this]
  rfl

/-- **C101** is refuted by `optimize_fusion(…, method="logn_isr", step=0.3)` with the default `min_sigma=0.01`,
`max_sigma=1.0` (the grid rounds to one decimal and overshoots 1), on any valid input. -/
theorem C101_refuted (E : Env δ) (V : EvalEnv δ ι) (rowSched : List Nat)
    (str : Kwargs → Py.Str) (strNat : Nat → Py.Str) (qrels : Store κ δ Int) (runs : List (Store κ δ ℝ))
    (metric : Py.Str) (hv : Spec.ValidSearch E V qrels runs metric) (norm : Option String)
    (hk : Spec.NormAccepted norm) (wantReport : Bool) :
    optimizeFusion E V rowSched fl str strNat qrels runs norm "logn_isr" metric wantReport
      (.floats (fl (1 / 100)) 1 (fl (3 / 10)) "0.3".toList) = .error .assertionError := by
  refine C101_logn_isr_rejects E V rowSched fl str strNat qrels runs metric hv norm hk wantReport _ _ _ _
    [0, fl (3 / 10), fl (6 / 10), fl (9 / 10), fl (12 / 10)] (by decide +kernel) ⟨fl (12 / 10), by decide +kernel, ?_⟩
  decide +kernel

end

/-! ### a concrete case -/

theorem low_valid : Spec.ValidSearch oneEnv oneEvalEnv oneQrels [lowFirst, lowFirst] "map".toList := by
  have hs : Schedule 1 [0] := by unfold Schedule; decide
  have hl : ∀ (j : Nat) s, [lowFirst, lowFirst][j]? = some s → s.data.length = 1 := by
    intro j s h
    have := List.mem_of_getElem? h
    simp only [List.mem_cons, List.not_mem_nil, or_false, or_self] at this
    subst this; rfl
  refine ⟨oneQrels_usable, by decide, ?_, ?_, ⟨?_, ?_, ?_⟩, fun i => hs, ?_⟩
  · intro r hr
    simp only [List.mem_cons, List.not_mem_nil, or_false, or_self] at hr
    subst hr; exact wf_low
  · exact lowTrainable.queries
  · intro s h; rw [hl 0 s h]; exact hs
  · intro j s h; rw [hl j s h]; exact hs
  · intro j s h; rw [hl j s h]; exact hs
  · exact (C101_metrics oneEvalEnv "map" _ (.inl rfl) (.inl (by decide +kernel))).works

/-- the hypotheses of the theorems above are met, with and without normalization -/
example : Spec.ValidSearch oneEnv oneEvalEnv oneQrels [lowFirst, lowFirst] "map".toList ∧
    Spec.MetricNonneg oneEvalEnv "map".toList ∧ oneQrels.data ≠ [] ∧
    Spec.Trainable oneEvalEnv.SQ oneEnv.S oneEvalEnv.hash oneQrels [lowFirst, lowFirst] ∧
    Schedule [lowFirst, lowFirst].length [0, 1] ∧
    Spec.NormAccepted none ∧ Spec.NormAccepted (some "borda") ∧
    Spec.NoPoolCollision oneEvalEnv.hash oneQrels [lowFirst, lowFirst] ∧
    Spec.Written "ndcg".toList "ndcg@10-l2".toList := by
  refine ⟨low_valid, C101_metrics oneEvalEnv "map" _ (.inl rfl) (.inl (by decide +kernel)), by decide, lowTrainable,
    by unfold Schedule; decide, .inl rfl, .inr ⟨"borda", by decide +kernel, rfl⟩, fun _ _ _ _ _ _ _ _ _ _ h => h, ?_⟩
  · exact .inr (.inr (.inr ⟨10, 2, by decide +kernel⟩))

/-- `str` of the parameters of `rrf` -/
noncomputable def rrfLabel : Kwargs → Py.Str
  | [(_, .num x)] => Py.natStr ⌊x⌋₊
  | _ => []

/-- `optimize_fusion(qrels, runs, norm="min-max", method="rrf", metric="map")` -/
def rrfCall : Spec.OptArgs := ⟨some "min-max", "rrf", "map".toList, false, .ints 10 100 10⟩

/-- `optimize_fusion(qrels, runs, norm=None, method="slidefuse", metric="map")` -/
def slideCall : Spec.OptArgs := ⟨none, "slidefuse", "map".toList, false, .ints 1 100 1⟩

/-- the hypotheses of `C100_then_fuse` are met by a search that returns parameters -/
example : Spec.Usable oneEvalEnv.SQ oneQrels ∧ optimizationSwitch rrfCall.method = .ok (.plain .rrf) ∧
    (∀ tried, configs fl lowRuns.length .rrf rrfCall.space = .ok tried → (tried.map rrfLabel).Nodup) ∧
    ∃ res p, (Spec.optCall oneEnv oneEvalEnv [0, 1] fl rrfLabel Py.natStr rrfCall (oneQrels, lowRuns)).result =
      .ok res ∧ res.params = some p := by
  refine ⟨oneQrels_usable, by decide +kernel, ?_, ?_⟩
  · intro tried h
    have hg : intGrid 10 100 10 = .ok [10, 20, 30, 40, 50, 60, 70, 80, 90, 100] := by decide +kernel
    simp only [rrfCall, configs, hg, Except.map, Except.ok.injEq] at h
    subst h
    have hl : ∀ n : ℕ, rrfLabel [("k", PyVal.num (((n : ℤ) : ℝ)))] = Py.natStr n := by
      intro n
      unfold rrfLabel
      simp
    have e : List.map rrfLabel (List.map (fun k : ℤ => [("k", PyVal.num (k : ℝ))])
        [10, 20, 30, 40, 50, 60, 70, 80, 90, 100]) = [10, 20, 30, 40, 50, 60, 70, 80, 90, 100].map Py.natStr := by
      rw [List.map_map]
      refine (List.map_congr_left (g := fun k : ℤ => Py.natStr k.toNat) ?_).trans ?_
      · intro k hk
        simp only [List.mem_cons, List.not_mem_nil, or_false] at hk
        have : ∃ n : ℕ, k = (n : ℤ) := ⟨k.toNat, by omega⟩
        obtain ⟨n, rfl⟩ := this
        simpa using hl n
      · rfl
    rw [e]
    decide +kernel
  · unfold Spec.optCall
    rw [C100_result]
    obtain ⟨h, -⟩ := C101_defaults oneEnv oneEvalEnv [0, 1] rrfLabel Py.natStr oneQrels [lowFirst, lowFirst]
      "map".toList low_valid (C101_metrics oneEvalEnv "map" _ (.inl rfl) (.inl (by decide +kernel))) (by decide)
      (some "min-max") (.inr ⟨"min-max", by decide +kernel, rfl⟩) false
    exact h "rrf" (.ints 10 100 10) (by simp [Spec.defaultSpaces])

/-- the hypotheses of `C100_then_fuse_trained` are met by a search that returns parameters -/
example : (∀ r ∈ lowRuns, Spec.Usable oneEnv.S r.store) ∧ slideCall.norm = none ∧ slideCall.method = "slidefuse" ∧
    Function.Injective Py.natStr ∧
    ∃ res p, (Spec.optCall oneEnv oneEvalEnv [0, 1] fl rrfLabel Py.natStr slideCall (oneQrels, lowRuns)).result =
      .ok res ∧ res.params = some p := by
  refine ⟨?_, rfl, rfl, fun a b h => natStr_inj h, ?_⟩
  · intro r hr
    simp only [lowRuns, List.mem_cons, List.not_mem_nil, or_false, or_self] at hr
    subst hr; exact low_usable
  · unfold Spec.optCall
    rw [C100_result]
    obtain ⟨-, h⟩ := C101_defaults oneEnv oneEvalEnv [0, 1] rrfLabel Py.natStr oneQrels [lowFirst, lowFirst]
      "map".toList low_valid (C101_metrics oneEvalEnv "map" _ (.inl rfl) (.inl (by decide +kernel))) (by decide)
      none (.inl rfl) false
    exact h lowTrainable (by unfold Schedule; decide) (by simp) "slidefuse" (.inr rfl)

end Ranx
