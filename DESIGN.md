# A Lean 4 model of AmenRa/ranx

Kept in step with `properties.jsonl` (the claims in English) and `MANIFEST.json`
(their status, exact theorem names and notes).

## Method

* The Python is translated function by function into total Lean functions
  under `lean/Verif/Model/`. Each definition cites file and lines of `/repo`
  and says where it simplifies.
* `lean/Verif/Spec/` (and the `Spec` namespace at the head of some files in
  `Props/`) holds small, independent definitions - textbook metrics, abstract
  maps, "is the weighting", "fused by this formula" - which the property
  theorems are stated with.
* `lean/Verif/Lemmas/` holds helper lemmas, `lean/Verif/Props/` the property
  theorems, named `Cxx_…` after the property, with non-vacuity examples (a
  concrete input meeting the hypotheses) beside them.
* A property that is false of the unchanged code keeps its full English
  statement. It gets a theorem refuting it on a concrete input, the strongest
  true theorem (suffix `_partial`) and status `partial`.
* Theorems are tested against wrong programs: `seeded/LOG.jsonl` lists every
  edit of the model that was tried, the theorems that failed and the theorems
  that were tightened because they did not.

## Modelling decisions

* Numbers: exact arithmetic in an arbitrary linearly ordered field (`Field α,
  LinearOrder α, IsStrictOrderedRing α`), ℝ where the code uses `log`, `sqrt`
  or a real power. Rounding is modelled separately: `Model/Float64.lean`
  defines IEEE binary64 round-to-nearest-even on ℚ, and `MetricsFl`, `NormFl`,
  `FusionFl`, `ProbFl`, `CeilFl`, `StatsFl`, `TrainFl`, `Grid`, `Plot`, `Format` are the kernels with a rounding after
  each operation (`rnd = id` or `rnd = fl`). Not modelled there: overflow,
  subnormal numbers, signed zero, fused multiply-add (ranx does not set
  `fastmath`); infinite and NaN scores are modelled separately in
  `Model/Special`, `SpecialFuse` (exact arithmetic on the numbers among them); `pow`, `log`, `sqrt`, NumPy's `mean`/`std` are
  arbitrary functions; the bracketing of `np.sum` is left open (`IsSum`).
* Dictionaries (Python `dict`, numba `typed.Dict`) are insertion-ordered
  association lists. Ids are elements of a linear order or a type with
  decidable equality; where text matters they are `List Char`.
* `np.argsort` and `sorted(..., kind=default)` are unstable: `ArgSort` is any
  function returning a sorting permutation; theorems hold for every one.
  Sorting by the (inconsistent) Condorcet comparison is any `CmpSort`: a
  permutation in which neighbours are not inverted.
* `hash(doc_id)` stored as float64 is a parameter `δ → ι`; theorems assume it
  injective on the ids concerned (`Spec.NoCollision`); C81 says when it is not.
* Exceptions are values (`Except Err`).
* `prange`: the per-index writes happen in an arbitrary order (`Schedule`).
  Iteration over a Python/numba set: any order (`SetIter`).
* Random draws (Fisher test) are arbitrary; SciPy's p-values are parameters.
* Library formats: `Codec` (UTF-8, gzip, orjson, cbor2+lz4, parquet) and
  `Archive` (ranxhub cards) are any encoders with decoders that undo them;
  `FloatText` is any `str`/`float` pair that round-trips and writes no spaces;
  `NumText` the same for numbers in JSON. C126 discharges both for binary64
  (`Model/FloatText`: shortest decimals, correct rounding) and C135 with
  infinities and NaN (`Model/FloatTextX`); JSON text itself is
  `Model/Json`, after RFC 8259 and the documentation of `orjson` and `json`.
  C132-C134 discharge UTF-8 and CBOR (`Model/Bytes`, after RFC 3629, RFC 8949
  and IEEE 754); the LZ4 frame format stays a parameter (`Frame`).
* Aliasing: `Model/Heap.lean` gives every `Run` and dictionary an address and
  models allocations and writes one by one (its header lists the
  simplifications). C63 and C88 are proved there.
* Crashes: `Model/Download.lean` stops a download at any byte,
  `Model/DownloadConc.lean` interleaves any number of processes at system-call
  granularity, with kills, partial writes and inodes. Ids are distinct paths.
* `optimize_fusion`: one environment (sorts, schedules) serves all trials of a
  call, and in C100 all calls.

## Which code is modelled

| code | model |
|---|---|
| `data_structures/run.py`, `qrels.py`, `common.py` (construction, `add_*`, `sort`, `keys`, `make_comparable`, `to_typed_list`, `set_relevance_level`, data frames) | `Model/Basic`, `Sort`, `Store` |
| `save`, `from_file`, `from_df`, `from_parquet`, TREC text, `io.py`, `utils.py` | `Model/PyStr`, `IO` |
| `io.py:download`, `downloader.py` | `Model/Download`, `DownloadConc` |
| `ranxhub.py`, `Run.from_ranxhub` | `Model/Hub`, `Labels` |
| text of JSON files, of reports (`save`, `print_results`), of floats | `Model/Json`, `FloatText`, `FloatTextX` |
| bytes of text, LZ4 and ranxhub files | `Model/Bytes`, `BytesRun` |
| `metrics/*` | `Model/Metrics`, `Dcg`, `MetricsFl` |
| `meta/evaluate.py`, `metrics/__init__.py` | `Model/Evaluate`, `Prange` |
| `normalization/*` | `Model/Norm`, `NormFl` |
| `fusion/*` (all methods, training included) | `Model/Fusion`, `Condorcet`, `Train`, `FusionFl`, `ProbFl`, `CeilFl`, `TrainFl` |
| `meta/fuse.py`, `fusion/__init__.py` | `Model/Fuse` |
| `meta/optimize_fusion.py`, `fusion_optimization/*` | `Model/Grid`, `Optimize`, `OptimizeState` |
| `statistical_tests/*`, `frozenset_dict.py` | `Model/Stats`, `StatsFl` |
| `meta/compare.py`, `data_structures/report.py`, `optimization_report.py` | `Model/Report`, `Format`, `Labels`, `Latex`, `Frame` |
| `meta/plot.py` | `Model/Plot` |
| sequences of the calls above on shared objects | `Model/Session` |
| conversions of ids and values in constructors and `add_*` | `Model/Convert` |
| `prange` loops action by action, per-thread random generators | `Model/Threads` |
| column names and dtypes of data frames, `pd_kwargs` | `Model/Frames` |
| reading methods: `run[q]`, `to_dict`, `get_query_ids`, `get_doc_ids_and_scores`, `len` | `Model/Handles` |
| `get_hit_lists`, `get_non_rel_lists`, `get_unjudged_lists` | `Model/Lists` |
| `utils.dataframe_to_dict`, `Qrels.from_ir_datasets` | `Model/Sources` |
| infinite and NaN scores in runs, `normalization/*`, `comb_*` and `wsum` | `Model/Special`, `SpecialFuse` |

Not modelled: numba's compilation and typing (in particular dtype widths, and lists of weights mixing `int` and
`float`: weights are floats; empty lists in `add`/`add_multi` are modelled, C01),
pandas/matplotlib/seaborn/rich/tabulate
rendering, the byte formats above (JSON text excepted), HTTP beyond the byte-level contract, `ir_datasets`
(its `qrels_dict()` is a parameter of `Model/Sources.fromIrDatasets`), progress bars, `set_num_threads`, memory limits,
SciPy's distributions.

## Per property: what is modelled, how it is proved

| id | how |
|---|---|
| C01-C05, C07 | `Store` as a state machine with the mutating calls as operations; refinement to `query → doc → value` maps by induction over histories; sorting lemmas over every `ArgSort` |
| C06, C09-C29 | every kernel as the loops in the code; equality with textbook specifications by induction over the rows; ranges, monotonicity, locality, relabelling from the specifications; DCG over ℝ |
| C08, C75-C79 | rows, lines and tokens as character lists; round trips by induction over rows |
| C30, C83 | the string parser on character lists, `int`/`float` of substrings included |
| C31-C38 | `evaluate` end to end over the state of `Run`/`Qrels`; induction over the metric list and over queries; every schedule |
| C39-C47 | each normalization per query; algebra over ordered fields, ℝ for zmuv |
| C48-C64, C89, C99 | each fusion loop = its formula on the union of the docs; permutation lemmas; then the whole of `fuse` with every normalization |
| C56, C57 | Condorcet for every `CmpSort` |
| C58-C60 | training tables and probability formulas |
| C63, C88 | heap model: every step writes only to fresh addresses or to the receiver |
| C65-C67, C100, C101 | the search loop as a fold over the grid, best-of invariant; grids exactly and in binary64; state of the arguments afterwards |
| C68-C74, C85-C87, C90, C94 | tests, comparison loop, tables, rounding of printed scores |
| C80, C97, C98, C93 | crash/interleaving machines with invariants over all traces; run cards |
| C81, C82, C91, C95, C96 | binary64: error bounds, monotonicity and ranges of the rounded kernels |
| C84 and from C102 on | end-to-end: composition of the above through `evaluate`, `fuse`, `save`/`from_file`; C107: invariant over all sequences of calls of `Model/Session`; C108: independent reader of LaTeX tables run on the text; C109: rows of the data frame read off the comparison; C110: the fusion theorems with the query-order hypothesis discharged for built runs; C112: text lemmas of C75-C77; C111: two environments that differ only in `SetIter` give the same fused content, refuted where the code lists docs in set order; C113: the conversions of `Model/Convert` put in front of the store, reduced to `ofDict` on converted values; C114: machine of interleaved actions (`Model/Threads`), invariant per iteration; C115: per-thread generators on the same model; C116: C84 applied to two related runs or qrels, uniqueness of tie-free rankings, swap lemmas; C117: typed frames (`Model/Frames`) reduced to C08; C118-C120: scores as numbers, inf, -inf or nan with the IEEE rules, sorted by a linear order with nan last; the same loops and invariants as for ordinary scores; what is false is refuted on two-run examples; C121, C122: heap model extended by the dictionaries the reading methods return, refinement to programs over values; C123: kernels = membership specifications, all schedules; C124, C125: a reader and a writer of JSON text, the reader proved equal to a grammar (inductive relation), the writer proved to produce it; C126: rounding proved nearest, the decimal reader equal to a grammar, 17 digits proved enough, the shortest decimal proved to be read back; C127, C128: order of the fused scores from the per-run order, position by position for rank-based rules; C129: C25_relabel per metric lifted through `scoreAll` and `evaluate`; C130: the renaming is a functor that commutes with every step; C131: scores of the two calls equal up to order, sums are order independent; C132-C134: byte readers proved equal to the grammar of the standards, writers proved to produce it, composed with C124's dictionary lemmas; C135: the reader of `float` proved equal to a grammar with underscores and special values, composed with C37's line lemmas; C136, C137: congruence of every step of `fuse` under rescalings (C46) and under equal doc listings; bordafuse in float64 (C138): every intermediate value is a half-integer below 2^52, on which `fl` is the identity, so the float and exact programs agree step by step; Fisher's test in float64 (C139, Model/StatsFl): means with arbitrary bracketing, error bound of a mean (C82) propagated to the comparison of two differences; deep cutoffs (C140): `fix_k` coincides, lengths tracked through `make_comparable` and sorting; C141 two comparisons related through the per-query scores of each named run (`PerQuery` is functional); C142 `compare` with another threshold = the same report with the significance flags recomputed (`compare_threshold`), superscripts by a loop invariant; C143 relative error of each float term and of the sum against the real-valued DCG, powers as arbitrary approximations, the range from C18, exact 1 because the float sums of both orders run over the same non-zero gains, refutations by squeezing `fl` between two evaluated points; C144 sorting through float64 commutes with rounding the judgements, and is an `ArgSort Int` up to 2^53; C145 is equivariance of every normalization, method and of `fuse` under an injective renaming of docs; C146 is Model/EvaluateAny: evaluate on objects, dictionaries or arrays, refined to Model/Evaluate, and the metric functions on arrays; C147 Model/Sources (dataframe_to_dict, from_ir_datasets) and every route from a table of facts to an object, by C01, C08, C77 and the content theorems C99, C106; C148 (Model/Crash, Props/Crash): crash points of `save` are all prefixes of the bytes written (`Left`); JSON by the grammar of C124 (an object's text ends at its closing brace, so no proper prefix is a text) and UTF-8 prefix-freeness (C132), TREC by `Spec.Shortened` lists of lines, fields and rows; LZ4 for frame formats that reject cut frames; C149 (Props/ByteCodec): an instance of `Codec` made of bytes (UTF-8, JSON text, gzip magic number), `Codec` itself now only promises round trips of dictionaries with unique keys; C150 (Props/Folds): per-query scores of a part equal those of the whole (C31 + tie-free rankings), weighted means; C151 (Props/OptimizeScale): normalized objects are equal, so the whole search is; for rank methods every trial's fused run is equal; C152: the optimize_fusion model simulated under an injective renaming of docs (state of the loop renamed), hash independence by restricting to the subtype of docs at hand; C153 identities between metrics lifted to evaluate through the arrays of rows (permutations of the stored docs); C154 pointwise order of kernels carried through prange, collect and mean; C155 as C152, for compare and plot; C156 from C65 (what the search returns), C53/C64 (the untuned method is on the grid) and C34; C157 from the value formulas of C49 and C103; C158 from the query-by-query form of fuse (C62) over two key types; C159 from trainEach_eq (C59) over the float model Model/TrainFl, the NearK error calculus (C96) and exactness of sums of powers of two; C160 cell by cell: every array cell is a float sum of contributions, compared with the exact tables of C59; C161 the errors of tables, rescoring and summing put together term by term; C162 the pairs of per-query scores are a permutation of each other, the curve of a run is determined by the rankings; C163 every tried configuration has the same score (C158) and the last of the best is unique, trained tables are sums over the queries; C164 the score functions of the fusion methods skip an empty results dict, so `fuse` seen from one query (`fuse_local`) is the same without it; C165 each score function is a function of the list of the doc's own scores (`OwnScore`), rank rescoring of its own positions; `fuse_local` lifts it to `fuse`; C166 a zero product can be left out of the weighted sum; with all other weights zero one product remains; C167 tuned wsum vs single runs: Opt.unit_weights_tried, single_weight_value and C105 order facts; C168 wmnz on equal doc sets: C49_wmnz and C49_comb_sum on normalized runs, C34, C65_best_configuration; C169 equal doc sets: C49_comb_* on normalized runs, C34, C65_best_configuration; C170 equal doc sets: C51_isr and its log variants on normalized runs, C34, C65_best_configuration; C171 nested search spaces: C65_best_configuration, C67_ints, C66_decimal_partial; C172 bordafuse = rank normalization + sum = mean rank on equal doc sets (from C51, C45 and the normalization step); C173 borda = rank normalization on equal doc sets (C47 against the normalization step, docs by permutation); C174 integer weights = repetition (sum over the repeated list by induction, C49, C51) |

All listed properties can be expressed in the model; none is `not_applicable`.

## Trusted base

* Lean 4.33.0's kernel, and Mathlib's definitions of ℝ, `Real.logb`, sorting
  and lists as far as statements mention them.
* Axioms: every theorem of MANIFEST.json depends on a subset of `propext`,
  `Classical.choice`, `Quot.sound` (`tools/axioms.py` prints the count; of the
  first 365, 344 use all three, 19 `propext` and `Quot.sound`, 2 `propext`).
  No axioms are added; `decide +kernel` is kernel evaluation.
* The reading of the Python recorded in the model's comments, and the
  assumptions listed under "Modelling decisions".
