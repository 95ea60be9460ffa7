{
 "C02": {
  "status": "partial",
  "note": "Proved for every history without a failing add_multi (and always for lists obtained via make_comparable); C02_failed_add_multi_breaks_order refutes it after a failed add_multi, where the sorted flag is stale; C02_recovers and C02_failures_after_add_score: any failure followed by a successful modification, and failures on an object whose flag is already down, do no harm."
 },
 "C04": {
  "status": "proved",
  "note": "Includes the negative half: with ties the ranking is not determined by the content."
 },
 "C06": {
  "status": "proved",
  "note": "Binary metrics equal for all inputs; C06_graded_differs is the negative half."
 },
 "C18": {
  "status": "proved",
  "note": "For judgements sorted by relevance (what evaluate passes); C18_unsorted_qrels_exceed_one shows the dependence."
 },
 "C22": {
  "status": "proved",
  "note": "recall, f1, map need duplicate-free rankings; the example beside it shows why."
 },
 "C39": {
  "status": "partial",
  "note": "All single-run normalizations: full. borda: C47_borda_norm_partial (runs listing their queries in the same order); refuted otherwise by C47_borda_norm_misaligned."
 },
 "C47": {
  "status": "partial",
  "note": "Characterised for all runs (C47_borda_norm_any_order: each query of each run is scored against the pool of the query at the same position in the first run; C47_borda_norm_keeps). The claim itself (the query's own pool) is proved when all runs list the queries in the same order; C47_borda_norm_misaligned refutes it otherwise."
 },
 "C30": {
  "status": "partial",
  "note": "Well-formed strings parse exactly (C30_accepts: with any Python integer literal as cut-off), parts that are not integer literals (Spec.IntLiteral) and negative cut-offs are rejected; C30_extra_parts_ignored refutes the rejection of strings with surplus '@'/'.' parts."
 },
 "C33": {
  "status": "partial",
  "note": "Exactly characterised for all kinds of arguments (C33_returns_iff): with return_mean=False the scores are returned (C37_by_position says which scores) unless a single parameterised metric string is evaluated and nothing is saved in a Run; then KeyError (C33_key_error, C33_key_error_dict)."
 },
 "C37": {
  "status": "partial",
  "note": "Proved for all kinds of arguments that list their queries in the same order (C37_any_arguments_partial, C37_dict_inputs_partial); in general the code pairs by position (C37_by_position); C37_dicts_mispaired refutes the general claim."
 },
 "C50": {
  "status": "partial",
  "note": "Proved when all scores lie strictly inside the sentinel range (below 1e9 for comb_min, above -1e9 for comb_max); C50_sentinel_leaks refutes the general claim."
 },
 "C51": {
  "status": "partial",
  "note": "isr, log_isr, logn_isr, rrf, rbc: full (rrf: when no k + rank is 0; otherwise ZeroDivisionError, C51_rrf_zero_division). bordafuse and weighted bordafuse: exact result for all runs in any query order (C51_bordafuse_any_order, C51_weighted_bordafuse_any_order: pools are paired by position; no doc lost: C51_*_keeps); the claim with each query's own pool is proved for runs listing their queries in the same order and refuted otherwise (C48_bordafuse_misaligned)."
 },
 "C55": {
  "status": "partial",
  "note": "Proved for runs listing their queries in the same order (see C48_bordafuse_misaligned)."
 },
 "C48": {
  "status": "partial",
  "note": "Whole fuse pipeline, every normalization and method; where borda is used the runs must list their queries in the same order (refuted otherwise by C48_bordafuse_misaligned)."
 },
 "C60": {
  "status": "proved",
  "note": "Formula for every memory content beyond the table, independence of it when the tables are long enough, and C60_reads_out_of_bounds for the documented defect."
 },
 "C57": {
  "status": "partial",
  "note": "Proved when the pairwise majorities are consistent with a strict order of the candidates (every run contributing): the output is that order. C57_absent_runs_vote and C57_ties_reverse refute the general claim (a run listing neither doc votes; ties are not neutral)."
 },
 "C62": {
  "status": "partial",
  "note": "All normalizations and methods; where borda is used the runs must list their queries in the same order (C62_bordafuse_misaligned refutes the claim otherwise)."
 },
 "C52": {
  "status": "partial",
  "note": "Proved through fuse for every normalization but borda, and for bordafuse when the runs list their queries in the same order; weighted methods are symmetric under permuting runs with their weights. C52_bordafuse_misaligned refutes bordafuse on differently ordered queries."
 },
 "C54": {
  "status": "proved",
  "note": "Score part also for anz, gmnz, wmnz, mixed. Rank part: rrf (k >= 0), isr, rbc (0 <= phi <= 1), bordafuse (queries in the same order)."
 },
 "C59": {
  "status": "proved",
  "note": "Object level: the training functions on objects built by public calls, for any schedule; exact counts per position (posfuse, slidefuse), per segment (probfuse, segfuse), per band (bayesfuse log odds) and MAP (mapfuse). Assumes at least one query, the same queries in qrels and runs (not checked by the training functions: C59_queries_not_checked) and no hash collision of judged docs."
 },
 "C65": {
  "status": "proved",
  "note": "All nine plain searches end to end (score = evaluate(fuse(config))), also stated against the grid the English names (C65_best_k: the ks min..max; C65_best_float; C65_best_weights: all weightings; C65_best_segments, C65_best_window: every number of segments or window size, with the trained tables spelled out); the trained-only methods (C65_mapfuse, C65_trained_tables, C65_trainable); preconditions; success for wsum; the report highlights the first best row while the last best configuration is returned."
 },
 "C66": {
  "status": "partial",
  "note": "Exact arithmetic: exactly the weightings, for every step whose text shows its decimals and any number of runs. Binary64: proved in full for steps 2^-e; for every decimal step dividing 1 (up to 10^-5) and up to 2^30 runs the candidates are exactly the weightings whose left-to-right float sum is 1.0 (C66_decimal_partial), so nothing but weightings is tried; for the default step 0.1 every weighting is tried in some order but for ten equal weights of 0.1 (C66_default_up_to_order); the full claim is refuted for step 0.1 with three runs (C66_float_drops)."
 },
 "C67": {
  "status": "partial",
  "note": "Int grids: proved in full, negative steps and step 0 included. Float grids: proved in exact arithmetic for limits and steps with matching decimals, and for the defaults in binary64; for any decimal limits and step in binary64 the grid is the floats nearest to min, min+step, ..., max, possibly with one point more (C67_decimal_partial; C67_overshoot_refuted: 0.5 to 1.0 by 0.1 also tries 1.1); refuted in general (C67_refuted: overshoots max, rounds limits, all zero for steps printed without a dot)."
 },
 "C73": {
  "status": "partial",
  "note": "Proved for pairwise different names (C73_own_results_partial) and, for repeated names, that the last run wins (C73_last_wins). The unrestricted claim is false: C73_same_name, C73_generated_name."
 },
 "C74": {
  "status": "partial",
  "note": "Models' entries always right (C74_models); header proved if no model is called stat_test/metrics/model_names; false otherwise: C74_clobbered. The data frame is C109; JSON text is not modelled."
 },
 "C87": {
  "status": "partial",
  "note": "Proved for distinct names and metrics; false otherwise: C87_repeated_metric, C87_repeated_name; more than 26 models always fail: C87_too_many. tabulate itself is not modelled."
 },
 "C72": {
  "status": "proved",
  "note": "Rounding and number formatting are parameters."
 },
 "C86": {
  "status": "proved",
  "note": "SciPy's p-values are parameters (assumed symmetric in the samples, as the two-sided tests are)."
 },
 "C68": {
  "status": "proved",
  "note": "Random draws are arbitrary: nothing is claimed about the generator or about reproducibility from random_seed (the seed only sets one thread's generator)."
 },
 "C75": {
  "status": "proved",
  "note": "For ids and names that are non-empty and free of white space. Queries without docs are lost; C75_name_not_a_word, C75_none_name and C75_shifted_fields show what happens otherwise. Float text and UTF-8 are assumed to round-trip (FloatText, Codec)."
 },
 "C76": {
  "status": "proved",
  "note": "Queries without docs are lost (stated). UTF-8 assumed to round-trip (Codec)."
 },
 "C79": {
  "status": "partial",
  "note": "json, lz4 (runs), parquet via from_parquet, trec (C75/C76) restore the content; gz does not (C79_gz_refuted); json/lz4/parquet lose the name (stated)."
 },
 "C80": {
  "status": "proved",
  "note": "proved for every interruption sequence under Spec.Serves (server honours Range and reports the right length), as the property states; refuted without each assumption"
 },
 "C81": {
  "status": "partial",
  "note": "false in general (C81_hash_collision_refuted, end to end through evaluate); proved: hashes up to 2^53 stay distinct, 64-bit hashes more than 1024 apart stay distinct and then no doc is confused with another. Collisions of the 64-bit hash itself are outside the model (hash is a parameter)"
 },
 "C82": {
  "status": "proved",
  "note": "overflow, underflow and NaN are not modelled; f1 within 7 parts in 2^53, interpolated precision correctly rounded, bpref within (2R+3) parts in 2^53; dcg, ndcg and rank-biased precision in floating point are C143"
 },
 "C63": {
  "status": "proved",
  "note": "Memory model with references: a call of fuse, returning or raising, writes no object that existed before; every run reads the same after; the result reads as the pure fuse of the values and is made of new objects only; later writes to it reach no older run."
 },
 "C88": {
  "status": "proved",
  "note": "Programs over several runs in the memory model have the outcomes of the same programs over values, and the objects of distinct runs stay disjoint (induction over the program)."
 },
 "C89": {
  "status": "proved",
  "note": "For the methods on positions the normalization must keep the order (not min-max-inverted); for the two bordafuse methods the runs list their queries in the same order (see C51); bayesfuse within its tables (see C60); condorcet up to the order the majorities leave open (C56)."
 },
 "C91": {
  "status": "partial",
  "note": "Proved for all counts R (up to 2^40) and levels i unless i*R ends in 1 (C91_levels_partial); the computed value is never below the right one; refuted for three relevant docs at recall 0.7 (C91_refuted)."
 },
 "C92": {
  "status": "proved",
  "note": "Runs whose query set differs from the qrels' are paired by position without a check (C92_queries_not_checked)."
 },
 "C90": {
  "status": "proved",
  "note": "NumPy rounds after one rounded multiplication, so within 2^-53 relative of a tie the printed number may be the second nearest (C90_near_tie). Bound: score * 10^digits <= 2^51."
 },
 "C93": {
  "status": "partial",
  "note": "Levels are dropped from labels, so ndcg and ndcg-l2 collide, and dcg has no label (C93_refuted); proved for level-free labelled metrics. YAML/cbor/gzip encodings not modelled."
 },
 "C94": {
  "status": "partial",
  "note": "bpref, dcg, rbp and -l metrics raise KeyError when printed (C94_unprintable); proved for the ten labelled names with any cutoff. rich console not modelled."
 },
 "C95": {
  "status": "partial",
  "note": "Sum normalization can leave [0,1] (C95_sum_out_of_range); proved when the worst score is 0. Overflow, subnormals, NaN not modelled."
 },
 "C96": {
  "status": "proved",
  "note": "float64 rounding after every operation; pow/sqrt/log are arbitrary non-negative functions. C96_three_runs shows that order of three runs matters. Overflow, subnormals, NaN not modelled."
 },
 "C97": {
  "status": "partial",
  "note": "Proved for any interleaving and any kills when no call begins while another call for the same id is busy (in particular for pairwise different ids, and for any number of calls once the run is cached). False for two calls with the same id, and refuted by three theorems (for every content of at least two bytes): they share the temporary file, so a call that resumes while another one writes leaves a wrong cached file for good (C97_resume_refuted), two that begin together load a file with a gap (C97_truncate_refuted), and one of them may raise FileNotFoundError (C97_rename_refuted)."
 },
 "C98": {
  "status": "proved",
  "note": "For metrics that have a label and no relevance level (see C93 for the others). YAML/cbor2/lz4 are assumed to read back what they wrote (Archive.load_dump)."
 },
 "C99": {
  "status": "partial",
  "note": "Proved for the methods on scores (all norms except rank and borda) and for sorted tie-free runs (all methods; C99_sorted_runs with no further condition, C99_ranked_runs_partial without sorting the queries). C99_unsorted and C99_unsorted_rank_norm show that the code violates the claim for rrf (norm=None) and for rank normalization on runs filled with add_score: fuse does not sort its arguments."
 },
 "C100": {
  "status": "partial",
  "note": "The code violates the history part: C100_search_changes_fusion shows that optimize_fusion(norm=None, method='posfuse') sorts the caller's runs in place, so that a later fuse(norm=None, method='rrf') on unsorted runs returns other scores. C100_history_partial gives the exact conditions under which a call after a history returns what it would have returned first; C100_repeat (same arguments) and C100_arguments (data unchanged) hold without them. One environment (schedules, sorting) serves all calls."
 },
 "C101": {
  "status": "partial",
  "note": "Success and non-None parameters proved for all eleven searches (C101_succeeds_partial, C101_trained_searches), every normalization including borda and any order of the queries, every metric but bpref (which raises, C20) (C101_metrics, C101_rbp), the default arguments in binary64 (C101_defaults), and the four trained methods together with the following fuse (C101_training). The property is false of the code for logn_isr only: one candidate outside [0,1] aborts the whole search (C101_logn_isr_rejects), which step=0.3 with default bounds does on every input (C101_refuted), and bounds 0.5 to 1.0 with step 0.1 too, whose float grid contains 1.1 (C101_overshoot_refuted). Positive steps only, min_k >= 0 for rrf (a negative k may divide by zero: C51_rrf_zero_division). For norm=borda training assumes that hashes do not collide across queries (pools may be mispaired)."
 },
 "C102": {
  "status": "proved",
  "note": "C102_keeps_docs and the two no_loss theorems hold unconditionally (including the borda family on misaligned query orders); C102_fused_hits carries the precondition stated in the property."
 },
 "C103": {
  "status": "proved",
  "note": "Exact for all inputs; corrects C50 (which is false beyond the sentinels)."
 },
 "C104": {
  "status": "proved",
  "note": "C104_make_comparable (success, zeros, mean) for default return options with save_results_in_run; C104_extra_queries (result depends only on the ranking of the judged queries) for every option."
 },
 "C105": {
  "status": "proved",
  "note": "real arithmetic; C105_rank_unsorted shows why the rank norm needs a sorted run."
 },
 "C106": {
  "status": "proved",
  "note": "Spec.JudgedApart: no two judged docs of a query with the same hash (see C03). Formats: those whose round trip is exact (C24, C25, C79)."
 },
 "C107": {
  "status": "proved",
  "note": "Session model (Model/Session): objects named by index, so shared and repeated; exec runs any list of calls, each with its own sorting algorithm and schedules. C107_evaluate, C107_comparable (make_comparable against the same qrels allowed), C107_compare, C107_copies (repeated objects), C107_untouched and C107_fuse. optimize_fusion treats a run given twice as two copies; runs made by fuse and normalize share nothing with their arguments (C88)."
 },
 "C108": {
  "status": "proved",
  "note": "C108_table reads the whole text back with an independent reader (Spec.texTable); contents of rows tied to C71/C72 via Report.latex. C108_scores: format_score prints only harmless characters. C108_names: escaping is injective. C108_special: & , backslash and $^{}$ in names do break the table."
 },
 "C109": {
  "status": "partial",
  "note": "Proved unless a run is called model_names (C109_frame_partial); for such a run the export always fails (C109_refuted). pandas' from_dict/reset_index are modelled by their documented effect."
 },
 "C110": {
  "status": "proved",
  "note": "Runs built by the constructor, sort() or a successful add_multi: C110_union, C110_query_local, C110_symmetric, C110_bordafuse and C110_borda_norm need no hypothesis on the order of the queries."
 },
 "C111": {
  "status": "partial",
  "note": "Methods without sets: identical results and errors (C111_identical). bordafuse, w_bordafuse: same content (C111_bordafuse). borda normalization with score methods: same content (C111_borda_norm_scores). condorcet: same when majorities are consistent (C111_condorcet_partial). False otherwise: C111_condorcet_refuted (ties), C111_refuted and C111_borda_rrf_reads_set_order (norm='borda' then rrf scores docs by their place in the set's iteration order)."
 },
 "C112": {
  "status": "proved",
  "note": "C112_run_same / C112_qrels_same for texts without unusual line ends, C112_run_roundtrip / C112_qrels_roundtrip for saved files; C112_form_feed shows the readers differ on a form feed, as the statement says."
 },
 "C113": {
  "status": "partial",
  "note": "Proved for ids not ending in NUL: judgements are read back as their whole part (integers in int64 exactly; out of range raises), float scores exactly, integer scores exactly up to 2^53; add_score pair by pair gives the same values as the constructor; a failing conversion in add_multi changes nothing. The full claim is false of the code: C113_fraction_lost (a judgement 0.5 becomes 0 silently), C113_big_score, C113_nul_merges. NaN, infinities, bool and NumPy scalars are out of the model."
 },
 "C114": {
  "status": "proved",
  "note": "All loops of the shape out[i] = f(i) (C114_slots, with termination and completeness; C114_hits is the metric kernel turn by turn) and the nested dictionary loop of set_relevance_level (C114_set_relevance_level). Array and dictionary assignments under existing keys are atomic; numba's typed containers themselves are not modelled."
 },
 "C115": {
  "status": "partial",
  "note": "Proved when the calling thread runs all permutations (C115_one_thread_partial). False with two threads (C115_refuted): numba's np.random.seed seeds the generator of the calling thread only, so for any seed and any non-degenerate generator the p-value changes with the state of the other thread. Trusts numba's documented per-thread generators."
 },
 "C116": {
  "status": "proved",
  "note": "End to end (metric string to saved score). Distinct scores are assumed for the query, since with ties the order is the argsort's choice."
 },
 "C117": {
  "status": "partial",
  "note": "The pd_kwargs part is false: the code writes read_parquet(path, *pd_kwargs) (one star), so any non-empty pd_kwargs naming parameters of read_parquet raises (C117_pd_kwargs_refuted); without it from_parquet is from_df of the file's frame (C117_from_parquet_partial). The rest is proved."
 },
 "C118": {
  "status": "proved",
  "note": "Model/Special.lean: floats as numbers, inf, -inf, nan with IEEE comparison; C118_ranked for every history of calls, C118_evaluated for every metric (no ties, since the order of equal scores is free)."
 },
 "C119": {
  "status": "partial",
  "note": "False as stated: C119_refuted, and generally one -inf (min-max, sum), one inf (inverted min-max) or one non-number (zmuv) turns the whole query into nan (C119_minmax_minus_inf, C119_sum_minus_inf, C119_inverted_plus_inf, C119_zmuv); one inf makes the best doc nan and ties all others at 0 (C119_minmax_plus_inf, C119_max_plus_inf). Proved: max keeps the order if there is no inf and no nan (C119_max_partial), rank never reads scores (C119_rank), all-number queries agree with the model of ordinary scores (C119_numbers, C119_numbers_zmuv)."
 },
 "C120": {
  "status": "partial",
  "note": "False in two places: comb_max and comb_min depend on the order of the runs if the first run gives nan (C120_order_refuted; exact behaviour in C120_comb_max, C120_comb_min), and a run with weight 0 and an infinite score makes the doc nan (C120_wsum_zero, C120_weight_refuted). The rest is proved: C120_comb_sum, C120_comb_mnz, C120_comb_anz, C120_symmetric, C120_wsum_partial (positive weights). comb_med is not modelled with nan."
 },
 "C121": {
  "status": "proved",
  "note": "Heap-level refinement: programs over runs and dictionaries behave as programs over values (C121_programs), with the two one-sided corollaries, to_dict content and get_query_ids. Reading a missing key of to_dict()'s defaultdict inserts it (shown as an example; it only affects the user's own dictionary)."
 },
 "C122": {
  "status": "partial",
  "note": "Violated: get_doc_ids_and_scores() returns the run's own dictionaries; a write through them changes the run and leaves sorted=True (C122_live, C122_refuted). Proved: an explicit sort() afterwards restores the order (C122_sort_partial). keys()/values of typed dictionaries otherwise not modelled."
 },
 "C123": {
  "status": "partial",
  "note": "Each list is characterised exactly (C123_hits, C123_unjudged, C123_non_rel, C123_negative). They add up to 1 for rel_lvl=1 and grades 0 or >= 1 (C123_lists_partial); violated otherwise, because get_non_rel_lists only marks grade exactly 0 (C123_refuted)."
 },
 "C124": {
  "status": "partial",
  "note": "Text level: the reader accepts exactly the RFC 8259 grammar (C124_reader), the writer's text denotes the value written (C124_writer, C124_strict), runs and qrels come back for all ids (C124_run, C124_qrels). False for infinite scores: orjson writes null for inf, -inf and nan, so an infinite score comes back as nan (C124_run gives the exact effect, C124_inf_refuted); C124_run_partial: without infinities the scores come back. Numbers are written and read by a NumText (C126 gives the concrete one)."
 },
 "C125": {
  "status": "partial",
  "note": "C125_saved, C125_header_partial, C125_printed: what json.loads finds in the file. False as a JSON document: a NaN p-value (Student's test on equal scores) is written as NaN, which is not JSON (C125_nan_refuted); C125_json_partial: without NaN it is JSON. Header keys can be replaced by models of the same name (as C74)."
 },
 "C126": {
  "status": "proved",
  "note": "Python's and orjson's number formatting is modelled after their documentation; inf, nan and signed zeros are outside (C118-C120, C124)."
 },
 "C127": {
  "status": "proved",
  "note": "all score-based rules with order-preserving norms, inverted norms, rank norm, position-based rules and borda; any schedule and set iteration"
 },
 "C128": {
  "status": "proved",
  "note": "runs with the same tie-free ranking per query; evaluate of the fused run equals evaluate of the runs; special case of copies"
 },
 "C129": {
  "status": "proved",
  "note": "any two collision-free hash functions, into any ordered types; objects and dictionaries; results, state and exceptions"
 },
 "C130": {
  "status": "proved",
  "note": "objects and dictionaries; result, exceptions, saved scores and final state"
 },
 "C131": {
  "status": "proved",
  "note": "exact arithmetic for the mean and standard deviation (float summation is order dependent: see C82); ties in a run are excluded because the unstable sort may break them differently"
 },
 "C132": {
  "status": "proved",
  "note": "UTF-8 modelled byte by byte (Model/Bytes); the specification is RFC 3629's table."
 },
 "C133": {
  "status": "proved",
  "note": "CBOR modelled byte by byte for the part cbor2 writes for ranx (Model/Bytes): no indefinite lengths, text keys only, tags only for big integers; encodings below 2^64 bytes."
 },
 "C134": {
  "status": "proved",
  "note": "The LZ4 frame format itself is a parameter (decompress undoes compress), applied twice as io.py does. JSON for infinite scores fails, see C124."
 },
 "C135": {
  "status": "proved",
  "note": "Model/FloatTextX gives float()/f-string text of every float64; C135_reading characterises the accepted texts, C135_roundtrip the round trip, C135_trec the file from its bytes. Simplified: decimal digits of other scripts are rejected, no negative zero."
 },
 "C136": {
  "status": "proved",
  "note": "C136_rescaled (affine rescalings per run and query), C136_rank_norms and C136_rank_methods (scores irrelevant); equality of the whole outcome, errors included. C136_tiny_spread shows why the 1e-9 condition is needed. Exact arithmetic."
 },
 "C137": {
  "status": "proved",
  "note": "C137_query, C137_run, C137_fuse, C137_inverted; C137_tiny_spread gives the exceptions (tiny spreads, borda)."
 },
 "C138": {
  "status": "proved",
  "note": "float64 model of bordafuse (Model/FusionFl); whole-outcome equality with the exact model under the size bound, hence the Borda totals (C51) and their conservation (C55) hold for floats when the runs list their queries in the same order"
 },
 "C139": {
  "status": "partial",
  "note": "proved: range, identical systems, symmetry, observed assignment counted, count between the exact counts with margin (8N+10)/2^53, exact p-value when there are no near ties; refuted: a P@5 example in which every sample ties exactly and none is counted (p = 0 instead of 1, reported as significant)"
 },
 "C140": {
  "status": "proved",
  "note": "whole outcome of evaluate for a single metric string; C140_exceptions shows why precision, f1 and (with more judgements than k) ndcg are excluded"
 },
 "C141": {
  "status": "proved",
  "note": "Fisher's p-values depend on random draws and Tukey's on all models by design; for those only scores and wins/ties/losses are claimed"
 },
 "C142": {
  "status": "proved",
  "note": "NaN p-values are never significant; superscripts compared as subsequences"
 },
 "C143": {
  "status": "proved",
  "note": "overflow, underflow and NaN not modelled; burges gain for whole-number judgements; exact 1 and exact 0 for left-to-right sums; C143_ndcg_exceeds_one and C143_rbp_exceeds_one show that 1 is not an upper bound"
 },
 "C144": {
  "status": "proved",
  "note": "the negation of -2^63 (overflow) is not modelled; justifies the exact integer sort used by the other properties up to 2^53"
 },
 "C145": {
  "status": "proved",
  "note": "C145_fuse: general, for machines listing sets in a name-independent order; C145_fuse_any_order: no assumption on sets for methods without sets. Ids range over any types with decidable equality."
 },
 "C146": {
  "status": "proved",
  "note": "Model/EvaluateAny.lean models evaluate for all four kinds of arguments; C146_objects shows it refines to the model used elsewhere."
 },
 "C147": {
  "status": "proved",
  "note": "C147_content / C147_run / C147_qrels: every route ends in an object that holds exactly the table (Spec.Holds). C147_evaluate, C147_fuse: consequences. C147_dataframe_to_dict, C147_from_ir_datasets: the two helpers not modelled before."
 },
 "C148": {
  "status": "partial",
  "note": "JSON: proved for every crash point (C148_run_json, C148_qrels_json, C148_json_text). TREC runs: what is loaded from a part of the file are always the first rows of to_dataframe() with their scores (C148_trec_partial), but the part is accepted silently and the name may be cut (C148_trec_refuted). TREC qrels: first rows, only the last judgment may be cut (C148_qrels_trec_partial), exact for one-digit judgments (C148_qrels_digits_partial); a two-digit judgment is silently changed (C148_qrels_trec_refuted). save truncates the old file first, so it is not atomic (C148_atomic_refuted). LZ4: proved for frame formats that reject cut frames (C148_run_lz4). Parquet is a library format and not covered."
 },
 "C149": {
  "status": "partial",
  "note": "C149_json, C149_trec (round trips from bytes), C149_any_bytes (exactly which byte strings are accepted and what they mean), C149_files (the byte formats instantiate the abstract Codec of C75-C79). Violated for .gz paths: save writes plain text there, so loading raises OSError (C149_gz_refuted). Parquet is a parameter."
 },
 "C150": {
  "status": "proved",
  "note": "exact arithmetic for the mean; ties in a run excluded (their order may depend on the argsort)"
 },
 "C151": {
  "status": "proved",
  "note": "the normalization's guard of 1e-9 must not be reached (Spec.ScaleFree), as in C136"
 },
 "C152": {
  "status": "proved",
  "note": "Simulation of the whole search under a renaming (training, candidate loop, evaluation); the hash part by passing to the set of docs at hand, on which the hash is injective. C152_process also changes the order in which sets are listed."
 },
 "C153": {
  "status": "proved",
  "note": "Exact arithmetic; C153_exceptions shows each condition is needed. Kernel identities lifted to evaluate through the arrays the objects are converted to."
 },
 "C154": {
  "status": "proved",
  "note": "Exact arithmetic. C154_exceptions: precision, f1 and ndcg are not monotone in k; map and mrr, precision and recall are not ordered."
 },
 "C155": {
  "status": "proved",
  "note": "Random draws of Fisher's test are the same on both sides (parameter E). C155_clash shows that clashes do matter."
 },
 "C156": {
  "status": "proved",
  "note": "Floats of the search grid as binary64, scores exact reals. More than two runs: equal weights such as 1/3 are not on the 0.1 grid."
 },
 "C157": {
  "status": "proved",
  "note": "Exact real scores (floating-point sums are not associative). C157_refuted: mnz and anz on three one-query runs."
 },
 "C158": {
  "status": "proved",
  "note": "From the query-by-query form of fuse (C62) for two key types; the evaluation from the rows it scores (evaluate_queries_renamed, also behind C131), fused runs with ties included. The misaligned borda case is refuted in C48."
 },
 "C159": {
  "status": "partial",
  "note": "The code violates the claim for bands of average precision 1: C159_refuted (9 training queries whose first five results are all relevant make the table NaN at the first five positions; 10 make it log(2^53-1) instead of log(1000)), C159_sums (for which numbers of queries). Proved (C159_bayesfuse_partial): training succeeds; every entry is the log of fl(p/fl(1-p)) with p within 2(n+2)/2^53 relative error of the exact band precision P when 0<P<1, the log of 0.001/0.999 when P=0, the log of 1/0.001 when P=1 and the number of queries is a power of two, and in general when P=1 it is determined by the float sum of n rounded n-ths (NaN iff above 1). C159_nan_last: bayesfuse on tables with NaN gives NaN to every doc at such a position of any run and ranks it after all docs with numbers."
 },
 "C160": {
  "status": "proved",
  "note": "Float model in Model/TrainFl (rounding after every operation). Counts are exact (integers up to 2^53), so position probabilities are one rounding of the exact ratio; averages by the NearK calculus; upper bound 1 by monotonicity of float sums."
 },
 "C161": {
  "status": "proved",
  "note": "Float model: rounding after every operation, no subnormals or overflow. rbc for any powers known up to m roundings; C161_powers gives two implementations that qualify. segfuse needs scores of at least -1 (it multiplies by score + 1). The segment size ceil(n / segments) is computed by float division in the code and in the model; it is proved to be the exact ceiling below 2^53."
 },
 "C162": {
  "status": "proved",
  "note": "C162_compare, C162_student, C162_plot: two successful calls on renamed data. Hypotheses: no tied scores within a query of a run (with ties the order of the docs depends on the sort), the hash separates judged docs; for Student's test the p-value (a parameter, computed by SciPy) is symmetric and a function of the pairs of scores, not of their order. The Fisher and Tukey tests are not covered: Fisher's permutation test draws random numbers query by query, so its p-value does depend on the order. plot: runs over the queries of the qrels."
 },
 "C163": {
  "status": "proved",
  "note": "Search: the tried configurations are the same and each has the same score (C158, which no longer needs tie-free fused runs), and the last of the best is unique. Training: the tables of C65 are sums over the queries. Reports are compared when the labels of the configurations differ. In the trained methods tied scores within a run may be ordered differently by the sorting algorithm, hence the hypothesis. For borda normalization and w_bordafuse the runs must list their queries in the same order (see C48)."
 },
 "C164": {
  "status": "proved",
  "note": "Proved for whole runs (real scores) for all the methods that only look at retrieved docs. bordafuse, w_bordafuse, condorcet, w_condorcet and bayesfuse and the borda normalization are left out: there a run that did not retrieve a doc still contributes to its score. max and min need scores within 10^9 because the code starts from the sentinels -1e9 and 1e9 (comb_max.py, comb_min.py; see C49/C55)."
 },
 "C165": {
  "status": "proved",
  "note": "Proved for whole calls of fuse over exact reals. Not claimed for bordafuse, w_bordafuse and condorcet (the pool of docs enters the points and votes), probfuse and segfuse and slidefuse (the length of the list or the neighbours enter), bayesfuse, nor with a normalization (which uses the other scores)."
 },
 "C166": {
  "status": "proved",
  "note": "Proved for whole calls of fuse over exact reals (in float64, adding the zero products is exact too, but that is not stated). C166_wmnz_counts_zero_weights shows that wmnz does count the scores of runs with weight 0, so the claim is for wsum only."
 },
 "C167": {
  "status": "proved",
  "note": "C167_tuned_beats_each_run; Opt.unit_weights_tried shows for every number of runs that the binary64 grid contains the unit vectors. The example gives two runs ranking two docs in opposite orders."
 },
 "C168": {
  "status": "proved",
  "note": "C168_wmnz_weights (scores), C168_same_score (evaluation), C168_tuning_is_idle (the search); C168_other_docs shows the condition on the docs is needed."
 },
 "C169": {
  "status": "proved",
  "note": "C169_same_candidates (scores), C169_same_score (evaluation), C169_tuning_gmnz_is_idle (the search); C169_other_docs shows the condition on the docs is needed."
 },
 "C170": {
  "status": "proved",
  "note": "C170_same_candidates (scores), C170_same_score (evaluation), C170_tuning_logn_isr_is_idle (the search)."
 },
 "C171": {
  "status": "proved",
  "note": "C171_more_candidates (any two spaces), C171_rrf, C171_weights (decimal steps, uses C66_decimal_partial)."
 },
 "C172": {
  "status": "proved",
  "note": "Whole fuse pipeline. The condition on the query order is needed: C48_bordafuse_misaligned."
 },
 "C173": {
  "status": "proved",
  "note": "Whole fuse pipeline; set iteration order arbitrary. The condition on the query order is needed: C47_borda_norm_misaligned."
 },
 "C174": {
  "status": "proved",
  "note": "Whole fuse pipeline, exact real arithmetic. A weight 0 keeps the docs of the run with score 0 (C166), so the weights must be at least 1. For w_bordafuse the condition on the query order is that of C51."
 }
}