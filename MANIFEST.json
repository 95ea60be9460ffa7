{
 "claims": [
  {
   "property": "C01",
   "status": "proved",
   "theorems": [
    "Ranx.C01_history_refines_map",
    "Ranx.C01_empty_lists",
    "Ranx.C01_from_empty",
    "Ranx.C01_add_score"
   ],
   "note": "Run/Qrels behave like a two-level map"
  },
  {
   "property": "C02",
   "status": "partial",
   "theorems": [
    "Ranx.C02_metrics_see_ranked_lists",
    "Ranx.C02_typed_list_ranked_partial",
    "Ranx.C02_recovers",
    "Ranx.C02_failures_after_add_score",
    "Ranx.C02_failed_add_multi_breaks_order"
   ],
   "note": "Proved for every history without a failing add_multi (and always for lists obtained via make_comparable); C02_failed_add_multi_breaks_order refutes it after a failed add_multi, where the sorted flag is stale; C02_recovers and C02_failures_after_add_score: any failure followed by a successful modification, and failures on an object whose flag is already down, do no harm."
  },
  {
   "property": "C03",
   "status": "proved",
   "theorems": [
    "Ranx.C03_sort_preserves",
    "Ranx.C03_sort_ranks",
    "Ranx.C03_sort_idempotent"
   ],
   "note": "Sorting is content preserving and idempotent"
  },
  {
   "property": "C04",
   "status": "proved",
   "theorems": [
    "Ranx.C04_insertion_order_irrelevant",
    "Ranx.C04_ties_undetermined"
   ],
   "note": "Includes the negative half: with ties the ranking is not determined by the content."
  },
  {
   "property": "C05",
   "status": "proved",
   "theorems": [
    "Ranx.C05_make_comparable",
    "Ranx.C05_make_comparable_idem",
    "Ranx.C05_make_comparable_idem_tieFree"
   ],
   "note": "make_comparable aligns the run with the qrels"
  },
  {
   "property": "C06",
   "status": "proved",
   "theorems": [
    "Ranx.C06_set_relevance_level",
    "Ranx.C06_graded_differs",
    "Ranx.C06_store"
   ],
   "note": "Binary metrics equal for all inputs; C06_graded_differs is the negative half."
  },
  {
   "property": "C07",
   "status": "proved",
   "theorems": [
    "Ranx.C07_construct"
   ],
   "note": "Construction succeeds exactly on non-empty content and stores it"
  },
  {
   "property": "C08",
   "status": "proved",
   "theorems": [
    "Ranx.C08_from_df",
    "Ranx.C08_roundtrip"
   ],
   "note": "Data frame round-trip"
  },
  {
   "property": "C09",
   "status": "proved",
   "theorems": [
    "Ranx.C09_hits"
   ],
   "note": "hits counts the relevant docs in the top k"
  },
  {
   "property": "C10",
   "status": "proved",
   "theorems": [
    "Ranx.C10_hit_rate"
   ],
   "note": "hit_rate is 1 iff the top k contains a relevant doc"
  },
  {
   "property": "C11",
   "status": "proved",
   "theorems": [
    "Ranx.C11_precision"
   ],
   "note": "precision@k = relevant in top k / k"
  },
  {
   "property": "C12",
   "status": "proved",
   "theorems": [
    "Ranx.C12_recall"
   ],
   "note": "recall@k = relevant in top k / number of relevant"
  },
  {
   "property": "C13",
   "status": "proved",
   "theorems": [
    "Ranx.C13_f1"
   ],
   "note": "f1 is the harmonic mean of precision and recall"
  },
  {
   "property": "C14",
   "status": "proved",
   "theorems": [
    "Ranx.C14_r_precision"
   ],
   "note": "r-precision is precision at R"
  },
  {
   "property": "C15",
   "status": "proved",
   "theorems": [
    "Ranx.C15_reciprocal_rank"
   ],
   "note": "mrr is the inverse rank of the first relevant doc"
  },
  {
   "property": "C16",
   "status": "proved",
   "theorems": [
    "Ranx.C16_average_precision",
    "Ranx.C16_summand_is_precision"
   ],
   "note": "average precision matches its definition"
  },
  {
   "property": "C17",
   "status": "proved",
   "theorems": [
    "Ranx.C17_dcg"
   ],
   "note": "DCG matches its definition"
  },
  {
   "property": "C18",
   "status": "proved",
   "theorems": [
    "Ranx.C18_idcg_is_max",
    "Ranx.C18_ndcg_range",
    "Ranx.C18_ndcg_quotient",
    "Ranx.C18_ideal_run",
    "Ranx.C18_unsorted_qrels_exceed_one"
   ],
   "note": "For judgements sorted by relevance (what evaluate passes); C18_unsorted_qrels_exceed_one shows the dependence."
  },
  {
   "property": "C19",
   "status": "proved",
   "theorems": [
    "Ranx.C19_rbp",
    "Ranx.C19_rbp_range",
    "Ranx.C19_graded_exceeds_one"
   ],
   "note": "rank-biased precision matches its definition"
  },
  {
   "property": "C20",
   "status": "proved",
   "theorems": [
    "Ranx.C20_bpref",
    "Ranx.C20_bpref_undefined",
    "Ranx.C20_bpref_range",
    "Ranx.C20_ignores_unjudged"
   ],
   "note": "bpref matches its definition where defined"
  },
  {
   "property": "C21",
   "status": "proved",
   "theorems": [
    "Ranx.C21_interpolated",
    "Ranx.C21_interpolated_exact",
    "Ranx.C21_shape"
   ],
   "note": "interpolated precision at recall"
  },
  {
   "property": "C22",
   "status": "proved",
   "theorems": [
    "Ranx.C22_ranges_any_run",
    "Ranx.C22_ranges"
   ],
   "note": "recall, f1, map need duplicate-free rankings; the example beside it shows why."
  },
  {
   "property": "C23",
   "status": "proved",
   "theorems": [
    "Ranx.C23_dcg",
    "Ranx.C23_top_k_local",
    "Ranx.C23_top_k_local_dcg"
   ],
   "note": "@k metrics only look at the top k"
  },
  {
   "property": "C24",
   "status": "proved",
   "theorems": [
    "Ranx.C24_dcg",
    "Ranx.C24_monotone_in_k",
    "Ranx.C24_monotone_in_k_dcg"
   ],
   "note": "monotone in k"
  },
  {
   "property": "C25",
   "status": "proved",
   "theorems": [
    "Ranx.C25_relabel"
   ],
   "note": "doc identity only matters through equality"
  },
  {
   "property": "C26",
   "status": "proved",
   "theorems": [
    "Ranx.C26_dcg",
    "Ranx.C26_swap",
    "Ranx.C26_swap_dcg",
    "Ranx.C26_swap_rbp"
   ],
   "note": "moving a relevant doc up never hurts"
  },
  {
   "property": "C27",
   "status": "proved",
   "theorems": [
    "Ranx.C27_dcg",
    "Ranx.C27_zero",
    "Ranx.C27_zero_graded",
    "Ranx.C27_empty_run"
   ],
   "note": "nothing relevant retrieved scores 0"
  },
  {
   "property": "C28",
   "status": "proved",
   "theorems": [
    "Ranx.C28_indicator_lists",
    "Ranx.C28_partition"
   ],
   "note": "hit / unjudged / non-relevant lists are indicators and partition the ranking"
  },
  {
   "property": "C29",
   "status": "proved",
   "theorems": [
    "Ranx.C29_dcg",
    "Ranx.C29_antitone_level",
    "Ranx.C29_antitone_level_graded"
   ],
   "note": "stricter relevance level never raises hits"
  },
  {
   "property": "C30",
   "status": "partial",
   "theorems": [
    "Ranx.C30_negative_cutoff",
    "Ranx.C30_parse",
    "Ranx.C30_rbp",
    "Ranx.C30_rejects",
    "Ranx.C30_accepts",
    "Ranx.C30_switch",
    "Ranx.C30_extra_parts_ignored"
   ],
   "note": "Well-formed strings parse exactly (C30_accepts: with any Python integer literal as cut-off), parts that are not integer literals (Spec.IntLiteral) and negative cut-offs are rejected; C30_extra_parts_ignored refutes the rejection of strings with surplus '@'/'.' parts."
  },
  {
   "property": "C31",
   "status": "proved",
   "theorems": [
    "Ranx.C31_pairs_queries",
    "Ranx.C31_succeeds",
    "Ranx.C31_mismatch"
   ],
   "note": "evaluate pairs every query with its own judgements"
  },
  {
   "property": "C32",
   "status": "proved",
   "theorems": [
    "Ranx.C32_mean",
    "Ranx.C32_nan",
    "Ranx.C32_std",
    "Ranx.C32_means"
   ],
   "note": "means and saved results are consistent"
  },
  {
   "property": "C33",
   "status": "partial",
   "theorems": [
    "Ranx.C33_per_query_scores_partial",
    "Ranx.C33_key_error",
    "Ranx.C33_returns_iff",
    "Ranx.C33_key_error_dict"
   ],
   "note": "Exactly characterised for all kinds of arguments (C33_returns_iff): with return_mean=False the scores are returned (C37_by_position says which scores) unless a single parameterised metric string is evaluated and nothing is saved in a Run; then KeyError (C33_key_error, C33_key_error_dict)."
  },
  {
   "property": "C34",
   "status": "proved",
   "theorems": [
    "Ranx.C34_only_ranking_matters"
   ],
   "note": "only the ranking matters"
  },
  {
   "property": "C35",
   "status": "proved",
   "theorems": [
    "Ranx.C35_schedule_independent",
    "Ranx.C35_parallel_is_sequential"
   ],
   "note": "parallel evaluation equals sequential evaluation"
  },
  {
   "property": "C36",
   "status": "proved",
   "theorems": [
    "Ranx.C36_keeps_other_results",
    "Ranx.C36_repeat"
   ],
   "note": "repeated evaluation"
  },
  {
   "property": "C37",
   "status": "partial",
   "theorems": [
    "Ranx.C37_dict_inputs_partial",
    "Ranx.C37_dicts_mispaired",
    "Ranx.C37_by_position",
    "Ranx.C37_any_arguments_partial"
   ],
   "note": "Proved for all kinds of arguments that list their queries in the same order (C37_any_arguments_partial, C37_dict_inputs_partial); in general the code pairs by position (C37_by_position); C37_dicts_mispaired refutes the general claim."
  },
  {
   "property": "C38",
   "status": "proved",
   "theorems": [
    "Ranx.C38_frame"
   ],
   "note": "evaluate does not modify judgements"
  },
  {
   "property": "C39",
   "status": "partial",
   "theorems": [
    "Ranx.C39_per_query",
    "Ranx.C39_keeps_docs"
   ],
   "note": "All single-run normalizations: full. borda: C47_borda_norm_partial (runs listing their queries in the same order); refuted otherwise by C47_borda_norm_misaligned."
  },
  {
   "property": "C40",
   "status": "proved",
   "theorems": [
    "Ranx.C40_order",
    "Ranx.C40_inverted_sorted",
    "Ranx.C40_order_zmuv"
   ],
   "note": "normalization preserves the ranking"
  },
  {
   "property": "C41",
   "status": "proved",
   "theorems": [
    "Ranx.C41_min_max"
   ],
   "note": "min-max range"
  },
  {
   "property": "C42",
   "status": "proved",
   "theorems": [
    "Ranx.C42_max_norm"
   ],
   "note": "max-norm range"
  },
  {
   "property": "C43",
   "status": "proved",
   "theorems": [
    "Ranx.C43_sum_norm"
   ],
   "note": "sum-norm"
  },
  {
   "property": "C44",
   "status": "proved",
   "theorems": [
    "Ranx.C44_zmuv"
   ],
   "note": "zmuv"
  },
  {
   "property": "C45",
   "status": "proved",
   "theorems": [
    "Ranx.C45_rank_norm",
    "Ranx.C45_only_order"
   ],
   "note": "rank norm"
  },
  {
   "property": "C46",
   "status": "proved",
   "theorems": [
    "Ranx.C46_affine",
    "Ranx.C46_affine_zmuv"
   ],
   "note": "affine invariance"
  },
  {
   "property": "C47",
   "status": "partial",
   "theorems": [
    "Ranx.C47_borda_norm_partial",
    "Ranx.C47_borda_norm_misaligned",
    "Ranx.C47_borda_norm_any_order",
    "Ranx.C47_borda_norm_keeps"
   ],
   "note": "Characterised for all runs (C47_borda_norm_any_order: each query of each run is scored against the pool of the query at the same position in the first run; C47_borda_norm_keeps). The claim itself (the query's own pool) is proved when all runs list the queries in the same order; C47_borda_norm_misaligned refutes it otherwise."
  },
  {
   "property": "C48",
   "status": "partial",
   "theorems": [
    "Ranx.C48_fuse_union_partial",
    "Ranx.C48_bordafuse_misaligned"
   ],
   "note": "Whole fuse pipeline, every normalization and method; where borda is used the runs must list their queries in the same order (refuted otherwise by C48_bordafuse_misaligned)."
  },
  {
   "property": "C49",
   "status": "proved",
   "theorems": [
    "Ranx.C49_comb_sum",
    "Ranx.C49_comb_anz",
    "Ranx.C49_comb_mnz",
    "Ranx.C49_wsum",
    "Ranx.C49_wmnz",
    "Ranx.C49_comb_med",
    "Ranx.C49_comb_gmnz",
    "Ranx.C49_mixed",
    "Ranx.C49_wsum_too_few_weights",
    "Ranx.C49_wmnz_too_few_weights",
    "Ranx.C49_mixed_too_few_weights"
   ],
   "note": "score based fusion formulas"
  },
  {
   "property": "C50",
   "status": "partial",
   "theorems": [
    "Ranx.C50_comb_min_partial",
    "Ranx.C50_comb_max_partial",
    "Ranx.C50_sentinel_leaks"
   ],
   "note": "Proved when all scores lie strictly inside the sentinel range (below 1e9 for comb_min, above -1e9 for comb_max); C50_sentinel_leaks refutes the general claim."
  },
  {
   "property": "C51",
   "status": "partial",
   "theorems": [
    "Ranx.C51_bordafuse_any_order",
    "Ranx.C51_weighted_bordafuse_any_order",
    "Ranx.C51_bordafuse_keeps",
    "Ranx.C51_weighted_bordafuse_keeps",
    "Ranx.C51_bordafuse_partial",
    "Ranx.C51_weighted_bordafuse_partial",
    "Ranx.C51_rrf_zero_division",
    "Ranx.C51_rrf",
    "Ranx.C51_rbc",
    "Ranx.C51_isr",
    "Ranx.C51_log_isr",
    "Ranx.C51_logn_isr"
   ],
   "note": "isr, log_isr, logn_isr, rrf, rbc: full (rrf: when no k + rank is 0; otherwise ZeroDivisionError, C51_rrf_zero_division). bordafuse and weighted bordafuse: exact result for all runs in any query order (C51_bordafuse_any_order, C51_weighted_bordafuse_any_order: pools are paired by position; no doc lost: C51_*_keeps); the claim with each query's own pool is proved for runs listing their queries in the same order and refuted otherwise (C48_bordafuse_misaligned)."
  },
  {
   "property": "C52",
   "status": "partial",
   "theorems": [
    "Ranx.C52_symmetric_partial",
    "Ranx.C52_weighted_symmetric",
    "Ranx.C52_bordafuse_misaligned"
   ],
   "note": "Proved through fuse for every normalization but borda, and for bordafuse when the runs list their queries in the same order; weighted methods are symmetric under permuting runs with their weights. C52_bordafuse_misaligned refutes bordafuse on differently ordered queries."
  },
  {
   "property": "C53",
   "status": "proved",
   "theorems": [
    "Ranx.C53_wsum_ones",
    "Ranx.C53_wmnz_ones",
    "Ranx.C53_mnz_anz",
    "Ranx.C53_gmnz"
   ],
   "note": "relations between methods"
  },
  {
   "property": "C54",
   "status": "proved",
   "theorems": [
    "Ranx.C54_sum",
    "Ranx.C54_mnz",
    "Ranx.C54_anz",
    "Ranx.C54_med",
    "Ranx.C54_min",
    "Ranx.C54_max",
    "Ranx.C54_wsum",
    "Ranx.C54_wmnz",
    "Ranx.C54_gmnz",
    "Ranx.C54_mixed",
    "Ranx.C54_rrf",
    "Ranx.C54_isr",
    "Ranx.C54_rbc",
    "Ranx.C54_bordafuse"
   ],
   "note": "Score part also for anz, gmnz, wmnz, mixed. Rank part: rrf (k >= 0), isr, rbc (0 <= phi <= 1), bordafuse (queries in the same order)."
  },
  {
   "property": "C55",
   "status": "partial",
   "theorems": [
    "Ranx.C55_points_partial"
   ],
   "note": "Proved for runs listing their queries in the same order (see C48_bordafuse_misaligned)."
  },
  {
   "property": "C56",
   "status": "proved",
   "theorems": [
    "Ranx.C56_condorcet",
    "Ranx.C56_winner",
    "Ranx.C56_loser",
    "Ranx.C56_weighted_condorcet",
    "Ranx.C56_weighted_winner"
   ],
   "note": "condorcet winner comes first"
  },
  {
   "property": "C57",
   "status": "partial",
   "theorems": [
    "Ranx.C57_consistent_majorities_partial",
    "Ranx.C57_absent_runs_vote",
    "Ranx.C57_ties_reverse"
   ],
   "note": "Proved when the pairwise majorities are consistent with a strict order of the candidates (every run contributing): the output is that order. C57_absent_runs_vote and C57_ties_reverse refute the general claim (a run listing neither doc votes; ties are not neutral)."
  },
  {
   "property": "C58",
   "status": "proved",
   "theorems": [
    "Ranx.C58_mapfuse",
    "Ranx.C58_posfuse",
    "Ranx.C58_slidefuse",
    "Ranx.C58_probfuse",
    "Ranx.C58_segfuse"
   ],
   "note": "probability based fusion formulas"
  },
  {
   "property": "C59",
   "status": "proved",
   "theorems": [
    "Ranx.C59_positions",
    "Ranx.C59_segments",
    "Ranx.C59_segfuse",
    "Ranx.C59_keeps_content",
    "Ranx.C59_bayesfuse",
    "Ranx.C59_mapfuse",
    "Ranx.C59_queries_not_checked"
   ],
   "note": "Object level: the training functions on objects built by public calls, for any schedule; exact counts per position (posfuse, slidefuse), per segment (probfuse, segfuse), per band (bayesfuse log odds) and MAP (mapfuse). Assumes at least one query, the same queries in qrels and runs (not checked by the training functions: C59_queries_not_checked) and no hash collision of judged docs."
  },
  {
   "property": "C60",
   "status": "proved",
   "theorems": [
    "Ranx.C60_bayesfuse",
    "Ranx.C60_in_table",
    "Ranx.C60_reads_out_of_bounds"
   ],
   "note": "Formula for every memory content beyond the table, independence of it when the tables are long enough, and C60_reads_out_of_bounds for the documented defect."
  },
  {
   "property": "C61",
   "status": "proved",
   "theorems": [
    "Ranx.C61_preconditions",
    "Ranx.C61_unknown_names",
    "Ranx.C61_dispatch",
    "Ranx.C61_parameters",
    "Ranx.C61_bad_parameters",
    "Ranx.C61_defaults"
   ],
   "note": "fuse dispatch and preconditions"
  },
  {
   "property": "C62",
   "status": "partial",
   "theorems": [
    "Ranx.C62_query_local_partial",
    "Ranx.C62_bordafuse_misaligned"
   ],
   "note": "All normalizations and methods; where borda is used the runs must list their queries in the same order (C62_bordafuse_misaligned refutes the claim otherwise)."
  },
  {
   "property": "C63",
   "status": "proved",
   "theorems": [
    "Ranx.C63_writes_nothing",
    "Ranx.C63_inputs_unchanged",
    "Ranx.C63_result",
    "Ranx.C63_result_independent"
   ],
   "note": "Memory model with references: a call of fuse, returning or raising, writes no object that existed before; every run reads the same after; the result reads as the pure fuse of the values and is made of new objects only; later writes to it reach no older run."
  },
  {
   "property": "C64",
   "status": "proved",
   "theorems": [
    "Ranx.C64_scale_weights",
    "Ranx.C64_add_weights",
    "Ranx.C64_scale_scores",
    "Ranx.C64_add_scores"
   ],
   "note": "weighted fusion is linear"
  },
  {
   "property": "C65",
   "status": "proved",
   "theorems": [
    "Ranx.C65_best_configuration",
    "Ranx.C65_probfuse",
    "Ranx.C65_probfuse_partial",
    "Ranx.C65_slidefuse",
    "Ranx.C65_slidefuse_partial",
    "Ranx.C65_preconditions",
    "Ranx.C65_wsum_succeeds",
    "Ranx.C65_highlighted_row",
    "Ranx.C65_best_k",
    "Ranx.C65_best_float",
    "Ranx.C65_best_weights",
    "Ranx.C65_trainable",
    "Ranx.C65_mapfuse",
    "Ranx.C65_trained_tables",
    "Ranx.C65_best_segments",
    "Ranx.C65_best_window"
   ],
   "note": "All nine plain searches end to end (score = evaluate(fuse(config))), also stated against the grid the English names (C65_best_k: the ks min..max; C65_best_float; C65_best_weights: all weightings; C65_best_segments, C65_best_window: every number of segments or window size, with the trained tables spelled out); the trained-only methods (C65_mapfuse, C65_trained_tables, C65_trainable); preconditions; success for wsum; the report highlights the first best row while the last best configuration is returned."
  },
  {
   "property": "C66",
   "status": "partial",
   "theorems": [
    "Ranx.C66_exact_partial",
    "Ranx.C66_float_drops",
    "Ranx.C66_two_runs",
    "Ranx.C66_dyadic_partial",
    "Ranx.C66_default_sound",
    "Ranx.C66_default_up_to_order",
    "Ranx.C66_decimal_partial"
   ],
   "note": "Exact arithmetic: exactly the weightings, for every step whose text shows its decimals and any number of runs. Binary64: proved in full for steps 2^-e; for every decimal step dividing 1 (up to 10^-5) and up to 2^30 runs the candidates are exactly the weightings whose left-to-right float sum is 1.0 (C66_decimal_partial), so nothing but weightings is tried; for the default step 0.1 every weighting is tried in some order but for ten equal weights of 0.1 (C66_default_up_to_order); the full claim is refuted for step 0.1 with three runs (C66_float_drops)."
  },
  {
   "property": "C67",
   "status": "partial",
   "theorems": [
    "Ranx.C67_grid_partial",
    "Ranx.C67_ints",
    "Ranx.C67_defaults",
    "Ranx.C67_refuted",
    "Ranx.C67_ints_down",
    "Ranx.C67_zero_step",
    "Ranx.C67_decimal_partial",
    "Ranx.C67_overshoot_refuted"
   ],
   "note": "Int grids: proved in full, negative steps and step 0 included. Float grids: proved in exact arithmetic for limits and steps with matching decimals, and for the defaults in binary64; for any decimal limits and step in binary64 the grid is the floats nearest to min, min+step, ..., max, possibly with one point more (C67_decimal_partial; C67_overshoot_refuted: 0.5 to 1.0 by 0.1 also tries 1.1); refuted in general (C67_refuted: overshoots max, rounds limits, all zero for steps printed without a dot)."
  },
  {
   "property": "C68",
   "status": "proved",
   "theorems": [
    "Ranx.C68_p_value",
    "Ranx.C68_range",
    "Ranx.C68_symmetric",
    "Ranx.C68_identical",
    "Ranx.C68_observed_counts",
    "Ranx.C68_nan_is_significant"
   ],
   "note": "Random draws are arbitrary: nothing is claimed about the generator or about reproducibility from random_seed (the seed only sets one thread's generator)."
  },
  {
   "property": "C69",
   "status": "proved",
   "theorems": [
    "Ranx.C69_order_irrelevant",
    "Ranx.C69_symmetric",
    "Ranx.C69_write",
    "Ranx.C69_pairs_independent",
    "Ranx.C69_delete"
   ],
   "note": "comparison tables are symmetric in the pair"
  },
  {
   "property": "C70",
   "status": "proved",
   "theorems": [
    "Ranx.C70_win_tie_loss"
   ],
   "note": "win/tie/loss counts"
  },
  {
   "property": "C71",
   "status": "proved",
   "theorems": [
    "Ranx.C71_letters",
    "Ranx.C71_table",
    "Ranx.C71_latex",
    "Ranx.C71_succeeds"
   ],
   "note": "superscripts mean significantly better"
  },
  {
   "property": "C72",
   "status": "proved",
   "theorems": [
    "Ranx.C72_first_best",
    "Ranx.C72_none",
    "Ranx.C72_latex",
    "Ranx.C72_rounded_away"
   ],
   "note": "Rounding and number formatting are parameters."
  },
  {
   "property": "C73",
   "status": "partial",
   "theorems": [
    "Ranx.C73_own_results_partial",
    "Ranx.C73_last_wins",
    "Ranx.C73_same_name",
    "Ranx.C73_generated_name"
   ],
   "note": "Proved for pairwise different names (C73_own_results_partial) and, for repeated names, that the last run wins (C73_last_wins). The unrestricted claim is false: C73_same_name, C73_generated_name."
  },
  {
   "property": "C74",
   "status": "partial",
   "theorems": [
    "Ranx.C74_models",
    "Ranx.C74_header_partial",
    "Ranx.C74_succeeds",
    "Ranx.C74_clobbered"
   ],
   "note": "Models' entries always right (C74_models); header proved if no model is called stat_test/metrics/model_names; false otherwise: C74_clobbered. The data frame is C109; JSON text is not modelled."
  },
  {
   "property": "C75",
   "status": "proved",
   "theorems": [
    "Ranx.C75_trec_roundtrip",
    "Ranx.C75_trec_ranking",
    "Ranx.C75_name_not_a_word",
    "Ranx.C75_none_name",
    "Ranx.C75_shifted_fields"
   ],
   "note": "For ids and names that are non-empty and free of white space. Queries without docs are lost; C75_name_not_a_word, C75_none_name and C75_shifted_fields show what happens otherwise. Float text and UTF-8 are assumed to round-trip (FloatText, Codec)."
  },
  {
   "property": "C76",
   "status": "proved",
   "theorems": [
    "Ranx.C76_trec_qrels_roundtrip"
   ],
   "note": "Queries without docs are lost (stated). UTF-8 assumed to round-trip (Codec)."
  },
  {
   "property": "C77",
   "status": "proved",
   "theorems": [
    "Ranx.C77_run_malformed",
    "Ranx.C77_run_content",
    "Ranx.C77_qrels_malformed",
    "Ranx.C77_qrels_content"
   ],
   "note": "malformed TREC lines are rejected"
  },
  {
   "property": "C78",
   "status": "proved",
   "theorems": [
    "Ranx.C78_explicit_kind",
    "Ranx.C78_inferred_kind",
    "Ranx.C78_extension_unique",
    "Ranx.C78_rejected"
   ],
   "note": "file kinds"
  },
  {
   "property": "C79",
   "status": "partial",
   "theorems": [
    "Ranx.C79_json_lz4_roundtrip_partial",
    "Ranx.C79_parquet_roundtrip_partial",
    "Ranx.C79_gz_refuted",
    "Ranx.C79_qrels_json_roundtrip_partial",
    "Ranx.C79_qrels_parquet_roundtrip_partial",
    "Ranx.C79_qrels_gz_refuted"
   ],
   "note": "json, lz4 (runs), parquet via from_parquet, trec (C75/C76) restore the content; gz does not (C79_gz_refuted); json/lz4/parquet lose the name (stated)."
  },
  {
   "property": "C80",
   "status": "proved",
   "theorems": [
    "Ranx.C80_crash_safe",
    "Ranx.C80_resumes",
    "Ranx.C80_final",
    "Ranx.C80_unchecked_refuted",
    "Ranx.C80_range_ignored_refuted",
    "Ranx.C80_no_length_refuted",
    "Ranx.C80_changed_refuted"
   ],
   "note": "proved for every interruption sequence under Spec.Serves (server honours Range and reports the right length), as the property states; refuted without each assumption"
  },
  {
   "property": "C81",
   "status": "partial",
   "theorems": [
    "Ranx.C81_distinct_hashes_partial",
    "Ranx.C81_no_confusion_partial",
    "Ranx.C81_hash_collision_refuted"
   ],
   "note": "false in general (C81_hash_collision_refuted, end to end through evaluate); proved: hashes up to 2^53 stay distinct, 64-bit hashes more than 1024 apart stay distinct and then no doc is confused with another. Collisions of the 64-bit hash itself are outside the model (hash is a parameter)"
  },
  {
   "property": "C82",
   "status": "proved",
   "theorems": [
    "Ranx.C82_float64",
    "Ranx.C82_correctly_rounded",
    "Ranx.C82_ranges",
    "Ranx.C82_mean_range",
    "Ranx.C82_relative_error",
    "Ranx.C82_order_shows",
    "Ranx.C82_f1_error",
    "Ranx.C82_interpolated",
    "Ranx.C82_bpref_error"
   ],
   "note": "overflow, underflow and NaN are not modelled; f1 within 7 parts in 2^53, interpolated precision correctly rounded, bpref within (2R+3) parts in 2^53; dcg, ndcg and rank-biased precision in floating point are C143"
  },
  {
   "property": "C83",
   "status": "proved",
   "theorems": [
    "Ranx.C83_label",
    "Ranx.C83_distinct",
    "Ranx.C83_unlabelled",
    "Ranx.C83_examples"
   ],
   "note": "metric labels"
  },
  {
   "property": "C84",
   "status": "proved",
   "theorems": [
    "Ranx.C84_textbook_values",
    "Ranx.C84_graded_values",
    "Ranx.C84_bpref",
    "Ranx.C84_rbp",
    "Ranx.C84_ndcg_in_range"
   ],
   "note": "textbook values end to end"
  },
  {
   "property": "C85",
   "status": "proved",
   "theorems": [
    "Ranx.C85_compare_is_evaluate",
    "Ranx.C85_succeeds",
    "Ranx.C85_unknown_test"
   ],
   "note": "compare reports evaluate's scores"
  },
  {
   "property": "C86",
   "status": "proved",
   "theorems": [
    "Ranx.C86_fisher",
    "Ranx.C86_student",
    "Ranx.C86_tukey"
   ],
   "note": "SciPy's p-values are parameters (assumed symmetric in the samples, as the two-sided tests are)."
  },
  {
   "property": "C87",
   "status": "partial",
   "theorems": [
    "Ranx.C87_table_partial",
    "Ranx.C87_too_many",
    "Ranx.C87_table_succeeds",
    "Ranx.C87_repeated_metric",
    "Ranx.C87_repeated_name"
   ],
   "note": "Proved for distinct names and metrics; false otherwise: C87_repeated_metric, C87_repeated_name; more than 26 models always fail: C87_too_many. tabulate itself is not modelled."
  },
  {
   "property": "C88",
   "status": "proved",
   "theorems": [
    "Ranx.C88_step",
    "Ranx.C88_programs",
    "Ranx.C88_from_nothing"
   ],
   "note": "Programs over several runs in the memory model have the outcomes of the same programs over values, and the objects of distinct runs stay disjoint (induction over the program)."
  },
  {
   "property": "C89",
   "status": "proved",
   "theorems": [
    "Ranx.C89_score_methods",
    "Ranx.C89_rank_methods",
    "Ranx.C89_condorcet"
   ],
   "note": "For the methods on positions the normalization must keep the order (not min-max-inverted); for the two bordafuse methods the runs list their queries in the same order (see C51); bayesfuse within its tables (see C60); condorcet up to the order the majorities leave open (C56)."
  },
  {
   "property": "C90",
   "status": "proved",
   "theorems": [
    "Ranx.C90_rounded",
    "Ranx.C90_nearest",
    "Ranx.C90_exact",
    "Ranx.C90_order",
    "Ranx.C90_percent",
    "Ranx.C90_errors",
    "Ranx.C90_bold",
    "Ranx.C90_near_tie"
   ],
   "note": "NumPy rounds after one rounded multiplication, so within 2^-53 relative of a tie the printed number may be the second nearest (C90_near_tie). Bound: score * 10^digits <= 2^51."
  },
  {
   "property": "C91",
   "status": "partial",
   "theorems": [
    "Ranx.C91_cutoff",
    "Ranx.C91_levels_partial",
    "Ranx.C91_never_below",
    "Ranx.C91_shape",
    "Ranx.C91_refuted"
   ],
   "note": "Proved for all counts R (up to 2^40) and levels i unless i*R ends in 1 (C91_levels_partial); the computed value is never below the right one; refuted for three relevant docs at recall 0.7 (C91_refuted)."
  },
  {
   "property": "C92",
   "status": "proved",
   "theorems": [
    "Ranx.C92_plot",
    "Ranx.C92_nonincreasing",
    "Ranx.C92_keeps_content",
    "Ranx.C92_queries_not_checked"
   ],
   "note": "Runs whose query set differs from the qrels' are paired by position without a check (C92_queries_not_checked)."
  },
  {
   "property": "C93",
   "status": "partial",
   "theorems": [
    "Ranx.C93_label",
    "Ranx.C93_recorded_partial",
    "Ranx.C93_refuted",
    "Ranx.C93_unlabelled"
   ],
   "note": "Levels are dropped from labels, so ndcg and ndcg-l2 collide, and dcg has no label (C93_refuted); proved for level-free labelled metrics. YAML/cbor/gzip encodings not modelled."
  },
  {
   "property": "C94",
   "status": "partial",
   "theorems": [
    "Ranx.C94_table_partial",
    "Ranx.C94_unprintable"
   ],
   "note": "bpref, dcg, rbp and -l metrics raise KeyError when printed (C94_unprintable); proved for the ten labelled names with any cutoff. rich console not modelled."
  },
  {
   "property": "C95",
   "status": "partial",
   "theorems": [
    "Ranx.C95_order",
    "Ranx.C95_keeps_docs",
    "Ranx.C95_min_max",
    "Ranx.C95_max",
    "Ranx.C95_sum_partial",
    "Ranx.C95_sum_out_of_range",
    "Ranx.C95_new_ties",
    "Ranx.C95_rank",
    "Ranx.C95_borda"
   ],
   "note": "Sum normalization can leave [0,1] (C95_sum_out_of_range); proved when the worst score is 0. Overflow, subnormals, NaN not modelled."
  },
  {
   "property": "C96",
   "status": "proved",
   "theorems": [
    "Ranx.C96_accuracy",
    "Ranx.C96_accuracy_wsum",
    "Ranx.C96_monotone",
    "Ranx.C96_monotone_weighted",
    "Ranx.C96_two_runs",
    "Ranx.C96_three_runs",
    "Ranx.C96_rrf",
    "Ranx.C96_isr",
    "Ranx.C96_log_isr"
   ],
   "note": "float64 rounding after every operation; pow/sqrt/log are arbitrary non-negative functions. C96_three_runs shows that order of three runs matters. Overflow, subnormals, NaN not modelled."
  },
  {
   "property": "C97",
   "status": "partial",
   "theorems": [
    "Ranx.C97_safe_partial",
    "Ranx.C97_completes_partial",
    "Ranx.C97_different_ids",
    "Ranx.C97_cached_partial",
    "Ranx.C97_resume_refuted",
    "Ranx.C97_truncate_refuted",
    "Ranx.C97_rename_refuted"
   ],
   "note": "Proved for any interleaving and any kills when no call begins while another call for the same id is busy (in particular for pairwise different ids, and for any number of calls once the run is cached). False for two calls with the same id, and refuted by three theorems (for every content of at least two bytes): they share the temporary file, so a call that resumes while another one writes leaves a wrong cached file for good (C97_resume_refuted), two that begin together load a file with a gap (C97_truncate_refuted), and one of them may raise FileNotFoundError (C97_rename_refuted)."
  },
  {
   "property": "C98",
   "status": "proved",
   "theorems": [
    "Ranx.C98_roundtrip",
    "Ranx.C98_unloadable",
    "Ranx.C98_name_ignored"
   ],
   "note": "For metrics that have a label and no relevance level (see C93 for the others). YAML/cbor2/lz4 are assumed to read back what they wrote (Archive.load_dump)."
  },
  {
   "property": "C99",
   "status": "partial",
   "theorems": [
    "Ranx.C99_score_methods",
    "Ranx.C99_sorted_runs",
    "Ranx.C99_ranked_runs_partial",
    "Ranx.C99_unsorted",
    "Ranx.C99_unsorted_rank_norm"
   ],
   "note": "Proved for the methods on scores (all norms except rank and borda) and for sorted tie-free runs (all methods; C99_sorted_runs with no further condition, C99_ranked_runs_partial without sorting the queries). C99_unsorted and C99_unsorted_rank_norm show that the code violates the claim for rrf (norm=None) and for rank normalization on runs filled with add_score: fuse does not sort its arguments."
  },
  {
   "property": "C100",
   "status": "partial",
   "theorems": [
    "Ranx.C100_result",
    "Ranx.C100_arguments",
    "Ranx.C100_history_partial",
    "Ranx.C100_repeat",
    "Ranx.C100_then_fuse",
    "Ranx.C100_then_fuse_trained",
    "Ranx.C100_search_changes_fusion"
   ],
   "note": "The code violates the history part: C100_search_changes_fusion shows that optimize_fusion(norm=None, method='posfuse') sorts the caller's runs in place, so that a later fuse(norm=None, method='rrf') on unsorted runs returns other scores. C100_history_partial gives the exact conditions under which a call after a history returns what it would have returned first; C100_repeat (same arguments) and C100_arguments (data unchanged) hold without them. One environment (schedules, sorting) serves all calls."
  },
  {
   "property": "C101",
   "status": "partial",
   "theorems": [
    "Ranx.C101_overshoot_refuted",
    "Ranx.C101_succeeds_partial",
    "Ranx.C101_trained_searches",
    "Ranx.C101_metrics",
    "Ranx.C101_rbp",
    "Ranx.C101_training",
    "Ranx.C101_defaults",
    "Ranx.C101_logn_isr_rejects",
    "Ranx.C101_refuted"
   ],
   "note": "Success and non-None parameters proved for all eleven searches (C101_succeeds_partial, C101_trained_searches), every normalization including borda and any order of the queries, every metric but bpref (which raises, C20) (C101_metrics, C101_rbp), the default arguments in binary64 (C101_defaults), and the four trained methods together with the following fuse (C101_training). The property is false of the code for logn_isr only: one candidate outside [0,1] aborts the whole search (C101_logn_isr_rejects), which step=0.3 with default bounds does on every input (C101_refuted), and bounds 0.5 to 1.0 with step 0.1 too, whose float grid contains 1.1 (C101_overshoot_refuted). Positive steps only, min_k >= 0 for rrf (a negative k may divide by zero: C51_rrf_zero_division). For norm=borda training assumes that hashes do not collide across queries (pools may be mispaired)."
  },
  {
   "property": "C102",
   "status": "proved",
   "theorems": [
    "Ranx.C102_keeps_docs",
    "Ranx.C102_fused_hits",
    "Ranx.C102_no_loss",
    "Ranx.C102_mean_no_loss"
   ],
   "note": "C102_keeps_docs and the two no_loss theorems hold unconditionally (including the borda family on misaligned query orders); C102_fused_hits carries the precondition stated in the property."
  },
  {
   "property": "C103",
   "status": "proved",
   "theorems": [
    "Ranx.C103_comb_min",
    "Ranx.C103_comb_max"
   ],
   "note": "Exact for all inputs; corrects C50 (which is false beyond the sentinels)."
  },
  {
   "property": "C104",
   "status": "proved",
   "theorems": [
    "Ranx.C104_make_comparable",
    "Ranx.C104_extra_queries"
   ],
   "note": "C104_make_comparable (success, zeros, mean) for default return options with save_results_in_run; C104_extra_queries (result depends only on the ranking of the judged queries) for every option."
  },
  {
   "property": "C105",
   "status": "proved",
   "theorems": [
    "Ranx.C105_normalized",
    "Ranx.C105_rank",
    "Ranx.C105_rank_unsorted"
   ],
   "note": "real arithmetic; C105_rank_unsorted shows why the rank norm needs a sorted run."
  },
  {
   "property": "C106",
   "status": "proved",
   "theorems": [
    "Ranx.C106_judgements_only",
    "Ranx.C106_content_only",
    "Ranx.C106_saved_and_loaded"
   ],
   "note": "Spec.JudgedApart: no two judged docs of a query with the same hash (see C03). Formats: those whose round trip is exact (C24, C25, C79)."
  },
  {
   "property": "C107",
   "status": "proved",
   "theorems": [
    "Ranx.C107_evaluate",
    "Ranx.C107_comparable",
    "Ranx.C107_compare",
    "Ranx.C107_copies",
    "Ranx.C107_untouched",
    "Ranx.C107_fuse",
    "Ranx.C107_normalize"
   ],
   "note": "Session model (Model/Session): objects named by index, so shared and repeated; exec runs any list of calls, each with its own sorting algorithm and schedules. C107_evaluate, C107_comparable (make_comparable against the same qrels allowed), C107_compare, C107_copies (repeated objects), C107_untouched and C107_fuse. optimize_fusion treats a run given twice as two copies; runs made by fuse and normalize share nothing with their arguments (C88)."
  },
  {
   "property": "C108",
   "status": "proved",
   "theorems": [
    "Ranx.C108_table",
    "Ranx.C108_scores",
    "Ranx.C108_names",
    "Ranx.C108_caption",
    "Ranx.C108_special"
   ],
   "note": "C108_table reads the whole text back with an independent reader (Spec.texTable); contents of rows tied to C71/C72 via Report.latex. C108_scores: format_score prints only harmless characters. C108_names: escaping is injective. C108_special: & , backslash and $^{}$ in names do break the table."
  },
  {
   "property": "C109",
   "status": "partial",
   "theorems": [
    "Ranx.C109_frame_partial",
    "Ranx.C109_refuted"
   ],
   "note": "Proved unless a run is called model_names (C109_frame_partial); for such a run the export always fails (C109_refuted). pandas' from_dict/reset_index are modelled by their documented effect."
  },
  {
   "property": "C110",
   "status": "proved",
   "theorems": [
    "Ranx.C110_sorted",
    "Ranx.C110_union",
    "Ranx.C110_query_local",
    "Ranx.C110_bordafuse",
    "Ranx.C110_borda_norm",
    "Ranx.C110_symmetric"
   ],
   "note": "Runs built by the constructor, sort() or a successful add_multi: C110_union, C110_query_local, C110_symmetric, C110_bordafuse and C110_borda_norm need no hypothesis on the order of the queries."
  },
  {
   "property": "C111",
   "status": "partial",
   "theorems": [
    "Ranx.C111_identical",
    "Ranx.C111_bordafuse",
    "Ranx.C111_borda_norm_scores",
    "Ranx.C111_borda_rrf_reads_set_order",
    "Ranx.C111_condorcet_partial",
    "Ranx.C111_refuted",
    "Ranx.C111_condorcet_refuted"
   ],
   "note": "Methods without sets: identical results and errors (C111_identical). bordafuse, w_bordafuse: same content (C111_bordafuse). borda normalization with score methods: same content (C111_borda_norm_scores). condorcet: same when majorities are consistent (C111_condorcet_partial). False otherwise: C111_condorcet_refuted (ties), C111_refuted and C111_borda_rrf_reads_set_order (norm='borda' then rrf scores docs by their place in the set's iteration order)."
  },
  {
   "property": "C112",
   "status": "proved",
   "theorems": [
    "Ranx.C112_qrels_same",
    "Ranx.C112_qrels_roundtrip",
    "Ranx.C112_run_same",
    "Ranx.C112_run_roundtrip",
    "Ranx.C112_form_feed"
   ],
   "note": "C112_run_same / C112_qrels_same for texts without unusual line ends, C112_run_roundtrip / C112_qrels_roundtrip for saved files; C112_form_feed shows the readers differ on a form feed, as the statement says."
  },
  {
   "property": "C113",
   "status": "partial",
   "theorems": [
    "Ranx.C113_qrels_partial",
    "Ranx.C113_out_of_range",
    "Ranx.C113_run",
    "Ranx.C113_add_score",
    "Ranx.C113_add_multi",
    "Ranx.C113_add_score_rejected",
    "Ranx.C113_fraction_lost",
    "Ranx.C113_big_score",
    "Ranx.C113_nul_merges"
   ],
   "note": "Proved for ids not ending in NUL: judgements are read back as their whole part (integers in int64 exactly; out of range raises), float scores exactly, integer scores exactly up to 2^53; add_score pair by pair gives the same values as the constructor; a failing conversion in add_multi changes nothing. The full claim is false of the code: C113_fraction_lost (a judgement 0.5 becomes 0 silently), C113_big_score, C113_nul_merges. NaN, infinities, bool and NumPy scalars are out of the model."
  },
  {
   "property": "C114",
   "status": "proved",
   "theorems": [
    "Ranx.C114_slots",
    "Ranx.C114_hits",
    "Ranx.C114_set_relevance_level"
   ],
   "note": "All loops of the shape out[i] = f(i) (C114_slots, with termination and completeness; C114_hits is the metric kernel turn by turn) and the nested dictionary loop of set_relevance_level (C114_set_relevance_level). Array and dictionary assignments under existing keys are atomic; numba's typed containers themselves are not modelled."
  },
  {
   "property": "C115",
   "status": "partial",
   "theorems": [
    "Ranx.C115_one_thread_partial",
    "Ranx.C115_draws_partial",
    "Ranx.C115_refuted"
   ],
   "note": "Proved when the calling thread runs all permutations (C115_one_thread_partial). False with two threads (C115_refuted): numba's np.random.seed seeds the generator of the calling thread only, so for any seed and any non-degenerate generator the p-value changes with the state of the other thread. Trusts numba's documented per-thread generators."
  },
  {
   "property": "C116",
   "status": "proved",
   "theorems": [
    "Ranx.C116_cut",
    "Ranx.C116_cut_graded",
    "Ranx.C116_judging",
    "Ranx.C116_judging_graded",
    "Ranx.C116_raise",
    "Ranx.C116_raise_graded"
   ],
   "note": "End to end (metric string to saved score). Distinct scores are assumed for the query, since with ties the order is the argsort's choice."
  },
  {
   "property": "C117",
   "status": "partial",
   "theorems": [
    "Ranx.C117_from_df",
    "Ranx.C117_rejected",
    "Ranx.C117_other_columns",
    "Ranx.C117_to_dataframe",
    "Ranx.C117_from_parquet_partial",
    "Ranx.C117_pd_kwargs_refuted"
   ],
   "note": "The pd_kwargs part is false: the code writes read_parquet(path, *pd_kwargs) (one star), so any non-empty pd_kwargs naming parameters of read_parquet raises (C117_pd_kwargs_refuted); without it from_parquet is from_df of the file's frame (C117_from_parquet_partial). The rest is proved."
  },
  {
   "property": "C118",
   "status": "proved",
   "theorems": [
    "Ranx.C118_ranked",
    "Ranx.C118_evaluated"
   ],
   "note": "Model/Special.lean: floats as numbers, inf, -inf, nan with IEEE comparison; C118_ranked for every history of calls, C118_evaluated for every metric (no ties, since the order of equal scores is free)."
  },
  {
   "property": "C119",
   "status": "partial",
   "theorems": [
    "Ranx.C119_minmax_minus_inf",
    "Ranx.C119_inverted_plus_inf",
    "Ranx.C119_minmax_plus_inf",
    "Ranx.C119_sum_minus_inf",
    "Ranx.C119_zmuv",
    "Ranx.C119_max_partial",
    "Ranx.C119_max_plus_inf",
    "Ranx.C119_numbers",
    "Ranx.C119_rank",
    "Ranx.C119_numbers_zmuv",
    "Ranx.C119_refuted"
   ],
   "note": "False as stated: C119_refuted, and generally one -inf (min-max, sum), one inf (inverted min-max) or one non-number (zmuv) turns the whole query into nan (C119_minmax_minus_inf, C119_sum_minus_inf, C119_inverted_plus_inf, C119_zmuv); one inf makes the best doc nan and ties all others at 0 (C119_minmax_plus_inf, C119_max_plus_inf). Proved: max keeps the order if there is no inf and no nan (C119_max_partial), rank never reads scores (C119_rank), all-number queries agree with the model of ordinary scores (C119_numbers, C119_numbers_zmuv)."
  },
  {
   "property": "C120",
   "status": "partial",
   "theorems": [
    "Ranx.C120_comb_sum",
    "Ranx.C120_comb_mnz",
    "Ranx.C120_comb_anz",
    "Ranx.C120_symmetric",
    "Ranx.C120_wsum_partial",
    "Ranx.C120_wsum_zero",
    "Ranx.C120_comb_max",
    "Ranx.C120_comb_min",
    "Ranx.C120_order_refuted",
    "Ranx.C120_weight_refuted"
   ],
   "note": "False in two places: comb_max and comb_min depend on the order of the runs if the first run gives nan (C120_order_refuted; exact behaviour in C120_comb_max, C120_comb_min), and a run with weight 0 and an infinite score makes the doc nan (C120_wsum_zero, C120_weight_refuted). The rest is proved: C120_comb_sum, C120_comb_mnz, C120_comb_anz, C120_symmetric, C120_wsum_partial (positive weights). comb_med is not modelled with nan."
  },
  {
   "property": "C121",
   "status": "proved",
   "theorems": [
    "Ranx.C121_step",
    "Ranx.C121_programs",
    "Ranx.C121_from_nothing",
    "Ranx.C121_runs_unchanged",
    "Ranx.C121_dicts_unchanged",
    "Ranx.C121_to_dict",
    "Ranx.C121_queries"
   ],
   "note": "Heap-level refinement: programs over runs and dictionaries behave as programs over values (C121_programs), with the two one-sided corollaries, to_dict content and get_query_ids. Reading a missing key of to_dict()'s defaultdict inserts it (shown as an example; it only affects the user's own dictionary)."
  },
  {
   "property": "C122",
   "status": "partial",
   "theorems": [
    "Ranx.C122_live",
    "Ranx.C122_sort_partial",
    "Ranx.C122_refuted"
   ],
   "note": "Violated: get_doc_ids_and_scores() returns the run's own dictionaries; a write through them changes the run and leaves sorted=True (C122_live, C122_refuted). Proved: an explicit sort() afterwards restores the order (C122_sort_partial). keys()/values of typed dictionaries otherwise not modelled."
  },
  {
   "property": "C123",
   "status": "partial",
   "theorems": [
    "Ranx.C123_hits",
    "Ranx.C123_unjudged",
    "Ranx.C123_non_rel",
    "Ranx.C123_negative",
    "Ranx.C123_partition_partial",
    "Ranx.C123_lists_partial",
    "Ranx.C123_refuted"
   ],
   "note": "Each list is characterised exactly (C123_hits, C123_unjudged, C123_non_rel, C123_negative). They add up to 1 for rel_lvl=1 and grades 0 or >= 1 (C123_lists_partial); violated otherwise, because get_non_rel_lists only marks grade exactly 0 (C123_refuted)."
  },
  {
   "property": "C124",
   "status": "partial",
   "theorems": [
    "Ranx.C124_reader",
    "Ranx.C124_unambiguous",
    "Ranx.C124_writer",
    "Ranx.C124_python_reads",
    "Ranx.C124_strict",
    "Ranx.C124_run",
    "Ranx.C124_run_partial",
    "Ranx.C124_inf_refuted",
    "Ranx.C124_qrels"
   ],
   "note": "Text level: the reader accepts exactly the RFC 8259 grammar (C124_reader), the writer's text denotes the value written (C124_writer, C124_strict), runs and qrels come back for all ids (C124_run, C124_qrels). False for infinite scores: orjson writes null for inf, -inf and nan, so an infinite score comes back as nan (C124_run gives the exact effect, C124_inf_refuted); C124_run_partial: without infinities the scores come back. Numbers are written and read by a NumText (C126 gives the concrete one)."
  },
  {
   "property": "C125",
   "status": "partial",
   "theorems": [
    "Ranx.C125_saved",
    "Ranx.C125_header_partial",
    "Ranx.C125_json_partial",
    "Ranx.C125_nan_refuted",
    "Ranx.C125_printed"
   ],
   "note": "C125_saved, C125_header_partial, C125_printed: what json.loads finds in the file. False as a JSON document: a NaN p-value (Student's test on equal scores) is written as NaN, which is not JSON (C125_nan_refuted); C125_json_partial: without NaN it is JSON. Header keys can be replaced by models of the same name (as C74)."
  },
  {
   "property": "C126",
   "status": "proved",
   "theorems": [
    "Ranx.C126_rounding",
    "Ranx.C126_reading",
    "Ranx.C126_reading_json",
    "Ranx.C126_roundtrip",
    "Ranx.C126_distinct",
    "Ranx.C126_syntax",
    "Ranx.C126_shortest",
    "Ranx.C126_python_text",
    "Ranx.C126_trec",
    "Ranx.C126_json",
    "Ranx.C126_integers"
   ],
   "note": "Python's and orjson's number formatting is modelled after their documentation; inf, nan and signed zeros are outside (C118-C120, C124)."
  },
  {
   "property": "C127",
   "status": "proved",
   "theorems": [
    "Ranx.C127_scores",
    "Ranx.C127_scores_strict",
    "Ranx.C127_inverted",
    "Ranx.C127_rank_norm",
    "Ranx.C127_positions",
    "Ranx.C127_borda"
   ],
   "note": "all score-based rules with order-preserving norms, inverted norms, rank norm, position-based rules and borda; any schedule and set iteration"
  },
  {
   "property": "C128",
   "status": "proved",
   "theorems": [
    "Ranx.C128_ranking",
    "Ranx.C128_evaluate",
    "Ranx.C128_copies"
   ],
   "note": "runs with the same tie-free ranking per query; evaluate of the fused run equals evaluate of the runs; special case of copies"
  },
  {
   "property": "C129",
   "status": "proved",
   "theorems": [
    "Ranx.C129_hash_seed"
   ],
   "note": "any two collision-free hash functions, into any ordered types; objects and dictionaries; results, state and exceptions"
  },
  {
   "property": "C130",
   "status": "proved",
   "theorems": [
    "Ranx.C130_doc_names",
    "Ranx.C130_reading"
   ],
   "note": "objects and dictionaries; result, exceptions, saved scores and final state"
  },
  {
   "property": "C131",
   "status": "proved",
   "theorems": [
    "Ranx.C131_query_names",
    "Ranx.C131_saved"
   ],
   "note": "exact arithmetic for the mean and standard deviation (float summation is order dependent: see C82); ties in a run are excluded because the unstable sort may break them differently"
  },
  {
   "property": "C132",
   "status": "proved",
   "theorems": [
    "Ranx.C132_decoder",
    "Ranx.C132_encoder",
    "Ranx.C132_roundtrip",
    "Ranx.C132_ascii",
    "Ranx.C132_not_gzip"
   ],
   "note": "UTF-8 modelled byte by byte (Model/Bytes); the specification is RFC 3629's table."
  },
  {
   "property": "C133",
   "status": "proved",
   "theorems": [
    "Ranx.C133_reader",
    "Ranx.C133_prefix_free",
    "Ranx.C133_writer",
    "Ranx.C133_roundtrip",
    "Ranx.C133_truncated",
    "Ranx.C133_double"
   ],
   "note": "CBOR modelled byte by byte for the part cbor2 writes for ranx (Model/Bytes): no indefinite lengths, text keys only, tags only for big integers; encodings below 2^64 bytes."
  },
  {
   "property": "C134",
   "status": "proved",
   "theorems": [
    "Ranx.C134_run",
    "Ranx.C134_hub",
    "Ranx.C134_json"
   ],
   "note": "The LZ4 frame format itself is a parameter (decompress undoes compress), applied twice as io.py does. JSON for infinite scores fails, see C124."
  },
  {
   "property": "C135",
   "status": "proved",
   "theorems": [
    "Ranx.C135_reading",
    "Ranx.C135_roundtrip",
    "Ranx.C135_python_text",
    "Ranx.C135_trec"
   ],
   "note": "Model/FloatTextX gives float()/f-string text of every float64; C135_reading characterises the accepted texts, C135_roundtrip the round trip, C135_trec the file from its bytes. Simplified: decimal digits of other scripts are rejected, no negative zero."
  },
  {
   "property": "C136",
   "status": "proved",
   "theorems": [
    "Ranx.C136_rescaled",
    "Ranx.C136_rank_norms",
    "Ranx.C136_rank_methods",
    "Ranx.C136_tiny_spread"
   ],
   "note": "C136_rescaled (affine rescalings per run and query), C136_rank_norms and C136_rank_methods (scores irrelevant); equality of the whole outcome, errors included. C136_tiny_spread shows why the 1e-9 condition is needed. Exact arithmetic."
  },
  {
   "property": "C137",
   "status": "proved",
   "theorems": [
    "Ranx.C137_query",
    "Ranx.C137_run",
    "Ranx.C137_fuse",
    "Ranx.C137_inverted",
    "Ranx.C137_tiny_spread"
   ],
   "note": "C137_query, C137_run, C137_fuse, C137_inverted; C137_tiny_spread gives the exceptions (tiny spreads, borda)."
  },
  {
   "property": "C138",
   "status": "proved",
   "theorems": [
    "Ranx.C138_exact",
    "Ranx.C138_points",
    "Ranx.C138_total"
   ],
   "note": "float64 model of bordafuse (Model/FusionFl); whole-outcome equality with the exact model under the size bound, hence the Borda totals (C51) and their conservation (C55) hold for floats when the runs list their queries in the same order"
  },
  {
   "property": "C139",
   "status": "partial",
   "theorems": [
    "Ranx.C139_range",
    "Ranx.C139_identical",
    "Ranx.C139_symmetric",
    "Ranx.C139_margin",
    "Ranx.C139_no_near_ties_partial",
    "Ranx.C139_observed_counts",
    "Ranx.C139_ties_refuted"
   ],
   "note": "proved: range, identical systems, symmetry, observed assignment counted, count between the exact counts with margin (8N+10)/2^53, exact p-value when there are no near ties; refuted: a P@5 example in which every sample ties exactly and none is counted (p = 0 instead of 1, reported as significant)"
  },
  {
   "property": "C140",
   "status": "proved",
   "theorems": [
    "Ranx.C140_deep_cutoff",
    "Ranx.C140_exceptions"
   ],
   "note": "whole outcome of evaluate for a single metric string; C140_exceptions shows why precision, f1 and (with more judgements than k) ndcg are excluded"
  },
  {
   "property": "C141",
   "status": "proved",
   "theorems": [
    "Ranx.C141_scores",
    "Ranx.C141_student",
    "Ranx.C141_names"
   ],
   "note": "Fisher's p-values depend on random draws and Tukey's on all models by design; for those only scores and wins/ties/losses are claimed"
  },
  {
   "property": "C142",
   "status": "proved",
   "theorems": [
    "Ranx.C142_only_significance",
    "Ranx.C142_superscripts"
   ],
   "note": "NaN p-values are never significant; superscripts compared as subsequences"
  },
  {
   "property": "C143",
   "status": "proved",
   "theorems": [
    "Ranx.C143_accuracy",
    "Ranx.C143_ndcg_range",
    "Ranx.C143_perfect",
    "Ranx.C143_nothing",
    "Ranx.C143_rbp",
    "Ranx.C143_approximations",
    "Ranx.C143_rbp_exceeds_one",
    "Ranx.C143_ndcg_exceeds_one"
   ],
   "note": "overflow, underflow and NaN not modelled; burges gain for whole-number judgements; exact 1 and exact 0 for left-to-right sums; C143_ndcg_exceeds_one and C143_rbp_exceeds_one show that 1 is not an upper bound"
  },
  {
   "property": "C144",
   "status": "proved",
   "theorems": [
    "Ranx.C144_arrays",
    "Ranx.C144_order",
    "Ranx.C144_beyond"
   ],
   "note": "the negation of -2^63 (overflow) is not modelled; justifies the exact integer sort used by the other properties up to 2^53"
  },
  {
   "property": "C145",
   "status": "proved",
   "theorems": [
    "Ranx.C145_fuse",
    "Ranx.C145_fuse_any_order"
   ],
   "note": "C145_fuse: general, for machines listing sets in a name-independent order; C145_fuse_any_order: no assumption on sets for methods without sets. Ids range over any types with decidable equality."
  },
  {
   "property": "C146",
   "status": "proved",
   "theorems": [
    "Ranx.C146_function",
    "Ranx.C146_negative_k",
    "Ranx.C146_objects",
    "Ranx.C146_arrays",
    "Ranx.C146_short_run",
    "Ranx.C146_extra_ignored",
    "Ranx.C146_short_qrels",
    "Ranx.C146_string"
   ],
   "note": "Model/EvaluateAny.lean models evaluate for all four kinds of arguments; C146_objects shows it refines to the model used elsewhere."
  },
  {
   "property": "C147",
   "status": "proved",
   "theorems": [
    "Ranx.C147_content",
    "Ranx.C147_succeeds",
    "Ranx.C147_dataframe_to_dict",
    "Ranx.C147_from_ir_datasets",
    "Ranx.C147_run",
    "Ranx.C147_qrels",
    "Ranx.C147_evaluate",
    "Ranx.C147_fuse"
   ],
   "note": "C147_content / C147_run / C147_qrels: every route ends in an object that holds exactly the table (Spec.Holds). C147_evaluate, C147_fuse: consequences. C147_dataframe_to_dict, C147_from_ir_datasets: the two helpers not modelled before."
  },
  {
   "property": "C148",
   "status": "partial",
   "theorems": [
    "Ranx.C148_run_lz4",
    "Ranx.C148_json_text",
    "Ranx.C148_run_json",
    "Ranx.C148_qrels_json",
    "Ranx.C148_trec_partial",
    "Ranx.C148_qrels_trec_partial",
    "Ranx.C148_qrels_digits_partial",
    "Ranx.C148_trec_refuted",
    "Ranx.C148_qrels_trec_refuted",
    "Ranx.C148_atomic_refuted"
   ],
   "note": "JSON: proved for every crash point (C148_run_json, C148_qrels_json, C148_json_text). TREC runs: what is loaded from a part of the file are always the first rows of to_dataframe() with their scores (C148_trec_partial), but the part is accepted silently and the name may be cut (C148_trec_refuted). TREC qrels: first rows, only the last judgment may be cut (C148_qrels_trec_partial), exact for one-digit judgments (C148_qrels_digits_partial); a two-digit judgment is silently changed (C148_qrels_trec_refuted). save truncates the old file first, so it is not atomic (C148_atomic_refuted). LZ4: proved for frame formats that reject cut frames (C148_run_lz4). Parquet is a library format and not covered."
  },
  {
   "property": "C149",
   "status": "partial",
   "theorems": [
    "Ranx.C149_json",
    "Ranx.C149_trec",
    "Ranx.C149_files",
    "Ranx.C149_any_bytes",
    "Ranx.C149_gz_refuted"
   ],
   "note": "C149_json, C149_trec (round trips from bytes), C149_any_bytes (exactly which byte strings are accepted and what they mean), C149_files (the byte formats instantiate the abstract Codec of C75-C79). Violated for .gz paths: save writes plain text there, so loading raises OSError (C149_gz_refuted). Parquet is a parameter."
  },
  {
   "property": "C150",
   "status": "proved",
   "theorems": [
    "Ranx.C150_fold_scores",
    "Ranx.C150_folds_mean"
   ],
   "note": "exact arithmetic for the mean; ties in a run excluded (their order may depend on the argsort)"
  },
  {
   "property": "C151",
   "status": "proved",
   "theorems": [
    "Ranx.C151_rescaled",
    "Ranx.C151_rank_norms",
    "Ranx.C151_rank_methods"
   ],
   "note": "the normalization's guard of 1e-9 must not be reached (Spec.ScaleFree), as in C136"
  },
  {
   "property": "C152",
   "status": "proved",
   "theorems": [
    "Ranx.C152_doc_names",
    "Ranx.C152_hash_seed",
    "Ranx.C152_process"
   ],
   "note": "Simulation of the whole search under a renaming (training, candidate loop, evaluation); the hash part by passing to the set of docs at hand, on which the hash is injective. C152_process also changes the order in which sets are listed."
  },
  {
   "property": "C153",
   "status": "proved",
   "theorems": [
    "Ranx.C153_first_result",
    "Ranx.C153_single_relevant",
    "Ranx.C153_break_even",
    "Ranx.C153_binary",
    "Ranx.C153_binary_first",
    "Ranx.C153_exceptions"
   ],
   "note": "Exact arithmetic; C153_exceptions shows each condition is needed. Kernel identities lifted to evaluate through the arrays the objects are converted to."
  },
  {
   "property": "C154",
   "status": "proved",
   "theorems": [
    "Ranx.C154_between",
    "Ranx.C154_recall_hit_rate",
    "Ranx.C154_deeper",
    "Ranx.C154_deeper_dcg",
    "Ranx.C154_exceptions"
   ],
   "note": "Exact arithmetic. C154_exceptions: precision, f1 and ndcg are not monotone in k; map and mrr, precision and recall are not ordered."
  },
  {
   "property": "C155",
   "status": "proved",
   "theorems": [
    "Ranx.C155_compare",
    "Ranx.C155_compare_hash",
    "Ranx.C155_plot",
    "Ranx.C155_clash"
   ],
   "note": "Random draws of Fisher's test are the same on both sides (parameter E). C155_clash shows that clashes do matter."
  },
  {
   "property": "C156",
   "status": "proved",
   "theorems": [
    "Ranx.C156_defaults",
    "Ranx.C156_two_runs"
   ],
   "note": "Floats of the search grid as binary64, scores exact reals. More than two runs: equal weights such as 1/3 are not on the 0.1 grid."
  },
  {
   "property": "C157",
   "status": "proved",
   "theorems": [
    "Ranx.C157_stages",
    "Ranx.C157_weighted",
    "Ranx.C157_refuted"
   ],
   "note": "Exact real scores (floating-point sums are not associative). C157_refuted: mnz and anz on three one-query runs."
  },
  {
   "property": "C158",
   "status": "proved",
   "theorems": [
    "Ranx.C158_fuse",
    "Ranx.C158_fuse_then_evaluate"
   ],
   "note": "From the query-by-query form of fuse (C62) for two key types; the evaluation from the rows it scores (evaluate_queries_renamed, also behind C131), fused runs with ties included. The misaligned borda case is refuted in C48."
  },
  {
   "property": "C159",
   "status": "partial",
   "theorems": [
    "Ranx.C159_bayesfuse_partial",
    "Ranx.C159_sums",
    "Ranx.C159_nan_last",
    "Ranx.C159_refuted"
   ],
   "note": "The code violates the claim for bands of average precision 1: C159_refuted (9 training queries whose first five results are all relevant make the table NaN at the first five positions; 10 make it log(2^53-1) instead of log(1000)), C159_sums (for which numbers of queries). Proved (C159_bayesfuse_partial): training succeeds; every entry is the log of fl(p/fl(1-p)) with p within 2(n+2)/2^53 relative error of the exact band precision P when 0<P<1, the log of 0.001/0.999 when P=0, the log of 1/0.001 when P=1 and the number of queries is a power of two, and in general when P=1 it is determined by the float sum of n rounded n-ths (NaN iff above 1). C159_nan_last: bayesfuse on tables with NaN gives NaN to every doc at such a position of any run and ranks it after all docs with numbers."
  },
  {
   "property": "C160",
   "status": "proved",
   "theorems": [
    "Ranx.C160_positions",
    "Ranx.C160_segfuse",
    "Ranx.C160_segments"
   ],
   "note": "Float model in Model/TrainFl (rounding after every operation). Counts are exact (integers up to 2^53), so position probabilities are one rounding of the exact ratio; averages by the NearK calculus; upper bound 1 by monotonicity of float sums."
  },
  {
   "property": "C161",
   "status": "proved",
   "theorems": [
    "Ranx.C161_order",
    "Ranx.C161_tables",
    "Ranx.C161_rbc",
    "Ranx.C161_powers",
    "Ranx.C161_posfuse",
    "Ranx.C161_slidefuse",
    "Ranx.C161_segfuse",
    "Ranx.C161_probfuse"
   ],
   "note": "Float model: rounding after every operation, no subnormals or overflow. rbc for any powers known up to m roundings; C161_powers gives two implementations that qualify. segfuse needs scores of at least -1 (it multiplies by score + 1). The segment size ceil(n / segments) is computed by float division in the code and in the model; it is proved to be the exact ceiling below 2^53."
  },
  {
   "property": "C162",
   "status": "proved",
   "theorems": [
    "Ranx.C162_compare",
    "Ranx.C162_student",
    "Ranx.C162_plot"
   ],
   "note": "C162_compare, C162_student, C162_plot: two successful calls on renamed data. Hypotheses: no tied scores within a query of a run (with ties the order of the docs depends on the sort), the hash separates judged docs; for Student's test the p-value (a parameter, computed by SciPy) is symmetric and a function of the pairs of scores, not of their order. The Fisher and Tukey tests are not covered: Fisher's permutation test draws random numbers query by query, so its p-value does depend on the order. plot: runs over the queries of the qrels."
  },
  {
   "property": "C163",
   "status": "proved",
   "theorems": [
    "Ranx.C163_search",
    "Ranx.C163_trained"
   ],
   "note": "Search: the tried configurations are the same and each has the same score (C158, which no longer needs tie-free fused runs), and the last of the best is unique. Training: the tables of C65 are sums over the queries. Reports are compared when the labels of the configurations differ. In the trained methods tied scores within a run may be ordered differently by the sorting algorithm, hence the hypothesis. For borda normalization and w_bordafuse the runs must list their queries in the same order (see C48)."
  },
  {
   "property": "C164",
   "status": "proved",
   "theorems": [
    "Ranx.C164_silent_run",
    "Ranx.C164_silent_run_with_parameters"
   ],
   "note": "Proved for whole runs (real scores) for all the methods that only look at retrieved docs. bordafuse, w_bordafuse, condorcet, w_condorcet and bayesfuse and the borda normalization are left out: there a run that did not retrieve a doc still contributes to its score. max and min need scores within 10^9 because the code starts from the sentinels -1e9 and 1e9 (comb_max.py, comb_min.py; see C49/C55)."
  },
  {
   "property": "C165",
   "status": "proved",
   "theorems": [
    "Ranx.C165_own_scores",
    "Ranx.C165_own_ranks"
   ],
   "note": "Proved for whole calls of fuse over exact reals. Not claimed for bordafuse, w_bordafuse and condorcet (the pool of docs enters the points and votes), probfuse and segfuse and slidefuse (the length of the list or the neighbours enter), bayesfuse, nor with a normalization (which uses the other scores)."
  },
  {
   "property": "C166",
   "status": "proved",
   "theorems": [
    "Ranx.C166_zero_weight",
    "Ranx.C166_single_run",
    "Ranx.C166_wmnz_counts_zero_weights"
   ],
   "note": "Proved for whole calls of fuse over exact reals (in float64, adding the zero products is exact too, but that is not stated). C166_wmnz_counts_zero_weights shows that wmnz does count the scores of runs with weight 0, so the claim is for wsum only."
  },
  {
   "property": "C167",
   "status": "proved",
   "theorems": [
    "Ranx.C167_tuned_beats_each_run"
   ],
   "note": "C167_tuned_beats_each_run; Opt.unit_weights_tried shows for every number of runs that the binary64 grid contains the unit vectors. The example gives two runs ranking two docs in opposite orders."
  },
  {
   "property": "C168",
   "status": "proved",
   "theorems": [
    "Ranx.C168_wmnz_weights",
    "Ranx.C168_same_score",
    "Ranx.C168_tuning_is_idle",
    "Ranx.C168_other_docs"
   ],
   "note": "C168_wmnz_weights (scores), C168_same_score (evaluation), C168_tuning_is_idle (the search); C168_other_docs shows the condition on the docs is needed."
  },
  {
   "property": "C169",
   "status": "proved",
   "theorems": [
    "Ranx.C169_same_candidates",
    "Ranx.C169_same_score",
    "Ranx.C169_tuning_gmnz_is_idle",
    "Ranx.C169_other_docs"
   ],
   "note": "C169_same_candidates (scores), C169_same_score (evaluation), C169_tuning_gmnz_is_idle (the search); C169_other_docs shows the condition on the docs is needed."
  },
  {
   "property": "C170",
   "status": "proved",
   "theorems": [
    "Ranx.C170_same_candidates",
    "Ranx.C170_same_score",
    "Ranx.C170_tuning_logn_isr_is_idle"
   ],
   "note": "C170_same_candidates (scores), C170_same_score (evaluation), C170_tuning_logn_isr_is_idle (the search)."
  },
  {
   "property": "C171",
   "status": "proved",
   "theorems": [
    "Ranx.C171_more_candidates",
    "Ranx.C171_rrf",
    "Ranx.C171_weights"
   ],
   "note": "C171_more_candidates (any two spaces), C171_rrf, C171_weights (decimal steps, uses C66_decimal_partial)."
  },
  {
   "property": "C172",
   "status": "proved",
   "theorems": [
    "Ranx.C172_borda_is_rank_sum",
    "Ranx.C172_mean_rank",
    "Ranx.C172_same_score"
   ],
   "note": "Whole fuse pipeline. The condition on the query order is needed: C48_bordafuse_misaligned."
  },
  {
   "property": "C173",
   "status": "proved",
   "theorems": [
    "Ranx.C173_borda_norm_is_rank_norm"
   ],
   "note": "Whole fuse pipeline; set iteration order arbitrary. The condition on the query order is needed: C47_borda_norm_misaligned."
  },
  {
   "property": "C174",
   "status": "proved",
   "theorems": [
    "Ranx.C174_whole_weights",
    "Ranx.C174_whole_weights_borda"
   ],
   "note": "Whole fuse pipeline, exact real arithmetic. A weight 0 keeps the docs of the run with score 0 (C166), so the weights must be at least 1. For w_bordafuse the condition on the query order is that of C51."
  }
 ]
}