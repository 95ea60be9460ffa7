{"id": "C01", "title": "Run/Qrels behave like a two-level map", "statement": "After any sequence of add_score/add, add_multi and sort calls, reading query q, doc d of a Run or Qrels gives exactly the value a plain nested map would hold: add_score changes only (q,d); add/add_multi replace the whole entry of their query (last duplicate doc id wins), and refuse empty lists with a TypeError, changing nothing; sort changes nothing.", "quantifier": "every initial run and every finite history of the mutating calls, every query and doc", "why_tests_cant": "histories are unbounded and sorting is interleaved with writes; tests exercise a handful of call orders", "anchors": ["ranx/data_structures/run.py: Run.add_score, Run.add, Run.add_multi, Run.sort", "ranx/data_structures/qrels.py: Qrels.add_score, add, add_multi, sort", "ranx/data_structures/common.py: add_and_sort, create_dict_from_lists, sort_dict_of_dict_by_value"]}
{"id": "C02", "title": "Lists handed to metrics are ranked", "statement": "Whatever calls produced a Run built through the public constructor and mutators, the per-query list that evaluate hands to the metrics is in non-increasing score order.", "quantifier": "every initial dictionary, every history of mutating calls, every query", "why_tests_cant": "requires an invariant linking the sorted flag with the content over unbounded histories and any (unstable) argsort", "anchors": ["ranx/data_structures/run.py: Run.to_typed_list, Run.sort, Run.sorted", "ranx/data_structures/common.py: sort_dict_by_value"]}
{"id": "C03", "title": "Sorting is content preserving and idempotent", "statement": "sort() keeps exactly the same queries, docs and scores, orders queries by id and docs by non-increasing score, and sorting an already tie-free sorted run changes nothing.", "quantifier": "every run, every argsort implementation", "why_tests_cant": "quantifies over every content and over the nondeterminism of an unstable sort", "anchors": ["ranx/data_structures/common.py: sort_dict_by_key, sort_dict_by_value, sort_dict_of_dict_by_value"]}
{"id": "C04", "title": "Insertion order is irrelevant when scores are distinct", "statement": "Two runs with the same (query, doc, score) content, inserted in any order, sort to the same ranking when no two docs of a query share a score; with ties the order (and hence metrics) is not determined by the content.", "quantifier": "all runs, all insertion orders, all argsort implementations", "why_tests_cant": "the number of permutations is unbounded and the tie case depends on sort internals", "anchors": ["ranx/data_structures/common.py: sort_dict_by_value", "ranx/data_structures/run.py: Run.__init__"]}
{"id": "C05", "title": "make_comparable aligns the run with the qrels", "statement": "run.make_comparable(qrels) leaves the run with exactly the queries of qrels; results of shared queries keep their docs and scores, missing queries become empty, extra queries disappear; a second call changes nothing more.", "quantifier": "every run and qrels", "why_tests_cant": "arbitrary overlap patterns between the two key sets", "anchors": ["ranx/data_structures/run.py: Run.make_comparable"]}
{"id": "C06", "title": "set_relevance_level agrees with the -l suffix", "statement": "For every metric that uses relevance only through the threshold (hits, hit_rate, precision, recall, f1, r-precision, mrr, map), evaluating after qrels.set_relevance_level(l) gives the same number as evaluating the untouched qrels with suffix -l; the same is not true for graded metrics.", "quantifier": "every qrels, run, level and cutoff", "why_tests_cant": "relates two different code paths on all inputs", "anchors": ["ranx/data_structures/qrels.py: Qrels.set_relevance_level", "ranx/metrics/common.py: clean_qrels"]}
{"id": "C07", "title": "Construction succeeds exactly on non-empty content and stores it", "statement": "Run(d)/Qrels(d) with a dictionary raises ValueError exactly when d contains no doc id at all; otherwise run[q][d] reads back what was given.", "quantifier": "every dictionary", "why_tests_cant": "needs all shapes of dictionaries, incl. those with some empty queries", "anchors": ["ranx/data_structures/run.py: Run.__init__", "ranx/data_structures/qrels.py: Qrels.__init__", "ranx/data_structures/common.py: create_and_sort"]}
{"id": "C08", "title": "Data frame round-trip", "statement": "Qrels.from_df(qrels.to_dataframe()) and Run.from_df(run.to_dataframe()) contain the same (query, doc, value) facts; duplicate rows resolve to the last; queries with no docs are dropped.", "quantifier": "every qrels/run", "why_tests_cant": "arbitrary sizes and empty queries", "anchors": ["ranx/data_structures/qrels.py: from_df, to_dataframe", "ranx/data_structures/run.py: from_df, to_dataframe"]}
{"id": "C09", "title": "hits counts the relevant docs in the top k", "statement": "hits@k equals the number of positions among the first min(k, len) results (all when k=0) whose doc is judged with relevance >= level.", "quantifier": "every qrels, run, k, level", "why_tests_cant": "the early-exit scan with min/max prefilter must equal the mathematical count on all inputs", "anchors": ["ranx/metrics/hits.py: _hits, hits"]}
{"id": "C10", "title": "hit_rate is 1 iff the top k contains a relevant doc", "statement": "hit_rate@k is 1.0 when some of the first k results is relevant at the level and 0.0 otherwise.", "quantifier": "every qrels, run, k, level", "why_tests_cant": "all inputs", "anchors": ["ranx/metrics/hit_rate.py: _hit_rate"]}
{"id": "C11", "title": "precision@k = relevant in top k / k", "statement": "precision@k divides the number of relevant docs in the top k by k (by the number of results when k=0; 0 when nothing was retrieved).", "quantifier": "every qrels, run, k, level", "why_tests_cant": "all inputs incl. k longer than the run", "anchors": ["ranx/metrics/precision.py: _precision"]}
{"id": "C12", "title": "recall@k = relevant in top k / number of relevant", "statement": "recall@k divides by the number of judged docs with relevance >= level; it is 0 if there are none.", "quantifier": "every qrels, run, k, level", "why_tests_cant": "all inputs", "anchors": ["ranx/metrics/recall.py: _recall"]}
{"id": "C13", "title": "f1 is the harmonic mean of precision and recall", "statement": "f1@k = 2PR/(P+R), 0 when both vanish, and lies between min and max of P and R.", "quantifier": "every qrels, run, k, level", "why_tests_cant": "all inputs", "anchors": ["ranx/metrics/f1.py: _f1"]}
{"id": "C14", "title": "r-precision is precision at R", "statement": "r_precision equals precision@R for R relevant docs (hits in the first R / R), 0 when R=0.", "quantifier": "every qrels, run, level", "why_tests_cant": "all inputs", "anchors": ["ranx/metrics/r_precision.py: _r_precision"]}
{"id": "C15", "title": "mrr is the inverse rank of the first relevant doc", "statement": "reciprocal rank @k is 1/r for the least rank r<=k holding a relevant doc, else 0.", "quantifier": "every qrels, run, k, level", "why_tests_cant": "all inputs", "anchors": ["ranx/metrics/reciprocal_rank.py: _reciprocal_rank"]}
{"id": "C16", "title": "average precision matches its definition", "statement": "AP@k = (1/R) * sum over ranks r<=k with a relevant doc of precision@r; 0 if R=0.", "quantifier": "every qrels, run, k, level", "why_tests_cant": "nested loops with running state must equal the double sum for all inputs", "anchors": ["ranx/metrics/average_precision.py: _average_precision"]}
{"id": "C17", "title": "DCG matches its definition", "statement": "dcg@k = sum of gain(rel)/log2(rank+1) over the first k results, gain rel or 2^rel-1 (burges); unjudged docs and docs below the level contribute 0.", "quantifier": "every qrels, run, k, level", "why_tests_cant": "all inputs", "anchors": ["ranx/metrics/ndcg.py: _dcg, _dcg_burges"]}
{"id": "C18", "title": "NDCG is normalised by the best achievable DCG", "statement": "With qrels sorted by relevance, idcg@k is the maximum dcg@k over all rankings, ndcg@k lies in [0,1], equals 1 on an ideally ordered run and dcg/idcg in general; with no relevant docs the code's fallback divisor applies.", "quantifier": "every qrels sorted as the API sorts them, every duplicate-free run, k", "why_tests_cant": "maximisation over all rankings of any size (rearrangement inequality)", "anchors": ["ranx/metrics/ndcg.py: _idcg, _ndcg, _ndcg_burges"]}
{"id": "C19", "title": "rank-biased precision matches its definition", "statement": "rbp.p = (1-p) * sum rel_i p^(i-1); in [0,1) for 0/1 judgements and 0<=p<1; may exceed 1 for graded judgements since grades are used as weights.", "quantifier": "every qrels, run, p", "why_tests_cant": "geometric series of any length", "anchors": ["ranx/metrics/rank_biased_precision.py: _rank_biased_precision"]}
{"id": "C20", "title": "bpref matches its definition where defined", "statement": "bpref = 1/R * sum over retrieved relevant docs of 1 - min(#judged non relevant above, R)/min(R,N); it ignores unjudged docs; in [0,1]; no relevant docs raises ZeroDivisionError and no judged non-relevant docs gives NaN when a relevant doc is retrieved.", "quantifier": "every qrels, run, level", "why_tests_cant": "all inputs; corner cases are data dependent", "anchors": ["ranx/metrics/bpref.py: _bpref"]}
{"id": "C21", "title": "interpolated precision at recall", "statement": "interpolated precision at recall level p is the maximum precision at any rank where at least the (rounded) required number of relevant docs has been retrieved, so the 11 values are non-increasing and in [0,1].", "quantifier": "every qrels, run, level", "why_tests_cant": "all inputs", "anchors": ["ranx/metrics/interpolated_precision_at_recall.py: _interpolated_precision_at_recall"]}
{"id": "C22", "title": "scores stay in range", "statement": "hit_rate, precision, recall, f1, r-precision, mrr, map lie in [0,1] for duplicate-free runs and hits in [0,k].", "quantifier": "every qrels, duplicate-free run, k, level", "why_tests_cant": "all inputs", "anchors": ["ranx/metrics/*.py"]}
{"id": "C23", "title": "@k metrics only look at the top k", "statement": "Changing anything below rank k (k>=1) changes no @k metric as long as the run has at least k results; precision@k, recall@k, hits@k, hit_rate@k, mrr@k, map@k, dcg@k.", "quantifier": "all pairs of runs agreeing on the first k", "why_tests_cant": "two-run (hyper) property", "anchors": ["ranx/metrics/common.py: fix_k", "ranx/metrics/*.py"]}
{"id": "C24", "title": "monotone in k", "statement": "hits, hit_rate, recall, mrr, map, dcg are non-decreasing in k on a fixed run.", "quantifier": "every qrels, run, k<=k'", "why_tests_cant": "hyper-property over all cutoffs", "anchors": ["ranx/metrics/*.py"]}
{"id": "C25", "title": "doc identity only matters through equality", "statement": "Renaming doc ids (equivalently changing the hash) injectively changes no metric, despite the min/max id prefilter which compares hash values.", "quantifier": "every qrels, run, injective hash into an ordered type", "why_tests_cant": "hash values are arbitrary; tests fix one hash", "anchors": ["ranx/data_structures/common.py: to_typed_list", "ranx/metrics/*.py prefilter"]}
{"id": "C26", "title": "moving a relevant doc up never hurts", "statement": "Swapping a relevant doc with the non-relevant doc directly above it never lowers hits, hit_rate, precision, recall, mrr, map, dcg or rbp.", "quantifier": "every run, position, k", "why_tests_cant": "all inputs", "anchors": ["ranx/metrics/*.py"]}
{"id": "C27", "title": "nothing relevant retrieved scores 0", "statement": "If no retrieved doc is relevant (in particular for an empty run, as make_comparable creates), every metric that is defined is 0.", "quantifier": "every qrels and run", "why_tests_cant": "all inputs", "anchors": ["ranx/metrics/*.py"]}
{"id": "C28", "title": "hit / unjudged / non-relevant lists are indicators and partition the ranking", "statement": "get_hit_lists, get_unjudged_lists, get_non_rel_lists mark at each rank <=k whether the doc is relevant / unjudged / judged with relevance 0; with level 1 and integer relevance >= 0 exactly one of the three holds.", "quantifier": "every qrels, run, k", "why_tests_cant": "all inputs", "anchors": ["ranx/metrics/get_hit_lists.py", "ranx/metrics/get_unjudged_lists.py", "ranx/metrics/get_non_rel_lists.py"]}
{"id": "C29", "title": "stricter relevance level never raises hits", "statement": "hits, hit_rate, precision, mrr and dcg are non-increasing in the relevance level.", "quantifier": "every qrels, run, k, levels l<=l'", "why_tests_cant": "hyper-property", "anchors": ["ranx/metrics/common.py: clean_qrels"]}
{"id": "C30", "title": "metric strings are parsed faithfully", "statement": "'m', 'm@k', 'm-lL', 'm@k-lL' select metric m, cutoff k (0 if absent) and level L (1 if absent); rbp needs its persistence p; malformed strings are rejected rather than misread.", "quantifier": "every metric name, k, L", "why_tests_cant": "all naturals", "anchors": ["ranx/meta/evaluate.py: extract_metric_and_params"]}
{"id": "C31", "title": "evaluate pairs every query with its own judgements", "statement": "evaluate(Qrels, Run, m) computes for each query of the qrels metric m from that query's judgements and that query's ranking, whatever order queries and docs were inserted in, with missing queries scored as empty rankings and extra queries ignored.", "quantifier": "every Qrels and Run", "why_tests_cant": "end-to-end over all key orders; needs sorting + make_comparable + typed-list invariants", "anchors": ["ranx/meta/evaluate.py: evaluate", "ranx/data_structures/run.py: make_comparable,to_typed_list", "ranx/data_structures/qrels.py: to_typed_list"]}
{"id": "C32", "title": "means and saved results are consistent", "statement": "The returned mean is the arithmetic mean of the per-query scores, run.mean_scores[m] stores it and run.scores[m][q] stores each query's own score. A query whose score is undefined (NaN, e.g. bpref without judged non-relevant docs) is not left out: the mean is then NaN.", "quantifier": "every qrels, run, list of metrics", "why_tests_cant": "all inputs", "anchors": ["ranx/meta/evaluate.py: evaluate"]}
{"id": "C33", "title": "return_mean=False returns the per-query array", "statement": "evaluate(..., return_mean=False) returns per query scores for each requested metric string. (The unchanged code raises KeyError for parameterised metric strings in some configurations.)", "quantifier": "every metric string", "why_tests_cant": "configuration matrix times all metric strings", "anchors": ["ranx/meta/evaluate.py: evaluate"]}
{"id": "C34", "title": "only the ranking matters", "statement": "Applying any strictly increasing function to all scores of a tie-free run changes no evaluation result.", "quantifier": "every run, every strictly increasing function", "why_tests_cant": "function-quantified hyper-property", "anchors": ["ranx/meta/evaluate.py: evaluate", "ranx/data_structures/common.py: sort_dict_by_value"]}
{"id": "C35", "title": "parallel evaluation equals sequential evaluation", "statement": "Per-query results computed by the prange loops do not depend on the order or interleaving in which the queries are processed.", "quantifier": "every schedule (permutation) of loop iterations", "why_tests_cant": "schedules are not controllable in tests", "anchors": ["ranx/metrics/*.py: *_parallel"]}
{"id": "C36", "title": "repeated evaluation", "statement": "Evaluating again with the same inputs gives the same result and leaves the run's rankings unchanged; results saved for queries that are no longer judged remain in run.scores.", "quantifier": "every history of evaluate calls", "why_tests_cant": "histories", "anchors": ["ranx/meta/evaluate.py: evaluate"]}
{"id": "C37", "title": "plain dict inputs are paired by query", "statement": "evaluate on plain dictionaries (or Qrels with dict) pairs queries by key. (False in the unchanged code: lists are built in each dictionary's own order.)", "quantifier": "all pairs of dictionaries with equal key sets", "why_tests_cant": "depends on key orders", "anchors": ["ranx/meta/evaluate.py: convert_qrels, convert_run, check_keys"]}
{"id": "C38", "title": "evaluate does not modify judgements", "statement": "evaluate never changes the facts stored in qrels, and only adds empty / removes unjudged queries of the run.", "quantifier": "all inputs", "why_tests_cant": "frame property", "anchors": ["ranx/meta/evaluate.py: evaluate"]}
{"id": "C39", "title": "normalization keeps queries and docs", "statement": "Every normalization returns for every query exactly the docs of the input (borda adds docs of other runs; never loses any).", "quantifier": "every run and method", "why_tests_cant": "all inputs", "anchors": ["ranx/normalization/*.py"]}
{"id": "C40", "title": "normalization preserves the ranking", "statement": "min_max, sum, zmuv (non-constant scores), and max (positive scores) keep the relative order of the docs of each query; min_max inverted reverses it.", "quantifier": "every run", "why_tests_cant": "all inputs", "anchors": ["ranx/normalization/min_max_norm.py", "ranx/normalization/max_norm.py", "ranx/normalization/sum_norm.py", "ranx/normalization/zmuv_norm.py"]}
{"id": "C41", "title": "min-max range", "statement": "min_max maps into [0,1]; when the spread is at least 1e-9 the best gets 1 and the worst 0.", "quantifier": "every run", "why_tests_cant": "all inputs", "anchors": ["ranx/normalization/min_max_norm.py"]}
{"id": "C42", "title": "max-norm range", "statement": "max_norm maps non-negative scores into [0,1] and the best to 1 when it is at least 1e-9; negative maxima are divided by 1e-9 instead.", "quantifier": "every run", "why_tests_cant": "all inputs", "anchors": ["ranx/normalization/max_norm.py"]}
{"id": "C43", "title": "sum-norm", "statement": "sum_norm yields non-negative scores summing to 1 for each query when the spread sum is at least 1e-9.", "quantifier": "every run", "why_tests_cant": "all inputs", "anchors": ["ranx/normalization/sum_norm.py"]}
{"id": "C44", "title": "zmuv", "statement": "zmuv yields mean 0 and variance 1 for each query whose standard deviation is at least 1e-9.", "quantifier": "every run", "why_tests_cant": "real-valued all inputs", "anchors": ["ranx/normalization/zmuv_norm.py"]}
{"id": "C45", "title": "rank norm", "statement": "rank_norm of an n-result query gives 1, (n-1)/n, ..., 1/n by position; it depends only on order.", "quantifier": "every run", "why_tests_cant": "all inputs", "anchors": ["ranx/normalization/rank_norm.py"]}
{"id": "C46", "title": "affine invariance", "statement": "min_max, sum and zmuv are unchanged by a positive affine transformation of a query's scores (non-degenerate spread).", "quantifier": "every run, a>0, b", "why_tests_cant": "hyper-property", "anchors": ["ranx/normalization/*.py"]}
{"id": "C47", "title": "borda norm", "statement": "borda_norm gives doc at position i of a query 1-(i/c) for c candidates, and every candidate missing from a run the same score 1/2-(n-1)/(2c); candidates are those of the same query in all runs. (False when the runs list their queries in different orders.)", "quantifier": "all runs", "why_tests_cant": "depends on query orders", "anchors": ["ranx/normalization/borda_norm.py"]}
{"id": "C48", "title": "fusion returns exactly the union of docs", "statement": "For every method each fused query contains exactly the docs that occur for that query in some input run.", "quantifier": "every list of runs, every method", "why_tests_cant": "all inputs", "anchors": ["ranx/fusion/*.py", "ranx/fusion/common.py"]}
{"id": "C49", "title": "score based fusion formulas", "statement": "comb_sum, comb_anz, comb_med, comb_mnz, comb_gmnz, wsum, wmnz, mixed give each doc the value of their formula over the scores it has in the runs that contain it.", "quantifier": "every list of runs, doc, weights", "why_tests_cant": "all inputs", "anchors": ["ranx/fusion/comb_sum.py", "ranx/fusion/comb_anz.py", "ranx/fusion/comb_med.py", "ranx/fusion/comb_mnz.py", "ranx/fusion/comb_gmnz.py", "ranx/fusion/wsum.py", "ranx/fusion/wmnz.py", "ranx/fusion/mixed.py"]}
{"id": "C50", "title": "comb_min / comb_max are min / max", "statement": "comb_min and comb_max give the min/max of the doc's scores. (False outside the sentinel range +-1e9.)", "quantifier": "every list of runs, doc", "why_tests_cant": "sentinel depends on magnitude", "anchors": ["ranx/fusion/comb_min.py", "ranx/fusion/comb_max.py"]}
{"id": "C51", "title": "rank based fusion formulas", "statement": "isr, log_isr, logn_isr, rrf, rbc, bordafuse give each doc the formula over its positions in the runs that rank it.", "quantifier": "every list of runs", "why_tests_cant": "all inputs", "anchors": ["ranx/fusion/isr.py", "ranx/fusion/log_isr.py", "ranx/fusion/logn_isr.py", "ranx/fusion/rrf.py", "ranx/fusion/rbc.py", "ranx/fusion/bordafuse.py"]}
{"id": "C52", "title": "unweighted fusion is symmetric in the runs", "statement": "Permuting the input runs does not change any fused score of comb_*, isr, log_isr, logn_isr, rrf, rbc, bordafuse.", "quantifier": "every permutation of every list of runs", "why_tests_cant": "all permutations", "anchors": ["ranx/fusion/*.py"]}
{"id": "C53", "title": "relations between methods", "statement": "wsum with weights 1 equals comb_sum; comb_mnz = comb_sum * hits; comb_anz * hits = comb_sum; comb_gmnz gamma 0/1 equals comb_sum/comb_mnz; wmnz with weights 1 equals comb_mnz.", "quantifier": "all inputs", "why_tests_cant": "relational", "anchors": ["ranx/fusion/*.py"]}
{"id": "C54", "title": "fusion is monotone", "statement": "Raising the score of a doc in one run never lowers its fused score (comb_sum, max, min, med, mnz, wsum with non-negative weights) and a doc ranked higher in every run gets at least the rrf/isr/rbc/borda score.", "quantifier": "all inputs", "why_tests_cant": "hyper-property", "anchors": ["ranx/fusion/*.py"]}
{"id": "C55", "title": "bordafuse distributes a fixed number of points", "statement": "For N candidates each run distributes N(N+1)/2 points, unranked docs share the remainder equally.", "quantifier": "all inputs", "why_tests_cant": "sums of any length", "anchors": ["ranx/fusion/bordafuse.py"]}
{"id": "C56", "title": "condorcet winner comes first", "statement": "condorcet gives the strictly highest score to a candidate that beats every other one in pairwise votes; scores are exactly n..1.", "quantifier": "all runs, any sorting algorithm", "why_tests_cant": "preference cycles, unspecified sort behaviour", "anchors": ["ranx/fusion/condorcet.py", "ranx/fusion/weighted_condorcet.py"]}
{"id": "C57", "title": "condorcet respects unanimity", "statement": "If no run ranks y above x and some ranks x above y, x is not placed below y. (False: runs that contain neither vote for the second argument.)", "quantifier": "all inputs", "why_tests_cant": "depends on candidates order", "anchors": ["ranx/fusion/condorcet.py"]}
{"id": "C58", "title": "probability based fusion formulas", "statement": "mapfuse, posfuse, probfuse, slidefuse, segfuse give each doc the published formula over the trained parameters and its positions.", "quantifier": "all inputs", "why_tests_cant": "all inputs", "anchors": ["ranx/fusion/mapfuse.py", "ranx/fusion/posfuse.py", "ranx/fusion/probfuse.py", "ranx/fusion/slidefuse.py", "ranx/fusion/segfuse.py"]}
{"id": "C59", "title": "trained probabilities are probabilities", "statement": "Training of posfuse/probfuse/slidefuse/segfuse yields values in [0,1] and counts exactly the fraction of training queries with a relevant doc at the position/segment.", "quantifier": "all qrels and runs", "why_tests_cant": "all inputs", "anchors": ["ranx/fusion/posfuse.py: _estimate_probs", "ranx/fusion/segfuse.py", "ranx/fusion/probfuse.py"]}
{"id": "C60", "title": "bayesfuse", "statement": "bayesfuse sums the log odds of a doc's positions over runs; runs longer than the 1000-slot table read out of bounds.", "quantifier": "all inputs", "why_tests_cant": "length dependent memory safety", "anchors": ["ranx/fusion/bayesfuse.py"]}
{"id": "C61", "title": "fuse dispatch and preconditions", "statement": "fuse runs the normalization and method named; unknown names raise ValueError; fewer than two runs or different query sets raise AssertionError. (The default call fuse(runs) always raises TypeError.)", "quantifier": "all method names and run lists", "why_tests_cant": "configuration space", "anchors": ["ranx/meta/fuse.py", "ranx/fusion/__init__.py", "ranx/normalization/__init__.py"]}
{"id": "C62", "title": "fusion is query-local", "statement": "The fused result of a query depends only on the input results for that query.", "quantifier": "all inputs", "why_tests_cant": "hyper-property", "anchors": ["ranx/fusion/*.py"]}
{"id": "C63", "title": "fusion does not modify its inputs", "statement": "fuse leaves rankings and scores of the input runs as they were.", "quantifier": "all inputs", "why_tests_cant": "frame property", "anchors": ["ranx/meta/fuse.py"]}
{"id": "C64", "title": "weighted fusion is linear", "statement": "wsum is linear in the weights and in the scores; scaling all weights by c>0 keeps the fused order.", "quantifier": "all inputs", "why_tests_cant": "hyper-property", "anchors": ["ranx/fusion/wsum.py"]}
{"id": "C65", "title": "optimization returns a best configuration", "statement": "optimize_* returns a configuration whose metric is maximal among all tried configurations (the last one among equals) and the report lists each tried configuration with its score.", "quantifier": "all search spaces and metrics", "why_tests_cant": "all score sequences", "anchors": ["ranx/fusion_optimization/*.py", "ranx/meta/optimize_fusion.py"]}
{"id": "C66", "title": "weight grids cover all weightings", "statement": "The weight search space consists exactly of the step grid's weight vectors summing to 1. (False in floating point: the equality test drops some permutations.)", "quantifier": "all numbers of runs and steps", "why_tests_cant": "floating point", "anchors": ["ranx/fusion_optimization/optimize_weights.py"]}
{"id": "C67", "title": "search spaces of scalar parameters", "statement": "The grids of rrf, rbc, gmnz, logn_isr, probfuse, slidefuse contain exactly min, min+step, ... up to max.", "quantifier": "all (min,max,step)", "why_tests_cant": "all values", "anchors": ["ranx/fusion_optimization/optimize_rrf.py", "ranx/fusion_optimization/optimize_rbc.py"]}
{"id": "C68", "title": "fisher randomization test", "statement": "the p-value is the fraction of sign-flip samples with |mean difference| at least the observed; in [0,1]; symmetric in the two systems; 1 for identical systems; significant iff p<=max_p.", "quantifier": "all score lists, all random samples", "why_tests_cant": "probabilistic schedule of coin flips", "anchors": ["ranx/statistical_tests/fisher_randomization_test.py"]}
{"id": "C69", "title": "comparison tables are symmetric in the pair", "statement": "Results stored for a pair of models are found under the pair in either order (FrozensetDict, report.comparisons); storing or deleting one pair never affects another pair.", "quantifier": "all keys, dictionaries and operations", "why_tests_cant": "holds for every sequence of names", "anchors": ["ranx/data_structures/frozenset_dict.py"]}
{"id": "C70", "title": "win/tie/loss counts", "statement": "For every two models and metric wins+ties+losses equals the number of queries, W(a,b)=L(b,a), T symmetric.", "quantifier": "all runs", "why_tests_cant": "all inputs", "anchors": ["ranx/meta/compare.py"]}
{"id": "C71", "title": "superscripts mean significantly better", "statement": "In a report, model a carries b's superscript iff the test says significant and a's score is greater than b's.", "quantifier": "all results", "why_tests_cant": "all inputs", "anchors": ["ranx/data_structures/report.py"]}
{"id": "C72", "title": "best score is highlighted", "statement": "In to_latex the bold entry of each metric is the first model whose rounded score is maximal, provided that score is positive; if no rounded score is positive nothing is bold. The LaTeX table has one row per model and one cell per metric, in order.", "quantifier": "all reports with numeric scores", "why_tests_cant": "ties and zeros after rounding at arbitrary positions", "anchors": ["ranx/data_structures/report.py: to_latex"]}
{"id": "C73", "title": "models are reported separately", "statement": "compare reports each of the given runs under its own name. (False for duplicate names: later runs overwrite earlier ones.)", "quantifier": "all run lists", "why_tests_cant": "all names", "anchors": ["ranx/meta/compare.py"]}
{"id": "C74", "title": "report export", "statement": "to_dict contains every model's scores, comparisons and win/tie/loss. (Models called 'metrics', 'model_names' or 'stat_test' clobber the header.)", "quantifier": "all model names", "why_tests_cant": "all names", "anchors": ["ranx/data_structures/report.py: to_dict"]}
{"id": "C75", "title": "TREC run round-trip", "statement": "Loading a TREC file written by Run.save yields the same queries, docs, scores and name for every whitespace-free id and name (and non-empty content).", "quantifier": "all runs", "why_tests_cant": "all strings", "anchors": ["ranx/data_structures/run.py: save, from_file"]}
{"id": "C76", "title": "TREC qrels round-trip", "statement": "Loading a TREC file written by Qrels.save yields the same judgements.", "quantifier": "all qrels", "why_tests_cant": "all strings", "anchors": ["ranx/data_structures/qrels.py: save, from_file"]}
{"id": "C77", "title": "malformed TREC lines are rejected", "statement": "A line without exactly 6 (run) / 4 (qrels) fields raises ValueError; nothing is silently dropped.", "quantifier": "all files", "why_tests_cant": "all strings", "anchors": ["ranx/data_structures/run.py: from_file", "ranx/data_structures/qrels.py: from_file"]}
{"id": "C78", "title": "file kinds", "statement": "The loader/saver chosen depends only on the last extension, and explicitly given kinds override it; unknown kinds are rejected.", "quantifier": "all paths", "why_tests_cant": "all strings", "anchors": ["ranx/data_structures/run.py: get_file_kind", "ranx/data_structures/qrels.py: get_file_kind"]}
{"id": "C79", "title": "what save writes load reads", "statement": "For each file kind accepted by both save and from_file, loading a saved file restores the content. (False for gz: save writes plain text.)", "quantifier": "all kinds", "why_tests_cant": "kind matrix", "anchors": ["ranx/data_structures/run.py: save, from_file", "ranx/data_structures/qrels.py: save, from_file"]}
{"id": "C80", "title": "download is crash safe", "statement": "If the transfer is interrupted any number of times, the destination file either does not exist or holds the complete content, provided the server honours Range and reports the right length.", "quantifier": "all interruption points and retries", "why_tests_cant": "crash points", "anchors": ["ranx/downloader.py"]}
{"id": "C81", "title": "hashing is injective on doc ids", "statement": "Distinct doc ids of a query are distinct to the metrics. (False in general: 64-bit hashes are stored in float64, so two hashes can merge and an unjudged doc counts as relevant; true when the hashes differ by more than 1024.)", "quantifier": "all doc ids", "why_tests_cant": "needs colliding hashes", "anchors": ["ranx/data_structures/common.py: to_typed_list"]}
{"id": "C82", "title": "floating point keeps the values and the ranges", "statement": "With float64 arithmetic (or any monotone, idempotent rounding exact on integers up to 2^53 and compatible with doubling), hits is exact, precision, recall, r-precision and reciprocal rank are the exact values rounded once, and these, f1, average precision, bpref, interpolated precision and the mean over queries stay within [0,1], whatever the order in which np.sum adds; average precision and the mean are within a relative error of about (n+2)/2^53.", "quantifier": "all judgements, runs, cutoffs and levels (arrays of at most 2^53 rows), all such roundings and all orders of summation", "why_tests_cant": "floating point", "anchors": ["ranx/metrics/*.py"]}
{"id": "C83", "title": "metric labels", "statement": "get_metric_label shows the label of the metric followed by the same cutoff and relevance level; different metric strings (name, optional @k, optional -lL) get different labels; a metric name without label makes printing fail with KeyError.", "quantifier": "all labelled names, cutoffs and levels", "why_tests_cant": "infinitely many metric strings", "anchors": ["ranx/data_structures/report.py: get_metric_label, metric_labels"]}
{"id": "C84", "title": "textbook values end to end", "statement": "After evaluate(qrels, run, [...]) succeeds with a metric written in any of the four forms (name, name@k, name-lL, name@k-lL), the score saved in run.scores for each judged query is the textbook value of that metric for the query's ranked docs and its docs judged at least L: hits, hit_rate, precision, recall, f1, r-precision, mrr and map as functions of which ranks hold relevant docs; dcg, dcg_burges, ndcg, ndcg_burges as log2-discounted sums over the ranked docs' grades, the ideal being the best ordering of the judged docs; bpref from the judged-non-relevant docs; rbp.p from its geometric weights. Provided no judged doc's float64 hash equals that of another doc of the query.", "quantifier": "all qrels and runs built by public calls, all cutoffs and levels, all correct argsorts, all schedules", "why_tests_cant": "The value passes through string parsing, sorting, hashing, range-restricted scanning and a parallel loop; a test can only check sample inputs.", "anchors": ["ranx/meta/evaluate.py: evaluate", "ranx/metrics/__init__.py: metric_switch", "ranx/data_structures/common.py: to_typed_list"]}
{"id": "C85", "title": "compare reports evaluate's scores", "statement": "The score compare reports for a run and metric is exactly what evaluate returns for that run alone; compare succeeds whenever evaluate does for each run and the test is known; unknown tests are refused.", "quantifier": "all qrels, lists of differently named runs, metrics, tests, schedules", "why_tests_cant": "state left behind by evaluating one run (sorting, alignment) could influence the next for some input", "anchors": ["ranx/meta/compare.py"]}
{"id": "C86", "title": "comparisons are the requested test on per-query scores", "statement": "For any two models and any metric, report.comparisons holds the requested test (Fisher, Student, Tukey HSD) applied to the two (Tukey: all) lists of per-query scores of evaluate, in either order of the pair.", "quantifier": "all runs, metrics, draws and schedules", "why_tests_cant": "pairing of names, positions and matrix entries must be right for every number of models", "anchors": ["ranx/meta/compare.py", "ranx/statistical_tests/__init__.py", "ranx/statistical_tests/tukey_hsd_test.py"]}
{"id": "C87", "title": "table layout", "statement": "to_table has one row per run, in order, labelled with consecutive letters, and one cell per metric in order: formatted score and superscript. (False for repeated metrics or names; impossible for more than 26 models.)", "quantifier": "all comparisons", "why_tests_cant": "row letters and superscript letters come from different enumerations", "anchors": ["ranx/data_structures/report.py: to_table, to_latex"]}
{"id": "C88", "title": "runs never share state", "statement": "In any program that creates runs (empty, from a dictionary, by normalize or by fuse) and calls their mutating methods, every call has the outcome it would have if runs were independent values; a change of one run is never visible through another.", "quantifier": "all programs over any number of runs, all exceptions, all schedules of the parallel loops", "why_tests_cant": "aliasing only shows after a particular sequence of calls", "anchors": ["ranx/data_structures/run.py", "ranx/data_structures/common.py", "ranx/normalization/common.py", "ranx/meta/fuse.py"]}
{"id": "C89", "title": "fuse end to end", "statement": "For every accepted normalization name (except borda), method and parameters, the run returned by fuse(runs, norm, method, params) has, for each doc of each query, exactly the score given by the method's published formula applied to the textbook-normalized scores (or the positions) of that doc in the given runs, including the default parameters (rrf k=60, logn_isr sigma=0.01).", "quantifier": "all run lists with equal query sets, norm names, method names and parameters, thread schedules", "why_tests_cant": "configuration space times all inputs: 25 methods times 7 normalizations over arbitrary runs", "anchors": ["ranx/meta/fuse.py: fuse", "ranx/fusion/__init__.py: fusion_switch", "ranx/normalization/__init__.py: norm_switch"]}
{"id": "C90", "title": "printed scores are the scores, rounded", "statement": "The text shown for a score in tables, LaTeX and optimization reports is a decimal number with rounding_digits decimals (two fewer of a hundred times the score with show_percentages) that is the score rounded to nearest up to one float rounding error; exact decimals are shown exactly, the order of scores is never reversed, bold marks the largest printed score; too few digits are an error.", "quantifier": "all scores, numbers of digits and float values", "why_tests_cant": "rounding of all floats", "anchors": ["ranx/data_structures/report.py: Report.format_score, to_latex", "ranx/data_structures/optimization_report.py: OptimizationReport.format_score"]}
{"id": "C91", "title": "recall levels mean recall", "statement": "The value of interpolated precision at recall level i/10 is the greatest precision over ranks whose recall is at least i/10. (False in floating point: the required number of relevant docs is one too small for 3, 23, 33, ... relevant docs at recall 0.7.)", "quantifier": "all numbers of relevant docs, rankings and levels", "why_tests_cant": "float error for particular counts", "anchors": ["ranx/metrics/interpolated_precision_at_recall.py: _interpolated_precision"]}
{"id": "C92", "title": "plot shows each run's precision-recall curve", "statement": "plot(qrels, runs, return_graph=False), for runs over the queries of the qrels, returns eleven rows per run: its name, the recall level and the mean over the queries of the interpolated precision of the run's ranking against the query's own judgements; curves are non-increasing in [0,1]; qrels and runs keep their content.", "quantifier": "all qrels, runs, schedules", "why_tests_cant": "pairing and order for all inputs", "anchors": ["ranx/meta/plot.py: plot", "ranx/metrics/interpolated_precision_at_recall.py"]}
{"id": "C93", "title": "ranxhub.save records every mean score in the run card", "statement": "After ranxhub.save(run, card), the rewritten card and the archive both hold, under runcard['run']['results'], every mean score of the run under the label of its metric (name label plus @cutoff), all results already in the card under other labels are kept, and the archive holds the run; saving fails, before anything is written, only for a metric with no label. (False for metrics with relevance levels, which collapse onto one label, and for dcg, which has none.)", "quantifier": "all score dictionaries, cards and runs", "why_tests_cant": "collisions of labels depend on which metrics were evaluated", "anchors": ["ranx/ranxhub.py: save, get_metric_label"]}
{"id": "C94", "title": "The report of an optimization can be printed", "statement": "Printing the report of a finished optimization gives one row per tried configuration, in the order tried, with its score printed to the chosen number of digits, and highlights exactly the first best configuration, under the method's and metric's labels. (False for bpref, dcg, rbp and metrics with a relevance level: KeyError.)", "quantifier": "all methods with hyperparameters, metrics, configurations and scores", "why_tests_cant": "must hold for every metric the optimizer accepts and every tie pattern", "anchors": ["ranx/data_structures/optimization_report.py: OptimizationReport.to_table"]}
{"id": "C95", "title": "Normalization in floating point", "statement": "In float64 arithmetic min-max, max, sum and zmuv normalization never swap two docs (different scores may become equal); min-max scores lie in [0,1] with exactly 1 and 0 at the ends, max scores are at most 1, both within 4 rounding errors of the exact value; rank and borda normalization keep the ranking strictly. Sum-normalized scores lie in [0,1] (false: cancellation can push them far above 1).", "quantifier": "all score dictionaries, any NumPy mean/std, up to 2^48 docs for the rank based ones", "why_tests_cant": "rounding behaviour over all float inputs cannot be enumerated", "anchors": ["ranx/normalization/min_max_norm.py", "ranx/normalization/max_norm.py", "ranx/normalization/sum_norm.py", "ranx/normalization/zmuv_norm.py", "ranx/normalization/rank_norm.py", "ranx/normalization/borda_norm.py"]}
{"id": "C96", "title": "Fusion in floating point", "statement": "In float64 arithmetic fusion returns the same docs as exact fusion, ranked by the float scores; for non-negative scores these are within a small number of rounding errors (linear in the number of runs) of the exact formulas; raising a doc's scores never lowers its fused score; RRF keeps a doc listed before another in all runs strictly above it; two runs can be swapped, but the order of three runs can change the ranking.", "quantifier": "all runs, schedules, sorting algorithms, weights and library functions pow/sqrt/log", "why_tests_cant": "rounding behaviour over all float inputs and run counts", "anchors": ["ranx/fusion/comb_sum.py", "ranx/fusion/comb_mnz.py", "ranx/fusion/comb_anz.py", "ranx/fusion/wsum.py", "ranx/fusion/rrf.py", "ranx/fusion/isr.py", "ranx/fusion/mixed.py"]}
{"id": "C97", "title": "Concurrent downloads", "statement": "Several processes (or threads) that call Run.from_ranxhub at the same time do not disturb each other, wherever their steps interleave and wherever some of them are killed: each one that is not killed loads exactly the file of its id, none raises an exception, and the cached file of an id never holds anything else.", "quantifier": "all contents, numbers of processes, ids, interleavings of their system calls, sizes of partial writes, and kill points", "why_tests_cant": "An interleaving is chosen by the operating system; tests see a few of them.", "anchors": ["ranx/io.py: download, get_path, get_tmp_path", "ranx/downloader.py: download_file, downloader"]}
{"id": "C98", "title": "Publishing a run and loading it again", "statement": "A run with at least one doc, saved with ranxhub.save and a run card that has a name, and loaded with Run.from_ranxhub (also after any number of interrupted downloads) has exactly the queries, docs and scores of the original; its name and metadata are those of the card, in which the mean scores of the run are recorded under their labels and nothing else has changed. A run without docs or a card without a name is published but cannot be loaded.", "quantifier": "all runs reachable through the API, mean scores, cards, and histories of interrupted downloads", "why_tests_cant": "The claim composes labels, files, downloads and the constructor for every content; tests use one small file and no interrupted download.", "anchors": ["ranx/ranxhub.py: save", "ranx/data_structures/run.py: from_ranxhub, to_dict", "ranx/io.py: download, load_lz4, save_lz4"]}
{"id": "C99", "title": "Fusion depends only on the content of the runs", "statement": "Two lists of runs with pairwise the same queries, docs and scores fuse to runs with the same content, whatever the order in which the runs were filled. This holds for the methods on scores with every normalization except rank and borda, and for every method if the runs are sorted and have no ties. It does not hold for methods on positions (e.g. rrf with norm=None) or rank normalization on runs filled with add_score and never sorted: fuse takes the insertion order for the ranking.", "quantifier": "all pairs of lists of runs with the same content; all normalizations, methods, parameters, schedules, sorting routines and set iteration orders", "why_tests_cant": "the insertion orders of a run are unboundedly many, and tests build runs from dicts or files, which are sorted on construction", "anchors": ["ranx/meta/fuse.py:fuse", "ranx/fusion/rrf.py:_rrf_score", "ranx/normalization/rank_norm.py:_rank_norm", "ranx/data_structures/run.py:add_score"]}
{"id": "C100", "title": "optimize_fusion leaves the data alone and can be repeated", "statement": "Calling optimize_fusion on Qrels and Run objects never changes the judgements or the scores stored in them, whether the call returns or raises; at most it sorts objects that are not yet sorted (only the runs when norm=None and the method is trained) and, for mapfuse with norm=None, saves the metric 'map' in the runs. Repeating the call with the same arguments any number of times gives the same result or exception. A call after any history of other optimize_fusion calls gives what it would have given first. Fusing the same objects with the returned parameters and evaluating gives the best score of the report.", "quantifier": "every qrels and runs usable through the public API, every normalization, method, metric and search space, every history of calls of any length, every schedule of the parallel loops, including calls that raise", "why_tests_cant": "a test makes a few calls on a few objects; the state left behind by a call depends on where it raised, on the flags of the objects and on the calls before it", "anchors": ["ranx/meta/optimize_fusion.py:optimize_fusion", "ranx/fusion_optimization/optimize_probfuse.py:optimize_probfuse", "ranx/fusion_optimization/optimize_slidefuse.py:optimize_slidefuse", "ranx/fusion/mapfuse.py:mapfuse_train", "ranx/data_structures/run.py:to_typed_list"]}
{"id": "C101", "title": "optimize_fusion succeeds on valid input and returns parameters", "statement": "Given qrels and at least two runs over the queries of the qrels (in any order), a normalization accepted by fuse and a metric that is defined on every ranking, optimize_fusion succeeds for every method that is tuned by a search (rrf, rbc, gmnz, logn_isr, mixed, wmnz, wsum, w_condorcet, w_bordafuse, probfuse, slidefuse) whatever the search range, as long as the step is positive; and if there is a query, a candidate, and the metric is never negative, the result carries parameters (not None). In particular it does so with the default search arguments. The methods that learn their parameters directly (bayesfuse, mapfuse, posfuse, segfuse) succeed too, and fuse accepts what they return.", "quantifier": "all qrels, runs, metrics, normalizations, search ranges and steps, rounding functions (default: binary64), schedules of the parallel loops", "why_tests_cant": "A test exercises one data set and one range; whether the loop survives every candidate depends on all runs and all ranges (and indeed logn_isr aborts as soon as the grid overshoots 1).", "anchors": ["ranx/meta/optimize_fusion.py:optimize_fusion", "ranx/fusion_optimization/optimize_rrf.py:optimize_rrf", "ranx/fusion_optimization/optimize_logn_isr.py:optimize_logn_isr", "ranx/fusion_optimization/optimize_weights.py:optimize_weights", "ranx/fusion_optimization/optimize_probfuse.py:optimize_probfuse", "ranx/fusion_optimization/optimize_slidefuse.py:optimize_slidefuse"]}
{"id": "C102", "title": "fusing never loses a relevant document", "statement": "Whenever fuse(runs, norm, method, params) succeeds, for every method, parameters, normalization and order in which the runs list their queries, the fused run has every doc of every run for every query; hence evaluating without a cutoff gives, for every judged query and in the mean, hits, hit_rate and recall that are at least those of every run fused. Unless a borda normalization/method meets runs with differently ordered queries, hits of the fused run is exactly the number of relevant docs retrieved by at least one run.", "quantifier": "all run lists built by public calls, all methods, parameters, normalizations, qrels, relevance levels, schedules, argsorts and set iteration orders", "why_tests_cant": "Holds for the whole chain normalize-rescore-combine-sort-evaluate, for all inputs and query orders; tests check a few fused runs", "anchors": ["ranx/meta/fuse.py: fuse", "ranx/fusion/bordafuse.py: bordafuse", "ranx/normalization/borda_norm.py: borda_norm", "ranx/meta/evaluate.py: evaluate"]}
{"id": "C103", "title": "comb_min / comb_max on their whole domain", "statement": "The score comb_min gives a doc is the least of its scores in the runs that retrieved it, or the lesser of that and 1e9 if some run did not retrieve it; comb_max gives the greatest, or the greater of that and -1e9 if some run did not retrieve it.", "quantifier": "every list of runs over the same queries, every query, every doc, every magnitude of scores, every schedule", "why_tests_cant": "the sentinel shows only for magnitudes beyond 1e9 and only for docs missing from a run", "anchors": ["ranx/fusion/comb_min.py:comb_min", "ranx/fusion/comb_max.py:comb_max"]}
{"id": "C104", "title": "make_comparable counts missing queries as zero and ignores unjudged ones", "statement": "evaluate(qrels, run, metrics, make_comparable=True) with metrics written as text always succeeds for a non-empty qrels, whatever queries the run has: every query of the qrels that the run lacks scores 0, the reported mean is the sum of the scores of the shared queries divided by the number of queries of the qrels, and the queries of the run without judgements (as well as the actual score values beyond the ranking) never change the result.", "quantifier": "every qrels, every run (any query set), every metric written as text, every schedule of the parallel loop", "why_tests_cant": "The tests evaluate one or two fixed dictionaries; the claim ranges over all query sets, orderings and sort flags.", "anchors": ["ranx/meta/evaluate.py:evaluate", "ranx/data_structures/run.py:Run.make_comparable"]}
{"id": "C105", "title": "Evaluating a normalized run gives what evaluating the run gives", "statement": "For a run without tied scores in a query, evaluate on the min-max, max, sum or zmuv normalized run returns exactly what it returns on the run itself, for every metric and option (real arithmetic); the same for rank normalization when the run was sorted, while it fails for an unsorted run under rank normalization.", "quantifier": "every qrels, tie-free run, metric, option, schedule", "why_tests_cant": "It quantifies over all score distributions and relates two pipelines.", "anchors": ["ranx/normalization", "ranx/meta/evaluate.py:evaluate"]}
{"id": "C106", "title": "evaluate depends only on the judgements and the ranking", "statement": "evaluate on two qrels that hold the same (query, doc, judgement) triples returns the same result whatever order they were added in or how ties between docs were broken; likewise for two runs that hold the same triples with no tied scores; in particular saving qrels and run in any of the lossless formats, loading them back and evaluating gives the original result.", "quantifier": "every pair of qrels and runs with equal content, every metric, every format among the lossless ones, every schedule", "why_tests_cant": "Equality over all insertion histories, sort flags and file contents; tests fix one history.", "anchors": ["ranx/meta/evaluate.py:evaluate", "ranx/data_structures/qrels.py", "ranx/data_structures/run.py"]}
{"id": "C107", "title": "An evaluation does not depend on what was done with the objects before", "statement": "In a program that makes any number of calls on the same Qrels and Run objects (evaluate, compare, plot, optimize_fusion, fuse, normalize, save, sort, creating objects, adding to other objects, exceptions included), evaluate and compare return for a qrels and tie-free runs exactly what they would have returned before those calls, as long as none of them adds to these objects, changes the relevance level or makes the runs comparable to another qrels; compare may be given the same run object repeatedly and reports what it would for copies; a sorted tie-free run is not changed at all, so later fusions and normalizations of it are the same too.", "quantifier": "every initial state, every finite sequence of calls, every choice of sorting algorithm and of parallel order in each call", "why_tests_cant": "Quantifies over all histories of calls on shared mutable objects; a test runs one history.", "anchors": ["ranx/meta/evaluate.py:evaluate", "ranx/meta/compare.py:compare", "ranx/meta/plot.py", "ranx/meta/optimize_fusion.py:optimize_fusion", "ranx/meta/fuse.py:fuse", "ranx/data_structures/run.py:Run"]}
{"id": "C108", "title": "The LaTeX table can be read back", "statement": "The text returned by to_latex contains one tabular environment with 2 + number-of-metrics columns. Read as LaTeX reads it (rows end at a double backslash, cells at &), it has a head with the metric labels in order and then, in order, one row per model: its letter, its name with every underscore escaped, and for each metric the printed score (bold if best), the letters of the models it significantly beats as superscript, and invisible letters for the others; empty superscripts are left out. For names without LaTeX-special characters other than the underscore (others are not escaped: a name with & adds a column). The caption names the significance test and the threshold that were used.", "quantifier": "all reports with standard metric strings, all model names without LaTeX-special characters other than underscore, all rounding and percentage settings", "why_tests_cant": "text-level claim over all names and superscript patterns; the two global string replacements could hit anything", "anchors": ["ranx/data_structures/report.py:Report.to_latex", "ranx/data_structures/report.py:Report.get_phantoms_for_latex"]}
{"id": "C109", "title": "report data frame", "statement": "Report.to_dataframe of a comparison has one row per compared run, in order, whose first column model_names holds the run's name and whose other columns, one per requested metric in order, hold the mean score evaluate returns for that run and metric. (False if a run is called 'model_names': KeyError.)", "quantifier": "every set of distinctly named runs, qrels, distinct metrics, test", "why_tests_cant": "all names, metrics and numbers of runs", "anchors": ["ranx/data_structures/report.py: to_dataframe, to_dict", "ranx/meta/compare.py: compare"]}
{"id": "C110", "title": "fusing freshly built runs", "statement": "For runs as built by Run(dict), from_dict, the file loaders, sort() or a successful add_multi, the fusion claims hold without the query-order caveat: the fused run has exactly the docs of the runs, each query's result depends on that query alone, score methods do not depend on the order of the runs, bordafuse gives Borda points and norm='borda' the Borda scores.", "quantifier": "every set of at least two such runs over the same queries, every normalization, method and schedule", "why_tests_cant": "unbounded runs, docs, methods and construction paths", "anchors": ["ranx/data_structures/run.py: Run.__init__, sort, add_multi", "ranx/meta/fuse.py: fuse", "ranx/fusion/bordafuse.py", "ranx/normalization/borda_norm.py"]}
{"id": "C111", "title": "fusion does not depend on the hash seed", "statement": "Fusing the same runs in two processes (with different PYTHONHASHSEED, so different set iteration orders) gives the same queries, docs and scores. (False for condorcet with tied majorities and for norm='borda' followed by a rank-based method: the set order becomes the ranking.)", "quantifier": "every set of runs, normalization, method and set iteration order", "why_tests_cant": "set iteration order changes from process to process; a test sees one of them", "anchors": ["ranx/fusion/condorcet.py: _get_candidates", "ranx/fusion/bordafuse.py", "ranx/normalization/borda_norm.py", "ranx/meta/fuse.py: fuse"]}
{"id": "C112", "title": "dictionary readers of TREC files", "statement": "utils.run_file_to_dict and utils.qrels_file_to_dict read from a TREC file the same dictionaries Run.from_file / Qrels.from_file load (errors included), and reading a file written by save returns the saved scores, losing only queries without docs. (False for texts with vertical tabs, form feeds or other unusual line ends: splitlines breaks there, file iteration does not.)", "quantifier": "every text without unusual line ends; every run / qrels a user can build with white-space free ids", "why_tests_cant": "unbounded texts, ids and line-end conventions", "anchors": ["ranx/utils.py: qrels_file_to_dict, run_file_to_dict", "ranx/data_structures/run.py: from_file, save", "ranx/data_structures/qrels.py: from_file, save"]}
{"id": "C113", "title": "Values given to a Run or Qrels are the values read back", "statement": "Building a Qrels or a Run from a dictionary, with from_dict, or pair by pair with add_score, and adding with add_multi, stores exactly the pairs given: every judgement and every score read back equals the number the caller wrote, no pair is lost and none appears, and both ways of building give the same values.", "quantifier": "every dictionary of ids and Python numbers (int or finite float), every query and document read, both classes", "why_tests_cant": "the conversion is applied to arbitrary numbers and ids; tests use small integers and short ids, where truncation, rounding and NUL stripping cannot be seen", "anchors": ["ranx/data_structures/qrels.py:Qrels.__init__", "ranx/data_structures/qrels.py:Qrels.add_score", "ranx/data_structures/qrels.py:Qrels.add_multi", "ranx/data_structures/run.py:Run.__init__", "ranx/data_structures/run.py:Run.from_dict", "ranx/data_structures/run.py:Run.add_score"]}
{"id": "C114", "title": "Parallel loops give the sequential result under any interleaving", "statement": "The parallel loops of the metrics, of fusion and of normalization fill their array with the values a sequential loop would compute, and set_relevance_level lowers every judgement exactly once, however the single actions of the iterations are interleaved by the threads; no interleaving blocks or runs on for ever.", "quantifier": "every number of iterations, every body that ends, every interleaving of single actions, every partial execution", "why_tests_cant": "a test sees one schedule of one machine", "anchors": ["ranx/metrics/hits.py:_hits_parallel", "ranx/fusion/comb_sum.py:_comb_sum_parallel", "ranx/normalization/min_max_norm.py:_min_max_norm_parallel", "ranx/data_structures/qrels.py:_set_relevance_level"]}
{"id": "C115", "title": "random_seed makes Fisher's test reproducible", "statement": "Two calls of the Fisher randomization test (and of compare with stat_test='fisher') with the same scores, number of permutations and random_seed return the same p-value and the same verdict.", "quantifier": "every generator, seed, distribution of the permutations over threads, state of the other threads' generators", "why_tests_cant": "whether two runs agree depends on the thread pool and on generator states no test controls", "anchors": ["ranx/statistical_tests/fisher_randomization_test.py:fisher_randomization_test", "ranx/meta/compare.py:compare"]}
{"id": "C116", "title": "Scores react to changes of runs and judgements as users expect", "statement": "After evaluate(qrels, run, metrics): (1) for a query whose docs have distinct scores, keeping only the best docs of the run, k or more of them, leaves every score at cutoff k unchanged (r-precision: if as many docs are kept as are relevant); (2) two qrels that judge the same docs of the query relevant at the level (for dcg and ndcg: that give the same grades) give the same scores, so adding judgements 'not relevant' changes nothing (bpref apart); (3) giving a relevant doc a higher score lowers no score of the query (for dcg and ndcg: provided it overtakes only docs that are not more relevant).", "quantifier": "all qrels and runs built by public calls, all queries without score ties, all the metric strings of hits, hit_rate, precision, recall, f1, r-precision, mrr, map, dcg, ndcg and the burges variants, all cutoffs and levels, all thread schedules and correct argsorts", "why_tests_cant": "relates two evaluations for every pair of runs or qrels related in the stated way", "anchors": ["ranx/meta/evaluate.py:evaluate", "ranx/metrics", "ranx/data_structures/run.py:Run.sort"]}
{"id": "C117", "title": "Data frames are read by column name and type", "statement": "Run.from_df / Qrels.from_df build the object whose rows are the three named columns, whatever their names and whatever other columns the frame has, and reject frames whose columns are missing or of the wrong dtype; to_dataframe writes frames that from_df reads with its default arguments; from_parquet does the same with the frame in the file and hands pd_kwargs to pandas.read_parquet.", "quantifier": "all frames, column names, objects; every pd_kwargs naming parameters of read_parquet", "why_tests_cant": "every combination of columns, types and names", "anchors": ["ranx/data_structures/run.py:Run.from_df", "ranx/data_structures/run.py:Run.from_parquet", "ranx/data_structures/run.py:Run.to_dataframe", "ranx/data_structures/qrels.py:Qrels.from_df", "ranx/data_structures/qrels.py:Qrels.from_parquet"]}
{"id": "C118", "title": "Infinite and NaN scores are ranked and evaluated deterministically", "statement": "A run whose scores include inf, -inf or nan, given by any history of calls, is ranked inf first, then numbers from the largest to the smallest, then -inf, nan last; evaluate sees exactly that ranking, so it returns what it returns for a run of ordinary numbers in the same order.", "quantifier": "all histories of calls on a run, all scores including infinities and nan, all metrics", "why_tests_cant": "Infinite and nan scores come from masking and failed models; comparisons with nan break the usual order laws, and no finite set of runs covers every placement of them.", "anchors": ["ranx/data_structures/common.py:sort_dict_by_value", "ranx/data_structures/run.py:Run.to_typed_list", "ranx/meta/evaluate.py:evaluate"]}
{"id": "C119", "title": "Normalizing queries with infinite or NaN scores keeps the ranking", "statement": "After normalization with any strategy the docs of a query that has infinite scores are in the same order as before, and docs with ordinary scores keep ordinary scores.", "quantifier": "all results of a query with any mixture of numbers, inf, -inf and nan", "why_tests_cant": "One masked doc (-inf) among thousands changes what min, max, sum and std return, and only for that query; tests use ordinary scores.", "anchors": ["ranx/normalization/common.py:safe_max,safe_min", "ranx/normalization/min_max_norm.py:_min_max_norm", "ranx/normalization/max_norm.py:_max_norm", "ranx/normalization/sum_norm.py:_sum_norm", "ranx/normalization/zmuv_norm.py:_zmuv_norm", "ranx/normalization/rank_norm.py:_rank_norm"]}
{"id": "C120", "title": "Fusing runs with infinite or NaN scores follows the rules of floats and ignores the order of the runs", "statement": "comb_sum, comb_mnz, comb_anz and wsum give a doc nan exactly if one of its scores is nan or both infinities are among them, the infinity among them otherwise, and the usual number if all are numbers; comb_max and comb_min give the greatest and least score; none depends on the order of the runs, and a run with weight 0 does not change scores.", "quantifier": "all lists of runs with the same queries, all scores including infinities and nan, all positive weights, all schedules", "why_tests_cant": "Whether nan propagates depends on which run it is in and on the direction of a comparison; tests fuse ordinary scores.", "anchors": ["ranx/fusion/comb_sum.py:_comb_sum", "ranx/fusion/comb_max.py:_comb_max", "ranx/fusion/comb_min.py:_comb_min", "ranx/fusion/comb_mnz.py:_comb_mnz", "ranx/fusion/comb_anz.py:_comb_anz", "ranx/fusion/wsum.py:_wsum"]}
{"id": "C121", "title": "run[q] and to_dict() are copies", "statement": "What run[q], to_dict() (and building a Run from such a dictionary) hand out never shares storage with a run: writing to a dictionary obtained from a run never changes any run, changing runs (also in place, also by evaluation sorting them) never changes a dictionary obtained earlier, and Run(d) does not keep a reference to d. run[q] raises KeyError for a query the run does not have; to_dict() of a run is its content; get_query_ids() lists each query once and len(run) counts them.", "quantifier": "every program mixing creation, mutation, normalization and fusion of runs with run[q], to_dict(), Run(d) and writes to the dictionaries obtained, in every order", "why_tests_cant": "sharing shows only in particular interleavings of writes and reads; a test tries a few", "anchors": ["ranx/data_structures/run.py:Run.__getitem__", "ranx/data_structures/run.py:Run.to_dict", "ranx/data_structures/run.py:Run.get_query_ids", "ranx/data_structures/run.py:Run.__len__", "ranx/data_structures/qrels.py:Qrels.to_dict"]}
{"id": "C122", "title": "No read accessor lets the ranking go stale", "statement": "After any use of the documented accessors and of the objects they return, the next evaluation sees every query's results in descending order of the current scores.", "quantifier": "every run, every accessor result and every write to it", "why_tests_cant": "needs the combination of an accessor, a write to its result and a later evaluation, for every run", "anchors": ["ranx/data_structures/run.py:Run.get_doc_ids_and_scores", "ranx/data_structures/run.py:Run.to_typed_list"]}
{"id": "C123", "title": "Hit, non-relevant and unjudged lists partition the results", "statement": "get_hit_lists, get_non_rel_lists and get_unjudged_lists return, for every query, depth k and relevance level, one list with an entry per result looked at; the entry is 1 exactly when the result is judged relevant / judged non-relevant / not judged, so that the three lists add up to 1 at every position; a negative k is rejected.", "quantifier": "all judgements, results, depths, relevance levels and thread schedules", "why_tests_cant": "ranges over all judgement grades, levels and schedules", "anchors": ["ranx/metrics/get_hit_lists.py:get_hit_lists", "ranx/metrics/get_non_rel_lists.py:get_non_rel_lists", "ranx/metrics/get_unjudged_lists.py:get_unjudged_lists"]}
{"id": "C124", "title": "JSON files restore runs and qrels for all ids", "statement": "The JSON text written by save is a JSON document (RFC 8259) whatever characters ids contain; reading it gives exactly the document written, so a saved and loaded run or qrels has the same queries, docs and values.", "quantifier": "all runs and qrels with at least one doc, all ids (quotes, backslashes, control and non-ASCII characters), all scores including infinities and NaN", "why_tests_cant": "every id text and score must survive escaping and parsing; tests try a few plain ids", "anchors": ["ranx/io.py:save_json", "ranx/io.py:load_json", "ranx/data_structures/run.py:Run.save", "ranx/data_structures/run.py:Run.from_file", "ranx/data_structures/qrels.py:Qrels.save"]}
{"id": "C125", "title": "A saved report is a JSON document with the report's contents", "statement": "Report.save writes a JSON document in which every model's scores and, for every other model and metric, the p-value and the win/tie/loss counts are found under their names; print_results prints the scores likewise.", "quantifier": "all reports, all names of models and metrics, all scores and p-values", "why_tests_cant": "names may contain any characters and p-values may be NaN; tests look at one report", "anchors": ["ranx/data_structures/report.py:Report.save", "ranx/data_structures/report.py:Report.print_results", "ranx/data_structures/report.py:Report.to_dict"]}
{"id": "C126", "title": "Scores survive their text", "statement": "A finite float score written to a TREC or JSON file or to a saved report is read back as exactly the same float: the text is the shortest decimal (at most 17 digits) that rounds to the float, the closest one of that length; reading rounds a decimal to the nearest float, ties to even; distinct scores have distinct texts; integers in JSON stay integers.", "quantifier": "every binary64 number (subnormal numbers included), every decimal text, both writers (Python, orjson) and the readers of TREC and JSON files", "why_tests_cant": "There are 2^64 floats and infinitely many decimal texts; a test samples a few.", "anchors": ["ranx/data_structures/run.py:save", "ranx/data_structures/run.py:from_file", "ranx/io.py:save_json", "ranx/io.py:load_json", "ranx/data_structures/report.py:save"]}
{"id": "C127", "title": "Fusion respects unanimity", "statement": "If every run retrieved two docs of a query and every run gives the first a score at least as high (higher) than the second, the run returned by fuse does too, and in the strict case lists it first: for norm None, min-max, max, sum or zmuv and the methods sum, anz, mnz, gmnz, med, min, max and (with non-negative, respectively positive, weights) wsum, wmnz, mixed; with inverted min-max lower scores win; with rank normalization, and with rrf, rbc, isr, log_isr, logn_isr, mapfuse, bordafuse, w_bordafuse, the run that lists a doc first in all inputs lists it first in the output.", "quantifier": "all lists of two or more runs with equal queries, all queries and pairs of docs, all listed norms, methods and parameters, all schedules of the parallel loops", "why_tests_cant": "a violation needs a particular combination of scores in several runs; tests fix a few runs", "anchors": ["ranx/fusion/fuse.py:fuse", "ranx/fusion/comb_med.py", "ranx/fusion/rrf.py", "ranx/fusion/bordafuse.py", "ranx/normalization/zmuv_norm.py"]}
{"id": "C128", "title": "Fusing runs that agree gives their common ranking", "statement": "If all runs have the same docs for each query and order them alike (without ties), in particular if one run is given several times, the fused run orders them alike, and evaluate returns for the fused run exactly what it returns for each of the runs, for all judgements, metrics and options.", "quantifier": "all lists of two or more agreeing runs, all norms and methods of C127 with positive weights, all qrels, metric lists, options, hash functions and schedules", "why_tests_cant": "ranges over all runs, judgements and metric strings; depends on fusion, normalization, sorting and evaluation together", "anchors": ["ranx/fusion/fuse.py:fuse", "ranx/meta/evaluate.py:evaluate", "ranx/data_structures/run.py:Run.sort"]}
{"id": "C129", "title": "evaluate does not depend on the hash seed", "statement": "evaluate returns the same values, stores the same scores in the run, leaves the arguments in the same state and raises the same exceptions under any two hash functions for document ids (e.g. two values of PYTHONHASHSEED) as long as neither hash function maps two different documents of the arguments to the same number.", "quantifier": "all Qrels/Run objects reachable through the API and all dictionary arguments, all metric lists and options, all pairs of collision-free hash functions, all sorting algorithms and thread schedules", "why_tests_cant": "the hash seed differs in every process; a test only sees the hash values of its own process", "anchors": ["ranx/meta/evaluate.py:evaluate", "ranx/data_structures/common.py:_convert_to_typed_list", "ranx/data_structures/run.py:Run.to_typed_list", "ranx/data_structures/qrels.py:Qrels.to_typed_list", "ranx/metrics"]}
{"id": "C130", "title": "Document ids are only names", "statement": "If every document is called by another (distinct) name, in the judgements and in the run alike, evaluate returns the same values or raises the same exception, saves the same scores, and leaves the same objects behind up to the names; only the hash function must not make two documents collide.", "quantifier": "all Qrels/Run objects reachable through the API and all dictionaries, all injective renamings of documents (also into another id type), all metric lists, options, sorting algorithms and schedules, all collision-free hash functions", "why_tests_cant": "a metamorphic relation over all inputs and all renamings; renaming changes every hash value and hence the order in which the metrics see the judgements", "anchors": ["ranx/meta/evaluate.py:evaluate", "ranx/data_structures/common.py", "ranx/metrics"]}
{"id": "C131", "title": "Query ids are only names", "statement": "If the judgements and a run without tied scores are stored under other (distinct) query ids, which changes the order in which the queries are processed, evaluate returns the same means and standard deviations or raises the same exception, and every query has the same saved score under its new id.", "quantifier": "all Qrels/Run objects reachable through the API, all injective renamings of queries, all metric lists and options returning means, all sorting algorithms, all schedules", "why_tests_cant": "a metamorphic relation over all inputs and all renamings, each of which permutes the queries", "anchors": ["ranx/meta/evaluate.py:evaluate", "ranx/data_structures/run.py:Run.sort", "ranx/data_structures/qrels.py:Qrels.sort"]}
{"id": "C132", "title": "Text survives its bytes", "statement": "Writing a text file and reading it gives the same text for every text: the bytes are exactly the UTF-8 form of RFC 3629, the reader accepts exactly these forms (no overlong forms, no surrogates, no cut characters), a byte below 128 is the character with that code and never part of another one, and no text file is taken for a gzip file.", "quantifier": "all texts, all byte strings", "why_tests_cant": "There are over a million characters in four length classes with boundary cases; tests use ASCII ids.", "anchors": ["ranx/data_structures/run.py:Run.save,Run.from_file", "ranx/data_structures/qrels.py:Qrels.save,Qrels.from_file", "ranx/io.py:save_json,load_json"]}
{"id": "C133", "title": "Values survive their CBOR bytes", "statement": "What the LZ4 format stores is a standard CBOR encoding of the dictionary: reading accepts exactly the bytes that begin with an encoding and gives its value; writing then reading gives back integers of any size, float64 with all bits, infinities and NaN, texts and the order of members; no encoding is a prefix of another, so a file cut short at any point is rejected.", "quantifier": "all values (nested dictionaries, lists, integers, float64, texts), all byte strings, all cut points", "why_tests_cant": "Integers and lengths have five size classes with boundary cases and floats have subnormals; a round trip test covers a few values and no cut point.", "anchors": ["ranx/io.py:save_lz4,load_lz4"]}
{"id": "C134", "title": "Runs survive their files byte by byte", "statement": "A run with at least one doc, saved with kind lz4 and loaded from the bytes of the file, has the same queries, docs and scores, to the last bit, infinities and NaN included, and is ranked; the same holds for an archive saved by ranxhub.save and loaded by Run.from_ranxhub, which also keeps the run card and takes the name from it; a JSON file does the same from its bytes for runs without infinite scores.", "quantifier": "all reachable runs, ids with any characters, all float64 scores, all argsort tie behaviours, any lossless LZ4 frame format", "why_tests_cant": "Needs every id and every float64 through two compressions, CBOR and UTF-8.", "anchors": ["ranx/io.py:save_lz4,load_lz4,save_json,load_json", "ranx/data_structures/run.py:Run.save,Run.from_file,Run.from_ranxhub", "ranx/ranxhub.py:save"]}
{"id": "C135", "title": "TREC files give back every float score, infinities and NaN included", "statement": "float(text) accepts exactly the texts of Python's documentation (white space around, underscores between digits, decimals, inf/infinity/nan in any case with a sign; numbers from 2**1024 on become infinite) and returns their values; hence a run whose ids and name are words, saved with kind='trec' and loaded from the bytes of the file, has the same docs with the same float64 scores (also inf, -inf, nan), is ranked and sorted by query, and has its name or the one given; exactly the queries without docs are lost.", "quantifier": "all texts; all reachable runs over float64 with infinities and NaN with word ids, all names, both sorts arbitrary", "why_tests_cant": "Texts, scores and runs are unbounded; a test sees a few scores.", "anchors": ["ranx/data_structures/run.py:Run.save", "ranx/data_structures/run.py:Run.from_file"]}
{"id": "C136", "title": "The scale of the scores does not matter to fusion", "statement": "fuse with norm min-max, min-max-inverted, sum, zmuv returns the same run (or error) when the scores of each run and query are multiplied by a positive number and shifted (max: multiplied), with any method and parameters, provided the scores are all equal or not closer together than the 1e-9 guarding the divisions. With norm rank or borda the scores do not matter at all, only the order in which docs are listed. The methods that look at ranks only (rrf, isr, log_isr, logn_isr, rbc, mapfuse, posfuse, probfuse, slidefuse, bayesfuse, bordafuse, condorcet and the weighted versions) return the same run for all scores and for every order-keeping normalization.", "quantifier": "all runs, factors and shifts per run and query, methods, parameters, schedules, sorts, set orders", "why_tests_cant": "Scales, runs and parameters are unbounded and combine with 25 methods.", "anchors": ["ranx/meta/fuse.py:fuse", "ranx/normalization/min_max_norm.py", "ranx/normalization/zmuv_norm.py", "ranx/normalization/rank_norm.py", "ranx/fusion/rrf.py"]}
{"id": "C137", "title": "Normalizing twice is normalizing once", "statement": "min-max, sum, zmuv, max and rank normalization applied to a run they already normalized return the same run, and fusing runs normalized before gives what fusing the runs gives; inverting min-max twice is min-max. (Scores closer together than 1e-9 but different, and borda normalization, are exceptions.)", "quantifier": "all runs with distinct ids whose queries' scores are equal or at least 1e-9 apart, all schedules, methods and parameters", "why_tests_cant": "All runs and scores.", "anchors": ["ranx/normalization/min_max_norm.py", "ranx/normalization/sum_norm.py", "ranx/normalization/zmuv_norm.py", "ranx/normalization/max_norm.py", "ranx/normalization/rank_norm.py", "ranx/meta/fuse.py:fuse"]}
{"id": "C138", "title": "bordafuse is exact in float64", "statement": "As long as (number of runs) x (2 x number of runs x longest result list + 1) is at most 2^53, fuse(method='bordafuse') computed in float64 returns exactly what exact arithmetic returns: same scores bit for bit, same ranking, same exceptions; points and their sums are half-integers, so no rounding error ever creates or breaks a tie, and the scores of a query add up exactly to the number of runs times 1+2+...+pool size.", "quantifier": "every list of runs within the size bound, every argsort, thread schedule and set iteration order", "why_tests_cant": "Rounding errors show up only for particular sums of particular magnitudes; tests compare a few small runs with a tolerance and cannot rule out a rounding at any size.", "anchors": ["ranx/fusion/bordafuse.py:_borda_score", "ranx/fusion/bordafuse.py:_borda_score_parallel", "ranx/fusion/bordafuse.py:bordafuse", "ranx/fusion/comb_sum.py:_comb_sum"]}
{"id": "C139", "title": "Fisher's test in float64 counts what exact arithmetic counts", "statement": "In float64 the p-value of fisher_randomization_test is, rounded once, the fraction of samples whose difference of means is at least the observed one: it lies in [0,1], is 1 for identical systems, is symmetric in the two systems bit for bit, significant iff p<=max_p, and for metric scores in [0,1] it is the exact p-value whatever the order of summation. (The last part is false for ties: samples that tie exactly with the observed difference can be missed because the sums round differently, so p can be 0 where the exact value is 1; it holds when no sample comes within (8N+10)/2^53 of the observed difference, and in general only such samples can be miscounted.)", "quantifier": "all score arrays, all random draws, schedules and orders of summation, any number of queries and samples below 2^52", "why_tests_cant": "Which samples are affected by rounding depends on the scores, the draws and the order of summation; a test sees a handful of p-values and cannot tell a missed tie from chance.", "anchors": ["ranx/statistical_tests/fisher_randomization_test.py:fisher_randomization_test", "ranx/statistical_tests/fisher_randomization_test.py:permute"]}
{"id": "C140", "title": "A cutoff that cuts nothing changes nothing", "statement": "If no query of the run has more than k results (for ndcg: and no query has more than k judgements), evaluate with 'metric@k' gives what evaluate with 'metric' gives, for hits, hit_rate, recall, mrr, map, dcg, dcg_burges, ndcg and ndcg_burges, with any relevance level: same mean, same std, same per-query scores, same exceptions. (precision@k and f1@k divide by k and do differ.)", "quantifier": "all qrels, runs (missing or extra queries with make_comparable included), cutoffs, relevance levels, hashes, schedules and options", "why_tests_cant": "The boundary k = number of results must be right for every length and every metric; tests use a few lists.", "anchors": ["ranx/metrics/common.py:fix_k", "ranx/meta/evaluate.py:evaluate", "ranx/metrics/average_precision.py:_average_precision", "ranx/metrics/ndcg.py:_ndcg", "ranx/metrics/recall.py:_recall"]}
{"id": "C141", "title": "What compare says about two systems does not depend on the others", "statement": "Two successful comparisons on the same qrels may differ in the other runs, their order, the other metrics, the threads' schedules and the random draws: a named run that takes part in both has the same score for every metric requested in both, two such runs have the same wins, ties and losses against each other, and with Student's test and the same max_p the same p-value, significance and verdict about which is significantly better.", "quantifier": "all qrels, lists of named runs, metrics, options, schedules and random draws", "why_tests_cant": "A test compares a few fixed lists of runs; that adding, removing or reordering systems never changes a pair's figures is a statement over all lists.", "anchors": ["ranx/meta/compare.py:compare", "ranx/statistical_tests/__init__.py:compute_statistical_significance", "ranx/data_structures/report.py:Report"]}
{"id": "C142", "title": "max_p only decides which differences are significant", "statement": "Repeating a comparison with another max_p (same draws) succeeds or fails alike with the same exception, and the reports agree on models, metrics, scores, p-values, wins, ties and losses, for every statistical test; a difference is significant iff its p-value is a number at most max_p; so with a larger max_p every model keeps the superscripts it had in the table and in LaTeX.", "quantifier": "all qrels, runs, metrics, tests, thresholds, schedules and random draws", "why_tests_cant": "Monotonicity in a real-valued threshold relates two reports for every pair of thresholds.", "anchors": ["ranx/meta/compare.py:compare", "ranx/statistical_tests/__init__.py:compute_statistical_significance", "ranx/data_structures/report.py:Report.get_superscript_for_table", "ranx/data_structures/report.py:Report.get_superscript_for_latex"]}
{"id": "C143", "title": "DCG, NDCG and rank-biased precision in float64", "statement": "With np.log2 and ** accurate to a relative error of 2^-52 and any order of the additions, the float64 DCG (both gains), NDCG and rank-biased precision are within n+6 (for NDCG also m+5) relative rounding errors 2^-53 of the exact values, n docs and m judgements; NDCG lies in [0, 1+10^-9] for lists of up to a million rows, is exactly 1 for an ideally ordered run that lists every relevant doc and exactly 0 when no relevant doc is found. (1 is not an upper bound in float64: both NDCG of a run that is not ideal and rank-biased precision with all relevant docs on top can exceed 1.)", "quantifier": "all judgement and result lists, cutoffs, non-negative relevance levels, approximations of log2 and power within the stated error, orders of summation", "why_tests_cant": "Rounding errors depend on every grade and every length; tests compare a few values up to a tolerance.", "anchors": ["ranx/metrics/ndcg.py:_dcg", "ranx/metrics/ndcg.py:_idcg", "ranx/metrics/ndcg.py:_ndcg", "ranx/metrics/rank_biased_precision.py:_rank_biased_precision"]}
{"id": "C144", "title": "Judgements are ranked and evaluated as float64 numbers", "statement": "Judgements are int64 but are sorted and evaluated as float64: whatever their size, the arrays the metrics get hold the judgements rounded to float64, in non-increasing order; for judgements of at most 2^53 in absolute value nothing is rounded and sorting is sorting of the integers. (Beyond 2^53 two different judgements can be seen as equal and sort() can leave the lower one first.)", "quantifier": "all qrels with int64 judgements, all correct argsorts", "why_tests_cant": "Tests use single-digit judgements; the boundary 2^53 and the interplay of rounding and sorting are not visible there.", "anchors": ["ranx/data_structures/common.py:typed_list_argosrt", "ranx/data_structures/common.py:sort_dict_by_value", "ranx/data_structures/common.py:to_typed_list"]}
{"id": "C145", "title": "Doc ids are only names, for normalization and fusion", "statement": "Renaming the docs of all runs by one injective function (same queries, scores and order) renames the docs of the fused run and changes nothing else: for every normalization, fusion method and parameters, fuse returns the fused run with the docs called by the new names, same scores, same order, or raises the same exception. For methods that build no set of docs (all but bordafuse, w_bordafuse, condorcet, w_condorcet; normalization other than borda) this holds whatever order the machine lists sets in.", "quantifier": "all lists of runs, injective renamings, normalizations, methods, parameters, schedules, sorters and set orders", "why_tests_cant": "Relates two executions on differently named docs; a dependence on the id text (comparison, hashing, string order) shows only for particular names.", "anchors": ["ranx/fusion/fuse.py:fuse", "ranx/normalization", "ranx/fusion"]}
{"id": "C146", "title": "Evaluating pre-converted arrays, and the metric functions called directly", "statement": "The metric functions called on arrays return one score per array of the qrels, the i-th computed from the i-th arrays of qrels and run only; fewer arrays in the run are an IndexError, further ones are ignored, a negative cutoff is an AssertionError. evaluate accepts arrays for the qrels, the run or both and then returns exactly what it returns for the objects or dictionaries they were made from (means, or several metrics), and what a metric string returns on arrays is the mean of the metric function it names. If the qrels arrays are fewer than the queries of a Run object, the call raises IndexError after having saved the mean over the first queries.", "quantifier": "all arrays, metrics, cutoffs, levels, options, schedules, sorters and hash functions", "why_tests_cant": "The four combinations of argument kinds times metrics, lengths and schedules; agreement of two paths must hold for every content.", "anchors": ["ranx/meta/evaluate.py:evaluate", "ranx/meta/evaluate.py:convert_qrels", "ranx/metrics/precision.py:precision", "ranx/utils.py:python_dict_to_typed_list"]}
{"id": "C147", "title": "The way in which the data are supplied does not matter", "statement": "For every consistent table of facts (query, doc, value): a Run or Qrels made from a dictionary, from a data frame with the rows in any order, by one add_score per row in any order, by one add per query, by one add_multi, from a TREC file with the lines in any order and any spacing, or (qrels) from ir_datasets holds exactly the facts of the table, and none of these fails on a non-empty table. Hence evaluate returns the same result whichever way qrels and (tie-free) run were supplied, and fuse returns the same content for all methods on scores. dataframe_to_dict gives every (query, doc) the value of the last row about it; from_ir_datasets names the qrels after the data set.", "quantifier": "all tables of facts of any size, all orders of rows and lines, all sorting routines, all metrics and options, all accepted normalizations and score methods", "why_tests_cant": "tests build a handful of objects in one or two ways; the property quantifies over all tables, all orders of insertion and all routes", "anchors": ["ranx/data_structures/run.py:from_dict", "ranx/data_structures/run.py:from_df", "ranx/data_structures/run.py:from_file", "ranx/data_structures/run.py:add_score", "ranx/data_structures/qrels.py:from_ir_datasets", "ranx/utils.py:dataframe_to_dict"]}
{"id": "C148", "title": "An interrupted save is never mistaken for a complete one", "statement": "When the process stops at any moment during run.save or qrels.save, from_file on what is left at the path gives the old content, the complete new content, or an error. In particular a JSON file cut at any byte is rejected with ValueError; a TREC file cut at any byte never yields a row that was not saved (part of the claim fails: see note).", "quantifier": "all runs and qrels (any ids for JSON, ids and names without white space for TREC), all previous file contents, all crash points (every prefix of the bytes written, also in the middle of a UTF-8 character)", "why_tests_cant": "the crash point is a quantifier over every byte of every file; tests only cut a few sample files", "anchors": ["ranx/data_structures/run.py:Run.save", "ranx/data_structures/qrels.py:Qrels.save", "ranx/io.py:save_json", "ranx/io.py:load_json", "ranx/data_structures/run.py:Run.from_file", "ranx/data_structures/qrels.py:Qrels.from_file"]}
{"id": "C149", "title": "Qrels survive their files, byte by byte", "statement": "Qrels saved as JSON (any ids, integers of any size) or in the TREC format (ids without white space) and loaded from the bytes of the file are the same qrels, ranked; from_file accepts exactly the byte strings that are UTF-8 texts whose lines have four fields with an integer last, and raises ValueError for all others. (Qrels saved with extension .gz cannot be loaded: see note.)", "quantifier": "all qrels reachable through the API, all byte strings as TREC qrels files, all gzip and Parquet libraries", "why_tests_cant": "quantifies over all ids, all integers and all byte strings; tests read a few files", "anchors": ["ranx/data_structures/qrels.py:Qrels.save", "ranx/data_structures/qrels.py:Qrels.from_file", "ranx/data_structures/qrels.py:get_file_kind"]}
{"id": "C150", "title": "Evaluating fold by fold", "statement": "If the queries of a collection are split into parts and each part is evaluated on its own (its judgements, a run with the same answers for its queries), every query has the same score in its part as in the evaluation of the whole collection, and the reported mean over the whole is the mean of the parts' means weighted by their numbers of queries.", "quantifier": "all judgements and tie-free runs, all ways to split the queries into parts, all metrics (for the mean: all but bpref), sorting algorithms, schedules, hash functions without collisions among judged docs", "why_tests_cant": "a test evaluates one split of one collection; the property is about every split and every collection", "anchors": ["ranx/meta/evaluate.py:evaluate", "ranx/data_structures/run.py:Run.make_comparable"]}
{"id": "C151", "title": "The scale of the scores does not matter to optimize_fusion", "statement": "With a normalization, multiplying the scores of each run and query by a positive number and shifting them changes neither the parameters optimize_fusion returns nor its report nor its exception. With rank or borda normalization, and for searched methods that look only at ranks, the scores do not matter at all given the order in which the docs are listed.", "quantifier": "all qrels and runs, all rescalings the normalization allows, all methods, metrics, search spaces, environments", "why_tests_cant": "tests try one data set and one scale; the search compares many fused runs, each of which must be unchanged", "anchors": ["ranx/meta/optimize_fusion.py:optimize_fusion", "ranx/fusion_optimization", "ranx/normalization"]}
{"id": "C152", "title": "Doc ids are only names for optimize_fusion, and the hash seed does not matter", "statement": "If every doc is called by another name (injectively) in the judgements and in all runs, optimize_fusion finds the same parameters with the same report, or raises the same exception, for every normalization, method, metric and search space; how the docs are hashed is irrelevant as long as no two docs at hand collide; and for methods that build no set and normalizations other than borda, another process (other hashes and another order of listing sets) gives the same search.", "quantifier": "all judgements, runs, injective renamings, hash functions without collisions among the docs at hand, iteration orders of sets (for the last part), methods, normalizations, metrics, search spaces", "why_tests_cant": "The hash of a string changes with every Python process and doc ids are arbitrary strings; tests see a few ids under one seed.", "anchors": ["ranx/meta/optimize_fusion.py:optimize_fusion", "ranx/fusion_optimization", "ranx/fusion/common.py"]}
{"id": "C153", "title": "Metrics that coincide", "statement": "evaluate gives the same outcome (mean, std, per-query scores or exception) for hits@1, hit_rate@1, precision@1 and mrr@1 at any relevance level; for recall@k, hits@k and hit_rate@k, for map@k and mrr@k, and for r-precision and precision@1, when every query has at most one relevant doc and no two results of a query have the same hash; for precision@R, recall@R, f1@R and r-precision when every query has R relevant docs or none; for dcg@k and dcg_burges@k, ndcg@k and ndcg_burges@k when no judgement is above 1; and for ndcg@1, dcg@1 and precision@1 then.", "quantifier": "all qrels and runs (reachable objects), cutoffs, levels, schedules, options that save or return the mean", "why_tests_cant": "Each identity relates two metric functions on every input; a test compares a few values and would miss a deviation at an edge (empty results, fewer results than k, no relevant doc).", "anchors": ["ranx/metrics/hits.py", "ranx/metrics/hit_rate.py", "ranx/metrics/precision.py", "ranx/metrics/recall.py", "ranx/metrics/f1.py", "ranx/metrics/r_precision.py", "ranx/metrics/reciprocal_rank.py", "ranx/metrics/average_precision.py", "ranx/metrics/ndcg.py", "ranx/meta/evaluate.py"]}
{"id": "C154", "title": "Orderings between metrics survive averaging", "statement": "In evaluate the mean of mrr@k and of precision@k is at most that of hit_rate@k, hit_rate@k at most hits@k, map@k at most recall@k, and recall@k at most hit_rate@k when no two results of a query have the same hash; raising or dropping the cutoff never lowers hits, hit_rate, recall, mrr, map, dcg or dcg_burges; the same holds of every per-query score, and one call fails exactly if the other does, with the same exception.", "quantifier": "all qrels and runs, cutoffs, relevance levels, schedules, and options without standard deviation that save or return the mean", "why_tests_cant": "An ordering is a statement about every pair of inputs; tests fix a few.", "anchors": ["ranx/meta/evaluate.py", "ranx/metrics/hits.py", "ranx/metrics/hit_rate.py", "ranx/metrics/precision.py", "ranx/metrics/recall.py", "ranx/metrics/reciprocal_rank.py", "ranx/metrics/average_precision.py", "ranx/metrics/ndcg.py"]}
{"id": "C155", "title": "Doc ids are only names for compare and plot, and the hash seed does not matter", "statement": "If the docs of the qrels and of the runs are renamed by any one-to-one map and hashed by any other hash function (without clashes among the docs at hand), compare gives the very same report (model names, scores, significance, wins/ties/losses) or raises the same exception, plot draws the same curves or raises the same exception, and both leave the same objects behind up to the names.", "quantifier": "all qrels objects and lists of named runs, metric lists, tests, thresholds, make_comparable, schedules, injective renamings and pairs of hash functions", "why_tests_cant": "Every renaming and every hash seed must give the same report; tests run with one.", "anchors": ["ranx/meta/compare.py:compare", "ranx/meta/plot.py:plot", "ranx/meta/evaluate.py:evaluate", "ranx/data_structures/qrels.py", "ranx/data_structures/run.py"]}
{"id": "C156", "title": "Tuning never does worse than the untuned method", "statement": "With the default search arguments and a metric that is never negative, fusing with the parameters optimize_fusion returns scores at least as well, on the qrels searched, as fuse(runs, norm, \"rrf\") with its default k (method rrf), as fuse(runs, norm, \"mnz\") (method gmnz), and, for two runs whose unweighted fusion has no ties, as fuse(runs, norm, \"sum\") (method wsum) and fuse(runs, norm, \"mnz\") (method wmnz).", "quantifier": "All qrels, runs with the same queries, accepted normalizations, metrics that are never negative, schedules and set orders", "why_tests_cant": "The comparison is between two whole executions (a search and a plain fusion) on arbitrary data", "anchors": ["ranx/meta/optimize_fusion.py:optimize_fusion", "ranx/fusion_optimization/optimize_rrf.py:optimize_rrf", "ranx/fusion_optimization/optimize_weights.py:optimize_weights"]}
{"id": "C157", "title": "Fusing in stages", "statement": "Without normalization, fuse([fuse(A, method), *B], method) has the queries, docs and scores of fuse([*A, *B], method) for sum, min and max, even when scores exceed the sentinels of min and max; for wsum the same holds with weights [1, *w] in the second stage and [*u, *w] at once. For mnz and anz it fails.", "quantifier": "All well-formed runs with the same queries, any split with at least two runs first and one after, all weights, schedules and set orders of the three calls", "why_tests_cant": "The property relates three calls on arbitrary runs; the sentinels make min and max depend on which runs miss a doc", "anchors": ["ranx/meta/fuse.py:fuse", "ranx/fusion/comb_sum.py:comb_sum", "ranx/fusion/comb_min.py:comb_min", "ranx/fusion/comb_max.py:comb_max", "ranx/fusion/wsum.py:wsum", "ranx/fusion/comb_mnz.py:comb_mnz", "ranx/fusion/comb_anz.py:comb_anz"]}
{"id": "C158", "title": "Query ids are only names, for fusion", "statement": "If the queries of all runs are renamed by an injective function (which changes the order in which they are stored and visited) and both calls of fuse succeed, the fused run is the same with the queries renamed: per query the same docs in the same order with the same scores, for every normalization, method and parameters; and evaluating the fused run against the renamed judgements gives the same means. For borda normalization and the bordafuse methods the runs must list their queries in the same order, as freshly built runs do.", "quantifier": "All injective renamings, runs, normalizations, methods, parameters and schedules of the two calls", "why_tests_cant": "Relates two executions that visit the queries in different orders, on arbitrary data", "anchors": ["ranx/meta/fuse.py:fuse", "ranx/meta/evaluate.py:evaluate"]}
{"id": "C159", "title": "bayesfuse learns the log odds of each band's precision, in float64", "statement": "For training data over the same queries, bayesfuse_train in float64 arithmetic gives each run 1000 numbers, the entry of a position being the log of the odds of the average precision of the position's band up to rounding (0.001 standing in for a precision of 0 and for odds against of 0); no entry is NaN; and a doc whose entry is a number gets a number as its fused score.", "quantifier": "all qrels and runs (at most 2^20 training queries), all rankings, schedules, sort algorithms and hash functions, every implementation of np.log on positive numbers; all tables, also with NaN, when fusing", "why_tests_cant": "Whether the float sum of n rounded n-ths is exactly 1 depends on n: tests with 1 to 5, 8, 12 or 16 queries all pass, and with 9 perfectly answered queries the table holds NaN.", "anchors": ["ranx/fusion/bayesfuse.py:_estimate_log_odds", "ranx/fusion/bayesfuse.py:estimate_bayesfuse_log_odds", "ranx/fusion/bayesfuse.py:_sum_odds"]}
{"id": "C160", "title": "Probabilities learned in float64 are the exact ones up to rounding", "statement": "In float64 arithmetic, posfuse_train and slidefuse_train return the exact relative frequencies rounded once; segfuse_train and probfuse_train return numbers within relative error 2(n+2)/2^53 of the exact averages for n training queries; all entries lie in [0, 1].", "quantifier": "all qrels and runs over the same queries (at most 2^51 queries, rankings of at most 2^53 docs), all schedules, sort algorithms and hash functions, all numbers of segments", "why_tests_cant": "Rounding errors accumulate with the number of queries; a test compares a few tables with a tolerance and cannot tell a bound that holds for all.", "anchors": ["ranx/fusion/common.py:_estimate_probs", "ranx/fusion/probfuse.py:estimate_segment_probs", "ranx/fusion/segfuse.py:estimate_segment_probs"]}
{"id": "C161", "title": "Probability based fusion in float64, training included", "statement": "posfuse, slidefuse, probfuse, segfuse, mapfuse and rbc computed in float64 return the queries and docs that exact arithmetic returns, ranked by their scores, and each score is the exact one up to an explicit relative error of a few times the number of runs times 2^-53; this holds for given tables and for the whole pipeline train-then-fuse, where the number of training queries enters the bound. Two docs whose exact scores differ by more than that keep their order.", "quantifier": "every list of runs, training set, table of non-negative floats, window width, number of segments, persistence in [0, 1], thread schedule", "why_tests_cant": "errors accumulate over training queries, positions and runs; a test compares a few sums with a tolerance", "anchors": ["ranx/fusion/posfuse.py:_pos_score", "ranx/fusion/slidefuse.py:_slide_score", "ranx/fusion/probfuse.py:_prob_score", "ranx/fusion/segfuse.py:_seg_score", "ranx/fusion/mapfuse.py:_map_score", "ranx/fusion/rbc.py:_rbc_score"]}
{"id": "C162", "title": "Query ids are only names for compare and plot", "statement": "If the queries of the qrels and of all runs are given other ids (injectively, so that ranx may list them in another order), compare reports the same model names, the same score of every model for every metric, the same wins, ties and losses of every two models and - for Student's test, if the test does not look at the order of the queries - the same p-values and significances; plot draws the same curves.", "quantifier": "all qrels, lists of runs without tied scores, injective renamings of queries, metrics, schedules, sort algorithms, significance thresholds", "why_tests_cant": "Renaming queries changes the order in which every per-query list is computed, paired and counted; a test sees a few orders only.", "anchors": ["ranx/meta/compare.py:compare", "ranx/meta/plot.py:plot", "ranx/meta/evaluate.py:evaluate"]}
{"id": "C163", "title": "Query ids are only names for optimize_fusion", "statement": "If the queries of the qrels and of all runs are given other ids (injectively, so that ranx may store and visit them in another order) and both calls succeed, optimize_fusion finds the same best parameters and reports the same score for every tried configuration (rrf, rbc, gmnz, logn_isr, mixed and the weighted methods), with or without ties among the fused scores; the trained methods mapfuse, posfuse, segfuse and bayesfuse return the same parameters, if no normalized run has tied scores.", "quantifier": "all qrels, lists of runs, injective renamings of queries, normalizations, methods, metrics, search spaces, schedules, sort algorithms", "why_tests_cant": "Relates two searches that store and visit every query in different orders, on arbitrary data and over whole search spaces.", "anchors": ["ranx/meta/optimize_fusion.py:optimize_fusion", "ranx/meta/fuse.py:fuse", "ranx/meta/evaluate.py:evaluate"]}
{"id": "C164", "title": "A run that retrieved nothing for a query does not count", "statement": "If a run has an entry without docs for a query (as make_comparable writes for queries a run lacks), then fuse gives for that query the same docs with the same scores in the same order whether or not that run is in the list, for anz, gmnz, max, med, min, mnz, sum, isr, log_isr, logn_isr, rbc and rrf, and for wsum, wmnz, mixed, mapfuse, posfuse, probfuse, segfuse and slidefuse when the run's weight or table is left out too.", "quantifier": "all lists of runs, all positions of the silent run, all parameters, all normalizations except borda, all schedules; max and min without normalization and with scores within one billion", "why_tests_cant": "a test fuses a few runs; the claim is for every list of runs, every position and every value of the parameters", "anchors": ["ranx/fusion/comb_sum.py:_comb_sum", "ranx/fusion/wsum.py:_weighted_sum", "ranx/fusion/mixed.py:_mixed", "ranx/fusion/probfuse.py:_prob_score", "ranx/fusion/slidefuse.py:_slide_score", "ranx/meta/fuse.py:fuse"]}
{"id": "C165", "title": "A doc's fused score depends only on what the runs say about that doc", "statement": "Without normalization, if two lists of runs agree on one doc of a query, fuse gives the doc the same score in both cases, whatever other docs the runs retrieved, whatever their scores, and whatever the other queries hold: for anz, gmnz, max, med, min, mnz, sum, wsum, wmnz and mixed agreeing means that run by run the doc has the same score or is missing in both; for isr, log_isr, logn_isr, rbc, rrf, mapfuse and posfuse it means that run by run the doc is listed at the same rank or is missing in both. So adding or removing other docs can never change how two docs compare.", "quantifier": "all pairs of lists of valid runs, all queries and docs, all parameters, schedules and sorting algorithms, different ones in the two calls", "why_tests_cant": "a test fuses given runs; the claim compares the fusions of all pairs of lists that share a doc's scores", "anchors": ["ranx/fusion/common.py", "ranx/fusion/comb_sum.py", "ranx/fusion/wmnz.py", "ranx/fusion/rrf.py", "ranx/fusion/posfuse.py", "ranx/meta/fuse.py:fuse"]}
{"id": "C166", "title": "A run with weight zero only contributes its docs to wsum", "statement": "When a run has weight 0 in wsum, every doc that another run retrieved gets the same fused score as in the fusion without that run and its weight, and the docs only that run retrieved get the score 0, with every normalization except borda. If only one run has a weight w other than 0 (and there is no normalization), its docs get w times its scores and every other doc gets 0: the extreme weightings that optimize_fusion tries are the single runs.", "quantifier": "all lists of runs, all positions, all weights, all queries and docs, all schedules", "why_tests_cant": "a test tries a few weights on a few runs; the claim is for every list of runs and weights", "anchors": ["ranx/fusion/wsum.py:_weighted_sum", "ranx/meta/fuse.py:fuse", "ranx/fusion_optimization/optimize_weights.py:optimize_weights"]}
{"id": "C167", "title": "When the runs rank the same docs, tuned wsum is at least as good as each of them", "statement": "If a run has no two docs of a query with the same score and the other runs rank, per query, only docs it ranks too, then optimize_fusion with wsum, the default search arguments and no normalization or min-max, max, sum or zmuv returns weights with which the fused run scores at least as well as that run, on the qrels the search was given. So for runs that re-rank the same candidates tuning never loses to the best single run.", "quantifier": "all numbers of runs of any size, qrels, metrics that are never negative, the five normalizations, every run of the list, evaluation settings and schedules", "why_tests_cant": "The candidates are an enumerated product of float tenths whose float sum must equal 1; that the n unit vectors are among them for every n, and that normalizing, weighting and sorting with one of them reproduces the ranking of the run, is a statement about every n and every content.", "anchors": ["ranx/meta/optimize_fusion.py:optimize_fusion", "ranx/fusion/wsum.py:wsum"]}
{"id": "C168", "title": "When the runs rank the same docs, the weights of wmnz have no effect", "statement": "If all runs have the same docs per query, fuse with wmnz and weights ws gives every doc its unweighted sum score times the sum of all weights. So if no two docs of a query have the same summed score, all weights with a positive sum give the same value of every metric, and optimize_fusion with wmnz and the default search arguments returns weights that score exactly what fuse with method sum scores: tuning is without effect.", "quantifier": "all numbers of runs of any size with equal doc sets, all normalizations but borda, all weight vectors, qrels, metrics that are never negative, evaluation settings and schedules", "why_tests_cant": "It is an identity over all weight vectors and all contents, and a statement about every candidate of a float grid of any dimension; a test tries a few weights and would call equal scores a coincidence.", "anchors": ["ranx/fusion/wmnz.py:wmnz", "ranx/meta/optimize_fusion.py:optimize_fusion", "ranx/fusion_optimization/optimize_weights.py:optimize_weights"]}
{"id": "C169", "title": "sum, anz, mnz and gmnz are the same method when the runs rank the same docs", "statement": "If all runs have the same docs per query, then with any normalization but borda fuse with sum, anz, mnz or gmnz with any gamma gives the same docs with scores that differ by one positive factor. So if no two docs of a query have the same summed score, the four methods get the same value of every metric, and optimize_fusion with gmnz and the default search arguments returns a gamma that scores exactly what sum scores.", "quantifier": "all numbers of runs of any size with equal doc sets, all normalizations but borda, every real gamma, qrels, metrics that are never negative, evaluation settings and schedules", "why_tests_cant": "The identity holds for every content and every gamma of a continuum; a test samples runs and sees equal scores for the ones it picked.", "anchors": ["ranx/fusion/comb_sum.py:comb_sum", "ranx/fusion/comb_anz.py:comb_anz", "ranx/fusion/comb_mnz.py:comb_mnz", "ranx/fusion/comb_gmnz.py:comb_gmnz", "ranx/fusion_optimization/optimize_comb_gmnz.py"]}
{"id": "C170", "title": "isr, log_isr and logn_isr are the same method when the runs rank the same docs", "statement": "If all runs have the same docs per query, then with any normalization but borda fuse with isr, log_isr or logn_isr with any accepted sigma gives the same docs with scores that differ by one positive factor. So if no two docs of a query have the same isr score, the three methods get the same value of every metric, and optimize_fusion with logn_isr and the default search arguments returns a sigma that scores exactly what isr scores.", "quantifier": "all numbers of runs (two or more) of any size with equal doc sets, all normalizations but borda, every sigma in [0, 1], qrels, metrics that are never negative, evaluation settings and schedules", "why_tests_cant": "The identity holds for every content and every sigma of a continuum; it also rests on log(n) and log(n + sigma) being positive for every number of runs.", "anchors": ["ranx/fusion/isr.py:isr", "ranx/fusion/log_isr.py:log_isr", "ranx/fusion/logn_isr.py:logn_isr", "ranx/fusion_optimization/optimize_logn_isr.py"]}
{"id": "C171", "title": "A larger search space never gives a worse result", "statement": "If a second optimize_fusion call of the same method tries all configurations of the first (a wider range of k for rrf with a step that divides the first one, a finer decimal step of the weights) and both succeed, then it returns parameters whenever the first does and fusing with them evaluates at least as well.", "quantifier": "all runs, qrels, normalizations, metrics, ranges and steps of rrf, decimal steps of the weights in binary64 (up to 2^30 runs), the five weighted methods", "why_tests_cant": "The finer grid must contain the coarser one as floats, with float sums that still equal 1, for every step and number of runs, and the search loop must keep the best over every list of scores; tests compare two grids.", "anchors": ["ranx/meta/optimize_fusion.py:optimize_fusion", "ranx/fusion_optimization/optimize_weights.py:optimize_weights", "ranx/fusion_optimization/optimize_rrf.py:optimize_rrf"]}
{"id": "C172", "title": "When the runs rank the same docs, bordafuse orders by mean rank", "statement": "When all runs rank the same docs for each query (and list their queries in the same order, as freshly built runs do), bordafuse gives a doc of a query with n docs the points n * (number of runs) minus the sum of its 0-based positions, so it orders by mean rank; fuse(runs, norm='rank', method='sum') gives the n-th part of these points, and evaluate gives both fused runs the same value of every metric if no two docs of a query have the same points.", "quantifier": "All lists of runs with the same queries in the same order and the same docs, all doc counts per query, schedules, set orders, judgements and metrics", "why_tests_cant": "An equality between two different code paths (a set-based rescoring and a normalization followed by a sum) over all rankings; tests compare each with literals.", "anchors": ["ranx/fusion/bordafuse.py:bordafuse", "ranx/normalization/rank_norm.py:_rank_norm", "ranx/fusion/comb_sum.py:_comb_sum", "ranx/meta/fuse.py:fuse"]}
{"id": "C173", "title": "When the runs rank the same docs, borda normalization is rank normalization", "statement": "When all runs rank the same docs for each query (and list their queries in the same order, as freshly built runs do), fuse with norm='borda' returns the same queries, docs and scores as fuse with norm='rank', for sum, mnz and wsum with any weights.", "quantifier": "All lists of runs with the same queries in the same order and the same docs, all weights, schedules and set orders", "why_tests_cant": "Relates two normalizations that compute ranks in different ways (over the pool of all runs through a set, and per run); tests compare each with literals for one input.", "anchors": ["ranx/normalization/borda_norm.py:_borda_norm", "ranx/normalization/rank_norm.py:_rank_norm", "ranx/meta/fuse.py:fuse"]}
{"id": "C174", "title": "A whole-number weight is repetition", "statement": "fuse(runs, norm, 'wsum', weights=[m1, m2, ...]) with whole numbers m >= 1 returns the same queries, docs and scores as fuse with method 'sum' on the list in which the i-th run is repeated m_i times, for every normalization except borda; and w_bordafuse with these weights returns what bordafuse returns on the repeated list, if the runs list their queries in the same order.", "quantifier": "All lists of two or more runs, all whole weights >= 1, all normalizations except borda, all schedules and set orders of the two calls", "why_tests_cant": "Relates two calls with different methods and differently long lists of runs; tests fuse two or three fixed runs.", "anchors": ["ranx/fusion/wsum.py:_weighted_sum", "ranx/fusion/comb_sum.py:_comb_sum", "ranx/fusion/weighted_bordafuse.py:weighted_bordafuse", "ranx/fusion/bordafuse.py:bordafuse", "ranx/meta/fuse.py:fuse"]}
