{"id": "C01", "title": "is_nondominated(keep_weakly=true) is exact", "statement": "is_nondominated(data, maximise, keep_weakly=true) flags row i true if and only if no row of data dominates row i (is at least as good in every objective and strictly better in one, each objective read as minimised or maximised as requested).", "quantifier": "all numbers of objectives >= 1, all numbers of points, all data (with ties and duplicates), all maximise vectors, every order in which qsort may leave equal points", "why_tests_cant": "The domain is every finite set of points of every size and dimension with every pattern of ties; a test samples a handful of sets.", "anchors": ["c/nondominated.h:is_nondominated", "c/nondominated.h:find_nondominated_set_", "c/nondominated.h:find_nondominated_set_keep_weakly_2d_"]}
{"id": "C02", "title": "is_nondominated(keep_weakly=false) keeps one copy of every nondominated vector", "statement": "is_nondominated(data, maximise, keep_weakly=false) never flags a dominated row, and for every nondominated objective vector occurring in data exactly one of its copies is flagged (the last copy when the number of objectives is not 2).", "quantifier": "all numbers of objectives >= 1, all data, all maximise vectors, every tie order of qsort", "why_tests_cant": "The domain is every finite set of points of every size and dimension with every pattern of ties; a test samples a handful of sets.", "anchors": ["c/nondominated.h:find_nondominated_set_", "c/nondominated.h:find_nondominated_set_delete_weakly_2d_"]}
{"id": "C03", "title": "The 2-objective fast path gives the answer of the general algorithm", "statement": "For two objectives the sort-and-scan algorithm and the general pairwise algorithm flag the same rows with keep_weakly=true, and flag the same objective vectors the same number of times with keep_weakly=false.", "quantifier": "all 2-objective data sets and maximise vectors, every tie order of qsort", "why_tests_cant": "The two algorithms share no code; equality must hold for every tie pattern and every permutation the sort may produce.", "anchors": ["c/nondominated.h:find_nondominated_set_", "c/nondominated.h:find_nondominated_set_keep_weakly_2d_", "c/nondominated.h:find_nondominated_set_delete_weakly_2d_"]}
{"id": "C04", "title": "Filtering dominated points loses nothing and is idempotent", "statement": "The rows kept by is_nondominated are pairwise mutually nondominated, every row is weakly dominated by some kept row, at least one row is kept from a non-empty set, and filtering the kept rows again keeps all of them.", "quantifier": "all data sets, dimensions, maximise vectors, both values of keep_weakly", "why_tests_cant": "The domain is every finite set of points of every size and dimension with every pattern of ties; a test samples a handful of sets.", "anchors": ["c/nondominated.h:is_nondominated", "python/src/moocore/_moocore.py:filter_dominated"]}
{"id": "C05", "title": "The nondominated-set functions return the number of nondominated points", "statement": "find_nondominated_set / find_weak_nondominated_set return the number of flags left true, so get_nondominated_set allocates exactly the room for the rows it copies and returns exactly the flagged rows in their original order.", "quantifier": "all data sets with any number of objectives and at least 0 points", "why_tests_cant": "The returned count sizes a heap block; a wrong count corrupts memory only for particular shapes of input.", "anchors": ["c/nondominated.h:find_nondominated_set", "c/nondominated.h:get_nondominated_set"]}
{"id": "C06", "title": "find_dominated_point is sound and complete", "statement": "find_dominated_point returns -1 if and only if all points are pairwise different and mutually nondominated; otherwise it returns the 0-based index of a point that is weakly dominated by another point of the set.", "quantifier": "all data sets of any size and dimension", "why_tests_cant": "The domain is every finite set of points of every size and dimension with every pattern of ties; a test samples a handful of sets.", "anchors": ["c/nondominated.h:find_dominated_point", "c/nondominated.h:find_dominated_2d_", "c/dominatedsets.c:main"]}
{"id": "C07", "title": "Maximising an objective is minimising its negation", "statement": "is_nondominated with an objective marked as maximised gives the same flags as is_nondominated on the data with that column negated and the objective minimised; mixed vectors likewise.", "quantifier": "all data over an ordered additive group, all maximise vectors, all dimensions", "why_tests_cant": "The domain is every finite set of points of every size and dimension with every pattern of ties; a test samples a handful of sets.", "anchors": ["c/nondominated.h:force_agree_minimize", "c/nondominated.h:agree_objectives", "c/common.h:minmax_from_bool"]}
{"id": "C08", "title": "pareto_rank peels fronts", "statement": "pareto_rank(data) assigns to each row the index (from 1) of the front it belongs to in nondominated sorting: rank r iff it is not dominated by any row that remains after removing fronts 1..r-1.", "quantifier": "all data sets of every size, any number of objectives", "why_tests_cant": "The in-place rank updates interleave with the scan; correctness needs an invariant over all scan orders and all dominance patterns.", "anchors": ["c/pareto.c:pareto_rank", "c/pareto.c:dominates"]}
{"id": "C09", "title": "The 2-objective pareto_rank equals the general one", "statement": "For two objectives pareto_rank's sort + binary search algorithm gives exactly the ranks of the general algorithm, for every permutation of equal points the sort may produce; none of its internal assertions can fail.", "quantifier": "all 2-objective data sets with at least one point", "why_tests_cant": "The domain is every finite set of points of every size and dimension with every pattern of ties; a test samples a handful of sets.", "anchors": ["c/pareto.c:pareto_rank_2D"]}
{"id": "C10", "title": "pareto_rank respects dominance", "statement": "If row i dominates row j then rank(i) < rank(j); equal rows have equal ranks; rank(i)=1 iff is_nondominated(keep_weakly=true) flags i; every rank between 1 and the maximum is used.", "quantifier": "all data sets", "why_tests_cant": "The domain is every finite set of points of every size and dimension with every pattern of ties; a test samples a handful of sets.", "anchors": ["c/pareto.c:pareto_rank", "c/pareto.c:pareto_rank_2D"]}
{"id": "C11", "title": "The 2-objective hypervolume is the area of the dominated region", "statement": "fpli_hv with two objectives returns the Lebesgue measure of the set of points that are weakly dominated by some input point and weakly dominate the reference point.", "quantifier": "all finite sets of 2-objective real points (with duplicates, dominated points, and points outside the reference box) and all reference points, exact arithmetic, every tie order of qsort", "why_tests_cant": "Requires an equation between an algorithm's output and a measure for every input.", "anchors": ["c/hv.c:hv2d", "c/hv.c:fpli_hv"]}
{"id": "C12", "title": "The 3-objective hypervolume is the volume of the dominated region", "statement": "fpli_hv with three objectives returns the Lebesgue measure of the union of the boxes between the input points and the reference point.", "quantifier": "all finite sets of 3-objective real points and all reference points, exact arithmetic, every tie order of qsort", "why_tests_cant": "The dimension sweep with an AVL tree of a 2-D front must be right for every insertion order and tie pattern.", "anchors": ["c/hv.c:fpli_hv3d_ref", "c/hv.c:setup_cdllist", "c/hv.c:fpli_hv"]}
{"id": "C13", "title": "The hypervolume in any number of objectives is the volume of the dominated region", "statement": "fpli_hv with d >= 2 objectives returns the Lebesgue measure of the union of the boxes between the input points and the reference point.", "quantifier": "all d >= 2, all finite sets of real points, all reference points, exact arithmetic", "why_tests_cant": "The recursion caches areas and volumes, skips points through 'ignore' marks and relies on bounds; any stale cache is wrong only on special inputs.", "anchors": ["c/hv.c:hv_recursive_ref", "c/hv.c:fpli_hv3d_ref", "c/hv.c:filter_ref", "c/hv.c:fpli_hv"]}
{"id": "C14", "title": "Hypervolume depends only on the set of nondominated points strictly inside the reference box", "statement": "The value returned by fpli_hv does not change when rows are permuted, duplicated, or when dominated rows or rows not strictly better than the reference in every objective are added or removed.", "quantifier": "all point sets, reference points and permutations", "why_tests_cant": "The domain is every finite set of points of every size and dimension with every pattern of ties; a test samples a handful of sets.", "anchors": ["c/hv.c:fpli_hv"]}
{"id": "C15", "title": "Hypervolume is strictly Pareto-compliant", "statement": "If every point of B is weakly dominated by a point of A then hv(A) >= hv(B); if moreover some point of A strictly inside the reference box is not weakly dominated by any point of B then hv(A) > hv(B). hv is 0 iff no point is strictly better than the reference in all objectives.", "quantifier": "all pairs of finite point sets and all reference points", "why_tests_cant": "The domain is every finite set of points of every size and dimension with every pattern of ties; a test samples a handful of sets.", "anchors": ["c/hv.c:fpli_hv"]}
{"id": "C16", "title": "Hypervolume contributions are the exclusive volumes", "statement": "hv_contributions returns, for each row, the volume dominated by the set minus the volume dominated by the set without this row (values below the documented threshold in absolute value set to 0); contributions are nonnegative and zero for dominated and duplicated rows.", "quantifier": "all point sets, all reference points, exact arithmetic", "why_tests_cant": "The domain is every finite set of points of every size and dimension with every pattern of ties; a test samples a handful of sets.", "anchors": ["c/hv_contrib.c:hv_contributions", "c/hv_contrib.c:hv_1point_diffs"]}
{"id": "C17", "title": "The additive epsilon indicator is the least shift that makes A weakly dominate the reference set", "statement": "epsilon_additive(A,R) is the least e such that every r in R is weakly dominated by some a in A after improving every objective of a by e.", "quantifier": "all non-empty A, R, all numbers of objectives >= 1, all maximise vectors, exact arithmetic", "why_tests_cant": "The domain is every finite set of points of every size and dimension with every pattern of ties; a test samples a handful of sets.", "anchors": ["c/epsilon.h:epsilon_additive_minmax", "c/epsilon.h:epsilon_additive"]}
{"id": "C18", "title": "The multiplicative epsilon indicator is the least factor that makes A weakly dominate the reference set", "statement": "epsilon_mult(A,R) is the least factor e>0 such that dividing minimised and multiplying maximised objectives of A by e makes every r in R weakly dominated by some a; it reports an error exactly when a compared value is <= 0.", "quantifier": "all non-empty A, R with any values, all dimensions and maximise vectors, exact arithmetic", "why_tests_cant": "The domain is every finite set of points of every size and dimension with every pattern of ties; a test samples a handful of sets.", "anchors": ["c/epsilon.h:epsilon_mult_minmax", "c/epsilon.h:epsilon_mult"]}
{"id": "C19", "title": "epsilon_additive_ind decides better-ness of sets", "statement": "epsilon_additive_ind returns -1 iff A weakly dominates B as a set and not conversely, 1 for the converse, and 0 otherwise.", "quantifier": "all non-empty sets", "why_tests_cant": "The domain is every finite set of points of every size and dimension with every pattern of ties; a test samples a handful of sets.", "anchors": ["c/epsilon.h:epsilon_additive_ind", "c/dominatedsets.c:pareto_better"]}
{"id": "C20", "title": "IGD and GD compute the averaged nearest distances", "statement": "IGD(A,R) is the mean over r in R of the least Euclidean distance to a point of A and GD the converse; both are >= 0, IGD is 0 iff every r occurs in A; avg_Hausdorff_dist is the larger of the two p-averages and is symmetric in its arguments.", "quantifier": "all non-empty sets, dimensions, p >= 1, exact arithmetic", "why_tests_cant": "The domain is every finite set of points of every size and dimension with every pattern of ties; a test samples a handful of sets.", "anchors": ["c/igd.h:gd_common", "c/igd.h:IGD", "c/igd.h:avg_Hausdorff_dist"]}
{"id": "C21", "title": "IGD+ is weakly Pareto-compliant", "statement": "If A weakly dominates B as a set then IGD_plus(A,R) <= IGD_plus(B,R); IGD_plus(A,R)=0 iff every r in R is weakly dominated by a point of A.", "quantifier": "all non-empty A,B,R, dimensions, maximise vectors", "why_tests_cant": "The domain is every finite set of points of every size and dimension with every pattern of ties; a test samples a handful of sets.", "anchors": ["c/igd.h:gd_common", "c/igd.h:IGD_plus"]}
{"id": "C22", "title": "normalise maps bounds to the target range and keeps dominance", "statement": "agree_normalise maps each objective affinely so that lower bound -> to_range[0] and upper bound -> to_range[1] (reversed for maximised objectives), values inside the bounds stay inside the range, and when to_range is increasing, row i dominates row j before iff it dominates it (as minimisation) afterwards.", "quantifier": "all data, bounds with lower<=upper, ranges, maximise vectors, exact arithmetic", "why_tests_cant": "The domain is every finite set of points of every size and dimension with every pattern of ties; a test samples a handful of sets.", "anchors": ["c/nondominated.h:normalise", "c/nondominated.h:agree_normalise", "c/nondominated.h:agree_objectives"]}
{"id": "C23", "title": "eaf in two objectives returns exactly the minimal points attained by at least k runs", "statement": "The points returned by eaf2d for attainment level k are exactly the minimal elements (without repetition) of the set of vectors weakly dominated by points of at least k of the runs.", "quantifier": "all numbers of runs, run sizes, levels 1..nruns, all 2-objective data with ties", "why_tests_cant": "Sweep over two sorted orders with per-run counters; ties across runs and coordinates form infinitely many patterns.", "anchors": ["c/eaf.c:eaf2d", "c/eaf.h:attsurf"]}
{"id": "C24", "title": "The attainment indicators of each EAF point are right", "statement": "For every point that eaf2d returns, indicator bit r is set iff run r has a point weakly dominating it; at least k bits are set at level k.", "quantifier": "all inputs of eaf2d", "why_tests_cant": "The domain is every finite set of points of every size and dimension with every pattern of ties; a test samples a handful of sets.", "anchors": ["c/eaf.c:eaf2d", "c/eaf.c:eaf_store_point_help", "c/bit_array.h:bit_array_set"]}
{"id": "C25", "title": "EAF surfaces are sorted, mutually nondominated and nested", "statement": "Within a level the points are strictly increasing in the first and strictly decreasing in the second objective, and every point of level k+1 is weakly dominated by some point of level k.", "quantifier": "all inputs of eaf2d", "why_tests_cant": "The domain is every finite set of points of every size and dimension with every pattern of ties; a test samples a handful of sets.", "anchors": ["c/eaf.c:eaf2d"]}
{"id": "C26", "title": "Percentiles and attainment levels correspond", "statement": "percentile2level is monotone, maps into 1..n for p in [0,100], is the least level whose percentile is at least p (up to the stated tolerance), and percentile2level(level2percentile(k,n),n) = k.", "quantifier": "all n >= 1, 1<=k<=n, all real p in [0,100], exact arithmetic", "why_tests_cant": "Real-valued percentiles and unbounded n.", "anchors": ["c/eaf.h:percentile2level", "c/eaf.h:level2percentile", "c/eaf.h:levels_from_percentiles"]}
{"id": "C27", "title": "EAF differences count attaining sets on each side", "statement": "The value attached by eafdiff_compute_matrix / eafdiff_compute_rectangles to a point with attainment indicator is intervals*(#left attained/#left - #right attained/#right); it lies in [-intervals, intervals] and is antisymmetric when the two sides (of equal number of sets) are exchanged.", "quantifier": "all attainment vectors and numbers of sets", "why_tests_cant": "The domain is every finite set of points of every size and dimension with every pattern of ties; a test samples a handful of sets.", "anchors": ["c/eaf.h:eafdiff_percentile", "c/eaf.h:attained_left_right", "c/eafdiff.c:eafdiff_compute_matrix", "c/eaf.c:eaf_diff_color"]}
{"id": "C28", "title": "Bit arrays behave as arrays of bits", "statement": "bit_array_get after bit_array_set at the same position returns the stored value and at other positions (including in other rows of a packed matrix of bit arrays) the old value, for every length, including those crossing 64-bit word boundaries; no access leaves the allocated words.", "quantifier": "all numbers of bits, rows, positions and histories of sets", "why_tests_cant": "Word-boundary arithmetic over unbounded sizes and histories.", "anchors": ["c/bit_array.h:bit_array_set", "c/bit_array.h:bit_array_get", "c/bit_array.h:bit_array_offset"]}
{"id": "C29", "title": "Growable vectors behave as lists", "statement": "Any history of push_back, pop_back, reserve, set and at on a cvector gives what the same operations give on a list, and never writes outside the allocated capacity.", "quantifier": "all finite histories of operations", "why_tests_cant": "All histories.", "anchors": ["c/cvector.h:vector_define"]}
{"id": "C30", "title": "Matrix transposition and EAF matrix layout", "statement": "matrix_transpose_double writes element (i,j) of an nrows x ncols row-major matrix to position (j,i) of the result, for all i,j, writing every cell once; eaf2matrix (row major) and eaf2matrix_R (column major) hold the same table.", "quantifier": "all matrix sizes and contents", "why_tests_cant": "The domain is every finite set of points of every size and dimension with every pattern of ties; a test samples a handful of sets.", "anchors": ["c/common.h:matrix_transpose_double", "c/eaf.c:eaf2matrix", "c/eaf.c:eaf2matrix_R"]}
{"id": "C31", "title": "Reading data sets recovers exactly what was written", "statement": "Reading the text produced by writing a list of non-empty sets (one point per line, sets separated by a blank line) yields the same points, the same number of objectives and the cumulative set sizes; comment lines and extra blank lines before, between or after the sets change nothing.", "quantifier": "all lists of non-empty sets of any size with any number of objectives", "why_tests_cant": "Parsers have unbounded inputs; round-trip must hold for each.", "anchors": ["c/io_priv.h:read_objective_t_data", "c/io.c:write_sets", "c/io.c:skip_comment_line"]}
{"id": "C32", "title": "Malformed input is rejected with the right error", "statement": "read_datasets rejects a file with no numbers as empty, a row with a different number of columns with a column error and a non-numeric token with a conversion error, and accepts only files where every row has the same number of columns.", "quantifier": "all character sequences", "why_tests_cant": "Unbounded input language.", "anchors": ["c/io_priv.h:read_objective_t_data", "c/io.h"]}
{"id": "C33", "title": "read_datasets numbers the sets", "statement": "read_datasets returns one row per input point with a final column holding the 1-based number of the set it was read from.", "quantifier": "all data and cumulative sizes with non-empty sets", "why_tests_cant": "The domain is every finite set of points of every size and dimension with every pattern of ties; a test samples a handful of sets.", "anchors": ["c/io.c:read_datasets", "r/src/Rmoocore.c:R_read_datasets"]}
{"id": "C34", "title": "The weighted hypervolume of rectangles is the weighted area of the intersection", "statement": "rect_weighted_hv2d returns the sum over the given rectangles of weight times the area of the part of the rectangle (clipped to the reference) that is dominated by the input points.", "quantifier": "all mutually nondominated point sets, rectangles with lower<upper and reference points, exact arithmetic", "why_tests_cant": "Two interleaved sorted sweeps with early termination.", "anchors": ["c/whv.c:rect_weighted_hv2d", "c/whv.c:whv_preprocess_rectangles"]}
{"id": "C35", "title": "The HypE estimate is the dominated fraction of the samples", "statement": "For any list of samples, estimate_whv returns the number of samples weakly dominated by some point divided by the number of samples; the estimate is between 0 and the box volume and monotone in the point set.", "quantifier": "all samples and point sets", "why_tests_cant": "The domain is every finite set of points of every size and dimension with every pattern of ties; a test samples a handful of sets.", "anchors": ["c/whv_hype.c:estimate_whv", "c/whv_hype.c:whv_hype_sample", "c/whv_hype.c:whv_hype_estimate"]}
{"id": "C36", "title": "AVL insertion and deletion keep the in-order sequence and the balance", "statement": "For every tree reachable by the library's insert/delete operations, inserting before/after a node or deleting a node changes the in-order sequence exactly as the list operation does, keeps parent/child/next/prev links consistent and keeps every node's subtree depths within 1.", "quantifier": "all reachable trees, all nodes", "why_tests_cant": "Rotations have many cases and unbounded tree shapes.", "anchors": ["c/avl.c:avl_insert_before", "c/avl.c:avl_unlink_node", "c/avl.c:avl_rebalance", "c/hv.c"]}
{"id": "C37", "title": "AVL search finds the neighbour", "statement": "On a tree whose in-order sequence is sorted, the closest-search returns a node that compares equal if one exists, otherwise the neighbouring predecessor or successor with the right sign.", "quantifier": "all sorted trees and keys", "why_tests_cant": "The domain is every finite set of points of every size and dimension with every pattern of ties; a test samples a handful of sets.", "anchors": ["c/avl.c:avl_search_closest", "c/hv.c:avl_search_closest"]}
{"id": "C38", "title": "Bounding a data set keeps exactly the points within bounds", "statement": "force_bounds keeps, per set, exactly the rows within the bounds in their original order and updates the cumulative sizes accordingly; data_bounds returns the componentwise minimum and maximum.", "quantifier": "all data, bounds and partitions into sets", "why_tests_cant": "The domain is every finite set of points of every size and dimension with every pattern of ties; a test samples a handful of sets.", "anchors": ["c/nondominated.c:force_bounds", "c/nondominated.c:data_bounds", "c/main-hv.c:data_bounds"]}
{"id": "C39", "title": "Comparison of sets by dominance is consistent", "statement": "set_dominates/pareto_better report A better than B iff every point of B is weakly dominated by a point of A and the sets differ as fronts; the relation is a strict partial order on nondominated sets and the consistency check against the epsilon indicator can never abort.", "quantifier": "all pairs/triples of duplicate-free mutually nondominated sets", "why_tests_cant": "The domain is every finite set of points of every size and dimension with every pattern of ties; a test samples a handful of sets.", "anchors": ["c/dominatedsets.c:dominance", "c/dominatedsets.c:set_dominates", "c/dominatedsets.c:pareto_better", "c/dominatedsets.c:cmpparetos"]}
{"id": "C40", "title": "Within-set filtering treats each set separately and keeps row order", "statement": "is_nondominated_within_sets returns for each row the flag is_nondominated gives it inside its own set, whatever the order and interleaving of set labels.", "quantifier": "all data and label vectors", "why_tests_cant": "The domain is every finite set of points of every size and dimension with every pattern of ties; a test samples a handful of sets.", "anchors": ["python/src/moocore/_moocore.py:is_nondominated_within_sets", "python/src/moocore/_moocore.py:filter_dominated_within_sets"]}
{"id": "C41", "title": "The Vorob'ev deviation is a mean symmetric difference and never negative", "statement": "vorobDev equals the mean over the sets of the volume of the symmetric difference between the regions dominated by the set and by VE (inside the reference box); it is >= 0.", "quantifier": "all collections of non-empty sets, all VE and references, exact arithmetic", "why_tests_cant": "The domain is every finite set of points of every size and dimension with every pattern of ties; a test samples a handful of sets.", "anchors": ["python/src/moocore/_moocore.py:vorobDev", "r/R/vorob.R:vorobDev"]}
{"id": "C42", "title": "EAF in three objectives returns exactly the minimal points attained by at least k runs", "statement": "The points stored by eaf3d for attainment level k are, without repetition, exactly the minimal elements of the set of vectors weakly dominated by points of at least k runs; the indicators stored with a point are set for exactly the runs that have a point weakly dominating it; and eaf3d finishes without using a null pointer, an uninitialised value or a removed node.", "quantifier": "all numbers of runs, run sizes, levels 1..nruns and all 3-objective data whose first two coordinates are finite, with ties, and every order qsort may give to ties", "why_tests_cant": "Sweep with per-level trees; unbounded inputs.", "anchors": ["c/eaf3d.c:eaf3d", "c/eaf3d.c:add2level"]}
{"id": "C43", "title": "EAF-difference rectangles tile the region between surfaces", "statement": "The rectangles returned by eaf_compute_rectangles have disjoint interiors, lie where exactly the given level is attained, and their colour is the difference between left and right attaining runs in their interior.", "quantifier": "all 2-objective EAFs", "why_tests_cant": "The domain is every finite set of points of every size and dimension with every pattern of ties; a test samples a handful of sets.", "anchors": ["c/eaf.c:eaf_compute_rectangles", "c/eaf.c:rectangle_add"]}
{"id": "C44", "title": "minmax strings select the direction of every objective", "statement": "read_minmax accepts exactly the non-empty strings over '+', '-', 'i', '0' that do not ignore every objective; character k sets the direction of objective k ('+' maximise, '-' minimise, '0'/'i' ignore) and, when the string is shorter than the number of objectives, directions repeat cyclically; read_bitvector accepts exactly strings over '0','1'.", "quantifier": "all strings and numbers of objectives", "why_tests_cant": "Unbounded strings and numbers of objectives.", "anchors": ["c/io.h:read_minmax", "c/io.h:read_bitvector"]}
{"id": "C45", "title": "Extreme points are flagged once per objective and direction", "statement": "calculate_uev flags exactly the rows that are, for some objective, the first row attaining the given upper bound or the first row attaining the given lower bound of that objective.", "quantifier": "all data, bounds, sizes and dimensions", "why_tests_cant": "Unbounded data with ties.", "anchors": ["c/ndsort.c:calculate_uev"]}
{"id": "C46", "title": "Ignored objectives do not influence dominance", "statement": "When a direction vector marks some objectives as ignored, find_nondominated_set / find_weak_nondominated_set decide dominance on the remaining objectives only: a row is flagged (keeping weakly dominated rows) iff no row dominates it in the objectives that are not ignored.", "quantifier": "all data sets, numbers of objectives and direction vectors over {minimise, maximise, ignore}", "why_tests_cant": "Unbounded sets, and the two-objective path is different code from the general path.", "anchors": ["c/nondominated.h:find_nondominated_set_", "c/nondominated.h:force_agree_minimize"]}
{"id": "C47", "title": "With a stable sort the hypervolume is exact in every dimension", "statement": "If the C library's qsort keeps the order of points that compare equal (or if no two points agree in an objective), fpli_hv with d >= 2 objectives returns exactly the Lebesgue measure of the region dominated by the points and bounded by the reference point.", "quantifier": "all d >= 2, all finite sets of real points including repeated points and ties, all reference points, all contents of uninitialised memory, exact arithmetic", "why_tests_cant": "Whether cached areas, ignore marks and bounds are ever stale depends on the pattern of ties over all coordinates; every number of points and objectives is possible.", "anchors": ["c/hv.c:hv_recursive_ref", "c/hv.c:setup_cdllist", "c/hv.c:fpli_hv"]}
{"id": "C48", "title": "The Vorob'ev threshold is the percentile at which the quantile hypervolume crosses the mean", "statement": "vorobT returns a percentile whose EAF quantile has hypervolume at least the mean hypervolume of the sets while every strictly higher EAF level has a hypervolume that does not exceed it, and it always returns.", "quantifier": "all collections of non-empty sets and all reference points, exact arithmetic", "why_tests_cant": "The loop is a bisection whose stopping rule compares successive hypervolumes; whether it stops, and where, depends on every pattern of equal hypervolumes among the levels.", "anchors": ["python/src/moocore/_moocore.py:vorobT", "r/R/vorob.R:vorobT"]}
{"id": "C49", "title": "whv_hype with maximised objectives is the mirror image of minimisation", "statement": "whv_hype(data, ref, ideal, maximise) returns the area of the box between ideal and ref times the fraction of the samples (drawn in that box from the chosen distribution, around mu for 'point') that are weakly dominated by a data point with respect to the given directions.", "quantifier": "all data, boxes, directions, distributions, sample counts and generator states, exact arithmetic", "why_tests_cant": "The result depends on every sample and on the joint treatment of data, box and distribution parameters for each of the combinations of directions.", "anchors": ["python/src/moocore/_moocore.py:whv_hype", "r/R/whv.R:whv_hype", "c/whv_hype.c:whv_hype_gaus"]}
{"id": "C50", "title": "The epsilon indicators are correctly rounded in double precision", "statement": "Computed in IEEE double precision, the additive and multiplicative epsilon indicators are the exact indicators rounded once; for data given as doubles the additive one is at most 0, and the multiplicative one at most 1, exactly if the set weakly dominates the reference set, and the epsilon comparison of two sets gives the exact answer. Errors are reported in exactly the same cases as with exact arithmetic.", "quantifier": "all finite sets of points, all directions, every way to break ties in rounding to nearest (no overflow)", "why_tests_cant": "Rounding errors depend on every bit of the data; that no combination of inputs accumulates an error or flips the sign needs monotonicity of rounding and the spacing of doubles for all exponents.", "anchors": ["c/epsilon.h:epsilon_additive_minmax", "c/epsilon.h:epsilon_mult_minmax", "c/epsilon.h:epsilon_additive_ind"]}
{"id": "C51", "title": "Percentiles and attainment levels convert correctly in double precision", "statement": "With rounding after each operation, the percentile of level k of n runs is converted back to level k for n up to 2^24, also for the percentiles that are used by default; for a percentile between 0 and 100 no assertion fails, the level is between 1 and n, it is never larger than a level whose percentile reaches the requested one, it falls short of it by at most three tolerances, and it is monotone in the percentile.", "quantifier": "all percentiles in [0,100], all levels and numbers of runs in the stated range, every rounding to nearest", "why_tests_cant": "There are too many pairs (level, runs) and percentiles to try; whether the tolerance absorbs the roundings is an inequality over all of them.", "anchors": ["c/eaf.h:level2percentile", "c/eaf.h:percentile2level", "c/eaf.h:all_percentiles"]}
{"id": "C52", "title": "The 2D hypervolume in double precision: error bound, sign, and independence of order and dominated points", "statement": "For two objectives the computed hypervolume is within the factor (1 \u00b1 2^-53)^(n+3) of the area if no product underflows, it is never negative, and as a double it depends neither on the order of the points, nor on how the sort orders equal points, nor on points that are weakly dominated by others.", "quantifier": "all numbers of points, all data and reference points in double precision, all sort outcomes, every rounding to nearest", "why_tests_cant": "The accumulated error depends on all points, and the independence claims quantify over all permutations and all roundings.", "anchors": ["c/hv.c:hv2d"]}
{"id": "C53", "title": "IGD and IGD+ in double precision: error bound and Pareto compliance", "statement": "In double precision IGD and IGD+ are within the factor (1 \u00b1 2^-53)^(nobj + nref + 6) of the mean distance if no square underflows; and if one set weakly dominates another one, its computed IGD+ is not larger, rounding errors included, for every reference set.", "quantifier": "all sets, reference sets, dimensions and directions, every rounding to nearest and every monotone (resp. two-rounding accurate) square root", "why_tests_cant": "Pareto compliance must hold for all pairs of sets at the level of single bits; tests compare with a tolerance.", "anchors": ["c/igd.h:gd_common", "c/igd.h:IGD", "c/igd.h:IGD_plus"]}
{"id": "C54", "title": "Normalisation in double precision", "statement": "Normalisation in double precision preserves weak dominance and maps the best bound exactly to the start of the target range; for a target range of length 1 both bounds are mapped exactly and values inside the bounds stay inside the range.", "quantifier": "all data, bounds and target ranges, every rounding to nearest", "why_tests_cant": "A single unit in the last place outside of the range, or a reversed comparison, occurs only for particular bit patterns.", "anchors": ["c/nondominated.h:normalise", "c/nondominated.h:agree_normalise", "python/src/moocore/_moocore.py:normalise"]}
{"id": "C55", "title": "hv_approx is an unbiased and consistent estimate of the hypervolume", "statement": "With independent standard normal random numbers the expected value of hv_approx is exactly the hypervolume of the set, for every number of samples, and the approximation converges to the hypervolume with probability one as the number of samples grows.", "quantifier": "all sets, numbers of objectives and points, reference points, directions and numbers of samples, provided that some point is strictly better than the reference point", "why_tests_cant": "A test of a random estimate compares a few runs with a tolerance: a wrong constant factor near 1, or a bias for some dimension or direction, passes.", "anchors": ["python/src/moocore/_moocore.py:hv_approx"]}
{"id": "C56", "title": "Every single run of hv_approx is Pareto compliant; when it returns a number", "statement": "With the same random numbers hv_approx never gives a smaller value for a set than for one that it weakly dominates, and equal values for sets that weakly dominate each other. It returns a number exactly if there is a sample, an objective, no zero direction and some point strictly better than the reference point in all objectives; otherwise it raises (although the hypervolume is 0).", "quantifier": "all pairs of sets, dimensions, reference points, directions and all sequences of random numbers", "why_tests_cant": "Pareto compliance relates all pairs of sets and all seeds.", "anchors": ["python/src/moocore/_moocore.py:hv_approx"]}
{"id": "C57", "title": "Expected value and convergence of whv_hype", "statement": "With independent uniform random numbers the expected value of whv_hype with the uniform distribution is the area of the part of the box between ideal and reference that the set dominates (the hypervolume if no point is better than ideal), and the estimate converges to it with probability one; with the exponential distribution the expected value is the box area times the probability that a sample is dominated, half the samples exponential in the first and half in the second objective.", "quantifier": "all sets, ideal and reference points, directions and numbers of samples", "why_tests_cant": "Tests of random estimates use a few seeds and a tolerance.", "anchors": ["c/whv_hype.c:whv_hype_unif", "c/whv_hype.c:whv_hype_expo", "c/whv_hype.c:estimate_whv", "python/src/moocore/_moocore.py:whv_hype"]}
{"id": "C58", "title": "The random number generator is the Mersenne twister and never leaves [0,1)", "statement": "For every seed the words of the generator are those of the MT19937 recurrence with this seed, the state array is never accessed out of bounds, the sequence is purely periodic, different seeds give different sequences (within the first 624 words), and no 624 consecutive words are all zero. rng_random returns k/2^53 with 0 <= k < 2^53, without any rounding error; so uniform samples of whv_hype always lie in the box.", "quantifier": "all 2^32 seeds, all numbers of calls, all roundings to nearest", "why_tests_cant": "Tests look at a few seeds and a few thousand numbers of a sequence whose period exceeds 10^6000.", "anchors": ["c/mt19937/mt19937.c:mt19937_seed", "c/mt19937/mt19937.c:mt19937_gen", "c/mt19937/mt19937.h:mt19937_next", "c/mt19937/mt19937.h:mt19937_next_double", "c/rng.h:rng_random"]}
{"id": "C59", "title": "R: eaf of a labelled data set is exact for any order of the rows", "statement": "eaf(x, sets, percentiles, maximise) returns, for each percentile in increasing order without repetitions (by default one for each number of sets), exactly the best points attained by at least k of the sets, each point once and followed by the percentile, where a set is all the rows with the same label wherever they are, attaining respects the objectives to maximise, and k is the least number of sets that makes up the percentile.", "quantifier": "all labels in any order, all data with 2 or 3 objectives, all subsets of objectives to maximise, all lists of percentiles in [0,100], all results of qsort", "why_tests_cant": "Tests use a few data sets read from files, whose labels are already sorted.", "anchors": ["r/R/eaf.R:eaf", "r/R/eaf.R:compute_1_eaf", "r/R/utils.R:unique_counts", "r/R/utils.R:transform_maximise", "r/src/Rmoocore.c:compute_eaf_C", "c/eaf.c:eaf2matrix_R"]}
{"id": "C60", "title": "Python: eaf of a labelled data set", "statement": "eaf(data, percentiles) returns, for each percentile in increasing order without repetitions (by default one for each number of sets), exactly the best points attained by at least k of the sets, where a set is all the rows with the same label and k is the least number of sets that makes up the percentile. (False if the labels are not in nondecreasing order: rows are then assigned to other sets.)", "quantifier": "all labels, all data with 2 or 3 objectives, all lists of percentiles in [0,100], all results of qsort", "why_tests_cant": "Tests use a few data sets read from files, whose labels are already sorted.", "anchors": ["python/src/moocore/_moocore.py:eaf", "c/eaf.c:eaf_compute_matrix"]}
{"id": "C61", "title": "eafdiff of two labelled data sets is the difference of their attainment functions", "statement": "eafdiff(x, y, intervals, maximise, rectangles) for two objectives. Points: each of the best points attained by k of the sets of x and y together, for every k, exactly once, followed by min(intervals, number of sets / 2) times the difference of the fractions of the sets of x and of the sets of y that attain it. Rectangles: each point attained by some but not all sets is in exactly one rectangle and the value of that rectangle is the difference at the point; other points are in none. (False if x and y have different numbers of sets; in R a table of one row is returned as a vector, and is an error if an objective is maximised.)", "quantifier": "all labels in any order, all data with 2 objectives, all subsets of objectives to maximise, all intervals, all results of qsort", "why_tests_cant": "Tests compare with stored outputs of the same code for a few data sets.", "anchors": ["r/R/eafdiff.R:eafdiff", "r/R/eafdiff.R:compute_eafdiff_call", "r/src/Rmoocore.c:compute_eafdiff_C", "r/src/Rmoocore.c:compute_eafdiff_rectangles_C", "python/src/moocore/_moocore.py:eafdiff", "python/src/moocore/_utils.py:unique_nosort", "c/eafdiff.c:eafdiff_compute_matrix", "c/eafdiff.c:eafdiff_compute_rectangles"]}
{"id": "C62", "title": "R: largest_eafdiff finds the pair of data sets that differ most", "statement": "largest_eafdiff(x, intervals, reference, ideal) returns the first pair of data sets for which the smaller of two areas is largest, and that area: the area of the points between ideal and reference where the attainment function of the first data set exceeds that of the second by at least one interval, and the area where the second exceeds the first. With the default ideal nothing is cut off. It returns NULL and 0 if no pair has a positive value. (It stops with an error if an objective is maximised or if some pair has exactly one rectangle; wrong if numbers of sets differ.)", "quantifier": "all lists of at least two data sets, labels in any order, all reference and ideal points, all intervals, all results of the sorts", "why_tests_cant": "The result involves areas of regions defined by all the data; tests compare with one stored value.", "anchors": ["r/R/largest_eafdiff.R:largest_eafdiff", "r/R/whv.R:whv_rect", "r/R/utils.R:range_df_list", "r/R/eafdiff.R:eafdiff", "c/whv.c:rect_weighted_hv2d"]}
{"id": "C63", "title": "Hypervolume in the Python and R packages: directions, recycling of arguments, the class", "statement": "hypervolume(data, ref, maximise) in Python and R returns the volume of the region that the data dominate and the reference point bounds, in the given directions, where ref and maximise are a single value or one value per objective; hv_contributions of R returns for each row, in the order of the rows, the volume that only this row dominates. Python raises an exception for arguments of any other length. Hypervolume(ref, maximise)(data) in Python does exactly what hypervolume(data, ref, maximise) does. (One objective in Python breaks a precondition of the C code; in R a too short reference point is extended with NA if only some objectives are maximised.)", "quantifier": "all data with at least two objectives, all reference points, all directions, all argument lists, all C libraries with a correct (and, for four and more objectives, stable) sort", "why_tests_cant": "Volumes of all data sets in all combinations of directions; tests compare a few stored values.", "anchors": ["python/src/moocore/_moocore.py:hypervolume", "python/src/moocore/_moocore.py:Hypervolume", "python/src/moocore/_utils.py:atleast_1d_of_length_n", "r/R/hv.R:hypervolume", "r/R/hv.R:hv_contributions", "r/R/utils.R:transform_maximise", "r/src/Rmoocore.c:hypervolume_C", "c/hv.c:fpli_hv"]}
{"id": "C64", "title": "Python and R functions do not modify the arrays of their caller", "statement": "A call of hypervolume, Hypervolume, pareto_rank, whv_hype or normalise in Python, or of whv_rect in R, leaves the arrays passed to it as they were, and C gets the caller's rows with the maximised objectives negated; so repeated calls give the same value. (False in Python for objectives to be maximised in an object that shares memory without being an ndarray, such as np.matrix, and for whv_rect and total_whv_rect, which sort and clip the caller's arrays in place.)", "quantifier": "all contents of memory, all kinds of arguments (ndarray, view, list; contiguous or not), all directions, all sequences of calls", "why_tests_cant": "Aliasing shows only in later uses of the same array, possibly in another call; tests use fresh arrays.", "anchors": ["python/src/moocore/_utils.py:asarray_maybe_copy", "python/src/moocore/_moocore.py:hypervolume", "python/src/moocore/_moocore.py:pareto_rank", "python/src/moocore/_moocore.py:whv_hype", "python/src/moocore/_moocore.py:whv_rect", "python/src/moocore/_moocore.py:normalise", "r/R/whv.R:whv_rect", "c/whv.c:rect_weighted_hv2d"]}
{"id": "C65", "title": "Polygons of EAF differences: each point in exactly one polygon, with the right colour", "statement": "eafdiff polygons (compute_eafdiff_call with ret = \"polygons\" in R) of two sides with the same number of runs, all coordinates finite: the call succeeds, with one colour for each polygon; every polygon has horizontal and vertical sides, at least four corners and a nonempty inside. Every point attained by at least one run but not by all is inside exactly one polygon (even-odd rule, left and lower sides included), every other point in none; all points of a polygon are attained by the same number of runs. A polygon is in the left matrix if and only if intervals times the difference of the two fractions of attaining runs is at least one anywhere in it, and the colour is one plus that difference rounded down (left), or one plus the negated difference rounded down, at least one (right); the rounding of the floating-point division does not change this.", "quantifier": "all two-objective data sets with an even number of nonempty runs, all numbers of intervals (without overflow of int), all points of the plane", "why_tests_cant": "The polygons are built by a walk along two staircases with several cases for ties and colours; a coverage claim ranges over every point of the plane and every data set, tests check stored polygons of a few data sets.", "anchors": ["c/eaf.c:eaf_compute_polygon", "r/src/Rmoocore.c:compute_eafdiff_polygon_C", "r/R/eafdiff.R:compute_eafdiff_call"]}
{"id": "C66", "title": "Hypervolume with the reference point moved to zero", "statement": "fpli_hv_shift (used by hv --shift) returns the volume of the region dominated by the points and bounded by the reference point, and hence the same value as fpli_hv, for every number of objectives including one. For two objectives or an empty set the caller's array is unchanged; otherwise exactly the reference point has been subtracted from every point, and nothing else has been written.", "quantifier": "all numbers of objectives d >= 1, all point sets, all reference points, all contents of uninitialised memory, all results of qsort (stable for d >= 4)", "why_tests_cant": "The function is a second copy of the recursive algorithm with the reference point folded into the formulas; agreement with the first copy and with the volume must hold for every input and tie order, and the tests of the packages never call it.", "anchors": ["c/hv.c:fpli_hv_shift", "c/hv.c:fpli_hv3d", "c/hv.c:hv_recursive", "c/hv.c:filter", "c/hv.c:shift_reference", "c/main-hv.c:hv_file"]}
{"id": "C67", "title": "The hv program writes the hypervolumes of its input files", "statement": "If every input file (or the standard input) is a text of data sets with the same number n of objectives (n >= 2, or n >= 1 with --shift), and the argument of -r, if given, has n numbers, hv writes the hypervolume of every data set (with -u: of the union of the sets of each file) in order, to the standard output or, with -s, to one file per input, and exits with status 0; it stops with status 1 at the first volume that is 0. Without -r the reference point is, in every objective, the worst value in all inputs plus a tenth of the range. Without -r, an objective with the same value in all points of all inputs makes it fail and write nothing. An unreadable input (a bad line, rows of different lengths, no points, another number of objectives) makes it fail, after writing the volumes of the earlier inputs if -r was given, and without writing anything otherwise. An argument of -r that is not a list of numbers makes it fail at once. One objective without --shift is undefined behaviour.", "quantifier": "all texts without vertical tabs and form feeds, any number of files, sets, points and objectives, all values of the options -u, -S, -s, -r, all results of qsort (stable for n >= 4), all number scanners that consume characters and do not look beyond a line", "why_tests_cant": "The output depends on reading, grouping, the bounds over all files and the hypervolume algorithm together, for every text; with --shift the data is overwritten while the later sets are still needed.", "anchors": ["c/main-hv.c:main", "c/main-hv.c:hv_file", "c/main-hv.c:file_range", "c/main-hv.c:read_reference", "c/main-hv.c:data_bounds", "c/cmdline.h:handle_read_data_error", "c/io.c:read_double_data"]}
{"id": "C68", "title": "The epsilon and igd programs write the indicators of their input files", "statement": "If -r names a text of one data set R with n objectives, -o (before or after it, or absent) gives n directions, and every input file (or the standard input) is a text of data sets with n objectives, then epsilon -a writes for every data set in order the least amount by which all its points have to be improved to weakly dominate R, epsilon -m the least factor (R and the sets positive), and igd a line with the requested ones of GD, IGD, GD_p, IGD_p, IGD+ and averaged Hausdorff distance (IGD_p is always written), to the standard output or, with -s, to one file per input. epsilon fails (status 1) right after writing a negative value (-m: a value below 1), and at the first set with a non-positive value under -m. An unreadable input makes both fail after writing the values of the inputs before it. No -r, an unreadable reference set or an invalid -o make both fail and write nothing. A reference file with several sets, or -o after -r with more objectives than R, is undefined behaviour.", "quantifier": "all texts without vertical tabs and form feeds, any number of files, sets, points and objectives, all directions, all exponents p >= 1, all number scanners that consume characters and do not look beyond a line; exact arithmetic", "why_tests_cant": "The output depends on reading, the order of the options, the grouping into sets and the indicators together, for every text.", "anchors": ["c/epsilon.c:main", "c/epsilon.c:do_file", "c/igd.c:main", "c/igd.c:do_file", "c/cmdline.h:read_reference_set", "c/io.c:read_minmax", "c/epsilon.h", "c/igd.h"]}
{"id": "C69", "title": "The nondominated program filters, checks and transforms its input files", "statement": "If the options are right and every input (the files or the standard input) is a text of data sets with the same number n of objectives, nondominated writes for every input, in order, its data sets (united with -U), without the points out of the bounds with -b, with -f only the nondominated points of each set, each point once and in the original order, and every value transformed: base-10 logarithm in the objectives of -L, sign changed where the direction differs from --agree, and scaled to the range of -N, where missing bounds are the least and greatest values over all inputs. Reading an output file back gives exactly those sets that have points. Without -f, -a, -N, -b, -L nothing is written. The exit status is 1 exactly if some checked set has a point that is weakly dominated by another one of the set. Without -b a point out of the given bounds makes it fail at that input, after writing the outputs of the inputs before. Wrong options, an upper bound below the lower bound and unreadable inputs make it fail.", "quantifier": "all texts without vertical tabs and form feeds, any number of files, sets, points and objectives, all sequences of options, all orders in which qsort may leave the points, all number scanners that consume characters and do not look beyond a line; exact arithmetic", "why_tests_cant": "The output depends on reading, uniting, bounds over all files, transformation and filtering together, for every text and combination of options.", "anchors": ["c/nondominated.c:main", "c/nondominated.c:process_file", "c/nondominated.c:check_nondominated", "c/nondominated.c:force_bounds", "c/nondominated.c:file_bounds", "c/nondominated.c:read_range", "c/nondominated.c:logarithm_scale", "c/nondominated.h:find_nondominated_set_agree", "c/nondominated.h:normalise"]}
{"id": "C70", "title": "The ndsort program ranks points and breaks ties by hypervolume contribution", "statement": "If the input (one file or the standard input) is a text of data sets, ndsort -r writes, for every point of all sets taken together and in their order, the number of its nondominated front in the directions given with -o. Without -r it writes the rank of every point outside of the first front, and for a point of the first front 2 minus its hypervolume contribution, where the first front is scaled to 0..0.9 in every objective and the reference point is (1,...,1). So the numbers of the first front are between 1 and 2, all others are at least 2, and sorting by them never puts a point before one that dominates it. -k, wrong directions, more than one file and unreadable inputs make it fail without output.", "quantifier": "all texts without vertical tabs and form feeds, any number of sets, points and objectives, all sequences of options, all orders in which qsort may leave equal points (stable for more than three objectives), all number scanners that consume characters and do not look beyond a line; exact arithmetic", "why_tests_cant": "The output depends on reading, ranking, scaling and hypervolumes together; the relation between the numbers and dominance must hold for every set of points.", "anchors": ["c/ndsort.c:main", "c/ndsort.c:calculate_uev", "c/pareto.c:pareto_rank", "c/nondominated.h:normalise", "c/hv_contrib.c:hv_contributions", "c/io.h:read_minmax"]}
{"id": "C71", "title": "The dominatedsets program counts in how many pairs of sets the set of one file is better", "statement": "If at least two files are given, all texts of data sets with the same number of objectives, and every set is nondominated in the directions given with -o, dominatedsets writes a table with, for every two different files, the number of pairs of a set of the first and a set of the second in which the first weakly dominates the second but not the other way round; with -p the same in percent of all pairs; and for every file the number of times that a set of another file is better. A set with a dominated or repeated point makes it fail (unless --no-check is given), and so do fewer than two files, unreadable files, different numbers of objectives and wrong directions. The two numbers of a pair of files add up to at most the number of pairs, and 'better in all pairs' is transitive.", "quantifier": "all texts without vertical tabs and form feeds, any number (two or more) of files, sets, points and objectives, all sequences of options, all orders in which qsort may leave equal points, all number scanners that consume characters and do not look beyond a line; exact arithmetic", "why_tests_cant": "The table depends on every pair of sets of every pair of files, and on two different procedures (set dominance and the epsilon indicator) that must agree, otherwise the program aborts.", "anchors": ["c/dominatedsets.c:main", "c/dominatedsets.c:print_results", "c/dominatedsets.c:cmpparetos", "c/dominatedsets.c:pareto_better", "c/nondominated.h:find_dominated_point", "c/io.h:read_minmax"]}
{"id": "C72", "title": "The eaf program writes the attainment surfaces of the runs in its input files", "statement": "Given files that together have at least one run (data set), all with two or all with three objectives, eaf writes for every level asked for (all levels, -b, -m, -w, the percentiles of -p or the levels of -l, in this precedence) each point of the attainment surface of that level exactly once: the points attained by at least that many runs such that no other such point is as good. It writes them to the standard output or the file of -o, with an empty line after each surface; with -i it writes for each point which runs attain it and with -d how many of the first and of the second half of the runs do, on the same line if they go to the same stream and in the same order otherwise. Percentiles outside of (0, 100], levels that are not between 1 and the number of runs, arguments that are not lists of numbers, unreadable files, different numbers of objectives in the files and other numbers of objectives than 2 and 3 make it fail.", "quantifier": "all texts without vertical tabs and form feeds, any number of files, runs and points (up to the sizes of int), all sequences of options, all orders in which qsort may leave equal points, all contents of uninitialised memory, all number scanners that consume characters and do not look beyond a line; exact arithmetic", "why_tests_cant": "The output depends on the whole chain of options, reader, percentiles, attainment algorithms, bit sets and output streams; tests compare a few files with stored output.", "anchors": ["c/eaf_main.c:main", "c/eaf_main.c:read_doubles", "c/eaf_main.c:read_ints", "c/eaf_main.c:eaf_print", "c/eaf_main.c:read_input_data", "c/eaf.c:eaf_print_line", "c/eaf.c:eaf_print_attsurf", "c/eaf.h:attsurf"]}
{"id": "C73", "title": "The quality indicators of the Python and R packages are the mathematical ones", "statement": "epsilon_additive, epsilon_mult, igd, igd_plus and avg_hausdorff_dist, in Python and R, return the indicator of the set with respect to the reference set in the directions given by maximise (one for all objectives or one per objective), for any exponent p > 0 of the averaged Hausdorff distance. They raise an error if the data are not a table, the reference set has another number of objectives or maximise has another length, and both packages agree.", "quantifier": "all tables with any numbers of objectives and rows, all reference sets, all directions and exponents; exact arithmetic", "why_tests_cant": "The tests evaluate a few tables; the wrappers' handling of shapes, directions and exponents has infinitely many combinations.", "anchors": ["python/src/moocore/_moocore.py:_unary_refset_common", "python/src/moocore/_moocore.py:epsilon_additive", "python/src/moocore/_moocore.py:avg_hausdorff_dist", "r/R/epsilon.R:epsilon_additive", "r/R/igd.R:avg_hausdorff_dist", "r/src/Rmoocore.c:epsilon_mul_C", "c/libutil.c:fatal_error"]}
{"id": "C74", "title": "The dominance filters, ranks and normalisation of the Python and R packages do what they say", "statement": "is_nondominated flags exactly the nondominated rows (with keep_weakly) or exactly one copy of each nondominated vector; filter_dominated returns the flagged rows of an array in order and is idempotent; pareto_rank returns for each row the number of its front; normalise maps every value linearly from the given bounds (or the extremes of the column) to the range, so that with the default bounds all values are in the range, the ends are attained and dominance is preserved. Directions, bounds and ranges of the wrong length and data that are no tables raise errors, exactly in these cases in Python.", "quantifier": "all tables with any numbers of rows and objectives, all directions, bounds and ranges, all orders in which qsort may leave equal points; exact arithmetic", "why_tests_cant": "The tests evaluate a few tables; the wrappers' treatment of directions, missing bounds and shapes and the algorithms behind them must be right for all.", "anchors": ["python/src/moocore/_moocore.py:is_nondominated", "python/src/moocore/_moocore.py:filter_dominated", "python/src/moocore/_moocore.py:pareto_rank", "python/src/moocore/_moocore.py:normalise", "r/R/nondominated.R:filter_dominated", "r/R/nondominated.R:pareto_rank", "r/R/normalise.R:normalise", "r/src/Rmoocore.c:normalise_C"]}
{"id": "C75", "title": "The rectangle-weighted hypervolume of the Python and R packages is a weighted integral", "statement": "whv_rect, in Python and R, returns the integral, over the region dominated by the points and bounded by the reference point, of the weight that the rectangles give (the sum of the weights of the rectangles containing the place). total_whv_rect returns the integral of 1 + scalefactor * |prod(ref - ideal)| * weight, with the ideal point given or the componentwise best of the points, so that a set better than another never gets a smaller total value; with the rectangles that choose_eafdiff takes from eafdiff, whv_rect is the integral of the positive part of the difference of the attainment functions. Maximisation, other numbers of objectives or columns, reference or ideal points of other lengths and scale factors outside (0, 1] raise errors.", "quantifier": "all tables of two objectives with mutually nondominated rows, all valid rectangles in any number, all reference and ideal points, all scale factors, all orders qsort may leave ties in; exact arithmetic", "why_tests_cant": "The tests compare a few tables with stored numbers; the statement is an identity of integrals over all tables and rectangles.", "anchors": ["python/src/moocore/_moocore.py:whv_rect", "python/src/moocore/_moocore.py:get_ideal", "python/src/moocore/_moocore.py:total_whv_rect", "r/R/whv.R:whv_rect", "r/R/whv.R:total_whv_rect", "r/R/largest_eafdiff.R:choose_eafdiff", "r/src/Rmoocore.c:rect_weighted_hv2d_C", "c/whv.c:rect_weighted_hv2d"]}
{"id": "C76", "title": "vorobT and vorobDev of the Python and R packages compute a Vorob'ev expectation and the deviation from it", "statement": "vorobT, in Python and R, returns the mean hypervolume of the sets, a threshold, and exactly the best points attained by as many sets as the threshold (a percentage) asks for; the threshold is one end of an interval of percentages such that below it the attained regions have more hypervolume than the mean and above it at most the mean. vorobDev with a given set of points returns the mean, over the sets, of the volume of the symmetric difference between the region dominated by the set and the one dominated by the points; without points it uses the expectation of vorobT, and no set of points with the same hypervolume has a smaller deviation. Tables without objectives or rows, reference points of a wrong length and more than three objectives raise errors.", "quantifier": "all labelled tables (two or three objectives for vorobT, any number for vorobDev with given points), all reference points, all directions in R, all orders qsort may leave ties in, any number of iterations of the loop; exact arithmetic", "why_tests_cant": "The tests compare one or two data sets with stored numbers; that the deviation is a mean volume of symmetric differences and that the expectation minimises it are statements about all data sets and all competing sets of points.", "anchors": ["python/src/moocore/_moocore.py:vorobT", "python/src/moocore/_moocore.py:vorobDev", "python/src/moocore/_moocore.py:apply_within_sets", "r/R/vorob.R:vorobT", "r/R/vorob.R:vorobDev", "r/R/utils.R:transform_maximise", "r/R/utils.R:as_double_matrix"]}
{"id": "C77", "title": "rbind_datasets keeps the sets of both data sets apart", "statement": "rbind_datasets(x, y) in R is a table with the rows of x unchanged followed by the rows of y with the same objective values and new labels, such that two rows of the result have the same label exactly if they come from the same argument and had the same label there; the number of sets is the sum of the numbers of sets. It is accepted exactly if both tables have the same number of columns, at least three, and the least label of each is 1.", "quantifier": "all tables with any number of rows, columns and labels; exact arithmetic", "why_tests_cant": "The statement compares every pair of rows for every pair of tables.", "anchors": ["r/R/rbind_datasets.R:rbind_datasets"]}
{"id": "C78", "title": "A file written by write_datasets is read back as the same sets", "statement": "If the numbers are written in a form that the reader reads back, read_datasets of the file that write_datasets(x) writes returns the sets of x, in the order of their labels, each with its points in the order of the rows of x, numbered 1, 2, 3, ...; with rows sorted by labels 1, ..., n it is x itself. The comment line with the column names is ignored by the reader. A table without rows is an error.", "quantifier": "all tables with any number of rows, objectives (at least one) and labels, all column names without line breaks, all number formats that the reader inverts", "why_tests_cant": "A round trip through text depends on every separator and every set boundary; the tests try a few files.", "anchors": ["r/R/read_datasets.R:write_datasets", "r/R/read_datasets.R:read_datasets", "c/io_priv.h:read_objective_t_data"]}
{"id": "C79", "title": "Attainment surfaces of groups and as lists in the R package", "statement": "eaf_as_list(eaf(x)) has one element for every percentile, in increasing order, consisting of exactly the best points attained by as many sets as the percentile asks for, each once. attsurf2df of such a list has every point of the surfaces once, with the greatest percentile of a surface it is on; with the default percentiles this is the percentage of the sets that attain the point. eaf with groups is, for every group, the table of the attainment surfaces of that group alone, and eaf_as_list of it has one element for every group and percentile, which is the attainment surface of that group at that percentile.", "quantifier": "all labelled tables with two or three objectives, any sets and groups, all directions, all percentiles, all orders qsort may leave ties in; exact arithmetic", "why_tests_cant": "The tests print the lists of a few data sets; that each element is a whole attainment surface, for every data set and group, is a statement about all points of the objective space.", "anchors": ["r/R/eaf.R:eaf", "r/R/eaf.R:compute_1_eaf", "r/R/eaf.R:eaf_as_list", "r/R/eaf.R:attsurf2df"]}
{"id": "C80", "title": "The balanced tree inside the hypervolume computation", "statement": "While the hypervolume of three or more objectives is computed, the search tree of the sweep is at every step a correct balanced tree in the order of its comparison function: processing a point finds its place from the root, inserts it, and removes only points that it weakly dominates in the first two objectives; the tree is empty again when the sweep ends. The value returned is therefore exactly the one obtained with the plain sequence of items, for every input, and in three objectives it is the volume of the dominated region.", "quantifier": "all point sets of fewer than 2^125 points, all numbers of objectives, all reference points, all orders qsort may leave ties in, all contents of uninitialised memory; exact arithmetic", "why_tests_cant": "A broken rotation or a stale pointer shows only for particular insertion and removal histories, and there are unboundedly many of them; a test sees one history and only the final number.", "anchors": ["c/hv.c:fpli_hv3d_ref", "c/hv.c:hv_recursive_ref", "c/hv.c:fpli_hv", "c/hv.c:avl_search_closest", "c/hv.c:avl_insert_after", "c/hv.c:avl_unlink_node", "c/hv.c:avl_rebalance"]}
{"id": "C81", "title": "The balanced trees inside the three-objective attainment function", "statement": "The attainment surfaces of three objectives are computed with one balanced tree per run and one per level, whose nodes are linked, removed, read after removal, and finally chained through their next fields into the output lists. For every input with finite first two objectives, this computation on the pointers themselves never follows a null pointer or a stale one, stops, does not depend on what was in memory before, and stores for each level exactly the minimal vectors attained by that many runs, each once, with the indicator of a run set iff the run attains the point.", "quantifier": "all runs, all points with finite first two objectives (fewer than 2^125 points), all levels, all orders qsort may leave ties in, all contents of uninitialised memory", "why_tests_cant": "Pointers read after a node is unlinked, or next fields left over from an earlier list, give wrong output only for particular histories of insertions, promotions and removals; no finite set of inputs covers these histories.", "anchors": ["c/eaf3d.c:eaf3d", "c/eaf3d.c:eaf3df", "c/eaf3d.c:add2level", "c/eaf3d.c:add2set", "c/eaf3d.c:add2output", "c/eaf3d.c:add2output_all", "c/eaf3d.c:find_all_promoters", "c/eaf3d.c:find_point_at_left", "c/eaf3d.c:find_point_below", "c/avl.c:avl_insert_after", "c/avl.c:avl_unlink_node", "c/avl.c:avl_search_closest"]}
{"id": "C82", "title": "The balanced tree inside the hypervolume with the reference point moved to zero", "statement": "The variant of the hypervolume that first subtracts the reference point from the caller's data (the hv program can be told to use it) keeps its own balanced search tree. Run on the nodes of that tree, with searches from the root, insertions, removals and rotations, it returns the same value and leaves the same data behind as the computation on the plain sequence of items, agrees with the main variant run on the nodes of its tree, and the value is the volume of the dominated region.", "quantifier": "all point sets of fewer than 2^125 points, all numbers of objectives, all reference points, all orders qsort may leave ties in (stable for four or more objectives where the volume is claimed), all contents of uninitialised memory; exact arithmetic", "why_tests_cant": "A wrong link or a stale pointer shows only for particular histories of insertions and removals; the two copies of the sweep can drift apart on inputs no test contains.", "anchors": ["c/hv.c:fpli_hv3d", "c/hv.c:hv_recursive", "c/hv.c:fpli_hv_shift", "c/hv.c:avl_insert_after", "c/hv.c:avl_unlink_node"]}
{"id": "C83", "title": "Laws of the hypervolume in both packages", "statement": "The hypervolume function of the Python and the R package return the same value, and this value obeys the laws users assume: it is multiplied by the product of the scale factors if every objective is moved and rescaled (with its direction reversed if the factor is negative); it does not change if the objectives are permuted; adding points never decreases it, and the hypervolume of a union is at most the sum; the gain from adding points never increases when the set has grown (diminishing returns); a worse reference point never decreases it; and the contributions of the points add up to at most the hypervolume.", "quantifier": "all data matrices with any number of rows and objectives (two or more), all directions, all reference points, all scale factors and permutations, in exact arithmetic", "why_tests_cant": "Each law relates the results of several calls over all real-valued inputs; tests sample a few matrices.", "anchors": ["python/src/moocore/_moocore.py: hypervolume, hv_contributions", "r/R/hv.R: hypervolume, hv_contributions", "c/hv.c: fpli_hv"]}
{"id": "C84", "title": "Laws of the epsilon, IGD+, IGD and averaged Hausdorff indicators in both packages", "statement": "The unary indicators returned by the Python and R packages agree and obey the laws users assume when comparing sets: the additive epsilon obeys the triangle inequality and is 0 from a set to itself, it cannot get worse when points are added to the set, and with respect to two reference sets together it is the larger of the two values; the multiplicative epsilon is the exponential of the additive epsilon of the logarithms, obeys the multiplicative triangle inequality and is 1 from a set to itself; IGD+ is at most IGD, is at most the positive part of the additive epsilon times the square root of the number of objectives, and IGD is at most the averaged Hausdorff distance (exponent 1).", "quantifier": "all pairs and triples of data matrices with any number of rows and objectives, all directions, in exact arithmetic", "why_tests_cant": "The laws relate several calls over all real-valued inputs; tests sample a few matrices.", "anchors": ["python/src/moocore/_moocore.py: epsilon_additive, epsilon_mult, igd, igd_plus, avg_hausdorff_dist", "r/R/epsilon.R: epsilon_additive, epsilon_mult", "r/R/igd.R: igd, igd_plus, avg_hausdorff_dist"]}
{"id": "C85", "title": "Dominance filtering and ranking depend only on the order of the values", "statement": "If the values of every objective compare alike in two tables (for example because each objective went through a strictly increasing function, or through a strictly decreasing one and its direction was reversed), is_nondominated (all copies kept) and pareto_rank return the same result for both tables, in Python and in R; with one copy kept per vector, the flags of one table are right for the other. The rows of rank 1 are exactly the nondominated rows. If the rows are permuted, flags and ranks are permuted in the same way.", "quantifier": "all pairs of tables with the same number of rows and objectives (two or more objectives in R) and any directions whose values compare alike; all permutations of the rows", "why_tests_cant": "Invariance under every order-preserving change of the data and every permutation of the rows ranges over infinitely many tables; the two-, three- and many-objective algorithms are different code.", "anchors": ["python/src/moocore/_moocore.py: is_nondominated, pareto_rank", "r/R/nondominated.R: is_nondominated, pareto_rank", "c/nondominated.h", "c/pareto.c: pareto_rank"]}
{"id": "C86", "title": "Laws of the empirical attainment function and of the differences", "statement": "If every objective goes through a strictly increasing function of the real line onto itself (or a strictly decreasing one, with its direction exchanged), the surfaces returned by eaf have the same percentiles and their points go through the same functions. The order of the rows, repeated rows and the names of the sets do not matter. The surface of a percentile that asks for only one set consists of the points that filter_dominated keeps of the whole table; in particular eaf of a single set is its nondominated points. eafdiff of two data sets in the other order has the same points with opposite differences, eafdiff of a data set and itself has only zeros, at the points of its surfaces, and no difference exceeds the number of intervals.", "quantifier": "all labelled tables with two or three objectives within the sizes of C59, all directions and percentiles, all monotone maps, all rearrangements; for the differences all pairs of tables with equally many sets", "why_tests_cant": "Each law relates the results of two calls for all tables and all monotone maps or rearrangements; tests compare a few fixed outputs.", "anchors": ["r/R/eaf.R: eaf", "r/R/eafdiff.R: eafdiff", "r/R/nondominated.R: filter_dominated", "python/src/moocore/_moocore.py: eafdiff", "c/eaf.c: eaf2d", "c/eaf3d.c: eaf3d"]}
{"id": "C87", "title": "eaf --polygons writes the regions between the attainment surfaces", "statement": "The program eaf with --polygons writes, to the file of the points, polygons with horizontal and vertical sides, a line of -inf after each, and then a line with the colours. Every point that is attained by at least as many runs as the first level asked for, and fewer than the last one, is inside exactly one polygon, and no other point is inside one; inside a polygon the number of attaining runs does not change, and the colour is the number of the attaining runs of the first half minus that of the second half.", "quantifier": "all input files with two objectives and an even number of runs, all options, all successive levels (by default all levels)", "why_tests_cant": "The polygons have to cover the plane without overlap for all positions of the points of all runs, including ties; tests compare a few outputs.", "anchors": ["c/eaf_main.c: main", "c/eaf.c: eaf_print_polygon, eaf_compute_polygon", "c/eaf.h: attsurf"]}
{"id": "C88", "title": "Hypervolume uses memory correctly for every input and every sort", "statement": "Computing the hypervolume of a set in three or more objectives never reads memory that has not been initialised, never accesses memory outside what was allocated, never follows a null pointer, and ends. The result does not depend on what the allocated memory contained. This holds for every order in which qsort leaves equal keys, also where the order makes the value wrong (C13).", "quantifier": "all numbers of points and of objectives of at least three, all finite coordinates, all reference points, all results of qsort, all contents of allocated memory", "why_tests_cant": "Values of earlier calls are kept in the nodes and reused; whether a value read was ever written depends on the history of deletions and reinsertions in all dimensions, and on how ties are sorted.", "anchors": ["c/hv.c: setup_cdllist, delete, reinsert, fpli_hv3d_ref, skip_or_recurse_ref, hv_recursive_ref, filter_delete_node, filter_ref, fpli_hv"]}
{"id": "C89", "title": "Hypervolume in double precision is exact on grid data", "statement": "If in each objective the values and the reference point are multiples of a power of two (for example integers), and the box between the reference point and a lower bound of the points below it contains at most 2^53 cells of the grid, then computing the hypervolume in double precision makes no rounding error: the result is the one of exact arithmetic, in any number of objectives. In particular, for integer data it is exactly the volume of the dominated region.", "quantifier": "all numbers of points and of objectives of at least two, all such grids and points, all roundings to nearest, all results of qsort", "why_tests_cant": "Whether every intermediate difference, product and partial sum of the recursion, including the values that are cached and reused, is representable depends on all orders of the points in all objectives; a test shows it for one set.", "anchors": ["c/hv.c: hv2d, fpli_hv3d_ref, skip_or_recurse_ref, hv_recursive_ref, fpli_hv"]}
{"id": "C90", "title": "Rounding error of the hypervolume in three objectives", "statement": "For three objectives, any points and any reference point in double precision, the computed hypervolume differs from the volume of the dominated region by at most ((1+2^-53)^(11 n)-1) V, where n is the number of points and V the volume of the box from a lower bound of the points below the reference point to the reference point (if V and the area of the box in the first two objectives are at least 2^-1022); for n up to 2^48 this is at most n 2^-49 V. The computed value need not be monotone: adding a dominated point can lower it.", "quantifier": "all finite sets of points with double-precision coordinates, all reference points, all roundings to nearest, all results of qsort", "why_tests_cant": "The area of the current slice is updated by additions and subtractions of rounded rectangles for as long as the sweep lasts; a bound on how the errors add up concerns every sequence of insertions and removals.", "anchors": ["c/hv.c: fpli_hv3d_ref, fpli_hv"]}
{"id": "C91", "title": "Hypervolume contributions in double precision", "statement": "On the grid data of C89 the computed contributions are those of exact arithmetic; for integer data with a box of at most 2^53 they are exactly the exclusive volumes and the assertion that none is negative holds. In three objectives each contribution differs from the exclusive volume by at most 2((1+2^-53)^(11n+1)-1)V plus 2^-26, the threshold below which values become zero. In two objectives the contribution of a dominated point is exactly zero. In general the assertion can fail: in three objectives for a dominated point, in two objectives for a point of a set without dominated points.", "quantifier": "all numbers of points and objectives, all such data, all roundings to nearest, all results of qsort", "why_tests_cant": "A contribution is the difference of two large computed values; whether it has the right sign depends on rounding errors of both, for every set and every order.", "anchors": ["c/hv_contrib.c: hv_contributions, hv_1point_diffs", "c/hv.c: fpli_hv"]}
{"id": "C92", "title": "Four objectives in double precision: rounding can erase the hypervolume", "statement": "Unlike with two or three objectives (C52, C90), with four objectives no bound of the rounding error by a small multiple of the volume of the box holds, even if no two points agree in any objective: for three points with coordinates in [0,1) and the reference point (1,1,1,1) the dominated region has a volume of at least 1 - 2^-49, and fpli_hv returns at most 2^-49. Without the third point it returns 1, and hv_contributions computes about -1 for that point and fails its assertion. (Two points that cover each other up to rounding errors are both marked as irrelevant.)", "quantifier": "all roundings to a nearest double, all contents of uninitialised memory, all results of qsort", "why_tests_cant": "The failure must occur for every rounding rule and every behaviour of the C library, and it needs coordinates that differ by less than a rounding error.", "anchors": ["c/hv.c: skip_or_recurse_ref, hv_recursive_ref, fpli_hv3d_ref, fpli_hv", "c/hv_contrib.c: hv_contributions"]}
{"id": "C93", "title": "Command lines of the programs", "statement": "Each of the programs hv, epsilon, igd, nondominated, ndsort, dominatedsets and eaf accepts exactly the command lines that the options of its usage message admit by the GNU conventions (options and file names in any order, one-letter flags combined in a word, arguments in the same word or the next, long names with '=' or the next word, unambiguous abbreviations, '--' and '-'), with a short list of additional spellings, and it takes exactly those options, arguments and file names in exactly that order; any other command line is rejected at the first invalid word, and what precedes a word does not change how the rest is read. Options that need an argument always have one when they are acted upon. Exceptions, also proved: the documented letters -p of igd and -m, -L of nondominated are rejected; epsilon -u, igd -u and igd -m end in abort(), nothing else does, and the other five programs never do.", "quantifier": "all argument vectors: any number of words, any characters", "why_tests_cant": "There are infinitely many command lines: every permutation of options and files, every abbreviation and every argument, including those that look like options.", "anchors": ["c/main-hv.c: main, usage", "c/epsilon.c: main, usage", "c/igd.c: main, usage", "c/nondominated.c: main, usage", "c/ndsort.c: main, usage", "c/dominatedsets.c: main, usage", "c/eaf_main.c: main, usage", "c/cmdline.h: OPTION_HELP_STR, OPTION_VERSION_STR, OPTION_OBJ_STR, OPTION_QUIET_STR"]}
{"id": "C94", "title": "What the programs do to files", "statement": "hv, epsilon, igd and nondominated, run with a command line on a file system, have the exit status, the values and the output texts of the same program on the contents of its input files (C67, C68, C69): without --suffix everything goes to the standard output and no file changes; with --suffix (for nondominated always, '_dat' by default) the output for the k-th input file is all there is in the file with its name and the suffix, and no other file changes. Without file names the standard input is read and no file changes. Whatever the command line is, only files named by an input file and the suffix can change; only the input files and the reference file are read, and the standard input only if there are no input files; a missing file makes the exit status 1 (and if the ranges of several files are needed, nothing was written). What follows --help or --version is ignored. nondominated without an option that asks for an output writes nothing. Exceptions, also proved: an output that is a later input is overwritten before it is read; '-' is not the standard input for hv although the usage message says so.", "quantifier": "all command lines, all file systems (contents of files and which files exist), all standard inputs", "why_tests_cant": "The files, their number, names, contents and the order of options are unbounded, and a test cannot show that no other file is touched or read.", "anchors": ["c/main-hv.c: main, hv_file", "c/epsilon.c: main, do_file", "c/igd.c: main, do_file", "c/nondominated.c: main, process_file, file_bounds", "c/cmdline.h: file_range, read_reference_set"]}
{"id": "C95", "title": "Memory of the three-objective attainment function", "statement": "For every input with finite first two objectives, whatever was in memory before the call, whatever is found in memory that has been released, and whatever other threads store in the static list head, the computation of the attainment surfaces of three objectives stores the surfaces it is asked for (C42, C81), so it never uses what it reads in released memory, and it never releases a block that it has not allocated or has released already. The blocks still allocated when it returns are, for whatever levels are asked for, exactly: the array of surfaces that is returned, and (a leak) the array attained, the array output and one tree per run, the list of removed nodes, every node that was ever made for a level, and one item for each point of each of the surfaces of levels 1 to the number of runs.", "quantifier": "all runs, all points with finite first two objectives (fewer than 2^125 points), all levels, all orders qsort may leave ties in, all contents of uninitialised and of released memory, all interleaved writes to the static list head", "why_tests_cant": "A use of released memory changes the result only if the allocator has reused the block, and which nodes are released when depends on the whole history of insertions, promotions and removals.", "anchors": ["c/eaf3d.c:eaf3d", "c/eaf3d.c:eaf3df", "c/eaf3d.c:add2level", "c/eaf3d.c:add2set", "c/eaf3d.c:add2output_all", "c/eaf3d.c:freetree2", "c/eaf3d.c:freeoutput", "c/eaf3d.c:removed_list"]}
{"id": "C96", "title": "Running time of the balanced tree", "statement": "Searching, inserting and deleting in the AVL tree library take O(log n) steps, as its header promises: in a correct tree of n nodes a search (avl_search_closest, avl_search) makes at most 2 log n + 3 comparisons, an insertion at a given place (avl_insert_before, avl_insert_after) at most 2 log n + 6 steps, with the search (avl_insert_node) at most 4 log n + 9, removing a given node (avl_unlink_node) at most 2 log n + 3 and with its search (avl_delete) at most 4 log n + 6, where a step is one iteration of a loop or one call, and the logarithm is to base 2, rounded down.", "quantifier": "all correct trees of fewer than 2^125 nodes, all comparison functions, all nodes and places", "why_tests_cant": "A bound on the running time in terms of n must hold for every shape a tree can reach after any history of insertions and deletions; a measurement sees some sizes and shapes.", "anchors": ["c/avl.h:avl_insert_node", "c/avl.h:avl_search_closest", "c/avl.c:avl_rebalance", "c/avl.c:avl_unlink_node", "c/avl.c:avl_insert_before", "c/avl.c:avl_insert_after", "c/avl.c:avl_delete", "c/hv.c:avl_rebalance"]}
{"id": "C97", "title": "Running time of the hypervolume computation", "statement": "The hypervolume of n points is computed, after sorting, in at most 2 n steps for two objectives, n (8 log n + 49) for three, and n^(d-2) (8 log n + 3 d^2 + 22) for d >= 3 objectives, hence in O(n log n) for two and three objectives and O(n^(d-2) log n) for d >= 4, as documented; a step is one iteration of a loop or one call of a recursive function, and the logarithm is to base 2, rounded down.", "quantifier": "all sets of n < 2^125 points, all d, all reference points, all orders in which qsort may leave equal coordinates, all contents of uninitialised memory", "why_tests_cant": "The bound is about the worst case over all inputs of every size and number of objectives; a measurement sees some inputs, and inputs with many ties or few dominated points take different paths.", "anchors": ["c/hv.c:fpli_hv", "c/hv.c:hv_recursive_ref", "c/hv.c:fpli_hv3d_ref", "c/hv.c:fpli_setup_cdllist", "c/hv.c:hv2d", "python/src/moocore/_moocore.py:hypervolume", "r/R/hv.R"]}
{"id": "C98", "title": "Running time of dominance filtering, nondominated sorting and the epsilon indicators", "statement": "Besides one sort of the points, is_nondominated takes at most 9 n + 6 steps on n points of two objectives and pareto_rank at most n (log n + 4), hence both are O(n log n) as documented; for any other number d of objectives is_nondominated takes at most n^2 (d + 1) + 3 n + d steps and pareto_rank at most (n + 1)(n (n (2 d + 1) + 1) + 2), the O(n^3) (times d) of the source. epsilon_additive and epsilon_mult take at most |R| (|A| (d + 1) + 1) + d steps, the documented O(d |A| |R|). A step is one iteration of a loop.", "quantifier": "all points, all numbers of points and objectives, all directions, all orders in which qsort may leave equal points", "why_tests_cant": "The bound is about the worst case over all inputs of every size; a measurement sees some inputs, and the number of fronts and the path of the binary search depend on the input.", "anchors": ["c/nondominated.h:is_nondominated", "c/nondominated.h:find_nondominated_set_", "c/pareto.c:pareto_rank", "c/pareto.c:pareto_rank_2D", "c/epsilon.h:epsilon_additive", "c/epsilon.h:epsilon_mult", "python/src/moocore/_moocore.py:is_nondominated", "python/src/moocore/_moocore.py:pareto_rank", "r/R/epsilon.R"]}
{"id": "C99", "title": "No arithmetic overflow in the indicators", "statement": "In double precision with a largest exponent, no operation overflows while the data are in a stated range, so the results are those of rounding without a largest exponent and the other statements about double precision apply. Hypervolume of up to 2^v points (v <= 52) in d objectives with all coordinates up to 2^m in absolute value: d (v + m + 1) + 1 <= 1023, and the result is finite; contributions: one more doubling. Additive epsilon: values up to 2^1022. Multiplicative epsilon: positive values from 2^-511 to 2^511. IGD and IGD+: values up to 2^500 for up to 2^20 objectives. Normalisation: values up to 2^m and bounds equal or at least 2^-s apart with 2 (m + 1) + s <= 1022. Percentiles: up to 2^31 runs. Outside the range an overflow is reached: one point at the origin with the reference point (2^600, 2^600).", "quantifier": "all data in the range, all numbers of points and objectives, all rounding rules for ties, all behaviours of the arithmetic outside the range, all orders in which qsort may leave equal keys", "why_tests_cant": "An overflow gives infinity or NaN for some combination of magnitudes, numbers of points and of objectives; intermediate values such as partial volumes can exceed the result, so no finite set of runs shows that none of them overflows.", "anchors": ["c/hv.c:fpli_hv", "c/hv.c:hv_recursive", "c/hv.c:hv2d", "c/hv_contrib.c:hv_contributions", "c/epsilon.h:epsilon_additive", "c/epsilon.h:epsilon_mult", "c/igd.h:gd_common", "c/nondominated.h:normalise", "c/eaf.h:percentile2level"]}
{"id": "C100", "title": "The MATLAB and Octave function computes the hypervolume of the rows", "statement": "Hypervolume_MEX(points, reference) with a P x N matrix of doubles, N >= 2, and a vector of N doubles (row or column) returns the volume of the region dominated by the rows of the matrix below the reference point; Hypervolume_MEX(points) with at least one row uses the largest value of every column as reference point (so a single row has the value 0). Without arguments, or with a character array, it prints its help; an argument that is not numeric or a reference point of another length is an error. Not checked by the code, with undefined behaviour: an empty matrix without reference point, a matrix with a single column, and numeric matrices that are not of class double.", "quantifier": "all matrices, all reference points, all numbers of arguments, all stable sorts (any sort up to three objectives)", "why_tests_cant": "The transposition from column to row order and the column maximum must be right for every number of rows and columns, and the interface is not exercised by the tests of the repository at all.", "anchors": ["c/Hypervolume_MEX.c:mexFunction", "c/Hypervolume_MEX.c:data_maximum", "c/hv.c:fpli_hv"]}
{"id": "C101", "title": "What whv_hype with a goal (dist = point) estimates", "statement": "With independent standard normal random numbers, whv_hype with dist = point and goal mu has the expected value, and converges with probability one to, the area of the box between ideal and reference times the probability that a standard normal number is at least four times the distance from the goal to the nearest point of the set, where the distance to a point is the largest excess of its objectives over the goal in units of the box. For every sequence of random numbers the result depends on the set only through this one number. The two-dimensional normal sampler itself returns normal coordinates with the given means, deviations and covariance rho sigma1 sigma2; because it is called with rho = 1 all samples lie on one line, and the result is not the hypervolume weighted by the multivariate normal distribution that the documentation promises, for any box and goal.", "quantifier": "all sets, boxes, goals, numbers of samples and sequences of random numbers; all means, deviations and correlations of the sampler", "why_tests_cant": "Tests compare a few seeds with recorded values; the expected value, the limit and the dependence on a single number concern all random sequences and all sets.", "anchors": ["c/whv_hype.c:whv_hype_gaus", "c/whv_hype.c:gaussian_dist_sample", "c/rng.c:rng_bivariate_normal_fill", "python/src/moocore/_moocore.py:whv_hype"]}
{"id": "C102", "title": "Running time and reallocations of the two-objective EAF", "statement": "Apart from sorting, the attainment surfaces of N points in r runs are computed in at most (N+1)(2r+5) steps per level plus 2N, whatever the ties and the level. A surface of s points is stored with at most s/100 reallocations. The claim in the code that there are at most log2(2r) reallocations is false: with 1024 runs and no dominated points the number of reallocations is proportional to the number of points.", "quantifier": "all data sets, ties, sorts, levels; all sizes up to the limit of the code (2^30 points)", "why_tests_cant": "A bound on the running time and on the number of reallocations concerns inputs of every size; tests measure a few small ones.", "anchors": ["c/eaf.c:eaf2d", "c/eaf.c:eaf_create", "c/eaf.c:eaf_store_point_help", "c/eaf.c:eaf_realloc"]}
{"id": "C103", "title": "Dominance filtering and nondominated sorting are memory safe for every input, NaN included", "statement": "For every table of doubles, whatever its values (NaN included), every number of objectives and points and every permutation that qsort may leave, is_nondominated, find_dominated_point and pareto_rank (compiled without assertions) read and write only inside of the blocks they were given or have allocated, read no cell before it is written, terminate (pareto_rank after at most size+1 passes) and set every flag and every rank (to at least 1) in the result. The index returned by find_dominated_point is -1 or a row. Without NaN no assertion fails and the results are the sets and fronts of C01, C02 and C08. Exceptions: pareto_rank with two objectives and no points writes outside of its blocks; with NaN and two objectives an assertion of pareto_rank can fail; find_dominated_point with two objectives, one maximised and one ignored, fails an assertion.", "quantifier": "all tables, all values and comparison outcomes, all numbers of objectives and points, all directions, all permutations left by qsort, with and without assertions", "why_tests_cant": "A wrong index or a loop that does not end needs particular values (ties, NaN) in particular positions; tests run a few tables and an out-of-bounds read usually goes unnoticed.", "anchors": ["c/nondominated.h: is_nondominated, find_dominated_point, find_nondominated_set_, force_agree_minimize, generate_sorted_pp_2d", "c/pareto.c: pareto_rank, pareto_rank_2D", "c/common.h: minmax_from_bool"]}
{"id": "C104", "title": "Rows with NaN do not influence filtering and ranking, except with two objectives", "statement": "With any number of objectives other than two, is_nondominated keeps every row that has a NaN and treats the other rows as if the rows with NaN were not there, and pareto_rank gives rank 1 to every row with a NaN and to the other rows the ranks they would have if the rows with NaN were deleted. With two objectives neither holds: a NaN can make a dominated row be reported as nondominated and change the ranks of other rows.", "quantifier": "all tables with any pattern of NaN, all numbers of objectives other than two, all directions, keep_weakly true or false", "why_tests_cant": "The claim is about every pattern of NaN in tables of every size; the test data of the project contain no NaN.", "anchors": ["c/nondominated.h: is_nondominated, find_nondominated_set_", "c/pareto.c: pareto_rank, pareto_rank_2D, dominates"]}
{"id": "C105", "title": "What NaN and infinities in the data do to the epsilon indicators and the distances", "statement": "epsilon_additive: the result is NaN exactly when the last objective of the last point of the data and of the last reference point has no difference (NaN, or infinities of the same sign), whatever the other values. A NaN in the last objective of a point makes it and all points before it in the same set ignored; a NaN in another objective of a data point makes it infinitely good in that objective and in those before it. So a NaN is neither ignored nor reported: the order of the points matters and a value of at most 0 does not mean weak dominance. epsilon_mult: the same for the last objective, and a NaN gives no error. GD, IGD, IGD+ and the averaged Hausdorff distance are never NaN: a NaN in a point whose nearest point is looked for makes GD or IGD and the averaged Hausdorff distance infinite, and a point with a NaN is ignored where the nearest point is looked for. IGD+ counts a NaN in the data as infinitely good and in the reference set as infinitely bad: one point of NaNs gives the best value 0. Without NaN and infinities the results are those of C17, C20 and C21.", "quantifier": "all tables of doubles (NaN, infinities, finite values with exact arithmetic), all sizes, all numbers of objectives, all directions, all p >= 1", "why_tests_cant": "The effect depends on the position of every NaN in tables of every size; the tests of the project have no NaN in the data of these indicators.", "anchors": ["c/epsilon.h: epsilon_additive_minmax, epsilon_mult_minmax", "c/igd.h: gd_common, IGD_plus_minmax, avg_Hausdorff_dist_minmax", "c/common.h: MAX, MIN"]}
{"id": "C106", "title": "The normal random numbers used by whv_hype with a goal are exactly standard normal and independent", "statement": "For ideal tables (the equations that the tables of c/ziggurat_constants.h satisfy up to rounding), exact arithmetic and independent uniform random numbers, the function that draws a normal random number returns with probability one, its value is in any measurable set with the probability that the standard normal distribution gives to the set, and the values of any number of successive calls are independent. Such tables exist for every number of layers from two on, in particular for the 256 of the code. No index is outside the tables.", "quantifier": "all measurable sets of values, all numbers of successive calls, all numbers of layers of at least 2 and all tables that satisfy the equations, all probability spaces with independent uniform draws", "why_tests_cant": "A distribution cannot be established by samples: a wrong boundary of a layer, a wrong sign or a wrong tail changes the distribution by less than the error of any test.", "anchors": ["c/rng.c: rng_standard_normal, rng_bivariate_normal_fill", "c/ziggurat_constants.h: wi_double, ki_double, fi_double, ziggurat_nor_r, ziggurat_nor_inv_r"]}
{"id": "C107", "title": "The weighted hypervolume of rectangles in double precision has a small relative error, is not negative, and is exact for integers of moderate size", "statement": "For n mutually nondominated points and m rectangles with positive sides and weights that are not negative, all doubles whose different values of an objective differ by at least 2^-340 (and weights that are 0 or at least 2^-340), with no point other than the lowest exactly as high as the lowest upper side, whv_rect computed in double precision with rounding to nearest is the weighted area within the factor (1 \u00b1 2^-53)^(n m + 4). If the coordinates are integers of absolute value at most 2^25, the weights are integers and the weighted area is at most 2^53, it is exact. For every input in double precision, the computation fails an assertion exactly when it would in exact arithmetic and the value is never negative.", "quantifier": "all numbers of points and rectangles, all values, weights and reference points in double precision (without overflow), all orders qsort may produce, all roundings to nearest", "why_tests_cant": "The error depends on how many areas are added and in which order; a test compares a few inputs with a value that was itself computed in double precision.", "anchors": ["c/whv.c: rect_weighted_hv2d, whv_preprocess_rectangles", "python/src/moocore/_moocore.py: whv_rect"]}
{"id": "C108", "title": "The two-objective EAF uses memory correctly for every input, and what NaN does to it", "statement": "For every table with at least one row, whatever the values (NaN and infinities included), whatever the cumulative numbers of rows of the runs, all levels and every order qsort may leave, the computation of the two-objective attainment surfaces ends, never reads or writes outside of its blocks, never reads a value that was not written, and stores at most as many points per surface as there are rows; compiled with assertions, the only other outcome is one failing assertion. Without NaN and with runs that are not empty, no assertion fails and the surfaces are exact. With a NaN the assertion can fail, and without assertions the surface can lose a point of a run that has no NaN. A table without rows reads outside of an array.", "quantifier": "all numbers of rows and runs, all values in double precision including NaN, all arrays of cumulative sizes and of levels, all permutations left by qsort, builds with and without assertions", "why_tests_cant": "Two indices move through two sorted arrays and the loops end through comparisons; with NaN every comparison is false and no test covers all positions of NaN in both orders.", "anchors": ["c/eaf.c: eaf2d", "python/src/moocore/_moocore.py: eaf"]}
{"id": "C109", "title": "The C functions of the R package are safe under every schedule of R's garbage collector", "statement": "Each of the functions that the R package calls in C, for all arguments of agreeing lengths, whenever R's garbage collector runs and whatever it releases of what R cannot reach, and whichever allocations by R fail, ends with a value or with an error of R, and never uses a released object, an index outside of an object, or a block that is not allocated. When it returns, the stack of protected objects is as before, every block from malloc was released exactly once, the result and all it refers to exist, and nothing that R had was released or got other elements or attributes. With arguments of the checked types and without failing allocations it always returns. When an error of R ends the call, the ranking, hypervolume, contribution, weighted hypervolume, normalisation, epsilon, IGD and IGD+ functions leak nothing; the others can: is_nondominated with keep_weakly = NA leaks the converted vector.", "quantifier": "all heaps of R, all arguments and attributes, all points at which the collector may run and all sets of unreachable objects it may release, all failing allocations, all results of the library", "why_tests_cant": "R's collector runs rarely; a missing PROTECT shows only when it runs between two particular calls, and gctorture covers only the inputs of the tests.", "anchors": ["r/src/Rmoocore.c: compute_eaf_C, compute_eafdiff_C, compute_eafdiff_rectangles_C, compute_eafdiff_polygon_C, R_read_datasets, normalise_C, is_nondominated_C, pareto_ranking_C, hypervolume_C, hv_contributions_C, rect_weighted_hv2d_C, whv_hype_C, unary_metric_ref", "r/src/Rcommon.h"]}
{"id": "C110", "title": "With the tables that are in the code the normal random numbers are normal up to 10^-11", "statement": "The table constants of rng_standard_normal, as they stand in the source and rounded to double precision by any rounding to nearest, give a random number whose distribution is within 10^-11 of the standard normal distribution: for every measurable set the probability of the set differs by at most 10^-11 from its normal probability. A call returns with probability one, and m successive values are independent normal up to m times 10^-11.", "quantifier": "all roundings of the constants to nearest, all measurable sets, all numbers of calls; the uniform random numbers are independent and real-valued", "why_tests_cant": "One wrong digit among 770 constants shifts the distribution by less than any statistical test on a feasible sample detects, and a test says nothing of the tails.", "anchors": ["c/ziggurat_constants.h: ki_double, wi_double, fi_double, ziggurat_nor_r, ziggurat_nor_inv_r", "c/rng.c: rng_standard_normal"]}
{"id": "C111", "title": "whv_hype with a goal, with the random number generator and tables of the code, estimates what it should up to 10^-11", "statement": "The estimate of whv_hype with dist = point, with the normal random numbers of rng_standard_normal and its tables as they are in the code, has an expected value that differs by at most the area of the box times 10^-11 from the area times the probability that a standard normal number is at least four times the distance of some point to the goal, for every number of samples; with probability one all calls of the generator return, and the estimate converges to a number with the same bound as the number of samples grows.", "quantifier": "all sets of points, boxes, goals and numbers of samples, all roundings of the table constants to nearest; independent real-valued uniform numbers", "why_tests_cant": "A test sees one seed and one number of samples; an error of the sampler far below the statistical error of the test would bias all estimates.", "anchors": ["c/whv_hype.c: whv_hype_gaus, gaussian_dist_sample", "c/rng.c: rng_bivariate_normal_fill, rng_standard_normal", "c/ziggurat_constants.h"]}
{"id": "C112", "title": "The random numbers are equidistributed in up to 311 successive calls and the uniform HypE estimate has the right mean over the states of the generator", "statement": "If all contents of the array of the random number generator are equally likely, then any 623 successive 32-bit words that it returns are independent and uniform, and any 311 successive results of rng_random are independent and uniform on the multiples of 2^-53 in [0,1): every sequence of k such numbers is returned for exactly the fraction 2^(-53k) of the contents, wherever in the stream it begins. 623 words are the limit: there is a sequence of 624 words that never occurs. The mean over all contents of the result of whv_hype with the uniform distribution is the area of the dominated part of the box, up to 2^-52 times the area of the box, for every number of samples.", "quantifier": "all positions of the state, all numbers of earlier calls, all sequences of words or numbers; all sets of points, boxes and numbers of samples; all roundings to nearest", "why_tests_cant": "There are 2^19968 states and 2^16483 sequences of 311 numbers; a statistical test of a few streams does not see an error in a constant of the recurrence that makes the map of states not invertible.", "anchors": ["c/mt19937/mt19937.h: mt19937_next, mt19937_next_double", "c/mt19937/mt19937.c: mt19937_gen", "c/rng.h: rng_random", "c/whv_hype.c: whv_hype_unif, uniform_dist_sample"]}
{"id": "C113", "title": "Sizes of blocks and subscripts are computed without integer overflow, up to stated sizes of the data", "statement": "The block sizes of the hypervolume for three or more objectives are the right numbers of bytes exactly if d*(n+1) < 2^31 for n points with d objectives; otherwise a signed overflow occurs. The subscripts of a matrix of int-indexed rows are defined exactly if it has at most 2^31 elements; those of the two-objective hypervolume exactly if there are at most 2^30 points; with size_t there is no such limit. The number of rows of the EAF matrix is the sum of the sizes of the levels if that is less than 2^31 and overflows otherwise; its elements are written one after the other, each once, if there are at most 2^31 of them and otherwise a subscript overflows. 3*N*levels <= 2^31 suffices for a two-objective EAF of N points. Reading a file with up to 2^31 - 512 numbers never writes outside of its block; with one more number, the program writes through a null pointer.", "quantifier": "all numbers of points, objectives, levels and numbers in a file", "why_tests_cant": "The limits lie at billions of points, which no test uses; an int expression that overflows a little earlier in one function would not be seen.", "anchors": ["c/hv.c: setup_cdllist, hv2d, shift_reference", "c/epsilon.h, c/igd.h, c/nondominated.h, c/ndsort.c, c/whv.c, c/whv_hype.c: subscripts", "c/eaf.h: eaf_totalpoints", "c/eaf.c: eaf2matrix, eaf2matrix_R, eaf_compute_matrix", "c/io_priv.h: objective_read_data"]}
{"id": "C114", "title": "normalise, whv_rect and whv_hype access memory correctly for arbitrary doubles, NaN included", "statement": "Whatever the doubles are and whatever their arithmetic and comparisons give, normalise replaces each element by the same formula of that element, its bounds and the range, so that exactly the elements become NaN that are NaN or have a NaN bound. whv_rect never reads or writes outside of a block and never reads memory that was not written, in whatever order qsort leaves the rows: it returns a value or fails an assertion. whv_hype does neither, and its assertion never fails. Without NaN and in exact arithmetic the results are those of the claims about these functions on exact numbers. A NaN is neither rejected nor ignored: whv_rect aborts on a NaN second coordinate that is sorted first, a NaN first coordinate hides area, a NaN corner of a rectangle is replaced by the reference point, and a point of NaNs makes whv_hype return the area of the whole box.", "quantifier": "all data, bounds, rectangles, reference points and samples, all arithmetic operations and comparisons of doubles, all permutations left by qsort", "why_tests_cant": "A test sees a read outside of a block or of memory that was never written only by accident, and there are infinitely many patterns of NaN, of empty rectangles and of ties.", "anchors": ["c/nondominated.h: agree_objectives, normalise, agree_normalise", "c/whv.c: whv_preprocess_rectangles, rect_weighted_hv2d", "c/whv_hype.c: estimate_whv, calculate_volume_between_points, normalise01, whv_hype_sample"]}
{"id": "C115", "title": "The hypervolume and the contributions access memory correctly for arbitrary doubles as far as stated, and what NaN does to them", "statement": "Whatever the doubles are and in whatever order qsort leaves the points, the hypervolume of two or of three objectives never reads or writes outside of a block, reads only what was written, and ends. hv_contributions does so too if the hypervolume function does, leaves the points as they were, and stores the differences of hypervolumes, with 0 for those that are below the tolerance or not comparable to it. For any number of objectives from three on the set-up of the lists and the filter by the reference point make no wrong access; no point that is below the reference point in every objective is dropped; the result is 0 if in some objective no point is below the reference point, and the hypervolume of one point is the product of its sides or 0. So a NaN in the reference point or an objective that is NaN in all points gives 0 for three or more objectives, and NaN or 0 for two. Contributions of a set whose hypervolume is NaN are all reported as 0. A NaN in some of the points is neither rejected nor ignored: with two or three objectives it can silently hide area or volume, and with four objectives the program can read memory that was never written.", "quantifier": "all data and reference points, all arithmetic operations and comparisons of doubles, all permutations left by qsort, all numbers of points and objectives", "why_tests_cant": "A test sees a read of memory that was never written only by accident, and there are infinitely many patterns of NaN and orders that qsort may leave.", "anchors": ["c/hv.c: hv2d, setup_cdllist, filter_delete_node, filter_ref, fpli_hv, hv_recursive_ref, fpli_hv3d_ref", "c/hv_contrib.c: hv_1point_diffs, hv_contributions"]}
{"id": "C116", "title": "get_nondominated_set returns exactly the rows that the filter keeps, for arbitrary doubles; with two objectives it does not", "statement": "Whatever the doubles are, with any number of objectives other than two get_nondominated_set makes no wrong memory access and returns the number of rows that is_nondominated(keep_weakly = false) keeps together with a block holding these rows, in their order, and nothing else; rows with NaN are all kept and do not influence the others. With two objectives and two or more points the number returned by find_nondominated_set is the number of rows removed, so the result is correct only if exactly half of the rows are kept: if more are kept (for example if nothing is to be removed) the function writes behind the end of its block, and if fewer are kept its assertion fails or it returns rows that were never written.", "quantifier": "all data, all comparisons of doubles, all numbers of points and objectives, all directions, all permutations left by qsort, with or without assertions", "why_tests_cant": "An out-of-bounds write need not have a visible effect, and there are infinitely many data sets and patterns of NaN.", "anchors": ["c/nondominated.h: get_nondominated_set, find_nondominated_set, find_nondominated_set_, nondom_init"]}
{"id": "C117", "title": "The timer reports the time during which it was running", "statement": "If the clocks do not go backwards and the timer is stopped only while it runs and continued only while it is stopped, the elapsed time (real or of the process) is the sum of the intervals during which the timer was running since it was last started, whatever was called before. Whatever is called and whatever the clocks say, the time reported is never negative and never more than the time since the last start. While the timer is stopped the time since then is counted too, and continuing twice loses the time in between.", "quantifier": "all histories of calls of Timer_start, Timer_stop, Timer_continue and all answers of the clocks", "why_tests_cant": "The histories of calls and the answers of the operating system are unlimited, and real clocks cannot be made to answer at will.", "anchors": ["c/timer.c: Timer_start, Timer_stop, Timer_continue, Timer_elapsed, Timer_elapsed_real, Timer_elapsed_virtual", "c/main-hv.c: hv_file"]}
{"id": "C118", "title": "eaf, ndsort and dominatedsets: which files are read and written", "statement": "On a command line that is accepted, eaf computes from the contents of the named files (the standard input for - or without names) what C72 says, sends to the standard output what belongs there, and every file named by -o, -i or -d contains afterwards exactly what was written to it, also if it is one of the input files; no other file changes, on any command line. If an input file does not exist it fails and creates or empties nothing. If a level or percentile is wrong it fails, but the output files are emptied. ndsort and dominatedsets never change a file; their output is that of C70 and C71 for the contents of the files, and a missing file makes them fail.", "quantifier": "all command lines, all file systems (names and contents), all standard inputs", "why_tests_cant": "The command lines, file contents and coincidences between names of input and output files are unlimited.", "anchors": ["c/eaf_main.c: main, read_input_data, eaf_print, eaf_print_polygon", "c/ndsort.c: main", "c/dominatedsets.c: main"]}
{"id": "C119", "title": "Seeding the random number generator from an array", "statement": "mt19937_init_by_array with an array of any positive length accesses nothing outside of the state and the array, and the generator then returns the words of the Mersenne twister sequence that the reference initialisation defines, whatever the state contained before; it never gets stuck at zero. Different arrays of the same length of at most 622 words give different random numbers; for every greater length there are two different arrays that give the same ones. Arrays of different lengths need not: w alone and w, w-1 give the same sequence. An empty array is read outside of its bounds.", "quantifier": "all arrays of all lengths, all previous contents of the state, all numbers of calls", "why_tests_cant": "There are 2^(32 n) arrays of length n and the sequence of words has no end.", "anchors": ["c/mt19937/mt19937.c: mt19937_init_by_array, init_genrand", "c/mt19937/mt19937.h: mt19937_next"]}
{"id": "C120", "title": "Random numbers in an interval stay in it, rounding included", "statement": "rng_uniform(rng, low, high) on finite doubles is low, without using the generator, if low >= high; otherwise it uses two words and its result is a double that is at least low and at most high, although difference, product and sum are rounded. Where nothing is rounded it is less than high; in general high itself can be returned.", "quantifier": "all finite doubles low and high, all states of the generator, every rounding to nearest", "why_tests_cant": "The pairs of doubles and the states are too many, and the cases in which a rounding could leave the interval are rare.", "anchors": ["c/rng.h: rng_uniform, rng_random", "c/mt19937/mt19937.h: mt19937_next_double"]}
{"id": "C121", "title": "The debugging check of the EAF polygons: what it reports", "statement": "eaf_check_polygons (compiled with DEBUG >= 1) ends on every vector of polygons, reads nothing outside of it, and fails exactly if for some pair of polygons no vertical and no horizontal line lies between them and each has a corner less than a corner of the other in both coordinates; the order of the pair does not matter. For rectangles this is exactly that their interiors have a point in common. For other polygons it can fail although the polygons are disjoint.", "quantifier": "all vectors of polygons, of any number, with any number of corners, over any linear order", "why_tests_cant": "The check compares all pairs of arbitrary polygons; tests run it, if at all, on a few.", "anchors": ["c/eaf.c: eaf_check_polygons, polygons_intersect, min_max_in_objective, polygon_dominates_any_point, polygon_dominates_point, next_polygon"]}
