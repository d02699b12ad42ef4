# Formal model of moocore: design and trusted base

Everything here is about the C core of moocore (`/repo/c`) and, where stated,
the thin Python/R layers over it.  The model and proofs are in `lean/Verif/`.

## Layout

* `Verif/Spec/*.lean`   small specifications, written without looking at the code
  (dominance, nondominated sorting, region/volume, attainment, ...).
* `Verif/Model/*.lean`  the model of the code, function by function; every
  definition cites the file and lines in `/repo` that it models.
* `Verif/Lemmas/*.lean` helper lemmas and inductive invariants.
* `Verif/Props/*.lean`  the property theorems, one file per area, each with
  `example`s that show that the hypotheses are met by concrete cases, and with
  the refutations (a concrete witness) of claims that the code does not satisfy.

## Modelling conventions

* **Numbers.** Code that only compares objective values is modelled over an
  arbitrary `LinearOrder α`; this covers IEEE doubles without NaN (with
  infinities, -0 = +0) exactly.  Code that does arithmetic is modelled over the
  reals or an ordered field, i.e. with *exact* arithmetic: floating-point rounding, overflow to
  infinity and NaN are not modelled (stated again at each such property).
  C `int`/`size_t` counters are unbounded naturals/integers (no overflow modelled), except in the bit array,
  where 64-bit words are `BitVec 64`, and in C113, which states up to which sizes block sizes and subscripts do not overflow.
* **Arrays.** `points + k*dim + d` is modelled as `pts k d` with `pts : ℕ → Fin dim → α`
  and a separate `size`.  The function is total on ℕ, and the theorems quantify over *every* such
  function, so what lies outside the array is arbitrary: no theorem can depend on it.
  Writes outside an allocated block, failed `assert`s and `fatal_error` are distinct outcomes of the model where they can occur.
* **qsort** may leave equal elements in any order.  It is modelled by
  quantifying over every sorted permutation of the input (not by one fixed sort).
* **Loops** become structural recursion over the index range or recursion on an explicit fuel/list,
  with the mutable variables as arguments.
* **Allocation** always succeeds (`malloc` failure aborts in the code).

## Trusted base

* Lean 4.33.0 kernel.  The axioms each theorem of MANIFEST.json depends on are listed in `AXIOMS.txt` (output of Lean's
  `collectAxioms`); they are always among `propext`, `Classical.choice`, `Quot.sound`.  No other axiom occurs, no `sorry`, no
  `native_decide`/`bv_decide`.  `decide +kernel` is used only for concrete examples and counterexamples; it is evaluated by the kernel.
* Mathlib's definitions used in statements (`LinearOrder`, `MeasureTheory.volume`, `List.Perm`, `List.Pairwise`, ...).
* That the model is a faithful reading of the C source.  Every definition in `Verif/Model` cites the lines it models and says where it simplifies.

### What is modelled

| file in /repo | modelled (in `Verif/Model/...`) | not modelled |
|---|---|---|
| c/nondominated.h | all functions (Nondominated, Normalise, ParetoRank for c/pareto.c), steps (DomCost; C98), memory accesses and NaN (NdMem, WhvMem, GetNd; C103, C104, C114, C116) | — |
| c/nondominated.c | `calculate_uev`, `force_bounds`, `data_bounds` (Bounds); the checks of `check_nondominated` use C01-C06 | option parsing, printing |
| c/pareto.c | `pareto_rank`, `pareto_rank_2D` (ParetoRank) | debugging code |
| c/epsilon.h, c/igd.h | all functions (Epsilon, Igd) | `pow` on non-natural exponents, rounding |
| c/hv.c | `hv2d`, `fpli_setup_cdllist`, `fpli_filter_delete_node`, `fpli_hv3d_ref`, `hv_recursive_ref`, `fpli_hv` of the default variant (Hv2d, Hv), `filter`, `fpli_hv3d`, `hv_recursive`, `shift_reference`, `fpli_hv_shift` (HvShift); the nodes of the AVL trees (HvTree, HvShiftTree); the accesses to memory for d ≥ 3 (HvMem) and of `hv2d` (HvNan); the number of steps (HvCost; C97) | |
| c/hv_contrib.c | all (HvContrib; in memory HvNan) | |
| c/Hypervolume_MEX.c | `mexFunction`, `data_maximum` (Mex; C100) | the help text, MATLAB itself |
| c/avl.c | insertion, deletion, search, rebalancing, on a heap of nodes with pointers (Avl), and again with a count of steps (AvlCost; C96) | `avl_item_t` callbacks, unused traversal macros |
| c/bit_array.h, c/cvector.h | all operations used (BitArray, CVector) | |
| c/eaf.c | `eaf_create`, `eaf_realloc`, `eaf_store_point`, `eaf_adjust_memory`, `eaf2matrix(_R)`, `levels_from_percentiles`, `eaf2d`, `eaf_compute_matrix`, `attained_left_right`, `eaf_compute_rectangles`, `eaf_compute_polygon`, `eaf_print_line`, `eaf_print_attsurf`, `eaf_print_polygon`, `eaf_check_polygons` (PolyCheck; C121) (EafMain, EafPolyMain, Eaf2d, EafStore, EafRect, EafPolygon, Percentile, Matrix), steps and reallocations (EafCost; C102), memory accesses and NaN of `eaf2d` (EafMem; C108) | conversions of numbers |
| c/eaf_main.c | `main`, `read_doubles`, `read_ints`, `read_input_data`, `eaf_print` (EafMain), `--polygons` for two objectives (EafPolyMain), files and options (FsEaf) | messages, failures of `fopen` other than missing files, different names of one file |
| c/eaf3d.c | all of it, with the AVL trees as the in-order sequence of their nodes (Eaf3d), and again on the nodes of the trees, with the blocks that are allocated and released (Eaf3dTree; C95) | failures of `malloc` |
| c/eafdiff.c | `eafdiff_compute_matrix`, `eafdiff_compute_rectangles` (Percentile, EafRect) | |
| c/io.c, c/io_priv.h | `skip_comment_line`, `read_*data`, `write_sets`, `read_minmax`, `read_bitvector` on characters (Io, Options in Props) | locale, the digits of numbers (a parameter with stated assumptions, and integers without) |
| c/main-hv.c, c/cmdline.h | `main`, `hv_file`, `file_range`, `read_reference`, `data_bounds`, `handle_read_data_error` (HvMain, Cli, Bounds) | messages, `--verbose`, digits of the output |
| c/epsilon.c, c/igd.c, c/cmdline.h | `main`, `do_file`, `read_reference_set` (IndMain) | messages, `--verbose`, digits of the output |
| c/nondominated.c | `main`, `process_file`, `check_nondominated`, `force_bounds`, `file_bounds`, `logarithm_scale`, `read_range` (NdMain) | `--verbose`, `--quiet`, the text of the header (assumed to be comments), NaN and infinite values |
| c/ndsort.c | `main` (NdSort), `calculate_uev` (Bounds; its result is not used by the program) | `--verbose`, conversions `%d` and `%g`, infinite values |
| c/dominatedsets.c | `dominance`, `set_dominates`, `pareto_better`, `cmpparetos`, the input check, ranks (DominatedSets), `main` and the tables of `print_results` (DsMain) | the lines with `#` and the headers, conversions `%d` and `%.1f` |
| files: `main` of hv, epsilon, igd, nondominated, eaf, ndsort, dominatedsets | which files are read and written, missing files, `--suffix`, the order of effects (FsMain; C94, FsEaf; C118) | files that exist and cannot be read or written, two names of one file, directories |
| the `main` of all seven programs | tables of options, `switch` labels, `getopt_long` after its documentation (Getopt) | other C libraries than GNU, `POSIXLY_CORRECT`, locale |
| c/timer.c | all (Timer; C117) | the functions for Windows, debugging code |
| c/whv.c, c/whv_hype.c | all (Whv, WhvHype), memory accesses and NaN (WhvMem; C114); the random number generator is an arbitrary function | |
| c/mt19937/*, c/rng.h | `mt19937_seed`, `mt19937_gen`, `mt19937_next`, `mt19937_next_double` (Mt19937), `rng_standard_normal` (Ziggurat; C106), the normal tables of c/ziggurat_constants.h digit by digit (ZigConst; C110), `mt19937_init_by_array`, `init_genrand` (MtArray; C119), `rng_uniform` (RngUniform; C120); these three are never called by the rest of the code | `mt19937_jump` (declared only) |
| python/src/moocore/_moocore.py | within-set functions, `vorobT`, `vorobDev`, `whv_hype`, `whv_rect`, `total_whv_rect`, `get_ideal`, `hv_approx`, `eaf`, `eafdiff`, `largest_eafdiff`, `hypervolume`, `Hypervolume`, the unary and binary indicators, `is_nondominated`, `filter_dominated`, `pareto_rank`, `normalise`: shapes, broadcasting, directions, defaults, errors (HvWrappers, IndWrappers, DomWrappers, WhvWrappers, VorobWrappers) | conversions of the array types, warnings, NumPy itself (by its documented results) |
| r/R/*.R | the same functions and `eaf` with groups, `eaf_as_list`, `attsurf2df`, `rbind_datasets`, `write_datasets`, `choose_eafdiff`, `eafdiff` with polygons (the modules above and RDatasets) | data sets of the package, S3 classes and names, R itself (by its documented results) |
| r/src/Rmoocore.c | `R_read_datasets`, `compute_eaf_C`, `compute_eafdiff_C`, `compute_eafdiff_polygon_C`, `hypervolume_C`, `hv_contributions_C`, and the functions the wrappers above call; and, as programs over the heap of R with any schedule of its garbage collector, all 17 functions with the macros of Rcommon.h (C109) | the registration table init.h |

Not modelled anywhere: libc (`qsort` is a relation, `strtod`/`fscanf` number syntax, `malloc`), CFFI/R memory handling,
integer overflow (except for C113).  Floating-point rounding is modelled in Model/Float (C50–C54) and Model/FloatHv (C89–C92): every operation is followed by
a rounding to a nearest double, with any rule for ties and gradual underflow but without a largest exponent (no NaN), `FLT_EVAL_METHOD` 0 and
no fused multiply-add.  C99 states for which data the missing largest exponent makes no difference.  All other properties are about exact arithmetic, or about code that only compares.

## Plan per property

| id | modelled code | how it is proved |
|----|---------------|------------------|
| C01 | `find_nondominated_set_` generic loop, `..._keep_weakly_2d_`, `force_agree_minimize`, `minmax_from_bool`, `is_nondominated` | loop invariant over (k,j): an index is cleared only if dominated; at the end nothing flagged is dominated (transitivity, finiteness); 2D: invariant of the scan over any sorted permutation |
| C02 | same, `..._delete_weakly_2d_` | same invariants, uniqueness from weak dominance among survivors |
| C03 | both paths | corollary of C01/C02 characterisations |
| C04 | corollaries | |
| C05 | return values, `get_nondominated_set` with write bounds | true for dim ≠ 2, refuted with a witness in 2D (`_partial`) |
| C06 | `find_dominated_2d_`, generic early return | invariant; refuted for size < 2 |
| C07 | `force_agree_minimize`, `agree_objectives` | direct from C01 characterisation |
| C08 | `pareto_rank` generic level loop | outer induction on level, inner invariant: points of the level are demoted iff dominated by a point of the level |
| C09 | `pareto_rank_2D` with binary search | invariant: `front_last` holds the lexicographically last point of every front, second coordinates sorted |
| C10 | corollary of C08/C09 and peeling | |
| C11 | `hv2d` | sweep = sum of disjoint strips; Lebesgue measure of staircase |
| C12 | `fpli_hv3d_ref` with list model of the AVL tree (justified by C80) | sweep invariant: area variable = measure of 2-D slice |
| C13 | `hv_recursive_ref` | induction on dimension with caching invariant; may stay partial |
| C14, C15 | corollaries of the measure theorem | |
| C16 | `hv_1point_diffs`, `hv_contributions` | corollary of C13 |
| C17–C19 | `epsilon.h` over reals extended with ±∞ | max/min folds = sup/inf; least element characterisation |
| C20, C21 | `gd_common` over ℝ | folds = sums/minima |
| C22 | `normalise`, `agree_objectives`, `agree_normalise` | affine algebra, order lemmas |
| C23–C25 | `eaf2d` | sweep invariant over two sorted orders |
| C26 | `percentile2level`, `level2percentile` | floor/ceil algebra |
| C27 | `attained_left_right`, `eafdiff_percentile`, `eaf_diff_color` | counting |
| C28 | `bit_array.h` with `BitVec 64` words | bit-level lemmas |
| C29 | `cvector.h` | refinement to `List` |
| C30 | `matrix_transpose_double`, `eaf2matrix(_R)` | index arithmetic |
| C31–C33 | `read_objective_t_data`, `skip_comment_line`, `write_sets`, `read_datasets` on token/character level | parser round trip by induction |
| C34 | `rect_weighted_hv2d` | sweep; expected refutation of the unrestricted claim, partial for what holds |
| C35 | `estimate_whv`, the sampling functions, `whv_hype_*` | counting; samples lie in the box for every generator |
| C36, C37 | AVL functions on a tree model | in-order sequence and balance by case analysis of rebalance |
| C38 | `force_bounds`, `data_bounds` | compaction loop = filter |
| C39 | `dominance`, `set_dominates`, `pareto_better`, `cmpparetos` | order theory |
| C40 | Python grouping | permutation argument |
| C41 | `vorobDev` arithmetic over measure | measure of symmetric difference |
| C42 | `eaf3d`, all of c/eaf3d.c, `eaf_compute_matrix` | invariant of the sweep: level `k` and the output of level `k` together are the minimal points attained by `k+1` runs of the prefix; ghost chains of attaining runs for `find_all_promoters` |
| C43 | `eaf_compute_rectangles`, `eafdiff_compute_rectangles` | invariant of the merge of two neighbouring surfaces: rectangles so far tile the region left of the sweep; colours from C24 |
| C44 | `read_minmax`, `read_bitvector` | induction on the string |
| C45 | `calculate_uev` | loop invariant |
| C46 | `minmax` entries 0 in the generic and 2-objective nondominated functions | the generic code ignores such an objective; refuted in 2D |
| C47 | `fpli_hv` with a stable sort | corollary of C13: stable sorts order ties alike |
| C48 | `vorobT` | bisection invariant; refutation of optimality and termination |
| C49 | `whv_hype` (Python) with `maximise` | mirror symmetry of the estimate; refuted for dist="point" |
| C50 | epsilon.h with a rounding after every operation (Model/Float) | rounding is monotone, so it commutes with the maxima and minima; spacing of doubles for the thresholds |
| C51 | percentiles with roundings | three or four relative errors against the tolerance; monotonicity of rounding for the bounds without error |
| C52 | `hv2d` with roundings | relative error calculus `Within`; equality of the runs on value-equal sorted lists |
| C53 | `gd_common` (p = 1) with roundings | `Within` through squares, sums, minima, root, mean; monotonicity for compliance |
| C54 | `normalise`, `agree_normalise` with roundings | monotonicity; exactness of the unit range; two concrete refutations of stronger claims |
| C55 | Python `hv_approx` over the reals, normal numbers as random variables with the standard normal law | polar coordinates: the volume of a star-shaped set is a gaussian mean of its radius (Lemmas/PolarGauss); strong law of large numbers |
| C56 | the same, for every fixed sequence of random numbers | monotonicity of maxima and minima |
| C57 | `whv_hype_unif`, `whv_hype_expo` with a stream of random variables as generator | mean of an indicator; distribution function of -mu log U; strong law |
| C58 | mt19937.c, mt19937.h, `rng_random` on bit vectors of 32 bits (Mt19937) | loop invariants against the recurrence of the paper; the recurrence can be run backwards; exactness of the three operations |
| C59 | R `eaf` without groups: ordering by label, table counts, maximise, percentiles (EafLabels) over the C matrix of Eaf2d/Eaf3d | the runs of the sorted labels are the sets; C25/C42 for the runs; the level of a percentile by C26 |
| C60 | Python `eaf` (EafLabels) | same, for labels in nondecreasing order; counterexample for other orders |
| C61 | `eafdiff` in R and Python (EafDiff) | the two data sets are stacked; counts of the two halves = label counts; duplicates removed; rectangles from C43; counterexamples for unequal numbers of sets and for one row in R |
| C62 | R `largest_eafdiff` (LargestEafdiff) | rectangles of C61 are disjoint and cover the region of nonzero difference; C34 for the single point `ideal`; loop over pairs keeps the first maximum |
| C63 | `hypervolume`, `Hypervolume` in Python, `hypervolume`, `hv_contributions` in R (HvWrappers) | arguments reduce to one value per objective; C47 and C16 on mirrored data; mirroring keeps volumes; the class: case distinction on the lengths |
| C64 | memory of the arguments in Python and R (PyMemory): `asarray_maybe_copy`, negation in place, `whv_rect` | blocks of memory with aliasing; writes go to new blocks; counterexamples for views and for `whv_rect` |
| C65 | c/eaf.c:594-806 (eaf_compute_polygon), r/src/Rmoocore.c:103-125,167-257 and r/R/eafdiff.R:144-153, on top of eaf2d/eafSurface2d of C22/C43. Even-odd rule as the specification of the inside (Spec/Polygon.lean) | Induction on the fuel of the walk: each polygon is the part of the slab between two heights that is above one staircase and not the other; crossing counts of vertical sides; colours by constancy of the attaining set; truncation of the rounded quotient |
| C66 | c/hv.c:615-922 (fpli_hv_shift and the functions without reference point), as separate definitions next to Hv | Each function equals its counterpart of Hv with reference point zero (induction); volume is invariant under translation; one objective directly from the list invariant |
| C67 | c/main-hv.c: `main`, `hv_file`, `file_range`, `read_reference` | composition of C31/C32 (reading), C38 (bounds), C13 and C66 (volumes); the loop over the sets by induction, with the invariant that the array still holds the later sets |
| C68 | c/epsilon.c, c/igd.c: `main`, `do_file`; c/cmdline.h: `read_reference_set` | the two programs are one model with the indicator as a parameter; composition of C31 (reading), C44 (options), C17, C18, C20, C21 (indicators); the loops over files and sets by induction |
| C69 | `nondominated` (NdMain): options, one file, several files, bounds, transformation, check, filter, output text | Model of `main` and `process_file` on top of the reader, `data_bounds`, `force_bounds`, `normalise` and the filter. The transformation is strictly monotone or antitone on the bounds, so dominance is preserved; the fronts of the transformed sets are the transforms of the fronts; the text is that of `setLines`, read back by the reader. Options by an invariant over the option list. |
| C70 | `ndsort` (NdSort): options, collecting the first front with its bounds, scaling, contributions, order | Model of `main` on top of the reader, `pareto_rank`, `normalise` and `hv_contributions`. Specification: fronts (Spec/Rank), the scaled first front, volumes of regions with and without a point. Invariant of the collecting loop, then C08, C10, C16. False for directions other than minimisation. |
| C71 | `dominatedsets` (DsMain): options, reading all files, the check, the table of results, percentages and ranks | Model of `main` on top of the reader and of C39. Specification: pairs of sets, better = weakly dominates and not the other way round; tables over the list of files. The file arrays are related to the lists of sets; the comparison loops by induction. False for one-point sets and ignored objectives with the check. |
| C72 | `eaf` (EafMain): options, lists of numbers, reading all files, streams, levels, `attsurf`, output | Model of `main` on top of the reader, C23-C26 and C42. Specification: runs as lists of points, surfaces by minimality, text per stream. The options by induction; reading by the line automaton with earlier runs kept; the surfaces in memory from C24 and C42; the output per stream by filtering. False for 50 numbers or more, for files named twice, for the indices of one run and without data. |
| C73 | Python and R wrappers of the five unary indicators: shape tests, broadcasting of maximise, conversion of the exponent, call of the C function; errors, process exit and undefined behaviour are outcomes | from C11-C17 on the C functions and uniqueness of the specified values |
| C74 | Python and R wrappers of is_nondominated, filter_dominated, pareto_rank, normalise: shape tests, broadcasting or recycling, negated columns, column extremes for missing bounds | from C01-C04, C08, C22 by congruence on the columns and rows in range |
| C75 | Python and R whv_rect, total_whv_rect, get_ideal, choose_eafdiff: shape tests, broadcasting, defaults, the C function of C34 with sorted copies | weighted integral over the dominated region as a sum over rectangles (C34), total value as integral of 1 + beta w, EAF differences by C61 |
| C76 | Python and R vorobT and vorobDev: the loop over percentages, the calls of eaf and hypervolume per set, the treatment of directions and reference points | the quantile regions as regions dominated by the best points (every attained vector has a best vector before it, by finiteness of the grid), monotone in the level; bracket invariant of the loop; deviation by volumes of unions; minimality by integrating the number of dominating sets over the two differences |
| C77 | rbind_datasets on lists of rows | labels of the second table are shifted above those of the first; card of disjoint images |
| C78 | write_datasets as text, the reader of C24 | lines of the file, one block per label; the reader's runs of rows; concatenation of the blocks is a permutation of the rows |
| C79 | eaf with groups, eaf_as_list and attsurf2df of R on top of the model of C59 | the rows of a group as a table of its own (counts of sets agree); the blocks of the percentiles are split exactly; last occurrences in a list sorted by percentile; a best point is best for the number of sets attaining it |
| C80 | `fpli_hv3d_ref`, `hv_recursive_ref`, `fpli_hv` on the nodes of the AVL tree (HvTree) | forward simulation: the tree at pointer level satisfies `AvlInv` with the item list of Hv at every step (C36); the other fields are equal, level by level, for any order of ties |
| C81 | `eaf3d` on the tables of tree fields, with `avl_*` of c/avl.c, output lists chained by `next`, and memory that is not initialised | simulation: the trees represent (balanced, in order) the sequences of the model of C42; frame lemmas for the `next` field of nodes that have left the tree |
| C82 | `fpli_hv3d`, `hv_recursive`, `fpli_hv_shift` on the nodes of the AVL tree (HvShiftTree) | each function is the one of HvTree with reference point zero, so C80 carries over |
| C83 | Laws of the hypervolume in both packages: change of units, permuted objectives, unions, diminishing returns, reference point, sum of contributions. | From the identification of the returned value with a Lebesgue measure (C63): images under affine maps and permutations, unions and intersections of regions, disjointness of the exclusive regions. |
| C84 | Laws of epsilon, IGD+, IGD and averaged Hausdorff in both packages. | From the characterisations of C73: least value that makes one set weakly dominate the other; averages of nearest distances compared term by term. |
| C85 | is_nondominated and pareto_rank depend only on the order of the values in each objective; permuted rows. | From C74: masks and fronts are determined by the dominance relation, which is determined by the comparisons. |
| C86 | Laws of eaf (change of units, rows and names, first surface = filter_dominated) and of eafdiff (exchange, self, bound). | From C79, C61 and C74: the surfaces are determined by the counts of attaining sets, which are transported along the maps. |
| C87 | `main` with `--polygons` and `eaf_print_polygon` (Model/EafPolyMain) on the models of C65 and C72 | reading side from C72, polygons from the per-level lemma of C65, restated for the runs of the files |
| C88 | `Model/HvMem.lean`: all functions of `fpli_hv` (d ≥ 3) on memory with undefined cells, extents checked, null data pointer of the head, loops that must end | simulation with `Model/Hv.lean` by induction on the level; invariants: pointers defined and closed, links as in C80, values of nodes below `bound` defined; needs coordinates ≥ -DBL_MAX |
| C89 | fpli_hv with a rounding after each operation (Model/FloatHv.lean), any number of objectives | Every value the run holds is a multiple of its grid step and bounded by the box, so it is representable; simulation of the exact run, by induction on the objectives |
| C90 | The same model in three objectives | Simulation relation between rounded and exact sweep with an error that grows by a factor per operation; the area never exceeds the box |
| C91 | hv_contributions with roundings and its assertion (Model/FloatHv.lean) | From C89 and C90; two objectives from the independence of dominated points (C52); the failures are computed for every rounding to nearest |
| C92 | the floating-point run of `fpli_hv` with four objectives (FloatHv) | evaluation of the run on three points with symbolic rounding, using only that rounding is to nearest |
| C93 | `getopt_long` (GNU, after its documentation), the seven tables of options and `switch` labels (Getopt) | A grammar of command lines in Spec/CommandLine, the usage messages transcribed in Spec/Usage. Words are compared with the grammar by induction on the argument vector; that a table agrees with a usage message is reduced to the letters and the prefixes of names that occur in either (kernel evaluation), with a proof that other words are in neither. |
| C94 | the four programs as functions of the argument vector, the standard input and the files (Model/FsMain: getopt_long from C93, the loop over the files with fopen, fprintf, fclose as an update of the files); the programs on contents are those of C67, C68, C69 | the loop over files is the loop over contents if no output is a later input (induction over the names); the switch is an invariant over the options; frame and read-set lemmas by induction |
| C95 | the blocks that `eaf3d` allocates and releases (`Live3`), what released memory contains (`Freed3`), the static list head | the simulation of C81 with the invariant that exactly the nodes and items in use are allocated; induction over the release loops |
| C96 | the functions of c/avl.c again with a count of loop iterations and calls (AvlCost) | depth of a balanced tree is at most 2 log n + 1; the way from a node to the root is no longer than that |
| C97 | HvCost: HvMem and HvTree once more, with a tick per iteration of a loop and per call of a recursive function; the values are unchanged (the theorem says the run ends with the value of the untimed model) | A bound for each loop from the invariants of HvMem (distinct nodes on a list) and of C96 (tree depth); the recursion on the number of objectives gives n^(d-2) |
| C98 | DomCost: Nondominated, ParetoRank and Epsilon once more, with a tick per iteration of a loop | A bound for each loop by induction; the interval of the binary search is halved and never longer than the number of points seen; the number of levels from C08 |
| C99 | Model/Float, Model/FloatHv with an arithmetic that is arbitrary beyond 2^1023 (Spec/Overflow) | bounds for every intermediate value by induction on the objectives and on the lists; equality of the run with that of a rounding without a largest exponent |
| C100 | Hypervolume_MEX.c: arguments, transposition, data_maximum, call of fpli_hv (Model/Mex.lean) | index arithmetic for the transposition, invariant of the loop of data_maximum, then C13/C47 |
| C101 | `whvHypeGaus`, `bivariateNormalFill` (Model/WhvHype.lean) run on a stream of random numbers | The samples of a stream in closed form; domination of a sample on the diagonal is a comparison with the distance to the goal; expectation and strong law from Mathlib; laws of affine combinations of independent normals; negation: two sets with the same distance whose regions differ by an open set |
| C102 | `eaf2dC` (Model/EafCost.lean): the sweep with a step counter; `eafGrow`: the growth of the capacity | The counting functions project to those of C23; potential: x and y only move forward; number of reallocations by invariants on size, capacity and counter; product of the growth factors bounded by exp of a geometric series; staircase of nondominated points as witness |
| C103 | NdMem: filtering and ranking once more over flat blocks of cells (bounds and initialisation checked), comparisons arbitrary | every run equals a run that depends only on the Boolean relation between rows; termination of pareto_rank by a count of the rows of the last level; equality with the models of C01/C08 for a linear order |
| C104 | the same model with IEEE comparisons (NaN compares false) | the relation between rows is transitive, so it is the dominance relation of another table without NaN, to which C01 and C08 apply |
| C105 | `epsilon_additive`, `epsilon_mult`, `GD`, `IGD`, `IGD_plus`, `avg_Hausdorff_dist` on doubles that may be NaN or infinite, with the comparisons of `MAX`/`MIN` as written | folds over NaN: an absorbing element that the next one forgets; splitting of ranges |
| C106 | rng_standard_normal (c/rng.c:71-99) as a function of an infinite stream of draws; tables as an abstract structure with the equations of the ziggurat method; exact arithmetic, rabs a real number | rejection lemma (geometric series over independent draws), layer densities telescope, tail by exponential proposals, independence of later draws by disjoint sigma-algebras; existence of the tables by the intermediate value theorem |
| C107 | Model/FloatWhv: rect_weighted_hv2d with a rounding after every subtraction, product and sum; the control flow only compares inputs and is that of Model/Whv | a simulation with an arbitrary invariant indexed by the number of additions, instantiated with the relative error, with nonnegativity and with equality on integers; C34 gives the exact value |
| C108 | c/eaf.c:292-433 (eaf2d) over blocks with bounds and initialisation; comparisons of doubles abstract; assertions on or off | invariant of the sweep over indices only (no order needed) for safety and termination; simulation of the exact model of C23 for data without NaN; concrete runs for NaN |
| C109 | r/src/Rmoocore.c and Rcommon.h as programs over a heap of R objects, a stack of protected objects and the blocks of malloc (Model/RGc.lean); the collector is a relation | weakest preconditions for all executions, with an invariant listing the protected objects and blocks held; soundness by induction on executions |
| C110 | the 770 constants of c/ziggurat_constants.h (Model/ZigConst), each rounded by any rounding to nearest, in the model of rng_standard_normal of C106 | approximate ziggurat equations (ZigNear) imply total variation at most 10 times the error; the equations with error 8e-13 are checked for the literals with rational interval bounds: Taylor bounds of exp, continued fraction of the Mills ratio for the tail, proved correct and evaluated by the kernel |
| C111 | whv_hype_gaus with a generator whose state is the stream of random numbers and whose normal is rng_standard_normal with the tables of the code (ZigRng) | values of successive calls: almost surely defined, identically distributed (law of C110), pairwise independent (zigMany_prob); mean and strong law of large numbers as in C101 for an arbitrary law |
| C112 | Model/Mt19937, Model/MtDoubles: successive calls of the generator on an arbitrary content of its array; Model/WhvHype | Lemmas/MtEqui: one step of the recurrence is a bijection of the windows of 624 words, so the window map is one; counting of fibres. Lemmas/GridArea: an upper set of the unit square contains the right number of grid points up to two edges |
| C113 | int and size_t expressions with overflow as undefined behaviour (CInt): block sizes of setup_cdllist, hv2d, matrices; subscripts of rows, of the EAF matrix; growth of the block of read_objective_t_data | evaluation of the expressions; loops over levels are one loop over rows; induction on the numbers read |
| C114 | Model/WhvMem: every load and store of normalise, c/whv.c and estimate_whv on blocks of cells, with arbitrary comparisons and arithmetic | each loop is shown to compute a function on rows (Lemmas/WhvMem); for an ordered field these functions are those of C22, C34 and C35; NaN by an `Option` type |
| C115 | `hv2d`, `hv_1point_diffs`, `hv_contributions` on blocks of memory (HvNan); the model of `fpli_hv` on its memory (HvMem) with arbitrary operations; doubles with NaN (`NDouble`) | The loops of `hv2d` in memory are matched with the loop over the sorted rows; each round of the loop of `hv_1point_diffs` restores the block. The lists of `setup_cdllist` and `filter_ref`: invariant that all dimensions hold the same nodes, for arbitrary comparisons and orders; each dimension removes a suffix of its list. Three objectives: the walk along the third list for any position at which a search in the tree ends (HvNan3). Without NaN, every step of the program commutes with the embedding of the numbers into the doubles with NaN (HvHom). The failures with NaN are concrete runs. |
| C116 | `get_nondominated_set` on blocks of memory for arbitrary doubles (`Model/GetNd.lean`) | The number returned by `find_nondominated_set` is computed from the flags (two objectives: induction over the scan, permutation of the flags by the sort); induction over the copy loop |
| C117 | c/timer.c with arbitrary answers of the clocks (`Model/Timer.lean`) | invariant over the history of calls: the stored start is the last call minus the time run so far |
| C118 | the `main` functions of eaf, ndsort and dominatedsets on a file system: parsing (Getopt model), reading the named files, opening and writing of the output files in the order of the code (Model/FsEaf) | induction over the options reduces the `switch` to the option functions of C70–C72, induction over the names reduces reading files to reading texts, and an induction over what is written gives the contents of every stream; frame theorems for every command line |
| C119 | `mt19937_init_by_array` with its two loops around positions 1–623 and the bounds of both arrays (Model/MtArray) | invariant: the word to be replaced and the last word written are those of a sequence without positions (Spec/MtArray); the sequence can be run backwards, which gives back the array; with 623 words one bit does not depend on the array, with more there are more arrays than states (`C119_false_long`). The reference value of the authors (first word 1067595299 for 0x123, 0x234, 0x345, 0x456) was checked once with `decide +kernel` |
| C120 | `rng_uniform` with a rounding after each operation (Model/RngUniform); no overflow | the product can exceed the exact difference only if it is rounded up by more than half a unit in the last place, which rounding to nearest does not do |
| C121 | `eaf_check_polygons` and its helpers on the vector of coordinates with its end marks (Model/PolyCheck) | induction on the corners (least and greatest coordinate, search for a corner that is less) and on the polygons; the rectangles by density of the order; a witness for the U-shaped polygon |

## Defects found in the code

Each one marked (P) is proved in `Verif/Props`, by a theorem about the model with a concrete witness.

1. (P) In 2D `find_nondominated_set_*` return the number of *dominated* points (C05), and `get_nondominated_set` then writes past its buffer.
2. (P) `find_dominated_point` returns `size` for a set with one point (C06); `dominatedsets` therefore rejects every file with a one-point set (C39).
3. (P) An objective with `minmax` 0 is not ignored in 2D (C46).
4. (P) `pareto_rank` with two objectives writes outside of its array for an empty set (C09).
5. (P) `fpli_hv` with four or more objectives can be wrong when `qsort` is not stable and coordinates are tied (C13).
6. (P) `rect_weighted_hv2d` stops too early when a point is as high as the lowest upper side of a rectangle (C34); it is wrong with dominated points and aborts with repeated points.
7. (P) `eaf2d` gives rows to the wrong run when a run other than the first is empty (C23).
8. (P) EAF differences split the runs at `nruns/2` whatever the sizes of the two sides (C27); `eaf_compute_rectangles` aborts with an odd number of runs (C43).
9. (P) `vorobT` can stop early, and need not terminate in exact arithmetic (C48).
10. (P) `whv_hype` with `dist="point"` does not negate `mu` with the maximised objectives (C49); the exponential distribution aborts when the generator returns 0 (C35).
11. (P) A comment line inside a data set splits it in two (C32); the R function `read_datasets` reads out of bounds on a file with only comments (C33).
12. (P) `cvector_at` accepts the position `size` (C29); `read_minmax` does not check the number of objectives (C44).
13. (P) `dominatedsets --no-check` can abort (C39).
14. By inspection only: `eaf_adjust_memory` with no points calls `realloc(p, 0)`; `avg_hausdorff_dist` in Python passes a non-integer `p` to a C `unsigned int`; `whv_hype` re-normalises `mu`.
15. By inspection only: `eafdiff(maximise=..., rectangles=True)` in Python gives rectangles with lower > upper in the negated columns.

16. (P) `normalise` may map the upper bound to a value above the end of the target range, by one unit in the last place (C54).

17. (P) Python `hv_approx` raises an exception if no point is strictly better than the reference point, although the hypervolume is 0 (C56).

18. (P) Python `eaf` does not sort the rows by label although the C code needs contiguous sets: with labels `2, 2, 1` rows are assigned to the wrong sets (C60). `eafdiff` in Python and `eaf` in R do sort.
19. (P) R `eafdiff` returns a vector instead of a one-row matrix (`DIFF[!duplicated(DIFF),]` without `drop=FALSE`), and stops with an error in that case if an objective is maximised (C61).
20. (P) R `largest_eafdiff` stops with an error if some pair of data sets has exactly one rectangle (consequence of 19) and, although it has an argument `maximise`, whenever an objective is maximised (`C62_errors`).
21. (P) Python `hypervolume` and `Hypervolume` accept data with one objective, which breaks the precondition `ASSUME(d > 2)` of `fpli_hv` (`C63_py_one_objective_undefined`).
22. (P) R `hypervolume`: a reference point that is too short is extended with `NA` instead of rejected, if some but not all objectives are maximised (`C63_r_errors`).
23. (P) Python `hypervolume`, `Hypervolume`, `pareto_rank` and `whv_hype` negate the maximised objectives in the memory of the caller if the argument shares its memory without being an `ndarray` object (`np.matrix`, for example): `asarray_maybe_copy` takes a new object for a copy (`C64_view_changed`). A second call then gives a wrong value.
24. (P) Python `whv_rect` and `total_whv_rect` sort the caller's points and clip and sort the caller's rectangles in place; a later call with a larger reference point and the same arrays gives a wrong value (`C64_false_whv_rect`).
25. (read, not modelled) Python `whv_rect` does not convert `rectangles` to doubles: the bytes of an array of integers are read as doubles.
26. (P) `hv` without `-r` fails with "none of the points strictly dominates the reference point" whenever some objective is constant over all inputs (a single point, for instance): the default reference point is not worse than the points in that objective (C67_hv_constant_objective).
27. (P) `hv` without `--shift` on a file with one objective: undefined behaviour (ASSUME(d > 2) after the case d = 2 in fpli_hv; C67_hv_one_objective_undefined).
28. (P) `epsilon`, `igd`: a reference file with more than one set fails an assertion (with `NDEBUG`: the other sets are ignored) instead of an error message (C68_reference_sets_undefined).
29. (P) `epsilon`, `igd`: the argument of `-o` is not compared with a reference set given before it: with more objectives the programs read beyond the reference set (C68_long_obj_undefined); with fewer they silently read it with the wrong number of columns (C68_short_obj_misread).
30. (P) `epsilon -o`: an ignored objective still contributes 0 to the maximum, so a negative additive value is replaced by 0 (C68_ignored_objective).
32. (P) `nondominated` with two objectives: the exit status is 1 and "Nondominated: FALSE" is printed for every set with at least two points, because the two-objective code returns the number of dominated instead of nondominated points (C69_status_two_objectives, C69_false_status).
33. (P) `nondominated --agree=min` with two objectives fails an assertion when a checked set has at least two points (C69_agree_min_undefined); with `--agree=max` the already transformed points are compared with the original directions, so that `-f` keeps dominated points and removes nondominated ones (C69_agree_max_keeps_dominated).
34. (P) `nondominated -l "1 1" -u "5 5 5"`: a bound that is one number short is padded with 0, one that is shorter is read beyond its end (C69_short_bounds).
35. (see 57 and C93) `nondominated`: `--force-bound` is documented, `--force-bounds` is accepted (as an abbreviation both work).
36. (P) `ndsort` ignores the directions given with `-o`: `pareto_rank` always minimises and `normalise` is called without agreement (C70_directions_ignored, C70_false_directions).
37. (P) `ndsort`: repeated points of the first front have no contribution and get the number 2, the same as the points of the second front (C70_repeated_points).
38. (P) `ndsort` without `-r` and with one objective calls `fpli_hv` with one objective: undefined behaviour (C70_one_objective_undefined).
39. (P) With two objectives, `find_dominated_point` treats an ignored objective as minimised (`dominatedsets -o -i` accepts {(0,1),(1,0)} and then aborts) (C71).
40. (P) `eaf -p` or `-l` with 50 numbers or more (in all) stores after the end of an array of 50 elements; exactly 50 suffices, because the terminating attempt to read stores too (C72).
41. (P) `eaf` without data reads `cumsizes[-1]` of a null pointer unless `--quiet` is given: `verbose_flag` is set by default (C72).
42. (P) `eaf -i` with a single run writes the index of the run twice and counts it in both halves (C72).
43. (P) `eaf -o F -iF` does not write the indices and `eaf -iF -dF` does not write the counts; `-o F -i -iF` writes the indices to the standard input (C72).
44. (P) Python `avg_hausdorff_dist` accepts 0 < p < 1 but then always returns 1, and ignores the fractional part of p (C73).
45. (P) Python `epsilon_mult` with a value <= 0 terminates the interpreter instead of raising an exception (C73).
46. (P) Python `filter_dominated` fails for lists, which `is_nondominated` accepts; `pareto_rank` of an empty table with two objectives writes out of bounds (C74).
47. (P) Python `whv_rect` and `total_whv_rect` raise AssertionError for `maximise=[False, False]`, although a list is documented (C75).
48. (P) Python and R `whv_rect` inherit the early stop of C34: a point at the height of the top of the first rectangle loses the rest (C75).
49. (P) R's vorobT stops with an error whenever the attainment surface at one of the percentages it tries has a single point: `eaf(...)[,-setcol]` lacks `drop=FALSE` (`C76_false_r_single_point`).
50. (P) R's vorobT and vorobDev, given one reference value and with some but not all objectives maximised, extend the reference point with NA before hypervolume can repeat it (`C76_false_r_scalar_reference`).
51. (P) R's `eaf_as_list` of an `eaf` with groups and the default percentiles has elements without points when the groups have different numbers of sets: `split` keeps the combinations that do not occur (`C79_false_groups_default`).
52. (P) `eaf --polygons` aborts with an odd number of runs (`C87_false_odd_runs`) and with `-l` in descending order (`C87_false_level_order`); with levels that are not successive the colour is not the difference everywhere in the polygon (`C87_false_level_gap`).
53. (P) With four or more objectives and two points whose last coordinate is `-inf`, `hv_recursive_ref` reads `vol` before it is set (`C88_false_minus_infinity`; the value is NaN anyway).
54. (P) In three objectives the hypervolume computed in double precision is not monotone: adding a dominated point can lower it (C90_dominated_point_lowers_value: (1,1,1) added to (0,0,0) with reference point (2^52+3, 2, 10)).
55. (P) The assertion at the end of hv_contributions (no contribution is negative) fails for some inputs because of rounding: for (0,0,0) and (1,1,1) with reference point (2^52+3, 2, 10) the computed contribution of the dominated point is -16, and for (0,0) and (-1,17) with reference point (2^52+5, 18) the contribution of the second point is -16 instead of 1 (C91_assertion_fails_3d, C91_assertion_fails_2d). Without assertions the negative values are returned.
56. (P) With four objectives rounding can erase almost all of the hypervolume (C92): if b covers a in the first three objectives up to less than a rounding error and comes later in the fourth, a is marked 2 (dominated) and b is marked 3 (its area is not larger than that of a), so that both are skipped for all later points. For (2^-55,2^-55,2^-55,0), (2^-56,2^-56,2^-56,2^-51), (1-2^-50,1-2^-50,0,2^-50) and reference point (1,1,1,1) the value is 2^-50 instead of about 1.
57. (P) The letters `-m` and `-L` of the usage message of `nondominated` are missing from its option string: `nondominated -m` and `-L` are rejected as invalid options (only `--maximise` and `--log` work). `hv` documents '-' as standard input but passes it to `fopen`.
58. (P) An output file that is also a later input is overwritten before it is read: `nondominated --filter a a_dat` reads its own output (C94_nondominated_clobber); the same holds for `--suffix` of hv, epsilon and igd. With an unreadable file the outputs for earlier files remain.
59. (P) `eaf3d` never calls `freeoutput`: every call leaks the output trees, all nodes ever made for the levels, the items of all surfaces (also of levels not asked for), `removed_list`, `output` and `attained` (C95_eaf3d_leaks). The `static` variable `removed_list` is shared between threads without a lock, but what is read from it is never used.
60. (P) Hypervolume_MEX.c does not check its matrix enough (C100): with an empty matrix and no reference point it reads the missing first row, a column vector (one objective) violates the assumption d > 2 of fpli_hv, and single or integer matrices pass mxIsNumeric although their memory is then read as doubles.
61. (P) `whv_hype(dist = "point")` draws its samples with correlation 1 (c/whv_hype.c:43), so all lie on the diagonal through the goal; the result is a function of the distance from the goal to the nearest point only and not the documented hypervolume weighted by a multivariate normal distribution (C101).
62. (P) The comment at c/eaf.c:87-88 (at most log2(2 nruns) reallocations) is wrong: the growth factor tends to 1 and the capacity then grows by about 100 points each time, so the number of reallocations is linear in the number of points of the surface (C102).
63. (P) With a NaN among two-objective points an assertion of pareto_rank_2D fails (c/pareto.c:109-111, `C103_false_nan_assertion`); without assertions the ranks are wrong.
64. (P) With two objectives a NaN hides dominated points: (2,1) is reported as nondominated in {(0,0), (1,NaN), (2,1)} (`C104_false_2d_filter`), and ranks of other points change (`C104_false_2d_rank`).
65. (P) `IGD_plus` counts a NaN in the data as a difference of 0 (`MAX(diff, 0.0)` is 0 for NaN): one point of NaNs gives the best possible value 0 (`C105_igd_plus_all_nan`).
66. (P) The epsilon indicators neither ignore nor report NaN: `MAX(x, NaN)` is NaN and `MAX(NaN, y)` is `y`, so a NaN erases what was seen before it and the result depends on the order of points and objectives (`C105_false_order`, `C105_false_dominance`).
67. (P) A NaN in the data of a two-objective EAF is neither rejected nor ignored: an assertion of eaf2d fails, or, without assertions, a point with a NaN is stored and a point of another run is lost (C108).
68. (P) eaf2d of a table without rows reads the first element of an empty array (C108).
69. (P) is_nondominated_C with keep_weakly = NA, avg_hausdorff_dist_C with p = NA, and every failing allocation of R while a converted vector is held leave memory from malloc unreleased (C109_false_leak_on_error, C109_false_leak_hausdorff).
70. (P) d*(n+1) in setup_cdllist is an int: hypervolume of 715827882 points with three objectives is undefined behaviour although the blocks would be 17 GB (C113_hv).
71. (P) eaf_totalpoints and the subscripts of eaf2matrix overflow an int when the result has more than 2^31 elements; the result can have (number of levels) times as many rows as the input (C113_eaf_rows, C113_eaf_matrix).
72. (P) The capacity of the block in read_objective_t_data is an int: after 2^31 - 512 numbers the conversion is negative, realloc fails, its result is not checked, and the next number is written through a null pointer (C113_read).
73. (P) `whv_rect` neither rejects nor ignores NaN: a point (NaN, y) hides the area above y from the next points, so that adding it lowers the result from 12 to 4 (`C114_false_nan_ignored`); a NaN second coordinate aborts (`C114_whv_nan_aborts`); a NaN corner of a rectangle is replaced by the reference point (`C114_false_nan_corner`).
74. (P) A point of NaNs makes `whv_hype` return the area of the whole box, as if the ideal point were attained (`C114_hype_nan_point`).
75. (P) The hypervolume with a NaN in some points: with two objectives a point (NaN, y) lowers the result from 7 to 6 (`C115_false_hv2d_nan`); with three a point with a NaN lowers it from 15 to 10 (`C115_false_hv3d_nan`); with four or more, two such points make the program read `vol` of a node to which nothing was assigned (`C115_false_hv4d_nan`). Nothing rejects NaN.
76. (P) A NaN in the reference point gives hypervolume 0 for three or more objectives but NaN for two (`C115_nan_ref`, `C115_nan_ref_2d`); `hv_contributions` reports 0 for all points of a set whose hypervolume is NaN (`C115_contrib_nan`).
77. (P) `get_nondominated_set` with two objectives and two or more points allocates room for the *dominated* rows: it is correct only if exactly half of the rows are kept and overflows its block whenever there is nothing to remove (`C116_two_objectives`, `C116_false_antichain`). The function is not called by the library.
78. (P) While the timer is stopped, `Timer_elapsed` also counts the time since `Timer_stop`, and a second `Timer_continue` subtracts the time since `Timer_stop` again (`C117_false_stopped`, `C117_false_continued_twice`). No program of the repository stops its timer.
79. (P) `eaf -o F` (or `-i`, `-d`) opens and thereby empties the output files before it checks the levels and percentiles, so a wrong `-l` or `-p` destroys the contents of F although nothing is computed (`C118_eaf_emptied`, `C118_eaf_emptied_example`).
80. (P) If a point has an infinite coordinate, GD, IGD and the averaged Hausdorff distance of the set to itself are infinite and not 0, because the difference of two equal infinities is NaN (`C105_distance_infinite`).
81. (P) `mt19937_init_by_array` (never called by the package): arrays of different lengths can give the same random numbers, as `w` and `w, w-1` do (`C119_false_lengths`); `rng_uniform` (never called) can return `high` (`C120_false_open`).
82. (P) `polygons_intersect` (debugging only) takes two disjoint polygons for intersecting ones if one lies in a notch of the other (`C121_false_notch`).
31. `epsilon -u`, `igd -u`, `igd -m` are accepted by `getopt_long` and run into `abort ()`; `igd -p` is documented but missing from the option string; the value of `igd --igd-p` is always written.

Suspected and refuted by proof: the third coordinate of the two-element array `intersectValues` is never read in c/eaf3d.c:658, and the
uninitialised third coordinate of the sentinels is never used (C42: the model returns `none` in both cases).
