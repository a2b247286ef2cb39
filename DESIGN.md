# A Lean 4 model of diffpy.srmise

## Method

Each Python function is modelled as a small total Lean function, branch by branch, with the exceptions it can raise as
values (`Except`), mutable object state as an explicit record, object identity where it matters (shared lists, shared
data arrays, shared baselines) as an index into a heap, and external numerics (the least-squares optimiser, spline
fitting, `argsort`'s tie order, the estimates of a user's peak function) as *arbitrary* parameters the theorems quantify
over.  Models live in `lean/Verif/<Area>/Model.lean` (and `Greedy.lean`, `VarsModel.lean`, `EstimateModel.lean`, `Loop.lean`
of `Cluster`), properties in `<Area>/Props.lean` and further files, helper lemmas in `<Area>/Lemmas.lean`.  Every
definition cites the file and lines of `/repo` it models and says where it simplifies.  Where the code violates a
property a user would expect, the model follows the *code*; the violation is proved as a theorem with a concrete witness
(those theorems are listed under "Findings"), and the strongest true variant is proved beside it.  A proved theorem that
covers only part of its property carries the suffix `_partial` (none at present).

Theorems are named `cNN_…` after the property in `properties.jsonl`.  Beside the theorems stand `example`s that
instantiate their hypotheses with concrete non-trivial data (mostly by kernel evaluation over ℚ).

## Trusted base

* Lean's kernel (4.33.0), Mathlib's definitions.
* Axioms: only `propext`, `Classical.choice`, `Quot.sound`; `AXIOMS.md` (written by `tools/axioms.py` from Lean's own
  `#print axioms`) lists them theorem by theorem.
* The hand translation from Python to Lean; checked by reading and by the seeded-bug exercise in `seeded/LOG.jsonl`.
* Floating point is idealised: `float` arithmetic is arithmetic in a linearly ordered field (in ℝ where transcendental
  functions occur).  NaN/inf occur only where a definition says so (`Flt`, `isnan`).
* numpy semantics used: `argsort` returns some permutation that sorts the keys (`Verif.PeakList.SortsKeys`; quantified over
  all such functions), `searchsorted`, `insert`, `delete`, `concatenate`, `compress`, boolean masks, slices that clip.
* `scipy.optimize.leastsq` is an arbitrary function from the parameter vector to (parameters, covariance or None, ier): the
  theorems about fits hold for every such function, including ones that return worse or failing results.
* For `extract_single`, `estimate_peak` and `fit_single` a `World` collects what the search calls (fit environment of each
  cluster, pruning environment, `argsort`, values of peaks, estimates).  `Sane W` asks only that `argsort` sorts, that a fit
  changes nothing but parameter values (owner, free mask, flags and number of the parts stay) and that `cleanfit` deletes
  only removable peaks; `c69_actual_fit_tame` proves that the modelled `ModelParts.fit` and `cleanfit` satisfy this for
  every optimiser.  `Estimates W` asks that estimated peaks are of a supplied function, with default flags and as many values
  as it has parameters; `c95_estimates` proves it of `estimatepeak`.  `Package` instantiates all this with Gaussian and
  GaussianOverR: open are then the optimiser, `argsort`, and which evaluator is used.

## What is modelled

| file of `src/diffpy/srmise` | modelled | not modelled |
|---|---|---|
| `dataclusters.py` | the whole class except display (`_setdata`, `__next__`, `makeclusters`, `find_nearest_cluster`, `find_nearest_cluster2`, `cluster_is_full`, `find_adjacent_clusters`, `combine_clusters`, `reset_clusters`, `cut`, `cluster_boundaries`; `plot`, `animate` as far as they raise and change the object; `__eq__`) | what is drawn |
| `modelevaluators/base.py`, `aic.py`, `aicc.py` | comparisons, `chi_squared`, `evaluate`, `minpoints`, `parpenalty`, `growth_justified`, `akaikeweights`, `akaikeprobs` | `chi_squared` with default arguments of other objects |
| `basefunction.py` | constructor checks, `pgradient` format resolution, `safefunctionlist`, `writestr`/`factory` of base references, `value`/`jacobian` over slices, `transform_*` dispatch, text of `writestr`/`factory` (`eval` and `repr` are arguments) | `repr` itself, dict-literal parsing |
| `modelparts.py` | `ModelPart` (construction, copy, equality, free mask, change of owner, writing of parameters), `ModelParts` (`pack`/`unpack`, `residual`, `residual_jacobian`, `fit` with its refusals, `covariance`, `transform`, indexing and slices), `writestr`, `__str__` | text of `pprint` |
| `peaks/base.py` | `Peaks.argsort`, `sort`, `match_at`, `Peak.scale_at`, `actualize`, `Peak.factory` with its text | |
| `peaks/gaussian.py`, `gaussianoverr.py` | values, Jacobians, formats and transformations, `estimate_parameters`, `scale_at`, `max` | |
| `peaks/terminationripples.py` | `value`, `jacobian` (sequences and numbers), `cut_freq`, `extend_grid`; the Fourier transforms are the sums that define them, over the real and complex numbers; constructor and delegating methods (`Package/Model`) | |
| `baselines/*` | polynomial, nanospherical, arbitrary, fromsequence | splines (an arbitrary interpolant) |
| `modelcluster.py` | `ModelCovariance` (set, transform, correlation, warnings, values, `prettypar`, `__str__`), `ModelCluster` (construction, `change_slice`, `join_adjacent`, `replacepeaks`, `deletepeak`, `estimatepeak`, `fit`, `contingent_fit`, `cleanfit`, `reduce_to`, `augment`, `prune`, `addexternalpeaks`, `value`, `valuebl`, `residual`, `quality`, `plottable`, copy), `writestr`/`factory` with and without given function lists; several clusters that share arrays and baselines; numbers in `__str__` | layout of `__str__`; peaks shared between models |
| `peakextraction.py` | `clear`, `clearcalc`, `setdata`, `setvars`, `defaultvars` (with and without names), `getrangeslice`, `estimate_peak`, `add_peaks`, `extract_single` with its recursion, `fit_single`, `plot` (what is drawn), `__str__`, `writestr`, `read`, `readstr` (which always raises; the lines it cannot reach are left out) | layout of `__str__` |
| `pdfpeakextraction.py` | `loadpdf`, `setdata`, `clear`, `setvars`, `defaultvars` (with and without names), `resample`, `errorscale`, metadata text, `resampledata`, `extract`, `fit`, `writepwastr`, `writepwa`, `find_qmax`, `stdratio` | graphs of `find_qmax` |
| `pdfdataset.py` | `readStr`, `writeStr`, `setvar`, `getvar`, copy | timestamps |
| `peakstability.py` | `run`, `setcurrent`, `animate` with what they do to the `PDFPeakExtraction` | plots, printed output, what `load` does after `readstr` (which never returns), pickling itself |
| `multimodelselection.py` | `makeaics`, `classify`, `makesortedprobs`/ranking queries, class queries, `dg_key`; the object with its dictionaries, all `get*` and `maxprob*` queries, `loadaics`, `animate_probs` and `animate_classprobs` (models shown), `plot3dclassprobs` (classes and polygons) | colours, titles, pickled files |
| `applications/extract.py` | `parsepars`, `main` from the parsed options to the end (files, printed texts) | option parsing (`optparse`), plotting |
| `applications/plot.py` | `makeplot` (what is drawn, as numbers), `comparepositions`, `dgseries`, `readcompare`, `main` after option parsing | labels, ticks, styles, annotation, `on_draw`; a figure whose residual is masked everywhere |
| `srmiselog.py` | levels, file handler, `TracePeaks` (numbers, levels, filters, files) | message text |

## Not modelled at all

What plotting methods draw (other than named above), matplotlib, pickling and `eval`-based parsing, regex parsing other than
metadata and data lines named above, rounding in the FFT, logging output text.

## Plan per property

| id | modelled by | proved by |
|----|-------------|-----------|
| C01–C09 | `DataClusters` record, `next`, `makeclusters`, `findNearest`, `combine`, `findAdjacent`, `reset`, `isFull` over any ordered field | invariant preserved by every call; induction over histories; strong induction on `current_idx` |
| C10–C12 | evaluator state (`stat`, `method`, `higher_is_better`), `evaluate`, `growth_justified` | order lemmas, field inequalities |
| C13 | `akaikeweights`, `akaikeprobs` on lists of reals | `Real.exp` lemmas |
| C14–C18 | parts as lists of (pars, free mask), `pack`, `unpack`, `fit` with oracle optimiser | list induction |
| C19–C21 | dependency graph as inductive tree; value/jacobian with slices; format table | induction |
| C22–C24 | covariance matrix expansion, correlation, transform | list/matrix lemmas |
| C25–C29 | model-cluster operations on peaks with positions, oracle fits | list lemmas, loop invariants |
| C30–C36 | real functions of `gaussian.py`, `gaussianoverr.py` | calculus in Mathlib |
| C37 | `argsort`/`sort` | permutation/sortedness |
| C38–C39 | polynomial and nanospherical baselines | `HasDerivAt` |
| C40–C41 | range slice, near/other index sets, recursion | list lemmas |
| C42–C43 | resample kernel, error scale, online variance | induction, sinc lemmas |
| C44–C46 | classification loop, ranking queries, chi² rescaling | loop invariant |
| C47–C48 | tokenised file lines → data set; variables | induction |
| C49–C50 | logger levels; trace stack | induction over histories |
| C51 | the cluster/step bookkeeping of `extract_single`'s main loop around `DataClusters.next` | invariant over all reachable loop states: the step taken always matches the cluster list |
| C52 | `find_nearest_cluster2` on coordinates | `searchsorted` lemmas and C04 |
| C53 | `ModelPart` construction, copy, `__eq__`, free mask | case analysis |
| C54 | arbitrary/fromsequence baselines with an arbitrary interpolant, `.estimate` refusals, text signature | case analysis, list lemmas |
| C55 | `estimate_parameters` of both peak functions over ℝ | `argmax`/half-height lemmas |
| C56 | `correlationwarning` over all pairs of parameters | list membership |
| C57 | `scale_at`, `match_at` of a peak list, two attempts | induction on the list |
| C58 | `cleanfit` (positions outside, below the error, NaN) | index-set lemmas |
| C59–C60 | `reduce_to`, `augment` with oracle fits and evaluators | induction on the greedy loop, measure for termination |
| C61–C63 | `setdata`, `setvars`, `defaultvars` as state transformers | case analysis on each variable, frame lemmas |
| C64 | the PDF versions of these | as C61–C63 |
| C65 | metadata lines as strings, search and conversion | string lemmas |
| C66 | the `while` of `extract` | measure; counterexample without the assumption |
| C67 | `estimate_peak`, `add_peaks` on the object, its variables and the heap | C03, C52 for the cluster, C27/C55 for the peak, frame lemmas |
| C68–C71 | all of `extract_single`, with recursion by fuel and proof that the fuel is immaterial (C68 loop bound, C71 depth) | invariant of the main loop over the cluster lists (`Extract/Loop.lean`), composition with C25, C27, C29, C59, C60 |
| C72 | `fit_single` on the heap | C27 and frame lemmas |
| C73 | the steps of `extract_single` (`joined`, `boundary`, `deepen`, `finish`) | C41, C29, C27 composed |
| C74 | `main` from the parsed options to `setvars` (files, `eval`, `float` are arguments) | `setvars`/`defaultvars` keep what is set (C64, C65); case analysis |
| C75 | `parsepars`, the choice of the baseline | induction over the texts; relational spec `Means` |
| C76 | texts as lists of characters; `writestr`, `factory` of parts and functions; `eval`, `repr` are arguments | lemmas on `splitlines`, `strip`, `split`; round trip |
| C77 | `ModelCluster.writestr`, `factory`; regular expressions by lines | the lines of the text, section by section |
| C78 | `PeakExtraction.writestr`, `read`, `readstr` | case analysis; C77, C19 |
| C81 | the whole of `PDFPeakExtraction.extract` (`PdfExtract/`), on top of the model of `extract_single`; `arange`, `resample`, `interp`, ripples are parameters with proved or stated properties | stages of the extraction as an invariant; measure for the loop; counterexamples by evaluation |
| C80 | `PeakStability` (`Stability/`) on top of `extract`; the effect of an extraction on the baseline object is an arbitrary function that changes parameter values only, `Repeat/Stability` has that of the code | C81 for each extraction; invariant: the variables are the user's with defaults filled in; the spacing of `arange` grids |
| C82 | `PDFPeakExtraction.fit` on top of `fit_single` | C72 for the inner object |
| C83 | `cut_freq` over ℂ, `fft`/`ifft` as defining sums | orthogonality of roots of unity, Parseval, conjugate symmetry |
| C84 | `value`, `jacobian`, `extend_grid` on uniform grids | the extended and refined grids are uniform; C83; linearity; counterexamples on two points |
| C85 | totality of `extract_single` (`Calm`, `Usable`, `Confined`) | every step of the main loop `Ends`: returns, or raises ValueError unless peaks stay in their clusters, or TypeError unless covariances exist (`Regular`); induction on the nesting |
| C86 | `makeplot` as numbers: curves, limits, insets; the made-up cluster | decomposition of `makeplot`, extremes bound all curves, `arange` as multiples of a step, C42 |
| C87 | `comparepositions`, `dgseries` | induction on the positions; filters |
| C88 | `load`, `save`, `main`, `readcompare` | `readstr` raises for every input (C78) |
| C89 | `writepwastr`, `writepwa` by lines (`Text/Pwa*`); texts of numbers, names and values are parameters without line breaks | a reader of summaries (`PwaSpec`) applied to the text: headings occur only once because of what lines start with; C30, C31 for Gaussians |
| C90 | every public call as a step on the object (`History/Model`), with arbitrary objects behind the variables after each call | induction on the sequence; one lemma per call for result, variables, data |
| C91 | `defaultvars(*args)` of both classes (`Pdf/ResetModel`) | equal to `defaultvars()` after forgetting the named variables |
| C92 | the `rng` step on a store of lists (`Extraction/RangeCell`) | case analysis, frame |
| C93 | `find_qmax` (`Pdf/QmaxModel`): interpolation (C42), Fourier sum, `stdratio` (C43), second difference, last maximum; after a division by 0 in `stdratio` the index is arbitrary | sums rewritten without the grid; maximum from the loop of `argmax`; the case of eight points by bounds on sines |
| C94 | `value`, `valuebl`, `residual`, `quality`, `plottable`, `addexternalpeaks` (`ModelCluster/ValueModel`) on the arrays of the cluster, with `ModelParts.value` and the evaluators of C10–C13 | the slice of a value on a range is the value on the slice (C19); sums are permuted |
| C95 | `Extract/CodeModel`: the open numerics of C67–C73, C85 filled in with `ModelParts.fit`, `cleanfit`, the evaluators, `actualize`; open are the optimiser, `argsort`, the functions, `estimate_parameters`, `scale_at` | the hypotheses of C29, C60, C68–C70, C85 are proved of it |
| C96 | `Covariance/Report`: `get`, `prettypar`, `__str__` over any text of numbers; real roots (nan for negative variances) | numbering of `c22`, composed with `c24` |
| C97 | `Covariance/FitModel`, `Extract/CovModel`: `ModelParts.fit` with a covariance object, the cluster fit around it, `fit_single` and `extract_single` returning it | the fit factors into `c18`, `c22`, `c24`; the rest of `fit` does not touch the object |
| C98 | `Extract/Shape`, `PdfExtract/Shape`: the models of C68, C72, C81, C82 | whether a part has the values its function needs is part of what fits, scaling, clean-up, joining and pruning keep (`Frame`, `key`); estimated peaks have them by `ModelPart.__init__` |
| C99 | `Package/*`: `function`, `rippled`, `packaged` put `Verif.Peaks` (C30–C36, C55) into the numerics of the search (C95) | C69, C72, C81, C82 say of which functions the peaks are and that they have three values; C31, C32 bound what is reported of any three values; C55 for `estimatepeak`; C57 with C36 for `match_at` |
| C100 | `Cluster/Units`: series of calls on two objects of C01–C09 | every comparison in the model is of differences of coordinates with each other, with zero or with the resolution; induction over the calls |
| C101 | `Cluster/Display`: `boundaries` (Python slices, `np.mean`, `np.unique`), `plot`, `animate` up to the drawing itself | membership and order of sort-and-deduplicate; C02 for the first frame |
| C102 | `PdfExtract/Cov`: `extract` and `fit` split before their last fit, which is the one of C97 with a covariance object | C97 for the last fit; C98 for its hypotheses |
| C103 | `App/Run`: the end of `main` on files and printed texts; the texts are those of C78 and C89 | no step on the way to a text raises SrMiseFileError; each step keeps a file or writes a complete text |
| C104 | `Units/*`: a change of units of data, variables, parts, functions, optimiser runs; two copies of the models of C68–C73 with the numerics of C95, C99 | every step of the model commutes with the change of units; `NumericsAlike` states what is assumed of sorting, functions and optimiser, and `package_alike` proves it of the peak functions of the package |
| C105 | `Held/Props`; the models of C68, C72, C81, C82 with the numerics of C95 | the fixed values, up to what the function's normalisation respects, are part of what identifies a peak in all proofs about the search (`Frame`, `key`) |
| C106 | `Units/Pdf` (find_qmax, resample, ripples), `Units/PdfSearch`, `Units/PdfProps`; two copies of the models of C81, C82, C42, C83, C84, C93 | every step commutes with the change of units; `SamplerAlike` states what is used of sampling and ripples, and `sampler_alike` proves it of the functions of the code |
| C107 | `Repeat/`: which cluster has the caller's baseline object, step by step through search, joins, recursion, fits and resampling; what the last fits write into it | the invariant of `mainLoop` that the cluster with the caller's object is gone once a cluster starts elsewhere; C105 for what a fit may change; `defaultvars` is idempotent |
| C108 | `Order/`: lists of initial peaks and their permutations | the search uses the initial peaks only through the sum of their values, and at the end through a sort by position; a sorted list without ties is unique, a stable sort keeps the order of equals |
| C109 | `Order/Range.lean`: two objects, one with a range, one with the data in it | the index slice of `getrangeslice` is the filter by `a ≤ x ≤ b`; after `defaultvars` both objects stand for the same search |
| C110 | `Extract/PlotModel`: the arguments of `plt.plot` | C94 on the cluster of C68/C72, or on the cluster of the initial peaks |
| C111 | `Text/AloneModel`: `writestr`, `factory` of `ModelCluster` with and without each list of functions | the sections line by line; C76 for each function; C77's reading of the rest, for the cluster with the rebuilt functions |
| C112 | `Shared/Model`: many clusters over a store of arrays and baseline objects; construct, copy, `join_adjacent`, `change_slice`, `addexternalpeaks`, `replacepeaks`, `deletepeak`, `cleanfit`, `fit`, `contingent_fit`, `reduce_to`, `augment`, `prune` as calls | frame lemmas for each method (what it may write), one theorem for a step, induction over the series of calls |
| C113 | `Text/FamilyModel`: the functions as objects with class, metadata and base; `safefunctionlist` and the text of a function are those of C19 and C76 | the list of copies is the list renumbered; the base stands before its function, so its copy is at hand when the function is read; then C111 |
| C114 | `Refit/`: `fit` of C82 iterated; what the objects behind `initial_peaks` and `baseline` hold after each call | settled variables give the same data each time (C107); one fit does not raise the cost of what is in the objects (C72, C95); induction over the calls |
| C115 | `Convert/`: `Parts.transform` on lists of values (modelled with C14), and on parts with an identity | induction over the list; the formats of C31 for the peaks of the package (C99) |
| C116 | `Cluster/Equal`: `__eq__` on the objects of C01, with an arbitrary `==` of numbers (false for NaN) | attribute by attribute; `reset` gives the fresh state up to one attribute (C07), which the next successful call sets |
| C117 | `Print/Model`: `__str__` of parts, models, clusters, extractions as the numbers in their order (not their digits) | induction over the model; quality by C94, data and peaks of a result by C68, C69, C72, lines of the package by C99, after a conversion by C115 |
| C118 | `Build/Model`: `actualize` of peaks and baselines, for any function and for those of the package | case distinction; formats of C31, C32, curves of C99; the round trip through the text of C117 by induction over the model |
| C119 | the text of C78, looked into by `Text/FileSpec` (sections by headings, words, numbers, factories) | the lines of the text (`file_lines`), no heading in front of its section; rows by induction; C76, C77 for parts and the cluster |
| C120 | Python's slices with start, end, step (`Slice/Model`), the loop over the keywords of `covariance` | the positions of the slice by division, for both signs of the step; induction over the keywords |
| C121 | the loops of `animate_probs`, `animate_classprobs` over the dictionaries of C79 (`Animate/Model`), without drawing; the cluster's model is the list of the result | invariant over the bests seen so far: what the list of the first result holds; for classes, the start of the run |
| C122 | `plot3dclassprobs`: loop over the classes, filter, polygons, and what must not be empty afterwards (`Plot3d/Model`); matplotlib as arbitrary outcomes; `zip` as list or iterator | induction over the classes: with an iterator nothing is collected, and the empty plot raises; with a list, the filter |
| C79 | the object `MultimodelSelection`: state, `makeaics`, `classify`, `loadaics`, queries | dictionaries as partial functions, frame lemmas; C45 |

## Findings (proved about the code as it is)

Each line names the theorem with the witness.

* `c01_raising_combine_corrupts`, `c01_decreasing_group_corrupts` — `combine_clusters` with bad groups leaves a corrupt table.
* `c02_repeated_x_skips_points` — repeated coordinates make `next` stop before all points are clustered.
* `c06_ragged_runs_raise` — runs of different lengths make `find_adjacent_clusters`' array ragged.
* `c11_reused_evaluator_keeps_chisq` — evaluating twice with one evaluator keeps the first chi².
* `c14_short_vector_broadcast`, `c14_integer_array_truncates` — `pack` with one value broadcasts; integer parameters truncate.
* `c18_failed_fit_moves_parameters`, `c18_singular_cov_type_error` — a failed fit leaves moved parameters; a singular
  covariance is a TypeError.
* `c22_stale_map`, `c24_baseline_selector`, `c24_missing_gradient`, `c24_parameterless_part`, `c24_nonsymmetric_gradient` — covariance
  bookkeeping and transformation.
* `c25_border_ignores_baseline`, `c26_delete_last_does_nothing`, `c27_none_but_changed`, `c27_exception_moves_parameters`,
  `c28_default_slice_raises`, `c29_index_error`, `c29_can_get_worse`, `c29_stops_early`, `c29_fixed_parameters_counted`,
  `c59_ignores_baseline`, `c59_can_get_worse`, `c60_nonremovable_refused`, `c60_can_get_worse` — model clusters.
* `c31_very_negative_width_nan`, `c31_integer_parameters_truncated`, `c33_gaussian_jacobian_raises`, `c35_overR_negative_position`,
  `c36_gaussian_at_position_collapses` — peak functions.
* `c38_jacobian_rows_reversed`, `c39_negative_radius`, `c54_one_parameter_too_many`, `c54_no_jacobian`, `c54_first_character_lost` —
  baselines.
* `c42_nonuniform_grid` — resampling assumes a uniform grid.
* `c44_disjoint_peaks_alike`, `c44_functions_not_compared`, `c44_not_transitive`, `c45_dgs_ignored`, `c45_dg_key` — multimodel selection.
* `c47_mixed_lost`, `c47_empty_not_readable`, `c47_error_leaves_part` — data sets.
* `c49_addfilelog_debug`, `c49_notset_hides`, `c50_exception_not_reset`, `c50_read_ignores_file` — logs and traces.
* `c52_not_nearest` — `find_nearest_cluster2` does not answer for the nearest point.
* `c57_second_attempt_fails`, `c57_false_but_changed` — `match_at` can report failure after changing peaks.
* `c61_failed_call_replaces_data`, `c63_stale_after_setdata`, `c63_zero_uncertainty` — extraction variables.
* `c66_assumption_needed` — the Nyquist loop need not end without its assumption.
* `c72_failed_fit_moves_initial` — a refused `fit_single` leaves the user's initial peaks and baseline changed.
* `c73_wrong_border` — at a full boundary the neighbourhood examined is that of the leftmost peak of the cluster.
* `c74_negative_options_ignored`, `c74_pf_me_never`, `c74_bseq_ignored`, `c74_default_uncertainty`, `c74_qmax_not_estimated`,
  `c74_uncaught` — options of the command line program that have no effect, end it, or have a surprising default.
* `c76_nan_unreadable`, `c76_owner_index`, `c76_equals_in_value` — texts that are written but not read back, an index check that is off by one.
* `c77_evaluator_not_found`, `c77_no_points`, `c77_no_data_section`, `c78_read`, `c78_unwritable` — clusters and extractions written but not readable.
* `c79_get_dG`, `c79_class_not_of_model`, `c79_classes_stale`, `c79_results_stale`, `c79_nfree_no_baseline`, `c79_loadaics` — queries of multimodel
  selection that fail or answer for something else.
* `c81_ripples_lost`, `c81_may_not_end` — Nyquist sampling can lose all peaks and the ripples, and need not end.
* `c80_baseline_shared`, `c80_first_changed`, `c80_last_point_lost`, `c80_bad_index` — results of a stability run may share their baseline, so that
  later extractions change earlier results; the restored model loses a point; a bad index is recorded.
* `c86_off_grid`, `c86_one_point`, `c86_residual_only`, `c86_height_without_series` — `makeplot` shows "observed" data beyond the cluster
  at points that are not data points (it divides the width by the number of points, not of intervals); it raises for a cluster of one
  point, for a residual without any other curve, and for a series height without a series.
* `c87_unsorted` — `dgseries` shows nothing if the uncertainties decrease.
* `c88_load`, `c88_save`, `c88_main`, `c88_compare` — no saved analysis can be loaded, the plotting command never plots, distances to
  compare with can never be read; a failing `save` has emptied the file.
* `c85_stray` — `extract_single` raises ValueError (maximum of an empty array) when the peaks of a cluster that has reached the end of the data were
  fitted left of it: `border_x = x[step.lastcluster_idx]` takes the number of a cluster for the index of a point.
* `c95_stray`, `c95_singular` — both errors of `extract_single` do occur with the numerics of the code: the ValueError of `c85_stray`; and
  TypeError, losing everything that was found, when `leastsq` reports a singular covariance for the last fit (`None * float`).
* `c83_cutoff`, `c84_coarse_jacobian`, `c84_range_not_mask`, `c84_short`, `c84_jacobian_at` — ripples cut off below qmax, a Jacobian that is
  not the derivative on coarse grids, values that depend on the range, calls that raise.
* `c89_baseline_count`, `c89_unwritable` — the summary counts the free parameters of the baseline variable, not of the extracted baseline, and
  cannot be written if that variable is a function.
* `c90_stale`, `c90_stale_qmax` — `setdata` keeps the result, the variables and possibly the qmax of the old data.
* `c91_twice`, `c91_base_function` — a name given twice to `defaultvars` gets the default of the base class; a baseline function is estimated
  although the estimate is thrown away.
* `c92_caller`, `c92_shared` — the caller's list is changed, a list given to two objects is shared; None in a tuple raises TypeError.
* `c94_quality` — the free parameters of the baseline are not counted in AIC and AICc, though `fit` varies them.
* `c96_stale` — a covariance object used twice reports, for designations of the first model, parameters of other parts of the second.
* `c97_reverted`, `c97_reordered`, `c97_removed` — the covariance that `fit_single` and `extract_single` return describes the parameters of a
  fit that was thrown away, or numbers the peaks differently from the result (sorted and cleaned up after the covariance was set).
* `c102_rejected` — likewise for `PDFPeakExtraction.fit`.
* `c103_handlers_unreachable`, `c103_unsaved`, `c103_pwa_needs_extraction` — `srmise --save` catches SrMiseFileError, but a file that cannot
  be opened is OSError: the program stops after the extraction, without summary and without printing the peaks; `--pwa` without an
  extraction stops with SrMiseError.
* `c101_plot_fails`, `c101_animate` — `np.unique` takes the boundaries out of their pairs, so `DataClusters.plot` always fails and `animate` leaves
  the object reset, though it promises to restore it.
* `c104_integers` — peaks given with integer parameters make the result depend on the units of the data.
* `c107_twice`, `c107_rejected` — if the first data point is the highest one, `extract` fits the caller's own baseline object (even when that fit
  is rejected), and a second call starts from there and finds other peaks.
* `c106_default_width` — the default peak function of a PDF has the maximum width 0.7 whatever the unit of the data.
* `c109_resampled` — with qmax > 0 `PDFPeakExtraction.extract` resamples all data from the lower bound of the range on, so data outside the range matter.
* `c110_joined` — `PeakExtraction.plot(joined=False)` draws the sum of the peaks: the dictionary of keywords is taken for the flag.
* `c111_no_baseline`, `c111_no_functions`, `c111_evaluator_not_found` — `ModelCluster.writestr()` fails for a cluster without baseline or without peak
  functions, though it has a text (`None`) for both; what it writes cannot be read with the package as it is.
* `c112_residual`, `c112_never_fit_stale` — `addexternalpeaks` writes into the shared data: every other cluster on them now lacks the peaks in its model, and
  marks as `never_fit` are not renewed.
* `c112_shared_baseline` — a fit with baseline of one cluster changes the baseline of all clusters that share the object, also when the fit is rejected.
* `c114_refused` — a rejected fit may have removed peaks from the user's list of initial peaks (or moved them): the next fit starts without them, and its result is worse.
* `c114_dropped` — if the baseline takes part in the fit, a peak removed from the result stays in the list of initial peaks with its fitted parameters; else it is removed there, too.
* `c115_misspelt`, `c115_halfway`, `c115_misread`, `c115_listed_twice` — `ModelParts.transform` ignores a misspelt format silently; stops half-way at a width that is too large, the peaks before it converted; leaves a model whose values and texts take the new numbers for internal ones; converts a part twice that is listed twice.
* `c116_reset_not_new` — a `DataClusters` after `reset_clusters()` is not equal to a new one of the same data (`lastcluster_idx` is 0 instead of None).
* `c117_converted` — texts of models take the parameters for internal ones: after a conversion to "pwa" the printed width is that of a different peak.
* `c118_no_format`, `c118_negative`, `c118_retyped` — `actualize` without a format takes the numbers for internal parameters, though what is printed is "pwa"; a width below minus `maxwidth` becomes NaN; what is free or removable is not printed.
* `c119_columns` — a data column that is longer than the last one that is set is cut in the file without notice (a shorter one is IndexError).
* `c120_covariance` — `ModelParts.covariance` never returns a matrix, only `None`; the first character of its keywords is not looked at.
* `c121_probs`, `c121_wrong` — `animate_probs` overwrites the model of the first result shown with the peaks of every other best model, and shows the wrong peaks when the first is the best again.
* `c121_classes` — `animate_classprobs` does not follow changes of the best model within the best class, and shows the baseline of the first model throughout.
* `c122_never` — `plot3dclassprobs` always raises in Python 3.
