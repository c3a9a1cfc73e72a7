# Formal model of weatherbenchX in Lean 4 - design

## 1. Approach

The model is a set of small total Lean functions, one per function or class of `/repo`, written branch by branch.
Exceptions are values (`Except Err α`, `Err` = the Python exception class). Every definition cites the file and lines it
models and says where it simplifies (`tools/citations.py` checks the cited line ranges against the definitions of `/repo`).

* `lean/Verif/Model/*`  - the model of the code.
* `lean/Verif/Spec/*`   - small, separate specifications that do not use the model's helpers (what "partition", "local", "weighted mean",
  "the Gregorian year of an hour", "same array" ... mean).
* `lean/Verif/Lemmas/*` - helper lemmas.
* `lean/Verif/Props/*`  - the property theorems; names start with the property id (`C07_...`). Beside each theorem (or group with the
  same hypotheses) an `example` meets the hypotheses on concrete, non-trivial data. Theorems marked *finding* (★) prove, with a
  concrete witness, that the code does **not** do what a reader of its documentation would expect.
* `properties.jsonl` (from `tools/props.py`), `MANIFEST.json` (from `tools/manifest.py`), `AXIOMS.md` (from `tools/axioms.py`),
  `seeded/LOG.jsonl` (wrong programs tried against the theorems, from `tools/mutate.py`).

### Numeric carriers
* Algebraic facts are proved over an arbitrary linear ordered field `K`, or over ℝ where `sqrt`, `log`, `sin`, integrals, derivatives occur.
* NaN / infinity behaviour is proved over `FV K` = finite value of `K`, ±∞ or NaN with the IEEE-754 special-value rules
  (`∞-∞ = NaN`, `0*∞ = NaN`, `0/0 = NaN`, comparisons with NaN are False).
* **Rounding** is modelled for sums, weighted sums, means and RMSE only (C90); every other numeric theorem is about exact arithmetic.
* **Not modelled anywhere:** overflow, underflow, signed zero, dtype casts (float32); statistics are floats, except the three boolean ones of C71, whose `or`/`and` aggregation is modelled in `Model/BoolStatistics`.

### Arrays
`xr.DataArray` is modelled by labels (`DA L V`): a set of dimensions, a finite set of labels per dimension, and a value for every
assignment of labels to dimensions; `StatVar` adds the optional `mask` coordinate. Arithmetic is an inner join by label, broadcasting by
dimension name. Abstracted away: the order of labels (unless a property is about positions: then `Ordered`), dask laziness, attrs,
encoding, dimension order, non-dimension coordinates other than those named in a property. A dimension without coordinate has its positions
as labels. Repeated labels of one dimension are not modelled. A `Dataset` or a dict of variables is a list of (name, array).

### End-to-end statements
Metric theorems are stated on the *value the user gets*: `ValueOf metric predictions targets aggregator v a` says that computing the
statistics, aggregating them and evaluating the metric yields array `a` for variable `v`; `Evaluated`/`GoodWeights` say, in terms of cells
and weights only, which cells are counted with which weight.

## 2. Properties: what is modelled, how it is proved, what is assumed or missing

| id | model | proof | assumed / not modelled |
|---|---|---|---|
| C01-C04 | `TimeChunks` over lists; `None`/0/negative sizes; lead-time slices as a constructor | induction over the list being chunked | numpy slicing of 1-d arrays |
| C05, C06 | `combining_sum`, `AggregationState.__add__`, `sum`, `zero` | algebra of the outer join on labels | `xr.align(join='outer', fill_value=0)` contract |
| C07, C10-C13 | `Aggregator` (bins, weights, masks, skipna), `sum_along_dims` | Fubini on finite sums | the statistic is given; C74 shows which statistics satisfy the locality hypothesis |
| C08, C09 | weighted mean on `FV K` | NaN absorbs sums; `where(mask, 0)` removes it | |
| C14 | nested dict <-> Dataset with `#`-joined names, DataTree | round trip by induction on names and trees | xarray's DataTree: a name with `/` is rejected, names are kept in order |
| C15 | `xarray_tree.map_structure` on a dict/list/leaf tree | structural induction | |
| C16, C17 | Beam `CombineFn` as an arbitrary merge tree; the pipeline as map, combine per key, concatenate | induction over schedules, reduced to C07 | a Beam runner applies the CombineFn in *some* tree; `combine_by_coords` modelled for the blocks that occur; element type = table of arrays |
| C18 | file system = finite map, writers = small-step programs, temporary paths from POSIX `os.path.split`/`join`, crash or failure at any step | invariant over every interleaving | `mv` on one file system is atomic; uuids are unique (the counter-example without it is proved) |
| C19 | worker state machine `setup`/`process` | induction over calls | |
| C20, C21 | metrics as records of named statistics, dicts as association lists | lookup lemmas | dict keys of one dict are distinct |
| C22, C25 | error statistics, means | Jensen / Cauchy-Schwarz | |
| C23 | `ACC` with climatology aligned by a function | Cauchy-Schwarz | alignment abstract here, concrete in C70 |
| C24 | `WindVectorSquaredError`, RMSE | per component | |
| C26, C27 | contingency table, all categorical scores, SEDI with `log` | field identities | |
| C28 | SEEPS category, matrix, `p1` masking | case analysis, expectation over categories | `C28_cell` gives each cell with the climatology selected at the valid time and averaged over the year; the other theorems hold for any selection |
| C29, C35 | ranked probability scores | sums of squares | CDF encodings given; targets of C35 without ensemble |
| C30, C31 | CRPS skill/spread, both algorithms, fair/unfair, skipna; CRPS distance | order statistics, integral of squared CDF difference | `argsort` contract: any sorting permutation |
| C32 | ensemble moments | pair sums | |
| C33 | rank histogram | counting | `np.random` tie breaking is not in the code |
| C34 | relative economic value, optimal thresholds per variable, exact or nearest | case analysis on thresholds; sorted lists | optimal thresholds that are NaN, the jax branch |
| C36, C37 | CDF/bin encodings, binarise, thresholds by time | threshold order | duplicate two-decimal bin names, repeated thresholds |
| C38 | `WrappedMetric`, `WrappedStatistic`, `SubselectVariables` | induction over transforms | `DataArray.name` = dict key |
| C39, C40, C64 | `convolve2d_wrap_longitude`, neighbourhood averaging, FSS | reindexing of periodic windows | float32 rounding (`1e-5` mask threshold is modelled), repeated sizes, boolean inputs of size 1 (numpy refuses to subtract booleans; the model has numbers) ; masks with latitude and longitude last, other orders only in Model/MaskLayout |
| C41-C44 | binnings | modular arithmetic, floor | repeated bin labels, NaN coordinates, rounding of float `arange`, `degrees = 0` |
| C45 | area weights with `sin` | monotonicity, telescoping | rounding |
| C46, C47, C79 | latency wrappers around abstract loaders, around file-backed loaders and around loaders of sparse observations | fold invariants; induction over histories; monad laws | 0-d init time; the index labels of concatenated tables |
| C48, C49, C76 | loaders as functions of (init, lead) and their lazily prepared state; renaming | refinement to a pure function | one dataset per loader, dask, sparse `concat`; xarray `rename` contract |
| C50, C51, C59 | parquet files as lists of rows, calendar in `Spec/Calendar` | order lemmas | pandas `sort_values`/`drop_duplicates` contracts, NaT, missing columns |
| C52, C53, C60-C63, C65, C78 | interpolation on ordered labels | case analysis, convexity | scipy's linear interpolation contract and xarray's splitting of `interp` into independent groups of coordinates (`decompose_interp`) with its `fill_value` rules; other methods; grids of fewer than two points; NaN neighbours; pandas slices on monotonic indexes |
| C54, C55 | t-test, AR(2) inflation, Lazarus DCT | duality from symmetry of the distribution; solution of the Yule-Walker equations | scipy's `t` = a family of symmetric continuous strictly increasing distribution functions (instance: Cauchy); DCT by its formula |
| C56, C66, C80 | bootstraps: counts, stationary blocks, slices, caches | sums over draws; induction over calls | `np.random` = arbitrary draws; arch's block length an arbitrary number; autodiff tangents as input; infinite replicates |
| C57 | baseline comparison, `for_baseline_comparison` | name prefixes are injective and disjoint | order of a Python set |
| C58 | per-unit linearisation flattened to `ι → ℝ` | derivative of ratios | `jax.linearize` = Fréchet derivative |
| C67-C69, C71, C72, C75 | passthrough, masks, relative intensity, opportunism, reliability, Wasserstein | cell-wise formulas; optimal transport on the line; NumPy booleans as a second value type of the same aggregation code (C71) | differing labels of predictions/targets in C69; scipy's `wasserstein_distance` modelled from its source |
| C70 | alignment of climatologies with valid times | calendar lemmas | |
| C73 | unaggregated pipeline to Zarr | writes commute per region | `xbeam.Rechunk` / `ChunksToZarr` contracts; labels in the order asked for |
| C74 | chunk locality of all metrics, wrappers, loaders | pointwise congruence under restriction | statistics that work along the time dimension itself |
| C77 | `Rename`, `Select`, `StackToNewDimension` | row-major numbering | vectorised indexers, negative slice positions |
| C81 | `define_pipeline` to the netCDF files | extensionality of metrics in their inputs | Dataset assignment contract (left join to existing indexes), netCDF encoding |
| C82, C83 | public benchmark: evaluation set-up, result files, combination | injectivity of names, fold over merges | `xr.merge(compat='no_conflicts')` contract; labels as strings; Zarr chunking, loader keyword arguments |
| C84 | graph of the benchmark app | selection by labels, sign analysis of the improvement | combined results as given (C82); lead times in whole hours; Plotly draws the points it is given |
| C85 | the whole of `run_example_evaluation.py` | composition of C01-C03, C17, C45, C41, C48, C74, C81 | datasets after renaming (C76) and selection of variables; `levels`, `add_nan_mask` unset and default `reduce_dims`; Beam as in C17 |
| C86 | all of `public_configs.py` (the four tables, generated from the repository's text; the single-member rule for any table; `select_first_member`) and the years of the probabilistic climatology in `run_benchmark_evaluation.py` | induction over the table for any table and prefixes; the public tables, which are closed data, by kernel computation over all their entries; calendar arithmetic for the ages of the members | `isel` of a dataset after opening; `preprocessing_fn` by name (`sortby` and `select_first_member`); the contents of the zarr stores |
| C87 | the pipeline of C81 writing through the `atomic_write` of C18, with POSIX `os.path.split`/`join` for the temporary paths; attempts = any family of runs (own chunk sizes and schedules) whose writes interleave, fail and are killed | composition of C81 and C18; `split (join dir name)` by cases on the directory | as C18 and C81; `to_netcdf` is a function of the dataset; paths are those after `url_to_fs` |
| C88 | the metrics of C22-C24, C30, C32 and the aggregation of C11-C13 as they are; a change of units is `x ↦ c x + d` per variable on every value (NaN and infinities included) | multiplication by a nonzero number is a homomorphism of floats without rounding and commutes with masking, `skipna`, weights, bins, sums and division; statistics scale cell by cell; equality of the whole results, errors included | CRPS with `use_sort=True` is not covered; thresholds as Datasets (per variable); rounding as everywhere |
| C89 | `maybe_prepare_dataset` and `load_chunk` as a transition system: every read and every assignment of `_ds` and `_preprocessed` is an atomic step of a thread, a schedule is a list of thread ids | invariants over all schedules by induction; refinement of the sequential model (C49) for an uninterrupted call; explicit schedules for the findings, general in the preparation | opening the file and the preparation steps are functions of their arguments; the preparation step reads `_ds` once (`_rename_dataset` takes it as argument) |
| C90 | the same `combiningSum` and `CombineRun` as C05/C16, run on rounded numbers `Fl R` instead of exact ones; `xr.dot` as any expression of additions and multiplications that is algebraically the sum of products; `mean_statistics` as one rounded division | every run adds each contribution exactly once (induction over runs), error propagation rules for `+`, `*`, `/`, `sqrt`; Bernoulli bound for the factor; `roundBinary p` proved to be a rounding | no overflow, underflow, NaN; the roundings inside the statistics themselves are not counted (they are the data `x`) |
| C91 | `Spec/Exchange` (`StatVar.shuffle`, `shuffleMembers`: position `l` of dimension `d` holds what was at `σ l`; `StatVar.Members`: `σ` permutes the labels of `d`, the mask does not vary along `d`). Equality of `metricAlone` for the reordered data: reductions over `d` are symmetric functions of the values (`SymmetricFn`), elementwise arithmetic commutes with the reordering, `scipyWasserstein` sorts permuted lists to the same list; sorted spread per cell through C30 | `Props/Exchange`, `Props/ExchangeMetrics` |
| C92 | `Spec/Separate` (`onlyVars`, `justVar`, `AgreeOn`, `onlyRows`; `Separate`: the result of a selection is the selection of the result; `Isolated`: fails only if one variable alone fails; `Apart`: both). One induction per loop over variables (`perVariableLoop`, `perVar`, `mapVars`, `commonVariables`), composed through `uniqueStatistics` and `metricTableForSingleChunk`; every metric constructor of the library shown `Apart` | `Props/Separate`, `Props/SeparateMetrics` |
| C93 | `Model/BenchmarkRegions` (the table of regions, `astype(bool)` of the land fraction, the aggregator of the script), `Spec/BenchmarkRegions` (`Inside`, `onMap`, `usedCells`, `areaMean`: the mean over a finite set of cells of the sphere, no masks or binnings). The mask of `Regions` is turned into `Inside` through C41, the weights into cell areas up to one factor through C43, the sums through `Evaluated`; the scores (bias, MSE, RMSE, vector RMSE, ACC, CRPS, unbiased RMSE, spread/skill; not SEEPS, the activity and the RMSE of the ensemble mean) through the value theorems of C22-C24, C31, C32. ★ the land part has every cell with a land fraction other than 0 (or NaN), ★ one NaN poisons every region except for Keisler, ★ the circles at 20 degrees are counted twice | `Props/BenchmarkRegions`, `Props/BenchmarkScores` |
| C94 | `Spec/Roles`: results are compared as labelled arrays per variable (`SameValues`: both fail, or `DA.Same` for every name), aggregations are required to have weights and bins that are functions of the labelled array (`RespectsSame`, shown for the example evaluation). Proof: arithmetic of labelled arrays (with the merge of mask coordinates) is symmetric up to `Same`, the statistics mirror each other as dicts, means respect `Same` (`aggregateStatVar_same`), per-variable formulas are applied to the same means in exchanged places. Two ensembles are compared for masks that do not depend on the member | `Lemmas/Roles`, `Props/Roles`, `Props/RolesMore` |
| C95 | `Spec/WeightUnits`: `OtherUnit` (weights times a positive factor), `EvenOver` (weights that are the same for all cells averaged together). The factor of a cell is pulled out of the products with bins, out of the sums over the reduced dimensions, and cancels in the quotient of the two sums, also for NaN, infinities and empty bins (`FV.times_ratio'`); the area weights through C45 | `Props/WeightUnits` |
| C96 | `Spec/Perfect`: `Perfect` (at every common cell equal, or one side NaN), `OnlyOrNaN c` (every value is `c` or NaN). The per-cell statistic of a perfect pair is `c` or NaN (`Lemmas/Perfect`: `NanOr` is closed under the operations of the statistics), a weighted mean of values that are 0 or NaN is 0 or NaN for every aggregator (also with negative weights: 0/0 is NaN), and the formulas of the ratio metrics are evaluated on means of contingency counts whose false positives and negatives are 0 or NaN. ★ SEEPS with inverted thresholds, ★ SEDI |
| C97 | `Spec/Improved`: two forecasts with `SameCells` (same dimensions, labels, mask and missing cells); `AsClose`/`Nearer` (distance to the target), `Corrected` (yes/no values kept or replaced by the truth), `InBetween` (moved towards the target without crossing it). The value theorems (C22, C27, C29, C31, C33, …) turn both results into weighted means of cell scores; the cell scores are compared, then monotonicity of weighted means and of the ratio formulas in the four contingency shares. CRPS: a sum over pairs of members, each pair term is monotone. ★ members crossing the observation, ★ ACC |
| C98 | `Spec/EnsembleScores`: `AveragedOver` (a statistic is averaged over given cells with given weights), `EnsembleOver` (members and observation of each cell). Each metric value becomes a weighted mean of a cell score (value theorems of C22, C31, C32; `wrapped_split` for EnsembleMean; a value theorem for EnsembleAveragedMetric); the cell scores satisfy the identities (sums over members), and means are additive and monotone. `C98_same_cells` shows when the cells and weights agree; ★ the mask of the target does not reach the ensemble variance |
| C99 | `Spec/Pooling`: `Pooled` (the cells and weights of the parts make up those of the whole), `Between`. `C99_dimension` and `C99_bins` prove `Pooled` for averaging over one more dimension and for leaving out a binning that adds up to 1; the metric theorems use the value theorems of C22, C27, C31, C32, C40 and the mediant inequality; ★ HSS and ETS are 0 in two parts and positive for the whole |
| C100 | `Spec/Select`: `.sel` before (`chunkVars`) and after (`selectLabels`) the evaluation, `AgreeAtLabels`, `Selectable` (statistics and formula work label by label). `C100_select` by following the evaluation stage by stage (statistics: C74 `ChunkLocal`; aggregation: `Aggregator.Local`; means; formula); `C100_no_leakage` from it and extensionality; `C100_thresholds` with the threshold dimension as the kept dimension. One `Selectable` theorem per metric; ★ masks that disagree at another label. |
| C101 | `Spec/UniqueNames`: `Shipped` (class and arguments that the name mentions), `Hidden` (arguments no name mentions), the statistic objects of the model. `C101_identify`: names split at the first underscore into class and arguments, then argument by argument as lists of characters; `C101_together` from it and C20. ★ `C101_last_wins`: twins receive the values of the last one, with the CRPS, thresholds and bin dimension cases; ★ ambiguous names. |
| C102 | `Spec/Relabel`: `DA.relabel ρ` (a permutation of the labels of each dimension), `Metric.Relabels`, `Aggregator.Relabels`. `C102_relabel` stage by stage: every array operation commutes with `relabel` (`Lemmas/Relabel`), reductions over members are natural in the labels (`NaturalFn`); one `Relabels` theorem per metric, wrapper, climatology; `C102_area`, `C102_regions`, `C102_example` for the weights and regions of the example; ★ mixed conventions drop data. Rank histograms, threshold lists (whose labels are the thresholds) and FSS are not covered. |
| C103 | `Spec/Rename`: `renameVars f` for one-to-one `f`, `Metric.Renames`, `Metric.NameBlind`. `C103_rename`: the pipeline commutes with `renameVars` stage by stage; `C103_per_variable` for every `PerVariableMetric` without any condition on its functions; one theorem for each metric whose settings name variables. Order: two dicts that are permutations of each other have the same lookups, so `C103_order` follows from `metricAlone_respects` (C100) for metrics whose statistics are functions of labelled arrays. ★ one-sided renaming gives no values and no error. |
| C104 | `Spec/DimNames`: `DA.redim σ` for `σ : Equiv.Perm Dim` (the renaming as an equality of labelled arrays: dims, labels and cells), `Aggregator.Redims`, `Metric.Redims`. `C104_redim`: sum over a renamed dimension, products, bins, weights and masks commute with `redim`, stage by stage as in C102; then one theorem per metric with the settings that name a dimension renamed too, under the explicit condition that `σ` respects the names the code makes itself (`<dim>_PSEUDO_FOR_TARGETS`, `ensemble_dim_2`). Regions and the example evaluation for `σ` that keeps latitude, longitude and region. Not covered: rank histograms and arrays of thresholds (their model has labels for dimensions they do not have). ★ `ensemble_dim_2` is taken. |
| C105 | `Spec/LaterTimes`: `later c` relabels `init_time` and `valid_time` by `+ c` and nothing else (a case of the relabelling of C102); `DateFree c load load'` says that a way of loading commutes with it. One theorem for the chunks (any other init times, any number), one for each loader of gridded data, for latencies and several sources, for all variables of a dataset, and `C105_evaluation`, `C105_example` for a chunk of an evaluation (which C102 closes). Not covered: the probabilistic climatology, whose times are those of a calendar, and sparse data. ★ climatologies with fields of the date do not move. |
| C106 | `Spec/Repeated`: `DA.repeated d C` adds the dimension `d` with labels `C` to an array whose values do not depend on it (`DA.Without`), `Sides` says which of predictions and targets are repeated, `Aggregator.averagedOver d` also averages over `d`, `sameValuesAs` is the same result. `C106_repeat` for any metric whose statistics commute with the repetition (every sum of products is `|C|` times the sum, by induction over the dimensions, and `FV.nsmul_div` cancels it also for NaN and infinities); `C106_floats` with a non-empty `C` only; one theorem per group of elementwise scores; area weights, regions and land regions ignore the dimension; `C106_example` is the evaluation of the example script. For ensembles `Lifts` is composed along the `do` blocks: CRPS and variance if the forecasts are repeated, the unbiased MSE on any side; ★ with repeated observations alone the spread has no mean (`C106_spread_missing`) and the whole evaluation of the CRPS succeeds with no values (`C106_crps_lost`). Spatial scores are not covered. |
| C107 | `Spec/Copies`: `Copies n C C' π` says that every member of `C` has exactly `n` copies in `C'`; `DA.copied` lists them. Sums over the copies are `n •` sums over the members (sums over fibres), also of the values that are present, and `n •` cancels in quotients (`FV.nsmul_div`, NaN and infinities included). `copied_mean`, `copied_skill` (observations with or without members), `copied_spread` (`spread_members` writes the spread over all pairs in terms of the members first), then `metricAlone_of_stats`: `C107_crps`, `C107_mean`, `C107_mean_scores` (any metric wrapped in `EnsembleMean`), `C107_renumber` (`n = 1`). ★ `C107_variance_changes`, `C107_fair_changes`: `ddof=1` and `fair=True` are not invariant; `C107_variance_law` gives the exact factor `n (N - 1) / (n N - 1)`. `C107_sorted`: the rank-based spread (`use_sort`), for finite members, through `C30_sorted`. Results are compared as labelled arrays (`SameValues`); masks may not depend on the member. |
| C108 | `Spec/Samples`: `StatVar.listed` copies values and mask along an existing dimension `d` according to `Copies n C C' π` (C107), `CasesOf` says that `d` has the labels `C` wherever it occurs, `Aggregator.TreatsAlike` that the aggregation averages over `d` with weights and bins that do not look at it. `Lemmas/Samples`: elementwise arithmetic commutes with the copies (masks agree on the copies exactly if they agree on the cases, which needs `n ≠ 0`), `sumDims_listed` by induction over the averaged dimensions in any order, `n •` cancels. `C108_cases` for every metric that works case by case, `C108_deterministic`, `C108_categorical`, `C108_rmse`, `C108_example` for the example evaluation. ★ `C108_uneven`: uneven copies change the mean; `Props/SampleWeights`: in exactly one way, since `m l ≥ 1` copies of the case `l` (`ListedTimes`) have the scores of the cases with the further weights `m l` (`C108_weights`, `C108_weights_floats`, `C108_weights_ensembles`, for NaN and infinities too). `C108_sedi`. `Props/SamplesEnsemble`: the CRPS (`C108_crps`: fair or not, sorted or pairwise), the variance, unbiased MSE, and spread-skill ratios for arrays that all have the dimension (`C108_ensembles`: without `skipna` the ensemble size is a number, which is not listed). `Props/SamplesMore`: wind vectors, threshold exceedances, anomaly correlation and activity (`C108_anomalies`, the selected climatology being that of each case). Spatial scores are not covered. |
| C109 | `Spec/HiddenCases`: `StatVar.HiddenOutside d C S` says that the mask is false at the cases outside `S`, `HidesCases` that the predictions are unmasked and all observations hidden there, `Aggregator.KeepsZero` that 0 times a weight or bin is 0 (finite weights). Removing the cases is cutting out the chunk `S` (C74), i.e. listing `S` by the identity (C108). `sum_hidden`: `where(mask, 0)` makes the summands outside `S` zero, also through weights and bins, so both sums are the sums over `S`. `C109_mean`/`C109_hidden` for every metric with `ChunkLocal` statistics whose outputs inherit the mask, `C109_deterministic`, `C109_categorical`, `C109_rmse` without such hypotheses. ★ `C109_infinite`: with an infinite weight a hidden case contributes NaN. `Props/HiddenEnsemble` ★: statistics of the forecasts alone (CRPS spread, ensemble variance) have no mask and are averaged over the hidden cases (`C109_spread_unmasked`, `C109_variance_unmasked`, `C109_unmasked_statistic`), so that the masked CRPS of a perfect forecast can be -1/4 (`C109_crps_negative`). `Props/HiddenMembers` `C109_crps`: if the forecasts carry the masks of the observations (`CarriesMasks`), the CRPS does leave the hidden cases out. |

No property is given up as inexpressible. Where a property's full truth depends on an external library (xarray, numpy, scipy, pandas, jax,
Beam, the file system), it is proved relative to the contract of the library call that the model states in the comment of the definition.

## 3. What is modelled and what is not

Modelled (every public function and class is cited by a model file, except as listed): `weatherbenchX/` `aggregation.py`, `beam_pipeline.py`,
`beam_utils.py`, `time_chunks.py`, `xarray_tree.py`, `weighting.py`, `binning.py`, `interpolations.py`, `metrics/*`, `data_loaders/*`,
`statistical_inference/*`; `public_benchmark/` `run_benchmark_evaluation.py` (everything but the loader keyword arguments), `public_configs.py`, `combine_results.py` and
the graph of `apps/dash_app.py` (`update_graph` with the tables of `apps/config.py`); `evaluation_scripts/run_example_evaluation.py` (default dimensions,
no `levels`).

Not modelled: flag parsing, test
utilities, plotting/notebooks, `__init__` bodies that only store arguments, progress bars, logging, dask scheduling, and everything in
section 1 under "Not modelled anywhere" and "Abstracted away".

## 4. Trusted base

* **Lean 4.33.0's kernel.** No `axiom`, no compiled evaluation. Proofs on concrete data use `decide`/`decide +kernel`/`rfl`, i.e. kernel reduction.
* **Axioms.** `AXIOMS.md` lists, for every theorem of `MANIFEST.json`, the axioms printed by `#print axioms`: at most `propext`,
  `Classical.choice`, `Quot.sound`.
* **The reading of the code** in the model files: no code was executed. A wrong reading makes the theorems statements about another program. The
  citations and the simplification notes are there to make the reading checkable.
* **Library contracts** as listed in the last column of the table and in the comments of the model files.

## 5. Testing the theorems against wrong programs

`tools/mutate.py` applies a list of edits to a scratch copy of the model (a wrong boundary, swapped arguments, a dropped update, ...), rebuilds
everything and records which theorems no longer prove (`seeded/LOG.jsonl`). Edits that no theorem noticed have led to stronger theorems; the entry
`theorems_tightened` names them. A few survivors remain where the edit does not change observable behaviour (for example an error replaced
by the same error from a later check).
