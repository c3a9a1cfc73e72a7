#!/usr/bin/env python3
"""Single source for properties.jsonl (run from /verif: python3 tools/props.py)."""
import json
P = []
def p(title, statement, quantifier, why, anchors):
  P.append(dict(id=f'C{len(P)+1:02d}', title=title, statement=statement,
                quantifier=quantifier, why_tests_cant=why, anchors=anchors))

# ---------------------------------------------------------------- time chunks
p('Time chunks cover every (init, lead) pair exactly once',
  'Iterating a TimeChunks built from arrays yields chunks whose (init_time x lead_time) products, taken in iteration order, contain every pair of the requested init and lead times exactly once: concatenating the init chunks gives back init_times in order, concatenating the lead chunks gives back lead_times in order, and the chunk list is their full cartesian product.',
  'every list of init times, every list of lead times, every accepted pair of chunk sizes (None, 0, positive)',
  'the sizes and chunk sizes are unbounded; an off-by-one at a ragged last chunk appears only for particular combinations',
  ['weatherbenchX/time_chunks.py:TimeChunks.__init__', 'weatherbenchX/time_chunks.py:TimeChunks.__iter__'])
p('Indexing, length and iteration of TimeChunks agree',
  'len(tc) is the number of chunks iteration yields; tc[i] is the i-th chunk iteration yields for 0 <= i < len(tc), and raises IndexError for every other integer.',
  'every constructed TimeChunks, every integer index',
  'ranges over all indices and all chunkings',
  ['weatherbenchX/time_chunks.py:TimeChunks.__len__', 'weatherbenchX/time_chunks.py:TimeChunks.__getitem__'])
p('Chunk offsets locate each chunk in the full time axes',
  'iter_with_chunk_offsets yields the same chunks as iteration, each with offsets (o_i, o_l) such that the init chunk is init_times[o_i : o_i + len(chunk)] and the lead chunk is lead_times[o_l : o_l + len(chunk)]; distinct chunks have distinct offset pairs. (Found: for a lead-time slice with lead_time_chunk_size=None the call raises TypeError.)',
  'every constructed TimeChunks', 'offset arithmetic must hold for every chunk of every chunking',
  ['weatherbenchX/time_chunks.py:TimeChunks.iter_with_chunk_offsets'])
p('TimeChunks accepts and rejects exactly the documented arguments',
  'Negative chunk sizes, slices lacking start or stop or having a step, and a nonzero lead chunk size with a slice are rejected with ValueError; every other call on nonempty times succeeds and every chunk is nonempty, no longer than the chunk size, and only the last one may be shorter.',
  'all constructor arguments', 'the argument space is unbounded and the order of checks matters',
  ['weatherbenchX/time_chunks.py:TimeChunks.__init__'])

# ---------------------------------------------------------------- aggregation
p('combining_sum is a zero-filled outer-join sum',
  'combining_sum of DataArrays with the same dimensions keeps every coordinate label of every input, and its value at a cell is the sum of the values of exactly those inputs that have the cell; the result does not depend on the order or grouping of the inputs. (Found: with differing dimensions grouping matters.)',
  'all finite lists of labelled arrays, all values including NaN and infinities',
  'arbitrary label sets, overlaps, orders and groupings',
  ['weatherbenchX/aggregation.py:combining_sum'])
p('AggregationState forms a commutative monoid under +',
  'zero() is an identity for + on both sides, and + is associative and commutative on states with the same nested keys; sum over any list equals any parenthesisation of binary +. (Found: with differing key sets, later extra keys are silently dropped and missing keys raise, so + is not commutative.)',
  'all lists of states, all nestings, all parenthesisations',
  'unbounded reduction orders chosen by the scheduler',
  ['weatherbenchX/aggregation.py:AggregationState.sum', 'weatherbenchX/aggregation.py:AggregationState.__add__', 'weatherbenchX/xarray_tree.py:map_structure'])
p('Chunked aggregation equals whole-dataset aggregation',
  'Aggregating each chunk of a statistic separately and summing the resulting aggregation states gives the same sum_weighted_statistics and sum_weights as aggregating the whole statistic at once, whether the chunked dimension is reduced or kept.',
  'all statistics, all partitions of a dimension into chunks, all reduce_dims, all weights and bin masks that are computed pointwise',
  'number, size and placement of chunks are unbounded',
  ['weatherbenchX/aggregation.py:Aggregator.aggregate_stat_var', 'weatherbenchX/aggregation.py:AggregationState.sum', 'weatherbenchX/aggregation.py:combining_sum'])
p('mean_statistics is the weighted mean',
  'mean_statistics of an aggregated statistic is sum(w*x)/sum(w) over the reduced cells; with nonnegative weights and positive total it lies between the smallest and largest reduced value, equals c when every value is c, is unchanged when every weight is multiplied by the same positive constant and is additive and homogeneous in the values.',
  'all finite values, all weights with nonzero total', 'a statement over all real-valued inputs',
  ['weatherbenchX/aggregation.py:AggregationState.mean_statistics', 'weatherbenchX/aggregation.py:Aggregator.aggregation_fn'])
p('NaN handling: masked-out NaNs never leak, unmasked NaNs always propagate',
  'With masked=True values (NaN, infinite or not) where the mask is False never influence sums or weights; without masked and skipna a single NaN among the reduced cells makes the aggregated statistic NaN while the weights stay finite; with skipna=True NaN cells are dropped from both statistic and weights.',
  'all arrays, masks, NaN positions, weights and bins', 'NaN positions range over all subsets',
  ['weatherbenchX/aggregation.py:Aggregator.aggregate_stat_var'])
p('NaNs outside a bin poison the bin unless masked',
  'Without masked/skipna, a NaN at any reduced cell makes every bin of the binned result NaN, including bins whose mask excludes the cell; with masked=True and the cell masked out it does not.',
  'all arrays and all bin masks', 'ranges over all masks and positions',
  ['weatherbenchX/aggregation.py:Aggregator'])
p('Two-stage reduction equals one-stage reduction',
  'Aggregating over dims A and then summing the state along dims B gives the same state as aggregating over A and B at once, in either order of the dims, for unbinned and binned aggregation with pointwise weights.',
  'all arrays, all disjoint dimension sets', 'unbounded shapes',
  ['weatherbenchX/aggregation.py:AggregationState.sum_along_dims', 'weatherbenchX/aggregation.py:Aggregator.aggregation_fn'])
p('Exactly the reducible variables survive aggregation',
  'A statistic variable appears in the aggregated state iff it is not None, has all reduce_dims, and every bin mask only uses (apart from the bin dimension) dimensions the variable has; statistics and weights always have the same keys; duplicate bin dimension names raise ValueError when the reduce_dims are present.',
  'all statistic dictionaries, all aggregators', 'ranges over all combinations of dims',
  ['weatherbenchX/aggregation.py:Aggregator.aggregation_fn', 'weatherbenchX/aggregation.py:Aggregator.aggregate_stat_vars', 'weatherbenchX/aggregation.py:Aggregator.aggregate_statistics'])
p('Partitioning bins add up to the unbinned aggregate',
  'If the bin masks of a binning are 0/1 and exactly one bin contains each cell, the binned sums (statistics and weights) summed over the bin dimension equal the unbinned sums, for finite values.',
  'all arrays and partitions', 'unbounded shapes and bins',
  ['weatherbenchX/aggregation.py:Aggregator.aggregation_fn', 'weatherbenchX/binning.py'])
p('AggregationState serialisation round-trips',
  'from_dataset(to_dataset(s)) and from_data_tree(to_data_tree(s)) return a state with the same nested keys and arrays for every two-level state whose statistic and variable names are nonempty and contain neither the separator nor "/", and whose statistics each have at least one variable; names that contain the separator can be mis-split.',
  'all states and separators', 'ranges over all strings used as names',
  ['weatherbenchX/aggregation.py:AggregationState.to_data_tree', 'weatherbenchX/aggregation.py:AggregationState.from_data_tree', 'weatherbenchX/aggregation.py:AggregationState.to_dataset', 'weatherbenchX/aggregation.py:AggregationState.from_dataset'])
p('map_structure preserves structure and composes',
  'map_structure applied to one structure returns a structure of the same shape with the function applied to each leaf: mapping the identity changes nothing and mapping f then g equals mapping the composition; empty structure lists raise ValueError; for dicts the keys of the first structure are used.',
  'all nested structures and functions', 'unbounded nesting',
  ['weatherbenchX/xarray_tree.py:map_structure'])

# ---------------------------------------------------------------- beam
p('CombiningSum is independent of bundling and merge order',
  'Whatever way a Beam runner splits the per-key inputs into bundles, creates accumulators (including empty ones), adds inputs and merges accumulators in any tree, the extracted output is the combining_sum of all inputs (None when there are none).',
  'all inputs with equal dims, all runner schedules (merge trees)', 'schedules are chosen by the runner and unbounded',
  ['weatherbenchX/beam_utils.py:CombiningSum'])
p('The Beam pipeline computes the same state as direct aggregation',
  'For every chunking in init and lead time and every combine schedule, the per-statistic per-variable state reconstructed by the pipeline equals the state obtained by aggregating the full data in memory; values whose init/lead dims are kept are placed at their own labels and never summed across chunks.',
  'all chunkings, schedules, statistics and variables', 'unbounded chunk counts and schedules',
  ['weatherbenchX/beam_pipeline.py:ComputeStatisticsAggregateAndPrepareForCombine', 'weatherbenchX/beam_pipeline.py:_AggregationKey', 'weatherbenchX/beam_pipeline.py:ConcatPerStatisticPerVariable', 'weatherbenchX/beam_pipeline.py:AggregateStatistics', 'weatherbenchX/beam_pipeline.py:reconstruct_aggregation_state'])
p('atomic_write never exposes a partial file',
  'In every interleaving of any number of atomic_write calls to the same path, with any writer crashing or failing at any step, a reader of the path sees the old content or the complete data of one writer; a writer that completes leaves no temporary file, a failed write removes its temporary file and re-raises.',
  'all writers, interleavings, crash points', 'schedules and crash points are unbounded',
  ['weatherbenchX/beam_utils.py:atomic_write'])
p('Loading initialises once and passes targets as reference',
  'Over any sequence of chunks processed by a worker, the setup function runs at most once before the first load; for every chunk the targets are loaded before the predictions and are exactly the reference passed to the prediction loader.',
  'all chunk sequences', 'histories are unbounded',
  ['weatherbenchX/beam_pipeline.py:LoadPredictionsAndTargets'])

# ---------------------------------------------------------------- metrics base
p('Shared statistics do not change metric values',
  'Computing a set of metrics together via unique statistics yields for each metric the same value as computing it alone from its own statistics, provided statistics with equal unique names compute equal values; each unique statistic is computed once. (Found: several statistic classes omit parameters from unique_name, so the proviso can fail and one metric silently gets the other statistic.)',
  'all metric dictionaries, statistics and inputs', 'arbitrary sharing patterns and orders',
  ['weatherbenchX/metrics/base.py:generate_unique_statistics_for_all_metrics', 'weatherbenchX/metrics/base.py:compute_unique_statistics_for_all_metrics', 'weatherbenchX/metrics/base.py:compute_metric_from_statistics', 'weatherbenchX/metrics/base.py:compute_metrics_from_statistics'])
p('Per-variable statistics and metrics use exactly the common variables',
  'PerVariableStatistic.compute returns a value for exactly the variables present in both predictions and targets whose per-variable computation is not None; PerVariableMetric.values_from_mean_statistics returns values for exactly the variables present in all its statistics.',
  'all dictionaries', 'ranges over all key sets',
  ['weatherbenchX/metrics/base.py:PerVariableStatistic.compute', 'weatherbenchX/metrics/base.py:PerVariableMetric.values_from_mean_statistics'])

# ---------------------------------------------------------------- deterministic metrics
p('|Bias| <= MAE <= RMSE and their equality cases',
  'For aggregated nonnegative-weighted means, |bias| <= MAE <= RMSE, RMSE squared is MSE, all are zero for a perfect forecast, and MAE/RMSE are zero only if the forecast is perfect wherever the weight is positive.',
  'all predictions, targets and nonnegative weights with positive total', 'inequalities over all reals',
  ['weatherbenchX/metrics/deterministic.py:Bias', 'weatherbenchX/metrics/deterministic.py:MAE', 'weatherbenchX/metrics/deterministic.py:RMSE', 'weatherbenchX/metrics/deterministic.py:MSE'])
p('ACC lies in [-1, 1] and is 1 for a perfect forecast',
  'For aggregated nonnegative-weighted means the anomaly correlation lies in [-1,1] whenever both activities are nonzero, equals 1 when predictions equal targets, is unchanged by positive rescaling of the forecast anomalies and symmetric in forecast and truth.',
  'all predictions, targets, climatologies, weights', 'Cauchy-Schwarz over all inputs',
  ['weatherbenchX/metrics/deterministic.py:ACC', 'weatherbenchX/metrics/deterministic.py:AnomalyCovariance'])
p('Wind vector error decomposes over components',
  'WindVectorSquaredError equals the sum of the squared errors of the u and v components for each configured vector, so the wind vector RMSE squared is the sum of the component MSEs; name lists of different lengths raise ValueError and a component missing from predictions or targets raises KeyError (no vector is silently skipped).',
  'all winds', 'ranges over all values and name lists',
  ['weatherbenchX/metrics/deterministic.py:WindVectorSquaredError', 'weatherbenchX/metrics/deterministic.py:WindVectorRMSE'])
p('Error exceedance is a monotone 0/1 indicator',
  'ErrorExceedance is 1 where |prediction-target| > threshold, 0 where it is <=, NaN where the error is NaN, nonincreasing in the threshold; its mean is a probability in [0,1].',
  'all errors and thresholds', 'ranges over all values',
  ['weatherbenchX/metrics/deterministic.py:ErrorExceedance'])

# ---------------------------------------------------------------- categorical
p('Contingency table cells partition the evaluated points',
  'For binary non-NaN prediction and target exactly one of TP, TN, FP, FN is 1 and the others 0; if either is NaN all four are NaN; so the four means sum to 1.',
  'all binary/NaN inputs and weights', 'ranges over all arrays',
  ['weatherbenchX/metrics/categorical.py:TruePositives', 'weatherbenchX/metrics/categorical.py:TrueNegatives', 'weatherbenchX/metrics/categorical.py:FalsePositives', 'weatherbenchX/metrics/categorical.py:FalseNegatives'])
p('Categorical scores stay in their ranges and satisfy their identities',
  'CSI, Accuracy, Recall, Precision, FalseAlarmRate and F1 lie in [0,1] when their denominators are nonzero; F1 is the harmonic mean of precision and recall and F1 = 2 CSI/(1+CSI); Precision + FalseAlarmRate = 1; HSS <= 1 and ETS in [-1/3, 1] with ETS = HSS/(2-HSS); a perfect forecast with both classes present scores 1.',
  'all nonnegative contingency means', 'inequalities over all reals',
  ['weatherbenchX/metrics/categorical.py:CSI', 'weatherbenchX/metrics/categorical.py:F1Score', 'weatherbenchX/metrics/categorical.py:HSS', 'weatherbenchX/metrics/categorical.py:ETS'])
p('SEEPS is 0 for correct, 1 on average for constant forecasts, and masks by p1',
  'Each valid (forecast, truth) pair falls in exactly one cell of the 3x3 SEEPS matrix; matching categories score 0, all scores are nonnegative for p1 in (0,1); with light:heavy climatology 2:1 every constant forecast has expected score 1; values outside [min_p1,max_p1] are masked. The wet threshold of a cell is that of the climatology for the day of the year and the hour of its valid time, and p1 is the mean dry fraction over all hours and days of the year that are not missing.',
  'all p1 in (0,1), thresholds, values', 'algebraic identity over all p1',
  ['weatherbenchX/metrics/categorical.py:SEEPSStatistic'])
p('Ranked probability score decomposes and vanishes only for equal CDFs',
  'RankedProbabilityScore is the sum over bins of the squared CDF differences: nonnegative, symmetric, zero iff the CDFs agree on every bin, and for one-hot forecasts k bins away from the truth it is k.',
  'all CDF arrays', 'unbounded bins', ['weatherbenchX/metrics/categorical.py:RankedProbabilityScore'])

# ---------------------------------------------------------------- probabilistic
p('CRPS spread: sorted form equals the pairwise form',
  'The O(n log n) rank-based ensemble spread equals the pairwise mean absolute difference sum_{i,j}|x_i-x_j| / (n(n-fair)), for every ensemble including ties and in any member order; ensembles with fewer than two members raise ValueError (fair).',
  'all ensembles of every size', 'identity over every size and ordering',
  ['weatherbenchX/metrics/probabilistic.py:CRPSSpread'])
p('CRPS is proper in its basic bounds',
  'The unfair ensemble CRPS skill - spread/2 is nonnegative, equals the integral-free identity sum for degenerate ensembles (|x-y| when all members equal x), is translation invariant and positively homogeneous; it does not depend on member order.',
  'all ensembles and targets', 'inequality over all reals and sizes',
  ['weatherbenchX/metrics/probabilistic.py:CRPSEnsemble', 'weatherbenchX/metrics/probabilistic.py:CRPSSkill'])
p('Unbiased ensemble-mean MSE equals the mean over distinct member pairs',
  'UnbiasedEnsembleMeanSquaredError, (mean-y)^2 - var/n with ddof=1, equals the average over ordered pairs i != j of (x_i-y)(x_j-y); EnsembleVariance (ddof 1) equals half the mean squared difference over distinct pairs and is nonnegative.',
  'all ensembles with n >= 2', 'identity over every size',
  ['weatherbenchX/metrics/probabilistic.py:UnbiasedEnsembleMeanSquaredError', 'weatherbenchX/metrics/probabilistic.py:EnsembleVariance'])
p('Rank histogram is one-hot on n+1 ranks',
  'For every ensemble of n members and target, RankHistogram is 1 at exactly one of the n+1 ranks - the number of members strictly below the target - and 0 elsewhere; the mean histogram sums to 1; the rank is invariant under strictly increasing transformations and member permutations. (Found: NaN target counts as rank 0.)',
  'all ensembles and targets', 'unbounded sizes', ['weatherbenchX/metrics/probabilistic.py:RankHistogram'])
p('Relative economic value bounds',
  'RelativeEconomicValue is at most 1, is 1 for a perfect forecast, and with the constant thresholds 0 and 1 included its best value over thresholds is at least 0. With optimal_thresholds (one array or one per variable) the value is that at the given threshold, or with optimal_thresholds_select_nearest at the nearest one (the larger of two equally near); it raises if a threshold is not evaluated, if a variable is missing, if thresholds to be searched for the nearest are not increasing, or if the probability thresholds contain 0 or 1.',
  'all contingency means and cost/loss ratios in (0,1)', 'inequality over all reals',
  ['weatherbenchX/metrics/probabilistic.py:RelativeEconomicValue'])
p('Ensemble ranked probability score',
  'The (fair and unfair) ensemble RPS equals the sum over bins of the squared difference between ensemble-mean CDF and target CDF minus (fair only) the sampling-variance correction; unfair is nonnegative; the fair score equals the mean over distinct member pairs of the product of their CDF errors.',
  'all ensembles, bins', 'identity over every size', ['weatherbenchX/metrics/probabilistic.py:EnsembleRankedProbabilityScore'])

# ---------------------------------------------------------------- wrappers
p('Bin and CDF encodings are exact',
  'ContinuousToBins maps a non-NaN value to a one-hot vector over (t_k, t_{k+1}] (all zero outside the outer thresholds), NaN to NaN; the CDF encoding is 0/1, nondecreasing in the threshold, and the bins are its differences; non-strictly-increasing thresholds raise ValueError.',
  'all values and strictly increasing threshold lists', 'unbounded threshold lists',
  ['weatherbenchX/metrics/wrappers.py:ContinuousToBins', 'weatherbenchX/metrics/wrappers.py:ContinuousToCDF', 'weatherbenchX/metrics/wrappers.py:compute_cdf'])
p('Binarisation is a NaN-preserving monotone indicator',
  "ContinuousToBinary gives 1 where x > t, 0 where x <= t and NaN where x is NaN, antitone in t; the ensemble mean of binaries is the fraction of members above the threshold, the Weibull position divides by n+1. (Found: a NaN threshold gives 0, it is not propagated as it is in the CDF encoding.)",
  'all values, thresholds', 'ranges over all values', ['weatherbenchX/metrics/wrappers.py:binarize_thresholds', 'weatherbenchX/metrics/wrappers.py:ContinuousToBinary'])
p('WrappedMetric applies transforms in list order and only to the chosen side',
  'A WrappedMetric with transforms [f,g,h] computes its statistics on h(g(f(x))) for each side selected by `which`, leaves the other side untouched, and gives every wrapped statistic a unique name made of the statistic, then side and suffix of each transform (last transform first); values from mean statistics are those of the inner metric.',
  'all transform lists, metrics, inputs', 'unbounded lists', ['weatherbenchX/metrics/wrappers.py:WrappedMetric', 'weatherbenchX/metrics/wrappers.py:WrappedStatistic'])

# ---------------------------------------------------------------- spatial
p('Neighbourhood averaging is a wrap-around window mean',
  'Convolution along longitude wraps around; each interior cell is the mean over the n x n window; cells whose window leaves the latitude range (and longitude range when not wrapping) are masked/zeroed; size 1 is the identity; even sizes raise ValueError. A mask coordinate is averaged along, which is correct if its last dimensions are latitude and longitude; with longitude before latitude it raises ValueError or, for as many latitudes as longitudes, transposes the mask.',
  'all grids and odd window sizes', 'unbounded grids', ['weatherbenchX/metrics/spatial.py:convolve2d_wrap_longitude'])
p('FSS lies in [0,1] and is 1 for a perfect forecast',
  'With nonnegative fractions the fractions skill score 1 - SFE/(SPF+STF) lies in [0,1] when the denominator is positive, is 1 iff the fractions agree wherever the weight is positive, is 0 iff no such cell has positive fractions of both, is NaN if both fields of fractions vanish there, and is symmetric. The limits are proved too: with masked=True and a mask on one side only, or with skipna=True and missing observations, the three statistics are averaged over different cells and the score can be negative.',
  'all fraction fields and weights', 'inequality over all reals', ['weatherbenchX/metrics/spatial.py:FSS'])

# ---------------------------------------------------------------- binning
p('Latitude/longitude region masks',
  'A region mask contains a point iff lat0 <= lat <= lat1 and the longitude lies on the eastward arc from lon0 to lon1 (modulo 360, wrapping allowed), regardless of whether longitudes are given in [-180,180) or [0,360); empty latitude ranges raise ValueError.',
  'all coordinates and limits', 'modular arithmetic over all reals', ['weatherbenchX/binning.py:_region_to_mask', 'weatherbenchX/binning.py:Regions'])
p('Exact-coordinate, set and interval bins are correct indicators',
  'ByExactCoord bins are one-hot on the coordinate values present; ByCoordBins assigns each coordinate inside the outer edges to exactly one half-open bin; BySets bin masks are membership indicators with complements exactly negated; global bins are all ones. Sets may be given as lists, tuples, arrays or single values. (Found: a set that is given as a Python set has an empty bin.)',
  'all coordinates, edges and sets', 'unbounded', ['weatherbenchX/binning.py:ByExactCoord', 'weatherbenchX/binning.py:ByCoordBins', 'weatherbenchX/binning.py:BySets'])
p('Land/sea binning partitions the globe',
  'Land and sea masks are complementary 0/1 indicators of land_sea_mask >= threshold, and with include_global the global bin is their sum.',
  'all masks and thresholds', 'ranges over all values', ['weatherbenchX/binning.py:LandSea'])
p('Time-unit bins put each time in exactly one bin',
  'ByTimeUnit assigns each time to the bin given by its unit value; timedelta units are floor divisions, for single units and for sets of them; every value of a bounded unit lies within the default bins. (Found: ByTimeUnitFromSeconds does not reduce modulo 24/60 so later values drop out of all bins.)',
  'all times', 'unbounded times', ['weatherbenchX/binning.py:ByTimeUnit', 'weatherbenchX/binning.py:_extract_time_unit', 'weatherbenchX/binning.py:ByTimeUnitFromSeconds'])

# ---------------------------------------------------------------- weighting
p('Grid area weights are positive, average one and telescope',
  'For strictly monotonic latitudes (either direction) GridAreaWeighting gives each latitude a weight proportional to the sine difference of its cell bounds: positive, with mean exactly 1, total unnormalised area 2 (the sphere), and reversing the latitudes reverses the weights; without a latitude dim the weight is 1.',
  'all strictly monotonic latitude vectors in [-90,90]', 'unbounded grids', ['weatherbenchX/weighting.py:GridAreaWeighting', 'weatherbenchX/weighting.py:_latitude_cell_bounds'])

# ---------------------------------------------------------------- data loaders
p('Latency wrapper never uses data that is not yet available and keeps valid times',
  'For each queried init time the wrapper loads the latest nominal init time whose data is available (nominal + latency <= init), with lead times shifted so that every returned element has the queried init and lead time and unchanged valid time; ValueError if none is available. Around a loader of sparse observations it therefore returns the same observations as the loader itself.',
  'all nominal times, latencies, queries', 'unbounded histories', ['weatherbenchX/data_loaders/latency_wrappers.py:ConstantLatencyWrapper', 'weatherbenchX/data_loaders/latency_wrappers.py:XarrayConstantLatencyWrapper'])
p('MultipleConstantLatencyWrapper picks the freshest source',
  'The chosen loader minimises the offset between query and available init time, ties broken as coded by latency; hence no other loader offers fresher data.',
  'all loader lists and queries', 'unbounded', ['weatherbenchX/data_loaders/latency_wrappers.py:MultipleConstantLatencyWrapper'])
p('Targets are aligned by valid time',
  'The targets loader returns for each (init, lead) the source value at time init + lead; persistence returns the value at init for each lead; climatology returns the entry for day-of-year and hour of init + lead; lead slices raise ValueError where documented.',
  'all init and lead times', 'unbounded', ['weatherbenchX/data_loaders/xarray_loaders.py:TargetsFromXarray', 'weatherbenchX/data_loaders/xarray_loaders.py:PersistenceFromXarray', 'weatherbenchX/data_loaders/xarray_loaders.py:ClimatologyFromXarray'])
p('Chunk loading is history independent',
  'load_chunk returns the same result for the same arguments regardless of which chunks were loaded before (lazy dataset preparation is idempotent), and applies process_chunk_fn, interpolation, compute, NaN mask in that order.',
  'all call histories', 'histories are unbounded', ['weatherbenchX/data_loaders/base.py:DataLoader.load_chunk', 'weatherbenchX/data_loaders/xarray_loaders.py:XarrayDataLoader.maybe_prepare_dataset'])
p('Parquet file selection covers the requested window',
  'Every observation time within the requested (tolerance-extended) window lies in one of the files selected; the tolerance is normalised to an interval and empty intervals raise ValueError.',
  'all windows, units and tolerances', 'unbounded times', ['weatherbenchX/data_loaders/sparse_parquet.py'])
p('Duplicate observations: the closest is kept, one per station',
  'Picking the closest from duplicates returns exactly one row per station, and no other row of that station is closer to the requested time.',
  'all observation tables', 'unbounded tables', ['weatherbenchX/data_loaders/sparse_parquet.py'])

# ---------------------------------------------------------------- interpolation
p('Altitude adjustment of wind and temperature',
  'The wind adjustment factor is continuous, nondecreasing, within [1,3]; the temperature adjustment is linear in the height difference with the lapse rate; differences of magnitude at least the maximum (or NaN) are not adjusted.',
  'all height differences', 'piecewise function over all reals', ['weatherbenchX/interpolations.py'])
p('MultipleInterpolation composes in order',
  'MultipleInterpolation applies its interpolations left to right; nesting and concatenating lists are equivalent; the empty list is the identity.',
  'all lists', 'unbounded lists', ['weatherbenchX/interpolations.py:MultipleInterpolation'])

# ---------------------------------------------------------------- statistical inference
p('Confidence intervals and p-values are dual (t-test)',
  'The t-test confidence interval is symmetric around the estimate, nested in alpha, and excludes zero exactly when the two-sided p-value is below alpha, for any symmetric continuous strictly increasing reference CDF.',
  'all estimates, standard errors, alphas', 'inequality over all reals', ['weatherbenchX/statistical_inference/t_test.py'])
p('Autocorrelation and AR(2) variance inflation',
  'The variance inflation computed from autocorrelations equals the one computed from the fitted AR(2) coefficients, and is 1 for uncorrelated data.',
  'all autocorrelations', 'rational identity', ['weatherbenchX/statistical_inference/t_test.py'])
p('Bootstrap resampling via counts equals resampling the data',
  'Multiplying data by resample counts and summing equals summing the resampled units; counts always total n; cluster bootstrap gives all units in a cluster the same count; stationary bootstrap indices are in range and step by +1 modulo n inside a block.',
  'all resample index vectors, random draws', 'random draws are unbounded', ['weatherbenchX/statistical_inference/bootstrap.py'])
p('Baseline comparison computes main minus baseline per variable',
  'The paired comparison of metrics yields for every metric value main - baseline computed with the same metric, on exactly the keys both have; statistic names of the two sides never collide. An inference method made by for_baseline_comparison has a result for exactly the metrics that both mappings have; each of its point estimates and resampled values compares the value for the model with that for the baseline, for the same draws of experimental units for all metrics and both models. A model compared with itself has the difference 0 wherever the value is finite.',
  'all metric sets and states', 'unbounded', ['weatherbenchX/statistical_inference/baseline_comparison.py'])
p('Per-unit tangents average to zero',
  'The autodiff per-unit linearisation of a weighted mean has tangents (s_i - m w_i)/wbar that average to zero, so the estimated statistic is unchanged to first order.',
  'all unit statistics and weights', 'identity over all sizes', ['weatherbenchX/statistical_inference/autodiff.py'])

# ---------------------------------------------------------------- added while the model grew
p('METAR observations are quality controlled',
  'The METAR loader turns values of the requested variables with a bad quality flag into NaN, maps longitudes into [0, 360) without moving the station, turns fill values of the elevation into NaN, and changes nothing else.',
  'all tables, flags, longitudes and elevations', 'unbounded tables and real longitudes', ['weatherbenchX/data_loaders/sparse_parquet.py:METARFromParquet', 'weatherbenchX/data_loaders/sparse_parquet.py:set_bad_quality_to_nan'])

p('Linear interpolation to coordinates',
  'With method linear, interpolation returns on each target point the value of the straight line between the two neighbouring grid points, whatever the order of the grid; grid points keep their value, values never leave the range of the grid values, fields affine in the coordinates are reproduced exactly, and outside of the grid the result is NaN unless extrapolation is allowed; with extrapolation, target coordinates with a common dimension (stations) are extrapolated linearly, but several target coordinates along different dimensions (another grid) still give NaN outside of the grid.',
  'all grids, target coordinates and fields', 'real coordinates and values, any number of grid points', ['weatherbenchX/interpolations.py:InterpolateToFixedCoords', 'weatherbenchX/interpolations.py:interpolate_to_coords'])
p('Wrapped longitudes have no seam',
  'With wrap_longitude, the value at any longitude is the linear interpolation between the two neighbouring longitudes on the circle; longitudes 360 degrees apart get the same value; grids from -180 to 180 and from 0 to 360 give the same result.',
  'all longitude grids spanning less than the circle, all targets', 'real coordinates', ['weatherbenchX/interpolations.py:pad_longitude'])
p('CropToBox keeps exactly the closed box',
  'Cropping keeps exactly the cells whose latitude and longitude lie in the closed box with unchanged values, rejects boxes with min > max, and cropping twice is cropping to the intersection.',
  'all boxes and datasets', 'real coordinates', ['weatherbenchX/interpolations.py:CropToBox'])
p('Subsample keeps every stride-th label',
  'Subsampling keeps exactly the positions divisible by the stride of the given dimensions that exist; stride 1 changes nothing, strides multiply, and strides below 1 are rejected.',
  'all datasets, dimensions and strides', 'unbounded sizes', ['weatherbenchX/interpolations.py:Subsample'])
p('Neighbourhood probabilities are fractions of the window',
  'Each probability is the fraction of the cells of the square window that exceed the threshold, lies in [0,1], and does not increase with the threshold.',
  'all fields, odd sizes and thresholds', 'unbounded grids', ['weatherbenchX/interpolations.py:NeighborhoodThresholdProbabilities'])
p('Interpolating to a reference without data',
  'An empty reference gives an empty result with the dimensions of the reference and the dimensions of the data that are not interpolated.',
  'all data and empty references', 'unbounded dims', ['weatherbenchX/interpolations.py:InterpolateToReferenceCoords', 'weatherbenchX/interpolations.py:GridToSparseWithAltitudeAdjustment'])

p('The coordinate of the experimental units is the same for all statistics or rejected',
  'Statistical inference accepts the coordinate that identifies experimental units exactly if at least one variable of a statistic exists and every variable of every statistic has that coordinate, with one dimension (the dimension of that name where the method needs it) and the same values in the same order; anything else raises ValueError.',
  'all numbers of statistics and variables, all coordinates', 'quantifies over all combinations of coordinates of all variables; a mismatch in one variable only is easy to miss',
  ['weatherbenchX/statistical_inference/utils.py:get_and_check_experimental_unit_coord'])

p('Passthrough statistics average exactly the predictions or targets',
  'PredictionPassthrough (TargetPassthrough) has at every cell the prediction (target); with copy_nans it is NaN exactly where the other input is NaN too, so that both averages are over the same cells. No label is lost if both inputs have the same labels.',
  'all predictions, targets, NaN patterns', 'ranges over all arrays and NaN patterns', ['weatherbenchX/metrics/deterministic.py:PredictionPassthrough', 'weatherbenchX/metrics/deterministic.py:TargetPassthrough'])
p('Mask of a statistic',
  'A statistic of predictions and targets has the mask of whichever input has one, and their common mask if both agree; (finding) if they disagree the statistic has no mask, so that all cells count.',
  'all inputs with masks', 'ranges over all pairs of masks', ['weatherbenchX/metrics/deterministic.py', 'weatherbenchX/aggregation.py:Aggregator.aggregation_fn'])

p('Relative intensity compares the means over the spatial dimensions',
  'RelativeIntensity is |(mean prediction + epsilon) / (mean target + epsilon) - 1| with the means over the spatial dimensions, over the cells of the target mask only if the targets have one (cells outside the mask, NaN or not, have no influence; an empty mask gives a masked-out 0), NaN as soon as a counted cell is NaN, ValueError if a spatial dimension is missing, and it is 0 exactly if the means agree (for targets that are not negative).',
  'all predictions, targets, masks, spatial dimensions and NaN patterns', 'ranges over all array sizes and masks', ['weatherbenchX/metrics/deterministic.py:RelativeIntensity'])

p('Climatologies are aligned with the valid time of the forecast',
  'A statistic that needs a climatology compares the cell (init, lead) (or the cell with that valid time) with the climatology of the day of year (and hour of day, if the climatology has hours) of init + lead, or of exactly that time for climatologies with a time dimension; other dimensions are unchanged; forecasts without times raise ValueError and times the climatology does not have KeyError.',
  'all forecasts, climatologies and times', 'ranges over all sets of times and dimensions', ['weatherbenchX/metrics/base.py:PerVariableStatisticWithClimatology'])
p('Skill of opportunity',
  'Covered is 1 where the target lies between the two quantiles of the members (both included), Confident is 1 where the spread between the quantiles is below the threshold times the spread of the climatology, JaccardDistant is 1 where one minus length of intersection over length of union of the two intervals exceeds the threshold; if the sums are taken in a numeric type (some weighting, skipna, a mask in use, or land/sea bins) their means are weighted fractions of cells; Opportunism multiplies the means (or one minus the mean) of the requested conditions. (Findings) the three statistics are boolean arrays: without any weighting, mask, skipna or land/sea bins their sums are disjunctions, the "mean" is 1 as soon as the condition holds at one cell, and over several chunks it is the fraction of chunks where it holds somewhere, so it depends on the chunking; missing values count as not covered and not distant, point intervals have distance 0, and the product is not the fraction of cells where the conditions hold jointly.',
  'all ensembles, targets, climatologies, quantile levels, thresholds, weights', 'ranges over all ensembles and weights; the product-of-means is a property of the aggregation, not of one cell',
  ['weatherbenchX/metrics/categorical.py:Confident', 'weatherbenchX/metrics/categorical.py:Covered', 'weatherbenchX/metrics/categorical.py:JaccardDistant', 'weatherbenchX/metrics/categorical.py:Opportunism'])

p('Reliability curve',
  'In each bin (lo, hi] of predicted values, Reliability is the weight of the evaluated cells whose prediction is in the bin and whose target is an event divided by the weight of the evaluated cells whose prediction is in the bin: a number in [0,1], NaN without predictions in the bin. Every prediction above the first and not above the last edge is in exactly one bin, others in none.',
  'all predictions, targets, bin edges, masks and weights', 'ranges over all arrays, edges and weights', ['weatherbenchX/metrics/categorical.py:Reliability', 'weatherbenchX/metrics/wrappers.py:ContinuousToBins'])

p("The unaggregated pipeline's Zarr store holds the statistics of the whole data",
  "define_unaggregated_pipeline writes, for every statistic and variable, an array whose value at the i-th init time and j-th lead time (and any label of the other dimensions) is the value of that statistic computed at once on the whole data, whatever the chunk sizes, the order of the writes and the number of times a chunk is retried. The time coordinates of the store are exactly the requested times. Masked statistics and empty time chunks are refused with ValueError. Findings: lead times given as a slice always raise TypeError while building the template; a statistic without time dimensions is overwritten by the last chunk; variables of two statistics can collide in the name '<statistic>.<variable>'.",
  "all time chunkings, metrics, loaders, orders and repetitions of region writes, positions and labels",
  "A test runs one chunking on one runner once; the offsets arithmetic must be right for every chunking and the store must not depend on the order or retries of the writes.",
  ["weatherbenchX/beam_pipeline.py:ComputeAndFormatStatistics", "weatherbenchX/beam_pipeline.py:_get_template_dataset", "weatherbenchX/beam_pipeline.py:define_unaggregated_pipeline"])
p("Statistics of a chunk are the chunk of the statistics (chunk locality of metrics, wrappers and loaders)",
  "Loading only some init times and lead times and computing all statistics of the metrics on them gives exactly the part of the statistics computed on all the data at once that has those times: for the deterministic, categorical, probabilistic and spatial statistics, the anomaly and SEEPS statistics with their climatology, for every wrapper applied to them (also with thresholds that depend on the time) and for the forecast, target, climatology and persistence loaders, as long as the statistic does not work along the time dimension itself. Hence the aggregated pipeline computes, from the loaders on, what a direct aggregation of the whole data gives. Finding: if predictions and targets both have masks that disagree somewhere, the mask of the statistic depends on the chunking.",
  "all data arrays (with NaN, with or without masks), sets of times, metrics built from these statistics and wrappers, chunkings",
  "Tests compare one chunking with one other on sample data; that no statistic looks outside its own time step is a statement about every statistic, every chunk and every data set.",
  ["weatherbenchX/beam_pipeline.py:LoadPredictionsAndTargets", "weatherbenchX/metrics/base.py:compute_unique_statistics_for_all_metrics", "weatherbenchX/metrics/deterministic.py", "weatherbenchX/metrics/probabilistic.py", "weatherbenchX/metrics/categorical.py", "weatherbenchX/metrics/spatial.py", "weatherbenchX/metrics/wrappers.py", "weatherbenchX/data_loaders/xarray_loaders.py"])

p("WassersteinDistance is the earth mover's distance of the two ensembles",
  "At a cell where all members are finite, WassersteinDistance is the smallest cost of transporting the equal masses of the prediction members to the equal masses of the target members (cost = mass times distance), for any two ensemble sizes; hence it is a distance (nonnegative, symmetric, triangle inequality, zero exactly if both ensembles have the same distribution), at least the distance of the ensemble means, the mean absolute error for a single target member, and scales with the unit. A NaN member makes the value NaN. It fails (ValueError) exactly if the ensemble dimension is missing or empty on one side or labels of other common dimensions differ. The metric is the weighted mean of these distances.",
  "all ensembles, ensemble sizes, members, cells, labels, weights",
  "the minimum ranges over all transport plans; a test can only compare a few samples with another implementation",
  ["weatherbenchX/metrics/probabilistic.py:WassersteinDistance"])

p("Datasets with ECMWF names are loaded under the loaders' names",
  "With the default arguments the Xarray loaders rename a file's `time` to `init_time` (and `prediction_timedelta` to `lead_time`) if it has a coordinate `prediction_timedelta`, else to `valid_time`, and `lat`, `lon` to `latitude`, `longitude` if both are coordinates; a dictionary renames all its names at once; labels and values are unchanged. Hence the value loaded at an init and lead time is the one the file has at that time and timedelta (or at the sum, for analyses). Selecting variables and labels changes no value. Unknown or colliding names are ValueErrors, unknown variables KeyErrors. Findings: a file that already has the loaders' names is refused; a timedelta without a coordinate makes forecasts look like analyses; `lat` without `lon` is not converted.",
  "all datasets, names, dictionaries, variable selections, init and lead times",
  "a test has a few files; that no renaming moves or overwrites a value must hold for every set of names",
  ["weatherbenchX/data_loaders/xarray_loaders.py:_rename_dataset", "weatherbenchX/data_loaders/xarray_loaders.py:XarrayDataLoader"])
p("Rename, Select and StackToNewDimension move values without changing them",
  "Rename gives every dimension its new name at once and keeps labels and values. Select keeps exactly the selected labels (slices include both ends; positions count from the end if negative, in the order left by the selection by label), drops dimensions of which one label is selected, and changes no value; it fails exactly if a dimension, label or position is missing; selecting before a statistic that does not work along the dimension is selecting from the statistic. StackToNewDimension puts every combination of labels at exactly one position, the last dimension varying fastest, so that sums over the new dimension are sums over the stacked ones, and cellwise functions commute with stacking; the new name may be that of a stacked dimension. All three commute with cutting the data along other dimensions.",
  "all arrays, dimensions, labels, orders, indexers, positions, dictionaries, statistics",
  "index arithmetic over any number of dimensions of any size; tests use a few shapes",
  ["weatherbenchX/metrics/wrappers.py:Rename", "weatherbenchX/metrics/wrappers.py:Select", "weatherbenchX/metrics/wrappers.py:StackToNewDimension"])
p("Interpolating to a reference",
  "InterpolateToReferenceCoords with a reference that has data is InterpolateToFixedCoords with the coordinates that the reference has for the interpolated dimensions (by default those of the array that the reference has as coordinates), padding included; values and other coordinates of the reference do not matter. clip_reference_coords keeps exactly the labels of an increasing reference coordinate within the extent of the (padded) array, so nothing is extrapolated along it. Findings: a decreasing reference coordinate, such as latitudes from north to south, leaves no data at all, without an error; a sparse reference cannot be clipped (KeyError).",
  "all arrays, grids, references, dimensions, clipped coordinates",
  "ranges over all grids and references; the order of the reference's labels is rarely varied in tests",
  ["weatherbenchX/interpolations.py:InterpolateToReferenceCoords"])

p("A latency wrapper around a forecast file loads the operational forecast, whatever was asked before",
  "A constant latency wrapper that reads its init times from the dataset of a wrapped forecast loader returns, for a queried init time i and lead time l, the value that the file has for the latest time t with t + latency <= i, at the prediction_timedelta i + l - t: a forecast that was issued by i and is valid at i + l. Forecasts that are not yet issued at i have no influence on the value at i. If the latest issued forecast does not reach i + l the call fails rather than falling back to another one. The answer of every call depends only on its arguments, not on earlier calls, successful or not, nor on whether the wrapped loader has been used on its own. Init times removed by sel_kwargs do not count. If the dataset has no init time dimension of the given name every call fails.",
  "all forecast files, latencies, queried init and lead times, and all finite sequences of calls of load_chunk and get_available_init_time",
  "a test can query a few times of one file; absence of leakage quantifies over all values of the later forecasts, and the lazily read init times make the answer a function of the call history unless shown otherwise",
  ["weatherbenchX/data_loaders/latency_wrappers.py: XarrayConstantLatencyWrapper, ConstantLatencyWrapper", "weatherbenchX/data_loaders/xarray_loaders.py: XarrayDataLoader.maybe_prepare_dataset, PredictionsFromXarray"])

p("Slices and stationary bootstrap replicates: every cell from its own slice, all statistics resampled together",
  "apply_to_slices calls the function once for every combination of labels of the sliced dimensions, on the arguments at these labels (dimensions of size one stay), and the result at a cell is what the call at its labels returned; for a pure function it is the function applied to the whole. Sizes that differ or a dimension that no argument has are a ValueError before any call. StationaryBootstrap: at every cell of every variable of every metric, a replicate is the metric of statistics and weights which are all resampled at the same unit positions, drawn for the number of units and the block length of this cell; restricting the statistics to one variable changes nothing; with a given mean block length one set of positions serves all cells, variables and metrics. The cached sampling is a function of its arguments as long as the cache has room; otherwise equal arguments can get different samples. Findings: if the function drops the sliced dimensions the call is a ValueError; if it drops only some of them, the last slice along them silently wins.",
  "all arrays, dimensions, label sets, stateful functions, metrics, block lengths, random draws and cache sizes",
  "the calls form a history through the shared cache and ranges over all combinations of labels; a test sees a few shapes and one random seed",
  ["weatherbenchX/statistical_inference/utils.py: apply_to_slices", "weatherbenchX/statistical_inference/bootstrap.py: StationaryBootstrap"])

p("The files written by define_pipeline are those of the direct evaluation",
  "define_pipeline with both output paths None raises ValueError while the pipeline is being defined, and otherwise not. For metrics with time-local statistics and loaders that give the same data for a chunk as for the whole, every run of the pipeline that completes - whatever the chunk sizes, the order and grouping in which Beam combines the parts and the order in which they reach the final step - writes to out_path a dataset with exactly the variables and values of compute_metric_values_for_single_chunk on the whole data (if all arrays agree on their labels, metric names have no dots and every statistic keeps a variable), fails where the direct evaluation fails, and writes to aggregation_state_out_path a file from which AggregationState.from_dataset reads back the state of the direct evaluation. The limits are proved too: arrays with different labels are cut or NaN-filled to the labels of the first one, which depends on the order of delivery; if a statistic that a metric needs keeps no variable the pipeline writes no metric values although the direct evaluation succeeds; if no variable is aggregated at all no file is written and no error is raised.",
  "all data, loaders, metrics with local statistics, aggregators, chunk sizes, output paths, and all orders and groupings of Beam",
  "Unit tests run one small pipeline on the direct runner, with one order of delivery; the agreement must hold for every chunking and every order of delivery",
  ["weatherbenchX/beam_pipeline.py:define_pipeline", "weatherbenchX/beam_pipeline.py:ComputeMetrics", "weatherbenchX/beam_pipeline.py:WriteMetrics", "weatherbenchX/beam_pipeline.py:WriteAggregationState", "weatherbenchX/beam_utils.py:GroupAll", "weatherbenchX/aggregation.py:AggregationState.metric_values"])

p("Benchmark results are combined into the right cells",
  "Combining the result files of the public benchmark puts the array <metric>.<variable> of every existing file (wind vectors renamed) under the display name of its variable, at the display names of the model, the metric and the regions and at the resolution and year of the file, with all labels and values; the files never conflict, every other cell is missing (NaN), and every value that is not missing comes from the file, array and region its labels name. No two models, variables, metrics or regions get the same display name, and every region and metric the benchmark writes has one. A metric without a display name, an array name without a dot, and (finding) an array name with two dots or a directory without any result file make the program fail with KeyError, IndexError, ValueError and AttributeError respectively; one unusable file makes the whole combination fail.",
  "every set of existing benchmark files over all models, years and resolutions, every variable, metric, region, label and value, in the order of the loops",
  "Tests combine a few files; collisions of names, conflicts between files and cells filled from the wrong file depend on which files exist, on their names and on their labels.",
  ["public_benchmark/combine_results.py:_rename_region", "public_benchmark/combine_results.py:process_results", "public_benchmark/combine_results.py:main"])

p('The public benchmark evaluates the announced init times, lead times and variables, and its file is the one that is combined',
  'For a year, the script run_benchmark_evaluation evaluates exactly the init times at 00 and 12 UTC of that year, in order; in 2022 the last 16 days are left out so that every forecast of up to 15 days ends in 2022 (aurora starts 12 hours later; excarta is evaluated once a day); fuxi, excarta and, in 2020, baguan end earlier. With a range of init times it evaluates the start and each step from it before the stop; lead times asked for exclude the stop, baselines without lead times get every 6 hours up to and including 15 days. One end of a range without the other is a ValueError. The evaluated variables are those of both configurations, each once; a deterministic configuration is preferred to a probabilistic one with the same name. The result of a year is written to the file that combine_results reads for this model, resolution and year; different models, resolutions or years have different files, and temporal results or those of a range of times are never read. The names of its arrays meet the conditions under which they can be combined. A precipitation variable without a dry threshold is a KeyError, even in a probabilistic evaluation, which has no SEEPS.',
  'all options of the script (predictions, targets, resolutions, years, ranges, frequencies), all configuration tables and all sets of variables',
  'tests run single configurations on mock data; whether an option combination leaves out a time, evaluates past the end of the data or writes to a file another run reads is a statement about all options',
  ['public_benchmark/run_benchmark_evaluation.py:main', 'public_benchmark/combine_results.py'])

p('The graph of the public benchmark shows exactly the combined scores, and an improvement only where the score is better',
  'For the variable, metric, level, region, year and resolution chosen in the app, the graph has a curve for exactly the models with a finite value, in order, and each curve shows for every lead time the score in the combined results under these labels. Compared to a model, a curve shows nothing at lead time 0 and where one of the two scores is missing; elsewhere it shows 100 (b - s) / b, for ACC 100 (s - b) / (1 - b): with a positive baseline score (ACC: below 1) positive exactly if the score is better, 0 exactly if it is equal, 100 exactly for a perfect score. The alert about a missing comparison is raised exactly if the model compared to has no value at any lead time, and then nothing is drawn; the alert for SEEPS exactly for a variable other than precipitation or a comparison with a model evaluated against analyses. No table lacks an entry for a model or variable of the combined results. The level has no effect on variables without levels. A curve that was drawn or hidden before stays so. Not so: the ratio of spread and skill is shown at lead time 0 (its name in the results is another one), a larger bias of the opposite sign counts as an improvement of more than 200 %, as does a ratio of spread and skill that falls from 1; curves that appear newly in the probabilistic graph are hidden even for the default models.',
  'all combined results, all choices in the menus, all previous graphs, all scores including missing ones',
  'a test draws single graphs; that no combination of labels, missing scores and previous state shows the score of another model, metric or year, or the wrong sign of an improvement, concerns all of them',
  ['public_benchmark/apps/dash_app.py:update_graph', 'public_benchmark/apps/config.py'])

p('The example evaluation writes the area-weighted (R)MSE of each region, whatever the chunking',
  'The script run_example_evaluation, started with a range of init times and lead times, evaluates the multiples of the frequencies from the start and before the stop. Every run of it writes a file of metric values with exactly the entries rmse.<variable> and mse.<variable>; each has the lead times, the two regions and the other dimensions of the variable, but no init time, latitude and longitude. Whatever the chunk sizes, the order and grouping of the chunks in Beam and the direction of the latitudes in the datasets, mse is the mean of the squared differences between the forecast and the observation at init time + lead time, over all init times, all latitudes of the region (global: all, northern-hemisphere: from 20 degrees north) and all longitudes, each cell weighted with its area on the sphere; rmse is its square root. A region without any latitude of the grid has NaN, not an error. With chunk sizes that are not negative the script does run to the end.',
  'all datasets with finite values where they are needed, all grids, all ranges of times, all chunk sizes and all schedules of the pipeline',
  'a test runs the script once on mock data; that the number in the file is the area-weighted mean over all cells depends on the loaders, the weighting, the regions, the chunking and the schedule of the pipeline together',
  ['evaluation_scripts/run_example_evaluation.py:main', 'weatherbenchX/beam_pipeline.py:define_pipeline', 'weatherbenchX/aggregation.py:Aggregator', 'weatherbenchX/weighting.py:GridAreaWeighting', 'weatherbenchX/binning.py:Regions'])


p('The configurations of the public benchmark: single members, baselines and climatologies fit together',
  'For every table of configurations, each ensemble mean (a name with one of the ensemble prefixes) gets a configuration of a single member: under the name with _single_member instead of _mean, with the path of the ensemble instead of that of its mean and with all other settings of the mean; every other name keeps its configuration, and a table in which an ensemble already has a preprocessing function is refused. The data of a single member are those of the ensemble at the first label of its member dimension, which is the first of number, sample, member and realization that the dataset has; a dataset without one is refused. In the public tables the single member reads the same data and variables as the ensemble; every prediction has targets and a climatology of its resolution and year with all its variables, and all metrics can be made for it; the climatologies for 2018, 2020 and 2022 are of earlier years, and for valid times from 2020 on every member of the probabilistic climatology is an observation at least 365 days old (findings: for 2018 one member is the observation that it is compared with; the climatology for 2016 is of the years up to 2017; an ensemble without _mean in its name loses its configuration).',
  'all tables of configurations and all prefixes, all datasets and their dimensions, all predictions, resolutions and years of the public tables, all valid times',
  'tests check neither the tables, which are built at import time by rewriting names and paths, nor which years a baseline has seen; a wrong entry silently evaluates other data',
  ['public_benchmark/public_configs.py', 'public_benchmark/run_benchmark_evaluation.py:main', 'weatherbenchX/data_loaders/xarray_loaders.py:ProbabilisticClimatologyFromXarray'])

p('Crashes, retries and redundant attempts of the pipeline cannot corrupt its output files',
  'Let any number of attempts to run define_pipeline on the same evaluation - reruns, retried or redundant bundles - use any chunk sizes and go through any schedules, and let each of them fail or be killed at any point of its atomic_write or be repeated. At every moment out_path holds what it held before or a complete file with exactly the metric values of compute_metric_values_for_single_chunk on the whole data, and once one attempt has returned it always holds the latter; the same for aggregation_state_out_path and the state. The temporary paths (os.path.join of the directory and tmp.<uuid>.<name>) lie in the directory of the output and never clash with each other or with an output, for every path. Whatever happened before, a new attempt can still complete. Finding: define_pipeline accepts the same path for both outputs; then the file that remains is the one or the other depending on the schedule, and no error is raised.',
  'all data, loaders, local metrics, aggregators, chunk sizes, schedules of Beam, numbers of attempts, interleavings and crash points',
  'A test runs one attempt without a crash; crash points, retries and schedules are unbounded',
  ['weatherbenchX/beam_pipeline.py:WriteMetrics', 'weatherbenchX/beam_pipeline.py:WriteAggregationState', 'weatherbenchX/beam_pipeline.py:define_pipeline', 'weatherbenchX/beam_utils.py:atomic_write'])

p('A change of units scales the metrics and changes nothing else',
  'Let the values of each variable v be replaced, in predictions and targets, by c(v) x + d(v) with c(v) not 0 (Kelvin to Celsius or Fahrenheit, Pascal to hPa, a change of sign), for any data including NaN and infinities, masks and skipna. Then with any aggregator whose weights and bins depend on coordinates only, the evaluation raises the same error or returns values with the same names, dimensions and labels, each multiplied by a factor of its variable: the bias by c, MAE, RMSE, CRPS (pairwise form, fair or not), the debiased RMSE of the ensemble mean and the root mean ensemble variance by |c|, MSE, ensemble variance and the debiased MSE by c squared, the wind vector RMSE by |c| if both components change alike; the spread-skill ratio does not change, nor does the ACC if the climatology is changed too. Metrics of exceedances, distribution functions or bins (ContinuousToBinary, ContinuousToCDF, ContinuousToBins) do not change if the thresholds, given per variable, are converted with a positive factor. The rank histogram does not change under any replacement that keeps the order of the values. The same holds for the whole table of metrics computed together.',
  'all predictions, targets, climatologies, masks, factors, offsets, aggregators with coordinate-only weights and bins, lists of metrics',
  'A test compares a few arrays; the relation must hold between the results for every pair of inputs',
  ['weatherbenchX/metrics/deterministic.py:RMSE', 'weatherbenchX/metrics/deterministic.py:ACC', 'weatherbenchX/metrics/deterministic.py:WindVectorRMSE', 'weatherbenchX/metrics/probabilistic.py:CRPSEnsemble', 'weatherbenchX/metrics/probabilistic.py:UnbiasedSpreadSkillRatio', 'weatherbenchX/metrics/probabilistic.py:RankHistogram', 'weatherbenchX/aggregation.py:Aggregator'])

p('A prepared Xarray loader can be shared by threads; an unprepared one cannot',
  'Once one load_chunk call of an Xarray loader has returned, any number of threads may call load_chunk on the same loader under every schedule: the loader does not change and each call returns what it returns alone. A call that is not interrupted behaves as the sequential description says, and no call ever waits for another. If threads start on a loader that has not been prepared, this holds for a given dataset with a single repeatable preparation step, but in general it does not: there are schedules in which the preparation is applied twice, in which a thread returns the raw content of the file although the loader says it is prepared, and in which a repeatable step is lost for good, all without an error.',
  'all preparations, datasets, load functions, numbers of threads, arguments and schedules of attribute reads and writes',
  'a race shows up only in particular interleavings of attribute reads and assignments; a test runs one interleaving and usually one thread',
  ['weatherbenchX/data_loaders/xarray_loaders.py: XarrayDataLoader.maybe_prepare_dataset, XarrayDataLoader.load_chunk'])

p('Rounding: in floating point, chunking and scheduling change a mean only within a proved bound',
  'In floating point (every operation returns the exact result rounded, relative error at most u; no overflow or underflow) the value that CombiningSum gives for a cell is, for every bundling, every merge tree and every number of empty accumulators, obtained by adding the contributions of the chunks, each exactly once; it is within ((1+u)^(k+n-1)-1) times the sum of the absolute values of the terms of the exact sum, where n chunks have the cell and k roundings happen inside one chunk, whatever order and association xr.dot uses. The mean statistic is within an explicit factor (at most (4k+2)u) times the weighted mean of the absolute values of the exact weighted mean, the RMSE accordingly, and two evaluations with different chunk sizes and runners differ by at most twice that. Nearest rounding to p+1 binary digits is such a rounding with u = 2^-(p+1). Results of two schedules need not be equal.',
  'all roundings with relative error at most u, data, weights, chunkings, summation orders, einsum contraction orders, bundlings and merge trees',
  'tests compare a few chunkings with a tolerance picked by hand; the bound ranges over all data and all schedules of additions',
  ['weatherbenchX/aggregation.py: combining_sum, AggregationState.mean_statistics, Aggregator.aggregation_fn', 'weatherbenchX/beam_utils.py: CombiningSum'])

p('The order of the ensemble members does not matter',
  'Let the members of each variable be listed in another order, independently per variable and independently in the predictions and in the targets (when the targets are an ensemble too). Then CRPSEnsemble, CRPSEnsembleDistance, EnsembleVariance, EnsembleRootMeanVariance, UnbiasedEnsembleMeanSquaredError and its RMSE, UnbiasedSpreadSkillRatio, RankHistogram, WassersteinDistance, EnsembleErrorExceedance, EnsembleAveragedMetric of MAE or MSE and every metric wrapped with EnsembleMean return exactly the same result (or the same error), with and without NaN members, for every aggregator. The sorted form of the CRPS spread gives the same value at every cell with finite members, whatever the order and however ties are broken.',
  'All ensembles, all reorderings (one per variable and side), all aggregators, skipna_ensemble on or off, fair or not.',
  'A test shuffles one small ensemble; the claim is about all permutations of all sizes, for every combination of dimensions, NaN patterns and options.',
  ['weatherbenchX/metrics/probabilistic.py: CRPSSkill, CRPSSpread, EnsembleVariance, UnbiasedEnsembleMeanSquaredError, RankHistogram, WassersteinDistance, EnsembleErrorExceedance, EnsembleAveragedStatistic', 'weatherbenchX/metrics/wrappers.py: EnsembleMean'])


p('Variables evaluated together do not influence each other',
  'Evaluating any selection of the variables gives, for every list of metrics that work variable by variable (all deterministic, categorical, spatial and ensemble metrics, also wrapped, sub-selected or averaged over members, and the relative economic value with thresholds per variable) and every aggregator, exactly the table that evaluating all the variables gives, cut down to the selection. Neither the values nor the labels nor the presence of other variables matter. Failures behave the same: evaluating all variables raises exactly if evaluating one of them alone raises. SEEPS needs all the variables it is configured with but scores each from that variable alone; a wind vector metric depends on its configured components only and raises a KeyError if one is left out. In the Dataset the results are written to, however, arrays share their labels: a later array is cut or filled to the labels an earlier one brought.',
  'All lists of metrics, all predictions and targets with any number of variables of any shapes, all selections of variables, all aggregators.',
  'Tests evaluate a few fixed variables together; that a further variable can never change or break the others is a statement about all pairs of runs.',
  ['weatherbenchX/metrics/base.py: PerVariableStatistic, PerVariableMetric, PerVariableStatisticWithClimatology, compute_unique_statistics_for_all_metrics, compute_metrics_from_statistics', 'weatherbenchX/metrics/wrappers.py: WrappedStatistic, SubselectVariables', 'weatherbenchX/aggregation.py: Aggregator.aggregate_statistics, AggregationState.metric_values, compute_metric_values_for_single_chunk', 'weatherbenchX/metrics/deterministic.py: WindVectorSquaredError', 'weatherbenchX/metrics/categorical.py: SEEPS'])

p('The numbers of the public benchmark are area-weighted means over its regions',
  'For every statistic on the grid of the evaluation, the means that the benchmark evaluation computes have one entry for each of the 17 regions and one for the land part of each, and keep all dimensions of the statistic except latitude, longitude and, unless the evaluation is temporal, the init time. The entry of a region is the mean over the grid cells whose centre lies within its latitude limits and on its arc of longitudes (limits included, also where the arc crosses the Greenwich meridian), weighted by the area of the cells on the sphere, over the cells kept by the mask (for the Keisler model also not NaN) and over all init times (temporal: the init time of the entry); a region without such cells gets NaN. The bias, MSE, RMSE, vector RMSE, CRPS, unbiased RMSE and spread/skill ratio in the result file are computed from these means, and the ACC is the correlation of the anomalies over the same cells with the same weights. Cutting the times into chunks changes none of this. The land part has every cell with a land fraction other than 0, however small, or NaN; points at 20 degrees north and south belong both to the tropics and to an extratropical region; except for the Keisler model, one NaN that is not masked makes the entries of all regions NaN, also of those that it is not in.',
  'All statistics on all grids of latitudes and longitudes, all land-sea masks on the grid, all masks, all options of the script.',
  'No test runs the script; that the binning, the land-sea mask, the weighting, the masks and the reduced dimensions together give the area-weighted mean of the named region is a statement about all grids and all data.',
  ['public_benchmark/run_benchmark_evaluation.py: REGIONS, main', 'weatherbenchX/binning.py: Regions._regions_to_masks, Regions.create_bin_mask, _region_to_mask', 'weatherbenchX/weighting.py: GridAreaWeighting.weights', 'weatherbenchX/aggregation.py: Aggregator.aggregate_stat_var, AggregationState.mean_statistics'])

p('Exchanging predictions and targets has the effect the score formula promises',
  'Evaluating any dicts of predictions and targets and evaluating them with the two exchanged either both fail or give results for the same variables, with the same dimensions and labels. MAE, MSE, RMSE, error exceedance, wind vector (R)MSE, CSI, accuracy, F1, HSS, ETS, FSS, RPS, the Wasserstein distance, the fair squared difference of two ensemble means, CRPSEnsembleDistance (without skipna) and ACC (same variables and same climatology on both sides) have the same values; bias changes its sign; false alarms and misses, recall and precision, prediction average and target average change places; the frequency bias becomes its reciprocal.',
  'All dicts of predictions and targets with any dimensions, labels, NaN, infinities and masks; all aggregations whose weights and bins are functions of the labelled array; all thresholds, neighbourhood sizes, wind configurations, sorting functions.',
  'Tests compare a few arrays of equal shape. Differing labels, dimensions only on one side, conflicting masks and a differing order of the variables are where exchanged arguments could go wrong.',
  ['weatherbenchX/metrics/deterministic.py', 'weatherbenchX/metrics/categorical.py', 'weatherbenchX/metrics/spatial.py', 'weatherbenchX/metrics/probabilistic.py', 'weatherbenchX/aggregation.py:Aggregator'])

p('Weights matter only up to a factor',
  'Multiplying every weighting of an aggregator by a positive factor (which may depend on the dimensions of the weighted array), or adding a weighting that is positive, finite and the same for all cells that are averaged together (a constant, or weights along dimensions that are kept), leaves every metric value, dimension and label unchanged, and evaluations that fail keep failing. In particular normalised grid area weights give the same metrics as the areas themselves, and a constant weight is no weight.',
  'All predictions and targets (with NaN, infinities and masks), all aggregators with any bins, masks and skipna, all metrics whose formula is a function of the mean statistics, all positive factors, all monotone latitudes.',
  'A test compares one weighting on one grid; missing values, masks, bins and arrays without the latitude dimension all take other paths.',
  ['weatherbenchX/aggregation.py:Aggregator', 'weatherbenchX/weighting.py:GridAreaWeighting'])

p('A perfect forecast never gets anything but the best score',
  'If a forecast equals the target at every cell where both are defined (or one of the two is NaN there), then every value of every metric is the best score of that metric or NaN, whatever the aggregation: 0 for bias, MAE, MSE, RMSE, error exceedance, RPS, Wasserstein, FAR, wind vector error, CRPS and the unbiased ensemble MSE of an ensemble whose members all equal the target; 1 for CSI, accuracy, recall, precision, F1, frequency bias, HSS, ETS, FSS and ACC. Two exceptions are part of the property: SEEPS needs the wet threshold to lie above the dry one (with inverted thresholds a perfect forecast is penalised), and SEDI of a perfect forecast is NaN or one fixed number strictly between 0 and 1, never 1 (because of the small constants inside its logarithms).',
  'All forecasts, targets, NaN patterns, infinities and masks; all aggregators (bins, weights of any sign, skipna or not); all thresholds, ensemble sizes and wrappers that keep the forecast perfect.',
  'A test checks a perfect forecast on one array without missing values, for one aggregation; the claim has to hold for every pattern of missing values, bin and weight.',
  ['weatherbenchX/metrics/deterministic.py', 'weatherbenchX/metrics/categorical.py', 'weatherbenchX/metrics/spatial.py:FSS', 'weatherbenchX/metrics/probabilistic.py:CRPSEnsemble', 'weatherbenchX/metrics/categorical.py:SEEPS'])

p('A forecast that is at least as good everywhere is never scored worse',
  'Compare two forecasts of the same target with the same missing cells and the same mask. If at every evaluated cell the second is at most as far from the target as the first, its MAE, MSE, RMSE, error exceedance (for any thresholds) and RPS are not above those of the first, and MAE, MSE and RMSE are strictly below if it is nearer at a cell with positive weight. If the second yes/no forecast is the first with some cells replaced by the truth, its accuracy, CSI, recall, precision, F1, HSS, ETS and SEDI are not below and its false alarm rate is not above those of the first wherever both are defined; the same holds for fields that are thresholded first, when the values are moved towards the target. SEEPS (dry threshold below the wet one, dry fraction between 0 and 1) never rises when rain amounts are moved towards the observed ones, and neither does the CRPS (fair or not, from sorted members or from pairs) when the members are. Exceptions that are part of the property: members that cross the observation can raise the CRPS although none of them is farther away, and the anomaly correlation can fall although the forecast is nearer everywhere.',
  'All pairs of forecasts, targets, missing cells, masks, cells of the result, bins and nonnegative weights with a positive sum; all thresholds, climatologies, ensemble sizes and sorting functions.',
  'A property of pairs of evaluations: tests check single values; that no input exists on which an improvement is punished needs the formula of the metric together with the aggregation, for all data.',
  ['weatherbenchX/metrics/deterministic.py', 'weatherbenchX/metrics/categorical.py', 'weatherbenchX/metrics/probabilistic.py:CRPSEnsemble', 'weatherbenchX/metrics/wrappers.py:ContinuousToBinary', 'weatherbenchX/aggregation.py:Aggregator'])


p('The scores of an ensemble fit together',
  'For an ensemble forecast whose scores are averaged over the same cells with the same nonnegative weights (which is the case if the target has the labels of the forecast without the members, nothing is masked and NaN are not skipped by the aggregation): the bias of the ensemble mean is the bias averaged over the members; MAE, MSE and RMSE of the ensemble mean are not above those averaged over the members; with n members the MSE of the ensemble mean plus (n-1)/n times the ensemble variance is exactly the averaged MSE, and the unbiased MSE plus variance/n is exactly the MSE of the ensemble mean, so it is not above it; the fair CRPS is not above the unfair CRPS, which is not above the averaged MAE. Also with members skipped because they are NaN. The condition matters: the ensemble variance does not see a mask that only the target has, so with such a mask spread and skill are averaged over different cells and the spread-skill ratio can be positive although all members agree at every evaluated cell.',
  'All ensembles with at least two members per cell, all targets, weights, bins, sets of missing members (with skipna_ensemble) and cells of the result.',
  'Identities between different metrics of the same data; tests check each metric against its own formula on one array.',
  ['weatherbenchX/metrics/probabilistic.py:EnsembleAveragedMetric', 'weatherbenchX/metrics/probabilistic.py:EnsembleVariance', 'weatherbenchX/metrics/probabilistic.py:UnbiasedEnsembleMeanSquaredError', 'weatherbenchX/metrics/probabilistic.py:CRPSEnsemble', 'weatherbenchX/metrics/wrappers.py:EnsembleMean', 'weatherbenchX/metrics/probabilistic.py:UnbiasedSpreadSkillRatio'])


p('The score of pooled data lies between the scores of its parts',
  'Evaluate the same data twice: once keeping a result dimension (a dimension of the data that is not averaged over, for example lead time or init time, or the dimension of a binning), and once averaging over that dimension too, or leaving out the binning (bins whose mask values add up to 1 at each cell). A metric that is the mean of a statistic (bias, MAE, MSE, Brier score, ...) is for the whole exactly the average of the values for the parts, weighted with the total weights of the parts. RMSE and other roots of such means, CRPS, the fractions skill score, the spread-skill ratio, accuracy, CSI, recall, precision, false alarm ratio, F1 and frequency bias are for the whole never above the largest and never below the smallest of the values for the parts (with finite values, positive total weight and no vanishing denominator in each part). This is not true of the Heidke and equitable threat skill scores: both can be exactly 0 in every part and positive for the whole.',
  'All data, weights, other bins and reduced dimensions, all dimensions to pool over with any number of labels, all binnings that add up to 1, all result cells.',
  'A relation between two evaluations of arbitrary data; a test checks single evaluations with chosen numbers.',
  ['weatherbenchX/aggregation.py:Aggregator', 'weatherbenchX/aggregation.py:AggregationState.mean_statistics', 'weatherbenchX/binning.py:Binning', 'weatherbenchX/metrics/deterministic.py:RMSE', 'weatherbenchX/metrics/categorical.py:CSI', 'weatherbenchX/metrics/categorical.py:HSS', 'weatherbenchX/metrics/categorical.py:ETS', 'weatherbenchX/metrics/probabilistic.py:CRPSEnsemble', 'weatherbenchX/metrics/spatial.py:FSS'])

p('The score at a label of a kept dimension depends only on the data at that label',
  'Take a dimension that is not averaged over and that every variable has (for example lead time or level), and an aggregator whose weights and bins for a label do not look at other labels. Evaluating only some labels of the dimension (selecting them from predictions and targets first) gives exactly what evaluating all of them and then selecting these labels from the scores gives, for bias, MAE, MSE, RMSE, the nine categorical scores, SEDI, error exceedance, ACC and activity, the CRPS of an ensemble, the root mean ensemble variance, the unbiased RMSE of the ensemble mean and the spread-skill ratio, and for such metrics wrapped in transforms or restricted to some variables. So there is no leakage: two datasets that agree at some labels get the same scores there, whatever their values are at other labels. Likewise, evaluating several thresholds at once with ContinuousToBinary gives for each threshold the scores of an evaluation with that threshold alone. This assumes that the masks of a variable in predictions and targets do not disagree: if they disagree at one lead time only, the mask of the statistic is dropped at every lead time, and the scores of the other lead times change (finding).',
  'All data, weights, bins and reduced dimensions, all kept dimensions and label subsets, all lists of thresholds and sublists, all metrics that work label by label (the listed ones are proved to).',
  'A relation between evaluations of arbitrary data and arbitrary subsets of it; a test checks single evaluations with chosen numbers.',
  ['weatherbenchX/aggregation.py:Aggregator', 'weatherbenchX/aggregation.py:AggregationState.mean_statistics', 'weatherbenchX/metrics/base.py:Metric', 'weatherbenchX/metrics/deterministic.py:RMSE', 'weatherbenchX/metrics/categorical.py:CSI', 'weatherbenchX/metrics/probabilistic.py:CRPSEnsemble', 'weatherbenchX/metrics/wrappers.py:ContinuousToBinary'])


p('Metrics with different settings do not disturb each other, as long as the name mentions the setting',
  'Statistics with the same unique name are computed once and shared by all metrics of an evaluation. For the pointwise statistics, their averages over members (EnsembleAveragedStatistic), their values for the ensemble mean, ErrorExceedance, RankedProbabilityScore, EnsembleRankedProbabilityScore, CRPS skill and spread, ensemble variance, the unbiased squared error, the Wasserstein distance and the rank histogram, the unique name determines the class and every argument it mentions: ensemble dimension, skipna, fair, which ensemble, the transform and its side. So any list of metrics built from them gives together what each gives alone, provided the arguments that no name mentions (thresholds of ErrorExceedance, bin dimensions, skipna of the CRPS, use_sort, skip_if_ensemble_dim_missing, skipna of EnsembleAveragedStatistic; the ensemble dimension of EnsembleRankedProbabilityScore) are the same throughout; two transforms of a statistic share a name only with the same side and suffix. Without the proviso all metrics with the same statistic names silently receive the values of the last one: two CRPS with and without skipna_ensemble, two ErrorExceedance with different thresholds, two ranked probability scores along different dimensions. SubselectVariables of a_b and of a and b, and fractions skill scores of size n and of [n], share a name as well.',
  'All settings, ensemble dimensions, suffixes, numbers of metrics, aggregators and data.',
  'The settings and names are arbitrary strings and any number of metrics may be combined; a test tries a few combinations.',
  ['weatherbenchX/metrics/base.py:compute_unique_statistics_for_all_metrics', 'weatherbenchX/metrics/base.py:Statistic.unique_name', 'weatherbenchX/metrics/probabilistic.py:CRPSEnsemble', 'weatherbenchX/metrics/probabilistic.py:EnsembleRankedProbabilityScore', 'weatherbenchX/metrics/wrappers.py:WrappedStatistic', 'weatherbenchX/metrics/wrappers.py:SubselectVariables', 'weatherbenchX/metrics/deterministic.py:ErrorExceedance'])


p('What the labels are called does not matter',
  'Evaluating the same data under other labels (longitudes from -180 to 180 instead of 0 to 360, members numbered from 1, init times of another year, other point names) gives the same values of every metric at the new labels, or the same error, as long as different labels stay different, predictions and targets are relabelled in the same way, and settings given by labels (thresholds with labels, climatologies, weights and bins) are relabelled as well. Area weights depend on where the latitudes are, not on their labels, and Regions gives the same regions for longitudes that differ by whole turns, so the example evaluation does not depend on the longitude convention. If only one of the two datasets is relabelled nothing fails: the evaluation silently uses only the labels that both have.',
  'All one-to-one relabellings of every dimension, all data with and without masks, all aggregators, weights and bins, all wrapped and ensemble metrics.',
  'A relabelling can be any one-to-one map of any dimension and the data any arrays; a test tries a few data sets with one convention.',
  ['weatherbenchX/metrics/base.py:PerVariableStatistic', 'weatherbenchX/metrics/deterministic.py:RMSE', 'weatherbenchX/metrics/deterministic.py:ACC', 'weatherbenchX/metrics/probabilistic.py:CRPSEnsemble', 'weatherbenchX/metrics/probabilistic.py:UnbiasedSpreadSkillRatio', 'weatherbenchX/metrics/wrappers.py:WrappedMetric', 'weatherbenchX/aggregation.py:Aggregator', 'weatherbenchX/weighting.py:GridAreaWeighting', 'weatherbenchX/binning.py:Regions'])


p('Names and order of the variables do not matter',
  'Evaluating the same data with the variables called otherwise (t2m for 2m_temperature), in predictions and targets alike, gives the same values of every metric under the other names, or the same error; settings that name variables (a selection of variables, wind components, the variables of a climatology, of thresholds or of SEEPS) have to be renamed too, and nothing else. No metric treats a variable in a special way because of its name. The order in which predictions and targets list their variables does not matter either: the same values, or an error in both cases. If only one of the two sides is renamed nothing fails: a per-variable metric silently has no values.',
  'All one-to-one renamings, all numbers of variables and orders, all data, all aggregators, all per-variable, wrapped, ensemble, climatology and wind metrics.',
  'Names are arbitrary strings and any number of variables can come in any order; a test uses two or three fixed names in one order.',
  ['weatherbenchX/metrics/base.py:PerVariableStatistic', 'weatherbenchX/metrics/base.py:PerVariableMetric', 'weatherbenchX/metrics/base.py:PerVariableStatisticWithClimatology', 'weatherbenchX/metrics/deterministic.py:WindVectorSquaredError', 'weatherbenchX/metrics/categorical.py:SEEPS', 'weatherbenchX/metrics/wrappers.py:SubselectVariables', 'weatherbenchX/metrics/wrappers.py:WrappedMetric', 'weatherbenchX/aggregation.py:Aggregator'])

p('Names of the dimensions do not matter',
  'Calling a dimension of the data otherwise (number for realization, forecast_time for a lead time that is not matched) everywhere it is named (reduce_dims, weights, bins, ensemble_dim, bin dimensions, thresholds) gives every metric the same values on the renamed dimensions, or the same error. The aggregation treats no dimension in a special way because of its name. What must keep its name is listed: latitude and longitude and the bin dimension for regions, and the names the code makes itself: an ensemble with a dimension called ensemble_dim_2 has no CRPS spread, whatever its values.',
  'All one-to-one renamings of dimensions, all data, masks, weights, bins and settings, all deterministic, categorical, ensemble, wrapped, climatology and wind metrics.',
  'Names are arbitrary strings that can be permuted among any number of dimensions; a test uses the usual names.',
  ['weatherbenchX/aggregation.py:Aggregator', 'weatherbenchX/metrics/base.py:PerVariableStatistic', 'weatherbenchX/metrics/probabilistic.py:CRPSSkill', 'weatherbenchX/metrics/probabilistic.py:CRPSSpread', 'weatherbenchX/metrics/wrappers.py:EnsembleMean', 'weatherbenchX/metrics/wrappers.py:ContinuousToBinary', 'weatherbenchX/weighting.py:GridAreaWeighting', 'weatherbenchX/binning.py:Regions'])

p('There is nothing special about the dates',
  'Moving a whole evaluation in time (forecasts, observations, nominal init times of latencies and the requested init times all later by the same time difference) gives the same values at labels that are later by that difference, or the same error: the same chunks and offsets, the same selection of forecasts, targets, persistence and available forecasts, the same source out of several, the same metrics in the same regions. Only what looks at the fields of a date does not move: a climatology is the same only if the fields are.',
  'All time differences, init times, lead times (exact or a slice), chunk sizes, datasets, latencies, lists of sources, metrics and aggregators that do not look at time labels.',
  'Any difference, period and dataset can occur; a test loads a few fixed dates.',
  ['weatherbenchX/time_chunks.py:TimeChunks', 'weatherbenchX/data_loaders/xarray_loaders.py:PredictionsFromXarray', 'weatherbenchX/data_loaders/xarray_loaders.py:TargetsFromXarray', 'weatherbenchX/data_loaders/xarray_loaders.py:PersistenceFromXarray', 'weatherbenchX/data_loaders/xarray_loaders.py:ClimatologyFromXarray', 'weatherbenchX/data_loaders/latency_wrappers.py:ConstantLatencyWrapper', 'weatherbenchX/data_loaders/latency_wrappers.py:MultipleConstantLatencyWrapper', 'weatherbenchX/aggregation.py:Aggregator'])

p('Repeating the data along a further dimension changes nothing',
  'Forecasts, observations or both, repeated along a dimension they do not have (expand_dims: forecasts for every center, observations for every member or method) and averaged over this dimension too, have the same scores, or the same error: with area weights, regions, masks and skipna, with NaN and infinite values, for the scores that compare elementwise, for the unbiased squared error of the ensemble mean and, if the forecasts are among what is repeated, for CRPS and ensemble variance. If only one side is repeated the other is broadcast, with the same result; but if only the observations are, the spread of the forecasts lacks the dimension and the CRPS silently has no values. With no label at all there is nothing to average.',
  'All data without the dimension, non-empty sets of labels, sides that are repeated, aggregations whose weights and bins do not look at the dimension; mean error, MAE, MSE, RMSE, CSI, accuracy, recall, false alarm rate, precision, F1, frequency bias, HSS, ETS, SEDI, CRPS, ensemble variance, unbiased MSE of the ensemble mean.',
  'Any number of repetitions, dimension and data can occur; a test repeats one array a few times.',
  ['weatherbenchX/aggregation.py:Aggregator', 'weatherbenchX/aggregation.py:AggregationState.mean_statistics', 'weatherbenchX/metrics/base.py:PerVariableMetric', 'weatherbenchX/metrics/deterministic.py:RMSE', 'weatherbenchX/metrics/categorical.py:CSI', 'weatherbenchX/metrics/probabilistic.py:CRPSEnsemble', 'weatherbenchX/weighting.py:GridAreaWeighting', 'weatherbenchX/binning.py:Regions'])

p('Listing ensemble members again changes nothing that is a mean over the members',
  'If every member of the ensemble is listed n times (under any new labels, in any arrangement), the ensemble mean, every score of the ensemble mean and the CRPS with fair=False have the same values, or the same failure, with any weights, bins, masks, missing values (skipna or not) and with observations that have members of their own or none. With n = 1: the labels of the members are irrelevant. The variance (ddof=1) and the fair CRPS are not invariant: the variance of N finite members listed n times is smaller by the factor n (N - 1) / (n N - 1).',
  'All ensembles, members, n >= 1, assignments of copies to members, observations, aggregations whose weights and bins are functions of the labelled array.',
  'Any arrangement of copies of any ensemble can occur; a test duplicates one small ensemble.',
  ['weatherbenchX/metrics/probabilistic.py:CRPSSkill', 'weatherbenchX/metrics/probabilistic.py:CRPSSpread', 'weatherbenchX/metrics/probabilistic.py:CRPSEnsemble', 'weatherbenchX/metrics/wrappers.py:EnsembleMean', 'weatherbenchX/metrics/probabilistic.py:EnsembleVariance'])

p('Evaluating every case several times changes nothing',
  'If every case along a dimension that is averaged over (say, every init time, with its observations and its mask) occurs n times in the data, under any labels and in any arrangement, the scores that compare elementwise, their categorical and root-mean-square forms, wind vectors, threshold exceedances, anomaly scores and the ensemble scores (CRPS, variance, unbiased error, spread-skill ratio) are the same, or the same error: with area weights, regions, masks, skipna, NaN and infinite values. Only the relative frequency of the cases matters. With uneven numbers of copies (one or more of each case) the scores are those of the cases weighted by these numbers.',
  'All data, cases, n >= 1, assignments of copies to cases, aggregations that average over the dimension and whose weights and bins do not look at it; mean error, MAE, MSE, RMSE, CSI, accuracy, recall, false alarm rate, precision, F1, frequency bias, HSS, ETS, SEDI, wind vectors, exceedances, ACC, activity, CRPS, ensemble variance, unbiased MSE and RMSE, spread-skill ratio (ensembles and thresholds: all arrays have the dimension).',
  'Any arrangement of copies of any data can occur; a test duplicates one small array.',
  ['weatherbenchX/aggregation.py:Aggregator', 'weatherbenchX/aggregation.py:AggregationState.mean_statistics', 'weatherbenchX/metrics/base.py:PerVariableMetric', 'weatherbenchX/metrics/deterministic.py:RMSE', 'weatherbenchX/metrics/categorical.py:CSI', 'weatherbenchX/weighting.py:GridAreaWeighting', 'weatherbenchX/binning.py:Regions'])

p('Cases that are masked everywhere might as well be absent',
  'If the masks of the observations hide everything at some cases along a dimension that is averaged over (an init time without any observations, say), an evaluation with masks gives the same scores, or the same error, as evaluating the data from which these cases have been removed: mean error, MAE, MSE, RMSE and the categorical scores, with finite weights and any bins that do not look at that dimension. Not so the CRPS of unmasked ensembles, whose spread term is averaged over the hidden cases, too: it can become negative, unless the forecasts carry the masks of the observations as well.',
  'All data with unmasked predictions and masked observations, all sets of hidden cases (also all or none of them), all aggregations with masked=True that average over the dimension and whose weights and bins are finite and do not look at it, with or without skipna.',
  'Any set of cases can be hidden; a test masks a few points of one small array.',
  ['weatherbenchX/aggregation.py:Aggregator.aggregate_stat_var', 'weatherbenchX/aggregation.py:AggregationState.mean_statistics', 'weatherbenchX/data_loaders/base.py:add_nan_mask_to_data', 'weatherbenchX/metrics/deterministic.py:RMSE', 'weatherbenchX/metrics/categorical.py:CSI'])


if __name__ == '__main__':
  with open('properties.jsonl', 'w') as f:
    for q in P:
      f.write(json.dumps(q) + '\n')
  print(len(P))
