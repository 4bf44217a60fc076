{"id": "C01", "title": "Appending keeps a point time series strictly ordered in time", "statement": "Whatever sequence of append, pop, remove, clear and duplicate calls is made on a TimeSeries of points, including calls that are rejected with an exception, the timestamps of the items it holds are strictly increasing (in order and without duplicates).", "quantifier": "every finite history of append/pop/remove/clear/duplicate calls with arbitrary items and positions", "why_tests_cant": "A test fixes one history; the claim is an invariant over all histories, including rejected calls in between.", "anchors": ["timeseria/datastructures.py::TimeSeries.append", "timeseria/datastructures.py::Series.append", "timeseria/datastructures.py::Series.pop", "timeseria/datastructures.py::Series.remove", "timeseria/datastructures.py::Series.clear"]}
{"id": "C02", "title": "insert() enforces the order", "statement": "series.insert(i, x) either raises, or leaves a series of points whose timestamps are strictly increasing ('order or succession are enforced').", "quantifier": "every ordered point series, every position i (also negative or beyond the end) and every item x", "why_tests_cant": "The failing case needs a position in the middle and an item later than its successor; tests only try a few positions.", "anchors": ["timeseria/datastructures.py::Series.insert"]}
{"id": "C03", "title": "A rejected append does not change the contents", "statement": "If append raises, the items of the series, its kind of data and (if it is not empty) its time zone are what they were before. What later appends do is C203.", "quantifier": "every reachable series, every rejected item, every later sequence of appends", "why_tests_cant": "The damage of a rejected append is only visible in later operations of the history.", "anchors": ["timeseria/datastructures.py::TimeSeries.append"]}
{"id": "C04", "title": "The reported resolution is the spacing of the points", "statement": "For a point series built by successful appends only: resolution is None with fewer than two points, it is the constant time unit if and only if all consecutive spacings are equal, and otherwise it is the string 'variable'.", "quantifier": "every list of points accepted by append, of any length", "why_tests_cant": "Equality of all spacings is a statement over the whole list, for every list.", "anchors": ["timeseria/datastructures.py::TimeSeries.append", "timeseria/datastructures.py::TimeSeries.resolution"]}
{"id": "C05", "title": "The resolution depends only on the contents", "statement": "Two point series holding the same items report the same resolution, however they came to hold them (appends, pops, clear and re-append).", "quantifier": "every pair of histories of append/pop/clear calls ending in the same items", "why_tests_cant": "Quantifies over pairs of histories.", "anchors": ["timeseria/datastructures.py::TimeSeries.append", "timeseria/datastructures.py::Series.pop", "timeseria/datastructures.py::Series.clear", "timeseria/datastructures.py::TimeSeries.resolution"]}
{"id": "C06", "title": "Slot series are gap-free and in succession", "statement": "In a TimeSeries of slots every slot starts where the previous one ends (within the documented floating point tolerance), after any history of append, insert, pop, remove and clear calls.", "quantifier": "every finite history of append/insert/pop/remove/clear calls on slot series", "why_tests_cant": "An invariant over all histories.", "anchors": ["timeseria/datastructures.py::Series.append", "timeseria/datastructures.py::Series.insert", "timeseria/datastructures.py::Series.pop", "timeseria/datastructures.py::TimeSlot.__succedes__", "timeseria/datastructures.py::TimeSeries.append"]}
{"id": "C07", "title": "All slots of a series have the same unit and the same time zone", "statement": "All the slots of a slot TimeSeries have the unit reported as the series resolution and the time zone reported as the series time zone.", "quantifier": "every finite history of append/insert/pop calls on slot series", "why_tests_cant": "An invariant over all histories; insert is the operation that breaks it.", "anchors": ["timeseria/datastructures.py::TimeSeries.append", "timeseria/datastructures.py::Series.insert"]}
{"id": "C08", "title": "All items carry the same kind of data", "statement": "All the items of a series carry data of the same type, with the same number of elements (lists) or the same set of labels (dictionaries).", "quantifier": "every finite history of append/insert/pop calls", "why_tests_cant": "An invariant over all histories; the exceptions need unusual first data (empty or falsy) or insert.", "anchors": ["timeseria/datastructures.py::Series.append", "timeseria/datastructures.py::Series.insert"]}
{"id": "C09", "title": "All items are of the same class", "statement": "A series never mixes points and slots, after any history of calls.", "quantifier": "every finite history of append/insert/pop/remove/clear calls", "why_tests_cant": "An invariant over all histories.", "anchors": ["timeseria/datastructures.py::Series.append", "timeseria/datastructures.py::Series.insert", "timeseria/datastructures.py::Series.item_type"]}
{"id": "C10", "title": "Integer indexing behaves as on a list", "statement": "series[i] returns the i-th item for 0<=i<len, the (len+i)-th for -len<=i<0, and raises IndexError for i>=len. Positions below -len are C196.", "quantifier": "every series and every integer i", "why_tests_cant": "Ranges over all integers, including those below -len, and all lengths.", "anchors": ["timeseria/datastructures.py::TimeSeries.__getitem__", "timeseria/operations.py::Get"]}
{"id": "C11", "title": "Index slicing behaves as on a list", "statement": "series[a:b] (with a or b an integer) contains exactly the items of the Python list slice items[a:b], in order, with negative and out-of-range bounds handled as for lists; for a non-empty series any two neighbouring items of which are acceptable as a series. The other series are C197.", "quantifier": "every series and all integer or missing bounds a, b (not both missing)", "why_tests_cant": "Ranges over all integer pairs and all lengths.", "anchors": ["timeseria/datastructures.py::TimeSeries.__getitem__", "timeseria/operations.py::Slice"]}
{"id": "C12", "title": "Time slicing selects exactly the interval", "statement": "Slicing a point series by time returns exactly the points with from_t <= t < to_t, in order; slicing a slot series returns exactly the slots lying entirely within [from_t, to_t]; an empty or inverted interval gives an empty series.", "quantifier": "every ordered series, all rational bounds (either may be missing)", "why_tests_cant": "The loop stops at the first item beyond the end; correctness depends on order over the whole series.", "anchors": ["timeseria/operations.py::Slice"]}
{"id": "C13", "title": "Access by timestamp", "statement": "series.get(at_t=t) returns the item whose timestamp is t if there is one, which is then unique, and raises ValueError otherwise.", "quantifier": "every ordered series and every t", "why_tests_cant": "Uniqueness and completeness quantify over all series.", "anchors": ["timeseria/datastructures.py::TimeSeries._item_by_t", "timeseria/operations.py::Get"]}
{"id": "C14", "title": "A view reads like the slice it stands for", "statement": "For 0<=from_i<=to_i<=len(series), the view has length to_i-from_i, iterating over it gives the items series[from_i:to_i], and view[k] equals the k-th item of that slice for every valid k, positive or negative; view[a:b] with bounds between -len(view) and len(view), or missing, holds the items of the list slice [a:b] of the items of the view.", "quantifier": "every series, all valid bounds, every valid position", "why_tests_cant": "Ranges over all bounds and positions.", "anchors": ["timeseria/datastructures.py::TimeSeriesView"]}
{"id": "C15", "title": "A view does not give access to items outside of it", "statement": "view[k] raises IndexError for every k outside [-len(view), len(view)).", "quantifier": "every series, all valid view bounds and every integer position", "why_tests_cant": "Ranges over all bounds and positions.", "anchors": ["timeseria/datastructures.py::TimeSeriesView.__getitem__"]}
{"id": "C16", "title": "Iterations over the same view are independent", "statement": "Two iterations over the same view that are interleaved (nested loops) each yield all the items of the view.", "quantifier": "every view and every interleaving of the two iterations", "why_tests_cant": "The failure depends on the interleaving of iterations over shared state.", "anchors": ["timeseria/datastructures.py::TimeSeriesView.__iter__", "timeseria/datastructures.py::TimeSeriesView.__next__"]}
{"id": "C17", "title": "Duplicating a series gives an equal series", "statement": "For every series built with append, duplicate() succeeds and returns a series with equal items, resolution and time zone, and materializing a view gives a series with the items of the view.", "quantifier": "every series reachable by appends", "why_tests_cant": "The copy protocol re-appends all items against copied state; success is a statement over all states.", "anchors": ["timeseria/datastructures.py::Series.duplicate", "timeseria/datastructures.py::TimeSeries.append", "timeseria/datastructures.py::TimeSeriesView.materialize"]}
{"id": "C18", "title": "Item equality", "statement": "Equality between items is reflexive and symmetric (transitivity is C198). Two points with data are equal exactly when they have the same time and the same data, and two slots with data when they have the same start, end and data.", "quantifier": "all triples of points with and without data", "why_tests_cant": "Ranges over triples of values.", "anchors": ["timeseria/datastructures.py::Point.__eq__", "timeseria/datastructures.py::DataPoint.__eq__"]}
{"id": "C19", "title": "The time zone of a point series", "statement": "The time zone of a point series with no time zone set is the time zone shared by all its points if they share one, and UTC otherwise; it does not depend on the order of the points.", "quantifier": "every series of points with arbitrary time zones", "why_tests_cant": "A statement over all assignments of time zones to points.", "anchors": ["timeseria/datastructures.py::TimeSeries.tz", "timeseria/datastructures.py::TimeSeries.change_tz"]}
{"id": "C20", "title": "Spacing to time unit string", "statement": "Writing a spacing in seconds as a time unit string and reading it back gives the same number of seconds.", "quantifier": "every positive spacing that is a multiple of 1e-7 seconds", "why_tests_cant": "Depends on the decimal digits of the number; tests use round spacings.", "anchors": ["timeseria/utilities.py::_to_time_unit_string", "timeseria/datastructures.py::TimeSeries.append"]}
{"id": "C21", "title": "min, max and sum operations", "statement": "For every data label, min and max return a value that occurs in the series and bounds all the others, and sum returns the sum of the values.", "quantifier": "every non-empty series with indexed data, every label", "why_tests_cant": "Bounds over all items of all series.", "anchors": ["timeseria/operations.py::Min", "timeseria/operations.py::Max", "timeseria/operations.py::Sum"]}
{"id": "C22", "title": "avg operation", "statement": "The unweighted average is the sum divided by the length; the weighted average with non-negative weights of positive total lies between the minimum and the maximum of the items with non-zero weight and is invariant under scaling all the weights.", "quantifier": "every non-empty series, all weights", "why_tests_cant": "Convexity for every list of values and weights.", "anchors": ["timeseria/operations.py::Avg"]}
{"id": "C23", "title": "Differences and cumulative sums are inverse", "statement": "diff of csum of a uniform series gives back the series values (first item dropped); csum of the differences restarted from the first value gives back the original values; diff has one item less, csum as many items.", "quantifier": "every non-empty constant-resolution series, any labels", "why_tests_cant": "An algebraic law over all series.", "anchors": ["timeseria/operations.py::Diff", "timeseria/operations.py::CSum", "timeseria/operations.py::Derivative", "timeseria/operations.py::Integral"]}
{"id": "C24", "title": "Derivative and integral are inverse", "statement": "On a uniform single-label series, integrating the derivative with c set to the first value gives back the original values exactly; timestamps are preserved by both.", "quantifier": "every uniform series with at least two items", "why_tests_cant": "An algebraic law over all series.", "anchors": ["timeseria/operations.py::Derivative", "timeseria/operations.py::Integral"]}
{"id": "C25", "title": "Labels are processed independently", "statement": "The cumulative sums of a multi-label series are, label by label, the cumulative sums of the single-label series obtained by filtering on that label. The integral is C199.", "quantifier": "every uniform series with any number of labels", "why_tests_cant": "Quantifies over all label sets and values; the tests only integrate single-label series.", "anchors": ["timeseria/operations.py::Integral"]}
{"id": "C26", "title": "The derivative is exact on straight lines", "statement": "If the values are an affine function of time, the derivative is the slope at every item.", "quantifier": "every series (uniform or variable resolution), every slope and intercept", "why_tests_cant": "A statement over all series and slopes.", "anchors": ["timeseria/operations.py::Derivative"]}
{"id": "C27", "title": "normalize maps to the target range", "statement": "Normalizing maps every value into the target range, the minimum to its lower end and the maximum to its upper end, preserves the order of values, and is idempotent; a constant label raises ZeroDivisionError.", "quantifier": "every non-empty series, every target range", "why_tests_cant": "Bounds and order over all values of all series.", "anchors": ["timeseria/operations.py::Normalize"]}
{"id": "C28", "title": "rescale and offset", "statement": "rescale multiplies and offset shifts every value of the labels concerned and leaves other labels unchanged; composing them with the inverse value gives back the original series.", "quantifier": "every series, every number or per-label dictionary", "why_tests_cant": "An algebraic law over all series and values.", "anchors": ["timeseria/operations.py::Rescale", "timeseria/operations.py::Offset"]}
{"id": "C29", "title": "Moving average", "statement": "mavg with window w on n items gives n-w+1 items, the k-th being the mean of the w values ending at that item and carrying its timestamp, for every window of at least one item. Other windows are C200.", "quantifier": "every non-empty series and every window", "why_tests_cant": "Ranges over all windows and lengths.", "anchors": ["timeseria/operations.py::MAvg"]}
{"id": "C30", "title": "Filtering by label", "statement": "Filtering keeps all items and timestamps and exactly the requested labels with their values; a missing label raises.", "quantifier": "every dictionary series and every non-empty list of labels", "why_tests_cant": "A statement over all label lists and series.", "anchors": ["timeseria/operations.py::Filter"]}
{"id": "C31", "title": "Merging series", "statement": "Merging aligned series of the same resolution yields exactly the common time range, and each label carries the mean of its values over the series that have it.", "quantifier": "every list of aligned series", "why_tests_cant": "Ranges over all lists of series with arbitrary offsets.", "anchors": ["timeseria/operations.py::Merge"]}
{"id": "C32", "title": "Selecting by value", "statement": "select('label=value') returns exactly the items whose value for the label equals the value, in order, and None if there are none; a missing label raises.", "quantifier": "every series, label and value", "why_tests_cant": "A statement over all series.", "anchors": ["timeseria/operations.py::Select"]}
{"id": "C33", "title": "In-place and returning variants of rescale, offset and normalize agree", "statement": "rescale, offset and normalize called with inplace=True leave the series with the items the same operation returns with inplace=False (normalize: when no label is constant).", "quantifier": "every series and every argument", "why_tests_cant": "Quantifies over all series; no test exercises inplace.", "anchors": ["timeseria/operations.py::Derivative", "timeseria/operations.py::Integral", "timeseria/operations.py::Rescale", "timeseria/operations.py::Offset", "timeseria/operations.py::Normalize"]}
{"id": "C34", "title": "Operations do not modify their input", "statement": "A non in-place operation leaves its input series unchanged, and later changes to the data of the series returned by a value-producing operation do not alter the input.", "quantifier": "every series, every operation, every later change to the result", "why_tests_cant": "Aliasing shows only through later mutations in the history.", "anchors": ["timeseria/operations.py::Rescale", "timeseria/operations.py::Offset", "timeseria/operations.py::Normalize", "timeseria/operations.py::Derivative", "timeseria/operations.py::Filter", "timeseria/operations.py::Slice"]}
{"id": "C35", "title": "Validity regions do not overlap", "statement": "The validity regions computed for the points of an ordered series are disjoint, in the order of the points, each contains its own point, none is longer than the sampling interval, and two points at most one sampling interval apart leave no gap.", "quantifier": "every ordered series and every positive sampling interval", "why_tests_cant": "Pairwise property over all points of all series.", "anchors": ["timeseria/utilities.py::_compute_validity_regions"]}
{"id": "C36", "title": "Coverage is a fraction", "statement": "The coverage of an interval is between 0 and 1; it is 1 when the regions tile the interval and 0 when no region meets it.", "quantifier": "every list of ordered disjoint validity regions and every interval", "why_tests_cant": "A bound on sums over all lists.", "anchors": ["timeseria/utilities.py::_compute_coverage"]}
{"id": "C37", "title": "Data loss is the missing fraction", "statement": "The data loss computed for an interval of a series whose points carry no data loss is the fraction of the interval not covered by validity regions, hence between 0 and 1.", "quantifier": "every series with data losses in [0,1] and every interval", "why_tests_cant": "A bound over all inputs.", "anchors": ["timeseria/utilities.py::_compute_data_loss"]}
{"id": "C38", "title": "The detected sampling interval is the most common spacing", "statement": "When the number of different spacings is at most 95% of the number of points, detect_sampling_interval returns a spacing of maximal frequency; on a uniform series of two or more points it returns the spacing with confidence 1.", "quantifier": "every point series", "why_tests_cant": "A statement over all series.", "anchors": ["timeseria/utilities.py::detect_sampling_interval", "timeseria/utilities.py::_is_almost_equal"]}
{"id": "C39", "title": "Periodicity index", "statement": "For timestamps from the epoch on, the periodicity index is in [0, periodicity), increases by one (modulo the periodicity) at each step of the resolution and is periodic with period resolution*periodicity.", "quantifier": "every timestamp, resolution and periodicity", "why_tests_cant": "A statement over all timestamps.", "anchors": ["timeseria/utilities.py::_get_periodicity_index"]}
{"id": "C40", "title": "Error metrics", "statement": "MAE, MaxAE, MSE, MAPE and MaxAPE are non-negative, zero exactly for equal lists, the mean is at most the maximum, and lists of different lengths are refused.", "quantifier": "all pairs of lists", "why_tests_cant": "A statement over all lists.", "anchors": ["timeseria/utilities.py::mean_absolute_percentage_error", "timeseria/utilities.py::max_absolute_percentage_error", "timeseria/utilities.py::max_absolute_error"]}
{"id": "C41", "title": "Rescaling between ranges", "statement": "rescale maps source_from to target_from and source_to to target_to, stays within the target range, is monotone, and refuses values outside the source range.", "quantifier": "every value and all ranges", "why_tests_cant": "A statement over all values and ranges.", "anchors": ["timeseria/utilities.py::rescale"]}
{"id": "C42", "title": "Linear interpolation", "statement": "Between two points the linear interpolator returns the value of the segment joining them: exact on affine data, within the two end values, and it refuses timestamps outside the given pair.", "quantifier": "every series, every pair of positions and every timestamp", "why_tests_cant": "A statement over all series and timestamps.", "anchors": ["timeseria/interpolators.py::LinearInterpolator"]}
{"id": "C43", "title": "The linear interpolator finds the neighbours", "statement": "When the linear interpolator has to look for the neighbours by itself, it uses the last point not after the timestamp and the next one, and a timestamp at or after the last point raises ValueError.", "quantifier": "every series and every timestamp", "why_tests_cant": "A statement over all timestamps.", "anchors": ["timeseria/interpolators.py::LinearInterpolator.evaluate"]}
{"id": "C44", "title": "The dense view fills every gap", "statement": "Iterating over the dense view gives the original points in order with exactly one interpolated point in each validity gap, and the validity regions of the result leave no gap between the first and the last point.", "quantifier": "every series with ordered validity regions, all bounds", "why_tests_cant": "A statement over all series and iterator states.", "anchors": ["timeseria/transformations.py::_TimeSeriesDenseView"]}
{"id": "C45", "title": "Aggregation produces contiguous slots on the unit grid", "statement": "Aggregating gives slots that start at the first unit boundary not before the first point, follow each other without gaps, each one unit long, up to the last point; each is computed from exactly the points falling in it.", "quantifier": "every ordered series and every unit", "why_tests_cant": "A loop invariant over all series.", "anchors": ["timeseria/transformations.py::Transformation.process", "timeseria/transformations.py::Aggregator"]}
{"id": "C46", "title": "Resampling produces a regular grid", "statement": "Resampling gives points exactly one unit apart, at positions that are multiples of the unit offset, within the time range of the series.", "quantifier": "every ordered series and every unit", "why_tests_cant": "A loop invariant over all series.", "anchors": ["timeseria/transformations.py::Transformation.process", "timeseria/transformations.py::Resampler"]}
{"id": "C47", "title": "The end of a transformation is respected", "statement": "With an explicit end, no item beyond the end is produced.", "quantifier": "every series (also with gaps) and every end", "why_tests_cant": "The failing case needs a gap spanning the end.", "anchors": ["timeseria/transformations.py::Transformation.process"]}
{"id": "C48", "title": "Resampled averages are convex", "statement": "Each value of a resampled point lies between the minimum and the maximum of the values of the points involved; a constant series is mapped to the same constant.", "quantifier": "every series and every interval", "why_tests_cant": "A bound over all weights and values.", "anchors": ["timeseria/transformations.py::_compute_new", "timeseria/operations.py::Avg"]}
{"id": "C49", "title": "Data loss of new items", "statement": "The data loss of an item computed by a transformation from a series without data losses equals the fraction of its interval not covered by validity regions: 0 when all points are present and 1 when none is.", "quantifier": "every series and every interval", "why_tests_cant": "A statement over all series.", "anchors": ["timeseria/transformations.py::_compute_new", "timeseria/utilities.py::_compute_data_loss"]}
{"id": "C50", "title": "CSV round trip", "statement": "Storing a series in a CSV file and reading it back with the same settings gives a series with the same timestamps, labels, values and data indexes.", "quantifier": "every dictionary series with plain labels", "why_tests_cant": "A round trip over all series and all label strings.", "anchors": ["timeseria/storages.py::CSVFileStorage.put", "timeseria/storages.py::CSVFileStorage.get"]}
{"id": "C51", "title": "An existing file is never overwritten unless asked", "statement": "put without overwrite leaves an existing file untouched and raises.", "quantifier": "every file system state and series", "why_tests_cant": "A statement over all states.", "anchors": ["timeseria/storages.py::CSVFileStorage.put"]}
{"id": "C52", "title": "A failed put does not destroy the stored data", "statement": "If put fails, the file still holds what it held before.", "quantifier": "every series, every file content, every point at which put can fail", "why_tests_cant": "Quantifies over crash points.", "anchors": ["timeseria/storages.py::CSVFileStorage.put"]}
{"id": "C53", "title": "Malformed lines", "statement": "With skip_errors, lines that cannot be parsed are dropped and all the others are kept in order; without, the first malformed line raises; comment lines never matter.", "quantifier": "every list of lines", "why_tests_cant": "A statement over all files.", "anchors": ["timeseria/storages.py::CSVFileStorage.get"]}
{"id": "C54", "title": "Limit and sort on loading", "statement": "limit=n with n positive returns the first n good rows (all if fewer) and a limit of zero counts as no limit; sort returns the same rows ordered by timestamp.", "quantifier": "every list of rows and every limit", "why_tests_cant": "A statement over all files.", "anchors": ["timeseria/storages.py::CSVFileStorage.get"]}
{"id": "C55", "title": "Missing slots are filled with full data loss", "statement": "When loading slots from a file without data index columns, each missing slot between two rows is created with data loss 1 and values on the line between the neighbours, and the rows present in the file are all there, with their values, in one gap-free series.", "quantifier": "every list of rows with gaps", "why_tests_cant": "A statement over all gap patterns.", "anchors": ["timeseria/storages.py::CSVFileStorage.get"]}
{"id": "C56", "title": "Dictionary round trip", "statement": "TimeSeries.from_dict of the dictionary given by to_dict gives back the items (scalars being wrapped under the label 'value').", "quantifier": "every point series with dictionary or list data", "why_tests_cant": "A round trip over all series.", "anchors": ["timeseria/datastructures.py::TimeSeries.from_dict", "timeseria/datastructures.py::TimeSeries.to_dict"]}
{"id": "C57", "title": "A model must be fitted before use", "statement": "predict, apply, evaluate and save raise NotFittedError on a model that has a fit and was never successfully fitted, and after a successful fit they accept series of the same resolution and labels only.", "quantifier": "every history of fit/predict/apply/evaluate/save/cross_validate calls", "why_tests_cant": "A statement over all call histories.", "anchors": ["timeseria/models/base.py::Model"]}
{"id": "C58", "title": "A failed fit does not corrupt a fitted model", "statement": "If a call to fit raises, the model predicts as before the call.", "quantifier": "every history of fit calls and every failing fit", "why_tests_cant": "Depends on histories with a failing re-fit.", "anchors": ["timeseria/models/base.py::Model.fit_function"]}
{"id": "C59", "title": "Saving a model does not touch what is saved", "statement": "save refuses an existing path, leaving what is saved there as it is, and in any case leaves the other saved models as they are. Loading is C201.", "quantifier": "every model state and file system state", "why_tests_cant": "A round trip over all model states.", "anchors": ["timeseria/models/base.py::Model.save", "timeseria/models/base.py::Model.load", "timeseria/models/forecasters.py::PeriodicAverageForecaster.load", "timeseria/models/reconstructors.py::PeriodicAverageReconstructor"]}
{"id": "C60", "title": "Cross validation never validates on training data", "statement": "In each round the fitted items and the validation items are disjoint, the validation blocks of different rounds are disjoint, contiguous and equally long, and all items are covered except a remainder shorter than the number of rounds.", "quantifier": "every series length and number of rounds", "why_tests_cant": "Index arithmetic over all lengths and rounds.", "anchors": ["timeseria/models/base.py::Model.cross_validate"]}
{"id": "C61", "title": "Training windows", "statement": "The windows extracted for training are exactly the runs of consecutive items of the window length followed by a target item, without items whose data loss reaches the limit.", "quantifier": "every series, window and data loss limit", "why_tests_cant": "Ranges over all series and windows.", "anchors": ["timeseria/models/base.py::_KerasModel._to_matrix_representation"]}
{"id": "C62", "title": "Reconstruction touches only the lossy items", "statement": "Applying a reconstructor replaces the data of exactly the items whose data loss reaches the threshold, keeps all timestamps and the other data, and marks each item accordingly.", "quantifier": "every series, threshold and predictor", "why_tests_cant": "A statement over all gap patterns and all predictors.", "anchors": ["timeseria/models/reconstructors.py::Reconstructor.apply", "timeseria/models/reconstructors.py::Reconstructor._reconstruct"]}
{"id": "C63", "title": "Linear interpolation reconstruction", "statement": "The linear interpolation reconstructor fills each inner gap with the values of the line through its neighbours, and refuses gaps at the borders.", "quantifier": "every series and gap", "why_tests_cant": "A statement over all gaps.", "anchors": ["timeseria/models/reconstructors.py::LinearInterpolationReconstructor"]}
{"id": "C64", "title": "Periodic average models", "statement": "The averages learnt by the periodic average models are, for each periodicity index, the means of the values with that index; reconstructing the gaps of an exactly periodic series plus a constant gives back that series.", "quantifier": "every periodic series, constant and gap", "why_tests_cant": "A statement over all periodic series.", "anchors": ["timeseria/models/reconstructors.py::PeriodicAverageReconstructor", "timeseria/models/forecasters.py::PeriodicAverageForecaster"]}
{"id": "C65", "title": "Forecasts extend the series", "statement": "Applying a forecaster for n steps returns the series followed by exactly n items continuing the timestamps at the resolution, marked as forecasts, the original items being unchanged apart from the forecast mark.", "quantifier": "every series, number of steps and predictor", "why_tests_cant": "A statement over all predictors and step counts.", "anchors": ["timeseria/models/forecasters.py::Forecaster.apply", "timeseria/models/forecasters.py::Forecaster.forecast"]}
{"id": "C66", "title": "Anomalous events", "statement": "On a series that does not end within an event (its last max_gap + 1 items are normal), mark_events marks exactly the maximal groups of anomalous items separated by at most max_gap normal items whose extent is at least min_persistence, leaves everything else of the items unchanged, and never raises.", "quantifier": "every sequence of anomaly indexes and all settings", "why_tests_cant": "A statement over all sequences of anomalies and gaps.", "anchors": ["timeseria/models/anomaly_detectors.py::AnomalyDetector.mark_events"]}
{"id": "C67", "title": "The anomaly index is between 0 and 1", "statement": "For a density decreasing on the right of its location and index bounds on that side, the anomaly index is 0 at or below the lower bound, 1 at or above the upper bound, in between monotone and within [0,1]; with a threshold it is 0 or 1; the multivariate strategies stay within [0,1].", "quantifier": "every error, all bounds, every monotone error distribution", "why_tests_cant": "A bound over all errors and distributions.", "anchors": ["timeseria/models/anomaly_detectors.py::ModelBasedAnomalyDetector.apply"]}
{"id": "C68", "title": "Anomaly detection returns every item it is defined for", "statement": "Applying a detector based on a forecaster returns, in order, one item for each item of the series after the window: with an anomaly index and otherwise the same, or unchanged if the item or one of its window has too much data loss.", "quantifier": "every series and window", "why_tests_cant": "A statement over all data loss patterns.", "anchors": ["timeseria/models/anomaly_detectors.py::ModelBasedAnomalyDetector.apply"]}
{"id": "C69", "title": "Unit arithmetic", "statement": "Adding, subtracting, multiplying and dividing a numerical unit with a number, on either side, or with another unit gives the number that the values give (except for dividing zero by a unit, see C139); equality is by value.", "quantifier": "all numerical units and numbers", "why_tests_cant": "An algebraic law over all numbers.", "anchors": ["timeseria/units.py::Unit"]}
{"id": "C70", "title": "Plot aggregation", "statement": "The rows of an aggregated plot are one for each complete chunk of consecutive items, in order, placed halfway between the start of the first item and the end of the last one, with the minimum, the mean and the maximum of the chunk for each label.", "quantifier": "every series and aggregation factor", "why_tests_cant": "A statement over all lengths.", "anchors": ["timeseria/plots.py::_to_dg_data"]}
{"id": "C71", "title": "Label management", "statement": "rename_data_label and remove_data_label change the labels of every item accordingly and keep the other labels, and, as long as the first item is not removed, new items are checked against the resulting labels.", "quantifier": "every history of renames, removals, appends and pops of the last item", "why_tests_cant": "Depends on the history.", "anchors": ["timeseria/datastructures.py::Series.rename_data_label", "timeseria/datastructures.py::Series.remove_data_label"]}
{"id": "C72", "title": "All data indexes are listed once", "statement": "The list of all data indexes of a series contains each index carried by some item exactly once, and its order does not depend on the order of the items.", "quantifier": "every series", "why_tests_cant": "A statement over all series.", "anchors": ["timeseria/datastructures.py::Series._all_data_indexes"]}
{"id": "C73", "title": "Text values are read as numbers or refused", "statement": "Sanitizing removes outer blanks and quotes, is idempotent on plain text, and a no-data placeholder never becomes a number.", "quantifier": "every string", "why_tests_cant": "A statement over all strings.", "anchors": ["timeseria/utilities.py::_sanitize_string", "timeseria/utilities.py::_to_float"]}
{"id": "C74", "title": "Slots are well formed", "statement": "Creating a slot refuses equal start and end, different time zones and different dimensions, and a slot created from start and unit ends one unit after its start.", "quantifier": "all starts, ends and units", "why_tests_cant": "A statement over all values.", "anchors": ["timeseria/datastructures.py::Slot", "timeseria/datastructures.py::TimeSlot"]}
{"id": "C75", "title": "A slot is as long as its unit and ends after it starts", "statement": "Every slot that can be created ends after it starts, and its length is its unit.", "quantifier": "all starts, ends and units", "why_tests_cant": "A statement over all combinations of the optional arguments.", "anchors": ["timeseria/datastructures.py::Slot", "timeseria/datastructures.py::TimeSlot"]}
{"id": "C76", "title": "Slots of a series are strictly increasing in time", "statement": "In a slot series every slot starts strictly after the previous one (no duplicates), after any history of calls.", "quantifier": "every finite history of calls, every epoch", "why_tests_cant": "The succession tolerance is relative to the epoch, so that only certain timestamps and units show the problem.", "anchors": ["timeseria/datastructures.py::TimeSlot.__succedes__", "timeseria/utilities.py::_is_close"]}
{"id": "C77", "title": "head and tail", "statement": "head(n) gives the first n items for every n >= 0 and tail(n) the last n items for every n >= 1. tail(0) is C202.", "quantifier": "every series and every n", "why_tests_cant": "A statement over all n including the borders.", "anchors": ["timeseria/datastructures.py::Series.head", "timeseria/datastructures.py::Series.tail"]}
{"id": "C78", "title": "Changes to the indexes of a result, or to a slice, do not alter the input", "statement": "Changing the data indexes of an item returned by a non in-place operation, or the data of an item of a slice, does not alter the input series.", "quantifier": "every series, every operation and every later change", "why_tests_cant": "Aliasing is invisible in the values returned: it shows only through a later write.", "anchors": ["timeseria/operations.py::Rescale", "timeseria/operations.py::Offset", "timeseria/operations.py::Derivative", "timeseria/operations.py::Slice"]}
{"id": "C79", "title": "In-place and returning variants of derivative, integral, diff and csum agree", "statement": "derivative and integral called with inplace=True leave the series with the original labels plus the labels and values the same operation returns with inplace=False.", "quantifier": "every series", "why_tests_cant": "Quantifies over all series; no test exercises inplace.", "anchors": ["timeseria/operations.py::Derivative", "timeseria/operations.py::Integral"]}
{"id": "C80", "title": "Label management after removing the first item", "statement": "After any history of calls, including popping the first item, an item with the current labels of the series can be appended and an item with other labels is refused.", "quantifier": "every history of renames, removals, appends and pops", "why_tests_cant": "Depends on the history: only a rename after the first item was removed shows it.", "anchors": ["timeseria/datastructures.py::Series.rename_data_label", "timeseria/datastructures.py::Series.append", "timeseria/datastructures.py::Series.pop"]}
{"id": "C81", "title": "All items are instances of the class of the first", "statement": "Every item of a series is an instance of the class of the first item, after any history of calls.", "quantifier": "every history of calls", "why_tests_cant": "Depends on the history.", "anchors": ["timeseria/datastructures.py::Series.append", "timeseria/datastructures.py::Series.insert"]}
{"id": "C82", "title": "Data loss is a fraction also with previous losses", "statement": "If the data losses of the points are between 0 and 1, so is the data loss computed for any interval.", "quantifier": "every series with data losses, every interval and sampling interval", "why_tests_cant": "Only certain combinations of interval, sampling interval and previous losses exceed the bound.", "anchors": ["timeseria/utilities.py::_compute_data_loss"]}
{"id": "C83", "title": "Sampling interval detection terminates", "statement": "detect_sampling_interval terminates on every series.", "quantifier": "every point series", "why_tests_cant": "Termination for all inputs cannot be tested.", "anchors": ["timeseria/utilities.py::detect_sampling_interval", "timeseria/utilities.py::_is_almost_equal"]}
{"id": "C84", "title": "The detected sampling interval depends on the contents only", "statement": "The sampling interval a series reports is the one detected on the points it currently holds, whatever was appended after it was first read.", "quantifier": "every history of appends and reads", "why_tests_cant": "Only histories that read the value before the last append show the stale cache.", "anchors": ["timeseria/datastructures.py::TimeSeries._autodetected_sampling_interval", "timeseria/datastructures.py::TimeSeries.append"]}
{"id": "C85", "title": "Periodicity index before the epoch", "statement": "The periodicity index advances by one (modulo the periodicity) at each step of the resolution for every timestamp, also before the epoch.", "quantifier": "every timestamp, including negative ones", "why_tests_cant": "A statement over all timestamps; only those around the epoch show the problem.", "anchors": ["timeseria/utilities.py::_get_periodicity_index"]}
{"id": "C86", "title": "Interpolation before the first point is refused", "statement": "When the linear interpolator has to look for the neighbours by itself, a timestamp before the first point raises ValueError.", "quantifier": "every series and every timestamp", "why_tests_cant": "A statement over all timestamps.", "anchors": ["timeseria/interpolators.py::LinearInterpolator.evaluate"]}
{"id": "C87", "title": "Uniform interpolation", "statement": "Between two points given by index the uniform interpolator returns the mean of their values, for every label.", "quantifier": "every pair of points and every timestamp between them, the first index being zero included", "why_tests_cant": "A statement over all pairs of indexes.", "anchors": ["timeseria/interpolators.py::UniformInterpolator.evaluate"]}
{"id": "C88", "title": "The uniform interpolator finds the neighbours", "statement": "When the uniform interpolator has to look for the neighbours by itself, a timestamp within the series is interpolated between its neighbours and one outside of it raises ValueError.", "quantifier": "every series and every timestamp", "why_tests_cant": "A statement over all timestamps.", "anchors": ["timeseria/interpolators.py::UniformInterpolator.evaluate"]}
{"id": "C89", "title": "Data indexes of the new items", "statement": "Every data index of the series (other than the data loss) is present on the items produced by a resampling or an aggregation, and its value, if not missing, lies within the bounds of its values on the points involved.", "quantifier": "every series, unit and set of data indexes", "why_tests_cant": "A bound over all weights and values.", "anchors": ["timeseria/transformations.py::_compute_new"]}
{"id": "C90", "title": "Explicit start of a transformation is respected", "statement": "The first item produced by a transformation with an explicit start begins at that start (slots) or is at that start (points).", "quantifier": "every series and every start on the grid of the unit", "why_tests_cant": "Zero, starts far before the series and the half unit offset of points are corner cases of all inputs.", "anchors": ["timeseria/transformations.py::Transformation.process"]}
{"id": "C91", "title": "Transformations leave the input values unchanged", "statement": "After a resampling or an aggregation the timestamps, values and data indexes of the input series are as before.", "quantifier": "every series and unit", "why_tests_cant": "Only particular spacings of the points reach the branch writing on the input.", "anchors": ["timeseria/transformations.py::_compute_new", "timeseria/transformations.py::Transformation.process"]}
{"id": "C92", "title": "Averages do not depend on earlier transformations", "statement": "The avg operation gives the same result on a series before and after it was used as input of a transformation.", "quantifier": "every series, transformation and unit", "why_tests_cant": "A history dependence through attributes left on the points.", "anchors": ["timeseria/transformations.py::_compute_new", "timeseria/operations.py::Avg"]}
{"id": "C93", "title": "Filling of missing slots", "statement": "With a filling value, each slot for which there is no data at all has that value for every label and operation.", "quantifier": "every series, unit and filling value", "why_tests_cant": "Holds for all values except the falsy one.", "anchors": ["timeseria/transformations.py::_compute_new", "timeseria/transformations.py::Aggregator"]}
{"id": "C94", "title": "Series with data losses can be transformed", "statement": "Resampling or aggregating a series whose items have data losses, such as the result of a resampling, succeeds.", "quantifier": "every series, data losses and unit", "why_tests_cant": "Fails only for particular combinations of unit and losses.", "anchors": ["timeseria/transformations.py::_compute_new"]}
{"id": "C95", "title": "Aggregated averages are convex", "statement": "Each average of an aggregated slot lies between the minimum and the maximum of the values of the points involved.", "quantifier": "every series and unit", "why_tests_cant": "Fails only when a slot without points is partly covered.", "anchors": ["timeseria/transformations.py::_compute_new", "timeseria/operations.py::Avg"]}
{"id": "C96", "title": "Transformed items form a time series", "statement": "The items produced by a resampling or an aggregation are accepted one after the other by a new series; the labels of the slots are those of the series followed by the name of each operation.", "quantifier": "every series, unit and list of operations", "why_tests_cant": "The append checks must pass for every number of items.", "anchors": ["timeseria/transformations.py::Transformation.process", "timeseria/datastructures.py::TimeSeries.append"]}
{"id": "C97", "title": "With skip_errors, lines too short for a timestamp are dropped too", "statement": "With skip_errors set, a line with fewer fields than the position of the timestamp column is dropped as any other malformed line.", "quantifier": "every file with a header and every position of the timestamp column", "why_tests_cant": "Fails only for files with the timestamp column not in the first position and a short line.", "anchors": ["timeseria/storages.py::CSVFileStorage.get"]}
{"id": "C98", "title": "The CSV round trip holds for any label, kind of data and separator", "statement": "A time series put in a CSV storage and got back with the same storage object is the same series, whatever its labels, whether its data are lists or dictionaries, and whatever separator the storage was created with.", "quantifier": "every series and storage settings", "why_tests_cant": "Fails for particular labels (timestamp, double underscore, placeholders), list data and separators other than the comma.", "anchors": ["timeseria/storages.py::CSVFileStorage.put", "timeseria/storages.py::CSVFileStorage.get"]}
{"id": "C99", "title": "Rows keep their data indexes when missing slots are filled", "statement": "When loading slots from a file with data index columns, every row of the file is there with its values and data indexes, also if slots are missing.", "quantifier": "every list of rows with data indexes and gaps", "why_tests_cant": "Fails only for files with both index columns and missing slots.", "anchors": ["timeseria/storages.py::CSVFileStorage.get"]}
{"id": "C100", "title": "Gaps are filled whatever the length of the slots", "statement": "A slot series loaded from a file leaves no time uncovered between the first and the last row.", "quantifier": "every file on the grid of a unit", "why_tests_cant": "Fails only for short units at recent timestamps, where a gap is below the tolerance.", "anchors": ["timeseria/storages.py::CSVFileStorage.get", "timeseria/datastructures.py::TimeSlot.__succedes__"]}
{"id": "C101", "title": "With skip_errors, rows that cannot be appended are dropped", "statement": "With skip_errors set, a row which cannot be added to the series, such as a repeated one, is dropped and the others are kept.", "quantifier": "every list of rows, as points and as slots", "why_tests_cant": "The slots branch differs from the points branch.", "anchors": ["timeseria/storages.py::CSVFileStorage.get"]}
{"id": "C102", "title": "Dictionary and JSON conversions are lossless", "statement": "A time series converted to a dictionary or to JSON and back has the same items: timestamps, time zones, kind, data and data indexes.", "quantifier": "every time series", "why_tests_cant": "Fails for data indexes, time zones, slots and timestamps finer than a microsecond.", "anchors": ["timeseria/datastructures.py::TimeSeries.to_dict", "timeseria/datastructures.py::TimeSeries.from_dict", "timeseria/datastructures.py::TimeSeries.to_json", "timeseria/datastructures.py::TimeSeries.from_json"]}
{"id": "C103", "title": "Data frame round trip", "statement": "A time series converted to a data frame and back has the same timestamps, data and data indexes.", "quantifier": "every time series", "why_tests_cant": "Fails only for series with a data loss or with lists as data.", "anchors": ["timeseria/datastructures.py::TimeSeries.to_df", "timeseria/datastructures.py::TimeSeries.from_df"]}
{"id": "C104", "title": "Every cross validation round trains and validates on something", "statement": "Each round of a cross validation fits the model on at least one item and evaluates it on at least one item.", "quantifier": "every series and number of rounds", "why_tests_cant": "Fails only for a single round or for more rounds than items.", "anchors": ["timeseria/models/base.py::Model.cross_validate"]}
{"id": "C105", "title": "A cross validation leaves the model unfitted", "statement": "After a cross validation, however it ends, the model is not fitted: it refuses to predict and can be cross validated again.", "quantifier": "every model, series, number of rounds and failure of a fit or evaluation", "why_tests_cant": "Depends on where an exception interrupts the rounds.", "anchors": ["timeseria/models/base.py::Model.cross_validate"]}
{"id": "C106", "title": "Cross validation results", "statement": "The results of a cross validation are, for every metric, the mean and the standard deviation of the scores of the rounds.", "quantifier": "every model, series and number of rounds", "why_tests_cant": "Must hold for every list of evaluations.", "anchors": ["timeseria/models/base.py::Model.cross_validate"]}
{"id": "C107", "title": "Models with parameters and without a fit can be used", "statement": "A model whose parameters are set when it is created, and that has no fit, predicts, applies and evaluates on every series of fixed resolution.", "quantifier": "every model class without a fit and every series", "why_tests_cant": "Concerns every user-defined model class.", "anchors": ["timeseria/models/base.py::Model"]}
{"id": "C108", "title": "A point series with one item is accepted by a fitted model", "statement": "A point series with a single item and the labels of the fit is accepted by predict, apply and evaluate, since its resolution is not defined.", "quantifier": "every fitted model and single point series", "why_tests_cant": "Concerns every model class.", "anchors": ["timeseria/models/base.py::Model.predict_function", "timeseria/models/base.py::Model.apply_function", "timeseria/models/base.py::Model.evaluate_function"]}
{"id": "C109", "title": "Items with an unknown data loss do not prevent training", "statement": "Items whose data loss index is None, as the slots created by a forecast, are used for training as items without a data loss.", "quantifier": "every series and data loss limit", "why_tests_cant": "Fails only for series with such items and a limit.", "anchors": ["timeseria/models/base.py::_KerasModel._to_matrix_representation", "timeseria/models/forecasters.py::Forecaster.forecast"]}
{"id": "C110", "title": "Window features", "statement": "The features of a window are, for each of its items and in the order of the labels, the values, the differences with the neighbouring items and the hour of the day.", "quantifier": "every window, set of labels and set of features", "why_tests_cant": "Zero differences are replaced: fails only for constant runs.", "anchors": ["timeseria/models/base.py::_KerasModel._compute_window_features"]}
{"id": "C111", "title": "Normalisation of the neural network forecaster", "statement": "Training values are normalised between 0 and 1 and predictions are brought back with the inverse transformation; the prediction depends only on the last items of the series, as many as the window.", "quantifier": "every series and network", "why_tests_cant": "Must hold for every training range.", "anchors": ["timeseria/models/forecasters.py::LSTMForecaster.fit", "timeseria/models/forecasters.py::LSTMForecaster.predict"]}
{"id": "C112", "title": "Fitting the neural network forecaster does not depend on earlier fits", "statement": "The normalisation applied by a fitted neural network forecaster depends only on its last fit, which works on every series.", "quantifier": "every series and history of fits", "why_tests_cant": "Fails for constant labels and for a fit without normalisation after one with it.", "anchors": ["timeseria/models/forecasters.py::LSTMForecaster.fit"]}
{"id": "C113", "title": "A failed in-place reconstruction changes nothing", "statement": "If applying a reconstructor in place raises, the series is left as it was.", "quantifier": "every series, threshold, predictor and failure", "why_tests_cant": "Depends on where in the series the failing gap is.", "anchors": ["timeseria/models/reconstructors.py::Reconstructor.apply"]}
{"id": "C114", "title": "The percentage error of a reconstruction", "statement": "The scores of a reconstructor evaluation are the errors of the reconstructed values with respect to the actual ones, the percentage error being relative to the actual values.", "quantifier": "all predicted and actual values", "why_tests_cant": "A statement over all values.", "anchors": ["timeseria/models/reconstructors.py::Reconstructor.evaluate"]}
{"id": "C115", "title": "Every reconstructor can be evaluated", "statement": "A reconstructor that can be applied to a series can be evaluated on a series without losses.", "quantifier": "every series, threshold and number of steps", "why_tests_cant": "A statement over all series and reconstructors.", "anchors": ["timeseria/models/reconstructors.py::Reconstructor.evaluate", "timeseria/models/reconstructors.py::LinearInterpolationReconstructor.predict"]}
{"id": "C116", "title": "The evaluation of a reconstructor uses all the good areas", "statement": "A reconstructor is evaluated exactly on the areas that, with the window before and after, are inside the series and free of losses, comparing predicted and actual values in order, up to the limit.", "quantifier": "every series, window, threshold, limit and number of steps", "why_tests_cant": "The boundary at the end of the series matters for every length.", "anchors": ["timeseria/models/reconstructors.py::Reconstructor.evaluate"]}
{"id": "C117", "title": "The periodic forecast continues a periodic series plus a constant", "statement": "Fitted on a periodic series, the periodic average forecaster applied to a series that is the same profile plus a constant predicts the profile plus that constant.", "quantifier": "every periodic profile, constant, window and number of steps", "why_tests_cant": "The offset is a division by window minus one, so the error shows only away from zero offset and differs for every window.", "anchors": ["timeseria/models/forecasters.py::PeriodicAverageForecaster.predict"]}
{"id": "C118", "title": "The forecast is based on the most recent items", "statement": "The periodic forecast depends on the last window items of the series passed in, on all of them, and on no earlier item.", "quantifier": "every fitted forecaster, every pair of series", "why_tests_cant": "A non-interference statement over all pairs of series.", "anchors": ["timeseria/models/forecasters.py::PeriodicAverageForecaster.predict"]}
{"id": "C119", "title": "A window can be given to the periodic forecaster", "statement": "The periodic forecaster can be fitted with a given window as well as with an automatic one.", "quantifier": "every series, window and periodicity", "why_tests_cant": "The claim ranges over all windows.", "anchors": ["timeseria/models/forecasters.py::PeriodicAverageForecaster.fit"]}
{"id": "C120", "title": "Each label of the periodic forecaster uses its own periodicity", "statement": "When the periodicity is detected, each data label is forecast with the periodicity detected for that label.", "quantifier": "every detection result, every set of labels", "why_tests_cant": "Needs labels with different periodicities, for every detection result.", "anchors": ["timeseria/models/forecasters.py::PeriodicAverageForecaster.fit"]}
{"id": "C121", "title": "Saved periodic models predict the same after loading", "statement": "A periodic average model that is fitted, saved and loaded predicts the same as before being saved.", "quantifier": "every fitted periodic model, series and number of steps", "why_tests_cant": "A round trip over all fitted models.", "anchors": ["timeseria/models/reconstructors.py::PeriodicAverageReconstructor.__init__", "timeseria/models/forecasters.py::PeriodicAverageForecaster.load", "timeseria/models/base.py::Model.save"]}
{"id": "C122", "title": "A failed in-place forecast changes nothing", "statement": "If applying a forecaster in place raises, the series is left as it was.", "quantifier": "every series, predictor, number of steps and point of failure", "why_tests_cant": "The failure can happen at any step of the forecast.", "anchors": ["timeseria/models/forecasters.py::Forecaster.apply"]}
{"id": "C123", "title": "Forecasters of a single step can be applied for several", "statement": "A forecaster that raises NotImplementedError for more than one step, and returns the prediction of one step in either of the forms the evaluation accepts, can be applied for any number of steps.", "quantifier": "every such forecaster, series and number of steps", "why_tests_cant": "A statement over all predictors.", "anchors": ["timeseria/models/forecasters.py::Forecaster.apply", "timeseria/models/forecasters.py::Forecaster.forecast"]}
{"id": "C124", "title": "The evaluation of a forecaster compares every item after the window", "statement": "Evaluating a forecaster compares, once and in order, the actual value of every item from the window on with a prediction made for it.", "quantifier": "every series, window, label and predictor", "why_tests_cant": "A statement over all series and predictors.", "anchors": ["timeseria/models/forecasters.py::Forecaster.evaluate"]}
{"id": "C125", "title": "The evaluation of a forecaster never looks ahead", "statement": "In the evaluation, the prediction for an item depends only on the items before it.", "quantifier": "every pair of series with the same items before a position, every predictor reading the view it is given", "why_tests_cant": "A non-interference statement over pairs of series.", "anchors": ["timeseria/models/forecasters.py::Forecaster._get_predicted_value", "timeseria/models/forecasters.py::Forecaster.evaluate", "timeseria/datastructures.py::TimeSeriesView.__getitem__"]}
{"id": "C126", "title": "Forecasters without a fit can be applied", "statement": "A forecaster that implements predict only, without a fit, can be applied to a series.", "quantifier": "every series and predictor", "why_tests_cant": "A statement over all predictors.", "anchors": ["timeseria/models/forecasters.py::Forecaster.forecast", "timeseria/models/base.py::Model.__init__"]}
{"id": "C127", "title": "Events at the end of the series", "statement": "mark_events treats an event at the end of the series as any other: marked if its extent is at least min_persistence, and never raising.", "quantifier": "every sequence of anomaly indexes ending within an event and all settings", "why_tests_cant": "A statement over all sequences; an off-by-one at the end needs the general characterisation.", "anchors": ["timeseria/models/anomaly_detectors.py::AnomalyDetector.mark_events"]}
{"id": "C128", "title": "Events of a series with lossy items", "statement": "mark_events works on what a detector returns, also if some items were passed through without an anomaly index because of their data loss.", "quantifier": "every series with and without anomaly indexes", "why_tests_cant": "Depends on which items were passed through; ranges over all series.", "anchors": ["timeseria/models/anomaly_detectors.py::AnomalyDetector.mark_events", "timeseria/models/anomaly_detectors.py::AnomalyDetector.apply"]}
{"id": "C129", "title": "The anomaly index for any bounds", "statement": "The anomaly index is within [0,1] for any pair of index bounds, also on the left of the location of the error distribution.", "quantifier": "every error, all bounds, every error distribution decreasing on the right of its location", "why_tests_cant": "Depends on the position of the average error with respect to the fitted location.", "anchors": ["timeseria/models/anomaly_detectors.py::ModelBasedAnomalyDetector.apply"]}
{"id": "C130", "title": "Reconstructor-based detection returns every item between the windows", "statement": "Applying a detector based on a reconstructor returns one item for each item after the initial window and before the final one, lossy items notwithstanding, for every window length.", "quantifier": "every series, data loss pattern and window", "why_tests_cant": "A statement over all data loss patterns.", "anchors": ["timeseria/models/anomaly_detectors.py::ModelBasedAnomalyDetector.apply"]}
{"id": "C131", "title": "Errors at the same distance have the same index", "statement": "Two prediction errors at the same distance from the location of the error distribution, on its two sides, have the same anomaly index.", "quantifier": "every error and location", "why_tests_cant": "A statement over all errors and fitted distributions.", "anchors": ["timeseria/models/anomaly_detectors.py::ModelBasedAnomalyDetector.apply"]}
{"id": "C132", "title": "Details and lossy items", "statement": "Applying the detector with details works on series with lossy items, each scored item having the labels of the details besides its own.", "quantifier": "every series, data loss pattern and choice of details", "why_tests_cant": "Depends on the data loss pattern.", "anchors": ["timeseria/models/anomaly_detectors.py::ModelBasedAnomalyDetector.apply"]}
{"id": "C133", "title": "Names of the details", "statement": "The details are stored under the label followed by _pred, _err and _adh, with the prediction, the (mirrored) error and the density relative to its maximum.", "quantifier": "every choice of details, label and value", "why_tests_cant": "Ranges over all labels and choices.", "anchors": ["timeseria/models/anomaly_detectors.py::ModelBasedAnomalyDetector.apply"]}
{"id": "C134", "title": "Detection on series with zero values", "statement": "With any supported error metric, the default one included, the detector can be applied to series containing zeros.", "quantifier": "every series, value and metric", "why_tests_cant": "A statement over all values.", "anchors": ["timeseria/models/anomaly_detectors.py::ModelBasedAnomalyDetector.apply", "timeseria/models/anomaly_detectors.py::ModelBasedAnomalyDetector.fit"]}
{"id": "C135", "title": "Index bounds as a tuple", "statement": "The index bounds can be given as a tuple, as documented, with the same effect as a list.", "quantifier": "all bounds", "why_tests_cant": "A statement over all bounds and series.", "anchors": ["timeseria/models/anomaly_detectors.py::ModelBasedAnomalyDetector.apply"]}
{"id": "C136", "title": "Detectors fitted without storing the errors", "statement": "A detector fitted with store_errors=False can be applied with bounds that do not depend on the errors.", "quantifier": "every detector, series and numeric bounds", "why_tests_cant": "A statement over all detectors and bounds.", "anchors": ["timeseria/models/anomaly_detectors.py::ModelBasedAnomalyDetector.apply", "timeseria/models/anomaly_detectors.py::ModelBasedAnomalyDetector.fit"]}
{"id": "C137", "title": "Pre-processing does not change the detection", "statement": "Applying a detector to a series pre-processed by it gives the same result (or exception) as applying it to the series.", "quantifier": "every detector, series and settings", "why_tests_cant": "Equality of two computations for all inputs.", "anchors": ["timeseria/models/anomaly_detectors.py::ModelBasedAnomalyDetector.preprocess", "timeseria/models/anomaly_detectors.py::ModelBasedAnomalyDetector.apply"]}
{"id": "C138", "title": "Pre-processed series after a refit or an append", "statement": "Applying a detector to a pre-processed series gives the result of the current model on the current series, also after fitting again or appending.", "quantifier": "every history of preprocess, fit, append and apply", "why_tests_cant": "Depends on the history.", "anchors": ["timeseria/models/anomaly_detectors.py::ModelBasedAnomalyDetector.preprocess", "timeseria/models/anomaly_detectors.py::ModelBasedAnomalyDetector.apply"]}
{"id": "C139", "title": "Dividing zero by a unit", "statement": "A number or a unit with value zero divided by a unit which is not zero is zero.", "quantifier": "all numbers and units", "why_tests_cant": "An algebraic law over all numbers.", "anchors": ["timeseria/units.py::Unit.__rtruediv__", "timeseria/units.py::Unit.__truediv__"]}
{"id": "C140", "title": "Units and points", "statement": "Adding a unit to a one-dimensional point or subtracting it gives the point with the coordinate moved by the unit; multidimensional points are refused.", "quantifier": "all units and points", "why_tests_cant": "An algebraic law over all coordinates.", "anchors": ["timeseria/units.py::Unit.__rsub__", "timeseria/units.py::Unit.__add__"]}
{"id": "C141", "title": "Time unit from the value argument", "statement": "TimeUnit(value=x), as documented, is the same as TimeUnit(x).", "quantifier": "every number and string", "why_tests_cant": "A statement over all values.", "anchors": ["timeseria/units.py::TimeUnit.__init__"]}
{"id": "C142", "title": "Every item is represented in an aggregated plot", "statement": "Each item of the series contributes to exactly one row of the aggregated plot.", "quantifier": "every series and aggregation factor", "why_tests_cant": "A statement over all lengths and factors.", "anchors": ["timeseria/plots.py::_to_dg_data"]}
{"id": "C143", "title": "Indexes in an aggregated plot", "statement": "The value shown for a data index in an aggregated plot is its mean over the items of the chunk that have it.", "quantifier": "every series, index and aggregation factor", "why_tests_cant": "A statement over all series.", "anchors": ["timeseria/plots.py::_to_dg_data"]}
{"id": "C144", "title": "Automatic aggregation", "statement": "By default a series of at most 10000 items is not aggregated, and a longer one is aggregated by a power of ten into at least 1000 and at most 10000 rows.", "quantifier": "every length", "why_tests_cant": "A statement over all lengths.", "anchors": ["timeseria/plots.py::dygraphs_plot"]}
{"id": "C145", "title": "Asking for aggregation", "statement": "aggregate=True aggregates the plot, aggregate=False does not, and aggregate_by sets the factor.", "quantifier": "every length and factor", "why_tests_cant": "A statement over all lengths.", "anchors": ["timeseria/plots.py::dygraphs_plot"]}
{"id": "C146", "title": "Plots without aggregation are exact", "statement": "Without aggregation the plot has one row for each item, in order, with its timestamp, values and indexes (null if missing).", "quantifier": "every series, labels and indexes", "why_tests_cant": "A statement over all series.", "anchors": ["timeseria/plots.py::_to_dg_data"]}
{"id": "C147", "title": "The automatic value range contains the data", "statement": "The automatic range of the vertical axis contains all the values of the series.", "quantifier": "every series", "why_tests_cant": "A statement over all values.", "anchors": ["timeseria/plots.py::dygraphs_plot", "timeseria/plots.py::_to_dg_data"]}
{"id": "C148", "title": "Plot column titles", "statement": "The plot has exactly one title for each plotted label and index, in order.", "quantifier": "every set of labels and indexes", "why_tests_cant": "A statement over all names.", "anchors": ["timeseria/plots.py::dygraphs_plot"]}
{"id": "C149", "title": "Plotting numerical data", "statement": "A series whose items carry plain numbers can be plotted.", "quantifier": "every series of numbers", "why_tests_cant": "A statement over all series.", "anchors": ["timeseria/plots.py::dygraphs_plot"]}
{"id": "C150", "title": "Marks are placed at their wall-clock time", "statement": "A mark is placed at the wall-clock time of its datetimes, whatever their time zone.", "quantifier": "every datetime", "why_tests_cant": "A statement over all datetimes and offsets.", "anchors": ["timeseria/plots.py::_utc_fake_s_from_dt"]}
{"id": "C151", "title": "Forced value range", "statement": "With value_range=[min, max] every value between min and max is within the range of the plot.", "quantifier": "all bounds", "why_tests_cant": "A statement over all numbers.", "anchors": ["timeseria/plots.py::dygraphs_plot"]}
{"id": "C152", "title": "Any two items can be compared", "statement": "Comparing two items of time series (points or slots, with or without data) with == always gives true or false, and items of different kinds are different.", "quantifier": "all pairs of items", "why_tests_cant": "Ranges over all pairs of kinds of items.", "anchors": ["timeseria/datastructures.py::Slot.__eq__", "timeseria/datastructures.py::DataSlot.__eq__", "timeseria/datastructures.py::Point.__eq__"]}
{"id": "C153", "title": "Values stored by the fit of an anomaly detector", "statement": "After a successful fit of a model-based anomaly detector with store_errors, for each label the stored actual values, predicted values and errors have one entry for each item after the window (and before the last window, with a reconstructor): the value of the item, what the inner model predicts for it and their error in the chosen metric.", "quantifier": "every series, inner model, window and metric, with and without context", "why_tests_cant": "A statement over all series and inner models.", "anchors": ["timeseria/models/anomaly_detectors.py::ModelBasedAnomalyDetector.fit"]}
{"id": "C154", "title": "Unsupported metrics and too short series are refused by the fit of a detector", "statement": "The fit of a model-based anomaly detector succeeds only with one of the error metrics E, AE, PE and APE, and only if at least two items can be evaluated.", "quantifier": "every series, inner model, state and arguments", "why_tests_cant": "Ranges over all metrics and series.", "anchors": ["timeseria/models/anomaly_detectors.py::ModelBasedAnomalyDetector.fit"]}
{"id": "C155", "title": "Detections depend on the last fit only", "statement": "After a successful fit, an anomaly detector gives the same detections as a new detector fitted in the same way, whatever it was fitted on before.", "quantifier": "every history of the detector, series and arguments", "why_tests_cant": "A statement over all histories.", "anchors": ["timeseria/models/anomaly_detectors.py::ModelBasedAnomalyDetector.fit", "timeseria/models/anomaly_detectors.py::ModelBasedAnomalyDetector.apply"]}
{"id": "C156", "title": "A failed fit leaves the anomaly detector as it was", "statement": "If the fit of an anomaly detector raises, later detections are as before the call.", "quantifier": "every state of the detector and failing fit", "why_tests_cant": "A statement over all failures.", "anchors": ["timeseria/models/anomaly_detectors.py::ModelBasedAnomalyDetector.fit"]}
{"id": "C157", "title": "The worst item of the fit is anomalous", "statement": "A detector applied with the default bounds to the series it was fitted on gives anomaly index 1 to the item with the largest absolute error (if the errors are not all the same in absolute value).", "quantifier": "every series, inner model and error distribution", "why_tests_cant": "A statement over all error distributions.", "anchors": ["timeseria/models/anomaly_detectors.py::ModelBasedAnomalyDetector.apply", "timeseria/models/anomaly_detectors.py::ModelBasedAnomalyDetector.fit"]}
{"id": "C158", "title": "Saved anomaly detectors detect the same after loading", "statement": "A fitted anomaly detector that is saved can be loaded, and then gives the same detections.", "quantifier": "every fitted detector and series", "why_tests_cant": "A statement over all detectors and series.", "anchors": ["timeseria/models/anomaly_detectors.py::ModelBasedAnomalyDetector.save", "timeseria/models/anomaly_detectors.py::ModelBasedAnomalyDetector.load"]}
{"id": "C159", "title": "A failed save of a detector leaves nothing behind", "statement": "If saving an anomaly detector raises, the disk is as before, so that saving again in the same path is possible.", "quantifier": "every detector, disk and failure", "why_tests_cant": "Needs every possible failure point.", "anchors": ["timeseria/models/anomaly_detectors.py::ModelBasedAnomalyDetector.save", "timeseria/models/base.py::Model.save"]}
{"id": "C160", "title": "Every item with a full window before it is examined", "statement": "A detector based on a forecaster with window w gives an anomaly index to every item preceded by w items (unless there is too much data loss).", "quantifier": "every series and window", "why_tests_cant": "A boundary case for each window.", "anchors": ["timeseria/models/anomaly_detectors.py::ModelBasedAnomalyDetector.apply"]}
{"id": "C161", "title": "An explicit start or end off the boundaries of the unit is refused", "statement": "resample and aggregate raise ValueError, and compute nothing, if the start or the end given is not zero and does not fall on a boundary of the unit.", "quantifier": "every series, unit, start and end", "why_tests_cant": "Ranges over all the times off the boundaries, in combination with the other arguments.", "anchors": ["timeseria/transformations.py::Transformation.process"]}
{"id": "C162", "title": "Daily, monthly and yearly files are loaded as slots of that unit", "statement": "If the sampling interval detected in a CSV file is one of a day (23, 24 or 25 hours), of a month (28 to 31 days) or of a year (365 or 366 days), the series loaded without asking for a type is made of slots of one day, month or year (or of the unit asked for); otherwise of points; and with slots asked for, of slots lasting the detected interval.", "quantifier": "every detected sampling interval, type asked for and forced unit", "why_tests_cant": "A few intervals out of infinitely many are tried by a test; the wrong ones are not.", "anchors": ["timeseria/storages.py::CSVFileStorage.get"]}
{"id": "C163", "title": "Saving and loading a time series", "statement": "A time series saved with save and loaded with load has the same items: timestamps, values, data indexes and, for slots, ends and unit, in the time zone of the series; a file without the metadata is refused with ValueError.", "quantifier": "every series of dictionaries with plain labels and names, every file and clock", "why_tests_cant": "A composition of writing, metadata and reading, over all series.", "anchors": ["timeseria/datastructures.py::TimeSeries.save", "timeseria/datastructures.py::TimeSeries.load", "timeseria/storages.py::CSVFileStorage.put", "timeseria/storages.py::CSVFileStorage.get"]}
{"id": "C164", "title": "A series with a single slot can be saved and loaded", "statement": "A time series with one slot, saved and loaded, is the same series.", "quantifier": "every slot", "why_tests_cant": "A boundary case for every unit.", "anchors": ["timeseria/datastructures.py::TimeSeries.load", "timeseria/storages.py::CSVFileStorage.get", "timeseria/utilities.py::detect_sampling_interval"]}
{"id": "C165", "title": "Loading as a subclass", "statement": "load called on a subclass of TimeSeries returns the series, as an object of that class.", "quantifier": "every file and subclass", "why_tests_cant": "Holds or fails for all files alike.", "anchors": ["timeseria/datastructures.py::TimeSeries.load"]}
{"id": "C166", "title": "The Prophet forecaster works in the local time of the series", "statement": "A Prophet forecaster is fitted on the local time and the value of every item, and every forecast it adds carries what Prophet predicts for the local time of that forecast (the start, for slots); on points with one label and a resolution it can be applied for any number of steps.", "quantifier": "every series in one time zone, engine, number of steps and calendar", "why_tests_cant": "Time zones, daylight saving changes and calendar units are too many to be tried.", "anchors": ["timeseria/models/forecasters.py::ProphetForecaster.fit", "timeseria/models/forecasters.py::ProphetForecaster.predict", "timeseria/models/base.py::_ProphetModel._from_timeseria_to_prophet"]}
{"id": "C167", "title": "The Prophet reconstructor works in the local time of the series", "statement": "The items rebuilt by a Prophet reconstructor carry what Prophet, fitted on local times, predicts for their local time.", "quantifier": "every series, time zone and gap", "why_tests_cant": "A test in UTC cannot see the difference.", "anchors": ["timeseria/models/reconstructors.py::ProphetReconstructor.predict", "timeseria/models/base.py::_ProphetModel._from_timeseria_to_prophet"]}
{"id": "C168", "title": "ARIMA forecasters continue the series of the fit only", "statement": "An ARIMA or AutoARIMA forecaster applied to a series not ending at the timestamp where the series of the fit ends raises; applied to one that does, it returns its items followed by the forecasts of the engine in order, one resolution apart.", "quantifier": "every series, fit and number of steps", "why_tests_cant": "Over all pairs of series.", "anchors": ["timeseria/models/forecasters.py::ARIMAForecaster.predict", "timeseria/models/forecasters.py::AARIMAForecaster.predict"]}
{"id": "C169", "title": "ARIMA forecasts stay tied to the data of the fit", "statement": "Whatever happens to the series after the fit, an ARIMA forecaster is refused on a series not ending where the data of the fit ended.", "quantifier": "every history of applications and appends after the fit", "why_tests_cant": "Depends on the history of the object used for the fit.", "anchors": ["timeseria/models/forecasters.py::ARIMAForecaster.fit", "timeseria/models/forecasters.py::ARIMAForecaster.predict", "timeseria/models/forecasters.py::Forecaster.apply"]}
{"id": "C170", "title": "A saved Prophet or ARIMA model can be loaded and used", "statement": "If saving a fitted Prophet or ARIMA model does not raise, the model loaded from that path predicts as the saved one.", "quantifier": "every fitted model and series", "why_tests_cant": "Holds or fails for all models alike; the tests do not save these models.", "anchors": ["timeseria/models/base.py::Model.save", "timeseria/models/base.py::Model.load", "timeseria/models/forecasters.py::ProphetForecaster.predict", "timeseria/models/forecasters.py::ARIMAForecaster.predict"]}
{"id": "C171", "title": "ARIMA forecasters can be evaluated", "statement": "Evaluating an ARIMA forecaster on a series returns the metrics.", "quantifier": "every series and fit", "why_tests_cant": "Over all series; the test of this is commented out.", "anchors": ["timeseria/models/forecasters.py::Forecaster.evaluate", "timeseria/models/forecasters.py::ARIMAForecaster.predict"]}
{"id": "C172", "title": "Finding the position of an item", "statement": "series.index(x) gives the position of the first item equal to x, the optional start and end limiting the search as in a slice, and raises ValueError if there is none.", "quantifier": "all series, items and bounds", "why_tests_cant": "the result has to be right for every series and item; a test that only checks that no exception is raised passes", "anchors": ["timeseria/datastructures.py:819-827 Series.index"]}
{"id": "C173", "title": "Copies and sums of series are series", "statement": "series.copy() gives a series holding the same items; series + items gives a series with the items added.", "quantifier": "all series", "why_tests_cant": "a test comparing contents cannot see that the class, and with it all the checks, is lost", "anchors": ["timeseria/datastructures.py:829-831 Series.copy", "timeseria/datastructures.py:606 class Series(list)"]}
{"id": "C174", "title": "List operators respect the rules of a series", "statement": "series[i] = x, del series[i], series += items and series *= n either keep a series in order (succession for slots), of one kind and with one set of labels, or are refused.", "quantifier": "all series, operators and arguments", "why_tests_cant": "every argument of every inherited operator has to be considered; tests only cover the rewritten methods", "anchors": ["timeseria/datastructures.py:606 class Series(list)", "timeseria/datastructures.py:738-857"]}
{"id": "C175", "title": "pop takes out exactly the item it gives back", "statement": "pop() gives the last item, pop(i) the item in position i (negative positions counting from the end; for slots only the first), taking out that item only; in all other cases IndexError is raised and the series is unchanged.", "quantifier": "all series and positions", "why_tests_cant": "must hold for every length and position, on both kinds of series", "anchors": ["timeseria/datastructures.py:795-813 Series.pop"]}
{"id": "C176", "title": "remove takes out the first equal item", "statement": "remove(x) takes out the first item with the time and data of x and no other; ValueError if there is none and NotImplementedError on slots, in both cases without changing the series.", "quantifier": "all series and items", "why_tests_cant": "must hold for every series and item", "anchors": ["timeseria/datastructures.py:780-793 Series.remove"]}
{"id": "C177", "title": "Equality and membership of series", "statement": "Two series are equal exactly when they have the same number of items and the items are the same one by one (time and data), and x in series holds exactly when an item of the series is the same as x.", "quantifier": "all pairs of series with comparable items", "why_tests_cant": "quantifies over all pairs of series", "anchors": ["timeseria/datastructures.py:606 class Series(list)", "timeseria/datastructures.py:229-235", "timeseria/datastructures.py:531-534"]}
{"id": "C178", "title": "Moving a series to another time zone", "statement": "as_tz(z) gives a series with the same times, data, data indexes and resolution, all on the zone z; it works on every series.", "quantifier": "all series and zones", "why_tests_cant": "must hold for every series, including the empty one", "anchors": ["timeseria/datastructures.py:1377-1387 change_tz, as_tz"]}
{"id": "C179", "title": "A time point reports what it was created from", "statement": "A TimePoint created from a number (by name or position), a datetime or another TimePoint is at that time; its zone is the one asked for, otherwise that of the datetime or point, otherwise UTC.", "quantifier": "all times, zones and ways of creating a point", "why_tests_cant": "must hold for every combination of arguments", "anchors": ["timeseria/datastructures.py:87-174 TimePoint"]}
{"id": "C180", "title": "The time zone asked for is the one used", "statement": "A point or slot created with a tz argument is on that time zone.", "quantifier": "all ways of creating points and slots, all zones", "why_tests_cant": "all argument combinations, not the usual one", "anchors": ["timeseria/datastructures.py:96-143 TimePoint.__init__", "timeseria/datastructures.py:407-433 TimeSlot.__init__"]}
{"id": "C181", "title": "Times are numbers", "statement": "The time of every point that can be created is a number; anything else is refused.", "quantifier": "all arguments", "why_tests_cant": "quantifies over all arguments, including texts that look like numbers", "anchors": ["timeseria/datastructures.py:34-47 Point.__init__", "timeseria/datastructures.py:96-143"]}
{"id": "C182", "title": "Wrong arguments are refused", "statement": "Creating a point or slot with unknown, missing or contradictory arguments raises an exception.", "quantifier": "all sets of arguments", "why_tests_cant": "quantifies over all argument sets", "anchors": ["timeseria/datastructures.py:96-143", "timeseria/datastructures.py:407-433"]}
{"id": "C183", "title": "Creating an item does not change the objects passed to it", "statement": "Creating a point with data leaves the dictionary of data indexes passed to it, and the indexes of every other point, as they were.", "quantifier": "all arguments, all existing dictionaries", "why_tests_cant": "aliasing between objects; a test on one item sees nothing", "anchors": ["timeseria/datastructures.py:187-221 DataPoint.__init__", "timeseria/datastructures.py:487-521 DataSlot.__init__"]}
{"id": "C184", "title": "An item with data reports its data and indexes", "statement": "A point created with data reports that data, the data loss given, and the other data indexes given and no more.", "quantifier": "all arguments and dictionaries", "why_tests_cant": "must hold for every dictionary and value, also None", "anchors": ["timeseria/datastructures.py:187-258 DataPoint"]}
{"id": "C185", "title": "Changing the zone of a slot leaves the other slots alone", "statement": "change_tz on a slot changes the zone of that slot only.", "quantifier": "all slots and all ways of sharing points between them", "why_tests_cant": "aliasing: depends on which point objects are shared", "anchors": ["timeseria/datastructures.py:446-450 TimeSlot.change_tz", "timeseria/models/forecasters.py:85-135"]}
{"id": "C186", "title": "Changing the zone of a series of slots", "statement": "After change_tz on a series of slots all slots, their starts and their ends are on the new zone and no time has changed, however the slots share their points.", "quantifier": "all series, all ways of sharing points", "why_tests_cant": "must hold for every aliasing pattern", "anchors": ["timeseria/datastructures.py:1377-1381 change_tz", "timeseria/datastructures.py:446-450"]}
{"id": "C187", "title": "Moving a point by a time unit", "statement": "point + unit and point - unit are on the zone of the point and moved by the unit; with a physical unit by exactly its length, so adding and subtracting it gives back the time.", "quantifier": "all points and units", "why_tests_cant": "all times, zones and units", "anchors": ["timeseria/units.py:156-184 TimeUnit.__radd__, __rsub__"]}
{"id": "C188", "title": "Values are read by their labels", "statement": "Each label reported by data_labels() reads the value it stands for, and every other label is refused.", "quantifier": "all data and labels", "why_tests_cant": "all texts as labels", "anchors": ["timeseria/datastructures.py:260-278 data_labels, _data_by_label"]}
{"id": "C189", "title": "The query of select", "statement": "select('label = value') returns the items with that value for that label, whatever the blanks around the label and with or without double quotes around it.", "quantifier": "all series, labels, blanks and number texts", "why_tests_cant": "all ways of writing the query", "anchors": ["timeseria/operations.py:1153-1187 Select"]}
{"id": "C190", "title": "Queries which are not understood are refused", "statement": "A query of select which is not a single equality raises an exception.", "quantifier": "all texts", "why_tests_cant": "quantifies over all texts", "anchors": ["timeseria/operations.py:1162-1176 Select"]}
{"id": "C191", "title": "What a round of cross validation trains on", "statement": "In each round of a cross validation (with no more rounds than items) the model is fitted on the longer of the two sides of the validated block and then, if it can be updated, on the other side unless this is shorter than the window of the model; an update which is not implemented is passed over.", "quantifier": "every series, number of rounds, window, kind of model with respect to updates", "why_tests_cant": "depends on the position of every block and on the window", "anchors": ["timeseria/models/base.py::Model.cross_validate"]}
{"id": "C192", "title": "Target labels of a forecaster", "statement": "A forecaster with target labels forecasts any series with exactly these labels, in whatever order, as it would without target labels, and refuses every other series with ValueError before predicting.", "quantifier": "every series, set of target labels, predictor, number of steps", "why_tests_cant": "the sets of labels are unbounded", "anchors": ["timeseria/models/forecasters.py::Forecaster.forecast"]}
{"id": "C193", "title": "Named bounds of the anomaly index", "statement": "The bounds of the anomaly index given by name stand for the greatest absolute error of the fit, their mean, a multiple of the standard deviation and the point where the density is a fraction of its maximum, each for its own label.", "quantifier": "every detector, label, list of stored errors and pair of bounds", "why_tests_cant": "the stored errors are arbitrary", "anchors": ["timeseria/models/anomaly_detectors.py::AnomalyDetector.apply"]}
{"id": "C194", "title": "Selection of what to plot", "statement": "A plot shows exactly the requested labels and indexes, in the order requested; requesting a label or an index the series does not have is a ValueError.", "quantifier": "every series and selection, without aggregation", "why_tests_cant": "selections and series are unbounded", "anchors": ["timeseria/plots.py::dygraphs_plot"]}
{"id": "C195", "title": "Prediction error metrics", "statement": "The prediction error is the difference between actual and predicted value, or its absolute value, or these relative to the actual value.", "quantifier": "all actual and predicted values", "why_tests_cant": "infinitely many values, signs matter", "anchors": ["timeseria/models/anomaly_detectors.py::AnomalyDetector.apply"]}
{"id": "C196", "title": "Positions below -len", "statement": "series[i] raises IndexError for every i < -len.", "quantifier": "every series and every integer", "why_tests_cant": "ranges over all integers", "anchors": ["timeseria/datastructures.py::TimeSeries.__getitem__", "timeseria/operations.py::Get"]}
{"id": "C197", "title": "Index slicing of any series", "statement": "series[a:b] gives the items of the list slice also for an empty series and for parts of a series which begin with two points too close to have a resolution.", "quantifier": "every series and all bounds", "why_tests_cant": "ranges over all series and bounds", "anchors": ["timeseria/datastructures.py::TimeSeries.__getitem__", "timeseria/operations.py::Slice"]}
{"id": "C198", "title": "Item equality is transitive", "statement": "If a == b and b == c then a == c, for all points with or without data.", "quantifier": "all triples of points", "why_tests_cant": "ranges over triples of values", "anchors": ["timeseria/datastructures.py::Point.__eq__", "timeseria/datastructures.py::DataPoint.__eq__"]}
{"id": "C199", "title": "The integral treats labels independently", "statement": "The integral of a multi-label series is, label by label, the integral of the single-label series obtained by filtering on that label.", "quantifier": "every uniform series with any number of labels", "why_tests_cant": "quantifies over all label sets and values", "anchors": ["timeseria/operations.py::Integral"]}
{"id": "C200", "title": "Invalid windows of the moving average", "statement": "mavg with a window below one item raises ValueError.", "quantifier": "every series and every window below 1", "why_tests_cant": "ranges over all windows", "anchors": ["timeseria/operations.py::MAvg"]}
{"id": "C201", "title": "A loaded model predicts as the saved one", "statement": "A model that has been saved can be loaded, and predicts, applies and evaluates as the saved one.", "quantifier": "every model state and argument", "why_tests_cant": "a round trip over all model states", "anchors": ["timeseria/models/base.py::Model.save", "timeseria/models/base.py::Model.load"]}
{"id": "C202", "title": "The last zero items", "statement": "tail(0) gives no item.", "quantifier": "every series", "why_tests_cant": "ranges over all series", "anchors": ["timeseria/datastructures.py::Series.tail"]}
{"id": "C203", "title": "A rejected append leaves no trace", "statement": "If append raises, the series behaves afterwards exactly as if the call had never been made: same resolution, and every later append has the same outcome.", "quantifier": "every reachable series, every rejected item, every later append", "why_tests_cant": "the damage of a rejected append is only visible in later operations of the history", "anchors": ["timeseria/datastructures.py::TimeSeries.append"]}
{"id": "C204", "title": "Resampling a series end to end", "statement": "series.resample(unit), on any time series of at least two points with dictionary data whose different spacings are at most 95% of its points, returns a TimeSeries of points one unit apart on the grid of the unit, covering the time range of the original, with the same labels, indexes and time zone, with values within the bounds of the original ones and with the unit as resolution; if the series is evenly spaced and has no data losses, neither has the result.", "quantifier": "all such series, all physical units, all time zones", "why_tests_cant": "the result depends on every timestamp and value; tests use a few series", "anchors": ["timeseria/transformations.py::Transformation.process", "timeseria/transformations.py::Resampler", "timeseria/datastructures.py::Series.resample"]}
{"id": "C205", "title": "Aggregating a series end to end", "statement": "series.aggregate(unit), on any time series of at least two points with dictionary data and without data losses whose different spacings are at most 95% of its points, returns a TimeSeries of consecutive slots of the unit, from the first boundary not before the first point and as many as fit before the last one, in the time zone of the series, with a label k_avg for each label k, the indexes of the series and the unit as resolution; if the series is evenly spaced, the slots have no data loss.", "quantifier": "all such series, all units, all calendars", "why_tests_cant": "the result depends on every timestamp and value; tests use a few series", "anchors": ["timeseria/transformations.py::Transformation.process", "timeseria/transformations.py::Aggregator", "timeseria/datastructures.py::Series.aggregate"]}
{"id": "C206", "title": "Transforming an empty series", "statement": "Resampling or aggregating an empty series is refused with a ValueError.", "quantifier": "all empty series, units and options", "why_tests_cant": "the check runs only for histories that leave the series empty", "anchors": ["timeseria/transformations.py::Transformation.process"]}
{"id": "C207", "title": "Transforming other series", "statement": "Resampling or aggregating a series of slots, or of points without data, is refused with a TypeError, whatever the unit and the options.", "quantifier": "all series of slots and of points without data, all options", "why_tests_cant": "all combinations of options and series", "anchors": ["timeseria/transformations.py::Transformation.process"]}
{"id": "C208", "title": "Calendar units are refused by the resampler", "statement": "Resampler(unit) refuses every unit with a calendar component (years, months, weeks or days) with a ValueError, and accepts all the others.", "quantifier": "all time units", "why_tests_cant": "there are infinitely many units", "anchors": ["timeseria/transformations.py::Resampler.__init__"]}
{"id": "C209", "title": "Transforming a single point", "statement": "Resampling or aggregating a series with a single data point gives an empty series or is refused with a ValueError.", "quantifier": "all series of one point, all units", "why_tests_cant": "all units and timestamps", "anchors": ["timeseria/transformations.py::Transformation.process", "timeseria/utilities.py::detect_sampling_interval"]}
{"id": "C210", "title": "Explicit start and end of a transformation", "statement": "A start or end given to a transformation is accepted exactly when it is on a boundary of the unit in the time zone of the series, and otherwise refused with a ValueError; an accepted start is where the first slot begins.", "quantifier": "all series, units, time zones and values of start and end", "why_tests_cant": "time zones and calendars cannot be enumerated", "anchors": ["timeseria/transformations.py::Transformation.process"]}
{"id": "C211", "title": "The results of an evaluation", "statement": "Evaluating a forecaster returns exactly one value for every label evaluated and every error metric asked for, under the name label_METRIC, and the value is the mean or the maximum (square root of the mean for RMSE) of the squared, absolute, percentage or logarithmic errors over the items from the window on, each predicted from the items before it.", "quantifier": "every forecaster, series, window, set of labels and of metrics", "why_tests_cant": "ranges over all forecasters, series and combinations of metrics", "anchors": ["timeseria/models/forecasters.py::Forecaster.evaluate", "timeseria/utilities.py::mean_absolute_log_error", "timeseria/utilities.py::max_absolute_log_error"]}
{"id": "C212", "title": "The arguments of an evaluation are checked", "statement": "Evaluating a forecaster on an empty series, on a number of steps other than one, or with a metric that is not supported is refused.", "quantifier": "all numbers of steps, metrics and series", "why_tests_cant": "ranges over all arguments", "anchors": ["timeseria/models/forecasters.py::Forecaster.evaluate"]}
{"id": "C213", "title": "Every supported metric gives a result", "statement": "If the forecaster can predict the series then evaluating it with supported metrics gives a result.", "quantifier": "every forecaster, series and supported metric", "why_tests_cant": "the values for which a metric is undefined are few", "anchors": ["timeseria/models/forecasters.py::Forecaster.evaluate", "timeseria/utilities.py::mean_absolute_log_error"]}
{"id": "C214", "title": "The results series of an evaluation", "statement": "If asked for, the evaluation also returns a series with the items from the window on, each with the predicted value of every label and the errors asked for, under the names label_pred, label_AE, label_APE, label_ALE, label_E, label_PE and label_LE.", "quantifier": "every forecaster, series, set of labels and of metrics", "why_tests_cant": "ranges over all forecasters, series and combinations of metrics", "anchors": ["timeseria/models/forecasters.py::Forecaster.evaluate"]}
{"id": "C215", "title": "An evaluation returns a dictionary", "statement": "Every evaluation of a forecaster that does not raise returns a dictionary.", "quantifier": "every forecaster, series and arguments", "why_tests_cant": "ranges over all arguments", "anchors": ["timeseria/models/forecasters.py::Forecaster.evaluate"]}
{"id": "C216", "title": "The results series keeps the values of the series", "statement": "In the results series of an evaluation every item still has all the values it has in the series evaluated.", "quantifier": "every forecaster, series and set of labels", "why_tests_cant": "needs label names that clash", "anchors": ["timeseria/models/forecasters.py::Forecaster.evaluate"]}
{"id": "C217", "title": "The range of a detected periodicity", "statement": "If detect_periodicity succeeds then the periodicity is an integer between two and the number of items of the series.", "quantifier": "all series, whatever the spectrum and its peaks", "why_tests_cant": "ranges over all series and spectra", "anchors": ["timeseria/utilities.py::detect_periodicity"]}
{"id": "C218", "title": "Which periodicity is detected", "statement": "A periodicity is detected exactly when the half spectrum has a peak (otherwise ValueError); it is the rounded period of a peak such that every stronger peak has a period longer than a tenth of the series and more than ten times that of another peak.", "quantifier": "all series, whatever the spectrum and its peaks", "why_tests_cant": "ranges over all spectra", "anchors": ["timeseria/utilities.py::detect_periodicity"]}
{"id": "C219", "title": "A dominant periodicity is detected", "statement": "If a peak of the spectrum is at least a third stronger than all the others then its period, rounded, is the detected periodicity.", "quantifier": "all series with a dominant peak", "why_tests_cant": "ranges over all spectra", "anchors": ["timeseria/utilities.py::detect_periodicity"]}
{"id": "C220", "title": "The periodicity of a sinusoid", "statement": "The periodicity detected for a series of values on a sinusoid is its period in items.", "quantifier": "all sinusoids: length, period, amplitude, phase and mean", "why_tests_cant": "ranges over all sinusoids", "anchors": ["timeseria/utilities.py::detect_periodicity"]}
{"id": "C221", "title": "Periodicity of a series with one label", "statement": "detect_periodicity analyses the values of every series of constant resolution with one label, be its data dictionaries or lists, and refuses series with more labels.", "quantifier": "all series of constant resolution", "why_tests_cant": "ranges over all series", "anchors": ["timeseria/utilities.py::detect_periodicity"]}
{"id": "C222", "title": "Unknown arguments of a cross validation", "statement": "cross_validate accepts exactly the extra arguments whose names begin with fit_ or evaluate_, and raises otherwise.", "quantifier": "all sets of keyword arguments", "why_tests_cant": "ranges over all names", "anchors": ["timeseria/models/base.py::Model.cross_validate"]}
{"id": "C223", "title": "Arguments forwarded by a cross validation", "statement": "cross_validate forwards every argument that begins with fit_ to fit, and every one that begins with evaluate_ to evaluate, under its name without the prefix, and nothing else.", "quantifier": "all sets of keyword arguments", "why_tests_cant": "ranges over all names", "anchors": ["timeseria/models/base.py::Model.cross_validate"]}
{"id": "C224", "title": "The integral starts from its constant", "statement": "integral(c=\u2026) of a series with a resolution succeeds and begins, for each label, with the constant: the number given, or the entry of the label in the dictionary given; a dictionary without one of the labels is refused.", "quantifier": "all series with a resolution and all constants", "why_tests_cant": "ranges over all label sets and constants", "anchors": ["timeseria/operations.py::Integral"]}
{"id": "C225", "title": "The integral of a single item", "statement": "The integral of a series of one item is the constant, as for any other series.", "quantifier": "all series of one item", "why_tests_cant": "ranges over all items and constants", "anchors": ["timeseria/operations.py::Integral"]}
{"id": "C226", "title": "The guessed resolution depends on the contents only", "statement": "guess_resolution() of a series of points of variable resolution gives the unit of its most common spacing, as it is when asked.", "quantifier": "all series and histories of appends and guesses", "why_tests_cant": "the history of earlier calls matters", "anchors": ["timeseria/datastructures.py::TimeSeries.guess_resolution", "timeseria/datastructures.py::TimeSeries.append"]}
{"id": "C227", "title": "When the resolution cannot be guessed", "statement": "guess_resolution() raises ValueError when there is nothing to guess: no points, one point, a well defined resolution or spacings which are no time unit.", "quantifier": "all series", "why_tests_cant": "ranges over all series", "anchors": ["timeseria/datastructures.py::TimeSeries.guess_resolution"]}
{"id": "C228", "title": "The confidence of the guess", "statement": "The confidence given with the guessed resolution is between 0 and 1: one minus the ratio of how often the second most common spacing occurs to how often the most common one does.", "quantifier": "all series", "why_tests_cant": "ranges over all timestamps", "anchors": ["timeseria/datastructures.py::TimeSeries.guess_resolution", "timeseria/utilities.py::detect_sampling_interval"]}
{"id": "C229", "title": "What the square brackets mean", "statement": "In the square brackets an integer selects by position, a float or a datetime by time, a text by label, two bounds of the same kind an interval; bounds of different kinds, and anything else, are refused with a ValueError.", "quantifier": "all series and keys", "why_tests_cant": "all kinds of keys on all series", "anchors": ["timeseria/datastructures.py::TimeSeries.__getitem__"]}
{"id": "C230", "title": "Slices behave as on lists", "statement": "series[a:b:step] has the items of the same slice of the list of the items.", "quantifier": "all series, bounds and steps", "why_tests_cant": "ranges over all bounds and steps", "anchors": ["timeseria/datastructures.py::TimeSeries.__getitem__", "timeseria/operations.py::Slice"]}
{"id": "C231", "title": "Removing a data index", "statement": "remove_data_index(name), and remove_data_loss(), leave no item with that index and change nothing else; they are not refused if the index is not there.", "quantifier": "all series, index names and ways in which the items share their indexes", "why_tests_cant": "sharing of objects between items", "anchors": ["timeseria/datastructures.py::Series.remove_data_index", "timeseria/datastructures.py::Series.remove_data_loss"]}
{"id": "C232", "title": "Removing a data index changes only this series", "statement": "remove_data_index() on the result of an operation leaves the series it was computed from as it was.", "quantifier": "all series and operations", "why_tests_cant": "sharing of objects between series", "anchors": ["timeseria/datastructures.py::Series.remove_data_index", "timeseria/operations.py::Rescale", "timeseria/operations.py::Filter"]}
{"id": "C233", "title": "What an inspection prints", "statement": "Inspecting a detector fitted with its errors stored prints, for every label of the series, the average, the smallest and the largest absolute value of its errors.", "quantifier": "all fits and labels", "why_tests_cant": "ranges over all series and inner models", "anchors": ["timeseria/models/anomaly_detectors.py::ModelBasedAnomalyDetector.inspect"]}
{"id": "C234", "title": "The range of the error plots", "statement": "The plot of the errors of each label goes from the smallest to the largest error of that label, unless bounds are given.", "quantifier": "all fitted detectors and bounds", "why_tests_cant": "needs several labels", "anchors": ["timeseria/models/anomaly_detectors.py::ModelBasedAnomalyDetector.inspect"]}
{"id": "C235", "title": "Inspecting without stored errors", "statement": "Inspecting a detector whose last fit did not store the errors raises ValueError.", "quantifier": "all fits and histories of fits", "why_tests_cant": "the history of fits matters", "anchors": ["timeseria/models/anomaly_detectors.py::ModelBasedAnomalyDetector.inspect", "timeseria/models/anomaly_detectors.py::ModelBasedAnomalyDetector.fit"]}
{"id": "C236", "title": "The series of the fit", "statement": "Inspecting a detector with its series shows one point for each evaluated item, with actual value, prediction and error of every label under label, label_pred and label_err.", "quantifier": "all fits and label sets", "why_tests_cant": "needs label names that clash", "anchors": ["timeseria/models/anomaly_detectors.py::ModelBasedAnomalyDetector.inspect"]}
{"id": "C237", "title": "Resampling carries the data losses over", "statement": "Resampling a series whose items carry data losses gives every new point a data loss equal to the time-weighted mean of the data losses of the original points over the interval of the new point; in particular, if the original losses are between 0 and 1, so are the new ones.", "quantifier": "all evenly spaced series with data losses and all fixed-length units", "why_tests_cant": "The weights depend on how each interval cuts the regions of validity of the points; a test can compare a few alignments, not all spacings, unit lengths and loss values.", "anchors": ["timeseria/transformations.py::Resampler", "timeseria/utilities.py::_compute_data_loss", "timeseria/datastructures.py::TimeSeries.resample"]}
{"id": "C238", "title": "Cumulative sums from an offset", "statement": "csum(series, offset=o) gives a series which begins one step before the given one with the value o (or o[label]) and continues with o plus the running sums of the values, for a number or per-label dictionary o.", "quantifier": "all series, all numbers and dictionaries of offsets", "why_tests_cant": "Running sums are over every prefix of a series of any length.", "anchors": ["timeseria/operations.py::CSum._call", "timeseria/operations.py::Integral._call"]}
{"id": "C239", "title": "Restoring a series from its differences", "statement": "Taking the differences of a series and then the cumulative sums with the first values of the series as the offset gives back the original times and values.", "quantifier": "all series and all values", "why_tests_cant": "It is an identity between all the values of a series of any length.", "anchors": ["timeseria/operations.py::Diff._call", "timeseria/operations.py::CSum._call", "timeseria/operations.py::Integral._call"]}
{"id": "C240", "title": "Normalizing from a source range", "statement": "normalize(series, range=[a, b], source_range=src) carries the source range of each label linearly to [a, b], whether or not the values reach its ends: the ends go to the ends, the order of the values is kept, values are within [a, b] exactly when they were within the source range, and a label without a source range is a KeyError. In place or not, the result is the same.", "quantifier": "all series, all labels, all target and source ranges", "why_tests_cant": "It is about every value of every series and every pair of ranges.", "anchors": ["timeseria/operations.py::Normalize._call"]}
{"id": "C241", "title": "A failed in-place operation leaves the series as it was", "statement": "When an operation called with inplace=True raises an exception, the series is as it was before the call.", "quantifier": "all in-place operations, all series, all points at which they can fail", "why_tests_cant": "The failure can happen at any item and any label, and the state left depends on it.", "anchors": ["timeseria/operations.py::Normalize._call", "timeseria/operations.py::Derivative._call", "timeseria/operations.py::Integral._call", "timeseria/operations.py::Rescale._call", "timeseria/operations.py::Offset._call"]}
{"id": "C242", "title": "Any expression of operations and transformations on series gives a well-formed series", "statement": "Starting from series whose items were appended, whatever chain or tree of rescale, offset, normalize, mavg, derivative, integral, diff, csum, filter, slice, duplicate, resample, aggregate and merge calls is written, with whatever arguments: if no call raises, the series it gives holds only points or only slots; its points are strictly ordered in time and its resolution is variable exactly if they are not evenly spaced; its slots follow one another without holes, and have the unit and the time zone the series reports.", "quantifier": "every expression of calls, of any depth and with any arguments, over every family of series built by appending", "why_tests_cant": "Tests run single calls on a few series; the claim ranges over every composition of calls of any length and over every argument of each.", "anchors": ["timeseria/datastructures.py::TimeSeries.append", "timeseria/operations.py::Operation.__call__", "timeseria/operations.py::Merge._compute", "timeseria/transformations.py::Transformation.process"]}
{"id": "C243", "title": "A chain of calls whose arguments fit does not raise, and its outcome can be told in advance", "statement": "Call a chain of operations fitting if each call suits the labels, the number of items, the kind of data and the spacing that the calls before it leave: labels named in filter exist, windows and slices are within the number of items, differences are taken of at least two evenly spaced items, and so on. On a well-formed series a fitting chain raises nothing, and the labels of its result (with their postfixes, in order of the calls), the number of its items, whether its data are dictionaries, and the spacing of its items are those computed from the calls alone, without looking at the values.", "quantifier": "every fitting chain of calls, of any length, on every series built by appending with values for the same labels", "why_tests_cant": "The labels and lengths compose through arbitrarily many calls; each new call depends on the outcome of all the previous ones, which tests of single calls do not show.", "anchors": ["timeseria/datastructures.py::Series.diff", "timeseria/datastructures.py::Series.filter", "timeseria/operations.py::Slice._compute", "timeseria/operations.py::Derivative._compute", "timeseria/operations.py::Integral._compute"]}
{"id": "C244", "title": "Scalar statistics follow rescaling and shifting", "statement": "For every label, the sum and the average of a series rescaled by c are c times those of the series; its maximum and minimum are c times those of the series, exchanged if c is negative. The average, maximum and minimum of a series shifted by c are those of the series plus c, and its sum grows by c for each item.", "quantifier": "every series with values for the same labels, every factor and every shift, of any sign", "why_tests_cant": "Holds for all values and lengths and both signs of the factor; a test fixes one series and one factor.", "anchors": ["timeseria/operations.py::Rescale._compute", "timeseria/operations.py::Offset._compute", "timeseria/operations.py::Sum._compute", "timeseria/operations.py::Avg._compute", "timeseria/operations.py::Max._compute", "timeseria/operations.py::Min._compute"]}
{"id": "C245", "title": "Differences, sums, averages, derivatives and integrals are linear", "statement": "Taking the differences, the running sums, the moving averages, the derivative or the integral of a rescaled series gives the same items, labels and values as rescaling what they give for the series; the differences and the derivative of a shifted series are those of the series; the moving averages of a shifted series are the shifted moving averages.", "quantifier": "every series the operation accepts, with any labels and with constant or variable resolution, every factor and shift", "why_tests_cant": "An algebraic law relating two sequences of calls, for all values, lengths, labels and resolutions.", "anchors": ["timeseria/operations.py::Derivative._compute", "timeseria/operations.py::Integral._compute", "timeseria/operations.py::Diff._compute", "timeseria/operations.py::CSum._compute", "timeseria/operations.py::MAvg._compute", "timeseria/operations.py::Rescale._compute", "timeseria/operations.py::Offset._compute"]}
{"id": "C246", "title": "Normalizing forgets scale and offset", "statement": "Normalizing to a range a series which was rescaled by positive factors, or shifted, gives the same as normalizing the series; after rescaling by negative factors every normalized value x becomes a + b - x.", "quantifier": "every series whose labels are not constant, every range and every family of factors or shifts per label", "why_tests_cant": "Relates two sequences of calls for all values and all factors.", "anchors": ["timeseria/operations.py::Normalize._compute", "timeseria/operations.py::Rescale._compute", "timeseria/operations.py::Offset._compute"]}
{"id": "C247", "title": "It does not matter whether labels are filtered before or after an operation", "statement": "Filtering some labels of a series and then rescaling, shifting, normalizing, or taking differences, running sums, moving averages, derivatives or integrals, gives the same as computing with all the labels and then filtering the resulting labels.", "quantifier": "every series of dictionaries, every non-empty choice of its labels, every operation with arguments it accepts", "why_tests_cant": "Ranges over all subsets of labels: the other labels must have no influence, whatever their number, order and values.", "anchors": ["timeseria/operations.py::Filter._compute", "timeseria/operations.py::Integral._compute", "timeseria/operations.py::Derivative._compute", "timeseria/operations.py::Normalize._compute"]}
{"id": "C248", "title": "It does not matter whether a series is sliced before or after rescaling or shifting", "statement": "Slicing a rescaled or shifted series, by positions or by times, gives the same as rescaling or shifting the slice.", "quantifier": "every series and every combination of slice bounds, by position or by time", "why_tests_cant": "Relates two sequences of calls for all bounds, including negative, missing and out of range ones.", "anchors": ["timeseria/operations.py::Slice._compute", "timeseria/operations.py::Rescale._compute", "timeseria/operations.py::Offset._compute"]}
{"id": "C249", "title": "A time series stays in order through any session of calls", "statement": "Start from a new time series and call on it whatever mutating methods one likes, in whatever order, whether each call succeeds or raises: append, remove, pop, clear, operations with inplace=True, renaming and removing labels, removing indexes, changing the time zone. The timestamps of its points are always strictly increasing (as long as insert is not used), its slots always follow one another without holes, and it never mixes points and slots.", "quantifier": "every finite sequence of public mutating calls with any arguments, failing or not, on a series of any time zone", "why_tests_cant": "The state is reached by an arbitrary history of calls; tests exercise only a few short histories.", "anchors": ["timeseria/datastructures.py::TimeSeries.append", "timeseria/datastructures.py::Series.remove", "timeseria/datastructures.py::Series.pop", "timeseria/datastructures.py::Series.rename_data_label", "timeseria/datastructures.py::Series.remove_data_label", "timeseria/datastructures.py::Series.remove_data_index", "timeseria/datastructures.py::TimeSeries.change_tz", "timeseria/operations.py::Operation.__call__"]}
{"id": "C250", "title": "The adherence to a distribution is between 0 and 1", "statement": "The adherence of a value to a distribution function is a number between 0 and 1, which does not grow with the distance of the value from zero.", "quantifier": "every distribution with a cumulative function, every value", "why_tests_cant": "Ranges over all distributions, including those fitted to biased errors.", "anchors": ["timeseria/utilities.py::DistributionFunction.adherence"]}
{"id": "C251", "title": "find_x finds a value of given density on the side asked for", "statement": "find_x(y, side) of a distribution function gives, within the tolerance of the solver, a value on the side of the centre of the distribution which was asked for, whose density is y; if there is none, it raises ValueError.", "quantifier": "every continuous density, centre and scale, every y, both sides", "why_tests_cant": "Ranges over all densities and over every step of the bisection.", "anchors": ["timeseria/utilities.py::DistributionFunction.find_x"]}
{"id": "C252", "title": "derivative(diffs=True) computes the differences", "statement": "Asking the derivative operation for the differences gives what diff() gives: for each item but the first its value minus the one of the item before, under the label with the postfix diff, in the place and with the indexes of the item.", "quantifier": "every series of at least two items, with constant or variable resolution and any labels", "why_tests_cant": "Relates two operations for all values, lengths, labels and resolutions.", "anchors": ["timeseria/operations.py::Derivative._compute", "timeseria/operations.py::Diff._compute"]}
{"id": "C253", "title": "derivative(normalize=False) computes the increments per step", "statement": "Without normalization the derivative of a series is the increment per step, whatever the sampling interval: at the ends the increment of the only adjacent step, inside the mean of the increments of the two adjacent steps; no item is lost and the labels have the postfix diff.", "quantifier": "every series of at least two items, with constant or variable resolution and any labels", "why_tests_cant": "Holds for all values, lengths and labels, at every position.", "anchors": ["timeseria/operations.py::Derivative._compute"]}
{"id": "C254", "title": "integral(normalize=False, c=c) computes running sums from c", "statement": "Without normalization the integral of a series is the sum of the values so far plus the integration constant given for the label, under the label with the postfix csum; without a constant it is csum().", "quantifier": "every series of slots or points the operation accepts, every constant, as a number or per label", "why_tests_cant": "Running sums by induction over an unbounded number of items.", "anchors": ["timeseria/operations.py::Integral._compute", "timeseria/operations.py::CSum._compute"]}
{"id": "C255", "title": "integral(offset=o) starts the integral from o one step before the first item", "statement": "The integral of a series with an offset has one more item than the series, one step before the first one, where its value is the offset plus the integration constant; each of the others is the integral from there.", "quantifier": "every series of points or of slots, every offset and constant, as a number or per label, every resolution", "why_tests_cant": "Ranges over all series, offsets and resolutions; the value is a sum over an unbounded number of items.", "anchors": ["timeseria/operations.py::Integral._compute"]}
{"id": "C256", "title": "A summary lists the items and never more than the limit", "statement": "summary(limit, newlines=True) shows after the header, in square brackets, the items in order, one on each line and separated by commas: all of them if there is no limit or they are not more than the limit, otherwise the first half of the limit, a line of dots and the last half.", "quantifier": "every series of points or slots, every limit", "why_tests_cant": "The layout must be right for every number of items and every limit, including odd ones and those equal to the length.", "anchors": ["timeseria/datastructures.py::Series.summary", "timeseria/datastructures.py::Series.head", "timeseria/datastructures.py::Series.tail"]}
{"id": "C257", "title": "The order of the series given to merge does not matter", "statement": "Merging the same series given in any order gives the same times, the same values for every label and the same data indexes.", "quantifier": "every number of series which can be merged (same resolution, aligned, dictionary data), every permutation of them, points or slots", "why_tests_cant": "Ranges over all permutations of any number of series of any length; the reference series of the loop depends on the order.", "anchors": ["timeseria/operations.py::Merge._compute"]}
{"id": "C258", "title": "Splitting a series by labels and merging the parts gives it back", "statement": "Filter a series of dictionaries by some groups of its labels, which together contain them all and may overlap: merging the results gives a series with the times, the values and the data indexes (which are not None) of the original.", "quantifier": "every series which is not of variable resolution, every number of groups of labels covering those of the series", "why_tests_cant": "Relates three operations for all series and all ways of grouping the labels.", "anchors": ["timeseria/operations.py::Filter._compute", "timeseria/operations.py::Merge._compute"]}
{"id": "C259", "title": "Merging in steps gives the same as merging at once", "statement": "Merging some series first and then their merge with other series gives the same as merging all of them in one call.", "quantifier": "every two groups of series which can be merged, of any number of series", "why_tests_cant": "Relates two sequences of calls for all groups of series and all values.", "anchors": ["timeseria/operations.py::Merge._compute"]}
{"id": "C260", "title": "Resampled values are means of the values filled in between the points", "statement": "Resampling gives each new point, for each label, the mean over its interval (half a unit on either side of it) of the values of the series filled in between its points: each point stands for the time within half a sampling interval of it, or halfway to a neighbour nearer than that, and where no point does the values are those of the straight line through the two points around.", "quantifier": "every series of at least two points, of any spacing, values and labels, every physical unit, every point of the result", "why_tests_cant": "An exact formula for all the values of the result, for all series, gaps and units.", "anchors": ["timeseria/transformations.py::Transformation.process", "timeseria/transformations.py::_compute_new", "timeseria/operations.py::Avg._compute"]}
{"id": "C261", "title": "Resampled values of evenly spaced series are weighted means of its values", "statement": "Resampling an evenly spaced series, to a longer or to a shorter unit, gives each new point the mean of the values of the original points, each counting for the time that its interval has in common with the one of the new point.", "quantifier": "every evenly spaced series, every physical unit, every point of the result", "why_tests_cant": "An exact formula for all the values of the result, for all evenly spaced series and units.", "anchors": ["timeseria/transformations.py::Transformation.process", "timeseria/transformations.py::_compute_new", "timeseria/operations.py::Avg._compute"]}
{"id": "C262", "title": "Resampling preserves the integral", "statement": "The values of a resampled series, each times the unit, sum up to the integral of the original values, filled in between the points, over the time the new points stand for.", "quantifier": "every series of at least two points, of any spacing, values and labels, every physical unit", "why_tests_cant": "A statement about the sum of all the values of the result, for all series and units.", "anchors": ["timeseria/transformations.py::Transformation.process", "timeseria/transformations.py::_compute_new", "timeseria/operations.py::Avg._compute"]}
{"id": "C263", "title": "Resampling a series to its own resolution changes nothing", "statement": "Resampling a series that lies on the boundaries of its own resolution to that resolution gives the same points with the same values.", "quantifier": "every evenly spaced series on the boundaries of its resolution", "why_tests_cant": "Must hold for every length, resolution and values.", "anchors": ["timeseria/transformations.py::Transformation.process", "timeseria/transformations.py::_compute_new"]}
{"id": "C264", "title": "Straight lines are resampled exactly", "statement": "The values of a label that lie on a straight line lie on the same line after resampling, whatever the unit.", "quantifier": "every series with a label on a straight line, every physical unit, every point of the result", "why_tests_cant": "Must hold for all lines, spacings and units.", "anchors": ["timeseria/transformations.py::Transformation.process", "timeseria/transformations.py::_compute_new", "timeseria/operations.py::Avg._compute"]}
{"id": "C265", "title": "The averages of an aggregation are means of the values filled in between the points", "statement": "Aggregating with the average gives each slot, for each label, the mean over the slot of the values of the series filled in between its points as for resampling, whatever the unit.", "quantifier": "every series of at least two points without data losses, of any spacing, values and labels, every unit (also of calendar), every slot of the result", "why_tests_cant": "An exact formula for all the values of the result, for all series, gaps and units.", "anchors": ["timeseria/transformations.py::Transformation.process", "timeseria/transformations.py::_compute_new", "timeseria/operations.py::Avg._compute"]}
{"id": "C266", "title": "Aggregation preserves the integral", "statement": "The averages of the slots of an aggregated series, each times the length of its slot, sum up to the integral of the original values, filled in between the points, over the time of the slots.", "quantifier": "every series of at least two points without data losses, of any spacing, values and labels, every unit (also of calendar)", "why_tests_cant": "A statement about the sum of all the values of the result, for all series and units.", "anchors": ["timeseria/transformations.py::Transformation.process", "timeseria/transformations.py::_compute_new", "timeseria/operations.py::Avg._compute"]}
{"id": "C267", "title": "Views compare as what they show", "statement": "Two views are equal with == exactly when they show the same number of items and equal items at each position, and a view equals a series with the same items.", "quantifier": "all views of all series, and all series", "why_tests_cant": "The only test compares a view to a view of the same items; equality must tell apart every two views that differ", "anchors": ["timeseria/datastructures.py::TimeSeriesView", "timeseria/datastructures.py::Series.__eq__"]}
{"id": "C268", "title": "Membership in a view", "statement": "item in view is True exactly for the items the view shows.", "quantifier": "all views of all series and all items", "why_tests_cant": "A test tries some items; the claim is about every item of every view", "anchors": ["timeseria/datastructures.py::TimeSeriesView", "timeseria/datastructures.py::Series.__contains__"]}
{"id": "C269", "title": "Views of views", "statement": "A view made on a view has as length, items, positions and negative positions those of the corresponding range of the outer view, for any depth, and a view of a view shows what one view of the original series with shifted bounds shows.", "quantifier": "all series, all chains of views of any length, all positions", "why_tests_cant": "Chains of any depth cannot be enumerated", "anchors": ["timeseria/datastructures.py::TimeSeriesView._item_by_i", "timeseria/datastructures.py::TimeSeriesView.__len__", "timeseria/datastructures.py::TimeSeriesView.__iter__"]}
{"id": "C270", "title": "Reading the time zone of a view inside a loop", "statement": "Reading view.tz while iterating over the view does not change the iteration: every item is visited once.", "quantifier": "all views with one or more time zones", "why_tests_cant": "The interference depends on which items have another time zone; tests iterate without reading properties", "anchors": ["timeseria/datastructures.py::TimeSeries.tz", "timeseria/datastructures.py::TimeSeriesView.__iter__", "timeseria/datastructures.py::TimeSeriesView.__next__"]}
{"id": "C271", "title": "Calls never change what a view shows", "statement": "Whatever sequence of append, insert, remove, pop and clear is called on a view, it goes on showing the same items with the same resolution and the same slices, and append always raises.", "quantifier": "all views and all finite sequences of calls with any arguments", "why_tests_cant": "Sequences of calls are unbounded", "anchors": ["timeseria/datastructures.py::TimeSeriesView", "timeseria/datastructures.py::TimeSeries.append", "timeseria/datastructures.py::Series.insert"]}
{"id": "C272", "title": "Insertion in a view", "statement": "insert on a view either raises or makes the view show the item.", "quantifier": "all views, positions and items", "why_tests_cant": "For every item and position; no test inserts in a view", "anchors": ["timeseria/datastructures.py::Series.insert", "timeseria/datastructures.py::TimeSeriesView"]}
{"id": "C273", "title": "get on a view", "statement": "view.get(at_i=k) is view[k], and view.get(at_t=t) is the item shown at that time, a ValueError when there is none.", "quantifier": "all views, positions and times", "why_tests_cant": "For every position and time; tests use brackets only", "anchors": ["timeseria/datastructures.py::TimeSeries.get", "timeseria/operations.py::Get", "timeseria/datastructures.py::TimeSeriesView"]}
{"id": "C274", "title": "Time slices of a view stay in the view", "statement": "Slicing a view by time, with brackets or slice(), gives the items shown by the view in the interval, with either bound optional.", "quantifier": "all views of series of points and all bounds", "why_tests_cant": "The bounds of the view and those of the slice range freely", "anchors": ["timeseria/datastructures.py::TimeSeries.__getitem__", "timeseria/operations.py::Slice", "timeseria/datastructures.py::TimeSeriesView"]}
{"id": "C275", "title": "Renaming and removing labels through a view", "statement": "Renaming or removing a data label through a view acts on the items shown or raises a meaningful error, without depending on the items.", "quantifier": "all non-empty views", "why_tests_cant": "For every view; no test tries it", "anchors": ["timeseria/datastructures.py::Series.rename_data_label", "timeseria/datastructures.py::Series.remove_data_label", "timeseria/datastructures.py::TimeSeriesView"]}
{"id": "C276", "title": "The resolution of a view", "statement": "The resolution of a view is that of a series with the same items.", "quantifier": "all views of all series", "why_tests_cant": "Depends on the items in and out of the view", "anchors": ["timeseria/datastructures.py::TimeSeriesView.resolution", "timeseria/datastructures.py::TimeSeries.resolution"]}
{"id": "C277", "title": "view() with one bound", "statement": "series.view() with a bound omitted shows the items from the start or to the end.", "quantifier": "all series and bounds", "why_tests_cant": "For every bound; tests always give both", "anchors": ["timeseria/datastructures.py::TimeSeries.view", "timeseria/datastructures.py::TimeSeriesView.__init__"]}
{"id": "C278", "title": "Scalar operations on views", "statement": "max, min, sum and avg of a view are those of a series with the same items, and on a view without items raise as on an empty series.", "quantifier": "all views of all series of dictionaries", "why_tests_cant": "For every range of every series", "anchors": ["timeseria/operations.py::Max", "timeseria/operations.py::Min", "timeseria/operations.py::Sum", "timeseria/operations.py::Avg", "timeseria/datastructures.py::TimeSeriesView"]}
{"id": "C279", "title": "The maximum and minimum of an aggregated slot", "statement": "Aggregating a series without data losses with max() or min() gives each slot the largest or smallest of the values of the points in it; a slot with no points near gets the value of the line through its neighbours.", "quantifier": "every series of points with dictionary data and no losses, every slot unit, every list of built-in operations, every slot and label", "why_tests_cant": "it quantifies over all series, spacings, gaps and calendars; the answer depends on how gaps inside and around a slot are filled", "anchors": ["timeseria/transformations.py::_compute_new", "timeseria/operations.py::Max", "timeseria/operations.py::Min"]}
{"id": "C280", "title": "The sum of an aggregated slot", "statement": "Aggregating with sum() gives each slot the sum of the values of the points in it (and not of values that nobody measured).", "quantifier": "every series of points with dictionary data and no losses, every slot unit, every slot and label", "why_tests_cant": "gaps inside a slot add interpolated points to what is summed; it depends on all the distances between points", "anchors": ["timeseria/transformations.py::_compute_new", "timeseria/operations.py::Sum"]}
{"id": "C281", "title": "Aggregating with several operations at once", "statement": "Aggregating with several operations gives, slot by slot and label by label, what each operation gives on its own, with the same slots and data indexes.", "quantifier": "every series, every slot unit, every list of operations, every operation in it", "why_tests_cant": "result labels are built from data labels and operation names: whether two of them clash depends on both", "anchors": ["timeseria/transformations.py::_compute_new", "timeseria/transformations.py::Aggregator"]}
{"id": "C282", "title": "Sums are conserved by aggregation", "statement": "For an evenly spaced series and slots not shorter than its spacing, the sums of all the slots add up to the sum of the values of the points in the time of the slots: no point is counted twice or lost between slots.", "quantifier": "every evenly spaced series without losses, every unit (also calendar ones) whose slots are never shorter than the spacing", "why_tests_cant": "which slot each point falls in depends on all times; the total is over all of them", "anchors": ["timeseria/transformations.py::_compute_new", "timeseria/operations.py::Sum"]}
{"id": "C283", "title": "Date and time in columns of their own", "statement": "A CSV file whose date and time are in separate columns gives, for each line, a row whose time is read from the text of the date, a tab and the text of the time with the two formats, and the values of the other columns under their labels; malformed lines are dropped if errors are skipped and raise otherwise.", "quantifier": "every file with a header, every pair of columns by number or label, every pair of formats, every limit, every parser of times", "why_tests_cant": "the positions of the columns are found while reading and kept for the following lines; what a line gives depends on all the lines before it", "anchors": ["timeseria/storages.py::CSVFileStorage.get"]}
{"id": "C284", "title": "The storage refuses conflicting or incomplete time columns", "statement": "Creating a storage with a timestamp column together with columns of the time or of the date, with one of the latter without its format, or without any column for the time, raises ValueError; what is accepted reads the time in exactly one way.", "quantifier": "all combinations of the arguments of the constructor", "why_tests_cant": "the conditions are on combinations of six arguments, with values that are falsy but not None", "anchors": ["timeseria/storages.py::CSVFileStorage.__init__"]}
{"id": "C285", "title": "Reading does not depend on earlier readings", "statement": "What get returns does not depend on the calls of get made before on the same storage.", "quantifier": "every file, every storage, every sequence of two calls with any arguments", "why_tests_cant": "the storage object remembers the column and the format of the timestamps and the type of the data found by a call; it must hold for every history of calls", "anchors": ["timeseria/storages.py::CSVFileStorage.get"]}
{"id": "C286", "title": "A value is under the label of its column", "statement": "Each value read from a CSV file with a header is under the label that the header has in the position of its column.", "quantifier": "every file with a header, every choice of columns by name, every line", "why_tests_cant": "labels and positions are collected separately over all the fields of the header", "anchors": ["timeseria/storages.py::CSVFileStorage.get"]}
{"id": "C287", "title": "A file without a header loses no row", "statement": "A CSV file without a header gives a row for each of its well-formed lines, the first one included.", "quantifier": "every file without a header, every timestamp format, every first line", "why_tests_cant": "whether the first line is taken for a header depends on the contents of all its fields", "anchors": ["timeseria/storages.py::CSVFileStorage.get"]}
{"id": "C288", "title": "Points and slots are not merged", "statement": "merge() applied to series of which some hold points and some hold slots raises an exception, whatever their order and their starts.", "quantifier": "every list of series of the same resolution, of points and of slots, in every order", "why_tests_cant": "Whether the mixture is noticed depends on which series comes first and which one starts latest.", "anchors": ["timeseria/operations.py::Merge"]}
{"id": "C289", "title": "Merging series that do not overlap or do not match", "statement": "Merging series of the same resolution gives an empty series when one of them ends before another starts; when their ranges overlap but one of them has no item at the time where the latest one starts, the merge is refused with a KeyError.", "quantifier": "every list of non-empty series of the same resolution with dictionary data", "why_tests_cant": "Ranges over all the relative positions of the times of arbitrarily many series.", "anchors": ["timeseria/operations.py::Merge"]}
{"id": "C290", "title": "The merge method takes several series", "statement": "series.merge(...) merges the series with one or more other series, as documented.", "quantifier": "every series, every other series or list of them", "why_tests_cant": "The list is refused only inside of the operation; ranges over all lists.", "anchors": ["timeseria/datastructures.py::Series.merge", "timeseria/operations.py::Merge"]}
{"id": "C291", "title": "Merging a series with itself", "statement": "Merging a series alone or with itself any number of times gives a series with the same times, values and data indexes (those that are set).", "quantifier": "every mergeable series and number of repetitions", "why_tests_cant": "Ranges over all the series and numbers of repetitions.", "anchors": ["timeseria/operations.py::Merge"]}
{"id": "C292", "title": "Aggregating with functions of the user", "statement": "Aggregating with functions defined by the user gives, for each slot, each data label and each function, the value of that function on the values of the slot, under the label of the data followed by the name of the function.", "quantifier": "every series of points, every slot unit, every list of functions", "why_tests_cant": "every function, any number of labels and any alignment of points and slots", "anchors": ["timeseria/transformations.py::_compute_new", "timeseria/transformations.py::SeriesTransformation.process", "timeseria/datastructures.py::TimeSeries.aggregate"]}
{"id": "C293", "title": "Operations on a view", "statement": "An operation on a view of a series gives the same result, errors included, as on a series holding copies of the items shown by the view.", "quantifier": "every view of every series, every operation and its arguments", "why_tests_cant": "Ranges over all views, series and arguments.", "anchors": ["timeseria/datastructures.py::TimeSeriesView", "timeseria/datastructures.py::Series", "timeseria/operations.py::Diff"]}
{"id": "C294", "title": "Order of a base series", "statement": "After any sequence of append, insert, remove, pop and clear, accepted or refused, on a series of items of any class, each item succeeds or is greater than the one before it.", "quantifier": "every class of items and every history of calls", "why_tests_cant": "Ranges over all item classes and unbounded histories.", "anchors": ["timeseria/datastructures.py::Series.append", "timeseria/datastructures.py::Series.insert", "timeseria/datastructures.py::Series.remove", "timeseria/datastructures.py::Series.pop"]}
{"id": "C295", "title": "Items of one class", "statement": "After any sequence of calls all the items of a series are of the same class.", "quantifier": "every class of items and every history of calls", "why_tests_cant": "Ranges over all item classes and unbounded histories.", "anchors": ["timeseria/datastructures.py::Series.append", "timeseria/datastructures.py::Series.insert", "timeseria/datastructures.py::Series.item_type"]}
{"id": "C296", "title": "Square-bracket slices of a base series", "statement": "series[a:b:c] gives a series with the items that a list would give with the same slice.", "quantifier": "every series of items of any class, every start, stop and step", "why_tests_cant": "Ranges over all item classes, lengths and slices.", "anchors": ["timeseria/datastructures.py::Series.__getitem__"]}
{"id": "C297", "title": "Operations on series which are not in time", "statement": "Rescaling, offsetting and the other numerical operations work also on series of data points and data slots which are not in time, keeping the items and changing the values.", "quantifier": "every series of data points or data slots in one dimension with key-value data", "why_tests_cant": "Ranges over all series and arguments.", "anchors": ["timeseria/operations.py::Rescale", "timeseria/operations.py::Offset", "timeseria/operations.py::Diff", "timeseria/datastructures.py::Series.rescale"]}
{"id": "C298", "title": "Resolution of regularly sampled points, in floating point", "statement": "Points at regular times, each the double nearest to it, give a time series of constant resolution, whose time unit has the length of the sampling interval.", "quantifier": "every regular sampling interval, start and number of points, with the differences of times rounded to double precision", "why_tests_cant": "Whether two rounded differences are equal depends on the times; ranges over all of them.", "anchors": ["timeseria/datastructures.py::TimeSeries.append", "timeseria/datastructures.py::TimeSeries.resolution"]}
{"id": "C299", "title": "Normalized values, in floating point", "statement": "Normalizing gives values inside the range asked for, the least value becoming its beginning and the greatest one its end, in the same order, also with the results rounded to double precision.", "quantifier": "every list of values not all equal, every range, every rounding to nearest", "why_tests_cant": "Ranges over all values, ranges and roundings.", "anchors": ["timeseria/operations.py::Normalize"]}
{"id": "C300", "title": "Sums and averages, in floating point", "statement": "The average of values is between the least and the greatest of them, and the error of a sum is bounded, also with the results rounded to double precision.", "quantifier": "every list of values of any length", "why_tests_cant": "Rounding errors accumulate over unbounded lists.", "anchors": ["timeseria/operations.py::Avg", "timeseria/operations.py::Sum", "timeseria/operations.py::MAvg"]}
{"id": "C301", "title": "Coverage and data loss, in floating point", "statement": "The coverage of an interval and its data loss are between 0 and 1 also with the results rounded to double precision.", "quantifier": "every interval and every list of validity regions", "why_tests_cant": "Rounding errors accumulate over unbounded lists of points.", "anchors": ["timeseria/utilities.py::_compute_coverage", "timeseria/utilities.py::_compute_data_loss", "timeseria/utilities.py::_compute_validity_regions"]}
{"id": "C302", "title": "The anomaly index, in floating point", "statement": "The linear and logarithmic anomaly indexes between the bounds, and the average over the labels, are between 0 and 1, 0 and 1 at the bounds, and monotone, also with the results rounded to double precision.", "quantifier": "every pair of bounds, every density between them, every list of indexes of up to 2^53 labels, every rounding to nearest", "why_tests_cant": "Ranges over all densities and roundings.", "anchors": ["timeseria/models/anomaly_detectors.py::ModelBasedAnomalyDetector.apply"]}
{"id": "C303", "title": "Interpolated values, in floating point", "statement": "A value interpolated linearly is between those of the two points, also with the results rounded to double precision.", "quantifier": "every pair of points and every time between them", "why_tests_cant": "Ranges over all times, values and roundings.", "anchors": ["timeseria/interpolators.py::LinearInterpolator.evaluate"]}
{"id": "C304", "title": "Differences and cumulative sums, in floating point", "statement": "The cumulative sums of the differences, starting from the first value, give the values back, also with the results rounded to double precision.", "quantifier": "every list of values", "why_tests_cant": "Rounding errors accumulate over unbounded lists.", "anchors": ["timeseria/operations.py::Diff", "timeseria/operations.py::CSum"]}
{"id": "C305", "title": "Rescaling between ranges, in floating point", "statement": "A value inside the source range is rescaled to a value inside the target range, in the same order, also with the results rounded to double precision.", "quantifier": "every value, source and target range, every rounding to nearest", "why_tests_cant": "Ranges over all values, ranges and roundings.", "anchors": ["timeseria/utilities.py::rescale"]}
{"id": "C306", "title": "Error metrics, in floating point", "statement": "The maximum absolute error and the mean absolute percentage error are not negative, are zero on equal lists, and the first one only on equal lists, also with the results rounded to double precision.", "quantifier": "every pair of lists of the same length (without zeros for the percentage), every rounding to nearest that keeps distinct values distinct", "why_tests_cant": "A difference could be rounded to zero; ranges over all values.", "anchors": ["timeseria/utilities.py::max_absolute_error", "timeseria/utilities.py::mean_absolute_percentage_error"]}
{"id": "C307", "title": "Position in the period, in floating point", "statement": "For whole times and a whole resolution, up to 2^53, the position in the period is the exact one, although the quotient is rounded to double precision.", "quantifier": "every whole time from the epoch on, every whole resolution and period", "why_tests_cant": "A quotient could be rounded up to the next whole number; ranges over all times.", "anchors": ["timeseria/utilities.py::_get_periodicity_index"]}
{"id": "C308", "title": "Data of one kind, for any type of data", "statement": "All the items of a series carry data of the same type and with the same number of values, or the same labels, whatever the type of the data (lists, tuples, dictionaries, arrays, numbers).", "quantifier": "every sequence of items with data of any type", "why_tests_cant": "The items can be appended in any number and order; the types tried by a test are a few.", "anchors": ["timeseria/datastructures.py::Series.append"]}
{"id": "C309", "title": "Numbers as data", "statement": "To a series of items which carry a number any other number can be appended later in time.", "quantifier": "every number, type of number and sequence of items", "why_tests_cant": "ranges over all numbers and series", "anchors": ["timeseria/datastructures.py::Series.append", "timeseria/datastructures.py::Series.data_labels"]}
{"id": "C310", "title": "Tuples as data", "statement": "Every operation gives on items which carry tuples what it gives on items with lists of the same values.", "quantifier": "every operation and series of tuples", "why_tests_cant": "a statement about all the series and operations", "anchors": ["timeseria/datastructures.py::DataPoint._data_by_label", "timeseria/operations.py::Rescale", "timeseria/operations.py::Offset", "timeseria/operations.py::Sum", "timeseria/operations.py::Max", "timeseria/operations.py::Min", "timeseria/operations.py::Avg"]}
{"id": "C311", "title": "Numpy arrays as data", "statement": "A series of items which carry arrays can be built and operated on as one with lists.", "quantifier": "every series of arrays", "why_tests_cant": "ranges over all arrays", "anchors": ["timeseria/datastructures.py::Series.append", "timeseria/datastructures.py::Series.data_labels", "timeseria/datastructures.py::DataPoint._data_by_label"]}
{"id": "C312", "title": "What an operation can be called on", "statement": "An operation works on a series or on a list of series, and refuses anything else and empty series, with an error.", "quantifier": "every operation and argument", "why_tests_cant": "ranges over all arguments", "anchors": ["timeseria/operations.py::Operation.__call__", "timeseria/utilities.py::_check_series_of_points_or_slots"]}
{"id": "C313", "title": "Moving a slice to another time zone", "statement": "Changing the time zone of a slice, a view by index or a copy of a series leaves the series it was taken from as it was, and a series reports the zone of its items.", "quantifier": "every series, slice and sequence of calls", "why_tests_cant": "Series share their items; the effect depends on the history of calls on all of them.", "anchors": ["timeseria/datastructures.py::TimeSeries.change_tz", "timeseria/datastructures.py::TimeSeries.tz", "timeseria/datastructures.py::TimeSeries.as_tz", "timeseria/operations.py::Slice"]}
{"id": "C314", "title": "Arguments of the model of an anomaly detector", "statement": "The arguments given when creating an anomaly detector are those with which its predictive models are created, also after the detector has been saved and loaded.", "quantifier": "every detector class and arguments", "why_tests_cant": "ranges over all arguments and classes", "anchors": ["timeseria/models/anomaly_detectors.py::ModelBasedAnomalyDetector.__init__", "timeseria/models/anomaly_detectors.py::ModelBasedAnomalyDetector.fit", "timeseria/models/base.py::Model.load"]}
{"id": "C315", "title": "Detection with context for every forecaster", "statement": "An anomaly detector based on any forecaster can be fitted with context on a series with more than one label, with a model for each label.", "quantifier": "every detector class, series and arguments", "why_tests_cant": "ranges over all models and arguments", "anchors": ["timeseria/models/anomaly_detectors.py::ModelBasedAnomalyDetector.fit", "timeseria/models/forecasters.py::PeriodicAverageForecaster.fit", "timeseria/models/forecasters.py::LSTMForecaster.fit"]}
{"id": "C316", "title": "The file of a CSV storage after any history of puts, gets and crashes", "statement": "After any history of put and get calls on a CSV storage, including puts interrupted in the middle, the file holds either what it held at the start or the beginning of what one single put was writing; calls without overwrite never change an existing file; after a put with overwrite completes, and until the next one, get gives back that series. It should also hold that an interrupted put cannot make get return other values or lose the series stored before: this fails.", "quantifier": "all histories of calls (complete, refused or interrupted after any number of characters), all series, all initial files", "why_tests_cant": "crash points times histories times contents; a test can interrupt a put at a few positions of a few files only", "anchors": ["timeseria/storages.py::CSVFileStorage.put", "timeseria/storages.py::CSVFileStorage.get"]}
{"id": "C317", "title": "A file cut short is not taken for a complete one", "statement": "get on a file whose writing was interrupted raises, or tells that items are missing. Fails: a file cut after the line of any item is read without error as the series of the items written so far.", "quantifier": "all storable series, all numbers of items written before the interruption, all earlier histories of the file", "why_tests_cant": "every crash point of every file", "anchors": ["timeseria/storages.py::CSVFileStorage.put", "timeseria/storages.py::CSVFileStorage.get"]}
{"id": "C318", "title": "Largest and smallest values in the presence of NaN", "statement": "max() and min() of a series, and the maximum absolute error, consider the values that are numbers wherever the NaN are. Holds when the first value is not NaN; when the first value is NaN the result is NaN whatever follows, and a NaN prediction counts as no error in the maximum absolute error unless it is the first.", "quantifier": "all lists of numbers, infinities and NaN", "why_tests_cant": "positions of NaN among values of any number", "anchors": ["timeseria/operations.py::Max._call", "timeseria/operations.py::Min._call", "timeseria/utilities.py::max_absolute_error"]}
{"id": "C319", "title": "A NaN affects only the results computed from it", "statement": "The result of an operation at a position is NaN exactly when one of the values it is computed from is: the two values of a difference, the window of a moving average, the value itself for rescale and offset, all the values for sum and average; the others are as if there were no NaN. Fails for the cumulative sum, where every result from the first NaN on is NaN.", "quantifier": "all columns of numbers and NaN, all positions, all windows, all factors and offsets", "why_tests_cant": "position and number of the NaN and length of the series are unbounded", "anchors": ["timeseria/operations.py::Derivative._call", "timeseria/operations.py::Integral._call", "timeseria/operations.py::MAvg._call", "timeseria/operations.py::Rescale._call", "timeseria/operations.py::Offset._call", "timeseria/operations.py::Sum._call", "timeseria/operations.py::Avg._call"]}
{"id": "C320", "title": "Normalizing a series with NaN", "statement": "normalize() puts the numbers between 0 and 1 according to the smallest and largest of the numbers, and leaves NaN where it was. Holds when the first value is a number and there are no infinities; when the first value is NaN every value is lost, without error.", "quantifier": "all columns of numbers and NaN with at least two different numbers", "why_tests_cant": "positions of the NaN are unbounded", "anchors": ["timeseria/operations.py::Normalize._call"]}
{"id": "C321", "title": "Timestamps that are not numbers", "statement": "Whatever timestamps are appended, NaN and infinities included, accepted or refused, the timestamps of a series are strictly increasing, and none is NaN as soon as there are two items. It should also hold that a NaN or infinite timestamp is refused and that the refusal leaves no trace: a first NaN is accepted, an infinity is accepted after two points, a refused NaN makes the next good point refused or the resolution variable.", "quantifier": "all histories of appends of points at any timestamps", "why_tests_cant": "histories of any length with NaN at any place", "anchors": ["timeseria/datastructures.py::TimeSeries.append", "timeseria/datastructures.py::Series.append"]}
{"id": "C322", "title": "A stored series with NaN can be read back", "statement": "A series some values of which are NaN, stored in a CSV file, can be read back. Fails: put succeeds and get raises, whatever its arguments; with skip_errors what comes back is exactly the items without any NaN.", "quantifier": "all storable series, all non-empty sets of values that are NaN", "why_tests_cant": "every subset of the values of every series", "anchors": ["timeseria/storages.py::CSVFileStorage.put", "timeseria/storages.py::CSVFileStorage.get", "timeseria/utilities.py::_sanitize_string"]}
{"id": "C323", "title": "Where a saved plot goes", "statement": "plot(save_to=f) writes the plot in f and changes no other file; without save_to and image nothing is written; options which exclude each other, an empty series and data that cannot be plotted raise before anything is written.", "quantifier": "every combination of the html, image and save_to options, number of items, page content or failure in making it, and every prior state of the files and permissions", "why_tests_cant": "the outcome depends on the state of the file system and on the combination of options, not on one call", "anchors": ["timeseria/plots.py::dygraphs_plot"]}
{"id": "C324", "title": "A plot that cannot be saved leaves the existing file as it was", "statement": "If plot(..., save_to=f) raises, the file f has the content it had before the call.", "quantifier": "every options, file system state, permissions and outcome of the browser", "why_tests_cant": "needs failing browsers and file systems at each point of the call", "anchors": ["timeseria/plots.py::dygraphs_plot"]}
{"id": "C325", "title": "Names in the script of a plot", "statement": "In the script of a plot each data label and data index is named by a text which Javascript reads back as that very name.", "quantifier": "every name, as a sequence of any characters, followed by any text", "why_tests_cant": "unit tests plot a few well behaved labels", "anchors": ["timeseria/plots.py::dygraphs_plot"]}
{"id": "C326", "title": "Colours of the labels of a plot", "statement": "A plot has one colour for each of its labels, all different; a colour asked for is used when there is one label.", "quantifier": "every number of labels and every colour argument", "why_tests_cant": "tests plot a handful of labels", "anchors": ["timeseria/plots.py::dygraphs_plot", "timeseria/plots.py::_tab10reord_colormap_rgb", "timeseria/plots.py::_extra_colormap_rgb"]}
{"id": "C327", "title": "The anomaly index computed by a function of the user", "statement": "apply(index_type=f) calls f exactly for the errors strictly between the bounds of the index, with the error, its density, the bounds and their densities, and the anomaly index of every item is between 0 and 1. Fails: what f and a strategy function return is not constrained, so indexes above 1 are possible.", "quantifier": "every function, threshold, strategy, and list of errors of an item", "why_tests_cant": "quantifies over all user functions and all errors", "anchors": ["timeseria/models/anomaly_detectors.py::ModelBasedAnomalyDetector.apply"]}
{"id": "C328", "title": "Unknown index types and strategies are refused", "statement": "apply raises for an index type or a multivariate strategy which is not known. Fails: an unknown index type is only noticed when an error is strictly between its bounds (exactly then, proved), and an unknown strategy only with more than one label.", "quantifier": "every series of errors of any number of labels, every threshold", "why_tests_cant": "the refusal depends on the data and not on the argument alone", "anchors": ["timeseria/models/anomaly_detectors.py::ModelBasedAnomalyDetector.apply"]}
{"id": "C329", "title": "In-place and returning variants of mark_events agree", "statement": "mark_events(series, inplace=True) ends as mark_events(series) does, with the same exception if any, and when it succeeds the items of the series have the indexes of those of the new series, which has the times and the data of the old one.", "quantifier": "every series, threshold, minimum persistence, non-negative maximum gap, replacement of the index or not", "why_tests_cant": "the marks are written while the anomaly indexes are read, over series of any length", "anchors": ["timeseria/models/anomaly_detectors.py::AnomalyDetector.mark_events"]}
{"id": "C330", "title": "A failed in-place mark_events leaves the series as it was", "statement": "If mark_events(series, inplace=True) raises, the series is as before the call. Fails: the marks written so far stay (nothing else is changed, and nothing after the item that made it fail).", "quantifier": "every series, arguments and position of the failure", "why_tests_cant": "needs a failure at every possible position of every series", "anchors": ["timeseria/models/anomaly_detectors.py::AnomalyDetector.mark_events"]}
{"id": "C331", "title": "A detection shares nothing with the series examined", "statement": "Changing the items of the result of apply of an anomaly detector, for instance marking events in place, does not change the series examined. Fails for the items which are too lossy and those that follow them, which are appended as they are.", "quantifier": "every detector, series of objects, and sequence of changes to the items of the result", "why_tests_cant": "aliasing is only visible after later changes, of any kind and number", "anchors": ["timeseria/models/anomaly_detectors.py::ModelBasedAnomalyDetector.apply"]}
{"id": "C332", "title": "No history of calls that give new series changes the series there are", "statement": "Whatever a program has done before, calling rescale, offset, normalize, derivative, moving averages, filter, slices, detections, merges and duplicates, any number of times and in any order, on any of its series, whether the calls succeed or raise, leaves every series there was with the items, values and data indexes it had; so does appending items to other series (its own items included) or popping items from them.", "quantifier": "every history of creations, operations and changes, every later sequence of calls giving new series, every series of the program", "why_tests_cant": "needs all interleavings of calls on series whose items share objects", "anchors": ["timeseria/operations.py::Operation", "timeseria/datastructures.py::TimeSeries", "timeseria/models/anomaly_detectors.py::ModelBasedAnomalyDetector.apply"]}
{"id": "C333", "title": "A change to a series is seen only in the series that share its items", "statement": "After any history of calls, renaming or removing labels of a series, or changing values of its items, changes no series but those linked to it by slices, detections and items appended or inserted from one into the other; changing data indexes of its items changes no series but those linked to it by these, by rescale, offset, normalize, derivative or filter.", "quantifier": "every history of calls on any number of series, every later change", "why_tests_cant": "aliasing depends on the whole history of the program", "anchors": ["timeseria/datastructures.py::Series.rename_data_label", "timeseria/datastructures.py::Series.remove_data_label", "timeseria/operations.py::Filter", "timeseria/operations.py::Slice", "timeseria/operations.py::Derivative"]}
{"id": "C334", "title": "A storage gives data of the type asked for", "statement": "A CSV storage created for a given type of data (number, list or dictionary) gives items whose data are of that type, whatever the file, the columns asked for and what was read before; otherwise it raises an error, and in particular it does not make up labels for a file without them.", "quantifier": "all files, columns asked for, separators, limits and histories of the storage object", "why_tests_cant": "The type is decided line by line and cached, and depends on the header, on the columns asked for and on earlier readings.", "anchors": ["timeseria/storages.py::CSVFileStorage.get"]}
{"id": "C335", "title": "In floating point the derivative has the sign of the changes", "statement": "With the rounding of floating point numbers, the derivative of a series of two points or more exists at every point, is never negative if the values never decrease, never positive if they never increase, and exactly zero if they are all equal, for constant and variable resolutions.", "quantifier": "all series of floating point values at increasing times, of any length, every rounding that keeps distinct numbers distinct (double precision among them)", "why_tests_cant": "Rounding can change signs in ways that appear only for particular values.", "anchors": ["timeseria/operations.py::Derivative._call"]}
{"id": "C336", "title": "In floating point a weighted average is between the values", "statement": "With the rounding of floating point numbers, the weighted average of values, with weights that are not negative and not all zero, is between the least and the greatest of them.", "quantifier": "all lists of floating point values and weights", "why_tests_cant": "The error depends on the values, on the weights and on their order, and accumulates with the length.", "anchors": ["timeseria/operations.py::Avg._call"]}
{"id": "C337", "title": "In floating point the uniform interpolation is between the two values", "statement": "In double precision, the value of the uniform interpolator lies between the values of the two neighbours, both included, whatever their order and magnitude, also for numbers near the least positive one.", "quantifier": "all pairs of double precision numbers", "why_tests_cant": "The claim could fail only for particular pairs of the 2^128 ones, such as subnormal numbers.", "anchors": ["timeseria/interpolators.py::UniformInterpolator.evaluate"]}
{"id": "C338", "title": "In floating point the running sums of non-negative values never decrease", "statement": "With the rounding of floating point numbers, the cumulative sums of values that are not negative never decrease, and those of values that are not positive never increase.", "quantifier": "all lists of floating point values, of any length, every rounding to nearest", "why_tests_cant": "Rounding errors accumulate with the length of the series.", "anchors": ["timeseria/operations.py::Integral._call", "timeseria/operations.py::CSum._call"]}
{"id": "C339", "title": "In floating point rescaling and offsets keep the order of the values", "statement": "With the rounding of floating point numbers, rescaling by a positive number and adding an offset keep the order of the values, and keep different values different.", "quantifier": "all lists of floating point values and all factors and offsets", "why_tests_cant": "Absorption depends on the magnitudes of the values and of the offset.", "anchors": ["timeseria/operations.py::Rescale._call", "timeseria/operations.py::Offset._call"]}
{"id": "C340", "title": "No row of a file read as slots is lost", "statement": "When a CSV file is read as slots, the series has, in the order of the file, one slot for every row that was read, with its time, its values, the unit and the time zone; all other slots are marked with a data loss of one. If a row cannot be placed, an error is raised; with data that are not dictionaries nothing is made up and a gap is an error.", "quantifier": "all files, types of data, calendars, units, gaps and options", "why_tests_cant": "The rows after a gap are placed by a different branch, and gaps can be anywhere and of any length.", "anchors": ["timeseria/storages.py::CSVFileStorage.get"]}
{"id": "C341", "title": "The time zone asked for when reading a file does not change the instants", "statement": "Reading a CSV file of points in a time zone given with force_tz returns the same as reading it in any other one (same error, or same instants, values, indexes and resolution, and same state of the storage), except for the zone of the items, whenever the times in the file are numbers of seconds or have an offset. Times without an offset are taken in the zone asked for. The zone asked for in a call is not remembered for the next ones, and without one the zone of the storage is used.", "quantifier": "every file, every configuration of the storage, every two zones, every codec of texts", "why_tests_cant": "Tests try three zones on two files; the claim is on all files and pairs of zones, including the files on which reading fails.", "anchors": ["timeseria/storages.py::CSVFileStorage.get"]}
{"id": "C342", "title": "A duplicate has the items of the series and lives apart from it", "statement": "After any history of calls, series.duplicate() gives a series with the same items, values and data indexes (or raises exactly when duplicating its values does). Nothing done later without naming the duplicate changes it, be it renaming, removing or changing labels, values or data indexes of the series it comes from or of any series made from that, appending or popping items; and nothing done to the duplicate or to series made from it changes the series it comes from, nor any other series there was.", "quantifier": "every history before the duplication, every history after it that does not use the duplicate (or uses only it and what is made from it)", "why_tests_cant": "aliasing between the copy and the rest of the program can come from any operation at any later time", "anchors": ["timeseria/datastructures.py::Series.duplicate", "timeseria/datastructures.py::TimeSeries.append"]}
{"id": "C343", "title": "Calls naming only later series change nothing in the earlier ones", "statement": "After any history of calls, whatever is done naming only series made from then on, creations, operations, merges, duplicates, changes of labels, values and data indexes, appends and pops in any order and number, every series there was reads as before.", "quantifier": "every history, every later history on new series", "why_tests_cant": "needs all programs; a shared module-level or default object would break it only for some", "anchors": ["timeseria/datastructures.py::Series", "timeseria/operations.py::Operation"]}
{"id": "C344", "title": "Reading by label leaves no trace on a storage", "statement": "After any history of calls of get on a CSV storage, whether they raised or not and whatever their arguments, none of which selects columns by number, a call of get returns or raises exactly what it would have as the first call; a call which selects columns by number always does.", "quantifier": "all files, storages, histories of calls of any length (with labels which are missing, unreadable lines, limits) and following calls", "why_tests_cant": "what a call which raised half-way has already written on the storage can be seen by any later call; a test tries one history", "anchors": ["timeseria/storages.py: CSVFileStorage.get (292, 397, 403, 452)"]}
{"id": "C345", "title": "The time axis of a plot shows the local time of the items", "statement": "The position of an item on the time axis of a plot is the time its clock shows: read back as a date and a time, it gives the year, month, day, hour, minute, second and millisecond the item has in its time zone. False before the year 100, where dates are drawn in the twentieth century.", "quantifier": "every date and time a datetime may hold, in every time zone", "why_tests_cant": "a date goes through two calendars, Python's and Javascript's; tests use a few dates of recent years", "anchors": ["timeseria/plots.py: _to_dg_time, _to_dg_data"]}
{"id": "C346", "title": "A plot draws the items in their order", "statement": "Later items of a series are drawn later on the time axis of a plot, and different items at different positions. False where the clock is set back: items an hour apart are drawn at the same position or in the opposite order; it holds as long as the clock is not set back between the two.", "quantifier": "every two items, in every time zone", "why_tests_cant": "the order is lost only in the hour after daylight saving ends", "anchors": ["timeseria/plots.py: _to_dg_time, _to_dg_data"]}
{"id": "C347", "title": "The time axis of a plot keeps the distances", "statement": "Where the offset from UTC does not change, the time axis of a plot without aggregation is the series of the timestamps of the items shifted by the offset: one position for each item, in order, the distances in time as they are.", "quantifier": "every series with items at whole milliseconds, in every time zone with a constant offset", "why_tests_cant": "holds for every number of items and every date", "anchors": ["timeseria/plots.py: _to_dg_time, _to_dg_data"]}
{"id": "C348", "title": "A series warns when its first item has data which are not numbers", "statement": "When the first item is added to a series, the check of its data never raises, and a warning is written exactly when the data are neither a sequence nor a dictionary, or some of their values are not numbers.", "quantifier": "every kind of data: sequences, text, dictionaries with any keys, sets, single values", "why_tests_cant": "the check reads the data by position and by key; dictionaries with numbers as keys may be read both ways", "anchors": ["timeseria/datastructures.py: Series.append", "timeseria/utilities.py: _is_index_based, _is_key_based, _has_numerical_values"]}
{"id": "C349", "title": "A series holding data which are not numbers has warned about it", "statement": "A series some item of which has data which are not numbers has written a warning. False: only the first item is checked; later items with text or None in the place of numbers are accepted silently. What holds: whatever is appended afterwards, accepted or refused, the warning, at most one, is about the first item.", "quantifier": "every sequence of items appended to a new series, some of them refused", "why_tests_cant": "depends on the whole history of appends", "anchors": ["timeseria/datastructures.py: Series.append"]}
{"id": "C350", "title": "Adding and removing items in any history", "statement": "Whatever a program has done before with any number of series sharing items, append and pop do to a series what they do to a lone series with the same content.", "quantifier": "every history of calls, every series of it, every item and position", "why_tests_cant": "items and data are shared between series; a test looks at a few histories", "anchors": ["timeseria/datastructures.py: Series.append, Series.pop"]}
{"id": "C351", "title": "Transforming a series of lists is transforming the same numbers in dictionaries", "statement": "Resampling a series whose data are lists gives the same points as resampling the same numbers as dictionaries under the positions ('0', '1', ...), and so does aggregating.", "quantifier": "All series of points with lists of the same length, all units, starts and ends, all data losses and indexes", "why_tests_cant": "Tests transform a few series of dictionaries; which series of lists can be transformed depends on where the gaps are.", "anchors": ["timeseria/transformations.py:_compute_new", "timeseria/transformations.py:_TimeSeriesDenseView.__next__", "timeseria/interpolators.py:LinearInterpolator.evaluate", "timeseria/operations.py:Avg", "timeseria/datastructures.py:DataPoint._data_by_label"]}
{"id": "C352", "title": "Resampling with the uniform interpolator", "statement": "Resampling with the uniform interpolator gives points at the same times, with the same data losses and other indexes, as with the linear one, with values within the bounds of the values around; and all the points resampled within a gap have the same value, the mean of the two values around the gap.", "quantifier": "All series of points in order, all physical units, sampling intervals, gaps and labels", "why_tests_cant": "Tests resample with the linear interpolator; how often and with which positions the interpolator is called depends on where the units fall with respect to the gaps.", "anchors": ["timeseria/transformations.py:Resampler.__init__", "timeseria/transformations.py:_TimeSeriesDenseView.__next__", "timeseria/interpolators.py:UniformInterpolator.evaluate", "timeseria/transformations.py:_compute_new"]}
{"id": "C353", "title": "Aggregating with the uniform interpolator", "statement": "Aggregating with the uniform interpolator gives the same slots, with the same data losses and other indexes and the same labels as with the linear one, and does the same to the input series. When no slot is partly covered without having points, the averages are within the range of the values of the points involved, and in a slot entirely in a gap they are the mean of the values at the two ends of the gap.", "quantifier": "All series of points in order, all units, operations, sampling intervals and gaps", "why_tests_cant": "Tests aggregate with the linear interpolator; in which slots values are interpolated, and from which points, depends on the series.", "anchors": ["timeseria/transformations.py:Aggregator.__init__", "timeseria/transformations.py:_compute_new", "timeseria/interpolators.py:UniformInterpolator.evaluate"]}
{"id": "C354", "title": "An item changed anywhere changes the program at its time only", "statement": "In any history of calls on several series (creation, operations, slices, detections, duplicates, appends of new items and of items of other series, insertions, pops, renames and changes of items), two items sharing their data or their data indexes, of one series or of two, are at the same time.  So changing the data or the data indexes of an item changes no item at another time in any series; in a series of points where nothing was inserted it changes that item of the series alone; and renaming or removing a label acts on each point of the series exactly once.", "quantifier": "Every history of calls, of any length, on any number of series; every item changed and every change; for the changes within one series, series of points where nothing was inserted (or of items at different times).", "why_tests_cant": "The sharing depends on the whole history: a few operations in a test cannot show that no sequence of them makes two items of a series share an object.", "anchors": ["timeseria/datastructures.py: Series.append, Series.pop, Series.rename_data_label, Series.remove_data_label, TimeSeries.append", "timeseria/operations.py: Derivative, Rescale, Offset, Normalize, Filter, Slice, MAvg", "timeseria/models/anomaly_detectors.py: AnomalyDetector.apply"]}
{"id": "C355", "title": "The slots of a series are not repeated, skipped or overlapping", "statement": "In a series of slots each slot starts after the one before, none is there twice and none is missing between two others.  True, after any history of appends, inserts, pops and removals, when the slots are longer than one part in 10^9 of their timestamps (1.7 seconds today); false for slots of one second, of which the same one can be appended twice and one can be left out.", "quantifier": "Every history of calls on a series of slots; every length of the slots and every position in time.", "why_tests_cant": "The tolerance is relative to the seconds since 1970, and tests use slots of minutes, hours and days, or timestamps close to zero.", "anchors": ["timeseria/datastructures.py: TimeSlot.__succedes__, Series.append, Series.insert", "timeseria/utilities.py: _is_close"]}
{"id": "C356", "title": "An item of a series can be inserted again into it, and is then one item twice", "statement": "series_k.insert(pos, series_j[i]) does on the series what inserting an equal item does on a lone series, and changes no other series.  In the middle of a series of points only the item before the position is compared, so series.insert(1, series[1]) is accepted: the same object is then in the series twice.  A change to the data of one is a change to the other, the points are not later and later any more, and renaming a label the points have raises KeyError at the second meeting, with the points after left with the old label.", "quantifier": "every history of calls on any number of series, every item inserted and position", "why_tests_cant": "the sharing and the order depend on the history of the program; a test fixes one", "anchors": ["timeseria/datastructures.py: Series.insert, Series.rename_data_label"]}
{"id": "C357", "title": "Moving averages keep order and size in floating point", "statement": "In floating point: if every value of a label of a series is at most that of another series at the same place, so is every moving average; non-negative values have non-negative averages; a window of one gives the values themselves; there is one average for each item where the window is full. In double precision each average is within a relative error, growing with the window only, of the exact one; for whole numbers of moderate size it is between the least and the greatest of its window. False for other values: the moving average over three items of a series which is 0.1 everywhere is above 0.1.", "quantifier": "every series of values, every window, every rounding which is monotone; double precision for the bounds", "why_tests_cant": "the rounding error depends on the values; a test tries a few, most of them whole numbers", "anchors": ["timeseria/operations.py: MAvg"]}
{"id": "C358", "title": "What printing a series says", "statement": "Printing a series of points at a constant spacing of n seconds says how many they are, n seconds as the resolution, and the time and time zone of the first and of the last one; one point has an undefined resolution, slots are described with their resolution, an empty series as empty. A variable resolution is given with the unit of a most common spacing. Printing changes neither the items nor the resolutions, and printing again says the same. False for a series which was printed before it grew (the old spacing is still printed), and for spacings which cannot be read as a unit: such a series cannot be printed.", "quantifier": "every series of points or slots, whatever was asked of it before", "why_tests_cant": "what is printed depends on the spacings and on when the series was first printed; tests print a few literal series", "anchors": ["timeseria/datastructures.py: TimeSeries.__repr__, TimeSeries._resolution_string, TimeSeries._autodetected_sampling_interval"]}
{"id": "C359", "title": "The integral is the area under the series", "statement": "The integral of a series never decreases when no value is negative, depends on every value before, and for constant values grows by the value times the interval. True for constant values. False otherwise: with one label and a constant resolution the integral grows every two steps by two intervals times the value in the middle, so at every other item it depends on every other value only; over one step it can decrease although every value is positive or zero (values 1, 0, 0 have integrals 0, 1, 0), and two series which differ at every other value have the same integral at every other item.", "quantifier": "every series of one label and constant resolution, every constant of integration", "why_tests_cant": "the alternation shows only for values which vary from an item to the next in a way tests, which integrate derivatives, do not have", "anchors": ["timeseria/operations.py: Integral"]}
{"id": "C360", "title": "Integrals in floating point", "statement": "In floating point the integral of a constant series is the running sum of the value times the interval, and never decreases when the value is not negative. In double precision, for whole numbers up to 2^51 every second, integrating the derivative from the first value gives back the values exactly. False for other values: 0.1, 0.2, 0.7, 0.3 come back different, and 10^17, 1, 0, 1 come back as 10^17, 0, 0, 0. Without rounding the computation is the exact one of the other properties.", "quantifier": "every series of one label and constant resolution, every constant of integration; double precision for the whole numbers", "why_tests_cant": "each component is computed from the one before, so the rounding errors depend on all the values; a test tries a few", "anchors": ["timeseria/operations.py: Integral, Derivative"]}
