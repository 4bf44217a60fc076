# DESIGN

Formal model of sarusso/Timeseria (`/repo/timeseria`, Python) in Lean 4, and proofs of the properties listed in `properties.jsonl`.

## 1. Approach

The Python code is re-written, function by function, as total Lean functions: exceptions are values of `Except PyErr`, mutable objects are state-passing structures (an operation that fails still returns the state it leaves behind, where the property is about it), `for` loops are folds or structural recursion, `while` loops take fuel (and a theorem shows how much suffices, or that none does). Every definition in `lean/Verif/Model/` carries a comment citing the file and lines it models and the simplifications made.

Properties are stated in `lean/Verif/Props/` as theorems named after the property (`C01_...`). Where a specification is more than a line it is in `lean/Verif/Spec*.lean`, written on plain lists and independent of the model. Lemmas are in `lean/Verif/Lemmas/` or next to the theorems. Beside the theorems there are `example`s or `C.._witness` theorems on concrete inputs that meet the hypotheses.

Properties that are false of the code are settled by a theorem `..._false` (a concrete run, or a negation for all inputs of a class) together with a `..._partial` theorem for the largest part found to hold; they have status `partial` in `MANIFEST.json`, whose note says what fails and what holds. When only a corner of a property is false, the corner is stated as a property of its own, so that the rest can be proved in full.

## 2. Trusted base

* **Lean's kernel** (4.33.0). Everything is checked by the kernel; concrete witnesses use `decide +kernel`, which makes the kernel evaluate the decision procedure (no `native_decide`, no `bv_decide`, no compiled code).
* **Axioms.** None is added. `#print axioms` on all the theorems of the manifest gives subsets of `propext`, `Classical.choice`, `Quot.sound`, the three axioms of Lean and Mathlib.
* **Mathlib** for rational arithmetic, lists and tactics; its theorems are checked by the same kernel.
* **The model.** That the Lean definitions say what the Python code does is not proved, it is checked by reading: each definition cites its lines. The idealisations of section 4 are part of the trusted base.
* **The specifications**: the statements of the theorems and `Spec*.lean`.

## 3. What is modelled

| module in `lean/Verif/Model` | code | contents |
|---|---|---|
| `Basic`, `Item` | datastructures.py 26-597 | points, slots, data, data indexes, equality, succession, constructors |
| `TimeUnitString` | datastructures.py 1390-1433, units.py | from a spacing to a time unit, character by character |
| `Series` | datastructures.py 605-1310, 1358-1433 | append, insert, remove, pop, clear, duplicate, resolution, time zone, data indexes, as a state machine |
| `Access` | datastructures.py 865-883, 1324-1345, 1797-1915; operations.py (slice, get, head, tail) | indexing, slicing, views and their iterators |
| `Ops` | operations.py | min, max, sum, avg, diff, csum, derivative, integral, normalize, rescale, offset, mavg, filter, select |
| `Inplace` | operations.py | the in-place variants |
| `Merge` | operations.py 1002-1148 | merge |
| `Heap` | operations.py, datastructures.py 885-935 | object identity: what the results share with the inputs; label management |
| `Validity`, `Utilities` | utilities.py | validity regions, coverage, data loss, sampling interval, periodicity index, error metrics, rescaling |
| `Interp` | interpolators.py | linear and uniform interpolators |
| `Transform` | transformations.py | dense view, resampler and aggregator |
| `Text`, `Storage` | utilities.py 916-952, storages.py | text values, CSV reading and writing |
| `Conversions` | datastructures.py 1525-1745 | dictionaries, JSON, data frames |
| `Models` | models/base.py | fit/predict/apply/evaluate guards, save/load, cross validation |
| `Windows` | models/base.py 562-680, forecasters.py 780-1044 | training windows, features, normalisation of the LSTM forecaster |
| `Reconstruct`, `Periodic`, `Forecast` | reconstructors.py, forecasters.py | generic reconstructor and forecaster, linear and periodic average models |
| `Events`, `Anomaly` | anomaly_detectors.py | anomalous events, anomaly index, apply, preprocess |
| `DetectorFit` | anomaly_detectors.py 136-435 | fit, stored errors, save and load of the detector |
| `SaveLoad` | datastructures.py 1479-1517, storages.py | saving a series to a file and loading it back |
| `ListMethods` | datastructures.py 606, 780-857, 1377-1387 | index, copy, `+`, `in`, `==`, item assignment, del, `+=`, `*=` as inherited from list; as_tz |
| `Create` | datastructures.py 26-597, units.py 156-184 | constructors of points and slots, argument handling, shared index dictionaries and points, labels |
| `TransformFront` | transformations.py 385-515, 701-760, datastructures.py 1042-1052 | `series.resample` and `series.aggregate` from series to series, argument checks, zones of the bounds |
| `Evaluate` | forecasters.py 195-433, utilities.py 268-290 | `Forecaster.evaluate`: metrics, results, results series; logarithm and square root arbitrary functions, plots left out |
| `Periodicity` | utilities.py 142-218 | `detect_periodicity`: half spectrum, peaks, selection; the transform and `find_peaks` are parameters (the exact discrete Fourier transform over the reals, and a contract for the peaks, in C220) |
| `CvArgs` | models/base.py 338-353 | the splitting of the keyword arguments of `cross_validate`, `str.replace` on characters |
| `Guess` | datastructures.py 1394-1471 | `guess_resolution` with the caches of the sampling interval and of the guess |
| `GetItem` | datastructures.py 1325-1352 | the square brackets of a series: kinds of keys and bounds |
| `RemoveIndex` | datastructures.py 912-924 | removal of a data index on shared index objects |
| `Inspect` | anomaly_detectors.py 429-482 | what `inspect` prints, the ranges of its plots and its series |
| `CsumOffset` | operations.py 396-432, 514-527 | cumulative sums and integrals which start from an offset |
| `SourceRange` | operations.py 530-613 | normalizing from a source range; the items left by an in-place operation, also when it raises |
| `Pipeline` | datastructures.py 932-1052 | chains and trees of calls: each method called on what the previous one returned; in-place operations excluded (they return None) |
| `Session` | datastructures.py 642-924, 1222-1381, operations.py 35-62 | histories of public mutating calls on one series, each succeeding or raising; the data reference after an in-place call is an arbitrary parameter of the call |
| `Distribution` | utilities.py 392-449 | adherence and find_x over the real numbers; the bisection of SciPy is modelled step by step with its tolerances and maximum number of steps, rounding is not |
| `Options` | operations.py 213-511 | `derivative` and `integral` with the options normalize, diffs, c and offset, on top of `Ops` and `CsumOffset` |
| `Summary` | datastructures.py 1059-1119 | summary with newlines=True; the text of the header (str of the series) and of each item are parameters |
| `ViewObj` | datastructures.py 1797-1915 with the methods inherited from 642-831, 1312-1381, 1758-1770 | views as objects: a window on a series plus the inherited list and attributes of its own; iteration state shared by nested loops; views of views |
| `SlotOps` | operations.py 73-124, 191-207 as called by transformations.py 275-307 | `max`, `min` and `sum` in an aggregation: on the points of the slot only, per label |
| `CsvTime` | storages.py 88-161, 281-421 | date and time in columns of their own, custom formats of the time (`strptime fmt text` is an arbitrary partial function), the constructor |
| `MergeKinds` | operations.py 1002-1148, datastructures.py 1013-1016 | merging with the classes of the items (points with slots), the `merge` method |
| `UserOps` | transformations.py 275-307 | aggregation functions of the user: results as a value or a dictionary, named after the function |
| `ViewOps` | datastructures.py 1797-1905, 932-1035 | operations on a view: it is a series with the items of the window and the attributes of the series shown |
| `BaseSeries` | datastructures.py 604-880 | the base class `Series` for items of an arbitrary class (instance test, succession, comparison, equality, data), square-bracket slices |
| `PlainOps` | operations.py 616-742, datastructures.py 177-219, 476-521 | operations on series of data points and slots which are not in time, one coordinate, key-value data |
| `Floats` | operations.py 127-207, 285, 556-587, 783-785, utilities.py 221-324, 592-715, 866-886, interpolators.py 66-73, datastructures.py 1248-1266, anomaly_detectors.py 715-724 | the same computations with each result rounded, in the order of the code; `fl64` is the rounding of double precision (53 bits, gradual underflow, ties to even), proved monotone, odd and idempotent in `Lemmas/Binary64`; overflows, infinities and NaN are not modelled |
| `AnyData` | datastructures.py 262-278, 642-699, 885-894, operations.py 35-62, 73-207, 616-742, utilities.py 855-864 | items with tuples, numpy arrays and numbers of any type as data, besides lists and dictionaries; which arguments an operation is called on; text as data is not modelled |
| `SharedZones` | datastructures.py 1358-1387, operations.py 964-990 | points as objects shared between series and their slices; zones as names |
| `DetectorArgs` | models/anomaly_detectors.py 171-188, 254-313, 789-812, models/base.py 95-96 | Python's binding of arguments to parameters; what is done with them is in `DetectorFit` |
| `StorageSession` | storages.py 220, 738-786 | the file under histories of puts, gets and puts interrupted after any number of characters; what reaches the disk is a prefix of what was written |
| `Nans` | operations.py 73-207, 277-285, 428-464, 530-803, utilities.py 255-267, datastructures.py 669-681, 1222-1275 | the loops of the operations on the values of a label, and the checks of append on timestamps, over numbers, NaN and infinities; no rounding |
| `NanStore` | storages.py 748-786 | the file written for a series some values of which are NaN |
| `PlotOutput` | plots.py 72-97, 404-411, 834, 861, 871-891, 940-1091 | which options of a plot are refused, which files it writes and removes, names of labels and indexes in its script, colours; the page is a parameter |
| `IndexArgs` | models/anomaly_detectors.py 518-519, 712-735, 757-768 | index types and multivariate strategies given as functions or unknown texts, on the errors of the labels |
| `Query` | operations.py 1153-1187 | the query text of select |
| `Statistical` | models/base.py 454-484, forecasters.py 603-792, reconstructors.py 481-541 | what Prophet and ARIMA are asked and how their answers are used; the engines are arbitrary functions |
| `Units` | units.py 15-153 | arithmetic of generic units, arguments of time units |
| `Plots` | plots.py | plot data, aggregation, titles, ranges, marks |
| `EventsLive` | models/anomaly_detectors.py 51-128, 628-772 | `mark_events` in place step by step, with what is left by an exception; detection on objects at addresses (deep copies and shared items) |
| `World` | operations.py 213-352, 530-1148; datastructures.py 642-699, 738-778, 795-835, 896-924; models/anomaly_detectors.py 518-774 | programs with any number of series whose items are objects: creations, operations, merges, duplicates, detections, items appended, inserted and popped, changes of labels, values and indexes |
| `FloatOps` | operations.py 150-173, 262-307, 616-742; interpolators.py 121-122 | derivatives, weighted averages, uniform interpolation, rescaling and offsets with each result rounded |
| `ForceTz` | storages.py 211-216, 420-424 | `force_tz` of `CSVFileStorage.get`: the zone of the call, the codec of dates per zone |
| `StorageFail` | storages.py 187-188, 281-311, 397-403, 436-452 | the attributes of the storage after a call of `get`, however it ends, and after a history of calls |
| `PlotTime` | plots.py 128-135, 276, 344 | the arguments of the Javascript dates of the time axis, and their value in ECMAScript; the conversion of epochs into local dates is external |
| `DataChecks` | datastructures.py 642-692, 1222-1249; utilities.py 1033-1074 | warnings about non-numerical data of any kind, points only |
| `ListTransform` | transformations.py 61-129, 164-371, 385-694 for list data; interpolators.py 36-77; operations.py 127-188 | resampling and aggregation with the average of series of lists: no point can be interpolated |
| `UniformTransform` | transformations.py 61-129, 164-368, 701-719; interpolators.py 90-124 | resampling with the uniform interpolator, called with positions in the series |
| `UniformAggregate` | transformations.py 180-368, 726-760 | aggregation with the uniform interpolator |
| `World` (`HSeries.insert`) | datastructures.py 738-778 | insertion of an existing item object into a series |
| `FloatWindows` | operations.py 748-803 | moving average of a label, with rounding |
| `Describe` | datastructures.py 1190-1199, 1461-1471 | what printing a series says, its parts as values |
| `FloatIntegral` | operations.py 446-475 | integral of a label at constant resolution, with rounding |

## 4. Idealisations

* Numbers are exact rationals (`ℚ`), except in module `Floats`, where each result is rounded (C298-C307: which of the claims survive rounding to double precision); NaN and infinities are in `Nans` and `NanStore` (C318-C322), overflow is not modelled. Square roots are avoided (standard deviation as variance, RMSE as MSE under the root).
* Dictionaries are insertion-ordered association lists; strings are Lean strings or lists of characters; exceptions keep the class and lose the message; logging is left out.
* Item data are numbers, lists of numbers or dictionaries of numbers (tuples and numpy arrays in `AnyData` only; other Python objects are left out); in transformations and interpolators, dictionaries, and lists in `ListTransform`.
* Time zones are compared by name; calendar arithmetic (the external `propertime`) enters as arbitrary functions with the laws needed (`Calendar`, `Grid`, DST offset functions), or through physical units; datetimes are an instant and a zone name, their text an abstract codec with the round trip law.
* Series operations that produce a series do so by appending to a new one, as in the code; aliasing is studied in `Heap`, `Session` and `SharedZones`. Elsewhere data are values.
* The per-item and per-label nesting of some loops is interchanged when the loops do not interact (said at the definition); this may change only which exception comes first.
* External code is an arbitrary function or parameter: `sklearn` metrics, the Keras network, fitted `scipy` densities, periodicity detection (Fourier), predictors of concrete models in the generic forecaster, reconstructor and detector theorems.
* Float text formatting (`'{}'.format(x)`, CSV numbers, JSON numbers) is an abstract codec with the round trip law. A file is a list of lines, the file system a map.
* Saving and loading series: the metadata line is the concrete text written by `put`; JSON written by anybody else is not modelled; unit names are assumed quotable.
* Prophet and ARIMA: the engines are arbitrary functions; Prophet answers row by row; a wall clock is the seconds plus the zone's offset; `NonContiguityError` is the constructor `exception`; the fit series kept by reference is modelled by histories of calls.
* Creating items: `float(text)` succeeding is an arbitrary predicate; datetimes are aware; `int(text)` is ASCII without underscores; points with text coordinates are not followed into slots.

## 5. What is not modelled

* Dygraphs Javascript/HTML generation, images, matplotlib; logging; `__repr__` and `__str__`.
* `propertime` internals.
* The internals of Prophet, statsmodels, pmdarima and Keras, fitting of error distributions, Fourier periodicity detection.
* CSV: encodings, negative numbers of the timestamp column; the texts of `strptime` formats are not interpreted.
* Detector: plots; `include_extremes` of the windows (the code raises NotImplementedError).
* Concurrency: the code has none.

## 6. Plan per property

Every property can be expressed in the model. "Negation" or "witness" in the last column means that the property as stated is false of the code: a theorem `..._false` proves it, and a `..._partial` theorem proves the part that holds (its comment says what is missing).

| id | property | model part | how | status |
|---|---|---|---|---|
| C01 | Appending keeps a point time series strictly ordered in time | Series | Invariant by induction over a list of operations (accepted and rejected) of the series state machine. | proved |
| C02 | insert() enforces the order | Series | Branch model of Series.insert; expected false (neighbour checks are skipped in the middle): negation with a witness plus a partial theorem for the ends. | partial |
| C03 | A rejected append does not change the contents | Series | Case analysis of append: items, reference and zone are assigned only when nothing raises. | proved |
| C04 | The reported resolution is the spacing of the points | Series | Induction over the appended list, spec = list of spacings. | proved |
| C05 | The resolution depends only on the contents | Series | Expected false: negation with a pop history; partial theorem for append-only histories. | partial |
| C06 | Slot series are gap-free and in succession | Series | Invariant by induction over append histories; insert/pop analysed branch by branch. | proved |
| C07 | All slots of a series have the same unit and the same time zone | Series | Invariant for append histories; negation for insert. | partial |
| C08 | All items carry the same kind of data | Series | Invariant for append histories with non-falsy reference; negation for falsy references and insert. | partial |
| C09 | All items are of the same class | Series | Invariant by induction over all operations. | proved |
| C10 | Integer indexing behaves as on a list | Access | Model of TimeSeries.__getitem__ (negative shift then list getitem); positions below -len are C196. | proved |
| C11 | Index slicing behaves as on a list | Access | Model of Slice.__call__ against the list drop/take spec. | proved |
| C12 | Time slicing selects exactly the interval | Access | Same function, time branch, against List.filter on a sorted list. | proved |
| C13 | Access by timestamp | Access | Model of Get/_item_by_t. | proved |
| C14 | A view reads like the slice it stands for | View | Model of TimeSeriesView read methods. | proved |
| C15 | A view does not give access to items outside of it | View | Negation with witness; the exact characterisation of what is returned. | partial |
| C16 | Iterations over the same view are independent | View | Iterator state machine with shared counter; negation; partial theorem for one iteration. | partial |
| C17 | Duplicating a series gives an equal series | Series | duplicate = state copy and re-append; theorem for append-reachable series. | proved |
| C18 | Item equality | Item | Model of __eq__ of points; reflexive/symmetric, when equal; transitivity is C198. | proved |
| C19 | The time zone of a point series | Series | Model of the tz getter. | proved |
| C20 | Spacing to time unit string | TimeUnitString | Character-level model of the code; negation, partial theorem for whole numbers of seconds. | partial |
| C21 | min, max and sum operations | Ops | Fold models; induction. | proved |
| C22 | avg operation | Ops | Fold models over the rationals; convexity. | proved |
| C23 | Differences and cumulative sums are inverse | Ops | Fold/loop models; telescoping induction. | proved |
| C24 | Derivative and integral are inverse | Ops | Loop models of derivative and integral. | proved |
| C25 | Labels are processed independently | Ops | Induction on the items for the cumulative sums; the integral is C199. | proved |
| C26 | The derivative is exact on straight lines | Ops | Loop model; theorem for uniform series, negation at the ends for variable spacing. | partial |
| C27 | normalize maps to the target range | Ops | Map model; rational arithmetic. | proved |
| C28 | rescale and offset | Ops | Map model. | proved |
| C29 | Moving average | Ops | Loop model. | proved |
| C30 | Filtering by label | Ops | Map model. | proved |
| C31 | Merging series | Ops | Model of the merge loop. | proved |
| C32 | Selecting by value | Ops | Filter model. | proved |
| C33 | In-place and returning variants of rescale, offset and normalize agree | Inplace | State model of in-place loops; negation for derivative/integral, theorem for rescale/offset/normalize. | proved |
| C34 | Operations do not modify their input | Heap | Heap model with references; negation (data_indexes dictionaries are shared), partial theorem on data. | proved |
| C35 | Validity regions do not overlap | Validity | Model of _compute_validity_regions; induction. | proved |
| C36 | Coverage is a fraction | Validity | Model of _compute_coverage; induction on ordered disjoint regions. | proved |
| C37 | Data loss is the missing fraction | Validity | Model of _compute_data_loss; negation with witness, partial theorem. | proved |
| C38 | The detected sampling interval is the most common spacing | Sampling | Loop model with fuel; non-termination proved as: no fuel suffices; uniform series theorem. | proved |
| C39 | Periodicity index | Periodicity | Model over rationals/integers of the physical-unit branch. | proved |
| C40 | Error metrics | Metrics | List folds. | proved |
| C41 | Rescaling between ranges | Metrics | Rational arithmetic. | proved |
| C42 | Linear interpolation | Interp | Rational arithmetic. | proved |
| C43 | The linear interpolator finds the neighbours | Interp | Neighbour search loop; negation before the first point. | proved |
| C44 | The dense view fills every gap | Dense | Generator model as a list function. | proved |
| C45 | Aggregation produces contiguous slots on the unit grid | Transform | Loop of _Transformation.process as a state machine with physical unit u>0. | proved |
| C46 | Resampling produces a regular grid | Transform | Same loop, resampling branch. | proved |
| C47 | The end of a transformation is respected | Transform | Negation with a gap spanning the end; partial theorem without gaps. | partial |
| C48 | Resampled averages are convex | Transform | Weighted averages over the dense view. | proved |
| C49 | Data loss of new items | Transform | Composition with C36. | proved |
| C50 | CSV round trip | Storage | Line/cell level model of put and get; round trip by induction. | proved |
| C51 | An existing file is never overwritten unless asked | Storage | File-system map model. | proved |
| C52 | A failed put does not destroy the stored data | Storage | Effect trace of put with a crash/failure at any step; negation, partial. | partial |
| C53 | Malformed lines | Storage | Line loop as a fold. | proved |
| C54 | Limit and sort on loading | Storage | Line loop as a fold, sort spec = sorted permutation. | proved |
| C55 | Missing slots are filled with full data loss | Storage | Gap filling loop. | proved |
| C56 | Dictionary round trip | Dict | to_dict/from_dict models. | proved |
| C57 | A model must be fitted before use | ModelState | State machine over call histories. | proved |
| C58 | A failed fit does not corrupt a fitted model | ModelState | Negation (resolution/labels set before the fit body), partial. | partial |
| C59 | Saving a model does not touch what is saved | ModelState | Case analysis of save on the disk; loading is C201. | proved |
| C60 | Cross validation never validates on training data | CrossVal | Index arithmetic. | proved |
| C61 | Training windows | Windows | Model of the window generator. | proved |
| C62 | Reconstruction touches only the lossy items | Reconstruct | Model of apply/_reconstruct. | proved |
| C63 | Linear interpolation reconstruction | Reconstruct | Model of the linear interpolation reconstructor predict. | proved |
| C64 | Periodic average models | Periodic | Model of the fit folds and of the predict functions. | proved |
| C65 | Forecasts extend the series | Forecast | Model of Forecaster.apply. | proved |
| C66 | Anomalous events | Events | Loop model of mark_events. | proved |
| C67 | The anomaly index is between 0 and 1 | Anomaly | Model of the index computation. | proved |
| C68 | Anomaly detection returns every item it is defined for | Anomaly | Loop model with break; negation, partial. | proved |
| C69 | Unit arithmetic | Units | Model of Unit operators. | proved |
| C70 | Plot aggregation | Plot | Chunking loop. | proved |
| C71 | Label management | Heap | Heap model of label reference aliasing. | proved |
| C72 | All data indexes are listed once | Series | Fold over items with sorted insertion. | proved |
| C73 | Text values are read as numbers or refused | Text | Character list functions. | proved |
| C74 | Slots are well formed | Item | Slot constructor branches. | proved |
| C75 | A slot is as long as its unit and ends after it starts | Item | Constructor branches; witness for the negation, arithmetic for the rest. | partial |
| C76 | Slots of a series are strictly increasing in time | Series | Counterexample from the relative tolerance of the succession test; invariant over histories for long slots. | partial |
| C77 | head and tail | Access | Corollary of C11 for head and tail; witness for tail(0). | proved |
| C78 | Changes to the indexes of a result, or to a slice, do not alter the input | Heap | Heap with addresses; witness of sharing; freshness of the addresses of the moving average. | partial |
| C79 | In-place and returning variants of derivative, integral, diff and csum agree | Inplace, InplaceMore, CsumLists | Loop models of the in-place variants: invariant of the item loop (csum), impossibility by the labels (derivative), simulation of two runs (integral of lists); witnesses. | partial |
| C80 | Label management after removing the first item | Heap | History with pop then rename; witness. | partial |
| C81 | All items are instances of the class of the first | Series | Invariant over append histories; witness with insert. | partial |
| C82 | Data loss is a fraction also with previous losses | Validity | Fold over the regions; witnesses above 1; bound for spaced points. | partial |
| C83 | Sampling interval detection terminates | Utilities | Fuel model: no fuel suffices (false); sufficient condition for termination. | partial |
| C84 | The detected sampling interval depends on the contents only | Utilities | Series with a cache field; witness of two histories. | partial |
| C85 | Periodicity index before the epoch | Utilities | Truncated integer division; witness; aligned timestamps. | partial |
| C86 | Interpolation before the first point is refused | Interp | Python negative index; general negation. | partial |
| C87 | Uniform interpolation | Interp | Rational arithmetic. | proved |
| C88 | The uniform interpolator finds the neighbours | Interp | General negation: every later timestamp is refused. | partial |
| C89 | Data indexes of the new items | Transform | Induction over the jobs of the loop; convexity of the weighted index averages. | proved |
| C90 | Explicit start of a transformation is respected | Transform | Three witnesses; induction for slots with a start close to the first point. | partial |
| C91 | Transformations leave the input values unchanged | Transform | Frame invariant over the loop with the mutable source; witness. | partial |
| C92 | Averages do not depend on earlier transformations | Transform | State of the weights left by the loop; witness. | partial |
| C93 | Filling of missing slots | Transform | Case analysis of the compute step; witness with zero. | partial |
| C94 | Series with data losses can be transformed | Transform | Witness of the consistency exception; success theorem. | partial |
| C95 | Aggregated averages are convex | Transform | Convexity by induction; witness when the upsampling branch is taken. | partial |
| C96 | Transformed items form a time series | Transform | build_like: appending the produced items never fails. | proved |
| C97 | With skip_errors, lines too short for a timestamp are dropped too | Storage | Line loop; general negation and positive theorem. | partial |
| C98 | The CSV round trip holds for any label, kind of data and separator | Storage | Five witnesses; instance of C50. | partial |
| C99 | Rows keep their data indexes when missing slots are filled | Storage | Witnesses of the gap filling loop; theorem without gaps. | partial |
| C100 | Gaps are filled whatever the length of the slots | Storage | Witness from the relative tolerance; bound on timestamps. | partial |
| C101 | With skip_errors, rows that cannot be appended are dropped | Storage | Witness for slots; theorem for points. | partial |
| C102 | Dictionary and JSON conversions are lossless | Conversions | Witnesses; induction over the items. | partial |
| C103 | Data frame round trip | Conversions | Witnesses; induction over the rows. | partial |
| C104 | Every cross validation round trains and validates on something | Models | Index arithmetic; witnesses. | partial |
| C105 | A cross validation leaves the model unfitted | Models | State machine over the rounds; witness. | partial |
| C106 | Cross validation results | Models | Fold over the rounds; mean and variance. | proved |
| C107 | Models with parameters and without a fit can be used | Models | State machine; witness. | partial |
| C108 | A point series with one item is accepted by a fitted model | Models | Witness; view case. | partial |
| C109 | Items with an unknown data loss do not prevent training | Windows | Witness; theorem without limit. | partial |
| C110 | Window features | Windows | Witness (0 is replaced by 1); characterisation of the features. | partial |
| C111 | Normalisation of the neural network forecaster | Windows | Rational arithmetic; the network is an arbitrary function. | proved |
| C112 | Fitting the neural network forecaster does not depend on earlier fits | Windows | State over two fits; witness. | partial |
| C113 | A failed in-place reconstruction changes nothing | Reconstruct | State left behind by a failing loop; witness; frame theorem. | partial |
| C114 | The percentage error of a reconstruction | Reconstruct | Model of evaluate; witness of the swapped arguments. | partial |
| C115 | Every reconstructor can be evaluated | Reconstruct | General negation for the linear reconstructor; success theorem. | partial |
| C116 | The evaluation of a reconstructor uses all the good areas | Reconstruct | Characterisation of the used areas; witness of the off by one. | partial |
| C117 | The periodic forecast continues a periodic series plus a constant | Periodic | Exact value of the forecast; witness. | partial |
| C118 | The forecast is based on the most recent items | Periodic | Independence by congruence; witness. | partial |
| C119 | A window can be given to the periodic forecaster | Periodic | General negation; theorem for the automatic window. | partial |
| C120 | Each label of the periodic forecaster uses its own periodicity | Periodic | Fold over labels; general negation. | partial |
| C121 | Saved periodic models predict the same after loading | Periodic | JSON key stringification; general negation for the reconstructor. | partial |
| C122 | A failed in-place forecast changes nothing | Forecast | State left behind by a failing loop; witness; frame theorem. | partial |
| C123 | Forecasters of a single step can be applied for several | Forecast | General negation and success theorem. | partial |
| C124 | The evaluation of a forecaster compares every item after the window | Forecast | Fold over the evaluation loop. | proved |
| C125 | The evaluation of a forecaster never looks ahead | Forecast | Read-programs over a view; congruence; witness with window 0. | partial |
| C126 | Forecasters without a fit can be applied | Forecast | General negation and success theorem. | partial |
| C127 | Events at the end of the series | Events | Loop invariant up to the last event; witnesses. | partial |
| C128 | Events of a series with lossy items | Events | Witness; success theorem. | partial |
| C129 | The anomaly index for any bounds | Anomaly | Witness; upper bound theorem. | partial |
| C130 | Reconstructor-based detection returns every item between the windows | Anomaly | Witness of the break; induction without losses. | partial |
| C131 | Errors at the same distance have the same index | Anomaly | Witness; symmetric case. | partial |
| C132 | Details and lossy items | Anomaly | Witness; induction without losses. | partial |
| C133 | Names of the details | Anomaly | Witness of the key typo; theorem for details=True. | partial |
| C134 | Detection on series with zero values | Anomaly | Witness; success theorem. | partial |
| C135 | Index bounds as a tuple | Anomaly | Witness; equality theorem for numbers. | partial |
| C136 | Detectors fitted without storing the errors | Anomaly | General negation; independence theorem. | partial |
| C137 | Pre-processing does not change the detection | Anomaly | Congruence of the loop with the stored predictions. | proved |
| C138 | Pre-processed series after a refit or an append | Anomaly | Witness; congruence. | partial |
| C139 | Dividing zero by a unit | Units | Operator dispatch, reflected division; witness and exact domain. | partial |
| C140 | Units and points | Units | General negation; other cases. | partial |
| C141 | Time unit from the value argument | Units | General negation. | partial |
| C142 | Every item is represented in an aggregated plot | Plots | Loop invariant (rows = complete chunks); general negation. | partial |
| C143 | Indexes in an aggregated plot | Plots | Same invariant on the index sums; witness. | partial |
| C144 | Automatic aggregation | Plots | Digit count bounds. | proved |
| C145 | Asking for aggregation | Plots | Case analysis. | partial |
| C146 | Plots without aggregation are exact | Plots | Induction over the items. | proved |
| C147 | The automatic value range contains the data | Plots | Bounds by minLoop/maxLoop; general negation for negative constants. | partial |
| C148 | Plot column titles | Plots | Split of a join; witness. | partial |
| C149 | Plotting numerical data | Plots | General negation; success theorem. | partial |
| C150 | Marks are placed at their wall-clock time | Plots | Character level split; general negation for negative offsets. | partial |
| C151 | Forced value range | Plots | Rational arithmetic. | partial |
| C152 | Any two items can be compared | Item | Witnesses; case analysis. | partial |
| C153 | Values stored by the fit of an anomaly detector | DetectorFit | Induction on the evaluation loop. | proved |
| C154 | Unsupported metrics and too short series are refused by the fit of a detector | DetectorFit | Consequence of the loop and of the two values needed by stdev. | proved |
| C155 | Detections depend on the last fit only | DetectorFit | Witnesses; equality of the states field by field for the partial. | partial |
| C156 | A failed fit leaves the anomaly detector as it was | DetectorFit | Witness; case analysis. | partial |
| C157 | The worst item of the fit is anomalous | DetectorFit, Anomaly | Witness; fit and apply composed for the partial. | partial |
| C158 | Saved anomaly detectors detect the same after loading | DetectorFit | General negation; save and load composed for the partial. | partial |
| C159 | A failed save of a detector leaves nothing behind | DetectorFit | General negation; case analysis. | partial |
| C160 | Every item with a full window before it is examined | Anomaly | General negation from C68. | partial |
| C161 | An explicit start or end off the boundaries of the unit is refused | Transform, Tightened | Case analysis on the start and the end. | proved |
| C162 | Daily, monthly and yearly files are loaded as slots of that unit | Storage, Tightened | Two witnesses (366 and 29 days); case analysis over all the other intervals. | partial |
| C163 | Saving and loading a time series | SaveLoad | C50 composed with the metadata line. | proved |
| C164 | A series with a single slot can be saved and loaded | SaveLoad | General negation: no interval can be detected on one item. | partial |
| C165 | Loading as a subclass | SaveLoad | General negation: None is returned. | partial |
| C166 | The Prophet forecaster works in the local time of the series | Statistical | Induction over the steps: the asked local times are those of the appended items. | proved |
| C167 | The Prophet reconstructor works in the local time of the series | Statistical | Witness in another zone; UTC series by C62. | partial |
| C168 | ARIMA forecasters continue the series of the fit only | Statistical | Case analysis and C65. | proved |
| C169 | ARIMA forecasts stay tied to the data of the fit | Statistical | Witness with two in-place applications; induction over histories that leave the series alone. | partial |
| C170 | A saved Prophet or ARIMA model can be loaded and used | Statistical | General negation: the loaded object has no engine. | partial |
| C171 | ARIMA forecasters can be evaluated | Statistical | General negation: two predictions at different ends. | partial |
| C172 | Finding the position of an item | ListMethods | `findEq` scan; the result is dropped, proved for all inputs; refusal exact | partial |
| C173 | Copies and sums of series are series | ListMethods | result tagged as plain list or series | partial |
| C174 | List operators respect the rules of a series | ListMethods | inherited operators as bare list updates; witnesses; order kept under explicit conditions | partial |
| C175 | pop takes out exactly the item it gives back | ListMethods | position specification `StandsFor`; split of the list around the popped item | proved |
| C176 | remove takes out the first equal item | ListMethods | induction on the items, `SameItem` specification | proved |
| C177 | Equality and membership of series | ListMethods | induction on both lists, `SameItem` specification | proved |
| C178 | Moving a series to another time zone | ListMethods | `duplicate_build` and item by item relation | partial |
| C179 | A time point reports what it was created from | Create | evaluation of the constructor on each form of call | proved |
| C180 | The time zone asked for is the one used | Create | case analysis over all calls; witnesses | partial |
| C181 | Times are numbers | Create | case analysis over all calls | partial |
| C182 | Wrong arguments are refused | Create | case analysis over all calls; witnesses | partial |
| C183 | Creating an item does not change the objects passed to it | Create | index dictionaries as heap objects | partial |
| C184 | An item with data reports its data and indexes | Create | index dictionaries as heap objects; read back after creation | proved |
| C185 | Changing the zone of a slot leaves the other slots alone | Create | point objects at addresses; witness; frame lemma | partial |
| C186 | Changing the zone of a series of slots | Create | induction on the slots, invariants on the point objects | proved |
| C187 | Moving a point by a time unit | Create | shift abstract, exact on physical units | proved |
| C188 | Values are read by their labels | Create | concrete `int()` on texts; `pyInt (str n) = n` | partial |
| C189 | The query of select | Query | text lemmas on strip and split; `C32_select` | proved |
| C190 | Queries which are not understood are refused | Query | split at the first two `=`; refusals by cases | partial |
| C191 | What a round of cross validation trains on | Tightened2 | the rounds of a remembering model, cases on the two sides | proved |
| C192 | Target labels of a forecaster | Tightened2 | set comparison as membership | proved |
| C193 | Named bounds of the anomaly index | Tightened2 | case analysis on the bounds, maximum by induction | proved |
| C194 | Selection of what to plot | Tightened2 | `C146_plain` with the selection spelt out | proved |
| C195 | Prediction error metrics | Tightened2 | arithmetic | proved |
| C196 | Positions below -len | Access | witness below -len; all the ranges of positions by cases | partial |
| C197 | Index slicing of any series | Access | witnesses; the list slice whenever slicing succeeds | partial |
| C198 | Item equality is transitive | Item | witness; cases on who has data | partial |
| C199 | The integral treats labels independently | Ops | witness: the last right component is shared | partial |
| C200 | Invalid windows of the moving average | Ops | every such window raises AttributeError | partial |
| C201 | A loaded model predicts as the saved one | Models | witness; JSON round trip of plain parameters | partial |
| C202 | The last zero items | Access | witness | partial |
| C203 | A rejected append leaves no trace | Order | witnesses; slots by case analysis of append | partial |
| C204 | Resampling a series end to end | TransformFront | composition of C46, C48, C49, C96 with the detection of C38 and C04 | proved |
| C205 | Aggregating a series end to end | TransformFront | composition of C45, C49, C96 with the detection of C38 | proved |
| C206 | Transforming an empty series | TransformFront | every empty series gives TypeError; always refused | partial |
| C207 | Transforming other series | TransformFront | case analysis of the checks | proved |
| C208 | Calendar units are refused by the resampler | TransformFront | witnesses 1W and 1D_3h_5m; exact set of refused units | partial |
| C209 | Transforming a single point | TransformFront | every single point gives ZeroDivisionError; empty series with a given validity | partial |
| C210 | Explicit start and end of a transformation | TransformFront | witness with a zone one hour ahead; zones that agree by the loop of C45 | partial |
| C211 | The results of an evaluation | Evaluate | induction over labels and steps; names split at the last underscore; metrics by C40-like sums | proved |
| C212 | The arguments of an evaluation are checked | Evaluate | case analysis; zero and negative steps equal one step | partial |
| C213 | Every supported metric gives a result | Evaluate | witnesses with zero and negative values; both directions for defined metrics | partial |
| C214 | The results series of an evaluation | Evaluate | columns tracked through the loops item by item; KeyError for every model without a window | partial |
| C215 | An evaluation returns a dictionary | Evaluate | None for an empty list of metrics, for every model | partial |
| C216 | The results series keeps the values of the series | Evaluate | witness with a label named v_pred; from C214 otherwise | partial |
| C217 | The range of a detected periodicity | Periodicity | bounds on peak indexes and on rounding to even | proved |
| C218 | Which periodicity is detected | Periodicity | induction over the sorted list of peaks | proved |
| C219 | A dominant periodicity is detected | Periodicity | the first of the sorted peaks is never discarded when it dominates | proved |
| C220 | The periodicity of a sinusoid | Periodicity | discrete Fourier transform of a sinusoid by sums of roots of unity over the complex numbers; no peak for two items or one oscillation | partial |
| C221 | Periodicity of a series with one label | Periodicity | unfolding; TypeError for every list series | partial |
| C222 | Unknown arguments of a cross validation | CvArgs | prefix tests on characters | proved |
| C223 | Arguments forwarded by a cross validation | CvArgs | induction over the text for replace; false for every name where the prefix occurs again | partial |
| C224 | The integral starts from its constant | IntegralMore | exact description of the shared component sequence by induction over items and labels | proved |
| C225 | The integral of a single item | IntegralMore | unfolding for points, corollary of C224 for slots | partial |
| C226 | The guessed resolution depends on the contents only | Guess | the caches survive every list of appends, by induction; concrete counterexample; C38 for a first guess | partial |
| C227 | When the resolution cannot be guessed | Guess | case analysis | partial |
| C228 | The confidence of the guess | Guess | the second count never exceeds the first, by induction over the counts | proved |
| C229 | What the square brackets mean | GetItem | case analysis over the kinds of keys, then C10, C12, C13, C30 | partial |
| C230 | Slices behave as on lists | GetItem | the step is never read; C11 otherwise | partial |
| C231 | Removing a data index | RemoveIndex | contents of each index object after the loop, by induction over the items | proved |
| C232 | Removing a data index changes only this series | RemoveIndex | counterexamples on shared objects; frame argument for unshared ones | partial |
| C233 | What an inspection prints | Inspect | induction over the labels with minimum and maximum as IsLeast and IsGreatest; fitted labels from C153 | proved |
| C234 | The range of the error plots | Inspect | all plots share one range, by induction; counterexample | partial |
| C235 | Inspecting without stored errors | Inspect | the errors are read before the check; counterexample with an earlier fit | partial |
| C236 | The series of the fit | Inspect | dictionary updates by induction over the labels, clash-free labels; counterexample otherwise | partial |
| C237 | Resampling carries the data losses over | CarriedLoss | regions of evenly spaced points, the sum over the involved points equals the sum over all; counterexample for shorter units | partial |
| C238 | Cumulative sums from an offset | CsumOffset | running sums by induction, from the item before the first; counterexamples for zero, lists and single points | partial |
| C239 | Restoring a series from its differences | CsumOffset | telescoping sums: the running sums of the differences from the first value; counterexample when the first value is zero | partial |
| C240 | Normalizing from a source range | SourceRange | the normalization loop with given extremes; affine maps | proved |
| C241 | A failed in-place operation leaves the series as it was | SourceRange | the state-keeping loop agrees with the loop of C33/C79; frame by induction; counterexamples | partial |
| C242 | Any expression of operations and transformations on series gives a well-formed series | Pipeline | every call ends in appends; induction on the expression; order, spacing and succession from the append invariants | proved |
| C243 | A chain of calls whose arguments fit does not raise, and its outcome can be told in advance | Pipeline | each call maps the shape it is given to the shape it leaves; induction on the chain | proved |
| C244 | Scalar statistics follow rescaling and shifting | Laws | sums over mapped lists; extremes of monotone and antitone maps | proved |
| C245 | Differences, sums, averages, derivatives and integrals are linear | Laws | each operation as a function of positions, times and values (Runs), and its linearity, for the integral by induction on the shared components | proved |
| C246 | Normalizing forgets scale and offset | Laws | extremes of the changed series and the affine formula of normalization | proved |
| C247 | It does not matter whether labels are filtered before or after an operation | Laws | the values computed for a label use that label only; counterexample for the integral | partial |
| C248 | It does not matter whether a series is sliced before or after rescaling or shifting | Laws | the slicing loops select the same positions in series with the same places; counterexample for empty slices | partial |
| C249 | A time series stays in order through any session of calls | Session | places (times and kinds) are kept by every call which is not a basic one; invariant by induction on the session | proved |
| C250 | The adherence to a distribution is between 0 and 1 | Distribution | monotonicity of the cumulative distribution; counterexample for distributions centred above zero | partial |
| C251 | find_x finds a value of given density on the side asked for | Distribution | bisection invariant (sign change) with the intermediate value theorem, interval halving; counterexample for far centres | partial |
| C252 | derivative(diffs=True) computes the differences | Options | the loop of the operation with each option set; equal to the loop of diff() without normalization | partial |
| C253 | derivative(normalize=False) computes the increments per step | Options | the loop without normalization, position by position | proved |
| C254 | integral(normalize=False, c=c) computes running sums from c | Options | running sums by induction on the items, per label | proved |
| C255 | integral(offset=o) starts the integral from o one step before the first item | Options | the extra item first, then running integrals by induction; counterexamples for c together with an offset, variable resolutions and a zero offset | partial |
| C256 | A summary lists the items and never more than the limit | Summary | induction over the printing loops; counterexample for a single item | partial |
| C257 | The order of the series given to merge does not matter | MergeLaws | from C31: the times are the common ones and the values means, which permutations do not change | proved |
| C258 | Splitting a series by labels and merging the parts gives it back | MergeLaws | from C30 and C31: means of equal values | proved |
| C259 | Merging in steps gives the same as merging at once | MergeLaws | the merge can be merged again (labels, spacing and resolution by C31 and the append invariants); counterexamples: mean of means, a merge of one item | partial |
| C260 | Resampled values are means of the values filled in between the points | MeanValues | the weighted mean over the dense view, summed by induction over the points and gaps of the view; the points out of the interval weigh nothing | proved |
| C261 | Resampled values of evenly spaced series are weighted means of its values | MeanValues | from C260: evenly spaced points leave no gaps | proved |
| C262 | Resampling preserves the integral | MeanValues | from C260: the filled-in integral is additive in the interval (the middle value of a line times the length is its integral) | proved |
| C263 | Resampling a series to its own resolution changes nothing | MeanValues | from C261: the intervals of new and old points coincide; first and last point computed | partial |
| C264 | Straight lines are resampled exactly | MeanValues | from C260: the pieces tile the interval, each is off by at most half a sampling interval times the slope; counterexample: a staircase | partial |
| C265 | The averages of an aggregation are means of the values filled in between the points | MeanValues | as C260, for the slots that do not take the upsampling branch; counterexample: averages twice the values | partial |
| C266 | Aggregation preserves the integral | MeanValues | from C265 and the additivity of C262; the same counterexample | partial |
| C267 | Views compare as what they show | ViewObj | views as objects with a list of their own (always empty): equality reads only it; on materialised views by C-style list equality | partial |
| C268 | Membership in a view | ViewObj | as C267 | partial |
| C269 | Views of views | ViewObj | induction over the chain of views | proved |
| C270 | Reading the time zone of a view inside a loop | ViewObj | the shared iterator is computed step by step: reading the zone restarts it; endless loop by induction on the fuel | partial |
| C271 | Calls never change what a view shows | ViewObj | induction over the calls; append always reaches a missing attribute | proved |
| C272 | Insertion in a view | ViewObj | the item goes in the list of its own of the view | partial |
| C273 | get on a view | ViewObj | unfolding; by time by the order of the items | partial |
| C274 | Time slices of a view stay in the view | ViewObj | filters of the window; counterexample: brackets slice the series under the view | partial |
| C275 | Renaming and removing labels through a view | ViewObj | unfolding: the items are looked for in a missing attribute | partial |
| C276 | The resolution of a view | ViewObj | append invariants on the window; counterexamples | partial |
| C277 | view() with one bound | ViewObj | unfolding: a missing bound stays None | partial |
| C278 | Scalar operations on views | ViewObj | the loops read only the items shown | partial |
| C279 | The maximum and minimum of an aggregated slot | SlotStats | the points given to an operation without weights are the dense view of the points of the slot: its values are those of the points and of the middles of the gaps, by induction on the view; counterexample: zeros in partly covered slots | partial |
| C280 | The sum of an aggregated slot | SlotStats | as C279, summed; counterexample: a gap within a slot | partial |
| C281 | Aggregating with several operations at once | SlotStats | the data of a slot is a fold over the operations; labels with suffixes without underscores are injective; counterexample: names with underscores | partial |
| C282 | Sums are conserved by aggregation | SlotStats | from C280: no gaps; the slots tile the time, so the filters add up (induction over the slots) | proved |
| C283 | Date and time in columns of their own | CsvTime | specification of the text and format of the time of a line; invariant of the loop over the lines (positions of the columns known or not yet) and induction over the lines | proved |
| C284 | The storage refuses conflicting or incomplete time columns | CsvTime | case analysis over the arguments of the constructor; counterexamples: a column number zero is falsy, no column at all | partial |
| C285 | Reading does not depend on earlier readings | CsvTime | simulation: each step of the reading repeated with the attributes of the storage of any later moment gives the same variables (backwards, step by step, then by induction over the lines); counterexample: column numbers; any history, with calls which raised: module StorageFail | partial |
| C286 | A value is under the label of its column | CsvColumns | positions of the labels in the header; counterexample: a column without a name | partial |
| C287 | A file without a header loses no row | CsvColumns | the first line is data if all its fields are numbers or times; counterexamples: custom formats, missing values | partial |
| C288 | Points and slots are not merged | MergeKinds | the class of the new items is that of the first series, the arguments those of the reference; counterexample: slots merged with earlier points | partial |
| C289 | Merging series that do not overlap or do not match | MergeKinds | the first round of the loop over the reference series | proved |
| C290 | The merge method takes several series | MergeKinds | the method passes its argument on; a list is refused always | partial |
| C291 | Merging a series with itself | MergeKinds | from C31: the mean of equal values | proved |
| C292 | Aggregating with functions of the user | UserOps | from the inner views of C279; a single value is stored for the first label only, equal names overwrite | partial |
| C293 | Operations on a view | ViewOps | the model of an operation depends on the items, the data reference and the resolution only; the view and its copy agree on them | partial |
| C294 | Order of a base series | BaseSeries | invariant over the history of calls, for an abstract class of items | partial |
| C295 | Items of one class | BaseSeries | invariant over the history of calls; subclasses break it | partial |
| C296 | Square-bracket slices of a base series | BaseSeries | positions of a Python range, then the items are appended one by one | partial |
| C297 | Operations on series which are not in time | PlainOps | first round of the loop for points; for slots the loop is an appending of the mapped slots | partial |
| C298 | Resolution of regularly sampled points, in floating point | Floats | whole numbers are doubles and their differences exact; counterexamples computed by the kernel | partial |
| C299 | Normalized values, in floating point | Floats | monotonicity of the rounding only | partial |
| C300 | Sums and averages, in floating point | Floats | invariant of the loop for the accumulated error; exactness on whole numbers | partial |
| C301 | Coverage and data loss, in floating point | Floats | invariant of the loop over the regions; halves are doubles | partial |
| C302 | The anomaly index, in floating point | Floats | monotonicity of the rounding, and whole numbers of labels | proved |
| C303 | Interpolated values, in floating point | Floats | monotonicity of the rounding only | partial |
| C304 | Differences and cumulative sums, in floating point | Floats | induction; whole numbers are doubles | partial |
| C305 | Rescaling between ranges, in floating point | Floats | monotonicity of the rounding only | partial |
| C306 | Error metrics, in floating point | Floats | induction over the lists; distinct doubles have a difference which is not rounded to zero | proved |
| C307 | Position in the period, in floating point | Floats | the relative error of the quotient is less than its distance from the next whole number | proved |
| C308 | Data of one kind, for any type of data | AnyData | induction over the items appended; counterexample with tuples | partial |
| C309 | Numbers as data | AnyData | instance of the characterisation of C308; counterexample with an integer and a float | partial |
| C310 | Tuples as data | AnyData | every step of the operations on tuples equals the one on lists; new data of a tuple cannot be filled | partial |
| C311 | Numpy arrays as data | AnyData | the truth value of an array is an error | partial |
| C312 | What an operation can be called on | AnyData | case analysis of the dispatch | partial |
| C313 | Moving a slice to another time zone | SharedZones | induction over the calls on series sharing their points | partial |
| C314 | Arguments of the model of an anomaly detector | DetectorArgs | case analysis of the binding of arguments | partial |
| C315 | Detection with context for every forecaster | DetectorArgs | case analysis of the binding of arguments, induction over the labels | partial |
| C316 | The file of a CSV storage after any history of puts, gets and crashes | StorageSession | Induction over the history of calls; C50 after the last completed put; witness of a crash inside a number. | partial |
| C317 | A file cut short is not taken for a complete one | StorageSession | General negation: the cut file is the file of the shorter series, C50 on it. | partial |
| C318 | Largest and smallest values in the presence of NaN | Nans | Loop invariant of the kept value; general negation when the first is NaN. | partial |
| C319 | A NaN affects only the results computed from it | Nans | Induction over the column, per operation; exact characterisation for the cumulative sum. | partial |
| C320 | Normalizing a series with NaN | Nans | Extremes from C318, then value by value; general negation when the first is NaN. | partial |
| C321 | Timestamps that are not numbers | Nans | Chain invariant over histories of appends; witnesses. | partial |
| C322 | A stored series with NaN can be read back | NanStore | The line with nan is malformed: C53 and C50 on the other items. | partial |
| C323 | Where a saved plot goes | PlotOutput | Case analysis of the options and of the environment; frame theorem over the files; witness of the page left behind. | partial |
| C324 | A plot that cannot be saved leaves the existing file as it was | PlotOutput | Case analysis of every failing path; witnesses of the image removed before it is made again. | partial |
| C325 | Names in the script of a plot | PlotOutput | Induction over the name, equivalence with the absence of special characters. | partial |
| C326 | Colours of the labels of a plot | PlotOutput | Tables of colours up to twenty labels; general negation from the twenty-first on. | partial |
| C327 | The anomaly index computed by a function of the user | IndexArgs | Case analysis on the error and its bounds, induction over labels for the range; witness of an index of 7. | partial |
| C328 | Unknown index types and strategies are refused | IndexArgs | Exact condition for the refusal by induction over items and labels; witness of an unknown type accepted. | partial |
| C329 | In-place and returning variants of mark_events agree | EventsLive | Refinement: an invariant relates the indexes written so far to the marks of the value model, by induction over the items; covers all outcomes. | proved |
| C330 | A failed in-place mark_events leaves the series as it was | EventsLive | From the refinement: exact state left by each failure; two witnesses. | partial |
| C331 | A detection shares nothing with the series examined | EventsLive | Frame argument over the heap by induction over the items; agreement with the value model; witness of a shared item. | partial |
| C332 | No history of calls that give new series changes the series there are | World | Invariant of the histories (objects exist, marks), frame property of every operation, induction over the calls. | proved |
| C333 | A change to a series is seen only in the series that share its items | World | Invariant: series with different origins have no objects in common; preserved by every call; frame of each change. | proved |
| C334 | A storage gives data of the type asked for | CsvTypes | an invariant of the reading loop (type of the storage, type chosen, rows); counterexample for columns asked for by number; evaluation of the first line for a file without labels | partial |
| C335 | In floating point the derivative has the sign of the changes | FloatOps | sign of each increment from the monotonicity of the rounding, induction over the points | proved |
| C336 | In floating point a weighted average is between the values | FloatOps | sign and exactness for zeros and ones by induction; error bound of the sum of rounded products; counterexample with tenths | partial |
| C337 | In floating point the uniform interpolation is between the two values | FloatOps | relative error of differences of doubles, and exactness in the subnormal range | proved |
| C338 | In floating point the running sums of non-negative values never decrease | FloatOps | monotonicity of the rounding, induction | proved |
| C339 | In floating point rescaling and offsets keep the order of the values | FloatOps | monotonicity of the rounding; exactness for whole numbers; counterexamples | partial |
| C340 | No row of a file read as slots is lost | CsvSlotRows | an inductive relation between rows and items (rows in order, fillers among them), invariant of the loop | proved |
| C341 | The time zone asked for when reading a file does not change the instants | ForceTz | reading lines is shown not to depend on the zone where the codecs agree on the fields, then induction on the rows: appending commutes with changing the zone of the items | proved |
| C342 | A duplicate has the items of the series and lives apart from it | World, WorldDuplicates | the copy of the heap reads as the heap; colouring of positions and origins kept by every call; frame of each change | proved |
| C343 | Calls naming only later series change nothing in the earlier ones | WorldDuplicates | colouring invariant: series made later have objects made later, induction over the calls | proved |
| C344 | Reading by label leaves no trace on a storage | StorageFail | two readings which select other columns run in lockstep until the first readable timestamp, after which the timestamp attributes are the final ones; the type of the data is written only for column numbers; induction over lines and over the history | proved |
| C345 | The time axis of a plot shows the local time of the items | PlotTime | the Python and ECMAScript calendars compared, day numbers strictly increasing in the calendar order | partial |
| C346 | A plot draws the items in their order | PlotTime | integer division of the local time; counterexample at the end of daylight saving | partial |
| C347 | The time axis of a plot keeps the distances | PlotTime | item by item, from C345 | partial |
| C348 | A series warns when its first item has data which are not numbers | DataChecks | by kind of data; pigeonhole for dictionaries read by position | proved |
| C349 | A series holding data which are not numbers has warned about it | DataChecks | induction on the appends; counterexample with text later on | partial |
| C350 | Adding and removing items in any history | World | reading of objects commutes with append and with taking away an item | proved |
| C351 | Transforming a series of lists is transforming the same numbers in dictionaries | ListTransform | a second model of the transformation for lists; simulation: a success is a success of the dictionary model with the same items; without gaps equality of the outcomes; counterexample with a gap, decided | partial |
| C352 | Resampling with the uniform interpolator | UniformTransform | the uniform dense view has the times and indexes of the linear one (induction on the dense relation), so weights, losses and indexes agree; in a gap the view is explicit: weights 0, 1, 0 | proved |
| C353 | Aggregating with the uniform interpolator | UniformAggregate | both dense views of a slot have the points of the linear ones apart from the values (induction on the list), so each slot is computed from the same weights; simulation of the two loops on the same state; the averages via C352 | proved |
| C354 | An item changed anywhere changes the program at its time only | SameTimes | invariant of `World.run`: items with an address in common have one time, points are ordered; each call keeps it (new addresses, or the address of an old item at the same time) | proved |
| C355 | The slots of a series are not repeated, skipped or overlapping | SlotGaps | C06 plus the bound of the tolerance by the length of the slots, induction on the chain; witnesses with slots of one second | partial |
| C356 | An item of a series can be inserted again into it, and is then one item twice | WorldInsert | the call of `World` reads as `TSeries.insert` of the views; counterexample history for order and rename | partial |
| C357 | Moving averages keep order and size in floating point | FloatWindows | windows as dropped and taken lists, sums by induction with the monotone rounding; the error bound from the mean's (C300) | partial |
| C358 | What printing a series says | Describe | cases on the stored resolution, which C04 ties to the spacings; the most common spacing from C38; the cached interval makes the second description the first one | partial |
| C359 | The integral is the area under the series | IntegralArea | the recurrence of C199 for one label, summed over pairs of steps by induction; counterexamples evaluated | partial |
| C360 | Integrals in floating point | FloatIntegral | the loop as a recurrence by induction on the list; whole numbers and halves up to 2^53 are not rounded (Binary64); the exact operation from C199 | partial |

## 7. Findings

Defects of the code established by the theorems, with the lines in `/repo/timeseria` (the theorem is `Cnn_..._false` unless named).

| property | where | what |
|---|---|---|
| C02, C07, C08, C81 | datastructures.py 738-778 | `insert` in the middle checks neither order, unit, time zone nor data |
| C203 | datastructures.py 1267-1310 | a rejected append is remembered as the previous timestamp; later good items are refused or the resolution is wrong |
| C05 | datastructures.py 1417-1433 | the resolution is not recomputed after a pop |
| C08 | datastructures.py 683 | zero or empty data are not taken as a reference |
| C196, C15 | datastructures.py 1324-1345, 1808-1845 | negative positions are shifted twice; views give access to items outside |
| C16 | datastructures.py 1847-1867 | the iterators of a view share a counter |
| C198 | datastructures.py 60-69 | equality is not transitive between points with and without data |
| C20, C26 | datastructures.py 1390-1433 | 1.05 s is read as 15 s |
| C199 | operations.py (integral) | the last right component is shared between labels |
| C200 | operations.py (mavg) | invalid windows raise `AttributeError` |
| C52 | storages.py 738-788 | a failing `put` empties the file |
| C58, C105, C107, C108 | models/base.py 169-276 | a failing fit changes the model; a failing cross validation leaves it fitted; parameters without a fit are refused |
| C201, C121 | models/base.py 88-147, reconstructors.py | loading after a single-point fit raises; the periodic reconstructor does not restore integer keys |
| C76, C100 | datastructures.py 437-459 | the tolerance is relative to the epoch time (about 1.7 s) |
| C202 | operations.py (tail) | `tail(0)` returns everything |
| C78 | operations.py | data indexes are shared between input and result |
| C79 | operations.py | in-place derivative, integral, diff and csum differ from the others or raise |
| C80 | datastructures.py 896-935 | the reference data outlives the popped item |
| C82 | utilities.py 700-801 | data loss above 1 |
| C83, C84 | utilities.py (detect_sampling_interval), datastructures.py | endless loop; stale cache |
| C85 | utilities.py 866-913 | truncation towards zero before the epoch |
| C86, C88 | interpolators.py | wrong neighbours |
| C90-C95, C47 | transformations.py | explicit start and end, weights left behind, source data overwritten, filling with zero, data losses |
| C206, C208-C210 | transformations.py 385-440, 712-714 | an empty series is a TypeError, a single point a ZeroDivisionError, weeks and composite calendar units pass the check of the resampler, numeric bounds are rounded in UTC |
| C97-C101 | storages.py 164-735 | short lines, label names, separator, gap filling, repeated rows |
| C164, C165 | datastructures.py 1479-1512 | a saved single slot cannot be loaded; `load` on a subclass returns None |
| C162 | storages.py 567-580 | `886400*366` and no 29 days: leap years and leap Februaries are loaded as points |
| C102, C103 | datastructures.py 1525-1745 | conversions lose indexes, zones, slots |
| C109, C110, C112 | models/base.py 563-680, forecasters.py 840-1044 | unknown losses, zero differences, stale normalisation |
| C113-C116 | reconstructors.py 45-290 | partial in-place effects, swapped MAPE arguments, evaluation of the linear model, off by one |
| C117-C120 | forecasters.py 440-588 | offset computed with the wrong divisor, window, periodicity of the first label |
| C122, C123, C125, C126 | forecasters.py 45-433 | partial in-place effects, single step lists, look ahead with an empty window |
| C180-C183, C185, C188 | datastructures.py 34-577 | zone ignored when copying a point, texts as times, unknown arguments ignored, index dictionaries changed and shared, shared points move with the zone, `'-1'` as label |
| C190 | operations.py 1162-1176 | only `and` is tested; a second `=` is dropped |
| C172-C174, C178 | datastructures.py 606, 815-831, 1377-1387 | `index` has no return, `copy` and `+` give plain lists, item assignment and `+=` bypass all checks, `change_tz` on an empty series |
| C167, C169-C171 | reconstructors.py 514-541, forecasters.py 674-792 | fitted on local times and asked for UTC times; the series of the fit is kept by reference; the engine is not saved; ARIMA cannot be evaluated |
| C127, C128 | anomaly_detectors.py 51-128 | events at the end, lossy items |
| C129-C136, C138 | anomaly_detectors.py 518-774 | left bounds, `break`, mirrored error, details, zeros, tuples, stored errors, stale predictions |
| C155-C160 | anomaly_detectors.py 166-435, 518-774 | errors and window of an earlier fit are kept, a failed fit replaces the inner model, left tail of the errors, a detector with a model class given in the constructor cannot be loaded, a failed save leaves its directory, the first item with a full window is skipped |
| C139-C141 | units.py | zero dividends, point minus unit, `value=` |
| C142, C143, C145, C147-C151 | plots.py | trailing items dropped, index means, `aggregate=True`, ranges, commas, scalars, marks |
| C212-C216 | forecasters.py 195-433 | steps of zero or less accepted, undefined metrics raise, results series needs a stored window, `None` with no metrics, clashing labels overwritten |
| C220, C221 | utilities.py 142-218 | periods of two items and single oscillations are not detected, list data raise TypeError |
| C223 | models/base.py 338-348 | `replace` removes every occurrence of the prefix, not only the first |
| C225 | operations.py 374-387 | a single point has no resolution: its integral is a `TypeError` |
| C226, C227 | datastructures.py 1435-1459 | the guess is never recomputed; TypeError on an empty series; the `finally` hides exceptions behind an AttributeError |
| C229, C230 | datastructures.py 1325-1352 | unsupported keys are an AttributeError; the step of a slice is ignored, `[:]` is refused |
| C232 | datastructures.py 912-924, operations.py | the index objects of operations, filters and slices are those of the input |
| C234-C236 | anomaly_detectors.py 429-482 | the automatic range of the first label is used for all; the check on stored errors comes too late; clashing label names |
| C237 | utilities.py 722-801 | upsampling series with data losses: each original point is counted for more than the time it covers, data losses exceed 1 |
| C238 | operations.py 401-430 | `csum` with an offset: the offset 0 gives no starting item, lists and series of one point are a `TypeError` |
| C239 | operations.py 401, 514-527 | a series beginning with zero is not restored from its differences, nor are two points |
| C241 | operations.py 575-600, 301-331, 434-487 | an in-place operation which raises leaves the items it has already changed |
| C247 | operations.py 434-487 | the integral of a label depends on the labels filtered out after it (the right component is shared) |
| C248 | operations.py 47-48 | an empty slice can be taken of a rescaled series, but cannot be rescaled |
| C250 | utilities.py 420-425 | the adherence is more than 1 for values below the median of a distribution centred above zero |
| C251 | utilities.py 427-446 | the interval searched goes from the centre to wideness times the scale, measured from zero: when the centre is beyond it, the value found is on the other side |
| C252 | operations.py 213-352 | diffs=True alone still divides by the sampling interval and labels the result as a derivative |
| C255 | operations.py 396-432 | an offset replaces the constant c given with it; with a variable resolution it raises TypeError; a zero offset adds no item |
| C256 | datastructures.py 1059-1119 | the summary of a series of one item has a trailing comma and a new line |
| C259 | operations.py 1002-1148 | a label in both groups gets the mean of the means; a merge of a single point has no resolution and is refused after a series with one |
| C263 | transformations.py 385-694 | resampling a series to its own resolution drops the first and the last point |
| C264 | transformations.py 385-694 | resampling a straight line to a shorter unit gives a staircase (documented values are not interpolated between near points) |
| C265, C266 | transformations.py 244-252 | aggregating to slots shorter than the sampling interval gives the slots without points averages that are twice the values, and changes the values the following slots are computed from |
| C267, C268 | datastructures.py 1797-1915 (`__eq__` and `__contains__` inherited from list) | any two views are equal, no view equals a non-empty series, and no item is in a view (the test that compares views is vacuous) |
| C270 | datastructures.py 1358-1375, 1862-1880 | reading `view.tz` inside a loop over the view ends the loop early, or makes it endless when the time zones differ |
| C272 | datastructures.py 738-778 | `view.insert` at the end succeeds, and the view does not show the item |
| C273 | operations.py 806-848 | `view.get(at_i=...)` always raises `IndexError` |
| C274 | datastructures.py 1325-1352 | `view[t1:t2]` returns items out of the view; with one bound only it raises `ValueError` |
| C275, C277 | datastructures.py 896-910, 1768-1770 | labels cannot be renamed or removed through a view (`AttributeError`); `series.view()` without one of the bounds makes an unusable view |
| C276 | datastructures.py 1895-1905 | a view of evenly spaced points of a series of variable resolution is of variable resolution |
| C278 | operations.py 73-207 | maximum, minimum and sum of a view without items are `None`, `None` and 0, its average an exception; a series without items raises `ValueError` |
| C193 | anomaly_detectors.py 715-729 | an unknown index type is not refused up front: it raises only when an error falls between the bounds |
| C279 | transformations.py 244-252 | aggregating to slots shorter than the sampling interval: `max` and `min` of the slots without points are 0, whatever the values; the others are computed from doubled values |
| C280 | transformations.py 221-228, 289-292 | `sum` also adds an interpolated value for each gap between two points of the slot, and gives slots with no points at all an interpolated value rather than 0 |
| C281 | transformations.py 294-299 | with operations (also user functions) whose names have underscores, two results can have the same label: the one computed last silently replaces the other |
| C284 | storages.py 92-125 | `time_column=0` or `date_column=0` is falsy, so that it does not conflict with a timestamp column, which is silently dropped; no time column at all is accepted unless `data_labels` is empty |
| C285 | storages.py 429 | a `get` with column numbers sets the data type of the storage to lists for all later calls |
| C286 | storages.py 262-271 | labels skip empty header fields but positions do not: a header such as `,timestamp,value` (written by pandas) shifts every label by one |
| C287 | storages.py 252-266 | a first line with a field that is neither a number nor an ISO time (a missing value, a date in a custom format) is taken for a header and lost |
| C288 | operations.py 1139-1150 | slots are merged with points that start earlier (means of slots and points), and the same series in the other order are refused with an `UnboundLocalError` |
| C290 | datastructures.py 1013-1016 | `series.merge([a, b])` is documented ("one or more other series") but a list is always an `AttributeError`, several arguments a `TypeError` |
| C292 | transformations.py 294-305 | an aggregation function returning a single value is stored for the first label only, silently; of two functions with the same name (two lambdas) only the last one is kept |
| C293 | datastructures.py 1797-1905, operations.py 239-253 | a view has the resolution of the series it shows: differences of an evenly spaced view of a series of variable resolution are refused, while those of its copy are given |
| C294 | datastructures.py 738-778 | an insertion in the middle looks only at the item before: 5 can be inserted between 1 and 3 |
| C295 | datastructures.py 655-662 | instances of a subclass are accepted; once the first item is popped, slicing the series or appending again is refused |
| C296 | datastructures.py 864-880 | slices with a negative step, as `[::-1]`, are refused with a ValueError |
| C297 | operations.py 663-673, 728-738, 239-253 | the operations on data points which are not in time always fail with AttributeError |
| C298 | datastructures.py 1252-1266 | the spacings are compared without a tolerance: points every 0.1 seconds have a variable resolution, and two points at 0.2 and 0.3 a resolution of 0.0999999 s |
| C299, C305 | operations.py 585, utilities.py 323-324 | in double precision the greatest value can be normalized (rescaled) above the end of the range: 0 and 1 to [-3.8, 1.2] |
| C300 | operations.py 172-181 | in double precision the average of 0.1, 0.1, 0.1 is above 0.1 |
| C301 | utilities.py 679-747 | in double precision the coverage of points at 0.1, 0.7, 1.3 s between the first and the last is above 1: the data loss is negative |
| C303 | interpolators.py 66-73 | in double precision an interpolated value can exceed the one of the second point |
| C304 | operations.py 285, 405-480 | in double precision 0.1, 0.3, 0.9 are not given back by their differences |
| C308 | datastructures.py 680-688 | tuples of different lengths are accepted in one series; operations then leave values out, or raise |
| C309 | datastructures.py 681-682 | a float cannot be appended after an integer, nor the other way round |
| C310 | operations.py 650-655 | operations giving a series raise on tuples |
| C311 | datastructures.py 680, 889 | after an item with an array of two or more values nothing can be appended |
| C312 | operations.py 50-59 | an operation on a list of series always raises, although its message says that it works on them |
| C313 | datastructures.py 1377-1381, operations.py 986 | moving a slice to another zone moves the series it was taken from, which then reports UTC |
| C314 | models/anomaly_detectors.py 171-188 | arguments given by position to a detector are refused or lost; a loaded detector forgets its arguments |
| C315 | models/anomaly_detectors.py 293-298 | a detector based on periodic averages cannot be fitted with context |
| C316, C317 | storages.py 754-786 | an interrupted put empties the file and leaves a part of it which is read without error, possibly with another last value |
| C318, C320 | operations.py 85-92, 561-570 | a NaN in the first item makes max and min NaN, and normalize loses all the values |
| C318 | utilities.py 255-267 | a prediction which is NaN counts as no error in the maximum absolute error |
| C321 | datastructures.py 1241-1275 | NaN is accepted as first timestamp; a refused NaN is kept as previous time, so that the next good point is refused |
| C322 | storages.py 20, 754-786 | a series with NaN is written and cannot be read back |
| C323 | plots.py 952-966, 995 | an image plot leaves its page in /tmp |
| C324 | plots.py 1054-1063 | an existing image is removed before the new one is made, also when it is found to be not writable |
| C325 | plots.py 834, 861 | names are put between quotes without escaping: a label with an apostrophe breaks the script |
| C326 | plots.py 85-97, 889 | from the twenty-first label on the colour is always black, already used by the fourteenth |
| C327 | models/anomaly_detectors.py 726-729, 767-768 | the values of index and strategy functions are not checked: an anomaly index of 7 is possible |
| C328 | models/anomaly_detectors.py 715-729, 757-768 | an unknown index type is accepted when no error is between the bounds, an unknown strategy when there is one label |
| C330 | models/anomaly_detectors.py 67-124 | a failing `mark_events(inplace=True)` leaves part of the marks |
| C331 | models/anomaly_detectors.py 660-663 | lossy items are appended to the result as they are: marking events on it changes the series examined |
| C334 | storages.py 427-436, 474-493 | columns asked for by number change the type of the storage to lists; with numbers asked for, a file without labels and several columns silently gives the first one |
| C336, C339 | operations.py 150-173, 616-742 | weighted averages out of the range of the values; different values becoming equal |
| C340 | storages.py 708-732 | a gap in a file of lists is a TypeError |
| C345 | plots.py 133-135 | dates before the year 100 are drawn in the twentieth century (`Date.UTC` takes years from 0 to 99 as 1900 to 1999) |
| C346 | plots.py 128-135 | where the clock is set back, items are drawn on top of each other or in the opposite order |
| C349 | datastructures.py 653-666 | only the first item is checked for values which are not numbers |
| C351 | interpolators.py 59-75 | the interpolators read and write the data by label: with lists any gap is a `TypeError`, and the result of a transformation is a dictionary under the positions |
| C355 | datastructures.py 437-444, utilities.py 524-525 | `_is_close` of two timestamps has a relative tolerance of 1e-9, which for seconds since 1970 is 1.7 seconds today: with slots of one second the same slot can be appended twice and a missing or overlapping one is accepted; renaming a label of a series with a repeated slot raises `KeyError` after having done it |
| C356 | datastructures.py 766-771 | inserting a point of the series at its own position is accepted; the series then holds the object twice, and `rename_data_label` raises KeyError halfway |
| C357 | operations.py 783-786 | the moving average (window 3) of a series constantly 0.1 is above 0.1 in double precision |
| C358 | datastructures.py 1467, 1394-1414 | a series whose most common spacing is below 0.1 ms cannot be printed (`ValueError` from the unit); a series printed before it grew is still described with the old most common spacing |
| C79 | operations.py 446-457, 487 | in-place integral of a series with list data never reads the values after the first item: they are overwritten before they are read |
| C359 | operations.py 446-450 | the integral of values 1, 0, 0 is 0, 1, 0: it decreases although no value is negative, and at every other item it ignores every other value |
| C360 | operations.py 446-475 | integrating the derivative of 10^17, 1, 0, 1 in double precision gives 10^17, 0, 0, 0 |

## 8. Testing the theorems

`seeded/LOG.jsonl` records edits of the model, made in a scratch copy as a realistic bug would change the program, with the theorems that stopped proving and those that were tightened because they did not.
