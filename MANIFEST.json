{
 "claims": [
  {
   "property": "C01",
   "status": "proved",
   "theorems": [
    "Timeseria.C01_append_keeps_order"
   ],
   "note": "[C01_append_keeps_order] C01 Whatever calls of append, pop, remove, clear and duplicate are made on a new series, accepted or rejected, a series of points is strictly increasing in time."
  },
  {
   "property": "C02",
   "status": "partial",
   "theorems": [
    "Timeseria.C02_false",
    "Timeseria.C02_insert_order_partial",
    "Timeseria.C02_other_kind"
   ],
   "note": "[C02_false] C02 is false: inserting in the middle looks only at the item before. [C02_insert_order_partial] C02, partial: an accepted insertion into an ordered point series leaves it ordered provided the item found at the insertion position, if any, comes later than the new one. This covers positions 0 and len, where the code checks just that; missing: the positions in between, where it does not (`C02_false`). [C02_other_kind] C02: inserting an item of another kind than those of the series is a `TypeError`, and the series is as before."
  },
  {
   "property": "C03",
   "status": "proved",
   "theorems": [
    "Timeseria.C03_rejected_append",
    "Timeseria.C03_witness"
   ],
   "note": "[C03_rejected_append] C03: a rejected append never changes the items, the data reference or (on a non-empty series) the time zone. The resolution and the outcome of later appends are C203. [C03_witness] C03 the hypothesis: an item out of order is refused"
  },
  {
   "property": "C04",
   "status": "proved",
   "theorems": [
    "Timeseria.C04_resolution_is_spacing"
   ],
   "note": "[C04_resolution_is_spacing] C04 For every list of points accepted by append: no resolution with fewer than two points, `'variable'` exactly when the spacings are not all equal, and otherwise a unit which depends on the common spacing `d` only, and is `d` seconds when `d` is a whole number of seconds."
  },
  {
   "property": "C05",
   "status": "partial",
   "theorems": [
    "Timeseria.C05_false",
    "Timeseria.C05_contents_determine_resolution_partial",
    "Timeseria.C05_cleared_slots"
   ],
   "note": "[C05_false] C05 is false: after `0, 60, 180` and a pop the series holds `0, 60` but still reports a variable resolution. [C05_contents_determine_resolution_partial] C05, partial: for series reached by successful appends and duplications the whole state, resolution included, depends only on the items. Missing: pops, removals, clear and rejected calls (`C05_false`). [C05_cleared_slots] C05/C07 (after `clear`): a series of points of varying resolution that is cleared keeps that resolution, and then refuses every slot with a `ValueError`."
  },
  {
   "property": "C06",
   "status": "proved",
   "theorems": [
    "Timeseria.C06_slots_in_succession"
   ],
   "note": "[C06_slots_in_succession] C06 After any history of append, insert, pop, remove, clear and duplicate calls, in a series of slots each one starts where the previous one ends, within the tolerance."
  },
  {
   "property": "C07",
   "status": "partial",
   "theorems": [
    "Timeseria.C07_false",
    "Timeseria.C07_same_unit_partial",
    "Timeseria.C07_refused"
   ],
   "note": "[C07_false] C07 is false: `insert` checks neither the unit nor the time zone. [C07_same_unit_partial] C07, partial: after any history without `insert` on a series which was only ever offered slots, all the slots have the unit reported as resolution and the time zone reported by the series. Missing: `insert` (`C07_false`) and series that held points before. [C07_refused] C07 (which exception): in any series of slots built by appends, a slot of another unit, or of another time zone, is refused with a `ValueError` and the series is left as it was."
  },
  {
   "property": "C08",
   "status": "partial",
   "theorems": [
    "Timeseria.C08_false",
    "Timeseria.C08_false_insert",
    "Timeseria.C08_same_data_partial",
    "Timeseria.C08_exception"
   ],
   "note": "[C08_false] C08 is false: a first item whose data is zero (or empty) is not taken as a reference. [C08_false_insert] C08 is false also with non-zero data: `insert` does not look at the data. [C08_same_data_partial] C08, partial: after any history without `insert` on a series which was only ever offered items with (non-zero, non-empty) data, all the items carry data of the same kind: all numbers, all lists of one length, or all dictionaries with the same labels. Missing: `insert` (`C08_false_insert`) and zero or empty data (`C08_false`). [C08_exception] C08 (the exception): appending to a series with (non-zero, non-empty) data an item which would be accepted with other data raises `TypeError` if its data is of another type (a number, a list, a dictionary), `ValueError` if it is a list of another length or a dictionary with other labels, and is accepted otherwise."
  },
  {
   "property": "C09",
   "status": "proved",
   "theorems": [
    "Timeseria.C09_never_mixed"
   ],
   "note": "[C09_never_mixed] C09 A series never mixes points and slots, after any history of calls."
  },
  {
   "property": "C10",
   "status": "proved",
   "theorems": [
    "Timeseria.C10_integer_indexing"
   ],
   "note": "[C10_integer_indexing] C10 `series[i]` is the `i`-th item for `0 \u2264 i < len`, the `(len+i)`-th for `-len \u2264 i < 0`, and `IndexError` for `i \u2265 len`."
  },
  {
   "property": "C11",
   "status": "proved",
   "theorems": [
    "Timeseria.C11_index_slicing"
   ],
   "note": "[C11_index_slicing] C11 For a non-empty series whose items are acceptable as a series (good points or good slots), `series[a:b]` succeeds and holds exactly the items of the Python list slice."
  },
  {
   "property": "C12",
   "status": "proved",
   "theorems": [
    "Timeseria.C12_time_slicing_points",
    "Timeseria.C12_time_slicing_slots"
   ],
   "note": "[C12_time_slicing_points] C12, points: slicing a point series by time gives exactly the points with `from_t \u2264 t < to_t`, in order. [C12_time_slicing_slots] C12, slots: slicing a slot series by time gives exactly the slots lying within `[from_t, to_t]`, in order."
  },
  {
   "property": "C13",
   "status": "proved",
   "theorems": [
    "Timeseria.C13_access_by_t",
    "Timeseria.C13_empty"
   ],
   "note": "[C13_access_by_t] C13 On a non-empty series in strict time order, `get(at_t=t)` returns the item with timestamp `t`, which is unique, and raises `ValueError` if there is none. [C13_empty] C13 (empty series): access by time raises `IndexError`, not `ValueError`, on a series without items."
  },
  {
   "property": "C14",
   "status": "proved",
   "theorems": [
    "Timeseria.C14_view_reads_like_slice",
    "Timeseria.C14_view_slices",
    "Timeseria.C14_len"
   ],
   "note": "[C14_view_reads_like_slice] C14 For bounds `0 \u2264 from \u2264 to \u2264 len`, the view has length `to - from`, iterating over it gives the items of the slice, and `view[k]` is the `k`-th item of the slice for every `k` in `[-len, len)`, counting from the end when negative. [C14_view_slices] C14, slices of a view: for bounds between `-len(view)` and `len(view)`, or missing, `view[a:b]` succeeds and holds exactly the items of the Python list slice of the items of the view. [C14_len] C14 (any bounds): the length of a view is the difference of its bounds, whatever they are, and asking for it raises `ValueError` when they are inverted."
  },
  {
   "property": "C15",
   "status": "partial",
   "theorems": [
    "Timeseria.C15_false",
    "Timeseria.C15_view_bounds_partial"
   ],
   "note": "[C15_false] C15 is false: a view of the first of two items gives access to the second, by position and by slicing. [C15_view_bounds_partial] C15, partial: positions that fall outside of the underlying series do raise `IndexError`: `k \u2265 len(series) - from`, or `k < -(to + 2 len(series))`. Missing: all the others outside of the view (`C15_false`)."
  },
  {
   "property": "C16",
   "status": "partial",
   "theorems": [
    "Timeseria.C16_false",
    "Timeseria.C16_false_witness",
    "Timeseria.C16_sequential_partial"
   ],
   "note": "[C16_false] C16 is false, for every view of two or more items: in a nested loop over the same view the outer loop stops after its first item, because the counter is shared; the pairs visited are only those of the first item. [C16_false_witness] so the nested loop misses pairs [C16_sequential_partial] C16, partial: iterations one after the other (the second started after the first ended, or after any number of `next` calls) each give all the items."
  },
  {
   "property": "C17",
   "status": "proved",
   "theorems": [
    "Timeseria.C17_materialize",
    "Timeseria.C17_duplicate_equal"
   ],
   "note": "[C17_materialize] C17, views: materializing a view of good points or slots gives a series with the items of the view. [C17_duplicate_equal] C17 Every series built with append can be duplicated, and the duplicate has the same items, resolution, time zone, and (being in the same state) treats later calls alike."
  },
  {
   "property": "C18",
   "status": "proved",
   "theorems": [
    "Timeseria.C18_refl_symm",
    "Timeseria.C18_slots",
    "Timeseria.C18_when_equal"
   ],
   "note": "[C18_refl_symm] C18, reflexivity and symmetry of equality between points, with or without data. [C18_slots] C18 for slots with data: equality is an equivalence (no exception is raised). [C18_when_equal] C18, what it means: two points with data are equal exactly when they are at the same time and have the same data, two points without data when they are at the same time; two slots with data are equal exactly when they have the same start, the same end and the same data."
  },
  {
   "property": "C19",
   "status": "proved",
   "theorems": [
    "Timeseria.C19_time_zone",
    "Timeseria.C19_change_tz"
   ],
   "note": "[C19_time_zone] C19 With no time zone set, a non-empty series reports the zone shared by its points, or UTC if they do not share one; a set time zone is reported as it is; the order of the points does not matter. [C19_change_tz] setting the time zone of a series"
  },
  {
   "property": "C20",
   "status": "partial",
   "theorems": [
    "Timeseria.C20_false",
    "Timeseria.C20_spacing_roundtrip_partial"
   ],
   "note": "[C20_false] what the first spacing of a series becomes when written as a time unit and read back, for a spacing of `n` tenths of microsecond [C20_spacing_roundtrip_partial] C20, exact range: a spacing of `n` tenths of a microsecond (at least 0.1 ms) comes back unchanged if and only if its fractional part is zero or at least one tenth of a second; otherwise (`1.05s` is read as `15s`) it becomes a whole number of seconds."
  },
  {
   "property": "C21",
   "status": "proved",
   "theorems": [
    "Timeseria.C21_max",
    "Timeseria.C21_min",
    "Timeseria.C21_sum",
    "Timeseria.C21_witness",
    "Timeseria.C21_witness_slots"
   ],
   "note": "[C21_max] C21 (max): for every series with indexed data `max` gives, for each label and for no other, a value of the series which bounds all the values of that label from above. [C21_min] C21 (min): symmetric. [C21_sum] C21 (sum): `sum` gives, for each label and for no other, the sum of its values."
  },
  {
   "property": "C22",
   "status": "proved",
   "theorems": [
    "Timeseria.C22_avg",
    "Timeseria.C22_weighted",
    "Timeseria.C22_weighted_between",
    "Timeseria.C22_weighted_scale",
    "Timeseria.C22_which_weights",
    "Timeseria.C22_weights_witness"
   ],
   "note": "[C22_avg] C22 (unweighted): the average is the sum divided by the number of items. [C22_weighted] C22 (weighted): with one weight per item and non-zero total, the average of each label is the weighted mean. [C22_weighted_between] C22 (bounds): with non-negative weights of positive total the weighted average of a label lies between any bounds of the values of the items with non-zero weight. [C22_weighted_scale] C22 (scaling): multiplying all the weights by the same non-zero number changes nothing. [C22_which_weights] C22 (which weights): if every item carries a weight the average is the weighted mean with those; if some item has none, the weights are ignored and it is the plain mean. [C22_weights_witness] C22 three weights, of total 4"
  },
  {
   "property": "C23",
   "status": "proved",
   "theorems": [
    "Timeseria.C23_diff_csum",
    "Timeseria.C23_csum_diff",
    "Timeseria.C23_diff_refused",
    "Timeseria.C23_diff_refused_witness"
   ],
   "note": "[C23_diff_csum] C23 (diff after csum): on a constant-resolution series with at least two items, the differences of the cumulative sums are the original values, first item dropped. [C23_csum_diff] C23 (csum after diff): adding the first value of each label to the cumulative sums of the differences gives back the original values, first item dropped. [C23_diff_refused] C23 (what is refused): the differences of an empty series, of a single item or of a series with a variable resolution are refused with `ValueError`. [C23_diff_refused_witness] a concrete case"
  },
  {
   "property": "C24",
   "status": "proved",
   "theorems": [
    "Timeseria.C24_integral_derivative",
    "Timeseria.C24_witness"
   ],
   "note": "[C24_integral_derivative] C24: for a single-label series with constant resolution `d` seconds and at least two items, integrating the derivative, with the first value as constant, gives back the original values, in the same places."
  },
  {
   "property": "C25",
   "status": "proved",
   "theorems": [
    "Timeseria.C25_csum",
    "Timeseria.C25_csum_witness"
   ],
   "note": "[C25_csum] C25: without normalization (`csum`) the labels are independent: the cumulative sums of a label are those of the series filtered on it. [C25_csum_witness] C25 the cumulative sums of a label, in the whole series and in the series filtered on it"
  },
  {
   "property": "C26",
   "status": "partial",
   "theorems": [
    "Timeseria.C26_uniform_partial",
    "Timeseria.C26_interior_partial",
    "Timeseria.C26_false",
    "Timeseria.C26_false_uniform"
   ],
   "note": "[C26_uniform_partial] C26 (constant resolution): on a series of at least two items every `d` seconds (with that resolution), whose values are an affine function of time, the derivative is the slope at every item. [C26_interior_partial] The same for variable resolutions, at the items which are neither first nor last. [C26_false] C26 is false at the ends of a variable-resolution series: whatever sampling interval is autodetected, the derivative of `v(t) = t` at the times 0, 1, 3 is not 1 at both ends, as both end increments are divided by the same interval. [C26_false_uniform] C26 is false for some uniform series too: points every 1.05 seconds are given a resolution of 15 seconds (C20), and the derivative of `v(t) = t` is 0.07 instead of 1."
  },
  {
   "property": "C27",
   "status": "proved",
   "theorems": [
    "Timeseria.C27_normalize",
    "Timeseria.C27_range",
    "Timeseria.C27_idempotent",
    "Timeseria.C27_constant",
    "Timeseria.C27_witness"
   ],
   "note": "[C27_normalize] C27 (values): normalizing a series without constant labels succeeds and maps the value `x` of a label with extremes `mn < mx` to `(x - mn) / (mx - mn) * (b - a) + a`. [C27_range] C27 (range): normalizing to `[a, b]`, `a < b`, a series without constant labels: every value is in `[a, b]`, items with the smallest (largest) value of the label get `a` (`b`), and the order between values is kept. [C27_idempotent] C27 (idempotence): normalizing again to the same range changes no value. [C27_constant] C27 (constant label): if a label is constant, normalizing raises `ZeroDivisionError`. [C27_witness] the hypotheses of the theorems above are met by `exSeries` (and `exSlots`)"
  },
  {
   "property": "C28",
   "status": "proved",
   "theorems": [
    "Timeseria.C28_rescale",
    "Timeseria.C28_offset",
    "Timeseria.C28_rescale_inverse",
    "Timeseria.C28_offset_inverse",
    "Timeseria.C28_witness"
   ],
   "note": "[C28_rescale] C28 (rescale): every value of a label is multiplied by the factor of that label (1 for the labels not mentioned); items, places, labels and indexes are kept. [C28_offset] C28 (offset): every value of a label is shifted by the amount of that label (0 for the labels not mentioned); items, places, labels and indexes are kept. [C28_rescale_inverse] C28 (inverse): rescaling by `v` and then by `w`, the two factors of each label being inverse of each other, gives back the values of the original series. [C28_offset_inverse] C28 (inverse): shifting by `v` and then back gives the values of the original series. [C28_witness] C28 factors and shifts undoing each other, one per label"
  },
  {
   "property": "C29",
   "status": "proved",
   "theorems": [
    "Timeseria.C29_mavg",
    "Timeseria.C29_witness"
   ],
   "note": "[C29_mavg] C29: for a window of `w \u2265 1` items the moving average has one item for each original item from the `w`-th on, in the same place; its value for a label is the mean of the `w` values ending there. (With more than `length` items in the window the result is empty.) [C29_witness] C29 a window of two items"
  },
  {
   "property": "C30",
   "status": "proved",
   "theorems": [
    "Timeseria.C30_filter",
    "Timeseria.C30_missing",
    "Timeseria.C30_witness"
   ],
   "note": "[C30_filter] C30: filtering a dictionary series on a non-empty list of its labels keeps all the items with their places and indexes, and exactly those labels with their values. [C30_missing] C30 (missing label): asking for a label the series does not have raises `KeyError`. [C30_witness] C30 filtering on one label, and on one there is not"
  },
  {
   "property": "C31",
   "status": "proved",
   "theorems": [
    "Timeseria.C31_merge",
    "Timeseria.C31_refused",
    "Timeseria.C31_witness",
    "Timeseria.C31_empty",
    "Timeseria.C31_not_aligned"
   ],
   "note": "[C31_merge] C31: merging aligned series succeeds; the times of the result are exactly the times present in all the series, in order; each label carries the mean of its values over the series having it, and each data index the mean of its values over the series where it is set. [C31_refused] C31 (refusals): a series of variable resolution anywhere in the list, or a later series with another resolution, is refused (no result). [C31_empty] C31 (nothing to merge): merging no series at all is a `TypeError`, an empty first series is a `ValueError` and an empty second series an `IndexError` if the resolution of the first is not defined, and a `ValueError` if it is. [C31_not_aligned] C31 (not aligned): two series with the same resolution whose points fall at different instants are refused with a `KeyError`, list data with a `TypeError`."
  },
  {
   "property": "C32",
   "status": "proved",
   "theorems": [
    "Timeseria.C32_select",
    "Timeseria.C32_missing",
    "Timeseria.C32_witness"
   ],
   "note": "[C32_select] C32: `select('label=value')` returns exactly the items whose value for the label is the given one, in order; `None` (not the empty list) if there is none. [C32_missing] C32 (missing label): selecting on a label the series does not have raises an exception. [C32_witness] C32 two of four items, and none"
  },
  {
   "property": "C33",
   "status": "proved",
   "theorems": [
    "Timeseria.C33_rescale",
    "Timeseria.C33_offset",
    "Timeseria.C33_normalize",
    "Timeseria.C33_witness"
   ],
   "note": "[C33_rescale] C33 (rescale): the in-place variant leaves the series with the items the returning variant returns. [C33_offset] C33 (offset) [C33_normalize] C33 (normalize), for series without constant labels [C33_witness] C33 the smallest and largest values of the two labels"
  },
  {
   "property": "C34",
   "status": "proved",
   "theorems": [
    "Timeseria.C34_map",
    "Timeseria.C34_derivative",
    "Timeseria.C34_mavg",
    "Timeseria.C34_filter",
    "Timeseria.C34_slice",
    "Timeseria.C34_map_agrees",
    "Timeseria.C34_derivative_agrees",
    "Timeseria.C34_witness",
    "Timeseria.C34_mavg_agrees",
    "Timeseria.C34_filter_agrees",
    "Timeseria.C34_agrees_witness",
    "Timeseria.C34_filter_type",
    "Timeseria.C34_slice_agrees"
   ],
   "note": "[C34_map] C34 (rescale, offset, normalize): whatever is computed from each value. [C34_derivative] C34 (derivative) [C34_mavg] C34 (moving average) [C34_filter] C34 (filter) [C34_slice] C34 (slice): slicing leaves the input unchanged (but see C78). [C34_map_agrees] C34 (the model with objects agrees with the model with values): mapping operations give a series that reads like the one computed on values, or raise the same exception. [C34_witness] the hypotheses of C34 are met, and the operation succeeds [C34_mavg_agrees] C34 (the model with objects agrees with the model with values): moving averages give a series that reads like the one computed on values, or raise the same exception. [C34_filter_agrees] C34 (the model with objects agrees with the model with values): filtering. [C34_agrees_witness] the two operations on the series of two points of C34 [C34_filter_type] C34 (filters): filtering data that is not labelled raises `TypeError`. [C34_slice_agrees] C34 (slices): the slice by positions, in the model with objects, reads like the one on values."
  },
  {
   "property": "C35",
   "status": "proved",
   "theorems": [
    "Timeseria.C35_zero",
    "Timeseria.C35_expected",
    "Timeseria.C35_validity_regions",
    "Timeseria.C35_single_refused",
    "Timeseria.C35_interval",
    "Timeseria.C35_witness"
   ],
   "note": "[C35_zero] C35 (no interval given): an interval of 0 is the same as none for more than one point: the autodetected one is used. [C35_expected] C35 (closed form): for points in order, the region of a point extends half a sampling interval on either side, but not beyond the middle towards a neighbour. [C35_validity_regions] C35: for points in order and a positive sampling interval there is one region for each point, in the same order; the regions are disjoint; each contains its own point (in its interior) and is not longer than the sampling interval; two consecutive points at most one sampling interval apart leave no gap, and otherwise the gap is what exceeds the sampling interval. [C35_single_refused] C35 (single point): with one point and no sampling interval the call is refused. [C35_interval] C35 (within an interval): with an interval and with or without cutting, the regions are still those of some of the points in order, disjoint, not longer than the sampling interval, within the interval when cutting is requested, and otherwise around their own points. [C35_witness] a concrete case: three points, the last two closer than the sampling interval"
  },
  {
   "property": "C36",
   "status": "proved",
   "theorems": [
    "Timeseria.C36_coverage",
    "Timeseria.C36_full",
    "Timeseria.C36_none",
    "Timeseria.C36_refused",
    "Timeseria.C36_witness"
   ],
   "note": "[C36_coverage] C36: for points with disjoint validity regions in order and a non-empty interval, the coverage is the total length of the parts of the regions (of points that are not interpolated) within the interval, divided by the length of the interval; it is between 0 and 1. [C36_full] C36 (full): if the regions adjoin each other and together include the interval, the coverage is 1. [C36_none] C36 (none): if no region of a measured point meets the inside of the interval, the coverage is 0. [C36_refused] C36 (inverted interval) [C36_witness] a concrete case: two points covering three quarters of the interval"
  },
  {
   "property": "C37",
   "status": "proved",
   "theorems": [
    "Timeseria.C37_unresolved",
    "Timeseria.C37_fresh",
    "Timeseria.C37_witness"
   ],
   "note": "[C37_unresolved] C37 (series without a resolution): unless forced, the losses recorded in the points are left out when the series has no resolution: the data loss is what is not covered. [C37_fresh] C37: if no point carries a data loss, the data loss of an interval is the fraction of it not covered, hence between 0 and 1, whatever the other settings. [C37_witness] C37 the regions are in order, no loss was recorded: a half of the time between 60 and 180 is not covered"
  },
  {
   "property": "C38",
   "status": "proved",
   "theorems": [
    "Timeseria.C38_most_common",
    "Timeseria.C38_uniform",
    "Timeseria.C38_too_few",
    "Timeseria.C38_witness"
   ],
   "note": "[C38_most_common] C38 (most common spacing): when the number of different spacings is at most 95% of the number of points, the detection terminates at once and returns a spacing that occurs in the series, at least as often as every other one. [C38_uniform] C38 (uniform series): on a series of at least two points with constant spacing the detection returns that spacing, with confidence 1. [C38_too_few] C38 (too few points): an empty series and a series of one point are refused by exceptions. [C38_witness] concrete cases"
  },
  {
   "property": "C39",
   "status": "proved",
   "theorems": [
    "Timeseria.C39_range",
    "Timeseria.C39_step",
    "Timeseria.C39_period",
    "Timeseria.C39_dst",
    "Timeseria.C39_witness"
   ],
   "note": "[C39_range] C39: from the epoch on, for a resolution of `res` seconds and a positive periodicity, the index is in `[0, p)`; it counts the whole resolutions elapsed, modulo the periodicity. [C39_step] C39 (steps): moving forward by one step of the resolution increases the index by one, modulo the periodicity, and moving by a whole period leaves it as it is. [C39_dst] C39 (daylight saving time): with the flag set, the index is the one of the local clock: the timestamp shifted by the offset; resolutions above one hour are refused while daylight saving time is on. [C39_witness] concrete cases: hours of the day"
  },
  {
   "property": "C40",
   "status": "proved",
   "theorems": [
    "Timeseria.C40_percentage",
    "Timeseria.C40_absolute",
    "Timeseria.C40_refused",
    "Timeseria.C40_zero_true_value",
    "Timeseria.C40_witness"
   ],
   "note": "[C40_percentage] C40 (percentage errors): for lists of the same positive length whose true values are not zero, the MAPE is the mean and the MaxAPE the maximum of the absolute percentage errors; both are non-negative, the mean is at most the maximum, and the mean is zero exactly when the lists are equal. [C40_absolute] C40 (absolute and squared errors): for lists of the same positive length, the MAE is the mean and the MaxAE the maximum of the absolute errors, the MSE the mean of the squared errors; all are non-negative, the mean is at most the maximum, and each is zero exactly when the lists are equal. [C40_refused] C40 (refused): lists of different lengths are refused by all the metrics; the percentage errors refuse true values that are zero. [C40_witness] a concrete case"
  },
  {
   "property": "C41",
   "status": "proved",
   "theorems": [
    "Timeseria.C41_rescale",
    "Timeseria.C41_refused",
    "Timeseria.C41_witness"
   ],
   "note": "[C41_rescale] C41: for non-negative ranges with distinct source ends, `rescale` maps the source range to the target range: the ends to the ends, in a strictly monotone way (when the target is not a single value), and never outside the target range. [C41_refused] C41 (refused): a value outside the source range and any negative argument are refused."
  },
  {
   "property": "C42",
   "status": "proved",
   "theorems": [
    "Timeseria.C42_linear",
    "Timeseria.C42_affine",
    "Timeseria.C42_between",
    "Timeseria.C42_refused",
    "Timeseria.C42_witness"
   ],
   "note": "[C42_linear] C42: between two points (given by their indexes) the linear interpolator returns, for every label, the value of the line through the two points. [C42_affine] C42 (exact on straight lines): if the two values lie on a line, so does the interpolated one. [C42_between] C42 (within the end values) [C42_refused] C42 (refused): a timestamp that is not strictly between the two points is refused, and so is giving only one of the two indexes. [C42_witness] C42 and C87 between the second and the third point"
  },
  {
   "property": "C43",
   "status": "proved",
   "theorems": [
    "Timeseria.C43_within",
    "Timeseria.C43_after",
    "Timeseria.C43_witness"
   ],
   "note": "[C43_within] C43 (within the series): for a timestamp from the first point (included) to the last one (excluded), the neighbours are found: the result is the value of the line through the last point not after the timestamp and the next one. [C43_after] C43 (after the last point): refused. [C43_witness] concrete cases for the theorems above: inside, before, and with the indexes given"
  },
  {
   "property": "C44",
   "status": "proved",
   "theorems": [
    "Timeseria.C44_dense",
    "Timeseria.C44_values",
    "Timeseria.C44_witness"
   ],
   "note": "[C44_dense] C44: iterating over the dense view of points with regions in order gives the original points, in order, and in between exactly one interpolated point for each validity gap, whose region is the gap; in the result the timestamps increase and no gap is left. [C44_values] C44 (values): the values of an interpolated point are those of the line through its two neighbours, at the middle of the gap. [C44_witness] a concrete case"
  },
  {
   "property": "C45",
   "status": "proved",
   "theorems": [
    "Timeseria.C45_aggregation",
    "Timeseria.C45_witness"
   ],
   "note": "[C45_aggregation] C45: aggregating a series (in order, without data losses, with operations that do not fail) succeeds and gives slots one unit long that start at the first boundary `s` not before the first point and follow each other without gaps, as many as fit before the last point; the operations not using weights get exactly the points falling in the slot (besides interpolated ones), if there are any, and those using weights also the last point before and the first one after it. [C45_witness] a concrete case of the hypotheses and of the result"
  },
  {
   "property": "C46",
   "status": "proved",
   "theorems": [
    "Timeseria.C46_resampling",
    "Timeseria.C46_witness"
   ],
   "note": "[C46_resampling] C46: resampling a series to a unit of `u` seconds always succeeds and gives points exactly one unit apart, from the first position `s` of the grid whose interval `[s - u/2, s + u/2)` begins after the first point, as long as the interval ends no later than the last point; all are on the grid and within the time range."
  },
  {
   "property": "C47",
   "status": "partial",
   "theorems": [
    "Timeseria.C47_false",
    "Timeseria.C47_slots_partial",
    "Timeseria.C47_points_partial",
    "Timeseria.C47_witness"
   ],
   "note": "[C47_false] C47: with an explicit end, the items go beyond it whenever no point lies in the unit after the end: here the end is 120, the points are at 0, 60 and 300, and slots up to 300 are produced. [C47_slots_partial] the time of the end is on the boundaries counted from the start [C47_points_partial] the same for resampling: no point after the end, if some point lies in the unit beginning half a unit after the end (or there is none at all from there on) [C47_witness] a concrete case of the hypotheses: the end 60 on a series with points up to 120"
  },
  {
   "property": "C48",
   "status": "proved",
   "theorems": [
    "Timeseria.C48_convex",
    "Timeseria.C48_constant",
    "Timeseria.C48_witness"
   ],
   "note": "[C48_convex] C48: each value of a resampled point lies between any bounds of the values of the points involved (those in its interval, the last before and the first after it). [C48_constant] C48 (constants): a constant series is resampled to the same constant. [C48_witness] C48 a physical grid, points in order; the middle point is resampled to itself"
  },
  {
   "property": "C49",
   "status": "proved",
   "theorems": [
    "Timeseria.C49_resampled",
    "Timeseria.C49_aggregated",
    "Timeseria.C49_nothing",
    "Timeseria.C49_all",
    "Timeseria.C49_witness"
   ],
   "note": "[C49_resampled] C49 (resampling): the data loss of a resampled point is the fraction of its interval not covered by the validity regions of the series, for a series without data losses. [C49_aggregated] C49 (aggregation) [C49_nothing] C49 (nothing there): if no point is within half a sampling interval of `[a, b]`, nothing of it is covered, that is, the data loss is 1. [C49_all] C49 (all there): if consecutive points are at most one sampling interval apart and `[a, b]` lies between the first and the last one, it is covered completely, that is, the data loss is 0. [C49_witness] a concrete case: half of the interval is missing"
  },
  {
   "property": "C50",
   "status": "proved",
   "theorems": [
    "Timeseria.C50_points_round_trip",
    "Timeseria.C50_slots_round_trip"
   ],
   "note": "[C50_points_round_trip] C50 (points) Storing a series of points and reading it back gives a series with the same timestamps, labels, values and data indexes, item by item, whether the timestamp column, the format and the data type are given or detected, sorted or not, with or without `skip_errors`. [C50_slots_round_trip] C50 (slots) The same for slots, when their unit is given to `get` and the time zone of the storage is theirs."
  },
  {
   "property": "C51",
   "status": "proved",
   "theorems": [
    "Timeseria.C51_existing_file_not_overwritten",
    "Timeseria.C51_otherwise_written"
   ],
   "note": "[C51_existing_file_not_overwritten] C51 `put` without `overwrite` leaves an existing file as it is, and raises, for every series. [C51_otherwise_written] with `overwrite`, or with no file there, it goes on to write"
  },
  {
   "property": "C52",
   "status": "partial",
   "theorems": [
    "Timeseria.C52_failed_put_empties_the_file_false",
    "Timeseria.C52_no_data_empties_the_file_false",
    "Timeseria.C52_missing_index_leaves_half_a_file_false",
    "Timeseria.C52_good_series_partial"
   ],
   "note": "[C52_failed_put_empties_the_file_false] C52 is false: storing an empty series with `overwrite` raises, and whatever was stored is gone. [C52_no_data_empties_the_file_false] the same for a series of items without data [C52_missing_index_leaves_half_a_file_false] and when an item lacks a data index that others have, the file is left with a part of the series [C52_good_series_partial] C52, the part that holds: a refusal because the file exists changes nothing, and storing a series of dictionaries with the same data indexes on all items does not fail."
  },
  {
   "property": "C53",
   "status": "proved",
   "theorems": [
    "Timeseria.C53_rows_are_the_well_formed_lines",
    "Timeseria.C53_skip_errors_keeps_the_good_lines",
    "Timeseria.C53_all_lines_kept_without_errors",
    "Timeseria.C53_first_malformed_line_raises",
    "Timeseria.C53_comments_never_matter",
    "Timeseria.C53_automatic_format"
   ],
   "note": "[C53_rows_are_the_well_formed_lines] what `rowsOf` is: one row for each line that is not ignored and is well formed, in the order of the lines [C53_skip_errors_keeps_the_good_lines] C53: with `skip_errors` the malformed lines are dropped, and all the others are kept in order (`rowsOf`, whatever the malformed lines are). [C53_all_lines_kept_without_errors] C53: without `skip_errors`, when every line is well formed, every line is kept. [C53_first_malformed_line_raises] C53: without `skip_errors` the first malformed line raises, whatever follows. [C53_comments_never_matter] C53: comment lines, empty lines and lines without a separator never matter, wherever they are, for every file and every setting. [C53_automatic_format] C53 (format found automatically): with the default settings, where neither the column nor the format of the timestamps is given, a file with a header that is read gives the rows of a storage whose format is the one of the first timestamp that can be read: the rows of the well-formed lines, in order; and a line with a timestamp in the other format is malformed. Without skipping errors, all the lines are well formed."
  },
  {
   "property": "C54",
   "status": "proved",
   "theorems": [
    "Timeseria.C54_limit_takes_the_first_rows",
    "Timeseria.C54_limit_zero_is_no_limit",
    "Timeseria.C54_sort_orders_the_same_rows"
   ],
   "note": "[C54_limit_takes_the_first_rows] C54: with a limit `n`, the first `n` good rows, or all of them if there are fewer; a limit of zero counts as none. [C54_sort_orders_the_same_rows] C54: with `sort`, the rows are those read without it, ordered by timestamp, for every file and every setting."
  },
  {
   "property": "C55",
   "status": "proved",
   "theorems": [
    "Timeseria.C55_missing_slots_are_filled",
    "Timeseria.C55_physical_units_notice_every_gap"
   ],
   "note": "[C55_missing_slots_are_filled] C55: the slots read from a file with gaps, with no columns of data indexes. The labels are those of the file, at least one; the unit moves time forward; each gap is larger than the tolerance used for slots in succession, and smaller than the bound on the loop. [C55_physical_units_notice_every_gap] physical units of at least five seconds make every gap noticeable, for timestamps up to the year 2096"
  },
  {
   "property": "C56",
   "status": "proved",
   "theorems": [
    "Timeseria.C56_points_through_a_dictionary",
    "Timeseria.C56_slots_through_a_dictionary",
    "Timeseria.C56_points_through_json",
    "Timeseria.C56_slots_through_json"
   ],
   "note": "[C56_points_through_a_dictionary] C56 for points: `from_dict(to_dict())` gives back timestamps, time zones and data [C56_slots_through_a_dictionary] C56 for slots of a unit, when the unit is passed to `from_dict` [C56_points_through_json] C56 through JSON, for points: timestamps and data come back, on UTC [C56_slots_through_json] C56 through JSON, for slots of a unit with which the slots end where they do also on UTC"
  },
  {
   "property": "C57",
   "status": "proved",
   "theorems": [
    "Timeseria.C57_not_fitted",
    "Timeseria.C57_fitted"
   ],
   "note": "[C57_not_fitted] C57, first part: whatever the history of calls on a new model that has a `fit`, as long as no fit succeeded, `predict`, `apply`, `evaluate` and `save` raise `NotFittedError`. [C57_fitted] C57, second part: after any history ending with a successful fit on `m0` followed by any number of uses, `predict`, `apply` and `evaluate` run on the compatible series and raise on everything else, and `save` no longer raises `NotFittedError`."
  },
  {
   "property": "C58",
   "status": "partial",
   "theorems": [
    "Timeseria.C58_false",
    "Timeseria.C58_refused_partial"
   ],
   "note": "[C58_false] C58 is false: the model is fitted on the hourly series and predicts on it; a second fit on another series raises, and then the prediction on the hourly series raises as well. [C58_refused_partial] C58, what holds: a fit refused because its argument is not a time series, is empty or has a variable resolution leaves the model as it was; any other failing fit does not change whether the model counts as fitted, so that a model never fitted still refuses to predict. Missing: the resolution, the labels and the parameters after the other failures (false)."
  },
  {
   "property": "C59",
   "status": "proved",
   "theorems": [
    "Timeseria.C59_save_refuses",
    "Timeseria.C59_save_others",
    "Timeseria.C59_save_witness"
   ],
   "note": "[C59_save_refuses] C59, saving: it refuses an existing path, and in every case leaves the models saved before as they are. [C59_save_others] the other saved models are untouched [C59_save_witness] C59 a fitted model, and a directory there already: it is refused; with another name it is saved next to it"
  },
  {
   "property": "C60",
   "status": "proved",
   "theorems": [
    "Timeseria.C60_rounds",
    "Timeseria.C60_covers"
   ],
   "note": "[C60_rounds] C60, in one round: the items of the series are the ones before, the validated ones and the ones after; the model has been fitted on the items before, on the items after, or on both one after the other, and never on the validated ones. In particular the blocks all have the same length. [C60_covers] C60, over the rounds: the validated blocks, one after the other, are the first items of the series; what is never validated is shorter than the number of rounds."
  },
  {
   "property": "C61",
   "status": "proved",
   "theorems": [
    "Timeseria.C61_targets",
    "Timeseria.C61_windows",
    "Timeseria.C61_runs",
    "Timeseria.C61_steps"
   ],
   "note": "[C61_targets] C61 (targets): a target label missing from the data of an item is a `KeyError`, on list data a `TypeError`. [C61_windows] C61: the training rows are, in order, one for each position preceded by a whole window such that neither the items of the window nor the target reach the data loss limit: the window elements are the `W` items just before it, the target values (and the context) are read from the item itself. [C61_runs] C61, read from the rows: each row is a run of consecutive items of the series, the window followed by its target, all below the limit. [C61_steps] more than one step is refused"
  },
  {
   "property": "C62",
   "status": "proved",
   "theorems": [
    "Timeseria.C62_items",
    "Timeseria.C62_data",
    "Timeseria.C62_labels",
    "Timeseria.C62_copy",
    "Timeseria.C62_succeeds",
    "Timeseria.C62_short",
    "Timeseria.C62_short_gap"
   ],
   "note": "[C62_items] C62 (items): when a reconstructor ends without error the series has the same number of items; each keeps its place in time and all its other indexes, is marked as reconstructed exactly if its data loss reaches the threshold, and otherwise keeps its data. [C62_data] C62 (data): the data of each gap is what the predictor gave for that gap, on the series as reconstructed so far (original from the gap on). [C62_labels] C62 (labels): when the first item is not lossy, the labels used all along are those of the series. [C62_copy] C62 (copy): without `inplace` the result is the reconstruction of the items of the series. [C62_succeeds] C62 (success): with a predictor that never fails, reconstruction succeeds on every series of items with data, whatever the threshold and the losses. [C62_short] C62 (short predictions): a model which predicts less data than the gap has items, or something which is not a list nor a dictionary of lists, makes the call raise, `IndexError` in the first case and `TypeError` in the second. [C62_short_gap] C62 (short predictions): so the reconstruction of a gap of the items from `g` to `h` from a shorter list ends with `IndexError`."
  },
  {
   "property": "C63",
   "status": "proved",
   "theorems": [
    "Timeseria.C63_refused",
    "Timeseria.C63_outcome",
    "Timeseria.C63_values"
   ],
   "note": "[C63_refused] C63 (refused): a gap that starts at the first item or ends at the last one is refused. [C63_outcome] C63 (outcome): reconstructing a series by linear interpolation succeeds exactly if neither the first nor the last item is lossy; otherwise it is refused with `ValueError`. [C63_values] C63 (values): after a reconstruction by linear interpolation every item of a gap has, for every label, the value at its own time of the line through the item before and the item after the gap."
  },
  {
   "property": "C64",
   "status": "proved",
   "theorems": [
    "Timeseria.C64_averages",
    "Timeseria.C64_index",
    "Timeseria.C64_profile",
    "Timeseria.C64_outcome",
    "Timeseria.C64_values",
    "Timeseria.C64_restored",
    "Timeseria.C64_forecaster",
    "Timeseria.C64_forecaster_refused",
    "Timeseria.C64_forecaster_witness"
   ],
   "note": "[C64_averages] C64 (averages): fitting a periodic average reconstructor on a series whose items carry one label and have known losses gives, for each periodicity index, the mean of the values with that index among the items below the loss limit, and nothing for the indexes without such items. [C64_index] without daylight saving the index is the position in the period [C64_profile] C64 (periodic series): the averages of an exactly periodic series are its profile. [C64_outcome] C64 (outcome): reconstructing by periodic averages a series whose indexes are all known to the model succeeds exactly if neither the first nor the last item is lossy. [C64_values] C64 (values): after a reconstruction by periodic averages every item of a gap has the average of its index plus the mean distance of the two neighbours of the gap from their own averages. [C64_restored] C64 (periodic series plus a constant): a series that is the profile `f` of the model plus a constant outside its lossy items is that, everywhere, after the reconstruction. [C64_forecaster] C64 (forecaster): fitting the periodic average forecaster with a given periodicity on a series of which at least one item is below the loss limit stores, for every label, that periodicity, a window of that length and the means by index of the values of that label; the window of the model is that too. [C64_forecaster_refused] C64 (forecaster, nothing to learn from): if no item is below the limit the fit is refused with `ValueError`. [C64_forecaster_witness] a concrete case"
  },
  {
   "property": "C65",
   "status": "proved",
   "theorems": [
    "Timeseria.C65_points",
    "Timeseria.C65_slots",
    "Timeseria.C65_mark",
    "Timeseria.C65_success",
    "Timeseria.C65_refused"
   ],
   "note": "[C65_points] C65 (points): applying a forecaster for `n` steps returns the items of the series, marked as not forecast, followed by `n` points continuing the timestamps at the resolution of the series, marked as forecast, whose data are the predictions. The resolution stored in the model is the one of the series, otherwise the call is refused (C57). [C65_slots] C65 (slots): the same for slots: the forecasts are slots of the unit of the series, each starting where the previous one ends. [C65_mark] C65 (the mark): marking changes nothing but the forecast index. [C65_success] C65 (success): if the forecaster returns one prediction per step with the labels of the series, all at once or, when it does not support several steps, one by one, then applying it succeeds. [C65_refused] C65 (refusals): from an empty series an `IndexError`; after a point a prediction cannot be placed if the resolution is missing or variable (`TypeError`)."
  },
  {
   "property": "C66",
   "status": "proved",
   "theorems": [
    "Timeseria.C66_closed",
    "Timeseria.C66_items"
   ],
   "note": "[C66_closed] C66: if the series does not end within an event (its last `g + 1` items are normal), exactly the items of the events of at least the minimum persistence are marked, and nothing is raised. [C66_items] C66 (the series): each item is returned with the same data, time and other indexes, and with an `anomaly_event` index (or, with `replace`, an `anomaly` index) of 1 if it is in an event of at least the minimum persistence and 0 otherwise."
  },
  {
   "property": "C67",
   "status": "proved",
   "theorems": [
    "Timeseria.C67_apply",
    "Timeseria.C67_label",
    "Timeseria.C67_monotone",
    "Timeseria.C67_threshold",
    "Timeseria.C67_strategy"
   ],
   "note": "[C67_apply] C67 (the returned series): every returned item is an item of the series as it was, or has an anomaly index between 0 and 1. [C67_label] C67: for a density decreasing on the right of its location and bounds on that side, the index of a label is 0 up to the lower bound, 1 from the upper bound, and always between 0 and 1. [C67_monotone] C67 (monotone): a bigger error has at least the same index. [C67_threshold] C67 (threshold): with a threshold the index is 1 if it reaches the threshold and 0 otherwise. [C67_strategy] C67 (multivariate): the index of an item is the maximum, the minimum or the average of those of its labels, according to the strategy, and is between 0 and 1 if they are."
  },
  {
   "property": "C68",
   "status": "proved",
   "theorems": [
    "Timeseria.C68_forecaster",
    "Timeseria.C68_runs"
   ],
   "note": "[C68_forecaster] C68: a detector based on a forecaster returns, in order, one item for each item of the series after the window, with the same time: unchanged if it or an item of its window is too lossy, otherwise with an anomaly index and everything else as it was. [C68_runs] C68 (nothing is raised): with the metric defined on the values, bounds on the right of the location and a model that predicts, `apply` without details raises nothing."
  },
  {
   "property": "C69",
   "status": "proved",
   "theorems": [
    "Timeseria.C69_lists",
    "Timeseria.C69_left",
    "Timeseria.C69_right",
    "Timeseria.C69_units",
    "Timeseria.C69_eq"
   ],
   "note": "[C69_lists] C69 (lists): a unit whose value is a list is refused wherever a number is needed; two of them are added by concatenation. [C69_left] C69 (unit on the left): the operations of a numerical unit with a number are those of its value; only the division by zero fails. [C69_right] C69 (unit on the right): the same, for a division of a number other than zero. [C69_units] C69 (two units): the operations of two numerical units are those of their values, again with the exception of dividing zero. [C69_eq] C69 (equality): a unit equals a number or another unit exactly when the values are equal, and equality of units is an equivalence."
  },
  {
   "property": "C70",
   "status": "proved",
   "theorems": [
    "Timeseria.C70_chunks",
    "Timeseria.C70_plot"
   ],
   "note": "[C70_chunks] C70: with an aggregation factor, the rows are one for each complete chunk of consecutive items, in order; the row is placed halfway between the timestamp of the first item and that of the last one (the end, for slots), and has for each label the minimum, the mean and the maximum of the values of the items of the chunk. [C70_plot] C70 (the whole plot): a successful plot has the rows of the items of the series, aggregated by the chosen factor, for the labels asked for (by default, all those of the series) and the indexes asked for (by default, all)."
  },
  {
   "property": "C71",
   "status": "proved",
   "theorems": [
    "Timeseria.C71_rename",
    "Timeseria.C71_remove",
    "Timeseria.C71_rename_missing",
    "Timeseria.C71_history",
    "Timeseria.C71_witness",
    "Timeseria.C71_empty_data",
    "Timeseria.C71_lists"
   ],
   "note": "[C71_rename] C71 (rename): if all the items have the label, renaming succeeds; every item then has, under the new label, the value it had under the old one, the old label is gone and the other labels keep their values; places and indexes do not change. [C71_remove] C71 (remove): removing a label from a series with dictionary data succeeds; the label is gone from every item and the others keep their values. [C71_rename_missing] C71 (missing label): renaming a label the first item does not have raises `KeyError` and changes nothing. [C71_history] C71 (histories): after any history of appends, renames, removals and pops of the last item, all the items of the series carry the same labels, and the labels a new item is checked against are those of the first item. [C71_witness] the hypotheses of the rename theorem are met [C71_empty_data] C71 (nothing to rename): on a series whose reference data is an empty list or dictionary, renaming and removing a label raise `TypeError` and change nothing. [C71_lists] C71: on a series of lists, renaming and removing a label is a `TypeError` and changes nothing."
  },
  {
   "property": "C72",
   "status": "proved",
   "theorems": [
    "Timeseria.C72_all_data_indexes"
   ],
   "note": "[C72_all_data_indexes] C72 The list of all data indexes has no repetitions, contains exactly the indexes carried by some item, and is the same for any reordering of the items."
  },
  {
   "property": "C73",
   "status": "proved",
   "theorems": [
    "Timeseria.C73_plain_text_unchanged",
    "Timeseria.C73_outer_blanks_removed",
    "Timeseria.C73_outer_quotes_removed",
    "Timeseria.C73_result_has_no_outer_blanks",
    "Timeseria.C73_idempotent_without_quotes",
    "Timeseria.C73_placeholder_is_never_a_number",
    "Timeseria.C73_quoted_placeholder_is_never_a_number",
    "Timeseria.C73_number_read_back",
    "Timeseria.C73_quoted_number_read_back",
    "Timeseria.C73_decimal_comma",
    "Timeseria.C73_number_or_refused",
    "Timeseria.C73_which_blanks"
   ],
   "note": "[C73_plain_text_unchanged] C73: a text without blanks and quotes is left as it is, unless it is a placeholder. [C73_outer_blanks_removed] C73: blanks around a text do not matter. [C73_outer_quotes_removed] C73: neither does a pair of quotes around it, inside of those blanks. [C73_result_has_no_outer_blanks] C73: the result never starts or ends with a blank. [C73_idempotent_without_quotes] C73: sanitizing a second time changes nothing when there are no quotes left. [C73_placeholder_is_never_a_number] C73: a placeholder for missing data, with or without dots, capital letters and blanks around it, never becomes a number: it is refused, or `None` for a data index. [C73_quoted_placeholder_is_never_a_number] C73: and the same inside of quotes. [C73_number_read_back] C73: a number written as text is read back, whatever blanks there are around it. [C73_quoted_number_read_back] C73: also in quotes. [C73_decimal_comma] C73: a decimal comma is read as a decimal point. [C73_number_or_refused] C73: text is a number or is refused with the one exception the loader handles; for a data index it is never refused. [C73_which_blanks] C73 (blanks): the characters removed around a text are the space, the tabulations, the line feed, the carriage return and the form feed, and no other."
  },
  {
   "property": "C74",
   "status": "proved",
   "theorems": [
    "Timeseria.C74_slot_well_formed",
    "Timeseria.C74_generic_slot",
    "Timeseria.C74_generic_refused"
   ],
   "note": "[C74_slot_well_formed] C74 Creating a time slot refuses equal ends, different time zones and a missing end without a unit; otherwise it succeeds, and a slot made from a start and a physical unit ends one unit after its start and carries that unit. [C74_generic_slot] C74 in any number of dimensions: different dimensions and equal ends are refused, anything else is accepted. [C74_generic_refused] C74 (the exceptions): what is refused for a slot in any number of dimensions is refused with a `ValueError`."
  },
  {
   "property": "C75",
   "status": "partial",
   "theorems": [
    "Timeseria.C75_false",
    "Timeseria.C75_slot_forward_partial"
   ],
   "note": "[C75_false] C75 is false: a slot can be created ending before it starts, and with a unit that is not its length. [C75_slot_forward_partial] C75, partial: a slot made from a start and a positive physical unit, or from a start and a later end without giving a unit, ends after it starts and its length is its unit."
  },
  {
   "property": "C76",
   "status": "partial",
   "theorems": [
    "Timeseria.C76_false",
    "Timeseria.C76_slots_ordered_partial"
   ],
   "note": "[C76_false] C76 is false: the tolerance of the succession check is relative to the epoch timestamp (about 1.7 seconds nowadays), so that the same one-second slot can be appended twice. [C76_slots_ordered_partial] C76, partial: if each slot is longer than the tolerance (a billionth of its end or of the following start) the slots of a series are strictly increasing in time."
  },
  {
   "property": "C77",
   "status": "proved",
   "theorems": [
    "Timeseria.C77_head_tail"
   ],
   "note": "[C77_head_tail] C77: on a good non-empty series, `head(n)` gives the first `n` items for every `n \u2265 0` and `tail(n)` the last `n` for every `n \u2265 1`. `tail(0)` is C202."
  },
  {
   "property": "C78",
   "status": "partial",
   "theorems": [
    "Timeseria.C78_false",
    "Timeseria.C78_mavg_partial"
   ],
   "note": "[C78_false] C78 is false: the data loss of the first item of the input is 0, and becomes 1 when the data loss of the first item of a rescaled, derived or filtered series is set; changing a value in a slice changes the series it was taken from. [C78_mavg_partial] C78, the part that holds: a moving average has data indexes of its own; changing them does not alter the input."
  },
  {
   "property": "C79",
   "status": "partial",
   "theorems": [
    "Timeseria.C79_csum_lists",
    "Timeseria.C79_csum_lists_witness",
    "Timeseria.C79_integral_lists_false",
    "Timeseria.C79_integral_lists_witness",
    "Timeseria.C79_false_derivative",
    "Timeseria.C79_false_integral",
    "Timeseria.C79_csum_partial",
    "Timeseria.C79_csum_witness",
    "Timeseria.C79_derivative_false",
    "Timeseria.C79_derivative_witness",
    "Timeseria.C79_csum_refused_partial",
    "Timeseria.C79_derivative_refused_partial"
   ],
   "note": "[C79_csum_lists] C79 (`csum`, lists): on a series with list data and a constant resolution the in-place `csum` returns, and leaves the series with the items, label by label, which the other variant returns. [C79_integral_lists_false] C79 is false for `integral` on every series with list data: the in-place variant never reads the values after the first item. Two series with the same first item, and whose other items differ at most in their list data, are left with the same items. [C79_integral_lists_witness] the hypotheses are met, and the two results of the variant which is not in place differ [C79_false_derivative] C79 is false for `derivative`: on three points with dictionary data the in-place variant raises `KeyError` where the other one succeeds, because the labels are asked again after the first item got its new label. With list data it succeeds but computes other values (here the second is 2 instead of 3), because it overwrites the values it still needs. [C79_false_integral] C79 is false for `integral` and `csum`: the in-place variants add a second label, computed from the one just added, to every item but the first; the items do not have the same labels any more. [C79_csum_partial] C79 (`csum`, partial): whenever the in-place `csum` of a series with dictionary data returns, every item is where it was, has its indexes, its labels with their values and, under `label_csum`, the value that the variant which is not in place returns. Missing: the items after the first have further labels (`label_csum_csum`), see `C79_false_integral`; labels which already end with the postfix. (List data: `C79_csum_lists`.) [C79_csum_witness] the hypotheses are met: three points, and the in-place call returns [C79_derivative_false] C79 is false for `derivative` on every series with dictionary data and at least three items (unless all its labels have a derivative already): the in-place variant never returns. [C79_derivative_witness] the hypotheses are met by the three points above [C79_csum_refused_partial] C79, partial (refusals of the cumulative sum): in place as otherwise, the cumulative sum of an empty series, or of a series whose resolution is variable, is a `ValueError`. [C79_derivative_refused_partial] C79, partial (refusals of the derivative): the derivative in place of a series with one item is a `ValueError`."
  },
  {
   "property": "C80",
   "status": "partial",
   "theorems": [
    "Timeseria.C80_partial",
    "Timeseria.C80_partial_witness",
    "Timeseria.C80_false"
   ],
   "note": "[C80_partial] C80 (partial): after any history of appends, renames, removals and pops of the last item followed by any number of pops of the first item, a new item with the labels of the items left is not refused because of them (it is accepted or refused as an item with the data of one of them at the same place), and one with other labels is refused. Missing: renames and removals after the first item has been popped, see `C80_false`. [C80_partial_witness] a history meeting the hypotheses: after popping the first of two items one is left [C80_false] C80 is false after the first item has been popped: the reference is still the data of the popped item, which is not renamed; then an item with the new label is refused and one with the old label is accepted. Without the pop it is the other way round."
  },
  {
   "property": "C81",
   "status": "partial",
   "theorems": [
    "Timeseria.C81_same_class_partial",
    "Timeseria.C81_false"
   ],
   "note": "[C81_same_class_partial] C81 for series built by appends [C81_false] C81 is false with `insert`: an item with data can be put before one without."
  },
  {
   "property": "C82",
   "status": "partial",
   "theorems": [
    "Timeseria.C82_spaced_partial",
    "Timeseria.C82_false",
    "Timeseria.C82_witness"
   ],
   "note": "[C82_spaced_partial] C82: if the points are at least one sampling interval apart, none of their regions contains the whole interval and their data losses are between 0 and 1, then so is the data loss of the interval. [C82_false] C82 is false: (1) an interval inside the region of one point with a data loss (upsampling), and (2) points closer than the sampling interval, give a data loss above 1. [C82_witness] the hypotheses of the partial theorems are met"
  },
  {
   "property": "C83",
   "status": "partial",
   "theorems": [
    "Timeseria.C83_false",
    "Timeseria.C83_false_witness",
    "Timeseria.C83_terminates_partial"
   ],
   "note": "[C83_false] C83 is false: if the number of different spacings is above 95% of the number of points and they are whole numbers of seconds, the detection never terminates: no number of iterations is enough. [C83_false_witness] such series exist: the detection does not terminate on this one [C83_terminates_partial] C83, what holds: the detection terminates if the different spacings, possibly after rounding them to whole seconds, are at most 95% of the number of points; in the second case the result is a rounded spacing."
  },
  {
   "property": "C84",
   "status": "partial",
   "theorems": [
    "Timeseria.C84_false",
    "Timeseria.C84_false_witness",
    "Timeseria.C84_first_read_partial"
   ],
   "note": "[C84_false] C84 is false: once read, the detected sampling interval never changes, whatever is appended later. [C84_false_witness] two series with the same points report different sampling intervals [C84_first_read_partial] C84, what holds: a series whose sampling interval was never read reports the one detected on its contents."
  },
  {
   "property": "C85",
   "status": "partial",
   "theorems": [
    "Timeseria.C85_false",
    "Timeseria.C85_aligned_partial"
   ],
   "note": "[C85_false] C85 is false: before the epoch the index does not advance from one step to the next: the half hours before and after midnight of 1 January 1970 get the same index, because the division is truncated towards zero. [C85_aligned_partial] C85, what holds: for timestamps that are multiples of the resolution the index advances by one at each step also before the epoch."
  },
  {
   "property": "C86",
   "status": "partial",
   "theorems": [
    "Timeseria.C86_partial",
    "Timeseria.C86_C88_witness",
    "Timeseria.C86_false",
    "Timeseria.C86_witness"
   ],
   "note": "[C86_partial] C86 (partial): with the neighbours given, as the transformations do, a timestamp not after the first of the two is refused; without them a timestamp before the only point of a series raises too. Missing: with two or more points and without neighbours it is not refused, see `C86_false`. [C86_C88_witness] concrete cases [C86_false] C86 is false: a timestamp before the first point is not refused: the value returned is the one of the line through the last and the first point."
  },
  {
   "property": "C87",
   "status": "proved",
   "theorems": [
    "Timeseria.C87_uniform"
   ],
   "note": "[C87_uniform] C87: with the neighbours given (and the timestamp between them) the uniform interpolator returns the mean of the two values, for every label, which lies between them."
  },
  {
   "property": "C88",
   "status": "partial",
   "theorems": [
    "Timeseria.C88_partial",
    "Timeseria.C88_false",
    "Timeseria.C88_false_witness",
    "Timeseria.C88_given_partial",
    "Timeseria.C88_given_witness"
   ],
   "note": "[C88_partial] C88 (partial): a timestamp from the last point on is refused, as it should be. Missing: so is every other one from the first point on, and one before the first is not, see `C88_false`. [C88_false] C88 is false: without the neighbours the uniform interpolator refuses every timestamp from the first point on, also those within the series. [C88_false_witness] and before the first point it answers with the mean of the first and the last value [C88_given_partial] C88 (partial, the neighbours given): with the indexes `p \u2265 1` and `n` of the items before and after, the value of each label is half way between those of the two items; a timestamp which is not between the two raises `ValueError`. [C88_given_witness] a concrete case"
  },
  {
   "property": "C89",
   "status": "proved",
   "theorems": [
    "Timeseria.C89_resampled",
    "Timeseria.C89_aggregated",
    "Timeseria.C89_witness"
   ],
   "note": "[C89_resampled] C89 (resampling): every data index of the series, other than the data loss, is on the new points, and its value (if not missing) is within any bounds of its values on the points involved. [C89_aggregated] C89 (aggregation) [C89_witness] a concrete case: anomaly indexes 0 and 1 (and one missing)"
  },
  {
   "property": "C90",
   "status": "partial",
   "theorems": [
    "Timeseria.C90_false",
    "Timeseria.C90_slots_partial",
    "Timeseria.C90_witness"
   ],
   "note": "[C90_false] C90: an explicit start is not respected: zero is ignored; a start more than one unit before the first point is an error; and the points of a resampling are half a unit away from it and from the grid. [C90_slots_partial] For slots and a start which is not zero and less than one unit before the first point: the first slot starts there. [C90_witness] a concrete case of the hypotheses"
  },
  {
   "property": "C91",
   "status": "partial",
   "theorems": [
    "Timeseria.C91_false",
    "Timeseria.C91_resampled_partial",
    "Timeseria.C91_aggregated_partial"
   ],
   "note": "[C91_false] C91: an aggregation can change the values of the series it is applied to: here a slot has no points but is partly covered. [C91_resampled_partial] resampling never does, whatever the start and the end [C91_aggregated_partial] an aggregation does not, if each slot has a point in it or nothing of it is covered"
  },
  {
   "property": "C92",
   "status": "partial",
   "theorems": [
    "Timeseria.C92_false",
    "Timeseria.C92_average_partial",
    "Timeseria.C92_witness"
   ],
   "note": "[C92_false] C92: the average of a series changes after the series was aggregated: the weights left on its points are taken into account. [C92_average_partial] The average is as before if the series has at least two points at or after the end of the last new item. [C92_witness] a concrete case of the hypotheses: slots of two minutes on points up to 180 seconds"
  },
  {
   "property": "C93",
   "status": "partial",
   "theorems": [
    "Timeseria.C93_false",
    "Timeseria.C93_filled_partial",
    "Timeseria.C93_witness"
   ],
   "note": "[C93_false] C93: asking to fill the missing slots with zero does nothing: the interpolated value is used. [C93_filled_partial] With a value other than zero, a slot of which nothing is covered has that value for every label and operation."
  },
  {
   "property": "C94",
   "status": "partial",
   "theorems": [
    "Timeseria.C94_false",
    "Timeseria.C94_resampled_partial"
   ],
   "note": "[C94_false] C94: aggregating a series that has data losses (as every resampled series may have) can fail, here for a unit shorter than the sampling interval. [C94_resampled_partial] Resampling such series never fails, and neither does aggregating those without losses (C45)."
  },
  {
   "property": "C95",
   "status": "partial",
   "theorems": [
    "Timeseria.C95_false",
    "Timeseria.C95_convex_partial",
    "Timeseria.C95_witness"
   ],
   "note": "[C95_false] C95: the averages of an aggregation are not always within the bounds of the values: here all the values are 1. [C95_convex_partial] If each slot has a point in it or nothing of it is covered, the averages of an aggregation are within any bounds of the values of the points involved. [C95_witness] a concrete case of the hypotheses: three points, slots of two minutes"
  },
  {
   "property": "C96",
   "status": "proved",
   "theorems": [
    "Timeseria.C96_resampled",
    "Timeseria.C96_aggregated",
    "Timeseria.C96_avg_labels"
   ],
   "note": "[C96_resampled] C96 (resampling): the new points are accepted one after the other by a new series, for units of at least a tenth of a millisecond. [C96_aggregated] C96 (aggregation): the new slots are accepted one after the other by a new series; their labels are those of the series followed by the name of each operation. [C96_avg_labels] the average keeps the labels, as required above"
  },
  {
   "property": "C97",
   "status": "partial",
   "theorems": [
    "Timeseria.C97_short_lines_dropped_partial",
    "Timeseria.C97_short_line_raises_in_spite_of_skip_errors_false",
    "Timeseria.C97_parts_false"
   ],
   "note": "[C97_short_lines_dropped_partial] C97, the part that holds: when the timestamp is in the first column, `skip_errors` drops every malformed line, however short. [C97_short_line_raises_in_spite_of_skip_errors_false] C97 is false: when the timestamp is in another column, a line that is too short raises `IndexError` although `skip_errors` is set (for every file with such a line right after the header). [C97_parts_false] C97 is false also for these columns: a line without the column of the time is fatal even if errors are skipped."
  },
  {
   "property": "C98",
   "status": "partial",
   "theorems": [
    "Timeseria.C98_label_timestamp_false",
    "Timeseria.C98_label_underscores_false",
    "Timeseria.C98_list_comes_back_as_dictionary_false",
    "Timeseria.C98_placeholder_label_false",
    "Timeseria.C98_other_separator_false",
    "Timeseria.C98_plain_labels_partial"
   ],
   "note": "[C98_label_timestamp_false] C98 is false: a label `timestamp` takes the place of the timestamps. [C98_label_underscores_false] a label starting with two underscores comes back as a data index [C98_list_comes_back_as_dictionary_false] lists come back as dictionaries [C98_placeholder_label_false] a placeholder as label shifts the names of the columns: here `na` is dropped, and the file cannot be read [C98_other_separator_false] `put` always writes commas: a storage with another separator cannot read its own files [C98_plain_labels_partial] C98, the part that holds: see `C50_points_round_trip`; here for a storage with default settings."
  },
  {
   "property": "C99",
   "status": "partial",
   "theorems": [
    "Timeseria.C99_row_after_a_gap_loses_its_indexes_false",
    "Timeseria.C99_gap_before_another_row_raises_false",
    "Timeseria.C99_no_gaps_partial"
   ],
   "note": "[C99_row_after_a_gap_loses_its_indexes_false] C99 is false: the row closing a gap loses its data indexes, here an anomaly of 1/4 [C99_gap_before_another_row_raises_false] and a gap anywhere but before the last row makes the file unreadable [C99_no_gaps_partial] C99, the part that holds: with no slot missing, every row is there with its values and its data indexes."
  },
  {
   "property": "C100",
   "status": "partial",
   "theorems": [
    "Timeseria.C100_gap_of_one_second_not_filled_false",
    "Timeseria.C100_five_seconds_partial"
   ],
   "note": "[C100_gap_of_one_second_not_filled_false] C100 is false: slots of one second in 2020; the one missing is not noticed, and the series has a hole [C100_five_seconds_partial] C100, the part that holds: slots of five seconds or more, for timestamps up to the year 2096, leave no hole"
  },
  {
   "property": "C101",
   "status": "partial",
   "theorems": [
    "Timeseria.C101_repeated_slot_raises_false",
    "Timeseria.C101_points_partial"
   ],
   "note": "[C101_repeated_slot_raises_false] C101 is false for slots: a row at the same time as the one before makes the reading fail in spite of `skip_errors` [C101_points_partial] C101, the part that holds: when points are read, the reading does not fail, and the items are some of the rows, in their order"
  },
  {
   "property": "C102",
   "status": "partial",
   "theorems": [
    "Timeseria.C102_data_indexes_lost_false",
    "Timeseria.C102_time_zone_lost_in_json_false",
    "Timeseria.C102_slots_become_points_false",
    "Timeseria.C102_below_a_microsecond_false",
    "Timeseria.C102_plain_points_partial"
   ],
   "note": "[C102_data_indexes_lost_false] C102 is false: data indexes are lost [C102_time_zone_lost_in_json_false] the time zone is lost through JSON [C102_slots_become_points_false] slots become points if the unit is not given again [C102_below_a_microsecond_false] timestamps finer than a microsecond are changed [C102_plain_points_partial] C102, the part that holds: points on UTC without data indexes, with dictionaries or lists as data, come back as they were, through a dictionary and through JSON"
  },
  {
   "property": "C103",
   "status": "partial",
   "theorems": [
    "Timeseria.C103_data_loss_becomes_data_false",
    "Timeseria.C103_other_indexes_lost_false",
    "Timeseria.C103_lists_refused_false",
    "Timeseria.C103_no_data_loss_partial",
    "Timeseria.C103_empty_series_false"
   ],
   "note": "[C103_data_loss_becomes_data_false] C103 is false: the data loss comes back as one more label of the data [C103_other_indexes_lost_false] other data indexes are lost [C103_lists_refused_false] a series of lists cannot be converted [C103_no_data_loss_partial] C103, the part that holds: points with dictionaries as data and no data loss come back with their timestamps, time zones and values [C103_empty_series_false] C103 fails for the series with no items: it cannot be converted to a data frame at all, whatever its time zone and resolution, because it has no labels and `None` cannot be added to the columns."
  },
  {
   "property": "C104",
   "status": "partial",
   "theorems": [
    "Timeseria.C104_false",
    "Timeseria.C104_nonempty_partial"
   ],
   "note": "[C104_false] C104 is false: with more rounds than items every round validates on no item at all; with a single round the model is fitted on no item. [C104_nonempty_partial] C104, what holds: with at least two rounds and no more rounds than items, every round trains and validates on some item."
  },
  {
   "property": "C105",
   "status": "partial",
   "theorems": [
    "Timeseria.C105_false",
    "Timeseria.C105_unfitted_partial"
   ],
   "note": "[C105_false] C105 is false: a model never fitted by its user, after a cross validation interrupted by an exception, predicts (from a fit on one part of the series). [C105_unfitted_partial] C105, what holds: a cross validation that returns leaves the model unfitted, so that it still refuses to predict and can be cross validated again; a refused one leaves it as it was."
  },
  {
   "property": "C106",
   "status": "proved",
   "theorems": [
    "Timeseria.C106_results"
   ],
   "note": "[C106_results] C106: the results of a cross validation are, for each metric of the first evaluation, the mean and the sample variance (the square of the reported standard deviation) of the scores of the rounds, one score per round."
  },
  {
   "property": "C107",
   "status": "partial",
   "theorems": [
    "Timeseria.C107_false",
    "Timeseria.C107_stateless_partial"
   ],
   "note": "[C107_false] C107 is false: a model with parameters and no `fit` raises a `KeyError` when predicting on any series it could work on, since no fit ever stored a resolution. [C107_stateless_partial] C107, what holds: models with neither parameters nor `fit` work on every non-empty series of fixed resolution."
  },
  {
   "property": "C108",
   "status": "partial",
   "theorems": [
    "Timeseria.C108_false",
    "Timeseria.C108_view_partial"
   ],
   "note": "[C108_false] C108 is false: a series of one point, with the labels of the fit, is refused for its resolution. [C108_view_partial] C108, what holds: the point is accepted when it is given as a view of one item of a series with the resolution of the fit."
  },
  {
   "property": "C109",
   "status": "partial",
   "theorems": [
    "Timeseria.C109_false",
    "Timeseria.C109_no_limit_partial"
   ],
   "note": "[C109_false] C109 is false: an item whose data loss index is there but unknown (`None`, as in the slots created by a forecast) makes the extraction of the windows raise a `TypeError` when there is a limit."
  },
  {
   "property": "C110",
   "status": "partial",
   "theorems": [
    "Timeseria.C110_missing_partial",
    "Timeseria.C110_false",
    "Timeseria.C110_features_partial"
   ],
   "note": "[C110_missing_partial] C110 (partial, missing values): the values of an item for the labels it does not have are 0. [C110_false] C110 is false: for constant data every difference is 0 and every feature is 1, the same as for data growing by 1 at each step. [C110_features_partial] C110, what holds: for a window of at least two items, all carrying the labels, there is one feature vector per item: its values in the order of the labels, then its differences, then its hour as a fraction of the day; the differences are the proper ones except that a difference of 0 becomes 1."
  },
  {
   "property": "C111",
   "status": "proved",
   "theorems": [
    "Timeseria.C111_short",
    "Timeseria.C111_range_refused",
    "Timeseria.C111_unknown",
    "Timeseria.C111_normalize",
    "Timeseria.C111_predict",
    "Timeseria.C111_window"
   ],
   "note": "[C111_short] C111 (window): the neural network forecaster refuses with `ValueError` a series shorter than its window, whatever is asked. [C111_range_refused] C111 (ranges): normalised fits need data: no data is a `ValueError`, a label missing from the first of the data a `KeyError`. [C111_unknown] C111 (labels): a window with a label the fit has not seen is refused with `KeyError` by a normalised model, and so is an output for such a label. [C111_normalize] C111, one value: normalising with the least and the greatest training value gives a number between 0 and 1 for the training values, and the denormalisation gives back the value. [C111_predict] C111, the prediction: when the network answers with the normalised values of some data, the forecaster predicts that data. [C111_window] C111 the prediction depends only on the last items of the series, as many as the window."
  },
  {
   "property": "C112",
   "status": "partial",
   "theorems": [
    "Timeseria.C112_false",
    "Timeseria.C112_normalized_partial"
   ],
   "note": "[C112_false] C112 is false in two ways: a label with a constant value cannot be normalised, and a fit without normalisation keeps the ranges of an earlier fit with it, which `predict` then applies. [C112_normalized_partial] C112, what holds: when every label takes at least two different values, a fit with normalisation succeeds whatever was stored before, gives the same result, trains on values between 0 and 1, and the stored ranges give back the original values."
  },
  {
   "property": "C113",
   "status": "partial",
   "theorems": [
    "Timeseria.C113_unchanged_false",
    "Timeseria.C113_places_partial"
   ],
   "note": "[C113_unchanged_false] C113 is false: an in-place reconstruction that is refused leaves the series partly reconstructed and marked. [C113_places_partial] C113 (part): a refused in-place reconstruction still keeps the number of items and the place in time of each."
  },
  {
   "property": "C114",
   "status": "partial",
   "theorems": [
    "Timeseria.C114_mape_false",
    "Timeseria.C114_scores_partial"
   ],
   "note": "[C114_mape_false] C114 is false: the mean absolute percentage error of an evaluation is not the one of the predicted values with respect to the actual ones. [C114_scores_partial] C114 (part): the other two scores are those of the predicted values with respect to the actual ones: they do not depend on the order. The percentage error is relative to the predicted values."
  },
  {
   "property": "C115",
   "status": "partial",
   "theorems": [
    "Timeseria.C115_linear_false",
    "Timeseria.C115_lists_partial",
    "Timeseria.C115_type_false"
   ],
   "note": "[C115_linear_false] C115 is false: the linear interpolation reconstructor can be applied but never evaluated: every evaluation raises, whatever the series, the threshold, the limit and the steps. [C115_lists_partial] C115 (part): a model that predicts dictionaries of non-empty lists on the usable areas can be evaluated, if there is a usable area. [C115_type_false] C115 (which exception): a model that predicts a list of dictionaries (as the linear interpolation one does) cannot be evaluated: as soon as an area can be used the evaluation raises `TypeError`."
  },
  {
   "property": "C116",
   "status": "partial",
   "theorems": [
    "Timeseria.C116_areas_partial",
    "Timeseria.C116_areas_false",
    "Timeseria.C116_values"
   ],
   "note": "[C116_areas_partial] C116 (part): the areas where a model with window `W` is evaluated are those with `W` items before, `W` items and one more after, and no lossy item in the area and the windows. [C116_areas_false] C116 is false: a series without any loss, long enough for the windows around one item, is not evaluated at all although the model predicts that item. [C116_values] C116 (values): the values compared in an evaluation are, area by area and in order (the first `limit` of the usable areas), the ones predicted and the ones of the series."
  },
  {
   "property": "C117",
   "status": "partial",
   "theorems": [
    "Timeseria.C117_value_partial",
    "Timeseria.C117_exact_partial",
    "Timeseria.C117_constant_false",
    "Timeseria.C117_one_false",
    "Timeseria.C117_steps_partial"
   ],
   "note": "[C117_value_partial] C117 (what is forecast): for a series that, on the window, is the profile `f` plus a constant `c`, the forecast is the profile plus `c * w / (w - 1)`: off by `c / (w - 1)`. [C117_exact_partial] C117 (no constant): with the window exactly on the profile the forecast is the profile. [C117_constant_false] C117 is false: fitted on 1, 5, 1, 5 and applied to 11, 15, 11, 15 the forecaster predicts 21, 25. [C117_one_false] C117 is false for a periodicity of one as well: the forecast raises. [C117_steps_partial] C117 (partial, the steps): a prediction for `n` steps has `n` elements with the labels of the model, the `i`-th one computed for the time at which the `i`-th following item is: that many resolutions after the last point, or after the end of the last slot."
  },
  {
   "property": "C118",
   "status": "partial",
   "theorems": [
    "Timeseria.C118_last_false",
    "Timeseria.C118_window_partial",
    "Timeseria.C118_enough_partial"
   ],
   "note": "[C118_last_false] C118 is false: the forecast does not depend on the data of the last item. [C118_window_partial] C118 (part): the forecast depends only on the place of the last item and on the items of the window, so that older items do not matter. [C118_enough_partial] C118 (window), partial: a series shorter than the window is refused with `ValueError`; one with exactly as many items is not, as long as the values can be computed."
  },
  {
   "property": "C119",
   "status": "partial",
   "theorems": [
    "Timeseria.C119_window_false",
    "Timeseria.C119_auto_partial"
   ],
   "note": "[C119_window_false] C119 is false: a forecaster created with a window can never be fitted. [C119_auto_partial] the averages of each label after a fit"
  },
  {
   "property": "C120",
   "status": "partial",
   "theorems": [
    "Timeseria.C120_first_false",
    "Timeseria.C120_given_partial"
   ],
   "note": "[C120_first_false] C120 is false: with automatic detection all the labels get the periodicity detected on the first. [C120_given_partial] C120 (part): a given periodicity is the one of every label."
  },
  {
   "property": "C121",
   "status": "partial",
   "theorems": [
    "Timeseria.C121_reconstructor_false",
    "Timeseria.C121_forecaster_partial"
   ],
   "note": "[C121_reconstructor_false] C121 is false: a periodic average reconstructor, once saved and loaded, never predicts anything: whatever it was fitted on, every prediction raises. [C121_forecaster_partial] C121 (part): the forecaster, whose `load` restores the keys, is loaded as it was saved, hence predicts the same."
  },
  {
   "property": "C122",
   "status": "partial",
   "theorems": [
    "Timeseria.C122_failed_false",
    "Timeseria.C122_kept_partial"
   ],
   "note": "[C122_failed_false] C122 is false: a forecaster that fails leaves its marks on the series it was applied to in place, and the forecasts made before the failure stay in it. [C122_kept_partial] C122 (part): whatever happens, the items that were in the series are still there, changed at most in their forecast mark, and what is added comes after them."
  },
  {
   "property": "C123",
   "status": "partial",
   "theorems": [
    "Timeseria.C123_list_false",
    "Timeseria.C123_dict_partial"
   ],
   "note": "[C123_list_false] C123 is false: a forecaster that raises `NotImplementedError` for several steps and returns the prediction of one step as a list (which the evaluation accepts) can never be applied. [C123_dict_partial] C123 (part): if it returns the prediction of one step as a dictionary it can be applied for any number of steps."
  },
  {
   "property": "C124",
   "status": "proved",
   "theorems": [
    "Timeseria.C124_pairs",
    "Timeseria.C124_first",
    "Timeseria.C124_missing",
    "Timeseria.C124_witness"
   ],
   "note": "[C124_pairs] C124: the evaluation compares, in order and once each, the value of every item from the window on with a prediction for it; items before the window are not compared. [C124_first] C124 (which prediction): when the model predicts a list, the prediction compared with the actual value is the first one of the list, that is the one for the item following those the model was given. [C124_missing] C124 (no prediction): a predictor answering with an empty list makes the evaluation an `IndexError`, one which leaves out the label a `KeyError`. [C124_witness] C124 the second and third of three points, each with its prediction"
  },
  {
   "property": "C125",
   "status": "partial",
   "theorems": [
    "Timeseria.C125_preceding_partial",
    "Timeseria.C125_first_false"
   ],
   "note": "[C125_preceding_partial] C125 (part): a predictor that reads the view only at valid positions (which an empty view does not have) predicts an item from the items before it only: the item itself and the later ones make no difference. [C125_first_false] C125 is false: with no window the first item is predicted from an empty view, whose last item is the last item of the whole series: the evaluation of the forecaster repeating the last value compares the first value, 1, with the value 3 of the last item."
  },
  {
   "property": "C126",
   "status": "partial",
   "theorems": [
    "Timeseria.C126_points_false",
    "Timeseria.C126_list_partial"
   ],
   "note": "[C126_points_false] C126 is false: a forecaster without a fit that returns the prediction of a step as a dictionary raises a `KeyError` on any series of points. [C126_list_partial] C126 (part): returning a list it can be applied."
  },
  {
   "property": "C127",
   "status": "partial",
   "theorems": [
    "Timeseria.C127_end_partial",
    "Timeseria.C127_false"
   ],
   "note": "[C127_end_partial] C127 (what happens at the end): if the series ends within an event, all the other events are marked as they should; the last one, if of more than one item, is marked if it is *one item longer* than the minimum persistence; if it is of one item, nothing is marked or an `IndexError` is raised, according to the number of items from it to the end. [C127_false] C127 is false: with the default settings, two anomalous items at the end of the series are an event of persistence 2, and are not marked; and one anomalous item next to the end raises an `IndexError`."
  },
  {
   "property": "C128",
   "status": "partial",
   "theorems": [
    "Timeseria.C128_false",
    "Timeseria.C128_partial",
    "Timeseria.C128_none_false"
   ],
   "note": "[C128_false] C128 is false: if one item has no `anomaly` index (as the items passed through because of their data loss), marking the events raises a `KeyError`. [C128_partial] C128 (partial): if all the items have an anomaly index, only the end of the series can make the marking fail, and the number of items never changes. [C128_none_false] C128 is false also for an index which is `None`: marking the events is a `TypeError`."
  },
  {
   "property": "C129",
   "status": "partial",
   "theorems": [
    "Timeseria.C129_false",
    "Timeseria.C129_partial",
    "Timeseria.C129_log_false"
   ],
   "note": "[C129_false] C129 is false: if the lower bound is on the left of the location of the density, the index can be negative (here -4). [C129_partial] C129 (partial): whatever the side of the bounds, if the upper one has a lower density than the lower one the index never exceeds 1 for the error the detector computes. [C129_log_false] C129 is false also where the density is zero: between the bounds the logarithmic index is a `ValueError`."
  },
  {
   "property": "C130",
   "status": "partial",
   "theorems": [
    "Timeseria.C130_false",
    "Timeseria.C130_no_window_false",
    "Timeseria.C130_partial"
   ],
   "note": "[C130_false] C130 is false: with a window of 1, the lossy item 4 of a seven-item series ends the whole loop when the item 3 is examined: the item 2 only is returned, and 4 and 5 never. [C130_no_window_false] C130 is false also without a window, where everything raises. [C130_partial] C130 (partial): if the window is not empty and no item has a data loss, or all have one below the threshold, a detector based on a reconstructor returns one scored item for each item between the two windows."
  },
  {
   "property": "C131",
   "status": "partial",
   "theorems": [
    "Timeseria.C131_false",
    "Timeseria.C131_partial",
    "Timeseria.C131_unknown"
   ],
   "note": "[C131_false] C131 is false: for a distribution located in 5, the errors 4 and 6, equally distant from it, have indexes 1/2 (as if the error were 9) and 0 (below the lower bound). [C131_partial] C131 (partial): for a distribution located in 0, opposite errors have the same index. [C131_unknown] C131 (unknown metrics): a detector with an error metric which is not one of the four cannot be applied: `KeyError`, whatever the series."
  },
  {
   "property": "C132",
   "status": "partial",
   "theorems": [
    "Timeseria.C132_false",
    "Timeseria.C132_partial"
   ],
   "note": "[C132_false] C132 is false: with the details, a lossy item in the middle makes `apply` raise (the item passed through does not have the labels of the details). [C132_partial] C132 (partial): if no item nor its window is too lossy, `apply` with details raises nothing, and each returned item has its own labels and, for each label, those of the details."
  },
  {
   "property": "C133",
   "status": "partial",
   "theorems": [
    "Timeseria.C133_false",
    "Timeseria.C133_partial"
   ],
   "note": "[C133_false] C133 is false: asking for the adherence in the list of the details, it is not stored under the documented name, but under one with a parenthesis at the end. [C133_partial] C133 (partial): for a series with one label and `details=True`, a scored item has the prediction, the error and the adherence under the documented names, and the anomaly index of that error."
  },
  {
   "property": "C134",
   "status": "partial",
   "theorems": [
    "Timeseria.C134_false",
    "Timeseria.C134_partial"
   ],
   "note": "[C134_false] C134 is false: with the default percentage error, a value of zero raises a `ZeroDivisionError`. [C134_partial] C134 (partial): with the errors not in percentage, or without zero values, nothing is raised."
  },
  {
   "property": "C135",
   "status": "partial",
   "theorems": [
    "Timeseria.C135_false",
    "Timeseria.C135_partial"
   ],
   "note": "[C135_false] C135 is false: the bounds in a tuple, as documented, raise a `TypeError` if given as names. [C135_partial] C135 (partial): two numbers can be given as a tuple or as a list alike."
  },
  {
   "property": "C136",
   "status": "partial",
   "theorems": [
    "Timeseria.C136_false",
    "Timeseria.C136_partial"
   ],
   "note": "[C136_false] C136 is false: without the stored errors, `apply` raises a `KeyError` whatever the bounds. [C136_partial] C136 (partial): with numeric bounds the stored errors have no influence, as long as there are some for each label."
  },
  {
   "property": "C137",
   "status": "proved",
   "theorems": [
    "Timeseria.C137_preprocess"
   ],
   "note": "[C137_preprocess] C137: applying a detector to a series pre-processed by it gives the same as applying it to the series, exceptions included."
  },
  {
   "property": "C138",
   "status": "partial",
   "theorems": [
    "Timeseria.C138_false",
    "Timeseria.C138_partial"
   ],
   "note": "[C138_false] C138 is false: after a new fit (which keeps the id of the detector) the series pre-processed before is scored with the old predictions, and after an append to it `apply` raises a `KeyError`. [C138_partial] C138 (partial): pre-processing remains valid as long as the model predicts the same."
  },
  {
   "property": "C139",
   "status": "partial",
   "theorems": [
    "Timeseria.C139_false",
    "Timeseria.C139_partial"
   ],
   "note": "[C139_false] C139 is false: zero divided by a unit, and a zero unit divided by a unit, raise a `ZeroDivisionError` although the unit is not zero. [C139_partial] C139 (partial): exactly the zero dividends fail."
  },
  {
   "property": "C140",
   "status": "partial",
   "theorems": [
    "Timeseria.C140_false",
    "Timeseria.C140_partial"
   ],
   "note": "[C140_false] C140 is false: subtracting a unit from a point raises a `TypeError`, for every point and unit. [C140_partial] C140 (partial): the sum of a unit and a one-dimensional point, in either order, and the difference unit minus point, are the points at the expected coordinate; points of more dimensions are refused."
  },
  {
   "property": "C141",
   "status": "partial",
   "theorems": [
    "Timeseria.C141_both_partial",
    "Timeseria.C141_false",
    "Timeseria.C141_partial"
   ],
   "note": "[C141_both_partial] C141 (partial, both arguments): with `seconds` given as well, a number given as `value` takes its place, and a text is a `TypeError`. [C141_false] C141 is false: giving the documented argument `value` by name always fails \u2014 with a `KeyError` for a number or a string without `seconds`. [C141_partial] C141 (partial): positionally a number is the seconds string and a text is itself, by name the `seconds` component is passed on."
  },
  {
   "property": "C142",
   "status": "partial",
   "theorems": [
    "Timeseria.C142_false",
    "Timeseria.C142_partial"
   ],
   "note": "[C142_false] C142 is false: the items after the last complete chunk are not in the plot, whatever they are. [C142_partial] C142 (partial): the plotted chunks are, one after the other, exactly the first `n / k * k` items of the series, so all of them when the factor divides the length; fewer than `k` items are lost."
  },
  {
   "property": "C143",
   "status": "partial",
   "theorems": [
    "Timeseria.C143_false",
    "Timeseria.C143_partial"
   ],
   "note": "[C143_false] C143 is false: an index present in only some of the items, with value 1 in all of them, is shown as 1/2. [C143_partial] C143 (partial): the value shown for an index is the sum of its values over the factor, missing ones counting as zero; if all the items of the chunk have it, it is their mean."
  },
  {
   "property": "C144",
   "status": "proved",
   "theorems": [
    "Timeseria.C144_automatic"
   ],
   "note": "[C144_automatic] C144: without arguments, a series of at most 10000 items is not aggregated and a longer one is aggregated, by a power of ten, into at least 1000 and at most 10000 rows."
  },
  {
   "property": "C145",
   "status": "partial",
   "theorems": [
    "Timeseria.C145_false",
    "Timeseria.C145_partial"
   ],
   "note": "[C145_false] C145 is false: for a series of at most 10000 items `aggregate=True` does nothing. [C145_partial] C145 (partial): `aggregate=False` always disables the aggregation, an explicit factor is used unless it is disabled, and asking for aggregation has effect on the longer series."
  },
  {
   "property": "C146",
   "status": "proved",
   "theorems": [
    "Timeseria.C146_plain"
   ],
   "note": "[C146_plain] C146: without aggregation there is one row for each item, in order, with its timestamp, its values for the labels and its indexes (null when missing)."
  },
  {
   "property": "C147",
   "status": "partial",
   "theorems": [
    "Timeseria.C147_false",
    "Timeseria.C147_partial",
    "Timeseria.C147_height_partial",
    "Timeseria.C147_height_witness"
   ],
   "note": "[C147_false] C147 is false: for a constant negative series the automatic range is upside down and does not contain the value. [C147_partial] C147 (partial): unless the plotted values are all equal and negative, every value of every item is within the automatic range. [C147_height_partial] C147 (partial, the `height` argument): a height other than zero takes the place of the maximum, and zero counts as not given; so the values up to the height, if it is above the minimum, are within the range. [C147_height_witness] a concrete case"
  },
  {
   "property": "C148",
   "status": "partial",
   "theorems": [
    "Timeseria.C148_false",
    "Timeseria.C148_partial",
    "Timeseria.C148_titles_partial",
    "Timeseria.C148_titles_witness"
   ],
   "note": "[C148_false] C148 is false: a label with a comma gives two titles for one column. [C148_partial] C148 (partial): if no label and no index name contains a comma, the titles are one for each label, in order, and one for each index. [C148_titles_partial] C148 (partial, what the titles are): without commas in the labels and index names, the titles of data given by labels are the labels; those of a list of one value are \"value\"; those of a list of several values are \"value \" and the position; in each case followed by the names of the indexes. [C148_titles_witness] a concrete case"
  },
  {
   "property": "C149",
   "status": "partial",
   "theorems": [
    "Timeseria.C149_false",
    "Timeseria.C149_partial",
    "Timeseria.C149_not_numbers_partial"
   ],
   "note": "[C149_false] C149 is false: a series whose items carry plain numbers cannot be plotted with the default arguments. [C149_partial] C149 (partial): with `data_labels=None` it can. [C149_not_numbers_partial] C149, partial (no labels): leaving out the labels only works for numerical data: a first item with lists or dictionaries is a `TypeError`."
  },
  {
   "property": "C150",
   "status": "partial",
   "theorems": [
    "Timeseria.C150_false",
    "Timeseria.C150_partial"
   ],
   "note": "[C150_false] C150 is false: for a datetime with a negative offset from UTC (as in the Americas) the text from which the mark is positioned is only the year, whatever the rest of the datetime is. [C150_partial] C150 (partial): for a zero or positive offset it is the wall-clock time, read as if it were UTC."
  },
  {
   "property": "C151",
   "status": "partial",
   "theorems": [
    "Timeseria.C151_false",
    "Timeseria.C151_partial",
    "Timeseria.C151_widened_partial"
   ],
   "note": "[C151_false] C151 is false: with a negative minimum, or a negative maximum, the range is smaller than the one requested. [C151_partial] C151 (partial): for bounds which are not negative the range contains the one requested. [C151_widened_partial] C151, partial (the range): the range drawn is the range asked for with its lower end reduced and its upper end increased by one hundredth of themselves."
  },
  {
   "property": "C152",
   "status": "partial",
   "theorems": [
    "Timeseria.C152_false",
    "Timeseria.C152_comparable_partial"
   ],
   "note": "[C152_false] C152 is false: `slot == point` raises `AttributeError` instead of being false when the data are the same (while `point == slot` is false), and so does a slot with data compared with one without. [C152_comparable_partial] C152, partial: comparing a point with anything gives true or false, and so does comparing two slots which both have data or both have none. Missing: a slot compared with a point, or with a slot which has no data while the first one has (`C152_false`)."
  },
  {
   "property": "C153",
   "status": "proved",
   "theorems": [
    "Timeseria.C153_stored",
    "Timeseria.C153_C154_witness",
    "Timeseria.C153_stdev",
    "Timeseria.C153_C154_metric_witness",
    "Timeseria.C153_predictions"
   ],
   "note": "[C153_stored] C153: after a successful fit which stores the errors, for each label of the series the stored actual values, predicted values and errors have one entry for each item after the window (not among the last ones, if the model is a reconstructor): the value of the item, what the fitted inner model predicts for it, and their error in the metric. [C153_C154_witness] the hypotheses of C153 and C154 are met by a concrete fit, with the values expected [C153_stdev] C153 (the standard deviations): after a successful fit which stores the errors, the standard deviation kept for a label is the square root of the sample variance of its errors: the sum of the squared distances from the mean, divided by their number minus one. [C153_C154_metric_witness] the hypotheses of the two are met [C153_predictions] C153 (predictions): without context the predicted value is the one of the only inner model, called without context; with context, for a forecaster, the one of the model of the label, called with the context."
  },
  {
   "property": "C154",
   "status": "proved",
   "theorems": [
    "Timeseria.C154_supported",
    "Timeseria.C154_accepted_metrics",
    "Timeseria.C154_few"
   ],
   "note": "[C154_supported] C154: a fit succeeds only with one of the four supported error metrics, and on a series with at least two items to evaluate. [C154_accepted_metrics] C154 (which metrics are let through): once the inner model is fitted, a metric which is not one of the five names is refused with a `ValueError`, and the metric of an earlier fit stays; with one of the five it becomes the metric of the detector. (With \"SLE\" the fit fails later, see `C154_supported`.) [C154_few] C154: the exception for less than two evaluated items is a `ValueError`, if the distribution can be fitted at all."
  },
  {
   "property": "C155",
   "status": "partial",
   "theorems": [
    "Timeseria.C155_false",
    "Timeseria.C155_false_window",
    "Timeseria.C155_partial"
   ],
   "note": "[C155_false] C155 is false: after a fit with `store_errors=False` the bounds are computed with the errors of an earlier fit: a new detector refuses to be applied, one fitted before on another series gives indexes (and other ones if it had been fitted on a third series). [C155_false_window] C155 is false with context too: the window of an earlier fit is kept. [C155_partial] C155 (partial): a fit without context which stores the errors has the same outcome, and then gives the same detections with all arguments, whatever was done with the detector before."
  },
  {
   "property": "C156",
   "status": "partial",
   "theorems": [
    "Timeseria.C156_false",
    "Timeseria.C156_partial",
    "Timeseria.C156_partial_witness",
    "Timeseria.C156_apply_partial"
   ],
   "note": "[C156_false] C156 is false: a fit with an unknown metric raises, but the inner model is already the new one, and the detection on the series of the first fit is different. [C156_partial] C156 (partial): asking for the context on a series with a single label is refused and changes nothing; a fit in which the fit of an inner model raises leaves the metric, the stored values and the distributions as they were. [C156_partial_witness] a concrete case: the context asked on a single label [C156_apply_partial] C156, partial (kind of failure): a detector without one of the entries the fit stores, or without the distribution of a label of the series, is applied with a `KeyError`."
  },
  {
   "property": "C157",
   "status": "partial",
   "theorems": [
    "Timeseria.C157_false",
    "Timeseria.C157_partial",
    "Timeseria.C157_partial_witness"
   ],
   "note": "[C157_false] C157 is false: with errors around -5 the worst item, of error -9, has the index of an error of 4. [C157_partial] C157 (partial): a detector based on a forecaster, fitted on a series with one label and applied to it with the default bounds, gives index 1 to an item whose error is the largest in absolute value, provided that not all the errors are the same in absolute value, that the location of the error distribution is not negative, and that the item and its window are not lossy. [C157_partial_witness] a concrete case: errors 0, 3 and 20, the last item has index 1"
  },
  {
   "property": "C158",
   "status": "partial",
   "theorems": [
    "Timeseria.C158_false",
    "Timeseria.C158_false_witness",
    "Timeseria.C158_partial",
    "Timeseria.C158_partial_witness"
   ],
   "note": "[C158_false] C158 is false for a detector whose model class was given to the constructor: it is saved but it cannot be loaded, whatever is on the disk. [C158_false_witness] and such a detector can be fitted and saved [C158_partial] C158 (partial): a detector of a class with its own model class, fitted (with context only if the model is a forecaster) and saved with success, is loaded back with the same resolution and labels, and then gives the same detections on every series, if the inner models are saved faithfully and the parameters can be written as JSON. [C158_partial_witness] a concrete case, with context: a detector on two labels is fitted, saved and loaded"
  },
  {
   "property": "C159",
   "status": "partial",
   "theorems": [
    "Timeseria.C159_false",
    "Timeseria.C159_false_witness",
    "Timeseria.C159_partial",
    "Timeseria.C159_load_partial",
    "Timeseria.C159_no_path"
   ],
   "note": "[C159_false] C159 is false: when saving the inner model raises, the directory of the detector is left behind, so that saving again in the same path is refused even once the reason of the failure is gone. [C159_false_witness] a concrete case of the failure [C159_partial] C159 (partial): a save refused because the detector is not fitted, the path is empty or exists already leaves the disk as it was; and no save touches the directories saved before. [C159_load_partial] C159, partial (what is left): loading a directory whose `data.json` was not written, or in which the inner model was not, is a `ValueError`; one which is not there an `IOError`. [C159_no_path] C159: saving without a path is a `ValueError` and leaves nothing behind."
  },
  {
   "property": "C160",
   "status": "partial",
   "theorems": [
    "Timeseria.C160_false",
    "Timeseria.C160_partial",
    "Timeseria.C160_witness"
   ],
   "note": "[C160_false] C160 is false: the item right after the first window, which has all the items the model needs before it, is never returned (for every detector based on a forecaster and every series in time order). [C160_partial] C160 (partial): every later item is returned, with an index unless it is lossy or has a lossy window. [C160_witness] a concrete case: the window is one item and the second item is not among those returned"
  },
  {
   "property": "C161",
   "status": "proved",
   "theorems": [
    "Timeseria.C161_start",
    "Timeseria.C161_end",
    "Timeseria.C161_witness"
   ],
   "note": "[C161_start] C161 (start): a start which is not zero and not on a boundary of the unit is refused with `ValueError`, whatever the end. [C161_end] C161 (end): the same for the end. [C161_witness] a concrete case: the same call with a start on the boundary is accepted"
  },
  {
   "property": "C162",
   "status": "partial",
   "theorems": [
    "Timeseria.C162_false",
    "Timeseria.C162_partial",
    "Timeseria.C162_points_partial"
   ],
   "note": "[C162_false] C162 is false: rows one leap year (366 days) apart, or one February of a leap year (29 days) apart, are loaded as points, although every other length of a year and of a month gives slots. [C162_partial] C162 (partial): for all the other intervals of a day, month or year, slots of that unit are created, also if slots are asked for, and of the unit asked for if one is; for any interval which is not one of those, points are created, unless slots are asked for: they then last the detected interval. [C162_points_partial] C162 (points asked for): no unit is detected at all."
  },
  {
   "property": "C163",
   "status": "proved",
   "theorems": [
    "Timeseria.C163_points",
    "Timeseria.C163_slots",
    "Timeseria.C163_not_saved",
    "Timeseria.C163_witness",
    "Timeseria.C163_unreadable",
    "Timeseria.C163_unknown_unit"
   ],
   "note": "[C163_points] C163 (points): a series of points saved in a file and loaded from it has the same timestamps, values and data indexes, item by item, and is in the time zone of the series. [C163_slots] C163 (slots): the same for a series of slots of the same unit and time zone, of which the sampling interval can be detected: also the ends and the unit of the slots are the same. [C163_not_saved] C163 (other files): a file without the metadata line is refused with `ValueError`. [C163_witness] The hypotheses of `C163_slots` are met by these two slots, with the interval detected by the modelled `detect_sampling_interval`. [C163_unreadable] C163 (unreadable): a file whose first line is a metadata line which cannot be read is refused with `ValueError`. [C163_unknown_unit] C163 (unknown unit): a file of slots whose unit cannot be read is refused with `ValueError`."
  },
  {
   "property": "C164",
   "status": "partial",
   "theorems": [
    "Timeseria.C164_false"
   ],
   "note": "[C164_false] C164 is false: a series with a single slot can be saved, but loading it raises, whatever the slot."
  },
  {
   "property": "C165",
   "status": "partial",
   "theorems": [
    "Timeseria.C165_false",
    "Timeseria.C165_partial"
   ],
   "note": "[C165_false] C165 is false: loading a series as a subclass of `TimeSeries` never gives a series: `None` is returned. [C165_partial] C165 (partial): as `TimeSeries` itself it does."
  },
  {
   "property": "C166",
   "status": "proved",
   "theorems": [
    "Timeseria.C166_training",
    "Timeseria.C166_points",
    "Timeseria.C166_slots",
    "Timeseria.C166_succeeds",
    "Timeseria.C166_fit",
    "Timeseria.C166_several",
    "Timeseria.C166_no_resolution"
   ],
   "note": "[C166_training] C166 (training): Prophet is fitted on one row per item: the local time of the item, in the zone of the item, and its value. [C166_points] C166 (points): on a series whose points are all in one time zone, every forecast of the Prophet forecaster carries what Prophet predicts for the local time of that very forecast. [C166_slots] C166 (slots): the same for slots, the local time being that of the start of the forecast slot. The last slot lasts its unit. [C166_succeeds] C166 (success): on a series of points with one label and a resolution the Prophet forecaster can be applied for any number of steps. [C166_fit] C166 (fit): a series with one label, whatever its items, can be fitted. [C166_several] C166 (several labels): a series with two labels or more is refused. [C166_no_resolution] C166 (no resolution): without a resolution, as on a series of one point or of unevenly spaced points, the forecast is a `TypeError`."
  },
  {
   "property": "C167",
   "status": "partial",
   "theorems": [
    "Timeseria.C167_utc_partial",
    "Timeseria.C167_false"
   ],
   "note": "[C167_utc_partial] C167 (part): in a series in UTC whose first item is not lossy, the reconstructed items carry what Prophet predicts for their local time, as in the training rows (C166). [C167_false] C167 is false: the rows Prophet is fitted on have local times, but it is asked for UTC times. On a series in another zone whose values are the local times, and with an engine that has understood this, the lost value 7200 is reconstructed as 3600."
  },
  {
   "property": "C168",
   "status": "proved",
   "theorems": [
    "Timeseria.C168_refused",
    "Timeseria.C168_forecasts",
    "Timeseria.C168_empty"
   ],
   "note": "[C168_refused] C168 (refused): an ARIMA forecaster applied to a series that does not end at the timestamp where the series of the fit ends is refused. [C168_forecasts] C168 (forecasts): applied to a series of points ending where the fit ended, it returns the items of the series followed by the forecasts of the engine, in their order, one resolution apart. [C168_empty] C168 (empty): if the series of the fit has been emptied, or the series given is empty, the forecast is an `IndexError`."
  },
  {
   "property": "C169",
   "status": "partial",
   "theorems": [
    "Timeseria.C169_false",
    "Timeseria.C169_apart_partial"
   ],
   "note": "[C169_false] C169 is false: after the forecasts have been added in place to the series of the fit, the model is still accepted on it, although it now ends two hours after the data of the fit, and it adds the very same forecasts again. [C169_apart_partial] C169 (part): as long as nobody changes the series of the fit (the model is applied to copies or to other series, any number of times), the model is refused on every series not ending where the fit ended."
  },
  {
   "property": "C170",
   "status": "partial",
   "theorems": [
    "Timeseria.C170_false",
    "Timeseria.C170_data_partial"
   ],
   "note": "[C170_false] C170 is false: saving a fitted model of these classes reports no error, yet the loaded model raises an `AttributeError` on every series, whatever the engine was. [C170_data_partial] C170 (part): the parameters, labels and resolution do come back, and after a new fit (which sets the engine again) the model predicts."
  },
  {
   "property": "C171",
   "status": "partial",
   "theorems": [
    "Timeseria.C171_false",
    "Timeseria.C171_end_partial",
    "Timeseria.C171_empty_partial"
   ],
   "note": "[C171_false] C171 is false: the evaluation asks for predictions after every item, but the model answers only at the end of the fit: on any series of at least three items with distinct timestamps it fails. [C171_end_partial] C171 (part): the prediction after an item is available exactly for the item following the end of the fit, and is the first forecast of the engine. [C171_empty_partial] the same in an evaluation"
  },
  {
   "property": "C172",
   "status": "partial",
   "theorems": [
    "Timeseria.C172_false",
    "Timeseria.C172_missing_partial"
   ],
   "note": "[C172_false] C172 is false: whatever the series, the item and the bounds, the position is never returned; and with the documented defaults the call always raises `TypeError`. [C172_missing_partial] C172, partial: with both bounds given, `index` raises `ValueError` if no item of the slice `series[start:end]` is the same as `x`, and otherwise returns without raising. Missing: the position is not returned, and the bounds cannot be left out (`C172_false`)."
  },
  {
   "property": "C173",
   "status": "partial",
   "theorems": [
    "Timeseria.C173_false",
    "Timeseria.C173_contents_partial"
   ],
   "note": "[C173_false] C173 is false: `copy()`, and likewise `series + items`, never give back a series. [C173_contents_partial] C173, partial: what `copy()` gives back holds the items of the series, in order, and `series + items` the items of the series followed by the others. Missing: the result is not a series (`C173_false`)."
  },
  {
   "property": "C174",
   "status": "partial",
   "theorems": [
    "Timeseria.C174_false",
    "Timeseria.C174_order_partial",
    "Timeseria.C174_out_of_range_partial"
   ],
   "note": "[C174_false] C174 is false: assigning to a position, `+=` and `*=` put items out of order, a slot in a series of points or data with other labels, and `del` takes a slot out of the middle; all without an error. [C174_order_partial] C174, partial: a point series in order stays a point series in order under the inherited operators exactly as far as their arguments respect the order: deleting, replacing an item by a point lying strictly between its neighbours, extending by points which come after. Missing: nothing is checked, so any other argument breaks the series (`C174_false`). [C174_out_of_range_partial] C174, partial (positions): replacing or deleting an item in a position the series does not have is an `IndexError` and leaves the series as it was."
  },
  {
   "property": "C175",
   "status": "proved",
   "theorems": [
    "Timeseria.C175_pop",
    "Timeseria.C175_pop_refused"
   ],
   "note": "[C175_pop] C175 `pop()` gives the last item and takes out exactly that one; `pop(i)` on a series of points gives the item in position `i`, negative positions counting from the end, and takes out exactly that one; `pop(0)` does so on a series of slots too. The other items stay as they are. [C175_pop_refused] C175, refusals: `pop` on an empty series, at a position which does not exist, or in a series of slots at a position other than the first, raises `IndexError` and leaves the series as it was."
  },
  {
   "property": "C176",
   "status": "proved",
   "theorems": [
    "Timeseria.C176_remove"
   ],
   "note": "[C176_remove] C176 `remove(x)` on a series of points takes out the first item which is the same as `x` (same time and same data) and no other, raises `ValueError` and changes nothing if there is none, and on a series of slots raises `NotImplementedError` and changes nothing."
  },
  {
   "property": "C177",
   "status": "proved",
   "theorems": [
    "Timeseria.C177_equality",
    "Timeseria.C177_membership"
   ],
   "note": "[C177_equality] C177 Two series are equal exactly when they have the same number of items and, one by one, the same items (same kind, times and data); an item is in a series exactly when some item of the series is the same; for items which can be compared no exception is raised. [C177_membership] C177, membership."
  },
  {
   "property": "C178",
   "status": "partial",
   "theorems": [
    "Timeseria.C178_false",
    "Timeseria.C178_as_tz_partial"
   ],
   "note": "[C178_false] C178 is false: changing the time zone of an empty series, or taking it on another zone, raises. [C178_as_tz_partial] C178, partial: for every non-empty series built by appends, `as_tz(z)` gives a series with the same items in the same order, all of them (and the series) on the zone `z`, with the same times, data, data indexes and resolution. Missing: empty series (`C178_false`)."
  },
  {
   "property": "C179",
   "status": "proved",
   "theorems": [
    "Timeseria.C179_from_number",
    "Timeseria.C179_from_datetime",
    "Timeseria.C179_from_point"
   ],
   "note": "[C179_from_number] C179 A time point created from a number, by name or by position, is at that time and on the zone asked for (UTC if none is). [C179_from_datetime] C179 A time point created from a datetime is at the time of the datetime, and on the zone asked for, or else on that of the datetime. [C179_from_point] C179 A time point created from another time point is at its time and on its zone."
  },
  {
   "property": "C180",
   "status": "partial",
   "theorems": [
    "Timeseria.C180_false",
    "Timeseria.C180_zone_partial"
   ],
   "note": "[C180_false] C180 is false: the zone is ignored when a point is created from another point, and when a slot is created from its start. [C180_zone_partial] C180, partial: a point which is not created from another point is on the zone asked for, and so is a slot created from a number or a datetime. Missing: points created from points and slots created from their start (`C180_false`)."
  },
  {
   "property": "C181",
   "status": "partial",
   "theorems": [
    "Timeseria.C181_false",
    "Timeseria.C181_number_partial",
    "Timeseria.C181_refused_partial"
   ],
   "note": "[C181_false] C181 is false: any text that reads as a number is accepted as time, and kept as a text. [C181_number_partial] C181, partial: as long as no text is given, by name or by position, directly or through another point, every time point that can be created has a number as time, and whatever is not a number (or a point, in the first position) is refused. Missing: texts (`C181_false`). [C181_refused_partial] C181, partial, the refusals."
  },
  {
   "property": "C182",
   "status": "partial",
   "theorems": [
    "Timeseria.C182_false",
    "Timeseria.C182_refused_partial",
    "Timeseria.C182_slot_partial"
   ],
   "note": "[C182_false] C182 is false: an unknown keyword argument is accepted by points and slots, a positional time is dropped when another one is given by name, and of two times given by name one is dropped. [C182_refused_partial] C182, partial: a time point cannot be created from nothing, from unknown keyword arguments only, or from more than one position. Missing: unknown and contradictory arguments next to a valid one (`C182_false`). [C182_slot_partial] C182 (partial, slots): a slot cannot be created without a start, a `t` or a `dt`."
  },
  {
   "property": "C183",
   "status": "partial",
   "theorems": [
    "Timeseria.C183_false",
    "Timeseria.C183_own_indexes_partial"
   ],
   "note": "[C183_false] C183 is false: the dictionary of indexes given with a data loss is changed, also when the point is then refused, and two points created with the same dictionary change each other's data loss. [C183_own_indexes_partial] C183, partial: unless a dictionary of indexes and a data loss are given together, creating a point, successfully or not, leaves every dictionary as it was; and a point created without a dictionary has one of its own. Missing: dictionary and data loss together (`C183_false`)."
  },
  {
   "property": "C184",
   "status": "proved",
   "theorems": [
    "Timeseria.C184_reports",
    "Timeseria.C184_not_a_dictionary"
   ],
   "note": "[C184_reports] C184 A point created with data reports that data, the data loss it was given, and all the other indexes it was given and no more. [C184_not_a_dictionary] C184 (data indexes): data indexes which are not a dictionary are refused with `ValueError`, whatever the rest, and nothing is changed."
  },
  {
   "property": "C185",
   "status": "partial",
   "theorems": [
    "Timeseria.C185_false",
    "Timeseria.C185_apart_partial"
   ],
   "note": "[C185_false] C185 is false: two slots in succession made from three points; moving the first to another zone also moves the start of the second, whose end and whose own zone stay where they were. [C185_apart_partial] C185, partial: changing the zone of a slot leaves every slot with which it shares no point as it was, and moves the slot itself without changing its times. Missing: slots sharing a point (`C185_false`)."
  },
  {
   "property": "C186",
   "status": "proved",
   "theorems": [
    "Timeseria.C186_series"
   ],
   "note": "[C186_series] C186 After changing the zone of a series of slots, however the slots share their points, every slot is on the new zone and so are its start and its end, and no time has changed."
  },
  {
   "property": "C187",
   "status": "proved",
   "theorems": [
    "Timeseria.C187_shift"
   ],
   "note": "[C187_shift] C187 Adding a time unit to a point, or subtracting it, gives a point on the same zone, moved by the unit forwards or backwards; for a physical unit by exactly its seconds, so that adding and then subtracting gives back the time."
  },
  {
   "property": "C188",
   "status": "partial",
   "theorems": [
    "Timeseria.C188_false",
    "Timeseria.C188_labels_partial",
    "Timeseria.C188_operations",
    "Timeseria.C188_signs_partial"
   ],
   "note": "[C188_false] C188 is false: on a list, `'-1'`, `' 0'`, `'+0'` and `'00'` are read as positions although none of them is a label of the data. [C188_labels_partial] C188, partial: each reported label reads the value it stands for: the element in that position of a list, the value under that key of a dictionary; on a dictionary everything else is a `KeyError`. Missing: on a list other spellings of a position are read as well (`C188_false`). [C188_operations] C188 (labels used by operations) for labels without spaces and signs, such as those of a series of lists, the reading used in the operations is the one of the items, with the same exceptions [C188_signs_partial] C188, partial (signs alone): a sign without digits is not a position; on numerical data a position is a `TypeError`, anything else a `ValueError`."
  },
  {
   "property": "C189",
   "status": "proved",
   "theorems": [
    "Timeseria.C189_query"
   ],
   "note": "[C189_query] C189 The query `label = value`, whatever the blanks around the label and with or without double quotes around it, selects exactly the items with that value for that label, in order (`None` when there is none): `value` is any text which reads as a number."
  },
  {
   "property": "C190",
   "status": "partial",
   "theorems": [
    "Timeseria.C190_false",
    "Timeseria.C190_refused_partial"
   ],
   "note": "[C190_false] C190 is false: what follows a second `=` is silently dropped, so `a=1=2` selects as `a=1`. [C190_refused_partial] C190, partial: a query without `=`, or with ` and `, is refused with `NotImplementedError`, and a query whose value does not read as a number is refused with `ValueError`. Missing: more than one `=` (`C190_false`)."
  },
  {
   "property": "C191",
   "status": "proved",
   "theorems": [
    "Timeseria.C191_training",
    "Timeseria.C191_witness"
   ],
   "note": "[C191_training] C191: with no more rounds than items every round trains on what it has to: the longer of the two sides of the validated block, then the other one unless the model cannot be updated or that side is shorter than its window; an update which is not implemented is passed over. [C191_witness] a concrete case"
  },
  {
   "property": "C192",
   "status": "proved",
   "theorems": [
    "Timeseria.C192_targets",
    "Timeseria.C192_witness"
   ],
   "note": "[C192_targets] C192: a forecaster with target labels gives, for a series with exactly these labels in whatever order, the forecast it gives without target labels; any other series is refused with `ValueError` before predicting. [C192_witness] a concrete case: three hourly points with the label `v`"
  },
  {
   "property": "C193",
   "status": "proved",
   "theorems": [
    "Timeseria.C193_bounds",
    "Timeseria.C193_adherence",
    "Timeseria.C193_witness",
    "Timeseria.C193_unknown",
    "Timeseria.C193_no_errors",
    "Timeseria.C193_unknown_type",
    "Timeseria.C193_no_labels",
    "Timeseria.C193_not_stored",
    "Timeseria.C193_log_bound"
   ],
   "note": "[C193_bounds] C193: when a detector is applied, the range of the index of a label goes from the value the lower bound stands for to the value the upper bound stands for, computed on the errors stored by the fit for that label. [C193_adherence] C193 (adherence): the bound `adherence/x` is where the density is its highest value divided by `x`, as found by the search of the distribution. [C193_witness] a concrete case: the errors of the fit were -5 and 3 [C193_unknown] C193: a bound with a name which is not one of those is a `ValueError`. [C193_no_errors] C193: the greatest error of a label without errors is a `ValueError`. [C193_unknown_type] C193 (unknown index type): with an index type that does not exist an anomaly detector scores the items whose errors are out of the bounds without complaints, and raises `ValueError` on the others. [C193_no_labels] C193 (no labels): with nothing to score (a detector whose bounds have no label) the highest and the lowest index of an item are a `ValueError`, the average one a `ZeroDivisionError`. [C193_not_stored] C193: without the errors of the fit, for the label or at all, the bounds raise `KeyError`, whatever they are. [C193_log_bound] C193: a logarithmic index cannot have a bound given as a number where the density is not positive: `ValueError`."
  },
  {
   "property": "C194",
   "status": "proved",
   "theorems": [
    "Timeseria.C194_selected",
    "Timeseria.C194_unknown_label",
    "Timeseria.C194_unknown_index",
    "Timeseria.C194_witness"
   ],
   "note": "[C194_selected] C194 (what is plotted): without aggregation the rows of a plot have, for each item and in the order asked for, the values of the selected labels and the selected indexes. [C194_unknown_label] C194 (labels refused): asking for a label the series does not have is a `ValueError`. [C194_unknown_index] C194 (indexes refused): asking for an index no item of the series has is a `ValueError`. [C194_witness] a concrete case: one label and one index of two"
  },
  {
   "property": "C195",
   "status": "proved",
   "theorems": [
    "Timeseria.C195_metrics",
    "Timeseria.C195_zero"
   ],
   "note": "[C195_metrics] C195: the error the detector computes for an actual and a predicted value is what is to be added to the prediction to get the actual value (`E`), its absolute value (`AE`), the same divided by the actual value (`PE`), or the absolute value of that (`APE`). [C195_zero] C195 (percentages of zero): relative errors of an actual value of zero raise."
  },
  {
   "property": "C196",
   "status": "partial",
   "theorems": [
    "Timeseria.C196_false",
    "Timeseria.C196_all_positions_partial"
   ],
   "note": "[C196_false] C196 is false: positions below `-len` are converted twice and reach an item. [C196_all_positions_partial] C196, partial: `series[i]` is the `i`-th item for `0 \u2264 i < len`, the `(len+i)`-th for `-len \u2264 i < 0`, and `IndexError` for `i \u2265 len` and `i < -2 len`. In between, where it should also raise, it returns the `(2 len + i)`-th item (`C196_false`)."
  },
  {
   "property": "C197",
   "status": "partial",
   "theorems": [
    "Timeseria.C197_whenever_it_succeeds_partial",
    "Timeseria.C197_false",
    "Timeseria.C197_unbounded_false"
   ],
   "note": "[C197_whenever_it_succeeds_partial] C197, partial, without assumptions on the items: whenever slicing a non-empty series succeeds the result is the Python list slice. [C197_false] C197 is false on the empty series (a list would give an empty slice) and when the part selected begins with two points too close to each other to have a resolution. [C197_unbounded_false] C197 is false: the slice without bounds, which for a list is a copy, raises `ValueError` for every series."
  },
  {
   "property": "C198",
   "status": "partial",
   "theorems": [
    "Timeseria.C198_false",
    "Timeseria.C198_trans_partial"
   ],
   "note": "[C198_false] C198 is false: a point without data is equal to all the points with data at the same time. [C198_trans_partial] C198, partial: it holds among points that all have data, and among points that all have none."
  },
  {
   "property": "C199",
   "status": "partial",
   "theorems": [
    "Timeseria.C199_computes_partial",
    "Timeseria.C199_false"
   ],
   "note": "[C199_computes_partial] C199 (partial): what the integral of a series with any number of labels is. There are an order `kk` of the labels and *one* sequence of components `inc` for all of them, such that the value of a label starts at its constant and grows by the component of the label times the length of the step, each component being twice the value at the item before minus the component before it in the sequence, which with several labels is that of another label (`C199_false`); with a single label it is that of the same label. [C199_false] C199 is false: the integral of `a` is 1 when `a` is alone but 2 when the series has a second label `b`, because the last right component is shared by all the labels."
  },
  {
   "property": "C200",
   "status": "partial",
   "theorems": [
    "Timeseria.C200_false",
    "Timeseria.C200_heap_false"
   ],
   "note": "[C200_false] C200 is false: windows below one item raise `AttributeError`, not `ValueError`. [C200_heap_false] C200 is false also for the operation on objects (`Verif.Model.Heap`)."
  },
  {
   "property": "C201",
   "status": "partial",
   "theorems": [
    "Timeseria.C201_load_partial",
    "Timeseria.C201_false",
    "Timeseria.C201_failures_partial"
   ],
   "note": "[C201_load_partial] C201, partial: a model fitted on a series with a resolution, whose parameters JSON can represent with string keys only, once saved is loaded with the same contents, and then predicts, applies and evaluates as the saved one on every argument. [C201_false] C201 is false for a model fitted on a single point: it is saved, but loading it raises, its resolution `None` having been written as text. [C201_failures_partial] C201 (partial, failures): a path that is not there is an `IOError`, a `data.json` whose writing failed a `ValueError`; and a model which is not parametric is not saved, with a `TypeError`."
  },
  {
   "property": "C202",
   "status": "partial",
   "theorems": [
    "Timeseria.C202_false"
   ],
   "note": "[C202_false] C202 is false: the last zero items are all the items."
  },
  {
   "property": "C203",
   "status": "partial",
   "theorems": [
    "Timeseria.C203_false",
    "Timeseria.C203_false_resolution",
    "Timeseria.C203_slots_partial"
   ],
   "note": "[C203_false] C203 is false: the timestamp of a rejected item is remembered, so that a good item with that timestamp is refused afterwards (`append` of the good item alone succeeds). [C203_false_resolution] C203 is false also for the resolution: after `0`, a rejected `-10` and `60` the resolution is 70 seconds instead of 60. [C203_slots_partial] C203, partial, slots: appending a slot that is refused leaves a non-empty slot series in exactly the same state."
  },
  {
   "property": "C204",
   "status": "proved",
   "theorems": [
    "Timeseria.C204_resample",
    "Timeseria.C204_complete",
    "Timeseria.C204_witness"
   ],
   "note": "[C204_resample] C204: `series.resample(unit)` of a series of at least two points with dictionary data, whose different spacings are at most 95% of the number of points, gives a series of points one unit apart, on the grid, covering the time range of the original, with its labels, its indexes and its zone, values between the bounds of the original ones and, with at least two points, the unit as resolution. [C204_complete] C204 (complete series): resampling an evenly spaced series without data losses gives points without data loss, whatever the unit. [C204_witness] the concrete cases: resampling to 90 seconds and aggregating to 120"
  },
  {
   "property": "C205",
   "status": "proved",
   "theorems": [
    "Timeseria.C205_no_operations",
    "Timeseria.C205_aggregate",
    "Timeseria.C205_complete",
    "Timeseria.C205_witness"
   ],
   "note": "[C205_no_operations] C205 (operations): an aggregator without operations is refused with `ValueError`, any other list is accepted. [C205_aggregate] C205: `series.aggregate(unit)` (with the average) of a series of at least two points without data losses, whose different spacings are at most 95% of the number of points, gives a series of consecutive slots of the unit from the first boundary not before the first point, as many as fit before the last one, in the zone of the series, with a label `k_avg` for each label `k`, its indexes and the unit as resolution. [C205_complete] C205 (complete series): aggregating an evenly spaced series without data losses gives slots without data loss, whatever the unit."
  },
  {
   "property": "C206",
   "status": "partial",
   "theorems": [
    "Timeseria.C206_false",
    "Timeseria.C206_refused_partial"
   ],
   "note": "[C206_false] C206: transforming an empty series is a `TypeError`, not the `ValueError` the code intends. [C206_refused_partial] C206 (partial): an empty series is always refused."
  },
  {
   "property": "C207",
   "status": "proved",
   "theorems": [
    "Timeseria.C207_only_data_points",
    "Timeseria.C207_witness"
   ],
   "note": "[C207_only_data_points] C207: a series of slots, or of points without data, is refused with a `TypeError`, whatever the options."
  },
  {
   "property": "C208",
   "status": "partial",
   "theorems": [
    "Timeseria.C208_false",
    "Timeseria.C208_refused_partial",
    "Timeseria.C208_witness"
   ],
   "note": "[C208_false] C208: one week, and one day three hours and five minutes, involve calendar components and are accepted. [C208_refused_partial] C208 (partial): what is refused is exactly the units made of a single component of years, months or days; all those without calendar components are accepted."
  },
  {
   "property": "C209",
   "status": "partial",
   "theorems": [
    "Timeseria.C209_false",
    "Timeseria.C209_validity_partial",
    "Timeseria.C209_witness"
   ],
   "note": "[C209_false] C209: resampling or aggregating a series with a single point is a `ZeroDivisionError`, whatever the unit and the point. [C209_validity_partial] C209 (partial): with the validity given, a single point gives an empty series."
  },
  {
   "property": "C210",
   "status": "partial",
   "theorems": [
    "Timeseria.C210_false",
    "Timeseria.C210_refused_partial",
    "Timeseria.C210_accepted_partial",
    "Timeseria.C210_witness"
   ],
   "note": "[C210_false] C210: a numeric start at local midnight is refused, one at midnight in UTC is accepted and the slots do not begin at the boundaries of the zone of the series. [C210_refused_partial] C210 (refused, partial): a bound (a `datetime` in the zone of the series, or an epoch on which UTC agrees) that is not on a boundary of the unit is refused with a `ValueError`. [C210_accepted_partial] C210 (accepted, partial): an aggregation with a start on a boundary, given as above and less than one unit before the first point or later, succeeds, and the first slot begins there. [C210_witness] a concrete case: the start at local midnight, as a `datetime`"
  },
  {
   "property": "C211",
   "status": "proved",
   "theorems": [
    "Timeseria.C211_results",
    "Timeseria.C211_witness"
   ],
   "note": "[C211_results] C211 For every evaluation that returns, the results have exactly one value for each label evaluated and metric asked for, under the name of the label, an underscore and the name of the metric, and it is what the metric means on the values compared: those of the items from the window on and those predicted from the items before them. [C211_witness] the absolute errors of 4 and 8 predicted as 3 and 7"
  },
  {
   "property": "C212",
   "status": "partial",
   "theorems": [
    "Timeseria.C212_refused_partial",
    "Timeseria.C212_false"
   ],
   "note": "[C212_refused_partial] C212, partial: the arguments refused. An empty series, several steps, unknown metrics of both kinds. [C212_false] C212 is false: evaluating on zero or on a negative number of steps is the same as evaluating on one."
  },
  {
   "property": "C213",
   "status": "partial",
   "theorems": [
    "Timeseria.C213_defined_partial",
    "Timeseria.C213_only_defined_partial",
    "Timeseria.C213_false"
   ],
   "note": "[C213_defined_partial] C213, partial: without a results series, the metrics are computed when the predictions are and every metric asked for is defined on the values compared, at least one value being compared. [C213_only_defined_partial] C213, partial, the converse: whenever a result is returned, every metric asked for was defined on the values compared. [C213_false] C213 is false: a supported metric on a series the forecaster can predict raises `ZeroDivisionError` (a value that is zero, for the percentages; a predicted value that is zero, for the logarithms) or `ValueError` (values of opposite sign, for the logarithms)."
  },
  {
   "property": "C214",
   "status": "partial",
   "theorems": [
    "Timeseria.C214_series_partial",
    "Timeseria.C214_false",
    "Timeseria.C214_given_partial",
    "Timeseria.C214_zero_false"
   ],
   "note": "[C214_series_partial] C214, partial: whenever an evaluation that is asked for the results series returns, the results series has one item for each item of the series from the window on, with the same time, zone and indexes; its data are those of the original item plus the predicted value of every label evaluated and the errors asked for, under the names made of label, underscore and kind of error. A value of the original item is replaced only if its label is one of these names. [C214_false] C214 is false: a forecaster that does not store a window cannot give the results series, whatever the series and the metrics: `KeyError`. [C214_given_partial] C214, partial (given): on a series of points with dictionary data, longer than the window the model has stored, the results series is given whenever the predictions are and every metric and error asked for is defined on the values compared. [C214_zero_false] C214 is false (percentages): a value which is zero makes an evaluation with the punctual percentage errors a `ZeroDivisionError`."
  },
  {
   "property": "C215",
   "status": "partial",
   "theorems": [
    "Timeseria.C215_some_partial",
    "Timeseria.C215_false"
   ],
   "note": "[C215_some_partial] C215, partial: when at least one metric and one label are evaluated, or the series is asked for, the evaluation returns a dictionary. [C215_false] C215 is false: with an empty list of metrics the evaluation does all the predictions and returns nothing (`None`), for every forecaster whose predictions can be made."
  },
  {
   "property": "C216",
   "status": "partial",
   "theorems": [
    "Timeseria.C216_kept_partial",
    "Timeseria.C216_false"
   ],
   "note": "[C216_kept_partial] C216, partial: the results series keeps every value whose label is not made of a label evaluated, an underscore and the name of a column. [C216_false] C216 is false: a label named as the predictions of another label is replaced by them in the results series: 60 becomes 3."
  },
  {
   "property": "C217",
   "status": "proved",
   "theorems": [
    "Timeseria.C217_bounds"
   ],
   "note": "[C217_bounds] C217 The periodicity detected is at least two items and at most the length of the series."
  },
  {
   "property": "C218",
   "status": "proved",
   "theorems": [
    "Timeseria.C218_detected_iff",
    "Timeseria.C218_choice",
    "Timeseria.C218_witness"
   ],
   "note": "[C218_detected_iff] C218 A periodicity is detected exactly when the half spectrum has a peak. [C218_choice] C218 The periodicity detected is that of a peak of the half spectrum, the length of the series divided by its index, rounded; every stronger peak has a period longer than a tenth of the series and more than ten times that of another peak."
  },
  {
   "property": "C219",
   "status": "proved",
   "theorems": [
    "Timeseria.C219_dominant",
    "Timeseria.C219_witness"
   ],
   "note": "[C219_dominant] C219 A peak at least a third stronger than every other peak decides: the periodicity is the length of the series divided by its index, rounded."
  },
  {
   "property": "C220",
   "status": "partial",
   "theorems": [
    "Timeseria.C220_sinusoid_partial",
    "Timeseria.C220_exact_partial",
    "Timeseria.C220_two_items_false",
    "Timeseria.C220_one_oscillation_false"
   ],
   "note": "[C220_sinusoid_partial] C220, partial: the period of every sinusoid that oscillates at least twice, and whose period is not too close to two items, is detected, whatever its amplitude, phase and mean: it is the length divided by the number of oscillations, rounded. [C220_exact_partial] \u2026 in particular, if the period divides the length, it is detected exactly [C220_two_items_false] C220 is false for a period of two items: a series that alternates between two values has no periodicity, whatever its even length and the two values. [C220_one_oscillation_false] C220 is false for a series with a single oscillation: if its mean is at least half its amplitude then no periodicity is detected."
  },
  {
   "property": "C221",
   "status": "partial",
   "theorems": [
    "Timeseria.C221_dict_partial",
    "Timeseria.C221_false"
   ],
   "note": "[C221_dict_partial] C221, partial: a non-empty series of constant resolution with dictionary data and one label is analysed on its values, in order; with more labels it is refused. [C221_false] C221 is false for list data, which is what `series[label]` of a list series also carries: the values are looked up by text, and every series of lists with one value raises `TypeError`."
  },
  {
   "property": "C222",
   "status": "proved",
   "theorems": [
    "Timeseria.C222_accepted"
   ],
   "note": "[C222_accepted] C222 The arguments are accepted exactly when each of them begins with `fit_` or with `evaluate_`; otherwise `Exception`."
  },
  {
   "property": "C223",
   "status": "partial",
   "theorems": [
    "Timeseria.C223_forwarded_partial",
    "Timeseria.C223_false",
    "Timeseria.C223_witness_false"
   ],
   "note": "[C223_forwarded_partial] C223, partial: if the prefix does not occur again in the names, every argument is forwarded to `fit` or to `evaluate` under its name without the prefix, and nothing else is. [C223_false] C223 is false whenever the prefix occurs again: no argument with such a name is forwarded under the name without the prefix, because all the occurrences are removed. [C223_witness_false] for example `fit_refit_every` becomes `reevery`, and two arguments become one"
  },
  {
   "property": "C224",
   "status": "proved",
   "theorems": [
    "Timeseria.C224_starts_from_constant",
    "Timeseria.C224_missing_constant",
    "Timeseria.C224_C225_witness"
   ],
   "note": "[C224_starts_from_constant] C224: the integral of a series whose resolution is known succeeds, and its first value is, for each label, the constant of integration of the label: the number given, or the entry of the dictionary given. [C224_missing_constant] C224, the other way: a dictionary without a constant for some label is refused, with a `TypeError`. [C224_C225_witness] concrete cases: a single point, a single slot, and a two-label series with a dictionary of constants"
  },
  {
   "property": "C225",
   "status": "partial",
   "theorems": [
    "Timeseria.C225_false",
    "Timeseria.C225_slot_partial"
   ],
   "note": "[C225_false] C225 is false for points: the integral of a single point fails with a `TypeError`. [C225_slot_partial] C225 (partial): the integral of a single slot is one slot with the constants. Missing: single points, see `C225_false`."
  },
  {
   "property": "C226",
   "status": "partial",
   "theorems": [
    "Timeseria.C226_false",
    "Timeseria.C226_frozen_false",
    "Timeseria.C226_first_partial",
    "Timeseria.C226_witness"
   ],
   "note": "[C226_false] C226 is false: the guessed resolution depends on when it was first asked. Two series with the same items, whose most common spacing is ten seconds, give two different guesses: the one asked when it was shorter still says one minute. [C226_frozen_false] C226 (the guess never changes): after a first guess, whatever is appended to the series and with whatever arguments it is asked again, a guess which is given is the first one. [C226_first_partial] C226, partial: a series of points of variable resolution which was never asked before, with spacings which repeat enough, is given the unit of a spacing which occurs at least as often as every other one, together with a confidence between 0 and 1 if asked, and keeps its items. (Missing: a series which was asked before, of which the claim is false.)"
  },
  {
   "property": "C227",
   "status": "partial",
   "theorems": [
    "Timeseria.C227_false",
    "Timeseria.C227_refused_partial",
    "Timeseria.C227_witness"
   ],
   "note": "[C227_false] C227 is false: an empty series is refused by a `TypeError` (and not by the `ValueError` written for it), and a series whose most common spacing has no time unit by an `AttributeError` on an internal name, which hides the exception of the time unit. [C227_refused_partial] C227, partial: a series of one point, and a series of points with a well defined resolution, are refused by a `ValueError`; a series of slots by a `NotImplementedError`; the series is left as it was."
  },
  {
   "property": "C228",
   "status": "proved",
   "theorems": [
    "Timeseria.C228_range",
    "Timeseria.C228_value",
    "Timeseria.C228_witness"
   ],
   "note": "[C228_range] C228: whatever the timestamps, the confidence of the detected sampling interval is between 0 and 1. [C228_value] C228 (what the confidence is): when the spacings repeat enough for no rounding to take place, and are not all equal, the confidence is one minus the ratio of the number of times the second most common spacing occurs to the number of times the most common one does."
  },
  {
   "property": "C229",
   "status": "partial",
   "theorems": [
    "Timeseria.C229_position_partial",
    "Timeseria.C229_time_partial",
    "Timeseria.C229_label_partial",
    "Timeseria.C229_interval_partial",
    "Timeseria.C229_interval_slots_partial",
    "Timeseria.C229_mixed_partial",
    "Timeseria.C229_false",
    "Timeseria.C229_witness",
    "Timeseria.C229_slice_refused"
   ],
   "note": "[C229_position_partial] C229 (a position): an integer in the square brackets gives the item at that position, from the end if negative. [C229_time_partial] C229 (a time): a float or a datetime in the square brackets gives the item of that timestamp, and a `ValueError` if there is none. [C229_label_partial] C229 (a label): a label in the square brackets gives the series of the same places with that label only. [C229_interval_partial] C229 (a time interval, points): two floats, or two datetimes, one of which can be missing, give the points from the first (included) to the second (excluded). [C229_interval_slots_partial] C229 (a time interval, slots): for slots, those which start from the first bound on and end by the second. [C229_mixed_partial] C229 (mixed bounds): two bounds of different kinds, or a bound which is neither a number nor a datetime, are refused by a `ValueError`. [C229_false] C229 is false: any other object in the square brackets is meant to be refused by a `ValueError`, and is by an `AttributeError` instead, the message being built from a bound it does not have. [C229_slice_refused] C229: slicing from a position to a time, or from a time to a position, and giving both on one side, is a `ValueError`."
  },
  {
   "property": "C230",
   "status": "partial",
   "theorems": [
    "Timeseria.C230_false",
    "Timeseria.C230_slices_partial",
    "Timeseria.C230_witness"
   ],
   "note": "[C230_false] C230 is false: the step of a slice is silently ignored, whatever it is. Every other item of three is all three of them, and the whole slice, without any bound, is refused instead. [C230_slices_partial] C230, partial: with at least one position given and no step, or the step one, a slice is the same slice of the list of the items. (Missing: other steps, and the slice without bounds, of which the claim is false.)"
  },
  {
   "property": "C231",
   "status": "proved",
   "theorems": [
    "Timeseria.C231_removed",
    "Timeseria.C231_loss",
    "Timeseria.C231_twice",
    "Timeseria.C231_refused",
    "Timeseria.C231_witness"
   ],
   "note": "[C231_removed] C231: after removing a data index no item of the series has it, whether it had it before or not; the times, the time zones, the data and every other index of every item are as they were. [C231_loss] C231 (data loss): removing the data loss is removing the data index of that name. [C231_twice] C231 (nothing to remove): removing an index twice is the same as once, and the second time is not refused. [C231_refused] C231 (accepted): it is refused, by a `TypeError` and without any effect, exactly for a non-empty series whose items carry no data."
  },
  {
   "property": "C232",
   "status": "partial",
   "theorems": [
    "Timeseria.C232_false",
    "Timeseria.C232_unshared_partial",
    "Timeseria.C232_mavg_partial",
    "Timeseria.C232_shared_partial"
   ],
   "note": "[C232_false] C232 is false: the data loss of the first item of a series is 0; removing the data loss of the rescaled, derived, filtered or sliced series removes it from the series it was computed from too. [C232_unshared_partial] C232, partial: a series none of whose items shares its data indexes with an item of the changed series reads exactly as before. (Missing: the sharing series, of which the claim is false.) [C232_mavg_partial] C232, partial (moving average): removing an index from a moving average leaves the series it was computed from. [C232_shared_partial] the items of a series and of another one which share an index object lose the index together"
  },
  {
   "property": "C233",
   "status": "proved",
   "theorems": [
    "Timeseria.C233_reports",
    "Timeseria.C233_not_fitted",
    "Timeseria.C233_witness"
   ],
   "note": "[C233_reports] C233: after a fit which stores the errors, inspecting the detector succeeds, with whatever bounds for the plot, and prints for every label of the series, and no other, the average, the smallest and the largest absolute value of the errors stored for that label. [C233_not_fitted] C233 (not fitted): inspecting a detector which was not fitted is a `KeyError`. [C233_witness] C233 a detector fitted on a series with two labels, the errors stored: two reports"
  },
  {
   "property": "C234",
   "status": "partial",
   "theorems": [
    "Timeseria.C234_false",
    "Timeseria.C234_same_false",
    "Timeseria.C234_range_partial"
   ],
   "note": "[C234_false] C234 is false: the automatic range of the plot of the errors is computed from the errors of the first label only, and used for all: the errors of the second label, from 0 to 20, are drawn between the bounds -9 and -7 of the first. [C234_same_false] C234 (all labels): whatever the errors, all the plots of an inspection have the same range. [C234_range_partial] C234, partial: the plots are between the bounds given, and the automatic ones are the smallest and the largest error of the first label. (Missing: the automatic bounds of the other labels, of which the claim is false.)"
  },
  {
   "property": "C235",
   "status": "partial",
   "theorems": [
    "Timeseria.C235_false",
    "Timeseria.C235_stale_false",
    "Timeseria.C235_missing_partial"
   ],
   "note": "[C235_false] C235 is false: a detector fitted without storing the errors is meant to refuse to be inspected with a `ValueError` which says so; the check comes too late and a `KeyError` is raised instead, whatever the arguments. [C235_stale_false] C235 (earlier fit): if an earlier fit did store the errors, the inspection is not even refused: it prints those of the earlier fit. [C235_missing_partial] C235, partial (not stored): without the stored errors, or without those of a label, the inspection of a detector with labels is a `KeyError`."
  },
  {
   "property": "C236",
   "status": "partial",
   "theorems": [
    "Timeseria.C236_series_partial",
    "Timeseria.C236_false",
    "Timeseria.C236_witness",
    "Timeseria.C236_missing_partial",
    "Timeseria.C236_lists_partial"
   ],
   "note": "[C236_series_partial] C236, partial: after a fit which stores the errors, on a series no label of which is the name of the predictions or of the errors of another one, inspecting the detector with its series shows for every label a series with one point for each evaluated item, at the times 0, 1, 2, ..., with its actual value, its prediction and its error under the label, the label with `_pred` and the label with `_err`. (Missing: labels which clash, of which the claim is false.) [C236_false] C236 is false: with a label named as the predictions of another, the values of the former replace the predictions of the latter: the series of the fit says that the prediction of `v` was 200, and it was 1. [C236_missing_partial] C236, partial (series which are not stored): asking for the series of the fit of a detector without stored errors is a `ValueError`; without the stored actual values or predictions a `KeyError`; without labels an `IndexError`. [C236_lists_partial] C236, partial (lists which do not fit): a point of the series whose values are missing in one of the lists is an `IndexError`, in one of the dictionaries a `KeyError`."
  },
  {
   "property": "C237",
   "status": "partial",
   "theorems": [
    "Timeseria.C237_resampled_partial",
    "Timeseria.C237_witness",
    "Timeseria.C237_false"
   ],
   "note": "[C237_resampled_partial] C237, partial: resampling an evenly spaced series to a unit not shorter than its spacing gives each point, as data loss, the mean of the data losses of the original points over the interval of the new one; if the original losses are between 0 and 1, so are the new ones. Missing: shorter units, for which it is false (`C237_false`). [C237_witness] the minute around 60 s: the points at 40, 60 and 80 s and the mean of their losses [C237_false] C237 is false for a unit shorter than the spacing of the series: each point of the series is counted for more than the time it covers, and the data losses of the new points exceed 1."
  },
  {
   "property": "C238",
   "status": "partial",
   "theorems": [
    "Timeseria.C238_points_partial",
    "Timeseria.C238_slots_partial",
    "Timeseria.C238_C239_witness",
    "Timeseria.C238_false"
   ],
   "note": "[C238_points_partial] C238 for points (`c k` being the starting value of the label `k`): a series of points with a resolution, a starting value for each label, not a number zero nor, for lists of values, a number. Missing: the number zero, numbers for series of lists, a single point (`C238_false`). [C238_slots_partial] C238 for slots: the new item is the slot one unit before the first, provided that going back by the unit and forward again gives the start of the first slot (as for all units without calendar components). Missing: as for points. [C238_false] C238 is false for an offset of zero, which is ignored (no item is added), for a number as offset of a series of lists (`TypeError`) and for a series of one point (`TypeError`)."
  },
  {
   "property": "C239",
   "status": "partial",
   "theorems": [
    "Timeseria.C239_points_partial",
    "Timeseria.C239_slots_partial",
    "Timeseria.C239_false"
   ],
   "note": "[C239_points_partial] C239 for points: the differences of an evenly spaced series of at least three points (whose resolution is its spacing, and whose first two points are on the same zone), summed from the first values, have the times and the values of the series; the starting values being given in a dictionary, or as a number other than zero if all labels start there and the data is in dictionaries. Missing: two points, the number zero, numbers for lists (`C239_false`). [C239_slots_partial] C239 for slots: the same, with at least two slots, if going back from the second slot by the unit gives the start of the first. [C239_false] C239 is false for a series beginning with zero (the first item is missing: the offset is ignored), for a series of two points and for a series of lists."
  },
  {
   "property": "C240",
   "status": "proved",
   "theorems": [
    "Timeseria.C240_carried",
    "Timeseria.C240_between",
    "Timeseria.C240_missing",
    "Timeseria.C240_witness"
   ],
   "note": "[C240_carried] C240: with a source range for each label, whose ends are different, every value is carried from the source range to the target range; in place or not. [C240_between] C240: what is carried: the ends of the source range go to the ends of the target range, the order of the values is kept, and a value is within the target range exactly when it was within the source range. [C240_missing] C240, refusals: a label without a source range is a `KeyError` [C240_witness] the values 1 to 4 of `a` and -2 to 7 of `b`, from source ranges"
  },
  {
   "property": "C241",
   "status": "partial",
   "theorems": [
    "Timeseria.C241_runs_partial",
    "Timeseria.C241_frame_partial",
    "Timeseria.C241_refused_partial",
    "Timeseria.C241_constant_partial",
    "Timeseria.C241_false"
   ],
   "note": "[C241_runs_partial] C241, the runs: for each in-place operation, what it raises and, when it returns, the series it gives are those of the in-place operations of C33 and C79. [C241_frame_partial] C241, what holds for every in-place operation, on every series and whatever the outcome: the items are as many, with the same times, extents, zones and indexes. [C241_refused_partial] C241, refusals before the first item: an empty series, a single item without a known resolution for the derivative, and a variable resolution for the cumulative sums leave the series as it was. [C241_constant_partial] C241, one label: normalizing a constant label in place raises `ZeroDivisionError` and, as it is the only label, leaves the series as it was. [C241_false] C241 is false: normalizing in place a series whose second label is constant raises `ZeroDivisionError`, but the first label of the first item is normalized already; the in-place derivative of three points raises `KeyError` leaving derivatives in the first two; the in-place integral with an integration constant for one of two labels raises `TypeError` leaving the first item with a label the other items do not have."
  },
  {
   "property": "C242",
   "status": "proved",
   "theorems": [
    "Timeseria.C242_expressions",
    "Timeseria.C242_witness"
   ],
   "note": "[C242_expressions] C242: whatever calls of operations and transformations are made on series built by appending, each on the result of the others, a series which comes out is well-formed: it can be duplicated and appended to as one built by hand."
  },
  {
   "property": "C243",
   "status": "proved",
   "theorems": [
    "Timeseria.C243_fitting_chain",
    "Timeseria.C243_witness"
   ],
   "note": "[C243_fitting_chain] C243: a chain of calls which fits the series does not raise, and the labels, the number of items, the kind of the data and the steps of its result are those told in advance, whatever the values."
  },
  {
   "property": "C244",
   "status": "proved",
   "theorems": [
    "Timeseria.C244_rescale",
    "Timeseria.C244_offset",
    "Timeseria.C244_witness"
   ],
   "note": "[C244_rescale] C244 (rescale): the sum and the average of a rescaled series are those of the series times the factor of the label; so are the largest and the smallest value, which are exchanged if the factor is negative. [C244_offset] C244 (offset): the average, the largest and the smallest value of a shifted series are those of the series plus the shift, and the sum is that of the series plus the shift for each item."
  },
  {
   "property": "C245",
   "status": "proved",
   "theorems": [
    "Timeseria.C245_diff_rescale",
    "Timeseria.C245_csum_rescale",
    "Timeseria.C245_mavg_rescale",
    "Timeseria.C245_derivative_rescale",
    "Timeseria.C245_integral_rescale",
    "Timeseria.C245_diff_offset",
    "Timeseria.C245_derivative_offset",
    "Timeseria.C245_mavg_offset",
    "Timeseria.C245_witness"
   ],
   "note": "[C245_diff_rescale] C245 (diff): the differences of a rescaled series are the rescaled differences. [C245_csum_rescale] C245 (csum): the running sums of a rescaled series are the rescaled running sums. [C245_mavg_rescale] C245 (mavg): the moving averages of a rescaled series are the rescaled moving averages. [C245_derivative_rescale] C245 (derivative): the derivative of a rescaled series is the rescaled derivative, whatever the resolution. [C245_integral_rescale] C245 (integral): the integral of a rescaled series is the rescaled integral, with any labels and any resolution. [C245_diff_offset] C245 (diff of offset): the differences of a shifted series are those of the series. [C245_derivative_offset] C245 (derivative of offset): the derivative of a shifted series is that of the series, whatever the resolution. [C245_mavg_offset] C245 (mavg of offset): the moving averages of a shifted series are the shifted moving averages."
  },
  {
   "property": "C246",
   "status": "proved",
   "theorems": [
    "Timeseria.C246_normalize",
    "Timeseria.C246_witness"
   ],
   "note": "[C246_normalize] C246: normalizing a series rescaled by a positive factor, or shifted, gives the same as normalizing the series; with a negative factor every normalized value `x` becomes `a + b - x`."
  },
  {
   "property": "C247",
   "status": "partial",
   "theorems": [
    "Timeseria.C247_filter_partial",
    "Timeseria.C247_false",
    "Timeseria.C247_witness"
   ],
   "note": "[C247_filter_partial] C247: filtering some labels of a series of dictionaries and then rescaling, shifting, normalizing, or taking differences, running sums, moving averages or derivatives, gives the same as doing it on all the labels and then filtering the resulting ones. [C247_false] C247 is false of the integral: that of `a` is 1 if the other label is filtered out first, and 2 if it is filtered out after."
  },
  {
   "property": "C248",
   "status": "partial",
   "theorems": [
    "Timeseria.C248_slice_partial",
    "Timeseria.C248_false",
    "Timeseria.C248_witness"
   ],
   "note": "[C248_slice_partial] C248: slicing a rescaled or shifted series, by positions or by time, gives the same as rescaling or shifting the slice, if there is something in it. [C248_false] C248 is false of empty slices: the empty slice of a rescaled series is an empty series, but the empty slice cannot be rescaled."
  },
  {
   "property": "C249",
   "status": "proved",
   "theorems": [
    "Timeseria.C249_points",
    "Timeseria.C249_slots",
    "Timeseria.C249_kinds",
    "Timeseria.C249_witness",
    "Timeseria.C249_no_data"
   ],
   "note": "[C249_points] C249 (points): after any session on a time series made of any calls but `insert` (`append`, `remove`, `pop`, `clear`, duplicates, operations with `inplace=True`, renaming and removing labels and indexes, changing the time zone, each of them succeeding or raising), the timestamps of a point series are strictly increasing. [C249_slots] C249 (slots): after any session, insertions included, every slot of a slot series starts where the previous one ends (within the tolerance). [C249_kinds] C249 (kinds): after any session, insertions included, a series holds points only or slots only. [C249_witness] the session leaves three points at 0, 60 and 180 [C249_no_data] C249 (without data): renaming or removing labels, or removing an index, on a series of items without data changes nothing at all, whatever the labels."
  },
  {
   "property": "C250",
   "status": "partial",
   "theorems": [
    "Timeseria.C250_false",
    "Timeseria.C250_false_witness",
    "Timeseria.C250_partial"
   ],
   "note": "[C250_false] C250 is false: for a distribution whose lower half reaches above zero (at `x \u2265 0` less than half of the probability has been reached), the adherence of `x` is more than 1. The errors of a model with a bias have such a distribution. [C250_false_witness] the adherence of 9.5, well within the distribution, is 3/2, and that of -10 is 1 [C250_partial] C250, partial: the adherence is never negative and does not increase with the distance from zero; it is at most 1 exactly where at least half of the probability lies below the distance, in particular everywhere if it lies below zero, and equal to 1 at zero if exactly half does. Missing: distributions which are not centred in zero or below (`C250_false`)."
  },
  {
   "property": "C251",
   "status": "partial",
   "theorems": [
    "Timeseria.C251_found_partial",
    "Timeseria.C251_success_partial",
    "Timeseria.C251_refused_partial",
    "Timeseria.C251_false",
    "Timeseria.C251_false_witness",
    "Timeseria.C251_witness"
   ],
   "note": "[C251_found_partial] C251, partial: for a continuous density and a centre from which the side asked for is reached, whatever `find_x(y)` returns is on the side asked for and within the tolerance of a value on that side whose density is exactly `y`. Missing: centres further from zero than `wideness` times the scale (`C251_false`). [C251_success_partial] C251, partial (success): if the density is more than `y` at the centre and less at the end of the interval searched, and the library makes enough steps, a value is found. [C251_refused_partial] C251, partial (refusals): a side which is not `right` or `left`, a density greater than those at both ends, or smaller than both, is a `ValueError`: in particular the divider of the bounds `adherence/x` must be more than 1. [C251_false] C251 is false when the centre is further from zero than `wideness` (1000) times the scale: whatever is found for the right side is not on the right of the centre. [C251_false_witness] on the right, at 2500, the density of `farAway` is what is asked for, but the value found is 1500"
  },
  {
   "property": "C252",
   "status": "partial",
   "theorems": [
    "Timeseria.C252_diff_partial",
    "Timeseria.C252_computes_partial",
    "Timeseria.C252_false",
    "Timeseria.C252_witness"
   ],
   "note": "[C252_diff_partial] C252, partial: on a series with a constant resolution, `derivative(normalize=False, diffs=True)` is `diff()`. Missing: `diffs=True` alone (`C252_false`). [C252_computes_partial] C252, partial: `derivative(normalize=False, diffs=True)` gives the differences, with constant or variable resolutions (while `diff()` refuses variable ones): one item for each one but the first, in its place, with its indexes, holding the value of the item minus that of the item before, under the label with the postfix `diff`. [C252_false] C252 is false of `derivative(diffs=True)`: the differences are divided by the sampling interval (for variable resolutions, by the autodetected one whatever the distance of the two items), and their labels are those of derivatives. [C252_witness] the series 10, 12, 15 every minute: the differences are 2 and 3, those of `derivative(diffs=True)` are 1/30 and 1/20"
  },
  {
   "property": "C253",
   "status": "proved",
   "theorems": [
    "Timeseria.C253_increments",
    "Timeseria.C253_witness"
   ],
   "note": "[C253_increments] C253: `derivative(normalize=False)` gives for each item the increment per step (at the ends that of the only step, inside the mean of the two), under the label with the postfix `diff`; on a series with a constant resolution these are the values of `derivative()` times the sampling interval."
  },
  {
   "property": "C254",
   "status": "proved",
   "theorems": [
    "Timeseria.C254_sums",
    "Timeseria.C254_witness"
   ],
   "note": "[C254_sums] C254: `integral(normalize=False, c=c)` gives for each item the constant of the label plus the sum of the values up to the item, under the label with the postfix `csum`, with constant or variable resolutions; without a constant it is `csum()` where this is not refused."
  },
  {
   "property": "C255",
   "status": "partial",
   "theorems": [
    "Timeseria.C255_points_partial",
    "Timeseria.C255_slots_partial",
    "Timeseria.C255_false",
    "Timeseria.C255_witness"
   ],
   "note": "[C255_points_partial] C255, partial (points): on a series of points with a resolution, `integral(offset=o)` is `integral(c=o)` with an item in front, one resolution before the first point and with the values of the offset: the integral starts from the offset, at the first point too. The offset must be other than the number zero and have a value for each label, and for series of lists it must be a dictionary. Missing: variable resolutions, and an integration constant given with the offset, which is ignored, as here whatever `c0` is (`C255_false`). [C255_slots_partial] C255, partial (slots): the same for slots, the item in front being the slot just before the first one. [C255_false] C255 is false of an integration constant given with an offset, which makes no difference, of a variable resolution (`TypeError`), and of an offset of zero, for which no item is added. [C255_witness] a case of `C255_points_partial`"
  },
  {
   "property": "C256",
   "status": "partial",
   "theorems": [
    "Timeseria.C256_partial",
    "Timeseria.C256_false",
    "Timeseria.C256_witness"
   ],
   "note": "[C256_partial] C256, partial: of a series of two items or more, `summary(limit, newlines=True)` lists all the items in order if there is no limit (or zero) or they are not more than the limit, otherwise the first half (rounded up) of the limit, a line of dots, and the last half (rounded down): never more items than the limit. Missing: a series of one item, listed with a comma after it (`C256_false`). [C256_false] C256 is false of a series of one item: after the item there is a comma and a new line."
  },
  {
   "property": "C257",
   "status": "proved",
   "theorems": [
    "Timeseria.C257_order",
    "Timeseria.C257_witness"
   ],
   "note": "[C257_order] C257: the order in which series are given to `merge` does not matter for the times, the values and the indexes of the result. [C257_witness] two series which overlap in two times, in both orders"
  },
  {
   "property": "C258",
   "status": "proved",
   "theorems": [
    "Timeseria.C258_split_merge",
    "Timeseria.C258_witness"
   ],
   "note": "[C258_split_merge] C258: splitting a series by its labels, each in one or more parts, and merging the parts gives the series back: its times, its values and its indexes which are set. [C258_witness] the labels a and b of a series of three points, b in both parts"
  },
  {
   "property": "C259",
   "status": "partial",
   "theorems": [
    "Timeseria.C259_steps_partial",
    "Timeseria.C259_false",
    "Timeseria.C259_witness"
   ],
   "note": "[C259_steps_partial] C259, partial: when the series of the first group have at least two times in common, merging the result of their merge with other series gives the times of merging all of them at once, and the same values and indexes for the labels and the indexes not shared by the two groups. Missing: labels in both groups, and less than two common times (`C259_false`). [C259_false] C259 is false of labels which are in both groups: 0, 0 and 3 have mean 1, but merging 3 with the merge of 0 and 0 gives 3/2, the mean of the means. And when two series have a single time in common their merge has no resolution: merging a third series with it raises ValueError, while merging the three at once works. [C259_witness] two series sharing a label, then one with another label"
  },
  {
   "property": "C260",
   "status": "proved",
   "theorems": [
    "Timeseria.C260_resampled",
    "Timeseria.C260_witness"
   ],
   "note": "[C260_resampled] C260: resampling gives each new point, for each label, the mean over its interval, half a unit on either side of it, of the values of the series, filled in between the points: each original point stands for the time within half a sampling interval `D` of it, or halfway to a neighbour nearer than that, and where no point does the values are those of the straight line through the two points around, at the middle of the part of the gap within the interval. [C260_witness] half a minute around 30 s and 60 s, across the gap"
  },
  {
   "property": "C261",
   "status": "proved",
   "theorems": [
    "Timeseria.C261_even",
    "Timeseria.C261_witness"
   ],
   "note": "[C261_even] C261: resampling an evenly spaced series, to any unit, gives each new point the mean over its interval of the values of the original points, each of which counts for the time that its own interval has in common with the new one. [C261_witness] points every 20 s resampled to minutes and to 4 seconds"
  },
  {
   "property": "C262",
   "status": "proved",
   "theorems": [
    "Timeseria.C262_conserved",
    "Timeseria.C262_witness"
   ],
   "note": "[C262_conserved] C262: resampling preserves integrals: the values of the new points, each times the unit, sum up to the integral of the original values, filled in between the points (see C260), over the time the new points stand for. [C262_witness] the four points of `C260_witness`"
  },
  {
   "property": "C263",
   "status": "partial",
   "theorems": [
    "Timeseria.C263_own_partial",
    "Timeseria.C263_false",
    "Timeseria.C263_witness"
   ],
   "note": "[C263_own_partial] C263, partial: resampling an evenly spaced series that lies on the boundaries of its own resolution gives its points with their values, except the first one and the last one. Missing: these two, for which it is false (`C263_false`). [C263_false] C263 is false for the first and the last point: they are dropped."
  },
  {
   "property": "C264",
   "status": "partial",
   "theorems": [
    "Timeseria.C264_line_partial",
    "Timeseria.C264_exact_partial",
    "Timeseria.C264_false",
    "Timeseria.C264_witness"
   ],
   "note": "[C264_line_partial] C264, partial: resampling a straight line (a label whose values are `al + be * t`) gives values that differ from the line by at most the change of the line over half a sampling interval. [C264_exact_partial] C264 (exact), partial: a straight line in an evenly spaced series is resampled exactly where the interval of the new point begins and ends where those of original points do. [C264_false] C264 is false for units shorter than the spacing: a straight line (here `t / 30 - 1`) becomes a staircase. [C264_witness] the hypotheses of the two partial theorems: within one unit of the line, and exactly on it at whole minutes"
  },
  {
   "property": "C265",
   "status": "partial",
   "theorems": [
    "Timeseria.C265_aggregated_partial",
    "Timeseria.C265_even_partial",
    "Timeseria.C265_false",
    "Timeseria.C265_witness"
   ],
   "note": "[C265_aggregated_partial] C265, partial: aggregating a series without data losses with the average, to any unit (also calendar ones), gives each slot, for each label, the mean over the slot of the values of the series, filled in between the points as for resampling (C260), if each slot has a point in it, or no point within half a sampling interval of it. Missing: other slots without points, for which it is false (`C265_false`). [C265_even_partial] C265 (evenly spaced), partial: for an evenly spaced series and slots not shorter than its spacing, the average of a slot is the mean of the values, each counting for the time that its interval has in common with the slot. [C265_false] C265 is false for slots without points that are partly covered: aggregating points every minute to slots of 30 s gives the slots without points averages that are twice the values, and changes those of the slots that follow. [C265_witness] a slot with points, one within the gap and one with points again"
  },
  {
   "property": "C266",
   "status": "partial",
   "theorems": [
    "Timeseria.C266_conserved_partial",
    "Timeseria.C266_false",
    "Timeseria.C266_witness"
   ],
   "note": "[C266_conserved_partial] C266, partial: the averages of the slots, each times the length of its slot, sum up to the integral of the original values, filled in between the points, over the time of the slots. Missing: as for C265. [C266_false] C266 is false for the same slots: their total is 1410, that of the values 720."
  },
  {
   "property": "C267",
   "status": "partial",
   "theorems": [
    "Timeseria.C267_false",
    "Timeseria.C267_false_witness",
    "Timeseria.C267_materialized_partial"
   ],
   "note": "[C267_false] C267 is false, for all views: any two views just made are equal, whatever they show and of whatever series; and a view is never equal to a series with items, not even to the one it shows in full. [C267_false_witness] two views with no item in common which are equal [C267_materialized_partial] C267 (materialized views), partial: the materialized copies of two views of good points, or of good slots, are equal exactly when the views show as many items and the same ones, in time and data. Missing: the views themselves (`C267_false`)."
  },
  {
   "property": "C268",
   "status": "partial",
   "theorems": [
    "Timeseria.C268_false",
    "Timeseria.C268_false_witness",
    "Timeseria.C268_materialized_partial"
   ],
   "note": "[C268_false] C268 is false, for all views: no item is ever in a view just made, not even one it shows. [C268_materialized_partial] C268 (materialized views), partial: an item is in the materialized copy exactly when the view shows one equal to it. Missing: the view itself (`C268_false`)."
  },
  {
   "property": "C269",
   "status": "proved",
   "theorems": [
    "Timeseria.C269_nothing",
    "Timeseria.C269_nested",
    "Timeseria.C269_flatten"
   ],
   "note": "[C269_nothing] C269 (nothing to show): a view of an empty series, and a view of it, have no items: the length is zero, the list empty, every position raises `IndexError`. [C269_nested] C269 A view of a view, at any depth and of any series, reads like the part of the part of the items: same length, same items when iterating, same item for every position in `[-len, len)`. [C269_flatten] C269 (a view of a view is a view): a view from `c` to `d` of the view from `a` to `b` shows what the view from `a + c` to `a + d` of the series does."
  },
  {
   "property": "C270",
   "status": "partial",
   "theorems": [
    "Timeseria.C270_false",
    "Timeseria.C270_endless_false",
    "Timeseria.C270_false_witness",
    "Timeseria.C270_value_partial"
   ],
   "note": "[C270_false] C270 is false, for every view with items all in one zone: a loop over the view which reads `view.tz` sees the first item only. [C270_endless_false] C270 (endless), false: when a later item shown, not the last, is the first in another zone, such a loop never ends: after the first item it is given for ever the item next to that one, and none of the others. [C270_value_partial] C270 (the value), partial: the zone itself is right: the one shared by the items shown, UTC when there are several, none without items. Missing: that reading it is harmless (`C270_false`)."
  },
  {
   "property": "C271",
   "status": "proved",
   "theorems": [
    "Timeseria.C271_shows_the_same",
    "Timeseria.C271_append",
    "Timeseria.C271_which"
   ],
   "note": "[C271_shows_the_same] C271 Whatever calls of `append`, `insert`, `remove`, `pop` and `clear` are made on a view, and however they end, it shows the same items of the same series: its length, its items by position and by iteration, its slices, its resolution do not change. [C271_append] C271 (append): appending to a view always raises, whatever happened to it before and whatever the item. [C271_which] C271 (which exception): on a view just made of points, a point not later than the last one shown is refused with a `ValueError`, a later one (good for a series with the same items) with an `AttributeError`."
  },
  {
   "property": "C272",
   "status": "partial",
   "theorems": [
    "Timeseria.C272_middle_partial",
    "Timeseria.C272_pop_partial",
    "Timeseria.C272_pop_slots_partial",
    "Timeseria.C272_false",
    "Timeseria.C272_refused_partial"
   ],
   "note": "[C272_middle_partial] C272 (in the middle): an insertion of a point in the middle of a view of points looks at the point shown before that position only: it is refused with `ValueError` if the new point is not later; otherwise the point ends up in the list of the view, not in what it shows. [C272_pop_partial] C272 (pop): what was inserted in a view can be popped from it: `pop` takes from the list of the view, not from what it shows; for slots, only the first position and the one after the last (which does not exist) are allowed. [C272_pop_slots_partial] C272 (pop of slots): in a view of slots, a position other than these is refused with `IndexError`. [C272_false] C272 is false, for every view of points with items: inserting at the end a point later than the last one shown succeeds, and the view does not show it, although `x in view` is true from then on. [C272_refused_partial] C272 (refusals), partial: what the view does check is checked on the items shown: inserting at the front of a view of points one not before the first item shown, or at the end one not after the last, is refused with a `ValueError`, and nothing changes. Missing: that an accepted insertion has an effect (`C272_false`)."
  },
  {
   "property": "C273",
   "status": "partial",
   "theorems": [
    "Timeseria.C273_nothing_partial",
    "Timeseria.C273_false",
    "Timeseria.C273_false_witness",
    "Timeseria.C273_at_t_partial"
   ],
   "note": "[C273_nothing_partial] C273 (nothing to show): `get` by time on a view of an empty series raises `IndexError`, as on the series. [C273_false] C273 is false, for every view just made: `view.get(at_i=k)` raises `IndexError` for every position. [C273_at_t_partial] C273 (by time), partial: `view.get(at_t=t)` and `view[t]` find the item shown at that time, and raise `ValueError` when the view shows none, even if the series has one. Missing: by position (`C273_false`)."
  },
  {
   "property": "C274",
   "status": "partial",
   "theorems": [
    "Timeseria.C274_bounds_partial",
    "Timeseria.C274_false",
    "Timeseria.C274_one_bound_false",
    "Timeseria.C274_slice_partial",
    "Timeseria.C274_inside_partial"
   ],
   "note": "[C274_bounds_partial] C274 (refused): on a view, as on a series, giving a bound twice or mixing positions and times is refused with `ValueError`, also when the view shows nothing; consistent bounds on a view which shows nothing (of a series which has items) give an empty series. [C274_false] C274 is false: the slice in square brackets of a view of three points, up to a time after them, holds a point which the view does not show. [C274_one_bound_false] C274 (one bound), false for all views and times: with a time on one side only the square brackets raise `ValueError`. [C274_slice_partial] C274 (the method): `view.slice(from_t, to_t)` gives exactly the points shown with `from_t \u2264 t < to_t`. [C274_inside_partial] C274 (inside the view), partial: when the view shows all the points of the series between the two times, the square brackets give the same items as `view.slice`. Missing: the other cases (`C274_false`, `C274_one_bound_false`)."
  },
  {
   "property": "C275",
   "status": "partial",
   "theorems": [
    "Timeseria.C275_false"
   ],
   "note": "[C275_false] C275 is false, for every view with items: renaming or removing a label or an index through it raises `AttributeError`."
  },
  {
   "property": "C276",
   "status": "partial",
   "theorems": [
    "Timeseria.C276_false",
    "Timeseria.C276_constant_partial"
   ],
   "note": "[C276_false] C276 is false: the view of three points a minute apart says `variable`, its materialized copy says one minute; and the view of one point has the resolution of the series, where its copy has none. [C276_constant_partial] C276 (constant resolution), partial: for points at the same distance, and for slots, a view showing at least two items (one for slots) has the resolution of its materialized copy. Missing: series of variable resolution and views of one point (`C276_false`)."
  },
  {
   "property": "C277",
   "status": "partial",
   "theorems": [
    "Timeseria.C277_false"
   ],
   "note": "[C277_false] C277 is false, for every series: a view made without one of its bounds has no length and cannot be iterated: both raise `TypeError`. (By position, from the side of the given bound, it works.)"
  },
  {
   "property": "C278",
   "status": "partial",
   "theorems": [
    "Timeseria.C278_scalars_partial",
    "Timeseria.C278_false"
   ],
   "note": "[C278_scalars_partial] C278 (items shown), partial: for every view showing items of a series with indexed data, the minima, maxima, sums and averages are those of its materialized copy. Missing: views without items (`C278_false`). [C278_false] C278 is false, for every view without items of a series with indexed data: instead of the `ValueError` raised for an empty series, the minima and the maxima are `None` for each label, the sums are 0, and the average raises an `UnboundLocalError`."
  },
  {
   "property": "C279",
   "status": "partial",
   "theorems": [
    "Timeseria.C279_extremes_partial",
    "Timeseria.C279_witness",
    "Timeseria.C279_false"
   ],
   "note": "[C279_extremes_partial] C279, partial: aggregating a series without data losses with the built-in operations, the maximum (minimum) of a slot is the largest (smallest) of the values of the points in the slot; if no point is within half a sampling interval of the slot, it is the value, halfway through it, of the line through the points before and after it. Missing: the other slots without points, for which it is false (`C279_false`). [C279_witness] slots with points, and one in the middle of a gap [C279_false] C279 is false for slots without points that are partly covered: in slots of 30 s, points every minute with positive values give maxima and minima of zero."
  },
  {
   "property": "C280",
   "status": "partial",
   "theorems": [
    "Timeseria.C280_sums_partial",
    "Timeseria.C280_plain_partial",
    "Timeseria.C280_witness",
    "Timeseria.C280_false"
   ],
   "note": "[C280_sums_partial] C280, partial: the sum of a slot with points is the sum of their values, plus the middle one of the values of any two consecutive points of the slot that are more than the sampling interval apart; if no point is within half a sampling interval of the slot, it is the value, halfway through it, of the line through the points before and after it. Missing: that it is the sum of the values of the points of the slot, which is false (`C280_false`). [C280_plain_partial] C280 (no gaps): if no two consecutive points are more than the sampling interval apart, the sum of a slot with points is the sum of their values. [C280_witness] the slot from 0 to 180 has points 50 s apart, so also the value in the middle of the gap is counted [C280_false] C280 is false as the sum of the values of the points of the slot: an interpolated value is added for a gap."
  },
  {
   "property": "C281",
   "status": "partial",
   "theorems": [
    "Timeseria.C281_operations_partial",
    "Timeseria.C281_builtin",
    "Timeseria.C281_witness",
    "Timeseria.C281_false"
   ],
   "note": "[C281_operations_partial] C281: aggregating a series without data losses with several operations (whose names have no underscores and are different) gives, slot by slot, the values that each of them gives on its own, with the same slots and the same data indexes. [C281_builtin] C281 (built-in operations): any list of them. [C281_witness] operations named as in the library do not get in each other's way [C281_false] C281 is false for operations with underscores in their names: the maximum of `x_y`, and the operation `y_max` for `x`, have the same label, and only the one computed last is there."
  },
  {
   "property": "C282",
   "status": "proved",
   "theorems": [
    "Timeseria.C282_total",
    "Timeseria.C282_witness"
   ],
   "note": "[C282_total] C282: for an evenly spaced series without data losses and slots not shorter than its spacing, the sum of each slot is the sum of the values of its points, and the sums of all slots add up to the sum of the values of all the points in the time of the slots. [C282_witness] points every minute in slots of two and three minutes"
  },
  {
   "property": "C283",
   "status": "proved",
   "theorems": [
    "Timeseria.C283_rows",
    "Timeseria.C283_raises",
    "Timeseria.C283_no_column"
   ],
   "note": "[C283_rows] C283 (the rows): a file with a header (after any comments) and columns for the date, the time or both gives, with all the columns as data, one row for each line with a readable time and readable values, in order: its time is the one in the columns of date and time, and its data are the other columns under their labels. The other lines are dropped if errors are skipped; the limit and the sorting are as for a timestamp column. [C283_raises] C283 (malformed lines): without skipping errors, the first line without a row ends the reading: `ValueError` if the time cannot be read, the generic exception if a value cannot. [C283_no_column] C283 (no such column): a column of the time or of the date asked for by a label which the header does not have ends the reading with the generic exception at the first line; without a header, with `TypeError`."
  },
  {
   "property": "C284",
   "status": "partial",
   "theorems": [
    "Timeseria.C284_conflict_false",
    "Timeseria.C284_nothing_false",
    "Timeseria.C284_refused_partial",
    "Timeseria.C284_one_way_partial",
    "Timeseria.C284_accepts_partial"
   ],
   "note": "[C284_conflict_false] C284 is false: a column of the time given by its number, if this is zero, is not seen to be in conflict with a timestamp column, which is silently forgotten; [C284_nothing_false] C284 is false: and a storage with no column for the time at all is accepted. [C284_refused_partial] C284, partial: a timestamp column together with a column of the time or of the date is refused, unless the latter are numbers equal to zero (or empty texts); so is a column of the time or of the date without its format, or which is neither a number nor a text; always with `ValueError`. Missing: `C284_conflict_false`, `C284_nothing_false`. [C284_one_way_partial] C284, partial: a storage which is accepted reads the time either from a timestamp column or from columns of time and date: giving one of the latter drops the former. The columns and the formats are those given. [C284_accepts_partial] C284, partial (exactly): the constructor accepts its arguments in these cases, and in no other. Missing: `C284_conflict_false` and `C284_nothing_false`, cases accepted against the messages of the checks."
  },
  {
   "property": "C285",
   "status": "partial",
   "theorems": [
    "Timeseria.C285_filter_false",
    "Timeseria.C285_again_partial",
    "Timeseria.C285_history_partial",
    "Timeseria.C285_left_agrees"
   ],
   "note": "[C285_filter_false] C285 is false: a call with column numbers leaves its mark on the storage: the next call returns lists instead of dictionaries. [C285_again_partial] C285, partial: after a successful call, a call on the same file which asks for the same columns returns what it would have returned as the first call, whatever its other arguments: limit, points or slots, unit; and the same call again leaves the storage as it is. Missing: calls selecting columns by number before (`C285_filter_false`); `C285_history_partial` is about any history, with calls which raised. [C285_history_partial] C285, partial: after any history of calls of `get` on a file, whatever their arguments and whether they raised or not, a call of `get` returns (or raises) what it would as the first call: if no call of the history selected columns by number, if this call does, or if the storage was made for lists; in the other case it returns what it would as the first call on a storage made for lists. Missing: that other case (`C285_filter_false`). [C285_left_agrees] The attributes which the model says a successful call leaves are those which it returns."
  },
  {
   "property": "C286",
   "status": "partial",
   "theorems": [
    "Timeseria.C286_unnamed_column_false",
    "Timeseria.C286_named_columns_partial",
    "Timeseria.C286_every_column_partial"
   ],
   "note": "[C286_unnamed_column_false] C286 is false: a column without a name in the header, such as the first one of a file written from a data frame, shifts the labels to the left: the row number is taken for the time and the time for the value. [C286_named_columns_partial] C286, partial: in a file whose header names every column, the columns asked for by name give the values of the fields in the columns with those names, whatever the order in which they are asked for; one row for each line with a time and those values. Other columns do not matter, even if they cannot be read. Missing: a column without a name shifts the labels (`C286_unnamed_column_false`). [C286_every_column_partial] C286, partial: and when all the columns are asked for, the row of a line has, under the label of each column other than that of the time, the value of the field in that column."
  },
  {
   "property": "C287",
   "status": "partial",
   "theorems": [
    "Timeseria.C287_custom_format_false",
    "Timeseria.C287_missing_value_false",
    "Timeseria.C287_plain_files_partial"
   ],
   "note": "[C287_custom_format_false] C287 is false: with a custom format of the time, the first line of a file without a header is taken for the header; [C287_missing_value_false] C287 is false: and so is a first line with a missing value. [C287_plain_files_partial] C287, partial: a file without a header whose first line has only numbers and times, with timestamps in a known format, loses no row: one for each line with a time and a number in every other column of the first line, as a list of values in the order of the columns. Missing: custom formats and first lines with missing values (`C287_custom_format_false`, `C287_missing_value_false`)."
  },
  {
   "property": "C288",
   "status": "partial",
   "theorems": [
    "Timeseria.C288_refused_partial",
    "Timeseria.C288_false",
    "Timeseria.C288_witness"
   ],
   "note": "[C288_refused_partial] C288, partial: when the first of the series is of points and the one whose start is the latest (the last of these, if there are several) is of slots, or the other way round, a merge over overlapping ranges is refused, with an `UnboundLocalError` (`.exception`) in the first case and an `AttributeError` in the second. Missing: the first series and the latest one of the same kind, with others of the other kind: these are merged (`C288_false`). [C288_false] C288 is false: slots are merged with points which start earlier: the slots of the result hold the mean of the slots and of the points at their starts. In the other order the same merge is refused. [C288_witness] the refused merge meets the hypotheses of `C288_refused_partial`"
  },
  {
   "property": "C289",
   "status": "proved",
   "theorems": [
    "Timeseria.C289_disjoint",
    "Timeseria.C289_unmatched",
    "Timeseria.C289_witness"
   ],
   "note": "[C289_disjoint] C289 (no common range): when a series ends before another one starts, the merge is an empty series. [C289_unmatched] C289 (times that do not match): when the ranges of the series overlap but one of them has no item at the time `m` where the latest one starts, the merge is refused with a `KeyError`."
  },
  {
   "property": "C290",
   "status": "partial",
   "theorems": [
    "Timeseria.C290_false",
    "Timeseria.C290_one_partial",
    "Timeseria.C290_which"
   ],
   "note": "[C290_false] C290 is false: a list of series given to the method is never merged, whatever the series. [C290_one_partial] C290, partial: with one other series the method is the operation on the two, and on two mergeable series gives exactly what `C31` says. Missing: several series (`C290_false`). [C290_which] C290 (which error): a list of series is refused by the method with `ValueError` if the series is empty or of variable resolution, and with `AttributeError` otherwise."
  },
  {
   "property": "C291",
   "status": "proved",
   "theorems": [
    "Timeseria.C291_itself",
    "Timeseria.C291_witness"
   ],
   "note": "[C291_itself] C291: merging a series with itself, any number of times, gives its times, its values and its (set) data indexes. [C291_witness] `exSeries` three times"
  },
  {
   "property": "C292",
   "status": "partial",
   "theorems": [
    "Timeseria.C292_statistics_partial",
    "Timeseria.C292_witness",
    "Timeseria.C292_false",
    "Timeseria.C292_false_names"
   ],
   "note": "[C292_statistics_partial] C292, partial: an aggregation with functions of the user, each computing a statistic `f` of the values of the labels (as a dictionary, or as a single value for a series with one label), gives for each slot and label: if the slot has points, `f` of their values together with the middle ones of the values of consecutive points more than the sampling interval apart; if no point is within half a sampling interval of the slot, `f` of the value halfway through it of the line through the points around it. The names must be different and without underscores. Missing: slots without points partly covered (C279), functions that return a value for a series with several labels (`C292_false`), functions with the same name (`C292_false_names`). [C292_false] C292 is false for functions returning a single value: in a series with the labels `x` and `x_y` the value is stored for the first label only, and nothing for the other. [C292_false_names] C292 is false for functions with the same name (as two lambdas): only the values of the last one are there."
  },
  {
   "property": "C293",
   "status": "partial",
   "theorems": [
    "Timeseria.C293_copy_partial",
    "Timeseria.C293_constant_partial",
    "Timeseria.C293_false",
    "Timeseria.C293_witness"
   ],
   "note": "[C293_copy_partial] C293, partial: on every view showing items of a series with indexed data, `rescale`, `offset`, `normalize` (also with a source range), `mavg`, `filter` and the selection of items give exactly what they give on the materialized copy of the view, errors included, whatever the arguments; so do `derivative`, `integral`, `diff` and `csum`, with any offset, if the copy has the resolution of the series shown, as in the cases of C276. Missing: the operations depending on the resolution for the other views (`C293_false`). [C293_constant_partial] C293 (constant resolution), partial: with points at the same distance (at least two in the view), or slots, all these operations give on the view what they give on its copy. [C293_false] C293 is false: a view of equally spaced points of a series of variable resolution has no differences (`ValueError`), its copy has; a view of one point of a series of constant resolution has an integral, its copy has none (`TypeError`)."
  },
  {
   "property": "C294",
   "status": "partial",
   "theorems": [
    "Timeseria.C294_succession",
    "Timeseria.C294_order_partial",
    "Timeseria.C294_false",
    "Timeseria.C294_witness",
    "Timeseria.C294_refused",
    "Timeseria.C294_refused_more",
    "Timeseria.C294_data"
   ],
   "note": "[C294_succession] C294 (succession): for every class of items with a `__succedes__` method, whatever it does, after every history of `append`, `insert`, `remove`, `pop` and `clear`, accepted or refused, on a new series, each item succeeds the one before it. [C294_order_partial] C294 (order), partial: for items compared with `>`, transitively, after every history of calls, accepted or refused, on a new series, the items are strictly increasing, if no insertion puts an item just before one which is not greater. Missing: the other insertions, which the series accepts (`C294_false`). [C294_false] C294 is false: 5 is inserted between 1 and 3. [C294_refused] C294 (what is refused): on a series which is not empty, appending an item of another class raises `TypeError`; one of the class in a succession that does not succeed the last one, or compared with `>` and not greater, raises `ValueError`; nothing changes. [C294_refused_more] C294 (what is refused by the other calls): inserting an item of another class raises `TypeError`, removing one that is not there `ValueError`, popping from an empty series or outside of it `IndexError`; nothing changes. [C294_data] C294 (data): on a series of items with lists as data, appending one that follows with a list of another length raises `ValueError`; with dictionaries, one with other labels; one with data of another kind raises `TypeError`; nothing changes."
  },
  {
   "property": "C295",
   "status": "partial",
   "theorems": [
    "Timeseria.C295_same_class_partial",
    "Timeseria.C295_false"
   ],
   "note": "[C295_same_class_partial] C295, partial: after every history of calls on a new series all the items are of the same class, if no class derives from another. Missing: subclasses, of which the series accepts instances (`C295_false`). [C295_false] C295 is false: with a class deriving from another a series can start with an instance of the subclass and go on with one of the other class: slicing all of it, or appending again what it already holds the class of, is refused with `TypeError`."
  },
  {
   "property": "C296",
   "status": "partial",
   "theorems": [
    "Timeseria.C296_step_partial",
    "Timeseria.C296_consecutive_partial",
    "Timeseria.C296_false",
    "Timeseria.C296_false_step",
    "Timeseria.C296_witness",
    "Timeseria.C296_zero_step"
   ],
   "note": "[C296_step_partial] C296 (items compared with `>`), partial: on an ordered series of items of one class with data of one kind, `series[a:b:c]` with a positive `c` gives a series with exactly the items in positions `from`, `from + c`, `from + 2c`, \u2026 below `to`, as a slice of a list: missing bounds are the beginning and the end, negative ones are counted from the end. Missing: negative steps and items in a succession (`C296_false`, `C296_false_step`). [C296_consecutive_partial] C296 (consecutive items), partial: `series[a:b]` of a series in order or in succession, of items of one class with data of one kind, gives a series with exactly the items from `a` to `b`. [C296_false] C296 is false: `series[::-1]` is refused with `ValueError` for every ordered series of at least two items compared with `>`. [C296_false_step] C296 is false for items in a succession: every second item of 4, 5, 6. [C296_zero_step] C296 (zero step): a slice with step zero raises `ValueError`."
  },
  {
   "property": "C297",
   "status": "partial",
   "theorems": [
    "Timeseria.C297_false",
    "Timeseria.C297_slots_partial",
    "Timeseria.C297_witness",
    "Timeseria.C297_refused",
    "Timeseria.C297_missing_label"
   ],
   "note": "[C297_false] C297 is false: on every series of data points which are not in time, `rescale` and `offset` raise `AttributeError`, whatever the value; so do `derivative` (with at least two points), `diff`, `integral` and `csum`, on points and slots. [C297_slots_partial] C297 (slots), partial: on every series of data slots which are not in time, each as long as its unit, `rescale` and `offset` give a series with the same slots, the same labels and the indexes, each value being rescaled or shifted. Missing: points, and the operations depending on the resolution (`C297_false`). [C297_refused] C297 (what is refused): on an empty series the operations raise `ValueError`; rescaling and offsetting a series without data `TypeError`; the derivative of a single item `ValueError`. [C297_missing_label] C297 (labels): an item without one of the labels of the first raises `KeyError`."
  },
  {
   "property": "C298",
   "status": "partial",
   "theorems": [
    "Timeseria.C298_whole_partial",
    "Timeseria.C298_spacings_partial",
    "Timeseria.C298_false",
    "Timeseria.C298_witness"
   ],
   "note": "[C298_whole_partial] C298 (whole seconds), partial: points at whole times, each `d` seconds after the one before it, have the constant resolution `d`, also in double precision, if the times are below 2 ^ 52, and the time unit reported is of `d` seconds if `d` is below 2 ^ 53 / 10 ^ 7 (about 28 years). Missing: fractions of seconds (`C298_false`). [C298_spacings_partial] C298 (what a resolution tells), partial: if the resolution of a series of points is constant, all the spacings are that one up to a relative error of 2 ^ -53, in double precision. [C298_false] C298 is false: points at 0.1, 0.2 and 0.3 seconds have a variable resolution, in double precision, and so have points every tenth of a second in 2020; two points at 0.2 and 0.3 have a resolution of 0.0999999 seconds."
  },
  {
   "property": "C299",
   "status": "partial",
   "theorems": [
    "Timeseria.C299_default_partial",
    "Timeseria.C299_range_partial",
    "Timeseria.C299_false",
    "Timeseria.C299_witness",
    "Timeseria.C299_unrounded"
   ],
   "note": "[C299_default_partial] C299 (default range), partial: for every rounding which keeps distinct values distinct, as double precision does, normalizing the values of a label, not all equal, does not raise, gives values between 0 and 1, 0 for the least one, 1 for the greatest one, and keeps their order. Missing: the upper bound of other ranges (`C299_false`). [C299_range_partial] C299 (any range), partial: with a range from `a` to `b`, the values are never below `a`, the least one becomes `a`, and the order is kept. [C299_false] C299 is false: normalizing 0 and 1 to the range from -3.8 to 1.2 gives a value above 1.2. [C299_unrounded] C299 (unrounded) without rounding the normalized values are those of the exact operation"
  },
  {
   "property": "C300",
   "status": "partial",
   "theorems": [
    "Timeseria.C300_error_partial",
    "Timeseria.C300_whole_partial",
    "Timeseria.C300_false",
    "Timeseria.C300_witness",
    "Timeseria.C300_unrounded"
   ],
   "note": "[C300_error_partial] C300 (error), partial: in double precision the sum of `n` values is within ((1 + 2 ^ -53) ^ n - 1) times the sum of their absolute values from the exact one, whatever the values; the average is the rounded quotient by `n` of such a sum. Missing: the average can be outside of the range of the values (`C300_false`). [C300_whole_partial] C300 (whole numbers), partial: the sum of whole numbers, if the sum of their absolute values is below 2 ^ 53, is exact in double precision, and their average is between the least and the greatest of them. [C300_false] C300 is false: in double precision the average of 0.1, 0.1 and 0.1 is above 0.1. [C300_unrounded] C300 (unrounded) without rounding sum and average are the exact ones; the average of nothing raises TypeError"
  },
  {
   "property": "C301",
   "status": "partial",
   "theorems": [
    "Timeseria.C301_lower_partial",
    "Timeseria.C301_whole_partial",
    "Timeseria.C301_false",
    "Timeseria.C301_witness",
    "Timeseria.C301_unrounded",
    "Timeseria.C301_unrounded_regions"
   ],
   "note": "[C301_lower_partial] C301 (lower bound), partial: for every rounding, if each region ends after it begins, the coverage of an interval whose length is not rounded to zero is not negative, and the data loss is at most 1. Missing: the coverage can be above 1, and the data loss negative (`C301_false`). [C301_whole_partial] C301 (whole seconds), partial: if the bounds of the interval and of the regions, in order and not overlapping, are whole numbers or halves, up to 2 ^ 51, the coverage is between 0 and 1 also in double precision, and so is the data loss. [C301_false] C301 is false: of these points, none missing, the coverage of the interval between the first and the last is above 1 and the data loss is negative. [C301_unrounded] C301 (unrounded) without rounding the coverage and the data loss are the exact ones [C301_unrounded_regions] C301 (unrounded regions) without rounding the validity regions are the exact ones"
  },
  {
   "property": "C302",
   "status": "proved",
   "theorems": [
    "Timeseria.C302_linear",
    "Timeseria.C302_log",
    "Timeseria.C302_average",
    "Timeseria.C302_witness"
   ],
   "note": "[C302_linear] C302 (linear): for every rounding which keeps distinct values distinct, as double precision does, the linear index of a density between those of the two bounds is between 0 and 1, 0 at the first bound, 1 at the second, and does not grow with the density. [C302_log] C302 (logarithmic): the same for the logarithmic index, given the logarithms, that of the second bound being the lesser one. [C302_average] C302 (average): the average of the indexes of the labels, each between 0 and 1, is between 0 and 1, in double precision, if there are at most 2 ^ 53 labels."
  },
  {
   "property": "C303",
   "status": "partial",
   "theorems": [
    "Timeseria.C303_first_partial",
    "Timeseria.C303_false",
    "Timeseria.C303_witness",
    "Timeseria.C303_unrounded"
   ],
   "note": "[C303_first_partial] C303, partial: for every rounding which keeps distinct values distinct, a value interpolated between two points does not raise and is never on the other side of the value of the first point; between growing values it does not decrease with the time, between decreasing ones it does not grow. Missing: it can go over the value of the second point (`C303_false`). [C303_false] C303 is false: between 0.6 at 0 seconds and 1.7 at 7 seconds, just before the second point the value interpolated is above 1.7. [C303_unrounded] C303 (unrounded) without rounding the interpolated value is the exact one"
  },
  {
   "property": "C304",
   "status": "partial",
   "theorems": [
    "Timeseria.C304_whole_partial",
    "Timeseria.C304_error_partial",
    "Timeseria.C304_false",
    "Timeseria.C304_witness",
    "Timeseria.C304_unrounded"
   ],
   "note": "[C304_whole_partial] C304 (whole numbers), partial: the running sums, from the first value, of the differences of whole numbers up to 2 ^ 52 give back the values, also in double precision. Missing: other numbers (`C304_false`). [C304_error_partial] C304 (error), partial: the last running sum is within ((1 + 2 ^ -53) ^ n - 1) times the sum of the absolute values from the exact one. [C304_false] C304 is false: from the differences of 0.1, 0.3 and 0.9 the last value is not given back. [C304_unrounded] C304 (unrounded) without rounding the differences and the cumulative sums are the exact ones"
  },
  {
   "property": "C305",
   "status": "partial",
   "theorems": [
    "Timeseria.C305_lower_partial",
    "Timeseria.C305_false",
    "Timeseria.C305_witness",
    "Timeseria.C305_unrounded"
   ],
   "note": "[C305_lower_partial] C305, partial: for every rounding which keeps distinct values distinct, a value of the source range is rescaled to a value between 0 and 1 with the default target, and to one not below the beginning of the target with any other; the order is kept. Missing: the end of another target can be exceeded (`C305_false`). [C305_false] C305 is false: the end of the source range is rescaled to a value above the end of the target from 0.6 to 1.7. [C305_unrounded] C305 (unrounded) without rounding the rescaled value is the exact one"
  },
  {
   "property": "C306",
   "status": "proved",
   "theorems": [
    "Timeseria.C306_max",
    "Timeseria.C306_mape",
    "Timeseria.C306_witness",
    "Timeseria.C306_unrounded"
   ],
   "note": "[C306_max] C306 (maximum): for every rounding which keeps distinct values distinct, the maximum absolute error of two lists of the same length is not negative, and it is zero exactly if the lists are equal. [C306_mape] C306 (mean percentage): for every rounding the mean absolute percentage error of two lists of the same length, without zeros in the first, is not negative, and it is zero if the lists are equal. [C306_unrounded] C306 (unrounded) without rounding the error metrics are the exact ones"
  },
  {
   "property": "C307",
   "status": "proved",
   "theorems": [
    "Timeseria.C307_whole",
    "Timeseria.C307_witness",
    "Timeseria.C307_unrounded"
   ],
   "note": "[C307_whole] C307: for whole times from the epoch on, below 2 ^ 53, and a whole resolution, the position in the period computed in double precision is the exact one. [C307_unrounded] C307 (unrounded) without rounding the position in the period is the exact one"
  },
  {
   "property": "C308",
   "status": "partial",
   "theorems": [
    "Timeseria.C308_partial",
    "Timeseria.C308_false",
    "Timeseria.C308_errors"
   ],
   "note": "[C308_partial] C308, partial: items can be appended one after the other to an empty series exactly when their times increase and their data compare with that of the first, if this is a value which is true: the same type, lists of the same length, dictionaries with the same labels. The series then has these items. [C308_false] C308 is false: tuples of different lengths are accepted in one series; the sum then leaves out a value without telling, or raises `IndexError`. [C308_errors] C308 (errors) data of another type raise TypeError, lists of another length and dictionaries with other keys ValueError"
  },
  {
   "property": "C309",
   "status": "partial",
   "theorems": [
    "Timeseria.C309_false",
    "Timeseria.C309_partial",
    "Timeseria.C309_zero",
    "Timeseria.C309_labels"
   ],
   "note": "[C309_false] C309 is false: in a series started with an integer a number with decimals is refused, with `TypeError`, and the other way round. [C309_partial] C309, partial: numbers of one type are accepted exactly in the order of time, if the first one is not zero. [C309_zero] C309 (zero): if the first number is zero (or the first data are empty), whatever is appended next in time is accepted, of any type. [C309_labels] C309 (labels): a number has no labels: no operation works on a series of numbers."
  },
  {
   "property": "C310",
   "status": "partial",
   "theorems": [
    "Timeseria.C310_partial",
    "Timeseria.C310_false",
    "Timeseria.C310_witness",
    "Timeseria.C310_errors",
    "Timeseria.C310_positions",
    "Timeseria.C310_empty",
    "Timeseria.C310_average"
   ],
   "note": "[C310_partial] C310, partial: `min`, `max`, `sum` and any other operation giving a value for each label give on tuples what they give on lists with the same values; so does `avg`. [C310_false] C310 is false: no operation which gives a new series works on tuples: for every series of which the first item carries a tuple with values they raise `AttributeError`. [C310_errors] C310 (errors) a missing key raises KeyError, a text on an array IndexError, any other object TypeError [C310_positions] C310 (positions) on lists and tuples a text which is not a number raises ValueError, a position which is not there IndexError [C310_empty] C310 (empty) an operation on nothing raises ValueError [C310_average] C310 (average) the average under a label, multiplied by the number of the items, is the sum of the values of the items under it"
  },
  {
   "property": "C311",
   "status": "partial",
   "theorems": [
    "Timeseria.C311_false",
    "Timeseria.C311_partial"
   ],
   "note": "[C311_false] C311 is false: after an item with an array of two or more values nothing can be appended: whatever comes later in time raises `ValueError`, and so does any operation. [C311_partial] C311, partial: arrays of one value which is not zero in the first are accepted in the order of time; but their values cannot be read: every operation raises `IndexError`."
  },
  {
   "property": "C312",
   "status": "partial",
   "theorems": [
    "Timeseria.C312_false",
    "Timeseria.C312_partial"
   ],
   "note": "[C312_false] C312 is false: an operation never works on a list of series, although it says it does: on any list of series which are not empty it raises `AttributeError`. [C312_partial] C312, partial: on a series which is not empty the result is that of the operation; anything else is refused: an empty series, alone or in a list, with `ValueError`, what cannot be iterated with `TypeError`."
  },
  {
   "property": "C313",
   "status": "partial",
   "theorems": [
    "Timeseria.C313_false",
    "Timeseria.C313_points_partial",
    "Timeseria.C313_series_partial",
    "Timeseria.C313_copy_partial",
    "Timeseria.C313_witness",
    "Timeseria.C313_empty"
   ],
   "note": "[C313_false] C313 is false: moving a slice to another zone moves the points of the series it was taken from: the series then says it is in UTC, where none of its points is. Once it has a zone of its own, it keeps saying that one. [C313_points_partial] C313, partial (the points): after any calls of `change_tz` on series which may share their points, each point is on the zone of the last call on a series it is in, whichever this was, and the points in none of them are as before; no time changes. [C313_series_partial] C313, partial (the series): moving a series puts all its points and the series on the zone asked for, and this stays so through any later calls on series with none of its points. [C313_copy_partial] C313, partial (copies): `as_tz` changes no point of any series made before: it works on copies. [C313_empty] C313 (empty) moving an empty series to a zone raises, and changes nothing"
  },
  {
   "property": "C314",
   "status": "partial",
   "theorems": [
    "Timeseria.C314_keywords_partial",
    "Timeseria.C314_positions_partial",
    "Timeseria.C314_false",
    "Timeseria.C314_witness",
    "Timeseria.C314_errors",
    "Timeseria.C314_truthy"
   ],
   "note": "[C314_keywords_partial] C314, partial (by name): the arguments given by name to a detector with a model class of its own are those with which each of its predictive models is created, in a fit with accepted arguments. [C314_positions_partial] C314, partial (by position): for a detector given its model class in the call, the other arguments by position are for the parameters of the model in order. [C314_false] C314 is false: an argument given by position to a detector with a model class of its own is taken for another model class, and refused with `ValueError`, or left out without telling if it is zero or an empty text. Loading a saved detector forgets the arguments: whatever they were, its models are created again without. [C314_errors] C314 (errors) no class of predictive models: ValueError; the class given both in first position and by name: TypeError; too many arguments for the predictive model: TypeError [C314_truthy] C314 (empty text) an empty text or a zero in the place of the class counts as no class, anything else as one"
  },
  {
   "property": "C315",
   "status": "partial",
   "theorems": [
    "Timeseria.C315_partial",
    "Timeseria.C315_false",
    "Timeseria.C315_witness",
    "Timeseria.C315_errors"
   ],
   "note": "[C315_partial] C315, partial: a fit with context is accepted exactly if there is more than one label, the model can be created and its `fit` has a target, a context and a verbose argument (besides the ones given); then each label has a model of its own, with that label as target and the arguments given. [C315_false] C315 is false: the detector based on periodic averages refuses a fit with context, with `TypeError`, on every series with two or more labels. [C315_errors] C315 (errors) an argument which the detector itself gives to the predictive model cannot be given to `fit`: TypeError"
  },
  {
   "property": "C316",
   "status": "partial",
   "theorems": [
    "Timeseria.C316_kept",
    "Timeseria.C316_one_write",
    "Timeseria.C316_read_back_partial",
    "Timeseria.C316_wrong_value_after_a_crash_false",
    "Timeseria.C316_crash_loses_the_old_series_false"
   ],
   "note": "[C316_kept] C316 (kept) Once there is a file, no history of calls of `put` without `overwrite`, whether they complete or crash, and of `get`, changes it. [C316_one_write] C316 (one write) After any history of calls, crashes included, the file is either the one found at the start or the beginning of what one single call of `put` was writing: never a mix of two series. [C316_read_back_partial] C316 (read back) Whatever happened to the file before, crashes included, once a `put` with `overwrite` completes, and as long as the later calls do not overwrite, `get` gives back the series put: same timestamps, labels, values and data indexes. [C316_wrong_value_after_a_crash_false] C316 is false with a crash: a `put` interrupted in the middle of a number leaves a file which is read without any error and with another value: here the last one is 5 instead of 5/12. [C316_crash_loses_the_old_series_false] C316 is false with a crash: the series put before is lost as well, since the file is emptied first."
  },
  {
   "property": "C317",
   "status": "partial",
   "theorems": [
    "Timeseria.C317_cut_after_a_line_false"
   ],
   "note": "[C317_cut_after_a_line_false] C317 is false in full generality: a `put` interrupted after the line of any item, but the last, leaves a file which `get` reads without any error, as a series with only the items written up to then."
  },
  {
   "property": "C318",
   "status": "partial",
   "theorems": [
    "Timeseria.C318_max_partial",
    "Timeseria.C318_min_partial",
    "Timeseria.C318_first_value_false",
    "Timeseria.C318_order_false",
    "Timeseria.C318_max_error_false",
    "Timeseria.C318_numbers"
   ],
   "note": "[C318_max_partial] C318 (max) When the first value is not NaN, `max` is one of the values, not NaN, and no value is above it, whatever the others are. [C318_min_partial] C318 (min) The same for `min`. [C318_first_value_false] C318 is false when the first value is NaN: then `max` and `min` are NaN whatever follows [C318_order_false] C318 is false: the same values in another order have another maximum [C318_max_error_false] C318 is false for `max_absolute_error`: a prediction which is NaN counts as no error, unless it is the first [C318_numbers] C318 (numbers) when all the values are numbers `max` and `min` are those of the exact operations"
  },
  {
   "property": "C319",
   "status": "partial",
   "theorems": [
    "Timeseria.C319_sum_partial",
    "Timeseria.C319_avg_partial",
    "Timeseria.C319_diff_partial",
    "Timeseria.C319_mavg_partial",
    "Timeseria.C319_rescale_offset_partial",
    "Timeseria.C319_csum_false",
    "Timeseria.C319_any_factor",
    "Timeseria.C319_any_offset",
    "Timeseria.C319_infinity_signs",
    "Timeseria.C319_division_by_zero"
   ],
   "note": "[C319_sum_partial] C319 (sum) The sum is NaN exactly when one of the values is. [C319_avg_partial] C319 (average) The average, of a non-empty series, is NaN exactly when one of the values is. [C319_diff_partial] C319 (differences) A difference is NaN exactly when one of its two values is; otherwise it is their difference. [C319_mavg_partial] C319 (moving average) An average is NaN exactly when one of the values of its window is; otherwise it is their mean. [C319_rescale_offset_partial] C319 (rescale, offset) With a finite factor or offset each value is changed on its own: a result is NaN exactly when its value is. [C319_csum_false] C319 is false for the cumulative sum: from the first NaN on, every result is NaN. [C319_any_factor] C319 (any factor) a rescaled value is NaN exactly when the value or the factor is, or an infinity is multiplied by zero [C319_any_offset] C319 (any offset) a value with an offset is NaN exactly when the value or the offset is, or they are opposite infinities [C319_infinity_signs] C319 (signs) an infinity keeps its sign when multiplied by a positive factor and changes it with a negative one [C319_division_by_zero] C319 (division) dividing by zero raises whatever is divided; the average of nothing raises TypeError"
  },
  {
   "property": "C320",
   "status": "partial",
   "theorems": [
    "Timeseria.C320_first_is_a_number_partial",
    "Timeseria.C320_first_is_nan_false",
    "Timeseria.C320_infinity_false"
   ],
   "note": "[C320_first_is_a_number_partial] C320 When the first value is a number, the numbers are normalized between the smallest and the largest of the numbers, as if the NaN were not there, and each NaN stays NaN. [C320_first_is_nan_false] C320 is false when the first value is NaN: every value of the label is lost, without any error [C320_infinity_false] C320 is false with an infinity: the numbers become 0 and the infinity becomes NaN, outside of the range"
  },
  {
   "property": "C321",
   "status": "partial",
   "theorems": [
    "Timeseria.C321_order_partial",
    "Timeseria.C321_infinities_partial",
    "Timeseria.C321_nan_first_false",
    "Timeseria.C321_infinity_false",
    "Timeseria.C321_refused_nan_leaves_a_trace_false",
    "Timeseria.C321_one_append",
    "Timeseria.C321_first",
    "Timeseria.C321_resolution_witness"
   ],
   "note": "[C321_order_partial] C321 (order) After any history of appends, refused ones included, of points at any timestamps, NaN and infinite ones too, each timestamp is strictly below all the following ones; hence, as soon as there are two items, none is NaN, only the first may be minus infinity and only the last infinity. [C321_infinities_partial] C321 (infinities) Only the first timestamp may be minus infinity, and only the last one infinity. [C321_nan_first_false] C321 is false: a series may start with NaN, and then accepts nothing any more [C321_infinity_false] C321 is false: an infinite timestamp is accepted after two points, and then nothing is [C321_refused_nan_leaves_a_trace_false] C321 is false: a refused NaN makes the series refuse the next good point as well, and turns a constant resolution into a variable one [C321_one_append] C321 (one append) a point at a finite time after others at finite times is accepted exactly when it is later than the last one offered and than the last one in the series, and the time unit of the resolution can be made; a refused one changes neither the points nor the resolution [C321_first] C321 (first) the first point is accepted whatever its time is [C321_resolution_witness] the resolution of a history of accepted and refused points"
  },
  {
   "property": "C322",
   "status": "partial",
   "theorems": [
    "Timeseria.C322_not_read_back_false",
    "Timeseria.C322_skip_errors_partial"
   ],
   "note": "[C322_not_read_back_false] C322 is false: a series with a NaN is stored without any error, and then cannot be read back: whatever the arguments of `get`, it raises. [C322_skip_errors_partial] C322 With `skip_errors`, what is read back is exactly the items without NaN, unchanged: the whole item is lost with its other values."
  },
  {
   "property": "C323",
   "status": "partial",
   "theorems": [
    "Timeseria.C323_interactive_partial",
    "Timeseria.C323_not_saved_partial",
    "Timeseria.C323_refused_partial",
    "Timeseria.C323_image_partial",
    "Timeseria.C323_false"
   ],
   "note": "[C323_interactive_partial] C323 (interactive) saving an interactive plot writes its page in the file asked for, whether it exists or not, and changes no other file; if the file cannot be written the call raises and nothing changes [C323_not_saved_partial] C323 (nothing asked for) a plot which is not saved and not an image writes nothing: its page is returned with `html=True` and displayed otherwise [C323_refused_partial] C323 (refused) options which cannot be together, an empty series and data which cannot be plotted raise before anything is written [C323_image_partial] C323 (images) saving an image, when it does not raise, writes what the browser gives in the file asked for; no other file changes but the page in the temporary directory. Missing: that page stays there, see `C323_false`. [C323_false] C323 is false: an image plot leaves its page in the temporary directory"
  },
  {
   "property": "C324",
   "status": "partial",
   "theorems": [
    "Timeseria.C324_interactive_partial",
    "Timeseria.C324_no_directory_partial",
    "Timeseria.C324_false",
    "Timeseria.C324_other_files",
    "Timeseria.C324_not_removable_partial"
   ],
   "note": "[C324_interactive_partial] C324 (interactive) when saving an interactive plot raises, no file has changed [C324_no_directory_partial] C324 (no directory) when saving an image in the current directory raises, the earlier file is as it was [C324_false] C324 is false: an image which is already there is removed before the new one is made, and is lost if the browser fails; it is lost also when it is found that it cannot be written [C324_other_files] whatever happens, only the file asked for and the temporary page may change [C324_not_removable_partial] C324 (not removable), partial: when the existing file cannot be removed, an image which cannot be saved leaves it as it was"
  },
  {
   "property": "C325",
   "status": "partial",
   "theorems": [
    "Timeseria.C325_partial",
    "Timeseria.C325_false"
   ],
   "note": "[C325_partial] C325 the name of a label or of an index in the script is read back, by itself, exactly when it has no quote, no backslash and no end of line. Missing: the other names, see `C325_false`. [C325_false] C325 is false: the name of a label with an apostrophe ends at it, and the rest is read as script; with a final backslash it does not end at all"
  },
  {
   "property": "C326",
   "status": "partial",
   "theorems": [
    "Timeseria.C326_partial",
    "Timeseria.C326_false"
   ],
   "note": "[C326_partial] C326 there is a colour for each label (one if there is none), and up to twenty labels have different ones; a colour asked for is used only with one label [C326_false] C326 is false with more labels: from the twenty-first on they are all black, as the fourteenth"
  },
  {
   "property": "C327",
   "status": "partial",
   "theorems": [
    "Timeseria.C327_use_partial",
    "Timeseria.C327_range_partial",
    "Timeseria.C327_false"
   ],
   "note": "[C327_use_partial] C327 (use) the function is called for the errors strictly between the bounds, with the error, its density, and the bounds and their densities; the others have index 0 or 1 [C327_range_partial] C327 (range) if the function gives numbers between 0 and 1, or if a threshold is given, the index of an item, with a known strategy, is between 0 and 1. Missing: any other function, see `C327_false`. [C327_false] C327 is false: the function is not constrained, so that the index may be above 1"
  },
  {
   "property": "C328",
   "status": "partial",
   "theorems": [
    "Timeseria.C328_index_type_partial",
    "Timeseria.C328_strategy_partial",
    "Timeseria.C328_false",
    "Timeseria.C328_known"
   ],
   "note": "[C328_index_type_partial] C328 (index type) an unknown index type is refused, with `ValueError`, exactly when some error of the items examined is strictly between its bounds. Missing: the other series, see `C328_false`. [C328_strategy_partial] C328 (strategy) with more than one label an unknown strategy is refused, with `TypeError`, as soon as an item is scored [C328_false] C328 is false: with no error between the bounds any index type is accepted, and with one label any strategy is [C328_known] the known texts give the indexes of `Anomaly`"
  },
  {
   "property": "C329",
   "status": "proved",
   "theorems": [
    "Timeseria.C329_agree",
    "Timeseria.C329_example"
   ],
   "note": "[C329_agree] C329 the call in place ends as the one which returns a new series, with the same exception if any; when it succeeds the indexes of the items are those of the new series, whose items have the times, the units, the zones and the data of the old ones. [C329_example] one event of two items is marked, the isolated one is not"
  },
  {
   "property": "C330",
   "status": "partial",
   "theorems": [
    "Timeseria.C330_false",
    "Timeseria.C330_partial"
   ],
   "note": "[C330_false] C330 is false: an item with no anomaly index in the middle, and a last item which alone is anomalous, raise when marks have been written; with the mark of the event, in the first case, in place of the one of the failed item [C330_partial] C330 (what is left) a failed call changes nothing but the marks, and, when it is an item without anomaly index that makes it fail, only those of this item (set to 0) and of the ones before: the items after it are as they were, and those before all had an anomaly index. Missing: the marks, see `C330_false`."
  },
  {
   "property": "C331",
   "status": "partial",
   "theorems": [
    "Timeseria.C331_items",
    "Timeseria.C331_no_losses_partial",
    "Timeseria.C331_agrees",
    "Timeseria.C331_false",
    "Timeseria.C331_example"
   ],
   "note": "[C331_items] C331 (input) a detection leaves the series examined as it was, and each item of the result is either the very item of the series at the same place, which is too lossy or follows one that is, or made of new objects, which can be changed in any way without any effect on the series. [C331_no_losses_partial] C331 (no losses) if no item is too lossy, any sequence of changes to the items of the result leaves the series examined as it was. Missing: the items which are too lossy and those which follow them, see `C331_false`. [C331_agrees] C331 (agreement) the detection on objects reads as the detection on values [C331_false] C331 is false: setting the anomaly index of the items of the result sets it in the series examined, for the item which is lost and the one after it [C331_example] the hypotheses are met: with a threshold above the losses nothing is shared"
  },
  {
   "property": "C332",
   "status": "proved",
   "theorems": [
    "Timeseria.C332_witness",
    "Timeseria.C332_history"
   ],
   "note": "[C332_witness] C332 the calls do what they are said to do, and the first series reads the same [C332_history] C332 whatever the history of the program so far, calls which give new series, any number of them and of any kind, whether they succeed or raise, leave all the series there were as they were; so do calls which add items to other series, its own items included, or remove items from them"
  },
  {
   "property": "C333",
   "status": "proved",
   "theorems": [
    "Timeseria.C333_families",
    "Timeseria.C333_independent",
    "Timeseria.C333_example",
    "Timeseria.C333_join"
   ],
   "note": "[C333_families] C333 after any history, a call which changes labels or values of the series `i` leaves as it was every series `j` whose data objects come from another series, and a call which changes its data indexes every series whose data indexes objects do. (The marks `dataFrom` and `idxFrom` are handed on by slices and detections, `idxFrom` also by rescale, offset, normalize, derivative and filter; appending or inserting an item of a series into another makes one family of their two; any other call makes new marks.) [C333_independent] C333 (no slices) in a history without slices, detections and items appended or inserted into a second series, changing labels or values of a series changes no other series; in one where series are made only by creating them, duplicating them and by calls with new results such as moving averages and merges, changing the data indexes of a series changes no other series [C333_example] C333 the marks are needed: a value changed in the series is changed in its slice and not in the rescaled series, a data index in both [C333_join] C333 (items in two series) the families meet when an item of a series is appended to another"
  },
  {
   "property": "C334",
   "status": "partial",
   "theorems": [
    "Timeseria.C334_type_partial",
    "Timeseria.C334_false",
    "Timeseria.C334_no_labels"
   ],
   "note": "[C334_type_partial] C334 (type) if columns are not asked for by number, every row read by a storage made for a type of data is of that type, whatever the file, the other arguments and earlier readings. Missing: columns asked for by number, see `C334_false`. [C334_false] C334 is false: asking for columns by number gives lists, even from a storage made for dictionaries; and a storage made for numbers silently gives those of the first column of a file without labels that has several. [C334_no_labels] C334 (no labels) a storage made for dictionaries does not make up labels: a file without labels is a `TypeError`, also when it skips malformed lines."
  },
  {
   "property": "C335",
   "status": "proved",
   "theorems": [
    "Timeseria.C335_sign",
    "Timeseria.C335_witness",
    "Timeseria.C335_unrounded"
   ],
   "note": "[C335_sign] C335 with rounding, for every rounding that keeps distinct numbers distinct, as double precision does: the derivative of two points or more exists, at every point, is never negative if the values never decrease, never positive if they never increase, and exactly zero if they are all equal; for a constant and for a variable resolution. [C335_witness] C335 such a series, and its derivatives [C335_unrounded] C335 (unrounded) without rounding it is the derivative of the exact operation: `ps` are the times and the values of the label `k` in the items `l`"
  },
  {
   "property": "C336",
   "status": "partial",
   "theorems": [
    "Timeseria.C336_sign_partial",
    "Timeseria.C336_error_partial",
    "Timeseria.C336_false",
    "Timeseria.C336_unrounded",
    "Timeseria.C336_no_items",
    "Timeseria.C336_witness"
   ],
   "note": "[C336_sign_partial] C336 (sign), partial: with rounding, the weighted average of values that are not negative, with weights that are not negative and not all zero, exists and is not negative; it is exactly zero if the values are all zero, and exactly one if they are all one. Missing: it can be outside of the range of the values (`C336_false`). [C336_error_partial] C336 (error), partial: in double precision, unless a product is too small for a normal number, the weighted average is the rounded quotient of a sum within ((1 + 2 ^ -53) ^ n - 1) times the sum of the absolute values of the products from the exact one, and of the total of the weights. [C336_false] C336 is false: in double precision the average of 0.1, 0.1 and 0.1 with the weights 0.1, 0.1 and 0.2 is above 0.1 [C336_unrounded] C336 (unrounded) without rounding it is the weighted average of the exact operation, for one label [C336_no_items] C336 (no items): there is no weighted average of nothing, whatever the rounding: the call raises a `TypeError`"
  },
  {
   "property": "C337",
   "status": "proved",
   "theorems": [
    "Timeseria.C337_between",
    "Timeseria.C337_same",
    "Timeseria.C337_unrounded",
    "Timeseria.C337_witness"
   ],
   "note": "[C337_between] C337 in double precision the uniform interpolation of two values is between them, both included, whatever the values and their order [C337_same] C337 the interpolation of a value with itself is that value, for every rounding [C337_unrounded] C337 (unrounded) without rounding it is the value of the exact interpolator"
  },
  {
   "property": "C338",
   "status": "proved",
   "theorems": [
    "Timeseria.C338_monotone",
    "Timeseria.C338_witness"
   ],
   "note": "[C338_monotone] C338 with rounding, whatever the rounding, the running sums of values that are not negative never decrease, and those of values that are not positive never increase"
  },
  {
   "property": "C339",
   "status": "partial",
   "theorems": [
    "Timeseria.C339_order_partial",
    "Timeseria.C339_whole_partial",
    "Timeseria.C339_false",
    "Timeseria.C339_witness"
   ],
   "note": "[C339_order_partial] C339 (order), partial: with rounding, adding a number to all values or multiplying them by one that is not negative never inverts their order, multiplying by one that is not positive never leaves it; the length is the same. Missing: different values may become equal (`C339_false`). [C339_whole_partial] C339 (whole numbers), partial: whole numbers stay different, and are exact, as long as sums and products are below 2 ^ 53 [C339_false] C339 is false: in double precision 0.1 and 0.2 become equal when ten to the seventeen is added, and adding its opposite does not give them back; 1.5 and the double after it become equal when multiplied by 1.6."
  },
  {
   "property": "C340",
   "status": "proved",
   "theorems": [
    "Timeseria.C340_kept",
    "Timeseria.C340_sublist",
    "Timeseria.C340_lists",
    "Timeseria.C340_witness"
   ],
   "note": "[C340_kept] C340 (kept) if a file is read as slots, the items are, in the order of the rows, one slot for every row, with its time, its values, the unit and the zone; all other items among them are marked with a data loss of one. Whatever the type of the data, the calendar, the unit, the gaps and the options; otherwise an error is raised. [C340_sublist] C340 (counts) the times and values of the rows are among those of the items, in their order [C340_lists] C340 (lists) with data that are not dictionaries, nothing is made up: a row that does not follow the one before it is a `TypeError` if slots are missing between them and a `ValueError` if none is [C340_witness] such a file: the slots at 120 and at 180 seconds are missing, the reading fails; with dictionaries they are made up"
  },
  {
   "property": "C341",
   "status": "proved",
   "theorems": [
    "Timeseria.C341_points",
    "Timeseria.C341_default",
    "Timeseria.C341_naive"
   ],
   "note": "[C341_points] C341 for every file whose times are numbers of seconds or have an offset, reading points in the zone `z'` gives the same as reading them in the zone `z`, error or series, instants, values, indexes and resolution, except that the items are in `z'`; the state of the storage is the same. [C341_default] C341 without a zone in the call, or with an empty one, the zone is that of the storage: a zone asked for once is not remembered [C341_naive] C341 without an offset the zone of the call decides the instants: the hypothesis on the text is needed"
  },
  {
   "property": "C342",
   "status": "proved",
   "theorems": [
    "Timeseria.C342_reads",
    "Timeseria.C342_items",
    "Timeseria.C342_apart",
    "Timeseria.C342_rest"
   ],
   "note": "[C342_reads] C342 (what it reads as) duplicating a series made of objects gives, or raises, what duplicating the values it reads as does [C342_items] C342 whatever the history so far, a duplicate has the items of the series [C342_apart] C342 no later call which does not name the duplicate changes it: neither changes to the series it is a duplicate of, nor to series made from that, nor items added or removed [C342_rest] C342 nothing done to the duplicate, nor to series made from it, changes the series it is a duplicate of, nor any other there was"
  },
  {
   "property": "C343",
   "status": "proved",
   "theorems": [
    "Timeseria.C343_witness",
    "Timeseria.C343_later"
   ],
   "note": "[C343_later] C343 whatever the history so far, calls naming only series made from now on change nothing in the series there are"
  },
  {
   "property": "C344",
   "status": "proved",
   "theorems": [
    "Timeseria.C344_labels_leave_no_trace",
    "Timeseria.C344_numbers_are_not_affected"
   ],
   "note": "[C344_labels_leave_no_trace] C344 (a selection of columns by label, or of all of them, leaves no trace): after any history of calls of `get` which do not select columns by number, whether they raised or not, a call of `get` returns or raises exactly what it would on the storage as it was before all of them. [C344_numbers_are_not_affected] C344: a call which selects columns by number is never affected by the calls before it."
  },
  {
   "property": "C345",
   "status": "partial",
   "theorems": [
    "Timeseria.C345_wall_clock_partial",
    "Timeseria.C345_read_back_partial",
    "Timeseria.C345_false"
   ],
   "note": "[C345_wall_clock_partial] C345, partial: from the year 100 on the position of an item on the axis is the time its local clock shows, in milliseconds, the microseconds cut. [C345_read_back_partial] C345 (reading it back), partial: a clock showing the time of the position shows the date and the time of the item, up to the millisecond: no other fields have the same position [C345_false] C345 is false before the year 100: the last day of the year 99 is drawn at the last of 1999, after the first of the year 100"
  },
  {
   "property": "C346",
   "status": "partial",
   "theorems": [
    "Timeseria.C346_order_partial",
    "Timeseria.C346_false"
   ],
   "note": "[C346_order_partial] C346, partial: the items of a plot are drawn in the order of their instants as long as the clock is not set back between them, and at different positions when a millisecond or more passes on the clock [C346_false] C346 is false where the clock is set back: an item half an hour later is drawn half an hour earlier, and one an hour later at the same place"
  },
  {
   "property": "C347",
   "status": "partial",
   "theorems": [
    "Timeseria.C347_axis_partial",
    "Timeseria.C347_witness"
   ],
   "note": "[C347_axis_partial] C347, partial: when the offset does not change and the items are at whole milliseconds, the axis of a plot without aggregation is that of the series shifted by the offset: one position per item, the intervals between the items as they are"
  },
  {
   "property": "C348",
   "status": "proved",
   "theorems": [
    "Timeseria.C348_first_item"
   ],
   "note": "[C348_first_item] C348 the check of the first item never raises, and warns exactly when the data are neither a sequence nor a dictionary, or have a value which is not a number"
  },
  {
   "property": "C349",
   "status": "partial",
   "theorems": [
    "Timeseria.C349_first_only_partial",
    "Timeseria.C349_false"
   ],
   "note": "[C349_first_only_partial] C349, partial: whatever is appended to a new series, whether it is refused or not, the first item is the first appended, and the series has warned about the data of that item and of no other: at most once [C349_false] C349 is false for the other items: all three are accepted, without a warning"
  },
  {
   "property": "C350",
   "status": "proved",
   "theorems": [
    "Timeseria.C350_pop",
    "Timeseria.C350_append_new",
    "Timeseria.C350_append"
   ],
   "note": "[C350_pop] C350 (pop): removing an item from a series, whatever the history, leaves what removing it from a lone series with the same content leaves: the item asked for, and no other, is taken away, or none when the position is refused [C350_append_new] C350 (append, new item): adding a new item, with its data, does what it does on a lone series with the same content [C350_append] C350 (append): adding an item of another series, or of the same, does what adding an item reading the same does on a lone series with the same content; naming an item there is not leaves everything as it is"
  },
  {
   "property": "C351",
   "status": "partial",
   "theorems": [
    "Timeseria.C351_same_partial",
    "Timeseria.C351_resample_partial",
    "Timeseria.C351_succeeds_partial",
    "Timeseria.C351_false",
    "Timeseria.C351_witness"
   ],
   "note": "[C351_same_partial] C351 (when it succeeds): if a resampling, or an aggregation with the average, of a series of lists succeeds, then the same transformation of the same numbers under the keys `\"0\"`, `\"1\"`, \u2026 succeeds and gives the same items. [C351_resample_partial] C351 (series without gaps): resampling a series of lists (not empty) whose consecutive points are no further apart than the sampling interval is exactly resampling the same numbers under the keys `\"0\"`, `\"1\"`, \u2026, whatever the unit, the start and the end: the same items, or the same exception. [C351_succeeds_partial] C351 (resampling without gaps): resampling such a series to a unit of `u` seconds always succeeds; the points are at the middles of consecutive units, and each carries a dictionary with the positions of the list as keys, never a list. [C351_false] C351 is false with gaps: the missing points must be interpolated, and that fails on lists, with a `TypeError`, when the same numbers in dictionaries are resampled. [C351_witness] C351: a series of lists without gaps, as the theorems ask for, and what resampling gives"
  },
  {
   "property": "C352",
   "status": "proved",
   "theorems": [
    "Timeseria.C352_resampled",
    "Timeseria.C352_gap",
    "Timeseria.C352_witness"
   ],
   "note": "[C352_resampled] C352 (what is common with linear interpolation): resampling with the uniform interpolator succeeds whenever it does with the linear one, and gives points at the same times, with the same data loss and the same other indexes; the values are within any bounds of the values of the points involved. [C352_gap] C352 (in a gap): the points resampled with the uniform interpolator for units falling entirely in a gap between two consecutive points `p` and `q` (no part of the unit within half a sampling interval of a point) all have the same value, the mean of those of `p` and `q`. [C352_witness] C352: a series with a gap, and its two resamplings: on a line with linear interpolation, constant with the uniform one, the same losses"
  },
  {
   "property": "C353",
   "status": "proved",
   "theorems": [
    "Timeseria.C353_aggregated",
    "Timeseria.C353_average",
    "Timeseria.C353_witness"
   ],
   "note": "[C353_aggregated] C353 (what is common with linear interpolation): aggregating with the uniform interpolator succeeds whenever it does with the linear one, gives the same slots with the same data losses and other indexes and the same labels, and leaves the input series in the same state. [C353_average] C353 (averages): when each slot has a point in it or no part of it covered by the validity of a point, the averages of the slots are within any bounds of the values of the points involved, and in a slot entirely in a gap between two consecutive points `p` and `q` (no part of it within half a sampling interval of a point) they are the means of the values of `p` and `q`. [C353_witness] C353: a series meeting the hypotheses, and its two aggregations: in the gap a line with linear interpolation, the mean of the two ends with the uniform one"
  },
  {
   "property": "C354",
   "status": "proved",
   "theorems": [
    "Timeseria.C354_shared",
    "Timeseria.C354_other_times",
    "Timeseria.C354_one_data",
    "Timeseria.C354_one_index",
    "Timeseria.C354_rename",
    "Timeseria.C354_remove",
    "Timeseria.C354_witness"
   ],
   "note": "[C354_shared] C354 in any history, items that share their data or their data indexes, of one series or of two, are at the same time [C354_other_times] C354 (other times): after any history, a change to the data or the data indexes of an item changes, in whichever series of the program, no item at another time [C354_one_data] C354 (one item): after any history, changing the data of an item, of a series of points where nothing was inserted or of items at different times, changes the data of that item of the series and nothing else of its items [C354_one_index] C354 (one item): the same for its data indexes [C354_rename] C354 (rename): after any history, in a series of points where nothing was inserted, or of items at different times, all with the label `old` and whose reference has labels, `rename_data_label(old, new)` gives to each item under `new` the value it had under `old`, and changes nothing else of it [C354_remove] C354 (remove): after any history, in a series with labels, of points where nothing was inserted or of items at different times, `remove_data_label(label)` removes the label from each item and changes nothing else of it [C354_witness] C354 a history where two series share items: the change is seen at one time only, in the two series; a rename by the slice acts on the points of the slice, and so on those of the series"
  },
  {
   "property": "C355",
   "status": "partial",
   "theorems": [
    "Timeseria.C355_false",
    "Timeseria.C355_false_rename",
    "Timeseria.C355_long_partial",
    "Timeseria.C355_aligned_partial",
    "Timeseria.C355_witness"
   ],
   "note": "[C355_false] C355 is false for slots of one second (in November 2023): the same slot can be appended twice, the slot after a missing one is appended without complaint, and so is one overlapping the last. [C355_false_rename] C355 is false, and what follows: a slot which is in its series twice has its label renamed the first time and is without it the second, so that the renaming raises (but is done); and a label that is set on one is set on both. [C355_long_partial] C355 (long slots): after any history of appends, inserts, pops, removals, clears and duplicates, if the slots of a series are all of `u` seconds, `u` more than one part in 10\u2079 of the timestamps, they are in strict order of time, and each starts less than its length before or after the end of the one before: none is repeated and none is missing. Missing: shorter slots, see `C355_false`. [C355_aligned_partial] C355 (aligned slots): if moreover the slots are aligned, as those of an aggregation are, each starts exactly at the end of the one before: the slot `i` starts `i` lengths after the first. [C355_witness] C355 hourly slots of November 2023 are long: the repeated one and the one after a missing one are refused"
  },
  {
   "property": "C356",
   "status": "partial",
   "theorems": [
    "Timeseria.C356_insert",
    "Timeseria.C356_others",
    "Timeseria.C356_shared",
    "Timeseria.C356_order_false",
    "Timeseria.C356_rename_false",
    "Timeseria.C356_witness"
   ],
   "note": "[C356_insert] C356 (insert): inserting an item of another series, or of the same, does what inserting an item reading the same does on a lone series with the same content; naming an item there is not leaves everything as it is [C356_others] C356 (others): the insertion changes no other series [C356_shared] C356 (shared): after any history, when inserting the item `i` of a series into the same series at a position is accepted, the series has one item more, and a change to the data of the one at the position is a change of the one that was there: both read as `f` of the data they had [C356_order_false] C356 it does not hold that a series of points of a history has its points later and later: `series.insert(1, series[1])` is accepted, only the item before being looked at [C356_rename_false] C356 nor that renaming a label every item has is accepted: the second time the object is met, the label is not there any more, and a `KeyError` leaves the points after with the old label [C356_witness] C356 the case: four points, two of them one; the change of one is that of the other, and a rename stops halfway"
  },
  {
   "property": "C357",
   "status": "partial",
   "theorems": [
    "Timeseria.C357_monotone",
    "Timeseria.C357_shape",
    "Timeseria.C357_one",
    "Timeseria.C357_error_partial",
    "Timeseria.C357_whole_partial",
    "Timeseria.C357_false",
    "Timeseria.C357_unrounded",
    "Timeseria.C357_witness"
   ],
   "note": "[C357_monotone] C357 (monotone): in floating point, if every value of a series is at most the one of another at its place, so is every moving average [C357_shape] C357 (shape): one moving average for each item from the one where the window is full, none if it never is; non-negative values have non-negative averages; a window below one is refused [C357_one] C357 (window of one): the values themselves [C357_error_partial] C357 (error), partial: in double precision each moving average is the rounded quotient by `n` of a number within ((1 + 2 ^ -53) ^ n - 1) times the sum of the absolute values of the window from its exact sum. Missing: that it is between the least and the greatest of the window, which is not so (`C357_false`). [C357_whole_partial] C357 (whole numbers), partial: for whole numbers, when the absolute values of each window sum to less than 2 ^ 53, each moving average is between the least and the greatest of its window [C357_false] C357 in double precision the moving average with a window of three of a series which is 0.1 everywhere is above 0.1 [C357_unrounded] C357 (unrounded): without rounding it is the moving average of the exact operation, at the items from `n - 1` on: `vs` are the values of the label `k` in the items `l` [C357_witness] C357 cases meeting the hypotheses"
  },
  {
   "property": "C358",
   "status": "partial",
   "theorems": [
    "Timeseria.C358_regular",
    "Timeseria.C358_kind",
    "Timeseria.C358_short",
    "Timeseria.C358_slots",
    "Timeseria.C358_again",
    "Timeseria.C358_first_partial",
    "Timeseria.C358_false",
    "Timeseria.C358_witness"
   ],
   "note": "[C358_regular] C358 (points, constant spacing): a series built from two or more points every `n` seconds is described by their number, by `n` seconds as its resolution, and by the time and the zone of the first and of the last point; describing it changes nothing. [C358_kind] C358 (points and the spacing, in both directions): a description with a resolution is given exactly for points at a constant spacing, one with a variable resolution only for points which are not. [C358_short] C358 (one point, and none): a series of one point has an undefined resolution, an empty one is said to be empty. [C358_slots] C358 (slots): a series of slots is described by their number, by its resolution, and by the starts of the first and of the last slot. [C358_again] C358 (printing is harmless): whatever the series, its description leaves its items, its resolution and its guessed resolution as they are, and describing it again says the same. [C358_first_partial] C358, partial (variable resolution): a series of points of variable resolution which was never asked before, with spacings which repeat enough and can be read as units, is described with the unit of a spacing which occurs at least as often as every other one. (Missing: a series which was asked before, or with an unreadable spacing, of which the claim is false.) [C358_false] C358 is false: a series whose most common spacing is ten microseconds cannot be printed, and printing raises a `ValueError`; of two series with the same items the one which was printed when it was shorter is still said to be of about one minute, the other one of about ten seconds; points every 1.05 seconds are said to be every 15. [C358_witness] C358 cases meeting the hypotheses"
  },
  {
   "property": "C359",
   "status": "partial",
   "theorems": [
    "Timeseria.C359_alternate_partial",
    "Timeseria.C359_grows_partial",
    "Timeseria.C359_elapsed_partial",
    "Timeseria.C359_false",
    "Timeseria.C359_witness",
    "Timeseria.C359_elapsed_witness"
   ],
   "note": "[C359_alternate_partial] C359, partial (what it is): the integral of a series of one label and of constant resolution starts at the constant, then adds the first value times the interval; after that it grows, every *two* steps, by the value in the middle times two intervals. So at an even position it is the constant plus two intervals times the sum of the values at odd positions before, and at an odd position the constant plus an interval times the first value plus two intervals times the sum of the other values at even positions before: of two neighbouring values never both count. (Missing: several labels, see `C199_false`, and variable resolution.) [C359_grows_partial] C359, partial (growth): when no value is negative the integral never decreases over two steps; when all the values are `a` it grows by `a` times the interval at every step, as the area does. (Missing: it can decrease from an item to the next, see `C359_false`.) [C359_elapsed_partial] C359, partial (constant values, variable resolution): when all the values are `a` the integral grows, from an item to any later one, by `a` times the time between the two. (Missing: several labels, see `C199_false`, and other values.) [C359_false] C359 is false: the integral of a series which is never negative decreases, down to nothing at the third item although the area is above zero; and two series which differ at every other value have the same integral at every other item. [C359_witness] C359 a case meeting the hypotheses [C359_elapsed_witness] C359 a case meeting the hypotheses, with variable resolution"
  },
  {
   "property": "C360",
   "status": "partial",
   "theorems": [
    "Timeseria.C360_constant",
    "Timeseria.C360_inverse_partial",
    "Timeseria.C360_unrounded",
    "Timeseria.C360_false",
    "Timeseria.C360_witness"
   ],
   "note": "[C360_constant] C360 (constant values): the integral of a constant series is the running sum of the value times the interval from the constant of integration; when the value is not negative it never decreases. [C360_inverse_partial] C360 (inverse of the derivative), partial: in double precision, for whole numbers up to 2 ^ 51 every second, integrating the derivative from the first value gives back the values exactly. (Missing: other values, see `C360_false`.) [C360_unrounded] C360 (unrounded): without rounding it is the integral of the exact operation: `vs` are the values of the label in the items of the series. [C360_false] C360 is false: in double precision integrating the derivative does not give back 0.1, 0.2, 0.7, 0.3, nor 10 ^ 17, 1, 0, 1, of which all but the first become zero [C360_witness] C360 cases meeting the hypotheses"
  }
 ]
}