import Verif.Model.Item
import Mathlib.Data.Rat.Floor
import Mathlib.Algebra.Order.Floor.Ring

/-! # Utilities: sampling interval, periodicity index, error metrics, rescaling -/

namespace Timeseria

/-! ## Sampling interval (utilities.py 86-139) -/

/-- a dictionary from differences to the number of times they were seen -/
abbrev Counts := List (ℚ × ℕ)

/-- `if diff not in diffs: diffs[diff] = 1 else: diffs[diff] += 1` (utilities.py 94-97, 107-110) -/
def countInc (d : Counts) (x : ℚ) : Counts :=
  match d with
  | [] => [(x, 1)]
  | (y, c) :: r => if y = x then (y, c + 1) :: r else (y, c) :: countInc r x

/-- the loop over the points (utilities.py 91-98) -/
def diffLoop : Option ℚ → Counts → List ℚ → Counts
  | _, d, [] => d
  | none, d, t :: r => diffLoop (some t) d r
  | some p, d, t :: r => diffLoop (some t) (countInc d (t - p)) r

/-- Python's `round(x)`: to the nearest integer, ties to the even one -/
def pyRound (x : ℚ) : ℤ :=
  let f := ⌊x⌋
  let r := x - f
  if r < 1 / 2 then f
  else if r > 1 / 2 then f + 1
  else if f % 2 = 0 then f else f + 1

/-- the body of the `while` loop (utilities.py 103-110): only the keys are looked at -/
def roundCounts (d : Counts) : Counts :=
  (d.map Prod.fst).foldl (fun acc x => countInc acc (pyRound x)) []

/-- `_is_almost_equal(one, two)` for two lengths, `two` not zero (utilities.py 528-532) -/
def almostEqual (one two : ℕ) : Bool :=
  (95 : ℚ) / 100 < (one : ℚ) / two ∧ (one : ℚ) / two ≤ 105 / 100

/-- The `while` loop (utilities.py 101-113).  The counter `i` is never incremented, so the `raise` at
112-113 is unreachable and the loop is unbounded: it is modelled with a number of iterations
allowed, `none` meaning that they were not enough. -/
def samplingLoop : ℕ → ℕ → Counts → Option Counts
  | 0, _, _ => none
  | k + 1, n, d => if almostEqual d.length n then samplingLoop k n (roundCounts d) else some d

/-- the search of the most common difference (utilities.py 115-120) -/
def mostCommonLoop : Option ℚ × ℕ → Counts → Option ℚ × ℕ
  | acc, [] => acc
  | acc, (x, c) :: r => mostCommonLoop (if c > acc.2 then (some x, c) else acc) r

/-- the search of the second most common one (utilities.py 122-129) -/
def secondLoop (mc : Option ℚ) : ℕ → Counts → ℕ
  | acc, [] => acc
  | acc, (x, c) :: r => secondLoop mc (if mc = some x then acc else if c > acc then c else acc) r

/-- `detect_sampling_interval(timeseries, confidence=True)` (utilities.py 86-139) on the timestamps.
Outer `none`: did not terminate within `k` iterations of the `while` loop. -/
def detectSampling (k : ℕ) (ts : List ℚ) : Option (Except PyErr (Option ℚ × ℚ)) :=
  -- line 102: `len(diffs)/len(timeseries)`
  if ts.length = 0 then some (.error .zeroDivision)
  else
    (samplingLoop k ts.length (diffLoop none [] ts)).map (fun d =>
      let mc := mostCommonLoop (none, 0) d
      if d.length = 1 then .ok (mc.1, 1)
      else if mc.2 = 0 then .error .zeroDivision
      else .ok (mc.1, 1 - (secondLoop mc.1 0 d : ℚ) / mc.2))

/-! ## The cached value (datastructures.py 1394-1414, 1267-1273) -/

/-- A point series together with the cache of the detected sampling interval.  `append` tries to
delete the attribute under its public name, which is a read-only property, and swallows the
resulting exception (1269-1273): the cache (a name-mangled attribute) stays. -/
structure CachedSeries where
  ts : List ℚ := []
  cache : Option ℚ := none
  deriving DecidableEq, Repr

/-- appending a point (of a later time) -/
def CachedSeries.append (s : CachedSeries) (t : ℚ) : CachedSeries := { s with ts := s.ts ++ [t] }

/-- reading the detected sampling interval (datastructures.py 1398-1403); detection that fails or does
not terminate leaves no value.  `none` stands for any of these and for `None`. -/
def CachedSeries.query (k : ℕ) (s : CachedSeries) : CachedSeries × Option ℚ :=
  match s.cache with
  | some d => (s, some d)
  | none =>
    match detectSampling k s.ts with
    | some (.ok (some d, _)) => ({ s with cache := some d }, some d)
    | _ => (s, none)

/-! ## Periodicity index (utilities.py 866-913) -/

/-- `int(x)`: truncation towards zero -/
def pyInt (x : ℚ) : ℤ := if 0 ≤ x then ⌊x⌋ else ⌈x⌉

/-- `_get_periodicity_index(item, resolution, periodicity, dst_affected)` for an item at `t`, a resolution
of `res` seconds and a periodicity that is a positive number of items.  `dst` is `none` when the
flag is not set, otherwise the daylight saving offset of the item in seconds (`item.dt.dst()`,
external); offsets with days are not modelled. -/
def periodicityIndex (t res : ℚ) (p : ℕ) (dst : Option ℚ) : Except PyErr ℤ :=
  if res = 0 then .error .zeroDivision
  else
    match dst with
    | none => .ok (pyInt (t / res) % p)
    | some o =>
      if o = 0 then .ok (pyInt (t / res) % p)
      else if res > 3600 then .error .exception
      else .ok (pyInt ((t + o) / res) % p)

/-! ## Error metrics (utilities.py 221-295) -/

/-- loop of the mean absolute percentage error -/
def apeSum : List ℚ → List ℚ → Except PyErr ℚ
  | a :: l, b :: m =>
    if a = 0 then .error .zeroDivision
    else (apeSum l m).map (fun s => |(a - b) / a| + s)
  | _, _ => .ok 0

/-- `mean_absolute_percentage_error` (utilities.py 221-229) -/
def mape (l m : List ℚ) : Except PyErr ℚ :=
  if l.length ≠ m.length then .error .valueError
  else
    match apeSum l m with
    | .error e => .error e
    | .ok s => if l.length = 0 then .error .zeroDivision else .ok (s / l.length)

/-- keeping the larger value, `None` at the beginning (utilities.py 239-244, 259-264) -/
def maxStep (acc : Option ℚ) (x : ℚ) : Option ℚ :=
  match acc with
  | none => some x
  | some m => if x > m then some x else some m

/-- loop of `max_absolute_percentage_error` -/
def maxApeLoop : Option ℚ → List ℚ → List ℚ → Except PyErr (Option ℚ)
  | acc, a :: l, b :: m =>
    if a = 0 then .error .zeroDivision
    else maxApeLoop (maxStep acc (|(a - b) / a|)) l m
  | acc, _, _ => .ok acc

/-- `max_absolute_percentage_error` (utilities.py 232-245) -/
def maxApe (l m : List ℚ) : Except PyErr (Option ℚ) :=
  if l.length ≠ m.length then .error .valueError else maxApeLoop none l m

/-- loop of `max_absolute_error` -/
def maxAeLoop : Option ℚ → List ℚ → List ℚ → Option ℚ
  | acc, a :: l, b :: m => maxAeLoop (maxStep acc (|a - b|)) l m
  | acc, _, _ => acc

/-- `max_absolute_error` (utilities.py 253-265) -/
def maxAe (l m : List ℚ) : Except PyErr (Option ℚ) :=
  if l.length ≠ m.length then .error .valueError else .ok (maxAeLoop none l m)

/-- `mean_absolute_error` and `mean_squared_error` (utilities.py 248-250, 293-295) call the functions of
the same name of scikit-learn: external, taken by their documented meaning (mean of a function of
the differences; empty or different lengths: `ValueError`). -/
def skMean (f : ℚ → ℚ) (l m : List ℚ) : Except PyErr ℚ :=
  if l.length ≠ m.length then .error .valueError
  else if l.length = 0 then .error .valueError
  else .ok ((List.zipWith (fun a b => f (a - b)) l m).sum / l.length)

def mae (l m : List ℚ) : Except PyErr ℚ := skMean (fun d => |d|) l m
def mse (l m : List ℚ) : Except PyErr ℚ := skMean (fun d => d ^ 2) l m

/-! ## Rescaling (utilities.py 298-324) -/

/-- `rescale(value, source_from, source_to, target_from, target_to)`; the argument `how` is ignored by
the code. -/
def rescaleUtil (v sf st : ℚ) (tf tt : ℚ) : Except PyErr ℚ :=
  if v < 0 then .error .valueError
  else if sf < 0 then .error .valueError
  else if st < 0 then .error .valueError
  else if tf < 0 then .error .valueError
  else if tt < 0 then .error .valueError
  else if v < sf then .error .valueError
  else if v > st then .error .valueError
  else if st - sf = 0 then .error .zeroDivision
  else
    let ratio := (v - sf) / (st - sf)
    if tf = 0 ∧ tt = 1 then .ok ratio
    else .ok (ratio * (tt - tf) + tf)

end Timeseria
