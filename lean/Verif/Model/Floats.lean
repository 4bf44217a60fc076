import Verif.Model.Ops
import Verif.Model.Utilities

/-! # The computations in floating point

Everywhere else in the model numbers are exact rationals.  In Python the results of the operations between floats are rounded.  Here the computations of the code are
modelled with a rounding after each arithmetic operation, in the order in which the code does them: `Rounding` is what is assumed of it, `doubles` (in
`Lemmas/Binary64.lean`) is the one of double precision, with overflows, infinities and NaN not modelled. -/

namespace Timeseria

/-- a rounding of the exact results: to nearest, in any format -/
structure Rounding where
  fl : ℚ → ℚ
  mono : ∀ {x y : ℚ}, x ≤ y → fl x ≤ fl y
  idem : ∀ x, fl (fl x) = fl x
  zero : fl 0 = 0
  one : fl 1 = 1
  neg : ∀ x, fl (-x) = -fl x

namespace Rounding

variable (R : Rounding)

/-- a number of the format -/
def Rep (x : ℚ) : Prop := R.fl x = x

def add (a b : ℚ) : ℚ := R.fl (a + b)
def sub (a b : ℚ) : ℚ := R.fl (a - b)
def mul (a b : ℚ) : ℚ := R.fl (a * b)

/-- Python's division: a zero divisor raises -/
def div (a b : ℚ) : Except PyErr ℚ := if b = 0 then .error .zeroDivision else .ok (R.fl (a / b))

/-! ## Operations -/

/-- the normalized value (operations.py 584-587) -/
def normVal (range : Option (ℚ × ℚ)) (mm : ℚ × ℚ) (x : ℚ) : Except PyErr ℚ :=
  match R.div (R.sub x mm.1) (R.sub mm.2 mm.1) with
  | .error e => .error e
  | .ok q => match range with
    | none => .ok q
    | some (a, b) => .ok (R.add (R.mul q (R.sub b a)) a)

/-- the values of a label after `normalize` (operations.py 556-587): finding the extremes needs no arithmetic -/
def normalize (range : Option (ℚ × ℚ)) (vs : List ℚ) : Except PyErr (List ℚ) :=
  match minMaxLoop vs with
  | none => .ok []
  | some mm => mapE (R.normVal range mm) vs

/-- `sum` of a label (operations.py 191-207), and of the window of a moving average (783-785) -/
def sum (vs : List ℚ) : ℚ := vs.foldl R.add 0

/-- `avg` of a label, without weights (operations.py 172-181): the sum starts from the first value -/
def avg (vs : List ℚ) : Except PyErr ℚ :=
  match vs with
  | [] => .error .typeError
  | v :: r => R.div (r.foldl R.add v) vs.length

/-- the differences of a label (operations.py 285) -/
def diffs : List ℚ → List ℚ
  | a :: b :: r => R.sub b a :: diffs (b :: r)
  | _ => []

/-- the running sums from `acc` (operations.py 405-480, as for `csum` with an offset) -/
def csums : ℚ → List ℚ → List ℚ
  | _, [] => []
  | acc, v :: r => R.add acc v :: csums (R.add acc v) r

/-- linear interpolation at `x` between `(tp, vp)` and `(tn, vn)` (interpolators.py 66-73) -/
def linear (tp vp tn vn x : ℚ) : Except PyErr ℚ :=
  match R.div (R.sub vn vp) (R.sub tn tp) with
  | .error e => .error e
  | .ok ratio => .ok (R.add vp (R.mul (R.sub x tp) ratio))

/-! ## Utilities -/

/-- `rescale` (utilities.py 298-324) once the arguments are accepted -/
def rescaleUtil (v sf st tf tt : ℚ) : Except PyErr ℚ :=
  if v < 0 ∨ sf < 0 ∨ st < 0 ∨ tf < 0 ∨ tt < 0 ∨ v < sf ∨ v > st then .error .valueError
  else match R.div (R.sub v sf) (R.sub st sf) with
    | .error e => .error e
    | .ok q => if tf = 0 ∧ tt = 1 then .ok q else .ok (R.add (R.mul q (R.sub tt tf)) tf)

/-- the seconds covered by a region inside of the interval (utilities.py 694-698) -/
def regionPart (from_ to_ : ℚ) (r : ℚ × ℚ) : ℚ :=
  R.sub (if r.2 < to_ then r.2 else to_) (if r.1 ≥ from_ then r.1 else from_)

/-- the loop over the points (utilities.py 679-702), without interpolated ones; a region is the pair `valid_from`, `valid_to` -/
def coverLoop (from_ to_ : ℚ) : ℚ → List (ℚ × ℚ) → ℚ
  | acc, [] => acc
  | acc, r :: l =>
    if r.2 < from_ then coverLoop from_ to_ acc l
    else if r.1 ≥ to_ then acc
    else coverLoop from_ to_ (R.add acc (R.regionPart from_ to_ r)) l

/-- `_compute_coverage` (utilities.py 653-715) -/
def coverage (from_ to_ : ℚ) (l : List (ℚ × ℚ)) : Except PyErr ℚ :=
  if from_ ≥ to_ then .error .valueError
  else if l = [] then .ok 0
  else R.div (R.coverLoop from_ to_ 0 l) (R.sub to_ from_)

/-- the data loss from the missing coverage (utilities.py 741-747) -/
def lossFromCoverage (from_ to_ : ℚ) (l : List (ℚ × ℚ)) : Except PyErr ℚ :=
  match R.coverage from_ to_ l with
  | .error e => .error e
  | .ok c => .ok (R.sub 1 c)

/-- the validity regions (utilities.py 619-646), without an interval to be considered: `h` is half of the sampling interval, the region of the previous point is
shrunk together with the one of the point if they overlap -/
def regionLoop (h : ℚ) : Option (ℚ × ℚ) → List ℚ → List (ℚ × ℚ)
  | none, [] => []
  | some r, [] => [r]
  | none, t :: l => regionLoop h (some (R.sub t h, R.add t h)) l
  | some r, t :: l =>
    if R.sub t h < r.2 then (r.1, R.fl (R.add r.2 (R.sub t h) / 2)) :: regionLoop h (some (R.fl (R.add r.2 (R.sub t h) / 2), R.add t h)) l
    else r :: regionLoop h (some (R.sub t h, R.add t h)) l

/-- the regions of the points at the times `ts` for a sampling interval -/
def regions (interval : ℚ) (ts : List ℚ) : List (ℚ × ℚ) := R.regionLoop (R.fl (interval / 2)) none ts

/-- `int(t / resolution_s) % periodicity` (utilities.py 886) -/
def periodicityIndex (t res : ℚ) (p : ℕ) : Except PyErr ℤ :=
  match R.div t res with
  | .error e => .error e
  | .ok q => .ok (pyInt q % p)

/-- the loop of the mean absolute percentage error (utilities.py 226-228) -/
def apeLoop : ℚ → List ℚ → List ℚ → Except PyErr ℚ
  | acc, a :: l, b :: m =>
    match R.div (R.sub a b) a with
    | .error e => .error e
    | .ok q => apeLoop (R.add acc |q|) l m
  | acc, _, _ => .ok acc

/-- `mean_absolute_percentage_error` (utilities.py 221-229) -/
def mape (l m : List ℚ) : Except PyErr ℚ :=
  if l.length ≠ m.length then .error .valueError
  else match R.apeLoop 0 l m with
    | .error e => .error e
    | .ok s => R.div s l.length

/-- `max_absolute_error` (utilities.py 255-267) -/
def maxAeLoop : Option ℚ → List ℚ → List ℚ → Option ℚ
  | acc, a :: l, b :: m =>
    maxAeLoop (match acc with | none => some |R.sub a b| | some x => if |R.sub a b| > x then some |R.sub a b| else some x) l m
  | acc, _, _ => acc

def maxAe (l m : List ℚ) : Except PyErr (Option ℚ) :=
  if l.length ≠ m.length then .error .valueError else .ok (R.maxAeLoop none l m)

/-! ## Resolution of a point series -/

/-- what a point series knows of its resolution: nothing yet, the seconds between its points, variable -/
inductive FRes where
  | unknown
  | seconds (d : ℚ)
  | variable
  deriving DecidableEq

/-- the change of the resolution when a point at `t` is appended after one at `p` (datastructures.py 1248-1266) -/
def resStep (p t : ℚ) : FRes → FRes
  | .unknown => .seconds (R.sub t p)
  | .seconds d => if d ≠ R.sub t p then .variable else .seconds d
  | .variable => .variable

/-- appending the points one by one, from one at `p` -/
def resLoop : ℚ → FRes → List ℚ → FRes
  | _, st, [] => st
  | p, st, t :: r => resLoop t (R.resStep p t st) r

/-- the resolution of the series of the points at these times, in order -/
def resolution : List ℚ → FRes
  | [] => .unknown
  | t :: r => R.resLoop t .unknown r

/-- the seconds of the time unit reported as resolution: `int(time_diff*10000000)/10000000` (datastructures.py 1256-1258) -/
def unitSeconds (d : ℚ) : Except PyErr ℚ := R.div (pyInt (R.mul d 10000000)) 10000000

/-! ## Anomaly index -/

/-- the linear index of a density `y` between those of the bounds (anomaly_detectors.py 721) -/
def linIndex (ys ye y : ℚ) : Except PyErr ℚ :=
  match R.div (R.sub y ye) (R.sub ys ye) with
  | .error e => .error e
  | .ok q => .ok (R.sub 1 q)

/-- the logarithmic index (anomaly_detectors.py 723), given the logarithms -/
def logIndex (ls le l : ℚ) : Except PyErr ℚ := R.div (R.sub l ls) (R.sub le ls)

/-- the average of the indexes of the labels (anomaly_detectors.py 745): `sum(indexes)/len(indexes)` -/
def meanIndex (l : List ℚ) : Except PyErr ℚ := R.div (R.sum l) l.length

end Rounding

/-! ## Double precision -/

/-- powers of two -/
def pow2 : ℤ → ℚ
  | .ofNat n => ((2 ^ n : ℕ) : ℚ)
  | .negSucc n => 1 / ((2 ^ (n + 1) : ℕ) : ℚ)

/-- the exponent of a positive number: `2 ^ e ≤ x < 2 ^ (e + 1)` -/
def expo (x : ℚ) : ℤ :=
  let k : ℤ := (Nat.log2 x.num.natAbs : ℤ) - (Nat.log2 x.den : ℤ)
  if pow2 k ≤ x then k else k - 1

/-- the distance between two consecutive doubles about `x`: 53 significant bits, not below the least positive one -/
def ulp64 (x : ℚ) : ℚ := pow2 (max (expo |x| - 52) (-1074))

/-- rounding to the nearest double, ties to even -/
def fl64 (x : ℚ) : ℚ := if x = 0 then 0 else (pyRound (x / ulp64 x) : ℚ) * ulp64 x

end Timeseria
