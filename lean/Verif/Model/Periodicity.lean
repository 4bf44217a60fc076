import Verif.Model.Models
import Verif.Model.Utilities
import Verif.Model.Forecast
import Mathlib.Data.List.Sort
import Mathlib.Algebra.Order.Field.Basic

/-! # Detecting the periodicity of a series (utilities.py 142-218) -/

namespace Timeseria

/-- The two external functions: the absolute values of the discrete Fourier transform (`numpy.fft.fft`), and the positions of the
peaks of a list (`scipy.signal.find_peaks`).  Arbitrary; the values `α` and the intensities `K` too. -/
structure Signal (α K : Type) where
  spectrum : List α → List K
  findPeaks : List K → List ℕ

/-- a peak of the spectrum: index, intensity and, as added at 187-191, period -/
structure Peak (K : Type) where
  idx : ℕ
  height : K
  period : ℚ

/-- `round(len_yf/2)` (166-167), the ties to the even number -/
def middlePoint (n : ℕ) : ℕ := (pyRound ((n : ℚ) / 2)).toNat

/-- `[i, yf[i]]` with the period `len(y)/i` (175-191); Python divides before using the periods, in order of intensity -/
def mkPeak {K : Type} (n : ℕ) (yf : List K) (i : ℕ) : Except PyErr (Peak K) :=
  match yf[i]? with
  | none => .error .indexError
  | some h => if i = 0 then .error .zeroDivision else .ok ⟨i, h, (n : ℚ) / i⟩

section
variable {K : Type} [Field K] [LinearOrder K]

/-- stable sort by intensity, then `reverse` (181-182) -/
def sortPeaks (l : List (Peak K)) : List (Peak K) := (l.insertionSort (fun a b => a.height ≤ b.height)).reverse

/-- the rule at 201-207: a peak followed by two others, much closer in intensity to the next than that to the following one, whose
period is more than ten times that of the next and more than a tenth of the length of the series `n` -/
def discarded (n : ℕ) (p q s : Peak K) : Bool :=
  decide ((p.height - q.height) * 3 < q.height - s.height) && decide (p.period > q.period * 10) && decide (p.period > (n : ℚ) / 10)

/-- the loop at 194-211: the first peak that is not discarded (`IndexError` near the end of the list: not discarded).  The `break`
after ten peaks is reached only when the result is already set. -/
def selectPeak (n : ℕ) : List (Peak K) → Option (Peak K)
  | p :: q :: s :: l => if discarded n p q s then selectPeak n (q :: s :: l) else some p
  | p :: _ => some p
  | [] => none

/-- the body for the values `y` of the only label (152-218) -/
def periodOf {α : Type} (S : Signal α K) (y : List α) : Except PyErr ℤ :=
  let yf := (S.spectrum y).take (middlePoint (S.spectrum y).length)
  match mapE (mkPeak y.length yf) (S.findPeaks yf) with
  | .error e => .error e
  | .ok l =>
    match selectPeak y.length (sortPeaks l) with
    | none => .error .valueError
    | some p => .ok (pyRound p.period)

/-- `detect_periodicity(timeseries)` (142-218) for a time series; `none` when there are no labels. -/
def detectPeriodicity (S : Signal ℚ K) (s : TSeries) : Except PyErr (Option ℤ) :=
  match checkTimeSeries (MSeries.ofSeries s) with
  | .error e => .error e
  | .ok _ =>
    match (MSeries.ofSeries s).labels with
    | .error e => .error e
    | .ok [] => .ok none
    | .ok [k] =>
      match mapE (fun x => itemValue x k) s.items with
      | .error e => .error e
      | .ok y => (periodOf S y).map some
    | .ok _ => .error .notImplemented

end

end Timeseria
