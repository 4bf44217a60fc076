import Verif.Model.Ops
/-!
NaN and the infinities: the numbers of Python with the values which are not numbers, in the loops of the operations (one
data label at a time: the loops over the labels do not interact) and in the checks of `append`.
Rounding is left out here (it is in `Floats`).
-/
namespace Timeseria

/-- a Python `float`, exact: a number, `nan`, or an infinity (`inf true` is the negative one) -/
inductive PyFloat where
  | num (q : ℚ)
  | nan
  | inf (neg : Bool)
  deriving DecidableEq, Repr

namespace PyFloat

/-- `a < b`: false whenever one of them is `nan` -/
def lt : PyFloat → PyFloat → Bool
  | num a, num b => decide (a < b)
  | num _, inf m => !m
  | inf n, num _ => n
  | inf n, inf m => n && !m
  | nan, _ => false
  | _, nan => false

/-- `a == b`: false whenever one of them is `nan` -/
def eq : PyFloat → PyFloat → Bool
  | num a, num b => decide (a = b)
  | inf n, inf m => n == m
  | _, _ => false

def neg : PyFloat → PyFloat
  | num a => num (-a)
  | nan => nan
  | inf n => inf (!n)

def abs : PyFloat → PyFloat
  | num a => num |a|
  | nan => nan
  | inf _ => inf false

def add : PyFloat → PyFloat → PyFloat
  | num a, num b => num (a + b)
  | num _, inf m => inf m
  | inf n, num _ => inf n
  | inf n, inf m => if n = m then inf n else nan
  | nan, _ => nan
  | _, nan => nan

def sub (a b : PyFloat) : PyFloat := add a (neg b)

def mul : PyFloat → PyFloat → PyFloat
  | num a, num b => num (a * b)
  | num a, inf m => if a = 0 then nan else inf (xor m (decide (a < 0)))
  | inf n, num b => if b = 0 then nan else inf (xor n (decide (b < 0)))
  | inf n, inf m => inf (xor n m)
  | nan, _ => nan
  | _, nan => nan

/-- Python's division: a zero divisor raises whatever is divided -/
def div : PyFloat → PyFloat → Except PyErr PyFloat
  | num a, num b => if b = 0 then .error .zeroDivision else .ok (num (a / b))
  | inf n, num b => if b = 0 then .error .zeroDivision else .ok (inf (xor n (decide (b < 0))))
  | nan, num b => if b = 0 then .error .zeroDivision else .ok nan
  | num _, inf _ => .ok (num 0)
  | inf _, inf _ => .ok nan
  | nan, inf _ => .ok nan
  | _, nan => .ok nan

/-! ## Operations on the values of a label -/

/-- `max` of a label (operations.py 73-97): the first value, replaced by the ones greater than it -/
def maxCol : List PyFloat → Option PyFloat
  | [] => none
  | v :: r => some (r.foldl (fun m v => if lt m v then v else m) v)

/-- `min` of a label (operations.py 100-124) -/
def minCol : List PyFloat → Option PyFloat
  | [] => none
  | v :: r => some (r.foldl (fun m v => if lt v m then v else m) v)

/-- `sum` of a label (operations.py 191-207) -/
def sumCol (vs : List PyFloat) : PyFloat := vs.foldl add (num 0)

/-- `avg` of a label, without weights (operations.py 172-181) -/
def avgCol : List PyFloat → Except PyErr PyFloat
  | [] => .error .typeError
  | v :: r => div (r.foldl add v) (num (r.length + 1))

/-- `diff` of a label (operations.py 277-285) -/
def diffCol : List PyFloat → List PyFloat
  | a :: b :: r => sub b a :: diffCol (b :: r)
  | _ => []

/-- `csum` of a label (operations.py 428-432, 455-464) from `acc` -/
def csumCol : PyFloat → List PyFloat → List PyFloat
  | _, [] => []
  | acc, v :: r => add acc v :: csumCol (add acc v) r

/-- `rescale` by a factor (operations.py 616-677) -/
def rescaleCol (f : PyFloat) (vs : List PyFloat) : List PyFloat := vs.map (fun v => mul v f)

/-- `offset` (operations.py 680-742) -/
def offsetCol (c : PyFloat) (vs : List PyFloat) : List PyFloat := vs.map (fun v => add v c)

/-- moving average (operations.py 771-785): for each position from `window - 1` on, the sum of the window, from 0, over its size -/
def mavgCol (w : ℕ) : List PyFloat → Except PyErr (List PyFloat)
  | [] => .ok []
  | v :: r =>
    if (v :: r).length < w then .ok []
    else
      match div (sumCol ((v :: r).take w)) (num w) with
      | .error e => .error e
      | .ok x => match mavgCol w r with
        | .error e => .error e
        | .ok xs => .ok (x :: xs)

/-- the extremes found by `normalize` (operations.py 556-570) -/
def extremes : List PyFloat → Option (PyFloat × PyFloat)
  | [] => none
  | v :: r => some (r.foldl (fun p v => (if lt v p.1 then v else p.1, if lt p.2 v then v else p.2)) (v, v))

/-- the normalized value (operations.py 584-587), without a range -/
def normValue (mm : PyFloat × PyFloat) (v : PyFloat) : Except PyErr PyFloat := div (sub v mm.1) (sub mm.2 mm.1)

/-- `normalize` of a label (operations.py 530-613) -/
def normalizeCol (vs : List PyFloat) : Except PyErr (List PyFloat) :=
  match extremes vs with
  | none => .ok []
  | some mm => mapE (normValue mm) vs

/-- `max_absolute_error` (utilities.py 255-267) once the lengths are the same -/
def maxAeCol (l m : List PyFloat) : Option PyFloat := maxCol ((l.zip m).map (fun p => abs (sub p.1 p.2)))

end PyFloat

/-! ## Timestamps -/

/-- what is known of the resolution of a series of points (datastructures.py 1246-1266) -/
inductive NanRes where
  | unknown
  | secs (d : PyFloat)
  | variable
  deriving DecidableEq

/-- a series of points, by their timestamps only: data and time zones take no part in these checks -/
structure NanSeries where
  ts : List PyFloat := []
  prevT : Option PyFloat := none
  res : NanRes := .unknown
  deriving DecidableEq

/-- `if self: … if not item > self[-1]: raise` (`Series.append`, datastructures.py 669-681) -/
def NanSeries.last (s : NanSeries) (t : PyFloat) : NanSeries × Bool :=
  match s.ts.getLast? with
  | none => ({ s with ts := s.ts ++ [t] }, true)
  | some l => if PyFloat.lt l t then ({ s with ts := s.ts ++ [t] }, true) else (s, false)

/-- `TimeSeries.append` of a point at `t` (datastructures.py 1222-1275, then `Series.append` 669-681), and whether it is
accepted.  `unitOk d` is whether `TimeUnit(_to_time_unit_string(d))` succeeds (1259): `int()` of `nan` or of an infinity
(1258) raises.  Simplification: which exception is raised is not kept. -/
def NanSeries.append (unitOk : ℚ → Bool) (s : NanSeries) (t : PyFloat) : NanSeries × Bool :=
  match s.prevT with
  | none => NanSeries.last { s with prevT := some t } t
  | some p =>
    if s.ts.length > 0 then
      if PyFloat.lt t p then ({ s with prevT := some t }, false)
      else if PyFloat.eq t p then ({ s with prevT := some t }, false)
      else
        match s.res with
        | .unknown =>
          -- 1253-1259: the seconds are set before the unit, but only the unit marks the resolution as known
          match PyFloat.sub t p with
          | .num d =>
            if unitOk d then NanSeries.last { s with prevT := some t, res := .secs (.num d) } t
            else ({ s with prevT := some t }, false)
          | _ => ({ s with prevT := some t }, false)
        | .secs d =>
          if PyFloat.eq d (PyFloat.sub t p) then NanSeries.last { s with prevT := some t } t
          else NanSeries.last { s with prevT := some t, res := .variable } t
        | .variable => NanSeries.last { s with prevT := some t } t
    else NanSeries.last { s with prevT := some t } t
/-- a history of appends, the refused ones included -/
def NanSeries.run (unitOk : ℚ → Bool) (s : NanSeries) (l : List PyFloat) : NanSeries :=
  l.foldl (fun s t => (s.append unitOk t).1) s

end Timeseria
