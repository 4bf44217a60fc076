import Verif.Model.Validity

/-! # Interpolators (interpolators.py)

Points carry dictionaries of numbers; `ks` is `series.data_labels()`.  List data is not modelled: the code
creates an empty list and assigns it by label, a `TypeError`. -/

namespace Timeseria

/-- `series[i]` for an integer index, negative ones counting from the end (datastructures.py 865-878) -/
def pyGet {α : Type} (l : List α) (i : Int) : Except PyErr α :=
  match (if 0 ≤ i then l[i.toNat]? else if (-i).toNat ≤ l.length then l[l.length - (-i).toNat]? else none) with
  | some x => .ok x
  | none => .error .indexError

/-- the interpolated value of one label (interpolators.py 69-75), the point `p` coming before `n` -/
def linearValue (p n : VPoint) (at_ : ℚ) (k : String) : Except PyErr ℚ :=
  match p.data.get? k, n.data.get? k with
  | some a, some b =>
    if n.t - p.t = 0 then .error .zeroDivision
    else .ok (a + (at_ - p.t) * ((b - a) / (n.t - p.t)))
  | _, _ => .error .keyError

/-- `{label: f(label) for label in ks}` stopping at the first exception -/
def perLabelDict (ks : List String) (f : String → Except PyErr ℚ) : Except PyErr (Dict ℚ) :=
  match ks with
  | [] => .ok []
  | k :: r =>
    match f k with
    | .error e => .error e
    | .ok v =>
      match perLabelDict r f with
      | .error e => .error e
      | .ok d => .ok ((k, v) :: d)

/-- the search of the neighbours (interpolators.py 40-44): first index whose timestamp is greater -/
def searchNext (at_ : ℚ) : ℕ → List VPoint → Option ℕ
  | _, [] => none
  | i, p :: r => if p.t > at_ then some i else searchNext at_ (i + 1) r

/-- evaluation once the neighbours are known -/
def linearBetween (ps : List VPoint) (ks : List String) (at_ : ℚ) (prev next : Int) : Except PyErr (Dict ℚ) :=
  match pyGet ps prev, pyGet ps next with
  | .ok p, .ok n => perLabelDict ks (linearValue p n at_)
  | .error e, _ => .error e
  | _, .error e => .error e

/-- `LinearInterpolator(series).evaluate(at, prev_i, next_i)` (interpolators.py 23-80) -/
def linearEval (ps : List VPoint) (ks : List String) (at_ : ℚ) (prev next : Option Int) :
    Except PyErr (Dict ℚ) :=
  match prev, next with
  | some _, none => .error .valueError
  | none, some _ => .error .valueError
  | none, none =>
    match searchNext at_ 0 ps with
    | none => .error .valueError
    | some i => linearBetween ps ks at_ ((i : Int) - 1) i
  | some p, some n =>
    match pyGet ps p, pyGet ps n with
    | .ok a, .ok b => if a.t < at_ ∧ at_ < b.t then linearBetween ps ks at_ p n else .error .valueError
    | .error e, _ => .error e
    | _, .error e => .error e

/-- the value of the uniform interpolator for one label (interpolators.py 121-122) -/
def uniformValue (p n : VPoint) (k : String) : Except PyErr ℚ :=
  match p.data.get? k, n.data.get? k with
  | some a, some b => .ok (a + (b - a) / 2)
  | _, _ => .error .keyError

/-- evaluation once the neighbours are known -/
def uniformBetween (ps : List VPoint) (ks : List String) (prev next : Int) : Except PyErr (Dict ℚ) :=
  match pyGet ps prev, pyGet ps next with
  | .ok p, .ok n => perLabelDict ks (uniformValue p n)
  | .error e, _ => .error e
  | _, .error e => .error e

/-- the truth value of an optional index: `None` and 0 are false -/
def truthyIdx : Option Int → Bool
  | some i => i ≠ 0
  | none => false

/-- `UniformInterpolator(series).evaluate(at, prev_i, next_i)` (interpolators.py 90-124).  The `break` at 106 is
at the level of the loop, so only the first item is looked at; `prev_i = 0` counts as not given. -/
def uniformEval (ps : List VPoint) (ks : List String) (at_ : ℚ) (prev next : Option Int) :
    Except PyErr (Dict ℚ) :=
  if truthyIdx prev ∧ next = none then .error .valueError
  else if truthyIdx next ∧ prev = none then .error .valueError
  else if ¬ truthyIdx prev then
    match ps with
    | [] => .error .valueError
    | f :: _ =>
      if f.t > at_ then uniformBetween ps ks (-1) 0
      else
        match prev, next with
        | some p, some n => uniformBetween ps ks p n
        -- `prev_i` None: `series[None]`
        | none, some _ => .error .typeError
        | _, none => .error .valueError
  else
    match prev, next with
    | some p, some n =>
      match pyGet ps p, pyGet ps n with
      | .ok a, .ok b => if a.t < at_ ∧ at_ < b.t then uniformBetween ps ks p n else .error .valueError
      | .error e, _ => .error e
      | _, .error e => .error e
    | _, _ => .error .valueError

end Timeseria
