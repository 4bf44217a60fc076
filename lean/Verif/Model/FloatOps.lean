import Verif.Model.Floats

/-! # More computations in floating point

Continues `Verif.Model.Floats`: derivatives, weighted averages, uniform interpolation, rescaling and offsets, with a rounding after each arithmetic operation, in the order
of the code. -/

namespace Timeseria

namespace Rounding

variable (R : Rounding)

/-- the derivative at a point `(t, v)` between its neighbours, if any (operations.py 276-307): `var` is the variable resolution flag, `s` the sampling interval -/
def derivAt (var : Bool) (s : ℚ) (prev : Option (ℚ × ℚ)) (x : ℚ × ℚ) (next : Option (ℚ × ℚ)) : Except PyErr ℚ :=
  match prev, next with
  | none, none => .error .valueError                  -- 230-234: a series of one item
  | none, some n => R.div (R.sub n.2 x.2) s
  | some p, none => R.div (R.sub x.2 p.2) s
  | some p, some n =>
    if var then
      match R.div (R.sub x.2 p.2) (R.sub x.1 p.1) with
      | .error e => .error e
      | .ok l =>
        match R.div (R.sub n.2 x.2) (R.sub n.1 x.1) with
        | .error e => .error e
        | .ok r => .ok (R.fl (R.add l r / 2))
    else R.div (R.fl (R.add (R.sub x.2 p.2) (R.sub n.2 x.2) / 2)) s

/-- the derivatives of the points of a label, the point before the first one being `prev` (operations.py 262-307) -/
def derivFrom (var : Bool) (s : ℚ) : Option (ℚ × ℚ) → List (ℚ × ℚ) → Except PyErr (List ℚ)
  | _, [] => .ok []
  | prev, x :: r =>
    match R.derivAt var s prev x r.head? with
    | .error e => .error e
    | .ok d =>
      match derivFrom var s (some x) r with
      | .error e => .error e
      | .ok ds => .ok (d :: ds)

/-- the derivatives of a label (operations.py 213-352) -/
def derivative (var : Bool) (s : ℚ) (ps : List (ℚ × ℚ)) : Except PyErr (List ℚ) := R.derivFrom var s none ps

/-- `avg` of a label with weights (operations.py 150-173): the products are summed from the first one, the weights from zero; a total of one is not divided by -/
def wavg (vs : List (ℚ × ℚ)) : Except PyErr ℚ :=
  match vs with
  | [] => .error .typeError
  | x :: r =>
    let s := r.foldl (fun acc y => R.add acc (R.mul y.1 y.2)) (R.mul x.1 x.2)
    let w := (x :: r).foldl (fun acc y => R.add acc y.2) 0
    if w = 1 then .ok s else R.div s w

/-- uniform interpolation between two values (interpolators.py 121-122) -/
def uniform (a b : ℚ) : ℚ := R.add a (R.fl (R.sub b a / 2))

/-- `rescale` by a number (operations.py 644-648) -/
def rescaleBy (k : ℚ) (vs : List ℚ) : List ℚ := vs.map (fun v => R.mul v k)

/-- `offset` by a number (operations.py 708-712) -/
def offsetBy (k : ℚ) (vs : List ℚ) : List ℚ := vs.map (fun v => R.add v k)

end Rounding

end Timeseria
