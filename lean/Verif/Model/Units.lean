import Verif.Model.Basic

/-!
# Generic units (units.py 15-108) and the arguments of a time unit (units.py 145-153)

The value of a unit is a number or a list of numbers (units.py 22-24 accepts anything); the other
operand is a number, a list, a unit, a point given by its coordinates, or any other object (which
supports neither arithmetic nor `coordinates` nor `value`).  Python's operator dispatch is followed: a
number asked to operate with a unit gives way to the reflected operator of the unit, and a unary minus or
an arithmetic operator on a point, a list or another object raises `TypeError`.
-/

namespace Timeseria

/-- `self.value` of a `Unit` -/
inductive UVal where
  | num (x : ℚ)
  | list (l : List ℚ)
  deriving DecidableEq, Repr

/-- an object combined with a unit -/
inductive Operand where
  | num (x : ℚ)
  | list (l : List ℚ)
  | unit (v : UVal)
  | point (coords : List ℚ)
  | other
  deriving DecidableEq, Repr

/-- the result of an operation with a unit -/
inductive URes where
  | num (x : ℚ)
  | list (l : List ℚ)
  | point (coords : List ℚ)
  deriving DecidableEq, Repr

/-- `is_numerical(self.value)` (utilities.py 48-59) -/
def UVal.isNum : UVal → Bool
  | .num _ => true
  | .list _ => false

/-- `is_numerical(other)` (utilities.py 48-59): numbers, and everything to which 1 can be added, which
includes the units with a numerical value (units.py 29-33). -/
def Operand.isNum : Operand → Bool
  | .num _ => true
  | .unit v => v.isNum
  | _ => false

/-- division of two numbers -/
def numDiv (a b : ℚ) : Except PyErr ℚ := if b = 0 then .error .zeroDivision else .ok (a / b)

/-- `Unit.__add__(v, b)` for a number `b` (units.py 29-45): a list-valued unit ends in the
`NotImplementedError` of line 45. -/
def unitAddNum : UVal → ℚ → Except PyErr ℚ
  | .num a, b => .ok (a + b)
  | .list _, _ => .error .notImplemented

/-- `Unit.__sub__(v, b)` for a number `b` (units.py 50-66) -/
def unitSubNum : UVal → ℚ → Except PyErr ℚ
  | .num a, b => .ok (a - b)
  | .list _, _ => .error .notImplemented

/-- `Unit.__truediv__(v, b)` for a number `b` (units.py 71-80) -/
def unitDivNum : UVal → ℚ → Except PyErr ℚ
  | .num a, b => numDiv a b
  | .list _, _ => .error .notImplemented

/-- `Unit.__mul__(v, b)` for a number `b` (units.py 85-94) -/
def unitMulNum : UVal → ℚ → Except PyErr ℚ
  | .num a, b => .ok (a * b)
  | .list _, _ => .error .notImplemented

/-- `Unit.__radd__(v, a)`, that is `a + unit` for a number `a` (units.py 47-48) -/
def numAddUnit (a : ℚ) (v : UVal) : Except PyErr ℚ := unitAddNum v a

/-- `Unit.__rsub__(v, a)`, that is `a - unit` for a number `a` (units.py 68-69) -/
def numSubUnit (a : ℚ) (v : UVal) : Except PyErr ℚ :=
  match unitSubNum v a with
  | .ok r => .ok (-r)
  | .error e => .error e

/-- `Unit.__rtruediv__(v, a)`, that is `a / unit` for a number `a` (units.py 82-83): one over the
inverted division -/
def numDivUnit (a : ℚ) (v : UVal) : Except PyErr ℚ :=
  match unitDivNum v a with
  | .ok r => numDiv 1 r
  | .error e => .error e

/-- `Unit.__rmul__(v, a)`, that is `a * unit` for a number `a` (units.py 96-97) -/
def numMulUnit (a : ℚ) (v : UVal) : Except PyErr ℚ := unitMulNum v a

/-- the result of an operation giving a number -/
def toRes : Except PyErr ℚ → Except PyErr URes
  | .ok x => .ok (.num x)
  | .error e => .error e

/-- the raw operation of `value + other` (units.py 33): `other` is a number or a unit -/
def rawAdd (a : ℚ) : Operand → Except PyErr ℚ
  | .num b => .ok (a + b)
  | .unit v => numAddUnit a v
  | _ => .error .typeError

/-- the raw operation of `value - other` (units.py 54) -/
def rawSub (a : ℚ) : Operand → Except PyErr ℚ
  | .num b => .ok (a - b)
  | .unit v => numSubUnit a v
  | _ => .error .typeError

/-- the raw operation of `value / other` (units.py 75) -/
def rawDiv (a : ℚ) : Operand → Except PyErr ℚ
  | .num b => numDiv a b
  | .unit v => numDivUnit a v
  | _ => .error .typeError

/-- the raw operation of `value * other` (units.py 89) -/
def rawMul (a : ℚ) : Operand → Except PyErr ℚ
  | .num b => .ok (a * b)
  | .unit v => numMulUnit a v
  | _ => .error .typeError

/-- `unit + other` (units.py 29-45): with something numerical the numbers are added; with another unit
the values (lists are concatenated, a number and a list cannot be added); with a point of one dimension
the coordinate; everything else is not implemented. -/
def unitAdd (v : UVal) (o : Operand) : Except PyErr URes :=
  match v, o with
  | .num a, .num b => toRes (rawAdd a (.num b))
  | .num a, .unit (.num b) => toRes (rawAdd a (.unit (.num b)))
  | .list l, .unit (.list m) => .ok (.list (l ++ m))
  | .num _, .unit (.list _) => .error .typeError
  | .list _, .unit (.num _) => .error .typeError
  | .num a, .point [c] => .ok (.point [a + c])
  | _, _ => .error .notImplemented

/-- `unit - other` (units.py 50-66): as `unitAdd`, but lists cannot be subtracted. -/
def unitSub (v : UVal) (o : Operand) : Except PyErr URes :=
  match v, o with
  | .num a, .num b => toRes (rawSub a (.num b))
  | .num a, .unit (.num b) => toRes (rawSub a (.unit (.num b)))
  | _, .unit _ => .error .typeError
  | .num a, .point [c] => .ok (.point [a - c])
  | _, _ => .error .notImplemented

/-- `unit / other` (units.py 71-80) -/
def unitDiv (v : UVal) (o : Operand) : Except PyErr URes :=
  match v with
  | .num a => if o.isNum then toRes (rawDiv a o) else .error .notImplemented
  | .list _ => .error .notImplemented

/-- `unit * other` (units.py 85-94) -/
def unitMul (v : UVal) (o : Operand) : Except PyErr URes :=
  match v with
  | .num a => if o.isNum then toRes (rawMul a o) else .error .notImplemented
  | .list _ => .error .notImplemented

/-- unary minus on the result of an operation: lists and points have none -/
def uresNeg : URes → Except PyErr URes
  | .num x => .ok (.num (-x))
  | .list _ => .error .typeError
  | .point _ => .error .typeError

/-- `1 / x` on the result of an operation -/
def uresInv : URes → Except PyErr URes
  | .num x => toRes (numDiv 1 x)
  | .list _ => .error .typeError
  | .point _ => .error .typeError

/-- `other + unit` (units.py 47-48) for an operand which is not a unit and leaves the operation to the
unit (numbers, points, lists and other objects do) -/
def addUnit (o : Operand) (v : UVal) : Except PyErr URes := unitAdd v o

/-- `other - unit` (units.py 68-69) -/
def subUnit (o : Operand) (v : UVal) : Except PyErr URes :=
  match unitSub v o with
  | .ok r => uresNeg r
  | .error e => .error e

/-- `other * unit` (units.py 96-97) -/
def mulUnit (o : Operand) (v : UVal) : Except PyErr URes := unitMul v o

/-- `other / unit` (units.py 82-83) -/
def divUnit (o : Operand) (v : UVal) : Except PyErr URes :=
  match unitDiv v o with
  | .ok r => uresInv r
  | .error e => .error e

/-- `unit == number` when the value is compared with a number (units.py 103-104) -/
def unitEqNum : UVal → ℚ → Bool
  | .num a, b => decide (a = b)
  | .list _, _ => false

/-- `unit == other` (units.py 99-108), for two distinct objects.  A numerical unit on the right is
"numerical", so that its own reflected comparison with the value decides; a list is never numerical and
has no `value`. -/
def unitEq (v : UVal) (o : Operand) : Bool :=
  match o with
  | .num b => unitEqNum v b
  | .unit (.num b) => match v with | .num a => unitEqNum (.num b) a | .list _ => false
  | .unit (.list m) => match v with | .list l => decide (l = m) | .num _ => false
  | .list _ => false
  | .point _ => false
  | .other => false

/-- the value accepted by the constructor of a time unit -/
inductive TUArg where
  | seconds (x : ℚ)
  | text (s : String)
  deriving DecidableEq, Repr

/-- The arguments of `TimeUnit(...)`: an optional positional value, and the keyword arguments `value` and
`seconds` (the other components are passed on unchanged and left out). -/
structure TUArgs where
  positional : Option TUArg := none
  value : Option TUArg := none
  secs : Option ℚ := none
  deriving Repr

/-- what `TimeSpan.__init__` (external) receives: the string form, or the seconds component -/
inductive SpanArgs where
  | text (s : String)
  | component (secs : Option ℚ)
  | both (s : String) (secs : Option ℚ)
  deriving DecidableEq, Repr

/-- `TimeUnit.__init__` (units.py 145-152).  `fmt x` is `'{}s'.format(x)`.  Line 150 looks up
`kwargs['seconds']` when `value` is given, a `KeyError` unless both are given; then the value overrides
the seconds.  The keyword `value` is never removed when `seconds` is not a number, which cannot happen
here. -/
def timeUnitInit (fmt : ℚ → String) (a : TUArgs) : Except PyErr SpanArgs :=
  let pos := match a.positional with
    | some (.seconds x) => some (fmt x)
    | some (.text s) => some s
    | none => none
  let secs : Except PyErr (Option ℚ) := match a.value with
    | none => .ok a.secs
    | some v => match a.secs with
      | none => .error .keyError
      | some _ => match v with
        | .seconds x => .ok (some x)
        | .text _ => .error .typeError
  match secs with
  | .error e => .error e
  | .ok k => match pos with
    | some s => match k with
      | none => .ok (.text s)
      | some x => .ok (.both s (some x))
    | none => .ok (.component k)

end Timeseria
