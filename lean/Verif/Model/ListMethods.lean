import Verif.Model.Series

/-! # What a series inherits from `list`

`Series` derives from `list` (datastructures.py 606).  This module models the inherited behaviour:
the methods rewritten at 815-857 and the operators which are not rewritten at all. -/

namespace Timeseria

/-- CPython's `list.index` on the part of the list being searched: the position, counted from `k`, of
the first item `y` with `y == x`; `ValueError` when there is none; an exception raised by the comparison
goes through. -/
def findEq (x : Item) : List Item → ℕ → Except PyErr ℕ
  | [], _ => .error .valueError
  | y :: r, k =>
    match itemEq y x with
    | .error e => .error e
    | .ok true => .ok k
    | .ok false => findEq x r (k + 1)

/-- datastructures.py 818-827: `Series.index(x, start=None, end=None)`.  Line 827 calls
`list.index(x, start, end)`, which refuses `None` as a bound with a `TypeError`, and drops the result:
the method has no `return`, so what the caller gets (`ok none`) is Python's `None`. -/
def TSeries.index (s : TSeries) (x : Item) (start stop : Option Int) : Except PyErr (Option ℕ) :=
  match start, stop with
  | some a, some b =>
    let lo := pyInsertPos s.items.length a
    let hi := pyInsertPos s.items.length b
    match findEq x ((s.items.drop lo).take (hi - lo)) lo with
    | .ok _ => .ok none
    | .error e => .error e
  | _, _ => .error .typeError

/-- What a list method can give back: a plain `list`, or a series. -/
inductive ListObj where
  | plain (l : List Item)
  | series (s : TSeries)
  deriving Repr, DecidableEq

/-- the items of the returned object -/
def ListObj.contents : ListObj → List Item
  | .plain l => l
  | .series s => s.items

/-- datastructures.py 829-831: `Series.copy` is `list.copy`, which always builds a plain `list`. -/
def TSeries.copy (s : TSeries) : ListObj := .plain s.items

/-- `series + l`: `list.__add__` is inherited (line 701 defines `__sum__`, which is not a Python
operator method) and builds a plain `list`. -/
def TSeries.plus (s : TSeries) (l : List Item) : ListObj := .plain (s.items ++ l)

/-- `x in series`: the inherited `list.__contains__`, the item of the list at the left of `==`. -/
def TSeries.contains (s : TSeries) (x : Item) : Except PyErr Bool :=
  match findEq x s.items 0 with
  | .ok _ => .ok true
  | .error .valueError => .ok false
  | .error e => .error e

/-- the item by item part of `list.__eq__` -/
def listEqItems : List Item → List Item → Except PyErr Bool
  | [], [] => .ok true
  | x :: l, y :: m =>
    match itemEq x y with
    | .error e => .error e
    | .ok true => listEqItems l m
    | .ok false => .ok false
  | _, _ => .ok false

/-- `a == b` between two series: the inherited `list.__eq__`, which first compares the lengths and then
the items one by one, stopping at the first difference.  Resolution and time zone are not looked at. -/
def TSeries.equals (a b : TSeries) : Except PyErr Bool :=
  if a.items.length ≠ b.items.length then .ok false else listEqItems a.items b.items

/-- The operators which change the list and which `Series` does not rewrite: `series[i] = x`,
`del series[i]`, `series += l`, `series *= n`. -/
inductive ListOp where
  | setItem (i : Int) (x : Item)
  | delItem (i : Int)
  | extendBy (l : List Item)
  | repeatBy (n : ℕ)
  deriving Repr

/-- The inherited `list.__setitem__`, `list.__delitem__`, `list.__iadd__` and `list.__imul__`: none of
them calls `append` or `insert`, no attribute of the series is touched. -/
def TSeries.listOp (s : TSeries) : ListOp → TSeries × Outcome
  | .setItem i x =>
    match pyPos s.items.length i with
    | none => (s, .error .indexError)
    | some k => ({ s with items := s.items.set k x }, .ok ())
  | .delItem i =>
    match pyPos s.items.length i with
    | none => (s, .error .indexError)
    | some k => ({ s with items := s.items.eraseIdx k }, .ok ())
  | .extendBy l => ({ s with items := s.items ++ l }, .ok ())
  | .repeatBy n => ({ s with items := (List.replicate n s.items).flatten }, .ok ())

/-- datastructures.py 1383-1387: `as_tz` changes the zone of a deep copy. -/
def TSeries.asTz (s : TSeries) (z : String) : Except PyErr TSeries :=
  match s.duplicate with
  | .error e => .error e
  | .ok d =>
    match (d.changeTz z).2 with
    | .error e => .error e
    | .ok _ => .ok (d.changeTz z).1

end Timeseria
