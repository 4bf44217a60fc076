import Verif.Model.Series

/-! # Access: indexing, slicing, views -/

namespace Timeseria

/-- `series[i]` / `series.get(at_i=i)`: datastructures.py 1341-1342 and operations.py 806-848 (an
empty series raises `IndexError` at 811). -/
def TSeries.getAt (s : TSeries) (i : Int) : Except PyErr Item :=
  match getPos s.items.length i with
  | none => .error .indexError
  | some k => match s.items[k]? with
    | none => .error .indexError
    | some x => .ok x

/-- `_item_by_t` (datastructures.py 1312-1317). -/
def findT (t : ℚ) : List Item → Except PyErr Item
  | [] => .error .valueError
  | x :: r => if x.t = t then .ok x else findT t r

/-- `series.get(at_t=t)` (operations.py 806-848). -/
def TSeries.getAtT (s : TSeries) (t : ℚ) : Except PyErr Item :=
  if s.items.isEmpty then .error .indexError else findT t s.items

/-- `from is not None and x < from` (operations.py 961-962, 978-979) -/
def belowFrom {α : Type} [LT α] [DecidableLT α] : Option α → α → Bool
  | some a, x => decide (x < a)
  | none, _ => false

/-- `to_t is not None` and the item is beyond it (operations.py 964-971): slots by their end, points
by their timestamp -/
def beyondTo : Option ℚ → Item → Bool
  | some b, x => (match x.slot with
    | some (e, _) => decide (e > b)
    | none => decide (x.t ≥ b))
  | none, _ => false

/-- `to_i is not None and i >= to_i` (operations.py 981-982) -/
def beyondIdx : Option Int → Int → Bool
  | some b, i => decide (i ≥ b)
  | none, _ => false

/-- both bounds given and inverted or equal (operations.py 946-951) -/
def inverted {α : Type} [LE α] [DecidableLE α] : Option α → Option α → Bool
  | some x, some y => decide (x ≥ y)
  | _, _ => false

/-- the loop at operations.py 959-973: items from `from_t`, up to the first one beyond `to_t` -/
def sliceTimeLoop (fromT toT : Option ℚ) : List Item → List Item
  | [] => []
  | x :: r =>
    if belowFrom fromT x.t then sliceTimeLoop fromT toT r   -- continue
    else if beyondTo toT x then []                            -- break
    else x :: sliceTimeLoop fromT toT r

/-- the loop at operations.py 976-985; `i` is the running position -/
def sliceIndexLoop (fromI toI : Option Int) (i : Int) : List Item → List Item
  | [] => []
  | x :: r =>
    if belowFrom fromI i then sliceIndexLoop fromI toI (i + 1) r
    else if beyondIdx toI i then []
    else x :: sliceIndexLoop fromI toI (i + 1) r

/-- negative positions (operations.py 940-943) -/
def normIdx (n : ℕ) : Option Int → Option Int
  | some a => some (if a < 0 then n - |a| else a)
  | none => none

/-- `Slice` (operations.py 881-999) on a plain list of items (used for views too): which items are
appended to the new series. -/
def sliceItems (l : List Item) (fromI toI : Option Int) (fromT toT : Option ℚ) :
    Except PyErr (List Item) :=
  if l.isEmpty then .error .valueError                    -- operations.py 47
  -- 896-897, 911-912: more than one bound on a side; 926-930: mixed
  else if fromI.isSome && fromT.isSome || toI.isSome && toT.isSome then .error .valueError
  else if fromI.isSome && toT.isSome || toI.isSome && fromT.isSome then .error .valueError
  else
    let n := l.length
    let a := normIdx n fromI
    let b := normIdx n toI
    -- 946-951
    if inverted fromT toT then .ok []
    else if inverted a b then .ok []
    else if fromT.isSome || toT.isSome then .ok (sliceTimeLoop fromT toT l)
    else if a.isSome || b.isSome then .ok (sliceIndexLoop a b 0 l)
    else .ok l

/-- `series.slice(from_i, to_i, from_t, to_t)`.  The result is a new series to which the selected
items are appended; re-setting the data reference to the data of the first item (993-997) changes
nothing, append having just done that. -/
def TSeries.slice (s : TSeries) (fromI toI : Option Int) (fromT toT : Option ℚ) :
    Except PyErr TSeries :=
  match sliceItems s.items fromI toI fromT toT with
  | .error e => .error e
  | .ok l => TSeries.build l

/-- `series[a:b]` with integer or missing bounds (datastructures.py 1325-1338); both missing raises
`ValueError`. -/
def TSeries.getSlice (s : TSeries) (a b : Option Int) : Except PyErr TSeries :=
  if a.isNone && b.isNone then .error .valueError else s.slice a b none none

/-- `head(n)` (datastructures.py 1128-1134) -/
def TSeries.head (s : TSeries) (n : Int) : Except PyErr (List Item) :=
  match s.getSlice (some 0) (some n) with | .ok r => .ok r.items | .error e => .error e

/-- `tail(n)` (datastructures.py 1136-1142) -/
def TSeries.tail (s : TSeries) (n : Int) : Except PyErr (List Item) :=
  match s.getSlice (some (-n)) none with | .ok r => .ok r.items | .error e => .error e

/-! ## Views -/

/-- A view of a non-empty series (datastructures.py 1797-1915): positions from `fromI` to `toI`, and
the iteration counter, which is an attribute of the view itself. -/
structure View where
  series : TSeries
  fromI : Int
  toI : Int
  count : Int := 0

/-- `len(view)` (1874-1878); a negative length is a `ValueError` raised by Python -/
def View.len (v : View) : Except PyErr ℕ :=
  if v.toI - v.fromI < 0 then .error .valueError else .ok (v.toI - v.fromI).toNat

/-- `view[k]` for an integer (1840-1845) -/
def View.getAt (v : View) (k : Int) : Except PyErr Item :=
  if k ≥ 0 then v.series.getAt (v.fromI + k) else v.series.getAt (v.toI - |k|)

/-- the position in the series of a bound of `view[a:b]` (1817-1823, 1826-1832), `dflt` for a missing
one -/
def View.bound (v : View) (dflt : Int) : Option Int → Int
  | some a => if a ≥ 0 then v.fromI + a else v.toI - |a|
  | none => dflt

/-- `view[a:b]` with integer or missing bounds (1814-1836) -/
def View.getSlice (v : View) (a b : Option Int) : Except PyErr TSeries :=
  v.series.getSlice (some (v.bound v.fromI a)) (some (v.bound v.toI b))

/-- `iter(view)` (1851-1856): resets the counter of the view -/
def View.iter (v : View) : View := { v with count := 0 }

/-- `next(view)` (1858-1872): `none` is `StopIteration` -/
def View.next (v : View) : View × Except PyErr (Option Item) :=
  let i := v.count + v.fromI
  if i ≥ v.toI then (v, .ok none)
  else
    let v' := { v with count := v.count + 1 }
    match v.series.getAt i with
    | .ok x => (v', .ok (some x))
    | .error e => (v', .error e)

/-- the items obtained by calling `next` until it stops (at most `fuel` times) -/
def View.drain : ℕ → View → View × Except PyErr (List Item)
  | 0, v => (v, .ok [])
  | fuel + 1, v =>
    match v.next with
    | (v', .ok none) => (v', .ok [])
    | (v', .error e) => (v', .error e)
    | (v', .ok (some x)) =>
      match View.drain fuel v' with
      | (v'', .ok l) => (v'', .ok (x :: l))
      | (v'', .error e) => (v'', .error e)

/-- `list(view)`: enough calls of `next` to reach the end -/
def View.toList (v : View) : Except PyErr (List Item) :=
  (v.iter.drain ((v.toI - v.fromI).toNat + 1)).2

/-- `materialize` / `duplicate` (1906-1915) -/
def View.materialize (v : View) : Except PyErr TSeries :=
  match v.toList with
  | .ok l => TSeries.build l
  | .error e => .error e

/-- The nested loop `for a in view: for b in view: out.append((a, b))`, with the outer loop allowed
`fuel` turns: each inner loop starts with `iter(view)`, which resets the counter shared with the
outer one. -/
def View.nestedAux : ℕ → View → Except PyErr (List (Item × Item))
  | 0, _ => .ok []
  | fuel + 1, v =>
    match v.next with
    | (_, .ok none) => .ok []
    | (_, .error e) => .error e
    | (v', .ok (some a)) =>
      match v'.iter.drain ((v.toI - v.fromI).toNat + 1) with
      | (_, .error e) => .error e
      | (v'', .ok l) =>
        match View.nestedAux fuel v'' with
        | .ok r => .ok (l.map (fun b => (a, b)) ++ r)
        | .error e => .error e

def View.nested (v : View) : Except PyErr (List (Item × Item)) :=
  View.nestedAux ((v.toI - v.fromI).toNat + 1) v.iter

end Timeseria
