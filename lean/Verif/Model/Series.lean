import Verif.Model.Item
import Verif.Model.TimeUnitString

/-! # The TimeSeries state machine -/

namespace Timeseria

/-- the `_resolution` attribute: missing, a time unit or the string `'variable'` -/
inductive Res where
  | unset | unit (u : TUnit) | varying
  deriving DecidableEq, Repr, Inhabited

/-- State of a `TimeSeries` object: the list contents and the attributes `prev_t`, `_resolution`,
`_resolution_as_seconds`, `_tz` and `_item_data_reference` (`none`: attribute missing, or the
reference `None` of an item without data).  The sharing of the reference with the first item is
modelled separately (`Verif.Model.Heap`).  The sampling interval cache is left out. -/
structure TSeries where
  items : List Item := []
  prevT : Option ℚ := none
  res : Res := .unset
  resS : Option ℚ := none
  tz : Option String := none
  ref : Option Data := none
  deriving DecidableEq, Repr, Inhabited

/-- outcome of a call returning nothing -/
abbrev Outcome := Except PyErr Unit

/-- the `tz` property (datastructures.py 1358-1375): the attribute, or the zone shared by all the
items, UTC if they differ, `None` if empty. -/
def detectTz : Option String → List Item → Option String
  | d, [] => d
  | none, x :: r => detectTz (some x.tz) r
  | some d, x :: r => if x.tz ≠ d then some "UTC" else detectTz (some d) r

def TSeries.getTz (s : TSeries) : Option String :=
  match s.tz with
  | some z => some z
  | none => detectTz none s.items

/-- datastructures.py 1227-1275: the point branch of `TimeSeries.append`.  The `finally` block
(1267-1275) sets `prev_t` on every path. -/
def TSeries.prePoint (s : TSeries) (x : Item) : TSeries × Outcome :=
  let fin (s : TSeries) : TSeries := { s with prevT := some x.t }
  match s.prevT with
  | none => (fin s, .ok ())
  | some p =>
    if s.items.isEmpty then (fin s, .ok ())
    else if x.t < p then (fin s, .error .valueError)
    else if x.t = p then (fin s, .error .valueError)
    else match s.res with
      | .unset =>
        match spacingUnit (x.t - p) with
        | some u => (fin { s with resS := some (x.t - p), res := .unit u }, .ok ())
        | none => (fin { s with resS := some (x.t - p) }, .error .valueError)
      | .varying => (fin s, .ok ())
      | .unit _ =>
        match s.resS with
        | none => (fin s, .error .attributeError)
        | some r =>
          if r ≠ x.t - p then (fin { s with resS := none, res := .varying }, .ok ())
          else (fin s, .ok ())

/-- datastructures.py 1277-1304: the slot branch of `TimeSeries.append`.  `_is_close` of two time
units is taken to raise one of the errors caught at 1299 (subtracting `TimeUnit` objects), so that
different units are refused. -/
def TSeries.preSlot (s : TSeries) (x : Item) : TSeries × Outcome :=
  let cont (s : TSeries) : TSeries × Outcome :=
    match s.res with
    | .unset => ({ s with res := .unit x.unit }, .ok ())
    | .unit u => if u ≠ x.unit then (s, .error .valueError) else (s, .ok ())
    | .varying => (s, .error .valueError)
  match s.getTz with
  | none => cont { s with tz := some x.tz }          -- 1283-1285
  | some _ =>
    match s.tz with
    | none => (s, .error .attributeError)            -- 1289: `self._tz` missing
    | some z => if z ≠ x.tz then (s, .error .valueError) else cont s

/-- datastructures.py 684-691: the data of a new item against the reference. -/
def checkData (ref : Data) (x : Item) : Outcome :=
  match x.data with
  | none => .error .attributeError                   -- 684: `item.data` missing
  | some d =>
    match ref, d with
    | .num _, .num _ => .ok ()
    | .list a, .list b => if a.length ≠ b.length then .error .valueError else .ok ()
    | .dict a, .dict b => if Dict.sameKeys a b then .ok () else .error .valueError
    | _, _ => .error .typeError

/-- datastructures.py 642-699: `Series.append`.  (The warnings of 653-666 have no effect.) -/
def TSeries.baseAppend (s : TSeries) (x : Item) : TSeries × Outcome :=
  match s.items.head?, s.items.getLast? with
  | some first, some last =>
    -- 649-651
    if !x.isInstance first.cls then (s, .error .typeError)
    -- 669-680: slots have `__succedes__`, points only `__gt__` (150-154)
    else if (if x.isSlot then !slotSucceeds x last else !decide (x.t > last.t)) then
      (s, .error .valueError)
    else match s.ref with
      | some r =>
        if r.truthy then
          match checkData r x with
          | .error e => (s, .error e)
          | .ok _ => ({ s with items := s.items ++ [x] }, .ok ())
        else ({ s with ref := x.data, items := s.items ++ [x] }, .ok ())
      | none => ({ s with ref := x.data, items := s.items ++ [x] }, .ok ())
  | _, _ => ({ s with ref := x.data, items := s.items ++ [x] }, .ok ())

/-- datastructures.py 1222-1310: `TimeSeries.append`. -/
def TSeries.append (s : TSeries) (x : Item) : TSeries × Outcome :=
  let pre := if x.isSlot then s.preSlot x else s.prePoint x
  match pre.2 with
  | .error e => (pre.1, .error e)
  | .ok _ => pre.1.baseAppend x

/-- a fresh `TimeSeries()` -/
def TSeries.empty : TSeries := {}

/-- a fresh `TimeSeries(tz=z)` (datastructures.py 1206-1215) -/
def TSeries.fresh (z : Option String) : TSeries := { tz := z }

/-- Repeated `append`, stopping at the first exception (a `for` loop in the code). -/
def TSeries.appendAll (s : TSeries) : List Item → TSeries × Outcome
  | [] => (s, .ok ())
  | x :: r =>
    match (s.append x).2 with
    | .error e => ((s.append x).1, .error e)
    | .ok _ => TSeries.appendAll (s.append x).1 r

/-- `TimeSeries(*items)` or a loop of appends on a new series, as a value. -/
def TSeries.build (l : List Item) : Except PyErr TSeries :=
  match TSeries.empty.appendAll l with
  | (s, .ok _) => .ok s
  | (_, .error e) => .error e

/-- Python list position for `pop(i)`: negative positions count from the end. -/
def pyPos (n : ℕ) (i : Int) : Option ℕ :=
  if 0 ≤ i ∧ i < n then some i.toNat
  else if i < 0 ∧ 0 ≤ n + i then some (n + i).toNat
  else none

/-- Python list position for `list.insert(i, x)`: clamped. -/
def pyInsertPos (n : ℕ) (i : Int) : ℕ :=
  if i < 0 then (n + i).toNat else min i.toNat n

/-- `list.insert` at a valid position -/
def insertAt (l : List Item) (k : ℕ) (x : Item) : List Item := l.take k ++ x :: l.drop k

/-- Position in the list reached by `series[i]` for an integer `i` (`TimeSeries.__getitem__`
1341-1342 and `Get`, operations.py 806-848): a negative `i` is first turned into `len - |i|`, and
if that is still negative Python counts once more from the end. -/
def getPos (n : ℕ) (i : Int) : Option ℕ :=
  if i ≥ 0 then pyPos n i else pyPos n (n - |i|)

/-- datastructures.py 738-778: `Series.insert` (inherited by `TimeSeries`: no resolution, time zone
or data checks). -/
def TSeries.insert (s : TSeries) (i : Int) (x : Item) : TSeries × Outcome :=
  match s.items.head?, s.items.getLast? with
  | some first, some last =>
    let n := s.items.length
    let done : TSeries × Outcome :=
      ({ s with items := insertAt s.items (pyInsertPos n i) x }, .ok ())
    if !x.isInstance first.cls then (s, .error .typeError)
    else if i = 0 then
      -- 750-756
      if (if first.isSlot then slotSucceeds first x else decide (first.t > x.t)) then done
      else (s, .error .valueError)
    else if i = n then
      -- 758-764
      if (if x.isSlot then slotSucceeds x last else decide (x.t > last.t)) then done
      else (s, .error .valueError)
    else if first.isSlot then (s, .error .indexError)   -- 773
    else
      -- 770: only the item before is looked at, through `self[i-1]`
      match getPos n (i - 1) with
      | none => (s, .error .indexError)
      | some k =>
        match s.items[k]? with
        | none => (s, .error .indexError)
        | some y =>
          if x.t > y.t then done
          -- 771: formatting the message evaluates `self[i]`
          else (s, .error .valueError)
  | _, _ => s.append x

/-- `list.remove(x)` : removes the first item equal to `x` -/
def removeFirst (x : Item) : List Item → Except PyErr (List Item)
  | [] => .error .valueError
  | y :: r =>
    match itemEq y x with
    | .error e => .error e
    | .ok true => .ok r
    | .ok false => match removeFirst x r with
      | .ok r' => .ok (y :: r')
      | .error e => .error e

/-- datastructures.py 780-792: `Series.remove`. -/
def TSeries.remove (s : TSeries) (x : Item) : TSeries × Outcome :=
  match s.items with
  | [] => (s, .error .valueError)
  | y :: _ =>
    if y.isSlot then (s, .error .notImplemented)
    else match removeFirst x s.items with
      | .ok l => ({ s with items := l }, .ok ())
      | .error e => (s, .error e)

/-- datastructures.py 794-812: `Series.pop`; the attributes are left as they are. -/
def TSeries.pop (s : TSeries) (i : Option Int) : TSeries × Except PyErr Item :=
  match s.items with
  | [] => (s, .error .indexError)
  | y :: _ =>
    let n := s.items.length
    let popAt (i : Int) : TSeries × Except PyErr Item :=
      match pyPos n i with
      | none => (s, .error .indexError)
      | some k => match s.items[k]? with
        | none => (s, .error .indexError)
        | some z => ({ s with items := s.items.eraseIdx k }, .ok z)
    match i with
    | none => popAt (-1)
    | some i =>
      if i ≠ 0 ∧ i ≠ n ∧ y.isSlot then (s, .error .indexError)
      else popAt i

/-- datastructures.py 814-816: `clear`; the attributes are left as they are. -/
def TSeries.clear (s : TSeries) : TSeries := { s with items := [] }

/-- datastructures.py 833-835: `duplicate` is `copy.deepcopy`, which for a list subclass copies the
attributes first and then appends a copy of each item (see the comment at 1236). -/
def TSeries.duplicate (s : TSeries) : Except PyErr TSeries :=
  match ({ s with items := [] } : TSeries).appendAll s.items with
  | (s', .ok _) => .ok s'
  | (_, .error e) => .error e

/-- datastructures.py 1377-1381: `change_tz` (the loop variable is undefined on an empty series).
-/
def TSeries.changeTz (s : TSeries) (z : String) : TSeries × Outcome :=
  if s.items.isEmpty then (s, .error .exception)
  else ({ s with items := s.items.map (fun x => { x with tz := z }), tz := some z }, .ok ())

/-- The calls of a history. -/
inductive Op where
  | append (x : Item)
  | insert (i : Int) (x : Item)
  | remove (x : Item)
  | pop (i : Option Int)
  | clear
  /-- continue with the duplicate of the series, if duplicating succeeds -/
  | duplicate
  deriving Repr

/-- state after one call, whether it raised or not -/
def TSeries.step (s : TSeries) : Op → TSeries
  | .append x => (s.append x).1
  | .insert i x => (s.insert i x).1
  | .remove x => (s.remove x).1
  | .pop i => (s.pop i).1
  | .clear => s.clear
  | .duplicate => match s.duplicate with | .ok s' => s' | .error _ => s

/-- state after a history of calls -/
def TSeries.run (s : TSeries) (ops : List Op) : TSeries := ops.foldl TSeries.step s

/-- datastructures.py 713-735: `_all_data_indexes`. -/
def allDataIndexNames (l : List Item) : List String :=
  l.foldl (fun acc x => x.idx.keys.foldl (fun acc k => if acc.contains k then acc else acc ++ [k]) acc)
    []

/-- the legacy names put first (726) -/
def legacyIndexes : List String := ["data_reconstructed", "data_loss", "anomaly", "forecast"]

/-- Python `sorted` on strings (code point order), as insertion sort -/
def insertStr (x : String) : List String → List String
  | [] => [x]
  | y :: r => if x ≤ y then x :: y :: r else y :: insertStr x r

def sortStr : List String → List String
  | [] => []
  | x :: r => insertStr x (sortStr r)

def allDataIndexes (l : List Item) : List String :=
  let names := allDataIndexNames l
  let lead := legacyIndexes.filter (fun k => names.contains k)
  let rest := names.filter (fun k => !legacyIndexes.contains k)
  lead ++ sortStr rest

end Timeseria
