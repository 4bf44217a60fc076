import Verif.Model.Series

/-! # The base class `Series` (datastructures.py 604-880), for items of any class

`Series` accepts any objects which compare with `>` or have a `__succedes__` method: numbers, points in any space, slots, objects of
the user. -/

namespace Timeseria

/-- What the series uses of its items. -/
structure ItemClass (α : Type) where
  /-- `isinstance(x, first.__class__)` -/
  isInst : α → α → Bool
  /-- the method `x.__succedes__`, if there is one -/
  succ : α → Option (α → Bool)
  /-- `x > y` -/
  gt : α → α → Except PyErr Bool
  /-- `y == x` -/
  eq : α → α → Bool
  /-- `x.data`, if there is one -/
  data : α → Option Data

/-- the list and the attribute `_item_data_reference` -/
structure BSeries (α : Type) where
  items : List α := []
  ref : Option Data := none

variable {α : Type}

/-- 684-691: the data of a new item against the reference -/
def checkDataB (r : Data) (d : Option Data) : Outcome :=
  match d with
  | none => .error .attributeError
  | some d =>
    match r, d with
    | .num _, .num _ => .ok ()
    | .list a, .list b => if a.length ≠ b.length then .error .valueError else .ok ()
    | .dict a, .dict b => if Dict.sameKeys a b then .ok () else .error .valueError
    | _, _ => .error .typeError

/-- 669-680: order or succession of `x` after `last`: `__succedes__` if `x` has it, `>` otherwise -/
def follows (C : ItemClass α) (x last : α) : Outcome :=
  match C.succ x with
  | some f => if f last then .ok () else .error .valueError
  | none => match C.gt x last with
    | .error e => .error e
    | .ok true => .ok ()
    | .ok false => .error .valueError

/-- 642-699: `append` -/
def BSeries.append (C : ItemClass α) (s : BSeries α) (x : α) : BSeries α × Outcome :=
  match s.items.head?, s.items.getLast? with
  | some first, some last =>
    if !C.isInst x first then (s, .error .typeError)
    else match follows C x last with
      | .error e => (s, .error e)
      | .ok _ => match s.ref with
        | some r =>
          if r.truthy then
            match checkDataB r (C.data x) with
            | .error e => (s, .error e)
            | .ok _ => ({ s with items := s.items ++ [x] }, .ok ())
          else ({ items := s.items ++ [x], ref := C.data x }, .ok ())
        | none => ({ items := s.items ++ [x], ref := C.data x }, .ok ())
  | _, _ => ({ items := s.items ++ [x], ref := C.data x }, .ok ())

/-- `list.insert` at a position of the list -/
def insertB (l : List α) (k : ℕ) (x : α) : List α := l.take k ++ x :: l.drop k

/-- 738-778: `insert` (the base class reads `self[i-1]` with `list.__getitem__`) -/
def BSeries.insert (C : ItemClass α) (s : BSeries α) (i : Int) (x : α) : BSeries α × Outcome :=
  match s.items.head?, s.items.getLast? with
  | some first, some last =>
    let n := s.items.length
    let done : BSeries α × Outcome := ({ s with items := insertB s.items (pyInsertPos n i) x }, .ok ())
    if !C.isInst x first then (s, .error .typeError)
    else if i = 0 then
      match follows C first x with
      | .error e => (s, .error e)
      | .ok _ => done
    else if i = n then
      match follows C x last with
      | .error e => (s, .error e)
      | .ok _ => done
    else match C.succ first with
      | some _ => (s, .error .indexError)
      | none => match (pyPos n (i - 1)).bind (fun k => s.items[k]?) with
        | none => (s, .error .indexError)
        | some y => match C.gt x y with
          | .error e => (s, .error e)
          | .ok true => done
          | .ok false => (s, .error .valueError)
  | _, _ => s.append C x

/-- `list.remove(x)` -/
def removeB (C : ItemClass α) (x : α) : List α → Option (List α)
  | [] => none
  | y :: r => if C.eq y x then some r else (removeB C x r).map (fun r' => y :: r')

/-- 780-793: `remove` -/
def BSeries.remove (C : ItemClass α) (s : BSeries α) (x : α) : BSeries α × Outcome :=
  if s.items.head?.any (fun y => (C.succ y).isSome) then (s, .error .notImplemented)
  else match removeB C x s.items with
    | some l => ({ s with items := l }, .ok ())
    | none => (s, .error .valueError)

/-- 795-813: `pop(i)`; without `i` the last item -/
def BSeries.pop (C : ItemClass α) (s : BSeries α) (i : Option Int) : BSeries α × Except PyErr α :=
  match s.items with
  | [] => (s, .error .indexError)
  | y :: _ =>
    let n := s.items.length
    let popAt (i : Int) : BSeries α × Except PyErr α :=
      match pyPos n i with
      | none => (s, .error .indexError)
      | some k => match s.items[k]? with
        | none => (s, .error .indexError)
        | some z => ({ s with items := s.items.eraseIdx k }, .ok z)
    match i with
    | none => popAt (-1)
    | some i => if i ≠ 0 ∧ i ≠ n ∧ (C.succ y).isSome then (s, .error .indexError) else popAt i

/-- 815-817: `clear` -/
def BSeries.clear (s : BSeries α) : BSeries α := { s with items := [] }

/-- the calls changing a series -/
inductive BOp (α : Type) where
  | append (x : α)
  | insert (i : Int) (x : α)
  | remove (x : α)
  | pop (i : Option Int)
  | clear

/-- the series after a call, whether it raised or not -/
def BSeries.step (C : ItemClass α) (s : BSeries α) : BOp α → BSeries α
  | .append x => (s.append C x).1
  | .insert i x => (s.insert C i x).1
  | .remove x => (s.remove C x).1
  | .pop i => (s.pop C i).1
  | .clear => s.clear

/-- the series after a history of calls on a new one -/
def BSeries.after (C : ItemClass α) (ops : List (BOp α)) : BSeries α := ops.foldl (fun s o => s.step C o) {}

/-- a loop of appends on a new series -/
def BSeries.buildFrom (C : ItemClass α) (s : BSeries α) : List α → Except PyErr (BSeries α)
  | [] => .ok s
  | x :: r => match s.append C x with
    | (_, .error e) => .error e
    | (s', .ok _) => BSeries.buildFrom C s' r

/-- a bound of a slice, as `slice.indices` makes it: `lo` and `hi` are the limits for the sign of the step -/
def clampBound (n : ℕ) (lo hi : Int) (i : Int) : Int :=
  let j := if i < 0 then i + n else i
  if j < lo then lo else if j > hi then hi else j

/-- `key.indices(len(self))` (866) for a step which is not zero -/
def sliceBounds (n : ℕ) (a b : Option Int) (c : Int) : Int × Int :=
  let lo : Int := if c < 0 then -1 else 0
  let hi : Int := if c < 0 then (n : Int) - 1 else n
  let start := match a with
    | some i => clampBound n lo hi i
    | none => if c < 0 then hi else lo
  let stop := match b with
    | some i => clampBound n lo hi i
    | none => if c < 0 then lo else hi
  (start, stop)

/-- `range(start, stop, step)` -/
def pyRange (start stop step : Int) : List Int :=
  let m : ℕ := if step > 0 then ((stop - start + step - 1) / step).toNat else ((start - stop + (-step) - 1) / (-step)).toNat
  (List.range m).map (fun (k : ℕ) => start + step * (k : Int))

/-- 864-871: `series[a:b:c]` -/
def BSeries.getSlice (C : ItemClass α) (s : BSeries α) (a b c : Option Int) : Except PyErr (BSeries α) :=
  if c = some 0 then .error .valueError
  else
    let step := c.getD 1
    let (start, stop) := sliceBounds s.items.length a b step
    BSeries.buildFrom C {} ((pyRange start stop step).filterMap (fun i => s.items[i.toNat]?))

end Timeseria
