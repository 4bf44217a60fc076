import Verif.Model.Heap

/-! # Creating points and slots

datastructures.py 26-597: what the constructors do with their arguments.  The other modules start from
items which are already there. -/

namespace Timeseria

/-- A coordinate as stored by `Point.__init__` (datastructures.py 34-47): whatever `float()` accepts is
kept as it was given, so a text such as `'60'` stays a text. -/
inductive Coord where
  | num (x : ℚ)
  | text (s : String)
  deriving DecidableEq, Repr

/-- A `TimePoint` object: its coordinate and its `_tz` attribute, if it has one. -/
structure TPoint where
  coord : Coord
  tzAttr : Option String := none
  deriving DecidableEq, Repr

/-- datastructures.py 156-162: the `tz` property. -/
def TPoint.tz (p : TPoint) : String := p.tzAttr.getD "UTC"

/-- An argument given for the time: a number, a text, another `TimePoint`, or anything `float()` refuses
(`None` included). -/
inductive TArg where
  | num (x : ℚ)
  | text (s : String)
  | point (p : TPoint)
  | other
  deriving DecidableEq, Repr

/-- The keyword arguments of a call: `t`, `dt` (an aware datetime, as its epoch and its zone), `tz`, and
the names of all the others.  Naive datetimes are not modelled. -/
structure Kwargs where
  t : Option TArg := none
  dt : Option (ℚ × String) := none
  tz : Option String := none
  extra : List String := []
  deriving DecidableEq, Repr

/-- datastructures.py 34-47: `Point.__init__` with one coordinate; `numeric s` says if `float(s)`
succeeds on the text `s`. -/
def pointInit (numeric : String → Bool) : TArg → Except PyErr Coord
  | .num x => .ok (.num x)
  | .text s => if numeric s then .ok (.text s) else .error .exception
  | .point _ => .error .exception
  | .other => .error .exception

/-- datastructures.py 99-100: the zone asked for, an empty name being none -/
def Kwargs.zone (kw : Kwargs) : Option String :=
  match kw.tz with
  | some z => if z = "" then none else some z
  | none => none

/-- datastructures.py 142: the call of `Point.__init__` which ends `TimePoint.__init__` -/
def finishPoint (numeric : String → Bool) (a : TArg) (tz : Option String) : Except PyErr TPoint :=
  match pointInit numeric a with
  | .ok c => .ok ⟨c, tz⟩
  | .error e => .error e

/-- datastructures.py 96-143: `TimePoint(*args, **kwargs)`.  With no argument, or only with keyword
arguments other than `t` and `dt`, the variable `t` is never assigned (`UnboundLocalError`, here
`exception`).  A keyword argument, even an unknown one, makes the positional ones ignored; `tz` is
overwritten when a point is copied (136-138); an empty time zone name is not used (99). -/
def timePoint (numeric : String → Bool) (args : List TArg) (kw : Kwargs) : Except PyErr TPoint :=
  if kw.t.isSome || kw.dt.isSome || !kw.extra.isEmpty then
    match kw.t, kw.dt with
    | some a, _ => finishPoint numeric a kw.zone
    | none, some (x, z) =>
      match kw.zone with
      | some z0 => finishPoint numeric (.num x) (some z0)
      | none => finishPoint numeric (.num x) (if z = "UTC" then none else some z)
    | none, none => .error .exception
  else match args with
    | [] => .error .exception
    | [.point p] =>
      match p.coord with
      | .num x => finishPoint numeric (.num x) (some p.tz)
      | .text s => finishPoint numeric (.text s) (some p.tz)
    | [a] => finishPoint numeric a kw.zone
    | _ => .error .exception

/-- How `data_indexes` was given to the constructor of a point or slot with data: not at all, as `None`,
as the dictionary at an address, or as something else. -/
inductive IdxArg where
  | absent
  | null
  | dict (a : ℕ)
  | other
  deriving DecidableEq, Repr

/-- datastructures.py 189-217 and 489-517: the data indexes of a new item.  A new dictionary is made only
if none was given; the data loss is then written into it, whoever it belongs to. -/
def itemIndexes (h : Heap) (given : IdxArg) (loss : Option (Option ℚ)) : Heap × Except PyErr ℕ :=
  let put (h : Heap) (a : ℕ) : Heap × Except PyErr ℕ :=
    match loss with
    | none => (h, .ok a)
    | some v => (h.storeIdx a (fun d => d.set "data_loss" v), .ok a)
  match given with
  | .absent => put (h.allocIdx []) h.idx.length
  | .null => put (h.allocIdx []) h.idx.length
  | .dict a => put h a
  | .other => (h, .error .valueError)

/-- A new `DataTimePoint`: the point and the address of its data indexes. -/
structure NewPoint where
  point : TPoint
  data : Data
  iA : ℕ
  deriving DecidableEq, Repr

/-- datastructures.py 187-221: `DataTimePoint(*args, data=…, data_indexes=…, data_loss=…, **kwargs)`: the
data and the indexes first, the point after. -/
def dataTimePoint (numeric : String → Bool) (h : Heap) (args : List TArg) (kw : Kwargs)
    (data : Option Data) (given : IdxArg) (loss : Option (Option ℚ)) : Heap × Except PyErr NewPoint :=
  match data with
  | none => (h, .error .exception)
  | some d =>
    match itemIndexes h given loss with
    | (h', .error e) => (h', .error e)
    | (h', .ok a) =>
      match timePoint numeric args kw with
      | .error e => (h', .error e)
      | .ok p => (h', .ok ⟨p, d, a⟩)

/-- what `item.data_indexes` reads, `item.data_loss` being the entry of that name (252-258) -/
def NewPoint.indexes (h : Heap) (x : NewPoint) : Idx := (h.idx[x.iA]?).getD []

/-- The external calendar, with a number of times: `TimeUnit.shift(dt, times)` on a timestamp read in a
time zone.  Only its behaviour on physical units is assumed. -/
structure Shifter where
  shift : TUnit → String → Int → ℚ → ℚ
  physical : ∀ u tz n t, u.Physical → shift u tz n t = t + n * u.secs

/-- such a calendar exists -/
def physicalShifter : Shifter where
  shift u _ n t := t + n * u.secs
  physical := by intros; rfl

/-- units.py 156-162 and 175-181: `point + unit` (`times = 1`) and `point - unit` (`times = -1`) for a
point with a numeric coordinate: a new `TimePoint` made from the shifted datetime, whose zone is that of
the point. -/
def pointShift (sh : Shifter) (p : TPoint) (u : TUnit) (times : Int) : Except PyErr TPoint :=
  match p.coord with
  | .num x => timePoint (fun _ => false) [] { dt := some (sh.shift u p.tz times x, p.tz) }
  | .text _ => .error .typeError

/-! ## Slots -/

/-- datastructures.py 407-433: `TimeSlot(start, end, unit, **kwargs)`: the shortcuts `t` and `dt` replace
the start, `tz` is used only with them, and every other keyword argument is ignored.  `start` is `none`
when it is not given.  Points with a text coordinate are refused here (the comparison and the shift
would fail later), a simplification. -/
def timeSlot (cal : Calendar) (numeric : String → Bool) (start stop : Option TPoint)
    (unit : Option TUnit) (kw : Kwargs) : Except PyErr Item :=
  let start1 : Except PyErr (Option TPoint) :=
    match kw.t with
    | none => .ok start
    | some .other => .ok start          -- `t=None`, 416
    | some a => match timePoint numeric [] { t := some a, tz := kw.tz } with
      | .ok p => .ok (some p)
      | .error e => .error e
  match start1 with
  | .error e => .error e
  | .ok start1 =>
    let start2 : Except PyErr (Option TPoint) :=
      match kw.dt with
      | none => .ok start1
      | some d => match timePoint numeric [] { dt := some d, tz := kw.tz } with
        | .ok p => .ok (some p)
        | .error e => .error e
    match start2 with
    | .error e => .error e
    | .ok none => .error .typeError     -- 318-319
    | .ok (some p) =>
      match p.coord, stop with
      | .num x, none => mkTimeSlot cal (x, p.tz) none unit
      | .num x, some q =>
        match q.coord with
        | .num y => mkTimeSlot cal (x, p.tz) (some (y, q.tz)) unit
        | .text _ => .error .typeError
      | .text _, _ => .error .typeError

/-- A slot as an object: the addresses of its start and end points and its `tz` attribute. -/
structure SlotObj where
  start : ℕ
  stop : ℕ
  tz : String
  deriving DecidableEq, Repr

/-- The point objects: timestamp and time zone, addresses being positions. -/
abbrev Points := List TP

/-- datastructures.py 147-149 (`TimePoint.change_tz`) on the object at an address -/
def Points.changeTz (ps : Points) (a : ℕ) (z : String) : Points := ps.modify a (fun p => (p.1, z))

/-- datastructures.py 446-450: `TimeSlot.change_tz` changes the point objects in place. -/
def SlotObj.changeTz (ps : Points) (s : SlotObj) (z : String) : Points × SlotObj :=
  ((ps.changeTz s.start z).changeTz s.stop z, { s with tz := z })

/-- datastructures.py 1377-1381: `TimeSeries.change_tz` on the slot objects of a series, one after the
other. -/
def changeTzAll (z : String) : Points → List SlotObj → Points × List SlotObj
  | ps, [] => (ps, [])
  | ps, s :: r =>
    let one := s.changeTz ps z
    let rest := changeTzAll z one.1 r
    (rest.1, one.2 :: rest.2)

/-! ## Data by label -/

/-- Python's `int(text)` for ASCII texts: blanks around, an optional sign, decimal digits.  Underscores
and other scripts are not modelled. -/
def pyIntText (k : String) : Option Int :=
  let blank : Char → Bool := fun c => c = ' ' || c = '\t' || c = '\n' || c = '\r'
  let body := ((k.toList.dropWhile blank).reverse.dropWhile blank).reverse
  match body with
  | [] => none
  | c :: r =>
    if c = '-' then (if r = [] then none else (readDigits 0 r).map (fun n => -(n : Int)))
    else if c = '+' then (if r = [] then none else (readDigits 0 r).map (fun n => (n : Int)))
    else (readDigits 0 (c :: r)).map (fun n => (n : Int))

/-- datastructures.py 270-278 and 569-577: `_data_by_label`.  On a list the label is turned into an
integer, which Python accepts as a position also if it is negative; on a number, `int(label)` is
computed (and may raise `ValueError`) before the number is found not to be subscriptable. -/
def dataByLabelPy : Data → String → Except PyErr ℚ
  | .dict d, k => match d.get? k with
    | some v => .ok v
    | none => .error .keyError
  | .list l, k => match pyIntText k with
    | none => .error .valueError
    | some i => match pyPos l.length i with
      | none => .error .indexError
      | some j => match l[j]? with
        | some v => .ok v
        | none => .error .indexError
  | .num _, k => match pyIntText k with
    | none => .error .valueError
    | some _ => .error .typeError

end Timeseria
