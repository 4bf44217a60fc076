import Verif.Model.Transform
import Verif.Model.Ops
import Verif.Model.Utilities
import Verif.Model.Text

/-! # `series.resample(unit)` and `series.aggregate(unit)`, from series to series (transformations.py 379-760,
datastructures.py 1042-1052) -/

namespace Timeseria

/-! ## The constructor of the resampler (transformations.py 704-719) -/

/-- One component of a time unit as written by `str(unit)`: an amount and a letter (`Y`, `M`, `W`, `D` for the
calendar ones, `h`, `m`, `s` for the physical ones). -/
structure UnitPart where
  amount : ℕ
  letter : Char
  deriving DecidableEq, Repr

/-- `str(unit)` (propertime, external; the form is the one of tests/test_units.py 60-121: the components, largest
first, joined by underscores).  Fractions of a second are left out. -/
def unitText (l : List UnitPart) : Text :=
  match l with
  | [] => []
  | p :: r => natStr p.amount ++ [p.letter] ++ r.flatMap (fun q => '_' :: (natStr q.amount ++ [q.letter]))

/-- `''.join([char for char in str(self.time_unit) if not char.isdigit()])` (712) -/
def unitType (s : Text) : Text := s.filter (fun c => !c.isDigit)

/-- `Resampler(unit)` (704-719): the outcome of the check on the unit -/
def resamplerInit (s : Text) : Outcome :=
  if unitType s = ['Y'] ∨ unitType s = ['M'] ∨ unitType s = ['D'] then .error .valueError else .ok ()

/-- `Aggregator(unit, operations)` (731-753), for operations given as functions -/
def aggregatorInit (ops : List SlotOp) : Except PyErr (List SlotOp) :=
  if ops.isEmpty then .error .valueError else .ok ops

/-! ## `process` on a series (transformations.py 385-694) -/

/-- the data of an item, if they are a dictionary -/
def Item.dictOf (x : Item) : Option (Dict ℚ) :=
  match x.data with
  | some (.dict d) => some d
  | _ => none

/-- The points of the series as seen by the transformation; the validity is attached later.  `none` if some data are
not a dictionary (not modelled). -/
def vpoints : List Item → Option (List VPoint)
  | [] => some []
  | x :: r =>
    match x.dictOf, vpoints r with
    | some d, some ps => some ({ t := x.t, vf := 0, vt := 0, data := d, idx := x.idx } :: ps)
    | _, _ => none

/-- a value given for `start` or `end`: an epoch or a `datetime` (with its zone) -/
inductive TimeBound where
  | num (t : ℚ)
  | dt (t : ℚ) (zone : String)
  deriving DecidableEq, Repr

/-- An explicit start or end (412-440, 463-471): an epoch is turned into a `datetime` in UTC, and the value must be
equal to itself rounded to the unit, *in the zone of the datetime*; an epoch of zero counts as not given
(`none`).  `clk z` is the time unit on the calendar of the zone `z`. -/
def explicitBound (clk : String → Grid) : Option TimeBound → Option (Except PyErr ℚ)
  | none => none
  | some (.num t) => if t = 0 then none else some (if (clk "UTC").onGrid t then .ok t else .error .valueError)
  | some (.dt t z) => some (if (clk z).onGrid t then .ok t else .error .valueError)

/-- the options of `process` -/
structure Opts where
  start : Option TimeBound := none
  stop : Option TimeBound := none
  validity : Option ℚ := none
  fillWith : Option ℚ := none
  forceLoss : Option ℚ := none

/-- the start, from the first timestamp if not given (433-461) -/
def frontFrom (clk : String → Grid) (z : String) (tg : Target) (b : Option TimeBound) (t0 : ℚ) : Except PyErr ℚ :=
  match explicitBound clk b with
  | some r => r
  | none => processFrom (clk z) tg none t0

/-- the end, from the last timestamp if not given (463-490) -/
def frontTo (clk : String → Grid) (b : Option TimeBound) (tl : ℚ) : Except PyErr ℚ :=
  match explicitBound clk b with
  | some r => r
  | none => .ok tl

/-- The validity (496-503): the given value, or the detected sampling interval (of a series never asked for it
before).  Comparing `None` with a number is a `TypeError`.  Outer `none`: the detection did not end within `n`
rounds. -/
def frontValidity (n : ℕ) (v : Option ℚ) (ts : List ℚ) : Option (Except PyErr ℚ) :=
  match v with
  | some x => some (.ok x)
  | none =>
    match detectSampling n ts with
    | none => none
    | some (.error e) => some (.error e)
    | some (.ok (none, _)) => some (.error .typeError)
    | some (.ok (some x, _)) => some (.ok x)

/-- the loop over the points (517-694) once start, end and validity are known -/
def processRange (g : Grid) (tg : Target) (c : Settings) (unit : TUnit) (ops : List SlotOp) (fromT toT : ℚ)
    (ps : List VPoint) : Except PyErr (List Item × Work) :=
  runJobs (match tg with | .points => computePoint c | .slots => computeSlot c unit ops)
    (processJobs g (ps.map VPoint.t) fromT toT)
    { ps := attach ps (regionsLoop c.si none none false none (ps.map VPoint.t)), ws := ps.map (fun _ => none) } []

/-- the settings taken from the series (529-531) -/
def frontSettings (s : TSeries) (ks : List String) (z : String) (o : Opts) (si : ℚ) : Settings where
  ks := ks
  si := si
  hasRes := decide (s.res ≠ .unset)
  names := allDataIndexes s.items
  forceLoss := o.forceLoss
  fillWith := o.fillWith
  tz := z

/-- the loop, then the new series; simplification: the items are all computed before being appended to it -/
def frontRun (g : Grid) (tg : Target) (c : Settings) (unit : TUnit) (ops : List SlotOp) (f t : ℚ) (ps : List VPoint) :
    Except PyErr TSeries :=
  match processRange g tg c unit ops f t ps with
  | .error e => .error e
  | .ok r => TSeries.build r.1

/-- `process` after the argument checks -/
def frontProcess (clk : String → Grid) (n : ℕ) (tg : Target) (unit : TUnit) (ops : List SlotOp) (o : Opts) (s : TSeries)
    (ks : List String) (z : String) (ps : List VPoint) : Option (Except PyErr TSeries) :=
  match frontFrom clk z tg o.start ((ps.head?.map VPoint.t).getD 0) with
  | .error e => some (.error e)
  | .ok f =>
    match frontTo clk o.stop ((ps.getLast?.map VPoint.t).getD 0) with
    | .error e => some (.error e)
    | .ok t =>
      match frontValidity n o.validity (ps.map VPoint.t) with
      | none => none
      | some (.error e) => some (.error e)
      | some (.ok si) => some (frontRun (clk z) tg (frontSettings s ks z o si) unit ops f t ps)

/-- `Transformation.process` on a series (385-694).  The checks of 389-403: on an empty series `item_type` is `None`
and `issubclass(None, Point)` a `TypeError`.  `none` stands for what is not modelled: data that are not
dictionaries or are empty, and a detection of the sampling interval that does not end in `n` rounds.
`include_extremes` and values of `start` and `end` of other types are left out. -/
def TSeries.process (clk : String → Grid) (n : ℕ) (tg : Target) (unit : TUnit) (ops : List SlotOp) (o : Opts)
    (s : TSeries) : Option (Except PyErr TSeries) :=
  match s.items with
  | [] => some (.error .typeError)
  | x :: _ =>
    if x.isSlot = true ∨ x.data.isNone = true then some (.error .typeError)
    else
      match s.getTz, vpoints s.items, s.labelsFrom x with
      | some z, some ps, .ok ks => frontProcess clk n tg unit ops o s ks z ps
      | _, _, _ => none

/-- `series.resample(unit)` (datastructures.py 1048-1052): `txt` is `str(unit)` -/
def TSeries.resample (clk : String → Grid) (n : ℕ) (txt : Text) (unit : TUnit) (s : TSeries) : Option (Except PyErr TSeries) :=
  match resamplerInit txt with
  | .error e => some (.error e)
  | .ok _ => s.process clk n .points unit [] {}

/-- `series.aggregate(unit, operations)` (datastructures.py 1042-1046) -/
def TSeries.aggregate (clk : String → Grid) (n : ℕ) (unit : TUnit) (ops : List SlotOp) (s : TSeries) :
    Option (Except PyErr TSeries) :=
  match aggregatorInit ops with
  | .error e => some (.error e)
  | .ok l => s.process clk n .slots unit l {}

end Timeseria
