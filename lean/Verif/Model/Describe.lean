import Verif.Model.Guess

/-! # The description of a series (datastructures.py 1190-1199, 1461-1471)

What `print(series)` shows, with its parts as values: the texts of numbers, dates and units are not modelled.  `unitOf` and `k` are as in `Verif.Model.Guess`. -/

namespace Timeseria

/-- `_resolution_string` (1461-1471): `undefined resolution`, `variable resolution (~u)`, `u resolution` -/
inductive ResText where
  | undefined
  | about (u : TUnit)
  | every (u : TUnit)
  deriving DecidableEq, Repr

/-- the sentence (1190-1199): the number of the items, the resolution, and the time and the time zone of the first and the last one -/
inductive Description where
  | empty
  | points (n : ℕ) (res : ResText) (first last : ℚ × String)
  | slots (n : ℕ) (res : Res) (first last : ℚ × String)
  deriving DecidableEq, Repr

/-- the time and the zone of an item, or of the start of a slot -/
def Item.where_ (x : Item) : ℚ × String := (x.t, x.tz)

/-- `_resolution_string` of a series of points (1461-1471): the unit of a sampling interval which cannot be read as a unit raises `ValueError` -/
def GSeries.resText (unitOf : ℚ → Option TUnit) (k : ℕ) (g : GSeries) : Option (GSeries × Except PyErr ResText) :=
  match g.s.res with
  | .unset => some (g, .ok .undefined)
  | .unit u => some (g, .ok (.every u))
  | .varying =>
    match g.sampling k with
    | none => none
    | some (g', .error e) => some (g', .error e)
    | some (g', .ok v) =>
      match unitOf v.1 with
      | none => some (g', .error .valueError)
      | some u => some (g', .ok (.about u))

/-- `TimeSeries.__repr__` (1190-1199) -/
def GSeries.describe (unitOf : ℚ → Option TUnit) (k : ℕ) (g : GSeries) : Option (GSeries × Except PyErr Description) :=
  match g.s.items.head?, g.s.items.getLast? with
  | some x, some y =>
    if x.isSlot then some (g, .ok (.slots g.s.items.length g.s.res x.where_ y.where_))
    else match g.resText unitOf k with
      | none => none
      | some (g', .error e) => some (g', .error e)
      | some (g', .ok r) => some (g', .ok (.points g.s.items.length r x.where_ y.where_))
  | _, _ => some (g, .ok .empty)

end Timeseria
