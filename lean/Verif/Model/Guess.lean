import Verif.Model.Series
import Verif.Model.Utilities

/-! # Guessing the resolution (datastructures.py 1394-1471)

`k` bounds the iterations of the unbounded loop of the detection (`Verif.Model.Utilities`); `none` as an outcome
means that it did not terminate within them.  `unitOf` is `TimeUnit(_to_time_unit_string(interval))`, `none` when it
raises an exception (`spacingUnit` of `Verif.Model.TimeUnitString` is its model for intervals of at most seven decimals). -/

namespace Timeseria

/-- A series with the cached sampling interval and its confidence (1394-1414), and the guessed resolution (1453). -/
structure GSeries where
  s : TSeries := {}
  interval : Option (ℚ × ℚ) := none
  guessed : Option TUnit := none
  deriving DecidableEq, Repr

/-- `append`: the attempt to delete the cached values (1267-1273) has no effect, see `CachedSeries` -/
def GSeries.append (g : GSeries) (x : Item) : GSeries × Outcome :=
  ({ g with s := (g.s.append x).1 }, (g.s.append x).2)

/-- several appends, stopping at the first exception -/
def GSeries.appendAll (g : GSeries) : List Item → GSeries × Outcome
  | [] => (g, .ok ())
  | x :: r =>
    match (g.append x).2 with
    | .error e => ((g.append x).1, .error e)
    | .ok _ => GSeries.appendAll (g.append x).1 r

/-- `_autodetected_sampling_interval`, and its confidence, of a series of points (1394-1414) -/
def GSeries.sampling (k : ℕ) (g : GSeries) : Option (GSeries × Except PyErr (ℚ × ℚ)) :=
  match g.interval with
  | some v => some (g, .ok v)
  | none =>
    match detectSampling k (g.s.items.map Item.t) with
    | none => none
    | some (.error e) => some (g, .error e)
    -- no differences at all: the detection has failed before
    | some (.ok (none, _)) => some (g, .error .exception)
    | some (.ok (some d, c)) => some ({ g with interval := some (d, c) }, .ok (d, c))

/-- what `guess_resolution(confidence=…)` returns: the resolution, and the confidence if asked -/
structure Guess where
  value : TUnit
  confidence : Option ℚ
  deriving DecidableEq, Repr

/-- the `finally` block (1455-1459), which returns, or raises an `AttributeError` in place of any exception before it -/
def GSeries.guessFinally (k : ℕ) (conf : Bool) (g : GSeries) : Option (GSeries × Except PyErr Guess) :=
  match g.guessed with
  | none => some (g, .error .attributeError)
  | some u =>
    if conf then
      match g.sampling k with
      | none => none
      | some (g', .error e) => some (g', .error e)
      | some (g', .ok v) => some (g', .ok ⟨u, some v.2⟩)
    else some (g, .ok ⟨u, none⟩)

/-- `guess_resolution(confidence)` (1435-1459).  The class of the items of an empty series is `None`, which `issubclass`
does not accept (1442). -/
def GSeries.guess (unitOf : ℚ → Option TUnit) (k : ℕ) (conf : Bool) (g : GSeries) : Option (GSeries × Except PyErr Guess) :=
  match g.s.items with
  | [] => some (g, .error .typeError)
  | [x] => if x.isSlot then some (g, .error .notImplemented) else some (g, .error .valueError)
  | x :: _ :: _ =>
    if x.isSlot then some (g, .error .notImplemented)
    else if g.s.res ≠ .varying then some (g, .error .valueError)
    else
      match g.guessed with
      | some _ => g.guessFinally k conf
      | none =>
        match g.sampling k with
        | none => none
        | some (g', .error _) => g'.guessFinally k conf
        | some (g', .ok v) =>
          match unitOf v.1 with
          | none => g'.guessFinally k conf
          | some u => { g' with guessed := some u }.guessFinally k conf

end Timeseria
