import Verif.Model.Storage
import Verif.Model.Models
import Verif.Model.Utilities

/-! # `TimeSeries.save` and `TimeSeries.load` (datastructures.py 1478-1517, storages.py 750-763)

The comment lines that `put` writes are spelt out here; the text after `Generated by ... at` (the clock) and after
`Time series of #` (the summary) is arbitrary.  The metadata line is read as far as `put` writes it: other JSON texts
are not modelled. -/

namespace Timeseria

/-- the metadata of a saved series -/
structure SMeta where
  kind : SKind
  tz : String
  res : String
  deriving DecidableEq, Repr

def SKind.text : SKind → Text
  | .points => "points".toList
  | .slots => "slots".toList

/-- `{"type": "points", "tz": "UTC", "resolution": "1h"}` (storages.py 755, 760): the pieces between the quotes -/
def SMeta.text (m : SMeta) : Text :=
  joinSep '"' ["{".toList, "type".toList, ": ".toList, m.kind.text, ", ".toList, "tz".toList, ": ".toList, m.tz.toList,
    ", ".toList, "resolution".toList, ": ".toList, m.res.toList, "}".toList]

/-- `json.loads` on such a text, with the blanks around it that the line has -/
def readMeta (x : Text) : Option SMeta :=
  match splitSep '"' x with
  | [_, _, _, k, _, _, _, tz, _, _, _, res, _] =>
    if k = "points".toList then some ⟨.points, String.ofList tz, String.ofList res⟩
    else if k = "slots".toList then some ⟨.slots, String.ofList tz, String.ofList res⟩
    else none
  | _ => none

/-- the kind of the series for `put` (751, 756) -/
def TSeries.skind (s : TSeries) : SKind :=
  match s.items with
  | x :: _ => if x.isSlot then .slots else .points
  | [] => .points

/-- the metadata written (755, 760): `str(series.tz)` and `str(series.resolution)` -/
def TSeries.smeta (uc : UnitCodec) (s : TSeries) : SMeta :=
  ⟨s.skind, s.getTz.getD "None", uc.writeRes s.res⟩

/-- the comment lines of `put` (751-760) -/
def saveNotes (uc : UnitCodec) (now summary : Text) (s : TSeries) : Notes :=
  { stamp := "Generated by Timeseria CSVFileStorage at ".toList ++ now
    summary := "Time series of #".toList ++ summary
    extra := "Extra parameters: ".toList ++ (s.smeta uc).text }

/-- `series.save(file_name, overwrite)` (1513-1517) -/
def TSeries.saveCsv (cd : Codec) (uc : UnitCodec) (now summary : Text) (s : TSeries) (overwrite : Bool)
    (file : Option (List Text)) : Option (List Text) × Outcome :=
  csvPut cd (saveNotes uc now summary s) s overwrite file

/-- the beginning of the metadata line (1486) -/
def extraPrefix : Text := "# Extra parameters:".toList

/-- the loop looking for the metadata (1484-1489): up to the first line which is not a comment; the last one wins.
`JSONDecodeError` is a `ValueError`. -/
def scanMeta : List Text → Option SMeta → Except PyErr (Option SMeta)
  | [], m => .ok m
  | l :: r, m =>
    if "#".toList.isPrefixOf l then
      if extraPrefix.isPrefixOf l then
        match readMeta (l.drop extraPrefix.length) with
        | none => .error .valueError
        | some x => scanMeta r (some x)
      else scanMeta r m
    else .ok m

/-- `TimeSeries.load(file_name)` (1479-1505): a new storage with the default settings; the unit is converted in `get`
(storages.py 655-657), here before.  `detect` is `detect_sampling_interval`. -/
def loadCsv (cd : Codec) (uc : UnitCodec) (cal : Calendar) (detect : List ℚ → Except PyErr ℚ) (fuel : ℕ)
    (lines : List Text) : Except PyErr TSeries :=
  match scanMeta lines none with
  | .error e => .error e
  | .ok none => .error .valueError
  | .ok (some m) =>
    match m.kind with
    | .points => (csvGet cd cal detect fuel { tz := m.tz } {} { forcePoints := true } lines).map Prod.fst
    | .slots =>
      match uc.read m.res with
      | none => .error .valueError
      | some u =>
        (csvGet cd cal detect fuel { tz := m.tz } {} { forceSlots := true, forceUnit := some u } lines).map Prod.fst

/-- `load` called on `TimeSeries` or on a subclass of it (1507-1512): in the second case the series is built and
thrown away, and `None` is returned. -/
def loadAs (subclass : Bool) (r : Except PyErr TSeries) : Except PyErr (Option TSeries) :=
  match r with
  | .error e => .error e
  | .ok s =>
    if subclass then
      match TSeries.build s.items with
      | .error e => .error e
      | .ok _ => .ok none
    else .ok (some s)

/-- `detect_sampling_interval` as used by `get` (storages.py 567, utilities.py 86-139) on the sampled timestamps, when
slots are asked for: no interval at all (`None`) makes `TimeUnit('Nones')`, an error.  `k` iterations of the loop. -/
def detectStamps (k : ℕ) (ts : List ℚ) : Except PyErr ℚ :=
  if ts.length = 0 then .error .zeroDivision
  else
    match samplingLoop k ts.length (diffLoop none [] ts) with
    | none => .error .exception
    | some d =>
      match (mostCommonLoop (none, 0) d).1 with
      | none => .error .valueError
      | some x => .ok x

end Timeseria
