import Verif.Model.Storage

/-! # Reading a file in another time zone (storages.py 211-216, 420-424)

The text of a date and time may have no offset: it is then taken in the time zone of the reading (`tz.localize`, 420-423), so that the codec depends on the zone. -/

namespace Timeseria

/-- the codec of each zone: the numbers are read in the same way in all of them -/
structure ZonedCodec where
  codec : String → Codec
  parse_eq : ∀ z z' s, (codec z).parse s = (codec z').parse s

/-- the text has an offset, or is no date and time at all: it is the same instant in all zones -/
def ZonedCodec.Fixed (zc : ZonedCodec) (s : Text) : Prop := ∀ z z', (zc.codec z).stamp s = (zc.codec z').stamp s

/-- `CSVFileStorage.get(force_tz=…)`: the zone of the call if there is one, or else that of the storage (211-216); an empty name counts as none -/
def csvGetIn (zc : ZonedCodec) (cal : Calendar) (detect : List ℚ → Except PyErr ℚ) (fuel : ℕ) (cf : CsvConf) (st : CsvState) (force : Option String)
    (a : GetArgs) (lines : List Text) : Except PyErr (TSeries × CsvState) :=
  let z := match force with
    | none => cf.tz
    | some f => if f = "" then cf.tz else f
  csvGet (zc.codec z) cal detect fuel { cf with tz := z } st a lines

end Timeseria
