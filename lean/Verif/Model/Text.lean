import Verif.Model.Basic
import Mathlib.Data.List.DropRight

/-! # Text values: sanitizing and conversion (utilities.py 916-952)

Text is a list of characters. -/

namespace Timeseria

abbrev Text := List Char

/-- white space (`\s` and `str.strip()`), ASCII only -/
def isBlank (c : Char) : Bool := c == ' ' || c == '\t' || c == '\n' || c == '\r' || c == '\x0b' || c == '\x0c'

/-- `re.sub('\s+', ' ', s)`; the flag says whether the previous character was a blank -/
def collapse : Bool → Text → Text
  | _, [] => []
  | after, c :: r =>
    if isBlank c then (if after then collapse true r else ' ' :: collapse true r)
    else c :: collapse false r

/-- `s.strip()` -/
def stripText (s : Text) : Text := (s.dropWhile isBlank).rdropWhile isBlank

def isQuote (c : Char) : Bool := c == '\'' || c == '"'

/-- one leading quote is removed (920-921) -/
def dropQuote : Text → Text
  | [] => []
  | c :: r => if isQuote c then r else c :: r

/-- one trailing quote is removed (922-923) -/
def dropLastQuote (s : Text) : Text :=
  match s.getLast? with
  | some c => if isQuote c then s.dropLast else s
  | none => s

/-- `s.lower().replace('.', '')` (925) -/
def placeholderKey (s : Text) : Text := (s.map Char.toLower).filter (fun c => c != '.')

/-- `NO_DATA_PLACEHOLDERS` (storages.py 20) -/
def noDataPlaceholders : List Text :=
  ["na".toList, "nan".toList, "null".toList, "nd".toList, "undef".toList]

/-- the text without outer blanks and quotes (919-924) -/
def cleaned (s : Text) : Text := stripText (dropLastQuote (dropQuote (stripText (collapse false s))))

/-- `_sanitize_string(string, no_data_placeholders)` (utilities.py 916-927) -/
def sanitize (ph : List Text) (s : Text) : Option Text :=
  if placeholderKey (cleaned s) ∈ ph then none else some (cleaned s)

/-- The conversions done by Python and by external libraries: `fmt` is `str(number)`, `parse` is `float(text)`, `stamp`
is `dt_from_str(text)` moved to epoch seconds (with the time zone of the storage if it has none).  Assumed: a
number written as text and read back is the same number (true of Python floats), its text consists of digits,
signs, `.` and `e`, `None` is not a number, and `epoch` is neither a number nor a time. -/
structure Codec where
  fmt : ℚ → Text
  parse : Text → Option ℚ
  stamp : Text → Option ℚ
  parse_fmt : ∀ x, parse (fmt x) = some x
  fmt_chars : ∀ x, ∀ c ∈ fmt x, c ∈ "0123456789+-.e".toList
  fmt_ne : ∀ x, fmt x ≠ []
  none_text : parse "None".toList = none
  epoch_text : parse "epoch".toList = none ∧ stamp "epoch".toList = none

/-- `s.replace(',', '.')` (945-946) -/
def commaToDot (s : Text) : Text := s.map (fun c => if c = ',' then '.' else c)

/-- `label and label.startswith('__')` (951) -/
def isIndexLabel : Option String → Bool
  | none => false
  | some l => l.toList.take 2 == ['_', '_']

/-- `_to_float(string, no_data_placeholders, label)` (utilities.py 940-952); the value `none` is Python's `None` -/
def toFloat (cd : Codec) (ph : List Text) (s : Text) (label : Option String) : Except PyErr (Option ℚ) :=
  match (sanitize ph s).bind (fun x => cd.parse (commaToDot x)) with
  | some v => .ok (some v)
  | none => if isIndexLabel label then .ok none else .error .floatConversion

end Timeseria
