import Verif.Model.Basic

/-! # From a spacing in seconds to a time unit, at the level of characters -/

namespace Timeseria

/-- the character of a decimal digit -/
def digitChar (d : ℕ) : Char :=
  match d with
  | 0 => '0' | 1 => '1' | 2 => '2' | 3 => '3' | 4 => '4'
  | 5 => '5' | 6 => '6' | 7 => '7' | 8 => '8' | _ => '9'

/-- decimal digits of a natural number, most significant first (`str(int)`) -/
def natStrAux : ℕ → ℕ → List Char
  | 0, _ => []
  | f + 1, n => if n < 10 then [digitChar n] else natStrAux f (n / 10) ++ [digitChar (n % 10)]

/-- `str(n)` (the recursion needs at most `n + 1` steps) -/
def natStr (n : ℕ) : List Char := natStrAux (n + 1) n

/-- drop the trailing zeros -/
def stripZeros (l : List Char) : List Char := (l.reverse.dropWhile (· == '0')).reverse

/-- `m` written with exactly `k` digits, most significant first -/
def padDigits : ℕ → ℕ → List Char
  | 0, _ => []
  | k + 1, m => padDigits k (m / 10) ++ [digitChar (m % 10)]

/-- `str(n / 10000000)` for the float `n / 10000000` with `1000 ≤ n`: integer part, dot, fractional
digits without trailing zeros but at least one.  (Python switches to exponent notation below
`1e-4` and from `1e16` on: the first is excluded by `spacingUnit`, the second is not modelled.) -/
def floatStr (n : ℕ) : List Char :=
  let f := stripZeros (padDigits 7 (n % 10000000))
  natStr (n / 10000000) ++ ['.'] ++ (if f.isEmpty then ['0'] else f)

/-- `s.replace('.0', '')` -/
def replaceDotZero : List Char → List Char
  | [] => []
  | [c] => [c]
  | a :: b :: r => if a = '.' ∧ b = '0' then replaceDotZero r else a :: replaceDotZero (b :: r)

/-- `_to_time_unit_string(seconds, friendlier=True)` (utilities.py 956-971), from the string
representation of the seconds. -/
def toTimeUnitString (secondsStr : List Char) : List Char :=
  let s := replaceDotZero secondsStr
  if s = ['6', '0'] then ['1', 'm']
  else if s = ['6', '0', '0'] then ['1', '0', 'm']
  else if s = ['3', '6', '0', '0'] then ['1', 'h']
  else s ++ ['s']

/-- value of a decimal digit character -/
def digitVal (c : Char) : Option ℕ :=
  match c with
  | '0' => some 0 | '1' => some 1 | '2' => some 2 | '3' => some 3 | '4' => some 4
  | '5' => some 5 | '6' => some 6 | '7' => some 7 | '8' => some 8 | '9' => some 9
  | _ => none

/-- read digits, most significant first, with accumulator -/
def readDigits (acc : ℕ) : List Char → Option ℕ
  | [] => some acc
  | c :: r => match digitVal c with
    | some d => readDigits (acc * 10 + d) r
    | none => none

/-- `float(text)` for unsigned decimal notation with at most one dot -/
def readDecimal (l : List Char) : Option ℚ :=
  match l.span (· ≠ '.') with
  | (ip, []) => if ip.isEmpty then none else (readDigits 0 ip).map (fun n => (n : ℚ))
  | (ip, _ :: fp) =>
    if ip.isEmpty || fp.isEmpty then none else
    match readDigits 0 ip, readDigits 0 fp with
    | some a, some b => some (a + b / 10 ^ fp.length)
    | _, _ => none

/-- `TimeUnit(string)` for a single value followed by one of the letters `s`, `m`, `h`
(units.py 112-155; the parsing itself is done by the external `propertime.TimeSpan`).  Result in
seconds. -/
def readTimeUnit (l : List Char) : Option ℚ :=
  match l.reverse with
  | [] => none
  | u :: r =>
    let v := readDecimal r.reverse
    match u with
    | 's' => v
    | 'm' => v.map (· * 60)
    | 'h' => v.map (· * 3600)
    | _ => none

/-- `int(d * 10000000)` for a positive `d` (truncation) -/
def tenthsOfMicro (d : ℚ) : ℕ := (d * 10000000).floor.toNat

/-- The time unit set as the resolution for a first spacing `d` (datastructures.py 1256-1258):
`time_diff = int(d*10000000)/10000000` then `TimeUnit(_to_time_unit_string(time_diff))`.
`none` stands for an exception: spacings below 0.1 ms are written in exponent notation (or as
`'0s'`), which is taken not to be readable as a time unit. -/
def spacingUnit (d : ℚ) : Option TUnit :=
  let n := tenthsOfMicro d
  if n < 1000 then none
  else (readTimeUnit (toTimeUnitString (floatStr n))).map TUnit.ofSecs

end Timeseria
