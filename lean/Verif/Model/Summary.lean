import Verif.Model.Access

/-! # The summary of a series (datastructures.py 1059-1119)

The text of the series itself (`str(self)`, the header) and of an item (`str(item)`) are parameters. -/

namespace Timeseria

/-- `str(self)` and `str(item)` -/
structure Texts where
  header : String
  ofItem : Item → String

/-- the limit is `None` or zero (1064: `not limit`) -/
def noLimit : Option Int → Bool
  | none => true
  | some L => decide (L = 0)

/-- the loop over all the items (1066-1075); `n` is the length of the series -/
def allLoop (limit : Option Int) (n : ℕ) : ℕ → List String → String
  | _, [] => ""
  | i, x :: r =>
    if !noLimit limit && decide (limit.getD 0 ≤ i) then ""
    else if i = 0 then x ++ ",\n" ++ allLoop limit n (i + 1) r
    else if i + 1 = n then " " ++ x ++ allLoop limit n (i + 1) r
    else " " ++ x ++ ",\n" ++ allLoop limit n (i + 1) r

/-- how many items are taken at the beginning (1077-1084); `int(limit/2)` truncates -/
def headCount (L : Int) : Int :=
  if L = 1 then 1 else if L % 2 = 0 then L.tdiv 2 else L.tdiv 2 + 1

/-- how many items are taken at the end (1077-1085) -/
def tailCount (L : Int) : Int := if L = 1 then 0 else L.tdiv 2

/-- the loop over the first items (1087-1091) -/
def headLoop : ℕ → List String → String
  | _, [] => ""
  | i, x :: r => (if i = 0 then x ++ ",\n" else " " ++ x ++ ",\n") ++ headLoop (i + 1) r

/-- the loop over the last items (1095-1099) -/
def tailLoop (m : Int) : ℕ → List String → String
  | _, [] => ""
  | i, x :: r => (if (i : Int) = m - 1 then " " ++ x else " " ++ x ++ ",\n") ++ tailLoop m (i + 1) r

/-- what `_summary(limit)` writes between the brackets (1064-1099) -/
def TSeries.summaryBody (s : TSeries) (txt : Texts) (limit : Option Int) : Except PyErr String :=
  let n := s.items.length
  match limit with
  | none => .ok (allLoop limit n 0 (s.items.map txt.ofItem))
  | some L =>
    if noLimit limit || decide (L > n) then .ok (allLoop limit n 0 (s.items.map txt.ofItem))
    else match s.head (headCount L) with
      | .error e => .error e
      | .ok hs =>
        let dots := if L < n then " ...\n" else ""
        if tailCount L ≠ 0 then
          match s.tail (tailCount L) with
          | .error e => .error e
          | .ok ts => .ok (headLoop 0 (hs.map txt.ofItem) ++ dots ++ tailLoop (tailCount L) 0 (ts.map txt.ofItem))
        else .ok (headLoop 0 (hs.map txt.ofItem) ++ dots)

/-- `summary(limit, newlines=True)` (1059-1102) -/
def TSeries.summary (s : TSeries) (txt : Texts) (limit : Option Int) : Except PyErr String :=
  match s.summaryBody txt limit with
  | .error e => .error e
  | .ok b => .ok (txt.header ++ ":\n\n" ++ "[" ++ b ++ "]")

end Timeseria
