import Verif.Model.Storage

/-!
# Plots (plots.py 103-110, 139-356, 420-432, 437-478, 682-727)

The data handed to the plotting library: rows, column names, value range, mark.  The text formatting of
the numbers (full precision or two decimals) and of the timestamps, the Javascript and HTML, colors and
image rendering are left out.
-/

namespace Timeseria

/-- what the loop of `_to_dg_data` reads of an item: `item.t`, `item.end.t` (for points `item.t`), the values of
the labels to plot and those of the indexes (`none` for a missing index or one set to `None`) -/
structure PlotPt where
  t : ℚ
  e : ℚ
  vals : List ℚ
  idx : List (Option ℚ)
  deriving DecidableEq, Repr

/-- the data of an item for a label, or for the missing label of numerical data (plots.py 181-188, 296-299);
arithmetic on anything else is a `TypeError` -/
def plotValue (x : Item) : Option String → Except PyErr ℚ
  | some k => x.byLabel k
  | none => match x.data with
    | some (.num v) => .ok v
    | _ => .error .typeError

/-- the labels of the loop (plots.py 165-167) -/
def loopLabels (labels : List String) : List (Option String) :=
  if labels = [] then [none] else labels.map some

/-- reading an item (plots.py 176-188, 222-230, 294-299, 319-329) -/
def plotPt (labels indexes : List String) (x : Item) : Except PyErr PlotPt :=
  match mapE (plotValue x) (loopLabels labels) with
  | .error e => .error e
  | .ok vs => .ok { t := x.t, e := x.endT, vals := vs, idx := indexes.map (fun n => (x.idx.get? n).join) }

/-- a cell of an aggregated row: `[min, avg, max]` -/
structure PlotCell where
  min : Option ℚ
  avg : ℚ
  max : Option ℚ
  deriving DecidableEq, Repr

/-- a row of the plot data: timestamp, a cell for each label, and for each index either its value or null -/
inductive PlotRow where
  | aggregated (t : ℚ) (cells : List PlotCell) (idx : List ℚ)
  | plain (t : ℚ) (vals : List ℚ) (idx : List (Option ℚ))
  deriving DecidableEq, Repr

/-- the support variables of the aggregation (plots.py 144-149, 168-171): `first_t`, sums, minima and maxima by
label, sums by index -/
structure PlotAcc where
  firstT : Option ℚ
  sums : List ℚ
  mins : List (Option ℚ)
  maxs : List (Option ℚ)
  idxSums : List ℚ
  deriving DecidableEq, Repr

/-- the initial values, also set again after each dump (plots.py 168-171, 281-286) -/
def PlotAcc.reset (nl ni : ℕ) : PlotAcc where
  firstT := none
  sums := List.replicate nl 0
  mins := List.replicate nl none
  maxs := List.replicate nl none
  idxSums := List.replicate ni 0

/-- plots.py 208-213 -/
def updMin (m : Option ℚ) (v : ℚ) : Option ℚ :=
  match m with
  | none => some v
  | some m => if v < m then some v else some m

/-- plots.py 215-220 -/
def updMax (m : Option ℚ) (v : ℚ) : Option ℚ :=
  match m with
  | none => some v
  | some m => if v > m then some v else some m

/-- adding an item (plots.py 176-230): an index which is missing or `None` adds nothing -/
def PlotAcc.add (a : PlotAcc) (p : PlotPt) : PlotAcc where
  firstT := match a.firstT with | none => some p.t | some t => some t
  sums := List.zipWith (· + ·) a.sums p.vals
  mins := List.zipWith updMin a.mins p.vals
  maxs := List.zipWith updMax a.maxs p.vals
  idxSums := List.zipWith (fun s v => match v with | some v => s + v | none => s) a.idxSums p.idx

/-- the cells of a dumped row, by label position (plots.py 241-247) -/
def dumpCells (k : ℕ) (a : PlotAcc) : List PlotCell :=
  (a.mins.zip (a.sums.zip a.maxs)).map (fun c => { min := c.1, avg := c.2.1 / k, max := c.2.2 })

/-- dumping the aggregated data at the item `p` (plots.py 232-279): the timestamp is in the middle of the first
timestamp and that of the item (its end for slots) -/
def PlotAcc.dump (k : ℕ) (a : PlotAcc) (p : PlotPt) : PlotRow :=
  .aggregated (a.firstT.getD 0 + (p.e - a.firstT.getD 0) / 2) (dumpCells k a) (a.idxSums.map (· / (k : ℚ)))

/-- the loop of `_to_dg_data` with aggregation (plots.py 155-286); `i` is the number of items already seen -/
def aggLoop (k nl ni : ℕ) : ℕ → PlotAcc → List PlotPt → List PlotRow
  | _, _, [] => []
  | i, a, p :: r =>
    if (i + 1) % k = 0 then (a.add p).dump k p :: aggLoop k nl ni (i + 1) (PlotAcc.reset nl ni) r
    else aggLoop k nl ni (i + 1) (a.add p) r

/-- a row without aggregation (plots.py 291-349) -/
def itemRow (p : PlotPt) : PlotRow := .plain p.t p.vals p.idx

/-- `_to_dg_data` (plots.py 139-356): global minimum and maximum, and rows.  `aggBy = none` or zero is no
aggregation.  Simplification: the items are read before the loop; as nothing else raises, the outcome is the same. -/
def toDgData (labels indexes : List String) (aggBy : Option ℕ) (l : List Item) :
    Except PyErr (Option ℚ × Option ℚ × List PlotRow) :=
  match mapE (plotPt labels indexes) l with
  | .error e => .error e
  | .ok ps =>
    let rows := match aggBy with
      | none => ps.map itemRow
      | some 0 => ps.map itemRow
      | some k => aggLoop k (loopLabels labels).length indexes.length 0
          (PlotAcc.reset (loopLabels labels).length indexes.length) ps
    .ok ((ps.flatMap (·.vals)).foldl updMin none, (ps.flatMap (·.vals)).foldl updMax none, rows)

/-- the aggregation factor (plots.py 420-432, threshold 10000 of line 25): `10**len(str(int(n/10000)))`, unless given
or aggregation is switched off -/
def aggFactor (n : ℕ) (aggregate : Option Bool) (aggBy : Option ℕ) : Option ℕ :=
  let k := match aggBy with
    | some k => some k
    | none => if n > 10000 then some (10 ^ (natStr (n / 10000)).length) else none
  match aggregate with
  | some false => none
  | _ => k

/-- the `data_labels` and `data_indexes` arguments: `'all'`, `None` or a list of strings -/
inductive PlotSel where
  | all | nothing | these (ks : List String)
  deriving DecidableEq, Repr

/-- the labels to plot (plots.py 441-458) -/
def plotLabels (s : TSeries) (x : Item) : PlotSel → Except PyErr (List String)
  | .all => s.labelsFrom x
  | .nothing => .ok []
  | .these ks => match s.labelsFrom x with
    | .error e => if ks = [] then .ok [] else .error e
    | .ok have_ => if ks.all (fun k => have_.contains k) then .ok ks else .error .valueError

/-- the indexes to plot (plots.py 460-476) -/
def plotIndexes (l : List Item) : PlotSel → Except PyErr (List String)
  | .all => .ok (allDataIndexes l)
  | .nothing => .ok []
  | .these ks => if ks.all (fun k => (allDataIndexes l).contains k) then .ok ks else .error .valueError

/-- the name of the column of a label (plots.py 690-698) -/
def columnName (d : Data) (n : ℕ) (k : String) : Text :=
  match d with
  | .list _ => if n = 1 then "value".toList else "value ".toList ++ k.toList
  | _ => k.toList

/-- the column names (plots.py 687-713): joined with commas into one string, which is then split at the commas -/
def columnTitles (d : Data) (labels indexes : List String) : List Text :=
  splitSep ',' (joinSep ',' (
    (if labels = [] then ["value".toList] else labels.map (columnName d labels.length)) ++ indexes.map String.toList))

/-- the automatic value range (plots.py 717-725), with the optional `height` -/
def autoRange (gmin gmax : ℚ) (height : Option ℚ) : ℚ × ℚ :=
  let gmax := match height with
    | some h => if h = 0 then gmax else h
    | none => gmax
  if gmax ≠ gmin then (gmin - (gmax - gmin) * (1 / 10), gmax + (gmax - gmin) * (1 / 10))
  else (gmin * (99 / 100), gmax * (101 / 100))

/-- the value range forced by the `value_range` argument (plots.py 727-730) -/
def forcedRange (lo hi : ℚ) : ℚ × ℚ := (lo * (99 / 100), hi * (101 / 100))

/-- what is plotted -/
structure Plot where
  titles : List Text
  rows : List PlotRow
  range : ℚ × ℚ
  deriving DecidableEq, Repr

/-- the arguments of `dygraphs_plot` which are modelled -/
structure PlotCfg where
  labels : PlotSel := .all
  indexes : PlotSel := .all
  aggregate : Option Bool := none
  aggBy : Option ℕ := none
  height : Option ℚ := none
  valueRange : Option (ℚ × ℚ) := none

/-- `dygraphs_plot` (plots.py 363-...), up to the data, names and range handed to the library; the checks are
made in the order of the code. -/
def dygraphsPlot (c : PlotCfg) (s : TSeries) : Except PyErr Plot :=
  match s.items with
  | [] => .error .exception
  | x :: _ =>
    match plotLabels s x c.labels with
    | .error e => .error e
    | .ok labels =>
      match plotIndexes s.items c.indexes with
      | .error e => .error e
      | .ok indexes =>
        match x.data with
        | none => .error .exception
        | some d =>
          match toDgData labels indexes (aggFactor s.items.length c.aggregate c.aggBy) s.items with
          | .error e => .error e
          | .ok (gmin, gmax, rows) =>
            match gmin, gmax with
            | some a, some b => .ok {
                titles := "Timestamp".toList :: columnTitles d labels indexes
                rows := rows
                range := match c.valueRange with
                  | some (lo, hi) => forcedRange lo hi
                  | none => autoRange a b c.height }
            | _, _ => .error .typeError

/-- `str_from_dt`: ISO text of a datetime, with date, time of the day, sign and offset from UTC -/
structure DtText where
  year : Text
  monthDay : Text       -- `MM-DD`
  time : Text
  plus : Bool
  offset : Text         -- `HH:MM`

/-- the wall-clock part, `YYYY-MM-DDTHH:MM:SS` -/
def DtText.wall (d : DtText) : Text := d.year ++ '-' :: d.monthDay ++ 'T' :: d.time

/-- the complete text -/
def DtText.text (d : DtText) : Text := d.wall ++ (if d.plus then '+' else '-') :: d.offset

/-- The text from which the position of a mark is computed, `_utc_fake_s_from_dt` (plots.py 103-110): what comes
before the first `+`, or else before the first `-`, as if it were in UTC. -/
def fakeUtc (t : Text) : Except PyErr Text :=
  if '+' ∈ t then .ok ((splitSep '+' t).headD [] ++ "+00:00".toList)
  else if '-' ∈ t then .ok ((splitSep '-' t).headD [] ++ "+00:00".toList)
  else .error .valueError

end Timeseria
