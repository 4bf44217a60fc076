import Verif.Model.Text
import Verif.Model.Ops
import Mathlib.Data.List.Sort

/-! # The CSV file storage (storages.py 43-788)

A file is the list of its lines, each with its newline character.  Time and date in separate columns and custom
formats (`strptime`) are in `Verif.Model.CsvTime`; encodings and negative column numbers are left out. -/

namespace Timeseria

/-- `line.split(separator)` for a separator of one character -/
def splitSep (sep : Char) : Text → List Text
  | [] => [[]]
  | c :: r =>
    if c = sep then [] :: splitSep sep r
    else
      match splitSep sep r with
      | [] => [[c]]
      | f :: fs => (c :: f) :: fs

/-- the `timestamp_column` argument -/
inductive TsCol where
  | auto | num (i : ℕ) | label (l : String)
  deriving DecidableEq, Repr

/-- the `timestamp_format` argument -/
inductive TsFormat where
  | auto | epoch | iso
  deriving DecidableEq, Repr

inductive DType where
  | float | list | dict
  deriving DecidableEq, Repr

/-- the `data_labels` argument: `'all'`, a list of integers or a list of labels -/
inductive Sel where
  | all | nums (l : List ℕ) | names (l : List String)
  deriving DecidableEq, Repr

inductive SKind where
  | points | slots
  deriving DecidableEq, Repr

/-- arguments of the storage that do not change -/
structure CsvConf where
  sep : Char := ','
  comments : List Char := ['#', ';']
  tz : String := "UTC"
  sel : Sel := .all
  sort : Bool := false
  skipErrors : Bool := false
  seriesType : Option SKind := none

/-- attributes of the storage object that `get` changes (277, 381-399, 429) -/
structure CsvState where
  tsCol : TsCol := .auto
  tsFormat : TsFormat := .auto
  dataType : Option DType := none
  deriving DecidableEq, Repr

/-- the data of a row -/
inductive RowData where
  | num (x : ℚ)
  | list (l : List ℚ)
  | dict (d : Dict (Option ℚ))
  deriving DecidableEq, Repr

structure Row where
  t : ℚ
  data : RowData
  deriving DecidableEq, Repr

/-- local variables of `get` (192-206) -/
structure LoadState where
  st : CsvState
  cols : List ℕ := []                        -- column_indexes
  labels : Option (List String) := none      -- column_labels
  tsIdx : Option ℕ := none
  dataIdx : Option (List ℕ) := none
  names : List String := []                  -- data_label_names, empty for None
  dtype : Option DType := none
  rows : List Row := []
  deriving DecidableEq, Repr

def ph : List Text := noDataPlaceholders

/-- the value converts to a number or to a time (252-259) -/
def convertible (cd : Codec) (v : Text) : Bool :=
  match sanitize ph v with
  | none => false
  | some s => (cd.parse s).isSome || (cd.stamp s).isSome

/-- sanitized text of a field, if there is any -/
def fieldText (v : Text) : Option Text :=
  match sanitize ph v with
  | some s => if s = [] then none else some s
  | none => none

/-- indexes of the fields with some text (263, 271) -/
def columnIndexes (fields : List Text) : List ℕ :=
  (List.range fields.length).filter (fun i => ((fields[i]?).bind fieldText).isSome)

/-- `column_labels` (264) -/
def columnLabels (fields : List Text) : List String := fields.filterMap (fun v => (fieldText v).map String.ofList)

/-- position of a label -/
def indexIn (l : String) (ls : List String) : Option ℕ :=
  if l ∈ ls then some (ls.idxOf l) else none

/-- setting the timestamp column (281-311) -/
def resolveTs (c : LoadState) : Except PyErr LoadState :=
  match c.tsIdx with
  | some _ => .ok c
  | none =>
    match c.st.tsCol with
    | .auto =>
      match indexIn "timestamp" (c.labels.getD []) with
      | some i => .ok { c with tsIdx := some i, st := { c.st with tsCol := .label "timestamp" } }
      | none =>
        match indexIn "epoch" (c.labels.getD []) with
        | some i => .ok { c with tsIdx := some i, st := { c.st with tsCol := .label "epoch" } }
        | none => .ok { c with tsIdx := some 0 }
    | .num i => .ok { c with tsIdx := some i }
    | .label l =>
      match c.labels with
      | none => .error .typeError
      | some ls =>
        match indexIn l ls with
        | some i => .ok { c with tsIdx := some i }
        | none => .error .exception

/-- converting the timestamp (368-421); gives the format as well, as it is fixed by the first conversion -/
def readStamp (cd : Codec) (f : TsFormat) (v : Option Text) : Option (ℚ × TsFormat) :=
  match v with
  | none => none
  | some s =>
    match f with
    | .auto =>
      match cd.parse s with
      | some t => some (t, .epoch)
      | none => (cd.stamp s).map (fun t => (t, .iso))
    | .epoch => (cd.parse s).map (fun t => (t, .epoch))
    | .iso => (cd.stamp s).map (fun t => (t, .iso))

/-- positions of the requested labels (439-448) -/
def labelPositions (ls : List String) : List String → Except PyErr (List ℕ)
  | [] => .ok []
  | l :: r =>
    match indexIn l ls with
    | none => .error .exception
    | some i =>
      match labelPositions ls r with
      | .error e => .error e
      | .ok is => .ok (i :: is)

/-- `data_label_names` (466-469) -/
def namesAt (ls : List String) : List ℕ → Except PyErr (List String)
  | [] => .ok []
  | i :: r =>
    match ls[i]? with
    | none => .error .indexError
    | some l =>
      match namesAt ls r with
      | .error e => .error e
      | .ok ns => .ok (l :: ns)

/-- what follows once the data columns are known (465-471) -/
def withNames (c : LoadState) (idx : List ℕ) : Except PyErr LoadState :=
  match c.labels.getD [] with
  | [] => .ok { c with dataIdx := some idx }
  | l :: ls =>
    match namesAt (l :: ls) idx with
    | .error e => .error e
    | .ok ns => .ok { c with dataIdx := some idx, names := ns }

/-- setting the data columns (427-471).  With `'all'` the list of the column indexes itself is used, so that removing
the timestamp column from it also removes it from `column_indexes`. -/
def resolveData (sel : Sel) (ts : ℕ) (c : LoadState) : Except PyErr LoadState :=
  match c.dataIdx with
  | some _ => .ok c
  | none =>
    match sel with
    | .nums l => withNames { c with st := { c.st with dataType := some .list } } l
    | .names l =>
      match c.labels.getD [] with
      | [] => .error .exception
      | x :: xs =>
        match labelPositions (x :: xs) l with
        | .error e => .error e
        | .ok is => withNames c is
    | .all =>
      if ts ∈ c.cols then withNames { c with cols := c.cols.erase ts } (c.cols.erase ts)
      else .error .valueError

/-- setting the data type (474-483) -/
def resolveType (c : LoadState) : Except PyErr LoadState :=
  match c.dtype with
  | some _ => .ok c
  | none =>
    if c.names.length > 1 ∧ c.st.dataType = some .float then .error .exception
    else
      match c.st.dataType with
      | some d => .ok { c with dtype := some d }
      | none => .ok { c with dtype := some (if c.names = [] then .list else .dict) }

/-- the values of the columns of a row as a list (491) -/
def rowList (cd : Codec) (fields : List Text) : List ℕ → Except PyErr (List ℚ)
  | [] => .ok []
  | i :: r =>
    match fields[i]? with
    | none => .error .indexError
    | some v =>
      match toFloat cd ph v none with
      | .error e => .error e
      | .ok none => .error .floatConversion
      | .ok (some x) =>
        match rowList cd fields r with
        | .error e => .error e
        | .ok xs => .ok (x :: xs)

/-- the values of the columns of a row as a dictionary (493) -/
def rowDict (cd : Codec) (fields : List Text) (ls : List String) : List ℕ → Dict (Option ℚ) → Except PyErr (Dict (Option ℚ))
  | [], acc => .ok acc
  | i :: r, acc =>
    match ls[i]?, fields[i]? with
    | some l, some v =>
      match toFloat cd ph v (some l) with
      | .error e => .error e
      | .ok x => rowDict cd fields ls r (Dict.set acc l x)
    | _, _ => .error .indexError

/-- the data of a row (485-493) -/
def rowData (cd : Codec) (fields : List Text) (labels : Option (List String)) (d : DType) (idx : List ℕ) :
    Except PyErr RowData :=
  match d with
  | .float =>
    match idx with
    | [] => .error .indexError
    | i :: _ => (rowList cd fields [i]).map (fun l => .num (l.headD 0))
  | .list => (rowList cd fields idx).map .list
  | .dict =>
    match labels with
    | none => if idx = [] then .ok (.dict []) else .error .typeError
    | some ls => (rowDict cd fields ls idx []).map .dict

/-- a malformed line (411-421, 496-508): dropped or fatal -/
def badLine (skip : Bool) (e : PyErr) (c : LoadState) : Except PyErr LoadState :=
  if skip then .ok c else .error e

/-- exceptions caught at 496-508 -/
def caughtRow : PyErr → Bool
  | .floatConversion => true
  | .indexError => true
  | _ => false

/-- the part of the loop after the column indexes are known (275-515) -/
def dataLine (cd : Codec) (cf : CsvConf) (sel : Sel) (fields : List Text) (c : LoadState) : Except PyErr LoadState :=
  match resolveTs c with
  | .error e => .error e
  | .ok c =>
    let ts := c.tsIdx.getD 0
    match fields[ts]? with
    | none => .error .indexError                      -- 345, outside of any `try`
    | some v =>
      match readStamp cd c.st.tsFormat (sanitize ph v) with
      | none => badLine cf.skipErrors .valueError c
      | some (t, f) =>
        let c := { c with st := { c.st with tsFormat := f } }
        match resolveData sel ts c with
        | .error e => .error e
        | .ok c =>
          match resolveType c with
          | .error e => .error e
          | .ok c =>
            match rowData cd fields c.labels (c.dtype.getD .list) (c.dataIdx.getD []) with
            | .error e => if caughtRow e then badLine cf.skipErrors .exception c else .error e
            | .ok d => .ok { c with rows := c.rows ++ [{ t := t, data := d }] }

/-- the body of the loop over the lines (222-515) -/
def lineStep (cd : Codec) (cf : CsvConf) (sel : Sel) (line : Text) (c : LoadState) : Except PyErr LoadState :=
  match line with
  | [] => .ok c
  | first :: _ =>
    if first ∈ cf.comments then .ok c
    else if cf.sep ∉ line then .ok c
    else
      let fields := splitSep cf.sep line
      if c.cols = [] then
        if fields.any (fun v => !convertible cd v) then
          .ok { c with cols := columnIndexes fields, labels := some (columnLabels fields) }
        else dataLine cd cf sel fields { c with cols := columnIndexes fields }
      else dataLine cd cf sel fields c

/-- `if limit and line_number >= limit` (517-519); a limit of zero counts as none -/
def limitReached (limit : Option ℕ) (n : ℕ) : Bool :=
  match limit with
  | some l => l ≠ 0 ∧ l ≤ n
  | none => false

/-- the loop; the counter only counts the rows, and is looked at when a row was added -/
def loadLines (cd : Codec) (cf : CsvConf) (sel : Sel) (limit : Option ℕ) : List Text → LoadState → Except PyErr LoadState
  | [], c => .ok c
  | l :: r, c =>
    match lineStep cd cf sel l c with
    | .error e => .error e
    | .ok c' =>
      if c'.rows.length > c.rows.length ∧ limitReached limit c'.rows.length then .ok c'
      else loadLines cd cf sel limit r c'

/-- the labels asked for: those of the call, or else those of the storage (430-433) -/
def pickSel (cf : CsvConf) : Sel → Sel
  | .nums [] => cf.sel
  | .names [] => cf.sel
  | .all => cf.sel
  | f => f

/-- the rows of a file, after sorting (522-529), and the storage object after the call; the second is also there when
an exception is raised, but is only given for a successful reading -/
def readRows (cd : Codec) (cf : CsvConf) (st : CsvState) (filter : Sel) (limit : Option ℕ) (lines : List Text) :
    Except PyErr (List Row × CsvState) :=
  match loadLines cd cf (pickSel cf filter) limit lines { st := st } with
  | .error e => .error e
  | .ok c =>
    if c.rows = [] then .error .exception
    else .ok (if cf.sort then c.rows.insertionSort (fun a b => a.t ≤ b.t) else c.rows, c.st)

/-! ## Items (531-735) -/

/-- the unit chosen for a detected sampling interval, if it is one of a calendar (567-580) -/
def calendarUnit (d : ℚ) : Option TUnit :=
  if d = 86400 * 365 ∨ d = 886400 * 366 then some { years := 1 }
  else if d = 86400 * 31 ∨ d = 86400 * 30 ∨ d = 86400 * 28 then some { months := 1 }
  else if d = 3600 * 24 ∨ d = 3600 * 23 ∨ d = 3600 * 25 then some { days := 1 }
  else none

/-- Points or slots, and the unit of the slots (531-658).  `detected` is the sampling interval of the first eleven
rows (`detect_sampling_interval`, modelled in `Verif.Model.Utilities`). -/
def decideKind (want : Option SKind) (forceUnit : Option TUnit) (detected : Except PyErr ℚ) : Except PyErr (Option TUnit) :=
  match want with
  | some .points => .ok none
  | w =>
    match detected with
    | .error e => .error e
    | .ok d =>
      match calendarUnit d with
      | some u => .ok (some (forceUnit.getD u))
      | none =>
        match w with
        | some .slots => .ok (some (forceUnit.getD (TUnit.ofSecs d)))
        | _ => .ok none

/-- the data indexes of a row: the labels starting with `__`, without it (671-677) -/
def rowIndexes (d : Dict (Option ℚ)) : Idx :=
  d.filterMap (fun kv => if isIndexLabel (some kv.1) then some (String.ofList (kv.1.toList.drop 2), kv.2) else none)

/-- the other labels, which always have a value -/
def rowValues (d : Dict (Option ℚ)) : Dict ℚ :=
  d.filterMap (fun kv => if isIndexLabel (some kv.1) then none else kv.2.map (fun v => (kv.1, v)))

/-- data and data indexes of a row -/
def RowData.split : RowData → Data × Idx
  | .num x => (.num x, [])
  | .list l => (.list l, [])
  | .dict d => (.dict (rowValues d), rowIndexes d)

/-- the point of a row (680) -/
def rowPoint (tz : String) (r : Row) : Item :=
  { t := r.t, slot := none, tz := tz, data := some r.data.split.1, idx := r.data.split.2 }

/-- the loop creating the points (665-690) -/
def pointRows (skip : Bool) (tz : String) : List Row → TSeries → Except PyErr TSeries
  | [], s => .ok s
  | r :: rs, s =>
    match (s.append (rowPoint tz r)).2 with
    | .ok _ => pointRows skip tz rs (s.append (rowPoint tz r)).1
    | .error e => if skip then pointRows skip tz rs (s.append (rowPoint tz r)).1 else .error e

/-- `DataTimeSlot(t=…, unit=…, data=…, …)` -/
def rowSlot (cal : Calendar) (tz : String) (u : TUnit) (t : ℚ) (d : Data) (idx : Idx) : Item :=
  { t := t, slot := some (cal.shift u tz t, u), tz := tz, data := some d, idx := idx }

/-- the timestamps of the missing slots between `t` and `stop` (717-732), with a bound on their number; `none` if the
loop does not end within the bound -/
def missingSlots (cal : Calendar) (tz : String) (u : TUnit) (stop : ℚ) : ℕ → ℚ → Option (List ℚ)
  | 0, _ => none
  | k + 1, t =>
    if cal.shift u tz t ≥ stop then some []
    else (missingSlots cal tz u stop k (cal.shift u tz t)).map (fun l => cal.shift u tz t :: l)

/-- interpolated value of a label for the `j`-th of `n` missing slots (724) -/
def missingValue (a b : ℚ) (n j : ℕ) : ℚ := (b - a) / (n + 1) * (j + 1) + a

/-- the data of the missing slot number `j`: the labels are those of the *last row of the file*, where the labels
starting with `__` are still there unless it is the row being processed (724); a missing label is a `KeyError` -/
def missingData (labels : List String) (a b : Dict ℚ) (n j : ℕ) : Except PyErr (Dict ℚ) :=
  mapE (fun k => match a.get? k, b.get? k with
    | some x, some y => .ok (k, missingValue x y n j)
    | _, _ => .error .keyError) labels

/-- labels of the last row as seen while processing row number `i` of `n` -/
def lastLabels (rows : List Row) (i : ℕ) : Except PyErr (List String) :=
  match rows.getLast? with
  | none => .error .indexError
  | some r =>
    match r.data with
    | .dict d => .ok (if i + 1 = rows.length then (rowValues d).keys else d.keys)
    | _ => .error .typeError          -- the values of a list are used as positions: not modelled further

/-- an append whose exceptions are not caught -/
def appendE (s : TSeries) (x : Item) : Except PyErr TSeries :=
  match (s.append x).2 with
  | .ok _ => .ok (s.append x).1
  | .error e => .error e

/-- appending the missing slots, starting with number `j` of `n` -/
def appendMissing (cal : Calendar) (tz : String) (u : TUnit) (labels : List String) (a b : Dict ℚ) (n : ℕ) :
    ℕ → List ℚ → TSeries → Except PyErr TSeries
  | _, [], s => .ok s
  | j, t :: r, s =>
    match missingData labels a b n j with
    | .error e => .error e
    | .ok d =>
      match appendE s (rowSlot cal tz u t (.dict d) [("data_loss", some 1)]) with
      | .error e => .error e
      | .ok s' => appendMissing cal tz u labels a b n (j + 1) r s'

/-- the `except ValueError` branch (708-732): the missing slots, then the row again, without its data indexes.
Rows that are not dictionaries are not modelled here. -/
def fillGap (cal : Calendar) (tz : String) (u : TUnit) (fuel : ℕ) (rows : List Row) (i : ℕ) (prev r : Row) (s : TSeries) :
    Except PyErr TSeries :=
  match missingSlots cal tz u r.t fuel prev.t with
  | none => .error .exception
  | some ms =>
    match (if ms = [] then .ok [] else lastLabels rows i) with
    | .error e => .error e
    | .ok labels =>
      match prev.data.split.1, r.data.split.1 with
      | .dict a, .dict b =>
        match appendMissing cal tz u labels a b ms.length 0 ms s with
        | .error e => .error e
        | .ok s' => appendE s' (rowSlot cal tz u r.t (.dict b) [("data_loss", none)])
      | _, d => if ms = [] then appendE s (rowSlot cal tz u r.t d [("data_loss", none)]) else .error .typeError

/-- the loop creating the slots (693-733); the row before the first one is the last one (`items[i-1]`) -/
def slotRows (cal : Calendar) (tz : String) (u : TUnit) (fuel : ℕ) (rows : List Row) : ℕ → List Row → TSeries → Except PyErr TSeries
  | _, [], s => .ok s
  | i, r :: rs, s =>
    match (s.append (rowSlot cal tz u r.t r.data.split.1 r.data.split.2)).2 with
    | .ok _ => slotRows cal tz u fuel rows (i + 1) rs (s.append (rowSlot cal tz u r.t r.data.split.1 r.data.split.2)).1
    | .error .valueError =>
      match (if i = 0 then rows.getLast? else rows[i - 1]?) with
      | none => .error .indexError
      | some prev =>
        match fillGap cal tz u fuel rows i prev r (s.append (rowSlot cal tz u r.t r.data.split.1 r.data.split.2)).1 with
        | .error e => .error e
        | .ok s' => slotRows cal tz u fuel rows (i + 1) rs s'
    | .error e => .error e

/-- the timestamps used for detecting the sampling interval (556-564): those accepted by a new series of points, at
most eleven -/
def sampleStamps : List ℚ → TSeries → List ℚ
  | [], s => s.items.map Item.t
  | t :: r, s =>
    if (s.append { t := t }).1.items.length > 10 then (s.append { t := t }).1.items.map Item.t
    else sampleStamps r (s.append { t := t }).1

/-- options of one call of `get` -/
structure GetArgs where
  limit : Option ℕ := none
  filter : Sel := .all
  forcePoints : Bool := false
  forceSlots : Bool := false
  forceUnit : Option TUnit := none
  deriving DecidableEq, Repr

/-- what kind of series is asked for (534-549) -/
def wantedKind (cf : CsvConf) (a : GetArgs) : Option SKind :=
  if a.forcePoints then some .points else if a.forceSlots then some .slots else cf.seriesType

/-- `CSVFileStorage.get` (164-735).  `detect` is `detect_sampling_interval`, `fuel` bounds the loop over missing slots. -/
def csvGet (cd : Codec) (cal : Calendar) (detect : List ℚ → Except PyErr ℚ) (fuel : ℕ) (cf : CsvConf) (st : CsvState)
    (a : GetArgs) (lines : List Text) : Except PyErr (TSeries × CsvState) :=
  if a.forcePoints ∧ a.forceSlots then .error .valueError
  else
    match readRows cd cf st a.filter a.limit lines with
    | .error e => .error e
    | .ok (rows, st') =>
      match decideKind (wantedKind cf a) a.forceUnit (detect (sampleStamps (rows.map Row.t) TSeries.empty)) with
      | .error e => .error e
      | .ok none =>
        match pointRows cf.skipErrors cf.tz rows TSeries.empty with
        | .error e => .error e
        | .ok s => .ok (s, st')
      | .ok (some u) =>
        match slotRows cal cf.tz u fuel rows 0 rows TSeries.empty with
        | .error e => .error e
        | .ok s => .ok (s, st')

/-! ## Writing (738-788) -/

/-- `sep.join(parts)` -/
def joinSep (sep : Char) : List Text → Text
  | [] => []
  | [x] => x
  | x :: y :: r => x ++ sep :: joinSep sep (y :: r)

/-- `str(value)` of a data index -/
def fmtIndex (cd : Codec) : Option ℚ → Text
  | some v => cd.fmt v
  | none => "None".toList

/-- The texts of the comment lines (751-760) are given: they come from the clock and from the `repr` of the series. -/
structure Notes where
  stamp : Text
  summary : Text
  extra : Text

def noteLines (n : Notes) : List Text :=
  [n.stamp, n.summary, n.extra].map (fun x => '#' :: ' ' :: x ++ ['\n'])

/-- the header (766-772) -/
def headerLine (labels indexes : List String) : Text :=
  joinSep ',' (("epoch".toList :: labels.map String.toList) ++ indexes.map (fun n => '_' :: '_' :: n.toList)) ++ ['\n']

/-- the line of an item (775-786): the values by label, then the indexes; a missing one is an error -/
def itemLine (cd : Codec) (labels indexes : List String) (x : Item) : Except PyErr Text :=
  match mapE (fun k => x.byLabel k) labels with
  | .error e => .error e
  | .ok vs =>
    match mapE (fun n => match x.idx.get? n with | some v => .ok v | none => .error .keyError) indexes with
    | .error e => .error e
    | .ok is => .ok (joinSep ',' ((cd.fmt x.t :: vs.map cd.fmt) ++ is.map (fmtIndex cd)) ++ ['\n'])

/-- the lines of the items, up to the first exception -/
def itemLines (cd : Codec) (labels indexes : List String) : List Item → List Text × Outcome
  | [] => ([], .ok ())
  | x :: r =>
    match itemLine cd labels indexes x with
    | .error e => ([], .error e)
    | .ok l => (l :: (itemLines cd labels indexes r).1, (itemLines cd labels indexes r).2)

/-- what is written, and the outcome (748-786).  The file is opened, hence emptied, before anything is checked.
`issubclass(series.item_type, …)` on an empty series, whose type is `None`, is a `TypeError`. -/
def putLines (cd : Codec) (n : Notes) (s : TSeries) : List Text × Outcome :=
  match s.items with
  | [] => ([], .error .typeError)
  | x :: _ =>
    match x.data with
    | none => ([], .error .typeError)
    | some _ =>
      match s.labelsFrom x with
      | .error e => (noteLines n, .error e)
      | .ok labels =>
        (noteLines n ++ headerLine labels (allDataIndexes s.items) :: (itemLines cd labels (allDataIndexes s.items) s.items).1,
         (itemLines cd labels (allDataIndexes s.items) s.items).2)

/-- `CSVFileStorage.put` (738-786) on a file (`none` if it does not exist) -/
def csvPut (cd : Codec) (n : Notes) (s : TSeries) (overwrite : Bool) (file : Option (List Text)) :
    Option (List Text) × Outcome :=
  if file.isSome ∧ !overwrite then (file, .error .exception)
  else (some (putLines cd n s).1, (putLines cd n s).2)

end Timeseria
