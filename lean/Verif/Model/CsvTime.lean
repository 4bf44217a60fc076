import Verif.Model.Storage

/-! # Other ways of giving the time in a CSV file (storages.py 88-161, 281-421)

`Verif.Model.Storage` reads a timestamp column with epoch seconds or ISO 8601 times.  Here are the other ways: a custom format for it, and date and
time in columns of their own; and the constructor, which chooses among them.  `strptime fmt text` is
`datetime.strptime(text, fmt)`, moved to epoch seconds with the time zone of the storage (411-414); `none` if it raises. -/

namespace Timeseria

/-- the argument `time_column` or `date_column` -/
inductive ColRef where
  | num (i : Int)
  | label (l : String)
  deriving DecidableEq, Repr

/-- how the time of a row is given: a timestamp column, with a custom format or not, or columns for the time and the date (one may be missing) -/
inductive TimeMode where
  | stamp (custom : Option Text)
  | parts (time date : Option ColRef) (timeFmt dateFmt : Text)

/-- local variables of `get`: those of `Storage`, and the positions of the columns of time and date -/
structure TimeLoad where
  base : LoadState
  timeIdx : Option Int := none
  dateIdx : Option Int := none
  deriving DecidableEq, Repr

/-- the position of a column (storages.py 314-321, 325-332); `in` on the labels `None` is a `TypeError` -/
def findCol (labels : Option (List String)) : ColRef → Except PyErr Int
  | .num i => .ok i
  | .label l =>
    match labels with
    | none => .error .typeError
    | some ls =>
      match indexIn l ls with
      | some i => .ok i
      | none => .error .exception

/-- setting the position of a column if it is asked for and not known yet (313-333) -/
def resolvePart (labels : Option (List String)) (col : Option ColRef) (idx : Option Int) : Except PyErr (Option Int) :=
  match col, idx with
  | some c, none => (findCol labels c).map some
  | _, i => .ok i

/-- `line_items[i]`, sanitized (348-355); the exception is outside of any `try` -/
def partText (fields : List Text) : Option Int → Except PyErr (Option Text)
  | none => .ok none
  | some i =>
    match (pyPos fields.length i).bind (fun k => fields[k]?) with
    | none => .error .indexError
    | some v => .ok (sanitize ph v)

/-- the text of date and time together (358-365) -/
def assembleStamp (date time : Option Text) : Option Text :=
  match time, date with
  | some t, some d => some (d ++ '\t' :: t)
  | t, none => t
  | none, d => d

/-- the format for it (379-388) -/
def partsFormat (time date : Option ColRef) (timeFmt dateFmt : Text) : Text :=
  match time, date with
  | some _, some _ => dateFmt ++ '\t' :: timeFmt
  | _, some _ => dateFmt
  | _, none => timeFmt

/-- `data_label_indexes.remove(i)` (457-463) -/
def removeCol (i : Option Int) (cols : List ℕ) : Except PyErr (List ℕ) :=
  match i with
  | none => .ok cols
  | some i => if 0 ≤ i ∧ i.toNat ∈ cols then .ok (cols.erase i.toNat) else .error .valueError

/-- setting the data columns when date and time have columns of their own (427-471) -/
def resolveDataParts (sel : Sel) (time date : Option Int) (c : LoadState) : Except PyErr LoadState :=
  match c.dataIdx with
  | some _ => .ok c
  | none =>
    match sel with
    | .nums l => withNames { c with st := { c.st with dataType := some .list } } l
    | .names l =>
      match c.labels.getD [] with
      | [] => .error .exception
      | x :: xs =>
        match labelPositions (x :: xs) l with
        | .error e => .error e
        | .ok is => withNames c is
    | .all =>
      match removeCol time c.cols with
      | .error e => .error e
      | .ok l =>
        match removeCol date l with
        | .error e => .error e
        | .ok l' => withNames { c with cols := l' } l'

/-- the data of a row whose time is known (473-515) -/
def finishRow (cd : Codec) (cf : CsvConf) (fields : List Text) (t : ℚ) (c : LoadState) : Except PyErr LoadState :=
  match resolveType c with
  | .error e => .error e
  | .ok c =>
    match rowData cd fields c.labels (c.dtype.getD .list) (c.dataIdx.getD []) with
    | .error e => if caughtRow e then badLine cf.skipErrors .exception c else .error e
    | .ok d => .ok { c with rows := c.rows ++ [{ t := t, data := d }] }

/-- a line of a file whose time and date have columns of their own (313-515).  Without both of them there is nothing to read
(a `ConsistencyException`, 335-336). -/
def partsLine (cd : Codec) (strptime : Text → Text → Option ℚ) (cf : CsvConf) (sel : Sel) (time date : Option ColRef) (timeFmt dateFmt : Text)
    (fields : List Text) (c : TimeLoad) : Except PyErr TimeLoad :=
  match resolvePart c.base.labels time c.timeIdx with
  | .error e => .error e
  | .ok ti =>
    match resolvePart c.base.labels date c.dateIdx with
    | .error e => .error e
    | .ok di =>
      if ti = none ∧ di = none then .error .exception
      else
        match partText fields ti with
        | .error e => .error e
        | .ok tp =>
          match partText fields di with
          | .error e => .error e
          | .ok dp =>
            match (assembleStamp dp tp).bind (strptime (partsFormat time date timeFmt dateFmt)) with
            | none => (badLine cf.skipErrors .valueError c.base).map (fun b => ⟨b, ti, di⟩)
            | some t =>
              match resolveDataParts sel ti di c.base with
              | .error e => .error e
              | .ok b => (finishRow cd cf fields t b).map (fun b => ⟨b, ti, di⟩)

/-- a line of a file with a timestamp column in a custom format (281-311, 345, 406-407 and the data part) -/
def customLine (cd : Codec) (strptime : Text → Text → Option ℚ) (cf : CsvConf) (sel : Sel) (fmt : Text) (fields : List Text) (c : LoadState) :
    Except PyErr LoadState :=
  match resolveTs c with
  | .error e => .error e
  | .ok c =>
    match fields[c.tsIdx.getD 0]? with
    | none => .error .indexError
    | some v =>
      match (sanitize ph v).bind (strptime fmt) with
      | none => badLine cf.skipErrors .valueError c
      | some t =>
        match resolveData sel (c.tsIdx.getD 0) c with
        | .error e => .error e
        | .ok c => finishRow cd cf fields t c

/-- a line once the columns are known, in any mode -/
def modeLine (cd : Codec) (strptime : Text → Text → Option ℚ) (cf : CsvConf) (sel : Sel) (m : TimeMode) (fields : List Text) (c : TimeLoad) :
    Except PyErr TimeLoad :=
  match m with
  | .stamp none => (dataLine cd cf sel fields c.base).map (fun b => { c with base := b })
  | .stamp (some f) => (customLine cd strptime cf sel f fields c.base).map (fun b => { c with base := b })
  | .parts time date tf df => partsLine cd strptime cf sel time date tf df fields c

/-- the body of the loop over the lines (222-515), in any mode -/
def modeStep (cd : Codec) (strptime : Text → Text → Option ℚ) (cf : CsvConf) (sel : Sel) (m : TimeMode) (line : Text) (c : TimeLoad) :
    Except PyErr TimeLoad :=
  match line with
  | [] => .ok c
  | first :: _ =>
    if first ∈ cf.comments then .ok c
    else if cf.sep ∉ line then .ok c
    else
      let fields := splitSep cf.sep line
      if c.base.cols = [] then
        if fields.any (fun v => !convertible cd v) then
          .ok { c with base := { c.base with cols := columnIndexes fields, labels := some (columnLabels fields) } }
        else modeLine cd strptime cf sel m fields { c with base := { c.base with cols := columnIndexes fields } }
      else modeLine cd strptime cf sel m fields c

/-- the loop (218-519) -/
def modeLines (cd : Codec) (strptime : Text → Text → Option ℚ) (cf : CsvConf) (sel : Sel) (m : TimeMode) (limit : Option ℕ) :
    List Text → TimeLoad → Except PyErr TimeLoad
  | [], c => .ok c
  | l :: r, c =>
    match modeStep cd strptime cf sel m l c with
    | .error e => .error e
    | .ok c' =>
      if c'.base.rows.length > c.base.rows.length ∧ limitReached limit c'.base.rows.length then .ok c'
      else modeLines cd strptime cf sel m limit r c'

/-- the rows of a file, after sorting (522-529) -/
def modeRows (cd : Codec) (strptime : Text → Text → Option ℚ) (cf : CsvConf) (m : TimeMode) (st : CsvState) (filter : Sel) (limit : Option ℕ)
    (lines : List Text) : Except PyErr (List Row × CsvState) :=
  match modeLines cd strptime cf (pickSel cf filter) m limit lines { base := { st := st } } with
  | .error e => .error e
  | .ok c =>
    if c.base.rows = [] then .error .exception
    else .ok (if cf.sort then c.base.rows.insertionSort (fun a b => a.t ≤ b.t) else c.base.rows, c.base.st)

/-- `get` (164-735), in any mode -/
def modeGet (cd : Codec) (strptime : Text → Text → Option ℚ) (cal : Calendar) (detect : List ℚ → Except PyErr ℚ) (fuel : ℕ) (cf : CsvConf)
    (m : TimeMode) (st : CsvState) (a : GetArgs) (lines : List Text) : Except PyErr (TSeries × CsvState) :=
  if a.forcePoints ∧ a.forceSlots then .error .valueError
  else
    match modeRows cd strptime cf m st a.filter a.limit lines with
    | .error e => .error e
    | .ok (rows, st') =>
      match decideKind (wantedKind cf a) a.forceUnit (detect (sampleStamps (rows.map Row.t) TSeries.empty)) with
      | .error e => .error e
      | .ok none =>
        match pointRows cf.skipErrors cf.tz rows TSeries.empty with
        | .error e => .error e
        | .ok s => .ok (s, st')
      | .ok (some u) =>
        match slotRows cal cf.tz u fuel rows 0 rows TSeries.empty with
        | .error e => .error e
        | .ok s => .ok (s, st')

/-! ## The constructor (88-161) -/

/-- an argument naming a column: `None`, a number, a text, or something else (which may be falsy or not) -/
inductive ColArg where
  | none
  | num (i : Int)
  | text (s : String)
  | other (truthy : Bool)
  deriving DecidableEq, Repr

/-- the truth value of the argument -/
def ColArg.truthy : ColArg → Bool
  | .none => false
  | .num i => i != 0
  | .text s => s != ""
  | .other b => b

/-- is it an integer or a text? -/
def ColArg.known : ColArg → Bool
  | .num _ => true
  | .text _ => true
  | _ => false

/-- arguments of the constructor; formats which are not given are empty (`not time_format`) -/
structure CsvInitArgs where
  stamp : ColArg := .text "auto"
  stampFmt : Option Text := some "auto".toList
  time : ColArg := .none
  timeFmt : Text := []
  date : ColArg := .none
  dateFmt : Text := []
  labelsAll : Bool := true       -- `data_labels == 'all'`
  labelsList : Bool := false     -- `isinstance(data_labels, list)`
  labelsEmpty : Bool := false    -- `not data_labels`
  deriving DecidableEq, Repr

/-- the attributes the constructor sets -/
structure CsvTimeAttrs where
  stamp : ColArg
  stampFmt : Option Text
  time : ColArg
  timeFmt : Text
  date : ColArg
  dateFmt : Text
  deriving DecidableEq, Repr

/-- the checks on `time_column` or `date_column` (103-113, 115-125): the attributes `timestamp_column` and `timestamp_format` are dropped -/
def checkPart (col : ColArg) (fmt : Text) (a : ColArg × Option Text) : Except PyErr (ColArg × Option Text) :=
  if col = .none then .ok a
  else if !col.known then .error .valueError
  else if fmt = [] then .error .valueError
  else .ok (.none, none)

/-- `CSVFileStorage(…)` (88-161) -/
def csvInit (a : CsvInitArgs) : Except PyErr CsvTimeAttrs :=
  if a.stamp = .none ∧ a.time = .none ∧ a.date = .none ∧ a.labelsEmpty then .error .valueError
  else if a.stamp ≠ .text "auto" ∧ (a.time.truthy || a.date.truthy) then .error .valueError
  else if a.stamp ≠ .none ∧ !a.stamp.known then .error .valueError
  else
    match checkPart a.time a.timeFmt (a.stamp, a.stampFmt) with
    | .error e => .error e
    | .ok p =>
      match checkPart a.date a.dateFmt p with
      | .error e => .error e
      | .ok p =>
        if !a.labelsAll && !a.labelsList then .error .valueError
        else .ok ⟨p.1, p.2, a.time, a.timeFmt, a.date, a.dateFmt⟩

end Timeseria
