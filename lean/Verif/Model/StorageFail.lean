import Verif.Model.CsvTime

/-!
# What a reading leaves in the storage, whether it raises or not

`get` (storages.py 164-735) writes on the storage at three places: the timestamp column (292), the format of the timestamps
(397, 403) and the type of the data (452).  They are attributes of the object, so that they stay there even if the call raises
afterwards.  The functions below give the attributes after a call, however it ends.
-/

namespace Timeseria

/-- the attributes once the data columns have been looked for (427-452): only a list of column numbers writes something -/
def dataLeft (sel : Sel) (c : LoadState) : CsvState :=
  match c.dataIdx, sel with
  | none, .nums _ => { c.st with dataType := some .list }
  | _, _ => c.st

/-- the attributes after a line with a timestamp column in an automatic format (281-515) -/
def dataLineLeft (cd : Codec) (sel : Sel) (fields : List Text) (c : LoadState) : CsvState :=
  match resolveTs c with
  | .error _ => c.st
  | .ok c =>
    match fields[c.tsIdx.getD 0]? with
    | none => c.st
    | some v =>
      match readStamp cd c.st.tsFormat (sanitize ph v) with
      | none => c.st
      | some (_, f) => dataLeft sel { c with st := { c.st with tsFormat := f } }

/-- the attributes after a line with a timestamp column in a custom format -/
def customLineLeft (strptime : Text → Text → Option ℚ) (sel : Sel) (fmt : Text) (fields : List Text) (c : LoadState) : CsvState :=
  match resolveTs c with
  | .error _ => c.st
  | .ok c =>
    match fields[c.tsIdx.getD 0]? with
    | none => c.st
    | some v =>
      match (sanitize ph v).bind (strptime fmt) with
      | none => c.st
      | some _ => dataLeft sel c

/-- the attributes after a line whose time and date have columns of their own (313-515) -/
def partsLineLeft (strptime : Text → Text → Option ℚ) (sel : Sel) (time date : Option ColRef) (timeFmt dateFmt : Text) (fields : List Text)
    (c : TimeLoad) : CsvState :=
  match resolvePart c.base.labels time c.timeIdx with
  | .error _ => c.base.st
  | .ok ti =>
    match resolvePart c.base.labels date c.dateIdx with
    | .error _ => c.base.st
    | .ok di =>
      if ti = none ∧ di = none then c.base.st
      else
        match partText fields ti with
        | .error _ => c.base.st
        | .ok tp =>
          match partText fields di with
          | .error _ => c.base.st
          | .ok dp =>
            match (assembleStamp dp tp).bind (strptime (partsFormat time date timeFmt dateFmt)) with
            | none => c.base.st
            | some _ => dataLeft sel c.base

/-- the attributes after a line, in any mode -/
def modeLineLeft (cd : Codec) (strptime : Text → Text → Option ℚ) (sel : Sel) (m : TimeMode) (fields : List Text) (c : TimeLoad) : CsvState :=
  match m with
  | .stamp none => dataLineLeft cd sel fields c.base
  | .stamp (some f) => customLineLeft strptime sel f fields c.base
  | .parts time date tf df => partsLineLeft strptime sel time date tf df fields c

/-- the attributes after the body of the loop over the lines (222-515) -/
def modeStepLeft (cd : Codec) (strptime : Text → Text → Option ℚ) (cf : CsvConf) (sel : Sel) (m : TimeMode) (line : Text) (c : TimeLoad) : CsvState :=
  match line with
  | [] => c.base.st
  | first :: _ =>
    if first ∈ cf.comments then c.base.st
    else if cf.sep ∉ line then c.base.st
    else
      let fields := splitSep cf.sep line
      if c.base.cols = [] then
        if fields.any (fun v => !convertible cd v) then c.base.st
        else modeLineLeft cd strptime sel m fields { c with base := { c.base with cols := columnIndexes fields } }
      else modeLineLeft cd strptime sel m fields c

/-- the attributes after the loop (218-519) -/
def modeLinesLeft (cd : Codec) (strptime : Text → Text → Option ℚ) (cf : CsvConf) (sel : Sel) (m : TimeMode) (limit : Option ℕ) :
    List Text → TimeLoad → CsvState
  | [], c => c.base.st
  | l :: r, c =>
    match modeStep cd strptime cf sel m l c with
    | .error _ => modeStepLeft cd strptime cf sel m l c
    | .ok c' =>
      if c'.base.rows.length > c.base.rows.length ∧ limitReached limit c'.base.rows.length then c'.base.st
      else modeLinesLeft cd strptime cf sel m limit r c'

/-- the attributes after `get` (164-735).  The check on the arguments (187-188) comes first; what follows the loop writes nothing. -/
def modeGetLeft (cd : Codec) (strptime : Text → Text → Option ℚ) (cf : CsvConf) (m : TimeMode) (lines : List Text) (st : CsvState) (a : GetArgs) :
    CsvState :=
  if a.forcePoints ∧ a.forceSlots then st
  else modeLinesLeft cd strptime cf (pickSel cf a.filter) m a.limit lines { base := { st := st } }

/-- the attributes after some calls of `get` on the same file -/
def modeHistory (cd : Codec) (strptime : Text → Text → Option ℚ) (cf : CsvConf) (m : TimeMode) (lines : List Text) (st : CsvState)
    (as : List GetArgs) : CsvState :=
  as.foldl (modeGetLeft cd strptime cf m lines) st

end Timeseria
