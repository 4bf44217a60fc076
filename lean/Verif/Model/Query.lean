import Verif.Model.Storage

/-! # The query of `select` (operations.py 1153-1187) -/

namespace Timeseria

/-- `p in q` for texts -/
def hasSub (p q : Text) : Bool := q.tails.any (fun t => p.isPrefixOf t)

/-- `if data_label.startswith('"'): data_label = data_label[1:]` (1170-1171) -/
def dropFirstDouble : Text → Text
  | [] => []
  | c :: r => if c = '"' then r else c :: r

/-- `if data_label.endswith('"'): data_label = data_label[:-1]` (1172-1173) -/
def dropLastDouble (s : Text) : Text :=
  match s.getLast? with
  | some c => if c = '"' then s.dropLast else s
  | none => s

/-- operations.py 1162-1176: label and value of the query.  The test at 1162 is
`(' and ' or ' AND ' or ' or ' or ' OR ') in query`, that is `' and ' in query`; what follows a second `=`
is dropped by `split('=')[1]`.  `float(text)` is the `parse` of the codec, its failure a `ValueError`. -/
def parseQuery (cd : Codec) (q : Text) : Except PyErr (String × ℚ) :=
  if hasSub " and ".toList q then .error .notImplemented
  else if '=' ∉ q then .error .notImplemented
  else
    match splitSep '=' q with
    | a :: b :: _ =>
      match cd.parse b with
      | some v => .ok (String.ofList (dropLastDouble (dropFirstDouble (stripText a))), v)
      | none => .error .valueError
    | _ => .error .indexError

/-- `select(series, query)` (operations.py 1157-1187); the checks on the series come first. -/
def TSeries.selectQuery (cd : Codec) (s : TSeries) (q : Text) : Except PyErr (Option (List Item)) :=
  match s.opPrep with
  | .error e => .error e
  | .ok _ =>
    match parseQuery cd q with
    | .error e => .error e
    | .ok (k, v) => s.selectOp k v

end Timeseria
