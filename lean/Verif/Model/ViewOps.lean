import Verif.Model.ViewObj
import Verif.Model.Pipeline

/-! # Operations on views

An operation called on a view (datastructures.py 932-1035) iterates on the view and reads `series[i]`, `series.resolution` and
`series.data_labels()`, which the view rewrites (1808-1905); its result is made with `series.__class__()`, a view which shows
nothing and works as a normal series (1800-1806). -/

namespace Timeseria

/-- What the operations read of a view: the items shown (1808-1878) and the resolution of the series shown (1894-1899).  The labels
(1901-1905), read by the code from the first item of the series shown, are taken here from the first item of the view: the items of a
series all have the same ones (datastructures.py 682-693). -/
def View.shown (v : View) : TSeries := { v.series with items := v.window }

/-- an operation on a view; `slice` and `duplicate` of views are `ViewObj.slice` and `View.materialize`, the transformations of views
are not modelled -/
def View.runOp (env : PipeEnv) (st : Stage) (v : View) : Option (Except PyErr TSeries) :=
  match st with
  | .slice a b c d => some (ViewObj.slice { view := v } a b c d)
  | .duplicate => some v.materialize
  | .resample .. => none
  | .aggregate .. => none
  | st => st.run env v.shown

end Timeseria
