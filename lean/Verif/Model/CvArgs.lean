import Verif.Model.Series

/-! # The arguments of a cross validation (models/base.py 338-357) -/

namespace Timeseria

/-- `text.replace(pat, '')` on characters: from the left, without overlaps; `n` is a bound on the number of steps -/
def removeAllAux (pat : List Char) : ℕ → List Char → List Char
  | 0, l => l
  | _ + 1, [] => []
  | n + 1, c :: l => if pat.isPrefixOf (c :: l) then removeAllAux pat n ((c :: l).drop pat.length) else c :: removeAllAux pat n l

/-- `text.replace(pat, '')` for a pattern that is not empty -/
def pyRemove (pat s : String) : String := String.ofList (removeAllAux pat.toList (s.toList.length + 1) s.toList)

/-- `text.startswith(pat)` -/
def startsWith (s pat : String) : Bool := pat.toList.isPrefixOf s.toList

/-- `fit_kwargs` or `evaluate_kwargs` (338-348): the arguments with a prefix, in order; a name assigned again keeps its place -/
def takeArgs {α : Type} (pre : String) : Dict α → Dict α → Dict α
  | acc, [] => acc
  | acc, (k, v) :: l => takeArgs pre (if startsWith k pre then acc.set (pyRemove pre k) v else acc) l

/-- the splitting of the arguments (338-353): those for `fit` and those for `evaluate`; any other raises `Exception` -/
def splitArgs {α : Type} (kw : Dict α) : Except PyErr (Dict α × Dict α) :=
  if kw.all (fun q => startsWith q.1 "fit_" || startsWith q.1 "evaluate_") then
    .ok (takeArgs "fit_" [] kw, takeArgs "evaluate_" [] kw)
  else .error .exception

end Timeseria
