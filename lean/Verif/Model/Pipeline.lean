import Verif.Model.CsumOffset
import Verif.Model.SourceRange
import Verif.Model.Merge
import Verif.Model.TransformFront

/-! # Chains of operations and transformations

What a user writes as `series.rescale(2).resample('1h').diff().merge(other)`: the methods of datastructures.py 932-1052, each of
them called on what the previous one returned.  In-place operations return `None`, nothing can be called on it. -/

namespace Timeseria

/-- one call; the numbers named `n` bound the detection of the sampling interval as in `TSeries.process`, `clk` is the clock of
the unit -/
inductive Stage where
  | rescale (v : NumOrDict)
  | offset (v : NumOrDict)
  | normalize (a b : ℚ)
  | normalizeFrom (a b : ℚ) (src : Dict (ℚ × ℚ))
  | mavg (w : Int)
  | derivative
  | integral (c o : NumOrDict)
  | diff
  | csum (o : Option NumOrDict)
  | filter (labels : List String)
  | slice (fromI toI : Option Int) (fromT toT : Option ℚ)
  | duplicate
  | resample (clk : String → Grid) (n : ℕ) (txt : Text) (unit : TUnit)
  | aggregate (clk : String → Grid) (n : ℕ) (unit : TUnit) (ops : List SlotOp)

/-- what the operations take from outside: the calendar, the time one unit before another, and the autodetected sampling interval -/
structure PipeEnv where
  cal : Calendar
  back : TUnit → String → ℚ → ℚ
  auto : TSeries → ℚ

/-- the methods of a series (datastructures.py 932-1052) as they call the operations -/
def Stage.run (env : PipeEnv) (st : Stage) (s : TSeries) : Option (Except PyErr TSeries) :=
  match st with
  | .rescale v => some (s.rescaleOp env.cal v)
  | .offset v => some (s.offsetOp env.cal v)
  | .normalize a b => some (s.normalizeOp env.cal a b)
  | .normalizeFrom a b src => some (s.normalizeFrom env.cal a b src)
  | .mavg w => some (s.mavgOp env.cal w)
  | .derivative => some (s.derivativeOp env.cal (env.auto s))
  | .integral c o => some (s.integralFrom env.cal env.back (env.auto s) c o)
  | .diff => some (s.diffOp env.cal)
  | .csum o => some (s.csumFrom env.cal env.back o)
  | .filter labels => some (s.filterOp labels)
  | .slice a b c d => some (s.slice a b c d)
  | .duplicate => some s.duplicate
  | .resample clk n txt unit => s.resample clk n txt unit
  | .aggregate clk n unit ops => s.aggregate clk n unit ops

/-- an expression: one of the series at hand, a method of an expression, or two expressions merged (`a.merge(b)`,
datastructures.py 1013-1016) -/
inductive Pipe where
  | source (i : ℕ)
  | call (st : Stage) (p : Pipe)
  | merge (p q : Pipe)

/-- the value of an expression, the arguments being evaluated first; `none` for what the transformations do not model -/
def Pipe.eval (env : PipeEnv) (src : ℕ → TSeries) : Pipe → Option (Except PyErr TSeries)
  | .source i => some (.ok (src i))
  | .call st p => match p.eval env src with
    | some (.ok s) => st.run env s
    | r => r
  | .merge p q => match p.eval env src, q.eval env src with
    | some (.ok a), some (.ok b) => some (mergeOp env.cal [a, b])
    | some (.ok _), r => r
    | r, _ => r

/-- a chain of calls, the first one of the list first -/
def runAll (env : PipeEnv) : List Stage → TSeries → Option (Except PyErr TSeries)
  | [], s => some (.ok s)
  | st :: r, s => match st.run env s with
    | some (.ok s') => runAll env r s'
    | e => e

end Timeseria
