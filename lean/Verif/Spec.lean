import Verif.Model.Basic

/-! # Specification vocabulary

Small definitions in which the properties are stated; none of them mentions the modelled
algorithms. -/

namespace Timeseria

/-- timestamps strictly increasing -/
def StrictlyOrdered (l : List Item) : Prop := l.Pairwise (fun a b => a.t < b.t)

/-- all items are points / all items are slots -/
def AllPoints (l : List Item) : Prop := ∀ x ∈ l, x.isSlot = false
def AllSlots (l : List Item) : Prop := ∀ x ∈ l, x.isSlot = true

/-- differences between consecutive numbers -/
def spacings : List ℚ → List ℚ
  | a :: b :: r => (b - a) :: spacings (b :: r)
  | _ => []

/-- timestamps of a list of items -/
def times (l : List Item) : List ℚ := l.map Item.t

/-- all spacings equal to `d`, and there is at least one -/
def UniformBy (d : ℚ) (l : List Item) : Prop := spacings (times l) ≠ [] ∧ ∀ x ∈ spacings (times l), x = d

/-- two numbers equal up to the relative tolerance of one part in 10^9 -/
def CloseTo (a b : ℚ) : Prop := |a - b| ≤ (1 / 1000000000) * max |a| |b|

/-- every slot starts where the previous one ends (up to the tolerance) -/
def InSuccession (l : List Item) : Prop := l.IsChain (fun a b => CloseTo a.endT b.t)

/-- two pieces of data are of the same kind: both numbers, lists of the same length, or
dictionaries with the same set of labels -/
def SameKind : Data → Data → Prop
  | .num _, .num _ => True
  | .list a, .list b => a.length = b.length
  | .dict a, .dict b => ∀ k, k ∈ a.keys ↔ k ∈ b.keys
  | _, _ => False

/-- the value of an item for a label (dictionary data) -/
def Item.val? (x : Item) (k : String) : Option ℚ :=
  match x.data with
  | some (.dict d) => d.get? k
  | _ => none

/-- A bound of a Python list slice on a list of length `n`: negative bounds count from the end, and
everything is clamped to `[0, n]`. -/
def pyBound (n : ℕ) (a : Int) : ℕ :=
  if a < 0 then (n + a).toNat else min a.toNat n

/-- The Python list slice `l[a:b]` with missing bounds meaning the beginning and the end. -/
def pyListSlice {α : Type} (l : List α) (a b : Option Int) : List α :=
  let n := l.length
  let lo := match a with | some a => pyBound n a | none => 0
  let hi := match b with | some b => pyBound n b | none => n
  (l.drop lo).take (hi - lo)

/-- optional interval bounds: `a ≤ t`, `t < b`, `t ≤ b`, a missing bound being no condition -/
def fromOk (a : Option ℚ) (t : ℚ) : Bool := match a with | some a => decide (a ≤ t) | none => true
def beforeOk (b : Option ℚ) (t : ℚ) : Bool := match b with | some b => decide (t < b) | none => true
def untilOk (b : Option ℚ) (t : ℚ) : Bool := match b with | some b => decide (t ≤ b) | none => true

end Timeseria
