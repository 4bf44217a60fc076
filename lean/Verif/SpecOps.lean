import Verif.Spec

/-! # Specification vocabulary for the operations -/

namespace Timeseria

/-- the label/value pairs of a piece of data: the entries of a dictionary; for a list the values
labelled by their position (`"0"`, `"1"`, ...) -/
def Data.pairs : Data → List (String × ℚ)
  | .dict d => d
  | .list l => l.mapIdx (fun i v => (toString i, v))
  | .num _ => []

/-- the value of an item for a label, if it has one -/
def Item.value? (x : Item) (k : String) : Option ℚ :=
  match x.data with
  | some d => d.pairs.lookup k
  | none => none

/-- the value of an item for a label (only used for labels the item has) -/
def Item.value (x : Item) (k : String) : ℚ := (x.value? k).getD 0

/-- the item's data is indexed, and its labels are exactly `ks` (`ks` without repetitions) -/
def LabelledBy (x : Item) (ks : List String) : Prop :=
  ∃ d, x.data = some d ∧ (d.pairs.map Prod.fst).Perm ks ∧ ks.Nodup ∧ ∀ v, d ≠ .num v

/-- `y` is at the same place as `x`: same time, same slot, same time zone -/
def SamePlace (x y : Item) : Prop := y.t = x.t ∧ y.slot = x.slot ∧ y.tz = x.tz

/-- the label under which a result is stored: `label_postfix` for dictionaries, the same position
for lists -/
def newLabel (x : Item) (post : String) (k : String) : String :=
  match x.data with
  | some (.dict _) => k ++ "_" ++ post
  | _ => k

/-- every slot ends one unit after it starts -/
def RegularSlots (shift : TUnit → String → ℚ → ℚ) (l : List Item) : Prop :=
  ∀ x ∈ l, ∀ e u, x.slot = some (e, u) → e = shift u x.tz x.t

/-- the weighted average of a list of values -/
def weightedMean (vs ws : List ℚ) : ℚ := (List.zipWith (· * ·) vs ws).sum / ws.sum

/-- the label under which an operation stores its result for a series with items `l` -/
def resultLabel (l : List Item) (post : String) (k : String) : String :=
  match l.head? with
  | some x => newLabel x post k
  | none => k

/-- The list `r` has one item for each item of `l` from position `m` on, in the same place, with
labels `nl k` for `k` in `ks` and no others; the item coming from position `i` has the value `v i k`
for the label `nl k`. -/
structure Computes (l r : List Item) (m : ℕ) (ks : List String) (nl : String → String)
    (v : ℕ → String → ℚ) : Prop where
  length : r.length = l.length - m
  place : ∀ (j : ℕ) (x y : Item), l[m + j]? = some x → r[j]? = some y → SamePlace x y
  labels : ∀ y ∈ r, LabelledBy y (ks.map nl)
  values : ∀ (j : ℕ) (y : Item), r[j]? = some y → ∀ k ∈ ks, y.value? (nl k) = some (v (m + j) k)

/-- the value at a position for a label -/
def valueAt (l : List Item) (i : ℕ) (k : String) : ℚ :=
  match l[i]? with
  | some x => x.value k
  | none => 0

/-- the timestamp at a position -/
def timeAt (l : List Item) (i : ℕ) : ℚ :=
  match l[i]? with
  | some x => x.t
  | none => 0

/-- consecutive items are `d` seconds apart -/
def EverySecs (d : ℚ) (l : List Item) : Prop := ∀ i, i + 1 < l.length → timeAt l (i + 1) - timeAt l i = d

end Timeseria
