import Verif.Model.Units

/-!
# Unit arithmetic (C69) and its exceptions (C139–C141)
-/

namespace Timeseria

/-! ## C69 -/

/-- **C69** (unit on the left): the operations of a numerical unit with a number are those of its value; only
the division by zero fails. -/
theorem C69_left (a b : ℚ) :
    unitAdd (.num a) (.num b) = .ok (.num (a + b)) ∧
      unitSub (.num a) (.num b) = .ok (.num (a - b)) ∧
      unitMul (.num a) (.num b) = .ok (.num (a * b)) ∧
      (b ≠ 0 → unitDiv (.num a) (.num b) = .ok (.num (a / b))) ∧
      unitDiv (.num a) (.num 0) = .error .zeroDivision := by
  refine ⟨rfl, rfl, rfl, ?_, ?_⟩
  · intro hb; simp [unitDiv, Operand.isNum, rawDiv, numDiv, hb, toRes]
  · simp [unitDiv, Operand.isNum, rawDiv, numDiv, toRes]

/-- **C69** (unit on the right): the same, for a division of a number other than zero. -/
theorem C69_right (a b : ℚ) :
    addUnit (.num a) (.num b) = .ok (.num (a + b)) ∧
      subUnit (.num a) (.num b) = .ok (.num (a - b)) ∧
      mulUnit (.num a) (.num b) = .ok (.num (a * b)) ∧
      (a ≠ 0 → b ≠ 0 → divUnit (.num a) (.num b) = .ok (.num (a / b))) ∧
      divUnit (.num a) (.num 0) = .error .zeroDivision := by
  refine ⟨?_, ?_, ?_, ?_, ?_⟩
  · simp [addUnit, unitAdd, rawAdd, toRes, add_comm]
  · simp [subUnit, unitSub, rawSub, toRes, uresNeg]
  · simp [mulUnit, unitMul, Operand.isNum, rawMul, toRes, mul_comm]
  · intro ha hb
    have : b / a ≠ 0 := div_ne_zero hb ha
    simp [divUnit, unitDiv, Operand.isNum, rawDiv, numDiv, ha, toRes, uresInv, hb]
  · by_cases ha : a = 0 <;>
      simp [divUnit, unitDiv, Operand.isNum, rawDiv, numDiv, ha, toRes, uresInv]

/-- **C69** (two units): the operations of two numerical units are those of their values, again with the
exception of dividing zero. -/
theorem C69_units (a b : ℚ) :
    unitAdd (.num a) (.unit (.num b)) = .ok (.num (a + b)) ∧
      unitSub (.num a) (.unit (.num b)) = .ok (.num (a - b)) ∧
      unitMul (.num a) (.unit (.num b)) = .ok (.num (a * b)) ∧
      (a ≠ 0 → b ≠ 0 → unitDiv (.num a) (.unit (.num b)) = .ok (.num (a / b))) ∧
      unitDiv (.num a) (.unit (.num 0)) = .error .zeroDivision := by
  refine ⟨?_, ?_, ?_, ?_, ?_⟩
  · simp [unitAdd, rawAdd, numAddUnit, unitAddNum, toRes, add_comm]
  · simp [unitSub, rawSub, numSubUnit, unitSubNum, toRes]
  · simp [unitMul, Operand.isNum, UVal.isNum, rawMul, numMulUnit, unitMulNum, toRes, mul_comm]
  · intro ha hb
    have : b / a ≠ 0 := div_ne_zero hb ha
    simp [unitDiv, Operand.isNum, UVal.isNum, rawDiv, numDivUnit, unitDivNum, numDiv, ha, toRes, hb]
  · by_cases ha : a = 0 <;>
      simp [unitDiv, Operand.isNum, UVal.isNum, rawDiv, numDivUnit, unitDivNum, numDiv, ha, toRes]

/-- **C69** (equality): a unit equals a number or another unit exactly when the values are equal, and
equality of units is an equivalence. -/
theorem C69_eq (v w : UVal) (b : ℚ) :
    (unitEq v (.num b) = true ↔ v = .num b) ∧ (unitEq v (.unit w) = true ↔ v = w) ∧
      unitEq v .other = false ∧ (∀ cs, unitEq v (.point cs) = false) ∧ (∀ l, unitEq v (.list l) = false) := by
  refine ⟨?_, ?_, rfl, fun _ => rfl, fun _ => rfl⟩
  · cases v <;> simp [unitEq, unitEqNum]
  · cases v <;> cases w <;> simp [unitEq, unitEqNum, eq_comm]

example : unitAdd (.num 60) (.num 15) = .ok (.num 75) ∧ subUnit (.num 15) (.num 60) = .ok (.num (-45)) ∧
    divUnit (.num 15) (.num 60) = .ok (.num (1 / 4)) ∧ unitEq (.num 60) (.unit (.num 60)) = true := by decide +kernel

/-! ## C139: dividing zero -/

/-- **C139** is false: zero divided by a unit, and a zero unit divided by a unit, raise a
`ZeroDivisionError` although the unit is not zero. -/
theorem C139_false :
    divUnit (.num 0) (.num 60) = .error .zeroDivision ∧
      unitDiv (.num 0) (.unit (.num 60)) = .error .zeroDivision ∧
      unitDiv (.num 0) (.num 60) = .ok (.num 0) := by decide +kernel

/-- **C139** (partial): exactly the zero dividends fail. -/
theorem C139_partial (a b : ℚ) (hb : b ≠ 0) :
    (divUnit (.num a) (.num b) = .ok (.num (a / b)) ↔ a ≠ 0) ∧
      (unitDiv (.num a) (.unit (.num b)) = .ok (.num (a / b)) ↔ a ≠ 0) := by
  constructor
  · constructor
    · rintro h rfl
      simp [divUnit, unitDiv, Operand.isNum, rawDiv, numDiv, toRes] at h
    · intro ha; exact (C69_right a b).2.2.2.1 ha hb
  · constructor
    · rintro h rfl
      simp [unitDiv, Operand.isNum, UVal.isNum, rawDiv, numDivUnit, unitDivNum, numDiv, toRes] at h
    · intro ha; exact (C69_units a b).2.2.2.1 ha hb

/-! ## C140: units and points -/

/-- **C140** is false: subtracting a unit from a point raises a `TypeError`, for every point and unit. -/
theorem C140_false (c a : ℚ) :
    subUnit (.point [c]) (.num a) = .error .typeError ∧
      subUnit (.point [c]) (.num a) ≠ .ok (.point [c - a]) := by
  simp [subUnit, unitSub, uresNeg]

/-- **C140** (partial): the sum of a unit and a one-dimensional point, in either order, and the difference
unit minus point, are the points at the expected coordinate; points of more dimensions are refused. -/
theorem C140_partial (c a : ℚ) :
    unitAdd (.num a) (.point [c]) = .ok (.point [a + c]) ∧
      addUnit (.point [c]) (.num a) = .ok (.point [c + a]) ∧
      unitSub (.num a) (.point [c]) = .ok (.point [a - c]) ∧
      (∀ c₁ c₂ cs v, addUnit (.point (c₁ :: c₂ :: cs)) v = .error .notImplemented ∧
        subUnit (.point (c₁ :: c₂ :: cs)) v = .error .notImplemented) := by
  refine ⟨rfl, by simp [addUnit, unitAdd, add_comm], rfl, ?_⟩
  intro c₁ c₂ cs v
  cases v <;> simp [addUnit, unitAdd, subUnit, unitSub]

/-! ## C141: the `value` argument of a time unit -/

/-- **C141** is false: giving the documented argument `value` by name always fails — with a `KeyError` for
a number or a string without `seconds`. -/
theorem C141_false (fmt : ℚ → String) (v : TUArg) :
    timeUnitInit fmt { value := some v } = .error .keyError ∧
      timeUnitInit fmt { positional := some v } ≠ .error .keyError := by
  constructor
  · rfl
  · cases v <;> simp [timeUnitInit]

/-- **C141** (partial): positionally a number is the seconds string and a text is itself, by name the
`seconds` component is passed on. -/
theorem C141_partial (fmt : ℚ → String) (x : ℚ) (s : String) :
    timeUnitInit fmt { positional := some (.seconds x) } = .ok (.text (fmt x)) ∧
      timeUnitInit fmt { positional := some (.text s) } = .ok (.text s) ∧
      timeUnitInit fmt { secs := some x } = .ok (.component (some x)) := ⟨rfl, rfl, rfl⟩

end Timeseria
