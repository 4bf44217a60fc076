import Verif.Props.IntegralMore

/-! # C359: the integral as an area -/

namespace Timeseria

/-- sum of the values of the label at the positions `a`, `a + 2`, …, `m` of them -/
def alternate (l : List Item) (k : String) (a m : ℕ) : ℚ := ((List.range m).map (fun j => valueAt l (a + 2 * j) k)).sum

theorem alternate_succ (l : List Item) (k : String) (a m : ℕ) : alternate l k a (m + 1) = alternate l k a m + valueAt l (a + 2 * m) k := by
  simp [alternate, List.range_succ]

/-- **C359**, partial (what it is): the integral of a series of one label and of constant resolution starts at the constant, then adds the first value times the interval; after that it grows, every *two* steps, by the value in the middle times two intervals.  So at an even position it is the constant plus two intervals times the sum of the values at odd positions before, and at an odd position the constant plus an interval times the first value plus two intervals times the sum of the other values at even positions before: of two neighbouring values never both count.  (Missing: several labels, see `C199_false`, and variable resolution.) -/
theorem C359_alternate_partial {cal : Calendar} {s : TSeries} {k : String} (h : OpSeries cal s [k]) {auto si : ℚ}
    (hni : s.normInfo cal auto = .ok (false, si)) {c : NumOrDict} {c0 : ℚ} (hc : ConstOf c k c0) :
    ∃ (V : ℕ → ℚ) (r : TSeries), s.integralOp cal auto c = .ok r ∧
      Computes s.items r.items 0 [k] (resultLabel s.items "integral") (fun i _ => V i) ∧
      (∀ i, V (i + 2) = V i + 2 * si * valueAt s.items (i + 1) k) ∧
      (∀ m, V (2 * m) = c0 + 2 * si * alternate s.items k 1 m) ∧
      (∀ m, V (2 * m + 1) = c0 + si * valueAt s.items 0 k + 2 * si * alternate s.items k 2 m) := by
  obtain ⟨kk, inc, V, r, hp, hr, hcomp, h0, hfirst, hnext, hstep⟩ :=
    C199_computes_partial h hni (c := c) (c0 := fun _ => c0) (by intro k' hk'; simp at hk'; subst hk'; exact hc)
  have hkk : kk = [k] := List.perm_singleton.1 hp
  subst hkk
  have i0 : inc 0 = valueAt s.items 0 k := hfirst 0 k rfl
  have i1 : ∀ i, inc (i + 1) = valueAt s.items i k * 2 - inc i := by
    intro i
    have := hnext (i + 1) 0 k rfl (by omega)
    simpa using this
  have v1 : ∀ i, V (i + 1) k = V i k + inc (i + 1) * si := by
    intro i
    have := hstep i 0 k rfl
    simpa using this
  have v0 : V 0 k = c0 := h0 k (by simp)
  have two : ∀ i, V (i + 2) k = V i k + 2 * si * valueAt s.items (i + 1) k := by
    intro i
    rw [v1 (i + 1), v1 i, i1 (i + 1)]
    ring
  refine ⟨fun i => V i k, r, hr, ?_, two, ?_, ?_⟩
  · refine ⟨hcomp.length, hcomp.place, hcomp.labels, ?_⟩
    intro j y hy k' hk'
    have := hcomp.values j y hy k' hk'
    simp only [List.mem_singleton] at hk'
    subst hk'
    exact this
  · intro m
    induction m with
    | zero => simp [alternate, v0]
    | succ m ih =>
      dsimp only at ih ⊢
      rw [show 2 * (m + 1) = 2 * m + 2 by ring, two, ih, alternate_succ, show 2 * m + 1 = 1 + 2 * m by ring]
      ring
  · intro m
    induction m with
    | zero =>
      show V 1 k = _
      rw [v1 0, i1 0, i0, v0]
      simp [alternate]
      ring
    | succ m ih =>
      dsimp only at ih ⊢
      rw [show 2 * (m + 1) + 1 = 2 * m + 1 + 2 by ring, two, ih, alternate_succ, show 2 * m + 1 + 1 = 2 + 2 * m by ring]
      ring

/-- **C359**, partial (growth): when no value is negative the integral never decreases over two steps; when all the values are `a` it grows by `a` times the interval at every step, as the area does.  (Missing: it can decrease from an item to the next, see `C359_false`.) -/
theorem C359_grows_partial {cal : Calendar} {s : TSeries} {k : String} (h : OpSeries cal s [k]) {auto si : ℚ}
    (hni : s.normInfo cal auto = .ok (false, si)) (hsi : 0 ≤ si) {c : NumOrDict} {c0 : ℚ} (hc : ConstOf c k c0) :
    ∃ (V : ℕ → ℚ) (r : TSeries), s.integralOp cal auto c = .ok r ∧
      Computes s.items r.items 0 [k] (resultLabel s.items "integral") (fun i _ => V i) ∧
      ((∀ x ∈ s.items, 0 ≤ x.value k) → ∀ i, V i ≤ V (i + 2)) ∧
      (∀ a, (∀ x ∈ s.items, x.value k = a) → ∀ i < s.items.length, V i = c0 + a * si * i) := by
  obtain ⟨V, r, h1, h2, h3, h4, h5⟩ := C359_alternate_partial h hni hc
  refine ⟨V, r, h1, h2, ?_, ?_⟩
  · intro hv i
    have hnn : 0 ≤ valueAt s.items (i + 1) k := by
      unfold valueAt
      split
      · rename_i x hx; exact hv x (List.mem_of_getElem? hx)
      · exact le_refl _
    rw [h3]
    have := mul_nonneg (mul_nonneg (by norm_num : (0 : ℚ) ≤ 2) hsi) hnn
    linarith
  · intro a ha i hi
    have hval : ∀ j, j < s.items.length → valueAt s.items j k = a := by
      intro j hj
      unfold valueAt
      rw [List.getElem?_eq_getElem hj]
      exact ha _ (List.getElem_mem hj)
    have key : ∀ n, (∀ j, j = n ∨ j = n + 1 → j < s.items.length → V j = c0 + a * si * j) := by
      intro n
      induction n with
      | zero =>
        rintro j (rfl | rfl) hj
        · have := h4 0; simpa [alternate] using this
        · have := h5 0
          rw [hval 0 (by omega)] at this
          simp [alternate] at this
          rw [this]; push_cast; ring
      | succ n ih =>
        rintro j (rfl | rfl) hj
        · exact ih _ (.inr rfl) hj
        · rw [show n + 1 + 1 = n + 2 from rfl, h3, ih n (.inl rfl) (by omega), hval (n + 1) (by omega)]
          push_cast; ring
    exact key i i (.inl rfl) hi

/-- **C359**, partial (constant values, variable resolution): when all the values are `a` the integral grows, from an item to any later one, by `a` times the time between the two.  (Missing: several labels, see `C199_false`, and other values.) -/
theorem C359_elapsed_partial {cal : Calendar} {s : TSeries} {k : String} (h : OpSeries cal s [k]) {auto si : ℚ}
    (hni : s.normInfo cal auto = .ok (true, si)) {c : NumOrDict} {c0 : ℚ} (hc : ConstOf c k c0) (a : ℚ)
    (ha : ∀ x ∈ s.items, x.value k = a) :
    ∃ r, s.integralOp cal auto c = .ok r ∧
      Computes s.items r.items 0 [k] (resultLabel s.items "integral")
        (fun i _ => c0 + a * (timeAt s.items i - timeAt s.items 0)) := by
  obtain ⟨kk, inc, V, r, hp, hr, hcomp, h0, hfirst, hnext, hstep⟩ :=
    C199_computes_partial h hni (c := c) (c0 := fun _ => c0) (by intro k' hk'; simp at hk'; subst hk'; exact hc)
  have hkk : kk = [k] := List.perm_singleton.1 hp
  subst hkk
  have hval : ∀ j, j < s.items.length → valueAt s.items j k = a := by
    intro j hj
    unfold valueAt
    rw [List.getElem?_eq_getElem hj]
    exact ha _ (List.getElem_mem hj)
  have hpos : 0 < s.items.length := List.length_pos_iff.2 h.ne
  have hinc : ∀ i, i ≤ s.items.length → inc i = a := by
    intro i
    induction i with
    | zero => intro _; rw [hfirst 0 k rfl, hval 0 hpos]
    | succ i ih =>
      intro hi
      have := hnext (i + 1) 0 k rfl (by omega)
      simp only [List.length_singleton, Nat.mul_one, Nat.add_zero, Nat.add_sub_cancel] at this
      rw [this, hval i (by omega), ih (by omega)]
      ring
  have hV : ∀ i, i < s.items.length → V i k = c0 + a * (timeAt s.items i - timeAt s.items 0) := by
    intro i
    induction i with
    | zero => intro _; rw [h0 k (by simp)]; ring
    | succ i ih =>
      intro hi
      have := hstep i 0 k rfl
      simp only [List.length_singleton, Nat.mul_one, Nat.add_zero, if_true] at this
      rw [this, ih (by omega), hinc (i + 1) (by omega)]
      ring
  refine ⟨r, hr, hcomp.length, hcomp.place, hcomp.labels, ?_⟩
  intro j y hy k' hk'
  have e := hcomp.values j y hy k' hk'
  simp only [List.mem_singleton] at hk'
  subst hk'
  have hj : j < s.items.length := by
    have := valAt_lt hy
    have h2 := hcomp.length
    omega
  rw [e, Nat.zero_add, hV j hj]

/-- points every second with the given values -/
def everySecond (vs : List ℚ) : List Item := vs.mapIdx (fun i v => { t := i, data := some (.dict [("v", v)]) })

/-- the integral of a series of values every second -/
def integralNumbers (vs : List ℚ) : Option (List (Option ℚ)) :=
  ((builtOf (everySecond vs)).integralOp physicalCalendar 1 (.num 0)).toOption.map (fun r => r.items.map (fun x => x.value? "v_integral"))

/-- **C359 is false**: the integral of a series which is never negative decreases, down to nothing at the third item although the area is above zero; and two series which differ at every other value have the same integral at every other item. -/
theorem C359_false : integralNumbers [1, 0, 0, 0] = some [some 0, some 1, some 0, some 1] ∧
    integralNumbers [0, 1, 0, 1, 0] = some [some 0, some 0, some 2, some 0, some 4] ∧
    integralNumbers [100, 1, 100, 1, 100] = some [some 0, some 100, some 2, some 300, some 4] := by
  decide +kernel

/-- **C359** a case meeting the hypotheses -/
theorem C359_witness : TSeries.build (everySecond [3, 3, 3]) = .ok (builtOf (everySecond [3, 3, 3])) ∧
    (builtOf (everySecond [3, 3, 3])).normInfo physicalCalendar 1 = .ok (false, 1) ∧
    integralNumbers [3, 3, 3] = some [some 0, some 3, some 6] := by
  decide +kernel

/-- values of 3 at irregular times -/
def irregularThrees : List Item := [0, 1, 3].map (fun t : ℚ => { t := t, data := some (.dict [("v", 3)]) })

/-- **C359** a case meeting the hypotheses, with variable resolution -/
theorem C359_elapsed_witness : TSeries.build irregularThrees = .ok (builtOf irregularThrees) ∧
    (builtOf irregularThrees).normInfo physicalCalendar 1 = .ok (true, 1) ∧
    ((builtOf irregularThrees).integralOp physicalCalendar 1 (.num 5)).toOption.map (fun r => r.items.map (fun x => x.value? "v_integral")) =
      some [some 5, some 8, some 14] := by
  decide +kernel

end Timeseria
