import Verif.Lemmas.Access

/-! # Properties C10 - C17 (views), C76, C77: access to the items -/

namespace Timeseria

/-! ## C10 -/

/-- **C196** is false: positions below `-len` are converted twice and reach an item. -/
theorem C196_false : ∃ (s : TSeries) (x : Item),
    TSeries.build [mkPoint 0 (.num 1), mkPoint 60 (.num 1)] = .ok s ∧ s.getAt (-3) = .ok x ∧
    x = mkPoint 60 (.num 1) :=
  ⟨{ items := [mkPoint 0 (.num 1), mkPoint 60 (.num 1)], prevT := some 60,
     res := .unit (TUnit.ofSecs 60), resS := some 60, ref := some (.num 1) },
   mkPoint 60 (.num 1), by decide +kernel⟩

/-- **C196, partial**: `series[i]` is the `i`-th item for `0 ≤ i < len`, the `(len+i)`-th for
`-len ≤ i < 0`, and `IndexError` for `i ≥ len` and `i < -2 len`.  In between, where it should also
raise, it returns the `(2 len + i)`-th item (`C196_false`). -/
theorem C196_all_positions_partial (s : TSeries) (i : Int) :
    (∀ h : 0 ≤ i ∧ i < s.items.length, s.getAt i = .ok (s.items[i.toNat]'(by omega))) ∧
    (∀ h : -(s.items.length : Int) ≤ i ∧ i < 0,
      s.getAt i = .ok (s.items[(s.items.length + i).toNat]'(by omega))) ∧
    (∀ h : -(2 * s.items.length : Int) ≤ i ∧ i < -(s.items.length : Int),
      s.getAt i = .ok (s.items[(2 * s.items.length + i).toNat]'(by omega))) ∧
    ((s.items.length ≤ i ∨ i < -(2 * s.items.length : Int)) → s.getAt i = .error .indexError) := by
  refine ⟨?_, ?_, ?_, ?_⟩
  · intro h
    unfold TSeries.getAt getPos pyPos
    rw [if_pos h.1, if_pos h]
    simp only [List.getElem?_eq_getElem (show i.toNat < s.items.length by omega)]
  · intro h
    unfold TSeries.getAt getPos pyPos
    have habs : |i| = -i := abs_of_neg h.2
    rw [if_neg (by omega), habs, if_pos (by omega)]
    simp only [sub_neg_eq_add]
    simp only [List.getElem?_eq_getElem (show (s.items.length + i).toNat < s.items.length by omega)]
  · intro h
    unfold TSeries.getAt getPos pyPos
    have habs : |i| = -i := abs_of_neg (by omega)
    rw [if_neg (by omega), habs, if_neg (by omega), if_pos (by omega)]
    have hk : ((s.items.length : Int) + (s.items.length - -i)).toNat = (2 * s.items.length + i).toNat := by
      omega
    simp only [hk]
    simp only [List.getElem?_eq_getElem (show (2 * s.items.length + i).toNat < s.items.length by omega)]
  · intro h
    unfold TSeries.getAt getPos pyPos
    rcases h with h | h
    · rw [if_pos (by omega), if_neg (by omega), if_neg (by omega)]
    · rw [if_neg (by omega), abs_of_neg (show i < 0 by omega), if_neg (by omega), if_neg (by omega)]

/-- **C10** `series[i]` is the `i`-th item for `0 ≤ i < len`, the `(len+i)`-th for `-len ≤ i < 0`, and `IndexError` for
`i ≥ len`. -/
theorem C10_integer_indexing (s : TSeries) (i : Int) :
    (∀ h : 0 ≤ i ∧ i < s.items.length, s.getAt i = .ok (s.items[i.toNat]'(by omega))) ∧
    (∀ h : -(s.items.length : Int) ≤ i ∧ i < 0,
      s.getAt i = .ok (s.items[(s.items.length + i).toNat]'(by omega))) ∧
    (s.items.length ≤ i → s.getAt i = .error .indexError) :=
  ⟨(C196_all_positions_partial s i).1, (C196_all_positions_partial s i).2.1,
    fun h => (C196_all_positions_partial s i).2.2.2 (Or.inl h)⟩

/-! ## C11 -/

/-- **C11** For a non-empty series whose items are acceptable as a series (good points or good
slots), `series[a:b]` succeeds and holds exactly the items of the Python list slice. -/
theorem C11_index_slicing (s : TSeries) (hne : s.items ≠ [])
    (hg : GoodPoints s.items ∨ GoodSlots s.items) (a b : Option Int) (hab : a.isSome ∨ b.isSome) :
    ∃ r, s.getSlice a b = .ok r ∧ r.items = pyListSlice s.items a b := by
  have hbu : ∃ r, TSeries.build (pyListSlice s.items a b) = .ok r := by
    rcases hg with hg | hg
    · obtain ⟨r, h, _⟩ := build_good (hg.sublist (pyListSlice_infix _ a b).sublist); exact ⟨r, h⟩
    · obtain ⟨r, h, _⟩ := build_good_slots (hg.infix (pyListSlice_infix _ a b)); exact ⟨r, h⟩
  obtain ⟨r, hr⟩ := hbu
  refine ⟨r, ?_, build_items hr⟩
  unfold TSeries.getSlice TSeries.slice
  rw [if_neg (by cases a <;> cases b <;> simp at hab ⊢), sliceItems_index _ hne a b hab]
  exact hr

/-- **C197**, partial, without assumptions on the items: whenever slicing a non-empty series succeeds the result
is the Python list slice. -/
theorem C197_whenever_it_succeeds_partial (s r : TSeries) (hne : s.items ≠ []) (a b : Option Int)
    (hab : a.isSome ∨ b.isSome) (h : s.getSlice a b = .ok r) :
    r.items = pyListSlice s.items a b := by
  unfold TSeries.getSlice TSeries.slice at h
  rw [if_neg (by cases a <;> cases b <;> simp at hab ⊢), sliceItems_index _ hne a b hab] at h
  exact build_items h

/-- **C197** is false on the empty series (a list would give an empty slice) and when the part
selected begins with two points too close to each other to have a resolution. -/
theorem C197_false : (TSeries.empty.getSlice (some 0) (some 1) = .error .valueError) ∧
    ∃ s, TSeries.build [mkPoint 0 (.num 1), mkPoint 60 (.num 1), mkPoint (60 + 1 / 20000) (.num 1)] = .ok s ∧
      s.getSlice (some 1) none = .error .valueError :=
  ⟨by decide +kernel,
   { items := [mkPoint 0 (.num 1), mkPoint 60 (.num 1), mkPoint (60 + 1 / 20000) (.num 1)],
     prevT := some (60 + 1 / 20000), res := .varying, ref := some (.num 1) }, by decide +kernel⟩

example : GoodPoints [mkPoint 0 (.num 1), mkPoint 60 (.num 2), mkPoint 100 (.num 3)] ∧
    pyListSlice [mkPoint 0 (.num 1), mkPoint 60 (.num 2), mkPoint 100 (.num 3)] (some (-2)) none =
      [mkPoint 60 (.num 2), mkPoint 100 (.num 3)] := by
  refine ⟨⟨?_, ?_, ?_, ?_⟩, by decide +kernel⟩
  · simp [AllPoints, mkPoint, Item.isSlot]
  · simp [mkPoint]; norm_num
  · simp [HasData, mkPoint, Data.truthy]
  · intro x hx y hy d e hd he
    simp at hx hy
    rcases hx with rfl | rfl | rfl <;> rcases hy with rfl | rfl | rfl <;>
      (simp [mkPoint] at hd he; subst hd; subst he; trivial)

/-! ## C12 -/

/-- slot starts and ends in order -/
def SlotsForward (l : List Item) : Prop := l.Pairwise (fun x y => x.t ≤ y.t ∧ x.endT ≤ y.endT)

/-- **C12, points**: slicing a point series by time gives exactly the points with
`from_t ≤ t < to_t`, in order. -/
theorem C12_time_slicing_points (s : TSeries) (hne : s.items ≠ []) (hg : GoodPoints s.items)
    (a b : Option ℚ) (hab : a.isSome ∨ b.isSome) :
    ∃ r, s.slice none none a b = .ok r ∧
      r.items = s.items.filter (fun x => fromOk a x.t && beforeOk b x.t) := by
  obtain ⟨r, hr, _⟩ := build_good (hg.sublist
    (List.filter_sublist (p := fun x => fromOk a x.t && beforeOk b x.t)))
  refine ⟨r, ?_, build_items hr⟩
  unfold TSeries.slice sliceItems
  rw [if_neg (by simpa using hne)]
  have hor : (a.isSome || b.isSome) = true := by
    rcases hab with h | h <;> simp [h]
  simp only [Option.isSome_none, Bool.false_and, Bool.or_self, Bool.false_eq_true, if_false, normIdx,
    hor, if_true]
  rw [sliceTimeLoop_points a b s.items hg.points hg.ordered]
  by_cases hinv : inverted a b = true
  · rw [if_pos hinv]
    have : s.items.filter (fun x => fromOk a x.t && beforeOk b x.t) = [] := by
      rw [List.filter_eq_nil_iff]
      intro x _
      cases a <;> cases b <;> simp [inverted, fromOk, beforeOk] at hinv ⊢
      intro h; linarith
    rw [this] at hr; exact hr
  · rw [if_neg hinv, show inverted (none : Option Int) none = false from rfl]
    exact hr

/-- **C12, slots**: slicing a slot series by time gives exactly the slots lying within
`[from_t, to_t]`, in order. -/
theorem C12_time_slicing_slots (s : TSeries) (hne : s.items ≠ []) (hg : GoodSlots s.items)
    (hf : SlotsForward s.items) (hpos : ∀ x ∈ s.items, x.t < x.endT)
    (a b : Option ℚ) (hab : a.isSome ∨ b.isSome) :
    ∃ r, s.slice none none a b = .ok r ∧
      r.items = s.items.filter (fun x => fromOk a x.t && untilOk b x.endT) := by
  have hinf : s.items.filter (fun x => fromOk a x.t && untilOk b x.endT) <:+: s.items := by
    refine filter_infix_of_ordered (fun x => fromOk a x.t) (fun x => untilOk b x.endT) s.items ?_ ?_
    · refine hf.imp ?_
      intro x y h
      cases a <;> simp [fromOk]
      intro h'; linarith [h.1]
    · refine hf.imp ?_
      intro x y h
      cases b <;> simp [untilOk]
      intro h'; linarith [h.2]
  obtain ⟨r, hr, _⟩ := build_good_slots (hg.infix hinf)
  refine ⟨r, ?_, build_items hr⟩
  unfold TSeries.slice sliceItems
  rw [if_neg (by simpa using hne)]
  have hor : (a.isSome || b.isSome) = true := by
    rcases hab with h | h <;> simp [h]
  simp only [Option.isSome_none, Bool.false_and, Bool.or_self, Bool.false_eq_true, if_false, normIdx,
    hor, if_true]
  rw [sliceTimeLoop_slots a b s.items hg.slots (hf.imp (fun h => h.2))]
  by_cases hinv : inverted a b = true
  · rw [if_pos hinv]
    have : s.items.filter (fun x => fromOk a x.t && untilOk b x.endT) = [] := by
      rw [List.filter_eq_nil_iff]
      intro x hx
      have := hpos x hx
      cases a <;> cases b <;> simp [inverted, fromOk, untilOk] at hinv ⊢
      intro h; linarith
    rw [this] at hr; exact hr
  · rw [if_neg hinv, show inverted (none : Option Int) none = false from rfl]
    exact hr

/-- three one-minute slots satisfy the assumptions -/
example :
    let sl (t : ℚ) : Item := { t := t, slot := some (t + 60, TUnit.ofSecs 60), data := some (.num 1) }
    GoodSlots [sl 0, sl 60, sl 120] ∧ SlotsForward [sl 0, sl 60, sl 120] := by
  refine ⟨⟨?_, ?_, ?_, ?_, ?_, ?_⟩, ?_⟩
  · simp [AllSlots, Item.isSlot]
  · simp [InSuccession, CloseTo, Item.endT]; norm_num
  · simp [Item.unit]
  · simp
  · simp [HasData, Data.truthy]
  · intro x hx y hy d e hd he
    simp at hx hy
    rcases hx with rfl | rfl | rfl <;> rcases hy with rfl | rfl | rfl <;>
      (simp at hd he; subst hd; subst he; trivial)
  · simp [SlotsForward, Item.endT]; norm_num

/-! ## C13 -/

theorem findT_spec (t : ℚ) (l : List Item) :
    (∀ x, findT t l = .ok x → x ∈ l ∧ x.t = t) ∧
    ((∀ x ∈ l, x.t ≠ t) → findT t l = .error .valueError) ∧
    ((∃ x ∈ l, x.t = t) → ∃ x, findT t l = .ok x) := by
  induction l with
  | nil => simp [findT]
  | cons y r ih =>
    unfold findT
    by_cases hy : y.t = t
    · simp only [hy, if_true]
      refine ⟨fun x hx => by simp at hx; subst hx; simp [hy], ?_, fun _ => ⟨y, rfl⟩⟩
      intro h; exact absurd hy (h y (by simp))
    · simp only [hy, if_false]
      refine ⟨fun x hx => ?_, fun h => ih.2.1 (fun x hx => h x (by simp [hx])), ?_⟩
      · obtain ⟨h1, h2⟩ := ih.1 x hx; exact ⟨by simp [h1], h2⟩
      · rintro ⟨x, hx, ht⟩
        rcases List.mem_cons.1 hx with rfl | hx
        · exact absurd ht hy
        · exact ih.2.2 ⟨x, hx, ht⟩

/-- **C13** On a non-empty series in strict time order, `get(at_t=t)` returns the item with timestamp
`t`, which is unique, and raises `ValueError` if there is none. -/
theorem C13_access_by_t (s : TSeries) (hne : s.items ≠ []) (ho : StrictlyOrdered s.items) (t : ℚ) :
    (∀ x ∈ s.items, x.t = t → s.getAtT t = .ok x) ∧
    ((∀ x ∈ s.items, x.t ≠ t) → s.getAtT t = .error .valueError) ∧
    (∀ x ∈ s.items, ∀ y ∈ s.items, x.t = t → y.t = t → x = y) := by
  have huniq : ∀ x ∈ s.items, ∀ y ∈ s.items, x.t = t → y.t = t → x = y := by
    intro x hx y hy h1 h2
    by_contra hne'
    have := List.Pairwise.forall_of_forall_of_flip (l := s.items) (R := fun a b => a = b ∨ a.t ≠ b.t)
      (fun a _ => Or.inl rfl) (ho.imp (fun h => Or.inr (ne_of_lt h)))
      (ho.imp (fun h => Or.inr (ne_of_gt h))) hx hy
    rcases this with h | h
    · exact hne' h
    · exact h (h1.trans h2.symm)
  have hget : s.getAtT t = findT t s.items := by
    unfold TSeries.getAtT; rw [if_neg (by simpa using hne)]
  refine ⟨?_, ?_, huniq⟩
  · intro x hx ht
    obtain ⟨y, hy⟩ := (findT_spec t s.items).2.2 ⟨x, hx, ht⟩
    obtain ⟨hy1, hy2⟩ := (findT_spec t s.items).1 y hy
    rw [hget, hy, huniq y hy1 x hx hy2 ht]
  · intro h; rw [hget]; exact (findT_spec t s.items).2.1 h

example : ∃ s, TSeries.build [mkPoint 0 (.num 1), mkPoint 60 (.num 2)] = .ok s ∧
    s.getAtT 60 = .ok (mkPoint 60 (.num 2)) ∧ s.getAtT 61 = .error .valueError :=
  ⟨{ items := [mkPoint 0 (.num 1), mkPoint 60 (.num 2)], prevT := some 60,
     res := .unit (TUnit.ofSecs 60), resS := some 60, ref := some (.num 1) }, by decide +kernel⟩

/-! ## C14 -/

/-- bounds within the series -/
structure View.Valid (v : View) : Prop where
  lo : 0 ≤ v.fromI
  mid : v.fromI ≤ v.toI
  hi : v.toI ≤ v.series.items.length

/-- the items the view stands for -/
def View.slice (v : View) : List Item := (v.series.items.drop v.fromI.toNat).take (v.toI - v.fromI).toNat

theorem View.slice_length {v : View} (h : v.Valid) : v.slice.length = (v.toI - v.fromI).toNat := by
  have := h.lo; have := h.mid; have := h.hi
  unfold View.slice
  rw [List.length_take, List.length_drop]
  omega

theorem View.slice_get {v : View} (k : ℕ) (hk : k < (v.toI - v.fromI).toNat) :
    v.slice[k]? = v.series.items[v.fromI.toNat + k]? := by
  unfold View.slice
  rw [List.getElem?_take_of_lt hk, List.getElem?_drop]

theorem View.drain_spec (v : View) (h : v.Valid) : ∀ (m : ℕ) (c : ℕ), (c : Int) + m = v.toI - v.fromI →
    View.drain (m + 1) { v with count := c } =
      ({ v with count := v.toI - v.fromI }, .ok (v.slice.drop c)) := by
  intro m
  have hlen := View.slice_length h
  have h1 := h.lo; have h2 := h.mid; have h3 := h.hi
  induction m with
  | zero =>
    intro c hc
    unfold View.drain View.next
    simp only
    rw [if_pos (by omega)]
    simp only
    rw [List.drop_eq_nil_of_le (by omega)]
    have : (c : Int) = v.toI - v.fromI := by omega
    rw [this]
  | succ m ih =>
    intro c hc
    unfold View.drain
    have hnext : View.next { v with count := (c : Int) } =
        ({ v with count := ((c + 1 : ℕ) : Int) }, .ok (v.slice[c]?)) := by
      unfold View.next
      simp only
      rw [if_neg (by omega)]
      obtain ⟨x, hx, hx'⟩ := getAt_nonneg (s := v.series) (i := (c : Int) + v.fromI) (by omega) (by omega)
      rw [hx]
      simp only
      rw [View.slice_get c (by omega), show v.fromI.toNat + c = ((c : Int) + v.fromI).toNat by omega, hx']
      rfl
    rw [hnext]
    have hc' : c < v.slice.length := by omega
    rw [List.getElem?_eq_getElem hc']
    simp only
    rw [ih (c + 1) (by push_cast at hc ⊢; omega)]
    simp only
    rw [← List.getElem_cons_drop (h := hc')]

/-- **C14** For bounds `0 ≤ from ≤ to ≤ len`, the view has length `to - from`, iterating over it gives
the items of the slice, and `view[k]` is the `k`-th item of the slice for every `k` in
`[-len, len)`, counting from the end when negative. -/
theorem C14_view_reads_like_slice (v : View) (h : v.Valid) :
    v.len = .ok v.slice.length ∧ v.slice.length = (v.toI - v.fromI).toNat ∧
    v.toList = .ok v.slice ∧
    (∀ k : ℕ, ∀ hk : k < v.slice.length, v.getAt k = .ok (v.slice[k])) ∧
    (∀ k : ℕ, ∀ hk : 1 ≤ k ∧ k ≤ v.slice.length,
      v.getAt (-k) = .ok (v.slice[v.slice.length - k]'(by omega))) := by
  have hlen := View.slice_length h
  have h1 := h.lo; have h2 := h.mid; have h3 := h.hi
  refine ⟨?_, hlen, ?_, ?_, ?_⟩
  · unfold View.len; rw [if_neg (by omega), hlen]
  · unfold View.toList
    have := View.drain_spec v h (v.toI - v.fromI).toNat 0 (by simp; omega)
    have he : v.iter = { v with count := ((0 : ℕ) : Int) } := rfl
    rw [he, this]
    simp
  · intro k hk
    unfold View.getAt
    rw [if_pos (by omega)]
    obtain ⟨x, hx, hx'⟩ := getAt_nonneg (s := v.series) (i := v.fromI + k) (by omega) (by omega)
    rw [hx]
    have := View.slice_get (v := v) k (by omega)
    rw [show v.fromI.toNat + k = (v.fromI + k).toNat by omega, hx', List.getElem?_eq_getElem hk] at this
    simp at this; rw [this]
  · intro k hk
    unfold View.getAt
    have habs : |(-(k : Int))| = k := by rw [abs_neg]; exact abs_of_nonneg (by omega)
    rw [if_neg (by omega), habs]
    obtain ⟨x, hx, hx'⟩ := getAt_nonneg (s := v.series) (i := v.toI - k) (by omega) (by omega)
    rw [hx]
    have hk' : v.slice.length - k < v.slice.length := by omega
    have := View.slice_get (v := v) (v.slice.length - k) (by omega)
    rw [show v.fromI.toNat + (v.slice.length - k) = (v.toI - k).toNat by omega, hx',
      List.getElem?_eq_getElem hk'] at this
    simp at this; rw [this]

/-- a view of the two middle items of four -/
example : View.Valid { series := { items := [mkPoint 0 (.num 1), mkPoint 60 (.num 2), mkPoint 120 (.num 3),
    mkPoint 180 (.num 4)] }, fromI := 1, toI := 3 } := ⟨by decide, by decide, by decide⟩

/-- **C14, slices of a view**: for bounds between `-len(view)` and `len(view)`, or missing,
`view[a:b]` succeeds and holds exactly the items of the Python list slice of the items of the view. -/
theorem C14_view_slices (v : View) (h : v.Valid) (hne : v.series.items ≠ [])
    (hg : GoodPoints v.series.items ∨ GoodSlots v.series.items) (a b : Option Int)
    (ha : ∀ i, a = some i → |i| ≤ v.slice.length) (hb : ∀ i, b = some i → |i| ≤ v.slice.length) :
    ∃ r, v.getSlice a b = .ok r ∧ r.items = pyListSlice v.slice a b := by
  have hlen := View.slice_length h
  have h1 := h.lo; have h2 := h.mid; have h3 := h.hi
  rw [hlen] at ha hb
  obtain ⟨A, hA, hA0, hA1⟩ : ∃ A : ℕ, v.bound v.fromI a = v.fromI + A ∧ A ≤ v.slice.length ∧
      pyListSlice v.slice a b = pyListSlice v.slice (some (A : Int)) b := by
    cases a with
    | none => exact ⟨0, by simp [View.bound], by omega, by simp [pyListSlice, pyBound]⟩
    | some i =>
      have hi := ha i rfl
      by_cases h0 : i ≥ 0
      · rw [abs_of_nonneg h0] at hi
        exact ⟨i.toNat, by simp only [View.bound, if_pos h0]; omega, by omega, by rw [Int.toNat_of_nonneg h0]⟩
      · have hneg : i < 0 := by omega
        rw [abs_of_neg hneg] at hi
        refine ⟨(v.slice.length + i).toNat, ?_, by omega, ?_⟩
        · simp only [View.bound, if_neg h0]; rw [abs_of_neg hneg]; omega
        · unfold pyListSlice pyBound
          simp only [if_pos hneg]
          rw [if_neg (by omega)]
          congr 2
          · omega
          · omega
  obtain ⟨B, hB, hB0, hB1⟩ : ∃ B : ℕ, v.bound v.toI b = v.fromI + B ∧ B ≤ v.slice.length ∧
      pyListSlice v.slice (some (A : Int)) b = pyListSlice v.slice (some (A : Int)) (some (B : Int)) := by
    cases b with
    | none => exact ⟨v.slice.length, by simp only [View.bound]; omega, le_refl _, by
        unfold pyListSlice pyBound; simp only; rw [if_neg (by omega), if_neg (by omega), Int.toNat_natCast, Int.toNat_natCast, min_self]⟩
    | some i =>
      have hi := hb i rfl
      by_cases h0 : i ≥ 0
      · rw [abs_of_nonneg h0] at hi
        exact ⟨i.toNat, by simp only [View.bound, if_pos h0]; omega, by omega, by rw [Int.toNat_of_nonneg h0]⟩
      · have hneg : i < 0 := by omega
        rw [abs_of_neg hneg] at hi
        refine ⟨(v.slice.length + i).toNat, ?_, by omega, ?_⟩
        · simp only [View.bound, if_neg h0]; rw [abs_of_neg hneg]; omega
        · unfold pyListSlice pyBound
          simp only [if_pos hneg]
          rw [if_neg (by omega), if_neg (by omega)]
          congr 1
          omega
  obtain ⟨r, hr, hi⟩ := C11_index_slicing v.series hne hg (some (v.fromI + A)) (some (v.fromI + B))
    (Or.inl rfl)
  refine ⟨r, ?_, ?_⟩
  · unfold View.getSlice
    rw [hA, hB]; exact hr
  · rw [hi, hA1, hB1]
    unfold pyListSlice pyBound View.slice
    simp only
    rw [if_neg (by omega), if_neg (by omega), if_neg (by omega), if_neg (by omega)]
    rw [hlen] at hA0 hB0
    have e1 : min (v.fromI + A).toNat v.series.items.length = v.fromI.toNat + A := by omega
    have e2 : min (v.fromI + B).toNat v.series.items.length = v.fromI.toNat + B := by omega
    have hl : ((v.series.items.drop v.fromI.toNat).take (v.toI - v.fromI).toNat).length =
        (v.toI - v.fromI).toNat := hlen
    rw [e1, e2, hl, Int.toNat_natCast, Int.toNat_natCast, min_eq_left hA0, min_eq_left hB0,
      List.drop_take, List.drop_drop, List.take_take]
    congr 1
    omega

/-- the last item but one of a view of the first three of four points -/
example : (View.getSlice { series := { items := [mkPoint 0 (.num 1), mkPoint 60 (.num 2),
    mkPoint 120 (.num 3), mkPoint 180 (.num 4)] }, fromI := 0, toI := 3 } (some (-2)) (some (-1))).toOption.map
    (·.items) = some [mkPoint 60 (.num 2)] := by decide +kernel

/-- **C17, views**: materializing a view of good points or slots gives a series with the items of the
view. -/
theorem C17_materialize (v : View) (h : v.Valid)
    (hg : GoodPoints v.series.items ∨ GoodSlots v.series.items) :
    ∃ r, v.materialize = .ok r ∧ r.items = v.slice := by
  have hinf : v.slice <:+: v.series.items := by
    unfold View.slice
    exact (List.take_prefix _ _).isInfix.trans (List.drop_suffix _ _).isInfix
  unfold View.materialize
  rw [(C14_view_reads_like_slice v h).2.2.1]
  rcases hg with hg | hg
  · obtain ⟨r, hr, hi, _⟩ := build_good (hg.sublist hinf.sublist); exact ⟨r, hr, hi⟩
  · obtain ⟨r, hr, hi, _⟩ := build_good_slots (hg.infix hinf); exact ⟨r, hr, hi⟩

/-! ## C15 -/

/-- **C15** is false: a view of the first of two items gives access to the second, by position and
by slicing. -/
theorem C15_false : ∃ v : View, v.Valid ∧ v.len = .ok 1 ∧ v.getAt 1 = .ok (mkPoint 60 (.num 2)) ∧
    v.getAt (-2) = .ok (mkPoint 60 (.num 2)) ∧
    (∃ r, v.getSlice (some 0) (some 2) = .ok r ∧ r.items.length = 2) :=
  ⟨{ series := { items := [mkPoint 0 (.num 1), mkPoint 60 (.num 2)] }, fromI := 0, toI := 1 },
   ⟨by decide, by decide, by decide⟩, by decide +kernel, by decide +kernel, by decide +kernel,
   ⟨{ items := [mkPoint 0 (.num 1), mkPoint 60 (.num 2)], prevT := some 60,
      res := .unit (TUnit.ofSecs 60), resS := some 60, ref := some (.num 1) }, by decide +kernel⟩⟩

/-- **C15, partial**: positions that fall outside of the underlying series do raise `IndexError`:
`k ≥ len(series) - from`, or `k < -(to + 2 len(series))`.  Missing: all the others outside of the
view (`C15_false`). -/
theorem C15_view_bounds_partial (v : View) (h : v.Valid) (k : Int)
    (hk : (v.series.items.length : Int) - v.fromI ≤ k ∨
      k < -(v.toI + 2 * v.series.items.length)) : v.getAt k = .error .indexError := by
  have h1 := h.lo; have h2 := h.mid; have h3 := h.hi
  unfold View.getAt
  rcases hk with hk | hk
  · rw [if_pos (by omega)]
    exact (C196_all_positions_partial v.series _).2.2.2 (Or.inl (by omega))
  · rw [if_neg (by omega), abs_of_neg (show k < 0 by omega)]
    exact (C196_all_positions_partial v.series _).2.2.2 (Or.inr (by omega))

/-! ## C16 -/

/-- **C16** is false, for every view of two or more items: in a nested loop over the same view the
outer loop stops after its first item, because the counter is shared; the pairs visited are only
those of the first item. -/
theorem C16_false (v : View) (h : v.Valid) (a : Item) (r : List Item) (hs : v.slice = a :: r) :
    v.nested = .ok ((a :: r).map (fun b => (a, b))) := by
  have hlen := View.slice_length h
  have h1 := h.lo; have h2 := h.mid; have h3 := h.hi
  have hpos : 0 < (v.toI - v.fromI).toNat := by rw [← hlen, hs]; simp
  obtain ⟨m, hm⟩ : ∃ m, (v.toI - v.fromI).toNat = m + 1 := ⟨_, (Nat.succ_pred_eq_of_pos hpos).symm⟩
  have hget : v.series.getAt (0 + v.fromI) = .ok a := by
    have := (C14_view_reads_like_slice v h).2.2.2.1 0 (by rw [hs]; simp)
    unfold View.getAt at this
    simp only [hs] at this
    simpa using this
  have hdr := View.drain_spec v h (m + 1) 0 (by push_cast; omega)
  unfold View.nested
  rw [hm]
  have hn1 : View.next v.iter = ({ v with count := 1 }, .ok (some a)) := by
    unfold View.next View.iter
    simp only
    rw [if_neg (by omega), hget]
    simp
  have hit : View.iter { v with count := 1 } = { v with count := ((0 : ℕ) : Int) } := rfl
  have hn2 : View.next { v with count := v.toI - v.fromI } =
      ({ v with count := v.toI - v.fromI }, .ok none) := by
    unfold View.next
    simp only
    rw [if_pos (by omega)]
  have hend : ∀ f, View.nestedAux f { v with count := v.toI - v.fromI } = .ok [] := by
    intro f
    cases f with
    | zero => rfl
    | succ f => rw [View.nestedAux, hn2]
  rw [View.nestedAux, hn1]
  simp only
  have hfu : (v.iter.toI - v.iter.fromI).toNat + 1 = m + 1 + 1 := by
    show (v.toI - v.fromI).toNat + 1 = _
    rw [hm]
  rw [hit, hfu, hdr]
  simp only
  rw [hend, List.drop_zero, hs]
  simp

/-- so the nested loop misses pairs -/
theorem C16_false_witness : ∃ v : View, v.Valid ∧ v.slice.length = 2 ∧
    ∃ ps, v.nested = .ok ps ∧ ps.length = 2 :=
  ⟨{ series := { items := [mkPoint 0 (.num 1), mkPoint 60 (.num 2)] }, fromI := 0, toI := 2 },
   ⟨by decide, by decide, by decide⟩, by decide +kernel,
   [(mkPoint 0 (.num 1), mkPoint 0 (.num 1)), (mkPoint 0 (.num 1), mkPoint 60 (.num 2))],
   by decide +kernel⟩

/-- **C16, partial**: iterations one after the other (the second started after the first ended, or
after any number of `next` calls) each give all the items. -/
theorem C16_sequential_partial (v : View) (h : v.Valid) (c : Int) :
    View.toList { v with count := c } = .ok v.slice :=
  (C14_view_reads_like_slice { v with count := c } ⟨h.lo, h.mid, h.hi⟩).2.2.1

/-! ## C76 -/

/-- **C76** is false: the tolerance of the succession check is relative to the epoch timestamp (about
1.7 seconds nowadays), so that the same one-second slot can be appended twice. -/
theorem C76_false :
    let sl : Item := { t := 1700000000, slot := some (1700000001, TUnit.ofSecs 1), data := some (.num 1) }
    ∃ s, TSeries.build [sl, sl] = .ok s :=
  ⟨{ items := [{ t := 1700000000, slot := some (1700000001, TUnit.ofSecs 1), data := some (.num 1) },
       { t := 1700000000, slot := some (1700000001, TUnit.ofSecs 1), data := some (.num 1) }],
     res := .unit (TUnit.ofSecs 1), tz := some "UTC", ref := some (.num 1) }, by decide +kernel⟩

/-- **C76, partial**: if each slot is longer than the tolerance (a billionth of its end or of the
following start) the slots of a series are strictly increasing in time. -/
theorem C76_slots_ordered_partial (z : Option String) (ops : List Op)
    (hp : AllSlots ((TSeries.fresh z).run ops).items)
    (hlong : ∀ x ∈ ((TSeries.fresh z).run ops).items, ∀ y ∈ ((TSeries.fresh z).run ops).items,
      (1 / 1000000000) * max |x.endT| |y.t| < x.endT - x.t) :
    StrictlyOrdered ((TSeries.fresh z).run ops).items := by
  have hs := (run_inv (P := fun s => SuccInv s.items) (Q := fun _ => True)
    (fun s op _ h => succ_step s op h) ops (fun _ _ => trivial) (TSeries.fresh z) succ_nil).2 hp
  generalize ((TSeries.fresh z).run ops).items = l at hs hlong
  have hch : l.IsChain (fun a b => a.t < b.t) := by
    clear hp
    induction l with
    | nil => exact List.IsChain.nil
    | cons a r ih =>
      cases r with
      | nil => exact List.IsChain.singleton a
      | cons b r' =>
        have h1 := List.isChain_cons_cons.1 hs
        refine List.isChain_cons_cons.2 ⟨?_, ih h1.2 (fun x hx y hy => hlong x (List.mem_cons_of_mem _ hx) y (List.mem_cons_of_mem _ hy))⟩
        have hc : CloseTo a.endT b.t := h1.1
        have hl := hlong a (by simp) b (by simp)
        unfold CloseTo at hc
        have := (abs_le.1 hc).2
        linarith
  have : IsTrans Item (fun a b => a.t < b.t) := ⟨fun a b c h h' => lt_trans h h'⟩
  exact List.isChain_iff_pairwise.1 hch

example :
    let sl (t : ℚ) : Item := { t := t, slot := some (t + 60, TUnit.ofSecs 60), data := some (.num 1) }
    ∀ x ∈ [sl 1700000000, sl 1700000060], ∀ y ∈ [sl 1700000000, sl 1700000060],
      (1 / 1000000000) * max |x.endT| |y.t| < x.endT - x.t := by
  intro sl
  have : ∀ x ∈ [sl 1700000000, sl 1700000060], ∀ y ∈ [sl 1700000000, sl 1700000060],
      decide ((1 / 1000000000) * max |x.endT| |y.t| < x.endT - x.t) = true := by decide +kernel
  intro x hx y hy
  simpa using this x hx y hy

/-! ## C77 -/

/-- **C202** is false: the last zero items are all the items. -/
theorem C202_false : ∃ s, TSeries.build [mkPoint 0 (.num 1), mkPoint 60 (.num 1)] = .ok s ∧
    s.tail 0 = .ok s.items ∧ s.items.length = 2 :=
  ⟨{ items := [mkPoint 0 (.num 1), mkPoint 60 (.num 1)], prevT := some 60,
     res := .unit (TUnit.ofSecs 60), resS := some 60, ref := some (.num 1) }, by decide +kernel⟩

/-- **C77**: on a good non-empty series, `head(n)` gives the first `n` items for every
`n ≥ 0` and `tail(n)` the last `n` for every `n ≥ 1`.  `tail(0)` is C202. -/
theorem C77_head_tail (s : TSeries) (hne : s.items ≠ [])
    (hg : GoodPoints s.items ∨ GoodSlots s.items) (n : ℕ) :
    s.head n = .ok (s.items.take n) ∧
    (1 ≤ n → s.tail n = .ok (s.items.drop (s.items.length - n))) := by
  constructor
  · obtain ⟨r, hr, hi⟩ := C11_index_slicing s hne hg (some 0) (some n) (Or.inl rfl)
    unfold TSeries.head
    rw [hr]
    simp only [hi]
    unfold pyListSlice pyBound
    simp only [lt_irrefl, if_false, Int.toNat_zero, Nat.zero_min, List.drop_zero, Nat.sub_zero]
    rw [if_neg (by omega), Int.toNat_natCast]
    congr 1
    rcases le_total n s.items.length with h | h
    · rw [min_eq_left h]
    · rw [min_eq_right h, List.take_length, List.take_of_length_le h]
  · intro h1
    obtain ⟨r, hr, hi⟩ := C11_index_slicing s hne hg (some (-(n : Int))) none (Or.inl rfl)
    unfold TSeries.tail
    rw [hr]
    simp only [hi]
    unfold pyListSlice pyBound
    simp only
    rw [if_pos (by omega), List.take_of_length_le (by rw [List.length_drop])]
    congr 2
    omega

end Timeseria
