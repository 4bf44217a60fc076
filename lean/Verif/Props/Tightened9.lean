import Verif.Props.ViewObj
import Verif.Props.Tightened7

/-! # Views: refused and empty slices, insertions in the middle, pop -/

namespace Timeseria

/-- **C274 (refused)**: on a view, as on a series, giving a bound twice or mixing positions and times is refused with `ValueError`, also when the view
shows nothing; consistent bounds on a view which shows nothing (of a series which has items) give an empty series. -/
theorem C274_bounds_partial (o : ViewObj) (fi ti : Option Int) (ft tt : Option ℚ) :
    ((fi.isSome ∨ ti.isSome) ∧ (ft.isSome ∨ tt.isSome) → o.slice fi ti ft tt = .error .valueError) ∧
    (o.view.series.items ≠ [] → o.view.window = [] → ¬ ((fi.isSome ∨ ti.isSome) ∧ (ft.isSome ∨ tt.isSome)) →
      o.slice fi ti ft tt = .ok TSeries.empty) := by
  constructor
  · intro h
    unfold ViewObj.slice
    split
    · rfl
    split
    · cases fi <;> cases ti <;> cases ft <;> cases tt <;> simp at h ⊢
    · rename_i hne
      have : sliceItems o.view.window fi ti ft tt = .error .valueError := by
        unfold sliceItems
        rw [if_neg hne]
        cases fi <;> cases ti <;> cases ft <;> cases tt <;> simp at h ⊢
      rw [this]
  · intro hs he h
    unfold ViewObj.slice
    rw [if_neg (by simp [ViewObj.truthy, hs]), if_pos (by rw [he]; rfl)]
    cases fi <;> cases ti <;> cases ft <;> cases tt <;> simp at h ⊢

/-- **C273 (nothing to show)**: `get` by time on a view of an empty series raises `IndexError`, as on the series. -/
theorem C273_nothing_partial (o : ViewObj) (h : o.view.series.items = []) (t : ℚ) : o.getAtT t = .error .indexError := by
  unfold ViewObj.getAtT
  rw [if_pos (by simp [ViewObj.truthy, h])]

/-- **C269 (nothing to show)**: a view of an empty series, and a view of it, have no items: the length is zero, the list empty, every position raises
`IndexError`. -/
theorem C269_nothing (s : TSeries) (h : s.items = []) (a b k : Int) :
    (VSrc.view (.base s) a b).len = .ok 0 ∧ (VSrc.view (.base s) a b).toList = .ok [] ∧ (VSrc.view (.base s) a b).getAt k = .error .indexError := by
  have ht : (VSrc.base s).truthy = .ok false := by simp [VSrc.truthy, VSrc.size, h]
  refine ⟨by simp [VSrc.len, VSrc.size, h], ?_, ?_⟩
  · simp only [VSrc.toList, ht]
  · simp only [VSrc.getAt, ht]

/-- **C272 (in the middle)**: an insertion of a point in the middle of a view of points looks at the point shown before that position only: it is refused with
`ValueError` if the new point is not later; otherwise the point ends up in the list of the view, not in what it shows. -/
theorem C272_middle_partial (o : ViewObj) (i : ℕ) (x y z first ref : Item) (hr : o.view.series.items.head? = some ref)
    (hf : o.view.window.head? = some first) (hp : first.isSlot = false) (hi : x.isInstance ref.cls = true)
    (h0 : 0 < i) (hn : i < o.view.window.length) (hy : o.view.getAt ((i : Int) - 1) = .ok y) (hz : o.view.getAt i = .ok z) :
    (x.t ≤ y.t → o.insert i x = (o, .error .valueError)) ∧
    (y.t < x.t → (o.insert i x).2 = .ok () ∧ (o.insert i x).1.view = o.view ∧ (o.insert i x).1.own.items = insertAt o.own.items (pyInsertPos o.own.items.length i) x) := by
  obtain ⟨last, hl⟩ : ∃ last, o.view.window.getLast? = some last := by
    cases hw : o.view.window with
    | nil => rw [hw] at hn; simp at hn
    | cons a r => exact ⟨_, List.getLast?_cons ..⟩
  have e1 : ¬ ((i : Int) = 0) := by omega
  have e2 : ¬ ((i : Int) = (o.view.window.length : Int)) := by omega
  unfold ViewObj.insert
  rw [hf, hl, hr]
  dsimp only
  rw [if_neg (by simp [hi]), if_neg e1, if_neg e2, if_neg (by simp [hp]), hy]
  dsimp only
  constructor
  · intro h
    rw [if_neg (not_lt.mpr h), hz]
  · intro h
    rw [if_pos h]
    exact ⟨rfl, rfl, rfl⟩

/-- **C272 (pop)**: what was inserted in a view can be popped from it: `pop` takes from the list of the view, not from what it shows; for slots, only the first
position and the one after the last (which does not exist) are allowed. -/
theorem C272_pop_partial (o : ViewObj) (y z : Item) (hw : o.view.window.head? = some y) (k : ℕ) (hz : o.own.items[k]? = some z)
    (hk : y.isSlot = false ∨ k = 0) :
    (o.pop (some k)).2 = .ok z ∧ (o.pop (some k)).1.view = o.view ∧ (o.pop (some k)).1.own.items = o.own.items.eraseIdx k := by
  have hlt := (List.getElem?_eq_some_iff.1 hz).1
  have hpos : pyPos o.own.items.length (k : Int) = some k := by
    unfold pyPos
    simp [hlt]
  unfold ViewObj.pop
  cases hv : o.view.window with
  | nil => rw [hv] at hw; simp at hw
  | cons a r =>
    rw [hv] at hw
    simp only [List.head?_cons, Option.some.injEq] at hw
    subst hw
    dsimp only
    rw [if_neg (by
      rintro ⟨h1, _, h3⟩
      rcases hk with hk | hk
      · rw [hk] at h3; cases h3
      · exact h1 (by exact_mod_cast hk)), hpos]
    dsimp only
    rw [hz]
    exact ⟨rfl, rfl, rfl⟩

/-- **C272 (pop of slots)**: in a view of slots, a position other than these is refused with `IndexError`. -/
theorem C272_pop_slots_partial (o : ViewObj) (y : Item) (hw : o.view.window.head? = some y) (hs : y.isSlot = true) (i : Int) (h0 : i ≠ 0)
    (hn : i ≠ o.view.window.length) : o.pop (some i) = (o, .error .indexError) := by
  unfold ViewObj.pop
  cases hv : o.view.window with
  | nil => rw [hv] at hw
  | cons a r =>
    rw [hv] at hw hn
    simp only [List.head?_cons, Option.some.injEq] at hw
    subst hw
    dsimp only
    rw [if_pos]
    exact ⟨h0, hn, hs⟩

example : (exView.insert 1 (mkPoint 30 (.num 9))).2 = .ok () ∧ ((exView.insert 1 (mkPoint 30 (.num 9))).1.pop (some 0)).2.toOption = some (mkPoint 30 (.num 9)) := by
  decide +kernel

end Timeseria
