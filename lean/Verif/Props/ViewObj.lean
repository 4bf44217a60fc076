import Verif.Model.ViewObj
import Verif.Props.Access
import Verif.Props.ListMethods
import Verif.Props.OpsScalar
import Verif.Props.Sampling
import Verif.Props.Pipeline

/-! # Properties C267 - C277: views as objects -/

namespace Timeseria

theorem View.window_slice (v : View) : v.window = v.slice := rfl

theorem View.window_infix (v : View) : v.window <:+: v.series.items :=
  (List.take_prefix _ _).isInfix.trans (List.drop_suffix _ _).isInfix

/-- Specification: a view just made by `series.view(a, b)`, with `0 ≤ a ≤ b ≤ len(series)` and a series
with items: nothing was ever put in its own list, no attribute was set. -/
structure ViewObj.Fresh (o : ViewObj) : Prop where
  valid : o.view.Valid
  shown : o.view.series.items ≠ []
  own : o.own = {}

/-- five points, a minute apart but for the last, the zones differing -/
def viewSeries : TSeries where
  items := [mkPoint 0 (.num 1), mkPoint 60 (.num 2), mkPoint 120 (.num 3), mkPoint 180 (.num 4) "Europe/Rome",
    mkPoint 400 (.num 5)]
  prevT := some 400
  res := .varying
  ref := some (.num 1)

/-- the view of the first three -/
def exView : ViewObj where
  view := { series := viewSeries, fromI := 0, toI := 3 }

/-- the view of the last two -/
def exView' : ViewObj where
  view := { series := viewSeries, fromI := 3, toI := 5 }

theorem exView_fresh : exView.Fresh := ⟨⟨by decide, by decide, by decide⟩, by decide, rfl⟩
theorem exView'_fresh : exView'.Fresh := ⟨⟨by decide, by decide, by decide⟩, by decide, rfl⟩

/-! ## C267: comparing views -/

/-- **C267** is false, for all views: any two views just made are equal, whatever they show and of whatever
series; and a view is never equal to a series with items, not even to the one it shows in full. -/
theorem C267_false (o p : ViewObj) (ho : o.Fresh) (hp : p.Fresh) :
    o.equals p = .ok true ∧ ∀ s : TSeries, s.items ≠ [] → o.equalsSeries s = .ok false := by
  refine ⟨?_, fun s hs => ?_⟩
  · unfold ViewObj.equals; rw [ho.own, hp.own]; rfl
  · unfold ViewObj.equalsSeries TSeries.equals
    rw [ho.own, if_pos]
    intro h
    exact hs (List.length_eq_zero_iff.1 h.symm)

/-- two views with no item in common which are equal -/
theorem C267_false_witness : exView.equals exView' = .ok true ∧ exView.view.toList ≠ exView'.view.toList ∧
    exView.view.len = .ok 3 ∧ exView'.view.len = .ok 2 := by decide +kernel

/-- **C267 (materialized views), partial**: the materialized copies of two views of good points, or of good
slots, are equal exactly when the views show as many items and the same ones, in time and data.  Missing: the
views themselves (`C267_false`). -/
theorem C267_materialized_partial (v w : View) (hv : v.Valid) (hw : w.Valid)
    (gv : GoodPoints v.series.items ∨ GoodSlots v.series.items) (gw : GoodPoints w.series.items ∨ GoodSlots w.series.items)
    (hc : ∀ x ∈ v.window, ∀ y ∈ w.window, Comparable x y) :
    ∃ r q b, v.materialize = .ok r ∧ w.materialize = .ok q ∧ r.equals q = .ok b ∧
      (b = true ↔ v.window.length = w.window.length ∧
        ∀ (i : ℕ) (x y : Item), v.window[i]? = some x → w.window[i]? = some y → SameItem x y) := by
  obtain ⟨r, hr, hri⟩ := C17_materialize v hv gv
  obtain ⟨q, hq, hqi⟩ := C17_materialize w hw gw
  have key : ∀ (l m : List Item), (∀ x ∈ l, ∀ y ∈ m, Comparable x y) → l.length = m.length →
      ∃ b, listEqItems l m = .ok b ∧
        (b = true ↔ ∀ (i : ℕ) (x y : Item), l[i]? = some x → m[i]? = some y → SameItem x y) := by
    intro l
    induction l with
    | nil =>
      intro m _ hl
      have : m = [] := List.length_eq_zero_iff.1 hl.symm
      subst this
      exact ⟨true, rfl, by simp⟩
    | cons x l ih =>
      intro m hc hl
      cases m with
      | nil => simp at hl
      | cons y m =>
        have hxy := itemEq_same (hc x (by simp) y (by simp))
        by_cases hs : SameItem x y
        · obtain ⟨b, hb, hiff⟩ := ih m (fun x' hx y' hy => hc x' (by simp [hx]) y' (by simp [hy])) (by simpa using hl)
          refine ⟨b, by simp [listEqItems, hxy.1 hs, hb], hiff.trans ⟨fun h i x' y' => ?_, fun h i x' y' hx hy => ?_⟩⟩
          · cases i with
            | zero => rintro ⟨⟩ ⟨⟩; exact hs
            | succ i => exact h i x' y'
          · exact h (i + 1) x' y' hx hy
        · exact ⟨false, by simp [listEqItems, hxy.2 hs], by
            simp only [Bool.false_eq_true, false_iff]
            exact fun h => hs (h 0 x y rfl rfl)⟩
  rw [View.window_slice] at hc ⊢
  rw [View.window_slice] at hc ⊢
  by_cases hl : v.slice.length = w.slice.length
  · obtain ⟨b, hb, hiff⟩ := key _ _ hc hl
    refine ⟨r, q, b, hr, hq, ?_, by simp only [hl, true_and, hiff]⟩
    unfold TSeries.equals
    rw [hri, hqi, if_neg (by simpa using hl), hb]
  · refine ⟨r, q, false, hr, hq, ?_, by simp [hl]⟩
    unfold TSeries.equals
    rw [hri, hqi, if_pos hl]

/-! ## C268: membership -/

/-- **C268** is false, for all views: no item is ever in a view just made, not even one it shows. -/
theorem C268_false (o : ViewObj) (ho : o.Fresh) (x : Item) : o.contains x = .ok false := by
  unfold ViewObj.contains; rw [ho.own]; rfl

theorem C268_false_witness : exView.view.getAt 0 = .ok (mkPoint 0 (.num 1)) ∧
    exView.contains (mkPoint 0 (.num 1)) = .ok false := by decide +kernel

/-- **C268 (materialized views), partial**: an item is in the materialized copy exactly when the view shows
one equal to it.  Missing: the view itself (`C268_false`). -/
theorem C268_materialized_partial (v : View) (hv : v.Valid) (gv : GoodPoints v.series.items ∨ GoodSlots v.series.items)
    (x : Item) (hc : ∀ y ∈ v.window, Comparable y x) :
    ∃ r b, v.materialize = .ok r ∧ r.contains x = .ok b ∧ (b = true ↔ ∃ y ∈ v.window, SameItem y x) := by
  obtain ⟨r, hr, hri⟩ := C17_materialize v hv gv
  rw [← View.window_slice] at hri
  rcases findEq_spec x v.window 0 hc with ⟨j, y, hj, hy, _, hf⟩ | ⟨hn, hf⟩
  · refine ⟨r, true, hr, by unfold TSeries.contains; rw [hri, hf], by
      simp only [true_iff]; exact ⟨y, List.mem_of_getElem? hj, hy⟩⟩
  · refine ⟨r, false, hr, by unfold TSeries.contains; rw [hri, hf], by
      simp only [Bool.false_eq_true, false_iff]; rintro ⟨y, hy, hs⟩; exact hn y hy hs⟩

/-! ## C269: views of views -/

/-- Specification: what a view of a view … of a series shows: the part of the part … of the items. -/
def VSrc.shows : VSrc → List Item
  | .base s => s.items
  | .view src a b => (src.shows.drop a.toNat).take (b - a).toNat

/-- Specification: at each level the bounds are ordered and inside what is shown below, which has items. -/
def VSrc.WellMade : VSrc → Prop
  | .base s => s.items ≠ []
  | .view src a b => src.WellMade ∧ src.shows ≠ [] ∧ 0 ≤ a ∧ a ≤ b ∧ b ≤ src.shows.length

theorem VSrc.shows_length {src : VSrc} {a b : Int} (h : (VSrc.view src a b).WellMade) :
    (VSrc.view src a b).shows.length = (b - a).toNat := by
  obtain ⟨_, _, h0, hab, hb⟩ := h
  unfold VSrc.shows
  rw [List.length_take, List.length_drop]
  omega

theorem VSrc.size_shows (v : VSrc) (h : v.WellMade) :
    v.len = .ok v.shows.length ∧ (v.shows ≠ [] → v.truthy = .ok true) := by
  induction v with
  | base s =>
    refine ⟨rfl, fun hne => ?_⟩
    have hne : s.items ≠ [] := hne
    unfold VSrc.truthy VSrc.size
    cases hi : s.items with
    | nil => exact absurd hi hne
    | cons => rfl
  | view src a b ih =>
    have hlen := VSrc.shows_length h
    obtain ⟨hs, hne, h0, hab, hb⟩ := h
    obtain ⟨ih1, ih2⟩ := ih hs
    have ih2 := ih2 hne
    unfold VSrc.len at ih1
    unfold VSrc.truthy at ih2
    refine ⟨?_, fun _ => ?_⟩
    · unfold VSrc.len VSrc.size
      dsimp only
      rw [ih2]
      dsimp only
      rw [if_neg (by omega), hlen]
    · unfold VSrc.truthy VSrc.size
      dsimp only
      rw [ih1]
      have : src.shows.length ≠ 0 := fun hz => hne (List.length_eq_zero_iff.1 hz)
      simp [this]

theorem VSrc.getAt_shows (v : VSrc) (h : v.WellMade) :
    (∀ k : ℕ, ∀ hk : k < v.shows.length, v.getAt k = .ok (v.shows[k])) ∧
    (∀ k : ℕ, ∀ hk : 1 ≤ k ∧ k ≤ v.shows.length, v.getAt (-k) = .ok (v.shows[v.shows.length - k]'(by omega))) := by
  induction v with
  | base s =>
    refine ⟨fun k hk => ?_, fun k hk => ?_⟩
    · obtain ⟨x, hx, hx'⟩ := getAt_nonneg (s := s) (i := (k : Int)) (by omega) (by exact_mod_cast hk)
      unfold VSrc.getAt VSrc.shows at *
      rw [hx]
      rw [Int.toNat_natCast, List.getElem?_eq_getElem hk] at hx'
      simpa using hx'.symm
    · unfold VSrc.getAt VSrc.shows at *
      unfold TSeries.getAt getPos
      rw [if_neg (by omega), abs_neg, abs_of_nonneg (by omega)]
      have : pyPos s.items.length ((s.items.length : Int) - (k : Int)) = some (s.items.length - k) := by
        unfold pyPos
        rw [if_pos (by omega)]
        congr 1
        omega
      rw [this]
      dsimp only
      rw [List.getElem?_eq_getElem (by omega)]
  | view src a b ih =>
    have hlen := VSrc.shows_length h
    obtain ⟨hs, hne, h0, hab, hb⟩ := h
    obtain ⟨ih1, ih2⟩ := ih hs
    have htr := (VSrc.size_shows src hs).2 hne
    have hget : ∀ (j : ℕ) (hj : j < (VSrc.view src a b).shows.length),
        src.getAt (a + j) = .ok ((VSrc.view src a b).shows[j]) := by
      intro j hj
      have hj2 : a.toNat + j < src.shows.length := by omega
      have := ih1 (a.toNat + j) hj2
      rw [show ((a.toNat + j : ℕ) : Int) = a + j by omega] at this
      rw [this]
      congr 1
      have hj3 : j < ((src.shows.drop a.toNat).take (b - a).toNat).length := hj
      show _ = ((src.shows.drop a.toNat).take (b - a).toNat)[j]
      rw [List.getElem_take, List.getElem_drop]
    refine ⟨fun k hk => ?_, fun k hk => ?_⟩
    · unfold VSrc.getAt
      rw [htr]
      dsimp only
      rw [if_pos (by omega)]
      exact hget k hk
    · unfold VSrc.getAt
      rw [htr]
      dsimp only
      rw [if_neg (by omega), abs_neg, abs_of_nonneg (by omega)]
      rw [show b - (k : Int) = a + (((VSrc.view src a b).shows.length - k : ℕ) : Int) by omega]
      exact hget _ (by omega)

theorem mapE_positions {α : Type} (l : List α) (f : ℕ → Except PyErr α) (m : ℕ)
    (h : ∀ k : ℕ, ∀ hk : k < l.length, f (m + k) = .ok l[k]) : mapE f (List.range' m l.length) = .ok l := by
  induction l generalizing m with
  | nil => rfl
  | cons x r ih =>
    rw [List.length_cons, List.range'_succ]
    unfold mapE
    have h0 := h 0 (by simp)
    rw [Nat.add_zero] at h0
    rw [h0]
    dsimp only
    rw [List.getElem_cons_zero, ih (m + 1) (fun k hk => by
      have := h (k + 1) (by simpa using hk)
      rw [show m + (k + 1) = m + 1 + k by omega] at this
      simpa using this)]

/-- **C269** A view of a view, at any depth and of any series, reads like the part of the part of the items:
same length, same items when iterating, same item for every position in `[-len, len)`. -/
theorem C269_nested (v : VSrc) (h : v.WellMade) :
    v.len = .ok v.shows.length ∧ v.toList = .ok v.shows ∧
    (∀ k : ℕ, ∀ hk : k < v.shows.length, v.getAt k = .ok (v.shows[k])) ∧
    (∀ k : ℕ, ∀ hk : 1 ≤ k ∧ k ≤ v.shows.length, v.getAt (-k) = .ok (v.shows[v.shows.length - k]'(by omega))) := by
  refine ⟨(VSrc.size_shows v h).1, ?_, VSrc.getAt_shows v h⟩
  cases v with
  | base s => rfl
  | view src a b =>
    have hlen := VSrc.shows_length h
    have hg := (VSrc.getAt_shows _ h).1
    have hne := h.2.1
    have htr := (VSrc.size_shows src h.1).2 hne
    unfold VSrc.toList
    dsimp only
    rw [htr]
    dsimp only
    rw [← hlen, List.range_eq_range']
    refine mapE_positions _ _ 0 (fun k hk => ?_)
    have := hg k hk
    unfold VSrc.getAt at this
    rw [htr] at this
    dsimp only at this
    rw [if_pos (by omega)] at this
    rw [Nat.zero_add]
    exact this

/-- **C269 (a view of a view is a view)**: a view from `c` to `d` of the view from `a` to `b` shows what the view
from `a + c` to `a + d` of the series does. -/
theorem C269_flatten (s : TSeries) (a b c d : Int) (h : (VSrc.view (.view (.base s) a b) c d).WellMade) :
    (VSrc.view (.base s) (a + c) (a + d)).WellMade ∧
    (VSrc.view (.view (.base s) a b) c d).toList = (VSrc.view (.base s) (a + c) (a + d)).toList := by
  have hl := VSrc.shows_length h.1
  have hw : (VSrc.view (.base s) (a + c) (a + d)).WellMade := by
    obtain ⟨⟨h1, h2, h3, h4, h5⟩, h6, h7, h8, h9⟩ := h
    refine ⟨h1, h2, by omega, by omega, ?_⟩
    omega
  refine ⟨hw, ?_⟩
  rw [(C269_nested _ h).2.1, (C269_nested _ hw).2.1]
  obtain ⟨⟨h1, h2, h3, h4, h5⟩, h6, h7, h8, h9⟩ := h
  rw [hl] at h9
  show Except.ok (((VSrc.view (.base s) a b).shows.drop c.toNat).take (d - c).toNat) =
    Except.ok (((VSrc.base s).shows.drop (a + c).toNat).take ((a + d) - (a + c)).toNat)
  rw [show (VSrc.view (.base s) a b).shows = (s.items.drop a.toNat).take (b - a).toNat from rfl,
    show (VSrc.base s).shows = s.items from rfl]
  rw [List.drop_take, List.drop_drop, List.take_take, show a.toNat + c.toNat = (a + c).toNat by omega,
    show min (d - c).toNat ((b - a).toNat - c.toNat) = ((a + d) - (a + c)).toNat by omega]

/-- a view of a view of a view of five points -/
example : (VSrc.view (.view (.view (.base viewSeries) 0 5) 1 5) 1 3).WellMade ∧
    (VSrc.view (.view (.view (.base viewSeries) 0 5) 1 5) 1 3).toList.toOption.map (fun l => l.map (·.t)) = some [120, 180] := by
  refine ⟨⟨⟨⟨?_, ?_, ?_, ?_, ?_⟩, ?_, ?_, ?_, ?_⟩, ?_, ?_, ?_, ?_⟩, ?_⟩ <;>
    first | decide +kernel | (unfold VSrc.WellMade; decide +kernel)

/-! ## C270: the time zone of a view, read inside a loop over it -/

theorem View.next_at {v : View} (h : v.Valid) (c : ℕ) (x : Item) (hx : v.window[c]? = some x) :
    View.next { v with count := (c : Int) } = ({ v with count := ((c + 1 : ℕ) : Int) }, .ok (some x)) := by
  have h1 := h.lo; have h2 := h.mid; have h3 := h.hi
  have hlen := View.slice_length h
  have hc : c < v.slice.length := by
    by_contra hc
    rw [View.window_slice, List.getElem?_eq_none (by omega)] at hx
    cases hx
  unfold View.next
  dsimp only
  rw [if_neg (by omega)]
  obtain ⟨y, hy, hy'⟩ := getAt_nonneg (s := v.series) (i := (c : Int) + v.fromI) (by omega) (by omega)
  rw [hy]
  dsimp only
  have hw := View.slice_get (v := v) c (by omega)
  rw [← View.window_slice, hx, show v.fromI.toNat + c = ((c : Int) + v.fromI).toNat by omega, hy'] at hw
  cases hw
  rfl

theorem View.next_end {v : View} (h : v.Valid) (c : ℕ) (hc : v.window.length ≤ c) :
    View.next { v with count := (c : Int) } = ({ v with count := (c : Int) }, .ok none) := by
  have h1 := h.lo; have h2 := h.mid; have h3 := h.hi
  have hlen := View.slice_length h
  rw [View.window_slice] at hc
  unfold View.next
  dsimp only
  rw [if_pos (by omega)]

/-- position reached by the loop of `tz`: past the first item of another zone, or at the end -/
def tzStop : Option String → List Item → ℕ
  | _, [] => 0
  | none, x :: r => tzStop (some x.tz) r + 1
  | some z, x :: r => if x.tz ≠ z then 1 else tzStop (some z) r + 1

theorem View.tzAux_spec {v : View} (h : v.Valid) : ∀ (f c : ℕ) (d : Option String), v.window.length < c + f → c ≤ v.window.length →
    View.tzAux f d { v with count := (c : Int) } =
      ({ v with count := ((c + tzStop d (v.window.drop c) : ℕ) : Int) }, .ok (detectTz d (v.window.drop c)))
  | 0, c, d, hf, hc => by omega
  | f + 1, c, d, hf, hc => by
    unfold View.tzAux
    by_cases hlt : c < v.window.length
    · rw [View.next_at h c _ (List.getElem?_eq_getElem hlt), List.drop_eq_getElem_cons hlt]
      dsimp only
      cases d with
      | none =>
        dsimp only
        rw [View.tzAux_spec h f (c + 1) (some (v.window[c]).tz) (by omega) (by omega)]
        rw [show tzStop none (v.window[c] :: v.window.drop (c + 1)) =
            tzStop (some (v.window[c]).tz) (v.window.drop (c + 1)) + 1 from rfl,
          show detectTz none (v.window[c] :: v.window.drop (c + 1)) =
            detectTz (some (v.window[c]).tz) (v.window.drop (c + 1)) from rfl]
        rw [show c + 1 + tzStop (some (v.window[c]).tz) (v.window.drop (c + 1)) =
          c + (tzStop (some (v.window[c]).tz) (v.window.drop (c + 1)) + 1) by omega]
      | some z =>
        dsimp only
        by_cases hz : (v.window[c]).tz ≠ z
        · unfold tzStop detectTz
          rw [if_pos hz, if_pos hz, if_pos hz]
        · rw [if_neg hz, View.tzAux_spec h f (c + 1) (some z) (by omega) (by omega)]
          rw [show tzStop (some z) (v.window[c] :: v.window.drop (c + 1)) =
              if (v.window[c]).tz ≠ z then 1 else tzStop (some z) (v.window.drop (c + 1)) + 1 from rfl,
            show detectTz (some z) (v.window[c] :: v.window.drop (c + 1)) =
              if (v.window[c]).tz ≠ z then some "UTC" else detectTz (some z) (v.window.drop (c + 1)) from rfl]
          rw [if_neg hz, if_neg hz]
          rw [show c + 1 + tzStop (some z) (v.window.drop (c + 1)) =
            c + (tzStop (some z) (v.window.drop (c + 1)) + 1) by omega]
    · rw [View.next_end h c (by omega), List.drop_eq_nil_of_le (by omega)]
      cases d <;> simp [tzStop, detectTz]

/-- what `view.tz` gives, and where it leaves the counter of the view -/
theorem View.tz_spec {v : View} (h : v.Valid) (c : Int) :
    View.tz { v with count := c } = ({ v with count := ((tzStop none v.window : ℕ) : Int) }, .ok (detectTz none v.window)) := by
  have hlen := View.slice_length h
  have := View.tzAux_spec h ((v.toI - v.fromI).toNat + 1) 0 none (by rw [View.window_slice]; omega) (by omega)
  rw [List.drop_zero, Nat.zero_add] at this
  exact this

theorem tzStop_same {z : String} {l : List Item} (h : ∀ y ∈ l, y.tz = z) : tzStop (some z) l = l.length := by
  induction l with
  | nil => rfl
  | cons x r ih =>
    unfold tzStop
    rw [if_neg (by simp [h x (by simp)]), ih (fun y hy => h y (by simp [hy])), List.length_cons]

theorem tzStop_other {z : String} {pre post : List Item} {y : Item} (h : ∀ x ∈ pre, x.tz = z) (hy : y.tz ≠ z) :
    tzStop (some z) (pre ++ y :: post) = pre.length + 1 := by
  induction pre with
  | nil => simp [tzStop, hy]
  | cons x r ih =>
    rw [List.cons_append]
    unfold tzStop
    rw [if_neg (by simp [h x (by simp)]), ih (fun w hw => h w (by simp [hw])), List.length_cons]

/-- **C270** is false, for every view with items all in one zone: a loop over the view which reads `view.tz` sees the
first item only. -/
theorem C270_false (v : View) (h : v.Valid) (x : Item) (r : List Item) (hw : v.window = x :: r)
    (hz : ∀ y ∈ r, y.tz = x.tz) (fuel : ℕ) : v.iter.loopTz (fuel + 2) = .ok ([x], true) := by
  have hn := View.next_at h 0 x (by rw [hw]; rfl)
  have ht := View.tz_spec h (((0 + 1 : ℕ) : Int))
  have hs : tzStop none v.window = v.window.length := by
    rw [hw]
    unfold tzStop
    rw [tzStop_same hz, List.length_cons]
  rw [hs] at ht
  have he := View.next_end h v.window.length (le_refl _)
  have hl : View.loopTz (fuel + 1) { v with count := ((v.window.length : ℕ) : Int) } = .ok ([], true) := by
    unfold View.loopTz
    rw [he]
  have hi : v.iter = { v with count := ((0 : ℕ) : Int) } := rfl
  unfold View.loopTz
  rw [hi, hn]
  dsimp only
  rw [ht]
  dsimp only
  rw [hl]

/-- **C270 (endless)**, false: when a later item shown, not the last, is the first in another zone, such a loop never
ends: after the first item it is given for ever the item next to that one, and none of the others. -/
theorem C270_endless_false (v : View) (h : v.Valid) (x y z : Item) (pre post : List Item)
    (hw : v.window = x :: (pre ++ y :: z :: post)) (hp : ∀ a ∈ pre, a.tz = x.tz) (hy : y.tz ≠ x.tz) (n : ℕ) :
    v.iter.loopTz (n + 1) = .ok (x :: List.replicate n z, false) := by
  have hn := View.next_at h 0 x (by rw [hw]; rfl)
  have hs : tzStop none v.window = pre.length + 2 := by
    rw [hw]
    unfold tzStop
    rw [tzStop_other hp hy]
  have hz : v.window[pre.length + 2]? = some z := by
    rw [hw, show pre.length + 2 = (pre.length + 1) + 1 by omega, List.getElem?_cons_succ,
      List.getElem?_append_right (by omega)]
    simp
  have hl : ∀ n, View.loopTz n { v with count := ((pre.length + 2 : ℕ) : Int) } = .ok (List.replicate n z, false) := by
    intro n
    induction n with
    | zero => rfl
    | succ n ih =>
      unfold View.loopTz
      rw [View.next_at h _ z hz]
      dsimp only
      have ht := View.tz_spec h (((pre.length + 2 + 1 : ℕ) : Int))
      rw [hs] at ht
      rw [ht]
      dsimp only
      rw [ih]
      rfl
  have hi : v.iter = { v with count := ((0 : ℕ) : Int) } := rfl
  have ht := View.tz_spec h (((0 + 1 : ℕ) : Int))
  rw [hs] at ht
  unfold View.loopTz
  rw [hi, hn]
  dsimp only
  rw [ht]
  dsimp only
  rw [hl]

theorem C270_false_witness : exView.view.iter.loopTz 10 = .ok ([mkPoint 0 (.num 1)], true) ∧
    (View.iter { series := viewSeries, fromI := 0, toI := 5 }).loopTz 5 =
      .ok ([mkPoint 0 (.num 1), mkPoint 400 (.num 5), mkPoint 400 (.num 5), mkPoint 400 (.num 5), mkPoint 400 (.num 5)], false) := by
  decide +kernel

/-- **C270 (the value), partial**: the zone itself is right: the one shared by the items shown, UTC when there are
several, none without items.  Missing: that reading it is harmless (`C270_false`). -/
theorem C270_value_partial (v : View) (h : v.Valid) :
    (v.window = [] → v.tz.2 = .ok none) ∧
    (∀ z, v.window ≠ [] → (∀ x ∈ v.window, x.tz = z) → v.tz.2 = .ok (some z)) ∧
    (∀ x ∈ v.window, ∀ y ∈ v.window, x.tz ≠ y.tz → v.tz.2 = .ok (some "UTC")) := by
  have ht : v.tz.2 = .ok (detectTz none v.window) := by
    have := View.tz_spec h v.count
    exact congrArg Prod.snd this
  have same : ∀ (z : String) (l : List Item), (∀ x ∈ l, x.tz = z) → detectTz (some z) l = some z := by
    intro z l
    induction l with
    | nil => intro _; rfl
    | cons x r ih =>
      intro hx
      unfold detectTz
      rw [if_neg (by simp [hx x (by simp)]), ih (fun y hy => hx y (by simp [hy]))]
  have other : ∀ (z : String) (l : List Item), (∃ x ∈ l, x.tz ≠ z) → detectTz (some z) l = some "UTC" := by
    intro z l
    induction l with
    | nil => rintro ⟨x, hx, _⟩; simp at hx
    | cons x r ih =>
      rintro ⟨y, hy, hne⟩
      unfold detectTz
      by_cases hxz : x.tz ≠ z
      · rw [if_pos hxz]
      · rw [if_neg hxz]
        refine ih ⟨y, ?_, hne⟩
        rcases List.mem_cons.1 hy with rfl | hy
        · exact absurd hne hxz
        · exact hy
  refine ⟨fun hw => by rw [ht, hw]; rfl, fun z hne hz => ?_, fun x hx y hy hxy => ?_⟩
  · rw [ht]
    cases hw : v.window with
    | nil => exact absurd hw hne
    | cons x r =>
      unfold detectTz
      rw [hz x (by rw [hw]; simp), same z r (fun y hy => hz y (by rw [hw]; simp [hy]))]
  · rw [ht]
    cases hw : v.window with
    | nil => rw [hw] at hx; simp at hx
    | cons a r =>
      unfold detectTz
      rw [other a.tz r ?_]
      rw [hw] at hx hy
      by_cases hxa : x.tz = a.tz
      · refine ⟨y, ?_, fun h => hxy (hxa.trans h.symm)⟩
        rcases List.mem_cons.1 hy with rfl | hy
        · exact absurd hxa hxy
        · exact hy
      · refine ⟨x, ?_, hxa⟩
        rcases List.mem_cons.1 hx with rfl | hx
        · exact absurd rfl hxa
        · exact hx

/-! ## C271: no call changes what a view shows -/

theorem ViewObj.append_view (o : ViewObj) (x : Item) : (o.append x).1.view = o.view ∧ (o.append x).1.own.items = o.own.items ∧
    ∃ e, (o.append x).2 = .error e := by
  unfold ViewObj.append
  dsimp only
  generalize (if x.isSlot then o.face.preSlot x else o.face.prePoint x) = r
  obtain ⟨s, q⟩ := r
  cases q with
  | error e => exact ⟨rfl, rfl, e, rfl⟩
  | ok _ =>
    dsimp only
    cases o.view.series.items.head? with
    | none => exact ⟨rfl, rfl, _, rfl⟩
    | some first =>
      dsimp only
      split
      · exact ⟨rfl, rfl, _, rfl⟩
      · cases o.view.getAt (-1) with
        | error e => exact ⟨rfl, rfl, e, rfl⟩
        | ok last => dsimp only; split <;> split <;> exact ⟨rfl, rfl, _, rfl⟩

theorem ViewObj.step_view (o : ViewObj) (op : ViewOp) : (o.step op).1.view = o.view := by
  cases op with
  | append x => exact (o.append_view x).1
  | insert i x =>
    show (o.insert i x).1.view = o.view
    unfold ViewObj.insert
    split
    · dsimp only
      split
      · rfl
      · split
        · split <;> split <;> rfl
        · split
          · split <;> split <;> rfl
          · split
            · rfl
            · split
              · rfl
              · split
                · rfl
                · split <;> rfl
    · exact (o.append_view x).1
  | remove x =>
    show (o.remove x).1.view = o.view
    unfold ViewObj.remove
    dsimp only
    cases o.view.getAt 0 with
    | error e => dsimp only; cases removeFirst x o.own.items <;> rfl
    | ok y =>
      dsimp only
      split
      · rfl
      · cases removeFirst x o.own.items <;> rfl
  | pop i =>
    show (match o.pop i with | (o', .ok _) => (o', Except.ok ()) | (o', .error e) => (o', Except.error e)).1.view = o.view
    have : (o.pop i).1.view = o.view := by
      unfold ViewObj.pop
      have popAt : ∀ i : Int, (match pyPos o.own.items.length i with
          | none => (o, Except.error PyErr.indexError)
          | some k => match o.own.items[k]? with
            | none => (o, Except.error PyErr.indexError)
            | some z => ({ o with own := { o.own with items := o.own.items.eraseIdx k } }, Except.ok z) :
            ViewObj × Except PyErr Item).1.view = o.view := by
        intro i
        cases pyPos o.own.items.length i with
        | none => rfl
        | some k => dsimp only; cases o.own.items[k]? <;> rfl
      cases hw : o.view.window with
      | nil => rfl
      | cons y r =>
        dsimp only
        cases i with
        | none => exact popAt _
        | some i =>
          dsimp only
          split
          · rfl
          · exact popAt _
    cases hp : o.pop i with
    | mk o' q => rw [hp] at this; cases q <;> exact this
  | clear => rfl

/-- **C271** Whatever calls of `append`, `insert`, `remove`, `pop` and `clear` are made on a view, and however they
end, it shows the same items of the same series: its length, its items by position and by iteration, its slices,
its resolution do not change. -/
theorem C271_shows_the_same (o : ViewObj) (ops : List ViewOp) :
    (o.run ops).view = o.view ∧ (o.run ops).resolution = o.resolution ∧
    (∀ a b c d, (o.run ops).slice a b c d = o.slice a b c d) ∧ (∀ t, (o.run ops).getAtT t = o.getAtT t) := by
  have hv : (o.run ops).view = o.view := by
    unfold ViewObj.run
    induction ops generalizing o with
    | nil => rfl
    | cons op r ih => rw [List.foldl_cons, ih, ViewObj.step_view]
  refine ⟨hv, ?_, fun a b c d => ?_, fun t => ?_⟩
  · unfold ViewObj.resolution; rw [hv]
  · unfold ViewObj.slice ViewObj.truthy; rw [hv]
  · unfold ViewObj.getAtT ViewObj.truthy; rw [hv]

/-- **C271 (append)**: appending to a view always raises, whatever happened to it before and whatever the item. -/
theorem C271_append (o : ViewObj) (ops : List ViewOp) (x : Item) : ∃ e, ((o.run ops).append x).2 = .error e :=
  ((o.run ops).append_view x).2.2

/-- **C271 (which exception)**: on a view just made of points, a point not later than the last one shown is refused with
a `ValueError`, a later one (good for a series with the same items) with an `AttributeError`. -/
theorem C271_which (o : ViewObj) (ho : o.Fresh) (x first last : Item) (hf : o.view.series.items.head? = some first)
    (hl : o.view.window.getLast? = some last) (hx : x.isSlot = false) (hi : x.isInstance first.cls = true) :
    (o.append x).2 = .error (if x.t > last.t then .attributeError else .valueError) := by
  have hlen := View.slice_length ho.valid
  have hne : o.view.window ≠ [] := by intro h; rw [h] at hl; simp at hl
  have hpos : 1 ≤ o.view.slice.length := List.length_pos_iff.2 hne
  have hg := (C14_view_reads_like_slice o.view ho.valid).2.2.2.2 1 ⟨le_refl _, hpos⟩
  have hlast : o.view.getAt (-1) = .ok last := by
    have h1 : ((-((1 : ℕ) : Int))) = -1 := rfl
    rw [h1] at hg
    rw [hg]
    rw [View.window_slice, List.getLast?_eq_getElem?, List.getElem?_eq_getElem (by omega)] at hl
    simpa using hl
  unfold ViewObj.append
  dsimp only
  rw [if_neg (by simp [hx])]
  have hpre : o.face.prePoint x = ({ o.face with prevT := some x.t }, .ok ()) := by
    unfold TSeries.prePoint ViewObj.face
    rw [ho.own]
  rw [hpre]
  dsimp only
  rw [hf]
  dsimp only
  rw [hi]
  simp only [Bool.not_true, Bool.false_eq_true, if_false]
  rw [hlast]
  dsimp only
  by_cases hgt : x.t > last.t
  · rw [if_pos hgt, if_neg (by simp [hx, hgt])]
  · rw [if_neg hgt, if_pos (by simp [hx]; exact not_lt.1 hgt)]

example : (exView.append (mkPoint 500 (.num 9))).2 = .error .attributeError ∧
    (exView.append (mkPoint 120 (.num 9))).2 = .error .valueError ∧
    (exView.append (mkPoint 130 (.num 9))).2 = .error .attributeError := by decide +kernel

/-! ## C272: insert on a view -/

/-- **C272** is false, for every view of points with items: inserting at the end a point later than the last one shown
succeeds, and the view does not show it, although `x in view` is true from then on. -/
theorem C272_false (o : ViewObj) (ho : o.Fresh) (x first ref last : Item) (hr : o.view.series.items.head? = some ref)
    (hf : o.view.window.head? = some first) (hl : o.view.window.getLast? = some last)
    (hx : x.isSlot = false) (hi : x.isInstance ref.cls = true) (hgt : ∀ y ∈ o.view.window, y.t < x.t)
    (hw : x.WFData) :
    (o.insert o.view.window.length x).2 = .ok () ∧ (o.insert o.view.window.length x).1.view = o.view ∧
    (o.insert o.view.window.length x).1.contains x = .ok true ∧ x ∉ o.view.window := by
  have hmem : x ∉ o.view.window := fun h => lt_irrefl _ (hgt x h)
  have hgt := hgt last (List.mem_of_getLast? hl)
  have hne : o.view.window ≠ [] := by intro h; rw [h] at hl; simp at hl
  have hpos : o.view.window.length ≠ 0 := fun h => hne (List.length_eq_zero_iff.1 h)
  have hres : o.insert o.view.window.length x =
      ({ o with own := { o.own with items := insertAt o.own.items (pyInsertPos o.own.items.length o.view.window.length) x } }, .ok ()) := by
    unfold ViewObj.insert
    rw [hf, hl, hr]
    dsimp only
    rw [hi]
    simp only [Bool.not_true, Bool.false_eq_true, if_false]
    rw [if_neg (by exact_mod_cast hpos), if_pos trivial, if_pos (by simp [hx, hgt])]
  rw [hres]
  refine ⟨rfl, rfl, ?_, hmem⟩
  unfold ViewObj.contains TSeries.contains
  dsimp only
  rw [ho.own]
  have hxx : itemEq x x = .ok true := (itemEq_same ⟨rfl, rfl, hw, hw⟩).1 (by
    refine ⟨rfl, rfl, rfl, ?_⟩
    cases hd : x.data with
    | none => trivial
    | some d =>
      dsimp only
      cases d with
      | num v => trivial
      | list l => trivial
      | dict d => exact fun k => rfl)
  have : insertAt ([] : List Item) (pyInsertPos ([] : List Item).length (o.view.window.length : Int)) x = [x] := by
    simp [insertAt]
  rw [show (({} : TSeries).items) = [] from rfl, this]
  unfold findEq
  rw [hxx]

example : (exView.insert 3 (mkPoint 150 (.num 9))).2 = .ok () ∧
    (exView.insert 3 (mkPoint 150 (.num 9))).1.view.toList = exView.view.toList ∧
    (exView.insert 3 (mkPoint 150 (.num 9))).1.contains (mkPoint 150 (.num 9)) = .ok true := by decide +kernel

/-- **C272 (refusals), partial**: what the view does check is checked on the items shown: inserting at the front of a
view of points one not before the first item shown, or at the end one not after the last, is refused with a
`ValueError`, and nothing changes.  Missing: that an accepted insertion has an effect (`C272_false`). -/
theorem C272_refused_partial (o : ViewObj) (x first ref last : Item) (hr : o.view.series.items.head? = some ref)
    (hf : o.view.window.head? = some first) (hl : o.view.window.getLast? = some last)
    (hx : x.isSlot = false) (hp : first.isSlot = false) (hi : x.isInstance ref.cls = true) :
    (first.t ≤ x.t → o.insert 0 x = (o, .error .valueError)) ∧
    (x.t ≤ last.t → o.insert o.view.window.length x = (o, .error .valueError)) := by
  have hne : o.view.window ≠ [] := by intro h; rw [h] at hl; simp at hl
  have hpos : o.view.window.length ≠ 0 := fun h => hne (List.length_eq_zero_iff.1 h)
  refine ⟨fun h => ?_, fun h => ?_⟩
  · unfold ViewObj.insert
    rw [hf, hl, hr]
    dsimp only
    rw [hi]
    simp only [Bool.not_true, Bool.false_eq_true, if_false]
    rw [if_pos trivial, if_neg (by simp [hp]; exact h)]
  · unfold ViewObj.insert
    rw [hf, hl, hr]
    dsimp only
    rw [hi]
    simp only [Bool.not_true, Bool.false_eq_true, if_false]
    rw [if_neg (by exact_mod_cast hpos), if_pos trivial, if_neg (by simp [hx]; exact h)]

example : (exView.insert 0 (mkPoint 0 (.num 9))).2 = .error .valueError ∧
    (exView.insert 3 (mkPoint 120 (.num 9))).2 = .error .valueError := by decide +kernel

/-! ## C273: `view.get` -/

/-- **C273** is false, for every view just made: `view.get(at_i=k)` raises `IndexError` for every position. -/
theorem C273_false (o : ViewObj) (ho : o.Fresh) (k : Int) : o.getAtI k = .error .indexError := by
  unfold ViewObj.getAtI
  split
  · rfl
  · rw [ho.own]
    have : ∀ i : Int, pyPos ({} : TSeries).items.length i = none := by
      intro i
      show pyPos 0 i = none
      unfold pyPos
      rw [if_neg (by omega), if_neg (by omega)]
    rw [this]

theorem C273_false_witness : exView.view.getAt 1 = .ok (mkPoint 60 (.num 2)) ∧ exView.getAtI 1 = .error .indexError := by
  decide +kernel

/-- **C273 (by time), partial**: `view.get(at_t=t)` and `view[t]` find the item shown at that time, and raise `ValueError`
when the view shows none, even if the series has one.  Missing: by position (`C273_false`). -/
theorem C273_at_t_partial (o : ViewObj) (ho : o.Fresh) (hord : StrictlyOrdered o.view.series.items) (t : ℚ) :
    (∀ x ∈ o.view.window, x.t = t → o.getAtT t = .ok x) ∧
    ((∀ x ∈ o.view.window, x.t ≠ t) → o.getAtT t = .error .valueError) := by
  have htr : o.truthy = true := by
    unfold ViewObj.truthy
    have := ho.shown
    cases hi : o.view.series.items with
    | nil => exact absurd hi this
    | cons => rfl
  have hget : o.getAtT t = findT t o.view.window := by unfold ViewObj.getAtT; rw [htr]; rfl
  have hs : StrictlyOrdered o.view.window := hord.sublist o.view.window_infix.sublist
  obtain ⟨h1, h2, h3⟩ := findT_spec t o.view.window
  refine ⟨fun x hx hxt => ?_, fun h => by rw [hget]; exact h2 h⟩
  obtain ⟨y, hy⟩ := h3 ⟨x, hx, hxt⟩
  obtain ⟨hym, hyt⟩ := h1 y hy
  have : x = y := by
    by_contra hne
    have := (C13_access_by_t { items := o.view.window } (List.ne_nil_of_mem hx) hs t).2.2 x hx y hym hxt hyt
    exact hne this
  rw [hget, hy, this]

example : exView.getAtT 60 = .ok (mkPoint 60 (.num 2)) ∧ exView.getAtT 180 = .error .valueError := by decide +kernel

/-! ## C274: slicing a view by time -/

/-- **C274** is false: the slice in square brackets of a view of three points, up to a time after them, holds a point
which the view does not show. -/
theorem C274_false : exView.Fresh ∧ exView.view.len = .ok 3 ∧
    (exView.getSliceT (some 60) (some 200)).toOption.map (·.items) =
      some [mkPoint 60 (.num 2), mkPoint 120 (.num 3), mkPoint 180 (.num 4) "Europe/Rome"] ∧
    (exView.slice none none (some 60) (some 200)).toOption.map (·.items) =
      some [mkPoint 60 (.num 2), mkPoint 120 (.num 3)] := by
  refine ⟨exView_fresh, ?_, ?_, ?_⟩ <;> decide +kernel

/-- **C274 (one bound)**, false for all views and times: with a time on one side only the square brackets raise
`ValueError`. -/
theorem C274_one_bound_false (o : ViewObj) (t : ℚ) :
    o.getSliceT (some t) none = .error .valueError ∧ o.getSliceT none (some t) = .error .valueError := ⟨rfl, rfl⟩

/-- **C274 (the method)**: `view.slice(from_t, to_t)` gives exactly the points shown with `from_t ≤ t < to_t`. -/
theorem C274_slice_partial (o : ViewObj) (hne : o.view.window ≠ []) (hg : GoodPoints o.view.series.items)
    (a b : Option ℚ) (hab : a.isSome ∨ b.isSome) :
    ∃ r, o.slice none none a b = .ok r ∧ r.items = o.view.window.filter (fun x => fromOk a x.t && beforeOk b x.t) := by
  obtain ⟨r, hr, hri⟩ := C12_time_slicing_points { items := o.view.window } hne (hg.sublist o.view.window_infix.sublist) a b hab
  refine ⟨r, ?_, hri⟩
  have hser : o.view.series.items ≠ [] := fun h => hne (by
    have := o.view.window_infix
    rw [h] at this
    exact List.infix_nil.1 this)
  have htr : o.truthy = true := by
    unfold ViewObj.truthy
    cases hi : o.view.series.items with
    | nil => exact absurd hi hser
    | cons => rfl
  have hwe : o.view.window.isEmpty = false := by
    cases hi : o.view.window with
    | nil => exact absurd hi hne
    | cons => rfl
  unfold ViewObj.slice
  rw [htr, hwe]
  exact hr

/-- **C274 (inside the view), partial**: when the view shows all the points of the series between the two times, the
square brackets give the same items as `view.slice`.  Missing: the other cases (`C274_false`, `C274_one_bound_false`). -/
theorem C274_inside_partial (o : ViewObj) (hne : o.view.window ≠ []) (hg : GoodPoints o.view.series.items) (a b : ℚ)
    (hin : ∀ x ∈ o.view.series.items, a ≤ x.t → x.t < b → x ∈ o.view.window) :
    ∃ r q, o.getSliceT (some a) (some b) = .ok r ∧ o.slice none none (some a) (some b) = .ok q ∧ r.items = q.items := by
  obtain ⟨q, hq, hqi⟩ := C274_slice_partial o hne hg (some a) (some b) (Or.inl rfl)
  have hser : o.view.series.items ≠ [] := fun h => hne (by
    have := o.view.window_infix
    rw [h] at this
    exact List.infix_nil.1 this)
  obtain ⟨r, hr, hri⟩ := C12_time_slicing_points o.view.series hser hg (some a) (some b) (Or.inl rfl)
  refine ⟨r, q, hr, hq, ?_⟩
  rw [hri, hqi]
  obtain ⟨pre, post, hsplit⟩ := o.view.window_infix
  have hord := hg.ordered
  rw [← hsplit] at hord
  have out : ∀ x, x ∈ pre ∨ x ∈ post → (fromOk (some a) x.t && beforeOk (some b) x.t) = false := by
    intro x hx
    by_contra hc
    have hc : (fromOk (some a) x.t && beforeOk (some b) x.t) = true := by simpa using hc
    simp only [fromOk, beforeOk, Bool.and_eq_true, decide_eq_true_eq] at hc
    have hmem : x ∈ o.view.series.items := by
      rw [← hsplit]
      rcases hx with h | h <;> simp [h]
    have hw := hin x hmem hc.1 hc.2
    unfold StrictlyOrdered at hord
    rw [List.pairwise_append, List.pairwise_append] at hord
    rcases hx with h | h
    · exact lt_irrefl _ (hord.1.2.2 x h x hw)
    · exact lt_irrefl _ (hord.2.2 x (by simp [hw]) x h)
  have e1 : pre.filter (fun x => fromOk (some a) x.t && beforeOk (some b) x.t) = [] :=
    List.filter_eq_nil_iff.2 (fun x hx => by rw [out x (Or.inl hx)]; simp)
  have e2 : post.filter (fun x => fromOk (some a) x.t && beforeOk (some b) x.t) = [] :=
    List.filter_eq_nil_iff.2 (fun x hx => by rw [out x (Or.inr hx)]; simp)
  rw [← hsplit, List.filter_append, List.filter_append, e1, e2, List.nil_append, List.append_nil]

example : (exView.getSliceT (some 60) (some 120)).toOption.map (·.items) = some [mkPoint 60 (.num 2)] ∧
    (exView.slice none none (some 60) (some 120)).toOption.map (·.items) = some [mkPoint 60 (.num 2)] := by
  constructor <;> decide +kernel

/-! ## C275: changing labels through a view -/

/-- **C275** is false, for every view with items: renaming or removing a label or an index through it raises
`AttributeError`. -/
theorem C275_false (o : ViewObj) (hne : o.view.window ≠ []) : o.editLabels = .error .attributeError := by
  unfold ViewObj.editLabels
  rw [if_pos (List.length_pos_iff.2 hne)]

example : exView.editLabels = .error .attributeError := by decide +kernel

/-! ## C276: the resolution of a view -/

/-- **C276** is false: the view of three points a minute apart says `variable`, its materialized copy says one minute;
and the view of one point has the resolution of the series, where its copy has none. -/
theorem C276_false : exView.Fresh ∧ exView.resolution = .varying ∧
    exView.view.materialize.toOption.map (·.res) = some (.unit (TUnit.ofSecs 60)) ∧
    (ViewObj.mk { series := viewSeries, fromI := 0, toI := 1 } {}).resolution = .varying ∧
    (View.materialize { series := viewSeries, fromI := 0, toI := 1 }).toOption.map (·.res) = some .unset := by
  refine ⟨exView_fresh, ?_, ?_, ?_, ?_⟩ <;> decide +kernel

theorem View.window_spacings (v : View) : ∀ d ∈ spacings (times v.window), d ∈ spacings (times v.series.items) := by
  intro d hd
  unfold View.window times at hd
  rw [List.map_take, List.map_drop] at hd
  exact spacings_drop _ _ _ (spacings_take _ _ _ hd)

/-- **C276 (constant resolution), partial**: for points at the same distance, and for slots, a view showing at least two
items (one for slots) has the resolution of its materialized copy.  Missing: series of variable resolution and views of
one point (`C276_false`). -/
theorem C276_constant_partial (o : ViewObj) (ho : o.view.Valid) (hb : TSeries.build o.view.series.items = .ok o.view.series)
    (h : (GoodPoints o.view.series.items ∧ 2 ≤ o.view.window.length ∧ ∃ d, UniformBy d o.view.series.items) ∨
      (GoodSlots o.view.series.items ∧ o.view.window ≠ [])) :
    ∃ r, o.view.materialize = .ok r ∧ r.res = o.resolution := by
  obtain ⟨r, hr, hri⟩ := C17_materialize o.view ho (h.imp (·.1) (·.1))
  refine ⟨r, hr, ?_⟩
  have hbr : TSeries.build o.view.window = .ok r := by
    unfold View.materialize at hr
    rw [(C14_view_reads_like_slice o.view ho).2.2.1] at hr
    exact hr
  rw [← View.window_slice] at hri
  unfold ViewObj.resolution
  rcases h with ⟨hg, h2, d, hd⟩ | ⟨hg, hne⟩
  · have hw : UniformBy d o.view.window := by
      refine ⟨?_, fun x hx => hd.2 x (o.view.window_spacings x hx)⟩
      exact spacings_ne_nil (by simpa [times] using h2)
    obtain ⟨u, hu, hs⟩ := (C04_resolution_is_spacing _ _ hg.points hb).2.2.2.1 d hd
    obtain ⟨u', hu', hs'⟩ := (C04_resolution_is_spacing _ _ (fun x hx => hg.points x (o.view.window_infix.subset hx)) hbr).2.2.2.1 d hw
    rw [hs, hs']
    rw [hu] at hu'
    cases hu'
    rfl
  · have hser : o.view.series.items ≠ [] := fun h => hne (by
      have := o.view.window_infix
      rw [h] at this
      exact List.infix_nil.1 this)
    obtain ⟨u, z, hu, _, hall⟩ := (build_slotInv hg.slots hb).noUnit hser
    have hsr : AllSlots o.view.window := fun x hx => hg.slots x (o.view.window_infix.subset hx)
    obtain ⟨u', z', hu', _, hall'⟩ := (build_slotInv hsr hbr).noUnit (by rw [hri]; exact hne)
    obtain ⟨x, hx⟩ := List.exists_mem_of_ne_nil _ hne
    rw [hu, hu', ← (hall' x (by rw [hri]; exact hx)).1, ← (hall x (o.view.window_infix.subset hx)).1]

/-! ## C277: views without bounds -/

/-- **C277** is false, for every series: a view made without one of its bounds has no length and cannot be iterated:
both raise `TypeError`.  (By position, from the side of the given bound, it works.) -/
theorem C277_false (s : TSeries) (a b : Option Int) (h : a = none ∨ b = none) :
    (LooseView.mk s a b).len = .error .typeError ∧ (LooseView.mk s a b).toList = .error .typeError := by
  rcases h with rfl | rfl
  · exact ⟨rfl, rfl⟩
  · cases a <;> exact ⟨rfl, rfl⟩

example : (LooseView.mk viewSeries (some 1) none).getAt 0 = .ok (mkPoint 60 (.num 2)) ∧
    (LooseView.mk viewSeries (some 1) none).getAt (-1) = .error .typeError ∧
    (LooseView.mk viewSeries none none).getAt 0 = .error .typeError := by decide +kernel

/-! ## C278: scalar operations on views -/

theorem labels_same {d e : Data} {kd : List String} (hs : SameKind d e) (hw : d.WF) (hw' : e.WF) (h : labelsOf d = .ok kd) :
    labelsOf e = .ok kd := by
  cases d with
  | num v => cases h
  | list l =>
    cases e with
    | list m => simp only [SameKind] at hs; simp only [labelsOf] at h ⊢; rw [← hs]; exact h
    | num _ => cases hs
    | dict _ => cases hs
  | dict a =>
    cases e with
    | num _ => cases hs
    | list _ => cases hs
    | dict b =>
      simp only [labelsOf] at h ⊢
      have hp : a.keys.Perm b.keys := (List.perm_ext_iff_of_nodup hw hw').2 hs
      rw [← sortStr_congr hp]
      exact h

/-- **C278 (items shown), partial**: for every view showing items of a series with indexed data, the minima, maxima, sums and
averages are those of its materialized copy.  Missing: views without items (`C278_false`). -/
theorem C278_scalars_partial {cal : Calendar} {ks : List String} (v : View) (hv : v.Valid) (hs : OpSeries cal v.series ks)
    (hne : v.window ≠ []) :
    ∃ r, v.materialize = .ok r ∧ r.items = v.window ∧ v.maxOp = r.maxOp ∧ v.minOp = r.minOp ∧ v.sumOp = r.sumOp ∧
      v.avgOp = r.avgOp := by
  have hgood := hs.good
  obtain ⟨r, hr, hri⟩ := C17_materialize v hv (hgood.imp id (·.1))
  rw [← View.window_slice] at hri
  have hbr : TSeries.build v.window = .ok r := by
    unfold View.materialize at hr
    rw [(C14_view_reads_like_slice v hv).2.2.1] at hr
    exact hr
  obtain ⟨x, l, d, kk, hi, hd, hkk, hp, hprep⟩ := hs.opPrep
  have hsub : ∀ y ∈ v.window, y ∈ v.series.items := fun y hy => v.window_infix.subset hy
  obtain ⟨y, m, hw⟩ := List.exists_cons_of_ne_nil hne
  have hy : y ∈ v.series.items := hsub y (by rw [hw]; simp)
  have hx : x ∈ v.series.items := by rw [hi]; simp
  obtain ⟨e, he, hpe, hn, hnum⟩ := hs.lab y hy
  have wf : ∀ (z : Item) (f : Data), z ∈ v.series.items → z.data = some f → f.WF := by
    intro z f hz hf
    obtain ⟨g, hg, hpg, hng, _⟩ := hs.lab z hz
    rw [hf] at hg
    cases hg
    cases f with
    | num _ => trivial
    | list _ => trivial
    | dict f => exact hpg.nodup_iff.2 hng
  have hsame : SameKind d e := by
    rcases hgood with hg | hg
    · exact hg.same x hx y hy d e hd he
    · exact hg.1.same x hx y hy d e hd he
  have hke := labels_same hsame (wf x d hx hd) (wf y e hy he) hkk
  have hdi : DataInv r := build_dataInv (fun z hz => (hs.lab z (hsub z hz)).hasData hs.ksne) hbr
  obtain ⟨rf, hr1, hr2, _⟩ := hdi.ref (by rw [hri]; exact hne)
  have hprep' : r.opPrep = .ok (e, kk) := by
    unfold TSeries.opPrep TSeries.labelsFrom
    rw [hri, hw]
    simp [he, hr1, hr2, hke]
  have hper : ∀ {α : Type} (f : List ℚ → α), perLabel ({ items := v.window } : TSeries) kk f = perLabel r kk f := by
    intro α f
    unfold perLabel
    rw [hri]
  refine ⟨r, hr, hri, ?_, ?_, ?_, ?_⟩
  · unfold View.maxOp TSeries.maxOp; rw [hprep, hprep']; exact hper _
  · unfold View.minOp TSeries.minOp; rw [hprep, hprep']; exact hper _
  · unfold View.sumOp TSeries.sumOp; rw [hprep, hprep']; exact hper _
  · unfold View.avgOp TSeries.avgOp
    rw [hprep, hprep']
    dsimp only
    have hwe : v.window.isEmpty = false := by rw [hw]; rfl
    rw [hwe, hper, hri]
    rfl

/-- **C278** is false, for every view without items of a series with indexed data: instead of the `ValueError` raised for an
empty series, the minima and the maxima are `None` for each label, the sums are 0, and the average raises an
`UnboundLocalError`. -/
theorem C278_false {cal : Calendar} {ks : List String} (v : View) (hs : OpSeries cal v.series ks) (he : v.window = []) :
    ∃ kk : List String, kk.Perm ks ∧ v.maxOp = .ok (kk.map (fun k => (k, none))) ∧ v.minOp = .ok (kk.map (fun k => (k, none))) ∧
      v.sumOp = .ok (kk.map (fun k => (k, 0))) ∧ v.avgOp = .error .exception ∧
      TSeries.maxOp {} = .error .valueError ∧ TSeries.sumOp {} = .error .valueError ∧ TSeries.avgOp {} = .error .valueError := by
  obtain ⟨x, l, d, kk, hi, hd, hkk, hp, hprep⟩ := hs.opPrep
  have hper : ∀ {α : Type} (f : List ℚ → α), perLabel ({ items := [] } : TSeries) kk f = .ok (kk.map (fun k => (k, f []))) := by
    intro α f
    unfold perLabel
    exact mapE_ok (fun k _ => rfl)
  refine ⟨kk, hp, ?_, ?_, ?_, ?_, rfl, rfl, rfl⟩
  · unfold View.maxOp; rw [hprep, he]; exact hper _
  · unfold View.minOp; rw [hprep, he]; exact hper _
  · unfold View.sumOp; rw [hprep, he]; exact hper _
  · unfold View.avgOp; rw [hprep, he]; rfl

/-- a view of the last of the points of `exSeries`, and an empty one -/
example : (View.maxOp { series := exSeries, fromI := 1, toI := 2 }).toOption.isSome = true ∧
    View.maxOp { series := exSeries, fromI := 1, toI := 1 } = .ok [("a", none), ("b", none)] ∧
    View.avgOp { series := exSeries, fromI := 1, toI := 1 } = .error .exception := by
  refine ⟨?_, ?_, ?_⟩ <;> decide +kernel

end Timeseria
