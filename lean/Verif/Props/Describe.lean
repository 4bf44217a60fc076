import Verif.Model.Describe
import Verif.Props.Guess
import Verif.Props.Order

/-! # C358: what printing a series says -/

namespace Timeseria

/-- **C358** (points, constant spacing): a series built from two or more points every `n` seconds is described by their number, by `n` seconds as its resolution, and by the time and the zone of the first and of the last point; describing it changes nothing. -/
theorem C358_regular (unitOf : ℚ → Option TUnit) (k : ℕ) (l : List Item) (s : TSeries) (hp : AllPoints l)
    (hb : TSeries.build l = .ok s) (n : ℕ) (hn : UniformBy n l) (x y : Item) (hx : l.head? = some x) (hy : l.getLast? = some y) :
    ({ s := s } : GSeries).describe unitOf k =
      some ({ s := s }, .ok (.points l.length (.every (TUnit.ofSecs n)) (x.t, x.tz) (y.t, y.tz))) := by
  have hr := (C04_resolution_is_spacing l s hp hb).2.2.2.2 n hn
  have hi := build_items hb
  have hxp : x.isSlot = false := hp x (List.mem_of_mem_head? (by simp [hx]))
  unfold GSeries.describe GSeries.resText
  simp only [hi, hx, hy, hr, hxp, Bool.false_eq_true, if_false]
  rfl

/-- **C358** (points and the spacing, in both directions): a description with a resolution is given exactly for points at a constant spacing, one with a variable resolution only for points which are not. -/
theorem C358_kind (unitOf : ℚ → Option TUnit) (k : ℕ) (l : List Item) (s : TSeries) (hp : AllPoints l)
    (hb : TSeries.build l = .ok s) (h2 : 2 ≤ l.length) (g' : GSeries) (m : ℕ) (r : ResText) (a b : ℚ × String)
    (h : ({ s := s } : GSeries).describe unitOf k = some (g', .ok (.points m r a b))) :
    ((∃ u, r = .every u) ↔ ∃ d, UniformBy d l) ∧ ((∃ u, r = .about u) ↔ ¬ ∃ d, UniformBy d l) := by
  obtain ⟨_, h3, h4, _⟩ := C04_resolution_is_spacing l s hp hb
  have h3 := h3 h2
  have h4 := h4 h2
  rw [h3] at h4 ⊢
  have hr : (∃ u, s.res = .unit u ∧ r = .every u) ∨ (s.res = .varying ∧ ∃ u, r = .about u) := by
    unfold GSeries.describe at h
    split at h
    · split_ifs at h
      · simp at h
      · unfold GSeries.resText at h
        cases hs : s.res with
        | unset =>
          exfalso
          by_cases hu : ∃ u, s.res = .unit u
          · obtain ⟨u, hu⟩ := hu; rw [hs] at hu; cases hu
          · have := h4.1 hu; rw [hs] at this; cases this
        | unit u => simp only [hs] at h; left; refine ⟨u, rfl, ?_⟩; simp at h; exact h.2.2.1.symm
        | varying =>
          right
          refine ⟨rfl, ?_⟩
          simp only [hs] at h
          cases hq : ({ s := s } : GSeries).sampling k with
          | none => simp [hq] at h
          | some p =>
            obtain ⟨g1, e | v⟩ := p
            · simp [hq] at h
            · simp only [hq] at h
              cases hv : unitOf v.1 with
              | none => simp [hv] at h
              | some u => refine ⟨u, ?_⟩; simp [hv] at h; exact h.2.2.1.symm
    · simp at h
  rcases hr with ⟨u, hu, rfl⟩ | ⟨hv, u, rfl⟩
  · simp [hu]
  · simp [hv]

/-- **C358** (one point, and none): a series of one point has an undefined resolution, an empty one is said to be empty. -/
theorem C358_short (unitOf : ℚ → Option TUnit) (k : ℕ) (x : Item) (s : TSeries) (hp : x.isSlot = false)
    (hb : TSeries.build [x] = .ok s) :
    ({ s := s } : GSeries).describe unitOf k = some ({ s := s }, .ok (.points 1 .undefined (x.t, x.tz) (x.t, x.tz))) ∧
    ({} : GSeries).describe unitOf k = some ({}, .ok .empty) := by
  have hr := (C04_resolution_is_spacing [x] s (by intro y hy; simp at hy; subst hy; exact hp) hb).1 (by simp)
  have hi := build_items hb
  refine ⟨?_, rfl⟩
  unfold GSeries.describe GSeries.resText
  simp only [hi, hr, List.head?_cons, List.getLast?_singleton, hp, Bool.false_eq_true, if_false]
  rfl

/-- **C358** (slots): a series of slots is described by their number, by its resolution, and by the starts of the first and of the last slot. -/
theorem C358_slots (unitOf : ℚ → Option TUnit) (k : ℕ) (g : GSeries) (x y : Item) (hx : g.s.items.head? = some x)
    (hy : g.s.items.getLast? = some y) (hs : x.isSlot = true) :
    g.describe unitOf k = some (g, .ok (.slots g.s.items.length g.s.res (x.t, x.tz) (y.t, y.tz))) := by
  unfold GSeries.describe
  simp only [hx, hy, hs, if_true]
  rfl

theorem sampling_keeps {k : ℕ} {g g' : GSeries} {o : Except PyErr (ℚ × ℚ)} (h : g.sampling k = some (g', o)) :
    g'.s = g.s ∧ g'.guessed = g.guessed ∧ g'.sampling k = some (g', o) := by
  have h0 := h
  unfold GSeries.sampling at h
  split at h
  · cases h; exact ⟨rfl, rfl, h0⟩
  · split at h
    · simp at h
    · cases h; exact ⟨rfl, rfl, h0⟩
    · cases h; exact ⟨rfl, rfl, h0⟩
    · cases h; exact ⟨rfl, rfl, rfl⟩

theorem resText_keeps {unitOf : ℚ → Option TUnit} {k : ℕ} {g g' : GSeries} {o : Except PyErr ResText}
    (h : g.resText unitOf k = some (g', o)) :
    g'.s = g.s ∧ g'.guessed = g.guessed ∧ g'.resText unitOf k = some (g', o) := by
  have h0 := h
  unfold GSeries.resText at h
  cases hr : g.s.res with
  | unset => simp only [hr] at h; cases h; exact ⟨rfl, rfl, h0⟩
  | unit u => simp only [hr] at h; cases h; exact ⟨rfl, rfl, h0⟩
  | varying =>
    simp only [hr] at h
    cases hq : g.sampling k with
    | none => simp [hq] at h
    | some p =>
      obtain ⟨g1, w⟩ := p
      obtain ⟨a, b, c⟩ := sampling_keeps hq
      rw [hq] at h
      have hg : g' = g1 := by
        rcases w with e | v
        · simp only at h; cases h; rfl
        · simp only at h
          cases hv : unitOf v.1 with
          | none => rw [hv] at h; cases h; rfl
          | some u => rw [hv] at h; cases h; rfl
      subst hg
      refine ⟨a, b, ?_⟩
      unfold GSeries.resText
      rw [a, hr]
      dsimp only
      rw [c]
      exact h

/-- **C358** (printing is harmless): whatever the series, its description leaves its items, its resolution and its guessed resolution as they are, and describing it again says the same. -/
theorem C358_again (unitOf : ℚ → Option TUnit) (k : ℕ) (g g' : GSeries) (o : Except PyErr Description)
    (h : g.describe unitOf k = some (g', o)) :
    g'.s = g.s ∧ g'.guessed = g.guessed ∧ g'.describe unitOf k = some (g', o) := by
  have h0 := h
  unfold GSeries.describe at h
  cases hh : g.s.items.head? with
  | none => simp only [hh] at h; cases h; exact ⟨rfl, rfl, h0⟩
  | some x =>
    cases hl : g.s.items.getLast? with
    | none => simp only [hh, hl] at h; cases h; exact ⟨rfl, rfl, h0⟩
    | some y =>
      simp only [hh, hl] at h
      by_cases hx : x.isSlot = true
      · rw [if_pos hx] at h; cases h; exact ⟨rfl, rfl, h0⟩
      · rw [if_neg hx] at h
        cases hq : g.resText unitOf k with
        | none => simp [hq] at h
        | some p =>
          obtain ⟨g1, w⟩ := p
          obtain ⟨a, b, c⟩ := resText_keeps hq
          rw [hq] at h
          have hg : g' = g1 := by
            rcases w with e | v <;> (simp only at h; cases h; rfl)
          subst hg
          refine ⟨a, b, ?_⟩
          unfold GSeries.describe
          rw [a, hh, hl]
          dsimp only
          rw [if_neg hx, c]
          exact h

/-- **C358, partial** (variable resolution): a series of points of variable resolution which was never asked before, with spacings which repeat enough and can be read as units, is described with the unit of a spacing which occurs at least as often as every other one. (Missing: a series which was asked before, or with an unreadable spacing, of which the claim is false.) -/
theorem C358_first_partial {unitOf : ℚ → Option TUnit} {g : GSeries} (k : ℕ)
    (hp : ∀ x ∈ g.s.items, x.isSlot = false) (hn : 2 ≤ g.s.items.length) (hv : g.s.res = .varying)
    (hi : g.interval = none)
    (hd : (distinctSpacings (g.s.items.map Item.t) : ℚ) ≤ 95 / 100 * g.s.items.length)
    (hu : ∀ d, d ∈ spacings (g.s.items.map Item.t) → (unitOf d).isSome) :
    ∃ (g' : GSeries) (d : ℚ) (u : TUnit) (x y : Item), d ∈ spacings (g.s.items.map Item.t) ∧
      (∀ z, (spacings (g.s.items.map Item.t)).count z ≤ (spacings (g.s.items.map Item.t)).count d) ∧
      unitOf d = some u ∧ g.s.items.head? = some x ∧ g.s.items.getLast? = some y ∧
      g.describe unitOf (k + 1) = some (g', .ok (.points g.s.items.length (.about u) (x.t, x.tz) (y.t, y.tz))) := by
  obtain ⟨d, c, h1, h2, h3⟩ := C38_most_common (g.s.items.map Item.t) (by simpa using hn) (by simpa using hd) k
  obtain ⟨u, hu'⟩ := Option.isSome_iff_exists.1 (hu d h2)
  have hne : g.s.items ≠ [] := by intro e; simp [e] at hn
  obtain ⟨x, hx⟩ : ∃ x, g.s.items.head? = some x := ⟨_, List.head?_eq_some_head hne⟩
  obtain ⟨y, hy⟩ : ∃ y, g.s.items.getLast? = some y := ⟨_, List.getLast?_eq_some_getLast hne⟩
  refine ⟨{ g with interval := some (d, c) }, d, u, x, y, h2, h3, hu', hx, hy, ?_⟩
  have hxs : x.isSlot = false := hp x (List.mem_of_mem_head? (by simp [hx]))
  have hs : g.sampling (k + 1) = some ({ g with interval := some (d, c) }, .ok (d, c)) := by
    unfold GSeries.sampling
    rw [hi]; dsimp only; rw [h1]
  unfold GSeries.describe GSeries.resText
  simp only [hx, hy, hv, hxs, Bool.false_eq_true, if_false, hs, hu']
  rfl

/-- the description alone -/
def describeOf (r : Option (GSeries × Except PyErr Description)) : Option (Except PyErr Description) := r.map Prod.snd

/-- the series printed before the last points were appended -/
def describedBefore : GSeries :=
  match (guessSeries [0, 60, 120, 200]).describe spacingUnit 1 with
  | some (g, _) => (g.appendAll ([210, 220, 230, 240, 250].map guessPoint)).1
  | none => {}

/-- **C358 is false**: a series whose most common spacing is ten microseconds cannot be printed, and printing raises a `ValueError`; of two series with the same items the one which was printed when it was shorter is still said to be of about one minute, the other one of about ten seconds; points every 1.05 seconds are said to be every 15. -/
theorem C358_false : describeOf (guessTiny.describe spacingUnit 1) = some (.error .valueError) ∧
    describedBefore.s = (guessSeries [0, 60, 120, 200, 210, 220, 230, 240, 250]).s ∧
    describeOf (describedBefore.describe spacingUnit 1) =
      some (.ok (.points 9 (.about (.ofSecs 60)) (0, "UTC") (250, "UTC"))) ∧
    describeOf ((guessSeries [0, 60, 120, 200, 210, 220, 230, 240, 250]).describe spacingUnit 1) =
      some (.ok (.points 9 (.about (.ofSecs 10)) (0, "UTC") (250, "UTC"))) ∧
    describeOf ((guessSeries [0, 105/100, 210/100]).describe spacingUnit 1) =
      some (.ok (.points 3 (.every (.ofSecs 15)) (0, "UTC") (210/100, "UTC"))) := by
  decide +kernel

/-- **C358** cases meeting the hypotheses -/
theorem C358_witness : TSeries.build ([0, 60, 120].map guessPoint) = .ok (guessSeries [0, 60, 120]).s ∧
    UniformBy ((60 : ℕ) : ℚ) ([0, 60, 120].map guessPoint) ∧
    (guessSeries [0, 60, 120, 200]).s.res = .varying ∧ (guessSeries [0, 60, 120, 200]).interval = none ∧
    (∀ d ∈ spacings ((guessSeries [0, 60, 120, 200]).s.items.map Item.t), (spacingUnit d).isSome) ∧
    (distinctSpacings ((guessSeries [0, 60, 120, 200]).s.items.map Item.t) : ℚ) ≤
      95 / 100 * (guessSeries [0, 60, 120, 200]).s.items.length ∧
    describeOf ((guessSeries [0, 60, 120]).describe spacingUnit 1) =
      some (.ok (.points 3 (.every (.ofSecs 60)) (0, "UTC") (120, "UTC"))) := by
  unfold UniformBy
  refine ⟨?_, ?_, ?_, ?_, ?_, ?_, ?_⟩
  all_goals decide +kernel

end Timeseria
