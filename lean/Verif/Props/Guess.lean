import Verif.Model.Guess
import Verif.Props.Sampling
import Verif.Lemmas.TimeUnitString

/-! # C226, C227, C228: guessing the resolution -/

namespace Timeseria

/-! ## C228: the confidence -/

theorem secondLoop_le (mc : Option ℚ) (m : ℕ) (d : Counts) (acc : ℕ) (ha : acc ≤ m)
    (h : ∀ x c, (x, c) ∈ d → c ≤ m) : secondLoop mc acc d ≤ m := by
  induction d generalizing acc with
  | nil => simpa [secondLoop] using ha
  | cons p r ih =>
    obtain ⟨x, c⟩ := p
    rw [secondLoop]
    refine ih _ ?_ (fun y e hy => h y e (List.mem_cons_of_mem _ hy))
    have hc := h x c (by simp)
    split_ifs <;> omega

theorem secondLoop_spec (mc : Option ℚ) (d : Counts) (acc : ℕ) :
    acc ≤ secondLoop mc acc d ∧ (∀ x c, (x, c) ∈ d → mc ≠ some x → c ≤ secondLoop mc acc d) ∧
      (secondLoop mc acc d = acc ∨ ∃ x, mc ≠ some x ∧ (x, secondLoop mc acc d) ∈ d) := by
  induction d generalizing acc with
  | nil => simp [secondLoop]
  | cons p r ih =>
    obtain ⟨x, c⟩ := p
    rw [secondLoop]
    obtain ⟨i1, i2, i3⟩ := ih (if mc = some x then acc else if c > acc then c else acc)
    have h1 : acc ≤ (if mc = some x then acc else if c > acc then c else acc) := by split_ifs <;> omega
    have h2 : mc ≠ some x → c ≤ (if mc = some x then acc else if c > acc then c else acc) := by
      intro h; rw [if_neg h]; split_ifs <;> omega
    have h3 : (if mc = some x then acc else if c > acc then c else acc) = acc ∨
        (mc ≠ some x ∧ (if mc = some x then acc else if c > acc then c else acc) = c) := by
      by_cases h : mc = some x
      · left; rw [if_pos h]
      · rw [if_neg h]
        by_cases hc : c > acc
        · right; exact ⟨h, by rw [if_pos hc]⟩
        · left; rw [if_neg hc]
    refine ⟨le_trans h1 i1, ?_, ?_⟩
    · intro y e hy hne
      rcases List.mem_cons.1 hy with hy | hy
      · cases hy; exact le_trans (h2 hne) i1
      · exact i2 y e hy hne
    · rcases i3 with i3 | ⟨y, hy, hm⟩
      · rcases h3 with h3 | ⟨h3, h4⟩
        · left; rw [i3, h3]
        · right; refine ⟨x, h3, ?_⟩; rw [i3, h4]; simp
      · right; exact ⟨y, hy, List.mem_cons_of_mem _ hm⟩

/-- **C228**: whatever the timestamps, the confidence of the detected sampling interval is between 0 and 1. -/
theorem C228_range (k : ℕ) (ts : List ℚ) (o : Option ℚ) (c : ℚ) (h : detectSampling k ts = some (.ok (o, c))) :
    0 ≤ c ∧ c ≤ 1 := by
  unfold detectSampling at h
  rw [if_neg (by rintro e; simp [e] at h)] at h
  rw [Option.map_eq_some_iff] at h
  obtain ⟨d, _, h⟩ := h
  dsimp only at h
  split_ifs at h with h1 h2
  · simp only [Except.ok.injEq, Prod.mk.injEq] at h
    rw [← h.2]; norm_num
  · simp only [Except.ok.injEq, Prod.mk.injEq] at h
    rw [← h.2]
    have hle := secondLoop_le (mostCommonLoop (none, 0) d).1 (mostCommonLoop (none, 0) d).2 d 0 (Nat.zero_le _)
      (mostCommonLoop_spec d (none, 0)).2.2
    have hpos : (0 : ℚ) < (mostCommonLoop (none, 0) d).2 := by
      have : 0 < (mostCommonLoop (none, 0) d).2 := Nat.pos_of_ne_zero h2
      exact_mod_cast this
    have hle' : (secondLoop (mostCommonLoop (none, 0) d).1 0 d : ℚ) ≤ (mostCommonLoop (none, 0) d).2 := by exact_mod_cast hle
    have hge : (0 : ℚ) ≤ (secondLoop (mostCommonLoop (none, 0) d).1 0 d : ℚ) / (mostCommonLoop (none, 0) d).2 := by positivity
    have h3 : (secondLoop (mostCommonLoop (none, 0) d).1 0 d : ℚ) / (mostCommonLoop (none, 0) d).2 ≤ 1 := by
      rw [div_le_one hpos]; exact hle'
    constructor <;> linarith

/-- **C228 (what the confidence is)**: when the spacings repeat enough for no rounding to take place, and are not all equal,
the confidence is one minus the ratio of the number of times the second most common spacing occurs to the number of
times the most common one does. -/
theorem C228_value (ts : List ℚ) (hn : 2 ≤ ts.length) (hd : (distinctSpacings ts : ℚ) ≤ 95 / 100 * ts.length)
    (h2 : distinctSpacings ts ≠ 1) (k : ℕ) :
    ∃ x y : ℚ, x ∈ spacings ts ∧ y ∈ spacings ts ∧ y ≠ x ∧ (∀ z, (spacings ts).count z ≤ (spacings ts).count x) ∧
      (∀ z, z ≠ x → (spacings ts).count z ≤ (spacings ts).count y) ∧
      detectSampling (k + 1) ts =
        some (.ok (some x, 1 - ((spacings ts).count y : ℚ) / (spacings ts).count x)) := by
  have hc := diffLoop_count ts
  have hne := spacings_ne_nil hn
  obtain ⟨x, h1, hp, h3, h4⟩ := mostCommon_of_count hc hne
  have hpos : (0 : ℚ) < ts.length := by
    have : 0 < ts.length := by omega
    exact_mod_cast this
  have hlen : samplingLoop (k + 1) ts.length (diffLoop none [] ts) = some (diffLoop none [] ts) := by
    rw [samplingLoop, if_neg]
    unfold almostEqual
    rw [decide_eq_true_eq]
    rintro ⟨h5, _⟩
    rw [hc.length, lt_div_iff₀ hpos] at h5
    unfold distinctSpacings at hd
    linarith
  have hl : (diffLoop none [] ts).length ≠ 1 := by rw [hc.length]; exact h2
  -- the count of the most common one
  have hxc : (mostCommonLoop (none, 0) (diffLoop none [] ts)).2 = (spacings ts).count x := by
    rcases (mostCommonLoop_spec (diffLoop none [] ts) (none, 0)).1 with e | ⟨z, e1, e2⟩
    · rw [e] at hp; simp at hp
    · rw [h1] at e1; cases e1
      exact hc.cnt _ _ e2
  obtain ⟨_, s2, s3⟩ := secondLoop_spec (some x) (diffLoop none [] ts) 0
  -- there is another spacing
  have hother : ∃ y ∈ spacings ts, y ≠ x := by
    by_contra hcon
    push Not at hcon
    exact h2 (by unfold distinctSpacings; rw [spacings_const_dedup hne hcon]; rfl)
  obtain ⟨w, hw, hwx⟩ := hother
  obtain ⟨⟨w', cw⟩, hwm, e⟩ := List.mem_map.1 ((hc.mem w).2 hw)
  simp only at e; subst e
  have hcw := s2 _ _ hwm (by intro e; cases e; exact hwx rfl)
  have hcwpos : 0 < cw := by rw [hc.cnt _ _ hwm]; exact List.count_pos_iff.2 hw
  rcases s3 with s3 | ⟨y, hy, hym⟩
  · omega
  have hyc := hc.cnt _ _ hym
  have hyx : y ≠ x := fun e => hy (by rw [e])
  refine ⟨x, y, h3, (hc.mem y).1 (List.mem_map_of_mem (f := Prod.fst) hym), hyx, h4, ?_, ?_⟩
  · intro z hz
    by_cases hzm : z ∈ spacings ts
    · obtain ⟨⟨z', cz⟩, hzz, e⟩ := List.mem_map.1 ((hc.mem z).2 hzm)
      simp only at e; subst e
      rw [← hc.cnt _ _ hzz, ← hyc]
      exact s2 _ _ hzz (by intro e; cases e; exact hz rfl)
    · rw [List.count_eq_zero_of_not_mem hzm]; exact Nat.zero_le _
  · unfold detectSampling
    rw [if_neg (by omega), hlen]
    simp only [Option.map_some]
    rw [if_neg hl, if_neg (by omega), h1, hyc, hxc]

theorem C228_witness : detectSampling 1 [0, 60, 120, 200, 260] = some (.ok (some 60, 2 / 3)) ∧
    distinctSpacings [0, 60, 120, 200, 260] ≠ 1 ∧
    (distinctSpacings [0, 60, 120, 200, 260] : ℚ) ≤ 95 / 100 * ([0, 60, 120, 200, 260] : List ℚ).length := by
  decide +kernel

/-! ## C226 -/

theorem appendAll_keeps (g : GSeries) (l : List Item) :
    (g.appendAll l).1.guessed = g.guessed ∧ (g.appendAll l).1.interval = g.interval := by
  induction l generalizing g with
  | nil => simp [GSeries.appendAll]
  | cons x r ih =>
    rw [GSeries.appendAll]
    cases h : (g.append x).2 with
    | error e => simp [GSeries.append]
    | ok v =>
      have := ih (g.append x).1
      simpa [GSeries.append] using this

/-- the points at the given times, with one value each -/
def guessPoint (t : ℚ) : Item := { t := t, data := some (.list [1]) }

/-- the series built from the points of the given times, never asked anything -/
def guessSeries (ts : List ℚ) : GSeries := ((({} : GSeries).appendAll (ts.map guessPoint))).1

/-- the series asked for its resolution before the last points were appended -/
def guessAsked : GSeries :=
  match (guessSeries [0, 60, 120, 200]).guess spacingUnit 1 false with
  | some (g, _) => (g.appendAll ([210, 220, 230, 240, 250].map guessPoint)).1
  | none => {}

/-- a guess, without the series -/
def guessOf (r : Option (GSeries × Except PyErr Guess)) : Option (Except PyErr Guess) := r.map Prod.snd

/-- **C226 is false**: the guessed resolution depends on when it was first asked.  Two series with the same items, whose
most common spacing is ten seconds, give two different guesses: the one asked when it was shorter still says one
minute. -/
theorem C226_false : guessAsked.s = (guessSeries [0, 60, 120, 200, 210, 220, 230, 240, 250]).s ∧
    guessOf (guessAsked.guess spacingUnit 1 false) = some (.ok ⟨.ofSecs 60, none⟩) ∧
    guessOf ((guessSeries [0, 60, 120, 200, 210, 220, 230, 240, 250]).guess spacingUnit 1 false) =
      some (.ok ⟨.ofSecs 10, none⟩) := by
  decide +kernel

theorem guessFinally_guessed {k : ℕ} {conf : Bool} {g g' : GSeries} {r : Guess}
    (h : g.guessFinally k conf = some (g', .ok r)) : g.guessed = some r.value ∧ g'.guessed = some r.value := by
  unfold GSeries.guessFinally at h
  cases hg : g.guessed with
  | none => simp [hg] at h
  | some u =>
    rw [hg] at h
    dsimp only at h
    split_ifs at h with hc
    · unfold GSeries.sampling at h
      cases hi : g.interval with
      | some v =>
        simp only [hi] at h
        cases h
        exact ⟨rfl, hg⟩
      | none =>
        simp only [hi] at h
        cases hd : detectSampling k (g.s.items.map Item.t) with
        | none => simp [hd] at h
        | some e =>
          rcases e with e | ⟨o, c⟩
          · simp [hd] at h
          · rcases o with _ | d
            · simp [hd] at h
            · simp only [hd] at h
              cases h
              exact ⟨rfl, hg⟩
    · cases h
      exact ⟨rfl, hg⟩

theorem guess_guessed {unitOf : ℚ → Option TUnit} {k : ℕ} {conf : Bool} {g g' : GSeries} {r : Guess}
    (h : g.guess unitOf k conf = some (g', .ok r)) :
    g'.guessed = some r.value ∧ ∀ u, g.guessed = some u → r.value = u := by
  unfold GSeries.guess at h
  split at h
  · simp at h
  · split_ifs at h <;> simp at h
  · split_ifs at h
    · simp at h
    · simp at h
    · cases hg : g.guessed with
      | some u =>
        rw [hg] at h
        dsimp only at h
        obtain ⟨h1, h2⟩ := guessFinally_guessed h
        refine ⟨h2, ?_⟩
        intro u' hu'
        rw [hg] at h1
        cases h1; cases hu'; rfl
      | none =>
        rw [hg] at h
        dsimp only at h
        refine ⟨?_, by simp⟩
        split at h
        · simp at h
        · exact (guessFinally_guessed h).2
        · split at h
          · exact (guessFinally_guessed h).2
          · exact (guessFinally_guessed h).2

/-- **C226 (the guess never changes)**: after a first guess, whatever is appended to the series and with whatever
arguments it is asked again, a guess which is given is the first one. -/
theorem C226_frozen_false {unitOf : ℚ → Option TUnit} {k k' : ℕ} {conf conf' : Bool} {g g' g'' : GSeries} {r r' : Guess}
    (l : List Item) (h : g.guess unitOf k conf = some (g', .ok r))
    (h' : (g'.appendAll l).1.guess unitOf k' conf' = some (g'', .ok r')) : r'.value = r.value := by
  obtain ⟨h1, _⟩ := guess_guessed h
  obtain ⟨_, h2⟩ := guess_guessed h'
  exact h2 _ (by rw [(appendAll_keeps g' l).1, h1])

/-- **C226, partial**: a series of points of variable resolution which was never asked before, with spacings which repeat
enough, is given the unit of a spacing which occurs at least as often as every other one, together with a confidence
between 0 and 1 if asked, and keeps its items.  (Missing: a series which was asked before, of which the claim is
false.) -/
theorem C226_first_partial {unitOf : ℚ → Option TUnit} {g : GSeries} (k : ℕ) (conf : Bool)
    (hp : ∀ x ∈ g.s.items, x.isSlot = false) (hn : 2 ≤ g.s.items.length) (hv : g.s.res = .varying)
    (hf : g.guessed = none) (hi : g.interval = none)
    (hd : (distinctSpacings (g.s.items.map Item.t) : ℚ) ≤ 95 / 100 * g.s.items.length)
    (hu : ∀ d, d ∈ spacings (g.s.items.map Item.t) → (unitOf d).isSome) :
    ∃ (g' : GSeries) (x : ℚ) (u : TUnit) (c : ℚ), x ∈ spacings (g.s.items.map Item.t) ∧
      (∀ y, (spacings (g.s.items.map Item.t)).count y ≤ (spacings (g.s.items.map Item.t)).count x) ∧
      unitOf x = some u ∧ 0 ≤ c ∧ c ≤ 1 ∧ g'.s = g.s ∧
      g.guess unitOf (k + 1) conf = some (g', .ok ⟨u, if conf then some c else none⟩) := by
  obtain ⟨x, c, h1, h2, h3⟩ := C38_most_common (g.s.items.map Item.t) (by simpa using hn) (by simpa using hd) k
  obtain ⟨u, hu'⟩ := Option.isSome_iff_exists.1 (hu x h2)
  obtain ⟨c0, c1⟩ := C228_range _ _ _ _ h1
  refine ⟨{ g with interval := some (x, c), guessed := some u }, x, u, c, h2, h3, hu', c0, c1, rfl, ?_⟩
  have hs : g.sampling (k + 1) = some ({ g with interval := some (x, c) }, .ok (x, c)) := by
    unfold GSeries.sampling
    rw [hi]; dsimp only; rw [h1]
  unfold GSeries.guess
  cases hit : g.s.items with
  | nil => simp [hit] at hn
  | cons a r =>
    cases r with
    | nil => simp [hit] at hn
    | cons b r =>
      dsimp only
      rw [if_neg (by rw [hp a (by simp [hit])]; simp), if_neg (by simp [hv]), hf]
      dsimp only
      rw [hs]
      dsimp only
      rw [hu']
      dsimp only
      cases conf <;> simp [GSeries.guessFinally, GSeries.sampling]

theorem C226_witness : (∀ x ∈ (guessSeries [0, 60, 120, 200]).s.items, x.isSlot = false) ∧
    (guessSeries [0, 60, 120, 200]).s.res = .varying ∧ (guessSeries [0, 60, 120, 200]).guessed = none ∧
    (guessSeries [0, 60, 120, 200]).interval = none ∧
    (distinctSpacings ((guessSeries [0, 60, 120, 200]).s.items.map Item.t) : ℚ) ≤
      95 / 100 * (guessSeries [0, 60, 120, 200]).s.items.length ∧
    guessOf ((guessSeries [0, 60, 120, 200]).guess spacingUnit 1 true) = some (.ok ⟨.ofSecs 60, some (1 / 2)⟩) := by
  decide +kernel

/-! ## C227: refusals -/

/-- a series whose most common spacing is not readable as a time unit -/
def guessTiny : GSeries := guessSeries [0, 1, 100001/100000, 100002/100000, 100003/100000, 100004/100000]

/-- **C227 is false**: an empty series is refused by a `TypeError` (and not by the `ValueError` written for it), and
a series whose most common spacing has no time unit by an `AttributeError` on an internal name, which hides the
exception of the time unit. -/
theorem C227_false (unitOf : ℚ → Option TUnit) (k : ℕ) (conf : Bool) :
    guessOf (({} : GSeries).guess unitOf k conf) = some (.error .typeError) ∧
    guessOf (guessTiny.guess spacingUnit 1 false) = some (.error .attributeError) := by
  constructor
  · rfl
  · decide +kernel

/-- **C227, partial**: a series of one point, and a series of points with a well defined resolution, are refused by a
`ValueError`; a series of slots by a `NotImplementedError`; the series is left as it was. -/
theorem C227_refused_partial (unitOf : ℚ → Option TUnit) (k : ℕ) (conf : Bool) (g : GSeries) (hne : g.s.items ≠ []) :
    ((∀ x ∈ g.s.items, x.isSlot = true) → g.guess unitOf k conf = some (g, .error .notImplemented)) ∧
    ((∀ x ∈ g.s.items, x.isSlot = false) → (g.s.items.length = 1 ∨ g.s.res ≠ .varying) →
      g.guess unitOf k conf = some (g, .error .valueError)) := by
  unfold GSeries.guess
  cases hit : g.s.items with
  | nil => exact absurd hit hne
  | cons a r =>
    cases r with
    | nil =>
      refine ⟨fun h => ?_, fun h _ => ?_⟩
      · dsimp only; rw [if_pos (h a (by simp))]
      · dsimp only; rw [if_neg (by rw [h a (by simp)]; simp)]
    | cons b r =>
      refine ⟨fun h => ?_, fun h hr => ?_⟩
      · dsimp only; rw [if_pos (h a (by simp))]
      · have hr' : g.s.res ≠ .varying := by
          rcases hr with hr | hr
          · simp at hr
          · exact hr
        dsimp only
        rw [if_neg (by rw [h a (by simp)]; simp), if_pos hr']

theorem C227_witness : (guessSeries [0]).s.items.length = 1 ∧ (guessSeries [0, 60, 120]).s.res = .unit (.ofSecs 60) ∧
    (guessSeries [0, 60, 120]).s.items.length = 3 := by
  decide +kernel

end Timeseria
