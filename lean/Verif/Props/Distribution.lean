import Verif.Model.Distribution
import Mathlib.Topology.Order.IntermediateValue
import Mathlib.Topology.Algebra.Order.Field
import Mathlib.Topology.Instances.Real.Lemmas
import Mathlib.Tactic.Linarith
import Mathlib.Tactic.Ring
import Mathlib.Tactic.Positivity
import Mathlib.Tactic.NormNum

/-! # C250, C251: distribution functions -/

namespace Timeseria

/-! ## C250: the adherence -/

/-- what is required of a cumulative distribution: values between 0 and 1, never decreasing -/
structure IsCdf (F : ℝ → ℝ) : Prop where
  mono : Monotone F
  nonneg : ∀ x, 0 ≤ F x
  le_one : ∀ x, F x ≤ 1

/-- **C250** is false: for a distribution whose lower half reaches above zero (at `x ≥ 0` less than half of the probability has been
reached), the adherence of `x` is more than 1.  The errors of a model with a bias have such a distribution. -/
theorem C250_false (d : DistFn) (x : ℝ) (hx : d.cdf |x| < 1 / 2) : 1 < d.adherence x := by
  unfold DistFn.adherence
  linarith

/-- the uniform distribution between 9 and 11 -/
noncomputable def uniformTen : DistFn where
  pdf x := if 9 ≤ x ∧ x ≤ 11 then 1 / 2 else 0
  cdf x := max 0 (min 1 ((x - 9) / 2))
  loc := 9
  scale := 2

theorem uniformTen_isCdf : IsCdf uniformTen.cdf where
  mono := by
    intro a b h
    exact max_le_max le_rfl (min_le_min le_rfl (by linarith))
  nonneg x := le_max_left _ _
  le_one x := max_le (by norm_num) (min_le_left _ _)

/-- the adherence of 9.5, well within the distribution, is 3/2, and that of -10 is 1 -/
theorem C250_false_witness : uniformTen.adherence (19 / 2) = 3 / 2 ∧ uniformTen.adherence (-10) = 1 := by
  constructor
  · have : uniformTen.cdf |(19 / 2 : ℝ)| = 1 / 4 := by
      rw [abs_of_pos (by norm_num)]
      unfold uniformTen
      norm_num
    unfold DistFn.adherence
    rw [this]
    norm_num
  · have : uniformTen.cdf |(-10 : ℝ)| = 1 / 2 := by
      rw [show |(-10 : ℝ)| = 10 by norm_num]
      unfold uniformTen
      norm_num
    unfold DistFn.adherence
    rw [this]
    norm_num

/-- **C250**, partial: the adherence is never negative and does not increase with the distance from zero; it is at most 1 exactly where at
least half of the probability lies below the distance, in particular everywhere if it lies below zero, and equal to 1 at zero if exactly
half does.  Missing: distributions which are not centred in zero or below (`C250_false`). -/
theorem C250_partial (d : DistFn) (h : IsCdf d.cdf) :
    (∀ x, 0 ≤ d.adherence x) ∧ (∀ x y, |x| ≤ |y| → d.adherence y ≤ d.adherence x) ∧
    (∀ x, d.adherence x ≤ 1 ↔ 1 / 2 ≤ d.cdf |x|) ∧
    (1 / 2 ≤ d.cdf 0 → ∀ x, d.adherence x ≤ 1) ∧ (d.cdf 0 = 1 / 2 → d.adherence 0 = 1) := by
  unfold DistFn.adherence
  refine ⟨fun x => ?_, fun x y hxy => ?_, fun x => ?_, fun h0 x => ?_, fun h0 => ?_⟩
  · have := h.le_one |x|
    linarith
  · have := h.mono hxy
    linarith
  · constructor <;> intro hx <;> linarith
  · have := h.mono (abs_nonneg x)
    linarith
  · rw [abs_zero, h0]
    norm_num

/-! ## C251: finding a value from its density -/

/-- a zero of `f` between `a` and `b`, whichever comes first -/
def ZeroBetween (f : ℝ → ℝ) (a b : ℝ) (r : ℝ) : Prop := r ∈ Set.uIcc a b ∧ f r = 0

theorem exists_zero {f : ℝ → ℝ} (hf : Continuous f) {a b : ℝ} (h : f a * f b ≤ 0) : ∃ r, ZeroBetween f a b r := by
  have h0 : (0 : ℝ) ∈ Set.uIcc (f a) (f b) := by
    rw [Set.mem_uIcc]
    rcases le_total (f a) 0 with ha | ha <;> rcases le_total (f b) 0 with hb | hb
    · rcases eq_or_lt_of_le ha with ha' | ha'
      · right; constructor <;> linarith
      · rcases eq_or_lt_of_le hb with hb' | hb'
        · left; constructor <;> linarith
        · have := mul_pos_of_neg_of_neg ha' hb'
          linarith
    · left; exact ⟨ha, hb⟩
    · right; exact ⟨hb, ha⟩
    · rcases eq_or_lt_of_le ha with ha' | ha'
      · left; constructor <;> linarith
      · rcases eq_or_lt_of_le hb with hb' | hb'
        · right; constructor <;> linarith
        · have := mul_pos ha' hb'
          linarith
  obtain ⟨r, hr, h1⟩ := intermediate_value_uIcc hf.continuousOn h0
  exact ⟨r, hr, h1⟩

theorem uIcc_half (a dm : ℝ) : a + dm / 2 ∈ Set.uIcc a (a + dm) := by
  rw [Set.mem_uIcc]
  rcases le_total 0 dm with h | h
  · left; constructor <;> linarith
  · right; constructor <;> linarith

/-- two points of the interval are no further apart than its length -/
theorem uIcc_dist {a b x y : ℝ} (hx : x ∈ Set.uIcc a b) (hy : y ∈ Set.uIcc a b) : |x - y| ≤ |b - a| := by
  rw [Set.mem_uIcc] at hx hy
  rcases hx with hx | hx <;> rcases hy with hy | hy <;> rw [abs_le] <;>
    rcases abs_cases (b - a) with h | h <;> constructor <;> linarith [hx.1, hx.2, hy.1, hy.2, h.1, h.2]

theorem uIcc_sub_left (a dm : ℝ) {r : ℝ} (h : r ∈ Set.uIcc a (a + dm / 2)) : r ∈ Set.uIcc a (a + dm) := by
  rw [Set.mem_uIcc] at h ⊢
  rcases le_total 0 dm with hd | hd
  · left; rcases h with h | h <;> constructor <;> linarith [h.1, h.2]
  · right; rcases h with h | h <;> constructor <;> linarith [h.1, h.2]

theorem uIcc_sub_right (a dm : ℝ) {r : ℝ} (h : r ∈ Set.uIcc (a + dm / 2) (a + dm / 2 + dm / 2)) : r ∈ Set.uIcc a (a + dm) := by
  rw [Set.mem_uIcc] at h ⊢
  rcases le_total 0 dm with hd | hd
  · left; rcases h with h | h <;> constructor <;> linarith [h.1, h.2]
  · right; rcases h with h | h <;> constructor <;> linarith [h.1, h.2]

/-- the loop: whatever is returned lies in the interval, and is a zero or within the tolerance of a zero in the interval -/
theorem bisectLoop_spec {f : ℝ → ℝ} (hf : Continuous f) {sa xtol rtol : ℝ} (hsa : sa ≠ 0) :
    ∀ (n : ℕ) (a dm x : ℝ), 0 ≤ f a * sa → f a * f (a + dm) ≤ 0 → f (a + dm) * sa ≤ 0 →
      bisectLoop f sa xtol rtol n a dm = .ok x →
      x ∈ Set.uIcc a (a + dm) ∧ ∃ r, ZeroBetween f a (a + dm) r ∧ (r = x ∨ |x - r| < xtol + rtol * |x|) := by
  intro n
  induction n with
  | zero => intro a dm x _ _ _ h; cases h
  | succ n ih =>
    intro a dm x h1 h2 h3 h
    unfold bisectLoop at h
    dsimp only at h
    split at h
    · rename_i hs
      cases h
      refine ⟨uIcc_half a dm, ?_⟩
      rcases hs with hs | hs
      · exact ⟨_, ⟨uIcc_half a dm, hs⟩, .inl rfl⟩
      · by_cases hz : f (a + dm / 2) = 0
        · exact ⟨_, ⟨uIcc_half a dm, hz⟩, .inl rfl⟩
        · by_cases hk : 0 ≤ f (a + dm / 2) * sa
          · -- the zero is in the second half
            have hsg : f (a + dm / 2) * f (a + dm / 2 + dm / 2) ≤ 0 := by
              rw [show a + dm / 2 + dm / 2 = a + dm by ring]
              by_contra hc
              push Not at hc
              have h4 : 0 < f (a + dm / 2) * sa := lt_of_le_of_ne hk (Ne.symm (mul_ne_zero hz hsa))
              have h5 : 0 < f (a + dm / 2) * f (a + dm / 2) := mul_self_pos.2 hz
              have : 0 < (f (a + dm / 2) * f (a + dm / 2)) * (f (a + dm) * sa) := by
                have := mul_pos hc h4
                calc (0 : ℝ) < f (a + dm / 2) * f (a + dm) * (f (a + dm / 2) * sa) := this
                  _ = _ := by ring
              have := (mul_pos_iff_of_pos_left h5).1 this
              linarith
            obtain ⟨r, hr, hr0⟩ := exists_zero hf hsg
            refine ⟨r, ⟨uIcc_sub_right a dm hr, hr0⟩, .inr (lt_of_le_of_lt ?_ hs)⟩
            have := uIcc_dist (x := a + dm / 2) (y := r) Set.left_mem_uIcc hr
            rwa [show a + dm / 2 + dm / 2 - (a + dm / 2) = dm / 2 by ring] at this
          · push Not at hk
            have hsg : f a * f (a + dm / 2) ≤ 0 := by
              by_contra hc
              push Not at hc
              have : 0 < (f a * f (a + dm / 2)) * -(f (a + dm / 2) * sa) := mul_pos hc (by linarith)
              have h5 : 0 < f (a + dm / 2) * f (a + dm / 2) := mul_self_pos.2 hz
              have h6 : (f a * f (a + dm / 2)) * -(f (a + dm / 2) * sa) = -((f (a + dm / 2) * f (a + dm / 2)) * (f a * sa)) := by ring
              rw [h6] at this
              have := mul_nonneg h5.le h1
              linarith
            obtain ⟨r, hr, hr0⟩ := exists_zero hf hsg
            refine ⟨r, ⟨uIcc_sub_left a dm hr, hr0⟩, .inr (lt_of_le_of_lt ?_ hs)⟩
            have := uIcc_dist (x := a + dm / 2) (y := r) Set.right_mem_uIcc hr
            rwa [show a + dm / 2 - a = dm / 2 by ring] at this
    · rename_i hs
      push Not at hs
      have hz := hs.1
      by_cases hk : 0 ≤ f (a + dm / 2) * sa
      · rw [if_pos hk] at h
        have h5 : 0 < f (a + dm / 2) * f (a + dm / 2) := mul_self_pos.2 hz
        have hsg : f (a + dm / 2) * f (a + dm / 2 + dm / 2) ≤ 0 := by
          rw [show a + dm / 2 + dm / 2 = a + dm by ring]
          by_contra hc
          push Not at hc
          have h4 : 0 < f (a + dm / 2) * sa := lt_of_le_of_ne hk (Ne.symm (mul_ne_zero hz hsa))
          have : 0 < (f (a + dm / 2) * f (a + dm / 2)) * (f (a + dm) * sa) := by
            have := mul_pos hc h4
            calc (0 : ℝ) < f (a + dm / 2) * f (a + dm) * (f (a + dm / 2) * sa) := this
              _ = _ := by ring
          have := (mul_pos_iff_of_pos_left h5).1 this
          linarith
        obtain ⟨h6, r, hr, hx⟩ := ih _ _ _ hk hsg (by rwa [show a + dm / 2 + dm / 2 = a + dm by ring]) h
        exact ⟨uIcc_sub_right a dm h6, r, ⟨uIcc_sub_right a dm hr.1, hr.2⟩, hx⟩
      · rw [if_neg hk] at h
        push Not at hk
        have hsg : f a * f (a + dm / 2) ≤ 0 := by
          by_contra hc
          push Not at hc
          have : 0 < (f a * f (a + dm / 2)) * -(f (a + dm / 2) * sa) := mul_pos hc (by linarith)
          have h5 : 0 < f (a + dm / 2) * f (a + dm / 2) := mul_self_pos.2 hz
          have h6 : (f a * f (a + dm / 2)) * -(f (a + dm / 2) * sa) = -((f (a + dm / 2) * f (a + dm / 2)) * (f a * sa)) := by ring
          rw [h6] at this
          have := mul_nonneg h5.le h1
          linarith
        obtain ⟨h6, r, hr, hx⟩ := ih _ _ _ h1 hsg hk.le h
        exact ⟨uIcc_sub_left a dm h6, r, ⟨uIcc_sub_left a dm hr.1, hr.2⟩, hx⟩

theorem bisect_spec {f : ℝ → ℝ} (hf : Continuous f) {xtol rtol : ℝ} {n : ℕ} {a b x : ℝ}
    (h : bisect f xtol rtol n a b = .ok x) :
    x ∈ Set.uIcc a b ∧ ∃ r, ZeroBetween f a b r ∧ (r = x ∨ |x - r| < xtol + rtol * |x|) := by
  unfold bisect at h
  split at h
  · rename_i ha
    cases h
    exact ⟨Set.left_mem_uIcc, _, ⟨Set.left_mem_uIcc, ha⟩, .inl rfl⟩
  split at h
  · rename_i hb
    cases h
    exact ⟨Set.right_mem_uIcc, _, ⟨Set.right_mem_uIcc, hb⟩, .inl rfl⟩
  split at h
  · cases h
  · rename_i ha hb hs
    push Not at hs
    have := bisectLoop_spec hf ha n a (b - a) x (mul_self_nonneg _) (by rwa [add_sub_cancel]) (by
      rw [add_sub_cancel, mul_comm]; exact hs) h
    rwa [add_sub_cancel] at this

/-- the interval does not need to be halved more than `n` times -/
theorem bisectLoop_ends {f : ℝ → ℝ} {sa xtol rtol : ℝ} (hr : 0 ≤ rtol) : ∀ (n : ℕ) (a dm : ℝ), |dm| < xtol * 2 ^ n → 0 < n →
    ∃ x, bisectLoop f sa xtol rtol n a dm = .ok x := by
  intro n
  induction n with
  | zero => intro a dm _ h; omega
  | succ n ih =>
    intro a dm h _
    unfold bisectLoop
    dsimp only
    split
    · exact ⟨_, rfl⟩
    · rename_i hs
      push Not at hs
      rcases Nat.eq_zero_or_pos n with rfl | hn
      · exfalso
        have h1 : |dm / 2| < xtol := by
          rw [abs_div, abs_two]
          simp only [zero_add, pow_one] at h
          linarith
        have h2 : 0 ≤ rtol * |a + dm / 2| := mul_nonneg hr (abs_nonneg _)
        linarith [hs.2]
      · refine ih _ _ ?_ hn
        rw [abs_div, abs_two, pow_succ] at *
        linarith

/-- `find_x` is asked for a value on the right, or on the left, of the centre: the interval it searches does extend to that side -/
def Reaches (d : DistFn) (wideness : ℝ) (side : String) : Prop :=
  (side = "right" ∧ d.loc ≤ d.scale * wideness) ∨ (side = "left" ∧ -(d.scale * wideness) ≤ d.loc)

/-- the values on a side of the centre of the distribution -/
def OnSide (d : DistFn) (side : String) (x : ℝ) : Prop := (side = "right" ∧ d.loc ≤ x) ∨ (side = "left" ∧ x ≤ d.loc)

/-- **C251**, partial: for a continuous density and a centre from which the side asked for is reached, whatever `find_x(y)` returns is on the
side asked for and within the tolerance of a value on that side whose density is exactly `y`.  Missing: centres further from zero than
`wideness` times the scale (`C251_false`). -/
theorem C251_found_partial {d : DistFn} (hd : Continuous d.pdf) {c : BisectCfg} {y w x : ℝ} {side : String} (hr : Reaches d w side)
    (h : d.findX c y w side = .ok x) :
    OnSide d side x ∧ ∃ r, OnSide d side r ∧ d.pdf r = y ∧ (r = x ∨ |x - r| < c.xtol + c.rtol * |x|) := by
  have hf : Continuous (fun x => d.pdf x - y) := hd.sub continuous_const
  unfold DistFn.findX DistFn.searchEnd at h
  have side_of : ∀ z, (side = "right" → z ∈ Set.uIcc d.loc (d.scale * w)) → (side = "left" → z ∈ Set.uIcc d.loc (-(d.scale * w))) →
      OnSide d side z := by
    intro z h1 h2
    rcases hr with ⟨hs, hl⟩ | ⟨hs, hl⟩
    · have := h1 hs
      rw [Set.uIcc_of_le hl] at this
      exact .inl ⟨hs, this.1⟩
    · have := h2 hs
      rw [Set.uIcc_of_ge hl] at this
      exact .inr ⟨hs, this.2⟩
  by_cases h1 : side = "right"
  · simp only [if_pos h1] at h
    obtain ⟨hx, r, ⟨hr1, hr2⟩, hx2⟩ := bisect_spec hf h
    have hl : ¬ side = "left" := by rw [h1]; decide
    exact ⟨side_of _ (fun _ => hx) (fun e => absurd e hl), r, side_of _ (fun _ => hr1) (fun e => absurd e hl), by linarith, hx2⟩
  · by_cases h2 : side = "left"
    · simp only [if_neg h1, if_pos h2] at h
      obtain ⟨hx, r, ⟨hr1, hr2⟩, hx2⟩ := bisect_spec hf h
      exact ⟨side_of _ (fun e => absurd e h1) (fun _ => hx), r, side_of _ (fun e => absurd e h1) (fun _ => hr1), by linarith, hx2⟩
    · simp only [if_neg h1, if_neg h2] at h
      cases h

/-- **C251**, partial (success): if the density is more than `y` at the centre and less at the end of the interval searched, and the library makes
enough steps, a value is found. -/
theorem C251_success_partial {d : DistFn} {c : BisectCfg} {y w : ℝ} (hrt : 0 ≤ c.rtol) (hn : 0 < c.maxiter)
    (hsteps : |d.scale * w - d.loc| < c.xtol * 2 ^ c.maxiter) (h1 : y < d.pdf d.loc) (h2 : d.pdf (d.scale * w) < y) :
    ∃ x, d.findX c y w "right" = .ok x := by
  unfold DistFn.findX DistFn.searchEnd bisect
  simp only [if_true]
  rw [if_neg (by intro h; linarith), if_neg (by intro h; linarith), if_neg]
  · exact bisectLoop_ends hrt _ _ _ hsteps hn
  · push Not
    exact (mul_neg_of_pos_of_neg (by linarith) (by linarith)).le

/-- **C251**, partial (refusals): a side which is not `right` or `left`, a density greater than those at both ends, or smaller than both, is a
`ValueError`: in particular the divider of the bounds `adherence/x` must be more than 1. -/
theorem C251_refused_partial (d : DistFn) (c : BisectCfg) (y w : ℝ) :
    (∀ side, side ≠ "right" → side ≠ "left" → d.findX c y w side = .error .valueError) ∧
    (d.pdf d.loc < y → d.pdf (d.scale * w) < y → d.findX c y w "right" = .error .valueError) ∧
    (y < d.pdf d.loc → y < d.pdf (d.scale * w) → d.findX c y w "right" = .error .valueError) := by
  unfold DistFn.findX DistFn.searchEnd bisect
  refine ⟨fun side h1 h2 => by simp only [if_neg h1, if_neg h2], fun h1 h2 => ?_, fun h1 h2 => ?_⟩
  · simp only [if_true]
    rw [if_neg (by intro h; linarith), if_neg (by intro h; linarith), if_pos (mul_pos_of_neg_of_neg (by linarith) (by linarith))]
  · simp only [if_true]
    rw [if_neg (by intro h; linarith), if_neg (by intro h; linarith), if_pos (mul_pos (by linarith) (by linarith))]

/-- **C251** is false when the centre is further from zero than `wideness` (1000) times the scale: whatever is found for the right side is not on
the right of the centre. -/
theorem C251_false {d : DistFn} (hd : Continuous d.pdf) {c : BisectCfg} {y w x : ℝ} (hl : d.scale * w < d.loc)
    (h : d.findX c y w "right" = .ok x) : x ≤ d.loc := by
  have hf : Continuous (fun x => d.pdf x - y) := hd.sub continuous_const
  unfold DistFn.findX DistFn.searchEnd at h
  simp only [if_true] at h
  obtain ⟨hx, _⟩ := bisect_spec hf h
  rw [Set.uIcc_of_ge hl.le] at hx
  exact hx.2

/-- a density with centre 2000 and scale 1 (of the shape of a Cauchy distribution) -/
noncomputable def farAway : DistFn where
  pdf x := 1 / (1 + (x - 2000) ^ 2)
  cdf _ := 0
  loc := 2000
  scale := 1

/-- on the right, at 2500, the density of `farAway` is what is asked for, but the value found is 1500 -/
theorem C251_false_witness (c : BisectCfg) (hn : 0 < c.maxiter) :
    farAway.pdf 2500 = 1 / 250001 ∧ farAway.findX c (1 / 250001) 1000 "right" = .ok 1500 := by
  obtain ⟨xtol, rtol, n⟩ := c
  obtain ⟨m, rfl⟩ : ∃ m, n = m + 1 := ⟨n - 1, by dsimp only at hn; omega⟩
  constructor
  · unfold farAway
    norm_num
  · unfold DistFn.findX DistFn.searchEnd bisect bisectLoop farAway
    norm_num

/-- a case in which the side is reached: centre 0 and scale 1 -/
noncomputable def centred : DistFn where
  pdf x := 1 / (1 + x ^ 2)
  cdf _ := 0
  loc := 0
  scale := 1

theorem C251_witness : Continuous centred.pdf ∧ Reaches centred 1000 "right" ∧
    centred.findX ⟨1 / 1000, 0, 100⟩ (1 / 250001) 1000 "right" = .ok 500 := by
  refine ⟨?_, .inl ⟨rfl, by unfold centred; norm_num⟩, ?_⟩
  · unfold centred
    dsimp only
    exact continuous_const.div (continuous_const.add (continuous_id.pow 2)) (fun x => by positivity)
  · unfold DistFn.findX DistFn.searchEnd bisect bisectLoop centred
    norm_num

end Timeseria
