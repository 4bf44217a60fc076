import Verif.Props.Floats

/-! # C301-C307: coverage, anomaly indexes, interpolation, differences, rescaling, metrics and periods in floating point -/

namespace Timeseria

/-! ## C301: coverage and data loss -/

/-- **C301 (lower bound), partial**: for every rounding, if each region ends after it begins, the coverage of an interval whose length is not rounded to zero is not negative, and the data loss
is at most 1.  Missing: the coverage can be above 1, and the data loss negative (`C301_false`). -/
theorem C301_lower_partial (R : Rounding) (from_ to_ : ℚ) (h : from_ < to_) (hs : 0 < R.sub to_ from_) (l : List (ℚ × ℚ)) (hl : ∀ r ∈ l, r.1 ≤ r.2) :
    (∃ c, R.coverage from_ to_ l = .ok c ∧ 0 ≤ c) ∧ ∃ d, R.lossFromCoverage from_ to_ l = .ok d ∧ d ≤ 1 := by
  have hloop : ∀ (l : List (ℚ × ℚ)) (acc : ℚ), (∀ r ∈ l, r.1 ≤ r.2) → 0 ≤ acc → 0 ≤ R.coverLoop from_ to_ acc l := by
    intro l
    induction l with
    | nil => intro acc _ h; exact h
    | cons r l ih =>
      intro acc hl ha
      unfold Rounding.coverLoop
      split
      · exact ih acc (fun x hx => hl x (by simp [hx])) ha
      · rename_i h1
        split
        · exact ha
        · rename_i h2
          refine ih _ (fun x hx => hl x (by simp [hx])) (R.fl_nonneg (add_nonneg ha (R.fl_nonneg ?_)))
          have := hl r (by simp)
          push Not at h1 h2
          split <;> split <;> linarith
  have hc : ∃ c, R.coverage from_ to_ l = .ok c ∧ 0 ≤ c := by
    unfold Rounding.coverage
    rw [if_neg (not_le.2 h)]
    split
    · exact ⟨0, rfl, le_rfl⟩
    · rw [R.div_ok hs.ne']
      exact ⟨_, rfl, R.fl_nonneg (div_nonneg (hloop l 0 hl le_rfl) hs.le)⟩
  refine ⟨hc, ?_⟩
  obtain ⟨c, hc, h0⟩ := hc
  unfold Rounding.lossFromCoverage
  rw [hc]
  exact ⟨_, rfl, R.fl_le_one (by linarith)⟩

/-- whole numbers or halves, up to 2 ^ 51 -/
def Halves (x : ℚ) : Prop := ∃ n : ℤ, |n| ≤ 2 ^ 52 ∧ x = n / 2

theorem Halves.sub {x y : ℚ} (hx : Halves x) (hy : Halves y) : doubles.sub x y = x - y := by
  obtain ⟨n, hn, rfl⟩ := hx
  obtain ⟨m, hm, rfl⟩ := hy
  unfold Rounding.sub
  rw [← sub_div, ← Int.cast_sub]
  apply fl64_half
  rw [abs_le] at *
  constructor <;> omega

theorem coverLoop_whole {from_ to_ : ℚ} (hf : Halves from_) (ht : Halves to_) (hw : from_ ≤ to_) : ∀ (l : List (ℚ × ℚ)), (∀ r ∈ l, Halves r.1 ∧ Halves r.2 ∧ r.1 ≤ r.2) →
    l.Pairwise (fun r s => r.2 ≤ s.1) → ∀ (acc p : ℚ), (∃ n : ℤ, acc = n / 2) → 0 ≤ acc → acc ≤ p - from_ → p ≤ to_ → (∀ r ∈ l, p ≤ max r.1 from_) →
    0 ≤ doubles.coverLoop from_ to_ acc l ∧ doubles.coverLoop from_ to_ acc l ≤ to_ - from_ := by
  intro l
  induction l with
  | nil => intro _ _ acc p _ h0 h1 h2 _; exact ⟨h0, by unfold Rounding.coverLoop; linarith⟩
  | cons r l ih =>
    intro hl hp acc p ha h0 h1 h2 h3
    rw [List.pairwise_cons] at hp
    have hl' : ∀ s ∈ l, Halves s.1 ∧ Halves s.2 ∧ s.1 ≤ s.2 := fun s hs => hl s (by simp [hs])
    obtain ⟨hr1, hr2, hr⟩ := hl r (by simp)
    unfold Rounding.coverLoop
    split
    · exact ih hl' hp.2 acc p ha h0 h1 h2 (fun s hs => h3 s (by simp [hs]))
    · rename_i c1
      split
      · exact ⟨h0, by linarith⟩
      · rename_i c2
        push Not at c1 c2
        have hb : Halves (if r.2 < to_ then r.2 else to_) := by split <;> assumption
        have ha' : Halves (if r.1 ≥ from_ then r.1 else from_) := by split <;> assumption
        have e1 : (if r.2 < to_ then r.2 else to_) = min r.2 to_ := by
          split
          · rename_i c; exact (min_eq_left c.le).symm
          · rename_i c; exact (min_eq_right (not_lt.1 c)).symm
        have e2 : (if r.1 ≥ from_ then r.1 else from_) = max r.1 from_ := by
          split
          · rename_i c; exact (max_eq_left c).symm
          · rename_i c; exact (max_eq_right (not_le.1 c).le).symm
        have hpart : doubles.regionPart from_ to_ r = min r.2 to_ - max r.1 from_ := by
          unfold Rounding.regionPart
          rw [hb.sub ha', e1, e2]
        have hpos : max r.1 from_ ≤ min r.2 to_ := max_le (le_min hr c2.le) (le_min c1 hw)
        have hpm := h3 r (by simp)
        obtain ⟨n, hn⟩ := ha
        obtain ⟨m, hm, hm'⟩ := hb
        obtain ⟨k, hk, hk'⟩ := ha'
        have hmul : ∃ j : ℤ, acc + (min r.2 to_ - max r.1 from_) = j / 2 := ⟨n + (m - k), by rw [← e1, ← e2, hm', hk', hn]; push_cast; ring⟩
        have hle : acc + (min r.2 to_ - max r.1 from_) ≤ min r.2 to_ - from_ := by linarith
        have hadd : doubles.add acc (doubles.regionPart from_ to_ r) = acc + (min r.2 to_ - max r.1 from_) := by
          rw [hpart]
          unfold Rounding.add
          obtain ⟨j, hj⟩ := hmul
          rw [hj]
          apply fl64_half
          obtain ⟨f, hf1, hf2⟩ := hf
          obtain ⟨t, ht1, ht2⟩ := ht
          have hj0 : (0 : ℚ) ≤ j := by
            have : 0 ≤ acc + (min r.2 to_ - max r.1 from_) := by linarith
            rw [hj] at this; linarith
          have hj1 : (j : ℚ) ≤ t - f := by
            have : acc + (min r.2 to_ - max r.1 from_) ≤ to_ - from_ := hle.trans (by linarith [min_le_right r.2 to_])
            rw [hj, ht2, hf2] at this; linarith
          have hj0' : 0 ≤ j := by exact_mod_cast hj0
          have hj1' : j ≤ t - f := by exact_mod_cast hj1
          rw [abs_le] at *
          constructor <;> omega
        rw [hadd]
        refine ih hl' hp.2 _ (min r.2 to_) hmul (by linarith) hle (min_le_right _ _) ?_
        intro s hs
        exact (min_le_left _ _).trans ((hp.1 s hs).trans (le_max_left _ _))

/-- **C301 (whole seconds), partial**: if the bounds of the interval and of the regions, in order and not overlapping, are whole numbers or halves, up to 2 ^ 51, the coverage is between 0 and 1
also in double precision, and so is the data loss. -/
theorem C301_whole_partial (from_ to_ : ℚ) (h : from_ < to_) (hf : Halves from_) (ht : Halves to_) (l : List (ℚ × ℚ)) (hl : ∀ r ∈ l, Halves r.1 ∧ Halves r.2 ∧ r.1 ≤ r.2)
    (hp : l.Pairwise (fun r s => r.2 ≤ s.1)) :
    (∃ c, doubles.coverage from_ to_ l = .ok c ∧ 0 ≤ c ∧ c ≤ 1) ∧ ∃ d, doubles.lossFromCoverage from_ to_ l = .ok d ∧ 0 ≤ d ∧ d ≤ 1 := by
  have hsub : doubles.sub to_ from_ = to_ - from_ := ht.sub hf
  have hc : ∃ c, doubles.coverage from_ to_ l = .ok c ∧ 0 ≤ c ∧ c ≤ 1 := by
    unfold Rounding.coverage
    rw [if_neg (not_le.2 h)]
    split
    · exact ⟨0, rfl, le_rfl, by norm_num⟩
    · have h1 := coverLoop_whole hf ht h.le l hl hp 0 from_ ⟨0, by simp⟩ le_rfl (by simp) h.le (fun r _ => le_max_right _ _)
      rw [hsub, Rounding.div_ok (by linarith)]
      exact ⟨_, rfl, doubles.fl_nonneg (div_nonneg h1.1 (by linarith)), doubles.fl_le_one ((div_le_one (by linarith)).2 h1.2)⟩
  refine ⟨hc, ?_⟩
  obtain ⟨c, hc, h0, h1⟩ := hc
  unfold Rounding.lossFromCoverage
  rw [hc]
  exact ⟨_, rfl, doubles.fl_nonneg (by linarith), doubles.fl_le_one (by linarith)⟩

/-- the regions of points at 0.1, 0.7 and 1.3 seconds, one every 0.6 seconds -/
def tenthRegions : List (ℚ × ℚ) := doubles.regions (fl64 (6 / 10)) (tenths [1, 7, 13])

/-- **C301 is false**: of these points, none missing, the coverage of the interval between the first and the last is above 1 and the data loss is negative. -/
theorem C301_false : (doubles.coverage (fl64 (1 / 10)) (fl64 (13 / 10)) tenthRegions).toOption.map (fun c => decide (c > 1)) = some true ∧
    (doubles.lossFromCoverage (fl64 (1 / 10)) (fl64 (13 / 10)) tenthRegions).toOption.map (fun d => decide (d < 0)) = some true := by
  refine ⟨?_, ?_⟩ <;> decide +kernel

theorem C301_witness : Halves 1600000000 ∧ Halves (1600000300 + 1 / 2) ∧ ((1600000000 : ℚ), (1600000030 : ℚ)).1 ≤ 1600000030 ∧
    0 < doubles.sub (fl64 (13 / 10)) (fl64 (1 / 10)) ∧ (∀ r ∈ tenthRegions, r.1 ≤ r.2) := by
  refine ⟨⟨3200000000, by norm_num, by norm_num⟩, ⟨3200000601, by norm_num, by norm_num⟩, by norm_num, by decide +kernel, by decide +kernel⟩

/-! ## C302: the anomaly index -/

/-- **C302 (linear)**: for every rounding which keeps distinct values distinct, as double precision does, the linear index of a density between those of the two bounds is between 0 and 1,
0 at the first bound, 1 at the second, and does not grow with the density. -/
theorem C302_linear (R : Rounding) (hk : R.KeepsDistinct) (ys ye : ℚ) (hs : R.Rep ys) (he : R.Rep ye) (h : ye < ys) :
    (∀ y, ye ≤ y → y ≤ ys → ∃ v, R.linIndex ys ye y = .ok v ∧ 0 ≤ v ∧ v ≤ 1) ∧ R.linIndex ys ye ys = .ok 0 ∧ R.linIndex ys ye ye = .ok 1 ∧
    ∀ y y' v v', y ≤ y' → R.linIndex ys ye y = .ok v → R.linIndex ys ye y' = .ok v' → v' ≤ v := by
  have hp : 0 < R.sub ys ye := span_pos (mm := (ye, ys)) hk he hs h
  have hv : ∀ y, R.linIndex ys ye y = .ok (R.sub 1 (R.ratio (ye, ys) y)) := by
    intro y
    unfold Rounding.linIndex
    rw [R.div_ok hp.ne']
    rfl
  refine ⟨?_, ?_, ?_, ?_⟩
  · intro y h1 h2
    obtain ⟨h3, h4⟩ := ratio_bounds (mm := (ye, ys)) hp h1 h2
    exact ⟨_, hv y, R.fl_nonneg (by linarith), R.fl_le_one (by linarith)⟩
  · rw [hv, show R.ratio (ye, ys) ys = 1 from ratio_hi hp]
    unfold Rounding.sub
    rw [sub_self, R.zero]
  · rw [hv, show R.ratio (ye, ys) ye = 0 from ratio_lo]
    unfold Rounding.sub
    rw [sub_zero, R.one]
  · intro y y' v v' h1 h2 h3
    rw [hv] at h2 h3
    cases h2
    cases h3
    have := ratio_mono (mm := (ye, ys)) hp h1
    exact R.mono (by linarith)

/-- **C302 (logarithmic)**: the same for the logarithmic index, given the logarithms, that of the second bound being the lesser one. -/
theorem C302_log (R : Rounding) (hk : R.KeepsDistinct) (ls le : ℚ) (hs : R.Rep ls) (he : R.Rep le) (h : le < ls) :
    (∀ l, le ≤ l → l ≤ ls → ∃ v, R.logIndex ls le l = .ok v ∧ 0 ≤ v ∧ v ≤ 1) ∧ R.logIndex ls le ls = .ok 0 ∧ R.logIndex ls le le = .ok 1 ∧
    ∀ l l' v v', l ≤ l' → R.logIndex ls le l = .ok v → R.logIndex ls le l' = .ok v' → v' ≤ v := by
  have hp : R.sub le ls < 0 := lt_of_le_of_ne (R.fl_nonpos (by linarith)) (hk _ _ he hs h.ne)
  have hv : ∀ l, R.logIndex ls le l = .ok (R.fl (R.sub l ls / R.sub le ls)) := fun l => R.div_ok hp.ne
  refine ⟨?_, ?_, ?_, ?_⟩
  · intro l h1 h2
    refine ⟨_, hv l, R.fl_nonneg (div_nonneg_of_nonpos (R.fl_nonpos (by linarith)) hp.le), R.fl_le_one ?_⟩
    rw [div_le_one_of_neg hp]
    exact R.mono (by linarith)
  · rw [hv]
    unfold Rounding.sub
    rw [sub_self, R.zero, zero_div, R.zero]
  · rw [hv, div_self hp.ne, R.one]
  · intro l l' v v' h1 h2 h3
    rw [hv] at h2 h3
    cases h2
    cases h3
    refine R.mono ?_
    rw [div_le_div_right_of_neg hp]
    exact R.mono (by linarith)

/-- **C302 (average)**: the average of the indexes of the labels, each between 0 and 1, is between 0 and 1, in double precision, if there are at most 2 ^ 53 labels. -/
theorem C302_average (l : List ℚ) (hne : l ≠ []) (hn : l.length ≤ 2 ^ 53) (hl : ∀ v ∈ l, 0 ≤ v ∧ v ≤ 1) :
    ∃ v, doubles.meanIndex l = .ok v ∧ 0 ≤ v ∧ v ≤ 1 := by
  have hfold : ∀ (l : List ℚ) (acc : ℚ) (k : ℕ), (∀ v ∈ l, 0 ≤ v ∧ v ≤ 1) → k + l.length ≤ 2 ^ 53 → 0 ≤ acc → acc ≤ k →
      0 ≤ l.foldl doubles.add acc ∧ l.foldl doubles.add acc ≤ (k + l.length : ℕ) := by
    intro l
    induction l with
    | nil => intro acc k _ _ h0 h1; exact ⟨h0, by simpa using h1⟩
    | cons v l ih =>
      intro acc k hl hk h0 h1
      obtain ⟨hv0, hv1⟩ := hl v (by simp)
      rw [List.length_cons] at hk
      rw [List.foldl_cons, List.length_cons, show k + (l.length + 1) = (k + 1) + l.length from by omega]
      refine ih _ (k + 1) (fun x hx => hl x (by simp [hx])) (by omega) (doubles.fl_nonneg (by linarith)) ?_
      have hrep : doubles.Rep ((k + 1 : ℕ) : ℚ) := by
        have := fl64_int (n := ((k + 1 : ℕ) : ℤ)) (by rw [abs_of_nonneg (by positivity)]; exact_mod_cast (by omega : k + 1 ≤ 2 ^ 53))
        rwa [Int.cast_natCast] at this
      exact doubles.fl_le hrep (by push_cast; linarith)
  have hlen : (0 : ℚ) < l.length := by
    cases l with
    | nil => exact absurd rfl hne
    | cons => rw [List.length_cons]; positivity
  have h1 := hfold l 0 0 hl (by simpa using hn) le_rfl (by simp)
  rw [Nat.zero_add] at h1
  refine ⟨fl64 (doubles.sum l / l.length), ?_, ?_, ?_⟩
  · unfold Rounding.meanIndex
    rw [Rounding.div_ok hlen.ne']
    rfl
  · exact doubles.fl_nonneg (div_nonneg h1.1 hlen.le)
  · exact doubles.fl_le_one ((div_le_one hlen).2 h1.2)

theorem C302_witness : doubles.KeepsDistinct ∧ doubles.Rep (fl64 (3 / 10)) ∧ doubles.Rep (fl64 (1 / 10)) ∧ fl64 (1 / 10) < fl64 (3 / 10) ∧
    (doubles.linIndex (fl64 (3 / 10)) (fl64 (1 / 10)) (fl64 (2 / 10))).toOption.map (fun v => decide (0 < v ∧ v < 1)) = some true := by
  refine ⟨doubles_distinct, fl64_idem _, fl64_idem _, by decide +kernel, by decide +kernel⟩

/-! ## C303: interpolation -/

/-- **C303, partial**: for every rounding which keeps distinct values distinct, a value interpolated between two points does not raise and is never on the other side of the value of the first point; between
growing values it does not decrease with the time, between decreasing ones it does not grow.  Missing: it can go over the value of the second point (`C303_false`). -/
theorem C303_first_partial (R : Rounding) (hk : R.KeepsDistinct) (tp vp tn vn : ℚ) (ht : R.Rep tp) (ht' : R.Rep tn) (hv : R.Rep vp) (h : tp < tn) :
    (∀ x, tp ≤ x → ∃ w, R.linear tp vp tn vn x = .ok w ∧ (vp ≤ vn → vp ≤ w) ∧ (vn ≤ vp → w ≤ vp)) ∧ R.linear tp vp tn vn tp = .ok vp ∧
    ∀ x y w z, tp ≤ x → x ≤ y → R.linear tp vp tn vn x = .ok w → R.linear tp vp tn vn y = .ok z → (vp ≤ vn → w ≤ z) ∧ (vn ≤ vp → z ≤ w) := by
  have hp : 0 < R.sub tn tp := span_pos (mm := (tp, tn)) hk ht ht' h
  have hlin : ∀ x, R.linear tp vp tn vn x = .ok (R.add vp (R.mul (R.sub x tp) (R.fl (R.sub vn vp / R.sub tn tp)))) := by
    intro x
    unfold Rounding.linear
    rw [R.div_ok hp.ne']
  have hup : vp ≤ vn → 0 ≤ R.fl (R.sub vn vp / R.sub tn tp) := fun h => R.fl_nonneg (div_nonneg (R.fl_nonneg (by linarith)) hp.le)
  have hdown : vn ≤ vp → R.fl (R.sub vn vp / R.sub tn tp) ≤ 0 := fun h => R.fl_nonpos (div_nonpos_of_nonpos_of_nonneg (R.fl_nonpos (by linarith)) hp.le)
  refine ⟨?_, ?_, ?_⟩
  · intro x hx
    have h0 : 0 ≤ R.sub x tp := R.fl_nonneg (by linarith)
    refine ⟨_, hlin x, ?_, ?_⟩
    · intro hle
      exact R.le_fl hv (by linarith [R.fl_nonneg (mul_nonneg h0 (hup hle)), show R.mul (R.sub x tp) (R.fl (R.sub vn vp / R.sub tn tp)) = R.fl _ from rfl])
    · intro hle
      exact R.fl_le hv (by linarith [R.fl_nonpos (mul_nonpos_of_nonneg_of_nonpos h0 (hdown hle)), show R.mul (R.sub x tp) (R.fl (R.sub vn vp / R.sub tn tp)) = R.fl _ from rfl])
  · rw [hlin]
    unfold Rounding.add Rounding.mul
    rw [show R.sub tp tp = 0 from by unfold Rounding.sub; rw [sub_self, R.zero], zero_mul, R.zero, add_zero]
    exact congrArg _ hv
  · intro x y w z hx hxy hw hz
    rw [hlin] at hw hz
    cases hw
    cases hz
    have h1 : R.sub x tp ≤ R.sub y tp := R.mono (by linarith)
    constructor
    · intro hle
      refine R.mono ?_
      have : R.mul (R.sub x tp) (R.fl (R.sub vn vp / R.sub tn tp)) ≤ R.mul (R.sub y tp) (R.fl (R.sub vn vp / R.sub tn tp)) := R.mono (mul_le_mul_of_nonneg_right h1 (hup hle))
      linarith
    · intro hle
      refine R.mono ?_
      have : R.mul (R.sub y tp) (R.fl (R.sub vn vp / R.sub tn tp)) ≤ R.mul (R.sub x tp) (R.fl (R.sub vn vp / R.sub tn tp)) := R.mono (mul_le_mul_of_nonpos_right h1 (hdown hle))
      linarith

/-- **C303 is false**: between 0.6 at 0 seconds and 1.7 at 7 seconds, just before the second point the value interpolated is above 1.7. -/
theorem C303_false : fl64 (6999999999999999 / 1000000000000000) < 7 ∧
    (doubles.linear 0 (fl64 (6 / 10)) 7 (fl64 (17 / 10)) (fl64 (6999999999999999 / 1000000000000000))).toOption.map (fun w => decide (w > fl64 (17 / 10))) = some true := by
  refine ⟨?_, ?_⟩ <;> decide +kernel

theorem C303_witness : doubles.KeepsDistinct ∧ doubles.Rep 0 ∧ doubles.Rep 7 ∧ doubles.Rep (fl64 (6 / 10)) :=
  ⟨doubles_distinct, doubles.zero, by unfold Rounding.Rep; decide +kernel, fl64_idem _⟩

/-! ## C304: differences and cumulative sums -/

theorem csums_diffs : ∀ (l : List ℤ) (a : ℤ), (∀ v ∈ a :: l, |v| ≤ 2 ^ 52) →
    doubles.csums (a : ℚ) (doubles.diffs ((a :: l).map (fun v : ℤ => (v : ℚ)))) = l.map (fun v : ℤ => (v : ℚ)) := by
  intro l
  induction l with
  | nil => intro a _; rfl
  | cons b l ih =>
    intro a h
    have ha := h a (by simp)
    have hb := h b (by simp)
    rw [List.map_cons, List.map_cons]
    unfold Rounding.diffs Rounding.csums
    have h1 : doubles.sub (b : ℚ) (a : ℚ) = ((b - a : ℤ) : ℚ) := by
      unfold Rounding.sub
      rw [← Int.cast_sub]
      apply fl64_int
      rw [abs_le] at *
      constructor <;> omega
    have h2 : doubles.add (a : ℚ) (doubles.sub (b : ℚ) (a : ℚ)) = b := by
      rw [h1]
      unfold Rounding.add
      rw [← Int.cast_add, show a + (b - a) = b from by ring]
      exact fl64_int (by linarith)
    rw [h2]
    have := ih b (fun v hv => h v (by simp [hv]))
    rw [List.map_cons] at this
    rw [this]

/-- **C304 (whole numbers), partial**: the running sums, from the first value, of the differences of whole numbers up to 2 ^ 52 give back the values, also in double precision.  Missing: other numbers
(`C304_false`). -/
theorem C304_whole_partial (a : ℤ) (l : List ℤ) (h : ∀ v ∈ a :: l, |v| ≤ 2 ^ 52) :
    doubles.csums (a : ℚ) (doubles.diffs ((a :: l).map (fun v : ℤ => (v : ℚ)))) = l.map (fun v : ℤ => (v : ℚ)) := csums_diffs l a h

/-- the running sums grow with the values added, whatever the rounding -/
theorem csums_mono {R : Rounding} : ∀ (l m : List ℚ) (a b : ℚ), a ≤ b → List.Forall₂ (· ≤ ·) l m → List.Forall₂ (· ≤ ·) (R.csums a l) (R.csums b m) := by
  intro l
  induction l with
  | nil => intro m a b _ h; cases h; exact .nil
  | cons v l ih =>
    intro m a b hab h
    cases h with
    | cons h1 h2 =>
      have : R.add a v ≤ R.add b _ := R.mono (add_le_add hab h1)
      exact .cons this (ih _ _ _ this h2)

/-- **C304 (error), partial**: the last running sum is within ((1 + 2 ^ -53) ^ n - 1) times the sum of the absolute values from the exact one. -/
theorem C304_error_partial (a : ℚ) (l : List ℚ) (ha : doubles.Rep a) (hl : ∀ v ∈ l, doubles.Rep v) (s : ℚ) (h : (doubles.csums a l).getLast? = some s) :
    |s - (a + l.sum)| ≤ ((1 + 1 / 2 ^ 53) ^ l.length - 1) * (|a| + absSum l) := by
  have hlast : ∀ (l : List ℚ) (a : ℚ), l ≠ [] → (doubles.csums a l).getLast? = some (l.foldl doubles.add a) := by
    intro l
    induction l with
    | nil => intro a h; exact absurd rfl h
    | cons v l ih =>
      intro a _
      unfold Rounding.csums
      cases l with
      | nil => rfl
      | cons w l =>
        have := ih (doubles.add a v) (by simp)
        rw [List.foldl_cons, ← this]
        unfold Rounding.csums
        rw [List.getLast?_cons_cons]
  cases l with
  | nil => unfold Rounding.csums at h; simp at h
  | cons v l =>
    rw [hlast _ _ (by simp)] at h
    cases h
    have := fold_error (by norm_num) doubles_sumError (v :: l) hl 0 a a |a| ha le_rfl (by simp)
    simpa using this

/-- **C304 is false**: from the differences of 0.1, 0.3 and 0.9 the last value is not given back. -/
theorem C304_false : doubles.csums (fl64 (1 / 10)) (doubles.diffs (tenths [1, 3, 9])) ≠ tenths [3, 9] := by decide +kernel

theorem C304_witness : (∀ v ∈ ([5, -3, 1000000] : List ℤ), |v| ≤ 2 ^ 52) ∧ (doubles.csums (fl64 (1 / 10)) (tenths [3, 9])).getLast?.isSome = true := by
  refine ⟨by decide, by decide +kernel⟩

/-! ## C305: rescaling between ranges -/

/-- **C305, partial**: for every rounding which keeps distinct values distinct, a value of the source range is rescaled to a value between 0 and 1 with the default target, and to one not below the beginning of
the target with any other; the order is kept.  Missing: the end of another target can be exceeded (`C305_false`). -/
theorem C305_lower_partial (R : Rounding) (hk : R.KeepsDistinct) (sf st tf tt : ℚ) (h1 : R.Rep sf) (h2 : R.Rep st) (h3 : R.Rep tf) (h0 : 0 ≤ sf) (h : sf < st) (h4 : 0 ≤ tf) (h5 : tf ≤ tt) :
    (∀ v, sf ≤ v → v ≤ st → ∃ w, R.rescaleUtil v sf st tf tt = .ok w ∧ tf ≤ w ∧ (tf = 0 → tt = 1 → w ≤ 1)) ∧
    ∀ v v' w w', v ≤ v' → R.rescaleUtil v sf st tf tt = .ok w → R.rescaleUtil v' sf st tf tt = .ok w' → w ≤ w' := by
  have hp : 0 < R.sub st sf := span_pos (mm := (sf, st)) hk h1 h2 h
  have hd : ∀ v, R.div (R.sub v sf) (R.sub st sf) = .ok (R.ratio (sf, st) v) := fun v => R.div_ok hp.ne'
  have hspan : 0 ≤ R.sub tt tf := R.fl_nonneg (by linarith)
  constructor
  · intro v hv hv'
    obtain ⟨h6, h7⟩ := ratio_bounds (mm := (sf, st)) hp hv hv'
    unfold Rounding.rescaleUtil
    rw [if_neg (by push Not; refine ⟨?_, ?_, ?_, ?_, ?_, ?_, ?_⟩ <;> linarith), hd]
    dsimp only
    split
    · rename_i hc
      exact ⟨_, rfl, by rw [hc.1]; exact h6, fun _ _ => h7⟩
    · rename_i hc
      refine ⟨_, rfl, R.le_fl h3 ?_, fun a b => absurd ⟨a, b⟩ hc⟩
      have : 0 ≤ R.mul (R.ratio (sf, st) v) (R.sub tt tf) := R.fl_nonneg (mul_nonneg h6 hspan)
      linarith
  · intro v v' w w' hvv hw hw'
    unfold Rounding.rescaleUtil at hw hw'
    split at hw
    · cases hw
    split at hw'
    · cases hw'
    rw [hd] at hw hw'
    have hm := ratio_mono (mm := (sf, st)) hp hvv
    dsimp only at hw hw'
    split at hw
    · rename_i hc
      rw [if_pos hc] at hw'
      cases hw
      cases hw'
      exact hm
    · rename_i hc
      rw [if_neg hc] at hw'
      cases hw
      cases hw'
      refine R.mono ?_
      have : R.mul (R.ratio (sf, st) v) (R.sub tt tf) ≤ R.mul (R.ratio (sf, st) v') (R.sub tt tf) := R.mono (mul_le_mul_of_nonneg_right hm hspan)
      linarith

/-- **C305 is false**: the end of the source range is rescaled to a value above the end of the target from 0.6 to 1.7. -/
theorem C305_false : (doubles.rescaleUtil 1 0 1 (fl64 (6 / 10)) (fl64 (17 / 10))).toOption.map (fun w => decide (w > fl64 (17 / 10))) = some true := by decide +kernel

theorem C305_witness : doubles.KeepsDistinct ∧ doubles.Rep (fl64 (6 / 10)) ∧ 0 ≤ fl64 (6 / 10) ∧ fl64 (6 / 10) ≤ fl64 (17 / 10) :=
  ⟨doubles_distinct, fl64_idem _, by decide +kernel, by decide +kernel⟩

/-! ## C306: error metrics -/

/-- the greatest of the numbers, none if there are none -/
theorem maxAeLoop_spec {R : Rounding} : ∀ (l m : List ℚ) (acc r : Option ℚ), l.length = m.length → R.maxAeLoop acc l m = r →
    (∀ x, acc = some x → ∃ y, r = some y ∧ x ≤ y) ∧ (∀ (i : ℕ) (a b : ℚ), l[i]? = some a → m[i]? = some b → ∃ y, r = some y ∧ |R.sub a b| ≤ y) ∧
    ∀ y, r = some y → acc = some y ∨ ∃ (i : ℕ) (a b : ℚ), l[i]? = some a ∧ m[i]? = some b ∧ y = |R.sub a b| := by
  intro l
  induction l with
  | nil =>
    intro m acc r hlen h
    cases m with
    | cons => simp at hlen
    | nil =>
      unfold Rounding.maxAeLoop at h
      subst h
      exact ⟨fun x hx => ⟨x, hx, le_rfl⟩, by simp, fun y hy => Or.inl hy⟩
  | cons a l ih =>
    intro m acc r hlen h
    cases m with
    | nil => simp at hlen
    | cons b m =>
      unfold Rounding.maxAeLoop at h
      obtain ⟨h1, h2, h3⟩ := ih m _ r (by simpa using hlen) h
      have hstep : ∃ z, (match acc with | none => some |R.sub a b| | some x => if |R.sub a b| > x then some |R.sub a b| else some x) = some z ∧
          |R.sub a b| ≤ z ∧ (∀ x, acc = some x → x ≤ z) ∧ (acc = some z ∨ z = |R.sub a b|) := by
        cases acc with
        | none => exact ⟨_, rfl, le_rfl, by simp, Or.inr rfl⟩
        | some x =>
          dsimp only
          split
          · rename_i hc
            exact ⟨_, rfl, le_rfl, fun y hy => by cases hy; exact hc.le, Or.inr rfl⟩
          · rename_i hc
            exact ⟨_, rfl, not_lt.1 hc, fun y hy => by cases hy; exact le_rfl, Or.inl rfl⟩
      obtain ⟨z, hz, hz1, hz2, hz3⟩ := hstep
      obtain ⟨y, hy, hzy⟩ := h1 z hz
      refine ⟨fun x hx => ⟨y, hy, (hz2 x hx).trans hzy⟩, ?_, ?_⟩
      · intro i a' b' ha hb
        cases i with
        | zero =>
          simp only [List.getElem?_cons_zero, Option.some.injEq] at ha hb
          subst ha hb
          exact ⟨y, hy, hz1.trans hzy⟩
        | succ i => exact h2 i a' b' (by simpa using ha) (by simpa using hb)
      · intro y' hy'
        rcases h3 y' hy' with h4 | ⟨i, a', b', ha, hb, he⟩
        · have h4' := hz.symm.trans h4
          cases h4'
          rcases hz3 with h5 | h5
          · exact Or.inl h5
          · exact Or.inr ⟨0, a, b, rfl, rfl, h5⟩
        · exact Or.inr ⟨i + 1, a', b', by simpa using ha, by simpa using hb, he⟩

/-- **C306 (maximum)**: for every rounding which keeps distinct values distinct, the maximum absolute error of two lists of the same length is not negative, and it is zero exactly if the lists are equal. -/
theorem C306_max (R : Rounding) (hk : R.KeepsDistinct) (l m : List ℚ) (hl : ∀ v ∈ l, R.Rep v) (hm : ∀ v ∈ m, R.Rep v) (hlen : l.length = m.length) (hne : l ≠ []) :
    ∃ e, R.maxAe l m = .ok (some e) ∧ 0 ≤ e ∧ (e = 0 ↔ l = m) := by
  obtain ⟨h1, h2, h3⟩ := maxAeLoop_spec l m none _ hlen rfl
  obtain ⟨a, ha⟩ : ∃ a, l[0]? = some a := by cases l with | nil => exact absurd rfl hne | cons a l => exact ⟨a, rfl⟩
  obtain ⟨b, hb⟩ : ∃ b, m[0]? = some b := by
    cases m with
    | nil => exact absurd (List.length_eq_zero_iff.1 hlen) hne
    | cons b m => exact ⟨b, rfl⟩
  obtain ⟨e, he, hle⟩ := h2 0 a b ha hb
  have h0 : 0 ≤ e := (abs_nonneg _).trans hle
  refine ⟨e, ?_, h0, ?_⟩
  · unfold Rounding.maxAe
    rw [if_neg (by simpa using hlen), he]
  · constructor
    · intro hz
      apply List.ext_getElem? 
      intro i
      rcases lt_or_ge i l.length with hi | hi
      · have hli : l[i]? = some l[i] := List.getElem?_eq_getElem hi
        have hmi : m[i]? = some m[i] := List.getElem?_eq_getElem (hlen ▸ hi)
        obtain ⟨y, hy, hy'⟩ := h2 i _ _ hli hmi
        rw [he] at hy
        cases hy
        rw [hz] at hy'
        have hs : R.sub l[i] m[i] = 0 := abs_eq_zero.1 (le_antisymm hy' (abs_nonneg _))
        by_contra hc
        rw [hli, hmi] at hc
        exact hk _ _ (hl _ (List.getElem_mem hi)) (hm _ (List.getElem_mem (hlen ▸ hi))) (fun h => hc (by rw [h])) hs
      · rw [List.getElem?_eq_none hi, List.getElem?_eq_none (hlen ▸ hi)]
    · intro heq
      rcases h3 e he with h4 | ⟨i, a', b', ha', hb', h4⟩
      · cases h4
      · subst heq
        rw [ha'] at hb'
        cases hb'
        rw [h4]
        unfold Rounding.sub
        rw [sub_self, R.zero, abs_zero]

/-- **C306 (mean percentage)**: for every rounding the mean absolute percentage error of two lists of the same length, without zeros in the first, is not negative, and it is zero if the lists are equal. -/
theorem C306_mape (R : Rounding) (l m : List ℚ) (hl : ∀ v ∈ l, v ≠ 0) (hlen : l.length = m.length) (hne : l ≠ []) :
    ∃ e, R.mape l m = .ok e ∧ 0 ≤ e ∧ (l = m → e = 0) := by
  have hloop : ∀ (l m : List ℚ) (acc : ℚ), (∀ v ∈ l, v ≠ 0) → 0 ≤ acc → ∃ s, R.apeLoop acc l m = .ok s ∧ 0 ≤ s ∧ (l = m → R.Rep acc → s = acc) := by
    intro l
    induction l with
    | nil => intro m acc _ h; exact ⟨acc, by cases m <;> rfl, h, fun _ _ => rfl⟩
    | cons a l ih =>
      intro m acc hl h
      cases m with
      | nil => exact ⟨acc, rfl, h, fun e => by cases e⟩
      | cons b m =>
        unfold Rounding.apeLoop
        rw [R.div_ok (hl a (by simp))]
        dsimp only
        obtain ⟨s, h1, h2, h3⟩ := ih m (R.add acc |R.fl (R.sub a b / a)|) (fun v hv => hl v (by simp [hv])) (R.fl_nonneg (add_nonneg h (abs_nonneg _)))
        refine ⟨s, h1, h2, ?_⟩
        intro he hr
        cases he
        have h4 : R.add acc |R.fl (R.sub a a / a)| = acc := by
          unfold Rounding.add Rounding.sub
          rw [sub_self, R.zero, zero_div, R.zero, abs_zero, add_zero]
          exact hr
        rw [h4] at h3
        exact h3 rfl hr
  obtain ⟨s, h1, h2, h3⟩ := hloop l m 0 hl le_rfl
  have hn : (0 : ℚ) < l.length := by
    cases l with
    | nil => exact absurd rfl hne
    | cons => rw [List.length_cons]; positivity
  refine ⟨R.fl (s / l.length), ?_, R.fl_nonneg (div_nonneg h2 hn.le), ?_⟩
  · unfold Rounding.mape
    rw [if_neg (by simpa using hlen), h1]
    dsimp only
    rw [R.div_ok hn.ne']
  · intro he
    rw [h3 he R.zero, zero_div, R.zero]

theorem C306_witness : doubles.KeepsDistinct ∧ (∀ v ∈ tenths [1, 2], v ≠ 0) ∧ (doubles.mape (tenths [1, 2]) (tenths [1, 3])).toOption.map (fun e => decide (0 < e)) = some true := by
  refine ⟨doubles_distinct, by decide +kernel, by decide +kernel⟩

/-! ## C307: periods -/

/-- **C307**: for whole times from the epoch on, below 2 ^ 53, and a whole resolution, the position in the period computed in double precision is the exact one. -/
theorem C307_whole (t res : ℤ) (p : ℕ) (h0 : 0 ≤ t) (ht : t < 2 ^ 53) (hr : 0 < res) (hr' : res ≤ 2 ^ 53) :
    doubles.periodicityIndex t res p = .ok ((t / res) % p) := by
  have hrq : (0 : ℚ) < res := by exact_mod_cast hr
  have htq : (0 : ℚ) ≤ t := by exact_mod_cast h0
  unfold Rounding.periodicityIndex
  rw [Rounding.div_ok hrq.ne']
  dsimp only
  have hnn : 0 ≤ doubles.fl ((t : ℚ) / res) := doubles.fl_nonneg (div_nonneg htq hrq.le)
  have hk : pyInt (doubles.fl ((t : ℚ) / res)) = t / res := by
    unfold pyInt
    rw [if_pos hnn, Int.floor_eq_iff]
    have hdiv := Int.emod_add_mul_ediv t res
    have hm0 := Int.emod_nonneg t hr.ne'
    have hm1 := Int.emod_lt_of_pos t hr
    have hq0 : 0 ≤ t / res := Int.ediv_nonneg h0 hr.le
    have hqt : t / res ≤ t := Int.ediv_le_self _ h0
    constructor
    · refine doubles.le_fl (fl64_int (by rw [abs_of_nonneg hq0]; omega)) ?_
      rw [le_div_iff₀ hrq]
      have : (t / res) * res ≤ t := by nlinarith
      exact_mod_cast this
    · by_cases hz : t = 0
      · subst hz
        rw [Int.cast_zero, zero_div]
        rw [show doubles.fl 0 = 0 from doubles.zero]
        simp
      · have htp : 1 ≤ t := by omega
        have hpos : 0 < (t : ℚ) / res := div_pos (by exact_mod_cast htp) hrq
        have hbig : (2 : ℚ) ^ (-1022 : ℤ) ≤ |(t : ℚ) / res| := by
          rw [abs_of_pos hpos, le_div_iff₀ hrq]
          have h1 : (res : ℚ) ≤ 2 ^ (53 : ℤ) := by
            rw [show (2 : ℚ) ^ (53 : ℤ) = ((2 ^ 53 : ℤ) : ℚ) from by norm_num]
            exact_mod_cast hr'
          calc (2 : ℚ) ^ (-1022 : ℤ) * res ≤ 2 ^ (-1022 : ℤ) * 2 ^ (53 : ℤ) := mul_le_mul_of_nonneg_left h1 (pow2_pos _).le
            _ = 2 ^ (-969 : ℤ) := by rw [← pow2_add]; norm_num
            _ ≤ 2 ^ (0 : ℤ) := pow2_le (by norm_num)
            _ = 1 := by simp
            _ ≤ t := by exact_mod_cast htp
        have herr := fl64_relative hbig
        rw [abs_of_pos hpos] at herr
        have h1 := (abs_le.1 herr).2
        have h2 : (t : ℚ) / res / 2 ^ 53 < 1 / res := by
          rw [div_div, div_lt_div_iff₀ (by positivity) hrq]
          have : (t : ℚ) < 2 ^ 53 := by exact_mod_cast ht
          nlinarith
        have h3 : (t : ℚ) / res + 1 / res ≤ (t / res : ℤ) + 1 := by
          rw [← add_div, div_le_iff₀ hrq]
          have : t + 1 ≤ (t / res + 1) * res := by nlinarith
          exact_mod_cast this
        have h4 : doubles.fl ((t : ℚ) / res) ≤ (t : ℚ) / res + (t : ℚ) / res / 2 ^ 53 := by
          have : doubles.fl ((t : ℚ) / res) = fl64 ((t : ℚ) / res) := rfl
          rw [this]; linarith
        linarith
  rw [hk]

theorem C307_witness : (doubles.periodicityIndex 1600003600 600 144).toOption = some 80 := by decide +kernel

end Timeseria
