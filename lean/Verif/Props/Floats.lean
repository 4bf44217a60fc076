import Verif.Lemmas.Binary64
import Verif.Props.OpsMap

/-! # C298-C306: the computations in floating point

`doubles` is the rounding of double precision; numbers of the format are those with `R.Rep x`. -/

namespace Timeseria

namespace Rounding

variable {R : Rounding}

theorem rep_fl (x : ℚ) : R.Rep (R.fl x) := R.idem x

theorem fl_nonneg {x : ℚ} (h : 0 ≤ x) : 0 ≤ R.fl x := by
  have := R.mono h
  rwa [R.zero] at this

theorem fl_nonpos {x : ℚ} (h : x ≤ 0) : R.fl x ≤ 0 := by
  have := R.mono h
  rwa [R.zero] at this

theorem fl_le_one {x : ℚ} (h : x ≤ 1) : R.fl x ≤ 1 := by
  have := R.mono h
  rwa [R.one] at this

theorem le_fl {x a : ℚ} (ha : R.Rep a) (h : a ≤ x) : a ≤ R.fl x := by
  have := R.mono h
  rwa [show R.fl a = a from ha] at this

theorem fl_le {x a : ℚ} (ha : R.Rep a) (h : x ≤ a) : R.fl x ≤ a := by
  have := R.mono h
  rwa [show R.fl a = a from ha] at this

theorem div_ok {a b : ℚ} (h : b ≠ 0) : R.div a b = .ok (R.fl (a / b)) := by
  unfold div
  rw [if_neg h]

end Rounding

/-- the differences of distinct numbers of the format are not rounded to zero, as with gradual underflow -/
def Rounding.KeepsDistinct (R : Rounding) : Prop := ∀ a b : ℚ, R.Rep a → R.Rep b → a ≠ b → R.fl (a - b) ≠ 0

theorem doubles_distinct : doubles.KeepsDistinct := fun _ _ ha hb h => fl64_sub_ne ha hb h

/-! ## C298: resolution -/

/-- each time is `d` seconds after the one before it -/
def EverySeconds (d : ℤ) (ts : List ℤ) : Prop := ts.IsChain (fun a b => b = a + d)

theorem resLoop_const {R : Rounding} {d : ℚ} : ∀ (l : List ℚ) (p : ℚ), (p :: l).IsChain (fun a b => R.sub b a = d) → R.resLoop p (.seconds d) l = .seconds d := by
  intro l
  induction l with
  | nil => intro p _; rfl
  | cons t l ih =>
    intro p h
    rw [List.isChain_cons_cons] at h
    unfold Rounding.resLoop Rounding.resStep
    dsimp only
    rw [if_neg (by rw [h.1]; simp)]
    exact ih t h.2

/-- **C298 (whole seconds), partial**: points at whole times, each `d` seconds after the one before it, have the constant resolution `d`, also in double precision, if the times are
below 2 ^ 52, and the time unit reported is of `d` seconds if `d` is below 2 ^ 53 / 10 ^ 7 (about 28 years).  Missing: fractions of seconds (`C298_false`). -/
theorem C298_whole_partial (ts : List ℤ) (d : ℤ) (h2 : 2 ≤ ts.length) (hb : ∀ t ∈ ts, |t| ≤ 2 ^ 52) (he : EverySeconds d ts) :
    doubles.resolution (ts.map (fun t : ℤ => (t : ℚ))) = .seconds d ∧ (|d * 10000000| ≤ 2 ^ 53 → doubles.unitSeconds d = .ok d) := by
  have hsub : ∀ a b : ℤ, |a| ≤ 2 ^ 52 → |b| ≤ 2 ^ 52 → doubles.sub (b : ℚ) (a : ℚ) = ((b - a : ℤ) : ℚ) := by
    intro a b ha hb'
    unfold Rounding.sub
    rw [← Int.cast_sub]
    apply fl64_int
    rw [abs_le] at ha hb' ⊢
    constructor <;> omega
  constructor
  · cases ts with
    | nil => simp at h2
    | cons a l =>
      cases l with
      | nil => simp at h2
      | cons b l =>
        have hchain : ((a :: b :: l).map (fun t : ℤ => (t : ℚ))).IsChain (fun x y => doubles.sub y x = d) := by
          rw [List.isChain_map]
          have : ∀ x ∈ a :: b :: l, |x| ≤ 2 ^ 52 := hb
          refine List.IsChain.imp_of_mem_imp ?_ he
          intro x y hx hy hxy
          rw [hsub x y (hb x hx) (hb y hy), hxy]
          norm_num
        rw [List.map_cons, List.map_cons, List.isChain_cons_cons] at hchain
        unfold Rounding.resolution
        rw [List.map_cons, List.map_cons]
        dsimp only
        unfold Rounding.resLoop Rounding.resStep
        rw [hchain.1]
        exact resLoop_const _ _ hchain.2
  · intro hd
    unfold Rounding.unitSeconds Rounding.mul
    have h1 : doubles.fl ((d : ℚ) * 10000000) = ((d * 10000000 : ℤ) : ℚ) := by
      rw [show (d : ℚ) * 10000000 = ((d * 10000000 : ℤ) : ℚ) from by push_cast; ring]
      exact fl64_int hd
    have h3 : pyInt ((d * 10000000 : ℤ) : ℚ) = d * 10000000 := by
      unfold pyInt
      split
      · exact Int.floor_intCast _
      · exact Int.ceil_intCast _
    rw [h1, h3, Rounding.div_ok (by norm_num)]
    have h4 : ((d * 10000000 : ℤ) : ℚ) / 10000000 = d := by push_cast; field_simp
    rw [h4]
    congr 1
    apply fl64_int
    rw [abs_le] at hd ⊢
    constructor <;> omega

/-- **C298 (what a resolution tells), partial**: if the resolution of a series of points is constant, all the spacings are that one up to a relative error of 2 ^ -53, in double precision. -/
theorem C298_spacings_partial (ts : List ℚ) (hr : ∀ t ∈ ts, doubles.Rep t) (d : ℚ) (h : doubles.resolution ts = .seconds d) :
    ts.IsChain (fun a b => |d - (b - a)| ≤ |b - a| / 2 ^ 53) := by
  have hvar : ∀ (l : List ℚ) (p : ℚ), doubles.resLoop p .variable l = .variable := by
    intro l
    induction l with
    | nil => intro p; rfl
    | cons t l ih => intro p; exact ih t
  have key : ∀ (l : List ℚ) (p e : ℚ), (∀ t ∈ p :: l, doubles.Rep t) → doubles.resLoop p (.seconds e) l = .seconds d →
      e = d ∧ (p :: l).IsChain (fun a b => |d - (b - a)| ≤ |b - a| / 2 ^ 53) := by
    intro l
    induction l with
    | nil => intro p e _ h; cases h; exact ⟨rfl, List.isChain_singleton _⟩
    | cons t l ih =>
      intro p e hr h
      unfold Rounding.resLoop Rounding.resStep at h
      dsimp only at h
      by_cases hc : e = doubles.sub t p
      · rw [if_neg (by simpa using hc)] at h
        obtain ⟨h1, h2⟩ := ih t e (fun x hx => hr x (by simp [hx])) h
        refine ⟨h1, List.isChain_cons_cons.2 ⟨?_, h2⟩⟩
        rw [← h1, hc]
        have := fl64_sum (a := t) (b := -p) (hr t (by simp)) (by rw [fl64_neg]; exact congrArg Neg.neg (hr p (by simp)))
        rw [← sub_eq_add_neg] at this
        exact this
      · rw [if_pos (by simpa using hc), hvar] at h
        cases h
  cases ts with
  | nil => exact List.isChain_nil
  | cons a l =>
    cases l with
    | nil => exact List.isChain_singleton _
    | cons b l =>
      unfold Rounding.resolution at h
      dsimp only at h
      unfold Rounding.resLoop Rounding.resStep at h
      obtain ⟨h1, h2⟩ := key l b _ (fun x hx => hr x (by simp [hx])) h
      refine List.isChain_cons_cons.2 ⟨?_, h2⟩
      rw [← h1]
      have := fl64_sum (a := b) (b := -a) (hr b (by simp)) (by rw [fl64_neg]; exact congrArg Neg.neg (hr a (by simp)))
      rw [← sub_eq_add_neg] at this
      exact this

/-- tenths of seconds, as doubles -/
def tenths (l : List ℕ) : List ℚ := l.map (fun i => fl64 (i / 10))

/-- **C298 is false**: points at 0.1, 0.2 and 0.3 seconds have a variable resolution, in double precision, and so have points every tenth of a second in 2020; two points at 0.2 and 0.3 have
a resolution of 0.0999999 seconds. -/
theorem C298_false : doubles.resolution (tenths [1, 2, 3]) = .variable ∧
    doubles.resolution (tenths [16000000001, 16000000002, 16000000003]) = .variable ∧
    (doubles.resolution (tenths [2, 3]) = .seconds (fl64 (fl64 (3 / 10) - fl64 (2 / 10))) ∧
      (doubles.unitSeconds (fl64 (fl64 (3 / 10) - fl64 (2 / 10)))).toOption = some (fl64 (999999 / 10000000))) := by
  refine ⟨?_, ?_, ?_, ?_⟩ <;> decide +kernel

theorem C298_witness : EverySeconds 600 [1600000000, 1600000600, 1600001200] ∧ (∀ t ∈ ([1600000000, 1600000600, 1600001200] : List ℤ), |t| ≤ 2 ^ 52) ∧
    doubles.resolution (tenths [1, 2]) = .seconds (fl64 (fl64 (2 / 10) - fl64 (1 / 10))) := by
  refine ⟨?_, by decide, by decide +kernel⟩
  unfold EverySeconds
  decide

/-! ## C299: normalization -/

theorem minMax_bounds : ∀ {vs : List ℚ} {mm : ℚ × ℚ}, minMaxLoop vs = some mm → mm.1 ∈ vs ∧ mm.2 ∈ vs ∧ ∀ v ∈ vs, mm.1 ≤ v ∧ v ≤ mm.2 := by
  intro vs mm h
  cases vs with
  | nil => cases h
  | cons v r =>
    unfold minMaxLoop at h
    cases h
    have := minMax_fold r (v, v)
    simp only at this
    obtain ⟨h1, h2, h3, h4, h5⟩ := this
    refine ⟨?_, ?_, ?_⟩
    · rcases h1 with h1 | h1
      · rw [h1]; simp
      · exact List.mem_cons_of_mem _ h1
    · rcases h2 with h2 | h2
      · rw [h2]; simp
      · exact List.mem_cons_of_mem _ h2
    · intro x hx
      rcases List.mem_cons.1 hx with rfl | hx
      · exact ⟨h3, h4⟩
      · exact h5 x hx

/-- the ratio computed for a value -/
def Rounding.ratio (R : Rounding) (mm : ℚ × ℚ) (v : ℚ) : ℚ := R.fl (R.sub v mm.1 / R.sub mm.2 mm.1)

section Normal

variable {R : Rounding} {mm : ℚ × ℚ} {v w : ℚ}

theorem span_pos (hk : R.KeepsDistinct) (h1 : R.Rep mm.1) (h2 : R.Rep mm.2) (h : mm.1 < mm.2) : 0 < R.sub mm.2 mm.1 :=
  lt_of_le_of_ne (R.fl_nonneg (by linarith)) (Ne.symm (hk _ _ h2 h1 h.ne'))

theorem ratio_bounds (hp : 0 < R.sub mm.2 mm.1) (h1 : mm.1 ≤ v) (h2 : v ≤ mm.2) : 0 ≤ R.ratio mm v ∧ R.ratio mm v ≤ 1 := by
  constructor
  · exact R.fl_nonneg (div_nonneg (R.fl_nonneg (by linarith)) hp.le)
  · refine R.fl_le_one ((div_le_one hp).2 (R.mono (by linarith)))

theorem ratio_mono (hp : 0 < R.sub mm.2 mm.1) (h : v ≤ w) : R.ratio mm v ≤ R.ratio mm w :=
  R.mono (div_le_div_of_nonneg_right (R.mono (by linarith)) hp.le)

theorem ratio_lo : R.ratio mm mm.1 = 0 := by
  unfold Rounding.ratio Rounding.sub
  rw [sub_self, R.zero, zero_div, R.zero]

theorem ratio_hi (hp : 0 < R.sub mm.2 mm.1) : R.ratio mm mm.2 = 1 := by
  unfold Rounding.ratio
  rw [div_self hp.ne', R.one]

theorem normVal_default (hp : 0 < R.sub mm.2 mm.1) : R.normVal none mm v = .ok (R.ratio mm v) := by
  unfold Rounding.normVal
  rw [R.div_ok hp.ne']
  rfl

theorem normVal_range (hp : 0 < R.sub mm.2 mm.1) (a b : ℚ) : R.normVal (some (a, b)) mm v = .ok (R.add (R.mul (R.ratio mm v) (R.sub b a)) a) := by
  unfold Rounding.normVal
  rw [R.div_ok hp.ne']
  rfl

end Normal

theorem normalize_front {R : Rounding} (hk : R.KeepsDistinct) {vs : List ℚ} (hr : ∀ v ∈ vs, R.Rep v) (hne : ∃ a ∈ vs, ∃ b ∈ vs, a ≠ b) :
    ∃ mm, minMaxLoop vs = some mm ∧ mm.1 ∈ vs ∧ mm.2 ∈ vs ∧ (∀ v ∈ vs, mm.1 ≤ v ∧ v ≤ mm.2) ∧ 0 < R.sub mm.2 mm.1 := by
  obtain ⟨a, ha, b, hb, hab⟩ := hne
  cases hm : minMaxLoop vs with
  | none =>
    cases vs with
    | nil => simp at ha
    | cons => cases hm
  | some mm =>
    obtain ⟨h1, h2, h3⟩ := minMax_bounds hm
    refine ⟨mm, rfl, h1, h2, h3, span_pos hk (hr _ h1) (hr _ h2) ?_⟩
    rcases lt_or_ge mm.1 mm.2 with h | h
    · exact h
    · exact absurd (le_antisymm (by linarith [(h3 a ha).2, (h3 b hb).1]) (by linarith [(h3 b hb).2, (h3 a ha).1])) hab

/-- **C299 (default range), partial**: for every rounding which keeps distinct values distinct, as double precision does, normalizing the values of a label, not all equal, does not raise, gives values
between 0 and 1, 0 for the least one, 1 for the greatest one, and keeps their order.  Missing: the upper bound of other ranges (`C299_false`). -/
theorem C299_default_partial (R : Rounding) (hk : R.KeepsDistinct) (vs : List ℚ) (hr : ∀ v ∈ vs, R.Rep v) (hne : ∃ a ∈ vs, ∃ b ∈ vs, a ≠ b) :
    ∃ ws, R.normalize none vs = .ok ws ∧ ws.length = vs.length ∧
      (∀ (i : ℕ) (v w : ℚ), vs[i]? = some v → ws[i]? = some w → 0 ≤ w ∧ w ≤ 1 ∧ ((∀ x ∈ vs, v ≤ x) → w = 0) ∧ ((∀ x ∈ vs, x ≤ v) → w = 1)) ∧
      ∀ (i j : ℕ) (v v' w w' : ℚ), vs[i]? = some v → vs[j]? = some v' → ws[i]? = some w → ws[j]? = some w' → v ≤ v' → w ≤ w' := by
  obtain ⟨mm, hm, h1, h2, h3, hp⟩ := normalize_front hk hr hne
  refine ⟨vs.map (R.ratio mm), ?_, by simp, ?_, ?_⟩
  · unfold Rounding.normalize
    rw [hm]
    exact mapE_ok (fun v _ => normVal_default hp)
  · intro i v w hv hw
    rw [List.getElem?_map, hv] at hw
    cases hw
    have hmem := List.mem_of_getElem? hv
    obtain ⟨h4, h5⟩ := ratio_bounds hp (h3 v hmem).1 (h3 v hmem).2
    refine ⟨h4, h5, ?_, ?_⟩
    · intro h
      rw [le_antisymm (h _ h1) (h3 v hmem).1, ratio_lo]
    · intro h
      rw [le_antisymm (h3 v hmem).2 (h _ h2), ratio_hi hp]
  · intro i j v v' w w' hv hv' hw hw' h
    rw [List.getElem?_map, hv] at hw
    rw [List.getElem?_map, hv'] at hw'
    cases hw
    cases hw'
    exact ratio_mono hp h

/-- **C299 (any range), partial**: with a range from `a` to `b`, the values are never below `a`, the least one becomes `a`, and the order is kept. -/
theorem C299_range_partial (R : Rounding) (hk : R.KeepsDistinct) (vs : List ℚ) (hr : ∀ v ∈ vs, R.Rep v) (hne : ∃ a ∈ vs, ∃ b ∈ vs, a ≠ b) (a b : ℚ) (ha : R.Rep a) (hab : a ≤ b) :
    ∃ ws, R.normalize (some (a, b)) vs = .ok ws ∧ ws.length = vs.length ∧
      (∀ (i : ℕ) (v w : ℚ), vs[i]? = some v → ws[i]? = some w → a ≤ w ∧ ((∀ x ∈ vs, v ≤ x) → w = a)) ∧
      ∀ (i j : ℕ) (v v' w w' : ℚ), vs[i]? = some v → vs[j]? = some v' → ws[i]? = some w → ws[j]? = some w' → v ≤ v' → w ≤ w' := by
  obtain ⟨mm, hm, h1, h2, h3, hp⟩ := normalize_front hk hr hne
  have hba : 0 ≤ R.sub b a := R.fl_nonneg (by linarith)
  refine ⟨vs.map (fun v => R.add (R.mul (R.ratio mm v) (R.sub b a)) a), ?_, by simp, ?_, ?_⟩
  · unfold Rounding.normalize
    rw [hm]
    exact mapE_ok (fun v _ => normVal_range hp a b)
  · intro i v w hv hw
    rw [List.getElem?_map, hv] at hw
    cases hw
    have hmem := List.mem_of_getElem? hv
    obtain ⟨h4, h5⟩ := ratio_bounds hp (h3 v hmem).1 (h3 v hmem).2
    refine ⟨?_, ?_⟩
    · have : 0 ≤ R.mul (R.ratio mm v) (R.sub b a) := R.fl_nonneg (mul_nonneg h4 hba)
      exact R.le_fl ha (by linarith)
    · intro h
      rw [le_antisymm (h _ h1) (h3 v hmem).1]
      dsimp only
      rw [ratio_lo]
      unfold Rounding.add Rounding.mul
      rw [zero_mul, R.zero, zero_add]
      exact ha
  · intro i j v v' w w' hv hv' hw hw' h
    rw [List.getElem?_map, hv] at hw
    rw [List.getElem?_map, hv'] at hw'
    cases hw
    cases hw'
    refine R.mono ?_
    have : R.mul (R.ratio mm v) (R.sub b a) ≤ R.mul (R.ratio mm v') (R.sub b a) := R.mono (mul_le_mul_of_nonneg_right (ratio_mono hp h) hba)
    linarith

/-- **C299 is false**: normalizing 0 and 1 to the range from -3.8 to 1.2 gives a value above 1.2. -/
theorem C299_false : (doubles.normalize (some (fl64 (-38 / 10), fl64 (12 / 10))) [0, 1]).toOption.map (fun ws => ws.map (fun w => decide (w > fl64 (12 / 10)))) = some [false, true] := by
  decide +kernel

theorem C299_witness : doubles.KeepsDistinct ∧ (∀ v ∈ tenths [3, 1, 7], doubles.Rep v) ∧ (∃ a ∈ tenths [3, 1, 7], ∃ b ∈ tenths [3, 1, 7], a ≠ b) ∧
    (doubles.normalize none (tenths [3, 1, 7])).toOption.map List.length = some 3 := by
  refine ⟨doubles_distinct, ?_, ?_, ?_⟩
  · intro v hv
    obtain ⟨i, _, rfl⟩ := List.mem_map.1 hv
    exact fl64_idem _
  · exact ⟨fl64 (3 / 10), by decide +kernel, fl64 (1 / 10), by decide +kernel, by decide +kernel⟩
  · decide +kernel

/-! ## C300: sums and averages -/

/-- sums of two numbers of the format have a relative error of at most `u` -/
def Rounding.SumError (R : Rounding) (u : ℚ) : Prop := ∀ a b : ℚ, R.Rep a → R.Rep b → |R.fl (a + b) - (a + b)| ≤ u * |a + b|

theorem doubles_sumError : doubles.SumError (1 / 2 ^ 53) := by
  intro a b ha hb
  have := fl64_sum ha hb
  rw [div_eq_mul_inv, mul_comm] at this
  rw [one_div]
  exact this

def absSum (vs : List ℚ) : ℚ := (vs.map (fun v => |v|)).sum

theorem fold_error {R : Rounding} {u : ℚ} (hu : 0 ≤ u) (he : R.SumError u) : ∀ (vs : List ℚ), (∀ v ∈ vs, R.Rep v) → ∀ (k : ℕ) (acc S B : ℚ), R.Rep acc → |S| ≤ B →
    |acc - S| ≤ ((1 + u) ^ k - 1) * B → |vs.foldl R.add acc - (S + vs.sum)| ≤ ((1 + u) ^ (k + vs.length) - 1) * (B + absSum vs) := by
  intro vs
  induction vs with
  | nil =>
    intro _ k acc S B _ _ h
    simpa [absSum] using h
  | cons v vs ih =>
    intro hr k acc S B ha hS h
    rw [List.foldl_cons]
    have hB : 0 ≤ B := (abs_nonneg S).trans hS
    have h1 := he acc v ha (hr v (by simp))
    have hpow : 1 ≤ (1 + u) ^ k := one_le_pow₀ (by linarith)
    have h2 : |acc + v| ≤ |acc - S| + (B + |v|) := by
      calc |acc + v| = |(acc - S) + (S + v)| := by ring_nf
        _ ≤ |acc - S| + |S + v| := abs_add_le _ _
        _ ≤ |acc - S| + (|S| + |v|) := by gcongr; exact abs_add_le _ _
        _ ≤ _ := by linarith
    have h3 : |R.add acc v - (S + v)| ≤ ((1 + u) ^ (k + 1) - 1) * (B + |v|) := by
      have h4 : |R.add acc v - (S + v)| ≤ u * |acc + v| + |acc - S| := by
        calc |R.add acc v - (S + v)| = |(R.fl (acc + v) - (acc + v)) + (acc - S)| := by unfold Rounding.add; ring_nf
          _ ≤ _ := (abs_add_le _ _).trans (by linarith)
      have h5 : |acc - S| ≤ ((1 + u) ^ k - 1) * (B + |v|) := h.trans (mul_le_mul_of_nonneg_left (by linarith [abs_nonneg v]) (by linarith))
      calc |R.add acc v - (S + v)| ≤ u * |acc + v| + |acc - S| := h4
        _ ≤ u * (|acc - S| + (B + |v|)) + |acc - S| := by gcongr
        _ = (1 + u) * |acc - S| + u * (B + |v|) := by ring
        _ ≤ (1 + u) * (((1 + u) ^ k - 1) * (B + |v|)) + u * (B + |v|) := by gcongr
        _ = _ := by rw [pow_succ]; ring
    have := ih (fun x hx => hr x (by simp [hx])) (k + 1) (R.add acc v) (S + v) (B + |v|) (R.rep_fl _) ((abs_add_le _ _).trans (by linarith)) h3
    rw [List.sum_cons, List.length_cons, show k + (vs.length + 1) = k + 1 + vs.length from by omega]
    rw [show S + (v + vs.sum) = S + v + vs.sum from by ring, show B + absSum (v :: vs) = B + |v| + absSum vs from by simp [absSum]; ring]
    exact this

/-- **C300 (error), partial**: in double precision the sum of `n` values is within ((1 + 2 ^ -53) ^ n - 1) times the sum of their absolute values from the exact one, whatever the values; the average is
the rounded quotient by `n` of such a sum.  Missing: the average can be outside of the range of the values (`C300_false`). -/
theorem C300_error_partial (vs : List ℚ) (hr : ∀ v ∈ vs, doubles.Rep v) :
    |doubles.sum vs - vs.sum| ≤ ((1 + 1 / 2 ^ 53) ^ vs.length - 1) * absSum vs ∧
    (vs ≠ [] → ∃ s, doubles.avg vs = .ok (fl64 (s / vs.length)) ∧ |s - vs.sum| ≤ ((1 + 1 / 2 ^ 53) ^ (vs.length - 1) - 1) * absSum vs) := by
  constructor
  · have := fold_error (by norm_num) doubles_sumError vs hr 0 0 0 0 doubles.zero (by simp) (by simp)
    unfold Rounding.sum
    simpa using this
  · intro hne
    cases vs with
    | nil => exact absurd rfl hne
    | cons v r =>
      refine ⟨r.foldl doubles.add v, ?_, ?_⟩
      · unfold Rounding.avg
        dsimp only
        rw [Rounding.div_ok (by rw [List.length_cons]; positivity)]
        rfl
      · have := fold_error (by norm_num) doubles_sumError r (fun x hx => hr x (by simp [hx])) 0 v v |v| (hr v (by simp)) le_rfl (by simp)
        simpa [absSum] using this

theorem foldl_add_nat : ∀ (l : List ℤ) (acc : ℤ), |acc| + (l.map (fun v => |v|)).sum ≤ 2 ^ 53 →
    (l.map (fun v : ℤ => (v : ℚ))).foldl doubles.add (acc : ℚ) = ((acc + l.sum : ℤ) : ℚ) := by
  intro l
  induction l with
  | nil => intro acc _; simp
  | cons v l ih =>
    intro acc h
    rw [List.map_cons, List.sum_cons] at h
    have hs : 0 ≤ (l.map (fun v => |v|)).sum := List.sum_nonneg (by intro x hx; obtain ⟨y, _, rfl⟩ := List.mem_map.1 hx; exact abs_nonneg y)
    have h1 := abs_add_le acc v
    rw [List.map_cons, List.foldl_cons]
    have h2 : doubles.add (acc : ℚ) (v : ℚ) = ((acc + v : ℤ) : ℚ) := by
      unfold Rounding.add
      rw [← Int.cast_add]
      exact fl64_int (by linarith)
    rw [h2, ih (acc + v) (by linarith), List.sum_cons]
    congr 1
    ring

/-- **C300 (whole numbers), partial**: the sum of whole numbers, if the sum of their absolute values is below 2 ^ 53, is exact in double precision, and their average is between the
least and the greatest of them. -/
theorem C300_whole_partial (vs : List ℤ) (hb : (vs.map (fun v => |v|)).sum ≤ 2 ^ 53) :
    doubles.sum (vs.map (fun v : ℤ => (v : ℚ))) = (vs.sum : ℤ) ∧
    ∀ lo hi : ℤ, vs ≠ [] → (∀ v ∈ vs, lo ≤ v ∧ v ≤ hi) → |lo| ≤ 2 ^ 53 → |hi| ≤ 2 ^ 53 →
      ∃ m, doubles.avg (vs.map (fun v : ℤ => (v : ℚ))) = .ok m ∧ (lo : ℚ) ≤ m ∧ m ≤ hi := by
  constructor
  · have := foldl_add_nat vs 0 (by simpa using hb)
    unfold Rounding.sum
    simpa using this
  · intro lo hi hne hlo hl hh
    cases vs with
    | nil => exact absurd rfl hne
    | cons v r =>
      have h1 := foldl_add_nat r v (by rwa [List.map_cons, List.sum_cons] at hb)
      have hn : (0 : ℚ) < ((v :: r).length : ℕ) := by rw [List.length_cons]; positivity
      refine ⟨fl64 (((v + r.sum : ℤ) : ℚ) / ((v :: r).length : ℕ)), ?_, ?_, ?_⟩
      · unfold Rounding.avg
        rw [List.map_cons]
        dsimp only
        rw [h1, Rounding.div_ok (by rw [List.length_cons]; positivity), List.length_cons, List.length_map, List.length_cons]
        rfl
      · refine doubles.le_fl (fl64_int hl) ?_
        rw [le_div_iff₀ hn]
        have := List.card_nsmul_le_sum (v :: r) lo (fun x hx => (hlo x hx).1)
        rw [List.sum_cons, nsmul_eq_mul] at this
        have h2 : (((v :: r).length : ℤ) * lo : ℤ) ≤ v + r.sum := this
        have h3 : ((((v :: r).length : ℤ) * lo : ℤ) : ℚ) ≤ ((v + r.sum : ℤ) : ℚ) := by exact_mod_cast h2
        push_cast at h3 ⊢
        linarith
      · refine doubles.fl_le (fl64_int hh) ?_
        rw [div_le_iff₀ hn]
        have := List.sum_le_card_nsmul (v :: r) hi (fun x hx => (hlo x hx).2)
        rw [List.sum_cons, nsmul_eq_mul] at this
        have h2 : v + r.sum ≤ (((v :: r).length : ℤ) * hi : ℤ) := this
        have h3 : ((v + r.sum : ℤ) : ℚ) ≤ ((((v :: r).length : ℤ) * hi : ℤ) : ℚ) := by exact_mod_cast h2
        push_cast at h3 ⊢
        linarith

/-- **C300 is false**: in double precision the average of 0.1, 0.1 and 0.1 is above 0.1. -/
theorem C300_false : (doubles.avg (tenths [1, 1, 1])).toOption.map (fun m => decide (m > fl64 (1 / 10))) = some true := by decide +kernel

theorem C300_witness : (∀ v ∈ tenths [1, 2, 7], doubles.Rep v) ∧ (([3, -5, 8] : List ℤ).map (fun v => |v|)).sum ≤ 2 ^ 53 ∧ (∀ v ∈ ([3, -5, 8] : List ℤ), -5 ≤ v ∧ v ≤ 8) := by
  refine ⟨?_, by decide, by decide⟩
  intro v hv
  obtain ⟨i, _, rfl⟩ := List.mem_map.1 hv
  exact fl64_idem _

end Timeseria
