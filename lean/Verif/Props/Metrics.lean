import Verif.Model.Utilities

/-! # C39 - C41: periodicity index, error metrics, rescaling -/

namespace Timeseria

/-! ## C39 -/

theorem pyInt_nonneg {x : ℚ} (h : 0 ≤ x) : pyInt x = ⌊x⌋ := by simp [pyInt, h]

/-- **C39**: from the epoch on, for a resolution of `res` seconds and a positive periodicity, the index is in
`[0, p)`; it counts the whole resolutions elapsed, modulo the periodicity. -/
theorem C39_range (t res : ℚ) (p : ℕ) (hp : 0 < p) (hr : 0 < res) (ht : 0 ≤ t) :
    ∃ i, periodicityIndex t res p none = .ok i ∧ 0 ≤ i ∧ i < p ∧ i = ⌊t / res⌋ % p := by
  have hp' : (0 : ℤ) < p := by exact_mod_cast hp
  refine ⟨⌊t / res⌋ % p, ?_, Int.emod_nonneg _ (by omega), Int.emod_lt_of_pos _ hp', rfl⟩
  simp [periodicityIndex, ne_of_gt hr, pyInt_nonneg (div_nonneg ht hr.le)]

/-- **C39 (steps)**: moving forward by one step of the resolution increases the index by one, modulo the
periodicity, and moving by a whole period leaves it as it is. -/
theorem C39_step (t res : ℚ) (p : ℕ) (hr : 0 < res) (ht : 0 ≤ t) (n : ℕ) :
    ∃ i j, periodicityIndex t res p none = .ok i ∧ periodicityIndex (t + n * res) res p none = .ok j ∧
      j = (i + n) % p := by
  have h1 : 0 ≤ t / res := div_nonneg ht hr.le
  have h2 : (t + n * res) / res = t / res + n := by field_simp
  have h3 : 0 ≤ t / res + (n : ℚ) := by positivity
  refine ⟨⌊t / res⌋ % p, ⌊t / res + n⌋ % p, ?_, ?_, ?_⟩
  · simp [periodicityIndex, ne_of_gt hr, pyInt_nonneg h1]
  · rw [periodicityIndex, h2, pyInt_nonneg h3]; simp [ne_of_gt hr]
  · rw [Int.floor_add_natCast, Int.emod_add_emod]

theorem C39_period (t res : ℚ) (p : ℕ) (hr : 0 < res) (ht : 0 ≤ t) :
    periodicityIndex (t + p * res) res p none = periodicityIndex t res p none := by
  obtain ⟨i, j, h1, h2, h3⟩ := C39_step t res p hr ht p
  rw [h1, h2, h3]
  congr 1
  have : i = pyInt (t / res) % p := by
    simp only [periodicityIndex, ne_of_gt hr, if_false] at h1
    exact (Except.ok.inj h1).symm
  rw [Int.add_emod_right, this, Int.emod_emod_of_dvd _ (dvd_refl _)]

/-- **C39 (daylight saving time)**: with the flag set, the index is the one of the local clock: the timestamp
shifted by the offset; resolutions above one hour are refused while daylight saving time is on. -/
theorem C39_dst (t res o : ℚ) (p : ℕ) (hr : 0 < res) (ho : o ≠ 0) :
    (res ≤ 3600 → periodicityIndex t res p (some o) = periodicityIndex (t + o) res p none) ∧
    (3600 < res → periodicityIndex t res p (some o) = .error .exception) ∧
    periodicityIndex t res p (some 0) = periodicityIndex t res p none := by
  refine ⟨?_, ?_, ?_⟩
  · intro h; simp [periodicityIndex, ne_of_gt hr, ho, not_lt.2 h]
  · intro h; simp [periodicityIndex, ne_of_gt hr, ho, h]
  · simp [periodicityIndex]

/-- concrete cases: hours of the day -/
theorem C39_witness : periodicityIndex (25 * 3600) 3600 24 none = .ok 1 ∧
    periodicityIndex (23 * 3600 + 1800) 3600 24 none = .ok 23 ∧
    periodicityIndex (23 * 3600) 3600 24 (some 3600) = .ok 0 := by decide +kernel

/-- **C85 is false**: before the epoch the index does not advance from one step to the next: the half hours
before and after midnight of 1 January 1970 get the same index, because the division is truncated towards
zero. -/
theorem C85_false : periodicityIndex (-1800) 3600 24 none = .ok 0 ∧
    periodicityIndex (-1800 + 3600) 3600 24 none = .ok 0 := by decide +kernel

/-- **C85, what holds**: for timestamps that are multiples of the resolution the index advances by one at each
step also before the epoch. -/
theorem C85_aligned_partial (m : ℤ) (res : ℚ) (p : ℕ) (hr : 0 < res) :
    periodicityIndex (m * res) res p none = .ok (m % p) := by
  have h : (m : ℚ) * res / res = m := by field_simp
  simp only [periodicityIndex, ne_of_gt hr, if_false, h, pyInt]
  simp

/-! ## C40 -/

theorem apeSum_ok {l m : List ℚ} (h0 : ∀ a ∈ l, a ≠ 0) (hlen : l.length = m.length) :
    apeSum l m = .ok (List.zipWith (fun a b => |(a - b) / a|) l m).sum := by
  induction l generalizing m with
  | nil => cases m <;> simp [apeSum] at hlen ⊢
  | cons a r ih =>
    cases m with
    | nil => simp at hlen
    | cons b s =>
      simp only [List.length_cons, Nat.add_right_cancel_iff] at hlen
      rw [apeSum, if_neg (h0 a (by simp)), ih (fun x hx => h0 x (by simp [hx])) hlen]
      simp [Except.map]

theorem apeSum_zero {l m : List ℚ} (h0 : (0 : ℚ) ∈ l) (hlen : l.length = m.length) :
    apeSum l m = .error .zeroDivision := by
  induction l generalizing m with
  | nil => simp at h0
  | cons a r ih =>
    cases m with
    | nil => simp at hlen
    | cons b s =>
      simp only [List.length_cons, Nat.add_right_cancel_iff] at hlen
      rw [apeSum]
      by_cases ha : a = 0
      · simp [ha]
      · rw [if_neg ha, ih _ hlen]
        · rfl
        · rcases List.mem_cons.1 h0 with h | h
          · exact absurd h.symm ha
          · exact h

theorem maxApeLoop_ok {l m : List ℚ} (acc : Option ℚ) (h0 : ∀ a ∈ l, a ≠ 0) (hlen : l.length = m.length) :
    maxApeLoop acc l m = .ok ((List.zipWith (fun a b => |(a - b) / a|) l m).foldl maxStep acc) := by
  induction l generalizing m acc with
  | nil => cases m <;> simp [maxApeLoop] at hlen ⊢
  | cons a r ih =>
    cases m with
    | nil => simp at hlen
    | cons b s =>
      simp only [List.length_cons, Nat.add_right_cancel_iff] at hlen
      rw [maxApeLoop, if_neg (h0 a (by simp)), ih _ (fun x hx => h0 x (by simp [hx])) hlen]
      simp

theorem maxAeLoop_ok {l m : List ℚ} (acc : Option ℚ) (hlen : l.length = m.length) :
    maxAeLoop acc l m = (List.zipWith (fun a b => |a - b|) l m).foldl maxStep acc := by
  induction l generalizing m acc with
  | nil => cases m <;> simp [maxAeLoop] at hlen ⊢
  | cons a r ih =>
    cases m with
    | nil => simp at hlen
    | cons b s =>
      simp only [List.length_cons, Nat.add_right_cancel_iff] at hlen
      rw [maxAeLoop, ih _ hlen]
      simp

/-- `x` is the largest element of the list -/
def IsMax (x : ℚ) (l : List ℚ) : Prop := x ∈ l ∧ ∀ y ∈ l, y ≤ x

theorem foldl_maxStep_some (l : List ℚ) (a : ℚ) : ∃ x, l.foldl maxStep (some a) = some x ∧ IsMax x (a :: l) := by
  induction l generalizing a with
  | nil => exact ⟨a, rfl, by simp [IsMax]⟩
  | cons b r ih =>
    simp only [List.foldl_cons, maxStep]
    by_cases h : b > a
    · rw [if_pos h]
      obtain ⟨x, h1, h2, h3⟩ := ih b
      refine ⟨x, h1, by simp at h2 ⊢; tauto, ?_⟩
      intro y hy
      rcases List.mem_cons.1 hy with rfl | hy
      · exact le_trans (le_of_lt h) (h3 b (by simp))
      · exact h3 y hy
    · rw [if_neg h]
      obtain ⟨x, h1, h2, h3⟩ := ih a
      refine ⟨x, h1, by simp at h2 ⊢; tauto, ?_⟩
      intro y hy
      rcases List.mem_cons.1 hy with rfl | hy
      · exact h3 y (by simp)
      · rcases List.mem_cons.1 hy with rfl | hy
        · exact le_trans (not_lt.1 h) (h3 a (by simp))
        · exact h3 y (by simp [hy])

theorem foldl_maxStep_none {l : List ℚ} (h : l ≠ []) : ∃ x, l.foldl maxStep none = some x ∧ IsMax x l := by
  cases l with
  | nil => exact absurd rfl h
  | cons a r => exact foldl_maxStep_some r a

theorem sum_le_length_mul {l : List ℚ} {x : ℚ} (h : ∀ y ∈ l, y ≤ x) : l.sum ≤ l.length * x := by
  induction l with
  | nil => simp
  | cons a r ih =>
    have := ih (fun y hy => h y (by simp [hy]))
    have := h a (by simp)
    simp only [List.sum_cons, List.length_cons, Nat.cast_add, Nat.cast_one]
    linarith

/-- list of absolute percentage errors of the pairs -/
def apes (l m : List ℚ) : List ℚ := List.zipWith (fun a b => |(a - b) / a|) l m
/-- list of absolute errors of the pairs -/
def aes (l m : List ℚ) : List ℚ := List.zipWith (fun a b => |a - b|) l m

theorem zipWith_length {f : ℚ → ℚ → ℚ} {l m : List ℚ} (h : l.length = m.length) : (List.zipWith f l m).length = l.length := by
  simp [h]

theorem zipWith_ne_nil {f : ℚ → ℚ → ℚ} {l m : List ℚ} (h : l.length = m.length) (hl : l ≠ []) : List.zipWith f l m ≠ [] := by
  intro e
  have := zipWith_length (f := f) h
  rw [e] at this
  exact hl (List.length_eq_zero_iff.1 (by simpa using this.symm))

theorem mem_zipWith_nonneg {f : ℚ → ℚ → ℚ} (hf : ∀ a b, 0 ≤ f a b) {l m : List ℚ} {x : ℚ} (hx : x ∈ List.zipWith f l m) :
    0 ≤ x := by
  induction l generalizing m with
  | nil => simp at hx
  | cons a r ih =>
    cases m with
    | nil => simp at hx
    | cons b s =>
      simp only [List.zipWith_cons_cons, List.mem_cons] at hx
      rcases hx with rfl | hx
      · exact hf _ _
      · exact ih hx

theorem zipWith_sum_zero_iff {f : ℚ → ℚ → ℚ} (hf : ∀ a b, 0 ≤ f a b) {l m : List ℚ}
    (h0 : ∀ a ∈ l, ∀ b, f a b = 0 ↔ a = b) (h : l.length = m.length) :
    (List.zipWith f l m).sum = 0 ↔ l = m := by
  induction l generalizing m with
  | nil => cases m <;> simp at h ⊢
  | cons a r ih =>
    cases m with
    | nil => simp at h
    | cons b s =>
      simp only [List.length_cons, Nat.add_right_cancel_iff] at h
      have i := ih (fun x hx => h0 x (by simp [hx])) h
      have hs : 0 ≤ (List.zipWith f r s).sum := List.sum_nonneg (fun x hx => mem_zipWith_nonneg hf hx)
      have hab := hf a b
      simp only [List.zipWith_cons_cons, List.sum_cons, List.cons.injEq]
      constructor
      · intro e
        have e1 : f a b = 0 := by linarith
        have e2 : (List.zipWith f r s).sum = 0 := by linarith
        exact ⟨(h0 a (by simp) b).1 e1, i.1 e2⟩
      · rintro ⟨e1, e2⟩
        rw [(h0 a (by simp) b).2 e1, i.2 e2]; simp

theorem ape_nonneg (a b : ℚ) : 0 ≤ |(a - b) / a| := abs_nonneg _
theorem ape_zero {a : ℚ} (h : a ≠ 0) (b : ℚ) : |(a - b) / a| = 0 ↔ a = b := by
  rw [abs_eq_zero, div_eq_zero_iff, sub_eq_zero]; simp [h]

/-- **C40 (percentage errors)**: for lists of the same positive length whose true values are not zero, the MAPE
is the mean and the MaxAPE the maximum of the absolute percentage errors; both are non-negative, the mean
is at most the maximum, and the mean is zero exactly when the lists are equal. -/
theorem C40_percentage (l m : List ℚ) (hlen : l.length = m.length) (hl : l ≠ []) (h0 : ∀ a ∈ l, a ≠ 0) :
    ∃ x y, mape l m = .ok x ∧ maxApe l m = .ok (some y) ∧ x = (apes l m).sum / l.length ∧ IsMax y (apes l m) ∧
      0 ≤ x ∧ x ≤ y ∧ (x = 0 ↔ l = m) ∧ (y = 0 ↔ l = m) := by
  have hpos : (0 : ℚ) < l.length := by
    have : 0 < l.length := List.length_pos_iff.2 hl
    exact_mod_cast this
  obtain ⟨y, hy, hmax⟩ := foldl_maxStep_none (zipWith_ne_nil (f := fun a b => |(a - b) / a|) hlen hl)
  have hs : 0 ≤ (apes l m).sum := List.sum_nonneg (fun x hx => mem_zipWith_nonneg ape_nonneg hx)
  have hz := zipWith_sum_zero_iff ape_nonneg (fun a ha b => ape_zero (h0 a ha) b) hlen
  have hle : (apes l m).sum / l.length ≤ y := by
    rw [div_le_iff₀ hpos]
    have := sum_le_length_mul (l := apes l m) hmax.2
    unfold apes at this ⊢
    rw [zipWith_length hlen] at this
    linarith
  have hx0 : 0 ≤ (apes l m).sum / l.length := div_nonneg hs hpos.le
  refine ⟨(apes l m).sum / l.length, y, ?_, ?_, rfl, hmax, hx0, hle, ?_, ?_⟩
  · have hm : ¬ m.length = 0 := by rw [← hlen]; simpa using hl
    simp only [mape, hlen, ne_eq, not_true, if_false, apeSum_ok h0 hlen, apes, if_neg hm]
  · simp only [maxApe, hlen, ne_eq, not_true, if_false, maxApeLoop_ok none h0 hlen, hy]
  · rw [div_eq_zero_iff]
    simp only [ne_of_gt hpos, or_false]; exact hz
  · constructor
    · intro e
      subst e
      have : (apes l m).sum / l.length = 0 := le_antisymm hle hx0
      rw [div_eq_zero_iff] at this
      exact hz.1 (by simpa [ne_of_gt hpos, apes] using this)
    · intro e
      have hm := hmax.1
      subst e
      have : ∀ x ∈ List.zipWith (fun a b => |(a - b) / a|) l l, x = 0 := by
        intro x hx
        rw [List.zipWith_self] at hx
        obtain ⟨a, _, rfl⟩ := List.mem_map.1 hx
        simp
      exact this y hm

/-- **C40 (absolute and squared errors)**: for lists of the same positive length, the MAE is the mean and the
MaxAE the maximum of the absolute errors, the MSE the mean of the squared errors; all are non-negative, the
mean is at most the maximum, and each is zero exactly when the lists are equal. -/
theorem C40_absolute (l m : List ℚ) (hlen : l.length = m.length) (hl : l ≠ []) :
    ∃ x y z, mae l m = .ok x ∧ maxAe l m = .ok (some y) ∧ mse l m = .ok z ∧ x = (aes l m).sum / l.length ∧
      IsMax y (aes l m) ∧ 0 ≤ x ∧ x ≤ y ∧ 0 ≤ z ∧ z ≤ y ^ 2 ∧ (x = 0 ↔ l = m) ∧ (y = 0 ↔ l = m) ∧ (z = 0 ↔ l = m) := by
  have hpos : (0 : ℚ) < l.length := by
    have : 0 < l.length := List.length_pos_iff.2 hl
    exact_mod_cast this
  have hl0 : ¬ l.length = 0 := by simpa using hl
  have hf1 : ∀ a b : ℚ, 0 ≤ |a - b| := fun a b => abs_nonneg _
  have hf2 : ∀ a b : ℚ, 0 ≤ (a - b) ^ 2 := fun a b => sq_nonneg _
  have hz1 := zipWith_sum_zero_iff (l := l) (m := m) hf1 (fun a _ b => by rw [abs_eq_zero, sub_eq_zero]) hlen
  have hz2 := zipWith_sum_zero_iff (l := l) (m := m) hf2 (fun a _ b => by rw [pow_eq_zero_iff (by norm_num), sub_eq_zero]) hlen
  obtain ⟨y, hy, hmax⟩ := foldl_maxStep_none (zipWith_ne_nil (f := fun a b => |a - b|) hlen hl)
  have hs1 : 0 ≤ (aes l m).sum := List.sum_nonneg (fun x hx => mem_zipWith_nonneg hf1 hx)
  have hs2 : 0 ≤ (List.zipWith (fun a b => (a - b) ^ 2) l m).sum :=
    List.sum_nonneg (fun x hx => mem_zipWith_nonneg hf2 hx)
  have hle : (aes l m).sum / l.length ≤ y := by
    rw [div_le_iff₀ hpos]
    have := sum_le_length_mul (l := aes l m) hmax.2
    unfold aes at this ⊢
    rw [zipWith_length hlen] at this
    linarith
  have hx0 : 0 ≤ (aes l m).sum / l.length := div_nonneg hs1 hpos.le
  have hsq : ∀ w ∈ List.zipWith (fun a b => (a - b) ^ 2) l m, w ≤ y ^ 2 := by
    have key : ∀ (l m : List ℚ), (∀ v ∈ List.zipWith (fun a b => |a - b|) l m, v ≤ y) →
        ∀ w ∈ List.zipWith (fun a b => (a - b) ^ 2) l m, w ≤ y ^ 2 := by
      intro l
      induction l with
      | nil => intro m _ w hw; simp at hw
      | cons a r ih =>
        intro m hm w hw
        cases m with
        | nil => simp at hw
        | cons b s =>
          simp only [List.zipWith_cons_cons, List.mem_cons] at hw hm
          rcases hw with rfl | hw
          · have := hm _ (.inl rfl)
            rw [← sq_abs]
            exact pow_le_pow_left₀ (abs_nonneg _) this 2
          · exact ih s (fun v hv => hm v (.inr hv)) w hw
    exact key l m hmax.2
  refine ⟨(aes l m).sum / l.length, y, (List.zipWith (fun a b => (a - b) ^ 2) l m).sum / l.length, ?_, ?_, ?_, rfl,
    hmax, hx0, hle, div_nonneg hs2 hpos.le, ?_, ?_, ?_, ?_⟩
  · simp only [mae, skMean, hlen, ne_eq, not_true, if_false, aes]; rw [if_neg (by rw [← hlen]; exact hl0)]
  · simp only [maxAe, hlen, ne_eq, not_true, if_false, maxAeLoop_ok none hlen, hy]
  · simp only [mse, skMean, hlen, ne_eq, not_true, if_false]; rw [if_neg (by rw [← hlen]; exact hl0)]
  · rw [div_le_iff₀ hpos]
    have := sum_le_length_mul hsq
    rw [zipWith_length hlen] at this
    linarith
  · rw [div_eq_zero_iff]
    simp only [ne_of_gt hpos, or_false]; exact hz1
  · constructor
    · intro e
      subst e
      have : (aes l m).sum / l.length = 0 := le_antisymm hle hx0
      rw [div_eq_zero_iff] at this
      exact hz1.1 (by simpa [ne_of_gt hpos, aes] using this)
    · intro e
      have hm := hmax.1
      subst e
      have : ∀ x ∈ List.zipWith (fun a b => |a - b|) l l, x = 0 := by
        intro x hx
        rw [List.zipWith_self] at hx
        obtain ⟨a, _, rfl⟩ := List.mem_map.1 hx
        simp
      exact this y hm
  · rw [div_eq_zero_iff]
    simp only [ne_of_gt hpos, or_false]; exact hz2

/-- **C40 (refused)**: lists of different lengths are refused by all the metrics; the percentage errors refuse
true values that are zero. -/
theorem C40_refused (l m : List ℚ) (h : l.length ≠ m.length) :
    mape l m = .error .valueError ∧ maxApe l m = .error .valueError ∧ maxAe l m = .error .valueError ∧
    mae l m = .error .valueError ∧ mse l m = .error .valueError := by
  simp [mape, maxApe, maxAe, mae, mse, skMean, h]

theorem C40_zero_true_value (l m : List ℚ) (h : l.length = m.length) (h0 : (0 : ℚ) ∈ l) :
    mape l m = .error .zeroDivision := by
  simp [mape, h, apeSum_zero h0 h]

/-- a concrete case -/
theorem C40_witness : mape [1, 2] [2, 2] = .ok (1 / 2) ∧ maxApe [1, 2] [2, 2] = .ok (some 1) ∧
    mae [1, 2] [2, 2] = .ok (1 / 2) ∧ maxAe [1, 2] [2, 2] = .ok (some 1) := by decide +kernel

/-! ## C41 -/

theorem rescaleUtil_ok {v sf st tf tt : ℚ} (h0 : 0 ≤ sf) (h1 : sf < st) (ht : 0 ≤ tf) (htt : 0 ≤ tt) (hv : sf ≤ v)
    (hv' : v ≤ st) : rescaleUtil v sf st tf tt = .ok ((v - sf) / (st - sf) * (tt - tf) + tf) := by
  unfold rescaleUtil
  rw [if_neg (by linarith), if_neg (by linarith), if_neg (by linarith), if_neg (by linarith), if_neg (by linarith),
    if_neg (by linarith), if_neg (by linarith), if_neg (by intro h; linarith)]
  split_ifs with h
  · rw [h.1, h.2]; simp
  · rfl

/-- **C41**: for non-negative ranges with distinct source ends, `rescale` maps the source range to the target
range: the ends to the ends, in a strictly monotone way (when the target is not a single value), and never
outside the target range. -/
theorem C41_rescale (sf st tf tt : ℚ) (h0 : 0 ≤ sf) (h1 : sf < st) (ht : 0 ≤ tf) (htt : tf ≤ tt) :
    rescaleUtil sf sf st tf tt = .ok tf ∧ rescaleUtil st sf st tf tt = .ok tt ∧
    (∀ v, sf ≤ v → v ≤ st → ∃ x, rescaleUtil v sf st tf tt = .ok x ∧ tf ≤ x ∧ x ≤ tt) ∧
    (∀ v w, sf ≤ v → v < w → w ≤ st → tf < tt → ∃ x y, rescaleUtil v sf st tf tt = .ok x ∧
      rescaleUtil w sf st tf tt = .ok y ∧ x < y) := by
  have hd : 0 < st - sf := by linarith
  refine ⟨?_, ?_, ?_, ?_⟩
  · rw [rescaleUtil_ok h0 h1 ht (by linarith) (le_refl _) h1.le]; simp
  · rw [rescaleUtil_ok h0 h1 ht (by linarith) h1.le (le_refl _), div_self (ne_of_gt hd)]
    congr 1; ring
  · intro v a b
    have e1 : 0 ≤ (v - sf) / (st - sf) := div_nonneg (by linarith) hd.le
    have e2 : (v - sf) / (st - sf) ≤ 1 := (div_le_one hd).2 (by linarith)
    refine ⟨_, rescaleUtil_ok h0 h1 ht (by linarith) a b, ?_, ?_⟩
    · have := mul_nonneg e1 (by linarith : 0 ≤ tt - tf); linarith
    · have := mul_le_mul_of_nonneg_right e2 (by linarith : 0 ≤ tt - tf); linarith
  · intro v w a b c d
    refine ⟨_, _, rescaleUtil_ok h0 h1 ht (by linarith) a (by linarith),
      rescaleUtil_ok h0 h1 ht (by linarith) (by linarith) c, ?_⟩
    have e : (v - sf) / (st - sf) < (w - sf) / (st - sf) := div_lt_div_of_pos_right (by linarith) hd
    have := mul_lt_mul_of_pos_right e (by linarith : 0 < tt - tf)
    linarith

/-- **C41 (refused)**: a value outside the source range and any negative argument are refused. -/
theorem C41_refused (v sf st tf tt : ℚ)
    (h : v < sf ∨ st < v ∨ v < 0 ∨ sf < 0 ∨ st < 0 ∨ tf < 0 ∨ tt < 0) :
    rescaleUtil v sf st tf tt = .error .valueError := by
  unfold rescaleUtil
  split_ifs <;> first | rfl | (exfalso; rcases h with h | h | h | h | h | h | h <;> linarith)

theorem C41_witness : rescaleUtil 15 10 20 0 100 = .ok 50 ∧ rescaleUtil 15 10 20 0 1 = .ok (1 / 2) := by
  decide +kernel

end Timeseria
