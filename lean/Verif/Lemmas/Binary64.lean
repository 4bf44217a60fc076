import Verif.Model.Floats
import Mathlib.Tactic.Linarith
import Mathlib.Tactic.Ring
import Mathlib.Tactic.FieldSimp
import Mathlib.Tactic.Positivity
import Mathlib.Algebra.Order.Floor.Ring
import Mathlib.Data.Rat.Floor
import Mathlib.Algebra.Order.Field.Power

/-! # Double precision is a rounding

`fl64` is monotone, odd, idempotent, exact on the numbers with 53 significant bits, and its error is within half of the distance between two consecutive doubles. -/

namespace Timeseria

/-! ## Rounding to the nearest integer -/

theorem roundf_cases (x : ℚ) : (x - ⌊x⌋ < 1 / 2 ∧ pyRound x = ⌊x⌋) ∨ (1 / 2 < x - ⌊x⌋ ∧ pyRound x = ⌊x⌋ + 1) ∨
    (x - ⌊x⌋ = 1 / 2 ∧ ((⌊x⌋ % 2 = 0 ∧ pyRound x = ⌊x⌋) ∨ (⌊x⌋ % 2 ≠ 0 ∧ pyRound x = ⌊x⌋ + 1))) := by
  unfold pyRound
  dsimp only
  by_cases h1 : x - ⌊x⌋ < 1 / 2
  · rw [if_pos h1]; exact Or.inl ⟨h1, rfl⟩
  · rw [if_neg h1]
    by_cases h2 : x - ⌊x⌋ > 1 / 2
    · rw [if_pos h2]; exact Or.inr (Or.inl ⟨h2, rfl⟩)
    · rw [if_neg h2]
      refine Or.inr (Or.inr ⟨le_antisymm (not_lt.1 h2) (not_lt.1 h1), ?_⟩)
      by_cases h3 : ⌊x⌋ % 2 = 0
      · rw [if_pos h3]; exact Or.inl ⟨h3, rfl⟩
      · rw [if_neg h3]; exact Or.inr ⟨h3, rfl⟩

theorem roundf_floor (x : ℚ) : ⌊x⌋ ≤ pyRound x ∧ pyRound x ≤ ⌊x⌋ + 1 := by
  rcases roundf_cases x with ⟨_, h⟩ | ⟨_, h⟩ | ⟨_, ⟨_, h⟩ | ⟨_, h⟩⟩ <;> rw [h] <;> omega

theorem roundf_int (n : ℤ) : pyRound (n : ℚ) = n := by
  rcases roundf_cases (n : ℚ) with ⟨_, h⟩ | ⟨h, _⟩ | ⟨h, _⟩
  · rw [h]; simp
  · simp at h; norm_num at h
  · simp at h

theorem roundf_mono {x y : ℚ} (h : x ≤ y) : pyRound x ≤ pyRound y := by
  have hf : ⌊x⌋ ≤ ⌊y⌋ := Int.floor_le_floor h
  rcases eq_or_lt_of_le hf with he | hl
  · rcases roundf_cases x with ⟨_, h1⟩ | ⟨h0, h1⟩ | ⟨h0, ⟨h2, h1⟩ | ⟨h2, h1⟩⟩
    · rw [h1, he]; exact (roundf_floor y).1
    · rcases roundf_cases y with ⟨h3, h4⟩ | ⟨h3, h4⟩ | ⟨h3, _⟩
      · rw [he] at h0; linarith
      · rw [h1, h4, he]
      · rw [he] at h0; linarith
    · rw [h1, he]; exact (roundf_floor y).1
    · rcases roundf_cases y with ⟨h3, h4⟩ | ⟨h3, h4⟩ | ⟨h3, ⟨h5, h4⟩ | ⟨h5, h4⟩⟩
      · rw [he] at h0; linarith
      · rw [h1, h4, he]
      · rw [he] at h2; exact absurd h5 h2
      · rw [h1, h4, he]
  · have h1 := (roundf_floor x).2
    have h2 := (roundf_floor y).1
    omega

theorem roundf_near (x : ℚ) : |(pyRound x : ℚ) - x| ≤ 1 / 2 := by
  have h0 := Int.floor_le x
  have h1 := Int.lt_floor_add_one x
  rw [abs_le]
  rcases roundf_cases x with ⟨h2, h⟩ | ⟨h2, h⟩ | ⟨h2, ⟨_, h⟩ | ⟨_, h⟩⟩ <;> rw [h] <;> push_cast <;> constructor <;> linarith

theorem roundf_neg (x : ℚ) : pyRound (-x) = -pyRound x := by
  by_cases hi : (⌊x⌋ : ℚ) = x
  · rw [← hi, ← Int.cast_neg, roundf_int, roundf_int]
  · have hlt : (⌊x⌋ : ℚ) < x := lt_of_le_of_ne (Int.floor_le x) hi
    have hf : ⌊-x⌋ = -⌊x⌋ - 1 := by
      rw [Int.floor_eq_iff]
      push_cast
      have := Int.lt_floor_add_one x
      constructor <;> linarith
    have hc : ((⌊-x⌋ : ℤ) : ℚ) = -(⌊x⌋ : ℚ) - 1 := by rw [hf]; push_cast; ring
    rcases roundf_cases x with ⟨h2, h⟩ | ⟨h2, h⟩ | ⟨h2, ⟨h5, h⟩ | ⟨h5, h⟩⟩ <;>
    rcases roundf_cases (-x) with ⟨h3, h'⟩ | ⟨h3, h'⟩ | ⟨h3, ⟨h6, h'⟩ | ⟨h6, h'⟩⟩ <;> rw [hc] at h3 <;> first | (exfalso; linarith) | (rw [h, h', hf]; omega)

/-! ## Powers of two and exponents -/

theorem pow2_eq (k : ℤ) : pow2 k = (2 : ℚ) ^ k := by
  cases k with
  | ofNat n => simp [pow2]
  | negSucc n => simp [pow2, zpow_negSucc]

theorem pow2_pos (k : ℤ) : 0 < (2 : ℚ) ^ k := by positivity

theorem pow2_le {j k : ℤ} (h : j ≤ k) : (2 : ℚ) ^ j ≤ 2 ^ k := zpow_le_zpow_right₀ (by norm_num) h

theorem pow2_lt {j k : ℤ} (h : (2 : ℚ) ^ j < 2 ^ k) : j < k := by
  by_contra hn
  exact absurd (pow2_le (not_lt.1 hn)) (not_le.2 h)

theorem pow2_add (j k : ℤ) : (2 : ℚ) ^ (j + k) = 2 ^ j * 2 ^ k := zpow_add₀ (by norm_num) _ _

theorem pow2_int {k : ℤ} (h : 0 ≤ k) : ∃ n : ℤ, (2 : ℚ) ^ k = n := by
  obtain ⟨n, rfl⟩ := Int.eq_ofNat_of_zero_le h
  exact ⟨2 ^ n, by simp⟩

theorem expo_spec {x : ℚ} (h : 0 < x) : (2 : ℚ) ^ expo x ≤ x ∧ x < 2 ^ (expo x + 1) := by
  have hn : x.num.natAbs ≠ 0 := by
    have : 0 < x.num := Rat.num_pos.2 h
    omega
  have hnum : ((x.num.natAbs : ℕ) : ℚ) = x.num := by
    have : 0 < x.num := Rat.num_pos.2 h
    rw [← Int.cast_natCast, Int.natAbs_of_nonneg this.le]
  have hx : x = (x.num.natAbs : ℚ) / x.den := by rw [hnum, Rat.num_div_den]
  have h1 : 2 ^ Nat.log2 x.num.natAbs ≤ x.num.natAbs := Nat.log2_self_le hn
  have h2 : x.num.natAbs < 2 ^ (Nat.log2 x.num.natAbs + 1) := Nat.lt_log2_self
  have h3 : 2 ^ Nat.log2 x.den ≤ x.den := Nat.log2_self_le x.den_nz
  have h4 : x.den < 2 ^ (Nat.log2 x.den + 1) := Nat.lt_log2_self
  have h1' : (2 : ℚ) ^ Nat.log2 x.num.natAbs ≤ x.num.natAbs := by exact_mod_cast h1
  have h2' : (x.num.natAbs : ℚ) < 2 ^ (Nat.log2 x.num.natAbs + 1) := by exact_mod_cast h2
  have h3' : (2 : ℚ) ^ Nat.log2 x.den ≤ x.den := by exact_mod_cast h3
  have h4' : (x.den : ℚ) < 2 ^ (Nat.log2 x.den + 1) := by exact_mod_cast h4
  have hd : (0 : ℚ) < x.den := by exact_mod_cast x.den_pos
  unfold expo
  dsimp only
  generalize Nat.log2 x.num.natAbs = a at *
  have hup : x < 2 ^ ((a : ℤ) - Nat.log2 x.den + 1) := by
    rw [show (a : ℤ) - Nat.log2 x.den + 1 = ((a + 1 : ℕ) : ℤ) - (Nat.log2 x.den : ℕ) from by push_cast; ring, zpow_sub₀ (by norm_num), zpow_natCast, zpow_natCast]
    calc x = (x.num.natAbs : ℚ) / x.den := hx
      _ < 2 ^ (a + 1) / x.den := by gcongr
      _ ≤ 2 ^ (a + 1) / 2 ^ Nat.log2 x.den := by gcongr
  have hlo : 2 ^ ((a : ℤ) - Nat.log2 x.den - 1) < x := by
    rw [show (a : ℤ) - Nat.log2 x.den - 1 = ((a : ℕ) : ℤ) - ((Nat.log2 x.den + 1 : ℕ) : ℤ) from by push_cast; ring, zpow_sub₀ (by norm_num), zpow_natCast, zpow_natCast]
    calc (2 : ℚ) ^ a / 2 ^ (Nat.log2 x.den + 1) ≤ x.num.natAbs / 2 ^ (Nat.log2 x.den + 1) := by gcongr
      _ < x.num.natAbs / x.den := by
        have : (0 : ℚ) < x.num.natAbs := by exact_mod_cast Nat.pos_of_ne_zero hn
        gcongr
      _ = x := hx.symm
  rw [pow2_eq]
  split
  · rename_i hk
    exact ⟨hk, hup⟩
  · rename_i hk
    refine ⟨hlo.le, ?_⟩
    rw [sub_add_cancel]
    exact not_le.1 hk

theorem expo_mono {x y : ℚ} (hx : 0 < x) (h : x ≤ y) : expo x ≤ expo y := by
  have h1 := (expo_spec hx).1
  have h2 := (expo_spec (hx.trans_le h)).2
  have := pow2_lt (lt_of_le_of_lt (h1.trans h) h2)
  omega

/-- the exponent of the last bit of a double about `x` -/
def last64 (x : ℚ) : ℤ := max (expo |x| - 52) (-1074)

theorem ulp64_eq (x : ℚ) : ulp64 x = 2 ^ last64 x := pow2_eq _

theorem ulp64_pos (x : ℚ) : 0 < ulp64 x := by rw [ulp64_eq]; exact pow2_pos _

theorem fl64_of {x : ℚ} (h : x ≠ 0) : fl64 x = (pyRound (x / 2 ^ last64 x) : ℚ) * 2 ^ last64 x := by
  unfold fl64
  rw [if_neg h, ulp64_eq]

theorem fl64_zero : fl64 0 = 0 := by simp [fl64]

theorem last64_neg (x : ℚ) : last64 (-x) = last64 x := by unfold last64; rw [abs_neg]

theorem fl64_neg (x : ℚ) : fl64 (-x) = -fl64 x := by
  by_cases h : x = 0
  · subst h; simp [fl64_zero]
  · rw [fl64_of h, fl64_of (neg_ne_zero.2 h), last64_neg, neg_div, roundf_neg]
    push_cast
    ring

/-- the numbers with 53 significant bits, multiples of the least positive double -/
def IsDouble (x : ℚ) : Prop := ∃ m e : ℤ, |m| ≤ 2 ^ 53 ∧ -1074 ≤ e ∧ x = m * 2 ^ e

theorem fl64_isDouble (x : ℚ) : IsDouble (fl64 x) := by
  by_cases h : x = 0
  · subst h; exact ⟨0, 0, by norm_num, by norm_num, by simp [fl64_zero]⟩
  · have hx : 0 < |x| := abs_pos.2 h
    refine ⟨pyRound (x / 2 ^ last64 x), last64 x, ?_, le_max_right _ _, fl64_of h⟩
    have hb : |x / 2 ^ last64 x| ≤ 2 ^ 53 := by
      rw [abs_div, abs_of_pos (pow2_pos _), div_le_iff₀ (pow2_pos _)]
      have h1 := (expo_spec hx).2.le
      refine h1.trans ?_
      rw [show (2 : ℚ) ^ 53 = 2 ^ (53 : ℤ) from by norm_num, ← pow2_add]
      apply pow2_le
      unfold last64
      omega
    rw [abs_le] at hb ⊢
    have h1 := roundf_mono hb.1
    have h2 := roundf_mono hb.2
    rw [show (-2 ^ 53 : ℚ) = ((-2 ^ 53 : ℤ) : ℚ) from by norm_num, roundf_int] at h1
    rw [show (2 ^ 53 : ℚ) = ((2 ^ 53 : ℤ) : ℚ) from by norm_num, roundf_int] at h2
    exact ⟨h1, h2⟩

theorem fl64_mult {x : ℚ} {m e : ℤ} (h : x = m * 2 ^ e) (he : last64 x ≤ e) : fl64 x = x := by
  by_cases hx : x = 0
  · subst hx; exact fl64_zero
  · obtain ⟨n, hn⟩ := pow2_int (k := e - last64 x) (by omega)
    have hd : x / 2 ^ last64 x = ((m * n : ℤ) : ℚ) := by
      rw [div_eq_iff (pow2_pos _).ne']
      push_cast
      rw [← hn, mul_assoc, ← pow2_add, sub_add_cancel]
      exact h
    rw [fl64_of hx, hd, roundf_int, ← hd, div_mul_cancel₀ _ (pow2_pos _).ne']

theorem fl64_of_isDouble {x : ℚ} (h : IsDouble x) : fl64 x = x := by
  obtain ⟨m, e, hm, he, rfl⟩ := h
  by_cases h0 : m = 0
  · subst h0; simp [fl64_zero]
  have key : ∀ m' e' : ℤ, m' ≠ 0 → |m'| < 2 ^ 53 → -1074 ≤ e' → fl64 ((m' : ℚ) * 2 ^ e') = m' * 2 ^ e' := by
    intro m' e' hm0 hm' he'
    refine fl64_mult rfl ?_
    have hpos : 0 < |(m' : ℚ) * 2 ^ e'| := abs_pos.2 (mul_ne_zero (by exact_mod_cast hm0) (pow2_pos _).ne')
    have h1 := (expo_spec hpos).1
    have h2 : |(m' : ℚ) * 2 ^ e'| < 2 ^ (53 + e') := by
      rw [abs_mul, abs_of_pos (pow2_pos e'), pow2_add]
      have : (|(m' : ℚ)|) < 2 ^ (53 : ℤ) := by
        rw [show (2 : ℚ) ^ (53 : ℤ) = ((2 ^ 53 : ℤ) : ℚ) from by norm_num]
        exact_mod_cast hm'
      exact mul_lt_mul_of_pos_right this (pow2_pos _)
    have := pow2_lt (lt_of_le_of_lt h1 h2)
    unfold last64
    omega
  rcases lt_or_eq_of_le hm with hl | heq
  · exact key m e h0 hl he
  · rcases abs_eq (by norm_num) |>.1 heq with rfl | rfl
    · have := key (2 ^ 52) (e + 1) (by norm_num) (by norm_num) (by omega)
      rw [pow2_add] at this
      have e1 : (((2 : ℤ) ^ 52 : ℤ) : ℚ) * (2 ^ e * 2 ^ (1 : ℤ)) = (((2 : ℤ) ^ 53 : ℤ) : ℚ) * 2 ^ e := by push_cast; ring
      rw [e1] at this
      exact this
    · have := key (-2 ^ 52) (e + 1) (by norm_num) (by norm_num) (by omega)
      rw [pow2_add] at this
      have e1 : (((-2 ^ 52 : ℤ)) : ℚ) * (2 ^ e * 2 ^ (1 : ℤ)) = (((-2 ^ 53 : ℤ)) : ℚ) * 2 ^ e := by push_cast; ring
      rw [e1] at this
      exact this

theorem fl64_idem (x : ℚ) : fl64 (fl64 x) = fl64 x := fl64_of_isDouble (fl64_isDouble x)

theorem fl64_eq_iff {x : ℚ} : fl64 x = x ↔ IsDouble x := ⟨fun h => h ▸ fl64_isDouble x, fl64_of_isDouble⟩

theorem fl64_nonneg {x : ℚ} (h : 0 ≤ x) : 0 ≤ fl64 x := by
  rcases h.eq_or_lt with rfl | hp
  · rw [fl64_zero]
  · rw [fl64_of hp.ne']
    refine mul_nonneg ?_ (pow2_pos _).le
    have := roundf_mono (x := ((0 : ℤ) : ℚ)) (y := x / 2 ^ last64 x) (by push_cast; exact div_nonneg h (pow2_pos _).le)
    rw [roundf_int] at this
    exact_mod_cast this

theorem fl64_mono_pos {x y : ℚ} (hx : 0 < x) (h : x ≤ y) : fl64 x ≤ fl64 y := by
  have hy := hx.trans_le h
  have he := expo_mono hx h
  have hq : last64 x ≤ last64 y := by unfold last64; rw [abs_of_pos hx, abs_of_pos hy]; omega
  rw [fl64_of hx.ne', fl64_of hy.ne']
  rcases hq.eq_or_lt with heq | hlt
  · rw [heq]
    refine mul_le_mul_of_nonneg_right ?_ (pow2_pos _).le
    exact_mod_cast roundf_mono (div_le_div_of_nonneg_right h (pow2_pos _).le)
  · have hqy : last64 y = expo y - 52 := by
      unfold last64 at hlt ⊢; rw [abs_of_pos hy] at hlt ⊢; omega
    have hex : expo x + 1 ≤ expo y := by
      have : expo x - 52 ≤ last64 x := by unfold last64; rw [abs_of_pos hx]; exact le_max_left _ _
      omega
    have hle : last64 x ≤ expo y := by omega
    refine le_trans (b := (2 : ℚ) ^ expo y) ?_ ?_
    · obtain ⟨n, hn⟩ := pow2_int (k := expo y - last64 x) (by omega)
      have h1 : x / 2 ^ last64 x ≤ n := by
        rw [← hn, div_le_iff₀ (pow2_pos _), ← pow2_add, sub_add_cancel]
        exact (expo_spec hx).2.le.trans (pow2_le hex)
      have h2 := roundf_mono h1
      rw [roundf_int] at h2
      have h3 : (pyRound (x / 2 ^ last64 x) : ℚ) ≤ n := by exact_mod_cast h2
      calc (pyRound (x / 2 ^ last64 x) : ℚ) * 2 ^ last64 x ≤ n * 2 ^ last64 x := mul_le_mul_of_nonneg_right h3 (pow2_pos _).le
        _ = 2 ^ expo y := by rw [← hn, ← pow2_add, sub_add_cancel]
    · obtain ⟨n, hn⟩ := pow2_int (k := expo y - last64 y) (by omega)
      have h1 : (n : ℚ) ≤ y / 2 ^ last64 y := by
        rw [← hn, le_div_iff₀ (pow2_pos _), ← pow2_add, sub_add_cancel]
        exact (expo_spec hy).1
      have h2 := roundf_mono h1
      rw [roundf_int] at h2
      have h3 : (n : ℚ) ≤ (pyRound (y / 2 ^ last64 y) : ℚ) := by exact_mod_cast h2
      calc (2 : ℚ) ^ expo y = n * 2 ^ last64 y := by rw [← hn, ← pow2_add, sub_add_cancel]
        _ ≤ _ := mul_le_mul_of_nonneg_right h3 (pow2_pos _).le

theorem fl64_mono {x y : ℚ} (h : x ≤ y) : fl64 x ≤ fl64 y := by
  rcases lt_or_ge 0 x with hx | hx
  · exact fl64_mono_pos hx h
  · have h1 : fl64 x ≤ 0 := by
      have := fl64_nonneg (neg_nonneg.2 hx)
      rw [fl64_neg] at this
      linarith
    rcases lt_or_ge y 0 with hy | hy
    · have := fl64_mono_pos (neg_pos.2 hy) (neg_le_neg h)
      rw [fl64_neg, fl64_neg] at this
      linarith
    · exact h1.trans (fl64_nonneg hy)

/-- double precision, without overflows -/
def doubles : Rounding where
  fl := fl64
  mono := fl64_mono
  idem := fl64_idem
  zero := fl64_zero
  one := by decide +kernel
  neg := fl64_neg

/-- whole numbers up to 2 ^ 53 are doubles, and so are they divided by two -/
theorem fl64_int {n : ℤ} (h : |n| ≤ 2 ^ 53) : fl64 n = n := fl64_of_isDouble ⟨n, 0, h, by norm_num, by simp⟩

theorem fl64_half {n : ℤ} (h : |n| ≤ 2 ^ 53) : fl64 (n / 2) = n / 2 :=
  fl64_of_isDouble ⟨n, -1, h, by norm_num, by rw [zpow_neg_one]; rfl⟩

/-- the error is within half of the distance between two consecutive doubles -/
theorem fl64_error (x : ℚ) : |fl64 x - x| ≤ ulp64 x / 2 := by
  by_cases h : x = 0
  · subst h; rw [fl64_zero, sub_self, abs_zero]; exact div_nonneg (ulp64_pos 0).le (by norm_num)
  · have h1 := roundf_near (x / 2 ^ last64 x)
    have h2 : fl64 x - x = ((pyRound (x / 2 ^ last64 x) : ℚ) - x / 2 ^ last64 x) * 2 ^ last64 x := by
      rw [fl64_of h, sub_mul, div_mul_cancel₀ _ (pow2_pos _).ne']
    rw [h2, abs_mul, abs_of_pos (pow2_pos _), ulp64_eq]
    have := mul_le_mul_of_nonneg_right h1 (pow2_pos (last64 x)).le
    linarith

/-- relative error of the numbers which are not too small -/
theorem fl64_relative {x : ℚ} (h : (2 : ℚ) ^ (-1022 : ℤ) ≤ |x|) : |fl64 x - x| ≤ |x| / 2 ^ 53 := by
  have hx : 0 < |x| := (pow2_pos _).trans_le h
  have h1 := fl64_error x
  have he : -1022 ≤ expo |x| := by
    have := pow2_lt (lt_of_le_of_lt h (expo_spec hx).2)
    omega
  have hq : last64 x = expo |x| + (-52) := by unfold last64; omega
  rw [ulp64_eq, hq, pow2_add] at h1
  have h2 := (expo_spec hx).1
  have h3 : (2 : ℚ) ^ (-52 : ℤ) = 1 / 2 ^ 52 := by norm_num
  rw [h3] at h1
  calc |fl64 x - x| ≤ _ := h1
    _ ≤ |x| * (1 / 2 ^ 52) / 2 := by gcongr
    _ = |x| / 2 ^ 53 := by ring

theorem isDouble_mult {x : ℚ} (h : IsDouble x) : ∃ n : ℤ, x = n * 2 ^ (-1074 : ℤ) := by
  obtain ⟨m, e, _, he, rfl⟩ := h
  obtain ⟨n, hn⟩ := pow2_int (k := e - (-1074)) (by omega)
  refine ⟨m * n, ?_⟩
  push_cast
  rw [← hn, mul_assoc, ← pow2_add, sub_add_cancel]

/-- sums and differences of doubles have a relative error of at most 2 ^ -53, however small they are -/
theorem fl64_sum {a b : ℚ} (ha : fl64 a = a) (hb : fl64 b = b) : |fl64 (a + b) - (a + b)| ≤ |a + b| / 2 ^ 53 := by
  obtain ⟨n, hn⟩ := isDouble_mult (fl64_eq_iff.1 ha)
  obtain ⟨m, hm⟩ := isDouble_mult (fl64_eq_iff.1 hb)
  rcases le_or_gt ((2 : ℚ) ^ (-1022 : ℤ)) |a + b| with h | h
  · exact fl64_relative h
  · have he : fl64 (a + b) = a + b := by
      by_cases h0 : a + b = 0
      · rw [h0, fl64_zero]
      · refine fl64_mult (m := n + m) (e := -1074) (by push_cast; rw [hn, hm]; ring) ?_
        have := pow2_lt (lt_of_le_of_lt (expo_spec (abs_pos.2 h0)).1 h)
        unfold last64
        omega
    rw [he, sub_self, abs_zero]
    positivity

/-- the difference of two distinct doubles is not rounded to zero -/
theorem fl64_sub_ne {a b : ℚ} (ha : fl64 a = a) (hb : fl64 b = b) (h : a ≠ b) : fl64 (a - b) ≠ 0 := by
  intro h0
  have h1 := fl64_sum ha (b := -b) (by rw [fl64_neg, hb])
  rw [← sub_eq_add_neg, h0, zero_sub, abs_neg] at h1
  have : 0 < |a - b| := abs_pos.2 (sub_ne_zero.2 h)
  have h2 : |a - b| / 2 ^ 53 < |a - b| := div_lt_self this (by norm_num)
  linarith

end Timeseria
