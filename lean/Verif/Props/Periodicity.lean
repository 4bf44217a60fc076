import Verif.Model.Periodicity
import Verif.Props.Models
import Verif.Props.Sampling
import Verif.Props.Anomaly
import Verif.Props.Evaluate
import Mathlib.Analysis.SpecialFunctions.Trigonometric.Basic
import Mathlib.Analysis.SpecialFunctions.Complex.Circle
import Mathlib.Algebra.Field.GeomSum

/-! # Detecting the periodicity (C217-C221) -/

namespace Timeseria

/-! ## Specification -/

/-- What is assumed of `scipy.signal.find_peaks`: increasing positions; a peak has lower values on both sides; a value larger than
both its neighbours is a peak. -/
structure FindsPeaks {K : Type} [LinearOrder K] (pk : List K → List ℕ) : Prop where
  increasing : ∀ l, (pk l).Pairwise (· < ·)
  inner : ∀ l i, i ∈ pk l → ∃ (a b : ℕ) (x y z : K), a < i ∧ i < b ∧ l[a]? = some x ∧ l[i]? = some y ∧ l[b]? = some z ∧ x < y ∧ z < y
  strict : ∀ (l : List K) (i : ℕ) (x y z : K), l[i]? = some x → l[i + 1]? = some y → l[i + 2]? = some z → x < y → z < y → i + 1 ∈ pk l

/-! ## Rounding -/

theorem pyRound_near (x : ℚ) : |(pyRound x : ℚ) - x| ≤ 1 / 2 := by
  have h1 := Int.floor_le x
  have h2 := Int.lt_floor_add_one x
  unfold pyRound
  dsimp only
  rw [abs_le]
  split
  · rename_i h; constructor <;> linarith
  · rename_i h
    split
    · rename_i h'; push_cast; constructor <;> linarith
    · rename_i h'
      have : x - ⌊x⌋ = 1 / 2 := le_antisymm (not_lt.1 h') (not_lt.1 h)
      split
      · constructor <;> linarith
      · push_cast; constructor <;> linarith

theorem pyRound_le {x : ℚ} {n : ℤ} (h : x ≤ n) : pyRound x ≤ n := by
  by_contra hc
  have h1 : n + 1 ≤ pyRound x := by omega
  have h2 := (abs_le.1 (pyRound_near x)).2
  have h3 : ((n + 1 : ℤ) : ℚ) ≤ pyRound x := by exact_mod_cast h1
  push_cast at h3
  linarith

theorem le_pyRound {x : ℚ} {n : ℤ} (h : (n : ℚ) ≤ x) : n ≤ pyRound x := by
  by_contra hc
  have h1 : pyRound x + 1 ≤ n := by omega
  have h2 := (abs_le.1 (pyRound_near x)).1
  have h3 : ((pyRound x + 1 : ℤ) : ℚ) ≤ n := by exact_mod_cast h1
  push_cast at h3
  linarith

theorem middlePoint_even (k : ℕ) : middlePoint (2 * k) = k := by
  unfold middlePoint
  have : ((2 * k : ℕ) : ℚ) / 2 = ((k : ℤ) : ℚ) := by push_cast; ring
  rw [this, pyRound_int]; simp

theorem middlePoint_bounds (n : ℕ) : 2 * middlePoint n ≤ n + 1 ∧ n ≤ 2 * middlePoint n + 1 := by
  have h := abs_le.1 (pyRound_near ((n : ℚ) / 2))
  have h0 : (0 : ℤ) ≤ pyRound ((n : ℚ) / 2) := le_pyRound (by push_cast; positivity)
  have hc : ((middlePoint n : ℕ) : ℤ) = pyRound ((n : ℚ) / 2) := Int.toNat_of_nonneg h0
  have hq : ((middlePoint n : ℕ) : ℚ) = (pyRound ((n : ℚ) / 2) : ℚ) := by exact_mod_cast congrArg (fun z : ℤ => (z : ℚ)) hc
  rw [← hq] at h
  constructor
  · have : (2 * (middlePoint n : ℚ)) ≤ n + 1 := by linarith [h.2]
    exact_mod_cast this
  · have : (n : ℚ) ≤ 2 * (middlePoint n : ℚ) + 1 := by linarith [h.1]
    exact_mod_cast this

/-! ## The choice of the peak -/

section
variable {K : Type} [Field K] [LinearOrder K]

theorem mem_sortPeaks {l : List (Peak K)} {p : Peak K} : p ∈ sortPeaks l ↔ p ∈ l := by
  unfold sortPeaks
  rw [List.mem_reverse]
  exact (List.perm_insertionSort _ l).mem_iff

theorem sortPeaks_sorted (l : List (Peak K)) : (sortPeaks l).Pairwise (fun a b => b.height ≤ a.height) := by
  unfold sortPeaks
  rw [List.pairwise_reverse]
  have : Std.Total (fun a b : Peak K => a.height ≤ b.height) := ⟨fun a b => le_total _ _⟩
  have : IsTrans (Peak K) (fun a b => a.height ≤ b.height) := ⟨fun a b c h h' => le_trans h h'⟩
  exact List.pairwise_insertionSort _ l

/-- the peak selected, and why those before it were not -/
theorem selectPeak_some {n : ℕ} : ∀ {l : List (Peak K)} {p : Peak K}, selectPeak n l = some p →
    ∃ l1 l2, l = l1 ++ p :: l2 ∧ ∀ q ∈ l1, q.period > (n : ℚ) / 10 ∧ ∃ s ∈ l, q.period > s.period * 10
  | [], p, h => by simp [selectPeak] at h
  | [q], p, h => by
    simp [selectPeak] at h
    subst h
    exact ⟨[], [], rfl, by simp⟩
  | [q, s], p, h => by
    simp [selectPeak] at h
    subst h
    exact ⟨[], [s], rfl, by simp⟩
  | q :: s :: u :: l, p, h => by
    rw [selectPeak] at h
    by_cases hd : discarded n q s u = true
    · rw [if_pos hd] at h
      obtain ⟨l1, l2, e, h1⟩ := selectPeak_some h
      refine ⟨q :: l1, l2, by rw [e]; rfl, ?_⟩
      intro r hr
      rcases List.mem_cons.1 hr with rfl | hr
      · simp [discarded] at hd
        exact ⟨hd.2, s, by simp, hd.1.2⟩
      · obtain ⟨a, s', hs', b⟩ := h1 r hr
        exact ⟨a, s', by simp at hs' ⊢; tauto, b⟩
    · rw [if_neg hd] at h
      cases h
      exact ⟨[], s :: u :: l, rfl, by simp⟩

theorem selectPeak_isSome {n : ℕ} : ∀ {l : List (Peak K)}, l ≠ [] → ∃ p, selectPeak n l = some p
  | [], h => absurd rfl h
  | [q], _ => ⟨q, rfl⟩
  | [q, s], _ => ⟨q, rfl⟩
  | q :: s :: u :: l, _ => by
    rw [selectPeak]
    by_cases hd : discarded n q s u = true
    · rw [if_pos hd]; exact selectPeak_isSome (by simp)
    · rw [if_neg hd]; exact ⟨q, rfl⟩

variable {α : Type}

/-- half of the spectrum -/
def halfSpectrum (S : Signal α K) (y : List α) : List K := (S.spectrum y).take (middlePoint (S.spectrum y).length)

theorem mkPeak_inv {n : ℕ} {yf : List K} {i : ℕ} {p : Peak K} (h : mkPeak n yf i = .ok p) :
    p.idx = i ∧ i ≠ 0 ∧ yf[i]? = some p.height ∧ p.period = (n : ℚ) / i := by
  unfold mkPeak at h
  cases h1 : yf[i]? with
  | none => rw [h1] at h; cases h
  | some v =>
    rw [h1] at h
    dsimp only at h
    by_cases h2 : i = 0
    · rw [if_pos h2] at h; cases h
    · rw [if_neg h2] at h
      cases h
      exact ⟨rfl, h2, rfl, rfl⟩

theorem mkPeaks_total [IsStrictOrderedRing K] {pk : List K → List ℕ} (hpk : FindsPeaks pk) (n : ℕ) (yf : List K) :
    ∃ l, mapE (mkPeak n yf) (pk yf) = .ok l := by
  apply mapE_total
  intro i hi
  obtain ⟨a, b, x, y, z, h1, h2, h3, h4, h5, _, _⟩ := hpk.inner yf i hi
  refine ⟨⟨i, y, (n : ℚ) / i⟩, ?_⟩
  unfold mkPeak
  rw [h4]
  dsimp only
  rw [if_neg (by omega)]

theorem periodOf_spec [IsStrictOrderedRing K] {S : Signal α K} {y : List α} (hpk : FindsPeaks S.findPeaks) :
    ∃ l, mapE (mkPeak y.length (halfSpectrum S y)) (S.findPeaks (halfSpectrum S y)) = .ok l ∧
      periodOf S y = match selectPeak y.length (sortPeaks l) with
        | none => .error .valueError
        | some p => .ok (pyRound p.period) := by
  obtain ⟨l, hl⟩ := mkPeaks_total hpk y.length (halfSpectrum S y)
  refine ⟨l, hl, ?_⟩
  unfold periodOf
  dsimp only
  unfold halfSpectrum at hl
  rw [hl]
  rfl

omit [Field K] [LinearOrder K] in
theorem mapE_each_mem {β γ : Type} {f : β → Except PyErr γ} {l : List β} {r : List γ} (h : mapE f l = .ok r) :
    ∀ x ∈ l, ∃ y ∈ r, f x = .ok y := by
  have hf := mapE_ok_inv h
  clear h
  induction hf with
  | nil => simp
  | cons h1 _ ih =>
    intro x hx
    rcases List.mem_cons.1 hx with rfl | hx
    · exact ⟨_, by simp, h1⟩
    · obtain ⟨y, hy, h2⟩ := ih x hx
      exact ⟨y, by simp [hy], h2⟩

/-- **C218** A periodicity is detected exactly when the half spectrum has a peak. -/
theorem C218_detected_iff [IsStrictOrderedRing K] {S : Signal α K} {y : List α} (hpk : FindsPeaks S.findPeaks) :
    ((∃ k, periodOf S y = .ok k) ↔ S.findPeaks (halfSpectrum S y) ≠ []) ∧
    (S.findPeaks (halfSpectrum S y) = [] → periodOf S y = .error .valueError) := by
  obtain ⟨l, hl, he⟩ := periodOf_spec (S := S) (y := y) hpk
  have hlen : l = [] ↔ S.findPeaks (halfSpectrum S y) = [] := by
    have := (mapE_ok_inv hl).length_eq
    rw [← List.length_eq_zero_iff, ← List.length_eq_zero_iff, this]
  have hnil : l = [] → periodOf S y = .error .valueError := by
    intro h
    rw [he, h]; rfl
  constructor
  · constructor
    · rintro ⟨k, hk⟩ h
      rw [hnil (hlen.2 h)] at hk
      cases hk
    · intro h
      have : sortPeaks l ≠ [] := by
        intro h'
        apply h
        rw [← hlen]
        apply List.eq_nil_iff_forall_not_mem.2
        intro p hp
        have := mem_sortPeaks.2 hp
        rw [h'] at this
        simp at this
      obtain ⟨p, hp⟩ := selectPeak_isSome (n := y.length) this
      rw [hp] at he
      exact ⟨_, he⟩
  · intro h; exact hnil (hlen.2 h)

/-- **C218** The periodicity detected is that of a peak of the half spectrum, the length of the series divided by its index, rounded;
every stronger peak has a period longer than a tenth of the series and more than ten times that of another peak. -/
theorem C218_choice [IsStrictOrderedRing K] {S : Signal α K} {y : List α} {k : ℤ} (hpk : FindsPeaks S.findPeaks)
    (h : periodOf S y = .ok k) :
    ∃ i ∈ S.findPeaks (halfSpectrum S y), k = pyRound ((y.length : ℚ) / i) ∧
      ∀ j ∈ S.findPeaks (halfSpectrum S y), ∀ a b, (halfSpectrum S y)[i]? = some a → (halfSpectrum S y)[j]? = some b → a < b →
        (y.length : ℚ) / 10 < (y.length : ℚ) / j ∧
        ∃ j' ∈ S.findPeaks (halfSpectrum S y), (y.length : ℚ) / j' * 10 < (y.length : ℚ) / j := by
  obtain ⟨l, hl, he⟩ := periodOf_spec (S := S) (y := y) hpk
  rw [h] at he
  cases hs : selectPeak y.length (sortPeaks l) with
  | none => rw [hs] at he; cases he
  | some p =>
    rw [hs] at he
    cases he
    obtain ⟨l1, l2, e1, e2⟩ := selectPeak_some hs
    have hmem : ∀ q, q ∈ sortPeaks l → q.idx ∈ S.findPeaks (halfSpectrum S y) ∧ (halfSpectrum S y)[q.idx]? = some q.height ∧
        q.period = (y.length : ℚ) / q.idx := by
      intro q hq
      obtain ⟨i, hi, hiq⟩ := mapE_mem hl q (mem_sortPeaks.1 hq)
      obtain ⟨f1, _, f3, f4⟩ := mkPeak_inv hiq
      rw [f1]
      exact ⟨hi, f3, f4⟩
    have hp : p ∈ sortPeaks l := by rw [e1]; simp
    obtain ⟨g1, g2, g3⟩ := hmem p hp
    refine ⟨p.idx, g1, by rw [g3], ?_⟩
    intro j hj a b ha hb hab
    obtain ⟨q, hql, hq⟩ := mapE_each_mem hl j hj
    obtain ⟨f1, _, f3, f4⟩ := mkPeak_inv hq
    have hq' : q ∈ sortPeaks l := mem_sortPeaks.2 hql
    have hlt : p.height < q.height := by
      rw [ha] at g2; cases g2
      rw [hb] at f3; cases f3
      exact hab
    have hsorted := sortPeaks_sorted l
    rw [e1] at hsorted hq'
    have hq1 : q ∈ l1 := by
      rcases List.mem_append.1 hq' with h1 | h1
      · exact h1
      · exfalso
        rcases List.mem_cons.1 h1 with rfl | h1
        · exact absurd hlt (lt_irrefl _)
        · have := (List.pairwise_cons.1 (List.pairwise_append.1 hsorted).2.1).1 q h1
          exact absurd hlt (not_lt.2 this)
    obtain ⟨u1, s, hs', u2⟩ := e2 q hq1
    obtain ⟨v1, v2, v3⟩ := hmem s hs'
    rw [f4] at u1 u2
    rw [v3] at u2
    exact ⟨u1, s.idx, v1, u2⟩

theorem peak_bounds [IsStrictOrderedRing K] {S : Signal α K} {y : List α} (hpk : FindsPeaks S.findPeaks)
    (hlen : (S.spectrum y).length = y.length) {i : ℕ} (hi : i ∈ S.findPeaks (halfSpectrum S y)) : 0 < i ∧ 2 * i + 3 ≤ y.length := by
  obtain ⟨a, b, x, w, z, h1, h2, h3, h4, h5, _, _⟩ := hpk.inner _ _ hi
  have hb := (List.getElem?_eq_some_iff.1 h5).1
  unfold halfSpectrum at hb
  rw [List.length_take, hlen] at hb
  have := (middlePoint_bounds y.length).1
  omega

/-- **C217** The periodicity detected is at least two items and at most the length of the series. -/
theorem C217_bounds [IsStrictOrderedRing K] {S : Signal α K} {y : List α} {k : ℤ} (hpk : FindsPeaks S.findPeaks)
    (hlen : (S.spectrum y).length = y.length) (h : periodOf S y = .ok k) : 2 ≤ k ∧ k ≤ y.length := by
  obtain ⟨i, hi, rfl, _⟩ := C218_choice hpk h
  obtain ⟨h1, h2⟩ := peak_bounds hpk hlen hi
  have h1' : (0 : ℚ) < i := by exact_mod_cast h1
  have h1'' : (1 : ℚ) ≤ i := by exact_mod_cast h1
  have h2' : (2 * i + 3 : ℚ) ≤ y.length := by exact_mod_cast h2
  constructor
  · apply le_pyRound
    rw [le_div_iff₀ h1']
    push_cast
    linarith
  · apply pyRound_le
    rw [div_le_iff₀ h1']
    push_cast
    nlinarith

/-- **C219** A peak at least a third stronger than every other peak decides: the periodicity is the length of the series divided by
its index, rounded. -/
theorem C219_dominant [IsStrictOrderedRing K] {S : Signal α K} {y : List α} (hpk : FindsPeaks S.findPeaks)
    (hpos : ∀ v ∈ S.spectrum y, 0 ≤ v) {i : ℕ} {a : K} (hi : i ∈ S.findPeaks (halfSpectrum S y)) (ha : (halfSpectrum S y)[i]? = some a)
    (hdom : ∀ j ∈ S.findPeaks (halfSpectrum S y), j ≠ i → ∀ b, (halfSpectrum S y)[j]? = some b → 4 * b ≤ 3 * a) :
    periodOf S y = .ok (pyRound ((y.length : ℚ) / i)) := by
  obtain ⟨l, hl, he⟩ := periodOf_spec (S := S) (y := y) hpk
  have hpos' : ∀ j b, (halfSpectrum S y)[(j : ℕ)]? = some b → 0 ≤ b := by
    intro j b hb
    exact hpos b (List.mem_of_mem_take (List.mem_of_getElem? hb))
  have ha0 : 0 < a := by
    obtain ⟨c, b, x, w, z, h1, h2, h3, h4, h5, h6, _⟩ := hpk.inner _ _ hi
    rw [ha] at h4; cases h4
    exact lt_of_le_of_lt (hpos' _ _ h3) h6
  have hmem : ∀ q, q ∈ sortPeaks l → q.idx ∈ S.findPeaks (halfSpectrum S y) ∧ (halfSpectrum S y)[q.idx]? = some q.height ∧
      q.period = (y.length : ℚ) / q.idx := by
    intro q hq
    obtain ⟨i, hi, hiq⟩ := mapE_mem hl q (mem_sortPeaks.1 hq)
    obtain ⟨f1, _, f3, f4⟩ := mkPeak_inv hiq
    rw [f1]
    exact ⟨hi, f3, f4⟩
  have hidx : l.map Peak.idx = S.findPeaks (halfSpectrum S y) := by
    have := mapE_ok_inv hl
    clear hl he hmem hdom hi
    generalize S.findPeaks (halfSpectrum S y) = pl at this ⊢
    induction this with
    | nil => rfl
    | @cons x z xs zs hx _ ih => rw [List.map_cons, (mkPeak_inv hx).1, ih]
  have hnd : ((sortPeaks l).map Peak.idx).Nodup := by
    have h1 : (l.map Peak.idx).Nodup := by rw [hidx]; exact (hpk.increasing _).imp (fun h => ne_of_lt h)
    have h2 : (sortPeaks l).Perm l := (List.reverse_perm _).trans (List.perm_insertionSort _ l)
    exact (h2.map _).nodup_iff.2 h1
  obtain ⟨q, hql, hq⟩ := mapE_each_mem hl i hi
  obtain ⟨f1, _, f3, f4⟩ := mkPeak_inv hq
  rw [ha] at f3
  cases f3
  have hq' := mem_sortPeaks.2 hql
  have hsorted := sortPeaks_sorted l
  cases hs : sortPeaks l with
  | nil => rw [hs] at hq'; simp at hq'
  | cons p r =>
    rw [hs] at hq' hsorted hnd he
    have hp := hmem p (by rw [hs]; simp)
    have hpi : p.idx = i := by
      by_contra hne
      have h1 := hdom p.idx hp.1 hne p.height hp.2.1
      rcases List.mem_cons.1 hq' with h2 | h2
      · exact hne (by rw [← h2]; exact f1)
      · have h3 := (List.pairwise_cons.1 hsorted).1 q h2
        linarith
    have hph : p.height = q.height := by
      have := hp.2.1
      rw [hpi, ha] at this
      exact (Option.some.inj this).symm
    have hsel : selectPeak y.length (p :: r) = some p := by
      cases r with
      | nil => rfl
      | cons u r =>
        cases r with
        | nil => rfl
        | cons w r =>
          rw [selectPeak]
          have hu := hmem u (by rw [hs]; simp)
          have hw := hmem w (by rw [hs]; simp)
          have hui : u.idx ≠ i := by
            intro e
            have h1 := (List.nodup_cons.1 hnd).1
            apply h1
            rw [hpi]
            simp [e]
          have h1 := hdom u.idx hu.1 hui u.height hu.2.1
          have h2 := hpos' _ _ hw.2.1
          have h3 : ¬ (discarded y.length p u w = true) := by
            intro hd
            simp [discarded] at hd
            have := hd.1.1
            rw [hph] at this
            linarith
          rw [if_neg h3]
    rw [hsel] at he
    rw [he]
    show Except.ok (pyRound p.period) = _
    rw [hp.2.2, hpi]

end

/-! ## Sinusoids -/

/-- the absolute values of the discrete Fourier transform of real values -/
noncomputable def dftAbs (y : List ℝ) : List ℝ :=
  (List.range y.length).map (fun k : ℕ => ‖∑ t ∈ Finset.range y.length,
    (y.getD t 0 : ℂ) * Complex.exp (-(2 * Real.pi * k * t / y.length : ℝ) * Complex.I)‖)

/-- `n` values of a sinusoid that makes `j` oscillations over them, with amplitude `A`, phase `φ` and mean `c` -/
noncomputable def sinusoid (n j : ℕ) (A φ c : ℝ) : List ℝ :=
  (List.range n).map (fun t : ℕ => c + A * Real.cos (2 * Real.pi * j * t / n + φ))

/-- a sum of powers of a root of unity -/
theorem root_sum {n : ℕ} (hn : 0 < n) (m : ℤ) :
    ∑ t ∈ Finset.range n, Complex.exp ((2 * Real.pi * m * t / n : ℝ) * Complex.I) = if (n : ℤ) ∣ m then (n : ℂ) else 0 := by
  have hn0 : (n : ℂ) ≠ 0 := by exact_mod_cast hn.ne'
  have hpow : ∀ t : ℕ, Complex.exp ((2 * Real.pi * m * t / n : ℝ) * Complex.I) =
      Complex.exp ((2 * Real.pi * m / n : ℝ) * Complex.I) ^ t := by
    intro t
    rw [← Complex.exp_nat_mul]
    congr 1
    push_cast
    ring
  simp only [hpow]
  generalize hz : Complex.exp ((2 * Real.pi * m / n : ℝ) * Complex.I) = z
  have hzn : z ^ n = 1 := by
    rw [← hz, ← Complex.exp_nat_mul, Complex.exp_eq_one_iff]
    exact ⟨m, by push_cast; field_simp⟩
  have hz1 : z = 1 ↔ (n : ℤ) ∣ m := by
    rw [← hz, Complex.exp_eq_one_iff]
    constructor
    · rintro ⟨k, hk⟩
      refine ⟨k, ?_⟩
      have h2 : (2 * Real.pi * Complex.I : ℂ) ≠ 0 := Complex.two_pi_I_ne_zero
      have h3 : (m : ℂ) = n * k := by
        have : (2 * Real.pi * Complex.I : ℂ) * (m / n) = (2 * Real.pi * Complex.I) * k := by
          push_cast at hk
          linear_combination hk
        have := mul_left_cancel₀ h2 this
        field_simp at this
        linear_combination this
      exact_mod_cast h3
    · rintro ⟨k, rfl⟩
      refine ⟨k, ?_⟩
      push_cast
      field_simp
  by_cases h : (n : ℤ) ∣ m
  · rw [if_pos h, hz1.2 h]
    simp
  · rw [if_neg h]
    have : z ≠ 1 := fun e => h (hz1.1 e)
    rw [geom_sum_eq this, hzn]
    simp

/-- the transform of a sinusoid -/
theorem dft_sinusoid {n j : ℕ} (hn : 0 < n) (A φ c : ℝ) (k : ℕ) :
    ∑ t ∈ Finset.range n, ((c + A * Real.cos (2 * Real.pi * j * t / n + φ) : ℝ) : ℂ) *
      Complex.exp (-(2 * Real.pi * k * t / n : ℝ) * Complex.I) =
    c * (if (n : ℤ) ∣ (-k : ℤ) then (n : ℂ) else 0) +
    A / 2 * Complex.exp (φ * Complex.I) * (if (n : ℤ) ∣ ((j : ℤ) - k) then (n : ℂ) else 0) +
    A / 2 * Complex.exp (-φ * Complex.I) * (if (n : ℤ) ∣ (-(j : ℤ) - k) then (n : ℂ) else 0) := by
  rw [← root_sum hn, ← root_sum hn, ← root_sum hn, Finset.mul_sum, Finset.mul_sum, Finset.mul_sum, ← Finset.sum_add_distrib,
    ← Finset.sum_add_distrib]
  apply Finset.sum_congr rfl
  intro t _
  have hcos : ((Real.cos (2 * Real.pi * j * t / n + φ) : ℝ) : ℂ) =
      (Complex.exp ((2 * Real.pi * j * t / n + φ : ℝ) * Complex.I) + Complex.exp (-(2 * Real.pi * j * t / n + φ : ℝ) * Complex.I)) / 2 := by
    rw [Complex.ofReal_cos]; rfl
  rw [Complex.ofReal_add, Complex.ofReal_mul, hcos]
  have e1 : Complex.exp ((2 * Real.pi * ((-k : ℤ) : ℝ) * t / n : ℝ) * Complex.I) = Complex.exp (-(2 * Real.pi * k * t / n : ℝ) * Complex.I) := by
    congr 1; push_cast; ring
  have e2 : Complex.exp (φ * Complex.I) * Complex.exp ((2 * Real.pi * (((j : ℤ) - k : ℤ) : ℝ) * t / n : ℝ) * Complex.I) =
      Complex.exp ((2 * Real.pi * j * t / n + φ : ℝ) * Complex.I) * Complex.exp (-(2 * Real.pi * k * t / n : ℝ) * Complex.I) := by
    rw [← Complex.exp_add, ← Complex.exp_add]; congr 1; push_cast; ring
  have e3 : Complex.exp (-φ * Complex.I) * Complex.exp ((2 * Real.pi * ((-(j : ℤ) - k : ℤ) : ℝ) * t / n : ℝ) * Complex.I) =
      Complex.exp (-(2 * Real.pi * j * t / n + φ : ℝ) * Complex.I) * Complex.exp (-(2 * Real.pi * k * t / n : ℝ) * Complex.I) := by
    rw [← Complex.exp_add, ← Complex.exp_add]; congr 1; push_cast; ring
  rw [e1, mul_assoc (A / 2 : ℂ), e2, mul_assoc (A / 2 : ℂ), e3]
  ring

theorem sinusoid_length (n j : ℕ) (A φ c : ℝ) : (sinusoid n j A φ c).length = n := by simp [sinusoid]
theorem dftAbs_length (y : List ℝ) : (dftAbs y).length = y.length := by simp [dftAbs]

/-- the spectrum of a sinusoid below the middle: zero but in the first place and in place `j` -/
theorem spectrum_sinusoid {n j k : ℕ} (A φ c : ℝ) (hj : 0 < j) (hj2 : 2 * j ≤ n) (hk : 0 < k) (hk2 : 2 * k < n) :
    (dftAbs (sinusoid n j A φ c))[k]? = some (if k = j then |A| * n / 2 else 0) := by
  have hn : 0 < n := by omega
  unfold dftAbs
  rw [List.getElem?_map, List.getElem?_range (by rw [sinusoid_length]; omega), Option.map_some, sinusoid_length]
  congr 1
  have hsum : ∑ t ∈ Finset.range n, (((sinusoid n j A φ c).getD t 0 : ℝ) : ℂ) * Complex.exp (-(2 * Real.pi * k * t / n : ℝ) * Complex.I) =
      ∑ t ∈ Finset.range n, ((c + A * Real.cos (2 * Real.pi * j * t / n + φ) : ℝ) : ℂ) *
        Complex.exp (-(2 * Real.pi * k * t / n : ℝ) * Complex.I) := by
    apply Finset.sum_congr rfl
    intro t ht
    have ht' : t < n := Finset.mem_range.1 ht
    congr 2
    unfold sinusoid
    rw [List.getD_eq_getElem?_getD, List.getElem?_map, List.getElem?_range ht']
    rfl
  rw [hsum, dft_sinusoid hn]
  have d1 : ¬ (n : ℤ) ∣ (-k : ℤ) := by
    rintro ⟨q, hq⟩
    have : q < 0 := by nlinarith
    nlinarith
  have d3 : ¬ (n : ℤ) ∣ (-(j : ℤ) - k) := by
    rintro ⟨q, hq⟩
    have : q < 0 := by
      by_contra hc
      have : 0 ≤ (n : ℤ) * q := mul_nonneg (by omega) (by omega)
      omega
    have : (n : ℤ) * q ≤ -n := by nlinarith
    omega
  rw [if_neg d1, if_neg d3]
  by_cases hkj : k = j
  · subst hkj
    rw [if_pos (by simp), if_pos rfl]
    simp only [mul_zero, zero_add, add_zero]
    rw [norm_mul, norm_mul, Complex.norm_exp_ofReal_mul_I]
    simp
    ring
  · have d2 : ¬ (n : ℤ) ∣ ((j : ℤ) - k) := by
      rintro ⟨q, hq⟩
      have hq0 : q ≠ 0 := by
        rintro rfl
        omega
      rcases lt_or_gt_of_ne hq0 with h | h
      · have : (n : ℤ) * q ≤ -n := by nlinarith
        omega
      · have : (n : ℤ) ≤ n * q := by nlinarith
        omega
    rw [if_neg d2, if_neg hkj]
    simp

theorem spectrum_zero {n j : ℕ} (A φ c : ℝ) (hj : 0 < j) (hjn : j < n) :
    (dftAbs (sinusoid n j A φ c))[0]? = some (|c| * n) := by
  have hn : 0 < n := by omega
  unfold dftAbs
  rw [List.getElem?_map, List.getElem?_range (by rw [sinusoid_length]; omega), Option.map_some, sinusoid_length]
  congr 1
  have hsum : ∑ t ∈ Finset.range n, (((sinusoid n j A φ c).getD t 0 : ℝ) : ℂ) * Complex.exp (-(2 * Real.pi * (0 : ℕ) * t / n : ℝ) * Complex.I) =
      ∑ t ∈ Finset.range n, ((c + A * Real.cos (2 * Real.pi * j * t / n + φ) : ℝ) : ℂ) *
        Complex.exp (-(2 * Real.pi * (0 : ℕ) * t / n : ℝ) * Complex.I) := by
    apply Finset.sum_congr rfl
    intro t ht
    have ht' : t < n := Finset.mem_range.1 ht
    congr 2
    unfold sinusoid
    rw [List.getD_eq_getElem?_getD, List.getElem?_map, List.getElem?_range ht']
    rfl
  rw [hsum, dft_sinusoid hn]
  have d2 : ¬ (n : ℤ) ∣ ((j : ℤ) - (0 : ℕ)) := by
    intro h
    have := Int.le_of_dvd (by simpa using hj) h
    simp at this
    omega
  have d3 : ¬ (n : ℤ) ∣ (-(j : ℤ) - (0 : ℕ)) := by
    intro h
    have h' : (n : ℤ) ∣ j := by
      have := (Int.dvd_neg).2 h
      simpa using this
    have := Int.le_of_dvd (by simpa using hj) h'
    omega
  rw [if_pos (by simp), if_neg d2, if_neg d3]
  simp

/-- the transform and a function finding peaks -/
noncomputable def fourier (pk : List ℝ → List ℕ) : Signal ℝ ℝ := ⟨dftAbs, pk⟩

theorem half_get {pk : List ℝ → List ℕ} {y : List ℝ} {k : ℕ} :
    (halfSpectrum (fourier pk) y)[k]? = if k < middlePoint y.length then (dftAbs y)[k]? else none := by
  show ((dftAbs y).take (middlePoint (dftAbs y).length))[k]? = _
  rw [List.getElem?_take, dftAbs_length]

theorem dftAbs_nonneg (y : List ℝ) : ∀ v ∈ dftAbs y, 0 ≤ v := by
  intro v hv
  unfold dftAbs at hv
  obtain ⟨k, _, rfl⟩ := List.mem_map.1 hv
  exact norm_nonneg _

/-- a peak of the half spectrum of a sinusoid can only be in the place of its frequency -/
theorem sinusoid_peak {pk : List ℝ → List ℕ} (hpk : FindsPeaks pk) {n j i : ℕ} {A φ c : ℝ} (hj : 0 < j) (hj2 : 2 * j ≤ n)
    (hi : i ∈ pk (halfSpectrum (fourier pk) (sinusoid n j A φ c))) : i = j ∧ 2 * j + 3 ≤ n ∧ j + 1 < middlePoint n := by
  obtain ⟨a, b, x, w, z, h1, h2, h3, h4, h5, h6, h7⟩ := hpk.inner _ _ hi
  rw [half_get, sinusoid_length] at h3 h4 h5
  have hb : b < middlePoint n := by
    by_contra hc
    rw [if_neg hc] at h5; cases h5
  have hm := (middlePoint_bounds n).1
  rw [if_pos (by omega)] at h3 h4 h5
  have e4 := spectrum_sinusoid A φ c hj hj2 (show 0 < i by omega) (show 2 * i < n by omega)
  have e5 := spectrum_sinusoid A φ c hj hj2 (show 0 < b by omega) (show 2 * b < n by omega)
  rw [h4] at e4
  rw [h5] at e5
  have hz : 0 ≤ z := dftAbs_nonneg _ _ (List.mem_of_getElem? h5)
  have hij : i = j := by
    by_contra hne
    rw [if_neg hne] at e4
    have := Option.some.inj e4
    linarith
  exact ⟨hij, by omega, by omega⟩

/-- **C220**, partial: the period of every sinusoid that oscillates at least twice, and whose period is not too close to two items, is
detected, whatever its amplitude, phase and mean: it is the length divided by the number of oscillations, rounded. -/
theorem C220_sinusoid_partial {pk : List ℝ → List ℕ} (hpk : FindsPeaks pk) {n j : ℕ} {A φ c : ℝ} (hA : A ≠ 0) (hj : 2 ≤ j)
    (hjm : j + 1 < middlePoint n) :
    periodOf (fourier pk) (sinusoid n j A φ c) = .ok (pyRound ((n : ℚ) / j)) := by
  have hm := (middlePoint_bounds n).1
  have hn : 0 < n := by omega
  have hget : ∀ k, 0 < k → k < middlePoint n → (halfSpectrum (fourier pk) (sinusoid n j A φ c))[k]? =
      some (if k = j then |A| * n / 2 else 0) := by
    intro k hk hk2
    rw [half_get, sinusoid_length, if_pos hk2]
    exact spectrum_sinusoid A φ c (by omega) (by omega) hk (by omega)
  have hA' : 0 < |A| * n / 2 := by
    have h1 : 0 < |A| := abs_pos.2 hA
    have h2 : (0 : ℝ) < n := by exact_mod_cast hn
    positivity
  have hmem : j ∈ pk (halfSpectrum (fourier pk) (sinusoid n j A φ c)) := by
    obtain ⟨i, rfl⟩ : ∃ i, j = i + 1 := ⟨j - 1, by omega⟩
    refine hpk.strict _ i 0 (|A| * n / 2) 0 ?_ ?_ ?_ hA' hA'
    · rw [hget i (by omega) (by omega), if_neg (by omega)]
    · rw [hget (i + 1) (by omega) (by omega), if_pos rfl]
    · rw [hget (i + 2) (by omega) (by omega), if_neg (by omega)]
  have := C219_dominant (S := fourier pk) (y := sinusoid n j A φ c) hpk (dftAbs_nonneg _) hmem
    (by rw [hget j (by omega) (by omega), if_pos rfl]) (by
      intro i hi hne
      exact absurd (sinusoid_peak hpk (by omega) (by omega) hi).1 hne)
  rw [sinusoid_length] at this
  exact this

/-- … in particular, if the period divides the length, it is detected exactly -/
theorem C220_exact_partial {pk : List ℝ → List ℕ} (hpk : FindsPeaks pk) {p j : ℕ} {A φ c : ℝ} (hA : A ≠ 0) (hj : 2 ≤ j)
    (hjm : j + 1 < middlePoint (p * j)) :
    periodOf (fourier pk) (sinusoid (p * j) j A φ c) = .ok p := by
  rw [C220_sinusoid_partial hpk hA hj hjm]
  have hj0 : (j : ℚ) ≠ 0 := by exact_mod_cast (by omega : j ≠ 0)
  have : ((p * j : ℕ) : ℚ) / j = ((p : ℤ) : ℚ) := by push_cast; field_simp
  rw [this, pyRound_int]

/-- a week of hourly values with a daily period, and ten periods of five items, meet the hypotheses -/
example : 2 ≤ 7 ∧ 7 + 1 < middlePoint (24 * 7) ∧ 2 ≤ 10 ∧ 10 + 1 < middlePoint (5 * 10) := by decide +kernel

/-- **C220** is false for a period of two items: a series that alternates between two values has no periodicity, whatever its even
length and the two values. -/
theorem C220_two_items_false {pk : List ℝ → List ℕ} (hpk : FindsPeaks pk) {j : ℕ} {A φ c : ℝ} (hj : 0 < j) :
    periodOf (fourier pk) (sinusoid (2 * j) j A φ c) = .error .valueError := by
  refine (C218_detected_iff (S := fourier pk) hpk).2 ?_
  apply List.eq_nil_iff_forall_not_mem.2
  intro i hi
  have := (sinusoid_peak hpk hj (by omega) hi).2.1
  omega

/-- such a series, with no phase, alternates between `c + A` and `c - A` -/
example (j : ℕ) (hj : 0 < j) (A c : ℝ) : ∀ t < 2 * j, (sinusoid (2 * j) j A 0 c)[t]? = some (if t % 2 = 0 then c + A else c - A) := by
  intro t ht
  unfold sinusoid
  rw [List.getElem?_map, List.getElem?_range ht, Option.map_some]
  congr 1
  have h1 : (2 * Real.pi * j * t / ((2 * j : ℕ) : ℝ) + 0) = t * Real.pi := by
    have : (j : ℝ) ≠ 0 := by exact_mod_cast hj.ne'
    push_cast
    field_simp
    ring
  rw [h1]
  rcases Nat.even_or_odd' t with ⟨m, rfl | rfl⟩
  · rw [if_pos (by omega)]
    have : ((2 * m : ℕ) : ℝ) * Real.pi = (m : ℝ) * (2 * Real.pi) := by push_cast; ring
    rw [this, Real.cos_nat_mul_two_pi]; ring
  · rw [if_neg (by omega)]
    have : ((2 * m + 1 : ℕ) : ℝ) * Real.pi = (m : ℝ) * (2 * Real.pi) + Real.pi := by push_cast; ring
    rw [this, Real.cos_nat_mul_two_pi_add_pi]; ring

/-- **C220** is false for a series with a single oscillation: if its mean is at least half its amplitude then no periodicity is
detected. -/
theorem C220_one_oscillation_false {pk : List ℝ → List ℕ} (hpk : FindsPeaks pk) {n : ℕ} {A φ c : ℝ} (hn : 2 ≤ n) (hc : |A| ≤ 2 * |c|) :
    periodOf (fourier pk) (sinusoid n 1 A φ c) = .error .valueError := by
  refine (C218_detected_iff (S := fourier pk) hpk).2 ?_
  apply List.eq_nil_iff_forall_not_mem.2
  intro i hi
  obtain ⟨rfl, h2, h3⟩ := sinusoid_peak hpk (by omega) (by omega) hi
  obtain ⟨a, b, x, w, z, h1, h2', h3', h4, h5, h6, h7⟩ := hpk.inner _ _ hi
  obtain rfl : a = 0 := by omega
  rw [half_get, sinusoid_length, if_pos (by omega)] at h3' h4
  rw [spectrum_zero A φ c (by omega) (by omega)] at h3'
  rw [spectrum_sinusoid A φ c (by omega) (by omega) (by omega) (by omega), if_pos rfl] at h4
  have e1 := Option.some.inj h3'
  have e2 := Option.some.inj h4
  have hn0 : (0 : ℝ) < n := by exact_mod_cast (by omega : 0 < n)
  rw [← e1, ← e2] at h6
  nlinarith

/-! ## The function on time series -/

section
variable {K : Type} [Field K] [LinearOrder K]

/-- **C221**, partial: a non-empty series of constant resolution with dictionary data and one label is analysed on its values, in order;
with more labels it is refused. -/
theorem C221_dict_partial (S : Signal ℚ K) {s : TSeries} {x : Item} {r : List Item} {d : Dict ℚ} (hi : s.items = x :: r)
    (hres : s.res ≠ .varying) (href : ∃ d0, s.ref = some d0 ∧ d0.truthy = true) (hd : x.data = some (.dict d)) :
    (∀ k, d.keys = [k] → ∀ y, s.items.map (fun x => x.val? k) = y.map some → detectPeriodicity S s = (periodOf S y).map some) ∧
    (2 ≤ d.keys.length → detectPeriodicity S s = .error .notImplemented) := by
  obtain ⟨d0, hr1, hr2⟩ := href
  have hc : checkTimeSeries (MSeries.ofSeries s) = .ok () := by
    unfold checkTimeSeries MSeries.ofSeries
    dsimp only
    rw [hi, if_neg (by simp), if_neg hres]
  have hl : (MSeries.ofSeries s).labels = .ok (sortStr d.keys) := by
    unfold MSeries.labels MSeries.ofSeries
    dsimp only
    rw [hi]
    unfold TSeries.labelsFrom
    rw [hr1]
    dsimp only
    rw [hr2, hd]
    rfl
  constructor
  · intro k hk y hy
    unfold detectPeriodicity
    rw [hc, hl, hk]
    have : sortStr [k] = [k] := rfl
    rw [this]
    dsimp only
    have hm : mapE (fun x => itemValue x k) s.items = .ok y := by
      clear hi
      generalize s.items = l at hy ⊢
      induction l generalizing y with
      | nil => cases y with
        | nil => rfl
        | cons _ _ => simp at hy
      | cons z l ih =>
        cases y with
        | nil => simp at hy
        | cons v y =>
          simp at hy
          have hz : itemValue z k = .ok v := by
            have h1 := hy.1
            unfold Item.val? at h1
            unfold itemValue
            cases hzd : z.data with
            | none => rw [hzd] at h1; cases h1
            | some dd =>
              rw [hzd] at h1
              cases dd with
              | dict d => unfold lookupE; dsimp only at h1 ⊢; rw [h1]
              | _ => cases h1
          rw [mapE, hz, ih y (by simpa using hy.2)]
    rw [hm]
  · intro hk
    unfold detectPeriodicity
    rw [hc, hl]
    have hlen : (sortStr d.keys).length = d.keys.length := (sortStr_perm d.keys).length_eq
    match hs : sortStr d.keys with
    | [] => rw [hs] at hlen; simp at hlen; omega
    | [_] => rw [hs] at hlen; simp at hlen; omega
    | _ :: _ :: _ => rfl

/-- **C221** is false for list data, which is what `series[label]` of a list series also carries: the values are looked up by text, and
every series of lists with one value raises `TypeError`. -/
theorem C221_false (S : Signal ℚ K) {s : TSeries} {x : Item} {r : List Item} {v : ℚ} (hi : s.items = x :: r)
    (hres : s.res ≠ .varying) (href : ∃ d0, s.ref = some d0 ∧ d0.truthy = true) (hd : x.data = some (.list [v])) :
    detectPeriodicity S s = .error .typeError := by
  obtain ⟨d0, hr1, hr2⟩ := href
  have hc : checkTimeSeries (MSeries.ofSeries s) = .ok () := by
    unfold checkTimeSeries MSeries.ofSeries
    dsimp only
    rw [hi, if_neg (by simp), if_neg hres]
  have hl : (MSeries.ofSeries s).labels = .ok ["0"] := by
    unfold MSeries.labels MSeries.ofSeries
    dsimp only
    rw [hi]
    unfold TSeries.labelsFrom
    rw [hr1]
    dsimp only
    rw [hr2, hd]
    rfl
  unfold detectPeriodicity
  rw [hc, hl]
  dsimp only
  rw [hi, mapE]
  unfold itemValue
  rw [hd]

end

/-! ## Concrete cases -/

/-- the positions larger than both neighbours -/
def strictPeaks (l : List ℚ) : List ℕ :=
  (List.range l.length).filter (fun i => decide (0 < i) && decide ((l[i - 1]?.getD 0) < (l[i]?.getD 0)) && decide (i + 1 < l.length) &&
    decide ((l[i + 1]?.getD 0) < (l[i]?.getD 0)))

/-- the assumptions on the peaks are met by it -/
example : FindsPeaks strictPeaks := by
  constructor
  · intro l
    exact (List.pairwise_lt_range).filter _
  · intro l i hi
    unfold strictPeaks at hi
    simp at hi
    obtain ⟨h1, ⟨⟨h2, h3⟩, h4⟩, h5⟩ := hi
    refine ⟨i - 1, i + 1, l[i - 1], l[i], l[i + 1], by omega, by omega, List.getElem?_eq_getElem _, List.getElem?_eq_getElem _,
      List.getElem?_eq_getElem _, ?_, ?_⟩
    · rw [List.getElem?_eq_getElem (by omega), List.getElem?_eq_getElem (by omega)] at h3
      simpa using h3
    · rw [List.getElem?_eq_getElem (by omega), List.getElem?_eq_getElem (by omega)] at h5
      simpa using h5
  · intro l i x y z hx hy hz h1 h2
    unfold strictPeaks
    rw [List.mem_filter, List.mem_range]
    have hl := (List.getElem?_eq_some_iff.1 hz).1
    refine ⟨by omega, ?_⟩
    simp [hx, hy, hz, h1, h2]
    omega

/-- a spectrum where the strongest peak is discarded: index 1 of 40 items, almost as strong as index 12 -/
def twoPeaks : Signal ℚ ℚ := ⟨fun y => y, strictPeaks⟩
def peakValues : List ℚ := [0, 100, 0, 0, 0, 0, 0, 0, 0, 0, 0, 0, 99, 0, 0, 3, 0, 0, 0, 0, 0] ++ List.replicate 19 0

theorem C218_witness : periodOf twoPeaks peakValues = .ok 3 ∧ strictPeaks (halfSpectrum twoPeaks peakValues) = [1, 12, 15] := by
  decide +kernel

end Timeseria
