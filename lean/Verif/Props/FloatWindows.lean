import Verif.Model.FloatWindows
import Verif.Props.FloatsExact
import Verif.Props.FloatOps

/-! # C357: moving averages in floating point

`R` is any rounding to nearest, `doubles` the one of double precision. -/

namespace Timeseria

/-- the `j`-th moving average as it is computed -/
def Rounding.mavgAt (R : Rounding) (n j : ℕ) (vs : List ℚ) : ℚ := R.fl (R.sum ((vs.drop j).take n) / n)

theorem mavg_ok (R : Rounding) (n : ℕ) (hn : 1 ≤ n) (vs : List ℚ) : R.mavg n vs = .ok ((List.range (vs.length + 1 - n)).map (fun j => R.mavgAt n j vs)) := by
  unfold Rounding.mavg
  rw [if_neg (by omega)]
  have hz : (n : ℚ) ≠ 0 := by positivity
  rw [Int.toNat_natCast]
  exact mapE_ok (fun j _ => Rounding.div_ok hz)

theorem sum_mono (R : Rounding) : ∀ (l m : List ℚ) (a b : ℚ), a ≤ b → List.Forall₂ (· ≤ ·) l m → l.foldl R.add a ≤ m.foldl R.add b := by
  intro l
  induction l with
  | nil => intro m a b hab h; cases h; exact hab
  | cons x l ih =>
    intro m a b hab h
    cases h with
    | cons hxy h =>
      rw [List.foldl_cons, List.foldl_cons]
      exact ih _ _ _ (R.mono (add_le_add hab hxy)) h

theorem forall₂_window {l m : List ℚ} (h : List.Forall₂ (· ≤ ·) l m) (j n : ℕ) : List.Forall₂ (· ≤ ·) ((l.drop j).take n) ((m.drop j).take n) :=
  List.forall₂_take n (List.forall₂_drop j h)

/-- **C357** (monotone): in floating point, if every value of a series is at most the one of another at its place, so is every moving average -/
theorem C357_monotone (R : Rounding) (n : ℕ) (hn : 1 ≤ n) (vs ws : List ℚ) (h : List.Forall₂ (· ≤ ·) vs ws) :
    ∃ a b, R.mavg n vs = .ok a ∧ R.mavg n ws = .ok b ∧ List.Forall₂ (· ≤ ·) a b := by
  refine ⟨_, _, mavg_ok R n hn vs, mavg_ok R n hn ws, ?_⟩
  rw [← h.length_eq, List.forall₂_map_left_iff, List.forall₂_map_right_iff, List.forall₂_same]
  intro j _
  unfold Rounding.mavgAt
  refine R.mono ?_
  gcongr
  exact sum_mono R _ _ 0 0 le_rfl (forall₂_window h j n)

theorem sum_nonneg' (R : Rounding) : ∀ (l : List ℚ) (a : ℚ), 0 ≤ a → (∀ v ∈ l, 0 ≤ v) → 0 ≤ l.foldl R.add a := by
  intro l
  induction l with
  | nil => intro a h _; exact h
  | cons x l ih =>
    intro a h hl
    rw [List.foldl_cons]
    exact ih _ (R.fl_nonneg (add_nonneg h (hl x (by simp)))) (fun v hv => hl v (by simp [hv]))

/-- **C357** (shape): one moving average for each item from the one where the window is full, none if it never is; non-negative values have non-negative averages; a window below one is refused -/
theorem C357_shape (R : Rounding) (vs : List ℚ) :
    (∀ n : ℕ, 1 ≤ n → ∃ a, R.mavg n vs = .ok a ∧ a.length = vs.length + 1 - n ∧ ((∀ v ∈ vs, 0 ≤ v) → ∀ x ∈ a, 0 ≤ x) ∧ ∀ x ∈ a, R.Rep x) ∧
    ∀ w : Int, w < 1 → R.mavg w vs = .error .attributeError := by
  constructor
  · intro n hn
    refine ⟨_, mavg_ok R n hn vs, by simp, ?_, ?_⟩
    · intro hv x hx
      obtain ⟨j, _, rfl⟩ := List.mem_map.1 hx
      refine R.fl_nonneg (div_nonneg ?_ (by positivity))
      exact sum_nonneg' R _ 0 le_rfl (fun v hv' => hv v (List.mem_of_mem_drop (List.mem_of_mem_take hv')))
    · intro x hx
      obtain ⟨j, _, rfl⟩ := List.mem_map.1 hx
      exact R.rep_fl _
  · intro w hw
    unfold Rounding.mavg
    rw [if_pos hw]

/-- **C357** (window of one): the values themselves -/
theorem C357_one (R : Rounding) (vs : List ℚ) (hr : ∀ v ∈ vs, R.Rep v) : R.mavg 1 vs = .ok vs := by
  have := mavg_ok R 1 le_rfl vs
  rw [show ((1 : ℕ) : Int) = 1 from rfl] at this
  rw [this]
  congr 1
  apply List.ext_getElem?
  intro j
  by_cases hj : j < vs.length
  · rw [List.getElem?_map, List.getElem?_range (by omega), List.getElem?_eq_getElem hj]
    simp only [Option.map_some, Option.some.injEq]
    unfold Rounding.mavgAt Rounding.sum
    have h1 : (vs.drop j).take 1 = [vs[j]] := by
      rw [List.drop_eq_getElem_cons hj]; rfl
    rw [h1]
    have h2 := hr vs[j] (List.getElem_mem hj)
    unfold Rounding.Rep at h2
    simp [Rounding.add, h2]
  · rw [List.getElem?_eq_none (by simp; omega), List.getElem?_eq_none (by omega)]

/-- **C357** (error), partial: in double precision each moving average is the rounded quotient by `n` of a number within ((1 + 2 ^ -53) ^ n - 1) times the sum of the absolute values of the window
from its exact sum.  Missing: that it is between the least and the greatest of the window, which is not so (`C357_false`). -/
theorem C357_error_partial (n : ℕ) (hn : 1 ≤ n) (vs : List ℚ) (hr : ∀ v ∈ vs, doubles.Rep v) (a : List ℚ) (ha : doubles.mavg n vs = .ok a) (j : ℕ) (x : ℚ) (hx : a[j]? = some x) :
    ∃ s, x = fl64 (s / n) ∧ |s - ((vs.drop j).take n).sum| ≤ ((1 + 1 / 2 ^ 53) ^ n - 1) * absSum ((vs.drop j).take n) := by
  rw [mavg_ok doubles n hn vs] at ha
  cases ha
  rw [List.getElem?_map] at hx
  obtain ⟨j', hj', rfl⟩ := Option.map_eq_some_iff.1 hx
  have hlt := (List.getElem?_eq_some_iff.1 hj').1
  rw [List.length_range] at hlt
  rw [List.getElem?_range hlt] at hj'
  cases hj'
  refine ⟨doubles.sum ((vs.drop j).take n), rfl, ?_⟩
  have h1 := (C300_error_partial ((vs.drop j).take n) (fun v hv => hr v (List.mem_of_mem_drop (List.mem_of_mem_take hv)))).1
  rwa [show ((vs.drop j).take n).length = n by rw [List.length_take, List.length_drop]; omega] at h1

/-- **C357** (whole numbers), partial: for whole numbers, when the absolute values of each window sum to less than 2 ^ 53, each moving average is between the least and the greatest of its window -/
theorem C357_whole_partial (n : ℕ) (hn : 1 ≤ n) (vs : List ℤ) (j : ℕ) (hb : (((vs.drop j).take n).map (fun v => |v|)).sum ≤ 2 ^ 53) (a : List ℚ)
    (ha : doubles.mavg n (vs.map (fun v : ℤ => (v : ℚ))) = .ok a) (x : ℚ) (hx : a[j]? = some x) (lo hi : ℤ) (hlo : ∀ v ∈ (vs.drop j).take n, lo ≤ v ∧ v ≤ hi) (hl : |lo| ≤ 2 ^ 53) (hh : |hi| ≤ 2 ^ 53) :
    x = fl64 ((((vs.drop j).take n).sum : ℤ) / n) ∧ (lo : ℚ) ≤ x ∧ x ≤ hi := by
  rw [mavg_ok doubles n hn _] at ha
  cases ha
  rw [List.getElem?_map] at hx
  obtain ⟨j', hj', rfl⟩ := Option.map_eq_some_iff.1 hx
  have hlt := (List.getElem?_eq_some_iff.1 hj').1
  rw [List.length_range, List.length_map] at hlt
  rw [List.getElem?_range (by rw [List.length_map]; exact hlt)] at hj'
  cases hj'
  have hlen : ((vs.drop j).take n).length = n := by rw [List.length_take, List.length_drop]; omega
  have hs : doubles.mavgAt n j (vs.map (fun v : ℤ => (v : ℚ))) = fl64 ((((vs.drop j).take n).sum : ℤ) / n) := by
    unfold Rounding.mavgAt
    rw [← List.map_drop, ← List.map_take, (C300_whole_partial _ hb).1]
    rfl
  rw [hs]
  have hn' : (0 : ℚ) < (n : ℕ) := by positivity
  refine ⟨rfl, ?_, ?_⟩
  · refine doubles.le_fl (fl64_int hl) ?_
    rw [le_div_iff₀ hn']
    have := List.card_nsmul_le_sum ((vs.drop j).take n) lo (fun x hx => (hlo x hx).1)
    rw [hlen, nsmul_eq_mul] at this
    have h3 : (((n : ℤ) * lo : ℤ) : ℚ) ≤ ((((vs.drop j).take n).sum : ℤ) : ℚ) := by exact_mod_cast this
    push_cast at h3 ⊢
    linarith
  · refine doubles.fl_le (fl64_int hh) ?_
    rw [div_le_iff₀ hn']
    have := List.sum_le_card_nsmul ((vs.drop j).take n) hi (fun x hx => (hlo x hx).2)
    rw [hlen, nsmul_eq_mul] at this
    have h3 : ((((vs.drop j).take n).sum : ℤ) : ℚ) ≤ (((n : ℤ) * hi : ℤ) : ℚ) := by exact_mod_cast this
    push_cast at h3 ⊢
    linarith

/-- **C357** in double precision the moving average with a window of three of a series which is 0.1 everywhere is above 0.1 -/
theorem C357_false : (doubles.mavg 3 (tenths [1, 1, 1, 1])).toOption.map (fun a => a.map (fun x => decide (x > fl64 (1 / 10)))) = some [true, true] := by decide +kernel

theorem windowSum_unrounded (l : List Item) (k : String) (vs : List ℚ) (hv : ∀ (i : ℕ) (v : ℚ), vs[i]? = some v → valAt l i k = .ok v) :
    ∀ (n j : ℕ) (acc : ℚ), j + n ≤ vs.length → windowSum l k j n acc = .ok (((vs.drop j).take n).foldl unrounded.add acc) := by
  intro n
  induction n with
  | zero => intro j acc _; rw [List.take_zero]; rfl
  | succ n ih =>
    intro j acc h
    have hj : j < vs.length := by omega
    unfold windowSum
    rw [hv j vs[j] (List.getElem?_eq_getElem hj)]
    dsimp only
    rw [ih (j + 1) (acc + vs[j]) (by omega), List.drop_eq_getElem_cons hj, List.take_succ_cons, List.foldl_cons]
    rfl

/-- **C357** (unrounded): without rounding it is the moving average of the exact operation, at the items from `n - 1` on: `vs` are the values of the label `k` in the items `l` -/
theorem C357_unrounded (l : List Item) (k : String) (vs : List ℚ) (hv : ∀ (i : ℕ) (v : ℚ), vs[i]? = some v → valAt l i k = .ok v) (n : ℕ) (hn : 1 ≤ n) :
    ∃ a, unrounded.mavg n vs = .ok a ∧ ∀ i : ℕ, n ≤ i + 1 → i < vs.length →
      a[i + 1 - n]?.map Except.ok = some (match windowSum l k (i + 1 - n) n 0 with
        | .ok v => pyDiv v n
        | .error e => .error e) := by
  refine ⟨_, mavg_ok unrounded n hn vs, ?_⟩
  intro i h1 h2
  rw [windowSum_unrounded l k vs hv n (i + 1 - n) 0 (by omega), List.getElem?_map, List.getElem?_range (by omega)]
  have hz : (n : ℚ) ≠ 0 := by positivity
  dsimp only
  unfold pyDiv
  rw [if_neg hz]
  rfl

/-- **C357** cases meeting the hypotheses -/
theorem C357_witness : (∀ v ∈ tenths [1, 2, 7], doubles.Rep v) ∧ List.Forall₂ (· ≤ ·) (tenths [1, 2, 7]) (tenths [1, 3, 7]) ∧
    (doubles.mavg 2 ([5, -3, 1000000].map (fun v : ℤ => (v : ℚ)))).toOption = some [1, 999997 / 2] ∧ (doubles.mavg 4 (tenths [1, 2, 7])).toOption = some [] ∧
    (doubles.mavg 1 (tenths [1, 2, 7])).toOption = some (tenths [1, 2, 7]) := by
  refine ⟨?_, ?_, ?_, ?_, ?_⟩
  · intro v hv
    obtain ⟨i, _, rfl⟩ := List.mem_map.1 hv
    exact fl64_idem _
  all_goals decide +kernel

end Timeseria
