import Verif.Model.FloatIntegral
import Verif.Props.FloatWindows
import Verif.Props.FloatOps
import Verif.Props.IntegralArea

/-! # C360: integrals in floating point -/

namespace Timeseria

open Rounding

theorem integFrom_eq (R : Rounding) (s : ℚ) : ∀ (l : List ℚ) (W T : ℕ → ℚ),
    (∀ (i : ℕ) (u : ℚ), l[i]? = some u → W (i + 1) = R.sub (R.mul u 2) (W i) ∧ T (i + 1) = R.add (T i) (R.mul (W (i + 1)) s)) →
    R.integFrom s (W 0) (T 0) l = (List.range l.length).map (fun i => T (i + 1))
  | [], _, _, _ => rfl
  | u :: r, W, T, h => by
    obtain ⟨h1, h2⟩ := h 0 u rfl
    have ih := integFrom_eq R s r (fun i => W (i + 1)) (fun i => T (i + 1)) (fun i v hv => h (i + 1) v hv)
    rw [Rounding.integFrom, ← h1, ← h2, List.length_cons, List.range_succ_eq_map, List.map_cons, List.map_map]
    rw [show W (0 + 1) = (fun i => W (i + 1)) 0 from rfl, show T (0 + 1) = (fun i => T (i + 1)) 0 from rfl, ih]
    rfl

/-- the integral by its recurrence -/
theorem integral_eq (R : Rounding) (s c : ℚ) (vs : List ℚ) (W T : ℕ → ℚ) (hW : ∀ v, vs[0]? = some v → W 0 = v) (hT : T 0 = R.fl c)
    (h : ∀ (i : ℕ) (u : ℚ), vs[i]? = some u → i + 1 < vs.length → W (i + 1) = R.sub (R.mul u 2) (W i) ∧ T (i + 1) = R.add (T i) (R.mul (W (i + 1)) s)) :
    R.integral s c vs = (List.range vs.length).map T := by
  cases vs with
  | nil => rfl
  | cons v r =>
    have h0 : R.add (R.mul 0 s) c = T 0 := by
      rw [hT]; unfold Rounding.add Rounding.mul; rw [zero_mul, R.zero, zero_add]
    have key := integFrom_eq R s (v :: r).dropLast W T (by
      intro i u hu
      have hi : i < (v :: r).dropLast.length := (List.getElem?_eq_some_iff.1 hu).1
      rw [List.length_dropLast] at hi
      refine h i u ?_ (by omega)
      rw [List.getElem?_dropLast] at hu
      split_ifs at hu
      exact hu)
    rw [hW v rfl] at key
    rw [Rounding.integral, h0, key, List.length_dropLast, List.length_cons, Nat.add_sub_cancel, List.range_succ_eq_map, List.map_cons, List.map_map]
    rfl

theorem sub_self_twice {R : Rounding} {a : ℚ} (ha : R.Rep a) (h2 : R.Rep (a * 2)) : R.sub (R.mul a 2) a = a := by
  unfold Rounding.sub Rounding.mul
  rw [h2, show a * 2 - a = a by ring]
  exact ha

/-- **C360** (constant values): the integral of a constant series is the running sum of the value times the interval from the constant of integration; when the value is not negative it never decreases. -/
theorem C360_constant (R : Rounding) (s c a : ℚ) (n : ℕ) (ha : R.Rep a) (h2 : R.Rep (a * 2)) :
    (∃ T : ℕ → ℚ, R.integral s c (List.replicate n a) = (List.range n).map T ∧ T 0 = R.fl c ∧ (∀ i, T (i + 1) = R.add (T i) (R.mul a s)) ∧
      (0 ≤ a → 0 ≤ s → ∀ i j, i ≤ j → T i ≤ T j)) := by
  let T : ℕ → ℚ := fun i => Nat.rec (R.fl c) (fun _ t => R.add t (R.mul a s)) i
  have hstep : ∀ i, T (i + 1) = R.add (T i) (R.mul a s) := fun _ => rfl
  have hrep : ∀ i, R.Rep (T i) := by
    intro i
    cases i with
    | zero => exact R.idem _
    | succ i => exact R.idem _
  refine ⟨T, ?_, rfl, hstep, ?_⟩
  · have := integral_eq R s c (List.replicate n a) (fun _ => a) T (by
        intro v hv
        rw [List.getElem?_replicate] at hv
        split_ifs at hv
        cases hv; rfl) rfl (by
        intro i u hu _
        rw [List.getElem?_replicate] at hu
        split_ifs at hu
        cases hu
        exact ⟨(sub_self_twice ha h2).symm, hstep i⟩)
    rw [List.length_replicate] at this
    exact this
  · intro h0 hs i j hij
    induction j, hij using Nat.le_induction with
    | base => exact le_refl _
    | succ j _ ih =>
      refine le_trans ih ?_
      rw [hstep]
      have hm : 0 ≤ R.mul a s := by
        have := R.mono (mul_nonneg h0 hs)
        rw [R.zero] at this
        exact this
      have := R.mono (show T j ≤ T j + R.mul a s by linarith)
      rw [hrep j] at this
      exact this

/-- the derivative at each position -/
theorem derivFrom_get {R : Rounding} {var : Bool} {s : ℚ} : ∀ (ps : List (ℚ × ℚ)) (prev : Option (ℚ × ℚ)) (ds : List ℚ), R.derivFrom var s prev ps = .ok ds →
    ds.length = ps.length ∧ ∀ (i : ℕ) (x : ℚ × ℚ), ps[i]? = some x → ∃ d, ds[i]? = some d ∧ R.derivAt var s (if i = 0 then prev else ps[i - 1]?) x ps[i + 1]? = .ok d
  | [], prev, ds, h => by
    cases h
    simp
  | y :: r, prev, ds, h => by
    rw [Rounding.derivFrom] at h
    cases hd : R.derivAt var s prev y r.head? with
    | error e => rw [hd] at h; simp at h
    | ok d =>
      rw [hd] at h
      dsimp only at h
      cases hr : R.derivFrom var s (some y) r with
      | error e => rw [hr] at h; simp at h
      | ok es =>
        rw [hr] at h
        cases h
        obtain ⟨h1, h2⟩ := derivFrom_get r (some y) es hr
        refine ⟨by simp [h1], ?_⟩
        intro i x hx
        cases i with
        | zero =>
          simp only [List.getElem?_cons_zero, Option.some.injEq] at hx
          subst hx
          refine ⟨d, rfl, ?_⟩
          rw [if_pos rfl, List.getElem?_cons_succ, ← List.head?_eq_getElem?]
          exact hd
        | succ i =>
          rw [List.getElem?_cons_succ] at hx
          obtain ⟨e, e1, e2⟩ := h2 i x hx
          refine ⟨e, e1, ?_⟩
          rw [if_neg (by omega), Nat.add_sub_cancel, List.getElem?_cons_succ]
          cases i with
          | zero => exact e2
          | succ i => rw [if_neg (by omega), Nat.add_sub_cancel] at e2; rw [List.getElem?_cons_succ]; exact e2

/-- **C360** (inverse of the derivative), partial: in double precision, for whole numbers up to 2 ^ 51 every second, integrating the derivative from the first value gives back the values exactly.  (Missing: other values, see `C360_false`.) -/
theorem C360_inverse_partial (ps : List (ℚ × ℤ)) (hb : ∀ p ∈ ps, |p.2| ≤ 2 ^ 51) (ds : List ℚ) (v0 : ℤ) (hv0 : ps.head?.map Prod.snd = some v0)
    (hd : doubles.derivative false 1 (ps.map (fun p => (p.1, (p.2 : ℚ)))) = .ok ds) :
    doubles.integral 1 v0 ds = ps.map (fun p => (p.2 : ℚ)) := by
  obtain ⟨hl, hget⟩ := derivFrom_get _ _ _ hd
  rw [List.length_map] at hl
  -- the values
  let v : ℕ → ℤ := fun i => ((ps[i]?).map Prod.snd).getD 0
  have hv : ∀ i, |v i| ≤ 2 ^ 51 := by
    intro i
    show |((ps[i]?).map Prod.snd).getD 0| ≤ 2 ^ 51
    cases h : ps[i]? with
    | none => simp
    | some p => simpa using hb p (List.mem_of_getElem? h)
  have hp : ∀ i, i < ps.length → ∃ t, (ps.map (fun p => (p.1, (p.2 : ℚ))))[i]? = some (t, (v i : ℚ)) := by
    intro i hi
    refine ⟨(ps[i]).1, ?_⟩
    rw [List.getElem?_map, List.getElem?_eq_getElem hi]
    show _ = some (_, ((((ps[i]?).map Prod.snd).getD 0 : ℤ) : ℚ))
    rw [List.getElem?_eq_getElem hi]
    rfl
  have hd1 : ∀ n : ℤ, |n| ≤ 2 ^ 53 → doubles.fl (n : ℚ) = n := fun n hn => fl64_int hn
  have hd2 : ∀ n : ℤ, |n| ≤ 2 ^ 53 → doubles.fl ((n : ℚ) / 2) = (n : ℚ) / 2 := fun n hn => fl64_half hn
  have bnd : ∀ i j, |v i - v j| ≤ 2 ^ 52 := by
    intro i j
    have a := abs_le.1 (hv i)
    have b := abs_le.1 (hv j)
    rw [abs_le]; constructor <;> linarith
  have hsub : ∀ i j, doubles.sub (v i : ℚ) (v j : ℚ) = ((v i - v j : ℤ) : ℚ) := by
    intro i j
    unfold Rounding.sub
    rw [← Int.cast_sub]
    exact hd1 _ (le_trans (bnd i j) (by norm_num))
  have hdiv : ∀ x : ℚ, doubles.div x 1 = .ok (doubles.fl x) := by
    intro x
    unfold Rounding.div
    rw [if_neg one_ne_zero, div_one]
  -- the derivatives: all but the last
  have hds0 : 1 < ps.length → ds[0]? = some ((v 1 - v 0 : ℤ) : ℚ) := by
    intro h1
    obtain ⟨t0, e0⟩ := hp 0 (by omega)
    obtain ⟨t1, e1⟩ := hp 1 h1
    obtain ⟨d, d1, d2⟩ := hget 0 _ e0
    rw [d1]
    simp only [if_true, e1, zero_add] at d2
    unfold Rounding.derivAt at d2
    dsimp only at d2
    rw [hsub, hdiv, hd1 _ (le_trans (bnd 1 0) (by norm_num))] at d2
    cases d2; rfl
  have hdsi : ∀ i, i + 2 < ps.length → ds[i + 1]? = some (((v (i + 2) - v i : ℤ) : ℚ) / 2) := by
    intro i hi
    obtain ⟨t0, e0⟩ := hp i (by omega)
    obtain ⟨t1, e1⟩ := hp (i + 1) (by omega)
    obtain ⟨t2, e2⟩ := hp (i + 2) hi
    obtain ⟨d, d1, d2⟩ := hget (i + 1) _ e1
    rw [d1]
    rw [if_neg (by omega), Nat.add_sub_cancel, e0, show i + 1 + 1 = i + 2 from rfl, e2] at d2
    unfold Rounding.derivAt at d2
    dsimp only at d2
    rw [if_neg (by simp), hsub, hsub, hdiv] at d2
    unfold Rounding.add at d2
    rw [← Int.cast_add, show v (i + 1) - v i + (v (i + 2) - v (i + 1)) = v (i + 2) - v i by ring,
      hd1 _ (le_trans (bnd _ _) (by norm_num)), hd2 _ (le_trans (bnd _ _) (by norm_num)), hd2 _ (le_trans (bnd _ _) (by norm_num))] at d2
    cases d2; rfl
  by_cases hone : ps.length ≤ 1
  · -- one point: there is no derivative
    exfalso
    rcases ps with _ | ⟨p, _ | ⟨q, r⟩⟩
    · simp at hv0
    · simp [Rounding.derivative, Rounding.derivFrom, Rounding.derivAt] at hd
    · simp at hone
  · have key := integral_eq doubles 1 v0 ds (fun i => if i = 0 then ((v 1 - v 0 : ℤ) : ℚ) else ((v i - v (i - 1) : ℤ) : ℚ)) (fun i => (v i : ℚ))
      (by
        intro d hd'
        rw [hds0 (by omega)] at hd'
        cases hd'
        rfl)
      (by
        have : v 0 = v0 := by
          show ((ps[0]?).map Prod.snd).getD 0 = v0
          rw [← List.head?_eq_getElem?, hv0]
          rfl
        show ((v 0 : ℤ) : ℚ) = doubles.fl (v0 : ℚ)
        rw [← this]
        exact (hd1 _ (le_trans (hv 0) (by norm_num))).symm)
      (by
        intro i u hu hi
        rw [hl] at hi
        have hT : ((v (i + 1) : ℤ) : ℚ) = doubles.add (v i : ℚ) (doubles.mul ((v (i + 1) - v i : ℤ) : ℚ) 1) := by
          unfold Rounding.add Rounding.mul
          rw [mul_one, hd1 _ (le_trans (bnd _ _) (by norm_num)), ← Int.cast_add, show v i + (v (i + 1) - v i) = v (i + 1) by ring]
          exact (hd1 _ (le_trans (hv _) (by norm_num))).symm
        refine ⟨?_, ?_⟩
        · rw [if_neg (by omega), Nat.add_sub_cancel]
          cases i with
          | zero =>
            rw [hds0 (by omega)] at hu
            cases hu
            rw [if_pos rfl]
            unfold Rounding.sub Rounding.mul
            rw [show ((v 1 - v 0 : ℤ) : ℚ) * 2 = (((v 1 - v 0) * 2 : ℤ) : ℚ) by push_cast; ring]
            rw [hd1 ((v 1 - v 0) * 2) (by
              rw [abs_mul]
              have := bnd 1 0
              norm_num at this ⊢
              linarith), ← Int.cast_sub, show (v 1 - v 0) * 2 - (v 1 - v 0) = v 1 - v 0 by ring]
            exact (hd1 _ (le_trans (bnd 1 0) (by norm_num))).symm
          | succ i =>
            rw [hdsi i (by omega)] at hu
            cases hu
            rw [if_neg (by omega), Nat.add_sub_cancel]
            unfold Rounding.sub Rounding.mul
            rw [show ((v (i + 2) - v i : ℤ) : ℚ) / 2 * 2 = ((v (i + 2) - v i : ℤ) : ℚ) by ring]
            rw [hd1 _ (le_trans (bnd _ _) (by norm_num)), ← Int.cast_sub, show v (i + 2) - v i - (v (i + 1) - v i) = v (i + 2) - v (i + 1) by ring]
            exact (hd1 _ (le_trans (bnd _ _) (by norm_num))).symm
        · rw [if_neg (by omega), Nat.add_sub_cancel]
          exact hT)
    rw [key, hl]
    refine List.ext_getElem? (fun i => ?_)
    rw [List.getElem?_map, List.getElem?_map]
    by_cases hi : i < ps.length
    · rw [List.getElem?_range hi, List.getElem?_eq_getElem hi]
      show some ((((ps[i]?).map Prod.snd).getD 0 : ℤ) : ℚ) = _
      rw [List.getElem?_eq_getElem hi]
      rfl
    · rw [List.getElem?_eq_none (by simpa using hi), List.getElem?_eq_none (by omega)]
      rfl

/-- **C360** (unrounded): without rounding it is the integral of the exact operation: `vs` are the values of the label in the items of the series. -/
theorem C360_unrounded {cal : Calendar} {s : TSeries} {k : String} (h : OpSeries cal s [k]) {auto si : ℚ}
    (hni : s.normInfo cal auto = .ok (false, si)) {c : NumOrDict} {c0 : ℚ} (hc : ConstOf c k c0) (vs : List ℚ) (hvs : s.items.map (fun x => x.value k) = vs) :
    ∃ r, s.integralOp cal auto c = .ok r ∧ r.items.map (fun y => y.value? (resultLabel s.items "integral" k)) = (unrounded.integral si c0 vs).map some := by
  obtain ⟨kk, inc, V, r, hp, hr, hcomp, h0, hfirst, hnext, hstep⟩ :=
    C199_computes_partial h hni (c := c) (c0 := fun _ => c0) (by intro k' hk'; simp at hk'; subst hk'; exact hc)
  have hkk : kk = [k] := List.perm_singleton.1 hp
  subst hkk
  have hval : ∀ (i : ℕ) (u : ℚ), vs[i]? = some u → valueAt s.items i k = u := by
    intro i u hu
    rw [← hvs, List.getElem?_map, Option.map_eq_some_iff] at hu
    obtain ⟨x, hx, rfl⟩ := hu
    unfold valueAt
    rw [hx]
  have hvl : vs.length = s.items.length := by rw [← hvs]; simp
  have key := integral_eq unrounded si c0 vs inc (fun i => V i k)
    (by intro v hv; rw [hfirst 0 k rfl, hval 0 v hv]) (h0 k (by simp))
    (by
      intro i u hu _
      have e1 := hnext (i + 1) 0 k rfl (by omega)
      have e2 := hstep i 0 k rfl
      simp only [List.length_singleton, Nat.mul_one, Nat.add_zero, Nat.add_sub_cancel] at e1 e2
      rw [hval i u hu] at e1
      exact ⟨e1, e2⟩)
  refine ⟨r, hr, ?_⟩
  have hrl : r.items.length = s.items.length := by have := hcomp.length; omega
  rw [key, hvl]
  refine List.ext_getElem? (fun i => ?_)
  rw [List.getElem?_map, List.getElem?_map, List.getElem?_map]
  by_cases hi : i < s.items.length
  · rw [List.getElem?_range hi, List.getElem?_eq_getElem (by omega)]
    have := hcomp.values i _ (List.getElem?_eq_getElem (by omega)) k (by simp)
    rw [Nat.zero_add] at this
    simp only [Option.map_some]
    rw [this]
  · rw [List.getElem?_eq_none (by omega), List.getElem?_eq_none (by simpa using hi)]
    rfl

/-- the integral of the derivative of values every second -/
def thereAndBack (vs : List ℚ) : Option (List ℚ) :=
  (doubles.derivative false 1 (vs.mapIdx (fun i v => ((i : ℚ), v)))).toOption.map (fun ds => doubles.integral 1 (vs.headD 0) ds)

/-- **C360 is false**: in double precision integrating the derivative does not give back 0.1, 0.2, 0.7, 0.3, nor 10 ^ 17, 1, 0, 1, of which all but the first become zero -/
theorem C360_false : (thereAndBack (tenths [1, 2, 7, 3])).map (fun l => decide (l = tenths [1, 2, 7, 3])) = some false ∧
    thereAndBack [10 ^ 17, 1, 0, 1] = some [10 ^ 17, 0, 0, 0] := by
  decide +kernel

/-- **C360** cases meeting the hypotheses -/
theorem C360_witness : thereAndBack [5, 9, -4, 7] = some [5, 9, -4, 7] ∧ doubles.Rep (fl64 (1 / 10)) ∧ doubles.Rep (fl64 (1 / 10) * 2) ∧
    (doubles.integral 60 0 (tenths [1, 1, 1])).length = 3 := by
  refine ⟨?_, fl64_idem _, ?_, ?_⟩
  · decide +kernel
  · show fl64 _ = _
    decide +kernel
  · decide +kernel

end Timeseria
