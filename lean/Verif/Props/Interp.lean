import Verif.Model.Interp

/-! # C42, C43, C86, C87: interpolation -/

namespace Timeseria

theorem perLabelDict_ok {ks : List String} {f : String → Except PyErr ℚ} {g : String → ℚ}
    (h : ∀ k ∈ ks, f k = .ok (g k)) : perLabelDict ks f = .ok (ks.map (fun k => (k, g k))) := by
  induction ks with
  | nil => rfl
  | cons k r ih =>
    simp only [perLabelDict, h k (by simp), ih (fun x hx => h x (by simp [hx])), List.map_cons]

theorem table_get? {ks : List String} (g : String → ℚ) {k : String} (h : k ∈ ks) :
    Dict.get? (ks.map (fun k => (k, g k))) k = some (g k) := by
  unfold Dict.get?
  induction ks with
  | nil => simp at h
  | cons a r ih =>
    simp only [List.map_cons, List.lookup_cons]
    by_cases e : k = a
    · subst e; simp
    · have : (k == a) = false := by simpa using e
      rw [this]
      rcases List.mem_cons.1 h with h | h
      · exact absurd h e
      · exact ih h

theorem pyGet_nat {α : Type} {l : List α} {i : ℕ} {x : α} (h : l[i]? = some x) : pyGet l (i : Int) = .ok x := by
  simp [pyGet, h]

/-- the value at `at_` of the straight line through two points of the plane -/
def lineThrough (t₀ v₀ t₁ v₁ at_ : ℚ) : ℚ := v₀ + (v₁ - v₀) * (at_ - t₀) / (t₁ - t₀)

/-- **C42**: between two points (given by their indexes) the linear interpolator returns, for every label, the
value of the line through the two points. -/
theorem C42_linear {ps : List VPoint} {ks : List String} {i j : ℕ} {p n : VPoint} (hi : ps[i]? = some p)
    (hj : ps[j]? = some n) (va vb : String → ℚ) (ha : ∀ k ∈ ks, p.data.get? k = some (va k))
    (hb : ∀ k ∈ ks, n.data.get? k = some (vb k)) (x : ℚ) (h1 : p.t < x) (h2 : x < n.t) :
    ∃ d, linearEval ps ks x (some i) (some j) = .ok d ∧ d.keys = ks ∧
      ∀ k ∈ ks, d.get? k = some (lineThrough p.t (va k) n.t (vb k) x) := by
  have hne : n.t - p.t ≠ 0 := by intro e; linarith
  refine ⟨ks.map (fun k => (k, lineThrough p.t (va k) n.t (vb k) x)), ?_, by simp [Dict.keys, Function.comp_def],
    fun k hk => table_get? _ hk⟩
  unfold linearEval
  simp only [pyGet_nat hi, pyGet_nat hj, h1, h2, and_self, if_true, linearBetween]
  apply perLabelDict_ok
  intro k hk
  simp only [linearValue, ha k hk, hb k hk, if_neg hne]
  unfold lineThrough
  congr 1
  field_simp

/-- **C42 (exact on straight lines)**: if the two values lie on a line, so does the interpolated one. -/
theorem C42_affine (t₀ t₁ x a b : ℚ) (h : t₀ ≠ t₁) :
    lineThrough t₀ (a * t₀ + b) t₁ (a * t₁ + b) x = a * x + b := by
  have : t₁ - t₀ ≠ 0 := fun e => h (by linarith)
  unfold lineThrough
  field_simp
  ring

/-- **C42 (within the end values)** -/
theorem C42_between (t₀ v₀ t₁ v₁ x : ℚ) (h1 : t₀ < x) (h2 : x < t₁) :
    min v₀ v₁ ≤ lineThrough t₀ v₀ t₁ v₁ x ∧ lineThrough t₀ v₀ t₁ v₁ x ≤ max v₀ v₁ := by
  have hd : 0 < t₁ - t₀ := by linarith
  have e : lineThrough t₀ v₀ t₁ v₁ x = v₀ + (v₁ - v₀) * ((x - t₀) / (t₁ - t₀)) := by
    unfold lineThrough; rw [mul_div_assoc]
  have r0 : 0 ≤ (x - t₀) / (t₁ - t₀) := div_nonneg (by linarith) hd.le
  have r1 : (x - t₀) / (t₁ - t₀) ≤ 1 := (div_le_one hd).2 (by linarith)
  rw [e]
  generalize (x - t₀) / (t₁ - t₀) = r at r0 r1
  rcases le_total v₀ v₁ with h | h
  · rw [min_eq_left h, max_eq_right h]
    constructor
    · have := mul_nonneg (by linarith : 0 ≤ v₁ - v₀) r0; linarith
    · have := mul_le_mul_of_nonneg_left r1 (by linarith : 0 ≤ v₁ - v₀); linarith
  · rw [min_eq_right h, max_eq_left h]
    constructor
    · have := mul_le_mul_of_nonneg_left r1 (by linarith : 0 ≤ v₀ - v₁); linarith
    · have := mul_nonneg (by linarith : 0 ≤ v₀ - v₁) r0; linarith

/-- **C42 (refused)**: a timestamp that is not strictly between the two points is refused, and so is giving only
one of the two indexes. -/
theorem C42_refused {ps : List VPoint} {ks : List String} {i j : ℕ} {p n : VPoint} (hi : ps[i]? = some p)
    (hj : ps[j]? = some n) (x : ℚ) (h : x ≤ p.t ∨ n.t ≤ x) :
    linearEval ps ks x (some i) (some j) = .error .valueError ∧
    linearEval ps ks x (some i) none = .error .valueError ∧
    linearEval ps ks x none (some j) = .error .valueError := by
  refine ⟨?_, rfl, rfl⟩
  unfold linearEval
  simp only [pyGet_nat hi, pyGet_nat hj]
  rw [if_neg]
  rintro ⟨h1, h2⟩
  rcases h with h | h <;> linarith

/-! ## C43: looking for the neighbours -/

theorem searchNext_spec (x : ℚ) (k : ℕ) (ps : List VPoint) :
    (∀ i, searchNext x k ps = some i → ∃ j p, i = k + j ∧ ps[j]? = some p ∧ x < p.t ∧
      ∀ (m : ℕ) (q : VPoint), m < j → ps[m]? = some q → q.t ≤ x) ∧
    (searchNext x k ps = none ↔ ∀ p ∈ ps, p.t ≤ x) := by
  induction ps generalizing k with
  | nil => simp [searchNext]
  | cons p r ih =>
    rw [searchNext]
    by_cases h : p.t > x
    · rw [if_pos h]
      refine ⟨?_, ?_⟩
      · intro i hi
        cases hi
        exact ⟨0, p, rfl, rfl, h, by simp⟩
      · simp only [reduceCtorEq, List.mem_cons, forall_eq_or_imp, false_iff, not_and]
        intro h'; linarith
    · rw [if_neg h]
      obtain ⟨i1, i2⟩ := ih (k + 1)
      refine ⟨?_, ?_⟩
      · intro i hi
        obtain ⟨j, q, e1, e2, e3, e4⟩ := i1 i hi
        refine ⟨j + 1, q, by omega, by simpa using e2, e3, ?_⟩
        intro m u hm hu
        cases m with
        | zero => simp at hu; subst hu; exact not_lt.1 h
        | succ m => exact e4 m u (by omega) (by simpa using hu)
      · rw [i2]
        simp only [List.mem_cons, forall_eq_or_imp]
        exact ⟨fun h' => ⟨not_lt.1 h, h'⟩, fun h' => h'.2⟩

/-- **C43 (within the series)**: for a timestamp from the first point (included) to the last
one (excluded), the neighbours are found: the result is the value of the line through the last point not
after the timestamp and the next one. -/
theorem C43_within {ps : List VPoint} {ks : List String}
    (hk : ∀ p ∈ ps, ∀ k ∈ ks, ∃ v, p.data.get? k = some v)
    {first last : VPoint} (hf : ps.head? = some first) (hl : ps.getLast? = some last) (x : ℚ)
    (h1 : first.t ≤ x) (h2 : x < last.t) :
    ∃ (i : ℕ) (p n : VPoint) (d : Dict ℚ), ps[i]? = some p ∧ ps[i + 1]? = some n ∧ p.t ≤ x ∧ x < n.t ∧
      linearEval ps ks x none none = .ok d ∧ d.keys = ks ∧
      ∀ k ∈ ks, ∃ a b, p.data.get? k = some a ∧ n.data.get? k = some b ∧
        d.get? k = some (lineThrough p.t a n.t b x) := by
  obtain ⟨s1, s2⟩ := searchNext_spec x 0 ps
  cases hs : searchNext x 0 ps with
  | none =>
    have := s2.1 hs last (List.mem_of_getLast? hl)
    linarith
  | some i =>
    obtain ⟨j, n, e1, e2, e3, e4⟩ := s1 i hs
    rw [Nat.zero_add] at e1; subst e1
    have hj : i ≠ 0 := by
      intro e; subst e
      rw [List.head?_eq_getElem?, e2] at hf
      cases hf; linarith
    obtain ⟨m, rfl⟩ := Nat.exists_eq_succ_of_ne_zero hj
    obtain ⟨p, hp⟩ : ∃ p, ps[m]? = some p := by
      have hlt : m + 1 < ps.length := (List.getElem?_eq_some_iff.1 e2).1
      exact ⟨ps[m], List.getElem?_eq_getElem (by omega)⟩
    have hpx := e4 m p (by omega) hp
    have hpm := List.mem_of_getElem? hp
    have hnm := List.mem_of_getElem? e2
    have hne : n.t - p.t ≠ 0 := by intro e; linarith
    have key : ∀ k ∈ ks, linearValue p n x k = .ok (lineThrough p.t ((p.data.get? k).getD 0) n.t ((n.data.get? k).getD 0) x) := by
      intro k hk'
      obtain ⟨a, ha⟩ := hk p hpm k hk'
      obtain ⟨b, hb⟩ := hk n hnm k hk'
      simp only [linearValue, ha, hb, if_neg hne, Option.getD_some]
      unfold lineThrough
      congr 1
      field_simp
    refine ⟨m, p, n, ks.map (fun k => (k, lineThrough p.t ((p.data.get? k).getD 0) n.t ((n.data.get? k).getD 0) x)),
      hp, e2, hpx, e3, ?_, ?_⟩
    · unfold linearEval
      simp only [hs]
      have e : ((m.succ : ℕ) : Int) - 1 = (m : ℕ) := by push_cast; omega
      rw [e]
      unfold linearBetween
      rw [pyGet_nat hp, pyGet_nat e2]
      exact perLabelDict_ok key
    · refine ⟨by simp [Dict.keys, Function.comp_def], ?_⟩
      intro k hk'
      obtain ⟨a, ha⟩ := hk p hpm k hk'
      obtain ⟨b, hb⟩ := hk n hnm k hk'
      exact ⟨a, b, ha, hb, by rw [table_get? _ hk', ha, hb]; rfl⟩

/-- **C43 (after the last point)**: refused. -/
theorem C43_after {ps : List VPoint} {ks : List String} (x : ℚ) (h : ∀ p ∈ ps, p.t ≤ x) :
    linearEval ps ks x none none = .error .valueError := by
  unfold linearEval
  simp only [((searchNext_spec x 0 ps).2).2 h]

/-- **C86 is false**: a timestamp before the first point is not refused: the value returned is the one of the line
through the last and the first point. -/
theorem C86_false (p q : VPoint) (r : List VPoint) (last : VPoint) (ks : List String)
    (hl : (p :: q :: r).getLast? = some last) (ho : (p :: q :: r).Pairwise (fun a b => a.t < b.t))
    (hk : ∀ u ∈ p :: q :: r, ∀ k ∈ ks, ∃ v, u.data.get? k = some v) (x : ℚ) (h : x < p.t) :
    ∃ d, linearEval (p :: q :: r) ks x none none = .ok d ∧ d.keys = ks ∧
      ∀ k ∈ ks, ∃ a b, last.data.get? k = some a ∧ p.data.get? k = some b ∧
        d.get? k = some (lineThrough last.t a p.t b x) := by
  have hs : searchNext x 0 (p :: q :: r) = some 0 := by simp [searchNext, h]
  have hlm := List.mem_of_getLast? hl
  have hlast : pyGet (p :: q :: r) (-1) = .ok last := by
    rw [List.getLast?_eq_getElem?] at hl
    unfold pyGet
    have e1 : ((-(-1 : Int)).toNat) = 1 := by decide
    simp only [show ¬ (0 : Int) ≤ -1 by decide, if_false, e1]
    rw [if_pos (by simp)]
    rw [hl]
  have hlt : p.t < last.t := by
    have h1 : last ∈ q :: r := by
      rw [List.getLast?_cons_cons] at hl
      exact List.mem_of_getLast? hl
    exact (List.pairwise_cons.1 ho).1 last h1
  have hne : p.t - last.t ≠ 0 := by intro e; linarith
  have key : ∀ k ∈ ks, linearValue last p x k = .ok (lineThrough last.t ((last.data.get? k).getD 0) p.t ((p.data.get? k).getD 0) x) := by
    intro k hk'
    obtain ⟨a, ha⟩ := hk last hlm k hk'
    obtain ⟨b, hb⟩ := hk p (by simp) k hk'
    simp only [linearValue, ha, hb, if_neg hne, Option.getD_some]
    unfold lineThrough
    congr 1
    field_simp
  refine ⟨ks.map (fun k => (k, lineThrough last.t ((last.data.get? k).getD 0) p.t ((p.data.get? k).getD 0) x)), ?_, ?_, ?_⟩
  · unfold linearEval
    simp only [hs]
    have e : ((0 : ℕ) : Int) - 1 = -1 := by decide
    rw [e]
    unfold linearBetween
    rw [hlast, pyGet_nat (i := 0) (x := p) rfl]
    exact perLabelDict_ok key
  · simp [Dict.keys, Function.comp_def]
  · intro k hk'
    obtain ⟨a, ha⟩ := hk last hlm k hk'
    obtain ⟨b, hb⟩ := hk p (by simp) k hk'
    exact ⟨a, b, ha, hb, by rw [table_get? _ hk', ha, hb]; rfl⟩

/-- two points with the label `v` -/
def exInterp : List VPoint := [{ t := 0, vf := 0, vt := 0, data := [("v", 10)] },
  { t := 100, vf := 100, vt := 100, data := [("v", 20)] }]

/-- concrete cases for the theorems above: inside, before, and with the indexes given -/
theorem C43_witness : linearEval exInterp ["v"] 50 none none = .ok [("v", 15)] ∧
    linearEval exInterp ["v"] 50 (some 0) (some 1) = .ok [("v", 15)] ∧
    linearEval exInterp ["v"] 100 none none = .error .valueError := by decide +kernel
theorem C86_witness : linearEval exInterp ["v"] (-100) none none = .ok [("v", 0)] := by decide +kernel

/-! ## C87, C88: the uniform interpolator -/

/-- **C87**: with the neighbours given (and the timestamp between them) the uniform interpolator returns the mean
of the two values, for every label, which lies between them. -/
theorem C87_uniform {ps : List VPoint} {ks : List String} {i j : ℕ} {p n : VPoint} (hi : ps[i]? = some p)
    (hj : ps[j]? = some n) (hf : ∀ f, ps.head? = some f → f.t ≤ p.t) (va vb : String → ℚ)
    (ha : ∀ k ∈ ks, p.data.get? k = some (va k))
    (hb : ∀ k ∈ ks, n.data.get? k = some (vb k)) (x : ℚ) (h1 : p.t < x) (h2 : x < n.t) :
    ∃ d, uniformEval ps ks x (some i) (some j) = .ok d ∧ d.keys = ks ∧
      ∀ k ∈ ks, d.get? k = some ((va k + vb k) / 2) := by
  have key : uniformBetween ps ks (i : Int) (j : Int) = .ok (ks.map (fun k => (k, (va k + vb k) / 2))) := by
    unfold uniformBetween
    rw [pyGet_nat hi, pyGet_nat hj]
    apply perLabelDict_ok
    intro k hk
    simp only [uniformValue, ha k hk, hb k hk]
    congr 1; ring
  refine ⟨ks.map (fun k => (k, (va k + vb k) / 2)), ?_, by simp [Dict.keys, Function.comp_def],
    fun k hk => table_get? _ hk⟩
  unfold uniformEval
  rw [if_neg (by simp), if_neg (by simp)]
  by_cases h0 : truthyIdx (some (i : Int)) = true
  · rw [if_neg (by simp [h0])]
    simp only [pyGet_nat hi, pyGet_nat hj, h1, h2, and_self, if_true]
    exact key
  · rw [if_pos h0]
    rcases ps with _ | ⟨f, r⟩
    · simp at hi
    · have := hf f rfl
      simp only
      rw [if_neg (by linarith)]
      exact key

/-- **C88 is false**: without the neighbours the uniform interpolator refuses every timestamp from the first point
on, also those within the series. -/
theorem C88_false (f : VPoint) (r : List VPoint) (ks : List String) (x : ℚ) (h : f.t ≤ x) :
    uniformEval (f :: r) ks x none none = .error .valueError := by
  unfold uniformEval
  simp only [truthyIdx, Bool.false_eq_true, false_and, if_false, not_false_eq_true, if_true]
  rw [if_neg (by linarith)]

/-- and before the first point it answers with the mean of the first and the last value -/
theorem C88_false_witness : uniformEval exInterp ["v"] 50 none none = .error .valueError ∧
    uniformEval exInterp ["v"] (-50) none none = .ok [("v", 15)] ∧
    uniformEval exInterp ["v"] 50 (some 0) (some 1) = .ok [("v", 15)] := by decide +kernel

end Timeseria
