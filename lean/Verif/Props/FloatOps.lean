import Verif.Model.FloatOps
import Verif.Props.FloatsExact
/-!
C335-C339: what survives rounding, continued.
-/
namespace Timeseria

/-! ## C335: the derivative -/

/-- times of the format, one after the other -/
def TimesUp (R : Rounding) (ps : List (ℚ × ℚ)) : Prop := (∀ p ∈ ps, R.Rep p.1) ∧ ps.IsChain (fun a b => a.1 < b.1)

theorem derivAt_cases {R : Rounding} (hk : R.KeepsDistinct) {var : Bool} {s : ℚ} (hs : 0 < s) {prev next : Option (ℚ × ℚ)} {x : ℚ × ℚ} (hx : R.Rep x.1)
    (hp : ∀ p, prev = some p → R.Rep p.1 ∧ p.1 < x.1) (hn : ∀ n, next = some n → R.Rep n.1 ∧ x.1 < n.1) (hne : prev ≠ none ∨ next ≠ none) :
    ∃ d, R.derivAt var s prev x next = .ok d ∧
      ((∀ p, prev = some p → p.2 ≤ x.2) → (∀ n, next = some n → x.2 ≤ n.2) → 0 ≤ d) ∧
      ((∀ p, prev = some p → x.2 ≤ p.2) → (∀ n, next = some n → n.2 ≤ x.2) → d ≤ 0) := by
  cases prev with
  | none =>
    cases next with
    | none => simp at hne
    | some n =>
      refine ⟨R.fl (R.sub n.2 x.2 / s), R.div_ok hs.ne', ?_, ?_⟩
      · intro _ h
        exact R.fl_nonneg (div_nonneg (R.fl_nonneg (by linarith [h n rfl])) hs.le)
      · intro _ h
        exact R.fl_nonpos (div_nonpos_of_nonpos_of_nonneg (R.fl_nonpos (by linarith [h n rfl])) hs.le)
  | some p =>
    cases next with
    | none =>
      refine ⟨R.fl (R.sub x.2 p.2 / s), R.div_ok hs.ne', ?_, ?_⟩
      · intro h _
        exact R.fl_nonneg (div_nonneg (R.fl_nonneg (by linarith [h p rfl])) hs.le)
      · intro h _
        exact R.fl_nonpos (div_nonpos_of_nonpos_of_nonneg (R.fl_nonpos (by linarith [h p rfl])) hs.le)
    | some n =>
      obtain ⟨hp1, hp2⟩ := hp p rfl
      obtain ⟨hn1, hn2⟩ := hn n rfl
      cases var with
      | false =>
        refine ⟨R.fl (R.fl (R.add (R.sub x.2 p.2) (R.sub n.2 x.2) / 2) / s), R.div_ok hs.ne', ?_, ?_⟩
        · intro h1 h2
          have a := R.fl_nonneg (x := x.2 - p.2) (by linarith [h1 p rfl])
          have b := R.fl_nonneg (x := n.2 - x.2) (by linarith [h2 n rfl])
          exact R.fl_nonneg (div_nonneg (R.fl_nonneg (div_nonneg (R.fl_nonneg (add_nonneg a b)) (by norm_num))) hs.le)
        · intro h1 h2
          have a := R.fl_nonpos (x := x.2 - p.2) (by linarith [h1 p rfl])
          have b := R.fl_nonpos (x := n.2 - x.2) (by linarith [h2 n rfl])
          exact R.fl_nonpos (div_nonpos_of_nonpos_of_nonneg (R.fl_nonpos (div_nonpos_of_nonpos_of_nonneg (R.fl_nonpos (add_nonpos a b)) (by norm_num))) hs.le)
      | true =>
        have hd1 : 0 < R.sub x.1 p.1 := lt_of_le_of_ne (R.fl_nonneg (by linarith)) (Ne.symm (hk _ _ hx hp1 hp2.ne'))
        have hd2 : 0 < R.sub n.1 x.1 := lt_of_le_of_ne (R.fl_nonneg (by linarith)) (Ne.symm (hk _ _ hn1 hx hn2.ne'))
        refine ⟨R.fl (R.add (R.fl (R.sub x.2 p.2 / R.sub x.1 p.1)) (R.fl (R.sub n.2 x.2 / R.sub n.1 x.1)) / 2), ?_, ?_, ?_⟩
        · unfold Rounding.derivAt
          simp only [if_true, R.div_ok hd1.ne', R.div_ok hd2.ne']
        · intro h1 h2
          have a := R.fl_nonneg (x := x.2 - p.2) (by linarith [h1 p rfl])
          have b := R.fl_nonneg (x := n.2 - x.2) (by linarith [h2 n rfl])
          exact R.fl_nonneg (div_nonneg (R.fl_nonneg (add_nonneg (R.fl_nonneg (div_nonneg a hd1.le)) (R.fl_nonneg (div_nonneg b hd2.le)))) (by norm_num))
        · intro h1 h2
          have a := R.fl_nonpos (x := x.2 - p.2) (by linarith [h1 p rfl])
          have b := R.fl_nonpos (x := n.2 - x.2) (by linarith [h2 n rfl])
          exact R.fl_nonpos (div_nonpos_of_nonpos_of_nonneg (R.fl_nonpos (add_nonpos (R.fl_nonpos (div_nonpos_of_nonpos_of_nonneg a hd1.le))
            (R.fl_nonpos (div_nonpos_of_nonpos_of_nonneg b hd2.le)))) (by norm_num))

/-- the values never decrease -/
def NeverDown (ps : List (ℚ × ℚ)) : Prop := ps.IsChain (fun a b => a.2 ≤ b.2)

/-- the values never increase -/
def NeverUp (ps : List (ℚ × ℚ)) : Prop := ps.IsChain (fun a b => b.2 ≤ a.2)

theorem derivFrom_cases {R : Rounding} (hk : R.KeepsDistinct) {var : Bool} {s : ℚ} (hs : 0 < s) :
    ∀ (ps : List (ℚ × ℚ)) (prev : Option (ℚ × ℚ)), TimesUp R (prev.toList ++ ps) → (prev = none → ps.length ≠ 1) →
      ∃ ds, R.derivFrom var s prev ps = .ok ds ∧ ds.length = ps.length ∧ (NeverDown (prev.toList ++ ps) → ∀ d ∈ ds, 0 ≤ d) ∧ (NeverUp (prev.toList ++ ps) → ∀ d ∈ ds, d ≤ 0) := by
  intro ps
  induction ps with
  | nil => intro prev _ _; exact ⟨[], rfl, rfl, by simp, by simp⟩
  | cons x r ih =>
    intro prev ht hl
    have htail : (x :: r).IsChain (fun a b => a.1 < b.1) := by
      have := ht.2
      rw [List.isChain_append] at this
      exact this.2.1
    have hx : R.Rep x.1 := ht.1 x (by simp)
    obtain ⟨d, hd, hd1, hd2⟩ := derivAt_cases hk (var := var) hs (prev := prev) (next := r.head?) (x := x) hx
      (by
        rintro p rfl
        refine ⟨ht.1 p (by simp), ?_⟩
        have := ht.2
        simp only [Option.toList_some, List.singleton_append, List.isChain_cons_cons] at this
        exact this.1)
      (by
        intro n hn
        cases r with
        | nil => cases hn
        | cons n' r' =>
          cases hn
          refine ⟨ht.1 n (by simp), ?_⟩
          simp only [List.isChain_cons_cons] at htail
          exact htail.1)
      (by
        cases prev with
        | some p => exact Or.inl (by simp)
        | none =>
          right
          intro h
          rw [List.head?_eq_none_iff] at h
          subst h
          exact hl rfl rfl)
    obtain ⟨ds, hds, hlen, h1, h2⟩ := ih (some x) ⟨fun p hp => ht.1 p (by simp only [Option.toList_some, List.singleton_append] at hp; exact List.mem_append_right _ hp), htail⟩
      (fun h => by cases h)
    refine ⟨d :: ds, ?_, by simp [hlen], ?_, ?_⟩
    · unfold Rounding.derivFrom
      rw [hd]
      dsimp only
      rw [hds]
    · intro hm e he
      have hm' : (x :: r).IsChain (fun a b => a.2 ≤ b.2) := by
        have h := hm
        unfold NeverDown at h
        rw [List.isChain_append] at h
        exact h.2.1
      rcases List.mem_cons.1 he with rfl | he
      · refine hd1 ?_ ?_
        · rintro p rfl
          have h := hm
          simp only [NeverDown, Option.toList_some, List.singleton_append, List.isChain_cons_cons] at h
          exact h.1
        · intro n hn
          cases r with
          | nil => cases hn
          | cons n' r' =>
            cases hn
            simp only [List.isChain_cons_cons] at hm'
            exact hm'.1
      · exact h1 hm' e he
    · intro hm e he
      have hm' : (x :: r).IsChain (fun a b => b.2 ≤ a.2) := by
        have h := hm
        unfold NeverUp at h
        rw [List.isChain_append] at h
        exact h.2.1
      rcases List.mem_cons.1 he with rfl | he
      · refine hd2 ?_ ?_
        · rintro p rfl
          have h := hm
          simp only [NeverUp, Option.toList_some, List.singleton_append, List.isChain_cons_cons] at h
          exact h.1
        · intro n hn
          cases r with
          | nil => cases hn
          | cons n' r' =>
            cases hn
            simp only [List.isChain_cons_cons] at hm'
            exact hm'.1
      · exact h2 hm' e he

/-- **C335** with rounding, for every rounding that keeps distinct numbers distinct, as double precision does: the derivative of two points or more exists, at every point, is never
negative if the values never decrease, never positive if they never increase, and exactly zero if they are all equal; for a constant and for a variable resolution. -/
theorem C335_sign (R : Rounding) (hk : R.KeepsDistinct) (var : Bool) (s : ℚ) (hs : 0 < s) (ps : List (ℚ × ℚ)) (ht : TimesUp R ps) (h2 : 2 ≤ ps.length) :
    ∃ ds, R.derivative var s ps = .ok ds ∧ ds.length = ps.length ∧ (NeverDown ps → ∀ d ∈ ds, 0 ≤ d) ∧ (NeverUp ps → ∀ d ∈ ds, d ≤ 0) ∧
      ((∃ c, ∀ p ∈ ps, p.2 = c) → ∀ d ∈ ds, d = 0) := by
  obtain ⟨ds, h, hl, ha, hb⟩ := derivFrom_cases hk (var := var) hs ps none ht (fun _ => by omega)
  refine ⟨ds, h, hl, ha, hb, ?_⟩
  rintro ⟨c, hc⟩ d hd
  have e1 : NeverDown ps := by
    unfold NeverDown
    rw [List.isChain_iff_getElem]
    intro i hi
    rw [hc _ (List.getElem_mem _), hc _ (List.getElem_mem _)]
  have e2 : NeverUp ps := by
    unfold NeverUp
    rw [List.isChain_iff_getElem]
    intro i hi
    rw [hc _ (List.getElem_mem _), hc _ (List.getElem_mem _)]
  exact le_antisymm (hb e2 d hd) (ha e1 d hd)

/-- the points of an example: times every tenth of a second, growing values -/
def tenthPoints : List (ℚ × ℚ) := (tenths [1, 2, 4]).zip (tenths [3, 5, 9])

/-- **C335** such a series, and its derivatives -/
theorem C335_witness : TimesUp doubles tenthPoints ∧ NeverDown tenthPoints ∧
    (doubles.derivative true 1 tenthPoints).toOption.map (fun l => l.map (fun d => decide (0 < d))) = some [true, true, true] := by
  refine ⟨⟨?_, ?_⟩, ?_, by decide +kernel⟩
  · have : tenthPoints.all (fun p => decide (fl64 p.1 = p.1)) = true := by decide +kernel
    intro p hp
    show fl64 p.1 = p.1
    exact of_decide_eq_true (List.all_eq_true.1 this p hp)
  · decide +kernel
  · unfold NeverDown
    decide +kernel

/-- **C335** (unrounded) without rounding it is the derivative of the exact operation: `ps` are the times and the values of the label `k` in the items `l` -/
theorem C335_unrounded (l : List Item) (k : String) (ps : List (ℚ × ℚ)) (hl : l.length = ps.length) (hv : ∀ (i : ℕ) (p : ℚ × ℚ), ps[i]? = some p → valAt l i k = .ok p.2 ∧ tAt l i = .ok p.1)
    (h2 : 2 ≤ ps.length) (var : Bool) (s : ℚ) (i : ℕ) (x : ℚ × ℚ) (hx : ps[i]? = some x) :
    unrounded.derivAt var s (if i = 0 then none else ps[i - 1]?) x ps[i + 1]? = derivVal l (some (var, s)) false i k := by
  have hi : i < ps.length := (List.getElem?_eq_some_iff.1 hx).1
  unfold derivVal
  rw [(hv i x hx).1]
  by_cases h0 : i = 0
  · subst h0
    have hn : ps[0 + 1]? = some ps[1] := List.getElem?_eq_getElem (by omega)
    rw [if_pos rfl, hn, (hv _ _ hn).1]
    rfl
  · have hp : ps[i - 1]? = some ps[i - 1] := List.getElem?_eq_getElem (by omega)
    rw [if_neg h0, hp, (hv _ _ hp).1]
    simp only [Bool.false_eq_true, if_false, if_neg h0]
    by_cases hlast : i + 1 = ps.length
    · rw [if_pos (by omega), List.getElem?_eq_none (by omega)]
      rfl
    · have hn : ps[i + 1]? = some ps[i + 1] := List.getElem?_eq_getElem (by omega)
      rw [if_neg (by omega), hn, (hv _ _ hn).1]
      cases var with
      | false => rfl
      | true =>
        dsimp only
        rw [(hv _ _ hp).2, (hv _ _ hx).2, (hv _ _ hn).2]
        unfold Rounding.derivAt
        dsimp only
        rw [if_pos rfl, unrounded_div, unrounded_div]
        have e1 : pyDiv (unrounded.sub x.2 ps[i - 1].2) (unrounded.sub x.1 ps[i - 1].1) = pyDiv (x.2 - ps[i - 1].2) (x.1 - ps[i - 1].1) := rfl
        have e2 : pyDiv (unrounded.sub ps[i + 1].2 x.2) (unrounded.sub ps[i + 1].1 x.1) = pyDiv (ps[i + 1].2 - x.2) (ps[i + 1].1 - x.1) := rfl
        rw [e1, e2]
        cases pyDiv (x.2 - ps[i - 1].2) (x.1 - ps[i - 1].1) with
        | error e => rfl
        | ok a =>
          cases pyDiv (ps[i + 1].2 - x.2) (ps[i + 1].1 - x.1) with
          | error e => rfl
          | ok b => rfl

/-! ## C336: weighted averages -/

section Weighted

variable {R : Rounding}

theorem wsum_nonneg : ∀ (r : List (ℚ × ℚ)) (acc : ℚ), 0 ≤ acc → (∀ y ∈ r, 0 ≤ y.1 ∧ 0 ≤ y.2) → 0 ≤ r.foldl (fun acc y => R.add acc (R.mul y.1 y.2)) acc := by
  intro r
  induction r with
  | nil => intro acc h _; exact h
  | cons y r ih =>
    intro acc h hr
    rw [List.foldl_cons]
    refine ih _ ?_ (fun z hz => hr z (List.mem_cons_of_mem _ hz))
    have := hr y List.mem_cons_self
    exact R.fl_nonneg (add_nonneg h (R.fl_nonneg (mul_nonneg this.1 this.2)))

theorem weights_le : ∀ (r : List (ℚ × ℚ)) (acc : ℚ), R.Rep acc → (∀ y ∈ r, 0 ≤ y.2) → acc ≤ r.foldl (fun acc y => R.add acc y.2) acc := by
  intro r
  induction r with
  | nil => intro acc _ _; exact le_rfl
  | cons y r ih =>
    intro acc h hr
    rw [List.foldl_cons]
    refine le_trans (R.le_fl h ?_) (ih _ (R.rep_fl _) (fun z hz => hr z (List.mem_cons_of_mem _ hz)))
    linarith [hr y List.mem_cons_self]

theorem weights_total : ∀ (r : List (ℚ × ℚ)) (acc : ℚ), R.Rep acc → 0 ≤ acc → (∀ y ∈ r, 0 ≤ y.2 ∧ R.Rep y.2) → ∀ y ∈ r, y.2 ≤ r.foldl (fun acc y => R.add acc y.2) acc := by
  intro r
  induction r with
  | nil => intro acc _ _ _ y hy; cases hy
  | cons z r ih =>
    intro acc h h0 hr y hy
    rw [List.foldl_cons]
    have hz := hr z List.mem_cons_self
    have h1 : z.2 ≤ R.add acc z.2 := R.le_fl hz.2 (by linarith)
    rcases List.mem_cons.1 hy with rfl | hy
    · exact h1.trans (weights_le r _ (R.rep_fl _) (fun z hz => (hr z (List.mem_cons_of_mem _ hz)).1))
    · exact ih _ (R.rep_fl _) (hz.1.trans h1) (fun z hz => hr z (List.mem_cons_of_mem _ hz)) y hy

/-- the total of the weights, as summed by the code -/
def Rounding.total (R : Rounding) (vs : List (ℚ × ℚ)) : ℚ := vs.foldl (fun acc y => R.add acc y.2) 0

/-- **C336** (sign), partial: with rounding, the weighted average of values that are not negative, with weights that are not negative and not all zero, exists and is not negative;
it is exactly zero if the values are all zero, and exactly one if they are all one.  Missing: it can be outside of the range of the values (`C336_false`). -/
theorem C336_sign_partial (R : Rounding) (vs : List (ℚ × ℚ)) (hv : ∀ y ∈ vs, 0 ≤ y.1) (hw : ∀ y ∈ vs, 0 ≤ y.2 ∧ R.Rep y.2) (hp : ∃ y ∈ vs, 0 < y.2) :
    ∃ m, R.wavg vs = .ok m ∧ 0 ≤ m ∧ ((∀ y ∈ vs, y.1 = 0) → m = 0) ∧ ((∀ y ∈ vs, y.1 = 1) → m = 1) := by
  obtain ⟨y, hy, hpos⟩ := hp
  have htot : 0 < R.total vs := lt_of_lt_of_le hpos (weights_total vs 0 R.zero le_rfl hw y hy)
  cases vs with
  | nil => cases hy
  | cons x r =>
    have hx := hw x List.mem_cons_self
    have hs : 0 ≤ r.foldl (fun acc y => R.add acc (R.mul y.1 y.2)) (R.mul x.1 x.2) :=
      wsum_nonneg r _ (R.fl_nonneg (mul_nonneg (hv x List.mem_cons_self) hx.1)) (fun z hz => ⟨hv z (List.mem_cons_of_mem _ hz), (hw z (List.mem_cons_of_mem _ hz)).1⟩)
    have hzero : (∀ y ∈ x :: r, y.1 = 0) → r.foldl (fun acc y => R.add acc (R.mul y.1 y.2)) (R.mul x.1 x.2) = 0 := by
      intro h
      have : ∀ (r : List (ℚ × ℚ)), (∀ y ∈ r, y.1 = 0) → r.foldl (fun acc y => R.add acc (R.mul y.1 y.2)) 0 = 0 := by
        intro r
        induction r with
        | nil => intro _; rfl
        | cons z r ih =>
          intro h
          rw [List.foldl_cons, show R.add 0 (R.mul z.1 z.2) = 0 from by
            unfold Rounding.add Rounding.mul
            rw [h z List.mem_cons_self, zero_mul, R.zero, zero_add, R.zero]]
          exact ih (fun y hy => h y (List.mem_cons_of_mem _ hy))
      have h0 : R.mul x.1 x.2 = 0 := by
        unfold Rounding.mul
        rw [h x List.mem_cons_self, zero_mul, R.zero]
      rw [h0]
      exact this r (fun y hy => h y (List.mem_cons_of_mem _ hy))
    have hone : (∀ y ∈ x :: r, y.1 = 1) → r.foldl (fun acc y => R.add acc (R.mul y.1 y.2)) (R.mul x.1 x.2) = R.total (x :: r) := by
      intro h
      have hm : ∀ y ∈ x :: r, R.mul y.1 y.2 = y.2 := by
        intro y hy
        unfold Rounding.mul
        rw [h y hy, one_mul]
        exact (hw y hy).2
      have hx0 : R.add 0 x.2 = x.2 := by
        unfold Rounding.add
        rw [zero_add]
        exact hx.2
      unfold Rounding.total
      rw [List.foldl_cons, hx0, hm x List.mem_cons_self]
      have : ∀ (r : List (ℚ × ℚ)) (acc : ℚ), (∀ y ∈ r, R.mul y.1 y.2 = y.2) → r.foldl (fun acc y => R.add acc (R.mul y.1 y.2)) acc = r.foldl (fun acc y => R.add acc y.2) acc := by
        intro r
        induction r with
        | nil => intro _ _; rfl
        | cons z r ih =>
          intro acc h
          rw [List.foldl_cons, List.foldl_cons, h z List.mem_cons_self]
          exact ih _ (fun y hy => h y (List.mem_cons_of_mem _ hy))
      exact this r _ (fun y hy => hm y (List.mem_cons_of_mem _ hy))
    generalize hS : r.foldl (fun acc y => R.add acc (R.mul y.1 y.2)) (R.mul x.1 x.2) = S at hs hzero hone
    have hdef : R.wavg (x :: r) = if R.total (x :: r) = 1 then .ok S else R.div S (R.total (x :: r)) := by
      rw [← hS]
      rfl
    rw [hdef]
    by_cases h1 : R.total (x :: r) = 1
    · refine ⟨S, if_pos h1, hs, hzero, fun h => ?_⟩
      rw [hone h, h1]
    · refine ⟨R.fl (S / R.total (x :: r)), ?_, R.fl_nonneg (div_nonneg hs htot.le), fun h => ?_, fun h => ?_⟩
      · rw [if_neg h1]
        exact R.div_ok htot.ne'
      · rw [hzero h, zero_div, R.zero]
      · rw [hone h, div_self htot.ne', R.one]

end Weighted

/-- the sum of products is within a known distance of the exact one, in double precision: as many factors (1 + 2 ^ -53) as values -/
theorem wsum_error (vs : List (ℚ × ℚ)) (hn : ∀ y ∈ vs, y.1 * y.2 = 0 ∨ (2 : ℚ) ^ (-1022 : ℤ) ≤ |y.1 * y.2|) :
    |(vs.map (fun y => doubles.mul y.1 y.2)).sum - (vs.map (fun y => y.1 * y.2)).sum| ≤ 1 / 2 ^ 53 * absSum (vs.map (fun y => y.1 * y.2)) ∧
    absSum (vs.map (fun y => doubles.mul y.1 y.2)) ≤ (1 + 1 / 2 ^ 53) * absSum (vs.map (fun y => y.1 * y.2)) := by
  induction vs with
  | nil => simp [absSum]
  | cons y r ih =>
    obtain ⟨ih1, ih2⟩ := ih (fun z hz => hn z (List.mem_cons_of_mem _ hz))
    have hy : |doubles.mul y.1 y.2 - y.1 * y.2| ≤ 1 / 2 ^ 53 * |y.1 * y.2| := by
      show |fl64 (y.1 * y.2) - y.1 * y.2| ≤ _
      rcases hn y List.mem_cons_self with h | h
      · rw [h, fl64_zero]; simp
      · have := fl64_relative h
        rw [one_div, inv_mul_eq_div]
        exact this
    have hy' : |doubles.mul y.1 y.2| ≤ (1 + 1 / 2 ^ 53) * |y.1 * y.2| := by
      have := abs_add_le (doubles.mul y.1 y.2 - y.1 * y.2) (y.1 * y.2)
      rw [sub_add_cancel] at this
      linarith
    simp only [List.map_cons, List.sum_cons, absSum] at ih1 ih2 ⊢
    constructor
    · rw [show ∀ a b c d : ℚ, a + b - (c + d) = (a - c) + (b - d) from fun a b c d => by ring]
      refine (abs_add_le _ _).trans ?_
      rw [mul_add]
      exact add_le_add hy ih1
    · rw [mul_add]
      exact add_le_add hy' ih2

/-- **C336** (error), partial: in double precision, unless a product is too small for a normal number, the weighted average is the rounded quotient of a sum within
((1 + 2 ^ -53) ^ n - 1) times the sum of the absolute values of the products from the exact one, and of the total of the weights. -/
theorem C336_error_partial (vs : List (ℚ × ℚ)) (hne : vs ≠ []) (hn : ∀ y ∈ vs, y.1 * y.2 = 0 ∨ (2 : ℚ) ^ (-1022 : ℤ) ≤ |y.1 * y.2|) (hw : doubles.total vs ≠ 0) :
    ∃ s, (doubles.wavg vs = .ok s ∨ doubles.wavg vs = .ok (fl64 (s / doubles.total vs))) ∧ (doubles.total vs = 1 → doubles.wavg vs = .ok s) ∧
      |s - (vs.map (fun y => y.1 * y.2)).sum| ≤ ((1 + 1 / 2 ^ 53) ^ vs.length - 1) * absSum (vs.map (fun y => y.1 * y.2)) := by
  obtain ⟨e1, e2⟩ := wsum_error vs hn
  cases vs with
  | nil => exact absurd rfl hne
  | cons x r =>
    let ps := (x :: r).map (fun y => doubles.mul y.1 y.2)
    have hfold : r.foldl (fun acc y => doubles.add acc (doubles.mul y.1 y.2)) (doubles.mul x.1 x.2) =
        (r.map (fun y => doubles.mul y.1 y.2)).foldl doubles.add (doubles.mul x.1 x.2) := by
      rw [List.foldl_map]
    have h := fold_error (by norm_num) doubles_sumError (r.map (fun y => doubles.mul y.1 y.2)) (fun v hv => by
      obtain ⟨z, _, rfl⟩ := List.mem_map.1 hv
      exact doubles.rep_fl _) 0 (doubles.mul x.1 x.2) (doubles.mul x.1 x.2) |doubles.mul x.1 x.2| (doubles.rep_fl _) le_rfl (by simp)
    refine ⟨r.foldl (fun acc y => doubles.add acc (doubles.mul y.1 y.2)) (doubles.mul x.1 x.2), ?_, ?_, ?_⟩
    · unfold Rounding.wavg
      dsimp only
      by_cases h1 : doubles.total (x :: r) = 1
      · exact Or.inl (if_pos h1)
      · refine Or.inr ?_
        show (if doubles.total (x :: r) = 1 then _ else _) = _
        rw [if_neg h1]
        exact doubles.div_ok hw
    · intro h1
      exact if_pos h1
    · rw [hfold]
      rw [List.length_map, zero_add] at h
      have hA : |doubles.mul x.1 x.2| + absSum (r.map (fun y => doubles.mul y.1 y.2)) = absSum ((x :: r).map (fun y => doubles.mul y.1 y.2)) := by simp [absSum]
      have hS : doubles.mul x.1 x.2 + (r.map (fun y => doubles.mul y.1 y.2)).sum = ((x :: r).map (fun y => doubles.mul y.1 y.2)).sum := by simp
      rw [hA, hS] at h
      have hpow : (1 : ℚ) ≤ (1 + 1 / 2 ^ 53) ^ r.length := one_le_pow₀ (by norm_num)
      have hB : (0 : ℚ) ≤ absSum ((x :: r).map (fun y => y.1 * y.2)) := by
        unfold absSum
        refine List.sum_nonneg ?_
        intro v hv
        obtain ⟨z, _, rfl⟩ := List.mem_map.1 hv
        exact abs_nonneg z
      calc _ = |((r.map (fun y => doubles.mul y.1 y.2)).foldl doubles.add (doubles.mul x.1 x.2) - ((x :: r).map (fun y => doubles.mul y.1 y.2)).sum) +
              (((x :: r).map (fun y => doubles.mul y.1 y.2)).sum - ((x :: r).map (fun y => y.1 * y.2)).sum)| := by ring_nf
        _ ≤ _ := abs_add_le _ _
        _ ≤ ((1 + 1 / 2 ^ 53) ^ r.length - 1) * ((1 + 1 / 2 ^ 53) * absSum ((x :: r).map (fun y => y.1 * y.2))) + 1 / 2 ^ 53 * absSum ((x :: r).map (fun y => y.1 * y.2)) := by
            refine add_le_add (h.trans (mul_le_mul_of_nonneg_left e2 (by linarith))) e1
        _ = _ := by rw [List.length_cons, pow_succ]; ring

/-- **C336 is false**: in double precision the average of 0.1, 0.1 and 0.1 with the weights 0.1, 0.1 and 0.2 is above 0.1 -/
theorem C336_false : (doubles.wavg ((tenths [1, 1, 1]).zip (tenths [1, 1, 2]))).toOption.map (fun m => decide (m > fl64 (1 / 10))) = some true := by decide +kernel

/-- **C336** (unrounded) without rounding it is the weighted average of the exact operation, for one label -/
theorem C336_unrounded (vs : List (ℚ × ℚ)) (hne : vs ≠ []) : unrounded.wavg vs = (let total := (vs.map Prod.snd).foldl (· + ·) 0
    if total = 1 then .ok (vs.map (fun y => y.1 * y.2)).sum else pyDiv (vs.map (fun y => y.1 * y.2)).sum total) := by
  cases vs with
  | nil => exact absurd rfl hne
  | cons x r =>
    have h1 : r.foldl (fun acc y => unrounded.add acc (unrounded.mul y.1 y.2)) (unrounded.mul x.1 x.2) = ((x :: r).map (fun y => y.1 * y.2)).sum := by
      have := fold_plus (r.map (fun y => y.1 * y.2)) (x.1 * x.2)
      rw [List.foldl_map] at this
      rw [List.map_cons, List.sum_cons]
      exact this
    have h2 : ((x :: r).map Prod.snd).foldl (· + ·) (0 : ℚ) = (x :: r).foldl (fun acc y => unrounded.add acc y.2) 0 := by
      rw [List.foldl_map]
      rfl
    unfold Rounding.wavg
    dsimp only
    rw [h1, h2]
    rfl

/-- **C336** (no items): there is no weighted average of nothing, whatever the rounding: the call raises a `TypeError` -/
theorem C336_no_items (R : Rounding) : R.wavg [] = .error .typeError := rfl

theorem C336_witness : (∀ y ∈ ([(3, 1), (5, 2)] : List (ℚ × ℚ)), 0 ≤ y.2 ∧ doubles.Rep y.2) ∧ doubles.total [(3, 1), (5, 2)] = 3 ∧
    (doubles.wavg [(3, 1), (6, 2)]).toOption = some 5 := by
  refine ⟨?_, by decide +kernel, by decide +kernel⟩
  intro y hy
  have : ∀ y ∈ ([(3, 1), (5, 2)] : List (ℚ × ℚ)), 0 ≤ y.2 ∧ fl64 y.2 = y.2 := by decide +kernel
  exact this y hy

/-! ## C337: uniform interpolation -/

/-- **C337** in double precision the uniform interpolation of two values is between them, both included, whatever the values and their order -/
theorem C337_between (a b : ℚ) (ha : doubles.Rep a) (hb : doubles.Rep b) : min a b ≤ doubles.uniform a b ∧ doubles.uniform a b ≤ max a b := by
  have key : ∀ a b : ℚ, fl64 a = a → fl64 b = b → a ≤ b → 0 ≤ fl64 (fl64 (b - a) / 2) ∧ fl64 (fl64 (b - a) / 2) ≤ b - a := by
    intro a b ha hb hab
    have h0 : 0 ≤ fl64 (b - a) := fl64_nonneg (by linarith)
    refine ⟨fl64_nonneg (by linarith), ?_⟩
    have hrel := fl64_sum hb (b := -a) (by rw [fl64_neg, ha])
    rw [← sub_eq_add_neg, abs_of_nonneg (sub_nonneg.2 hab)] at hrel
    have hle := (abs_le.1 hrel).2
    rcases lt_or_ge (b - a) ((2 : ℚ) ^ (-1021 : ℤ)) with h | h
    · have hex : fl64 (b - a) = b - a := by
        by_cases hz : b - a = 0
        · rw [hz, fl64_zero]
        · obtain ⟨n, hn⟩ := isDouble_mult (fl64_eq_iff.1 hb)
          obtain ⟨m, hm⟩ := isDouble_mult (fl64_eq_iff.1 ha)
          refine fl64_mult (m := n - m) (e := -1074) (by push_cast; rw [hn, hm]; ring) ?_
          have hpos : 0 < |b - a| := abs_pos.2 hz
          have h' : |b - a| < 2 ^ (-1021 : ℤ) := by rwa [abs_of_nonneg (sub_nonneg.2 hab)]
          have := pow2_lt (lt_of_le_of_lt (expo_spec hpos).1 h')
          unfold last64
          omega
      calc fl64 (fl64 (b - a) / 2) ≤ fl64 (fl64 (b - a)) := fl64_mono (by linarith)
        _ = b - a := by rw [fl64_idem, hex]
    · have hd : (2 : ℚ) ^ (-1021 : ℤ) ≤ fl64 (b - a) := by
        have : fl64 ((2 : ℚ) ^ (-1021 : ℤ)) = 2 ^ (-1021 : ℤ) := fl64_of_isDouble ⟨1, -1021, by norm_num, by norm_num, by simp⟩
        rw [← this]
        exact fl64_mono h
      have hh : (2 : ℚ) ^ (-1022 : ℤ) ≤ |fl64 (b - a) / 2| := by
        rw [abs_of_nonneg (by linarith), le_div_iff₀ (by norm_num)]
        calc (2 : ℚ) ^ (-1022 : ℤ) * 2 = 2 ^ (-1022 + 1 : ℤ) := by rw [pow2_add, zpow_one]
          _ ≤ _ := hd
      have h2 := (abs_le.1 (fl64_relative hh)).2
      rw [abs_of_nonneg (by linarith)] at h2
      have hba := sub_nonneg.2 hab
      nlinarith [hle, h2]
  rcases le_total a b with h | h
  · obtain ⟨h1, h2⟩ := key a b ha hb h
    rw [min_eq_left h, max_eq_right h]
    exact ⟨doubles.le_fl ha (by show a ≤ a + fl64 (fl64 (b - a) / 2); linarith), doubles.fl_le hb (by show a + fl64 (fl64 (b - a) / 2) ≤ b; linarith)⟩
  · obtain ⟨h1, h2⟩ := key b a hb ha h
    rw [min_eq_right h, max_eq_left h]
    have hneg : fl64 (fl64 (b - a) / 2) = -fl64 (fl64 (a - b) / 2) := by
      rw [show b - a = -(a - b) by ring, fl64_neg, neg_div, fl64_neg]
    exact ⟨doubles.le_fl hb (by show b ≤ a + fl64 (fl64 (b - a) / 2); rw [hneg]; linarith), doubles.fl_le ha (by show a + fl64 (fl64 (b - a) / 2) ≤ a; rw [hneg]; linarith)⟩

/-- **C337** the interpolation of a value with itself is that value, for every rounding -/
theorem C337_same (R : Rounding) (a : ℚ) (ha : R.Rep a) : R.uniform a a = a := by
  unfold Rounding.uniform Rounding.add Rounding.sub
  rw [sub_self, R.zero, zero_div, R.zero, add_zero]
  exact ha

/-- **C337** (unrounded) without rounding it is the value of the exact interpolator -/
theorem C337_unrounded (p n : VPoint) (a b : ℚ) (k : String) (ha : p.data.get? k = some a) (hb : n.data.get? k = some b) :
    uniformValue p n k = .ok (unrounded.uniform a b) := by
  unfold uniformValue
  rw [ha, hb]
  rfl

theorem C337_witness : doubles.Rep (fl64 (1 / 10)) ∧ doubles.Rep (fl64 (7 / 10)) ∧ fl64 (1 / 10) < doubles.uniform (fl64 (1 / 10)) (fl64 (7 / 10)) ∧
    doubles.uniform (fl64 (1 / 10)) (fl64 (7 / 10)) < fl64 (7 / 10) := by
  refine ⟨fl64_idem _, fl64_idem _, by decide +kernel, by decide +kernel⟩

/-! ## C338: running sums -/

/-- **C338** with rounding, whatever the rounding, the running sums of values that are not negative never decrease, and those of values that are not positive never increase -/
theorem C338_monotone (R : Rounding) (acc : ℚ) (ha : R.Rep acc) (vs : List ℚ) :
    ((∀ v ∈ vs, 0 ≤ v) → (acc :: R.csums acc vs).IsChain (· ≤ ·)) ∧ ((∀ v ∈ vs, v ≤ 0) → (acc :: R.csums acc vs).IsChain (· ≥ ·)) := by
  induction vs generalizing acc with
  | nil => exact ⟨fun _ => List.IsChain.singleton _, fun _ => List.IsChain.singleton _⟩
  | cons v r ih =>
    obtain ⟨i1, i2⟩ := ih (R.add acc v) (R.rep_fl _)
    unfold Rounding.csums
    constructor
    · intro h
      rw [List.isChain_cons_cons]
      exact ⟨R.le_fl ha (by linarith [h v List.mem_cons_self]), i1 (fun x hx => h x (List.mem_cons_of_mem _ hx))⟩
    · intro h
      rw [List.isChain_cons_cons]
      exact ⟨R.fl_le ha (by linarith [h v List.mem_cons_self]), i2 (fun x hx => h x (List.mem_cons_of_mem _ hx))⟩

theorem C338_witness : doubles.Rep (fl64 (1 / 10)) ∧ (doubles.csums (fl64 (1 / 10)) (tenths [2, 7, 0])).length = 3 ∧ (∀ v ∈ tenths [2, 7, 0], 0 ≤ v) := by
  refine ⟨fl64_idem _, by decide +kernel, by decide +kernel⟩

/-! ## C339: rescaling and offsets -/

/-- **C339** (order), partial: with rounding, adding a number to all values or multiplying them by one that is not negative never inverts their order, multiplying by one that is not
positive never leaves it; the length is the same.  Missing: different values may become equal (`C339_false`). -/
theorem C339_order_partial (R : Rounding) (k : ℚ) (vs : List ℚ) : (R.offsetBy k vs).length = vs.length ∧ (R.rescaleBy k vs).length = vs.length ∧
    ∀ (i j : ℕ) (v w : ℚ), vs[i]? = some v → vs[j]? = some w → v ≤ w →
      (∃ a b, (R.offsetBy k vs)[i]? = some a ∧ (R.offsetBy k vs)[j]? = some b ∧ a ≤ b) ∧
      (∃ a b, (R.rescaleBy k vs)[i]? = some a ∧ (R.rescaleBy k vs)[j]? = some b ∧ (0 ≤ k → a ≤ b) ∧ (k ≤ 0 → b ≤ a)) := by
  refine ⟨by simp [Rounding.offsetBy], by simp [Rounding.rescaleBy], ?_⟩
  intro i j v w hi hj h
  refine ⟨⟨R.add v k, R.add w k, by simp [Rounding.offsetBy, hi], by simp [Rounding.offsetBy, hj], R.mono (by linarith)⟩,
    ⟨R.mul v k, R.mul w k, by simp [Rounding.rescaleBy, hi], by simp [Rounding.rescaleBy, hj], fun hk => R.mono (mul_le_mul_of_nonneg_right h hk),
      fun hk => R.mono (mul_le_mul_of_nonpos_right h hk)⟩⟩

/-- **C339** (whole numbers), partial: whole numbers stay different, and are exact, as long as sums and products are below 2 ^ 53 -/
theorem C339_whole_partial (k : ℤ) (vs : List ℤ) (hs : ∀ v ∈ vs, |v + k| ≤ 2 ^ 53) (hp : ∀ v ∈ vs, |v * k| ≤ 2 ^ 53) :
    doubles.offsetBy k (vs.map (fun v : ℤ => (v : ℚ))) = vs.map (fun v : ℤ => ((v + k : ℤ) : ℚ)) ∧
    doubles.rescaleBy k (vs.map (fun v : ℤ => (v : ℚ))) = vs.map (fun v : ℤ => ((v * k : ℤ) : ℚ)) := by
  unfold Rounding.offsetBy Rounding.rescaleBy
  rw [List.map_map, List.map_map]
  constructor
  · refine List.map_congr_left ?_
    intro v hv
    show fl64 ((v : ℚ) + k) = _
    rw [← Int.cast_add]
    exact fl64_int (hs v hv)
  · refine List.map_congr_left ?_
    intro v hv
    show fl64 ((v : ℚ) * k) = _
    rw [← Int.cast_mul]
    exact fl64_int (hp v hv)

/-- **C339 is false**: in double precision 0.1 and 0.2 become equal when ten to the seventeen is added, and adding its opposite does not give them back; 1.5 and the double after it become
equal when multiplied by 1.6. -/
theorem C339_false : doubles.offsetBy (10 ^ 17) (tenths [1, 2]) = [10 ^ 17, 10 ^ 17] ∧ doubles.offsetBy (-10 ^ 17) (doubles.offsetBy (10 ^ 17) (tenths [1, 2])) = [0, 0] ∧
    doubles.Rep (3 / 2 + 1 / 2 ^ 52) ∧ doubles.mul (3 / 2 + 1 / 2 ^ 52) (fl64 (16 / 10)) = doubles.mul (3 / 2) (fl64 (16 / 10)) := by
  refine ⟨by decide +kernel, by decide +kernel, ?_, by decide +kernel⟩
  show fl64 _ = _
  decide +kernel

theorem C339_witness : (∀ v ∈ ([5, -3, 1000000] : List ℤ), |v + 7| ≤ 2 ^ 53 ∧ |v * 7| ≤ 2 ^ 53) := by decide

end Timeseria
