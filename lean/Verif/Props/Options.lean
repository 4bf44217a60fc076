import Verif.Model.Options
import Verif.Props.Laws
import Verif.Props.CsumOffset
import Verif.Props.IntegralMore

/-! # C252-C255: the options of `derivative` and `integral` -/

namespace Timeseria

/-! ## The default options -/

/-- with the default options `derivativeWith` is `derivative` -/
theorem derivativeWith_default (cal : Calendar) (s : TSeries) (auto : ℚ) : s.derivativeWith cal auto true false = s.derivativeOp cal auto := by
  unfold TSeries.derivativeWith TSeries.derivativeOp TSeries.normOpt
  cases s.opPrep with
  | error e => rfl
  | ok p =>
    dsimp only
    split
    · rfl
    · cases s.normInfo cal auto with
      | error e => rfl
      | ok ni => rfl

/-- with `normalize=True` `integralWith` is `integral` -/
theorem integralWith_default (cal : Calendar) (back : TUnit → String → ℚ → ℚ) (s : TSeries) (auto : ℚ) (c o : NumOrDict) :
    s.integralWith cal back auto true c o = s.integralFrom cal back auto c o := by
  unfold TSeries.integralWith TSeries.integralFrom TSeries.normOpt
  cases s.opPrep with
  | error e => rfl
  | ok p =>
    dsimp only
    cases s.normInfo cal auto with
    | error e => rfl
    | ok ni => rfl

/-! ## C252: `diffs=True` -/

/-- the differences of `derivative`, not normalized: any series of at least two items -/
theorem runs_diffs {cal : Calendar} {s : TSeries} {ks : List String} (h : OpSeries cal s ks) (auto : ℚ) (hl : 2 ≤ s.items.length) :
    ∃ r, Runs cal (fun s => s.derivativeWith cal auto false true) s ks (resultLabel s.items "diff") 1 true
      (fun i k => valueAt s.items i k - valueAt s.items (i - 1) k) r := by
  obtain ⟨x, r0, d, kk, r, hi, hd, hprep, hp, hfin, hop, hcomp, hidx, _⟩ := itemOp_spec h
      (fun k => withPostfix k "diff") (fun a b hab => withPostfix_inj hab) true
      (fun i _ k => derivVal s.items none true i k)
      (fun i k => valueAt s.items i k - valueAt s.items (i - 1) k) 1 (by omega) (by
        intro i x hx hm k hk
        have := valAt_lt hx
        unfold derivVal
        rw [h.valAt this hk, h.valAt (show i - 1 < s.items.length by omega) hk]
        simp)
  rw [lab_eq_resultLabel hi hd] at hcomp hop
  refine ⟨r, ?_, hop, hcomp, hidx⟩
  unfold TSeries.derivativeWith TSeries.normOpt
  rw [hprep]
  dsimp only
  rw [if_neg (by omega)]
  simp only [Bool.false_eq_true, if_false, Bool.true_and]
  have : (fun i : ℕ => decide (i = 0)) = (fun i : ℕ => decide (i < 1)) := by
    funext i; rw [decide_eq_decide]; omega
  rw [this]
  exact hfin

/-- the differences of `derivative` with the default `normalize=True` -/
theorem runs_diffs_norm {cal : Calendar} {s : TSeries} {ks : List String} (h : OpSeries cal s ks) {auto : ℚ} {vary : Bool} {si : ℚ}
    (hni : s.normInfo cal auto = .ok (vary, si)) (hsi : si ≠ 0) (hl : 2 ≤ s.items.length) :
    ∃ r, Runs cal (fun s => s.derivativeWith cal auto true true) s ks (resultLabel s.items "derivative") 1 true
      (fun i k => (valueAt s.items i k - valueAt s.items (i - 1) k) / si) r := by
  obtain ⟨x, r0, d, kk, r, hi, hd, hprep, hp, hfin, hop, hcomp, hidx, _⟩ := itemOp_spec h
      (fun k => withPostfix k "derivative") (fun a b hab => withPostfix_inj hab) true
      (fun i _ k => derivVal s.items (some (vary, si)) true i k)
      (fun i k => (valueAt s.items i k - valueAt s.items (i - 1) k) / si) 1 (by omega) (by
        intro i x hx hm k hk
        have := valAt_lt hx
        unfold derivVal
        rw [h.valAt this hk, h.valAt (show i - 1 < s.items.length by omega) hk]
        simp [pyDiv, hsi])
  rw [lab_eq_resultLabel hi hd] at hcomp hop
  refine ⟨r, ?_, hop, hcomp, hidx⟩
  unfold TSeries.derivativeWith TSeries.normOpt
  rw [hprep]
  dsimp only
  rw [if_neg (by omega), hni]
  simp only [if_true, Bool.true_and]
  have : (fun i : ℕ => decide (i = 0)) = (fun i : ℕ => decide (i < 1)) := by
    funext i; rw [decide_eq_decide]; omega
  rw [this]
  exact hfin

/-- **C252**, partial: on a series with a constant resolution, `derivative(normalize=False, diffs=True)` is `diff()`.  Missing: `diffs=True`
alone (`C252_false`). -/
theorem C252_diff_partial (cal : Calendar) (s : TSeries) (auto : ℚ) (hne : s.items ≠ []) (hres : s.res ≠ .varying) :
    s.derivativeWith cal auto false true = s.diffOp cal := by
  unfold TSeries.derivativeWith TSeries.diffOp TSeries.normOpt
  have : s.items.isEmpty = false := by cases h : s.items with
    | nil => exact absurd h hne
    | cons a b => rfl
  rw [this]
  simp only [Bool.false_eq_true, if_false, hres, Bool.true_and]
  rfl

/-- **C252**, partial: `derivative(normalize=False, diffs=True)` gives the differences, with constant or variable resolutions (while `diff()`
refuses variable ones): one item for each one but the first, in its place, with its indexes, holding the value of the item minus that of the
item before, under the label with the postfix `diff`. -/
theorem C252_computes_partial {cal : Calendar} {s : TSeries} {ks : List String} (h : OpSeries cal s ks) (auto : ℚ) (hl : 2 ≤ s.items.length) :
    ∃ r, s.derivativeWith cal auto false true = .ok r ∧
      Computes s.items r.items 1 ks (resultLabel s.items "diff") (fun i k => valueAt s.items i k - valueAt s.items (i - 1) k) ∧
      (∀ (j : ℕ) (x y : Item), s.items[j + 1]? = some x → r.items[j]? = some y → y.idx = x.idx) ∧
      (s.res = .varying → s.diffOp cal = .error .valueError) := by
  obtain ⟨r, hr⟩ := runs_diffs h auto hl
  refine ⟨r, hr.run, hr.comp, fun j x y hx hy => by simpa using hr.idx j x y (by rw [Nat.add_comm]; exact hx) hy, ?_⟩
  intro hv
  unfold TSeries.diffOp
  rw [hv]
  simp

/-- **C252 is false** of `derivative(diffs=True)`: the differences are divided by the sampling interval (for variable resolutions, by the
autodetected one whatever the distance of the two items), and their labels are those of derivatives. -/
theorem C252_false {cal : Calendar} {s : TSeries} {ks : List String} (h : OpSeries cal s ks) {auto : ℚ} {vary : Bool} {si : ℚ}
    (hni : s.normInfo cal auto = .ok (vary, si)) (hsi : si ≠ 0) (hl : 2 ≤ s.items.length) :
    ∃ r, s.derivativeWith cal auto true true = .ok r ∧
      Computes s.items r.items 1 ks (resultLabel s.items "derivative") (fun i k => (valueAt s.items i k - valueAt s.items (i - 1) k) / si) := by
  obtain ⟨r, hr⟩ := runs_diffs_norm h hni hsi hl
  exact ⟨r, hr.run, hr.comp⟩

/-- the series 10, 12, 15 every minute: the differences are 2 and 3, those of `derivative(diffs=True)` are 1/30 and 1/20 -/
theorem C252_witness : OpSeries physicalCalendar tenSeries ["v"] ∧ tenSeries.normInfo physicalCalendar 0 = .ok (false, 60) ∧
    (tenSeries.derivativeWith physicalCalendar 0 true true).toOption.map (fun r => r.items.map Item.data) =
      some [some (.dict [("v_derivative", 1 / 30)]), some (.dict [("v_derivative", 1 / 20)])] ∧
    (tenSeries.derivativeWith physicalCalendar 0 false true).toOption.map (fun r => r.items.map Item.data) =
      some [some (.dict [("v_diff", 2)]), some (.dict [("v_diff", 3)])] :=
  ⟨tenSeries_op, by decide +kernel, by decide +kernel, by decide +kernel⟩

/-! ## C253: `normalize=False` -/

/-- the increments per step: at the ends that of the only step, inside half of that of the two steps -/
def stepIncrement (l : List Item) (i : ℕ) (k : String) : ℚ :=
  if i = 0 then valueAt l 1 k - valueAt l 0 k
  else if i + 1 = l.length then valueAt l i k - valueAt l (i - 1) k
  else (valueAt l (i + 1) k - valueAt l (i - 1) k) / 2

theorem runs_derivative_raw {cal : Calendar} {s : TSeries} {ks : List String} (h : OpSeries cal s ks) (auto : ℚ) (hl : 2 ≤ s.items.length) :
    ∃ r, Runs cal (fun s => s.derivativeWith cal auto false false) s ks (resultLabel s.items "diff") 0 true (stepIncrement s.items) r := by
  obtain ⟨x, r0, d, kk, r, hi, hd, hprep, hp, hfin, hop, hcomp, hidx, _⟩ := itemOp_spec h
      (fun k => withPostfix k "diff") (fun a b hab => withPostfix_inj hab) true
      (fun i _ k => derivVal s.items none false i k) (stepIncrement s.items) 0 (by omega) (by
        intro i x hx hm k hk
        have hlt := valAt_lt hx
        unfold derivVal stepIncrement
        rw [h.valAt hlt hk, h.valAt (show i - 1 < s.items.length by omega) hk]
        simp only [Bool.false_eq_true, if_false]
        by_cases h0 : i = 0
        · subst h0
          rw [h.valAt (show 0 + 1 < s.items.length by omega) hk]
          simp
        · rw [if_neg h0, if_neg h0]
          by_cases h1 : i + 1 = s.items.length
          · rw [if_pos h1, if_pos h1]
          · rw [if_neg h1, if_neg h1, h.valAt (show i + 1 < s.items.length by omega) hk]
            dsimp only
            congr 1
            ring)
  rw [lab_eq_resultLabel hi hd] at hcomp hop
  refine ⟨r, ?_, hop, hcomp, hidx⟩
  unfold TSeries.derivativeWith TSeries.normOpt
  rw [hprep]
  dsimp only
  rw [if_neg (by omega)]
  simp only [Bool.false_eq_true, if_false, Bool.false_and]
  simpa using hfin

/-- **C253**: `derivative(normalize=False)` gives for each item the increment per step (at the ends that of the only step, inside the mean of
the two), under the label with the postfix `diff`; on a series with a constant resolution these are the values of `derivative()` times the
sampling interval. -/
theorem C253_increments {cal : Calendar} {s : TSeries} {ks : List String} (h : OpSeries cal s ks) (auto : ℚ) (hl : 2 ≤ s.items.length) :
    ∃ r, s.derivativeWith cal auto false false = .ok r ∧ Computes s.items r.items 0 ks (resultLabel s.items "diff") (stepIncrement s.items) ∧
      (∀ (j : ℕ) (x y : Item), s.items[j]? = some x → r.items[j]? = some y → y.idx = x.idx) ∧
      ∀ si, s.normInfo cal auto = .ok (false, si) → si ≠ 0 → ∃ d, s.derivativeOp cal auto = .ok d ∧
        d.items.length = r.items.length ∧ ∀ i < s.items.length, ∀ k ∈ ks,
          valueAt r.items i (resultLabel s.items "diff" k) = valueAt d.items i (resultLabel s.items "derivative" k) * si := by
  obtain ⟨r, hr⟩ := runs_derivative_raw h auto hl
  refine ⟨r, hr.run, hr.comp, fun j x y hx hy => by simpa using hr.idx j x y (by simpa using hx) hy, ?_⟩
  intro si hni hsi
  obtain ⟨d, hd⟩ := runs_derivative h hni hsi hl
  refine ⟨d, hd.run, by rw [hd.comp.length, hr.comp.length], ?_⟩
  intro i hi k hk
  have e1 := hr.comp.valueAt (j := i) (by rw [hr.comp.length]; simpa using hi) hk
  have e2 := hd.comp.valueAt (j := i) (by rw [hd.comp.length]; simpa using hi) hk
  rw [e1, e2]
  simp only [Nat.zero_add]
  unfold stepIncrement slopeAt
  simp only [Bool.false_eq_true, if_false]
  split_ifs <;> field_simp

theorem C253_witness : OpSeries physicalCalendar tenSeries ["v"] ∧ tenSeries.normInfo physicalCalendar 0 = .ok (false, 60) ∧
    (tenSeries.derivativeWith physicalCalendar 0 false false).toOption.map (fun r => r.items.map Item.data) =
      some [some (.dict [("v_diff", 2)]), some (.dict [("v_diff", 5 / 2)]), some (.dict [("v_diff", 3)])] :=
  ⟨tenSeries_op, by decide +kernel, by decide +kernel⟩

/-! ## C254: `integral(normalize=False)` -/

/-- **C254**: `integral(normalize=False, c=c)` gives for each item the constant of the label plus the sum of the values up to the item, under the
label with the postfix `csum`, with constant or variable resolutions; without a constant it is `csum()` where this is not refused. -/
theorem C254_sums {cal : Calendar} (back : TUnit → String → ℚ → ℚ) {s : TSeries} {ks : List String} (h : OpSeries cal s ks) (auto : ℚ)
    {c : NumOrDict} {c0 : String → ℚ} (hc : ∀ k ∈ ks, c.startOf k = some (c0 k)) :
    (∃ r, s.integralWith cal back auto false c (.num 0) = .ok r ∧ Computes s.items r.items 0 ks (resultLabel s.items "csum")
        (fun i k => c0 k + ((s.items.take (i + 1)).map (fun x => x.value k)).sum) ∧
      (∀ (j : ℕ) (x y : Item), s.items[j]? = some x → r.items[j]? = some y → y.idx = x.idx)) ∧
    (s.res ≠ .varying → s.integralWith cal back auto false (.num 0) (.num 0) = s.csumOp cal) ∧
    (s.res = .varying → s.csumOp cal = .error .valueError) := by
  refine ⟨?_, ?_, ?_⟩
  · obtain ⟨d, kk, r, hprep, hfin, hop, hcomp, hidx⟩ := intOp_spec h none c "csum" (fun i k => c0 k + runningSum s.items k i)
      (fun kk i st => ∀ k ∈ kk, st.last.get? k = if i = 0 then none else some (c0 k + runningSum s.items k (i - 1)))
      (fun kk k _ => rfl) (by
        intro kk hp i st hi hinv
        obtain ⟨st', h1, h2, _⟩ := csum_labels_from h c c0 hc i hi kk (hp.nodup_iff.2 h.nodup) (fun k hk => hp.subset hk) st hinv
        exact ⟨st', h1, fun k hk => by simpa using h2 k hk⟩)
    refine ⟨r, ?_, ?_, hidx⟩
    · unfold TSeries.integralWith TSeries.normOpt
      rw [hprep]
      simp only [Bool.false_eq_true, if_false, NumOrDict.truthy, ne_eq, not_true_eq_false, decide_false]
      exact hfin
    · refine ⟨hcomp.length, hcomp.place, hcomp.labels, ?_⟩
      intro j y hy k hk
      have hj : 0 + j < s.items.length := by
        have := valAt_lt hy
        have := hcomp.length
        omega
      rw [hcomp.values j y hy k hk, runningSum_eq_sum _ _ _ hj]
  · intro hres
    unfold TSeries.integralWith TSeries.csumOp TSeries.normOpt
    rw [isDict_of_prep h hres]
    simp only [Bool.false_eq_true, if_false, hres, NumOrDict.truthy, ne_eq, not_true_eq_false, decide_false]
    rfl
  · intro hv
    unfold TSeries.csumOp
    rw [hv]
    simp

theorem C254_witness : OpSeries physicalCalendar tenSeries ["v"] ∧ (NumOrDict.num 1).startOf "v" = some 1 ∧
    (tenSeries.integralWith physicalCalendar (fun u _ t => t - u.secs) 0 false (.num 1) (.num 0)).toOption.map (fun r => r.items.map Item.data) =
      some [some (.dict [("v_csum", 11)]), some (.dict [("v_csum", 23)]), some (.dict [("v_csum", 38)])] :=
  ⟨tenSeries_op, rfl, by decide +kernel⟩

/-! ## C255: `integral(offset=o)` -/

/-- the loop with an item for the offset in front -/
theorem fromOffset_spec {cal : Calendar} {s : TSeries} {ks : List String} (h : OpSeries cal s ks) (back : TUnit → String → ℚ → ℚ)
    (norm : Option (Bool × ℚ)) (post : String) {o : NumOrDict} {c : String → ℚ} (hc : ∀ k ∈ ks, o.startOf k = some (c k))
    (hnum : ∀ y, o = .num y → ∀ x ∈ s.items, ∃ d, x.data = some (.dict d))
    {x : Item} (hx : s.items.head? = some x) {t0 : ℚ} {sl : Option (ℚ × TUnit)}
    (hoff : ∀ d, offsetItem cal back s x d = .ok (offsetAt t0 sl x.tz d)) (hj : ∀ d, JustBefore cal x (offsetAt t0 sl x.tz d))
    {d : Data} {kk : List String} (hprep : s.opPrep = .ok (d, kk)) (v : ℕ → String → ℚ)
    (hloop : intLoop cal s.items norm o d post kk 0 {} s.items = .ok ((s.items.zipIdx 0).map (fun p =>
      remake cal p.1 (makeData d (kk.map fun k => (withPostfix k post, v p.2 k))) p.1.idx))) :
    ∃ r p q, s.fromOffset cal back norm d post kk o = .ok r ∧
      finish (intLoop cal s.items norm o d post kk 0 {} s.items) = .ok q ∧ r.items = p :: q.items ∧
      OpSeries cal r (ks.map (resultLabel s.items post)) ∧ p.t = t0 ∧ p.slot = sl ∧ p.tz = x.tz ∧ p.idx = [("data_loss", some 0)] ∧
      LabelledBy p (ks.map (resultLabel s.items post)) ∧ (∀ k ∈ ks, p.value? (resultLabel s.items post k) = some (c k)) := by
  obtain ⟨x', r0, d', kk', hi, hd, hkk, hp, hprep'⟩ := h.opPrep
  have : x' = x := by rw [hi] at hx; simpa using hx
  subst this
  rw [hprep] at hprep'
  cases hprep'
  obtain ⟨s', hs', hi'⟩ := extend_front h hi (hj d) (by simp [offsetAt, hd])
  have hpos : 0 < s'.items.length := by rw [hi']; simp
  obtain ⟨r, h1, h2, h3, h4, _⟩ := table_build hs' hkk hp (ren := fun k => withPostfix k post)
    (fun a b hab => withPostfix_inj hab) true (fun i k => if i = 0 then c k else v (i - 1) k) 0 hpos
  obtain ⟨q, g1, _, _, _, _⟩ := table_build h hkk hp (ren := fun k => withPostfix k post)
    (fun a b hab => withPostfix_inj hab) true v 0 (List.length_pos_iff.2 h.ne)
  rw [lab_eq_resultLabel hi hd] at h2 h4
  have hshape : AllPoints s'.items ∨ RegularSlots cal.shift s'.items := by
    rcases hs'.shape with ⟨q, _⟩ | ⟨_, q⟩
    · exact .inl q
    · exact .inr q
  have htab : table cal s'.items d kk (fun k => withPostfix k post) true (fun i k => if i = 0 then c k else v (i - 1) k) 0 =
      offsetAt t0 sl x'.tz (makeData d (kk.map (fun k => (withPostfix k post, c k)))) ::
        (s.items.zipIdx 0).map (fun p => remake cal p.1 (makeData d (kk.map fun k => (withPostfix k post, v p.2 k))) p.1.idx) := by
    unfold table
    rw [List.drop_zero]
    conv_lhs => rw [hi']
    rw [List.zipIdx_cons, List.map_cons, zipIdx_one, List.map_map]
    congr 1
    simp only
    rw [remake_place hshape (by rw [hi']; simp)]
    simp [offsetAt]
  have htabq : table cal s.items d kk (fun k => withPostfix k post) true v 0 =
      (s.items.zipIdx 0).map (fun p => remake cal p.1 (makeData d (kk.map fun k => (withPostfix k post, v p.2 k))) p.1.idx) := by
    unfold table
    rw [List.drop_zero]
    simp
  have hri := build_items h1
  have hqi := build_items g1
  rw [htab] at hri
  rw [htabq] at hqi
  rw [← hqi] at hri
  refine ⟨r, _, q, ?_, ?_, hri, h2, rfl, rfl, rfl, rfl, ?_, ?_⟩
  · unfold TSeries.fromOffset
    rw [hx]
    simp only
    rw [offsetPairs_ok (fun k hk => hc k (hp.subset hk)) (by
      intro y hy
      obtain ⟨e, he⟩ := hnum y hy x' (by rw [hi]; simp)
      rw [hd] at he
      exact ⟨e, by simpa using he⟩)]
    simp only [hoff]
    rw [hloop]
    simp only
    rw [htab] at h1
    exact h1
  · rw [hloop, ← htabq]
    exact g1
  · exact h2.lab _ (by rw [hri]; exact List.mem_cons_self)
  · intro k hk
    have := (h4 0 _ _ (by rw [hi']; rfl) (by rw [hri]; rfl)).2.2 k hk
    simpa using this

theorem constOf_start {c : NumOrDict} {k : String} {v : ℚ} (h : c.startOf k = some v) : ConstOf c k v := by
  cases c with
  | num x => left; simp [NumOrDict.startOf] at h; rw [h]
  | dict d => right; exact ⟨d, rfl, h⟩

/-- The items of `r` are an item at `t0` with the values `c` and no data loss, followed by the items of `q`. -/
structure StartsWith (r q : List Item) (t0 : ℚ) (sl : Option (ℚ × TUnit)) (z : String) (ks : List String) (nl : String → String)
    (c : String → ℚ) : Prop where
  split : ∃ p, r = p :: q ∧ p.t = t0 ∧ p.slot = sl ∧ p.tz = z ∧ p.idx = [("data_loss", some 0)] ∧
    LabelledBy p (ks.map nl) ∧ (∀ k ∈ ks, p.value? (nl k) = some (c k))

theorem integral_offset {cal : Calendar} {s : TSeries} {ks : List String} (h : OpSeries cal s ks) (back : TUnit → String → ℚ → ℚ)
    {auto : ℚ} {vary : Bool} {si : ℚ} (hni : s.normInfo cal auto = .ok (vary, si)) (c0 : NumOrDict)
    {o : NumOrDict} {c : String → ℚ} (hc : ∀ k ∈ ks, o.startOf k = some (c k)) (htr : o.truthy = true)
    (hnum : ∀ y, o = .num y → ∀ x ∈ s.items, ∃ d, x.data = some (.dict d))
    {x : Item} (hx : s.items.head? = some x) {t0 : ℚ} {sl : Option (ℚ × TUnit)}
    (hoff : ∀ d, offsetItem cal back s x d = .ok (offsetAt t0 sl x.tz d)) (hj : ∀ d, JustBefore cal x (offsetAt t0 sl x.tz d)) :
    ∃ r q, s.integralFrom cal back auto c0 o = .ok r ∧ s.integralOp cal auto o = .ok q ∧
      StartsWith r.items q.items t0 sl x.tz ks (resultLabel s.items "integral") c ∧
      ∀ k ∈ ks, valueAt q.items 0 (resultLabel s.items "integral" k) = c k := by
  obtain ⟨x', r0, d, kk, hi, hd, hkk, hp, hprep⟩ := h.opPrep
  have hcc : ∀ k ∈ ks, ConstOf o k (c k) := fun k hk => constOf_start (hc k hk)
  obtain ⟨r, p, q, h1, h2, h3, h4, h5⟩ := fromOffset_spec h back (some (vary, si)) "integral" hc hnum hx hoff hj hprep
    (sharedVal s.items kk vary si c) (integral_loop h hcc hp d "integral")
  have hq : s.integralOp cal auto o = .ok q := by
    unfold TSeries.integralOp
    rw [hprep]
    dsimp only
    rw [hni]
    exact h2
  refine ⟨r, q, ?_, hq, ⟨p, h3, h5⟩, ?_⟩
  · unfold TSeries.integralFrom
    rw [hprep]
    dsimp only
    rw [hni]
    dsimp only
    rw [if_pos htr]
    exact h1
  · intro k hk
    obtain ⟨kk', q', _, hq', hcomp⟩ := integral_runs h hni hcc
    rw [hq] at hq'
    cases hq'
    have hpos : 0 < s.items.length := List.length_pos_iff.2 h.ne
    have := hcomp.valueAt (j := 0) (by rw [hcomp.length]; simpa using hpos) hk
    rw [this]
    simp [sharedVal]

/-- **C255**, partial (points): on a series of points with a resolution, `integral(offset=o)` is `integral(c=o)` with an item in front, one
resolution before the first point and with the values of the offset: the integral starts from the offset, at the first point too.  The
offset must be other than the number zero and have a value for each label, and for series of lists it must be a dictionary.
Missing: variable resolutions, and an integration constant given with the offset, which is ignored, as here whatever `c0` is (`C255_false`). -/
theorem C255_points_partial {cal : Calendar} {s : TSeries} {ks : List String} (h : OpSeries cal s ks) (hp : AllPoints s.items)
    (back : TUnit → String → ℚ → ℚ) {u : TUnit} (hres : s.res = .unit u) (hu : 1 / 10000 ≤ u.secs) (auto : ℚ) (c0 : NumOrDict)
    {o : NumOrDict} {c : String → ℚ} (hc : ∀ k ∈ ks, o.startOf k = some (c k)) (h0 : o ≠ .num 0)
    (hnum : ∀ y, o = .num y → ∀ x ∈ s.items, ∃ d, x.data = some (.dict d)) {x : Item} (hx : s.items.head? = some x) :
    ∃ r q, s.integralFrom cal back auto c0 o = .ok r ∧ s.integralOp cal auto o = .ok q ∧
      StartsWith r.items q.items (x.t - u.secs) none x.tz ks (resultLabel s.items "integral") c ∧
      ∀ k ∈ ks, valueAt q.items 0 (resultLabel s.items "integral" k) = c k := by
  have hxs : x.slot = none := by
    have := hp x (head_mem hx)
    simpa [Item.isSlot] using this
  obtain ⟨k, hk⟩ := List.exists_mem_of_ne_nil _ h.ksne
  obtain ⟨x', r0, d, kk, hi, _⟩ := h.opPrep
  have hni : s.normInfo cal auto = .ok (false, asSeconds cal u x') := by
    unfold TSeries.normInfo
    rw [hres, hi]
  refine integral_offset h back hni c0 hc (truthy_of_start (hc k hk) h0) hnum hx ?_ ?_
  · intro d
    unfold offsetItem
    rw [hxs, hres]
    rfl
  · intro d
    refine ⟨rfl, ?_⟩
    rw [hxs]
    exact ⟨rfl, by simp only [offsetAt]; linarith⟩

/-- **C255**, partial (slots): the same for slots, the item in front being the slot just before the first one. -/
theorem C255_slots_partial {cal : Calendar} {s : TSeries} {ks : List String} (h : OpSeries cal s ks) (hp : AllSlots s.items)
    (back : TUnit → String → ℚ → ℚ) (auto : ℚ) (c0 : NumOrDict) {o : NumOrDict} {c : String → ℚ} (hc : ∀ k ∈ ks, o.startOf k = some (c k))
    (h0 : o ≠ .num 0) (hnum : ∀ y, o = .num y → ∀ x ∈ s.items, ∃ d, x.data = some (.dict d)) {x : Item} (hx : s.items.head? = some x)
    (hb : cal.shift x.unit x.tz (back x.unit x.tz x.t) = x.t) :
    ∃ r q, s.integralFrom cal back auto c0 o = .ok r ∧ s.integralOp cal auto o = .ok q ∧
      StartsWith r.items q.items (back x.unit x.tz x.t) (some (x.t, x.unit)) x.tz ks (resultLabel s.items "integral") c ∧
      ∀ k ∈ ks, valueAt q.items 0 (resultLabel s.items "integral" k) = c k := by
  have hxs : x.isSlot = true := hp x (head_mem hx)
  obtain ⟨k, hk⟩ := List.exists_mem_of_ne_nil _ h.ksne
  obtain ⟨x', r0, d, kk, hi, _⟩ := h.opPrep
  obtain ⟨u, w, hu, _⟩ := (build_slotInv hp h.built).noUnit h.ne
  have hni : s.normInfo cal auto = .ok (false, asSeconds cal u x') := by
    unfold TSeries.normInfo
    rw [hu, hi]
  cases hsl : x.slot with
  | none => simp [Item.isSlot, hsl] at hxs
  | some p =>
    obtain ⟨e, u'⟩ := p
    have hxu : x.unit = u' := by simp [Item.unit, hsl]
    rw [hxu] at hb ⊢
    refine integral_offset h back hni c0 hc (truthy_of_start (hc k hk) h0) hnum hx ?_ ?_
    · intro d
      unfold offsetItem
      rw [hsl]
      simp only [hb]
      rfl
    · intro d
      refine ⟨rfl, ?_⟩
      rw [hsl]
      simp only [offsetAt]
      refine ⟨by rw [hb], ?_⟩
      rw [hb]
      simp [CloseTo]

/-- the values of an integral -/
def integralValues (l : List Item) (c o : NumOrDict) : Except PyErr (List (ℚ × Option Data)) :=
  bindE (bindE (TSeries.build l) (fun s => s.integralFrom physicalCalendar (fun u _ t => t - u.secs) 1 c o))
    (fun r => .ok (r.items.map (fun x => (x.t, x.data))))

/-- **C255 is false** of an integration constant given with an offset, which makes no difference, of a variable resolution (`TypeError`), and of an
offset of zero, for which no item is added. -/
theorem C255_false :
    integralValues tenTwelve (.num 5) (.num 1) = integralValues tenTwelve (.num 0) (.num 1) ∧
    integralValues tenTwelve (.num 5) (.num 1) = .ok [(-60, some (.dict [("v_integral", 1)])), (0, some (.dict [("v_integral", 1)])),
      (60, some (.dict [("v_integral", 601)])), (120, some (.dict [("v_integral", 1441)]))] ∧
    integralValues [mkPoint 0 (.dict [("v", 10)]), mkPoint 60 (.dict [("v", 12)]), mkPoint 180 (.dict [("v", 15)])] (.num 0) (.num 1) =
      .error .typeError ∧
    integralValues tenTwelve (.num 5) (.num 0) = .ok [(0, some (.dict [("v_integral", 5)])),
      (60, some (.dict [("v_integral", 605)])), (120, some (.dict [("v_integral", 1445)]))] := by
  decide +kernel

/-- a case of `C255_points_partial` -/
theorem C255_witness : OpSeries physicalCalendar tenSeries ["v"] ∧ tenSeries.res = .unit (TUnit.ofSecs 60) ∧
    1 / 10000 ≤ (TUnit.ofSecs 60).secs ∧ (NumOrDict.num 1).startOf "v" = some 1 := by
  refine ⟨tenSeries_op, by decide +kernel, by decide +kernel, rfl⟩

end Timeseria
