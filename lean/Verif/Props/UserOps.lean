import Verif.Model.UserOps
import Verif.Props.SlotStats

/-! # C292: aggregating with functions of the user -/

namespace Timeseria

theorem statOp_run (f : List ℚ → ℚ) (bare : Bool) (name : String) (ks : List String) (a b : ℚ) (v : List VPoint) :
    (userOp name (statistic f bare)).run ks a b v = perLabelDict ks (fun k =>
      match viewValues k v with
      | .error e => .error e
      | .ok l => .ok (f l)) := by
  unfold userOp statistic
  dsimp only
  cases h : perLabelDict ks (fun k =>
      match viewValues k v with
      | .error e => .error e
      | .ok l => .ok (f l)) with
  | error e => rfl
  | ok d =>
    have hk := perLabelDict_keys h
    cases bare with
    | false => rfl
    | true =>
      rcases d with _ | ⟨⟨k, x⟩, _ | ⟨p, q⟩⟩
      · rfl
      · subst hk
        rfl
      · rfl

theorem statOp_ok {f : List ℚ → ℚ} {bare : Bool} {name : String} {ks : List String} {a b : ℚ} {v : List VPoint} (h : ∀ q ∈ v, HasLabels ks q) :
    (userOp name (statistic f bare)).run ks a b v = .ok (ks.map (fun k => (k, f (v.map (VPoint.val k))))) := by
  rw [statOp_run]
  apply perLabelDict_ok
  intro k hk
  rw [viewValues_ok hk h]

/-- statistics with names of their own, without underscores -/
structure UserStats (ops : List SlotOp) : Prop where
  each : ∀ o ∈ ops, ∃ f bare, o = userOp o.name (statistic f bare)
  names : ClearNames ops

/-- **C292, partial**: an aggregation with functions of the user, each computing a statistic `f` of the values of the labels (as a
dictionary, or as a single value for a series with one label), gives for each slot and label: if the slot has points, `f` of their values
together with the middle ones of the values of consecutive points more than the sampling interval apart; if no point is within half a
sampling interval of the slot, `f` of the value halfway through it of the line through the points around it.  The names must be different
and without underscores.  Missing: slots without points partly covered (C279), functions that return a value for a series with several
labels (`C292_false`), functions with the same name (`C292_false_names`). -/
theorem C292_statistics_partial (clk : String → Grid) (n : ℕ) (z : String) (l : List Item) (s : TSeries) (h : DataSeries z l s)
    (hl : Lossless l) (hnd : LabelsOnce l) (unit : TUnit) (ops : List SlotOp) (hu : UserStats ops)
    (f : List ℚ → ℚ) (bare : Bool) (name : String) (ho : userOp name (statistic f bare) ∈ ops) (D : ℚ) (hpos : 0 < D)
    (hv : frontValidity n none (times l) = some (.ok D)) :
    ∃ r, s.aggregate clk n unit ops = some (.ok r) ∧ AggregatedTo (clk z) unit ops z l r.items ∧
      (PointsOrAway D l r.items → ∀ x ∈ r.items, ∀ k, SeriesLabel l k → ∃ v, x.value? (k ++ "_" ++ name) = some v ∧
          ((∃ y ∈ l, x.t ≤ y.t ∧ y.t < x.endT) → v = f (withMiddles D k (l.filter (inSlotOf x)))) ∧
          ((∀ y ∈ l, y.t + D / 2 ≤ x.t ∨ x.endT ≤ y.t - D / 2) → ∃ w, v = f [w] ∧ LineInSlot l x k w)) := by
  have hrun : ∀ o ∈ ops, ∃ f bare, ∀ ks a b v, o.run ks a b v = (userOp o.name (statistic f bare)).run ks a b v := by
    intro o ho
    obtain ⟨f, bare, e⟩ := hu.each o ho
    exact ⟨f, bare, fun ks a b v => by rw [← e]⟩
  obtain ⟨r, ks, a1, a2, a3, a4⟩ := aggregated_inner clk n z l s h hl hnd unit ops (List.ne_nil_of_mem ho) hu.names
    (fun ks hks o ho a b view hne hlab _ => by
      obtain ⟨f, bare, e⟩ := hrun o ho
      refine ⟨ks.map (fun k => (k, f (view.map (VPoint.val k)))), by rw [e, statOp_ok hlab], by simpa using hks⟩)
    (fun o ho ks a b v d hd => by
      obtain ⟨f, bare, e⟩ := hrun o ho
      rw [e, statOp_run] at hd
      exact perLabelDict_keys hd) D hpos hv
  refine ⟨r, a1, a2, ?_⟩
  intro hin x hx k hk
  have hk' := (a3 k).2 hk
  obtain ⟨inner, b1, b2, b3, b4, b5⟩ := a4 hin x hx
  obtain ⟨res, r1, r2⟩ := b3 _ ho rfl
  rw [statOp_ok b2] at r1
  cases r1
  refine ⟨f (inner.map (VPoint.val k)), ?_, ?_, ?_⟩
  · have := r2 k hk'
    rw [show (userOp name (statistic f bare)).name = name from rfl] at this
    rw [this]
    exact table_get? (fun k => f (inner.map (VPoint.val k))) hk'
  · intro hp
    rw [b4 hp k hk']
  · intro hout
    obtain ⟨i, y, y', c1, c2, c3, c4, c5⟩ := b5 hout k hk'
    exact ⟨_, by rw [c5], ⟨i, y, y', c1, c2, c3, c4, rfl⟩⟩

/-- the range (largest minus smallest) of some values -/
def spread (l : List ℚ) : ℚ := l.foldl max (l.headD 0) - l.foldl min (l.headD 0)

/-- how many values -/
def howMany (l : List ℚ) : ℚ := l.length

theorem C292_witness : DataSeries "UTC" gapPoints gapSeries ∧ Lossless gapPoints ∧ LabelsOnce gapPoints ∧
    UserStats [userOp "spread" (statistic spread true), userOp "count" (statistic howMany false)] ∧
    statsOf ["v_spread", "v_count"] (gapSeries.aggregate clock30 5 (TUnit.ofSecs 30)
        [userOp "spread" (statistic spread true), userOp "count" (statistic howMany false)]) =
      some (some [(0, [some 3, some 3]), (30, [some 0, some 1]), (60, [some 11, some 2])]) := by
  refine ⟨gapSeries_data, gapLossless.1, gapLossless.2, ⟨?_, ?_, ?_⟩, by decide +kernel⟩
  · intro o ho
    simp only [List.mem_cons, List.not_mem_nil, or_false] at ho
    rcases ho with rfl | rfl
    · exact ⟨spread, true, rfl⟩
    · exact ⟨howMany, false, rfl⟩
  · intro o ho
    simp only [List.mem_cons, List.not_mem_nil, or_false] at ho
    rcases ho with rfl | rfl <;> (dsimp only [userOp]; decide)
  · intro o ho o' ho' e
    simp only [List.mem_cons, List.not_mem_nil, or_false] at ho ho'
    rcases ho with rfl | rfl <;> rcases ho' with rfl | rfl <;> first | rfl | exact absurd e (by dsimp only [userOp]; decide)

/-- **C292 is false** for functions returning a single value: in a series with the labels `x` and `x_y` the value is stored for the first
label only, and nothing for the other. -/
theorem C292_false : (TSeries.build underPoints).toOption = some underSeries ∧
    statsOf ["x_spread", "x_y_spread"] (underSeries.aggregate clock60b 5 (TUnit.ofSecs 60) [userOp "spread" (firstOnly spread)]) =
      some (some [(0, [some 1, none])]) :=
  ⟨by decide +kernel, by decide +kernel⟩

/-- **C292 is false** for functions with the same name (as two lambdas): only the values of the last one are there. -/
theorem C292_false_names :
    statsOf ["v_<lambda>"] (gapSeries.aggregate clock30 5 (TUnit.ofSecs 30) [userOp "<lambda>" (statistic spread true)]) =
      some (some [(0, [some 3]), (30, [some 0]), (60, [some 11])]) ∧
    statsOf ["v_<lambda>"] (gapSeries.aggregate clock30 5 (TUnit.ofSecs 30)
        [userOp "<lambda>" (statistic spread true), userOp "<lambda>" (statistic howMany true)]) =
      some (some [(0, [some 3]), (30, [some 1]), (60, [some 2])]) :=
  ⟨by decide +kernel, by decide +kernel⟩

end Timeseria
