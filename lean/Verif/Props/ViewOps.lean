import Verif.Model.ViewOps
import Verif.Props.ViewObj
import Verif.Props.Pipeline

/-! # C293: operations on views give what they give on the copies -/

namespace Timeseria

/-- two series the operations cannot tell apart: same items, same resolution, both with labels or not -/
structure OpAlike (a b : TSeries) : Prop where
  items : a.items = b.items
  prep : a.opPrep = b.opPrep

theorem OpAlike.mapOp {a b : TSeries} (h : OpAlike a b) (cal : Calendar) (g) : a.mapOp cal g = b.mapOp cal g := by
  unfold TSeries.mapOp
  rw [h.prep, h.items]

theorem OpAlike.normalizeOp {a b : TSeries} (h : OpAlike a b) (cal : Calendar) (x y : ℚ) : a.normalizeOp cal x y = b.normalizeOp cal x y := by
  have hp : ∀ ks, perLabel a ks minMaxLoop = perLabel b ks minMaxLoop := by
    intro ks; unfold perLabel; rw [h.items]
  have hm := h.mapOp cal
  unfold TSeries.normalizeOp
  simp only [h.prep, hp, hm]

theorem OpAlike.normalizeFrom {a b : TSeries} (h : OpAlike a b) (cal : Calendar) (x y : ℚ) (src : Dict (ℚ × ℚ)) :
    a.normalizeFrom cal x y src = b.normalizeFrom cal x y src := by
  have hm := h.mapOp cal
  unfold TSeries.normalizeFrom
  simp only [h.prep, h.normalizeOp, hm]

theorem OpAlike.mavgOp {a b : TSeries} (h : OpAlike a b) (cal : Calendar) (w : Int) : a.mavgOp cal w = b.mavgOp cal w := by
  unfold TSeries.mavgOp
  rw [h.prep, h.items]

theorem OpAlike.filterOp {a b : TSeries} (h : OpAlike a b) (ls : List String) : a.filterOp ls = b.filterOp ls := by
  unfold TSeries.filterOp
  rw [h.prep, h.items]

theorem OpAlike.selectOp {a b : TSeries} (h : OpAlike a b) (k : String) (v : ℚ) : a.selectOp k v = b.selectOp k v := by
  unfold TSeries.selectOp
  rw [h.prep, h.items]

theorem OpAlike.normInfo {a b : TSeries} (h : OpAlike a b) (hr : a.res = b.res) (cal : Calendar) (auto : ℚ) :
    a.normInfo cal auto = b.normInfo cal auto := by
  unfold TSeries.normInfo
  rw [h.items, hr]

theorem OpAlike.derivativeOp {a b : TSeries} (h : OpAlike a b) (hr : a.res = b.res) (cal : Calendar) (auto : ℚ) :
    a.derivativeOp cal auto = b.derivativeOp cal auto := by
  unfold TSeries.derivativeOp
  simp only [h.prep, h.normInfo hr, h.items]

theorem OpAlike.diffOp {a b : TSeries} (h : OpAlike a b) (hr : a.res = b.res) (cal : Calendar) :
    a.diffOp cal = b.diffOp cal := by
  unfold TSeries.diffOp
  rw [h.prep, hr, h.items]

theorem OpAlike.fromOffset {a b : TSeries} (h : OpAlike a b) (hr : a.res = b.res) (cal : Calendar) (back) (norm) (proto : Data) (post : String)
    (ks : List String) (o : NumOrDict) : a.fromOffset cal back norm proto post ks o = b.fromOffset cal back norm proto post ks o := by
  have ho : ∀ x d, offsetItem cal back a x d = offsetItem cal back b x d := by
    intro x d; unfold offsetItem; rw [hr]
  unfold TSeries.fromOffset
  simp only [ho, h.items]

theorem OpAlike.csumFrom {a b : TSeries} (h : OpAlike a b) (hr : a.res = b.res) (cal : Calendar) (back) (o : Option NumOrDict) :
    a.csumFrom cal back o = b.csumFrom cal back o := by
  have hf := h.fromOffset hr cal back
  unfold TSeries.csumFrom
  rw [h.prep, hr, h.items]
  simp only [hf]

theorem OpAlike.integralFrom {a b : TSeries} (h : OpAlike a b) (hr : a.res = b.res) (cal : Calendar) (back) (auto : ℚ) (c o : NumOrDict) :
    a.integralFrom cal back auto c o = b.integralFrom cal back auto c o := by
  have hf := h.fromOffset hr cal back
  have hn := h.normInfo hr cal auto
  unfold TSeries.integralFrom
  rw [h.prep, hn, h.items]
  simp only [hf]

/-- the copy of a view is what the operations see of the view, but for the resolution -/
theorem View.shown_alike {cal : Calendar} {ks : List String} (v : View) (hv : v.Valid) (hs : OpSeries cal v.series ks)
    (hne : v.window ≠ []) :
    ∃ r, v.materialize = .ok r ∧ TSeries.build v.window = .ok r ∧ r.items = v.window ∧ OpAlike v.shown r := by
  have hgood := hs.good
  obtain ⟨r, hr, hri⟩ := C17_materialize v hv (hgood.imp id (·.1))
  rw [← View.window_slice] at hri
  have hbr : TSeries.build v.window = .ok r := by
    unfold View.materialize at hr
    rw [(C14_view_reads_like_slice v hv).2.2.1] at hr
    exact hr
  refine ⟨r, hr, hbr, hri, ⟨hri.symm, ?_⟩⟩
  have hsub : ∀ y ∈ v.window, y ∈ v.series.items := fun y hy => v.window_infix.subset hy
  obtain ⟨y, m, hw⟩ := List.exists_cons_of_ne_nil hne
  have hdi : DataInv r := build_dataInv (fun z hz => (hs.lab z (hsub z hz)).hasData hs.ksne) hbr
  obtain ⟨rf, hr1, hr2, _⟩ := hdi.ref (by rw [hri]; exact hne)
  obtain ⟨x, l, d, kk, hi, hd, hkk, hp, hprep⟩ := hs.opPrep
  have href : ∃ rf', v.series.ref = some rf' ∧ rf'.truthy = true := by
    unfold TSeries.opPrep at hprep
    rw [hi] at hprep
    dsimp only at hprep
    rw [hd] at hprep
    dsimp only at hprep
    unfold TSeries.labelsFrom at hprep
    cases hrf : v.series.ref with
    | none => rw [hrf] at hprep; cases hprep
    | some rf' =>
      rw [hrf] at hprep
      refine ⟨rf', rfl, ?_⟩
      cases ht : rf'.truthy with
      | true => rfl
      | false => simp [ht] at hprep
  obtain ⟨rf', hq1, hq2⟩ := href
  unfold TSeries.opPrep TSeries.labelsFrom
  rw [hri, show v.shown.items = v.window from rfl, hw, show v.shown.ref = v.series.ref from rfl, hq1, hr1]
  dsimp only
  rw [hq2, hr2]

/-- the operations which do not look at the resolution -/
def Stage.plain : Stage → Prop
  | .rescale _ | .offset _ | .normalize _ _ | .normalizeFrom _ _ _ | .mavg _ | .filter _ => True
  | _ => False

/-- the operations which do -/
def Stage.timed : Stage → Prop
  | .derivative | .integral _ _ | .diff | .csum _ => True
  | _ => False

/-- the autodetected sampling interval is computed from the items -/
def PipeEnv.FromItems (env : PipeEnv) : Prop := ∀ a b : TSeries, a.items = b.items → env.auto a = env.auto b

/-- **C293, partial**: on every view showing items of a series with indexed data, `rescale`, `offset`, `normalize` (also with a source
range), `mavg`, `filter` and the selection of items give exactly what they give on the materialized copy of the view, errors
included, whatever the arguments; so do `derivative`, `integral`, `diff` and `csum`, with any offset, if the copy has the
resolution of the series shown, as in the cases of C276.  Missing: the operations depending on the resolution for the other views (`C293_false`). -/
theorem C293_copy_partial {cal : Calendar} {ks : List String} (env : PipeEnv) (he : env.FromItems) (v : View) (hv : v.Valid)
    (hs : OpSeries cal v.series ks) (hne : v.window ≠ []) :
    ∃ r, v.materialize = .ok r ∧ r.items = v.window ∧
      (∀ st : Stage, st.plain → v.runOp env st = st.run env r) ∧
      (∀ k x, v.shown.selectOp k x = r.selectOp k x) ∧
      (r.res = v.series.res → ∀ st : Stage, st.timed → v.runOp env st = st.run env r) := by
  obtain ⟨r, hr, _, hri, ha⟩ := v.shown_alike hv hs hne
  refine ⟨r, hr, hri, ?_, ha.selectOp, ?_⟩
  · intro st hst
    cases st <;> simp only [Stage.plain] at hst <;> dsimp only [View.runOp, Stage.run]
    · exact congrArg some (ha.mapOp _ _)
    · exact congrArg some (ha.mapOp _ _)
    · rw [ha.normalizeOp]
    · rw [ha.normalizeFrom]
    · rw [ha.mavgOp]
    · rw [ha.filterOp]
  · intro hres st hst
    have hr' : v.shown.res = r.res := hres.symm
    cases st <;> simp only [Stage.timed] at hst <;> dsimp only [View.runOp, Stage.run]
    · rw [he _ _ ha.items, ha.derivativeOp hr']
    · rw [he _ _ ha.items, ha.integralFrom hr']
    · rw [ha.diffOp hr']
    · rw [ha.csumFrom hr']

/-- **C293 (constant resolution), partial**: with points at the same distance (at least two in the view), or slots, all these operations
give on the view what they give on its copy. -/
theorem C293_constant_partial {cal : Calendar} {ks : List String} (env : PipeEnv) (he : env.FromItems) (v : View) (hv : v.Valid)
    (hb : TSeries.build v.series.items = .ok v.series) (hs : OpSeries cal v.series ks)
    (h : (GoodPoints v.series.items ∧ 2 ≤ v.window.length ∧ ∃ d, UniformBy d v.series.items) ∨ (GoodSlots v.series.items ∧ v.window ≠ [])) :
    ∃ r, v.materialize = .ok r ∧ r.items = v.window ∧ ∀ st : Stage, st.plain ∨ st.timed → v.runOp env st = st.run env r := by
  have hne : v.window ≠ [] := by
    rcases h with ⟨_, h2, _⟩ | ⟨_, h⟩
    · intro e; rw [e] at h2; simp at h2
    · exact h
  obtain ⟨r, hr, hri, h1, _, h2⟩ := C293_copy_partial env he v hv hs hne
  obtain ⟨r', hr', hres⟩ := C276_constant_partial { view := v } hv hb h
  rw [show (ViewObj.mk v {}).view = v from rfl] at hr'
  rw [hr] at hr'
  cases hr'
  exact ⟨r, hr, hri, fun st hst => hst.elim (h1 st) (h2 hres st)⟩

/-- four points, the first three a minute apart -/
def patchyPoints : List Item := [mkPoint 0 (.dict [("v", 1)]), mkPoint 60 (.dict [("v", 3)]), mkPoint 120 (.dict [("v", 4)]), mkPoint 400 (.dict [("v", 5)])]

def patchySeries : TSeries :=
  match TSeries.build patchyPoints with
  | .ok s => s
  | .error _ => {}

/-- the view of the first three, and of the first one -/
def patchyView : View := { series := patchySeries, fromI := 0, toI := 3 }
def firstOfTen : View := { series := tenSeries, fromI := 0, toI := 1 }

/-- **C293 is false**: a view of equally spaced points of a series of variable resolution has no differences (`ValueError`), its copy has; a
view of one point of a series of constant resolution has an integral, its copy has none (`TypeError`). -/
theorem C293_false :
    ((patchyView.runOp exEnv .diff).map (fun r => r.toOption.isNone) = some true ∧
      patchyView.materialize.toOption.bind (fun c => (c.diffOp physicalCalendar).toOption.map (fun r => r.items.map (fun x => (x.t, x.data)))) =
        some [(60, some (.dict [("v_diff", 2)])), (120, some (.dict [("v_diff", 1)]))]) ∧
    ((firstOfTen.runOp exEnv (.integral (.num 0) (.num 0))).bind (fun r => r.toOption.map (fun r => r.items.map (fun x => (x.t, x.data)))) =
        some [(0, some (.dict [("v_integral", 0)]))] ∧
      firstOfTen.materialize.toOption.map (fun c => (c.integralFrom physicalCalendar exEnv.back 1 (.num 0) (.num 0)).toOption.isNone) = some true) := by
  refine ⟨⟨?_, ?_⟩, ?_, ?_⟩ <;> decide +kernel

/-- the last two of the three points of `tenSeries` -/
def tenView : View := { series := tenSeries, fromI := 1, toI := 3 }

theorem C293_witness : exEnv.FromItems ∧ tenView.Valid ∧ TSeries.build tenSeries.items = .ok tenSeries ∧
    OpSeries physicalCalendar tenView.series ["v"] ∧ GoodPoints tenView.series.items ∧ 2 ≤ tenView.window.length ∧
    UniformBy 60 tenView.series.items ∧
    (tenView.runOp exEnv .diff).bind (fun r => r.toOption.map (fun r => r.items.map (fun x => (x.t, x.data)))) =
        some [(120, some (.dict [("v_diff", 3)]))] := by
  refine ⟨fun _ _ _ => rfl, ⟨by decide, by decide, by decide +kernel⟩, tenSeries_op.built, tenSeries_op, ?_, by decide +kernel,
    ⟨by decide +kernel, by decide +kernel⟩, by decide +kernel⟩
  rcases tenSeries_op.good with h | h
  · exact h
  · exact absurd (h.1.slots (mkPoint 0 (.dict [("v", 10)])) (by decide +kernel)) (by decide)

end Timeseria
