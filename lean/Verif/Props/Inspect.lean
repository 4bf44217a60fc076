import Verif.Model.Inspect
import Verif.Props.DetectorFitClaims
import Mathlib.Order.Bounds.Basic

/-! # C233-C236: inspecting a fitted anomaly detector -/

namespace Timeseria

variable {I D : Type}

/-! ## Least and greatest elements -/

theorem pyMinOf_spec {l : List ℚ} (h : l ≠ []) : ∃ v, pyMinOf l = .ok v ∧ IsLeast {x | x ∈ l} v := by
  cases l with
  | nil => exact absurd rfl h
  | cons x r =>
    refine ⟨_, rfl, ?_⟩
    have : ∀ (r : List ℚ) (x : ℚ), (r.foldl (fun m y => if y < m then y else m) x) ∈ x :: r ∧
        ∀ y ∈ x :: r, (r.foldl (fun m y => if y < m then y else m) x) ≤ y := by
      intro r
      induction r with
      | nil => intro x; simp
      | cons z r ih =>
        intro x
        rw [List.foldl_cons]
        obtain ⟨h1, h2⟩ := ih (if z < x then z else x)
        have h3 := h2 _ List.mem_cons_self
        refine ⟨?_, ?_⟩
        · rcases List.mem_cons.1 h1 with h | h
          · rw [h]; split_ifs <;> simp
          · simp [h]
        · intro y hy
          rcases List.mem_cons.1 hy with rfl | hy
          · refine le_trans h3 ?_; split_ifs with hz
            · exact le_of_lt hz
            · exact le_refl _
          · rcases List.mem_cons.1 hy with rfl | hy
            · refine le_trans h3 ?_; split_ifs with hz
              · exact le_refl _
              · exact not_lt.1 hz
            · exact h2 y (by simp [hy])
    exact ⟨(this r x).1, fun y hy => (this r x).2 y hy⟩

theorem pyMaxOf_spec {l : List ℚ} (h : l ≠ []) : ∃ v, pyMaxOf l = .ok v ∧ IsGreatest {x | x ∈ l} v := by
  cases l with
  | nil => exact absurd rfl h
  | cons x r =>
    refine ⟨_, rfl, ?_⟩
    have : ∀ (r : List ℚ) (x : ℚ), (r.foldl (fun m y => if y > m then y else m) x) ∈ x :: r ∧
        ∀ y ∈ x :: r, y ≤ (r.foldl (fun m y => if y > m then y else m) x) := by
      intro r
      induction r with
      | nil => intro x; simp
      | cons z r ih =>
        intro x
        rw [List.foldl_cons]
        obtain ⟨h1, h2⟩ := ih (if z > x then z else x)
        have h3 := h2 _ List.mem_cons_self
        refine ⟨?_, ?_⟩
        · rcases List.mem_cons.1 h1 with h | h
          · rw [h]; split_ifs <;> simp
          · simp [h]
        · intro y hy
          rcases List.mem_cons.1 hy with rfl | hy
          · refine le_trans ?_ h3; split_ifs with hz
            · exact le_of_lt hz
            · exact le_refl _
          · rcases List.mem_cons.1 hy with rfl | hy
            · refine le_trans ?_ h3; split_ifs with hz
              · exact le_refl _
              · exact not_lt.1 hz
            · exact h2 y (by simp [hy])
    exact ⟨(this r x).1, fun y hy => (this r x).2 y hy⟩

/-! ## The reports -/

/-- Specification: the report on the errors `l` of a label. -/
structure ReportOf (k : String) (l : List ℚ) (r : LabelReport) : Prop where
  label : r.label = k
  avg : r.avg = (l.map (fun x => |x|)).sum / l.length
  least : IsLeast {x | ∃ e ∈ l, x = |e|} r.least
  most : IsGreatest {x | ∃ e ∈ l, x = |e|} r.most

theorem setOf_map_abs (l : List ℚ) : {x : ℚ | x ∈ l.map (fun x => |x|)} = {x | ∃ e ∈ l, x = |e|} := by
  ext x
  simp only [Set.mem_setOf_eq, List.mem_map]
  constructor
  · rintro ⟨e, h1, h2⟩; exact ⟨e, h1, h2.symm⟩
  · rintro ⟨e, h1, h2⟩; exact ⟨e, h1, h2.symm⟩

theorem plotBound_spec (f : List ℚ → Except PyErr ℚ) (l : List ℚ) (o : Option ℚ) {v : ℚ} (h : f l = .ok v) :
    plotBound f l o = .ok (o.getD v) := by
  cases o <;> simp [plotBound, h]

theorem labelReport_ok (k : String) {l : List ℚ} (hl : l ≠ []) (a : InspectArgs) :
    ∃ r x y, IsLeast {x | x ∈ l} x ∧ IsGreatest {x | x ∈ l} y ∧ ReportOf k l r ∧
      r.range = (if a.plot then some (a.xMin.getD x, a.xMax.getD y) else none) ∧
      labelReport k l a = .ok (r, if a.plot then { a with xMin := some (a.xMin.getD x), xMax := some (a.xMax.getD y) } else a) := by
  obtain ⟨x, hx1, hx2⟩ := pyMinOf_spec hl
  obtain ⟨y, hy1, hy2⟩ := pyMaxOf_spec hl
  obtain ⟨lo, h1, h2⟩ := pyMinOf_spec (l := l.map (fun x => |x|)) (by simpa using hl)
  obtain ⟨hi, h3, h4⟩ := pyMaxOf_spec (l := l.map (fun x => |x|)) (by simpa using hl)
  have hlen : l.length ≠ 0 := by simpa using hl
  rw [setOf_map_abs] at h2 h4
  refine ⟨⟨k, (l.map (fun x => |x|)).sum / l.length, lo, hi, if a.plot then some (a.xMin.getD x, a.xMax.getD y) else none⟩,
    x, y, hx2, hy2, ⟨rfl, rfl, h2, h4⟩, rfl, ?_⟩
  unfold labelReport
  rw [if_neg hlen, h1, h3]
  dsimp only
  cases hp : a.plot with
  | false => simp
  | true =>
    simp only [if_true]
    rw [plotBound_spec pyMinOf l a.xMin hx1, plotBound_spec pyMaxOf l a.xMax hy1]

/-- the errors of every label are there -/
def HasErrors (err : Dict (List ℚ)) (ks : List String) : Prop := ∀ k ∈ ks, ∃ l, err.get? k = some l ∧ l ≠ []

theorem inspectLoop_ok {d : DetData I D} {err : Dict (List ℚ)} {s : TSeries} (he : d.errors = some err) (ks : List String) :
    ∀ (a : InspectArgs), (a.series = true → d.seriesOfFit = .ok s) → HasErrors err ks →
    ∃ reps, d.inspectLoop a ks = .ok reps ∧
      List.Forall₂ (fun k (r : LabelReport × Option TSeries) => (∃ l, err.get? k = some l ∧ ReportOf k l r.1) ∧
        r.2 = if a.series then some s else none) ks reps ∧
      (a.plot = false → ∀ r ∈ reps, r.1.range = none) ∧
      (a.plot = true → ∀ k0 l0, ks.head? = some k0 → err.get? k0 = some l0 →
        ∃ x y, IsLeast {x | x ∈ l0} x ∧ IsGreatest {x | x ∈ l0} y ∧
          ∀ r ∈ reps, r.1.range = some (a.xMin.getD x, a.xMax.getD y)) := by
  induction ks with
  | nil => intro a _ _; exact ⟨[], rfl, .nil, by simp, by simp⟩
  | cons k ks ih =>
    intro a hser hk
    obtain ⟨l, hl, hne⟩ := hk k (by simp)
    obtain ⟨rep, x, y, hx, hy, hrep, hrange, hlr⟩ := labelReport_ok k hne a
    obtain ⟨reps, h1, h2, h3, h4⟩ := ih
      (if a.plot then { a with xMin := some (a.xMin.getD x), xMax := some (a.xMax.getD y) } else a)
      (by cases a.plot <;> exact hser) (fun k' hk' => hk k' (by simp [hk']))
    have hs' : ∀ b : Bool, (if b then { a with xMin := some (a.xMin.getD x), xMax := some (a.xMax.getD y) } else a).series = a.series := by
      intro b; cases b <;> rfl
    have hp' : ∀ b : Bool, (if b then { a with xMin := some (a.xMin.getD x), xMax := some (a.xMax.getD y) } else a).plot = a.plot := by
      intro b; cases b <;> rfl
    rw [hs'] at h2
    rw [hp'] at h3 h4
    refine ⟨(rep, if a.series then some s else none) :: reps, ?_, ?_, ?_, ?_⟩
    · unfold DetData.inspectLoop
      rw [he]; dsimp only
      rw [hl]; dsimp only
      rw [hlr]; dsimp only
      by_cases hs : a.series = true
      · rw [if_pos hs, hser hs]; dsimp only
        rw [h1, if_pos hs]; rfl
      · rw [if_neg hs, h1, if_neg hs]; rfl
    · exact .cons ⟨⟨l, hl, hrep⟩, rfl⟩ h2
    · intro hp r hr
      rcases List.mem_cons.1 hr with rfl | hr
      · simp [hrange, hp]
      · exact h3 hp r hr
    · intro hp k0 l0 hk0 hl0
      simp only [List.head?_cons, Option.some.injEq] at hk0
      subst hk0
      rw [hl] at hl0
      cases hl0
      refine ⟨x, y, hx, hy, ?_⟩
      intro r hr
      rcases List.mem_cons.1 hr with rfl | hr
      · rw [hrange, if_pos hp]
      · rw [if_pos hp] at h4
        cases hks : ks with
        | nil =>
          rw [hks] at h2
          cases h2
          simp at hr
        | cons k1 ks1 =>
          obtain ⟨l1, hl1, _⟩ := hk k1 (by simp [hks])
          obtain ⟨x', y', _, _, h5⟩ := h4 hp k1 l1 (by simp [hks]) hl1
          have := h5 r hr
          simpa using this

theorem fitDists_keys {K : InnerKind I D} : ∀ {evs : List (String × List Evaluated)} {ds ds' : Dict D} {ss ss' : Dict ℚ},
    fitDists K evs ds ss = ((ds', ss'), .ok ()) → ∀ k, k ∈ ds'.keys ↔ k ∈ ds.keys ∨ ∃ e ∈ evs, e.1 = k := by
  intro evs
  induction evs with
  | nil =>
    intro ds ds' ss ss' h k
    simp only [fitDists, Prod.mk.injEq] at h
    rw [h.1.1]; simp
  | cons e evs ih =>
    intro ds ds' ss ss' h k
    obtain ⟨k', ev⟩ := e
    unfold fitDists at h
    split at h
    · cases (Prod.mk.inj h).2
    · split at h
      · cases (Prod.mk.inj h).2
      · rw [ih h k, Dict.mem_keys_set]
        simp only [List.mem_cons, exists_eq_or_imp]
        constructor
        · rintro ((rfl | h) | h)
          · right; left; rfl
          · left; exact h
          · right; right; exact h
        · rintro (h | rfl | h)
          · left; right; exact h
          · left; left; rfl
          · right; exact h

/-- what a successful fit which stores the errors leaves for the inspection -/
theorem fit_inspectable {K : InnerKind I D} {a : FitArgs} {d d' : DetData I D} {m : MSeries}
    (h : detFit K a d m = (d', .ok ())) (hs : a.store = true) :
    ∃ ks err ds, m.labels = .ok ks ∧ d'.errors = some err ∧ d'.dists = some ds ∧ (∀ k, k ∈ ds.keys ↔ k ∈ ks) ∧
      HasErrors err ds.keys := by
  obtain ⟨ks, w, d1, evs, ds, ss, hd⟩ := detFit_ok h
  obtain ⟨_, _, _, hds, _⟩ := hd.window'
  have herr : d'.errors = some (column Evaluated.error evs) := by
    rw [hd.result]; unfold DetData.storeValues; rw [hs]; rfl
  have hmem : ∀ k, k ∈ ds.keys ↔ k ∈ ks := by
    intro k
    rw [fitDists_keys hd.dists k]
    have hf := mapE_ok_inv hd.evals
    simp only [Dict.keys, List.map_nil, List.not_mem_nil, false_or]
    clear herr hds
    generalize evs = evs' at hf
    clear hd
    induction hf with
    | nil => simp
    | cons h1 _ ih =>
      simp only [List.mem_cons, exists_eq_or_imp, (evalLabel_ok h1).1]
      constructor
      · rintro (h | h)
        · left; exact h.symm
        · right; exact ih.1 h
      · rintro (h | h)
        · left; exact h.symm
        · right; exact ih.2 h
  refine ⟨ks, _, ds, hd.labels, herr, hds, hmem, ?_⟩
  intro k hk
  obtain ⟨ev, h1, h2, _⟩ := hd.label ((hmem k).1 hk)
  refine ⟨_, h2 _, ?_⟩
  have := fitDists_two hd.dists _ h1
  intro e
  simp only [List.map_eq_nil_iff] at e
  rw [e] at this
  simp at this

/-! ## C233 -/

/-- **C233**: after a fit which stores the errors, inspecting the detector succeeds, with whatever bounds for the plot, and
prints for every label of the series, and no other, the average, the smallest and the largest absolute value of the
errors stored for that label. -/
theorem C233_reports {K : InnerKind I D} {a : FitArgs} {d d' : DetData I D} {m : MSeries}
    (h : detFit K a d m = (d', .ok ())) (hs : a.store = true) (b : InspectArgs) (hb : b.series = false) :
    ∃ ks err reps, m.labels = .ok ks ∧ d'.errors = some err ∧ d'.inspect b = .ok reps ∧
      (∀ k, k ∈ ks ↔ ∃ r ∈ reps, r.1.label = k) ∧
      (∀ r ∈ reps, ∃ l, err.get? r.1.label = some l ∧ ReportOf r.1.label l r.1) := by
  obtain ⟨ks, err, ds, h1, h2, h3, h4, h5⟩ := fit_inspectable h hs
  obtain ⟨reps, h6, h7, h8⟩ := inspectLoop_ok (s := {}) h2 ds.keys b (by simp [hb]) h5
  refine ⟨ks, err, reps, h1, h2, ?_, ?_, ?_⟩
  · unfold DetData.inspect; rw [h3]; exact h6
  · intro k
    rw [← h4]
    generalize ds.keys = ds' at h7 ⊢
    clear h8 h6 h5 h4
    induction h7 with
    | nil => simp
    | cons q1 _ ih =>
      obtain ⟨⟨l, _, q2⟩, _⟩ := q1
      simp only [List.mem_cons, exists_eq_or_imp, q2.label]
      constructor
      · rintro (h | h)
        · left; exact h.symm
        · right; exact ih.1 h
      · rintro (h | h)
        · left; exact h.symm
        · right; exact ih.2 h
  · intro r hr
    generalize ds.keys = ds' at h7
    clear h8 h6 h5 h4
    induction h7 with
    | nil => simp at hr
    | cons q1 _ ih =>
      rcases List.mem_cons.1 hr with rfl | hr
      · obtain ⟨⟨l, q3, q2⟩, _⟩ := q1
        exact ⟨l, by rw [q2.label]; exact q3, by rw [q2.label]; exact q2⟩
      · exact ih hr

/-! ## C234: the range of the plots -/

/-- the detector fitted on the series of two labels, and a plain inspection -/
def twoLabelFit : DetData (ℕ × ℚ) ℚ :=
  (detFit (firstKind false 1 1 0) { metric := "E" } {} (MSeries.ofSeries twoLabelSeries)).1

/-- the labels with the ranges of their plots -/
def plotRanges (r : Except PyErr (List (LabelReport × Option TSeries))) : Option (List (String × Option (ℚ × ℚ))) :=
  match r with
  | .ok l => some (l.map (fun r => (r.1.label, r.1.range)))
  | .error _ => none

/-- **C234 is false**: the automatic range of the plot of the errors is computed from the errors of the first label only,
and used for all: the errors of the second label, from 0 to 20, are drawn between the bounds -9 and -7 of the first. -/
theorem C234_false : twoLabelFit.errors = some [("u", [-9, -9, -7, -7]), ("v", [0, 3, 20, 2])] ∧
    plotRanges (twoLabelFit.inspect {}) = some [("u", some (-9, -7)), ("v", some (-9, -7))] := by
  decide +kernel

/-- **C234 (all labels)**: whatever the errors, all the plots of an inspection have the same range. -/
theorem C234_same_false {d : DetData I D} {err : Dict (List ℚ)} {ds : Dict D} (he : d.errors = some err)
    (hd : d.dists = some ds) (hk : HasErrors err ds.keys) (hne : ds ≠ []) (b : InspectArgs) (hb : b.series = false)
    (hp : b.plot = true) :
    ∃ reps x y, d.inspect b = .ok reps ∧ ∀ r ∈ reps, r.1.range = some (x, y) := by
  obtain ⟨reps, h1, _, _, h4⟩ := inspectLoop_ok (s := {}) he ds.keys b (by simp [hb]) hk
  cases ds with
  | nil => exact absurd rfl hne
  | cons q r =>
    obtain ⟨l0, hl0, _⟩ := hk q.1 (by simp [Dict.keys])
    obtain ⟨x, y, _, _, h5⟩ := h4 hp q.1 l0 (by simp [Dict.keys]) hl0
    exact ⟨reps, _, _, by unfold DetData.inspect; rw [hd]; exact h1, h5⟩

/-- **C234, partial**: the plots are between the bounds given, and the automatic ones are the smallest and the
largest error of the first label.  (Missing: the automatic bounds of the other labels, of which the claim is
false.) -/
theorem C234_range_partial {d : DetData I D} {err : Dict (List ℚ)} {ds : Dict D} {k0 : String} {f0 : D} {l0 : List ℚ}
    (he : d.errors = some err) (hd : d.dists = some ((k0, f0) :: ds)) (hk : HasErrors err (Dict.keys ((k0, f0) :: ds)))
    (hl0 : err.get? k0 = some l0) (b : InspectArgs) (hb : b.series = false) :
    ∃ reps x y, d.inspect b = .ok reps ∧ IsLeast {x | x ∈ l0} x ∧ IsGreatest {x | x ∈ l0} y ∧
      (b.plot = false → ∀ r ∈ reps, r.1.range = none) ∧
      (b.plot = true → b.xMin = none → b.xMax = none → ∃ r, reps.head? = some r ∧ r.1.label = k0 ∧ r.1.range = some (x, y)) ∧
      (∀ u v, b.plot = true → b.xMin = some u → b.xMax = some v → ∀ r ∈ reps, r.1.range = some (u, v)) := by
  obtain ⟨reps, h1, h2, h3, h4⟩ := inspectLoop_ok (s := {}) he (Dict.keys ((k0, f0) :: ds)) b (by simp [hb]) hk
  obtain ⟨l1, hl1, hne⟩ := hk k0 (by simp [Dict.keys])
  rw [hl0] at hl1; cases hl1
  obtain ⟨x, _, hx⟩ := pyMinOf_spec hne
  obtain ⟨y, _, hy⟩ := pyMaxOf_spec hne
  refine ⟨reps, x, y, by unfold DetData.inspect; rw [hd]; exact h1, hx, hy, h3, ?_, ?_⟩
  · intro hp e1 e2
    obtain ⟨x', y', hx', hy', h5⟩ := h4 hp k0 l0 (by simp [Dict.keys]) hl0
    rw [hx'.unique hx, hy'.unique hy] at h5
    simp only [Dict.keys, List.map_cons] at h2
    cases h2 with
    | cons q1 q2 =>
      obtain ⟨⟨l, _, q3⟩, _⟩ := q1
      refine ⟨_, rfl, q3.label, ?_⟩
      rw [h5 _ List.mem_cons_self, e1, e2]; rfl
  · intro u v hp e1 e2 r hr
    obtain ⟨x', y', _, _, h5⟩ := h4 hp k0 l0 (by simp [Dict.keys]) hl0
    rw [h5 r hr, e1, e2]; rfl

/-! ## C235: errors which were not stored -/

/-- **C235 is false**: a detector fitted without storing the errors is meant to refuse to be inspected with a `ValueError`
which says so; the check comes too late and a `KeyError` is raised instead, whatever the arguments. -/
theorem C235_false {K : InnerKind I D} {a : FitArgs} {d' : DetData I D} {m : MSeries} {ks : List String}
    (h : detFit K a {} m = (d', .ok ())) (hs : a.store = false) (hks : m.labels = .ok ks) (hne : ks ≠ []) (b : InspectArgs) :
    d'.inspect b = .error .keyError := by
  obtain ⟨ks', w, d1, evs, ds, ss, hd⟩ := detFit_ok h
  have := hd.labels
  rw [hks] at this; cases this
  obtain ⟨_, _, _, hds, _⟩ := hd.window'
  have herr : d'.errors = none := by
    rw [hd.result]
    unfold DetData.storeValues DetData.reset DetData.storeValues
    simp only [hs, Bool.false_eq_true, if_false]
    have hin := hd.inner
    unfold fitInner at hin
    have hctx : ∀ (ks : List String) (d0 d1 : DetData I D) (o : Outcome), fitContext K m ks d0 = (d1, o) → d1.errors = d0.errors := by
      intro ks
      induction ks with
      | nil => intro d0 d1 o e; simp only [fitContext, Prod.mk.injEq] at e; rw [e.1]
      | cons k r ih =>
        intro d0 d1 o e
        unfold fitContext at e
        split at e
        · rw [← (Prod.mk.inj e).1]
        · split at e
          · rw [← (Prod.mk.inj e).1]
          · rw [ih _ _ _ e]
          · rw [ih _ _ _ e]
    split at hin
    · split at hin
      · cases (Prod.mk.inj hin).2
      · rw [hctx _ _ _ _ hin]
    · split at hin
      · cases (Prod.mk.inj hin).2
      · split at hin
        · cases (Prod.mk.inj hin).2
        · rw [← (Prod.mk.inj hin).1]
  have hk : ds.keys ≠ [] := by
    obtain ⟨k, r, e⟩ := List.exists_cons_of_ne_nil hne
    obtain ⟨ev, h1, _⟩ := hd.label (k := k) (by simp [e])
    intro hc
    have := (fitDists_keys hd.dists k).2 (.inr ⟨_, h1, rfl⟩)
    rw [hc] at this
    simp at this
  unfold DetData.inspect
  rw [hds]
  dsimp only
  obtain ⟨k, r, e⟩ := List.exists_cons_of_ne_nil hk
  rw [e]
  unfold DetData.inspectLoop
  rw [herr]

/-- the averages printed -/
def printedAverages (r : Except PyErr (List (LabelReport × Option TSeries))) : Option (List (String × ℚ)) :=
  match r with
  | .ok l => some (l.map (fun r => (r.1.label, r.1.avg)))
  | .error _ => none

/-- **C235 (earlier fit)**: if an earlier fit did store the errors, the inspection is not even refused: it prints
those of the earlier fit. -/
theorem C235_stale_false :
    printedAverages ((detFit (firstKind false 1 1 0) { metric := "E" } {} otherSeries).1.inspect {}) = some [("v", 8 / 3)] ∧
    printedAverages ((detFit (firstKind false 1 1 0) { metric := "E", store := false }
      (detFit (firstKind false 1 1 0) { metric := "E" } {} fiveSeries).1 otherSeries).1.inspect {}) = some [("v", 23 / 3)] ∧
    (detFit (firstKind false 1 1 0) { metric := "E", store := false }
      (detFit (firstKind false 1 1 0) { metric := "E" } {} fiveSeries).1 otherSeries).2.toOption.isSome := by
  decide +kernel

/-! ## C236: the series of the fit -/

/-- Specification: no label is the name of the predictions or of the errors of a label. -/
def NoClash (ks : List String) : Prop := ∀ k ∈ ks, ∀ k' ∈ ks, k ≠ k' ++ "_pred" ∧ k ≠ k' ++ "_err"

theorem pred_ne_err (k k' : String) : k ++ "_pred" ≠ k' ++ "_err" := by
  intro e
  have := congrArg (fun s : String => s.toList.getLast?) e
  simp [String.toList_append] at this

theorem fitPointData_other {act pred err : Dict (List ℚ)} {i : ℕ} {q : String} :
    ∀ (ks : List String) (acc r : Dict ℚ), fitPointData act pred err i ks acc = .ok r →
      (∀ k ∈ ks, q ≠ k ∧ q ≠ k ++ "_pred" ∧ q ≠ k ++ "_err") → r.get? q = acc.get? q := by
  intro ks
  induction ks with
  | nil => intro acc r h _; simp only [fitPointData, Except.ok.injEq] at h; rw [h]
  | cons k ks ih =>
    intro acc r h hq
    unfold fitPointData at h
    split at h
    · cases h
    · split at h
      · cases h
      · split at h
        · cases h
        · obtain ⟨q1, q2, q3⟩ := hq k (by simp)
          rw [ih _ _ h (fun k' hk' => hq k' (by simp [hk'])), Dict.get?_set, if_neg (Ne.symm q3), Dict.get?_set,
            if_neg (Ne.symm q2), Dict.get?_set, if_neg (Ne.symm q1)]

theorem valueAtPos_ok {d : Dict (List ℚ)} {k : String} {i : ℕ} {v : ℚ} (h : valueAtPos d k i = .ok v) :
    ∃ l, d.get? k = some l ∧ l[i]? = some v := by
  unfold valueAtPos at h
  split at h
  · cases h
  · rename_i l hl
    split at h
    · cases h
    · rename_i w hw
      cases h
      exact ⟨l, hl, hw⟩

theorem fitPointData_value {act pred err : Dict (List ℚ)} {i : ℕ} {k : String} :
    ∀ (ks : List String) (acc r : Dict ℚ), fitPointData act pred err i ks acc = .ok r → ks.Nodup → NoClash ks → k ∈ ks →
      ∃ a p e, valueAtPos act k i = .ok a ∧ valueAtPos pred k i = .ok p ∧ valueAtPos err k i = .ok e ∧
        r.get? k = some a ∧ r.get? (k ++ "_pred") = some p ∧ r.get? (k ++ "_err") = some e := by
  intro ks
  induction ks with
  | nil => intro acc r h _ _ hk; simp at hk
  | cons k0 ks ih =>
    intro acc r h hnd hc hk
    rw [List.nodup_cons] at hnd
    unfold fitPointData at h
    split at h
    · cases h
    · rename_i a ha
      split at h
      · cases h
      · rename_i p hp
        split at h
        · cases h
        · rename_i e he
          rcases List.mem_cons.1 hk with rfl | hk'
          · have hne : ∀ k' ∈ ks, k ≠ k' := fun k' hk' e => hnd.1 (e ▸ hk')
            have hpe := pred_ne_err
            refine ⟨a, p, e, ha, hp, he, ?_, ?_, ?_⟩
            · rw [fitPointData_other _ _ _ h (fun k' hk' => ⟨hne k' hk', hc k (by simp) k' (by simp [hk'])⟩),
                Dict.get?_set, if_neg (Ne.symm (hc k (by simp) k (by simp)).2), Dict.get?_set,
                if_neg (Ne.symm (hc k (by simp) k (by simp)).1), Dict.get?_set, if_pos rfl]
            · rw [fitPointData_other _ _ _ h (fun k' hk' => ⟨Ne.symm (hc k' (by simp [hk']) k (by simp)).1,
                  fun e => hne k' hk' ((String.append_left_inj "_pred").1 e), hpe k k'⟩),
                Dict.get?_set, if_neg (Ne.symm (hpe k k)), Dict.get?_set, if_pos rfl]
            · rw [fitPointData_other _ _ _ h (fun k' hk' => ⟨Ne.symm (hc k' (by simp [hk']) k (by simp)).2,
                  Ne.symm (hpe k' k), fun e => hne k' hk' ((String.append_left_inj "_err").1 e)⟩),
                Dict.get?_set, if_pos rfl]
          · exact ih _ _ h hnd.2 (fun x hx y hy => hc x (by simp [hx]) y (by simp [hy])) hk'

theorem fitPointData_keys {act pred err : Dict (List ℚ)} {i : ℕ} {q : String} :
    ∀ (ks : List String) (acc r : Dict ℚ), fitPointData act pred err i ks acc = .ok r →
      (q ∈ r.keys ↔ q ∈ acc.keys ∨ ∃ k ∈ ks, q = k ∨ q = k ++ "_pred" ∨ q = k ++ "_err") := by
  intro ks
  induction ks with
  | nil => intro acc r h; simp only [fitPointData, Except.ok.injEq] at h; rw [h]; simp
  | cons k ks ih =>
    intro acc r h
    unfold fitPointData at h
    split at h
    · cases h
    · split at h
      · cases h
      · split at h
        · cases h
        · rw [ih _ _ h, Dict.mem_keys_set, Dict.mem_keys_set, Dict.mem_keys_set]
          simp only [List.mem_cons, exists_eq_or_imp]
          generalize (∃ k ∈ ks, q = k ∨ q = k ++ "_pred" ∨ q = k ++ "_err") = X
          generalize (q ∈ acc.keys) = Y
          generalize (q = k ++ "_err") = Z
          generalize (q = k ++ "_pred") = W
          generalize (q = k) = V
          tauto

theorem fitPointData_total {act pred err : Dict (List ℚ)} {i : ℕ} :
    ∀ (ks : List String) (acc : Dict ℚ),
      (∀ k ∈ ks, ∀ d ∈ [act, pred, err], ∃ v, valueAtPos d k i = .ok v) → ∃ r, fitPointData act pred err i ks acc = .ok r := by
  intro ks
  induction ks with
  | nil => intro acc _; exact ⟨acc, rfl⟩
  | cons k ks ih =>
    intro acc h
    obtain ⟨a, ha⟩ := h k (by simp) act (by simp)
    obtain ⟨p, hp⟩ := h k (by simp) pred (by simp)
    obtain ⟨e, he⟩ := h k (by simp) err (by simp)
    unfold fitPointData
    rw [ha]; dsimp only
    rw [hp]; dsimp only
    rw [he]; dsimp only
    exact ih _ (fun k' hk' => h k' (by simp [hk']))

/-- the values of all the labels, as many as said -/
def AllOfLength (d : Dict (List ℚ)) (ks : List String) (n : ℕ) : Prop := ∀ k ∈ ks, ∃ l, d.get? k = some l ∧ l.length = n

theorem allOfLength_value {d : Dict (List ℚ)} {ks : List String} {n i : ℕ} (h : AllOfLength d ks n) (hi : i < n) {k : String}
    (hk : k ∈ ks) : ∃ v, valueAtPos d k i = .ok v := by
  obtain ⟨l, h1, h2⟩ := h k hk
  refine ⟨l[i]'(by omega), ?_⟩
  unfold valueAtPos
  rw [h1]; dsimp only
  rw [List.getElem?_eq_getElem (by omega)]

/-- Specification: a point of the series of the fit, for a label. -/
structure FitPointAt (act pred err : Dict (List ℚ)) (k : String) (i : ℕ) (x : Item) : Prop where
  t : x.t = i
  actual : ∃ l v, act.get? k = some l ∧ l[i]? = some v ∧ x.val? k = some v
  predicted : ∃ l v, pred.get? k = some l ∧ l[i]? = some v ∧ x.val? (k ++ "_pred") = some v
  error : ∃ l v, err.get? k = some l ∧ l[i]? = some v ∧ x.val? (k ++ "_err") = some v

theorem fitSeries_ok {act pred err : Dict (List ℚ)} {n : ℕ} (hne : act ≠ []) (hnd : act.keys.Nodup) (hc : NoClash act.keys)
    (ha : AllOfLength act act.keys n) (hp : AllOfLength pred act.keys n) (he : AllOfLength err act.keys n) :
    ∃ s, fitSeries act pred err = .ok s ∧ s.items.length = n ∧
      ∀ k ∈ act.keys, ∀ i x, s.items[i]? = some x → FitPointAt act pred err k i x := by
  have htot : ∀ i ∈ List.range n, ∃ d, fitPointData act pred err i act.keys [] = .ok d := by
    intro i hi
    refine fitPointData_total _ _ ?_
    intro k hk d hd
    have hi' : i < n := by simpa using hi
    simp only [List.mem_cons, List.not_mem_nil, or_false] at hd
    rcases hd with rfl | rfl | rfl
    · exact allOfLength_value ha hi' hk
    · exact allOfLength_value hp hi' hk
    · exact allOfLength_value he hi' hk
  have hlen : ∃ k l r, act = (k, l) :: r ∧ l.length = n := by
    cases h : act with
    | nil => exact absurd h hne
    | cons q r =>
      obtain ⟨l, h1, h2⟩ := ha q.1 (by simp [h, Dict.keys])
      rw [h, Dict.get?_cons, if_pos rfl] at h1
      cases h1
      exact ⟨q.1, q.2, r, rfl, h2⟩
  have hmap : ∃ its, mapE (fitPoint act pred err) (List.range n) = .ok its := by
    apply mapE_total
    intro i hi
    obtain ⟨d, hd⟩ := htot i hi
    exact ⟨{ t := i, data := some (.dict d) }, by unfold fitPoint; rw [hd]⟩
  obtain ⟨its, hits⟩ := hmap
  have hf := mapE_ok_inv hits
  have hil : its.length = n := by rw [← hf.length_eq, List.length_range]
  have hat : ∀ i x, its[i]? = some x → ∃ d, fitPointData act pred err i act.keys [] = .ok d ∧
      x = { t := (i : ℚ), data := some (.dict d) } := by
    intro i x hx
    have hi : i < n := by
      rw [← hil]; exact (List.getElem?_eq_some_iff.1 hx).1
    have := forall₂_getElem? hf (List.getElem?_range hi) hx
    unfold fitPoint at this
    split at this
    · cases this
    · rename_i d hd
      cases this
      exact ⟨d, hd, rfl⟩
  have hdata : ∀ x ∈ its, ∃ i d, fitPointData act pred err i act.keys [] = .ok d ∧ x = { t := (i : ℚ), data := some (.dict d) } := by
    intro x hx
    obtain ⟨i, hi⟩ := List.getElem?_of_mem hx
    obtain ⟨d, h1, h2⟩ := hat i x hi
    exact ⟨i, d, h1, h2⟩
  have hgood : GoodPoints its := by
    refine ⟨?_, ?_, ?_, ?_⟩
    · intro x hx
      obtain ⟨i, d, _, rfl⟩ := hdata x hx
      rfl
    · rw [List.pairwise_iff_getElem]
      intro i j hi hj hij
      obtain ⟨_, _, e1⟩ := hat i _ (List.getElem?_eq_getElem hi)
      obtain ⟨_, _, e2⟩ := hat j _ (List.getElem?_eq_getElem hj)
      rw [e1, e2]
      dsimp only
      have : (i : ℚ) + 1 ≤ j := by exact_mod_cast hij
      linarith
    · intro x hx
      obtain ⟨i, d, h1, rfl⟩ := hdata x hx
      refine ⟨.dict d, rfl, ?_⟩
      obtain ⟨k, l, r, e, _⟩ := hlen
      have : k ∈ d.keys := (fitPointData_keys _ _ _ h1).2 (.inr ⟨k, by simp [e, Dict.keys], .inl rfl⟩)
      cases d with
      | nil => simp [Dict.keys] at this
      | cons q r => simp [Data.truthy]
    · intro x hx y hy d e hdx hdy
      obtain ⟨i, d', h1, rfl⟩ := hdata x hx
      obtain ⟨j, e', h2, rfl⟩ := hdata y hy
      cases hdx; cases hdy
      intro k
      rw [fitPointData_keys _ _ _ h1, fitPointData_keys _ _ _ h2]
  obtain ⟨s, hs1, hs2, _⟩ := build_good hgood
  refine ⟨s, ?_, by rw [hs2, hil], ?_⟩
  · obtain ⟨k, l, r, e, hl⟩ := hlen
    unfold fitSeries
    rw [e]
    dsimp only
    rw [hl, ← e, hits]
    exact hs1
  · intro k hk i x hx
    rw [hs2] at hx
    obtain ⟨d, h1, rfl⟩ := hat i x hx
    obtain ⟨a, p, v, ha', hp', hv', q1, q2, q3⟩ := fitPointData_value _ _ _ h1 hnd hc hk
    obtain ⟨l1, w1, w2⟩ := valueAtPos_ok ha'
    obtain ⟨l2, w3, w4⟩ := valueAtPos_ok hp'
    obtain ⟨l3, w5, w6⟩ := valueAtPos_ok hv'
    exact ⟨rfl, ⟨l1, a, w1, w2, q1⟩, ⟨l2, p, w3, w4, q2⟩, ⟨l3, v, w5, w6, q3⟩⟩

/-- **C236, partial**: after a fit which stores the errors, on a series no label of which is the name of the predictions
or of the errors of another one, inspecting the detector with its series shows for every label a series with one point for each
evaluated item, at the times 0, 1, 2, ..., with its actual value, its prediction and its error under the label,
the label with `_pred` and the label with `_err`.  (Missing: labels which clash, of which the claim is false.) -/
theorem C236_series_partial {K : InnerKind I D} {a : FitArgs} {d d' : DetData I D} {m : MSeries} {ks : List String}
    (h : detFit K a d m = (d', .ok ())) (hs : a.store = true) (hks : m.labels = .ok ks) (hne : ks ≠ []) (hnd : ks.Nodup)
    (hc : NoClash ks) (b : InspectArgs) (hb : b.series = true) :
    ∃ w act pred err reps s, d'.window = some w ∧ d'.actual = some act ∧ d'.predicted = some pred ∧ d'.errors = some err ∧
      d'.inspect b = .ok reps ∧ (∀ r ∈ reps, r.2 = some s) ∧ (∀ k ∈ ks, ∃ r ∈ reps, r.1.label = k) ∧
      s.items.length = evalEnd K.recon w m.items.length - (w + 1) ∧
      ∀ k ∈ ks, ∀ i x, s.items[i]? = some x → FitPointAt act pred err k i x := by
  obtain ⟨w, ks', av, pv, ev, h1, h2, h3, h4, h5, k1, k2, k3, hall⟩ := C153_stored h hs
  rw [hks] at h2; cases h2
  have ha : AllOfLength av av.keys (evalEnd K.recon w m.items.length - (w + 1)) := by
    rw [k1]; intro k hk
    obtain ⟨la, lp, le, q1, _, _, q4, _⟩ := hall k hk
    exact ⟨la, q1, q4⟩
  have hp : AllOfLength pv av.keys (evalEnd K.recon w m.items.length - (w + 1)) := by
    rw [k1]; intro k hk
    obtain ⟨la, lp, le, _, q2, _, q4, q5, _⟩ := hall k hk
    exact ⟨lp, q2, by rw [q5, q4]⟩
  have he : AllOfLength ev av.keys (evalEnd K.recon w m.items.length - (w + 1)) := by
    rw [k1]; intro k hk
    obtain ⟨la, lp, le, _, _, q3, q4, _, q6, _⟩ := hall k hk
    exact ⟨le, q3, by rw [q6, q4]⟩
  have hav : av ≠ [] := by
    rintro rfl
    simp only [Dict.keys, List.map_nil] at k1
    exact hne k1.symm
  obtain ⟨s, hs1, hs2, hs3⟩ := fitSeries_ok hav (by rw [k1]; exact hnd) (by rw [k1]; exact hc) ha hp he
  rw [k1] at hs3
  have hser : d'.seriesOfFit = .ok s := by
    unfold DetData.seriesOfFit
    rw [h3, h4, h5]; exact hs1
  obtain ⟨ks', err, ds, g1, g2, g3, g4, g5⟩ := fit_inspectable h hs
  rw [hks] at g1; cases g1
  rw [h5] at g2; cases g2
  obtain ⟨reps, h6, h7, h8⟩ := inspectLoop_ok h5 ds.keys b (fun _ => hser) g5
  refine ⟨w, av, pv, ev, reps, s, h1, h3, h4, h5, by unfold DetData.inspect; rw [g3]; exact h6, ?_, ?_, hs2, hs3⟩
  · intro r hr
    generalize ds.keys = ds' at h7
    clear h8 h6
    induction h7 with
    | nil => simp at hr
    | cons q1 _ ih =>
      rcases List.mem_cons.1 hr with rfl | hr
      · rw [q1.2, if_pos hb]
      · exact ih hr
  · intro k hk
    rw [← g4] at hk
    generalize ds.keys = ds' at h7 hk
    clear h8 h6
    induction h7 with
    | nil => simp at hk
    | cons q1 _ ih =>
      rcases List.mem_cons.1 hk with rfl | hk
      · obtain ⟨⟨l, _, q2⟩, _⟩ := q1
        exact ⟨_, List.mem_cons_self, q2.label⟩
      · obtain ⟨r, hr, e⟩ := ih hk
        exact ⟨r, by simp [hr], e⟩

/-- a series of two labels, the second of which is the name of the predictions of the first -/
def clashFit : DetData (ℕ × ℚ) ℚ :=
  (detFit (firstKind false 0 0 0) { metric := "E" } {} (MSeries.ofSeries (aSeries
    [mkPoint 0 (.dict [("v", 1), ("v_pred", 100)]), mkPoint 3600 (.dict [("v", 2), ("v_pred", 200)]),
     mkPoint 7200 (.dict [("v", 3), ("v_pred", 300)]), mkPoint 10800 (.dict [("v", 4), ("v_pred", 400)])]))).1

/-- the data of the first point of the series of the fit, and its predictions -/
def firstFitPoint (d : DetData (ℕ × ℚ) ℚ) : Option (Option Data) :=
  match d.seriesOfFit with
  | .ok s => s.items.head?.map (fun x => x.data)
  | .error _ => none

/-- **C236 is false**: with a label named as the predictions of another, the values of the former replace the predictions
of the latter: the series of the fit says that the prediction of `v` was 200, and it was 1. -/
theorem C236_false :
    clashFit.predicted = some [("v", [1, 1, 1]), ("v_pred", [1, 1, 1])] ∧
    firstFitPoint clashFit =
      some (some (.dict [("v", 2), ("v_pred", 200), ("v_err", 1), ("v_pred_pred", 1), ("v_pred_err", 199)])) := by
  decide +kernel

theorem C236_witness : (detFit (firstKind false 1 1 0) { metric := "E" } {} (MSeries.ofSeries twoLabelSeries)).2.toOption.isSome ∧
    (MSeries.ofSeries twoLabelSeries).labels = .ok ["u", "v"] ∧ NoClash ["u", "v"] ∧
    firstFitPoint twoLabelFit = some (some (.dict [("u", 1), ("u_pred", 10), ("u_err", -9), ("v", 10), ("v_pred", 10), ("v_err", 0)])) := by
  refine ⟨by decide +kernel, by decide +kernel, ?_, by decide +kernel⟩
  unfold NoClash
  decide +kernel

end Timeseria
