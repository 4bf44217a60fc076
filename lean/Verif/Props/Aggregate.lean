import Verif.Props.Transform

/-! # C45, C48, C49: aggregation -/

namespace Timeseria

/-! ## Points up to their values -/

/-- a point without its values -/
def strip (p : VPoint) : VPoint := { p with data := [] }

/-- the points `l` are those of `qs` apart from the values, and still have all the labels -/
structure Shape (ks : List String) (qs l : List VPoint) : Prop where
  strip : l.map strip = qs.map strip
  labels : ∀ p ∈ l, HasLabels ks p

theorem map_t_strip (l : List VPoint) : (l.map strip).map VPoint.t = l.map VPoint.t := by
  simp [strip, Function.comp_def]

theorem Shape.get? {ks : List String} {qs l : List VPoint} (h : Shape ks qs l) {i : ℕ} {p : VPoint} (hp : l[i]? = some p) :
    ∃ q, qs[i]? = some q ∧ Timeseria.strip p = Timeseria.strip q := by
  have e : (l.map Timeseria.strip)[i]? = some (Timeseria.strip p) := by rw [List.getElem?_map, hp]; rfl
  rw [h.strip, List.getElem?_map] at e
  rcases hq : qs[i]? with _ | q
  · rw [hq] at e; simp at e
  · rw [hq] at e
    simp only [Option.map_some, Option.some.injEq] at e
    exact ⟨q, rfl, e.symm⟩

theorem strip_fields {p q : VPoint} (h : strip p = strip q) :
    p.t = q.t ∧ p.vf = q.vf ∧ p.vt = q.vt ∧ p.idx = q.idx ∧ p.interp = q.interp := by
  unfold strip at h
  simp only [VPoint.mk.injEq, true_and] at h
  exact ⟨h.1, h.2.1, h.2.2.1, h.2.2.2.1, h.2.2.2.2⟩

theorem Shape.prepared {ks : List String} {ts : List ℚ} {qs l : List VPoint} (h : Shape ks qs l) (hp : Prepared ts qs) :
    Prepared ts l := by
  refine ⟨?_, hp.sorted, ?_, ?_, ?_⟩
  · rw [← hp.times, ← map_t_strip, h.strip, map_t_strip]
  · intro p hpm
    obtain ⟨i, hi, rfl⟩ := List.getElem_of_mem hpm
    obtain ⟨q, hq, he⟩ := h.get? (List.getElem?_eq_getElem hi)
    obtain ⟨e1, e2, e3, _⟩ := strip_fields he
    rw [e1, e2, e3]
    exact hp.region q (List.mem_of_getElem? hq)
  · intro p hpm
    obtain ⟨i, hi, rfl⟩ := List.getElem_of_mem hpm
    obtain ⟨q, hq, he⟩ := h.get? (List.getElem?_eq_getElem hi)
    obtain ⟨_, _, _, _, e5⟩ := strip_fields he
    rw [e5]
    exact hp.measured q (List.mem_of_getElem? hq)
  · rw [List.pairwise_iff_getElem]
    intro i j hi hj hij
    obtain ⟨q, hq, he⟩ := h.get? (List.getElem?_eq_getElem hi)
    obtain ⟨q', hq', he'⟩ := h.get? (List.getElem?_eq_getElem hj)
    obtain ⟨_, _, e3, _⟩ := strip_fields he
    obtain ⟨_, e2, _⟩ := strip_fields he'
    rw [e3, e2]
    exact (hp.lt hq hq' hij).2

theorem coverageSum_strip (a b : ℚ) (l : List VPoint) : coverageSum a b (l.map strip) = coverageSum a b l := by
  induction l with
  | nil => rfl
  | cons p r ih =>
    rw [List.map_cons, coverageSum, coverageSum, ih]
    rfl

theorem lossTerm_strip (si a b : ℚ) (p : VPoint) : lossTerm si a b (strip p) = lossTerm si a b p := rfl

theorem dataLossOf_strip (l : List VPoint) (hr fo : Bool) (si a b : ℚ) :
    dataLossOf (l.map strip) hr fo si a b = dataLossOf l hr fo si a b := by
  unfold dataLossOf coverage lossSum
  rw [coverageSum_strip, List.map_map]
  have e : (lossTerm si a b ∘ strip) = lossTerm si a b := rfl
  have e2 : (l.map strip).isEmpty = l.isEmpty := by cases l <;> rfl
  rw [e, e2]

theorem idxSlice_map (f : VPoint → VPoint) (l : List VPoint) (i j : ℕ) : idxSlice (l.map f) i j = (idxSlice l i j).map f := by
  unfold idxSlice
  rw [← List.map_drop, ← List.map_take]

theorem Shape.slice {ks : List String} {qs l : List VPoint} (h : Shape ks qs l) (i j : ℕ) :
    (idxSlice l i j).map Timeseria.strip = (idxSlice qs i j).map Timeseria.strip := by
  rw [← idxSlice_map, ← idxSlice_map, h.strip]

/-! ## Points falling in an interval -/

theorem filter_lt_take {ts : List ℚ} (hs : ts.Pairwise (· < ·)) (b : ℚ) :
    ts.filter (fun t => decide (t < b)) = ts.take (below ts b) := by
  induction ts with
  | nil => simp
  | cons t r ih =>
    rw [List.pairwise_cons] at hs
    by_cases h : t < b
    · have e : below (t :: r) b = below r b + 1 := by simp [below, h]
      rw [e, List.take_succ_cons, ← ih hs.2]
      simp [h]
    · have hall : ∀ u ∈ t :: r, ¬ u < b := by
        intro u hu
        rcases List.mem_cons.1 hu with rfl | hu
        · exact h
        · have := hs.1 u hu
          push Not at h ⊢
          linarith
      have e1 : (t :: r).filter (fun t => decide (t < b)) = [] := by
        rw [List.filter_eq_nil_iff]
        intro u hu
        simpa using not_lt.1 (hall u hu)
      have e : below (t :: r) b = 0 := by unfold below; rw [e1]; rfl
      rw [e, e1]; rfl

theorem slice_filter {ts : List ℚ} (hs : ts.Pairwise (· < ·)) (a b : ℚ) (hab : a ≤ b) :
    (ts.drop (below ts a)).take (below ts b - below ts a) = ts.filter (fun t => decide (a ≤ t ∧ t < b)) := by
  induction ts with
  | nil => simp
  | cons t r ih =>
    have hs' := List.pairwise_cons.1 hs
    by_cases h : t < a
    · have e1 : below (t :: r) a = below r a + 1 := by simp [below, h]
      have e2 : below (t :: r) b = below r b + 1 := by simp [below, lt_of_lt_of_le h hab]
      rw [e1, e2, List.drop_succ_cons, Nat.add_sub_add_right, ih hs'.2]
      have : ¬ (a ≤ t ∧ t < b) := fun hh => absurd hh.1 (not_le.2 h)
      rw [List.filter_cons, if_neg (by simpa using this)]
    · have hall : ∀ u ∈ t :: r, a ≤ u := by
        intro u hu
        rcases List.mem_cons.1 hu with rfl | hu
        · exact not_lt.1 h
        · have := hs'.1 u hu
          push Not at h
          linarith
      have e1 : below (t :: r) a = 0 := by
        unfold below
        rw [List.length_eq_zero_iff, List.filter_eq_nil_iff]
        intro u hu
        simpa using hall u hu
      rw [e1, List.drop_zero, Nat.sub_zero, ← filter_lt_take hs]
      apply List.filter_congr
      intro u hu
      simp [hall u hu]

theorem below_eq_iff_empty {ts : List ℚ} (hs : ts.Pairwise (· < ·)) {a b : ℚ} (hab : a ≤ b) :
    below ts a = below ts b ↔ ∀ t ∈ ts, ¬ (a ≤ t ∧ t < b) := by
  constructor
  · intro h t ht hc
    obtain ⟨i, hi, rfl⟩ := List.getElem_of_mem ht
    have e := List.getElem?_eq_getElem hi
    have h1 := (below_iff hs e (x := b)).2 hc.2
    rw [← h] at h1
    have := (below_iff hs e).1 h1
    linarith [hc.1]
  · intro h
    unfold below
    congr 1
    apply List.filter_congr
    intro t ht
    by_cases h1 : t < a
    · simp [h1, lt_of_lt_of_le h1 hab]
    · have : ¬ t < b := fun h2 => h t ht ⟨not_lt.1 h1, h2⟩
      simp [h1, this]

/-! ## Operations -/

/-- An operation that succeeds on every non-empty view with the labels and, if it uses weights, a positive total
weight. -/
def OpTotal (ks : List String) (o : SlotOp) : Prop :=
  ∀ a b view, view ≠ [] → (∀ p ∈ view, HasLabels ks p) → (o.weighted = true → 0 < (view.map (weightOf a b)).sum) →
    ∃ d, o.run ks a b view = .ok d ∧ d ≠ []

theorem avgSlotOp_total {ks : List String} (h : ks ≠ []) : OpTotal ks avgSlotOp := by
  intro a b view _ hl hw
  obtain ⟨d, h1, h2, _⟩ := avgView_ok hl (hw rfl)
  refine ⟨d, h1, ?_⟩
  rintro rfl
  exact h (by simpa [Dict.keys] using h2.symm)

theorem foldl_set_ne_nil {l : List (String × ℚ)} {s : String} (d : Dict ℚ) (h : l ≠ [] ∨ d ≠ []) :
    l.foldl (fun d kv => Dict.set d (kv.1 ++ s) kv.2) d ≠ [] := by
  induction l generalizing d with
  | nil => simpa using h
  | cons x r ih =>
    rw [List.foldl_cons]
    apply ih
    right
    cases d with
    | nil => simp [Dict.set]
    | cons y z =>
      simp only [Dict.set]
      split_ifs <;> simp

theorem slotOps_ok {c : Settings} {a b : ℚ} {view inner : List VPoint} (ops : List SlotOp)
    (h : ∀ o ∈ ops, ∃ d, o.run c.ks a b (if o.weighted then view else inner) = .ok d ∧ d ≠ []) :
    ∀ acc : Dict ℚ, (ops ≠ [] ∨ acc ≠ []) → ∃ d, ops.foldl (fun acc o =>
      match acc with
      | .error e => .error e
      | .ok d =>
        match o.run c.ks a b (if o.weighted then view else inner) with
        | .error e => .error e
        | .ok r => .ok (r.foldl (fun d kv => d.set (kv.1 ++ "_" ++ o.name) kv.2) d))
      (Except.ok acc : Except PyErr (Dict ℚ)) = .ok d ∧ d ≠ [] := by
  induction ops with
  | nil => intro acc hacc; exact ⟨acc, rfl, by simpa using hacc⟩
  | cons o r ih =>
    intro acc hacc
    obtain ⟨d, h1, h2⟩ := h o (by simp)
    rw [List.foldl_cons]
    simp only [h1]
    apply ih (fun o ho => h o (by simp [ho]))
    right
    have := foldl_set_ne_nil (l := d) (s := "_" ++ o.name) acc (.inl h2)
    simpa [String.append_assoc] using this

theorem slotData_ok {c : Settings} {a b loss : ℚ} {view inner : List VPoint} {ops : List SlotOp} (hops : ops ≠ [])
    (hks : c.ks ≠ [])
    (h : ∀ o ∈ ops, ∃ d, o.run c.ks a b (if o.weighted then view else inner) = .ok d ∧ d ≠ []) :
    ∃ d, slotData c ops a b loss view inner = .ok d ∧ d ≠ [] := by
  unfold slotData
  by_cases hf : loss = 1 ∧ fillTruthy c.fillWith = true
  · rw [if_pos hf]
    refine ⟨_, rfl, ?_⟩
    obtain ⟨k, ks', hk⟩ := List.exists_cons_of_ne_nil hks
    obtain ⟨o, os, ho⟩ := List.exists_cons_of_ne_nil hops
    rw [hk, ho]
    simp
  · rw [if_neg hf]
    exact slotOps_ok ops h [] (.inl hops)

/-! ## One slot -/

theorem get?_map_key {d : Dict ℚ} {f : String × ℚ → ℚ} {k : String} {v : ℚ} (h : d.get? k = some v) :
    ∃ v', Dict.get? (d.map (fun kv => (kv.1, f kv))) k = some v' := by
  unfold Dict.get? at h ⊢
  induction d with
  | nil => simp at h
  | cons x r ih =>
    obtain ⟨x1, x2⟩ := x
    simp only [List.map_cons, List.lookup_cons] at h ⊢
    by_cases e : (k == x1) = true
    · rw [e]; exact ⟨_, rfl⟩
    · have e' : (k == x1) = false := by simpa using e
      rw [e'] at h ⊢
      exact ih h

theorem scaleData_labels {ks : List String} {a b : ℚ} {p : VPoint} (h : HasLabels ks p) :
    HasLabels ks (scaleData ks a b p) := by
  intro k hk
  obtain ⟨v, hv⟩ := h k hk
  have e : (scaleData ks a b p).data =
      p.data.map (fun kv => (kv.1, if kv.1 ∈ ks then kv.2 + kv.2 * weightOf a b p else kv.2)) := by
    unfold scaleData
    apply List.map_congr_left
    intro kv _
    split_ifs <;> rfl
  rw [e]
  exact get?_map_key hv

theorem scaleData_weight {ks : List String} {a b : ℚ} (p : VPoint) : weightOf a b (scaleData ks a b p) = weightOf a b p := rfl

theorem scaleData_strip {ks : List String} {a b : ℚ} (p : VPoint) : strip (scaleData ks a b p) = strip p := rfl

/-- the slots whose points are used by the operations -/
structure AggregatedSlot (c : Settings) (unit : TUnit) (ops : List SlotOp) (ps : List VPoint) (a b : ℚ) (x : Item) : Prop where
  start : x.t = a
  slot : x.slot = some (b, unit)
  tz : x.tz = c.tz
  loss : x.idx.get? "data_loss" =
    some (some (c.forceLoss.getD (1 - coveredLength a b (withRegions c.si ps) / (b - a))))
  /-- the operations were given the points of the slot, interpolated ones apart -/
  points : ∃ d loss view inner, x.data = some (.dict d) ∧ d ≠ [] ∧ slotData c ops a b loss view inner = .ok d ∧
    ((view.filter (fun p => !p.interp)).map VPoint.t =
      ((involved (ps.map VPoint.t) (withRegions c.si ps) a b).map VPoint.t)) ∧
    ((∃ p ∈ ps, a ≤ p.t ∧ p.t < b) → (inner.filter (fun p => !p.interp)).map VPoint.t =
      (ps.map VPoint.t).filter (fun t => decide (a ≤ t ∧ t < b)))
  /-- the other indexes -/
  index : ∀ n ∈ c.names, n ≠ "data_loss" → ∃ o, x.idx.get? n = some o ∧ ∀ v, o = some v →
    ∀ lo hi, (∀ p, Involved ps a b p → ∀ y, p.idx.get? n = some (some y) → lo ≤ y ∧ y ≤ hi) → lo ≤ v ∧ v ≤ hi

theorem withRegions_idx {ps : List VPoint} {D : ℚ} {P : Idx → Prop} (h : ∀ p ∈ ps, P p.idx) :
    ∀ q ∈ withRegions D ps, P q.idx := by
  intro q hq
  unfold withRegions attach at hq
  obtain ⟨i, hi, rfl⟩ := List.getElem_of_mem hq
  rw [List.getElem_zipWith]
  have hi' : i < ps.length := by
    rw [List.length_zipWith] at hi
    omega
  exact h ps[i] (List.getElem_mem hi')

/-- a slot without points has at most two involved points -/
theorem involved_empty {ts : List ℚ} {qs : List VPoint} (h : Prepared ts qs) {a b : ℚ} (hg : GoodInterval ts a b)
    (he : below ts a = below ts b) : ∃ p q, involved ts qs a b = [p, q] := by
  have hl := h.length
  have h1 := hg.after
  have h2 := hg.before
  have hlen : (involved ts qs a b).length = 2 := by
    unfold involved idxSlice
    rw [List.length_take, List.length_drop]
    omega
  match hx : involved ts qs a b, hlen with
  | [p, q], _ => exact ⟨p, q, rfl⟩

theorem computeSlot_spec {c : Settings} (hsi : 0 < c.si) {ps : List VPoint} (hps : InputSeries c.ks ps)
    (hn : NoPreviousLoss ps) (hks : c.ks ≠ []) {unit : TUnit} {ops : List SlotOp} (hops : ops ≠ [])
    (htot : ∀ o ∈ ops, OpTotal c.ks o) {a b : ℚ}
    (hg : GoodInterval (ps.map VPoint.t) a b) {fst : Bool} {w : Work} (hw : Shape c.ks (withRegions c.si ps) w.ps) :
    ∃ x w', computeSlot c unit ops w (expectedJob (ps.map VPoint.t) a b fst) = .ok (x, w') ∧
      Shape c.ks (withRegions c.si ps) w'.ps ∧ AggregatedSlot c unit ops ps a b x ∧
      (((∃ p ∈ ps, a ≤ p.t ∧ p.t < b) ∨ coveredLength a b (withRegions c.si ps) = 0) → w'.ps = w.ps ∧
        ∃ view inner d, DenseRel c.ks (some a) (some b) (involved (ps.map VPoint.t) w.ps a b) view ∧
          (∀ p ∈ view, HasLabels c.ks p) ∧ (∀ p ∈ view, 0 ≤ weightOf a b p) ∧ 0 < (view.map (weightOf a b)).sum ∧
          x.data = some (.dict d) ∧
          slotData c ops a b (1 - coveredLength a b (withRegions c.si ps) / (b - a)) view inner = .ok d) := by
  set ts := ps.map VPoint.t with hts
  have hprep0 : Prepared ts (withRegions c.si ps) := by
    have := attach_prepared hsi hps.sorted hps.measured
    rwa [regionsLoop_none _ _ hps.sorted] at this
  have hprep := hw.prepared hprep0
  have hab := hg.lt
  obtain ⟨view, v1, v2, v3, v4, v5, v6, v7⟩ := job_view (c := c) hprep hg hw.labels
    (j := expectedJob ts a b fst) rfl rfl (viewStart_expected _ _ _ _) rfl
  have hinv : (involved ts w.ps a b).map strip = (involved ts (withRegions c.si ps) a b).map strip := hw.slice _ _
  have hmeas : ∀ p ∈ involved ts w.ps a b, p.interp = false := by
    intro p hp
    obtain ⟨m, _, _, hm⟩ := idxSlice_mem hp
    exact hprep.measured p (List.mem_of_getElem? hm)
  -- the data loss
  have hloss : dataLossOf view c.hasRes fst c.si a b = .ok (1 - coveredLength a b (withRegions c.si ps) / (b - a)) := by
    have e1 : dataLossOf view c.hasRes fst c.si a b = dataLossOf (involved ts w.ps a b) c.hasRes fst c.si a b := v7
    rw [e1, ← dataLossOf_strip, hinv, dataLossOf_strip]
    have hor : OrderedRegions (involved ts (withRegions c.si ps) a b) := by
      constructor
      · intro p hp
        obtain ⟨m, _, _, hm⟩ := idxSlice_mem hp
        have := hprep0.region p (List.mem_of_getElem? hm)
        linarith
      · unfold involved idxSlice
        exact (hprep0.ord.sublist (List.drop_sublist _ _)).sublist (List.take_sublist _ _)
    have hnp : NoPreviousLoss (involved ts (withRegions c.si ps) a b) := by
      intro p hp
      obtain ⟨m, _, _, hm⟩ := idxSlice_mem hp
      exact withRegions_idx (P := fun i => (i.get? "data_loss").join = none ∨ (i.get? "data_loss").join = some 0) hn p
        (List.mem_of_getElem? hm)
    obtain ⟨l, hl1, hl2, _⟩ := C37_fresh _ hor hnp c.hasRes fst c.si a b hab
    rw [hl1, hl2, not_involved_overlap hprep0 hg]
  set loss := 1 - coveredLength a b (withRegions c.si ps) / (b - a) with hlossdef
  have horig := v2.originals hmeas
  have hvt : (view.filter (fun p => !p.interp)).map VPoint.t = (involved ts (withRegions c.si ps) a b).map VPoint.t := by
    rw [horig, ← map_t_strip, hinv, map_t_strip]
  have hvne : view ≠ [] := by
    rintro rfl
    simp at v5
  -- the index part
  have hidx : ∀ n ∈ c.names, n ≠ "data_loss" → ∀ l', ∃ o, (newIdx c.names l' a b view).get? n = some o ∧ ∀ v, o = some v →
      ∀ lo hi, (∀ p, Involved ps a b p → ∀ y, p.idx.get? n = some (some y) → lo ≤ y ∧ y ≤ hi) → lo ≤ v ∧ v ≤ hi := by
    intro n hn' hne l'
    refine ⟨_, newIdx_other _ _ _ _ _ hn' hne, ?_⟩
    intro v hv lo hi hb
    refine index_bounds v2 v4 ?_ hv
    intro q hq y hy
    obtain ⟨i, hi', rfl⟩ := List.getElem_of_mem hq
    have e := List.getElem?_eq_getElem hi'
    generalize (involved ts w.ps a b)[i] = q at e hy
    have e1 : ((involved ts w.ps a b).map strip)[i]? = some (strip q) := by rw [List.getElem?_map, e]; rfl
    rw [hinv, List.getElem?_map] at e1
    rcases hq' : (involved ts (withRegions c.si ps) a b)[i]? with _ | q'
    · rw [hq'] at e1; simp at e1
    · rw [hq'] at e1
      simp only [Option.map_some, Option.some.injEq] at e1
      obtain ⟨_, _, _, ei, _⟩ := strip_fields e1
      obtain ⟨p, hp, _, hpi, _⟩ := involved_mem hsi hps (List.mem_of_getElem? hq')
      exact hb p hp y (by rw [← hpi, ei]; exact hy)
  have ejob1 : (expectedJob ts a b fst).a = a := rfl
  have ejob2 : (expectedJob ts a b fst).b = b := rfl
  have ejob3 : (expectedJob ts a b fst).isFirst = fst := rfl
  have hempty : below ts a = below ts b ↔ ¬ ∃ p ∈ ps, a ≤ p.t ∧ p.t < b := by
    rw [below_eq_iff_empty hps.sorted hab.le]
    simp [hts]
  by_cases he : below ts a = below ts b
  · -- no points in the slot
    have hno := hempty.1 he
    have hf1 : (expectedJob ts a b fst).first = none := by simp [expectedJob, he]
    have hf2 : (expectedJob ts a b fst).last = none := by simp [expectedJob, he]
    by_cases hl1 : loss = 1
    · -- fully missing
      have hcov : coveredLength a b (withRegions c.si ps) = 0 := by
        have h1 : coveredLength a b (withRegions c.si ps) / (b - a) = 0 := by linarith
        rcases div_eq_zero_iff.1 h1 with h2 | h2
        · exact h2
        · linarith
      obtain ⟨p, q, hpq⟩ := involved_empty hprep hg he
      have hsum1 : (view.map (weightOf a b)).sum = 1 := v6 (fun p' _ => .inl (by have := hg.before; omega))
      have hcov' : coveredLength a b (involved ts w.ps a b) = 0 := by
        have e : ∀ l : List VPoint, coveredLength a b (l.map strip) = coveredLength a b l := by
          intro l; unfold coveredLength; rw [List.map_map]; rfl
        rw [← e, hinv, e, not_involved_overlap hprep0 hg, hcov]
      have hpm := hmeas p (by simp [hpq])
      have hqm := hmeas q (by simp [hpq])
      have hregp := hprep.region p (by
        have : p ∈ involved ts w.ps a b := by simp [hpq]
        obtain ⟨m, _, _, hm⟩ := idxSlice_mem this
        exact List.mem_of_getElem? hm)
      have hregq := hprep.region q (by
        have : q ∈ involved ts w.ps a b := by simp [hpq]
        obtain ⟨m, _, _, hm⟩ := idxSlice_mem this
        exact List.mem_of_getElem? hm)
      have hone : ∃ g, view = [p, g, q] ∧ g.interp = true ∧ HasLabels c.ks g := by
        have v2' := v2
        rw [hpq] at v2'
        cases v2' with
        | gap _ _ _ rest g hgap hgp h =>
          cases h
          exact ⟨g, rfl, hgp.interp, v3 g (by simp)⟩
        | nogap _ _ _ rest hgap h =>
          cases h
          exfalso
          simp only [List.map_cons, List.map_nil, List.sum_cons, List.sum_nil, add_zero] at hsum1
          rw [weightOf_eq hab (by linarith), weightOf_eq hab (by linarith)] at hsum1
          rw [hpq] at hcov'
          simp only [coveredLength, List.map_cons, List.map_nil, List.sum_cons, List.sum_nil, hpm, hqm,
            Bool.false_eq_true, if_false, add_zero] at hcov'
          rw [← add_div, hcov', zero_div] at hsum1
          norm_num at hsum1
      obtain ⟨gp, hgv, hgi, hgl⟩ := hone
      have hfilter : view.filter (fun p => p.interp) = [gp] := by
        rw [hgv]; simp [hpm, hqm, hgi]
      have hsv : slotView c w.ps (expectedJob ts a b fst) loss view = .ok ([gp], view, w.ps) := by
        unfold slotView
        rw [hf1, hf2]
        simp only [hl1, if_true, hfilter]
      obtain ⟨d, hd1, hd2⟩ := slotData_ok (c := c) (a := a) (b := b) (loss := loss) (view := view) (inner := [gp]) hops hks (by
        intro o ho
        cases how : o.weighted with
        | true => simpa using htot o ho a b view hvne v3 (fun _ => v5)
        | false => simpa using htot o ho a b [gp] (by simp) (by simpa using hgl) (by simp [how]))
      have hcs : computeSlot c unit ops w (expectedJob ts a b fst) =
          .ok ({ t := a, slot := some (b, unit), tz := c.tz, data := some (.dict d),
                 idx := newIdx c.names (c.forceLoss.getD loss) a b view },
               { ps := w.ps, ws := writeWeights w (expectedJob ts a b fst) }) := by
        unfold computeSlot
        rw [v1]
        simp only [ejob1, ejob2, ejob3, hloss, hsv, hd1]
        rw [if_neg (by simpa using hd2)]
      refine ⟨_, _, hcs, hw, ?_, ?_⟩
      · refine ⟨rfl, rfl, rfl, newIdx_loss _ _ _ _ _, ⟨d, loss, view, [gp], rfl, hd2, hd1, hvt, fun h => absurd h hno⟩, ?_⟩
        intro n hn' hne
        exact hidx n hn' hne _
      · intro _
        exact ⟨rfl, view, [gp], d, v2, v3, v4, v5, rfl, hd1⟩
    · -- partly covered: the upsampling branch
      set zp : VPoint := { t := (b - a) / 2, vf := 0, vt := 0, data := c.ks.map (fun k => (k, 0)) } with hzp
      set view' := view.map (scaleData c.ks a b) with hview'
      set ps' := w.ps.mapIdx (fun i p => if (expectedJob ts a b fst).viewStart ≤ i ∧ i < (expectedJob ts a b fst).next + 1
        then scaleData c.ks a b p else p) with hps'
      have hsv : slotView c w.ps (expectedJob ts a b fst) loss view = .ok ([zp], view', ps') := by
        unfold slotView
        rw [hf1, hf2]
        simp only [hl1, if_false]
        rfl
      have hv3' : ∀ p ∈ view', HasLabels c.ks p := by
        intro p hp
        obtain ⟨q, hq, rfl⟩ := List.mem_map.1 hp
        exact scaleData_labels (v3 q hq)
      have hvw : view'.map (weightOf a b) = view.map (weightOf a b) := by
        rw [hview', List.map_map]; rfl
      have hzl : HasLabels c.ks zp := fun k hk => ⟨0, table_get? (fun _ => 0) hk⟩
      obtain ⟨d, hd1, hd2⟩ := slotData_ok (c := c) (a := a) (b := b) (loss := loss) (view := view') (inner := [zp]) hops hks (by
        intro o ho
        cases how : o.weighted with
        | true => simpa using htot o ho a b view' (by simpa [hview'] using hvne) hv3' (fun _ => by rw [hvw]; exact v5)
        | false => simpa using htot o ho a b [zp] (by simp) (by simpa using hzl) (by simp [how]))
      have hcs : computeSlot c unit ops w (expectedJob ts a b fst) =
          .ok ({ t := a, slot := some (b, unit), tz := c.tz, data := some (.dict d),
                 idx := newIdx c.names (c.forceLoss.getD loss) a b view' },
               { ps := ps', ws := writeWeights w (expectedJob ts a b fst) }) := by
        unfold computeSlot
        rw [v1]
        simp only [ejob1, ejob2, ejob3, hloss, hsv, hd1]
        rw [if_neg (by simpa using hd2)]
      have hidx' : ∀ n l, newIdx n l a b view' = newIdx n l a b view := by
        intro n l
        have hs : ∀ m, ∀ vw : List VPoint, indexSums a b m (vw.map (scaleData c.ks a b)) = indexSums a b m vw := by
          intro m vw
          induction vw with
          | nil => rfl
          | cons p r ih =>
            rw [List.map_cons, indexSums, indexSums, ih]
            rfl
        unfold newIdx
        congr 1
        funext d n
        unfold indexValue
        rw [hview', hs]
      refine ⟨_, _, hcs, ?_, ?_, ?_⟩
      · refine ⟨?_, ?_⟩
        · rw [← hw.strip]
          apply List.ext_getElem?
          intro i
          rw [List.getElem?_map, List.getElem?_map, hps', List.getElem?_mapIdx]
          rcases w.ps[i]? with _ | p
          · rfl
          · simp only [Option.map_some]
            split_ifs <;> rfl
        · intro p hp
          obtain ⟨i, hi, e0⟩ := List.getElem_of_mem hp
          have e : ps'[i]? = some p := by rw [← e0]; exact List.getElem?_eq_getElem hi
          rw [hps', List.getElem?_mapIdx] at e
          rcases hwi : w.ps[i]? with _ | q
          · rw [hwi] at e; simp at e
          · rw [hwi] at e
            simp only [Option.map_some, Option.some.injEq] at e
            have hq := hw.labels q (List.mem_of_getElem? hwi)
            rw [← e]
            split_ifs
            · exact scaleData_labels hq
            · exact hq
      · refine ⟨rfl, rfl, rfl, ?_, ⟨d, loss, view', [zp], rfl, hd2, hd1, ?_, fun h => absurd h hno⟩, ?_⟩
        · exact newIdx_loss _ _ _ _ _
        · have : (view'.filter (fun p => !p.interp)).map VPoint.t = (view.filter (fun p => !p.interp)).map VPoint.t := by
            rw [hview', List.filter_map, List.map_map]; rfl
          rw [this]; exact hvt
        · intro n hn' hne
          simp only [hidx']
          exact hidx n hn' hne _
      · rintro (h | h)
        · exact absurd h hno
        · exfalso
          apply hl1
          rw [hlossdef, h]; simp
  · -- points in the slot
    have hf1 : (expectedJob ts a b fst).first = some (below ts a) := by simp [expectedJob, he]
    have hf2 : (expectedJob ts a b fst).last = some (below ts b - 1) := by simp [expectedJob, he]
    have hlt : below ts a < below ts b := lt_of_le_of_ne (below_mono hab.le) he
    have hs1 : below ts b - 1 + 1 = below ts b := by omega
    have hinl : ∀ p ∈ idxSlice w.ps (below ts a) (below ts b), HasLabels c.ks p := by
      intro p hp
      obtain ⟨m, _, _, hm⟩ := idxSlice_mem hp
      exact hw.labels p (List.mem_of_getElem? hm)
    have hchain : (idxSlice w.ps (below ts a) (below ts b)).IsChain (Adj (some a) (some b)) := by
      have hch := involved_chain hprep hg
      rw [List.isChain_iff_getElem] at hch ⊢
      intro m hm
      have e1 : (idxSlice w.ps (below ts a) (below ts b))[m]? = some (idxSlice w.ps (below ts a) (below ts b))[m] :=
        List.getElem?_eq_getElem (by omega)
      have e2 : (idxSlice w.ps (below ts a) (below ts b))[m + 1]? = some (idxSlice w.ps (below ts a) (below ts b))[m + 1] :=
        List.getElem?_eq_getElem (by omega)
      generalize (idxSlice w.ps (below ts a) (below ts b))[m] = p at e1
      generalize (idxSlice w.ps (below ts a) (below ts b))[m + 1] = q at e2
      rw [idxSlice_getElem?] at e1 e2
      split_ifs at e1 with h1
      split_ifs at e2 with h2
      set s := below ts a - (below ts a - 1) with hs
      have i1 : (involved ts w.ps a b)[m + s]? = some p := by
        unfold involved
        rw [idxSlice_getElem?, if_pos (by omega)]
        have : below ts a - 1 + (m + s) = below ts a + m := by omega
        rw [this]; exact e1
      have i2 : (involved ts w.ps a b)[m + s + 1]? = some q := by
        unfold involved
        rw [idxSlice_getElem?, if_pos (by omega)]
        have : below ts a - 1 + (m + s + 1) = below ts a + (m + 1) := by omega
        rw [this]; exact e2
      obtain ⟨j1, j2⟩ := List.getElem?_eq_some_iff.1 i1
      obtain ⟨k1, k2⟩ := List.getElem?_eq_some_iff.1 i2
      have := hch (m + s) k1
      rwa [j2, k2] at this
    obtain ⟨inner, in1, in2⟩ := denseList_rel _ hinl hchain
    have hinm : ∀ p ∈ idxSlice w.ps (below ts a) (below ts b), p.interp = false := by
      intro p hp
      obtain ⟨m, _, _, hm⟩ := idxSlice_mem hp
      exact hprep.measured p (List.mem_of_getElem? hm)
    have hint : (inner.filter (fun p => !p.interp)).map VPoint.t = ts.filter (fun t => decide (a ≤ t ∧ t < b)) := by
      rw [in2.originals hinm]
      have e := slice_filter hps.sorted a b hab.le
      rw [← hts] at e
      unfold idxSlice
      rw [List.map_take, List.map_drop, hprep.times, e]
    have hinne : inner ≠ [] := by
      rintro rfl
      have : (ts.filter (fun t => decide (a ≤ t ∧ t < b))) = [] := by rw [← hint]; rfl
      rw [List.filter_eq_nil_iff] at this
      apply he
      rw [below_eq_iff_empty hps.sorted hab.le]
      intro t ht
      simpa using this t ht
    have hsv : slotView c w.ps (expectedJob ts a b fst) loss view = .ok (inner, view, w.ps) := by
      unfold slotView
      rw [hf1, hf2]
      simp only [ejob1, ejob2, hs1, in1]
    obtain ⟨d, hd1, hd2⟩ := slotData_ok (c := c) (a := a) (b := b) (loss := loss) (view := view) (inner := inner) hops hks (by
      intro o ho
      cases how : o.weighted with
      | true => simpa using htot o ho a b view hvne v3 (fun _ => v5)
      | false => simpa using htot o ho a b inner hinne (in2.hasLabels hinl) (by simp [how]))
    have hcs : computeSlot c unit ops w (expectedJob ts a b fst) =
        .ok ({ t := a, slot := some (b, unit), tz := c.tz, data := some (.dict d),
               idx := newIdx c.names (c.forceLoss.getD loss) a b view },
             { ps := w.ps, ws := writeWeights w (expectedJob ts a b fst) }) := by
      unfold computeSlot
      rw [v1]
      simp only [ejob1, ejob2, ejob3, hloss, hsv, hd1]
      rw [if_neg (by simpa using hd2)]
    refine ⟨_, _, hcs, hw, ?_, ?_⟩
    · refine ⟨rfl, rfl, rfl, newIdx_loss _ _ _ _ _, ⟨d, loss, view, inner, rfl, hd2, hd1, hvt, fun _ => hint⟩, ?_⟩
      intro n hn' hne
      exact hidx n hn' hne _
    · intro _
      exact ⟨rfl, view, inner, d, v2, v3, v4, v5, rfl, hd1⟩

end Timeseria
