import Verif.Props.TransformClaims

/-! # C89-C96: more about resampling and aggregation -/

namespace Timeseria

theorem perLabelDict_keys {ks : List String} {f : String → Except PyErr ℚ} {d : Dict ℚ} (h : perLabelDict ks f = .ok d) :
    d.keys = ks := by
  induction ks generalizing d with
  | nil => simp only [perLabelDict, Except.ok.injEq] at h; rw [← h]; rfl
  | cons k r ih =>
    unfold perLabelDict at h
    split at h
    · cases h
    split at h
    · cases h
    · rename_i d' hd'
      cases h
      simpa [Dict.keys] using ih hd'

/-! ## C89: the other data indexes -/

/-- **C89 (resampling)**: every data index of the series, other than the data loss, is on the new points, and its
value (if not missing) is within any bounds of its values on the points involved. -/
theorem C89_resampled (g : Grid) (u : ℚ) (hu : g.Physical u) (c : Settings) (unit : TUnit) (ops : List SlotOp)
    (ps : List VPoint) (hsi : 0 < c.si) (hps : InputSeries c.ks ps) :
    ∃ items w, process g .points c unit ops none none ps = .ok (items, w) ∧ ∀ x ∈ items,
      ∀ n ∈ c.names, n ≠ "data_loss" → ∃ o, x.idx.get? n = some o ∧ ∀ v, o = some v →
        ∀ lo hi, (∀ p, Involved ps (x.t - u / 2) (x.t + u / 2) p → ∀ y, p.idx.get? n = some (some y) → lo ≤ y ∧ y ≤ hi) →
          lo ≤ v ∧ v ≤ hi := by
  obtain ⟨f, hf, _, hf2, _⟩ := resample_from g hu (firstT ps)
  have ht : processTo g none (lastT ps) = .ok (lastT ps) := rfl
  obtain ⟨items, w, K, h1, h2, h3, _, h5⟩ := resample_run g c unit ops ps hsi hps none none f (lastT ps) hf ht hf2
  refine ⟨items, w, h1, ?_⟩
  intro x hx
  obtain ⟨k, hk, rfl⟩ := List.getElem_of_mem hx
  have hr := h5 k _ (List.getElem?_eq_getElem hk)
  have h6 : edge g f (k + 1) = edge g f k + u := by
    have : edge g f (k + 1) = g.next (edge g f k) := rfl
    rw [this, hu.next]
  have e1 : (items[k]).t - u / 2 = edge g f k := by rw [hr.time, h6]; ring
  have e2 : (items[k]).t + u / 2 = edge g f (k + 1) := by rw [hr.time, h6]; ring
  rw [e1, e2]
  exact hr.index

/-- **C89 (aggregation)** -/
theorem C89_aggregated (g : Grid) (c : Settings) (unit : TUnit) (ops : List SlotOp) (ps : List VPoint) (hsi : 0 < c.si)
    (hps : InputSeries c.ks ps) (hn : NoPreviousLoss ps) (hks : c.ks ≠ []) (hops : ops ≠ [])
    (htot : ∀ o ∈ ops, OpTotal c.ks o) :
    ∃ items w, process g .slots c unit ops none none ps = .ok (items, w) ∧ ∀ x ∈ items,
      ∀ n ∈ c.names, n ≠ "data_loss" → ∃ o, x.idx.get? n = some o ∧ ∀ v, o = some v →
        ∀ lo hi, (∀ p, Involved ps x.t x.endT p → ∀ y, p.idx.get? n = some (some y) → lo ≤ y ∧ y ≤ hi) →
          lo ≤ v ∧ v ≤ hi := by
  obtain ⟨f, hf, _, _, hf3, _⟩ := aggregate_from g (firstT ps)
  have ht : processTo g none (lastT ps) = .ok (lastT ps) := rfl
  obtain ⟨items, w, K, h1, h2, h3, _, h5⟩ := aggregate_run g c unit ops ps hsi hps hn hks hops htot none none f (lastT ps)
    hf ht hf3
  refine ⟨items, w, h1, ?_⟩
  intro x hx
  obtain ⟨k, hk, rfl⟩ := List.getElem_of_mem hx
  have hr := h5 k _ (List.getElem?_eq_getElem hk)
  have : (items[k]).endT = edge g f (k + 1) := by simp [Item.endT, hr.slot]
  rw [hr.start, this]
  exact hr.index

/-- a concrete case: anomaly indexes 0 and 1 (and one missing) -/
theorem C89_witness : (process grid120 .slots { exSettings with names := ["data_loss", "anomaly"] } {} [avgSlotOp] none none
    [⟨0, 0, 0, [("v", 1)], [("anomaly", some 0)], false⟩, ⟨60, 0, 0, [("v", 1)], [("anomaly", some 1)], false⟩,
     ⟨120, 0, 0, [("v", 1)], [("anomaly", none)], false⟩]).toOption.map
      (fun r => r.1.map Item.idx) = some [[("data_loss", some 0), ("anomaly", some (2 / 3))]] := by
  decide +kernel

/-! ## C90: an explicit start -/

/-- **C90**: an explicit start is not respected: zero is ignored; a start more than one unit before the first point
is an error; and the points of a resampling are half a unit away from it and from the grid. -/
theorem C90_false :
    (process grid60 .slots exSettings {} [avgSlotOp] (some 0) none
      [⟨-60, 0, 0, [("v", 0)], [], false⟩, ⟨0, 0, 0, [("v", 1)], [], false⟩, ⟨60, 0, 0, [("v", 0)], [], false⟩]).toOption.map
      (fun r => r.1.map Item.t) = some [-60, 0] ∧
    (process grid60 .slots exSettings {} [avgSlotOp] (some (-120)) none exMin).toOption.isNone ∧
    (process grid60 .points exSettings {} [] (some (-120)) none exMin).toOption.isNone ∧
    (process grid60 .points exSettings {} [] (some 60) none
      (exMin ++ [⟨180, 0, 0, [("v", 1)], [], false⟩])).toOption.map (fun r => r.1.map Item.t) = some [90, 150] ∧
    grid60.onGrid 90 = false := by
  decide +kernel

/-- For slots and a start which is not zero and less than one unit before the first point: the first slot starts
there. -/
theorem C90_slots_partial (g : Grid) (c : Settings) (unit : TUnit) (ops : List SlotOp) (ps : List VPoint) (hsi : 0 < c.si)
    (hps : InputSeries c.ks ps) (hn : NoPreviousLoss ps) (hks : c.ks ≠ []) (hops : ops ≠ [])
    (htot : ∀ o ∈ ops, OpTotal c.ks o) (s : ℚ) (hs0 : s ≠ 0) (hs : g.onGrid s = true) (hfirst : firstT ps < g.next s) :
    ∃ items w, process g .slots c unit ops (some s) none ps = .ok (items, w) ∧ (∀ x ∈ items.head?, x.t = s) ∧
      (∀ x ∈ items, s ≤ x.t ∧ x.slot = some (g.next x.t, unit)) ∧ (items = [] → lastT ps < g.next s) := by
  have hf : processFrom g .slots (some s) (firstT ps) = .ok s := by simp [processFrom, givenTime, hs0, hs]
  have ht : processTo g none (lastT ps) = .ok (lastT ps) := rfl
  obtain ⟨items, w, K, h1, h2, h3, _, h5⟩ := aggregate_run g c unit ops ps hsi hps hn hks hops htot (some s) none s (lastT ps)
    hf ht hfirst
  have hall := h3.all (fun u hu hle v hv => le_trans (sorted_le_last hps.ne hps.sorted v hv) hle) _ (lastT_mem hps.ne)
  refine ⟨items, w, h1, ?_, ?_, ?_⟩
  · intro x hx
    rw [List.head?_eq_getElem?] at hx
    exact (h5 0 x hx).start
  · intro x hx
    obtain ⟨k, hk, rfl⟩ := List.getElem_of_mem hx
    have hr := h5 k _ (List.getElem?_eq_getElem hk)
    rw [hr.slot, hr.start]
    exact ⟨edge_mono g s (Nat.zero_le k), rfl⟩
  · intro h
    have : K = 0 := by rw [← h2, h]; rfl
    rw [this] at hall
    exact hall

/-- a concrete case of the hypotheses -/
theorem C90_witness : (60 : ℚ) ≠ 0 ∧ grid60.onGrid 60 = true ∧ firstT exMin < grid60.next 60 ∧
    (process grid60 .slots exSettings {} [avgSlotOp] (some 60) none exMin).toOption.map (fun r => r.1.map Item.t) =
      some [60] := by
  decide +kernel

/-! ## C91, C95: the data of the input series, and the averages of an aggregation -/

theorem withRegions_data {ks : List String} {ps : List VPoint} {D : ℚ} (hD : 0 < D) (hps : InputSeries ks ps) :
    (withRegions D ps).map (fun p => (p.t, p.data, p.idx)) = ps.map (fun p => (p.t, p.data, p.idx)) := by
  have hl : (expectedRegions D none (ps.map VPoint.t)).length = ps.length := by
    have := (expectedRegions_spec D hD (ps.map VPoint.t) none hps.sorted (by simp)).1
    have := congrArg List.length this
    simpa using this
  unfold withRegions attach
  generalize expectedRegions D none (ps.map VPoint.t) = rs at hl
  clear hps
  induction ps generalizing rs with
  | nil => simp
  | cons p r ih =>
    cases rs with
    | nil => simp at hl
    | cons x y => simpa using ih y (by simpa using hl)

/-- the points of the series used for the counterexamples: all the values are 1, some points are one second off -/
def exJitter : List VPoint :=
  [⟨0, 0, 0, [("v", 1)], [], false⟩, ⟨59, 0, 0, [("v", 1)], [], false⟩, ⟨121, 0, 0, [("v", 1)], [], false⟩,
   ⟨180, 0, 0, [("v", 1)], [], false⟩, ⟨240, 0, 0, [("v", 1)], [], false⟩]

/-- **C91**: an aggregation can change the values of the series it is applied to: here a slot has no points but is
partly covered. -/
theorem C91_false : (process grid60 .slots exSettings {} [avgSlotOp] none none exJitter).toOption.map
      (fun r => r.2.ps.map VPoint.data) =
    some [[("v", 1)], [("v", 89 / 60)], [("v", 89 / 60)], [("v", 1)], [("v", 1)]] := by
  decide +kernel

/-- resampling never does, whatever the start and the end -/
theorem C91_resampled_partial (g : Grid) (c : Settings) (unit : TUnit) (ops : List SlotOp) (ps : List VPoint) (hsi : 0 < c.si)
    (hps : InputSeries c.ks ps) (start stop : Option ℚ) (items : List Item) (w : Work)
    (h : process g .points c unit ops start stop ps = .ok (items, w)) :
    w.ps.map (fun p => (p.t, p.data, p.idx)) = ps.map (fun p => (p.t, p.data, p.idx)) := by
  have hrun : ∀ (js : List Job) (w0 w1 : Work) (o r : List Item), runJobs (computePoint c) js w0 o = .ok (r, w1) →
      w1.ps = w0.ps := by
    intro js
    induction js with
    | nil => intro w0 w1 o r h; simp only [runJobs, Except.ok.injEq, Prod.mk.injEq] at h; rw [h.2]
    | cons j js ih =>
      intro w0 w1 o r h
      rw [runJobs] at h
      rcases hc : computePoint c w0 j with e | ⟨x, w'⟩
      · rw [hc] at h; cases h
      · rw [hc] at h
        rw [ih _ _ _ _ h]
        unfold computePoint at hc
        split at hc
        · cases hc
        split at hc
        · cases hc
        split at hc
        · cases hc
        cases hc
        rfl
  unfold process at h
  split at h
  · split at h
    · cases h
    · cases h
    · have := hrun _ _ _ _ _ h
      rw [this, regionsLoop_none _ _ hps.sorted]
      exact withRegions_data hsi hps
  · cases h

/-- the slots produced from the start `f` all have points, or nothing of them is covered -/
def NoPartialSlot (g : Grid) (D : ℚ) (ps : List VPoint) (f : ℚ) : Prop :=
  ∀ k, edge g f (k + 1) ≤ lastT ps → (∃ p ∈ ps, edge g f k ≤ p.t ∧ p.t < edge g f (k + 1)) ∨
    coveredLength (edge g f k) (edge g f (k + 1)) (withRegions D ps) = 0

theorem aggregate_clean (g : Grid) (c : Settings) (unit : TUnit) (ops : List SlotOp) (ps : List VPoint) (hsi : 0 < c.si)
    (hps : InputSeries c.ks ps) (hn : NoPreviousLoss ps) (hks : c.ks ≠ []) (hops : ops ≠ [])
    (htot : ∀ o ∈ ops, OpTotal c.ks o) (start stop : Option ℚ) (f toT : ℚ)
    (hf : processFrom g .slots start (firstT ps) = .ok f) (ht : processTo g stop (lastT ps) = .ok toT)
    (hfirst : firstT ps < g.next f) (hnp : NoPartialSlot g c.si ps f) :
    ∃ items w, process g .slots c unit ops start stop ps = .ok (items, w) ∧ w.ps = withRegions c.si ps ∧
      ∀ (k : ℕ) (x : Item), items[k]? = some x → AggregatedSlot c unit ops ps (edge g f k) (edge g f (k + 1)) x ∧
        ∃ view inner d, DenseRel c.ks (some (edge g f k)) (some (edge g f (k + 1)))
            (involved (ps.map VPoint.t) (withRegions c.si ps) (edge g f k) (edge g f (k + 1))) view ∧
          (∀ p ∈ view, HasLabels c.ks p) ∧ (∀ p ∈ view, 0 ≤ weightOf (edge g f k) (edge g f (k + 1)) p) ∧
          0 < (view.map (weightOf (edge g f k) (edge g f (k + 1)))).sum ∧
          x.data = some (.dict d) ∧
          slotData c ops (edge g f k) (edge g f (k + 1))
            (1 - coveredLength (edge g f k) (edge g f (k + 1)) (withRegions c.si ps) / (edge g f (k + 1) - edge g f k))
            view inner = .ok d := by
  obtain ⟨p0, hp0, hp0t, hp00⟩ := firstT_get hps.ne
  obtain ⟨pl, hpl, hplt, _⟩ := lastT_get hps.ne
  obtain ⟨K, hK, hlast, hgood⟩ := processJobs_last (g := g) (toT := toT) hps.sorted (f := f) (by
    intro t h0
    rw [List.getElem?_map, hp00] at h0
    simp only [Option.map_some, Option.some.injEq] at h0
    rw [← h0, hp0t]
    exact hfirst)
  obtain ⟨items, w, h1, h2, h3⟩ := runJobs_spec (f := computeSlot c unit ops)
    (I := fun w => w.ps = withRegions c.si ps)
    (Q := fun j x => AggregatedSlot c unit ops ps j.a j.b x ∧
        ∃ view inner d, DenseRel c.ks (some j.a) (some j.b)
            (involved (ps.map VPoint.t) (withRegions c.si ps) j.a j.b) view ∧
          (∀ p ∈ view, HasLabels c.ks p) ∧ (∀ p ∈ view, 0 ≤ weightOf j.a j.b p) ∧
          0 < (view.map (weightOf j.a j.b)).sum ∧
          x.data = some (.dict d) ∧
          slotData c ops j.a j.b (1 - coveredLength j.a j.b (withRegions c.si ps) / (j.b - j.a))
            view inner = .ok d) (expectedJobs g (ps.map VPoint.t) f K) (by
      intro j hj w hw
      obtain ⟨k, hk, rfl⟩ := List.mem_map.1 hj
      have hk' := List.mem_range.1 hk
      obtain ⟨x, w', a1, a2, a3, a4⟩ := computeSlot_spec hsi hps hn hks (unit := unit) hops htot
        (hgood k hk') (fst := (k == 0)) (w := w) (by rw [hw]; exact ⟨rfl, withRegions_labels hsi hps⟩)
      have hle : edge g f (k + 1) ≤ lastT ps := by
        obtain ⟨v, hv, hv1⟩ := hlast.reached (by omega)
        have h6 := sorted_le_last hps.ne hps.sorted v hv
        have h7 : edge g f (k + 1) ≤ edge g f K := edge_mono g f (by omega)
        linarith
      obtain ⟨b1, view, inner, d, b2, b5, b6, b7, b3, b4⟩ := a4 (hnp k hle)
      rw [hw] at b2
      exact ⟨x, w', a1, by rw [b1, hw], a3, view, inner, d, b2, b5, b6, b7, b3, b4⟩)
    { ps := withRegions c.si ps, ws := ps.map (fun _ => none) } [] rfl
  refine ⟨items, w, ?_, h2, ?_⟩
  · unfold process
    rw [hp0, hpl]
    simp only [hp0t, hplt, hf, ht, hK, regionsLoop_none _ _ hps.sorted]
    have e : attach ps (expectedRegions c.si none (ps.map VPoint.t)) = withRegions c.si ps := rfl
    rw [e, h1]
    rfl
  · intro k x hx
    have hk : k < items.length := (List.getElem?_eq_some_iff.1 hx).1
    have hk' : k < (expectedJobs g (ps.map VPoint.t) f K).length := by rw [h3.length_eq]; exact hk
    have := (List.forall₂_iff_get.1 h3).2 k hk' hk
    have hxe : items.get ⟨k, hk⟩ = x := (List.getElem?_eq_some_iff.1 hx).2
    rw [hxe] at this
    simpa [expectedJobs, expectedJob] using this

/-- an aggregation does not, if each slot has a point in it or nothing of it is covered -/
theorem C91_aggregated_partial (g : Grid) (c : Settings) (unit : TUnit) (ops : List SlotOp) (ps : List VPoint) (hsi : 0 < c.si)
    (hps : InputSeries c.ks ps) (hn : NoPreviousLoss ps) (hks : c.ks ≠ []) (hops : ops ≠ [])
    (htot : ∀ o ∈ ops, OpTotal c.ks o) (f : ℚ) (hf : processFrom g .slots none (firstT ps) = .ok f)
    (hnp : NoPartialSlot g c.si ps f) :
    ∃ items w, process g .slots c unit ops none none ps = .ok (items, w) ∧
      w.ps.map (fun p => (p.t, p.data, p.idx)) = ps.map (fun p => (p.t, p.data, p.idx)) := by
  obtain ⟨f', hf', _, _, hf3, _⟩ := aggregate_from g (firstT ps)
  have hff : f = f' := by rw [hf] at hf'; cases hf'; rfl
  subst hff
  obtain ⟨items, w, h1, h2, _⟩ := aggregate_clean g c unit ops ps hsi hps hn hks hops htot none none f (lastT ps) hf rfl hf3 hnp
  exact ⟨items, w, h1, by rw [h2]; exact withRegions_data hsi hps⟩

/-- **C95**: the averages of an aggregation are not always within the bounds of the values: here all the values are
1. -/
theorem C95_false : (∀ p ∈ exJitter, p.data = [("v", 1)]) ∧
    (process grid60 .slots exSettings {} [avgSlotOp] none none exJitter).toOption.map (fun r => r.1.map Item.data) =
    some [some (.dict [("v_avg", 1)]), some (.dict [("v_avg", 881 / 600)]), some (.dict [("v_avg", 8969 / 7200)]),
      some (.dict [("v_avg", 1)])] := by
  refine ⟨?_, by decide +kernel⟩
  intro p hp
  simp only [exJitter, List.mem_cons, List.not_mem_nil, or_false] at hp
  rcases hp with rfl | rfl | rfl | rfl | rfl <;> rfl

theorem foldl_set_suffix {s : String} (l : Dict ℚ) : ∀ (d : Dict ℚ) (k : String),
    (k ∉ l.keys → Dict.get? (l.foldl (fun d kv => Dict.set d (kv.1 ++ s) kv.2) d) (k ++ s) = d.get? (k ++ s)) ∧
    (l.keys.Nodup → k ∈ l.keys →
      Dict.get? (l.foldl (fun d kv => Dict.set d (kv.1 ++ s) kv.2) d) (k ++ s) = l.get? k) := by
  induction l with
  | nil => intro d k; simp [Dict.keys]
  | cons x r ih =>
    intro d k
    obtain ⟨x1, x2⟩ := x
    constructor
    · intro hk
      simp only [Dict.keys, List.map_cons, List.mem_cons, not_or] at hk
      rw [List.foldl_cons, (ih _ k).1 hk.2, Dict.get?_set, if_neg]
      intro h
      exact hk.1 ((String.append_left_inj s).1 h).symm
    · intro hn hk
      simp only [Dict.keys, List.map_cons, List.nodup_cons, List.mem_cons] at hn hk
      rw [List.foldl_cons, Dict.get?_cons]
      by_cases e : k = x1
      · subst e
        rw [(ih _ k).1 hn.1, Dict.get?_set, if_pos rfl, if_pos rfl]
      · rw [if_neg (fun h => e h.symm)]
        exact (ih _ k).2 hn.2 (by tauto)

/-- If each slot has a point in it or nothing of it is covered, the averages of an aggregation are within any bounds of
the values of the points involved. -/
theorem C95_convex_partial (g : Grid) (c : Settings) (unit : TUnit) (ps : List VPoint) (hsi : 0 < c.si)
    (hps : InputSeries c.ks ps) (hn : NoPreviousLoss ps) (hks : c.ks ≠ []) (hnd : c.ks.Nodup) (hfill : c.fillWith = none)
    (f : ℚ) (hf : processFrom g .slots none (firstT ps) = .ok f)
    (hnp : NoPartialSlot g c.si ps f) :
    ∃ items w, process g .slots c unit [avgSlotOp] none none ps = .ok (items, w) ∧
      ∀ x ∈ items, ∀ k ∈ c.ks, ∃ d v, x.data = some (.dict d) ∧ d.get? (k ++ "_avg") = some v ∧
        ∀ lo hi, (∀ p, Involved ps x.t x.endT p → ∀ y, p.data.get? k = some y → lo ≤ y ∧ y ≤ hi) → lo ≤ v ∧ v ≤ hi := by
  obtain ⟨f', hf', _, _, hf3, _⟩ := aggregate_from g (firstT ps)
  have hff : f = f' := by rw [hf] at hf'; cases hf'; rfl
  subst hff
  obtain ⟨items, w, h1, h2, h3⟩ := aggregate_clean g c unit [avgSlotOp] ps hsi hps hn hks (by simp)
    (by intro o ho; rw [List.mem_singleton.1 ho]; exact avgSlotOp_total hks) none none f (lastT ps) hf rfl hf3 hnp
  refine ⟨items, w, h1, ?_⟩
  intro x hx k hk
  obtain ⟨i, hi, rfl⟩ := List.getElem_of_mem hx
  obtain ⟨hr, view, inner, d, v2, v3, v4, v5, hd, hsd⟩ := h3 i _ (List.getElem?_eq_getElem hi)
  have he : (items[i]).endT = edge g f (i + 1) := by simp [Item.endT, hr.slot]
  rw [he, hr.start]
  generalize edge g f i = a at *
  generalize edge g f (i + 1) = b at *
  obtain ⟨r, r1, r2, r3⟩ := avgView_ok v3 v5
  have hsd' : d = r.foldl (fun d kv => Dict.set d (kv.1 ++ "_avg") kv.2) [] := by
    unfold slotData at hsd
    rw [if_neg (by simp [hfill, fillTruthy])] at hsd
    simp only [List.foldl_cons, List.foldl_nil, avgSlotOp, if_true, r1, Except.ok.injEq] at hsd
    rw [← hsd]
    congr 1
    funext d kv
    rw [String.append_assoc]
    rfl
  refine ⟨d, (r.get? k).getD 0, hd, ?_, ?_⟩
  · rw [hsd', (foldl_set_suffix r [] k).2 (by rw [r2]; exact hnd) (by rw [r2]; exact hk), r3 k hk]
    rfl
  · intro lo hi hb
    rw [r3 k hk, Option.getD_some]
    apply avg_bounds v4 v5
    apply v2.values _ hk
    · intro q hq y hy
      obtain ⟨p, hp, hpd, _⟩ := involved_mem hsi hps hq
      exact hb p hp y (hpd ▸ hy)
    · intro q hq
      obtain ⟨m, _, _, hm⟩ := idxSlice_mem hq
      exact withRegions_labels hsi hps q (List.mem_of_getElem? hm)

/-- a concrete case of the hypotheses: three points, slots of two minutes -/
theorem C95_witness : NoPartialSlot grid120 60 exMin 0 ∧ processFrom grid120 .slots none (firstT exMin) = .ok 0 := by
  refine ⟨?_, by decide +kernel⟩
  intro k hk
  have h := edge_physical (physGrid_physical 120 (by norm_num)) 0 (k + 1)
  have hl : lastT exMin = 120 := by decide +kernel
  have hk' : edge grid120 0 (k + 1) = 0 + ((k + 1 : ℕ) : ℚ) * 120 := h
  rw [hl, hk'] at hk
  have hk0 : k = 0 := by
    by_contra hc
    have : (1 : ℚ) ≤ k := by exact_mod_cast Nat.one_le_iff_ne_zero.2 hc
    push_cast at hk
    linarith
  subst hk0
  left
  refine ⟨⟨60, 0, 0, [("v", 1)], [], false⟩, by simp [exMin], ?_, ?_⟩
  · decide +kernel
  · decide +kernel

/-! ## C92: averages of a series that was transformed -/

/-- the series of the counterexample -/
def exMinSeries : TSeries :=
  match TSeries.build [mkPoint 0 (.dict [("v", 0)]), mkPoint 60 (.dict [("v", 1)]), mkPoint 120 (.dict [("v", 0)])] with
  | .ok s => s
  | .error _ => TSeries.empty

/-- **C92**: the average of a series changes after the series was aggregated: the weights left on its points are
taken into account. -/
theorem C92_false :
    (exMinSeries.avgAttr (exMin.map (fun _ => none))).toOption = some [("v", 1 / 3)] ∧
    (process grid120 .slots exSettings {} [avgSlotOp] none none exMin).toOption.map (fun r =>
      (exMinSeries.avgAttr r.2.ws).toOption) = some (some [("v", 1 / 2)]) := by
  decide +kernel

theorem runJobs_weights {f : Work → Job → Except PyErr (Item × Work)}
    (hf : ∀ w j x w', f w j = .ok (x, w') → w'.ws = writeWeights w j) (jobs : List Job) :
    ∀ (w w' : Work) (o r : List Item) (i : ℕ), runJobs f jobs w o = .ok (r, w') → (∀ j ∈ jobs, j.next < i) →
      w'.ws[i]? = w.ws[i]? := by
  induction jobs with
  | nil => intro w w' o r i h _; simp only [runJobs, Except.ok.injEq, Prod.mk.injEq] at h; rw [h.2]
  | cons j js ih =>
    intro w w' o r i h hi
    rw [runJobs] at h
    rcases hc : f w j with e | ⟨x, w1⟩
    · rw [hc] at h; cases h
    · rw [hc] at h
      rw [ih _ _ _ _ i h (fun j hj => hi j (by simp [hj])), hf _ _ _ _ hc]
      unfold writeWeights
      rw [List.getElem?_mapIdx]
      have := hi j (by simp)
      rcases w.ws[i]? with _ | y
      · rfl
      · rw [Option.map_some, if_neg (by omega)]

theorem computePoint_weights {c : Settings} (w : Work) (j : Job) (x : Item) (w' : Work)
    (h : computePoint c w j = .ok (x, w')) : w'.ws = writeWeights w j := by
  unfold computePoint at h
  split at h
  · cases h
  split at h
  · cases h
  split at h
  · cases h
  cases h
  rfl

theorem computeSlot_weights {c : Settings} {unit : TUnit} {ops : List SlotOp} (w : Work) (j : Job) (x : Item) (w' : Work)
    (h : computeSlot c unit ops w j = .ok (x, w')) : w'.ws = writeWeights w j := by
  unfold computeSlot at h
  split at h
  · cases h
  split at h
  · cases h
  split at h
  · cases h
  split at h
  · cases h
  split_ifs at h
  cases h
  rfl

/-- The average is as before if the series has at least two points at or after the end of the last new item. -/
theorem C92_average_partial (g : Grid) (tg : Target) (c : Settings) (unit : TUnit) (ops : List SlotOp) (ps : List VPoint)
    (hps : InputSeries c.ks ps) (start stop : Option ℚ) (f toT : ℚ)
    (hf : processFrom g tg start (firstT ps) = .ok f) (ht : processTo g stop (lastT ps) = .ok toT)
    (hfirst : firstT ps < g.next f) (items : List Item) (w : Work)
    (h : process g tg c unit ops start stop ps = .ok (items, w))
    (hrest : ∃ p ∈ ps, ∃ q ∈ ps, p.t < q.t ∧ edge g f items.length ≤ p.t) (s : TSeries) :
    s.avgAttr w.ws = s.avgAttr (ps.map (fun _ => none)) := by
  have hw : ∀ ws : List (Option ℚ), none ∈ ws → s.avgAttr ws = s.avgOp := by
    intro ws hm
    unfold TSeries.avgAttr
    rw [if_neg]
    intro hall
    have := List.all_eq_true.1 hall none hm
    simp at this
  obtain ⟨p0, hp0, hp0t, hp00⟩ := firstT_get hps.ne
  obtain ⟨pl, hpl, hplt, _⟩ := lastT_get hps.ne
  rw [hw (ps.map (fun _ => none)) (List.mem_map.2 ⟨p0, List.mem_of_getElem? hp00, rfl⟩)]
  apply hw
  obtain ⟨K, hK, _, _⟩ := processJobs_last (g := g) (toT := toT) hps.sorted (f := f) (by
    intro t h0
    rw [List.getElem?_map, hp00] at h0
    simp only [Option.map_some, Option.some.injEq] at h0
    rw [← h0, hp0t]
    exact hfirst)
  unfold process at h
  rw [hp0, hpl] at h
  simp only [hp0t, hplt, hf, ht, hK] at h
  obtain ⟨p, hp, q, hq, hpq, hle⟩ := hrest
  obtain ⟨i, hi, rfl⟩ := List.getElem_of_mem hq
  obtain ⟨i', hi', rfl⟩ := List.getElem_of_mem hp
  have hlen : items.length = K := by
    have hl : ∀ (fn : Work → Job → Except PyErr (Item × Work)) (js : List Job) (w0 w1 : Work) (o r : List Item),
        runJobs fn js w0 o = .ok (r, w1) → r.length = o.length + js.length := by
      intro fn js
      induction js with
      | nil => intro w0 w1 o r h; simp only [runJobs, Except.ok.injEq, Prod.mk.injEq] at h; rw [h.1]; simp
      | cons j js ih =>
        intro w0 w1 o r h
        rw [runJobs] at h
        rcases hc : fn w0 j with e | ⟨x, w'⟩
        · rw [hc] at h; cases h
        · rw [hc] at h
          rw [ih _ _ _ _ h]; simp; omega
    have := hl _ _ _ _ _ _ h
    simpa [expectedJobs] using this
  rw [hlen] at hle
  have hii : i' < i := by
    by_contra hc
    rcases Nat.lt_or_ge i i' with h1 | h1
    · have := List.pairwise_iff_getElem.1 hps.sorted i i' (by simpa using hi) (by simpa using hi') h1
      simp only [List.getElem_map] at this
      linarith
    · have : i = i' := by omega
      subst this
      exact lt_irrefl _ hpq
  have hb : below (ps.map VPoint.t) (edge g f K) ≤ i' := by
    by_contra hc
    have := (below_iff hps.sorted (i := i') (t := ps[i'].t) (by rw [List.getElem?_map, List.getElem?_eq_getElem hi']; rfl)).1 (not_le.1 hc)
    linarith
  have hnext : ∀ j ∈ expectedJobs g (ps.map VPoint.t) f K, j.next < i := by
    intro j hj
    obtain ⟨k, hk, rfl⟩ := List.mem_map.1 hj
    have hk' := List.mem_range.1 hk
    have : below (ps.map VPoint.t) (edge g f (k + 1)) ≤ below (ps.map VPoint.t) (edge g f K) :=
      below_mono (edge_mono g f (by omega))
    simp only [expectedJob]
    omega
  have hres : w.ws[i]? = (ps.map (fun _ => (none : Option ℚ)))[i]? := by
    cases tg with
    | points => exact runJobs_weights (fun w j x w' => computePoint_weights w j x w') _ _ _ _ _ i h hnext
    | slots => exact runJobs_weights (fun w j x w' => computeSlot_weights w j x w') _ _ _ _ _ i h hnext
  rw [List.getElem?_map, List.getElem?_eq_getElem hi] at hres
  exact List.mem_of_getElem? hres

/-- a concrete case of the hypotheses: slots of two minutes on points up to 180 seconds -/
theorem C92_witness : (process grid120 .slots exSettings {} [avgSlotOp] none none
    (exMin ++ [⟨180, 0, 0, [("v", 1)], [], false⟩])).toOption.map (fun r => (r.1.length, r.2.ws)) =
      some (1, [some (1 / 4), some (1 / 2), some (1 / 4), none]) ∧ edge grid120 0 1 = 120 := by
  decide +kernel

/-! ## C93: filling -/

/-- a series with a long gap, for which a slot has no data at all -/
def exGap : List VPoint :=
  [⟨0, 0, 0, [("v", 1)], [], false⟩, ⟨60, 0, 0, [("v", 1)], [], false⟩, ⟨300, 0, 0, [("v", 3)], [], false⟩,
   ⟨360, 0, 0, [("v", 3)], [], false⟩]

/-- **C93**: asking to fill the missing slots with zero does nothing: the interpolated value is used. -/
theorem C93_false :
    (process grid120 .slots { exSettings with fillWith := some 0 } {} [avgSlotOp] none none exGap).toOption.map
      (fun r => r.1.map Item.data) =
    (process grid120 .slots exSettings {} [avgSlotOp] none none exGap).toOption.map (fun r => r.1.map Item.data) ∧
    (process grid120 .slots { exSettings with fillWith := some 0 } {} [avgSlotOp] none none exGap).toOption.map
      (fun r => r.1.map (fun x => (x.val? "v_avg", x.idx.get? "data_loss"))) =
      some [(some (35 / 32), some (some (1 / 4))), (some 2, some (some 1)), (some (93 / 32), some (some (1 / 4)))] := by
  decide +kernel

/-- With a value other than zero, a slot of which nothing is covered has that value for every label and operation. -/
theorem C93_filled_partial (g : Grid) (c : Settings) (unit : TUnit) (ops : List SlotOp) (ps : List VPoint) (hsi : 0 < c.si)
    (hps : InputSeries c.ks ps) (hn : NoPreviousLoss ps) (hks : c.ks ≠ []) (hops : ops ≠ [])
    (htot : ∀ o ∈ ops, OpTotal c.ks o) (v : ℚ) (hv : v ≠ 0) (hfill : c.fillWith = some v) (f : ℚ)
    (hf : processFrom g .slots none (firstT ps) = .ok f) (hnp : NoPartialSlot g c.si ps f) :
    ∃ items w, process g .slots c unit ops none none ps = .ok (items, w) ∧
      ∀ x ∈ items, coveredLength x.t x.endT (withRegions c.si ps) = 0 →
        x.data = some (.dict (c.ks.flatMap (fun k => ops.map (fun o => (k ++ "_" ++ o.name, v))))) := by
  obtain ⟨f', hf', _, _, hf3, _⟩ := aggregate_from g (firstT ps)
  have hff : f = f' := by rw [hf] at hf'; cases hf'; rfl
  subst hff
  obtain ⟨items, w, h1, h2, h3⟩ := aggregate_clean g c unit ops ps hsi hps hn hks hops htot none none f (lastT ps) hf rfl hf3 hnp
  refine ⟨items, w, h1, ?_⟩
  intro x hx hz
  obtain ⟨i, hi, rfl⟩ := List.getElem_of_mem hx
  obtain ⟨hr, view, inner, d, _, _, _, _, hd, hsd⟩ := h3 i _ (List.getElem?_eq_getElem hi)
  have he : (items[i]).endT = edge g f (i + 1) := by simp [Item.endT, hr.slot]
  rw [he, hr.start] at hz
  rw [hd]
  unfold slotData at hsd
  rw [if_pos ⟨by rw [hz]; simp, by simp [hfill, fillTruthy, hv]⟩, hfill] at hsd
  cases hsd
  rfl

theorem C93_witness : (process grid120 .slots { exSettings with fillWith := some 7 } {} [avgSlotOp] none none exGap).toOption.map
      (fun r => r.1.map (fun x => (x.val? "v_avg", x.idx.get? "data_loss"))) =
      some [(some (35 / 32), some (some (1 / 4))), (some 7, some (some 1)), (some (93 / 32), some (some (1 / 4)))] := by
  decide +kernel

/-! ## C94: series with data losses -/

/-- **C94**: aggregating a series that has data losses (as every resampled series may have) can fail, here for a unit
shorter than the sampling interval. -/
theorem C94_false :
    (process (physGrid 30 (by norm_num)) .slots exSettings {} [avgSlotOp] none none
      [⟨60, 0, 0, [("v", 1)], [("data_loss", some 0)], false⟩, ⟨120, 0, 0, [("v", 1)], [("data_loss", some 1)], false⟩,
       ⟨180, 0, 0, [("v", 1)], [("data_loss", some 0)], false⟩]).toOption.isNone := by
  decide +kernel

/-- Resampling such series never fails, and neither does aggregating those without losses (C45). -/
theorem C94_resampled_partial (g : Grid) (u : ℚ) (hu : g.Physical u) (c : Settings) (unit : TUnit) (ops : List SlotOp)
    (ps : List VPoint) (hsi : 0 < c.si) (hps : InputSeries c.ks ps) :
    ∃ items w, process g .points c unit ops none none ps = .ok (items, w) := by
  obtain ⟨items, w, _, h, _⟩ := C46_resampling g u hu c unit ops ps hsi hps
  exact ⟨items, w, h⟩

/-! ## C96: the new items form a series -/

/-- **C96 (resampling)**: the new points are accepted one after the other by a new series, for units of at least a
tenth of a millisecond. -/
theorem C96_resampled (g : Grid) (u : ℚ) (hu : g.Physical u) (hu1 : 1 / 10000 ≤ u) (c : Settings) (unit : TUnit) (ops : List SlotOp)
    (ps : List VPoint) (hsi : 0 < c.si) (hps : InputSeries c.ks ps) (hks : c.ks ≠ []) :
    ∃ items w s, process g .points c unit ops none none ps = .ok (items, w) ∧ TSeries.build items = .ok s ∧ s.items = items := by
  obtain ⟨f, hf, _, hf2, _⟩ := resample_from g hu (firstT ps)
  obtain ⟨items, w, K, h1, h2, h3, _, h5⟩ := resample_run g c unit ops ps hsi hps none none f (lastT ps) hf rfl hf2
  have hmem : ∀ x ∈ items, ∃ k, ResampledPoint c ps (edge g f k) (edge g f (k + 1)) (k == 0) x := by
    intro x hx
    obtain ⟨k, hk, rfl⟩ := List.getElem_of_mem hx
    exact ⟨k, h5 k _ (List.getElem?_eq_getElem hk)⟩
  have hg : GoodPoints items := by
    refine ⟨?_, ?_, ?_, ?_⟩
    · intro x hx
      obtain ⟨k, hr⟩ := hmem x hx
      simp [Item.isSlot, hr.point]
    · rw [List.pairwise_iff_getElem]
      intro i j hi hj hij
      rw [(h5 i _ (List.getElem?_eq_getElem hi)).time, (h5 j _ (List.getElem?_eq_getElem hj)).time]
      simp only [edge_physical hu]
      have : ((i + 1 : ℕ) : ℚ) ≤ (j : ℚ) := by exact_mod_cast hij
      push_cast at this ⊢
      nlinarith [hu.pos]
    · intro x hx
      obtain ⟨k, hr⟩ := hmem x hx
      obtain ⟨d, hd, hk, _⟩ := hr.value
      refine ⟨_, hd, ?_⟩
      cases d with
      | nil => exact absurd (by simpa [Dict.keys] using hk.symm) hks
      | cons a b => rfl
    · intro x hx y hy d e hd he
      obtain ⟨k, hr⟩ := hmem x hx
      obtain ⟨d', hd', hk', _⟩ := hr.value
      obtain ⟨k2, hr2⟩ := hmem y hy
      obtain ⟨e', he', hk2, _⟩ := hr2.value
      rw [hd'] at hd; rw [he'] at he
      cases hd; cases he
      intro k
      rw [hk', hk2]
  obtain ⟨s, hs, hi, _⟩ := build_good hg
  exact ⟨items, w, s, h1, hs, hi⟩

theorem foldl_set_mem_keys {s : String} (l : Dict ℚ) : ∀ (d : Dict ℚ) (k : String),
    k ∈ Dict.keys (l.foldl (fun d kv => Dict.set d (kv.1 ++ s) kv.2) d) ↔ k ∈ d.keys ∨ ∃ x ∈ l.keys, k = x ++ s := by
  induction l with
  | nil => intro d k; simp [Dict.keys]
  | cons x r ih =>
    intro d k
    rw [List.foldl_cons, ih, Dict.mem_keys_set]
    simp only [Dict.keys, List.map_cons, List.mem_cons]
    constructor
    · rintro ((h | h) | ⟨y, hy, h⟩)
      · exact .inr ⟨x.1, .inl rfl, h⟩
      · exact .inl h
      · exact .inr ⟨y, .inr hy, h⟩
    · rintro (h | ⟨y, rfl | hy, h⟩)
      · exact .inl (.inr h)
      · exact .inl (.inl h)
      · exact .inr ⟨y, hy, h⟩

theorem slotOps_keys {c : Settings} {a b : ℚ} {view inner : List VPoint} (ops : List SlotOp)
    (hk : ∀ o ∈ ops, ∀ a b v d, o.run c.ks a b v = .ok d → d.keys = c.ks) (k : String) :
    ∀ (acc d : Dict ℚ), ops.foldl (fun acc o =>
      match acc with
      | .error e => .error e
      | .ok d =>
        match o.run c.ks a b (if o.weighted then view else inner) with
        | .error e => .error e
        | .ok r => .ok (r.foldl (fun d kv => d.set (kv.1 ++ "_" ++ o.name) kv.2) d))
      (Except.ok acc : Except PyErr (Dict ℚ)) = .ok d →
      (k ∈ d.keys ↔ k ∈ acc.keys ∨ ∃ o ∈ ops, ∃ x ∈ c.ks, k = x ++ "_" ++ o.name) := by
  induction ops with
  | nil =>
    intro acc d h
    simp only [List.foldl_nil, Except.ok.injEq] at h
    simp [h]
  | cons o r ih =>
    intro acc d h
    rw [List.foldl_cons] at h
    rcases hr : o.run c.ks a b (if o.weighted then view else inner) with e | z
    · rw [hr] at h
      simp only at h
      have : ∀ (l : List SlotOp), l.foldl (fun acc o =>
          match acc with
          | .error e => .error e
          | .ok d =>
            match o.run c.ks a b (if o.weighted then view else inner) with
            | .error e => .error e
            | .ok r => .ok (r.foldl (fun d kv => d.set (kv.1 ++ "_" ++ o.name) kv.2) d))
          (Except.error e : Except PyErr (Dict ℚ)) = .error e := by
        intro l
        induction l with
        | nil => rfl
        | cons _ _ ih => rw [List.foldl_cons]; exact ih
      rw [this] at h
      cases h
    · rw [hr] at h
      simp only at h
      rw [ih (fun o ho => hk o (by simp [ho])) _ d h]
      have e := foldl_set_mem_keys (s := "_" ++ o.name) z acc k
      simp only [← String.append_assoc] at e
      rw [e, hk o (by simp) _ _ _ _ hr]
      simp only [List.mem_cons]
      constructor
      · rintro ((h | ⟨x, hx, h⟩) | ⟨o', ho', h⟩)
        · exact .inl h
        · exact .inr ⟨o, .inl rfl, x, hx, h⟩
        · exact .inr ⟨o', .inr ho', h⟩
      · rintro (h | ⟨o', ho' | ho', h1⟩)
        · exact .inl (.inl h)
        · rw [ho'] at h1
          exact .inl (.inr h1)
        · exact .inr ⟨o', ho', h1⟩

/-- the labels of the new slots: one for each label and operation -/
theorem slotData_keys {c : Settings} {a b loss : ℚ} {view inner : List VPoint} {ops : List SlotOp} {d : Dict ℚ}
    (hk : ∀ o ∈ ops, ∀ a b v d, o.run c.ks a b v = .ok d → d.keys = c.ks)
    (h : slotData c ops a b loss view inner = .ok d) (k : String) :
    k ∈ d.keys ↔ ∃ o ∈ ops, ∃ x ∈ c.ks, k = x ++ "_" ++ o.name := by
  unfold slotData at h
  split_ifs at h with hf
  · cases h
    simp only [Dict.keys, List.mem_map, List.mem_flatMap]
    constructor
    · rintro ⟨kv, ⟨x, hx, o, ho, rfl⟩, rfl⟩
      exact ⟨o, ho, x, hx, rfl⟩
    · rintro ⟨o, ho, x, hx, rfl⟩
      exact ⟨_, ⟨x, hx, o, ho, rfl⟩, rfl⟩
  · rw [slotOps_keys ops hk k [] d h]
    simp [Dict.keys]

/-- **C96 (aggregation)**: the new slots are accepted one after the other by a new series; their labels are those of
the series followed by the name of each operation. -/
theorem C96_aggregated (g : Grid) (c : Settings) (unit : TUnit) (ops : List SlotOp) (ps : List VPoint) (hsi : 0 < c.si)
    (hps : InputSeries c.ks ps) (hn : NoPreviousLoss ps) (hks : c.ks ≠ []) (hops : ops ≠ [])
    (htot : ∀ o ∈ ops, OpTotal c.ks o) (hk : ∀ o ∈ ops, ∀ a b v d, o.run c.ks a b v = .ok d → d.keys = c.ks) :
    ∃ items w s, process g .slots c unit ops none none ps = .ok (items, w) ∧ TSeries.build items = .ok s ∧
      s.items = items ∧ ∀ x ∈ items, ∃ d, x.data = some (.dict d) ∧
        ∀ k, k ∈ d.keys ↔ ∃ o ∈ ops, ∃ l ∈ c.ks, k = l ++ "_" ++ o.name := by
  obtain ⟨f, hf, _, _, hf3, _⟩ := aggregate_from g (firstT ps)
  obtain ⟨items, w, K, h1, h2, h3, _, h5⟩ := aggregate_run g c unit ops ps hsi hps hn hks hops htot none none f (lastT ps)
    hf rfl hf3
  have hmem : ∀ x ∈ items, ∃ k, AggregatedSlot c unit ops ps (edge g f k) (edge g f (k + 1)) x := by
    intro x hx
    obtain ⟨k, hk, rfl⟩ := List.getElem_of_mem hx
    exact ⟨k, h5 k _ (List.getElem?_eq_getElem hk)⟩
  have hdata : ∀ x ∈ items, ∃ d, x.data = some (.dict d) ∧ d ≠ [] ∧
        ∀ k, k ∈ d.keys ↔ ∃ o ∈ ops, ∃ l ∈ c.ks, k = l ++ "_" ++ o.name := by
    intro x hx
    obtain ⟨k, hr⟩ := hmem x hx
    obtain ⟨d, loss, view, inner, p1, p2, p3, _⟩ := hr.points
    exact ⟨d, p1, p2, slotData_keys hk p3⟩
  have hg : GoodSlots items := by
    refine ⟨?_, ?_, ?_, ?_, ?_, ?_⟩
    · intro x hx
      obtain ⟨k, hr⟩ := hmem x hx
      simp [Item.isSlot, hr.slot]
    · unfold InSuccession
      rw [List.isChain_iff_getElem]
      intro i hi
      have e1 := h5 i _ (List.getElem?_eq_getElem (by omega))
      have e2 := h5 (i + 1) _ (List.getElem?_eq_getElem hi)
      simp [Item.endT, e1.slot, e2.start, CloseTo]
    · intro x hx y hy
      obtain ⟨k, hr⟩ := hmem x hx
      obtain ⟨k', hr'⟩ := hmem y hy
      simp [Item.unit, hr.slot, hr'.slot]
    · intro x hx y hy
      obtain ⟨k, hr⟩ := hmem x hx
      obtain ⟨k', hr'⟩ := hmem y hy
      rw [hr.tz, hr'.tz]
    · intro x hx
      obtain ⟨d, hd, hne, _⟩ := hdata x hx
      refine ⟨_, hd, ?_⟩
      cases d with
      | nil => exact absurd rfl hne
      | cons a b => rfl
    · intro x hx y hy d e hd he
      obtain ⟨d', hd', _, hk'⟩ := hdata x hx
      obtain ⟨e', he', _, hk2⟩ := hdata y hy
      rw [hd'] at hd; rw [he'] at he
      cases hd; cases he
      intro k
      rw [hk', hk2]
  obtain ⟨s, hs, hi, _⟩ := build_good_slots hg
  refine ⟨items, w, s, h1, hs, hi, ?_⟩
  intro x hx
  obtain ⟨d, hd, _, hk'⟩ := hdata x hx
  exact ⟨d, hd, hk'⟩

/-- the average keeps the labels, as required above -/
theorem C96_avg_labels (ks : List String) (a b : ℚ) (v : List VPoint) (d : Dict ℚ) (h : avgSlotOp.run ks a b v = .ok d) :
    d.keys = ks := by
  have h' : avgView ks a b v = .ok d := h
  unfold avgView at h'
  exact perLabelDict_keys h'

end Timeseria
