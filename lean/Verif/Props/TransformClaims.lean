import Verif.Props.Aggregate
import Verif.Lemmas.BuildLike

/-! # C45-C49, C89-C96: the claims about resampling and aggregation -/

namespace Timeseria

/-- a grid of multiples of `u` seconds (used for the concrete cases) -/
def physGrid (u : ℚ) (hu : 0 < u) : Grid where
  next t := t + u
  delta := u
  hdelta := hu
  hnext _ := le_refl _
  onGrid t := decide (t = u * ⌊t / u⌋)
  ceil t := u * ⌈t / u⌉
  secs := u
  hceil t := by
    refine ⟨?_, ?_⟩
    · have := Int.le_ceil (t / u)
      rw [div_le_iff₀ hu] at this
      linarith
    · rw [decide_eq_true_eq, mul_div_cancel_left₀ _ hu.ne', Int.floor_intCast]
  hceil' t e he hlt := by
    rw [decide_eq_true_eq] at he
    rw [he]
    apply mul_le_mul_of_nonneg_left _ hu.le
    have : ⌈t / u⌉ ≤ ⌊e / u⌋ := by
      rw [Int.ceil_le, div_le_iff₀ hu]
      linarith
    exact_mod_cast this

theorem physGrid_physical (u : ℚ) (hu : 0 < u) : (physGrid u hu).Physical u := by
  refine ⟨hu, fun _ => rfl, rfl, ?_⟩
  intro t ht
  simp only [physGrid, decide_eq_true_eq] at ht ⊢
  rw [add_div, div_self hu.ne', Int.floor_add_one]
  push_cast
  linarith

def grid60 : Grid := physGrid 60 (by norm_num)
def grid120 : Grid := physGrid 120 (by norm_num)

/-! ## Aggregation -/

theorem aggregate_run (g : Grid) (c : Settings) (unit : TUnit) (ops : List SlotOp) (ps : List VPoint) (hsi : 0 < c.si)
    (hps : InputSeries c.ks ps) (hn : NoPreviousLoss ps) (hks : c.ks ≠ []) (hops : ops ≠ [])
    (htot : ∀ o ∈ ops, OpTotal c.ks o) (start stop : Option ℚ) (f toT : ℚ)
    (hf : processFrom g .slots start (firstT ps) = .ok f) (ht : processTo g stop (lastT ps) = .ok toT)
    (hfirst : firstT ps < g.next f) :
    ∃ items w K, process g .slots c unit ops start stop ps = .ok (items, w) ∧ items.length = K ∧
      LastInterval g (ps.map VPoint.t) f toT K ∧ Shape c.ks (withRegions c.si ps) w.ps ∧
      ∀ (k : ℕ) (x : Item), items[k]? = some x → AggregatedSlot c unit ops ps (edge g f k) (edge g f (k + 1)) x := by
  obtain ⟨p0, hp0, hp0t, hp00⟩ := firstT_get hps.ne
  obtain ⟨pl, hpl, hplt, _⟩ := lastT_get hps.ne
  obtain ⟨K, hK, hlast, hgood⟩ := processJobs_last (g := g) (toT := toT) hps.sorted (f := f) (by
    intro t h0
    rw [List.getElem?_map, hp00] at h0
    simp only [Option.map_some, Option.some.injEq] at h0
    rw [← h0, hp0t]
    exact hfirst)
  obtain ⟨items, w, h1, h2, h3⟩ := runJobs_spec (f := computeSlot c unit ops)
    (I := fun w => Shape c.ks (withRegions c.si ps) w.ps)
    (Q := fun j x => AggregatedSlot c unit ops ps j.a j.b x) (expectedJobs g (ps.map VPoint.t) f K) (by
      intro j hj w hw
      obtain ⟨k, hk, rfl⟩ := List.mem_map.1 hj
      obtain ⟨x, w', a1, a2, a3, _⟩ := computeSlot_spec hsi hps hn hks (unit := unit) hops htot
        (hgood k (List.mem_range.1 hk)) (fst := (k == 0)) hw
      exact ⟨x, w', a1, a2, a3⟩)
    { ps := withRegions c.si ps, ws := ps.map (fun _ => none) } [] ⟨rfl, withRegions_labels hsi hps⟩
  refine ⟨items, w, K, ?_, ?_, hlast, h2, ?_⟩
  · unfold process
    rw [hp0, hpl]
    simp only [hp0t, hplt, hf, ht, hK, regionsLoop_none _ _ hps.sorted]
    have e : attach ps (expectedRegions c.si none (ps.map VPoint.t)) = withRegions c.si ps := rfl
    rw [e, h1]
    rfl
  · rw [← h3.length_eq]; simp [expectedJobs]
  · intro k x hx
    have hk : k < items.length := (List.getElem?_eq_some_iff.1 hx).1
    have hk' : k < (expectedJobs g (ps.map VPoint.t) f K).length := by rw [h3.length_eq]; exact hk
    have := (List.forall₂_iff_get.1 h3).2 k hk' hk
    have hxe : items.get ⟨k, hk⟩ = x := (List.getElem?_eq_some_iff.1 hx).2
    rw [hxe] at this
    simpa [expectedJobs, expectedJob] using this

/-- default start of an aggregation: the first boundary not before the first point -/
theorem aggregate_from (g : Grid) (t0 : ℚ) :
    ∃ f, processFrom g .slots none t0 = .ok f ∧ g.onGrid f = true ∧ t0 ≤ f ∧ t0 < g.next f ∧
      ∀ e, g.onGrid e = true → t0 ≤ e → f ≤ e := by
  have hd := g.hdelta
  by_cases h : g.onGrid t0 = true
  · refine ⟨t0, by simp [processFrom, givenTime, h], h, le_refl _, ?_, fun e _ h => h⟩
    have := g.hnext t0
    linarith
  · have hc := g.hceil t0
    refine ⟨g.ceil t0, by simp [processFrom, givenTime, h], hc.2, hc.1, ?_, ?_⟩
    · have := g.hnext (g.ceil t0)
      linarith [hc.1]
    · intro e he hle
      apply g.hceil' t0 e he
      rcases lt_or_eq_of_le hle with h1 | h1
      · exact h1
      · exact absurd (h1 ▸ he) h

/-- **C45**: aggregating a series (in order, without data losses, with operations that do not fail) succeeds and gives
slots one unit long that start at the first boundary `s` not before the first point and follow each other
without gaps, as many as fit before the last point; the operations not using weights get exactly the
points falling in the slot (besides interpolated ones), if there are any, and those using weights also
the last point before and the first one after it. -/
theorem C45_aggregation (g : Grid) (c : Settings) (unit : TUnit) (ops : List SlotOp) (ps : List VPoint) (hsi : 0 < c.si)
    (hps : InputSeries c.ks ps) (hn : NoPreviousLoss ps) (hks : c.ks ≠ []) (hops : ops ≠ [])
    (htot : ∀ o ∈ ops, OpTotal c.ks o) :
    ∃ items w s, process g .slots c unit ops none none ps = .ok (items, w) ∧
      g.onGrid s = true ∧ firstT ps ≤ s ∧ (∀ e, g.onGrid e = true → firstT ps ≤ e → s ≤ e) ∧
      (∀ x ∈ items.head?, x.t = s) ∧
      (∀ x ∈ items, x.slot = some (g.next x.t, unit) ∧ g.next x.t ≤ lastT ps) ∧
      items.IsChain (fun x y => y.t = g.next x.t) ∧
      (∀ x ∈ items.getLast?, lastT ps < g.next (g.next x.t)) ∧ (items = [] → lastT ps < g.next s) ∧
      ∀ x ∈ items, ∃ d loss view inner, x.data = some (.dict d) ∧
        slotData c ops x.t (g.next x.t) loss view inner = .ok d ∧
        ((∃ p ∈ ps, x.t ≤ p.t ∧ p.t < g.next x.t) → (inner.filter (fun p => !p.interp)).map VPoint.t =
          (ps.map VPoint.t).filter (fun t => decide (x.t ≤ t ∧ t < g.next x.t))) ∧
        ∀ p ∈ view, p.interp = false → ∃ p' ∈ ps, p.t = p'.t ∧ Involved ps x.t (g.next x.t) p' := by
  obtain ⟨f, hf, hf1, hf2, hf3, hf4⟩ := aggregate_from g (firstT ps)
  have ht : processTo g none (lastT ps) = .ok (lastT ps) := rfl
  obtain ⟨items, w, K, h1, h2, h3, _, h5⟩ := aggregate_run g c unit ops ps hsi hps hn hks hops htot none none f (lastT ps)
    hf ht hf3
  have hall := h3.all (fun u hu hle v hv => le_trans (sorted_le_last hps.ne hps.sorted v hv) hle) _ (lastT_mem hps.ne)
  have hnext : ∀ k, edge g f (k + 1) = g.next (edge g f k) := fun _ => rfl
  have hmem : ∀ x ∈ items, ∃ k < K, x.t = edge g f k ∧ AggregatedSlot c unit ops ps (edge g f k) (edge g f (k + 1)) x := by
    intro x hx
    obtain ⟨k, hk, rfl⟩ := List.getElem_of_mem hx
    have := h5 k _ (List.getElem?_eq_getElem hk)
    exact ⟨k, by omega, this.start, this⟩
  refine ⟨items, w, f, h1, hf1, hf2, hf4, ?_, ?_, ?_, ?_, ?_, ?_⟩
  · intro x hx
    rw [List.head?_eq_getElem?] at hx
    exact (h5 0 x hx).start
  · intro x hx
    obtain ⟨k, hk, he, hs⟩ := hmem x hx
    refine ⟨by rw [he, ← hnext]; exact hs.slot, ?_⟩
    rw [he, ← hnext]
    obtain ⟨v, hv, hv1⟩ := h3.reached (by omega)
    have h6 := sorted_le_last hps.ne hps.sorted v hv
    have h7 : edge g f (k + 1) ≤ edge g f K := edge_mono g f (by omega)
    linarith
  · rw [List.isChain_iff_getElem]
    intro k hk
    have e1 := (h5 k _ (List.getElem?_eq_getElem (by omega))).start
    have e2 := (h5 (k + 1) _ (List.getElem?_eq_getElem hk)).start
    rw [e1, e2]; rfl
  · intro x hx
    rw [List.getLast?_eq_getElem?] at hx
    have e1 := (h5 _ x hx).start
    have hpos : 0 < items.length := by
      have := (List.getElem?_eq_some_iff.1 hx).1
      omega
    have e2 : items.length - 1 + 1 = K := by omega
    rw [e1, ← hnext, e2, ← hnext]
    exact hall
  · intro h
    have : K = 0 := by rw [← h2, h]; rfl
    rw [this] at hall
    exact hall
  · intro x hx
    obtain ⟨k, hk, he, hs⟩ := hmem x hx
    obtain ⟨d, loss, view, inner, p1, _, p3, p4, p5⟩ := hs.points
    rw [he, ← hnext]
    refine ⟨d, loss, view, inner, p1, p3, p5, ?_⟩
    intro p hp hpi
    have hmem : p.t ∈ (view.filter (fun p => !p.interp)).map VPoint.t :=
      List.mem_map_of_mem (List.mem_filter.2 ⟨hp, by simp [hpi]⟩)
    rw [p4] at hmem
    obtain ⟨q, hq, hqt⟩ := List.mem_map.1 hmem
    obtain ⟨p', hp', _, _, hpt⟩ := involved_mem hsi hps hq
    exact ⟨p', hp'.1, by rw [← hqt, hpt], hp'⟩

/-- the points used in the concrete cases: values 0, 1, 0 one minute apart -/
def exMin : List VPoint :=
  [⟨0, 0, 0, [("v", 0)], [], false⟩, ⟨60, 0, 0, [("v", 1)], [], false⟩, ⟨120, 0, 0, [("v", 0)], [], false⟩]

def exSettings : Settings := { ks := ["v"], si := 60, hasRes := true }

theorem exMin_input : InputSeries exSettings.ks exMin := by
  refine ⟨by simp [exMin], by simp [exMin]; norm_num, by simp [exMin], ?_⟩
  intro p hp k hk
  simp only [exSettings, List.mem_singleton] at hk
  subst hk
  simp only [exMin, List.mem_cons, List.not_mem_nil, or_false] at hp
  rcases hp with rfl | rfl | rfl <;> exact ⟨_, rfl⟩

/-- a concrete case of the hypotheses and of the result -/
theorem C45_witness : InputSeries exSettings.ks exMin ∧ NoPreviousLoss exMin ∧ OpTotal exSettings.ks avgSlotOp ∧
    (process grid120 .slots exSettings {} [avgSlotOp] none none exMin).toOption.map (fun r => r.1) =
      some [{ t := 0, slot := some (120, {}), tz := "UTC", data := some (.dict [("v_avg", 1 / 2)]),
              idx := [("data_loss", some 0)] }] := by
  refine ⟨exMin_input, ?_, avgSlotOp_total (by simp [exSettings]), by decide +kernel⟩
  intro p hp
  simp only [exMin, List.mem_cons, List.not_mem_nil, or_false] at hp
  rcases hp with rfl | rfl | rfl <;> exact .inl rfl

theorem C46_witness : (process grid60 .points exSettings {} [] none none exMin).toOption.map (fun r => r.1.map Item.t) =
      some [60] ∧ grid60.Physical 60 :=
  ⟨by decide +kernel, physGrid_physical _ _⟩

/-! ## C47: the end -/

/-- **C47**: with an explicit end, the items go beyond it whenever no point lies in the unit after the end: here the
end is 120, the points are at 0, 60 and 300, and slots up to 300 are produced. -/
theorem C47_false :
    (process grid60 .slots exSettings {} [avgSlotOp] none (some 120)
      [⟨0, 0, 0, [("v", 1)], [], false⟩, ⟨60, 0, 0, [("v", 1)], [], false⟩, ⟨300, 0, 0, [("v", 1)], [], false⟩]).toOption.map
      (fun r => r.1.map (fun x => (x.t, x.endT))) = some [(0, 60), (60, 120), (120, 180), (180, 240), (240, 300)] := by
  decide +kernel

/-- the time of the end is on the boundaries counted from the start -/
theorem C47_slots_partial (g : Grid) (c : Settings) (unit : TUnit) (ops : List SlotOp) (ps : List VPoint) (hsi : 0 < c.si)
    (hps : InputSeries c.ks ps) (hn : NoPreviousLoss ps) (hks : c.ks ≠ []) (hops : ops ≠ [])
    (htot : ∀ o ∈ ops, OpTotal c.ks o) (f e : ℚ) (he0 : e ≠ 0) (he : g.onGrid e = true)
    (hf : processFrom g .slots none (firstT ps) = .ok f) (M : ℕ) (hM : edge g f M = e)
    (hgap : ∀ p ∈ ps, e ≤ p.t → ∃ q ∈ ps, e ≤ q.t ∧ q.t < g.next e) :
    ∃ items w, process g .slots c unit ops none (some e) ps = .ok (items, w) ∧ ∀ x ∈ items, x.endT ≤ e := by
  obtain ⟨f', hf', _, _, hf3, _⟩ := aggregate_from g (firstT ps)
  have hff : f = f' := by rw [hf] at hf'; cases hf'; rfl
  subst hff
  have ht : processTo g (some e) (lastT ps) = .ok e := by simp [processTo, givenTime, he0, he]
  obtain ⟨items, w, K, h1, h2, h3, _, h5⟩ := aggregate_run g c unit ops ps hsi hps hn hks hops htot none (some e) f e
    hf ht hf3
  refine ⟨items, w, h1, ?_⟩
  have hKM : K ≤ M := by
    apply h3.respects M hM.ge
    intro u hu hle
    obtain ⟨p, hp, rfl⟩ := List.mem_map.1 hu
    rw [hM] at hle ⊢
    obtain ⟨q, hq, q1, q2⟩ := hgap p hp hle
    refine ⟨q.t, List.mem_map_of_mem hq, q1, ?_⟩
    have : edge g f (M + 1) = g.next (edge g f M) := rfl
    rw [this, hM]
    exact q2
  intro x hx
  obtain ⟨k, hk, rfl⟩ := List.getElem_of_mem hx
  have hs := (h5 k _ (List.getElem?_eq_getElem hk)).slot
  have : (items[k]).endT = edge g f (k + 1) := by simp [Item.endT, hs]
  rw [this, ← hM]
  exact edge_mono g f (by omega)

/-- the same for resampling: no point after the end, if some point lies in the unit beginning half a unit after the
end (or there is none at all from there on) -/
theorem C47_points_partial (g : Grid) (u : ℚ) (hu : g.Physical u) (c : Settings) (unit : TUnit) (ops : List SlotOp)
    (ps : List VPoint) (hsi : 0 < c.si) (hps : InputSeries c.ks ps) (f e : ℚ) (he0 : e ≠ 0) (he : g.onGrid e = true)
    (hf : processFrom g .points none (firstT ps) = .ok f) (M : ℕ) (hM : edge g f M = e + u / 2)
    (hgap : ∀ p ∈ ps, e + u / 2 ≤ p.t → ∃ q ∈ ps, e + u / 2 ≤ q.t ∧ q.t < e + u / 2 + u) :
    ∃ items w, process g .points c unit ops none (some e) ps = .ok (items, w) ∧ ∀ x ∈ items, x.t ≤ e := by
  obtain ⟨f', hf', _, hf3, _⟩ := resample_from g hu (firstT ps)
  have hff : f = f' := by rw [hf] at hf'; cases hf'; rfl
  subst hff
  have hpos := hu.pos
  have ht : processTo g (some e) (lastT ps) = .ok e := by simp [processTo, givenTime, he0, he]
  obtain ⟨items, w, K, h1, h2, h3, _, h5⟩ := resample_run g c unit ops ps hsi hps none (some e) f e hf ht hf3
  refine ⟨items, w, h1, ?_⟩
  have hKM : K ≤ M := by
    apply h3.respects M (by rw [hM]; linarith)
    intro v hv hle
    obtain ⟨p, hp, rfl⟩ := List.mem_map.1 hv
    rw [hM] at hle ⊢
    obtain ⟨q, hq, q1, q2⟩ := hgap p hp hle
    refine ⟨q.t, List.mem_map_of_mem hq, q1, ?_⟩
    have : edge g f (M + 1) = g.next (edge g f M) := rfl
    rw [this, hM, hu.next]
    exact q2
  intro x hx
  obtain ⟨k, hk, rfl⟩ := List.getElem_of_mem hx
  rw [(h5 k _ (List.getElem?_eq_getElem hk)).time]
  have h6 : edge g f (k + 1) = edge g f k + u := by
    have : edge g f (k + 1) = g.next (edge g f k) := rfl
    rw [this, hu.next]
  have h7 : edge g f (k + 1) ≤ edge g f M := edge_mono g f (by omega)
  rw [hM] at h7
  rw [h6] at h7 ⊢
  linarith

/-- a concrete case of the hypotheses: the end 60 on a series with points up to 120 -/
theorem C47_witness : processFrom grid60 .slots none (firstT exMin) = .ok 0 ∧ edge grid60 0 1 = 60 ∧
    (process grid60 .slots exSettings {} [avgSlotOp] none (some 60) exMin).toOption.map
      (fun r => r.1.map (fun x => (x.t, x.endT))) = some [(0, 60)] := by
  decide +kernel

/-! ## C48: averages -/

/-- **C48**: each value of a resampled point lies between any bounds of the values of the points involved (those in
its interval, the last before and the first after it). -/
theorem C48_convex (g : Grid) (u : ℚ) (hu : g.Physical u) (c : Settings) (unit : TUnit) (ops : List SlotOp)
    (ps : List VPoint) (hsi : 0 < c.si) (hps : InputSeries c.ks ps) :
    ∃ items w, process g .points c unit ops none none ps = .ok (items, w) ∧
      ∀ x ∈ items, ∃ d, x.data = some (.dict d) ∧ d.keys = c.ks ∧ ∀ k ∈ c.ks, ∃ v, d.get? k = some v ∧
        ∀ lo hi, (∀ p, Involved ps (x.t - u / 2) (x.t + u / 2) p → ∀ y, p.data.get? k = some y → lo ≤ y ∧ y ≤ hi) →
          lo ≤ v ∧ v ≤ hi := by
  obtain ⟨f, hf, _, hf2, _⟩ := resample_from g hu (firstT ps)
  have ht : processTo g none (lastT ps) = .ok (lastT ps) := rfl
  obtain ⟨items, w, K, h1, h2, h3, _, h5⟩ := resample_run g c unit ops ps hsi hps none none f (lastT ps) hf ht hf2
  refine ⟨items, w, h1, ?_⟩
  intro x hx
  obtain ⟨k, hk, rfl⟩ := List.getElem_of_mem hx
  have hr := h5 k _ (List.getElem?_eq_getElem hk)
  have h6 : edge g f (k + 1) = edge g f k + u := by
    have : edge g f (k + 1) = g.next (edge g f k) := rfl
    rw [this, hu.next]
  have e1 : (items[k]).t - u / 2 = edge g f k := by rw [hr.time, h6]; ring
  have e2 : (items[k]).t + u / 2 = edge g f (k + 1) := by rw [hr.time, h6]; ring
  rw [e1, e2]
  exact hr.value

/-- **C48 (constants)**: a constant series is resampled to the same constant. -/
theorem C48_constant (g : Grid) (u : ℚ) (hu : g.Physical u) (c : Settings) (unit : TUnit) (ops : List SlotOp)
    (ps : List VPoint) (hsi : 0 < c.si) (hps : InputSeries c.ks ps) (k : String) (hk : k ∈ c.ks) (v : ℚ)
    (hc : ∀ p ∈ ps, p.data.get? k = some v) :
    ∃ items w, process g .points c unit ops none none ps = .ok (items, w) ∧
      ∀ x ∈ items, ∃ d, x.data = some (.dict d) ∧ d.get? k = some v := by
  obtain ⟨items, w, h1, h2⟩ := C48_convex g u hu c unit ops ps hsi hps
  refine ⟨items, w, h1, ?_⟩
  intro x hx
  obtain ⟨d, hd, _, hd2⟩ := h2 x hx
  obtain ⟨v', hv1, hv2⟩ := hd2 k hk
  refine ⟨d, hd, ?_⟩
  have := hv2 v v (by
    intro p hp y hy
    have := hc p hp.1
    rw [this] at hy
    cases hy
    exact ⟨le_refl _, le_refl _⟩)
  rw [hv1, le_antisymm this.2 this.1]

/-! ## C49: data loss of the new items -/

theorem resampled_loss {c : Settings} (hsi : 0 < c.si) {ps : List VPoint} (hps : InputSeries c.ks ps) (hn : NoPreviousLoss ps)
    {a b : ℚ} (hg : GoodInterval (ps.map VPoint.t) a b) (fst : Bool) :
    dataLossOf (involved (ps.map VPoint.t) (withRegions c.si ps) a b) c.hasRes fst c.si a b =
      .ok (1 - coveredLength a b (withRegions c.si ps) / (b - a)) := by
  have hprep0 : Prepared (ps.map VPoint.t) (withRegions c.si ps) := by
    have := attach_prepared hsi hps.sorted hps.measured
    rwa [regionsLoop_none _ _ hps.sorted] at this
  have hor : OrderedRegions (involved (ps.map VPoint.t) (withRegions c.si ps) a b) := by
    constructor
    · intro p hp
      obtain ⟨m, _, _, hm⟩ := idxSlice_mem hp
      have := hprep0.region p (List.mem_of_getElem? hm)
      linarith
    · unfold involved idxSlice
      exact (hprep0.ord.sublist (List.drop_sublist _ _)).sublist (List.take_sublist _ _)
  have hnp : NoPreviousLoss (involved (ps.map VPoint.t) (withRegions c.si ps) a b) := by
    intro p hp
    obtain ⟨m, _, _, hm⟩ := idxSlice_mem hp
    exact withRegions_idx (P := fun i => (i.get? "data_loss").join = none ∨ (i.get? "data_loss").join = some 0) hn p
      (List.mem_of_getElem? hm)
  obtain ⟨l, hl1, hl2, _⟩ := C37_fresh _ hor hnp c.hasRes fst c.si a b hg.lt
  rw [hl1, hl2, not_involved_overlap hprep0 hg]

/-- **C49 (resampling)**: the data loss of a resampled point is the fraction of its interval not covered by the
validity regions of the series, for a series without data losses. -/
theorem C49_resampled (g : Grid) (u : ℚ) (hu : g.Physical u) (c : Settings) (unit : TUnit) (ops : List SlotOp)
    (ps : List VPoint) (hsi : 0 < c.si) (hps : InputSeries c.ks ps) (hn : NoPreviousLoss ps) (hfo : c.forceLoss = none) :
    ∃ items w, process g .points c unit ops none none ps = .ok (items, w) ∧ ∀ x ∈ items,
      x.idx.get? "data_loss" =
        some (some (1 - coveredLength (x.t - u / 2) (x.t + u / 2) (withRegions c.si ps) / u)) := by
  obtain ⟨f, hf, hf1, hf2, _⟩ := resample_from g hu (firstT ps)
  have ht : processTo g none (lastT ps) = .ok (lastT ps) := rfl
  obtain ⟨items, w, K, h1, h2, h3, _, h5⟩ := resample_run g c unit ops ps hsi hps none none f (lastT ps) hf ht hf2
  refine ⟨items, w, h1, ?_⟩
  intro x hx
  obtain ⟨k, hk, rfl⟩ := List.getElem_of_mem hx
  have hr := h5 k _ (List.getElem?_eq_getElem hk)
  have h6 : edge g f (k + 1) = edge g f k + u := by
    have : edge g f (k + 1) = g.next (edge g f k) := rfl
    rw [this, hu.next]
  have e1 : (items[k]).t - u / 2 = edge g f k := by rw [hr.time, h6]; ring
  have e2 : (items[k]).t + u / 2 = edge g f (k + 1) := by rw [hr.time, h6]; ring
  rw [e1, e2]
  have hgood : GoodInterval (ps.map VPoint.t) (edge g f k) (edge g f (k + 1)) := by
    obtain ⟨p0, _, hp0t, hp00⟩ := firstT_get hps.ne
    have h00 : (ps.map VPoint.t)[0]? = some (firstT ps) := by rw [List.getElem?_map, hp00, ← hp0t]; rfl
    refine ⟨edge_strictMono g f (by omega), ?_, ?_⟩
    · obtain ⟨v, hv, hv1⟩ := h3.reached (by omega)
      obtain ⟨i, hi, rfl⟩ := List.getElem_of_mem hv
      have h7 : edge g f (k + 1) ≤ edge g f K := edge_mono g f (by omega)
      have : ¬ i < below (ps.map VPoint.t) (edge g f (k + 1)) := by
        intro h
        have := (below_iff hps.sorted (List.getElem?_eq_getElem hi)).1 h
        linarith
      omega
    · have h8 : edge g f 1 ≤ edge g f (k + 1) := edge_mono g f (by omega)
      have h9 : edge g f 1 = g.next f := rfl
      exact (below_iff hps.sorted h00).2 (by linarith)
  obtain ⟨l, hl1, hl2⟩ := hr.loss
  rw [resampled_loss hsi hps hn hgood] at hl1
  cases hl1
  rw [hl2, hfo, h6]
  simp

/-- **C49 (aggregation)** -/
theorem C49_aggregated (g : Grid) (c : Settings) (unit : TUnit) (ops : List SlotOp) (ps : List VPoint) (hsi : 0 < c.si)
    (hps : InputSeries c.ks ps) (hn : NoPreviousLoss ps) (hks : c.ks ≠ []) (hops : ops ≠ [])
    (htot : ∀ o ∈ ops, OpTotal c.ks o) (hfo : c.forceLoss = none) :
    ∃ items w, process g .slots c unit ops none none ps = .ok (items, w) ∧ ∀ x ∈ items,
      x.idx.get? "data_loss" =
        some (some (1 - coveredLength x.t x.endT (withRegions c.si ps) / (x.endT - x.t))) := by
  obtain ⟨f, hf, _, _, hf3, _⟩ := aggregate_from g (firstT ps)
  have ht : processTo g none (lastT ps) = .ok (lastT ps) := rfl
  obtain ⟨items, w, K, h1, h2, h3, _, h5⟩ := aggregate_run g c unit ops ps hsi hps hn hks hops htot none none f (lastT ps)
    hf ht hf3
  refine ⟨items, w, h1, ?_⟩
  intro x hx
  obtain ⟨k, hk, rfl⟩ := List.getElem_of_mem hx
  have hr := h5 k _ (List.getElem?_eq_getElem hk)
  have : (items[k]).endT = edge g f (k + 1) := by simp [Item.endT, hr.slot]
  rw [hr.start, this, hr.loss, hfo]
  rfl

theorem expectedRegions_within (D : ℚ) (ts : List ℚ) : ∀ pv, ∀ r ∈ expectedRegions D pv ts,
    r.t - D / 2 ≤ r.a ∧ r.b ≤ r.t + D / 2 := by
  induction ts with
  | nil => intro pv r hr; simp [expectedRegions] at hr
  | cons t l ih =>
    intro pv r hr
    simp only [expectedRegions, List.mem_cons] at hr
    rcases hr with rfl | hr
    · simp only
      constructor
      · unfold leftEnd; cases pv with
        | none => simp
        | some p => exact le_max_left _ _
      · unfold rightEnd; cases l.head? with
        | none => simp
        | some p => exact min_le_left _ _
    · exact ih _ r hr

theorem withRegions_get {ps : List VPoint} {D : ℚ} (hD : 0 < D) (hs : (ps.map VPoint.t).Pairwise (· < ·)) {i : ℕ} {q : VPoint}
    (hq : (withRegions D ps)[i]? = some q) : ∃ p r, ps[i]? = some p ∧
      (expectedRegions D none (ps.map VPoint.t))[i]? = some r ∧ q = { p with vf := r.a, vt := r.b } ∧ r.t = p.t := by
  obtain ⟨h1, _⟩ := expectedRegions_spec D hD (ps.map VPoint.t) none hs (by simp)
  have hl : (expectedRegions D none (ps.map VPoint.t)).length = ps.length := by
    have := congrArg List.length h1
    simpa using this
  unfold withRegions at hq
  have hi : i < (attach ps (expectedRegions D none (ps.map VPoint.t))).length := (List.getElem?_eq_some_iff.1 hq).1
  rw [attach_length hl] at hi
  have hp : ps[i]? = some ps[i] := List.getElem?_eq_getElem hi
  obtain ⟨r, hr1, hr2⟩ := attach_getElem? hl hp
  rw [hr2] at hq
  cases hq
  refine ⟨ps[i], r, hp, hr1, rfl, ?_⟩
  have e1 : ((expectedRegions D none (ps.map VPoint.t)).map Region.t)[i]? = some r.t := by
    rw [List.getElem?_map, hr1]; rfl
  rw [h1, List.getElem?_map, hp] at e1
  simp only [Option.map_some, Option.some.injEq] at e1
  exact e1.symm

/-- **C49 (nothing there)**: if no point is within half a sampling interval of `[a, b]`, nothing of it is covered,
that is, the data loss is 1. -/
theorem C49_nothing {ps : List VPoint} {D : ℚ} (hD : 0 < D) (hs : (ps.map VPoint.t).Pairwise (· < ·)) {a b : ℚ}
    (h : ∀ p ∈ ps, p.t + D / 2 ≤ a ∨ b ≤ p.t - D / 2) : 1 - coveredLength a b (withRegions D ps) / (b - a) = 1 := by
  have : coveredLength a b (withRegions D ps) = 0 := by
    apply List.sum_eq_zero
    intro x hx
    obtain ⟨q, hq, rfl⟩ := List.mem_map.1 hx
    obtain ⟨i, hi, rfl⟩ := List.getElem_of_mem hq
    obtain ⟨p, r, hp, hr, he, ht⟩ := withRegions_get hD hs (List.getElem?_eq_getElem hi)
    obtain ⟨w1, w2⟩ := expectedRegions_within D _ none r (List.mem_of_getElem? hr)
    rw [he]
    simp only
    rw [ht] at w1 w2
    have hz : overlap r.a r.b a b = 0 := by
      rcases h p (List.mem_of_getElem? hp) with h1 | h1
      · unfold overlap
        apply max_eq_left
        have := min_le_left r.b b
        have := le_max_right r.a a
        linarith
      · exact overlap_zero_right (by linarith)
    rw [hz, ite_self]
  rw [this]; simp

/-- **C49 (all there)**: if consecutive points are at most one sampling interval apart and `[a, b]` lies between the
first and the last one, it is covered completely, that is, the data loss is 0. -/
theorem C49_all {ks : List String} {ps : List VPoint} {D : ℚ} (hD : 0 < D) (hps : InputSeries ks ps) {a b : ℚ} (hab : a < b)
    (ha : firstT ps ≤ a) (hb : b ≤ lastT ps) (hc : (ps.map VPoint.t).IsChain (fun x y => y - x ≤ D)) :
    1 - coveredLength a b (withRegions D ps) / (b - a) = 0 := by
  have hprep0 : Prepared (ps.map VPoint.t) (withRegions D ps) := by
    have := attach_prepared hD hps.sorted hps.measured
    rwa [regionsLoop_none _ _ hps.sorted] at this
  obtain ⟨h1, _, h3⟩ := expectedRegions_spec D hD (ps.map VPoint.t) none hps.sorted (by simp)
  have hlen := hprep0.length
  simp only [List.length_map] at hlen
  have hch : (withRegions D ps).IsChain (fun x y => x.vt = y.vf) := by
    rw [List.isChain_iff_getElem] at hc h3 ⊢
    intro i hi
    have e1 := List.getElem?_eq_getElem (l := withRegions D ps) (i := i) (by omega)
    have e2 := List.getElem?_eq_getElem (l := withRegions D ps) (i := i + 1) hi
    obtain ⟨p, r, hp, hr, he, ht⟩ := withRegions_get hD hps.sorted e1
    obtain ⟨p', r', hp', hr', he', ht'⟩ := withRegions_get hD hps.sorted e2
    obtain ⟨k1, k2⟩ := List.getElem?_eq_some_iff.1 hr
    obtain ⟨k1', k2'⟩ := List.getElem?_eq_some_iff.1 hr'
    have := (h3 i k1').2.1
    rw [k2, k2'] at this
    rw [he, he']
    apply this
    have hc' := hc i (by simpa using (by omega : i + 1 < ps.length))
    obtain ⟨m1, m2⟩ := List.getElem?_eq_some_iff.1 hp
    obtain ⟨m1', m2'⟩ := List.getElem?_eq_some_iff.1 hp'
    simp only [List.getElem_map, m2, m2'] at hc'
    rw [ht, ht']
    exact hc'
  obtain ⟨p0, _, hp0t, hp00⟩ := firstT_get hps.ne
  obtain ⟨pl, _, hplt, hpll⟩ := lastT_get hps.ne
  rcases hq : withRegions D ps with _ | ⟨q, r⟩
  · rw [hq] at hlen
    exact absurd (List.length_eq_zero_iff.1 hlen) hps.ne
  · have hq0 : (withRegions D ps)[0]? = some q := by rw [hq]; rfl
    have hreg := hprep0.region q (by rw [hq]; simp)
    have htq : q.t = firstT ps := by
      have := hprep0.time hq0
      rw [List.getElem?_map, hp00] at this
      simp only [Option.map_some, Option.some.injEq] at this
      rw [← this, hp0t]
    have hlast : b ≤ ((q :: r).getLast (by simp)).vt := by
      have hmem : ((q :: r).getLast (by simp)) ∈ withRegions D ps := by rw [hq]; exact List.getLast_mem _
      have hreg' := hprep0.region _ hmem
      have hidx : (withRegions D ps)[ps.length - 1]? = some ((q :: r).getLast (by simp)) := by
        rw [hq, ← List.getLast?_eq_getLast_of_ne_nil (by simp), List.getLast?_eq_getElem?]
        congr 1
        rw [hlen, hq]
      have := hprep0.time hidx
      rw [List.getElem?_map, hpll] at this
      simp only [Option.map_some, Option.some.injEq] at this
      rw [← this, hplt] at hreg'
      linarith
    rw [hq] at hch
    rw [tiling_aux a b r q (fun x hx => by have := hprep0.region x (by rw [hq]; exact hx); linarith)
      (fun x hx => hprep0.measured x (by rw [hq]; exact hx)) hch hlast,
      max_eq_left (show q.vf ≤ a by linarith), max_eq_right (show (0 : ℚ) ≤ b - a by linarith),
      div_self (by linarith), sub_self]

/-- a concrete case: half of the interval is missing -/
theorem C49_witness : (process grid120 .slots exSettings {} [avgSlotOp] none none
    [⟨0, 0, 0, [("v", 1)], [], false⟩, ⟨120, 0, 0, [("v", 1)], [], false⟩]).toOption.map
      (fun r => r.1.map Item.idx) = some [[("data_loss", some (1 / 2))]] := by
  decide +kernel

end Timeseria
