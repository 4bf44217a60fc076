import Verif.Model.TransformFront
import Verif.Props.TransformMore
import Verif.Props.Sampling
import Verif.Props.Order
import Verif.Props.Items

/-! # C204-C210: `series.resample(unit)` and `series.aggregate(unit)`, from series to series -/

namespace Timeseria

/-! ## Specification -/

/-- A series `s` of at least two points, built from the items `l`: data are dictionaries with the same labels
(at least one), all in the zone `z`, in time order. -/
structure DataSeries (z : String) (l : List Item) (s : TSeries) : Prop where
  good : GoodPoints l
  dict : ∀ x ∈ l, ∃ d, x.data = some (.dict d)
  zone : ∀ x ∈ l, x.tz = z
  two : 2 ≤ l.length
  built : TSeries.build l = .ok s

/-- the series has the label -/
def SeriesLabel (l : List Item) (k : String) : Prop := ∃ x ∈ l, ∃ d, x.data = some (.dict d) ∧ k ∈ d.keys

/-- no item carries a data loss other than zero -/
def Lossless (l : List Item) : Prop := ∀ x ∈ l, (x.idx.get? "data_loss").join = none ∨ (x.idx.get? "data_loss").join = some 0

/-- first and last timestamp of the items -/
def firstTime (l : List Item) : ℚ := ((times l).head?).getD 0
def lastTime (l : List Item) : ℚ := ((times l).getLast?).getD 0

/-! ## What the transformation sees -/

theorem vpoints_ok {l : List Item} (h : ∀ x ∈ l, ∃ d, x.data = some (.dict d)) : ∃ ps, vpoints l = some ps ∧
    List.Forall₂ (fun (x : Item) (p : VPoint) => p.t = x.t ∧ x.data = some (.dict p.data) ∧ p.idx = x.idx ∧ p.interp = false)
      l ps := by
  induction l with
  | nil => exact ⟨[], rfl, .nil⟩
  | cons x r ih =>
    obtain ⟨ps, h1, h2⟩ := ih (fun y hy => h y (by simp [hy]))
    obtain ⟨d, hd⟩ := h x (by simp)
    refine ⟨{ t := x.t, vf := 0, vt := 0, data := d, idx := x.idx } :: ps, ?_, .cons ⟨rfl, hd, rfl, rfl⟩ h2⟩
    have : x.dictOf = some d := by simp [Item.dictOf, hd]
    simp [vpoints, this, h1]

theorem forall₂_map_t {l : List Item} {ps : List VPoint}
    (h : List.Forall₂ (fun (x : Item) (p : VPoint) => p.t = x.t ∧ x.data = some (.dict p.data) ∧ p.idx = x.idx ∧ p.interp = false)
      l ps) : ps.map VPoint.t = times l := by
  induction h with
  | nil => rfl
  | cons h _ ih => simp only [List.map_cons, times] at ih ⊢; rw [h.1, ih]

theorem forall₂_right {α β : Type} {R : α → β → Prop} {l : List α} {m : List β} (h : List.Forall₂ R l m) {b : β} (hb : b ∈ m) :
    ∃ a ∈ l, R a b := by
  induction h with
  | nil => simp at hb
  | cons h _ ih =>
    rcases List.mem_cons.1 hb with rfl | hb
    · exact ⟨_, by simp, h⟩
    · obtain ⟨a, ha, hr⟩ := ih hb
      exact ⟨a, by simp [ha], hr⟩

theorem detectTz_same {z : String} {l : List Item} (h : ∀ x ∈ l, x.tz = z) : detectTz (some z) l = some z := by
  induction l with
  | nil => rfl
  | cons x r ih =>
    have hx := h x (by simp)
    simp only [detectTz, hx, ne_eq, not_true_eq_false, if_false]
    exact ih (fun y hy => h y (by simp [hy]))

theorem appendAll_tz_none (l : List Item) (hp : AllPoints l) : ∀ s : TSeries, s.tz = none → (s.appendAll l).1.tz = none := by
  induction l with
  | nil => intro s h; exact h
  | cons x r ih =>
    intro s h
    have hx : x.isSlot = false := hp x (by simp)
    have h1 : (s.append x).1.tz = none := by
      have hb : ∀ s' : TSeries, s'.tz = none → (s'.baseAppend x).1.tz = none := by
        intro s' hs'
        unfold TSeries.baseAppend
        repeat' split
        all_goals exact hs'
      have hpre : (s.prePoint x).1.tz = none := by
        unfold TSeries.prePoint
        dsimp only
        repeat' split
        all_goals exact h
      unfold TSeries.append
      simp only [hx]
      split
      · exact hpre
      · exact hb _ hpre
    unfold TSeries.appendAll
    split
    · exact h1
    · exact ih (fun y hy => hp y (by simp [hy])) _ h1

theorem built_tz {l : List Item} {s : TSeries} {z : String} (hp : AllPoints l) (hz : ∀ x ∈ l, x.tz = z) (hne : l ≠ [])
    (h : TSeries.build l = .ok s) : s.getTz = some z := by
  have hi := build_items h
  have htz : s.tz = none := by
    rw [build_ok_iff] at h
    have := appendAll_tz_none l hp TSeries.empty rfl
    rw [h] at this; exact this
  unfold TSeries.getTz
  rw [htz, hi]
  cases l with
  | nil => exact absurd rfl hne
  | cons x r =>
    simp only [detectTz]
    rw [hz x (by simp)]
    exact detectTz_same (fun y hy => hz y (by simp [hy]))

/-- what `process` takes from a series -/
structure Seen (z : String) (l : List Item) (s : TSeries) (ks : List String) (ps : List VPoint) : Prop where
  times : ps.map VPoint.t = times l
  input : InputSeries ks ps
  nonempty : ks ≠ []
  labels : ∀ k, k ∈ ks ↔ SeriesLabel l k
  from_items : ∀ p ∈ ps, ∃ x ∈ l, p.t = x.t ∧ x.data = some (.dict p.data) ∧ p.idx = x.idx
  front : ∀ clk n tg unit ops o, s.process clk n tg unit ops o = frontProcess clk n tg unit ops o s ks z ps
  zip : List.Forall₂ (fun (x : Item) (p : VPoint) => p.t = x.t ∧ p.idx = x.idx) l ps
  values : List.Forall₂ (fun (x : Item) (p : VPoint) => p.t = x.t ∧ x.data = some (.dict p.data)) l ps
  nodup : (∀ x ∈ l, ∀ d, x.data = some (.dict d) → d.keys.Nodup) → ks.Nodup

theorem DataSeries.seen {z : String} {l : List Item} {s : TSeries} (h : DataSeries z l s) : ∃ ks ps, Seen z l s ks ps := by
  obtain ⟨ps, hps, hf⟩ := vpoints_ok h.dict
  have hne : l ≠ [] := by rintro rfl; have := h.two; simp at this
  have htz := built_tz h.good.points h.zone hne h.built
  have hit := build_items h.built
  have hdi := build_dataInv h.good.has h.built
  rcases hl : l with _ | ⟨x, r⟩
  · exact absurd hl hne
  have hx : x ∈ l := by rw [hl]; simp
  obtain ⟨d, hd⟩ := h.dict x hx
  obtain ⟨d', hd', htr⟩ := h.good.has x hx
  rw [hd] at hd'; cases hd'
  have hitem : s.items ≠ [] := by rw [hit]; exact hne
  obtain ⟨rf, hr1, hr2, _⟩ := hdi.ref hitem
  have hlab : s.labelsFrom x = .ok (sortStr d.keys) := by
    simp [TSeries.labelsFrom, hr1, hr2, hd, labelsOf]
  have hmem : ∀ k, k ∈ sortStr d.keys ↔ k ∈ d.keys := fun k => (sortStr_perm d.keys).mem_iff
  have hkeys : ∀ k, k ∈ d.keys ↔ SeriesLabel l k := by
    intro k
    constructor
    · intro hk; exact ⟨x, hx, d, hd, hk⟩
    · rintro ⟨y, hy, e, he, hk⟩
      exact (h.good.same y hy x hx _ _ he hd k).1 hk
  have htimes := forall₂_map_t hf
  rw [← hl]
  refine ⟨sortStr d.keys, ps, htimes, ⟨?_, ?_, ?_, ?_⟩, ?_, ?_, ?_, ?_, hf.imp (fun _ _ h => ⟨h.1, h.2.2.1⟩),
    hf.imp (fun _ _ h => ⟨h.1, h.2.1⟩), fun hn => (sortStr_perm d.keys).nodup_iff.2 (hn x hx d hd)⟩
  · intro e
    rw [e] at htimes
    rw [hl] at htimes; simp [Timeseria.times] at htimes
  · rw [htimes]
    have := h.good.ordered
    unfold StrictlyOrdered at this
    exact List.pairwise_map.2 this
  · intro p hp
    obtain ⟨y, _, hy⟩ := forall₂_right hf hp
    exact hy.2.2.2
  · intro p hp k hk
    obtain ⟨y, hy, hy1⟩ := forall₂_right hf hp
    have : k ∈ p.data.keys := (h.good.same x hx y hy _ _ hd hy1.2.1 k).1 ((hmem k).1 hk)
    exact Dict.get?_isSome.2 this
  · intro e
    have : d.keys = [] := by
      rcases hk : d.keys with _ | ⟨a, b⟩
      · rfl
      · have : a ∈ sortStr d.keys := (hmem a).2 (by rw [hk]; simp)
        rw [e] at this; simp at this
    cases d with
    | nil => simp [Data.truthy] at htr
    | cons a b => simp [Dict.keys] at this
  · intro k; rw [hmem, hkeys]
  · intro p hp
    obtain ⟨y, hy, hy1⟩ := forall₂_right hf hp
    exact ⟨y, hy, hy1.1, hy1.2.1, hy1.2.2.1⟩
  · intro clk n tg unit ops o
    have hx0 : x.isSlot = false := h.good.points x hx
    have hit' : s.items = x :: r := by rw [hit, hl]
    unfold TSeries.process
    rw [hit']
    dsimp only
    rw [if_neg (by simp [hx0, hd]), htz, ← hl, hps, hlab]

/-- with no options, the transformation is the one of C45-C49 with the detected sampling interval -/
theorem front_default {clk : String → Grid} {n : ℕ} {tg : Target} {unit : TUnit} {ops : List SlotOp} {s : TSeries}
    {ks : List String} {z : String} {ps : List VPoint} {si : ℚ} (hne : ps ≠ [])
    (hv : frontValidity n none (ps.map VPoint.t) = some (.ok si)) {items : List Item} {w : Work} {r : TSeries}
    (hp : process (clk z) tg (frontSettings s ks z {} si) unit ops none none ps = .ok (items, w))
    (hb : TSeries.build items = .ok r) :
    frontProcess clk n tg unit ops {} s ks z ps = some (.ok r) := by
  obtain ⟨p0, hp0, -, -⟩ := firstT_get hne
  obtain ⟨pl, hpl, -, -⟩ := lastT_get hne
  unfold process at hp
  rw [hp0, hpl] at hp
  dsimp only at hp
  unfold frontProcess
  rw [hp0, hpl, hv]
  have e1 : frontFrom clk z tg ({} : Opts).start ((Option.map VPoint.t (some p0)).getD 0) = processFrom (clk z) tg none p0.t := rfl
  have e2 : frontTo clk ({} : Opts).stop ((Option.map VPoint.t (some pl)).getD 0) = .ok pl.t := rfl
  rw [e1, e2]
  have e3 : processTo (clk z) none pl.t = .ok pl.t := rfl
  rw [e3] at hp
  generalize hk : processFrom (clk z) tg none p0.t = k at hp ⊢
  cases k with
  | error e => simp at hp
  | ok f =>
    dsimp only at hp ⊢
    have hp' : processRange (clk z) tg (frontSettings s ks z {} si) unit ops f pl.t ps = .ok (items, w) := hp
    unfold frontRun
    rw [hp']
    exact congrArg some hb

theorem spacings_pos {ts : List ℚ} (h : ts.Pairwise (· < ·)) : ∀ x ∈ spacings ts, 0 < x := by
  induction ts with
  | nil => simp [spacings]
  | cons a r ih =>
    cases r with
    | nil => simp [spacings]
    | cons b r =>
      intro x hx
      simp only [spacings, List.mem_cons] at hx
      rw [List.pairwise_cons] at h
      rcases hx with rfl | hx
      · have := h.1 b (by simp); linarith
      · exact ih h.2 x hx

theorem times_length (l : List Item) : (times l).length = l.length := by simp [times]

/-- the sampling interval used -/
theorem validity_found {ts : List ℚ} (hs : ts.Pairwise (· < ·)) (h2 : 2 ≤ ts.length)
    (hd : (distinctSpacings ts : ℚ) ≤ 95 / 100 * ts.length) (n : ℕ) :
    ∃ si, 0 < si ∧ si ∈ spacings ts ∧ frontValidity (n + 1) none ts = some (.ok si) := by
  obtain ⟨x, c, h1, h2, -⟩ := C38_most_common ts h2 hd n
  refine ⟨x, spacings_pos hs x h2, h2, ?_⟩
  simp [frontValidity, h1]

theorem validity_even {ts : List ℚ} (h2 : 2 ≤ ts.length) {D : ℚ} (hu : ∀ x ∈ spacings ts, x = D) (n : ℕ) :
    frontValidity (n + 1) none ts = some (.ok D) := by
  simp [frontValidity, C38_uniform ts h2 D hu n]

theorem Seen.first {z l s ks ps} (h : Seen z l s ks ps) : firstT ps = firstTime l := by
  unfold firstT firstTime
  rw [← h.times, List.head?_map]

theorem Seen.last {z l s ks ps} (h : Seen z l s ks ps) : lastT ps = lastTime l := by
  unfold lastT lastTime
  rw [← h.times, List.getLast?_map]

/-- What resampling a series to a unit of `u` seconds must give: points one unit apart on the grid, from the first
position whose interval begins after the first point, as long as the interval ends no later than the last point,
with the labels and the zone of the series, and each value between the bounds of the values in the series. -/
structure Resampled (g : Grid) (u : ℚ) (z : String) (l : List Item) (out : List Item) : Prop where
  start : ∃ s0, g.onGrid s0 = true ∧ firstTime l ≤ s0 - u / 2 ∧
    (∀ e, g.onGrid e = true → firstTime l + u / 2 < e + u → s0 ≤ e + u) ∧
    times out = (List.range out.length).map (fun k => s0 + (k : ℕ) * u) ∧ lastTime l < s0 + out.length * u + u / 2
  item : ∀ x ∈ out, g.onGrid x.t = true ∧ x.slot = none ∧ x.tz = z ∧ firstTime l ≤ x.t ∧ x.t + u / 2 ≤ lastTime l
  data : ∀ x ∈ out, ∃ d, x.data = some (.dict d) ∧ (∀ k, k ∈ d.keys ↔ SeriesLabel l k) ∧
    ∀ k v, d.get? k = some v → ∀ lo hi, (∀ y ∈ l, ∀ e w, y.data = some (.dict e) → e.get? k = some w → lo ≤ w ∧ w ≤ hi) →
      lo ≤ v ∧ v ≤ hi

theorem resampled_of {clk : String → Grid} {n : ℕ} {z : String} {l : List Item} {s : TSeries} (h : DataSeries z l s)
    {u : ℚ} (hu : (clk z).Physical u) (hu1 : 1 / 10000 ≤ u) {unit : TUnit} {txt : Text} (htxt : resamplerInit txt = .ok ())
    {si : ℚ} (hsi : 0 < si) (hv : frontValidity n none (times l) = some (.ok si)) :
    ∃ r, s.resample clk n txt unit = some (.ok r) ∧ Resampled (clk z) u z l r.items ∧ TSeries.build r.items = .ok r ∧
      (Lossless l → (times l).IsChain (fun x y => y - x ≤ si) → ∀ x ∈ r.items, x.idx.get? "data_loss" = some (some 0)) ∧
      (∀ x ∈ r.items, ∀ y ∈ l, ∀ k ∈ y.idx.keys, k ∈ x.idx.keys) := by
  obtain ⟨ks, ps, hs⟩ := h.seen
  have hv' : frontValidity n none (ps.map VPoint.t) = some (.ok si) := by rw [hs.times]; exact hv
  generalize hc : frontSettings s ks z {} si = c
  have hcsi : c.si = si := by rw [← hc]; rfl
  have hcks : c.ks = ks := by rw [← hc]; rfl
  have hctz : c.tz = z := by rw [← hc]; rfl
  have hcfl : c.forceLoss = none := by rw [← hc]; rfl
  have hcn : c.names = allDataIndexes l := by rw [← hc]; show allDataIndexes s.items = _; rw [build_items h.built]
  have hin : InputSeries c.ks ps := hcks ▸ hs.input
  have hsi' : 0 < c.si := hcsi ▸ hsi
  obtain ⟨f, hf, hf1, hf2, _⟩ := resample_from (clk z) hu (firstT ps)
  obtain ⟨items, w, K, h1, h2, h3, _, h5⟩ := resample_run (clk z) c unit [] ps hsi' hin none none f (lastT ps) hf rfl hf2
  obtain ⟨items1, w1, s0, a1, a2, a3, a4, a5, a6, a7⟩ := C46_resampling (clk z) u hu c unit [] ps hsi' hin
  obtain ⟨items2, w2, r, b1, b2, b3⟩ := C96_resampled (clk z) u hu hu1 c unit [] ps hsi' hin (hcks ▸ hs.nonempty)
  rw [a1] at h1 b1
  simp only [Except.ok.injEq, Prod.mk.injEq] at h1 b1
  obtain ⟨rfl, rfl⟩ := h1
  obtain ⟨rfl, rfl⟩ := b1
  have hmem : ∀ x ∈ items1, ∃ k : ℕ, items1[k]? = some x := by
    intro x hx
    obtain ⟨k, hk, rfl⟩ := List.getElem_of_mem hx
    exact ⟨k, List.getElem?_eq_getElem hk⟩
  refine ⟨r, ?_, ⟨⟨s0, a2, ?_, ?_, ?_, ?_⟩, ?_, ?_⟩, ?_, ?_, ?_⟩
  · unfold TSeries.resample
    rw [htxt]
    dsimp only
    rw [hs.front]
    exact front_default hs.input.ne hv' (hc ▸ a1) b2
  · rw [← hs.first]; exact a3
  · rw [← hs.first]; exact a4
  · rw [b3]; exact a5
  · rw [b3, ← hs.last]; exact a7
  · intro x hx
    rw [b3] at hx
    obtain ⟨m1, m2, m3, m4⟩ := a6 x hx
    obtain ⟨k, hk⟩ := hmem x hx
    refine ⟨m1, m2, (h5 k x hk).tz.trans hctz, ?_, ?_⟩
    · rw [← hs.first]; exact m3
    · rw [← hs.last]; exact m4
  · intro x hx
    rw [b3] at hx
    obtain ⟨k, hk⟩ := hmem x hx
    obtain ⟨d, d1, d2, d3⟩ := (h5 k x hk).value
    refine ⟨d, d1, ?_, ?_⟩
    · intro k'
      rw [d2, hcks, hs.labels]
    · intro k' v hv lo hi hb
      have hk' : k' ∈ c.ks := by
        rw [← d2]
        exact Dict.get?_isSome.1 ⟨v, hv⟩
      obtain ⟨v', e1, e2⟩ := d3 k' hk'
      rw [hv] at e1
      cases e1
      apply e2 lo hi
      intro p hp y hy
      obtain ⟨x', hx', _, hxd, _⟩ := hs.from_items p hp.1
      exact hb x' hx' _ y hxd hy
  · rw [b3]; exact b2
  · intro hl hch x hx
    rw [b3] at hx
    have hn : NoPreviousLoss ps := by
      intro p hp
      obtain ⟨y, hy, _, _, hyi⟩ := hs.from_items p hp
      unfold VPoint.dataLoss
      rw [hyi]
      exact hl y hy
    obtain ⟨items3, w3, c1, c2⟩ := C49_resampled (clk z) u hu c unit [] ps hsi' hin hn hcfl
    rw [a1] at c1
    simp only [Except.ok.injEq, Prod.mk.injEq] at c1
    obtain ⟨rfl, rfl⟩ := c1
    rw [c2 x hx, hcsi]
    obtain ⟨_, _, m3, m4⟩ := a6 x hx
    have hpos := hu.pos
    have hmin : firstT ps ≤ x.t - u / 2 := by
      obtain ⟨k, hk⟩ := hmem x hx
      have hxt : x.t = s0 + (k : ℕ) * u := by
        have : (items1.map Item.t)[k]? = some x.t := by rw [List.getElem?_map, hk]; rfl
        rw [a5, List.getElem?_map] at this
        have hkl : k < items1.length := (List.getElem?_eq_some_iff.1 hk).1
        rw [List.getElem?_range hkl] at this
        simpa using this.symm
      rw [hxt]
      have : (0 : ℚ) ≤ (k : ℚ) * u := mul_nonneg (Nat.cast_nonneg k) hpos.le
      linarith
    have := C49_all (a := x.t - u / 2) (b := x.t + u / 2) hsi hin (by linarith) hmin m4 (by rw [hs.times]; exact hch)
    have e : x.t + u / 2 - (x.t - u / 2) = u := by ring
    rw [e] at this
    rw [this]
  · intro x hx y hy k hk
    rw [b3] at hx
    obtain ⟨i, hi⟩ := hmem x hx
    by_cases hkd : k = "data_loss"
    · obtain ⟨v, _, hv⟩ := (h5 i x hi).loss
      subst hkd
      exact Dict.get?_isSome.1 ⟨_, hv⟩
    · obtain ⟨o, ho, _⟩ := (h5 i x hi).index k (by
        rw [hcn]
        exact ((C72_all_data_indexes l).2.1 k).2 ⟨y, hy, hk⟩) hkd
      exact Dict.get?_isSome.1 ⟨_, ho⟩

theorem spacings_of_chain {u : ℚ} {ts : List ℚ} (h : ts.IsChain (fun x y => y - x = u)) : ∀ x ∈ spacings ts, x = u := by
  induction ts with
  | nil => simp [spacings]
  | cons a r ih =>
    cases r with
    | nil => simp [spacings]
    | cons b r =>
      intro x hx
      simp only [spacings, List.mem_cons] at hx
      rw [List.isChain_cons_cons] at h
      rcases hx with rfl | hx
      · exact h.1
      · exact ih h.2 x hx

theorem chain_of_spacings {D : ℚ} {ts : List ℚ} (h : ∀ x ∈ spacings ts, x = D) : ts.IsChain (fun x y => y - x ≤ D) := by
  induction ts with
  | nil => simp
  | cons a r ih =>
    cases r with
    | nil => simp
    | cons b r =>
      rw [List.isChain_cons_cons]
      refine ⟨(h (b - a) (by simp [spacings])).le, ih (fun x hx => h x (by simp [spacings, hx]))⟩

theorem resampled_uniform {g : Grid} {u : ℚ} {z : String} {l out : List Item} (h : Resampled g u z l out) (h2 : 2 ≤ out.length) :
    UniformBy u out := by
  obtain ⟨s0, _, _, _, ht, _⟩ := h.start
  refine ⟨spacings_ne_nil (by rw [times_length]; exact h2), spacings_of_chain ?_⟩
  rw [ht, List.isChain_iff_getElem]
  intro i hi
  simp only [List.getElem_map, List.getElem_range]
  push_cast; ring

/-- **C204**: `series.resample(unit)` of a series of at least two points with dictionary data, whose different
spacings are at most 95% of the number of points, gives a series of points one unit apart, on the grid, covering
the time range of the original, with its labels, its indexes and its zone, values between the bounds of the
original ones and, with at least two points, the unit as resolution. -/
theorem C204_resample (clk : String → Grid) (n : ℕ) (z : String) (l : List Item) (s : TSeries) (h : DataSeries z l s)
    (u : ℚ) (hu : (clk z).Physical u) (hu1 : 1 / 10000 ≤ u) (unit : TUnit) (txt : Text) (htxt : resamplerInit txt = .ok ())
    (hd : (distinctSpacings (times l) : ℚ) ≤ 95 / 100 * l.length) :
    ∃ r, s.resample clk (n + 1) txt unit = some (.ok r) ∧ Resampled (clk z) u z l r.items ∧
      (∀ x ∈ r.items, ∀ y ∈ l, ∀ k ∈ y.idx.keys, k ∈ x.idx.keys) ∧
      (2 ≤ r.items.length → ∃ w, spacingUnit u = some w ∧ r.res = .unit w) := by
  obtain ⟨si, h1, _, h3⟩ := validity_found (ts := times l)
    (by have := h.good.ordered; exact List.pairwise_map.2 this) (by rw [times_length]; exact h.two)
    (by rw [times_length]; exact hd) n
  obtain ⟨r, a1, a2, a3, _, a5⟩ := resampled_of h hu hu1 (unit := unit) htxt h1 h3
  refine ⟨r, a1, a2, a5, ?_⟩
  intro h2
  have hp : AllPoints r.items := fun x hx => by simp [Item.isSlot, (a2.item x hx).2.1]
  exact (C04_resolution_is_spacing r.items r hp a3).2.2.2.1 u (resampled_uniform a2 h2)

/-- **C204 (complete series)**: resampling an evenly spaced series without data losses gives points without data
loss, whatever the unit. -/
theorem C204_complete (clk : String → Grid) (n : ℕ) (z : String) (l : List Item) (s : TSeries) (h : DataSeries z l s)
    (u : ℚ) (hu : (clk z).Physical u) (hu1 : 1 / 10000 ≤ u) (unit : TUnit) (txt : Text) (htxt : resamplerInit txt = .ok ())
    (D : ℚ) (hD : UniformBy D l) (hl : Lossless l) :
    ∃ r, s.resample clk (n + 1) txt unit = some (.ok r) ∧ Resampled (clk z) u z l r.items ∧
      ∀ x ∈ r.items, x.idx.get? "data_loss" = some (some 0) := by
  have hv := validity_even (ts := times l) (by rw [times_length]; exact h.two) hD.2 n
  have hpos : 0 < D := by
    obtain ⟨x, hx⟩ := List.exists_mem_of_ne_nil _ hD.1
    rw [← hD.2 x hx]
    exact spacings_pos (List.pairwise_map.2 h.good.ordered) x hx
  obtain ⟨r, a1, a2, _, a4, _⟩ := resampled_of h hu hu1 (unit := unit) htxt hpos hv
  exact ⟨r, a1, a2, a4 hl (chain_of_spacings hD.2)⟩

/-! ## Aggregation -/

/-- What aggregating a series must give: slots of the unit, in the zone of the series, from the first boundary not
before the first point, one after the other as long as they end no later than the last point, with one label
for each label of the series and each operation. -/
structure AggregatedTo (g : Grid) (unit : TUnit) (ops : List SlotOp) (z : String) (l : List Item) (out : List Item) : Prop where
  start : ∃ s0, g.onGrid s0 = true ∧ firstTime l ≤ s0 ∧ (∀ e, g.onGrid e = true → firstTime l ≤ e → s0 ≤ e) ∧
    (∀ x ∈ out.head?, x.t = s0) ∧ (out = [] → lastTime l < g.next s0)
  item : ∀ x ∈ out, x.slot = some (g.next x.t, unit) ∧ g.next x.t ≤ lastTime l ∧ x.tz = z
  chain : out.IsChain (fun x y => y.t = g.next x.t)
  last : ∀ x ∈ out.getLast?, lastTime l < g.next (g.next x.t)
  data : ∀ x ∈ out, ∃ d, x.data = some (.dict d) ∧ ∀ k, k ∈ d.keys ↔ ∃ o ∈ ops, ∃ a, SeriesLabel l a ∧ k = a ++ "_" ++ o.name

theorem aggregated_of {clk : String → Grid} {n : ℕ} {z : String} {l : List Item} {s : TSeries} (h : DataSeries z l s)
    (hl : Lossless l) {unit : TUnit} {ops : List SlotOp} (hops : ops ≠ [])
    (htot : ∀ ks, ks ≠ [] → ∀ o ∈ ops, OpTotal ks o)
    (hk : ∀ ks, ∀ o ∈ ops, ∀ a b v d, o.run ks a b v = .ok d → d.keys = ks)
    {si : ℚ} (hsi : 0 < si) (hv : frontValidity n none (times l) = some (.ok si)) :
    ∃ r, s.aggregate clk n unit ops = some (.ok r) ∧ AggregatedTo (clk z) unit ops z l r.items ∧
      TSeries.build r.items = .ok r ∧
      ((times l).IsChain (fun x y => y - x ≤ si) → ∀ x ∈ r.items, x.idx.get? "data_loss" = some (some 0)) ∧
      (∀ x ∈ r.items, ∀ y ∈ l, ∀ k ∈ y.idx.keys, k ∈ x.idx.keys) := by
  obtain ⟨ks, ps, hs⟩ := h.seen
  have hv' : frontValidity n none (ps.map VPoint.t) = some (.ok si) := by rw [hs.times]; exact hv
  generalize hc : frontSettings s ks z {} si = c
  have hcsi : c.si = si := by rw [← hc]; rfl
  have hcks : c.ks = ks := by rw [← hc]; rfl
  have hctz : c.tz = z := by rw [← hc]; rfl
  have hcfl : c.forceLoss = none := by rw [← hc]; rfl
  have hcn : c.names = allDataIndexes l := by rw [← hc]; show allDataIndexes s.items = _; rw [build_items h.built]
  have hin : InputSeries c.ks ps := hcks ▸ hs.input
  have hsi' : 0 < c.si := hcsi ▸ hsi
  have hks : c.ks ≠ [] := hcks ▸ hs.nonempty
  have hn : NoPreviousLoss ps := by
    intro p hp
    obtain ⟨y, hy, _, _, hyi⟩ := hs.from_items p hp
    unfold VPoint.dataLoss
    rw [hyi]
    exact hl y hy
  obtain ⟨f, hf, _, hf2, hf3, _⟩ := aggregate_from (clk z) (firstT ps)
  obtain ⟨items, w, K, h1, h2, h3, _, h5⟩ := aggregate_run (clk z) c unit ops ps hsi' hin hn hks hops (htot _ hks) none none f
    (lastT ps) hf rfl hf3
  obtain ⟨items1, w1, s0, a1, a2, a3, a4, a5, a6, a7, a8, a9, _⟩ := C45_aggregation (clk z) c unit ops ps hsi' hin hn hks hops
    (htot _ hks)
  obtain ⟨items2, w2, r, b1, b2, b3, b4⟩ := C96_aggregated (clk z) c unit ops ps hsi' hin hn hks hops (htot _ hks) (hk _)
  rw [a1] at h1 b1
  simp only [Except.ok.injEq, Prod.mk.injEq] at h1 b1
  obtain ⟨rfl, rfl⟩ := h1
  obtain ⟨rfl, rfl⟩ := b1
  have hmem : ∀ x ∈ items1, ∃ k : ℕ, items1[k]? = some x := by
    intro x hx
    obtain ⟨k, hk, rfl⟩ := List.getElem_of_mem hx
    exact ⟨k, List.getElem?_eq_getElem hk⟩
  refine ⟨r, ?_, ⟨⟨s0, a2, ?_, ?_, ?_, ?_⟩, ?_, ?_, ?_, ?_⟩, ?_, ?_, ?_⟩
  · unfold TSeries.aggregate aggregatorInit
    rw [if_neg (by simpa using hops)]
    dsimp only
    rw [hs.front]
    exact front_default hs.input.ne hv' (hc ▸ a1) b2
  · rw [← hs.first]; exact a3
  · rw [← hs.first]; exact a4
  · rw [b3]; exact a5
  · rw [b3, ← hs.last]; exact a9
  · intro x hx
    rw [b3] at hx
    obtain ⟨k, hk⟩ := hmem x hx
    obtain ⟨m1, m2⟩ := a6 x hx
    exact ⟨m1, by rw [← hs.last]; exact m2, (h5 k x hk).tz.trans hctz⟩
  · rw [b3]; exact a7
  · rw [b3, ← hs.last]; exact a8
  · intro x hx
    rw [b3] at hx
    obtain ⟨d, hd, hdk⟩ := b4 x hx
    refine ⟨d, hd, ?_⟩
    intro k
    rw [hdk, hcks]
    simp only [hs.labels]
  · rw [b3]; exact b2
  · intro hch x hx
    rw [b3] at hx
    obtain ⟨k, hk⟩ := hmem x hx
    have hr := h5 k x hk
    rw [hr.loss, hcfl, hcsi]
    have hlt : edge (clk z) f k < edge (clk z) f (k + 1) := edge_strictMono _ f (by omega)
    have hf0 : edge (clk z) f 0 ≤ edge (clk z) f k := edge_mono _ f (by omega)
    have hend : edge (clk z) f (k + 1) ≤ lastT ps := by
      have := (a6 x hx).2
      rw [hr.start] at this
      exact this
    have := C49_all (a := edge (clk z) f k) (b := edge (clk z) f (k + 1)) hsi hin hlt (le_trans hf2 hf0) hend
      (by rw [hs.times]; exact hch)
    rw [this]; rfl
  · intro x hx y hy k hk
    rw [b3] at hx
    obtain ⟨i, hi⟩ := hmem x hx
    by_cases hkd : k = "data_loss"
    · subst hkd
      exact Dict.get?_isSome.1 ⟨_, (h5 i x hi).loss⟩
    · obtain ⟨o, ho, _⟩ := (h5 i x hi).index k (by
        rw [hcn]
        exact ((C72_all_data_indexes l).2.1 k).2 ⟨y, hy, hk⟩) hkd
      exact Dict.get?_isSome.1 ⟨_, ho⟩

/-- **C205**: `series.aggregate(unit)` (with the average) of a series of at least two points without data losses,
whose different spacings are at most 95% of the number of points, gives a series of consecutive slots of the
unit from the first boundary not before the first point, as many as fit before the last one, in the zone of the
series, with a label `k_avg` for each label `k`, its indexes and the unit as resolution. -/
theorem C205_aggregate (clk : String → Grid) (n : ℕ) (z : String) (l : List Item) (s : TSeries) (h : DataSeries z l s)
    (hl : Lossless l) (unit : TUnit) (hd : (distinctSpacings (times l) : ℚ) ≤ 95 / 100 * l.length) :
    ∃ r, s.aggregate clk (n + 1) unit [avgSlotOp] = some (.ok r) ∧ AggregatedTo (clk z) unit [avgSlotOp] z l r.items ∧
      (∀ x ∈ r.items, ∀ y ∈ l, ∀ k ∈ y.idx.keys, k ∈ x.idx.keys) ∧ (r.items ≠ [] → r.res = .unit unit) := by
  obtain ⟨si, h1, _, h3⟩ := validity_found (ts := times l)
    (by have := h.good.ordered; exact List.pairwise_map.2 this) (by rw [times_length]; exact h.two)
    (by rw [times_length]; exact hd) n
  obtain ⟨r, a1, a2, a3, _, a5⟩ := aggregated_of (clk := clk) h hl (unit := unit) (ops := [avgSlotOp]) (by simp)
    (fun ks hks o ho => by rw [List.mem_singleton.1 ho]; exact avgSlotOp_total hks)
    (fun ks o ho a b v d hr => by rw [List.mem_singleton.1 ho] at hr; exact C96_avg_labels ks a b v d hr) h1 h3
  refine ⟨r, a1, a2, a5, ?_⟩
  intro hne
  have hslots : AllSlots r.items := fun x hx => by simp [Item.isSlot, (a2.item x hx).1]
  obtain ⟨x, hx⟩ := List.exists_mem_of_ne_nil _ hne
  obtain ⟨v, _, hv, _, hall⟩ := (build_slotInv hslots a3).noUnit hne
  have hxu : x.unit = unit := by simp [Item.unit, (a2.item x hx).1]
  rw [hv, ← (hall x hx).1, hxu]

/-- **C205 (complete series)**: aggregating an evenly spaced series without data losses gives slots without data
loss, whatever the unit. -/
theorem C205_complete (clk : String → Grid) (n : ℕ) (z : String) (l : List Item) (s : TSeries) (h : DataSeries z l s)
    (hl : Lossless l) (unit : TUnit) (D : ℚ) (hD : UniformBy D l) :
    ∃ r, s.aggregate clk (n + 1) unit [avgSlotOp] = some (.ok r) ∧ AggregatedTo (clk z) unit [avgSlotOp] z l r.items ∧
      ∀ x ∈ r.items, x.idx.get? "data_loss" = some (some 0) := by
  have hv := validity_even (ts := times l) (by rw [times_length]; exact h.two) hD.2 n
  have hpos : 0 < D := by
    obtain ⟨x, hx⟩ := List.exists_mem_of_ne_nil _ hD.1
    rw [← hD.2 x hx]
    exact spacings_pos (List.pairwise_map.2 h.good.ordered) x hx
  obtain ⟨r, a1, a2, _, a4, _⟩ := aggregated_of (clk := clk) h hl (unit := unit) (ops := [avgSlotOp]) (by simp)
    (fun ks hks o ho => by rw [List.mem_singleton.1 ho]; exact avgSlotOp_total hks)
    (fun ks o ho a b v d hr => by rw [List.mem_singleton.1 ho] at hr; exact C96_avg_labels ks a b v d hr) hpos hv
  exact ⟨r, a1, a2, a4 (chain_of_spacings hD.2)⟩

/-- the items of the concrete cases: four points one minute apart, in Rome -/
def exRome : List Item :=
  [{ t := 60, tz := "Europe/Rome", data := some (.dict [("v", 1)]) }, { t := 120, tz := "Europe/Rome", data := some (.dict [("v", 3)]) },
   { t := 180, tz := "Europe/Rome", data := some (.dict [("v", 5)]) }, { t := 240, tz := "Europe/Rome", data := some (.dict [("v", 7)]) }]
def exRomeSeries : TSeries := ((TSeries.build exRome).toOption).getD {}

theorem exRome_data : DataSeries "Europe/Rome" exRome exRomeSeries := by
  refine ⟨⟨?_, ?_, ?_, ?_⟩, ?_, ?_, by decide, by decide +kernel⟩
  · intro x hx; fin_cases hx <;> rfl
  · simp [exRome]; norm_num
  · intro x hx
    fin_cases hx <;> exact ⟨_, rfl, rfl⟩
  · intro x hx y hy d e hd he
    fin_cases hx <;> fin_cases hy <;> cases hd <;> cases he <;> intro k <;> simp [Dict.keys]
  · intro x hx
    fin_cases hx <;> exact ⟨_, rfl⟩
  · intro x hx; fin_cases hx <;> rfl

/-- the concrete cases: resampling to 90 seconds and aggregating to 120 -/
theorem C204_witness : DataSeries "Europe/Rome" exRome exRomeSeries ∧ (grid60).Physical 60 ∧
    ((exRomeSeries.resample (fun _ => grid60) 1 "1m".toList (TUnit.ofSecs 60)).bind (fun r => r.toOption)).map
      (fun r => r.items.map (fun x => (x.t, x.data))) =
      some [(120, some (.dict [("v", 3)])), (180, some (.dict [("v", 5)]))] :=
  ⟨exRome_data, physGrid_physical _ _, by decide +kernel⟩

theorem C205_witness : DataSeries "Europe/Rome" exRome exRomeSeries ∧ Lossless exRome ∧ UniformBy 60 exRome ∧
    ((exRomeSeries.aggregate (fun _ => grid60) 1 (TUnit.ofSecs 60) [avgSlotOp]).bind (fun r => r.toOption)).map
      (fun r => r.items.map (fun x => (x.t, x.endT, x.data))) =
      some [(60, 120, some (.dict [("v_avg", 2)])), (120, 180, some (.dict [("v_avg", 4)])), (180, 240, some (.dict [("v_avg", 6)]))] := by
  refine ⟨exRome_data, ?_, ?_, by decide +kernel⟩
  · intro x hx; fin_cases hx <;> exact .inl rfl
  · unfold UniformBy; decide +kernel

/-! ## C206, C207: series that cannot be transformed -/

/-- **C206**: transforming an empty series is a `TypeError`, not the `ValueError` the code intends. -/
theorem C206_false (clk : String → Grid) (n : ℕ) (tg : Target) (unit : TUnit) (ops : List SlotOp) (o : Opts) (s : TSeries)
    (h : s.items = []) : s.process clk n tg unit ops o = some (.error .typeError) := by
  unfold TSeries.process; rw [h]

/-- **C206 (partial)**: an empty series is always refused. -/
theorem C206_refused_partial (clk : String → Grid) (n : ℕ) (txt : Text) (unit : TUnit) (ops : List SlotOp) (s : TSeries)
    (h : s.items = []) : (∃ e, s.resample clk n txt unit = some (.error e)) ∧ ∃ e, s.aggregate clk n unit ops = some (.error e) := by
  refine ⟨?_, ?_⟩
  · unfold TSeries.resample
    cases resamplerInit txt with
    | error e => exact ⟨e, rfl⟩
    | ok _ => exact ⟨_, C206_false clk n .points unit [] {} s h⟩
  · unfold TSeries.aggregate
    cases aggregatorInit ops with
    | error e => exact ⟨e, rfl⟩
    | ok l => exact ⟨_, C206_false clk n .slots unit l {} s h⟩

/-- **C207**: a series of slots, or of points without data, is refused with a `TypeError`, whatever the options. -/
theorem C207_only_data_points (clk : String → Grid) (n : ℕ) (tg : Target) (unit : TUnit) (ops : List SlotOp) (o : Opts)
    (s : TSeries) (hne : s.items ≠ []) (h : AllSlots s.items ∨ ∀ x ∈ s.items, x.data = none) :
    s.process clk n tg unit ops o = some (.error .typeError) := by
  unfold TSeries.process
  rcases hi : s.items with _ | ⟨x, r⟩
  · exact absurd hi hne
  · dsimp only
    rw [if_pos]
    rcases h with h | h
    · exact .inl (h x (by rw [hi]; simp))
    · right; rw [h x (by rw [hi]; simp)]; rfl

theorem C207_witness : ((TSeries.build [{ t := 0, slot := some (60, TUnit.ofSecs 60), tz := "UTC", data := some (.dict [("v", 1)]) }]).toOption.map
    (fun s => decide (s.process (fun _ => grid60) 1 .slots (TUnit.ofSecs 60) [avgSlotOp] {} = some (.error .typeError)))) = some true := by
  decide +kernel

/-! ## C208: the units accepted by the resampler -/

/-- the letters of the calendar components -/
def CalendarLetter (c : Char) : Prop := c = 'Y' ∨ c = 'M' ∨ c = 'W' ∨ c = 'D'

/-- **C208**: one week, and one day three hours and five minutes, involve calendar components and are accepted. -/
theorem C208_false : (∃ p ∈ [UnitPart.mk 1 'W'], CalendarLetter p.letter) ∧ resamplerInit (unitText [⟨1, 'W'⟩]) = .ok () ∧
    (∃ p ∈ [UnitPart.mk 1 'D', ⟨3, 'h'⟩, ⟨5, 'm'⟩], CalendarLetter p.letter) ∧
    resamplerInit (unitText [⟨1, 'D'⟩, ⟨3, 'h'⟩, ⟨5, 'm'⟩]) = .ok () := by
  refine ⟨⟨⟨1, 'W'⟩, by simp, ?_⟩, by decide +kernel, ⟨⟨1, 'D'⟩, by simp, ?_⟩, by decide +kernel⟩ <;> simp [CalendarLetter]

theorem natStr_digits (n : ℕ) : (natStr n).filter (fun c => !c.isDigit) = [] := by
  rw [natStr_eq, List.filter_eq_nil_iff]
  intro c hc
  have := Nat.isDigit_of_mem_toDigits (by norm_num) (by norm_num) hc
  simp [this]

theorem unitType_text (p : UnitPart) (r : List UnitPart) (hp : p.letter.isDigit = false) (hr : ∀ q ∈ r, q.letter.isDigit = false) :
    unitType (unitText (p :: r)) = p.letter :: r.flatMap (fun q => ['_', q.letter]) := by
  have e : ∀ q : UnitPart, q.letter.isDigit = false →
      ('_' :: (natStr q.amount ++ [q.letter])).filter (fun c => !c.isDigit) = ['_', q.letter] := by
    intro q hq
    rw [List.filter_cons, if_pos (by decide), List.filter_append, natStr_digits]
    simp [hq]
  have er : (r.flatMap (fun q => '_' :: (natStr q.amount ++ [q.letter]))).filter (fun c => !c.isDigit) =
      r.flatMap (fun q => ['_', q.letter]) := by
    induction r with
    | nil => rfl
    | cons q r ih =>
      simp only [List.flatMap_cons]
      rw [List.filter_append, e q (hr q (by simp)), ih (fun q hq => hr q (by simp [hq]))]
  unfold unitType unitText
  dsimp only
  rw [List.filter_append, List.filter_append, natStr_digits, er]
  simp [hp]

/-- **C208 (partial)**: what is refused is exactly the units made of a single component of years, months or days;
all those without calendar components are accepted. -/
theorem C208_refused_partial (l : List UnitPart) (hne : l ≠ []) (hl : ∀ q ∈ l, q.letter.isDigit = false) :
    (resamplerInit (unitText l) = .error .valueError ↔
      ∃ n c, (c = 'Y' ∨ c = 'M' ∨ c = 'D') ∧ l = [⟨n, c⟩]) ∧
    ((∀ q ∈ l, ¬ CalendarLetter q.letter) → resamplerInit (unitText l) = .ok ()) := by
  rcases l with _ | ⟨p, r⟩
  · exact absurd rfl hne
  have ht := unitType_text p r (hl p (by simp)) (fun q hq => hl q (by simp [hq]))
  have hiff : (unitType (unitText (p :: r)) = ['Y'] ∨ unitType (unitText (p :: r)) = ['M'] ∨ unitType (unitText (p :: r)) = ['D']) ↔
      ∃ n c, (c = 'Y' ∨ c = 'M' ∨ c = 'D') ∧ p :: r = [⟨n, c⟩] := by
    rw [ht]
    constructor
    · intro h
      have hr : r = [] := by
        rcases r with _ | ⟨q, r⟩
        · rfl
        · simp at h
      subst hr
      refine ⟨p.amount, p.letter, by simpa using h, rfl⟩
    · rintro ⟨n, c, hc, e⟩
      simp only [List.cons.injEq] at e
      obtain ⟨rfl, rfl⟩ := e
      simpa using hc
  constructor
  · unfold resamplerInit
    rw [← hiff]
    split_ifs with h
    · simp [h]
    · simp [h]
  · intro hc
    unfold resamplerInit
    rw [if_neg]
    rw [hiff]
    rintro ⟨n, c, hcc, e⟩
    simp only [List.cons.injEq] at e
    apply hc p (by simp)
    rw [e.1]
    rcases hcc with h | h | h <;> simp [CalendarLetter, h]

theorem C208_witness : resamplerInit (unitText [⟨2, 'M'⟩]) = .error .valueError ∧ resamplerInit (unitText [⟨15, 'm'⟩, ⟨30, 's'⟩]) = .ok () := by
  decide +kernel

/-! ## C209: a single point -/

/-- a series of one point with dictionary data -/
structure OnePoint (z : String) (x : Item) (s : TSeries) : Prop where
  point : x.isSlot = false
  dict : ∃ d, x.data = some (.dict d) ∧ d ≠ []
  zone : x.tz = z
  built : TSeries.build [x] = .ok s

theorem OnePoint.front {z : String} {x : Item} {s : TSeries} (h : OnePoint z x s) :
    ∃ ks d, x.data = some (.dict d) ∧ ∀ clk n tg unit ops o, s.process clk n tg unit ops o =
      frontProcess clk n tg unit ops o s ks z [{ t := x.t, vf := 0, vt := 0, data := d, idx := x.idx }] := by
  obtain ⟨d, hd, hne⟩ := h.dict
  have hit := build_items h.built
  have htr : (Data.dict d).truthy = true := by
    cases d with
    | nil => exact absurd rfl hne
    | cons a b => rfl
  have hdi := build_dataInv (l := [x]) (by intro y hy; rw [List.mem_singleton.1 hy]; exact ⟨_, hd, htr⟩) h.built
  obtain ⟨rf, hr1, hr2, _⟩ := hdi.ref (by rw [hit]; simp)
  have htz := built_tz (l := [x]) (z := z) (by intro y hy; rw [List.mem_singleton.1 hy]; exact h.point)
    (by intro y hy; rw [List.mem_singleton.1 hy]; exact h.zone) (by simp) h.built
  have hlab : s.labelsFrom x = .ok (sortStr d.keys) := by
    simp [TSeries.labelsFrom, hr1, hr2, hd, labelsOf]
  refine ⟨sortStr d.keys, d, hd, ?_⟩
  intro clk n tg unit ops o
  have hv : vpoints s.items = some [{ t := x.t, vf := 0, vt := 0, data := d, idx := x.idx }] := by
    rw [hit]; simp [vpoints, Item.dictOf, hd]
  unfold TSeries.process
  rw [hv, hit]
  dsimp only
  rw [if_neg (by simp [h.point, hd]), htz, hlab]

/-- **C209**: resampling or aggregating a series with a single point is a `ZeroDivisionError`, whatever the unit and
the point. -/
theorem C209_false (clk : String → Grid) (n : ℕ) (tg : Target) (unit : TUnit) (ops : List SlotOp) (z : String) (x : Item)
    (s : TSeries) (h : OnePoint z x s) : s.process clk (n + 1) tg unit ops {} = some (.error .zeroDivision) := by
  obtain ⟨ks, d, _, hf⟩ := h.front
  rw [hf]
  have hv : frontValidity (n + 1) none [x.t] = some (.error .zeroDivision) := by
    have : detectSampling (n + 1) [x.t] = some (.error .zeroDivision) := by
      simp [detectSampling, diffLoop, samplingLoop, almostEqual]
      norm_num
      intro h; exact absurd rfl h
    simp [frontValidity, this]
  unfold frontProcess
  have e : ∃ f, frontFrom clk z tg ({} : Opts).start (x.t) = .ok f := by
    cases tg with
    | points => exact ⟨_, rfl⟩
    | slots => exact ⟨_, rfl⟩
  obtain ⟨f, hf⟩ := e
  have e2 : frontTo clk ({} : Opts).stop x.t = .ok x.t := rfl
  simp only [List.head?_cons, List.getLast?_singleton, Option.map_some, Option.getD_some, List.map_cons, List.map_nil]
  rw [hf]
  dsimp only
  rw [e2]
  dsimp only
  rw [hv]

/-- **C209 (partial)**: with the validity given, a single point gives an empty series. -/
theorem C209_validity_partial (clk : String → Grid) (n : ℕ) (tg : Target) (unit : TUnit) (ops : List SlotOp) (z : String) (x : Item)
    (s : TSeries) (h : OnePoint z x s) (u : ℚ) (hu : tg = .points → (clk z).Physical u) (v : ℚ) :
    s.process clk n tg unit ops { validity := some v } = some (.ok TSeries.empty) := by
  obtain ⟨ks, d, _, hf⟩ := h.front
  rw [hf]
  have e : ∃ f, frontFrom clk z tg none x.t = .ok f ∧ x.t ≤ f := by
    cases tg with
    | points =>
      obtain ⟨f, h1, h2, _⟩ := resample_from (clk z) (hu rfl) x.t
      exact ⟨f, h1, h2⟩
    | slots =>
      obtain ⟨f, h1, _, h2, _⟩ := aggregate_from (clk z) x.t
      exact ⟨f, h1, h2⟩
  obtain ⟨f, hf1, hf2⟩ := e
  have hnext : x.t < (clk z).next f := by
    have := (clk z).hnext f
    have := (clk z).hdelta
    linarith
  obtain ⟨K, hK, hlast, _⟩ := processJobs_last (g := clk z) (ts := [x.t]) (toT := x.t) (by simp) (f := f) (by
    intro t ht
    simp at ht
    rw [← ht]; exact hnext)
  have hK0 : K = 0 := by
    by_contra hne
    obtain ⟨v, hv, hle⟩ := hlast.reached (by omega)
    rw [List.mem_singleton.1 hv] at hle
    have h1 : edge (clk z) f 1 ≤ edge (clk z) f K := edge_mono _ f (by omega)
    have h2 : edge (clk z) f 1 = (clk z).next f := rfl
    linarith
  subst hK0
  have hjobs : processJobs (clk z) [x.t] f x.t = [] := by rw [hK]; rfl
  unfold frontProcess
  simp only [List.head?_cons, List.getLast?_singleton, Option.map_some, Option.getD_some, List.map_cons, List.map_nil]
  rw [hf1]
  dsimp only
  have e2 : frontTo clk none x.t = .ok x.t := rfl
  rw [e2]
  dsimp only [frontValidity]
  unfold frontRun processRange
  simp only [List.map_cons, List.map_nil]
  rw [hjobs]
  rfl

theorem C209_witness : ∃ s, OnePoint "UTC" { t := 90, tz := "UTC", data := some (.dict [("v", 1)]) } s :=
  ⟨((TSeries.build [{ t := 90, tz := "UTC", data := some (.dict [("v", 1)]) }]).toOption).getD {}, rfl, ⟨_, rfl, by simp⟩, rfl,
    by decide +kernel⟩

/-! ## C210: explicit start and end -/

/-- boundaries every `u` seconds from `off` on -/
def physGridAt (u off : ℚ) (hu : 0 < u) : Grid where
  next t := t + u
  delta := u
  hdelta := hu
  hnext _ := le_refl _
  onGrid t := (physGrid u hu).onGrid (t - off)
  ceil t := (physGrid u hu).ceil (t - off) + off
  secs := u
  hceil t := by
    have := (physGrid u hu).hceil (t - off)
    refine ⟨by linarith [this.1], ?_⟩
    rw [add_sub_cancel_right]; exact this.2
  hceil' t e he hlt := by
    have := (physGrid u hu).hceil' (t - off) (e - off) he (by linarith)
    linarith

/-- days in UTC, and one hour earlier elsewhere (Rome in winter) -/
def exDays (z : String) : Grid := if z = "UTC" then physGridAt 86400 0 (by norm_num) else physGridAt 86400 (-3600) (by norm_num)

/-- three days, a point every six hours from local midnight -/
def exSixHours : List Item := (List.range 13).map (fun i => { t := 82800 + 21600 * (i : ℕ), tz := "Europe/Rome", data := some (.dict [("v", 1)]) })
def exSixSeries : TSeries := ((TSeries.build exSixHours).toOption).getD {}

/-- **C210**: a numeric start at local midnight is refused, one at midnight in UTC is accepted and the slots do not
begin at the boundaries of the zone of the series. -/
theorem C210_false :
    (exDays "Europe/Rome").onGrid 169200 = true ∧
    exSixSeries.process exDays 1 .slots { days := 1 } [avgSlotOp] { start := some (.num 169200) } = some (.error .valueError) ∧
    (exDays "Europe/Rome").onGrid 86400 = false ∧
    ((exSixSeries.process exDays 1 .slots { days := 1 } [avgSlotOp] { start := some (.num 86400) }).bind (fun r => r.toOption)).map
      (fun r => r.items.map (fun x => (x.t, x.endT))) = some [(86400, 172800), (172800, 259200)] := by
  decide +kernel

theorem aggregate_range (g : Grid) (c : Settings) (unit : TUnit) (ops : List SlotOp) (ps : List VPoint) (hsi : 0 < c.si)
    (hps : InputSeries c.ks ps) (hn : NoPreviousLoss ps) (hks : c.ks ≠ []) (hops : ops ≠ [])
    (htot : ∀ o ∈ ops, OpTotal c.ks o) (f toT : ℚ) (hfirst : firstT ps < g.next f) :
    ∃ items w K, processRange g .slots c unit ops f toT ps = .ok (items, w) ∧ items.length = K ∧
      LastInterval g (ps.map VPoint.t) f toT K ∧
      ∀ (k : ℕ) (x : Item), items[k]? = some x → AggregatedSlot c unit ops ps (edge g f k) (edge g f (k + 1)) x := by
  obtain ⟨p0, hp0, hp0t, hp00⟩ := firstT_get hps.ne
  obtain ⟨K, hK, hlast, hgood⟩ := processJobs_last (g := g) (toT := toT) hps.sorted (f := f) (by
    intro t h0
    rw [List.getElem?_map, hp00] at h0
    simp only [Option.map_some, Option.some.injEq] at h0
    rw [← h0, hp0t]
    exact hfirst)
  obtain ⟨items, w, h1, _, h3⟩ := runJobs_spec (f := computeSlot c unit ops)
    (I := fun w => Shape c.ks (withRegions c.si ps) w.ps)
    (Q := fun j x => AggregatedSlot c unit ops ps j.a j.b x) (expectedJobs g (ps.map VPoint.t) f K) (by
      intro j hj w hw
      obtain ⟨k, hk, rfl⟩ := List.mem_map.1 hj
      obtain ⟨x, w', a1, a2, a3, _⟩ := computeSlot_spec hsi hps hn hks (unit := unit) hops htot
        (hgood k (List.mem_range.1 hk)) (fst := (k == 0)) hw
      exact ⟨x, w', a1, a2, a3⟩)
    { ps := withRegions c.si ps, ws := ps.map (fun _ => none) } [] ⟨rfl, withRegions_labels hsi hps⟩
  refine ⟨items, w, K, ?_, ?_, hlast, ?_⟩
  · unfold processRange
    rw [hK, regionsLoop_none _ _ hps.sorted]
    exact h1
  · rw [← h3.length_eq]; simp [expectedJobs]
  · intro k x hx
    have hk : k < items.length := (List.getElem?_eq_some_iff.1 hx).1
    have hk' : k < (expectedJobs g (ps.map VPoint.t) f K).length := by rw [h3.length_eq]; exact hk
    have := (List.forall₂_iff_get.1 h3).2 k hk' hk
    have hxe : items.get ⟨k, hk⟩ = x := (List.getElem?_eq_some_iff.1 hx).2
    rw [hxe] at this
    simpa [expectedJobs, expectedJob] using this

/-- the value given for a bound, as a time -/
def TimeBound.time : TimeBound → ℚ
  | .num t => t
  | .dt t _ => t

/-- A bound that is a `datetime` in the zone `z`, or an epoch other than zero, in a case in which `z` and UTC agree
on whether it is a boundary. -/
def ReadIn (clk : String → Grid) (z : String) : TimeBound → Prop
  | .num t => t ≠ 0 ∧ (clk "UTC").onGrid t = (clk z).onGrid t
  | .dt _ w => w = z

theorem explicit_read {clk : String → Grid} {z : String} {b : TimeBound} (h : ReadIn clk z b) :
    explicitBound clk (some b) = some (if (clk z).onGrid b.time then .ok b.time else .error .valueError) := by
  cases b with
  | num t =>
    obtain ⟨h1, h2⟩ := h
    show (if t = 0 then none else some (if (clk "UTC").onGrid t then Except.ok t else Except.error PyErr.valueError)) = _
    rw [if_neg h1, h2]
    rfl
  | dt t w =>
    have h' : w = z := h
    subst h'
    rfl

/-- **C210 (refused, partial)**: a bound (a `datetime` in the zone of the series, or an epoch on which UTC agrees)
that is not on a boundary of the unit is refused with a `ValueError`. -/
theorem C210_refused_partial (clk : String → Grid) (n : ℕ) (z : String) (l : List Item) (s : TSeries) (h : DataSeries z l s)
    (tg : Target) (unit : TUnit) (ops : List SlotOp) (o : Opts) (b : TimeBound) (hb : ReadIn clk z b)
    (hg : (clk z).onGrid b.time = false) (hu : o.start = some b ∨ (o.start = none ∧ o.stop = some b)) :
    s.process clk n tg unit ops o = some (.error .valueError) := by
  obtain ⟨ks, ps, hs⟩ := h.seen
  rw [hs.front]
  have hb' := explicit_read hb
  rw [hg] at hb'
  simp only [Bool.false_eq_true, if_false] at hb'
  unfold frontProcess
  rcases hu with h1 | ⟨h1, h2⟩
  · have : frontFrom clk z tg o.start ((ps.head?.map VPoint.t).getD 0) = .error .valueError := by
      unfold frontFrom; rw [h1, hb']
    rw [this]
  · have e1 : ∃ f, frontFrom clk z tg o.start ((ps.head?.map VPoint.t).getD 0) = .ok f := by
      rw [h1]
      cases tg with
      | points => exact ⟨_, rfl⟩
      | slots => exact ⟨_, rfl⟩
    obtain ⟨f, hf⟩ := e1
    have : frontTo clk o.stop ((ps.getLast?.map VPoint.t).getD 0) = .error .valueError := by
      unfold frontTo; rw [h2, hb']
    rw [hf, this]

/-- **C210 (accepted, partial)**: an aggregation with a start on a boundary, given as above and less than one unit
before the first point or later, succeeds, and the first slot begins there. -/
theorem C210_accepted_partial (clk : String → Grid) (n : ℕ) (z : String) (l : List Item) (s : TSeries) (h : DataSeries z l s)
    (hl : Lossless l) (unit : TUnit) (b : TimeBound) (hb : ReadIn clk z b) (hg : (clk z).onGrid b.time = true)
    (hfirst : firstTime l < (clk z).next b.time) (hd : (distinctSpacings (times l) : ℚ) ≤ 95 / 100 * l.length) :
    ∃ r, s.process clk (n + 1) .slots unit [avgSlotOp] { start := some b } = some (.ok r) ∧
      (∀ x ∈ r.items.head?, x.t = b.time) ∧ (∀ x ∈ r.items, x.slot = some ((clk z).next x.t, unit)) ∧
      r.items.IsChain (fun x y => y.t = (clk z).next x.t) := by
  obtain ⟨ks, ps, hs⟩ := h.seen
  obtain ⟨si, hsi, _, hv⟩ := validity_found (ts := times l)
    (by have := h.good.ordered; exact List.pairwise_map.2 this) (by rw [times_length]; exact h.two)
    (by rw [times_length]; exact hd) n
  have hv' : frontValidity (n + 1) none (ps.map VPoint.t) = some (.ok si) := by rw [hs.times]; exact hv
  generalize hc : frontSettings s ks z { start := some b } si = c
  have hcsi : c.si = si := by rw [← hc]; rfl
  have hcks : c.ks = ks := by rw [← hc]; rfl
  have hctz : c.tz = z := by rw [← hc]; rfl
  have hin : InputSeries c.ks ps := hcks ▸ hs.input
  have hks : c.ks ≠ [] := hcks ▸ hs.nonempty
  have hn : NoPreviousLoss ps := by
    intro p hp
    obtain ⟨y, hy, _, _, hyi⟩ := hs.from_items p hp
    unfold VPoint.dataLoss
    rw [hyi]
    exact hl y hy
  obtain ⟨items, w, K, h1, h2, _, h5⟩ := aggregate_range (clk z) c unit [avgSlotOp] ps (hcsi ▸ hsi) hin hn hks (by simp)
    (fun o ho => by rw [List.mem_singleton.1 ho]; exact avgSlotOp_total hks) b.time (lastT ps) (by rw [hs.first]; exact hfirst)
  have hchain : ∀ i (hi : i + 1 < items.length), (items[i + 1]).t = (clk z).next (items[i]).t := by
    intro i hi
    have e1 := (h5 i _ (List.getElem?_eq_getElem (by omega))).start
    have e2 := (h5 (i + 1) _ (List.getElem?_eq_getElem hi)).start
    rw [e1, e2]; rfl
  have hmem : ∀ x ∈ items, ∃ k : ℕ, items[k]? = some x := by
    intro x hx
    obtain ⟨k, hk, rfl⟩ := List.getElem_of_mem hx
    exact ⟨k, List.getElem?_eq_getElem hk⟩
  have hkeys : ∀ x ∈ items, ∃ d, x.data = some (.dict d) ∧ d ≠ [] ∧
      ∀ k, k ∈ d.keys ↔ ∃ o ∈ [avgSlotOp], ∃ a ∈ c.ks, k = a ++ "_" ++ o.name := by
    intro x hx
    obtain ⟨k, hk⟩ := hmem x hx
    obtain ⟨d, loss, view, inner, p1, p2, p3, _⟩ := (h5 k x hk).points
    exact ⟨d, p1, p2, slotData_keys
      (fun o ho a b v d hr => by rw [List.mem_singleton.1 ho] at hr; exact C96_avg_labels _ a b v d hr) p3⟩
  have hgood : GoodSlots items := by
    refine ⟨?_, ?_, ?_, ?_, ?_, ?_⟩
    · intro x hx
      obtain ⟨k, hk⟩ := hmem x hx
      simp [Item.isSlot, (h5 k x hk).slot]
    · unfold InSuccession
      rw [List.isChain_iff_getElem]
      intro i hi
      have e1 := h5 i _ (List.getElem?_eq_getElem (by omega))
      have e2 := h5 (i + 1) _ (List.getElem?_eq_getElem hi)
      simp [Item.endT, e1.slot, e2.start, CloseTo]
    · intro x hx y hy
      obtain ⟨k, hk⟩ := hmem x hx
      obtain ⟨k', hk'⟩ := hmem y hy
      simp [Item.unit, (h5 k x hk).slot, (h5 k' y hk').slot]
    · intro x hx y hy
      obtain ⟨k, hk⟩ := hmem x hx
      obtain ⟨k', hk'⟩ := hmem y hy
      rw [(h5 k x hk).tz, (h5 k' y hk').tz]
    · intro x hx
      obtain ⟨d, hd, hne, _⟩ := hkeys x hx
      refine ⟨_, hd, ?_⟩
      cases d with
      | nil => exact absurd rfl hne
      | cons a b => rfl
    · intro x hx y hy d e hd he
      obtain ⟨d', hd', _, hk'⟩ := hkeys x hx
      obtain ⟨e', he', _, hk2⟩ := hkeys y hy
      rw [hd'] at hd; rw [he'] at he
      cases hd; cases he
      intro k
      rw [hk', hk2]
  obtain ⟨r, hr, hri, _⟩ := build_good_slots hgood
  refine ⟨r, ?_, ?_, ?_, ?_⟩
  · rw [hs.front]
    have hb' := explicit_read hb
    rw [hg, if_pos rfl] at hb'
    unfold frontProcess
    have e1 : frontFrom clk z .slots (some b) ((ps.head?.map VPoint.t).getD 0) = .ok b.time := by
      unfold frontFrom; rw [hb']
    have e2 : frontTo clk none ((ps.getLast?.map VPoint.t).getD 0) = .ok (lastT ps) := rfl
    dsimp only
    rw [e1]
    dsimp only
    rw [e2]
    dsimp only
    rw [hv']
    dsimp only
    unfold frontRun
    rw [hc, h1]
    exact congrArg some hr
  · intro x hx
    rw [hri, List.head?_eq_getElem?] at hx
    exact (h5 0 x hx).start
  · intro x hx
    rw [hri] at hx
    obtain ⟨k, hk⟩ := hmem x hx
    rw [(h5 k x hk).slot, (h5 k x hk).start]; rfl
  · rw [hri, List.isChain_iff_getElem]
    exact hchain

/-- a concrete case: the start at local midnight, as a `datetime` -/
theorem C210_witness : ReadIn exDays "Europe/Rome" (.dt 169200 "Europe/Rome") ∧
    ((exSixSeries.process exDays 1 .slots { days := 1 } [avgSlotOp] { start := some (.dt 169200 "Europe/Rome") }).bind
      (fun r => r.toOption)).map (fun r => r.items.map (fun x => (x.t, x.endT))) = some [(169200, 255600), (255600, 342000)] :=
  ⟨rfl, by decide +kernel⟩

end Timeseria
