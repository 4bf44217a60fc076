import Verif.Model.Plots
import Verif.Lemmas.Ops
import Verif.Lemmas.Storage
import Verif.Props.Merge

/-!
# Plot data (C70, C142–C151)
-/

namespace Timeseria

/-! ## The aggregation loop -/

/-- the row of a complete chunk -/
def chunkRow (k nl ni : ℕ) (chunk : List PlotPt) : PlotRow :=
  (chunk.foldl PlotAcc.add (PlotAcc.reset nl ni)).dump k (chunk.getLastD ⟨0, 0, [], []⟩)

/-- the rows of the complete chunks -/
def chunkRows (k nl ni : ℕ) (l : List PlotPt) : List PlotRow :=
  (List.range (l.length / k)).map (fun j => chunkRow k nl ni ((l.drop (j * k)).take k))

theorem chunkRows_short {k nl ni : ℕ} {l : List PlotPt} (h : l.length < k) : chunkRows k nl ni l = [] := by
  simp [chunkRows, Nat.div_eq_of_lt h]

theorem chunkRows_chunk {k nl ni : ℕ} {c r : List PlotPt} (hk : 0 < k) (h : c.length = k) :
    chunkRows k nl ni (c ++ r) = chunkRow k nl ni c :: chunkRows k nl ni r := by
  unfold chunkRows
  have : (c ++ r).length / k = r.length / k + 1 := by
    rw [List.length_append, h, Nat.add_comm, Nat.add_div_right _ hk]
  rw [this, List.range_succ_eq_map, List.map_cons, List.map_map]
  congr 1
  · subst h; simp
  · apply List.map_congr_left
    intro j _
    simp only [Function.comp, Nat.succ_eq_add_one]
    have : (j + 1) * k = c.length + j * k := by rw [h]; ring
    rw [this, List.drop_append, List.drop_eq_nil_of_le (by omega)]
    simp

theorem aggLoop_spec {k nl ni : ℕ} (hk : 0 < k) : ∀ (ps part : List PlotPt) (i : ℕ), part.length < k →
    i % k = part.length →
    aggLoop k nl ni i (part.foldl PlotAcc.add (PlotAcc.reset nl ni)) ps = chunkRows k nl ni (part ++ ps)
  | [], part, i, hp, hi => by simp [aggLoop, chunkRows_short hp]
  | p :: r, part, i, hp, hi => by
    unfold aggLoop
    have hmod : (i + 1) % k = if part.length + 1 = k then 0 else part.length + 1 := by
      rw [Nat.add_mod, hi]
      split_ifs with h
      · by_cases h1 : k = 1
        · subst h1; simp [Nat.mod_one]
        · rw [Nat.mod_eq_of_lt (by omega : 1 < k), h, Nat.mod_self]
      · rw [Nat.mod_eq_of_lt (by omega : 1 < k), Nat.mod_eq_of_lt (by omega)]
    by_cases h : part.length + 1 = k
    · rw [hmod, if_pos h, if_pos rfl]
      have e : part ++ p :: r = (part ++ [p]) ++ r := by simp
      rw [e, chunkRows_chunk hk (by simpa using h)]
      congr 1
      · simp [chunkRow]
      · have := aggLoop_spec (nl := nl) (ni := ni) hk r [] (i + 1) (by simpa using hk) (by rw [hmod, if_pos h]; rfl)
        simpa using this
    · rw [hmod, if_neg h, if_neg (by omega)]
      have := aggLoop_spec (nl := nl) (ni := ni) hk r (part ++ [p]) (i + 1) (by simp; omega) (by rw [hmod, if_neg h]; simp)
      simpa using this

theorem aggLoop_eq {k nl ni : ℕ} (hk : 0 < k) (ps : List PlotPt) :
    aggLoop k nl ni 0 (PlotAcc.reset nl ni) ps = chunkRows k nl ni ps := by
  simpa using aggLoop_spec hk ps [] 0 (by simpa using hk) (by simp)

/-! ## The contents of a chunk -/

theorem fold_firstT (chunk : List PlotPt) (a : PlotAcc) :
    (chunk.foldl PlotAcc.add a).firstT = match a.firstT with
      | some t => some t
      | none => chunk.head?.map (·.t) := by
  induction chunk generalizing a with
  | nil => cases h : a.firstT <;> simp [h]
  | cons p r ih =>
    rw [List.foldl_cons, ih]
    cases h : a.firstT <;> simp [PlotAcc.add, h]

theorem fold_sums {m : ℕ} {f : PlotPt → ℚ} (chunk : List PlotPt) (a : PlotAcc) (s : ℚ) (ha : a.sums[m]? = some s)
    (h : ∀ p ∈ chunk, p.vals[m]? = some (f p)) :
    (chunk.foldl PlotAcc.add a).sums[m]? = some (s + (chunk.map f).sum) := by
  induction chunk generalizing a s with
  | nil => simpa using ha
  | cons p r ih =>
    rw [List.foldl_cons, ih (a.add p) (s + f p) (by simp [PlotAcc.add, List.getElem?_zipWith, ha, h p (by simp)])
      (fun q hq => h q (by simp [hq]))]
    simp [add_assoc]

theorem fold_mins {m : ℕ} {f : PlotPt → ℚ} (chunk : List PlotPt) (a : PlotAcc) (s : Option ℚ) (ha : a.mins[m]? = some s)
    (h : ∀ p ∈ chunk, p.vals[m]? = some (f p)) :
    (chunk.foldl PlotAcc.add a).mins[m]? = some ((chunk.map f).foldl updMin s) := by
  induction chunk generalizing a s with
  | nil => simpa using ha
  | cons p r ih =>
    rw [List.foldl_cons, ih (a.add p) (updMin s (f p)) (by simp [PlotAcc.add, List.getElem?_zipWith, ha, h p (by simp)])
      (fun q hq => h q (by simp [hq]))]
    simp

theorem fold_maxs {m : ℕ} {f : PlotPt → ℚ} (chunk : List PlotPt) (a : PlotAcc) (s : Option ℚ) (ha : a.maxs[m]? = some s)
    (h : ∀ p ∈ chunk, p.vals[m]? = some (f p)) :
    (chunk.foldl PlotAcc.add a).maxs[m]? = some ((chunk.map f).foldl updMax s) := by
  induction chunk generalizing a s with
  | nil => simpa using ha
  | cons p r ih =>
    rw [List.foldl_cons, ih (a.add p) (updMax s (f p)) (by simp [PlotAcc.add, List.getElem?_zipWith, ha, h p (by simp)])
      (fun q hq => h q (by simp [hq]))]
    simp

theorem fold_idx {m : ℕ} {f : PlotPt → Option ℚ} (chunk : List PlotPt) (a : PlotAcc) (s : ℚ) (ha : a.idxSums[m]? = some s)
    (h : ∀ p ∈ chunk, p.idx[m]? = some (f p)) :
    (chunk.foldl PlotAcc.add a).idxSums[m]? = some (s + (chunk.map (fun p => (f p).getD 0)).sum) := by
  induction chunk generalizing a s with
  | nil => simpa using ha
  | cons p r ih =>
    rw [List.foldl_cons, ih (a.add p) (s + (f p).getD 0) (by
      cases hf : f p <;> simp [PlotAcc.add, List.getElem?_zipWith, ha, h p (by simp), hf])
      (fun q hq => h q (by simp [hq]))]
    simp [add_assoc]

theorem updMin_fold (vs : List ℚ) : vs.foldl updMin none = minLoop vs := rfl

theorem updMax_fold (vs : List ℚ) : vs.foldl updMax none = maxLoop vs := rfl

/-! ## Reading the items -/

theorem plotPt_ok {labels indexes : List String} {x : Item} {p : PlotPt} (h : plotPt labels indexes x = .ok p) :
    p.t = x.t ∧ p.e = x.endT ∧ p.idx = indexes.map (fun n => (x.idx.get? n).join) ∧
      List.Forall₂ (fun lab v => plotValue x lab = .ok v) (loopLabels labels) p.vals := by
  unfold plotPt at h
  cases hm : mapE (plotValue x) (loopLabels labels) with
  | error e => rw [hm] at h; cases h
  | ok vs =>
    rw [hm] at h
    injection h with h
    subst h
    exact ⟨rfl, rfl, rfl, mapE_ok_inv hm⟩

theorem toDgData_ok {labels indexes : List String} {aggBy : Option ℕ} {l : List Item} {gmin gmax : Option ℚ}
    {rows : List PlotRow} (h : toDgData labels indexes aggBy l = .ok (gmin, gmax, rows)) :
    ∃ ps, List.Forall₂ (fun x p => plotPt labels indexes x = .ok p) l ps ∧
      gmin = minLoop (ps.flatMap (·.vals)) ∧ gmax = maxLoop (ps.flatMap (·.vals)) ∧
      ((∀ k, aggBy = some k → 0 < k → rows = chunkRows k (loopLabels labels).length indexes.length ps) ∧
        (aggBy = none ∨ aggBy = some 0 → rows = ps.map itemRow)) := by
  unfold toDgData at h
  cases hm : mapE (plotPt labels indexes) l with
  | error e => rw [hm] at h; cases h
  | ok ps =>
    rw [hm] at h
    injection h with h
    injection h with h1 h
    injection h with h2 h3
    refine ⟨ps, mapE_ok_inv hm, h1.symm, h2.symm, ?_, ?_⟩
    · rintro k rfl hk
      subst h3
      cases k with
      | zero => omega
      | succ k => exact aggLoop_eq hk ps
    · rintro (rfl | rfl) <;> exact h3.symm

theorem mapE_of_forall₂ {α β γ : Type} {R : α → γ → Prop} {f : α → Except PyErr β} {g : γ → β} {l : List α} {ps : List γ}
    (h : List.Forall₂ R l ps) (hR : ∀ a p, R a p → f a = .ok (g p)) : mapE f l = .ok (ps.map g) := by
  induction h with
  | nil => rfl
  | cons h _ ih => simp [mapE, hR _ _ h, ih]

theorem fold_lengths {nl ni : ℕ} (chunk : List PlotPt) (a : PlotAcc) (h1 : a.sums.length = nl) (h2 : a.mins.length = nl)
    (h3 : a.maxs.length = nl) (h4 : a.idxSums.length = ni)
    (h : ∀ p ∈ chunk, p.vals.length = nl ∧ p.idx.length = ni) :
    (chunk.foldl PlotAcc.add a).sums.length = nl ∧ (chunk.foldl PlotAcc.add a).mins.length = nl ∧
      (chunk.foldl PlotAcc.add a).maxs.length = nl ∧ (chunk.foldl PlotAcc.add a).idxSums.length = ni := by
  induction chunk generalizing a with
  | nil => exact ⟨h1, h2, h3, h4⟩
  | cons p r ih =>
    obtain ⟨hv, hi⟩ := h p (by simp)
    exact ih _ (by simp [PlotAcc.add, h1, hv]) (by simp [PlotAcc.add, h2, hv]) (by simp [PlotAcc.add, h3, hv])
      (by simp [PlotAcc.add, h4, hi]) (fun q hq => h q (by simp [hq]))

/-- a value for a label -/
theorem plotPt_val {labels indexes : List String} {x : Item} {p : PlotPt} (h : plotPt labels indexes x = .ok p)
    {m : ℕ} {lab : Option String} (hm : (loopLabels labels)[m]? = some lab) :
    p.vals[m]? = some (p.vals.getD m 0) ∧ plotValue x lab = .ok (p.vals.getD m 0) := by
  obtain ⟨-, -, -, hf⟩ := plotPt_ok h
  have hlt : m < p.vals.length := by
    rw [← hf.length_eq]; exact (List.getElem?_eq_some_iff.1 hm).1
  have h1 : p.vals[m]? = some (p.vals.getD m 0) := by
    simp [List.getD_eq_getElem?_getD, List.getElem?_eq_getElem hlt]
  refine ⟨h1, ?_⟩
  obtain ⟨hl, rfl⟩ := List.getElem?_eq_some_iff.1 hm
  have := hf.get hl hlt
  simpa [List.getD_eq_getElem?_getD, List.getElem?_eq_getElem hlt] using this

/-- what a row says of the items of its chunk -/
theorem chunkRow_spec {labels indexes : List String} {xs : List Item} {chunk : List PlotPt} (hne : xs ≠ [])
    (h : List.Forall₂ (fun x p => plotPt labels indexes x = .ok p) xs chunk) :
    ∃ t cells idx first last,
      chunkRow xs.length (loopLabels labels).length indexes.length chunk = .aggregated t cells idx ∧
      xs.head? = some first ∧ xs.getLast? = some last ∧ t = (first.t + last.endT) / 2 ∧
      (cells.length = (loopLabels labels).length ∧
      ∀ (m : ℕ) (lab : Option String), (loopLabels labels)[m]? = some lab → ∃ (vs : List ℚ) (lo hi : ℚ),
        mapE (fun x => plotValue x lab) xs = .ok vs ∧ vs.length = xs.length ∧
        cells[m]? = some (PlotCell.mk (some lo) (vs.sum / (xs.length : ℚ)) (some hi)) ∧
        lo ∈ vs ∧ (∀ v ∈ vs, lo ≤ v) ∧ hi ∈ vs ∧ ∀ v ∈ vs, v ≤ hi) ∧
      (idx.length = indexes.length ∧
      ∀ (m : ℕ) (n : String), indexes[m]? = some n →
        idx[m]? = some ((xs.map (fun x => ((x.idx.get? n).join).getD 0)).sum / (xs.length : ℚ))) := by
  have hlen := h.length_eq
  have hshape : ∀ p ∈ chunk, p.vals.length = (loopLabels labels).length ∧ p.idx.length = indexes.length := by
    intro p hp
    obtain ⟨i, hi, rfl⟩ := List.getElem_of_mem hp
    have := plotPt_ok (h.get (i := i) (by omega) hi)
    exact ⟨this.2.2.2.length_eq.symm, by have h := this.2.2.1; simp only [List.get_eq_getElem] at h; rw [h]; simp⟩
  obtain ⟨x, xr, rfl⟩ := List.exists_cons_of_ne_nil hne
  obtain ⟨p, pr, rfl⟩ : ∃ p pr, chunk = p :: pr := by
    cases chunk with
    | nil => simp at hlen
    | cons p pr => exact ⟨p, pr, rfl⟩
  have hx := plotPt_ok (List.forall₂_cons.1 h).1
  have hlast : plotPt labels indexes ((x :: xr).getLast (by simp)) = .ok ((p :: pr).getLast (by simp)) := by
    rw [List.getLast_eq_getElem, List.getLast_eq_getElem]
    have := h.get (i := (x :: xr).length - 1) (by simp) (by rw [hlen]; simp)
    simpa [hlen] using this
  generalize hacc : (p :: pr).foldl PlotAcc.add (PlotAcc.reset (loopLabels labels).length indexes.length) = acc
  have hfirst : acc.firstT = some x.t := by
    rw [← hacc, fold_firstT]; simp [PlotAcc.reset, hx.1]
  have hL := fold_lengths (p :: pr) (PlotAcc.reset (loopLabels labels).length indexes.length)
    (by simp [PlotAcc.reset]) (by simp [PlotAcc.reset]) (by simp [PlotAcc.reset]) (by simp [PlotAcc.reset]) hshape
  rw [hacc] at hL
  have hrow : chunkRow (x :: xr).length (loopLabels labels).length indexes.length (p :: pr) =
      acc.dump (x :: xr).length ((p :: pr).getLast (by simp)) := by
    unfold chunkRow
    rw [hacc]
    congr 1
  refine ⟨_, _, _, x, (x :: xr).getLast (by simp), hrow.trans rfl, rfl, List.getLast?_eq_getLast_of_ne_nil _, ?_, ⟨?_, ?_⟩, ?_, ?_⟩
  · rw [hfirst, (plotPt_ok hlast).2.1, Option.getD_some]; ring
  · simp [dumpCells, hL]
  · intro m lab hm
    have hmlt := (List.getElem?_eq_some_iff.1 hm).1
    have hv : ∀ q ∈ p :: pr, q.vals[m]? = some (q.vals.getD m 0) := by
      intro q hq
      have : m < q.vals.length := by rw [(hshape q hq).1]; exact hmlt
      simp [List.getD_eq_getElem?_getD, List.getElem?_eq_getElem this]
    have hread := mapE_of_forall₂ (g := fun q : PlotPt => q.vals.getD m 0) (f := fun x => plotValue x lab) h
      (fun a q haq => (plotPt_val haq hm).2)
    have hs := fold_sums (f := fun q => q.vals.getD m 0) (p :: pr)
      (PlotAcc.reset (loopLabels labels).length indexes.length) 0 (by simp [PlotAcc.reset, hmlt]) hv
    have hmi := fold_mins (f := fun q => q.vals.getD m 0) (p :: pr)
      (PlotAcc.reset (loopLabels labels).length indexes.length) none (by simp [PlotAcc.reset, hmlt]) hv
    have hma := fold_maxs (f := fun q => q.vals.getD m 0) (p :: pr)
      (PlotAcc.reset (loopLabels labels).length indexes.length) none (by simp [PlotAcc.reset, hmlt]) hv
    rw [hacc] at hs hmi hma
    rw [zero_add] at hs
    rw [updMin_fold] at hmi
    rw [updMax_fold] at hma
    generalize hvs : (p :: pr).map (fun q => q.vals.getD m 0) = vs at hs hmi hma hread
    have hvne : vs ≠ [] := by rw [← hvs]; simp
    obtain ⟨lo, hlo, hlo1, hlo2⟩ := minLoop_spec hvne
    obtain ⟨hi, hhi, hhi1, hhi2⟩ := maxLoop_spec hvne
    refine ⟨vs, lo, hi, hread, by rw [← hvs, List.length_map, hlen], ?_, hlo1, hlo2, hhi1, hhi2⟩
    rw [hlo] at hmi
    rw [hhi] at hma
    simp [dumpCells, List.zip, List.getElem?_zipWith, hs, hmi, hma]
  · simp [hL]
  · intro m n hm
    have hmlt := (List.getElem?_eq_some_iff.1 hm).1
    have hq : ∀ q ∈ p :: pr, q.idx[m]? = some (q.idx.getD m none) := by
      intro q hq
      have : m < q.idx.length := by rw [(hshape q hq).2]; exact hmlt
      simp [List.getD_eq_getElem?_getD, List.getElem?_eq_getElem this]
    have hs := fold_idx (f := fun q => q.idx.getD m none) (p :: pr)
      (PlotAcc.reset (loopLabels labels).length indexes.length) 0 (by simp [PlotAcc.reset, hmlt]) hq
    rw [hacc, zero_add] at hs
    have : (p :: pr).map (fun q => (q.idx.getD m none).getD 0) =
        (x :: xr).map (fun x => ((x.idx.get? n).join).getD 0) := by
      clear hs hq hrow hfirst hL hacc hlast hx hshape hlen hne
      generalize (p :: pr) = c at h
      generalize (x :: xr) = l at h
      induction h with
      | nil => rfl
      | cons ha _ ih =>
        rw [List.map_cons, List.map_cons, ih, (plotPt_ok ha).2.2.1]
        simp [List.getD_eq_getElem?_getD, List.getElem?_map, hm]
    rw [this] at hs
    simp [hs]

/-! ## C70 -/

/-- the items of the `j`-th chunk of `k` consecutive items -/
def chunkOf (l : List Item) (k j : ℕ) : List Item := (l.drop (j * k)).take k

theorem chunkOf_length {l : List Item} {k j : ℕ} (h : j < l.length / k) : (chunkOf l k j).length = k := by
  have h1 : (j + 1) * k ≤ l.length / k * k := Nat.mul_le_mul_right _ h
  have h2 := Nat.div_mul_le_self l.length k
  have : (j + 1) * k = j * k + k := by ring
  simp only [chunkOf, List.length_take, List.length_drop]
  omega

theorem rows_spec {labels indexes : List String} {k : ℕ} {l : List Item} {gmin gmax : Option ℚ} {rows : List PlotRow}
    (hk : 0 < k) (h : toDgData labels indexes (some k) l = .ok (gmin, gmax, rows)) {j : ℕ} (hj : j < l.length / k) :
    ∃ ps, List.Forall₂ (fun x p => plotPt labels indexes x = .ok p) (chunkOf l k j) ps ∧
      rows[j]? = some (chunkRow (chunkOf l k j).length (loopLabels labels).length indexes.length ps) := by
  obtain ⟨ps, hps, -, -, hrows, -⟩ := toDgData_ok h
  have hlen := hps.length_eq
  rw [hrows k rfl hk, chunkOf_length hj]
  refine ⟨(ps.drop (j * k)).take k, List.forall₂_take _ (List.forall₂_drop _ hps), ?_⟩
  simp [chunkRows, ← hlen, hj]

/-- **C70**: with an aggregation factor, the rows are one for each complete chunk of consecutive items, in order; the
row is placed halfway between the timestamp of the first item and that of the last one (the end, for slots), and has for
each label the minimum, the mean and the maximum of the values of the items of the chunk. -/
theorem C70_chunks {labels indexes : List String} {k : ℕ} {l : List Item} {gmin gmax : Option ℚ} {rows : List PlotRow}
    (hk : 0 < k) (h : toDgData labels indexes (some k) l = .ok (gmin, gmax, rows)) :
    rows.length = l.length / k ∧
      ∀ j, j < l.length / k → ∃ t cells idx first last,
        rows[j]? = some (.aggregated t cells idx) ∧
        (chunkOf l k j).head? = some first ∧ (chunkOf l k j).getLast? = some last ∧
        t = (first.t + last.endT) / 2 ∧ cells.length = (loopLabels labels).length ∧
        ∀ (m : ℕ) (lab : Option String), (loopLabels labels)[m]? = some lab → ∃ (vs : List ℚ) (lo hi : ℚ),
          mapE (fun x => plotValue x lab) (chunkOf l k j) = .ok vs ∧ vs.length = k ∧
          cells[m]? = some (PlotCell.mk (some lo) (vs.sum / (k : ℚ)) (some hi)) ∧
          lo ∈ vs ∧ (∀ v ∈ vs, lo ≤ v) ∧ hi ∈ vs ∧ ∀ v ∈ vs, v ≤ hi := by
  constructor
  · obtain ⟨ps, hps, -, -, hrows, -⟩ := toDgData_ok h
    rw [hrows k rfl hk]
    simp [chunkRows, hps.length_eq]
  · intro j hj
    obtain ⟨ps, hps, hr⟩ := rows_spec hk h hj
    have hl := chunkOf_length hj
    obtain ⟨t, cells, idx, first, last, h1, h2, h3, h4, h5, -⟩ :=
      chunkRow_spec (by intro h0; rw [h0] at hl; simp at hl; omega) hps
    rw [h1] at hr
    rw [hl] at h5
    exact ⟨t, cells, idx, first, last, hr, h2, h3, h4, h5⟩

/-- **C70** (the whole plot): a successful plot has the rows of the items of the series, aggregated by the chosen factor, for the
labels asked for (by default, all those of the series) and the indexes asked for (by default, all). -/
theorem C70_plot {c : PlotCfg} {s : TSeries} {p : Plot} (h : dygraphsPlot c s = .ok p) :
    ∃ x r labels indexes a b, s.items = x :: r ∧
      toDgData labels indexes (aggFactor s.items.length c.aggregate c.aggBy) s.items = .ok (some a, some b, p.rows) ∧
      (c.labels = .all → s.labelsFrom x = .ok labels) ∧ (c.labels = .nothing → labels = []) ∧
      (∀ ks, c.labels = .these ks → labels = ks) ∧
      (c.indexes = .all → indexes = allDataIndexes s.items) ∧ (c.indexes = .nothing → indexes = []) ∧
      (∀ ks, c.indexes = .these ks → indexes = ks) ∧
      (c.valueRange = none → c.height = none → p.range = autoRange a b none) ∧
      (∀ lo hi, c.valueRange = some (lo, hi) → p.range = forcedRange lo hi) ∧
      ∃ d, x.data = some d ∧ p.titles = "Timestamp".toList :: columnTitles d labels indexes := by
  unfold dygraphsPlot at h
  cases hs : s.items with
  | nil => rw [hs] at h; cases h
  | cons x r =>
    rw [hs] at h
    dsimp only at h
    cases hl : plotLabels s x c.labels with
    | error e => rw [hl] at h; cases h
    | ok labels =>
      rw [hl] at h
      dsimp only at h
      cases hi : plotIndexes (x :: r) c.indexes with
      | error e => rw [hi] at h; cases h
      | ok indexes =>
        rw [hi] at h
        dsimp only at h
        cases hd : x.data with
        | none => rw [hd] at h; cases h
        | some d =>
          rw [hd] at h
          dsimp only at h
          cases ht : toDgData labels indexes (aggFactor (x :: r).length c.aggregate c.aggBy) (x :: r) with
          | error e => rw [ht] at h; cases h
          | ok g =>
            obtain ⟨gmin, gmax, rows⟩ := g
            rw [ht] at h
            cases gmin with
            | none => cases h
            | some a =>
              cases gmax with
              | none => cases h
              | some b =>
                injection h with h
                subst h
                refine ⟨x, r, labels, indexes, a, b, rfl, ht, ?_, ?_, ?_, ?_, ?_, ?_, ?_, ?_, d, hd, rfl⟩
                · intro hc; rw [hc] at hl; exact hl
                · intro hc; rw [hc] at hl; injection hl with hl; exact hl.symm
                · intro ks hc
                  rw [hc] at hl
                  unfold plotLabels at hl
                  cases hk : s.labelsFrom x with
                  | error e =>
                    rw [hk] at hl
                    dsimp only at hl
                    split_ifs at hl with h0
                    injection hl with hl
                    rw [← hl, h0]
                  | ok ks' =>
                    rw [hk] at hl
                    dsimp only at hl
                    split_ifs at hl with h0
                    injection hl with hl
                    exact hl.symm
                · intro hc; rw [hc] at hi; injection hi with hi; exact hi.symm
                · intro hc; rw [hc] at hi; injection hi with hi; exact hi.symm
                · intro ks hc
                  rw [hc] at hi
                  unfold plotIndexes at hi
                  dsimp only at hi
                  split_ifs at hi with h0
                  injection hi with hi
                  exact hi.symm
                · intro hv hh; simp only [hv, hh]
                · intro lo hi hv; simp only [hv]

/-- five points with values 1, 2, 3, 4, 100 and an index on some of them -/
def plotFive : List Item :=
  [mkPoint 0 (.dict [("v", 1)]) "UTC" [("data_loss", some 1)], mkPoint 60 (.dict [("v", 2)]),
   mkPoint 120 (.dict [("v", 3)]), mkPoint 180 (.dict [("v", 4)]), mkPoint 240 (.dict [("v", 100)])]

example : (toDgData ["v"] ["data_loss"] (some 2) plotFive) =
    .ok (some 1, some 100, [.aggregated 30 [⟨some 1, 3 / 2, some 2⟩] [1 / 2], .aggregated 150 [⟨some 3, 7 / 2, some 4⟩] [0]]) := by
  decide +kernel

/-! ## C142: the trailing items -/

theorem forall₂_functional {α β : Type} {f : α → Except PyErr β} {l : List α} {p q : List β}
    (hp : List.Forall₂ (fun a b => f a = .ok b) l p) (hq : List.Forall₂ (fun a b => f a = .ok b) l q) : p = q := by
  induction hp generalizing q with
  | nil => cases hq; rfl
  | cons h _ ih =>
    cases hq with
    | cons h' hr =>
      rw [h] at h'
      injection h' with h'
      rw [h', ih hr]

/-- **C142** is false: the items after the last complete chunk are not in the plot, whatever they are. -/
theorem C142_false :
    (∀ (labels indexes : List String) (k : ℕ) (l extra : List Item) (gmin gmax gmin' gmax' : Option ℚ) (rows rows' : List PlotRow),
      k ∣ l.length → extra.length < k →
      toDgData labels indexes (some k) (l ++ extra) = .ok (gmin, gmax, rows) →
      toDgData labels indexes (some k) l = .ok (gmin', gmax', rows') → rows = rows') ∧
    toDgData ["v"] [] (some 2) plotFive = .ok (some 1, some 100,
      [.aggregated 30 [⟨some 1, 3 / 2, some 2⟩] [], .aggregated 150 [⟨some 3, 7 / 2, some 4⟩] []]) ∧
    toDgData ["v"] [] (some 2) (plotFive.take 4) = .ok (some 1, some 4,
      [.aggregated 30 [⟨some 1, 3 / 2, some 2⟩] [], .aggregated 150 [⟨some 3, 7 / 2, some 4⟩] []]) := by
  refine ⟨?_, by decide +kernel, by decide +kernel⟩
  intro labels indexes k l extra gmin gmax gmin' gmax' rows rows' hd he h h'
  have hk : 0 < k := by omega
  obtain ⟨ps, hps, -, -, hrows, -⟩ := toDgData_ok h
  obtain ⟨qs, hqs, -, -, hrows', -⟩ := toDgData_ok h'
  rw [hrows k rfl hk, hrows' k rfl hk]
  have hq : ps.take l.length = qs := by
    refine forall₂_functional (f := plotPt labels indexes) ?_ hqs
    have := List.forall₂_take l.length hps
    rwa [List.take_left] at this
  have hl1 := hps.length_eq
  rw [List.length_append] at hl1
  obtain ⟨c, hc⟩ := hd
  have hdiv : ps.length / k = c := by
    rw [← hl1, hc]
    rw [Nat.mul_add_div hk, Nat.div_eq_of_lt he, Nat.add_zero]
  have hdiv' : qs.length / k = c := by
    rw [← hqs.length_eq, hc, Nat.mul_div_cancel_left _ hk]
  unfold chunkRows
  rw [hdiv, hdiv']
  apply List.map_congr_left
  intro j hj
  have hj := List.mem_range.1 hj
  have : (j + 1) * k ≤ c * k := Nat.mul_le_mul_right _ hj
  have e : (j + 1) * k = j * k + k := by ring
  have e2 : k * c = c * k := Nat.mul_comm _ _
  rw [← hq, List.drop_take, List.take_take, Nat.min_eq_left (by omega)]

theorem chunks_flatten (l : List Item) (k : ℕ) : ∀ n, n * k ≤ l.length →
    (List.range n).flatMap (chunkOf l k) = l.take (n * k)
  | 0, _ => by simp
  | n + 1, h => by
    have e : (n + 1) * k = n * k + k := by ring
    rw [List.range_succ, List.flatMap_append, chunks_flatten l k n (by omega), e, List.take_add]
    simp [chunkOf]

/-- **C142** (partial): the plotted chunks are, one after the other, exactly the first `n / k * k` items of the series, so
all of them when the factor divides the length; fewer than `k` items are lost. -/
theorem C142_partial (l : List Item) {k : ℕ} (hk : 0 < k) :
    (List.range (l.length / k)).flatMap (chunkOf l k) = l.take (l.length / k * k) ∧
      (k ∣ l.length → (List.range (l.length / k)).flatMap (chunkOf l k) = l) ∧
      l.length - l.length / k * k < k := by
  have h := chunks_flatten l k (l.length / k) (Nat.div_mul_le_self _ _)
  refine ⟨h, ?_, ?_⟩
  · intro hd
    rw [h, Nat.div_mul_cancel hd, List.take_length]
  · have := Nat.div_add_mod l.length k
    have h2 := Nat.mod_lt l.length hk
    rw [Nat.mul_comm] at this
    omega

/-! ## C143: the indexes -/

/-- **C143** is false: an index present in only some of the items, with value 1 in all of them, is shown as 1/2. -/
theorem C143_false :
    toDgData ["v"] ["data_loss"] (some 2) (plotFive.take 2) =
      .ok (some 1, some 2, [.aggregated 30 [⟨some 1, 3 / 2, some 2⟩] [1 / 2]]) ∧
    (plotFive.take 2).filterMap (fun x => (x.idx.get? "data_loss").join) = [1] := by
  decide +kernel

/-- **C143** (partial): the value shown for an index is the sum of its values over the factor, missing ones counting as
zero; if all the items of the chunk have it, it is their mean. -/
theorem C143_partial {labels indexes : List String} {k : ℕ} {l : List Item} {gmin gmax : Option ℚ} {rows : List PlotRow}
    (hk : 0 < k) (h : toDgData labels indexes (some k) l = .ok (gmin, gmax, rows)) :
    ∀ j, j < l.length / k → ∃ t cells idx, rows[j]? = some (.aggregated t cells idx) ∧ idx.length = indexes.length ∧
      ∀ (m : ℕ) (n : String), indexes[m]? = some n →
        idx[m]? = some (((chunkOf l k j).map (fun x => ((x.idx.get? n).join).getD 0)).sum / (k : ℚ)) ∧
        ∀ ws : List ℚ, (chunkOf l k j).map (fun x => x.idx.get? n) = ws.map (fun w => some (some w)) →
          idx[m]? = some (ws.sum / (ws.length : ℚ)) := by
  intro j hj
  obtain ⟨ps, hps, hr⟩ := rows_spec hk h hj
  have hl := chunkOf_length hj
  obtain ⟨t, cells, idx, first, last, h1, -, -, -, -, h6, h7⟩ :=
    chunkRow_spec (by intro h0; rw [h0] at hl; simp at hl; omega) hps
  rw [h1] at hr
  rw [hl] at h7
  refine ⟨t, cells, idx, hr, h6, ?_⟩
  intro m n hm
  refine ⟨h7 m n hm, ?_⟩
  intro ws hws
  have hwl : ws.length = k := by
    have := congrArg List.length hws
    simp only [List.length_map] at this
    omega
  rw [h7 m n hm, hwl]
  have : (chunkOf l k j).map (fun x => ((x.idx.get? n).join).getD 0) = ws := by
    have := congrArg (List.map (fun o : Option (Option ℚ) => o.join.getD 0)) hws
    simpa [Function.comp_def] using this
  rw [this]

/-! ## C144: the automatic factor -/

/-- the number of digits of a positive number -/
theorem natStr_length_bounds (q : ℕ) (hq : 0 < q) : 10 ^ ((natStr q).length - 1) ≤ q ∧ q < 10 ^ (natStr q).length ∧ 0 < (natStr q).length := by
  have aux : ∀ f n, n < f → 0 < n → 10 ^ ((natStrAux f n).length - 1) ≤ n ∧ n < 10 ^ (natStrAux f n).length ∧
      0 < (natStrAux f n).length := by
    intro f
    induction f with
    | zero => intro n h; omega
    | succ f ih =>
      intro n hn h0
      unfold natStrAux
      split_ifs with h
      · simp; omega
      · obtain ⟨h1, h2, h3⟩ := ih (n / 10) (by omega) (by omega)
        simp only [List.length_append, List.length_cons, List.length_nil, Nat.zero_add, Nat.add_sub_cancel]
        obtain ⟨L, hL⟩ : ∃ L, (natStrAux f (n / 10)).length = L + 1 := ⟨_, (Nat.succ_pred_eq_of_pos h3).symm⟩
        rw [hL] at h1 h2 ⊢
        simp only [Nat.add_sub_cancel] at h1
        refine ⟨?_, ?_, by omega⟩
        · rw [pow_succ]; omega
        · rw [pow_succ]; omega
  exact aux (q + 1) q (by omega) hq

/-- **C144**: without arguments, a series of at most 10000 items is not aggregated and a longer one is aggregated, by a
power of ten, into at least 1000 and at most 10000 rows. -/
theorem C144_automatic (n : ℕ) :
    (n ≤ 10000 → aggFactor n none none = none) ∧
      (10000 < n → ∃ k d, aggFactor n none none = some k ∧ k = 10 ^ d ∧ 0 < d ∧ 1000 ≤ n / k ∧ n / k ≤ 10000) := by
  constructor
  · intro h; simp [aggFactor, not_lt.2 h]
  · intro h
    obtain ⟨h1, h2, h3⟩ := natStr_length_bounds (n / 10000) (by omega)
    refine ⟨10 ^ (natStr (n / 10000)).length, _, by simp [aggFactor, h], rfl, h3, ?_, ?_⟩
    · rw [Nat.le_div_iff_mul_le (by positivity)]
      obtain ⟨L, hL⟩ : ∃ L, (natStr (n / 10000)).length = L + 1 := ⟨_, (Nat.succ_pred_eq_of_pos h3).symm⟩
      rw [hL] at h1 ⊢
      simp only [Nat.add_sub_cancel] at h1
      rw [pow_succ]
      omega
    · apply Nat.le_of_lt_succ
      rw [Nat.div_lt_iff_lt_mul (by positivity)]
      generalize 10 ^ (natStr (n / 10000)).length = K at h2 ⊢
      omega

/-! ## C145: asking for aggregation -/

/-- **C145** is false: for a series of at most 10000 items `aggregate=True` does nothing. -/
theorem C145_false (n : ℕ) (h : n ≤ 10000) : aggFactor n (some true) none = none ∧
    aggFactor n (some true) none = aggFactor n (some false) none := by
  simp [aggFactor, not_lt.2 h]

/-- **C145** (partial): `aggregate=False` always disables the aggregation, an explicit factor is used unless it is disabled,
and asking for aggregation has effect on the longer series. -/
theorem C145_partial (n k : ℕ) :
    (∀ b, aggFactor n (some false) b = none) ∧ aggFactor n none (some k) = some k ∧
      aggFactor n (some true) (some k) = some k ∧ (10000 < n → aggFactor n (some true) none ≠ none) := by
  refine ⟨fun _ => rfl, rfl, rfl, ?_⟩
  intro h
  simp [aggFactor, h]

/-! ## C146: no aggregation -/

/-- **C146**: without aggregation there is one row for each item, in order, with its timestamp, its values for the labels
and its indexes (null when missing). -/
theorem C146_plain {labels indexes : List String} {aggBy : Option ℕ} {l : List Item} {gmin gmax : Option ℚ}
    {rows : List PlotRow} (hagg : aggBy = none ∨ aggBy = some 0)
    (h : toDgData labels indexes aggBy l = .ok (gmin, gmax, rows)) :
    List.Forall₂ (fun x r => ∃ vs, mapE (plotValue x) (loopLabels labels) = .ok vs ∧
      r = PlotRow.plain x.t vs (indexes.map (fun n => (x.idx.get? n).join))) l rows := by
  obtain ⟨ps, hps, -, -, -, hrows⟩ := toDgData_ok h
  rw [hrows hagg]
  clear hrows h
  induction hps with
  | nil => exact .nil
  | @cons x p l ps hx _ ih =>
    refine .cons ?_ ih
    obtain ⟨h1, h2, h3, h4⟩ := plotPt_ok hx
    refine ⟨p.vals, ?_, ?_⟩
    · unfold plotPt at hx
      cases hm : mapE (plotValue x) (loopLabels labels) with
      | error e => rw [hm] at hx; cases hx
      | ok vs => rw [hm] at hx; injection hx with hx; rw [← hx]
    · rw [itemRow, h1, h3]

example : toDgData ["v"] ["data_loss"] none (plotFive.take 2) =
    .ok (some 1, some 2, [.plain 0 [1] [some 1], .plain 60 [2] [none]]) := by decide +kernel

/-! ## C147: the automatic range -/

/-- the global minimum and maximum bound every value of every item, plotted or not -/
theorem global_bounds {labels indexes : List String} {aggBy : Option ℕ} {l : List Item} {gmin gmax : Option ℚ}
    {rows : List PlotRow} (h : toDgData labels indexes aggBy l = .ok (gmin, gmax, rows)) (hl : l ≠ []) :
    ∃ a b, gmin = some a ∧ gmax = some b ∧ a ≤ b ∧
      ∀ x ∈ l, ∀ lab ∈ loopLabels labels, ∃ v, plotValue x lab = .ok v ∧ a ≤ v ∧ v ≤ b := by
  obtain ⟨ps, hps, rfl, rfl, -, -⟩ := toDgData_ok h
  have key : ∀ x ∈ l, ∀ lab ∈ loopLabels labels, ∃ v ∈ ps.flatMap (·.vals), plotValue x lab = .ok v := by
    intro x hx lab hlab
    obtain ⟨i, hi, rfl⟩ := List.getElem_of_mem hx
    obtain ⟨m, hm, rfl⟩ := List.getElem_of_mem hlab
    have hlt : i < ps.length := by rw [← hps.length_eq]; exact hi
    have hp := hps.get hi hlt
    have := plotPt_val hp (List.getElem?_eq_getElem hm)
    refine ⟨_, ?_, this.2⟩
    exact List.mem_flatMap.2 ⟨ps[i], List.getElem_mem _, List.mem_of_getElem? this.1⟩
  have hne : ps.flatMap (·.vals) ≠ [] := by
    obtain ⟨x, r, rfl⟩ := List.exists_cons_of_ne_nil hl
    have hlab : ∃ lab, lab ∈ loopLabels labels := by
      unfold loopLabels
      split_ifs with h0
      · exact ⟨none, by simp⟩
      · obtain ⟨k, ks, rfl⟩ := List.exists_cons_of_ne_nil h0
        exact ⟨some k, by simp⟩
    obtain ⟨lab, hlab⟩ := hlab
    obtain ⟨v, hv, -⟩ := key x (by simp) lab hlab
    intro h0; rw [h0] at hv; simp at hv
  obtain ⟨a, ha, ha1, ha2⟩ := minLoop_spec hne
  obtain ⟨b, hb, hb1, hb2⟩ := maxLoop_spec hne
  refine ⟨a, b, ha, hb, ha2 b hb1, ?_⟩
  intro x hx lab hlab
  obtain ⟨v, hv, hv2⟩ := key x hx lab hlab
  exact ⟨v, hv2, ha2 v hv, hb2 v hv⟩

/-- **C147** is false: for a constant negative series the automatic range is upside down and does not contain the value. -/
theorem C147_false (c : ℚ) (hc : c < 0) :
    c < (autoRange c c none).1 ∧ (autoRange c c none).2 < c ∧ (autoRange c c none).2 < (autoRange c c none).1 := by
  simp only [autoRange, ne_eq, not_true_eq_false, if_false]
  refine ⟨?_, ?_, ?_⟩ <;> linarith

/-- **C147** (partial): unless the plotted values are all equal and negative, every value of every item is within the
automatic range. -/
theorem C147_partial {labels indexes : List String} {aggBy : Option ℕ} {l : List Item} {gmin gmax : Option ℚ}
    {rows : List PlotRow} (h : toDgData labels indexes aggBy l = .ok (gmin, gmax, rows)) (hl : l ≠ []) :
    ∃ a b, gmin = some a ∧ gmax = some b ∧ (a ≠ b ∨ 0 ≤ a →
      ∀ x ∈ l, ∀ lab ∈ loopLabels labels, ∃ v, plotValue x lab = .ok v ∧
        (autoRange a b none).1 ≤ v ∧ v ≤ (autoRange a b none).2) := by
  obtain ⟨a, b, ha, hb, hab, hv⟩ := global_bounds h hl
  refine ⟨a, b, ha, hb, ?_⟩
  intro hc x hx lab hlab
  obtain ⟨v, h1, h2, h3⟩ := hv x hx lab hlab
  refine ⟨v, h1, ?_⟩
  simp only [autoRange]
  by_cases hne : b = a
  · subst hne
    have h0 : 0 ≤ b := by rcases hc with hc | hc; exact absurd rfl hc; exact hc
    rw [if_neg (by simp)]
    constructor <;> simp only <;> linarith
  · rw [if_pos hne]
    constructor <;> simp only <;> linarith

example : toDgData ["v"] [] none plotFive = .ok (some 1, some 100, plotFive.map (fun x => .plain x.t [((x.byLabel "v").toOption.getD 0)] [])) := by
  decide +kernel

/-! ## C148: column titles -/

/-- the intended titles -/
def intendedTitles (d : Data) (labels indexes : List String) : List Text :=
  (if labels = [] then ["value".toList] else labels.map (columnName d labels.length)) ++ indexes.map String.toList

/-- **C148** is false: a label with a comma gives two titles for one column. -/
theorem C148_false :
    columnTitles (.dict [("a,b", 1)]) ["a,b"] [] = ["a".toList, "b".toList] ∧
      intendedTitles (.dict [("a,b", 1)]) ["a,b"] [] = ["a,b".toList] := by decide +kernel

/-- **C148** (partial): if no label and no index name contains a comma, the titles are one for each label, in order, and
one for each index. -/
theorem C148_partial {d : Data} {labels indexes : List String}
    (h1 : ∀ k ∈ labels, ',' ∉ k.toList) (h2 : ∀ n ∈ indexes, ',' ∉ n.toList) :
    columnTitles d labels indexes = intendedTitles d labels indexes ∧
      (intendedTitles d labels indexes).length = (loopLabels labels).length + indexes.length := by
  constructor
  · have hne : intendedTitles d labels indexes ≠ [] := by
      unfold intendedTitles
      split_ifs with h0
      · simp
      · obtain ⟨k, ks, rfl⟩ := List.exists_cons_of_ne_nil h0
        simp
    have hno : ∀ p ∈ intendedTitles d labels indexes, ',' ∉ p := by
      intro p hp
      unfold intendedTitles at hp
      rcases List.mem_append.1 hp with hp | hp
      · split_ifs at hp with h0
        · rw [List.mem_singleton.1 hp]; decide
        · obtain ⟨k, hk, rfl⟩ := List.mem_map.1 hp
          have := h1 k hk
          unfold columnName
          split
          · split_ifs
            · decide
            · intro hc
              rcases List.mem_append.1 hc with hc | hc
              · exact absurd hc (by decide)
              · exact this hc
          · exact this
      · obtain ⟨n, hn, rfl⟩ := List.mem_map.1 hp
        exact h2 n hn
    have := splitSep_joinSep ',' [] (by simp) _ hne hno
    rw [List.append_nil] at this
    unfold columnTitles
    change splitSep ',' (joinSep ',' (intendedTitles d labels indexes)) = _
    rw [this]
    clear this hno
    generalize intendedTitles d labels indexes = q at hne ⊢
    induction q with
    | nil => rfl
    | cons a r ih =>
      cases r with
      | nil => simp [withTail]
      | cons b r => simp [withTail, ih]
  · unfold intendedTitles loopLabels
    split_ifs <;> simp [Nat.add_comm]

/-! ## C149: numerical data -/

/-- **C149** is false: a series whose items carry plain numbers cannot be plotted with the default arguments. -/
theorem C149_false (x : Item) (r : List Item) (v : ℚ) (hx : x.data = some (.num v)) (s : TSeries) (hs : s.items = x :: r) :
    dygraphsPlot {} s = .error .typeError := by
  unfold dygraphsPlot
  rw [hs]
  dsimp only [plotLabels]
  have : s.labelsFrom x = .error .typeError := by
    unfold TSeries.labelsFrom
    cases s.ref with
    | none => rfl
    | some d => cases hd : d.truthy <;> simp [hx, labelsOf, hd]
  rw [this]

/-- **C149** (partial): with `data_labels=None` it can. -/
theorem C149_partial (s : TSeries) (hne : s.items ≠ []) (hnum : ∀ x ∈ s.items, ∃ v, x.data = some (.num v)) :
    ∃ p, dygraphsPlot { labels := .nothing } s = .ok p := by
  obtain ⟨x, r, hs⟩ := List.exists_cons_of_ne_nil hne
  have hread : ∀ y ∈ s.items, ∃ p, plotPt [] (allDataIndexes s.items) y = .ok p := by
    intro y hy
    obtain ⟨v, hv⟩ := hnum y hy
    refine ⟨⟨y.t, y.endT, [v], (allDataIndexes s.items).map (fun n => (y.idx.get? n).join)⟩, ?_⟩
    simp [plotPt, loopLabels, mapE, plotValue, hv]
  obtain ⟨vx, hvx⟩ := hnum x (by rw [hs]; simp)
  obtain ⟨ps, hps⟩ : ∃ ps, mapE (plotPt [] (allDataIndexes s.items)) s.items = .ok ps := by
    generalize allDataIndexes s.items = is at hread ⊢
    clear hs hnum hne
    generalize s.items = l at hread ⊢
    induction l with
    | nil => exact ⟨[], rfl⟩
    | cons a l ih =>
      obtain ⟨p, hp⟩ := hread a (by simp)
      obtain ⟨q, hq⟩ := ih (fun y hy => hread y (by simp [hy]))
      exact ⟨p :: q, by simp [mapE, hp, hq]⟩
  have hdg : ∃ g, toDgData [] (allDataIndexes s.items) (aggFactor s.items.length none none) s.items = .ok g := by
    unfold toDgData
    rw [hps]
    exact ⟨_, rfl⟩
  obtain ⟨⟨gmin, gmax, rows⟩, hdg⟩ := hdg
  obtain ⟨a, b, rfl, rfl, -, -⟩ := global_bounds hdg hne
  unfold dygraphsPlot
  rw [hs] at hdg ⊢
  dsimp only [plotLabels, plotIndexes]
  rw [hvx]
  dsimp only
  rw [hdg]
  exact ⟨_, rfl⟩

/-! ## C150: marks -/

/-- **C150** is false: for a datetime with a negative offset from UTC (as in the Americas) the text from which the mark is
positioned is only the year, whatever the rest of the datetime is. -/
theorem C150_false (d : DtText) (hs : d.plus = false) (hy : '-' ∉ d.year)
    (hplus : '+' ∉ d.wall ∧ '+' ∉ d.offset) :
    fakeUtc d.text = .ok (d.year ++ "+00:00".toList) := by
  unfold fakeUtc
  have h1 : '+' ∉ d.text := by
    unfold DtText.text
    rw [hs]
    simp [hplus.1, hplus.2]
  have h2 : '-' ∈ d.text := by simp [DtText.text, DtText.wall]
  rw [if_neg h1, if_pos h2]
  have : d.text = d.year ++ '-' :: (d.monthDay ++ 'T' :: d.time ++ (if d.plus then '+' else '-') :: d.offset) := by
    simp [DtText.text, DtText.wall]
  rw [this, splitSep_cons '-' _ _ hy]
  rfl

/-- a datetime in New York -/
def newYork : DtText := ⟨"2019".toList, "06-15".toList, "10:00:00".toList, false, "04:00".toList⟩

example : fakeUtc newYork.text = .ok "2019+00:00".toList ∧ newYork.wall ++ "+00:00".toList = "2019-06-15T10:00:00+00:00".toList := by
  decide +kernel

/-- **C150** (partial): for a zero or positive offset it is the wall-clock time, read as if it were UTC. -/
theorem C150_partial (d : DtText) (hs : d.plus = true) (hplus : '+' ∉ d.wall) :
    fakeUtc d.text = .ok (d.wall ++ "+00:00".toList) := by
  unfold fakeUtc
  have h1 : '+' ∈ d.text := by simp [DtText.text, hs]
  rw [if_pos h1]
  have : d.text = d.wall ++ '+' :: d.offset := by simp [DtText.text, hs]
  rw [this, splitSep_cons '+' _ _ hplus]
  rfl

example : fakeUtc { newYork with plus := true, offset := "02:00".toList }.text = .ok "2019-06-15T10:00:00+00:00".toList := by
  decide +kernel

/-! ## C151: forced range -/

/-- **C151** is false: with a negative minimum, or a negative maximum, the range is smaller than the one requested. -/
theorem C151_false (lo hi : ℚ) :
    (lo < 0 → lo < (forcedRange lo hi).1) ∧ (hi < 0 → (forcedRange lo hi).2 < hi) := by
  simp only [forcedRange]
  constructor <;> intro h <;> linarith

/-- **C151** (partial): for bounds which are not negative the range contains the one requested. -/
theorem C151_partial (lo hi v : ℚ) (h0 : 0 ≤ lo) (h1 : lo ≤ v) (h2 : v ≤ hi) :
    (forcedRange lo hi).1 ≤ v ∧ v ≤ (forcedRange lo hi).2 := by
  simp only [forcedRange]
  constructor <;> linarith

end Timeseria
