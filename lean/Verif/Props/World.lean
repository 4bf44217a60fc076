import Verif.Model.World
import Verif.Props.EventsLive
import Verif.Props.RemoveIndex
/-!
C332: no history of calls that give new series changes the series there are.
C333: a change to a series is seen only in the series that share its items.
-/
namespace Timeseria

/-! ## What the operations do to the objects -/

/-- the effect of an operation from `s` to `r`: with `nd` all the data objects of the result are new, otherwise they may be of `s`; with `ni` the same for the data indexes -/
structure OpEffect (h h' : Heap) (s r : HSeries) (nd ni : Bool) : Prop where
  kept : h.Kept h'
  valid : ∀ y ∈ r.items, y.dA < h'.data.length ∧ y.iA < h'.idx.length
  data : ∀ y ∈ r.items, (nd = false ∧ ∃ x ∈ s.items, x.dA = y.dA) ∨ h.data.length ≤ y.dA
  idx : ∀ y ∈ r.items, (ni = false ∧ ∃ x ∈ s.items, x.iA = y.iA) ∨ h.idx.length ≤ y.iA
  ref : ∀ a, r.refA = some a → (∃ x ∈ r.items, x.dA = a) ∨ (nd = true ∧ h.data.length ≤ a ∧ a < h'.data.length)

theorem finishH_ref {p : Except PyErr (Heap × List HItem)} {h' : Heap} {r : HSeries} (h : finishH p = .ok (h', r)) : ∀ a, r.refA = some a → ∃ x ∈ r.items, x.dA = a := by
  unfold finishH at h
  split at h
  · cases h
  · split at h
    · cases h
    · simp only [Except.ok.injEq, Prod.mk.injEq] at h
      obtain ⟨rfl, rfl⟩ := h
      rename_i l _ _ _
      intro a ha
      cases l with
      | nil => cases ha
      | cons x l =>
        simp only [List.head?_cons, Option.map_some, Option.some.injEq] at ha
        exact ⟨x, by simp, ha⟩

/-- the data indexes objects of an operation -/
theorem heapLoop_idx {cal : Calendar} {proto : Data} {ks : List String} {ren : String → String} {keep : Bool} {f : Heap → ℕ → HItem → String → Except PyErr ℚ} {skip : ℕ → Bool}
    (l : List HItem) {h h' : Heap} {i : ℕ} {ys : List HItem} (hf : heapLoop cal proto ks ren keep f skip h i l = .ok (h', ys)) :
    (keep = true → h'.idx = h.idx ∧ ∀ y ∈ ys, ∃ x ∈ l, x.iA = y.iA) ∧ (keep = false → ∀ y ∈ ys, h.idx.length ≤ y.iA ∧ y.iA < h'.idx.length) := by
  induction l generalizing h i ys with
  | nil =>
    simp only [heapLoop, Except.ok.injEq, Prod.mk.injEq] at hf
    obtain ⟨rfl, rfl⟩ := hf
    exact ⟨fun _ => ⟨rfl, by simp⟩, by simp⟩
  | cons x r ih =>
    unfold heapLoop at hf
    split at hf
    · obtain ⟨h1, h2⟩ := ih hf
      refine ⟨fun hk => ⟨(h1 hk).1, fun y hy => ?_⟩, h2⟩
      obtain ⟨z, hz, hzy⟩ := (h1 hk).2 y hy
      exact ⟨z, by simp [hz], hzy⟩
    · cases hfl : fillLoop h.data.length ren (fun h k => f h i x k) (h.alloc (emptyLike proto)) ks with
      | error e => simp [hfl] at hf
      | ok h1 =>
        rw [hfl] at hf
        simp only at hf
        obtain ⟨_, _, hi1⟩ := fillLoop_kept (le_refl _) ks (Heap.Kept.alloc h _) hfl
        have hi1' : h1.idx = h.idx := hi1
        have hia : ∀ a j, (remakeH cal x a j).iA = j := by
          intro a j; unfold remakeH; cases x.slot <;> rfl
        cases hrest : heapLoop cal proto ks ren keep f skip (if keep then h1 else h1.allocIdx []) (i + 1) r with
        | error e => simp [hrest] at hf
        | ok p =>
          obtain ⟨h3, zs⟩ := p
          rw [hrest] at hf
          simp only [Except.ok.injEq, Prod.mk.injEq] at hf
          obtain ⟨rfl, rfl⟩ := hf
          obtain ⟨q1, q2⟩ := ih hrest
          have kk := (heapLoop_kept _ hrest).1
          cases keep with
          | true =>
            simp only [if_true] at q1 q2 ⊢
            refine ⟨fun _ => ⟨(q1 trivial).1.trans hi1', ?_⟩, by simp⟩
            intro y hy
            rcases List.mem_cons.1 hy with rfl | hm
            · exact ⟨x, by simp, by rw [hia]⟩
            · obtain ⟨z, hz, hzy⟩ := (q1 trivial).2 y hm
              exact ⟨z, by simp [hz], hzy⟩
          | false =>
            simp only [Bool.false_eq_true, if_false] at q2 kk ⊢
            refine ⟨by simp, fun _ => ?_⟩
            intro y hy
            have hlen : (h1.allocIdx []).idx.length = h.idx.length + 1 := by simp [Heap.allocIdx, hi1']
            have hle := kk.idx_le
            rcases List.mem_cons.1 hy with rfl | hm
            · rw [hia, hi1']; omega
            · have := q2 trivial y hm; omega

theorem loop_effect {cal : Calendar} {proto : Data} {ks : List String} {ren : String → String} {keep : Bool} {f : Heap → ℕ → HItem → String → Except PyErr ℚ} {skip : ℕ → Bool}
    {h h' : Heap} {s r : HSeries} (hs : s.Valid h) (hf : finishH (heapLoop cal proto ks ren keep f skip h 0 s.items) = .ok (h', r)) : OpEffect h h' s r true (!keep) := by
  obtain ⟨h1, h2, _⟩ := heapLoop_kept _ (finishH_inv hf)
  obtain ⟨h3, h4⟩ := heapLoop_idx _ (finishH_inv hf)
  refine ⟨h1, ?_, fun y hy => Or.inr (h2 y hy).1, ?_, fun a ha => Or.inl (finishH_ref hf a ha)⟩
  · intro y hy
    refine ⟨(h2 y hy).2, ?_⟩
    cases keep with
    | true =>
      obtain ⟨x, hx, hxy⟩ := (h3 rfl).2 y hy
      rw [(h3 rfl).1, ← hxy]
      exact (hs.items x hx).2
    | false => exact (h4 rfl y hy).2
  · intro y hy
    cases keep with
    | true => exact Or.inl ⟨rfl, (h3 rfl).2 y hy⟩
    | false => exact Or.inr (h4 rfl y hy).1

theorem map_effect {cal : Calendar} {g : String → ℚ → Except PyErr ℚ} {h h' : Heap} {s r : HSeries} (hs : s.Valid h) (hop : s.mapOp cal g h = .ok (h', r)) :
    OpEffect h h' s r true false := by
  unfold HSeries.mapOp at hop
  split at hop
  · cases hop
  · exact loop_effect hs hop

theorem derivative_effect {cal : Calendar} {auto : ℚ} {h h' : Heap} {s r : HSeries} (hs : s.Valid h) (hop : s.derivativeOp cal auto h = .ok (h', r)) :
    OpEffect h h' s r true false := by
  unfold HSeries.derivativeOp at hop
  split at hop
  · cases hop
  · split at hop
    · cases hop
    · split at hop
      · cases hop
      · exact loop_effect hs hop

theorem mavg_effect {cal : Calendar} {n : Int} {h h' : Heap} {s r : HSeries} (hs : s.Valid h) (hop : s.mavgOp cal n h = .ok (h', r)) :
    OpEffect h h' s r true true := by
  unfold HSeries.mavgOp at hop
  split at hop
  · cases hop
  · split at hop
    · cases hop
    · exact loop_effect hs hop

theorem filterLoop_more {labels : List String} (l : List HItem) {h h' : Heap} {ys : List HItem} (hf : filterLoop labels h l = .ok (h', ys)) :
    h'.idx = h.idx ∧ ∀ y ∈ ys, y.dA < h'.data.length ∧ ∃ x ∈ l, x.iA = y.iA := by
  induction l generalizing h ys with
  | nil =>
    simp only [filterLoop, Except.ok.injEq, Prod.mk.injEq] at hf
    obtain ⟨rfl, rfl⟩ := hf
    exact ⟨rfl, by simp⟩
  | cons x r ih =>
    unfold filterLoop at hf
    split at hf
    · cases hf
    · split at hf
      · cases hf
      · rename_i h1 zs hrest
        simp only [Except.ok.injEq, Prod.mk.injEq] at hf
        obtain ⟨rfl, rfl⟩ := hf
        obtain ⟨a1, a2⟩ := ih hrest
        have kk := (filterLoop_kept _ hrest).1.data_le
        refine ⟨a1, ?_⟩
        intro y hy
        rcases List.mem_cons.1 hy with rfl | hm
        · refine ⟨?_, x, by simp, rfl⟩
          simp only [Heap.alloc, List.length_append, List.length_singleton] at kk
          show h.data.length < _
          omega
        · obtain ⟨b1, z, hz, hzy⟩ := a2 y hm
          exact ⟨b1, z, by simp [hz], hzy⟩

theorem filter_effect {labels : List String} {h h' : Heap} {s r : HSeries} (hs : s.Valid h) (hop : s.filterOp labels h = .ok (h', r)) : OpEffect h h' s r true false := by
  unfold HSeries.filterOp at hop
  split at hop
  · cases hop
  · split at hop
    · obtain ⟨h1, h2⟩ := filterLoop_kept _ (finishH_inv hop)
      obtain ⟨h3, h4⟩ := filterLoop_more _ (finishH_inv hop)
      refine ⟨h1, ?_, fun y hy => Or.inr (h2 y hy), fun y hy => Or.inl ⟨rfl, (h4 y hy).2⟩, fun a ha => Or.inl (finishH_ref hop a ha)⟩
      intro y hy
      obtain ⟨b1, x, hx, hxy⟩ := h4 y hy
      refine ⟨b1, ?_⟩
      rw [h3, ← hxy]
      exact (hs.items x hx).2
    · cases hop

theorem slice_effect {a b : ℕ} {h h' : Heap} {s r : HSeries} (hs : s.Valid h) (hop : s.sliceOp a b h = .ok (h', r)) : OpEffect h h' s r false false := by
  have hi := finishH_inv hop
  simp only [Except.ok.injEq, Prod.mk.injEq] at hi
  obtain ⟨rfl, hi⟩ := hi
  have hm : ∀ y ∈ r.items, y ∈ s.items := by
    intro y hy
    rw [← hi] at hy
    exact List.mem_of_mem_drop (List.mem_of_mem_take hy)
  exact ⟨Heap.Kept.refl _, fun y hy => hs.items y (hm y hy), fun y hy => Or.inl ⟨rfl, y, hm y hy, rfl⟩, fun y hy => Or.inl ⟨rfl, y, hm y hy, rfl⟩, fun a ha => Or.inl (finishH_ref hop a ha)⟩

theorem heapAnom_valid {d : Detector} {thr : ℚ} {l : List Item} {sc : ℕ → Item → Except PyErr Item} :
    ∀ (xs : List HItem) (h h' : Heap) (i : ℕ) (ys : List HItem), (∀ x ∈ xs, x.dA < h.data.length ∧ x.iA < h.idx.length) → heapAnomLoop d thr l sc h xs i = .ok (h', ys) →
      ∀ y ∈ ys, y.dA < h'.data.length ∧ y.iA < h'.idx.length := by
  intro xs
  induction xs with
  | nil => intro h h' i ys _ hr; cases hr; simp
  | cons x r ih =>
    intro h h' i ys hv hr
    unfold heapAnomLoop at hr
    have hvr : ∀ x ∈ r, x.dA < h.data.length ∧ x.iA < h.idx.length := fun y hy => hv y (by simp [hy])
    cases hst : stepAt d thr l i with
    | error e => rw [hst] at hr; cases hr
    | ok st =>
      rw [hst] at hr
      cases st with
      | skip => exact ih _ _ _ _ hvr hr
      | stop => cases hr; simp
      | pass =>
        dsimp only at hr
        cases hg : heapAnomLoop d thr l sc h r (i + 1) with
        | error e => rw [hg] at hr; cases hr
        | ok q =>
          rw [hg] at hr
          obtain ⟨h1, zs⟩ := q
          cases hr
          have k := (heapAnom_kept _ _ _ _ _ hg).1
          intro y hm
          rcases List.mem_cons.1 hm with rfl | hm
          · have := hv y (by simp)
            exact ⟨lt_of_lt_of_le this.1 k.data_le, lt_of_lt_of_le this.2 k.idx_le⟩
          · exact ih _ _ _ _ hvr hg y hm
      | score =>
        dsimp only at hr
        cases hsc : sc i (h.read x) with
        | error e => rw [hsc] at hr; cases hr
        | ok y0 =>
          rw [hsc] at hr
          dsimp only at hr
          cases hg : heapAnomLoop d thr l sc ((h.alloc (y0.data.getD (.num 0))).allocIdx y0.idx) r (i + 1) with
          | error e => rw [hg] at hr; cases hr
          | ok q =>
            rw [hg] at hr
            obtain ⟨h1, zs⟩ := q
            cases hr
            have k := (heapAnom_kept _ _ _ _ _ hg).1
            have k0 : h.Kept ((h.alloc (y0.data.getD (.num 0))).allocIdx y0.idx) := (Heap.Kept.alloc h _).trans (Heap.Kept.allocIdx _ _)
            have hd : ((h.alloc (y0.data.getD (.num 0))).allocIdx y0.idx).data.length = h.data.length + 1 := by simp [Heap.alloc, Heap.allocIdx]
            have hi : ((h.alloc (y0.data.getD (.num 0))).allocIdx y0.idx).idx.length = h.idx.length + 1 := by simp [Heap.alloc, Heap.allocIdx]
            intro y hm
            rcases List.mem_cons.1 hm with rfl | hm
            · have a1 := k.data_le
              have a2 := k.idx_le
              constructor
              · show h.data.length < _; omega
              · show h.idx.length < _; omega
            · exact ih _ _ _ _ (fun y hy => ⟨lt_of_lt_of_le (hvr y hy).1 k0.data_le, lt_of_lt_of_le (hvr y hy).2 k0.idx_le⟩) hg y hm

theorem detect_effect {lg : ℚ → ℚ} {d : Detector} {c : AnomCfg} {pre : Option Predictions} {ranges : List (String × IndexRange)} {h h' : Heap} {s r : HSeries}
    (hs : s.Valid h) (hop : s.detect lg d c pre ranges h = .ok (h', r)) : OpEffect h h' s r false false := by
  obtain ⟨k, hy⟩ := heapAnom_kept _ _ _ _ _ (finishH_inv hop)
  refine ⟨k, heapAnom_valid _ _ _ _ _ hs.items (finishH_inv hop), ?_, ?_, fun a ha => Or.inl (finishH_ref hop a ha)⟩
  · intro y hm
    rcases hy y hm with ⟨p, q, _⟩ | ⟨q, _⟩
    · exact Or.inl ⟨rfl, y, List.mem_of_getElem? q, rfl⟩
    · exact Or.inr q
  · intro y hm
    rcases hy y hm with ⟨p, q, _⟩ | ⟨_, q⟩
    · exact Or.inl ⟨rfl, y, List.mem_of_getElem? q, rfl⟩
    · exact Or.inr q

theorem newItems_fresh : ∀ (l : List Item) (h : Heap), h.Kept (newItems h l).1 ∧ ∀ y ∈ (newItems h l).2, h.data.length ≤ y.dA ∧ h.idx.length ≤ y.iA ∧
    y.dA < (newItems h l).1.data.length ∧ y.iA < (newItems h l).1.idx.length := by
  intro l
  induction l with
  | nil => intro h; exact ⟨Heap.Kept.refl _, by simp [newItems]⟩
  | cons x r ih =>
    intro h
    obtain ⟨k, hy⟩ := ih ((h.alloc (x.data.getD (.num 0))).allocIdx x.idx)
    have k0 : h.Kept ((h.alloc (x.data.getD (.num 0))).allocIdx x.idx) := (Heap.Kept.alloc h _).trans (Heap.Kept.allocIdx _ _)
    have hd : ((h.alloc (x.data.getD (.num 0))).allocIdx x.idx).data.length = h.data.length + 1 := by simp [Heap.alloc, Heap.allocIdx]
    have hi : ((h.alloc (x.data.getD (.num 0))).allocIdx x.idx).idx.length = h.idx.length + 1 := by simp [Heap.alloc, Heap.allocIdx]
    refine ⟨k0.trans k, ?_⟩
    intro y hm
    have a1 := k.data_le
    have a2 := k.idx_le
    rcases List.mem_cons.1 hm with rfl | hm
    · refine ⟨le_refl _, le_refl _, ?_, ?_⟩
      · show h.data.length < (newItems _ r).1.data.length; omega
      · show h.idx.length < (newItems _ r).1.idx.length; omega
    · obtain ⟨b1, b2, b3, b4⟩ := hy y hm
      exact ⟨by omega, by omega, b3, b4⟩

/-- the data objects of a series: those of its items and its reference -/
def Entry.OwnsD (e : Entry) (a : ℕ) : Prop := (∃ x ∈ e.series.items, x.dA = a) ∨ e.series.refA = some a

/-- its data indexes objects -/
def Entry.OwnsI (e : Entry) (a : ℕ) : Prop := ∃ x ∈ e.series.items, x.iA = a

/-! ## The invariant of the histories -/

/-- the objects of the series exist, and series with different marks have no object in common -/
structure WorldOk (w : World) : Prop where
  validD : ∀ e ∈ w.entries, ∀ a, e.OwnsD a → a < w.heap.data.length
  validI : ∀ e ∈ w.entries, ∀ a, e.OwnsI a → a < w.heap.idx.length
  marks : ∀ e ∈ w.entries, e.dataFrom < w.entries.length ∧ e.idxFrom < w.entries.length
  sepD : ∀ e ∈ w.entries, ∀ e' ∈ w.entries, e.dataFrom ≠ e'.dataFrom → ∀ a, e.OwnsD a → ¬ e'.OwnsD a
  sepI : ∀ e ∈ w.entries, ∀ e' ∈ w.entries, e.idxFrom ≠ e'.idxFrom → ∀ a, e.OwnsI a → ¬ e'.OwnsI a

theorem WorldOk.series {w : World} (h : WorldOk w) {e : Entry} (he : e ∈ w.entries) : e.series.Valid w.heap :=
  ⟨fun x hx => ⟨h.validD e he _ (Or.inl ⟨x, hx, rfl⟩), h.validI e he _ ⟨x, hx, rfl⟩⟩, fun a ha => h.validD e he a (Or.inr ha)⟩

theorem worldOk_empty : WorldOk {} := ⟨by simp, by simp, by simp, by simp, by simp⟩

/-- the invariant is kept when the new entries are described by the old ones: each owns objects of old entries with the same new mark, or new objects which only entries of its mark have -/
theorem worldOk_of {w w' : World} (hw : WorldOk w) (fd fi : ℕ → ℕ)
    (hD : w.heap.data.length ≤ w'.heap.data.length) (hI : w.heap.idx.length ≤ w'.heap.idx.length) (newD newI : ℕ)
    (marks : ∀ e ∈ w'.entries, e.dataFrom < w'.entries.length ∧ e.idxFrom < w'.entries.length)
    (ownD : ∀ e ∈ w'.entries, ∀ a, e.OwnsD a → (∃ e0 ∈ w.entries, fd e0.dataFrom = e.dataFrom ∧ e0.OwnsD a) ∨ (w.heap.data.length ≤ a ∧ a < w'.heap.data.length ∧ e.dataFrom = newD))
    (ownI : ∀ e ∈ w'.entries, ∀ a, e.OwnsI a → (∃ e0 ∈ w.entries, fi e0.idxFrom = e.idxFrom ∧ e0.OwnsI a) ∨ (w.heap.idx.length ≤ a ∧ a < w'.heap.idx.length ∧ e.idxFrom = newI)) :
    WorldOk w' := by
  refine ⟨?_, ?_, marks, ?_, ?_⟩
  · intro e he a ha
    rcases ownD e he a ha with ⟨e0, h0, _, h1⟩ | ⟨_, h, _⟩
    · exact lt_of_lt_of_le (hw.validD e0 h0 a h1) hD
    · exact h
  · intro e he a ha
    rcases ownI e he a ha with ⟨e0, h0, _, h1⟩ | ⟨_, h, _⟩
    · exact lt_of_lt_of_le (hw.validI e0 h0 a h1) hI
    · exact h
  · intro e he e' he' hne a ha ha'
    rcases ownD e he a ha with ⟨e0, h0, m0, o0⟩ | ⟨h1, _, m1⟩
    · rcases ownD e' he' a ha' with ⟨e1, h1, m1, o1⟩ | ⟨h1, _, _⟩
      · exact hw.sepD e0 h0 e1 h1 (fun h => hne (by rw [← m0, ← m1, h])) a o0 o1
      · exact absurd (hw.validD e0 h0 a o0) (by omega)
    · rcases ownD e' he' a ha' with ⟨e2, h2, m2, o2⟩ | ⟨_, _, m2⟩
      · exact absurd (hw.validD e2 h2 a o2) (by omega)
      · exact hne (by rw [m1, m2])
  · intro e he e' he' hne a ha ha'
    rcases ownI e he a ha with ⟨e0, h0, m0, o0⟩ | ⟨h1, _, m1⟩
    · rcases ownI e' he' a ha' with ⟨e1, h1, m1, o1⟩ | ⟨h1, _, _⟩
      · exact hw.sepI e0 h0 e1 h1 (fun h => hne (by rw [← m0, ← m1, h])) a o0 o1
      · exact absurd (hw.validI e0 h0 a o0) (by omega)
    · rcases ownI e' he' a ha' with ⟨e2, h2, m2, o2⟩ | ⟨_, _, m2⟩
      · exact absurd (hw.validI e2 h2 a o2) (by omega)
      · exact hne (by rw [m1, m2])

theorem mem_add {l : List Entry} {en e : Entry} (he : e ∈ l ++ [en]) : e ∈ l ∨ e = en := by
  rw [List.mem_append, List.mem_singleton] at he
  exact he

/-- adding a series whose objects are new, or of a series with the same mark -/
theorem worldOk_add {w : World} (hw : WorldOk w) {h' : Heap} {en : Entry} (k : w.heap.Kept h')
    (hm : en.dataFrom ≤ w.entries.length ∧ en.idxFrom ≤ w.entries.length)
    (hd : ∀ a, en.OwnsD a → (∃ e ∈ w.entries, e.dataFrom = en.dataFrom ∧ e.OwnsD a) ∨ (w.heap.data.length ≤ a ∧ a < h'.data.length))
    (hi : ∀ a, en.OwnsI a → (∃ e ∈ w.entries, e.idxFrom = en.idxFrom ∧ e.OwnsI a) ∨ (w.heap.idx.length ≤ a ∧ a < h'.idx.length)) :
    WorldOk { heap := h', entries := w.entries ++ [en] } := by
  refine worldOk_of hw id id k.data_le k.idx_le en.dataFrom en.idxFrom ?_ ?_ ?_
  · intro e he
    show e.dataFrom < (w.entries ++ [en]).length ∧ e.idxFrom < (w.entries ++ [en]).length
    rw [List.length_append, List.length_singleton]
    rcases mem_add he with h1 | rfl
    · have := hw.marks e h1; omega
    · omega
  · intro e he a ha
    rcases mem_add he with h1 | rfl
    · exact Or.inl ⟨e, h1, rfl, ha⟩
    · rcases hd a ha with h | ⟨h1, h2⟩
      · exact Or.inl h
      · exact Or.inr ⟨h1, h2, rfl⟩
  · intro e he a ha
    rcases mem_add he with h1 | rfl
    · exact Or.inl ⟨e, h1, rfl, ha⟩
    · rcases hi a ha with h | ⟨h1, h2⟩
      · exact Or.inl h
      · exact Or.inr ⟨h1, h2, rfl⟩

/-- the series at a position is the same object, with the same items -/
def SameAt (w w' : World) (k : ℕ) : Prop := (w'.entries[k]?).map Entry.series = (w.entries[k]?).map Entry.series

theorem sameAt_add {w : World} {h' : Heap} {en : Entry} {k : ℕ} (hk : k < w.entries.length) : SameAt w { heap := h', entries := w.entries ++ [en] } k := by
  unfold SameAt
  dsimp only
  rw [List.getElem?_append_left hk]

/-- a call which changes no objects: the invariant is kept, the objects are, and so are the series the call does not add to or remove from -/
structure Quiet (w w' : World) (reshaped : Option ℕ) : Prop where
  ok : WorldOk w'
  kept : w.heap.Kept w'.heap
  len : w.entries.length ≤ w'.entries.length
  same : ∀ k, k < w.entries.length → reshaped ≠ some k → SameAt w w' k

theorem quiet_refl {w : World} (hw : WorldOk w) (r : Option ℕ) : Quiet w w r := ⟨hw, Heap.Kept.refl _, le_refl _, fun _ _ _ => rfl⟩

/-- what a call that gives a new series does to a world -/
theorem produce_ok {w : World} (hw : WorldOk w) {k : ℕ} {nd ni : Bool} {op : Heap → HSeries → Except PyErr (Heap × HSeries)}
    (hop : ∀ h s h' r, s.Valid h → op h s = .ok (h', r) → OpEffect h h' s r nd ni) : Quiet w (w.produce k nd ni op) none := by
  unfold World.produce
  cases he : w.entries[k]? with
  | none => exact quiet_refl hw _
  | some e =>
    have hm := List.mem_of_getElem? he
    dsimp only
    cases ho : op w.heap e.series with
    | error er => exact quiet_refl hw _
    | ok q =>
      obtain ⟨h', r⟩ := q
      have ef := hop _ _ _ _ (hw.series hm) ho
      refine ⟨?_, ef.kept, by simp, fun j hj _ => sameAt_add hj⟩
      refine worldOk_add hw ef.kept ?_ ?_ ?_
      · have := hw.marks e hm
        dsimp only
        constructor <;> split_ifs <;> omega
      · intro a ha
        rcases ha with ⟨y, hy, rfl⟩ | hr
        · rcases ef.data y hy with ⟨rfl, x, hx, hxy⟩ | hf
          · exact Or.inl ⟨e, hm, rfl, Or.inl ⟨x, hx, hxy⟩⟩
          · exact Or.inr ⟨hf, (ef.valid y hy).1⟩
        · rcases ef.ref a hr with ⟨y, hy, rfl⟩ | ⟨rfl, h1, h2⟩
          · rcases ef.data y hy with ⟨rfl, x, hx, hxy⟩ | hf
            · exact Or.inl ⟨e, hm, rfl, Or.inl ⟨x, hx, hxy⟩⟩
            · exact Or.inr ⟨hf, (ef.valid y hy).1⟩
          · exact Or.inr ⟨h1, h2⟩
      · rintro a ⟨y, hy, rfl⟩
        rcases ef.idx y hy with ⟨rfl, x, hx, hxy⟩ | hf
        · exact Or.inl ⟨e, hm, rfl, x, hx, hxy⟩
        · exact Or.inr ⟨hf, (ef.valid y hy).2⟩

/-- adding a series of new items -/
theorem fresh_ok {w : World} (hw : WorldOk w) {l : List Item} {h' : Heap} {r : HSeries} (hf : finishH (.ok (newItems w.heap l)) = .ok (h', r)) :
    Quiet w { heap := h', entries := w.entries ++ [{ series := r, dataFrom := w.entries.length, idxFrom := w.entries.length }] } none := by
  have hi := finishH_inv hf
  simp only [Except.ok.injEq] at hi
  obtain ⟨k, hy⟩ := newItems_fresh l w.heap
  rw [hi] at k hy
  refine ⟨worldOk_add hw k ⟨le_refl _, le_refl _⟩ ?_ ?_, k, by simp, fun j hj _ => sameAt_add hj⟩
  · rintro a (⟨y, h1, rfl⟩ | h1)
    · exact Or.inr ⟨(hy y h1).1, (hy y h1).2.2.1⟩
    · obtain ⟨y, h2, rfl⟩ := finishH_ref hf a h1
      exact Or.inr ⟨(hy y h2).1, (hy y h2).2.2.1⟩
  · rintro a ⟨y, h1, rfl⟩
    exact Or.inr ⟨(hy y h1).2.1, (hy y h1).2.2.2⟩

/-! ## Adding and removing items -/

/-- what an append does to the items and the reference -/
theorem hAppend_shape {h : Heap} {s : HSeries} {x : HItem} :
    (∃ er, (s.append h x).2 = .error er ∧ (s.append h x).1.items = s.items ∧ (s.append h x).1.refA = s.refA) ∨
    ((s.append h x).2 = .ok () ∧ (s.append h x).1.items = s.items ++ [x] ∧ ((s.append h x).1.refA = s.refA ∨ (s.append h x).1.refA = some x.dA)) := by
  unfold HSeries.append
  rcases hq : (s.view h).append (h.read x) with ⟨s', (e | u)⟩
  · exact Or.inl ⟨e, rfl, rfl, rfl⟩
  · refine Or.inr ⟨rfl, rfl, ?_⟩
    dsimp only
    split_ifs
    · exact Or.inr rfl
    · exact Or.inl rfl

/-- what an insertion does to the items and the reference -/
theorem hInsert_shape {h : Heap} {s : HSeries} {pos : Int} {x : HItem} :
    (∃ er, (s.insert h pos x).2 = .error er ∧ (s.insert h pos x).1.items = s.items ∧ (s.insert h pos x).1.refA = s.refA) ∨
    ((s.insert h pos x).2 = .ok () ∧ (∀ y, y ∈ (s.insert h pos x).1.items ↔ y ∈ s.items ∨ y = x) ∧ ((s.insert h pos x).1.refA = s.refA ∨ (s.insert h pos x).1.refA = some x.dA)) := by
  unfold HSeries.insert
  split
  · rename_i he
    rcases hAppend_shape (h := h) (s := s) (x := x) with h1 | ⟨h1, h2, h3⟩
    · rw [he] at h1 ⊢; exact Or.inl h1
    · exact Or.inr ⟨h1, fun y => by rw [h2, List.mem_append, List.mem_singleton], h3⟩
  · rename_i he
    split
    · exact Or.inl ⟨_, rfl, rfl, rfl⟩
    · refine Or.inr ⟨rfl, ?_, Or.inl rfl⟩
      intro y
      dsimp only
      rw [List.mem_append, List.mem_cons]
      have := List.take_append_drop (pyInsertPos s.items.length pos) s.items
      constructor
      · rintro (h1 | h1 | h1)
        · exact Or.inl (List.mem_of_mem_take h1)
        · exact Or.inr h1
        · exact Or.inl (List.mem_of_mem_drop h1)
      · rintro (h1 | h1)
        · rw [← this, List.mem_append] at h1
          tauto
        · exact Or.inr (Or.inl h1)

theorem pop_shape (s : HSeries) (i : Option Int) : (∀ x ∈ (s.pop i).items, x ∈ s.items) ∧ (s.pop i).refA = s.refA ∧ (s.pop i).attrs = s.attrs := by
  obtain ⟨attrs, items, refA⟩ := s
  have he : ∀ k, ∀ x ∈ items.eraseIdx k, x ∈ items := fun k x hx => List.mem_of_mem_eraseIdx hx
  cases items with
  | nil => exact ⟨fun x hx => hx, rfl, rfl⟩
  | cons y r =>
    unfold HSeries.pop
    dsimp only
    cases i with
    | none =>
      dsimp only
      cases pyPos (y :: r).length (-1) with
      | none => exact ⟨fun x hx => hx, rfl, rfl⟩
      | some k => exact ⟨he k, rfl, rfl⟩
    | some i =>
      dsimp only
      split
      · exact ⟨fun x hx => hx, rfl, rfl⟩
      · cases pyPos (y :: r).length i with
        | none => exact ⟨fun x hx => hx, rfl, rfl⟩
        | some k => exact ⟨he k, rfl, rfl⟩

theorem mem_set {l : List Entry} {k : ℕ} {en e : Entry} (he : e ∈ l.set k en) : e ∈ l ∨ e = en := List.mem_or_eq_of_mem_set he

/-- replacing the series at a position by one with some of its objects, and some new ones of its mark -/
theorem quiet_set {w : World} (hw : WorldOk w) {k : ℕ} {e : Entry} (he : w.entries[k]? = some e) {h' : Heap} (kp : w.heap.Kept h') {s' : HSeries}
    (hd : ∀ a, Entry.OwnsD { e with series := s' } a → e.OwnsD a ∨ (w.heap.data.length ≤ a ∧ a < h'.data.length))
    (hi : ∀ a, Entry.OwnsI { e with series := s' } a → e.OwnsI a ∨ (w.heap.idx.length ≤ a ∧ a < h'.idx.length)) :
    Quiet w { heap := h', entries := w.entries.set k { e with series := s' } } (some k) := by
  have hm := List.mem_of_getElem? he
  refine ⟨?_, kp, by simp, ?_⟩
  · refine worldOk_of hw id id kp.data_le kp.idx_le e.dataFrom e.idxFrom ?_ ?_ ?_
    · intro y hy
      show y.dataFrom < (w.entries.set k _).length ∧ y.idxFrom < (w.entries.set k _).length
      rw [List.length_set]
      rcases mem_set hy with h1 | rfl
      · exact hw.marks y h1
      · exact hw.marks e hm
    · intro y hy a ha
      rcases mem_set hy with h1 | rfl
      · exact Or.inl ⟨y, h1, rfl, ha⟩
      · rcases hd a ha with h | ⟨h1, h2⟩
        · exact Or.inl ⟨e, hm, rfl, h⟩
        · exact Or.inr ⟨h1, h2, rfl⟩
    · intro y hy a ha
      rcases mem_set hy with h1 | rfl
      · exact Or.inl ⟨y, h1, rfl, ha⟩
      · rcases hi a ha with h | ⟨h1, h2⟩
        · exact Or.inl ⟨e, hm, rfl, h⟩
        · exact Or.inr ⟨h1, h2, rfl⟩
  · intro j hj hne
    unfold SameAt
    dsimp only
    rw [List.getElem?_set_ne (fun h => hne (by rw [h]))]

/-- adding to a series an item of another -/
theorem quiet_join {w : World} (hw : WorldOk w) {k : ℕ} {e e' : Entry} (he : w.entries[k]? = some e) (hm' : e' ∈ w.entries) {s' : HSeries}
    (hd : ∀ a, Entry.OwnsD { e with series := s' } a → e.OwnsD a ∨ e'.OwnsD a)
    (hi : ∀ a, Entry.OwnsI { e with series := s' } a → e.OwnsI a ∨ e'.OwnsI a) :
    Quiet w { w with entries := (w.entries.set k { e with series := s' }).map (Entry.join e e') } (some k) := by
  have hm := List.mem_of_getElem? he
  have ownsD : ∀ (y : Entry) a, (Entry.join e e' y).OwnsD a ↔ y.OwnsD a := fun y a => Iff.rfl
  have ownsI : ∀ (y : Entry) a, (Entry.join e e' y).OwnsI a ↔ y.OwnsI a := fun y a => Iff.rfl
  have jd : ∀ y : Entry, (Entry.join e e' y).dataFrom = (fun m => if m = e'.dataFrom then e.dataFrom else m) y.dataFrom := fun y => rfl
  have ji : ∀ y : Entry, (Entry.join e e' y).idxFrom = (fun m => if m = e'.idxFrom then e.idxFrom else m) y.idxFrom := fun y => rfl
  refine ⟨?_, Heap.Kept.refl _, by simp, ?_⟩
  · refine worldOk_of hw (fun m => if m = e'.dataFrom then e.dataFrom else m) (fun m => if m = e'.idxFrom then e.idxFrom else m) (le_refl _) (le_refl _) 0 0 ?_ ?_ ?_
    · intro z hz
      obtain ⟨y, hy, rfl⟩ := List.mem_map.1 hz
      dsimp only
      rw [List.length_map, List.length_set]
      have h1 := hw.marks e hm
      have h2 : y.dataFrom < w.entries.length ∧ y.idxFrom < w.entries.length := by
        rcases mem_set hy with h | rfl
        · exact hw.marks y h
        · exact h1
      unfold Entry.join
      dsimp only
      constructor <;> split_ifs <;> omega
    · intro z hz a ha
      obtain ⟨y, hy, rfl⟩ := List.mem_map.1 hz
      rw [ownsD] at ha
      rw [jd]
      rcases mem_set hy with h | rfl
      · exact Or.inl ⟨y, h, rfl, ha⟩
      · rcases hd a ha with h | h
        · exact Or.inl ⟨e, hm, rfl, h⟩
        · refine Or.inl ⟨e', hm', ?_, h⟩
          dsimp only
          by_cases hq : e.dataFrom = e'.dataFrom
          · rw [if_pos rfl, if_pos hq]
          · rw [if_pos rfl, if_neg hq]
    · intro z hz a ha
      obtain ⟨y, hy, rfl⟩ := List.mem_map.1 hz
      rw [ownsI] at ha
      rw [ji]
      rcases mem_set hy with h | rfl
      · exact Or.inl ⟨y, h, rfl, ha⟩
      · rcases hi a ha with h | h
        · exact Or.inl ⟨e, hm, rfl, h⟩
        · refine Or.inl ⟨e', hm', ?_, h⟩
          dsimp only
          by_cases hq : e.idxFrom = e'.idxFrom
          · rw [if_pos rfl, if_pos hq]
          · rw [if_pos rfl, if_neg hq]
  · intro j hj hne
    unfold SameAt
    dsimp only
    rw [List.getElem?_map, List.getElem?_set_ne (fun h => hne (by rw [h]))]
    cases w.entries[j]? <;> rfl

/-! ## Duplicates -/

theorem appendAll_shape {h : Heap} : ∀ (l : List HItem) {s r : HSeries}, HSeries.appendAll h s l = .ok r →
    r.items = s.items ++ l ∧ ∀ a, r.refA = some a → s.refA = some a ∨ ∃ x ∈ l, x.dA = a := by
  intro l
  induction l with
  | nil =>
    intro s r hr
    cases hr
    exact ⟨by simp, fun a ha => Or.inl ha⟩
  | cons x l ih =>
    intro s r hr
    unfold HSeries.appendAll at hr
    have hs := hAppend_shape (h := h) (s := s) (x := x)
    rcases hq : s.append h x with ⟨s', (er | u)⟩
    · rw [hq] at hr; cases hr
    · rw [hq] at hr hs
      dsimp only at hr hs
      rcases hs with ⟨er, h1, _⟩ | ⟨_, h2, h3⟩
      · cases h1
      · obtain ⟨g1, g2⟩ := ih hr
        refine ⟨by rw [g1, h2]; simp, ?_⟩
        intro a ha
        rcases g2 a ha with g | ⟨y, hy, hya⟩
        · rcases h3 with h3 | h3
          · exact Or.inl (h3 ▸ g)
          · rw [h3] at g
            exact Or.inr ⟨x, by simp, by simpa using g⟩
        · exact Or.inr ⟨y, by simp [hy], hya⟩

theorem duplicate_effect {h h' : Heap} {s r : HSeries} (hs : s.Valid h) (hop : s.duplicate h = .ok (h', r)) : OpEffect h h' s r true true := by
  unfold HSeries.duplicate at hop
  dsimp only at hop
  split at hop
  · cases hop
  · rename_i r' hr
    simp only [Except.ok.injEq, Prod.mk.injEq] at hop
    obtain ⟨rfl, rfl⟩ := hop
    obtain ⟨h1, h2⟩ := appendAll_shape _ hr
    simp only [List.nil_append] at h1
    have hsh : ∀ y ∈ r'.items, ∃ x ∈ s.items, y = shiftItem h.data.length h.idx.length x := by
      intro y hy
      rw [h1] at hy
      obtain ⟨x, hx, rfl⟩ := List.mem_map.1 hy
      exact ⟨x, hx, rfl⟩
    refine ⟨⟨?_, ?_⟩, ?_, ?_, ?_, ?_⟩
    · intro a ha; exact List.getElem?_append_left ha
    · intro a ha; exact List.getElem?_append_left ha
    · intro y hy
      obtain ⟨x, hx, rfl⟩ := hsh y hy
      have := hs.items x hx
      simp only [shiftItem, List.length_append]
      omega
    · intro y hy
      obtain ⟨x, hx, rfl⟩ := hsh y hy
      exact Or.inr (by simp [shiftItem])
    · intro y hy
      obtain ⟨x, hx, rfl⟩ := hsh y hy
      exact Or.inr (by simp [shiftItem])
    · intro a ha
      rcases h2 a ha with g | ⟨x, hx, hxa⟩
      · cases hra : s.refA with
        | none => rw [hra] at g; cases g
        | some b =>
          rw [hra] at g
          simp only [Option.map_some, Option.some.injEq] at g
          have := hs.ref b hra
          refine Or.inr ⟨rfl, ?_, ?_⟩
          · omega
          · simp only [List.length_append]; omega
      · exact Or.inl ⟨x, by rw [h1]; exact hx, hxa⟩

/-- a change touching only the data objects of a series, or only its data indexes objects -/
theorem dataLoop_frame (f : Data → Except PyErr Data) : ∀ (l : List HItem) (h : Heap), (dataLoop f h l).1.data.length = h.data.length ∧ (dataLoop f h l).1.idx = h.idx ∧
    ∀ a, (∀ x ∈ l, x.dA ≠ a) → (dataLoop f h l).1.data[a]? = h.data[a]? := by
  intro l
  induction l with
  | nil => intro h; exact ⟨rfl, rfl, fun _ _ => rfl⟩
  | cons x r ih =>
    intro h
    unfold dataLoop
    cases hd : h.data[x.dA]? with
    | none => exact ⟨rfl, rfl, fun _ _ => rfl⟩
    | some d =>
      dsimp only
      cases hf : f d with
      | error e => exact ⟨rfl, rfl, fun _ _ => rfl⟩
      | ok d' =>
        dsimp only
        obtain ⟨h1, h2, h3⟩ := ih (h.store x.dA (fun _ => d'))
        refine ⟨by rw [h1]; simp [Heap.store], h2, ?_⟩
        intro a ha
        rw [h3 a (fun y hy => ha y (by simp [hy]))]
        have hne := ha x (by simp)
        simp [Heap.store, hne]

/-- the frame of a change made through a series -/
structure ObjFrame (h h' : Heap) (l : List HItem) (dataOnly : Bool) : Prop where
  dlen : h'.data.length = h.data.length
  ilen : h'.idx.length = h.idx.length
  data : ∀ a, (dataOnly = true → ∀ x ∈ l, x.dA ≠ a) → h'.data[a]? = h.data[a]?
  idx : ∀ a, (dataOnly = false → ∀ x ∈ l, x.iA ≠ a) → h'.idx[a]? = h.idx[a]?

theorem frame_refl (h : Heap) (l : List HItem) (b : Bool) : ObjFrame h h l b := ⟨rfl, rfl, fun _ _ => rfl, fun _ _ => rfl⟩

theorem dataLoop_is_frame (f : Data → Except PyErr Data) (l : List HItem) (h : Heap) : ObjFrame h (dataLoop f h l).1 l true := by
  obtain ⟨h1, h2, h3⟩ := dataLoop_frame f l h
  exact ⟨h1, by rw [h2], fun a ha => h3 a (ha rfl), fun a _ => by rw [h2]⟩

theorem change_is_frame {w : World} {k : ℕ} {f : Heap → HSeries → Heap} {b : Bool} (hf : ∀ s, ObjFrame w.heap (f w.heap s) s.items b) :
    (w.entries[k]? = none ∧ w.change k f = w) ∨ ∃ e, w.entries[k]? = some e ∧ (w.change k f).entries = w.entries ∧ ObjFrame w.heap (w.change k f).heap e.series.items b := by
  unfold World.change
  cases he : w.entries[k]? with
  | none => exact Or.inl ⟨rfl, rfl⟩
  | some e => exact Or.inr ⟨e, rfl, rfl, hf _⟩

theorem popIndexLoop_is_frame (name : String) : ∀ (l : List HItem) (h : Heap), ObjFrame h (popIndexLoop name h l) l false := by
  intro l
  induction l with
  | nil => intro h; exact frame_refl _ _ _
  | cons x r ih =>
    intro h
    obtain ⟨h1, h2, h3, h4⟩ := ih (h.storeIdx x.iA (fun i => i.erase name))
    unfold popIndexLoop
    refine ⟨by rw [h1]; rfl, by rw [h2]; simp [Heap.storeIdx], ?_, ?_⟩
    · intro a _
      rw [h3 a (by simp)]; rfl
    · intro a ha
      rw [h4 a (fun hb y hy => ha hb y (by simp [hy]))]
      have hne := ha rfl x (by simp)
      simp [Heap.storeIdx, hne]

/-- the change is to the data indexes, otherwise to the data -/
def WorldCall.toIndexes : WorldCall → Bool
  | .setIdx _ _ _ => true
  | .removeIndex _ _ => true
  | _ => false

/-- what a call that changes a series does to the heap -/
theorem change_frame (c : WorldCall) (cal : Calendar) (w : World) (k : ℕ) (hc : c.changed = some k) :
    (w.entries[k]? = none ∧ w.step cal c = w) ∨ ∃ e, w.entries[k]? = some e ∧ (w.step cal c).entries = w.entries ∧
      ObjFrame w.heap (w.step cal c).heap e.series.items (!c.toIndexes) := by
  cases c with
  | create l => cases hc
  | map k g => cases hc
  | derivative k a => cases hc
  | mavg k n => cases hc
  | filter k l => cases hc
  | slice k a b => cases hc
  | detect k lg d c pre ranges => cases hc
  | compute ks f => cases hc
  | duplicate k => cases hc
  | append k j i => cases hc
  | insert k j i pos => cases hc
  | appendNew k x => cases hc
  | pop k i => cases hc
  | removeIndex k' name =>
    cases hc
    refine change_is_frame (f := fun h s => (s.removeIndex name h).1) ?_
    intro s
    unfold HSeries.removeIndex
    split_ifs
    · exact popIndexLoop_is_frame _ _ _
    · exact frame_refl _ _ _
  | rename k' old new =>
    cases hc
    refine change_is_frame (f := fun h s => (s.rename old new h).1) ?_
    intro s
    unfold HSeries.rename
    split_ifs
    · exact dataLoop_is_frame _ _ _
    · exact frame_refl _ _ _
  | removeLabel k' label =>
    cases hc
    refine change_is_frame (f := fun h s => (s.removeLabel label h).1) ?_
    intro s
    unfold HSeries.removeLabel
    split_ifs
    · exact dataLoop_is_frame _ _ _
    · exact frame_refl _ _ _
  | setData k' i f =>
    cases hc
    refine change_is_frame (f := fun h s => match s.items[i]? with | none => h | some x => h.store x.dA f) ?_
    intro s
    cases hx : s.items[i]? with
    | none => exact frame_refl _ _ _
    | some x =>
      refine ⟨by simp [Heap.store], rfl, ?_, fun _ _ => rfl⟩
      intro a ha
      have hne := ha rfl x (List.mem_of_getElem? hx)
      simp [Heap.store, hne]
  | setIdx k' i f =>
    cases hc
    refine change_is_frame (f := fun h s => match s.items[i]? with | none => h | some x => h.storeIdx x.iA f) ?_
    intro s
    cases hx : s.items[i]? with
    | none => exact frame_refl _ _ _
    | some x =>
      refine ⟨rfl, by simp [Heap.storeIdx], fun _ _ => rfl, ?_⟩
      intro a ha
      have hne := ha rfl x (List.mem_of_getElem? hx)
      simp [Heap.storeIdx, hne]

/-- a call that changes no objects -/
theorem quiet_step {cal : Calendar} {w : World} (hw : WorldOk w) {c : WorldCall} (hc : c.changed = none) : Quiet w (w.step cal c) c.reshaped := by
  cases c with
  | create l =>
    unfold World.step
    dsimp only
    cases hf : finishH (.ok (newItems w.heap l)) with
    | error e => exact quiet_refl hw _
    | ok q => exact fresh_ok hw hf
  | compute ks f =>
    unfold World.step
    dsimp only
    cases f (ks.filterMap (fun k => (w.entries[k]?).map (fun e => e.series.view w.heap))) with
    | error e => exact quiet_refl hw _
    | ok s =>
      dsimp only
      cases hf : finishH (.ok (newItems w.heap s.items)) with
      | error e => exact quiet_refl hw _
      | ok q => exact fresh_ok hw hf
  | map k g => exact produce_ok hw (fun h s h' r hs ho => map_effect hs ho)
  | derivative k a => exact produce_ok hw (fun h s h' r hs ho => derivative_effect hs ho)
  | mavg k n => exact produce_ok hw (fun h s h' r hs ho => mavg_effect hs ho)
  | filter k l => exact produce_ok hw (fun h s h' r hs ho => filter_effect hs ho)
  | slice k a b => exact produce_ok hw (fun h s h' r hs ho => slice_effect hs ho)
  | detect k lg d c pre ranges => exact produce_ok hw (fun h s h' r hs ho => detect_effect hs ho)
  | duplicate k => exact produce_ok hw (fun h s h' r hs ho => duplicate_effect hs ho)
  | rename k old new => cases hc
  | removeLabel k label => cases hc
  | setData k i f => cases hc
  | setIdx k i f => cases hc
  | removeIndex k name => cases hc
  | append k j i =>
    unfold World.step
    dsimp only [WorldCall.reshaped]
    cases he : w.entries[k]? with
    | none => exact quiet_refl hw _
    | some e =>
      cases he' : w.entries[j]? with
      | none => exact quiet_refl hw _
      | some e' =>
        dsimp only
        cases hx : e'.series.items[i]? with
        | none => exact quiet_refl hw _
        | some x =>
          dsimp only
          have hs := hAppend_shape (h := w.heap) (s := e.series) (x := x)
          rcases hq : e.series.append w.heap x with ⟨s', (er | u)⟩
          · rw [hq] at hs
            dsimp only at hs ⊢
            rcases hs with ⟨_, _, h1, h2⟩ | ⟨h1, _⟩
            · refine quiet_set hw he (Heap.Kept.refl _) ?_ ?_
              · intro a ha
                refine Or.inl ?_
                unfold Entry.OwnsD at ha ⊢
                rwa [h1, h2] at ha
              · intro a ha
                refine Or.inl ?_
                unfold Entry.OwnsI at ha ⊢
                rwa [h1] at ha
            · cases h1
          · rw [hq] at hs
            dsimp only at hs ⊢
            rcases hs with ⟨_, h1, _⟩ | ⟨_, h1, h2⟩
            · cases h1
            · have hxm := List.mem_of_getElem? hx
              refine quiet_join hw he (List.mem_of_getElem? he') ?_ ?_
              · rintro a (⟨y, hy, rfl⟩ | hr)
                · rw [h1, List.mem_append, List.mem_singleton] at hy
                  rcases hy with hy | rfl
                  · exact Or.inl (Or.inl ⟨y, hy, rfl⟩)
                  · exact Or.inr (Or.inl ⟨y, hxm, rfl⟩)
                · dsimp only at hr
                  rcases h2 with h2 | h2
                  · exact Or.inl (Or.inr (h2 ▸ hr))
                  · rw [h2] at hr
                    exact Or.inr (Or.inl ⟨x, hxm, by simpa using hr⟩)
              · rintro a ⟨y, hy, rfl⟩
                dsimp only at hy
                rw [h1, List.mem_append, List.mem_singleton] at hy
                rcases hy with hy | rfl
                · exact Or.inl ⟨y, hy, rfl⟩
                · exact Or.inr ⟨y, hxm, rfl⟩
  | insert k j i pos =>
    unfold World.step
    dsimp only [WorldCall.reshaped]
    cases he : w.entries[k]? with
    | none => exact quiet_refl hw _
    | some e =>
      cases he' : w.entries[j]? with
      | none => exact quiet_refl hw _
      | some e' =>
        dsimp only
        cases hx : e'.series.items[i]? with
        | none => exact quiet_refl hw _
        | some x =>
          dsimp only
          have hs := hInsert_shape (h := w.heap) (s := e.series) (pos := pos) (x := x)
          rcases hq : e.series.insert w.heap pos x with ⟨s', (er | u)⟩
          · rw [hq] at hs
            dsimp only at hs ⊢
            rcases hs with ⟨_, _, h1, h2⟩ | ⟨h1, _⟩
            · refine quiet_set hw he (Heap.Kept.refl _) ?_ ?_
              · intro a ha
                refine Or.inl ?_
                unfold Entry.OwnsD at ha ⊢
                rwa [h1, h2] at ha
              · intro a ha
                refine Or.inl ?_
                unfold Entry.OwnsI at ha ⊢
                rwa [h1] at ha
            · cases h1
          · rw [hq] at hs
            dsimp only at hs ⊢
            rcases hs with ⟨_, h1, _⟩ | ⟨_, h1, h2⟩
            · cases h1
            · have hxm := List.mem_of_getElem? hx
              refine quiet_join hw he (List.mem_of_getElem? he') ?_ ?_
              · rintro a (⟨y, hy, rfl⟩ | hr)
                · rw [h1] at hy
                  rcases hy with hy | rfl
                  · exact Or.inl (Or.inl ⟨y, hy, rfl⟩)
                  · exact Or.inr (Or.inl ⟨y, hxm, rfl⟩)
                · dsimp only at hr
                  rcases h2 with h2 | h2
                  · exact Or.inl (Or.inr (h2 ▸ hr))
                  · rw [h2] at hr
                    exact Or.inr (Or.inl ⟨x, hxm, by simpa using hr⟩)
              · rintro a ⟨y, hy, rfl⟩
                dsimp only at hy
                rw [h1] at hy
                rcases hy with hy | rfl
                · exact Or.inl ⟨y, hy, rfl⟩
                · exact Or.inr ⟨y, hxm, rfl⟩
  | appendNew k x =>
    unfold World.step
    dsimp only [WorldCall.reshaped]
    cases he : w.entries[k]? with
    | none => exact quiet_refl hw _
    | some e =>
      dsimp only
      have kp : w.heap.Kept ((w.heap.alloc (x.data.getD (.num 0))).allocIdx x.idx) := (Heap.Kept.alloc _ _).trans (Heap.Kept.allocIdx _ _)
      have ld : ((w.heap.alloc (x.data.getD (.num 0))).allocIdx x.idx).data.length = w.heap.data.length + 1 := by simp [Heap.alloc, Heap.allocIdx]
      have li : ((w.heap.alloc (x.data.getD (.num 0))).allocIdx x.idx).idx.length = w.heap.idx.length + 1 := by simp [Heap.alloc, Heap.allocIdx]
      generalize (w.heap.alloc (x.data.getD (.num 0))).allocIdx x.idx = h' at kp ld li ⊢
      have hs := hAppend_shape (h := h') (s := e.series) (x := { t := x.t, slot := x.slot, tz := x.tz, dA := w.heap.data.length, iA := w.heap.idx.length })
      refine quiet_set hw he kp ?_ ?_
      · rintro a (⟨y, hy, rfl⟩ | hr)
        · dsimp only at hy
          rcases hs with ⟨_, _, h1, h2⟩ | ⟨_, h1, h2⟩
          · rw [h1] at hy; exact Or.inl (Or.inl ⟨y, hy, rfl⟩)
          · rw [h1, List.mem_append, List.mem_singleton] at hy
            rcases hy with hy | rfl
            · exact Or.inl (Or.inl ⟨y, hy, rfl⟩)
            · exact Or.inr ⟨le_refl _, by dsimp only; omega⟩
        · dsimp only at hr
          rcases hs with ⟨_, _, h1, h2⟩ | ⟨_, h1, h2 | h2⟩
          · exact Or.inl (Or.inr (h2 ▸ hr))
          · exact Or.inl (Or.inr (h2 ▸ hr))
          · rw [h2] at hr
            have : w.heap.data.length = a := by simpa using hr
            exact Or.inr ⟨by omega, by omega⟩
      · rintro a ⟨y, hy, rfl⟩
        dsimp only at hy
        rcases hs with ⟨_, _, h1, h2⟩ | ⟨_, h1, h2⟩
        · rw [h1] at hy; exact Or.inl ⟨y, hy, rfl⟩
        · rw [h1, List.mem_append, List.mem_singleton] at hy
          rcases hy with hy | rfl
          · exact Or.inl ⟨y, hy, rfl⟩
          · exact Or.inr ⟨le_refl _, by dsimp only; omega⟩
  | pop k i =>
    unfold World.step
    dsimp only [WorldCall.reshaped]
    cases he : w.entries[k]? with
    | none => exact quiet_refl hw _
    | some e =>
      obtain ⟨h1, h2, _⟩ := pop_shape e.series i
      refine quiet_set hw he (Heap.Kept.refl _) ?_ ?_
      · rintro a (⟨y, hy, rfl⟩ | hr)
        · exact Or.inl (Or.inl ⟨y, h1 y hy, rfl⟩)
        · exact Or.inl (Or.inr (h2 ▸ hr))
      · rintro a ⟨y, hy, rfl⟩
        exact Or.inl ⟨y, h1 y hy, rfl⟩

theorem step_ok {cal : Calendar} {w : World} (hw : WorldOk w) (c : WorldCall) : WorldOk (w.step cal c) := by
  cases hc : c.changed with
  | none => exact (quiet_step hw hc).ok
  | some k =>
    rcases change_frame c cal w k hc with ⟨_, h⟩ | ⟨e, _, h1, h2⟩
    · rw [h]; exact hw
    · refine ⟨?_, ?_, ?_, ?_, ?_⟩
      · rw [h1, h2.dlen]; exact hw.validD
      · rw [h1, h2.ilen]; exact hw.validI
      · rw [h1]; exact hw.marks
      · rw [h1]; exact hw.sepD
      · rw [h1]; exact hw.sepI

theorem run_ok {cal : Calendar} (cs : List WorldCall) : ∀ {w : World}, WorldOk w → WorldOk (w.run cal cs) := by
  induction cs with
  | nil => intro w h; exact h
  | cons c cs ih => intro w h; exact ih (step_ok h c)

theorem run_snoc (cal : Calendar) (w : World) (cs : List WorldCall) (c : WorldCall) : w.run cal (cs ++ [c]) = (w.run cal cs).step cal c := by
  unfold World.run
  rw [List.foldl_append]; rfl

theorem run_append (cal : Calendar) (w : World) (cs ds : List WorldCall) : w.run cal (cs ++ ds) = (w.run cal cs).run cal ds := by
  unfold World.run
  rw [List.foldl_append]

theorem step_len {cal : Calendar} {w : World} (hw : WorldOk w) (c : WorldCall) : w.entries.length ≤ (w.step cal c).entries.length := by
  cases hc : c.changed with
  | none => exact (quiet_step hw hc).len
  | some k =>
    rcases change_frame c cal w k hc with ⟨_, h⟩ | ⟨e, _, h1, _⟩
    · rw [h]
    · rw [h1]

/-! ## C332 -/

theorem read_kept {cal : Calendar} {w : World} (hw : WorldOk w) {c : WorldCall} (hc : c.changed = none) (k : ℕ) (hk : k < w.entries.length) (hr : c.reshaped ≠ some k) :
    (w.step cal c).read k = w.read k := by
  have q := quiet_step (cal := cal) hw hc
  have hs := q.same k hk hr
  unfold SameAt at hs
  unfold World.read
  have he : w.entries[k]? = some w.entries[k] := List.getElem?_eq_getElem hk
  rw [he] at hs ⊢
  cases he' : (w.step cal c).entries[k]? with
  | none => rw [he'] at hs; cases hs
  | some e' =>
    rw [he'] at hs
    simp only [Option.map_some, Option.some.injEq] at hs ⊢
    rw [hs, q.kept.view (hw.series (List.mem_of_getElem? he))]

/-- **C332** whatever the history of the program so far, calls which give new series, any number of them and of any kind, whether they succeed or raise, leave all the series there
were as they were; so do calls which add items to other series, its own items included, or remove items from them -/
theorem C332_history (cal : Calendar) (cs ds : List WorldCall) (k : ℕ) (hd : ∀ c ∈ ds, c.changed = none ∧ c.reshaped ≠ some k) (hk : k < (World.run cal {} cs).entries.length) :
    (World.run cal {} (cs ++ ds)).read k = (World.run cal {} cs).read k := by
  have hw := run_ok (cal := cal) cs worldOk_empty
  unfold World.run at hw hk ⊢
  rw [List.foldl_append]
  generalize cs.foldl (World.step cal) {} = w at hw hk ⊢
  induction ds generalizing w with
  | nil => rfl
  | cons c ds ih =>
    rw [List.foldl_cons]
    have hc := hd c (by simp)
    have q := quiet_step (cal := cal) hw hc.1
    rw [ih (fun c hm => hd c (by simp [hm])) _ q.ok (lt_of_lt_of_le hk q.len), read_kept hw hc.1 k hk hc.2]

/-! ## C333 -/

theorem view_frame {h h' : Heap} {s : HSeries} (hd : ∀ x ∈ s.items, h'.data[x.dA]? = h.data[x.dA]?) (hi : ∀ x ∈ s.items, h'.idx[x.iA]? = h.idx[x.iA]?)
    (hr : ∀ a, s.refA = some a → h'.data[a]? = h.data[a]?) : s.view h' = s.view h := by
  unfold HSeries.view
  have h1 : h'.reads s.items = h.reads s.items := by
    refine List.map_congr_left ?_
    intro x hx
    unfold Heap.read
    rw [hd x hx, hi x hx]
  have h2 : s.refA.bind (fun a => h'.data[a]?) = s.refA.bind (fun a => h.data[a]?) := by
    cases ha : s.refA with
    | none => rfl
    | some a => exact hr a ha
  rw [h1, h2]

theorem change_apart {cal : Calendar} {w : World} (hw : WorldOk w) {c : WorldCall} {i j : ℕ} {e e' : Entry} (hc : c.changed = some i) (he : w.entries[i]? = some e)
    (he' : w.entries[j]? = some e') (hne : if c.toIndexes then e.idxFrom ≠ e'.idxFrom else e.dataFrom ≠ e'.dataFrom) : (w.step cal c).read j = w.read j := by
  rcases change_frame c cal w i hc with ⟨h, _⟩ | ⟨e0, h0, h1, h2⟩
  · rw [h] at he; cases he
  · rw [he] at h0
    cases h0
    unfold World.read
    rw [h1, he']
    simp only [Option.map_some]
    congr 1
    have hm := List.mem_of_getElem? he
    have hm' := List.mem_of_getElem? he'
    have dd : ∀ a, e'.OwnsD a → (w.step cal c).heap.data[a]? = w.heap.data[a]? := by
      intro a ha
      refine h2.data _ ?_
      intro hb x hx hxa
      have : c.toIndexes = false := by simpa using hb
      rw [this] at hne
      exact hw.sepD e hm e' hm' hne a (Or.inl ⟨x, hx, hxa⟩) ha
    refine view_frame (fun y hy => dd _ (Or.inl ⟨y, hy, rfl⟩)) ?_ (fun a ha => dd a (Or.inr ha))
    intro y hy
    refine h2.idx _ ?_
    intro hb x hx hxa
    have : c.toIndexes = true := by simpa using hb
    rw [this] at hne
    exact hw.sepI e hm e' hm' hne y.iA ⟨x, hx, hxa⟩ ⟨y, hy, rfl⟩

/-- **C333** after any history, a call which changes labels or values of the series `i` leaves as it was every series `j` whose data objects come from another series, and a call which
changes its data indexes every series whose data indexes objects do.  (The marks `dataFrom` and `idxFrom` are handed on by slices and detections, `idxFrom` also by rescale, offset, normalize, derivative and filter; appending or inserting an item of a series into another makes one family of their two; any other call makes new marks.) -/
theorem C333_families (cal : Calendar) (cs : List WorldCall) (c : WorldCall) (i j : ℕ) (e e' : Entry) (hc : c.changed = some i)
    (he : (World.run cal {} cs).entries[i]? = some e) (he' : (World.run cal {} cs).entries[j]? = some e')
    (hne : if c.toIndexes then e.idxFrom ≠ e'.idxFrom else e.dataFrom ≠ e'.dataFrom) :
    (World.run cal {} (cs ++ [c])).read j = (World.run cal {} cs).read j := by
  rw [run_snoc]
  exact change_apart (run_ok (cal := cal) cs worldOk_empty) hc he he' hne

/-- calls whose result has data objects of its own -/
def WorldCall.OwnData : WorldCall → Prop
  | .slice _ _ _ => False
  | .detect _ _ _ _ _ _ => False
  | .append _ _ _ => False
  | .insert _ _ _ _ => False
  | _ => True

/-- calls whose result has data indexes objects of its own -/
def WorldCall.OwnIndexes : WorldCall → Prop
  | .create _ => True
  | .mavg _ _ => True
  | .compute _ _ => True
  | .duplicate _ => True
  | .appendNew _ _ => True
  | .pop _ _ => True
  | c => c.changed.isSome

theorem own_marks {cal : Calendar} (b : Bool) (cs : List WorldCall) (hcs : ∀ c ∈ cs, if b then c.OwnIndexes else c.OwnData) :
    ∀ (w : World), (∀ (k : ℕ) (e : Entry), w.entries[k]? = some e → (if b then e.idxFrom else e.dataFrom) = k) →
      ∀ (k : ℕ) (e : Entry), (w.run cal cs).entries[k]? = some e → (if b then e.idxFrom else e.dataFrom) = k := by
  induction cs with
  | nil => intro w h; exact h
  | cons c cs ih =>
    intro w h
    refine ih (fun c hm => hcs c (by simp [hm])) _ ?_
    have hc := hcs c (by simp)
    have add : ∀ (h' : Heap) (en : Entry), (if b then en.idxFrom else en.dataFrom) = w.entries.length → ∀ (k : ℕ) (e : Entry),
        ({ heap := h', entries := w.entries ++ [en] } : World).entries[k]? = some e → (if b then e.idxFrom else e.dataFrom) = k := by
      intro h' en hen k e he
      by_cases hk : k < w.entries.length
      · rw [List.getElem?_append_left hk] at he
        exact h k e he
      · rw [List.getElem?_append_right (by omega)] at he
        have hk2 : k - w.entries.length = 0 := by
          by_contra hn
          rw [List.getElem?_eq_none (by simp; omega)] at he
          cases he
        rw [hk2] at he
        simp only [List.getElem?_cons_zero, Option.some.injEq] at he
        subst he
        rw [hen]; omega
    have setk : ∀ (h' : Heap) (k0 : ℕ) (e0 : Entry) (s' : HSeries), w.entries[k0]? = some e0 → ∀ (k : ℕ) (e : Entry),
        ({ heap := h', entries := w.entries.set k0 { e0 with series := s' } } : World).entries[k]? = some e → (if b then e.idxFrom else e.dataFrom) = k := by
      intro h' k0 e0 s' he0 k e he
      dsimp only at he
      by_cases hk : k0 = k
      · subst hk
        rw [List.getElem?_set_self (List.getElem?_eq_some_iff.1 he0).1] at he
        cases he
        exact h k0 e0 he0
      · rw [List.getElem?_set_ne hk] at he
        exact h k e he
    have prod : ∀ (p : ℕ) (nd ni : Bool) (op : Heap → HSeries → Except PyErr (Heap × HSeries)), (if b then ni else nd) = true → ∀ (k : ℕ) (e : Entry),
        (w.produce p nd ni op).entries[k]? = some e → (if b then e.idxFrom else e.dataFrom) = k := by
      intro p nd ni op hb
      unfold World.produce
      cases w.entries[p]? with
      | none => exact h
      | some e0 =>
        dsimp only
        cases op w.heap e0.series with
        | error er => exact h
        | ok q =>
          obtain ⟨h', r⟩ := q
          refine add _ _ ?_
          cases b <;> simp_all
    have chg : ∀ k0, c.changed = some k0 → ∀ (k : ℕ) (e : Entry), (w.step cal c).entries[k]? = some e → (if b then e.idxFrom else e.dataFrom) = k := by
      intro k0 hk0
      rcases change_frame c cal w k0 hk0 with ⟨_, hs⟩ | ⟨e0, _, h1, _⟩
      · rw [hs]; exact h
      · rw [h1]; exact h
    have fresh : ∀ l : List Item, ∀ (k : ℕ) (e : Entry), (match finishH (.ok (newItems w.heap l)) with
        | .error _ => w
        | .ok (h', r) => { heap := h', entries := w.entries ++ [{ series := r, dataFrom := w.entries.length, idxFrom := w.entries.length }] } : World).entries[k]? = some e →
        (if b then e.idxFrom else e.dataFrom) = k := by
      intro l
      cases finishH (.ok (newItems w.heap l)) with
      | error er => exact h
      | ok q =>
        obtain ⟨h', r⟩ := q
        refine add _ _ ?_
        cases b <;> rfl
    cases c with
    | create l => exact fresh l
    | compute ks f =>
      unfold World.step
      dsimp only
      cases f (ks.filterMap (fun k => (w.entries[k]?).map (fun e => e.series.view w.heap))) with
      | error er => exact h
      | ok s => exact fresh s.items
    | map k g => cases b with
      | true => simp [WorldCall.OwnIndexes, WorldCall.changed] at hc
      | false => exact prod _ _ _ _ rfl
    | derivative k a => cases b with
      | true => simp [WorldCall.OwnIndexes, WorldCall.changed] at hc
      | false => exact prod _ _ _ _ rfl
    | filter k l => cases b with
      | true => simp [WorldCall.OwnIndexes, WorldCall.changed] at hc
      | false => exact prod _ _ _ _ rfl
    | mavg k n => cases b <;> exact prod _ _ _ _ rfl
    | duplicate k => cases b <;> exact prod _ _ _ _ rfl
    | slice k x y => cases b <;> simp [WorldCall.OwnIndexes, WorldCall.OwnData, WorldCall.changed] at hc
    | detect k lg d c pre ranges => cases b <;> simp [WorldCall.OwnIndexes, WorldCall.OwnData, WorldCall.changed] at hc
    | insert k x y pos => cases b <;> simp [WorldCall.OwnIndexes, WorldCall.OwnData, WorldCall.changed] at hc
    | append k x y => cases b <;> simp [WorldCall.OwnIndexes, WorldCall.OwnData, WorldCall.changed] at hc
    | rename k old new => exact chg k rfl
    | removeLabel k label => exact chg k rfl
    | setData k i f => exact chg k rfl
    | setIdx k i f => exact chg k rfl
    | removeIndex k name => exact chg k rfl
    | appendNew k x =>
      unfold World.step
      dsimp only
      cases he : w.entries[k]? with
      | none => exact h
      | some e => exact setk _ _ _ _ he
    | pop k i =>
      unfold World.step
      dsimp only
      cases he : w.entries[k]? with
      | none => exact h
      | some e => exact setk _ _ _ _ he

/-- **C333** (no slices) in a history without slices, detections and items appended or inserted into a second series, changing labels or values of a series changes no other series; in one where series are made only by
creating them, duplicating them and by calls with new results such as moving averages and merges, changing the data indexes of a series changes no other series -/
theorem C333_independent (cal : Calendar) (cs : List WorldCall) (c : WorldCall) (i j : ℕ) (hc : c.changed = some i) (hij : i ≠ j)
    (hcs : ∀ x ∈ cs, if c.toIndexes then x.OwnIndexes else x.OwnData) :
    (World.run cal {} (cs ++ [c])).read j = (World.run cal {} cs).read j := by
  have hm := own_marks (cal := cal) c.toIndexes cs hcs {} (by intro k e h; cases h)
  cases he : (World.run cal {} cs).entries[i]? with
  | none =>
    rw [run_snoc]
    rcases change_frame c cal (World.run cal {} cs) i hc with ⟨_, h⟩ | ⟨e, h, _⟩
    · rw [h]
    · rw [he] at h; cases h
  | some e =>
    cases he' : (World.run cal {} cs).entries[j]? with
    | none =>
      unfold World.read
      rw [run_snoc]
      rcases change_frame c cal (World.run cal {} cs) i hc with ⟨_, h⟩ | ⟨_, _, h, _⟩
      · rw [h]
      · rw [h, he']; rfl
    | some e' =>
      refine C333_families cal cs c i j e e' hc he he' ?_
      have h1 := hm i e he
      have h2 := hm j e' he'
      cases hb : c.toIndexes with
      | true => rw [hb] at h1 h2; simp only [if_true] at h1 h2 ⊢; rw [h1, h2]; exact hij
      | false => rw [hb] at h1 h2; simp only [Bool.false_eq_true, if_false] at h1 h2 ⊢; rw [h1, h2]; exact hij

/-! ## Examples -/

/-- two hourly points -/
def twoHourly : List Item := [mkPoint 0 (.dict [("v", 1)]) "UTC" [], mkPoint 3600 (.dict [("v", 2)]) "UTC" []]

/-- the values and the data losses of a series -/
def World.valuesOf (w : World) (k : ℕ) : Option (List (Option Data × Idx)) := (w.read k).map (fun s => s.items.map (fun x => (x.data, x.idx)))

/-- a series, twice its values, and its first point -/
def worldCalls : List WorldCall := [.create twoHourly, .map 0 (fun _ v => .ok (2 * v)), .slice 0 0 1]

/-- **C333** the marks are needed: a value changed in the series is changed in its slice and not in the rescaled series, a data index in both -/
theorem C333_example :
    (World.run physicalCalendar {} (worldCalls ++ [.setData 0 0 (putLabel "v" 9)])).valuesOf 1 = some [(some (.dict [("v", 2)]), []), (some (.dict [("v", 4)]), [])] ∧
    (World.run physicalCalendar {} (worldCalls ++ [.setData 0 0 (putLabel "v" 9)])).valuesOf 2 = some [(some (.dict [("v", 9)]), [])] ∧
    (World.run physicalCalendar {} (worldCalls ++ [.setIdx 0 0 (fun d => d.set "data_loss" (some 1))])).valuesOf 1 =
      some [(some (.dict [("v", 2)]), [("data_loss", some 1)]), (some (.dict [("v", 4)]), [])] := by
  refine ⟨?_, ?_, ?_⟩ <;> decide +kernel

end Timeseria
