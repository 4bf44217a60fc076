import Verif.Props.World
import Verif.Props.Labels
import Verif.Lemmas.SeriesInv

/-! # C354: the items that share an object are at the same time

In any history of calls on several series, two items that share their data or their data indexes are at the same time.  So a change to an item is seen only in items at its
time, and, in a series of points where nothing was inserted, in no other item. -/

namespace Timeseria

/-! ## The order of the items -/

/-- points are in order of time, and points and slots are not mixed -/
def HOrd (l : List HItem) : Prop :=
  (∀ x ∈ l, ∀ y ∈ l, x.slot.isSome = y.slot.isSome) ∧ ((∀ x ∈ l, x.slot.isSome = false) → l.Pairwise (fun x y => x.t < y.t))

theorem hord_iff (h : Heap) (l : List HItem) : OrderInv (h.reads l) ↔ HOrd l := by
  unfold OrderInv KindInv AllPoints StrictlyOrdered HOrd Heap.reads
  rw [List.pairwise_map]
  simp only [List.forall_mem_map]
  exact Iff.rfl

theorem finishH_ord {p : Except PyErr (Heap × List HItem)} {h' : Heap} {r : HSeries} (h : finishH p = .ok (h', r)) : HOrd r.items := by
  unfold finishH at h
  split at h
  · cases h
  · split at h
    · cases h
    · rename_i h1 l _ s hs
      simp only [Except.ok.injEq, Prod.mk.injEq] at h
      obtain ⟨rfl, rfl⟩ := h
      rw [← hord_iff h1]
      have := appendAll_inv order_append TSeries.empty (h1.reads l) orderInv_nil
      rw [← build_items hs]
      unfold TSeries.build at hs
      split at hs
      · rename_i s' _ heq
        cases hs
        rw [heq] at this
        exact this
      · cases hs

theorem append_ord {h : Heap} {s : HSeries} {x : HItem} (ho : HOrd s.items) : HOrd (s.append h x).1.items := by
  have h0 : OrderInv (s.view h).items := (hord_iff h _).2 ho
  have h1 := order_append (s.view h) (h.read x) h0
  unfold HSeries.append
  rcases hq : (s.view h).append (h.read x) with ⟨s', (e | u)⟩
  · exact ho
  · rw [hq] at h1
    dsimp only
    rw [← hord_iff h]
    have h2 := append_items (s.view h) (h.read x)
    rw [hq] at h2
    rcases h2 with ⟨e, h3, _⟩ | ⟨_, h3, _⟩
    · cases h3
    · dsimp only at h1 h3
      rw [h3] at h1
      have : h.reads (s.items ++ [x]) = (s.view h).items ++ [h.read x] := by simp [Heap.reads, HSeries.view]
      rw [this]
      exact h1

theorem HOrd.sublist {l l' : List HItem} (h : HOrd l) (hs : l'.Sublist l) : HOrd l' := by
  rw [← hord_iff {}] at h ⊢
  exact h.sublist (hs.map _)

theorem pop_sub (s : HSeries) (i : Option Int) : (s.pop i).items.Sublist s.items := by
  obtain ⟨attrs, items, refA⟩ := s
  have he : ∀ k, (items.eraseIdx k).Sublist items := fun k => List.eraseIdx_sublist _ _
  cases items with
  | nil => exact List.Sublist.refl _
  | cons y r =>
    unfold HSeries.pop
    dsimp only
    cases i with
    | none =>
      dsimp only
      cases pyPos (y :: r).length (-1) with
      | none => exact List.Sublist.refl _
      | some k => exact he k
    | some i =>
      dsimp only
      split
      · exact List.Sublist.refl _
      · cases pyPos (y :: r).length i with
        | none => exact List.Sublist.refl _
        | some k => exact he k

/-! ## The times of the results of the operations -/

/-- items of a series sharing an object are at the same time -/
def SelfTimed (s : HSeries) : Prop := ∀ x ∈ s.items, ∀ y ∈ s.items, (x.dA = y.dA → x.t = y.t) ∧ (x.iA = y.iA → x.t = y.t)

/-- the times of the result `r` of an operation on `s`: an object of the result is of an item of `s` at the same time, or new and of items at one time -/
structure TimeEffect (h : Heap) (s r : HSeries) : Prop where
  data : ∀ y ∈ r.items, (∃ x ∈ s.items, x.dA = y.dA ∧ x.t = y.t) ∨ h.data.length ≤ y.dA
  idx : ∀ y ∈ r.items, (∃ x ∈ s.items, x.iA = y.iA ∧ x.t = y.t) ∨ h.idx.length ≤ y.iA
  freshD : ∀ y ∈ r.items, ∀ z ∈ r.items, h.data.length ≤ y.dA → y.dA = z.dA → y.t = z.t
  freshI : ∀ y ∈ r.items, ∀ z ∈ r.items, h.idx.length ≤ y.iA → y.iA = z.iA → y.t = z.t
  ord : HOrd r.items

theorem nodup_same {l : List HItem} {f : HItem → ℕ} (hn : (l.map f).Nodup) {y z : HItem} (hy : y ∈ l) (hz : z ∈ l) (he : f y = f z) : y.t = z.t := by
  rw [List.inj_on_of_nodup_map hn hy hz he]

theorem heapLoop_times {cal : Calendar} {proto : Data} {ks : List String} {ren : String → String} {keep : Bool} {f : Heap → ℕ → HItem → String → Except PyErr ℚ} {skip : ℕ → Bool}
    (l : List HItem) {h h' : Heap} {i : ℕ} {ys : List HItem} (hf : heapLoop cal proto ks ren keep f skip h i l = .ok (h', ys)) :
    (∀ y ∈ ys, ∃ x ∈ l, x.t = y.t ∧ (keep = true → x.iA = y.iA)) ∧ (keep = false → (ys.map HItem.iA).Nodup) := by
  induction l generalizing h i ys with
  | nil =>
    simp only [heapLoop, Except.ok.injEq, Prod.mk.injEq] at hf
    obtain ⟨rfl, rfl⟩ := hf
    exact ⟨by simp, by simp⟩
  | cons x r ih =>
    unfold heapLoop at hf
    split at hf
    · obtain ⟨h1, h2⟩ := ih hf
      refine ⟨fun y hy => ?_, h2⟩
      obtain ⟨z, hz, hzy⟩ := h1 y hy
      exact ⟨z, by simp [hz], hzy⟩
    · cases hfl : fillLoop h.data.length ren (fun h k => f h i x k) (h.alloc (emptyLike proto)) ks with
      | error e => simp [hfl] at hf
      | ok h1 =>
        rw [hfl] at hf
        simp only at hf
        have hia : ∀ a j, (remakeH cal x a j).iA = j := by
          intro a j; unfold remakeH; cases x.slot <;> rfl
        have hta : ∀ a j, (remakeH cal x a j).t = x.t := by
          intro a j; unfold remakeH; cases x.slot <;> rfl
        cases hrest : heapLoop cal proto ks ren keep f skip (if keep then h1 else h1.allocIdx []) (i + 1) r with
        | error e => simp [hrest] at hf
        | ok p =>
          obtain ⟨h3, zs⟩ := p
          rw [hrest] at hf
          simp only [Except.ok.injEq, Prod.mk.injEq] at hf
          obtain ⟨rfl, rfl⟩ := hf
          obtain ⟨q1, q2⟩ := ih hrest
          refine ⟨?_, ?_⟩
          · intro y hy
            rcases List.mem_cons.1 hy with rfl | hm
            · exact ⟨x, by simp, (hta _ _).symm, fun hk => by rw [hia, if_pos hk]⟩
            · obtain ⟨z, hz, hzy⟩ := q1 y hm
              exact ⟨z, by simp [hz], hzy⟩
          · intro hk
            rw [List.map_cons, List.nodup_cons]
            refine ⟨?_, q2 hk⟩
            intro hm
            obtain ⟨z, hz, hzy⟩ := List.mem_map.1 hm
            have := ((heapLoop_idx _ hrest).2 hk z hz).1
            rw [hia] at hzy
            subst hk
            simp [Heap.allocIdx] at this hzy
            omega

theorem loop_times {cal : Calendar} {proto : Data} {ks : List String} {ren : String → String} {keep : Bool} {f : Heap → ℕ → HItem → String → Except PyErr ℚ} {skip : ℕ → Bool}
    {h h' : Heap} {s r : HSeries} (hv : s.Valid h) (hf : finishH (heapLoop cal proto ks ren keep f skip h 0 s.items) = .ok (h', r)) : TimeEffect h s r := by
  obtain ⟨_, h2, h3⟩ := heapLoop_kept _ (finishH_inv hf)
  obtain ⟨h4, h5⟩ := heapLoop_times _ (finishH_inv hf)
  have h6 := (heapLoop_idx _ (finishH_inv hf)).2
  refine ⟨fun y hy => Or.inr (h2 y hy).1, ?_, fun y hy z hz _ he => nodup_same h3 hy hz he, ?_, finishH_ord hf⟩
  · intro y hy
    obtain ⟨x, hx, e1, e2⟩ := h4 y hy
    cases keep with
    | true => exact Or.inl ⟨x, hx, e2 rfl, e1⟩
    | false => exact Or.inr (h6 rfl y hy).1
  · intro y hy z hz hl he
    cases keep with
    | true =>
      obtain ⟨x, hx, _, e2⟩ := h4 y hy
      have := (hv.items x hx).2
      have := e2 rfl
      omega
    | false => exact nodup_same (h5 rfl) hy hz he

theorem map_times {cal : Calendar} {g : String → ℚ → Except PyErr ℚ} {h h' : Heap} {s r : HSeries} (hv : s.Valid h) (hop : s.mapOp cal g h = .ok (h', r)) : TimeEffect h s r := by
  unfold HSeries.mapOp at hop
  split at hop
  · cases hop
  · exact loop_times hv hop

theorem derivative_times {cal : Calendar} {auto : ℚ} {h h' : Heap} {s r : HSeries} (hv : s.Valid h) (hop : s.derivativeOp cal auto h = .ok (h', r)) : TimeEffect h s r := by
  unfold HSeries.derivativeOp at hop
  split at hop
  · cases hop
  · split_ifs at hop
    split at hop
    · cases hop
    · exact loop_times hv hop

theorem mavg_times {cal : Calendar} {n : Int} {h h' : Heap} {s r : HSeries} (hv : s.Valid h) (hop : s.mavgOp cal n h = .ok (h', r)) : TimeEffect h s r := by
  unfold HSeries.mavgOp at hop
  split at hop
  · cases hop
  · split_ifs at hop
    exact loop_times hv hop

theorem filterLoop_times {labels : List String} (l : List HItem) {h h' : Heap} {ys : List HItem} (hf : filterLoop labels h l = .ok (h', ys)) :
    (∀ y ∈ ys, ∃ x ∈ l, x.t = y.t ∧ x.iA = y.iA) ∧ (ys.map HItem.dA).Nodup := by
  induction l generalizing h ys with
  | nil =>
    simp only [filterLoop, Except.ok.injEq, Prod.mk.injEq] at hf
    obtain ⟨rfl, rfl⟩ := hf
    exact ⟨by simp, by simp⟩
  | cons x r ih =>
    unfold filterLoop at hf
    split at hf
    · cases hf
    · rename_i kvs _
      cases hrest : filterLoop labels (h.alloc (.dict (kvs.foldl (fun d p => Dict.set d p.1 p.2) []))) r with
      | error e => rw [hrest] at hf; cases hf
      | ok p =>
        obtain ⟨h3, zs⟩ := p
        rw [hrest] at hf
        simp only [Except.ok.injEq, Prod.mk.injEq] at hf
        obtain ⟨rfl, rfl⟩ := hf
        obtain ⟨q1, q2⟩ := ih hrest
        refine ⟨?_, ?_⟩
        · intro y hy
          rcases List.mem_cons.1 hy with rfl | hm
          · exact ⟨x, by simp, rfl, rfl⟩
          · obtain ⟨z, hz, hzy⟩ := q1 y hm
            exact ⟨z, by simp [hz], hzy⟩
        · rw [List.map_cons, List.nodup_cons]
          refine ⟨?_, q2⟩
          intro hm
          obtain ⟨z, hz, hzy⟩ := List.mem_map.1 hm
          have := (filterLoop_kept _ hrest).2 z hz
          simp [Heap.alloc] at this hzy
          omega

theorem filter_times {labels : List String} {h h' : Heap} {s r : HSeries} (hv : s.Valid h) (hop : s.filterOp labels h = .ok (h', r)) : TimeEffect h s r := by
  unfold HSeries.filterOp at hop
  split at hop
  · cases hop
  · split at hop
    · obtain ⟨h1, h2⟩ := filterLoop_times _ (finishH_inv hop)
      have h3 := (filterLoop_kept _ (finishH_inv hop)).2
      refine ⟨fun y hy => Or.inr (h3 y hy), ?_, fun y hy z hz _ he => nodup_same h2 hy hz he, ?_, finishH_ord hop⟩
      · intro y hy
        obtain ⟨x, hx, e1, e2⟩ := h1 y hy
        exact Or.inl ⟨x, hx, e2, e1⟩
      · intro y hy z hz hl he
        obtain ⟨x, hx, _, e2⟩ := h1 y hy
        have := (hv.items x hx).2
        omega
    · cases hop

theorem slice_times {a b : ℕ} {h h' : Heap} {s r : HSeries} (hv : s.Valid h) (hop : s.sliceOp a b h = .ok (h', r)) : TimeEffect h s r := by
  unfold HSeries.sliceOp at hop
  have hi := finishH_inv hop
  simp only [Except.ok.injEq, Prod.mk.injEq] at hi
  obtain ⟨rfl, hi⟩ := hi
  have hm : ∀ y ∈ r.items, y ∈ s.items := by
    intro y hy
    rw [← hi] at hy
    exact List.mem_of_mem_drop (List.mem_of_mem_take hy)
  refine ⟨fun y hy => Or.inl ⟨y, hm y hy, rfl, rfl⟩, fun y hy => Or.inl ⟨y, hm y hy, rfl, rfl⟩, ?_, ?_, finishH_ord hop⟩
  · intro y hy z hz hl
    have := (hv.items y (hm y hy)).1
    omega
  · intro y hy z hz hl
    have := (hv.items y (hm y hy)).2
    omega

theorem heapAnom_times {d : Detector} {thr : ℚ} {l : List Item} {sc : ℕ → Item → Except PyErr Item} :
    ∀ (xs : List HItem) (h h' : Heap) (i : ℕ) (ys : List HItem) (n m : ℕ), n ≤ h.data.length → m ≤ h.idx.length → (∀ x ∈ xs, x.dA < n ∧ x.iA < m) →
      heapAnomLoop d thr l sc h xs i = .ok (h', ys) →
      (∀ y ∈ ys, y ∈ xs ∨ (h.data.length ≤ y.dA ∧ h.idx.length ≤ y.iA)) ∧
      (∀ y ∈ ys, ∀ z ∈ ys, (n ≤ y.dA → y.dA = z.dA → y.t = z.t) ∧ (m ≤ y.iA → y.iA = z.iA → y.t = z.t)) := by
  intro xs
  induction xs with
  | nil => intro h h' i ys n m _ _ _ hr; cases hr; exact ⟨by simp, by simp⟩
  | cons x r ih =>
    intro h h' i ys n m hn hm hv hr
    unfold heapAnomLoop at hr
    have hvr : ∀ x ∈ r, x.dA < n ∧ x.iA < m := fun y hy => hv y (by simp [hy])
    cases hst : stepAt d thr l i with
    | error e => rw [hst] at hr; cases hr
    | ok st =>
      rw [hst] at hr
      cases st with
      | skip =>
        obtain ⟨h1, h2⟩ := ih _ _ _ _ n m hn hm hvr hr
        exact ⟨fun y hy => (h1 y hy).imp (fun h => by simp [h]) id, h2⟩
      | stop => cases hr; exact ⟨by simp, by simp⟩
      | pass =>
        dsimp only at hr
        cases hg : heapAnomLoop d thr l sc h r (i + 1) with
        | error e => rw [hg] at hr; cases hr
        | ok q =>
          rw [hg] at hr
          obtain ⟨h1, zs⟩ := q
          cases hr
          obtain ⟨q1, q2⟩ := ih _ _ _ _ n m hn hm hvr hg
          have hx := hv x (by simp)
          refine ⟨?_, ?_⟩
          · intro y hy
            rcases List.mem_cons.1 hy with rfl | hy
            · exact Or.inl (by simp)
            · exact (q1 y hy).imp (fun h => by simp [h]) id
          · intro y hy z hz
            rcases List.mem_cons.1 hy with rfl | hy
            · exact ⟨fun h => by omega, fun h => by omega⟩
            · rcases List.mem_cons.1 hz with rfl | hz
              · exact ⟨fun h e => by omega, fun h e => by omega⟩
              · exact q2 y hy z hz
      | score =>
        dsimp only at hr
        cases hsc : sc i (h.read x) with
        | error e => rw [hsc] at hr; cases hr
        | ok y0 =>
          rw [hsc] at hr
          dsimp only at hr
          cases hg : heapAnomLoop d thr l sc ((h.alloc (y0.data.getD (.num 0))).allocIdx y0.idx) r (i + 1) with
          | error e => rw [hg] at hr; cases hr
          | ok q =>
            rw [hg] at hr
            obtain ⟨h1, zs⟩ := q
            cases hr
            have hd : ((h.alloc (y0.data.getD (.num 0))).allocIdx y0.idx).data.length = h.data.length + 1 := by simp [Heap.alloc, Heap.allocIdx]
            have hi : ((h.alloc (y0.data.getD (.num 0))).allocIdx y0.idx).idx.length = h.idx.length + 1 := by simp [Heap.alloc, Heap.allocIdx]
            obtain ⟨q1, q2⟩ := ih _ _ _ _ n m (by omega) (by omega) hvr hg
            rw [hd, hi] at q1
            have hsep : ∀ z ∈ zs, z.dA ≠ h.data.length ∧ z.iA ≠ h.idx.length := by
              intro z hz
              rcases q1 z hz with h2 | h2
              · have := hvr z h2; omega
              · omega
            refine ⟨?_, ?_⟩
            · intro y hy
              rcases List.mem_cons.1 hy with rfl | hy
              · exact Or.inr ⟨le_refl _, le_refl _⟩
              · rcases q1 y hy with h2 | h2
                · exact Or.inl (by simp [h2])
                · exact Or.inr (by omega)
            · intro y hy z hz
              rcases List.mem_cons.1 hy with rfl | hy
              · rcases List.mem_cons.1 hz with rfl | hz
                · exact ⟨fun _ _ => rfl, fun _ _ => rfl⟩
                · exact ⟨fun _ e => absurd e.symm (hsep z hz).1, fun _ e => absurd e.symm (hsep z hz).2⟩
              · rcases List.mem_cons.1 hz with rfl | hz
                · exact ⟨fun _ e => absurd e (hsep y hy).1, fun _ e => absurd e (hsep y hy).2⟩
                · exact q2 y hy z hz

theorem detect_times {lg : ℚ → ℚ} {d : Detector} {c : AnomCfg} {pre : Option Predictions} {ranges : List (String × IndexRange)} {h h' : Heap} {s r : HSeries}
    (hv : s.Valid h) (hop : s.detect lg d c pre ranges h = .ok (h', r)) : TimeEffect h s r := by
  obtain ⟨h1, h2⟩ := heapAnom_times _ _ _ _ _ _ _ (le_refl _) (le_refl _) hv.items (finishH_inv hop)
  refine ⟨?_, ?_, fun y hy z hz => (h2 y hy z hz).1, fun y hy z hz => (h2 y hy z hz).2, finishH_ord hop⟩
  · intro y hy
    rcases h1 y hy with h | h
    · exact Or.inl ⟨y, h, rfl, rfl⟩
    · exact Or.inr h.1
  · intro y hy
    rcases h1 y hy with h | h
    · exact Or.inl ⟨y, h, rfl, rfl⟩
    · exact Or.inr h.2

theorem newItems_nodup : ∀ (l : List Item) (h : Heap), ((newItems h l).2.map HItem.dA).Nodup ∧ ((newItems h l).2.map HItem.iA).Nodup := by
  intro l
  induction l with
  | nil => intro h; exact ⟨by simp [newItems], by simp [newItems]⟩
  | cons x r ih =>
    intro h
    obtain ⟨h1, h2⟩ := ih ((h.alloc (x.data.getD (.num 0))).allocIdx x.idx)
    have hf := (newItems_fresh r ((h.alloc (x.data.getD (.num 0))).allocIdx x.idx)).2
    have hd : ((h.alloc (x.data.getD (.num 0))).allocIdx x.idx).data.length = h.data.length + 1 := by simp [Heap.alloc, Heap.allocIdx]
    have hi : ((h.alloc (x.data.getD (.num 0))).allocIdx x.idx).idx.length = h.idx.length + 1 := by simp [Heap.alloc, Heap.allocIdx]
    rw [hd, hi] at hf
    unfold newItems
    dsimp only
    rw [List.map_cons, List.map_cons, List.nodup_cons, List.nodup_cons]
    refine ⟨⟨?_, h1⟩, ?_, h2⟩
    · intro hm
      obtain ⟨z, hz, hzy⟩ := List.mem_map.1 hm
      have := (hf z hz).1
      dsimp only at hzy
      omega
    · intro hm
      obtain ⟨z, hz, hzy⟩ := List.mem_map.1 hm
      have := (hf z hz).2.1
      dsimp only at hzy
      omega

theorem appendAll_ord {h : Heap} : ∀ (l : List HItem) {s r : HSeries}, HOrd s.items → HSeries.appendAll h s l = .ok r → HOrd r.items := by
  intro l
  induction l with
  | nil => intro s r ho hr; cases hr; exact ho
  | cons x l ih =>
    intro s r ho hr
    unfold HSeries.appendAll at hr
    have h1 := append_ord (h := h) (x := x) ho
    rcases hq : s.append h x with ⟨s', (er | u)⟩
    · rw [hq] at hr; cases hr
    · rw [hq] at hr h1
      exact ih h1 hr

theorem duplicate_times {h h' : Heap} {s r : HSeries} (hs : SelfTimed s) (hop : s.duplicate h = .ok (h', r)) : TimeEffect h s r := by
  unfold HSeries.duplicate at hop
  dsimp only at hop
  split at hop
  · cases hop
  · rename_i r' hr
    simp only [Except.ok.injEq, Prod.mk.injEq] at hop
    obtain ⟨rfl, rfl⟩ := hop
    obtain ⟨h1, h2⟩ := appendAll_shape _ hr
    simp only [List.nil_append] at h1
    have hsh : ∀ y ∈ r'.items, ∃ x ∈ s.items, y = shiftItem h.data.length h.idx.length x := by
      intro y hy
      rw [h1] at hy
      obtain ⟨x, hx, rfl⟩ := List.mem_map.1 hy
      exact ⟨x, hx, rfl⟩
    refine ⟨?_, ?_, ?_, ?_, appendAll_ord _ (by simp [HOrd]) hr⟩
    · intro y hy
      obtain ⟨x, hx, rfl⟩ := hsh y hy
      exact Or.inr (by simp [shiftItem])
    · intro y hy
      obtain ⟨x, hx, rfl⟩ := hsh y hy
      exact Or.inr (by simp [shiftItem])
    · intro y hy z hz _ he
      obtain ⟨x, hx, rfl⟩ := hsh y hy
      obtain ⟨x', hx', rfl⟩ := hsh z hz
      exact (hs x hx x' hx').1 (by simpa [shiftItem] using he)
    · intro y hy z hz _ he
      obtain ⟨x, hx, rfl⟩ := hsh y hy
      obtain ⟨x', hx', rfl⟩ := hsh z hz
      exact (hs x hx x' hx').2 (by simpa [shiftItem] using he)

/-! ## The invariant -/

/-- items sharing an object are at the same time; and, where `P` holds, points are in order -/
structure TimedOk (P : Prop) (w : World) : Prop where
  data : ∀ e ∈ w.entries, ∀ e' ∈ w.entries, ∀ x ∈ e.series.items, ∀ y ∈ e'.series.items, x.dA = y.dA → x.t = y.t
  idx : ∀ e ∈ w.entries, ∀ e' ∈ w.entries, ∀ x ∈ e.series.items, ∀ y ∈ e'.series.items, x.iA = y.iA → x.t = y.t
  ord : P → ∀ e ∈ w.entries, HOrd e.series.items

theorem timed_add {P : Prop} {w : World} (hw : WorldOk w) (ht : TimedOk P w) {h' : Heap} {en : Entry}
    (hd : ∀ y ∈ en.series.items, (∃ e ∈ w.entries, ∃ x ∈ e.series.items, x.dA = y.dA ∧ x.t = y.t) ∨ w.heap.data.length ≤ y.dA)
    (hi : ∀ y ∈ en.series.items, (∃ e ∈ w.entries, ∃ x ∈ e.series.items, x.iA = y.iA ∧ x.t = y.t) ∨ w.heap.idx.length ≤ y.iA)
    (fd : ∀ y ∈ en.series.items, ∀ z ∈ en.series.items, w.heap.data.length ≤ y.dA → y.dA = z.dA → y.t = z.t)
    (fi : ∀ y ∈ en.series.items, ∀ z ∈ en.series.items, w.heap.idx.length ≤ y.iA → y.iA = z.iA → y.t = z.t)
    (ho : P → HOrd en.series.items) {es : List Entry} (hes : ∀ e ∈ es, (∃ e0 ∈ w.entries, e.series = e0.series) ∨ e.series = en.series) :
    TimedOk P { heap := h', entries := es } := by
  have lD : ∀ e ∈ w.entries, ∀ x ∈ e.series.items, x.dA < w.heap.data.length := fun e he x hx => hw.validD e he _ (Or.inl ⟨x, hx, rfl⟩)
  have lI : ∀ e ∈ w.entries, ∀ x ∈ e.series.items, x.iA < w.heap.idx.length := fun e he x hx => hw.validI e he _ ⟨x, hx, rfl⟩
  have oD : ∀ e ∈ w.entries, ∀ x ∈ e.series.items, ∀ y ∈ en.series.items, x.dA = y.dA → x.t = y.t := by
    intro e he x hx y hy hxy
    rcases hd y hy with ⟨e1, h1, z, hz, hzy, hzt⟩ | h
    · rw [← hzt]; exact ht.data e he e1 h1 x hx z hz (hxy.trans hzy.symm)
    · have := lD e he x hx; omega
  have oI : ∀ e ∈ w.entries, ∀ x ∈ e.series.items, ∀ y ∈ en.series.items, x.iA = y.iA → x.t = y.t := by
    intro e he x hx y hy hxy
    rcases hi y hy with ⟨e1, h1, z, hz, hzy, hzt⟩ | h
    · rw [← hzt]; exact ht.idx e he e1 h1 x hx z hz (hxy.trans hzy.symm)
    · have := lI e he x hx; omega
  have nD : ∀ x ∈ en.series.items, ∀ y ∈ en.series.items, x.dA = y.dA → x.t = y.t := by
    intro x hx y hy hxy
    rcases hd x hx with ⟨e1, h1, z, hz, hzy, hzt⟩ | h
    · rw [← hzt]; exact oD e1 h1 z hz y hy (hzy.trans hxy)
    · exact fd x hx y hy h hxy
  have nI : ∀ x ∈ en.series.items, ∀ y ∈ en.series.items, x.iA = y.iA → x.t = y.t := by
    intro x hx y hy hxy
    rcases hi x hx with ⟨e1, h1, z, hz, hzy, hzt⟩ | h
    · rw [← hzt]; exact oI e1 h1 z hz y hy (hzy.trans hxy)
    · exact fi x hx y hy h hxy
  refine ⟨?_, ?_, ?_⟩
  · intro e he e' he' x hx y hy hxy
    rcases hes e he with ⟨e0, h0, q⟩ | q <;> rcases hes e' he' with ⟨e1, h1, q'⟩ | q' <;> rw [q] at hx <;> rw [q'] at hy
    · exact ht.data e0 h0 e1 h1 x hx y hy hxy
    · exact oD e0 h0 x hx y hy hxy
    · exact (oD e1 h1 y hy x hx hxy.symm).symm
    · exact nD x hx y hy hxy
  · intro e he e' he' x hx y hy hxy
    rcases hes e he with ⟨e0, h0, q⟩ | q <;> rcases hes e' he' with ⟨e1, h1, q'⟩ | q' <;> rw [q] at hx <;> rw [q'] at hy
    · exact ht.idx e0 h0 e1 h1 x hx y hy hxy
    · exact oI e0 h0 x hx y hy hxy
    · exact (oI e1 h1 y hy x hx hxy.symm).symm
    · exact nI x hx y hy hxy
  · intro hP e he
    rcases hes e he with ⟨e0, h0, q⟩ | q <;> rw [q]
    · exact ht.ord hP e0 h0
    · exact ho hP

theorem TimedOk.self {P : Prop} {w : World} (h : TimedOk P w) {e : Entry} (he : e ∈ w.entries) : SelfTimed e.series :=
  fun x hx y hy => ⟨h.data e he e he x hx y hy, h.idx e he e he x hx y hy⟩

theorem timed_produce {P : Prop} {w : World} (hw : WorldOk w) (ht : TimedOk P w) {k : ℕ} {nd ni : Bool} {op : Heap → HSeries → Except PyErr (Heap × HSeries)}
    (hop : ∀ h s h' r, s.Valid h → SelfTimed s → op h s = .ok (h', r) → TimeEffect h s r) : TimedOk P (w.produce k nd ni op) := by
  unfold World.produce
  cases he : w.entries[k]? with
  | none => exact ht
  | some e =>
    have hm := List.mem_of_getElem? he
    dsimp only
    cases ho : op w.heap e.series with
    | error er => exact ht
    | ok q =>
      obtain ⟨h', r⟩ := q
      have ef := hop _ _ _ _ (hw.series hm) (ht.self hm) ho
      refine timed_add hw ht (en := { series := r, dataFrom := 0, idxFrom := 0 }) ?_ ?_ ef.freshD ef.freshI (fun _ => ef.ord) ?_
      · intro y hy
        rcases ef.data y hy with ⟨x, hx, h1⟩ | h
        · exact Or.inl ⟨e, hm, x, hx, h1⟩
        · exact Or.inr h
      · intro y hy
        rcases ef.idx y hy with ⟨x, hx, h1⟩ | h
        · exact Or.inl ⟨e, hm, x, hx, h1⟩
        · exact Or.inr h
      · intro e1 h1
        rcases mem_add h1 with h | rfl
        · exact Or.inl ⟨e1, h, rfl⟩
        · exact Or.inr rfl

theorem timed_fresh {P : Prop} {w : World} (hw : WorldOk w) (ht : TimedOk P w) {l : List Item} {h' : Heap} {r : HSeries} (hf : finishH (.ok (newItems w.heap l)) = .ok (h', r)) {a b : ℕ} :
    TimedOk P { heap := h', entries := w.entries ++ [{ series := r, dataFrom := a, idxFrom := b }] } := by
  have hi := finishH_inv hf
  simp only [Except.ok.injEq] at hi
  obtain ⟨_, hy⟩ := newItems_fresh l w.heap
  obtain ⟨n1, n2⟩ := newItems_nodup l w.heap
  rw [hi] at hy n1 n2
  refine timed_add hw ht (en := { series := r, dataFrom := a, idxFrom := b }) (fun y h => Or.inr (hy y h).1) (fun y h => Or.inr (hy y h).2.1)
    (fun y h z h' _ he => nodup_same n1 h h' he) (fun y h z h' _ he => nodup_same n2 h h' he) (fun _ => finishH_ord hf) ?_
  intro e1 h1
  rcases mem_add h1 with h | rfl
  · exact Or.inl ⟨e1, h, rfl⟩
  · exact Or.inr rfl

/-- replacing the series at a position -/
theorem timed_set {P : Prop} {w : World} (hw : WorldOk w) (ht : TimedOk P w) {k : ℕ} {e : Entry} {h' : Heap} {s' : HSeries}
    (hd : ∀ y ∈ s'.items, (∃ e ∈ w.entries, y ∈ e.series.items) ∨ (w.heap.data.length = y.dA ∧ w.heap.idx.length = y.iA ∧ ∀ z ∈ s'.items, (w.heap.data.length = z.dA → y.t = z.t) ∧ (w.heap.idx.length = z.iA → y.t = z.t)))
    (ho : P → HOrd s'.items) {g : Entry → Entry} (hg : ∀ y, (g y).series = y.series) :
    TimedOk P { heap := h', entries := (w.entries.set k { e with series := s' }).map g } := by
  have lD : ∀ e ∈ w.entries, ∀ x ∈ e.series.items, x.dA < w.heap.data.length := fun e he x hx => hw.validD e he _ (Or.inl ⟨x, hx, rfl⟩)
  have lI : ∀ e ∈ w.entries, ∀ x ∈ e.series.items, x.iA < w.heap.idx.length := fun e he x hx => hw.validI e he _ ⟨x, hx, rfl⟩
  refine timed_add hw ht (en := { e with series := s' }) ?_ ?_ ?_ ?_ ho ?_
  · intro y hy
    rcases hd y hy with ⟨e0, h0, h1⟩ | h
    · exact Or.inl ⟨e0, h0, y, h1, rfl, rfl⟩
    · exact Or.inr h.1.le
  · intro y hy
    rcases hd y hy with ⟨e0, h0, h1⟩ | h
    · exact Or.inl ⟨e0, h0, y, h1, rfl, rfl⟩
    · exact Or.inr h.2.1.le
  · intro y hy z hz hl he
    rcases hd y hy with ⟨e0, h0, h1⟩ | h
    · have := lD e0 h0 y h1; omega
    · exact (h.2.2 z hz).1 (h.1.trans he)
  · intro y hy z hz hl he
    rcases hd y hy with ⟨e0, h0, h1⟩ | h
    · have := lI e0 h0 y h1; omega
    · exact (h.2.2 z hz).2 (h.2.1.trans he)
  · intro e1 h1
    obtain ⟨y, hy, rfl⟩ := List.mem_map.1 h1
    rcases mem_set hy with h | rfl
    · exact Or.inl ⟨y, h, hg y⟩
    · exact Or.inr (hg _)

/-- a call that puts an item at a position of its own -/
def WorldCall.inserts : WorldCall → Bool
  | .insert _ _ _ _ => true
  | _ => false

theorem timed_step {P : Prop} {cal : Calendar} {w : World} (hw : WorldOk w) (ht : TimedOk P w) (c : WorldCall) (hc : P → c.inserts = false) : TimedOk P (w.step cal c) := by
  have change : ∀ k, c.changed = some k → TimedOk P (w.step cal c) := by
    intro k hc
    rcases change_frame c cal w k hc with ⟨_, h⟩ | ⟨_, _, h1, _⟩
    · rw [h]; exact ht
    · exact ⟨by rw [h1]; exact ht.data, by rw [h1]; exact ht.idx, by rw [h1]; exact ht.ord⟩
  cases c with
  | rename k old new => exact change k rfl
  | removeLabel k label => exact change k rfl
  | setData k i f => exact change k rfl
  | setIdx k i f => exact change k rfl
  | removeIndex k name => exact change k rfl
  | create l =>
    unfold World.step
    dsimp only
    cases hf : finishH (.ok (newItems w.heap l)) with
    | error e => exact ht
    | ok q => exact timed_fresh hw ht hf
  | compute ks f =>
    unfold World.step
    dsimp only
    cases f (ks.filterMap (fun k => (w.entries[k]?).map (fun e => e.series.view w.heap))) with
    | error e => exact ht
    | ok s =>
      dsimp only
      cases hf : finishH (.ok (newItems w.heap s.items)) with
      | error e => exact ht
      | ok q => exact timed_fresh hw ht hf
  | map k g => exact timed_produce hw ht (fun h s h' r hs _ ho => map_times hs ho)
  | derivative k a => exact timed_produce hw ht (fun h s h' r hs _ ho => derivative_times hs ho)
  | mavg k n => exact timed_produce hw ht (fun h s h' r hs _ ho => mavg_times hs ho)
  | filter k l => exact timed_produce hw ht (fun h s h' r hs _ ho => filter_times hs ho)
  | slice k a b => exact timed_produce hw ht (fun h s h' r hs _ ho => slice_times hs ho)
  | detect k lg d c pre ranges => exact timed_produce hw ht (fun h s h' r hs _ ho => detect_times hs ho)
  | duplicate k => exact timed_produce hw ht (fun h s h' r _ hs ho => duplicate_times hs ho)
  | append k j i =>
    unfold World.step
    dsimp only
    cases he : w.entries[k]? with
    | none => exact ht
    | some e =>
      cases he' : w.entries[j]? with
      | none => exact ht
      | some e' =>
        dsimp only
        cases hx : e'.series.items[i]? with
        | none => exact ht
        | some x =>
          dsimp only
          have hm := List.mem_of_getElem? he
          have hm' := List.mem_of_getElem? he'
          have hxm := List.mem_of_getElem? hx
          have hs := hAppend_shape (h := w.heap) (s := e.series) (x := x)
          have hord := fun hP : P => append_ord (h := w.heap) (x := x) (ht.ord hP e hm)
          rcases hq : e.series.append w.heap x with ⟨s', (er | u)⟩
          · rw [hq] at hs hord
            dsimp only at hs hord ⊢
            rcases hs with ⟨_, _, h1, _⟩ | ⟨h1, _⟩
            · have := timed_set hw ht (k := k) (e := e) (h' := w.heap) (s' := s') (fun y hy => Or.inl ⟨e, hm, h1 ▸ hy⟩) hord (g := id) (fun _ => rfl)
              rwa [List.map_id] at this
            · cases h1
          · rw [hq] at hs hord
            dsimp only at hs hord ⊢
            rcases hs with ⟨_, h1, _⟩ | ⟨_, h1, _⟩
            · cases h1
            · refine timed_set hw ht (k := k) (e := e) (h' := w.heap) (s' := s') (fun y hy => Or.inl ?_) hord (g := Entry.join e e') (fun _ => rfl)
              rw [h1, List.mem_append, List.mem_singleton] at hy
              rcases hy with hy | rfl
              · exact ⟨e, hm, hy⟩
              · exact ⟨e', hm', hxm⟩
  | insert k j i pos =>
    have hP : ∀ {l : List HItem}, P → HOrd l := fun p => by cases hc p
    unfold World.step
    dsimp only
    cases he : w.entries[k]? with
    | none => exact ht
    | some e =>
      cases he' : w.entries[j]? with
      | none => exact ht
      | some e' =>
        dsimp only
        cases hx : e'.series.items[i]? with
        | none => exact ht
        | some x =>
          dsimp only
          have hm := List.mem_of_getElem? he
          have hm' := List.mem_of_getElem? he'
          have hxm := List.mem_of_getElem? hx
          have hs := hInsert_shape (h := w.heap) (s := e.series) (pos := pos) (x := x)
          rcases hq : e.series.insert w.heap pos x with ⟨s', (er | u)⟩
          · rw [hq] at hs
            dsimp only at hs ⊢
            rcases hs with ⟨_, _, h1, _⟩ | ⟨h1, _⟩
            · have := timed_set hw ht (k := k) (e := e) (h' := w.heap) (s' := s') (fun y hy => Or.inl ⟨e, hm, h1 ▸ hy⟩) hP (g := id) (fun _ => rfl)
              rwa [List.map_id] at this
            · cases h1
          · rw [hq] at hs
            dsimp only at hs ⊢
            rcases hs with ⟨_, h1, _⟩ | ⟨_, h1, _⟩
            · cases h1
            · refine timed_set hw ht (k := k) (e := e) (h' := w.heap) (s' := s') (fun y hy => Or.inl ?_) hP (g := Entry.join e e') (fun _ => rfl)
              rw [h1] at hy
              rcases hy with hy | rfl
              · exact ⟨e, hm, hy⟩
              · exact ⟨e', hm', hxm⟩
  | appendNew k x =>
    unfold World.step
    dsimp only
    cases he : w.entries[k]? with
    | none => exact ht
    | some e =>
      dsimp only
      have hm := List.mem_of_getElem? he
      generalize (w.heap.alloc (x.data.getD (.num 0))).allocIdx x.idx = h'
      have hs := hAppend_shape (h := h') (s := e.series) (x := { t := x.t, slot := x.slot, tz := x.tz, dA := w.heap.data.length, iA := w.heap.idx.length })
      have hord := fun hP : P => append_ord (h := h') (x := { t := x.t, slot := x.slot, tz := x.tz, dA := w.heap.data.length, iA := w.heap.idx.length }) (ht.ord hP e hm)
      have := timed_set hw ht (k := k) (e := e) (h' := h')
        (s' := (e.series.append h' { t := x.t, slot := x.slot, tz := x.tz, dA := w.heap.data.length, iA := w.heap.idx.length }).1) ?_ hord (g := id) (fun _ => rfl)
      · rwa [List.map_id] at this
      · intro y hy
        rcases hs with ⟨_, _, h1, _⟩ | ⟨_, h1, _⟩
        · rw [h1] at hy; exact Or.inl ⟨e, hm, hy⟩
        · rw [h1] at hy ⊢
          rw [List.mem_append, List.mem_singleton] at hy
          rcases hy with hy | rfl
          · exact Or.inl ⟨e, hm, hy⟩
          · refine Or.inr ⟨rfl, rfl, ?_⟩
            intro z hz
            rw [List.mem_append, List.mem_singleton] at hz
            rcases hz with hz | rfl
            · have h2 := hw.validD e hm _ (Or.inl ⟨z, hz, rfl⟩)
              have h3 := hw.validI e hm _ ⟨z, hz, rfl⟩
              exact ⟨fun h => by omega, fun h => by omega⟩
            · exact ⟨fun _ => rfl, fun _ => rfl⟩
  | pop k i =>
    unfold World.step
    dsimp only
    cases he : w.entries[k]? with
    | none => exact ht
    | some e =>
      have hm := List.mem_of_getElem? he
      have := timed_set hw ht (k := k) (e := e) (h' := w.heap) (s' := e.series.pop i) (fun y hy => Or.inl ⟨e, hm, (pop_sub _ _).subset hy⟩)
        (fun hP => (ht.ord hP e hm).sublist (pop_sub _ _)) (g := id) (fun _ => rfl)
      rwa [List.map_id] at this

theorem timed_run {P : Prop} {cal : Calendar} (cs : List WorldCall) (hcs : P → ∀ c ∈ cs, c.inserts = false) : ∀ {w : World}, WorldOk w → TimedOk P w → TimedOk P (w.run cal cs) := by
  induction cs with
  | nil => intro w _ h; exact h
  | cons c cs ih =>
    intro w hw h
    exact ih (fun p c hc => hcs p c (List.mem_cons_of_mem _ hc)) (step_ok hw c) (timed_step hw h c (fun p => hcs p c List.mem_cons_self))

theorem timed_empty {P : Prop} : TimedOk P {} := ⟨by simp, by simp, by simp⟩

/-! ## The claims -/

/-- a call changing the data, or the data indexes, of the item `i` of the series `k` -/
def WorldCall.onItem (k i : ℕ) : WorldCall → Prop
  | .setData k' i' _ => k' = k ∧ i' = i
  | .setIdx k' i' _ => k' = k ∧ i' = i
  | _ => False

/-- **C354** in any history, items that share their data or their data indexes, of one series or of two, are at the same time -/
theorem C354_shared (cal : Calendar) (cs : List WorldCall) (e e' : Entry) (he : e ∈ (World.run cal {} cs).entries) (he' : e' ∈ (World.run cal {} cs).entries)
    (x y : HItem) (hx : x ∈ e.series.items) (hy : y ∈ e'.series.items) (h : x.dA = y.dA ∨ x.iA = y.iA) : x.t = y.t := by
  have ht := timed_run (P := False) (cal := cal) cs False.elim worldOk_empty timed_empty
  rcases h with h | h
  · exact ht.data e he e' he' x hx y hy h
  · exact ht.idx e he e' he' x hx y hy h

theorem change_some {w : World} {k : ℕ} {f : Heap → HSeries → Heap} {e : Entry} (he : w.entries[k]? = some e) : w.change k f = { w with heap := f w.heap e.series } := by
  unfold World.change
  rw [he]

theorem step_setData (cal : Calendar) {w : World} {k i : ℕ} {f : Data → Data} {e : Entry} (he : w.entries[k]? = some e) :
    w.step cal (.setData k i f) = { w with heap := match e.series.items[i]? with | none => w.heap | some x => w.heap.store x.dA f } :=
  change_some (f := fun h s => match s.items[i]? with | none => h | some x => h.store x.dA f) he

theorem step_setIdx (cal : Calendar) {w : World} {k i : ℕ} {f : Idx → Idx} {e : Entry} (he : w.entries[k]? = some e) :
    w.step cal (.setIdx k i f) = { w with heap := match e.series.items[i]? with | none => w.heap | some x => w.heap.storeIdx x.iA f } :=
  change_some (f := fun h s => match s.items[i]? with | none => h | some x => h.storeIdx x.iA f) he

theorem step_rename (cal : Calendar) {w : World} {k : ℕ} {old new : String} {e : Entry} (he : w.entries[k]? = some e) :
    w.step cal (.rename k old new) = { w with heap := (e.series.rename old new w.heap).1 } :=
  change_some (f := fun h s => (s.rename old new h).1) he

theorem step_remove (cal : Calendar) {w : World} {k : ℕ} {label : String} {e : Entry} (he : w.entries[k]? = some e) :
    w.step cal (.removeLabel k label) = { w with heap := (e.series.removeLabel label w.heap).1 } :=
  change_some (f := fun h s => (s.removeLabel label h).1) he

/-- what the change of an item does to the objects -/
theorem onItem_heap {cal : Calendar} {w : World} {c : WorldCall} {k i : ℕ} (hc : c.onItem k i) {e : Entry} (he : w.entries[k]? = some e) {x : HItem} (hx : e.series.items[i]? = some x) :
    (w.step cal c).entries = w.entries ∧ (∀ a, a ≠ x.dA → (w.step cal c).heap.data[a]? = w.heap.data[a]?) ∧ (∀ a, a ≠ x.iA → (w.step cal c).heap.idx[a]? = w.heap.idx[a]?) ∧
    ((w.step cal c).heap.data = w.heap.data ∨ (w.step cal c).heap.idx = w.heap.idx) := by
  cases c with
  | setData k' i' f =>
    obtain ⟨rfl, rfl⟩ := hc
    rw [step_setData cal he, hx]
    refine ⟨rfl, ?_, fun _ _ => rfl, Or.inr rfl⟩
    intro a ha
    simp [Heap.store, Ne.symm ha]
  | setIdx k' i' f =>
    obtain ⟨rfl, rfl⟩ := hc
    rw [step_setIdx cal he, hx]
    refine ⟨rfl, fun _ _ => rfl, ?_, Or.inl rfl⟩
    intro a ha
    simp [Heap.storeIdx, Ne.symm ha]
  | create l => exact hc.elim
  | map k g => exact hc.elim
  | derivative k a => exact hc.elim
  | mavg k n => exact hc.elim
  | filter k l => exact hc.elim
  | slice k a b => exact hc.elim
  | detect k lg d c pre ranges => exact hc.elim
  | compute ks f => exact hc.elim
  | duplicate k => exact hc.elim
  | rename k old new => exact hc.elim
  | removeLabel k label => exact hc.elim
  | removeIndex k name => exact hc.elim
  | append k j i => exact hc.elim
  | insert k j i pos => exact hc.elim
  | appendNew k x => exact hc.elim
  | pop k i => exact hc.elim

/-- **C354** (other times): after any history, a change to the data or the data indexes of an item changes, in whichever series of the program, no item at another time -/
theorem C354_other_times (cal : Calendar) (cs : List WorldCall) (c : WorldCall) (k i : ℕ) (hc : c.onItem k i) (sk : TSeries) (x : Item)
    (hk : (World.run cal {} cs).read k = some sk) (hx : sk.items[i]? = some x) (j : ℕ) (s : TSeries) (hj : (World.run cal {} cs).read j = some s) :
    ∃ s', (World.run cal {} (cs ++ [c])).read j = some s' ∧ s'.items.length = s.items.length ∧
      ∀ (p : ℕ) (y : Item), s.items[p]? = some y → y.t ≠ x.t → s'.items[p]? = some y := by
  have ht := timed_run (P := False) (cal := cal) cs False.elim worldOk_empty timed_empty
  rw [run_snoc]
  generalize World.run cal {} cs = w at *
  unfold World.read at hk hj
  obtain ⟨e, he, rfl⟩ := Option.map_eq_some_iff.1 hk
  obtain ⟨e', he', rfl⟩ := Option.map_eq_some_iff.1 hj
  rw [view_items, Heap.reads, List.getElem?_map] at hx
  obtain ⟨x0, hx0, rfl⟩ := Option.map_eq_some_iff.1 hx
  obtain ⟨h1, h2, h3, _⟩ := onItem_heap (cal := cal) hc he hx0
  refine ⟨e'.series.view (w.step cal c).heap, ?_, ?_, ?_⟩
  · unfold World.read; rw [h1, he']; rfl
  · rw [view_items, view_items]; simp [Heap.reads]
  · intro p y hy hne
    rw [view_items, Heap.reads, List.getElem?_map] at hy ⊢
    obtain ⟨y0, hy0, rfl⟩ := Option.map_eq_some_iff.1 hy
    rw [hy0, Option.map_some]
    congr 1
    have n1 : y0.dA ≠ x0.dA := fun h => hne (ht.data e' (List.mem_of_getElem? he') e (List.mem_of_getElem? he) y0 (List.mem_of_getElem? hy0) x0 (List.mem_of_getElem? hx0) h)
    have n2 : y0.iA ≠ x0.iA := fun h => hne (ht.idx e' (List.mem_of_getElem? he') e (List.mem_of_getElem? he) y0 (List.mem_of_getElem? hy0) x0 (List.mem_of_getElem? hx0) h)
    unfold Heap.read
    rw [h2 _ n1, h3 _ n2]

theorem same_of_nodup {l : List HItem} {f : HItem → ℕ} (ht : (l.map HItem.t).Nodup) (hf : ∀ x ∈ l, ∀ y ∈ l, f x = f y → x.t = y.t) : (l.map f).Nodup := by
  unfold List.Nodup at ht ⊢
  rw [List.pairwise_map] at ht ⊢
  rw [List.pairwise_iff_forall_sublist] at ht ⊢
  intro x y hxy he
  exact ht hxy (hf x (hxy.subset (by simp)) y (hxy.subset (by simp)) he)

/-- the items at different times of a series of a history have all different objects -/
theorem points_distinct {cal : Calendar} {cs : List WorldCall} {k : ℕ} {e : Entry} (he : (World.run cal {} cs).entries[k]? = some e)
    (hp : (AllPoints (e.series.view (World.run cal {} cs).heap).items ∧ ∀ c ∈ cs, c.inserts = false) ∨ ((e.series.view (World.run cal {} cs).heap).items.map Item.t).Nodup) :
    e.series.Distinct ∧ (e.series.items.map HItem.iA).Nodup := by
  have ht := timed_run (P := ∀ c ∈ cs, c.inserts = false) (cal := cal) cs id worldOk_empty timed_empty
  have hm := List.mem_of_getElem? he
  have hs := ht.self hm
  have hn : (e.series.items.map HItem.t).Nodup := by
    rcases hp with ⟨hp, hi⟩ | hp
    · have ho := (ht.ord hi e hm).2 (fun x hx => hp ((World.run cal {} cs).heap.read x) (by rw [view_items]; exact List.mem_map.2 ⟨x, hx, rfl⟩))
      unfold List.Nodup
      rw [List.pairwise_map]
      exact ho.imp (fun h => ne_of_lt h)
    · rw [view_items, Heap.reads, List.map_map] at hp
      exact hp
  exact ⟨same_of_nodup hn (fun x hx y hy => (hs x hx y hy).1), same_of_nodup hn (fun x hx y hy => (hs x hx y hy).2)⟩

/-- **C354** (one item): after any history, changing the data of an item, of a series of points where nothing was inserted or of items at different times, changes the data of that item of the series and nothing else of its items -/
theorem C354_one_data (cal : Calendar) (cs : List WorldCall) (k i : ℕ) (f : Data → Data) (s : TSeries) (hk : (World.run cal {} cs).read k = some s) (hp : (AllPoints s.items ∧ ∀ c ∈ cs, c.inserts = false) ∨ (s.items.map Item.t).Nodup) :
    ∃ s', (World.run cal {} (cs ++ [.setData k i f])).read k = some s' ∧ s'.items = s.items.modify i (fun x => { x with data := x.data.map f }) := by
  unfold World.read at hk
  obtain ⟨e, he, rfl⟩ := Option.map_eq_some_iff.1 hk
  have hd := (points_distinct he hp).1
  rw [run_snoc]
  generalize World.run cal {} cs = w at *
  refine ⟨e.series.view (w.step cal (.setData k i f)).heap, ?_, ?_⟩
  · rw [step_setData cal he]; unfold World.read; rw [he]; rfl
  · rw [view_items, view_items]
    apply List.ext_getElem?
    intro j
    rw [List.getElem?_modify]
    unfold Heap.reads
    rw [List.getElem?_map, List.getElem?_map]
    cases hj : e.series.items[j]? with
    | none => rfl
    | some y =>
      simp only [Option.map_some]
      rw [step_setData cal he]
      dsimp only
      cases hi : e.series.items[i]? with
      | none =>
        have : i ≠ j := by rintro rfl; rw [hi] at hj; cases hj
        simp [this]
      | some x =>
        by_cases hij : i = j
        · subst hij
          rw [hi] at hj
          cases hj
          simp [Heap.read, Heap.store]
        · have hne : x.dA ≠ y.dA := by
            intro h
            unfold HSeries.Distinct at hd
            rw [List.nodup_iff_getElem?_ne_getElem?] at hd
            obtain ⟨hi', _⟩ := List.getElem?_eq_some_iff.1 hi
            obtain ⟨hj', _⟩ := List.getElem?_eq_some_iff.1 hj
            rcases lt_or_gt_of_ne hij with h1 | h1
            · exact hd i j h1 (by simpa using hj') (by rw [List.getElem?_map, List.getElem?_map, hi, hj]; simp [h])
            · exact hd j i h1 (by simpa using hi') (by rw [List.getElem?_map, List.getElem?_map, hi, hj]; simp [h])
          simp [hij, Heap.read, Heap.store, hne]

/-- **C354** (one item): the same for its data indexes -/
theorem C354_one_index (cal : Calendar) (cs : List WorldCall) (k i : ℕ) (f : Idx → Idx) (s : TSeries) (hk : (World.run cal {} cs).read k = some s) (hp : (AllPoints s.items ∧ ∀ c ∈ cs, c.inserts = false) ∨ (s.items.map Item.t).Nodup) :
    ∃ s', (World.run cal {} (cs ++ [.setIdx k i f])).read k = some s' ∧ s'.items = s.items.modify i (fun x => { x with idx := f x.idx }) := by
  have hok := run_ok (cal := cal) cs worldOk_empty
  unfold World.read at hk
  obtain ⟨e, he, rfl⟩ := Option.map_eq_some_iff.1 hk
  have hd := (points_distinct he hp).2
  rw [run_snoc]
  generalize World.run cal {} cs = w at *
  have hv := hok.series (List.mem_of_getElem? he)
  refine ⟨e.series.view (w.step cal (.setIdx k i f)).heap, ?_, ?_⟩
  · rw [step_setIdx cal he]; unfold World.read; rw [he]; rfl
  · rw [view_items, view_items]
    apply List.ext_getElem?
    intro j
    rw [List.getElem?_modify]
    unfold Heap.reads
    rw [List.getElem?_map, List.getElem?_map]
    cases hj : e.series.items[j]? with
    | none => rfl
    | some y =>
      simp only [Option.map_some]
      rw [step_setIdx cal he]
      dsimp only
      cases hi : e.series.items[i]? with
      | none =>
        have : i ≠ j := by rintro rfl; rw [hi] at hj; cases hj
        simp [this]
      | some x =>
        by_cases hij : i = j
        · subst hij
          rw [hi] at hj
          cases hj
          have := (hv.items _ (List.mem_of_getElem? hi)).2
          simp [Heap.read, Heap.storeIdx, this]
        · have hne : x.iA ≠ y.iA := by
            intro h
            rw [List.nodup_iff_getElem?_ne_getElem?] at hd
            obtain ⟨hi', _⟩ := List.getElem?_eq_some_iff.1 hi
            obtain ⟨hj', _⟩ := List.getElem?_eq_some_iff.1 hj
            rcases lt_or_gt_of_ne hij with h1 | h1
            · exact hd i j h1 (by simpa using hj') (by rw [List.getElem?_map, List.getElem?_map, hi, hj]; simp [h])
            · exact hd j i h1 (by simpa using hi') (by rw [List.getElem?_map, List.getElem?_map, hi, hj]; simp [h])
          simp [hij, Heap.read, Heap.storeIdx, hne]

/-- an item and the same with a label renamed -/
def LabelRenamed (old new : String) (x y : Item) : Prop :=
  SamePlace x y ∧ y.idx = x.idx ∧ ∀ k, y.value? k = if k = new then x.value? old else if k = old then none else x.value? k

/-- an item and the same without a label -/
def LabelRemoved (label : String) (x y : Item) : Prop :=
  SamePlace x y ∧ y.idx = x.idx ∧ ∀ k, y.value? k = if k = label then none else x.value? k

/-- **C354** (rename): after any history, in a series of points where nothing was inserted, or of items at different times, all with the label `old` and whose reference has labels, `rename_data_label(old, new)` gives to each item under `new` the value it had
under `old`, and changes nothing else of it -/
theorem C354_rename (cal : Calendar) (cs : List WorldCall) (k : ℕ) (old new : String) (s : TSeries) (hk : (World.run cal {} cs).read k = some s) (hp : (AllPoints s.items ∧ ∀ c ∈ cs, c.inserts = false) ∨ (s.items.map Item.t).Nodup)
    (hr : ∃ d, s.ref = some d ∧ d.truthy = true) (hl : ∀ x ∈ s.items, ∃ d : Dict ℚ, x.data = some (.dict d) ∧ old ∈ d.keys) :
    ∃ s', (World.run cal {} (cs ++ [.rename k old new])).read k = some s' ∧ List.Forall₂ (LabelRenamed old new) s.items s'.items := by
  unfold World.read at hk
  obtain ⟨e, he, rfl⟩ := Option.map_eq_some_iff.1 hk
  have hd := (points_distinct he hp).1
  rw [run_snoc]
  generalize World.run cal {} cs = w at *
  have hok : e.series.refOk w.heap = true := by
    obtain ⟨d, h1, h2⟩ := hr
    have h1' : e.series.refA.bind (fun a => w.heap.data[a]?) = some d := h1
    unfold HSeries.refOk
    rw [h1']
    simp [h2]
  have hlab : HasLabel w.heap e.series old := by
    intro x hx
    exact hl (w.heap.read x) (by rw [view_items]; exact List.mem_map.2 ⟨x, hx, rfl⟩)
  obtain ⟨_, h2, _, h4⟩ := rename_loop new hd hlab
  refine ⟨e.series.view (w.step cal (.rename k old new)).heap, ?_, ?_⟩
  · rw [step_rename cal he]; unfold World.read; rw [he]; rfl
  · rw [step_rename cal he]
    dsimp only
    rw [view_items, view_items]
    unfold Heap.reads
    rw [List.forall₂_map_left_iff, List.forall₂_map_right_iff]
    refine List.forall₂_same.2 (fun x hx => ?_)
    unfold HSeries.rename
    rw [if_pos hok]
    refine ⟨read_place x, ?_, ?_⟩
    · unfold Heap.read; rw [h2]
    · intro l
      obtain ⟨d, hdx, hkd⟩ := hlab x hx
      obtain ⟨v, hv⟩ := Dict.get?_isSome.2 hkd
      have h5 := h4 x.dA
      rw [if_pos (List.mem_map.2 ⟨x, hx, rfl⟩), hdx] at h5
      have e1 : (w.heap.read x).data = some (.dict d) := hdx
      have e2 : ((dataLoop (renameKey old new) w.heap e.series.items).1.read x).data = some (.dict ((d.erase old).set new v)) := by
        have : renamed old new (.dict d) = .dict ((d.erase old).set new v) := by simp [renamed, hv]
        rw [← this]; exact h5
      unfold Item.value?
      rw [e1, e2]
      exact get?_renamed hv l

/-- **C354** (remove): after any history, in a series with labels, of points where nothing was inserted or of items at different times, `remove_data_label(label)` removes the label from each item and changes nothing else of it -/
theorem C354_remove (cal : Calendar) (cs : List WorldCall) (k : ℕ) (label : String) (s : TSeries) (hk : (World.run cal {} cs).read k = some s) (hp : (AllPoints s.items ∧ ∀ c ∈ cs, c.inserts = false) ∨ (s.items.map Item.t).Nodup)
    (hr : ∃ d, s.ref = some d ∧ d.truthy = true) (hl : ∀ x ∈ s.items, ∃ d : Dict ℚ, x.data = some (.dict d)) :
    ∃ s', (World.run cal {} (cs ++ [.removeLabel k label])).read k = some s' ∧ List.Forall₂ (LabelRemoved label) s.items s'.items := by
  unfold World.read at hk
  obtain ⟨e, he, rfl⟩ := Option.map_eq_some_iff.1 hk
  have hd := (points_distinct he hp).1
  rw [run_snoc]
  generalize World.run cal {} cs = w at *
  have hok : e.series.refOk w.heap = true := by
    obtain ⟨d, h1, h2⟩ := hr
    have h1' : e.series.refA.bind (fun a => w.heap.data[a]?) = some d := h1
    unfold HSeries.refOk
    rw [h1']
    simp [h2]
  obtain ⟨_, h2⟩ := C71_remove (k0 := label) hd hok (fun x hx => hl (w.heap.read x) (by rw [view_items]; exact List.mem_map.2 ⟨x, hx, rfl⟩))
  refine ⟨e.series.view (w.step cal (.removeLabel k label)).heap, ?_, ?_⟩
  · rw [step_remove cal he]; unfold World.read; rw [he]; rfl
  · rw [step_remove cal he]
    dsimp only
    rw [view_items, view_items]
    unfold Heap.reads
    rw [List.forall₂_map_left_iff, List.forall₂_map_right_iff]
    exact List.forall₂_same.2 (fun x hx => h2 x hx)

/-- a series of three minutes with its slice, a detection-free history with a rename in the middle -/
def timesCalls : List WorldCall :=
  [.create [mkPoint 0 (.dict [("v", 1)]) "UTC" [], mkPoint 60 (.dict [("v", 2)]) "UTC" [], mkPoint 120 (.dict [("v", 4)]) "UTC" []], .slice 0 1 3, .map 0 (fun _ v => .ok (2 * v)),
    .rename 0 "v" "w", .pop 1 (some 1)]

/-- **C354** a history where two series share items: the change is seen at one time only, in the two series; a rename by the slice acts on the points of the slice, and so on those of the series -/
theorem C354_witness :
    (World.run physicalCalendar {} timesCalls).valuesOf 0 = some [(some (.dict [("w", 1)]), []), (some (.dict [("w", 2)]), []), (some (.dict [("w", 4)]), [])] ∧
    (World.run physicalCalendar {} timesCalls).valuesOf 1 = some [(some (.dict [("w", 2)]), [])] ∧
    (WorldCall.setData 1 0 (putLabel "w" 9)).onItem 1 0 ∧
    (World.run physicalCalendar {} (timesCalls ++ [.setData 1 0 (putLabel "w" 9)])).valuesOf 0 = some [(some (.dict [("w", 1)]), []), (some (.dict [("w", 9)]), []), (some (.dict [("w", 4)]), [])] ∧
    (World.run physicalCalendar {} (timesCalls ++ [.setData 1 0 (putLabel "w" 9)])).valuesOf 1 = some [(some (.dict [("w", 9)]), [])] ∧
    (World.run physicalCalendar {} (timesCalls ++ [.rename 0 "w" "u"])).valuesOf 0 = some [(some (.dict [("u", 1)]), []), (some (.dict [("u", 2)]), []), (some (.dict [("u", 4)]), [])] ∧
    ((World.run physicalCalendar {} timesCalls).read 0).map (fun s => (s.items.map Item.isSlot, s.ref)) = some ([false, false, false], some (.dict [("w", 1)])) := by
  refine ⟨?_, ?_, ⟨rfl, rfl⟩, ?_, ?_, ?_, ?_⟩ <;> decide +kernel

end Timeseria
