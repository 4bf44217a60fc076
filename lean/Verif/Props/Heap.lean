import Verif.Model.Heap
import Verif.Props.OpsMap
import Verif.Props.OpsDiff

/-! # C34, C71, C78: sharing of objects -/

namespace Timeseria

/-! ## Specification -/

/-- the objects of a heap are all still there, with the same contents -/
structure Heap.Kept (h h' : Heap) : Prop where
  data : ∀ a, a < h.data.length → h'.data[a]? = h.data[a]?
  idx : ∀ a, a < h.idx.length → h'.idx[a]? = h.idx[a]?

/-- the objects of a series exist -/
structure HSeries.Valid (h : Heap) (s : HSeries) : Prop where
  items : ∀ x ∈ s.items, x.dA < h.data.length ∧ x.iA < h.idx.length
  ref : ∀ a, s.refA = some a → a < h.data.length

/-- a later change to the data of some item of a series -/
abbrev DataChange := ℕ × (Data → Data)

/-- any sequence of changes to data objects -/
def Heap.changes (h : Heap) (ws : List DataChange) : Heap := ws.foldl (fun h w => h.store w.1 w.2) h

/-- the changes only concern data objects of the series `r` -/
def OnDataOf (r : HSeries) (ws : List DataChange) : Prop := ∀ w ∈ ws, ∃ x ∈ r.items, x.dA = w.1

/-! ## Frame lemmas -/

theorem Heap.Kept.refl (h : Heap) : h.Kept h := ⟨fun _ _ => rfl, fun _ _ => rfl⟩

theorem Heap.Kept.data_le {h h' : Heap} (k : h.Kept h') : h.data.length ≤ h'.data.length := by
  by_contra hc
  have h1 := k.data (h'.data.length) (by omega)
  rw [List.getElem?_eq_none (le_refl _), List.getElem?_eq_getElem (by omega)] at h1
  cases h1

theorem Heap.Kept.idx_le {h h' : Heap} (k : h.Kept h') : h.idx.length ≤ h'.idx.length := by
  by_contra hc
  have h1 := k.idx (h'.idx.length) (by omega)
  rw [List.getElem?_eq_none (le_refl _), List.getElem?_eq_getElem (by omega)] at h1
  cases h1

theorem Heap.Kept.trans {h h' h'' : Heap} (a : h.Kept h') (b : h'.Kept h'') : h.Kept h'' :=
  ⟨fun i hi => (b.data i (lt_of_lt_of_le hi a.data_le)).trans (a.data i hi),
   fun i hi => (b.idx i (lt_of_lt_of_le hi a.idx_le)).trans (a.idx i hi)⟩

theorem Heap.Kept.alloc (h : Heap) (d : Data) : h.Kept (h.alloc d) :=
  ⟨fun _ hi => List.getElem?_append_left hi, fun _ _ => rfl⟩

theorem Heap.Kept.allocIdx (h : Heap) (d : Idx) : h.Kept (h.allocIdx d) :=
  ⟨fun _ _ => rfl, fun _ hi => List.getElem?_append_left hi⟩

theorem Heap.Kept.store {h h' : Heap} (k : h.Kept h') {a : ℕ} (ha : h.data.length ≤ a)
    (f : Data → Data) : h.Kept (h'.store a f) :=
  ⟨fun i hi => by
    have : (h'.data.modify a f)[i]? = h'.data[i]? := by
      have hne : ¬ a = i := by omega
      rw [List.getElem?_modify]
      simp [hne]
    exact this.trans (k.data i hi), k.idx⟩

theorem Heap.Kept.read {h h' : Heap} (k : h.Kept h') {x : HItem} (hd : x.dA < h.data.length)
    (hi : x.iA < h.idx.length) : h'.read x = h.read x := by
  unfold Heap.read
  rw [k.data _ hd, k.idx _ hi]

theorem Heap.Kept.reads {h h' : Heap} (k : h.Kept h') {l : List HItem}
    (hl : ∀ x ∈ l, x.dA < h.data.length ∧ x.iA < h.idx.length) : h'.reads l = h.reads l :=
  List.map_congr_left (fun x hx => k.read (hl x hx).1 (hl x hx).2)

theorem Heap.Kept.view {h h' : Heap} (k : h.Kept h') {s : HSeries} (hs : s.Valid h) :
    s.view h' = s.view h := by
  unfold HSeries.view
  rw [k.reads hs.items]
  have : s.refA.bind (fun a => h'.data[a]?) = s.refA.bind (fun a => h.data[a]?) := by
    cases hr : s.refA with
    | none => rfl
    | some a => simp only [Option.bind_some]; exact k.data a (hs.ref a hr)
  rw [this]

/-- the label loop only touches the new object -/
theorem fillLoop_kept {a : ℕ} {ren : String → String} {g : Heap → String → Except PyErr ℚ}
    {h0 : Heap} (ha : h0.data.length ≤ a) (ks : List String) {h h' : Heap} (hk : h0.Kept h)
    (hf : fillLoop a ren g h ks = .ok h') :
    h0.Kept h' ∧ h'.data.length = h.data.length ∧ h'.idx = h.idx := by
  induction ks generalizing h with
  | nil =>
    simp only [fillLoop, Except.ok.injEq] at hf
    subst hf
    exact ⟨hk, rfl, rfl⟩
  | cons k r ih =>
    unfold fillLoop at hf
    cases hg : g h k with
    | error e => simp [hg] at hf
    | ok v =>
      rw [hg] at hf
      obtain ⟨h1, h2, h3⟩ := ih (hk.store ha _) hf
      exact ⟨h1, by rw [h2]; simp [Heap.store], by rw [h3]; rfl⟩

/-- the item loop keeps all the old objects and gives the new items new data objects -/
theorem heapLoop_kept {cal : Calendar} {proto : Data} {ks : List String} {ren : String → String}
    {keep : Bool} {f : Heap → ℕ → HItem → String → Except PyErr ℚ} {skip : ℕ → Bool}
    (l : List HItem) {h h' : Heap} {i : ℕ} {ys : List HItem}
    (hf : heapLoop cal proto ks ren keep f skip h i l = .ok (h', ys)) :
    h.Kept h' ∧ (∀ y ∈ ys, h.data.length ≤ y.dA ∧ y.dA < h'.data.length) ∧
      (ys.map HItem.dA).Nodup := by
  induction l generalizing h i ys with
  | nil =>
    simp only [heapLoop, Except.ok.injEq, Prod.mk.injEq] at hf
    obtain ⟨rfl, rfl⟩ := hf
    exact ⟨Heap.Kept.refl _, by simp, by simp⟩
  | cons x r ih =>
    unfold heapLoop at hf
    split at hf
    · exact ih hf
    · cases hfl : fillLoop h.data.length ren (fun h k => f h i x k) (h.alloc (emptyLike proto)) ks with
      | error e => simp [hfl] at hf
      | ok h1 =>
        rw [hfl] at hf
        simp only at hf
        obtain ⟨hk1, hl1, _⟩ := fillLoop_kept (le_refl _) ks (Heap.Kept.alloc h _) hfl
        have hl1' : h1.data.length = h.data.length + 1 := by rw [hl1]; simp [Heap.alloc]
        let h2 := if keep then h1 else h1.allocIdx []
        have hk2 : h1.Kept h2 := by
          simp only [h2]; split
          · exact Heap.Kept.refl _
          · exact Heap.Kept.allocIdx _ _
        have hl2 : h2.data.length = h1.data.length := by
          simp only [h2]; split <;> rfl
        cases hrest : heapLoop cal proto ks ren keep f skip (if keep then h1 else h1.allocIdx [])
            (i + 1) r with
        | error e => simp [hrest] at hf
        | ok p =>
          obtain ⟨h3, zs⟩ := p
          rw [hrest] at hf
          simp only [Except.ok.injEq, Prod.mk.injEq] at hf
          obtain ⟨rfl, rfl⟩ := hf
          obtain ⟨a1, a2, a3⟩ := ih hrest
          have hda : ∀ j, (remakeH cal x h.data.length j).dA = h.data.length := by
            intro j; unfold remakeH; cases x.slot <;> rfl
          have hle : h2.data.length ≤ h3.data.length := a1.data_le
          refine ⟨hk1.trans (hk2.trans a1), ?_, ?_⟩
          · intro y hy
            rcases List.mem_cons.1 hy with rfl | hm
            · rw [hda]; omega
            · have := a2 y hm
              have hl2' : (if keep then h1 else h1.allocIdx []).data.length = h1.data.length := hl2
              omega
          · rw [List.map_cons, List.nodup_cons, hda]
            refine ⟨?_, a3⟩
            intro hm
            obtain ⟨y, hy, hyd⟩ := List.mem_map.1 hm
            have := (a2 y hy).1
            have hl2' : (if keep then h1 else h1.allocIdx []).data.length = h1.data.length := hl2
            omega

theorem changes_kept {h h' : Heap} (k : h.Kept h') (ws : List DataChange)
    (hw : ∀ w ∈ ws, h.data.length ≤ w.1) : h.Kept (h'.changes ws) := by
  induction ws generalizing h' with
  | nil => exact k
  | cons w r ih =>
    exact ih (k.store (hw w (by simp)) w.2) (fun w hm => hw w (by simp [hm]))

/-- what is claimed of an operation from `s` to `r`, moving the heap from `h` to `h'`: the input series
reads the same after the operation, and after any later changes to the data of the result -/
structure InputKept (h h' : Heap) (s r : HSeries) : Prop where
  unchanged : s.view h' = s.view h
  independent : ∀ ws, OnDataOf r ws → s.view (h'.changes ws) = s.view h

theorem inputKept_of {h h' : Heap} {s r : HSeries} (hs : s.Valid h) (k : h.Kept h')
    (hr : ∀ y ∈ r.items, h.data.length ≤ y.dA) : InputKept h h' s r :=
  ⟨k.view hs, fun ws hw => (changes_kept k ws (fun w hm => by
    obtain ⟨x, hx, hxw⟩ := hw w hm
    rw [← hxw]
    exact hr x hx)).view hs⟩

theorem finishH_inv {p : Except PyErr (Heap × List HItem)} {h' : Heap} {r : HSeries}
    (h : finishH p = .ok (h', r)) : p = .ok (h', r.items) := by
  unfold finishH at h
  split at h
  · cases h
  · split at h
    · cases h
    · simp only [Except.ok.injEq, Prod.mk.injEq] at h
      obtain ⟨rfl, rfl⟩ := h
      rfl

theorem inputKept_loop {cal : Calendar} {proto : Data} {ks : List String} {ren : String → String}
    {keep : Bool} {f : Heap → ℕ → HItem → String → Except PyErr ℚ} {skip : ℕ → Bool} {h h' : Heap}
    {s r : HSeries} (hs : s.Valid h)
    (hf : finishH (heapLoop cal proto ks ren keep f skip h 0 s.items) = .ok (h', r)) :
    InputKept h h' s r := by
  obtain ⟨h1, h2, _⟩ := heapLoop_kept _ (finishH_inv hf)
  exact inputKept_of hs h1 (fun y hy => (h2 y hy).1)

/-! ## C34 -/

/-- **C34 (rescale, offset, normalize)**: whatever is computed from each value. -/
theorem C34_map {cal : Calendar} {g : String → ℚ → Except PyErr ℚ} {h h' : Heap} {s r : HSeries}
    (hs : s.Valid h) (hop : s.mapOp cal g h = .ok (h', r)) : InputKept h h' s r := by
  unfold HSeries.mapOp at hop
  cases hp : (s.view h).opPrep with
  | error e => simp [hp] at hop
  | ok p =>
    obtain ⟨proto, ks⟩ := p
    rw [hp] at hop
    exact inputKept_loop hs hop

/-- **C34 (derivative)** -/
theorem C34_derivative {cal : Calendar} {auto : ℚ} {h h' : Heap} {s r : HSeries}
    (hs : s.Valid h) (hop : s.derivativeOp cal auto h = .ok (h', r)) : InputKept h h' s r := by
  unfold HSeries.derivativeOp at hop
  cases hp : (s.view h).opPrep with
  | error e => simp [hp] at hop
  | ok p =>
    obtain ⟨proto, ks⟩ := p
    rw [hp] at hop
    simp only at hop
    split at hop
    · cases hop
    · cases hn : (s.view h).normInfo cal auto with
      | error e => simp [hn] at hop
      | ok ni =>
        rw [hn] at hop
        exact inputKept_loop hs hop

/-- **C34 (moving average)** -/
theorem C34_mavg {cal : Calendar} {w : Int} {h h' : Heap} {s r : HSeries}
    (hs : s.Valid h) (hop : s.mavgOp cal w h = .ok (h', r)) : InputKept h h' s r := by
  unfold HSeries.mavgOp at hop
  cases hp : (s.view h).opPrep with
  | error e => simp [hp] at hop
  | ok p =>
    obtain ⟨proto, ks⟩ := p
    rw [hp] at hop
    simp only at hop
    split at hop
    · cases hop
    · exact inputKept_loop hs hop

theorem filterLoop_kept {labels : List String} (l : List HItem) {h h' : Heap} {ys : List HItem}
    (hf : filterLoop labels h l = .ok (h', ys)) :
    h.Kept h' ∧ ∀ y ∈ ys, h.data.length ≤ y.dA := by
  induction l generalizing h ys with
  | nil =>
    simp only [filterLoop, Except.ok.injEq, Prod.mk.injEq] at hf
    obtain ⟨rfl, rfl⟩ := hf
    exact ⟨Heap.Kept.refl _, by simp⟩
  | cons x r ih =>
    unfold filterLoop at hf
    split at hf
    · cases hf
    · rename_i kvs _
      split at hf
      · cases hf
      · rename_i h1 zs hrest
        simp only [Except.ok.injEq, Prod.mk.injEq] at hf
        obtain ⟨rfl, rfl⟩ := hf
        obtain ⟨a1, a2⟩ := ih hrest
        refine ⟨(Heap.Kept.alloc h _).trans a1, ?_⟩
        intro y hy
        rcases List.mem_cons.1 hy with rfl | hm
        · exact le_refl _
        · have := a2 y hm
          simp only [Heap.alloc, List.length_append, List.length_singleton] at this
          omega

/-- **C34 (filter)** -/
theorem C34_filter {labels : List String} {h h' : Heap} {s r : HSeries}
    (hs : s.Valid h) (hop : s.filterOp labels h = .ok (h', r)) : InputKept h h' s r := by
  unfold HSeries.filterOp at hop
  cases hp : (s.view h).opPrep with
  | error e => simp [hp] at hop
  | ok p =>
    obtain ⟨proto, ks⟩ := p
    rw [hp] at hop
    cases proto with
    | dict d =>
      obtain ⟨h1, h2⟩ := filterLoop_kept _ (finishH_inv hop)
      exact inputKept_of hs h1 h2
    | list l => simp at hop
    | num x => simp at hop

/-- **C34 (slice)**: slicing leaves the input unchanged (but see C78). -/
theorem C34_slice {a b : ℕ} {h h' : Heap} {s r : HSeries}
    (hop : s.sliceOp a b h = .ok (h', r)) : s.view h' = s.view h := by
  have := finishH_inv hop
  simp only [Except.ok.injEq, Prod.mk.injEq] at this
  rw [this.1]

/-! ### The results read as the values computed in the rest of the model -/

/-- the data being filled, after storing some pairs -/
def filled (proto : Data) (kvs : List (String × ℚ)) : Data := makeData proto kvs

theorem putLabel_filled (proto : Data) (kvs : List (String × ℚ)) (k : String) (v : ℚ) :
    putLabel k v (filled proto kvs) = filled proto (kvs ++ [(k, v)]) := by
  unfold filled makeData
  cases proto with
  | dict d => simp [putLabel]
  | list l => simp [putLabel]
  | num x => simp [putLabel]

theorem emptyLike_filled (proto : Data) : emptyLike proto = filled proto [] := by
  cases proto <;> rfl

theorem fillLoop_reads {a : ℕ} {ren : String → String} {g : Heap → String → Except PyErr ℚ}
    {g' : String → Except PyErr ℚ} {h0 : Heap} (ha : h0.data.length ≤ a) (proto : Data)
    (hg : ∀ h k, h0.Kept h → g h k = g' k) (ks : List String) (acc : List (String × ℚ)) {h : Heap}
    (hk : h0.Kept h) (hacc : h.data[a]? = some (filled proto acc)) :
    match fillLoop a ren g h ks with
    | .ok h' => ∃ kvs, mapE (fun k => tag (ren k) (g' k)) ks = .ok kvs ∧
        h'.data[a]? = some (filled proto (acc ++ kvs))
    | .error e => mapE (fun k => tag (ren k) (g' k)) ks = .error e := by
  induction ks generalizing acc h with
  | nil => exact ⟨[], rfl, by simpa using hacc⟩
  | cons k r ih =>
    unfold fillLoop mapE
    rw [hg h k hk]
    cases g' k with
    | error e => simp [tag]
    | ok v =>
      simp only [tag]
      have hst : (h.store a (putLabel (ren k) v)).data[a]? = some (filled proto (acc ++ [(ren k, v)])) := by
        simp only [Heap.store, List.getElem?_modify, hacc, if_true, Option.map_eq_map, Option.map_some,
          putLabel_filled]
      have := ih (acc ++ [(ren k, v)]) (hk.store ha (putLabel (ren k) v)) hst
      cases hf : fillLoop a ren g (h.store a (putLabel (ren k) v)) r with
      | error e =>
        rw [hf] at this
        simp only at this ⊢
        have e1 : mapE (fun k => tag (ren k) (g' k)) r = .error e := this
        simp only [tag] at e1
        rw [e1]
      | ok h' =>
        rw [hf] at this
        obtain ⟨kvs, h1, h2⟩ := this
        refine ⟨(ren k, v) :: kvs, ?_, by simpa using h2⟩
        simp only [tag] at h1
        rw [h1]

theorem read_remake {cal : Calendar} {h h' : Heap} {x : HItem} {a i : ℕ} {d : Data} {j : Idx}
    (hd : h'.data[a]? = some d) (hi : (h'.idx[i]?).getD [] = j) :
    h'.read (remakeH cal x a i) = remake cal (h.read x) d j := by
  unfold remakeH remake Heap.read
  cases x.slot with
  | none => simp [hd, hi]
  | some p => obtain ⟨e, u⟩ := p; simp [hd, hi]

/-- the item loop with objects computes the items of the item loop with values, or raises the same
exception -/
theorem heapLoop_reads {cal : Calendar} {proto : Data} {ks : List String} {ren : String → String}
    {keep : Bool} {f : Heap → ℕ → HItem → String → Except PyErr ℚ}
    {f' : ℕ → Item → String → Except PyErr ℚ} {skip : ℕ → Bool} {h0 : Heap} (l : List HItem)
    (hl : ∀ x ∈ l, x.dA < h0.data.length ∧ x.iA < h0.idx.length)
    (hff : ∀ h i x k, h0.Kept h → x ∈ l → f h i x k = f' i (h0.read x) k) {h : Heap} (hk : h0.Kept h)
    (i : ℕ) :
    match heapLoop cal proto ks ren keep f skip h i l with
    | .ok (h', ys) => itemLoop cal proto ks ren keep f' skip i (h0.reads l) = .ok (h'.reads ys) ∧
        ∀ y ∈ ys, y.dA < h'.data.length ∧ y.iA < h'.idx.length
    | .error e => itemLoop cal proto ks ren keep f' skip i (h0.reads l) = .error e := by
  induction l generalizing h i with
  | nil => exact ⟨rfl, by simp⟩
  | cons x r ih =>
    have hx := hl x (by simp)
    replace ih := @ih (fun y hy => hl y (by simp [hy])) (fun h i y k hk hy => hff h i y k hk (by simp [hy]))
    rw [show h0.reads (x :: r) = h0.read x :: h0.reads r from rfl]
    unfold heapLoop itemLoop
    by_cases hsk : skip i
    · rw [if_pos hsk, if_pos hsk]
      exact ih hk (i + 1)
    · rw [if_neg hsk, if_neg hsk]
      have hka : h0.Kept (h.alloc (emptyLike proto)) := hk.trans (Heap.Kept.alloc _ _)
      have hacc : (h.alloc (emptyLike proto)).data[h.data.length]? = some (filled proto []) := by
        simp [Heap.alloc, emptyLike_filled]
      have hfill := fillLoop_reads (a := h.data.length) (ren := ren) (g := fun h k => f h i x k)
        (g' := fun k => f' i (h0.read x) k) hk.data_le proto
        (fun h k hk => hff h i x k hk (by simp)) ks [] hka hacc
      cases hfl : fillLoop h.data.length ren (fun h k => f h i x k) (h.alloc (emptyLike proto)) ks with
      | error e =>
        rw [hfl] at hfill
        simp only at hfill ⊢
        rw [hfill]
      | ok h1 =>
        rw [hfl] at hfill
        obtain ⟨kvs, hkv, hd1⟩ := hfill
        obtain ⟨hk1, hl1, hix1⟩ := fillLoop_kept hk.data_le ks hka hfl
        have hl1' : h1.data.length = h.data.length + 1 := by rw [hl1]; simp [Heap.alloc]
        simp only at hkv ⊢
        rw [hkv]
        simp only
        have hk2 : h1.Kept (if keep then h1 else h1.allocIdx []) := by
          split
          · exact Heap.Kept.refl _
          · exact Heap.Kept.allocIdx _ _
        have ih2 := ih (hk1.trans hk2) (i + 1)
        cases hrest : heapLoop cal proto ks ren keep f skip (if keep then h1 else h1.allocIdx [])
            (i + 1) r with
        | error e =>
          rw [hrest] at ih2
          simp only at ih2 ⊢
          rw [ih2]
        | ok p =>
          obtain ⟨h3, ys⟩ := p
          rw [hrest] at ih2
          obtain ⟨e1, e2⟩ := ih2
          obtain ⟨k3, _, _⟩ := heapLoop_kept _ hrest
          have k13 : h1.Kept h3 := hk2.trans k3
          simp only
          rw [e1]
          have hd3 : h3.data[h.data.length]? = some (makeData proto kvs) := by
            rw [k13.data _ (by omega), hd1]; rfl
          have hi3 : (h3.idx[if keep then x.iA else h1.idx.length]?).getD [] =
              if keep then (h0.read x).idx else [] := by
            cases keep with
            | true =>
              simp only [if_true]
              rw [(hk1.trans k13).idx _ hx.2]; rfl
            | false =>
              simp only [Bool.false_eq_true, if_false] at k3 ⊢
              rw [k3.idx _ (by simp [Heap.allocIdx])]
              simp [Heap.allocIdx]
          refine ⟨?_, ?_⟩
          · rw [show h3.reads (remakeH cal x h.data.length (if keep then x.iA else h1.idx.length) :: ys) =
              h3.read (remakeH cal x h.data.length (if keep then x.iA else h1.idx.length)) ::
                h3.reads ys from rfl, read_remake (h := h0) hd3 hi3]
          · intro y hy
            rcases List.mem_cons.1 hy with rfl | hm
            · have ha : (remakeH cal x h.data.length (if keep then x.iA else h1.idx.length)).dA =
                  h.data.length := by unfold remakeH; cases x.slot <;> rfl
              have hb : (remakeH cal x h.data.length (if keep then x.iA else h1.idx.length)).iA =
                  if keep then x.iA else h1.idx.length := by unfold remakeH; cases x.slot <;> rfl
              rw [ha, hb]
              refine ⟨by have := k13.data_le; omega, ?_⟩
              cases keep with
              | true => exact lt_of_lt_of_le hx.2 (hk1.trans k13).idx_le
              | false =>
                have := k3.idx_le
                simp [Heap.allocIdx] at this ⊢
                omega
            · exact e2 y hm

theorem finish_reads {p : Except PyErr (Heap × List HItem)} {q : Except PyErr (List Item)}
    (h : match p with
      | .ok (h', ys) => q = .ok (h'.reads ys) ∧ ∀ y ∈ ys, y.dA < h'.data.length ∧ y.iA < h'.idx.length
      | .error e => q = .error e) :
    match finishH p with
    | .ok (h', r) => ∃ r0, finish q = .ok r0 ∧ h'.reads r.items = r0.items ∧ r.Valid h'
    | .error e => finish q = .error e := by
  cases p with
  | error e => simp only at h; simp [finishH, finish, h]
  | ok p =>
    obtain ⟨h', ys⟩ := p
    obtain ⟨h1, h2⟩ := h
    simp only [finishH, finish, h1]
    cases hb : TSeries.build (h'.reads ys) with
    | error e => rfl
    | ok s =>
      refine ⟨s, rfl, (build_items hb).symm, h2, ?_⟩
      intro a ha
      obtain ⟨x, hx, rfl⟩ := Option.map_eq_some_iff.1 ha
      exact (h2 x (List.mem_of_mem_head? hx)).1

theorem view_items (h : Heap) (s : HSeries) : (s.view h).items = h.reads s.items := rfl

/-- **C34 (the model with objects agrees with the model with values)**: mapping operations give a series
that reads like the one computed on values, or raise the same exception. -/
theorem C34_map_agrees {cal : Calendar} {g : String → ℚ → Except PyErr ℚ} {h : Heap} {s : HSeries}
    (hs : s.Valid h) :
    match s.mapOp cal g h with
    | .ok (h', r) => ∃ r0, (s.view h).mapOp cal g = .ok r0 ∧ (r.view h').items = r0.items ∧ r.Valid h'
    | .error e => (s.view h).mapOp cal g = .error e := by
  unfold HSeries.mapOp TSeries.mapOp
  cases hp : (s.view h).opPrep with
  | error e => rfl
  | ok p =>
    obtain ⟨proto, ks⟩ := p
    exact finish_reads (heapLoop_reads s.items hs.items (fun h' i x k hk hx => by
      rw [hk.read (hs.items x hx).1 (hs.items x hx).2]) (Heap.Kept.refl h) 0)

theorem C34_derivative_agrees {cal : Calendar} {auto : ℚ} {h : Heap} {s : HSeries}
    (hs : s.Valid h) :
    match s.derivativeOp cal auto h with
    | .ok (h', r) => ∃ r0, (s.view h).derivativeOp cal auto = .ok r0 ∧ (r.view h').items = r0.items ∧
        r.Valid h'
    | .error e => (s.view h).derivativeOp cal auto = .error e := by
  unfold HSeries.derivativeOp TSeries.derivativeOp
  cases hp : (s.view h).opPrep with
  | error e => rfl
  | ok p =>
    obtain ⟨proto, ks⟩ := p
    simp only
    have hlen : (s.view h).items.length = s.items.length := by simp [view_items, Heap.reads]
    rw [hlen]
    by_cases h1 : s.items.length = 1
    · rw [if_pos h1, if_pos h1]
    · rw [if_neg h1, if_neg h1]
      cases hn : (s.view h).normInfo cal auto with
      | error e => rfl
      | ok ni =>
        exact finish_reads (heapLoop_reads (f' := fun i _ k => derivVal (s.view h).items (some ni) false i k)
          s.items hs.items (fun h' i x k hk hx => by
            rw [view_items, hk.reads hs.items]) (Heap.Kept.refl h) 0)

/-! ## C78: what is shared -/

/-- an object heap with two points, each with one label and a data loss -/
def exHeap : Heap :=
  { data := [.dict [("v", 1)], .dict [("v", 2)]], idx := [[("data_loss", some 0)], [("data_loss", some 0)]] }

def exH : HSeries :=
  { attrs := match TSeries.build (exHeap.reads [⟨0, none, "UTC", 0, 0⟩, ⟨60, none, "UTC", 1, 1⟩]) with
      | .ok s => s
      | .error _ => {}
    items := [⟨0, none, "UTC", 0, 0⟩, ⟨60, none, "UTC", 1, 1⟩]
    refA := some 0 }

/-- the hypotheses of C34 are met, and the operation succeeds -/
theorem C34_witness : exH.Valid exHeap ∧
    (match exH.mapOp physicalCalendar (fun _ v => .ok (v * 2)) exHeap with
      | .ok (h', r) => (r.items.length == 2) && (h'.data.length == 4)
      | .error _ => false) = true ∧
    (match exH.filterOp ["v"] exHeap with | .ok _ => true | .error _ => false) = true ∧
    (match exH.derivativeOp physicalCalendar 1 exHeap with | .ok _ => true | .error _ => false) = true ∧
    (match exH.mavgOp physicalCalendar 2 exHeap with | .ok _ => true | .error _ => false) = true := by
  refine ⟨⟨by decide, ?_⟩, by decide +kernel⟩
  intro a ha
  simp only [exH, Option.some.injEq] at ha
  subst ha
  decide

/-- the data loss of the first item of a series -/
def firstLoss (h : Heap) (s : HSeries) : Option (Option ℚ) :=
  (h.reads s.items).head?.bind (fun x => x.idx.get? "data_loss")

/-- the value of the first item of a series -/
def firstV (h : Heap) (s : HSeries) : Option ℚ :=
  (h.reads s.items).head?.bind (fun x => x.value? "v")

/-- setting the data loss of the first item of the result to 1, and reading the input -/
def afterIdxChange (p : Except PyErr (Heap × HSeries)) (s : HSeries) : Option (Option ℚ) :=
  match p with
  | .ok (h', r) => match r.items with
    | x :: _ => firstLoss (h'.storeIdx x.iA (fun i => i.set "data_loss" (some 1))) s
    | [] => none
  | .error _ => none

/-- changing the first value of the result, and reading the input -/
def afterDataChange (p : Except PyErr (Heap × HSeries)) (s : HSeries) : Option ℚ :=
  match p with
  | .ok (h', r) => match r.items with
    | x :: _ => firstV (h'.store x.dA (putLabel "v" 100)) s
    | [] => none
  | .error _ => none

/-- **C78 is false**: the data loss of the first item of the input is 0, and becomes 1 when the data loss
of the first item of a rescaled, derived or filtered series is set; changing a value in a slice
changes the series it was taken from. -/
theorem C78_false :
    firstLoss exHeap exH = some (some 0) ∧
    afterIdxChange (exH.mapOp physicalCalendar (fun _ v => .ok (v * 2)) exHeap) exH = some (some 1) ∧
    afterIdxChange (exH.derivativeOp physicalCalendar 1 exHeap) exH = some (some 1) ∧
    afterIdxChange (exH.filterOp ["v"] exHeap) exH = some (some 1) ∧
    firstV exHeap exH = some 1 ∧
    afterDataChange (exH.sliceOp 0 1 exHeap) exH = some 100 := by
  decide +kernel

theorem heapLoop_newIdx {cal : Calendar} {proto : Data} {ks : List String} {ren : String → String}
    {f : Heap → ℕ → HItem → String → Except PyErr ℚ} {skip : ℕ → Bool}
    (l : List HItem) {h h' : Heap} {i : ℕ} {ys : List HItem}
    (hf : heapLoop cal proto ks ren false f skip h i l = .ok (h', ys)) :
    ∀ y ∈ ys, h.idx.length ≤ y.iA := by
  induction l generalizing h i ys with
  | nil =>
    simp only [heapLoop, Except.ok.injEq, Prod.mk.injEq] at hf
    rw [← hf.2]; simp
  | cons x r ih =>
    unfold heapLoop at hf
    split at hf
    · exact ih hf
    · cases hfl : fillLoop h.data.length ren (fun h k => f h i x k) (h.alloc (emptyLike proto)) ks with
      | error e => simp [hfl] at hf
      | ok h1 =>
        rw [hfl] at hf
        simp only [Bool.false_eq_true, if_false] at hf
        obtain ⟨_, _, hix⟩ := fillLoop_kept (le_refl _) ks (Heap.Kept.alloc h _) hfl
        have hix' : h1.idx = h.idx := hix
        cases hrest : heapLoop cal proto ks ren false f skip (h1.allocIdx []) (i + 1) r with
        | error e => simp [hrest] at hf
        | ok p =>
          obtain ⟨h3, zs⟩ := p
          rw [hrest] at hf
          simp only [Except.ok.injEq, Prod.mk.injEq] at hf
          obtain ⟨rfl, rfl⟩ := hf
          intro y hy
          rcases List.mem_cons.1 hy with rfl | hm
          · have : (remakeH cal x h.data.length h1.idx.length).iA = h1.idx.length := by
              unfold remakeH; cases x.slot <;> rfl
            rw [this, hix']
          · have := ih hrest y hm
            simp only [Heap.allocIdx, List.length_append, List.length_singleton, hix'] at this
            omega

/-- **C78, the part that holds**: a moving average has data indexes of its own; changing them does not
alter the input. -/
theorem C78_mavg_partial {cal : Calendar} {w : Int} {h h' : Heap} {s r : HSeries}
    (hs : s.Valid h) (hop : s.mavgOp cal w h = .ok (h', r)) (x : HItem) (hx : x ∈ r.items)
    (c : Idx → Idx) : s.view (h'.storeIdx x.iA c) = s.view h := by
  unfold HSeries.mavgOp at hop
  cases hp : (s.view h).opPrep with
  | error e => simp [hp] at hop
  | ok p =>
    obtain ⟨proto, ks⟩ := p
    rw [hp] at hop
    simp only at hop
    split at hop
    · cases hop
    · have hl := finishH_inv hop
      obtain ⟨k, _, _⟩ := heapLoop_kept _ hl
      have hn := heapLoop_newIdx _ hl x hx
      have k' : h.Kept (h'.storeIdx x.iA c) := by
        refine ⟨k.data, fun i hi => ?_⟩
        have hne : ¬ x.iA = i := by omega
        have : (h'.idx.modify x.iA c)[i]? = h'.idx[i]? := by
          rw [List.getElem?_modify]; simp [hne]
        exact this.trans (k.idx i hi)
      exact k'.view hs

end Timeseria
