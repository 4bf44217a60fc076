import Verif.Props.Heap

/-! # C71: renaming and removing labels -/

namespace Timeseria

/-- no two items share a data object -/
def HSeries.Distinct (s : HSeries) : Prop := (s.items.map HItem.dA).Nodup

/-- the reference of the series is the data object of its first item -/
def HSeries.InSync (s : HSeries) : Prop := s.items = [] ∨ s.refA = s.items.head?.map HItem.dA

/-! ## The loop over the items -/

theorem getElem?_store (h : Heap) (a b : ℕ) (f : Data → Data) :
    (h.store a f).data[b]? = if a = b then (h.data[b]?).map f else h.data[b]? := by
  unfold Heap.store
  rw [List.getElem?_modify]
  by_cases hab : a = b
  · simp [hab]
  · simp [hab]

theorem dataLoop_ok {f : Data → Except PyErr Data} {F : Data → Data} (l : List HItem) (h : Heap)
    (hn : (l.map HItem.dA).Nodup)
    (hf : ∀ x ∈ l, ∃ d, h.data[x.dA]? = some d ∧ f d = .ok (F d)) :
    (dataLoop f h l).2 = .ok () ∧ (dataLoop f h l).1.idx = h.idx ∧
      (dataLoop f h l).1.data.length = h.data.length ∧
      ∀ a, (dataLoop f h l).1.data[a]? =
        if a ∈ l.map HItem.dA then (h.data[a]?).map F else h.data[a]? := by
  induction l generalizing h with
  | nil => exact ⟨rfl, rfl, rfl, fun a => by simp [dataLoop]⟩
  | cons x r ih =>
    obtain ⟨d, hd, hfd⟩ := hf x (by simp)
    have hxr : x.dA ∉ r.map HItem.dA := (List.nodup_cons.1 hn).1
    have hstep : dataLoop f h (x :: r) = dataLoop f (h.store x.dA (fun _ => F d)) r := by
      rw [dataLoop]; simp only [hd, hfd]
    rw [hstep]
    obtain ⟨h1, h2, h3, h4⟩ := ih (h.store x.dA (fun _ => F d)) (List.nodup_cons.1 hn).2 (by
      intro y hy
      obtain ⟨e, he, hfe⟩ := hf y (by simp [hy])
      refine ⟨e, ?_, hfe⟩
      have hne : ¬ x.dA = y.dA := fun hh => hxr (hh ▸ List.mem_map.2 ⟨y, hy, rfl⟩)
      rw [getElem?_store, if_neg hne]; exact he)
    refine ⟨h1, h2, by rw [h3]; simp [Heap.store], ?_⟩
    intro a
    rw [h4 a, getElem?_store]
    by_cases hxa : x.dA = a
    · subst hxa
      rw [if_neg hxr, if_pos rfl, if_pos (by simp), hd]; rfl
    · rw [if_neg hxa]
      by_cases har : a ∈ r.map HItem.dA
      · rw [if_pos har, if_pos (by simp only [List.map_cons, List.mem_cons]; exact .inr har)]
      · rw [if_neg har, if_neg (by
          simp only [List.map_cons, List.mem_cons, not_or]
          exact ⟨fun hh => hxa hh.symm, har⟩)]

/-- the contents after renaming -/
def renamed (old new : String) : Data → Data
  | .dict d => match d.get? old with
    | some v => .dict ((d.erase old).set new v)
    | none => .dict d
  | d => d

/-- the contents after removing -/
def removed (k : String) : Data → Data
  | .dict d => .dict (d.erase k)
  | d => d

theorem renameKey_ok {old new : String} {d : Dict ℚ} (h : old ∈ d.keys) :
    renameKey old new (.dict d) = .ok (renamed old new (.dict d)) := by
  obtain ⟨v, hv⟩ := Dict.get?_isSome.2 h
  simp [renameKey, renamed, hv]

theorem get?_renamed {old new : String} {d : Dict ℚ} {v : ℚ} (hv : d.get? old = some v) (k : String) :
    ((d.erase old).set new v).get? k =
      if k = new then d.get? old else if k = old then none else d.get? k := by
  rw [Dict.get?_set, Dict.get?_erase]
  by_cases h1 : new = k
  · rw [if_pos h1, if_pos h1.symm, hv]
  · rw [if_neg h1, if_neg (Ne.symm h1)]

theorem keys_renamed {old new : String} {d : Dict ℚ} {v : ℚ} (_ : d.get? old = some v) (k : String) :
    k ∈ ((d.erase old).set new v).keys ↔ k = new ∨ (k ≠ old ∧ k ∈ d.keys) := by
  rw [Dict.mem_keys_set, Dict.mem_keys_erase]

theorem read_place {h h' : Heap} (x : HItem) : SamePlace (h.read x) (h'.read x) := ⟨rfl, rfl, rfl⟩

/-- the series has dictionary data carrying the label, in every item -/
def HasLabel (h : Heap) (s : HSeries) (k : String) : Prop :=
  ∀ x ∈ s.items, ∃ d, h.data[x.dA]? = some (.dict d) ∧ k ∈ Dict.keys d

theorem rename_loop {h : Heap} {s : HSeries} {old : String} (new : String) (hd : s.Distinct)
    (hl : HasLabel h s old) :
    (dataLoop (renameKey old new) h s.items).2 = .ok () ∧
      (dataLoop (renameKey old new) h s.items).1.idx = h.idx ∧
      (dataLoop (renameKey old new) h s.items).1.data.length = h.data.length ∧
      ∀ a, (dataLoop (renameKey old new) h s.items).1.data[a]? =
        if a ∈ s.items.map HItem.dA then (h.data[a]?).map (renamed old new) else h.data[a]? :=
  dataLoop_ok s.items h hd (fun x hx => by
    obtain ⟨d, hd, hk⟩ := hl x hx
    exact ⟨_, hd, renameKey_ok hk⟩)

theorem refOk_of {h : Heap} {s : HSeries} {k : String} (hsy : s.InSync) (hl : HasLabel h s k) :
    s.refOk h = true := by
  unfold HSeries.refOk
  rcases hsy with he | he
  · simp [he]
  · rcases hi : s.items with _ | ⟨x, r⟩
    · simp
    · obtain ⟨d, hd, hk⟩ := hl x (by rw [hi]; simp)
      rw [hi] at he
      simp only [List.head?_cons, Option.map_some] at he
      have : d ≠ [] := by rintro rfl; simp [Dict.keys] at hk
      simp [he, hd, Data.truthy, this]

/-- **C71 (rename)**: if all the items have the label, renaming succeeds; every item then has, under the
new label, the value it had under the old one, the old label is gone and the other labels keep
their values; places and indexes do not change. -/
theorem C71_rename {h : Heap} {s : HSeries} {old new : String} (hd : s.Distinct) (hsy : s.InSync)
    (hl : HasLabel h s old) :
    (s.rename old new h).2 = .ok () ∧ ∀ x ∈ s.items,
      SamePlace (h.read x) ((s.rename old new h).1.read x) ∧
      ((s.rename old new h).1.read x).idx = (h.read x).idx ∧
      ∀ k, ((s.rename old new h).1.read x).value? k =
        if k = new then (h.read x).value? old
        else if k = old then none else (h.read x).value? k := by
  unfold HSeries.rename
  rw [if_pos (refOk_of hsy hl)]
  obtain ⟨h1, h2, _, h4⟩ := rename_loop new hd hl
  refine ⟨h1, fun x hx => ⟨read_place x, ?_, ?_⟩⟩
  · unfold Heap.read; rw [h2]
  · intro k
    obtain ⟨d, hdx, hk⟩ := hl x hx
    obtain ⟨v, hv⟩ := Dict.get?_isSome.2 hk
    have h5 := h4 x.dA
    rw [if_pos (List.mem_map.2 ⟨x, hx, rfl⟩), hdx] at h5
    have e1 : (h.read x).data = some (.dict d) := hdx
    have e2 : ((dataLoop (renameKey old new) h s.items).1.read x).data =
        some (.dict ((d.erase old).set new v)) := by
      have : renamed old new (.dict d) = .dict ((d.erase old).set new v) := by simp [renamed, hv]
      rw [← this]; exact h5
    unfold Item.value?
    rw [e1, e2]
    exact get?_renamed hv k

/-- **C71 (remove)**: removing a label from a series with dictionary data succeeds; the label is gone from
every item and the others keep their values. -/
theorem C71_remove {h : Heap} {s : HSeries} {k0 : String} (hd : s.Distinct) (hok : s.refOk h = true)
    (hl : ∀ x ∈ s.items, ∃ d, h.data[x.dA]? = some (.dict d)) :
    (s.removeLabel k0 h).2 = .ok () ∧ ∀ x ∈ s.items,
      SamePlace (h.read x) ((s.removeLabel k0 h).1.read x) ∧
      ((s.removeLabel k0 h).1.read x).idx = (h.read x).idx ∧
      ∀ k, ((s.removeLabel k0 h).1.read x).value? k = if k = k0 then none else (h.read x).value? k := by
  unfold HSeries.removeLabel
  rw [if_pos hok]
  obtain ⟨h1, h2, _, h4⟩ := dataLoop_ok (f := removeKey k0) (F := removed k0) s.items h hd (fun x hx => by
    obtain ⟨d, hd⟩ := hl x hx
    exact ⟨_, hd, rfl⟩)
  refine ⟨h1, fun x hx => ⟨read_place x, ?_, ?_⟩⟩
  · unfold Heap.read; rw [h2]
  · intro k
    obtain ⟨d, hdx⟩ := hl x hx
    have h5 := h4 x.dA
    rw [if_pos (List.mem_map.2 ⟨x, hx, rfl⟩), hdx] at h5
    have e1 : (h.read x).data = some (.dict d) := hdx
    have e2 : ((dataLoop (removeKey k0) h s.items).1.read x).data = some (.dict (d.erase k0)) := h5
    unfold Item.value?
    rw [e1, e2]
    exact Dict.get?_erase d k0 k

/-- **C71 (missing label)**: renaming a label the first item does not have raises `KeyError` and changes
nothing. -/
theorem C71_rename_missing {h : Heap} {s : HSeries} {old new : String} {x : HItem} {d : Dict ℚ}
    (hx : s.items.head? = some x) (hd : h.data[x.dA]? = some (.dict d)) (hk : old ∉ d.keys)
    (hok : s.refOk h = true) : s.rename old new h = (h, .error .keyError) := by
  rcases hi : s.items with _ | ⟨y, r⟩
  · rw [hi] at hx; simp at hx
  · rw [hi] at hx
    simp only [List.head?_cons, Option.some.injEq] at hx
    subst hx
    unfold HSeries.rename
    rw [if_pos hok, hi, dataLoop]
    simp [hd, renameKey, Dict.get?_eq_none.2 hk]

/-! ## Histories -/

/-- the calls of a history; `append` creates an item with data and indexes of its own -/
inductive LabelOp where
  | append (t : ℚ) (slot : Option (ℚ × TUnit)) (tz : String) (d : Dict ℚ) (i : Idx)
  | rename (old new : String)
  | remove (k : String)
  | popLast

/-- state after a call -/
def labelStep (st : Heap × HSeries) : LabelOp → Heap × HSeries
  | .append t slot tz d i =>
    let h := (st.1.alloc (.dict d)).allocIdx i
    (h, (st.2.append h { t := t, slot := slot, tz := tz, dA := st.1.data.length, iA := st.1.idx.length }).1)
  | .rename old new => ((st.2.rename old new st.1).1, st.2)
  | .remove k => ((st.2.removeLabel k st.1).1, st.2)
  | .popLast => (st.1, st.2.popLast)

/-- the calls considered: appended data has at least one label, and the last label is not removed -/
def labelAllowed (st : Heap × HSeries) : LabelOp → Prop
  | .append _ _ _ d _ => d ≠ [] ∧ Dict.WF d
  | .remove k => ∀ x ∈ st.2.items, ∀ d, st.1.data[x.dA]? = some (.dict d) → ∃ k' ∈ Dict.keys d, k' ≠ k
  | _ => True

/-- all the calls of a history are of the kind considered, each in the state in which it is made -/
def LabelHistory : Heap × HSeries → List LabelOp → Prop
  | _, [] => True
  | st, op :: r => labelAllowed st op ∧ LabelHistory (labelStep st op) r

/-- all the items carry the same labels -/
def SameLabels (l : List Item) : Prop := ∀ x ∈ l, ∀ y ∈ l, ∃ a b, x.data = some (.dict a) ∧
  y.data = some (.dict b) ∧ ∀ k, k ∈ Dict.keys a ↔ k ∈ Dict.keys b

structure LabelInv (st : Heap × HSeries) : Prop where
  valid : ∀ x ∈ st.2.items, x.dA < st.1.data.length ∧ x.iA < st.1.idx.length
  distinct : st.2.Distinct
  sync : st.2.InSync
  dict : ∀ x ∈ st.2.items, ∃ d, st.1.data[x.dA]? = some (.dict d) ∧ d ≠ [] ∧ Dict.WF d
  same : ∀ x ∈ st.2.items, ∀ y ∈ st.2.items, ∀ a b, st.1.data[x.dA]? = some (.dict a) →
    st.1.data[y.dA]? = some (.dict b) → ∀ k, k ∈ Dict.keys a ↔ k ∈ Dict.keys b

theorem append_items_spec (h : Heap) (s : HSeries) (x : HItem) :
    ((s.append h x).2 = .ok () ∧ ((s.view h).append (h.read x)).2 = .ok () ∧
      (s.append h x).1.items = s.items ++ [x] ∧
      (s.append h x).1.refA = if s.items.isEmpty || !s.refOk h then some x.dA else s.refA) ∨
    (∃ e, (s.append h x).2 = .error e ∧ (s.append h x).1.items = s.items ∧
      (s.append h x).1.refA = s.refA) := by
  unfold HSeries.append
  cases ha : (s.view h).append (h.read x) with
  | mk s' o =>
    cases o with
    | error e => exact .inr ⟨e, rfl, rfl, rfl⟩
    | ok u => exact .inl ⟨rfl, rfl, rfl, rfl⟩

theorem labelInv_step {st : Heap × HSeries} {op : LabelOp} (hi : LabelInv st)
    (ha : labelAllowed st op) : LabelInv (labelStep st op) := by
  obtain ⟨h, s⟩ := st
  obtain ⟨hv, hd, hsy, hdict, hsame⟩ := hi
  simp only at hv hd hsy hdict hsame
  cases op with
  | popLast =>
    have hsub : ∀ x ∈ s.items.dropLast, x ∈ s.items := fun x hx => List.dropLast_subset _ hx
    refine ⟨fun x hx => hv x (hsub x hx), ?_, ?_, fun x hx => hdict x (hsub x hx),
      fun x hx y hy => hsame x (hsub x hx) y (hsub y hy)⟩
    · exact List.Sublist.nodup ((List.dropLast_sublist _).map _) hd
    · rcases hsy with h1 | h1
      · left; simp [labelStep, HSeries.popLast, h1]
      · rcases hl : s.items with _ | ⟨a, _ | ⟨b, r⟩⟩
        · left; simp [labelStep, HSeries.popLast, hl]
        · left; simp [labelStep, HSeries.popLast, hl]
        · right; rw [hl] at h1; simpa [labelStep, HSeries.popLast, hl] using h1
  | rename old new =>
    simp only [labelStep]
    unfold HSeries.rename
    by_cases hok : s.refOk h = true
    · rw [if_pos hok]
      rcases hl : s.items with _ | ⟨x0, r⟩
      · simp only [dataLoop]
        exact ⟨hv, hd, hsy, hdict, hsame⟩
      · obtain ⟨d0, hd0, _, _⟩ := hdict x0 (by rw [hl]; simp)
        by_cases hk : old ∈ Dict.keys d0
        · have hhl : HasLabel h s old := by
            intro x hx
            obtain ⟨d, hdx, _, _⟩ := hdict x hx
            exact ⟨d, hdx, (hsame x0 (by rw [hl]; simp) x hx d0 d hd0 hdx old).1 hk⟩
          rw [← hl]
          obtain ⟨h1, h2, h3, h4⟩ := rename_loop new hd hhl
          have hnew : ∀ x ∈ s.items, ∃ d v, h.data[x.dA]? = some (.dict d) ∧ d.get? old = some v ∧
              Dict.WF d ∧ (dataLoop (renameKey old new) h s.items).1.data[x.dA]? =
                some (.dict ((d.erase old).set new v)) := by
            intro x hx
            obtain ⟨d, hdx, _, hwf⟩ := hdict x hx
            obtain ⟨d', hdx', hk'⟩ := hhl x hx
            rw [hdx] at hdx'
            cases hdx'
            obtain ⟨v, hv'⟩ := Dict.get?_isSome.2 hk'
            refine ⟨d, v, hdx, hv', hwf, ?_⟩
            rw [h4 x.dA, if_pos (List.mem_map.2 ⟨x, hx, rfl⟩), hdx]
            simp [renamed, hv']
          refine ⟨fun x hx => by simp only [h2, h3]; exact hv x hx, hd, hsy, ?_, ?_⟩
          · intro x hx
            obtain ⟨d, v, _, hv', hwf, e⟩ := hnew x hx
            refine ⟨_, e, ?_, Dict.wf_set _ _ (Dict.wf_erase _ hwf)⟩
            intro hnil
            have : new ∈ Dict.keys ((d.erase old).set new v) := by
              rw [Dict.mem_keys_set]; exact .inl rfl
            rw [hnil] at this
            simp [Dict.keys] at this
          · intro x hx y hy a b hxa hyb k
            obtain ⟨d, v, hdx, hv', _, e⟩ := hnew x hx
            obtain ⟨d', v', hdy, hv'', _, e'⟩ := hnew y hy
            simp only at hxa hyb
            rw [hxa] at e; rw [hyb] at e'
            cases e; cases e'
            rw [keys_renamed hv', keys_renamed hv'', hsame x hx y hy d d' hdx hdy k]
        · rw [dataLoop]
          simp only [hd0, renameKey, Dict.get?_eq_none.2 hk]
          exact ⟨hv, hd, hsy, hdict, hsame⟩
    · rw [if_neg hok]
      exact ⟨hv, hd, hsy, hdict, hsame⟩
  | remove k0 =>
    simp only [labelStep]
    unfold HSeries.removeLabel
    by_cases hok : s.refOk h = true
    · rw [if_pos hok]
      obtain ⟨h1, h2, h3, h4⟩ := dataLoop_ok (f := removeKey k0) (F := removed k0) s.items h hd
        (fun x hx => by
          obtain ⟨d, hd, _⟩ := hdict x hx
          exact ⟨_, hd, rfl⟩)
      have hnew : ∀ x ∈ s.items, ∃ d, h.data[x.dA]? = some (.dict d) ∧ Dict.WF d ∧
          (dataLoop (removeKey k0) h s.items).1.data[x.dA]? = some (.dict (d.erase k0)) := by
        intro x hx
        obtain ⟨d, hdx, _, hwf⟩ := hdict x hx
        refine ⟨d, hdx, hwf, ?_⟩
        rw [h4 x.dA, if_pos (List.mem_map.2 ⟨x, hx, rfl⟩), hdx]
        rfl
      refine ⟨fun x hx => by simp only [h2, h3]; exact hv x hx, hd, hsy, ?_, ?_⟩
      · intro x hx
        obtain ⟨d, hdx, hwf, e⟩ := hnew x hx
        refine ⟨_, e, ?_, Dict.wf_erase _ hwf⟩
        obtain ⟨k', hk', hne⟩ := ha x hx d hdx
        intro hnil
        have : k' ∈ Dict.keys (d.erase k0) := (Dict.mem_keys_erase d k0 k').2 ⟨hne, hk'⟩
        rw [hnil] at this
        simp [Dict.keys] at this
      · intro x hx y hy a b hxa hyb k
        obtain ⟨d, hdx, _, e⟩ := hnew x hx
        obtain ⟨d', hdy, _, e'⟩ := hnew y hy
        simp only at hxa hyb
        rw [hxa] at e; rw [hyb] at e'
        cases e; cases e'
        rw [Dict.mem_keys_erase, Dict.mem_keys_erase, hsame x hx y hy d d' hdx hdy k]
    · rw [if_neg hok]
      exact ⟨hv, hd, hsy, hdict, hsame⟩
  | append t slot tz d i =>
    obtain ⟨hdne, hdwf⟩ := ha
    let h' := (h.alloc (.dict d)).allocIdx i
    have hk : h.Kept h' := (Heap.Kept.alloc h _).trans (Heap.Kept.allocIdx _ _)
    let x : HItem := { t := t, slot := slot, tz := tz, dA := h.data.length, iA := h.idx.length }
    have hxd : h'.data[x.dA]? = some (.dict d) := by simp [h', x, Heap.alloc, Heap.allocIdx]
    have hlen : h'.data.length = h.data.length + 1 ∧ h'.idx.length = h.idx.length + 1 := by
      simp [h', Heap.alloc, Heap.allocIdx]
    have hold : ∀ y ∈ s.items, h'.data[y.dA]? = h.data[y.dA]? := fun y hy => hk.data _ (hv y hy).1
    have hstep : labelStep (h, s) (.append t slot tz d i) = (h', (s.append h' x).1) := rfl
    rw [hstep]
    rcases append_items_spec h' s x with ⟨_, hok, hit, href⟩ | ⟨e, _, hit, href⟩
    · have hckd : ∀ y ∈ s.items, ∀ a, h.data[y.dA]? = some (.dict a) →
          ∀ k, k ∈ Dict.keys a ↔ k ∈ Dict.keys d := by
        intro y hy a hya
        rcases hsy with he | he
        · rw [he] at hy; simp at hy
        · rcases hl : s.items with _ | ⟨f, r⟩
          · rw [hl] at hy; simp at hy
          · have hfm : f ∈ s.items := by rw [hl]; simp
            obtain ⟨df, hdf, hdfne, _⟩ := hdict f hfm
            have hrefv : (s.view h').ref = some (.dict df) := by
              unfold HSeries.view
              rw [he, hl]
              simp [hold f hfm, hdf]
            rcases append_items (s.view h') (h'.read x) with ⟨e, herr, _⟩ | ⟨_, _, _, _, hcase⟩
            · rw [hok] at herr; cases herr
            · rcases hcase with ⟨hemp, _⟩ | ⟨_, hck, _⟩
              · simp [view_items, Heap.reads, hl] at hemp
              · obtain ⟨hcd, _⟩ := hck _ hrefv (by simp [Data.truthy, hdfne])
                obtain ⟨d', hd', hsk⟩ := (checkData_iff _ _).1 hcd
                have : (h'.read x).data = some (.dict d) := hxd
                rw [this] at hd'
                cases hd'
                intro k
                have h1 := hsame y hy f hfm a df hya hdf k
                exact h1.trans (hsk k)
      refine ⟨?_, ?_, ?_, ?_, ?_⟩
      · intro y hy
        rw [hit] at hy
        rcases List.mem_append.1 hy with hm | hm
        · have := hv y hm; (show y.dA < h'.data.length ∧ y.iA < h'.idx.length); omega
        · simp only [List.mem_singleton] at hm
          subst hm
          simp only [x]; omega
      · unfold HSeries.Distinct
        rw [hit, List.map_append, List.nodup_append]
        refine ⟨hd, by simp, ?_⟩
        intro a ha b hb
        simp only [List.map_cons, List.map_nil, List.mem_singleton] at hb
        subst hb
        obtain ⟨y, hy, rfl⟩ := List.mem_map.1 ha
        have := (hv y hy).1
        simp only [x]; omega
      · right
        rw [href, hit]
        rcases hl : s.items with _ | ⟨f, r⟩
        · simp
        · have hfm : f ∈ s.items := by rw [hl]; simp
          obtain ⟨df, hdf, hdfne, _⟩ := hdict f hfm
          have he : s.refA = some f.dA := by
            rcases hsy with he | he
            · rw [hl] at he; cases he
            · rw [hl] at he; simpa using he
          have hrok : s.refOk h' = true := by
            unfold HSeries.refOk
            rw [he]
            simp [hold f hfm, hdf, Data.truthy, hdfne]
          rw [hrok]
          simp [he]
      · intro y hy
        rw [hit] at hy
        rcases List.mem_append.1 hy with hm | hm
        · obtain ⟨a, h1, h2, h3⟩ := hdict y hm
          exact ⟨a, (hold y hm).trans h1, h2, h3⟩
        · simp only [List.mem_singleton] at hm
          subst hm
          exact ⟨d, hxd, hdne, hdwf⟩
      · intro y hy z hz a b hya hzb k
        rw [hit] at hy hz
        simp only at hya hzb
        rcases List.mem_append.1 hy with hm | hm <;> rcases List.mem_append.1 hz with hm' | hm'
        · rw [hold y hm] at hya; rw [hold z hm'] at hzb
          exact hsame y hm z hm' a b hya hzb k
        · simp only [List.mem_singleton] at hm'
          subst hm'
          rw [hold y hm] at hya
          rw [hxd] at hzb; cases hzb
          exact hckd y hm a hya k
        · simp only [List.mem_singleton] at hm
          subst hm
          rw [hold z hm'] at hzb
          rw [hxd] at hya; cases hya
          exact (hckd z hm' b hzb k).symm
        · simp only [List.mem_singleton] at hm hm'
          subst hm; subst hm'
          rw [hxd] at hya hzb; cases hya; cases hzb
          exact Iff.rfl
    · refine ⟨?_, ?_, ?_, ?_, ?_⟩
      · intro y hy
        rw [hit] at hy
        have := hv y hy; (show y.dA < h'.data.length ∧ y.iA < h'.idx.length); omega
      · unfold HSeries.Distinct; rw [hit]; exact hd
      · unfold HSeries.InSync; rw [hit, href]; exact hsy
      · intro y hy
        rw [hit] at hy
        obtain ⟨a, h1, h2, h3⟩ := hdict y hy
        exact ⟨a, (hold y hy).trans h1, h2, h3⟩
      · intro y hy z hz a b hya hzb k
        rw [hit] at hy hz
        simp only at hya hzb
        rw [hold y hy] at hya; rw [hold z hz] at hzb
        exact hsame y hy z hz a b hya hzb k

theorem labelInv_run (ops : List LabelOp) {st : Heap × HSeries} (hi : LabelInv st)
    (hh : LabelHistory st ops) : LabelInv (ops.foldl labelStep st) := by
  induction ops generalizing st with
  | nil => exact hi
  | cons op r ih => exact ih (labelInv_step hi hh.1) hh.2

theorem labelInv_init : LabelInv (({} : Heap), ({} : HSeries)) :=
  ⟨by simp, by simp [HSeries.Distinct], .inl rfl, by simp, by simp⟩

/-- **C71 (histories)**: after any history of appends, renames, removals and pops of the last item, all the
items of the series carry the same labels, and the labels a new item is checked against are those of
the first item. -/
theorem C71_history (ops : List LabelOp) (hh : LabelHistory (({} : Heap), ({} : HSeries)) ops) :
    let st := ops.foldl labelStep (({} : Heap), ({} : HSeries))
    SameLabels (st.2.view st.1).items ∧
      (st.2.items ≠ [] → (st.2.view st.1).ref = (st.2.view st.1).items.head?.bind Item.data) := by
  intro st
  have hi : LabelInv st := labelInv_run ops labelInv_init hh
  refine ⟨?_, ?_⟩
  · intro x hx y hy
    obtain ⟨a, ha, rfl⟩ := List.mem_map.1 hx
    obtain ⟨b, hb, rfl⟩ := List.mem_map.1 hy
    obtain ⟨da, e1, _⟩ := hi.dict a ha
    obtain ⟨db, e2, _⟩ := hi.dict b hb
    exact ⟨da, db, e1, e2, hi.same a ha b hb da db e1 e2⟩
  · intro hne
    rcases hi.sync with h1 | h1
    · exact absurd h1 hne
    · rcases hl : st.2.items with _ | ⟨x, r⟩
      · exact absurd hl hne
      · rw [hl] at h1
        simp [HSeries.view, h1, hl, Heap.reads, Heap.read]

/-! ## What goes wrong -/

/-- a third item with the label `w` instead of `v` -/
def exNew : HItem := { t := 120, slot := none, tz := "UTC", dA := 2, iA := 2 }

def exHeap3 (k : String) : Heap := (exHeap.alloc (.dict [(k, 3)])).allocIdx []

/-- outcome of: (optionally) pop the first item, rename `v` to `w`, append an item with label `k` -/
def renameThenAppend (pop : Bool) (k : String) : Outcome :=
  let s := if pop then exH.popFirst else exH
  let h := (s.rename "v" "w" (exHeap3 k)).1
  (s.append h exNew).2

/-- **C80 is false after the first item has been popped**: the reference is still the data of the popped
item, which is not renamed; then an item with the new label is refused and one with the old label is
accepted.  Without the pop it is the other way round. -/
theorem C80_false :
    renameThenAppend false "w" = .ok () ∧ renameThenAppend false "v" = .error .valueError ∧
    renameThenAppend true "w" = .error .valueError ∧ renameThenAppend true "v" = .ok () := by
  decide +kernel

/-- the hypotheses of the rename theorem are met -/
theorem C71_witness : exH.Distinct ∧ exH.InSync ∧ HasLabel exHeap exH "v" ∧
    LabelHistory (({} : Heap), ({} : HSeries)) [.append 0 none "UTC" [("v", 1)] [], .rename "v" "w",
      .append 60 none "UTC" [("w", 2)] [], .popLast] := by
  refine ⟨by unfold HSeries.Distinct; decide, .inr rfl, ?_, ?_⟩
  · intro x hx
    simp only [exH, List.mem_cons, List.not_mem_nil, or_false] at hx
    rcases hx with rfl | rfl
    · exact ⟨_, rfl, by decide⟩
    · exact ⟨_, rfl, by decide⟩
  · simp [LabelHistory, labelAllowed, Dict.WF, Dict.keys]

end Timeseria
