import Verif.Props.InplaceMore

/-! # C79: the in-place cumulative sum and integral of a series with list data -/

namespace Timeseria

theorem writeLabel_list {d : Data} (hd : ∃ v, d = .list v) (ren : String → String) (k : String) (v : ℚ) :
    writeLabel ren d k v = writeLabel id d k v := by
  obtain ⟨w, rfl⟩ := hd
  rfl

/-- the label loop on one item with list data -/
theorem csumListLabels {ks : List String} (kk : List String) (hn : kk.Nodup) (hsub : ∀ k ∈ kk, k ∈ ks) (i : ℕ)
    (st : IntState) (l : List Item) (x : Item) (hx : l[i]? = some x) (hl : LabelledBy x ks)
    (hlist : ∃ v, x.data = some (.list v)) :
    ∃ st' x', inplaceLabels (fun k => withPostfix k "csum") (fun st l i k => intStep l none (.num 0) i st k) i st l kk =
        .ok (st', l.set i x') ∧ SamePlace x x' ∧ x'.idx = x.idx ∧ LabelledBy x' ks ∧ (∃ v, x'.data = some (.list v)) ∧
      (∀ d, x.data = some d → ∃ d', x'.data = some d' ∧ labelsOf d' = labelsOf d) ∧
      (∀ k, x'.value? k = if k ∈ kk then some ((st.last.get? k).getD 0 + x.value k) else x.value? k) ∧
      (∀ k, st'.last.get? k = if k ∈ kk then some ((st.last.get? k).getD 0 + x.value k) else st.last.get? k) := by
  induction kk generalizing l x st with
  | nil =>
    refine ⟨st, x, ?_, ⟨rfl, rfl, rfl⟩, rfl, hl, hlist, ?_, by simp, by simp⟩
    · rw [set_same hx]; rfl
    · intro d hd; exact ⟨d, hd, rfl⟩
  | cons k r ih =>
    have hks : k ∈ ks := hsub k (by simp)
    have hil : i < l.length := valAt_lt hx
    obtain ⟨vs, hvs⟩ := hlist
    obtain ⟨hperm, hnd⟩ := hl.mem_pairs hvs
    have hstep : intStep l none (.num 0) i st k = .ok
        ({ prc := st.prc, last := st.last.set k ((st.last.get? k).getD 0 + x.value k) }, (st.last.get? k).getD 0 + x.value k) := by
      have hv : valAt l i k = .ok (x.value k) := by
        unfold valAt; rw [hx]; exact hl.byLabel hks
      unfold intStep
      simp only [hv]
      cases st.last.get? k with
      | none => simp [addC]
      | some p => simp
    generalize hw0 : (st.last.get? k).getD 0 + x.value k = w at hstep
    obtain ⟨d', hw, hlab, hlook, hnum, hsame, hlo⟩ := writeLabel_id hnd (hperm.symm.subset hks) w
    have hd' : ∃ v, d' = .list v := by
      cases d' with
      | list v => exact ⟨v, rfl⟩
      | num v => simp [SameKind] at hsame
      | dict v => simp [SameKind] at hsame
    have hx' : (l.set i { x with data := some d' })[i]? = some { x with data := some d' } := by
      rw [List.getElem?_set_self hil]
    have hkr : k ∉ r := (List.nodup_cons.1 hn).1
    have hval : ∀ k', Item.value? { x with data := some d' } k' = if k = k' then some w else x.value? k' := by
      intro k'
      simp only [Item.value?, hvs]
      exact hlook k'
    have hvr : ∀ k' ∈ r, Item.value { x with data := some d' } k' = x.value k' := by
      intro k' hk'
      have hne : k ≠ k' := fun he => hkr (he ▸ hk')
      unfold Item.value
      rw [hval k', if_neg hne]
    obtain ⟨st', x', h1, h2, h3, h4, h5, h6, h7, h8⟩ := ih (List.nodup_cons.1 hn).2
      (fun a ha => hsub a (by simp [ha])) { prc := st.prc, last := st.last.set k w } _ _ hx'
      ⟨d', rfl, by rw [hlab]; exact hperm, (hperm.nodup_iff).1 hnd, hnum⟩
      (by obtain ⟨v, rfl⟩ := hd'; exact ⟨v, rfl⟩)
    have hlast : ∀ k' ∈ r, (Dict.get? (st.last.set k w) k') = st.last.get? k' := by
      intro k' hk'
      rw [Dict.get?_set, if_neg (fun he => hkr (by rw [he]; exact hk'))]
    refine ⟨st', x', ?_, ⟨h2.1, h2.2.1, h2.2.2⟩, h3, h4, h5, ?_, ?_, ?_⟩
    · rw [inplaceLabels, hstep]
      dsimp only
      have hwa : writeAt (fun k => withPostfix k "csum") l i k w = .ok (l.set i { x with data := some d' }) := by
        unfold writeAt
        rw [hx]
        simp only [hvs, writeLabel_list ⟨vs, rfl⟩, hw]
      rw [hwa]
      dsimp only
      rw [List.set_set] at h1
      exact h1
    · intro d1 hd1
      rw [hvs] at hd1
      cases hd1
      obtain ⟨d2, q1, q2⟩ := h6 d' rfl
      exact ⟨d2, q1, q2.trans hlo⟩
    · intro k'
      rw [h7 k']
      by_cases hk' : k' ∈ r
      · rw [if_pos hk', if_pos (by simp [hk']), hvr k' hk', hlast k' hk']
      · rw [if_neg hk', hval k']
        by_cases he : k = k'
        · subst he; rw [if_pos rfl, if_pos (by simp), hw0]
        · rw [if_neg he, if_neg (by simp [hk', Ne.symm he])]
    · intro k'
      rw [h8 k']
      by_cases hk' : k' ∈ r
      · rw [if_pos hk', if_pos (by simp [hk']), hvr k' hk', hlast k' hk']
      · rw [if_neg hk', Dict.get?_set]
        by_cases he : k = k'
        · subst he; rw [if_pos rfl, if_pos (by simp), hw0]
        · rw [if_neg he, if_neg (by simp [hk', Ne.symm he])]

/-- the item loop: the items before `i` have their running sums -/
theorem csumListLoop {cal : Calendar} {s : TSeries} {ks kk : List String} (h : OpSeries cal s ks)
    (hlist : ∀ x ∈ s.items, ∃ v, x.data = some (.list v))
    (hkk : ∀ d, (∃ x, s.items.head? = some x ∧ x.data = some d) → labelsOf d = .ok kk)
    (hp : kk.Perm ks)
    (n i : ℕ) (hin : i + n = s.items.length) (st : IntState) (l : List Item) (hlen : l.length = s.items.length)
    (hst : ∀ k ∈ ks, st.last.get? k = if i = 0 then none else some (runningSum s.items k (i - 1)))
    (hdone : ∀ (j : ℕ) (x y : Item), j < i → s.items[j]? = some x → l[j]? = some y →
      SamePlace x y ∧ y.idx = x.idx ∧ LabelledBy y ks ∧
      (∀ d, x.data = some d → ∃ d', y.data = some d' ∧ labelsOf d' = labelsOf d) ∧
      ∀ k ∈ ks, y.value? k = some (runningSum s.items k j))
    (htodo : ∀ j, i ≤ j → l[j]? = s.items[j]?) :
    ∃ l', inplaceLoop (fun k => withPostfix k "csum") (fun st l i k => intStep l none (.num 0) i st k) st l (List.range' i n) = .ok l' ∧
      l'.length = s.items.length ∧
      ∀ (j : ℕ) (x y : Item), s.items[j]? = some x → l'[j]? = some y →
        SamePlace x y ∧ y.idx = x.idx ∧ LabelledBy y ks ∧
        (∀ d, x.data = some d → ∃ d', y.data = some d' ∧ labelsOf d' = labelsOf d) ∧
        ∀ k ∈ ks, y.value? k = some (runningSum s.items k j) := by
  induction n generalizing i l st with
  | zero =>
    refine ⟨l, rfl, hlen, ?_⟩
    intro j x y hx hy
    exact hdone j x y (by have := valAt_lt hx; omega) hx hy
  | succ n ih =>
    have hi : i < s.items.length := by omega
    have hxi : s.items[i]? = some s.items[i] := List.getElem?_eq_getElem hi
    have hli : l[i]? = some s.items[i] := by rw [htodo i (le_refl _), hxi]
    have hmem : s.items[i] ∈ s.items := List.getElem_mem hi
    have hhead : headLabels l = .ok kk := by
      have h0 : 0 < s.items.length := by omega
      have hs0 : s.items.head? = some s.items[0] := by
        rw [List.head?_eq_getElem?]; exact List.getElem?_eq_getElem h0
      obtain ⟨d, hd, _⟩ := h.lab _ (List.getElem_mem h0)
      have hk0 := hkk d ⟨_, hs0, hd⟩
      have h0' : 0 < l.length := by omega
      have key : ∃ d', l[0].data = some d' ∧ labelsOf d' = .ok kk := by
        by_cases hi0 : 0 < i
        · obtain ⟨_, _, _, hh, _⟩ := hdone 0 _ _ hi0 (List.getElem?_eq_getElem h0)
            (List.getElem?_eq_getElem h0')
          obtain ⟨d', h1, h2⟩ := hh d hd
          exact ⟨d', h1, h2.trans hk0⟩
        · have := htodo 0 (by omega)
          rw [List.getElem?_eq_getElem h0, List.getElem?_eq_getElem h0'] at this
          rw [Option.some.inj this]
          exact ⟨d, hd, hk0⟩
      obtain ⟨d', h1, h2⟩ := key
      rcases hl0 : l with _ | ⟨y, r⟩
      · rw [hl0] at h0'; simp at h0'
      · simp only [hl0, List.getElem_cons_zero] at h1
        simp [headLabels, h1, h2]
    obtain ⟨st', x', e1, e2, e3, e4, _, e5, e6, e7⟩ := csumListLabels kk (hp.nodup_iff.2 h.nodup)
      (fun k hk => hp.subset hk) i st l _ hli (h.lab _ hmem) (hlist _ hmem)
    have hrun : ∀ k ∈ ks, (st.last.get? k).getD 0 + (s.items[i]).value k = runningSum s.items k i := by
      intro k hk
      have hv : valueAt s.items i k = (s.items[i]).value k := by unfold valueAt; rw [hxi]
      rw [hst k hk]
      cases i with
      | zero => simp [runningSum, hv]
      | succ i => simp [runningSum, hv]
    obtain ⟨l', f1, f2, f3⟩ := ih (i + 1) (by omega) st' (l.set i x') (by simpa using hlen)
      (by
        intro k hk
        rw [e7 k, if_pos (hp.symm.subset hk), hrun k hk]
        simp)
      (by
        intro j x y hj hx hy
        by_cases hji : j = i
        · subst hji
          rw [hxi] at hx
          cases hx
          rw [List.getElem?_set_self (by omega)] at hy
          cases hy
          refine ⟨e2, e3, e4, e5, ?_⟩
          intro k hk
          rw [e6 k, if_pos (hp.symm.subset hk), hrun k hk]
        · rw [List.getElem?_set_ne (Ne.symm hji)] at hy
          exact hdone j x y (by omega) hx hy)
      (by
        intro j hj
        rw [List.getElem?_set_ne (by omega)]
        exact htodo j (by omega))
    refine ⟨l', ?_, f2, f3⟩
    rw [List.range'_succ, inplaceLoop, hhead]
    dsimp only
    rw [e1]
    exact f1

/-- **C79 (`csum`, lists)**: on a series with list data and a constant resolution the in-place `csum` returns, and leaves the series with the items, label by label, which the other variant returns. -/
theorem C79_csum_lists {cal : Calendar} {s : TSeries} {ks : List String} (h : OpSeries cal s ks)
    (hlist : ∀ x ∈ s.items, ∃ v, x.data = some (.list v)) (hres : s.res ≠ .varying) :
    ∃ q r, s.csumOp cal = .ok q ∧ s.csumInplace = .ok r ∧ SameContent ks q.items r.items := by
  obtain ⟨q, q1, _, q3, q4⟩ := csum_spec h hres
  obtain ⟨x0, r0, d, kk, hi, hd, hkk, hp, hprep⟩ := h.opPrep
  have hid : resultLabel s.items "csum" = id := by
    funext k
    obtain ⟨v, hv⟩ := hlist x0 (by rw [hi]; simp)
    rw [hi]
    simp [resultLabel, newLabel, hv]
  rw [hid] at q3
  obtain ⟨l', f1, f2, f3⟩ := csumListLoop h hlist (kk := kk) (by
      rintro d' ⟨x, hx, hd'⟩
      rw [hi] at hx
      simp only [List.head?_cons, Option.some.injEq] at hx
      subst hx
      rw [hd] at hd'
      cases hd'
      exact hkk) hp s.items.length 0 (by omega) {} s.items rfl (fun k _ => rfl)
    (fun j x y hj => by omega) (fun j _ => rfl)
  have hr : s.csumInplace = .ok (s.withItems l') := by
    unfold TSeries.csumInplace
    rw [if_neg (by simp [hi]), if_neg hres]
    unfold TSeries.inplaceOp
    rw [hprep]
    simp only [List.range_eq_range', f1]
  refine ⟨q, s.withItems l', q1, hr, sameContent_of q3 (v := fun i k => runningSum s.items k i) ⟨by simpa [TSeries.withItems] using f2, ?_, ?_, ?_⟩ q4 ?_⟩
  · intro j x y hx hy
    exact (f3 j x y (by simpa using hx) hy).1
  · intro y hy
    rw [List.map_id]
    obtain ⟨j, hj, rfl⟩ := List.getElem_of_mem hy
    have hj' : j < s.items.length := by
      have : (s.withItems l').items.length = s.items.length := f2
      omega
    exact (f3 j _ _ (List.getElem?_eq_getElem hj') (List.getElem?_eq_getElem hj)).2.2.1
  · intro j y hy k hk
    have hj' : j < s.items.length := by
      have h1 := valAt_lt hy
      have : (s.withItems l').items.length = s.items.length := f2
      omega
    have := (f3 j _ y (List.getElem?_eq_getElem hj') hy).2.2.2.2 k hk
    rw [Nat.zero_add]
    exact this
  · intro j x y hx hy
    exact (f3 j x y hx hy).2.1

theorem C79_csum_lists_witness : TSeries.build exThreeList.items = .ok exThreeList ∧ exThreeList.res ≠ .varying ∧
    exThreeList.items.map Item.data = [some (.list [0]), some (.list [2]), some (.list [6])] ∧
    exThreeList.csumInplace.toOption.map (fun s => s.items.map Item.data) =
      some [some (.list [0]), some (.list [2]), some (.list [8])] := by
  decide +kernel

/-! ## The integral -/

/-- item `j` of the two lists: equal but for its list data, which is equal too at the positions before `i` and at the first -/
def PairAt (N i : ℕ) (l1 l2 : List Item) (j : ℕ) : Prop :=
  ∃ (x : Item) (v1 v2 : List ℚ), l1[j]? = some { x with data := some (.list v1) } ∧
    l2[j]? = some { x with data := some (.list v2) } ∧ v1.length = N ∧ v2.length = N ∧ (j < i ∨ j = 0 → v1 = v2)

/-- a step of the integral reads the item before, or the item itself at the first one, and times -/
theorem intStep_reads {l1 l2 : List Item} {ni : Bool × ℚ} {c : NumOrDict} {i : ℕ} {st : IntState} {k : String}
    (h0 : i = 0 → l1[i]? = l2[i]?) (h1 : 0 < i → l1[i - 1]? = l2[i - 1]?)
    (ht : tAt l1 i = tAt l2 i) : intStep l1 (some ni) c i st k = intStep l2 (some ni) c i st k := by
  obtain ⟨b, si⟩ := ni
  rcases Nat.eq_zero_or_pos i with hi | hi
  · subst hi
    have e : valAt l1 0 k = valAt l2 0 k := by unfold valAt; rw [h0 rfl]
    unfold intStep
    simp only [e, if_true]
  · have e : valAt l1 (i - 1) k = valAt l2 (i - 1) k := by unfold valAt; rw [h1 hi]
    have e2 : tAt l1 (i - 1) = tAt l2 (i - 1) := by unfold tAt; rw [h1 hi]
    have hne : i ≠ 0 := by omega
    unfold intStep
    simp only [e, e2, ht, if_neg hne]

/-- the label loop on one item: from the label `n` on, when the values before it agree -/
theorem intListLabels {ni : Bool × ℚ} {c : NumOrDict} {N i : ℕ} (x : Item) (m n : ℕ) (hm : n + m = N) (st : IntState)
    (l1 l2 : List Item) (v1 v2 : List ℚ) (h1 : l1[i]? = some { x with data := some (.list v1) })
    (h2 : l2[i]? = some { x with data := some (.list v2) }) (n1 : v1.length = N) (n2 : v2.length = N)
    (hpre : v1.take n = v2.take n) (h0 : i = 0 → v1 = v2) (hp : 0 < i → l1[i - 1]? = l2[i - 1]?)
    (st' : IntState) (r : List Item)
    (h : inplaceLabels (fun k => withPostfix k "integral") (fun st l i k => intStep l (some ni) c i st k) i st l1
      ((List.range' n m).map strNat) = .ok (st', r)) :
    ∃ w : List ℚ, w.length = N ∧ r = l1.set i { x with data := some (.list w) } ∧
      inplaceLabels (fun k => withPostfix k "integral") (fun st l i k => intStep l (some ni) c i st k) i st l2
        ((List.range' n m).map strNat) = .ok (st', l2.set i { x with data := some (.list w) }) := by
  induction m generalizing n st l1 l2 v1 v2 with
  | zero =>
    have hv : v1 = v2 := by
      rw [List.take_of_length_le (by omega), List.take_of_length_le (by omega)] at hpre
      exact hpre
    subst hv
    cases h
    refine ⟨v1, n1, ?_, ?_⟩
    · rw [set_same h1]
    · rw [set_same h2]; rfl
  | succ m ih =>
    have hi1 : i < l1.length := valAt_lt h1
    have hi2 : i < l2.length := valAt_lt h2
    rw [List.range'_succ, List.map_cons, inplaceLabels] at h
    have hs : intStep l1 (some ni) c i st (strNat n) = intStep l2 (some ni) c i st (strNat n) := by
      refine intStep_reads (fun e => ?_) hp ?_
      · rw [h1, h2, h0 e]
      · unfold tAt; rw [h1, h2]
    cases hq : intStep l1 (some ni) c i st (strNat n) with
    | error e => rw [hq] at h; simp at h
    | ok p =>
      obtain ⟨st1, w⟩ := p
      rw [hq] at h
      dsimp only at h
      have hw : ∀ (l : List Item) (v : List ℚ), l[i]? = some { x with data := some (.list v) } → v.length = N →
          writeAt (fun k => withPostfix k "integral") l i (strNat n) w =
            .ok (l.set i { x with data := some (.list (v.set n w)) }) := by
        intro l v hl hn
        unfold writeAt writeLabel
        rw [hl]
        dsimp only
        rw [readNat_strNat]
        dsimp only
        rw [if_pos (by omega)]
      rw [hw l1 v1 h1 n1] at h
      dsimp only at h
      obtain ⟨u, u1, u2, u3⟩ := ih (n + 1) (by omega) st1 (l1.set i { x with data := some (.list (v1.set n w)) })
        (l2.set i { x with data := some (.list (v2.set n w)) }) (v1.set n w) (v2.set n w)
        (List.getElem?_set_self hi1) (List.getElem?_set_self hi2) (by simpa using n1) (by simpa using n2)
        (by
          rw [List.take_add_one, List.take_add_one, List.getElem?_set_self (by omega), List.getElem?_set_self (by omega),
            List.take_set_of_le (le_refl _), List.take_set_of_le (le_refl _), hpre])
        (fun e => by rw [h0 e])
        (fun e => by
          rw [List.getElem?_set_ne (by omega), List.getElem?_set_ne (by omega)]
          exact hp e)
        h
      refine ⟨u, u1, ?_, ?_⟩
      · rw [u2, List.set_set]
      · rw [List.range'_succ, List.map_cons, inplaceLabels, ← hs, hq]
        dsimp only
        rw [hw l2 v2 h2 n2]
        dsimp only
        rw [u3, List.set_set]

/-- the item loop: both runs end with the same items -/
theorem intListLoop {ni : Bool × ℚ} {c : NumOrDict} {N len : ℕ} (n i : ℕ) (hi : i + n = len) (st : IntState)
    (l1 l2 : List Item) (n1 : l1.length = len) (n2 : l2.length = len) (hall : ∀ j < len, PairAt N i l1 l2 j)
    (r : List Item)
    (h : inplaceLoop (fun k => withPostfix k "integral") (fun st l i k => intStep l (some ni) c i st k) st l1
      (List.range' i n) = .ok r) :
    inplaceLoop (fun k => withPostfix k "integral") (fun st l i k => intStep l (some ni) c i st k) st l2
      (List.range' i n) = .ok r := by
  induction n generalizing i st l1 l2 with
  | zero =>
    have : l1 = l2 := by
      refine List.ext_getElem? (fun j => ?_)
      by_cases hj : j < len
      · obtain ⟨x, v1, v2, a1, a2, _, _, a5⟩ := hall j hj
        rw [a1, a2, a5 (.inl (by omega))]
      · rw [List.getElem?_eq_none (by omega), List.getElem?_eq_none (by omega)]
    subst this
    exact h
  | succ n ih =>
    have hlab : ∀ l : List Item, (∃ (x : Item) (v : List ℚ), l[0]? = some { x with data := some (.list v) } ∧ v.length = N) →
        headLabels l = .ok ((List.range' 0 N).map strNat) := by
      rintro l ⟨x, v, hl, hv⟩
      rcases l with _ | ⟨y, l⟩
      · simp at hl
      · simp only [List.getElem?_cons_zero, Option.some.injEq] at hl
        subst hl
        simp [headLabels, labelsOf, hv, List.range_eq_range']
    obtain ⟨x0, w1, w2, b1, b2, b3, b4, _⟩ := hall 0 (by omega)
    rw [List.range'_succ, inplaceLoop, hlab l1 ⟨x0, w1, b1, b3⟩] at h
    rw [List.range'_succ, inplaceLoop, hlab l2 ⟨x0, w2, b2, b4⟩]
    dsimp only at h ⊢
    cases hq : inplaceLabels (fun k => withPostfix k "integral") (fun st l i k => intStep l (some ni) c i st k) i st l1
        ((List.range' 0 N).map strNat) with
    | error e => rw [hq] at h; simp at h
    | ok p =>
      obtain ⟨st1, r1⟩ := p
      rw [hq] at h
      dsimp only at h
      obtain ⟨x, v1, v2, a1, a2, a3, a4, a5⟩ := hall i (by omega)
      have hi1 : i < l1.length := valAt_lt a1
      have hi2 : i < l2.length := valAt_lt a2
      obtain ⟨w, e1, e2, e3⟩ := intListLabels x N 0 (by omega) st l1 l2 v1 v2 a1 a2 a3 a4 (by simp) (fun e => a5 (.inr e))
        (fun e => by
          obtain ⟨y, u1, u2, c1, c2, _, _, c5⟩ := hall (i - 1) (by omega)
          rw [c1, c2, c5 (.inl (by omega))]) st1 r1 hq
      rw [e3]
      dsimp only
      subst e2
      refine ih (i + 1) (by omega) st1 _ _ (by simpa using n1) (by simpa using n2) ?_ h
      intro j hj
      by_cases hij : i = j
      · subst hij
        exact ⟨x, w, w, List.getElem?_set_self hi1, List.getElem?_set_self hi2, e1, e1, fun _ => rfl⟩
      · obtain ⟨y, u1, u2, c1, c2, c3, c4, c5⟩ := hall j hj
        exact ⟨y, u1, u2, by rw [List.getElem?_set_ne hij]; exact c1, by rw [List.getElem?_set_ne hij]; exact c2, c3, c4,
          fun e => c5 (by omega)⟩

/-- **C79 is false for `integral` on every series with list data**: the in-place variant never reads the values after the first item.  Two series with the same first item, and whose other items differ at most in their list data, are left with the same items. -/
theorem C79_integral_lists_false {cal : Calendar} {s s' : TSeries} {ks : List String} (h : OpSeries cal s ks)
    (h' : OpSeries cal s' ks) (auto : ℚ) (c : NumOrDict) (hres : s'.res = s.res) (x0 : Item) (l l' : List Item)
    (hi : s.items = x0 :: l) (hi' : s'.items = x0 :: l')
    (hlist : ∀ x ∈ s.items ++ s'.items, ∃ v, x.data = some (.list v))
    (hsame : List.Forall₂ (fun x y => SamePlace x y ∧ y.idx = x.idx) l l') (r : TSeries)
    (hr : s.integralInplace cal auto c = .ok r) :
    ∃ r', s'.integralInplace cal auto c = .ok r' ∧ r'.items = r.items := by
  have hN : ∀ x ∈ s.items ++ s'.items, ∃ v, x.data = some (.list v) ∧ v.length = ks.length := by
    intro x hx
    obtain ⟨v, hv⟩ := hlist x hx
    have hl : LabelledBy x ks := by
      rcases List.mem_append.1 hx with hx | hx
      · exact h.lab x hx
      · exact h'.lab x hx
    obtain ⟨hp, _⟩ := hl.mem_pairs hv
    refine ⟨v, hv, ?_⟩
    have := hp.length_eq
    rw [pairs_list] at this
    simpa using this
  have hlen := hsame.length_eq
  have hall : ∀ j < s.items.length, PairAt ks.length 0 s.items s'.items j := by
    intro j hj
    have hj' : j < s'.items.length := by rw [hi'] ; rw [hi] at hj; simpa [← hlen] using hj
    obtain ⟨v, hv, hvn⟩ := hN (s.items[j]) (by simp)
    obtain ⟨v', hv', hvn'⟩ := hN (s'.items[j]) (by simp)
    refine ⟨s.items[j], v, v', ?_, ?_, hvn, hvn', ?_⟩
    · rw [List.getElem?_eq_getElem hj, ← hv]
    · rw [List.getElem?_eq_getElem hj', ← hv']
      have key : SamePlace s.items[j] s'.items[j] ∧ s'.items[j].idx = s.items[j].idx := by
        cases j with
        | zero => simp [hi, hi', SamePlace]
        | succ j =>
          simp only [hi, hi', List.getElem_cons_succ]
          exact (List.forall₂_iff_get.1 hsame).2 j _ _
      obtain ⟨⟨k1, k2, k3⟩, k4⟩ := key
      rw [← k1, ← k2, ← k3, ← k4]
    · rintro (hc | hc)
      · omega
      · subst hc
        simp only [hi, hi', List.getElem_cons_zero] at hv hv'
        rw [hv] at hv'
        cases hv'; rfl
  obtain ⟨_, _, d, kk, _, _, _, _, hprep⟩ := h.opPrep
  obtain ⟨_, _, d', kk', _, _, _, _, hprep'⟩ := h'.opPrep
  have hni : s'.normInfo cal auto = s.normInfo cal auto := by
    unfold TSeries.normInfo
    rw [hres, hi, hi']
    cases s.res <;> rfl
  unfold TSeries.integralInplace TSeries.inplaceOp at hr ⊢
  rw [hprep] at hr
  rw [hprep', hni]
  dsimp only at hr ⊢
  cases hn : s.normInfo cal auto with
  | error e => rw [hn] at hr; simp at hr
  | ok ni =>
    rw [hn] at hr
    dsimp only at hr ⊢
    split at hr
    · simp at hr
    · rename_i q hq
      cases hr
      rw [List.range_eq_range'] at hq
      have hl2 : s'.items.length = s.items.length := by rw [hi, hi']; simp [hlen]
      have := intListLoop (N := ks.length) (len := s.items.length) s.items.length 0 (by omega) {} s.items s'.items rfl hl2
        hall q hq
      rw [List.range_eq_range', hl2, this]
      exact ⟨_, rfl, rfl⟩

/-- the hypotheses are met, and the two results of the variant which is not in place differ -/
theorem C79_integral_lists_witness : TSeries.build exThreeList.items = .ok exThreeList ∧
    (exThreeList.integralInplace physicalCalendar 1 (.num 0)).toOption.map (fun s => s.items.map Item.data) =
      some [some (.list [0]), some (.list [0]), some (.list [0])] ∧
    (exThreeList.integralOp physicalCalendar 1 (.num 0)).toOption.map (fun s => s.items.map Item.data) =
      some [some (.list [0]), some (.list [0]), some (.list [4])] := by
  decide +kernel

end Timeseria
