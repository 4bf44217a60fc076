import Verif.Props.Inplace
import Verif.Props.OpsDiff
import Verif.Props.Interp
import Verif.Props.Labels

/-! # C79, C80, C86, C88: what is left of the refuted properties -/

namespace Timeseria

/-! ## The in-place cumulative sum -/

/-- the label loop of the in-place `csum` on one item -/
theorem csumLabels_inv (i : ℕ) (K : List String) (hn : K.Nodup) (st : IntState) (l : List Item) (x : Item)
    (d : Dict ℚ) (hx : l[i]? = some x) (hd : x.data = some (.dict d))
    (st' : IntState) (l' : List Item)
    (h : inplaceLabels (fun k => withPostfix k "csum") (fun st l i k => intStep l none (.num 0) i st k) i st l K
      = .ok (st', l')) :
    ∃ d', l' = l.set i { x with data := some (.dict d') } ∧
      (∀ k, (∀ k' ∈ K, withPostfix k' "csum" ≠ k) → d'.get? k = d.get? k) ∧
      (∀ k ∈ K, (∀ k' ∈ K, withPostfix k' "csum" ≠ k) → ∃ v, d.get? k = some v ∧
        d'.get? (withPostfix k "csum") = some ((st.last.get? k).getD 0 + v) ∧
        st'.last.get? k = some ((st.last.get? k).getD 0 + v)) ∧
      (∀ k, k ∉ K → st'.last.get? k = st.last.get? k) ∧
      (∀ k, k ∈ d'.keys ↔ k ∈ d.keys ∨ ∃ k' ∈ K, k = withPostfix k' "csum") ∧
      (d.WF → d'.WF) := by
  induction K generalizing st l x d with
  | nil =>
    cases h
    refine ⟨d, ?_, by simp, by simp, by simp, by simp, id⟩
    rw [set_same]
    rw [hx, ← hd]
  | cons k r ih =>
    have hil : i < l.length := valAt_lt hx
    rw [inplaceLabels] at h
    cases hs : intStep l none (.num 0) i st k with
    | error e => rw [hs] at h; simp at h
    | ok p =>
      obtain ⟨st1, v1⟩ := p
      rw [hs] at h
      simp only at h
      -- what the step computes
      have hv : ∃ v, d.get? k = some v ∧ v1 = (st.last.get? k).getD 0 + v ∧
          st1 = { prc := st.prc, last := st.last.set k v1 } := by
        unfold intStep at hs
        have e1 : valAt l i k = dataByLabel (.dict d) k := by
          unfold valAt Item.byLabel; rw [hx]; simp only [hd]
        simp only [e1, dataByLabel] at hs
        cases hk : d.get? k with
        | none => rw [hk] at hs; simp at hs
        | some v =>
          rw [hk] at hs
          simp only at hs
          cases ho : st.last.get? k with
          | none =>
            rw [ho] at hs
            simp only [addC, Except.ok.injEq, Prod.mk.injEq] at hs
            exact ⟨v, rfl, by rw [← hs.2]; simp, by rw [← hs.1, ← hs.2]⟩
          | some p =>
            rw [ho] at hs
            simp only [Except.ok.injEq, Prod.mk.injEq] at hs
            exact ⟨v, rfl, by rw [← hs.2]; simp, by rw [← hs.1, ← hs.2]⟩
      obtain ⟨v, hk, hv1, hst1⟩ := hv
      have hw : writeAt (fun k => withPostfix k "csum") l i k v1 =
          .ok (l.set i { x with data := some (.dict (d.set (withPostfix k "csum") v1)) }) := by
        unfold writeAt; rw [hx]; simp only [hd, writeLabel]
      rw [hw] at h
      simp only at h
      have hkr : k ∉ r := (List.nodup_cons.1 hn).1
      obtain ⟨d', h1, h2, h3, h4, h5, h6⟩ := ih (List.nodup_cons.1 hn).2 st1 _
        { x with data := some (.dict (d.set (withPostfix k "csum") v1)) } (d.set (withPostfix k "csum") v1)
        (List.getElem?_set_self hil) rfl h
      refine ⟨d', ?_, ?_, ?_, ?_, ?_, ?_⟩
      · rw [h1, List.set_set]
      · intro a ha
        rw [h2 a (fun k' hk' => ha k' (by simp [hk'])), Dict.get?_set, if_neg (ha k (by simp))]
      · intro a ha hno
        rcases List.mem_cons.1 ha with rfl | har
        · refine ⟨v, hk, ?_, ?_⟩
          · have : ∀ k' ∈ r, withPostfix k' "csum" ≠ withPostfix a "csum" := fun k' hk' e =>
              hkr (withPostfix_inj e ▸ hk')
            rw [h2 _ this, Dict.get?_set, if_pos rfl, hv1]
          · rw [h4 a hkr, hst1]
            simp only [Dict.get?_set, if_pos, hv1]
        · obtain ⟨w, w1, w2, w3⟩ := h3 a har (fun k' hk' => hno k' (by simp [hk']))
          have hne : k ≠ a := fun e => hkr (e ▸ har)
          have e2 : st1.last.get? a = st.last.get? a := by
            rw [hst1]; simp only [Dict.get?_set, if_neg hne]
          rw [e2] at w2 w3
          refine ⟨w, ?_, w2, w3⟩
          rw [Dict.get?_set, if_neg (hno k (by simp))] at w1
          exact w1
      · intro a ha
        rw [h4 a (fun e => ha (by simp [e])), hst1]
        simp only [Dict.get?_set, if_neg (fun e : k = a => ha (by simp [e]))]
      · intro a
        rw [h5 a, Dict.mem_keys_set]
        simp only [List.mem_cons, exists_eq_or_imp]
        tauto
      · intro hwf
        exact h6 (Dict.wf_set _ _ hwf)

/-- where the items are after the in-place `csum` of the first `i` of them -/
structure CsumInv (l0 : List Item) (ks : List String) (i : ℕ) (st : IntState) (l : List Item) : Prop where
  length : l.length = l0.length
  items : ∀ (j : ℕ) (x : Item), l0[j]? = some x → ∃ d', l[j]? = some { x with data := some (.dict d') } ∧
    (∀ k ∈ ks, d'.get? k = x.value? k) ∧
    (j < i → ∀ k ∈ ks, d'.get? (withPostfix k "csum") = some (runningSum l0 k j)) ∧
    (j = 0 → d'.WF ∧ (∀ k ∈ ks, k ∈ d'.keys) ∧ ∀ k ∈ d'.keys, k ∈ ks ∨ (i ≠ 0 ∧ ∃ k' ∈ ks, k = withPostfix k' "csum"))
  state : ∀ k ∈ ks, st.last.get? k = if i = 0 then none else some (runningSum l0 k (i - 1))

theorem csumLoop_inv {l0 : List Item} {ks : List String}
    (hk1 : ∀ k ∈ ks, withPostfix k "csum" ∉ ks) (hk2 : ∀ k ∈ ks, withPostfix (withPostfix k "csum") "csum" ∉ ks)
    (n i : ℕ) (st : IntState) (l : List Item) (hi : i + n = l0.length) (hinv : CsumInv l0 ks i st l) (r : List Item)
    (h : inplaceLoop (fun k => withPostfix k "csum") (fun st l i k => intStep l none (.num 0) i st k) st l
      (List.range' i n) = .ok r) :
    ∃ st', CsumInv l0 ks l0.length st' r := by
  induction n generalizing i st l with
  | zero => cases h; exact ⟨st, by simpa [← hi] using hinv⟩
  | succ n ih =>
    rw [List.range'_succ, inplaceLoop] at h
    cases hh : headLabels l with
    | error e => rw [hh] at h; simp at h
    | ok K =>
      rw [hh] at h
      simp only at h
      cases hl : inplaceLabels (fun k => withPostfix k "csum") (fun st l i k => intStep l none (.num 0) i st k) i st l K with
      | error e => rw [hl] at h; simp at h
      | ok p =>
        obtain ⟨st1, l1⟩ := p
        rw [hl] at h
        simp only at h
        -- the first item
        obtain ⟨x0, hx0⟩ : ∃ x0, l0[0]? = some x0 := ⟨l0[0]'(by omega), List.getElem?_eq_getElem (by omega)⟩
        obtain ⟨d0, g1, g2, g3, g4⟩ := hinv.items 0 x0 hx0
        obtain ⟨hwf, hsup, hsub⟩ := g4 rfl
        have hK : K = sortStr d0.keys := by
          unfold headLabels at hh
          rcases l with _ | ⟨y, r'⟩
          · simp at g1
          · simp only [List.getElem?_cons_zero, Option.some.injEq] at g1
            rw [g1] at hh
            simpa [labelsOf] using hh.symm
        have hKn : K.Nodup := by rw [hK]; exact (sortStr_perm _).nodup_iff.2 hwf
        have hmemK : ∀ k, k ∈ K ↔ k ∈ d0.keys := fun k => by rw [hK]; exact (sortStr_perm _).mem_iff
        have hno : ∀ k ∈ ks, ∀ k' ∈ K, withPostfix k' "csum" ≠ k := by
          intro k hk k' hk' e
          rcases hsub k' ((hmemK k').1 hk') with h' | ⟨_, k2, h', rfl⟩
          · exact hk1 k' h' (e ▸ hk)
          · exact hk2 k2 h' (e ▸ hk)
        obtain ⟨x, hx⟩ : ∃ x, l0[i]? = some x := ⟨l0[i]'(by omega), List.getElem?_eq_getElem (by omega)⟩
        obtain ⟨d, f1, f2, f3, f4⟩ := hinv.items i x hx
        obtain ⟨d', e1, e2, e3, e4, e5, e6⟩ := csumLabels_inv i K hKn st l _ d f1 rfl st1 l1 hl
        have hil : i < l.length := valAt_lt f1
        have hsum : ∀ k ∈ ks, ∃ v, d.get? k = some v ∧ (st.last.get? k).getD 0 + v = runningSum l0 k i := by
          intro k hk
          obtain ⟨v, v1, _, _⟩ := e3 k ((hmemK k).2 (hsup k hk)) (hno k hk)
          refine ⟨v, v1, ?_⟩
          have hv : valueAt l0 i k = v := by
            unfold valueAt; rw [hx]; simp only [Item.value, ← f2 k hk, v1, Option.getD_some]
          rw [hinv.state k hk]
          cases i with
          | zero => simp [runningSum, hv]
          | succ i => simp [runningSum, hv]
        refine ih (i + 1) st1 l1 (by omega) ⟨?_, ?_, ?_⟩ h
        · rw [e1, List.length_set]; exact hinv.length
        · intro j y hy
          by_cases hij : i = j
          · subst hij
            rw [hx] at hy; cases hy
            refine ⟨d', ?_, ?_, ?_, ?_⟩
            · rw [e1, List.getElem?_set_self hil]
            · intro k hk; rw [e2 k (hno k hk), f2 k hk]
            · intro _ k hk
              obtain ⟨v, v1, v2, _⟩ := e3 k ((hmemK k).2 (hsup k hk)) (hno k hk)
              obtain ⟨w, w1, w2⟩ := hsum k hk
              rw [v1] at w1; cases w1
              rw [v2, w2]
            · intro h0
              subst h0
              rw [hx0] at hx; cases hx
              rw [g1] at f1
              simp only [Option.some.injEq, Item.mk.injEq, true_and, and_true, Data.dict.injEq] at f1
              subst f1
              refine ⟨e6 hwf, fun k hk => (e5 k).2 (.inl (hsup k hk)), ?_⟩
              intro k hk
              have hks0 : ∀ k' ∈ K, k' ∈ ks := by
                intro k' hk'
                rcases hsub k' ((hmemK k').1 hk') with h' | ⟨h', _⟩
                · exact h'
                · exact absurd rfl h'
              rcases (e5 k).1 hk with h' | ⟨k', hk', rfl⟩
              · exact .inl (hks0 k ((hmemK k).2 h'))
              · exact .inr ⟨by omega, k', hks0 k' hk', rfl⟩
          · obtain ⟨dj, j1, j2, j3, j4⟩ := hinv.items j y hy
            refine ⟨dj, ?_, j2, fun hj => j3 (by omega), fun h0 => ?_⟩
            · rw [e1, List.getElem?_set_ne hij]; exact j1
            · obtain ⟨q1, q2, q3⟩ := j4 h0
              exact ⟨q1, q2, fun k hk => (q3 k hk).imp id (fun ⟨_, q⟩ => ⟨by omega, q⟩)⟩
        · intro k hk
          obtain ⟨v, v1, _, v3⟩ := e3 k ((hmemK k).2 (hsup k hk)) (hno k hk)
          obtain ⟨w, w1, w2⟩ := hsum k hk
          rw [v1] at w1; cases w1
          rw [v3, w2]
          simp

/-- **C79 (`csum`, partial)**: whenever the in-place `csum` of a series with dictionary data returns, every item is
where it was, has its indexes, its labels with their values and, under `label_csum`, the value that the variant
which is not in place returns.  Missing: the items after the first have further labels (`label_csum_csum`), see
`C79_false_integral`; labels which already end with the postfix.  (List data: `C79_csum_lists`.) -/
theorem C79_csum_partial {cal : Calendar} {s r : TSeries} {ks : List String} (h : OpSeries cal s ks)
    (hdict : ∀ x ∈ s.items, ∃ d, x.data = some (.dict d))
    (hk1 : ∀ k ∈ ks, k ++ "_" ++ "csum" ∉ ks) (hk2 : ∀ k ∈ ks, k ++ "_" ++ "csum" ++ "_" ++ "csum" ∉ ks)
    (hret : s.csumInplace = .ok r) :
    ∃ q, s.csumOp cal = .ok q ∧ r.items.length = s.items.length ∧ q.items.length = s.items.length ∧
      ∀ (j : ℕ) (x y z : Item), s.items[j]? = some x → r.items[j]? = some y → q.items[j]? = some z →
        SamePlace x y ∧ y.idx = x.idx ∧ ∀ k ∈ ks, y.value? k = x.value? k ∧
          y.value? (k ++ "_" ++ "csum") = z.value? (k ++ "_" ++ "csum") := by
  unfold TSeries.csumInplace at hret
  split_ifs at hret with h1 h2
  unfold TSeries.inplaceOp at hret
  split at hret
  · simp at hret
  · split at hret
    · simp at hret
    · rename_i l hl
      cases hret
      obtain ⟨q, q1, q2, q3, q4⟩ := csum_spec h h2
      obtain ⟨x0, r0, d, kk, hi, hd, hkk, hp, hprep⟩ := h.opPrep
      have hlab : ∀ k, resultLabel s.items "csum" k = k ++ "_" ++ "csum" := by
        intro k
        obtain ⟨d1, hd1⟩ := hdict x0 (by rw [hi]; simp)
        rw [hd] at hd1; cases hd1
        rw [← lab_eq_resultLabel hi hd]
        rfl
      rw [List.range_eq_range'] at hl
      obtain ⟨st', hinv⟩ := csumLoop_inv (l0 := s.items) (ks := ks) hk1 hk2 s.items.length 0 {} s.items (by omega)
        ⟨rfl, by
          intro j x hx
          have hxm := List.mem_of_getElem? hx
          obtain ⟨d1, hd1⟩ := hdict x hxm
          obtain ⟨d2, hd2, hp2, hn2, _⟩ := h.lab x hxm
          rw [hd1] at hd2; cases hd2
          refine ⟨d1, ?_, ?_, by omega, ?_⟩
          · rw [hx, ← hd1]
          · intro k _; simp [Item.value?, hd1, Data.pairs, Dict.get?]
          · intro _
            refine ⟨(hp2.nodup_iff).2 hn2, fun k hk => hp2.symm.subset hk, fun k hk => .inl (hp2.subset hk)⟩, by
          intro k _; rfl⟩ l hl
      refine ⟨q, q1, hinv.length, by simpa using q3.length, ?_⟩
      intro j x y z hx hy hz
      obtain ⟨d', a1, a2, a3, _⟩ := hinv.items j x hx
      simp only [TSeries.withItems] at hy
      rw [hy] at a1
      cases a1
      refine ⟨⟨rfl, rfl, rfl⟩, rfl, fun k hk => ⟨?_, ?_⟩⟩
      · rw [← a2 k hk]; rfl
      · have e1 := q3.values j z hz k hk
        rw [hlab k, Nat.zero_add] at e1
        rw [e1, ← a3 (valAt_lt hx) k hk]; rfl

/-- the hypotheses are met: three points, and the in-place call returns -/
theorem C79_csum_witness : exThree.csumInplace.toOption.isSome = true ∧
    lastVal exThree.csumInplace "v_csum" = some 8 ∧ lastVal exThree.csumInplace "v" = some 6 := by
  decide +kernel

/-! ## The in-place derivative -/

/-- what an in-place loop has done to an item: only its data has changed -/
theorem inplaceLabels_other {σ : Type} {ren : String → String} {f : σ → List Item → ℕ → String → Except PyErr (σ × ℚ)}
    {i : ℕ} (K : List String) (st : σ) (l : List Item) (st' : σ) (l' : List Item)
    (h : inplaceLabels ren f i st l K = .ok (st', l')) :
    (∀ j, j ≠ i → l'[j]? = l[j]?) ∧
    (∀ x d, l[i]? = some x → x.data = some (.dict d) → ∃ d', l'[i]? = some { x with data := some (.dict d') } ∧
      (∀ k ∈ K, ren k ∈ d'.keys) ∧ (∀ k ∈ d.keys, k ∈ d'.keys)) := by
  induction K generalizing st l with
  | nil =>
    cases h
    refine ⟨fun _ _ => rfl, fun x d hx hd => ⟨d, ?_, by simp, fun _ h => h⟩⟩
    rw [hx, ← hd]
  | cons k r ih =>
    rw [inplaceLabels] at h
    cases hs : f st l i k with
    | error e => rw [hs] at h; simp at h
    | ok p =>
      obtain ⟨st1, v1⟩ := p
      rw [hs] at h
      simp only at h
      cases hw : writeAt ren l i k v1 with
      | error e => rw [hw] at h; simp at h
      | ok l1 =>
        rw [hw] at h
        simp only at h
        obtain ⟨i1, i2⟩ := ih st1 l1 h
        unfold writeAt at hw
        refine ⟨?_, ?_⟩
        · intro j hj
          rw [i1 j hj]
          split at hw
          · simp at hw
          · split at hw
            · simp at hw
            · split at hw
              · simp at hw
              · cases hw; exact List.getElem?_set_ne (Ne.symm hj)
        · intro x d hx hd
          have hil : i < l.length := valAt_lt hx
          rw [hx] at hw
          simp only [hd, writeLabel, Except.ok.injEq] at hw
          obtain ⟨d', w1, w2, w3⟩ := i2 { x with data := some (.dict (d.set (ren k) v1)) } (d.set (ren k) v1)
            (by rw [← hw]; exact List.getElem?_set_self hil) rfl
          refine ⟨d', w1, ?_, ?_⟩
          · intro a ha
            rcases List.mem_cons.1 ha with rfl | ha
            · exact w3 _ ((Dict.mem_keys_set _ _ _ _).2 (.inl rfl))
            · exact w2 a ha
          · intro a ha
            exact w3 a ((Dict.mem_keys_set _ _ _ _).2 (.inr ha))

/-- if the loop over the labels succeeds, so does each computation, on a series that has changed only at that item -/
theorem inplaceLabels_mem {σ : Type} {ren : String → String} {f : σ → List Item → ℕ → String → Except PyErr (σ × ℚ)}
    {i : ℕ} (K : List String) (st : σ) (l : List Item) (st' : σ) (l' : List Item)
    (h : inplaceLabels ren f i st l K = .ok (st', l')) (k : String) (hk : k ∈ K) :
    ∃ st1 l1 p, f st1 l1 i k = .ok p ∧ l1.length = l.length ∧ ∀ j, j ≠ i → l1[j]? = l[j]? := by
  induction K generalizing st l with
  | nil => simp at hk
  | cons a r ih =>
    rw [inplaceLabels] at h
    cases hs : f st l i a with
    | error e => rw [hs] at h; simp at h
    | ok p =>
      obtain ⟨st1, v1⟩ := p
      rw [hs] at h
      simp only at h
      rcases List.mem_cons.1 hk with rfl | hk'
      · exact ⟨st, l, _, hs, rfl, fun _ _ => rfl⟩
      · cases hw : writeAt ren l i a v1 with
        | error e => rw [hw] at h; simp at h
        | ok l1 =>
          rw [hw] at h
          simp only at h
          obtain ⟨st2, l2, p, h1, h2, h3⟩ := ih st1 l1 h hk'
          unfold writeAt at hw
          split at hw
          · cases hw
          · split at hw
            · cases hw
            · split at hw
              · cases hw
              · cases hw
                refine ⟨st2, l2, p, h1, by rw [h2, List.length_set], ?_⟩
                intro j hj
                rw [h3 j hj, List.getElem?_set_ne (Ne.symm hj)]

/-- **C79 is false for `derivative` on every series with dictionary data and at least three items** (unless all its
labels have a derivative already): the in-place variant never returns. -/
theorem C79_derivative_false (cal : Calendar) (s : TSeries) (auto : ℚ) (x0 x1 x2 : Item) (rest : List Item)
    (hs : s.items = x0 :: x1 :: x2 :: rest) (d0 d2 : Dict ℚ) (h0 : x0.data = some (.dict d0))
    (h2 : x2.data = some (.dict d2)) (k : String) (hk : k ∈ d0.keys) (hno : k ++ "_" ++ "derivative" ∉ d2.keys) :
    (s.derivativeInplace cal auto).toOption = none := by
  cases hr : s.derivativeInplace cal auto with
  | error e => rfl
  | ok r =>
    exfalso
    unfold TSeries.derivativeInplace at hr
    split at hr
    · cases hr
    · split_ifs at hr
      split at hr
      · cases hr
      · rename_i ni hni
        unfold TSeries.inplaceOp at hr
        split at hr
        · cases hr
        · split at hr
          · cases hr
          · rename_i l hl
            rw [hs, show List.range (x0 :: x1 :: x2 :: rest).length = 0 :: 1 :: List.range' 2 (rest.length + 1) by
              rw [List.range_eq_range']; simp [List.range'_succ]] at hl
            rw [inplaceLoop] at hl
            have hh0 : headLabels (x0 :: x1 :: x2 :: rest) = .ok (sortStr d0.keys) := by
              simp [headLabels, h0, labelsOf]
            rw [hh0] at hl
            simp only at hl
            split at hl
            · cases hl
            · rename_i st1 l1 hl1
              obtain ⟨o1, o2⟩ := inplaceLabels_other _ _ _ _ _ hl1
              obtain ⟨d', w1, w2, w3⟩ := o2 x0 d0 rfl h0
              have hk' : withPostfix k "derivative" ∈ d'.keys := w2 k ((sortStr_perm _).mem_iff.2 hk)
              have hh1 : headLabels l1 = .ok (sortStr d'.keys) := by
                rcases l1 with _ | ⟨y, r'⟩
                · simp at w1
                · simp only [List.getElem?_cons_zero, Option.some.injEq] at w1
                  rw [w1]; simp [headLabels, labelsOf]
              rw [inplaceLoop, hh1] at hl
              simp only at hl
              split at hl
              · cases hl
              · rename_i st2 l2 hl2
                obtain ⟨st3, l3, p, f1, f2, f3⟩ := inplaceLabels_mem _ _ _ _ _ hl2 _ ((sortStr_perm _).mem_iff.2 hk')
                have g2 : l3[2]? = some x2 := by
                  rw [f3 2 (by omega), o1 2 (by omega)]; rfl
                have hv : valAt l3 2 (withPostfix k "derivative") = .error .keyError := by
                  unfold valAt Item.byLabel
                  rw [g2]
                  simp only [h2, dataByLabel]
                  rw [show Dict.get? d2 (withPostfix k "derivative") = none from by
                    cases hg : Dict.get? d2 (withPostfix k "derivative") with
                    | none => rfl
                    | some v => exact absurd (Dict.get?_isSome.1 ⟨v, hg⟩) hno]
                have hlen : ¬ (1 + 1 = l3.length) := by
                  intro e
                  have := valAt_lt g2
                  omega
                have hbad : ∃ e, derivVal l3 (some ni) false 1 (withPostfix k "derivative") = .error e := by
                  unfold derivVal
                  simp only [hv, Bool.false_eq_true, if_false, one_ne_zero, hlen]
                  cases valAt l3 1 (withPostfix k "derivative") with
                  | error e => exact ⟨e, rfl⟩
                  | ok v =>
                    cases valAt l3 (1 - 1) (withPostfix k "derivative") with
                    | error e => exact ⟨e, rfl⟩
                    | ok u => exact ⟨.keyError, rfl⟩
                obtain ⟨e, he⟩ := hbad
                rw [he] at f1
                cases f1

/-- the hypotheses are met by the three points above -/
theorem C79_derivative_witness : (exThree.derivativeInplace physicalCalendar 1).toOption.isNone = true ∧
    (exThree.derivativeOp physicalCalendar 1).toOption.isSome = true := by decide +kernel

/-! ## Interpolation outside of the series -/

/-- **C86 (partial)**: with the neighbours given, as the transformations do, a timestamp not after the first of the
two is refused; without them a timestamp before the only point of a series raises too.  Missing: with two or more
points and without neighbours it is not refused, see `C86_false`. -/
theorem C86_partial {ps : List VPoint} {ks : List String} {first n : VPoint} {j : ℕ} (hf : ps[0]? = some first)
    (hj : ps[j]? = some n) (x : ℚ) (hx : x < first.t) :
    linearEval ps ks x (some 0) (some j) = .error .valueError ∧
    (ps = [first] → ks ≠ [] → (∀ k ∈ ks, ∃ v, first.data.get? k = some v) →
      linearEval ps ks x none none = .error .zeroDivision) := by
  refine ⟨(C42_refused hf hj x (.inl hx.le)).1, ?_⟩
  rintro rfl hk hd
  have hs : searchNext x 0 [first] = some 0 := by simp [searchNext, hx]
  unfold linearEval
  simp only [hs]
  have e : ((0 : ℕ) : Int) - 1 = -1 := by decide
  rw [e]
  unfold linearBetween
  have p1 : pyGet [first] (-1) = .ok first := rfl
  have p2 : pyGet [first] ((0 : ℕ) : Int) = .ok first := rfl
  rw [p1, p2]
  simp only
  obtain ⟨k, r, rfl⟩ := List.exists_cons_of_ne_nil hk
  obtain ⟨v, hv⟩ := hd k (by simp)
  simp [perLabelDict, linearValue, hv]

/-- **C88 (partial)**: a timestamp from the last point on is refused, as it should be.  Missing: so is every other one
from the first point on, and one before the first is not, see `C88_false`. -/
theorem C88_partial {ps : List VPoint} (hne : ps ≠ []) (ho : ps.Pairwise (fun a b => a.t < b.t)) (ks : List String)
    {last : VPoint} (hl : ps.getLast? = some last) (x : ℚ) (hx : last.t ≤ x) :
    uniformEval ps ks x none none = .error .valueError := by
  rcases ps with _ | ⟨f, r⟩
  · exact absurd rfl hne
  · refine C88_false f r ks x ?_
    have hm := List.mem_of_getLast? hl
    rcases List.mem_cons.1 hm with rfl | hm
    · exact hx
    · exact ((List.pairwise_cons.1 ho).1 last hm).le.trans hx

/-- concrete cases -/
theorem C86_C88_witness : linearEval exInterp ["v"] (-1) (some 0) (some 1) = .error .valueError ∧
    uniformEval exInterp ["v"] 100 none none = .error .valueError := by decide +kernel

/-! ## Popping the first items -/

theorem popFirst_iterate (s : HSeries) (m : ℕ) :
    (HSeries.popFirst^[m] s).items = s.items.drop m ∧ (HSeries.popFirst^[m] s).refA = s.refA ∧
      (HSeries.popFirst^[m] s).attrs = s.attrs := by
  induction m generalizing s with
  | zero => simp
  | succ m ih =>
    rw [Function.iterate_succ_apply]
    obtain ⟨h1, h2, h3⟩ := ih s.popFirst
    exact ⟨by rw [h1]; simp [HSeries.popFirst], h2, h3⟩

/-- appending depends on the data of the new item only through the check of its labels -/
theorem append_outcome_data (s : TSeries) (x y : Item) (hs : s.items ≠ []) (r : Data) (hr : s.ref = some r)
    (ht : r.truthy = true) (h1 : y.t = x.t) (h2 : y.slot = x.slot) (h3 : y.tz = x.tz)
    (hd : x.data.isSome = y.data.isSome) (hx : checkData r x = .ok ()) (hy : checkData r y = .ok ()) :
    (s.append x).2 = (s.append y).2 := by
  obtain ⟨xt, xs, xz, xd, xi⟩ := x
  obtain ⟨yt, ys, yz, yd, yi⟩ := y
  simp only at h1 h2 h3 hd
  subst h1; subst h2; subst h3
  rcases hi : s.items with _ | ⟨f, l⟩
  · exact absurd hi hs
  · have hpre : s.pre ⟨yt, ys, yz, xd, xi⟩ = s.pre ⟨yt, ys, yz, yd, yi⟩ := rfl
    have key : ∀ s' : TSeries, s'.items = s.items → s'.ref = s.ref →
        (s'.baseAppend ⟨yt, ys, yz, xd, xi⟩).2 = (s'.baseAppend ⟨yt, ys, yz, yd, yi⟩).2 := by
      intro s' hs1 hs2
      unfold TSeries.baseAppend
      rw [hs1, hs2, hi, hr]
      obtain ⟨last, hl⟩ : ∃ last, (f :: l).getLast? = some last := ⟨_, List.getLast?_eq_getLast_of_ne_nil (by simp)⟩
      simp only [List.head?_cons, hl, hx, hy, ht, if_true]
      have hinst : Item.isInstance ⟨yt, ys, yz, xd, xi⟩ f.cls = Item.isInstance ⟨yt, ys, yz, yd, yi⟩ f.cls := by
        unfold Item.isInstance Item.cls
        simp only [Item.isSlot, hd]
      have hsucc : slotSucceeds ⟨yt, ys, yz, xd, xi⟩ last = slotSucceeds ⟨yt, ys, yz, yd, yi⟩ last := rfl
      rw [hinst, hsucc]
      simp only [Item.isSlot]
      cases ys with
      | none => simp [apply_ite Prod.snd]
      | some w => simp [apply_ite Prod.snd]
    unfold TSeries.append
    simp only
    have hsame : (if Item.isSlot ⟨yt, ys, yz, xd, xi⟩ then s.preSlot ⟨yt, ys, yz, xd, xi⟩ else s.prePoint ⟨yt, ys, yz, xd, xi⟩) =
        (if Item.isSlot ⟨yt, ys, yz, yd, yi⟩ then s.preSlot ⟨yt, ys, yz, yd, yi⟩ else s.prePoint ⟨yt, ys, yz, yd, yi⟩) := hpre
    rw [hsame]
    cases hp : (if Item.isSlot ⟨yt, ys, yz, yd, yi⟩ then s.preSlot ⟨yt, ys, yz, yd, yi⟩ else s.prePoint ⟨yt, ys, yz, yd, yi⟩).2 with
    | error e => rfl
    | ok u =>
      exact key _ (pre_items s _) (pre_ref s _)

/-- **C80 (partial)**: after any history of appends, renames, removals and pops of the last item followed by any number
of pops of the first item, a new item with the labels of the items left is not refused because of them (it is
accepted or refused as an item with the data of one of them at the same place), and one with other labels is refused.
Missing: renames and removals after the first item has been popped, see `C80_false`. -/
theorem C80_partial (ops : List LabelOp) (hh : LabelHistory (({} : Heap), ({} : HSeries)) ops) (m : ℕ)
    (t : ℚ) (slot : Option (ℚ × TUnit)) (tz : String) (d : Dict ℚ) (i : Idx) :
    let st := ops.foldl labelStep (({} : Heap), ({} : HSeries))
    let s := HSeries.popFirst^[m] st.2
    let h := (st.1.alloc (.dict d)).allocIdx i
    let x : HItem := { t := t, slot := slot, tz := tz, dA := st.1.data.length, iA := st.1.idx.length }
    ∀ y ∈ s.items, ∀ a, st.1.data[y.dA]? = some (.dict a) →
      ((∀ k, k ∈ Dict.keys a ↔ k ∈ Dict.keys d) → (s.append h x).2 = (s.append h { x with dA := y.dA }).2) ∧
      (¬ (∀ k, k ∈ Dict.keys a ↔ k ∈ Dict.keys d) → (s.append h x).2 ≠ .ok ()) := by
  intro st s h x y hy a hya
  have hi : LabelInv st := labelInv_run ops labelInv_init hh
  obtain ⟨p1, p2, p3⟩ := popFirst_iterate st.2 m
  have hsub : ∀ z ∈ s.items, z ∈ st.2.items := fun z hz => List.mem_of_mem_drop (p1 ▸ hz)
  have hkp : st.1.Kept h := (Heap.Kept.alloc st.1 _).trans (Heap.Kept.allocIdx _ _)
  have hold : ∀ z ∈ st.2.items, h.data[z.dA]? = st.1.data[z.dA]? := fun z hz => hkp.data _ (hi.valid z hz).1
  have hym := hsub y hy
  rcases hl : st.2.items with _ | ⟨f, r⟩
  · rw [hl] at hym; simp at hym
  · have hfm : f ∈ st.2.items := by rw [hl]; simp
    obtain ⟨df, hdf, hdfne, _⟩ := hi.dict f hfm
    have href : s.refA = some f.dA := by
      rw [show s.refA = st.2.refA from p2]
      rcases hi.sync with e | e
      · rw [hl] at e; cases e
      · rw [hl] at e; simpa using e
    have hrefv : (s.view h).ref = some (.dict df) := by
      unfold HSeries.view
      rw [href]
      simp [hold f hfm, hdf]
    have htr : (Data.dict df).truthy = true := by simp [Data.truthy, hdfne]
    have hne : (s.view h).items ≠ [] := by
      rw [view_items]
      intro e
      have : s.items = [] := by simpa [Heap.reads] using e
      rw [this] at hy; simp at hy
    have hxd : (h.read x).data = some (.dict d) := by
      show h.data[x.dA]? = _
      simp [h, x, Heap.alloc, Heap.allocIdx]
    have hyd : (h.read { x with dA := y.dA }).data = some (.dict a) := by
      show h.data[y.dA]? = _
      rw [hold y hym, hya]
    have hsame := hi.same f hfm y hym df a hdf hya
    have hchk : checkData (.dict df) (h.read { x with dA := y.dA }) = .ok () :=
      (checkData_iff _ _).2 ⟨_, hyd, fun k => hsame k⟩
    have hout : ∀ z : HItem, (s.append h z).2 = ((s.view h).append (h.read z)).2 := by
      intro z
      unfold HSeries.append
      cases ha : (s.view h).append (h.read z) with
      | mk s' o => cases o <;> rfl
    refine ⟨?_, ?_⟩
    · intro hk
      rw [hout, hout]
      refine append_outcome_data _ _ _ hne _ hrefv htr rfl rfl rfl (by rw [hxd, hyd]; rfl) ?_ hchk
      exact (checkData_iff _ _).2 ⟨_, hxd, fun k => (hsame k).trans (hk k)⟩
    · intro hk hok
      rw [hout] at hok
      rcases append_items (s.view h) (h.read x) with ⟨e, herr, _⟩ | ⟨_, _, _, _, hcase⟩
      · rw [hok] at herr; cases herr
      · rcases hcase with ⟨hemp, _⟩ | ⟨_, hck, _⟩
        · exact hne hemp
        · obtain ⟨hcd, _⟩ := hck _ hrefv htr
          obtain ⟨d', hd', hsk⟩ := (checkData_iff _ _).1 hcd
          rw [hxd] at hd'
          cases hd'
          exact hk (fun k => (hsame k).symm.trans (hsk k))

/-- a history meeting the hypotheses: after popping the first of two items one is left -/
theorem C80_partial_witness :
    LabelHistory (({} : Heap), ({} : HSeries)) [.append 0 none "UTC" [("v", 1)] [], .rename "v" "w",
      .append 60 none "UTC" [("w", 2)] []] ∧
    ((HSeries.popFirst^[1] ([LabelOp.append 0 none "UTC" [("v", 1)] [], .rename "v" "w",
      .append 60 none "UTC" [("w", 2)] []].foldl labelStep (({} : Heap), ({} : HSeries))).2).items.length = 1) := by
  refine ⟨by simp [LabelHistory, labelAllowed, Dict.WF, Dict.keys], by decide +kernel⟩

end Timeseria
