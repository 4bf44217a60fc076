import Verif.Props.DetectorFitClaims

/-! # The worst item of the fit (C157), saving and loading a detector (C158, C159) -/

namespace Timeseria

variable {I D : Type}

/-! ## C157 -/

theorem foldl_max_le {b : ℚ} : ∀ (l : List ℚ) (x : ℚ), x ≤ b → (∀ y ∈ l, y ≤ b) → l.foldl max x ≤ b := by
  intro l
  induction l with
  | nil => intro x hx _; exact hx
  | cons y l ih =>
    intro x hx hl
    exact ih _ (max_le hx (hl y (by simp))) (fun z hz => hl z (by simp [hz]))

theorem le_foldl_max : ∀ (l : List ℚ) (x : ℚ), ∀ y ∈ x :: l, y ≤ l.foldl max x := by
  intro l x
  exact (foldl_max_mem l x).2

theorem pyMaxList_eq {l : List ℚ} {x : ℚ} (hx : x ∈ l) (hmax : ∀ y ∈ l, y ≤ x) : pyMaxList l = .ok x := by
  cases l with
  | nil => simp at hx
  | cons y l =>
    have : l.foldl max y = x := le_antisymm
      (foldl_max_le _ _ (hmax y (by simp)) (fun z hz => hmax z (by simp [hz]))) (le_foldl_max _ _ _ hx)
    show Except.ok (l.foldl max y) = _
    rw [this]

theorem avg_lt {l : List ℚ} {x y : ℚ} (hmax : ∀ z ∈ l, z ≤ x) (hy : y ∈ l) (hyx : y < x) :
    l.sum / l.length < x := by
  have hlen : (0 : ℚ) < l.length := by
    have : 0 < l.length := List.length_pos_of_mem hy
    exact_mod_cast this
  rw [div_lt_iff₀ hlen]
  clear hlen
  induction l with
  | nil => simp at hy
  | cons z l ih =>
    have hz := hmax z (by simp)
    have hle : ∀ l : List ℚ, (∀ z ∈ l, z ≤ x) → l.sum ≤ x * l.length := by
      intro l
      induction l with
      | nil => intro _; simp
      | cons w l ih =>
        intro h
        have h1 := h w (by simp)
        have h2 := ih (fun z hz => h z (by simp [hz]))
        simp only [List.sum_cons, List.length_cons]
        push_cast
        linarith
    simp only [List.sum_cons, List.length_cons]
    push_cast
    rcases List.mem_cons.1 hy with h | h
    · subst h
      have := hle l (fun z hz => hmax z (by simp [hz]))
      linarith
    · have := ih (fun z hz => hmax z (by simp [hz])) h
      linarith

/-- **C157** is false: with errors around -5 the worst item, of error -9, has the index of an error of 4. -/
theorem C157_false :
    (detFit (firstKind false 1 1 (-5)) { metric := "E" } {}
      (MSeries.ofSeries (aSeries [aPoint 0 20, aPoint 1 15, aPoint 2 15, aPoint 3 11, aPoint 4 16]))).1.errors =
      some [("v", [-5, -9, -4])] ∧
    indexesOf (detApply (firstKind false 1 1 (-5)) id { kind := .lin }
      (detFit (firstKind false 1 1 (-5)) { metric := "E" } {}
        (MSeries.ofSeries (aSeries [aPoint 0 20, aPoint 1 15, aPoint 2 15, aPoint 3 11, aPoint 4 16]))).1
      (aSeries [aPoint 0 20, aPoint 1 15, aPoint 2 15, aPoint 3 11, aPoint 4 16])) =
      some [some (some 0), some (some 0), some (some 0)] := by
  decide +kernel

/-- **C157** (partial): a detector based on a forecaster, fitted on a series with one label and applied to it with
the default bounds, gives index 1 to an item whose error is the largest in absolute value, provided that not all
the errors are the same in absolute value, that the location of the error distribution is not negative, and that
the item and its window are not lossy. -/
theorem C157_partial {K : InnerKind I D} (hrec : K.recon = false) {a : FitArgs} {d d' : DetData I D} {s r : TSeries}
    {k : String} (h : detFit K a d (MSeries.ofSeries s) = (d', .ok ())) (hs : a.store = true) (hc : a.context = false)
    (hks : (MSeries.ofSeries s).labels = .ok [k]) {lg : ℚ → ℚ} {c : AnomCfg} (hlo : c.lower = .avgErr)
    (hup : c.upper = .maxErr) (hthr : ∀ t, c.threshold = some t → t ≤ 1) (happ : detApply K lg c d' s = .ok r)
    {w : ℕ} (hw : d'.window = some w) {ev : Dict (List ℚ)} (hev : d'.errors = some ev) {le : List ℚ}
    (hle : ev.get? k = some le) {j : ℕ} {e : ℚ} (hj : le[j]? = some e) (hmax : ∀ e' ∈ le, |e'| ≤ |e|)
    (hless : ∃ e' ∈ le, |e'| < |e|) {ds : Dict D} (hds : d'.dists = some ds) {f : D} (hf : ds.get? k = some f)
    (hloc : 0 ≤ K.loc f) (hne : ¬ Excused c.lossThreshold w s.items (w + 1 + j)) :
    ∃ y, r.items[j]? = some y ∧ y.idx.get? "anomaly" = some (some 1) := by
  obtain ⟨ks, w', d1, evs, ds', ss, hd⟩ := detFit_ok h
  obtain ⟨hw', hctx, hmet, hds', hss, hin, hins⟩ := hd.window'
  have hks' : ks = [k] := by
    have := hd.labels
    rw [hks] at this
    injection this with this
    exact this.symm
  subst hks'
  have hww : w' = w := by
    rw [hw] at hw'
    injection hw' with hw'
    exact hw'.symm
  subst hww
  obtain ⟨evl, h1, h2, h3⟩ := hd.label (k := k) (by simp)
  have herr : d'.errors = some (column Evaluated.error evs) := by
    rw [hd.result]
    unfold DetData.storeValues
    rw [hs]
    rfl
  have hle' : le = evl.map Evaluated.error := by
    rw [herr] at hev
    injection hev with hev
    rw [← hev, h2] at hle
    injection hle with hle
    exact hle.symm
  -- the item evaluated
  have hjl : j < evl.length := by
    have := (List.getElem?_eq_some_iff.1 hj).1
    rw [hle'] at this
    simpa using this
  have hlen : evl.length = evalEnd K.recon w' s.items.length - (w' + 1) := by
    rw [← h3.length_eq, List.length_range']
    rfl
  have hrange : (List.range' (w' + 1) (evalEnd K.recon w' (MSeries.ofSeries s).items.length - (w' + 1)))[j]? =
      some (w' + 1 + j) := by
    rw [List.getElem?_range' (by rw [← h3.length_eq, List.length_range'] at hjl; exact hjl)]
    simp
  have he := forall₂_getElem? h3 hrange (List.getElem?_eq_getElem hjl)
  have hee : e = (evl[j]).error := by
    rw [hle', List.getElem?_map, List.getElem?_eq_getElem hjl] at hj
    simpa using hj.symm
  unfold evalItem at he
  split at he
  · cases he
  · rename_i x hx
    split at he
    · cases he
    · rename_i v hv
      split at he
      · cases he
      · rename_i p hp
        split at he
        · cases he
        · rename_i pe hpe
          injection he with he
          have hpee : pe = e := by rw [hee, ← he]
          subst hpee
          rw [hd.predicted', hc] at hp
          -- the detector
          unfold detApply at happ
          cases hview : d'.view K with
          | error e => rw [hview] at happ; cases happ
          | ok dv =>
            rw [hview, hks] at happ
            dsimp only at happ
            split at happ
            · unfold DetData.view at hview
              rw [hw, hctx, hmet, hds, hss] at hview
              injection hview with hview
              have hdw : dv.window = w' := by rw [← hview]
              have hdr : dv.recon = false := by rw [← hview]; exact hrec
              have hdm : dv.metric = a.metric := by rw [← hview]
              have hde : dv.errors = d'.errors := by rw [← hview]
              have hdl : dv.loc k = K.loc f := by rw [← hview]; simp only [hf]
              have hdp : dv.predict s.items (w' + 1 + j) k = .ok p := by
                rw [← hview]
                simp only
                rw [hc]
                exact hp
              clear hview
              obtain ⟨_, ks2, ranges, hks2, hranges, ys, hys, hri⟩ := anomApply_ok happ
              have : ks2 = [k] := by
                rw [hks] at hks2
                injection hks2 with hks2
                exact hks2.symm
              subst this
              rw [anomOuts_all (by intro hr; rw [hdr] at hr; cases hr)] at hys
              have hfo := mapE_ok_inv hys
              have hsc : (scopeItems dv s.items)[j]? = some (x, w' + 1 + j) := by
                have hx' : s.items[w' + 1 + j]? = some x := hx
                have hlt := (List.getElem?_eq_some_iff.1 hx').1
                unfold scopeItems
                rw [List.getElem?_zipIdx, List.getElem?_take_of_lt (by
                    unfold scopeEnd; rw [hdr, hdw]; simp; omega), List.getElem?_drop, hdw, hx']
                rfl
              obtain ⟨y, hy⟩ : ∃ y, ys[j]? = some y := by
                have := hfo.length_eq
                have h5 := (List.getElem?_eq_some_iff.1 hsc).1
                exact ⟨ys[j]'(by omega), List.getElem?_eq_getElem _⟩
              refine ⟨y, by rw [hri]; exact hy, ?_⟩
              have hout := forall₂_getElem? hfo hsc hy
              unfold outAt at hout
              have hpass : passes c.lossThreshold dv.window s.items (w' + 1 + j) = false := by
                cases hq : passes c.lossThreshold dv.window s.items (w' + 1 + j) with
                | false => rfl
                | true =>
                  rw [hdw] at hq
                  exact absurd ((passes_iff (by omega)).1 hq) hne
              simp only [hpass, Bool.false_eq_true, if_false] at hout
              obtain ⟨sc, vv, hm1, hm2, hm3⟩ := scoreItem_shape hout
              -- the range of the label
              have hr1 : ∃ rg, ranges = [(k, rg)] ∧ labelRange lg dv c k = .ok rg := by
                unfold mapE mapE labelWithRange at hranges
                cases hq : labelRange lg dv c k with
                | error e => rw [hq] at hranges; cases hranges
                | ok rg =>
                  rw [hq] at hranges
                  injection hranges with hranges
                  exact ⟨rg, hranges.symm, rfl⟩
              obtain ⟨rg, hrg, hlr⟩ := hr1
              subst hrg
              have hstored : storedErrors dv k = .ok le := by
                unfold storedErrors
                rw [hde, hev]
                simp only [hle]
              have hmem : |pe| ∈ le.map (fun e => |e|) := List.mem_map.2 ⟨pe, List.mem_of_getElem? hj, rfl⟩
              have hmax' : ∀ y ∈ le.map (fun e => |e|), y ≤ |pe| := by
                intro y hy
                obtain ⟨z, hz, rfl⟩ := List.mem_map.1 hy
                exact hmax z hz
              have hrg : rg.xs < |pe| ∧ rg.xe = |pe| := by
                unfold labelRange at hlr
                rw [hstored] at hlr
                dsimp only at hlr
                rw [hlo, hup] at hlr
                split at hlr
                · cases hlr
                · rename_i xs hxs
                  split at hlr
                  · cases hlr
                  · rename_i xe hxe
                    have hxs' : xs = (le.map (fun e => |e|)).sum / ((le.map (fun e => |e|)).length : ℚ) := by
                      unfold resolveBound boundValue pyDiv at hxs
                      dsimp only at hxs
                      split at hxs
                      · cases hxs
                      · rename_i v' hv'
                        split at hv'
                        · cases hv'
                        · injection hv' with hv'
                          split at hxs
                          · cases hxs
                          · injection hxs with hxs
                            rw [← hxs, ← hv']
                    have hxe' : xe = |pe| := by
                      unfold resolveBound boundValue at hxe
                      rw [pyMaxList_eq hmem hmax'] at hxe
                      dsimp only at hxe
                      split at hxe
                      · cases hxe
                      · injection hxe with hxe
                        exact hxe.symm
                    have hrgx : rg.xs = xs ∧ rg.xe = xe := by
                      unfold checkLogs at hlr
                      split at hlr
                      · split at hlr
                        · injection hlr with hlr
                          rw [← hlr]; exact ⟨rfl, rfl⟩
                        · cases hlr
                      · injection hlr with hlr
                        rw [← hlr]; exact ⟨rfl, rfl⟩
                    rw [hrgx.1, hrgx.2, hxs', hxe']
                    obtain ⟨e', he', hlt⟩ := hless
                    exact ⟨avg_lt hmax' (List.mem_map.2 ⟨e', he', rfl⟩) hlt, rfl⟩
              -- the score
              have hmir : |pe| ≤ mirrored (dv.loc k) pe := by
                unfold mirrored
                rw [hdl]
                split
                · linarith
                · rename_i hnl
                  rw [abs_of_nonneg (by linarith)]
              have hscl : ∃ q, sc = [(k, q)] ∧ q.index = 1 := by
                unfold mapE mapE scoreLabel at hm1
                simp only [hv, predictedFor, hdp] at hm1
                unfold scoreValues at hm1
                rw [hdm, hpe] at hm1
                dsimp only at hm1
                have hraw : ∀ y', rawIndex lg c.kind rg (mirrored (dv.loc k) pe) y' = .ok 1 := by
                  intro y'
                  unfold rawIndex
                  rw [if_neg (by linarith [hrg.1]), if_pos (by rw [hrg.2]; exact hmir)]
                rw [hraw] at hm1
                dsimp only at hm1
                injection hm1 with hm1
                refine ⟨_, hm1.symm, ?_⟩
                simp only
                unfold withThreshold
                split
                · rfl
                · rename_i t ht
                  rw [if_neg (by have := hthr t ht; linarith)]
              obtain ⟨q, hsc1, hq1⟩ := hscl
              subst hsc1
              have hvv : vv = 1 := by
                simp only [List.map_cons, List.map_nil, combineIndexes] at hm2
                injection hm2 with hm2
                rw [← hm2, hq1]
              rw [hm3, hvv]
              simp [scoredItem, Dict.get?_set]
            · cases happ

/-- a concrete case: errors 0, 3 and 20, the last item has index 1 -/
theorem C157_partial_witness :
    (detFit (firstKind false 1 1 0) { metric := "E" } {} fiveSeries).1.errors = some [("v", [0, 3, 20])] ∧
    (detFit (firstKind false 1 1 0) { metric := "E" } {} fiveSeries).1.dists = some [("v", 0)] ∧
    indexesOf (detApply (firstKind false 1 1 0) id { kind := .lin }
      (detFit (firstKind false 1 1 0) { metric := "E" } {} fiveSeries).1 (aSeries fivePoints)) =
      some [some (some 0), some (some 0), some (some 1)] := by
  decide +kernel

/-! ## C158: loading a saved detector -/

theorem fitContext_mem {K : InnerKind I D} {m : MSeries} : ∀ (ks : List String) (d d' : DetData I D),
    fitContext K m ks d = (d', .ok ()) →
    ∀ k, (d'.inners.get? k).isSome = true ↔ k ∈ ks ∨ (d.inners.get? k).isSome = true := by
  intro ks
  induction ks with
  | nil =>
    intro d d' h k
    simp only [fitContext] at h
    injection h with h
    rw [h]
    simp
  | cons a ks ih =>
    intro d d' h k
    have key : ∀ (x : I) (d0 : DetData I D), d0.inners = d.inners.set a x → fitContext K m ks d0 = (d', .ok ()) →
        ((d'.inners.get? k).isSome = true ↔ k ∈ a :: ks ∨ (d.inners.get? k).isSome = true) := by
      intro x d0 h0 h1
      rw [ih _ _ h1 k, h0, Dict.get?_set]
      by_cases hk : a = k
      · subst hk; simp
      · have hk' : k ≠ a := fun h => hk h.symm
        simp [hk, hk']
    unfold fitContext at h
    split at h
    · cases h
    · rename_i x hx
      split at h
      · cases h
      · exact key x _ rfl h
      · exact key x _ rfl h

theorem saveInners_lookup {C : InnerCodec I D} : ∀ (inn : Dict I) (l : List (String × Option I)),
    saveInners C inn = (l, .ok ()) → ∀ k,
      (inn.get? k = none → l.lookup (k ++ "_model") = none) ∧
      (∀ x, inn.get? k = some x → ∃ y, C.saved x = .ok y ∧ l.lookup (k ++ "_model") = some (some y)) := by
  intro inn
  induction inn with
  | nil =>
    intro l h k
    simp only [saveInners] at h
    injection h with h
    subst h
    exact ⟨fun _ => rfl, fun x hx => by simp [Dict.get?] at hx⟩
  | cons e inn ih =>
    intro l h k
    obtain ⟨a, x⟩ := e
    unfold saveInners at h
    split at h
    · cases h
    · rename_i y hy
      cases hq : saveInners C inn with
      | mk l' o =>
        rw [hq] at h
        dsimp only at h
        injection h with h1 h2
        subst h2
        subst h1
        obtain ⟨h3, h4⟩ := ih l' hq k
        rw [Dict.get?_cons, List.lookup_cons]
        by_cases hk : a = k
        · subst hk
          simp [hy]
        · have hne : (k ++ "_model" == a ++ "_model") = false := by
            rw [beq_eq_false_iff_ne]
            intro hh
            exact hk (String.append_left_inj "_model" |>.1 hh).symm
          simp only [hk, if_false, hne]
          exact ⟨h3, h4⟩

theorem loadLabels_get {C : InnerCodec I D} {dir : DetDir I D} : ∀ {ks : List String} {xs : Dict I},
    mapE (loadLabel C dir) ks = .ok xs → ∀ k,
      (k ∉ ks → xs.get? k = none) ∧
      (k ∈ ks → ∃ x, loadInner C dir (k ++ "_model") = .ok x ∧ xs.get? k = some x) := by
  intro ks xs h k
  have hf := mapE_ok_inv h
  clear h
  induction hf with
  | nil => exact ⟨fun _ => rfl, fun h => by simp at h⟩
  | cons h1 _ ih =>
    rename_i a b la lb _
    unfold loadLabel at h1
    split at h1
    · cases h1
    · rename_i x hx
      injection h1 with h1
      subst h1
      rw [Dict.get?_cons]
      by_cases hk : a = k
      · subst hk
        simp [hx]
      · have hk' : ¬ k = a := fun h => hk h.symm
        simp only [hk, if_false, List.mem_cons, hk', false_or]
        exact ih

/-- what a detector is saved and loaded with: the inner models read back predict as those saved, and the rest of
the data is representable in JSON -/
structure FaithfulCodec (K : InnerKind I D) (C : InnerCodec I D) : Prop where
  inner : ∀ x y, C.saved x = .ok y → ∃ x', C.loads y = .ok x' ∧ ∀ ctx l i k, K.predict x' ctx l i k = K.predict x ctx l i k
  json : ∀ j j', C.json j = .ok j' → j' = j

/-- **C158** is false for a detector whose model class was given to the constructor: it is saved but it cannot be
loaded, whatever is on the disk. -/
theorem C158_false (C : InnerCodec I D) (disk : DetDisk I D) (path : String) :
    detLoad C false disk path = .error .valueError := rfl

/-- the codec which keeps everything as it is -/
def plainCodec : InnerCodec (ℕ × ℚ) ℚ := ⟨.ok, .ok, .ok⟩

/-- and such a detector can be fitted and saved -/
theorem C158_false_witness :
    (detSave plainCodec ⟨true, none, some ["v"], (detFit (firstKind false 1 1 0) { metric := "E" } {} fiveSeries).1⟩
      [] "detector").2 = .ok () := by
  decide +kernel

theorem fit_state {K : InnerKind I D} {lg : ℚ → ℚ} {a : FitArgs} {c : AnomCfg} {st0 st : MState (DetData I D)}
    {m : MSeries} (h : (detKind K lg a c).fit st0 (.series m) = (st, .ok ())) {ks : List String}
    (hks : m.labels = .ok ks) : st.fitted = true ∧ st.labels = some ks ∧ st.resolution = some m.whole.res ∧
      detFit K a st0.params m = (st.params, .ok ()) := by
  unfold MKind.fit at h
  simp only [detKind, Bool.not_true, Bool.false_eq_true, if_false] at h
  split at h
  · cases h
  · unfold MState.setLabels at h
    rw [hks] at h
    dsimp only at h
    unfold MKind.runFit at h
    dsimp only at h
    split at h
    · cases h
    · rename_i p hp
      injection h with h
      subst h
      exact ⟨rfl, rfl, rfl, hp⟩

/-- **C158** (partial): a detector of a class with its own model class, fitted (with context only if the model is a
forecaster) and saved with success, is loaded back with the same resolution and labels, and then gives the same
detections on every series, if the inner models are saved faithfully and the parameters can be written as JSON. -/
theorem C158_partial {K : InnerKind I D} {C : InnerCodec I D} (hC : FaithfulCodec K C) {lg : ℚ → ℚ} {a : FitArgs}
    {c : AnomCfg} {st0 st : MState (DetData I D)} {m : MSeries} {ks : List String} (hks : m.labels = .ok ks)
    (hfit : (detKind K lg a c).fit st0 (.series m) = (st, .ok ())) (hrec : a.context = true → K.recon = false)
    {disk disk' : DetDisk I D} {path : String} (hsave : detSave C st disk path = (disk', .ok ())) :
    ∃ st', detLoad C true disk' path = .ok st' ∧ st'.fitted = true ∧ st'.resolution = st.resolution ∧
      st'.labels = st.labels ∧ ∀ lg c s, detApply K lg c st'.params s = detApply K lg c st.params s := by
  obtain ⟨hfit1, hlab, _, hdf⟩ := fit_state hfit hks
  obtain ⟨ks', w, d1, evs, ds, ss, hd⟩ := detFit_ok hdf
  have : ks' = ks := by
    have := hd.labels
    rw [hks] at this
    injection this with this
    exact this.symm
  subst this
  obtain ⟨hw, hctx, hmet, hds, hss, hin, hins⟩ := hd.window'
  unfold detSave at hsave
  rw [hfit1] at hsave
  simp only [Bool.not_true, Bool.false_eq_true, if_false] at hsave
  split at hsave
  · cases hsave
  · split at hsave
    · cases hsave
    · split at hsave
      · cases hsave
      · rename_i j hj
        have hjj := hC.json _ _ hj
        subst hjj
        cases hq : saveModels C st.params with
        | mk l o =>
          rw [hq] at hsave
          dsimp only at hsave
          injection hsave with h1 h2
          subst h1
          subst h2
          unfold detLoad
          simp only [Bool.not_true, Bool.false_eq_true, if_false]
          rw [List.lookup_cons]
          simp only [beq_self_eq_true]
          unfold saveModels at hq
          rw [hctx] at hq
          have hjc : st.params.jsonPart.context = some a.context := hctx
          unfold loadModels
          rw [hjc]
          cases hac : a.context with
          | false =>
            rw [hac] at hq
            dsimp only at hq ⊢
            split at hq
            · cases hq
            · rename_i x hx
              split at hq
              · cases hq
              · rename_i y hy
                injection hq with hq _
                subst hq
                obtain ⟨x', hx', hpx⟩ := hC.inner _ _ hy
                have hl : loadInner C ⟨some (st.params.jsonPart, st.resolution, st.labels), [("model", some y)]⟩ "model" =
                    .ok x' := by
                  simp [loadInner, List.lookup, hx']
                rw [hl]
                refine ⟨_, rfl, rfl, rfl, rfl, ?_⟩
                intro lg c s
                refine detApply_congr lg c s rfl rfl rfl rfl rfl rfl ?_
                intro ctx hcx l i k
                have : ctx = false := by
                  have h5 : st.params.context = some ctx := hcx
                  rw [hctx, hac] at h5
                  injection h5 with h5
                  exact h5.symm
                subst this
                unfold DetData.predictedValue
                simp only [Bool.false_and, Bool.false_eq_true, if_false]
                rw [hx]
                exact hpx _ _ _ _
          | true =>
            rw [hac] at hq
            dsimp only at hq ⊢
            rw [hlab]
            dsimp only
            -- the models are those of the labels
            have hmem : ∀ k, (st.params.inners.get? k).isSome = true ↔ k ∈ ks' := by
              intro k
              have hin' := hd.inner
              unfold fitInner at hin'
              rw [if_pos hac] at hin'
              split at hin'
              · cases hin'
              · rw [hins, fitContext_mem _ _ _ hin' k]
                simp [Dict.get?]
            have hload : ∀ k ∈ ks', ∃ x x', st.params.inners.get? k = some x ∧
                loadInner C ⟨some (st.params.jsonPart, st.resolution, some ks'), l⟩ (k ++ "_model") = .ok x' ∧
                ∀ ctx l i k, K.predict x' ctx l i k = K.predict x ctx l i k := by
              intro k hk
              obtain ⟨x, hx⟩ := Option.isSome_iff_exists.1 ((hmem k).2 hk)
              obtain ⟨y, hy, hly⟩ := (saveInners_lookup _ _ hq k).2 x hx
              obtain ⟨x', hx', hp⟩ := hC.inner _ _ hy
              refine ⟨x, x', hx, ?_, hp⟩
              unfold loadInner
              simp only [hly, hx']
            obtain ⟨xs, hxs⟩ : ∃ xs, mapE (loadLabel C ⟨some (st.params.jsonPart, st.resolution, some ks'), l⟩) ks' = .ok xs := by
              apply mapE_total
              intro k hk
              obtain ⟨x, x', _, h6, _⟩ := hload k hk
              exact ⟨(k, x'), by unfold loadLabel; rw [h6]⟩
            rw [hxs]
            refine ⟨_, rfl, rfl, rfl, rfl, ?_⟩
            intro lg c s
            refine detApply_congr lg c s rfl rfl rfl rfl rfl rfl ?_
            intro ctx hcx l' i k
            have : ctx = true := by
              have h5 : st.params.context = some ctx := hcx
              rw [hctx, hac] at h5
              injection h5 with h5
              exact h5.symm
            subst this
            unfold DetData.predictedValue
            rw [hrec hac]
            simp only [Bool.not_false, Bool.and_true, if_true]
            obtain ⟨h7, h8⟩ := loadLabels_get hxs k
            by_cases hk : k ∈ ks'
            · obtain ⟨x, x', h9, h10, h11⟩ := hload k hk
              obtain ⟨x2, h12, h13⟩ := h8 hk
              rw [h10] at h12
              injection h12 with h12
              subst h12
              simp only [DetData.withModels]
              rw [h13, h9]
              exact h11 _ _ _ _
            · have h14 : st.params.inners.get? k = none := by
                cases h15 : st.params.inners.get? k with
                | none => rfl
                | some x => exact absurd ((hmem k).1 (by rw [h15]; rfl)) hk
              simp only [DetData.withModels]
              rw [h7 hk, h14]

/-- a concrete case, with context: a detector on two labels is fitted, saved and loaded -/
theorem C158_partial_witness : FaithfulCodec (firstKind false 1 2 0) plainCodec ∧
    ((detKind (firstKind false 1 2 0) id { metric := "E", context := true } {}).fit
      (detKind (firstKind false 1 2 0) id { metric := "E", context := true } {}).new (.series (MSeries.ofSeries twoLabelSeries))).2 =
      .ok () ∧
    (detSave plainCodec ((detKind (firstKind false 1 2 0) id { metric := "E", context := true } {}).fit
      (detKind (firstKind false 1 2 0) id { metric := "E", context := true } {}).new
      (.series (MSeries.ofSeries twoLabelSeries))).1 [] "detector").2 = .ok () := by
  refine ⟨⟨?_, ?_⟩, by decide +kernel, by decide +kernel⟩
  · intro x y h
    injection h with h
    exact ⟨y, rfl, fun _ _ _ _ => by rw [h]⟩
  · intro j j' h
    injection h with h
    exact h.symm

/-! ## C159: a failed save -/

/-- **C159** is false: when saving the inner model raises, the directory of the detector is left behind, so that
saving again in the same path is refused even once the reason of the failure is gone. -/
theorem C159_false (C C' : InnerCodec I D) (st : MState (DetData I D)) (disk : DetDisk I D) (path : String)
    (hf : st.fitted = true) (hp : path ≠ "") (hnew : disk.any (fun e => e.1 = path) = false) {j : DetData Unit D}
    (hj : C.json st.params.jsonPart = .ok j) (hc : st.params.context = some false) {x : I}
    (hx : st.params.inner = some x) {e : PyErr} (he : C.saved x = .error e) :
    (detSave C st disk path).2 = .error e ∧
    detSave C' st (detSave C st disk path).1 path = ((detSave C st disk path).1, .error .valueError) := by
  have h1 : detSave C st disk path =
      ((path, ⟨some (j, st.resolution, st.labels), [("model", none)]⟩) :: disk, .error e) := by
    unfold detSave
    rw [hf, hj, hnew]
    simp only [Bool.not_true, Bool.false_eq_true, if_false, hp]
    unfold saveModels
    rw [hc]
    dsimp only
    rw [hx]
    dsimp only
    rw [he]
  rw [h1]
  refine ⟨rfl, ?_⟩
  unfold detSave
  rw [hf]
  simp [hp]

/-- a codec which cannot write the inner model -/
def brokenCodec : InnerCodec (ℕ × ℚ) ℚ := ⟨fun _ => .error .typeError, .ok, .ok⟩

/-- a concrete case of the failure -/
theorem C159_false_witness :
    (detSave brokenCodec ⟨true, none, some ["v"], (detFit (firstKind false 1 1 0) { metric := "E" } {} fiveSeries).1⟩
      [] "detector").2 = .error .typeError ∧
    (detSave plainCodec ⟨true, none, some ["v"], (detFit (firstKind false 1 1 0) { metric := "E" } {} fiveSeries).1⟩
      (detSave brokenCodec ⟨true, none, some ["v"], (detFit (firstKind false 1 1 0) { metric := "E" } {} fiveSeries).1⟩
        [] "detector").1 "detector").2 = .error .valueError := by
  decide +kernel

theorem mem_of_lookup {β : Type} {p : String} {b : β} : ∀ {l : List (String × β)}, l.lookup p = some b → (p, b) ∈ l := by
  intro l
  induction l with
  | nil => intro h; cases h
  | cons e l ih =>
    intro h
    obtain ⟨k, v⟩ := e
    rw [List.lookup_cons] at h
    by_cases hk : p = k
    · subst hk
      simp at h
      subst h
      simp
    · simp only [beq_eq_false_iff_ne.2 hk] at h
      exact List.mem_cons_of_mem _ (ih h)

/-- **C159** (partial): a save refused because the detector is not fitted, the path is empty or exists already
leaves the disk as it was; and no save touches the directories saved before. -/
theorem C159_partial (C : InnerCodec I D) (st : MState (DetData I D)) (disk : DetDisk I D) (path : String) :
    (st.fitted = false ∨ path = "" ∨ disk.any (fun e => e.1 = path) = true →
      (detSave C st disk path).1 = disk ∧ (detSave C st disk path).2 ≠ .ok ()) ∧
    ∀ p dir, disk.lookup p = some dir → (detSave C st disk path).1.lookup p = some dir := by
  constructor
  · intro h
    unfold detSave
    split
    · exact ⟨rfl, by simp⟩
    · split
      · exact ⟨rfl, by simp⟩
      · split
        · exact ⟨rfl, by simp⟩
        · rename_i h1 h2 h3
          exfalso
          rcases h with h | h | h
          · rw [h] at h1; exact h1 rfl
          · exact h2 h
          · exact h3 h
  · intro p dir hp
    unfold detSave
    split
    · exact hp
    · split
      · exact hp
      · split
        · exact hp
        · rename_i h3
          have hne : (p == path) = false := by
            rw [beq_eq_false_iff_ne]
            intro hpp
            subst hpp
            apply h3
            rw [List.any_eq_true]
            exact ⟨(p, dir), mem_of_lookup hp, by simp⟩
          split
          · simp only [List.lookup_cons, hne]; exact hp
          · simp only [List.lookup_cons, hne]; exact hp

end Timeseria
