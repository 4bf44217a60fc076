import Verif.Model.Ops
import Verif.SpecOps
import Verif.Lemmas.SlotBuild
import Verif.Lemmas.Dict
import Verif.Lemmas.Strings

/-! # Lemmas on the operations -/

namespace Timeseria

theorem digitChar_eq {d : ℕ} (h : d < 10) : digitChar d = Nat.digitChar d := by
  interval_cases d <;> rfl

theorem natStrAux_eq (f n : ℕ) (h : n < f) : natStrAux f n = Nat.toDigits 10 n := by
  induction f generalizing n with
  | zero => omega
  | succ f ih =>
    unfold natStrAux
    rw [Nat.toDigits_eq_if (by norm_num)]
    by_cases hn : n < 10
    · rw [if_pos hn, if_pos hn, digitChar_eq hn]
    · rw [if_neg hn, if_neg hn, ih _ (by omega), digitChar_eq (Nat.mod_lt _ (by norm_num))]

theorem natStr_eq (n : ℕ) : natStr n = Nat.toDigits 10 n := natStrAux_eq _ _ (by omega)

/-- positions are written as Python (and Lean) write numbers -/
theorem strNat_eq (i : ℕ) : strNat i = toString i := by
  unfold strNat
  rw [natStr_eq, Nat.toString_eq_ofList_toDigits]

theorem readNat_strNat (i : ℕ) : readNat (strNat i) = some i := by
  unfold readNat strNat
  simp [natStr_ne_nil, readDigits_natStr]

theorem strNat_inj {i j : ℕ} (h : strNat i = strNat j) : i = j := by
  have := congrArg readNat h
  simpa [readNat_strNat] using this

/-! ## loops -/

theorem mapE_ok {α β : Type} {f : α → Except PyErr β} {g : α → β} {l : List α}
    (h : ∀ a ∈ l, f a = .ok (g a)) : mapE f l = .ok (l.map g) := by
  induction l with
  | nil => rfl
  | cons a r ih =>
    unfold mapE
    rw [h a (by simp), ih (fun b hb => h b (by simp [hb]))]
    rfl

theorem mapE_ok_inv {α β : Type} {f : α → Except PyErr β} {l : List α} {r : List β}
    (h : mapE f l = .ok r) : List.Forall₂ (fun a b => f a = .ok b) l r := by
  induction l generalizing r with
  | nil => unfold mapE at h; cases h; exact .nil
  | cons a l ih =>
    unfold mapE at h
    split at h
    · cases h
    · rename_i y hy
      split at h
      · cases h
      · rename_i ys hys
        cases h
        exact .cons hy (ih hys)

theorem mapE_error {α β : Type} {f : α → Except PyErr β} {l : List α} {a : α} {e : PyErr}
    (ha : a ∈ l) (h : f a = .error e) : ∃ e', mapE f l = .error e' := by
  cases hm : mapE f l with
  | error e' => exact ⟨e', rfl⟩
  | ok r =>
    have := mapE_ok_inv hm
    exfalso
    clear hm
    induction this with
    | nil => simp at ha
    | cons h1 _ ih =>
      rcases List.mem_cons.1 ha with rfl | ha
      · rw [h] at h1; cases h1
      · exact ih ha

/-! ## labels and values -/

theorem lookup_map_pos (l : List ℚ) (n i : ℕ) :
    (l.mapIdx (fun j v => (toString (n + j), v))).lookup (toString (n + i)) = l[i]? := by
  induction l generalizing n i with
  | nil => rfl
  | cons a r ih =>
    rw [List.mapIdx_cons]
    cases i with
    | zero => simp
    | succ i =>
      have hne : (toString (n + (i + 1)) == toString (n + 0)) = false := by
        rw [beq_eq_false_iff_ne]
        intro h
        rw [← strNat_eq, ← strNat_eq] at h
        have := strNat_inj h
        omega
      rw [List.lookup, hne]
      simp only [List.getElem?_cons_succ]
      have := ih (n + 1) i
      rw [← this]
      congr 1
      · congr 1; omega
      · congr 1
        funext j v
        rw [show n + 1 + j = n + (j + 1) by omega]

theorem pairs_list (l : List ℚ) :
    (Data.list l).pairs.map Prod.fst = (List.range l.length).map strNat := by
  unfold Data.pairs
  apply List.ext_getElem
  · simp
  · intro i h1 h2
    simp [strNat_eq]

theorem nodup_positions (n : ℕ) : ((List.range n).map strNat).Nodup :=
  (List.nodup_range).map (fun _ _ h => strNat_inj h)

/-- the labels the code works with -/
theorem labelsOf_spec {d : Data} (hd : ∀ v, d ≠ .num v) :
    ∃ ks, labelsOf d = .ok ks ∧ (d.pairs.map Prod.fst).Perm ks := by
  cases d with
  | num v => exact absurd rfl (hd v)
  | list l => exact ⟨_, rfl, by rw [pairs_list]⟩
  | dict d => exact ⟨_, rfl, (sortStr_perm _).symm⟩

theorem dataByLabel_eq {d : Data} (hw : (d.pairs.map Prod.fst).Nodup) {k : String} {v : ℚ}
    (h : d.pairs.lookup k = some v) : dataByLabel d k = .ok v := by
  cases d with
  | num v => simp [Data.pairs] at h
  | dict d =>
    have : d.get? k = some v := h
    simp only [dataByLabel, this]
  | list l =>
    have hk : k ∈ (Data.list l).pairs.map Prod.fst := by
      by_contra hn
      have : (Data.list l).pairs.lookup k = none := by
        rw [List.lookup_eq_none_iff]
        intro p hp
        rw [bne_iff_ne]
        intro he
        exact hn (List.mem_map.2 ⟨p, hp, he.symm⟩)
      rw [this] at h; cases h
    rw [pairs_list, List.mem_map] at hk
    obtain ⟨i, hi, rfl⟩ := hk
    unfold dataByLabel
    simp only [readNat_strNat]
    have := lookup_map_pos l 0 i
    simp only [zero_add] at this
    rw [show (Data.list l).pairs = l.mapIdx (fun j v => (toString j, v)) from rfl, strNat_eq, this] at h
    rw [h]

/-- A series on which the operations work: built by appending items, not empty, with indexed data
labelled by `ks`, made of points at least 0.1 ms apart or of slots whose length is their unit. -/
structure OpSeries (cal : Calendar) (s : TSeries) (ks : List String) : Prop where
  built : TSeries.build s.items = .ok s
  ne : s.items ≠ []
  ksne : ks ≠ []
  lab : ∀ x ∈ s.items, LabelledBy x ks
  shape : (AllPoints s.items ∧ s.items.Pairwise (fun a b => a.t + 1 / 10000 ≤ b.t)) ∨
    (AllSlots s.items ∧ RegularSlots cal.shift s.items)

theorem pairs_ne_truthy {d : Data} (h : d.pairs ≠ []) : d.truthy = true := by
  cases d with
  | num v => simp [Data.pairs] at h
  | list l => cases l <;> simp [Data.pairs, Data.truthy] at h ⊢
  | dict d => cases d <;> simp [Data.pairs, Data.truthy] at h ⊢

theorem LabelledBy.hasData {x : Item} {ks : List String} (h : LabelledBy x ks) (hk : ks ≠ []) :
    HasData x := by
  obtain ⟨d, hd, hp, _, _⟩ := h
  refine ⟨d, hd, pairs_ne_truthy ?_⟩
  intro h0
  rw [h0] at hp
  exact hk (hp.symm.eq_nil)

theorem LabelledBy.lookup {x : Item} {ks : List String} (h : LabelledBy x ks) {k : String}
    (hk : k ∈ ks) : x.value? k = some (x.value k) := by
  obtain ⟨d, hd, hp, _, _⟩ := h
  have : k ∈ d.pairs.map Prod.fst := hp.symm.subset hk
  unfold Item.value Item.value?
  rw [hd]
  simp only
  cases hl : d.pairs.lookup k with
  | none =>
    exfalso
    rw [List.lookup_eq_none_iff] at hl
    obtain ⟨p, hp1, hp2⟩ := List.mem_map.1 this
    have := hl p hp1
    simp [hp2] at this
  | some v => rfl

theorem LabelledBy.byLabel {x : Item} {ks : List String} (h : LabelledBy x ks) {k : String}
    (hk : k ∈ ks) : x.byLabel k = .ok (x.value k) := by
  have hv := h.lookup hk
  obtain ⟨d, hd, hp, hn, _⟩ := h
  unfold Item.byLabel
  rw [hd]
  simp only
  unfold Item.value? at hv
  rw [hd] at hv
  exact dataByLabel_eq (hp.nodup_iff.2 hn) hv

theorem OpSeries.dataInv {cal : Calendar} {s : TSeries} {ks : List String} (h : OpSeries cal s ks) :
    DataInv s := build_dataInv (fun x hx => (h.lab x hx).hasData h.ksne) h.built

/-- the preparation of an operation succeeds -/
theorem OpSeries.opPrep {cal : Calendar} {s : TSeries} {ks : List String} (h : OpSeries cal s ks) :
    ∃ x r d kk, s.items = x :: r ∧ x.data = some d ∧ labelsOf d = .ok kk ∧ kk.Perm ks ∧
      s.opPrep = .ok (d, kk) := by
  have hdi := h.dataInv
  cases hi : s.items with
  | nil => exact absurd hi h.ne
  | cons x r =>
    obtain ⟨d, hd, hp, hn, hnum⟩ := h.lab x (by rw [hi]; simp)
    obtain ⟨kk, hkk, hkp⟩ := labelsOf_spec hnum
    obtain ⟨rf, hr1, hr2, _⟩ := hdi.ref h.ne
    refine ⟨x, r, d, kk, rfl, hd, hkk, hkp.symm.trans hp, ?_⟩
    unfold TSeries.opPrep TSeries.labelsFrom
    simp [hi, hd, hr1, hr2, hkk]

theorem succ_build {l : List Item} {s : TSeries} (hl : AllSlots l) (h : TSeries.build l = .ok s) :
    InSuccession l := by
  have h2 := build_items h
  have h1 := (build_ok_iff l s).1 h
  have : SuccInv (TSeries.empty.appendAll l).1.items :=
    appendAll_inv (P := SuccInv) (fun s x hs => succ_append s x hs) _ _ succ_nil
  rw [h1] at this
  simp only [h2] at this
  exact this.2 hl

theorem OpSeries.good {cal : Calendar} {s : TSeries} {ks : List String} (h : OpSeries cal s ks) :
    GoodPoints s.items ∨ (GoodSlots s.items ∧ RegularSlots cal.shift s.items) := by
  have hdi := h.dataInv
  have hsame : ∀ x ∈ s.items, ∀ y ∈ s.items, ∀ d e, x.data = some d → y.data = some e →
      SameKind d e := by
    intro x hx y hy d e hd he
    obtain ⟨r, _, _, hr⟩ := hdi.ref h.ne
    exact (hr x hx d hd).symm.trans (hr y hy e he)
  rcases h.shape with ⟨hp, hs⟩ | ⟨hs, hr⟩
  · exact .inl ⟨hp, hs, hdi.has, hsame⟩
  · refine .inr ⟨⟨hs, succ_build hs h.built, ?_, ?_, hdi.has, hsame⟩, hr⟩
    · obtain ⟨u, z, _, _, hall⟩ := (build_slotInv hs h.built).noUnit h.ne
      intro x hx y hy
      rw [(hall x hx).1, (hall y hy).1]
    · obtain ⟨u, z, _, _, hall⟩ := (build_slotInv hs h.built).noUnit h.ne
      intro x hx y hy
      rw [(hall x hx).2, (hall y hy).2]

/-! ## the items produced -/

/-- the label a value is stored under -/
def lab (d0 : Data) (ren : String → String) (k : String) : String :=
  match d0 with
  | .dict _ => ren k
  | _ => k

/-- the items produced by an operation computing the value `v i k` for the item at position `i ≥ m`
and label `k` -/
def table (cal : Calendar) (l : List Item) (d0 : Data) (kk : List String) (ren : String → String)
    (keep : Bool) (v : ℕ → String → ℚ) (m : ℕ) : List Item :=
  (l.zipIdx.drop m).map (fun p =>
    remake cal p.1 (makeData d0 (kk.map fun k => (ren k, v p.2 k))) (if keep then p.1.idx else []))

theorem itemLoop_table (cal : Calendar) (d0 : Data) (kk : List String) (ren : String → String)
    (keep : Bool) (f : ℕ → Item → String → Except PyErr ℚ) (v : ℕ → String → ℚ) (m i : ℕ)
    (l : List Item)
    (hf : ∀ p ∈ l.zipIdx i, m ≤ p.2 → ∀ k ∈ kk, f p.2 p.1 k = .ok (v p.2 k)) :
    itemLoop cal d0 kk ren keep f (fun i => decide (i < m)) i l =
      .ok (((l.zipIdx i).drop (m - i)).map (fun p =>
        remake cal p.1 (makeData d0 (kk.map fun k => (ren k, v p.2 k)))
          (if keep then p.1.idx else []))) := by
  induction l generalizing i with
  | nil => simp [itemLoop]
  | cons x r ih =>
    have ih' := ih (i + 1) (fun p hp => hf p (by rw [List.zipIdx_cons]; simp [hp]))
    unfold itemLoop
    by_cases hi : i < m
    · rw [if_pos (by simpa using hi), ih', List.zipIdx_cons]
      rw [show m - i = (m - (i + 1)) + 1 by omega, List.drop_succ_cons]
    · rw [if_neg (by simpa using hi)]
      have hx : ∀ k ∈ kk, f i x k = .ok (v i k) :=
        hf (x, i) (by rw [List.zipIdx_cons]; simp) (by simpa using hi)
      rw [mapE_ok (g := fun k => (ren k, v i k)) (fun k hk => by rw [hx k hk]; rfl)]
      simp only [ih']
      rw [List.zipIdx_cons, show m - i = 0 by omega, show m - (i + 1) = 0 by omega]
      simp

theorem foldl_set_nodup {α : Type} (kvs d : Dict α) (h : (Dict.keys (d ++ kvs)).Nodup) :
    kvs.foldl (fun d p => Dict.set d p.1 p.2) d = d ++ kvs := by
  induction kvs generalizing d with
  | nil => simp
  | cons p r ih =>
    have hp : p.1 ∉ Dict.keys d := by
      unfold Dict.keys at h ⊢
      rw [List.map_append, List.map_cons] at h
      intro hm
      exact (List.nodup_append.1 h).2.2 _ hm _ (by simp) rfl
    rw [List.foldl_cons, Dict.keys_set_of_not_mem _ hp, ih]
    · simp
    · simpa using h

theorem makeData_pairs {d0 : Data} {kk : List String} (hk : labelsOf d0 = .ok kk) (hn : kk.Nodup)
    {ren : String → String} (hr : ∀ a ∈ kk, ∀ b ∈ kk, ren a = ren b → a = b) (v : String → ℚ) :
    (makeData d0 (kk.map fun k => (ren k, v k))).pairs = kk.map (fun k => (lab d0 ren k, v k)) := by
  cases d0 with
  | num x => cases hk
  | list l =>
    cases hk
    apply List.ext_getElem
    · simp [makeData, Data.pairs]
    · intro i h1 h2
      simp [makeData, Data.pairs, lab, strNat_eq]
  | dict d =>
    simp only [makeData, Data.pairs, lab]
    rw [foldl_set_nodup]
    · simp
    · simp only [Dict.keys, List.nil_append, List.map_map]
      exact List.Nodup.map_on (fun a ha b hb h => hr a ha b hb h) hn

theorem lookup_map_inj {g : String → String} {kk : List String} (v : String → ℚ)
    (hg : ∀ a ∈ kk, ∀ b ∈ kk, g a = g b → a = b) {k : String} (hk : k ∈ kk) :
    (kk.map (fun k => (g k, v k))).lookup (g k) = some (v k) := by
  induction kk with
  | nil => simp at hk
  | cons a r ih =>
    simp only [List.map_cons, List.lookup]
    by_cases h : g k = g a
    · have := hg k hk a (by simp) h
      subst this; simp
    · have hka : k ≠ a := fun he => h (by rw [he])
      have hkr : k ∈ r := by
        rcases List.mem_cons.1 hk with h1 | h1
        · exact absurd h1 hka
        · exact h1
      rw [show (g k == g a) = false by simpa using h]
      exact ih (fun x hx y hy => hg x (by simp [hx]) y (by simp [hy])) hkr

theorem lab_inj {d0 : Data} {kk : List String} {ren : String → String}
    (hr : ∀ a ∈ kk, ∀ b ∈ kk, ren a = ren b → a = b) :
    ∀ a ∈ kk, ∀ b ∈ kk, lab d0 ren a = lab d0 ren b → a = b := by
  cases d0 <;> simp only [lab] <;> first | exact hr | (intro a _ b _ h; exact h)

theorem remake_place {cal : Calendar} {l : List Item} (h : AllPoints l ∨ RegularSlots cal.shift l)
    {x : Item} (hx : x ∈ l) (d : Data) (idx : Idx) :
    remake cal x d idx = { x with data := some d, idx := idx } := by
  unfold remake
  cases hs : x.slot with
  | none => simp
  | some p =>
    obtain ⟨e, u⟩ := p
    rcases h with h | h
    · have := h x hx; simp [Item.isSlot, hs] at this
    · have := h x hx e u hs
      simp [this]

theorem makeData_sameKind {d0 : Data} {a b : List (String × ℚ)}
    (h : a.map Prod.fst = b.map Prod.fst) (hn : (a.map Prod.fst).Nodup) :
    SameKind (makeData d0 a) (makeData d0 b) := by
  have hl : a.length = b.length := by simpa using congrArg List.length h
  cases d0 with
  | num x => simpa [makeData, SameKind] using hl
  | list l => simpa [makeData, SameKind] using hl
  | dict d =>
    simp only [makeData, SameKind]
    rw [foldl_set_nodup a [] (by simpa [Dict.keys] using hn),
      foldl_set_nodup b [] (by rw [h] at hn; simpa [Dict.keys] using hn)]
    simp [Dict.keys, h]

/-- The list of items produced is accepted as a new series, whose items are in the same places and
have the computed values. -/
theorem table_build {cal : Calendar} {s : TSeries} {ks kk : List String} (h : OpSeries cal s ks)
    {d0 : Data} (hkk : labelsOf d0 = .ok kk) (hperm : kk.Perm ks) {ren : String → String}
    (hren : ∀ a b, ren a = ren b → a = b) (keep : Bool) (v : ℕ → String → ℚ) (m : ℕ)
    (hm : m < s.items.length) :
    ∃ r, TSeries.build (table cal s.items d0 kk ren keep v m) = .ok r ∧
      OpSeries cal r (ks.map (lab d0 ren)) ∧
      r.items.length = s.items.length - m ∧
      (∀ j x y, s.items[m + j]? = some x → r.items[j]? = some y →
        SamePlace x y ∧ y.idx = (if keep then x.idx else []) ∧
        ∀ k ∈ ks, y.value? (lab d0 ren k) = some (v (m + j) k)) ∧
      (∀ y ∈ r.items, ∃ d, y.data = some d ∧ ((∃ e, d = .dict e) ↔ ∃ e, d0 = .dict e)) := by
  have hks : ks.Nodup := by
    cases hi : s.items with
    | nil => exact absurd hi h.ne
    | cons x r => obtain ⟨_, _, _, hn, _⟩ := h.lab x (by rw [hi]; simp); exact hn
  have hkn : kk.Nodup := hperm.nodup_iff.2 hks
  have hren' : ∀ a ∈ kk, ∀ b ∈ kk, ren a = ren b → a = b := fun a _ b _ => hren a b
  have hshape : AllPoints s.items ∨ RegularSlots cal.shift s.items := by
    rcases h.shape with ⟨h1, _⟩ | ⟨_, h2⟩
    · exact .inl h1
    · exact .inr h2
  -- the new items as updates of the old ones
  let upd : Item × ℕ → Item := fun p => { p.1 with
                   data := some (makeData d0 (kk.map fun k => (ren k, v p.2 k)))
                   idx := if keep then p.1.idx else [] }
  have htab : table cal s.items d0 kk ren keep v m = (s.items.zipIdx.drop m).map upd := by
    unfold table
    apply List.map_congr_left
    intro p hp
    have hp' : p.1 ∈ s.items := by
      have := List.mem_of_mem_drop hp
      rw [List.mem_zipIdx_iff_getElem?] at this
      exact List.mem_of_getElem? this
    exact remake_place hshape hp' _ _
  have hskel : ∀ y ∈ (s.items.zipIdx.drop m).map upd, ∃ i, ∃ x ∈ s.items.drop m, SamePlace x y ∧
      y.data = some (makeData d0 (kk.map fun k => (ren k, v i k))) := by
    intro y hy
    obtain ⟨p, hp, rfl⟩ := List.mem_map.1 hy
    refine ⟨p.2, p.1, ?_, ⟨rfl, rfl, rfl⟩, rfl⟩
    have : p.1 ∈ (s.items.zipIdx.drop m).map Prod.fst := List.mem_map.2 ⟨p, hp, rfl⟩
    rwa [List.map_drop, List.zipIdx_map_fst] at this
  have hpairs : ∀ i, (makeData d0 (kk.map fun k => (ren k, v i k))).pairs =
      kk.map (fun k => (lab d0 ren k, v i k)) := fun i => makeData_pairs hkk hkn hren' (v i)
  have hdne : ∀ i z, makeData d0 (kk.map fun k => (ren k, v i k)) ≠ .num z := by
    intro i z; cases d0 <;> simp [makeData]
  have hlabNodup : (ks.map (lab d0 ren)).Nodup :=
    List.Nodup.map_on (fun a ha b hb hh =>
      lab_inj hren' a (hperm.symm.subset ha) b (hperm.symm.subset hb) hh) hks
  have hlab : ∀ y ∈ (s.items.zipIdx.drop m).map upd, LabelledBy y (ks.map (lab d0 ren)) := by
    intro y hy
    obtain ⟨i, x, _, _, hd⟩ := hskel y hy
    refine ⟨_, hd, ?_, hlabNodup, hdne i⟩
    rw [hpairs i, List.map_map]
    exact hperm.map _
  have hksne : ks.map (lab d0 ren) ≠ [] := by simpa using h.ksne
  have hhas : ∀ y ∈ (s.items.zipIdx.drop m).map upd, HasData y :=
    fun y hy => (hlab y hy).hasData hksne
  have hsame : ∀ x ∈ (s.items.zipIdx.drop m).map upd, ∀ y ∈ (s.items.zipIdx.drop m).map upd,
      ∀ d e, x.data = some d → y.data = some e → SameKind d e := by
    intro x hx y hy d e hd he
    obtain ⟨i, _, _, _, hd'⟩ := hskel x hx
    obtain ⟨j, _, _, _, he'⟩ := hskel y hy
    rw [hd'] at hd; rw [he'] at he
    cases hd; cases he
    apply makeData_sameKind
    · simp
    · simp only [List.map_map]
      exact List.Nodup.map_on (fun a ha b hb hh => hren' a ha b hb hh) hkn
  have hlen : ((s.items.zipIdx.drop m).map upd).length = s.items.length - m := by simp
  have htl : times ((s.items.zipIdx.drop m).map upd) = times (s.items.drop m) := by
    unfold times
    rw [List.map_map]
    have : (Item.t ∘ upd) = (fun p : Item × ℕ => p.1.t) := rfl
    rw [this, List.map_drop, List.map_drop,
      show (fun p : Item × ℕ => p.1.t) = Item.t ∘ Prod.fst from rfl, ← List.map_map,
      List.zipIdx_map_fst]
  have hget : ∀ j x y, s.items[m + j]? = some x →
      ((s.items.zipIdx.drop m).map upd)[j]? = some y → y = upd (x, m + j) := by
    intro j x y hx hy
    rw [List.getElem?_map, List.getElem?_drop, List.getElem?_zipIdx, hx] at hy
    simpa using hy.symm
  have hfin : ∃ r, TSeries.build ((s.items.zipIdx.drop m).map upd) = .ok r ∧
      r.items = (s.items.zipIdx.drop m).map upd ∧
      ((AllPoints r.items ∧ r.items.Pairwise (fun a b => a.t + 1 / 10000 ≤ b.t)) ∨
        (AllSlots r.items ∧ RegularSlots cal.shift r.items)) := by
    rcases h.good with hg | ⟨hg, hreg⟩
    · have hg' : GoodPoints ((s.items.zipIdx.drop m).map upd) := by
        refine ⟨?_, ?_, hhas, hsame⟩
        · intro y hy
          obtain ⟨i, x, hx, hpl, _⟩ := hskel y hy
          have := hg.points x (List.mem_of_mem_drop hx)
          simpa [Item.isSlot, hpl.2.1] using this
        · have h1 : (times (s.items.drop m)).Pairwise (fun a b => a + 1 / 10000 ≤ b) :=
            List.pairwise_map.2 (hg.spaced.sublist (List.drop_sublist _ _))
          rw [← htl] at h1
          exact List.pairwise_map.1 h1
      obtain ⟨r, hr1, hr2, _⟩ := build_good hg'
      refine ⟨r, hr1, hr2, .inl ?_⟩
      rw [hr2]
      exact ⟨hg'.points, hg'.spaced⟩
    · have hg' : GoodSlots ((s.items.zipIdx.drop m).map upd) := by
        refine ⟨?_, ?_, ?_, ?_, hhas, hsame⟩
        · intro y hy
          obtain ⟨i, x, hx, hpl, _⟩ := hskel y hy
          have := hg.slots x (List.mem_of_mem_drop hx)
          simpa [Item.isSlot, hpl.2.1] using this
        · have h1 : (s.items.drop m).IsChain (fun a b => CloseTo a.endT b.t) :=
            hg.chain.infix (List.drop_suffix _ _).isInfix
          have h2 : s.items.drop m = (s.items.zipIdx.drop m).map Prod.fst := by
            rw [List.map_drop, List.zipIdx_map_fst]
          rw [h2, List.isChain_map] at h1
          unfold InSuccession
          rw [List.isChain_map]
          exact h1
        · intro a ha b hb
          obtain ⟨_, x, hx, hpx, _⟩ := hskel a ha
          obtain ⟨_, y, hy, hpy, _⟩ := hskel b hb
          have := hg.unit x (List.mem_of_mem_drop hx) y (List.mem_of_mem_drop hy)
          simpa [Item.unit, hpx.2.1, hpy.2.1] using this
        · intro a ha b hb
          obtain ⟨_, x, hx, hpx, _⟩ := hskel a ha
          obtain ⟨_, y, hy, hpy, _⟩ := hskel b hb
          rw [hpx.2.2, hpy.2.2]
          exact hg.tz x (List.mem_of_mem_drop hx) y (List.mem_of_mem_drop hy)
      obtain ⟨r, hr1, hr2, _⟩ := build_good_slots hg'
      refine ⟨r, hr1, hr2, .inr ?_⟩
      rw [hr2]
      refine ⟨hg'.slots, ?_⟩
      intro y hy e u hs
      obtain ⟨_, x, hx, hpx, _⟩ := hskel y hy
      rw [hpx.2.1] at hs
      rw [hpx.2.2, hpx.1]
      exact hreg x (List.mem_of_mem_drop hx) e u hs
  obtain ⟨r, hr1, hr2, hr3⟩ := hfin
  rw [htab]
  refine ⟨r, hr1, ⟨by rw [hr2]; exact hr1, ?_, hksne, by rw [hr2]; exact hlab, hr3⟩,
    by rw [hr2]; exact hlen, ?_, ?_⟩
  · rw [hr2]
    intro h0
    rw [h0] at hlen
    simp at hlen
    omega
  · intro j x y hx hy
    rw [hr2] at hy
    have := hget j x y hx hy
    subst this
    refine ⟨⟨rfl, rfl, rfl⟩, rfl, ?_⟩
    intro k hk
    simp only [Item.value?, upd, hpairs]
    exact lookup_map_inj (g := lab d0 ren) (v (m + j)) (lab_inj hren') (hperm.symm.subset hk)
  · rw [hr2]
    intro y hy
    obtain ⟨i, _, _, _, hd⟩ := hskel y hy
    refine ⟨_, hd, ?_⟩
    cases d0 <;> simp [makeData]

theorem withPostfix_inj {post a b : String} (h : withPostfix a post = withPostfix b post) : a = b := by
  unfold withPostfix at h
  have := congrArg String.toList h
  simp only [String.toList_append, List.append_assoc] at this
  exact String.toList_inj.1 (List.append_cancel_right this)

end Timeseria
