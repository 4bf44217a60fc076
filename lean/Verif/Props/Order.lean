import Verif.Lemmas.Duplicate

/-! # Properties C01 - C09: what a series guarantees about its contents

`TSeries.run s ops` is the state after the calls `ops`, rejected calls included. -/

namespace Timeseria

/-! ## C01 -/

/-- **C01** Whatever calls of append, pop, remove, clear and duplicate are made on a new series,
accepted or rejected, a series of points is strictly increasing in time. -/
theorem C01_append_keeps_order (z : Option String) (ops : List Op)
    (hops : ∀ op ∈ ops, ∀ i x, op ≠ .insert i x)
    (hp : AllPoints ((TSeries.fresh z).run ops).items) :
    StrictlyOrdered ((TSeries.fresh z).run ops).items := by
  have := run_inv (P := fun s => OrderInv s.items) (Q := fun op => ∀ i x, op ≠ .insert i x)
    (fun s op hq h => order_step s op hq h) ops hops (TSeries.fresh z) orderInv_nil
  exact this.2 hp

/-- a history with a rejected append, a pop and a duplicate, leaving three points -/
example :
    let h : List Op := [.append (mkPoint 0 (.num 1)), .append (mkPoint 60 (.num 2)),
      .append (mkPoint 30 (.num 9)), .append (mkPoint 120 (.num 3)), .pop (some 1), .duplicate,
      .append (mkPoint 240 (.num 4))]
    ((TSeries.fresh none).run h).items =
      [mkPoint 0 (.num 1), mkPoint 120 (.num 3), mkPoint 240 (.num 4)] := by decide +kernel

/-! ## C02 -/

/-- **C02** is false: inserting in the middle looks only at the item before. -/
theorem C02_false : ¬ ∀ (s : TSeries) (i : Int) (x : Item), AllPoints s.items →
    StrictlyOrdered s.items → x.isSlot = false → (s.insert i x).2 = .ok () →
    StrictlyOrdered (s.insert i x).1.items := by
  intro h
  have hs : ∃ s, TSeries.build [mkPoint 0 (.num 1), mkPoint 60 (.num 1), mkPoint 120 (.num 1)] = .ok s ∧
      s.items = [mkPoint 0 (.num 1), mkPoint 60 (.num 1), mkPoint 120 (.num 1)] ∧
      (s.insert 1 (mkPoint 90 (.num 1))).2 = .ok () ∧
      (s.insert 1 (mkPoint 90 (.num 1))).1.items =
        [mkPoint 0 (.num 1), mkPoint 90 (.num 1), mkPoint 60 (.num 1), mkPoint 120 (.num 1)] := by
    refine ⟨{ items := [mkPoint 0 (.num 1), mkPoint 60 (.num 1), mkPoint 120 (.num 1)],
              prevT := some 120, res := .unit (TUnit.ofSecs 60), resS := some 60,
              ref := some (.num 1) }, ?_⟩
    decide +kernel
  obtain ⟨s, _, h2, h3, h4⟩ := hs
  have := h s 1 (mkPoint 90 (.num 1)) (by rw [h2]; simp [AllPoints, mkPoint, Item.isSlot])
    (by rw [h2]; simp [StrictlyOrdered, mkPoint]; norm_num) rfl h3
  rw [h4] at this
  simp [StrictlyOrdered, mkPoint] at this
  norm_num at this

theorem insert_mid_prev (s : TSeries) (i : Int) (x f : Item) (hf : s.items.head? = some f)
    (hfp : f.isSlot = false) (h0 : i ≠ 0) (hn : i ≠ s.items.length)
    (h : (s.insert i x).2 = .ok ()) :
    ∃ k y, getPos s.items.length (i - 1) = some k ∧ s.items[k]? = some y ∧ y.t < x.t := by
  have hl : ∃ l, s.items.getLast? = some l := by
    cases hs : s.items with
    | nil => rw [hs] at hf; simp at hf
    | cons a r => exact ⟨_, List.getLast?_eq_some_getLast (by simp)⟩
  obtain ⟨l, hl⟩ := hl
  unfold TSeries.insert at h
  simp only [hf, hl] at h
  by_cases hi : x.isInstance f.cls = true
  · simp only [hi, Bool.not_true, Bool.false_eq_true, if_false, h0, hn, hfp] at h
    cases hg : getPos s.items.length (i - 1) with
    | none => rw [hg] at h; simp at h
    | some k =>
      rw [hg] at h
      cases hk : s.items[k]? with
      | none => simp [hk] at h
      | some y =>
        simp only [hk] at h
        by_cases hy : x.t > y.t
        · exact ⟨k, y, rfl, hk, hy⟩
        · simp [hy] at h
  · simp [hi] at h

/-- **C02, partial**: an accepted insertion into an ordered point series leaves it ordered provided
the item found at the insertion position, if any, comes later than the new one.  This covers
positions 0 and len, where the code checks just that; missing: the positions in between, where
it does not (`C02_false`). -/
theorem C02_insert_order_partial (s : TSeries) (i : Int) (x : Item) (hp : AllPoints s.items)
    (ho : StrictlyOrdered s.items) (hx : x.isSlot = false) (h : (s.insert i x).2 = .ok ())
    (hnext : i ≠ 0 → ∀ y, s.items[pyInsertPos s.items.length i]? = some y → x.t < y.t) :
    StrictlyOrdered (s.insert i x).1.items := by
  cases hl : s.items with
  | nil =>
    rw [insert_empty s i x hl]
    have := order_append s x (by rw [hl]; exact orderInv_nil)
    refine this.2 ?_
    rcases append_items s x with ⟨e, _, hi, _⟩ | ⟨_, hi, _⟩
    · rw [hi]; exact hp
    · rw [hi, hl]; intro y hy; simp at hy; rw [hy]; exact hx
  | cons f r =>
    have hf : s.items.head? = some f := by rw [hl]; rfl
    have hfp : f.isSlot = false := hp f (by rw [hl]; simp)
    rcases insert_spec s i x f (by rw [hf]; rfl) with ⟨e, he, _⟩ | ⟨_, hst, _, hc⟩
    · rw [he] at h; simp at h
    rw [hst]
    set k := pyInsertPos s.items.length i with hk
    show StrictlyOrdered (s.items.take k ++ x :: s.items.drop k)
    -- the two facts needed
    have hprev : ∀ y ∈ (s.items.take k).getLast?, y.t < x.t := by
      intro y hy
      rcases hc with ⟨h0, hc⟩ | ⟨h0, hn, hc⟩ | ⟨h0, hn, _⟩
      · subst h0; simp [hk, pyInsertPos] at hy
      · have : k = s.items.length := by rw [hk, hn]; simp [pyInsertPos]
        rw [this, List.take_length] at hy
        have := hc y hy; rw [hx] at this; simpa using this
      · obtain ⟨j, y', hj, hy', hlt⟩ := insert_mid_prev s i x f hf hfp h0 hn h
        rcases Nat.eq_zero_or_pos k with hk0 | hkpos
        · rw [hk0] at hy; simp at hy
        have hkl : k ≤ s.items.length := by
          rw [hk]; unfold pyInsertPos; split <;> omega
        have hjk : j = k - 1 := by
          have hk' := hk
          unfold pyInsertPos at hk'
          unfold getPos pyPos at hj
          split at hk'
          · rename_i hneg
            have habs : |i - 1| = -(i - 1) := abs_of_nonpos (by omega)
            rw [if_neg (by omega), habs] at hj
            rw [if_pos (by omega)] at hj
            simp at hj; omega
          · rw [if_pos (by omega)] at hj
            split at hj
            · simp at hj; omega
            · rw [if_neg (by omega)] at hj; simp at hj
        have hlast : (s.items.take k).getLast? = s.items[k - 1]? := by
          rw [List.getLast?_eq_getElem?, List.length_take, min_eq_left hkl,
            List.getElem?_take_of_lt (by omega)]
        rw [hlast] at hy
        rw [hjk] at hy'
        rw [hy'] at hy; simp at hy; subst hy; exact hlt
    have hnext' : ∀ y ∈ (s.items.drop k).head?, x.t < y.t := by
      intro y hy
      rw [List.head?_drop] at hy
      rcases hc with ⟨h0, hc⟩ | ⟨h0, _⟩ | ⟨h0, _⟩
      · subst h0
        have : k = 0 := by simp [hk, pyInsertPos]
        rw [this, hl] at hy; simp at hy; subst hy
        rw [hfp] at hc; simpa using hc
      · exact hnext h0 y hy
      · exact hnext h0 y hy
    have hoA : StrictlyOrdered (s.items.take k) := ho.sublist (List.take_sublist _ _)
    have hoB : StrictlyOrdered (s.items.drop k) := ho.sublist (List.drop_sublist _ _)
    have h1 : StrictlyOrdered (s.items.take k ++ [x]) := order_snoc hoA hprev
    have hAB : ∀ a ∈ s.items.take k, ∀ b ∈ s.items.drop k, a.t < b.t := by
      have := ho; rw [← List.take_append_drop k s.items] at this
      exact (List.pairwise_append.1 this).2.2
    have hxB : ∀ b ∈ s.items.drop k, x.t < b.t := by
      cases hd : s.items.drop k with
      | nil => simp
      | cons b r' =>
        rw [hd] at hnext' hoB
        have hb := hnext' b (by simp)
        intro c hcm
        rcases List.mem_cons.1 hcm with rfl | hcm
        · exact hb
        · exact lt_trans hb ((List.pairwise_cons.1 hoB).1 c hcm)
    refine List.pairwise_append.2 ⟨hoA, List.pairwise_cons.2 ⟨hxB, hoB⟩, ?_⟩
    intro a ha b hb
    rcases List.mem_cons.1 hb with rfl | hb
    · exact (List.pairwise_append.1 h1).2.2 a ha b (by simp)
    · exact hAB a ha b hb

/-- inserting in the right place at 0, in the middle, with a negative position and at the end -/
example : ∃ s, TSeries.build [mkPoint 0 (.num 1), mkPoint 60 (.num 1)] = .ok s ∧
    (s.insert 0 (mkPoint (-5) (.num 1))).2 = .ok () ∧ (s.insert 1 (mkPoint 30 (.num 1))).2 = .ok () ∧
    (s.insert (-1) (mkPoint 30 (.num 1))).2 = .ok () ∧ (s.insert 2 (mkPoint 70 (.num 1))).2 = .ok () ∧
    (s.insert 3 (mkPoint 70 (.num 1))).2 = .error .indexError :=
  ⟨{ items := [mkPoint 0 (.num 1), mkPoint 60 (.num 1)], prevT := some 60,
     res := .unit (TUnit.ofSecs 60), resS := some 60, ref := some (.num 1) }, by decide +kernel⟩

/-! ## C03 -/

/-- the point series used as witness: two items with label `a` -/
def wA : TSeries :=
  { items := [mkPoint 0 (.dict [("a", 1)]), mkPoint 60 (.dict [("a", 1)])], prevT := some 60,
    res := .unit (TUnit.ofSecs 60), resS := some 60, ref := some (.dict [("a", 1)]) }

example : TSeries.build [mkPoint 0 (.dict [("a", 1)]), mkPoint 60 (.dict [("a", 1)])] = .ok wA := by
  decide +kernel

/-- **C203** is false: the timestamp of a rejected item is remembered, so that a good item with that
timestamp is refused afterwards (`append` of the good item alone succeeds). -/
theorem C203_false : ¬ ∀ (l : List Item) (s : TSeries) (x y : Item) (e : PyErr),
    TSeries.build l = .ok s → (s.append x).2 = .error e →
    ((s.append x).1.append y).2 = (s.append y).2 := by
  intro h
  have := h [mkPoint 0 (.dict [("a", 1)]), mkPoint 60 (.dict [("a", 1)])] wA
    (mkPoint 120 (.dict [("b", 1)])) (mkPoint 120 (.dict [("a", 1)])) .valueError
    (by decide +kernel) (by decide +kernel)
  exact absurd this (by decide +kernel)

/-- **C203** is false also for the resolution: after `0`, a rejected `-10` and `60` the resolution is
70 seconds instead of 60. -/
theorem C203_false_resolution : ∃ (s : TSeries) (x y : Item) (e : PyErr),
    TSeries.build [mkPoint 0 (.num 1)] = .ok s ∧ (s.append x).2 = .error e ∧
    (s.append y).1.res = .unit (TUnit.ofSecs 60) ∧
    ((s.append x).1.append y).1.res = .unit (TUnit.ofSecs 70) ∧
    ((s.append x).1.append y).1.items = (s.append y).1.items :=
  ⟨{ items := [mkPoint 0 (.num 1)], prevT := some 0, ref := some (.num 1) },
   mkPoint (-10) (.num 1), mkPoint 60 (.num 1), .valueError, by decide +kernel⟩

/-- **C03**: a rejected append never changes the items, the data reference or (on a
non-empty series) the time zone.  The resolution and the outcome of later appends
are C203. -/
theorem C03_rejected_append (s : TSeries) (x : Item) (e : PyErr)
    (h : (s.append x).2 = .error e) :
    (s.append x).1.items = s.items ∧ (s.append x).1.ref = s.ref ∧
    (s.items ≠ [] → (s.append x).1.getTz = s.getTz) := by
  rcases append_items s x with ⟨e', _, hi, hr⟩ | ⟨ho, _⟩
  · refine ⟨hi, hr, fun hne => ?_⟩
    have hst := append_state_error s x h
    rw [hst]
    unfold TSeries.pre
    split
    · unfold TSeries.preSlot
      cases hz : s.getTz with
      | none =>
        exfalso
        unfold TSeries.getTz at hz
        cases htz : s.tz with
        | some z => rw [htz] at hz; simp at hz
        | none =>
          rw [htz] at hz
          have : ∀ (l : List Item) d, detectTz (some d) l ≠ none := by
            intro l; induction l with
            | nil => intro d; simp [detectTz]
            | cons a r ih => intro d; simp only [detectTz]; split <;> simp [ih]
          cases hl : s.items with
          | nil => exact hne hl
          | cons a r => rw [hl] at hz; exact this r a.tz (by simpa [detectTz] using hz)
      | some z =>
        cases htz : s.tz with
        | none => simp [hz]
        | some w =>
          simp only
          split
          · exact hz
          · split
            · simpa [TSeries.getTz, htz] using hz
            · split <;> exact hz
            · exact hz
    · have h1 := prePoint_tz s x
      have h2 := prePoint_items s x
      unfold TSeries.getTz
      rw [h1, h2]
  · rw [ho] at h; simp at h

/-- **C203, partial**, slots: appending a slot that is refused leaves a non-empty slot series in
exactly the same state. -/
theorem C203_slots_partial (s : TSeries) (x : Item) (e : PyErr) (l : List Item) (hl : AllSlots l)
    (hb : TSeries.build l = .ok s) (hne : l ≠ []) (hx : x.isSlot = true)
    (h : (s.append x).2 = .error e) : (s.append x).1 = s := by
  rw [append_state_error s x h]
  have hi := build_slotInv hl hb
  have hit := build_items hb
  obtain ⟨u, z, hu, hz, _⟩ := hi.noUnit (by rw [hit]; exact hne)
  unfold TSeries.pre
  rw [if_pos hx]
  unfold TSeries.preSlot
  have : s.getTz = some z := by unfold TSeries.getTz; rw [hz]
  simp only [this, hz, hu]
  split
  · rfl
  · split <;> rfl

/-- a slot of one hour is refused after a slot of one minute -/
example : ∃ s, TSeries.build [{ t := 0, slot := some (60, TUnit.ofSecs 60), data := some (.num 1) }] = .ok s ∧
    (s.append { t := 60, slot := some (3660, TUnit.ofSecs 3600), data := some (.num 1) }).2 =
      .error .valueError :=
  ⟨{ items := [{ t := 0, slot := some (60, TUnit.ofSecs 60), data := some (.num 1) }],
     res := .unit (TUnit.ofSecs 60), tz := some "UTC", ref := some (.num 1) }, by decide +kernel⟩

/-! ## C04 -/

/-- **C04** For every list of points accepted by append: no resolution with fewer than two points,
`'variable'` exactly when the spacings are not all equal, and otherwise a unit which depends on the
common spacing `d` only, and is `d` seconds when `d` is a whole number of seconds. -/
theorem C04_resolution_is_spacing (l : List Item) (s : TSeries) (hp : AllPoints l)
    (hb : TSeries.build l = .ok s) :
    (l.length < 2 → s.res = .unset) ∧
    (2 ≤ l.length → ((∃ d, UniformBy d l) ↔ ∃ u, s.res = .unit u)) ∧
    (2 ≤ l.length → (¬ (∃ d, UniformBy d l) ↔ s.res = .varying)) ∧
    (∀ d, UniformBy d l → ∃ u, spacingUnit d = some u ∧ s.res = .unit u) ∧
    (∀ n : ℕ, UniformBy n l → s.res = .unit (TUnit.ofSecs n)) := by
  have hc := build_clean hp hb
  have hit := build_items hb
  have hres := hc.res
  have hconv := hc.conv
  rw [hit] at hres hconv
  have hlen : 2 ≤ l.length → ∃ d ds, spacings (times l) = d :: ds := by
    match l with
    | [] => simp
    | [_] => simp
    | a :: b :: r => intro _; exact ⟨_, _, rfl⟩
  have huni : ∀ d, UniformBy d l → ∃ u, spacingUnit d = some u ∧ s.res = .unit u := by
    intro d ⟨h1, h2⟩
    cases hsp : spacings (times l) with
    | nil => exact absurd hsp h1
    | cons a r =>
      rw [hsp] at h2
      have ha : a = d := h2 a (by simp)
      obtain ⟨u, hu⟩ := hconv a r hsp
      refine ⟨u, by rw [← ha]; exact hu, ?_⟩
      rw [hres, hsp]
      exact specRes_uniform (fun z hz => by rw [ha]; exact h2 z (by simp [hz])) hu
  have hvar : 2 ≤ l.length → ¬ (∃ d, UniformBy d l) → s.res = .varying := by
    intro h2 hn
    obtain ⟨d, ds, hsp⟩ := hlen h2
    rw [hres, hsp]
    refine specRes_variable (fun h => hn ⟨d, ?_, ?_⟩)
    · rw [hsp]; simp
    · rw [hsp]; intro x hx
      rcases List.mem_cons.1 hx with rfl | hx
      · rfl
      · exact h x hx
  refine ⟨?_, ?_, ?_, huni, ?_⟩
  · intro h
    rw [hres]
    have : spacings (times l) = [] := by
      clear hvar huni hlen hconv hres hit hc hb hp
      rcases l with _ | ⟨a, _ | ⟨b, r⟩⟩
      · rfl
      · rfl
      · simp only [List.length_cons] at h; omega
    rw [this]; rfl
  · intro h2
    constructor
    · rintro ⟨d, hd⟩; obtain ⟨u, _, hu⟩ := huni d hd; exact ⟨u, hu⟩
    · rintro ⟨u, hu⟩; by_contra hn; rw [hvar h2 hn] at hu; simp at hu
  · intro h2
    constructor
    · exact hvar h2
    · rintro hv ⟨d, hd⟩; obtain ⟨u, _, hu⟩ := huni d hd; rw [hu] at hv; simp at hv
  · intro n hn
    obtain ⟨u, hu, hr⟩ := huni n hn
    have hpos : 0 < n := by
      rcases Nat.eq_zero_or_pos n with rfl | hn'
      · exfalso
        have : spacingUnit ((0 : ℕ) : ℚ) = none := by decide +kernel
        rw [this] at hu; simp at hu
      · exact hn'
    rw [spacingUnit_nat n hpos] at hu
    rw [hr]; simp at hu; rw [hu]

/-- uniform and variable series exist -/
example : (∃ s, TSeries.build [mkPoint 0 (.num 1), mkPoint 60 (.num 1), mkPoint 120 (.num 1)] = .ok s
      ∧ s.res = .unit (TUnit.ofSecs 60)) ∧
    (∃ s, TSeries.build [mkPoint 0 (.num 1), mkPoint 60 (.num 1), mkPoint 180 (.num 1)] = .ok s
      ∧ s.res = .varying) :=
  ⟨⟨{ items := [mkPoint 0 (.num 1), mkPoint 60 (.num 1), mkPoint 120 (.num 1)], prevT := some 120,
      res := .unit (TUnit.ofSecs 60), resS := some 60, ref := some (.num 1) }, by decide +kernel⟩,
   ⟨{ items := [mkPoint 0 (.num 1), mkPoint 60 (.num 1), mkPoint 180 (.num 1)], prevT := some 180,
      res := .varying, ref := some (.num 1) }, by decide +kernel⟩⟩

/-! ## C05 -/

/-- **C05** is false: after `0, 60, 180` and a pop the series holds `0, 60` but still reports a
variable resolution. -/
theorem C05_false : ¬ ∀ (ops ops' : List Op),
    (TSeries.empty.run ops).items = (TSeries.empty.run ops').items →
    (TSeries.empty.run ops).res = (TSeries.empty.run ops').res := by
  intro h
  have := h [.append (mkPoint 0 (.num 1)), .append (mkPoint 60 (.num 1)),
      .append (mkPoint 180 (.num 1)), .pop none]
    [.append (mkPoint 0 (.num 1)), .append (mkPoint 60 (.num 1))] (by decide +kernel)
  exact absurd this (by decide +kernel)

/-- The states reached by successful appends and duplications, in any order. -/
inductive ReachByAppends : TSeries → Prop
  | new : ReachByAppends TSeries.empty
  | append {s s' : TSeries} {x : Item} :
      ReachByAppends s → s.append x = (s', .ok ()) → ReachByAppends s'
  | dup {s s' : TSeries} : ReachByAppends s → s.duplicate = .ok s' → ReachByAppends s'

/-- **C05, partial**: for series reached by successful appends and duplications the whole state,
resolution included, depends only on the items.  Missing: pops, removals, clear and rejected calls
(`C05_false`). -/
theorem C05_contents_determine_resolution_partial (s s' : TSeries) (h : ReachByAppends s)
    (h' : ReachByAppends s') (hi : s.items = s'.items) :
    s = s' := by
  have key : ∀ {s : TSeries}, ReachByAppends s → TSeries.build s.items = .ok s := by
    intro s h
    induction h with
    | new => decide
    | @append s s' x _ h1 ih =>
      have hs : s'.items = s.items ++ [x] := by
        rcases append_items s x with ⟨e, he, _⟩ | ⟨_, hi, _⟩
        · rw [h1] at he; simp at he
        · rw [h1] at hi; exact hi
      rw [hs]; exact build_snoc_of ih h1
    | dup _ h1 ih =>
      rw [duplicate_build ih] at h1
      simp at h1; subst h1; exact ih
  have h1 := key h
  have h2 := key h'
  rw [hi, h2] at h1
  simpa using h1.symm

example : ReachByAppends wA :=
  .append (.append .new (x := mkPoint 0 (.dict [("a", 1)]))
    (s' := { items := [mkPoint 0 (.dict [("a", 1)])], prevT := some 0, ref := some (.dict [("a", 1)]) })
    (by decide +kernel)) (x := mkPoint 60 (.dict [("a", 1)])) (by decide +kernel)

/-! ## C06 -/

/-- **C06** After any history of append, insert, pop, remove, clear and duplicate calls, in a series
of slots each one starts where the previous one ends, within the tolerance. -/
theorem C06_slots_in_succession (z : Option String) (ops : List Op)
    (hp : AllSlots ((TSeries.fresh z).run ops).items) :
    InSuccession ((TSeries.fresh z).run ops).items := by
  have := run_inv (P := fun s => SuccInv s.items) (Q := fun _ => True)
    (fun s op _ h => succ_step s op h) ops (fun _ _ => trivial) (TSeries.fresh z) succ_nil
  exact this.2 hp

/-- one-minute slots, an insertion at the beginning and a refused one -/
example :
    let sl (t : ℚ) : Item := { t := t, slot := some (t + 60, TUnit.ofSecs 60), data := some (.num 1) }
    ((TSeries.fresh none).run [.append (sl 0), .append (sl 60), .append (sl 180), .insert 0 (sl (-60)),
      .insert 0 (sl 500)]).items = [sl (-60), sl 0, sl 60] := by
  decide +kernel

/-! ## C07 -/

/-- **C07** is false: `insert` checks neither the unit nor the time zone. -/
theorem C07_false : ∃ (ops : List Op) (x y : Item), AllSlots (TSeries.empty.run ops).items ∧
    (TSeries.empty.run ops).items = [x, y] ∧ x.unit ≠ y.unit ∧ x.tz ≠ y.tz :=
  ⟨[.append { t := 0, slot := some (60, TUnit.ofSecs 60), data := some (.num 1) },
    .insert 1 { t := 60, slot := some (3660, TUnit.ofSecs 3600), tz := "Europe/Rome",
                data := some (.num 1) }],
   { t := 0, slot := some (60, TUnit.ofSecs 60), data := some (.num 1) },
   { t := 60, slot := some (3660, TUnit.ofSecs 3600), tz := "Europe/Rome", data := some (.num 1) },
   by unfold AllSlots; decide +kernel⟩

/-- the calls that offer no item, or a slot, and are not `insert` -/
def OffersSlots : Op → Prop
  | .append x => x.isSlot = true
  | .insert _ _ => False
  | _ => True

/-- **C07, partial**: after any history without `insert` on a series which was only ever offered
slots, all the slots have the unit reported as resolution and the time zone reported by the series.
Missing: `insert` (`C07_false`) and series that held points before. -/
theorem C07_same_unit_partial (z : Option String) (ops : List Op) (hq : ∀ op ∈ ops, OffersSlots op)
    (x : Item) (hx : x ∈ ((TSeries.fresh z).run ops).items) :
    ((TSeries.fresh z).run ops).res = .unit x.unit ∧
    ((TSeries.fresh z).run ops).getTz = some x.tz := by
  have hinv := run_inv (P := SlotInv) (Q := OffersSlots) ?_ ops hq (TSeries.fresh z)
    ⟨fun y hy => by simp [TSeries.fresh] at hy, by simp [TSeries.fresh],
     fun h => absurd rfl h⟩
  · obtain ⟨u, w, hu, hw, hall⟩ := hinv.noUnit (List.ne_nil_of_mem hx)
    obtain ⟨h1, h2⟩ := hall x hx
    exact ⟨by rw [hu, h1], by unfold TSeries.getTz; rw [hw, h2]⟩
  · intro s op hq h
    cases op with
    | append x => exact slot_append s x hq h
    | insert i x => exact absurd hq id
    | remove x =>
      exact slot_sub h (fun y hy => (remove_sublist s x).subset hy) (remove_res_tz s x).1
        (remove_res_tz s x).2
    | pop i =>
      exact slot_sub h (fun y hy => (pop_sublist s i).subset hy) (pop_res_tz s i).1
        (pop_res_tz s i).2
    | clear => exact slot_sub h (fun y hy => by simp [TSeries.step, TSeries.clear] at hy) rfl rfl
    | duplicate =>
      simp only [TSeries.step]
      cases hd : s.duplicate with
      | error e => exact h
      | ok s' =>
        simp only
        unfold TSeries.duplicate at hd
        have hemp : SlotInv { s with items := [] } :=
          slot_sub h (fun y hy => by simp at hy) rfl rfl
        have := appendAll_slotInv { s with items := [] } s.items h.slots hemp
        cases ha : ({ s with items := [] } : TSeries).appendAll s.items with
        | mk a o =>
          rw [ha] at this hd
          cases o with
          | error e => simp at hd
          | ok _ => simp at hd; rw [← hd]; exact this

example :
    let sl (t : ℚ) : Item := { t := t, slot := some (t + 60, TUnit.ofSecs 60), data := some (.num 1) }
    (∀ op ∈ [Op.append (sl 0), .append (sl 60), .pop none, .duplicate], OffersSlots op) ∧
    ((TSeries.fresh none).run [.append (sl 0), .append (sl 60), .pop none, .duplicate]).items = [sl 0] := by
  refine ⟨by simp [OffersSlots, Item.isSlot], by decide +kernel⟩

/-! ## C08 -/

/-- **C08** is false: a first item whose data is zero (or empty) is not taken as a reference. -/
theorem C08_false : ∃ (ops : List Op) (x y : Item) (d e : Data), (TSeries.empty.run ops).items = [x, y] ∧
    x.data = some d ∧ y.data = some e ∧ ¬ SameKind d e :=
  ⟨[.append (mkPoint 0 (.num 0)), .append (mkPoint 60 (.dict [("a", 1)]))],
   mkPoint 0 (.num 0), mkPoint 60 (.dict [("a", 1)]), .num 0, .dict [("a", 1)],
   by decide +kernel, rfl, rfl, id⟩

/-- **C08** is false also with non-zero data: `insert` does not look at the data. -/
theorem C08_false_insert : ∃ (ops : List Op) (x y : Item) (d e : Data),
    (TSeries.empty.run ops).items = [x, y] ∧
    x.data = some d ∧ y.data = some e ∧ d.truthy = true ∧ ¬ SameKind d e :=
  ⟨[.append (mkPoint 0 (.num 1)), .insert 1 (mkPoint 60 (.dict [("a", 1)]))],
   mkPoint 0 (.num 1), mkPoint 60 (.dict [("a", 1)]), .num 1, .dict [("a", 1)],
   by decide +kernel, rfl, rfl, by decide +kernel, id⟩

/-- the calls that offer no item, or one with non-zero, non-empty data, and are not `insert` -/
def OffersData : Op → Prop
  | .append x => HasData x
  | .insert _ _ => False
  | _ => True

/-- **C08, partial**: after any history without `insert` on a series which was only ever offered
items with (non-zero, non-empty) data, all the items carry data of the same kind: all numbers, all
lists of one length, or all dictionaries with the same labels.  Missing: `insert`
(`C08_false_insert`) and zero or empty data (`C08_false`). -/
theorem C08_same_data_partial (z : Option String) (ops : List Op) (hq : ∀ op ∈ ops, OffersData op)
    (x y : Item) (hx : x ∈ ((TSeries.fresh z).run ops).items)
    (hy : y ∈ ((TSeries.fresh z).run ops).items) :
    ∃ d e, x.data = some d ∧ y.data = some e ∧ SameKind d e := by
  have hinv := run_inv (P := DataInv) (Q := OffersData) ?_ ops hq (TSeries.fresh z)
    ⟨fun y hy => by simp [TSeries.fresh] at hy, fun h => absurd rfl h⟩
  · obtain ⟨d, hd, _⟩ := hinv.has x hx
    obtain ⟨e, he, _⟩ := hinv.has y hy
    obtain ⟨r, _, _, hall⟩ := hinv.ref (List.ne_nil_of_mem hx)
    exact ⟨d, e, hd, he, (hall x hx d hd).symm.trans (hall y hy e he)⟩
  · intro s op hq h
    cases op with
    | append x => exact data_append s x hq h
    | insert i x => exact absurd hq id
    | remove x => exact data_sub h (fun y hy => (remove_sublist s x).subset hy) (remove_ref s x)
    | pop i => exact data_sub h (fun y hy => (pop_sublist s i).subset hy) (pop_ref s i)
    | clear => exact data_sub h (fun y hy => by simp [TSeries.step, TSeries.clear] at hy) rfl
    | duplicate =>
      simp only [TSeries.step]
      cases hd : s.duplicate with
      | error e => exact h
      | ok s' =>
        simp only
        unfold TSeries.duplicate at hd
        have hemp : DataInv { s with items := [] } := data_sub h (fun y hy => by simp at hy) rfl
        have := appendAll_dataInv { s with items := [] } s.items h.has hemp
        cases ha : ({ s with items := [] } : TSeries).appendAll s.items with
        | mk a o =>
          rw [ha] at this hd
          cases o with
          | error e => simp at hd
          | ok _ => simp at hd; rw [← hd]; exact this

example : (∀ op ∈ [Op.append (mkPoint 0 (.dict [("a", 1), ("b", 2)])),
      .append (mkPoint 60 (.dict [("b", 1), ("a", 1)])), .append (mkPoint 120 (.dict [("b", 1)]))],
      OffersData op) ∧
    ((TSeries.fresh none).run [.append (mkPoint 0 (.dict [("a", 1), ("b", 2)])),
      .append (mkPoint 60 (.dict [("b", 1), ("a", 1)])), .append (mkPoint 120 (.dict [("b", 1)]))]).items
      = [mkPoint 0 (.dict [("a", 1), ("b", 2)]), mkPoint 60 (.dict [("b", 1), ("a", 1)])] := by
  refine ⟨by simp [OffersData, HasData, mkPoint, Data.truthy], by decide +kernel⟩

/-! ## C09 -/

/-- **C09** A series never mixes points and slots, after any history of calls. -/
theorem C09_never_mixed (z : Option String) (ops : List Op) :
    AllPoints ((TSeries.fresh z).run ops).items ∨ AllSlots ((TSeries.fresh z).run ops).items := by
  have h := run_inv (P := fun s => KindInv s.items) (Q := fun _ => True)
    (fun s op _ h => kind_step s op h) ops (fun _ _ => trivial) (TSeries.fresh z)
    (fun x hx => by simp [TSeries.fresh] at hx)
  cases hl : ((TSeries.fresh z).run ops).items with
  | nil => left; intro x hx; simp at hx
  | cons a r =>
    rw [hl] at h
    cases ha : a.isSlot with
    | false => left; intro x hx; rw [h x hx a (by simp), ha]
    | true => right; intro x hx; rw [h x hx a (by simp), ha]

/-- **C81 for series built by appends** -/
theorem C81_same_class_partial (l : List Item) (s : TSeries) (h : TSeries.build l = .ok s)
    (f : Item) (hf : l.head? = some f) (x : Item) (hx : x ∈ l) : x.isInstance f.cls = true := by
  induction l using List.reverseRecOn generalizing s with
  | nil => simp at hx
  | append_singleton l y ih =>
    obtain ⟨s₀, h0, h1⟩ := build_snoc h
    cases l with
    | nil =>
      simp at hf hx; subst hf; subst hx
      cases hs : x.isSlot <;> cases hd : x.data.isSome <;> simp [Item.cls, Item.isInstance, hs, hd]
    | cons a r =>
      simp at hf; subst hf
      rcases List.mem_append.1 hx with hx | hx
      · exact ih s₀ h0 (by simp) hx
      · simp at hx; subst hx
        rcases append_items s₀ x with ⟨e, he, _⟩ | ⟨_, _, hi, _⟩
        · rw [h1] at he; simp at he
        · exact hi a (by rw [build_items h0]; simp)

/-- **C81** is false with `insert`: an item with data can be put before one without. -/
theorem C81_false : ∃ (ops : List Op) (f x : Item),
    (TSeries.empty.run ops).items = [f, x] ∧ x.isInstance f.cls = false :=
  ⟨[.append { t := 60 }, .insert 0 (mkPoint 0 (.num 1))], mkPoint 0 (.num 1), { t := 60 },
   by decide +kernel⟩

end Timeseria
