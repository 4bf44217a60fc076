import Verif.Lemmas.Duplicate
import Verif.Lemmas.Strings
import Verif.Lemmas.Dict

/-! # Properties C17 - C20, C72, C74, C75: items, equality, time zones, time units -/

namespace Timeseria

/-! ## C17 -/

/-- **C17** Every series built with append can be duplicated, and the duplicate has the same items,
resolution, time zone, and (being in the same state) treats later calls alike. -/
theorem C17_duplicate_equal (l : List Item) (s : TSeries) (h : TSeries.build l = .ok s) :
    ∃ d, s.duplicate = .ok d ∧ d.items = l ∧ d.res = s.res ∧ d.getTz = s.getTz ∧
      ∀ x, d.append x = s.append x :=
  ⟨s, duplicate_build h, build_items h, rfl, rfl, fun _ => rfl⟩

/-- a variable resolution series with three points -/
example : ∃ s, TSeries.build [mkPoint 0 (.num 1), mkPoint 60 (.num 1), mkPoint 180 (.num 1)] = .ok s :=
  ⟨{ items := [mkPoint 0 (.num 1), mkPoint 60 (.num 1), mkPoint 180 (.num 1)], prevT := some 180,
     res := .varying, ref := some (.num 1) }, by decide +kernel⟩

/-! ## C18 -/

theorem dataEq_refl {a : Data} (h : a.WF) : dataEq a a = true := by
  cases a with
  | num x => simp [dataEq]
  | list l => simp [dataEq]
  | dict d => exact (dictEq_iff h h).2 (fun _ => rfl)

theorem dataEq_symm {a b : Data} (ha : a.WF) (hb : b.WF) : dataEq a b = dataEq b a := by
  cases a with
  | num x => cases b with
    | num y => simp only [dataEq]; exact Bool.beq_comm
    | list l => rfl
    | dict d => rfl
  | list l => cases b with
    | num y => rfl
    | list l' => simp only [dataEq]; exact Bool.beq_comm
    | dict d => rfl
  | dict d => cases b with
    | num y => rfl
    | list l => rfl
    | dict d' =>
      simp only [dataEq]
      rw [Bool.eq_iff_iff, dictEq_iff ha hb, dictEq_iff hb ha]
      exact ⟨fun h k => (h k).symm, fun h k => (h k).symm⟩

theorem dataEq_trans {a b c : Data} (ha : a.WF) (hb : b.WF) (hc : c.WF) (h1 : dataEq a b = true)
    (h2 : dataEq b c = true) : dataEq a c = true := by
  cases a <;> cases b <;> simp only [dataEq, Bool.false_eq_true] at h1 <;> cases c <;>
    simp only [dataEq, Bool.false_eq_true, beq_iff_eq] at h1 h2 ⊢
  · exact h1.trans h2
  · exact h1.trans h2
  · rw [dictEq_iff ha hc]
    intro k
    rw [(dictEq_iff ha hb).1 h1 k, (dictEq_iff hb hc).1 h2 k]

/-- data of an item is well formed -/
def Item.WFData (x : Item) : Prop := ∀ d, x.data = some d → d.WF

/-- **C18, reflexivity and symmetry** of equality between points, with or without data. -/
theorem C18_refl_symm (a b : Item) (ha : a.isSlot = false) (hb : b.isSlot = false) (hda : a.WFData)
    (hdb : b.WFData) : itemEq a a = .ok true ∧ itemEq a b = itemEq b a := by
  have hsa : a.slot = none := by simpa [Item.isSlot] using ha
  have hsb : b.slot = none := by simpa [Item.isSlot] using hb
  unfold itemEq
  simp only [hsa, hsb]
  constructor
  · cases h : a.data with
    | none => simp
    | some d => simp [dataEq_refl (hda d h)]
  · have ht : (a.t == b.t) = (b.t == a.t) := Bool.beq_comm
    cases h : a.data with
    | none => cases h' : b.data <;> simp only [ht]
    | some d =>
      cases h' : b.data with
      | none => simp only [ht]
      | some e => simp only [ht, dataEq_symm (hda d h) (hdb e h')]

/-- **C198** is false: a point without data is equal to all the points with data at the
same time. -/
theorem C198_false : ∃ a b c : Item, a.isSlot = false ∧ b.isSlot = false ∧
    c.isSlot = false ∧ itemEq a b = .ok true ∧ itemEq b c = .ok true ∧ itemEq a c = .ok false :=
  ⟨mkPoint 0 (.num 1), { t := 0 }, mkPoint 0 (.num 2), by decide +kernel⟩

/-- **C198, partial**: it holds among points that all have data, and among points that
all have none. -/
theorem C198_trans_partial (a b c : Item) (ha : a.isSlot = false) (hb : b.isSlot = false)
    (hc : c.isSlot = false) (hda : a.WFData) (hdb : b.WFData) (hdc : c.WFData)
    (hs : (a.data.isSome ∧ b.data.isSome ∧ c.data.isSome) ∨
      (a.data = none ∧ b.data = none ∧ c.data = none))
    (h1 : itemEq a b = .ok true) (h2 : itemEq b c = .ok true) : itemEq a c = .ok true := by
  have hsa : a.slot = none := by simpa [Item.isSlot] using ha
  have hsb : b.slot = none := by simpa [Item.isSlot] using hb
  have hsc : c.slot = none := by simpa [Item.isSlot] using hc
  unfold itemEq at *
  simp only [hsa, hsb, hsc] at *
  rcases hs with ⟨h, h', h''⟩ | ⟨h, h', h''⟩
  · obtain ⟨d, hd⟩ := Option.isSome_iff_exists.1 h
    obtain ⟨e, he⟩ := Option.isSome_iff_exists.1 h'
    obtain ⟨f, hf⟩ := Option.isSome_iff_exists.1 h''
    have hA := hda d hd
    have hB := hdb e he
    have hC := hdc f hf
    simp only [hd, he, hf] at h1 h2 ⊢
    split at h1
    · rename_i hde
      split at h2
      · rename_i hef
        rw [if_pos (dataEq_trans hA hB hC hde hef)]
        simp at h1 h2 ⊢
        exact h1.trans h2
      · simp at h2
    · simp at h1
  · simp only [h, h', h''] at *
    simp at h1 h2 ⊢
    exact h1.trans h2

/-- **C18** for slots with data: equality is an equivalence (no exception is raised). -/
theorem C18_slots (a b c : Item) (ha : a.isSlot = true) (hb : b.isSlot = true) (hc : c.isSlot = true)
    (hda : a.WFData) (hdb : b.WFData) (hdc : c.WFData) (h : a.data.isSome) (h' : b.data.isSome)
    (h'' : c.data.isSome) :
    itemEq a a = .ok true ∧ itemEq a b = itemEq b a ∧
    (itemEq a b = .ok true → itemEq b c = .ok true → itemEq a c = .ok true) := by
  obtain ⟨⟨ea, ua⟩, hsa⟩ := Option.isSome_iff_exists.1 ha
  obtain ⟨⟨eb, ub⟩, hsb⟩ := Option.isSome_iff_exists.1 hb
  obtain ⟨⟨ec, uc⟩, hsc⟩ := Option.isSome_iff_exists.1 hc
  obtain ⟨d, hd⟩ := Option.isSome_iff_exists.1 h
  obtain ⟨e, he⟩ := Option.isSome_iff_exists.1 h'
  obtain ⟨f, hf⟩ := Option.isSome_iff_exists.1 h''
  unfold itemEq
  simp only [hsa, hsb, hsc, hd, he, hf]
  refine ⟨by simp [dataEq_refl (hda d hd)], ?_, ?_⟩
  · rw [dataEq_symm (hda d hd) (hdb e he), Bool.beq_comm (a := a.t), Bool.beq_comm (a := ea)]
  · intro h1 h2
    split at h1
    · rename_i hde
      split at h2
      · rename_i hef
        rw [if_pos (dataEq_trans (hda d hd) (hdb e he) (hdc f hf) hde hef)]
        simp at h1 h2 ⊢
        exact ⟨h1.1.trans h2.1, h1.2.trans h2.2⟩
      · simp at h2
    · simp at h1

/-- The same data: equal numbers, equal lists, or dictionaries with the same value for each label, in
any order. -/
def SameData : Data → Data → Prop
  | .num x, .num y => x = y
  | .list x, .list y => x = y
  | .dict x, .dict y => ∀ k, x.get? k = y.get? k
  | _, _ => False

theorem dataEq_iff {a b : Data} (ha : a.WF) (hb : b.WF) : dataEq a b = true ↔ SameData a b := by
  cases a <;> cases b <;> simp only [dataEq, SameData, Bool.false_eq_true, beq_iff_eq]
  exact dictEq_iff ha hb

/-- **C18, what it means**: two points with data are equal exactly when they are at the same time and
have the same data, two points without data when they are at the same time; two slots with data are
equal exactly when they have the same start, the same end and the same data. -/
theorem C18_when_equal (a b : Item) (hk : a.isSlot = b.isSlot) (hda : a.WFData) (hdb : b.WFData) :
    (∀ d e, a.data = some d → b.data = some e →
      (itemEq a b = .ok true ↔ a.t = b.t ∧ (a.isSlot = true → a.endT = b.endT) ∧ SameData d e)) ∧
    (a.data = none → b.data = none →
      (itemEq a b = .ok true ↔ a.t = b.t ∧ (a.isSlot = true → a.endT = b.endT))) := by
  cases hsa : a.slot with
  | none =>
    have hsb : b.slot = none := by simpa [Item.isSlot, hsa] using hk.symm
    have hna : a.isSlot = false := by simp [Item.isSlot, hsa]
    refine ⟨fun d e hd he => ?_, fun hd he => ?_⟩
    · unfold itemEq
      simp only [hsa, hsb, hd, he, hna, Bool.false_eq_true, false_implies, true_and]
      by_cases h : dataEq d e = true
      · have h' := (dataEq_iff (hda d hd) (hdb e he)).1 h
        rw [if_pos h]; simp [h']
      · have h' : ¬ SameData d e := fun h' => h ((dataEq_iff (hda d hd) (hdb e he)).2 h')
        rw [if_neg h]; simp [h']
    · unfold itemEq
      simp only [hsa, hsb, hd, he, hna, Bool.false_eq_true, false_implies, and_true]
      simp
  | some p =>
    obtain ⟨ea, ua⟩ := p
    have hbs : b.isSlot = true := by rw [← hk]; simp [Item.isSlot, hsa]
    obtain ⟨⟨eb, ub⟩, hsb⟩ := Option.isSome_iff_exists.1 hbs
    have hna : a.isSlot = true := by simp [Item.isSlot, hsa]
    have hea : a.endT = ea := by simp [Item.endT, hsa]
    have heb : b.endT = eb := by simp [Item.endT, hsb]
    refine ⟨fun d e hd he => ?_, fun hd he => ?_⟩
    · unfold itemEq
      simp only [hsa, hsb, hd, he, hna, true_implies, hea, heb]
      by_cases h : dataEq d e = true
      · have h' := (dataEq_iff (hda d hd) (hdb e he)).1 h
        rw [if_pos h]; simp [h']
      · have h' : ¬ SameData d e := fun h' => h ((dataEq_iff (hda d hd) (hdb e he)).2 h')
        rw [if_neg h]; simp [h']
    · unfold itemEq
      simp only [hsa, hsb, hd, he, hna, true_implies, hea, heb]
      simp

/-- two equal slots with the labels in a different order -/
example : itemEq { t := 0, slot := some (60, TUnit.ofSecs 60), data := some (.dict [("a", 1), ("b", 2)]) }
    { t := 0, slot := some (60, TUnit.ofSecs 60), data := some (.dict [("b", 2), ("a", 1)]) } = .ok true ∧
    Data.WF (.dict [("a", 1), ("b", 2)]) := by
  refine ⟨by decide +kernel, by simp [Data.WF, Dict.WF, Dict.keys]⟩

/-! ## C152 -/

/-- **C152** is false: `slot == point` raises `AttributeError` instead of being false when the data are
the same (while `point == slot` is false), and so does a slot with data compared with one without. -/
theorem C152_false :
    itemEq { t := 0, slot := some (60, TUnit.ofSecs 60), data := some (.num 1) } (mkPoint 0 (.num 1))
      = .error .attributeError ∧
    itemEq (mkPoint 0 (.num 1)) { t := 0, slot := some (60, TUnit.ofSecs 60), data := some (.num 1) }
      = .ok false ∧
    itemEq { t := 0, slot := some (60, TUnit.ofSecs 60), data := some (.num 1) }
      { t := 0, slot := some (60, TUnit.ofSecs 60) } = .error .attributeError := by decide +kernel

/-- **C152, partial**: comparing a point with anything gives true or false, and so does comparing two
slots which both have data or both have none.  Missing: a slot compared with a point, or with a slot
which has no data while the first one has (`C152_false`). -/
theorem C152_comparable_partial (a b : Item)
    (h : a.isSlot = false ∨ (b.isSlot = true ∧ (a.data.isSome = b.data.isSome))) :
    ∃ r, itemEq a b = .ok r := by
  unfold itemEq
  cases hsa : a.slot with
  | none =>
    cases hsb : b.slot with
    | none =>
      cases hd : a.data <;> cases he : b.data <;> simp only
      · exact ⟨_, rfl⟩
      · exact ⟨_, rfl⟩
      · exact ⟨_, rfl⟩
      · split <;> exact ⟨_, rfl⟩
    | some q => exact ⟨_, rfl⟩
  | some p =>
    have h' : b.isSlot = true ∧ (a.data.isSome = b.data.isSome) := by
      rcases h with h | h
      · simp [Item.isSlot, hsa] at h
      · exact h
    obtain ⟨q, hsb⟩ := Option.isSome_iff_exists.1 h'.1
    simp only [hsb]
    cases hd : a.data <;> cases he : b.data <;> simp only
    · exact ⟨_, rfl⟩
    · simp [hd, he] at h'
    · simp [hd, he] at h'
    · split <;> exact ⟨_, rfl⟩

/-! ## C19 -/

theorem detectTz_some (d : String) (l : List Item) (h : ∀ x ∈ l, x.tz = d) :
    detectTz (some d) l = some d := by
  induction l with
  | nil => rfl
  | cons a r ih =>
    simp only [detectTz]
    rw [if_neg (by simp [h a])]
    exact ih (fun x hx => h x (by simp [hx]))

theorem detectTz_differ (d : String) (l : List Item) (h : ∃ x ∈ l, x.tz ≠ d) :
    detectTz (some d) l = some "UTC" := by
  induction l with
  | nil => simp at h
  | cons a r ih =>
    simp only [detectTz]
    by_cases ha : a.tz = d
    · rw [if_neg (by simp [ha])]
      apply ih
      obtain ⟨x, hx, hne⟩ := h
      rcases List.mem_cons.1 hx with rfl | hx
      · exact absurd ha hne
      · exact ⟨x, hx, hne⟩
    · rw [if_pos ha]

/-- **C19** With no time zone set, a non-empty series reports the zone shared by its points, or UTC
if they do not share one; a set time zone is reported as it is; the order of the points does not
matter. -/
theorem C19_time_zone (s : TSeries) (hs : s.tz = none) (hne : s.items ≠ []) :
    (∀ z, (∀ x ∈ s.items, x.tz = z) → s.getTz = some z) ∧
    ((∃ x ∈ s.items, ∃ y ∈ s.items, x.tz ≠ y.tz) → s.getTz = some "UTC") ∧
    (∀ s' : TSeries, s'.tz = none → s'.items.Perm s.items → s'.getTz = s.getTz) := by
  have key : ∀ s : TSeries, s.tz = none → s.items ≠ [] →
      (∀ z, (∀ x ∈ s.items, x.tz = z) → s.getTz = some z) ∧
      ((∃ x ∈ s.items, ∃ y ∈ s.items, x.tz ≠ y.tz) → s.getTz = some "UTC") := by
    intro s hs hne
    unfold TSeries.getTz
    rw [hs]
    cases hl : s.items with
    | nil => exact absurd hl hne
    | cons a r =>
      simp only [detectTz]
      refine ⟨fun z h => ?_, ?_⟩
      · rw [h a (by simp)]; exact detectTz_some z r (fun x hx => h x (by simp [hx]))
      · rintro ⟨x, hx, y, hy, hxy⟩
        apply detectTz_differ
        by_contra hno
        have hr : ∀ w ∈ a :: r, w.tz = a.tz := by
          intro w hw
          rcases List.mem_cons.1 hw with rfl | hw
          · rfl
          · by_contra hne; exact hno ⟨w, hw, hne⟩
        exact hxy ((hr x hx).trans (hr y hy).symm)
  refine ⟨(key s hs hne).1, (key s hs hne).2, fun s' hs' hp => ?_⟩
  have hne' : s'.items ≠ [] := fun h => by rw [h] at hp; exact hne hp.symm.eq_nil
  by_cases hd : ∃ x ∈ s.items, ∃ y ∈ s.items, x.tz ≠ y.tz
  · rw [(key s hs hne).2 hd]
    obtain ⟨x, hx, y, hy, hxy⟩ := hd
    exact (key s' hs' hne').2 ⟨x, hp.mem_iff.2 hx, y, hp.mem_iff.2 hy, hxy⟩
  · push Not at hd
    cases hl : s.items with
    | nil => exact absurd hl hne
    | cons a r =>
      have ha : a ∈ s.items := by rw [hl]; simp
      rw [(key s hs hne).1 a.tz (fun x hx => hd x hx a ha),
        (key s' hs' hne').1 a.tz (fun x hx => hd x (hp.mem_iff.1 hx) a ha)]

/-- setting the time zone of a series -/
theorem C19_change_tz (s : TSeries) (z : String) (hne : s.items ≠ []) :
    (s.changeTz z).2 = .ok () ∧ (s.changeTz z).1.getTz = some z ∧
    (∀ x ∈ (s.changeTz z).1.items, x.tz = z) ∧ times (s.changeTz z).1.items = times s.items := by
  unfold TSeries.changeTz
  rw [if_neg (by simpa using hne)]
  refine ⟨rfl, rfl, ?_, ?_⟩
  · intro x hx; simp at hx; obtain ⟨y, _, rfl⟩ := hx; rfl
  · simp [times, Function.comp_def]

example : (⟨[mkPoint 0 (.num 1) "Europe/Rome", mkPoint 60 (.num 1) "Europe/Rome"], none, .unset, none,
    none, none⟩ : TSeries).getTz = some "Europe/Rome" := by decide +kernel

/-! ## C20 -/

/-- what the first spacing of a series becomes when written as a time unit and read back, for a
spacing of `n` tenths of microsecond -/
theorem C20_false : ¬ ∀ n : ℕ, 1000 ≤ n →
    spacingUnit ((n : ℚ) / 10000000) = some (TUnit.ofSecs ((n : ℚ) / 10000000)) := by
  intro h
  have := h 10500000 (by norm_num)
  have h2 : spacingUnit (((10500000 : ℕ) : ℚ) / 10000000) = some (TUnit.ofSecs 15) := by decide +kernel
  rw [h2] at this
  simp [TUnit.ofSecs] at this
  norm_num at this

/-- **C20, exact range**: a spacing of `n` tenths of a microsecond (at least 0.1 ms) comes back
unchanged if and only if its fractional part is zero or at least one tenth of a second; otherwise
(`1.05s` is read as `15s`) it becomes a whole number of seconds. -/
theorem C20_spacing_roundtrip_partial (n : ℕ) (h : 1000 ≤ n) :
    spacingUnit ((n : ℚ) / 10000000) = some (TUnit.ofSecs ((n : ℚ) / 10000000)) ↔
      (n % 10000000 = 0 ∨ 1000000 ≤ n % 10000000) := by
  obtain ⟨v, h1, _, h2, h3⟩ := spacingUnit_mult n h
  constructor
  · intro he
    by_contra hn
    obtain ⟨k, hk⟩ := h3 hn
    rw [h1] at he
    have hv : v = (n : ℚ) / 10000000 := by simpa [TUnit.ofSecs] using he
    rw [hk] at hv
    have : (n : ℚ) = ((k * 10000000 : ℕ) : ℚ) := by
      rw [eq_div_iff (by norm_num)] at hv
      rw [← hv, Nat.cast_mul]; simp
    have : n = k * 10000000 := by exact_mod_cast this
    exact hn (Or.inl (by rw [this]; exact Nat.mul_mod_left _ _))
  · intro hok
    rw [h1, h2 hok]

/-- both sides occur: half a second is fine, a twentieth is not -/
example : (5000000 % 10000000 = 0 ∨ 1000000 ≤ 5000000 % 10000000) ∧
    ¬ (500000 % 10000000 = 0 ∨ 1000000 ≤ 500000 % 10000000) := by omega

/-! ## C72 -/

/-- **C72** The list of all data indexes has no repetitions, contains exactly the indexes carried by
some item, and is the same for any reordering of the items. -/
theorem C72_all_data_indexes (l : List Item) :
    (allDataIndexes l).Nodup ∧
    (∀ k, k ∈ allDataIndexes l ↔ ∃ x ∈ l, k ∈ x.idx.keys) ∧
    (∀ l', l'.Perm l → allDataIndexes l' = allDataIndexes l) := by
  refine ⟨?_, ?_, ?_⟩
  · unfold allDataIndexes
    refine List.Nodup.append ?_ ?_ ?_
    · exact (by decide : legacyIndexes.Nodup).filter _
    · exact ((sortStr_perm _).nodup_iff).2 ((nodup_allNames l).filter _)
    · intro a ha hb
      have hb' := (sortStr_perm _).mem_iff.1 hb
      simp only [List.mem_filter] at ha hb'
      have := hb'.2
      simp [ha.1] at this
  · intro k
    unfold allDataIndexes
    rw [List.mem_append, (sortStr_perm _).mem_iff]
    simp only [List.mem_filter, List.contains_iff_mem, Bool.not_eq_true']
    rw [← mem_allNames]
    constructor
    · rintro (⟨_, h⟩ | ⟨h, _⟩) <;> simpa using h
    · intro h
      by_cases hk : k ∈ legacyIndexes
      · left; exact ⟨hk, by simpa using h⟩
      · right; exact ⟨h, by simpa using hk⟩
  · intro l' hp
    have hm : ∀ k, k ∈ allDataIndexNames l' ↔ k ∈ allDataIndexNames l := by
      intro k; rw [mem_allNames, mem_allNames]
      exact ⟨fun ⟨x, hx, h⟩ => ⟨x, hp.mem_iff.1 hx, h⟩, fun ⟨x, hx, h⟩ => ⟨x, hp.mem_iff.2 hx, h⟩⟩
    have hperm : (allDataIndexNames l').Perm (allDataIndexNames l) :=
      (List.perm_ext_iff_of_nodup (nodup_allNames l') (nodup_allNames l)).2 hm
    unfold allDataIndexes
    simp only
    congr 1
    · apply List.filter_congr
      intro k _
      rw [Bool.eq_iff_iff]; simp [hm]
    · exact sortStr_congr (hperm.filter _)

example : allDataIndexes [mkPoint 0 (.num 1) "UTC" [("zeta", some 1), ("data_loss", some 0)],
    mkPoint 60 (.num 1) "UTC" [("alpha", none), ("zeta", none)]] = ["data_loss", "alpha", "zeta"] := by
  decide +kernel

/-! ## C74, C75 -/

/-- **C74** Creating a time slot refuses equal ends, different time zones and a missing end without a
unit; otherwise it succeeds, and a slot made from a start and a physical unit ends one unit after its
start and carries that unit. -/
theorem C74_slot_well_formed (cal : Calendar) (a : TP) (u : TUnit) :
    (∀ e u', (a.2 ≠ e.2 ∨ a.1 = e.1) → mkTimeSlot cal a (some e) u' = .error .valueError) ∧
    (∀ e u', a.2 = e.2 → a.1 ≠ e.1 → ∃ s, mkTimeSlot cal a (some e) u' = .ok s ∧ s.isSlot = true ∧
      s.t = a.1 ∧ s.endT = e.1 ∧ s.tz = a.2) ∧
    (∃ x, mkTimeSlot cal a none none = .error x) ∧
    (∃ s, mkTimeSlot cal a none (some u) = .ok s ∧ s.t = a.1 ∧ s.unit = u ∧ s.tz = a.2 ∧
      (u.Physical → s.endT = a.1 + u.secs)) := by
  refine ⟨?_, ?_, ⟨_, rfl⟩, ?_⟩
  · intro e u' h
    unfold mkTimeSlot
    by_cases hz : a.2 = e.2
    · rcases h with h | h
      · exact absurd hz h
      · simp [hz, h]
    · simp [hz]
  · intro e u' hz ht
    unfold mkTimeSlot
    simp [hz, ht, Item.isSlot, Item.endT]
  · exact ⟨_, rfl, rfl, rfl, rfl, fun h => cal.physical u a.2 a.1 h⟩

/-- **C74** in any number of dimensions: different dimensions and equal ends are refused, anything
else is accepted. -/
theorem C74_generic_slot (a b : Coords) :
    (∃ s, mkGenericSlot a b = .ok s) ↔ a.length = b.length ∧ a ≠ b := by
  unfold mkGenericSlot
  by_cases h : a.length = b.length
  · by_cases h' : a = b <;> simp [h, h']
  · simp [h]

example : ∃ s, mkTimeSlot physicalCalendar (0, "UTC") none (some (TUnit.ofSecs 3600)) = .ok s ∧
    s.endT = 3600 := ⟨_, rfl, by decide +kernel⟩

/-- **C75** is false: a slot can be created ending before it starts, and with a unit that is not its
length. -/
theorem C75_false : ∃ s s', mkTimeSlot physicalCalendar (60, "UTC") (some (0, "UTC")) none = .ok s ∧
    s.endT < s.t ∧
    mkTimeSlot physicalCalendar (0, "UTC") (some (60, "UTC")) (some (TUnit.ofSecs 3600)) = .ok s' ∧
    s'.endT - s'.t ≠ s'.unit.secs :=
  ⟨{ t := 60, slot := some (0, TUnit.ofSecs (-60)), tz := "UTC" },
   { t := 0, slot := some (60, TUnit.ofSecs 3600), tz := "UTC" }, by decide +kernel⟩

/-- **C75, partial**: a slot made from a start and a positive physical unit, or from a start and a
later end without giving a unit, ends after it starts and its length is its unit. -/
theorem C75_slot_forward_partial (cal : Calendar) (a : TP) (stop : Option TP) (unit : Option TUnit)
    (s : Item) (h : mkTimeSlot cal a stop unit = .ok s)
    (hc : (stop = none ∧ ∃ u, unit = some u ∧ u.Physical ∧ 0 < u.secs) ∨
      (unit = none ∧ ∃ e, stop = some e ∧ a.1 < e.1)) :
    s.t < s.endT ∧ s.endT - s.t = s.unit.secs := by
  rcases hc with ⟨rfl, u, rfl, hu, hpos⟩ | ⟨rfl, e, rfl, hlt⟩
  · simp only [mkTimeSlot] at h
    rw [cal.physical u a.2 a.1 hu] at h
    simp at h; subst h
    simp only [Item.endT, Item.unit]
    constructor <;> linarith
  · unfold mkTimeSlot at h
    simp only at h
    split at h
    · simp at h
    · split at h
      · simp at h
      · simp at h; subst h
        simp [Item.endT, Item.unit, TUnit.ofSecs, hlt]

example : ∃ s, mkTimeSlot physicalCalendar (0, "UTC") (some (60, "UTC")) none = .ok s := ⟨_, rfl⟩

end Timeseria
