import Verif.Lemmas.CsvWrite
import Verif.Model.Utilities

/-! # C50, C51, C52, C98: storing a series in a CSV file and reading it back -/

namespace Timeseria

/-- Specification: the item that was read has the time, the values and the data indexes of the stored one, in the
time zone of the storage. -/
structure SameStored (tz : String) (x y : Item) : Prop where
  t : y.t = x.t
  tz : y.tz = tz
  kind : ∃ d e, x.data = some (.dict d) ∧ y.data = some (.dict e) ∧ ∀ k, e.get? k = d.get? k
  idx : ∀ k, y.idx.get? k = x.idx.get? k

theorem get?_map_names {α : Type} (f : String → α) (k : String) : ∀ ks : List String,
    Dict.get? (ks.map (fun n => (n, f n))) k = if k ∈ ks then some (f k) else none
  | [] => rfl
  | a :: r => by
    rw [List.map_cons, Dict.get?_cons, get?_map_names f k r]
    by_cases h : a = k
    · subst h; simp
    · have : ¬ k = a := fun e => h e.symm
      simp [h, this]

/-- what is read for an item -/
theorem sameStored_of {l : List Item} (hst : Storable l) (tz : String) {x : Item} (hx : x ∈ l) (y : Item)
    (ht : y.t = x.t) (hz : y.tz = tz)
    (hd : y.data = some (.dict ((labelsOfItems l).map (fun k => (k, valOf x k)))))
    (hi : y.idx = (allDataIndexes l).map (fun n => (n, idxOf x n))) : SameStored tz x y := by
  obtain ⟨d, hxd, hwf, hne⟩ := hst.dict x hx
  refine ⟨ht, hz, ⟨d, _, hxd, hd, ?_⟩, ?_⟩
  · intro k
    rw [get?_map_names]
    have hm := hst.labels_perm x hx d hxd k
    by_cases hk : k ∈ labelsOfItems l
    · obtain ⟨v, hv⟩ := Dict.get?_isSome.2 (hm.1 hk)
      simp [hk, hv, valOf, hxd]
    · rw [if_neg hk, Dict.get?_eq_none.2 (fun h => hk (hm.2 h))]
  · intro k
    rw [hi, get?_map_names]
    have hm := hst.index_mem x hx k
    by_cases hk : k ∈ allDataIndexes l
    · obtain ⟨v, hv⟩ := Dict.get?_isSome.2 (hm.1 hk)
      simp [hk, hv, idxOf]
    · rw [if_neg hk, Dict.get?_eq_none.2 (fun h => hk (hm.2 h))]

theorem split_rowFor {l : List Item} (hst : Storable l) (x : Item) :
    (rowFor (labelsOfItems l) (allDataIndexes l) x).data.split =
      (.dict ((labelsOfItems l).map (fun k => (k, valOf x k))), (allDataIndexes l).map (fun n => (n, idxOf x n))) := by
  have hlab : ∀ k ∈ labelsOfItems l, isIndexLabel (some k) = false := fun k hk => (hst.label_plain k hk).2.1
  simp only [rowFor, RowData.split]
  rw [rowValues_columns _ _ x hlab, rowIndexes_columns _ _ x hlab]

theorem keys_map_names {α : Type} (f : String → α) (ks : List String) : Dict.keys (ks.map (fun n => (n, f n))) = ks := by
  simp [Dict.keys, Function.comp_def]

/-- **C50** (points) Storing a series of points and reading it back gives a series with the same timestamps, labels,
values and data indexes, item by item, whether the timestamp column, the format and the data type are given or
detected, sorted or not, with or without `skip_errors`. -/
theorem C50_points_round_trip (cd : Codec) (cal : Calendar) (detect : List ℚ → Except PyErr ℚ) (fuel : ℕ) (n : Notes)
    (l : List Item) (s : TSeries) (hs : TSeries.build l = .ok s) (hst : Storable l)
    (hpts : ∀ x ∈ l, x.slot = none) (hsp : l.Pairwise (fun a b => a.t + 1 / 10000 ≤ b.t))
    (cf : CsvConf) (st : CsvState) (hrs : ReadSettings cf st) (a : GetArgs) (ha : a.limit = none ∧ a.filter = .all ∧ a.forceSlots = false)
    (hkind : wantedKind cf a = some .points ∨
      (wantedKind cf a = none ∧ ∃ d, detect (sampleStamps (l.map Item.t) TSeries.empty) = .ok d ∧ calendarUnit d = none))
    (file : Option (List Text)) (overwrite : Bool) (hw : file = none ∨ overwrite = true) :
    ∃ content r st', csvPut cd n s overwrite file = (some content, .ok ()) ∧
      csvGet cd cal detect fuel cf st a content = .ok (r, st') ∧
      List.Forall₂ (fun x y => SameStored cf.tz x y ∧ y.slot = none) l r.items := by
  have hput := putLines_ok cd n hst s hs
  have hord : l.Pairwise (fun a b => a.t ≤ b.t) := hsp.imp (fun h => by linarith)
  obtain ⟨st', hread⟩ := readRows_written cd n hst hord cf st hrs
  refine ⟨noteLines n ++ headLine l :: bodyLines cd l, ?_⟩
  let back : Item → Item := fun x =>
    { t := x.t, slot := none, tz := cf.tz, data := some (.dict ((labelsOfItems l).map (fun k => (k, valOf x k)))),
      idx := (allDataIndexes l).map (fun n => (n, idxOf x n)) }
  have hback : (l.map (rowFor (labelsOfItems l) (allDataIndexes l))).map (rowPoint cf.tz) = l.map back := by
    rw [List.map_map]
    apply List.map_congr_left
    intro x hx
    simp only [Function.comp, rowPoint, split_rowFor hst x]
    rfl
  have hgood : GoodPoints (l.map back) := by
    refine ⟨?_, ?_, ?_, ?_⟩
    · intro y hy; obtain ⟨x, _, rfl⟩ := List.mem_map.1 hy; rfl
    · rw [List.pairwise_map]; exact hsp
    · intro y hy
      obtain ⟨x, _, rfl⟩ := List.mem_map.1 hy
      refine ⟨_, rfl, ?_⟩
      have := hst.labels_ne
      cases hl : labelsOfItems l with
      | nil => exact absurd hl this
      | cons a b => simp [Data.truthy]
    · intro y hy z hz d e hd he
      obtain ⟨x, _, rfl⟩ := List.mem_map.1 hy
      obtain ⟨x', _, rfl⟩ := List.mem_map.1 hz
      simp [back] at hd he
      subst hd; subst he
      intro k
      rw [keys_map_names, keys_map_names]
  obtain ⟨r, hb, hri, _⟩ := build_good hgood
  have hap := (build_ok_iff _ _).1 hb
  have hpr : pointRows cf.skipErrors cf.tz (l.map (rowFor (labelsOfItems l) (allDataIndexes l))) TSeries.empty = .ok r := by
    rw [pointRows_ok _ _ _ _ (by rw [hback, hap]), hback, hap]
  refine ⟨r, st', ?_, ?_, ?_⟩
  · unfold csvPut
    rw [if_neg (by rcases hw with rfl | rfl <;> simp), hput]
  · unfold csvGet
    rw [if_neg (by simp [ha.2.2]), ha.1, ha.2.1, hread]
    dsimp only
    have hts : (l.map (rowFor (labelsOfItems l) (allDataIndexes l))).map Row.t = l.map Item.t := by
      rw [List.map_map]; rfl
    rw [hts]
    have hk : decideKind (wantedKind cf a) a.forceUnit (detect (sampleStamps (l.map Item.t) TSeries.empty)) = .ok none := by
      rcases hkind with h | ⟨h, d, hd, hu⟩
      · rw [h]; rfl
      · rw [h, hd]; simp [decideKind, hu]
    rw [hk]
    dsimp only
    rw [hpr]
  · rw [hri, List.forall₂_map_right_iff, List.forall₂_same]
    intro x hx
    exact ⟨sameStored_of hst cf.tz hx _ rfl rfl rfl rfl, rfl⟩

/-- **C50** (slots) The same for slots, when their unit is given to `get` and the time zone of the storage is theirs. -/
theorem C50_slots_round_trip (cd : Codec) (cal : Calendar) (detect : List ℚ → Except PyErr ℚ) (fuel : ℕ) (n : Notes)
    (l : List Item) (s : TSeries) (hs : TSeries.build l = .ok s) (hst : Storable l) (u : TUnit)
    (cf : CsvConf) (hsl : ∀ x ∈ l, x.slot = some (cal.shift u cf.tz x.t, u) ∧ x.tz = cf.tz)
    (hsucc : InSuccession l) (hord : l.Pairwise (fun a b => a.t ≤ b.t))
    (st : CsvState) (hrs : ReadSettings cf st) (a : GetArgs)
    (ha : a = { forceSlots := true, forceUnit := some u })
    (d : ℚ) (hdet : detect (sampleStamps (l.map Item.t) TSeries.empty) = .ok d)
    (file : Option (List Text)) (overwrite : Bool) (hw : file = none ∨ overwrite = true) :
    ∃ content r st', csvPut cd n s overwrite file = (some content, .ok ()) ∧
      csvGet cd cal detect fuel cf st a content = .ok (r, st') ∧
      List.Forall₂ (fun x y => SameStored cf.tz x y ∧ y.slot = x.slot) l r.items := by
  have hput := putLines_ok cd n hst s hs
  obtain ⟨st', hread⟩ := readRows_written cd n hst hord cf st hrs
  refine ⟨noteLines n ++ headLine l :: bodyLines cd l, ?_⟩
  let back : Item → Item := fun x =>
    { t := x.t, slot := some (cal.shift u cf.tz x.t, u), tz := cf.tz, data := some (.dict ((labelsOfItems l).map (fun k => (k, valOf x k)))),
      idx := (allDataIndexes l).map (fun n => (n, idxOf x n)) }
  have hback : (l.map (rowFor (labelsOfItems l) (allDataIndexes l))).map
      (fun r => rowSlot cal cf.tz u r.t r.data.split.1 r.data.split.2) = l.map back := by
    rw [List.map_map]
    apply List.map_congr_left
    intro x hx
    simp only [Function.comp, rowSlot, split_rowFor hst x]
    rfl
  have hgood : GoodSlots (l.map back) := by
    refine ⟨?_, ?_, ?_, ?_, ?_, ?_⟩
    · intro y hy; obtain ⟨x, _, rfl⟩ := List.mem_map.1 hy; rfl
    · unfold InSuccession at hsucc ⊢
      rw [List.isChain_map]
      refine hsucc.imp_of_mem_imp ?_
      intro x y hx hy h
      have hx' := (hsl x hx).1
      have : x.endT = cal.shift u cf.tz x.t := by unfold Item.endT; rw [hx']
      rw [this] at h
      exact h
    · intro y hy z hz
      obtain ⟨x, _, rfl⟩ := List.mem_map.1 hy
      obtain ⟨x', _, rfl⟩ := List.mem_map.1 hz
      rfl
    · intro y hy z hz
      obtain ⟨x, _, rfl⟩ := List.mem_map.1 hy
      obtain ⟨x', _, rfl⟩ := List.mem_map.1 hz
      rfl
    · intro y hy
      obtain ⟨x, _, rfl⟩ := List.mem_map.1 hy
      refine ⟨_, rfl, ?_⟩
      have := hst.labels_ne
      cases hl : labelsOfItems l with
      | nil => exact absurd hl this
      | cons a b => simp [Data.truthy]
    · intro y hy z hz d e hd he
      obtain ⟨x, _, rfl⟩ := List.mem_map.1 hy
      obtain ⟨x', _, rfl⟩ := List.mem_map.1 hz
      simp [back] at hd he
      subst hd; subst he
      intro k
      rw [keys_map_names, keys_map_names]
  obtain ⟨r, hb, hri, _⟩ := build_good_slots hgood
  have hap := (build_ok_iff _ _).1 hb
  have hpr : slotRows cal cf.tz u fuel (l.map (rowFor (labelsOfItems l) (allDataIndexes l))) 0
      (l.map (rowFor (labelsOfItems l) (allDataIndexes l))) TSeries.empty = .ok r := by
    rw [slotRows_ok _ _ _ _ _ _ _ _ (by rw [hback, hap]), hback, hap]
  refine ⟨r, st', ?_, ?_, ?_⟩
  · unfold csvPut
    rw [if_neg (by rcases hw with rfl | rfl <;> simp), hput]
  · subst ha
    unfold csvGet
    rw [if_neg (by simp)]
    dsimp only
    rw [hread]
    dsimp only
    have hts : (l.map (rowFor (labelsOfItems l) (allDataIndexes l))).map Row.t = l.map Item.t := by
      rw [List.map_map]; rfl
    rw [hts, hdet]
    have hk : decideKind (wantedKind cf { forceSlots := true, forceUnit := some u }) (some u) (.ok d) = .ok (some u) := by
      simp only [wantedKind, decideKind]
      cases calendarUnit d <;> simp
    rw [hk]
    dsimp only
    rw [hpr]
  · rw [hri, List.forall₂_map_right_iff, List.forall₂_same]
    intro x hx
    exact ⟨sameStored_of hst cf.tz hx _ rfl rfl rfl rfl, (hsl x hx).1.symm⟩

/-! ## C51 -/

/-- **C51** `put` without `overwrite` leaves an existing file as it is, and raises, for every series. -/
theorem C51_existing_file_not_overwritten (cd : Codec) (n : Notes) (s : TSeries) (content : List Text) :
    ∃ e, csvPut cd n s false (some content) = (some content, .error e) :=
  ⟨.exception, by simp [csvPut]⟩

/-- with `overwrite`, or with no file there, it goes on to write -/
theorem C51_otherwise_written (cd : Codec) (n : Notes) (s : TSeries) (file : Option (List Text)) (overwrite : Bool)
    (h : file = none ∨ overwrite = true) : csvPut cd n s overwrite file = (some (putLines cd n s).1, (putLines cd n s).2) := by
  unfold csvPut
  rw [if_neg (by rcases h with rfl | rfl <;> simp)]

/-! ## C52 -/

/-- **C52** is false: storing an empty series with `overwrite` raises, and whatever was stored is gone. -/
theorem C52_failed_put_empties_the_file_false (cd : Codec) (n : Notes) (content : List Text) :
    csvPut cd n TSeries.empty true (some content) = (some [], .error .typeError) := rfl

/-- the same for a series of items without data -/
theorem C52_no_data_empties_the_file_false (cd : Codec) (n : Notes) (content : List Text) (s : TSeries) (x : Item) (r : List Item)
    (hs : s.items = x :: r) (hx : x.data = none) : csvPut cd n s true (some content) = (some [], .error .typeError) := by
  simp [csvPut, putLines, hs, hx]

/-- and when an item lacks a data index that others have, the file is left with a part of the series -/
theorem C52_missing_index_leaves_half_a_file_false : ∃ (s : TSeries) (content : List Text) (n : Notes),
    (csvPut sampleCodec n s true (some content)).2 = .error .keyError ∧
    (csvPut sampleCodec n s true (some content)).1.map List.length = some 5 ∧ s.items.length = 3 ∧
    (∃ l, TSeries.build l = .ok s) := by
  refine ⟨((TSeries.build [mkPoint 0 (.dict [("a", 1)]) "UTC" [("data_loss", some 0)], mkPoint 60 (.dict [("a", 2)]),
      mkPoint 120 (.dict [("a", 3)]) "UTC" [("data_loss", some 0)]]).toOption.getD TSeries.empty), ["old".toList], ⟨[], [], []⟩,
    by decide +kernel, by decide +kernel, by decide +kernel,
    ⟨[mkPoint 0 (.dict [("a", 1)]) "UTC" [("data_loss", some 0)], mkPoint 60 (.dict [("a", 2)]),
      mkPoint 120 (.dict [("a", 3)]) "UTC" [("data_loss", some 0)]], ?_⟩⟩
  decide +kernel

/-- **C52**, the part that holds: a refusal because the file exists changes nothing, and storing a series of
dictionaries with the same data indexes on all items does not fail. -/
theorem C52_good_series_partial (cd : Codec) (n : Notes) (l : List Item) (s : TSeries) (hs : TSeries.build l = .ok s) (hst : Storable l)
    (file : Option (List Text)) (overwrite : Bool) :
    (csvPut cd n s overwrite file).2 = .ok () ∨ (csvPut cd n s overwrite file).1 = file := by
  unfold csvPut
  by_cases h : file.isSome ∧ !overwrite
  · rw [if_pos h]; right; rfl
  · rw [if_neg h, putLines_ok cd n hst s hs]; left; rfl

/-! ## Examples -/

def storedItems : List Item :=
  [mkPoint 0 (.dict [("b", 1), ("a", 1/2)]) "UTC" [("data_loss", none)],
   mkPoint 60 (.dict [("b", 2), ("a", -3)]) "UTC" [("data_loss", some (1/4))]]

def notesOf : Notes := ⟨"now".toList, "a, series".toList, "{}".toList⟩

def storedFile (l : List Item) : List Text :=
  ((csvPut sampleCodec notesOf ((TSeries.build l).toOption.getD TSeries.empty) false none).1).getD []

theorem storable_example : Storable storedItems := by
  refine ⟨by decide, ?_, ?_, ?_, ?_, ?_⟩
  · intro x hx
    simp only [storedItems, List.mem_cons, List.not_mem_nil, or_false] at hx
    rcases hx with rfl | rfl
    · exact ⟨_, rfl, by unfold Dict.WF; decide, by simp⟩
    · exact ⟨_, rfl, by unfold Dict.WF; decide, by simp⟩
  · intro x hx d hd k hk
    simp only [storedItems, List.mem_cons, List.not_mem_nil, or_false] at hx
    have hk' : k = "b" ∨ k = "a" := by
      rcases hx with rfl | rfl <;> simp [mkPoint] at hd <;> subst hd <;> simpa [Dict.keys] using hk
    rcases hk' with rfl | rfl
    · exact ⟨⟨by decide, by decide, by decide⟩, by decide, by decide, by decide⟩
    · exact ⟨⟨by decide, by decide, by decide⟩, by decide, by decide, by decide⟩
  · intro x hx y hy d e hd he k
    simp only [storedItems, List.mem_cons, List.not_mem_nil, or_false] at hx hy
    rcases hx with rfl | rfl <;> rcases hy with rfl | rfl <;> simp [mkPoint] at hd he <;> subst hd <;> subst he <;> simp [Dict.keys]
  · intro x hx
    simp only [storedItems, List.mem_cons, List.not_mem_nil, or_false] at hx
    rcases hx with rfl | rfl
    · exact ⟨by unfold Dict.WF; decide, by decide⟩
    · exact ⟨by unfold Dict.WF; decide, by decide⟩
  · intro x hx y hy k
    simp only [storedItems, List.mem_cons, List.not_mem_nil, or_false] at hx hy
    rcases hx with rfl | rfl <;> rcases hy with rfl | rfl <;> simp [mkPoint, Dict.keys]

example : ReadSettings {} {} :=
  ⟨rfl, by decide, by decide, rfl, Or.inl rfl, Or.inl rfl, Or.inl rfl⟩

/-- the whole run on it, with the interval detected by the modelled function -/
example : ((csvGet sampleCodec physicalCalendar (fun _ => .ok 60) 10 {} {} {} (storedFile storedItems)).toOption.map
    (fun r => r.1.items)) =
    some [mkPoint 0 (.dict [("a", 1/2), ("b", 1)]) "UTC" [("data_loss", none)],
      mkPoint 60 (.dict [("a", -3), ("b", 2)]) "UTC" [("data_loss", some (1/4))]] := by decide +kernel

/-! ## C98: labels, kinds of data and separators that do not survive -/

/-- the round trip as asked for: an accepted series, put in a new file and read by the same storage as points -/
def roundTrip (cf : CsvConf) (l : List Item) : Option (List Item) :=
  (csvGet sampleCodec physicalCalendar (fun _ => .ok 60) 10 cf {} { forcePoints := true } (storedFile l)).toOption.map (fun r => r.1.items)

/-- **C98** is false: a label `timestamp` takes the place of the timestamps. -/
theorem C98_label_timestamp_false :
    (TSeries.build [mkPoint 0 (.dict [("timestamp", 5)]), mkPoint 60 (.dict [("timestamp", 7)])]).toOption.isSome = true ∧
    (roundTrip {} [mkPoint 0 (.dict [("timestamp", 5)]), mkPoint 60 (.dict [("timestamp", 7)])]) =
      some [mkPoint 5 (.dict [("epoch", 0)]), mkPoint 7 (.dict [("epoch", 60)])] := by decide +kernel

/-- a label starting with two underscores comes back as a data index -/
theorem C98_label_underscores_false :
    (TSeries.build [mkPoint 0 (.dict [("a", 1), ("__b", 5)]), mkPoint 60 (.dict [("a", 2), ("__b", 7)])]).toOption.isSome = true ∧
    (roundTrip {} [mkPoint 0 (.dict [("a", 1), ("__b", 5)]), mkPoint 60 (.dict [("a", 2), ("__b", 7)])]) =
      some [mkPoint 0 (.dict [("a", 1)]) "UTC" [("b", some 5)], mkPoint 60 (.dict [("a", 2)]) "UTC" [("b", some 7)]] := by decide +kernel

/-- lists come back as dictionaries -/
theorem C98_list_comes_back_as_dictionary_false :
    (TSeries.build [mkPoint 0 (.list [1, 2]), mkPoint 60 (.list [3, 4])]).toOption.isSome = true ∧
    (roundTrip {} [mkPoint 0 (.list [1, 2]), mkPoint 60 (.list [3, 4])]) =
      some [mkPoint 0 (.dict [("0", 1), ("1", 2)]), mkPoint 60 (.dict [("0", 3), ("1", 4)])] := by decide +kernel

/-- a placeholder as label shifts the names of the columns: here `na` is dropped, and the file cannot be read -/
theorem C98_placeholder_label_false :
    (TSeries.build [mkPoint 0 (.dict [("b", 1), ("na", 5)]), mkPoint 60 (.dict [("b", 2), ("na", 7)])]).toOption.isSome = true ∧
    (roundTrip {} [mkPoint 0 (.dict [("b", 1), ("na", 5)]), mkPoint 60 (.dict [("b", 2), ("na", 7)])]) =
      some [mkPoint 0 (.dict [("b", 1)]), mkPoint 60 (.dict [("b", 2)])] ∧
    (roundTrip {} [mkPoint 0 (.dict [("nb", 1), ("na", 5)]), mkPoint 60 (.dict [("nb", 2), ("na", 7)])]) = none := by decide +kernel

/-- `put` always writes commas: a storage with another separator cannot read its own files -/
theorem C98_other_separator_false :
    (TSeries.build [mkPoint 0 (.dict [("a", 1)]), mkPoint 60 (.dict [("a", 2)])]).toOption.isSome = true ∧
    (roundTrip { sep := '|' } [mkPoint 0 (.dict [("a", 1)]), mkPoint 60 (.dict [("a", 2)])]) = none := by decide +kernel

/-- **C98**, the part that holds: see `C50_points_round_trip`; here for a storage with default settings. -/
theorem C98_plain_labels_partial (cd : Codec) (cal : Calendar) (detect : List ℚ → Except PyErr ℚ) (fuel : ℕ) (n : Notes)
    (l : List Item) (s : TSeries) (hs : TSeries.build l = .ok s) (hst : Storable l)
    (hpts : ∀ x ∈ l, x.slot = none) (hsp : l.Pairwise (fun a b => a.t + 1 / 10000 ≤ b.t)) :
    ∃ content r st', csvPut cd n s false none = (some content, .ok ()) ∧
      csvGet cd cal detect fuel {} {} { forcePoints := true } content = .ok (r, st') ∧
      List.Forall₂ (fun x y => SameStored "UTC" x y ∧ y.slot = none) l r.items :=
  C50_points_round_trip cd cal detect fuel n l s hs hst hpts hsp {} {}
    ⟨rfl, by decide, by decide, rfl, Or.inl rfl, Or.inl rfl, Or.inl rfl⟩ _ ⟨rfl, rfl, rfl⟩ (Or.inl rfl) none false (Or.inl rfl)

end Timeseria
