import Verif.Props.CsvSlots
/-!
C340: no row of a file read as slots is lost.
-/
namespace Timeseria

/-- the item is the slot of the row: its time and its values -/
def IsRow (cal : Calendar) (tz : String) (u : TUnit) (r : Row) (x : Item) : Prop :=
  x.t = r.t ∧ x.slot = some (cal.shift u tz r.t, u) ∧ x.tz = tz ∧ x.data = some r.data.split.1

/-- the item was made up for a missing slot: it is marked as completely lost -/
def IsFiller (cal : Calendar) (tz : String) (u : TUnit) (x : Item) : Prop :=
  x.slot = some (cal.shift u tz x.t, u) ∧ x.tz = tz ∧ x.idx = [("data_loss", some 1)]

/-- the slots are those of the rows, in their order, and fillers among them -/
inductive RowsAndFillers (cal : Calendar) (tz : String) (u : TUnit) : List Row → List Item → Prop
  | nil : RowsAndFillers cal tz u [] []
  | row {rows : List Row} {items : List Item} {r : Row} {x : Item} : RowsAndFillers cal tz u rows items → IsRow cal tz u r x → RowsAndFillers cal tz u (rows ++ [r]) (items ++ [x])
  | filler {rows : List Row} {items : List Item} {x : Item} : RowsAndFillers cal tz u rows items → IsFiller cal tz u x → RowsAndFillers cal tz u rows (items ++ [x])

theorem appendE_ok_items {s s' : TSeries} {x : Item} (h : appendE s x = .ok s') : s'.items = s.items ++ [x] := by
  unfold appendE at h
  rcases append_items s x with ⟨e, he, _⟩ | ⟨ho, hi, _⟩
  · rw [he] at h; cases h
  · rw [ho] at h; cases h; exact hi

theorem appendMissing_fillers {cal : Calendar} {tz : String} {u : TUnit} {labels : List String} {a b : Dict ℚ} {n : ℕ} {rows : List Row} :
    ∀ (l : List ℚ) (j : ℕ) (s s' : TSeries), appendMissing cal tz u labels a b n j l s = .ok s' → RowsAndFillers cal tz u rows s.items → RowsAndFillers cal tz u rows s'.items := by
  intro l
  induction l with
  | nil => intro j s s' h hr; cases h; exact hr
  | cons t r ih =>
    intro j s s' h hr
    unfold appendMissing at h
    split at h
    · cases h
    · split at h
      · cases h
      · rename_i s1 h1
        refine ih _ _ _ h ?_
        rw [appendE_ok_items h1]
        exact .filler hr ⟨rfl, rfl, rfl⟩

theorem fillGap_rows {cal : Calendar} {tz : String} {u : TUnit} {fuel : ℕ} {rows done : List Row} {i : ℕ} {prev r : Row} {s s' : TSeries}
    (h : fillGap cal tz u fuel rows i prev r s = .ok s') (hr : RowsAndFillers cal tz u done s.items) : RowsAndFillers cal tz u (done ++ [r]) s'.items := by
  unfold fillGap at h
  split at h
  · cases h
  · split at h
    · cases h
    · split at h
      · rename_i a b ha hb
        split at h
        · cases h
        · rename_i s1 h1
          rw [appendE_ok_items h]
          exact .row (appendMissing_fillers _ _ _ _ h1 hr) ⟨rfl, rfl, rfl, by rw [hb]; rfl⟩
      · split at h
        · rw [appendE_ok_items h]
          exact .row hr ⟨rfl, rfl, rfl, rfl⟩
        · cases h

theorem slotRows_rows {cal : Calendar} {tz : String} {u : TUnit} {fuel : ℕ} {rows : List Row} :
    ∀ (rs : List Row) (i : ℕ) (done : List Row) (s s' : TSeries), slotRows cal tz u fuel rows i rs s = .ok s' → RowsAndFillers cal tz u done s.items →
      RowsAndFillers cal tz u (done ++ rs) s'.items := by
  intro rs
  induction rs with
  | nil => intro i done s s' h hr; cases h; rw [List.append_nil]; exact hr
  | cons r rs ih =>
    intro i done s s' h hr
    rw [show done ++ r :: rs = (done ++ [r]) ++ rs by simp]
    unfold slotRows at h
    rcases append_items s (rowSlot cal tz u r.t r.data.split.1 r.data.split.2) with ⟨e, he, hi, _⟩ | ⟨ho, hi, _⟩
    · rw [he] at h
      cases e <;> dsimp only at h <;> try (cases h)
      split at h
      · cases h
      · split at h
        · cases h
        · rename_i s1 h1
          refine ih _ _ _ _ h (fillGap_rows h1 ?_)
          rw [hi]
          exact hr
    · rw [ho] at h
      refine ih _ _ _ _ h ?_
      rw [hi]
      exact .row hr ⟨rfl, rfl, rfl, rfl⟩

/-- **C340** (kept) if a file is read as slots, the items are, in the order of the rows, one slot for every row, with its time, its values, the unit and the zone; all other items among them are marked
with a data loss of one.  Whatever the type of the data, the calendar, the unit, the gaps and the options; otherwise an error is raised. -/
theorem C340_kept (cd : Codec) (cal : Calendar) (detect : List ℚ → Except PyErr ℚ) (fuel : ℕ) (cf : CsvConf) (st st' st'' : CsvState) (a : GetArgs) (lines : List Text) (rows : List Row)
    (s : TSeries) (u : TUnit) (hrows : readRows cd cf st a.filter a.limit lines = .ok (rows, st'))
    (hk : decideKind (wantedKind cf a) a.forceUnit (detect (sampleStamps (rows.map Row.t) TSeries.empty)) = .ok (some u))
    (h : csvGet cd cal detect fuel cf st a lines = .ok (s, st'')) : RowsAndFillers cal cf.tz u rows s.items := by
  unfold csvGet at h
  split_ifs at h with hf
  rw [hrows] at h
  dsimp only at h
  rw [hk] at h
  dsimp only at h
  split at h
  · cases h
  · rename_i h1
    cases h
    have := slotRows_rows rows 0 [] TSeries.empty _ h1 .nil
    simpa using this

/-- in terms of lists: the times of the rows are among those of the items, in their order, and the items are not fewer -/
theorem rowsAndFillers_sublist {cal : Calendar} {tz : String} {u : TUnit} {rows : List Row} {items : List Item} (h : RowsAndFillers cal tz u rows items) :
    (rows.map (fun r => (r.t, some r.data.split.1))).Sublist (items.map (fun x => (x.t, x.data))) ∧
    ∀ x ∈ items, (∃ r ∈ rows, IsRow cal tz u r x) ∨ IsFiller cal tz u x := by
  induction h with
  | nil => exact ⟨List.Sublist.refl _, by simp⟩
  | @row rows items r x _ hx ih =>
    refine ⟨?_, ?_⟩
    · rw [List.map_append, List.map_append]
      refine List.Sublist.append ih.1 ?_
      simp [hx.1, hx.2.2.2]
    · intro y hy
      rcases List.mem_append.1 hy with hy | hy
      · rcases ih.2 y hy with ⟨r', hr', h'⟩ | h'
        · exact Or.inl ⟨r', List.mem_append_left _ hr', h'⟩
        · exact Or.inr h'
      · rw [List.mem_singleton] at hy
        subst hy
        exact Or.inl ⟨r, by simp, hx⟩
  | @filler rows items x _ hx ih =>
    refine ⟨?_, ?_⟩
    · rw [List.map_append]
      exact ih.1.trans (List.sublist_append_left _ _)
    · intro y hy
      rcases List.mem_append.1 hy with hy | hy
      · exact ih.2 y hy
      · rw [List.mem_singleton] at hy
        subst hy
        exact Or.inr hx

/-- **C340** (counts) the times and values of the rows are among those of the items, in their order -/
theorem C340_sublist (cd : Codec) (cal : Calendar) (detect : List ℚ → Except PyErr ℚ) (fuel : ℕ) (cf : CsvConf) (st st' st'' : CsvState) (a : GetArgs) (lines : List Text) (rows : List Row)
    (s : TSeries) (u : TUnit) (hrows : readRows cd cf st a.filter a.limit lines = .ok (rows, st'))
    (hk : decideKind (wantedKind cf a) a.forceUnit (detect (sampleStamps (rows.map Row.t) TSeries.empty)) = .ok (some u))
    (h : csvGet cd cal detect fuel cf st a lines = .ok (s, st'')) :
    (rows.map (fun r => (r.t, some r.data.split.1))).Sublist (s.items.map (fun x => (x.t, x.data))) ∧ rows.length ≤ s.items.length := by
  have h1 := (rowsAndFillers_sublist (C340_kept cd cal detect fuel cf st st' st'' a lines rows s u hrows hk h)).1
  refine ⟨h1, ?_⟩
  have := h1.length_le
  simpa using this

/-- **C340** (lists) with data that are not dictionaries, nothing is made up: a row that does not follow the one before it is a `TypeError` if slots are missing between them and a `ValueError` if none is -/
theorem C340_lists (cal : Calendar) (tz : String) (u : TUnit) (fuel : ℕ) (rows : List Row) (i : ℕ) (prev r : Row) (rs : List Row) (s : TSeries) (ms : List ℚ)
    (hp : rows[i]? = some prev) (hrows : ∀ q ∈ rows, ∀ d, q.data ≠ .dict d) (hr : r ∈ rows)
    (hf : ∀ idx, (s.append (rowSlot cal tz u r.t r.data.split.1 idx)) = (s, .error .valueError)) (hm : missingSlots cal tz u r.t fuel prev.t = some ms) :
    slotRows cal tz u fuel rows (i + 1) (r :: rs) s = .error (if ms = [] then .valueError else .typeError) := by
  unfold slotRows
  rw [hf]
  dsimp only
  rw [if_neg (by omega), Nat.add_sub_cancel, hp]
  dsimp only
  have hgap : fillGap cal tz u fuel rows (i + 1) prev r s = .error (if ms = [] then .valueError else .typeError) := by
    unfold fillGap
    rw [hm]
    dsimp only
    by_cases h0 : ms = []
    · rw [if_pos h0, if_pos h0]
      dsimp only
      have hnd : ∀ d, r.data.split.1 ≠ .dict d := by
        intro d
        cases hd : r.data with
        | num x => simp [RowData.split]
        | list l => simp [RowData.split]
        | dict d' => exact absurd hd (hrows r hr d')
      split
      · rename_i b _ hb
        exact absurd hb (hnd _)
      · rw [if_pos h0]
        unfold appendE
        rw [hf]
    · rw [if_neg h0, if_neg h0]
      have hl : lastLabels rows (i + 1) = .error .typeError := by
        unfold lastLabels
        cases hg : rows.getLast? with
        | none =>
          rw [List.getLast?_eq_none_iff] at hg
          subst hg
          cases hr
        | some q =>
          dsimp only
          cases hd : q.data with
          | num x => rfl
          | list l => rfl
          | dict d => exact absurd hd (hrows q (List.mem_of_getLast? hg) d)
      rw [hl]
  rw [hgap]

/-- the rows and the series of the example of lists: the slots start at 0, 60 and 240 seconds -/
def listRows : List Row := [⟨0, .list [1]⟩, ⟨60, .list [2]⟩, ⟨240, .list [5]⟩]

/-- such a file: the slots at 120 and at 180 seconds are missing, the reading fails; with dictionaries they are made up -/
theorem C340_witness :
    getError (slotRows physicalCalendar "UTC" (TUnit.ofSecs 60) 10 listRows 0 listRows TSeries.empty) = some .typeError ∧
    missingSlots physicalCalendar "UTC" (TUnit.ofSecs 60) 240 10 60 = some [120, 180] ∧
    (csvGet sampleCodec physicalCalendar (fun _ => .ok 60) 10 {} {} minuteArgs (fileOf "epoch,a" [[0, 1], [60, 2], [240, 5]])).toOption.map (fun r => r.1.items.map (fun x => (x.t, x.idx))) =
      some [(0, []), (60, []), (120, [("data_loss", some 1)]), (180, [("data_loss", some 1)]), (240, [("data_loss", none)])] := by
  refine ⟨?_, ?_, ?_⟩ <;> decide +kernel

end Timeseria
