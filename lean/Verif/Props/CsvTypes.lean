import Verif.Props.CsvColumns
/-!
C334: a storage gives data of the type asked for.
-/
namespace Timeseria

/-- the data of a row are of the type asked for -/
def RowData.Is : DType → RowData → Prop
  | .float, .num _ => True
  | .list, .list _ => True
  | .dict, .dict _ => True
  | _, _ => False

theorem rowData_is {cd : Codec} {fields : List Text} {labels : Option (List String)} {d : DType} {idx : List ℕ} {r : RowData} (h : rowData cd fields labels d idx = .ok r) : r.Is d := by
  unfold rowData at h
  cases d with
  | float =>
    dsimp only at h
    split at h
    · cases h
    · cases hl : rowList cd fields [_] with
      | error e => rw [hl] at h; cases h
      | ok v => rw [hl] at h; cases h; trivial
  | list =>
    dsimp only at h
    cases hl : rowList cd fields idx with
    | error e => rw [hl] at h; cases h
    | ok v => rw [hl] at h; cases h; trivial
  | dict =>
    dsimp only at h
    split at h
    · split_ifs at h
      cases h; trivial
    · cases hl : rowDict cd fields _ idx [] with
      | error e => rw [hl] at h; cases h
      | ok v => rw [hl] at h; cases h; trivial

/-- while reading with the type `d` asked for -/
structure TypeOk (d : DType) (c : LoadState) : Prop where
  st : c.st.dataType = some d
  dtype : c.dtype = none ∨ c.dtype = some d
  rows : ∀ r ∈ c.rows, r.data.Is d

theorem resolveTs_type {d : DType} {c c' : LoadState} (h : TypeOk d c) (hr : resolveTs c = .ok c') : TypeOk d c' := by
  unfold resolveTs at hr
  split at hr
  · cases hr; exact h
  · split at hr
    · split at hr
      · cases hr; exact ⟨h.st, h.dtype, h.rows⟩
      · split at hr
        · cases hr; exact ⟨h.st, h.dtype, h.rows⟩
        · cases hr; exact ⟨h.st, h.dtype, h.rows⟩
    · cases hr; exact ⟨h.st, h.dtype, h.rows⟩
    · split at hr
      · cases hr
      · split at hr
        · cases hr; exact ⟨h.st, h.dtype, h.rows⟩
        · cases hr

theorem withNames_type {d : DType} {c c' : LoadState} {idx : List ℕ} (h : TypeOk d c) (hr : withNames c idx = .ok c') : TypeOk d c' := by
  unfold withNames at hr
  split at hr
  · cases hr; exact ⟨h.st, h.dtype, h.rows⟩
  · split at hr
    · cases hr
    · cases hr; exact ⟨h.st, h.dtype, h.rows⟩

theorem resolveData_type {d : DType} {c c' : LoadState} {sel : Sel} {ts : ℕ} (h : TypeOk d c) (hn : ∀ l, sel ≠ .nums l) (hr : resolveData sel ts c = .ok c') : TypeOk d c' := by
  unfold resolveData at hr
  split at hr
  · cases hr; exact h
  · split at hr
    · exact absurd rfl (hn _)
    · split at hr
      · cases hr
      · split at hr
        · cases hr
        · exact withNames_type h hr
    · split at hr
      · exact withNames_type (c := { c with cols := c.cols.erase ts }) ⟨h.st, h.dtype, h.rows⟩ hr
      · cases hr

theorem resolveType_type {d : DType} {c c' : LoadState} (h : TypeOk d c) (hr : resolveType c = .ok c') : TypeOk d c' ∧ c'.dtype = some d := by
  unfold resolveType at hr
  split at hr
  · rename_i d' hd
    cases hr
    refine ⟨h, ?_⟩
    rcases h.dtype with h' | h'
    · rw [hd] at h'; cases h'
    · exact h'
  · split at hr
    · cases hr
    · rw [h.st] at hr
      cases hr
      exact ⟨⟨h.st, Or.inr rfl, h.rows⟩, rfl⟩

theorem dataLine_type {cd : Codec} {cf : CsvConf} {sel : Sel} {fields : List Text} {d : DType} {c c' : LoadState} (h : TypeOk d c) (hn : ∀ l, sel ≠ .nums l)
    (hr : dataLine cd cf sel fields c = .ok c') : TypeOk d c' := by
  unfold dataLine at hr
  cases h1 : resolveTs c with
  | error e => rw [h1] at hr; cases hr
  | ok c1 =>
    rw [h1] at hr
    have t1 := resolveTs_type h h1
    dsimp only at hr
    split at hr
    · cases hr
    · split at hr
      · unfold badLine at hr
        split_ifs at hr
        cases hr; exact t1
      · rename_i t f _
        have t2 : TypeOk d { c1 with st := { c1.st with tsFormat := f } } := ⟨t1.st, t1.dtype, t1.rows⟩
        split at hr
        · cases hr
        · rename_i c2 h2
          have t3 := resolveData_type t2 hn h2
          split at hr
          · cases hr
          · rename_i c3 h3
            obtain ⟨t4, hd⟩ := resolveType_type t3 h3
            split at hr
            · split_ifs at hr
              unfold badLine at hr
              split_ifs at hr
              cases hr; exact t4
            · rename_i v hv
              cases hr
              rw [hd] at hv
              refine ⟨t4.st, t4.dtype, ?_⟩
              intro r hm
              rcases List.mem_append.1 hm with hm | hm
              · exact t4.rows r hm
              · rw [List.mem_singleton] at hm
                subst hm
                exact rowData_is hv

theorem lineStep_type {cd : Codec} {cf : CsvConf} {sel : Sel} {line : Text} {d : DType} {c c' : LoadState} (h : TypeOk d c) (hn : ∀ l, sel ≠ .nums l)
    (hr : lineStep cd cf sel line c = .ok c') : TypeOk d c' := by
  unfold lineStep at hr
  split at hr
  · cases hr; exact h
  · split at hr
    · cases hr; exact h
    · split at hr
      · cases hr; exact h
      · dsimp only at hr
        split at hr
        · split at hr
          · cases hr; exact ⟨h.st, h.dtype, h.rows⟩
          · refine dataLine_type ?_ hn hr
            exact ⟨h.st, h.dtype, h.rows⟩
        · exact dataLine_type h hn hr

theorem loadLines_type {cd : Codec} {cf : CsvConf} {sel : Sel} {limit : Option ℕ} {d : DType} (hn : ∀ l, sel ≠ .nums l) :
    ∀ (lines : List Text) (c c' : LoadState), TypeOk d c → loadLines cd cf sel limit lines c = .ok c' → TypeOk d c' := by
  intro lines
  induction lines with
  | nil => intro c c' h hr; cases hr; exact h
  | cons l r ih =>
    intro c c' h hr
    unfold loadLines at hr
    cases hs : lineStep cd cf sel l c with
    | error e => rw [hs] at hr; cases hr
    | ok c1 =>
      rw [hs] at hr
      dsimp only at hr
      have h1 := lineStep_type h hn hs
      split_ifs at hr
      · cases hr; exact h1
      · exact ih _ _ h1 hr

/-- **C334** (type) if columns are not asked for by number, every row read by a storage made for a type of data is of that type, whatever the file, the other arguments and earlier
readings.  Missing: columns asked for by number, see `C334_false`. -/
theorem C334_type_partial (cd : Codec) (cf : CsvConf) (st : CsvState) (filter : Sel) (limit : Option ℕ) (lines : List Text) (d : DType) (rows : List Row) (st' : CsvState)
    (hd : st.dataType = some d) (hf : ∀ l, filter = .nums l → l = []) (hc : ∀ l, cf.sel ≠ .nums l)
    (h : readRows cd cf st filter limit lines = .ok (rows, st')) : (∀ r ∈ rows, r.data.Is d) ∧ st'.dataType = some d := by
  unfold readRows at h
  cases hl : loadLines cd cf (pickSel cf filter) limit lines { st := st } with
  | error e => rw [hl] at h; cases h
  | ok c =>
    rw [hl] at h
    dsimp only at h
    have hn : ∀ l, pickSel cf filter ≠ .nums l := by
      intro l
      unfold pickSel
      split
      · exact hc l
      · exact hc l
      · exact hc l
      · rename_i f h1 h2 h3
        intro he
        subst he
        exact h1 (by rw [hf l rfl])
    have t := loadLines_type hn lines { st := st } c ⟨hd, Or.inl rfl, by simp⟩ hl
    split_ifs at h
    · cases h
      refine ⟨?_, t.st⟩
      intro r hr
      exact t.rows r ((List.perm_insertionSort _ _).mem_iff.1 hr)
    · cases h
      exact ⟨t.rows, t.st⟩

/-- the rows read by a storage made for `d`, with the example codec -/
def typedRead (d : DType) (sel : Sel) (lines : List Text) : Option (List RowData) :=
  ((readRows sampleCodec { sel := sel, seriesType := some .points } { dataType := some d } .all none lines).toOption.map Prod.fst).map (fun l => l.map Row.data)

/-- the lines of an example file, without and with a header -/
def bareLines : List Text := ["+1e1,+6e1,+5e1\n".toList, "+2e1,+7e1,+8e1\n".toList]

def namedLines : List Text := "timestamp,a,b\n".toList :: bareLines

/-- **C334 is false**: asking for columns by number gives lists, even from a storage made for dictionaries; and a storage made for numbers silently gives those of the
first column of a file without labels that has several. -/
theorem C334_false : typedRead .dict (.nums [1, 2]) namedLines = some [.list [6, 5], .list [7, 8]] ∧ ¬ (RowData.list [6, 5]).Is .dict ∧
    typedRead .float .all bareLines = some [.num 6, .num 7] := by
  refine ⟨by decide +kernel, fun h => h, by decide +kernel⟩

/-- with the columns asked for by name, or not at all, the type is the one asked for -/
example : typedRead .dict .all namedLines = some [.dict [("a", some 6), ("b", some 5)], .dict [("a", some 7), ("b", some 8)]] ∧
    typedRead .list (.names ["b", "a"]) namedLines = some [.list [5, 6], .list [8, 7]] ∧ typedRead .float (.names ["b"]) namedLines = some [.num 5, .num 8] ∧
    typedRead .float (.names ["b", "a"]) namedLines = none := by
  refine ⟨?_, ?_, ?_, ?_⟩ <;> decide +kernel

theorem loadLines_pre {cd : Codec} {cf : CsvConf} {sel : Sel} {limit : Option ℕ} {pre rest : List Text} {c : LoadState}
    (hp : ∀ l ∈ pre, ignoredLine cf l = true) : loadLines cd cf sel limit (pre ++ rest) c = loadLines cd cf sel limit rest c := by
  induction pre with
  | nil => rfl
  | cons l r ih =>
    have h1 := lineStep_ignored cd cf sel l c (hp l List.mem_cons_self)
    rw [List.cons_append]
    conv_lhs => unfold loadLines
    rw [h1]
    dsimp only
    rw [if_neg (by simp)]
    exact ih (fun l h => hp l (List.mem_cons_of_mem _ h))

/-- a line of a file without labels: two fields at least, all of them numbers or times -/
structure BareLine (cd : Codec) (cf : CsvConf) (l : Text) : Prop where
  line : ignoredLine cf l = false
  two : 2 ≤ (splitSep cf.sep l).length
  fields : ∀ v ∈ splitSep cf.sep l, ∃ w, sanitize noDataPlaceholders v = some w ∧ w ≠ [] ∧ ((cd.parse w).isSome ∨ (cd.stamp w).isSome)

theorem bare_columns {cd : Codec} {cf : CsvConf} {l : Text} (h : BareLine cd cf l) :
    columnIndexes (splitSep cf.sep l) = List.range (splitSep cf.sep l).length := by
  unfold columnIndexes
  rw [List.filter_eq_self]
  intro i hi
  rw [List.mem_range] at hi
  rw [List.getElem?_eq_getElem hi]
  obtain ⟨w, hw, hne, _⟩ := h.fields _ (List.getElem_mem hi)
  have hw' : sanitize ph (splitSep cf.sep l)[i] = some w := hw
  simp only [Option.bind_some, fieldText, hw', if_neg hne, Option.isSome_some]

/-- **C334** (no labels) a storage made for dictionaries does not make up labels: a file without labels is a `TypeError`, also when it skips malformed lines. -/
theorem C334_no_labels (cd : Codec) (cf : CsvConf) (st : CsvState) (filter : Sel) (limit : Option ℕ) (pre rest : List Text) (l : Text) (hp : ∀ l ∈ pre, ignoredLine cf l = true)
    (hl : BareLine cd cf l) (hd : st.dataType = some .dict) (ht : st.tsCol = .auto) (hf : st.tsFormat = .auto) (hs : pickSel cf filter = .all) :
    readRows cd cf st filter limit (pre ++ l :: rest) = .error .typeError := by
  unfold readRows
  rw [loadLines_pre hp, hs]
  have hcols := bare_columns hl
  obtain ⟨a, b, r, hab⟩ : ∃ a b r, splitSep cf.sep l = a :: b :: r := by
    have := hl.two
    cases h1 : splitSep cf.sep l with
    | nil => rw [h1] at this; simp at this
    | cons a r =>
      cases r with
      | nil => rw [h1] at this; simp at this
      | cons b r => exact ⟨a, b, r, rfl⟩
  have hline : lineStep cd cf .all l { st := st } = .error .typeError := by
    have hi := hl.line
    unfold lineStep
    cases l with
    | nil => cases hi
    | cons x xs =>
      simp only [ignoredLine, Bool.or_eq_false_iff, decide_eq_false_iff_not, not_not] at hi
      dsimp only
      rw [if_neg hi.1, if_neg (not_not.2 hi.2), if_pos rfl, if_neg]
      · rw [hcols]
        obtain ⟨w, hw, hne, hps⟩ := hl.fields a (by rw [hab]; exact List.mem_cons_self)
        have hw' : sanitize ph a = some w := hw
        have hst : ∃ t f, readStamp cd .auto (some w) = some (t, f) := by
          unfold readStamp
          dsimp only
          cases hpw : cd.parse w with
          | some t => exact ⟨t, _, rfl⟩
          | none =>
            rw [hpw] at hps
            rcases hps with h | h
            · cases h
            · obtain ⟨t, ht⟩ := Option.isSome_iff_exists.1 h
              exact ⟨t, .iso, by rw [ht]; rfl⟩
        obtain ⟨t, f, hst⟩ := hst
        have he : (List.range (splitSep cf.sep (x :: xs)).length).erase 0 = List.range' 1 (r.length + 1) := by
          rw [hab, List.range_eq_range', List.length_cons, List.length_cons, List.range'_succ]
          simp
        unfold dataLine resolveTs
        simp only [ht, Option.getD_none, indexIn, List.not_mem_nil, if_false, Option.getD_some]
        rw [hab] at he ⊢
        simp only [List.getElem?_cons_zero, hw', hf, hst, resolveData]
        rw [if_pos (by simp), he]
        simp [withNames, resolveType, hd, rowData, List.range'_succ, caughtRow]
      · rw [Bool.not_eq_true, List.any_eq_false]
        intro v hv
        obtain ⟨w, hw, _, h⟩ := hl.fields v hv
        have hw' : sanitize ph v = some w := hw
        simp only [convertible, hw', Bool.not_eq_true, Bool.not_eq_false']
        rcases h with h | h <;> simp [h]
  unfold loadLines
  rw [hline]

/-- such a file -/
example : BareLine sampleCodec {} "+1e1,+6e1,+5e1\n".toList ∧
    getError (readRows sampleCodec { skipErrors := true } { dataType := some .dict } .all none bareLines) = some .typeError := by
  refine ⟨⟨by decide +kernel, by decide +kernel, ?_⟩, by decide +kernel⟩
  have h : splitSep ',' "+1e1,+6e1,+5e1\n".toList = ["+1e1".toList, "+6e1".toList, "+5e1\n".toList] := by decide +kernel
  intro v hv
  rw [h] at hv
  simp only [List.mem_cons, List.not_mem_nil, or_false] at hv
  rcases hv with rfl | rfl | rfl
  · exact ⟨"+1e1".toList, by decide +kernel, by decide +kernel, Or.inl (by decide +kernel)⟩
  · exact ⟨"+6e1".toList, by decide +kernel, by decide +kernel, Or.inl (by decide +kernel)⟩
  · exact ⟨"+5e1".toList, by decide +kernel, by decide +kernel, Or.inl (by decide +kernel)⟩

end Timeseria
