import Verif.Lemmas.Storage

/-! # C53, C54: which rows of a CSV file are read -/

namespace Timeseria

/-! ## Specification: well formed lines

`RowOf` says what the row of a line is, for rows with labels: the timestamp column converts to the time, and each
data column, in order, to the value of its label. -/

structure RowOf (cd : Codec) (f : TsFormat) (names : List String) (ts : ℕ) (fields : List Text) (t : ℚ) (d : Dict (Option ℚ)) : Prop where
  stamp : ∃ v w, fields[ts]? = some v ∧ sanitize noDataPlaceholders v = some w ∧ stampIn cd f w = some t
  values : List.Forall₂ (fun j (kv : String × Option ℚ) => names[j]? = some kv.1 ∧
    ∃ v, fields[j]? = some v ∧ toFloat cd noDataPlaceholders v (some kv.1) = .ok kv.2) ((List.range names.length).erase ts) d

theorem rowDict_iff (cd : Codec) (fields : List Text) (ls : List String) (hls : ls.Nodup) :
    ∀ (idx : List ℕ) (acc d : Dict (Option ℚ)), idx.Nodup → (∀ j ∈ idx, ∀ k, ls[j]? = some k → k ∉ acc.keys) →
    (rowDict cd fields ls idx acc = .ok d ↔ ∃ e, d = acc ++ e ∧ List.Forall₂ (fun j (kv : String × Option ℚ) =>
      ls[j]? = some kv.1 ∧ ∃ v, fields[j]? = some v ∧ toFloat cd ph v (some kv.1) = .ok kv.2) idx e)
  | [], acc, d, _, _ => by
    simp only [rowDict, Except.ok.injEq, List.forall₂_nil_left_iff]
    constructor
    · intro h; exact ⟨[], by simp [h], rfl⟩
    · rintro ⟨e, h, rfl⟩; simp [h]
  | i :: r, acc, d, hnd, hfresh => by
    have hnd' := List.nodup_cons.1 hnd
    simp only [rowDict]
    cases hl : ls[i]? with
    | none =>
      dsimp only
      constructor
      · intro h; cases h
      · rintro ⟨e, _, h⟩
        cases h with
        | cons h _ => simp [hl] at h
    | some l =>
      cases hf : fields[i]? with
      | none =>
        dsimp only
        constructor
        · intro h; cases h
        · rintro ⟨e, _, h⟩
          cases h with
          | cons h _ => simp [hf] at h
      | some v =>
        dsimp only
        cases ht : toFloat cd ph v (some l) with
        | error er =>
          dsimp only
          constructor
          · intro h; cases h
          · rintro ⟨e, _, h⟩
            cases h with
            | cons h _ =>
              obtain ⟨h1, v', h2, h3⟩ := h
              rw [hl] at h1; rw [hf] at h2
              simp at h1 h2
              subst h2; rw [← h1, ht] at h3; cases h3
        | ok x =>
          dsimp only
          have hl' : l ∉ acc.keys := hfresh i (by simp) l hl
          have hset : Dict.set acc l x = acc ++ [(l, x)] := by
            clear * - hl'
            induction acc with
            | nil => rfl
            | cons p q ih =>
              simp only [Dict.keys, List.map_cons, List.mem_cons, not_or] at hl'
              simp only [Dict.set]
              rw [if_neg (fun h => hl'.1 h.symm)]
              simp [ih hl'.2]
          rw [rowDict_iff cd fields ls hls r _ d hnd'.2 (by
            intro j hj k hk hmem
            rw [hset] at hmem
            simp only [Dict.keys, List.map_append, List.mem_append, List.map_cons, List.map_nil, List.mem_singleton] at hmem
            rcases hmem with hmem | hmem
            · exact hfresh j (by simp [hj]) k hk hmem
            · subst hmem
              have : i = j := (List.getElem?_inj (by
                rcases List.getElem?_eq_some_iff.1 hl with ⟨h, _⟩; exact h) hls).1 (hl.trans hk.symm)
              exact hnd'.1 (this ▸ hj)), hset]
          constructor
          · rintro ⟨e, he, h⟩
            exact ⟨(l, x) :: e, by simp [he], List.Forall₂.cons ⟨hl, v, hf, ht⟩ h⟩
          · rintro ⟨e, he, h⟩
            cases h with
            | @cons _ kv _ e' h h' =>
              obtain ⟨h1, v', h2, h3⟩ := h
              rw [hl] at h1; rw [hf] at h2
              simp at h1 h2
              subst h2; rw [← h1, ht] at h3; simp at h3
              refine ⟨e', ?_, h'⟩
              rw [he]
              have : kv = (l, x) := Prod.ext h1.symm h3.symm
              simp [this]

theorem goodRow_iff (cd : Codec) (fm : TsFormat) (names : List String) (hn : names.Nodup) (ts : ℕ) (fields : List Text) (r : Row) :
    goodRow cd { labels := some names, ts := ts, idx := (List.range names.length).erase ts, dtype := .dict, fmt := fm } fields = some r ↔
      ∃ d, r.data = .dict d ∧ RowOf cd fm names ts fields r.t d := by
  have hidx : ((List.range names.length).erase ts).Nodup := List.nodup_range.erase ts
  have hd := fun d => rowDict_iff cd fields names hn ((List.range names.length).erase ts) [] d hidx (by simp [Dict.keys])
  unfold goodRow
  dsimp only
  simp only [rowData]
  constructor
  · intro h
    rcases hto : ((fields[ts]?).bind (sanitize ph)).bind (stampIn cd fm) with _ | t
    · rw [hto] at h; simp at h
    · rw [hto] at h
      cases hrd : rowDict cd fields names ((List.range names.length).erase ts) [] with
      | error e => rw [hrd] at h; simp [Except.map, Except.toOption] at h
      | ok d =>
        rw [hrd] at h
        simp [Except.map, Except.toOption] at h
        subst h
        refine ⟨d, rfl, ?_, ?_⟩
        · rcases hv : fields[ts]? with _ | v
          · rw [hv] at hto; simp at hto
          · rw [hv] at hto
            simp only [Option.bind_some] at hto
            rcases hw : sanitize ph v with _ | w
            · rw [hw] at hto; simp at hto
            · rw [hw] at hto; exact ⟨v, w, rfl, hw, hto⟩
        · obtain ⟨e, he, h⟩ := (hd d).1 hrd
          simp at he; subst he
          exact h
  · rintro ⟨d, hdata, ⟨v, w, hv, hw, hst⟩, hvals⟩
    have h1 := (hd d).2 ⟨d, by simp, hvals⟩
    have hw' : sanitize ph v = some w := hw
    rw [hv, h1]
    simp only [Option.bind_some, hw', hst, Except.map, Except.toOption]
    cases r; simp at hdata; simp [hdata]

/-- A header: not ignored, one text for each column, at least one of which is neither a number nor a time. -/
structure IsHeader (cd : Codec) (cf : CsvConf) (line : Text) (names : List String) : Prop where
  used : ignoredLine cf line = false
  names : (splitSep cf.sep line).map fieldText = names.map (fun n => some n.toList)
  text : ∃ v ∈ splitSep cf.sep line, convertible cd v = false

theorem splitSep_length (sep : Char) : ∀ (s : Text), sep ∈ s → 2 ≤ (splitSep sep s).length
  | [], h => by simp at h
  | c :: r, h => by
    by_cases hc : c = sep
    · simp only [splitSep, if_pos hc, List.length_cons]
      have : 1 ≤ (splitSep sep r).length := by
        clear * -
        cases r with
        | nil => simp [splitSep]
        | cons a b =>
          simp only [splitSep]
          split
          · simp
          · split <;> simp
      omega
    · have hr : sep ∈ r := by
        rcases List.mem_cons.1 h with h | h
        · exact absurd h.symm hc
        · exact h
      have ih := splitSep_length sep r hr
      simp only [splitSep, if_neg hc]
      split
      · rename_i heq; rw [heq] at ih; simp at ih
      · rename_i heq; rw [heq] at ih; simpa using ih

theorem columnIndexes_all {fields : List Text} {names : List String} (h : fields.map fieldText = names.map (fun n => some n.toList)) :
    columnIndexes fields = List.range names.length := by
  have hlen : fields.length = names.length := by simpa using congrArg List.length h
  unfold columnIndexes
  rw [hlen]
  apply List.filter_eq_self.2
  intro i hi
  have hi' : i < fields.length := by rw [hlen]; simpa using hi
  have := congrArg (fun l => l[i]?) h
  simp only [List.getElem?_map] at this
  rw [List.getElem?_eq_getElem hi', List.getElem?_eq_getElem (by omega : i < names.length)] at this
  simp only [Option.map_some, Option.some.injEq] at this
  rw [List.getElem?_eq_getElem hi', Option.bind_some, this]
  rfl

theorem columnLabels_all : ∀ {fields : List Text} {names : List String}, fields.map fieldText = names.map (fun n => some n.toList) →
    columnLabels fields = names
  | [], [], _ => rfl
  | [], _ :: _, h => by simp at h
  | _ :: _, [], h => by simp at h
  | x :: a, y :: b, h => by
    simp only [List.map_cons, List.cons.injEq] at h
    have ih := columnLabels_all h.2
    unfold columnLabels at ih ⊢
    simp [List.filterMap_cons, h.1, ih]

theorem lineStep_header (cd : Codec) (cf : CsvConf) (sel : Sel) (line : Text) (names : List String) (h : IsHeader cd cf line names)
    (st : CsvState) : 2 ≤ names.length ∧ lineStep cd cf sel line { st := st } =
      .ok { st := st, cols := List.range names.length, labels := some names } := by
  cases line with
  | nil => have := h.used; simp [ignoredLine] at this
  | cons a r =>
    have hu := h.used
    simp only [ignoredLine, Bool.or_eq_false_iff, decide_eq_false_iff_not, not_not] at hu
    have hlen : (splitSep cf.sep (a :: r)).length = names.length := by simpa using congrArg List.length h.names
    constructor
    · rw [← hlen]; exact splitSep_length cf.sep _ hu.2
    · simp only [lineStep, if_neg hu.1]
      rw [if_neg (not_not.2 hu.2), if_true]
      obtain ⟨v, hv, hc⟩ := h.text
      rw [if_pos (by rw [List.any_eq_true]; exact ⟨v, hv, by simp [hc]⟩), columnIndexes_all h.names, columnLabels_all h.names]

/-- the lines of a file with a header: anything ignored first, then the header, then the rest -/
theorem loadLines_header (cd : Codec) (cf : CsvConf) (sel : Sel) (limit : Option ℕ) (pre : List Text) (header : Text) (names : List String)
    (lines : List Text) (hpre : ∀ l ∈ pre, ignoredLine cf l = true) (h : IsHeader cd cf header names) (st : CsvState) :
    loadLines cd cf sel limit (pre ++ header :: lines) { st := st } =
      loadLines cd cf sel limit lines { st := st, cols := List.range names.length, labels := some names } := by
  induction pre with
  | nil =>
    simp only [List.nil_append, loadLines, (lineStep_header cd cf sel header names h st).2]
    rw [if_neg (by simp)]
  | cons p q ih =>
    rw [List.cons_append, loadLines_skip cd cf sel limit p _ _ (lineStep_ignored cd cf sel p _ (hpre p (by simp)))]
    exact ih (fun l hl => hpre l (by simp [hl]))

/-- settings for a file with a header: all columns, timestamps in a known column and format, dictionaries -/
structure HeaderSettings (cf : CsvConf) (st : CsvState) (names : List String) (ts : ℕ) : Prop where
  all : cf.sel = .all
  column : tsPosition st.tsCol names = some ts
  inside : ts < names.length
  fmt : st.tsFormat ≠ .auto
  type : st.dataType = none ∨ st.dataType = some .dict
  nodup : names.Nodup

def headerFormat (st : CsvState) (names : List String) (ts : ℕ) : RowFormat :=
  { labels := some names, ts := ts, idx := (List.range names.length).erase ts, dtype := .dict, fmt := st.tsFormat }

theorem HeaderSettings.ready {cf : CsvConf} {st : CsvState} {names : List String} {ts : ℕ} (h : HeaderSettings cf st names ts)
    (hn : 2 ≤ names.length) : Ready .all { st := st, cols := List.range names.length, labels := some names } (headerFormat st names ts) := by
  have := ready_header st names ts hn h.column h.inside h.fmt (by rcases h.type with e | e <;> simp [e]) []
  have ht : typeWithLabels st.dataType = .dict := by rcases h.type with e | e <;> simp [e, typeWithLabels]
  rw [ht] at this
  exact this

/-- the rows of the well formed lines among the given ones, in order -/
def rowsOf (cd : Codec) (cf : CsvConf) (st : CsvState) (names : List String) (ts : ℕ) (lines : List Text) : List Row :=
  goodRows cd cf (headerFormat st names ts) lines

/-- what `rowsOf` is: one row for each line that is not ignored and is well formed, in the order of the lines -/
theorem C53_rows_are_the_well_formed_lines (cd : Codec) (cf : CsvConf) (st : CsvState) (names : List String) (ts : ℕ)
    (h : HeaderSettings cf st names ts) (l : Text) (rest : List Text) :
    (∀ r, ignoredLine cf l = false → (∃ d, r.data = .dict d ∧ RowOf cd st.tsFormat names ts (splitSep cf.sep l) r.t d) →
      rowsOf cd cf st names ts (l :: rest) = r :: rowsOf cd cf st names ts rest) ∧
    ((ignoredLine cf l = true ∨ ¬ ∃ t d, RowOf cd st.tsFormat names ts (splitSep cf.sep l) t d) →
      rowsOf cd cf st names ts (l :: rest) = rowsOf cd cf st names ts rest) ∧
    rowsOf cd cf st names ts [] = [] := by
  have hg := goodRow_iff cd st.tsFormat names h.nodup ts (splitSep cf.sep l)
  refine ⟨?_, ?_, rfl⟩
  · intro r hi hr
    have := (hg r).2 hr
    unfold rowsOf goodRows headerFormat
    simp [hi, this]
  · rintro (hi | hno)
    · unfold rowsOf goodRows
      simp [hi]
    · unfold rowsOf goodRows
      cases hi : ignoredLine cf l with
      | true => simp [hi]
      | false =>
        have : goodRow cd (headerFormat st names ts) (splitSep cf.sep l) = none := by
          cases hr : goodRow cd (headerFormat st names ts) (splitSep cf.sep l) with
          | none => rfl
          | some r =>
            obtain ⟨d, _, hd⟩ := (hg r).1 hr
            exact absurd ⟨r.t, d, hd⟩ hno
        simp [hi, this]

/-- the line has a field in the timestamp column -/
def hasStampField (cf : CsvConf) (ts : ℕ) (l : Text) : Prop := ignoredLine cf l = false → ts < (splitSep cf.sep l).length

theorem room_zero (limit : Option ℕ) (l : List Row) : room limit 0 l = limited limit l := by
  cases limit with
  | none => rfl
  | some n => cases n <;> rfl

theorem readRows_header (cd : Codec) (cf : CsvConf) (st : CsvState) (limit : Option ℕ) (pre : List Text) (header : Text)
    (names : List String) (ts : ℕ) (lines : List Text) (hpre : ∀ l ∈ pre, ignoredLine cf l = true)
    (hh : IsHeader cd cf header names) (hs : HeaderSettings cf st names ts) (hl : ∀ l ∈ lines, hasStampField cf ts l)
    (hskip : cf.skipErrors = true ∨ ∀ l ∈ lines, ignoredLine cf l = true ∨ ∃ t d, RowOf cd st.tsFormat names ts (splitSep cf.sep l) t d) :
    let rows := limited limit (rowsOf cd cf st names ts lines)
    if rows = [] then readRows cd cf st .all limit (pre ++ header :: lines) = .error .exception
    else ∃ st', readRows cd cf st .all limit (pre ++ header :: lines) =
      .ok (if cf.sort then rows.insertionSort (fun a b => a.t ≤ b.t) else rows, st') := by
  intro rows
  have hn := (lineStep_header cd cf .all header names hh st).1
  have hskip' : cf.skipErrors = true ∨ ∀ l ∈ lines, ¬ malformed cd cf (headerFormat st names ts) l := by
    refine hskip.imp id (fun h l hl hm => ?_)
    rcases h l hl with h | ⟨t, d, h⟩
    · have := hm.1; rw [h] at this; cases this
    · have := (goodRow_iff cd st.tsFormat names hs.nodup ts (splitSep cf.sep l) { t := t, data := .dict d }).2 ⟨d, rfl, h⟩
      have hm2 := hm.2
      unfold headerFormat at hm2
      rw [this] at hm2; cases hm2
  obtain ⟨c', e, hr⟩ := loadLines_ready cd cf .all limit (headerFormat st names ts) lines _ (hs.ready hn) hl hskip'
    (by cases limit <;> simp [limitReached])
  rw [← loadLines_header cd cf .all limit pre header names lines hpre hh st] at e
  have hr' : c'.rows = rows := by
    rw [hr]
    simp only [List.nil_append, List.length_nil]
    exact room_zero limit _
  have hmain : readRows cd cf st .all limit (pre ++ header :: lines) =
      if c'.rows = [] then .error .exception else .ok (if cf.sort then c'.rows.insertionSort (fun a b => a.t ≤ b.t) else c'.rows, c'.st) := by
    unfold readRows
    simp only [pickSel, hs.all, e]
  rw [hmain, hr']
  split
  · rfl
  · exact ⟨c'.st, rfl⟩

/-- C53: with `skip_errors` the malformed lines are dropped, and all the others are kept in order (`rowsOf`, whatever
the malformed lines are). -/
theorem C53_skip_errors_keeps_the_good_lines (cd : Codec) (cf : CsvConf) (st : CsvState) (pre : List Text) (header : Text)
    (names : List String) (ts : ℕ) (lines : List Text) (hpre : ∀ l ∈ pre, ignoredLine cf l = true)
    (hh : IsHeader cd cf header names) (hs : HeaderSettings cf st names ts) (hl : ∀ l ∈ lines, hasStampField cf ts l)
    (hskip : cf.skipErrors = true) (hsort : cf.sort = false) (hne : rowsOf cd cf st names ts lines ≠ []) :
    ∃ st', readRows cd cf st .all none (pre ++ header :: lines) = .ok (rowsOf cd cf st names ts lines, st') := by
  have h := readRows_header cd cf st none pre header names ts lines hpre hh hs hl (Or.inl hskip)
  dsimp only [limited] at h
  rw [if_neg hne] at h
  simpa [hsort] using h

/-- C53: without `skip_errors`, when every line is well formed, every line is kept. -/
theorem C53_all_lines_kept_without_errors (cd : Codec) (cf : CsvConf) (st : CsvState) (pre : List Text) (header : Text)
    (names : List String) (ts : ℕ) (lines : List Text) (hpre : ∀ l ∈ pre, ignoredLine cf l = true)
    (hh : IsHeader cd cf header names) (hs : HeaderSettings cf st names ts) (hl : ∀ l ∈ lines, hasStampField cf ts l)
    (hgood : ∀ l ∈ lines, ignoredLine cf l = true ∨ ∃ t d, RowOf cd st.tsFormat names ts (splitSep cf.sep l) t d)
    (hsort : cf.sort = false) (hne : rowsOf cd cf st names ts lines ≠ []) :
    ∃ st', readRows cd cf st .all none (pre ++ header :: lines) = .ok (rowsOf cd cf st names ts lines, st') := by
  have h := readRows_header cd cf st none pre header names ts lines hpre hh hs hl (Or.inr hgood)
  dsimp only [limited] at h
  rw [if_neg hne] at h
  simpa [hsort] using h

/-- C53: without `skip_errors` the first malformed line raises, whatever follows. -/
theorem C53_first_malformed_line_raises (cd : Codec) (cf : CsvConf) (st : CsvState) (pre : List Text) (header : Text)
    (names : List String) (ts : ℕ) (good : List Text) (bad : Text) (rest : List Text) (hpre : ∀ l ∈ pre, ignoredLine cf l = true)
    (hh : IsHeader cd cf header names) (hs : HeaderSettings cf st names ts) (hl : ∀ l ∈ good ++ [bad], hasStampField cf ts l)
    (hgood : ∀ l ∈ good, ignoredLine cf l = true ∨ ∃ t d, RowOf cd st.tsFormat names ts (splitSep cf.sep l) t d)
    (hused : ignoredLine cf bad = false) (hbad : ¬ ∃ t d, RowOf cd st.tsFormat names ts (splitSep cf.sep bad) t d)
    (hskip : cf.skipErrors = false) :
    ∃ e, (e = .valueError ∨ e = .exception) ∧
      readRows cd cf st .all none (pre ++ header :: (good ++ bad :: rest)) = .error e := by
  have hn := (lineStep_header cd cf .all header names hh st).1
  have hm : malformed cd cf (headerFormat st names ts) bad := by
    refine ⟨hused, ?_⟩
    cases hr : goodRow cd (headerFormat st names ts) (splitSep cf.sep bad) with
    | none => rfl
    | some r =>
      obtain ⟨d, _, hd⟩ := (goodRow_iff cd st.tsFormat names hs.nodup ts (splitSep cf.sep bad) r).1 hr
      exact absurd ⟨r.t, d, hd⟩ hbad
  have hg : ∀ x ∈ good, ¬ malformed cd cf (headerFormat st names ts) x := by
    intro l hl hm
    rcases hgood l hl with h | ⟨t, d, h⟩
    · have := hm.1; rw [h] at this; cases this
    · have := (goodRow_iff cd st.tsFormat names hs.nodup ts (splitSep cf.sep l) { t := t, data := .dict d }).2 ⟨d, rfl, h⟩
      have hm2 := hm.2
      unfold headerFormat at hm2
      rw [this] at hm2; cases hm2
  obtain ⟨e, he, h⟩ := loadLines_malformed cd cf .all (headerFormat st names ts) hskip good bad rest _ (hs.ready hn) hl hg hm
  rw [← loadLines_header cd cf .all none pre header names _ hpre hh st] at h
  exact ⟨e, he, by unfold readRows; simp only [pickSel, hs.all, h]⟩

/-- C53: comment lines, empty lines and lines without a separator never matter, wherever they are, for every file
and every setting. -/
theorem C53_comments_never_matter (cd : Codec) (cf : CsvConf) (st : CsvState) (filter : Sel) (limit : Option ℕ) (lines : List Text) :
    readRows cd cf st filter limit (lines.filter (fun l => !ignoredLine cf l)) = readRows cd cf st filter limit lines := by
  unfold readRows
  rw [← loadLines_filter]

/-! ## C54 -/

/-- C54: with a limit `n`, the first `n` good rows, or all of them if there are fewer; a limit of zero counts as none. -/
theorem C54_limit_takes_the_first_rows (cd : Codec) (cf : CsvConf) (st : CsvState) (n : ℕ) (pre : List Text) (header : Text)
    (names : List String) (ts : ℕ) (lines : List Text) (hpre : ∀ l ∈ pre, ignoredLine cf l = true)
    (hh : IsHeader cd cf header names) (hs : HeaderSettings cf st names ts) (hl : ∀ l ∈ lines, hasStampField cf ts l)
    (hskip : cf.skipErrors = true ∨ ∀ l ∈ lines, ignoredLine cf l = true ∨ ∃ t d, RowOf cd st.tsFormat names ts (splitSep cf.sep l) t d)
    (hsort : cf.sort = false) (hn : 0 < n) (hne : rowsOf cd cf st names ts lines ≠ []) :
    ∃ st', readRows cd cf st .all (some n) (pre ++ header :: lines) = .ok ((rowsOf cd cf st names ts lines).take n, st') := by
  have h := readRows_header cd cf st (some n) pre header names ts lines hpre hh hs hl hskip
  cases n with
  | zero => omega
  | succ n =>
    dsimp only [limited] at h
    have h : if (rowsOf cd cf st names ts lines).take (n + 1) = [] then _ else _ := h
    rw [if_neg (by
      intro h0
      have h0 : (rowsOf cd cf st names ts lines).take (n + 1) = [] := h0
      rw [List.take_eq_nil_iff] at h0
      rcases h0 with h0 | h0
      · omega
      · exact hne h0)] at h
    simpa [hsort] using h

theorem C54_limit_zero_is_no_limit (cd : Codec) (cf : CsvConf) (st : CsvState) (filter : Sel) (lines : List Text) :
    readRows cd cf st filter (some 0) lines = readRows cd cf st filter none lines := by
  have : ∀ (sel : Sel) (ls : List Text) (c : LoadState), loadLines cd cf sel (some 0) ls c = loadLines cd cf sel none ls c := by
    intro sel ls
    induction ls with
    | nil => intro c; rfl
    | cons l r ih =>
      intro c
      simp only [loadLines]
      cases lineStep cd cf sel l c with
      | error e => rfl
      | ok c' =>
        dsimp only
        rw [if_neg (by simp [limitReached]), if_neg (by simp [limitReached])]
        exact ih c'
  unfold readRows
  simp only [this]

/-- C54: with `sort`, the rows are those read without it, ordered by timestamp, for every file and every setting. -/
theorem C54_sort_orders_the_same_rows (cd : Codec) (cf : CsvConf) (st : CsvState) (filter : Sel) (limit : Option ℕ) (lines : List Text)
    (rows : List Row) (st' : CsvState)
    (h : readRows cd { cf with sort := false } st filter limit lines = .ok (rows, st')) :
    ∃ sorted, readRows cd { cf with sort := true } st filter limit lines = .ok (sorted, st') ∧ sorted.Perm rows ∧
      sorted.Pairwise (fun a b => a.t ≤ b.t) := by
  have hstep : ∀ (sel : Sel) (l : Text) (c : LoadState),
      lineStep cd { cf with sort := true } sel l c = lineStep cd { cf with sort := false } sel l c := by
    intro sel l c; rfl
  have hload : ∀ (sel : Sel) (ls : List Text) (c : LoadState),
      loadLines cd { cf with sort := true } sel limit ls c = loadLines cd { cf with sort := false } sel limit ls c := by
    intro sel ls
    induction ls with
    | nil => intro c; rfl
    | cons l r ih =>
      intro c
      simp only [loadLines, hstep]
      cases lineStep cd { cf with sort := false } sel l c with
      | error e => rfl
      | ok c' => dsimp only; split <;> [rfl; exact ih c']
  unfold readRows at h ⊢
  dsimp only at h ⊢
  have hsel : pickSel { cf with sort := true } filter = pickSel { cf with sort := false } filter := by
    unfold pickSel; rfl
  rw [hsel]
  generalize pickSel { cf with sort := false } filter = sel at h ⊢
  rw [hload]
  cases hc : loadLines cd { cf with sort := false } sel limit lines { st := st } with
  | error e => rw [hc] at h; cases h
  | ok c =>
    rw [hc] at h
    dsimp only at h ⊢
    by_cases hr : c.rows = []
    · rw [if_pos hr] at h; cases h
    · rw [if_neg hr] at h ⊢
      simp at h
      obtain ⟨h1, h2⟩ := h
      subst h1; subst h2
      refine ⟨_, rfl, List.perm_insertionSort _ _, ?_⟩
      have : Std.Total (fun a b : Row => a.t ≤ b.t) := ⟨fun a b => le_total a.t b.t⟩
      have : IsTrans Row (fun a b : Row => a.t ≤ b.t) := ⟨fun a b c => le_trans⟩
      exact List.pairwise_insertionSort _ _

/-! ## C97: lines too short to have a timestamp -/

/-- every line has a first field -/
theorem splitSep_pos (sep : Char) : ∀ (s : Text), 0 < (splitSep sep s).length
  | [] => by simp [splitSep]
  | c :: r => by
    simp only [splitSep]
    split
    · simp
    · split <;> simp

/-- C97, the part that holds: when the timestamp is in the first column, `skip_errors` drops every malformed line,
however short. -/
theorem C97_short_lines_dropped_partial (cd : Codec) (cf : CsvConf) (st : CsvState) (pre : List Text) (header : Text)
    (names : List String) (lines : List Text) (hpre : ∀ l ∈ pre, ignoredLine cf l = true)
    (hh : IsHeader cd cf header names) (hs : HeaderSettings cf st names 0)
    (hskip : cf.skipErrors = true) (hsort : cf.sort = false) (hne : rowsOf cd cf st names 0 lines ≠ []) :
    ∃ st', readRows cd cf st .all none (pre ++ header :: lines) = .ok (rowsOf cd cf st names 0 lines, st') :=
  C53_skip_errors_keeps_the_good_lines cd cf st pre header names 0 lines hpre hh hs
    (fun l _ _ => splitSep_pos cf.sep l) hskip hsort hne

/-- C97 is false: when the timestamp is in another column, a line that is too short raises `IndexError` although
`skip_errors` is set (for every file with such a line right after the header). -/
theorem C97_short_line_raises_in_spite_of_skip_errors_false (cd : Codec) (cf : CsvConf) (st : CsvState) (pre : List Text) (header : Text)
    (names : List String) (ts : ℕ) (bad : Text) (rest : List Text) (hpre : ∀ l ∈ pre, ignoredLine cf l = true)
    (hh : IsHeader cd cf header names) (hs : HeaderSettings cf st names ts)
    (hused : ignoredLine cf bad = false) (hshort : (splitSep cf.sep bad).length ≤ ts) :
    readRows cd cf st .all none (pre ++ header :: bad :: rest) = .error .indexError := by
  have hn := (lineStep_header cd cf .all header names hh st).1
  obtain ⟨hc, c1, c2, c3, e1, e2, hts1, hf1, hc1, hr1, hfx, e3, e4, hset, hr3⟩ := hs.ready hn
  have hl := lineStep_data cd cf .all bad _ hused hc
  have hd : dataLine cd cf .all (splitSep cf.sep bad)
      { st := st, cols := List.range names.length, labels := some names } = .error .indexError := by
    unfold dataLine
    rw [e1]
    have hg : c1.tsIdx.getD 0 = ts := by simp [hts1, headerFormat]
    dsimp only
    rw [hg, List.getElem?_eq_none hshort]
  have : loadLines cd cf .all none (pre ++ header :: bad :: rest) { st := st } = .error .indexError := by
    rw [loadLines_header cd cf .all none pre header names _ hpre hh st]
    simp only [loadLines, hl, hd]
  unfold readRows
  simp only [pickSel, hs.all, this]

/-! ## A file -/

def sampleConf : CsvConf := { skipErrors := true }
def sampleState : CsvState := { tsFormat := .epoch }
def sampleNames : List String := ["epoch", "a", "__data_loss"]
def sampleHeader : Text := "epoch,a,__data_loss\n".toList
def sampleLines : List Text :=
  ["+6e1,+5e2,+e1\n".toList, "# note\n".toList, "+7e1,oops,+e1\n".toList, "+8e1\n".toList, "+9e1,\"+1e1\",None\n".toList]

example : IsHeader sampleCodec sampleConf sampleHeader sampleNames :=
  ⟨by decide +kernel, by decide +kernel, by decide +kernel⟩

example : HeaderSettings sampleConf sampleState sampleNames 0 :=
  ⟨rfl, by decide, by decide, by decide, Or.inl rfl, by decide⟩

/-- the malformed line is dropped, the quoted number is read, the missing data index is `None` -/
example : rowsOf sampleCodec sampleConf sampleState sampleNames 0 sampleLines =
    [{ t := 6, data := .dict [("a", some (5/2)), ("__data_loss", some 0)] },
     { t := 9, data := .dict [("a", some 1), ("__data_loss", none)] }] := by decide +kernel

example : (readRows sampleCodec sampleConf sampleState .all none (sampleHeader :: sampleLines)).toOption.map Prod.fst =
    some [{ t := 6, data := .dict [("a", some (5/2)), ("__data_loss", some 0)] },
      { t := 9, data := .dict [("a", some 1), ("__data_loss", none)] }] := by decide +kernel

/-- the same line is fatal without `skip_errors` -/
example : (readRows sampleCodec {} sampleState .all none (sampleHeader :: sampleLines)).toOption.isNone = true := by decide +kernel

/-- a line without the timestamp column, which is the third one here -/
example : HeaderSettings sampleConf sampleState ["a", "b", "epoch"] 2 ∧
    ignoredLine sampleConf "+1e1,+2e1\n".toList = false ∧ (splitSep ',' "+1e1,+2e1\n".toList).length ≤ 2 :=
  ⟨⟨rfl, by decide, by decide, by decide, Or.inl rfl, by decide⟩, by decide, by decide⟩

end Timeseria
