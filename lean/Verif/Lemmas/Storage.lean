import Verif.Model.Storage
import Verif.Lemmas.Text
import Verif.Lemmas.SlotBuild
import Verif.Lemmas.Dict
import Verif.Lemmas.Strings

/-! # Facts on the CSV storage -/

namespace Timeseria

/-! ## Splitting and joining -/

theorem splitSep_none (sep : Char) : ∀ (s : Text), sep ∉ s → splitSep sep s = [s]
  | [], _ => rfl
  | c :: r, h => by
    have hc : c ≠ sep := fun e => h (by simp [e])
    have hr : sep ∉ r := fun e => h (by simp [e])
    simp [splitSep, hc, splitSep_none sep r hr]

theorem splitSep_cons (sep : Char) : ∀ (s r : Text), sep ∉ s → splitSep sep (s ++ sep :: r) = s :: splitSep sep r
  | [], r, _ => by simp [splitSep]
  | c :: s, r, h => by
    have hc : c ≠ sep := fun e => h (by simp [e])
    have hr : sep ∉ s := fun e => h (by simp [e])
    simp [splitSep, hc, splitSep_cons sep s r hr]

/-- text added to the last part -/
def withTail (tl : Text) : List Text → List Text
  | [] => []
  | [x] => [x ++ tl]
  | x :: y :: r => x :: withTail tl (y :: r)

theorem splitSep_joinSep (sep : Char) (tl : Text) (htl : sep ∉ tl) : ∀ (parts : List Text), parts ≠ [] →
    (∀ p ∈ parts, sep ∉ p) → splitSep sep (joinSep sep parts ++ tl) = withTail tl parts
  | [], h, _ => absurd rfl h
  | [x], _, h => by
    simp only [joinSep, withTail]
    apply splitSep_none
    intro hm
    rcases List.mem_append.1 hm with hm | hm
    · exact h x (by simp) hm
    · exact htl hm
  | x :: y :: r, _, h => by
    simp only [joinSep, withTail]
    rw [List.append_assoc, List.cons_append, splitSep_cons sep x _ (h x (by simp)),
      splitSep_joinSep sep tl htl (y :: r) (by simp) (fun p hp => h p (by simp [hp]))]

theorem withTail_length (tl : Text) : ∀ parts : List Text, (withTail tl parts).length = parts.length
  | [] => rfl
  | [x] => rfl
  | x :: y :: r => by simp [withTail, withTail_length tl (y :: r)]

theorem withTail_cleaned (tl : Text) (htl : ∀ c ∈ tl, isBlank c = true) : ∀ parts : List Text,
    (withTail tl parts).map cleaned = parts.map cleaned
  | [] => rfl
  | [x] => by
    have := cleaned_around [] x tl (by simp) htl
    simpa [withTail] using this
  | x :: y :: r => by
    simp only [withTail, List.map_cons]
    rw [withTail_cleaned tl htl (y :: r)]
    simp

theorem sep_mem_joinSep (sep : Char) (x y : Text) (r : List Text) : sep ∈ joinSep sep (x :: y :: r) := by
  simp [joinSep]

/-- what is read of a field depends on its cleaned text only -/
theorem sanitize_congr (pl : List Text) {a b : Text} (h : cleaned a = cleaned b) : sanitize pl a = sanitize pl b := by
  unfold sanitize; rw [h]

theorem toFloat_congr (cd : Codec) (pl : List Text) (l : Option String) {a b : Text} (h : cleaned a = cleaned b) :
    toFloat cd pl a l = toFloat cd pl b l := by
  unfold toFloat; rw [sanitize_congr pl h]

theorem convertible_congr (cd : Codec) {a b : Text} (h : cleaned a = cleaned b) : convertible cd a = convertible cd b := by
  unfold convertible; rw [sanitize_congr ph h]

theorem fieldText_congr {a b : Text} (h : cleaned a = cleaned b) : fieldText a = fieldText b := by
  unfold fieldText; rw [sanitize_congr ph h]

theorem getElem?_cleaned {a b : List Text} (h : a.map cleaned = b.map cleaned) (i : ℕ) :
    (a[i]?).map cleaned = (b[i]?).map cleaned := by
  rw [← List.getElem?_map, ← List.getElem?_map, h]

theorem length_cleaned {a b : List Text} (h : a.map cleaned = b.map cleaned) : a.length = b.length := by
  have := congrArg List.length h
  simpa using this

theorem bind_congr_cleaned {α : Type} {a b : Option Text} (f : Text → Option α) (hf : ∀ x y, cleaned x = cleaned y → f x = f y)
    (h : a.map cleaned = b.map cleaned) : a.bind f = b.bind f := by
  cases a <;> cases b <;> simp at h ⊢
  exact hf _ _ h

theorem columnIndexes_congr {a b : List Text} (h : a.map cleaned = b.map cleaned) : columnIndexes a = columnIndexes b := by
  unfold columnIndexes
  rw [length_cleaned h]
  apply List.filter_congr
  intro i _
  rw [bind_congr_cleaned fieldText (fun x y => fieldText_congr) (getElem?_cleaned h i)]

theorem columnLabels_congr : ∀ {a b : List Text}, a.map cleaned = b.map cleaned → columnLabels a = columnLabels b
  | [], [], _ => rfl
  | [], _ :: _, h => by simp at h
  | _ :: _, [], h => by simp at h
  | x :: a, y :: b, h => by
    simp only [List.map_cons, List.cons.injEq] at h
    have ih := columnLabels_congr h.2
    unfold columnLabels at ih ⊢
    simp only [List.filterMap_cons, fieldText_congr h.1, ih]

theorem anyConv_congr (cd : Codec) : ∀ {a b : List Text}, a.map cleaned = b.map cleaned →
    a.any (fun v => !convertible cd v) = b.any (fun v => !convertible cd v)
  | [], [], _ => rfl
  | [], _ :: _, h => by simp at h
  | _ :: _, [], h => by simp at h
  | x :: a, y :: b, h => by
    simp only [List.map_cons, List.cons.injEq] at h
    simp only [List.any_cons, convertible_congr cd h.1, anyConv_congr cd h.2]

/-! ## Lines that do not matter -/

theorem lineStep_comment (cd : Codec) (cf : CsvConf) (sel : Sel) (line : Text) (c : LoadState) (ch : Char)
    (h : line.head? = some ch) (hc : ch ∈ cf.comments) : lineStep cd cf sel line c = .ok c := by
  cases line with
  | nil => simp at h
  | cons a r => simp at h; subst h; simp [lineStep, hc]

theorem lineStep_noSep (cd : Codec) (cf : CsvConf) (sel : Sel) (line : Text) (c : LoadState)
    (h : cf.sep ∉ line) : lineStep cd cf sel line c = .ok c := by
  cases line with
  | nil => rfl
  | cons a r => simp [lineStep, h]

theorem loadLines_skip (cd : Codec) (cf : CsvConf) (sel : Sel) (limit : Option ℕ) (line : Text) (r : List Text) (c : LoadState)
    (h : lineStep cd cf sel line c = .ok c) : loadLines cd cf sel limit (line :: r) c = loadLines cd cf sel limit r c := by
  simp [loadLines, h]

/-- a line skipped by the loader: empty, a comment or without separators -/
def ignoredLine (cf : CsvConf) (line : Text) : Bool :=
  match line with
  | [] => true
  | ch :: r => decide (ch ∈ cf.comments) || decide (cf.sep ∉ ch :: r)

theorem lineStep_ignored (cd : Codec) (cf : CsvConf) (sel : Sel) (line : Text) (c : LoadState)
    (h : ignoredLine cf line = true) : lineStep cd cf sel line c = .ok c := by
  cases line with
  | nil => rfl
  | cons a r =>
    simp only [ignoredLine, Bool.or_eq_true, decide_eq_true_eq] at h
    rcases h with h | h
    · exact lineStep_comment cd cf sel _ c a rfl h
    · exact lineStep_noSep cd cf sel _ c h

theorem loadLines_filter (cd : Codec) (cf : CsvConf) (sel : Sel) (limit : Option ℕ) : ∀ (lines : List Text) (c : LoadState),
    loadLines cd cf sel limit lines c = loadLines cd cf sel limit (lines.filter (fun l => !ignoredLine cf l)) c
  | [], c => rfl
  | l :: r, c => by
    cases h : ignoredLine cf l with
    | true =>
      rw [loadLines_skip cd cf sel limit l r c (lineStep_ignored cd cf sel l c h), loadLines_filter cd cf sel limit r c]
      simp [h]
    | false =>
      have e : (l :: r).filter (fun l => !ignoredLine cf l) = l :: r.filter (fun l => !ignoredLine cf l) := by simp [h]
      rw [e]
      simp only [loadLines]
      cases lineStep cd cf sel l c with
      | error e => rfl
      | ok c' =>
        dsimp only
        split
        · rfl
        · exact loadLines_filter cd cf sel limit r c'

/-- a line that is not ignored, once the columns are known -/
theorem lineStep_data (cd : Codec) (cf : CsvConf) (sel : Sel) (line : Text) (c : LoadState) (h : ignoredLine cf line = false)
    (hc : c.cols ≠ []) : lineStep cd cf sel line c = dataLine cd cf sel (splitSep cf.sep line) c := by
  cases line with
  | nil => simp [ignoredLine] at h
  | cons a r =>
    simp only [ignoredLine, Bool.or_eq_false_iff, decide_eq_false_iff_not, not_not] at h
    simp only [lineStep, if_neg h.1, if_neg hc]
    rw [if_neg (not_not.2 h.2)]

/-! ## Rows with a known format -/

/-- the format of the rows, once settled -/
structure RowFormat where
  labels : Option (List String)
  ts : ℕ
  idx : List ℕ
  dtype : DType
  fmt : TsFormat

/-- the state of the loader agrees with the format -/
structure Settled (c : LoadState) (f : RowFormat) : Prop where
  labels : c.labels = f.labels
  ts : c.tsIdx = some f.ts
  idx : c.dataIdx = some f.idx
  dtype : c.dtype = some f.dtype
  fmt : c.st.tsFormat = f.fmt
  fixed : f.fmt ≠ .auto
  cols : c.cols ≠ []
  lab : f.dtype = .dict → ∃ ls, f.labels = some ls

theorem Settled.rows {c : LoadState} {f : RowFormat} (h : Settled c f) (rows : List Row) : Settled { c with rows := rows } f :=
  ⟨h.labels, h.ts, h.idx, h.dtype, h.fmt, h.fixed, h.cols, h.lab⟩

theorem Settled.withFmt {c : LoadState} {f : RowFormat} (h : Settled c f) :
    { c with st := { c.st with tsFormat := f.fmt } } = c := by
  have := h.fmt
  cases c with | mk st cols labels tsIdx dataIdx names dtype rows => cases st; simp at this ⊢; exact this.symm

/-- reading a timestamp in a fixed format -/
def stampIn (cd : Codec) (f : TsFormat) (s : Text) : Option ℚ :=
  match f with
  | .iso => cd.stamp s
  | _ => cd.parse s

theorem readStamp_fixed (cd : Codec) (f : TsFormat) (hf : f ≠ .auto) (v : Option Text) :
    readStamp cd f v = (v.bind (stampIn cd f)).map (fun t => (t, f)) := by
  cases v with
  | none => rfl
  | some s => cases f <;> simp_all [readStamp, stampIn]

/-- the row of a line, if it is well formed -/
def goodRow (cd : Codec) (f : RowFormat) (fields : List Text) : Option Row :=
  match ((fields[f.ts]?).bind (sanitize ph)).bind (stampIn cd f.fmt),
      (rowData cd fields f.labels f.dtype f.idx).toOption with
  | some t, some d => some { t := t, data := d }
  | _, _ => none

theorem toFloat_none_value (cd : Codec) (v : Text) : ∀ x, toFloat cd ph v none = .ok x → ∃ y, x = some y := by
  intro x h
  unfold toFloat at h
  cases hb : (sanitize ph v).bind (fun x => cd.parse (commaToDot x)) with
  | some y => rw [hb] at h; simp at h; exact ⟨y, h.symm⟩
  | none => rw [hb] at h; simp [isIndexLabel] at h

theorem toFloat_error (cd : Codec) (v : Text) (l : Option String) (e : PyErr) (h : toFloat cd ph v l = .error e) :
    e = .floatConversion := by
  unfold toFloat at h
  cases hb : (sanitize ph v).bind (fun x => cd.parse (commaToDot x)) with
  | some y => rw [hb] at h; simp at h
  | none => rw [hb] at h; dsimp only at h; split at h <;> simp_all

theorem rowList_error (cd : Codec) (fields : List Text) : ∀ (idx : List ℕ) (e : PyErr), rowList cd fields idx = .error e →
    caughtRow e = true
  | [], e, h => by simp [rowList] at h
  | i :: r, e, h => by
    simp only [rowList] at h
    cases hf : fields[i]? with
    | none => rw [hf] at h; simp at h; subst h; rfl
    | some v =>
      rw [hf] at h; dsimp only at h
      cases ht : toFloat cd ph v none with
      | error e' => rw [ht] at h; simp at h; subst h; rw [toFloat_error cd v none _ ht]; rfl
      | ok x =>
        rw [ht] at h
        obtain ⟨y, rfl⟩ := toFloat_none_value cd v x ht
        dsimp only at h
        cases hr : rowList cd fields r with
        | error e' => rw [hr] at h; simp at h; subst h; exact rowList_error cd fields r e' hr
        | ok xs => rw [hr] at h; simp at h

theorem rowDict_error (cd : Codec) (fields : List Text) (ls : List String) : ∀ (idx : List ℕ) (acc : Dict (Option ℚ)) (e : PyErr),
    rowDict cd fields ls idx acc = .error e → caughtRow e = true
  | [], acc, e, h => by simp [rowDict] at h
  | i :: r, acc, e, h => by
    simp only [rowDict] at h
    cases hl : ls[i]? with
    | none => rw [hl] at h; simp at h; subst h; rfl
    | some l =>
      cases hf : fields[i]? with
      | none => rw [hl, hf] at h; simp at h; subst h; rfl
      | some v =>
        rw [hl, hf] at h; dsimp only at h
        cases ht : toFloat cd ph v (some l) with
        | error e' => rw [ht] at h; simp at h; subst h; rw [toFloat_error cd v _ _ ht]; rfl
        | ok x => rw [ht] at h; exact rowDict_error cd fields ls r _ e h

theorem rowData_error (cd : Codec) (fields : List Text) (labels : Option (List String)) (d : DType) (idx : List ℕ) (e : PyErr)
    (hl : d = .dict → ∃ ls, labels = some ls) (h : rowData cd fields labels d idx = .error e) : caughtRow e = true := by
  cases d with
  | float =>
    cases idx with
    | nil => simp [rowData] at h; subst h; rfl
    | cons i r =>
      simp only [rowData] at h
      cases hr : rowList cd fields [i] with
      | error e' => rw [hr] at h; simp [Except.map] at h; subst h; exact rowList_error cd fields _ e' hr
      | ok x => rw [hr] at h; simp [Except.map] at h
  | list =>
    simp only [rowData] at h
    cases hr : rowList cd fields idx with
    | error e' => rw [hr] at h; simp [Except.map] at h; subst h; exact rowList_error cd fields _ e' hr
    | ok x => rw [hr] at h; simp [Except.map] at h
  | dict =>
    obtain ⟨ls, rfl⟩ := hl rfl
    simp only [rowData] at h
    cases hr : rowDict cd fields ls idx [] with
    | error e' => rw [hr] at h; simp [Except.map] at h; subst h; exact rowDict_error cd fields ls _ _ e' hr
    | ok x => rw [hr] at h; simp [Except.map] at h

/-- the exception for a malformed line -/
def lineErr : Option ℚ → PyErr
  | some _ => .exception
  | none => .valueError

/-- a line read in a settled state -/
theorem dataLine_settled (cd : Codec) (cf : CsvConf) (sel : Sel) (fields : List Text) (c : LoadState) (f : RowFormat)
    (h : Settled c f) (hts : f.ts < fields.length) :
    dataLine cd cf sel fields c = match goodRow cd f fields with
      | some r => .ok { c with rows := c.rows ++ [r] }
      | none => if cf.skipErrors then .ok c else
        .error (lineErr (((fields[f.ts]?).bind (sanitize ph)).bind (stampIn cd f.fmt))) := by
  obtain ⟨v, hv⟩ : ∃ v, fields[f.ts]? = some v := ⟨_, List.getElem?_eq_getElem hts⟩
  unfold dataLine
  have h1 : resolveTs c = .ok c := by simp [resolveTs, h.ts]
  rw [h1]
  dsimp only
  have hg : c.tsIdx.getD 0 = f.ts := by simp [h.ts]
  rw [hg]
  simp only [hv]
  rw [h.fmt, readStamp_fixed cd f.fmt h.fixed]
  unfold goodRow
  simp only [hv, Option.bind_some]
  rcases hto : (sanitize ph v).bind (stampIn cd f.fmt) with _ | t
  · simp [badLine, lineErr]
  · simp only [Option.map_some]
    have hw := h.withFmt
    rw [hw]
    have h2 : resolveData sel f.ts c = .ok c := by simp [resolveData, h.idx]
    rw [h2]
    have h3 : resolveType c = .ok c := by simp [resolveType, h.dtype]
    dsimp only
    rw [h3]
    dsimp only
    have hg2 : c.dtype.getD .list = f.dtype := by simp [h.dtype]
    have hg3 : c.dataIdx.getD [] = f.idx := by simp [h.idx]
    rw [h.labels, hg2, hg3]
    cases hd : rowData cd fields f.labels f.dtype f.idx with
    | error e =>
      have := rowData_error cd fields f.labels f.dtype f.idx e h.lab hd
      simp [this, badLine, Except.toOption, lineErr]
    | ok d => simp [Except.toOption]

/-! ## Reading all the lines -/

/-- resolving the columns leads to the given format -/
def Ready (sel : Sel) (c : LoadState) (f : RowFormat) : Prop :=
  c.cols ≠ [] ∧ ∃ c1 c2 c3, resolveTs c = .ok c1 ∧ resolveTs c1 = .ok c1 ∧ c1.tsIdx = some f.ts ∧ c1.st.tsFormat = f.fmt ∧
    c1.cols ≠ [] ∧ c1.rows = c.rows ∧ f.fmt ≠ .auto ∧
    resolveData sel f.ts c1 = .ok c2 ∧ resolveType c2 = .ok c3 ∧ Settled c3 f ∧ c3.rows = c.rows

theorem Settled.ready {c : LoadState} {f : RowFormat} (sel : Sel) (h : Settled c f) : Ready sel c f := by
  refine ⟨h.cols, c, c, c, ?_, ?_, h.ts, h.fmt, h.cols, rfl, h.fixed, ?_, ?_, h, rfl⟩
  · simp [resolveTs, h.ts]
  · simp [resolveTs, h.ts]
  · simp [resolveData, h.idx]
  · simp [resolveType, h.dtype]

theorem withFmt_self (c : LoadState) (f : TsFormat) (h : c.st.tsFormat = f) :
    { c with st := { c.st with tsFormat := f } } = c := by
  cases c with | mk st cols labels tsIdx dataIdx names dtype rows => cases st; simp at h ⊢; exact h.symm

/-- one line: a good row is added, a malformed one is dropped or raises -/
theorem dataLine_ready (cd : Codec) (cf : CsvConf) (sel : Sel) (fields : List Text) (c : LoadState) (f : RowFormat)
    (h : Ready sel c f) (hts : f.ts < fields.length) :
    match goodRow cd f fields with
    | some r => ∃ c', dataLine cd cf sel fields c = .ok c' ∧ Ready sel c' f ∧ c'.rows = c.rows ++ [r]
    | none =>
      if cf.skipErrors then ∃ c', dataLine cd cf sel fields c = .ok c' ∧ Ready sel c' f ∧ c'.rows = c.rows
      else dataLine cd cf sel fields c =
        .error (lineErr (((fields[f.ts]?).bind (sanitize ph)).bind (stampIn cd f.fmt))) := by
  obtain ⟨hc, c1, c2, c3, e1, e2, hts1, hf1, hc1, hr1, hfx, e3, e4, hs, hr3⟩ := h
  have hready1 : Ready sel c1 f := ⟨hc1, c1, c2, c3, e2, e2, hts1, hf1, hc1, rfl, hfx, e3, e4, hs, by rw [hr3, hr1]⟩
  have hready3 : Ready sel c3 f := hs.ready sel
  obtain ⟨v, hv⟩ : ∃ v, fields[f.ts]? = some v := ⟨_, List.getElem?_eq_getElem hts⟩
  have key : dataLine cd cf sel fields c = match (sanitize ph v).bind (stampIn cd f.fmt) with
      | none => badLine cf.skipErrors .valueError c1
      | some t => match rowData cd fields f.labels f.dtype f.idx with
        | .error _ => badLine cf.skipErrors .exception c3
        | .ok d => .ok { c3 with rows := c3.rows ++ [{ t := t, data := d }] } := by
    unfold dataLine
    rw [e1]
    dsimp only
    have hg : c1.tsIdx.getD 0 = f.ts := by simp [hts1]
    rw [hg]
    simp only [hv]
    rw [hf1, readStamp_fixed cd f.fmt hfx]
    rcases hto : (sanitize ph v).bind (stampIn cd f.fmt) with _ | t
    · rfl
    · simp only [Option.map_some]
      rw [withFmt_self c1 f.fmt hf1, e3]
      dsimp only
      rw [e4]
      dsimp only
      have hg2 : c3.dtype.getD .list = f.dtype := by simp [hs.dtype]
      have hg3 : c3.dataIdx.getD [] = f.idx := by simp [hs.idx]
      rw [hs.labels, hg2, hg3]
      cases hd : rowData cd fields f.labels f.dtype f.idx with
      | error e =>
        have := rowData_error cd fields f.labels f.dtype f.idx e hs.lab hd
        simp [this]
      | ok d => rfl
  unfold goodRow
  simp only [hv, Option.bind_some]
  rcases hto : (sanitize ph v).bind (stampIn cd f.fmt) with _ | t
  · rw [hto] at key
    dsimp only at key ⊢
    by_cases hsk : cf.skipErrors
    · rw [if_pos hsk]
      exact ⟨c1, by rw [key]; simp [badLine, hsk], hready1, hr1⟩
    · rw [if_neg hsk, key]; simp [badLine, hsk, lineErr]
  · rw [hto] at key
    dsimp only at key
    cases hd : rowData cd fields f.labels f.dtype f.idx with
    | error e =>
      rw [hd] at key
      simp only [Except.toOption]
      dsimp only at key
      by_cases hsk : cf.skipErrors
      · rw [if_pos hsk]
        exact ⟨c3, by rw [key]; simp [badLine, hsk], hready3, hr3⟩
      · rw [if_neg hsk, key]; simp [badLine, hsk, lineErr]
    | ok d =>
      rw [hd] at key
      simp only [Except.toOption]
      exact ⟨_, key, (hs.rows _).ready sel, by simp [hr3]⟩

/-- the good rows of some lines -/
def goodRows (cd : Codec) (cf : CsvConf) (f : RowFormat) (lines : List Text) : List Row :=
  (lines.filter (fun l => !ignoredLine cf l)).filterMap (fun l => goodRow cd f (splitSep cf.sep l))

/-- the first rows, as many as the limit allows -/
def limited (limit : Option ℕ) (l : List Row) : List Row :=
  match limit with
  | some 0 => l
  | some n => l.take n
  | none => l

/-- a line that is not ignored and is malformed -/
def malformed (cd : Codec) (cf : CsvConf) (f : RowFormat) (l : Text) : Prop :=
  ignoredLine cf l = false ∧ goodRow cd f (splitSep cf.sep l) = none

theorem limitReached_iff (limit : Option ℕ) (n : ℕ) : limitReached limit n = true ↔ ∃ l, limit = some l ∧ l ≠ 0 ∧ l ≤ n := by
  cases limit <;> simp [limitReached]

/-- how many more rows are wanted -/
def room (limit : Option ℕ) (have_ : ℕ) (l : List Row) : List Row :=
  match limit with
  | some (n + 1) => l.take (n + 1 - have_)
  | _ => l

theorem loadLines_ready (cd : Codec) (cf : CsvConf) (sel : Sel) (limit : Option ℕ) (f : RowFormat) :
    ∀ (lines : List Text) (c : LoadState), Ready sel c f →
    (∀ l ∈ lines, ignoredLine cf l = false → f.ts < (splitSep cf.sep l).length) →
    (cf.skipErrors = true ∨ ∀ l ∈ lines, ¬ malformed cd cf f l) →
    limitReached limit c.rows.length = false →
    ∃ c', loadLines cd cf sel limit lines c = .ok c' ∧ c'.rows = c.rows ++ room limit c.rows.length (goodRows cd cf f lines)
  | [], c, _, _, _, _ => by
    refine ⟨c, rfl, ?_⟩
    have : goodRows cd cf f [] = [] := rfl
    rw [this]
    cases limit with
    | none => simp [room]
    | some n => cases n <;> simp [room]
  | l :: r, c, hrd, hts, hsk, hlim => by
    have ih := loadLines_ready cd cf sel limit f r
    have hts' : ∀ l ∈ r, ignoredLine cf l = false → f.ts < (splitSep cf.sep l).length := fun x hx => hts x (by simp [hx])
    have hsk' : cf.skipErrors = true ∨ ∀ l ∈ r, ¬ malformed cd cf f l := hsk.imp id (fun h x hx => h x (by simp [hx]))
    cases hi : ignoredLine cf l with
    | true =>
      rw [loadLines_skip cd cf sel limit l r c (lineStep_ignored cd cf sel l c hi)]
      have : goodRows cd cf f (l :: r) = goodRows cd cf f r := by simp [goodRows, hi]
      rw [this]
      exact ih c hrd hts' hsk' hlim
    | false =>
      have hl := lineStep_data cd cf sel l c hi hrd.1
      have hd := dataLine_ready cd cf sel (splitSep cf.sep l) c f hrd (hts l (by simp) hi)
      cases hg : goodRow cd f (splitSep cf.sep l) with
      | none =>
        have hskip : cf.skipErrors = true := by
          rcases hsk with h | h
          · exact h
          · exact absurd ⟨hi, hg⟩ (h l (by simp))
        rw [hg] at hd
        dsimp only at hd
        rw [if_pos hskip] at hd
        obtain ⟨c', e, hr', hrows⟩ := hd
        have hgr : goodRows cd cf f (l :: r) = goodRows cd cf f r := by simp [goodRows, hi, hg]
        rw [hgr]
        have := ih c' hr' hts' hsk' (by rw [hrows]; exact hlim)
        obtain ⟨c'', e', h''⟩ := this
        refine ⟨c'', ?_, by rw [h'', hrows]⟩
        simp only [loadLines, hl, e, hrows]
        rw [if_neg (by simp)]
        exact e'
      | some row =>
        rw [hg] at hd
        dsimp only at hd
        obtain ⟨c', e, hr', hrows⟩ := hd
        have hgr : goodRows cd cf f (l :: r) = row :: goodRows cd cf f r := by simp [goodRows, hi, hg]
        rw [hgr]
        have hlen : c'.rows.length = c.rows.length + 1 := by rw [hrows]; simp
        cases hreach : limitReached limit c'.rows.length with
        | true =>
          refine ⟨c', ?_, ?_⟩
          · simp only [loadLines, hl, e]
            rw [if_pos ⟨by omega, hreach⟩]
          · obtain ⟨n, rfl, hn0, hn⟩ := (limitReached_iff _ _).1 hreach
            cases n with
            | zero => exact absurd rfl hn0
            | succ n =>
              have hn' : ¬ n + 1 ≤ c.rows.length := by
                intro h
                have := (limitReached_iff (some (n + 1)) c.rows.length).2 ⟨n + 1, rfl, hn0, h⟩
                rw [this] at hlim; cases hlim
              have : n + 1 - c.rows.length = 1 := by omega
              rw [hrows]
              simp [room, this]
        | false =>
          obtain ⟨c'', e', h''⟩ := ih c' hr' hts' hsk' hreach
          refine ⟨c'', ?_, ?_⟩
          · simp only [loadLines, hl, e]
            rw [if_neg (by rw [hreach]; simp)]
            exact e'
          · rw [h'', hrows]
            cases limit with
            | none => simp [room]
            | some n =>
              cases n with
              | zero => simp [room]
              | succ n =>
                have hn' : ¬ n + 1 ≤ c.rows.length := by
                  intro h
                  have := (limitReached_iff (some (n + 1)) c.rows.length).2 ⟨n + 1, rfl, by simp, h⟩
                  rw [this] at hlim; cases hlim
                have e2 : n + 1 - c.rows.length = (n + 1 - (c.rows ++ [row]).length) + 1 := by simp; omega
                simp only [room]
                rw [e2]
                simp

/-- without `skip_errors` the first malformed line raises -/
theorem loadLines_malformed (cd : Codec) (cf : CsvConf) (sel : Sel) (f : RowFormat) (hno : cf.skipErrors = false) :
    ∀ (a : List Text) (l : Text) (r : List Text) (c : LoadState), Ready sel c f →
    (∀ x ∈ a ++ [l], ignoredLine cf x = false → f.ts < (splitSep cf.sep x).length) →
    (∀ x ∈ a, ¬ malformed cd cf f x) → malformed cd cf f l →
    ∃ e, (e = .valueError ∨ e = .exception) ∧ loadLines cd cf sel none (a ++ l :: r) c = .error e
  | [], l, r, c, hrd, hts, _, hm => by
    have hl := lineStep_data cd cf sel l c hm.1 hrd.1
    have hd := dataLine_ready cd cf sel (splitSep cf.sep l) c f hrd (hts l (by simp) hm.1)
    rw [hm.2] at hd
    dsimp only at hd
    rw [if_neg (by simp [hno])] at hd
    refine ⟨lineErr (((splitSep cf.sep l)[f.ts]?.bind (sanitize ph)).bind (stampIn cd f.fmt)), ?_, ?_⟩
    · generalize (((splitSep cf.sep l)[f.ts]?).bind (sanitize ph)).bind (stampIn cd f.fmt) = o
      cases o <;> simp [lineErr]
    · simp only [List.nil_append, loadLines, hl, hd]
  | x :: a, l, r, c, hrd, hts, hgood, hm => by
    have ih := loadLines_malformed cd cf sel f hno a l r
    have hts' : ∀ y ∈ a ++ [l], ignoredLine cf y = false → f.ts < (splitSep cf.sep y).length :=
      fun y hy => hts y (by simp at hy ⊢; tauto)
    have hgood' : ∀ y ∈ a, ¬ malformed cd cf f y := fun y hy => hgood y (by simp [hy])
    rw [List.cons_append]
    cases hi : ignoredLine cf x with
    | true =>
      rw [loadLines_skip cd cf sel none x _ c (lineStep_ignored cd cf sel x c hi)]
      exact ih c hrd hts' hgood' hm
    | false =>
      have hl := lineStep_data cd cf sel x c hi hrd.1
      have hd := dataLine_ready cd cf sel (splitSep cf.sep x) c f hrd (hts x (by simp) hi)
      cases hg : goodRow cd f (splitSep cf.sep x) with
      | none => exact absurd ⟨hi, hg⟩ (hgood x (by simp))
      | some row =>
        rw [hg] at hd
        obtain ⟨c', e, hr', hrows⟩ := hd
        obtain ⟨er, her, h⟩ := ih c' hr' hts' hgood' hm
        refine ⟨er, her, ?_⟩
        simp only [loadLines, hl, e]
        rw [if_neg (by simp [limitReached])]
        exact h

/-! ## The state after the header, or at the first line -/

/-- position of the timestamp column, by the rules of the documentation: the given column, or the one called
`timestamp`, or else `epoch`, or else the first -/
def tsPosition (col : TsCol) (names : List String) : Option ℕ :=
  match col with
  | .num i => some i
  | .label l => if l ∈ names then some (names.idxOf l) else none
  | .auto => if "timestamp" ∈ names then some (names.idxOf "timestamp")
    else if "epoch" ∈ names then some (names.idxOf "epoch") else some 0

theorem namesAt_ok (ls : List String) : ∀ (idx : List ℕ), (∀ i ∈ idx, i < ls.length) →
    ∃ ns, namesAt ls idx = .ok ns ∧ ns.length = idx.length
  | [], _ => ⟨[], rfl, rfl⟩
  | i :: r, h => by
    obtain ⟨ns, e, hl⟩ := namesAt_ok ls r (fun j hj => h j (by simp [hj]))
    obtain ⟨x, hx⟩ : ∃ x, ls[i]? = some x := ⟨_, List.getElem?_eq_getElem (h i (by simp))⟩
    exact ⟨x :: ns, by simp [namesAt, hx, e], by simp [hl]⟩

/-- what the data type is when there are labels -/
def typeWithLabels (t : Option DType) : DType := t.getD .dict

/-- the state after a header with `n ≥ 2` names is ready -/
theorem ready_header (st : CsvState) (names : List String) (i : ℕ) (hn : 2 ≤ names.length)
    (hi : tsPosition st.tsCol names = some i) (hin : i < names.length)
    (hf : st.tsFormat ≠ .auto) (hty : st.dataType ≠ some .float) (rows : List Row) :
    Ready .all { st := st, cols := List.range names.length, labels := some names, rows := rows }
      { labels := some names, ts := i, idx := (List.range names.length).erase i, dtype := typeWithLabels st.dataType, fmt := st.tsFormat } := by
  have hlen : ((List.range names.length).erase i).length = names.length - 1 := by
    rw [List.length_erase_of_mem (by simpa using hin), List.length_range]
  have hcols : (List.range names.length).erase i ≠ [] := by
    intro h
    have h2 := congrArg List.length h
    rw [hlen, List.length_nil] at h2
    omega
  have hr0 : List.range names.length ≠ [] := by
    intro h
    have h2 := congrArg List.length h
    rw [List.length_range, List.length_nil] at h2
    omega
  obtain ⟨ns, hns, hnl⟩ := namesAt_ok names ((List.range names.length).erase i)
    (fun j hj => by simpa using List.mem_of_mem_erase hj)
  have hts : ∃ st', resolveTs { st := st, cols := List.range names.length, labels := some names, rows := rows } =
      .ok { st := st', cols := List.range names.length, labels := some names, tsIdx := some i, rows := rows } ∧
      st'.tsFormat = st.tsFormat ∧ st'.dataType = st.dataType := by
    unfold resolveTs indexIn
    unfold tsPosition at hi
    cases hcol : st.tsCol with
    | num j =>
      rw [hcol] at hi; simp at hi; subst hi
      exact ⟨st, by simp [hcol], rfl, rfl⟩
    | label l =>
      rw [hcol] at hi
      dsimp only at hi
      by_cases hl : l ∈ names
      · rw [if_pos hl] at hi; simp at hi; subst hi
        exact ⟨st, by simp [hcol, hl], rfl, rfl⟩
      · rw [if_neg hl] at hi; simp at hi
    | auto =>
      rw [hcol] at hi
      dsimp only at hi
      by_cases hl : "timestamp" ∈ names
      · rw [if_pos hl] at hi; simp at hi; subst hi
        exact ⟨{ st with tsCol := .label "timestamp" }, by simp [hcol, hl], rfl, rfl⟩
      · rw [if_neg hl] at hi
        by_cases hl2 : "epoch" ∈ names
        · rw [if_pos hl2] at hi; simp at hi; subst hi
          exact ⟨{ st with tsCol := .label "epoch" }, by simp [hcol, hl, hl2], rfl, rfl⟩
        · rw [if_neg hl2] at hi; simp at hi; subst hi
          exact ⟨st, by simp [hcol, hl, hl2], rfl, rfl⟩
  obtain ⟨st', hts, hfm, hdt⟩ := hts
  have hnl' : ns ≠ [] := by
    intro h
    rw [h, hlen, List.length_nil] at hnl
    omega
  refine ⟨hr0, _, { st := st', cols := (List.range names.length).erase i, labels := some names, tsIdx := some i, rows := rows, dataIdx := some ((List.range names.length).erase i), names := ns },
    { st := st', cols := (List.range names.length).erase i, labels := some names, tsIdx := some i, rows := rows, dataIdx := some ((List.range names.length).erase i), names := ns, dtype := some (typeWithLabels st.dataType) }, hts, by simp [resolveTs], rfl, hfm, hr0, rfl, hf, ?_, ?_, ?_, rfl⟩
  · have hmem : i ∈ List.range names.length := by simpa using hin
    cases hnm : names with
    | nil => rw [hnm] at hn; simp at hn
    | cons x xs =>
      rw [hnm] at hns hmem
      simp only [resolveData, if_pos hmem, withNames, Option.getD_some, hns]
  · simp only [resolveType]
    rw [if_neg (by rw [hdt]; tauto), hdt]
    cases hd : st.dataType with
    | none => simp [typeWithLabels, hnl']
    | some d => simp [typeWithLabels]
  · exact ⟨rfl, rfl, rfl, rfl, hfm, hf, hcols, fun _ => ⟨names, rfl⟩⟩

/-- without a header: the state at the first line is ready -/
theorem ready_plain (st : CsvState) (n i : ℕ) (hn : 2 ≤ n) (hi : st.tsCol = .num i ∨ (st.tsCol = .auto ∧ i = 0)) (hin : i < n)
    (hf : st.tsFormat ≠ .auto) (hty : st.dataType = none ∨ st.dataType = some .list) (rows : List Row) :
    Ready .all { st := st, cols := List.range n, labels := none, rows := rows }
      { labels := none, ts := i, idx := (List.range n).erase i, dtype := .list, fmt := st.tsFormat } := by
  have hlen : ((List.range n).erase i).length = n - 1 := by
    rw [List.length_erase_of_mem (by simpa using hin), List.length_range]
  have hcols : (List.range n).erase i ≠ [] := by
    intro h
    have h2 := congrArg List.length h
    rw [hlen, List.length_nil] at h2
    omega
  have hr0 : List.range n ≠ [] := by
    intro h
    have h2 := congrArg List.length h
    rw [List.length_range, List.length_nil] at h2
    omega
  have hts : resolveTs { st := st, cols := List.range n, labels := none, rows := rows } =
      .ok { st := st, cols := List.range n, labels := none, tsIdx := some i, rows := rows } := by
    unfold resolveTs indexIn
    rcases hi with h | ⟨h, h0⟩
    · simp [h]
    · simp [h, h0]
  refine ⟨hr0, _, { st := st, cols := (List.range n).erase i, labels := none, tsIdx := some i, rows := rows, dataIdx := some ((List.range n).erase i) },
    { st := st, cols := (List.range n).erase i, labels := none, tsIdx := some i, rows := rows, dataIdx := some ((List.range n).erase i), dtype := some .list }, hts, by simp [resolveTs], rfl, rfl, hr0, rfl, hf, ?_, ?_, ?_, rfl⟩
  · have hmem : i ∈ List.range n := by simpa using hin
    simp only [resolveData, if_pos hmem, withNames, Option.getD_none]
  · simp only [resolveType]
    rcases hty with h | h <;> simp [h]
  · exact ⟨rfl, rfl, rfl, rfl, rfl, hf, hcols, fun h => by cases h⟩

end Timeseria
