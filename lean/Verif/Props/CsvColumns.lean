import Verif.Props.CsvTime

/-! # CSV files: which column a value comes from, files without a header -/

namespace Timeseria

/-- the rows of the lines, when the row of a line is given by a relation -/
theorem rows_of_ready {cd : Codec} {cf : CsvConf} {sel : Sel} {limit : Option ℕ} {f : RowFormat} {c : LoadState} {lines : List Text}
    (P : List Text → Row → Prop) (hP : ∀ fields r, goodRow cd f fields = some r ↔ P fields r) (hc : Ready sel c f) (h0 : c.rows = [])
    (hl : ∀ l ∈ lines, ignoredLine cf l = false → f.ts < (splitSep cf.sep l).length)
    (hsk : cf.skipErrors = true ∨ ∀ l ∈ lines, ignoredLine cf l = false → ∃ r, P (splitSep cf.sep l) r) :
    ∃ c', loadLines cd cf sel limit lines c = .ok c' ∧ c'.rows = limited limit (goodRows cd cf f lines) := by
  obtain ⟨c', e, hr⟩ := loadLines_ready cd cf sel limit f lines c hc hl (by
    refine hsk.imp id (fun h l hl hm => ?_)
    obtain ⟨r, hr⟩ := h l hl hm.1
    have := (hP _ _).mpr hr
    rw [hm.2] at this
    cases this) (by rw [h0]; cases limit <;> simp [limitReached])
  refine ⟨c', e, ?_⟩
  rw [hr, h0]
  simp only [List.nil_append, List.length_nil]
  exact room_zero limit _

open Classical in
theorem goodRows_rel {cd : Codec} {cf : CsvConf} {f : RowFormat} (P : List Text → Row → Prop)
    (hP : ∀ fields r, goodRow cd f fields = some r ↔ P fields r) (lines : List Text) :
    List.Forall₂ (fun l r => P (splitSep cf.sep l) r)
      (lines.filter (fun l => decide (ignoredLine cf l = false ∧ ∃ r, P (splitSep cf.sep l) r))) (goodRows cd cf f lines) := by
  have : goodRows cd cf f lines = lines.filterMap (fun l => if ignoredLine cf l then none else goodRow cd f (splitSep cf.sep l)) := by
    unfold goodRows
    induction lines with
    | nil => rfl
    | cons l r ih =>
      cases hi : ignoredLine cf l with
      | true => simpa [hi] using ih
      | false =>
        simp only [List.filter_cons, hi, Bool.not_false, if_true, List.filterMap_cons]
        rw [ih]
        simp
  rw [this]
  apply filterMap_forall₂
  intro l _
  constructor
  · rintro ⟨hi, r, hr⟩
    exact ⟨r, by simp [hi, (hP _ _).mpr hr], hr⟩
  · intro hn
    cases hi : ignoredLine cf l with
    | true => simp
    | false =>
      cases hg : goodRow cd f (splitSep cf.sep l) with
      | none => simp
      | some r => exact absurd ⟨hi, r, (hP _ _).mp hg⟩ hn

/-! ## C286: a value is under the label of its column -/

/-- **C286 is false**: a column without a name in the header, such as the first one of a file written from a data frame, shifts the labels to the left: the
row number is taken for the time and the time for the value. -/
theorem C286_unnamed_column_false :
    (readRows sampleCodec { sel := .names ["value"] } {} .all none [",timestamp,value\n".toList, "+1e1,+6e1,+5e1\n".toList, "+2e1,+7e1,+8e1\n".toList]).toOption.map
      Prod.fst = some [{ t := 1, data := .dict [("value", some 6)] }, { t := 2, data := .dict [("value", some 7)] }] ∧
    getError (readRows sampleCodec {} {} .all none [",timestamp,value\n".toList, "+1e1,+6e1,+5e1\n".toList, "+2e1,+7e1,+8e1\n".toList]) =
      some .valueError := by
  constructor <;> decide +kernel

/-- the row of a line when some columns are asked for by name: the time, and for each label the value of the field in its column -/
structure NamedRow (cd : Codec) (f : TsFormat) (names want : List String) (ts : ℕ) (fields : List Text) (t : ℚ) (d : Dict (Option ℚ)) : Prop where
  stamp : ∃ v w, fields[ts]? = some v ∧ sanitize noDataPlaceholders v = some w ∧ stampIn cd f w = some t
  values : List.Forall₂ (fun (k : String) (kv : String × Option ℚ) => kv.1 = k ∧ ∃ (j : ℕ) (v : Text), names[j]? = some k ∧ fields[j]? = some v ∧
    toFloat cd noDataPlaceholders v (some k) = .ok kv.2) want d

theorem labelPositions_ok {names : List String} : ∀ {want : List String}, (∀ k ∈ want, k ∈ names) → labelPositions names want = .ok (want.map (names.idxOf ·))
  | [], _ => rfl
  | k :: r, h => by
    have ih := labelPositions_ok (want := r) (fun k hk => h k (List.mem_cons_of_mem _ hk))
    simp only [labelPositions, indexIn, if_pos (h k (by simp)), ih, List.map_cons]

/-- the state after a header is ready also when columns are asked for by name -/
theorem ready_names {st : CsvState} {names want : List String} {i : ℕ} (hw : want ≠ []) (hsub : ∀ k ∈ want, k ∈ names)
    (hi : tsPosition st.tsCol names = some i) (hf : st.tsFormat ≠ .auto) (hty : st.dataType = none ∨ st.dataType = some .dict) :
    Ready (.names want) { st := st, cols := List.range names.length, labels := some names }
      { labels := some names, ts := i, idx := want.map (names.idxOf ·), dtype := .dict, fmt := st.tsFormat } := by
  have hne : names ≠ [] := by
    rintro rfl
    cases want with
    | nil => exact hw rfl
    | cons k r => simpa using hsub k (by simp)
  have hr0 : List.range names.length ≠ [] := by
    intro h
    have h2 := congrArg List.length h
    rw [List.length_range, List.length_nil] at h2
    exact hne (List.length_eq_zero_iff.mp h2)
  obtain ⟨ns, hns, hnl⟩ := namesAt_ok names (want.map (names.idxOf ·)) (by
    intro j hj
    obtain ⟨k, hk, rfl⟩ := List.mem_map.mp hj
    exact List.idxOf_lt_length_of_mem (hsub k hk))
  have hns0 : ns ≠ [] := by
    intro h
    rw [h, List.length_nil, List.length_map] at hnl
    exact hw (List.length_eq_zero_iff.mp hnl.symm)
  have hts : ∃ c1, resolveTs { st := st, cols := List.range names.length, labels := some names } = .ok c1 := by
    unfold resolveTs indexIn
    unfold tsPosition at hi
    cases hcol : st.tsCol with
    | num j => exact ⟨_, rfl⟩
    | label l =>
      rw [hcol] at hi
      dsimp only at hi
      by_cases hl : l ∈ names
      · simp [hl]
      · rw [if_neg hl] at hi; cases hi
    | auto =>
      by_cases hl : "timestamp" ∈ names
      · simp [hl]
      · by_cases hl2 : "epoch" ∈ names <;> simp [hl, hl2]
  obtain ⟨c1, h1⟩ := hts
  obtain ⟨f1, f2, f3, f4, f5, f6, f7, f8⟩ := resolveTs_facts (names := names) (ts := i) rfl (.inl rfl) hi h1
  have hnm : c1.names = [] ∧ c1.dtype = none := by
    have := h1
    unfold resolveTs at this
    dsimp only at this
    split at this
    · split at this
      · cases this; exact ⟨rfl, rfl⟩
      · split at this
        · cases this; exact ⟨rfl, rfl⟩
        · cases this; exact ⟨rfl, rfl⟩
    · cases this; exact ⟨rfl, rfl⟩
    · split at this
      · cases this; exact ⟨rfl, rfl⟩
      · cases this
  obtain ⟨x, xs, hx⟩ := List.exists_cons_of_ne_nil hne
  refine ⟨hr0, c1, { c1 with dataIdx := some (want.map (names.idxOf ·)), names := ns },
    { c1 with dataIdx := some (want.map (names.idxOf ·)), names := ns, dtype := some .dict }, h1, by simp [resolveTs, f2], f2, f4,
    by rw [f7]; exact hr0, f6, hf, ?_, ?_, ?_, f6⟩
  · unfold resolveData
    rw [f8]
    dsimp only
    rw [f1]
    dsimp only [Option.getD]
    have hlp := labelPositions_ok hsub
    rw [hx] at hlp hns f1 ⊢
    dsimp only
    rw [hlp]
    dsimp only
    unfold withNames
    rw [f1]
    dsimp only [Option.getD]
    rw [hns]
  · unfold resolveType
    dsimp only
    rw [hnm.2]
    dsimp only
    rw [f5]
    rcases hty with h | h <;> simp [h, hns0]
  · exact ⟨f1, f2, rfl, rfl, f4, hf, by rw [show ({ c1 with dataIdx := some (want.map (names.idxOf ·)), names := ns, dtype := some .dict } : LoadState).cols = c1.cols from rfl, f7]; exact hr0, fun _ => ⟨names, rfl⟩⟩

theorem forall₂_imp_mem {α β : Type} {R S : α → β → Prop} : ∀ {l : List α} {m : List β}, (∀ a b, a ∈ l → R a b → S a b) → List.Forall₂ R l m → List.Forall₂ S l m
  | [], _, _, h => by cases h; exact .nil
  | a :: l, _, hi, h => by
    cases h with
    | cons h h' => exact .cons (hi _ _ (by simp) h) (forall₂_imp_mem (fun x y hx => hi x y (by simp [hx])) h')

theorem goodRow_named (cd : Codec) (fm : TsFormat) {names want : List String} (hn : names.Nodup) (hw : want.Nodup) (hsub : ∀ k ∈ want, k ∈ names) (ts : ℕ)
    (fields : List Text) (r : Row) :
    goodRow cd { labels := some names, ts := ts, idx := want.map (names.idxOf ·), dtype := .dict, fmt := fm } fields = some r ↔
      ∃ d, r.data = .dict d ∧ NamedRow cd fm names want ts fields r.t d := by
  have hidx : (want.map (names.idxOf ·)).Nodup := by
    apply List.Nodup.map_on _ hw
    intro a ha b hb hab
    exact (List.idxOf_inj (hsub a ha)).mp hab
  have hd := fun d => rowDict_iff cd fields names hn (want.map (names.idxOf ·)) [] d hidx (by simp [Dict.keys])
  have hrel : ∀ (w : List String) (d : Dict (Option ℚ)), (∀ k ∈ w, k ∈ names) → (List.Forall₂ (fun j (kv : String × Option ℚ) =>
      names[j]? = some kv.1 ∧ ∃ v, fields[j]? = some v ∧ toFloat cd ph v (some kv.1) = .ok kv.2) (w.map (names.idxOf ·)) d ↔
      List.Forall₂ (fun (k : String) (kv : String × Option ℚ) => kv.1 = k ∧ ∃ (j : ℕ) (v : Text), names[j]? = some k ∧ fields[j]? = some v ∧
        toFloat cd noDataPlaceholders v (some k) = .ok kv.2) w d) := by
    intro w d hw
    rw [List.forall₂_map_left_iff]
    constructor
    · intro h
      refine forall₂_imp_mem ?_ h
      intro k kv hk ⟨h1, v, h2, h3⟩
      have hk' : names[names.idxOf k]? = some k := List.getElem?_idxOf (hw k hk)
      have : kv.1 = k := by rw [hk'] at h1; simpa using h1.symm
      exact ⟨this, _, v, hk', h2, by rw [← this]; exact h3⟩
    · intro h
      refine forall₂_imp_mem ?_ h
      rintro k kv hk ⟨h0, j, v, h1, h2, h3⟩
      have hk' : names[names.idxOf k]? = some k := List.getElem?_idxOf (hw k hk)
      have hj : j = names.idxOf k := by
        refine (List.getElem?_inj ?_ hn).1 (h1.trans hk'.symm)
        exact (List.getElem?_eq_some_iff.1 h1).1
      subst hj
      exact ⟨by rw [h0]; exact hk', v, h2, by rw [h0]; exact h3⟩
  unfold goodRow
  dsimp only
  simp only [rowData]
  constructor
  · intro h
    rcases hto : ((fields[ts]?).bind (sanitize ph)).bind (stampIn cd fm) with _ | t
    · rw [hto] at h; simp at h
    · rw [hto] at h
      cases hrd : rowDict cd fields names (want.map (names.idxOf ·)) [] with
      | error e => rw [hrd] at h; simp [Except.map, Except.toOption] at h
      | ok d =>
        rw [hrd] at h
        simp [Except.map, Except.toOption] at h
        subst h
        refine ⟨d, rfl, ?_, ?_⟩
        · rcases hv : fields[ts]? with _ | v
          · rw [hv] at hto; simp at hto
          · rw [hv] at hto
            simp only [Option.bind_some] at hto
            rcases hw : sanitize ph v with _ | w
            · rw [hw] at hto; simp at hto
            · rw [hw] at hto; exact ⟨v, w, rfl, hw, hto⟩
        · obtain ⟨e, he, h⟩ := (hd d).1 hrd
          simp at he; subst he
          exact (hrel want d hsub).mp h
  · rintro ⟨d, hdata, ⟨v, w, hv, hw, hst⟩, hvals⟩
    have h1 := (hd d).2 ⟨d, by simp, (hrel want d hsub).mpr hvals⟩
    have hw' : sanitize ph v = some w := hw
    rw [hv, h1]
    simp only [Option.bind_some, hw', hst, Except.map, Except.toOption]
    cases r; simp at hdata; simp [hdata]

open Classical in
/-- **C286, partial**: in a file whose header names every column, the columns asked for by name give the values of the fields in the columns with those
names, whatever the order in which they are asked for; one row for each line with a time and those values.  Other columns do not matter, even if they cannot
be read.  Missing: a column without a name shifts the labels (`C286_unnamed_column_false`). -/
theorem C286_named_columns_partial {cd : Codec} {cf : CsvConf} {st : CsvState} {filter : Sel} {limit : Option ℕ} {pre : List Text} {header : Text}
    {names want : List String} {ts : ℕ} {lines : List Text} (hpre : ∀ l ∈ pre, ignoredLine cf l = true) (hh : IsHeader cd cf header names)
    (hsel : pickSel cf filter = .names want) (hw : want ≠ []) (hwn : want.Nodup) (hsub : ∀ k ∈ want, k ∈ names) (hn : names.Nodup)
    (hts : tsPosition st.tsCol names = some ts) (hf : st.tsFormat ≠ .auto) (hty : st.dataType = none ∨ st.dataType = some .dict)
    (hl : ∀ l ∈ lines, hasStampField cf ts l)
    (hsk : cf.skipErrors = true ∨ ∀ l ∈ lines, ignoredLine cf l = false → ∃ t d, NamedRow cd st.tsFormat names want ts (splitSep cf.sep l) t d) :
    ∃ rows, List.Forall₂ (fun l (r : Row) => ∃ d, r.data = .dict d ∧ NamedRow cd st.tsFormat names want ts (splitSep cf.sep l) r.t d)
        (lines.filter (fun l => decide (ignoredLine cf l = false ∧ ∃ t d, NamedRow cd st.tsFormat names want ts (splitSep cf.sep l) t d))) rows ∧
      (if limited limit rows = [] then readRows cd cf st filter limit (pre ++ header :: lines) = .error .exception
       else ∃ st', readRows cd cf st filter limit (pre ++ header :: lines) =
        .ok (if cf.sort then (limited limit rows).insertionSort (fun a b => a.t ≤ b.t) else limited limit rows, st')) := by
  let P : List Text → Row → Prop := fun fields r => ∃ d, r.data = .dict d ∧ NamedRow cd st.tsFormat names want ts fields r.t d
  have hP := goodRow_named cd st.tsFormat hn hwn hsub ts
  have hex : ∀ fields, (∃ r, P fields r) ↔ ∃ t d, NamedRow cd st.tsFormat names want ts fields t d := by
    intro fields
    constructor
    · rintro ⟨r, d, _, h⟩; exact ⟨r.t, d, h⟩
    · rintro ⟨t, d, h⟩; exact ⟨{ t := t, data := .dict d }, d, rfl, h⟩
  obtain ⟨c', e, hr⟩ := rows_of_ready (limit := limit) (lines := lines) P hP (ready_names hw hsub hts hf hty) rfl hl
    (hsk.imp id (fun h l hl hi => (hex _).mpr (h l hl hi)))
  have hrel := goodRows_rel (cf := cf) P hP lines
  refine ⟨goodRows cd cf { labels := some names, ts := ts, idx := want.map (names.idxOf ·), dtype := .dict, fmt := st.tsFormat } lines, ?_, ?_⟩
  rotate_left
  · rw [← loadLines_header cd cf (.names want) limit pre header names lines hpre hh st] at e
    unfold readRows
    rw [hsel, e]
    dsimp only
    rw [← hr]
    split
    · rfl
    · exact ⟨_, rfl⟩
  · simp only [hex] at hrel
    exact hrel

/-- **C286, partial**: and when all the columns are asked for, the row of a line has, under the label of each column other than that of the time, the value of the field in that column. -/
theorem C286_every_column_partial {cd : Codec} {f : TsFormat} {names : List String} (hn : names.Nodup) {ts : ℕ} {fields : List Text} {t : ℚ}
    {d : Dict (Option ℚ)} (h : RowOf cd f names ts fields t d) : ∀ (j : ℕ) (k : String), names[j]? = some k → j ≠ ts →
    ∃ (v : Text) (x : Option ℚ), fields[j]? = some v ∧ toFloat cd noDataPlaceholders v (some k) = .ok x ∧ d.get? k = some x := by
  intro j k hj hne
  have hmem : j ∈ (List.range names.length).erase ts := by
    rw [List.mem_erase_of_ne hne]
    simpa using (List.getElem?_eq_some_iff.1 hj).1
  have hkeys : ∀ (idx : List ℕ) (d : Dict (Option ℚ)), idx.Nodup → List.Forall₂ (fun j (kv : String × Option ℚ) => names[j]? = some kv.1 ∧
      ∃ v, fields[j]? = some v ∧ toFloat cd noDataPlaceholders v (some kv.1) = .ok kv.2) idx d → j ∈ idx →
      ∃ (v : Text) (x : Option ℚ), fields[j]? = some v ∧ toFloat cd noDataPlaceholders v (some k) = .ok x ∧ d.get? k = some x := by
    intro idx
    induction idx with
    | nil => intro d _ _ h; simp at h
    | cons i r ih =>
      intro d hnd h hm
      cases h with
      | @cons _ kv _ d' h h' =>
        obtain ⟨h1, v, h2, h3⟩ := h
        by_cases hi : i = j
        · subst hi
          rw [hj] at h1
          simp only [Option.some.injEq] at h1
          exact ⟨v, kv.2, h2, by rw [h1]; exact h3, by rw [h1]; simp [Dict.get?, List.lookup]⟩
        · obtain ⟨v', x, e1, e2, e3⟩ := ih d' (List.nodup_cons.1 hnd).2 h' ((List.mem_cons.1 hm).resolve_left (fun h => hi h.symm))
          refine ⟨v', x, e1, e2, ?_⟩
          have : kv.1 ≠ k := by
            intro hk
            rw [hk] at h1
            exact hi ((List.getElem?_inj (List.getElem?_eq_some_iff.1 h1).1 hn).1 (h1.trans hj.symm))
          have hb : (k == kv.1) = false := by simpa using fun h => this h.symm
          simp only [Dict.get?, List.lookup, hb]
          exact e3
  exact hkeys _ d (List.nodup_range.erase ts) h.values hmem

/-! ## C287: files without a header -/

/-- **C287 is false**: with a custom format of the time, the first line of a file without a header is taken for the header; -/
theorem C287_custom_format_false :
    (modeRows sampleCodec sampleStrptime {} (.stamp (some "d%d".toList)) { tsCol := .num 0 } .all none ["d1,+5e1\n".toList, "d2,+6e1\n".toList]).toOption.map Prod.fst =
      some [{ t := 86400, data := .dict [("+5e1", some 6)] }] := by decide +kernel

/-- **C287 is false**: and so is a first line with a missing value. -/
theorem C287_missing_value_false :
    (readRows sampleCodec {} {} .all none ["+e1,na,+5e1\n".toList, "+6e1,+8e1,+7e1\n".toList]).toOption.map Prod.fst = none ∧
    (readRows sampleCodec {} {} .all none ["+e1,+5e1,na\n".toList, "+6e1,+8e1,+7e1\n".toList]).toOption.map Prod.fst =
      some [{ t := 6, data := .dict [("+5e1", some 8)] }] := by
  constructor <;> decide +kernel

/-- the row of a line of a file without a header: the time, and the values of the other columns in order -/
structure PlainRow (cd : Codec) (f : TsFormat) (n ts : ℕ) (fields : List Text) (t : ℚ) (xs : List ℚ) : Prop where
  stamp : ∃ v w, fields[ts]? = some v ∧ sanitize noDataPlaceholders v = some w ∧ stampIn cd f w = some t
  values : List.Forall₂ (fun (j : ℕ) (x : ℚ) => ∃ v, fields[j]? = some v ∧ toFloat cd noDataPlaceholders v none = .ok (some x))
    ((List.range n).erase ts) xs

theorem rowList_iff (cd : Codec) (fields : List Text) : ∀ (idx : List ℕ) (xs : List ℚ), rowList cd fields idx = .ok xs ↔
    List.Forall₂ (fun (j : ℕ) (x : ℚ) => ∃ v, fields[j]? = some v ∧ toFloat cd noDataPlaceholders v none = .ok (some x)) idx xs
  | [], xs => by simp [rowList, eq_comm]
  | i :: r, xs => by
    have ih := rowList_iff cd fields r
    simp only [rowList]
    constructor
    · intro h
      split at h
      · cases h
      rename_i v hv
      split at h
      · cases h
      · cases h
      · rename_i x hx
        split at h
        · cases h
        · rename_i ys hy
          cases h
          exact .cons ⟨v, hv, hx⟩ ((ih ys).mp hy)
    · intro h
      cases h with
      | @cons _ x _ ys h h' =>
        obtain ⟨v, hv, hx⟩ := h
        rw [hv]
        dsimp only
        rw [show ph = noDataPlaceholders from rfl, hx]
        dsimp only
        rw [(ih ys).mpr h']

theorem goodRow_plain (cd : Codec) (fm : TsFormat) (n ts : ℕ) (fields : List Text) (r : Row) :
    goodRow cd { labels := none, ts := ts, idx := (List.range n).erase ts, dtype := .list, fmt := fm } fields = some r ↔
      ∃ xs, r.data = .list xs ∧ PlainRow cd fm n ts fields r.t xs := by
  have hd := rowList_iff cd fields ((List.range n).erase ts)
  unfold goodRow
  dsimp only
  simp only [rowData]
  constructor
  · intro h
    rcases hto : ((fields[ts]?).bind (sanitize ph)).bind (stampIn cd fm) with _ | t
    · rw [hto] at h; simp at h
    · rw [hto] at h
      cases hrd : rowList cd fields ((List.range n).erase ts) with
      | error e => rw [hrd] at h; simp [Except.map, Except.toOption] at h
      | ok d =>
        rw [hrd] at h
        simp [Except.map, Except.toOption] at h
        subst h
        refine ⟨d, rfl, ?_, (hd d).mp hrd⟩
        rcases hv : fields[ts]? with _ | v
        · rw [hv] at hto; simp at hto
        · rw [hv] at hto
          simp only [Option.bind_some] at hto
          rcases hw : sanitize ph v with _ | w
          · rw [hw] at hto; simp at hto
          · rw [hw] at hto; exact ⟨v, w, rfl, hw, hto⟩
  · rintro ⟨d, hdata, ⟨v, w, hv, hw, hst⟩, hvals⟩
    have h1 := (hd d).mpr hvals
    have hw' : sanitize ph v = some w := hw
    rw [hv, h1]
    simp only [Option.bind_some, hw', hst, Except.map, Except.toOption]
    cases r; simp at hdata; simp [hdata]

/-- a line all of whose fields have some text which is a number or a time -/
structure IsData (cd : Codec) (cf : CsvConf) (line : Text) (n : ℕ) : Prop where
  used : ignoredLine cf line = false
  fields : (splitSep cf.sep line).length = n
  read : ∀ v ∈ splitSep cf.sep line, (fieldText v).isSome = true ∧ convertible cd v = true

theorem lineStep_plain {cd : Codec} {cf : CsvConf} {sel : Sel} {line : Text} {n : ℕ} (h : IsData cd cf line n) (st : CsvState) :
    2 ≤ n ∧ lineStep cd cf sel line { st := st } = lineStep cd cf sel line { st := st, cols := List.range n } := by
  cases line with
  | nil => have := h.used; simp [ignoredLine] at this
  | cons a r =>
    have hu := h.used
    simp only [ignoredLine, Bool.or_eq_false_iff, decide_eq_false_iff_not, not_not] at hu
    have hn : 2 ≤ n := by rw [← h.fields]; exact splitSep_length cf.sep _ hu.2
    have hr : List.range n ≠ [] := by
      intro h0
      have h2 := congrArg List.length h0
      rw [List.length_range, List.length_nil] at h2
      omega
    have hcol : columnIndexes (splitSep cf.sep (a :: r)) = List.range n := by
      unfold columnIndexes
      rw [h.fields]
      apply List.filter_eq_self.2
      intro i hi
      have hi' : i < (splitSep cf.sep (a :: r)).length := by rw [h.fields]; simpa using hi
      rw [List.getElem?_eq_getElem hi', Option.bind_some]
      exact (h.read _ (List.getElem_mem hi')).1
    refine ⟨hn, ?_⟩
    simp only [lineStep, if_neg hu.1]
    rw [if_neg (not_not.2 hu.2), if_neg (not_not.2 hu.2), if_true, if_neg hr, hcol]
    rw [if_neg]
    simp only [List.any_eq_true, not_exists, not_and]
    intro v hv
    simp [(h.read v hv).2]

open Classical in
/-- **C287, partial**: a file without a header whose first line has only numbers and times, with timestamps in a known format, loses no row: one for each line with
a time and a number in every other column of the first line, as a list of values in the order of the columns.  Missing: custom formats and first lines with
missing values (`C287_custom_format_false`, `C287_missing_value_false`). -/
theorem C287_plain_files_partial {cd : Codec} {cf : CsvConf} {st : CsvState} {limit : Option ℕ} {pre : List Text} {first : Text} {rest : List Text}
    {n ts : ℕ} (hpre : ∀ l ∈ pre, ignoredLine cf l = true) (hh : IsData cd cf first n) (hsel : cf.sel = .all)
    (hts : st.tsCol = .num ts ∨ (st.tsCol = .auto ∧ ts = 0)) (hin : ts < n) (hf : st.tsFormat ≠ .auto)
    (hty : st.dataType = none ∨ st.dataType = some .list) (hl : ∀ l ∈ first :: rest, hasStampField cf ts l)
    (hsk : cf.skipErrors = true ∨ ∀ l ∈ first :: rest, ignoredLine cf l = false → ∃ t xs, PlainRow cd st.tsFormat n ts (splitSep cf.sep l) t xs) :
    ∃ rows, List.Forall₂ (fun l (r : Row) => ∃ xs, r.data = .list xs ∧ PlainRow cd st.tsFormat n ts (splitSep cf.sep l) r.t xs)
        ((first :: rest).filter (fun l => decide (ignoredLine cf l = false ∧ ∃ t xs, PlainRow cd st.tsFormat n ts (splitSep cf.sep l) t xs))) rows ∧
      (if limited limit rows = [] then readRows cd cf st .all limit (pre ++ first :: rest) = .error .exception
       else ∃ st', readRows cd cf st .all limit (pre ++ first :: rest) =
        .ok (if cf.sort then (limited limit rows).insertionSort (fun a b => a.t ≤ b.t) else limited limit rows, st')) := by
  let P : List Text → Row → Prop := fun fields r => ∃ xs, r.data = .list xs ∧ PlainRow cd st.tsFormat n ts fields r.t xs
  have hP := goodRow_plain cd st.tsFormat n ts
  have hex : ∀ fields, (∃ r, P fields r) ↔ ∃ t xs, PlainRow cd st.tsFormat n ts fields t xs := by
    intro fields
    constructor
    · rintro ⟨r, d, _, h⟩; exact ⟨r.t, d, h⟩
    · rintro ⟨t, d, h⟩; exact ⟨{ t := t, data := .list d }, d, rfl, h⟩
  obtain ⟨hn, hstep⟩ := lineStep_plain (sel := .all) hh st
  obtain ⟨c', e, hr⟩ := rows_of_ready (limit := limit) (lines := first :: rest) P hP (ready_plain st n ts hn hts hin hf hty []) rfl hl
    (hsk.imp id (fun h l hl hi => (hex _).mpr (h l hl hi)))
  have hrel := goodRows_rel (cf := cf) P hP (first :: rest)
  have e' : loadLines cd cf .all limit (pre ++ first :: rest) { st := st } = .ok c' := by
    rw [← e]
    clear * - hpre hstep
    induction pre with
    | nil =>
      simp only [List.nil_append, loadLines]
      rw [hstep]
    | cons p q ih =>
      rw [List.cons_append, loadLines_skip cd cf .all limit p _ _ (lineStep_ignored cd cf .all p _ (hpre p (by simp)))]
      exact ih (fun l hl => hpre l (by simp [hl]))
  refine ⟨goodRows cd cf { labels := none, ts := ts, idx := (List.range n).erase ts, dtype := .list, fmt := st.tsFormat } (first :: rest), ?_, ?_⟩
  rotate_left
  · unfold readRows
    rw [show pickSel cf .all = .all from hsel, e']
    dsimp only
    rw [← hr]
    split
    · rfl
    · exact ⟨_, rfl⟩
  · simp only [hex] at hrel
    exact hrel

example : IsData sampleCodec {} "+e1,+5e1\n".toList 2 := ⟨by decide +kernel, by decide +kernel, by decide +kernel⟩
example : (readRows sampleCodec {} { tsFormat := .epoch } .all none ["# x\n".toList, "+e1,+5e1\n".toList, "+6e1,+8e1\n".toList]).toOption.map Prod.fst =
    some [{ t := 0, data := .list [5] }, { t := 6, data := .list [8] }] := by decide +kernel
example : (readRows sampleCodec sampleConf { tsFormat := .epoch } (.names ["b", "a"]) none plainFile).toOption.map Prod.fst =
    some [{ t := 0, data := .dict [("b", some 7), ("a", some 5)] }, { t := 6, data := .dict [("b", some 9), ("a", some 8)] }] := by decide +kernel

end Timeseria
