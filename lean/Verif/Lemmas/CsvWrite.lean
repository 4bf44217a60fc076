import Verif.Props.CsvRows
import Verif.Props.Items
import Verif.Props.Text
import Verif.Lemmas.Ops

/-! # What `put` writes is what `get` reads -/

namespace Timeseria

/-- A plain name: no blanks, quotes or commas, some text, no placeholder for missing data. -/
structure PlainName (k : String) : Prop where
  chars : PlainText k.toList
  some_ : k.toList ≠ []
  real : placeholderKey k.toList ∉ noDataPlaceholders

/-- The items of a series of dictionaries with plain labels that do not get in the way of the timestamp column or of
the data indexes; all items have the same labels and the same data indexes. -/
structure Storable (l : List Item) : Prop where
  nonempty : l ≠ []
  dict : ∀ x ∈ l, ∃ d, x.data = some (.dict d) ∧ Dict.WF d ∧ d ≠ []
  labels : ∀ x ∈ l, ∀ d, x.data = some (.dict d) → ∀ k ∈ Dict.keys d,
    PlainName k ∧ isIndexLabel (some k) = false ∧ k ≠ "timestamp" ∧ k ≠ "epoch"
  same : ∀ x ∈ l, ∀ y ∈ l, ∀ d e, x.data = some (.dict d) → y.data = some (.dict e) → ∀ k, k ∈ Dict.keys d ↔ k ∈ Dict.keys e
  idx : ∀ x ∈ l, Dict.WF x.idx ∧ ∀ k ∈ Dict.keys x.idx, PlainText k.toList
  sameIdx : ∀ x ∈ l, ∀ y ∈ l, ∀ k, k ∈ Dict.keys x.idx ↔ k ∈ Dict.keys y.idx

/-- the labels of the series -/
def labelsOfItems (l : List Item) : List String :=
  match l with
  | [] => []
  | x :: _ => match x.data with
    | some (.dict d) => sortStr (Dict.keys d)
    | _ => []

/-- the value of a label -/
def valOf (x : Item) (k : String) : ℚ :=
  match x.data with
  | some (.dict d) => (Dict.get? d k).getD 0
  | _ => 0

/-- the value of a data index -/
def idxOf (x : Item) (k : String) : Option ℚ := (Dict.get? x.idx k).getD none

/-- name of the column of a data index -/
def idxColumn (n : String) : String := "__" ++ n

/-- names and values of the columns after the first, for an item -/
def columns (labels indexes : List String) (x : Item) : List (String × Option ℚ) :=
  labels.map (fun k => (k, some (valOf x k))) ++ indexes.map (fun n => (idxColumn n, idxOf x n))

/-- names of the columns -/
def columnNames (labels indexes : List String) : List String := labels ++ indexes.map idxColumn

theorem columns_names (labels indexes : List String) (x : Item) : (columns labels indexes x).map Prod.fst = columnNames labels indexes := by
  simp [columns, columnNames, Function.comp_def]

theorem idxColumn_toList (n : String) : (idxColumn n).toList = '_' :: '_' :: n.toList := by
  simp [idxColumn]

theorem isIndexLabel_idxColumn (n : String) : isIndexLabel (some (idxColumn n)) = true := by
  simp [isIndexLabel, idxColumn_toList]

theorem idxColumn_inj {a b : String} (h : idxColumn a = idxColumn b) : a = b := by
  have := congrArg String.toList h
  rw [idxColumn_toList, idxColumn_toList] at this
  simp at this
  exact String.toList_injective this

theorem plainName_idxColumn {n : String} (h : PlainText n.toList) : PlainName (idxColumn n) := by
  refine ⟨?_, ?_, ?_⟩
  · rw [idxColumn_toList]
    intro c hc
    simp only [List.mem_cons] at hc
    rcases hc with rfl | rfl | hc
    · decide
    · decide
    · exact h c hc
  · rw [idxColumn_toList]; simp
  · rw [idxColumn_toList]
    intro hm
    have hu : '_' ∈ placeholderKey ('_' :: '_' :: n.toList) := by
      unfold placeholderKey
      rw [List.mem_filter]
      refine ⟨List.mem_map.2 ⟨'_', by simp, by decide⟩, by decide⟩
    have key : ∀ p ∈ noDataPlaceholders, '_' ∉ p := by decide
    exact key _ hm hu

theorem sanitize_plain {p : Text} (h : PlainText p) (hr : placeholderKey p ∉ noDataPlaceholders) :
    sanitize noDataPlaceholders p = some p :=
  C73_plain_text_unchanged _ p (fun c hc => ⟨(h c hc).1, (h c hc).2.1⟩) hr

theorem fieldText_plain {k : String} (h : PlainName k) : fieldText k.toList = some k.toList := by
  unfold fieldText ph
  rw [sanitize_plain h.chars h.real]
  simp [h.some_]

theorem map_congr_cleaned {α : Type} (f : Text → α) (hf : ∀ x y, cleaned x = cleaned y → f x = f y) :
    ∀ {a b : List Text}, a.map cleaned = b.map cleaned → a.map f = b.map f
  | [], [], _ => rfl
  | [], _ :: _, h => by simp at h
  | _ :: _, [], h => by simp at h
  | x :: a, y :: b, h => by
    simp only [List.map_cons, List.cons.injEq] at h
    simp only [List.map_cons, hf _ _ h.1, map_congr_cleaned f hf h.2]

/-- settings under which the files written by `put` can be read: comma, `#` as comment (and no comment character among
those of numbers and of the header), all columns -/
structure ReadSettings (cf : CsvConf) (st : CsvState) : Prop where
  sep : cf.sep = ','
  hash : '#' ∈ cf.comments
  comments : ∀ c ∈ cf.comments, c ∉ "0123456789+-.e".toList
  all : cf.sel = .all
  column : st.tsCol = .auto ∨ st.tsCol = .num 0 ∨ st.tsCol = .label "epoch"
  fmt : st.tsFormat = .auto ∨ st.tsFormat = .epoch
  type : st.dataType = none ∨ st.dataType = some .dict

theorem newline_blank : ∀ c ∈ ['\n'], isBlank c = true := by decide

theorem idxColumn_ne {n : String} : idxColumn n ≠ "timestamp" ∧ idxColumn n ≠ "epoch" := by
  constructor <;>
  · intro h
    have := congrArg String.toList h
    rw [idxColumn_toList] at this
    simp at this

section
variable {l : List Item} (hst : Storable l)

theorem Storable.labels_perm (hst : Storable l) : ∀ x ∈ l, ∀ d, x.data = some (.dict d) →
    ∀ k, k ∈ labelsOfItems l ↔ k ∈ Dict.keys d := by
  intro x hx d hd k
  cases hl : l with
  | nil => rw [hl] at hx; simp at hx
  | cons y r =>
    obtain ⟨e, he, _, _⟩ := hst.dict y (by simp [hl])
    simp only [labelsOfItems, he]
    rw [(sortStr_perm _).mem_iff]
    exact hst.same y (by simp [hl]) x hx e d he hd k

theorem Storable.labels_nodup (hst : Storable l) : (labelsOfItems l).Nodup := by
  cases hl : l with
  | nil => simp [labelsOfItems]
  | cons y r =>
    obtain ⟨e, he, hwf, _⟩ := hst.dict y (by simp [hl])
    simp only [labelsOfItems, he]
    exact (sortStr_perm _).nodup_iff.2 hwf

theorem Storable.labels_ne (hst : Storable l) : labelsOfItems l ≠ [] := by
  cases hl : l with
  | nil => exact absurd hl hst.nonempty
  | cons y r =>
    obtain ⟨e, he, hwf, hne⟩ := hst.dict y (by simp [hl])
    simp only [labelsOfItems, he]
    intro h
    have := (sortStr_perm (Dict.keys e)).length_eq
    rw [h] at this
    simp [Dict.keys] at this
    exact hne (List.length_eq_zero_iff.1 this.symm)

theorem Storable.label_plain (hst : Storable l) : ∀ k ∈ labelsOfItems l,
    PlainName k ∧ isIndexLabel (some k) = false ∧ k ≠ "timestamp" ∧ k ≠ "epoch" := by
  intro k hk
  obtain ⟨x, hx⟩ := List.exists_mem_of_ne_nil _ hst.nonempty
  obtain ⟨d, hd, _, _⟩ := hst.dict x hx
  exact hst.labels x hx d hd k ((hst.labels_perm x hx d hd k).1 hk)

theorem Storable.index_mem (hst : Storable l) : ∀ x ∈ l, ∀ n, n ∈ allDataIndexes l ↔ n ∈ Dict.keys x.idx := by
  intro x hx n
  rw [(C72_all_data_indexes l).2.1]
  constructor
  · rintro ⟨y, hy, h⟩; exact (hst.sameIdx y hy x hx n).1 h
  · intro h; exact ⟨x, hx, h⟩

theorem Storable.index_plain (hst : Storable l) : ∀ n ∈ allDataIndexes l, PlainText n.toList := by
  intro n hn
  obtain ⟨x, hx, h⟩ := ((C72_all_data_indexes l).2.1 n).1 hn
  exact (hst.idx x hx).2 n h

theorem Storable.names_plain (hst : Storable l) : ∀ k ∈ columnNames (labelsOfItems l) (allDataIndexes l), PlainName k := by
  intro k hk
  rcases List.mem_append.1 hk with h | h
  · exact (hst.label_plain k h).1
  · obtain ⟨n, hn, rfl⟩ := List.mem_map.1 h
    exact plainName_idxColumn (hst.index_plain n hn)

theorem Storable.names_nodup (hst : Storable l) : ("epoch" :: columnNames (labelsOfItems l) (allDataIndexes l)).Nodup ∧
    "timestamp" ∉ "epoch" :: columnNames (labelsOfItems l) (allDataIndexes l) := by
  have hno : ∀ s, (s = "timestamp" ∨ s = "epoch") → s ∉ columnNames (labelsOfItems l) (allDataIndexes l) := by
    intro s hs h
    rcases List.mem_append.1 h with h | h
    · have := (hst.label_plain s h).2.2
      rcases hs with rfl | rfl
      · exact this.1 rfl
      · exact this.2 rfl
    · obtain ⟨n, hn, h⟩ := List.mem_map.1 h
      rcases hs with rfl | rfl
      · exact idxColumn_ne.1 h
      · exact idxColumn_ne.2 h
  constructor
  · rw [List.nodup_cons]
    refine ⟨hno _ (Or.inr rfl), ?_⟩
    unfold columnNames
    refine List.Nodup.append hst.labels_nodup ((C72_all_data_indexes l).1.map (fun a b => idxColumn_inj)) ?_
    intro a ha hb
    obtain ⟨n, _, rfl⟩ := List.mem_map.1 hb
    have := (hst.label_plain _ ha).2.1
    rw [isIndexLabel_idxColumn] at this
    cases this
  · intro h
    rcases List.mem_cons.1 h with h | h
    · exact absurd h (by decide)
    · exact hno _ (Or.inl rfl) h

/-- the texts of the columns of an item -/
def lineParts (cd : Codec) (labels indexes : List String) (x : Item) : List Text :=
  cd.fmt x.t :: (columns labels indexes x).map (fun kv => fmtIndex cd kv.2)

theorem itemLine_ok (cd : Codec) (hst : Storable l) : ∀ x ∈ l,
    itemLine cd (labelsOfItems l) (allDataIndexes l) x =
      .ok (joinSep ',' (lineParts cd (labelsOfItems l) (allDataIndexes l) x) ++ ['\n']) := by
  intro x hx
  obtain ⟨d, hd, hwf, hne⟩ := hst.dict x hx
  unfold itemLine
  rw [mapE_ok (g := fun k => valOf x k) (by
    intro k hk
    have := (hst.labels_perm x hx d hd k).1 hk
    obtain ⟨v, hv⟩ := Dict.get?_isSome.2 this
    simp [Item.byLabel, hd, dataByLabel, hv, valOf])]
  dsimp only
  rw [mapE_ok (g := fun n => idxOf x n) (by
    intro n hn
    have := (hst.index_mem x hx n).1 hn
    obtain ⟨v, hv⟩ := Dict.get?_isSome.2 this
    simp [hv, idxOf])]
  simp [lineParts, columns, Function.comp_def, fmtIndex]

theorem itemLines_ok (cd : Codec) (labels indexes : List String) (g : Item → Text) : ∀ (m : List Item),
    (∀ x ∈ m, itemLine cd labels indexes x = .ok (g x)) → itemLines cd labels indexes m = (m.map g, .ok ())
  | [], _ => rfl
  | x :: r, h => by
    have ih := itemLines_ok cd labels indexes g r (fun y hy => h y (by simp [hy]))
    simp [itemLines, h x (by simp), ih]

/-- the lines of the items -/
def bodyLines (cd : Codec) (l : List Item) : List Text :=
  l.map (fun x => joinSep ',' (lineParts cd (labelsOfItems l) (allDataIndexes l) x) ++ ['\n'])

/-- the header line -/
def headLine (l : List Item) : Text := headerLine (labelsOfItems l) (allDataIndexes l)

/-- what is written -/
theorem putLines_ok (cd : Codec) (n : Notes) (hst : Storable l) (s : TSeries) (hs : TSeries.build l = .ok s) :
    putLines cd n s = (noteLines n ++ headLine l :: bodyLines cd l, .ok ()) := by
  have hi := build_items hs
  have hhas : ∀ x ∈ l, HasData x := by
    intro x hx
    obtain ⟨d, hd, _, hne⟩ := hst.dict x hx
    exact ⟨.dict d, hd, by cases d <;> simp_all [Data.truthy]⟩
  have hdi := build_dataInv hhas hs
  have hlines := itemLines_ok cd (labelsOfItems l) (allDataIndexes l) _ l (itemLine_ok cd hst)
  cases hl : l with
  | nil => exact absurd hl hst.nonempty
  | cons y r =>
    obtain ⟨d, hd, _, _⟩ := hst.dict y (by simp [hl])
    obtain ⟨rf, hr1, hr2, _⟩ := hdi.ref (by rw [hi]; exact hst.nonempty)
    have hlab : s.labelsFrom y = .ok (labelsOfItems l) := by
      simp [TSeries.labelsFrom, hr1, hr2, hd, labelsOf, labelsOfItems, hl]
    unfold putLines
    rw [hi, hl]
    simp only [hd]
    rw [hlab]
    dsimp only
    rw [← hl, hlines]
    rfl

theorem withTail_cons2 (tl x y : Text) (r : List Text) : withTail tl (x :: y :: r) = x :: withTail tl (y :: r) := rfl

theorem columns_ne (labels indexes : List String) (x : Item) (h : labels ≠ []) : columns labels indexes x ≠ [] := by
  cases labels with
  | nil => exact absurd rfl h
  | cons a b => simp [columns]

/-- the fields of a line with the given parts -/
theorem split_line {cf : CsvConf} (hsep : cf.sep = ',') (x y : Text) (r : List Text) (h : ∀ p ∈ x :: y :: r, ',' ∉ p) :
    splitSep cf.sep (joinSep ',' (x :: y :: r) ++ ['\n']) = x :: withTail ['\n'] (y :: r) := by
  rw [hsep, splitSep_joinSep ',' ['\n'] (by decide) _ (by simp) h]
  rfl

theorem ignoredLine_parts {cf : CsvConf} (hsep : cf.sep = ',') (c : Char) (x y : Text) (r : List Text) (h : c ∉ cf.comments) :
    ignoredLine cf (joinSep ',' ((c :: x) :: y :: r) ++ ['\n']) = false := by
  have : joinSep ',' ((c :: x) :: y :: r) ++ ['\n'] = c :: (x ++ ',' :: joinSep ',' (y :: r) ++ ['\n']) := by simp [joinSep]
  rw [this]
  simp only [ignoredLine, Bool.or_eq_false_iff, decide_eq_false_iff_not, not_not]
  refine ⟨h, ?_⟩
  rw [hsep]
  simp

theorem plainText_comma {p : Text} (h : PlainText p) : ',' ∉ p := fun hm => (h _ hm).2.2 rfl

theorem headLine_eq (l : List Item) : headLine l =
    joinSep ',' ("epoch".toList :: (columnNames (labelsOfItems l) (allDataIndexes l)).map String.toList) ++ ['\n'] := by
  unfold headLine headerLine columnNames
  simp only [List.map_append, List.map_map, List.cons_append]
  have : (fun n : String => '_' :: '_' :: n.toList) = String.toList ∘ idxColumn := by
    funext n; simp [Function.comp, idxColumn_toList]
  rw [this]

/-- the header that is written is read as a header with the labels and the indexes -/
theorem isHeader_written (cd : Codec) (hst : Storable l) (cf : CsvConf) (st : CsvState) (hrs : ReadSettings cf st) :
    IsHeader cd cf (headLine l) ("epoch" :: columnNames (labelsOfItems l) (allDataIndexes l)) := by
  have hplain := hst.names_plain
  have hne : columnNames (labelsOfItems l) (allDataIndexes l) ≠ [] := by
    intro h; unfold columnNames at h; exact hst.labels_ne (List.append_eq_nil_iff.1 h).1
  rw [headLine_eq]
  generalize columnNames (labelsOfItems l) (allDataIndexes l) = ns at hplain hne
  cases ns with
  | nil => exact absurd rfl hne
  | cons a b =>
    have hsplit : splitSep cf.sep (joinSep ',' ("epoch".toList :: List.map String.toList (a :: b)) ++ ['\n']) =
        "epoch".toList :: withTail ['\n'] (List.map String.toList (a :: b)) := by
      rw [List.map_cons]
      apply split_line hrs.sep
      intro p hp
      rcases List.mem_cons.1 hp with rfl | hp
      · decide
      · rw [← List.map_cons] at hp
        obtain ⟨k, hk, rfl⟩ := List.mem_map.1 hp
        exact plainText_comma (hplain k hk).chars
    refine ⟨?_, ?_, ?_⟩
    · apply ignoredLine_parts (c := 'e') (x := "poch".toList) hrs.sep
      intro h
      exact hrs.comments _ h (by decide)
    · rw [hsplit]
      simp only [List.map_cons (f := fieldText), List.map_cons (f := fun n : String => some n.toList)]
      congr 1
      rw [map_congr_cleaned fieldText (fun x y => fieldText_congr) (withTail_cleaned ['\n'] newline_blank _)]
      rw [List.map_map, ← List.map_cons (f := fun n : String => some n.toList)]
      apply List.map_congr_left
      intro k hk
      exact fieldText_plain (hplain k hk)
    · rw [hsplit]
      refine ⟨"epoch".toList, List.mem_cons_self, ?_⟩
      unfold convertible ph
      have : sanitize noDataPlaceholders "epoch".toList = some "epoch".toList := by decide
      rw [this]
      have he := cd.epoch_text
      dsimp only
      rw [he.1, he.2]
      rfl

theorem fmtIndex_plain (cd : Codec) (o : Option ℚ) : PlainText (fmtIndex cd o) := by
  cases o with
  | none => exact (by decide : PlainText "None".toList)
  | some v => exact fmt_plain cd v

theorem toFloat_fmtIndex (cd : Codec) (o : Option ℚ) (k : String) (h : o = none → isIndexLabel (some k) = true) :
    toFloat cd noDataPlaceholders (fmtIndex cd o) (some k) = .ok o := by
  cases o with
  | some v =>
    have := C73_number_read_back cd [] [] (some k) v (by simp) (by simp)
    simpa [fmtIndex] using this
  | none =>
    unfold toFloat fmtIndex
    have h1 : sanitize noDataPlaceholders "None".toList = some "None".toList := by decide
    have h2 : commaToDot "None".toList = "None".toList := by decide
    rw [h1]
    simp only [Option.bind_some, h2, cd.none_text, h rfl, if_true]

/-- the row of the line of an item -/
theorem rowOf_line (cd : Codec) (cf : CsvConf) (hsep : cf.sep = ',') (labels indexes : List String) (hne : labels ≠ []) (x : Item) :
    RowOf cd .epoch ("epoch" :: columnNames labels indexes) 0
      (splitSep cf.sep (joinSep ',' (lineParts cd labels indexes x) ++ ['\n'])) x.t (columns labels indexes x) := by
  have hnone : ∀ kv ∈ columns labels indexes x, kv.2 = none → isIndexLabel (some kv.1) = true := by
    intro kv hkv h
    rcases List.mem_append.1 hkv with hm | hm
    · obtain ⟨k, _, rfl⟩ := List.mem_map.1 hm; cases h
    · obtain ⟨n, _, rfl⟩ := List.mem_map.1 hm; exact isIndexLabel_idxColumn n
  rw [← columns_names labels indexes x]
  unfold lineParts
  have hc := columns_ne labels indexes x hne
  generalize columns labels indexes x = cs at hnone hc
  cases cs with
  | nil => exact absurd rfl hc
  | cons a b =>
    have hsplit : splitSep cf.sep (joinSep ',' (cd.fmt x.t :: (a :: b).map (fun kv => fmtIndex cd kv.2)) ++ ['\n']) =
        cd.fmt x.t :: withTail ['\n'] ((a :: b).map (fun kv => fmtIndex cd kv.2)) := by
      rw [List.map_cons (f := fun kv : String × Option ℚ => fmtIndex cd kv.2)]
      apply split_line hsep
      intro p hp
      rcases List.mem_cons.1 hp with rfl | hp
      · exact plainText_comma (fmt_plain cd _)
      · rw [← List.map_cons (f := fun kv : String × Option ℚ => fmtIndex cd kv.2)] at hp
        obtain ⟨k, hk, rfl⟩ := List.mem_map.1 hp
        exact plainText_comma (fmtIndex_plain cd _)
    rw [hsplit]
    clear hsplit
    have hcl := withTail_cleaned ['\n'] newline_blank ((a :: b).map (fun kv => fmtIndex cd kv.2))
    generalize withTail ['\n'] ((a :: b).map (fun kv => fmtIndex cd kv.2)) = fs at hcl
    generalize a :: b = cs at hcl hnone
    refine ⟨⟨cd.fmt x.t, cd.fmt x.t, rfl, sanitize_plain (fmt_plain cd _) (fmt_no_placeholder cd _), cd.parse_fmt _⟩, ?_⟩
    have hidx : (List.range ("epoch" :: cs.map Prod.fst).length).erase 0 = (List.range cs.length).map (· + 1) := by
      simp only [List.length_cons, List.length_map]
      rw [List.range_succ_eq_map, List.erase_cons_head]
    rw [hidx, List.forall₂_map_left_iff, List.forall₂_iff_get]
    refine ⟨by simp, ?_⟩
    intro i h1 h2
    simp only [List.get_eq_getElem, List.getElem_range, List.getElem?_cons_succ]
    have h2' : i < cs.length := h2
    refine ⟨by rw [List.getElem?_map, List.getElem?_eq_getElem h2']; rfl, ?_⟩
    have hlen : fs.length = cs.length := by simpa using length_cleaned hcl
    refine ⟨fs[i], List.getElem?_eq_getElem (by omega), ?_⟩
    have hci := getElem?_cleaned hcl i
    rw [List.getElem?_eq_getElem (by omega : i < fs.length), List.getElem?_map, List.getElem?_eq_getElem h2'] at hci
    simp only [Option.map_some, Option.some.injEq] at hci
    rw [toFloat_congr cd noDataPlaceholders (some (cs[i]).1) hci]
    exact toFloat_fmtIndex cd _ _ (hnone _ (List.getElem_mem h2'))

/-- the row read for an item -/
def rowFor (labels indexes : List String) (x : Item) : Row := { t := x.t, data := .dict (columns labels indexes x) }

theorem fmt_head (cd : Codec) (x : ℚ) : ∃ c r, cd.fmt x = c :: r ∧ c ∈ "0123456789+-.e".toList := by
  cases h : cd.fmt x with
  | nil => exact absurd h (cd.fmt_ne x)
  | cons c r => exact ⟨c, r, rfl, cd.fmt_chars x c (by simp [h])⟩

theorem ignored_body (cd : Codec) (cf : CsvConf) (st : CsvState) (hrs : ReadSettings cf st) (labels indexes : List String) (hne : labels ≠ []) (x : Item) :
    ignoredLine cf (joinSep ',' (lineParts cd labels indexes x) ++ ['\n']) = false := by
  obtain ⟨c, r, h, hc⟩ := fmt_head cd x.t
  have hcol := columns_ne labels indexes x hne
  unfold lineParts
  rw [h]
  generalize columns labels indexes x = cs at hcol
  cases cs with
  | nil => exact absurd rfl hcol
  | cons a b =>
    rw [List.map_cons]
    apply ignoredLine_parts hrs.sep
    intro hm
    exact hrs.comments c hm hc

theorem ignored_notes (cf : CsvConf) (st : CsvState) (hrs : ReadSettings cf st) (n : Notes) : ∀ p ∈ noteLines n, ignoredLine cf p = true := by
  intro p hp
  unfold noteLines at hp
  obtain ⟨x, _, rfl⟩ := List.mem_map.1 hp
  simp [ignoredLine, hrs.hash]

theorem rowsOf_map (cd : Codec) (cf : CsvConf) (st : CsvState) (hrs : ReadSettings cf st) (hfmt : st.tsFormat = .epoch)
    (labels indexes : List String) (hne : labels ≠ []) (hs : HeaderSettings cf st ("epoch" :: columnNames labels indexes) 0) :
    ∀ m : List Item, rowsOf cd cf st ("epoch" :: columnNames labels indexes) 0
      (m.map (fun x => joinSep ',' (lineParts cd labels indexes x) ++ ['\n'])) = m.map (rowFor labels indexes)
  | [] => rfl
  | x :: r => by
    rw [List.map_cons]
    have h := (C53_rows_are_the_well_formed_lines cd cf st _ 0 hs (joinSep ',' (lineParts cd labels indexes x) ++ ['\n'])
      (r.map (fun x => joinSep ',' (lineParts cd labels indexes x) ++ ['\n']))).1 (rowFor labels indexes x)
      (ignored_body cd cf st hrs labels indexes hne x) ⟨_, rfl, by rw [hfmt]; exact rowOf_line cd cf hrs.sep labels indexes hne x⟩
    rw [h, rowsOf_map cd cf st hrs hfmt labels indexes hne hs r]
    rfl

/-- the format found by the first line is the one of the following ones -/
theorem dataLine_auto (cd : Codec) (cf : CsvConf) (sel : Sel) (fields : List Text) (c : LoadState) (hc : c.st.tsFormat = .auto)
    (i : ℕ) (v w : Text) (t : ℚ) (c1 : LoadState) (hts : resolveTs c = .ok c1) (hi : c1.tsIdx = some i)
    (hc1 : c1.st.tsFormat = .auto)
    (hts2 : resolveTs { c with st := { c.st with tsFormat := .epoch } } = .ok { c1 with st := { c1.st with tsFormat := .epoch } })
    (hv : fields[i]? = some v) (hw : sanitize ph v = some w) (hp : cd.parse w = some t) :
    dataLine cd cf sel fields c = dataLine cd cf sel fields { c with st := { c.st with tsFormat := .epoch } } := by
  unfold dataLine
  rw [hts, hts2]
  have hg : c1.tsIdx.getD 0 = i := by simp [hi]
  dsimp only
  rw [hg]
  simp only [hv, hw, hc1, readStamp, hp, Option.map_some]

theorem lineStep_congr (cd : Codec) (cf : CsvConf) (sel : Sel) (line : Text) (c c' : LoadState) (h : ignoredLine cf line = false)
    (hc : c.cols ≠ []) (hc' : c'.cols ≠ []) (hd : dataLine cd cf sel (splitSep cf.sep line) c = dataLine cd cf sel (splitSep cf.sep line) c') :
    lineStep cd cf sel line c = lineStep cd cf sel line c' := by
  rw [lineStep_data cd cf sel line c h hc, lineStep_data cd cf sel line c' h hc', hd]

/-- reading back what was written -/
theorem readRows_written (cd : Codec) (n : Notes) (hst : Storable l) (hord : l.Pairwise (fun a b => a.t ≤ b.t))
    (cf : CsvConf) (st : CsvState) (hrs : ReadSettings cf st) :
    ∃ st', readRows cd cf st .all none (noteLines n ++ headLine l :: bodyLines cd l) =
      .ok (l.map (rowFor (labelsOfItems l) (allDataIndexes l)), st') := by
  have hhead := isHeader_written cd hst cf st hrs
  have hnodup := hst.names_nodup
  have hpos : ∀ s : CsvState, s.tsCol = st.tsCol → tsPosition s.tsCol ("epoch" :: columnNames (labelsOfItems l) (allDataIndexes l)) = some 0 := by
    intro s hs
    rw [hs]
    rcases hrs.column with h | h | h
    · rw [h]; unfold tsPosition; dsimp only; rw [if_neg hnodup.2]; simp
    · rw [h]; rfl
    · rw [h]; unfold tsPosition; simp
  -- with a known format
  have main : ∃ st', readRows cd cf { st with tsFormat := .epoch } .all none (noteLines n ++ headLine l :: bodyLines cd l) =
      .ok (l.map (rowFor (labelsOfItems l) (allDataIndexes l)), st') := by
    have hs : HeaderSettings cf { st with tsFormat := .epoch } ("epoch" :: columnNames (labelsOfItems l) (allDataIndexes l)) 0 :=
      ⟨hrs.all, hpos _ rfl, by simp, by simp, hrs.type, hnodup.1⟩
    have hrs' : ReadSettings cf { st with tsFormat := .epoch } :=
      ⟨hrs.sep, hrs.hash, hrs.comments, hrs.all, hrs.column, Or.inr rfl, hrs.type⟩
    have hrows := rowsOf_map cd cf { st with tsFormat := .epoch } hrs' rfl (labelsOfItems l) (allDataIndexes l) hst.labels_ne hs l
    have h := readRows_header cd cf { st with tsFormat := .epoch } none (noteLines n) (headLine l) _ 0 (bodyLines cd l)
      (ignored_notes cf st hrs n) hhead hs (fun p _ _ => splitSep_pos cf.sep p) (by
        right
        intro p hp
        obtain ⟨x, _, rfl⟩ := List.mem_map.1 hp
        exact Or.inr ⟨_, _, rowOf_line cd cf hrs.sep (labelsOfItems l) (allDataIndexes l) hst.labels_ne x⟩)
    unfold bodyLines at h
    rw [hrows] at h
    dsimp only [limited] at h
    rw [if_neg (by simp [hst.nonempty])] at h
    obtain ⟨st', h⟩ := h
    refine ⟨st', ?_⟩
    unfold bodyLines
    rw [h]
    have hsorted : (l.map (rowFor (labelsOfItems l) (allDataIndexes l))).Pairwise (fun a b => a.t ≤ b.t) := by
      rw [List.pairwise_map]; exact hord
    rw [hsorted.insertionSort_eq]
    simp
  rcases hrs.fmt with hf | hf
  · -- the format is found by the first line
    obtain ⟨st', hmain⟩ := main
    refine ⟨st', ?_⟩
    rw [← hmain]
    unfold readRows
    have hload : loadLines cd cf (pickSel cf .all) none (noteLines n ++ headLine l :: bodyLines cd l) { st := st } =
        loadLines cd cf (pickSel cf .all) none (noteLines n ++ headLine l :: bodyLines cd l) { st := { st with tsFormat := .epoch } } := by
      rw [loadLines_header cd cf _ none (noteLines n) (headLine l) _ _ (ignored_notes cf st hrs n) hhead,
        loadLines_header cd cf _ none (noteLines n) (headLine l) _ _ (ignored_notes cf st hrs n) hhead]
      cases hl : l with
      | nil => exact absurd hl hst.nonempty
      | cons x r =>
        rw [← hl]
        have hb : bodyLines cd l = (joinSep ',' (lineParts cd (labelsOfItems l) (allDataIndexes l) x) ++ ['\n']) ::
            r.map (fun x => joinSep ',' (lineParts cd (labelsOfItems l) (allDataIndexes l) x) ++ ['\n']) := by
          unfold bodyLines
          conv_lhs => rw [hl]
          rw [List.map_cons, hl]
        rw [hb]
        obtain ⟨v, w, hv, hw, hp⟩ := (rowOf_line cd cf hrs.sep (labelsOfItems l) (allDataIndexes l) hst.labels_ne x).stamp
        have hr0 : List.range ("epoch" :: columnNames (labelsOfItems l) (allDataIndexes l)).length ≠ [] := by simp
        have hstep : lineStep cd cf (pickSel cf .all) (joinSep ',' (lineParts cd (labelsOfItems l) (allDataIndexes l) x) ++ ['\n'])
            { st := st, cols := List.range ("epoch" :: columnNames (labelsOfItems l) (allDataIndexes l)).length, labels := some ("epoch" :: columnNames (labelsOfItems l) (allDataIndexes l)) } =
          lineStep cd cf (pickSel cf .all) (joinSep ',' (lineParts cd (labelsOfItems l) (allDataIndexes l) x) ++ ['\n'])
            { st := { st with tsFormat := .epoch }, cols := List.range ("epoch" :: columnNames (labelsOfItems l) (allDataIndexes l)).length, labels := some ("epoch" :: columnNames (labelsOfItems l) (allDataIndexes l)) } := by
          apply lineStep_congr cd cf _ _ _ _ (ignored_body cd cf st hrs _ _ hst.labels_ne x) hr0 hr0
          have hts : ∀ s : CsvState, s.tsCol = st.tsCol → ∃ tc, resolveTs { st := s, cols := List.range ("epoch" :: columnNames (labelsOfItems l) (allDataIndexes l)).length, labels := some ("epoch" :: columnNames (labelsOfItems l) (allDataIndexes l)) }
              = .ok { st := { s with tsCol := tc }, cols := List.range ("epoch" :: columnNames (labelsOfItems l) (allDataIndexes l)).length, labels := some ("epoch" :: columnNames (labelsOfItems l) (allDataIndexes l)), tsIdx := some 0 } ∧
              tc = (if st.tsCol = .auto then .label "epoch" else st.tsCol) := by
            intro s hs
            have hnt : indexIn "timestamp" ("epoch" :: columnNames (labelsOfItems l) (allDataIndexes l)) = none := by
              unfold indexIn; rw [if_neg hnodup.2]
            have hne : indexIn "epoch" ("epoch" :: columnNames (labelsOfItems l) (allDataIndexes l)) = some 0 := by
              simp [indexIn]
            unfold resolveTs
            dsimp only
            rcases hrs.column with h | h | h
            · rw [hs, h]
              simp only [Option.getD_some, hnt, hne]
              exact ⟨_, rfl, by simp⟩
            · rw [hs, h]
              refine ⟨.num 0, ?_, by simp⟩
              have : ({ s with tsCol := .num 0 } : CsvState) = s := by cases s; simp at hs ⊢; rw [hs, h]
              rw [this]
            · rw [hs, h]
              simp only [hne]
              refine ⟨.label "epoch", ?_, by simp⟩
              have : ({ s with tsCol := .label "epoch" } : CsvState) = s := by cases s; simp at hs ⊢; rw [hs, h]
              rw [this]
          obtain ⟨tc, h1, e1⟩ := hts st rfl
          obtain ⟨tc', h2, e2⟩ := hts { st with tsFormat := .epoch } rfl
          have htc : tc' = tc := by rw [e1, e2]
          subst htc
          exact dataLine_auto cd cf _ _ _ hf 0 v w _ _ h1 rfl hf h2 hv hw hp
        simp only [loadLines, hstep]
    rw [hload]
  · have : { st with tsFormat := .epoch } = st := by cases st; simp at hf ⊢; exact hf.symm
    rw [this] at main
    exact main

/-! ## Back to items -/

theorem rowValues_columns (labels indexes : List String) (x : Item) (hlab : ∀ k ∈ labels, isIndexLabel (some k) = false) :
    rowValues (columns labels indexes x) = labels.map (fun k => (k, valOf x k)) := by
  unfold rowValues columns
  rw [List.filterMap_append]
  have h1 : (labels.map (fun k => (k, some (valOf x k)))).filterMap
      (fun kv : String × Option ℚ => if isIndexLabel (some kv.1) then none else kv.2.map (fun v => (kv.1, v))) = labels.map (fun k => (k, valOf x k)) := by
    rw [List.filterMap_map]
    induction labels with
    | nil => rfl
    | cons a b ih =>
      have ha := hlab a (by simp)
      rw [List.filterMap_cons, List.map_cons, ih (fun k hk => hlab k (by simp [hk]))]
      simp [ha]
  have h2 : (indexes.map (fun n => (idxColumn n, idxOf x n))).filterMap
      (fun kv : String × Option ℚ => if isIndexLabel (some kv.1) then none else kv.2.map (fun v => (kv.1, v))) = [] := by
    rw [List.filterMap_map]
    rw [List.filterMap_eq_nil_iff]
    intro n _
    simp [isIndexLabel_idxColumn]
  rw [h1, h2, List.append_nil]

theorem rowIndexes_columns (labels indexes : List String) (x : Item) (hlab : ∀ k ∈ labels, isIndexLabel (some k) = false) :
    rowIndexes (columns labels indexes x) = indexes.map (fun n => (n, idxOf x n)) := by
  unfold rowIndexes columns
  rw [List.filterMap_append]
  have h1 : (labels.map (fun k => (k, some (valOf x k)))).filterMap
      (fun kv : String × Option ℚ => if isIndexLabel (some kv.1) then some (String.ofList (kv.1.toList.drop 2), kv.2) else none) = [] := by
    rw [List.filterMap_map]
    rw [List.filterMap_eq_nil_iff]
    intro n hn
    simp [hlab n hn]
  have h2 : (indexes.map (fun n => (idxColumn n, idxOf x n))).filterMap
      (fun kv : String × Option ℚ => if isIndexLabel (some kv.1) then some (String.ofList (kv.1.toList.drop 2), kv.2) else none) =
      indexes.map (fun n => (n, idxOf x n)) := by
    rw [List.filterMap_map, ← List.filterMap_eq_map]
    apply List.filterMap_congr
    intro n _
    simp [isIndexLabel_idxColumn, idxColumn_toList]
  rw [h1, h2, List.nil_append]

theorem pointRows_ok (skip : Bool) (tz : String) : ∀ (rows : List Row) (s : TSeries),
    (s.appendAll (rows.map (rowPoint tz))).2 = .ok () → pointRows skip tz rows s = .ok (s.appendAll (rows.map (rowPoint tz))).1
  | [], s, _ => rfl
  | r :: rs, s, h => by
    simp only [List.map_cons, TSeries.appendAll] at h ⊢
    simp only [pointRows]
    cases hx : (s.append (rowPoint tz r)).2 with
    | error e => rw [hx] at h; simp at h
    | ok u => rw [hx] at h; exact pointRows_ok skip tz rs _ h

theorem slotRows_ok (cal : Calendar) (tz : String) (u : TUnit) (fuel : ℕ) (all : List Row) : ∀ (i : ℕ) (rows : List Row) (s : TSeries),
    (s.appendAll (rows.map (fun r => rowSlot cal tz u r.t r.data.split.1 r.data.split.2))).2 = .ok () →
    slotRows cal tz u fuel all i rows s = .ok (s.appendAll (rows.map (fun r => rowSlot cal tz u r.t r.data.split.1 r.data.split.2))).1
  | _, [], s, _ => rfl
  | i, r :: rs, s, h => by
    simp only [List.map_cons, TSeries.appendAll] at h ⊢
    simp only [slotRows]
    cases hx : (s.append (rowSlot cal tz u r.t r.data.split.1 r.data.split.2)).2 with
    | error e => rw [hx] at h; simp at h
    | ok u' => rw [hx] at h; exact slotRows_ok cal tz u fuel all (i + 1) rs _ h

end

end Timeseria
