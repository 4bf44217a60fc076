import Verif.Model.NanStore
import Verif.Props.Csv
/-!
C322: series with NaN in a CSV file.
-/
namespace Timeseria

/-- the texts of the columns of an item with holes -/
def holeParts (cd : Codec) (hole : Item → String → Bool) (labels indexes : List String) (x : Item) : List Text :=
  cd.fmt x.t :: (labels.map (fun k => nanCell cd (hole x k) (valOf x k)) ++ indexes.map (fun n => fmtIndex cd (idxOf x n)))

def holeLine (cd : Codec) (hole : Item → String → Bool) (labels indexes : List String) (x : Item) : Text :=
  joinSep ',' (holeParts cd hole labels indexes x) ++ ['\n']

theorem zipWith_map_self {α β γ : Type} (f : α → β → γ) (g : α → β) : ∀ l : List α, List.zipWith f l (l.map g) = l.map (fun a => f a (g a))
  | [] => rfl
  | a :: r => by simp [zipWith_map_self f g r]

theorem nanPut_ok (cd : Codec) (n : Notes) (hole : Item → String → Bool) {l : List Item} (hst : Storable l) :
    nanPut cd n hole (labelsOfItems l) l =
      .ok (noteLines n ++ headLine l :: l.map (holeLine cd hole (labelsOfItems l) (allDataIndexes l))) := by
  unfold nanPut
  rw [mapE_ok (g := holeLine cd hole (labelsOfItems l) (allDataIndexes l))]
  · rfl
  · intro x hx
    obtain ⟨d, hd, hwf, hne⟩ := hst.dict x hx
    unfold nanLine
    rw [mapE_ok (g := fun k => valOf x k) (by
      intro k hk
      have := (hst.labels_perm x hx d hd k).1 hk
      obtain ⟨v, hv⟩ := Dict.get?_isSome.2 this
      simp [Item.byLabel, hd, dataByLabel, hv, valOf])]
    dsimp only
    rw [mapE_ok (g := fun n => idxOf x n) (by
      intro n hn
      have := (hst.index_mem x hx n).1 hn
      obtain ⟨v, hv⟩ := Dict.get?_isSome.2 this
      simp [hv, idxOf])]
    dsimp only
    rw [zipWith_map_self]
    simp [holeLine, holeParts, Function.comp_def]

/-- an item without NaN is written as usual -/
theorem holeLine_none (cd : Codec) (hole : Item → String → Bool) (labels indexes : List String) (x : Item) (h : ∀ k ∈ labels, hole x k = false) :
    holeLine cd hole labels indexes x = joinSep ',' (lineParts cd labels indexes x) ++ ['\n'] := by
  unfold holeLine holeParts lineParts columns
  have : labels.map (fun k => nanCell cd (hole x k) (valOf x k)) = labels.map (fun k => fmtIndex cd (some (valOf x k))) := by
    apply List.map_congr_left
    intro k hk
    simp [nanCell, h k hk, fmtIndex]
  rw [this]
  simp [Function.comp_def]

theorem nan_plain : PlainText "nan".toList := by decide

theorem nanCell_plain (cd : Codec) (b : Bool) (v : ℚ) : PlainText (nanCell cd b v) := by
  unfold nanCell
  split
  · exact nan_plain
  · exact fmt_plain cd v

theorem ignored_hole (cd : Codec) (cf : CsvConf) (st : CsvState) (hrs : ReadSettings cf st) (hole : Item → String → Bool)
    (labels indexes : List String) (hne : labels ≠ []) (x : Item) : ignoredLine cf (holeLine cd hole labels indexes x) = false := by
  obtain ⟨c, r, h, hc⟩ := fmt_head cd x.t
  unfold holeLine holeParts
  rw [h]
  cases labels with
  | nil => exact absurd rfl hne
  | cons a b =>
    rw [List.map_cons, List.cons_append]
    apply ignoredLine_parts hrs.sep
    intro hm
    exact hrs.comments c hm hc

theorem toFloat_nan (cd : Codec) (k : String) (h : isIndexLabel (some k) = false) (v : Text) (hv : cleaned v = cleaned "nan".toList) :
    toFloat cd noDataPlaceholders v (some k) = .error .floatConversion := by
  rw [toFloat_congr cd noDataPlaceholders (some k) hv]
  unfold toFloat
  have h1 : sanitize noDataPlaceholders "nan".toList = none := by decide
  rw [h1, h]
  rfl

/-- the line of an item with a NaN is malformed -/
theorem hole_malformed (cd : Codec) (cf : CsvConf) (hsep : cf.sep = ',') (f : TsFormat) (hole : Item → String → Bool)
    (labels indexes : List String) (x : Item) (k : String) (hk : k ∈ labels) (hh : hole x k = true) (hi : isIndexLabel (some k) = false) :
    ¬ ∃ t d, RowOf cd f ("epoch" :: columnNames labels indexes) 0 (splitSep cf.sep (holeLine cd hole labels indexes x)) t d := by
  rintro ⟨t, d, -, hv⟩
  obtain ⟨i, hil, hik⟩ := List.getElem_of_mem hk
  have hne : labels ≠ [] := List.ne_nil_of_mem hk
  obtain ⟨y, ys, hy⟩ : ∃ y ys, labels.map (fun k => nanCell cd (hole x k) (valOf x k)) ++ indexes.map (fun n => fmtIndex cd (idxOf x n)) = y :: ys := by
    cases labels with
    | nil => exact absurd rfl hne
    | cons a b => exact ⟨_, _, rfl⟩
  have hparts : ∀ p ∈ y :: ys, ',' ∉ p := by
    intro p hp
    rw [← hy] at hp
    rcases List.mem_append.1 hp with hp | hp
    · obtain ⟨k, _, rfl⟩ := List.mem_map.1 hp; exact plainText_comma (nanCell_plain cd _ _)
    · obtain ⟨n, _, rfl⟩ := List.mem_map.1 hp; exact plainText_comma (fmtIndex_plain cd _)
  have hsplit : splitSep cf.sep (holeLine cd hole labels indexes x) = cd.fmt x.t :: withTail ['\n'] (y :: ys) := by
    unfold holeLine holeParts
    rw [hy]
    apply split_line hsep
    intro p hp
    rcases List.mem_cons.1 hp with rfl | hp
    · exact plainText_comma (fmt_plain cd _)
    · exact hparts p hp
  rw [hsplit] at hv
  have hcl := withTail_cleaned ['\n'] newline_blank (y :: ys)
  have hidx : (List.range ("epoch" :: columnNames labels indexes).length).erase 0 = (List.range (columnNames labels indexes).length).map (· + 1) := by
    rw [List.length_cons, List.range_succ_eq_map, List.erase_cons_head]
  rw [hidx, List.forall₂_map_left_iff, List.forall₂_iff_get] at hv
  obtain ⟨hlen, hall⟩ := hv
  have hic : i < (columnNames labels indexes).length := by unfold columnNames; rw [List.length_append]; omega
  have := hall i (by simpa using hic) (by rw [← hlen]; simpa using hic)
  simp only [List.get_eq_getElem, List.getElem_range, List.getElem?_cons_succ] at this
  obtain ⟨hname, v, hv, hfl⟩ := this
  have hck : (columnNames labels indexes)[i]? = some k := by
    unfold columnNames
    rw [List.getElem?_append_left hil, List.getElem?_eq_getElem hil, hik]
  rw [hck] at hname
  have hcell : (y :: ys)[i]? = some "nan".toList := by
    rw [← hy, List.getElem?_append_left (by simpa using hil), List.getElem?_map, List.getElem?_eq_getElem hil, hik]
    simp [nanCell, hh]
  have hci := getElem?_cleaned hcl i
  rw [hv, hcell] at hci
  simp only [Option.map_some, Option.some.injEq] at hci
  rw [← Option.some.inj hname, toFloat_nan cd k hi v hci] at hfl
  cases hfl

/-- the items none of whose values is NaN -/
def unholed (hole : Item → String → Bool) (l : List Item) : List Item :=
  l.filter (fun x => (labelsOfItems l).all (fun k => !hole x k))

theorem Storable.sub {l m : List Item} (h : Storable l) (hm : ∀ x ∈ m, x ∈ l) (hne : m ≠ []) : Storable m :=
  ⟨hne, fun x hx => h.dict x (hm x hx), fun x hx => h.labels x (hm x hx), fun x hx y hy => h.same x (hm x hx) y (hm y hy),
    fun x hx => h.idx x (hm x hx), fun x hx y hy => h.sameIdx x (hm x hx) y (hm y hy)⟩

theorem labels_sub {l m : List Item} (h : Storable l) (hm : ∀ x ∈ m, x ∈ l) (hne : m ≠ []) : labelsOfItems m = labelsOfItems l := by
  cases hmm : m with
  | nil => exact absurd hmm hne
  | cons x r =>
    have hx : x ∈ l := hm x (by simp [hmm])
    obtain ⟨d, hd, hwf, _⟩ := h.dict x hx
    cases hl : l with
    | nil => exact absurd hl h.nonempty
    | cons y q =>
      have hy : y ∈ l := by simp [hl]
      obtain ⟨e, he, hwe, _⟩ := h.dict y hy
      simp only [labelsOfItems, hd, he]
      exact sortStr_congr ((List.perm_ext_iff_of_nodup hwf hwe).2 (h.same x hx y hy d e hd he))

theorem indexes_sub {l m : List Item} (h : Storable l) (hm : ∀ x ∈ m, x ∈ l) (hne : m ≠ []) : allDataIndexes m = allDataIndexes l := by
  obtain ⟨z, hz⟩ := List.exists_mem_of_ne_nil m hne
  have hmem : ∀ n, n ∈ allDataIndexNames m ↔ n ∈ allDataIndexNames l := by
    intro n
    rw [mem_allNames, mem_allNames]
    constructor
    · rintro ⟨x, hx, hn⟩; exact ⟨x, hm x hx, hn⟩
    · rintro ⟨x, hx, hn⟩; exact ⟨z, hz, (h.sameIdx x hx z (hm z hz) n).1 hn⟩
  have hp : (allDataIndexNames m).Perm (allDataIndexNames l) :=
    (List.perm_ext_iff_of_nodup (nodup_allNames _) (nodup_allNames _)).2 hmem
  unfold allDataIndexes
  dsimp only
  rw [sortStr_congr (hp.filter _)]
  congr 1
  apply List.filter_congr
  intro x _
  rw [Bool.eq_iff_iff]
  simp [hmem x]

theorem headerSettings_written {l : List Item} (hst : Storable l) (cf : CsvConf) (st : CsvState) (hrs : ReadSettings cf st) (hf : st.tsFormat = .epoch) :
    HeaderSettings cf st ("epoch" :: columnNames (labelsOfItems l) (allDataIndexes l)) 0 := by
  have hnodup := hst.names_nodup
  refine ⟨hrs.all, ?_, by simp, by rw [hf]; simp, hrs.type, hnodup.1⟩
  rcases hrs.column with h | h | h
  · rw [h]; unfold tsPosition; dsimp only; rw [if_neg hnodup.2]; simp
  · rw [h]; rfl
  · rw [h]; unfold tsPosition; simp

/-- **C322** is false: a series with a NaN is stored without any error, and then cannot be read back: whatever the
arguments of `get`, it raises. -/
theorem C322_not_read_back_false (cd : Codec) (cal : Calendar) (detect : List ℚ → Except PyErr ℚ) (fuel : ℕ) (n : Notes)
    (l : List Item) (hst : Storable l) (hole : Item → String → Bool)
    (x : Item) (hx : x ∈ l) (k : String) (hk : k ∈ labelsOfItems l) (hh : hole x k = true)
    (cf : CsvConf) (st : CsvState) (hrs : ReadSettings cf st) (hf : st.tsFormat = .epoch) (hskip : cf.skipErrors = false)
    (a : GetArgs) (ha : a.limit = none ∧ a.filter = .all) :
    ∃ content e, nanPut cd n hole (labelsOfItems l) l = .ok content ∧ csvGet cd cal detect fuel cf st a content = .error e := by
  refine ⟨noteLines n ++ headLine l :: l.map (holeLine cd hole (labelsOfItems l) (allDataIndexes l)), ?_⟩
  rw [nanPut_ok cd n hole hst]
  have hlab := fun k hk => (hst.label_plain k hk).2.1
  have hs := headerSettings_written hst cf st hrs hf
  -- the first item with a NaN
  obtain ⟨good, bad, rest, hl, hgood, hbad⟩ : ∃ good bad rest, l = good ++ bad :: rest ∧ (∀ y ∈ good, ∀ k ∈ labelsOfItems l, hole y k = false) ∧
      ∃ k ∈ labelsOfItems l, hole bad k = true := by
    generalize labelsOfItems l = ls at hk
    clear hs hst hlab
    induction l with
    | nil => simp at hx
    | cons y r ih =>
      by_cases hy : ∃ k ∈ ls, hole y k = true
      · exact ⟨[], y, r, rfl, by simp, hy⟩
      · have hxr : x ∈ r := by
          rcases List.mem_cons.1 hx with rfl | h
          · exact absurd ⟨k, hk, hh⟩ hy
          · exact h
        obtain ⟨g, b, t, h1, h2, h3⟩ := ih hxr
        refine ⟨y :: g, b, t, by rw [h1]; rfl, ?_, h3⟩
        intro z hz k' hk'
        rcases List.mem_cons.1 hz with rfl | hz
        · by_contra h
          exact hy ⟨k', hk', by simpa using h⟩
        · exact h2 z hz k' hk'
  obtain ⟨k', hk', hh'⟩ := hbad
  obtain ⟨e, _, he⟩ := C53_first_malformed_line_raises cd cf st (noteLines n) (headLine l) _ 0
    (good.map (holeLine cd hole (labelsOfItems l) (allDataIndexes l))) (holeLine cd hole (labelsOfItems l) (allDataIndexes l) bad)
    (rest.map (holeLine cd hole (labelsOfItems l) (allDataIndexes l))) (ignored_notes cf st hrs n) (isHeader_written cd hst cf st hrs) hs
    (fun p _ _ => splitSep_pos cf.sep p) (by
      intro p hp
      obtain ⟨y, hy, rfl⟩ := List.mem_map.1 hp
      right
      rw [hf, holeLine_none cd hole _ _ y (hgood y hy)]
      exact ⟨_, _, rowOf_line cd cf hrs.sep (labelsOfItems l) (allDataIndexes l) hst.labels_ne y⟩)
    (ignored_hole cd cf st hrs hole _ _ hst.labels_ne bad)
    (hole_malformed cd cf hrs.sep st.tsFormat hole _ _ bad k' hk' hh' (hlab k' hk')) hskip
  have hmap : l.map (holeLine cd hole (labelsOfItems l) (allDataIndexes l)) =
      good.map (holeLine cd hole (labelsOfItems l) (allDataIndexes l)) ++ holeLine cd hole (labelsOfItems l) (allDataIndexes l) bad ::
        rest.map (holeLine cd hole (labelsOfItems l) (allDataIndexes l)) := by
    generalize holeLine cd hole (labelsOfItems l) (allDataIndexes l) = g
    rw [hl, List.map_append, List.map_cons]
  by_cases hforce : a.forcePoints = true ∧ a.forceSlots = true
  · refine ⟨.valueError, rfl, ?_⟩
    unfold csvGet
    rw [if_pos hforce]
  · refine ⟨e, rfl, ?_⟩
    unfold csvGet
    rw [if_neg hforce, ha.1, ha.2, hmap, he]

/-- **C322** With `skip_errors`, what is read back is exactly the items without NaN, unchanged: the whole item is lost
with its other values. -/
theorem C322_skip_errors_partial (cd : Codec) (cal : Calendar) (detect : List ℚ → Except PyErr ℚ) (fuel : ℕ) (n : Notes)
    (l : List Item) (hst : Storable l) (hpts : ∀ x ∈ l, x.slot = none) (hsp : l.Pairwise (fun a b => a.t + 1 / 10000 ≤ b.t))
    (s : TSeries) (hole : Item → String → Bool) (hne : unholed hole l ≠ []) (hs : TSeries.build (unholed hole l) = .ok s)
    (cf : CsvConf) (st : CsvState) (hrs : ReadSettings cf st) (hf : st.tsFormat = .epoch) (hskip : cf.skipErrors = true) :
    ∃ content r st', nanPut cd n hole (labelsOfItems l) l = .ok content ∧
      csvGet cd cal detect fuel cf st { forcePoints := true } content = .ok (r, st') ∧
      List.Forall₂ (fun x y => SameStored cf.tz x y ∧ y.slot = none) (unholed hole l) r.items := by
  have hsub : ∀ x ∈ unholed hole l, x ∈ l := fun x hx => List.mem_of_mem_filter hx
  have hst' := hst.sub hsub hne
  have hset := headerSettings_written hst cf st hrs hf
  obtain ⟨content, r, st', h1, h2, h3⟩ := C50_points_round_trip cd cal detect fuel n (unholed hole l) s hs hst'
    (fun x hx => hpts x (hsub x hx)) (hsp.sublist List.filter_sublist) cf st hrs { forcePoints := true } ⟨rfl, rfl, rfl⟩ (Or.inl rfl) none false (Or.inl rfl)
  have hcont : content = noteLines n ++ headLine (unholed hole l) :: bodyLines cd (unholed hole l) := by
    unfold csvPut at h1
    rw [if_neg (by simp), putLines_ok cd n hst' s hs] at h1
    simp only [Prod.mk.injEq, Option.some.injEq] at h1
    exact h1.1.symm
  have hord : (unholed hole l).Pairwise (fun a b => a.t ≤ b.t) := (hsp.sublist List.filter_sublist).imp (fun h => by linarith)
  obtain ⟨st1, hread1⟩ := readRows_written cd n hst' hord cf st hrs
  rw [← hcont, labels_sub hst hsub hne, indexes_sub hst hsub hne] at hread1
  -- the rows read from the file with NaN
  have hrows : rowsOf cd cf st ("epoch" :: columnNames (labelsOfItems l) (allDataIndexes l)) 0 (l.map (holeLine cd hole (labelsOfItems l) (allDataIndexes l))) =
      (unholed hole l).map (rowFor (labelsOfItems l) (allDataIndexes l)) := by
    unfold unholed
    have hlab := fun k hk => (hst.label_plain k hk).2.1
    have hlne := hst.labels_ne
    clear hread1 hcont h3 h2 h1 hord hst' hsub hs hne hst hpts hsp
    generalize labelsOfItems l = ls at *
    generalize allDataIndexes l = is at *
    induction l with
    | nil => rfl
    | cons y q ih =>
      rw [List.map_cons]
      obtain ⟨c1, c2, _⟩ := C53_rows_are_the_well_formed_lines cd cf st ("epoch" :: columnNames ls is) 0 hset (holeLine cd hole ls is y)
        (q.map (holeLine cd hole ls is))
      by_cases hy : ∀ k ∈ ls, hole y k = false
      · rw [c1 (rowFor ls is y) (ignored_hole cd cf st hrs hole ls is hlne y)
          ⟨_, rfl, by rw [hf, holeLine_none cd hole ls is y hy]; exact rowOf_line cd cf hrs.sep ls is hlne y⟩, ih,
          List.filter_cons_of_pos (by simpa using hy), List.map_cons]
      · rw [c2 (Or.inr (by
          push Not at hy
          obtain ⟨k, hk, hh⟩ := hy
          exact hole_malformed cd cf hrs.sep st.tsFormat hole ls is y k hk (by simpa using hh) (hlab k hk))), ih,
          List.filter_cons_of_neg (by simpa using hy)]
  have h := readRows_header cd cf st none (noteLines n) (headLine l) _ 0 (l.map (holeLine cd hole (labelsOfItems l) (allDataIndexes l)))
      (ignored_notes cf st hrs n) (isHeader_written cd hst cf st hrs) hset (fun p _ _ => splitSep_pos cf.sep p) (Or.inl hskip)
  rw [hrows] at h
  dsimp only [limited] at h
  rw [if_neg (by simp [hne])] at h
  obtain ⟨st2, h⟩ := h
  have hsorted : ((unholed hole l).map (rowFor (labelsOfItems l) (allDataIndexes l))).Pairwise (fun a b => a.t ≤ b.t) := by
    rw [List.pairwise_map]; exact hord
  rw [hsorted.insertionSort_eq, ite_self] at h
  refine ⟨_, r, st2, nanPut_ok cd n hole hst, ?_, h3⟩
  unfold csvGet at h2 ⊢
  rw [if_neg (by simp)] at h2 ⊢
  dsimp only at h2 ⊢
  rw [hread1] at h2
  rw [h]
  dsimp only at h2 ⊢
  cases hk : decideKind (wantedKind cf { forcePoints := true }) none
      (detect (sampleStamps (((unholed hole l).map (rowFor (labelsOfItems l) (allDataIndexes l))).map Row.t) TSeries.empty)) with
  | error e => rw [hk] at h2; cases h2
  | ok o =>
    rw [hk] at h2
    cases o with
    | none =>
      dsimp only at h2 ⊢
      cases hp : pointRows cf.skipErrors cf.tz ((unholed hole l).map (rowFor (labelsOfItems l) (allDataIndexes l))) TSeries.empty with
      | error e => rw [hp] at h2; cases h2
      | ok s' => rw [hp] at h2; cases h2; rfl
    | some u =>
      dsimp only at h2 ⊢
      cases hp : slotRows cal cf.tz u fuel ((unholed hole l).map (rowFor (labelsOfItems l) (allDataIndexes l))) 0
          ((unholed hole l).map (rowFor (labelsOfItems l) (allDataIndexes l))) TSeries.empty with
      | error e => rw [hp] at h2; cases h2
      | ok s' => rw [hp] at h2; cases h2; rfl

/-! ## Example -/

/-- a hole in the label `a` of the first item -/
def oneHole : Item → String → Bool := fun x k => decide (x.t = 0) && k == "a"

example : Storable storedItems ∧ labelsOfItems storedItems = ["a", "b"] ∧ (∃ x ∈ storedItems, oneHole x "a" = true) ∧
    unholed oneHole storedItems ≠ [] ∧ (TSeries.build (unholed oneHole storedItems)).toOption.isSome ∧ ReadSettings {} { tsFormat := .epoch } ∧
    ReadSettings { skipErrors := true } { tsFormat := .epoch } :=
  ⟨storable_example, by decide, ⟨_, by simp [storedItems]; exact Or.inl rfl, by decide⟩, by decide +kernel, by decide +kernel,
    ⟨rfl, by decide, by decide, rfl, Or.inl rfl, Or.inr rfl, Or.inl rfl⟩, ⟨rfl, by decide, by decide, rfl, Or.inl rfl, Or.inr rfl, Or.inl rfl⟩⟩

/-- the whole run on it -/
example : ((nanPut sampleCodec notesOf oneHole ["a", "b"] storedItems).toOption.bind (fun f =>
      (csvGet sampleCodec physicalCalendar (fun _ => .ok 60) 10 { skipErrors := true } { tsFormat := .epoch } { forcePoints := true } f).toOption.map
        (fun r => r.1.items.map (fun x => (x.t, x.value? "a"))))) = some [(60, some (-3))] := by decide +kernel

end Timeseria
