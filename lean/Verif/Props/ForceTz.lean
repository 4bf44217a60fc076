import Verif.Model.ForceTz
import Verif.Props.CsvTypes
/-!
C341: the time zone asked for when reading a file changes the zone of the items, not the instants given by the text.
-/
namespace Timeseria

/-- two codecs which read the numbers in the same way, and the same instants from the fields of the lines -/
structure SameOn (cd cd' : Codec) (sep : Char) (lines : List Text) : Prop where
  parse : ∀ s, cd.parse s = cd'.parse s
  stamp : ∀ l ∈ lines, ∀ v ∈ splitSep sep l, ∀ w, sanitize ph v = some w → cd.stamp w = cd'.stamp w

theorem toFloat_same {cd cd' : Codec} (h : ∀ s, cd.parse s = cd'.parse s) (p : List Text) (s : Text) (l : Option String) : toFloat cd p s l = toFloat cd' p s l := by
  unfold toFloat
  simp only [h]

theorem rowList_same {cd cd' : Codec} (h : ∀ s, cd.parse s = cd'.parse s) (fields : List Text) : ∀ idx, rowList cd fields idx = rowList cd' fields idx
  | [] => rfl
  | i :: r => by
    unfold rowList
    simp only [toFloat_same h, rowList_same h fields r]

theorem rowDict_same {cd cd' : Codec} (h : ∀ s, cd.parse s = cd'.parse s) (fields : List Text) (ls : List String) : ∀ idx acc, rowDict cd fields ls idx acc = rowDict cd' fields ls idx acc
  | [], _ => rfl
  | i :: r, acc => by
    unfold rowDict
    simp only [toFloat_same h, rowDict_same h fields ls r]

theorem rowData_same {cd cd' : Codec} (h : ∀ s, cd.parse s = cd'.parse s) (fields : List Text) (ls : Option (List String)) (d : DType) (idx : List ℕ) :
    rowData cd fields ls d idx = rowData cd' fields ls d idx := by
  unfold rowData
  simp only [rowList_same h, rowDict_same h]

theorem dataLine_same {cd cd' : Codec} (h : ∀ s, cd.parse s = cd'.parse s) (cf : CsvConf) (sel : Sel) (fields : List Text)
    (hs : ∀ v ∈ fields, ∀ w, sanitize ph v = some w → cd.stamp w = cd'.stamp w) (c : LoadState) : dataLine cd cf sel fields c = dataLine cd' cf sel fields c := by
  unfold dataLine
  cases resolveTs c with
  | error e => rfl
  | ok c1 =>
    dsimp only
    cases hf : fields[c1.tsIdx.getD 0]? with
    | none => rfl
    | some v =>
      dsimp only
      have hr : readStamp cd c1.st.tsFormat (sanitize ph v) = readStamp cd' c1.st.tsFormat (sanitize ph v) := by
        cases hw : sanitize ph v with
        | none => rfl
        | some w =>
          have := hs v (List.mem_of_getElem? hf) w hw
          unfold readStamp
          simp only [h, this]
      rw [hr]
      simp only [rowData_same h]

theorem lineStep_same {cd cd' : Codec} (h : ∀ s, cd.parse s = cd'.parse s) (cf : CsvConf) (sel : Sel) (line : Text)
    (hs : ∀ v ∈ splitSep cf.sep line, ∀ w, sanitize ph v = some w → cd.stamp w = cd'.stamp w) (c : LoadState) : lineStep cd cf sel line c = lineStep cd' cf sel line c := by
  unfold lineStep
  cases line with
  | nil => rfl
  | cons x xs =>
    have hc : (splitSep cf.sep (x :: xs)).any (fun v => !convertible cd v) = (splitSep cf.sep (x :: xs)).any (fun v => !convertible cd' v) := by
      have hpt : ∀ v ∈ splitSep cf.sep (x :: xs), convertible cd v = convertible cd' v := by
        intro v hv
        unfold convertible
        cases hw : sanitize ph v with
        | none => rfl
        | some w => simp only [h, hs v hv w hw]
      rw [Bool.eq_iff_iff, List.any_eq_true, List.any_eq_true]
      constructor
      · rintro ⟨v, hv, hv'⟩; exact ⟨v, hv, by rw [← hpt v hv]; exact hv'⟩
      · rintro ⟨v, hv, hv'⟩; exact ⟨v, hv, by rw [hpt v hv]; exact hv'⟩
    dsimp only
    rw [hc]
    simp only [dataLine_same h cf sel _ hs]

theorem loadLines_same {cd cd' : Codec} (cf : CsvConf) (sel : Sel) (limit : Option ℕ) : ∀ (lines : List Text) (c : LoadState), SameOn cd cd' cf.sep lines →
    loadLines cd cf sel limit lines c = loadLines cd' cf sel limit lines c
  | [], _, _ => rfl
  | l :: r, c, h => by
    unfold loadLines
    rw [lineStep_same h.parse cf sel l (h.stamp l List.mem_cons_self)]
    cases lineStep cd' cf sel l c with
    | error e => rfl
    | ok c' =>
      dsimp only
      rw [loadLines_same cf sel limit r c' ⟨h.parse, fun l' hl => h.stamp l' (List.mem_cons_of_mem _ hl)⟩]

theorem lineStep_tz {cd : Codec} (cf : CsvConf) (z : String) (sel : Sel) (line : Text) (c : LoadState) : lineStep cd { cf with tz := z } sel line c = lineStep cd cf sel line c := rfl

theorem loadLines_tz {cd : Codec} (cf : CsvConf) (z : String) (sel : Sel) (limit : Option ℕ) : ∀ (lines : List Text) (c : LoadState),
    loadLines cd { cf with tz := z } sel limit lines c = loadLines cd cf sel limit lines c
  | [], _ => rfl
  | l :: r, c => by
    unfold loadLines
    rw [lineStep_tz]
    cases lineStep cd cf sel l c with
    | error e => rfl
    | ok c' => dsimp only; rw [loadLines_tz cf z sel limit r c']

theorem readRows_zone (zc : ZonedCodec) (cf : CsvConf) (z z' : String) (st : CsvState) (filter : Sel) (limit : Option ℕ) (lines : List Text)
    (hf : ∀ l ∈ lines, ∀ v ∈ splitSep cf.sep l, ∀ w, sanitize noDataPlaceholders v = some w → zc.Fixed w) :
    readRows (zc.codec z) { cf with tz := z } st filter limit lines = readRows (zc.codec z') { cf with tz := z' } st filter limit lines := by
  unfold readRows
  have hp : ∀ z, pickSel { cf with tz := z } filter = pickSel cf filter := fun z => by cases filter with
    | all => rfl
    | nums l => cases l <;> rfl
    | names l => cases l <;> rfl
  rw [loadLines_tz cf z, loadLines_tz cf z', hp z, hp z']
  rw [loadLines_same (cd := zc.codec z) (cd' := zc.codec z') cf (pickSel cf filter) limit lines { st := st } ⟨zc.parse_eq z z', fun l hl v hv w hw => hf l hl v hv w hw z z'⟩]

/-- the same series with its items in another zone -/
def TSeries.inZone (z : String) (s : TSeries) : TSeries := { s with items := s.items.map (fun x => { x with tz := z }) }

theorem prePoint_inZone (z : String) (s : TSeries) (x : Item) :
    (s.inZone z).prePoint { x with tz := z } = ((s.prePoint x).1.inZone z, (s.prePoint x).2) := by
  unfold TSeries.prePoint TSeries.inZone
  cases s with
  | mk items prevT res resS tz ref =>
    cases prevT with
    | none => rfl
    | some p =>
      dsimp only
      by_cases h0 : items.isEmpty
      · have : (items.map (fun x : Item => { x with tz := z })).isEmpty = true := by simpa using h0
        rw [if_pos h0, if_pos this]
      · have : ¬ (items.map (fun x : Item => { x with tz := z })).isEmpty = true := by simpa using h0
        rw [if_neg h0, if_neg this]
        split
        · rfl
        · split
          · rfl
          · cases res with
            | unset => dsimp only; cases spacingUnit (x.t - p) <;> rfl
            | varying => rfl
            | unit u =>
              cases resS with
              | none => rfl
              | some r => dsimp only; split <;> rfl

theorem baseAppend_inZone (z : String) (s : TSeries) (x : Item) : (s.inZone z).baseAppend { x with tz := z } = ((s.baseAppend x).1.inZone z, (s.baseAppend x).2) := by
  unfold TSeries.baseAppend TSeries.inZone
  cases s with
  | mk items prevT res resS tz ref =>
    dsimp only
    rw [List.head?_map, List.getLast?_map]
    cases items.head? with
    | none => simp
    | some first =>
      cases items.getLast? with
      | none => simp
      | some last =>
        simp only [Option.map_some]
        have h1 : ({ x with tz := z } : Item).isInstance ({ first with tz := z } : Item).cls = x.isInstance first.cls := rfl
        have h2 : ({ x with tz := z } : Item).isSlot = x.isSlot := rfl
        have h3 : slotSucceeds { x with tz := z } { last with tz := z } = slotSucceeds x last := rfl
        have h4 : ∀ r, checkData r { x with tz := z } = checkData r x := fun _ => rfl
        rw [h1, h2, h3]
        cases hi : x.isInstance first.cls with
        | false => rfl
        | true =>
          by_cases hb : (if x.isSlot = true then !slotSucceeds x last else !decide (x.t > last.t)) = true
          · rw [if_neg (by simp), if_pos hb, if_neg (by simp), if_pos hb]
          · rw [if_neg (by simp), if_neg hb, if_neg (by simp), if_neg hb]
            cases ref with
            | none => simp
            | some r =>
              dsimp only
              rw [h4]
              by_cases ht : r.truthy = true
              · rw [if_pos ht, if_pos ht]
                cases checkData r x <;> simp
              · rw [if_neg ht, if_neg ht]
                simp

theorem append_inZone (z : String) (s : TSeries) (x : Item) (hx : x.isSlot = false) : (s.inZone z).append { x with tz := z } = ((s.append x).1.inZone z, (s.append x).2) := by
  unfold TSeries.append
  have hx' : ({ x with tz := z } : Item).isSlot = false := hx
  simp only [hx, hx', Bool.false_eq_true, if_false]
  rw [prePoint_inZone]
  cases h : (s.prePoint x).2 with
  | error e => rfl
  | ok _ => dsimp only; rw [baseAppend_inZone]

theorem pointRows_inZone (skip : Bool) (z z' : String) : ∀ (rows : List Row) (s : TSeries),
    pointRows skip z' rows (s.inZone z') = (pointRows skip z rows s).map (TSeries.inZone z')
  | [], s => rfl
  | r :: rs, s => by
    unfold pointRows
    have h := append_inZone z' s (rowPoint z r) rfl
    have e : ({ rowPoint z r with tz := z' } : Item) = rowPoint z' r := rfl
    rw [e] at h
    rw [h]
    cases (s.append (rowPoint z r)).2 with
    | ok _ => exact pointRows_inZone skip z z' rs _
    | error e =>
      dsimp only
      cases skip with
      | true => exact pointRows_inZone true z z' rs _
      | false => rfl

/-- **C341** for every file whose times are numbers of seconds or have an offset, reading points in the zone `z'` gives the same as reading them in the zone `z`, error or series, instants, values, indexes and
resolution, except that the items are in `z'`; the state of the storage is the same. -/
theorem C341_points (zc : ZonedCodec) (cal : Calendar) (detect : List ℚ → Except PyErr ℚ) (fuel : ℕ) (cf : CsvConf) (st : CsvState) (z z' : String) (hz : z ≠ "") (hz' : z' ≠ "") (a : GetArgs)
    (lines : List Text) (hf : ∀ l ∈ lines, ∀ v ∈ splitSep cf.sep l, ∀ w, sanitize noDataPlaceholders v = some w → zc.Fixed w) (hp : a.forcePoints = true) (hs : a.forceSlots = false) :
    csvGetIn zc cal detect fuel cf st (some z') a lines = (csvGetIn zc cal detect fuel cf st (some z) a lines).map (fun r => (r.1.inZone z', r.2)) := by
  unfold csvGetIn
  simp only [if_neg hz, if_neg hz']
  unfold csvGet
  rw [if_neg (by simp [hs]), if_neg (by simp [hs]), readRows_zone zc cf z' z st a.filter a.limit lines hf]
  cases readRows (zc.codec z) { cf with tz := z } st a.filter a.limit lines with
  | error e => rfl
  | ok r =>
    obtain ⟨rows, st'⟩ := r
    dsimp only
    have hw : ∀ z, wantedKind { cf with tz := z } a = some .points := fun z => by unfold wantedKind; rw [if_pos hp]
    rw [hw, hw]
    unfold decideKind
    dsimp only
    have h := pointRows_inZone cf.skipErrors z z' rows TSeries.empty
    have e : TSeries.empty.inZone z' = TSeries.empty := rfl
    rw [e] at h
    rw [h]
    cases pointRows cf.skipErrors z rows TSeries.empty with
    | error e => rfl
    | ok s => rfl

/-- **C341** without a zone in the call, or with an empty one, the zone is that of the storage: a zone asked for once is not remembered -/
theorem C341_default (zc : ZonedCodec) (cal : Calendar) (detect : List ℚ → Except PyErr ℚ) (fuel : ℕ) (cf : CsvConf) (st : CsvState) (a : GetArgs) (lines : List Text) (hz : cf.tz ≠ "") :
    csvGetIn zc cal detect fuel cf st none a lines = csvGetIn zc cal detect fuel cf st (some cf.tz) a lines ∧
    csvGetIn zc cal detect fuel cf st (some "") a lines = csvGetIn zc cal detect fuel cf st none a lines := by
  constructor
  · unfold csvGetIn
    simp only [if_neg hz]
  · unfold csvGetIn
    simp

/-- a codec per zone: `T…` is a date with an offset, `N…` one without, in Rome an hour before -/
def zonedSample : ZonedCodec where
  codec z := { sampleCodec with
    stamp := fun s => match s with
      | 'N' :: r => (sampleParse r).map (fun t => if z = "Europe/Rome" then t - 3600 else t)
      | _ => sampleStamp s
    none_text := sampleCodec.none_text
    epoch_text := ⟨sampleCodec.epoch_text.1, sampleCodec.epoch_text.2⟩ }
  parse_eq _ _ _ := rfl

def fixedFile : List Text := ["a,b".toList, "T+60e1,+1e1".toList, "T+120e1,+2e1".toList, "T+180e1,+5e1".toList]

def looseFile : List Text := ["a,b".toList, "N+3660e1,+1e1".toList, "N+3720e1,+2e1".toList]

def zonesRead (f : List Text) (z : String) : Option (List (ℚ × String)) :=
  ((csvGetIn zonedSample physicalCalendar (fun _ => .ok 60) 10 {} { tsFormat := .iso } (some z) { forcePoints := true } f).toOption.map (fun r => r.1.items.map (fun x => (x.t, x.tz))))

example : zonesRead fixedFile "Europe/Rome" = some [(60, "Europe/Rome"), (120, "Europe/Rome"), (180, "Europe/Rome")] := by decide +kernel

example : zonesRead fixedFile "UTC" = some [(60, "UTC"), (120, "UTC"), (180, "UTC")] := by decide +kernel

example : ∀ l ∈ fixedFile, ∀ v ∈ splitSep ',' l, ∀ w, sanitize noDataPlaceholders v = some w → zonedSample.Fixed w := by
  intro l hl v hv w hw z z'
  have : w.head? ≠ some 'N' := by
    have hall : ∀ l ∈ fixedFile, ∀ v ∈ splitSep ',' l, ((sanitize noDataPlaceholders v).bind List.head?) ≠ some 'N' := by decide +kernel
    have := hall l hl v hv
    rw [hw] at this
    exact this
  cases w with
  | nil => rfl
  | cons c r =>
    have hc : c ≠ 'N' := fun h => this (by rw [h]; rfl)
    simp only [zonedSample]
    split
    · rename_i h; cases h; exact absurd rfl hc
    · rfl

/-- **C341** without an offset the zone of the call decides the instants: the hypothesis on the text is needed -/
theorem C341_naive : ¬ (∀ (zc : ZonedCodec) (cal : Calendar) (detect : List ℚ → Except PyErr ℚ) (fuel : ℕ) (cf : CsvConf) (st : CsvState) (z z' : String) (a : GetArgs) (lines : List Text),
    z ≠ "" → z' ≠ "" → (csvGetIn zc cal detect fuel cf st (some z') a lines).toOption.map (fun r => r.1.items.map Item.t) =
      (csvGetIn zc cal detect fuel cf st (some z) a lines).toOption.map (fun r => r.1.items.map Item.t)) := by
  intro h
  have := h zonedSample physicalCalendar (fun _ => .ok 60) 10 {} { tsFormat := .iso } "UTC" "Europe/Rome" { forcePoints := true } looseFile (by decide) (by decide)
  revert this
  decide +kernel

end Timeseria
