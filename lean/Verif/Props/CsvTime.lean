import Verif.Model.CsvTime
import Verif.Props.CsvSlots

/-! # CSV files: date and time in columns of their own, custom formats, the constructor, reading twice -/

namespace Timeseria

/-! ## The loop over the lines, in any mode -/

theorem modeStep_ignored (cd : Codec) (sp : Text → Text → Option ℚ) (cf : CsvConf) (sel : Sel) (m : TimeMode) (line : Text) (c : TimeLoad)
    (h : ignoredLine cf line = true) : modeStep cd sp cf sel m line c = .ok c := by
  unfold modeStep
  unfold ignoredLine at h
  cases line with
  | nil => rfl
  | cons a r =>
    simp only [Bool.or_eq_true, decide_eq_true_eq] at h
    dsimp only
    by_cases h1 : a ∈ cf.comments
    · rw [if_pos h1]
    · rw [if_neg h1]
      rcases h with h | h
      · exact absurd h h1
      · rw [if_pos h]

theorem modeStep_data (cd : Codec) (sp : Text → Text → Option ℚ) (cf : CsvConf) (sel : Sel) (m : TimeMode) (line : Text) (c : TimeLoad)
    (h : ignoredLine cf line = false) (hc : c.base.cols ≠ []) : modeStep cd sp cf sel m line c = modeLine cd sp cf sel m (splitSep cf.sep line) c := by
  cases line with
  | nil => simp [ignoredLine] at h
  | cons a r =>
    simp only [ignoredLine, Bool.or_eq_false_iff, decide_eq_false_iff_not, not_not] at h
    simp only [modeStep, if_neg h.1, if_neg hc]
    rw [if_neg (not_not.2 h.2)]

/-- the loop keeps an invariant and collects the rows of the good lines, as many as the limit allows -/
theorem modeLines_inv {cd : Codec} {sp : Text → Text → Option ℚ} {cf : CsvConf} {sel : Sel} {m : TimeMode} {limit : Option ℕ} (Inv : TimeLoad → Prop)
    (good : Text → Option Row) : ∀ (lines : List Text) (c : TimeLoad), Inv c →
    (∀ l ∈ lines, ∀ c, Inv c → ∃ c', modeStep cd sp cf sel m l c = .ok c' ∧ Inv c' ∧ c'.base.rows = c.base.rows ++ (good l).toList) →
    limitReached limit c.base.rows.length = false →
    ∃ c', modeLines cd sp cf sel m limit lines c = .ok c' ∧ Inv c' ∧
      c'.base.rows = c.base.rows ++ room limit c.base.rows.length (lines.filterMap good)
  | [], c, hc, _, _ => by
    refine ⟨c, rfl, hc, ?_⟩
    cases limit with
    | none => simp [room]
    | some n => cases n <;> simp [room]
  | l :: r, c, hc, hstep, hlim => by
    obtain ⟨c1, e1, hc1, hr1⟩ := hstep l (by simp) c hc
    have ih := modeLines_inv (limit := limit) Inv good r c1 hc1 (fun x hx => hstep x (by simp [hx]))
    simp only [modeLines, e1]
    cases hg : good l with
    | none =>
      rw [hg] at hr1
      simp only [Option.toList_none, List.append_nil] at hr1
      rw [if_neg (by rw [hr1]; simp)]
      obtain ⟨c', e, hI, hr⟩ := ih (by rw [hr1]; exact hlim)
      refine ⟨c', e, hI, ?_⟩
      rw [hr, hr1]
      simp [hg]
    | some row =>
      rw [hg] at hr1
      simp only [Option.toList_some] at hr1
      have hlen : c1.base.rows.length = c.base.rows.length + 1 := by rw [hr1]; simp
      have hmap : (l :: r).filterMap good = row :: r.filterMap good := by simp [hg]
      rw [hmap]
      cases hreach : limitReached limit c1.base.rows.length with
      | true =>
        rw [if_pos ⟨by omega, rfl⟩]
        refine ⟨c1, rfl, hc1, ?_⟩
        obtain ⟨n, rfl, hn0, hn⟩ := (limitReached_iff _ _).1 hreach
        cases n with
        | zero => exact absurd rfl hn0
        | succ n =>
          have hn' : ¬ n + 1 ≤ c.base.rows.length := by
            intro h
            have := (limitReached_iff (some (n + 1)) c.base.rows.length).2 ⟨n + 1, rfl, hn0, h⟩
            rw [this] at hlim; cases hlim
          have : n + 1 - c.base.rows.length = 1 := by omega
          rw [hr1]
          simp [room, this]
      | false =>
        rw [if_neg (by simp)]
        obtain ⟨c', e, hI, hr⟩ := ih hreach
        refine ⟨c', e, hI, ?_⟩
        rw [hr, hr1]
        cases limit with
        | none => simp [room]
        | some n =>
          cases n with
          | zero => simp [room]
          | succ n =>
            have hn' : ¬ n + 1 ≤ c.base.rows.length := by
              intro h
              have := (limitReached_iff (some (n + 1)) c.base.rows.length).2 ⟨n + 1, rfl, by simp, h⟩
              rw [this] at hlim; cases hlim
            have e2 : n + 1 - c.base.rows.length = (n + 1 - (c.base.rows ++ [row]).length) + 1 := by simp; omega
            simp only [room]
            rw [e2]
            simp

/-- the plain timestamp column is the model of `Verif.Model.Storage` -/
theorem modeStep_plain (cd : Codec) (sp : Text → Text → Option ℚ) (cf : CsvConf) (sel : Sel) (line : Text) (c : TimeLoad) :
    modeStep cd sp cf sel (.stamp none) line c = (lineStep cd cf sel line c.base).map (fun b => { c with base := b }) := by
  unfold modeStep lineStep
  cases line with
  | nil => rfl
  | cons a r =>
    dsimp only
    split
    · rfl
    · split
      · rfl
      · split
        · split <;> rfl
        · rfl

theorem modeLines_plain (cd : Codec) (sp : Text → Text → Option ℚ) (cf : CsvConf) (sel : Sel) (limit : Option ℕ) : ∀ (lines : List Text) (c : TimeLoad),
    modeLines cd sp cf sel (.stamp none) limit lines c = (loadLines cd cf sel limit lines c.base).map (fun b => { c with base := b })
  | [], c => rfl
  | l :: r, c => by
    simp only [modeLines, loadLines, modeStep_plain]
    cases lineStep cd cf sel l c.base with
    | error e => rfl
    | ok b =>
      simp only [Except.map]
      split
      · rfl
      · exact modeLines_plain cd sp cf sel limit r { c with base := b }

theorem modeRows_plain (cd : Codec) (sp : Text → Text → Option ℚ) (cf : CsvConf) (st : CsvState) (filter : Sel) (limit : Option ℕ) (lines : List Text) :
    modeRows cd sp cf (.stamp none) st filter limit lines = readRows cd cf st filter limit lines := by
  unfold modeRows readRows
  rw [modeLines_plain]
  cases loadLines cd cf (pickSel cf filter) limit lines { st := st } <;> rfl

/-- with the plain timestamp column, `get` is the one of `Verif.Model.Storage` -/
theorem modeGet_plain (cd : Codec) (sp : Text → Text → Option ℚ) (cal : Calendar) (detect : List ℚ → Except PyErr ℚ) (fuel : ℕ) (cf : CsvConf)
    (st : CsvState) (a : GetArgs) (lines : List Text) :
    modeGet cd sp cal detect fuel cf (.stamp none) st a lines = csvGet cd cal detect fuel cf st a lines := by
  unfold modeGet csvGet
  rw [modeRows_plain]
  split
  · rfl
  · cases readRows cd cf st a.filter a.limit lines with
    | error e => rfl
    | ok p =>
      dsimp only
      cases decideKind (wantedKind cf a) a.forceUnit (detect (sampleStamps (p.1.map Row.t) TSeries.empty)) with
      | error e => rfl
      | ok u => cases u <;> rfl

/-! ## C283: date and time in columns of their own

The specification: the text of the time is the one of the date column, a tab and the one of the time column, with the outer blanks and quotes removed; if
one of the two columns is not given, or its field is one of the placeholders for missing data, it is the text of the other. -/

/-- the position of a column given by number or label -/
def colPosition (names : List String) : ColRef → Option ℕ
  | .num i => if 0 ≤ i then some i.toNat else none
  | .label l => if l ∈ names then some (names.idxOf l) else none

/-- the text of the time of a row -/
inductive StampText (fields : List Text) : Option ℕ → Option ℕ → Text → Prop
  | both {i j : ℕ} {v w a b : Text} : fields[i]? = some v → sanitize noDataPlaceholders v = some a → fields[j]? = some w →
      sanitize noDataPlaceholders w = some b → StampText fields (some i) (some j) (b ++ '\t' :: a)
  | noTime {i j : ℕ} {v w b : Text} : fields[i]? = some v → sanitize noDataPlaceholders v = none → fields[j]? = some w →
      sanitize noDataPlaceholders w = some b → StampText fields (some i) (some j) b
  | noDate {i j : ℕ} {v w a : Text} : fields[i]? = some v → sanitize noDataPlaceholders v = some a → fields[j]? = some w →
      sanitize noDataPlaceholders w = none → StampText fields (some i) (some j) a
  | time {i : ℕ} {v a : Text} : fields[i]? = some v → sanitize noDataPlaceholders v = some a → StampText fields (some i) none a
  | date {j : ℕ} {w b : Text} : fields[j]? = some w → sanitize noDataPlaceholders w = some b → StampText fields none (some j) b

/-- the format of that text: those of the columns given, the date first -/
inductive StampFormat (tf df : Text) : Option ℕ → Option ℕ → Text → Prop
  | both (i j : ℕ) : StampFormat tf df (some i) (some j) (df ++ '\t' :: tf)
  | time (i : ℕ) : StampFormat tf df (some i) none tf
  | date (j : ℕ) : StampFormat tf df none (some j) df

/-- the row of a line: its time, and a value for the label of each of the other columns, in order -/
structure PartsRow (cd : Codec) (sp : Text → Text → Option ℚ) (tf df : Text) (names : List String) (ti di : Option ℕ) (fields : List Text) (t : ℚ)
    (d : Dict (Option ℚ)) : Prop where
  stamp : ∃ f w, StampFormat tf df ti di f ∧ StampText fields ti di w ∧ sp f w = some t
  values : List.Forall₂ (fun j (kv : String × Option ℚ) => names[j]? = some kv.1 ∧
    ∃ v, fields[j]? = some v ∧ toFloat cd noDataPlaceholders v (some kv.1) = .ok kv.2)
      ((List.range names.length).filter (fun j => some j ≠ ti ∧ some j ≠ di)) d

/-- the settings: all columns, those of the time and of the date inside the file and different, at least another one, dictionaries -/
structure PartsSettings (cf : CsvConf) (st : CsvState) (names : List String) (time date : Option ColRef) (ti di : Option ℕ) : Prop where
  all : cf.sel = .all
  time : time.map (colPosition names) = ti.map some
  date : date.map (colPosition names) = di.map some
  given : ti ≠ none ∨ di ≠ none
  inside : ∀ i, ti = some i ∨ di = some i → i < names.length
  apart : ti ≠ di
  data : ∃ j, j < names.length ∧ some j ≠ ti ∧ some j ≠ di
  type : st.dataType = none ∨ st.dataType = some .dict
  nodup : names.Nodup

/-- the columns of the data -/
def partsIdx (names : List String) (ti di : Option ℕ) : List ℕ := (List.range names.length).filter (fun j => some j ≠ ti ∧ some j ≠ di)

theorem partsIdx_ne {cf : CsvConf} {st : CsvState} {names : List String} {time date : Option ColRef} {ti di : Option ℕ}
    (h : PartsSettings cf st names time date ti di) : partsIdx names ti di ≠ [] := by
  obtain ⟨j, hj, h1, h2⟩ := h.data
  exact List.ne_nil_of_mem (a := j) (by simp [partsIdx, hj, h1, h2])

/-- the time of a line, as computed -/
def partsStamp (sp : Text → Text → Option ℚ) (fmt : Text) (fields : List Text) (ti di : Option ℕ) : Option ℚ :=
  (assembleStamp (di.bind (fun j => (fields[j]?).bind (sanitize ph))) (ti.bind (fun i => (fields[i]?).bind (sanitize ph)))).bind (sp fmt)

/-- the row of a line, as computed -/
def partsGood (cd : Codec) (sp : Text → Text → Option ℚ) (fmt : Text) (names : List String) (ti di : Option ℕ) (fields : List Text) : Option Row :=
  match partsStamp sp fmt fields ti di, (rowDict cd fields names (partsIdx names ti di) []).toOption with
  | some t, some d => some { t := t, data := .dict d }
  | _, _ => none

theorem stampText_iff {fields : List Text} {ti di : Option ℕ} (hg : ti ≠ none ∨ di ≠ none)
    (hf : ∀ i, ti = some i ∨ di = some i → i < fields.length) (w : Text) :
    assembleStamp (di.bind (fun j => (fields[j]?).bind (sanitize ph))) (ti.bind (fun i => (fields[i]?).bind (sanitize ph))) = some w ↔
      StampText fields ti di w := by
  have hph : ph = noDataPlaceholders := rfl
  constructor
  · intro h
    cases ti with
    | none =>
      cases di with
      | none => simp at hg
      | some j =>
        obtain ⟨v, hv⟩ : ∃ v, fields[j]? = some v := ⟨_, List.getElem?_eq_getElem (hf j (.inr rfl))⟩
        simp only [Option.bind_none, Option.bind_some, hv, assembleStamp] at h
        cases hs : sanitize ph v with
        | none => rw [hs] at h; cases h
        | some b => rw [hs] at h; cases h; exact .date hv hs
    | some i =>
      obtain ⟨u, hu⟩ : ∃ v, fields[i]? = some v := ⟨_, List.getElem?_eq_getElem (hf i (.inl rfl))⟩
      cases di with
      | none =>
        simp only [Option.bind_none, Option.bind_some, hu] at h
        cases hs : sanitize ph u with
        | none => rw [hs] at h; cases h
        | some b => rw [hs] at h; cases h; exact .time hu hs
      | some j =>
        obtain ⟨v, hv⟩ : ∃ v, fields[j]? = some v := ⟨_, List.getElem?_eq_getElem (hf j (.inr rfl))⟩
        simp only [Option.bind_some, hu, hv] at h
        cases hs : sanitize ph u with
        | none =>
          cases hs' : sanitize ph v with
          | none => rw [hs, hs'] at h; cases h
          | some b => rw [hs, hs'] at h; cases h; exact .noTime hu hs hv hs'
        | some a =>
          cases hs' : sanitize ph v with
          | none => rw [hs, hs'] at h; cases h; exact .noDate hu hs hv hs'
          | some b => rw [hs, hs'] at h; cases h; exact .both hu hs hv hs'
  · intro h
    cases h with
    | both h1 h2 h3 h4 => simp only [Option.bind_some, h1, h3, hph, h2, h4, assembleStamp]
    | noTime h1 h2 h3 h4 => simp only [Option.bind_some, h1, h3, hph, h2, h4, assembleStamp]
    | noDate h1 h2 h3 h4 => simp only [Option.bind_some, h1, h3, hph, h2, h4, assembleStamp]
    | time h1 h2 => simp only [Option.bind_some, Option.bind_none, h1, hph, h2, assembleStamp]
    | date h1 h2 => simp only [Option.bind_some, Option.bind_none, h1, hph, h2, assembleStamp]

/-- the computed row is the specified one -/
theorem partsGood_iff {cd : Codec} {sp : Text → Text → Option ℚ} {cf : CsvConf} {st : CsvState} {names : List String} {time date : Option ColRef}
    {ti di : Option ℕ} (h : PartsSettings cf st names time date ti di) {tf df : Text} {fields : List Text}
    (hf : ∀ i, ti = some i ∨ di = some i → i < fields.length) (r : Row) :
    partsGood cd sp (partsFormat time date tf df) names ti di fields = some r ↔ ∃ d, r.data = .dict d ∧ PartsRow cd sp tf df names ti di fields r.t d := by
  have hidx : (partsIdx names ti di).Nodup := List.nodup_range.filter _
  have hd := fun d => rowDict_iff cd fields names h.nodup (partsIdx names ti di) [] d hidx (by simp [Dict.keys])
  have hfmt : ∀ f, StampFormat tf df ti di f ↔ f = partsFormat time date tf df := by
    intro f
    have h1 := h.time
    have h2 := h.date
    have h3 := h.given
    cases ti <;> cases di <;> cases time <;> cases date <;> simp [partsFormat] at h1 h2 h3 ⊢
    all_goals constructor
    all_goals first | (intro hx; cases hx; rfl) | (rintro rfl; constructor)
  have hst : ∀ t, partsStamp sp (partsFormat time date tf df) fields ti di = some t ↔
      ∃ f w, StampFormat tf df ti di f ∧ StampText fields ti di w ∧ sp f w = some t := by
    intro t
    unfold partsStamp
    rw [Option.bind_eq_some_iff]
    constructor
    · rintro ⟨w, hw, ht⟩
      exact ⟨_, w, (hfmt _).mpr rfl, (stampText_iff h.given hf w).mp hw, ht⟩
    · rintro ⟨f, w, hf', hw, ht⟩
      rw [(hfmt f).mp hf'] at ht
      exact ⟨w, (stampText_iff h.given hf w).mpr hw, ht⟩
  unfold partsGood
  constructor
  · intro hr
    rcases hto : partsStamp sp (partsFormat time date tf df) fields ti di with _ | t
    · rw [hto] at hr; simp at hr
    · rw [hto] at hr
      cases hrd : rowDict cd fields names (partsIdx names ti di) [] with
      | error e => rw [hrd] at hr; simp [Except.toOption] at hr
      | ok d =>
        rw [hrd] at hr
        simp [Except.toOption] at hr
        subst hr
        refine ⟨d, rfl, (hst t).mp hto, ?_⟩
        obtain ⟨e, he, h⟩ := (hd d).1 hrd
        simp at he; subst he
        exact h
  · rintro ⟨d, hdata, hs, hvals⟩
    have h1 := (hd d).2 ⟨d, by simp, hvals⟩
    rw [(hst r.t).mpr hs, h1]
    cases r; simp at hdata; simp [hdata, Except.toOption]

/-- the states the reading goes through: before and after the first row with a readable time -/
structure PartsInv (st : CsvState) (names : List String) (time date : Option ColRef) (ti di : Option ℕ) (c : TimeLoad) : Prop where
  labels : c.base.labels = some names
  time : resolvePart (some names) time c.timeIdx = .ok (ti.map Int.ofNat)
  date : resolvePart (some names) date c.dateIdx = .ok (di.map Int.ofNat)
  state : (c.base.dataIdx = none ∧ c.base.cols = List.range names.length ∧ c.base.dtype = none ∧ c.base.st = st ∧ c.base.names = []) ∨
    (c.base.dataIdx = some (partsIdx names ti di) ∧ c.base.cols = partsIdx names ti di ∧ c.base.dtype = some .dict)

theorem resolvePart_pos {names : List String} {col : Option ColRef} {i : Option ℕ} (h : col.map (colPosition names) = i.map some) :
    resolvePart (some names) col none = .ok (i.map Int.ofNat) := by
  cases col with
  | none => cases i with
    | none => rfl
    | some i => simp at h
  | some c => cases i with
    | none => simp at h
    | some i =>
      simp only [Option.map_some, Option.some.injEq] at h
      unfold resolvePart
      cases c with
      | num k =>
        simp only [colPosition] at h
        split at h
        · simp only [Option.some.injEq] at h
          subst h
          simp only [findCol, Except.map, Option.map_some, Except.ok.injEq, Option.some.injEq]
          simp only [Int.ofNat_eq_natCast]
          omega
        · cases h
      | label l =>
        simp only [colPosition] at h
        split at h
        · rename_i hl
          simp only [Option.some.injEq] at h
          subst h
          simp [findCol, indexIn, hl, Except.map]
        · cases h

theorem resolvePart_known {names : List String} {col : Option ColRef} {i : Option ℕ} (h : col.map (colPosition names) = i.map some) :
    resolvePart (some names) col (i.map Int.ofNat) = .ok (i.map Int.ofNat) := by
  cases i with
  | none => exact resolvePart_pos h
  | some i => cases col <;> rfl

theorem partText_pos {fields : List Text} {i : Option ℕ} (h : ∀ k, i = some k → k < fields.length) :
    partText fields (i.map Int.ofNat) = .ok (i.bind (fun k => (fields[k]?).bind (sanitize ph))) := by
  cases i with
  | none => rfl
  | some k =>
    have hk := h k rfl
    simp only [Option.map_some, partText]
    have : pyPos fields.length (Int.ofNat k) = some k := by
      unfold pyPos
      rw [if_pos (by simp; omega)]
      simp
    rw [this, Option.bind_some, List.getElem?_eq_getElem hk]
    simp [List.getElem?_eq_getElem hk]

theorem removeCol_range {n : ℕ} {i : Option ℕ} (h : ∀ k, i = some k → k < n) (p : ℕ → Bool) (hp : ∀ k, i = some k → p k = true) :
    removeCol (i.map Int.ofNat) ((List.range n).filter p) = .ok ((List.range n).filter (fun j => p j && decide (some j ≠ i))) := by
  cases i with
  | none => simp [removeCol]
  | some k =>
    have hk := h k rfl
    have hpk := hp k rfl
    simp only [Option.map_some, removeCol]
    rw [if_pos ⟨by simp, by simp [hk, hpk]⟩]
    congr 1
    have hnd : ((List.range n).filter p).Nodup := List.nodup_range.filter _
    simp only [Int.ofNat_eq_natCast, Int.toNat_natCast]
    rw [hnd.erase_eq_filter, List.filter_filter]
    apply List.filter_congr
    intro x _
    by_cases hx : x = k
    · subst hx; simp
    · simp [hx]

/-- one line -/
theorem partsLine_step {cd : Codec} {sp : Text → Text → Option ℚ} {cf : CsvConf} {st : CsvState} {names : List String} {time date : Option ColRef}
    {ti di : Option ℕ} (h : PartsSettings cf st names time date ti di) (tf df : Text) {fields : List Text}
    (hf : ∀ i, ti = some i ∨ di = some i → i < fields.length) {c : TimeLoad} (hc : PartsInv st names time date ti di c) :
    match partsGood cd sp (partsFormat time date tf df) names ti di fields with
    | some r => ∃ c', partsLine cd sp cf .all time date tf df fields c = .ok c' ∧ PartsInv st names time date ti di c' ∧ c'.base.rows = c.base.rows ++ [r]
    | none => if cf.skipErrors then ∃ c', partsLine cd sp cf .all time date tf df fields c = .ok c' ∧ PartsInv st names time date ti di c' ∧
        c'.base.rows = c.base.rows
      else partsLine cd sp cf .all time date tf df fields c = .error (lineErr (partsStamp sp (partsFormat time date tf df) fields ti di)) := by
  have hnone : ¬ (ti.map Int.ofNat = none ∧ di.map Int.ofNat = none) := by
    rcases h.given with h' | h' <;> cases ti <;> cases di <;> simp_all
  have hkt := resolvePart_known h.time
  have hkd := resolvePart_known h.date
  have hline : partsLine cd sp cf .all time date tf df fields c =
      match partsStamp sp (partsFormat time date tf df) fields ti di with
      | none => (badLine cf.skipErrors .valueError c.base).map (fun b => ⟨b, ti.map Int.ofNat, di.map Int.ofNat⟩)
      | some t => match resolveDataParts .all (ti.map Int.ofNat) (di.map Int.ofNat) c.base with
        | .error e => .error e
        | .ok b => (finishRow cd cf fields t b).map (fun b => ⟨b, ti.map Int.ofNat, di.map Int.ofNat⟩) := by
    unfold partsLine
    rw [hc.labels, hc.time]
    dsimp only
    rw [hc.date]
    dsimp only
    rw [if_neg hnone, partText_pos (fun k hk => hf k (.inl hk))]
    dsimp only
    rw [partText_pos (fun k hk => hf k (.inr hk))]
    rfl
  have hdata : ∃ b, resolveDataParts .all (ti.map Int.ofNat) (di.map Int.ofNat) c.base = .ok b ∧ b.labels = some names ∧
      b.dataIdx = some (partsIdx names ti di) ∧ b.cols = partsIdx names ti di ∧ b.rows = c.base.rows ∧ (∃ b', resolveType b = .ok b' ∧
        b'.dtype = some .dict ∧ b'.labels = some names ∧ b'.dataIdx = some (partsIdx names ti di) ∧ b'.cols = partsIdx names ti di ∧ b'.rows = c.base.rows) := by
    rcases hc.state with ⟨h1, h2, h3, h4, h5⟩ | ⟨h1, h2, h3⟩
    · have hr1 : removeCol (ti.map Int.ofNat) (List.range names.length) =
          .ok ((List.range names.length).filter (fun j => true && decide (some j ≠ ti))) := by
        have := removeCol_range (n := names.length) (i := ti) (fun k hk => h.inside k (.inl hk)) (fun _ => true) (fun _ _ => rfl)
        rw [← this]; congr 1; exact (List.filter_eq_self.2 (fun _ _ => rfl)).symm
      have hr2 := removeCol_range (n := names.length) (i := di) (fun k hk => h.inside k (.inr hk)) (fun j => true && decide (some j ≠ ti))
        (fun k hk => by simp; rw [← hk]; exact fun he => h.apart he.symm)
      have he : (List.range names.length).filter (fun j => (true && decide (some j ≠ ti)) && decide (some j ≠ di)) = partsIdx names ti di := by
        unfold partsIdx
        apply List.filter_congr
        intro x _
        simp
      rw [he] at hr2
      obtain ⟨ns, hns, hnl⟩ := namesAt_ok names (partsIdx names ti di) (fun j hj => by
        unfold partsIdx at hj; exact List.mem_range.mp (List.mem_of_mem_filter hj))
      have hne := partsIdx_ne h
      have hns0 : ns ≠ [] := by
        intro h0; rw [h0] at hnl; exact hne (List.length_eq_zero_iff.mp hnl.symm)
      refine ⟨{ c.base with cols := partsIdx names ti di, dataIdx := some (partsIdx names ti di), names := ns }, ?_, hc.labels, rfl, rfl, rfl, ?_⟩
      · unfold resolveDataParts
        rw [h1]
        dsimp only
        rw [h2, hr1]
        dsimp only
        rw [hr2]
        dsimp only
        unfold withNames
        rw [hc.labels]
        cases hnm : names with
        | nil => obtain ⟨j, hj, _⟩ := h.data; rw [hnm] at hj; simp at hj
        | cons x xs =>
          rw [hnm] at hns
          simp only [Option.getD_some, hns]
      · refine ⟨{ c.base with cols := partsIdx names ti di, dataIdx := some (partsIdx names ti di), names := ns, dtype := some .dict }, ?_, rfl, hc.labels, rfl, rfl, rfl⟩
        unfold resolveType
        dsimp only
        rw [h3, h4]
        dsimp only
        rw [if_neg (by rcases h.type with e | e <;> simp [e])]
        rcases h.type with e | e
        · simp only [e, if_neg hns0]
        · simp only [e]
    · refine ⟨c.base, by unfold resolveDataParts; rw [h1], hc.labels, h1, h2, rfl, c.base, by unfold resolveType; rw [h3], h3, hc.labels, h1, h2, rfl⟩
  obtain ⟨b, hb, hb1, hb2, hb3, hb4, b', hb', k1, k2, k3, k4, k5⟩ := hdata
  have hinv : ∀ rows, PartsInv st names time date ti di ⟨{ b' with rows := rows }, ti.map Int.ofNat, di.map Int.ofNat⟩ := by
    intro rows
    exact ⟨k2, hkt, hkd, .inr ⟨k3, k4, k1⟩⟩
  have hinv0 : PartsInv st names time date ti di ⟨c.base, ti.map Int.ofNat, di.map Int.ofNat⟩ := ⟨hc.labels, hkt, hkd, hc.state⟩
  have hrow : rowData cd fields (some names) .dict (partsIdx names ti di) = (rowDict cd fields names (partsIdx names ti di) []).map .dict := rfl
  rw [hline]
  unfold partsGood
  rcases hto : partsStamp sp (partsFormat time date tf df) fields ti di with _ | t
  · dsimp only
    unfold badLine
    by_cases hsk : cf.skipErrors = true
    · rw [if_pos hsk, if_pos hsk]
      exact ⟨_, rfl, hinv0, rfl⟩
    · rw [if_neg hsk, if_neg hsk]; rfl
  · dsimp only
    rw [hb]
    dsimp only
    unfold finishRow
    rw [hb']
    dsimp only
    rw [k1, k2, k3]
    simp only [Option.getD_some]
    cases hrd : rowDict cd fields names (partsIdx names ti di) [] with
    | error e =>
      have hca : caughtRow e = true := rowDict_error cd fields names _ _ e hrd
      rw [hrow, hrd]
      simp only [Except.map, Except.toOption, hca, if_true]
      unfold badLine
      by_cases hsk : cf.skipErrors = true
      · rw [if_pos hsk, if_pos hsk]
        refine ⟨_, rfl, ?_, k5⟩
        have := hinv b'.rows
        exact this
      · rw [if_neg hsk, if_neg hsk]; rfl
    | ok d =>
      rw [hrow, hrd]
      simp only [Except.map, Except.toOption]
      exact ⟨_, rfl, ⟨rfl, hkt, hkd, .inr ⟨rfl, k4, rfl⟩⟩, by rw [k5]⟩

/-- a header, in any mode -/
theorem modeStep_header (cd : Codec) (sp : Text → Text → Option ℚ) (cf : CsvConf) (sel : Sel) (m : TimeMode) (line : Text) (names : List String)
    (h : IsHeader cd cf line names) (st : CsvState) :
    modeStep cd sp cf sel m line { base := { st := st } } = .ok { base := { st := st, cols := List.range names.length, labels := some names } } := by
  cases line with
  | nil => have := h.used; simp [ignoredLine] at this
  | cons a r =>
    have hu := h.used
    simp only [ignoredLine, Bool.or_eq_false_iff, decide_eq_false_iff_not, not_not] at hu
    simp only [modeStep, if_neg hu.1]
    rw [if_neg (not_not.2 hu.2), if_true]
    obtain ⟨v, hv, hc⟩ := h.text
    rw [if_pos (by rw [List.any_eq_true]; exact ⟨v, hv, by simp [hc]⟩), columnIndexes_all h.names, columnLabels_all h.names]

theorem modeLines_header (cd : Codec) (sp : Text → Text → Option ℚ) (cf : CsvConf) (sel : Sel) (m : TimeMode) (limit : Option ℕ) (pre : List Text)
    (header : Text) (names : List String) (lines : List Text) (hpre : ∀ l ∈ pre, ignoredLine cf l = true) (h : IsHeader cd cf header names) (st : CsvState) :
    modeLines cd sp cf sel m limit (pre ++ header :: lines) { base := { st := st } } =
      modeLines cd sp cf sel m limit lines { base := { st := st, cols := List.range names.length, labels := some names } } := by
  induction pre with
  | nil =>
    simp only [List.nil_append, modeLines, modeStep_header cd sp cf sel m header names h st]
    rw [if_neg (by simp)]
  | cons p q ih =>
    simp only [List.cons_append, modeLines, modeStep_ignored cd sp cf sel m p _ (hpre p (by simp))]
    rw [if_neg (by simp)]
    exact ih (fun l hl => hpre l (by simp [hl]))

open Classical in
/-- the lines with a row -/
noncomputable def partsLines (cd : Codec) (sp : Text → Text → Option ℚ) (cf : CsvConf) (tf df : Text) (names : List String) (ti di : Option ℕ)
    (lines : List Text) : List Text :=
  lines.filter (fun l => decide (ignoredLine cf l = false ∧ ∃ t d, PartsRow cd sp tf df names ti di (splitSep cf.sep l) t d))

theorem filterMap_forall₂ {α β : Type} (g : α → Option β) (p : α → Prop) [DecidablePred p] (R : α → β → Prop) : ∀ (l : List α),
    (∀ x ∈ l, (p x → ∃ y, g x = some y ∧ R x y) ∧ (¬ p x → g x = none)) →
    List.Forall₂ R (l.filter (fun x => decide (p x))) (l.filterMap g)
  | [], _ => by simp
  | x :: r, h => by
    have ih := filterMap_forall₂ g p R r (fun y hy => h y (by simp [hy]))
    by_cases hx : p x
    · obtain ⟨y, hy, hR⟩ := (h x (by simp)).1 hx
      simpa [hx, hy] using ⟨hR, ih⟩
    · simpa [hx, (h x (by simp)).2 hx] using ih

/-- **C283 (the rows)**: a file with a header (after any comments) and columns for the date, the time or both gives, with all the columns as data, one row for
each line with a readable time and readable values, in order: its time is the one in the columns of date and time, and its data are the other columns
under their labels.  The other lines are dropped if errors are skipped; the limit and the sorting are as for a timestamp column. -/
theorem C283_rows {cd : Codec} {sp : Text → Text → Option ℚ} {cf : CsvConf} {st : CsvState} {names : List String} {time date : Option ColRef}
    {ti di : Option ℕ} (h : PartsSettings cf st names time date ti di) (tf df : Text) (limit : Option ℕ) (pre : List Text) (header : Text)
    (lines : List Text) (hpre : ∀ l ∈ pre, ignoredLine cf l = true) (hh : IsHeader cd cf header names)
    (hf : ∀ l ∈ lines, ignoredLine cf l = false → ∀ i, ti = some i ∨ di = some i → i < (splitSep cf.sep l).length)
    (hsk : cf.skipErrors = true ∨ ∀ l ∈ lines, ignoredLine cf l = false → ∃ t d, PartsRow cd sp tf df names ti di (splitSep cf.sep l) t d) :
    ∃ rows, List.Forall₂ (fun l (r : Row) => ∃ d, r.data = .dict d ∧ PartsRow cd sp tf df names ti di (splitSep cf.sep l) r.t d)
        (partsLines cd sp cf tf df names ti di lines) rows ∧
      (if limited limit rows = [] then modeRows cd sp cf (.parts time date tf df) st .all limit (pre ++ header :: lines) = .error .exception
       else ∃ st', modeRows cd sp cf (.parts time date tf df) st .all limit (pre ++ header :: lines) =
        .ok (if cf.sort then (limited limit rows).insertionSort (fun a b => a.t ≤ b.t) else limited limit rows, st')) := by
  classical
  let good : Text → Option Row := fun l =>
    if ignoredLine cf l then none else partsGood cd sp (partsFormat time date tf df) names ti di (splitSep cf.sep l)
  have hinit : PartsInv st names time date ti di { base := { st := st, cols := List.range names.length, labels := some names } } :=
    ⟨rfl, resolvePart_pos h.time, resolvePart_pos h.date, .inl ⟨rfl, rfl, rfl, rfl, rfl⟩⟩
  have hne : List.range names.length ≠ [] := by
    obtain ⟨j, hj, _⟩ := h.data
    intro h0
    have h2 := congrArg List.length h0
    rw [List.length_range, List.length_nil] at h2
    omega
  have hstep : ∀ l ∈ lines, ∀ c, PartsInv st names time date ti di c → ∃ c', modeStep cd sp cf .all (.parts time date tf df) l c = .ok c' ∧
      PartsInv st names time date ti di c' ∧ c'.base.rows = c.base.rows ++ (good l).toList := by
    intro l hl c hc
    cases hi : ignoredLine cf l with
    | true => exact ⟨c, modeStep_ignored cd sp cf _ _ l c hi, hc, by simp [good, hi]⟩
    | false =>
      have hcols : c.base.cols ≠ [] := by
        rcases hc.state with ⟨_, h2, _⟩ | ⟨_, h2, _⟩
        · rw [h2]; exact hne
        · rw [h2]; exact partsIdx_ne h
      rw [modeStep_data cd sp cf _ _ l c hi hcols]
      have := partsLine_step (cd := cd) (sp := sp) h tf df (hf l hl hi) hc
      have hg : good l = partsGood cd sp (partsFormat time date tf df) names ti di (splitSep cf.sep l) := by simp [good, hi]
      rw [hg]
      cases hp : partsGood cd sp (partsFormat time date tf df) names ti di (splitSep cf.sep l) with
      | some r =>
        rw [hp] at this
        obtain ⟨c', e, hI, hr⟩ := this
        exact ⟨c', e, hI, by rw [hr]; rfl⟩
      | none =>
        rw [hp] at this
        dsimp only at this
        have hskip : cf.skipErrors = true := by
          rcases hsk with hs | hs
          · exact hs
          · obtain ⟨t, d, hrow⟩ := hs l hl hi
            have := (partsGood_iff (cd := cd) (sp := sp) h (tf := tf) (df := df) (hf l hl hi) { t := t, data := .dict d }).mpr ⟨d, rfl, hrow⟩
            rw [hp] at this; cases this
        rw [if_pos hskip] at this
        obtain ⟨c', e, hI, hr⟩ := this
        exact ⟨c', e, hI, by rw [hr]; simp⟩
  obtain ⟨c', e, _, hr⟩ := modeLines_inv (limit := limit) _ good lines _ hinit hstep (by cases limit <;> simp [limitReached])
  refine ⟨lines.filterMap good, ?_, ?_⟩
  · unfold partsLines
    apply filterMap_forall₂
    intro l hl
    constructor
    · rintro ⟨hi, t, d, hrow⟩
      have := (partsGood_iff (cd := cd) (sp := sp) h (tf := tf) (df := df) (hf l hl hi) { t := t, data := .dict d }).mpr ⟨d, rfl, hrow⟩
      exact ⟨{ t := t, data := .dict d }, by simp [good, hi, this], d, rfl, hrow⟩
    · intro hn
      cases hi : ignoredLine cf l with
      | true => simp [good, hi]
      | false =>
        cases hp : partsGood cd sp (partsFormat time date tf df) names ti di (splitSep cf.sep l) with
        | none => simp [good, hi, hp]
        | some r =>
          obtain ⟨d, _, hrow⟩ := (partsGood_iff (cd := cd) (sp := sp) h (tf := tf) (df := df) (hf l hl hi) r).mp hp
          exact absurd ⟨hi, r.t, d, hrow⟩ hn
  · have hr' : c'.base.rows = limited limit (lines.filterMap good) := by
      rw [hr]
      simp only [List.nil_append, List.length_nil]
      exact room_zero limit _
    have hmain : modeRows cd sp cf (.parts time date tf df) st .all limit (pre ++ header :: lines) =
        if c'.base.rows = [] then .error .exception
        else .ok (if cf.sort then c'.base.rows.insertionSort (fun a b => a.t ≤ b.t) else c'.base.rows, c'.base.st) := by
      unfold modeRows
      have : pickSel cf .all = .all := h.all
      rw [this, modeLines_header cd sp cf .all _ limit pre header names lines hpre hh st, e]
    rw [hmain, hr']
    split
    · rfl
    · exact ⟨_, rfl⟩

/-- the lines one after the other -/
theorem modeLines_append {cd : Codec} {sp : Text → Text → Option ℚ} {cf : CsvConf} {sel : Sel} {m : TimeMode} : ∀ (a b : List Text) (c : TimeLoad),
    modeLines cd sp cf sel m none (a ++ b) c = match modeLines cd sp cf sel m none a c with
      | .error e => .error e
      | .ok c' => modeLines cd sp cf sel m none b c'
  | [], b, c => rfl
  | l :: r, b, c => by
    simp only [List.cons_append, modeLines]
    cases modeStep cd sp cf sel m l c with
    | error e => rfl
    | ok c' =>
      simp only [limitReached, Bool.false_eq_true, and_false, if_false]
      exact modeLines_append r b c'

open Classical in
/-- **C283 (malformed lines)**: without skipping errors, the first line without a row ends the reading: `ValueError` if the time cannot be read, the
generic exception if a value cannot. -/
theorem C283_raises {cd : Codec} {sp : Text → Text → Option ℚ} {cf : CsvConf} {st : CsvState} {names : List String} {time date : Option ColRef}
    {ti di : Option ℕ} (h : PartsSettings cf st names time date ti di) (hno : cf.skipErrors = false) (tf df : Text) (pre : List Text) (header : Text)
    (a : List Text) (l : Text) (r : List Text) (hpre : ∀ x ∈ pre, ignoredLine cf x = true) (hh : IsHeader cd cf header names)
    (hf : ∀ x ∈ a ++ [l], ignoredLine cf x = false → ∀ i, ti = some i ∨ di = some i → i < (splitSep cf.sep x).length)
    (ha : ∀ x ∈ a, ignoredLine cf x = false → ∃ t d, PartsRow cd sp tf df names ti di (splitSep cf.sep x) t d)
    (hl : ignoredLine cf l = false) (hm : ¬ ∃ t d, PartsRow cd sp tf df names ti di (splitSep cf.sep l) t d) :
    modeRows cd sp cf (.parts time date tf df) st .all none (pre ++ header :: (a ++ l :: r)) =
      .error (if ∃ f w t, StampFormat tf df ti di f ∧ StampText (splitSep cf.sep l) ti di w ∧ sp f w = some t then .exception else .valueError) := by
  let good : Text → Option Row := fun l =>
    if ignoredLine cf l then none else partsGood cd sp (partsFormat time date tf df) names ti di (splitSep cf.sep l)
  have hinit : PartsInv st names time date ti di { base := { st := st, cols := List.range names.length, labels := some names } } :=
    ⟨rfl, resolvePart_pos h.time, resolvePart_pos h.date, .inl ⟨rfl, rfl, rfl, rfl, rfl⟩⟩
  have hne : List.range names.length ≠ [] := by
    obtain ⟨j, hj, _⟩ := h.data
    intro h0
    have h2 := congrArg List.length h0
    rw [List.length_range, List.length_nil] at h2
    omega
  have hcols : ∀ {c : TimeLoad}, PartsInv st names time date ti di c → c.base.cols ≠ [] := by
    intro c hc
    rcases hc.state with ⟨_, h2, _⟩ | ⟨_, h2, _⟩
    · rw [h2]; exact hne
    · rw [h2]; exact partsIdx_ne h
  have hstep : ∀ l ∈ a, ∀ c, PartsInv st names time date ti di c → ∃ c', modeStep cd sp cf .all (.parts time date tf df) l c = .ok c' ∧
      PartsInv st names time date ti di c' ∧ c'.base.rows = c.base.rows ++ (good l).toList := by
    intro l hl c hc
    cases hi : ignoredLine cf l with
    | true => exact ⟨c, modeStep_ignored cd sp cf _ _ l c hi, hc, by simp [good, hi]⟩
    | false =>
      rw [modeStep_data cd sp cf _ _ l c hi (hcols hc)]
      have hfl := hf l (by simp [hl]) hi
      have := partsLine_step (cd := cd) (sp := sp) h tf df hfl hc
      obtain ⟨t, d, hrow⟩ := ha l hl hi
      have hp := (partsGood_iff (cd := cd) (sp := sp) h (tf := tf) (df := df) hfl { t := t, data := .dict d }).mpr ⟨d, rfl, hrow⟩
      rw [hp] at this
      obtain ⟨c', e, hI, hr⟩ := this
      exact ⟨c', e, hI, by rw [hr]; simp [good, hi, hp]⟩
  obtain ⟨c', e, hI, _⟩ := modeLines_inv (limit := none) _ good a _ hinit hstep rfl
  have hfl := hf l (by simp) hl
  have hlast := partsLine_step (cd := cd) (sp := sp) h tf df hfl hI
  have hp : partsGood cd sp (partsFormat time date tf df) names ti di (splitSep cf.sep l) = none := by
    cases hp : partsGood cd sp (partsFormat time date tf df) names ti di (splitSep cf.sep l) with
    | none => rfl
    | some r =>
      obtain ⟨d, _, hrow⟩ := (partsGood_iff (cd := cd) (sp := sp) h (tf := tf) (df := df) hfl r).mp hp
      exact absurd ⟨r.t, d, hrow⟩ hm
  rw [hp] at hlast
  dsimp only at hlast
  rw [if_neg (by simp [hno])] at hlast
  have hst : (∃ f w t, StampFormat tf df ti di f ∧ StampText (splitSep cf.sep l) ti di w ∧ sp f w = some t) ↔
      ∃ t, partsStamp sp (partsFormat time date tf df) (splitSep cf.sep l) ti di = some t := by
    have hfmt : ∀ f, StampFormat tf df ti di f ↔ f = partsFormat time date tf df := by
      intro f
      have h1 := h.time
      have h2 := h.date
      have h3 := h.given
      clear * - h1 h2 h3
      cases ti <;> cases di <;> cases time <;> cases date <;> simp [partsFormat] at h1 h2 h3 ⊢
      all_goals constructor
      all_goals first | (intro hx; cases hx; rfl) | (rintro rfl; constructor)
    unfold partsStamp
    constructor
    · rintro ⟨f, w, t, hf', hw, ht⟩
      rw [(hfmt f).mp hf'] at ht
      exact ⟨t, Option.bind_eq_some_iff.mpr ⟨w, (stampText_iff h.given hfl w).mpr hw, ht⟩⟩
    · rintro ⟨t, ht⟩
      obtain ⟨w, hw, ht⟩ := Option.bind_eq_some_iff.mp ht
      exact ⟨_, w, t, (hfmt _).mpr rfl, (stampText_iff h.given hfl w).mp hw, ht⟩
  unfold modeRows
  have hall : pickSel cf .all = .all := h.all
  rw [hall, modeLines_header cd sp cf .all _ none pre header names _ hpre hh st, modeLines_append, e]
  simp only [modeLines]
  rw [modeStep_data cd sp cf _ _ l c' hl (hcols hI)]
  rw [show modeLine cd sp cf .all (.parts time date tf df) (splitSep cf.sep l) c' = partsLine cd sp cf .all time date tf df (splitSep cf.sep l) c' from rfl, hlast]
  dsimp only
  congr 1
  by_cases hs : ∃ f w t, StampFormat tf df ti di f ∧ StampText (splitSep cf.sep l) ti di w ∧ sp f w = some t
  · rw [if_pos hs]
    obtain ⟨t, ht⟩ := hst.mp hs
    rw [ht]; rfl
  · rw [if_neg hs]
    cases ht : partsStamp sp (partsFormat time date tf df) (splitSep cf.sep l) ti di with
    | none => rfl
    | some t => exact absurd (hst.mpr ⟨t, ht⟩) hs

/-- **C283 (no such column)**: a column of the time or of the date asked for by a label which the header does not have ends the reading with the generic
exception at the first line; without a header, with `TypeError`. -/
theorem C283_no_column {cd : Codec} {sp : Text → Text → Option ℚ} {cf : CsvConf} {sel : Sel} {k : String} {date : Option ColRef} {tf df : Text}
    {fields : List Text} {c : TimeLoad} (hi : c.timeIdx = none) :
    (∀ names, c.base.labels = some names → k ∉ names → partsLine cd sp cf sel (some (.label k)) date tf df fields c = .error .exception) ∧
    (c.base.labels = none → partsLine cd sp cf sel (some (.label k)) date tf df fields c = .error .typeError) := by
  constructor
  · intro names hn hk
    unfold partsLine resolvePart findCol indexIn
    rw [hi, hn]
    simp [hk, Except.map]
  · intro hn
    unfold partsLine resolvePart findCol
    rw [hi, hn]
    simp [Except.map]

/-! ## A file with date and time -/

/-- days of January 1970 and hours: a parser for the format `%d` and `%H`, one digit each -/
def sampleStrptime (fmt w : Text) : Option ℚ :=
  match fmt, w with
  | ['%', 'd', '\t', '%', 'H'], [d, '\t', h] => some (((d.toNat - 49 : ℕ) : ℚ) * 86400 + ((h.toNat - 48 : ℕ) : ℚ) * 3600)
  | ['%', 'd'], [d] => some (((d.toNat - 49 : ℕ) : ℚ) * 86400)
  | ['d', '%', 'd'], ['d', d] => some (((d.toNat - 49 : ℕ) : ℚ) * 86400)
  | _, _ => none

def partsNames : List String := ["day", "a", "hour"]
def partsHeader : Text := "day,a,hour\n".toList
def partsFile : List Text := ["1,+5e1,7\n".toList, "# note\n".toList, "2,+6e1,x9\n".toList, "2,+7e1, \"9\" \n".toList]

example : PartsSettings sampleConf {} partsNames (some (.label "hour")) (some (.num 0)) (some 2) (some 0) :=
  ⟨rfl, by decide, by decide, by decide, by rintro i (h | h) <;> cases h <;> decide, by decide, ⟨1, by decide, by decide, by decide⟩, .inl rfl, by decide⟩

example : IsHeader sampleCodec sampleConf partsHeader partsNames := ⟨by decide +kernel, by decide +kernel, by decide +kernel⟩

example : (modeRows sampleCodec sampleStrptime sampleConf (.parts (some (.label "hour")) (some (.num 0)) "%H".toList "%d".toList) {} .all none
    (partsHeader :: partsFile)).toOption.map Prod.fst =
    some [{ t := 25200, data := .dict [("a", some 5)] }, { t := 118800, data := .dict [("a", some 7)] }] := by decide +kernel

example : getError (modeRows sampleCodec sampleStrptime {} (.parts (some (.label "hour")) (some (.num 0)) "%H".toList "%d".toList) {} .all none
    (partsHeader :: partsFile)) = some .valueError := by decide +kernel

/-- **C97 is false** also for these columns: a line without the column of the time is fatal even if errors are skipped. -/
theorem C97_parts_false : getError (modeRows sampleCodec sampleStrptime sampleConf (.parts (some (.label "hour")) (some (.num 0)) "%H".toList "%d".toList)
    {} .all none (partsHeader :: partsFile ++ ["3,+1e1\n".toList])) = some .indexError := by decide +kernel

/-! ## C284: the constructor -/

/-- **C284 is false**: a column of the time given by its number, if this is zero, is not seen to be in conflict with a timestamp column, which is silently
forgotten; -/
theorem C284_conflict_false : (csvInit { stamp := .text "when", stampFmt := some "epoch".toList, time := .num 0, timeFmt := "%H".toList }).toOption =
    some ⟨.none, none, .num 0, "%H".toList, .none, []⟩ := by decide

/-- **C284 is false**: and a storage with no column for the time at all is accepted. -/
theorem C284_nothing_false : (csvInit { stamp := .none }).toOption = some ⟨.none, some "auto".toList, .none, [], .none, []⟩ := by decide

/-- **C284, partial**: a timestamp column together with a column of the time or of the date is refused, unless the latter are numbers equal to zero (or empty
texts); so is a column of the time or of the date without its format, or which is neither a number nor a text; always with `ValueError`.  Missing:
`C284_conflict_false`, `C284_nothing_false`. -/
theorem C284_refused_partial (a : CsvInitArgs) :
    (a.stamp ≠ .text "auto" → a.time.truthy = true ∨ a.date.truthy = true → csvInit a = .error .valueError) ∧
    (a.time ≠ .none → a.timeFmt = [] → csvInit a = .error .valueError) ∧
    (a.date ≠ .none → a.dateFmt = [] → csvInit a = .error .valueError) ∧
    (∀ b, a.stamp = .other b ∨ a.time = .other b ∨ a.date = .other b → csvInit a = .error .valueError) ∧
    (a.labelsAll = false → a.labelsList = false → csvInit a = .error .valueError) := by
  have key : ∀ c f p e, checkPart c f p = .error e → e = .valueError := by
    intro c f p e h
    unfold checkPart at h
    split at h
    · cases h
    split at h
    · cases h; rfl
    split at h
    · cases h; rfl
    · cases h
  have kerr : ∀ e, csvInit a = .error e → e = .valueError := by
    intro e h
    unfold csvInit at h
    split at h
    · cases h; rfl
    split at h
    · cases h; rfl
    split at h
    · cases h; rfl
    split at h
    · rename_i e' he
      cases h
      exact key _ _ _ _ he
    split at h
    · rename_i e' he
      cases h
      exact key _ _ _ _ he
    split at h
    · cases h; rfl
    · cases h
  have kok : (∀ s, csvInit a ≠ .ok s) → csvInit a = .error .valueError := by
    intro h
    cases hc : csvInit a with
    | ok s => exact absurd hc (h s)
    | error e => rw [kerr e hc]
  have acc : ∀ s, csvInit a = .ok s → ¬ (a.stamp ≠ .text "auto" ∧ (a.time.truthy || a.date.truthy) = true) ∧ ¬ (a.stamp ≠ .none ∧ !a.stamp.known) ∧
      (a.time ≠ .none → a.time.known = true ∧ a.timeFmt ≠ []) ∧ (a.date ≠ .none → a.date.known = true ∧ a.dateFmt ≠ []) ∧
      ¬ ((!a.labelsAll && !a.labelsList) = true) := by
    have good : ∀ c f p p', checkPart c f p = .ok p' → c ≠ .none → c.known = true ∧ f ≠ [] := by
      intro c f p p' h hc
      unfold checkPart at h
      rw [if_neg hc] at h
      split at h
      · cases h
      split at h
      · cases h
      · rename_i h1 h2
        exact ⟨by simpa using h1, h2⟩
    intro s h
    unfold csvInit at h
    split at h
    · cases h
    split at h
    · cases h
    rename_i h1
    split at h
    · cases h
    rename_i h2
    split at h
    · cases h
    rename_i p hp
    split at h
    · cases h
    rename_i p' hp'
    split at h
    · cases h
    rename_i h5
    exact ⟨h1, h2, good _ _ _ _ hp, good _ _ _ _ hp', h5⟩
  refine ⟨?_, ?_, ?_, ?_, ?_⟩
  · intro h1 h2
    exact kok (fun s hs => (acc s hs).1 ⟨h1, by simpa using h2⟩)
  · intro h1 h2
    exact kok (fun s hs => ((acc s hs).2.2.1 h1).2 h2)
  · intro h1 h2
    exact kok (fun s hs => ((acc s hs).2.2.2.1 h1).2 h2)
  · intro b h
    refine kok (fun s hs => ?_)
    obtain ⟨_, h2, h3, h4, _⟩ := acc s hs
    rcases h with h | h | h
    · exact h2 (by simp [h, ColArg.known])
    · have := (h3 (by simp [h])).1
      simp [h, ColArg.known] at this
    · have := (h4 (by simp [h])).1
      simp [h, ColArg.known] at this
  · intro h1 h2
    exact kok (fun s hs => (acc s hs).2.2.2.2 (by simp [h1, h2]))

/-- **C284, partial**: a storage which is accepted reads the time either from a timestamp column or from columns of time and date: giving one of the latter
drops the former.  The columns and the formats are those given. -/
theorem C284_one_way_partial {a : CsvInitArgs} {s : CsvTimeAttrs} (h : csvInit a = .ok s) :
    s.time = a.time ∧ s.date = a.date ∧ s.timeFmt = a.timeFmt ∧ s.dateFmt = a.dateFmt ∧
    (a.time ≠ .none ∨ a.date ≠ .none → s.stamp = .none ∧ s.stampFmt = none) ∧
    (a.time = .none → a.date = .none → s.stamp = a.stamp ∧ s.stampFmt = a.stampFmt) ∧
    (s.time ≠ .none → s.time.known = true ∧ s.timeFmt ≠ []) ∧ (s.date ≠ .none → s.date.known = true ∧ s.dateFmt ≠ []) := by
  unfold csvInit checkPart at h
  split at h
  · cases h
  split at h
  · cases h
  split at h
  · cases h
  by_cases ht : a.time = .none
  · rw [if_pos ht] at h
    dsimp only at h
    by_cases hd : a.date = .none
    · rw [if_pos hd] at h
      dsimp only at h
      split at h
      · cases h
      · cases h; simp [ht, hd]
    · rw [if_neg hd] at h
      by_cases hk : a.date.known = true
      · rw [if_neg (by simp [hk])] at h
        by_cases hf : a.dateFmt = []
        · rw [if_pos hf] at h; cases h
        · rw [if_neg hf] at h
          dsimp only at h
          split at h
          · cases h
          · cases h; simp [ht, hd, hk, hf]
      · rw [if_pos (by simpa using hk)] at h; cases h
  · rw [if_neg ht] at h
    by_cases hkt : a.time.known = true
    · rw [if_neg (by simp [hkt])] at h
      by_cases hft : a.timeFmt = []
      · rw [if_pos hft] at h; cases h
      · rw [if_neg hft] at h
        dsimp only at h
        by_cases hd : a.date = .none
        · rw [if_pos hd] at h
          dsimp only at h
          split at h
          · cases h
          · cases h; simp [ht, hd, hkt, hft]
        · rw [if_neg hd] at h
          by_cases hk : a.date.known = true
          · rw [if_neg (by simp [hk])] at h
            by_cases hf : a.dateFmt = []
            · rw [if_pos hf] at h; cases h
            · rw [if_neg hf] at h
              dsimp only at h
              split at h
              · cases h
              · cases h; simp [ht, hd, hk, hf, hkt, hft]
          · rw [if_pos (by simpa using hk)] at h; cases h
    · rw [if_pos (by simpa using hkt)] at h; cases h

/-- **C284, partial** (exactly): the constructor accepts its arguments in these cases, and in no other.  Missing: `C284_conflict_false` and `C284_nothing_false`, cases accepted against the messages of the checks. -/
theorem C284_accepts_partial (a : CsvInitArgs) : (∃ s, csvInit a = .ok s) ↔
    ¬ (a.stamp = .none ∧ a.time = .none ∧ a.date = .none ∧ a.labelsEmpty = true) ∧
    (a.stamp = .text "auto" ∨ a.time.truthy = false ∧ a.date.truthy = false) ∧
    (a.stamp = .none ∨ a.stamp.known = true) ∧
    (a.time = .none ∨ a.time.known = true ∧ a.timeFmt ≠ []) ∧
    (a.date = .none ∨ a.date.known = true ∧ a.dateFmt ≠ []) ∧
    (a.labelsAll = true ∨ a.labelsList = true) := by
  have kp : ∀ col fmt p, (∃ q, checkPart col fmt p = .ok q) ↔ (col = .none ∨ col.known = true ∧ fmt ≠ []) := by
    intro col fmt p
    unfold checkPart
    by_cases h1 : col = .none
    · rw [if_pos h1]; simp [h1]
    · rw [if_neg h1]
      cases h2 : col.known with
      | false => simp [h1]
      | true =>
        by_cases h3 : fmt = []
        · simp [h1, h3]
        · simp [h1, h3]
  have kq : ∀ col fmt p, (∃ e, checkPart col fmt p = .error e) ∨ ∃ q, checkPart col fmt p = .ok q := by
    intro col fmt p
    cases checkPart col fmt p with
    | error e => exact .inl ⟨e, rfl⟩
    | ok q => exact .inr ⟨q, rfl⟩
  unfold csvInit
  by_cases h1 : a.stamp = .none ∧ a.time = .none ∧ a.date = .none ∧ a.labelsEmpty = true
  · rw [if_pos h1]
    exact ⟨fun ⟨s, h⟩ => by simp at h, fun h => absurd h1 h.1⟩
  rw [if_neg h1]
  by_cases h2 : a.stamp ≠ .text "auto" ∧ (a.time.truthy || a.date.truthy) = true
  · rw [if_pos h2]
    refine ⟨fun ⟨s, h⟩ => by simp at h, fun h => ?_⟩
    rcases h.2.1 with h | ⟨h, h'⟩
    · exact absurd h h2.1
    · rw [h, h'] at h2; simp at h2
  rw [if_neg h2]
  by_cases h3 : a.stamp ≠ .none ∧ (!a.stamp.known) = true
  · rw [if_pos h3]
    refine ⟨fun ⟨s, h⟩ => by simp at h, fun h => ?_⟩
    rcases h.2.2.1 with h | h
    · exact absurd h h3.1
    · rw [h] at h3; simp at h3
  rw [if_neg h3]
  have h2' : a.stamp = .text "auto" ∨ a.time.truthy = false ∧ a.date.truthy = false := by
    by_cases h : a.stamp = .text "auto"
    · exact .inl h
    · right
      cases ht : a.time.truthy <;> cases hd : a.date.truthy <;> simp [h, ht, hd] at h2 ⊢
  have h3' : a.stamp = .none ∨ a.stamp.known = true := by
    by_cases h : a.stamp = .none
    · exact .inl h
    · right
      cases hk : a.stamp.known with
      | true => rfl
      | false => simp [h, hk] at h3
  rcases kq a.time a.timeFmt (a.stamp, a.stampFmt) with ⟨e, he⟩ | ⟨q, hq⟩
  · rw [he]
    refine ⟨fun ⟨s, h⟩ => by simp at h, fun h => ?_⟩
    obtain ⟨q, hq⟩ := (kp a.time a.timeFmt (a.stamp, a.stampFmt)).2 h.2.2.2.1
    rw [he] at hq
    cases hq
  rw [hq]
  dsimp only
  have h4 := (kp _ _ _).1 ⟨q, hq⟩
  rcases kq a.date a.dateFmt q with ⟨e, he⟩ | ⟨r, hr⟩
  · rw [he]
    refine ⟨fun ⟨s, h⟩ => by simp at h, fun h => ?_⟩
    obtain ⟨r, hr⟩ := (kp a.date a.dateFmt q).2 h.2.2.2.2.1
    rw [he] at hr
    cases hr
  rw [hr]
  dsimp only
  have h5 := (kp _ _ _).1 ⟨r, hr⟩
  cases h6 : a.labelsAll <;> cases h7 : a.labelsList
  · refine ⟨fun ⟨s, h⟩ => by simp at h, fun h => ?_⟩
    have := h.2.2.2.2.2
    simp at this
  all_goals exact ⟨fun _ => ⟨h1, h2', h3', h4, h5, by simp⟩, fun _ => ⟨_, rfl⟩⟩

example : (csvInit { time := .text "hour", timeFmt := "%H".toList, date := .num 0, dateFmt := "%d".toList }).toOption =
    some ⟨.none, none, .text "hour", "%H".toList, .num 0, "%d".toList⟩ := by decide

/-! ## C285: reading twice -/

/-- the same variables, with other attributes of the storage -/
def LoadState.re (c : LoadState) (F : CsvState) : LoadState := { c with st := F }

/-- attributes which a later moment of the reading may have -/
structure Later (c : LoadState) (F : CsvState) : Prop where
  col : c.tsIdx ≠ none → F.tsCol = c.st.tsCol
  fmt : c.st.tsFormat ≠ .auto → F.tsFormat = c.st.tsFormat
  type : c.dataIdx ≠ none → F.dataType = c.st.dataType

theorem Later.self (c : LoadState) : Later c c.st := ⟨fun _ => rfl, fun _ => rfl, fun _ => rfl⟩

theorem resolveTs_again {c c' : LoadState} (h : resolveTs c = .ok c') {F : CsvState} (hF : Later c' F) :
    Later c F ∧ resolveTs (c.re F) = .ok (c'.re F) ∧ c'.rows = c.rows := by
  unfold resolveTs at h
  split at h
  · rename_i i hi
    cases h
    exact ⟨hF, by unfold resolveTs; simp [LoadState.re, hi], rfl⟩
  · rename_i hi
    split at h
    · rename_i hcol
      split at h
      · rename_i i hx
        cases h
        have hc := hF.col (by simp)
        dsimp only at hc
        refine ⟨⟨fun h => absurd hi h, hF.fmt, hF.type⟩, ?_, rfl⟩
        unfold resolveTs
        cases hl : c.labels with
        | none => rw [hl] at hx; simp [indexIn] at hx
        | some ls =>
          rw [hl] at hx
          simp only [Option.getD_some] at hx
          simp [LoadState.re, hi, hc, hl, hx]
      · rename_i hx
        split at h
        · rename_i i hy
          cases h
          have hc := hF.col (by simp)
          dsimp only at hc
          refine ⟨⟨fun h => absurd hi h, hF.fmt, hF.type⟩, ?_, rfl⟩
          unfold resolveTs
          cases hl : c.labels with
          | none => rw [hl] at hy; simp [indexIn] at hy
          | some ls =>
            rw [hl] at hy
            simp only [Option.getD_some] at hy
            simp [LoadState.re, hi, hc, hl, hy]
        · rename_i hy
          cases h
          have hc := hF.col (by simp)
          dsimp only at hc
          refine ⟨⟨fun h => absurd hi h, hF.fmt, hF.type⟩, ?_, rfl⟩
          unfold resolveTs
          simp [LoadState.re, hi, hc, hcol, hx, hy]
    · rename_i i hcol
      cases h
      have hc := hF.col (by simp)
      dsimp only at hc
      refine ⟨⟨fun h => absurd hi h, hF.fmt, hF.type⟩, ?_, rfl⟩
      unfold resolveTs
      simp [LoadState.re, hi, hc, hcol]
    · rename_i l hcol
      split at h
      · cases h
      · rename_i ls hl
        split at h
        · rename_i i hx
          cases h
          have hc := hF.col (by simp)
          dsimp only at hc
          refine ⟨⟨fun h => absurd hi h, hF.fmt, hF.type⟩, ?_, rfl⟩
          unfold resolveTs
          simp [LoadState.re, hi, hc, hcol, hl, hx]
        · cases h

theorem withNames_again {c c' : LoadState} {idx : List ℕ} (h : withNames c idx = .ok c') (F : CsvState) :
    withNames (c.re F) idx = .ok (c'.re F) ∧ c'.st = c.st ∧ c'.tsIdx = c.tsIdx ∧ c'.dataIdx ≠ none := by
  unfold withNames at h
  split at h
  · rename_i hl
    cases h
    exact ⟨by unfold withNames; simp [LoadState.re, hl], rfl, rfl, by simp⟩
  · rename_i l ls hl
    split at h
    · cases h
    · rename_i ns hn
      cases h
      exact ⟨by unfold withNames; simp [LoadState.re, hl, hn], rfl, rfl, by simp⟩

theorem resolveData_again {sel : Sel} {ts : ℕ} {c c' : LoadState} (h : resolveData sel ts c = .ok c') {F : CsvState} (hF : Later c' F) :
    Later c F ∧ resolveData sel ts (c.re F) = .ok (c'.re F) ∧ c'.dataIdx ≠ none := by
  unfold resolveData at h
  split at h
  · rename_i i hi
    cases h
    exact ⟨hF, by unfold resolveData; simp [LoadState.re, hi], by simp [hi]⟩
  · rename_i hi
    split at h
    · rename_i l
      obtain ⟨h1, h2, h3, h4⟩ := withNames_again h F
      have ht := hF.type h4
      rw [h2] at ht
      dsimp only at ht
      refine ⟨⟨fun hc => ?_, fun hc => ?_, fun hc => absurd hi hc⟩, ?_, h4⟩
      · have := hF.col (by rw [h3]; exact hc); rw [h2] at this; exact this
      · have := hF.fmt (by rw [h2]; exact hc); rw [h2] at this; exact this
      · obtain ⟨F1, F2, F3⟩ := F
        dsimp only at ht
        subst ht
        unfold resolveData
        rw [show (c.re ⟨F1, F2, some .list⟩).dataIdx = none from hi]
        rw [hi] at h1
        exact h1
    · rename_i l
      split at h
      · cases h
      · rename_i x xs hl
        split at h
        · cases h
        · rename_i is hp
          obtain ⟨h1, h2, h3, h4⟩ := withNames_again h F
          refine ⟨⟨fun hc => ?_, fun hc => ?_, fun hc => absurd hi hc⟩, ?_, h4⟩
          · have := hF.col (by rw [h3]; exact hc); rw [h2] at this; exact this
          · have := hF.fmt (by rw [h2]; exact hc); rw [h2] at this; exact this
          · unfold resolveData
            rw [show (c.re F).dataIdx = none from hi]
            dsimp only
            rw [show (c.re F).labels.getD [] = x :: xs from hl]
            dsimp only
            rw [hp]
            exact h1
    · split at h
      · rename_i hm
        obtain ⟨h1, h2, h3, h4⟩ := withNames_again h F
        refine ⟨⟨fun hc => ?_, fun hc => ?_, fun hc => absurd hi hc⟩, ?_, h4⟩
        · have := hF.col (by rw [h3]; exact hc); rw [h2] at this; exact this
        · have := hF.fmt (by rw [h2]; exact hc); rw [h2] at this; exact this
        · unfold resolveData
          rw [show (c.re F).dataIdx = none from hi]
          dsimp only
          rw [if_pos (show ts ∈ (c.re F).cols from hm)]
          exact h1
      · cases h

theorem resolveDataParts_again {sel : Sel} {ti di : Option Int} {c c' : LoadState} (h : resolveDataParts sel ti di c = .ok c') {F : CsvState}
    (hF : Later c' F) : Later c F ∧ resolveDataParts sel ti di (c.re F) = .ok (c'.re F) ∧ c'.dataIdx ≠ none := by
  unfold resolveDataParts at h
  split at h
  · rename_i i hi
    cases h
    exact ⟨hF, by unfold resolveDataParts; simp [LoadState.re, hi], by simp [hi]⟩
  · rename_i hi
    split at h
    · rename_i l
      obtain ⟨h1, h2, h3, h4⟩ := withNames_again h F
      have ht := hF.type h4
      rw [h2] at ht
      dsimp only at ht
      refine ⟨⟨fun hc => ?_, fun hc => ?_, fun hc => absurd hi hc⟩, ?_, h4⟩
      · have := hF.col (by rw [h3]; exact hc); rw [h2] at this; exact this
      · have := hF.fmt (by rw [h2]; exact hc); rw [h2] at this; exact this
      · obtain ⟨F1, F2, F3⟩ := F
        dsimp only at ht
        subst ht
        unfold resolveDataParts
        rw [show (c.re ⟨F1, F2, some .list⟩).dataIdx = none from hi]
        rw [hi] at h1
        exact h1
    · rename_i l
      split at h
      · cases h
      · rename_i x xs hl
        split at h
        · cases h
        · rename_i is hp
          obtain ⟨h1, h2, h3, h4⟩ := withNames_again h F
          refine ⟨⟨fun hc => ?_, fun hc => ?_, fun hc => absurd hi hc⟩, ?_, h4⟩
          · have := hF.col (by rw [h3]; exact hc); rw [h2] at this; exact this
          · have := hF.fmt (by rw [h2]; exact hc); rw [h2] at this; exact this
          · unfold resolveDataParts
            rw [show (c.re F).dataIdx = none from hi]
            dsimp only
            rw [show (c.re F).labels.getD [] = x :: xs from hl]
            dsimp only
            rw [hp]
            exact h1
    · split at h
      · cases h
      · rename_i l1 hl1
        split at h
        · cases h
        · rename_i l2 hl2
          obtain ⟨h1, h2, h3, h4⟩ := withNames_again h F
          refine ⟨⟨fun hc => ?_, fun hc => ?_, fun hc => absurd hi hc⟩, ?_, h4⟩
          · have := hF.col (by rw [h3]; exact hc); rw [h2] at this; exact this
          · have := hF.fmt (by rw [h2]; exact hc); rw [h2] at this; exact this
          · unfold resolveDataParts
            rw [show (c.re F).dataIdx = none from hi]
            dsimp only
            rw [show (c.re F).cols = c.cols from rfl, hl1]
            dsimp only
            rw [hl2]
            exact h1

theorem resolveType_again {c c' : LoadState} (h : resolveType c = .ok c') (hd : c.dataIdx ≠ none) {F : CsvState} (hF : Later c' F) :
    Later c F ∧ resolveType (c.re F) = .ok (c'.re F) := by
  unfold resolveType at h
  split at h
  · rename_i d hi
    cases h
    exact ⟨hF, by unfold resolveType; simp [LoadState.re, hi]⟩
  · rename_i hi
    split at h
    · cases h
    · rename_i hn
      split at h
      · rename_i d hdt
        cases h
        have ht : F.dataType = c.st.dataType := hF.type hd
        refine ⟨⟨hF.col, hF.fmt, hF.type⟩, ?_⟩
        unfold resolveType
        rw [show (c.re F).dtype = none from hi]
        dsimp only
        rw [show (c.re F).names = c.names from rfl, show (c.re F).st.dataType = c.st.dataType from ht, if_neg hn, hdt]
        rfl
      · rename_i hdt
        cases h
        have ht : F.dataType = c.st.dataType := hF.type hd
        refine ⟨⟨hF.col, hF.fmt, hF.type⟩, ?_⟩
        unfold resolveType
        rw [show (c.re F).dtype = none from hi]
        dsimp only
        rw [show (c.re F).names = c.names from rfl, show (c.re F).st.dataType = c.st.dataType from ht, if_neg hn, hdt]
        rfl

theorem finishRow_again {cd : Codec} {cf : CsvConf} {fields : List Text} {t : ℚ} {c c' : LoadState} (h : finishRow cd cf fields t c = .ok c')
    (hd : c.dataIdx ≠ none) {F : CsvState} (hF : Later c' F) : Later c F ∧ finishRow cd cf fields t (c.re F) = .ok (c'.re F) := by
  unfold finishRow at h
  split at h
  · cases h
  · rename_i c1 h1
    split at h
    · rename_i e he
      split at h
      · rename_i hc
        unfold badLine at h
        split at h
        · rename_i hs
          cases h
          obtain ⟨a, b⟩ := resolveType_again h1 hd hF
          refine ⟨a, ?_⟩
          unfold finishRow badLine
          rw [b]
          dsimp only [LoadState.re]
          rw [he]
          dsimp only
          rw [if_pos hc, if_pos hs]
        · cases h
      · cases h
    · rename_i d he
      cases h
      obtain ⟨a, b⟩ := resolveType_again h1 hd (F := F) ⟨hF.col, hF.fmt, hF.type⟩
      refine ⟨a, ?_⟩
      unfold finishRow
      rw [b]
      dsimp only [LoadState.re]
      rw [he]

theorem readStamp_again {cd : Codec} {f g : TsFormat} {v : Option Text} (hg : f ≠ .auto → g = f) :
    (readStamp cd f v = none → readStamp cd g v = none) ∧
    (∀ t f', readStamp cd f v = some (t, f') → f' ≠ .auto ∧ (g = f' → readStamp cd g v = some (t, f'))) := by
  cases v with
  | none => simp [readStamp]
  | some s =>
    cases f with
    | epoch => cases hg (by simp); simp [readStamp]
    | iso => cases hg (by simp); simp [readStamp]
    | auto =>
      clear hg
      cases hp : cd.parse s with
      | some t => cases g <;> simp [readStamp, hp]
      | none =>
        cases hq : cd.stamp s with
        | none => cases g <;> simp [readStamp, hp, hq]
        | some t => cases g <;> simp [readStamp, hp, hq]

theorem dataLine_again {cd : Codec} {cf : CsvConf} {sel : Sel} {fields : List Text} {c c' : LoadState} (h : dataLine cd cf sel fields c = .ok c')
    {F : CsvState} (hF : Later c' F) : Later c F ∧ dataLine cd cf sel fields (c.re F) = .ok (c'.re F) := by
  have hsplit : ∀ c : LoadState, dataLine cd cf sel fields c = match resolveTs c with
      | .error e => .error e
      | .ok c =>
        match fields[c.tsIdx.getD 0]? with
        | none => .error .indexError
        | some v =>
          match readStamp cd c.st.tsFormat (sanitize ph v) with
          | none => badLine cf.skipErrors .valueError c
          | some (t, f) =>
            match resolveData sel (c.tsIdx.getD 0) { c with st := { c.st with tsFormat := f } } with
            | .error e => .error e
            | .ok c => finishRow cd cf fields t c := by
    intro c
    rfl
  rw [hsplit] at h ⊢
  split at h
  · cases h
  rename_i c1 h1
  split at h
  · cases h
  rename_i v hv
  split at h
  · rename_i hr
    unfold badLine at h
    split at h
    · rename_i hs
      cases h
      obtain ⟨a, b, _⟩ := resolveTs_again h1 hF
      refine ⟨a, ?_⟩
      rw [b]
      dsimp only [LoadState.re]
      rw [hv]
      dsimp only
      rw [(readStamp_again (g := F.tsFormat) hF.fmt).1 hr]
      dsimp only [badLine]
      rw [if_pos hs]
    · cases h
  · rename_i t f hr
    split at h
    · cases h
    rename_i c2 h2
    have hl2 : c2.dataIdx ≠ none := (resolveData_again h2 (Later.self c2)).2.2
    obtain ⟨a3, b3⟩ := finishRow_again h hl2 hF
    obtain ⟨a2, b2, _⟩ := resolveData_again h2 a3
    have hne := ((readStamp_again (g := c1.st.tsFormat) (fun _ => rfl)).2 t f hr).1
    have hf2 : F.tsFormat = f := a2.fmt hne
    have hl1 : Later c1 F := by
      refine ⟨a2.col, fun hc => ?_, a2.type⟩
      rw [hf2]
      have : readStamp cd c1.st.tsFormat (sanitize ph v) = some (t, f) := hr
      cases hs : sanitize ph v with
      | none => rw [hs] at this; simp [readStamp] at this
      | some w =>
        rw [hs] at this
        cases hc1 : c1.st.tsFormat with
        | auto => exact absurd hc1 hc
        | epoch => rw [hc1] at this; simp [readStamp] at this; exact this.2.symm
        | iso => rw [hc1] at this; simp [readStamp] at this; exact this.2.symm
    obtain ⟨a1, b1, _⟩ := resolveTs_again h1 hl1
    refine ⟨a1, ?_⟩
    rw [b1]
    dsimp only [LoadState.re]
    rw [hv]
    dsimp only
    rw [((readStamp_again (g := F.tsFormat) hl1.fmt).2 t f hr).2 hf2]
    dsimp only
    have : ({ c1 with st := { F with tsFormat := f } } : LoadState) = ({ c1 with st := { c1.st with tsFormat := f } } : LoadState).re F := by
      dsimp only [LoadState.re]
      rw [← hf2]
    rw [this, b2]
    exact b3

theorem customLine_again {cd : Codec} {sp : Text → Text → Option ℚ} {cf : CsvConf} {sel : Sel} {fmt : Text} {fields : List Text} {c c' : LoadState}
    (h : customLine cd sp cf sel fmt fields c = .ok c') {F : CsvState} (hF : Later c' F) :
    Later c F ∧ customLine cd sp cf sel fmt fields (c.re F) = .ok (c'.re F) := by
  unfold customLine at h ⊢
  split at h
  · cases h
  rename_i c1 h1
  split at h
  · cases h
  rename_i v hv
  split at h
  · rename_i hr
    unfold badLine at h
    split at h
    · rename_i hs
      cases h
      obtain ⟨a, b, _⟩ := resolveTs_again h1 hF
      refine ⟨a, ?_⟩
      rw [b]
      dsimp only [LoadState.re]
      rw [hv]
      dsimp only
      rw [hr]
      dsimp only [badLine]
      rw [if_pos hs]
    · cases h
  · rename_i t hr
    split at h
    · cases h
    rename_i c2 h2
    have hl2 : c2.dataIdx ≠ none := (resolveData_again h2 (Later.self c2)).2.2
    obtain ⟨a3, b3⟩ := finishRow_again h hl2 hF
    obtain ⟨a2, b2, _⟩ := resolveData_again h2 a3
    obtain ⟨a1, b1, _⟩ := resolveTs_again h1 a2
    refine ⟨a1, ?_⟩
    rw [b1]
    dsimp only [LoadState.re]
    rw [hv]
    dsimp only
    rw [hr]
    dsimp only
    rw [show ({ c1 with st := F } : LoadState) = c1.re F from rfl, b2]
    exact b3

/-- the same, for the variables of `get` in any mode -/
def TimeLoad.re (c : TimeLoad) (F : CsvState) : TimeLoad := { c with base := c.base.re F }

theorem partsLine_again {cd : Codec} {sp : Text → Text → Option ℚ} {cf : CsvConf} {sel : Sel} {time date : Option ColRef} {tf df : Text}
    {fields : List Text} {c c' : TimeLoad} (h : partsLine cd sp cf sel time date tf df fields c = .ok c') {F : CsvState} (hF : Later c'.base F) :
    Later c.base F ∧ partsLine cd sp cf sel time date tf df fields (c.re F) = .ok (c'.re F) := by
  unfold partsLine at h
  split at h
  · cases h
  rename_i ti h1
  split at h
  · cases h
  rename_i di h2
  split at h
  · cases h
  rename_i h3
  split at h
  · cases h
  rename_i tp h4
  split at h
  · cases h
  rename_i dp h5
  have hpre : ∀ R, (match (assembleStamp dp tp).bind (sp (partsFormat time date tf df)) with
            | none => (badLine cf.skipErrors .valueError (c.re F).base).map (fun b => (⟨b, ti, di⟩ : TimeLoad))
            | some t =>
              match resolveDataParts sel ti di (c.re F).base with
              | .error e => .error e
              | .ok b => (finishRow cd cf fields t b).map (fun b => ⟨b, ti, di⟩)) = R → partsLine cd sp cf sel time date tf df fields (c.re F) = R := by
    intro R hR
    unfold partsLine
    rw [show (c.re F).base.labels = c.base.labels from rfl, show (c.re F).timeIdx = c.timeIdx from rfl, show (c.re F).dateIdx = c.dateIdx from rfl, h1]
    dsimp only
    rw [h2]
    dsimp only
    rw [if_neg h3, h4]
    dsimp only
    rw [h5]
    exact hR
  split at h
  · rename_i hs
    unfold badLine at h
    split at h
    · rename_i hk
      simp only [Except.map] at h
      cases h
      refine ⟨hF, hpre _ ?_⟩
      rw [hs]
      dsimp only [badLine]
      rw [if_pos hk]
      rfl
    · simp only [Except.map] at h; cases h
  · rename_i t hs
    split at h
    · cases h
    rename_i b hb
    cases hfin : finishRow cd cf fields t b with
    | error e => rw [hfin] at h; simp [Except.map] at h
    | ok b' =>
      rw [hfin] at h
      simp only [Except.map] at h
      cases h
      have hl2 : b.dataIdx ≠ none := (resolveDataParts_again hb (Later.self b)).2.2
      obtain ⟨a3, b3⟩ := finishRow_again hfin hl2 hF
      obtain ⟨a2, b2, _⟩ := resolveDataParts_again hb a3
      refine ⟨a2, hpre _ ?_⟩
      rw [hs]
      dsimp only
      rw [show (c.re F).base = c.base.re F from rfl, b2]
      dsimp only
      rw [b3]
      rfl

theorem map_ok_inv {α β : Type} {f : α → β} {x : Except PyErr α} {y : β} (h : x.map f = .ok y) : ∃ a, x = .ok a ∧ f a = y := by
  cases x with
  | error e => simp [Except.map] at h
  | ok a => simp only [Except.map, Except.ok.injEq] at h; exact ⟨a, rfl, h⟩

theorem modeLine_again {cd : Codec} {sp : Text → Text → Option ℚ} {cf : CsvConf} {sel : Sel} {m : TimeMode} {fields : List Text} {c c' : TimeLoad}
    (h : modeLine cd sp cf sel m fields c = .ok c') {F : CsvState} (hF : Later c'.base F) :
    Later c.base F ∧ modeLine cd sp cf sel m fields (c.re F) = .ok (c'.re F) := by
  unfold modeLine at h ⊢
  split at h
  · obtain ⟨b, hb, rfl⟩ := map_ok_inv h
    obtain ⟨x, y⟩ := dataLine_again hb hF
    exact ⟨x, by rw [show (c.re F).base = c.base.re F from rfl, y]; rfl⟩
  · obtain ⟨b, hb, rfl⟩ := map_ok_inv h
    obtain ⟨x, y⟩ := customLine_again hb hF
    exact ⟨x, by rw [show (c.re F).base = c.base.re F from rfl, y]; rfl⟩
  · exact partsLine_again h hF

theorem modeStep_again {cd : Codec} {sp : Text → Text → Option ℚ} {cf : CsvConf} {sel : Sel} {m : TimeMode} {line : Text} {c c' : TimeLoad}
    (h : modeStep cd sp cf sel m line c = .ok c') {F : CsvState} (hF : Later c'.base F) :
    Later c.base F ∧ modeStep cd sp cf sel m line (c.re F) = .ok (c'.re F) := by
  unfold modeStep at h ⊢
  cases line with
  | nil => cases h; exact ⟨hF, rfl⟩
  | cons a r =>
    dsimp only at h ⊢
    by_cases h1 : a ∈ cf.comments
    · rw [if_pos h1] at h ⊢; cases h; exact ⟨hF, rfl⟩
    rw [if_neg h1] at h ⊢
    by_cases h2 : cf.sep ∉ a :: r
    · rw [if_pos h2] at h ⊢; cases h; exact ⟨hF, rfl⟩
    rw [if_neg h2] at h ⊢
    rw [show (c.re F).base.cols = c.base.cols from rfl]
    by_cases h3 : c.base.cols = []
    · rw [if_pos h3] at h ⊢
      by_cases h4 : ((splitSep cf.sep (a :: r)).any fun v => !convertible cd v) = true
      · rw [if_pos h4] at h ⊢
        cases h
        exact ⟨⟨hF.col, hF.fmt, hF.type⟩, rfl⟩
      · rw [if_neg h4] at h ⊢
        obtain ⟨x, y⟩ := modeLine_again h hF
        exact ⟨⟨x.col, x.fmt, x.type⟩, y⟩
    · rw [if_neg h3] at h ⊢
      exact modeLine_again h hF

theorem modeLines_again {cd : Codec} {sp : Text → Text → Option ℚ} {cf : CsvConf} {sel : Sel} {m : TimeMode} {limit : Option ℕ} :
    ∀ {lines : List Text} {c e : TimeLoad}, modeLines cd sp cf sel m limit lines c = .ok e → Later c.base e.base.st ∧
      modeLines cd sp cf sel m limit lines (c.re e.base.st) = .ok e ∧
      ∀ limit', (modeLines cd sp cf sel m limit' lines (c.re e.base.st)).map (fun x => x.base.rows) =
        (modeLines cd sp cf sel m limit' lines c).map (fun x => x.base.rows)
  | [], c, e, h => by
    cases h
    exact ⟨Later.self _, rfl, fun _ => rfl⟩
  | l :: r, c, e, h => by
    simp only [modeLines] at h ⊢
    split at h
    · cases h
    rename_i c' hc'
    by_cases hlim : c'.base.rows.length > c.base.rows.length ∧ limitReached limit c'.base.rows.length
    · rw [if_pos hlim] at h
      cases h
      obtain ⟨x, y⟩ := modeStep_again hc' (Later.self _)
      refine ⟨x, ?_, fun limit' => ?_⟩
      · rw [y]; dsimp only; exact if_pos hlim
      · rw [y]
        rfl
    · rw [if_neg hlim] at h
      obtain ⟨x, y, z⟩ := modeLines_again h
      obtain ⟨x', y'⟩ := modeStep_again hc' x
      refine ⟨x', ?_, fun limit' => ?_⟩
      · rw [y']
        dsimp only
        rw [show (c'.re e.base.st).base.rows = c'.base.rows from rfl, show (c.re e.base.st).base.rows = c.base.rows from rfl, if_neg hlim]
        exact y
      · rw [y']
        dsimp only
        rw [show (c'.re e.base.st).base.rows = c'.base.rows from rfl, show (c.re e.base.st).base.rows = c.base.rows from rfl]
        split
        · rfl
        · exact z limit'


/-- a file with columns `epoch`, `a` and `b` -/
def plainFile : List Text := ["epoch,a,b\n".toList, "+e1,+5e1,+7e1\n".toList, "+6e1,+8e1,+9e1\n".toList]

/-- **C285 is false**: a call with column numbers leaves its mark on the storage: the next call returns lists instead of dictionaries. -/
theorem C285_filter_false :
    (modeRows sampleCodec sampleStrptime sampleConf (.stamp none) {} .all none plainFile).toOption.map Prod.fst =
      some [{ t := 0, data := .dict [("a", some 5), ("b", some 7)] }, { t := 6, data := .dict [("a", some 8), ("b", some 9)] }] ∧
    ∃ rows st', modeRows sampleCodec sampleStrptime sampleConf (.stamp none) {} (.nums [1]) none plainFile = .ok (rows, st') ∧
      (modeRows sampleCodec sampleStrptime sampleConf (.stamp none) st' .all none plainFile).toOption.map Prod.fst =
        some [{ t := 0, data := .list [5, 7] }, { t := 6, data := .list [8, 9] }] := by
  refine ⟨by decide +kernel, [{ t := 0, data := .list [5] }, { t := 6, data := .list [8] }], { tsCol := .label "epoch", tsFormat := .epoch, dataType := some .list }, ?_, by decide +kernel⟩
  have : (modeRows sampleCodec sampleStrptime sampleConf (.stamp none) {} (.nums [1]) none plainFile).toOption =
      some ([{ t := 0, data := .list [5] }, { t := 6, data := .list [8] }], { tsCol := .label "epoch", tsFormat := .epoch, dataType := some .list }) := by
    decide +kernel
  cases h : modeRows sampleCodec sampleStrptime sampleConf (.stamp none) {} (.nums [1]) none plainFile with
  | error e => rw [h] at this; cases this
  | ok p => rw [h] at this; simp only [Except.toOption, Option.some.injEq] at this; rw [this]

theorem modeRows_again {cd : Codec} {sp : Text → Text → Option ℚ} {cf : CsvConf} {m : TimeMode} {st st' : CsvState} {filter filter' : Sel}
    {limit : Option ℕ} {lines : List Text} {rows : List Row} (h : modeRows cd sp cf m st filter limit lines = .ok (rows, st'))
    (hf : pickSel cf filter' = pickSel cf filter) :
    modeRows cd sp cf m st' filter' limit lines = .ok (rows, st') ∧
    ∀ limit', (modeRows cd sp cf m st' filter' limit' lines).map Prod.fst = (modeRows cd sp cf m st filter' limit' lines).map Prod.fst := by
  unfold modeRows at h
  cases hl : modeLines cd sp cf (pickSel cf filter) m limit lines { base := { st := st } } with
  | error e => rw [hl] at h; cases h
  | ok e =>
    rw [hl] at h
    dsimp only at h
    obtain ⟨_, y, z⟩ := modeLines_again hl
    by_cases hr : e.base.rows = []
    · rw [if_pos hr] at h; cases h
    · rw [if_neg hr] at h
      simp only [Except.ok.injEq, Prod.mk.injEq] at h
      obtain ⟨h1, h2⟩ := h
      subst h2
      have y : modeLines cd sp cf (pickSel cf filter') m limit lines { base := { st := e.base.st } } = .ok e := by rw [hf]; exact y
      refine ⟨?_, fun limit' => ?_⟩
      · unfold modeRows
        rw [y]
        dsimp only
        rw [if_neg hr, h1]
      · have z : (modeLines cd sp cf (pickSel cf filter') m limit' lines { base := { st := e.base.st } }).map (fun x => x.base.rows) =
            (modeLines cd sp cf (pickSel cf filter') m limit' lines { base := { st := st } }).map (fun x => x.base.rows) := by rw [hf]; exact z limit'
        unfold modeRows
        cases h1 : modeLines cd sp cf (pickSel cf filter') m limit' lines { base := { st := e.base.st } } with
        | error e1 =>
          cases h2 : modeLines cd sp cf (pickSel cf filter') m limit' lines { base := { st := st } } with
          | error e2 => rw [h1, h2] at z; simp only [Except.map, Except.error.injEq] at z; rw [z]
          | ok c2 => rw [h1, h2] at z; simp [Except.map] at z
        | ok c1 =>
          cases h2 : modeLines cd sp cf (pickSel cf filter') m limit' lines { base := { st := st } } with
          | error e2 => rw [h1, h2] at z; simp [Except.map] at z
          | ok c2 =>
            rw [h1, h2] at z
            simp only [Except.map, Except.ok.injEq] at z
            dsimp only
            rw [z]
            split <;> rfl

/-- **C285, partial**: after a successful call, a call on the same file which asks for the same columns returns what it would have returned as the first call,
whatever its other arguments: limit, points or slots, unit; and the same call again leaves the storage as it is.  Missing: calls selecting columns by number
before (`C285_filter_false`); `C285_history_partial` is about any history, with calls which raised. -/
theorem C285_again_partial {cd : Codec} {sp : Text → Text → Option ℚ} {cal : Calendar} {detect : List ℚ → Except PyErr ℚ} {fuel : ℕ} {cf : CsvConf}
    {m : TimeMode} {st st' : CsvState} {a : GetArgs} {lines : List Text} {s : TSeries}
    (h : modeGet cd sp cal detect fuel cf m st a lines = .ok (s, st')) :
    modeGet cd sp cal detect fuel cf m st' a lines = .ok (s, st') ∧
    ∀ b : GetArgs, b.filter = a.filter → (modeGet cd sp cal detect fuel cf m st' b lines).map Prod.fst =
      (modeGet cd sp cal detect fuel cf m st b lines).map Prod.fst := by
  unfold modeGet at h
  split at h
  · cases h
  rename_i hp
  cases hr : modeRows cd sp cf m st a.filter a.limit lines with
  | error e => rw [hr] at h; cases h
  | ok p =>
    obtain ⟨rows, st1⟩ := p
    rw [hr] at h
    dsimp only at h
    have hst : st1 = st' := by
      split at h
      · cases h
      · split at h
        · cases h
        · cases h; rfl
      · split at h
        · cases h
        · cases h; rfl
    subst hst
    constructor
    · unfold modeGet
      rw [if_neg hp, (modeRows_again hr rfl).1]
      exact h
    · intro b hb
      have := (modeRows_again (filter' := b.filter) hr (by rw [hb])).2 b.limit
      unfold modeGet
      by_cases hq : b.forcePoints = true ∧ b.forceSlots = true
      · rw [if_pos hq, if_pos hq]
      · rw [if_neg hq, if_neg hq]
        cases h1 : modeRows cd sp cf m st1 b.filter b.limit lines with
        | error e1 =>
          cases h2 : modeRows cd sp cf m st b.filter b.limit lines with
          | error e2 => rw [h1, h2] at this; simp only [Except.map, Except.error.injEq] at this; rw [this]
          | ok c2 => rw [h1, h2] at this; simp [Except.map] at this
        | ok c1 =>
          cases h2 : modeRows cd sp cf m st b.filter b.limit lines with
          | error e2 => rw [h1, h2] at this; simp [Except.map] at this
          | ok c2 =>
            rw [h1, h2] at this
            simp only [Except.map, Except.ok.injEq] at this
            dsimp only
            rw [this]
            split
            · rfl
            · split <;> rfl
            · split <;> rfl

/-! ## C53 with the format found automatically -/

theorem resolveTs_facts {c c1 : LoadState} {names : List String} {ts : ℕ} (hl : c.labels = some names) (hi : c.tsIdx = none ∨ c.tsIdx = some ts)
    (hp : tsPosition c.st.tsCol names = some ts) (h : resolveTs c = .ok c1) :
    c1.labels = some names ∧ c1.tsIdx = some ts ∧ tsPosition c1.st.tsCol names = some ts ∧ c1.st.tsFormat = c.st.tsFormat ∧
      c1.st.dataType = c.st.dataType ∧ c1.rows = c.rows ∧ c1.cols = c.cols ∧ c1.dataIdx = c.dataIdx := by
  rcases hi with hi | hi
  · unfold resolveTs at h
    rw [hi] at h
    dsimp only at h
    unfold indexIn at h
    unfold tsPosition at hp
    cases hc : c.st.tsCol with
    | num i =>
      rw [hc] at h hp
      simp only [Option.some.injEq] at hp
      cases h
      subst hp
      exact ⟨hl, rfl, by simp [tsPosition, hc], rfl, rfl, rfl, rfl, rfl⟩
    | label l =>
      rw [hc, hl] at h
      rw [hc] at hp
      dsimp only at h hp
      by_cases hm : l ∈ names
      · rw [if_pos hm] at h hp
        simp only [Option.some.injEq] at hp
        cases h
        subst hp
        exact ⟨rfl, rfl, by simp [tsPosition, hc, hm], rfl, rfl, rfl, rfl, rfl⟩
      · rw [if_neg hm] at hp; cases hp
    | auto =>
      rw [hc, hl] at h
      rw [hc] at hp
      dsimp only [Option.getD] at h hp
      by_cases hm : "timestamp" ∈ names
      · rw [if_pos hm] at h hp
        simp only [Option.some.injEq] at hp
        cases h
        subst hp
        exact ⟨rfl, rfl, by simp [tsPosition, hm], rfl, rfl, rfl, rfl, rfl⟩
      · rw [if_neg hm] at h hp
        dsimp only at h
        by_cases he : "epoch" ∈ names
        · rw [if_pos he] at h hp
          simp only [Option.some.injEq] at hp
          cases h
          subst hp
          exact ⟨rfl, rfl, by simp [tsPosition, he], rfl, rfl, rfl, rfl, rfl⟩
        · rw [if_neg he] at h hp
          simp only [Option.some.injEq] at hp
          cases h
          subst hp
          exact ⟨rfl, rfl, by simp [tsPosition, hc, hm, he], rfl, rfl, rfl, rfl, rfl⟩
  · unfold resolveTs at h
    rw [hi] at h
    cases h
    exact ⟨hl, hi, hp, rfl, rfl, rfl, rfl, rfl⟩

theorem resolveData_all_facts {ts : ℕ} {c c1 : LoadState} (h : resolveData .all ts c = .ok c1) :
    c1.labels = c.labels ∧ c1.tsIdx = c.tsIdx ∧ c1.st = c.st ∧ c1.dataIdx ≠ none ∧
      ((c.dataIdx ≠ none ∧ c1.cols = c.cols) ∨ (c.dataIdx = none ∧ c.cols.length ≤ c1.cols.length + 1)) := by
  unfold resolveData withNames at h
  split at h
  · rename_i hi
    cases h; exact ⟨rfl, rfl, rfl, by simp [hi], .inl ⟨by simp [hi], rfl⟩⟩
  · rename_i hi
    dsimp only at h
    split at h
    · rename_i hm
      have hlen : c.cols.length ≤ (c.cols.erase ts).length + 1 := by
        rw [List.length_erase_of_mem hm]
        omega
      split at h
      · cases h; exact ⟨rfl, rfl, rfl, by simp, .inr ⟨hi, hlen⟩⟩
      · split at h
        · cases h
        · cases h; exact ⟨rfl, rfl, rfl, by simp, .inr ⟨hi, hlen⟩⟩
    · cases h

theorem finishRow_facts {cd : Codec} {cf : CsvConf} {fields : List Text} {t : ℚ} {c c1 : LoadState} (h : finishRow cd cf fields t c = .ok c1) :
    c1.labels = c.labels ∧ c1.tsIdx = c.tsIdx ∧ c1.st = c.st ∧ c1.cols = c.cols ∧ c1.dataIdx = c.dataIdx := by
  unfold finishRow at h
  split at h
  · cases h
  rename_i c2 h2
  have : c2.labels = c.labels ∧ c2.tsIdx = c.tsIdx ∧ c2.st = c.st ∧ c2.cols = c.cols ∧ c2.dataIdx = c.dataIdx := by
    unfold resolveType at h2
    split at h2
    · cases h2; exact ⟨rfl, rfl, rfl, rfl, rfl⟩
    · split at h2
      · cases h2
      · split at h2
        · cases h2; exact ⟨rfl, rfl, rfl, rfl, rfl⟩
        · cases h2; exact ⟨rfl, rfl, rfl, rfl, rfl⟩
  split at h
  · split at h
    · unfold badLine at h
      split at h
      · cases h; exact this
      · cases h
    · cases h
  · cases h; exact this

/-- the variables while the lines after a header are read, all columns being asked for -/
structure HeaderInv (names : List String) (ts : ℕ) (ty : Option DType) (c : LoadState) : Prop where
  labels : c.labels = some names
  idx : c.tsIdx = none ∨ c.tsIdx = some ts
  col : tsPosition c.st.tsCol names = some ts
  type : c.st.dataType = ty
  rows : c.rows ≠ [] → c.st.tsFormat ≠ .auto
  cols : 1 ≤ c.cols.length ∧ (c.dataIdx = none → 2 ≤ c.cols.length)

/-- the format of the first timestamp that can be read -/
def formatOf (cd : Codec) (v : Text) : Option TsFormat :=
  match sanitize noDataPlaceholders v with
  | none => none
  | some s => if (cd.parse s).isSome then some .epoch else if (cd.stamp s).isSome then some .iso else none

theorem readStamp_formatOf (cd : Codec) (v : Text) : (readStamp cd .auto (sanitize ph v)).map Prod.snd = formatOf cd v := by
  unfold readStamp formatOf ph
  cases sanitize noDataPlaceholders v with
  | none => rfl
  | some s =>
    dsimp only
    cases cd.parse s with
    | some t => rfl
    | none =>
      cases cd.stamp s with
      | some t => rfl
      | none => rfl

theorem dataLine_header {cd : Codec} {cf : CsvConf} {fields : List Text} {c c' : LoadState} {names : List String} {ts : ℕ} {ty : Option DType}
    (hc : HeaderInv names ts ty c) (h : dataLine cd cf .all fields c = .ok c') :
    HeaderInv names ts ty c' ∧ (c.st.tsFormat = .auto → ∃ v, fields[ts]? = some v ∧
      ((formatOf cd v = none ∧ c'.st.tsFormat = .auto) ∨ formatOf cd v = some c'.st.tsFormat)) := by
  have hsplit : dataLine cd cf .all fields c = match resolveTs c with
      | .error e => .error e
      | .ok c =>
        match fields[c.tsIdx.getD 0]? with
        | none => .error .indexError
        | some v =>
          match readStamp cd c.st.tsFormat (sanitize ph v) with
          | none => badLine cf.skipErrors .valueError c
          | some (t, f) =>
            match resolveData .all (c.tsIdx.getD 0) { c with st := { c.st with tsFormat := f } } with
            | .error e => .error e
            | .ok c => finishRow cd cf fields t c := rfl
  rw [hsplit] at h
  split at h
  · cases h
  rename_i c1 h1
  obtain ⟨f1, f2, f3, f4, f5, f6, f7, f8⟩ := resolveTs_facts hc.labels hc.idx hc.col h1
  rw [f2] at h
  dsimp only [Option.getD] at h
  split at h
  · cases h
  rename_i v hv
  split at h
  · rename_i hr
    unfold badLine at h
    split at h
    · cases h
      refine ⟨⟨f1, .inr f2, f3, by rw [f5]; exact hc.type, by rw [f6, f4]; exact hc.rows, by rw [f7, f8]; exact hc.cols⟩, fun ha => ⟨v, hv, .inl ⟨?_, by rw [f4]; exact ha⟩⟩⟩
      rw [f4, ha] at hr
      rw [← readStamp_formatOf, hr]
      rfl
    · cases h
  · rename_i t f hr
    split at h
    · cases h
    rename_i c2 h2
    obtain ⟨g1, g2, g3, g4, g5⟩ := resolveData_all_facts h2
    obtain ⟨k1, k2, k3, k4, k5⟩ := finishRow_facts h
    have hne := ((readStamp_again (g := c1.st.tsFormat) (fun _ => rfl)).2 t f hr).1
    have hst : c'.st = { c1.st with tsFormat := f } := k3.trans g3
    have hcols : 1 ≤ c'.cols.length ∧ (c'.dataIdx = none → 2 ≤ c'.cols.length) := by
      rw [k4, k5]
      refine ⟨?_, fun h0 => absurd h0 g4⟩
      rcases g5 with ⟨_, g5⟩ | ⟨g5, g6⟩
      · rw [g5]; dsimp only; rw [f7]; exact hc.cols.1
      · dsimp only at g5 g6
        rw [f7] at g6
        rw [f8] at g5
        have := hc.cols.2 g5
        omega
    refine ⟨⟨by rw [k1, g1]; exact f1, .inr (k2.trans g2), by rw [hst]; exact f3, by rw [hst]; exact f5.trans hc.type, fun _ => by rw [hst]; exact hne, hcols⟩,
      fun ha => ⟨v, hv, .inr ?_⟩⟩
    rw [f4, ha] at hr
    rw [← readStamp_formatOf, hr, hst]
    rfl

/-- the format found while reading the lines after a header: the one of the first timestamp that can be read -/
theorem loadLines_format {cd : Codec} {cf : CsvConf} {names : List String} {ts : ℕ} {ty : Option DType} {limit : Option ℕ} :
    ∀ {lines : List Text} {c e : LoadState}, HeaderInv names ts ty c → loadLines cd cf .all limit lines c = .ok e →
    HeaderInv names ts ty e ∧ (c.st.tsFormat = .auto → e.st.tsFormat ≠ .auto → ∃ a l r v, lines = a ++ l :: r ∧ ignoredLine cf l = false ∧
      (splitSep cf.sep l)[ts]? = some v ∧ formatOf cd v = some e.st.tsFormat ∧
      ∀ x ∈ a, ignoredLine cf x = true ∨ ∃ w, (splitSep cf.sep x)[ts]? = some w ∧ formatOf cd w = none) ∧
      (c.st.tsFormat ≠ .auto → e.st.tsFormat = c.st.tsFormat) := by
  intro lines
  induction lines with
  | nil =>
    intro c e hc h
    cases h
    exact ⟨hc, fun h1 h2 => absurd h1 h2, fun _ => rfl⟩
  | cons l r ih =>
    intro c e hc h
    simp only [loadLines] at h
    split at h
    · cases h
    rename_i c' hstep
    have hcons : HeaderInv names ts ty c' ∧ (c.st.tsFormat ≠ .auto → c'.st.tsFormat = c.st.tsFormat) ∧ ((ignoredLine cf l = true ∧ c' = c) ∨
        (ignoredLine cf l = false ∧ (c.st.tsFormat = .auto → ∃ v, (splitSep cf.sep l)[ts]? = some v ∧
        ((formatOf cd v = none ∧ c'.st.tsFormat = .auto) ∨ formatOf cd v = some c'.st.tsFormat)))) := by
      cases hi : ignoredLine cf l with
      | true =>
        rw [lineStep_ignored cd cf .all l c hi] at hstep
        cases hstep
        exact ⟨hc, fun _ => rfl, .inl ⟨rfl, rfl⟩⟩
      | false =>
        rw [lineStep_data cd cf .all l c hi (by intro h0; have := hc.cols.1; rw [h0] at this; simp at this)] at hstep
        obtain ⟨x, y⟩ := dataLine_header hc hstep
        refine ⟨x, fun hn => ?_, .inr ⟨rfl, y⟩⟩
        have := dataLine_again hstep (Later.self _)
        exact this.1.fmt hn
    obtain ⟨hI, hkeep, hcase⟩ := hcons
    split at h
    · cases h
      refine ⟨hI, fun ha hne => ?_, hkeep⟩
      rcases hcase with ⟨_, rfl⟩ | ⟨hi, hv⟩
      · exact absurd ha hne
      · obtain ⟨v, hv1, hv2⟩ := hv ha
        rcases hv2 with ⟨_, hv2⟩ | hv2
        · exact absurd hv2 hne
        · exact ⟨[], l, r, v, rfl, hi, hv1, hv2, by simp⟩
    · obtain ⟨x, y, z⟩ := ih hI h
      refine ⟨x, fun ha hne => ?_, fun hn => ?_⟩
      · rcases hcase with ⟨hi, rfl⟩ | ⟨hi, hv⟩
        · obtain ⟨a, l', r', v, h1, h2, h3, h4, h5⟩ := y ha hne
          refine ⟨l :: a, l', r', v, by rw [h1]; rfl, h2, h3, h4, ?_⟩
          intro x hx
          rcases List.mem_cons.mp hx with rfl | hx
          · exact .inl hi
          · exact h5 x hx
        · obtain ⟨v, hv1, hv2⟩ := hv ha
          by_cases hauto : c'.st.tsFormat = .auto
          · obtain ⟨a, l', r', v', h1, h2, h3, h4, h5⟩ := y hauto hne
            have hnone : formatOf cd v = none := by
              rcases hv2 with ⟨hv2, _⟩ | hv2
              · exact hv2
              · rw [hauto] at hv2
                unfold formatOf at hv2
                split at hv2
                · cases hv2
                · split at hv2
                  · cases hv2
                  · split at hv2 <;> cases hv2
            refine ⟨l :: a, l', r', v', by rw [h1]; rfl, h2, h3, h4, ?_⟩
            intro x hx
            rcases List.mem_cons.mp hx with rfl | hx
            · exact .inr ⟨v, hv1, hnone⟩
            · exact h5 x hx
          · rcases hv2 with ⟨_, hv2⟩ | hv2
            · exact absurd hv2 hauto
            · exact ⟨[], l, r, v, rfl, hi, hv1, by rw [z hauto]; exact hv2, by simp⟩
      · have hk := hkeep hn
        rw [z (by rw [hk]; exact hn), hk]

/-- **C53 (format found automatically)**: with the default settings, where neither the column nor the format of the timestamps is given, a file with a header that is
read gives the rows of a storage whose format is the one of the first timestamp that can be read: the rows of the well-formed lines, in order; and a line
with a timestamp in the other format is malformed.  Without skipping errors, all the lines are well formed. -/
theorem C53_automatic_format {cd : Codec} {cf : CsvConf} {st st' : CsvState} {pre : List Text} {header : Text} {names : List String} {ts : ℕ}
    {lines : List Text} {rows : List Row} (hpre : ∀ l ∈ pre, ignoredLine cf l = true) (hh : IsHeader cd cf header names)
    (hauto : st.tsFormat = .auto) (hs : HeaderSettings cf { st with tsFormat := .epoch } names ts) (hl : ∀ l ∈ lines, hasStampField cf ts l)
    (h : readRows cd cf st .all none (pre ++ header :: lines) = .ok (rows, st')) :
    rows = (if cf.sort then (rowsOf cd cf st' names ts lines).insertionSort (fun a b => a.t ≤ b.t) else rowsOf cd cf st' names ts lines) ∧
    (cf.skipErrors = false → ∀ l ∈ lines, ignoredLine cf l = true ∨ ∃ t d, RowOf cd st'.tsFormat names ts (splitSep cf.sep l) t d) ∧
    ∃ a l r v, lines = a ++ l :: r ∧ ignoredLine cf l = false ∧ (splitSep cf.sep l)[ts]? = some v ∧ formatOf cd v = some st'.tsFormat ∧
      ∀ x ∈ a, ignoredLine cf x = true ∨ ∃ w, (splitSep cf.sep x)[ts]? = some w ∧ formatOf cd w = none := by
  have hn := (lineStep_header cd cf .all header names hh st).1
  have hall : cf.sel = .all := hs.all
  have hagain : readRows cd cf st' .all none (pre ++ header :: lines) = .ok (rows, st') := by
    rw [← modeRows_plain cd (fun _ _ => none)] at h ⊢
    exact (modeRows_again h rfl).1
  obtain ⟨c, hc, hcr, hcs⟩ : ∃ c : LoadState, loadLines cd cf .all none lines { st := st, cols := List.range names.length, labels := some names } = .ok c ∧
      c.rows ≠ [] ∧ c.st = st' := by
    unfold readRows at h
    rw [show pickSel cf .all = .all from hall, loadLines_header cd cf .all none pre header names lines hpre hh st] at h
    split at h
    · cases h
    rename_i c hc
    split at h
    · cases h
    rename_i hr
    simp only [Except.ok.injEq, Prod.mk.injEq] at h
    exact ⟨c, hc, hr, h.2⟩
  have hinv : HeaderInv names ts st.dataType { st := st, cols := List.range names.length, labels := some names } :=
    ⟨rfl, .inl rfl, hs.column, rfl, fun h0 => absurd rfl h0, by simp; omega⟩
  obtain ⟨hI, hfirst, _⟩ := loadLines_format hinv hc
  have hne : st'.tsFormat ≠ .auto := by rw [← hcs]; exact hI.rows hcr
  have hs' : HeaderSettings cf st' names ts :=
    ⟨hall, by rw [← hcs]; exact hI.col, hs.inside, hne, by rw [← hcs, hI.type]; exact hs.type, hs.nodup⟩
  have hgood : cf.skipErrors = false → ∀ l ∈ lines, ignoredLine cf l = true ∨ ∃ t d, RowOf cd st'.tsFormat names ts (splitSep cf.sep l) t d := by
    intro hno
    by_contra hcon
    push Not at hcon
    have hex : ∃ a b r, lines = a ++ b :: r ∧ (ignoredLine cf b = false ∧ ¬ ∃ t d, RowOf cd st'.tsFormat names ts (splitSep cf.sep b) t d) ∧
        ∀ x ∈ a, ignoredLine cf x = true ∨ ∃ t d, RowOf cd st'.tsFormat names ts (splitSep cf.sep x) t d := by
      have hsome : ∃ x ∈ lines, ignoredLine cf x = false ∧ ¬ ∃ t d, RowOf cd st'.tsFormat names ts (splitSep cf.sep x) t d := by
        obtain ⟨x, hx, h1, h2⟩ := hcon
        exact ⟨x, hx, by simpa using h1, by push Not; exact h2⟩
      clear * - hsome
      induction lines with
      | nil => simp at hsome
      | cons l r ih =>
        by_cases hl : ignoredLine cf l = false ∧ ¬ ∃ t d, RowOf cd st'.tsFormat names ts (splitSep cf.sep l) t d
        · exact ⟨[], l, r, rfl, hl, by simp⟩
        · obtain ⟨x, hx, hx'⟩ := hsome
          rcases List.mem_cons.mp hx with rfl | hx
          · exact absurd hx' hl
          · obtain ⟨a, b, q, e1, e2, e3⟩ := ih ⟨x, hx, hx'⟩
            refine ⟨l :: a, b, q, by rw [e1]; rfl, e2, ?_⟩
            intro y hy
            rcases List.mem_cons.mp hy with rfl | hy
            · by_cases hi : ignoredLine cf y = true
              · exact .inl hi
              · right
                by_contra h0
                exact hl ⟨by simpa using hi, h0⟩
            · exact e3 y hy
    obtain ⟨a, b, r, e1, ⟨e2, e2'⟩, e3⟩ := hex
    subst e1
    obtain ⟨er, _, he⟩ := C53_first_malformed_line_raises cd cf st' pre header names ts a b r hpre hh hs' (fun x hx => hl x (by simp at hx ⊢; tauto)) e3 e2 e2' hno
    rw [hagain] at he
    cases he
  have hrow := readRows_header cd cf st' none pre header names ts lines hpre hh hs' hl (by
    cases hk : cf.skipErrors with
    | true => exact .inl rfl
    | false => exact .inr (hgood hk))
  dsimp only [limited] at hrow
  refine ⟨?_, hgood, ?_⟩
  · split at hrow
    · rw [hagain] at hrow; cases hrow
    · obtain ⟨st2, hrow⟩ := hrow
      rw [hagain] at hrow
      simp only [Except.ok.injEq, Prod.mk.injEq] at hrow
      exact hrow.1
  · have := hfirst hauto (by rw [hcs]; exact hne)
    rw [hcs] at this
    exact this

example : HeaderSettings sampleConf { tsFormat := .epoch } ["epoch", "a", "b"] 0 := ⟨rfl, by decide, by decide, by decide, .inl rfl, by decide⟩
example : (readRows sampleCodec sampleConf {} .all none plainFile).toOption.isSome = true := by decide +kernel


end Timeseria
