import Verif.Model.StorageFail
import Verif.Props.CsvTime

/-!
# Calls of `get` after any history of calls (C285)
-/

namespace Timeseria

/-- the attributes with another type of data -/
def CsvState.typed (F : CsvState) (d : Option DType) : CsvState := { F with dataType := d }

/-! ## The timestamp column -/

theorem resolveTs_form {c c1 : LoadState} (h : resolveTs c = .ok c1) :
    ∃ i, c1 = { c with tsIdx := some i, st := { c.st with tsCol := c1.st.tsCol } } ∧
      (c.tsIdx ≠ none → c1.st.tsCol = c.st.tsCol) ∧
      ∀ G : CsvState, (G.tsCol = c1.st.tsCol ∨ G.tsCol = c.st.tsCol) →
        resolveTs (c.re G) = .ok { c with tsIdx := some i, st := { G with tsCol := c1.st.tsCol } } := by
  cases hi : c.tsIdx with
  | some i =>
    have : c1 = c := by unfold resolveTs at h; rw [hi] at h; cases h; rfl
    subst this
    refine ⟨i, by rw [← hi], fun _ => rfl, fun G hG => ?_⟩
    have hG : G.tsCol = c1.st.tsCol := hG.elim id id
    unfold resolveTs
    simp only [LoadState.re, hi]
    rw [← hG, ← hi]
  | none =>
    unfold resolveTs at h
    rw [hi] at h
    dsimp only at h
    cases hcol : c.st.tsCol with
    | auto =>
      rw [hcol] at h
      dsimp only at h
      cases hx : indexIn "timestamp" (c.labels.getD []) with
      | some i =>
        rw [hx] at h
        cases h
        refine ⟨i, rfl, fun h => absurd rfl h, fun G hG => ?_⟩
        cases hl : c.labels with
        | none => rw [hl] at hx; simp [indexIn] at hx
        | some ls =>
          rw [hl] at hx
          simp only [Option.getD_some] at hx
          unfold resolveTs
          rcases hG with hG | hG
          · obtain ⟨g1, g2, g3⟩ := G; dsimp only at hG; subst hG; simp [LoadState.re, hi, hl, hx]
          · simp [LoadState.re, hi, hG, hl, hx]
      | none =>
        rw [hx] at h
        dsimp only at h
        cases hy : indexIn "epoch" (c.labels.getD []) with
        | some i =>
          rw [hy] at h
          cases h
          refine ⟨i, rfl, fun h => absurd rfl h, fun G hG => ?_⟩
          cases hl : c.labels with
          | none => rw [hl] at hy; simp [indexIn] at hy
          | some ls =>
            rw [hl] at hx hy
            simp only [Option.getD_some] at hx hy
            unfold resolveTs
            rcases hG with hG | hG
            · obtain ⟨g1, g2, g3⟩ := G; dsimp only at hG; subst hG; simp [LoadState.re, hi, hl, hy]
            · simp [LoadState.re, hi, hG, hl, hx, hy]
        | none =>
          rw [hy] at h
          cases h
          refine ⟨0, rfl, fun h => absurd rfl h, fun G hG => ?_⟩
          have hG : G.tsCol = .auto := by rcases hG with hG | hG <;> [rw [← hcol]; skip] <;> exact hG
          unfold resolveTs
          simp only [LoadState.re, hi, hG, hx, hy, hcol]
          rw [← hG]
    | num i =>
      rw [hcol] at h
      cases h
      refine ⟨i, rfl, fun h => absurd rfl h, fun G hG => ?_⟩
      have hG : G.tsCol = .num i := by rcases hG with hG | hG <;> [rw [← hcol]; skip] <;> exact hG
      unfold resolveTs
      simp only [LoadState.re, hi, hG, hcol]
      rw [← hG]
    | label l =>
      rw [hcol] at h
      dsimp only at h
      cases hl : c.labels with
      | none => rw [hl] at h; cases h
      | some ls =>
        rw [hl] at h
        dsimp only at h
        cases hx : indexIn l ls with
        | none => rw [hx] at h; cases h
        | some i =>
          rw [hx] at h
          cases h
          refine ⟨i, rfl, fun h => absurd rfl h, fun G hG => ?_⟩
          have hG : G.tsCol = .label l := by rcases hG with hG | hG <;> [rw [← hcol]; skip] <;> exact hG
          unfold resolveTs
          simp only [LoadState.re, hi, hG, hl, hx, hcol]
          rw [← hG]

theorem resolveTs_fails {c : LoadState} {e : PyErr} (h : resolveTs c = .error e) (G : CsvState) (hG : G.tsCol = c.st.tsCol) :
    resolveTs (c.re G) = .error e := by
  rw [← h]
  unfold resolveTs at h ⊢
  cases hi : c.tsIdx with
  | some i => rw [hi] at h; cases h
  | none =>
    simp only [LoadState.re, hi, hG]
    rw [hi] at h
    dsimp only at h
    cases hcol : c.st.tsCol with
    | auto =>
      rw [hcol] at h
      dsimp only at h
      split at h
      · cases h
      · split at h <;> cases h
    | num i => rw [hcol] at h; cases h
    | label l =>
      dsimp only
      cases hl : c.labels with
      | none => rfl
      | some ls =>
        dsimp only
        cases hx : indexIn l ls with
        | none => rfl
        | some i => rw [hcol, hl] at h; dsimp only at h; rw [hx] at h; cases h

/-! ## One line -/

/-- modes where the format of the timestamps is found while reading -/
def TimeMode.plain : TimeMode → Bool
  | .stamp none => true
  | _ => false

/-- modes with a timestamp column -/
def TimeMode.stamped : TimeMode → Bool
  | .stamp _ => true
  | _ => false

/-- timestamp attributes which are those of `L`, or come after it -/
structure TsAgree (m : TimeMode) (L F : CsvState) : Prop where
  col : F.tsCol = L.tsCol
  fmt : (L.tsFormat ≠ .auto ∨ m.plain = false) → F.tsFormat = L.tsFormat

/-- timestamp attributes of a later moment of the reading -/
structure TsLater (m : TimeMode) (c : LoadState) (F : CsvState) : Prop where
  col : (c.tsIdx ≠ none ∨ m.stamped = false) → F.tsCol = c.st.tsCol
  fmt : (c.st.tsFormat ≠ .auto ∨ m.plain = false) → F.tsFormat = c.st.tsFormat

theorem TsLater.self (m : TimeMode) (c : LoadState) : TsLater m c c.st := ⟨fun _ => rfl, fun _ => rfl⟩

theorem dataLeft_ts (sel : Sel) (c : LoadState) : (dataLeft sel c).tsCol = c.st.tsCol ∧ (dataLeft sel c).tsFormat = c.st.tsFormat := by
  unfold dataLeft; split <;> exact ⟨rfl, rfl⟩

theorem dataLeft_type (sel : Sel) (c : LoadState) :
    (dataLeft sel c).dataType = c.st.dataType ∨ (∃ l, sel = .nums l) ∧ (dataLeft sel c).dataType = some .list := by
  unfold dataLeft
  split
  · exact .inr ⟨⟨_, rfl⟩, rfl⟩
  · exact .inl rfl

theorem resolveData_left {sel : Sel} {ts : ℕ} {c c' : LoadState} (h : resolveData sel ts c = .ok c') :
    c'.st = dataLeft sel c ∧ c'.tsIdx = c.tsIdx ∧ c'.rows = c.rows := by
  have hw : ∀ {c c' : LoadState} {idx}, withNames c idx = .ok c' → c'.st = c.st ∧ c'.tsIdx = c.tsIdx ∧ c'.rows = c.rows := by
    intro c c' idx h
    unfold withNames at h
    split at h
    · cases h; exact ⟨rfl, rfl, rfl⟩
    · split at h
      · cases h
      · cases h; exact ⟨rfl, rfl, rfl⟩
  unfold resolveData at h
  unfold dataLeft
  cases hi : c.dataIdx with
  | some i => rw [hi] at h; cases h; exact ⟨rfl, rfl, rfl⟩
  | none =>
    rw [hi] at h
    dsimp only at h
    cases sel with
    | nums l => exact hw h
    | names l =>
      dsimp only at h ⊢
      split at h
      · cases h
      · split at h
        · cases h
        · exact hw h
    | all =>
      dsimp only at h ⊢
      split at h
      · have h3 := hw h; exact h3
      · cases h

theorem resolveDataParts_left {sel : Sel} {ti di : Option Int} {c c' : LoadState} (h : resolveDataParts sel ti di c = .ok c') :
    c'.st = dataLeft sel c ∧ c'.tsIdx = c.tsIdx ∧ c'.rows = c.rows := by
  have hw : ∀ {c c' : LoadState} {idx}, withNames c idx = .ok c' → c'.st = c.st ∧ c'.tsIdx = c.tsIdx ∧ c'.rows = c.rows := by
    intro c c' idx h
    unfold withNames at h
    split at h
    · cases h; exact ⟨rfl, rfl, rfl⟩
    · split at h
      · cases h
      · cases h; exact ⟨rfl, rfl, rfl⟩
  unfold resolveDataParts at h
  unfold dataLeft
  cases hi : c.dataIdx with
  | some i => rw [hi] at h; cases h; exact ⟨rfl, rfl, rfl⟩
  | none =>
    rw [hi] at h
    dsimp only at h
    cases sel with
    | nums l => exact hw h
    | names l =>
      dsimp only at h ⊢
      split at h
      · cases h
      · split at h
        · cases h
        · exact hw h
    | all =>
      dsimp only at h ⊢
      split at h
      · cases h
      · split at h
        · cases h
        · have h3 := hw h; exact h3

theorem finishRow_left {cd : Codec} {cf : CsvConf} {fields : List Text} {t : ℚ} {c c' : LoadState} (h : finishRow cd cf fields t c = .ok c') :
    c'.st = c.st ∧ c'.tsIdx = c.tsIdx := by
  have ht : ∀ {c c' : LoadState}, resolveType c = .ok c' → c'.st = c.st ∧ c'.tsIdx = c.tsIdx := by
    intro c c' h
    unfold resolveType at h
    split at h
    · cases h; exact ⟨rfl, rfl⟩
    · split at h
      · cases h
      · split at h <;> cases h <;> exact ⟨rfl, rfl⟩
  unfold finishRow at h
  split at h
  · cases h
  rename_i c1 h1
  obtain ⟨a, b⟩ := ht h1
  split at h
  · split at h
    · unfold badLine at h
      split at h
      · cases h; exact ⟨a, b⟩
      · cases h
    · cases h
  · cases h; exact ⟨a, b⟩

theorem dataLine_split (cd : Codec) (cf : CsvConf) (sel : Sel) (fields : List Text) (c : LoadState) :
    dataLine cd cf sel fields c = match resolveTs c with
      | .error e => .error e
      | .ok c =>
        match fields[c.tsIdx.getD 0]? with
        | none => .error .indexError
        | some v =>
          match readStamp cd c.st.tsFormat (sanitize ph v) with
          | none => badLine cf.skipErrors .valueError c
          | some (t, f) =>
            match resolveData sel (c.tsIdx.getD 0) { c with st := { c.st with tsFormat := f } } with
            | .error e => .error e
            | .ok c => finishRow cd cf fields t c := rfl

/-- a line which ends well leaves the attributes which `modeLineLeft` says -/
theorem modeLine_left {cd : Codec} {sp : Text → Text → Option ℚ} {cf : CsvConf} {sel : Sel} {m : TimeMode} {fields : List Text} {c c' : TimeLoad}
    (h : modeLine cd sp cf sel m fields c = .ok c') :
    c'.base.st = modeLineLeft cd sp sel m fields c ∧ (m.stamped = true → c'.base.tsIdx ≠ none) := by
  unfold modeLine at h
  unfold modeLineLeft
  split at h
  · obtain ⟨b, hb, rfl⟩ := map_ok_inv h
    dsimp only
    rw [dataLine_split] at hb
    unfold dataLineLeft
    split at hb
    · cases hb
    rename_i c1 h1
    obtain ⟨i, hc1, -, -⟩ := resolveTs_form h1
    have hi : c1.tsIdx ≠ none := by rw [hc1]; simp
    rw [h1]
    dsimp only
    split at hb
    · cases hb
    rename_i v hv
    rw [hv]
    dsimp only
    split at hb
    · rename_i hr
      rw [hr]
      unfold badLine at hb
      split at hb
      · cases hb; exact ⟨rfl, fun _ => hi⟩
      · cases hb
    · rename_i t f hr
      rw [hr]
      split at hb
      · cases hb
      rename_i c2 h2
      obtain ⟨a, b', -⟩ := resolveData_left h2
      obtain ⟨a', b''⟩ := finishRow_left hb
      exact ⟨a'.trans a, fun _ => by rw [b'', b']; exact hi⟩
  · obtain ⟨b, hb, rfl⟩ := map_ok_inv h
    dsimp only
    unfold customLine at hb
    unfold customLineLeft
    split at hb
    · cases hb
    rename_i c1 h1
    obtain ⟨i, hc1, -, -⟩ := resolveTs_form h1
    have hi : c1.tsIdx ≠ none := by rw [hc1]; simp
    rw [h1]
    dsimp only
    split at hb
    · cases hb
    rename_i v hv
    rw [hv]
    dsimp only
    split at hb
    · rename_i hr
      rw [hr]
      unfold badLine at hb
      split at hb
      · cases hb; exact ⟨rfl, fun _ => hi⟩
      · cases hb
    · rename_i t hr
      rw [hr]
      split at hb
      · cases hb
      rename_i c2 h2
      obtain ⟨a, b', -⟩ := resolveData_left h2
      obtain ⟨a', b''⟩ := finishRow_left hb
      exact ⟨a'.trans a, fun _ => by rw [b'', b']; exact hi⟩
  · refine ⟨?_, fun h => by cases h⟩
    unfold partsLine at h
    unfold partsLineLeft
    dsimp only
    split at h
    · cases h
    rename_i ti h1
    rw [h1]
    dsimp only
    split at h
    · cases h
    rename_i di h2
    rw [h2]
    dsimp only
    split at h
    · cases h
    rename_i h3
    rw [if_neg h3]
    split at h
    · cases h
    rename_i tp h4
    rw [h4]
    dsimp only
    split at h
    · cases h
    rename_i dp h5
    rw [h5]
    dsimp only
    split at h
    · rename_i hs
      rw [hs]
      unfold badLine at h
      split at h
      · cases h; rfl
      · cases h
    · rename_i t hs
      rw [hs]
      split at h
      · cases h
      rename_i b hb
      obtain ⟨b', hb', rfl⟩ := map_ok_inv h
      exact (finishRow_left hb').1.trans (resolveDataParts_left hb).1

theorem readStamp_fmt {cd : Codec} {f f' : TsFormat} {v : Option Text} {t : ℚ} (h : readStamp cd f v = some (t, f')) :
    f' ≠ .auto ∧ (f ≠ .auto → f' = f) ∧ readStamp cd f' v = some (t, f') := by
  obtain ⟨a, b⟩ := (readStamp_again (g := f) (fun _ => rfl)).2 t f' h
  have hf : f ≠ .auto → f' = f := by
    intro hne
    cases v with
    | none => simp [readStamp] at h
    | some s =>
      cases f with
      | auto => exact absurd rfl hne
      | epoch => simp [readStamp] at h; exact h.2.symm
      | iso => simp [readStamp] at h; exact h.2.symm
  refine ⟨a, hf, ?_⟩
  exact ((readStamp_again (g := f') (fun hne => hf hne)).2 t f' h).2 rfl

/-- what comes after a line also comes after what was before it -/
theorem modeLine_later {cd : Codec} {sp : Text → Text → Option ℚ} {sel : Sel} {m : TimeMode} {fields : List Text} {c : TimeLoad} {F : CsvState}
    (h : TsAgree m (modeLineLeft cd sp sel m fields c) F) : TsLater m c.base F := by
  have hts : ∀ {c1}, resolveTs c.base = .ok c1 → (c.base.tsIdx ≠ none → c1.st.tsCol = c.base.st.tsCol) ∧ c1.st.tsFormat = c.base.st.tsFormat := by
    intro c1 h1
    obtain ⟨i, hc1, hx, -⟩ := resolveTs_form h1
    exact ⟨hx, by rw [hc1]⟩
  unfold modeLineLeft at h
  split at h
  · unfold dataLineLeft at h
    split at h
    · exact ⟨fun _ => h.col, h.fmt⟩
    rename_i c1 h1
    obtain ⟨a, b⟩ := hts h1
    have base : ∀ {G}, G = c1.st → TsAgree (.stamp none) G F → TsLater (.stamp none) c.base F := by
      rintro _ rfl h
      refine ⟨fun hc => ?_, fun hf => ?_⟩
      · rw [h.col]; exact a (hc.elim id (fun x => by cases x))
      · rw [h.fmt (by rw [b]; exact hf), b]
    split at h
    · exact base rfl h
    split at h
    · exact base rfl h
    · rename_i t f hr
      obtain ⟨x, y, -⟩ := readStamp_fmt hr
      obtain ⟨p, q⟩ := dataLeft_ts sel { c1 with st := { c1.st with tsFormat := f } }
      refine ⟨fun hc => ?_, fun hf => ?_⟩
      · rw [h.col, p]; exact a (hc.elim id (fun x => by cases x))
      · rw [h.fmt (.inl (by rw [q]; exact x)), q]
        dsimp only
        rw [← b] at hf ⊢
        exact y (hf.elim id (fun x => by cases x))
  · rename_i fm
    unfold customLineLeft at h
    have base : ∀ {G : CsvState}, (∀ c1, resolveTs c.base = .ok c1 → G.tsCol = c1.st.tsCol ∧ G.tsFormat = c1.st.tsFormat) →
        (∃ c1, resolveTs c.base = .ok c1) → TsAgree (.stamp (some fm)) G F → TsLater (.stamp (some fm)) c.base F := by
      rintro G hG ⟨c1, h1⟩ h
      obtain ⟨p, q⟩ := hG c1 h1
      obtain ⟨a, b⟩ := hts h1
      refine ⟨fun hc => ?_, fun hf => ?_⟩
      · rw [h.col, p]; exact a (hc.elim id (fun x => by cases x))
      · rw [h.fmt (.inr rfl), q, b]
    split at h
    · exact ⟨fun _ => h.col, h.fmt⟩
    rename_i c1 h1
    split at h
    · exact base (fun c2 h2 => by rw [h1] at h2; cases h2; exact ⟨rfl, rfl⟩) ⟨c1, h1⟩ h
    split at h
    · exact base (fun c2 h2 => by rw [h1] at h2; cases h2; exact ⟨rfl, rfl⟩) ⟨c1, h1⟩ h
    · exact base (fun c2 h2 => by rw [h1] at h2; cases h2; exact dataLeft_ts _ _) ⟨c1, h1⟩ h
  · rename_i x1 x2 x3 x4
    have base : ∀ {G : CsvState}, (G.tsCol = c.base.st.tsCol ∧ G.tsFormat = c.base.st.tsFormat) → TsAgree (.parts x1 x2 x3 x4) G F →
        TsLater (.parts x1 x2 x3 x4) c.base F := by
      rintro G ⟨p, q⟩ h
      exact ⟨fun _ => h.col.trans p, fun _ => (h.fmt (.inr rfl)).trans q⟩
    refine base ?_ h
    unfold partsLineLeft
    split
    · exact ⟨rfl, rfl⟩
    split
    · exact ⟨rfl, rfl⟩
    split
    · exact ⟨rfl, rfl⟩
    split
    · exact ⟨rfl, rfl⟩
    split
    · exact ⟨rfl, rfl⟩
    split
    · exact ⟨rfl, rfl⟩
    · exact dataLeft_ts _ _

/-- two readings which select other columns: a line either changes the same things in both and the type of the data is not looked at, or the
timestamp attributes of a later moment make no difference on it -/
def LineSame (run : Sel → TimeLoad → Except PyErr TimeLoad) (sel : Sel) (c : TimeLoad) (F : CsvState) : Prop :=
  (∃ c', run sel c = .ok c' ∧ c'.base.rows = c.base.rows ∧ ∀ d sel', run sel' (c.re (F.typed d)) = .ok (c'.re (F.typed d)) ∧
      run sel' (c.re (c.base.st.typed d)) = .ok (c'.re (c'.base.st.typed d))) ∨
  ∀ d sel', run sel' (c.re (F.typed d)) = run sel' (c.re (c.base.st.typed d))

theorem modeLine_same {cd : Codec} {sp : Text → Text → Option ℚ} {cf : CsvConf} {sel : Sel} {m : TimeMode} {fields : List Text} {c : TimeLoad}
    {F : CsvState} (h : TsAgree m (modeLineLeft cd sp sel m fields c) F) :
    LineSame (fun sel => modeLine cd sp cf sel m fields) sel c F := by
  unfold modeLineLeft at h
  split at h
  · unfold dataLineLeft at h
    unfold LineSame modeLine
    dsimp only
    split at h
    · rename_i e h1
      refine .inr fun d sel' => ?_
      rw [dataLine_split, dataLine_split, show (c.re (F.typed d)).base = c.base.re (F.typed d) from rfl, resolveTs_fails h1 (F.typed d) h.col,
        show (c.re (c.base.st.typed d)).base = c.base.re (c.base.st.typed d) from rfl, resolveTs_fails h1 (c.base.st.typed d) rfl]
      rfl
    rename_i c1 h1
    obtain ⟨i, hc1, hx, hG⟩ := resolveTs_form h1
    have hi : c1.tsIdx.getD 0 = i := by rw [hc1]; rfl
    have hfm : c1.st.tsFormat = c.base.st.tsFormat := by rw [hc1]
    rw [hi] at h
    split at h
    · rename_i hv
      refine .inr fun d sel' => ?_
      rw [dataLine_split, dataLine_split, show (c.re (F.typed d)).base = c.base.re (F.typed d) from rfl, hG (F.typed d) (.inl h.col),
        show (c.re (c.base.st.typed d)).base = c.base.re (c.base.st.typed d) from rfl, hG (c.base.st.typed d) (.inr rfl)]
      dsimp only [Option.getD_some]
      rw [hv]
      rfl
    rename_i v hv
    split at h
    · rename_i hr
      have hr' := (readStamp_again (g := F.tsFormat) (fun hne => h.fmt (.inl hne))).1 hr
      by_cases hs : cf.skipErrors = true
      · refine .inl ⟨{ c with base := c1 }, ?_, by rw [hc1], fun d sel' => ⟨?_, ?_⟩⟩
        · rw [dataLine_split, h1]
          dsimp only
          rw [hi, hv]
          dsimp only
          rw [hr]
          dsimp only [badLine]
          rw [if_pos hs]
          rfl
        · rw [dataLine_split, show (c.re (F.typed d)).base = c.base.re (F.typed d) from rfl, hG (F.typed d) (.inl h.col)]
          dsimp only [Option.getD_some]
          rw [hv]
          dsimp only [CsvState.typed]
          rw [hr']
          dsimp only [badLine]
          rw [if_pos hs]
          dsimp only [Except.map, TimeLoad.re, LoadState.re]
          rw [← h.col]
          conv_rhs => rw [hc1]
        · rw [dataLine_split, show (c.re (c.base.st.typed d)).base = c.base.re (c.base.st.typed d) from rfl, hG (c.base.st.typed d) (.inr rfl)]
          dsimp only [Option.getD_some]
          rw [hv]
          dsimp only [CsvState.typed]
          rw [← hfm, hr]
          dsimp only [badLine]
          rw [if_pos hs]
          dsimp only [Except.map, TimeLoad.re, LoadState.re]
          rw [hc1]
      · refine .inr fun d sel' => ?_
        rw [dataLine_split, dataLine_split, show (c.re (F.typed d)).base = c.base.re (F.typed d) from rfl, hG (F.typed d) (.inl h.col),
          show (c.re (c.base.st.typed d)).base = c.base.re (c.base.st.typed d) from rfl, hG (c.base.st.typed d) (.inr rfl)]
        dsimp only [Option.getD_some]
        rw [hv]
        dsimp only [CsvState.typed]
        rw [hr', ← hfm, hr]
        dsimp only [badLine]
        rw [if_neg hs, if_neg hs]
        rfl
    · rename_i t f hr
      obtain ⟨p, q⟩ := dataLeft_ts sel { c1 with st := { c1.st with tsFormat := f } }
      obtain ⟨x, y, z⟩ := readStamp_fmt hr
      have hF : F.tsFormat = f := by rw [h.fmt (.inl (by rw [q]; exact x)), q]
      refine .inr fun d sel' => ?_
      rw [dataLine_split, dataLine_split, show (c.re (F.typed d)).base = c.base.re (F.typed d) from rfl, hG (F.typed d) (.inl (h.col.trans p)),
        show (c.re (c.base.st.typed d)).base = c.base.re (c.base.st.typed d) from rfl, hG (c.base.st.typed d) (.inr rfl)]
      dsimp only [Option.getD_some]
      rw [hv]
      dsimp only [CsvState.typed]
      rw [hF, z, ← hfm, hr]
      rfl
  · rename_i fm
    refine .inr fun d sel' => ?_
    unfold modeLine customLine
    dsimp only
    rw [show (c.re (F.typed d)).base = c.base.re (F.typed d) from rfl,
      show (c.re (c.base.st.typed d)).base = c.base.re (c.base.st.typed d) from rfl]
    unfold customLineLeft at h
    cases h1 : resolveTs c.base with
    | error e => rw [h1] at h; rw [resolveTs_fails h1 (F.typed d) h.col, resolveTs_fails h1 (c.base.st.typed d) rfl]; rfl
    | ok c1 =>
      rw [h1] at h
      dsimp only at h
      obtain ⟨i, hc1, hx, hG⟩ := resolveTs_form h1
      have hF : F.tsCol = c1.st.tsCol ∧ F.tsFormat = c.base.st.tsFormat := by
        have hfm : c1.st.tsFormat = c.base.st.tsFormat := by rw [hc1]
        split at h
        · exact ⟨h.col, (h.fmt (.inr rfl)).trans hfm⟩
        split at h
        · exact ⟨h.col, (h.fmt (.inr rfl)).trans hfm⟩
        · obtain ⟨p, q⟩ := dataLeft_ts sel c1
          exact ⟨h.col.trans p, ((h.fmt (.inr rfl)).trans q).trans hfm⟩
      rw [hG (F.typed d) (.inl hF.1), hG (c.base.st.typed d) (.inr rfl)]
      dsimp only [CsvState.typed]
      rw [hF.2]
      rfl
  · rename_i x1 x2 x3 x4
    have hl : TsAgree (.parts x1 x2 x3 x4) c.base.st F := by
      have := modeLine_later (cd := cd) (sp := sp) (sel := sel) (m := .parts x1 x2 x3 x4) (fields := fields) (c := c) (F := F) h
      exact ⟨this.col (.inr rfl), fun h => this.fmt h⟩
    refine .inr fun d sel' => ?_
    have : F.typed d = c.base.st.typed d := by
      unfold CsvState.typed
      rw [hl.col, hl.fmt (.inr rfl)]
    rw [this]

/-! ## Steps and lines -/

/-- how the step reads a line: nothing happens, the labels are set, or the line is read -/
theorem modeStep_cases (cd : Codec) (cf : CsvConf) (line : Text) (c : TimeLoad) :
    (∃ cols labels, ∀ (sp : Text → Text → Option ℚ) (m : TimeMode) (G : CsvState),
      (∀ sel, modeStep cd sp cf sel m line (c.re G) = .ok { c.re G with base := { c.base.re G with cols := cols, labels := labels } }) ∧
      ∀ sel, modeStepLeft cd sp cf sel m line (c.re G) = G) ∨
    (∃ cols, ∀ (sp : Text → Text → Option ℚ) (m : TimeMode) (G : CsvState),
      (∀ sel, modeStep cd sp cf sel m line (c.re G) = modeLine cd sp cf sel m (splitSep cf.sep line) { c.re G with base := { c.base.re G with cols := cols } }) ∧
      ∀ sel, modeStepLeft cd sp cf sel m line (c.re G) = modeLineLeft cd sp sel m (splitSep cf.sep line) { c.re G with base := { c.base.re G with cols := cols } }) := by
  cases line with
  | nil => exact .inl ⟨c.base.cols, c.base.labels, fun _ _ G => ⟨fun _ => rfl, fun _ => rfl⟩⟩
  | cons a r =>
    by_cases h1 : a ∈ cf.comments
    · refine .inl ⟨c.base.cols, c.base.labels, fun _ _ G => ⟨fun _ => ?_, fun _ => ?_⟩⟩
      · unfold modeStep; dsimp only; rw [if_pos h1]; rfl
      · unfold modeStepLeft; dsimp only; rw [if_pos h1]; rfl
    by_cases h2 : cf.sep ∉ a :: r
    · refine .inl ⟨c.base.cols, c.base.labels, fun _ _ G => ⟨fun _ => ?_, fun _ => ?_⟩⟩
      · unfold modeStep; dsimp only; rw [if_neg h1, if_pos h2]; rfl
      · unfold modeStepLeft; dsimp only; rw [if_neg h1, if_pos h2]; rfl
    by_cases h3 : c.base.cols = []
    · by_cases h4 : ((splitSep cf.sep (a :: r)).any fun v => !convertible cd v) = true
      · refine .inl ⟨columnIndexes (splitSep cf.sep (a :: r)), some (columnLabels (splitSep cf.sep (a :: r))), fun _ _ G => ⟨fun _ => ?_, fun _ => ?_⟩⟩
        · unfold modeStep; dsimp only; rw [if_neg h1, if_neg h2, if_pos (show (c.re G).base.cols = [] from h3), if_pos h4]; rfl
        · unfold modeStepLeft; dsimp only; rw [if_neg h1, if_neg h2, if_pos (show (c.re G).base.cols = [] from h3), if_pos h4]; rfl
      · refine .inr ⟨columnIndexes (splitSep cf.sep (a :: r)), fun _ _ G => ⟨fun _ => ?_, fun _ => ?_⟩⟩
        · unfold modeStep; dsimp only; rw [if_neg h1, if_neg h2, if_pos (show (c.re G).base.cols = [] from h3), if_neg h4]; rfl
        · unfold modeStepLeft; dsimp only; rw [if_neg h1, if_neg h2, if_pos (show (c.re G).base.cols = [] from h3), if_neg h4]; rfl
    · refine .inr ⟨c.base.cols, fun _ _ G => ⟨fun _ => ?_, fun _ => ?_⟩⟩
      · unfold modeStep; dsimp only; rw [if_neg h1, if_neg h2, if_neg (show ¬ (c.re G).base.cols = [] from h3)]; rfl
      · unfold modeStepLeft; dsimp only; rw [if_neg h1, if_neg h2, if_neg (show ¬ (c.re G).base.cols = [] from h3)]; rfl

theorem TimeLoad.re_self (c : TimeLoad) : c.re c.base.st = c := rfl

/-- a step which ends well, and what comes later -/
theorem modeStep_later {cd : Codec} {sp : Text → Text → Option ℚ} {cf : CsvConf} {sel : Sel} {m : TimeMode} {line : Text} {c c' : TimeLoad}
    (h : modeStep cd sp cf sel m line c = .ok c') {F : CsvState} (hF : TsLater m c'.base F) :
    TsLater m c.base F ∧ LineSame (fun sel => modeStep cd sp cf sel m line) sel c F := by
  rcases modeStep_cases cd cf line c with ⟨cols, labels, hs⟩ | ⟨cols, hs⟩
  · obtain ⟨h1, -⟩ := hs sp m c.base.st
    have h1' := h1 sel
    rw [TimeLoad.re_self, h] at h1'
    have hc' := Except.ok.inj h1'
    refine ⟨⟨fun x => ?_, fun x => ?_⟩, .inl ⟨c', h, by rw [hc']; rfl, fun d sel' => ⟨?_, ?_⟩⟩⟩
    · rw [hF.col (by rw [hc']; exact x), hc']; rfl
    · rw [hF.fmt (by rw [hc']; exact x), hc']; rfl
    · dsimp only; rw [(hs sp m _).1 sel', hc']; rfl
    · dsimp only; rw [(hs sp m _).1 sel', hc']; rfl
  · obtain ⟨h1, -⟩ := hs sp m c.base.st
    have h1' := h1 sel
    rw [TimeLoad.re_self, h] at h1'
    obtain ⟨a, b⟩ := modeLine_left h1'.symm
    have hag : TsAgree m (modeLineLeft cd sp sel m (splitSep cf.sep line) { c with base := { c.base.re c.base.st with cols := cols } }) F := by
      rw [← a]
      refine ⟨hF.col ?_, hF.fmt⟩
      cases hm : m.stamped with
      | true => exact .inl (b hm)
      | false => exact .inr rfl
    have hl := modeLine_later hag
    refine ⟨⟨hl.col, hl.fmt⟩, ?_⟩
    rcases modeLine_same (cf := cf) hag with ⟨c2, x, y, z⟩ | z
    · refine .inl ⟨c2, ?_, y, fun d sel' => ⟨?_, ?_⟩⟩
      · dsimp only at x ⊢; rw [h, ← x]; exact h1'
      · dsimp only; rw [(hs sp m _).1 sel']; exact (z d sel').1
      · dsimp only; rw [(hs sp m _).1 sel']; exact (z d sel').2
    · refine .inr fun d sel' => ?_
      dsimp only
      rw [(hs sp m _).1 sel', (hs sp m _).1 sel']
      exact z d sel'

/-- a step which raises -/
theorem modeStep_raises {cd : Codec} {sp : Text → Text → Option ℚ} {cf : CsvConf} {sel : Sel} {m : TimeMode} {line : Text} {c : TimeLoad} {e : PyErr}
    (h : modeStep cd sp cf sel m line c = .error e) :
    TsLater m c.base (modeStepLeft cd sp cf sel m line c) ∧
    ∀ d sel', modeStep cd sp cf sel' m line (c.re ((modeStepLeft cd sp cf sel m line c).typed d)) =
      modeStep cd sp cf sel' m line (c.re (c.base.st.typed d)) := by
  rcases modeStep_cases cd cf line c with ⟨cols, labels, hs⟩ | ⟨cols, hs⟩
  · have h1' := (hs sp m c.base.st).1 sel
    rw [TimeLoad.re_self, h] at h1'
    cases h1'
  · have h1' := (hs sp m c.base.st).1 sel
    have h2' := (hs sp m c.base.st).2 sel
    rw [TimeLoad.re_self] at h1' h2'
    rw [h] at h1'
    have hag := TsAgree.mk (m := m) (L := modeLineLeft cd sp sel m (splitSep cf.sep line) { c with base := { c.base.re c.base.st with cols := cols } })
      (F := modeLineLeft cd sp sel m (splitSep cf.sep line) { c with base := { c.base.re c.base.st with cols := cols } }) rfl (fun _ => rfl)
    rw [h2']
    have hl := modeLine_later hag
    refine ⟨⟨hl.col, hl.fmt⟩, fun d sel' => ?_⟩
    rw [(hs sp m _).1 sel', (hs sp m _).1 sel']
    rcases modeLine_same (cf := cf) hag with ⟨c2, x, y, z⟩ | z
    · dsimp only at x
      exact absurd (h1'.trans x) (by simp)
    · exact z d sel'

/-- the whole loop: the attributes left by it, but for the type of the data, make no difference for another reading -/
theorem modeLines_history {cd : Codec} {sp : Text → Text → Option ℚ} {cf : CsvConf} {sel : Sel} {m : TimeMode} {limit : Option ℕ} :
    ∀ (lines : List Text) (c : TimeLoad), TsLater m c.base (modeLinesLeft cd sp cf sel m limit lines c) ∧
      ∀ d sel' limit', (modeLines cd sp cf sel' m limit' lines (c.re ((modeLinesLeft cd sp cf sel m limit lines c).typed d))).map (fun x => x.base.rows) =
        (modeLines cd sp cf sel' m limit' lines (c.re (c.base.st.typed d))).map (fun x => x.base.rows)
  | [], c => ⟨TsLater.self m c.base, fun _ _ _ => rfl⟩
  | l :: r, c => by
    cases h : modeStep cd sp cf sel m l c with
    | error e =>
      obtain ⟨a, b⟩ := modeStep_raises h
      simp only [modeLinesLeft, h]
      refine ⟨a, fun d sel' limit' => ?_⟩
      simp only [modeLines]
      rw [b d sel']
      rfl
    | ok c' =>
      have key : ∀ F, TsLater m c'.base F → (¬ c'.base.rows.length > c.base.rows.length → F = modeLinesLeft cd sp cf sel m limit r c') →
          TsLater m c.base F ∧ ∀ d sel' limit', (modeLines cd sp cf sel' m limit' (l :: r) (c.re (F.typed d))).map (fun x => x.base.rows) =
            (modeLines cd sp cf sel' m limit' (l :: r) (c.re (c.base.st.typed d))).map (fun x => x.base.rows) := by
        intro F hF hr
        obtain ⟨a, b⟩ := modeStep_later h hF
        refine ⟨a, fun d sel' limit' => ?_⟩
        rcases b with ⟨c2, x, y, z⟩ | z
        · dsimp only at x
          rw [h] at x
          cases x
          have hgt : ¬ c'.base.rows.length > c.base.rows.length := by rw [y]; exact lt_irrefl _
          simp only [modeLines]
          have z1 := (z d sel').1
          have z2 := (z d sel').2
          dsimp only at z1 z2
          rw [z1, z2]
          dsimp only
          rw [if_neg (fun h => hgt h.1), if_neg (fun h => hgt h.1), hr hgt]
          exact (modeLines_history r c').2 d sel' limit'
        · have z := z d sel'
          dsimp only at z
          simp only [modeLines]
          rw [z]
          rfl
      simp only [modeLinesLeft, h]
      split
      · rename_i hlim
        exact key _ (TsLater.self m c'.base) (fun hn => absurd hlim.1 hn)
      · exact key _ (modeLines_history r c').1 (fun _ => rfl)

/-! ## The type of the data -/

theorem modeStepLeft_type (cd : Codec) (sp : Text → Text → Option ℚ) (cf : CsvConf) (sel : Sel) (m : TimeMode) (line : Text) (c : TimeLoad) :
    (modeStepLeft cd sp cf sel m line c).dataType = c.base.st.dataType ∨
      (∃ l, sel = .nums l) ∧ (modeStepLeft cd sp cf sel m line c).dataType = some .list := by
  have hline : ∀ (fields : List Text) (c : TimeLoad), (modeLineLeft cd sp sel m fields c).dataType = c.base.st.dataType ∨
      (∃ l, sel = .nums l) ∧ (modeLineLeft cd sp sel m fields c).dataType = some .list := by
    intro fields c
    have hts : ∀ {c1}, resolveTs c.base = .ok c1 → c1.st.dataType = c.base.st.dataType := by
      intro c1 h1
      obtain ⟨i, hc1, -, -⟩ := resolveTs_form h1
      rw [hc1]
    unfold modeLineLeft
    split
    · unfold dataLineLeft
      split
      · exact .inl rfl
      rename_i c1 h1
      split
      · exact .inl (hts h1)
      split
      · exact .inl (hts h1)
      · rename_i t f _
        rcases dataLeft_type sel { c1 with st := { c1.st with tsFormat := f } } with h | h
        · exact .inl (h.trans (show ({ c1 with st := { c1.st with tsFormat := f } } : LoadState).st.dataType = c.base.st.dataType from @hts c1 h1))
        · exact .inr h
    · unfold customLineLeft
      split
      · exact .inl rfl
      rename_i c1 h1
      split
      · exact .inl (hts h1)
      split
      · exact .inl (hts h1)
      · rcases dataLeft_type sel _ with h | h
        · exact .inl (h.trans (hts h1))
        · exact .inr h
    · unfold partsLineLeft
      split
      · exact .inl rfl
      split
      · exact .inl rfl
      split
      · exact .inl rfl
      split
      · exact .inl rfl
      split
      · exact .inl rfl
      split
      · exact .inl rfl
      · exact dataLeft_type _ _
  rcases modeStep_cases cd cf line c with ⟨cols, labels, hs⟩ | ⟨cols, hs⟩
  · have := (hs sp m c.base.st).2 sel
    rw [TimeLoad.re_self] at this
    rw [this]
    exact .inl rfl
  · have := (hs sp m c.base.st).2 sel
    rw [TimeLoad.re_self] at this
    rw [this]
    exact hline _ _

/-- a step which ends well leaves the attributes which `modeStepLeft` says -/
theorem modeStep_left {cd : Codec} {sp : Text → Text → Option ℚ} {cf : CsvConf} {sel : Sel} {m : TimeMode} {line : Text} {c c' : TimeLoad}
    (h : modeStep cd sp cf sel m line c = .ok c') : c'.base.st = modeStepLeft cd sp cf sel m line c := by
  rcases modeStep_cases cd cf line c with ⟨cols, labels, hs⟩ | ⟨cols, hs⟩
  · have h1 := (hs sp m c.base.st).1 sel
    have h2 := (hs sp m c.base.st).2 sel
    rw [TimeLoad.re_self] at h1 h2
    rw [h] at h1
    rw [h2, Except.ok.inj h1]
    rfl
  · have h1 := (hs sp m c.base.st).1 sel
    have h2 := (hs sp m c.base.st).2 sel
    rw [TimeLoad.re_self] at h1 h2
    rw [h] at h1
    rw [h2]
    exact (modeLine_left h1.symm).1

theorem modeLinesLeft_type {cd : Codec} {sp : Text → Text → Option ℚ} {cf : CsvConf} {sel : Sel} {m : TimeMode} {limit : Option ℕ} :
    ∀ (lines : List Text) (c : TimeLoad), (modeLinesLeft cd sp cf sel m limit lines c).dataType = c.base.st.dataType ∨
      (∃ l, sel = .nums l) ∧ (modeLinesLeft cd sp cf sel m limit lines c).dataType = some .list
  | [], _ => .inl rfl
  | l :: r, c => by
    have ht := modeStepLeft_type cd sp cf sel m l c
    cases h : modeStep cd sp cf sel m l c with
    | error e => simp only [modeLinesLeft, h]; exact ht
    | ok c' =>
      rw [← modeStep_left h] at ht
      simp only [modeLinesLeft, h]
      split
      · exact ht
      · rcases modeLinesLeft_type (sel := sel) (limit := limit) r c' with h1 | h1
        · rcases ht with h2 | h2
          · exact .inl (h1.trans h2)
          · exact .inr ⟨h2.1, h1.trans h2.2⟩
        · exact .inr h1

/-- the loop ends with the attributes which `modeLinesLeft` says -/
theorem modeLines_left {cd : Codec} {sp : Text → Text → Option ℚ} {cf : CsvConf} {sel : Sel} {m : TimeMode} {limit : Option ℕ} :
    ∀ {lines : List Text} {c c' : TimeLoad}, modeLines cd sp cf sel m limit lines c = .ok c' → c'.base.st = modeLinesLeft cd sp cf sel m limit lines c
  | [], c, c', h => by cases h; rfl
  | l :: r, c, c', h => by
    simp only [modeLines] at h
    simp only [modeLinesLeft]
    cases hs : modeStep cd sp cf sel m l c with
    | error e => rw [hs] at h; cases h
    | ok c1 =>
      rw [hs] at h
      dsimp only at h ⊢
      split at h
      · rename_i hl; rw [if_pos hl]; cases h; rfl
      · rename_i hl; rw [if_neg hl]; exact modeLines_left h

/-- selecting columns by number, the type of the data which the storage had does not matter -/
theorem modeStep_nums {cd : Codec} {sp : Text → Text → Option ℚ} {cf : CsvConf} {l : List ℕ} {m : TimeMode} {line : Text} {c : TimeLoad}
    (hc : c.base.dataIdx = none) :
    (∃ c' : TimeLoad, c'.base.dataIdx = none ∧ ∀ d, modeStep cd sp cf (.nums l) m line (c.re (c.base.st.typed d)) = .ok (c'.re (c'.base.st.typed d))) ∨
    ∀ d d', modeStep cd sp cf (.nums l) m line (c.re (c.base.st.typed d)) = modeStep cd sp cf (.nums l) m line (c.re (c.base.st.typed d')) := by
  have hline : ∀ (fields : List Text) (c : TimeLoad), c.base.dataIdx = none →
      (∃ c' : TimeLoad, c'.base.dataIdx = none ∧ ∀ d, modeLine cd sp cf (.nums l) m fields (c.re (c.base.st.typed d)) = .ok (c'.re (c'.base.st.typed d))) ∨
      ∀ d d', modeLine cd sp cf (.nums l) m fields (c.re (c.base.st.typed d)) = modeLine cd sp cf (.nums l) m fields (c.re (c.base.st.typed d')) := by
    intro fields c hc
    unfold modeLine
    split
    · cases h1 : resolveTs c.base with
      | error e =>
        refine .inr fun d d' => ?_
        rw [dataLine_split, dataLine_split, show ∀ d, (c.re (c.base.st.typed d)).base = c.base.re (c.base.st.typed d) from fun _ => rfl,
          resolveTs_fails h1 (c.base.st.typed d) rfl]
        rw [show ∀ d, (c.re (c.base.st.typed d)).base = c.base.re (c.base.st.typed d) from fun _ => rfl,
          resolveTs_fails h1 (c.base.st.typed d') rfl]
        rfl
      | ok c1 =>
        obtain ⟨i, hc1, -, hG⟩ := resolveTs_form h1
        have hrun : ∀ d, dataLine cd cf (.nums l) fields (c.re (c.base.st.typed d)).base =
            match fields[i]? with
            | none => .error .indexError
            | some v =>
              match readStamp cd c.base.st.tsFormat (sanitize ph v) with
              | none => badLine cf.skipErrors .valueError (c1.re (c1.st.typed d))
              | some (t, f) =>
                match resolveData (.nums l) i { c1 with st := ⟨c1.st.tsCol, f, d⟩ } with
                | .error e => .error e
                | .ok c => finishRow cd cf fields t c := by
          intro d
          rw [dataLine_split, show (c.re (c.base.st.typed d)).base = c.base.re (c.base.st.typed d) from rfl, hG (c.base.st.typed d) (.inr rfl)]
          dsimp only [CsvState.typed, Option.getD_some]
          rw [hc1]
          rfl
        cases hv : fields[i]? with
        | none => refine .inr fun d d' => ?_; rw [hrun, hrun, hv]; rfl
        | some v =>
          cases hr : readStamp cd c.base.st.tsFormat (sanitize ph v) with
          | none =>
            by_cases hs : cf.skipErrors = true
            · refine .inl ⟨{ c with base := c1 }, by rw [hc1]; exact hc, fun d => ?_⟩
              dsimp only
              rw [hrun, hv]
              dsimp only
              rw [hr]
              dsimp only [badLine]
              rw [if_pos hs]
              rfl
            · refine .inr fun d d' => ?_
              rw [hrun, hrun, hv]
              dsimp only
              rw [hr]
              dsimp only [badLine]
              rw [if_neg hs, if_neg hs]
              rfl
          | some p =>
            refine .inr fun d d' => ?_
            rw [hrun, hrun, hv]
            dsimp only
            rw [hr]
            have hc2 : c1.dataIdx = none := by rw [hc1]; exact hc
            unfold resolveData
            dsimp only
            rw [hc2]
            rfl
    · rename_i fm
      cases h1 : resolveTs c.base with
      | error e =>
        refine .inr fun d d' => ?_
        unfold customLine
        rw [show ∀ d, (c.re (c.base.st.typed d)).base = c.base.re (c.base.st.typed d) from fun _ => rfl,
          resolveTs_fails h1 (c.base.st.typed d) rfl]
        rw [show ∀ d, (c.re (c.base.st.typed d)).base = c.base.re (c.base.st.typed d) from fun _ => rfl,
          resolveTs_fails h1 (c.base.st.typed d') rfl]
        rfl
      | ok c1 =>
        obtain ⟨i, hc1, -, hG⟩ := resolveTs_form h1
        have hrun : ∀ d, customLine cd sp cf (.nums l) fm fields (c.re (c.base.st.typed d)).base =
            match fields[i]? with
            | none => .error .indexError
            | some v =>
              match (sanitize ph v).bind (sp fm) with
              | none => badLine cf.skipErrors .valueError (c1.re (c1.st.typed d))
              | some t =>
                match resolveData (.nums l) i (c1.re (c1.st.typed d)) with
                | .error e => .error e
                | .ok c => finishRow cd cf fields t c := by
          intro d
          unfold customLine
          rw [show (c.re (c.base.st.typed d)).base = c.base.re (c.base.st.typed d) from rfl, hG (c.base.st.typed d) (.inr rfl)]
          dsimp only [CsvState.typed, Option.getD_some]
          rw [hc1]
          rfl
        cases hv : fields[i]? with
        | none => refine .inr fun d d' => ?_; rw [hrun, hrun, hv]; rfl
        | some v =>
          cases hr : (sanitize ph v).bind (sp fm) with
          | none =>
            by_cases hs : cf.skipErrors = true
            · refine .inl ⟨{ c with base := c1 }, by rw [hc1]; exact hc, fun d => ?_⟩
              dsimp only
              rw [hrun, hv]
              dsimp only
              rw [hr]
              dsimp only [badLine]
              rw [if_pos hs]
              rfl
            · refine .inr fun d d' => ?_
              rw [hrun, hrun, hv]
              dsimp only
              rw [hr]
              dsimp only [badLine]
              rw [if_neg hs, if_neg hs]
              rfl
          | some p =>
            refine .inr fun d d' => ?_
            rw [hrun, hrun, hv]
            dsimp only
            rw [hr]
            have hc2 : c1.dataIdx = none := by rw [hc1]; exact hc
            unfold resolveData
            dsimp only [LoadState.re, CsvState.typed]
            rw [hc2]
            rfl
    · rename_i x1 x2 x3 x4
      have hrun : ∀ d, partsLine cd sp cf (.nums l) x1 x2 x3 x4 fields (c.re (c.base.st.typed d)) =
          match resolvePart c.base.labels x1 c.timeIdx with
          | .error e => .error e
          | .ok ti =>
            match resolvePart c.base.labels x2 c.dateIdx with
            | .error e => .error e
            | .ok di =>
              if ti = none ∧ di = none then .error .exception
              else
                match partText fields ti with
                | .error e => .error e
                | .ok tp =>
                  match partText fields di with
                  | .error e => .error e
                  | .ok dp =>
                    match (assembleStamp dp tp).bind (sp (partsFormat x1 x2 x3 x4)) with
                    | none => (badLine cf.skipErrors .valueError (c.base.re (c.base.st.typed d))).map (fun b => ⟨b, ti, di⟩)
                    | some t =>
                      match withNames { c.base.re (c.base.st.typed (some .list)) with dataIdx := none } l with
                      | .error e => .error e
                      | .ok b => (finishRow cd cf fields t b).map (fun b => ⟨b, ti, di⟩) := by
        intro d
        unfold partsLine resolveDataParts
        rw [show (c.re (c.base.st.typed d)).base.dataIdx = none from hc, show (c.re (c.base.st.typed d)).base.labels = c.base.labels from rfl]
        rfl
      simp only [hrun]
      split
      · exact .inr fun _ _ => rfl
      split
      · exact .inr fun _ _ => rfl
      split
      · exact .inr fun _ _ => rfl
      split
      · exact .inr fun _ _ => rfl
      split
      · exact .inr fun _ _ => rfl
      split
      · rename_i ti h1 _ di h2 _ _ _ _ _ _ _ _ _
        by_cases hs : cf.skipErrors = true
        · refine .inl ⟨⟨c.base, ti, di⟩, hc, fun d => ?_⟩
          unfold badLine
          rw [if_pos hs]
          rfl
        · refine .inr fun d d' => ?_
          unfold badLine
          rw [if_neg hs, if_neg hs]
      · exact .inr fun _ _ => rfl
  rcases modeStep_cases cd cf line c with ⟨cols, labels, hs⟩ | ⟨cols, hs⟩
  · exact .inl ⟨{ c with base := { c.base with cols := cols, labels := labels } }, hc, fun d => (hs sp m _).1 _⟩
  · rcases hline (splitSep cf.sep line) { c with base := { c.base with cols := cols } } hc with ⟨c', h1, h2⟩ | h2
    · exact .inl ⟨c', h1, fun d => ((hs sp m _).1 _).trans (h2 d)⟩
    · exact .inr fun d d' => ((hs sp m _).1 _).trans ((h2 d d').trans ((hs sp m _).1 _).symm)

theorem modeLines_nums {cd : Codec} {sp : Text → Text → Option ℚ} {cf : CsvConf} {s : List ℕ} {m : TimeMode} {limit : Option ℕ} :
    ∀ (lines : List Text) (c : TimeLoad), c.base.dataIdx = none → ∀ d d',
      (modeLines cd sp cf (.nums s) m limit lines (c.re (c.base.st.typed d))).map (fun x => x.base.rows) =
      (modeLines cd sp cf (.nums s) m limit lines (c.re (c.base.st.typed d'))).map (fun x => x.base.rows)
  | [], _, _, _, _ => rfl
  | l :: r, c, hc, d, d' => by
    simp only [modeLines]
    rcases modeStep_nums (cd := cd) (sp := sp) (cf := cf) (l := s) (m := m) (line := l) hc with ⟨c', h1, h2⟩ | h2
    · rw [h2 d, h2 d']
      dsimp only
      rw [show ∀ G, (c'.re G).base.rows = c'.base.rows from fun _ => rfl, show ∀ G, (c.re G).base.rows = c.base.rows from fun _ => rfl,
        show ∀ G, (c'.re G).base.rows = c'.base.rows from fun _ => rfl, show ∀ G, (c.re G).base.rows = c.base.rows from fun _ => rfl]
      split
      · rfl
      · exact modeLines_nums r c' h1 d d'
    · rw [h2 d d']
      rfl

/-! ## C285 after any history -/

/-- what `get` returns depends on the rows only -/
theorem modeGet_rows {cd : Codec} {sp : Text → Text → Option ℚ} {cal : Calendar} {detect : List ℚ → Except PyErr ℚ} {fuel : ℕ} {cf : CsvConf}
    {m : TimeMode} {st st' : CsvState} {b : GetArgs} {lines : List Text}
    (h : (modeLines cd sp cf (pickSel cf b.filter) m b.limit lines { base := { st := st } }).map (fun x => x.base.rows) =
      (modeLines cd sp cf (pickSel cf b.filter) m b.limit lines { base := { st := st' } }).map (fun x => x.base.rows)) :
    (modeGet cd sp cal detect fuel cf m st b lines).map Prod.fst = (modeGet cd sp cal detect fuel cf m st' b lines).map Prod.fst := by
  unfold modeGet modeRows
  by_cases hq : b.forcePoints = true ∧ b.forceSlots = true
  · rw [if_pos hq, if_pos hq]
  · rw [if_neg hq, if_neg hq]
    cases h1 : modeLines cd sp cf (pickSel cf b.filter) m b.limit lines { base := { st := st } } with
    | error e1 =>
      cases h2 : modeLines cd sp cf (pickSel cf b.filter) m b.limit lines { base := { st := st' } } with
      | error e2 => rw [h1, h2] at h; simp only [Except.map, Except.error.injEq] at h; rw [h]
      | ok c2 => rw [h1, h2] at h; simp [Except.map] at h
    | ok c1 =>
      cases h2 : modeLines cd sp cf (pickSel cf b.filter) m b.limit lines { base := { st := st' } } with
      | error e2 => rw [h1, h2] at h; simp [Except.map] at h
      | ok c2 =>
        rw [h1, h2] at h
        simp only [Except.map, Except.ok.injEq] at h
        dsimp only
        rw [h]
        by_cases hr : c2.base.rows = []
        · rw [if_pos hr, if_pos hr]
        · rw [if_neg hr, if_neg hr]
          dsimp only
          split
          · rfl
          · split <;> rfl
          · split <;> rfl

/-- the timestamp attributes left by some calls make no difference -/
theorem history_rows {cd : Codec} {sp : Text → Text → Option ℚ} {cf : CsvConf} {m : TimeMode} {lines : List Text} :
    ∀ (as : List GetArgs) (st : CsvState) (d : Option DType) (sel : Sel) (limit : Option ℕ),
      (modeLines cd sp cf sel m limit lines { base := { st := (modeHistory cd sp cf m lines st as).typed d } }).map (fun x => x.base.rows) =
      (modeLines cd sp cf sel m limit lines { base := { st := st.typed d } }).map (fun x => x.base.rows)
  | [], _, _, _, _ => rfl
  | a :: as, st, d, sel, limit => by
    have ih := history_rows (cd := cd) (sp := sp) (cf := cf) (m := m) (lines := lines) as (modeGetLeft cd sp cf m lines st a) d sel limit
    refine Eq.trans ih ?_
    unfold modeGetLeft
    split
    · rfl
    · exact (modeLines_history (cd := cd) (sp := sp) (cf := cf) (sel := pickSel cf a.filter) (m := m) (limit := a.limit) lines { base := { st := st } }).2
        d sel limit

/-- the type of the data after some calls -/
theorem history_type {cd : Codec} {sp : Text → Text → Option ℚ} {cf : CsvConf} {m : TimeMode} {lines : List Text} :
    ∀ (as : List GetArgs) (st : CsvState), (modeHistory cd sp cf m lines st as).dataType = st.dataType ∨
      (∃ a ∈ as, ∃ l, pickSel cf a.filter = .nums l) ∧ (modeHistory cd sp cf m lines st as).dataType = some .list
  | [], _ => .inl rfl
  | a :: as, st => by
    have h1 : (modeGetLeft cd sp cf m lines st a).dataType = st.dataType ∨
        (∃ l, pickSel cf a.filter = .nums l) ∧ (modeGetLeft cd sp cf m lines st a).dataType = some .list := by
      unfold modeGetLeft
      split
      · exact .inl rfl
      · exact modeLinesLeft_type lines { base := { st := st } }
    rcases history_type (cd := cd) (sp := sp) (cf := cf) (m := m) (lines := lines) as (modeGetLeft cd sp cf m lines st a) with h2 | ⟨⟨x, hx, hl⟩, h2⟩
    · rcases h1 with h1 | ⟨hl, h1⟩
      · exact .inl (h2.trans h1)
      · exact .inr ⟨⟨a, by simp, hl⟩, h2.trans h1⟩
    · exact .inr ⟨⟨x, by simp [hx], hl⟩, h2⟩

/-- **C285, partial**: after any history of calls of `get` on a file, whatever their arguments and whether they raised or not, a call of `get` returns
(or raises) what it would as the first call: if no call of the history selected columns by number, if this call does, or if the storage was made for
lists; in the other case it returns what it would as the first call on a storage made for lists.  Missing: that other case (`C285_filter_false`). -/
theorem C285_history_partial {cd : Codec} {sp : Text → Text → Option ℚ} {cal : Calendar} {detect : List ℚ → Except PyErr ℚ} {fuel : ℕ} {cf : CsvConf}
    {m : TimeMode} (st : CsvState) (as : List GetArgs) (b : GetArgs) (lines : List Text) :
    ((∀ a ∈ as, ∀ l, pickSel cf a.filter ≠ .nums l) ∨ (∃ l, pickSel cf b.filter = .nums l) ∨ st.dataType = some .list →
      (modeGet cd sp cal detect fuel cf m (modeHistory cd sp cf m lines st as) b lines).map Prod.fst =
        (modeGet cd sp cal detect fuel cf m st b lines).map Prod.fst) ∧
    ((modeGet cd sp cal detect fuel cf m (modeHistory cd sp cf m lines st as) b lines).map Prod.fst =
        (modeGet cd sp cal detect fuel cf m st b lines).map Prod.fst ∨
      (modeGet cd sp cal detect fuel cf m (modeHistory cd sp cf m lines st as) b lines).map Prod.fst =
        (modeGet cd sp cal detect fuel cf m { st with dataType := some .list } b lines).map Prod.fst) := by
  have hr := history_rows (cd := cd) (sp := sp) (cf := cf) (m := m) (lines := lines) as st
    (modeHistory cd sp cf m lines st as).dataType (pickSel cf b.filter) b.limit
  have hg := modeGet_rows (cal := cal) (detect := detect) (fuel := fuel) hr
  have hF : (modeHistory cd sp cf m lines st as).typed (modeHistory cd sp cf m lines st as).dataType = modeHistory cd sp cf m lines st as := rfl
  rw [hF] at hg
  have heq : (modeHistory cd sp cf m lines st as).dataType = st.dataType →
      (modeGet cd sp cal detect fuel cf m (modeHistory cd sp cf m lines st as) b lines).map Prod.fst =
        (modeGet cd sp cal detect fuel cf m st b lines).map Prod.fst := by
    intro h
    rw [hg, h]
    rfl
  constructor
  · rintro (h | ⟨l, h⟩ | h)
    · rcases history_type (cd := cd) (sp := sp) (cf := cf) (m := m) (lines := lines) as st with h1 | ⟨⟨a, ha, l, hl⟩, -⟩
      · exact heq h1
      · exact absurd hl (h a ha l)
    · rw [hg]
      refine modeGet_rows ?_
      rw [h]
      exact modeLines_nums lines { base := { st := st } } rfl _ st.dataType
    · rcases history_type (cd := cd) (sp := sp) (cf := cf) (m := m) (lines := lines) as st with h1 | ⟨-, h1⟩
      · exact heq h1
      · exact heq (h1.trans h.symm)
  · rcases history_type (cd := cd) (sp := sp) (cf := cf) (m := m) (lines := lines) as st with h1 | ⟨-, h1⟩
    · exact .inl (heq h1)
    · right
      rw [hg, h1]
      rfl

/-- **C344** (a selection of columns by label, or of all of them, leaves no trace): after any history of calls of `get` which do not select columns by
number, whether they raised or not, a call of `get` returns or raises exactly what it would on the storage as it was before all of them. -/
theorem C344_labels_leave_no_trace {cd : Codec} {sp : Text → Text → Option ℚ} {cal : Calendar} {detect : List ℚ → Except PyErr ℚ} {fuel : ℕ}
    {cf : CsvConf} {m : TimeMode} (st : CsvState) (as : List GetArgs) (has : ∀ a ∈ as, ∀ l, pickSel cf a.filter ≠ .nums l) (b : GetArgs)
    (lines : List Text) :
    (modeGet cd sp cal detect fuel cf m (modeHistory cd sp cf m lines st as) b lines).map Prod.fst =
      (modeGet cd sp cal detect fuel cf m st b lines).map Prod.fst := (C285_history_partial st as b lines).1 (.inl has)

/-- **C344**: a call which selects columns by number is never affected by the calls before it. -/
theorem C344_numbers_are_not_affected {cd : Codec} {sp : Text → Text → Option ℚ} {cal : Calendar} {detect : List ℚ → Except PyErr ℚ} {fuel : ℕ}
    {cf : CsvConf} {m : TimeMode} (st : CsvState) (as : List GetArgs) (b : GetArgs) (hb : ∃ l, pickSel cf b.filter = .nums l) (lines : List Text) :
    (modeGet cd sp cal detect fuel cf m (modeHistory cd sp cf m lines st as) b lines).map Prod.fst =
      (modeGet cd sp cal detect fuel cf m st b lines).map Prod.fst := (C285_history_partial st as b lines).1 (.inr (.inl hb))

/-- The attributes which the model says a successful call leaves are those which it returns. -/
theorem C285_left_agrees {cd : Codec} {sp : Text → Text → Option ℚ} {cal : Calendar} {detect : List ℚ → Except PyErr ℚ} {fuel : ℕ} {cf : CsvConf}
    {m : TimeMode} {st st' : CsvState} {a : GetArgs} {lines : List Text} {s : TSeries}
    (h : modeGet cd sp cal detect fuel cf m st a lines = .ok (s, st')) : modeGetLeft cd sp cf m lines st a = st' := by
  unfold modeGet at h
  unfold modeGetLeft
  split at h
  · cases h
  rename_i hp
  rw [if_neg hp]
  unfold modeRows at h
  cases hl : modeLines cd sp cf (pickSel cf a.filter) m a.limit lines { base := { st := st } } with
  | error e => rw [hl] at h; cases h
  | ok c =>
    rw [hl] at h
    dsimp only at h
    rw [← modeLines_left hl]
    by_cases hr : c.base.rows = []
    · rw [if_pos hr] at h; cases h
    · rw [if_neg hr] at h
      dsimp only at h
      split at h
      · cases h
      · split at h
        · cases h
        · cases h; rfl
      · split at h
        · cases h
        · cases h; rfl

/-- a call which raises: the label is not there -/
def failingCall : GetArgs := { filter := .names ["zzz"] }

/-- the first call raises and leaves the timestamp column and its format; the second one returns what it would have returned without it -/
example :
    (modeGet sampleCodec sampleStrptime physicalCalendar (fun _ => .ok 1) 5 sampleConf (.stamp none) {} failingCall plainFile).toOption = none ∧
    modeHistory sampleCodec sampleStrptime sampleConf (.stamp none) plainFile {} [failingCall] =
      { tsCol := .label "epoch", tsFormat := .epoch, dataType := none } := by
  constructor
  · rfl
  · decide +kernel

example : (modeGet sampleCodec sampleStrptime physicalCalendar (fun _ => .ok 1) 5 sampleConf (.stamp none)
    (modeHistory sampleCodec sampleStrptime sampleConf (.stamp none) plainFile {} [failingCall, {}]) { limit := some 1, forcePoints := true } plainFile).toOption.map
      (fun r => r.1.items.map (fun x => (x.t, x.data))) = some [(0, some (.dict [("a", 5), ("b", 7)]))] := by decide +kernel

end Timeseria
