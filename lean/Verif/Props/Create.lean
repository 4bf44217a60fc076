import Verif.Model.Create
import Verif.Lemmas.Ops
import Verif.Lemmas.Dict

/-! # Properties C179 - C188: creating points and slots -/

namespace Timeseria

/-! ## C179 -/

/-- Specification: the time zone asked for, where nothing and the empty name stand for `other`. -/
def zoneOr (z : Option String) (other : String) : String :=
  match z with
  | some z => if z = "" then other else z
  | none => other

theorem filter_zone (z : Option String) (o : String) (kw : Kwargs) (h : kw.tz = z) :
    kw.zone.getD o = zoneOr z o := by
  unfold Kwargs.zone
  rw [h]
  cases z with
  | none => rfl
  | some z => by_cases h : z = "" <;> simp [zoneOr, h]

/-- **C179** A time point created from a number, by name or by position, is at that time and on the zone
asked for (UTC if none is). -/
theorem C179_from_number (numeric : String → Bool) (x : ℚ) (z : Option String) :
    (∃ p, timePoint numeric [] { t := some (.num x), tz := z } = .ok p ∧ p.coord = .num x ∧
      p.tz = zoneOr z "UTC") ∧
    (∃ p, timePoint numeric [.num x] { tz := z } = .ok p ∧ p.coord = .num x ∧ p.tz = zoneOr z "UTC") :=
  ⟨⟨⟨.num x, _⟩, rfl, rfl, filter_zone z "UTC" { t := some (.num x), tz := z } rfl⟩,
   ⟨⟨.num x, _⟩, rfl, rfl, filter_zone z "UTC" { tz := z } rfl⟩⟩

/-- **C179** A time point created from a datetime is at the time of the datetime, and on the zone asked
for, or else on that of the datetime. -/
theorem C179_from_datetime (numeric : String → Bool) (x : ℚ) (zd : String) (z : Option String) :
    ∃ p, timePoint numeric [] { dt := some (x, zd), tz := z } = .ok p ∧ p.coord = .num x ∧
      p.tz = zoneOr z zd := by
  generalize hk : ({ dt := some (x, zd), tz := z } : Kwargs) = kw
  have h1 : kw.t = none := by rw [← hk]
  have h2 : kw.dt = some (x, zd) := by rw [← hk]
  have hf := filter_zone z zd kw (by rw [← hk])
  cases hz : kw.zone with
  | none =>
    rw [hz] at hf
    refine ⟨⟨.num x, if zd = "UTC" then none else some zd⟩, ?_, rfl, ?_⟩
    · simp [timePoint, hz, h1, h2, finishPoint, pointInit]
    · rw [← hf]
      unfold TPoint.tz
      by_cases h : zd = "UTC" <;> simp [h]
  | some z0 =>
    rw [hz] at hf
    refine ⟨⟨.num x, some z0⟩, ?_, rfl, ?_⟩
    · simp [timePoint, hz, h1, h2, finishPoint, pointInit]
    · rw [← hf]; rfl

/-- **C179** A time point created from another time point is at its time and on its zone. -/
theorem C179_from_point (numeric : String → Bool) (x : ℚ) (a : Option String) :
    ∃ p, timePoint numeric [.point ⟨.num x, a⟩] {} = .ok p ∧ p.coord = .num x ∧
      p.tz = (⟨.num x, a⟩ : TPoint).tz :=
  ⟨⟨.num x, some (a.getD "UTC")⟩, rfl, rfl, rfl⟩

example : timePoint (fun _ => false) [] { t := some (.num 60), tz := some "Europe/Rome" } =
    .ok ⟨.num 60, some "Europe/Rome"⟩ := rfl

/-! ## C180 -/

/-- **C180** is false: the zone is ignored when a point is created from another point, and when a slot is
created from its start. -/
theorem C180_false :
    (∃ p, timePoint (fun _ => false) [.point ⟨.num 60, none⟩] { tz := some "Europe/Rome" } = .ok p ∧
      p.tz = "UTC") ∧
    (∃ s, timeSlot physicalCalendar (fun _ => false) (some ⟨.num 60, none⟩) none
        (some (TUnit.ofSecs 60)) { tz := some "Europe/Rome" } = .ok s ∧ s.tz = "UTC") :=
  ⟨⟨⟨.num 60, some "UTC"⟩, rfl, rfl⟩,
   ⟨{ t := 60, slot := some (physicalCalendar.shift (TUnit.ofSecs 60) "UTC" 60, TUnit.ofSecs 60) },
    rfl, rfl⟩⟩

theorem pointInit_tz {numeric : String → Bool} {a : TArg} {tz : Option String} {p : TPoint}
    (h : finishPoint numeric a tz = .ok p) : p.tzAttr = tz := by
  unfold finishPoint at h
  split at h
  · injection h with h; rw [← h]
  · cases h

theorem timePoint_zone (numeric : String → Bool) (args : List TArg) (kw : Kwargs) (z : String)
    (p : TPoint) (hz : kw.tz = some z) (hne : z ≠ "") (hargs : ∀ q, TArg.point q ∉ args)
    (h : timePoint numeric args kw = .ok p) : p.tz = z := by
  have h0 : kw.zone = some z := by unfold Kwargs.zone; rw [hz]; simp [hne]
  have key : p.tzAttr = some z := by
    unfold timePoint at h
    simp only [h0] at h
    split at h
    · split at h
      · exact pointInit_tz h
      · exact pointInit_tz h
      · cases h
    · split at h
      · cases h
      · rename_i q
        exact absurd (List.mem_singleton.2 rfl) (hargs q)
      · exact pointInit_tz h
      · cases h
  unfold TPoint.tz
  rw [key]; rfl

theorem mkTimeSlot_tz {cal : Calendar} {s : TP} {e : Option TP} {u : Option TUnit} {x : Item}
    (h : mkTimeSlot cal s e u = .ok x) : x.tz = s.2 ∧ x.t = s.1 := by
  unfold mkTimeSlot at h
  split at h
  · split at h
    · cases h
    · split at h
      · cases h
      · injection h with h; rw [← h]; exact ⟨rfl, rfl⟩
  · split at h
    · injection h with h; rw [← h]; exact ⟨rfl, rfl⟩
    · cases h

/-- **C180, partial**: a point which is not created from another point is on the zone asked for, and so
is a slot created from a number or a datetime.  Missing: points created from points and slots created
from their start (`C180_false`). -/
theorem C180_zone_partial (numeric : String → Bool) (cal : Calendar) (z : String) (hne : z ≠ "") :
    (∀ (args : List TArg) (kw : Kwargs) (p : TPoint), kw.tz = some z → (∀ q, TArg.point q ∉ args) →
      timePoint numeric args kw = .ok p → p.tz = z) ∧
    (∀ (stop : Option TPoint) (unit : Option TUnit) (x : ℚ) (s : Item),
      timeSlot cal numeric none stop unit { t := some (.num x), tz := some z } = .ok s →
        s.tz = z ∧ s.t = x) ∧
    (∀ (stop : Option TPoint) (unit : Option TUnit) (x : ℚ) (zd : String) (s : Item),
      timeSlot cal numeric none stop unit { dt := some (x, zd), tz := some z } = .ok s →
        s.tz = z ∧ s.t = x) := by
  refine ⟨fun args kw p hz ha h => timePoint_zone numeric args kw z p hz hne ha h, ?_, ?_⟩
  · intro stop unit x s h
    obtain ⟨p, hp, hc, htz⟩ := (C179_from_number numeric x (some z)).1
    have htz : p.tz = z := by rw [htz]; simp [zoneOr, hne]
    unfold timeSlot at h
    dsimp only at h
    rw [hp] at h
    dsimp only at h
    rw [hc, htz] at h
    cases stop with
    | none => exact mkTimeSlot_tz h
    | some q =>
      dsimp only at h
      split at h
      · exact mkTimeSlot_tz h
      · cases h
  · intro stop unit x zd s h
    obtain ⟨p, hp, hc, htz⟩ := C179_from_datetime numeric x zd (some z)
    have htz : p.tz = z := by rw [htz]; simp [zoneOr, hne]
    unfold timeSlot at h
    dsimp only at h
    rw [hp] at h
    dsimp only at h
    rw [hc, htz] at h
    cases stop with
    | none => exact mkTimeSlot_tz h
    | some q =>
      dsimp only at h
      split at h
      · exact mkTimeSlot_tz h
      · cases h

example : ∃ s, timeSlot physicalCalendar (fun _ => false) none none (some (TUnit.ofSecs 60))
    { t := some (.num 60), tz := some "Europe/Rome" } = .ok s ∧ s.tz = "Europe/Rome" :=
  ⟨{ t := 60, tz := "Europe/Rome",
     slot := some (physicalCalendar.shift (TUnit.ofSecs 60) "Europe/Rome" 60, TUnit.ofSecs 60) }, rfl, rfl⟩

/-! ## C181 -/

/-- **C181** is false: any text that reads as a number is accepted as time, and kept as a text. -/
theorem C181_false (numeric : String → Bool) (s : String) (h : numeric s = true) :
    ∃ p, timePoint numeric [] { t := some (.text s) } = .ok p ∧ ∀ x, p.coord ≠ .num x := by
  refine ⟨⟨.text s, none⟩, ?_, fun x => by simp⟩
  simp [timePoint, finishPoint, pointInit, h, Kwargs.zone]

theorem pointInit_num {numeric : String → Bool} {a : TArg} {tz : Option String} {p : TPoint}
    (ha : ∀ s, a ≠ .text s)
    (h : finishPoint numeric a tz = .ok p) : ∃ x, p.coord = .num x := by
  cases a with
  | num x => simp [finishPoint, pointInit] at h; exact ⟨x, by rw [← h]⟩
  | text s => exact absurd rfl (ha s)
  | point q => simp [finishPoint, pointInit] at h
  | other => simp [finishPoint, pointInit] at h

/-- **C181, partial**: as long as no text is given, by name or by position, directly or through another
point, every time point that can be created has a number as time, and whatever is not a number (or a
point, in the first position) is refused.  Missing: texts (`C181_false`). -/
theorem C181_number_partial (numeric : String → Bool) (args : List TArg) (kw : Kwargs) (p : TPoint)
    (h1 : ∀ s, kw.t ≠ some (.text s)) (h2 : ∀ s, TArg.text s ∉ args)
    (h3 : ∀ s a, TArg.point ⟨.text s, a⟩ ∉ args) (h : timePoint numeric args kw = .ok p) :
    ∃ x, p.coord = .num x := by
  unfold timePoint at h
  split at h
  · split at h
    · rename_i a _ ha
      refine pointInit_num (fun s hs => h1 s ?_) h
      rw [← hs]; exact ha
    · split at h
      · exact pointInit_num (fun s hs => by simp at hs) h
      · exact pointInit_num (fun s hs => by simp at hs) h
    · cases h
  · split at h
    · cases h
    · rename_i q
      split at h
      · exact pointInit_num (fun s hs => by simp at hs) h
      · rename_i s hs
        exact absurd (List.mem_singleton.2 (by rw [← hs])) (h3 s q.tzAttr)
    · rename_i a _
      exact pointInit_num (fun s hs => h2 s (by rw [hs]; exact List.mem_singleton.2 rfl)) h
    · cases h

/-- **C181, partial**, the refusals. -/
theorem C181_refused_partial (numeric : String → Bool) (tz : Option String) (s : String)
    (hs : numeric s = false) :
    timePoint numeric [] { t := some .other, tz := tz } = .error .exception ∧
    timePoint numeric [.other] { tz := tz } = .error .exception ∧
    timePoint numeric [] { t := some (.text s), tz := tz } = .error .exception ∧
    timePoint numeric [.text s] { tz := tz } = .error .exception := by
  refine ⟨rfl, rfl, ?_, ?_⟩ <;> simp [timePoint, finishPoint, pointInit, hs]

/-! ## C182 -/

/-- **C182** is false: an unknown keyword argument is accepted by points and slots, a positional time is
dropped when another one is given by name, and of two times given by name one is dropped. -/
theorem C182_false (numeric : String → Bool) (x y : ℚ) (z : String) :
    timePoint numeric [] { t := some (.num x), extra := ["tzone"] } = .ok ⟨.num x, none⟩ ∧
    timePoint numeric [.num y] { t := some (.num x) } = .ok ⟨.num x, none⟩ ∧
    timePoint numeric [] { t := some (.num x), dt := some (y, z) } = .ok ⟨.num x, none⟩ ∧
    timeSlot physicalCalendar numeric (some ⟨.num y, none⟩) none (some (TUnit.ofSecs 60))
        { t := some (.num x), extra := ["tzone"] } =
      timeSlot physicalCalendar numeric none none (some (TUnit.ofSecs 60)) { t := some (.num x) } := by
  refine ⟨rfl, rfl, rfl, rfl⟩

/-- **C182, partial**: a time point cannot be created from nothing, from unknown keyword arguments only,
or from more than one position.  Missing: unknown and contradictory arguments next to a valid one
(`C182_false`). -/
theorem C182_refused_partial (numeric : String → Bool) (args : List TArg) (kw : Kwargs)
    (ht : kw.t = none) (hd : kw.dt = none) (h : args.length ≠ 1 ∨ kw.extra ≠ []) :
    timePoint numeric args kw = .error .exception := by
  unfold timePoint
  simp only [ht, hd, Option.isSome_none, Bool.or_self, Bool.false_or]
  by_cases he : kw.extra = []
  · rw [if_neg (by simp [he])]
    have hl : args.length ≠ 1 := by rcases h with h | h; exact h; exact absurd he h
    match args, hl with
    | [], _ => rfl
    | [a], hl => exact absurd rfl hl
    | [.num _, _], _ => rfl
    | [.text _, _], _ => rfl
    | [.point _, _], _ => rfl
    | [.other, _], _ => rfl
    | .num _ :: _ :: _ :: _, _ => rfl
    | .text _ :: _ :: _ :: _, _ => rfl
    | .point _ :: _ :: _ :: _, _ => rfl
    | .other :: _ :: _ :: _, _ => rfl
  · rw [if_pos (by simpa using he)]

/-! ## C183 -/

/-- **C183** is false: the dictionary of indexes given with a data loss is changed, also when the point
is then refused, and two points created with the same dictionary change each other's data loss. -/
theorem C183_false :
    let h : Heap := { idx := [[("anomaly", some 1)]] }
    (dataTimePoint (fun _ => false) h [] { t := some .other } (some (.num 1)) (.dict 0) (some (some 0))).1.idx
      = [[("anomaly", some 1), ("data_loss", some 0)]] ∧
    (dataTimePoint (fun _ => false) h [] { t := some .other } (some (.num 1)) (.dict 0) (some (some 0))).2
      = .error .exception ∧
    (∃ h' h'' x y,
      dataTimePoint (fun _ => false) h [] { t := some (.num 0) } (some (.num 1)) (.dict 0) (some (some 0))
        = (h', .ok x) ∧
      dataTimePoint (fun _ => false) h' [] { t := some (.num 60) } (some (.num 1)) (.dict 0) (some (some 1))
        = (h'', .ok y) ∧
      (x.indexes h').get? "data_loss" = some (some 0) ∧ (x.indexes h'').get? "data_loss" = some (some 1)) := by
  refine ⟨by decide +kernel, by decide +kernel, ?_⟩
  exact ⟨{ idx := [[("anomaly", some 1), ("data_loss", some 0)]] },
    { idx := [[("anomaly", some 1), ("data_loss", some 1)]] }, ⟨⟨.num 0, none⟩, .num 1, 0⟩,
    ⟨⟨.num 60, none⟩, .num 1, 0⟩, by decide +kernel, by decide +kernel, by decide +kernel,
    by decide +kernel⟩

theorem itemIndexes_objects (h : Heap) (given : IdxArg) (loss : Option (Option ℚ))
    (hg : ∀ a, given = .dict a → loss = none) (a : ℕ) (i : Idx) (ha : h.idx[a]? = some i) :
    (itemIndexes h given loss).1.idx[a]? = some i := by
  have hlt : a < h.idx.length := (List.getElem?_eq_some_iff.1 ha).1
  have hal : (h.allocIdx []).idx[a]? = some i := by
    unfold Heap.allocIdx
    rw [List.getElem?_append_left hlt, ha]
  have hput : ∀ f : Idx → Idx, ((h.allocIdx []).storeIdx h.idx.length f).idx[a]? = some i := by
    intro f
    unfold Heap.storeIdx
    rw [List.getElem?_modify, hal]
    have : h.idx.length ≠ a := by omega
    simp [this]
  unfold itemIndexes
  cases given with
  | absent => cases loss with
    | none => exact hal
    | some v => exact hput _
  | null => cases loss with
    | none => exact hal
    | some v => exact hput _
  | dict b => rw [hg b rfl]; exact ha
  | other => exact ha

/-- **C183, partial**: unless a dictionary of indexes and a data loss are given together, creating a
point, successfully or not, leaves every dictionary as it was; and a point created without a dictionary
has one of its own.  Missing: dictionary and data loss together (`C183_false`). -/
theorem C183_own_indexes_partial (numeric : String → Bool) (h : Heap) (args : List TArg) (kw : Kwargs)
    (data : Option Data) (given : IdxArg) (loss : Option (Option ℚ)) :
    ((∀ a, given = .dict a → loss = none) → ∀ (a : ℕ) (i : Idx), h.idx[a]? = some i →
      (dataTimePoint numeric h args kw data given loss).1.idx[a]? = some i) ∧
    (∀ x, (∀ a, given ≠ .dict a) → (dataTimePoint numeric h args kw data given loss).2 = .ok x →
      h.idx.length ≤ x.iA) := by
  constructor
  · intro hg a i ha
    have key := itemIndexes_objects h given loss hg a i ha
    unfold dataTimePoint
    cases data with
    | none => exact ha
    | some d =>
      dsimp only
      cases hi : itemIndexes h given loss with
      | mk h' r =>
        rw [hi] at key
        cases r with
        | error e => exact key
        | ok b =>
          dsimp only
          split <;> exact key
  · intro x hg hx
    unfold dataTimePoint at hx
    cases data with
    | none => cases hx
    | some d =>
      dsimp only at hx
      have hidx : ∀ h' b, itemIndexes h given loss = (h', .ok b) → b = h.idx.length := by
        intro h' b hb
        unfold itemIndexes at hb
        cases given with
        | absent => cases loss <;> simp at hb <;> exact hb.2.symm
        | null => cases loss <;> simp at hb <;> exact hb.2.symm
        | dict a => exact absurd rfl (hg a)
        | other => simp at hb
      cases hi : itemIndexes h given loss with
      | mk h' r =>
        rw [hi] at hx
        cases r with
        | error e => cases hx
        | ok b =>
          dsimp only at hx
          split at hx
          · cases hx
          · simp only [Except.ok.injEq] at hx
            rw [← hx, hidx h' b hi]

/-! ## C184 -/

/-- the indexes a point is created with: those of the given dictionary, if any -/
def givenIndexes (h : Heap) : IdxArg → Idx
  | .dict a => (h.idx[a]?).getD []
  | _ => []

/-- **C184** A point created with data reports that data, the data loss it was given, and all the other
indexes it was given and no more. -/
theorem C184_reports (numeric : String → Bool) (h h' : Heap) (args : List TArg) (kw : Kwargs)
    (d : Data) (given : IdxArg) (loss : Option (Option ℚ)) (x : NewPoint)
    (hd : ∀ a, given = .dict a → a < h.idx.length)
    (hx : dataTimePoint numeric h args kw (some d) given loss = (h', .ok x)) :
    x.data = d ∧ timePoint numeric args kw = .ok x.point ∧
    (∀ v, loss = some v → (x.indexes h').get? "data_loss" = some v) ∧
    (∀ k, (k ≠ "data_loss" ∨ loss = none) →
      (x.indexes h').get? k = (givenIndexes h given).get? k) := by
  unfold dataTimePoint at hx
  dsimp only at hx
  cases hi : itemIndexes h given loss with
  | mk h1 r =>
    rw [hi] at hx
    cases r with
    | error e => simp at hx
    | ok b =>
      dsimp only at hx
      cases hp : timePoint numeric args kw with
      | error e => rw [hp] at hx; simp at hx
      | ok p =>
        rw [hp] at hx
        simp only [Prod.mk.injEq, Except.ok.injEq] at hx
        obtain ⟨rfl, rfl⟩ := hx
        refine ⟨rfl, rfl, ?_⟩
        have hread : ((h1.idx[b]?).getD []) =
            (match loss with
              | none => givenIndexes h given
              | some v => (givenIndexes h given).set "data_loss" v) := by
          unfold itemIndexes at hi
          cases given with
          | absent =>
            cases loss with
            | none =>
              simp only [Prod.mk.injEq, Except.ok.injEq] at hi
              obtain ⟨rfl, rfl⟩ := hi
              simp [Heap.allocIdx, givenIndexes]
            | some v =>
              simp only [Prod.mk.injEq, Except.ok.injEq] at hi
              obtain ⟨rfl, rfl⟩ := hi
              simp [Heap.allocIdx, Heap.storeIdx, givenIndexes]
          | null =>
            cases loss with
            | none =>
              simp only [Prod.mk.injEq, Except.ok.injEq] at hi
              obtain ⟨rfl, rfl⟩ := hi
              simp [Heap.allocIdx, givenIndexes]
            | some v =>
              simp only [Prod.mk.injEq, Except.ok.injEq] at hi
              obtain ⟨rfl, rfl⟩ := hi
              simp [Heap.allocIdx, Heap.storeIdx, givenIndexes]
          | dict a =>
            have hlt := hd a rfl
            cases loss with
            | none =>
              simp only [Prod.mk.injEq, Except.ok.injEq] at hi
              obtain ⟨rfl, rfl⟩ := hi
              simp [givenIndexes]
            | some v =>
              simp only [Prod.mk.injEq, Except.ok.injEq] at hi
              obtain ⟨rfl, rfl⟩ := hi
              simp [Heap.storeIdx, givenIndexes, List.getElem?_eq_getElem hlt]
          | other => simp at hi
        unfold NewPoint.indexes
        dsimp only
        rw [hread]
        constructor
        · intro v hv
          subst hv
          dsimp only
          rw [Dict.get?_set]; simp
        · intro k hk
          cases loss with
          | none => rfl
          | some v =>
            dsimp only
            rw [Dict.get?_set, if_neg]
            rcases hk with hk | hk
            · exact fun h => hk h.symm
            · cases hk

/-- a point with an index and a data loss -/
example : ∃ h' x, dataTimePoint (fun _ => false) { idx := [[("anomaly", some 1)]] } []
    { t := some (.num 0) } (some (.num 5)) (.dict 0) (some (some (1 / 2))) = (h', .ok x) ∧
    (x.indexes h').get? "anomaly" = some (some 1) :=
  ⟨{ idx := [[("anomaly", some 1), ("data_loss", some (1 / 2))]] }, ⟨⟨.num 0, none⟩, .num 5, 0⟩,
    by decide +kernel, by decide +kernel⟩

/-! ## C185, C186 -/

/-- the zone a slot reports for its start and for its end -/
def SlotObj.zones (ps : Points) (s : SlotObj) : Option String × Option String :=
  ((ps[s.start]?).map Prod.snd, (ps[s.stop]?).map Prod.snd)

/-- **C185** is false: two slots in succession made from three points; moving the first to another zone
also moves the start of the second, whose end and whose own zone stay where they were. -/
theorem C185_false :
    let ps : Points := [(0, "UTC"), (60, "UTC"), (120, "UTC")]
    let a : SlotObj := ⟨0, 1, "UTC"⟩
    let b : SlotObj := ⟨1, 2, "UTC"⟩
    b.zones ps = (some "UTC", some "UTC") ∧
    b.zones (a.changeTz ps "Europe/Rome").1 = (some "Europe/Rome", some "UTC") := by decide +kernel

theorem changeTz_get (ps : Points) (a b : ℕ) (z : String) :
    (ps.changeTz a z)[b]? = (ps[b]?).map (fun p => if a = b then (p.1, z) else p) := by
  unfold Points.changeTz
  rw [List.getElem?_modify]
  rfl

/-- **C185, partial**: changing the zone of a slot leaves every slot with which it shares no point as it
was, and moves the slot itself without changing its times.  Missing: slots sharing a point
(`C185_false`). -/
theorem C185_apart_partial (ps : Points) (a b : SlotObj) (z : String) :
    (b.start ≠ a.start → b.start ≠ a.stop → b.stop ≠ a.start → b.stop ≠ a.stop →
      (a.changeTz ps z).1[b.start]? = ps[b.start]? ∧ (a.changeTz ps z).1[b.stop]? = ps[b.stop]?) ∧
    (a.changeTz ps z).2.tz = z ∧
    (a.start < ps.length → a.stop < ps.length → a.zones (a.changeTz ps z).1 = (some z, some z)) ∧
    (∀ i : ℕ, ((a.changeTz ps z).1[i]?).map Prod.fst = (ps[i]?).map Prod.fst) := by
  unfold SlotObj.changeTz SlotObj.zones
  dsimp only
  refine ⟨?_, rfl, ?_, ?_⟩
  · intro h1 h2 h3 h4
    simp only [changeTz_get, if_neg (Ne.symm h1), if_neg (Ne.symm h2), if_neg (Ne.symm h3),
      if_neg (Ne.symm h4)]
    simp
  · intro h1 h2
    simp only [changeTz_get, List.getElem?_eq_getElem h1, List.getElem?_eq_getElem h2]
    by_cases h : a.stop = a.start <;> simp [h]
  · intro i
    simp only [changeTz_get, Option.map_map]
    congr 1
    funext p
    by_cases h1 : a.stop = i <;> by_cases h2 : a.start = i <;> simp [h1, h2]

theorem slotChange_len (ps : Points) (s : SlotObj) (z : String) :
    (s.changeTz ps z).1.length = ps.length := by
  simp [SlotObj.changeTz, Points.changeTz]

theorem changeTzAll_keeps (z : String) (l : List SlotObj) (ps : Points) :
    (changeTzAll z ps l).1.length = ps.length ∧
    (∀ i : ℕ, ((changeTzAll z ps l).1[i]?).map Prod.fst = (ps[i]?).map Prod.fst) ∧
    (∀ i : ℕ, (ps[i]?).map Prod.snd = some z → ((changeTzAll z ps l).1[i]?).map Prod.snd = some z) ∧
    (changeTzAll z ps l).2 = l.map (fun s => { s with tz := z }) := by
  induction l generalizing ps with
  | nil => exact ⟨rfl, fun _ => rfl, fun _ h => h, rfl⟩
  | cons s r ih =>
    obtain ⟨h1, h2, h3, h4⟩ := ih (s.changeTz ps z).1
    simp only [changeTzAll]
    refine ⟨h1.trans (slotChange_len ps s z), ?_, ?_, ?_⟩
    · intro i
      rw [h2 i]
      exact (C185_apart_partial ps s s z).2.2.2 i
    · intro i hi
      refine h3 i ?_
      unfold SlotObj.changeTz
      dsimp only
      simp only [changeTz_get, Option.map_map]
      cases hp : ps[i]? with
      | none => rw [hp] at hi; simp at hi
      | some p =>
        rw [hp] at hi
        simp at hi
        by_cases a1 : s.stop = i <;> by_cases a2 : s.start = i <;> simp [a1, a2, hi]
    · rw [h4]; rfl

/-- **C186** After changing the zone of a series of slots, however the slots share their points, every
slot is on the new zone and so are its start and its end, and no time has changed. -/
theorem C186_series (ps : Points) (l : List SlotObj) (z : String)
    (hv : ∀ s ∈ l, s.start < ps.length ∧ s.stop < ps.length) :
    (∀ s ∈ (changeTzAll z ps l).2, s.tz = z ∧ s.zones (changeTzAll z ps l).1 = (some z, some z)) ∧
    (changeTzAll z ps l).2.map (fun s => (s.start, s.stop)) = l.map (fun s => (s.start, s.stop)) ∧
    (∀ i : ℕ, ((changeTzAll z ps l).1[i]?).map Prod.fst = (ps[i]?).map Prod.fst) := by
  refine ⟨?_, ?_, (changeTzAll_keeps z l ps).2.1⟩
  · have key : ∀ (l : List SlotObj) (ps : Points),
        (∀ s ∈ l, s.start < ps.length ∧ s.stop < ps.length) →
        ∀ s ∈ l, s.zones (changeTzAll z ps l).1 = (some z, some z) := by
      intro l
      induction l with
      | nil => intro ps _ s hs; simp at hs
      | cons a r ih =>
        intro ps hv s hs
        simp only [changeTzAll]
        have hz := (C185_apart_partial ps a a z).2.2.1 (hv a (by simp)).1 (hv a (by simp)).2
        rcases List.mem_cons.1 hs with rfl | hs
        · unfold SlotObj.zones at hz ⊢
          simp only [Prod.mk.injEq] at hz ⊢
          exact ⟨(changeTzAll_keeps z r _).2.2.1 _ hz.1, (changeTzAll_keeps z r _).2.2.1 _ hz.2⟩
        · exact ih _ (fun t ht => by
            rw [slotChange_len]; exact hv t (by simp [ht])) s hs
    intro s hs
    rw [(changeTzAll_keeps z l ps).2.2.2, List.mem_map] at hs
    obtain ⟨t, ht, rfl⟩ := hs
    exact ⟨rfl, key l ps hv t ht⟩
  · rw [(changeTzAll_keeps z l ps).2.2.2, List.map_map]
    rfl

/-- three points, two slots in succession -/
example : (changeTzAll "Europe/Rome" [(0, "UTC"), (60, "UTC"), (120, "UTC")]
    [⟨0, 1, "UTC"⟩, ⟨1, 2, "UTC"⟩]).1 = [(0, "Europe/Rome"), (60, "Europe/Rome"), (120, "Europe/Rome")] := by
  decide +kernel

/-! ## C187 -/

/-- **C187** Adding a time unit to a point, or subtracting it, gives a point on the same zone, moved by
the unit forwards or backwards; for a physical unit by exactly its seconds, so that adding and then
subtracting gives back the time. -/
theorem C187_shift (sh : Shifter) (x : ℚ) (a : Option String) (u : TUnit) :
    (∀ n : Int, ∃ p, pointShift sh ⟨.num x, a⟩ u n = .ok p ∧
      p.coord = .num (sh.shift u (a.getD "UTC") n x) ∧ p.tz = a.getD "UTC") ∧
    (u.Physical → ∃ p q, pointShift sh ⟨.num x, a⟩ u 1 = .ok p ∧ p.coord = .num (x + u.secs) ∧
      pointShift sh p u (-1) = .ok q ∧ q.coord = .num x ∧ q.tz = a.getD "UTC") := by
  have step : ∀ (y : ℚ) (b : Option String) (n : Int), ∃ p, pointShift sh ⟨.num y, b⟩ u n = .ok p ∧
      p.coord = .num (sh.shift u (b.getD "UTC") n y) ∧ p.tz = b.getD "UTC" := by
    intro y b n
    obtain ⟨p, hp, hc, hz⟩ := C179_from_datetime (fun _ => false)
      (sh.shift u (b.getD "UTC") n y) (b.getD "UTC") none
    exact ⟨p, hp, hc, hz⟩
  refine ⟨fun n => step x a n, fun hu => ?_⟩
  obtain ⟨p, hp, hc, hz⟩ := step x a 1
  rw [sh.physical u _ 1 x hu] at hc
  have hc' : p.coord = .num (x + u.secs) := by rw [hc]; norm_num
  obtain ⟨q, hq, hqc, hqz⟩ := step (x + u.secs) p.tzAttr (-1)
  have hpe : p = ⟨.num (x + u.secs), p.tzAttr⟩ := by
    cases p; simp at hc' ⊢; exact hc'
  refine ⟨p, q, hp, hc', by rw [hpe]; exact hq, ?_, ?_⟩
  · rw [hqc, sh.physical u _ (-1) _ hu]
    congr 1; push_cast; ring
  · rw [hqz]; exact hz

example : pointShift physicalShifter ⟨.num 60, some "Europe/Rome"⟩ (TUnit.ofSecs 60) 1 =
    .ok ⟨.num 120, some "Europe/Rome"⟩ := by decide +kernel

/-! ## C188 -/

theorem readDigits_digits (l : List Char) (acc n : ℕ) (h : readDigits acc l = some n) :
    ∀ c ∈ l, (digitVal c).isSome := by
  induction l generalizing acc with
  | nil => simp
  | cons c r ih =>
    simp only [readDigits] at h
    intro x hx
    split at h
    · rename_i d hd
      rcases List.mem_cons.1 hx with rfl | hx
      · rw [hd]; rfl
      · exact ih _ h x hx
    · cases h

theorem dropWhile_none {p : Char → Bool} {l : List Char} (h : ∀ c ∈ l, p c = false) :
    l.dropWhile p = l := by
  cases l with
  | nil => rfl
  | cons c r => rw [List.dropWhile_cons_of_neg (by simp [h c (by simp)])]

theorem pyIntText_strNat (n : ℕ) : pyIntText (strNat n) = some (n : Int) := by
  have hdig := readDigits_digits _ _ _ (readDigits_natStr n)
  have hch : ∀ c ∈ natStr n, c ≠ ' ' ∧ c ≠ '\t' ∧ c ≠ '\n' ∧ c ≠ '\r' ∧ c ≠ '-' ∧ c ≠ '+' := by
    intro c hc
    have := hdig c hc
    refine ⟨?_, ?_, ?_, ?_, ?_, ?_⟩ <;> rintro rfl <;> revert this <;> decide
  unfold pyIntText strNat
  dsimp only
  rw [String.toList_ofList]
  have hb : ∀ c ∈ natStr n, (decide (c = ' ') || decide (c = '\t') || decide (c = '\n') ||
      decide (c = '\r')) = false := fun c hc => by
    have := hch c hc; simp [this.1, this.2.1, this.2.2.1, this.2.2.2.1]
  rw [dropWhile_none hb, dropWhile_none (fun c hc => hb c (List.mem_reverse.1 hc)),
    List.reverse_reverse]
  have hrd := readDigits_natStr n
  cases hl : natStr n with
  | nil => exact absurd hl (natStr_ne_nil n)
  | cons c r =>
    rw [hl] at hrd
    have hc := hch c (by rw [hl]; simp)
    dsimp only
    rw [if_neg hc.2.2.2.2.1, if_neg hc.2.2.2.2.2, hrd]
    rfl

/-- **C188** is false: on a list, `'-1'`, `' 0'`, `'+0'` and `'00'` are read as positions although none of
them is a label of the data. -/
theorem C188_false :
    labelsOf (.list [5, 7]) = .ok ["0", "1"] ∧
    dataByLabelPy (.list [5, 7]) "-1" = .ok 7 ∧ dataByLabelPy (.list [5, 7]) " 0" = .ok 5 ∧
    dataByLabelPy (.list [5, 7]) "+0" = .ok 5 ∧ dataByLabelPy (.list [5, 7]) "00" = .ok 5 := by
  decide +kernel

/-- **C188, partial**: each reported label reads the value it stands for: the element in that position of
a list, the value under that key of a dictionary; on a dictionary everything else is a `KeyError`.
Missing: on a list other spellings of a position are read as well (`C188_false`). -/
theorem C188_labels_partial :
    (∀ (l : List ℚ) (i : ℕ) (v : ℚ), l[i]? = some v →
      (∃ ks, labelsOf (.list l) = .ok ks ∧ ks[i]? = some (strNat i)) ∧
      dataByLabelPy (.list l) (strNat i) = .ok v) ∧
    (∀ (l : List ℚ) (i : ℕ), l.length ≤ i → dataByLabelPy (.list l) (strNat i) = .error .indexError) ∧
    (∀ (d : Dict ℚ) (k : String) (v : ℚ), d.get? k = some v → dataByLabelPy (.dict d) k = .ok v) ∧
    (∀ (d : Dict ℚ) (k : String), k ∉ d.keys → dataByLabelPy (.dict d) k = .error .keyError) := by
  refine ⟨?_, ?_, ?_, ?_⟩
  · intro l i v h
    have hlt : i < l.length := (List.getElem?_eq_some_iff.1 h).1
    refine ⟨⟨_, rfl, by simp [hlt]⟩, ?_⟩
    have hpos : pyPos l.length (i : Int) = some i := by
      unfold pyPos; rw [if_pos (by omega)]; simp
    simp only [dataByLabelPy, pyIntText_strNat, hpos, h]
  · intro l i h
    have hpos : pyPos l.length (i : Int) = none := by
      unfold pyPos; rw [if_neg (by omega), if_neg (by omega)]
    simp only [dataByLabelPy, pyIntText_strNat, hpos]
  · intro d k v h
    simp only [dataByLabelPy, h]
  · intro d k h
    have : d.get? k = none := Dict.get?_eq_none.2 h
    simp only [dataByLabelPy, this]

end Timeseria
