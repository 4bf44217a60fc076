import Verif.Model.SaveLoad
import Verif.Props.Csv
import Mathlib.Data.Rat.Encodable
import Mathlib.Logic.Encodable.Basic

/-! # C163, C164, C165: saving and loading a time series -/

namespace Timeseria

/-- a text that can stand between quotes in the metadata line -/
def Quotable (x : String) : Prop := '"' ∉ x.toList ∧ '\\' ∉ x.toList

theorem readMeta_written (m : SMeta) (h1 : Quotable m.tz) (h2 : Quotable m.res) :
    readMeta (' ' :: m.text ++ ['\n']) = some m := by
  have hs : ' ' :: m.text = joinSep '"' [" {".toList, "type".toList, ": ".toList, m.kind.text, ", ".toList, "tz".toList,
      ": ".toList, m.tz.toList, ", ".toList, "resolution".toList, ": ".toList, m.res.toList, "}".toList] := rfl
  have hp := splitSep_joinSep '"' ['\n'] (by decide) [" {".toList, "type".toList, ": ".toList, m.kind.text, ", ".toList,
      "tz".toList, ": ".toList, m.tz.toList, ", ".toList, "resolution".toList, ": ".toList, m.res.toList, "}".toList]
      (by simp) (by
        intro p hp
        simp only [List.mem_cons, List.not_mem_nil, or_false] at hp
        have hk : '"' ∉ m.kind.text := by cases m.kind <;> decide
        rcases hp with h | h | h | h | h | h | h | h | h | h | h | h | h <;> rw [h] <;>
          first | exact hk | exact h1.1 | exact h2.1 | decide)
  unfold readMeta
  rw [hs, hp]
  simp only [withTail]
  cases hk : m.kind with
  | points =>
    rw [if_pos (by rfl)]
    simp only [String.ofList_toList]
    rw [← hk]
  | slots =>
    rw [if_neg (by decide), if_pos (by rfl)]
    simp only [String.ofList_toList]
    rw [← hk]

theorem isPrefixOf_cons_iff {a b : Char} {x y : Text} : (a :: x).isPrefixOf (b :: y) = (a == b && x.isPrefixOf y) := rfl

theorem extraPrefix_eq : extraPrefix = '#' :: ' ' :: 'E' :: "xtra parameters:".toList := by decide
theorem genPrefix_eq : "Generated by Timeseria CSVFileStorage at ".toList = 'G' :: "enerated by Timeseria CSVFileStorage at ".toList := by
  decide
theorem tsPrefix_eq : "Time series of #".toList = 'T' :: "ime series of #".toList := by decide
theorem hash_eq : "#".toList = ['#'] := by decide
theorem exPrefix_eq : "Extra parameters: ".toList = 'E' :: ("xtra parameters:".toList ++ [' ']) := by decide

theorem isPrefixOf_append (x y : Text) : x.isPrefixOf (x ++ y) = true := by
  rw [List.isPrefixOf_iff_prefix]; exact List.prefix_append x y

theorem notG (x : Text) : extraPrefix.isPrefixOf ('#' :: ' ' :: 'G' :: x) = false := by
  rw [extraPrefix_eq]; simp [isPrefixOf_cons_iff]

theorem notT (x : Text) : extraPrefix.isPrefixOf ('#' :: ' ' :: 'T' :: x) = false := by
  rw [extraPrefix_eq]; simp [isPrefixOf_cons_iff]

theorem isHash (x : Text) : "#".toList.isPrefixOf ('#' :: x) = true := by
  rw [hash_eq]; simp [isPrefixOf_cons_iff]

theorem isE (x : Text) : extraPrefix.isPrefixOf ('#' :: ' ' :: 'E' :: ("xtra parameters:".toList ++ x)) = true := by
  rw [extraPrefix_eq]
  simp only [isPrefixOf_cons_iff, beq_self_eq_true, Bool.true_and]
  exact isPrefixOf_append _ _

theorem dropE (x : Text) : List.drop extraPrefix.length ('#' :: ' ' :: 'E' :: ("xtra parameters:".toList ++ x)) = x := by
  have : extraPrefix.length = ('#' :: ' ' :: 'E' :: "xtra parameters:".toList).length := by rw [extraPrefix_eq]
  rw [this]
  exact List.drop_left (l₁ := '#' :: ' ' :: 'E' :: "xtra parameters:".toList) (l₂ := x)

theorem scan_three (a b c head : Text) (rest : List Text) (m : SMeta) (hh : "#".toList.isPrefixOf head = false)
    (hr : readMeta (' ' :: c ++ ['\n']) = some m) :
    scanMeta (('#' :: ' ' :: 'G' :: a) :: ('#' :: ' ' :: 'T' :: b) ::
      ('#' :: ' ' :: 'E' :: ("xtra parameters:".toList ++ (' ' :: c ++ ['\n']))) :: head :: rest) none = .ok (some m) := by
  rw [scanMeta, if_pos (isHash _), if_neg (by rw [notG]; simp), scanMeta, if_pos (isHash _), if_neg (by rw [notT]; simp),
    scanMeta, if_pos (isHash _), if_pos (isE _), dropE, hr]
  dsimp only
  rw [scanMeta, if_neg (by rw [hh]; simp)]

/-- the metadata of a saved file are found, whatever follows -/
theorem scanMeta_saved (uc : UnitCodec) (now summary : Text) (s : TSeries) (head : Text) (rest : List Text)
    (hh : "#".toList.isPrefixOf head = false) (h1 : Quotable (s.smeta uc).tz) (h2 : Quotable (s.smeta uc).res) :
    scanMeta (noteLines (saveNotes uc now summary s) ++ head :: rest) none = .ok (some (s.smeta uc)) := by
  have hr := readMeta_written _ h1 h2
  have h := scan_three ("enerated by Timeseria CSVFileStorage at ".toList ++ now ++ ['\n']) ("ime series of #".toList ++ summary ++ ['\n'])
    _ head rest _ hh hr
  rw [← h]
  congr 1

theorem headLine_not_comment (l : List Item) : "#".toList.isPrefixOf (headLine l) = false := by
  have he : "epoch".toList = 'e' :: "poch".toList := by decide
  have : ∃ x, headLine l = 'e' :: x := by
    unfold headLine headerLine
    rw [he]
    simp only [List.cons_append]
    cases (labelsOfItems l).map String.toList ++ (allDataIndexes l).map (fun n => '_' :: '_' :: n.toList) with
    | nil => exact ⟨_, rfl⟩
    | cons a b => exact ⟨_, rfl⟩
  obtain ⟨x, hx⟩ := this
  rw [hx, hash_eq]
  simp [isPrefixOf_cons_iff]

theorem readSettings_default (tz : String) : ReadSettings { tz := tz } {} :=
  ⟨rfl, (by decide : '#' ∈ ['#', ';']), (by decide : ∀ c ∈ ['#', ';'], c ∉ "0123456789+-.e".toList), rfl,
    Or.inl rfl, Or.inl rfl, Or.inl rfl⟩

/-- **C163** (points): a series of points saved in a file and loaded from it has the same timestamps, values and data
indexes, item by item, and is in the time zone of the series. -/
theorem C163_points (cd : Codec) (uc : UnitCodec) (cal : Calendar) (detect : List ℚ → Except PyErr ℚ) (fuel : ℕ)
    (now summary : Text) (l : List Item) (s : TSeries) (hs : TSeries.build l = .ok s) (hst : Storable l)
    (hpts : ∀ x ∈ l, x.slot = none) (hsp : l.Pairwise (fun a b => a.t + 1 / 10000 ≤ b.t)) (z : String)
    (hz : s.getTz = some z) (hq : Quotable z) (hr : Quotable (uc.writeRes s.res))
    (file : Option (List Text)) (overwrite : Bool) (hw : file = none ∨ overwrite = true) :
    ∃ content r, s.saveCsv cd uc now summary overwrite file = (some content, .ok ()) ∧
      loadCsv cd uc cal detect fuel content = .ok r ∧
      List.Forall₂ (fun x y => SameStored z x y ∧ y.slot = none) l r.items := by
  obtain ⟨content, r, st', h1, h2, h3⟩ := C50_points_round_trip cd cal detect fuel (saveNotes uc now summary s) l s hs hst hpts hsp
    { tz := z } {} (readSettings_default z) { forcePoints := true } ⟨rfl, rfl, rfl⟩ (Or.inl rfl) file overwrite hw
  refine ⟨content, r, h1, ?_, h3⟩
  have hput := putLines_ok cd (saveNotes uc now summary s) hst s hs
  have hc : content = noteLines (saveNotes uc now summary s) ++ headLine l :: bodyLines cd l := by
    unfold csvPut at h1
    rw [if_neg (by rcases hw with rfl | rfl <;> simp), hput] at h1
    simp only [Prod.mk.injEq, Option.some.injEq] at h1
    exact h1.1.symm
  have hi := build_items hs
  have hk : s.smeta uc = ⟨.points, z, uc.writeRes s.res⟩ := by
    unfold TSeries.smeta TSeries.skind
    rw [hz, hi]
    cases l with
    | nil => rfl
    | cons a b =>
      have : a.isSlot = false := by simp [Item.isSlot, hpts a (by simp)]
      simp [this]
  unfold loadCsv
  rw [hc, scanMeta_saved uc now summary s _ _ (headLine_not_comment l) (by rw [hk]; exact hq) (by rw [hk]; exact hr), hk]
  dsimp only
  rw [← hc, h2]
  rfl

/-- **C163** (slots): the same for a series of slots of the same unit and time zone, of which the sampling interval
can be detected: also the ends and the unit of the slots are the same. -/
theorem C163_slots (cd : Codec) (uc : UnitCodec) (cal : Calendar) (detect : List ℚ → Except PyErr ℚ) (fuel : ℕ)
    (now summary : Text) (l : List Item) (s : TSeries) (hs : TSeries.build l = .ok s) (hst : Storable l) (u : TUnit)
    (z : String) (hsl : ∀ x ∈ l, x.slot = some (cal.shift u z x.t, u) ∧ x.tz = z)
    (hsucc : InSuccession l) (hord : l.Pairwise (fun a b => a.t ≤ b.t)) (hq : Quotable z) (hr : Quotable (uc.write u))
    (d : ℚ) (hdet : detect (sampleStamps (l.map Item.t) TSeries.empty) = .ok d)
    (file : Option (List Text)) (overwrite : Bool) (hw : file = none ∨ overwrite = true) :
    ∃ content r, s.saveCsv cd uc now summary overwrite file = (some content, .ok ()) ∧
      loadCsv cd uc cal detect fuel content = .ok r ∧
      List.Forall₂ (fun x y => SameStored z x y ∧ y.slot = x.slot) l r.items := by
  obtain ⟨content, r, st', h1, h2, h3⟩ := C50_slots_round_trip cd cal detect fuel (saveNotes uc now summary s) l s hs hst u
    { tz := z } hsl hsucc hord {} (readSettings_default z) { forceSlots := true, forceUnit := some u } rfl d hdet file overwrite hw
  refine ⟨content, r, h1, ?_, h3⟩
  have hput := putLines_ok cd (saveNotes uc now summary s) hst s hs
  have hc : content = noteLines (saveNotes uc now summary s) ++ headLine l :: bodyLines cd l := by
    unfold csvPut at h1
    rw [if_neg (by rcases hw with rfl | rfl <;> simp), hput] at h1
    simp only [Prod.mk.injEq, Option.some.injEq] at h1
    exact h1.1.symm
  have hi := build_items hs
  have hall : AllSlots l := fun x hx => by simp [Item.isSlot, (hsl x hx).1]
  obtain ⟨u', z', hu', hz', hx'⟩ := (build_slotInv hall hs).noUnit (by rw [hi]; exact hst.nonempty)
  have hk : s.smeta uc = ⟨.slots, z, uc.write u⟩ := by
    have hne := hst.nonempty
    unfold TSeries.smeta TSeries.skind TSeries.getTz
    rw [hz', hu', hi]
    rw [hi] at hx'
    cases l with
    | nil => exact absurd rfl hne
    | cons a b =>
      have ha := hx' a (by simp)
      have hb := hsl a (by simp)
      have : a.isSlot = true := hall a (by simp)
      have hau : a.unit = u := by simp [Item.unit, hb.1]
      simp only [this, if_true, Option.getD_some, UnitCodec.writeRes, SMeta.mk.injEq, true_and]
      exact ⟨by rw [← ha.2, hb.2], by rw [← ha.1, hau]⟩
  unfold loadCsv
  rw [hc, scanMeta_saved uc now summary s _ _ (headLine_not_comment l) (by rw [hk]; exact hq) (by rw [hk]; exact hr), hk]
  dsimp only
  rw [uc.law]
  dsimp only
  rw [← hc, h2]
  rfl

/-- **C163** (other files): a file without the metadata line is refused with `ValueError`. -/
theorem C163_not_saved (cd : Codec) (uc : UnitCodec) (cal : Calendar) (detect : List ℚ → Except PyErr ℚ) (fuel : ℕ)
    (lines : List Text) (h : ∀ x ∈ lines, extraPrefix.isPrefixOf x = false) :
    loadCsv cd uc cal detect fuel lines = .error .valueError := by
  have : scanMeta lines none = .ok none := by
    induction lines with
    | nil => rfl
    | cons a r ih =>
      rw [scanMeta]
      split_ifs with h1 h2
      · rw [h a (by simp)] at h2; cases h2
      · exact ih (fun x hx => h x (by simp [hx]))
      · rfl
  unfold loadCsv
  rw [this]

/-! ## C164: a single slot -/

theorem detectStamps_one (k : ℕ) (t : ℚ) : detectStamps (k + 1) [t] = .error .valueError := by
  have : samplingLoop (k + 1) 1 (diffLoop none [] [t]) = some [] := by
    have hd : diffLoop none [] [t] = [] := rfl
    rw [hd, samplingLoop, if_neg]
    unfold almostEqual
    norm_num
  unfold detectStamps
  rw [if_neg (by simp), show [t].length = 1 from rfl, this]
  rfl

/-- **C164** is false: a series with a single slot can be saved, but loading it raises, whatever the slot. -/
theorem C164_false (cd : Codec) (uc : UnitCodec) (cal : Calendar) (k fuel : ℕ)
    (now summary : Text) (x : Item) (s : TSeries) (hs : TSeries.build [x] = .ok s) (hst : Storable [x]) (u : TUnit)
    (z : String) (hsl : x.slot = some (cal.shift u z x.t, u) ∧ x.tz = z) (hq : Quotable z) (hr : Quotable (uc.write u)) :
    ∃ content, s.saveCsv cd uc now summary false none = (some content, .ok ()) ∧
      loadCsv cd uc cal (detectStamps (k + 1)) fuel content = .error .valueError := by
  have hput := putLines_ok cd (saveNotes uc now summary s) hst s hs
  refine ⟨noteLines (saveNotes uc now summary s) ++ headLine [x] :: bodyLines cd [x], ?_, ?_⟩
  · unfold TSeries.saveCsv csvPut
    rw [if_neg (by simp), hput]
  · have hi := build_items hs
    have hxs : x.isSlot = true := by simp [Item.isSlot, hsl.1]
    have hall : AllSlots [x] := fun y hy => by rw [List.mem_singleton.1 hy]; exact hxs
    obtain ⟨u', z', hu', hz', hx'⟩ := (build_slotInv hall hs).noUnit (by rw [hi]; exact hst.nonempty)
    rw [hi] at hx'
    have ha := hx' x (by simp)
    have hau : x.unit = u := by simp [Item.unit, hsl.1]
    have hk : s.smeta uc = ⟨.slots, z, uc.write u⟩ := by
      unfold TSeries.smeta TSeries.skind TSeries.getTz
      rw [hz', hu', hi]
      simp only [hxs, if_true, Option.getD_some, UnitCodec.writeRes, SMeta.mk.injEq, true_and]
      exact ⟨by rw [← ha.2, hsl.2], by rw [← ha.1, hau]⟩
    unfold loadCsv
    rw [scanMeta_saved uc now summary s _ _ (headLine_not_comment [x]) (by rw [hk]; exact hq) (by rw [hk]; exact hr), hk]
    dsimp only
    rw [uc.law]
    dsimp only
    obtain ⟨st', hread⟩ := readRows_written cd (saveNotes uc now summary s) hst (by simp) { tz := z } {} (readSettings_default z)
    unfold csvGet
    rw [if_neg (by simp)]
    dsimp only
    rw [hread]
    have : sampleStamps (([x].map (rowFor (labelsOfItems [x]) (allDataIndexes [x]))).map Row.t) TSeries.empty = [x.t] := rfl
    dsimp only
    rw [this, detectStamps_one]
    rfl

/-! ## C165: subclasses -/

/-- **C165** is false: loading a series as a subclass of `TimeSeries` never gives a series: `None` is returned. -/
theorem C165_false (r : Except PyErr TSeries) (s : TSeries) : loadAs true r ≠ .ok (some s) := by
  unfold loadAs
  cases r with
  | error e => simp
  | ok x =>
    simp only [if_true]
    cases TSeries.build x.items <;> simp

/-- **C165** (partial): as `TimeSeries` itself it does. -/
theorem C165_partial (s : TSeries) : loadAs false (.ok s) = .ok (some s) := rfl

/-! ## Concrete cases -/

/-- two slots of one hour -/
def savedSlots : List Item :=
  [{ t := 3600, slot := some (7200, { secs := 3600 }), tz := "Europe/Rome", data := some (.dict [("b", 1), ("a", 2)]),
     idx := [("data_loss", some 0)] },
   { t := 7200, slot := some (10800, { secs := 3600 }), tz := "Europe/Rome", data := some (.dict [("b", 3), ("a", 4)]),
     idx := [("data_loss", none)] }]


/-- the unit as a tuple, to number the units -/
def unitTuple (u : TUnit) : Int × Int × Int × Int × ℚ := (u.years, u.months, u.weeks, u.days, u.secs)

/-- Ways of writing units exist, also without quotes: number the units and write so many letters. -/
theorem unitCodec_exists : ∃ uc : UnitCodec, ∀ u, Quotable (uc.write u) := by
  have hdec : ∀ n : ℕ, String.ofList (List.replicate n 'a') ≠ "None" := by
    intro n h
    have := congrArg String.toList h
    rw [String.toList_ofList] at this
    have hN : 'N' ∈ List.replicate n 'a' := by rw [this]; decide
    have := List.eq_of_mem_replicate hN
    exact absurd this (by decide)
  refine ⟨{ write := fun u => String.ofList (List.replicate (Encodable.encode (unitTuple u)) 'a')
            read := fun x => if x = "None" then none else
              (Encodable.decode (α := Int × Int × Int × Int × ℚ) x.toList.length).map
                (fun q => ⟨q.1, q.2.1, q.2.2.1, q.2.2.2.1, q.2.2.2.2⟩)
            law := ?_
            none_law := if_pos rfl }, ?_⟩
  · intro u
    simp only [if_neg (hdec _), String.toList_ofList, List.length_replicate, Encodable.encodek, Option.map_some, unitTuple]
  · intro u
    unfold Quotable
    simp only [String.toList_ofList]
    constructor <;> intro h <;> exact absurd (List.eq_of_mem_replicate h) (by decide)

theorem storable_slots : Storable savedSlots := by
  refine ⟨by decide, ?_, ?_, ?_, ?_, ?_⟩
  · intro x hx
    simp only [savedSlots, List.mem_cons, List.not_mem_nil, or_false] at hx
    rcases hx with rfl | rfl
    · exact ⟨_, rfl, by unfold Dict.WF; decide, by simp⟩
    · exact ⟨_, rfl, by unfold Dict.WF; decide, by simp⟩
  · intro x hx d hd k hk
    simp only [savedSlots, List.mem_cons, List.not_mem_nil, or_false] at hx
    have hk' : k = "b" ∨ k = "a" := by
      rcases hx with rfl | rfl <;> simp at hd <;> subst hd <;> simpa [Dict.keys] using hk
    rcases hk' with rfl | rfl
    · exact ⟨⟨by decide, by decide, by decide⟩, by decide, by decide, by decide⟩
    · exact ⟨⟨by decide, by decide, by decide⟩, by decide, by decide, by decide⟩
  · intro x hx y hy d e hd he k
    simp only [savedSlots, List.mem_cons, List.not_mem_nil, or_false] at hx hy
    rcases hx with rfl | rfl <;> rcases hy with rfl | rfl <;> simp at hd he <;> subst hd <;> subst he <;> simp [Dict.keys]
  · intro x hx
    simp only [savedSlots, List.mem_cons, List.not_mem_nil, or_false] at hx
    rcases hx with rfl | rfl
    · exact ⟨by unfold Dict.WF; decide, by decide⟩
    · exact ⟨by unfold Dict.WF; decide, by decide⟩
  · intro x hx y hy k
    simp only [savedSlots, List.mem_cons, List.not_mem_nil, or_false] at hx hy
    rcases hx with rfl | rfl <;> rcases hy with rfl | rfl <;> simp [Dict.keys]

theorem savedSlots_succession : InSuccession savedSlots := by
  unfold InSuccession savedSlots
  simp [Item.endT, CloseTo]

/-- the series of those slots -/
def savedSeries : TSeries := (TSeries.build savedSlots).toOption.getD TSeries.empty

/-- The hypotheses of `C163_slots` are met by these two slots, with the interval detected by the modelled
`detect_sampling_interval`. -/
theorem C163_witness : ∃ (uc : UnitCodec) (content : List Text) (r : TSeries),
    savedSeries.saveCsv sampleCodec uc [] [] false none = (some content, .ok ()) ∧
      loadCsv sampleCodec uc physicalCalendar (detectStamps 5) 10 content = .ok r ∧
      List.Forall₂ (fun x y => SameStored "Europe/Rome" x y ∧ y.slot = x.slot) savedSlots r.items := by
  obtain ⟨uc, huc⟩ := unitCodec_exists
  have hb : TSeries.build savedSlots = .ok savedSeries := by
    unfold savedSeries
    cases h : TSeries.build savedSlots with
    | ok s => rfl
    | error e =>
      have h1 : (TSeries.build savedSlots).toOption.isSome = true := by decide +kernel
      rw [h] at h1; cases h1
  have hd : detectStamps 5 (sampleStamps (savedSlots.map Item.t) TSeries.empty) = .ok 3600 := by decide +kernel
  obtain ⟨content, r, h1, h2, h3⟩ := C163_slots sampleCodec uc physicalCalendar (detectStamps 5) 10 [] [] savedSlots savedSeries hb
    storable_slots { secs := 3600 } "Europe/Rome" (by
      intro x hx
      simp only [savedSlots, List.mem_cons, List.not_mem_nil, or_false] at hx
      rcases hx with rfl | rfl <;> exact ⟨by simp only [physicalCalendar]; norm_num, rfl⟩)
    savedSlots_succession (by norm_num [savedSlots]) ⟨by decide, by decide⟩ (huc _) 3600 hd none false (Or.inl rfl)
  exact ⟨uc, content, r, h1, h2, h3⟩

end Timeseria
