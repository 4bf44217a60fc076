import Verif.Model.Conversions
import Verif.Lemmas.SlotBuild
import Verif.Lemmas.Text
import Verif.Lemmas.Ops
import Verif.Props.Csv

/-! # C56, C102, C103: dictionaries, JSON and data frames -/

namespace Timeseria

/-- a whole number of microseconds -/
def WholeMicros (t : ℚ) : Prop := ∃ n : ℤ, t = n / 1000000

/-- numbers, or lists and dictionaries with something in them -/
def NotEmpty : Data → Prop
  | .num _ => True
  | .list l => l ≠ []
  | .dict d => d ≠ []

/-- what the conversions are expected to carry: timestamps at the resolution of datetimes, data of one kind, not empty -/
structure Convertible (l : List Item) : Prop where
  micros : ∀ x ∈ l, WholeMicros x.t
  has : ∀ x ∈ l, ∃ d, x.data = some d ∧ NotEmpty d
  same : ∀ x ∈ l, ∀ y ∈ l, ∀ d e, x.data = some d → y.data = some e → SameKind d e

/-- the data of an item as they come back: numbers get the label `value` -/
def BackData (x y : Item) : Prop :=
  ∃ d, x.data = some d ∧
    y.data = some (match d with
      | .num v => .dict [("value", v)]
      | .list l => .list l
      | .dict e => .dict e)

/-! ## Lemmas -/

theorem micro_of {dc : DtCodec} {t : ℚ} (h : WholeMicros t) : dc.micro t = t := by
  obtain ⟨n, rfl⟩ := h; exact dc.micro_whole n

theorem dictPut_new (d : List (DKey × Data)) (k : DKey) (v : Data) (h : ∀ p ∈ d, p.1.same k = false) :
    dictPut d k v = d ++ [(k, v)] := by
  induction d with
  | nil => rfl
  | cons p r ih =>
    obtain ⟨k', v'⟩ := p
    have h1 := h (k', v') (by simp)
    simp only [dictPut, h1, Bool.false_eq_true, if_false, List.cons_append]
    rw [ih (fun p hp => h p (by simp [hp]))]

theorem dumpItems_ok (key : Item → DKey) : ∀ (l : List Item) (d : List (DKey × Data)), (∀ x ∈ l, ∃ v, x.data = some v) →
    l.Pairwise (fun a b => (key a).same (key b) = false) → (∀ p ∈ d, ∀ x ∈ l, p.1.same (key x) = false) →
    dumpItems key l d = .ok (d ++ l.map (fun x => (key x, x.data.getD default)))
  | [], d, _, _, _ => by simp [dumpItems]
  | x :: r, d, hd, hp, hn => by
    obtain ⟨v, hv⟩ := hd x (by simp)
    rw [List.pairwise_cons] at hp
    simp only [dumpItems, hv]
    rw [dictPut_new _ _ _ (fun p hp' => hn p hp' x (by simp))]
    rw [dumpItems_ok key r _ (fun y hy => hd y (by simp [hy])) hp.2]
    · simp [hv]
    · intro p hp' y hy
      rcases List.mem_append.1 hp' with h | h
      · exact hn p h y (by simp [hy])
      · simp only [List.mem_singleton] at h
        subst h
        exact hp.1 y hy

theorem loadItems_ok (dc : DtCodec) (cal : Calendar) (u : Option TUnit) (key : Item → DKey) (tz : Item → String) :
    ∀ (l : List Item) (s s' : TSeries), (∀ x ∈ l, keyStamp dc (key x) = .ok (x.t, tz x)) →
    s.appendAll (l.map (fun x => convItem cal u x.t (tz x) (wrapData (x.data.getD default)))) = (s', .ok ()) →
    loadItems dc cal u (l.map (fun x => (key x, x.data.getD default))) s = .ok s'
  | [], s, s', _, h => by
    simp only [List.map_nil, TSeries.appendAll, Prod.mk.injEq] at h
    simp [loadItems, h.1]
  | x :: r, s, s', hk, h => by
    simp only [List.map_cons, TSeries.appendAll] at h
    simp only [List.map_cons, loadItems, hk x (by simp)]
    cases hx : (s.append (convItem cal u x.t (tz x) (wrapData (x.data.getD default)))).2 with
    | error e => rw [hx] at h; simp at h
    | ok o =>
      rw [hx] at h
      exact loadItems_ok dc cal u key tz r _ s' (fun y hy => hk y (by simp [hy])) h

theorem wrap_truthy {d : Data} (h : NotEmpty d) : (wrapData d).truthy = true := by
  cases d with
  | num x => rfl
  | list l => cases l with
    | nil => exact absurd rfl h
    | cons _ _ => rfl
  | dict l => cases l with
    | nil => exact absurd rfl h
    | cons _ _ => rfl

theorem wrap_same {d e : Data} (h : SameKind d e) : SameKind (wrapData d) (wrapData e) := by
  cases d <;> cases e <;> simp_all [SameKind, wrapData, Dict.keys]

theorem wrap_back {x : Item} {d : Data} (h : x.data = some d) (t : ℚ) (tz : String) (u : Option TUnit) (cal : Calendar) :
    BackData x (convItem cal u t tz (wrapData (x.data.getD default))) := by
  refine ⟨d, h, ?_⟩
  rw [h]
  cases d <;> rfl

/-- the points that come back are accepted -/
theorem good_back {l : List Item} (hc : Convertible l) (cal : Calendar) (tz : Item → String)
    (hsp : l.Pairwise (fun a b => a.t + 1 / 10000 ≤ b.t)) :
    GoodPoints (l.map (fun x => convItem cal none x.t (tz x) (wrapData (x.data.getD default)))) := by
  refine ⟨?_, ?_, ?_, ?_⟩
  · intro y hy; obtain ⟨x, _, rfl⟩ := List.mem_map.1 hy; rfl
  · rw [List.pairwise_map]; exact hsp
  · intro y hy; obtain ⟨x, hx, rfl⟩ := List.mem_map.1 hy
    obtain ⟨d, hd, hn⟩ := hc.has x hx
    exact ⟨_, rfl, by rw [hd]; exact wrap_truthy hn⟩
  · intro y hy z hz d e hd he
    obtain ⟨x, hx, rfl⟩ := List.mem_map.1 hy; obtain ⟨w, hw, rfl⟩ := List.mem_map.1 hz
    obtain ⟨dx, hdx, _⟩ := hc.has x hx
    obtain ⟨dw, hdw, _⟩ := hc.has w hw
    simp only [convItem, Option.some.injEq] at hd he
    subst hd; subst he
    rw [hdx, hdw]
    exact wrap_same (hc.same x hx w hw dx dw hdx hdw)

/-- the slots that come back are accepted -/
theorem good_back_slots {l : List Item} (hc : Convertible l) (cal : Calendar) (u : TUnit) (tz : Item → String)
    (hend : ∀ x ∈ l, x.endT = cal.shift u (tz x) x.t) (hch : InSuccession l) (htz : ∀ x ∈ l, ∀ y ∈ l, tz x = tz y) :
    GoodSlots (l.map (fun x => convItem cal (some u) x.t (tz x) (wrapData (x.data.getD default)))) := by
  refine ⟨?_, ?_, ?_, ?_, ?_, ?_⟩
  · intro y hy; obtain ⟨x, _, rfl⟩ := List.mem_map.1 hy; rfl
  · unfold InSuccession at hch ⊢
    rw [List.isChain_map]
    refine hch.imp_of_mem_imp ?_
    intro a b ha _ hab
    show CloseTo (cal.shift u (tz a) a.t) b.t
    rw [← hend a ha]; exact hab
  · intro y hy z hz; obtain ⟨x, _, rfl⟩ := List.mem_map.1 hy; obtain ⟨w, _, rfl⟩ := List.mem_map.1 hz; rfl
  · intro y hy z hz; obtain ⟨x, hx, rfl⟩ := List.mem_map.1 hy; obtain ⟨w, hw, rfl⟩ := List.mem_map.1 hz
    exact htz x hx w hw
  · intro y hy; obtain ⟨x, hx, rfl⟩ := List.mem_map.1 hy
    obtain ⟨d, hd, hn⟩ := hc.has x hx
    exact ⟨_, rfl, by rw [hd]; exact wrap_truthy hn⟩
  · intro y hy z hz d e hd he
    obtain ⟨x, hx, rfl⟩ := List.mem_map.1 hy; obtain ⟨w, hw, rfl⟩ := List.mem_map.1 hz
    obtain ⟨dx, hdx, _⟩ := hc.has x hx
    obtain ⟨dw, hdw, _⟩ := hc.has w hw
    simp only [convItem, Option.some.injEq] at hd he
    subst hd; subst he
    rw [hdx, hdw]
    exact wrap_same (hc.same x hx w hw dx dw hdx hdw)

/-- what is known of an accepted series of slots -/
theorem build_slots_known {l : List Item} {s : TSeries} (h : TSeries.build l = .ok s) (hs : AllSlots l) :
    InSuccession l ∧ ∀ x ∈ l, ∀ y ∈ l, x.tz = y.tz := by
  have hi := build_items h
  have hsi := build_slotInv hs h
  constructor
  · have h2 : SuccInv (TSeries.empty.appendAll l).1.items :=
      appendAll_inv (P := SuccInv) (fun s x hs => succ_append s x hs) _ _ succ_nil
    rw [(build_ok_iff l s).1 h] at h2
    have h2 : SuccInv s.items := h2
    rw [hi] at h2
    exact h2.2 hs
  · intro x hx y hy
    obtain ⟨u, z, _, _, hall⟩ := hsi.noUnit (by rw [hi]; exact List.ne_nil_of_mem hx)
    rw [(hall x (by rw [hi]; exact hx)).2, (hall y (by rw [hi]; exact hy)).2]

theorem dt_keys_distinct {dc : DtCodec} {l : List Item} (hc : Convertible l) (hord : l.Pairwise (fun a b => a.t < b.t)) :
    l.Pairwise (fun a b => (DKey.dt (dc.micro a.t) a.tz).same (DKey.dt (dc.micro b.t) b.tz) = false) := by
  refine hord.imp_of_mem ?_
  intro a b ha hb hab
  rw [micro_of (hc.micros a ha), micro_of (hc.micros b hb)]
  simp [DKey.same, ne_of_lt hab]

theorem str_keys_distinct {dc : DtCodec} {l : List Item} (hc : Convertible l) (hord : l.Pairwise (fun a b => a.t < b.t)) :
    l.Pairwise (fun a b => (DKey.str (dc.text (dc.micro a.t) a.tz)).same (DKey.str (dc.text (dc.micro b.t) b.tz)) = false) := by
  refine hord.imp_of_mem ?_
  intro a b ha hb hab
  rw [micro_of (hc.micros a ha), micro_of (hc.micros b hb)]
  simp only [DKey.same, decide_eq_false_iff_not]
  intro h
  obtain ⟨n, hn⟩ := hc.micros a ha
  obtain ⟨m, hm⟩ := hc.micros b hb
  have h1 := dc.stamp_text n a.tz
  have h2 := dc.stamp_text m b.tz
  rw [← hn, h, hm] at h1
  rw [h1] at h2
  simp only [Option.some.injEq] at h2
  rw [h2, hm] at hab; exact lt_irrefl _ hab

theorem str_key_stamp {dc : DtCodec} {x : Item} (h : WholeMicros x.t) :
    keyStamp dc (.str (dc.text (dc.micro x.t) x.tz)) = .ok (x.t, "UTC") := by
  rw [micro_of h]
  obtain ⟨n, hn⟩ := h
  simp only [keyStamp, dc.float_text, hn, dc.stamp_text n x.tz]

theorem forall₂_map_self {α β : Type} {R : α → β → Prop} {f : α → β} {l : List α} (h : ∀ x ∈ l, R x (f x)) :
    List.Forall₂ R l (l.map f) := by
  rw [List.forall₂_map_right_iff, List.forall₂_same]; exact h

/-! ## C56 -/

/-- **C56** for points: `from_dict(to_dict())` gives back timestamps, time zones and data -/
theorem C56_points_through_a_dictionary (dc : DtCodec) (cal : Calendar) (l : List Item) (s : TSeries) (hb : TSeries.build l = .ok s)
    (_hp : ∀ x ∈ l, x.slot = none) (hc : Convertible l) (hsp : l.Pairwise (fun a b => a.t + 1 / 10000 ≤ b.t)) :
    ∃ d s', toDict dc s = .ok d ∧ fromDict dc cal none d = .ok s' ∧
      List.Forall₂ (fun x y => y.t = x.t ∧ y.tz = x.tz ∧ y.slot = none ∧ BackData x y) l s'.items := by
  obtain ⟨s', hb', hi', _⟩ := build_good (good_back hc cal Item.tz hsp)
  refine ⟨l.map (fun x => (DKey.dt (dc.micro x.t) x.tz, x.data.getD default)), s', ?_, ?_, ?_⟩
  · unfold toDict
    rw [build_items hb, dumpItems_ok _ l [] (fun x hx => let ⟨d, hd, _⟩ := hc.has x hx; ⟨d, hd⟩)
      (dt_keys_distinct hc (hsp.imp (fun {a b} h => by linarith))) (by simp), List.nil_append]
  · unfold fromDict
    exact loadItems_ok dc cal none _ Item.tz l _ s' (fun x hx => by rw [micro_of (hc.micros x hx)]; rfl) ((build_ok_iff _ _).1 hb')
  · rw [hi']
    refine forall₂_map_self ?_
    intro x hx
    obtain ⟨d, hd, _⟩ := hc.has x hx
    exact ⟨rfl, rfl, rfl, wrap_back hd _ _ _ _⟩

/-- **C56** for slots of a unit, when the unit is passed to `from_dict` -/
theorem C56_slots_through_a_dictionary (dc : DtCodec) (cal : Calendar) (l : List Item) (s : TSeries) (hb : TSeries.build l = .ok s)
    (u : TUnit) (hsl : ∀ x ∈ l, x.slot = some (cal.shift u x.tz x.t, u)) (hc : Convertible l)
    (hord : l.Pairwise (fun a b => a.t < b.t)) :
    ∃ d s', toDict dc s = .ok d ∧ fromDict dc cal (some u) d = .ok s' ∧
      List.Forall₂ (fun x y => y.t = x.t ∧ y.tz = x.tz ∧ y.slot = x.slot ∧ BackData x y) l s'.items := by
  obtain ⟨hch, htz⟩ := build_slots_known hb (fun x hx => by unfold Item.isSlot; rw [hsl x hx]; rfl)
  obtain ⟨s', hb', hi', _⟩ := build_good_slots (good_back_slots hc cal u Item.tz
    (fun x hx => by unfold Item.endT; rw [hsl x hx]) hch htz)
  refine ⟨l.map (fun x => (DKey.dt (dc.micro x.t) x.tz, x.data.getD default)), s', ?_, ?_, ?_⟩
  · unfold toDict
    rw [build_items hb, dumpItems_ok _ l [] (fun x hx => let ⟨d, hd, _⟩ := hc.has x hx; ⟨d, hd⟩)
      (dt_keys_distinct hc hord) (by simp), List.nil_append]
  · unfold fromDict
    exact loadItems_ok dc cal (some u) _ Item.tz l _ s' (fun x hx => by rw [micro_of (hc.micros x hx)]; rfl) ((build_ok_iff _ _).1 hb')
  · rw [hi']
    refine forall₂_map_self ?_
    intro x hx
    obtain ⟨d, hd, _⟩ := hc.has x hx
    exact ⟨rfl, rfl, by rw [hsl x hx]; rfl, wrap_back hd _ _ _ _⟩

/-- **C56** through JSON, for points: timestamps and data come back, on UTC -/
theorem C56_points_through_json (dc : DtCodec) (cal : Calendar) (l : List Item) (s : TSeries) (hb : TSeries.build l = .ok s)
    (_hp : ∀ x ∈ l, x.slot = none) (hc : Convertible l) (hsp : l.Pairwise (fun a b => a.t + 1 / 10000 ≤ b.t)) :
    ∃ d s', toJson dc s = .ok d ∧ fromDict dc cal none d = .ok s' ∧
      List.Forall₂ (fun x y => y.t = x.t ∧ y.tz = "UTC" ∧ y.slot = none ∧ BackData x y) l s'.items := by
  obtain ⟨s', hb', hi', _⟩ := build_good (good_back hc cal (fun _ => "UTC") hsp)
  refine ⟨l.map (fun x => (DKey.str (dc.text (dc.micro x.t) x.tz), x.data.getD default)), s', ?_, ?_, ?_⟩
  · unfold toJson
    rw [build_items hb, dumpItems_ok _ l [] (fun x hx => let ⟨d, hd, _⟩ := hc.has x hx; ⟨d, hd⟩)
      (str_keys_distinct hc (hsp.imp (fun {a b} h => by linarith))) (by simp), List.nil_append]
  · unfold fromDict
    exact loadItems_ok dc cal none _ (fun _ => "UTC") l _ s' (fun x hx => str_key_stamp (hc.micros x hx)) ((build_ok_iff _ _).1 hb')
  · rw [hi']
    refine forall₂_map_self ?_
    intro x hx
    obtain ⟨d, hd, _⟩ := hc.has x hx
    exact ⟨rfl, rfl, rfl, wrap_back hd _ _ _ _⟩

/-- **C56** through JSON, for slots of a unit with which the slots end where they do also on UTC -/
theorem C56_slots_through_json (dc : DtCodec) (cal : Calendar) (l : List Item) (s : TSeries) (hb : TSeries.build l = .ok s)
    (u : TUnit) (hsl : ∀ x ∈ l, x.slot = some (cal.shift u "UTC" x.t, u)) (hc : Convertible l)
    (hord : l.Pairwise (fun a b => a.t < b.t)) :
    ∃ d s', toJson dc s = .ok d ∧ fromDict dc cal (some u) d = .ok s' ∧
      List.Forall₂ (fun x y => y.t = x.t ∧ y.tz = "UTC" ∧ y.slot = x.slot ∧ BackData x y) l s'.items := by
  obtain ⟨hch, _⟩ := build_slots_known hb (fun x hx => by unfold Item.isSlot; rw [hsl x hx]; rfl)
  obtain ⟨s', hb', hi', _⟩ := build_good_slots (good_back_slots hc cal u (fun _ => "UTC")
    (fun x hx => by unfold Item.endT; rw [hsl x hx]) hch (fun _ _ _ _ => rfl))
  refine ⟨l.map (fun x => (DKey.str (dc.text (dc.micro x.t) x.tz), x.data.getD default)), s', ?_, ?_, ?_⟩
  · unfold toJson
    rw [build_items hb, dumpItems_ok _ l [] (fun x hx => let ⟨d, hd, _⟩ := hc.has x hx; ⟨d, hd⟩)
      (str_keys_distinct hc hord) (by simp), List.nil_append]
  · unfold fromDict
    exact loadItems_ok dc cal (some u) _ (fun _ => "UTC") l _ s' (fun x hx => str_key_stamp (hc.micros x hx)) ((build_ok_iff _ _).1 hb')
  · rw [hi']
    refine forall₂_map_self ?_
    intro x hx
    obtain ⟨d, hd, _⟩ := hc.has x hx
    exact ⟨rfl, rfl, by rw [hsl x hx]; rfl, wrap_back hd _ _ _ _⟩

/-! ## Examples -/

/-- a codec: datetimes written as `T` and a number -/
def sampleDt : DtCodec where
  micro t := (round (t * 1000000) : ℤ) / 1000000
  micro_whole n := by
    have : ((n : ℚ) / 1000000 * 1000000) = (n : ℚ) := by field_simp
    rw [this, round_intCast]
  float s := if s.head? = some 'T' then none else sampleParse s
  stamp s := if s.head? = some 'T' then some (sampleGuess s.tail) else none
  text t _ := 'T' :: sampleFmt t
  float_text t tz := by simp
  stamp_text n tz := by simp [sampleGuess_fmt]

def convItems : List Item := [mkPoint 0 (.num 5) "Europe/Rome" [("data_loss", some 1)], mkPoint (1/2) (.num 0) "Europe/Rome"]

theorem convItems_convertible : Convertible convItems := by
  refine ⟨?_, ?_, ?_⟩
  · intro x hx
    simp only [convItems, List.mem_cons, List.not_mem_nil, or_false] at hx
    rcases hx with rfl | rfl
    · exact ⟨0, by simp [mkPoint]⟩
    · exact ⟨500000, by simp [mkPoint]; norm_num⟩
  · intro x hx
    simp only [convItems, List.mem_cons, List.not_mem_nil, or_false] at hx
    rcases hx with rfl | rfl <;> exact ⟨_, rfl, trivial⟩
  · intro x hx y hy d e hd he
    simp only [convItems, List.mem_cons, List.not_mem_nil, or_false] at hx hy
    rcases hx with rfl | rfl <;> rcases hy with rfl | rfl <;> simp [mkPoint] at hd he <;> subst hd <;> subst he <;> trivial

/-- the round trip of points through a dictionary -/
def throughDict (l : List Item) : Option (List Item) :=
  match (TSeries.build l) with
  | .error _ => none
  | .ok s =>
    match toDict sampleDt s with
    | .error _ => none
    | .ok d => (fromDict sampleDt physicalCalendar none d).toOption.map (fun s => s.items)

def throughJson (l : List Item) : Option (List Item) :=
  match (TSeries.build l) with
  | .error _ => none
  | .ok s =>
    match toJson sampleDt s with
    | .error _ => none
    | .ok d => (fromDict sampleDt physicalCalendar none d).toOption.map (fun s => s.items)

example : convItems.Pairwise (fun a b => a.t + 1 / 10000 ≤ b.t) := by decide +kernel

example : throughDict convItems = some [mkPoint 0 (.dict [("value", 5)]) "Europe/Rome", mkPoint (1/2) (.dict [("value", 0)]) "Europe/Rome"] := by
  decide +kernel

/-! ## C102: what the conversions lose -/

/-- **C102** is false: data indexes are lost -/
theorem C102_data_indexes_lost_false :
    throughDict [mkPoint 0 (.dict [("a", 5)]) "UTC" [("data_loss", some 1)]] = some [mkPoint 0 (.dict [("a", 5)])] := by decide +kernel

/-- the time zone is lost through JSON -/
theorem C102_time_zone_lost_in_json_false :
    throughJson [mkPoint 0 (.dict [("a", 5)]) "Europe/Rome"] = some [mkPoint 0 (.dict [("a", 5)]) "UTC"] := by decide +kernel

/-- slots become points if the unit is not given again -/
theorem C102_slots_become_points_false :
    throughDict [{ t := 0, slot := some (60, TUnit.ofSecs 60), data := some (.dict [("a", 5)]) }] =
      some [mkPoint 0 (.dict [("a", 5)])] := by decide +kernel

/-- timestamps finer than a microsecond are changed -/
theorem C102_below_a_microsecond_false :
    throughDict [mkPoint (1/3) (.dict [("a", 5)])] = some [mkPoint (333333/1000000) (.dict [("a", 5)])] := by
  decide +kernel

/-- **C102**, the part that holds: points on UTC without data indexes, with dictionaries or lists as data, come back as
they were, through a dictionary and through JSON -/
theorem C102_plain_points_partial (dc : DtCodec) (cal : Calendar) (l : List Item) (s : TSeries) (hb : TSeries.build l = .ok s)
    (hp : ∀ x ∈ l, x.slot = none ∧ x.tz = "UTC" ∧ x.idx = [] ∧ ∀ v, x.data ≠ some (.num v)) (hc : Convertible l)
    (hsp : l.Pairwise (fun a b => a.t + 1 / 10000 ≤ b.t)) :
    ∃ d j s₁ s₂, toDict dc s = .ok d ∧ toJson dc s = .ok j ∧ fromDict dc cal none d = .ok s₁ ∧ fromDict dc cal none j = .ok s₂ ∧
      s₁.items = l ∧ s₂.items = l := by
  have hconv : ∀ tz : Item → String, (∀ x ∈ l, tz x = "UTC") →
      l.map (fun x => convItem cal none x.t (tz x) (wrapData (x.data.getD default))) = l := by
    intro tz htz
    conv_rhs => rw [← List.map_id l]
    refine List.map_congr_left ?_
    intro x hx
    obtain ⟨h1, h2, h3, h4⟩ := hp x hx
    obtain ⟨d, hd, _⟩ := hc.has x hx
    have hw : wrapData d = d := by
      cases d with
      | num v => exact absurd hd (h4 v)
      | list _ => rfl
      | dict _ => rfl
    obtain ⟨t, sl, z, da, ix⟩ := x
    simp only at h1 h2 h3 hd
    subst h1; subst h2; subst h3; subst hd
    simp only [convItem, Option.getD_some, hw, htz _ hx, Option.map_none, id]
  obtain ⟨s₁, hb₁, hi₁, _⟩ := build_good (good_back hc cal Item.tz hsp)
  obtain ⟨s₂, hb₂, hi₂, _⟩ := build_good (good_back hc cal (fun _ => "UTC") hsp)
  refine ⟨l.map (fun x => (DKey.dt (dc.micro x.t) x.tz, x.data.getD default)),
    l.map (fun x => (DKey.str (dc.text (dc.micro x.t) x.tz), x.data.getD default)), s₁, s₂, ?_, ?_, ?_, ?_, ?_, ?_⟩
  · unfold toDict
    rw [build_items hb, dumpItems_ok _ l [] (fun x hx => let ⟨d, hd, _⟩ := hc.has x hx; ⟨d, hd⟩)
      (dt_keys_distinct hc (hsp.imp (fun {a b} h => by linarith))) (by simp)]
    rfl
  · unfold toJson
    rw [build_items hb, dumpItems_ok _ l [] (fun x hx => let ⟨d, hd, _⟩ := hc.has x hx; ⟨d, hd⟩)
      (str_keys_distinct hc (hsp.imp (fun {a b} h => by linarith))) (by simp)]
    rfl
  · exact loadItems_ok dc cal none _ Item.tz l _ s₁ (fun x hx => by rw [micro_of (hc.micros x hx)]; rfl) ((build_ok_iff _ _).1 hb₁)
  · exact loadItems_ok dc cal none _ (fun _ => "UTC") l _ s₂ (fun x hx => str_key_stamp (hc.micros x hx)) ((build_ok_iff _ _).1 hb₂)
  · rw [hi₁]; exact hconv _ (fun x hx => (hp x hx).2.1)
  · rw [hi₂]; exact hconv _ (fun _ _ => rfl)

/-! ## C103: data frames -/

/-- points without data loss and with dictionaries as data -/
structure Framable (l : List Item) : Prop where
  ne : l ≠ []
  micros : ∀ x ∈ l, WholeMicros x.t
  dicts : ∀ x ∈ l, ∃ d, x.data = some (.dict d) ∧ Dict.WF d ∧ d ≠ []
  same : ∀ x ∈ l, ∀ y ∈ l, ∀ d e, x.data = some (.dict d) → y.data = some (.dict e) → ∀ k, k ∈ d.keys ↔ k ∈ e.keys
  noLoss : ∀ x ∈ l, ∀ v, x.idx.get? "data_loss" ≠ some (some v)

/-- the round trip through a data frame, read as points -/
def throughFrame (l : List Item) : Option (List Item) :=
  match (TSeries.build l) with
  | .error _ => none
  | .ok s =>
    match toFrame sampleDt s with
    | .error _ => none
    | .ok f => (fromFrame physicalCalendar none f).toOption.map (fun s => s.items)

/-- **C103** is false: the data loss comes back as one more label of the data -/
theorem C103_data_loss_becomes_data_false :
    throughFrame [mkPoint 0 (.dict [("a", 5)]) "UTC" [("data_loss", some 1)]] =
      some [mkPoint 0 (.dict [("a", 5), ("data_loss", 1)])] := by decide +kernel

/-- other data indexes are lost -/
theorem C103_other_indexes_lost_false :
    throughFrame [mkPoint 0 (.dict [("a", 5)]) "UTC" [("anomaly", some 1)]] = some [mkPoint 0 (.dict [("a", 5)])] := by decide +kernel

/-- a series of lists cannot be converted -/
theorem C103_lists_refused_false :
    (TSeries.build [mkPoint 0 (.list [1, 2])]).toOption.isSome = true ∧ throughFrame [mkPoint 0 (.list [1, 2])] = none := by decide +kernel

theorem frameData_ok : ∀ (ks : List String) (f : String → ℚ) (acc : Dict ℚ), ks.Nodup → (∀ k ∈ ks, k ∉ acc.keys) →
    frameData ks (ks.map (fun k => some (f k))) acc = .ok (acc ++ ks.map (fun k => (k, f k)))
  | [], _, acc, _, _ => by simp [frameData]
  | k :: ks, f, acc, hn, hd => by
    rw [List.nodup_cons] at hn
    have hset : Dict.set acc k (f k) = acc ++ [(k, f k)] := by
      have hk := hd k (by simp)
      clear hd
      induction acc with
      | nil => rfl
      | cons p r ih =>
        obtain ⟨k', v'⟩ := p
        simp only [Dict.keys, List.map_cons, List.mem_cons, not_or] at hk
        simp only [Dict.set]
        rw [if_neg (Ne.symm hk.1), ih hk.2]
        rfl
    simp only [List.map_cons, frameData]
    rw [hset, frameData_ok ks f _ hn.2]
    · simp
    · intro q hq
      simp only [Dict.keys, List.map_append, List.mem_append, not_or, List.map_cons, List.map_nil, List.mem_singleton]
      refine ⟨hd q (by simp [hq]), ?_⟩
      intro h; rw [h] at hq; exact hn.1 hq

/-- **C103**, the part that holds: points with dictionaries as data and no data loss come back with their timestamps,
time zones and values -/
theorem C103_no_data_loss_partial (dc : DtCodec) (cal : Calendar) (l : List Item) (s : TSeries) (hb : TSeries.build l = .ok s)
    (_hp : ∀ x ∈ l, x.slot = none) (hc : Framable l) (hsp : l.Pairwise (fun a b => a.t + 1 / 10000 ≤ b.t)) :
    ∃ f s', toFrame dc s = .ok f ∧ fromFrame cal none f = .ok s' ∧
      List.Forall₂ (fun x y => y.t = x.t ∧ y.tz = x.tz ∧ y.slot = none ∧
        ∃ d e, x.data = some (.dict d) ∧ y.data = some (.dict e) ∧ ∀ k, e.get? k = d.get? k) l s'.items := by
  have hi := build_items hb
  have hdi := build_dataInv (fun x hx => by
    obtain ⟨d, hd, _, hn⟩ := hc.dicts x hx
    refine ⟨_, hd, ?_⟩
    cases d with
    | nil => exact absurd rfl hn
    | cons _ _ => rfl) hb
  obtain ⟨x0, r0, hl⟩ := List.exists_cons_of_ne_nil hc.ne
  obtain ⟨d0, hd0, hw0, hn0⟩ := hc.dicts x0 (by rw [hl]; simp)
  obtain ⟨q, hq1, hq2, _⟩ := hdi.ref (by rw [hi, hl]; simp)
  obtain ⟨ks, hksd⟩ : ∃ ks, ks = sortStr d0.keys := ⟨_, rfl⟩
  have hnd : ks.Nodup := by rw [hksd]; exact (sortStr_perm _).nodup_iff.2 hw0
  have hmem : ∀ x ∈ l, ∀ d, x.data = some (.dict d) → ∀ k, k ∈ ks ↔ k ∈ d.keys := by
    intro x hx d hd k
    rw [hksd, (sortStr_perm d0.keys).mem_iff]
    exact hc.same x0 (by rw [hl]; simp) x hx d0 d hd0 hd k
  have hkne : ks ≠ [] := by
    intro h
    obtain ⟨p, r, hd⟩ := List.exists_cons_of_ne_nil hn0
    have := (hmem x0 (by rw [hl]; simp) d0 hd0 p.1).2 (by rw [hd]; simp [Dict.keys])
    rw [h] at this; simp at this
  let val : Item → String → ℚ := fun x k => match x.data with | some (.dict d) => (d.get? k).getD 0 | _ => 0
  have hval : ∀ x ∈ l, ∀ d, x.data = some (.dict d) → ∀ k ∈ ks, d.get? k = some (val x k) := by
    intro x hx d hd k hk
    obtain ⟨v, hv⟩ := Dict.get?_isSome.2 ((hmem x hx d hd k).1 hk)
    simp only [val, hd, hv, Option.getD_some]
  have hloss : s.items.any (fun x => x.lossOf.isSome) = false := by
    rw [hi, List.any_eq_false]
    intro x hx
    unfold Item.lossOf
    cases h : Dict.get? x.idx "data_loss" with
    | none => simp
    | some o => cases o with
      | none => simp
      | some v => exact absurd h (hc.noLoss x hx v)
  have hframe : toFrame dc s = .ok { columns := ks, rows := l.map (fun x => ((x.t, x.tz), ks.map (fun k => some (val x k)))) } := by
    unfold toFrame
    have hlab : s.labelsFrom x0 = .ok ks := by
      simp [TSeries.labelsFrom, hq1, hq2, hd0, labelsOf, hksd]
    have hmap := mapE_ok (l := l) (f := frameRow dc ks (s.items.any (fun x => x.lossOf.isSome)))
        (g := fun x => ((x.t, x.tz), ks.map (fun k => some (val x k)))) (by
      intro x hx
      obtain ⟨d, hd, _⟩ := hc.dicts x hx
      have : mapE (fun k => frameValue x k) ks = .ok (ks.map (fun k => some (val x k))) := by
        refine mapE_ok (g := fun k => some (val x k)) ?_
        intro k hk
        simp only [frameValue, hd, hval x hx d hd k hk]
      unfold frameRow
      rw [this]
      simp only [hloss, Bool.false_eq_true, if_false, List.append_nil, micro_of (hc.micros x hx)])
    cases hit : s.items with
    | nil => rw [hi, hl] at hit; simp at hit
    | cons f r =>
      have hf : f = x0 := by rw [hi, hl] at hit; simp at hit; exact hit.1.symm
      subst hf
      simp only [hlab]
      rw [hit] at hloss hmap
      have hl' : l = f :: r := by rw [← hi, hit]
      rw [hl'] at hmap ⊢
      rw [hmap]
      simp only [hloss, Bool.false_eq_true, if_false, List.append_nil]
  have hgood : GoodPoints (l.map (fun x => convItem cal none x.t x.tz (.dict (ks.map (fun k => (k, val x k)))))) := by
    refine ⟨?_, ?_, ?_, ?_⟩
    · intro y hy; obtain ⟨x, _, rfl⟩ := List.mem_map.1 hy; rfl
    · rw [List.pairwise_map]; exact hsp
    · intro y hy; obtain ⟨x, hx, rfl⟩ := List.mem_map.1 hy
      refine ⟨_, rfl, ?_⟩
      obtain ⟨k, r, hk⟩ := List.exists_cons_of_ne_nil hkne
      rw [hk]; rfl
    · intro y hy z hz d e hd he
      obtain ⟨x, hx, rfl⟩ := List.mem_map.1 hy; obtain ⟨w, hw, rfl⟩ := List.mem_map.1 hz
      simp only [convItem, Option.some.injEq] at hd he
      subst hd; subst he
      intro k
      simp [Dict.keys, List.map_map, Function.comp_def]
  obtain ⟨s', hb', hi', _⟩ := build_good hgood
  refine ⟨_, s', hframe, ?_, ?_⟩
  · unfold fromFrame
    simp only
    have : ∀ l' : List Item, mapE (frameItem cal none ks) (l'.map (fun x => ((x.t, x.tz), ks.map (fun k => some (val x k))))) =
        .ok (l'.map (fun x => convItem cal none x.t x.tz (.dict (ks.map (fun k => (k, val x k)))))) := by
      intro l'
      induction l' with
      | nil => rfl
      | cons x r ih =>
        simp only [List.map_cons, mapE, frameItem]
        rw [frameData_ok ks (val x) [] hnd (by simp [Dict.keys])]
        simp only [List.nil_append]
        rw [ih]
    rw [this]
    exact hb'
  · rw [hi']
    refine forall₂_map_self ?_
    intro x hx
    obtain ⟨d, hd, _⟩ := hc.dicts x hx
    refine ⟨rfl, rfl, rfl, d, _, hd, rfl, ?_⟩
    intro k
    rw [get?_map_names]
    split
    · rename_i hk; exact (hval x hx d hd k hk).symm
    · rename_i hk
      exact (Dict.get?_eq_none.2 (fun h => hk ((hmem x hx d hd k).2 h))).symm

example : throughFrame [mkPoint 0 (.dict [("b", 5), ("a", 1)]) "Europe/Rome", mkPoint 60 (.dict [("b", 7), ("a", 2)]) "Europe/Rome"] =
    some [mkPoint 0 (.dict [("a", 1), ("b", 5)]) "Europe/Rome", mkPoint 60 (.dict [("a", 2), ("b", 7)]) "Europe/Rome"] := by decide +kernel

end Timeseria
