import Verif.Model.Session
import Verif.Props.Order
import Verif.Props.SourceRange

/-! # C249: what survives any session -/

namespace Timeseria

/-- time and extent of an item -/
def Item.place (x : Item) : ℚ × Option (ℚ × TUnit) := (x.t, x.slot)

theorem editData_place (f : Data → Except PyErr Data) (l : List Item) : (editData f l).1.map Item.place = l.map Item.place := by
  induction l with
  | nil => rfl
  | cons x r ih =>
    unfold editData
    split
    · rfl
    · split
      · rfl
      · dsimp only
        rw [List.map_cons, List.map_cons, ih]
        rfl

theorem inplaceCall_place (cal : Calendar) (s : TSeries) (c : InplaceCall) :
    (s.inplaceCall cal c).1.map Item.place = s.items.map Item.place := by
  have key : ∀ (auto a b : ℚ) (v : NumOrDict) (p : List Item × Outcome),
      p ∈ [s.normalizeLeft a b, s.rescaleLeft v, s.offsetLeft v, s.integralLeft cal auto v, s.derivativeLeft cal auto, s.csumLeft] →
      p.1.map Item.place = s.items.map Item.place := by
    intro auto a b v p hp
    obtain ⟨h1, h2⟩ := C241_frame_partial cal s auto a b v p hp
    apply List.ext_getElem?
    intro j
    rw [List.getElem?_map, List.getElem?_map]
    rcases hx : s.items[j]? with _ | x
    · have : p.1[j]? = none := by
        rw [List.getElem?_eq_none_iff] at hx ⊢
        omega
      rw [this]
    · rcases hy : p.1[j]? with _ | y
      · exfalso
        rw [List.getElem?_eq_none_iff] at hy
        have := (List.getElem?_eq_some_iff.1 hx).1
        omega
      · obtain ⟨ha, hb, _⟩ := h2 j x y hx hy
        simp [Item.place, ha, hb]
  cases c with
  | rescale v => exact key 0 0 0 v _ (by simp [TSeries.inplaceCall])
  | offset v => exact key 0 0 0 v _ (by simp [TSeries.inplaceCall])
  | normalize a b => exact key 0 a b (.num 0) _ (by simp [TSeries.inplaceCall])
  | derivative auto => exact key auto 0 0 (.num 0) _ (by simp [TSeries.inplaceCall])
  | integral auto v => exact key auto 0 0 v _ (by simp [TSeries.inplaceCall])
  | csum => exact key 0 0 0 (.num 0) _ (by simp [TSeries.inplaceCall])

/-- a call which is not one of the basic ones leaves the places of the items -/
theorem session_place (cal : Calendar) (s : TSeries) (c : SessionCall) (h : ∀ op, c ≠ .basic op) :
    (s.sessionStep cal c).items.map Item.place = s.items.map Item.place := by
  cases c with
  | basic op => exact absurd rfl (h op)
  | inplace c ref => exact inplaceCall_place cal s c
  | rename old new ref =>
    unfold TSeries.sessionStep
    dsimp only
    split
    · rfl
    · exact editData_place _ _
  | removeLabel k ref =>
    unfold TSeries.sessionStep
    dsimp only
    split
    · rfl
    · exact editData_place _ _
  | removeIndex n =>
    unfold TSeries.sessionStep
    dsimp only
    split
    · rfl
    · simp [List.map_map, Function.comp_def, Item.place]
  | changeTz z =>
    unfold TSeries.sessionStep TSeries.changeTz
    dsimp only
    split
    · rfl
    · simp [List.map_map, Function.comp_def, Item.place]

/-! ## The invariants depend on the places only -/

theorem mem_places {l l' : List Item} (h : l'.map Item.place = l.map Item.place) {y : Item} (hy : y ∈ l') :
    ∃ x ∈ l, x.t = y.t ∧ x.slot = y.slot := by
  have : y.place ∈ l.map Item.place := by rw [← h]; exact List.mem_map_of_mem hy
  obtain ⟨x, hx, he⟩ := List.mem_map.1 this
  simp only [Item.place, Prod.mk.injEq] at he
  exact ⟨x, hx, he.1, he.2⟩

theorem kindInv_places {l l' : List Item} (h : l'.map Item.place = l.map Item.place) (hk : KindInv l) : KindInv l' := by
  intro a ha b hb
  obtain ⟨x, hx, _, h1⟩ := mem_places h ha
  obtain ⟨y, hy, _, h2⟩ := mem_places h hb
  have := hk x hx y hy
  unfold Item.isSlot at this ⊢
  rw [← h1, ← h2]
  exact this

theorem allPoints_places {l l' : List Item} (h : l'.map Item.place = l.map Item.place) (hp : AllPoints l') : AllPoints l := by
  intro x hx
  obtain ⟨y, hy, _, h1⟩ := mem_places h.symm hx
  have := hp y hy
  unfold Item.isSlot at this ⊢
  rwa [← h1]

theorem allSlots_places {l l' : List Item} (h : l'.map Item.place = l.map Item.place) (hp : AllSlots l') : AllSlots l := by
  intro x hx
  obtain ⟨y, hy, _, h1⟩ := mem_places h.symm hx
  have := hp y hy
  unfold Item.isSlot at this ⊢
  rwa [← h1]

theorem ordered_places {l l' : List Item} (h : l'.map Item.place = l.map Item.place) (hs : StrictlyOrdered l) : StrictlyOrdered l' := by
  have ht : l'.map Item.t = l.map Item.t := by
    have := congrArg (List.map Prod.fst) h
    simpa [List.map_map, Function.comp_def, Item.place] using this
  unfold StrictlyOrdered at hs ⊢
  rw [← List.pairwise_map (f := Item.t) (R := (· < ·))] at hs ⊢
  rwa [ht]

theorem succession_places : ∀ {l l' : List Item}, l'.map Item.place = l.map Item.place → InSuccession l → InSuccession l' := by
  intro l l' h hs
  have he : ∀ x : Item, x.endT = (fun p : ℚ × Option (ℚ × TUnit) => match p.2 with | some (e, _) => e | none => p.1) x.place := by
    intro x
    unfold Item.endT Item.place
    dsimp only
    cases x.slot <;> rfl
  have key : ∀ m : List Item, InSuccession m ↔ (m.map Item.place).IsChain (fun a b =>
      CloseTo ((fun p : ℚ × Option (ℚ × TUnit) => match p.2 with | some (e, _) => e | none => p.1) a) b.1) := by
    intro m
    unfold InSuccession
    rw [List.isChain_map]
    constructor
    · intro hm
      refine hm.imp ?_
      intro a b hab
      rw [he a] at hab
      exact hab
    · intro hm
      refine hm.imp ?_
      intro a b hab
      rw [he a]
      exact hab
  rw [key] at hs ⊢
  rwa [h]

theorem session_inv {P : TSeries → Prop} {Q : SessionCall → Prop} (cal : Calendar)
    (hstep : ∀ s c, Q c → P s → P (s.sessionStep cal c)) (calls : List SessionCall) (hq : ∀ c ∈ calls, Q c)
    (s : TSeries) (h : P s) : P (s.session cal calls) := by
  unfold TSeries.session
  induction calls generalizing s with
  | nil => exact h
  | cons o r ih =>
    rw [List.foldl_cons]
    exact ih (fun c hc => hq c (by simp [hc])) _ (hstep s o (hq o (by simp)) h)

/-- **C249 (points)**: after any session on a time series made of any calls but `insert` (`append`, `remove`, `pop`, `clear`, duplicates,
operations with `inplace=True`, renaming and removing labels and indexes, changing the time zone, each of them succeeding or raising), the
timestamps of a point series are strictly increasing. -/
theorem C249_points (cal : Calendar) (z : Option String) (calls : List SessionCall)
    (hi : ∀ i x, SessionCall.basic (.insert i x) ∉ calls)
    (hp : AllPoints ((TSeries.fresh z).session cal calls).items) :
    StrictlyOrdered ((TSeries.fresh z).session cal calls).items := by
  have := session_inv (P := fun s => OrderInv s.items) (Q := fun c => ∀ i x, c ≠ .basic (.insert i x)) cal
    (fun s c hc h => by
      by_cases hb : ∃ op, c = .basic op
      · obtain ⟨op, rfl⟩ := hb
        exact order_step s op (fun i x ho => hc i x (by rw [ho])) h
      · have hpl := session_place cal s c (fun op ho => hb ⟨op, ho⟩)
        exact ⟨kindInv_places hpl h.1, fun hap => ordered_places hpl (h.2 (allPoints_places hpl hap))⟩)
    calls (fun c hc i x he => hi i x (he ▸ hc)) (TSeries.fresh z) orderInv_nil
  exact this.2 hp

/-- **C249 (slots)**: after any session, insertions included, every slot of a slot series starts where the previous one ends (within the
tolerance). -/
theorem C249_slots (cal : Calendar) (z : Option String) (calls : List SessionCall)
    (hp : AllSlots ((TSeries.fresh z).session cal calls).items) :
    InSuccession ((TSeries.fresh z).session cal calls).items := by
  have := session_inv (P := fun s => SuccInv s.items) (Q := fun _ => True) cal
    (fun s c _ h => by
      by_cases hb : ∃ op, c = .basic op
      · obtain ⟨op, rfl⟩ := hb
        exact succ_step s op h
      · have hpl := session_place cal s c (fun op ho => hb ⟨op, ho⟩)
        exact ⟨kindInv_places hpl h.1, fun hap => succession_places hpl (h.2 (allSlots_places hpl hap))⟩)
    calls (fun _ _ => trivial) (TSeries.fresh z) succ_nil
  exact this.2 hp

/-- **C249 (kinds)**: after any session, insertions included, a series holds points only or slots only. -/
theorem C249_kinds (cal : Calendar) (z : Option String) (calls : List SessionCall) :
    AllPoints ((TSeries.fresh z).session cal calls).items ∨ AllSlots ((TSeries.fresh z).session cal calls).items := by
  have h := session_inv (P := fun s => KindInv s.items) (Q := fun _ => True) cal
    (fun s c _ h => by
      by_cases hb : ∃ op, c = .basic op
      · obtain ⟨op, rfl⟩ := hb
        exact kind_step s op h
      · exact kindInv_places (session_place cal s c (fun op ho => hb ⟨op, ho⟩)) h)
    calls (fun _ _ => trivial) (TSeries.fresh z) (fun x hx => by simp [TSeries.fresh] at hx)
  cases hl : ((TSeries.fresh z).session cal calls).items with
  | nil => left; intro x hx; simp at hx
  | cons a r =>
    rw [hl] at h
    cases ha : a.isSlot with
    | false => left; intro x hx; rw [h x hx a (by simp), ha]
    | true => right; intro x hx; rw [h x hx a (by simp), ha]

/-- a session: three points, rescaled, renamed, the last one popped, summed, moved to another zone, then one point more and one refused -/
def exSession : List SessionCall := [
  .basic (.append (mkPoint 0 (.dict [("v", 1)]))), .basic (.append (mkPoint 60 (.dict [("v", 4)]))),
  .basic (.append (mkPoint 120 (.dict [("v", 9)]))),
  .inplace (.rescale (.num 2)) (some (.dict [("v", 2)])), .rename "v" "w" (some (.dict [("w", 2)])),
  .basic (.pop none), .inplace .csum (some (.dict [("w", 2), ("w_csum", 2)])), .changeTz "Europe/Rome", .removeIndex "data_loss",
  .basic (.append (mkPoint 180 (.dict [("w", 5), ("w_csum", 2)]))), .basic (.append (mkPoint 90 (.dict [("w", 5), ("w_csum", 2)])))]

/-- the session leaves three points at 0, 60 and 180 -/
theorem C249_witness :
    (((TSeries.fresh none).session physicalCalendar exSession).items.map Item.t = [0, 60, 180]) ∧
    (((TSeries.fresh none).session physicalCalendar exSession).items.map Item.tz = ["Europe/Rome", "Europe/Rome", "UTC"]) ∧
    ((TSeries.fresh none).session physicalCalendar exSession).items.map (fun x => (x.byLabel "w").toOption) =
      [some 2, some 8, some 5] := by
  refine ⟨by decide +kernel, by decide +kernel, by decide +kernel⟩

end Timeseria
