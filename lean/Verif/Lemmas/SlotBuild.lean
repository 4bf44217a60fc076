import Verif.Lemmas.Duplicate

/-! # Good slots are always accepted -/

namespace Timeseria

/-- what a list of slots has to satisfy to be accepted as a series -/
structure GoodSlots (l : List Item) : Prop where
  slots : AllSlots l
  chain : InSuccession l
  unit : ∀ x ∈ l, ∀ y ∈ l, x.unit = y.unit
  tz : ∀ x ∈ l, ∀ y ∈ l, x.tz = y.tz
  has : ∀ x ∈ l, HasData x
  same : ∀ x ∈ l, ∀ y ∈ l, ∀ d e, x.data = some d → y.data = some e → SameKind d e

theorem GoodSlots.infix {l l' : List Item} (h : GoodSlots l) (hs : l' <:+: l) : GoodSlots l' :=
  ⟨fun x hx => h.slots x (hs.subset hx), h.chain.infix hs,
   fun x hx y hy => h.unit x (hs.subset hx) y (hs.subset hy),
   fun x hx y hy => h.tz x (hs.subset hx) y (hs.subset hy),
   fun x hx => h.has x (hs.subset hx),
   fun x hx y hy => h.same x (hs.subset hx) y (hs.subset hy)⟩

theorem isInstance_of_slot {x f : Item} (hx : x.isSlot = true) (hf : f.isSlot = true)
    (hd : x.data.isSome = true) : x.isInstance f.cls = true := by
  unfold Item.isInstance Item.cls
  cases hfd : f.data.isSome <;> simp [hx, hf, hd]

theorem chain_last {R : Item → Item → Prop} {l : List Item} {x y : Item}
    (h : (l ++ [x]).IsChain R) (hy : l.getLast? = some y) : R y x := by
  rw [List.isChain_append] at h
  exact h.2.2 y hy x (by simp)

theorem accept_slot {s : TSeries} {x : Item} (hsi : SlotInv s) (hdi : DataInv s)
    (hemp : s.items = [] → s = TSeries.empty)
    (hg : GoodSlots (s.items ++ [x])) : ∃ s', s.append x = (s', .ok ()) := by
  have hx : x.isSlot = true := hg.slots x (by simp)
  have hpre : s.pre x = s.preSlot x := by simp [TSeries.pre, hx]
  suffices (s.append x).2 = .ok () from ⟨(s.append x).1, Prod.ext rfl this⟩
  rw [append_ok_iff, hpre]
  obtain ⟨d, hd1, hd2⟩ := hg.has x (by simp)
  cases hi : s.items with
  | nil =>
    rw [hemp hi]
    constructor
    · rfl
    · unfold TSeries.baseAppend
      rw [preSlot_items]; rfl
  | cons f r =>
    obtain ⟨u, z, hu, hz, hall⟩ := hsi.noUnit (by rw [hi]; simp)
    have hfm : f ∈ s.items := by rw [hi]; simp
    have hfx : f ∈ s.items ++ [x] := by simp [hfm]
    have hxu : x.unit = u := by
      rw [← (hall f hfm).1]; exact hg.unit x (by simp) f hfx
    have hxz : x.tz = z := by
      rw [← (hall f hfm).2]; exact hg.tz x (by simp) f hfx
    constructor
    · unfold TSeries.preSlot
      have : s.getTz = some z := by unfold TSeries.getTz; rw [hz]
      simp only [this, hz, hu]
      rw [if_neg (by simp [hxz]), if_neg (by simp [hxu])]
    · unfold TSeries.baseAppend
      rw [preSlot_items, preSlot_ref, hi]
      obtain ⟨y, hy⟩ : ∃ y, (f :: r).getLast? = some y :=
        ⟨_, List.getLast?_eq_some_getLast (by simp)⟩
      have hf : f.isSlot = true := hsi.slots f hfm
      have hins := isInstance_of_slot hx hf (by rw [hd1]; rfl)
      have hsucc : slotSucceeds x y = true := by
        rw [slotSucceeds_iff]
        exact chain_last hg.chain (by rw [hi]; exact hy)
      simp only [List.head?_cons, hy, hins, Bool.not_true, Bool.false_eq_true, if_false, hx, if_true,
        hsucc]
      obtain ⟨q, hq1, hq2, hq3⟩ := hdi.ref (by rw [hi]; simp)
      rw [hq1]
      simp only [hq2, if_true]
      obtain ⟨df, hdf, _⟩ := hdi.has f hfm
      have hqf := hq3 f hfm df hdf
      have hfx := hg.same f hfx x (by simp) df d hdf hd1
      have hck : checkData q x = .ok () := (checkData_iff q x).2 ⟨d, hd1, hqf.trans hfx⟩
      rw [hck]

/-- Good slots are always accepted, and the resolution is their unit. -/
theorem build_good_slots {l : List Item} (hg : GoodSlots l) :
    ∃ s, TSeries.build l = .ok s ∧ s.items = l ∧ SlotInv s := by
  induction l using List.reverseRecOn with
  | nil => exact ⟨TSeries.empty, rfl, rfl, slotInv_empty⟩
  | append_singleton l x ih =>
    obtain ⟨s₀, h0, hi, hc⟩ := ih (hg.infix (List.prefix_append l [x]).isInfix)
    have hdi := build_dataInv (fun y hy => hg.has y (by simp [hy])) h0
    obtain ⟨s, hs⟩ := accept_slot (s := s₀) (x := x) hc hdi
      (fun he => by
        have hl : l = [] := by rw [← hi]; exact he
        rw [hl] at h0
        have : TSeries.build [] = .ok TSeries.empty := rfl
        rw [this] at h0; simp at h0; exact h0.symm) (by rw [hi]; exact hg)
    have hb := build_snoc_of h0 hs
    exact ⟨s, hb, build_items hb, build_slotInv hg.slots hb⟩

end Timeseria
