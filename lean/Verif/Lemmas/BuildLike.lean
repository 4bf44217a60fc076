import Verif.Lemmas.OpsRun

/-! # Building a series whose items sit where those of another one do -/

namespace Timeseria

/-- A list of items with the times and slots of a run of consecutive items of a well formed list is
accepted, if the time zone is the same everywhere and the data is of one kind. -/
theorem build_like {l0 l1 l : List Item} (hg : GoodPoints l0 ∨ GoodSlots l0) (hin : l1 <:+: l0)
    (hts : l.map (fun x => (x.t, x.slot)) = l1.map (fun x => (x.t, x.slot)))
    (htz : ∀ x ∈ l, ∀ y ∈ l, x.tz = y.tz) (hhas : ∀ x ∈ l, HasData x)
    (hsame : ∀ x ∈ l, ∀ y ∈ l, ∀ d e, x.data = some d → y.data = some e → SameKind d e) :
    (GoodPoints l ∨ GoodSlots l) ∧ ∃ r, TSeries.build l = .ok r ∧ r.items = l := by
  have hskel : ∀ y ∈ l, ∃ x ∈ l1, x.t = y.t ∧ x.slot = y.slot := by
    intro y hy
    have : (y.t, y.slot) ∈ l1.map (fun x => (x.t, x.slot)) := by
      rw [← hts]; exact List.mem_map.2 ⟨y, hy, rfl⟩
    obtain ⟨x, hx, he⟩ := List.mem_map.1 this
    simp only [Prod.mk.injEq] at he
    exact ⟨x, hx, he⟩
  have hmap : ∀ {α : Type} (f : ℚ × Option (ℚ × TUnit) → α),
      l.map (fun x => f (x.t, x.slot)) = l1.map (fun x => f (x.t, x.slot)) := by
    intro α f
    have := congrArg (List.map f) hts
    simpa [List.map_map, Function.comp_def] using this
  rcases hg with hg | hg
  · have hg1 : GoodPoints l1 := hg.sublist hin.sublist
    have hg' : GoodPoints l := by
      refine ⟨?_, ?_, hhas, hsame⟩
      · intro y hy
        obtain ⟨x, hx, _, hp⟩ := hskel y hy
        have := hg1.points x hx
        simpa [Item.isSlot, hp] using this
      · have h1 : (l1.map Item.t).Pairwise (fun a b => a + 1 / 10000 ≤ b) :=
          List.pairwise_map.2 hg1.spaced
        have h2 := hmap (fun p => p.1)
        simp only at h2
        rw [show l1.map Item.t = l1.map (fun x => x.t) from rfl, ← h2] at h1
        exact List.pairwise_map.1 h1
    obtain ⟨r, hr1, hr2, _⟩ := build_good hg'
    exact ⟨.inl hg', r, hr1, hr2⟩
  · have hg1 : GoodSlots l1 := hg.infix hin
    have hg' : GoodSlots l := by
      refine ⟨?_, ?_, ?_, htz, hhas, hsame⟩
      · intro y hy
        obtain ⟨x, hx, _, hp⟩ := hskel y hy
        have := hg1.slots x hx
        simpa [Item.isSlot, hp] using this
      · have h2 : (l1.map (fun x => (x.t, x.endT))).IsChain (fun a b => CloseTo a.2 b.1) := by
          rw [List.isChain_map]; exact hg1.chain
        have h3 : l.map (fun x => (x.t, x.endT)) = l1.map (fun x => (x.t, x.endT)) :=
          hmap (fun p => (p.1, match p.2 with | some (e, _) => e | none => p.1))
        rw [← h3, List.isChain_map] at h2
        exact h2
      · intro a ha b hb
        obtain ⟨x, hx, _, hpx⟩ := hskel a ha
        obtain ⟨y, hy, _, hpy⟩ := hskel b hb
        have := hg1.unit x hx y hy
        simpa [Item.unit, hpx, hpy] using this
    obtain ⟨r, hr1, hr2, _⟩ := build_good_slots hg'
    exact ⟨.inr hg', r, hr1, hr2⟩

end Timeseria
