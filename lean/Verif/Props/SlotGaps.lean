import Verif.Props.Order
import Verif.Props.World

/-! # C355: repeated, missing and overlapping slots

A slot is accepted after another if it starts at its end up to one part in 10⁹ of the timestamps (datastructures.py 437-444, utilities.py 524-525).  The timestamps being
seconds since 1970, today that is more than a second and a half. -/

namespace Timeseria

/-- a slot of one second -/
def secondSlot (t : ℚ) (v : ℚ) : Item := { t := t, slot := some (t + 1, TUnit.ofSecs 1), data := some (.dict [("v", v)]) }

/-- **C355** is false for slots of one second (in November 2023): the same slot can be appended twice, the slot after a missing one is appended without complaint, and so is one overlapping the last. -/
theorem C355_false :
    (TSeries.build [secondSlot 1700000000 1, secondSlot 1700000000 1]).toOption.map TSeries.items = some [secondSlot 1700000000 1, secondSlot 1700000000 1] ∧
    (TSeries.build [secondSlot 1700000000 1, secondSlot 1700000002 1]).toOption.map TSeries.items = some [secondSlot 1700000000 1, secondSlot 1700000002 1] ∧
    (TSeries.build [secondSlot 1700000000 1, secondSlot (1700000000 + 1 / 2) 1]).toOption.map TSeries.items = some [secondSlot 1700000000 1, secondSlot (1700000000 + 1 / 2) 1] := by
  refine ⟨?_, ?_, ?_⟩ <;> decide +kernel

/-- one series of one slot, the same slot appended again, and a label renamed -/
def repeatedCalls : List WorldCall := [.create [secondSlot 1700000000 1], .append 0 0 0, .rename 0 "v" "w"]

/-- **C355** is false, and what follows: a slot which is in its series twice has its label renamed the first time and is without it the second, so that the renaming raises (but is done); and a label that
is set on one is set on both. -/
theorem C355_false_rename :
    (World.run physicalCalendar {} (repeatedCalls.take 2)).valuesOf 0 = some [(some (.dict [("v", 1)]), []), (some (.dict [("v", 1)]), [])] ∧
    ((World.run physicalCalendar {} (repeatedCalls.take 2)).entries[0]?).map (fun e => (e.series.rename "v" "w" (World.run physicalCalendar {} (repeatedCalls.take 2)).heap).2) =
      some (.error .keyError) ∧
    (World.run physicalCalendar {} repeatedCalls).valuesOf 0 = some [(some (.dict [("w", 1)]), []), (some (.dict [("w", 1)]), [])] ∧
    (World.run physicalCalendar {} (repeatedCalls.take 2 ++ [.setData 0 0 (putLabel "v" 5)])).valuesOf 0 = some [(some (.dict [("v", 5)]), []), (some (.dict [("v", 5)]), [])] := by
  refine ⟨?_, ?_, ?_, ?_⟩ <;> decide +kernel

/-- all the slots are `u` seconds long, within `m` seconds of 1970 -/
def LongSlots (u m : ℚ) (l : List Item) : Prop := ∀ x ∈ l, x.endT = x.t + u ∧ |x.t| ≤ m ∧ |x.endT| ≤ m

theorem chain_near {u m : ℚ} {l : List Item} (hl : LongSlots u m l) (hu : m < 1000000000 * u) (hc : InSuccession l) :
    l.IsChain (fun a b => |b.t - a.endT| < u) := by
  unfold InSuccession at hc
  induction l with
  | nil => exact List.IsChain.nil
  | cons a r ih =>
    cases r with
    | nil => exact List.IsChain.singleton _
    | cons b r =>
      rw [List.isChain_cons_cons] at hc ⊢
      refine ⟨?_, ih (fun x hx => hl x (List.mem_cons_of_mem _ hx)) hc.2⟩
      have h1 := (hl a (by simp)).2.2
      have h2 := (hl b (by simp)).2.1
      have h3 : |a.endT - b.t| ≤ 1 / 1000000000 * max |a.endT| |b.t| := hc.1
      have h4 : max |a.endT| |b.t| ≤ m := max_le h1 h2
      rw [abs_sub_comm]
      linarith

/-- **C355** (long slots): after any history of appends, inserts, pops, removals, clears and duplicates, if the slots of a series are all of `u` seconds, `u` more than one part in 10⁹ of the timestamps,
they are in strict order of time, and each starts less than its length before or after the end of the one before: none is repeated and none is missing.  Missing: shorter slots, see `C355_false`. -/
theorem C355_long_partial (z : Option String) (ops : List Op) (u m : ℚ) (hs : AllSlots ((TSeries.fresh z).run ops).items)
    (hl : LongSlots u m ((TSeries.fresh z).run ops).items) (hu : m < 1000000000 * u) :
    StrictlyOrdered ((TSeries.fresh z).run ops).items ∧ ((TSeries.fresh z).run ops).items.IsChain (fun a b => a.endT - u < b.t ∧ b.t < a.endT + u) := by
  have hc := chain_near hl hu (C06_slots_in_succession z ops hs)
  generalize ((TSeries.fresh z).run ops).items = l at *
  constructor
  · unfold StrictlyOrdered
    rw [← List.isChain_iff_pairwise (R := fun a b : Item => a.t < b.t)]
    clear hs
    induction l with
    | nil => exact List.IsChain.nil
    | cons a r ih =>
      cases r with
      | nil => exact List.IsChain.singleton _
      | cons b r =>
        rw [List.isChain_cons_cons] at hc ⊢
        refine ⟨?_, ih (fun x hx => hl x (List.mem_cons_of_mem _ hx)) hc.2⟩
        have h1 := (hl a (by simp)).1
        have := (abs_lt.1 hc.1).1
        linarith
  · refine hc.imp (fun a b h => ?_)
    have := abs_lt.1 h
    constructor <;> linarith

/-- the starts are multiples of `u` from an origin -/
def OnGrid (o u : ℚ) (l : List Item) : Prop := ∀ x ∈ l, ∃ n : ℤ, x.t = o + n * u

theorem chain_exact {o u : ℚ} : ∀ {l : List Item}, (∀ x ∈ l, x.endT = x.t + u) → OnGrid o u l → l.IsChain (fun a b => |b.t - a.endT| < u) →
    l.IsChain (fun a b => b.t = a.endT) := by
  intro l
  induction l with
  | nil => intro _ _ _; exact List.IsChain.nil
  | cons a r ih =>
    intro he hg hc
    cases r with
    | nil => exact List.IsChain.singleton _
    | cons b r =>
      rw [List.isChain_cons_cons] at hc ⊢
      refine ⟨?_, ih (fun x hx => he x (List.mem_cons_of_mem _ hx)) (fun x hx => hg x (List.mem_cons_of_mem _ hx)) hc.2⟩
      obtain ⟨n, hn⟩ := hg a (by simp)
      obtain ⟨k, hk⟩ := hg b (by simp)
      have h1 := he a (by simp)
      have h2 := abs_lt.1 hc.1
      have hu : 0 < u := by linarith [h2.1, h2.2]
      have h3 : b.t - a.endT = ((k - n - 1 : ℤ) : ℚ) * u := by push_cast; rw [h1, hn, hk]; ring
      have h4 : (k - n - 1 : ℤ) = 0 := by
        rw [h3] at h2
        have a1 : ((-1 : ℤ) : ℚ) < ((k - n - 1 : ℤ) : ℚ) := by
          by_contra h
          rw [not_lt] at h
          have := mul_le_mul_of_nonneg_right h hu.le
          push_cast at this h2
          linarith [h2.1]
        have a2 : ((k - n - 1 : ℤ) : ℚ) < ((1 : ℤ) : ℚ) := by
          by_contra h
          rw [not_lt] at h
          have := mul_le_mul_of_nonneg_right h hu.le
          push_cast at this h2
          linarith [h2.2]
        have b1 : -1 < k - n - 1 := by exact_mod_cast a1
        have b2 : k - n - 1 < 1 := by exact_mod_cast a2
        omega
      rw [h4] at h3
      simp at h3
      linarith

theorem chain_positions {u : ℚ} : ∀ {l : List Item}, (∀ x ∈ l, x.endT = x.t + u) → l.IsChain (fun a b => b.t = a.endT) →
    ∀ (i : ℕ) (x y : Item), l[0]? = some x → l[i]? = some y → y.t = x.t + i * u := by
  intro l
  induction l with
  | nil => intro _ _ i x y hx; simp at hx
  | cons a r ih =>
    intro he hc i x y hx hy
    simp only [List.getElem?_cons_zero, Option.some.injEq] at hx
    subst hx
    cases i with
    | zero =>
      simp only [List.getElem?_cons_zero, Option.some.injEq] at hy
      subst hy
      simp
    | succ i =>
      rw [List.getElem?_cons_succ] at hy
      cases r with
      | nil => simp at hy
      | cons b r =>
        rw [List.isChain_cons_cons] at hc
        have := ih (fun x hx => he x (List.mem_cons_of_mem _ hx)) hc.2 i b y rfl hy
        have h1 := he a (by simp)
        rw [this, hc.1, h1]
        push_cast
        ring

/-- **C355** (aligned slots): if moreover the slots are aligned, as those of an aggregation are, each starts exactly at the end of the one before: the slot `i` starts `i` lengths after the first. -/
theorem C355_aligned_partial (z : Option String) (ops : List Op) (o u m : ℚ) (hs : AllSlots ((TSeries.fresh z).run ops).items)
    (hl : LongSlots u m ((TSeries.fresh z).run ops).items) (hu : m < 1000000000 * u) (hg : OnGrid o u ((TSeries.fresh z).run ops).items) :
    ∀ (i : ℕ) (x y : Item), ((TSeries.fresh z).run ops).items[0]? = some x → ((TSeries.fresh z).run ops).items[i]? = some y → y.t = x.t + i * u :=
  chain_positions (fun x hx => (hl x hx).1) (chain_exact (fun x hx => (hl x hx).1) hg (chain_near hl hu (C06_slots_in_succession z ops hs)))

/-- a slot of one hour -/
def hourlySlot (t : ℚ) (v : ℚ) : Item := { t := t, slot := some (t + 3600, TUnit.ofSecs 3600), data := some (.dict [("v", v)]) }

/-- **C355** hourly slots of November 2023 are long: the repeated one and the one after a missing one are refused -/
theorem C355_witness :
    let ops : List Op := [.append (hourlySlot 1700000000 1), .append (hourlySlot 1700000000 1), .append (hourlySlot 1700007200 1), .append (hourlySlot 1700003600 2), .insert 0 (hourlySlot 1699996400 3)]
    ((TSeries.fresh none).run ops).items = [hourlySlot 1699996400 3, hourlySlot 1700000000 1, hourlySlot 1700003600 2] ∧
    AllSlots ((TSeries.fresh none).run ops).items ∧ LongSlots 3600 2000000000 ((TSeries.fresh none).run ops).items ∧ (2000000000 : ℚ) < 1000000000 * 3600 ∧
    OnGrid 1700000000 3600 ((TSeries.fresh none).run ops).items := by
  intro ops
  have h : ((TSeries.fresh none).run ops).items = [hourlySlot 1699996400 3, hourlySlot 1700000000 1, hourlySlot 1700003600 2] := by decide +kernel
  refine ⟨h, ?_, ?_, by norm_num, ?_⟩
  · rw [h]; unfold AllSlots; decide +kernel
  · rw [h]; unfold LongSlots; decide +kernel
  · rw [h]
    intro x hx
    simp only [List.mem_cons, List.not_mem_nil, or_false] at hx
    rcases hx with rfl | rfl | rfl
    · exact ⟨-1, by simp [hourlySlot]; norm_num⟩
    · exact ⟨0, by simp [hourlySlot]⟩
    · exact ⟨1, by simp [hourlySlot]; norm_num⟩

end Timeseria
