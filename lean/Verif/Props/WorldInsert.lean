import Verif.Props.SameTimes
import Verif.Props.Tightened14

/-! # C356: inserting an item of a series into a series, in histories of calls

`series_k.insert(pos, series_j[i])` (datastructures.py 738-778) puts the very item there: its objects are then those of two items.  In the middle of a series of points the order is compared with the
item before only, so that an item of the series can be put again into the same series. -/

namespace Timeseria

theorem insert_items_cons {s : TSeries} {pos : Int} {x : Item} (hne : s.items ≠ []) :
    (∃ e, s.insert pos x = (s, .error e)) ∨ s.insert pos x = ({ s with items := insertAt s.items (pyInsertPos s.items.length pos) x }, .ok ()) := by
  unfold TSeries.insert
  obtain ⟨f, hf⟩ : ∃ f, s.items.head? = some f := by
    cases h : s.items with
    | nil => exact absurd h hne
    | cons a l => exact ⟨a, rfl⟩
  obtain ⟨g, hg⟩ : ∃ g, s.items.getLast? = some g := ⟨_, List.getLast?_eq_some_getLast hne⟩
  rw [hf, hg]
  dsimp only
  repeat' split
  all_goals first
    | exact Or.inr rfl
    | exact Or.inl ⟨_, rfl⟩

/-- inserting an object reads as inserting what it reads as -/
theorem hInsert_view (h : Heap) (s : HSeries) (pos : Int) (x : HItem) : (s.view h).insert pos (h.read x) = ((s.insert h pos x).1.view h, (s.insert h pos x).2) := by
  unfold HSeries.insert
  split
  · rename_i he
    rw [← hAppend_view]
    unfold TSeries.insert
    have : (s.view h).items = [] := by rw [view_items, he]; rfl
    rw [this]
    rfl
  · rename_i y r he
    have hne : (s.view h).items ≠ [] := by rw [view_items, he]; simp [Heap.reads]
    rcases insert_items_cons (pos := pos) (x := h.read x) hne with ⟨e, h1⟩ | h1
    · rw [h1]
    · rw [h1]
      dsimp only
      have : insertAt (s.view h).items (pyInsertPos (s.view h).items.length pos) (h.read x) =
          h.reads (s.items.take (pyInsertPos s.items.length pos) ++ x :: s.items.drop (pyInsertPos s.items.length pos)) := by
        rw [view_items]
        unfold insertAt Heap.reads
        simp [List.map_take, List.map_drop]
      rw [this]
      rfl

/-- **C356** (insert): inserting an item of another series, or of the same, does what inserting an item reading the same does on a lone series with the same content; naming an item there is
not leaves everything as it is -/
theorem C356_insert (cal : Calendar) (cs : List WorldCall) (k j i : ℕ) (pos : Int) :
    (World.run cal {} (cs ++ [.insert k j i pos])).read k =
      match ((World.run cal {} cs).read j).bind (fun s => s.items[i]?) with
      | none => (World.run cal {} cs).read k
      | some x => ((World.run cal {} cs).read k).map (fun s => (s.insert pos x).1) := by
  rw [run_snoc]
  generalize World.run cal {} cs = w
  unfold World.read World.step
  cases he : w.entries[k]? with
  | none =>
    simp only [he, Option.map_none]
    split <;> rfl
  | some e =>
    have hk := (List.getElem?_eq_some_iff.1 he).1
    cases he' : w.entries[j]? with
    | none => simp [he, he']
    | some e' =>
      have hi : ((HSeries.view w.heap e'.series).items)[i]? = (e'.series.items[i]?).map w.heap.read := by
        show (w.heap.reads e'.series.items)[i]? = _
        unfold Heap.reads
        rw [List.getElem?_map]
      simp only [he, he', Option.map_some, Option.bind_some, hi]
      cases hx : e'.series.items[i]? with
      | none => simp [he]
      | some x =>
        simp only [Option.map_some]
        have h2 := hInsert_view w.heap e.series pos x
        rcases hs : e.series.insert w.heap pos x with ⟨s', (err | u)⟩
        · rw [hs] at h2
          dsimp only
          rw [List.getElem?_set_self hk, h2]
          rfl
        · rw [hs] at h2
          dsimp only
          rw [join_reads, List.getElem?_set_self hk, h2]
          rfl

/-- **C356** (others): the insertion changes no other series -/
theorem C356_others (cal : Calendar) (cs : List WorldCall) (k j i m : ℕ) (pos : Int) (hm : m ≠ k) :
    (World.run cal {} (cs ++ [.insert k j i pos])).read m = (World.run cal {} cs).read m := by
  rw [run_snoc]
  generalize World.run cal {} cs = w
  unfold World.read World.step
  dsimp only
  cases he : w.entries[k]? with
  | none => rfl
  | some e =>
    cases he' : w.entries[j]? with
    | none => rfl
    | some e' =>
      dsimp only
      cases hx : e'.series.items[i]? with
      | none => rfl
      | some x =>
        dsimp only
        rcases hs : e.series.insert w.heap pos x with ⟨s', (err | u)⟩
        · dsimp only
          rw [List.getElem?_set_ne (Ne.symm hm)]
        · dsimp only
          rw [join_reads, List.getElem?_set_ne (Ne.symm hm)]

theorem run_two (cal : Calendar) (cs : List WorldCall) (c d : WorldCall) : World.run cal {} (cs ++ [c, d]) = (World.run cal {} (cs ++ [c])).step cal d := by
  have : cs ++ [c, d] = (cs ++ [c]) ++ [d] := by simp
  rw [this, run_snoc]

/-- what inserting an item of the series into it leaves, when it is accepted -/
theorem insert_own {cal : Calendar} {w : World} {k i : ℕ} {pos : Int} {e : Entry} (he : w.entries[k]? = some e) {x : HItem} (hx : e.series.items[i]? = some x)
    (hok : ((e.series.view w.heap).insert pos (w.heap.read x)).2 = .ok ()) :
    (w.step cal (.insert k k i pos)).heap = w.heap ∧ ∃ e', (w.step cal (.insert k k i pos)).entries[k]? = some e' ∧
      e'.series.items = e.series.items.take (pyInsertPos e.series.items.length pos) ++ x :: e.series.items.drop (pyInsertPos e.series.items.length pos) := by
  have hk := (List.getElem?_eq_some_iff.1 he).1
  have hv := hInsert_view w.heap e.series pos x
  have hne : e.series.items ≠ [] := by rintro h; rw [h] at hx; cases hx
  have hitems : (e.series.insert w.heap pos x).1.items = e.series.items.take (pyInsertPos e.series.items.length pos) ++ x :: e.series.items.drop (pyInsertPos e.series.items.length pos) := by
    unfold HSeries.insert
    split
    · rename_i h; exact absurd h hne
    · split
      · rename_i h; rw [h] at hok; cases hok
      · rfl
  rw [hv] at hok
  unfold World.step
  dsimp only
  simp only [he, hx]
  rcases hs : e.series.insert w.heap pos x with ⟨s', (err | u)⟩
  · rw [hs] at hok; cases hok
  · rw [hs] at hitems
    refine ⟨rfl, Entry.join e e { e with series := s' }, ?_, hitems⟩
    dsimp only
    rw [List.getElem?_map, List.getElem?_set_self hk]
    rfl

/-- **C356** (shared): after any history, when inserting the item `i` of a series into the same series at a position is accepted, the series has one item more, and a change to the data of the one at the
position is a change of the one that was there: both read as `f` of the data they had -/
theorem C356_shared (cal : Calendar) (cs : List WorldCall) (k i : ℕ) (pos : Int) (f : Data → Data) (s : TSeries) (hs : (World.run cal {} cs).read k = some s) (x : Item) (hx : s.items[i]? = some x)
    (hok : (s.insert pos x).2 = .ok ()) (q : ℕ) (hq : q = pyInsertPos s.items.length pos) :
    ∃ s', (World.run cal {} (cs ++ [.insert k k i pos, .setData k q f])).read k = some s' ∧ s'.items.length = s.items.length + 1 ∧
      (s'.items[q]?).map Item.data = some (x.data.map f) ∧ (s'.items[if i < q then i else i + 1]?).map Item.data = some (x.data.map f) := by
  have hle : q ≤ s.items.length := by
    rw [hq]; unfold pyInsertPos; split <;> omega
  rw [run_two, run_snoc]
  generalize World.run cal {} cs = w at *
  unfold World.read at hs
  obtain ⟨e, he, rfl⟩ := Option.map_eq_some_iff.1 hs
  rw [view_items, Heap.reads, List.getElem?_map] at hx
  obtain ⟨x0, hx0, rfl⟩ := Option.map_eq_some_iff.1 hx
  obtain ⟨h1, e', h2, h3⟩ := insert_own (cal := cal) he hx0 hok
  have hlen : (e.series.view w.heap).items.length = e.series.items.length := by rw [view_items]; simp [Heap.reads]
  rw [hlen] at hq hle
  rw [← hq] at h3
  generalize w.step cal (.insert k k i pos) = w1 at *
  have hl3 : e'.series.items.length = e.series.items.length + 1 := by
    rw [h3, List.length_append, List.length_cons, List.length_take, List.length_drop]; omega
  have hxq : e'.series.items[q]? = some x0 := by
    rw [h3, List.getElem?_append_right (by simp)]
    simp [Nat.min_eq_left hle]
  have hxi : e'.series.items[if i < q then i else i + 1]? = some x0 := by
    have hil := (List.getElem?_eq_some_iff.1 hx0).1
    rw [h3]
    split
    · rename_i hlt
      rw [List.getElem?_append_left (by simp; omega), List.getElem?_take_of_lt hlt, hx0]
    · rename_i hge
      rw [List.getElem?_append_right (by simp; omega)]
      have : i + 1 - (e.series.items.take q).length = (i - q) + 1 := by
        rw [List.length_take, Nat.min_eq_left hle]; omega
      rw [this, List.getElem?_cons_succ, List.getElem?_drop]
      rw [show q + (i - q) = i by omega, hx0]
  have hd : ((w1.heap.store x0.dA f).read x0).data = ((w.heap.read x0).data).map f := by
    rw [h1]
    simp [Heap.read, Heap.store]
  refine ⟨e'.series.view (w1.step cal (.setData k q f)).heap, ?_, ?_, ?_, ?_⟩
  · rw [step_setData cal h2]; unfold World.read; rw [h2]; rfl
  · rw [hlen, view_items, ← hl3]; simp [Heap.reads]
  · rw [step_setData cal h2, view_items, Heap.reads, List.getElem?_map, hxq]
    dsimp only
    rw [Option.map_some, Option.map_some, hd]
  · rw [step_setData cal h2, view_items, Heap.reads, List.getElem?_map, hxi]
    dsimp only
    rw [hxq, Option.map_some, Option.map_some]
    dsimp only
    rw [hd]

/-- three minutes, and the second of the points put again before the second -/
def insertCalls : List WorldCall :=
  [.create [mkPoint 0 (.dict [("v", 1)]) "UTC" [], mkPoint 60 (.dict [("v", 2)]) "UTC" [], mkPoint 120 (.dict [("v", 4)]) "UTC" []], .insert 0 0 1 1]

/-- points later and later -/
def InOrder (s : TSeries) : Prop := (s.items.map Item.t).Pairwise (· < ·)

/-- **C356** it does not hold that a series of points of a history has its points later and later: `series.insert(1, series[1])` is accepted, only the item before being looked at -/
theorem C356_order_false : ¬ ∀ (cal : Calendar) (cs : List WorldCall) (k : ℕ) (s : TSeries), (World.run cal {} cs).read k = some s → AllPoints s.items → InOrder s := by
  intro h
  cases hr : (World.run physicalCalendar {} insertCalls).read 0 with
  | none =>
    have : ((World.run physicalCalendar {} insertCalls).read 0).isSome = true := by decide +kernel
    rw [hr] at this; cases this
  | some s =>
    have h1 : ((World.run physicalCalendar {} insertCalls).read 0).map (fun s => (s.items.map Item.isSlot, s.items.map Item.t)) = some ([false, false, false, false], [0, 60, 60, 120]) := by decide +kernel
    rw [hr, Option.map_some, Option.some.injEq, Prod.mk.injEq] at h1
    have h2 := h physicalCalendar insertCalls 0 s hr (by
      intro x hx
      have : x.isSlot ∈ s.items.map Item.isSlot := List.mem_map.2 ⟨x, hx, rfl⟩
      rw [h1.1] at this
      simpa using this)
    unfold InOrder at h2
    rw [h1.2] at h2
    exact absurd h2 (by decide +kernel)

/-- **C356** nor that renaming a label every item has is accepted: the second time the object is met, the label is not there any more, and a `KeyError` leaves the points after with the old label -/
theorem C356_rename_false :
    ¬ ∀ (cal : Calendar) (cs : List WorldCall) (k : ℕ) (old new : String) (e : Entry), (World.run cal {} cs).entries[k]? = some e → AllPoints (e.series.view (World.run cal {} cs).heap).items →
      (∀ x ∈ (e.series.view (World.run cal {} cs).heap).items, (x.value? old).isSome = true) → (e.series.rename old new (World.run cal {} cs).heap).2 = .ok () := by
  intro h
  cases hr : (World.run physicalCalendar {} insertCalls).entries[0]? with
  | none =>
    have : ((World.run physicalCalendar {} insertCalls).entries[0]?).isSome = true := by decide +kernel
    rw [hr] at this; cases this
  | some e =>
    have h1 : ((World.run physicalCalendar {} insertCalls).entries[0]?).map (fun e => ((e.series.view (World.run physicalCalendar {} insertCalls).heap).items.map (fun x => (x.isSlot, (x.value? "v").isSome)),
        (e.series.rename "v" "w" (World.run physicalCalendar {} insertCalls).heap).2.toOption)) = some ([(false, true), (false, true), (false, true), (false, true)], none) := by decide +kernel
    rw [hr, Option.map_some, Option.some.injEq, Prod.mk.injEq] at h1
    have key : ∀ x ∈ (e.series.view (World.run physicalCalendar {} insertCalls).heap).items, x.isSlot = false ∧ (x.value? "v").isSome = true := by
      intro x hx
      have : (x.isSlot, (x.value? "v").isSome) ∈ (e.series.view (World.run physicalCalendar {} insertCalls).heap).items.map (fun x => (x.isSlot, (x.value? "v").isSome)) := List.mem_map.2 ⟨x, hx, rfl⟩
      rw [h1.1] at this
      simpa using this
    have h2 := h physicalCalendar insertCalls 0 "v" "w" e hr (fun x hx => (key x hx).1) (fun x hx => (key x hx).2)
    rw [h2] at h1
    cases h1.2

/-- **C356** the case: four points, two of them one; the change of one is that of the other, and a rename stops halfway -/
theorem C356_witness :
    (World.run physicalCalendar {} insertCalls).valuesOf 0 = some [(some (.dict [("v", 1)]), []), (some (.dict [("v", 2)]), []), (some (.dict [("v", 2)]), []), (some (.dict [("v", 4)]), [])] ∧
    (World.run physicalCalendar {} (insertCalls ++ [.setData 0 1 (putLabel "v" 9)])).valuesOf 0 =
      some [(some (.dict [("v", 1)]), []), (some (.dict [("v", 9)]), []), (some (.dict [("v", 9)]), []), (some (.dict [("v", 4)]), [])] ∧
    (World.run physicalCalendar {} (insertCalls ++ [.rename 0 "v" "w"])).valuesOf 0 =
      some [(some (.dict [("w", 1)]), []), (some (.dict [("w", 2)]), []), (some (.dict [("w", 2)]), []), (some (.dict [("v", 4)]), [])] ∧
    (World.run physicalCalendar {} (insertCalls ++ [.slice 0 0 1, .insert 1 0 3 1, .insert 1 0 0 7])).valuesOf 1 = some [(some (.dict [("v", 1)]), []), (some (.dict [("v", 4)]), [])] ∧
    (World.run physicalCalendar {} (insertCalls ++ [.insert 0 0 0 3])).valuesOf 0 = (World.run physicalCalendar {} insertCalls).valuesOf 0 := by
  refine ⟨?_, ?_, ?_, ?_, ?_⟩ <;> decide +kernel

end Timeseria
