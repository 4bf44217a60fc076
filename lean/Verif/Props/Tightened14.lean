import Verif.Props.WorldDuplicates
import Verif.Props.PlotOutput

/-! # Theorems added because an edited model still satisfied the others (see seeded/LOG.jsonl) -/

namespace Timeseria

/-! ## C350: items added to and removed from a series, in any history -/

theorem pop_view (h : Heap) (s : HSeries) (i : Option Int) : (s.pop i).view h = ((s.view h).pop i).1 := by
  obtain ⟨attrs, items, refA⟩ := s
  cases items with
  | nil => rfl
  | cons y r =>
    have key : ∀ i : Int,
        HSeries.view h (match pyPos (y :: r).length i with
          | none => ({ attrs := attrs, items := y :: r, refA := refA } : HSeries)
          | some k => { attrs := attrs, items := (y :: r).eraseIdx k, refA := refA }) =
        (match pyPos (h.reads (y :: r)).length i with
          | none => (HSeries.view h { attrs := attrs, items := y :: r, refA := refA }, (.error .indexError : Except PyErr Item))
          | some k => match (h.reads (y :: r))[k]? with
            | none => (HSeries.view h { attrs := attrs, items := y :: r, refA := refA }, .error .indexError)
            | some z => ({ HSeries.view h { attrs := attrs, items := y :: r, refA := refA } with items := (h.reads (y :: r)).eraseIdx k }, .ok z)).1 := by
      intro i
      have hl : (h.reads (y :: r)).length = (y :: r).length := by simp [Heap.reads]
      rw [hl]
      cases pyPos (y :: r).length i with
      | none => rfl
      | some k =>
        dsimp only
        have hm : h.reads ((y :: r).eraseIdx k) = (h.reads (y :: r)).eraseIdx k := by
          unfold Heap.reads
          exact (List.eraseIdx_map _ _ _).symm
        unfold HSeries.view
        dsimp only
        rw [hm]
        cases hz : (h.reads (y :: r))[k]? with
        | none =>
          rw [List.eraseIdx_of_length_le (List.getElem?_eq_none_iff.1 hz)]
        | some z => rfl
    unfold HSeries.pop TSeries.pop
    cases i with
    | none => exact key (-1)
    | some i =>
      have hl : (h.reads (y :: r)).length = (y :: r).length := by simp [Heap.reads]
      by_cases hc : i ≠ 0 ∧ i ≠ (y :: r).length ∧ y.slot.isSome
      · have e2 : i ≠ 0 ∧ i ≠ ((HSeries.view h { attrs := attrs, items := y :: r, refA := refA }).items.length) ∧ (h.read y).isSlot := by
          refine ⟨hc.1, ?_, hc.2.2⟩
          have : (HSeries.view h { attrs := attrs, items := y :: r, refA := refA }).items.length = (y :: r).length := hl
          rw [this]; exact hc.2.1
        dsimp only
        rw [if_pos hc]
        show _ = (if _ then _ else _ : TSeries × Except PyErr Item).1
        rw [if_pos e2]
      · have e2 : ¬ (i ≠ 0 ∧ i ≠ ((HSeries.view h { attrs := attrs, items := y :: r, refA := refA }).items.length) ∧ (h.read y).isSlot) := by
          intro hh
          apply hc
          refine ⟨hh.1, ?_, hh.2.2⟩
          have : (HSeries.view h { attrs := attrs, items := y :: r, refA := refA }).items.length = (y :: r).length := hl
          rw [← this]; exact hh.2.1
        dsimp only
        rw [if_neg hc]
        show _ = (if _ then _ else _ : TSeries × Except PyErr Item).1
        rw [if_neg e2]
        exact key i

/-- **C350** (pop): removing an item from a series, whatever the history, leaves what removing it from a lone series with the same content leaves: the item asked for, and no other,
is taken away, or none when the position is refused -/
theorem C350_pop (cal : Calendar) (cs : List WorldCall) (k : ℕ) (i : Option Int) :
    (World.run cal {} (cs ++ [.pop k i])).read k = ((World.run cal {} cs).read k).map (fun s => (s.pop i).1) := by
  rw [run_snoc]
  generalize World.run cal {} cs = w
  unfold World.read World.step
  cases he : w.entries[k]? with
  | none => simp [he]
  | some e =>
    have hk := (List.getElem?_eq_some_iff.1 he).1
    simp only [he]
    rw [List.getElem?_set_self hk]
    simp only [Option.map_some]
    rw [pop_view]

/-- **C350** (append, new item): adding a new item, with its data, does what it does on a lone series with the same content -/
theorem C350_append_new (cal : Calendar) (cs : List WorldCall) (k : ℕ) (x : Item) (d : Data) (hd : x.data = some d) :
    (World.run cal {} (cs ++ [.appendNew k x])).read k = ((World.run cal {} cs).read k).map (fun s => (s.append x).1) := by
  have hw := run_ok (cal := cal) cs worldOk_empty
  rw [run_snoc]
  generalize World.run cal {} cs = w at hw
  unfold World.read World.step
  cases he : w.entries[k]? with
  | none => simp [he]
  | some e =>
    have hk := (List.getElem?_eq_some_iff.1 he).1
    have hv := hw.series (List.mem_of_getElem? he)
    simp only [he]
    rw [List.getElem?_set_self hk]
    simp only [Option.map_some]
    have h2 := hAppend_view ((w.heap.alloc (x.data.getD (.num 0))).allocIdx x.idx) e.series { t := x.t, slot := x.slot, tz := x.tz, dA := w.heap.data.length, iA := w.heap.idx.length }
    have hx : ((w.heap.alloc (x.data.getD (.num 0))).allocIdx x.idx).read { t := x.t, slot := x.slot, tz := x.tz, dA := w.heap.data.length, iA := w.heap.idx.length } = x := by
      unfold Heap.read Heap.alloc Heap.allocIdx
      simp [hd]
      cases x
      simp_all
    have hsame : e.series.view ((w.heap.alloc (x.data.getD (.num 0))).allocIdx x.idx) = e.series.view w.heap := by
      exact ((Heap.Kept.alloc w.heap _).trans (Heap.Kept.allocIdx _ _)).view hv
    rw [hx, hsame] at h2
    rw [h2]

theorem join_reads (e e' : Entry) (l : List Entry) (h : Heap) (k : ℕ) :
    ((l.map (Entry.join e e'))[k]?).map (fun e => e.series.view h) = (l[k]?).map (fun e => e.series.view h) := by
  rw [List.getElem?_map, Option.map_map]
  rfl

/-- **C350** (append): adding an item of another series, or of the same, does what adding an item reading the same does on a lone series with the same content; naming an item there is
not leaves everything as it is -/
theorem C350_append (cal : Calendar) (cs : List WorldCall) (k j i : ℕ) :
    (World.run cal {} (cs ++ [.append k j i])).read k =
      match ((World.run cal {} cs).read j).bind (fun s => s.items[i]?) with
      | none => (World.run cal {} cs).read k
      | some x => ((World.run cal {} cs).read k).map (fun s => (s.append x).1) := by
  rw [run_snoc]
  generalize World.run cal {} cs = w
  unfold World.read World.step
  cases he : w.entries[k]? with
  | none =>
    simp only [he, Option.map_none]
    split <;> rfl
  | some e =>
    have hk := (List.getElem?_eq_some_iff.1 he).1
    cases he' : w.entries[j]? with
    | none => simp [he, he']
    | some e' =>
      have hi : ((HSeries.view w.heap e'.series).items)[i]? = (e'.series.items[i]?).map w.heap.read := by
        show (w.heap.reads e'.series.items)[i]? = _
        unfold Heap.reads
        rw [List.getElem?_map]
      simp only [he, he', Option.map_some, Option.bind_some, hi]
      cases hx : e'.series.items[i]? with
      | none => simp [he]
      | some x =>
        simp only [Option.map_some]
        have h2 := hAppend_view w.heap e.series x
        rcases hs : e.series.append w.heap x with ⟨s', (err | u)⟩
        · rw [hs] at h2
          dsimp only
          rw [List.getElem?_set_self hk, h2]
          rfl
        · rw [hs] at h2
          dsimp only
          rw [join_reads, List.getElem?_set_self hk, h2]
          rfl

/-- concrete cases: the first point of the series 0 goes to the end of none, being too early, and before them in a new series; popping -/
example : (World.run physicalCalendar {} ([.create twoHourly] ++ [.append 0 0 0])).valuesOf 0 = some [(some (.dict [("v", 1)]), []), (some (.dict [("v", 2)]), [])] ∧
    (World.run physicalCalendar {} ([.create twoHourly] ++ [.pop 0 (some 0)])).valuesOf 0 = some [(some (.dict [("v", 2)]), [])] ∧
    (World.run physicalCalendar {} ([.create twoHourly, .pop 0 (some 0)] ++ [.appendNew 0 (mkPoint 7200 (.dict [("v", 5)]) "UTC" [])])).valuesOf 0 =
      some [(some (.dict [("v", 2)]), []), (some (.dict [("v", 5)]), [])] := by
  refine ⟨?_, ?_, ?_⟩ <;> decide +kernel

/-- two hourly slots: taking away one in the middle of three is refused, the last of them is taken away -/
def slotTriple : List Item := [0, 1, 2].map (fun (i : ℚ) => { t := 3600 * i, slot := some (3600 * i + 3600, TUnit.ofSecs 3600), tz := "UTC", data := some (.dict [("v", i)]), idx := [] })

example : ((World.run physicalCalendar {} ([.create slotTriple] ++ [.pop 0 (some 1)])).valuesOf 0).map List.length = some 3 ∧
    ((World.run physicalCalendar {} ([.create slotTriple] ++ [.pop 0 none])).valuesOf 0).map List.length = some 2 ∧
    ((World.run physicalCalendar {} ([.create slotTriple] ++ [.pop 0 (some 0)])).valuesOf 0).map List.length = some 2 := by
  refine ⟨?_, ?_, ?_⟩ <;> decide +kernel

/-! ## C324: a file which cannot be removed -/

/-- **C324** (not removable), partial: when the existing file cannot be removed, an image which cannot be saved leaves it as it was -/
theorem C324_not_removable_partial (env : PlotEnv) (tmp : String × String) (n : ℕ) (page : Except PyErr String) (f : String) (hr : env.canRemove f = false) (ht : f ≠ tmp.1)
    (fs fs' : PlotFiles) (old : String) (hf : fs.read f = some old) (e : PyErr)
    (h : plotOut env tmp { image := true, saveTo := some f } n page fs = (fs', .error e)) : fs'.read f = some old := by
  unfold plotOut at h
  simp only [Bool.false_and, Bool.false_eq_true, if_false, plotDest, Bool.true_or, Bool.not_true, Option.isSome_some, if_true] at h
  split at h
  · cases h; exact hf
  · split at h
    · cases h; exact hf
    · split at h
      · cases h; exact hf
      · rename_i p _
        have hw : (fs.write tmp.1 p).read f = some old := by rw [read_write, if_neg ht]; exact hf
        have hp : (probe env (fs.write tmp.1 p) f).1 = fs.write tmp.1 p := by
          unfold probe
          rw [hr, hw]
          simp only [Bool.false_eq_true, if_false, Option.isSome_some, if_true]
          split_ifs <;> rfl
        unfold renderImage at h
        rcases hq : probe env (fs.write tmp.1 p) f with ⟨fs2, (e2 | u)⟩
        · rw [hq] at hp h
          dsimp only at hp h
          subst hp
          split at h
          · rename_i hh
            split_ifs at hh <;> cases hh <;> cases h <;> exact hw
          · cases h
        · rw [hq] at hp h
          dsimp only at hp h
          subst hp
          split at h
          · rename_i hh
            split at hh
            · cases hh; cases h; exact hw
            · split at hh
              · cases hh; cases h; exact hw
              · cases hh
          · cases h

example : (plotOut { render := none, canRemove := fun _ => false } tmpNames { image := true, saveTo := some "plots/a.png" } 3 (.ok "page") [("plots/a.png", "old")]).2 = .error .ioError := by
  decide +kernel

end Timeseria
