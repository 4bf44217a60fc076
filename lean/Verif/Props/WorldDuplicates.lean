import Verif.Props.World
/-!
C342: a duplicate reads as the series, and lives apart from it and from all others.
C343: two groups of series used apart do not meet.
-/
namespace Timeseria

/-! ## What a duplicate reads as -/

theorem hAppend_view (h : Heap) (s : HSeries) (x : HItem) : (s.view h).append (h.read x) = ((s.append h x).1.view h, (s.append h x).2) := by
  have hi := append_items (s.view h) (h.read x)
  have ha : s.append h x = match (s.view h).append (h.read x) with
    | (s', .error e) => ({ s with attrs := s' }, .error e)
    | (s', .ok _) => ({ attrs := s', items := s.items ++ [x]
                        refA := if s.items.isEmpty || !s.refOk h then some x.dA else s.refA }, .ok ()) := rfl
  rw [ha]
  rcases hq : (s.view h).append (h.read x) with ⟨t, (e | u)⟩
  · rw [hq] at hi
    dsimp only at hi ⊢
    rcases hi with ⟨_, _, h1, h2⟩ | ⟨h1, _⟩
    · unfold HSeries.view
      obtain ⟨i, a, b, c, d, r⟩ := t
      dsimp only at h1 h2
      rw [h1, h2]
      rfl
    · cases h1
  · rw [hq] at hi
    dsimp only at hi ⊢
    rcases hi with ⟨_, h1, _⟩ | ⟨_, h1, _, _, h2⟩
    · cases h1
    · refine Prod.ext ?_ rfl
      dsimp only
      unfold HSeries.view
      obtain ⟨i, a, b, c, d, r⟩ := t
      dsimp only at h1 h2 ⊢
      rw [TSeries.mk.injEq]
      refine ⟨?_, rfl, rfl, rfl, rfl, ?_⟩
      · rw [h1]; simp [HSeries.view, Heap.reads]
      · have hrd : (h.read x).data = h.data[x.dA]? := rfl
        rcases h2 with ⟨e1, e2⟩ | ⟨e1, e2, e3⟩
        · have : s.items = [] := by simpa [HSeries.view, Heap.reads] using e1
          rw [e2, hrd]
          simp [this]
        · have hne : s.items ≠ [] := by
            intro hn
            apply e1
            simp [HSeries.view, Heap.reads, hn]
          have hb : s.items.isEmpty = false := by simpa using hne
          have hvr : (s.view h).ref = s.refA.bind (fun a => h.data[a]?) := rfl
          rw [hvr] at e2 e3
          unfold HSeries.refOk
          rw [hb, Bool.false_or, Bool.false_or]
          cases hr : s.refA.bind (fun a => h.data[a]?) with
          | none =>
            rw [e3 (by rw [hr]; simp), hrd]
            rfl
          | some q =>
            dsimp only
            by_cases ht : q.truthy = true
            · rw [(e2 q hr ht).2]
              simp [ht]
            · have ht' : q.truthy = false := by simpa using ht
              rw [e3 (by rw [hr]; intro r' hr'; cases hr'; exact ht'), hrd]
              simp [ht']

theorem hAppendAll_view (h : Heap) : ∀ (l : List HItem) (s : HSeries),
    match HSeries.appendAll h s l with
    | .error e => ((s.view h).appendAll (h.reads l)).2 = .error e
    | .ok r => (s.view h).appendAll (h.reads l) = (r.view h, .ok ()) := by
  intro l
  induction l with
  | nil => intro s; rfl
  | cons x l ih =>
    intro s
    have hv := hAppend_view h s x
    unfold HSeries.appendAll
    have hr : h.reads (x :: l) = h.read x :: h.reads l := rfl
    rw [hr]
    unfold TSeries.appendAll
    rw [hv]
    rcases hq : s.append h x with ⟨s', (e | u)⟩
    · rfl
    · exact ih s'

theorem reads_shift (h : Heap) (l : List HItem) (_hl : ∀ x ∈ l, x.dA < h.data.length ∧ x.iA < h.idx.length) :
    ({ data := h.data ++ h.data, idx := h.idx ++ h.idx } : Heap).reads (l.map (shiftItem h.data.length h.idx.length)) = h.reads l := by
  unfold Heap.reads
  rw [List.map_map]
  refine List.map_congr_left ?_
  intro x hx
  unfold Function.comp Heap.read shiftItem
  dsimp only
  rw [List.getElem?_append_right (by omega), List.getElem?_append_right (by omega)]
  simp

/-- **C342** (what it reads as) duplicating a series made of objects gives, or raises, what duplicating the values it reads as does -/
theorem C342_reads (h : Heap) (s : HSeries) (hs : s.Valid h) :
    match s.duplicate h with
    | .error e => (s.view h).duplicate = .error e
    | .ok (h', r) => (s.view h).duplicate = .ok (r.view h') := by
  unfold HSeries.duplicate
  dsimp only
  have hv := hAppendAll_view { data := h.data ++ h.data, idx := h.idx ++ h.idx } (s.items.map (shiftItem h.data.length h.idx.length))
    { attrs := s.attrs, items := [], refA := s.refA.map (· + h.data.length) }
  rw [reads_shift h s.items hs.items] at hv
  have h0 : HSeries.view { data := h.data ++ h.data, idx := h.idx ++ h.idx } { attrs := s.attrs, items := [], refA := s.refA.map (· + h.data.length) } =
      ({ (s.view h) with items := [] } : TSeries) := by
    unfold HSeries.view
    dsimp only
    cases hr : s.refA with
    | none => rfl
    | some a =>
      simp only [Option.map_some, Option.bind_some]
      rw [List.getElem?_append_right (by omega)]
      simp [Heap.reads]
  rw [h0] at hv
  unfold TSeries.duplicate
  have hi : (s.view h).items = h.reads s.items := rfl
  rw [hi]
  cases hq : HSeries.appendAll { data := h.data ++ h.data, idx := h.idx ++ h.idx } { attrs := s.attrs, items := [], refA := s.refA.map (· + h.data.length) }
      (s.items.map (shiftItem h.data.length h.idx.length)) with
  | error e =>
    rw [hq] at hv
    dsimp only at hv ⊢
    rcases hz : ({ (s.view h) with items := [] } : TSeries).appendAll (h.reads s.items) with ⟨t, (e' | u)⟩
    · rw [hz] at hv
      cases hv; rfl
    · rw [hz] at hv; cases hv
  | ok r =>
    rw [hq] at hv
    dsimp only at hv ⊢
    rw [hv]

/-! ## Groups of series used apart -/

/-- the series a call names -/
def WorldCall.uses : WorldCall → List ℕ
  | .create _ => []
  | .map k _ => [k]
  | .derivative k _ => [k]
  | .mavg k _ => [k]
  | .filter k _ => [k]
  | .slice k _ _ => [k]
  | .detect k _ _ _ _ _ => [k]
  | .compute ks _ => ks
  | .duplicate k => [k]
  | .rename k _ _ => [k]
  | .removeLabel k _ => [k]
  | .setData k _ _ => [k]
  | .setIdx k _ _ => [k]
  | .removeIndex k _ => [k]
  | .append k j _ => [k, j]
  | .insert k j _ _ => [k, j]
  | .appendNew k _ => [k]
  | .pop k _ => [k]

theorem changed_uses {c : WorldCall} {k : ℕ} (h : c.changed = some k) : k ∈ c.uses := by
  cases c <;> simp_all [WorldCall.changed, WorldCall.uses]

theorem reshaped_uses {c : WorldCall} {k : ℕ} (h : c.reshaped = some k) : k ∈ c.uses := by
  cases c <;> simp_all [WorldCall.reshaped, WorldCall.uses]

/-- the marks of a series have the colour of its position -/
def Coloured (Q : ℕ → Bool) (w : World) : Prop := ∀ (k : ℕ) (e : Entry), w.entries[k]? = some e → Q e.dataFrom = Q k ∧ Q e.idxFrom = Q k

theorem coloured_add {Q : ℕ → Bool} {w : World} (hc : Coloured Q w) {h' : Heap} {en : Entry} (hd : Q en.dataFrom = Q w.entries.length) (hi : Q en.idxFrom = Q w.entries.length) :
    Coloured Q { heap := h', entries := w.entries ++ [en] } := by
  intro k e he
  dsimp only at he
  by_cases hk : k < w.entries.length
  · rw [List.getElem?_append_left hk] at he
    exact hc k e he
  · rw [List.getElem?_append_right (by omega)] at he
    have hk2 : k - w.entries.length = 0 := by
      by_contra hn
      rw [List.getElem?_eq_none (by simp; omega)] at he
      cases he
    rw [hk2] at he
    simp only [List.getElem?_cons_zero, Option.some.injEq] at he
    subst he
    have : k = w.entries.length := by omega
    rw [this]
    exact ⟨hd, hi⟩

theorem coloured_set {Q : ℕ → Bool} {w : World} (hc : Coloured Q w) {h' : Heap} {k : ℕ} {e : Entry} {s' : HSeries} (he : w.entries[k]? = some e) :
    Coloured Q { heap := h', entries := w.entries.set k { e with series := s' } } := by
  intro j y hy
  dsimp only at hy
  by_cases hk : k = j
  · subst hk
    rw [List.getElem?_set_self (List.getElem?_eq_some_iff.1 he).1] at hy
    cases hy
    exact hc k e he
  · rw [List.getElem?_set_ne hk] at hy
    exact hc j y hy

theorem coloured_produce {Q : ℕ → Bool} {w : World} (hc : Coloured Q w) {k : ℕ} {nd ni : Bool} {op : Heap → HSeries → Except PyErr (Heap × HSeries)}
    (hq : Q k = Q w.entries.length) : Coloured Q (w.produce k nd ni op) := by
  unfold World.produce
  cases he : w.entries[k]? with
  | none => exact hc
  | some e =>
    dsimp only
    cases op w.heap e.series with
    | error er => exact hc
    | ok q =>
      obtain ⟨h', r⟩ := q
      have := hc k e he
      refine coloured_add hc ?_ ?_
      · dsimp only; split
        · rfl
        · rw [this.1, hq]
      · dsimp only; split
        · rfl
        · rw [this.2, hq]

theorem coloured_step {Q : ℕ → Bool} {q : Bool} {cal : Calendar} {w : World} (hc : Coloured Q w) {c : WorldCall} (hu : ∀ k ∈ c.uses, Q k = q) (hl : Q w.entries.length = q) :
    Coloured Q (w.step cal c) := by
  have fresh : ∀ l : List Item, Coloured Q (match finishH (.ok (newItems w.heap l)) with
      | .error _ => w
      | .ok (h', r) => { heap := h', entries := w.entries ++ [{ series := r, dataFrom := w.entries.length, idxFrom := w.entries.length }] }) := by
    intro l
    cases finishH (.ok (newItems w.heap l)) with
    | error er => exact hc
    | ok q => exact coloured_add hc rfl rfl
  have chg : ∀ k0, c.changed = some k0 → Coloured Q (w.step cal c) := by
    intro k0 hk0
    rcases change_frame c cal w k0 hk0 with ⟨_, hs⟩ | ⟨e0, _, h1, _⟩
    · rw [hs]; exact hc
    · intro k e he
      rw [h1] at he
      exact hc k e he
  cases c with
  | create l => exact fresh l
  | compute ks f =>
    unfold World.step
    dsimp only
    cases f (ks.filterMap (fun k => (w.entries[k]?).map (fun e => e.series.view w.heap))) with
    | error er => exact hc
    | ok s => exact fresh s.items
  | map k g => exact coloured_produce hc (by rw [hl]; exact hu k (by simp [WorldCall.uses]))
  | derivative k a => exact coloured_produce hc (by rw [hl]; exact hu k (by simp [WorldCall.uses]))
  | filter k l => exact coloured_produce hc (by rw [hl]; exact hu k (by simp [WorldCall.uses]))
  | mavg k n => exact coloured_produce hc (by rw [hl]; exact hu k (by simp [WorldCall.uses]))
  | duplicate k => exact coloured_produce hc (by rw [hl]; exact hu k (by simp [WorldCall.uses]))
  | slice k x y => exact coloured_produce hc (by rw [hl]; exact hu k (by simp [WorldCall.uses]))
  | detect k lg d c pre ranges => exact coloured_produce hc (by rw [hl]; exact hu k (by simp [WorldCall.uses]))
  | rename k old new => exact chg k rfl
  | removeLabel k label => exact chg k rfl
  | setData k i f => exact chg k rfl
  | setIdx k i f => exact chg k rfl
  | removeIndex k name => exact chg k rfl
  | appendNew k x =>
    unfold World.step
    dsimp only
    cases he : w.entries[k]? with
    | none => exact hc
    | some e => exact coloured_set hc he
  | pop k i =>
    unfold World.step
    dsimp only
    cases he : w.entries[k]? with
    | none => exact hc
    | some e => exact coloured_set hc he
  | append k j i =>
    unfold World.step
    dsimp only
    cases he : w.entries[k]? with
    | none => exact hc
    | some e =>
      cases he' : w.entries[j]? with
      | none => exact hc
      | some e' =>
        dsimp only
        cases hx : e'.series.items[i]? with
        | none => exact hc
        | some x =>
          dsimp only
          rcases hq : e.series.append w.heap x with ⟨s', (er | u)⟩
          · exact coloured_set hc he
          · dsimp only
            have hs := coloured_set (h' := w.heap) (s' := s') hc he
            intro m y hy
            dsimp only at hy
            rw [List.getElem?_map] at hy
            cases hz : (w.entries.set k { e with series := s' })[m]? with
            | none => rw [hz] at hy; cases hy
            | some z =>
              rw [hz] at hy
              cases hy
              have h1 := hs m z hz
              have h2 := hc k e he
              have h3 := hc j e' he'
              have hk : Q k = q := hu k (by simp [WorldCall.uses])
              have hj : Q j = q := hu j (by simp [WorldCall.uses])
              unfold Entry.join
              dsimp only
              constructor
              · split
                · rename_i hz'
                  rw [h2.1, hk, ← h1.1, hz', h3.1, hj]
                · exact h1.1
              · split
                · rename_i hz'
                  rw [h2.2, hk, ← h1.2, hz', h3.2, hj]
                · exact h1.2
  | insert k j i pos =>
    unfold World.step
    dsimp only
    cases he : w.entries[k]? with
    | none => exact hc
    | some e =>
      cases he' : w.entries[j]? with
      | none => exact hc
      | some e' =>
        dsimp only
        cases hx : e'.series.items[i]? with
        | none => exact hc
        | some x =>
          dsimp only
          rcases hq : e.series.insert w.heap pos x with ⟨s', (er | u)⟩
          · exact coloured_set hc he
          · dsimp only
            have hs := coloured_set (h' := w.heap) (s' := s') hc he
            intro m y hy
            dsimp only at hy
            rw [List.getElem?_map] at hy
            cases hz : (w.entries.set k { e with series := s' })[m]? with
            | none => rw [hz] at hy; cases hy
            | some z =>
              rw [hz] at hy
              cases hy
              have h1 := hs m z hz
              have h2 := hc k e he
              have h3 := hc j e' he'
              have hk : Q k = q := hu k (by simp [WorldCall.uses])
              have hj : Q j = q := hu j (by simp [WorldCall.uses])
              unfold Entry.join
              dsimp only
              constructor
              · split
                · rename_i hz'
                  rw [h2.1, hk, ← h1.1, hz', h3.1, hj]
                · exact h1.1
              · split
                · rename_i hz'
                  rw [h2.2, hk, ← h1.2, hz', h3.2, hj]
                · exact h1.2

theorem coloured_run {Q : ℕ → Bool} {q : Bool} {cal : Calendar} (ds : List WorldCall) : ∀ {w : World}, WorldOk w → Coloured Q w → (∀ m, w.entries.length ≤ m → Q m = q) →
    (∀ c ∈ ds, ∀ k ∈ c.uses, Q k = q) → ∀ k, k < w.entries.length → Q k ≠ q → (w.run cal ds).read k = w.read k := by
  induction ds with
  | nil => intro w _ _ _ _ k _ _; rfl
  | cons c ds ih =>
    intro w hw hc hl hu k hk hq
    have hlen := step_len (cal := cal) hw c
    have h1 := ih (step_ok (cal := cal) hw c) (coloured_step hc (hu c (by simp)) (hl _ (le_refl _))) (fun m hm => hl m (le_trans hlen hm)) (fun c hm => hu c (by simp [hm])) k
      (lt_of_lt_of_le hk hlen) hq
    show ((w.step cal c).run cal ds).read k = _
    rw [h1]
    cases hch : c.changed with
    | none =>
      refine read_kept hw hch k hk ?_
      intro hr
      exact hq (hu c (by simp) k (reshaped_uses hr))
    | some i =>
      have hi : Q i = q := hu c (by simp) i (changed_uses hch)
      cases he : w.entries[i]? with
      | none =>
        rcases change_frame c cal w i hch with ⟨_, h⟩ | ⟨e, h, _⟩
        · rw [h]
        · rw [he] at h; cases h
      | some e =>
        have he' : w.entries[k]? = some w.entries[k] := List.getElem?_eq_getElem hk
        refine change_apart hw hch he he' ?_
        have a := hc i e he
        have b := hc k _ he'
        split
        · intro h
          apply hq
          rw [← b.2, ← h, a.2, hi]
        · intro h
          apply hq
          rw [← b.1, ← h, a.1, hi]

/-- the marks of the series there are come before the next position -/
theorem marks_before {cal : Calendar} (cs : List WorldCall) (k : ℕ) (e : Entry) (he : (World.run cal {} cs).entries[k]? = some e) :
    e.dataFrom < (World.run cal {} cs).entries.length ∧ e.idxFrom < (World.run cal {} cs).entries.length :=
  (run_ok (cal := cal) cs worldOk_empty).marks e (List.mem_of_getElem? he)

/-- **C343** whatever the history so far, calls naming only series made from now on change nothing in the series there are -/
theorem C343_later (cal : Calendar) (cs ds : List WorldCall) (hu : ∀ c ∈ ds, ∀ k ∈ c.uses, (World.run cal {} cs).entries.length ≤ k) (k : ℕ) (hk : k < (World.run cal {} cs).entries.length) :
    (World.run cal {} (cs ++ ds)).read k = (World.run cal {} cs).read k := by
  rw [run_append]
  have hm := marks_before (cal := cal) cs
  have hw := run_ok (cal := cal) cs worldOk_empty
  generalize World.run cal {} cs = w at hw hm hu hk ⊢
  refine coloured_run (Q := fun m => decide (w.entries.length ≤ m)) (q := true) ds hw ?_ ?_ ?_ k hk ?_
  · intro m e he
    have h1 := hm m e he
    have h2 := (List.getElem?_eq_some_iff.1 he).1
    constructor
    · exact (decide_eq_false (by omega)).trans (decide_eq_false (by omega)).symm
    · exact (decide_eq_false (by omega)).trans (decide_eq_false (by omega)).symm
  · intro m h; simpa using h
  · intro c hc j hj; simpa using hu c hc j hj
  · simpa using hk

/-- the entry of a duplicate -/
theorem duplicate_entry {cal : Calendar} {w : World} {k : ℕ} (hn : w.entries.length < (w.step cal (.duplicate k)).entries.length) :
    ∃ e h' r, w.entries[k]? = some e ∧ e.series.duplicate w.heap = .ok (h', r) ∧
      w.step cal (.duplicate k) = { heap := h', entries := w.entries ++ [{ series := r, dataFrom := w.entries.length, idxFrom := w.entries.length }] } := by
  unfold World.step World.produce at hn ⊢
  dsimp only at hn ⊢
  cases he : w.entries[k]? with
  | none => rw [he] at hn; exact absurd hn (lt_irrefl _)
  | some e =>
    rw [he] at hn
    dsimp only at hn ⊢
    cases hd : e.series.duplicate w.heap with
    | error er => rw [hd] at hn; exact absurd hn (lt_irrefl _)
    | ok q => exact ⟨e, q.1, q.2, rfl, hd, by simp⟩

/-- **C342** whatever the history so far, a duplicate has the items of the series -/
theorem C342_items (cal : Calendar) (cs : List WorldCall) (k : ℕ)
    (hn : (World.run cal {} cs).entries.length < (World.run cal {} (cs ++ [.duplicate k])).entries.length) :
    ((World.run cal {} (cs ++ [.duplicate k])).read (World.run cal {} cs).entries.length).map TSeries.items = ((World.run cal {} cs).read k).map TSeries.items ∧
    ((World.run cal {} cs).read k).isSome := by
  rw [run_snoc] at hn ⊢
  have hw := run_ok (cal := cal) cs worldOk_empty
  generalize World.run cal {} cs = w at hw hn ⊢
  obtain ⟨e, h', r, he, hd, hs⟩ := duplicate_entry hn
  have hr := C342_reads w.heap e.series (hw.series (List.mem_of_getElem? he))
  rw [hd] at hr
  dsimp only at hr
  unfold World.read
  rw [hs, he]
  refine ⟨?_, rfl⟩
  simp only [List.getElem?_concat_length, Option.map_some, Option.some.injEq]
  unfold TSeries.duplicate at hr
  rcases hz : ({ (e.series.view w.heap) with items := [] } : TSeries).appendAll (e.series.view w.heap).items with ⟨t, (er | u)⟩
  · rw [hz] at hr; cases hr
  · rw [hz] at hr
    simp only [Except.ok.injEq] at hr
    have := appendAll_ok_items _ _ (by rw [hz] : (({ (e.series.view w.heap) with items := [] } : TSeries).appendAll (e.series.view w.heap).items).2 = .ok ())
    rw [hz] at this
    rw [← hr, this]
    simp

/-- **C342** no later call which does not name the duplicate changes it: neither changes to the series it is a duplicate of, nor to series made from that, nor items added or removed -/
theorem C342_apart (cal : Calendar) (cs ds : List WorldCall) (k : ℕ)
    (hn : (World.run cal {} cs).entries.length < (World.run cal {} (cs ++ [.duplicate k])).entries.length)
    (hu : ∀ c ∈ ds, (World.run cal {} cs).entries.length ∉ c.uses) :
    (World.run cal {} (cs ++ [.duplicate k] ++ ds)).read (World.run cal {} cs).entries.length =
      (World.run cal {} (cs ++ [.duplicate k])).read (World.run cal {} cs).entries.length := by
  rw [run_append]
  have hw1 := run_ok (cal := cal) (cs ++ [.duplicate k]) worldOk_empty
  rw [run_snoc] at hn hw1 ⊢
  have hm := marks_before (cal := cal) cs
  have hw := run_ok (cal := cal) cs worldOk_empty
  generalize World.run cal {} cs = w at hw hw1 hn hm hu ⊢
  obtain ⟨e, h', r, he, hd, hs⟩ := duplicate_entry hn
  rw [hs] at hw1 ⊢
  refine coloured_run (Q := fun m => decide (m = w.entries.length)) (q := false) ds hw1 ?_ ?_ ?_ _ (by simp) (by simp)
  · refine coloured_add (w := w) ?_ rfl rfl
    intro m y hy
    have h1 := hm m y hy
    have h2 := (List.getElem?_eq_some_iff.1 hy).1
    constructor
    · exact (decide_eq_false (by omega)).trans (decide_eq_false (by omega)).symm
    · exact (decide_eq_false (by omega)).trans (decide_eq_false (by omega)).symm
  · intro m h
    simp only [List.length_append, List.length_singleton] at h
    exact decide_eq_false (by omega)
  · intro c hc j hj
    refine decide_eq_false ?_
    intro h
    exact hu c hc (h ▸ hj)

/-- **C342** nothing done to the duplicate, nor to series made from it, changes the series it is a duplicate of, nor any other there was -/
theorem C342_rest (cal : Calendar) (cs ds : List WorldCall) (k : ℕ) (hu : ∀ c ∈ ds, ∀ j ∈ c.uses, (World.run cal {} cs).entries.length ≤ j) (j : ℕ) (hj : j < (World.run cal {} cs).entries.length) :
    (World.run cal {} (cs ++ [.duplicate k] ++ ds)).read j = (World.run cal {} cs).read j := by
  rw [run_append]
  have hw1 := run_ok (cal := cal) (cs ++ [.duplicate k]) worldOk_empty
  have hm := marks_before (cal := cal) cs
  have hw := run_ok (cal := cal) cs worldOk_empty
  rw [run_snoc] at hw1 ⊢
  generalize World.run cal {} cs = w at hw hw1 hm hu hj ⊢
  have hq := quiet_step (cal := cal) hw (c := .duplicate k) rfl
  rw [← read_kept (cal := cal) hw (c := .duplicate k) rfl j hj (by simp [WorldCall.reshaped])]
  refine coloured_run (Q := fun m => decide (w.entries.length ≤ m)) (q := true) ds hw1 ?_ ?_ ?_ j (lt_of_lt_of_le hj hq.len) (by simpa using hj)
  · by_cases hn : w.entries.length < (w.step cal (.duplicate k)).entries.length
    · obtain ⟨e, h', r, he, hd, hs⟩ := duplicate_entry hn
      rw [hs]
      refine coloured_add (w := w) ?_ rfl rfl
      intro m y hy
      have h1 := hm m y hy
      have h2 := (List.getElem?_eq_some_iff.1 hy).1
      constructor
      · exact (decide_eq_false (by omega)).trans (decide_eq_false (by omega)).symm
      · exact (decide_eq_false (by omega)).trans (decide_eq_false (by omega)).symm
    · intro m y hy
      have h1 := hw1.marks y (List.mem_of_getElem? hy)
      have h2 := (List.getElem?_eq_some_iff.1 hy).1
      constructor
      · exact (decide_eq_false (by omega)).trans (decide_eq_false (by omega)).symm
      · exact (decide_eq_false (by omega)).trans (decide_eq_false (by omega)).symm
  · intro m h
    have := hq.len
    exact decide_eq_true (by omega)
  · intro c hc i hi
    exact decide_eq_true (hu c hc i hi)

/-! ## Examples -/

/-- a series, its duplicate, a slice of the duplicate; then values, items and data indexes of the series change -/
def dupCalls : List WorldCall := [.create twoHourly, .duplicate 0]

def dupLater : List WorldCall := [.setData 0 0 (putLabel "v" 9), .slice 0 0 1, .pop 0 none, .appendNew 0 (mkPoint 7200 (.dict [("v", 5)]) "UTC" []), .removeLabel 2 "v"]

example : (World.run physicalCalendar {} [.create twoHourly]).entries.length < (World.run physicalCalendar {} dupCalls).entries.length ∧
    (∀ c ∈ dupLater, 1 ∉ c.uses) ∧
    (World.run physicalCalendar {} (dupCalls ++ dupLater)).valuesOf 1 = some [(some (.dict [("v", 1)]), []), (some (.dict [("v", 2)]), [])] ∧
    (World.run physicalCalendar {} (dupCalls ++ dupLater)).valuesOf 0 = some [(some (.dict []), []), (some (.dict [("v", 5)]), [])] := by
  refine ⟨?_, ?_, ?_, ?_⟩ <;> decide +kernel

/-- two series; an item of the first is appended to the second: changing it in one changes it in the other, and not before -/
def joinCalls : List WorldCall := [.create twoHourly, .create [mkPoint (-3600) (.dict [("v", 0)]) "UTC" []], .append 1 0 0]

/-- **C333** (items in two series) the families meet when an item of a series is appended to another -/
theorem C333_join :
    (World.run physicalCalendar {} (joinCalls ++ [.setData 0 0 (putLabel "v" 9)])).valuesOf 1 = some [(some (.dict [("v", 0)]), []), (some (.dict [("v", 9)]), [])] ∧
    (World.run physicalCalendar {} joinCalls).entries.map (fun e => (e.dataFrom, e.idxFrom)) = [(1, 1), (1, 1)] ∧
    (World.run physicalCalendar {} (joinCalls ++ [.pop 1 none, .pop 1 none])).valuesOf 0 = (World.run physicalCalendar {} joinCalls).valuesOf 0 := by
  refine ⟨?_, ?_, ?_⟩ <;> decide +kernel

/-- merging in a history -/
example : (World.run physicalCalendar {} [.create twoHourly, .map 0 (fun _ v => .ok (3 * v)), .compute [0, 1] (mergeOp physicalCalendar), .setData 0 0 (putLabel "v" 9)]).valuesOf 2 =
    some [(some (.dict [("v", 2)]), []), (some (.dict [("v", 4)]), [])] := by
  decide +kernel

end Timeseria
