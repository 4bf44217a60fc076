import Verif.Model.Merge
import Verif.Lemmas.BuildLike
import Verif.Props.OpsMap

/-! # C31: merging series -/

namespace Timeseria

/-! ## Specification -/

/-- the mean of some values, none if there are none -/
def mean? (vs : List ℚ) : Option ℚ := if vs = [] then none else some (vs.sum / vs.length)

/-- the item of a list at a time -/
def itemAt (l : List Item) (t : ℚ) : Option Item := l.find? (fun x => decide (x.t = t))

/-- an instant within the range of every series -/
def Common (ss : List TSeries) (t : ℚ) : Prop :=
  ∀ c ∈ ss, (∃ y ∈ c.items, y.t ≤ t) ∧ ∃ y ∈ c.items, t ≤ y.t

/-- Aligned series: within the common range, a time present in one series is present in all. -/
def Aligned (ss : List TSeries) : Prop :=
  ∀ a ∈ ss, ∀ b ∈ ss, ∀ x ∈ a.items, Common ss x.t → ∃ y ∈ b.items, y.t = x.t

/-- series which can be merged: well formed and ordered, with dictionary data, all of points or all
of slots, with the same (not variable) resolution, aligned -/
structure Mergeable (cal : Calendar) (ss : List TSeries) : Prop where
  ne : ss ≠ []
  each : ∀ s ∈ ss, ∃ ks, OpSeries cal s ks
  dict : ∀ s ∈ ss, ∀ x ∈ s.items, ∃ d, x.data = some (.dict d)
  ordered : ∀ s ∈ ss, StrictlyOrdered s.items
  res : ∃ r, r ≠ Res.varying ∧ ∀ s ∈ ss, s.res = r
  aligned : Aligned ss
  idx : ∀ s ∈ ss, ∀ x ∈ s.items, Dict.WF x.idx

/-! ## Sums and counts -/

theorem addEntry_wf {acc : Dict (ℚ × ℕ)} (h : acc.WF) (p : String × ℚ) : (addEntry acc p).WF := by
  unfold addEntry
  cases acc.get? p.1 with
  | none => exact Dict.wf_set _ _ h
  | some q => exact Dict.wf_set _ _ h

/-- what a sum and count become when values are added -/
def addAll (a : Option (ℚ × ℕ)) (vs : List ℚ) : Option (ℚ × ℕ) :=
  match a with
  | none => if vs = [] then none else some (vs.sum, vs.length)
  | some (v, n) => some (v + vs.sum, n + vs.length)

theorem addAll_nil (a : Option (ℚ × ℕ)) : addAll a [] = a := by
  cases a <;> simp [addAll]

theorem addAll_append (a : Option (ℚ × ℕ)) (xs ys : List ℚ) :
    addAll a (xs ++ ys) = addAll (addAll a xs) ys := by
  cases a with
  | none =>
    cases xs with
    | nil => simp [addAll]
    | cons x xs => simp [addAll]; constructor <;> ring
  | some p => obtain ⟨v, n⟩ := p; simp [addAll]; constructor <;> ring

theorem addEntry_get? (acc : Dict (ℚ × ℕ)) (p : String × ℚ) (k : String) :
    (addEntry acc p).get? k = addAll (acc.get? k) (if p.1 = k then [p.2] else []) := by
  unfold addEntry
  cases h : acc.get? p.1 with
  | none =>
    simp only [Dict.get?_set]
    by_cases hk : p.1 = k
    · subst hk; simp [h, addAll]
    · simp [hk, addAll_nil]
  | some q =>
    obtain ⟨v, n⟩ := q
    simp only [Dict.get?_set]
    by_cases hk : p.1 = k
    · subst hk; simp [h, addAll]
    · simp [hk, addAll_nil]

/-- the values of a list of entries for a label -/
def valsFor (k : String) (d : List (String × ℚ)) : List ℚ :=
  d.flatMap (fun p => if p.1 = k then [p.2] else [])

theorem foldl_addEntry (d : List (String × ℚ)) (acc : Dict (ℚ × ℕ)) (h : acc.WF) :
    (d.foldl addEntry acc).WF ∧
      ∀ k, (d.foldl addEntry acc).get? k = addAll (acc.get? k) (valsFor k d) := by
  induction d generalizing acc with
  | nil => exact ⟨h, fun k => (addAll_nil _).symm⟩
  | cons p r ih =>
    obtain ⟨h1, h2⟩ := ih (addEntry acc p) (addEntry_wf h p)
    refine ⟨h1, fun k => ?_⟩
    rw [List.foldl_cons, h2 k, addEntry_get?, ← addAll_append]
    rfl

theorem foldl_dicts (ds : List (List (String × ℚ))) (acc : Dict (ℚ × ℕ)) (h : acc.WF) :
    (ds.foldl (fun acc d => d.foldl addEntry acc) acc).WF ∧
      ∀ k, (ds.foldl (fun acc d => d.foldl addEntry acc) acc).get? k =
        addAll (acc.get? k) (ds.flatMap (valsFor k)) := by
  induction ds generalizing acc with
  | nil => exact ⟨h, fun k => (addAll_nil _).symm⟩
  | cons d r ih =>
    obtain ⟨h1, h2⟩ := foldl_addEntry d acc h
    obtain ⟨h3, h4⟩ := ih _ h1
    refine ⟨h3, fun k => ?_⟩
    rw [List.foldl_cons, h4 k, h2 k, ← addAll_append, List.flatMap_cons]

theorem mergeDicts_get? (ds : List (List (String × ℚ))) (k : String) :
    (mergeDicts ds).get? k = mean? (ds.flatMap (valsFor k)) := by
  unfold mergeDicts finalize
  obtain ⟨_, h2⟩ := foldl_dicts ds [] (by simp [Dict.WF, Dict.keys])
  rw [Dict.get?_map _ (fun _ (p : ℚ × ℕ) => p.1 / p.2) k, h2 k]
  simp only [Dict.get?_nil, addAll, mean?]
  split <;> simp

theorem mergeDicts_wf (ds : List (List (String × ℚ))) : (mergeDicts ds).WF := by
  unfold mergeDicts finalize
  obtain ⟨h1, _⟩ := foldl_dicts ds [] (by simp [Dict.WF, Dict.keys])
  unfold Dict.WF at *
  rw [Dict.keys_map _ (fun _ (p : ℚ × ℕ) => p.1 / p.2)]
  exact h1

theorem valsFor_dict {d : Dict ℚ} (h : d.WF) (k : String) : valsFor k d = (d.get? k).toList := by
  induction d with
  | nil => rfl
  | cons p r ih =>
    have hr : Dict.WF r := (List.nodup_cons.1 h).2
    have hp : p.1 ∉ Dict.keys r := (List.nodup_cons.1 h).1
    unfold valsFor at *
    rw [List.flatMap_cons, ih hr, Dict.get?_cons]
    by_cases hk : p.1 = k
    · subst hk
      rw [Dict.get?_eq_none.2 hp]
      simp
    · simp [hk]

theorem valsFor_idx {i : Idx} (h : Dict.WF i) (k : String) :
    valsFor k (someEntries i) = ((Dict.get? i k).join).toList := by
  induction i with
  | nil => rfl
  | cons p r ih =>
    have hr : Dict.WF r := (List.nodup_cons.1 h).2
    have hp : p.1 ∉ Dict.keys r := (List.nodup_cons.1 h).1
    obtain ⟨n, v⟩ := p
    have ih := ih hr
    rw [Dict.get?_cons]
    unfold valsFor someEntries at *
    cases v with
    | none =>
      simp only [List.filterMap_cons, Option.map_none, ih]
      by_cases hk : n = k
      · subst hk
        rw [Dict.get?_eq_none.2 hp]; simp
      · simp [hk]
    | some v =>
      simp only [List.filterMap_cons, Option.map_some, List.flatMap_cons, ih]
      by_cases hk : n = k
      · subst hk
        rw [Dict.get?_eq_none.2 hp]; simp
      · simp [hk]

theorem flatMap_toList {α β : Type} (f : α → Option β) (l : List α) :
    l.flatMap (fun a => (f a).toList) = l.filterMap f := by
  induction l with
  | nil => rfl
  | cons a r ih =>
    rw [List.flatMap_cons, ih, List.filterMap_cons]
    cases f a <;> simp

/-! ## Alignment -/

theorem sorted_ext {a b : List ℚ} (ha : a.Pairwise (· < ·)) (hb : b.Pairwise (· < ·))
    (h : ∀ t, t ∈ a ↔ t ∈ b) : a = b := by
  have hp : a.Perm b := (List.perm_ext_iff_of_nodup (ha.imp (fun h => ne_of_lt h))
    (hb.imp (fun h => ne_of_lt h))).2 h
  exact hp.eq_of_pairwise (fun x y _ _ h1 h2 => absurd (lt_trans h1 h2) (lt_irrefl _)) ha hb

theorem mem_takeWhile_sorted {l : List Item} (h : StrictlyOrdered l) (hi : ℚ) (x : Item) :
    x ∈ l.takeWhile (fun x => decide (x.t ≤ hi)) ↔ x ∈ l ∧ x.t ≤ hi := by
  induction l with
  | nil => simp
  | cons a r ih =>
    have hr : StrictlyOrdered r := (List.pairwise_cons.1 h).2
    have ha := (List.pairwise_cons.1 h).1
    by_cases hat : a.t ≤ hi
    · rw [List.takeWhile_cons_of_pos (by simpa using hat), List.mem_cons, List.mem_cons, ih hr]
      constructor
      · rintro (rfl | ⟨h1, h2⟩)
        · exact ⟨.inl rfl, hat⟩
        · exact ⟨.inr h1, h2⟩
      · rintro ⟨rfl | h1, h2⟩
        · exact .inl rfl
        · exact .inr ⟨h1, h2⟩
    · rw [List.takeWhile_cons_of_neg (by simpa using hat)]
      simp only [List.not_mem_nil, List.mem_cons, false_iff, not_and]
      rintro (rfl | h1) h2
      · exact hat h2
      · exact hat (le_trans (le_of_lt (ha x h1)) h2)

theorem itemAt_of_mem {l : List Item} (h : StrictlyOrdered l) {y : Item} (hy : y ∈ l) :
    itemAt l y.t = some y := by
  induction l with
  | nil => simp at hy
  | cons a r ih =>
    have ha := (List.pairwise_cons.1 h).1
    unfold itemAt
    rcases List.mem_cons.1 hy with rfl | hm
    · simp
    · have hne : a.t ≠ y.t := ne_of_lt (ha y hm)
      rw [List.find?_cons_of_neg (by simpa using hne)]
      exact ih (List.pairwise_cons.1 h).2 hm

theorem mem_drop_sorted {l : List Item} (h : StrictlyOrdered l) {o : ℕ} {z : Item}
    (hz : l[o]? = some z) (x : Item) : x ∈ l.drop o ↔ x ∈ l ∧ z.t ≤ x.t := by
  induction l generalizing o with
  | nil => simp at hz
  | cons a r ih =>
    have ha := (List.pairwise_cons.1 h).1
    have hr : StrictlyOrdered r := (List.pairwise_cons.1 h).2
    cases o with
    | zero =>
      simp only [List.getElem?_cons_zero, Option.some.injEq] at hz
      subst hz
      simp only [List.drop_zero, List.mem_cons]
      constructor
      · rintro (rfl | h1)
        · exact ⟨.inl rfl, le_refl _⟩
        · exact ⟨.inr h1, le_of_lt (ha x h1)⟩
      · exact fun h => h.1
    | succ o =>
      simp only [List.getElem?_cons_succ] at hz
      rw [List.drop_succ_cons, ih hr hz, List.mem_cons]
      constructor
      · rintro ⟨h1, h2⟩; exact ⟨.inr h1, h2⟩
      · rintro ⟨rfl | h1, h2⟩
        · exact absurd (ha z (List.mem_of_getElem? hz)) (not_lt.2 h2)
        · exact ⟨h1, h2⟩

/-- the times selected from a series -/
theorem selected_times {ss : List TSeries} {ref s : TSeries} {lo hi : ℚ} {f z : Item} {o : ℕ}
    (href : StrictlyOrdered ref.items) (hs : StrictlyOrdered s.items)
    (hrm : ref ∈ ss) (hsm : s ∈ ss) (hal : Aligned ss)
    (hf : ref.items.head? = some f) (hflo : f.t = lo)
    (hz : s.items[o]? = some z) (hzlo : z.t = lo)
    (hcom : ∀ t, lo ≤ t → t ≤ hi → Common ss t) :
    (ref.items.takeWhile (fun x => decide (x.t ≤ hi))).map Item.t =
      ((s.items.drop o).takeWhile (fun x => decide (x.t ≤ hi))).map Item.t := by
  have hd : StrictlyOrdered (s.items.drop o) := hs.sublist (List.drop_sublist _ _)
  apply sorted_ext
  · exact List.pairwise_map.2 (href.sublist (List.takeWhile_sublist _))
  · exact List.pairwise_map.2 (hd.sublist (List.takeWhile_sublist _))
  intro t
  have hge : ∀ x ∈ ref.items, lo ≤ x.t := by
    intro x hx
    rcases hl : ref.items with _ | ⟨a, r⟩
    · rw [hl] at hx; simp at hx
    · rw [hl] at hx hf href
      simp only [List.head?_cons, Option.some.injEq] at hf
      subst hf
      rcases List.mem_cons.1 hx with rfl | hm
      · exact le_of_eq hflo.symm
      · rw [← hflo]; exact le_of_lt ((List.pairwise_cons.1 href).1 x hm)
  simp only [List.mem_map, mem_takeWhile_sorted href, mem_takeWhile_sorted hd,
    mem_drop_sorted hs hz]
  constructor
  · rintro ⟨x, ⟨hx, hxhi⟩, rfl⟩
    obtain ⟨y, hy, hyt⟩ := hal ref hrm s hsm x hx (hcom _ (hge x hx) hxhi)
    exact ⟨y, ⟨⟨hy, by rw [hzlo, hyt]; exact hge x hx⟩, by rw [hyt]; exact hxhi⟩, hyt⟩
  · rintro ⟨y, ⟨⟨hy, hlo⟩, hhi⟩, rfl⟩
    rw [hzlo] at hlo
    obtain ⟨x, hx, hxt⟩ := hal s hsm ref hrm y hy (hcom _ hlo hhi)
    exact ⟨x, ⟨hx, by rw [hxt]; exact hhi⟩, hxt⟩

/-- the item of a series matched with the `i`-th reference item -/
theorem picked {ref s : TSeries} {hi : ℚ} {o i : ℕ} {x : Item}
    (hx : (ref.items.takeWhile (fun x => decide (x.t ≤ hi)))[i]? = some x)
    (h : (ref.items.takeWhile (fun x => decide (x.t ≤ hi))).map Item.t =
      ((s.items.drop o).takeWhile (fun x => decide (x.t ≤ hi))).map Item.t) :
    ∃ y, s.items[i + o]? = some y ∧ y.t = x.t := by
  have h1 := congrArg (fun l => l[i]?) h
  simp only [List.getElem?_map, hx, Option.map_some] at h1
  obtain ⟨y, hy, hyt⟩ := Option.map_eq_some_iff.1 h1.symm
  refine ⟨y, ?_, hyt⟩
  have hp := (List.takeWhile_prefix (fun x : Item => decide (x.t ≤ hi)) (l := s.items.drop o))
  obtain ⟨q, hq⟩ := hp
  rw [Nat.add_comm, ← List.getElem?_drop, ← hq, List.getElem?_append_left (valAt_lt hy)]
  exact hy

/-- data and indexes of the item of a series at a time -/
def pickOf (t : ℚ) (s : TSeries) : Dict ℚ × Idx :=
  match itemAt s.items t with
  | some y => match y.data with
    | some (.dict d) => (d, y.idx)
    | _ => ([], [])
  | none => ([], [])

theorem pickOf_eq {s : TSeries} (hs : StrictlyOrdered s.items) {y : Item} (hy : y ∈ s.items)
    {d : Dict ℚ} (hd : y.data = some (.dict d)) : pickOf y.t s = (d, y.idx) := by
  unfold pickOf
  rw [itemAt_of_mem hs hy]
  simp [hd]

/-- the merged items -/
def mergedItem (cal : Calendar) (ss : List TSeries) (tz : String) (u : TUnit) (x : Item) : Item :=
  mergeItem cal tz u x (mergeDicts (ss.map (fun s => (pickOf x.t s).1)))
    (mergeDicts (ss.map (fun s => someEntries (pickOf x.t s).2)))

theorem mergeLoop_eq {cal : Calendar} {ss : List TSeries} {tz : String} {u : TUnit} {mx mn : ℚ}
    (l : List Item) (i : ℕ)
    (h : ∀ (j : ℕ) (x : Item), (l.takeWhile (fun x => decide (x.t ≤ mn)))[j]? = some x →
      ∀ s ∈ ss, mergePick mx (i + j) s = .ok (pickOf x.t s)) :
    mergeLoop cal ss tz u mx mn i l =
      .ok ((l.takeWhile (fun x => decide (x.t ≤ mn))).map (mergedItem cal ss tz u)) := by
  induction l generalizing i with
  | nil => rfl
  | cons x r ih =>
    unfold mergeLoop
    by_cases hx : x.t ≤ mn
    · rw [if_neg (not_lt.2 hx)]
      have htw : (x :: r).takeWhile (fun x => decide (x.t ≤ mn)) =
          x :: r.takeWhile (fun x => decide (x.t ≤ mn)) :=
        List.takeWhile_cons_of_pos (by simpa using hx)
      rw [htw] at h ⊢
      rw [mapE_ok (g := pickOf x.t) (fun s hs => by simpa using h 0 x (by simp) s hs)]
      simp only
      rw [ih (i + 1) (fun j y hy s hs => by
        have := h (j + 1) y (by simpa using hy) s hs
        rw [show i + (j + 1) = i + 1 + j by omega] at this
        exact this)]
      simp [mergedItem, List.map_map, Function.comp_def]
    · rw [if_pos (not_le.1 hx), List.takeWhile_cons_of_neg (by simpa using hx)]
      rfl

/-! ## Choosing the reference -/

theorem mergeRef_spec (mx : ℚ) (ss : List TSeries) (acc : Option TSeries) :
    (mergeRef mx ss acc = acc ∨ ∃ s ∈ ss, mergeRef mx ss acc = some s ∧
      s.items.head?.map Item.t = some mx) ∧
    ((∃ s ∈ ss, s.items.head?.map Item.t = some mx) → ∃ s ∈ ss, mergeRef mx ss acc = some s ∧
      s.items.head?.map Item.t = some mx) := by
  induction ss generalizing acc with
  | nil => simp [mergeRef]
  | cons a r ih =>
    unfold mergeRef
    by_cases ha : a.items.head?.map Item.t = some mx
    · rw [if_pos ha]
      have key : ∃ s ∈ a :: r, mergeRef mx r (some a) = some s ∧
          s.items.head?.map Item.t = some mx := by
        rcases (ih (some a)).1 with h | ⟨s, h1, h2, h3⟩
        · exact ⟨a, by simp, h, ha⟩
        · exact ⟨s, by simp [h1], h2, h3⟩
      exact ⟨.inr key, fun _ => key⟩
    · rw [if_neg ha]
      obtain ⟨h1, h2⟩ := ih acc
      refine ⟨?_, ?_⟩
      · rcases h1 with h | ⟨s, h3, h4⟩
        · exact .inl h
        · exact .inr ⟨s, by simp [h3], h4⟩
      · rintro ⟨s, hs, h3⟩
        rcases List.mem_cons.1 hs with rfl | hm
        · exact absurd h3 ha
        · obtain ⟨s', h4, h5⟩ := h2 ⟨s, hm, h3⟩
          exact ⟨s', by simp [h4], h5⟩

theorem mergeCheck_ok {r : Res} (hr : r ≠ .varying) (ss : List TSeries) (h : ∀ s ∈ ss, s.res = r)
    (hi : ∀ s ∈ ss, s.items ≠ []) (r0 : Res) (h0 : r0 = .unset ∨ r0 = r) : mergeCheck r0 ss = .ok () := by
  induction ss generalizing r0 with
  | nil => rfl
  | cons s rest ih =>
    unfold mergeCheck
    have hs : s.res = r := h s (by simp)
    rw [hs, if_neg hr]
    have ih := ih (fun s hs => h s (by simp [hs])) (fun s hs => hi s (by simp [hs]))
    have he : ¬ s.items.isEmpty = true := by simpa using hi s (by simp)
    rcases h0 with rfl | rfl
    · dsimp only; rw [if_neg he]; exact ih r (.inr rfl)
    · cases r0 with
      | unset => dsimp only; rw [if_neg he]; exact ih _ (.inr rfl)
      | varying => exact absurd rfl hr
      | unit u => simp only [ne_eq, not_true_eq_false, if_false]; rw [if_neg he]; exact ih _ (.inr rfl)

theorem maxLoop_spec {vs : List ℚ} (h : vs ≠ []) :
    ∃ m, maxLoop vs = some m ∧ m ∈ vs ∧ ∀ v ∈ vs, v ≤ m := by
  cases vs with
  | nil => exact absurd rfl h
  | cons v r =>
    obtain ⟨m, h1, h2, h3, h4⟩ := maxLoop_fold r v
    refine ⟨m, h1, ?_, ?_⟩
    · rcases h2 with rfl | h2
      · simp
      · simp [h2]
    · intro w hw
      rcases List.mem_cons.1 hw with rfl | hw
      · exact h3
      · exact h4 w hw

theorem minLoop_spec {vs : List ℚ} (h : vs ≠ []) :
    ∃ m, minLoop vs = some m ∧ m ∈ vs ∧ ∀ v ∈ vs, m ≤ v := by
  cases vs with
  | nil => exact absurd rfl h
  | cons v r =>
    obtain ⟨m, h1, h2, h3, h4⟩ := minLoop_fold r v
    refine ⟨m, h1, ?_, ?_⟩
    · rcases h2 with rfl | h2
      · simp
      · simp [h2]
    · intro w hw
      rcases List.mem_cons.1 hw with rfl | hw
      · exact h3
      · exact h4 w hw

/-! ## C31 -/

theorem value?_mergeItem (cal : Calendar) (tz : String) (u : TUnit) (x : Item) (d i : Dict ℚ)
    (k : String) : (mergeItem cal tz u x d i).value? k = d.get? k := by
  unfold mergeItem
  cases x.slot <;> rfl

theorem idx_mergeItem (cal : Calendar) (tz : String) (u : TUnit) (x : Item) (d i : Dict ℚ) :
    (mergeItem cal tz u x d i).idx = i.map (fun p => (p.1, some p.2)) := by
  unfold mergeItem
  cases x.slot <;> rfl

theorem t_mergeItem (cal : Calendar) (tz : String) (u : TUnit) (x : Item) (d i : Dict ℚ) :
    (mergeItem cal tz u x d i).t = x.t := by
  unfold mergeItem
  cases x.slot <;> rfl

theorem data_mergeItem (cal : Calendar) (tz : String) (u : TUnit) (x : Item) (d i : Dict ℚ) :
    (mergeItem cal tz u x d i).data = some (.dict d) := by
  unfold mergeItem
  cases x.slot <;> rfl

/-- a merged item, its place and its labels -/
structure MergedFrom (ss : List TSeries) (x y : Item) : Prop where
  t : y.t = x.t
  slot : y.slot = x.slot
  tz : x.slot ≠ none → y.tz = x.tz
  dict : ∃ d : Dict ℚ, y.data = some (.dict d) ∧ d.WF ∧ ∀ k, k ∈ d.keys ↔ ∃ s ∈ ss, ∃ z ∈ s.items, ∃ v, z.value? k = some v
  idx : Dict.WF y.idx

/-- what merging does, with the places and the labels of the merged items -/
theorem merge_full {cal : Calendar} {ss : List TSeries} (h : Mergeable cal ss) :
    ∃ r, mergeOp cal ss = .ok r ∧
      StrictlyOrdered r.items ∧
      (∀ t, t ∈ times r.items ↔ ∀ s ∈ ss, t ∈ times s.items) ∧
      (∀ y ∈ r.items,
        (∀ k, y.value? k =
          mean? (ss.filterMap (fun s => (itemAt s.items y.t).bind (fun x => x.value? k)))) ∧
        (∀ n, (Dict.get? y.idx n).join =
          mean? (ss.filterMap (fun s => (itemAt s.items y.t).bind (fun x => (x.idx.get? n).join))))) ∧
      ∃ ref ∈ ss, ∃ pre, pre <+: ref.items ∧ TSeries.build r.items = .ok r ∧ List.Forall₂ (MergedFrom ss) pre r.items := by
  obtain ⟨res, hres, hall⟩ := h.res
  have hne : ∀ s ∈ ss, s.items ≠ [] := fun s hs => by
    obtain ⟨ks, ho⟩ := h.each s hs
    exact ho.ne
  -- starts and ends
  let first : TSeries → ℚ := fun s => timeAt s.items 0
  let last : TSeries → ℚ := fun s => (s.items.getLast?.map Item.t).getD 0
  have hhead : ∀ s ∈ ss, ∃ f, s.items.head? = some f ∧ f.t = first s := by
    intro s hs
    have := hne s hs
    rcases hl : s.items with _ | ⟨a, q⟩
    · exact absurd hl this
    · exact ⟨a, rfl, by simp [first, timeAt, hl]⟩
  have hlast : ∀ s ∈ ss, ∃ z, s.items.getLast? = some z ∧ z ∈ s.items ∧ z.t = last s := by
    intro s hs
    have hz := List.getLast?_eq_getLast_of_ne_nil (hne s hs)
    exact ⟨_, hz, List.getLast_mem _, by simp [last, hz]⟩
  have hstarts : mapE TSeries.firstT ss = .ok (ss.map first) := by
    apply mapE_ok
    intro s hs
    obtain ⟨f, hf, hft⟩ := hhead s hs
    simp [TSeries.firstT, hf, hft]
  have hends : mapE TSeries.lastT ss = .ok (ss.map last) := by
    apply mapE_ok
    intro s hs
    obtain ⟨z, hz, _, hzt⟩ := hlast s hs
    simp [TSeries.lastT, hz, hzt]
  obtain ⟨mx, hmx, hmx1, hmx2⟩ := maxLoop_spec (vs := ss.map first) (by simpa using h.ne)
  obtain ⟨mn, hmn, hmn1, hmn2⟩ := minLoop_spec (vs := ss.map last) (by simpa using h.ne)
  obtain ⟨s1, hs1, hs1x⟩ := List.mem_map.1 hmx1
  obtain ⟨s2, hs2, hs2x⟩ := List.mem_map.1 hmn1
  have hexref : ∃ s ∈ ss, s.items.head?.map Item.t = some mx := by
    obtain ⟨f, hf, hft⟩ := hhead s1 hs1
    exact ⟨s1, hs1, by rw [hf, Option.map_some, hft, hs1x]⟩
  obtain ⟨ref, hrm, hrefeq, hreft⟩ := (mergeRef_spec mx ss none).2 hexref
  obtain ⟨f, hf, hft⟩ := Option.map_eq_some_iff.1 hreft
  -- the common range
  have hgeall : ∀ s ∈ ss, ∀ x ∈ s.items, first s ≤ x.t := by
    intro s hs x hx
    have ho := h.ordered s hs
    rcases hl : s.items with _ | ⟨a, q⟩
    · exact absurd hl (hne s hs)
    · rw [hl] at hx ho
      have : first s = a.t := by simp [first, timeAt, hl]
      rw [this]
      rcases List.mem_cons.1 hx with rfl | hm
      · exact le_refl _
      · exact le_of_lt ((List.pairwise_cons.1 ho).1 x hm)
  have hleall : ∀ s ∈ ss, ∀ x ∈ s.items, x.t ≤ last s := by
    intro s hs x hx
    have ho := h.ordered s hs
    obtain ⟨z, hz, hzm, hzt⟩ := hlast s hs
    rw [← hzt]
    obtain ⟨q, hq⟩ := List.getLast?_eq_some_iff.1 hz
    rw [hq] at hx
    rw [StrictlyOrdered, hq, List.pairwise_append] at ho
    rcases List.mem_append.1 hx with hm | hm
    · exact le_of_lt (ho.2.2 x hm z (by simp))
    · simp only [List.mem_singleton] at hm
      rw [hm]
  have hcom : ∀ t, mx ≤ t → t ≤ mn → Common ss t := by
    intro t h1 h2 c hc
    obtain ⟨g, hg, hgt⟩ := hhead c hc
    obtain ⟨z, _, hzm, hzt⟩ := hlast c hc
    refine ⟨⟨g, List.mem_of_mem_head? hg, ?_⟩, ⟨z, hzm, ?_⟩⟩
    · rw [hgt]; exact le_trans (hmx2 _ (List.mem_map.2 ⟨c, hc, rfl⟩)) h1
    · rw [hzt]; exact le_trans h2 (hmn2 _ (List.mem_map.2 ⟨c, hc, rfl⟩))
  have hfm : f ∈ ref.items := List.mem_of_mem_head? hf
  have href := h.ordered ref hrm
  -- the items matched
  have hmatch : ∀ (j : ℕ) (x : Item),
      (ref.items.takeWhile (fun x => decide (x.t ≤ mn)))[j]? = some x →
      ∀ s ∈ ss, mergePick mx (0 + j) s = .ok (pickOf x.t s) := by
    intro j x hx s hs
    rw [Nat.zero_add]
    have hxm := (mem_takeWhile_sorted href mn x).1 (List.mem_of_getElem? hx)
    have hmxmn : mx ≤ mn := by
      have hfx : first ref = mx := by
        obtain ⟨g, hg, hgt⟩ := hhead ref hrm
        rw [hf] at hg; cases hg
        rw [← hgt, hft]
      have := hgeall ref hrm x hxm.1
      rw [hfx] at this
      exact le_trans this hxm.2
    obtain ⟨z, hz, hzt⟩ := h.aligned ref hrm s hs f hfm (hcom _ (by rw [hft]) (by rw [hft]; exact hmxmn))
    have hex : ∃ o, offsetOf mx s = some o := by
      unfold offsetOf
      cases hfi : s.items.findIdx? (fun x => decide (x.t = mx)) with
      | some o => exact ⟨o, rfl⟩
      | none =>
        rw [List.findIdx?_eq_none_iff] at hfi
        have := hfi z hz
        simp [hzt, hft] at this
    obtain ⟨o, ho⟩ := hex
    obtain ⟨hol, hop, _⟩ := List.findIdx?_eq_some_iff_getElem.1 ho
    have hop' : s.items[o].t = mx := by simpa using hop
    have hst := selected_times (ss := ss) (lo := mx) (hi := mn) href (h.ordered s hs) hrm hs h.aligned hf
      hft (List.getElem?_eq_getElem hol) hop' hcom
    obtain ⟨y, hy, hyt⟩ := picked hx hst
    have hym : y ∈ s.items := List.mem_of_getElem? hy
    obtain ⟨d, hd⟩ := h.dict s hs y hym
    unfold mergePick
    rw [ho]
    simp only [hy, hd]
    rw [← hyt, pickOf_eq (h.ordered s hs) hym hd]
  obtain ⟨s0, rest, hss⟩ : ∃ s0 rest, ss = s0 :: rest := by
    cases ss with
    | nil => exact absurd rfl h.ne
    | cons a b => exact ⟨a, b, rfl⟩
  obtain ⟨x0, hx0, _⟩ := hhead s0 (by rw [hss]; simp)
  have hloop := mergeLoop_eq (cal := cal) (ss := ss) (tz := x0.tz) (u := f.unit) (mx := mx) (mn := mn)
    ref.items 0 hmatch
  have hop : mergeOp cal ss = TSeries.build ((ref.items.takeWhile (fun x => decide (x.t ≤ mn))).map
      (mergedItem cal ss x0.tz f.unit)) := by
    have hck := mergeCheck_ok hres ss hall (fun s hs he => by
      obtain ⟨y, hy, _⟩ := hhead s hs
      rw [he] at hy
      cases hy) .unset (.inl rfl)
    unfold mergeOp
    rw [hss] at hck hstarts hends hrefeq hloop hmx hmn ⊢
    simp only [hx0, hck, hstarts, hends, hmx, hmn, hrefeq, hf, hloop, finish]
  -- every series has an item at each time of the result
  have hat : ∀ x ∈ ref.items.takeWhile (fun x => decide (x.t ≤ mn)), ∀ s ∈ ss,
      ∃ y ∈ s.items, y.t = x.t := by
    intro x hx s hs
    have hxm := (mem_takeWhile_sorted href mn x).1 hx
    have hfx : first ref = mx := by
      obtain ⟨g, hg, hgt⟩ := hhead ref hrm
      rw [hf] at hg; cases hg
      rw [← hgt, hft]
    exact h.aligned ref hrm s hs x hxm.1 (hcom _ (by rw [← hfx]; exact hgeall ref hrm x hxm.1) hxm.2)
  have hwf : ∀ s ∈ ss, ∀ y ∈ s.items, ∀ d, y.data = some (.dict d) → Dict.WF d := by
    intro s hs y hy d hd
    obtain ⟨ks, ho⟩ := h.each s hs
    obtain ⟨d', hd', hp, hn, _⟩ := ho.lab y hy
    rw [hd] at hd'; cases hd'
    exact hp.nodup_iff.2 hn
  have hval : ∀ x ∈ ref.items.takeWhile (fun x => decide (x.t ≤ mn)), ∀ k,
      (mergeDicts (ss.map (fun s => (pickOf x.t s).1))).get? k =
        mean? (ss.filterMap (fun s => (itemAt s.items x.t).bind (fun x => x.value? k))) := by
    intro x hx k
    rw [mergeDicts_get?, ← flatMap_toList]
    congr 1
    rw [List.flatMap_map]
    apply List.flatMap_congr
    intro s hs
    obtain ⟨y, hy, hyt⟩ := hat x hx s hs
    obtain ⟨d, hd⟩ := h.dict s hs y hy
    rw [← hyt, pickOf_eq (h.ordered s hs) hy hd, itemAt_of_mem (h.ordered s hs) hy,
      valsFor_dict (hwf s hs y hy d hd)]
    simp only [Option.bind_some, Item.value?, hd]
    rfl
  have hidx : ∀ x ∈ ref.items.takeWhile (fun x => decide (x.t ≤ mn)), ∀ n,
      (mergeDicts (ss.map (fun s => someEntries (pickOf x.t s).2))).get? n =
        mean? (ss.filterMap (fun s => (itemAt s.items x.t).bind (fun x => (x.idx.get? n).join))) := by
    intro x hx n
    rw [mergeDicts_get?, ← flatMap_toList]
    congr 1
    rw [List.flatMap_map]
    apply List.flatMap_congr
    intro s hs
    obtain ⟨y, hy, hyt⟩ := hat x hx s hs
    obtain ⟨d, hd⟩ := h.dict s hs y hy
    rw [← hyt, pickOf_eq (h.ordered s hs) hy hd, itemAt_of_mem (h.ordered s hs) hy,
      valsFor_idx (h.idx s hs y hy)]
    rfl
  -- labels of the merged data
  have hkeys : ∀ x ∈ ref.items.takeWhile (fun x => decide (x.t ≤ mn)), ∀ k,
      k ∈ (mergeDicts (ss.map (fun s => (pickOf x.t s).1))).keys ↔
        ∃ s ∈ ss, ∃ y ∈ s.items, ∃ v, y.value? k = some v := by
    intro x hx k
    rw [← Dict.get?_isSome, hval x hx k]
    constructor
    · rintro ⟨v, hv⟩
      unfold mean? at hv
      split at hv
      · cases hv
      · rename_i hne'
        obtain ⟨w, hw⟩ := List.exists_mem_of_ne_nil _ hne'
        obtain ⟨s, hs, hsw⟩ := List.mem_filterMap.1 hw
        obtain ⟨y, hy, hyw⟩ := Option.bind_eq_some_iff.1 hsw
        exact ⟨s, hs, y, List.mem_of_find?_eq_some hy, w, hyw⟩
    · rintro ⟨s, hs, y, hy, v, hv⟩
      obtain ⟨z, hz, hzt⟩ := hat x hx s hs
      obtain ⟨ks, ho⟩ := h.each s hs
      have hkk : k ∈ ks := by
        obtain ⟨d, hd, hp, _⟩ := ho.lab y hy
        simp only [Item.value?, hd] at hv
        by_contra hcon
        have : d.pairs.lookup k = none := by
          rw [List.lookup_eq_none_iff]
          intro p hpp
          rw [bne_iff_ne]
          intro he
          exact hcon (hp.subset (List.mem_map.2 ⟨p, hpp, he.symm⟩))
        rw [this] at hv; cases hv
      have hzv := (ho.lab z hz).lookup hkk
      have hmem : z.value k ∈ ss.filterMap (fun s => (itemAt s.items x.t).bind (fun x => x.value? k)) := by
        refine List.mem_filterMap.2 ⟨s, hs, ?_⟩
        rw [← hzt, itemAt_of_mem (h.ordered s hs) hz]
        exact hzv
      unfold mean?
      rw [if_neg (List.ne_nil_of_mem hmem)]
      exact ⟨_, rfl⟩
  -- the result is accepted
  obtain ⟨ksr, hor⟩ := h.each ref hrm
  have hgood : GoodPoints ref.items ∨ GoodSlots ref.items := by
    rcases hor.good with hg | ⟨hg, _⟩
    · exact .inl hg
    · exact .inr hg
  have hslot : ∀ x ∈ ref.items, ∀ d i, (mergeItem cal x0.tz f.unit x d i).slot = x.slot := by
    intro x hx d i
    rcases hor.good with hg | ⟨hg, hreg⟩
    · have : x.slot = none := by simpa [Item.isSlot] using hg.points x hx
      unfold mergeItem
      rw [this]
    · cases hsl : x.slot with
      | none =>
        have h0 := hg.slots x hx
        simp [Item.isSlot, hsl] at h0
      | some p =>
        obtain ⟨e, u⟩ := p
        have hu : f.unit = u := by
          rw [hg.unit f hfm x hx]; simp [Item.unit, hsl]
        unfold mergeItem
        rw [hsl]
        simp only [hu]
        rw [hreg x hx e u hsl]
  have htsub : ∀ x ∈ ref.items.takeWhile (fun x => decide (x.t ≤ mn)), x ∈ ref.items :=
    fun x hx => (List.takeWhile_sublist _).subset hx
  obtain ⟨_, r, hr1, hr2⟩ := build_like (l := (ref.items.takeWhile (fun x => decide (x.t ≤ mn))).map
      (mergedItem cal ss x0.tz f.unit)) hgood
    (List.takeWhile_prefix (fun x : Item => decide (x.t ≤ mn))).isInfix
    (by
      rw [List.map_map]
      apply List.map_congr_left
      intro x hx
      simp only [Function.comp, mergedItem, t_mergeItem, hslot x (htsub x hx)])
    (by
      intro a ha b hb
      obtain ⟨x, hx, rfl⟩ := List.mem_map.1 ha
      obtain ⟨y, hy, rfl⟩ := List.mem_map.1 hb
      have hx' := htsub x hx
      have hy' := htsub y hy
      rcases hgood with hg | hg
      · have e1 : x.slot = none := by simpa [Item.isSlot] using hg.points x hx'
        have e2 : y.slot = none := by simpa [Item.isSlot] using hg.points y hy'
        simp [mergedItem, mergeItem, e1, e2]
      · have e1 := hg.slots x hx'
        have e2 := hg.slots y hy'
        simp only [Item.isSlot, Option.isSome_iff_exists] at e1 e2
        obtain ⟨p, hp⟩ := e1
        obtain ⟨q, hq⟩ := e2
        simp only [mergedItem, mergeItem, hp, hq]
        exact hg.tz x hx' y hy')
    (by
      intro a ha
      obtain ⟨x, hx, rfl⟩ := List.mem_map.1 ha
      refine ⟨_, data_mergeItem _ _ _ _ _ _, ?_⟩
      have hx' := htsub x hx
      obtain ⟨k, hk⟩ := List.exists_mem_of_ne_nil _ hor.ksne
      have := (hkeys x hx k).2 ⟨ref, hrm, x, hx', _, (hor.lab x hx').lookup hk⟩
      have hne' : mergeDicts (ss.map (fun s => (pickOf x.t s).1)) ≠ [] := by
        intro he
        rw [he] at this
        simp [Dict.keys] at this
      simp [Data.truthy, hne'])
    (by
      intro a ha b hb d e hd he
      obtain ⟨x, hx, rfl⟩ := List.mem_map.1 ha
      obtain ⟨y, hy, rfl⟩ := List.mem_map.1 hb
      rw [mergedItem, data_mergeItem] at hd he
      cases hd; cases he
      intro k
      rw [hkeys x hx k, hkeys y hy k])
  refine ⟨r, hop.trans hr1, ?_, ?_, ?_, ref, hrm, _, List.takeWhile_prefix (fun x : Item => decide (x.t ≤ mn)), by rw [hr2]; exact hr1, ?_⟩
  · rw [hr2]
    apply List.pairwise_map.2
    exact (href.sublist (List.takeWhile_sublist _)).imp (fun {a b} hab => by
      simpa [mergedItem, t_mergeItem] using hab)
  · intro t
    rw [hr2]
    simp only [times, List.map_map, List.mem_map, Function.comp, mergedItem, t_mergeItem]
    constructor
    · rintro ⟨x, hx, rfl⟩ s hs
      obtain ⟨y, hy, hyt⟩ := hat x hx s hs
      exact ⟨y, hy, hyt⟩
    · intro hall'
      obtain ⟨x, hx, rfl⟩ := hall' ref hrm
      refine ⟨x, (mem_takeWhile_sorted href mn x).2 ⟨hx, ?_⟩, rfl⟩
      obtain ⟨y, hy, hyt⟩ := hall' s2 hs2
      rw [← hs2x, ← hyt]
      exact hleall s2 hs2 y hy
  · intro y hy
    rw [hr2] at hy
    obtain ⟨x, hx, rfl⟩ := List.mem_map.1 hy
    simp only [mergedItem, t_mergeItem, value?_mergeItem, idx_mergeItem]
    refine ⟨fun k => hval x hx k, fun n => ?_⟩
    rw [Dict.get?_map _ (fun _ v => some v) n, hidx x hx n]
    cases mean? (ss.filterMap (fun s => (itemAt s.items x.t).bind (fun x => (x.idx.get? n).join))) <;> rfl
  · rw [hr2, List.forall₂_map_right_iff, List.forall₂_same]
    intro x hx
    refine ⟨t_mergeItem _ _ _ _ _ _, hslot x (htsub x hx) _ _, ?_, ⟨_, data_mergeItem _ _ _ _ _ _, mergeDicts_wf _, hkeys x hx⟩, ?_⟩
    · intro hs
      cases hsl : x.slot with
      | none => exact absurd hsl hs
      | some p => simp only [mergedItem, mergeItem, hsl]
    · simp only [mergedItem, idx_mergeItem]
      have := mergeDicts_wf (ss.map (fun s => someEntries (pickOf x.t s).2))
      unfold Dict.WF Dict.keys at this ⊢
      rw [List.map_map]
      exact this

/-- **C31**: merging aligned series succeeds; the times of the result are exactly the times present in
all the series, in order; each label carries the mean of its values over the series having it, and
each data index the mean of its values over the series where it is set. -/
theorem C31_merge {cal : Calendar} {ss : List TSeries} (h : Mergeable cal ss) :
    ∃ r, mergeOp cal ss = .ok r ∧
      StrictlyOrdered r.items ∧
      (∀ t, t ∈ times r.items ↔ ∀ s ∈ ss, t ∈ times s.items) ∧
      ∀ y ∈ r.items,
        (∀ k, y.value? k =
          mean? (ss.filterMap (fun s => (itemAt s.items y.t).bind (fun x => x.value? k)))) ∧
        (∀ n, (Dict.get? y.idx n).join =
          mean? (ss.filterMap (fun s => (itemAt s.items y.t).bind (fun x => (x.idx.get? n).join)))) := by
  obtain ⟨r, h1, h2, h3, h4, _⟩ := merge_full h
  exact ⟨r, h1, h2, h3, h4⟩

/-- **C31 (refusals)**: a series of variable resolution anywhere in the list, or a later series with
another resolution, is refused (no result). -/
theorem C31_refused {cal : Calendar} {ss : List TSeries} {a b : TSeries} (ha : a ∈ ss) (hb : b ∈ ss)
    (hne : ∀ s ∈ ss, s.items ≠ [])
    (h : a.res = .varying ∨ (a.res ≠ b.res ∧ a.res ≠ .unset ∧ b.res ≠ .unset)) :
    mergeOp cal ss = .error .valueError := by
  have key : ∀ (ss : List TSeries), (∀ s ∈ ss, s.items ≠ []) → ∀ (r0 : Res),
      ((∃ s ∈ ss, s.res = .varying) ∨ (∃ s ∈ ss, s.res ≠ .unset ∧ r0 ≠ .unset ∧ s.res ≠ r0) ∨
        (∃ s ∈ ss, ∃ s' ∈ ss, s.res ≠ s'.res ∧ s.res ≠ .unset ∧ s'.res ≠ .unset)) →
      mergeCheck r0 ss = .error .valueError := by
    intro ss
    induction ss with
    | nil => rintro - r0 (⟨s, hs, _⟩ | ⟨s, hs, _⟩ | ⟨s, hs, _⟩) <;> simp at hs
    | cons c rest ih =>
      intro hi r0 hh
      have he : ¬ c.items.isEmpty = true := by simpa using hi c (by simp)
      have ih := ih (fun s hs => hi s (by simp [hs]))
      unfold mergeCheck
      by_cases hv : c.res = .varying
      · rw [if_pos hv]
      · rw [if_neg hv]
        cases r0 with
        | unset =>
          dsimp only
          rw [if_neg he]
          apply ih
          rcases hh with ⟨s, hs, h1⟩ | ⟨s, hs, _, h2, _⟩ | ⟨s, hs, s', hs', h1, h2, h3⟩
          · rcases List.mem_cons.1 hs with rfl | hm
            · exact absurd h1 hv
            · exact .inl ⟨s, hm, h1⟩
          · exact absurd rfl h2
          · rcases List.mem_cons.1 hs with rfl | hm <;> rcases List.mem_cons.1 hs' with rfl | hm'
            · exact absurd rfl h1
            · exact .inr (.inl ⟨s', hm', h3, h2, Ne.symm h1⟩)
            · exact .inr (.inl ⟨s, hm, h2, h3, h1⟩)
            · exact .inr (.inr ⟨s, hm, s', hm', h1, h2, h3⟩)
        | varying =>
          simp only
          rw [if_pos hv]
        | unit u =>
          simp only
          by_cases hcu : c.res = .unit u
          · rw [if_neg (by simpa using hcu), if_neg he]
            apply ih
            rcases hh with ⟨s, hs, h1⟩ | ⟨s, hs, h1, h2, h3⟩ | ⟨s, hs, s', hs', h1, h2, h3⟩
            · rcases List.mem_cons.1 hs with rfl | hm
              · exact absurd h1 hv
              · exact .inl ⟨s, hm, h1⟩
            · rcases List.mem_cons.1 hs with rfl | hm
              · exact absurd hcu h3
              · exact .inr (.inl ⟨s, hm, h1, h2, h3⟩)
            · rcases List.mem_cons.1 hs with rfl | hm <;> rcases List.mem_cons.1 hs' with rfl | hm'
              · exact absurd rfl h1
              · exact .inr (.inl ⟨s', hm', h3, by simp, by rw [← hcu]; exact Ne.symm h1⟩)
              · exact .inr (.inl ⟨s, hm, h2, by simp, by rw [← hcu]; exact h1⟩)
              · exact .inr (.inr ⟨s, hm, s', hm', h1, h2, h3⟩)
          · rw [if_pos hcu]
  have hck : mergeCheck .unset ss = .error .valueError := by
    apply key ss hne
    rcases h with h | ⟨h1, h2, h3⟩
    · exact .inl ⟨a, ha, h⟩
    · exact .inr (.inr ⟨a, ha, b, hb, h1, h2, h3⟩)
  cases hss : ss with
  | nil => rw [hss] at ha; simp at ha
  | cons s0 rest =>
    rw [hss] at hck
    have h0 := hne s0 (by rw [hss]; simp)
    rcases hl : s0.items with _ | ⟨x, q⟩
    · exact absurd hl h0
    · simp [mergeOp, hl, hck]

/-! ## Two series meeting the hypotheses -/

/-- points at 60, 120, 180 with one of the labels of `exSeries` and a new one -/
def exLater : TSeries :=
  match TSeries.build [mkPoint 60 (.dict [("a", 2), ("c", 1)]), mkPoint 120 (.dict [("a", 5), ("c", 7)]),
      mkPoint 180 (.dict [("a", 3), ("c", 4)])] with
  | .ok s => s
  | .error _ => {}

theorem C31_witness : Mergeable physicalCalendar [exSeries, exLater] := by
  have hs : exSeries.items = [mkPoint 0 (.dict [("b", 5), ("a", 1)]),
      mkPoint 60 (.dict [("a", 4), ("b", 7)]), mkPoint 120 (.dict [("a", 3), ("b", -2)])] := by
    decide +kernel
  have hl : exLater.items = [mkPoint 60 (.dict [("a", 2), ("c", 1)]),
      mkPoint 120 (.dict [("a", 5), ("c", 7)]), mkPoint 180 (.dict [("a", 3), ("c", 4)])] := by
    decide +kernel
  have hop : OpSeries physicalCalendar exLater ["a", "c"] := by
    refine ⟨by decide +kernel, by decide +kernel, by decide +kernel, ?_, .inl ⟨?_, ?_⟩⟩
    · rw [hl]
      intro x hx
      simp only [List.mem_cons, List.not_mem_nil, or_false] at hx
      rcases hx with rfl | rfl | rfl <;>
        exact ⟨_, rfl, by decide, by decide, by intro v h; cases h⟩
    · unfold AllPoints; decide +kernel
    · decide +kernel
  refine ⟨by simp, ?_, ?_, ?_, ⟨.unit (TUnit.ofSecs 60), by simp, ?_⟩, ?_, ?_⟩
  · intro s h
    simp only [List.mem_cons, List.not_mem_nil, or_false] at h
    rcases h with rfl | rfl
    · exact ⟨_, C21_witness⟩
    · exact ⟨_, hop⟩
  · intro s h
    simp only [List.mem_cons, List.not_mem_nil, or_false] at h
    rcases h with rfl | rfl
    · rw [hs]; simp [mkPoint]
    · rw [hl]; simp [mkPoint]
  · intro s h
    simp only [List.mem_cons, List.not_mem_nil, or_false] at h
    rcases h with rfl | rfl
    · unfold StrictlyOrdered; decide +kernel
    · unfold StrictlyOrdered; decide +kernel
  · decide +kernel
  · unfold Aligned Common
    decide +kernel
  · unfold Dict.WF
    decide +kernel

/-- what the theorem says about them: two times, mean of the shared label -/
example : (match mergeOp physicalCalendar [exSeries, exLater] with
    | .ok r => r.items.map (fun x => (x.t, x.value? "a", x.value? "b", x.value? "c"))
    | .error _ => []) = [(60, some 3, some 7, some 1), (120, some 4, some (-2), some 7)] := by
  decide +kernel

end Timeseria
