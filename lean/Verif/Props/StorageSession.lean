import Verif.Model.StorageSession
import Verif.Props.Csv
/-!
C316: the file of a storage after any history of puts, gets and crashes.
C317: files cut short.
-/
namespace Timeseria

/-! ## The cut -/

/-- an interrupted write leaves the first characters of what it would have written, no more and no less -/
theorem cutAt_flatten : ∀ (k : ℕ) (l : List Text), (cutAt k l).flatten = l.flatten.take k
  | _, [] => by simp [cutAt]
  | k, x :: r => by
    unfold cutAt
    split_ifs with h h0
    · subst h0; simp
    · rw [List.flatten_cons (L := r), List.take_append_of_le_length (Nat.le_of_lt h)]; simp
    · rw [List.flatten_cons, List.flatten_cons, cutAt_flatten, List.take_append, List.take_of_length_le (l := x) (Nat.le_of_not_lt h)]

/-- a cut after some whole lines -/
theorem cutAt_lines : ∀ (a b : List Text), (∀ x ∈ b, x ≠ []) → cutAt a.flatten.length (a ++ b) = a
  | [], [], _ => rfl
  | [], x :: r, h => by
    have : 0 < x.length := List.length_pos_of_ne_nil (h x (by simp))
    simp [cutAt, this]
  | x :: a, b, h => by
    rw [List.cons_append, cutAt, if_neg (by simp), List.flatten_cons, List.length_append, Nat.add_sub_cancel_left, cutAt_lines a b h]

/-! ## C316 -/

/-- a call which may replace an existing file -/
def StoreCall.replaces : StoreCall → Bool
  | .put _ _ o _ => o
  | .get => false

theorem storeStep_keeps (cd : Codec) (content : List Text) (c : StoreCall) (h : c.replaces = false) :
    storeStep cd (some content) c = some content := by
  cases c with
  | get => rfl
  | put n s o crash =>
    have ho : o = false := h
    subst ho
    cases crash <;> simp [storeStep, csvPut]

/-- **C316** (kept) Once there is a file, no history of calls of `put` without `overwrite`, whether they complete or
crash, and of `get`, changes it. -/
theorem C316_kept (cd : Codec) (content : List Text) : ∀ calls : List StoreCall, (∀ c ∈ calls, c.replaces = false) →
    storeRun cd (some content) calls = some content
  | [], _ => rfl
  | c :: r, h => by
    show storeRun cd (storeStep cd (some content) c) r = _
    rw [storeStep_keeps cd content c (h c (by simp))]
    exact C316_kept cd content r (fun x hx => h x (by simp [hx]))

/-- **C316** (one write) After any history of calls, crashes included, the file is either the one found at the start or
the beginning of what one single call of `put` was writing: never a mix of two series. -/
theorem C316_one_write (cd : Codec) : ∀ (calls : List StoreCall) (file : Option (List Text)),
    storeRun cd file calls = file ∨
    ∃ n s o crash content, StoreCall.put n s o crash ∈ calls ∧ storeRun cd file calls = some content ∧
      content.flatten <+: (putLines cd n s).1.flatten
  | [], _ => Or.inl rfl
  | c :: r, file => by
    show storeRun cd (storeStep cd file c) r = _ ∨ ∃ _ _ _ _ _, _ ∧ storeRun cd (storeStep cd file c) r = _ ∧ _
    rcases C316_one_write cd r (storeStep cd file c) with h | ⟨n, s, o, cr, content, h1, h2, h3⟩
    · rw [h]
      cases c with
      | get => exact Or.inl rfl
      | put n s o crash =>
        cases crash with
        | none =>
          simp only [storeStep, csvPut]
          split_ifs with hc
          · exact Or.inl rfl
          · exact Or.inr ⟨n, s, o, none, _, by simp, rfl, List.prefix_refl _⟩
        | some k =>
          simp only [storeStep]
          split_ifs with hc
          · exact Or.inl rfl
          · refine Or.inr ⟨n, s, o, some k, _, by simp, rfl, ?_⟩
            rw [cutAt_flatten]; exact List.take_prefix _ _
    · exact Or.inr ⟨n, s, o, cr, content, by simp [h1], h2, h3⟩

/-- **C316** (read back) Whatever happened to the file before, crashes included, once a `put` with `overwrite` completes,
and as long as the later calls do not overwrite, `get` gives back the series put: same timestamps, labels, values and
data indexes. -/
theorem C316_read_back_partial (cd : Codec) (cal : Calendar) (detect : List ℚ → Except PyErr ℚ) (fuel : ℕ) (n : Notes)
    (l : List Item) (s : TSeries) (hs : TSeries.build l = .ok s) (hst : Storable l)
    (hpts : ∀ x ∈ l, x.slot = none) (hsp : l.Pairwise (fun a b => a.t + 1 / 10000 ≤ b.t)) (cf : CsvConf) (st : CsvState)
    (hrs : ReadSettings cf st) (file : Option (List Text)) (before after : List StoreCall)
    (hafter : ∀ c ∈ after, c.replaces = false) :
    ∃ content r st', storeRun cd file (before ++ .put n s true none :: after) = some content ∧
      csvGet cd cal detect fuel cf st { forcePoints := true } content = .ok (r, st') ∧
      List.Forall₂ (fun x y => SameStored cf.tz x y ∧ y.slot = none) l r.items := by
  obtain ⟨content, r, st', h1, h2, h3⟩ := C50_points_round_trip cd cal detect fuel n l s hs hst hpts hsp cf st hrs
    { forcePoints := true } ⟨rfl, rfl, rfl⟩ (Or.inl rfl) (storeRun cd file before) true (Or.inr rfl)
  refine ⟨content, r, st', ?_, h2, h3⟩
  unfold storeRun
  rw [List.foldl_append, List.foldl_cons]
  have : storeStep cd (List.foldl (storeStep cd) file before) (.put n s true none) = some content := by
    show (csvPut cd n s true (storeRun cd file before)).1 = _
    rw [h1]
  rw [this]
  exact C316_kept cd content after hafter

/-- a series whose last value, 5/12, is written with several characters -/
def crashSeries : TSeries :=
  (TSeries.build [mkPoint 0 (.dict [("a", 1)]) "UTC" [], mkPoint 60 (.dict [("a", 5/12)]) "UTC" []]).toOption.getD TSeries.empty

def crashFile : Option (List Text) :=
  storeRun sampleCodec none [.put notesOf crashSeries false (some 50)]

/-- **C316** is false with a crash: a `put` interrupted in the middle of a number leaves a file which is read without
any error and with another value: here the last one is 5 instead of 5/12. -/
theorem C316_wrong_value_after_a_crash_false :
    crashSeries.items.map (fun x => x.value? "a") = [some 1, some (5/12)] ∧
    ((csvGet sampleCodec physicalCalendar (fun _ => .ok 60) 10 {} {} { forcePoints := true } (crashFile.getD [])).toOption.map
      (fun r => r.1.items.map (fun x => (x.t, x.value? "a")))) = some [(0, some 1), (60, some 5)] := by
  decide +kernel

/-- **C316** is false with a crash: the series put before is lost as well, since the file is emptied first. -/
theorem C316_crash_loses_the_old_series_false (cd : Codec) (n : Notes) (s : TSeries) (content : List Text) :
    ∃ left : List Text, storeRun cd (some content) [.put n s true (some 0)] = some left ∧ left.flatten = [] :=
  ⟨cutAt 0 (putLines cd n s).1, by simp [storeRun, storeStep], by rw [cutAt_flatten]; rfl⟩

/-! ## C317 -/

theorem labelsOfItems_take (l : List Item) (k : ℕ) : labelsOfItems (l.take (k + 1)) = labelsOfItems l := by
  cases l <;> rfl

theorem Storable.take {l : List Item} (h : Storable l) (k : ℕ) : Storable (l.take (k + 1)) := by
  have hm : ∀ x ∈ l.take (k + 1), x ∈ l := fun x hx => List.mem_of_mem_take hx
  refine ⟨?_, fun x hx => h.dict x (hm x hx), fun x hx => h.labels x (hm x hx), fun x hx y hy => h.same x (hm x hx) y (hm y hy),
    fun x hx => h.idx x (hm x hx), fun x hx y hy => h.sameIdx x (hm x hx) y (hm y hy)⟩
  have := h.nonempty
  cases l <;> simp_all

theorem allDataIndexes_take {l : List Item} (h : Storable l) (k : ℕ) : allDataIndexes (l.take (k + 1)) = allDataIndexes l := by
  have hm : ∀ n, n ∈ allDataIndexNames (l.take (k + 1)) ↔ n ∈ allDataIndexNames l := by
    intro n
    rw [mem_allNames, mem_allNames]
    constructor
    · rintro ⟨x, hx, hn⟩; exact ⟨x, List.mem_of_mem_take hx, hn⟩
    · rintro ⟨x, hx, hn⟩
      cases hl : l with
      | nil => exact absurd hl h.nonempty
      | cons y r => exact ⟨y, by simp, (h.sameIdx x hx y (by simp [hl]) n).1 hn⟩
  have hp : (allDataIndexNames (l.take (k + 1))).Perm (allDataIndexNames l) :=
    (List.perm_ext_iff_of_nodup (nodup_allNames _) (nodup_allNames _)).2 hm
  unfold allDataIndexes
  dsimp only
  rw [sortStr_congr (hp.filter _)]
  congr 1
  apply List.filter_congr
  intro x _
  rw [Bool.eq_iff_iff]
  simp [hm x]

theorem bodyLines_take {l : List Item} (cd : Codec) (h : Storable l) (k : ℕ) :
    bodyLines cd (l.take (k + 1)) = (bodyLines cd l).take (k + 1) := by
  unfold bodyLines
  rw [labelsOfItems_take, allDataIndexes_take h, List.map_take]

/-- **C317** is false in full generality: a `put` interrupted after the line of any item, but the last, leaves a file
which `get` reads without any error, as a series with only the items written up to then. -/
theorem C317_cut_after_a_line_false (cd : Codec) (cal : Calendar) (detect : List ℚ → Except PyErr ℚ) (fuel : ℕ) (n : Notes)
    (l : List Item) (s : TSeries) (hs : TSeries.build l = .ok s) (hst : Storable l)
    (hpts : ∀ x ∈ l, x.slot = none) (hsp : l.Pairwise (fun a b => a.t + 1 / 10000 ≤ b.t)) (cf : CsvConf) (st : CsvState)
    (hrs : ReadSettings cf st) (file : Option (List Text)) (before : List StoreCall) (k : ℕ) :
    ∃ crash content r st', storeRun cd file (before ++ [.put n s true (some crash)]) = some content ∧
      csvGet cd cal detect fuel cf st { forcePoints := true } content = .ok (r, st') ∧
      List.Forall₂ (fun x y => SameStored cf.tz x y ∧ y.slot = none) (l.take (k + 1)) r.items := by
  obtain ⟨s', hs'⟩ := build_prefix (l₁ := l.take (k + 1)) (l₂ := l.drop (k + 1)) (by rw [List.take_append_drop]; exact hs)
  obtain ⟨content, r, st', h1, h2, h3⟩ := C50_points_round_trip cd cal detect fuel n (l.take (k + 1)) s' hs' (hst.take k)
    (fun x hx => hpts x (List.mem_of_mem_take hx)) (hsp.sublist (List.take_sublist _ _)) cf st hrs
    { forcePoints := true } ⟨rfl, rfl, rfl⟩ (Or.inl rfl) none true (Or.inr rfl)
  have hc : content = noteLines n ++ headLine l :: (bodyLines cd l).take (k + 1) := by
    unfold csvPut at h1
    rw [if_neg (by simp), putLines_ok cd n (hst.take k) s' hs'] at h1
    simp only [Prod.mk.injEq, Option.some.injEq] at h1
    rw [← h1.1, bodyLines_take cd hst]
    unfold headLine
    rw [labelsOfItems_take, allDataIndexes_take hst]
  refine ⟨content.flatten.length, content, r, st', ?_, h2, h3⟩
  unfold storeRun
  rw [List.foldl_append]
  simp only [List.foldl_cons, List.foldl_nil, storeStep]
  rw [if_neg (by simp), putLines_ok cd n hst s hs]
  have : noteLines n ++ headLine l :: bodyLines cd l = content ++ (bodyLines cd l).drop (k + 1) := by
    rw [hc]; simp
  simp only [this]
  rw [cutAt_lines]
  intro x hx
  have := List.mem_of_mem_drop hx
  unfold bodyLines at this
  obtain ⟨y, _, rfl⟩ := List.mem_map.1 this
  simp

/-- hypotheses met -/
example : ∃ s, TSeries.build storedItems = .ok s ∧ Storable storedItems ∧ (∀ x ∈ storedItems, x.slot = none) ∧
    storedItems.Pairwise (fun a b => a.t + 1 / 10000 ≤ b.t) ∧ ReadSettings {} {} := by
  refine ⟨((TSeries.build storedItems).toOption.getD TSeries.empty), ?_, storable_example, by decide, by decide +kernel,
    ⟨rfl, by decide, by decide, rfl, Or.inl rfl, Or.inl rfl, Or.inl rfl⟩⟩
  have : (TSeries.build storedItems).toOption.isSome := by decide +kernel
  cases h : TSeries.build storedItems with
  | ok s => rfl
  | error e => rw [h] at this; cases this

/-- a whole history: a crash, a put refused, a put, a put refused, with the file of the completed one at the end -/
example : storeRun sampleCodec none [.put notesOf crashSeries false (some 10), .put notesOf crashSeries false none, .get] ≠
      storeRun sampleCodec none [.put notesOf crashSeries true none] ∧
    storeRun sampleCodec none [.put notesOf crashSeries false (some 10), .put notesOf crashSeries true none,
      .put notesOf TSeries.empty false none, .get] = storeRun sampleCodec none [.put notesOf crashSeries true none] := by
  decide +kernel

end Timeseria
