import Verif.Lemmas.SeriesInv

/-! Resolution bookkeeping, data kinds, units: series built by accepted appends. -/

namespace Timeseria
open TSeries

/-! ### spacings -/

theorem spacings_snoc (l : List ℚ) (a x : ℚ) :
    spacings (l ++ [a] ++ [x]) = spacings (l ++ [a]) ++ [x - a] := by
  induction l with
  | nil => simp [spacings]
  | cons b r ih =>
    cases r with
    | nil => simp [spacings]
    | cons c r' =>
      simp only [List.cons_append, spacings] at ih ⊢
      rw [ih]

theorem spacings_snoc' {l : List ℚ} {a x : ℚ} (h : l.getLast? = some a) :
    spacings (l ++ [x]) = spacings l ++ [x - a] := by
  obtain ⟨l', rfl⟩ : ∃ l', l = l' ++ [a] := by
    rw [List.getLast?_eq_some_iff] at h; exact h
  exact spacings_snoc l' a x

/-- what the resolution should be for given spacings -/
def specRes (sp : List ℚ) : Res :=
  match sp with
  | [] => .unset
  | d :: ds => if ∀ x ∈ ds, x = d then
      (match spacingUnit d with | some u => .unit u | none => .unset) else .varying

def specResS (sp : List ℚ) : Option ℚ :=
  match sp with
  | [] => none
  | d :: ds => if ∀ x ∈ ds, x = d then some d else none

theorem specRes_uniform {d : ℚ} {ds : List ℚ} {u : TUnit} (h : ∀ z ∈ ds, z = d)
    (hu : spacingUnit d = some u) : specRes (d :: ds) = .unit u := by
  simp only [specRes]; rw [if_pos h, hu]

theorem specRes_variable {d : ℚ} {ds : List ℚ} (h : ¬ ∀ z ∈ ds, z = d) :
    specRes (d :: ds) = .varying := by
  simp only [specRes]; rw [if_neg h]

theorem specResS_uniform {d : ℚ} {ds : List ℚ} (h : ∀ z ∈ ds, z = d) :
    specResS (d :: ds) = some d := by
  simp only [specResS]; rw [if_pos h]

theorem specResS_variable {d : ℚ} {ds : List ℚ} (h : ¬ ∀ z ∈ ds, z = d) :
    specResS (d :: ds) = none := by
  simp only [specResS]; rw [if_neg h]

structure Clean (s : TSeries) : Prop where
  prev : s.prevT = s.items.getLast?.map Item.t
  res : s.res = specRes (spacings (times s.items))
  resS : s.resS = specResS (spacings (times s.items))
  tz : s.tz = none
  conv : ∀ d ds, spacings (times s.items) = d :: ds → ∃ u, spacingUnit d = some u

theorem clean_empty : Clean TSeries.empty := by
  constructor <;> simp [TSeries.empty, times, spacings, specRes, specResS]

theorem times_append (l : List Item) (x : Item) : times (l ++ [x]) = times l ++ [x.t] := by
  simp [times]

theorem times_getLast? (l : List Item) : (times l).getLast? = l.getLast?.map Item.t := by
  simp [times, List.getLast?_map]

/-- what an accepted append of a point does to a clean series -/
theorem clean_append {s s' : TSeries} {x : Item} (hc : Clean s) (hx : x.isSlot = false)
    (h : s.append x = (s', .ok ())) :
    Clean s' ∧ s'.items = s.items ++ [x] := by
  have hok : (s.append x).2 = .ok () := by rw [h]
  have hst := append_state_ok s x hok
  have h12 := (append_ok_iff s x).1 hok
  have hpre : s.pre x = s.prePoint x := by simp [TSeries.pre, hx]
  rw [hpre] at hst h12
  rcases baseAppend_spec (s.prePoint x).1 x with ⟨e', h1, _⟩ | ⟨_, hb, _, _, _⟩
  · rw [h12.2] at h1; cases h1
  rw [hb] at hst
  have hs' : s' = (s.append x).1 := by rw [h]
  have hitems : s'.items = s.items ++ [x] := by rw [hs', hst]; simp [prePoint_items]
  have hprev : s'.prevT = (s.prePoint x).1.prevT := by rw [hs', hst]
  have hres : s'.res = (s.prePoint x).1.res := by rw [hs', hst]
  have hresS : s'.resS = (s.prePoint x).1.resS := by rw [hs', hst]
  have htz : s'.tz = (s.prePoint x).1.tz := by rw [hs', hst]
  rw [prePoint_tz] at htz
  refine ⟨?_, hitems⟩
  have hp : (s.prePoint x).1.prevT = some x.t := by
    unfold TSeries.prePoint; simp only; repeat' split
    all_goals rfl
  have key : (s.prePoint x).1.res = specRes (spacings (times (s.items ++ [x]))) ∧
      (s.prePoint x).1.resS = specResS (spacings (times (s.items ++ [x]))) ∧
      ∀ d ds, spacings (times (s.items ++ [x])) = d :: ds → ∃ u, spacingUnit d = some u := by
    cases hl : s.items.getLast? with
    | none =>
      have hnil : s.items = [] := by simpa using hl
      have hpn : s.prevT = none := by rw [hc.prev, hl]; rfl
      have hr := hc.res
      have hrs := hc.resS
      rw [hnil] at hr hrs
      unfold TSeries.prePoint
      simp only [hpn, hnil, List.nil_append]
      refine ⟨by rw [hr]; rfl, by rw [hrs]; rfl, ?_⟩
      intro d ds hd; simp [times, spacings] at hd
    | some y =>
      have hpy : s.prevT = some y.t := by rw [hc.prev, hl]; rfl
      have hne : s.items.isEmpty = false := by
        cases hi : s.items with
        | nil => simp [hi] at hl
        | cons => rfl
      have hsp : spacings (times (s.items ++ [x])) = spacings (times s.items) ++ [x.t - y.t] := by
        rw [times_append]; apply spacings_snoc'; rw [times_getLast?, hl]; rfl
      rw [hsp]
      have hok1 := h12.1
      unfold TSeries.prePoint at hok1 ⊢
      simp only [hpy, hne, Bool.false_eq_true, if_false] at hok1 ⊢
      by_cases hlt : x.t < y.t
      · simp [hlt] at hok1
      by_cases heq : x.t = y.t
      · simp [heq] at hok1
      simp only [hlt, heq, if_false] at hok1 ⊢
      have hr := hc.res
      have hrs := hc.resS
      cases hspc : spacings (times s.items) with
      | nil =>
        rw [hspc] at hr hrs
        simp only [specRes] at hr
        simp only [hr] at hok1 ⊢
        cases hu : spacingUnit (x.t - y.t) with
        | none => simp [hu] at hok1
        | some u =>
          simp [specRes, specResS, hu]
      | cons d ds =>
        rw [hspc] at hr hrs
        obtain ⟨u, hu⟩ := hc.conv d ds hspc
        have hconv : ∀ d' ds', d :: ds ++ [x.t - y.t] = d' :: ds' → ∃ u, spacingUnit d' = some u := by
          intro d' ds' h'; simp at h'; rw [← h'.1]; exact ⟨u, hu⟩
        by_cases hun : ∀ z ∈ ds, z = d
        · rw [specRes_uniform hun hu] at hr
          rw [specResS_uniform hun] at hrs
          by_cases hd : d = x.t - y.t
          · have hall : ∀ z ∈ ds ++ [x.t - y.t], z = d := by
              intro z hz; simp at hz; rcases hz with hz | hz
              · exact hun z hz
              · rw [hz, hd]
            rw [List.cons_append, specRes_uniform hall hu, specResS_uniform hall]
            refine ⟨?_, ?_, hconv⟩ <;> simp [hr, hrs, hd]
          · have hnall : ¬ ∀ z ∈ ds ++ [x.t - y.t], z = d := by
              intro hh; exact hd (hh (x.t - y.t) (by simp)).symm
            rw [List.cons_append, specRes_variable hnall, specResS_variable hnall]
            refine ⟨?_, ?_, hconv⟩ <;> simp [hr, hrs, hd]
        · rw [specRes_variable hun] at hr
          rw [specResS_variable hun] at hrs
          have hnall : ¬ ∀ z ∈ ds ++ [x.t - y.t], z = d := by
            intro hh; exact hun (fun z hz => hh z (by simp [hz]))
          rw [List.cons_append, specRes_variable hnall, specResS_variable hnall]
          refine ⟨?_, ?_, hconv⟩ <;> simp [hr, hrs]
  exact {
    prev := by rw [hprev, hp, hitems]; simp
    res := by rw [hres, hitems]; exact key.1
    resS := by rw [hresS, hitems]; exact key.2.1
    tz := by rw [htz]; exact hc.tz
    conv := by rw [hitems]; exact key.2.2 }

theorem build_clean {l : List Item} {s : TSeries} (hp : AllPoints l)
    (h : TSeries.build l = .ok s) : Clean s := by
  induction l using List.reverseRecOn generalizing s with
  | nil =>
    rw [build_ok_iff] at h
    simp [TSeries.appendAll] at h
    rw [← h]; exact clean_empty
  | append_singleton l x ih =>
    obtain ⟨s₀, h0, h1⟩ := build_snoc h
    exact (clean_append (ih (fun y hy => hp y (by simp [hy])) h0) (hp x (by simp)) h1).1

/-! ### data kinds -/

theorem sameKeys_iff {α β : Type} (a : Dict α) (b : Dict β) :
    Dict.sameKeys a b = true ↔ ∀ k, k ∈ a.keys ↔ k ∈ b.keys := by
  unfold Dict.sameKeys
  simp only [Bool.and_eq_true, List.all_eq_true, List.contains_iff_mem]
  constructor
  · rintro ⟨h1, h2⟩ k; exact ⟨h1 k, h2 k⟩
  · intro h; exact ⟨fun k hk => (h k).1 hk, fun k hk => (h k).2 hk⟩

theorem checkData_iff (r : Data) (x : Item) :
    checkData r x = .ok () ↔ ∃ d, x.data = some d ∧ SameKind r d := by
  unfold checkData
  cases x.data with
  | none => simp
  | some d =>
    cases r <;> cases d <;> simp [SameKind, sameKeys_iff]

theorem SameKind.symm {a b : Data} (h : SameKind a b) : SameKind b a := by
  cases a <;> cases b <;> simp_all [SameKind]

theorem SameKind.trans {a b c : Data} (h : SameKind a b) (h' : SameKind b c) : SameKind a c := by
  cases a <;> cases b <;> cases c <;> simp_all [SameKind]

theorem SameKind.refl (a : Data) : SameKind a a := by cases a <;> simp [SameKind]

/-- the item has data, and the data is not falsy -/
def HasData (x : Item) : Prop := ∃ d, x.data = some d ∧ d.truthy = true

structure DataInv (s : TSeries) : Prop where
  has : ∀ x ∈ s.items, HasData x
  ref : s.items ≠ [] → ∃ r, s.ref = some r ∧ r.truthy = true ∧
    ∀ x ∈ s.items, ∀ d, x.data = some d → SameKind r d

theorem data_append (s : TSeries) (x : Item) (hx : HasData x) (h : DataInv s) :
    DataInv (s.append x).1 := by
  rcases append_items s x with ⟨e, _, hi, hr⟩ | ⟨_, hi, _, _, hd⟩
  · exact ⟨by rw [hi]; exact h.has, by rw [hi, hr]; exact h.ref⟩
  · obtain ⟨d, hd1, hd2⟩ := hx
    refine ⟨?_, ?_⟩
    · rw [hi]; intro y hy; simp at hy
      rcases hy with hy | rfl
      · exact h.has y hy
      · exact ⟨d, hd1, hd2⟩
    · intro _
      rcases hd with ⟨hnil, href⟩ | ⟨hne, ht, hf⟩
      · refine ⟨d, by rw [href, hd1], hd2, ?_⟩
        rw [hi, hnil]; intro y hy d' hd'
        simp at hy; subst hy; rw [hd1] at hd'; injection hd' with hd'; subst hd'
        exact SameKind.refl _
      · obtain ⟨r, hr1, hr2, hr3⟩ := h.ref hne
        obtain ⟨hck, href⟩ := ht r hr1 hr2
        refine ⟨r, by rw [href, hr1], hr2, ?_⟩
        rw [hi]; intro y hy d' hd'
        simp at hy
        rcases hy with hy | rfl
        · exact hr3 y hy d' hd'
        · obtain ⟨d'', h1, h2⟩ := (checkData_iff r y).1 hck
          rw [hd'] at h1; injection h1 with h1; subst h1; exact h2

theorem data_sub {s s' : TSeries} (h : DataInv s) (hs : ∀ x ∈ s'.items, x ∈ s.items)
    (hr : s'.ref = s.ref) : DataInv s' := by
  refine ⟨fun x hx => h.has x (hs x hx), fun hne => ?_⟩
  have : s.items ≠ [] := by
    intro h0
    cases hi : s'.items with
    | nil => exact hne hi
    | cons a r => have := hs a (by rw [hi]; simp); rw [h0] at this; simp at this
  obtain ⟨r, h1, h2, h3⟩ := h.ref this
  exact ⟨r, by rw [hr, h1], h2, fun x hx => h3 x (hs x hx)⟩

theorem appendAll_dataInv (s : TSeries) (l : List Item) (hl : ∀ x ∈ l, HasData x) (h : DataInv s) :
    DataInv (s.appendAll l).1 := by
  induction l generalizing s with
  | nil => exact h
  | cons x r ih =>
    unfold TSeries.appendAll
    split
    · exact data_append s x (hl x (by simp)) h
    · exact ih _ (fun y hy => hl y (by simp [hy])) (data_append s x (hl x (by simp)) h)

theorem remove_ref (s : TSeries) (x : Item) : (s.remove x).1.ref = s.ref := by
  unfold TSeries.remove; repeat' split
  all_goals rfl

theorem pop_ref (s : TSeries) (i : Option Int) : (s.pop i).1.ref = s.ref := by
  unfold TSeries.pop; simp only; repeat' split
  all_goals rfl

/-! ### sufficient conditions for a list of points to be accepted -/

/-- a list of points with data that a series accepts: spacing of at least 0.1 ms, data not falsy
and all of the same kind -/
structure GoodPoints (l : List Item) : Prop where
  points : AllPoints l
  spaced : l.Pairwise (fun a b => a.t + 1 / 10000 ≤ b.t)
  has : ∀ x ∈ l, HasData x
  same : ∀ x ∈ l, ∀ y ∈ l, ∀ d e, x.data = some d → y.data = some e → SameKind d e

theorem GoodPoints.sublist {l l' : List Item} (h : GoodPoints l) (hs : l'.Sublist l) :
    GoodPoints l' :=
  ⟨fun x hx => h.points x (hs.subset hx), h.spaced.sublist hs, fun x hx => h.has x (hs.subset hx),
   fun x hx y hy => h.same x (hs.subset hx) y (hs.subset hy)⟩

theorem GoodPoints.ordered {l : List Item} (h : GoodPoints l) : StrictlyOrdered l :=
  h.spaced.imp (fun {a b} hab => by linarith)

theorem isInstance_of {x f : Item} (hx : x.isSlot = false) (hf : f.isSlot = false)
    (hd : x.data.isSome = true) : x.isInstance f.cls = true := by
  unfold Item.isInstance Item.cls
  cases hfd : f.data.isSome <;> simp [hx, hf, hd]

/-- acceptance of one more good point by a clean series -/
theorem accept_point {s : TSeries} {x : Item} (hc : Clean s) (hdi : DataInv s)
    (hg : GoodPoints (s.items ++ [x])) : ∃ s', s.append x = (s', .ok ()) := by
  have hx : x.isSlot = false := hg.points x (by simp)
  have hpre : s.pre x = s.prePoint x := by simp [TSeries.pre, hx]
  suffices (s.append x).2 = .ok () from ⟨(s.append x).1, Prod.ext rfl this⟩
  rw [append_ok_iff, hpre]
  have hdx := hg.has x (by simp)
  obtain ⟨d, hd1, hd2⟩ := hdx
  have hgap : ∀ y, s.items.getLast? = some y → y.t + 1 / 10000 ≤ x.t := by
    intro y hy
    have h := hg.spaced
    rw [List.pairwise_append] at h
    exact h.2.2 y (List.mem_of_getLast? hy) x (by simp)
  constructor
  · unfold TSeries.prePoint
    rw [hc.prev]
    cases hl : s.items.getLast? with
    | none => simp
    | some y =>
      have hg' := hgap y hl
      have hne : s.items.isEmpty = false := by
        cases hi : s.items with
        | nil => simp [hi] at hl
        | cons => rfl
      have h1 : ¬ x.t < y.t := by linarith
      have h2 : ¬ x.t = y.t := by intro h; linarith
      simp only [Option.map_some, hne, Bool.false_eq_true, if_false, h1, h2]
      have hr := hc.res
      have hrs := hc.resS
      cases hres : s.res with
      | unset =>
        obtain ⟨u, hu⟩ := spacingUnit_isSome (d := x.t - y.t) (by linarith)
        simp [hu]
      | varying => rfl
      | unit u =>
        simp only
        rw [hres] at hr
        cases hsp : spacings (times s.items) with
        | nil => rw [hsp] at hr; simp [specRes] at hr
        | cons a as =>
          rw [hsp] at hr hrs
          simp only [specRes] at hr
          by_cases hun : ∀ z ∈ as, z = a
          · rw [specResS_uniform hun] at hrs
            rw [hrs]; simp only; split <;> rfl
          · rw [if_neg hun] at hr; cases hr
  · unfold TSeries.baseAppend
    rw [prePoint_items, prePoint_ref]
    cases hi : s.items with
    | nil => simp
    | cons f r =>
      obtain ⟨y, hy⟩ : ∃ y, (f :: r).getLast? = some y := by
        cases h : (f :: r).getLast? with
        | none => simp at h
        | some y => exact ⟨y, rfl⟩
      have hf : f.isSlot = false := hg.points f (by rw [hi]; simp)
      have hins := isInstance_of hx hf (by rw [hd1]; rfl)
      have hg' := hgap y (by rw [hi]; exact hy)
      have hgt : x.t > y.t := by linarith
      simp only [List.head?_cons, hy, hins, Bool.not_true, Bool.false_eq_true, if_false, hx, hgt,
        decide_true]
      obtain ⟨q, hq1, hq2, hq3⟩ := hdi.ref (by rw [hi]; simp)
      rw [hq1]
      simp only [hq2, if_true]
      obtain ⟨df, hdf, _⟩ := hdi.has f (by rw [hi]; simp)
      have hqf := hq3 f (by rw [hi]; simp) df hdf
      have hfx := hg.same f (by rw [hi]; simp) x (by simp) df d hdf hd1
      have hck : checkData q x = .ok () := (checkData_iff q x).2 ⟨d, hd1, hqf.trans hfx⟩
      rw [hck]

theorem dataInv_empty : DataInv TSeries.empty := by
  constructor <;> simp [TSeries.empty]

theorem build_dataInv {l : List Item} {s : TSeries} (hl : ∀ x ∈ l, HasData x)
    (h : TSeries.build l = .ok s) : DataInv s := by
  rw [build_ok_iff] at h
  have := appendAll_dataInv TSeries.empty l hl dataInv_empty
  rw [h] at this; exact this

/-- Good points are always accepted. -/
theorem build_good {l : List Item} (hg : GoodPoints l) :
    ∃ s, TSeries.build l = .ok s ∧ s.items = l ∧ Clean s := by
  induction l using List.reverseRecOn with
  | nil => exact ⟨TSeries.empty, rfl, rfl, clean_empty⟩
  | append_singleton l x ih =>
    obtain ⟨s₀, h0, hi, hc⟩ := ih (hg.sublist (List.sublist_append_left _ _))
    have hdi := build_dataInv (fun y hy => hg.has y (by simp [hy])) h0
    obtain ⟨s, hs⟩ := accept_point (s := s₀) (x := x) hc hdi (by rw [hi]; exact hg)
    have := clean_append hc (hg.points x (by simp)) hs
    exact ⟨s, build_snoc_of h0 hs, by rw [this.2, hi], this.1⟩

/-! ### slots: unit and time zone -/

structure SlotInv (s : TSeries) : Prop where
  slots : AllSlots s.items
  novar : s.res ≠ .varying
  noUnit : s.items ≠ [] → ∃ u z, s.res = .unit u ∧ s.tz = some z ∧
    ∀ x ∈ s.items, x.unit = u ∧ x.tz = z

/-- an accepted first half for a slot fixes unit and time zone -/
theorem preSlot_spec (s : TSeries) (x : Item) (h : SlotInv s) :
    SlotInv (s.preSlot x).1 ∧ ((s.preSlot x).2 = .ok () →
      (s.preSlot x).1.res = .unit x.unit ∧ (s.preSlot x).1.tz = some x.tz) := by
  have hit := preSlot_items s x
  by_cases hne : s.items = []
  · have triv : ∀ s' : TSeries, s'.items = [] → s'.res ≠ .varying → SlotInv s' := by
      intro s' h1 h2
      exact ⟨by rw [h1]; intro y hy; simp at hy, h2, fun h3 => absurd h1 h3⟩
    unfold TSeries.preSlot
    have hg : s.getTz = s.tz := by
      unfold TSeries.getTz; cases s.tz <;> simp [hne, detectTz]
    rw [hg]
    cases htz : s.tz with
    | none =>
      simp only
      cases hr : s.res with
      | unset => exact ⟨triv _ hne (by simp), fun _ => ⟨rfl, rfl⟩⟩
      | varying => exact absurd hr h.novar
      | unit u =>
        simp only
        split
        · exact ⟨triv _ hne (by simp), fun h => by cases h⟩
        · rename_i hu
          have hu : u = x.unit := by simpa using hu
          exact ⟨triv _ hne (by simp), fun _ => ⟨by simp [hu], rfl⟩⟩
    | some z =>
      simp only
      split
      · exact ⟨triv _ hne h.novar, fun h => by cases h⟩
      · rename_i hz
        have hz : z = x.tz := by simpa using hz
        cases hr : s.res with
        | unset => exact ⟨triv _ hne (by simp), fun _ => ⟨rfl, by simp [htz, hz]⟩⟩
        | varying => exact absurd hr h.novar
        | unit u =>
          simp only
          split
          · exact ⟨triv _ hne h.novar, fun h => by cases h⟩
          · rename_i hu
            have hu : u = x.unit := by simpa using hu
            exact ⟨triv _ hne h.novar, fun _ => ⟨by simp [hr, hu], by simp [htz, hz]⟩⟩
  · obtain ⟨u, z, h1, h2, h3⟩ := h.noUnit hne
    have hg : s.getTz = some z := by unfold TSeries.getTz; rw [h2]
    have hu : s.preSlot x = if z ≠ x.tz then (s, .error .valueError) else
        if u ≠ x.unit then (s, .error .valueError) else (s, .ok ()) := by
      unfold TSeries.preSlot
      simp only [hg, h2, h1]
    rw [hu]
    split
    · exact ⟨h, fun h => by cases h⟩
    · rename_i hz
      split
      · exact ⟨h, fun h => by cases h⟩
      · rename_i hu
        have hz : z = x.tz := by simpa using hz
        have hu : u = x.unit := by simpa using hu
        exact ⟨h, fun _ => ⟨by rw [h1, hu], by rw [h2, hz]⟩⟩

theorem slot_append (s : TSeries) (x : Item) (hx : x.isSlot = true) (h : SlotInv s) :
    SlotInv (s.append x).1 := by
  have hpre : s.pre x = s.preSlot x := by simp [TSeries.pre, hx]
  obtain ⟨hinv, hok⟩ := preSlot_spec s x h
  rcases outcome_cases (s.append x).2 with ho | ⟨e, ho⟩
  · have hst := append_state_ok s x ho
    have h12 := (append_ok_iff s x).1 ho
    rw [hpre] at hst h12
    obtain ⟨hr, ht⟩ := hok h12.1
    rcases baseAppend_spec (s.preSlot x).1 x with ⟨e', h1, _⟩ | ⟨_, hb, _, _, _⟩
    · rw [h12.2] at h1; cases h1
    rw [hb] at hst
    rw [hst]
    refine ⟨?_, ?_, ?_⟩
    · intro y hy
      simp at hy
      rcases hy with hy | rfl
      · exact hinv.slots y hy
      · exact hx
    · simp [hr]
    · intro _
      refine ⟨x.unit, x.tz, hr, ht, ?_⟩
      intro y hy
      simp at hy
      rcases hy with hy | rfl
      · have hne : (s.preSlot x).1.items ≠ [] := by intro h0; rw [h0] at hy; simp at hy
        obtain ⟨u, z, h1, h2, h3⟩ := hinv.noUnit hne
        rw [hr] at h1; rw [ht] at h2
        injection h1 with h1; injection h2 with h2
        rw [h1, h2]; exact h3 y hy
      · exact ⟨rfl, rfl⟩
  · rw [append_state_error s x ho, hpre]; exact hinv

theorem slot_sub {s s' : TSeries} (h : SlotInv s) (hs : ∀ x ∈ s'.items, x ∈ s.items)
    (hr : s'.res = s.res) (ht : s'.tz = s.tz) : SlotInv s' := by
  refine ⟨fun x hx => h.slots x (hs x hx), by rw [hr]; exact h.novar, fun hne => ?_⟩
  have : s.items ≠ [] := by
    intro h0
    cases hi : s'.items with
    | nil => exact hne hi
    | cons a r => have := hs a (by rw [hi]; simp); rw [h0] at this; simp at this
  obtain ⟨u, z, h1, h2, h3⟩ := h.noUnit this
  exact ⟨u, z, by rw [hr, h1], by rw [ht, h2], fun x hx => h3 x (hs x hx)⟩

theorem appendAll_slotInv (s : TSeries) (l : List Item) (hl : AllSlots l) (h : SlotInv s) :
    SlotInv (s.appendAll l).1 := by
  induction l generalizing s with
  | nil => exact h
  | cons x r ih =>
    unfold TSeries.appendAll
    split
    · exact slot_append s x (hl x (by simp)) h
    · exact ih _ (fun y hy => hl y (by simp [hy])) (slot_append s x (hl x (by simp)) h)

theorem remove_res_tz (s : TSeries) (x : Item) :
    (s.remove x).1.res = s.res ∧ (s.remove x).1.tz = s.tz := by
  unfold TSeries.remove; repeat' split
  all_goals exact ⟨rfl, rfl⟩

theorem pop_res_tz (s : TSeries) (i : Option Int) :
    (s.pop i).1.res = s.res ∧ (s.pop i).1.tz = s.tz := by
  unfold TSeries.pop; simp only; repeat' split
  all_goals exact ⟨rfl, rfl⟩

/-! ### duplicating -/

/-- same items and, unless empty, same data reference -/
def SameBase (a b : TSeries) : Prop := a.items = b.items ∧ (a.items ≠ [] → a.ref = b.ref)

theorem baseAppend_same {a b : TSeries} (h : SameBase a b) (x : Item)
    (hb : (b.baseAppend x).2 = .ok ()) :
    (a.baseAppend x).2 = .ok () ∧ SameBase (a.baseAppend x).1 (b.baseAppend x).1 ∧
      (a.baseAppend x).1 = { a with items := a.items ++ [x], ref := (a.baseAppend x).1.ref } := by
  obtain ⟨h1, h2⟩ := h
  have hout : (a.baseAppend x).2 = (b.baseAppend x).2 ∧
      (a.baseAppend x).1.ref = if (b.baseAppend x).2 = .ok () then (b.baseAppend x).1.ref
        else a.ref := by
    unfold TSeries.baseAppend
    rw [← h1]
    cases hi : a.items with
    | nil => simp
    | cons f r =>
      have h2' : a.ref = b.ref := h2 (by rw [hi]; simp)
      rw [← h2']
      obtain ⟨y, hy⟩ : ∃ y, (f :: r).getLast? = some y := by
        cases h : (f :: r).getLast? with
        | none => simp at h
        | some y => exact ⟨y, rfl⟩
      simp only [List.head?_cons, hy]
      by_cases c1 : (!x.isInstance f.cls) = true
      · simp only [c1, if_true]; simp
      simp only [c1, Bool.false_eq_true, if_false]
      by_cases c2 : (if x.isSlot = true then !slotSucceeds x y else !decide (x.t > y.t)) = true
      · simp only [c2, if_true]; simp
      simp only [c2, Bool.false_eq_true, if_false]
      cases hr : a.ref with
      | none => simp
      | some q =>
        simp only
        by_cases c3 : q.truthy = true
        · simp only [c3, if_true]
          cases checkData q x with
          | error e => simp [hr]
          | ok u => simp
        · simp only [c3]; simp
  rw [hb] at hout
  rw [if_pos rfl] at hout
  rcases baseAppend_spec a x with ⟨e, he, _⟩ | ⟨hok, ha, _⟩
  · rw [hout.1] at he; cases he
  rcases baseAppend_spec b x with ⟨e, he, _⟩ | ⟨_, hb', _⟩
  · rw [hb] at he; cases he
  refine ⟨hok, ⟨?_, fun _ => hout.2⟩, ha⟩
  rw [ha, hb']; simp [h1]

end Timeseria
