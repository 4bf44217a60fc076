import Verif.Model.PlotOutput
/-!
C323: a saved plot is in the file asked for, and no other file changes.
C324: a plot which cannot be saved leaves the existing file as it was.
C325: the script of a plot names every label and index.
C326: the labels of a plot have different colours.
-/
namespace Timeseria

theorem read_remove_self (fs : PlotFiles) (f : String) : (fs.remove f).read f = none := by
  unfold PlotFiles.read PlotFiles.remove
  rw [List.lookup_eq_none_iff]
  intro p hp
  simp only [List.mem_filter, ne_eq, decide_eq_true_eq] at hp
  simpa using fun e => hp.2 e.symm

theorem read_remove_other (fs : PlotFiles) (f g : String) (h : g ≠ f) : (fs.remove f).read g = fs.read g := by
  unfold PlotFiles.read PlotFiles.remove
  induction fs with
  | nil => rfl
  | cons p fs ih =>
    obtain ⟨k, v⟩ := p
    by_cases hk : k = f
    · rw [List.filter_cons_of_neg (by simpa using hk), ih, List.lookup_cons]
      have : (g == k) = false := by rw [hk]; simpa using h
      rw [this]
    · rw [List.filter_cons_of_pos (by simpa using hk), List.lookup_cons, List.lookup_cons, ih]

theorem read_write (fs : PlotFiles) (f c g : String) : (fs.write f c).read g = if g = f then some c else fs.read g := by
  unfold PlotFiles.write PlotFiles.read
  rw [List.lookup_cons]
  by_cases h : g = f
  · simp [h]
  · rw [show (g == f) = false by simpa using h, if_neg h]
    exact read_remove_other fs f g h

/-- two contents of the disk with the same files but for some names -/
def SameFiles (fs fs' : PlotFiles) (but : List String) : Prop := ∀ g, g ∉ but → fs'.read g = fs.read g

/-! ## C323 -/

/-- **C323** (interactive) saving an interactive plot writes its page in the file asked for, whether it exists or not, and changes no other file; if the file
cannot be written the call raises and nothing changes -/
theorem C323_interactive_partial (env : PlotEnv) (tmp : String × String) (n : ℕ) (hn : n ≠ 0) (p f : String) (fs : PlotFiles) :
    (env.canWrite f = true → ∃ fs', plotOut env tmp { saveTo := some f } n (.ok p) fs = (fs', .ok .nothing) ∧ fs'.read f = some p ∧ SameFiles fs fs' [f]) ∧
    (env.canWrite f = false → plotOut env tmp { saveTo := some f } n (.ok p) fs = (fs, .error .ioError)) := by
  constructor
  · intro h
    refine ⟨fs.write f p, ?_, by rw [read_write, if_pos rfl], ?_⟩
    · simp [plotOut, plotDest, hn, h]
    · intro g hg
      rw [read_write, if_neg (by simpa using hg)]
  · intro h
    simp [plotOut, plotDest, hn, h]

/-- **C323** (nothing asked for) a plot which is not saved and not an image writes nothing: its page is returned with `html=True` and displayed otherwise -/
theorem C323_not_saved_partial (env : PlotEnv) (tmp : String × String) (n : ℕ) (hn : n ≠ 0) (p : String) (fs : PlotFiles) :
    plotOut env tmp { html := true } n (.ok p) fs = (fs, .ok (.code p)) ∧ plotOut env tmp {} n (.ok p) fs = (fs, .ok (.displayed p)) := by
  constructor <;> simp [plotOut, plotDest, hn]

/-- **C323** (refused) options which cannot be together, an empty series and data which cannot be plotted raise before anything is written -/
theorem C323_refused_partial (env : PlotEnv) (tmp : String × String) (o : PlotOpts) (n : ℕ) (page : Except PyErr String) (fs : PlotFiles) :
    (o.html = true ∧ (o.image = true ∨ o.saveTo.isSome) → plotOut env tmp o n page fs = (fs, .error .valueError)) ∧
    (¬ (o.html = true ∧ (o.image = true ∨ o.saveTo.isSome)) → n = 0 → plotOut env tmp o n page fs = (fs, .error .exception)) ∧
    (¬ (o.html = true ∧ (o.image = true ∨ o.saveTo.isSome)) → n ≠ 0 → ∀ e, page = .error e → plotOut env tmp o n page fs = (fs, .error e)) := by
  obtain ⟨h, i, s⟩ := o
  refine ⟨?_, ?_, ?_⟩
  · rintro ⟨h1, h2⟩
    dsimp only at h1 h2
    subst h1
    cases i
    · rcases h2 with h2 | h2
      · cases h2
      · simp [plotOut, h2]
    · simp [plotOut]
  · intro h1 hn
    cases h <;> cases i <;> cases s <;> simp_all [plotOut]
  · rintro h1 hn e rfl
    cases h <;> cases i <;> cases s <;> simp_all [plotOut]

theorem probe_same (env : PlotEnv) (fs : PlotFiles) (f : String) : SameFiles fs (probe env fs f).1 [f] := by
  intro g hg
  have hg' : g ≠ f := by simpa using hg
  unfold probe
  dsimp only
  split_ifs <;> first | rfl | exact read_remove_other _ _ _ hg' | (rw [read_write, if_neg hg'])

theorem render_same (env : PlotEnv) (fs : PlotFiles) (f : String) : SameFiles fs (renderImage env fs f).1 [f] := by
  intro g hg
  have hg' : g ≠ f := by simpa using hg
  have hp := probe_same env fs f g hg
  unfold renderImage
  split_ifs
  · rfl
  · revert hp
    cases probe env fs f with
    | mk fs' r =>
      intro hp
      cases r with
      | error e => exact hp
      | ok _ =>
        dsimp only
        cases env.render with
        | none => exact hp
        | some img => dsimp only; rw [read_write, if_neg hg']; exact hp

/-- **C323** (images) saving an image, when it does not raise, writes what the browser gives in the file asked for; no other file changes but the page in the temporary directory.
Missing: that page stays there, see `C323_false`. -/
theorem C323_image_partial (env : PlotEnv) (tmp : String × String) (n : ℕ) (p f : String) (fs fs' : PlotFiles) (r : PlotRet)
    (h : plotOut env tmp { image := true, saveTo := some f } n (.ok p) fs = (fs', .ok r)) :
    r = .nothing ∧ (∃ img, env.render = some img ∧ fs'.read f = some img) ∧ SameFiles fs fs' [f, tmp.1] := by
  unfold plotOut at h
  simp only [Bool.false_and, Bool.false_eq_true, if_false, plotDest, Bool.true_or, Bool.not_true, Option.isSome_some, if_true] at h
  split at h
  · cases h
  · split at h
    · cases h
    · have hs := render_same env (fs.write tmp.1 p) f
      cases hr : renderImage env (fs.write tmp.1 p) f with
      | mk fs2 o =>
        rw [hr] at h hs
        cases o with
        | error e => cases h
        | ok _ =>
          cases h
          refine ⟨rfl, ?_, ?_⟩
          · unfold renderImage at hr
            split at hr
            · cases hr
            · split at hr
              · cases hr
              · split at hr
                · cases hr
                · rename_i img himg
                  cases hr
                  exact ⟨img, himg, by rw [read_write, if_pos rfl]⟩
          · intro g hg
            simp only [List.mem_cons, List.not_mem_nil, or_false, not_or] at hg
            rw [hs g (by simpa using hg.1), read_write, if_neg hg.2]

/-- the temporary names of the witnesses -/
def tmpNames : String × String := ("/tmp/1.html", "/tmp/1.png")

/-- **C323** is false: an image plot leaves its page in the temporary directory -/
theorem C323_false : (plotOut {} tmpNames { image := true, saveTo := some "plots/a.png" } 3 (.ok "page") []).1.read "/tmp/1.html" = some "page" ∧
    (plotOut {} tmpNames { image := true, saveTo := some "plots/a.png" } 3 (.ok "page") []).1.read "plots/a.png" = some "image" := by decide +kernel

/-! ## C324 -/

/-- **C324** (interactive) when saving an interactive plot raises, no file has changed -/
theorem C324_interactive_partial (env : PlotEnv) (tmp : String × String) (o : PlotOpts) (ho : o.image = false) (n : ℕ) (page : Except PyErr String) (fs fs' : PlotFiles) (e : PyErr)
    (h : plotOut env tmp o n page fs = (fs', .error e)) : fs' = fs := by
  obtain ⟨ht, i, s⟩ := o
  dsimp only at ho
  subst ho
  unfold plotOut at h
  cases s <;> simp only [plotDest] at h
  all_goals
    repeat' (split at h)
    all_goals first | rfl | (cases h; rfl) | cases h

/-- **C324** (no directory) when saving an image in the current directory raises, the earlier file is as it was -/
theorem C324_no_directory_partial (env : PlotEnv) (tmp : String × String) (n : ℕ) (page : Except PyErr String) (f : String) (hd : hasDir f = false) (ht : f ≠ tmp.1) (fs fs' : PlotFiles) (e : PyErr)
    (h : plotOut env tmp { image := true, saveTo := some f } n page fs = (fs', .error e)) : fs'.read f = fs.read f := by
  unfold plotOut at h
  simp only [Bool.false_and, Bool.false_eq_true, if_false, plotDest, Bool.true_or, Bool.not_true, Option.isSome_some, if_true] at h
  split at h
  · cases h; rfl
  · split at h
    · cases h; rfl
    · split at h
      · cases h; rfl
      · have hw : ((fs.write tmp.1 ‹String›).read f) = fs.read f := by rw [read_write, if_neg ht]
        unfold renderImage probe at h
        rw [hd] at h
        simp only [Bool.not_false, if_true] at h
        split at h
        · rename_i hr
          split at hr
          · cases hr; cases h; exact hw
          · split at hr
            · cases hr; cases h; exact hw
            · cases hr
        · cases h

/-- **C324** is false: an image which is already there is removed before the new one is made, and is lost if the browser fails; it is lost also when it is found that it cannot be written -/
theorem C324_false :
    (plotOut { render := none } tmpNames { image := true, saveTo := some "plots/a.png" } 3 (.ok "page") [("plots/a.png", "old")]).2 = .error .ioError ∧
    (plotOut { render := none } tmpNames { image := true, saveTo := some "plots/a.png" } 3 (.ok "page") [("plots/a.png", "old")]).1.read "plots/a.png" = none ∧
    (plotOut { canAppend := fun _ => false } tmpNames { image := true, saveTo := some "plots/a.png" } 3 (.ok "page") [("plots/a.png", "old")]).2 = .error .ioError ∧
    (plotOut { canAppend := fun _ => false } tmpNames { image := true, saveTo := some "plots/a.png" } 3 (.ok "page") [("plots/a.png", "old")]).1.read "plots/a.png" = none := by decide +kernel

/-- whatever happens, only the file asked for and the temporary page may change -/
theorem C324_other_files (env : PlotEnv) (tmp : String × String) (n : ℕ) (page : Except PyErr String) (f : String) (fs : PlotFiles) :
    SameFiles fs (plotOut env tmp { image := true, saveTo := some f } n page fs).1 [f, tmp.1] := by
  intro g hg
  simp only [List.mem_cons, List.not_mem_nil, or_false, not_or] at hg
  unfold plotOut
  simp only [Bool.false_and, Bool.false_eq_true, if_false, plotDest, Bool.true_or, Bool.not_true, Option.isSome_some, if_true]
  split
  · rfl
  · split
    · rfl
    · split
      · rfl
      · rename_i p _
        have hs := render_same env (fs.write tmp.1 p) f g (by simpa using hg.1)
        rw [read_write, if_neg hg.2] at hs
        cases hr : renderImage env (fs.write tmp.1 p) f with
        | mk fs2 o =>
          rw [hr] at hs
          cases o <;> exact hs

example : hasDir "a.png" = false ∧ hasDir "plots/a.png" = true ∧ hasDir "/a.png" = false := by decide +kernel

/-- an image in the current directory survives a browser which fails -/
example : (plotOut { render := none } tmpNames { image := true, saveTo := some "a.png" } 3 (.ok "page") [("a.png", "old")]).1.read "a.png" = some "old" := by decide +kernel

/-! ## C325 -/

/-- the characters which are special in a literal in single quotes -/
def Special (c : Char) : Prop := c = '\'' ∨ c = '\\' ∨ c = '\n' ∨ c = '\r'

theorem readLiteral_length : ∀ (l s rest : List Char), readLiteral l = some (s, rest) → s.length + 1 + rest.length ≤ l.length
  | [], s, rest, h => by cases h
  | [c], s, rest, h => by
    unfold readLiteral at h
    split_ifs at h
    · cases h; simp
    · simp [readLiteral] at h
  | c :: d :: r, s, rest, h => by
    unfold readLiteral at h
    split_ifs at h
    · cases h; simp; omega
    · dsimp only at h
      cases hr : readLiteral r with
      | none => rw [hr] at h; cases h
      | some p =>
        rw [hr] at h
        cases h
        have := readLiteral_length r p.1 p.2 hr
        simp only [List.length_cons] at *
        omega
    · cases hr : readLiteral (d :: r) with
      | none => rw [hr] at h; cases h
      | some p =>
        rw [hr] at h
        cases h
        have := readLiteral_length (d :: r) p.1 p.2 hr
        simp only [List.length_cons] at *
        omega

theorem readLiteral_plain (rest : List Char) : ∀ name : List Char, readLiteral (name ++ '\'' :: rest) = some (name, rest) ↔ ∀ c ∈ name, ¬ Special c
  | [] => by
    rw [List.nil_append, readLiteral.eq_def]
    simp
  | c :: name => by
    have ih := readLiteral_plain rest name
    rw [List.cons_append, readLiteral.eq_def]
    dsimp only
    by_cases h1 : c = '\''
    · rw [if_pos h1]
      constructor
      · intro h; cases h
      · intro h; exact absurd (Or.inl h1) (h c (by simp))
    rw [if_neg h1]
    by_cases h2 : c = '\n' ∨ c = '\r'
    · rw [if_pos h2]
      constructor
      · intro h; cases h
      · intro h; exact absurd (Or.inr (Or.inr h2)) (h c (by simp))
    rw [if_neg h2]
    by_cases h3 : c = '\\'
    · rw [if_pos h3]
      constructor
      · intro h
        exfalso
        cases name with
        | nil =>
          simp only [List.nil_append] at h
          cases hr : readLiteral rest with
          | none => rw [hr] at h; cases h
          | some p => rw [hr] at h; simp [h3] at h
        | cons d name =>
          simp only [List.cons_append] at h
          cases hr : readLiteral (name ++ '\'' :: rest) with
          | none => rw [hr] at h; cases h
          | some p =>
            have hl := readLiteral_length _ _ _ hr
            rw [hr] at h
            simp only [Option.some.injEq, Prod.mk.injEq, List.cons.injEq] at h
            rw [h.1.2, h.2] at hl
            simp only [List.length_append, List.length_cons] at hl
            omega
      · intro h; exact absurd (Or.inr (Or.inl h3)) (h c (by simp))
    · rw [if_neg h3]
      have hns : ¬ Special c := by
        unfold Special
        tauto
      constructor
      · intro h
        cases hr : readLiteral (name ++ '\'' :: rest) with
        | none => rw [hr] at h; cases h
        | some p =>
          rw [hr] at h
          simp only [Option.some.injEq, Prod.mk.injEq, List.cons.injEq, true_and] at h
          have := ih.1 (by rw [hr]; simp only [Option.some.injEq]; exact Prod.ext h.1 h.2)
          intro x hx
          rcases List.mem_cons.1 hx with rfl | hx
          · exact hns
          · exact this x hx
      · intro h
        rw [ih.2 (fun x hx => h x (by simp [hx]))]

/-- **C325** the name of a label or of an index in the script is read back, by itself, exactly when it has no quote, no backslash and no end of line.
Missing: the other names, see `C325_false`. -/
theorem C325_partial (name rest : List Char) : readName (scriptName name ++ rest) = some (name, rest) ↔ ∀ c ∈ name, ¬ Special c := by
  unfold scriptName
  rw [List.cons_append, List.append_assoc]
  exact readLiteral_plain rest name

/-- **C325** is false: the name of a label with an apostrophe ends at it, and the rest is read as script; with a final backslash it does not end at all -/
theorem C325_false : readName (scriptName "it's".toList ++ ": {".toList) = some ("it".toList, "s': {".toList) ∧
    readName (scriptName "a\\".toList ++ ": {".toList) = none := by decide +kernel

example : readName (scriptName "temperature".toList ++ ": {".toList) = some ("temperature".toList, ": {".toList) := by decide +kernel

/-! ## C326 -/

/-- **C326** there is a colour for each label (one if there is none), and up to twenty labels have different ones; a colour asked for is used only with one label -/
theorem C326_partial (colour : Option String) (n : ℕ) : (plotColours colour n).length = max 1 n ∧ (n ≤ 20 → (plotColours colour n).Nodup) ∧
    (2 ≤ n → ∀ c, plotColours (some c) n = plotColours none n) ∧ (n ≤ 1 → ∀ c, plotColours (some c) n = [.custom c]) := by
  refine ⟨?_, ?_, ?_, ?_⟩
  · unfold plotColours
    split_ifs with h
    · cases colour <;> simp <;> omega
    · simp; omega
  · intro h
    by_cases h1 : n ≤ 1
    · unfold plotColours
      rw [if_pos h1]
      cases colour <;> simp
    · have : ∀ n, n ≤ 20 → ¬ n ≤ 1 → (PlotColour.rgb (0, 128, 128) :: (List.range (n - 1)).map (fun i => PlotColour.rgb (nextColour i))).Nodup := by
        intro n hn h1
        interval_cases n <;> first | omega | decide
      unfold plotColours
      rw [if_neg h1]
      exact this n h h1
  · intro h c
    unfold plotColours
    rw [if_neg (by omega), if_neg (by omega)]
  · intro h c
    unfold plotColours
    rw [if_pos h]

/-- **C326** is false with more labels: from the twenty-first on they are all black, as the fourteenth -/
theorem C326_false (n i : ℕ) (h20 : 20 ≤ i) (hi : i < n) : (plotColours none n)[i]? = (plotColours none n)[13]? ∧ (plotColours none n)[i]? = some (.rgb (0, 0, 0)) := by
  have hc : ∀ j, 19 ≤ j → nextColour j = (0, 0, 0) := by
    intro j hj
    unfold nextColour
    rw [List.getElem?_eq_none (by simp [tab10reord]; omega)]
    dsimp only
    rw [List.getElem?_eq_none (by simp [tab10reord, extraColours]; omega)]
  have hv : (plotColours none n)[i]? = some (.rgb (0, 0, 0)) := by
    unfold plotColours
    rw [if_neg (by omega)]
    obtain ⟨k, rfl⟩ : ∃ k, i = k + 1 := ⟨i - 1, by omega⟩
    rw [List.getElem?_cons_succ, List.getElem?_map, List.getElem?_range (by omega)]
    simp [hc k (by omega)]
  have h13 : (plotColours none n)[13]? = some (.rgb (0, 0, 0)) := by
    unfold plotColours
    rw [if_neg (by omega), List.getElem?_cons_succ, List.getElem?_map, List.getElem?_range (by omega)]
    decide
  exact ⟨hv.trans h13.symm, hv⟩

end Timeseria
