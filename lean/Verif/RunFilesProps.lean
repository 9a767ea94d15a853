import Verif.RunFiles

/-!
C114: the files of runs and grids are found, and the final values of a grid survive a change.
-/

namespace Verif.RunFiles

open Verif.Frame (isIn split splitGo)
open Verif.GridJoin (loadedAsText)

/-! ### The files of a run -/

/-- Specification: `o` is the file `n`, or its compressed form, in the folder, if there is one. -/
def Locates (files : List Name) (n : Name) (o : Option Name) : Prop :=
  match o with
  | some f => f ∈ files ∧ (f = n ∨ f = n ++ (chars! ".gz"))
  | none => n ∉ files ∧ n ++ (chars! ".gz") ∉ files

theorem locates_last (files : List Name) (n : Name) : Locates files n (lastWith (isFile n) files) := by
  cases h : lastWith (isFile n) files with
  | none =>
    rw [lastWith_none] at h
    exact ⟨fun hn => h n hn (by simp [isFile]), fun hn => h _ hn (by simp [isFile, gz])⟩
  | some f =>
    have := lastWith_mem h
    exact ⟨this.1, by simpa [isFile, gz] using this.2⟩

/-- The history of the binary, the final models of both stars and the screen output are found. -/
theorem C114_files (binary : Bool) (files : List Name) :
    Locates files (chars! "binary_history.data") (scan binary files).bh ∧
    Locates files (chars! "final_star1.mod") (scan binary files).star1 ∧
    Locates files (chars! "final_star2.mod") (scan binary files).star2 ∧
    Locates files (if binary then (chars! "out.txt") else (chars! "out_star1_formation_step0.txt")) (scan binary files).out := by
  rw [scan_eq]
  refine ⟨locates_last _ _, locates_last _ _, locates_last _ _, ?_⟩
  cases binary
  · exact locates_last files nOne
  · exact locates_last files nOut

example : (scan true [(chars! "out.txt.gz"), (chars! "inlist"), (chars! "binary_history.data")]).bh
    = some (chars! "binary_history.data") := by decide

/-- The metadata of a run: the listed files other than the screen output that belongs to the kind of run, in their order. -/
theorem C114_info (binary : Bool) (files : List Name) (f : Name) :
    f ∈ (scan binary files).info ↔ f ∈ files ∧
      (f ∈ [(chars! "inlist_grid_points"), (chars! "inlist_grid_point.gz"), (chars! "summary.txt"), (chars! "summary.txt.gz")] ∨
        (binary = false ∧ f ∈ [(chars! "out.txt"), (chars! "out.txt.gz")])) := by
  rw [scan_eq]
  show f ∈ files.filter _ ↔ _
  rw [List.mem_filter]
  apply and_congr_right
  intro _
  have e : isInfo binary f = true ↔ f ∈ runMeta ∧ isOut binary f = false := by simp [isInfo]
  rw [e]
  constructor
  · rintro ⟨h, ho⟩
    revert ho
    have : ∀ g ∈ runMeta, ∀ b : Bool, isOut b g = false →
        (g ∈ [(chars! "inlist_grid_points"), (chars! "inlist_grid_point.gz"), (chars! "summary.txt"), (chars! "summary.txt.gz")] ∨
          (b = false ∧ g ∈ [(chars! "out.txt"), (chars! "out.txt.gz")])) := by decide
    exact this f h binary
  · have h1 : ∀ g ∈ [(chars! "inlist_grid_points"), (chars! "inlist_grid_point.gz"), (chars! "summary.txt"),
        (chars! "summary.txt.gz")], ∀ b : Bool, g ∈ runMeta ∧ isOut b g = false := by decide
    have h2 : ∀ g ∈ [(chars! "out.txt"), (chars! "out.txt.gz")], g ∈ runMeta ∧ isOut false g = false := by decide
    rintro (h | ⟨rfl, h⟩)
    · exact h1 f h binary
    · exact h2 f h

/-- The compressed grid point of a run is not recognized: its name is misspelt in the list. -/
theorem C114_info_violated : ∃ files : List Name, (chars! "inlist_grid_points.gz") ∈ files ∧
    ∀ binary, (scan binary files).info = [] ∧ (readRun (chars! "posydon") binary files none none).map (·.warned) = .ok true :=
  ⟨[(chars! "inlist_grid_points.gz")], by simp, by decide⟩

theorem lastWith_perm {p : Name → Bool} {a b : List Name} (h : a.Perm b)
    (hu : ∀ f ∈ a, ∀ g ∈ a, p f → p g → f = g) : lastWith p a = lastWith p b := by
  cases hb : lastWith p b with
  | none =>
    rw [lastWith_none] at hb ⊢
    exact fun f hf => hb f (h.mem_iff.1 hf)
  | some f =>
    have hf := lastWith_mem hb
    exact lastWith_unique (h.mem_iff.2 hf.1) hf.2 fun g hg hp => hu g hg f (h.mem_iff.2 hf.1) hp hf.2

theorem isFile_unique {files : List Name} {n : Name} (h : ¬(n ∈ files ∧ gz n ∈ files)) :
    ∀ f ∈ files, ∀ g ∈ files, isFile n f → isFile n g → f = g := by
  intro f hf g hg h1 h2
  simp only [isFile, Bool.or_eq_true, beq_iff_eq] at h1 h2
  rcases h1 with rfl | rfl <;> rcases h2 with rfl | rfl
  · rfl
  · exact absurd ⟨hf, hg⟩ h
  · exact absurd ⟨hg, hf⟩ h
  · rfl

/-- Without a file next to its compressed form the order in which the folder is listed does not matter. -/
theorem C114_order_partial (binary : Bool) {a b : List Name} (h : a.Perm b)
    (hu : ∀ n ∈ [nBH, nS1, nS2, nOut, nOne], ¬(n ∈ a ∧ gz n ∈ a)) :
    (scan binary a).bh = (scan binary b).bh ∧ (scan binary a).star1 = (scan binary b).star1 ∧
    (scan binary a).star2 = (scan binary b).star2 ∧ (scan binary a).out = (scan binary b).out ∧
    (scan binary a).info.Perm (scan binary b).info := by
  rw [scan_eq, scan_eq]
  refine ⟨lastWith_perm h (isFile_unique (hu _ (by simp))), lastWith_perm h (isFile_unique (hu _ (by simp))),
    lastWith_perm h (isFile_unique (hu _ (by simp))), ?_, h.filter _⟩
  cases binary
  · exact lastWith_perm h (isFile_unique (n := nOne) (hu _ (by simp)))
  · exact lastWith_perm h (isFile_unique (n := nOut) (hu _ (by simp)))

example : ([(chars! "out.txt"), (chars! "final_star1.mod.gz")] : List Name).Perm [(chars! "final_star1.mod.gz"), (chars! "out.txt")] ∧
    ∀ n ∈ [nBH, nS1, nS2, nOut, nOne], ¬(n ∈ [(chars! "out.txt"), (chars! "final_star1.mod.gz")] ∧
      gz n ∈ [(chars! "out.txt"), (chars! "final_star1.mod.gz")]) :=
  ⟨List.Perm.swap _ _ _, by decide⟩

/-- With both forms the one listed last is taken, so that the history that is read depends on the order of the listing. -/
theorem C114_order_violated : ∃ a b : List Name, a.Perm b ∧ (scan true a).bh ≠ (scan true b).bh :=
  ⟨[(chars! "binary_history.data"), (chars! "binary_history.data.gz")],
    [(chars! "binary_history.data.gz"), (chars! "binary_history.data")], List.Perm.swap _ _ _, by decide⟩

/-- The files of a star: the plain form before the compressed one; nothing without the folder. -/
theorem C114_logs (files : List Name) (n : Name) :
    (n ∈ files → joined files n = some n) ∧
    (n ∉ files → n ++ (chars! ".gz") ∈ files → joined files n = some (n ++ (chars! ".gz"))) ∧
    (n ∉ files → n ++ (chars! ".gz") ∉ files → joined files n = none) ∧
    logs none = ⟨none, none, none⟩ ∧
    logs (some files) = ⟨joined files (chars! "history.data"), joined files (chars! "final_profile.data"),
      joined files (chars! "initial_profile.data")⟩ := by
  refine ⟨fun h => if_pos h, fun h g => ?_, fun h g => ?_, rfl, rfl⟩
  · unfold joined; rw [if_neg h]; exact if_pos g
  · unfold joined; rw [if_neg h]; exact if_neg g

/-- A run is warned about exactly if nothing of it has been found; runs have one of two formats. -/
theorem C114_warned (fmt : Name) (binary : Bool) (files : List Name) (l1 l2 : Option (List Name)) :
    (fmt = (chars! "posydon") ∨ fmt = (chars! "posydon_single") →
      ∃ r, readRun fmt binary files l1 l2 = .ok r ∧ r.found = scan binary files ∧ r.logs1 = logs l1 ∧ r.logs2 = logs l2 ∧
        (r.warned = true ↔ r.found = {} ∧ r.logs1 = {} ∧ r.logs2 = {})) ∧
    (¬(fmt = (chars! "posydon") ∨ fmt = (chars! "posydon_single")) → readRun fmt binary files l1 l2 = .error .value) := by
  constructor
  · intro h
    refine ⟨_, by unfold readRun; rw [if_pos (by simpa using h)], rfl, rfl, rfl, ?_⟩
    generalize scan binary files = f
    generalize logs l1 = a
    generalize logs l2 = b
    obtain ⟨f1, f2, f3, f4, f5⟩ := f
    obtain ⟨a1, a2, a3⟩ := a
    obtain ⟨b1, b2, b3⟩ := b
    simp only [Bool.and_eq_true, Option.isNone_iff_eq_none, List.isEmpty_iff, Found.mk.injEq, Logs.mk.injEq]
    tauto
  · intro h
    unfold readRun
    rw [if_neg (by simpa using h)]

/-! ### The grid -/

/-- Folders that are to be ignored are read as runs, as whole paths are compared with names. -/
theorem C114_ignored_violated :
    (∀ paths : List Name, (∀ p ∈ paths, p.head? = some '/') → readFolders paths = paths) ∧
    (∀ n ∈ ignored, ∀ dir : Name, dir.head? = some '/' → readFolders [dir ++ ['/'] ++ n] = [dir ++ ['/'] ++ n]) := by
  have h : ∀ paths : List Name, (∀ p ∈ paths, p.head? = some '/') → readFolders paths = paths := by
    intro paths hp
    unfold readFolders
    rw [List.filter_eq_self]
    intro p h
    have : p ∉ ignored := by
      intro hi
      have hd : ∀ q ∈ ignored, q.head? ≠ some '/' := by decide
      exact hd p hi (hp p h)
    simpa using this
  refine ⟨h, fun n _ dir hd => h _ ?_⟩
  intro p hp
  rw [List.mem_singleton] at hp
  subst hp
  cases dir with
  | nil => cases hd
  | cons c r => simpa using hd

/-- With one folder the metadata are its files among the four names, or names that are compressed twice. -/
theorem C114_grid_info_partial (files : List Name) (f : Name) :
    f ∈ gridInfo [files] ↔ f ∈ files ∧ f ∈ [(chars! "grid_test.csv"), (chars! "grid_test.csv.gz"), (chars! "grid_test.csv.gz.gz"),
      (chars! "grid.csv"), (chars! "grid.csv.gz"), (chars! "grid.csv.gz.gz")] := by
  show f ∈ metaOf files ↔ _
  have e : f ∈ metaOf files ↔ ∃ m ∈ gridMeta, (f = m ∨ f = gz m) ∧ f ∈ files := by
    unfold metaOf
    rw [List.mem_flatMap]
    refine exists_congr fun m => and_congr_right fun _ => ?_
    rw [List.mem_append]
    by_cases h1 : m ∈ files <;> by_cases h2 : gz m ∈ files <;> simp only [h1, h2, if_true, if_false, List.mem_singleton, List.not_mem_nil, or_false, false_or] <;>
      constructor <;> (try rintro (rfl | rfl)) <;> (try rintro rfl) <;> (try rintro ⟨rfl | rfl, h⟩) <;> simp_all
  rw [e]
  constructor
  · rintro ⟨m, hm, hf, h⟩
    refine ⟨h, ?_⟩
    have : ∀ m ∈ gridMeta, ∀ g ∈ [m, gz m], g ∈ [(chars! "grid_test.csv"), (chars! "grid_test.csv.gz"), (chars! "grid_test.csv.gz.gz"),
      (chars! "grid.csv"), (chars! "grid.csv.gz"), (chars! "grid.csv.gz.gz")] := by decide
    exact this m hm f (by simpa using hf)
  · rintro ⟨h, hf⟩
    have : ∀ g ∈ [(chars! "grid_test.csv"), (chars! "grid_test.csv.gz"), (chars! "grid_test.csv.gz.gz"),
      (chars! "grid.csv"), (chars! "grid.csv.gz"), (chars! "grid.csv.gz.gz")], ∃ m ∈ gridMeta, g = m ∨ g = gz m := by decide
    obtain ⟨m, hm, h'⟩ := this f hf
    exact ⟨m, hm, h', h⟩

/-- With several folders only the metadata of the last one are kept, and a compressed file is there twice. -/
theorem C114_grid_info_violated :
    (∀ folders files, gridInfo (folders ++ [files]) = gridInfo [files]) ∧
    gridInfo [[(chars! "grid.csv")], []] = [] ∧
    gridInfo [[(chars! "grid.csv.gz")]] = [(chars! "grid.csv.gz"), (chars! "grid.csv.gz")] := by
  refine ⟨fun folders files => ?_, by decide, by decide⟩
  unfold gridInfo
  rw [List.foldl_append]
  rfl

/-- The printed lines are the first ones of the file, each cut at the width. -/
theorem C114_printed (n w : ℕ) (lines : List Name) :
    printed (some n) (some w) lines = (lines.take n).map (·.take w) ∧ printed none (some w) lines = lines.map (·.take w) ∧
    printed none none lines = lines ∧ (printed (some n) (some w) lines).length = min n lines.length ∧
    ∀ l ∈ printed (some n) (some w) lines, l.length ≤ w := by
  have h : printed (some n) (some w) lines = (lines.take n).map (·.take w) := by
    unfold printed
    by_cases hn : n = 0
    · subst hn; simp
    · rw [if_neg (by simpa using hn)]
  refine ⟨h, rfl, ?_, ?_, ?_⟩
  · show lines.map (fun x => x) = lines
    simp
  · rw [h]; simp
  · rw [h]
    intro l hl
    rw [List.mem_map] at hl
    obtain ⟨x, _, rfl⟩ := hl
    exact List.length_take_le _ _

/-! ### Equivalent evolutionary points -/

theorem splitGo_plain (e n cur : Name) (he : e.head? = some '.') (hn : '.' ∉ n) :
    splitGo e 0 cur (n ++ e) = [cur.reverse ++ n, []] := by
  induction n generalizing cur with
  | nil =>
    cases e with
    | nil => cases he
    | cons c r =>
      rw [List.nil_append]
      unfold splitGo
      rw [if_pos (by simp [List.isPrefixOf_iff_prefix])]
      have : ∀ (r : Name) (s : Name), splitGo (c :: s) r.length [] r = [[]] := by
        intro r s
        induction r with
        | nil => rfl
        | cons a r ih => show splitGo (c :: s) (r.length + 1) [] (a :: r) = _; unfold splitGo; exact ih
      simp [this r r]
  | cons a n ih =>
    rw [List.cons_append]
    unfold splitGo
    rw [if_neg]
    · rw [ih _ (fun h => hn (by simp [h]))]
      simp
    · intro h
      cases e with
      | nil => cases he
      | cons c r =>
        simp only [List.isPrefixOf, Bool.and_eq_true, beq_iff_eq] at h
        have : c = '.' := by simpa using he
        exact hn (by rw [← this, h.1]; simp)

/-- A file of a star without a point in its name is identified by that name. -/
theorem C114_ident (e n : Name) (he : e ∈ eepExt) (hn : '.' ∉ n) : ident e (n ++ e) = n := by
  have h : ∀ e ∈ eepExt, e.head? = some '.' := by decide
  unfold ident split
  rw [splitGo_plain e n [] (h e he) hn]
  rfl

example : ident (chars! ".data.clean.eep") (chars! "star_7.data.clean.eep") = (chars! "star_7") := by decide

/-- Points are found for all files, each under its own name; two files with the same name are an error. -/
theorem C114_eeps (files : List Name) :
    discover files =
      if ((eepFiles files).map (·.1)).Nodup then .ok (if (eepFiles files).isEmpty then none else some (eepFiles files))
      else .error .assertion := by
  unfold discover
  rw [collect_ok _ [] (by simp), List.nil_append]
  by_cases h : ((eepFiles files).map (·.1)).Nodup
  · rw [if_pos h, if_pos h]
  · rw [if_neg h, if_neg h]

/-- The files that count: those with one of the extensions, not hidden. -/
theorem C114_eep_files (files : List Name) (i f : Name) :
    (i, f) ∈ eepFiles files ↔ ∃ e ∈ eepExt, f ∈ files ∧ (∃ n, f = n ++ e) ∧ f.head? ≠ some '.' ∧ i = ident e f := by
  unfold eepFiles
  rw [List.mem_flatMap]
  refine exists_congr fun e => and_congr_right fun _ => ?_
  rw [List.mem_map]
  constructor
  · rintro ⟨g, hg, h⟩
    simp only [Prod.mk.injEq] at h
    obtain ⟨rfl, rfl⟩ := h
    rw [List.mem_filter] at hg
    have := hg.2
    unfold matchesExt at this
    rw [Bool.and_eq_true, List.isSuffixOf_iff_suffix] at this
    obtain ⟨⟨n, hn⟩, h2⟩ := this
    exact ⟨hg.1, ⟨n, hn.symm⟩, by simpa using h2, rfl⟩
  · rintro ⟨hf, ⟨n, hn⟩, hd, rfl⟩
    refine ⟨f, List.mem_filter.2 ⟨hf, ?_⟩, rfl⟩
    unfold matchesExt
    rw [Bool.and_eq_true, List.isSuffixOf_iff_suffix]
    exact ⟨⟨n, hn.symm⟩, by simpa using hd⟩

/-- A file next to its cleaned or compressed form stops the creation of the grid. -/
theorem C114_eeps_violated : discover [(chars! "a.data.eep"), (chars! "a.data.clean.eep")] = .error .assertion ∧
    discover [(chars! "a.data.eep"), (chars! "a.data.eep.gz")] = .error .assertion ∧
    discover [(chars! "a.data.eep")] = .ok (some [((chars! "a"), (chars! "a.data.eep"))]) := by
  refine ⟨?_, ?_, ?_⟩ <;> decide

/-! ### The final values -/

theorem mem_setCol {t : Table} {n : Name} {c : Col} {q : Name × Col} (h : q ∈ setCol t n c) : q ∈ t ∨ q = (n, c) := by
  unfold setCol at h
  rw [List.mem_map] at h
  obtain ⟨p, hp, rfl⟩ := h
  by_cases hn : p.1 = n
  · right; rw [if_pos hn]
  · left; rw [if_neg hn]; exact hp

/-- Values in the memory that fit are saved, and reading the file gives them back. -/
theorem C114_update (shw : ℚ → Name) (g : Grid) (t : Table) (hg : g.final = .mem t) (ht : g.typed = false)
    (hf : ∀ p ∈ t, fits p.1 p.2) :
    ∃ s, update shw g = ({ g with gen := g.gen + 2, stored := some s }, none) ∧ view shw s = t := by
  obtain ⟨s, h1, h2, h3⟩ := forFile_fits shw t hf
  refine ⟨s, ?_, h3⟩
  obtain ⟨st, gen, ini, isrc, fin, typed⟩ := g
  simp only at hg ht
  subst hg ht
  have : Grid.finals shw ⟨st, gen + 1, ini, isrc, .mem t, false⟩ = .ok t := rfl
  unfold update
  simp only [this, h1]
  simp [h2]

/-- A column added to, or replaced in, a grid that has been read into the memory is in the file, together with the others. -/
theorem C114_add (shw : ℚ → Name) (ini fin : Table) (n : Name) (c : Col) (hfin : ∀ p ∈ view shw fin, fits p.1 p.2)
    (hc : fits n c) :
    ∃ s, (addColumn shw (load shw false ini fin) n c true).2 = none ∧
      (addColumn shw (load shw false ini fin) n c true).1.stored = some s ∧
      view shw s = (if n ∈ fin.map (·.1) then setCol (view shw fin) n c else view shw fin ++ [(n, c)]) ∧
      (addColumn shw (load shw false ini fin) n c true).1.initials = .ok ini := by
  have hn : n ∈ (view shw fin).map (·.1) ↔ n ∈ fin.map (·.1) := by
    unfold view
    rw [List.map_map]; rfl
  have e : (load shw false ini fin).finals shw = .ok (view shw fin) := rfl
  by_cases h : n ∈ fin.map (·.1)
  · rw [if_pos h]
    obtain ⟨s, h1, h2⟩ := C114_update shw { load shw false ini fin with final := .mem (setCol (view shw fin) n c) } _ rfl rfl
      (by
        intro p hp
        rcases mem_setCol hp with hp | rfl
        · exact hfin p hp
        · exact hc)
    have : addColumn shw (load shw false ini fin) n c true
        = update shw { load shw false ini fin with final := .mem (setCol (view shw fin) n c) } := by
      simp only [addColumn, e, if_pos (hn.2 h), if_true]
    rw [this, h1]
    exact ⟨s, rfl, rfl, h2, rfl⟩
  · rw [if_neg h]
    obtain ⟨s, h1, h2⟩ := C114_update shw
      { load shw false ini fin with final := .mem (view shw fin ++ [(n, c)]), typed := false } _ rfl rfl
      (by
        intro p hp
        rcases List.mem_append.1 hp with hp | hp
        · exact hfin p hp
        · rw [List.mem_singleton] at hp; subst hp; exact hc)
    have : addColumn shw (load shw false ini fin) n c true
        = update shw { load shw false ini fin with final := .mem (view shw fin ++ [(n, c)]), typed := false } := by
      simp only [addColumn, e, if_neg (fun x => h (hn.1 x))]
    rw [this, h1]
    exact ⟨s, rfl, rfl, h2, rfl⟩

/-- A small grid: a number and the state of a star for two runs. -/
def sample : Table := [((chars! "age"), .num [1, 2]), ((chars! "S1_state"), .bytes [(chars! "BH"), (chars! "NS")])]

example : (∀ p ∈ view (fun _ => []) sample, fits p.1 p.2) ∧ fits (chars! "new") (.num [3, 4]) := by
  refine ⟨?_, by show loadedAsText _ = false; decide⟩
  intro p hp
  have : p = ((chars! "age"), .num [1, 2]) ∨ p = ((chars! "S1_state"), .uni [(chars! "BH"), (chars! "NS")]) := by
    have h : view (fun _ => []) sample = [((chars! "age"), .num [1, 2]), ((chars! "S1_state"), .uni [(chars! "BH"), (chars! "NS")])] := by
      decide +kernel
    rw [h] at hp
    simpa using hp
  rcases this with rfl | rfl
  · show loadedAsText _ = false; decide
  · exact ⟨by decide, by decide⟩

/-- Also a new column for a grid that is read lazily is saved with the others. -/
theorem C114_add_lazy_partial (shw : ℚ → Name) (ini fin : Table) (n : Name) (c : Col) (ow : Bool)
    (hfin : ∀ p ∈ view shw fin, fits p.1 p.2) (hc : fits n c) (h : n ∉ fin.map (·.1)) :
    ∃ s, (addColumn shw (load shw true ini fin) n c ow).2 = none ∧
      (addColumn shw (load shw true ini fin) n c ow).1.stored = some s ∧ view shw s = view shw fin ++ [(n, c)] := by
  have hn : n ∈ (view shw fin).map (·.1) ↔ n ∈ fin.map (·.1) := by
    unfold view
    rw [List.map_map]; rfl
  have e : (load shw true ini fin).finals shw = .ok (view shw fin) := rfl
  obtain ⟨s, h1, h2⟩ := C114_update shw
    { load shw true ini fin with final := .mem (view shw fin ++ [(n, c)]), typed := false } _ rfl rfl
    (by
      intro p hp
      rcases List.mem_append.1 hp with hp | hp
      · exact hfin p hp
      · rw [List.mem_singleton] at hp; subst hp; exact hc)
  have : addColumn shw (load shw true ini fin) n c ow
      = update shw { load shw true ini fin with final := .mem (view shw fin ++ [(n, c)]), typed := false } := by
    simp only [addColumn, e, if_neg (fun x => h (hn.1 x))]
  rw [this, h1]
  exact ⟨s, rfl, rfl, h2⟩

/-- Without permission to overwrite, an existing column is an error and nothing changes. -/
theorem C114_no_overwrite (shw : ℚ → Name) (lazy : Bool) (ini fin : Table) (n : Name) (c : Col) (h : n ∈ fin.map (·.1)) :
    addColumn shw (load shw lazy ini fin) n c false = (load shw lazy ini fin, some .exists) := by
  have hn : n ∈ (view shw fin).map (·.1) := by
    unfold view
    rw [List.map_map]; exact h
  have e : (load shw lazy ini fin).finals shw = .ok (view shw fin) := by cases lazy <;> rfl
  unfold addColumn
  rw [e]
  simp only [if_pos hn]
  rfl

/-- Names are kept by the conversion for the file. -/
theorem forFile_names (shw : ℚ → Name) (t t' : Table) (h : forFile shw t = .ok t') : t'.map (·.1) = t.map (·.1) := by
  induction t generalizing t' with
  | nil => cases h; rfl
  | cons p t ih =>
    obtain ⟨n, c⟩ := p
    unfold forFile at h
    cases hc : (if loadedAsText n then toBytes shw c else .ok c : Except Err Col) with
    | error e => rw [hc] at h; cases h
    | ok c' =>
      rw [hc] at h
      cases ht : forFile shw t with
      | error e => rw [ht] at h; cases h
      | ok t'' =>
        rw [ht] at h
        cases h
        simp [ih t'' ht]

theorem view_not_savable (shw : ℚ → Name) (t : Table) (h : ∃ n ∈ t.map (·.1), loadedAsText n = true) :
    savable (view shw t) = false := by
  obtain ⟨n, hn, ht⟩ := h
  obtain ⟨p, hp, rfl⟩ := List.mem_map.1 hn
  by_contra hs
  have hs : savable (view shw t) = true := by simpa using hs
  unfold savable at hs
  rw [List.all_eq_true] at hs
  have := hs (p.1, toUni shw p.2) (by
    unfold view
    rw [List.mem_map]
    exact ⟨p, hp, by rw [ht]; rfl⟩)
  cases hc : p.2 <;> rw [hc] at this <;> simp [toUni, Col.isUni] at this

/-- Replacing a column of a grid that is read lazily destroys the final values in the file as soon as there is a column of texts:
the old data set is deleted, and the new one cannot be written. -/
theorem C114_lazy_overwrite_violated (shw : ℚ → Name) (ini fin : Table) (n : Name) (c : Col) (h : n ∈ fin.map (·.1))
    (ht : ∃ m ∈ fin.map (·.1), loadedAsText m = true) (t' : Table)
    (hok : forFile shw (view shw (setCol (view shw fin) n c)) = .ok t') :
    (addColumn shw (load shw true ini fin) n c true).2 = some .type ∧
    (addColumn shw (load shw true ini fin) n c true).1.stored = none := by
  have hn : n ∈ (view shw fin).map (·.1) := by
    unfold view
    rw [List.map_map]; exact h
  have e : (load shw true ini fin).finals shw = .ok (view shw fin) := rfl
  have names : ∀ t : Table, (view shw t).map (·.1) = t.map (·.1) := by
    intro t; unfold view; rw [List.map_map]; rfl
  have hset : ∀ (t : Table), (setCol t n c).map (·.1) = t.map (·.1) := by
    intro t
    unfold setCol
    rw [List.map_map]
    apply List.map_congr_left
    intro p _
    by_cases hp : p.1 = n
    · simp [hp]
    · simp [hp]
  have hs : savable (view shw t') = false := by
    apply view_not_savable
    rw [forFile_names shw _ _ hok, names, hset, names]
    exact ht
  have : addColumn shw (load shw true ini fin) n c true
      = update shw { load shw true ini fin with final := .mem (setCol (view shw fin) n c) } := by
    simp only [addColumn, e, if_pos hn, if_true]
  rw [this]
  have hl : ({ load shw true ini fin with final := .mem (setCol (view shw fin) n c) } : Grid)
      = ⟨some fin, 0, ini, .file 0, .mem (setCol (view shw fin) n c), true⟩ := rfl
  rw [hl]
  have hu : Grid.finals shw ⟨some fin, 0 + 1, ini, .file 0, .mem (setCol (view shw fin) n c), true⟩
      = .ok (view shw (setCol (view shw fin) n c)) := rfl
  unfold update
  simp only [hu, hok, if_true, hs]
  exact ⟨rfl, rfl⟩

example : (addColumn (fun _ => []) (load (fun _ => []) true [] sample) (chars! "age") (.num [5, 6]) true).1.stored = none :=
  (C114_lazy_overwrite_violated (fun _ => []) [] sample (chars! "age") (.num [5, 6]) (by decide) ⟨(chars! "S1_state"), by decide, by decide⟩
    [((chars! "age"), .num [5, 6]), ((chars! "S1_state"), .bytes [(chars! "BH"), (chars! "NS")])] (by decide +kernel)).2

/-- Adding a column to a grid that is read lazily closes the file behind the initial values: they cannot be read any more. -/
theorem C114_initial_violated (shw : ℚ → Name) (ini fin : Table) (n : Name) (c : Col) (ow : Bool)
    (hfin : ∀ p ∈ view shw fin, fits p.1 p.2) (hc : fits n c) (h : n ∉ fin.map (·.1)) :
    (load shw true ini fin).initials = .ok ini ∧
    (addColumn shw (load shw true ini fin) n c ow).1.initials = .error .value := by
  have hn : n ∈ (view shw fin).map (·.1) ↔ n ∈ fin.map (·.1) := by
    unfold view
    rw [List.map_map]; rfl
  have e : (load shw true ini fin).finals shw = .ok (view shw fin) := rfl
  obtain ⟨s, h1, h2⟩ := C114_update shw
    { load shw true ini fin with final := .mem (view shw fin ++ [(n, c)]), typed := false } _ rfl rfl
    (by
      intro p hp
      rcases List.mem_append.1 hp with hp | hp
      · exact hfin p hp
      · rw [List.mem_singleton] at hp; subst hp; exact hc)
  have : addColumn shw (load shw true ini fin) n c ow
      = update shw { load shw true ini fin with final := .mem (view shw fin ++ [(n, c)]), typed := false } := by
    simp only [addColumn, e, if_neg (fun x => h (hn.1 x))]
  rw [this, h1]
  exact ⟨rfl, rfl⟩

/-- Texts in a column with another name are lost together with all final values. -/
theorem C114_text_violated : ∃ (c : Col) (n : Name),
    (addColumn (fun _ => []) (load (fun _ => []) false [] sample) n c true).1.stored = none ∧
    (addColumn (fun _ => []) (load (fun _ => []) false [] sample) n c true).2 = some .type :=
  ⟨.uni [(chars! "a"), (chars! "b")], (chars! "comment"), by decide +kernel, by decide +kernel⟩

/-- Long texts are cut, and texts that are not ASCII are an error before anything is deleted. -/
theorem C114_conversion (shw : ℚ → Name) (g : Grid) (t : Table) (n : Name) (l : List Name) (hg : g.final = .mem ((n, .uni l) :: t))
    (ht : g.typed = false) (hn : loadedAsText n = true) (hl : ∃ s ∈ l, ascii s = false) :
    (update shw g).2 = some .unicode ∧ (update shw g).1.stored = g.stored := by
  obtain ⟨st, gen, ini, isrc, fin, typed⟩ := g
  simp only at hg ht
  subst hg ht
  have hfin : Grid.finals shw ⟨st, gen + 1, ini, isrc, .mem ((n, .uni l) :: t), false⟩ = .ok ((n, .uni l) :: t) := rfl
  have ha : l.all ascii = false := by
    obtain ⟨s, hs, h⟩ := hl
    rw [List.all_eq_false]
    exact ⟨s, hs, by simp [h]⟩
  have : forFile shw ((n, .uni l) :: t) = .error .unicode := by
    unfold forFile
    simp only [hn, if_true, toBytes, ha]
    rfl
  unfold update
  simp only [hfin, this, and_self]

/-! ### Items -/

/-- A column of a lazily read table is the stored one, texts as unicode. -/
theorem C114_column (shw : ℚ → Name) (t : Table) (n : Name) (c : Col) (h : t.lookup n = some c) :
    lazyCol shw true t n = .ok (if loadedAsText n then toUni shw c else c) ∧ lazyCol shw false t n = .ok c := by
  unfold lazyCol
  rw [h]
  exact ⟨by simp, by simp⟩

/-- Some of the columns cannot be had, and columns in another order are given with exchanged names. -/
theorem C114_columns_violated (shw : ℚ → Name) :
    (∀ t ns p, pickCols t ns = .ok p → p.length ≠ t.length → lazyCols shw true t ns = .error .type) ∧
    lazyCols shw true [((chars! "a"), .num [1]), ((chars! "b"), .num [2])] [(chars! "b"), (chars! "a")]
      = .ok [((chars! "a"), .num [2]), ((chars! "b"), .num [1])] := by
  constructor
  · intro t ns p h hl
    unfold lazyCols
    rw [h]
    exact if_neg hl
  · rfl

/-- A run gives its tables, nothing for a table that is not there, and the rows of the grid for the values; other names are
errors, and so is a closed file. -/
theorem C114_run {T : Type} (opened : Bool) (tables : List (Name × T)) (i : ℕ) (k : Name) :
    (k ∉ validKeys → runItem opened tables i k = .error .key) ∧
    runItem opened tables i (chars! "initial_values") = .ok (.initialRow i) ∧
    runItem opened tables i (chars! "final_values") = .ok (.finalRow i) ∧
    (k ∈ [(chars! "binary_history"), (chars! "history1"), (chars! "history2"), (chars! "final_profile1"), (chars! "final_profile2")] →
      runItem opened tables i k = if opened then .ok ((tables.lookup k).elim .missing .table) else .error .io) := by
  refine ⟨fun h => if_pos h, ?_, ?_, ?_⟩
  · unfold runItem
    rw [if_neg (by decide), if_pos rfl]
  · unfold runItem
    rw [if_neg (by decide), if_neg (by decide), if_pos rfl]
  · intro h
    have hv : ∀ k ∈ [(chars! "binary_history"), (chars! "history1"), (chars! "history2"), (chars! "final_profile1"), (chars! "final_profile2")],
      ¬ k ∉ validKeys ∧ k ≠ (chars! "initial_values") ∧ k ≠ (chars! "final_values") := by decide
    obtain ⟨h1, h2, h3⟩ := hv k h
    unfold runItem
    rw [if_neg h1, if_neg h2, if_neg h3]
    cases opened with
    | false => rfl
    | true => cases tables.lookup k <;> rfl

/-- Texts are cut after 70 characters, whatever their kind; shorter ones stay as they are. -/
theorem C114_cut (shw : ℚ → Name) (l : List Name) :
    toBytes shw (.bytes l) = .ok (.bytes (l.map (·.take 70))) ∧ toUni shw (.bytes l) = .uni (l.map (·.take 70)) ∧
    toUni shw (.uni l) = .uni (l.map (·.take 70)) ∧
    ((∀ s ∈ l, s.length ≤ 70) → toBytes shw (.bytes l) = .ok (.bytes l) ∧ toUni shw (.uni l) = .uni l) := by
  refine ⟨rfl, rfl, rfl, fun h => ?_⟩
  have := map_take h
  exact ⟨congrArg (fun x => Except.ok (Col.bytes x)) this, congrArg Col.uni this⟩

end Verif.RunFiles
