import Verif.Describe
import Verif.RunFilesProps
/-!
C145: the description of a grid, and of a run, tells what is in it.
-/
namespace Verif.Describe

open Verif.RunFiles

/-- Specification: the run has a table of this kind with at least one row. -/
def Has (k : Kind) (r : Run) : Prop := ∃ t, r k = some t ∧ 0 < t.rows

instance (k : Kind) (r : Run) : Decidable (Has k r) :=
  match h : r k with
  | none => .isFalse (by rintro ⟨t, ht, _⟩; rw [h] at ht; exact nomatch ht)
  | some t => if h0 : 0 < t.rows then .isTrue ⟨t, h, h0⟩ else .isFalse (by rintro ⟨t', ht, h1⟩; rw [h] at ht; cases ht; exact h0 h1)

theorem oneIfOk_has (k : Kind) (r : Run) : oneIfOk (r k) = if Has k r then 1 else 0 := by
  unfold oneIfOk
  cases h : r k with
  | none =>
    have : ¬ Has k r := by rintro ⟨t, ht, _⟩; rw [h] at ht; exact nomatch ht
    simp [this]
  | some t =>
    dsimp only
    by_cases h0 : t.rows = 0
    · have : ¬ Has k r := by
        rintro ⟨t', ht, h1⟩
        rw [h] at ht; cases ht; omega
      simp [h0, this]
    · have : Has k r := ⟨t, h, by omega⟩
      simp [h0, this]

theorem fold_count (k : Kind) (runs : List Run) (n : ℕ) :
    runs.foldl (fun n r => n + oneIfOk (r k)) n = n + runs.countP fun r => decide (Has k r) := by
  induction runs generalizing n with
  | nil => simp
  | cons r runs ih =>
    simp only [List.foldl_cons, List.countP_cons]
    rw [ih, oneIfOk_has]
    by_cases h : Has k r <;> simp [h] <;> omega

/-- The numbers of tables are the numbers of runs that have a table with rows, for each kind of table. -/
theorem C145_counts (g : Grid) (p : Txt) (hp : g.path = some p) (hr : g.runs ≠ []) (k : Kind) (n : ℕ) :
    Says.nTables k n ∈ describe g ↔ n = g.runs.countP fun r => decide (Has k r) := by
  have hl : ∃ last, g.runs.getLast? = some last := ⟨_, List.getLast?_eq_some_getLast hr⟩
  obtain ⟨last, hl⟩ := hl
  have hk : k ∈ kinds := by cases k <;> decide
  have hcount : countOf k g.runs = g.runs.countP fun r => decide (Has k r) := by simp [countOf, fold_count]
  have hdirs : Says.nTables k n ∉ dirsPart g.dirs g.runs.length := by
    unfold dirsPart
    split
    · split <;> simp
    · simp
  have hcols : Says.nTables k n ∉ columnsOf last := by
    simp [columnsOf]
  have hrest : Says.nTables k n ∉ valuesPart g := by
    unfold valuesPart
    cases g.initial <;> cases g.final <;> (by_cases hc : g.config = [] <;> simp [hc])
  simp only [describe, hp, runsPart, hl]
  simp only [List.cons_append, List.mem_cons, List.mem_append, List.mem_map, reduceCtorEq, false_or]
  constructor
  · rintro (((⟨k', hk', h⟩ | h) | h) | h)
    · cases h; exact hcount
    · exact absurd h hcols
    · exact absurd h hrest
    · exact absurd h hdirs
  · rintro rfl
    exact .inl (.inl (.inl ⟨k, hk, by rw [hcount]⟩))

/-- The number of runs is given, and no count exceeds it. -/
theorem C145_runs (g : Grid) (p : Txt) (hp : g.path = some p) (hr : g.runs ≠ []) :
    Says.nRuns g.runs.length ∈ describe g ∧ ∀ k, countOf k g.runs ≤ g.runs.length := by
  obtain ⟨last, hl⟩ : ∃ last, g.runs.getLast? = some last := ⟨_, List.getLast?_eq_some_getLast hr⟩
  refine ⟨by simp [describe, hp, runsPart, hl], fun k => ?_⟩
  simp only [countOf, fold_count, Nat.zero_add]
  exact List.countP_le_length

theorem mem_columns (g : Grid) (p : Txt) (hp : g.path = some p) (last : Run) (hl : g.runs.getLast? = some last) (k : Kind) (c : List Txt) :
    Says.columns k c ∈ describe g ↔ ∃ t, last k = some t ∧ t.cols = c := by
  have hk : k ∈ kinds := by cases k <;> decide
  have hdirs : Says.columns k c ∉ dirsPart g.dirs g.runs.length := by
    unfold dirsPart
    split
    · split <;> simp
    · simp
  have hrest : Says.columns k c ∉ valuesPart g := by
    unfold valuesPart
    cases g.initial <;> cases g.final <;> (by_cases hc : g.config = [] <;> simp [hc])
  simp only [describe, hp, runsPart, hl, List.cons_append, List.mem_cons, List.mem_append, List.mem_map, reduceCtorEq, false_or, columnsOf, List.mem_filterMap]
  constructor
  · rintro (((⟨k', hk', h⟩ | ⟨k', hk', h⟩) | h) | h)
    · exact nomatch h
    · obtain ⟨t, ht, he⟩ := Option.map_eq_some_iff.mp h
      cases he
      exact ⟨t, ht, rfl⟩
    · exact absurd h hrest
    · exact absurd h hdirs
  · rintro ⟨t, ht, rfl⟩
    exact .inl (.inl (.inr ⟨k, hk, by simp [ht]⟩))

/-- If all runs that have a table of a kind have the same columns in it and the last run has it, these columns are told, and no others. -/
theorem C145_columns_partial (g : Grid) (p : Txt) (hp : g.path = some p) (last : Run) (hl : g.runs.getLast? = some last) (k : Kind) (c : List Txt)
    (hsame : ∀ r ∈ g.runs, ∀ t, r k = some t → t.cols = c) (hlast : ∃ t, last k = some t) (c' : List Txt) :
    Says.columns k c' ∈ describe g ↔ c' = c := by
  rw [mem_columns g p hp last hl]
  obtain ⟨t, ht⟩ := hlast
  have hm : last ∈ g.runs := List.mem_of_getLast? hl
  constructor
  · rintro ⟨t', ht', rfl⟩; exact hsame last hm t' ht'
  · rintro rfl; exact ⟨t, ht, hsame last hm t ht⟩

/-- The columns are those of the last run: if it has no such table nothing is told, although all the others may have one. -/
theorem C145_columns_violated (p : Txt) (t : Tab) (h0 : 0 < t.rows) (n : ℕ) (k : Kind) :
    let g : Grid := ⟨some p, List.replicate (n + 1) (fun _ => some t) ++ [fun _ => none], none, none, [], []⟩
    Says.nTables k (n + 1) ∈ describe g ∧ ∀ c, Says.columns k c ∉ describe g := by
  intro g
  have hl : g.runs.getLast? = some (fun _ => none) := by simp [g]
  refine ⟨(C145_counts g p rfl (by simp [g]) k (n + 1)).mpr ?_, fun c hc => ?_⟩
  · have h1 : Has k (fun _ => some t) := ⟨t, rfl, h0⟩
    have h2 : ¬ Has k (fun _ => none) := by rintro ⟨t, ht, _⟩; exact nomatch ht
    simp [g, List.countP_append, List.countP_replicate, h1, h2]
  · obtain ⟨t, ht, _⟩ := (mem_columns g p rfl _ hl k c).mp hc
    exact nomatch ht

/-- What is printed about the directories. -/
def shownDirs (l : List Says) : List Txt := l.filterMap fun s => match s with | .dir d => some d | _ => none
def otherDirs (l : List Says) : ℕ := (l.filterMap fun s => match s with | .others n => some n | _ => none).sum

/-- Directories: those shown and the number of others add up to all of them; the first and the last are shown, the first first. -/
theorem C145_dirs (dirs : List Txt) (n : ℕ) :
    (shownDirs (dirsPart dirs n)).length + otherDirs (dirsPart dirs n) = dirs.length ∧
    (shownDirs (dirsPart dirs n)).head? = dirs.head? ∧ (shownDirs (dirsPart dirs n)).getLast? = dirs.getLast? := by
  match dirs with
  | [] =>
    by_cases h : n = 0 <;> simp [dirsPart, h, shownDirs, otherDirs]
  | [a] => simp [dirsPart, shownDirs, otherDirs]
  | [a, b] => simp [dirsPart, shownDirs, otherDirs]
  | a :: b :: c :: r =>
    simp only [dirsPart, List.length_cons, ne_eq, Nat.add_eq_zero_iff, one_ne_zero, and_false, not_false_eq_true, true_or, if_true]
    refine ⟨?_, rfl, ?_⟩
    · simp [shownDirs, otherDirs]; omega
    · simp [shownDirs, List.getLast?_eq_some_getLast]

/-- Nothing shown twice if the directories differ. -/
theorem C145_dirs_distinct (dirs : List Txt) (n : ℕ) (h : dirs.Nodup) : (shownDirs (dirsPart dirs n)).Nodup := by
  match dirs with
  | [] => by_cases h : n = 0 <;> simp [dirsPart, h, shownDirs]
  | [a] => simp [dirsPart, shownDirs]
  | [a, b] => simpa [dirsPart, shownDirs] using h
  | a :: b :: c :: r =>
    have hm : (c :: r).getLast (by simp) ∈ c :: r := List.getLast_mem _
    have ha : a ∉ b :: c :: r := (List.nodup_cons.mp h).1
    simp only [dirsPart, List.length_cons, ne_eq, Nat.add_eq_zero_iff, one_ne_zero, and_false, not_false_eq_true, true_or, if_true]
    have hne : a ≠ (c :: r).getLast (by simp) := fun e => ha (by rw [e]; exact List.mem_cons_of_mem _ hm)
    simp [shownDirs, hne]

/-- A grid with runs but no known directories says so; without both nothing is said. -/
theorem C145_no_dirs (n : ℕ) : dirsPart [] n = if n = 0 then [] else [.noDirs] := by
  by_cases h : n = 0 <;> simp [dirsPart, h]

/-- A grid without a file says only that. -/
theorem C145_no_file (g : Grid) (h : g.path = none) : describe g = [.noFile] := by simp [describe, h]

/-- The tables of initial and final values: their columns if loaded. -/
theorem C145_values (g : Grid) (p : Txt) (hp : g.path = some p) (ci cf : List Txt) (hi : g.initial = some ci) (hf : g.final = some cf) :
    Says.initialCols ci ∈ describe g ∧ Says.finalCols cf ∈ describe g ∧ Says.noInitial ∉ describe g ∧ Says.noFinal ∉ describe g := by
  have hd : ∀ s : Says, s = .noInitial ∨ s = .noFinal → s ∉ dirsPart g.dirs g.runs.length ∧ s ∉ runsPart g.runs := by
    rintro s (rfl | rfl) <;> refine ⟨?_, ?_⟩
    · unfold dirsPart; split <;> (try split) <;> simp
    · unfold runsPart; split <;> simp [columnsOf]
    · unfold dirsPart; split <;> (try split) <;> simp
    · unfold runsPart; split <;> simp [columnsOf]
  have h1 := hd .noInitial (.inl rfl)
  have h2 := hd .noFinal (.inr rfl)
  have h3 : (if g.config = [] then Says.emptyConfig else .config g.config) ≠ .noInitial ∧
      (if g.config = [] then Says.emptyConfig else .config g.config) ≠ .noFinal := by
    by_cases hc : g.config = [] <;> simp [hc]
  simp only [describe, hp, valuesPart, hi, hf]
  refine ⟨by simp, by simp, ?_, ?_⟩
  · simp [h1.1, h1.2, h3.1.symm]
  · simp [h2.1, h2.2, h3.2.symm]

theorem found_iff (files : List Name) (n : Name) (o : Option Name) (h : Locates files n o) : isFound o = true ↔ n ∈ files ∨ n ++ (chars! ".gz") ∈ files := by
  cases o with
  | none =>
    constructor
    · intro e; exact nomatch e
    · rintro (e | e)
      · exact absurd e h.1
      · exact absurd e h.2
  | some f =>
    refine ⟨fun _ => ?_, fun _ => rfl⟩
    obtain ⟨hm, rfl | rfl⟩ := h
    · exact .inl hm
    · exact .inr hm

/-- The report of a run says yes exactly for the files that are in the folder, plain or compressed. -/
theorem C145_report (fmt : Name) (binary : Bool) (files : List Name) (l1 l2 : Option (List Name)) (r : RunFiles.Run)
    (h : readRun fmt binary files l1 l2 = .ok r) :
    ((.binary, true) ∈ (report r).1 ↔ (chars! "binary_history.data") ∈ files ∨ (chars! "binary_history.data") ++ (chars! ".gz") ∈ files) ∧
    ((.model 1, true) ∈ (report r).1 ↔ (chars! "final_star1.mod") ∈ files ∨ (chars! "final_star1.mod") ++ (chars! ".gz") ∈ files) ∧
    ((.model 2, true) ∈ (report r).1 ↔ (chars! "final_star2.mod") ∈ files ∨ (chars! "final_star2.mod") ++ (chars! ".gz") ∈ files) := by
  have hf : r.found = scan binary files := by
    unfold readRun at h
    split at h
    · cases h; rfl
    · exact nomatch h
  obtain ⟨h1, h2, h3, _⟩ := C114_files binary files
  rw [← found_iff files _ _ h1, ← found_iff files _ _ h2, ← found_iff files _ _ h3]
  simp only [report, hf, List.mem_cons, Prod.mk.injEq, reduceCtorEq, false_and, false_or, true_and, Item.model.injEq, OfNat.ofNat_ne_one, OfNat.one_ne_ofNat,
    or_false, List.not_mem_nil]
  exact ⟨eq_comm, eq_comm, eq_comm⟩

/-- And for the files of the logs of both stars. -/
theorem C145_report_logs (fmt : Name) (binary : Bool) (files a b : List Name) (r : RunFiles.Run)
    (h : readRun fmt binary files (some a) (some b) = .ok r) :
    ((.history 1, true) ∈ (report r).1 ↔ (chars! "history.data") ∈ a ∨ (chars! "history.data") ++ (chars! ".gz") ∈ a) ∧
    ((.history 2, true) ∈ (report r).1 ↔ (chars! "history.data") ∈ b ∨ (chars! "history.data") ++ (chars! ".gz") ∈ b) ∧
    ((.final 1, true) ∈ (report r).1 ↔ (chars! "final_profile.data") ∈ a ∨ (chars! "final_profile.data") ++ (chars! ".gz") ∈ a) ∧
    ((.final 2, true) ∈ (report r).1 ↔ (chars! "final_profile.data") ∈ b ∨ (chars! "final_profile.data") ++ (chars! ".gz") ∈ b) ∧
    ((.initial 1, true) ∈ (report r).1 ↔ (chars! "initial_profile.data") ∈ a ∨ (chars! "initial_profile.data") ++ (chars! ".gz") ∈ a) ∧
    ((.initial 2, true) ∈ (report r).1 ↔ (chars! "initial_profile.data") ∈ b ∨ (chars! "initial_profile.data") ++ (chars! ".gz") ∈ b) := by
  have hr : r.logs1 = logs (some a) ∧ r.logs2 = logs (some b) := by
    unfold readRun at h
    split at h
    · cases h; exact ⟨rfl, rfl⟩
    · exact nomatch h
  have key : ∀ (l : List Name) (n : Name), isFound (joined l n) = true ↔ n ∈ l ∨ n ++ (chars! ".gz") ∈ l := by
    intro l n
    obtain ⟨h1, h2, h3, _, _⟩ := C114_logs l n
    by_cases ha : n ∈ l
    · simp [h1 ha, isFound, ha]
    · by_cases hb : n ++ (chars! ".gz") ∈ l
      · rw [h2 ha hb]; simp only [isFound, Option.isSome_some, true_iff]; exact .inr hb
      · rw [h3 ha hb]; simp only [isFound, Option.isSome_none, Bool.false_eq_true, false_iff, not_or]; exact ⟨ha, hb⟩
  rw [← key, ← key, ← key, ← key, ← key, ← key]
  simp only [report, hr.1, hr.2, logs, List.mem_cons, Prod.mk.injEq, reduceCtorEq, false_and, false_or, true_and, Item.history.injEq, Item.final.injEq,
    Item.initial.injEq, OfNat.ofNat_ne_one, OfNat.one_ne_ofNat, or_false, List.not_mem_nil]
  refine ⟨eq_comm, eq_comm, eq_comm, eq_comm, eq_comm, eq_comm⟩

/-- A grid of three runs in which a profile is missing. -/
example : let t : Tab := ⟨[(chars! "age"), (chars! "mass")], 4⟩
    let g : Grid := ⟨some (chars! "grid.h5"), [fun _ => some t, fun k => if k = .profile2 then none else some t, fun _ => some t], none, none, [], []⟩
    Says.nTables .profile2 2 ∈ describe g ∧ Says.columns .profile2 [(chars! "age"), (chars! "mass")] ∈ describe g := by decide

/-- The screen output is that of the kind of run; the number of metadata files is that of the files found besides. -/
theorem C145_screen (fmt : Name) (binary : Bool) (files : List Name) (l1 l2 : Option (List Name)) (r : RunFiles.Run)
    (h : readRun fmt binary files l1 l2 = .ok r) :
    ((.screen, true) ∈ (report r).1 ↔ (if binary then (chars! "out.txt") else (chars! "out_star1_formation_step0.txt")) ∈ files ∨
      (if binary then (chars! "out.txt") else (chars! "out_star1_formation_step0.txt")) ++ (chars! ".gz") ∈ files) ∧
    (report r).2 = (scan binary files).info.length := by
  have hf : r.found = scan binary files := by
    unfold readRun at h
    split at h
    · cases h; rfl
    · exact nomatch h
  obtain ⟨_, _, _, h4⟩ := C114_files binary files
  rw [← found_iff files _ _ h4]
  refine ⟨?_, by rw [report, hf]⟩
  simp only [report, hf, List.mem_cons, Prod.mk.injEq, reduceCtorEq, false_and, true_and, or_false, List.not_mem_nil]
  exact eq_comm

end Verif.Describe
