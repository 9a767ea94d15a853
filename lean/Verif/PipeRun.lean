import Verif.Chars
import Verif.Frame
import Mathlib.Algebra.Order.Field.Rat
import Mathlib.Data.Rat.Floor
import Mathlib.Algebra.BigOperators.Group.List.Basic
import Mathlib.Data.List.Dedup
import Mathlib.Data.List.Count
import Mathlib.Tactic.Common

/-!
# The tasks of the post-processing pipeline

Model of `bin/posydon-run-pipeline`: what one task does with the row of its table and
with the files: `create_grid_slice` (l.112-202), `combine_grid_slices` (l.205-232),
`calculate_extra_values` (l.235-303), `train_profile_interpolators` (l.462-540),
`export_dataset` (l.546-584) and `do_check` (l.1355-1428).
The choice of the function and of the rows is in `Verif/PipelineCsv.lean`, the classes
and keys of `train_interpolators` are in `Verif/Rerun.lean`.

Simplifications.  The files are a map from paths to contents (`Disk`), a path is a
text, directories are a predicate.  A row is a map from columns to texts (a column
which is missing in the table is `none`); a cell which holds a list gives the list,
or `none` when it is no list; `stop_before_carbon_depletion` is a truth value.  The
contents of grids, the processing of a grid, joining and training are parameters which
may raise.  Printed text and warnings are left out.  `get_new_grid_name` is a parameter
(it is modelled in `Verif/GridJoin.lean`); the directories it makes are left out.
-/

namespace Verif.PipeRun

abbrev Name := List Char

open Verif.Frame (isIn split)

/-- The exceptions. -/
inductive Err where
  /-- `FileNotFoundError` -/
  | file
  /-- `KeyError` -/
  | key
  /-- `NotADirectoryError` -/
  | dir
  /-- `ValueError` -/
  | value
  /-- `TypeError` -/
  | type
  /-- `FileExistsError` -/
  | there
  /-- `shutil.SameFileError` -/
  | same
  /-- whatever the processing raises -/
  | work
deriving DecidableEq

/-- The files with their contents, and the directories. -/
structure Disk (G : Type) where
  file : Name → Option G
  isDir : Name → Bool

/-- The disk with one file written. -/
def Disk.write {G : Type} (d : Disk G) (p : Name) (g : G) : Disk G :=
  { d with file := fun q => if q = p then some g else d.file q }

/-- The disk with one file removed. -/
def Disk.remove {G : Type} (d : Disk G) (p : Name) : Disk G :=
  { d with file := fun q => if q = p then none else d.file q }

/-- A row of a table. -/
abbrev Row := Name → Option Name

/-- Reading the row of a task: the table may be missing, the index too large
(e.g. l.128-133). -/
def rowOf {R : Type} (csv : Option (List R)) (i : ℕ) : Except Err R :=
  match csv with
  | none => .error .file
  | some rs => match rs[i]? with
    | none => .error .key
    | some r => .ok r

/-- A column that has to be there (e.g. l.141-144). -/
def need (r : Row) (k : Name) : Except Err Name :=
  match r k with
  | some v => .ok v
  | none => .error .key

/-- A column with the path of a file that has to be there (e.g. l.256-261). -/
def needFile {G : Type} (d : Disk G) (r : Row) (k : Name) : Except Err (Name × G) :=
  match r k with
  | some v => match d.file v with
    | some g => .ok (v, g)
    | none => .error .file
  | none => .error .key

/-! ### Slices of grids -/

/-- `COMPRESSIONS` (l.94-109): errors of the down sampling of histories and profiles, the
interval of profiles, and whether the columns left out are those of the small files. -/
structure Sampling where
  history : Option ℚ
  profile : Option ℚ
  interval : Option ℚ
  extra : Bool
deriving DecidableEq

def sampling (pure : Name) : Except Err Sampling :=
  if pure = (chars! "ORIGINAL") then .ok ⟨none, none, none, false⟩
  else if pure = (chars! "LITE") then .ok ⟨some (1/10), some (1/10), some (-5/1000), true⟩
  else .error .value

/-- The arguments of `PSyGrid.create` (l.190-201). -/
structure Create where
  source : Name
  target : Name
  overwrite : Bool
  sampling : Sampling
  startAtRLO : Bool
  stopBeforeCDepl : Bool

/-- `create_grid_slice` (l.112-202) up to the call of `PSyGrid.create`, which refuses
(`psygrid.py` l.555-557) to write over a file without `overwrite`.  `stop` is the column
`stop_before_carbon_depletion`. -/
def slice {G : Type} (newName : Name → Name → Name) (d : Disk G) (verbose overwrite : Bool)
    (csv : Option (List (Row × Option Bool))) (i : ℕ) : Except Err Create :=
  match rowOf csv i with
  | .error e => .error e
  | .ok (r, stop) =>
  match need r (chars! "path_to_grid") with
  | .error e => .error e
  | .ok path =>
  if !d.isDir path then .error .dir else
  match need r (chars! "compression") with
  | .error e => .error e
  | .ok comp =>
  match need r (chars! "grid_type") with
  | .error e => .error e
  | .ok type =>
  let stop' := match stop with
    | none => false
    | some b => if isIn (chars! "HMS") type then b else false
  let out := newName path comp
  match sampling ((split (chars! "_") comp).headD []) with
  | .error e => .error e
  | .ok s =>
  if verbose && (d.file out).isSome && !overwrite then .error .there
  else if !overwrite && (d.file out).isSome then .error .there
  else .ok ⟨path, out, overwrite, s, isIn (chars! "RLO") comp, stop'⟩

/-! ### Joining -/

/-- `combine_grid_slices` (l.205-232): the table has one column for each new grid, named by its path; empty
cells are dropped. -/
def combine (csv : Option (List (Name × List (Option Name)))) (i : ℕ) : Except Err (List Name × Name) :=
  match csv with
  | none => .error .file
  | some cs =>
    if cs.length ≤ i then .error .key
    else match cs[i]? with
      | none => .error .key
      | some c => .ok (c.2.filterMap (fun x => x), c.1)

/-! ### Further values -/

/-- `calculate_extra_values` (l.235-303).  `post` is the post-processing of the grid which
was not sampled down (second argument: the second star is a compact object), `add` adds its
result to a grid.  The state of the files is returned also when an exception is raised. -/
def extra {G X : Type} (post : G → Bool → Except Err X) (add : G → X → Except Err G) (d : Disk G)
    (csv : Option (List Row)) (i : ℕ) : Disk G × Except Err Unit :=
  match rowOf csv i with
  | .error e => (d, .error e)
  | .ok r =>
  match needFile d r (chars! "path_to_grid") with
  | .error e => (d, .error e)
  | .ok (path, _) =>
  match need r (chars! "grid_type") with
  | .error e => (d, .error e)
  | .ok type =>
  match need r (chars! "path_to_processed_grid") with
  | .error e => (d, .error e)
  | .ok out =>
  match needFile d r (chars! "path_to_grid_ORIGINAL") with
  | .error e => (d, .error e)
  | .ok (_, orig) =>
  match post orig (isIn (chars! "CO") type) with
  | .error e => (d, .error e)
  | .ok x =>
  let d1 := if (d.file out).isSome then d.remove out else d
  match d1.file path with
  | none => (d1, .error .file)
  | some g =>
  let d2 := d1.write out g
  match add g x with
  | .error e => (d2, .error e)
  | .ok g' => (d2.write out g', .ok ())

/-! ### Export -/

/-- `export_dataset` (l.546-584); `parent` is the directory of a path: `shutil.copyfile`
raises when it is missing and when the two paths are the same. -/
def exportGrid {G : Type} (parent : Name → Name) (d : Disk G) (csv : Option (List Row)) (i : ℕ) :
    Disk G × Except Err Unit :=
  match rowOf csv i with
  | .error e => (d, .error e)
  | .ok r =>
  match needFile d r (chars! "path_to_grid") with
  | .error e => (d, .error e)
  | .ok (path, g) =>
  match need r (chars! "export_path") with
  | .error e => (d, .error e)
  | .ok out =>
  if path = out then (d, .error .same)
  else if !d.isDir (parent out) then (d, .error .file)
  else (d.write out g, .ok ())

/-! ### Profiles -/

/-- `train_profile_interpolators` (l.462-540): `names` is the column `profile_names` (missing, no list, or
a list); `compile` reads the profiles of a grid (second argument: those of the second star too),
`train` trains with the interpolator of final values. -/
def profiles {G : Type} (parent : Name → Name) (compile : G → Bool → List Name → Except Err G)
    (train : G → G → Except Err G) (d : Disk G)
    (csv : Option (List (Row × Option (Option (List Name))))) (i : ℕ) : Disk G × Except Err Unit :=
  match rowOf csv i with
  | .error e => (d, .error e)
  | .ok (r, names) =>
  match needFile d r (chars! "path_to_grid") with
  | .error e => (d, .error e)
  | .ok (_, g) =>
  match need r (chars! "grid_type") with
  | .error e => (d, .error e)
  | .ok type =>
  match names with
  | none => (d, .error .key)
  | some none => (d, .error .type)
  | some (some ns) =>
  match needFile d r (chars! "path_to_IF_interpolator") with
  | .error e => (d, .error e)
  | .ok (ifPath, _) =>
  match need r (chars! "path_to_profile_interpolator") with
  | .error e => (d, .error e)
  | .ok out =>
  let d0 : Disk G := { d with isDir := fun p => p = parent out || d.isDir p }
  match compile g (!isIn (chars! "CO") type) ns with
  | .error e => (d0, .error e)
  | .ok ps =>
  let d1 := d0.write (out ++ (chars! ".tmp")) ps
  match d1.file ifPath with
  | none => (d1, .error .file)
  | some m =>
  match train ps m with
  | .error e => (d1, .error e)
  | .ok t => (d1.write out t, .ok ())

/-! ### Checks -/

/-- `collections.Counter`: the different values in the order of their first appearance with their
numbers. -/
def counter : List Name → List (Name × ℕ)
  | [] => []
  | x :: l => (x, l.count x + 1) :: (counter l).filter (fun c => c.1 ≠ x)

/-- `round(x)` of Python: to the nearest integer, ties to the even one. -/
def rnd (x : ℚ) : ℤ :=
  let f := ⌊x⌋
  if x - f < 1/2 then f
  else if 1/2 < x - f then f + 1
  else if f % 2 = 0 then f else f + 1

/-- The failure rate in percent (l.1402-1409). -/
def failureRate (classes : List Name) : ℚ :=
  let count := counter classes
  let n : ℚ := ((count.map (·.2)).foldl (· + ·) 0 : ℕ)
  match count.lookup (chars! "not_converged") with
  | some c => (rnd ((c : ℚ) / n * 100 * 100) : ℚ) / 100
  | none => 0

/-- What a check prints. -/
inductive Report where
  | rate (q : ℚ)
  | counts (key : Name) (c : List (Name × ℕ))
deriving DecidableEq

/-- The columns of the supernova models whose name contains a text (l.1412-1417, l.1419-1424). -/
def typeCounts (what : Name) (models : List (Name × List (Name × List Name))) : List Report :=
  models.flatMap fun m => (m.2.filter fun c => isIn what c.1).map fun c =>
    .counts (c.1.take 3 ++ m.1 ++ (chars! "_") ++ c.1.drop 3) (counter c.2)

/-- One check (l.1400-1428): an unknown check only warns. -/
def check (classes : List Name) (models : List (Name × List (Name × List Name))) (c : Name) : List Report :=
  if c = (chars! "failure_rate") then [.rate (failureRate classes)]
  else if c = (chars! "CO_type") then typeCounts (chars! "CO_type") models
  else if c = (chars! "SN_type") then typeCounts (chars! "SN_type") models
  else []

/-- `do_check` (l.1355-1428): `todo` is the column `checks_to_do`; the contents of a grid are the
interpolation classes of its runs and the tables of the supernova models. -/
def doCheck (d : Disk (List Name × List (Name × List (Name × List Name))))
    (csv : Option (List (Row × Option (Option (List Name))))) (i : ℕ) : Except Err (List Report) :=
  match rowOf csv i with
  | .error e => .error e
  | .ok (r, todo) =>
  match needFile d r (chars! "path_to_grid") with
  | .error e => .error e
  | .ok (_, g) =>
  match todo with
  | none => .error .key
  | some none => .error .type
  | some (some cs) => .ok (cs.flatMap (check g.1 g.2))

/-! ### Lemmas -/

theorem rnd_near (x : ℚ) : |(rnd x : ℚ) - x| ≤ 1/2 := by
  have h1 := Int.floor_le x
  have h2 := Int.lt_floor_add_one x
  rw [abs_le]
  unfold rnd
  dsimp only
  by_cases a : x - (⌊x⌋ : ℚ) < 1/2
  · rw [if_pos a]; constructor <;> linarith
  · rw [if_neg a]
    by_cases b : 1/2 < x - (⌊x⌋ : ℚ)
    · rw [if_pos b]; push_cast; constructor <;> linarith
    · rw [if_neg b]
      by_cases c : ⌊x⌋ % 2 = 0
      · rw [if_pos c]; constructor <;> linarith
      · rw [if_neg c]; push_cast; constructor <;> linarith

theorem rnd_mono {x y : ℚ} (h : x ≤ y) : rnd x ≤ rnd y := by
  by_contra hc
  push Not at hc
  have h1 := abs_le.mp (rnd_near x)
  have h2 := abs_le.mp (rnd_near y)
  have h3 : (rnd y : ℚ) + 1 ≤ rnd x := by exact_mod_cast hc
  have hxy : x = y := by linarith
  rw [hxy] at hc
  exact lt_irrefl _ hc

theorem rnd_int (n : ℤ) : rnd n = n := by
  unfold rnd
  simp

theorem counter_fst_mem (l : List Name) (x : Name) : x ∈ (counter l).map (·.1) ↔ x ∈ l := by
  induction l with
  | nil => simp [counter]
  | cons a l ih =>
    simp only [counter, List.map_cons, List.mem_cons, List.mem_map, List.mem_filter] at ih ⊢
    constructor
    · rintro (h | ⟨c, ⟨hc, _⟩, rfl⟩)
      · exact .inl h
      · exact .inr (ih.mp ⟨c, hc, rfl⟩)
    · rintro (h | h)
      · exact .inl h
      · by_cases hx : x = a
        · exact .inl hx
        · obtain ⟨c, hc, rfl⟩ := ih.mpr h
          exact .inr ⟨c, ⟨hc, by simpa using hx⟩, rfl⟩

theorem counter_count (l : List Name) : ∀ c ∈ counter l, c.2 = l.count c.1 := by
  induction l with
  | nil => simp [counter]
  | cons a l ih =>
    intro c hc
    rcases List.mem_cons.mp hc with rfl | hc
    · simp
    · obtain ⟨h1, h2⟩ := List.mem_filter.mp hc
      have h2 : c.1 ≠ a := by simpa using h2
      rw [ih c h1, List.count_cons_of_ne h2.symm]

theorem counter_nodup (l : List Name) : ((counter l).map (·.1)).Nodup := by
  induction l with
  | nil => simp [counter]
  | cons a l ih =>
    simp only [counter, List.map_cons, List.nodup_cons]
    constructor
    · simp [List.mem_map, List.mem_filter]
    · exact ih.sublist (List.Sublist.map _ List.filter_sublist)

theorem sum_filter (p : Name → Bool) : ∀ l : List (Name × ℕ),
    (l.map (·.2)).sum = ((l.filter fun c => p c.1).map (·.2)).sum + ((l.filter fun c => !p c.1).map (·.2)).sum
  | [] => rfl
  | c :: l => by
    have ih := sum_filter p l
    cases h : p c.1 <;> simp [h, ih] <;> omega

theorem counter_lookup (l : List Name) (x : Name) :
    (counter l).lookup x = if x ∈ l then some (l.count x) else none := by
  induction l with
  | nil => rfl
  | cons a l ih =>
    by_cases h : x = a
    · subst h; simp [counter]
    · have hb : (x == a) = false := by simpa using h
      have key : ∀ m : List (Name × ℕ), (m.filter fun c => c.1 ≠ a).lookup x = m.lookup x := by
        intro m
        induction m with
        | nil => rfl
        | cons c m ihm =>
          obtain ⟨k, v⟩ := c
          by_cases hk : k = a
          · subst hk
            rw [List.filter_cons_of_neg (by simp), ihm, List.lookup_cons, hb]
          · rw [List.filter_cons_of_pos (by simpa using hk), List.lookup_cons, List.lookup_cons, ihm]
      rw [counter, List.lookup_cons, hb]
      show ((counter l).filter fun c => c.1 ≠ a).lookup x = _
      rw [key, ih]
      simp [h, List.count_cons_of_ne (Ne.symm h)]

theorem counter_sum (l : List Name) : ((counter l).map (·.2)).sum = l.length := by
  induction l with
  | nil => rfl
  | cons a l ih =>
    have h := sum_filter (fun n => decide (n ≠ a)) (counter l)
    have hl : ∀ m : List (Name × ℕ), (m.map (·.1)).Nodup →
        ((m.filter fun c => !decide (c.1 ≠ a)).map (·.2)).sum = (m.lookup a).getD 0 := by
      intro m hm
      induction m with
      | nil => rfl
      | cons c m ihm =>
        obtain ⟨k, v⟩ := c
        obtain ⟨h1, h2⟩ := List.nodup_cons.mp hm
        by_cases hk : k = a
        · subst hk
          have : m.filter (fun c => !decide (c.1 ≠ k)) = [] := by
            rw [List.filter_eq_nil_iff]
            intro c hc hcn
            have : c.1 = k := by simpa using hcn
            exact h1 (List.mem_map.mpr ⟨c, hc, this⟩)
          rw [List.filter_cons_of_pos (by simp), this]
          simp
        · have hb : (a == k) = false := by simpa using fun e : a = k => hk e.symm
          rw [List.filter_cons_of_neg (by simpa using hk), ihm h2, List.lookup_cons, hb]
    rw [hl _ (counter_nodup l), counter_lookup] at h
    have hz : (if a ∈ l then some (l.count a) else none).getD 0 = l.count a := by
      by_cases hm : a ∈ l
      · simp [hm]
      · simp [hm, List.count_eq_zero_of_not_mem hm]
    rw [hz, ih] at h
    simp only [counter, List.map_cons, List.sum_cons, List.length_cons]
    omega

theorem foldl_add (l : List ℕ) : ∀ a, l.foldl (· + ·) a = a + l.sum := by
  induction l with
  | nil => simp
  | cons x l ih => intro a; simp [ih]; omega

end Verif.PipeRun
