import Verif.Chars
import Verif.Frame
import Verif.GridJoin
import Mathlib.Algebra.Order.Field.Rat
import Mathlib.Data.List.Basic
import Mathlib.Data.List.Nodup
import Mathlib.Data.List.Perm.Basic
import Mathlib.Data.List.Perm.Subperm
import Mathlib.Tactic.Common

/-!
# Files of runs and of grids

Model of `posydon/grids/io.py`: `RunReader` (l.78-187), `GridReader._get_input_folders` (the metadata, l.290-299) and
`read_posydon_format` (l.308-320), `print_meta_contents` (l.367-399); of `posydon/grids/psygrid.py`: `_discover_eeps`
(l.450-469), `add_column` from l.1396 on, `update_final_values` (l.1420-1439), `_reload_hdf5_file` (l.1441-1457), the parts of
`load` on the final values (l.1490-1514) and `PSyRunView.__getitem__` (l.2290-2322); and of `posydon/grids/lazy_hdf.py`:
`LazyHDF5` (l.9-92).

Simplifications.  A folder is the list of the names in it in the order of `os.listdir`; the folders `LOGS1` and `LOGS2` are given
as the list of names in them, or none if there is no such folder.  Texts are lists of characters.  Columns of tables are numbers, byte texts or unicode texts; `show` writes a number as a
text.  Saving a unicode column of fixed width to an HDF5 file is an error (h5py has no such type), raised after the old data
set has been deleted; a data set of a file that has been closed cannot be read.  Printed reports and warnings, and the compression, are left out.
-/

namespace Verif.RunFiles

open Verif.Frame (isIn split)
open Verif.GridJoin (loadedAsText)

abbrev Name := List Char

inductive Err where
  | value
  | key
  | io
  | assertion
  | unicode
  | type
  | exists
deriving DecidableEq

/-! ### The files of a run -/

def gz (n : Name) : Name := n ++ (chars! ".gz")

def isFile (n f : Name) : Bool := f == n || f == gz n

def runMeta : List Name := [(chars! "inlist_grid_points"), (chars! "summary.txt"), (chars! "out.txt"),
  (chars! "inlist_grid_point.gz"), (chars! "summary.txt.gz"), (chars! "out.txt.gz")]

def nBH : Name := (chars! "binary_history.data")
def nS1 : Name := (chars! "final_star1.mod")
def nS2 : Name := (chars! "final_star2.mod")
def nOut : Name := (chars! "out.txt")
def nOne : Name := (chars! "out_star1_formation_step0.txt")

structure Found where
  bh : Option Name := none
  star1 : Option Name := none
  star2 : Option Name := none
  out : Option Name := none
  info : List Name := []
deriving DecidableEq

/-- One name of the folder, l.142-156. -/
def see (binary : Bool) (s : Found) (f : Name) : Found :=
  if isFile nBH f then { s with bh := some f }
  else if isFile nS1 f then { s with star1 := some f }
  else if isFile nS2 f then { s with star2 := some f }
  else if isFile nOut f && binary then { s with out := some f }
  else if isFile nOne f && !binary then { s with out := some f }
  else if f ∈ runMeta then { s with info := s.info ++ [f] }
  else s

/-- The loop over the folder, l.140-156. -/
def scan (binary : Bool) (files : List Name) : Found := files.foldl (see binary) {}

/-- `joined_exists` (l.130-138) in a folder. -/
def joined (files : List Name) (n : Name) : Option Name :=
  if n ∈ files then some n else if gz n ∈ files then some (gz n) else none

structure Logs where
  history : Option Name := none
  final : Option Name := none
  initial : Option Name := none
deriving DecidableEq

/-- The files in a folder of logs, l.158-174; a file of the name, or a compressed one, is not a folder. -/
def logs : Option (List Name) → Logs
  | none => {}
  | some files => { history := joined files (chars! "history.data"), final := joined files (chars! "final_profile.data"),
                    initial := joined files (chars! "initial_profile.data") }

structure Run where
  found : Found
  logs1 : Logs
  logs2 : Logs
  warned : Bool
deriving DecidableEq

/-- `RunReader.__init__` and `read_posydon_format`, l.120-187. -/
def readRun (fmt : Name) (binary : Bool) (files : List Name) (l1 l2 : Option (List Name)) : Except Err Run :=
  if fmt ∈ [(chars! "posydon"), (chars! "posydon_single")] then
    let f := scan binary files
    let a := logs l1
    let b := logs l2
    .ok { found := f, logs1 := a, logs2 := b,
          warned := a.history.isNone && b.history.isNone && f.bh.isNone && a.final.isNone && b.final.isNone
            && a.initial.isNone && b.initial.isNone && f.star1.isNone && f.star2.isNone && f.out.isNone && f.info.isEmpty }
  else .error .value

/-! ### The grid -/

def gridMeta : List Name :=
  [(chars! "grid_test.csv"), (chars! "grid_test.csv.gz"), (chars! "grid.csv"), (chars! "grid.csv.gz")]

/-- The metadata of one folder, l.293-299. -/
def metaOf (files : List Name) : List Name :=
  gridMeta.flatMap fun m => (if m ∈ files then [m] else []) ++ (if gz m ∈ files then [gz m] else [])

/-- The metadata of all folders, l.274-299: the list starts again with every folder. -/
def gridInfo (folders : List (List Name)) : List Name :=
  folders.foldl (fun _ files => metaOf files) []

def ignored : List Name := [(chars! "make"), (chars! "star1"), (chars! "star2"), (chars! "binary"), (chars! "data"),
  (chars! "column_lists"), (chars! "new_data"), (chars! "template"), (chars! ".ipynb_checkpoints")]

/-- The folders that are read as runs, l.313-320: whole paths are compared. -/
def readFolders (paths : List Name) : List Name := paths.filter fun p => !ignored.contains p

/-- What `print_meta_contents` prints of the lines of a file, l.381-399; `none` for "wrap". -/
def printed (maxLines : Option ℕ) (width : Option ℕ) (lines : List Name) : List Name :=
  if maxLines = some 0 then []
  else
    let l := match maxLines with
      | none => lines
      | some n => lines.take n
    l.map fun x => match width with
      | none => x
      | some w => x.take w

/-! ### Equivalent evolutionary points -/

def eepExt : List Name := [(chars! ".data.eep"), (chars! ".data.clean.eep"), (chars! ".data.eep.gz"), (chars! ".data.clean.eep.gz")]

/-- `glob` with a star and the extension: names with a leading dot are hidden. -/
def matchesExt (e f : Name) : Bool := e.isSuffixOf f && f.head? != some '.'

/-- The identifier, l.465: the last but one piece. -/
def ident (e f : Name) : Name := ((split e f).reverse.getD 1 [])

/-- The files in the order of the loops, with their identifiers. -/
def eepFiles (files : List Name) : List (Name × Name) :=
  eepExt.flatMap fun e => (files.filter fun f => matchesExt e f).map fun f => (ident e f, f)

/-- The dictionary, l.460-467. -/
def collect : List (Name × Name) → List (Name × Name) → Except Err (List (Name × Name))
  | [], d => .ok d
  | p :: r, d => if p.1 ∈ d.map (·.1) then .error .assertion else collect r (d ++ [p])

/-- `_discover_eeps`. -/
def discover (files : List Name) : Except Err (Option (List (Name × Name))) :=
  match collect (eepFiles files) [] with
  | .error e => .error e
  | .ok d => .ok (if d.isEmpty then none else some d)

/-! ### The final values in the file -/

inductive Col where
  | num (l : List ℚ)
  | bytes (l : List Name)
  | uni (l : List Name)
deriving DecidableEq

abbrev Table := List (Name × Col)

def ascii (s : Name) : Bool := s.all fun c => c.toNat < 128

/-- Conversion to the type of texts in the file (`S70`). -/
def toBytes (shw : ℚ → Name) : Col → Except Err Col
  | .num l => .ok (.bytes (l.map fun q => (shw q).take 70))
  | .bytes l => .ok (.bytes (l.map (·.take 70)))
  | .uni l => if l.all ascii then .ok (.bytes (l.map (·.take 70))) else .error .unicode

/-- Conversion to unicode (`U70`). -/
def toUni (shw : ℚ → Name) : Col → Col
  | .num l => .uni (l.map fun q => (shw q).take 70)
  | .bytes l => .uni (l.map (·.take 70))
  | .uni l => .uni (l.map (·.take 70))

/-- The columns with the types for the file, l.1427-1434. -/
def forFile (shw : ℚ → Name) : Table → Except Err Table
  | [] => .ok []
  | (n, c) :: t =>
    match (if loadedAsText n then toBytes shw c else .ok c), forFile shw t with
    | .ok c, .ok t => .ok ((n, c) :: t)
    | .error e, _ => .error e
    | _, .error e => .error e

/-- The columns as they are given when reading, l.1490-1498. -/
def view (shw : ℚ → Name) (t : Table) : Table := t.map fun p => (p.1, if loadedAsText p.1 then toUni shw p.2 else p.2)

def Col.isUni : Col → Bool
  | .uni _ => true
  | _ => false

/-- Whether h5py can save a table. -/
def savable (t : Table) : Bool := t.all fun p => !p.2.isUni

/-- Where values come from: the memory, or a data set of the file opened for the `gen`-th time. -/
inductive Src where
  | mem (t : Table)
  | file (gen : ℕ)

/-- A loaded grid: the data set in the file, how often it has been opened, the initial values, the final values and whether
they are given with the types for reading (`LazyHDF5` with a `dtype_set`). -/
structure Grid where
  stored : Option Table
  gen : ℕ
  initialStored : Table
  initial : Src
  final : Src
  typed : Bool

/-- `load` (l.1488-1512). -/
def load (shw : ℚ → Name) (lazy : Bool) (ini fin : Table) : Grid :=
  if lazy then { stored := some fin, gen := 0, initialStored := ini, initial := .file 0, final := .file 0, typed := true }
  else { stored := some fin, gen := 0, initialStored := ini, initial := .mem ini, final := .mem (view shw fin), typed := false }

/-- Reading values: a closed data set cannot be read. -/
def Src.read (g : Grid) (inFile : Option Table) : Src → Except Err Table
  | .mem t => .ok t
  | .file k => if k = g.gen then
      match inFile with
      | none => .error .key
      | some t => .ok t
    else .error .value

/-- The final values as an array (`__array__`, lazy_hdf.py l.69-73). -/
def Grid.finals (shw : ℚ → Name) (g : Grid) : Except Err Table :=
  match g.final.read g g.stored with
  | .error e => .error e
  | .ok t => .ok (if g.typed then view shw t else t)

def Grid.initials (g : Grid) : Except Err Table := g.initial.read g (some g.initialStored)

/-- `update_final_values`: the file is opened for writing, the values are converted, the old data set is deleted, the new one is
written, and the file is opened for reading.  A `LazyHDF5` with types converts back when it is written. -/
def update (shw : ℚ → Name) (g : Grid) : Grid × Option Err :=
  let g1 := { g with gen := g.gen + 1 }
  match g1.finals shw with
  | .error e => (g1, some e)
  | .ok t =>
    match forFile shw t with
    | .error e => (g1, some e)
    | .ok t' =>
      let t'' := if g.typed then view shw t' else t'
      if savable t'' then ({ g1 with stored := some t'', gen := g1.gen + 1 }, none)
      else ({ g1 with stored := none }, some .type)

/-- Setting a column (all names are different). -/
def setCol (t : Table) (n : Name) (c : Col) : Table := t.map fun p => if p.1 = n then (n, c) else p

/-- `add_column` from l.1407 on. -/
def addColumn (shw : ℚ → Name) (g : Grid) (n : Name) (c : Col) (overwrite : Bool) : Grid × Option Err :=
  match g.finals shw with
  | .error e => (g, some e)
  | .ok t =>
    if n ∈ t.map (·.1) then
      if overwrite then update shw { g with final := .mem (setCol t n c) } else (g, some .exists)
    else update shw { g with final := .mem (t ++ [(n, c)]), typed := false }

/-! ### Items of a lazily read table -/

/-- One column, lazy_hdf.py l.51-58. -/
def lazyCol (shw : ℚ → Name) (typed : Bool) (t : Table) (n : Name) : Except Err Col :=
  match t.lookup n with
  | none => .error .value
  | some c => .ok (if typed && loadedAsText n then toUni shw c else c)

/-- The columns of a tuple of names, in its order. -/
def pickCols (t : Table) : List Name → Except Err Table
  | [] => .ok []
  | n :: ns =>
    match t.lookup n, pickCols t ns with
    | none, _ => .error .value
    | _, .error e => .error e
    | some c, .ok r => .ok ((n, c) :: r)

/-- Several columns, l.51-58: `astype` with the types of all columns works by position, and fails for another number. -/
def lazyCols (shw : ℚ → Name) (typed : Bool) (t : Table) (ns : List Name) : Except Err Table :=
  match pickCols t ns with
  | .error e => .error e
  | .ok p =>
    if typed then
      if p.length = t.length then .ok (view shw ((t.zip p).map fun x => (x.1.1, x.2.2))) else .error .type
    else .ok p

/-! ### One run of a grid -/

def validKeys : List Name := [(chars! "binary_history"), (chars! "history1"), (chars! "history2"), (chars! "final_profile1"),
  (chars! "final_profile2"), (chars! "initial_values"), (chars! "final_values")]

/-- What a run gives. -/
inductive Item (T : Type) where
  | table (t : T)
  | missing
  | initialRow (i : ℕ)
  | finalRow (i : ℕ)
deriving DecidableEq

/-- `PSyRunView.__getitem__`; `tables` are those of the run in the file. -/
def runItem {T : Type} (opened : Bool) (tables : List (Name × T)) (i : ℕ) (k : Name) : Except Err (Item T) :=
  if k ∉ validKeys then .error .key
  else if k = (chars! "initial_values") then .ok (.initialRow i)
  else if k = (chars! "final_values") then .ok (.finalRow i)
  else if !opened then .error .io
  else match tables.lookup k with
    | some t => .ok (.table t)
    | none => .ok .missing

/-! ### Helper lemmas -/

theorem gz_inj {a b : Name} (h : gz a = gz b) : a = b := by simpa [gz] using h

/-- The last element of a list that meets a condition. -/
def lastWith (p : Name → Bool) (l : List Name) : Option Name := (l.filter p).getLast?

theorem lastWith_cons (p : Name → Bool) (f : Name) (l : List Name) (o : Option Name) :
    (lastWith p (f :: l)).or o = (lastWith p l).or (if p f then some f else o) := by
  unfold lastWith
  by_cases h : p f
  · rw [List.filter_cons_of_pos h, if_pos h, List.getLast?_cons]
    cases (l.filter p).getLast? <;> rfl
  · rw [List.filter_cons_of_neg h, if_neg h]

/-- Conditions for the parts of `Found`. -/
def isOut (binary : Bool) (f : Name) : Bool := if binary then isFile nOut f else isFile nOne f

def isInfo (binary : Bool) (f : Name) : Bool := decide (f ∈ runMeta) && !isOut binary f

/-- The names that are looked for exclude each other. -/
theorem exclusive (binary : Bool) (f : Name) :
    (isFile nBH f → isFile nS1 f = false ∧ isFile nS2 f = false ∧ isOut binary f = false ∧ isInfo binary f = false) ∧
    (isFile nS1 f → isFile nS2 f = false ∧ isOut binary f = false ∧ isInfo binary f = false) ∧
    (isFile nS2 f → isOut binary f = false ∧ isInfo binary f = false) := by
  have e : ∀ n, isFile n f = true ↔ f = n ∨ f = gz n := by intro n; simp [isFile]
  refine ⟨?_, ?_, ?_⟩
  · intro h
    rcases (e _).1 h with rfl | rfl <;> revert binary <;> decide
  · intro h
    rcases (e _).1 h with rfl | rfl <;> revert binary <;> decide
  · intro h
    rcases (e _).1 h with rfl | rfl <;> revert binary <;> decide

theorem see_eq (binary : Bool) (s : Found) (f : Name) :
    see binary s f = { bh := if isFile nBH f then some f else s.bh, star1 := if isFile nS1 f then some f else s.star1,
                       star2 := if isFile nS2 f then some f else s.star2, out := if isOut binary f then some f else s.out,
                       info := if isInfo binary f then s.info ++ [f] else s.info } := by
  obtain ⟨e1, e2, e3⟩ := exclusive binary f
  unfold see
  by_cases h1 : isFile nBH f
  · obtain ⟨a, b, c, d⟩ := e1 h1
    rw [if_pos h1, if_pos h1, a, b, c, d]; rfl
  · rw [if_neg h1, if_neg h1]
    by_cases h2 : isFile nS1 f
    · obtain ⟨b, c, d⟩ := e2 h2
      rw [if_pos h2, if_pos h2, b, c, d]; rfl
    · rw [if_neg h2, if_neg h2]
      by_cases h3 : isFile nS2 f
      · obtain ⟨c, d⟩ := e3 h3
        rw [if_pos h3, if_pos h3, c, d]; rfl
      · rw [if_neg h3, if_neg h3]
        cases binary with
        | true =>
          by_cases h4 : isFile nOut f
          · rw [if_pos (by simp [h4]), if_pos (by simpa [isOut] using h4)]
            simp [isInfo, isOut, h4]
          · have h4' : isFile nOut f = false := by simpa using h4
            by_cases h5 : f ∈ runMeta <;> simp [isInfo, isOut, h4', h5]
        | false =>
          rw [if_neg (by simp)]
          by_cases h4 : isFile nOne f
          · rw [if_pos (by simp [h4]), if_pos (by simpa [isOut] using h4)]
            simp [isInfo, isOut, h4]
          · have h4' : isFile nOne f = false := by simpa using h4
            by_cases h5 : f ∈ runMeta <;> simp [isInfo, isOut, h4', h5]

theorem foldl_see (binary : Bool) (files : List Name) (s : Found) :
    files.foldl (see binary) s =
      { bh := (lastWith (isFile nBH) files).or s.bh, star1 := (lastWith (isFile nS1) files).or s.star1,
        star2 := (lastWith (isFile nS2) files).or s.star2, out := (lastWith (isOut binary) files).or s.out,
        info := s.info ++ files.filter (isInfo binary) } := by
  induction files generalizing s with
  | nil => simp [lastWith]
  | cons f r ih =>
    rw [List.foldl_cons, ih, see_eq]
    simp only [lastWith_cons]
    by_cases h : isInfo binary f <;> simp [h]

theorem scan_eq (binary : Bool) (files : List Name) :
    scan binary files =
      { bh := lastWith (isFile nBH) files, star1 := lastWith (isFile nS1) files, star2 := lastWith (isFile nS2) files,
        out := lastWith (isOut binary) files, info := files.filter (isInfo binary) } := by
  unfold scan
  rw [foldl_see]
  simp

theorem lastWith_mem {p : Name → Bool} {l : List Name} {f : Name} (h : lastWith p l = some f) : f ∈ l ∧ p f := by
  have := List.mem_of_getLast? h
  exact List.mem_filter.1 this

theorem lastWith_none {p : Name → Bool} {l : List Name} : lastWith p l = none ↔ ∀ f ∈ l, ¬ p f := by
  unfold lastWith
  rw [List.getLast?_eq_none_iff, List.filter_eq_nil_iff]

/-- With at most one file that meets the condition the order does not matter. -/
theorem lastWith_unique {p : Name → Bool} {l : List Name} {f : Name} (hf : f ∈ l) (hp : p f)
    (hu : ∀ g ∈ l, p g → g = f) : lastWith p l = some f := by
  cases h : lastWith p l with
  | none => exact absurd hp (lastWith_none.1 h f hf)
  | some g => rw [hu g (lastWith_mem h).1 (lastWith_mem h).2]

/-- The dictionary of points. -/
theorem collect_ok (l d : List (Name × Name)) (hd : (d.map (·.1)).Nodup) :
    collect l d = if ((d ++ l).map (·.1)).Nodup then .ok (d ++ l) else .error .assertion := by
  induction l generalizing d with
  | nil => simp [collect, hd]
  | cons p r ih =>
    unfold collect
    by_cases h : p.1 ∈ d.map (·.1)
    · rw [if_pos h, if_neg]
      intro hn
      rw [List.map_append, List.nodup_append] at hn
      exact hn.2.2 _ h _ (by simp) rfl
    · rw [if_neg h, ih]
      · simp
      · rw [List.map_append, List.nodup_append]
        refine ⟨hd, by simp, ?_⟩
        intro a ha b hb
        simp only [List.map_cons, List.map_nil, List.mem_singleton] at hb
        subst hb
        rintro rfl
        exact h ha

/-- A column that the file can hold and give back: numbers, or short texts in ASCII in a column of texts. -/
def fits (n : Name) : Col → Prop
  | .num _ => loadedAsText n = false
  | .bytes _ => loadedAsText n = false
  | .uni l => loadedAsText n = true ∧ ∀ s ∈ l, ascii s = true ∧ s.length ≤ 70

theorem map_take {l : List Name} (h : ∀ s ∈ l, s.length ≤ 70) : l.map (·.take 70) = l := by
  rw [List.map_congr_left (g := id) (fun s hs => by simpa using List.take_of_length_le (h s hs))]
  simp

theorem forFile_fits (shw : ℚ → Name) (t : Table) (h : ∀ p ∈ t, fits p.1 p.2) :
    ∃ t', forFile shw t = .ok t' ∧ savable t' = true ∧ view shw t' = t := by
  induction t with
  | nil => exact ⟨[], rfl, rfl, rfl⟩
  | cons p t ih =>
    obtain ⟨n, c⟩ := p
    obtain ⟨t', h1, h2, h3⟩ := ih fun q hq => h q (by simp [hq])
    have hc := h (n, c) (by simp)
    unfold forFile
    rw [h1]
    cases c with
    | num l =>
      have hc : loadedAsText n = false := hc
      refine ⟨(n, .num l) :: t', by rw [hc]; rfl, by simpa [savable, Col.isUni] using h2, ?_⟩
      show _ :: view shw t' = _
      rw [h3]; simp [hc]
    | bytes l =>
      have hc : loadedAsText n = false := hc
      refine ⟨(n, .bytes l) :: t', by rw [hc]; rfl, by simpa [savable, Col.isUni] using h2, ?_⟩
      show _ :: view shw t' = _
      rw [h3]; simp [hc]
    | uni l =>
      have hc : loadedAsText n = true ∧ ∀ s ∈ l, ascii s = true ∧ s.length ≤ 70 := hc
      have ha : l.all ascii = true := by
        rw [List.all_eq_true]; exact fun s hs => (hc.2 s hs).1
      have ht := map_take fun s hs => (hc.2 s hs).2
      refine ⟨(n, .bytes l) :: t', ?_, by simpa [savable, Col.isUni] using h2, ?_⟩
      · rw [hc.1]
        simp only [if_true, toBytes, ha, ht]
      · show _ :: view shw t' = _
        rw [h3]; simp only [hc.1, if_true, toUni, ht]

end Verif.RunFiles
