import Verif.TermFlags
import Verif.IgnoreReason
/-!
Model of the making and loading of grids, `/repo/posydon/grids/psygrid.py`: which runs `_create_psygrid` takes and where their directory,
rows and tables go (l.620-636, 702-1372), the checks of `load` (l.1550-1570), `add_column` (l.1391-1418), `__getitem__`, `__len__`,
iteration (l.1687-1790, 2218-2245), `rerun` as far as the choice of runs is concerned (l.1825-1880), `__eq__` (l.2127-2215), and
`join_lists` and `fix_He_core` (`/repo/posydon/utils/gridutils.py` l.53-77 and 124-134).

Simplification: what the files of a run contain is given by the answers to the questions the code asks (readable, long enough after
scrubbing, and so on); `max_number_of_runs` is not given; EEP files are only for single stars (l.604-610). Numbers are rationals, `none` is NaN.
-/
namespace Verif.GridMake

open Verif.TermFlags (Sys)
open Verif.IgnoreReason (IR)

inductive Err
  | attribute | type | key | index | value | posydon
  deriving DecidableEq, Repr

/-! ### Which runs are taken -/

/-- The options and what is known of the columns of the initial values: masses of the stars of a binary, of a single star. -/
structure Cfg where
  binary : Bool
  eep : Bool
  rloFix : Bool
  startRLO : Bool
  slim : Bool
  acceptProfile : Bool
  colM1 : Bool
  colM2 : Bool
  colMass : Bool

/-- What the directory of a run holds; `bad…`: model numbers or ages cannot be read; `long…`: something is left after scrubbing. -/
structure Run where
  path : String
  bh : Bool
  h1 : Bool
  h2 : Bool
  eepFound : Bool
  badB : Bool
  bad1 : Bool
  bad2 : Bool
  longB : Bool
  long1 : Bool
  rlo : Bool
  profile : Bool
  /-- The initial values of `inlist_grid_points`, if there is such a file. -/
  point : Option Sys
  /-- The initial values and the first termination flag read from the histories and the output. -/
  sys : Sys
  flag1 : String

/-- `ignore.reason = v`. -/
def note (o : IR) (v : String) : IR :=
  match IgnoreReason.setattr o "reason" (some v) with
  | .ok o' => o'
  | .error _ => o

inductive Status
  /-- Left out before its row is written. -/
  | drop
  /-- Left out with a row telling why. -/
  | ignored
  /-- Taken without tables. -/
  | empty
  | full
  deriving DecidableEq, Repr

/-- Model numbers and ages, l.776-925. -/
def noteBad (r : Run) (h1 : Bool) (o : IR) : IR :=
  let o := if h1 && r.bad1 then note o "corrupted_history1" else o
  let o := if r.h2 && r.bad2 then note o "corrupted_history2" else o
  if r.bh && r.badB then note o "corrupted_binary_history" else o

/-- The part with the files of the run, l.776-992; `none`: left out at once. -/
def files (c : Cfg) (r : Run) (h1 : Bool) (o : IR) : Option IR :=
  if IgnoreReason.toBool o || c.eep then some o
  else
    let o := noteBad r h1 o
    if c.binary && !r.longB && !c.rloFix then none
    else
      let o := if c.binary && !r.longB then note o "ignored_scrubbed_history" else o
      if !c.binary && !r.long1 then none
      else if c.startRLO && !r.rlo then (if c.rloFix then some (note o "ignored_no_RLO") else none)
      else some o

/-- The columns of the initial values, l.1039-1082. -/
def columns (c : Cfg) (o : IR) : IR :=
  if c.startRLO || IgnoreReason.toBool o then o
  else if c.binary then
    let o := if c.colM1 then o else note o "corrupted_binary_history"
    if c.colM2 then o else note o "corrupted_binary_history"
  else if c.colMass then o else note o "corrupted_history1"

/-- What happens to a run, l.706-1215, with the reason for ignoring it. -/
def process (c : Cfg) (r : Run) : Status × IR :=
  let o := IgnoreReason.fresh
  if c.binary && !r.bh && !c.rloFix then (.drop, o)
  else
    let o := if c.binary && !r.bh then note o "ignored_no_binary_history" else o
    if !IgnoreReason.toBool o && c.eep && !r.eepFound then (.drop, o)
    else
      let h1 := !IgnoreReason.toBool o && r.h1
      if !c.binary && !h1 then (.drop, o)
      else
        match files c r h1 o with
        | none => (.drop, o)
        | some o =>
          if !IgnoreReason.toBool o && !c.binary && !r.profile && !c.acceptProfile then (.drop, o)
          else
            let o := columns c o
            if IgnoreReason.toBool o then
              if c.startRLO && o.reason == some "ignored_no_RLO" then (.empty, o) else (.ignored, o)
            else (.full, o)

/-- A row of the initial and final values: the initial values, the first flag, and whether it was forced to be an initial overflow. -/
structure Row where
  sys : Sys
  flag1 : String
  forced : Bool
  deriving DecidableEq

/-- The row before anything is written. -/
def blank : Row := ⟨⟨0, 0, 0, "", ""⟩, "", false⟩

/-- The row of a run, l.1127-1203; an ignored run needs the file `inlist_grid_points` (l.1184-1185). -/
def rowOf (s : Status) (o : IR) (r : Run) : Except Err Row :=
  match s with
  | .drop => .ok blank
  | .full => .ok ⟨r.sys, r.flag1, false⟩
  | .ignored | .empty =>
    match r.point with
    | none => .error .attribute
    | some p => .ok ⟨p, o.reason.getD "", false⟩

/-- A run with its row and its place in the grid (`run_included_at`). -/
structure Entry where
  run : Run
  row : Row
  pos : Option ℕ

/-- Directories, groups of tables in the file, and the next index. -/
structure St where
  dirs : List String
  groups : List ℕ
  n : ℕ
  deriving DecidableEq

/-- Take a run, l.1217-1251. -/
def St.take (c : Cfg) (s : St) (path : String) : St :=
  ⟨s.dirs ++ [path], if c.slim then s.groups else s.groups ++ [s.n], s.n + 1⟩

/-- The first loop, l.704-1258. -/
def loop1 (c : Cfg) : List Run → St → Except Err (List Entry × St)
  | [], s => .ok ([], s)
  | r :: rs, s =>
    let (st, o) := process c r
    match rowOf st o r with
    | .error e => .error e
    | .ok row =>
      let taken := st == .full || st == .empty
      match loop1 c rs (if taken then s.take c r.path else s) with
      | .error e => .error e
      | .ok (es, s') => .ok (⟨r, row, if taken then some s.n else none⟩ :: es, s')

/-- The second loop for the fix of the initial overflow, l.1268-1321; `known` are the systems detected. -/
def loop2 (c : Cfg) (known : List Sys) : List Entry → St → Except Err (List Entry × St)
  | [], s => .ok ([], s)
  | e :: es, s =>
    if e.row.flag1 = "Terminate because of overflowing initial model" then
      match loop2 c known es s with
      | .error x => .error x
      | .ok (es', s') => .ok (e :: es', s')
    else
      match e.run.point with
      | none => .error .type
      | some p =>
        let near := TermFlags.nearest ⟨0, 0, 0, "", ""⟩ p.m1 p.m2 known
        if p.period < near.period then
          let e' : Entry := ⟨e.run, ⟨p, "forced_initial_RLO", true⟩, if e.pos.isNone then some s.n else e.pos⟩
          match loop2 c known es (if e.pos.isNone then s.take c e.run.path else s) with
          | .error x => .error x
          | .ok (es', s') => .ok (e' :: es', s')
        else
          match loop2 c known es s with
          | .error x => .error x
          | .ok (es', s') => .ok (e :: es', s')

/-- The tables of the rows, l.1327-1353. -/
def place (n : ℕ) (es : List Entry) : List Row :=
  es.foldl (fun t e => match e.pos with
    | some j => t.set j e.row
    | none => t) (List.replicate n blank)

/-- The file. -/
structure File where
  dirs : List String
  groups : List ℕ
  rows : List Row
  deriving DecidableEq

/-- `_create_psygrid`, l.702-1372. -/
def create (c : Cfg) (runs : List Run) : Except Err (List Entry × File) :=
  match loop1 c runs ⟨[], [], 0⟩ with
  | .error e => .error e
  | .ok (es, s) =>
    if c.binary && c.rloFix then
      match loop2 c (TermFlags.detected (es.map fun e => (e.row.flag1, e.row.sys))) es s with
      | .error e => .error e
      | .ok (es', s') => .ok (es', ⟨s'.dirs, s'.groups, place s'.n es'⟩)
    else .ok (es, ⟨s.dirs, s.groups, place s.n es⟩)

/-! ### Using a grid -/

/-- `load`, l.1551-1570: the number of runs. -/
def load (f : File) : Except Err ℕ :=
  if f.groups.any fun i => decide (f.dirs.length ≤ i) then .error .key
  else if (List.range f.dirs.length).all fun i => decide (i ∉ f.groups) then .ok 0
  else if (List.range f.dirs.length).all fun i => decide (i ∈ f.groups) then .ok f.dirs.length
  else .error .key

/-- `grid[index]`, l.1701-1705 and 1777-1779. -/
def getItem (n : ℕ) (i : ℤ) : Except Err ℤ := if 0 ≤ i ∧ i < n then .ok i else .error .index

/-- Iteration, l.2233-2245. -/
def iterate (n : ℕ) : ℕ → ℕ → List ℕ
  | 0, _ => []
  | fuel + 1, i => if i ≥ n then [] else i :: iterate n fuel (i + 1)

/-- `add_column`, l.1399-1418: the columns afterwards. -/
def addColumn {α : Type} (n : ℕ) (cols : List (String × List α)) (name : String) (arr : List α) (overwrite : Bool) :
    Except Err (List (String × List α)) :=
  if n ≠ arr.length then .error .value
  else if cols.any fun p => p.1 == name then
    if overwrite then .ok (cols.map fun p => if p.1 = name then (name, arr) else p) else .error .posydon
  else .ok (cols ++ [(name, arr)])

/-- The choice of runs in `rerun`, l.1829-1880: the runs, and the list of the caller afterwards. `isList`: the runs are given as a list,
otherwise as another sequence. `cols` gives the flags of a column. -/
def rerun (given : Option (List ℕ)) (isList : Bool) (flags : Option (List String)) (check : List String) (cols : String → Option (List String)) :
    Except Err (List ℕ × Option (List ℕ)) :=
  let flagged (fl : List String) := check.flatMap fun k =>
    match cols k with
    | none => []
    | some col => (col.zipIdx.filter fun p => p.1 ∈ fl).map (·.2)
  match flags, given with
  | none, none => .error .value
  | none, some g => .ok (g.reverse.dedup.reverse, some g)
  | some fl, none => .ok ((flagged fl).reverse.dedup.reverse, none)
  | some fl, some g => .ok ((g ++ flagged fl).reverse.dedup.reverse, some (if isList then g ++ flagged fl else g))

/-- A grid for comparison: settings, columns of initial and final values, tables of the runs, and what is not compared. -/
structure Grid where
  config : List String
  values : List (String × List (Option ℚ))
  tables : List (List (Option (List (Option ℚ))))
  dirs : List String
  models : List String

/-- `!=` of floats: NaN differs from everything. -/
def differ (a b : Option ℚ) : Bool :=
  match a, b with
  | some x, some y => decide (x ≠ y)
  | _, _ => true

/-- Comparison of a table of two runs, l.2203-2213. -/
def sameTable : Option (List (Option ℚ)) → Option (List (Option ℚ)) → Bool
  | none, none => true
  | some a, some b => decide (a.length = b.length) && !((a.zip b).any fun p => differ p.1 p.2)
  | _, _ => false

/-- Comparison of a column, l.2184-2197. -/
def sameColumn (a b : String × List (Option ℚ)) : Bool :=
  a.1 == b.1 && decide (a.2.length = b.2.length) && (a.2.zip b.2).all fun p => !differ p.1 p.2 || (p.1.isNone && p.2.isNone)

/-- `__eq__`, l.2147-2215. -/
def eq (a b : Grid) : Bool :=
  decide (a.tables.length = b.tables.length) && decide (a.config = b.config) &&
    (decide (a.values.length = b.values.length) && (a.values.zip b.values).all fun p => sameColumn p.1 p.2) &&
    (a.tables.zip b.tables).all fun p => (p.1.zip p.2).all fun q => sameTable q.1 q.2

/-- `join_lists`. -/
def joinLists (a b : List String) : List String := a ++ b.filter fun x => x ∉ a

/-- The setting for the columns: the two words, another text, a tuple, a list, something that cannot be iterated. -/
inductive Want
  | all | minimum
  | text (s : String)
  | tuple (l : List String)
  | list (l : List String)
  | other

/-- `decide_columns`, l.625-636: `none` means all columns. -/
def decideColumns (w : Want) (defaults : List String) : Except Err (Option (List String)) :=
  match w with
  | .all => .ok none
  | .minimum => .ok (some defaults)
  | .text s => .ok (some (joinLists defaults (s.toList.map String.singleton)))
  | .tuple l => .ok (some l)
  | .list l => .ok (some (joinLists defaults l))
  | .other => .error .value

/-- `fix_He_core` for the masses or the radii of a row: the value of the helium core and that of the carbon-oxygen core. -/
def fixCore (he co : Option ℚ) : Option ℚ :=
  match he, co with
  | some a, some b => some (max a b)
  | _, _ => none

end Verif.GridMake
