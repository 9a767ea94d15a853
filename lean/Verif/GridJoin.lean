import Verif.Chars
import Verif.Frame
import Verif.TermFlags
import Mathlib.Analysis.SpecialFunctions.Pow.Real
/-!
Model of joining grids and of reading the directories of runs: `/repo/posydon/grids/psygrid.py` `join_grids` (l.2489-2701),
`downsample_history` and `downsample_profile` (l.2366-2460), the text columns in `PSyGrid.load` (l.1490-1507);
`/repo/posydon/grids/io.py` `initial_values_from_dirname` (l.452-489), `read_initial_values` (l.402-449),
`GridReader._get_input_folders` (l.254-306), `GridReader.infer_history_columns` (l.322-364).

Simplification: a grid that was opened is a record; names of directories are lists of characters, with a mark whether `v1/` is in the
path; tables of runs, and the values in a row which are not used, are names of data; the configuration has all the known keys. Floats are
rationals, in the file of a grid point reals.
-/
namespace Verif.GridJoin

open Verif.Frame (Name isIn split before)
open Verif.TermFlags (Sys)

inductive Err
  | type | value | index | assertion
  deriving DecidableEq

/-! ### Names of directories -/

/-- `dirname.split(name + "_")[1].split("_")[0]`, io.py l.487-488. -/
def field (dirname name : Name) : Except Err Name :=
  match (split (name ++ (chars! "_")) dirname)[1]? with
  | none => .error .index
  | some w => .ok (before (chars! "_") w)

def fields (dirname : Name) : List Name → Except Err (List Name)
  | [] => .ok []
  | n :: ns =>
    match field dirname n with
    | .error e => .error e
    | .ok v =>
      match fields dirname ns with
      | .error e => .error e
      | .ok vs => .ok (v :: vs)

/-- The names looked for, io.py l.471-484. -/
def wanted (v1 : Bool) (dirname : Name) : List Name :=
  if isIn (chars! "initial_mass") dirname then
    if v1 then [(chars! "initial_mass")] else [(chars! "initial_mass"), (chars! "initial_z")]
  else if v1 then [(chars! "m1"), (chars! "m2"), (chars! "initial_period_in_days")]
  else if isIn (chars! "initial_eccentricity") dirname then
    [(chars! "m1"), (chars! "m2"), (chars! "initial_period_in_days"), (chars! "initial_z"), (chars! "initial_eccentricity")]
  else [(chars! "m1"), (chars! "m2"), (chars! "initial_period_in_days"), (chars! "initial_z")]

/-- `initial_values_from_dirname`, io.py l.470-489. -/
def params (v1 : Bool) (dirname : Name) : Except Err (List Name) :=
  if isIn (chars! "initial_mass") dirname = false ∧ ∃ n ∈ wanted v1 dirname, isIn n dirname = false then .error .assertion
  else fields dirname (wanted v1 dirname)

/-! ### Dictionaries -/

/-- A dictionary in the order of insertion. -/
abbrev Dict (α : Type) := List (List Name × α)

variable {α : Type}

/-- `d[k] = v`: a key that is there keeps its place. -/
def Dict.put (d : Dict α) (k : List Name) (v : α) : Dict α :=
  if d.any fun p => p.1 == k then d.map fun p => if p.1 = k then (k, v) else p else d ++ [(k, v)]

/-- `del d[k]` -/
def Dict.del (d : Dict α) (k : List Name) : Dict α := d.filter fun p => p.1 != k

def Dict.get (d : Dict α) (k : List Name) : Option α := (d.find? fun p => p.1 == k).map (·.2)

/-- `GridReader._get_input_folders`, io.py l.272-306: directories with a file of output, in the order found. -/
def folders (found : List (Bool × Name)) : Except Err (Dict Name) :=
  let rec go : List (Bool × Name) → Dict Name → Except Err (Dict Name)
    | [], d => .ok d
    | (v1, p) :: l, d =>
      match params v1 p with
      | .error e => .error e
      | .ok k => go l (d.put k p)
  match go found [] with
  | .error e => .error e
  | .ok d => if d.isEmpty then .error .value else .ok d

/-! ### Joining -/

/-- The final values of a run: flags, class, the rest. -/
structure Final where
  tf1 : String
  tf2 : String
  tf3 : String
  tf4 : String
  cls : String
  rest : ℕ
  deriving DecidableEq

structure Run where
  v1 : Bool
  dir : Name
  init : Sys
  final : Final
  /-- binary history, both histories, both profiles -/
  tables : List (Option ℕ)
  deriving DecidableEq

/-- A grid that was opened: the properties that must agree, whether the overflow is to be fixed, the format, types of initial and final
values (with a mark for text), runs, whether it is slim, and its collapse models. -/
structure Grid where
  props : List String
  fix : Bool
  fmt : String
  dtI : List Name
  dtF : List (Name × Bool)
  runs : List Run
  slim : Bool
  models : Option ℕ
  deriving DecidableEq

/-- Text columns after opening, l.1490-1498. -/
def loadedAsText (c : Name) : Bool :=
  (chars! "termination_flag").isPrefixOf c || c == (chars! "mt_history") || isIn (chars! "_type") c || isIn (chars! "_state") c || isIn (chars! "_class") c

/-- Text columns that are prepared for writing when joining, l.2683-2688. -/
def joinedAsText (c : Name) : Bool :=
  (chars! "termination_flag").isPrefixOf c || isIn (chars! "SN_type") c || isIn (chars! "_state") c || isIn (chars! "_class") c

/-- The loop over the grids, l.2518-2546: the first grid, if all agree with it. -/
def agree : List Grid → Option Grid → Except Err (Option Grid)
  | [], f => .ok f
  | g :: gs, none => agree gs (some g)
  | g :: gs, some f =>
    if f.props ≠ g.props ∨ f.fix ≠ g.fix then .error .value
    else if f.dtI ≠ g.dtI then .error .type
    else if f.dtF ≠ g.dtF then .error .type
    else agree gs (some f)

/-- What is seen in the loop of l.2566-2581: key, whether the run is ignored, grid and run. -/
structure Occ where
  key : List Name
  ign : Bool
  at_ : ℕ × ℕ
  deriving DecidableEq

/-- The runs of grid `gi`, from run `ri`; `n` is the number of runs that can be had. -/
def occRuns (gi n : ℕ) : List Run → ℕ → Except Err (List Occ)
  | [], _ => .ok []
  | r :: rs, ri =>
    match params r.v1 r.dir with
    | .error e => .error e
    | .ok k =>
      if ri < n then
        match occRuns gi n rs (ri + 1) with
        | .error e => .error e
        | .ok os => .ok (⟨k, r.final.tf1 == "ignored_no_RLO", (gi, ri)⟩ :: os)
      else .error .index

def occGrids : List Grid → ℕ → Except Err (List Occ)
  | [], _ => .ok []
  | g :: gs, gi =>
    match occRuns gi (if g.slim then 0 else g.runs.length) g.runs 0 with
    | .error e => .error e
    | .ok os =>
      match occGrids gs (gi + 1) with
      | .error e => .error e
      | .ok os' => .ok (os ++ os')

/-- l.2572-2581 -/
def pick (os : List Occ) : Dict (ℕ × ℕ) :=
  os.foldl (fun d o => if o.ign then d.del o.key else d.put o.key o.at_) []

/-- The boundary of all grids, l.2588-2607. -/
def boundary (gs : List Grid) : List Sys :=
  (gs.map fun g => TermFlags.detected (g.runs.map fun r => (r.final.tf1, r.init))).flatten.foldl TermFlags.detectStep []

/-- The final values of a run in the joined grid, l.2645-2664. -/
def fixed (fix : Bool) (known : List Sys) (r : Run) : Final :=
  if fix && r.final.tf1 != "Terminate because of overflowing initial model" && r.final.tf1 != "forced_initial_RLO" then
    let near := TermFlags.nearest ⟨0, 0, 0, "", ""⟩ r.init.m1 r.init.m2 known
    if r.init.period < near.period then ⟨"forced_initial_RLO", "forced_initial_RLO", near.flags.1, near.flags.2, "initial_MT", r.final.rest⟩
    else r.final
  else r.final

/-- `compression`, l.2614-2632: the level if one is given. -/
inductive Comp
  | plain | lzf | gzip (level : Option ℕ)
  deriving DecidableEq

/-- Level of a digit. -/
def digit (c : Char) : Option ℕ := if c.isDigit then some (c.toNat - '0'.toNat) else none

def compression (s : Name) : Except Err Comp :=
  let s := s.map Char.toLower
  if s = [] then .ok .plain
  else if s = (chars! "lzf") then .ok .lzf
  else if (chars! "gzip").isPrefixOf s then
    match s.drop 4 with
    | [] => .ok (.gzip none)
    | c :: rest =>
      if rest ≠ [] then .error .value
      else match digit c with
        | none => .error .value
        | some k => .ok (.gzip (some k))
  else .error .value

/-- The new file. -/
structure Joined where
  dirs : List Name
  inits : List Sys
  finals : List Final
  tables : List (List (Option ℕ))
  models : Option ℕ
  comp : Comp
  deriving DecidableEq

/-- The run `p.2` of grid `p.1`. -/
def runAt (gs : List Grid) (p : ℕ × ℕ) : Option Run := (gs[p.1]?).bind fun g => g.runs[p.2]?

/-- `join_grids`, l.2506-2701. -/
def join (gs : List Grid) (comp : Name) : Except Err Joined :=
  match agree gs none with
  | .error e => .error e
  | .ok none => .error .type
  | .ok (some f) =>
    if f.fmt ≠ "hdf5" then .error .value
    else match occGrids gs 0 with
      | .error e => .error e
      | .ok os =>
        match compression comp with
        | .error e => .error e
        | .ok c =>
          let runs := (pick os).filterMap fun p => runAt gs p.2
          if f.dtF.any fun c => c.2 && !joinedAsText c.1 then .error .type
          else .ok ⟨runs.map (·.dir), runs.map (·.init), runs.map (fixed f.fix (boundary gs)), runs.map (·.tables), none, c⟩

/-! ### Files of grid points -/

/-- `str.strip` for blanks, tabs and ends of lines. -/
def blank (c : Char) : Bool := c == ' ' || c == '\t' || c == '\n' || c == '\r'

def strip (s : Name) : Name := ((s.dropWhile blank).reverse.dropWhile blank).reverse

/-- l.434-439 -/
def rename (n : Name) : Name :=
  if n = (chars! "m1") then (chars! "star_1_mass")
  else if n = (chars! "m2") then (chars! "star_2_mass")
  else if n = (chars! "initial_period_in_days") then (chars! "period_days")
  else n

/-- A line, l.423-440; `num` is `float`. -/
noncomputable def readLine (num : Name → Option ℝ) (line : Name) : Except Err (Option (Name × ℝ)) :=
  if isIn (chars! "=") line = false then .ok none
  else match split (chars! "=") (strip line) with
    | [a, b] =>
      match split (chars! "d") b with
      | [] => .error .value
      | [v] =>
        match num (strip v) with
        | none => .error .value
        | some x => .ok (some (rename (strip a), x))
      | v :: e :: _ =>
        match num (strip v), num (strip e) with
        | some x, some y => .ok (some (rename (strip a), x * (10 : ℝ) ^ y))
        | _, _ => .error .value
    | _ => .ok none

/-- `read_initial_values` for a file that is there, l.417-442: the last value of each name counts. -/
noncomputable def readLines (num : Name → Option ℝ) : List Name → Except Err (List (Name × ℝ))
  | [] => .ok []
  | l :: ls =>
    match readLine num l with
    | .error e => .error e
    | .ok o =>
      match readLines num ls with
      | .error e => .error e
      | .ok vs => .ok (o.toList ++ vs)

/-- The value of a name after all the assignments. -/
noncomputable def valueOf (vs : List (Name × ℝ)) (n : Name) : Option ℝ := (vs.reverse.find? fun p => p.1 == n).map (·.2)

/-! ### Downsampling -/

/-- `array[mask]` -/
def mask {β : Type} (m : List Bool) (l : List β) : List β := ((l.zip m).filter (·.2)).map (·.1)

/-- `downsample_history`, l.2388-2427: `keep` tells which rows are kept for the selected columns; tables that are there must have one
length. `sel` is a table as the downsampling sees it. -/
def downHistory {β γ : Type} (on : Bool) (binary : Bool) (keep : List (List γ) → List Bool) (sel : List β → List γ) (ts : List (Option (List β))) :
    Except Err (List (Option (List β))) :=
  if on = false ∨ ts.all Option.isNone then .ok ts
  else
    let there := ts.filterMap id
    if there.any fun t => decide (t.length ≠ (there.headD []).length) then .error .index
    else if (ts[if binary then 0 else 1]?).join.isNone then .error .type
    else
      let m := keep (there.map sel)
      .ok (ts.map fun t => t.map (mask m))

/-- `downsample_profile`, l.2446-2460. -/
def downProfile {β γ : Type} (on : Bool) (keep : List γ → List Bool) (sel : β → γ) (p : Option (List β)) : Option (List β) :=
  if on then p.map fun l => mask (keep (l.reverse.map sel)).reverse l else p

end Verif.GridJoin
