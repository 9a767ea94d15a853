import Verif.Pipeline
import Verif.Frame

/-!
# The tables of the post-processing pipeline

Model of `create_csv` in `bin/posydon-setup-pipeline` (l.649-1239), of the size of
the job arrays (`slurm_job` l.604-616), of `gridutils.get_new_grid_name` and of how
`bin/posydon-run-pipeline` picks the row and the function for a job (l.1486-1514).

Simplifications.  A path is the list of its components: `os.path.join` of
components that are not empty and contain no separator.  Columns that only repeat
a setting (`stop_before_carbon_depletion`, `profile_names`, `quantities_to_plot`,
`plot_extension`, `rerun_type`, `cluster`, `checks_to_do`) are left out.  Which files exist is a
parameter.  The exceptions raised for lists of wrong lengths (`ValueError`, or `IndexError` when
an entry is missing) are not distinguished.  `GRID_SLICES` holds names for all
steps but step 2, for which it holds lists of names (`parts`); for the plots and checks of step 2 only
the number of entries matters.
-/

namespace Verif.Pipeline

open Verif.Frame (isIn)

/-- The settings `create_csv` uses. -/
structure K where
  root : Name
  version : Name
  path : Name
  types : List Name
  mets : List (List Name)
  slices : List (List Name)
  parts : List (List (List Name))
  comps : List (List Name)
  orig : List (List Name)
  combined : List (List Name)
  control : List (List Name)
  methods : List Name
  profs : List Name
  rerunType : Name

/-- One pass of the innermost loop (l.783-793): the number and name of the grid type, the metallicity, the
number of the slice and the slice, the compression. -/
structure Cell (S : Type) where
  l : ℕ
  type : Name
  met : Name
  i : ℕ
  slice : S
  comp : Name

/-- The passes of the four loops (l.783-793). -/
def cells {S : Type} (k : K) (slices : List (List S)) : List (Cell S) :=
  (List.range k.types.length).flatMap fun l =>
    (k.mets.getD l []).flatMap fun z =>
      (slices.getD l []).zipIdx.flatMap fun s =>
        (k.comps.getD l []).map fun c => ⟨l, k.types.getD l [], z, s.2, s.1, c⟩

/-- `'_RLO'` for compressions with `RLO` (l.795-798). -/
def rlo (comp : Name) : Name := if isIn (chars! "RLO") comp then (chars! "_RLO") else []

/-- The directory of the grids of a type at a metallicity. -/
def base {S : Type} (k : K) (c : Cell S) : File := [k.root, c.type, k.version, c.met]

def h5 (s : Name) : Name := s ++ (chars! ".h5")

/-- The file of an interpolator. -/
def pkl {S : Type} (k : K) (c : Cell S) (kind method : Name) : File :=
  base k c ++ [(chars! "interpolation_objects"), kind ++ method ++ rlo c.comp ++ (chars! ".pkl")]

/-- `get_new_grid_name` (`posydon/utils/gridutils.py` l.486-511). -/
def newName (p : File) (comp : Name) : File :=
  p.dropLast ++ [comp, h5 (p.getLastD [])]

/-- A row of a table: the grid it is about, the other file it reads, the file or directory it
writes. -/
structure Row where
  grid : File
  also : Option File
  out : File
deriving DecidableEq

/-- The methods a sub-step loops over (l.998-1003): without methods there is one pass with
an empty name, except for the steps 4 and 5. -/
def methodsOf (k : K) (s : Step) : List Name :=
  if s ≠ 3 ∧ s ≠ 4 ∧ k.methods = [] then [[]] else k.methods

/-- The grid a sub-step is about (l.985-993). -/
def subGrid (k : K) (s : Step) (c : Cell Name) : Name :=
  if s = 1 then (k.combined.getD c.l []).getD c.i []
  else if s = 2 then c.slice ++ (chars! "_processed")
  else if s = 3 ∨ s = 4 then (k.control.getD c.l []).getD c.i []
  else c.slice

/-- The directory in which the data set is put (l.940-943). -/
def exportDir (c : Cell Name) : Name :=
  if isIn (chars! "RLO") c.type then c.type else c.type ++ rlo c.comp

/-- Whether plots are made for a compression (l.1008-1010): only for the first one and those
containing it or contained in it. -/
def plotted (k : K) (c : Cell Name) : Bool :=
  match k.comps.getD c.l [] with
  | [] => false
  | d :: _ => isIn c.comp d || isIn d c.comp

/-- The interpolator of a row of plots (l.1033-1045). -/
def plotInterp (k : K) (s : Step) (c : Cell Name) (m : Name) : Option File :=
  if m = [] then none
  else if s = 3 then some (pkl k c (chars! "IF_") m)
  else if s = 4 then some (pkl k c (chars! "profile_") m)
  else none

/-- The interpolator of a row of checks (l.1069-1081). -/
def checkInterp (k : K) (s : Step) (c : Cell Name) (m : Name) : Option File :=
  if m = [] then none
  else if s ≠ 3 then some (pkl k c (chars! "IF_") m)
  else if s ≠ 4 then some (pkl k c (chars! "profile_") m)
  else none

/-- The rows of one pass (l.814-1081), for all jobs but step 2 itself. -/
def rowsAt (k : K) (j : Job) (c : Cell Name) : List Row :=
  let grid := base k c ++ [c.comp, h5 c.slice]
  match j with
  | .main s =>
    match s with
    | 0 => [⟨base k c ++ [c.slice], none, newName (base k c ++ [c.slice]) c.comp⟩]
    | 1 => []
    | 2 =>
      [⟨grid, some (base k c ++ [((k.orig.getD c.l []).headD (chars! "ORIGINAL")) ++ rlo c.comp,
          h5 c.slice]),
        base k c ++ [c.comp, c.slice ++ (chars! "_processed.h5")]⟩]
    | 3 => k.methods.map fun m => ⟨grid, none, pkl k c (chars! "IF_") m⟩
    | 4 =>
      if k.profs = [] then []
      else k.methods.map fun m =>
        ⟨grid, some (pkl k c (chars! "IF_") m), pkl k c (chars! "profile_") m⟩
    | 5 =>
      let dir : File := [k.path, (chars! "POSYDON_data"), exportDir c]
      [⟨grid, none, dir ++ [h5 c.met]⟩,
       ⟨pkl k c (chars! "IF_") (chars! "linear"), none,
        dir ++ [(chars! "interpolators"), (chars! "linear3c_kNN"), c.met ++ (chars! ".pkl")]⟩,
       ⟨pkl k c (chars! "IF_") (chars! "1NN"), none,
        dir ++ [(chars! "interpolators"), (chars! "1NN_1NN"), c.met ++ (chars! ".pkl")]⟩]
    | 6 => [⟨grid, none, base k c ++ [(chars! "rerun_") ++ k.rerunType ++ (chars! "_") ++ c.slice]⟩]
  | .plots s =>
    if subGrid k s c = [] ∨ plotted k c = false then []
    else (methodsOf k s).map fun m =>
      ⟨base k c ++ [c.comp, h5 (subGrid k s c)], plotInterp k s c m,
       base k c ++ [(chars! "plots"), (rlo c.comp).drop 1 ++ (rlo c.comp).take 1 ++ subGrid k s c]⟩
  | .checks s =>
    if subGrid k s c = [] then []
    else (methodsOf k s).map fun m =>
      ⟨base k c ++ [c.comp, h5 (subGrid k s c)], checkInterp k s c m, []⟩
  | .clean _ => []

/-- Whether the innermost loop is entered for a grid type, with `n` slices. -/
def entered (k : K) (l n : ℕ) : Bool :=
  (k.mets.getD l []).length ≠ 0 && n ≠ 0 && (k.comps.getD l []).length ≠ 0

/-- The jobs that need control grids (`'step_4_' in step_name or 'step_5' in step_name`). -/
def controlled (j : Job) : Bool := j = .plots 3 || j = .checks 3 || stepOf j = 4

/-- The number of slices of a grid type. -/
def nSlices (k : K) (j : Job) (l : ℕ) : ℕ :=
  if j = .main 1 then (k.parts.getD l []).length else (k.slices.getD l []).length

/-- The lengths of the lists (l.735-760) and, in the loops, of their entries (l.800-812). -/
def fits (k : K) (j : Job) : Bool :=
  let n := k.types.length
  (n = k.mets.length && n = k.comps.length &&
    n = (if j = .main 1 then k.parts.length else k.slices.length)) &&
  (if j = .main 1 then (n = k.combined.length : Bool)
   else if j = .main 2 then (n = k.orig.length : Bool)
   else if controlled j then (n = k.control.length : Bool) else true) &&
  (List.range n).all fun l => !entered k l (nSlices k j l) ||
    ((stepOf j ≠ 1 || nSlices k j l = (k.combined.getD l []).length) &&
     (!controlled j || nSlices k j l = (k.control.getD l []).length))

/-- The rows before missing files are considered (l.783-1081). -/
def rows (k : K) (j : Job) : List Row := (cells k k.slices).flatMap (rowsAt k j)

/-- The files whose presence is tested (l.1127-1152).  For the checks and plots of other
steps than 4 and 5 only the grid is. -/
def tested (j : Job) (r : Row) : List File :=
  match j with
  | .main 2 => r.grid :: r.also.toList
  | .main 4 => r.grid :: r.also.toList
  | .plots s => r.grid :: (if s = 3 ∨ s = 4 then r.also.toList else [])
  | .checks s => r.grid :: (if s = 3 ∨ s = 4 then r.also.toList else [])
  | _ => [r.grid]

/-- `DROP_MISSING_FILES` (l.1127-1169): a row stays when each of its files exists or will have been created. -/
def keep (drop : Bool) (there : File → Bool) (known : List File) (j : Job) (rs : List Row) :
    List Row :=
  if drop then rs.filter fun r => (tested j r).all fun f => there f || known.contains f else rs

/-- The columns of the table of step 2 (l.836-856): the file to be made and the files to
be joined. -/
def cols (k : K) : List (File × List File) :=
  (cells k k.parts).map fun c =>
    (base k c ++ [c.comp, h5 ((k.combined.getD c.l []).getD c.i [])],
     c.slice.map fun s => base k c ++ [c.comp, h5 s])

/-- Missing files in step 2 (l.1191-1233). -/
def keepCols (drop : Bool) (there : File → Bool) (known : List File)
    (cs : List (File × List File)) : List (File × List File) :=
  if drop then
    (cs.map fun c => (c.1, c.2.filter fun f => there f || known.contains f)).filter
      fun c => c.2 ≠ []
  else cs

/-- A table: rows, or the columns of step 2. -/
inductive Table where
  | byRow (rs : List Row)
  | byCol (cs : List (File × List File))

/-- `create_csv`: the table and the files it announces.  Step 1 also announces the
directories of the compressions (l.827-835). -/
def createCsv (drop : Bool) (there : File → Bool) (k : K) (j : Job) (known : List File) :
    Except Err (Table × List File) :=
  if fits k j then
    if j = .main 1 then
      let cs := keepCols drop there known (cols k)
      .ok (.byCol cs, cs.map (·.1))
    else
      let rs := keep drop there known j (rows k j)
      let dirs := if j = .main 0 then
        ((cells k k.slices).filter fun c => c.i = 0).filterMap fun c =>
          if there (base k c ++ [c.comp]) then none else some (base k c ++ [c.comp])
        else []
      .ok (.byRow rs, dirs ++ (match j with
        | .checks _ => []
        | .plots _ => (rows k j).map (·.out)
        | _ => rs.map (·.out)))
  else .error .job

/-- The tasks of the job array `0-N` (l.604-616). -/
def tasks : Table → Except Err (List ℕ)
  | .byRow rs => if rs.length = 0 then .error .job else .ok (List.range rs.length)
  | .byCol cs => if cs.length = 0 then .error .job else .ok (List.range cs.length)

/-- The row with the index of the task (`bin/posydon-run-pipeline`, e.g. l.132-136); `KeyError` when there is none. -/
def pick (rs : List Row) (i : ℕ) : Except Err Row :=
  match rs[i]? with
  | some r => .ok r
  | none => .error .key

/-- The functions of `bin/posydon-run-pipeline`. -/
inductive Fn where
  | create | combine | extra | train | trainProfile | export | rerun | plot | check
deriving DecidableEq

/-- The functions called for a table by its name (l.1488-1514). -/
def called (name : Name) : List Fn :=
  (if name = (chars! "step_1") then [.create] else []) ++
  (if name = (chars! "step_2") then [.combine] else []) ++
  (if name = (chars! "step_3") then [.extra] else []) ++
  (if name = (chars! "step_4") then [.train] else []) ++
  (if name = (chars! "step_5") then [.trainProfile] else []) ++
  (if name = (chars! "step_F") then [.export] else []) ++
  (if name = (chars! "rerun") then [.rerun] else []) ++
  (if isIn (chars! "plot") name then [.plot] else []) ++
  (if isIn (chars! "check") name then [.check] else [])

/-- The names of the steps (l.54-62). -/
def stepName (k : Step) : Name :=
  ([(chars! "step_1"), (chars! "step_2"), (chars! "step_3"), (chars! "step_4"),
    (chars! "step_5"), (chars! "step_F"), (chars! "rerun")] : List Name).getD k.val []

/-- The names of the jobs. -/
def jobName : Job → Name
  | .main k => stepName k
  | .plots k => stepName k ++ (chars! "_plots")
  | .checks k => stepName k ++ (chars! "_checks")
  | .clean j => jobName j ++ (chars! "_cleanup")

end Verif.Pipeline
