import Verif.RunFiles
/-!
Model of the descriptions a grid and a run give of themselves: `PSyGrid.__str__` (`/repo/posydon/grids/psygrid.py` l.1584-1685) and `RunReader.report`
(`/repo/posydon/grids/io.py` l.190-214).

Simplifications: the text is a list of statements, one for each printed fact, in the order of printing; a table is its columns and its number of rows; the
text of the configuration is a list of lines.
-/
namespace Verif.Describe

open Verif.RunFiles

abbrev Txt := List Char

/-- The five tables of a run. -/
inductive Kind
  | binaryHistory | history1 | history2 | profile1 | profile2
  deriving DecidableEq

def kinds : List Kind := [.binaryHistory, .history1, .history2, .profile1, .profile2]

structure Tab where
  cols : List Txt
  rows : ℕ
  deriving DecidableEq

/-- A run of the grid: which tables it has. -/
abbrev Run := Kind → Option Tab

structure Grid where
  path : Option Txt
  runs : List Run
  initial : Option (List Txt)
  final : Option (List Txt)
  config : List Txt
  dirs : List Txt

/-- A statement of the description. -/
inductive Says
  | noFile
  | loadedFrom (p : Txt)
  | noRuns
  | nRuns (n : ℕ)
  | nTables (k : Kind) (n : ℕ)
  | columns (k : Kind) (cols : List Txt)
  | initialCols (cols : List Txt)
  | noInitial
  | finalCols (cols : List Txt)
  | noFinal
  | config (lines : List Txt)
  | emptyConfig
  | noDirs
  | dir (d : Txt)
  | others (n : ℕ)
  deriving DecidableEq

/-- `one_if_ok`, l.1608-1610. -/
def oneIfOk : Option Tab → ℕ
  | none => 0
  | some t => if t.rows = 0 then 0 else 1

/-- The loop l.1612-1622. -/
def countOf (k : Kind) (runs : List Run) : ℕ := runs.foldl (fun n r => n + oneIfOk (r k)) 0

/-- l.1629-1643: `run` is the last one of the loop. -/
def columnsOf (last : Run) : List Says :=
  kinds.filterMap fun k => (last k).map fun t => Says.columns k t.cols

/-- l.1602-1643. -/
def runsPart (runs : List Run) : List Says :=
  match runs.getLast? with
  | none => [.noRuns]
  | some last => .nRuns runs.length :: kinds.map (fun k => .nTables k (countOf k runs)) ++ columnsOf last

/-- l.1670-1683. -/
def dirsPart (dirs : List Txt) (nRuns : ℕ) : List Says :=
  if dirs.length ≠ 0 ∨ nRuns ≠ 0 then
    match dirs with
    | [] => [.noDirs]
    | [a] => [.dir a]
    | [a, b] => [.dir a, .dir b]
    | a :: b :: c :: r => [.dir a, .others ((a :: b :: c :: r).length - 2), .dir ((c :: r).getLast (by simp))]
  else []

/-- l.1647-1667. -/
def valuesPart (g : Grid) : List Says :=
  [match g.initial with | none => .noInitial | some c => .initialCols c,
   match g.final with | none => .noFinal | some c => .finalCols c,
   if g.config = [] then .emptyConfig else .config g.config]

/-- `PSyGrid.__str__`. -/
def describe (g : Grid) : List Says :=
  match g.path with
  | none => [.noFile]
  | some p =>
    .loadedFrom p :: runsPart g.runs ++ valuesPart g ++ dirsPart g.dirs g.runs.length

/-- The lines of `RunReader.report`, l.198-211: label and answer, then the number of metadata files. -/
inductive Item
  | screen | history (i : ℕ) | binary | final (i : ℕ) | initial (i : ℕ) | model (i : ℕ)
  deriving DecidableEq

/-- `isfound`. -/
def isFound (o : Option Name) : Bool := o.isSome

/-- `report` of a run that has been read. -/
def report (r : RunFiles.Run) : List (Item × Bool) × ℕ :=
  ([(.screen, isFound r.found.out), (.history 1, isFound r.logs1.history), (.history 2, isFound r.logs2.history), (.binary, isFound r.found.bh),
    (.final 1, isFound r.logs1.final), (.final 2, isFound r.logs2.final), (.initial 1, isFound r.logs1.initial), (.initial 2, isFound r.logs2.initial),
    (.model 1, isFound r.found.star1), (.model 2, isFound r.found.star2)], r.found.info.length)

end Verif.Describe
