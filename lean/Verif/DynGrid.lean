import Verif.Chars
import Verif.Frame
import Mathlib.Analysis.SpecialFunctions.Log.Base
import Mathlib.Algebra.BigOperators.Group.Finset.Basic
import Mathlib.Algebra.BigOperators.Group.Finset.Piecewise
import Mathlib.Tactic.Common
/-!
Model of running a MESA grid with several processes: `/repo/bin/posydon-run-grid`, `do_root_process_logic` (l.620-693),
`do_child_process_logic` (l.696-732), the loop of the children (l.999-1004), `convert_input_cols_to_mesa_cols` (l.602-618), the columns which
are added to the grid (l.947-962), `extract_mesa_results` (l.162-173), the results of a fixed grid (l.981-990), the flags of the formation
(l.804-819), the file of the grid (l.822-830), `move_mesa_output` and `run_mesa` (l.443-528); `GridReader.__init__` of
`/repo/posydon/grids/io.py` (l.248-252) for the format.

Simplifications: messages between two processes keep their order and sending does not wait for the other process; a process takes its steps
one after the other and any process may be the next to make a step; the run of MESA for a point is a relation between points and results;
floats are real numbers; the output of the children and the warnings are left out.
-/
namespace Verif.DynGrid

open Verif.Frame (Name)

/-! ### The processes -/

/-- What the processes are given. -/
structure Env (G P R : Type) where
  /-- number of processes, the root is one of them -/
  size : ℕ
  /-- `args.Niter` -/
  niter : ℕ
  /-- `get_next_grid_point` with the number of points asked for, `none` is an exception -/
  next : G → ℕ → Option (List P)
  /-- a child finds all parameters in the point (l.704-715) -/
  ok : P → Bool
  /-- results of MESA for a point -/
  runs : P → R → Prop
  /-- the result is added to the grid (l.654-668), `none` is the exception -/
  put : G → R → Option G

/-- Where the root is. -/
inductive Root (G P : Type)
  /-- before l.630 -/
  | start (g : G)
  /-- the loop of l.631, at child `c`, with the points which are proposed -/
  | first (c : ℕ) (ps : List P) (g : G)
  /-- the loop of l.650 -/
  | loop (nstep : ℕ) (g : G)
  /-- the function has returned -/
  | done (g : G)
  /-- an exception was raised -/
  | failed
  deriving DecidableEq

/-- Where a child is. -/
inductive Child (P : Type)
  /-- l.699-700 -/
  | waiting
  /-- l.702-726 -/
  | running (p : P)
  /-- a `KeyError` was raised -/
  | dead (p : P)
  deriving DecidableEq

/-- All processes and the messages under way.  `sent` and `recorded` are kept for the statements only: points with the child they were sent
to, results which are in the grid with the child and the point. -/
structure Config (G P R : Type) where
  root : Root G P
  kids : ℕ → Child P
  /-- messages from the root to a child -/
  boxes : ℕ → List P
  /-- messages to the root with the child they come from -/
  inbox : List (ℕ × P × R)
  /-- `grid_results.csv` -/
  file : Option G
  sent : List (ℕ × P)
  recorded : List (ℕ × P × R)

variable {G P R : Type}

/-- The beginning, the file may be there already. -/
def init (g : G) (file : Option G) : Config G P R := ⟨.start g, fun _ => .waiting, fun _ => [], [], file, [], []⟩

/-- A point is sent to a child. -/
def send (s : Config G P R) (c : ℕ) (p : P) (r : Root G P) : Config G P R :=
  { s with root := r, boxes := Function.update s.boxes c (s.boxes c ++ [p]), sent := s.sent ++ [(c, p)] }

/-- The steps of the processes. -/
inductive Step (E : Env G P R) : Config G P R → Config G P R → Prop
  /-- l.630 -/
  | propose {s g ps} : s.root = .start g → E.next g E.size = some ps → Step E s { s with root := .first 1 ps g }
  | proposeFails {s g} : s.root = .start g → E.next g E.size = none → Step E s { s with root := .failed }
  /-- l.631-647, for one child -/
  | sendFirst {s c ps g p} : s.root = .first c ps g → c < E.size → ps[c - 1]? = some p → Step E s (send s c p (.first (c + 1) ps g))
  | sendFirstFails {s c ps g} : s.root = .first c ps g → c < E.size → ps[c - 1]? = none → Step E s { s with root := .failed }
  | enter {s c ps g} : s.root = .first c ps g → ¬ c < E.size → Step E s { s with root := .loop 0 g }
  /-- l.699-700 -/
  | take {s c p rest} : 1 ≤ c → c < E.size → s.kids c = .waiting → s.boxes c = p :: rest →
      Step E s { s with kids := Function.update s.kids c (.running p), boxes := Function.update s.boxes c rest }
  /-- l.721-727 -/
  | finish {s c p r} : s.kids c = .running p → E.ok p = true → E.runs p r →
      Step E s { s with kids := Function.update s.kids c .waiting, inbox := s.inbox ++ [(c, p, r)] }
  /-- l.704-715 -/
  | die {s c p} : s.kids c = .running p → E.ok p = false → Step E s { s with kids := Function.update s.kids c (.dead p) }
  /-- one round of l.650-693; the message is the first of its child -/
  | round {s n g pre c p r post g' q qs} : s.root = .loop n g → n < E.niter → s.inbox = pre ++ (c, p, r) :: post →
      (∀ m ∈ pre, m.1 ≠ c) → E.put g r = some g' → E.next g' 1 = some (q :: qs) →
      Step E s { send { s with inbox := pre ++ post, file := some g', recorded := s.recorded ++ [(c, p, r)] } c q (.loop (n + 1) g') with }
  /-- l.661-665 -/
  | putFails {s n g pre c p r post} : s.root = .loop n g → n < E.niter → s.inbox = pre ++ (c, p, r) :: post →
      (∀ m ∈ pre, m.1 ≠ c) → E.put g r = none → Step E s { s with root := .failed }
  /-- l.680 -/
  | roundFails {s n g pre c p r post g'} : s.root = .loop n g → n < E.niter → s.inbox = pre ++ (c, p, r) :: post →
      (∀ m ∈ pre, m.1 ≠ c) → E.put g r = some g' → (E.next g' 1 = none ∨ E.next g' 1 = some []) →
      Step E s { s with root := .failed, inbox := pre ++ post, file := some g', recorded := s.recorded ++ [(c, p, r)] }
  /-- the end of the loop -/
  | leave {s n g} : s.root = .loop n g → ¬ n < E.niter → Step E s { s with root := .done g }

/-- What can happen from the beginning. -/
inductive Reach (E : Env G P R) (g : G) (file : Option G) : Config G P R → Prop
  | init : Reach E g file (init g file)
  | step {s t} : Reach E g file s → Step E s t → Reach E g file t

/-- The same with the number of steps. -/
inductive Steps (E : Env G P R) : ℕ → Config G P R → Config G P R → Prop
  | nil {s} : Steps E 0 s s
  | cons {n s t u} : Steps E n s t → Step E t u → Steps E (n + 1) s u

/-- No process can make a step. -/
def Stuck (E : Env G P R) (s : Config G P R) : Prop := ∀ t, ¬ Step E s t

/-! ### Specification -/

def onChild (x : Child P) : List P :=
  match x with
  | .waiting => []
  | .running p => [p]
  | .dead p => [p]

/-- Points of the messages from child `c`. -/
def fromChild (c : ℕ) (l : List (ℕ × P × R)) : List P := (l.filter fun m => m.1 = c).map (·.2.1)

/-- Points which were sent to child `c`. -/
def toChild (c : ℕ) (l : List (ℕ × P)) : List P := (l.filter fun m => m.1 = c).map (·.2)

/-- Points sent to child `c` whose results are not in the grid. -/
def owed (s : Config G P R) (c : ℕ) : List P := fromChild c s.inbox ++ onChild (s.kids c) ++ s.boxes c

/-- The grid after results. -/
def grown (E : Env G P R) (g : G) (rs : List R) : Option G := rs.foldl (fun o r => o.bind fun g => E.put g r) (some g)

/-- Work which is left, for the end of all executions. -/
def rootWork (E : Env G P R) : Root G P → ℕ
  | .start _ => 4 * (E.size + E.niter) + 3
  | .first c _ _ => 4 * (E.size - c + E.niter) + 2
  | .loop n _ => 4 * (E.niter - n) + 1
  | .done _ => 0
  | .failed => 0

def childWork (s : Config G P R) (c : ℕ) : ℕ :=
  2 * (s.boxes c).length + (match s.kids c with | .running _ => 1 | _ => 0)

def work (E : Env G P R) (s : Config G P R) : ℕ := rootWork E s.root + ∑ c ∈ Finset.range E.size, childWork s c

/-! ### The names of the parameters -/

/-- A point: values of columns. -/
abbrev Rec := Name → Option ℝ

def put1 (d : Rec) (k : Name) (v : ℝ) : Rec := fun n => if n = k then some v else d n

def pDays : Name := (chars! "initial_period_days")
def pIn : Name := (chars! "initial_period_in_days")
def logP : Name := (chars! "log_p")
def s1 : Name := (chars! "initial_star_1_mass")
def s2 : Name := (chars! "initial_star_2_mass")
def m1 : Name := (chars! "m1")
def m2 : Name := (chars! "m2")
def q_ : Name := (chars! "q")

/-- `convert_input_cols_to_mesa_cols`, l.602-618. -/
noncomputable def convert (d0 : Rec) : Rec :=
  let d := match d0 pDays with | some v => put1 d0 pIn v | none => d0
  let d := match d logP with | some v => put1 d pIn ((10 : ℝ) ^ v) | none => d
  let d := match d s1 with | some v => put1 d m1 v | none => d
  let d := match d s2 with | some v => put1 d m2 v | none => d
  match d q_, d s1 with
  | some a, some b => put1 d m2 (a * b)
  | _, _ => d

/-- Columns of the grid for convenience, l.947-962, for one row. -/
noncomputable def extend (d0 : Rec) : Rec :=
  let d := match d0 m2, d0 m1 with | some a, some b => put1 d0 q_ (a / b) | _, _ => d0
  let d := match d pIn with | some v => put1 d logP (Real.logb 10 v) | none => d
  let d := match d s2, d s1 with | some a, some b => put1 d q_ (a / b) | _, _ => d
  match d pDays with | some v => put1 d logP (Real.logb 10 v) | none => d

/-- The parameters of a child, l.704-715: those of the point whose names are in the inlists. -/
def lookups (names : List Name) (d : Rec) : Option (List (Name × ℝ)) := names.mapM fun k => (d k).map fun v => (k, v)

/-- The proposed point: values for the input columns. -/
def point : List Name → List ℝ → Rec
  | n :: ns, v :: vs => put1 (point ns vs) n v
  | _, _ => fun _ => none

/-! ### Results -/

/-- A table. -/
structure Tab where
  cols : List Name
  rows : List Rec

/-- `GridReader.__init__` l.248-252 -/
def readsGrid (fmt : Name) : Bool := decide (fmt = (chars! "posydon"))

/-- `extract_mesa_results` l.162-173; `made` is what a reader of the folder gives. -/
def extract (fmt : Name) (made : Option Tab) : Tab :=
  if readsGrid fmt then made.getD ⟨[], []⟩ else ⟨[], []⟩

/-- The format which the script asks for, l.166. -/
def scriptFmt : Name := (chars! "posydon_single")

/-- Columns of a result for convenience, l.654-659. -/
noncomputable def resultCols (t : Tab) : Tab :=
  let t := if s2 ∈ t.cols ∧ s1 ∈ t.cols then
      ⟨t.cols ++ [q_], t.rows.map fun d => match d s2, d s1 with | some a, some b => put1 d q_ (a / b) | _, _ => d⟩ else t
  if pDays ∈ t.cols then ⟨t.cols ++ [logP], t.rows.map fun d => match d pDays with | some v => put1 d logP (Real.logb 10 v) | none => d⟩ else t

/-- l.654-665: `append` says whether tables have the method `append` (not for the versions of pandas that the project asks for). -/
noncomputable def putTab (append : Bool) (g t : Tab) : Option Tab :=
  let t := resultCols t
  if ∀ c ∈ g.cols, c ∈ t.cols then (if append then some ⟨g.cols, g.rows ++ t.rows⟩ else none) else none

/-- `grid_results.csv` of a fixed grid: the line of names and the lines of values in the order of the columns of their table. -/
structure Csv where
  head : List Name
  lines : List (List (Option ℝ))

/-- l.981-990 -/
def writeFixed (f : Option Csv) (t : Tab) : Option Csv :=
  if t.rows.isEmpty || t.cols.isEmpty then f
  else match f with
    | none => some ⟨t.cols, t.rows.map fun d => t.cols.map d⟩
    | some f => some ⟨f.head, f.lines ++ t.rows.map fun d => t.cols.map d⟩

/-! ### Arguments -/

inductive Err | type | value | missing
  deriving DecidableEq

/-- l.804-819 for one star. -/
def formationFlag (exe : Option Name) (inlists : Option (List Name)) : Except Err Bool :=
  match inlists with
  | none => .error .type
  | some l => if (chars! "None") ∈ l then .ok false else .ok exe.isSome

inductive Kind | csv | h5
  deriving DecidableEq

/-- l.822-830 -/
def gridKind (path : Name) : Except Err Kind :=
  if Verif.Frame.isIn (chars! ".csv") path then .ok .csv
  else if Verif.Frame.isIn (chars! ".h5") path then .ok .h5
  else .error .value

/-- What is done at the end of the main part, l.964-1004. -/
inductive Action | point (i : ℕ) | nothing | root | child
  deriving DecidableEq

/-- l.836-842 and l.964-1004 -/
def action (dynamic : Bool) (index : Option ℕ) (size rank : ℕ) : Except Err Action :=
  if dynamic && index.isSome && decide (1 < size) then .error .value
  else match index with
    | some i => .ok (.point i)
    | none => if dynamic then (if rank = 0 then .ok .root else .ok .child) else .ok .nothing

/-! ### Directories -/

/-- The working directory and the final directory; `none` if it does not exist. -/
structure Dirs (C : Type) where
  work : Option C
  final : Option C

/-- `move_mesa_output` l.443-469, for two directories. -/
def move {C : Type} (copy : Bool) (d : Dirs C) : Dirs C := ⟨if copy then d.work else none, d.work⟩

/-- `run_mesa` l.471-528 for one step: `f` is what MESA does to the directory; `same` says that both directories are one. -/
def runMesa {C : Type} (same : Bool) (keep : Bool) (f : C → C) (d : Dirs C) : Except Err (Dirs C) :=
  match d.work with
  | none => .error .missing
  | some w => if same then .ok ⟨some (f w), some (f w)⟩ else .ok (move keep ⟨some (f w), d.final⟩)

/-- Several steps, l.740-783 and l.906-921. -/
def runAll {C : Type} (same : Bool) : List (Bool × (C → C)) → Dirs C → Except Err (Dirs C)
  | [], d => .ok d
  | (keep, f) :: rest, d => (runMesa same keep f d).bind (runAll same rest)

/-- l.513-522: the time at which the results are copied though MESA has not finished. -/
def copyTime (now : ℕ) (jobEnd before : ℤ) : ℤ := if jobEnd - before > now then jobEnd - before else now + 60

/-- The end which `run_mesa` assumes if none is given (formation of stars in a binary, l.757-770). -/
def assumedEnd (now : ℕ) : ℤ := now + 60 * 60 * 24 * 365

end Verif.DynGrid
