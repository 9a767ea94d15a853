import Mathlib.Data.List.Basic
import Mathlib.Data.List.GetD
import Mathlib.Algebra.Order.Field.Rat
import Mathlib.Tactic.Common

/-!
# Columns with the names and the durations of the steps

Model of `posydon/binary_evol/simulationproperties.py`: `TimingHooks` (l.861-901), `StepNamesHooks` (l.904-944) and `post_step` (l.779-806),
with the rows written by `BinaryStar.run_step` and `append_state` (binarystar.py l.267-314), by the recording of matches
(track_match.py l.2010-2021), `restore` (binarystar.py l.357-384), and failures
(`set_binary_to_failed`, common_functions.py l.1464-1474, binarypopulation.py l.360-376).

Simplifications.  A row of the history is the number of the step that wrote it (0 for the initial row).  A step is given by its name, its duration, whether it
records a match (as the first thing it does), the number of rows it writes by itself, and whether it ends with an event of redirection.  The columns of the two
hooks are attributes that may be missing.  Durations are given.
-/

namespace Verif.StepHooks

inductive Err where
  | attribute
deriving DecidableEq

structure Step where
  name : String
  time : ℚ
  matched : Bool
  extra : ℕ
  redirect : Bool
deriving DecidableEq

/-- A binary: the rows of its history and the columns of the hooks. -/
structure St where
  rows : List ℕ
  names : List (Option String)
  times : List (Option ℚ)
deriving DecidableEq

/-- `l[-k:]`. -/
def lastK {α : Type} (l : List α) (k : ℕ) : List α := if k = 0 then l else l.drop (l.length - k)

/-- The end of `post_step`, l.887-892 and l.928-935: `n` rows of the history. -/
def adjust {α : Type} (col : List (Option α)) (n : ℕ) : List (Option α) :=
  if col.length < n then col ++ List.replicate (n - col.length) none
  else if n < col.length then lastK col (n - 1)
  else col

/-- The recording of a match, track_match.py l.2010-2021, for a step with number `j`. -/
def record (j : ℕ) (s : Step) (b : St) : St :=
  if s.matched then { b with names := b.names ++ [some s.name], rows := b.rows ++ [j] } else b

/-- The rows that the step writes by itself. -/
def own (j : ℕ) (s : Step) (b : St) : St := { b with rows := b.rows ++ List.replicate s.extra j }

/-- `append_state` (l.300-314) followed by the hooks after the step (l.797-806). -/
def after (verbose : Bool) (j : ℕ) (s : Step) (b : St) : St :=
  if s.redirect && !verbose then b
  else
    let rows := b.rows ++ [j]
    ⟨rows, adjust (b.names ++ [some s.name]) rows.length, adjust (b.times ++ [some s.time]) rows.length⟩

/-- `run_step`. -/
def runStep (verbose : Bool) (j : ℕ) (s : Step) (b : St) : St := after verbose j s (own j s (record j s b))

/-- Steps with numbers from `j`. -/
def runSteps (verbose : Bool) : ℕ → List Step → St → St
  | _, [], b => b
  | j, s :: r, b => runSteps verbose (j + 1) r (runStep verbose j s b)

/-- `pre_evolve` (l.871-875, l.914-918): the columns are made if they are missing. -/
def preEvolve (rows : List ℕ) (names : Option (List (Option String))) (times : Option (List (Option ℚ))) : St :=
  ⟨rows, names.getD [some "initial_cond"], times.getD [some 0]⟩

/-- `post_evolve` (l.896-901, l.938-944), for the events `END` and `FAILED`. -/
def postEvolve (over : Bool) (b : St) : St :=
  if over then ⟨b.rows, b.names ++ List.replicate (b.rows.length - b.names.length) none,
    b.times ++ List.replicate (b.rows.length - b.times.length) none⟩
  else b

/-- The evolution of a binary without errors. -/
def evolve (verbose : Bool) (rows : List ℕ) (names : Option (List (Option String))) (times : Option (List (Option ℚ)))
    (steps : List Step) (over : Bool) : St :=
  postEvolve over (runSteps verbose 1 steps (preEvolve rows names times))

/-- The evolution stops with an error in a step that has recorded its match and has written `f` rows with the failure by itself; the population writes one more. -/
def evolveFail (verbose : Bool) (rows : List ℕ) (names : Option (List (Option String))) (times : Option (List (Option ℚ)))
    (steps : List Step) (bad : Step) (f : ℕ) : St :=
  let b := runSteps verbose 1 steps (preEvolve rows names times)
  let b := record (steps.length + 1) bad b
  { b with rows := b.rows ++ List.replicate (f + 1) (steps.length + 1) }

/-- `restore`: rows and columns are cut after entry `i`; a missing column is an error. -/
def restore (i : ℕ) (rows : List ℕ) (names : Option (List (Option String))) (times : Option (List (Option ℚ))) : Except Err St :=
  match names, times with
  | some n, some t => .ok ⟨rows.take (i + 1), n.take (i + 1), t.take (i + 1)⟩
  | _, _ => .error .attribute

/-- The recording of a match if there may be no column for names: `binary.step_names.append(...)`. -/
def recordMissing (j : ℕ) (s : Step) (rows : List ℕ) (names : Option (List (Option String))) :
    Except Err (List ℕ × Option (List (Option String))) :=
  if s.matched then
    match names with
    | none => .error .attribute
    | some n => .ok (rows ++ [j], some (n ++ [some s.name]))
  else .ok (rows, names)

/-! ### Specification -/

/-- A step without rows and hooks. -/
def silent (verbose : Bool) (s : Step) : Bool := s.redirect && !verbose

/-- All columns are as long as the history. -/
def Level (b : St) : Prop := b.names.length = b.rows.length ∧ b.times.length = b.rows.length

/-- The rows of a step. -/
def count (verbose : Bool) (s : Step) : ℕ := if silent verbose s then 0 else (if s.matched then 1 else 0) + s.extra + 1

/-- The names in the rows of a step: at its first row, and after a match at the next one. -/
def nameBlock (verbose : Bool) (s : Step) : List (Option String) :=
  if silent verbose s then [] else (if s.matched then [some s.name] else []) ++ some s.name :: List.replicate s.extra none

/-- The durations in the rows of a step. -/
def timeBlock (verbose : Bool) (s : Step) : List (Option ℚ) :=
  if silent verbose s then [] else some s.time :: List.replicate (s.extra + if s.matched then 1 else 0) none

/-- The rows of all steps. -/
def rowsOf (verbose : Bool) : ℕ → List Step → List ℕ
  | _, [] => []
  | j, s :: r => List.replicate (count verbose s) j ++ rowsOf verbose (j + 1) r

end Verif.StepHooks
