import Verif.Jobs
import Verif.Frame
import Mathlib.Data.List.Sort
import Mathlib.Data.List.Dedup
import Mathlib.Tactic.Common

/-!
# Questions and logs in the check of a run

Model of `posydon/CLI/popsyn/check.py`: `get_ini_file` (l.33-79), `validate_run_folder` (l.81-108), `select_job_id` (l.407-454), `read_batch_log_file` (l.456-508),
`analyze_missing_batch_logs` (l.510-535), `get_user_confirmation` (l.638-668), `submit_slurm_job` (l.670-700), the answers in `handle_batches_complete` (l.702-748) and
in `check_popsyn_function` (l.783-833); of `validate_ini_file` (`setup.py` l.51-71); the names of the logs are those of the scripts in `posydon/CLI/io.py` l.227, l.304,
l.395.

Simplifications.  Texts are lists of ASCII characters.  Answers of the user are a list of texts, and asking beyond its end is an `EOFError`.  What `sbatch` does is a
parameter.  `"..." in str(lines)` is taken as one of the lines having the text: quotes, commas and escapes are not part of it.  Errors when a log is opened
are left out.
-/

namespace Verif.Dialog

open Verif.Jobs (Text cutAt strip starts dec int)

inductive Err where
  | file
  | value
  | eof
deriving DecidableEq

/-! ### The parameter file -/

/-- `validate_run_folder`, l.90-108: the folder is `none` if it is not there. -/
def validFolder (folder : Option (List Text)) : Except Err (List Text) :=
  match folder with
  | none => .error .file
  | some [] => .error .value
  | some l => .ok l

/-- The order of `sorted` for texts. -/
def le (a b : Text) : Prop := a ≤ b

instance : DecidableRel le := fun a b => inferInstanceAs (Decidable (a ≤ b))

/-- `*.ini` -/
def isIni (f : Text) : Bool := ((chars! ".ini").isSuffixOf f) && !(starts (chars! ".") f)

/-- `get_ini_file`, l.53-79; the question is asked only if there are several files. -/
def iniFile (folder : List Text) (answers : List Text) : Except Err Text :=
  match (folder.filter isIni).insertionSort le with
  | [] => .error .file
  | [f] => .ok f
  | f :: g :: r =>
    match answers with
    | [] => .error .eof
    | a :: _ =>
      match int a with
      | none => .ok f
      | some i => if 0 ≤ i ∧ i < ((f :: g :: r).length : ℤ) then .ok ((f :: g :: r).getD i.toNat f) else .ok f

/-! ### The logs -/

/-- The log of a task, io.py l.227. -/
def logName (job idx : ℕ) : Text := (chars! "popsyn_") ++ dec job ++ '_' :: dec idx ++ (chars! ".out")

/-- The log of merging, io.py l.304. -/
def mergeLog : Text := (chars! "popsyn_merge.out")

/-- The log of a task that was repeated, io.py l.395. -/
def rescueLog (job idx : ℕ) : Text := (chars! "rescue_") ++ dec job ++ '_' :: dec idx ++ (chars! ".out")

/-- `popsyn_*.out` -/
def isLog (f : Text) : Bool := starts (chars! "popsyn_") f && (chars! ".out").isSuffixOf f && decide (11 ≤ f.length)

/-- The number of the job in the name of a log, l.431. -/
def jobOf (f : Text) : Option ℤ := int ((cutAt '.' ((cutAt '_' f).getD 1 [])).headD [])

/-- The numbers of l.430-433. -/
def jobs : List Text → Except Err (List ℤ)
  | [] => .ok []
  | f :: r =>
    match jobOf f with
    | none => .error .value
    | some j =>
      match jobs r with
      | .error e => .error e
      | .ok l => .ok (j :: l)

/-- `np.unique` -/
def unique (l : List ℤ) : List ℤ := l.dedup.insertionSort (· ≤ ·)

/-- The loop of l.443-452. -/
def ask (ids : List ℤ) : List Text → Except Err ℤ
  | [] => .error .eof
  | a :: r =>
    match int a with
    | none => ask ids r
    | some i => if 0 ≤ i ∧ i < (ids.length : ℤ) then .ok (ids.getD i.toNat 0) else ask ids r

/-- The choice of l.434-454. -/
def choose (ids : List ℤ) (answers : List Text) : Except Err (Option ℤ) :=
  match ids with
  | [] => .ok none
  | [j] => .ok (some j)
  | j :: k :: r =>
    match ask (j :: k :: r) answers with
    | .error e => .error e
    | .ok i => .ok (some i)

/-- `select_job_id`, l.422-454, for the files in the folder of the logs. -/
def selectJob (logs : List Text) (answers : List Text) : Except Err (Option ℤ) :=
  if logs.filter isLog = [] then .ok none
  else
    match jobs (logs.filter isLog) with
    | .error e => .error e
    | .ok l => choose (unique l) answers

/-- What is reported for a task. -/
inductive Reason where
  | notFound
  | empty
  | wallTime
  | lines (l : List Text)
deriving DecidableEq

def timeLimit : Text := (chars! "DUE TO TIME LIMIT")

/-- The last three. -/
def lastThree (l : List Text) : List Text := l.drop (l.length - 3)

/-- `read_batch_log_file`, l.476-505, for the lines of the log (`none`: there is no file). -/
def reason (log : Option (List Text)) : Reason :=
  match log with
  | none => .notFound
  | some [] => .empty
  | some (a :: r) =>
    if 3 ≤ (a :: r).length then
      if ((lastThree (a :: r)).map strip).any (Frame.isIn timeLimit) then .wallTime else .lines ((lastThree (a :: r)).map strip)
    else if Frame.isIn timeLimit a then .wallTime
    else .lines ((a :: r).map strip)

/-- `analyze_missing_batch_logs`, l.522-535: the tasks with what is found in their logs. -/
def analyze (logs : List Text) (content : Text → Option (List Text)) (answers : List Text) (missing : List ℕ) : Except Err (List (ℕ × Reason)) :=
  if missing = [] then .ok []
  else
    match selectJob logs answers with
    | .error e => .error e
    | .ok none => .ok []
    | .ok (some j) => .ok (missing.map fun i => (i, reason (content (logName j.toNat i))))

/-! ### Yes or no -/

/-- `str.lower` -/
def lower (s : Text) : Text := s.map Char.toLower

/-- `get_user_confirmation`, l.655-668. -/
def confirm (answer : Text) : Bool := decide (lower (strip answer) ∈ [(chars! "yes"), (chars! "y")])

/-- What `sbatch` does: it may not be there. -/
inductive Sbatch where
  | done
  | failed
  | absent
deriving DecidableEq

/-- `submit_slurm_job`, l.685-700. -/
def submit (sbatch : Text → Sbatch) (script : Text) : Bool :=
  match sbatch script with
  | .done => true
  | .failed => false
  | .absent => false

/-- What the command does: scripts handed to `sbatch`, whether rescue scripts are written, whether they are started, and the exit code. -/
structure Done where
  merges : List Text
  written : Bool
  started : Bool
  code : ℕ
deriving DecidableEq

/-- The answers of `check_popsyn_function`, l.773-833, after the state of the run is known (`Jobs.check`). -/
def finish (run : Text) (o : Jobs.Outcome) (answers : List Text) : Except Err Done :=
  match o with
  | .passed => .ok ⟨[], false, false, 0⟩
  | .mergeAgain mets =>
    match answers with
    | [] => .error .eof
    | a :: _ => .ok ⟨if confirm a then mets.map fun m => Jobs.joinPath run (Jobs.mergeName m) else [], false, false, 2⟩
  | .foldersMissing => .ok ⟨[], false, false, 1⟩
  | .rescued _ =>
    match answers with
    | [] => .error .eof
    | a :: r =>
      if confirm a then
        match r with
        | [] => .error .eof
        | b :: _ => .ok (if confirm b then ⟨[], true, true, 0⟩ else ⟨[], true, false, 2⟩)
      else .ok ⟨[], false, false, 2⟩

/-- `validate_ini_file`, setup.py l.66-71: whether the file is there and its supernova model is known. -/
def validIni (file : Option Bool) : Except Err Unit :=
  match file with
  | none => .error .file
  | some false => .error .value
  | some true => .ok ()

/-! ### Specification -/

/-- A folder of logs in which all logs of tasks are of the jobs `js`. -/
def LogsOf (logs : List Text) (js : List ℕ) : Prop := (∀ f ∈ logs, isLog f = true → ∃ j ∈ js, ∃ i, f = logName j i) ∧ ∀ j ∈ js, ∃ i, logName j i ∈ logs

/-- The answer `a` names a place of a list. -/
def Names {A : Type} (l : List A) (a : Text) : Prop := ∃ i : ℕ, int a = some (i : ℤ) ∧ i < l.length

end Verif.Dialog
