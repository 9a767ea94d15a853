import Verif.Pop
import Verif.Chars
import Mathlib.Algebra.Order.Field.Rat
/-!
Model of the scripts of a population run on a cluster and of the command that checks such a run and repairs it:
`/repo/posydon/CLI/io.py` `create_slurm_array` (l.161-244), `create_slurm_rescue` (l.324-416), `create_batch_rescue_script`
(l.483-591), `create_bash_submit_rescue_script` (l.593-625), the list of files of `create_merge_script_text` (l.91-93);
`/repo/posydon/CLI/popsyn/check.py` `check_population_files` (l.172-211), `check_binary_counts` (l.213-266), `check_run_status`
(l.268-298), `get_expected_batch_count` (l.302-333), `find_missing_batch_indices` (l.335-358), `print_batch_status` (l.360-405),
`check_batch` (l.537-601), `get_batches_status` (l.606-637), `handle_batches_complete` (l.702-748), `check_popsyn_function`
(l.753-833); the test of the length of the job array in `/repo/posydon/CLI/popsyn/setup.py` l.107-110; the rank and size of a task
in `binarypop_kwargs_from_ini` (`/repo/posydon/popsyn/io.py` l.541-555).

Simplifications: a script is its list of lines, a line and a file name are lists of characters. The user answers yes to all
questions. What is printed, the analysis of the log files and what `sbatch` does beyond starting the tasks of an array are left
out. Numbers are printed in decimal notation.
-/
namespace Verif.Jobs

abbrev Text := List Char

inductive Err
  | value | zeroDivision
  deriving DecidableEq

/-! ### Texts -/

/-- `s.split(c)` for one character. -/
def cutAt (c : Char) : Text → List Text
  | [] => [[]]
  | x :: s =>
    if x = c then [] :: cutAt c s
    else match cutAt c s with
      | [] => [[x]]
      | p :: r => (x :: p) :: r

def isSpace (c : Char) : Bool := c = ' ' || c = '\n' || c = '\t' || c = '\r'

/-- `s.strip()` -/
def strip (s : Text) : Text := ((s.dropWhile isSpace).reverse.dropWhile isSpace).reverse

/-- `s.startswith(p)` -/
def starts (p s : Text) : Bool := p.isPrefixOf s

/-- `str(n)` of a natural number. -/
def dec (n : ℕ) : Text := Nat.toDigits 10 n

/-- `str(n)` of an integer. -/
def decZ : ℤ → Text
  | .ofNat n => dec n
  | .negSucc n => '-' :: dec (n + 1)

def digitsVal (s : Text) : Option ℕ := if s ≠ [] ∧ s.all Char.isDigit = true then some (Nat.ofDigitChars 10 s 0) else none

/-- `int(s)`; `none` is a `ValueError`. -/
def int (s : Text) : Option ℤ :=
  match strip s with
  | '-' :: t => (digitsVal t).map fun (n : ℕ) => -(n : ℤ)
  | '+' :: t => (digitsVal t).map fun (n : ℕ) => (n : ℤ)
  | t => (digitsVal t).map fun (n : ℕ) => (n : ℤ)

/-- `c.join(l)` -/
def join (c : Char) : List Text → Text
  | [] => []
  | [a] => a
  | a :: b :: l => a ++ c :: join c (b :: l)

/-! ### Writing the scripts -/

/-- Settings of the jobs. -/
structure Opts where
  account : Option Text
  partition : Option Text
  email : Option Text
  exclude : Option Text
  walltime : Option Text
  mem : Option Text
  limit : Option ℤ
  deriving DecidableEq

/-- A value inserted into a text. -/
def str : Option Text → Text
  | none => (chars! "None")
  | some s => s

def kArray := (chars! "#SBATCH --array=")
def kTime := (chars! "#SBATCH --time=")
def kMem := (chars! "#SBATCH --mem-per-cpu=")
def kPartition := (chars! "#SBATCH --partition=")
def kAccount := (chars! "#SBATCH --account=")
def kMail := (chars! "#SBATCH --mail-user=")
def kExclude := (chars! "#SBATCH --exclude=")
def kPath := (chars! "export PATH_TO_POSYDON=")
def kData := (chars! "export PATH_TO_POSYDON_DATA=")
def kCount := (chars! "export SLURM_ARRAY_TASK_COUNT=")
def kMin := (chars! "export SLURM_ARRAY_TASK_MIN=")

def optLine (key : Text) : Option Text → List Text
  | none => []
  | some a => [key ++ a]

def optMail : Option Text → List Text
  | none => []
  | some a => [(chars! "#SBATCH --mail-type=FAIL"), kMail ++ a]

/-- l.203-218 (371-386) -/
def optional (o : Opts) : List Text :=
  optLine kAccount o.account ++ optLine kPartition o.partition ++ optMail o.email ++ optLine kExclude o.exclude

/-- l.220-221 (388-389) -/
def limited (s : Text) : Option ℤ → Text
  | none => s
  | some m => s ++ '%' :: decZ m

/-- The script of the job array, l.199-238: `met` is the metallicity in the names of the files, `num` as a number. -/
def slurmArray (met num : Text) (n : ℤ) (o : Opts) (path data : Text) : List Text :=
  [(chars! "#!/bin/bash"), kArray ++ limited ((chars! "0-") ++ decZ (n - 1)) o.limit,
    (chars! "#SBATCH --job-name=") ++ met ++ (chars! "_popsyn"),
    (chars! "#SBATCH --output=./") ++ met ++ (chars! "_logs/popsyn_%A_%a.out"),
    kTime ++ str o.walltime, kMem ++ str o.mem] ++ optional o
    ++ [kPath ++ path, kData ++ data, (chars! "srun python ./run_metallicity.py ") ++ num]

/-- The script that repeats missing tasks, l.365-410; `missing` is sorted. -/
def slurmRescue (met num : Text) (missing : List ℕ) (n : Option ℤ) (o : Opts) (path data : Option Text) : List Text :=
  [(chars! "#!/bin/bash"), kArray ++ limited (join ',' (missing.map dec)) o.limit,
    (chars! "#SBATCH --job-name=") ++ met ++ (chars! "_popsyn_rescue"),
    (chars! "#SBATCH --output=./") ++ met ++ (chars! "_logs/rescue_%A_%a.out"),
    kTime ++ str o.walltime, kMem ++ str o.mem] ++ optional o
    ++ [[], kPath ++ str path, kData ++ str data, [], kCount ++ str (n.map decZ), kMin ++ (chars! "0"), [],
      (chars! "srun python ./run_metallicity.py ") ++ num]

/-- setup.py l.107-110: a script is written only if there is a binary for each job. -/
def setupJobs (binaries jobs : ℤ) : Except Err Unit :=
  if jobs = 0 then .error .zeroDivision
  else if (binaries : ℚ) / (jobs : ℚ) < 1 then .error .value
  else .ok ()

/-! ### Reading the scripts -/

/-- `line.split('=')[1].strip()` -/
def value (l : Text) : Text := strip ((cutAt '=' l).getD 1 [])

/-- The part before a limit, check.py l.328-329. -/
def noLimit (s : Text) : Text := (cutAt '%' s).headD []

/-- `start, end = map(int, s.split('-'))`; `end - start + 1` -/
def span (s : Text) : Except Err ℤ :=
  match (cutAt '-' s).map int with
  | [some a, some b] => .ok (b - a + 1)
  | _ => .error .value

/-- `get_expected_batch_count` of an existing script, check.py l.323-333. -/
def expected : List Text → Except Err (Option ℤ)
  | [] => .ok none
  | l :: ls =>
    if starts kArray l = true then
      if '-' ∈ noLimit (value l) then
        match span (noLimit (value l)) with
        | .error e => .error e
        | .ok k => .ok (some k)
      else expected ls
    else expected ls

/-- What is read from the script of the array, l.518-527. -/
structure Read where
  length : Option ℤ
  o : Opts
  path : Option Text
  data : Option Text
  deriving DecidableEq

def Read.start : Read := ⟨none, ⟨none, none, none, none, none, none, none⟩, none, none⟩

/-- l.530-539 -/
def readArray (f : Read) (l : Text) : Except Err Read :=
  let r := value l
  match (if '%' ∈ r then (match int ((cutAt '%' r).getD 1 []) with
      | none => .error .value
      | some m => .ok { f with o := { f.o with limit := some m } }) else .ok f : Except Err Read) with
  | .error e => .error e
  | .ok g =>
    if '-' ∈ noLimit r then
      match span (noLimit r) with
      | .error e => .error e
      | .ok k => .ok { g with length := some k }
    else .ok g

/-- l.529-555 for one line. -/
def readLine (f : Read) (l : Text) : Except Err Read :=
  if starts kArray l = true then readArray f l
  else if starts kTime l = true then .ok { f with o := { f.o with walltime := some (value l) } }
  else if starts kMem l = true then .ok { f with o := { f.o with mem := some (value l) } }
  else if starts kPartition l = true then .ok { f with o := { f.o with partition := some (value l) } }
  else if starts kAccount l = true then .ok { f with o := { f.o with account := some (value l) } }
  else if starts kMail l = true then .ok { f with o := { f.o with email := some (value l) } }
  else if starts kExclude l = true then .ok { f with o := { f.o with exclude := some (value l) } }
  else if starts kPath l = true then .ok { f with path := some (value l) }
  else if starts kData l = true then .ok { f with data := some (value l) }
  else .ok f

def readAll (f : Read) : List Text → Except Err Read
  | [] => .ok f
  | l :: ls =>
    match readLine f l with
    | .error e => .error e
    | .ok g => readAll g ls

/-- Arguments of the command; `jobs` and `merge` are accepted and not used. -/
structure Args where
  o : Opts
  jobs : Option ℤ
  merge : Option Text

/-- l.558-571 -/
def override (a : Args) (o : Opts) : Opts where
  account := a.o.account.or o.account
  partition := a.o.partition.or o.partition
  email := a.o.email.or o.email
  exclude := a.o.exclude.or o.exclude
  walltime := a.o.walltime.or o.walltime
  mem := a.o.mem.or o.mem
  limit := a.o.limit.or o.limit

/-! ### Checking -/

/-- The file that the task of a rank leaves, binarypopulation.py l.475, 488. -/
def batchFile (r : ℕ) : Text := (chars! "evolution.combined.") ++ dec r ++ (chars! ".h5")

/-- Files of a folder that match `evolution.combined.*`. -/
def batchFiles (folder : List Text) : List Text := folder.filter (starts (chars! "evolution.combined."))

/-- `int(file_name.split('.')[-2])`, check.py l.355-356. -/
def fileIndex (f : Text) : Option ℤ :=
  let p := cutAt '.' f
  int (p.getD (p.length - 2) [])

def indices : List Text → Except Err (List ℤ)
  | [] => .ok []
  | f :: fs =>
    match fileIndex f with
    | none => .error .value
    | some i =>
      match indices fs with
      | .error e => .error e
      | .ok l => .ok (i :: l)

/-- `find_missing_batch_indices`, l.350-358, sorted. -/
def missing (folder : List Text) (n : ℤ) : Except Err (List ℕ) :=
  match indices (batchFiles folder) with
  | .error e => .error e
  | .ok found => .ok ((List.range n.toNat).filter fun (i : ℕ) => decide ((i : ℤ) ∉ found))

inductive State
  | folderMissing | unknown | incomplete | complete | extra
  deriving DecidableEq

structure Status where
  state : State
  expected : Option ℤ
  found : ℕ
  missing : Option (List ℕ)
  deriving DecidableEq

/-- `print_batch_status`, l.381-405. -/
def batchState : Option ℤ → ℕ → State
  | none, _ => .unknown
  | some n, k => if (k : ℤ) < n then .incomplete else if (k : ℤ) = n then .complete else .extra

/-- One metallicity of a run: its texts, the merged file (with the number of systems if it can be read), the script of the array
and the folder of the batches. -/
structure Met where
  met : Text
  num : Text
  merged : Option (Option ℕ)
  script : Option (List Text)
  folder : Option (List Text)

/-- `get_expected_batch_count`, l.318-321. -/
def expectedOf (m : Met) : Except Err (Option ℤ) :=
  match m.script with
  | none => .ok none
  | some s => expected s

/-- `check_batch`, l.559-601. -/
def checkBatch (m : Met) : Except Err Status :=
  match expectedOf m with
  | .error e => .error e
  | .ok n =>
    match m.folder with
    | none => .ok ⟨.folderMissing, n, 0, none⟩
    | some files =>
      let k := (batchFiles files).length
      let miss : Except Err (List ℕ) := match n with
        | none => .ok []
        | some n => if (k : ℤ) < n then missing files n else .ok []
      match miss with
      | .error e => .error e
      | .ok l => .ok ⟨batchState n k, n, k, if batchState n k = .incomplete then some l else none⟩

/-- The rescue script of one metallicity. -/
structure Rescue where
  met : Text
  lines : List Text

/-- `create_batch_rescue_script`, io.py l.500-591. -/
def rescueScript (a : Args) (m : Met) (s : Status) : Except Err Rescue :=
  match s.missing with
  | none => .error .value
  | some [] => .error .value
  | some l =>
    match readAll Read.start (m.script.getD []) with
    | .error e => .error e
    | .ok r => .ok ⟨m.met, slurmRescue m.met m.num l r.length (override a r.o) r.path r.data⟩

inductive Outcome
  | passed
  | mergeAgain (mets : List Text)
  | foldersMissing
  | rescued (scripts : List Rescue)

def mapE {A B : Type} (f : A → Except Err B) : List A → Except Err (List B)
  | [] => .ok []
  | a :: l =>
    match f a with
    | .error e => .error e
    | .ok b =>
      match mapE f l with
      | .error e => .error e
      | .ok m => .ok (b :: m)

/-- `check_run_status`, l.289-298: all merged files are there, and hold the number of binaries. -/
def allMerged (mets : List Met) : Bool := mets.all fun m => m.merged.isSome

def countsMatch (mets : List Met) (binaries : ℕ) : Bool := mets.all fun m => m.merged == some (some binaries)

/-- `check_popsyn_function`, l.764-833. -/
def check (a : Args) (mets : List Met) (binaries : ℕ) : Except Err Outcome :=
  if allMerged mets && countsMatch mets binaries then .ok .passed
  else
    let todo := mets.filter fun m => m.merged.isNone
    match mapE checkBatch todo with
    | .error e => .error e
    | .ok states =>
      if states.all (fun s => s.state == .complete) then .ok (.mergeAgain (todo.map (·.met)))
      else if states.any (fun s => s.state == .folderMissing) then .ok .foldersMissing
      else
        match mapE (fun p => rescueScript a p.1 p.2) (todo.zip states) with
        | .error e => .error e
        | .ok scripts => .ok (.rescued scripts)

/-! ### Paths -/

/-- `os.path.join(a, b)` for a relative `b`. -/
def joinPath (a b : Text) : Text := if a = [] then b else if a.getLast? = some '/' then a ++ b else a ++ '/' :: b

def rescueName (met : Text) : Text := met ++ (chars! "_Zsun_rescue.slurm")
def mergeName (met : Text) : Text := met ++ (chars! "_Zsun_merge_popsyn.slurm")

/-- The path that the rescue script is written to (l.412-416), and the path that is reported (l.589-591). -/
def rescuePaths (run met : Text) : Text × Text := (rescueName met, joinPath run (rescueName met))

/-- The scripts that the submission file starts for one rescue script, l.613-622. -/
def submitted (path : Text) : List Text :=
  let base := (cutAt '/' path).getLastD []
  [base, mergeName ((cutAt '_' base).headD [])]

/-! ### Merging -/

/-- Sort key of the merge script, l.93: `int(x.split(".h5")[0].split(".")[-1])`, for names that end in `.h5` or do not contain it. -/
def mergeKey (f : Text) : Option ℤ :=
  let g := if (chars! ".h5").isSuffixOf f = true then f.take (f.length - 3) else f
  int ((cutAt '.' g).getLastD [])

/-- The files that are merged, in order, l.91-93: all files of the folder. -/
def merge (folder : List Text) : Except Err (List Text) :=
  if folder.all (fun f => (mergeKey f).isSome) = true then
    .ok (folder.mergeSort fun f g => decide ((mergeKey f).getD 0 ≤ (mergeKey g).getD 0))
  else .error .value

/-! ### Specification: the tasks that a script starts

The array specification of the scheduler: comma-separated numbers and ranges, followed by an optional limit. -/

def item (s : Text) : Option (List ℕ) :=
  match (cutAt '-' s).map digitsVal with
  | [some a] => some [a]
  | [some a, some b] => some (List.range' a (b + 1 - a))
  | _ => none

def items : List Text → Option (List ℕ)
  | [] => some []
  | s :: l =>
    match item s, items l with
    | some a, some b => some (a ++ b)
    | _, _ => none

/-- Identifiers of the tasks of an array. -/
def arrayIds (spec : Text) : Option (List ℕ) :=
  match cutAt '%' spec with
  | s :: _ => items (cutAt ',' s)
  | [] => none

/-- The rest of the last line that starts with a key. -/
def setting (key : Text) (script : List Text) : Option Text :=
  (script.reverse.find? fun l => starts key l).map fun l => l.drop key.length

/-- Rank and size that the task `id` of an array computes, io.py l.548-555: the variables of the scheduler are the smallest
identifier and the number of tasks, unless the script sets them. -/
def rankSize (script : List Text) (ids : List ℕ) (id : ℕ) : Option (ℤ × ℤ) :=
  match int ((setting kMin script).getD (dec (ids.min?.getD 0))), int ((setting kCount script).getD (dec ids.length)) with
  | some lo, some n => some (id - lo, n)
  | _, _ => none

/-- Rank and size of all tasks of a script. -/
def tasks (script : List Text) : Option (List (ℤ × ℤ)) :=
  match setting kArray script with
  | none => none
  | some spec =>
    match arrayIds spec with
    | none => none
    | some ids => ids.mapM (rankSize script ids)

/-- A text that survives being written to a line of a script and read back. -/
def Plain (s : Text) : Prop := '=' ∉ s ∧ strip s = s

def Opts.Plain (o : Opts) : Prop :=
  (∀ s, o.account = some s → Jobs.Plain s) ∧ (∀ s, o.partition = some s → Jobs.Plain s) ∧ (∀ s, o.email = some s → Jobs.Plain s) ∧
    (∀ s, o.exclude = some s → Jobs.Plain s) ∧ (∃ s, o.walltime = some s ∧ Jobs.Plain s) ∧ ∃ s, o.mem = some s ∧ Jobs.Plain s

/-- The folder of a run holds, for `S ⊆ {0, …, n-1}`, the files of the ranks of `S`, each once, and perhaps files with other names. -/
def Holds (folder : List Text) (S : List ℕ) : Prop := (batchFiles folder).Perm (S.map batchFile)

/-! ### Lemmas -/

theorem cutAt_none (c : Char) (s : Text) (h : c ∉ s) : cutAt c s = [s] := by
  induction s with
  | nil => rfl
  | cons x s ih =>
    rw [cutAt, if_neg (fun e => h (by simp [e])), ih (fun hc => h (by simp [hc]))]

theorem cutAt_append (c : Char) (a b : Text) (h : c ∉ a) : cutAt c (a ++ c :: b) = a :: cutAt c b := by
  induction a with
  | nil => simp [cutAt]
  | cons x s ih =>
    rw [List.cons_append, cutAt, if_neg (fun e => h (by simp [e])), ih (fun hc => h (by simp [hc]))]

theorem dropWhile_none {p : Char → Bool} {s : Text} (h : ∀ c ∈ s, p c = false) : s.dropWhile p = s := by
  cases s with
  | nil => rfl
  | cons x s => simp [List.dropWhile, h x (by simp)]

theorem strip_none {s : Text} (h : ∀ c ∈ s, isSpace c = false) : strip s = s := by
  unfold strip
  rw [dropWhile_none h, dropWhile_none (by simpa using h), List.reverse_reverse]

theorem digit_of_mem {n : ℕ} {c : Char} (h : c ∈ dec n) : c.isDigit = true :=
  Nat.isDigit_of_mem_toDigits (by decide) (by decide) h

theorem not_mem_dec {c : Char} (hc : c.isDigit = false) (n : ℕ) : c ∉ dec n := by
  intro h
  rw [digit_of_mem h] at hc
  cases hc

theorem space_not_digit {c : Char} (h : c.isDigit = true) : isSpace c = false := by
  by_contra hs
  rw [Bool.not_eq_false] at hs
  simp only [isSpace, Bool.or_eq_true, decide_eq_true_eq] at hs
  rcases hs with ((rfl | rfl) | rfl) | rfl <;> revert h <;> decide

theorem strip_dec (n : ℕ) : strip (dec n) = dec n := strip_none fun _ hc => space_not_digit (digit_of_mem hc)

theorem dec_ne (n : ℕ) : dec n ≠ [] := Nat.toDigits_ne_nil

theorem digitsVal_dec (n : ℕ) : digitsVal (dec n) = some n := by
  unfold digitsVal
  rw [if_pos ⟨dec_ne n, by rw [List.all_eq_true]; exact fun c hc => digit_of_mem hc⟩]
  exact congrArg some Nat.ofDigitChars_ten_toDigits

theorem int_digits {s : Text} (hs : ∀ c ∈ s, c.isDigit = true) : int s = (digitsVal s).map fun (n : ℕ) => (n : ℤ) := by
  unfold int
  rw [strip_none fun c hc => space_not_digit (hs c hc)]
  split
  · exact absurd (hs '-' (by simp)) (by decide)
  · exact absurd (hs '+' (by simp)) (by decide)
  · rfl

theorem int_dec (n : ℕ) : int (dec n) = some (n : ℤ) := by
  rw [int_digits fun c hc => digit_of_mem hc, digitsVal_dec]; rfl

theorem int_decZ (z : ℤ) : int (decZ z) = some z := by
  cases z with
  | ofNat n => exact int_dec n
  | negSucc n =>
    show int ('-' :: dec (n + 1)) = _
    unfold int
    rw [strip_none (by
      intro c hc
      rcases List.mem_cons.1 hc with rfl | hc
      · decide
      · exact space_not_digit (digit_of_mem hc))]
    show (digitsVal (dec (n + 1))).map _ = _
    rw [digitsVal_dec]
    rfl

theorem starts_self (p w : Text) : starts p (p ++ w) = true := by
  unfold starts; rw [List.isPrefixOf_iff_prefix]; exact List.prefix_append p w

/-- Two keys of which neither begins with the other. -/
theorem starts_other {p q : Text} (w : Text) (h : starts p q = false) (h' : starts q p = false) : starts p (q ++ w) = false := by
  by_contra hs
  rw [Bool.not_eq_false] at hs
  unfold starts at *
  rw [List.isPrefixOf_iff_prefix] at hs
  rcases List.prefix_or_prefix_of_prefix hs (List.prefix_append q w) with hp | hp
  · rw [← List.isPrefixOf_iff_prefix, h] at hp; cases hp
  · rw [← List.isPrefixOf_iff_prefix, h'] at hp; cases hp

/-- The beginnings of the lines of the scripts. -/
def lineKeys : List Text := [(chars! "#!/bin/bash"), kArray, (chars! "#SBATCH --job-name="), (chars! "#SBATCH --output=./"), kTime, kMem, kAccount,
  kPartition, (chars! "#SBATCH --mail-type=FAIL"), kMail, kExclude, kPath, kData, kCount, kMin,
  (chars! "srun python ./run_metallicity.py ")]

theorem lineKeys_apart : ∀ p ∈ lineKeys, ∀ q ∈ lineKeys, p ≠ q → starts p q = false := by decide +kernel

/-- A line that does not begin with the key. -/
theorem line_other {p q : Text} (w : Text) (hp : p ∈ lineKeys) (hq : q ∈ lineKeys) (h : p ≠ q) : starts p (q ++ w) = false :=
  starts_other w (lineKeys_apart p hp q hq h) (lineKeys_apart q hq p hp (Ne.symm h))

theorem optional_lines {o : Opts} {p : Text} (hp : p ∈ lineKeys)
    (h : p ≠ kAccount ∧ p ≠ kPartition ∧ p ≠ (chars! "#SBATCH --mail-type=FAIL") ∧ p ≠ kMail ∧ p ≠ kExclude) :
    ∀ l ∈ optional o, starts p l = false := by
  intro l hl
  obtain ⟨h1, h2, h3, h4, h5⟩ := h
  simp only [optional, List.mem_append] at hl
  rcases hl with ((hl | hl) | hl) | hl
  · cases ho : o.account with
    | none => rw [ho] at hl; simp [optLine, optMail] at hl
    | some a =>
      rw [ho] at hl; simp only [optLine, List.mem_singleton] at hl; subst hl
      exact line_other a hp (by decide +kernel) h1
  · cases ho : o.partition with
    | none => rw [ho] at hl; simp [optLine, optMail] at hl
    | some a =>
      rw [ho] at hl; simp only [optLine, List.mem_singleton] at hl; subst hl
      exact line_other a hp (by decide +kernel) h2
  · cases ho : o.email with
    | none => rw [ho] at hl; simp [optLine, optMail] at hl
    | some a =>
      rw [ho] at hl; simp only [optMail, List.mem_cons, List.not_mem_nil, or_false] at hl
      rcases hl with rfl | rfl
      · exact lineKeys_apart p hp _ (by decide +kernel) h3
      · exact line_other a hp (by decide +kernel) h4
  · cases ho : o.exclude with
    | none => rw [ho] at hl; simp [optLine, optMail] at hl
    | some a =>
      rw [ho] at hl; simp only [optLine, List.mem_singleton] at hl; subst hl
      exact line_other a hp (by decide +kernel) h5

theorem setting_last {key v : Text} {a b : List Text} (h : ∀ l ∈ b, starts key l = false) :
    setting key (a ++ (key ++ v) :: b) = some v := by
  unfold setting
  have : ((a ++ (key ++ v) :: b).reverse.find? fun l => starts key l) = some (key ++ v) := by
    rw [List.reverse_append, List.reverse_cons, List.append_assoc, List.find?_append]
    rw [List.find?_eq_none.2 (by intro l hl; rw [h l (by simpa using hl)]; decide)]
    simp [starts_self]
  rw [this]
  simp

theorem setting_none {key : Text} {b : List Text} (h : ∀ l ∈ b, starts key l = false) : setting key b = none := by
  unfold setting
  rw [List.find?_eq_none.2 (by intro l hl; rw [h l (by simpa using hl)]; decide)]
  rfl

theorem value_key {k k' s : Text} (hk : k = k' ++ ['=']) (h' : '=' ∉ k') (hs : Plain s) : value (k ++ s) = s := by
  unfold value
  rw [hk, List.append_assoc]
  rw [show ['='] ++ s = '=' :: s from rfl, cutAt_append _ _ _ h', cutAt_none _ _ hs.1]
  exact hs.2

theorem mem_decZ {z : ℤ} {c : Char} (h : c ∈ decZ z) : c = '-' ∨ c.isDigit = true := by
  cases z with
  | ofNat n => exact .inr (digit_of_mem h)
  | negSucc n =>
    rcases List.mem_cons.1 h with rfl | hc
    · exact .inl rfl
    · exact .inr (digit_of_mem hc)

theorem mem_limited {s : Text} {m : Option ℤ} {c : Char} (h : c ∈ limited s m) : c ∈ s ∨ c = '%' ∨ c = '-' ∨ c.isDigit = true := by
  cases m with
  | none => exact .inl h
  | some m =>
    simp only [limited, List.mem_append, List.mem_cons] at h
    rcases h with h | h | h
    · exact .inl h
    · exact .inr (.inl h)
    · rcases mem_decZ h with h | h
      · exact .inr (.inr (.inl h))
      · exact .inr (.inr (.inr h))

/-- A specification of digits, signs and commas is read as it was written. -/
theorem plain_limited {s : Text} (m : Option ℤ) (hs : ∀ c ∈ s, c.isDigit = true ∨ c = '-' ∨ c = ',') : Plain (limited s m) := by
  have : ∀ c ∈ limited s m, c.isDigit = true ∨ c = '-' ∨ c = ',' ∨ c = '%' := by
    intro c hc
    rcases mem_limited hc with h | h | h | h
    · rcases hs c h with h | h | h
      · exact .inl h
      · exact .inr (.inl h)
      · exact .inr (.inr (.inl h))
    · exact .inr (.inr (.inr h))
    · exact .inr (.inl h)
    · exact .inl h
  constructor
  · intro h
    rcases this _ h with h | h | h | h <;> revert h <;> decide
  · refine strip_none fun c hc => ?_
    rcases this c hc with h | rfl | rfl | rfl
    · exact space_not_digit h
    · decide
    · decide
    · decide

theorem noLimit_limited {s : Text} (m : Option ℤ) (hs : '%' ∉ s) : noLimit (limited s m) = s := by
  unfold noLimit
  cases m with
  | none => show (cutAt '%' s).headD [] = s; rw [cutAt_none _ _ hs]; rfl
  | some m => show (cutAt '%' (s ++ '%' :: decZ m)).headD [] = s; rw [cutAt_append _ _ _ hs]; rfl

theorem head_limited {s : Text} (m : Option ℤ) (hs : '%' ∉ s) : ∃ r, cutAt '%' (limited s m) = s :: r := by
  cases m with
  | none => exact ⟨[], cutAt_none _ _ hs⟩
  | some m => exact ⟨_, cutAt_append _ _ _ hs⟩

/-- The range of a job array. -/
def rangeText (k : ℕ) : Text := (chars! "0-") ++ dec k

theorem rangeText_chars (k : ℕ) : ∀ c ∈ rangeText k, c.isDigit = true ∨ c = '-' ∨ c = ',' := by
  intro c hc
  rcases List.mem_append.1 hc with h | h
  · have : ∀ c ∈ (chars! "0-"), c.isDigit = true ∨ c = '-' ∨ c = ',' := by decide +kernel
    exact this c h
  · exact .inl (digit_of_mem h)

theorem rangeText_percent (k : ℕ) : '%' ∉ rangeText k := by
  intro h
  rcases rangeText_chars k _ h with h | h | h <;> revert h <;> decide

theorem rangeText_cut (k : ℕ) : cutAt '-' (rangeText k) = [(chars! "0"), dec k] := by
  have : rangeText k = (chars! "0") ++ '-' :: dec k := rfl
  rw [this, cutAt_append _ _ _ (by decide +kernel), cutAt_none _ _ (not_mem_dec (by decide) k)]

theorem span_range (k : ℕ) : span (rangeText k) = .ok ((k : ℤ) + 1) := by
  unfold span
  rw [rangeText_cut, List.map_cons, List.map_cons, List.map_nil, int_dec, show int (chars! "0") = some 0 by decide +kernel]
  simp

theorem dash_mem (k : ℕ) : '-' ∈ rangeText k := List.mem_append_left _ (by decide +kernel)

theorem arrayText (k : ℕ) : (chars! "0-") ++ decZ (((k + 1 : ℕ) : ℤ) - 1) = rangeText k := by
  have : (((k + 1 : ℕ) : ℤ) - 1) = Int.ofNat k := by simp
  rw [this]; rfl

theorem kArray_eq : kArray = (chars! "#SBATCH --array") ++ ['='] := by decide +kernel

theorem mapM_some {A B : Type} (f : A → Option B) (g : A → B) (l : List A) (h : ∀ a ∈ l, f a = some (g a)) : l.mapM f = some (l.map g) := by
  induction l with
  | nil => rfl
  | cons a l ih => rw [List.mapM_cons, h a (by simp), ih fun b hb => h b (by simp [hb])]; rfl

theorem cutAt_join {c : Char} : ∀ {l : List Text}, l ≠ [] → (∀ s ∈ l, c ∉ s) → cutAt c (join c l) = l
  | [], h, _ => absurd rfl h
  | [a], _, h => cutAt_none _ _ (h a (by simp))
  | a :: b :: l, _, h => by
    rw [join, cutAt_append _ _ _ (h a (by simp)), cutAt_join (by simp) fun s hs => h s (List.mem_cons_of_mem _ hs)]

theorem mem_join {c x : Char} : ∀ {l : List Text}, x ∈ join c l → x = c ∨ ∃ s ∈ l, x ∈ s
  | [], h => by simp [join] at h
  | [a], h => .inr ⟨a, by simp, h⟩
  | a :: b :: l, h => by
    rw [join, List.mem_append, List.mem_cons] at h
    rcases h with h | h | h
    · exact .inr ⟨a, by simp, h⟩
    · exact .inl h
    · rcases mem_join h with h | ⟨s, hs, hx⟩
      · exact .inl h
      · exact .inr ⟨s, List.mem_cons_of_mem _ hs, hx⟩

theorem item_dec (n : ℕ) : item (dec n) = some [n] := by
  unfold item
  rw [cutAt_none _ _ (not_mem_dec (by decide) n), List.map_cons, List.map_nil, digitsVal_dec]

theorem items_dec (l : List ℕ) : items (l.map dec) = some l := by
  induction l with
  | nil => rfl
  | cons a l ih => rw [List.map_cons, items, item_dec, ih]; rfl

theorem ids_range (k : ℕ) (m : Option ℤ) : arrayIds (limited (rangeText k) m) = some (List.range (k + 1)) := by
  unfold arrayIds
  obtain ⟨r, hr⟩ := head_limited m (rangeText_percent k)
  rw [hr]
  show items (cutAt ',' (rangeText k)) = _
  rw [cutAt_none _ _ (by
    intro h
    rcases List.mem_append.1 h with h | h
    · revert h; decide +kernel
    · exact not_mem_dec (by decide) k h)]
  have : item (rangeText k) = some (List.range (k + 1)) := by
    unfold item
    rw [rangeText_cut, List.map_cons, List.map_cons, List.map_nil, digitsVal_dec, show digitsVal (chars! "0") = some 0 by decide +kernel]
    show some (List.range' 0 (k + 1 - 0)) = _
    rw [List.range_eq_range']; rfl
  rw [items, this]
  show some (List.range (k + 1) ++ []) = _
  rw [List.append_nil]

theorem join_chars (l : List ℕ) : ∀ c ∈ join ',' (l.map dec), c.isDigit = true ∨ c = '-' ∨ c = ',' := by
  intro c hc
  rcases mem_join hc with h | ⟨s, hs, hx⟩
  · exact .inr (.inr h)
  · obtain ⟨n, _, rfl⟩ := List.mem_map.1 hs
    exact .inl (digit_of_mem hx)

theorem ids_join (l : List ℕ) (hl : l ≠ []) (m : Option ℤ) : arrayIds (limited (join ',' (l.map dec)) m) = some l := by
  unfold arrayIds
  obtain ⟨r, hr⟩ := head_limited m (s := join ',' (l.map dec)) (by
    intro h
    rcases join_chars l _ h with h | h | h <;> revert h <;> decide)
  rw [hr]
  show items (cutAt ',' (join ',' (l.map dec))) = _
  rw [cutAt_join (by simpa using hl) (by
    intro s hs
    obtain ⟨n, _, rfl⟩ := List.mem_map.1 hs
    exact not_mem_dec (by decide) n), items_dec]

theorem fileIndex_batch (r : ℕ) : fileIndex (batchFile r) = some (r : ℤ) := by
  have : cutAt '.' (batchFile r) = [(chars! "evolution"), (chars! "combined"), dec r, (chars! "h5")] := by
    have e : batchFile r = (chars! "evolution") ++ '.' :: ((chars! "combined") ++ '.' :: (dec r ++ '.' :: (chars! "h5"))) := by
      unfold batchFile
      rw [List.append_assoc]; rfl
    rw [e, cutAt_append _ _ _ (by decide +kernel), cutAt_append _ _ _ (by decide +kernel),
      cutAt_append _ _ _ (not_mem_dec (by decide) r), cutAt_none _ _ (by decide +kernel)]
  unfold fileIndex
  rw [this]
  exact int_dec r

theorem batchFile_inj {a b : ℕ} (h : batchFile a = batchFile b) : a = b := by
  have := fileIndex_batch a
  rw [h, fileIndex_batch] at this
  exact_mod_cast (Option.some.inj this).symm

theorem indices_batch (S : List ℕ) : ∀ fs : List Text, (∀ f ∈ fs, ∃ r ∈ S, f = batchFile r) →
    ∃ l, indices fs = .ok l ∧ ∀ i : ℕ, (i : ℤ) ∈ l ↔ batchFile i ∈ fs
  | [], _ => ⟨[], rfl, by simp⟩
  | f :: fs, h => by
    obtain ⟨l, hl, hi⟩ := indices_batch S fs fun g hg => h g (List.mem_cons_of_mem _ hg)
    obtain ⟨r, _, rfl⟩ := h f (by simp)
    refine ⟨(r : ℤ) :: l, by rw [indices, fileIndex_batch, hl], fun i => ?_⟩
    rw [List.mem_cons, List.mem_cons, hi]
    constructor
    · rintro (h | h)
      · exact .inl (by rw [show i = r by exact_mod_cast h])
      · exact .inr h
    · rintro (h | h)
      · exact .inl (by exact_mod_cast batchFile_inj h)
      · exact .inr h

/-- The ranks that have left no file. -/
def absent (n : ℕ) (S : List ℕ) : List ℕ := (List.range n).filter fun i => decide (i ∉ S)

theorem missing_eq {folder : List Text} {S : List ℕ} (h : Holds folder S) (n : ℕ) : missing folder n = .ok (absent n S) := by
  obtain ⟨l, hl, hi⟩ := indices_batch S (batchFiles folder) (by
    intro f hf
    obtain ⟨r, hr, rfl⟩ := List.mem_map.1 (h.mem_iff.1 hf)
    exact ⟨r, hr, rfl⟩)
  unfold missing
  rw [hl]
  refine congrArg Except.ok (List.filter_congr fun i _ => ?_)
  have : (i : ℤ) ∈ l ↔ i ∈ S := by
    rw [hi, h.mem_iff, List.mem_map]
    constructor
    · rintro ⟨r, hr, e⟩; rw [← batchFile_inj e]; exact hr
    · exact fun hr => ⟨i, hr, rfl⟩
  simp [this]

end Verif.Jobs
