import Mathlib.Data.List.Sort
import Mathlib.Data.List.Dedup
import Mathlib.Data.String.Basic
import Mathlib.Algebra.Order.Field.Rat
import Mathlib.Tactic.Common

/-!
# Comparing two runs of the test binaries

Model of `dev-tools/script_data/src/compare_runs.py`: `classify_column` (l.46-53), `compare_evolution_tables` (l.56-195), `compare_warnings_tables` (l.198-251),
`compare_errors_tables` (l.254-297), `main` (l.310-501); of the tables that `binaries_suite.py` writes (`evolve_binary` l.47-126, `evolve_binaries` l.144-251, the loop and the
completeness check); and of the arguments and the summary of `validate_binaries.sh` (l.50-83 and the loop over metallicities).

Simplifications.  Numbers are rationals or NaN (no infinities; integers are numbers).  A cell of a column of objects is a number, a text or `None`.  How a number is
written is a parameter, and so is how a text is read as a number.  Column names of a table are different and `binary_id` is kept apart.  Reports are values instead of
texts.  Tables of warnings and errors have all their columns.
-/

namespace Verif.Compare

/-- A cell of a column of objects. -/
inductive Cell where
  | num (q : Option ℚ)
  | text (s : String)
  | null
deriving DecidableEq

/-- A column: of numbers (NaN is `none`) or of objects. -/
inductive Col where
  | num (l : List (Option ℚ))
  | obj (l : List Cell)
deriving DecidableEq

/-- A table of evolutions: the column `binary_id`, if it is there, and the others. -/
structure Table where
  ids : Option (List ℕ)
  cols : List (String × Col)
deriving DecidableEq

structure Warn where
  id : ℕ
  category : String
  message : String
deriving DecidableEq

structure Fail where
  id : ℕ
  type : String
  message : String
deriving DecidableEq

/-- A file; `keys` are the names of all its tables. -/
structure File where
  evol : Option Table
  warn : Option (List Warn)
  err : Option (List Fail)
  keys : List String
deriving DecidableEq

/-- How numbers are written and texts are read as numbers (`none`: a `ValueError`). -/
structure Io where
  fmt : ℚ → String
  read : String → Option (Option ℚ)

/-- What is reported. -/
inductive Diff where
  | noIds
  | missing (b : ℕ)
  | extra (b : ℕ)
  | steps (b : ℕ) (n m : ℕ)
  | onlyBase (b : ℕ) (cs : List String)
  | onlyCand (b : ℕ) (cs : List String)
  | nan (b : ℕ) (c : String) (steps : List ℕ)
  | value (b : ℕ) (c : String) (count worst : ℕ)
  | close (b : ℕ) (c : String) (worst : ℕ)
  | text (b : ℕ) (c : String) (steps : List ℕ)
  | noTable (base cand : Bool)
  | warnOnly (n m : ℕ)
  | warnTotal (n m : ℕ)
  | warnCount (b : ℕ) (n m : ℕ)
  | warnCategories (b : ℕ)
  | warnMessages (b : ℕ)
  | errOnly (n m : ℕ)
  | failing (b : ℕ)
  | passing (b : ℕ)
  | errType (b : ℕ)
  | errMessage (b : ℕ)
  | key (k : String)
deriving DecidableEq

/-- The columns of l.35-43. -/
def qualitative : List String :=
  ["state", "event", "step_names", "S1_state", "S2_state", "SN_type", "S1_SN_type", "S2_SN_type", "interp_class_HMS_HMS", "interp_class_CO_HMS_RLO",
    "interp_class_CO_HeMS", "interp_class_CO_HeMS_RLO", "mt_history_HMS_HMS", "mt_history_CO_HMS_RLO", "mt_history_CO_HeMS", "mt_history_CO_HeMS_RLO",
    "mass_transfer_case"]

/-- `classify_column`, l.46-53: whether the column is compared as numbers. -/
def numeric (name : String) (c : Col) : Bool :=
  if name ∈ qualitative then false
  else match c with
    | .num _ => true
    | .obj _ => false

/-- `sorted` of a set. -/
def sortU (l : List ℕ) : List ℕ := l.dedup.insertionSort (· ≤ ·)

/-- The values of a list that belong to the rows of a binary, l.95-96. -/
def rowsOf {A : Type} (ids : List ℕ) (b : ℕ) (l : List A) : List A := ((ids.zip l).filter fun p => p.1 == b).map (·.2)

def Col.rows (ids : List ℕ) (b : ℕ) : Col → Col
  | .num l => .num (rowsOf ids b l)
  | .obj l => .obj (rowsOf ids b l)

def Col.take (n : ℕ) : Col → Col
  | .num l => .num (l.take n)
  | .obj l => .obj (l.take n)

/-- `float(x)` for one object. -/
def floatOf (io : Io) : Cell → Option (Option ℚ)
  | .num q => some q
  | .text s => io.read s
  | .null => some none

def floatsOf (io : Io) : List Cell → Option (List (Option ℚ))
  | [] => some []
  | c :: r =>
    match floatOf io c, floatsOf io r with
    | some q, some l => some (q :: l)
    | _, _ => none

/-- `to_numpy(dtype=float)` -/
def Col.floats (io : Io) : Col → Option (List (Option ℚ))
  | .num l => some l
  | .obj l => floatsOf io l

def numText (io : Io) : Option ℚ → String
  | none => "nan"
  | some q => io.fmt q

/-- `str(x)` for one object. -/
def cellText (io : Io) : Cell → String
  | .num q => numText io q
  | .text s => s
  | .null => "None"

/-- `astype(str)` -/
def Col.texts (io : Io) : Col → List String
  | .num l => l.map (numText io)
  | .obj l => l.map (cellText io)

/-- The steps at which two lists differ in the sense of `p`. -/
def stepsWhere {A : Type} (p : A → A → Bool) (a b : List A) : List ℕ :=
  (((a.zip b).zipIdx).filter fun x => p x.1.1 x.1.2).map (·.2)

/-- One is NaN and the other is not, l.128. -/
def oneNan (x y : Option ℚ) : Bool := Bool.xor x.isNone y.isNone

/-- Both are numbers and differ, l.143-147. -/
def differ (x y : Option ℚ) : Bool := x.isSome && y.isSome && decide (x ≠ y)

/-- `|x - y|` at a step. -/
def gap (a b : List (Option ℚ)) (s : ℕ) : ℚ :=
  match a.getD s none, b.getD s none with
  | some x, some y => |x - y|
  | _, _ => 0

/-- `np.argmax` over some steps: the first step with the largest gap. -/
def worst (f : ℕ → ℚ) : List ℕ → ℕ → ℕ
  | [], w => w
  | s :: r, w => if f w < f s then worst f r s else worst f r w

def worstOf (f : ℕ → ℚ) : List ℕ → ℕ
  | [] => 0
  | s :: r => worst f r s

/-- `np.isclose` for numbers. -/
def isClose (rtol atol : ℚ) (x y : Option ℚ) : Bool :=
  match x, y with
  | some x, some y => decide (|x - y| ≤ atol + rtol * |y|)
  | _, _ => true

/-- Both are numbers. -/
def valid (x y : Option ℚ) : Bool := x.isSome && y.isSome

/-- l.123-180 -/
def quant (rtol atol : ℚ) (b : ℕ) (c : String) (x y : List (Option ℚ)) : List Diff :=
  (if stepsWhere oneNan x y = [] then [] else [.nan b c (stepsWhere oneNan x y)]) ++
    if rtol = 0 ∧ atol = 0 then
      if stepsWhere differ x y = [] then [] else [.value b c (stepsWhere differ x y).length (worstOf (gap x y) (stepsWhere differ x y))]
    else if (x.zip y).all (fun p => isClose rtol atol p.1 p.2) then []
    else [.close b c (worstOf (gap x y) (stepsWhere valid x y))]

/-- l.182-193 -/
def qual (b : ℕ) (c : String) (x y : List String) : List Diff :=
  if stepsWhere (fun s t => decide (s ≠ t)) x y = [] then [] else [.text b c (stepsWhere (fun s t => decide (s ≠ t)) x y)]

/-- One column of one binary, l.116-193. -/
def column (io : Io) (rtol atol : ℚ) (n : ℕ) (b : ℕ) (name : String) (x y : Col) : Option (List Diff) :=
  if numeric name x then
    match (x.take n).floats io, (y.take n).floats io with
    | some p, some q => some (quant rtol atol b name p q)
    | _, _ => none
  else some (qual b name ((x.take n).texts io) ((y.take n).texts io))

def allSome {A B : Type} (f : A → Option (List B)) : List A → Option (List B)
  | [] => some []
  | a :: r =>
    match f a, allSome f r with
    | some x, some y => some (x ++ y)
    | _, _ => none

/-- `sorted` for names of columns. -/
def sortN (l : List String) : List String := l.dedup.insertionSort (· ≤ ·)

/-- The names of the columns of `s` that `t` has not. -/
def onlyIn (s t : Table) : List String := sortN ((s.cols.map (·.1)).filter fun c => c ∉ t.cols.map (·.1))

/-- The names of the columns of both. -/
def common (s t : Table) : List String := sortN ((s.cols.map (·.1)).filter fun c => c ∈ t.cols.map (·.1))

/-- A column of a binary by its name. -/
def colOf (t : Table) (ids : List ℕ) (b : ℕ) (c : String) : Col := ((t.cols.lookup c).getD (.obj [])).rows ids b

/-- One binary, l.95-193. -/
def binary (io : Io) (rtol atol : ℚ) (s t : Table) (is js : List ℕ) (b : ℕ) : Option (List Diff) :=
  match allSome (fun c => column io rtol atol (min (is.count b) (js.count b)) b c (colOf s is b c) (colOf t js b c)) (common s t) with
  | none => none
  | some l =>
    some ((if is.count b ≠ js.count b then [.steps b (is.count b) (js.count b)] else []) ++ (if onlyIn s t = [] then [] else [.onlyBase b (onlyIn s t)]) ++
      (if onlyIn t s = [] then [] else [.onlyCand b (onlyIn t s)]) ++ l)

/-- `compare_evolution_tables`, l.74-195; `none` is an exception. -/
def evolution (io : Io) (rtol atol : ℚ) (s t : Table) (baseErr candErr : List ℕ) : Option (List Diff) :=
  match s.ids, t.ids with
  | some is, some js =>
    match allSome (binary io rtol atol s t is js) (sortU (is.filter fun b => b ∈ js)) with
    | none => none
    | some l =>
      some (((sortU (is.filter fun b => b ∉ js)).filter fun b => b ∉ candErr).map .missing ++
        ((sortU (js.filter fun b => b ∉ is)).filter fun b => b ∉ baseErr).map .extra ++ l)
  | _, _ => some [.noIds]

/-- `sorted` of texts. -/
def sorted (l : List String) : List String := l.insertionSort (· ≤ ·)

/-- The warnings of a binary, l.223-249. -/
def warnOne (v w : List Warn) (b : ℕ) : List Diff :=
  let x := v.filter fun r => r.id == b
  let y := w.filter fun r => r.id == b
  if x.length ≠ y.length then [.warnCount b x.length y.length]
  else (if sorted (x.map (·.category)) ≠ sorted (y.map (·.category)) then [.warnCategories b] else []) ++
    if sorted (x.map (·.message)) ≠ sorted (y.map (·.message)) then [.warnMessages b] else []

/-- `compare_warnings_tables`, l.203-251. -/
def warnings (v w : Option (List Warn)) : List Diff :=
  match v, w with
  | none, none => []
  | none, some w => [.warnOnly 0 w.length]
  | some v, none => [.warnOnly v.length 0]
  | some v, some w =>
    (if v.length ≠ w.length then [.warnTotal v.length w.length] else []) ++ (sortU ((v ++ w).map (·.id))).flatMap (warnOne v w)

/-- The first error of a binary. -/
def firstErr (l : List Fail) (b : ℕ) : Option Fail := l.find? fun e => e.id == b

/-- A binary that fails in both, l.285-295. -/
def errOne (v w : List Fail) (b : ℕ) : List Diff :=
  match firstErr v b, firstErr w b with
  | some x, some y => (if x.type ≠ y.type then [.errType b] else []) ++ if x.message ≠ y.message then [.errMessage b] else []
  | _, _ => []

/-- `compare_errors_tables`, l.259-297. -/
def errors (v w : Option (List Fail)) : List Diff :=
  match v, w with
  | none, none => []
  | none, some w => [.errOnly 0 w.length]
  | some v, none => [.errOnly v.length 0]
  | some v, some w =>
    ((sortU ((w.map (·.id)).filter fun b => b ∉ v.map (·.id))).map .failing ++ (sortU ((v.map (·.id)).filter fun b => b ∉ w.map (·.id))).map .passing) ++
      (sortU ((v.map (·.id)).filter fun b => b ∈ w.map (·.id))).flatMap (errOne v w)

def errIds (e : Option (List Fail)) : List ℕ := (e.getD []).map (·.id)

/-- l.401-408 -/
def ignored : List String := ["/evolution", "/warnings", "/errors", "/metadata"]

def keysDiff (s t : List String) : List Diff :=
  ((sortN (s.filter fun k => k ∉ t)).filter fun k => k ∉ ignored).map .key ++ ((sortN (t.filter fun k => k ∉ s)).filter fun k => k ∉ ignored).map .key

/-- The comparison of the evolutions in `main`, l.369-391. -/
def evolPart (io : Io) (rtol atol : ℚ) (f g : File) : Option (List Diff) :=
  match f.evol, g.evol with
  | some s, some t => evolution io rtol atol s t (errIds f.err) (errIds g.err)
  | s, t => some [.noTable s.isSome t.isSome]

/-- All that is reported, l.349-408. -/
def diffs (io : Io) (rtol atol : ℚ) (f g : File) : Option (List Diff) :=
  match evolPart io rtol atol f g with
  | none => none
  | some l => some (l ++ warnings f.warn g.warn ++ errors f.err g.err ++ keysDiff f.keys g.keys)

/-- The tolerances, l.332-337. -/
def tolerances (loose : Bool) (rtol atol : Option ℚ) : ℚ × ℚ :=
  if loose then (rtol.getD (1 / 10 ^ 12), atol.getD (1 / 10 ^ 15)) else (rtol.getD 0, atol.getD 0)

/-- `main`: the exit code; a file that is not there is `none`. -/
def main (io : Io) (loose : Bool) (rtol atol : Option ℚ) (f g : Option File) : ℕ :=
  match f, g with
  | some f, some g =>
    match diffs io (tolerances loose rtol atol).1 (tolerances loose rtol atol).2 f g with
    | none => 2
    | some [] => 0
    | some (_ :: _) => 1
  | _, _ => 2

/-! ### The files of the suite -/

/-- What happens to a test binary, binaries_suite.py l.68-94: it ends with some rows, or it raises. -/
inductive Outcome where
  | rows (n : ℕ)
  | raised (type message : String)
deriving DecidableEq

/-- The column `binary_id` of the table of evolutions: a run of equal numbers for each binary. -/
def evolvedIds : List Outcome → ℕ → List ℕ
  | [], _ => []
  | .rows n :: r, i => List.replicate n i ++ evolvedIds r (i + 1)
  | .raised _ _ :: r, i => evolvedIds r (i + 1)

/-- The table of errors. -/
def failures : List Outcome → ℕ → List Fail
  | [], _ => []
  | .rows _ :: r, i => failures r (i + 1)
  | .raised t m :: r, i => ⟨i, t, m⟩ :: failures r (i + 1)

/-- The completeness check: the binaries without rows and without an error. -/
def unaccounted (os : List Outcome) : List ℕ :=
  sortU ((List.range os.length).filter fun i => i ∉ evolvedIds os 0 ++ (failures os 0).map (·.id))

/-! ### The script -/

/-- The options of `validate_binaries.sh`. -/
structure Options where
  branch : String
  baseline : String
  metallicities : String
  loose : Bool
  rtol : Option String
  atol : Option String
  skipEvolve : Bool
deriving DecidableEq

/-- The loop over the remaining words, l.61-83; `none` is an error. -/
def parseRest : List String → Options → Option Options
  | [], o => some o
  | "--loose" :: r, o => parseRest r { o with loose := true }
  | "--rtol" :: v :: r, o => parseRest r { o with rtol := some v }
  | "--atol" :: v :: r, o => parseRest r { o with atol := some v }
  | "--skip-evolve" :: r, o => parseRest r { o with skipEvolve := true }
  | _ :: _, _ => none

/-- l.50-83: the first three words are taken whatever they are. -/
def parseArgs : List String → Option Options
  | [] => none
  | [b] => some ⟨b, "main", "2 1 0.45 0.2 0.1 0.01 0.001 0.0001", false, none, none, false⟩
  | [b, m] => some ⟨b, m, "2 1 0.45 0.2 0.1 0.01 0.001 0.0001", false, none, none, false⟩
  | b :: m :: z :: r => parseRest r ⟨b, m, z, false, none, none, false⟩

/-- One metallicity in the loop of the script: whether there is a baseline, a candidate, and whether they compare equal. -/
inductive State where
  | noBaseline
  | noCandidate
  | same
  | different
deriving DecidableEq

/-- The exit code of the script. -/
def scriptExit (l : List State) : ℕ := if 0 < l.countP (fun s => s == .noCandidate || s == .different) then 1 else 0

/-! ### Specification -/

/-- Two columns agree in how they are shown: as numbers, or as texts. -/
def SameColumn (io : Io) (name : String) (x y : Col) : Prop :=
  if numeric name x then ∃ l, x.floats io = some l ∧ y.floats io = some l else x.texts io = y.texts io

/-- Two tables agree for a binary: as many rows, the same columns, the same values. -/
structure SameBinary (io : Io) (s t : Table) (is js : List ℕ) (b : ℕ) : Prop where
  rows : is.count b = js.count b
  names : ∀ c, c ∈ s.cols.map (·.1) ↔ c ∈ t.cols.map (·.1)
  cells : ∀ c ∈ s.cols.map (·.1), SameColumn io c (colOf s is b c) (colOf t js b c)

/-- All columns are as long as the table. -/
def Rect (t : Table) (ids : List ℕ) : Prop := t.ids = some ids ∧ ∀ p ∈ t.cols, (match p.2 with | .num l => l.length | .obj l => l.length) = ids.length

end Verif.Compare
