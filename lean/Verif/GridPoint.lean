import Verif.Chars
import Verif.Jobs
import Verif.GridJoin
import Mathlib.Data.Int.Log
import Mathlib.Data.Rat.Floor
import Mathlib.Algebra.Order.Field.Rat
/-!
Model of running a point of a MESA grid: `/repo/bin/posydon-run-grid`, `create_working_directory` (l.175-220), `create_binary_inlists`
(l.222-385), `create_star_formation` (l.387-441), `run_grid_point` (l.734-789), and in the main part the choice of the parameters
(l.844-876, l.965-975), the loop for single stars (l.906-921).

Simplification: floats are rationals, without infinities and values that are not numbers; a truth value in the name of a directory is 0 or
1; the text of other values is given; a program that runs MESA sees the values of the files that its inlist names, the later file counts.
-/
namespace Verif.GridPoint

open Verif.Frame (Name)
open Verif.Jobs (dec decZ digitsVal join cutAt int)
open Verif.GridJoin (strip)

/-! ### Numbers as text -/

/-- The nearest natural number, of two the even one. -/
def rhe (x : ℚ) : ℕ :=
  let n := ⌊x⌋.toNat
  if x - n > 1 / 2 ∨ (x - n = 1 / 2 ∧ n % 2 = 1) then n + 1 else n

/-- Zeros in front up to a width. -/
def pad (w : ℕ) (s : Name) : Name := List.replicate (w - s.length) '0' ++ s

def sign (x : ℚ) : Name := if x < 0 then ['-'] else []

/-- `'{:.pf}'.format(x)` -/
def fmtF (p : ℕ) (x : ℚ) : Name :=
  let s := pad (p + 1) (dec (rhe (|x| * 10 ^ p)))
  sign x ++ (s.take (s.length - p) ++ '.' :: s.drop (s.length - p))

/-- Digits (as one number of `p + 1` digits) and power of ten of a number that is not negative. -/
def sci (p : ℕ) (x : ℚ) : ℕ × ℤ :=
  if x = 0 then (0, 0)
  else
    let e := Int.log 10 x
    let m := rhe (x / (10 : ℚ) ^ (e - p))
    if m = 10 ^ (p + 1) then (10 ^ p, e + 1) else (m, e)

/-- What is before the `e`. -/
def mantE (p : ℕ) (x : ℚ) : Name :=
  let s := pad (p + 1) (dec (sci p |x|).1)
  sign x ++ (s.take 1 ++ '.' :: s.drop 1)

/-- What is after the `e`. -/
def expE (p : ℕ) (x : ℚ) : Name :=
  let e := (sci p |x|).2
  (if e < 0 then '-' else '+') :: pad 2 (dec e.natAbs)

/-- `'{:.pe}'.format(x)` -/
def fmtE (p : ℕ) (x : ℚ) : Name := mantE p x ++ 'e' :: expE p x

/-- `s.replace('e', 'd')` -/
def toD (s : Name) : Name := s.map fun c => if c = 'e' then 'd' else c

/-- Digits with or without a point. -/
def mantissa (s : Name) : Option ℚ :=
  match cutAt '.' s with
  | [a] => (digitsVal a).map fun n => (n : ℚ)
  | [a, b] => (digitsVal (a ++ b)).map fun n => (n : ℚ) / 10 ^ b.length
  | _ => none

/-- A number without sign. -/
def unsigned (s : Name) : Option ℚ :=
  match cutAt 'e' s with
  | [m] => mantissa m
  | [m, e] =>
    match mantissa m, int e with
    | some x, some k => some (x * (10 : ℚ) ^ k)
    | _, _ => none
  | _ => none

/-- `float(s)`, for numbers; `none` is a `ValueError`. -/
def float (s : Name) : Option ℚ :=
  match strip s with
  | '-' :: t => (unsigned t).map fun x => -x
  | '+' :: t => unsigned t
  | t => unsigned t

/-! ### The directory -/

/-- `variable_names_to_log`, l.187 -/
def logged : List Name := [(chars! "initial_z"), (chars! "initial_period_in_days")]

def entry (p : Name × Name) : Name := p.1 ++ '_' :: p.2

def paren (c : Char) : Bool := c == '(' || c == ')'

/-- l.199-203 -/
def ending (idx : Option ℕ) (dyn : Option Name) : Name :=
  (match idx with
    | none => []
    | some i => (chars! "_grid_index_") ++ dec i) ++
  (match dyn with
    | none => []
    | some r => '_' :: r)

/-- The name of the directory, l.187-203: parameters, the index, for dynamic grids some random text. -/
def dirName (ps : List (Name × ℚ)) (idx : Option ℕ) (dyn : Option Name) : Name :=
  let a := join '_' ((ps.filter fun p => !logged.contains p.1).map fun p => entry (p.1, fmtF 4 p.2))
  let b := join '_' ((ps.filter fun p => logged.contains p.1).map fun p => entry (p.1, fmtE 4 p.2))
  a.filter (fun c => !paren c) ++ '_' :: b ++ ending idx dyn

/-! ### The inlists -/

/-- A value of the table of grid points. -/
inductive Cell
  | real (x : ℚ)
  | int (z : ℤ)
  | bool (b : Bool)
  | text (s : Name)
  deriving DecidableEq

/-- The line of a parameter, l.264-276. -/
def cellLine (k : Name) : Cell → Name
  | .real x =>
    if x.den = 1 then '\t' :: (k ++ (chars! " = ") ++ decZ x.num ++ ['\n'])
    else '\t' :: (k ++ (chars! " = ") ++ toD (fmtE 10 x) ++ ['\n'])
  | .bool true => '\t' :: (k ++ (chars! " = .true.\n"))
  | .bool false => '\t' :: (k ++ (chars! " = .false.\n"))
  | .int z => k ++ (chars! " = ") ++ decZ z ++ ['\n']
  | .text s => k ++ (chars! " = ") ++ s ++ ['\n']

/-- `inlist_grid_points` of a binary, l.260-295. -/
def gridPoints (controls job : List (Name × Cell)) : List Name :=
  (if controls.isEmpty then [] else
    (chars! "&binary_controls\n") :: controls.map (fun p => cellLine p.1 p.2) ++ [(chars! "/ ! end of binary_controls namelist\n")]) ++
  (if job.isEmpty then [] else
    (chars! "&binary_job\n") :: job.map (fun p => cellLine p.1 p.2) ++ [(chars! "/ ! end of binary_job namelist\n")])

/-- `inlist_grid_points` of a single star, l.424-439. -/
def starPoints (mass : ℚ) (z : Option ℚ) (newZ : Bool) : List Name :=
  (chars! "&controls\n") :: ((chars! "initial_mass = ") ++ toD (fmtE 10 mass) ++ ['\n']) ::
    (match z with
      | none => []
      | some z => [(chars! "initial_z = ") ++ toD (fmtE 10 z) ++ ['\n'], (chars! "Zbase = ") ++ toD (fmtE 10 z) ++ ['\n']]) ++
    (chars! "/ ! end of star_controls namelist\n") :: (chars! "&star_job\n") ::
    (match z, newZ with
      | some z, true => [(chars! "new_Z = ") ++ toD (fmtE 10 z) ++ ['\n']]
      | _, _ => []) ++
    [(chars! "/ ! end of star_job namelist\n")]

/-- `float` for the reader of these files. -/
noncomputable def num (s : Name) : Option ℝ := (float s).map fun x => (x : ℝ)

/-! ### What is varied -/

/-- Names of the parameters in the inlists of the project. -/
structure Known where
  controls : List Name
  job : List Name
  c1 : List Name
  j1 : List Name
  c2 : List Name
  j2 : List Name

/-- `[param for param in grid.columns if param in ...]`, l.869-876. -/
def varied (cols keys : List Name) : List Name := cols.filter fun c => keys.contains c

/-- Keys of a dictionary in the order of insertion. -/
def firsts (l : List Name) : List Name := l.foldl (fun acc k => if acc.contains k then acc else acc ++ [k]) []

/-- Keys of `grid_param_dict`, l.975: a `ChainMap` lists the last dictionary first. -/
def paramKeys (K : Known) (cols : List Name) : List Name :=
  firsts (varied cols K.j2 ++ varied cols K.c2 ++ varied cols K.j1 ++ varied cols K.c1 ++ varied cols K.job ++ varied cols K.controls)

/-- The dictionary of a section for a row. -/
def section_ (row : Name → Cell) (cols keys : List Name) : List (Name × Cell) := (varied cols keys).map fun c => (c, row c)

/-- The directory of a row of numbers. -/
def pointDir (K : Known) (cols : List Name) (row : Name → ℚ) (i : ℕ) : Name :=
  dirName ((paramKeys K cols).map fun k => (k, row k)) (some i) none

/-- Files which an inlist reads for a section, in this order. -/
inductive File
  | project | points | star1c | star1j | star2c | star2j
  deriving DecidableEq

/-- `inlist` of a binary, l.228-256: files for the controls, files for the job. -/
def mainInlist : List File × List File := ([.project, .points], [.project])

/-- The value after reading files with assignments. -/
def effective (read : File → List (Name × Cell)) (fs : List File) (n : Name) : Option Cell :=
  ((fs.flatMap read).reverse.find? fun p => p.1 == n).map (·.2)

/-! ### Formation of stars -/

/-- What a step sees: the inlist of the project, whether metallicity is given, whether it is made the new metallicity. -/
structure Step (P : Type) where
  project : P
  z : Bool
  newZ : Bool
  deriving DecidableEq

/-- The loop over the steps of a star in a binary, l.746-758: `now` is the inlist in the directory. -/
def formation {P : Type} : ℕ → Option (Step P) → List P → List (Option (Step P))
  | _, _, [] => []
  | i, now, p :: ps =>
    let s := if i = 0 then some ⟨p, false, false⟩ else if i = 1 then some ⟨p, true, true⟩ else now
    s :: formation (i + 1) s ps

/-- The loop over the steps of a single star, l.906-921. -/
def single {P : Type} (ps : List P) : List (Step P) :=
  ps.zipIdx.map fun p => if p.2 = ps.length - 1 then ⟨p.1, true, false⟩ else if p.2 = 1 then ⟨p.1, true, true⟩ else ⟨p.1, false, false⟩

end Verif.GridPoint
