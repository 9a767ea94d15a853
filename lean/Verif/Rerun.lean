import Verif.Chars
import Verif.Frame
import Mathlib.Algebra.Order.Field.Rat
import Mathlib.Data.List.Basic
import Mathlib.Tactic.Common

/-!
# Reruns and training in the post-processing pipeline

Model of `bin/posydon-run-pipeline`: `zams_file_name` (l.587-620), the choice of the
type of a rerun in `copy_ini_file` (l.677-723) and `logic_rerun` (l.740-954), the choice of the
runs, and the choice of the classes and quantities to be interpolated in
`train_interpolators` (l.346-452).

Simplifications.  Texts are lists of characters.  Histories are lists of points with the
columns that are used, with the temperature, luminosity and radius instead of their logarithms and the
squared luminosity condition `R² L > 10¹⁰` for `10⁻⁵ R √L > 1`; both stars of a binary have
histories of the same length (as MESA writes them).  The content of the log files is
a parameter.  Numbers in grids are rationals or `none` for NaN.  Grids and
histories have at least one entry (an empty one raises in `[0]` or `np.max`).
-/

namespace Verif.Rerun

open Verif.Frame (isIn)

abbrev Name := List Char

inductive Err where
  | value
  | type
  | directory
deriving DecidableEq

/-! ### Metallicities -/

/-- The cases of `zams_file_name` in their order (l.601-617). -/
def zamsTable : List (Name × Name) :=
  [((chars! "2e+00_Zsun"), (chars! "zams_z2.84m2_y0.2915.data")),
   ((chars! "1e+00_Zsun"), (chars! "zams_z1.42m2_y0.2703.data")),
   ((chars! "4.5e-01_Zsun"), (chars! "zams_z6.39m3_y0.2586.data")),
   ((chars! "2e-01_Zsun"), (chars! "zams_z2.84m3_y0.2533.data")),
   ((chars! "1e-01_Zsun"), (chars! "zams_z1.42m3_y0.2511.data")),
   ((chars! "1e-02_Zsun"), (chars! "zams_z1.42m4_y0.2492.data")),
   ((chars! "1e-03_Zsun"), (chars! "zams_z1.42m5_y0.2490.data")),
   ((chars! "1e-04_Zsun"), (chars! "zams_z1.42m6_y0.2490.data"))]

/-- The chain of tests. -/
def firstIn : List (Name × Name) → Name → Except Err Name
  | [], _ => .error .value
  | (p, f) :: r, m => if isIn p m then .ok f else firstIn r m

/-- `zams_file_name` (l.587-620).  A missing metallicity (NaN, a float) already fails in the first test
`'2e+00_Zsun' in metallicity`, with a `TypeError`. -/
def zams : Option Name → Except Err Name
  | none => .error .type
  | some m => firstIn zamsTable m

/-! ### Types of reruns -/

/-- What `logic_rerun` returns: runs, flags and the changed parameter. -/
inductive Choice where
  /-- runs with one of the flags -/
  | flags (fs : List Name) (new : List Name)
  /-- runs chosen by their data -/
  | runs (new : List Name)
deriving DecidableEq

/-- `TF1_POOL_ERROR` (`posydon/visualization/combine_TF.py` l.54-58). -/
def poolError : List Name :=
  [(chars! "logQ_min_limit"), (chars! "min_timestep_limit"), (chars! "reach cluster timelimit")]

/-- The types `logic_rerun` knows (l.768-947).  For `envelope_mass_limit` the
runs stay `None`, which raises `'Undefined rerun!'` (l.951-952). -/
def logicTable : List (Name × Option Choice) :=
  [((chars! "opacity_max"), some (.flags [(chars! "reach cluster timelimit"),
      (chars! "min_timestep_limit")] [(chars! "opacity_max")])),
   ((chars! "opacity_max_hms-hms"), some (.flags [(chars! "reach cluster timelimit"),
      (chars! "min_timestep_limit")] [(chars! "opacity_max")])),
   ((chars! "PISN"), some (.runs [])),
   ((chars! "reverse_MT"), some (.runs [])),
   ((chars! "TPAGBwind"), some (.runs [])),
   ((chars! "thermohaline_mixing"), some (.flags poolError [(chars! "thermohaline_coeff")])),
   ((chars! "LBV_wind+thermohaline_mixing"), some (.flags poolError
      [(chars! "thermohaline_coeff")])),
   ((chars! "no_age_limit+thermohaline_mixing"), some (.flags poolError
      [(chars! "thermohaline_coeff")])),
   ((chars! "HeMB_MLTp_mesh"), some (.flags poolError [])),
   ((chars! "more_mesh"), some (.flags poolError [(chars! "mesh_Pgas_div_P_exponent"),
      (chars! "max_allowed_nz")])),
   ((chars! "conv_bdy_weight"), some (.runs [(chars! "convective_bdy_weight")])),
   ((chars! "initial_He"), some (.runs [])),
   ((chars! "dedt_energy_eqn"), some (.flags poolError [])),
   ((chars! "LBV_wind+dedt_energy_eqn"), some (.flags poolError [])),
   ((chars! "no_age_limit+dedt_energy_eqn"), some (.flags poolError [])),
   ((chars! "dedt_hepulse"), some (.flags poolError [])),
   ((chars! "LBV_wind+dedt_hepulse"), some (.flags poolError [])),
   ((chars! "LBV_wind"), some (.runs [])),
   ((chars! "no_age_limit"), some (.flags [(chars! "max_age")] [])),
   ((chars! "envelope_mass_limit"), none)]

/-- `logic_rerun` up to the choice of the runs. -/
def logic (t : Name) : Except Err Choice :=
  match logicTable.lookup t with
  | some (some c) => .ok c
  | _ => .error .value

/-- The versions of the inlists that `copy_ini_file` knows (l.678-723), `none` for the type
`other`, for which it returns at once. -/
def iniTable : List (Name × Option Name) :=
  [((chars! "PISN"), some (chars! "matthias_PISN-d68228338b91fd487ef5d55c9b6ebb8cc5f0e668")),
   ((chars! "reverse_MT"), some
      (chars! "zepei_fix_implicit-afa1860ddf9894aa1d82742ee2a73e8e92acd4a9")),
   ((chars! "opacity_max"), some (chars! "matthias_PISN-d68228338b91fd487ef5d55c9b6ebb8cc5f0e668")),
   ((chars! "opacity_max_hms-hms"), some
      (chars! "zepei_fix_implicit-afa1860ddf9894aa1d82742ee2a73e8e92acd4a9")),
   ((chars! "TPAGBwind"), some (chars! "development-22c1bb9e730343558c3e70984a99b3fc1f3c346e")),
   ((chars! "thermohaline_mixing"), some
      (chars! "development-22c1bb9e730343558c3e70984a99b3fc1f3c346e")),
   ((chars! "HeMB_MLTp_mesh"), some (chars! "development-435d16c9158e4608530f21b8169ce6f31160e23e")),
   ((chars! "more_mesh"), some (chars! "development-435d16c9158e4608530f21b8169ce6f31160e23e")),
   ((chars! "conv_bdy_weight"), some
      (chars! "development-435d16c9158e4608530f21b8169ce6f31160e23e")),
   ((chars! "initial_He"), some
      (chars! "fix_iniHe_pre_rerun5-0e736a853c3c2e522b76299a54aea8f5eea15d08")),
   ((chars! "dedt_energy_eqn"), some
      (chars! "seth_dedt_energy_eqn-f1803afe400ed16a4fad47b0bad6abbf0965cae1")),
   ((chars! "dedt_hepulse"), some
      (chars! "seth_dedt_hepulse-0274be9895480cae3aa2a4d14b056a2447d5921b")),
   ((chars! "LBV_wind"), some
      (chars! "matthias_LBV_wind-051343856f50dc5518abdf28904d62df4caacaff")),
   ((chars! "LBV_wind+thermohaline_mixing"), some
      (chars! "matthias_LBV_wind-051343856f50dc5518abdf28904d62df4caacaff")),
   ((chars! "LBV_wind+dedt_energy_eqn"), some
      (chars! "seth_lbv_thermo_dedt-936f76f82d44b16139ff89e41e5b0f2232fd9b30")),
   ((chars! "LBV_wind+dedt_hepulse"), some
      (chars! "seth_lbv_thermo_dedt_hepulse-2737b3bce69066751477c802a6e515183e13d303")),
   ((chars! "no_age_limit"), some
      (chars! "matthias_no_age_limit-a119ea9548cca9b6b7ddfe31309ced1ae40c271e")),
   ((chars! "no_age_limit+thermohaline_mixing"), some
      (chars! "matthias_no_age_limit-a119ea9548cca9b6b7ddfe31309ced1ae40c271e")),
   ((chars! "no_age_limit+dedt_energy_eqn"), some
      (chars! "matthias_lbv_thermo_dedt_noAgeLimit-dcc42e1d6d89fc267826970643e7f4f1bf463171")),
   ((chars! "other"), none)]

/-- What is replaced in the copied ini file (l.677-737): nothing for `other`, else the version of
the inlists and the file of the metallicity. -/
def ini (t : Name) (met : Option Name) : Except Err (Option (Name × Name)) :=
  match iniTable.lookup t with
  | none => .error .value
  | some none => .ok none
  | some (some v) =>
    match zams met with
    | .error e => .error e
    | .ok z => .ok (some (v, z))

/-- `rerun` (l.1012-1024): the choice of the runs and then the ini file. -/
def rerun (t : Name) (met : Option Name) : Except Err (Choice × Option (Name × Name)) :=
  match logic t with
  | .error e => .error e
  | .ok c =>
    match ini t met with
    | .error e => .error e
    | .ok r => .ok (c, r)

/-! ### The choice of the runs -/

/-- A point of the history of a star. -/
structure Point where
  teff : ℚ
  lum : ℚ
  rad : ℚ
  surfH : ℚ
  heCenter : ℚ
  heCore : ℚ
  coCore : ℚ
  omega : ℚ

/-- A point of the history of the binary. -/
structure Bin where
  rl1 : ℚ
  rl2 : ℚ

/-- What the reruns look at in a run; `log` are the lines of the plain file with the output of MESA, if
there is one, `logZ` those of a compressed one; `dir` says whether the directory
is there. -/
structure Run where
  dir : Bool
  log : Option (List Name)
  logZ : Option (List Name)
  binary : Option (List Bin)
  star1 : Option (List Point)
  star2 : Option (List Point)
  initialY : Option ℚ

/-- Cool stars with a thin helium shell after helium burning (l.816-822). -/
def tpagb (q : Point) : Bool := q.teff ≤ 12000 && q.heCenter ≤ 1/1000000 && q.heCore - q.coCore ≤ 1/10

/-- Luminous blue variables (l.903-909): `L > 6·10⁵`, `10⁻⁵ R √L > 1` and hydrogen at the surface. -/
def lbv (q : Point) : Bool := 600000 < q.lum && 10000000000 < q.rad ^ 2 * q.lum && 1/10 ≤ q.surfH

/-- A property of one of the stars at some time: a missing history is a single `False`
(l.824, 834). -/
def some1 (f : Point → Bool) (r : Run) : Bool :=
  (match r.star1 with | some h => h.any f | none => false) ||
  (match r.star2 with | some h => h.any f | none => false)

/-- Mass transfer back onto the rapidly rotating first star (l.800-808). -/
def reverse (r : Run) : Bool :=
  match r.binary, r.star1 with
  | some b, some h => (b.zip h).any fun x =>
      x.1.rl1 < -1/20 && -1/20 < x.1.rl2 && 9/10 < x.2.omega
  | _, _ => false

/-- The runs whose log has a line with one of the messages, once per line (l.775-794,
l.855-875); a missing directory raises. -/
def byLog (ms : List Name) : ℕ → List Run → Except Err (List ℕ)
  | _, [] => .ok []
  | i, r :: rs =>
    if r.dir then
      match byLog ms (i + 1) rs with
      | .error e => .error e
      | .ok l => .ok ((match r.log with
          | none => []
          | some ls => (ls.filter fun x => ms.any fun m => isIn m x).map fun _ => i) ++ l)
    else .error .directory

def pisnMsg : List Name := [(chars! "have reached gamma1 integral limit")]

def bdyMsg : List Name :=
  [(chars! "STOP prepare_for_new_try: bad num omega"), (chars! "Segmentation fault")]

/-- The runs with a property (l.814-836, 897-942, 881-888). -/
def byRun (f : Run → Bool) (rs : List Run) : List ℕ :=
  (rs.zipIdx.filter fun x => f x.1).map (·.2)

/-- Whether a run had too little helium (l.882-888). -/
def lowHe (r : Run) : Bool :=
  match r.initialY with
  | none => true
  | some y => y < 24/25

/-- The runs chosen for the types that look at the data. -/
def chosen (t : Name) (rs : List Run) : Except Err (List ℕ) :=
  if t = (chars! "PISN") then byLog pisnMsg 0 rs
  else if t = (chars! "reverse_MT") then .ok (byRun reverse rs)
  else if t = (chars! "TPAGBwind") then .ok (byRun (some1 tpagb) rs)
  else if t = (chars! "conv_bdy_weight") then byLog bdyMsg 0 rs
  else if t = (chars! "initial_He") then .ok (byRun lowHe rs)
  else if t = (chars! "LBV_wind") then
    .ok (byRun (fun r => some1 lbv r && !some1 tpagb r) rs)
  else .error .value

/-! ### Training -/

/-- The classes to be interpolated (l.363-369). -/
def classes (method gridType : Name) : List Name :=
  [(chars! "stable_MT"), (chars! "unstable_MT")] ++
  (if isIn (chars! "_RLO") method then [] else [(chars! "no_MT")]) ++
  (if isIn (chars! "CO") gridType then [] else [(chars! "stable_reverse_MT")])

/-- A column of final values: texts or numbers. -/
inductive Col where
  | text
  | num (xs : List (Option ℚ))

/-- `out_keys` (l.373-377). -/
def outKeys (cols : List (Name × Col)) : List Name :=
  (cols.filter fun c => c.1 ≠ (chars! "model_number") &&
    (match c.2 with | .text => false | .num xs => xs.any fun x => x.isSome) &&
    !isIn (chars! "SN_MODEL") c.1).map (·.1)

/-- `out_nan_keys` (l.380-384). -/
def nanKeys (cols : List (Name × Col)) : List Name :=
  (cols.filter fun c => c.1 ≠ (chars! "model_number") &&
    (match c.2 with | .text => false | .num xs => xs.all fun x => x.isNone) &&
    !isIn (chars! "SN_MODEL") c.1).map (·.1)

/-- The full name of a quantity of a supernova model (l.425). -/
def fullKey (star model short : Name) : Name :=
  star ++ (chars! "_") ++ model ++ (chars! "_") ++ short.drop 3

/-- The quantities of a supernova model that are interpolated, and those without values
(l.415-429): only the first star is considered. -/
def snKeys (model : Name) (cols : List (Name × Col)) : List Name × List Name :=
  let mine := cols.filter fun c => (chars! "S1_").isPrefixOf c.1
  ((mine.filter fun c => match c.2 with | .text => false | .num xs => xs.any fun x => x.isSome).map
      fun c => fullKey (chars! "S1") model c.1,
   (mine.filter fun c => match c.2 with | .text => false | .num xs => !xs.any fun x => x.isSome).map
      fun c => fullKey (chars! "S1") model c.1)

end Verif.Rerun
