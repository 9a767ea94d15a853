import Verif.Table
import Verif.PopMass
/-!
Model of opening a population file: `/repo/posydon/popsyn/synthetic_population.py`, `PopulationIO._load_metadata` (l.852-872), `_save_mass_per_metallicity`
(l.874-886), `_load_mass_per_metallicity` (l.888-900), `_save_ini_params` (l.902-920), `_load_ini_params` (l.922-942), `Population.__init__` (l.988-1135),
`Population.formation_channels` (l.1388-1405), `History.__init__` (l.349-399), `Oneline.__init__` (l.623-647); the list of saved parameters is
`/repo/posydon/popsyn/binarypopulation.py` l.62-82.

Simplifications: a file is a record of its tables, a table that is not there is `none`; of the rows of the history only the index and the contents are kept, of those of
the one-line table the index, whether `state_i` is `initially_single_star`, and the two masses. Reading the ini file is a parameter (its result). Values of
parameters are of any type and come back from the file as they were written. Numbers are rational.
-/
namespace Verif.OpenPop

inductive Err | value | missing | key
  deriving DecidableEq, Repr

/-- binarypopulation.py l.62-82 -/
def saved : List String :=
  ["metallicity", "number_of_binaries", "binary_fraction_scheme", "binary_fraction_const", "star_formation", "max_simulation_time", "primary_mass_scheme",
   "primary_mass_min", "primary_mass_max", "secondary_mass_scheme", "secondary_mass_min", "secondary_mass_max", "orbital_scheme", "orbital_period_scheme",
   "orbital_period_min", "orbital_period_max", "orbital_separation_scheme", "orbital_separation_min", "orbital_separation_max", "eccentricity_scheme",
   "posydon_version"]

/-- A row of the one-line table. -/
structure One where
  index : ℤ
  single : Bool
  m1 : Option ℚ
  m2 : Option ℚ

/-- A row of the table of masses: metallicity in solar units, all mass, that of single stars, that of binaries, number of systems. -/
structure MassRow where
  met : ℚ
  total : ℚ
  singles : ℚ
  binaries : ℚ
  systems : ℕ
  deriving DecidableEq

abbrev Params (V : Type) := List (String × V)

/-- A population file: contents `H` of rows of the history, `C` of the table of channels, values `V` of parameters. -/
structure File (H C V : Type) where
  history : Option (List (ℤ × H))
  lengths : Option (List (ℤ × ℕ))
  oneline : Option (List One)
  channels : Option C
  ini : Option (Params V)
  mass : Option (List MassRow)

/-- The object. -/
structure Pop (C V : Type) where
  lengths : List (ℤ × ℕ)
  indices : List ℤ
  systems : ℕ
  channels : Option C
  ini : Params V
  mass : List MassRow
  solar : List ℚ
  mets : List ℚ

variable {H C V : Type}

/-- `Zsun` -/
def Zsun : ℚ := 142 / 10000

/-- `_save_ini_params` makes one row with the parameters that are there, l.913-919; `_load_ini_params` reads those of the list that are there, l.936-942. -/
def keep (p : Params V) : Params V := saved.filterMap fun c => (p.lookup c).map fun v => (c, v)

/-- `History.__init__`, l.371-399: the lengths, and the file with the lengths. -/
def openHistory (f : File H C V) (rows : List (ℤ × H)) : List (ℤ × ℕ) × File H C V :=
  match f.lengths with
  | some l => (l, f)
  | none => (Table.lengthsOf rows, { f with lengths := some (Table.lengthsOf rows) })

/-- The new table of masses, l.1104-1121; reading columns of an empty table raises (`pd.concat([])`). -/
def newMass (z : ℚ) (one : List One) : Except Err (List MassRow) :=
  if one = [] then .error .value
  else
    let s := ((one.filter fun r => r.single).map fun r => PopMass.nan0 r.m1).sum
    let b := ((one.filter fun r => !r.single).map fun r => PopMass.nan0 r.m1 + PopMass.nan0 r.m2).sum
    .ok [⟨z, s + b, s, b, one.length⟩]

/-- The parameters, l.1075-1085: what is kept, and the file afterwards. -/
def openIni (f : File H C V) (iniFile : Option (Params V)) : Except Err (Params V × File H C V) :=
  match iniFile with
  | some p => .ok (keep (keep p), { f with ini := some (keep p) })
  | none =>
    match f.ini with
    | none => .error .value
    | some p => .ok (keep p, f)

/-- The masses, l.1088-1130; `had` is the table the file had when it was opened. -/
def openMass (f : File H C V) (one : List One) (z : Option ℚ) (hasIni : Bool) : Except Err (List MassRow × File H C V) :=
  match z with
  | none =>
    match f.mass with
    | some m => .ok (m, f)
    | none => .error .value
  | some z =>
    if hasIni then
      match newMass z one with
      | .error e => .error e
      | .ok m => .ok (m, { f with mass := some m })
    else .error .value

/-- `Population.__init__`, l.988-1135: the object, or an exception, and the file afterwards (`none`: there is no file). `nameOk`: the name contains `.h5`. -/
def openPop (nameOk : Bool) (file : Option (File H C V)) (z : Option ℚ) (iniFile : Option (Params V)) : Except Err (Pop C V) × Option (File H C V) :=
  if nameOk = false then (.error .value, file)
  else
    match file with
    | none => (.error .missing, none)
    | some f =>
      match f.history with
      | none => (.error .value, some f)
      | some rows =>
        let (lens, f1) := openHistory f rows
        match f1.oneline with
        | none => (.error .value, some f1)
        | some one =>
          match openIni f1 iniFile with
          | .error e => (.error e, some f1)
          | .ok (ini, f2) =>
            match openMass f2 one z iniFile.isSome with
            | .error e => (.error e, some f2)
            | .ok (m, f3) =>
              (.ok ⟨lens, lens.map Prod.fst, one.length, f1.channels, ini, m, m.map (·.met), m.map fun r => r.met * Zsun⟩, some f3)

/-- `_load_metadata`, l.852-872: the parameters and the masses; a table that is not there is a `KeyError`. -/
def loadMetadata (nameOk : Bool) (f : File H C V) : Except Err (Params V × List MassRow) :=
  if nameOk = false then .error .value
  else
    match f.ini with
    | none => .error .key
    | some p =>
      match f.mass with
      | none => .error .key
      | some m => .ok (keep p, m)

/-- `Population.formation_channels`, l.1388-1405: read again from the present file. -/
def formationChannels (f : File H C V) : Option C := f.channels

/-! ### Specification -/

/-- The mass of a system that counts: the second star of a single star does not, nor does a mass that is not a number. -/
def counted (r : One) : ℚ := (r.m1.getD 0) + if r.single then 0 else r.m2.getD 0

/-! ### Lemmas -/

theorem lookup_filterMap (p : Params V) : ∀ (l : List String) (k : String), (l.filterMap fun c => (p.lookup c).map fun v => (c, v)).lookup k = if k ∈ l then p.lookup k else none := by
  intro l
  induction l with
  | nil => intro k; rfl
  | cons c l ih =>
    intro k
    rw [List.filterMap_cons]
    cases hc : p.lookup c with
    | none =>
      rw [Option.map_none]
      dsimp only
      rw [ih]
      by_cases hk : k = c
      · subst hk
        simp [hc]
      · simp [hk]
    | some v =>
      rw [Option.map_some]
      dsimp only
      by_cases hk : k = c
      · subst hk
        simp [List.lookup, hc]
      · have : (k == c) = false := by simpa using hk
        rw [List.lookup, this]
        dsimp only
        rw [ih]
        simp [hk]

theorem keep_lookup (p : Params V) (k : String) : (keep p).lookup k = if k ∈ saved then p.lookup k else none := lookup_filterMap p saved k

theorem keep_keep (p : Params V) : keep (keep p) = keep p := by
  have : ∀ c ∈ saved, ((keep p).lookup c).map (fun v => (c, v)) = (p.lookup c).map fun v => (c, v) := by
    intro c hc
    rw [keep_lookup, if_pos hc]
  show saved.filterMap (fun c => ((keep p).lookup c).map fun v => (c, v)) = saved.filterMap fun c => (p.lookup c).map fun v => (c, v)
  exact List.filterMap_congr this

end Verif.OpenPop
