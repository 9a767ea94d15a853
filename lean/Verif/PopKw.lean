import Mathlib.Algebra.Order.Field.Rat
import Mathlib.Tactic.Common
/-!
Model of the options of a population on their way to the samplers and into the file of results: `/repo/posydon/popsyn/defaults.py` (all),
`/repo/posydon/popsyn/binarypopulation.py` (`saved_ini_parameters` l.62-82, `BinaryPopulation.__init__` l.127-197, `BinaryPopulation.evolve` l.260-292, the call in `_safe_evolve`
l.327 and l.352, the table of parameters in `combine_saved_files` l.592-599, `PopulationManager.__init__` l.661-670 and `generate` l.783-790, `BinaryGenerator.draw_initial_samples` l.1026-1043,
`draw_initial_binary` l.1097-1101), `/repo/posydon/popsyn/independent_sample.py` (`generate_independent_samples` l.26-100 and the signatures of the functions it calls),
`/repo/posydon/popsyn/Moes_distributions.py` l.97-98, `/repo/posydon/popsyn/star_formation_history.py` l.1063-1116.

Simplifications: a dictionary of options is a function from names to values; values are numbers, texts, `None`, lists of numbers or other objects (numbered).
Seeds are not computed: the random generator and the entropy are handed in. What the samplers do with their arguments is in `Sampling`, `Laws`, `Moe`; here a call is
the name of the function with the values of its parameters (all parameters but the drawn masses, the number of binaries and the random generator).
The formation times are one call with all values the scenarios read.
-/
namespace Verif.PopKw

inductive Val
  | num (q : ℚ)
  | text (s : String)
  | nothing
  | nums (l : List ℚ)
  | obj (n : ℕ)
  deriving DecidableEq

/-- A dictionary of options. -/
abbrev Kw := String → Option Val

inductive Err
  | value | type | index
  deriving DecidableEq

/-- The dictionary with the given entries. -/
def ofList (l : List (String × Val)) : Kw := fun n => l.lookup n

/-- `kwargs[n] = v` -/
def set (k : Kw) (n : String) (v : Val) : Kw := fun m => if m = n then some v else k m

/-- `kwargs.pop(n, None)` -/
def del (k : Kw) (n : String) : Kw := fun m => if m = n then none else k m

/-- `default_kwargs`, defaults.py l.12-59. -/
def defaultList : List (String × Val) :=
  [("entropy", .nothing), ("number_of_binaries", .num 100), ("metallicities", .nums [1]), ("star_formation", .text "constant"),
   ("max_simulation_time", .num 13800000000), ("orbital_scheme", .text "period"), ("orbital_separation_scheme", .text "log_uniform"),
   ("orbital_separation_min", .num 5), ("orbital_separation_max", .num 100000), ("log_orbital_seperation_mean", .nothing),
   ("log_orbital_seperation_sigma", .nothing), ("orbital_period_scheme", .text "Sana+12_period_extended"), ("orbital_period_min", .num (3 / 4)),
   ("orbital_period_max", .num 6000), ("eccentricity_scheme", .text "zero"), ("primary_mass_scheme", .text "Kroupa2001"), ("primary_mass_min", .num 7),
   ("primary_mass_max", .num 120), ("secondary_mass_scheme", .text "flat_mass_ratio"), ("secondary_mass_min", .num (7 / 20)),
   ("secondary_mass_max", .num 120), ("binary_fraction_const", .num 1), ("binary_fraction_scheme", .text "const")]

/-- `saved_ini_parameters`, l.62-82. -/
def saved : List String :=
  ["metallicity", "number_of_binaries", "binary_fraction_scheme", "binary_fraction_const", "star_formation", "max_simulation_time", "primary_mass_scheme",
   "primary_mass_min", "primary_mass_max", "secondary_mass_scheme", "secondary_mass_min", "secondary_mass_max", "orbital_scheme", "orbital_period_scheme",
   "orbital_period_min", "orbital_period_max", "orbital_separation_scheme", "orbital_separation_min", "orbital_separation_max", "eccentricity_scheme",
   "posydon_version"]

/-- Defaults first, then the options of the user, l.127-129. -/
def merged (u : Kw) : Kw := fun n => (u n).or (ofList defaultList n)

/-- `self.metallicities[self.metallicity_index]`, l.138-144: evaluated even if a metallicity is given. -/
def chosen (k : Kw) : Except Err Val :=
  match k "metallicities", (k "metallicity_index").getD (.num 0) with
  | some (.nums l), .num i =>
    let j : Int := if i.num < 0 then i.num + l.length else i.num
    if i.den ≠ 1 then .error .type
    else if j < 0 then .error .index
    else match l[j.toNat]? with
      | some z => .ok (.num z)
      | none => .error .index
  | _, _ => .error .type

/-- An option that is given and not `None`. -/
def given (k : Kw) (n : String) : Bool :=
  match k n with
  | none => false
  | some .nothing => false
  | some _ => true

/-- `self.metallicities.index(self.metallicity)` raises a ValueError if the metallicity is not one of the list, l.171 and l.182. -/
def listed (k : Kw) (z : Val) : Bool :=
  match k "metallicities", z with
  | some (.nums l), .num q => decide (q ∈ l)
  | _, _ => false

/-- A job of an array takes its place and the number of jobs out of the options, l.176-177. -/
def taken (job : Bool) (k : Kw) : Kw := if job then del (del k "RANK") "size" else k

/-- `BinaryPopulation.__init__`, l.127-197: the options of the population. `rng` and `entropy` are the generator made from the seeds. The last test is the call of
`BinaryGenerator(sampler=…, **kwargs)` in `PopulationManager.__init__`. -/
def population (rng entropy : Val) (u : Kw) : Except Err Kw :=
  let k := merged u
  match chosen k with
  | .error e => .error e
  | .ok z0 =>
    let z := (k "metallicity").getD z0
    let k := set k "metallicity" z
    let comm := given k "comm"
    let job := given k "JOB_ID"
    let ent := given k "entropy"
    let k := del (del k "comm") "JOB_ID"
    if comm && job then .error .value
    else if comm && !ent then .error .value
    else if (comm || (job && !ent)) && !listed k z then .error .value
    else
      let k := taken job k
      let k := set (set k "RNG" rng) "entropy" entropy
      if (k "sampler").isSome then .error .type else .ok k

/-- `evolve(**e)`, l.260-292, and l.327: the five options of the run (`p`: their values, from both dictionaries) and the directory are written into the options. -/
def evolve (p : Kw → Kw → String → Val) (k e : Kw) : Kw :=
  ["indices", "tqdm", "breakdown_to_df", "optimize_ram", "from_hdf", "temp_directory"].foldl (fun k' n => set k' n (p k e n)) k

/-- A function with the values of its parameters. -/
structure Call where
  fn : String
  args : List (String × Val)
  deriving DecidableEq

/-- Python's binding of keyword arguments: the given value, or the default of the signature. -/
def bind (sig : List (String × Val)) (k : Kw) : List (String × Val) := sig.map fun p => (p.1, (k p.1).getD p.2)

/-- The signatures of independent_sample.py l.264-267, l.317-321, l.146-151, l.122-126, l.219-220, l.378-379 and Moes_distributions.py l.97-98. -/
def sigPrimary : List (String × Val) := [("primary_mass_min", .num 7), ("primary_mass_max", .num 120), ("primary_mass_scheme", .text "Salpeter")]
def sigSecondary : List (String × Val) :=
  [("secondary_mass_min", .num (7 / 20)), ("secondary_mass_max", .num 120), ("secondary_mass_scheme", .text "flat_mass_ratio")]
def sigSeparation : List (String × Val) :=
  [("orbital_separation_min", .num 5), ("orbital_separation_max", .num 100000), ("log_orbital_separation_mean", .nothing),
   ("log_orbital_separation_sigma", .nothing), ("orbital_separation_scheme", .text "log_uniform")]
/-- `10**3.5` is left as an object. -/
def sigPeriod : List (String × Val) :=
  [("orbital_period_min", .num (7 / 20)), ("orbital_period_max", .obj 35), ("orbital_period_scheme", .text "Sana+12_period_extended")]
def sigEccentricity : List (String × Val) := [("eccentricity_scheme", .text "thermal")]
def sigFraction : List (String × Val) := [("binary_fraction_const", .num 1), ("binary_fraction_scheme", .text "const")]
def sigMoe : List (String × Val) :=
  [("n_M1", .num 101), ("n_logP", .num 158), ("n_q", .num 91), ("n_e", .num 200), ("orbital_period_min", .num (1412 / 1000)),
   ("orbital_period_max", .num 100000000)]
/-- l.59-60 and l.66 -/
def sigMoeCall : List (String × Val) := [("primary_mass_min", .num 7), ("primary_mass_max", .num 120)]

/-- `use_Moe_17_PsandQs`, l.103-119. -/
def useMoe (orb : Val) (k : Kw) : Bool :=
  let m := Val.text "Moe+17-PsandQs"
  decide ((k "secondary_mass_scheme").getD (.text "") = m) ||
  (decide (orb = .text "period") && decide ((k "orbital_period_scheme").getD (.text "") = m)) ||
  decide ((k "eccentricity_scheme").getD (.text "") = m)

/-- `generate_independent_samples(orb, **k)`, l.48-100: the calls, and the arguments of the global generator of Moe & Di Stefano afterwards (`g` before). -/
def samples (g : Option Call) (orb : Val) (k : Kw) : Except Err (List Call × Option Call) :=
  let first : Call := ⟨"generate_primary_masses", bind sigPrimary k⟩
  if useMoe orb k then
    let gen := g.getD ⟨"Moe_17_PsandQs", bind sigMoe k⟩
    let ecc := (k "eccentricity_scheme").getD (.text "zero")
    .ok ([first, gen, ⟨"call", bind sigMoeCall k⟩] ++
      (if ecc ≠ .text "Moe+17-PsandQs" then [⟨"generate_eccentricities", [("eccentricity_scheme", ecc)]⟩] else []), some gen)
  else if (k "primary_masses").isSome then .error .type
  else if orb = .text "separation" then
    if (k "m1").isSome then .error .type
    else .ok ([first, ⟨"generate_secondary_masses", bind sigSecondary k⟩, ⟨"generate_orbital_separations", bind sigSeparation k⟩,
      ⟨"generate_eccentricities", bind sigEccentricity k⟩, ⟨"generate_binary_fraction", bind sigFraction k⟩], g)
  else if orb = .text "period" then
    if (k "m1").isSome then .error .type
    else .ok ([first, ⟨"generate_secondary_masses", bind sigSecondary k⟩, ⟨"generate_orbital_periods", bind sigPeriod k⟩,
      ⟨"generate_eccentricities", bind sigEccentricity k⟩, ⟨"generate_binary_fraction", bind sigFraction k⟩], g)
  else .error .value

/-- `get_formation_times(N, **k)`, l.1063-1116: the values that are read. -/
def times (k : Kw) : Except Err Call :=
  if (k "N_binaries").isSome then .error .type
  else .ok ⟨"get_formation_times", bind [("star_formation", .text "constant"), ("burst_time", .num 0), ("min_time", .num 0),
    ("custom_ages_file", .nothing), ("max_simulation_time", .num 13800000000)] k ++
    [("max_time", (k "max_time").getD ((k "max_simulation_time").getD (.num 13800000000)))]⟩

/-- The file the samples are read from, l.661-663 and l.1049: none for an empty name. -/
def file (k : Kw) : Option Val :=
  match k "read_samples_from_file" with
  | some v => if v = .text "" then none else some v
  | none => none

/-- The calls for one binary of a population without a file of samples, `generate(index=i, **k)` l.352, l.788, l.1097-1101, l.1031, l.1043. -/
def draw (g : Option Call) (k : Kw) : Except Err (List Call × Option Call) :=
  if (k "index").isSome then .error .type
  else
    let k := set k "number_of_binaries" (.num 1)
    let orb := (k "orbital_scheme").getD (.text "separation")
    match samples g orb (del k "orbital_scheme") with
    | .error e => .error e
    | .ok (l, g') =>
      match times (del k "orbital_scheme") with
      | .error e => .error e
      | .ok t => .ok (⟨"sampler", [("orbital_scheme", orb)]⟩ :: l ++ [t], g')

/-- The row of parameters in the file of results, l.592-599; `v` is the version. A missing name raises a KeyError, `none`. -/
def row (v : Val) (k : Kw) : Option (List (String × Val)) :=
  saved.mapM fun c => if c = "posydon_version" then some (c, v) else (k c).map fun x => (c, x)

/-! ### Specification -/

/-- What a user expects for an option: their value, or the documented default. -/
def Expected (u : Kw) (n : String) : Option Val :=
  match u n with
  | some v => some v
  | none => (defaultList.find? (fun p => p.1 == n)).map (·.2)

/-- The options that shape a sample and are not in the file of results. -/
def unsaved : List String :=
  ["log_orbital_separation_mean", "log_orbital_separation_sigma", "n_M1", "n_logP", "n_q", "n_e", "burst_time", "min_time", "max_time", "custom_ages_file"]

/-- The value of `n` in a row. -/
def Has (r : List (String × Val)) (n : String) (v : Val) : Prop := (n, v) ∈ r

/-- All arguments of a list of calls. -/
def argsOf (l : List Call) : List (String × Val) := l.flatMap (·.args)

end Verif.PopKw
