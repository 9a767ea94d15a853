import Verif.Chars
import Mathlib.Algebra.Order.Field.Rat
import Mathlib.Data.List.Basic
import Mathlib.Tactic.Common

/-!
# Options of the steps

Model of the part of the constructors of the steps that takes the options: `MesaGridStep` (`posydon/binary_evol/MESA/step_mesa.py` l.164-233, and the
subclasses l.1291-1730), `detached_step` (`DT/step_detached.py` l.165-228) with `detached_evolution` (l.874-902), `IsolatedStep` (`DT/step_isolated.py` l.27-29),
`DisruptedStep` (`DT/step_disrupted.py` l.29-31), `InitiallySingleStep` (`DT/step_initially_single.py` l.29-31), `MergedStep` (`DT/step_merged.py` l.43-52),
`DoubleCO` (`DT/double_CO.py` l.132-135), `StepCEE` (`CE/step_CEE.py` l.127-161), `StepSN` (`SN/step_SN.py` l.247-294, with `grids/SN_MODELS.py` l.23-39),
`step_end` (`step_end.py`) and `NullStep`; and of the loading of a step, `posydon/binary_evol/simulationproperties.py` `load_a_step` (l.386-477) and `check_step`
(l.479-555), with `TrackMatcher.separate_kwargs` (`track_match.py` l.408-422); and of the names of options in `popsyn/population_params_default.ini`.

Simplifications.  Values are of a few kinds; generators of random numbers and other objects have numbers.  What follows the options in the constructors of steps with
grids and of the supernova step (loading of files, see C119, C123) and the making of a track matcher (see C98) are parameters that either succeed or fail.  Flow
charts and messages are left out.
-/

namespace Verif.StepOptions

abbrev Name := List Char

inductive Val where
  | none
  | bool (b : Bool)
  | num (q : ℚ)
  | text (t : Name)
  | rng (n : ℕ)
  | matcher (z : ℚ) (step : Name)
  | obj (n : ℕ)
deriving DecidableEq

/-- Whether Python takes a value as true. -/
def Val.truthy : Val → Bool
  | .none => false
  | .bool b => b
  | .num q => !decide (q = 0)
  | .text t => !decide (t = [])
  | _ => true

inductive Err where
  | value
  | type
  | attribute
deriving DecidableEq

/-- A dictionary, in the order of insertion. -/
abbrev Kw := List (Name × Val)

/-- `d.get(k)`. -/
def get : Kw → Name → Option Val
  | [], _ => none
  | (a, v) :: l, k => if a = k then some v else get l k

/-- `d[k] = v`. -/
def put : Kw → Name → Val → Kw
  | [], k, v => [(k, v)]
  | (a, w) :: l, k, v => if a = k then (a, v) :: l else (a, w) :: put l k v

inductive Cls where
  | hmsHms | coHmsRlo | coHeMS | coHeMSRlo
  | detached | disrupted | merged | single | dco
  | ce | sn | last | null
deriving DecidableEq

/-- step_mesa.py l.164-177; generator 0 is made with the class. -/
def mesaDefaults : Kw := [
  ((chars! "metallicity"), .none), ((chars! "grid_path"), .none), ((chars! "interpolation_path"), .none),
  ((chars! "interpolation_filename"), .none), ((chars! "interpolation_method"), .text (chars! "nearest_neighbour")),
  ((chars! "save_initial_conditions"), .bool true), ((chars! "track_interpolation"), .bool false),
  ((chars! "stop_method"), .text (chars! "stop_at_max_time")), ((chars! "stop_star"), .text (chars! "star_1")),
  ((chars! "stop_var_name"), .none), ((chars! "stop_value"), .none), ((chars! "stop_interpolate"), .bool true),
  ((chars! "RNG"), .rng 0), ((chars! "verbose"), .bool false)]

/-- step_detached.py l.165-177; generator 1 is made with the class. -/
def detachedDefaults : Kw := [
  ((chars! "dt"), .none), ((chars! "n_o_steps_history"), .none), ((chars! "do_wind_loss"), .bool true), ((chars! "do_tides"), .bool true),
  ((chars! "do_gravitational_radiation"), .bool true), ((chars! "do_magnetic_braking"), .bool true),
  ((chars! "magnetic_braking_mode"), .text (chars! "RVJ83")), ((chars! "do_stellar_evolution_and_spin_from_winds"), .bool true),
  ((chars! "RLO_orbit_at_orbit_with_same_am"), .bool false), ((chars! "metallicity"), .none), ((chars! "track_matcher"), .none),
  ((chars! "RNG"), .rng 1), ((chars! "verbose"), .bool false)]

/-- step_CEE.py l.127-145. -/
def ceDefaults : Kw := [
  ((chars! "prescription"), .text (chars! "alpha-lambda")), ((chars! "common_envelope_efficiency"), .num 1),
  ((chars! "common_envelope_lambda_default"), .num (1 / 2)),
  ((chars! "common_envelope_option_for_lambda"), .text (chars! "lambda_from_grid_final_values")),
  ((chars! "common_envelope_option_for_HG_star"), .text (chars! "optimistic")), ((chars! "common_envelope_alpha_thermal"), .num 1),
  ((chars! "core_definition_H_fraction"), .num (3 / 10)), ((chars! "core_definition_He_fraction"), .num (1 / 10)),
  ((chars! "CEE_tolerance_err"), .num (1 / 1000)), ((chars! "verbose"), .bool false),
  ((chars! "common_envelope_option_after_succ_CEE"), .text (chars! "two_phases_stableMT")),
  ((chars! "mass_loss_during_CEE_merged"), .bool false), ((chars! "metallicity"), .none), ((chars! "track_matcher"), .none)]

/-- step_SN.py l.247-263, SN_MODELS.py l.23-39. -/
def snDefaults : Kw := [
  ((chars! "kick"), .bool true), ((chars! "kick_normalisation"), .text (chars! "one_over_mass")),
  ((chars! "kick_prescription"), .text (chars! "maxwellian")), ((chars! "sigma_kick_CCSN_NS"), .num 265), ((chars! "mean_kick_CCSN_NS"), .none),
  ((chars! "sigma_kick_CCSN_BH"), .num 265), ((chars! "mean_kick_CCSN_BH"), .none), ((chars! "sigma_kick_ECSN"), .num 20),
  ((chars! "mean_kick_ECSN"), .none), ((chars! "RNG"), .none), ((chars! "verbose"), .bool false),
  ((chars! "mechanism"), .text (chars! "Fryer+12-delayed")), ((chars! "engine"), .text []), ((chars! "PISN"), .text (chars! "Hendriks+23")),
  ((chars! "PISN_CO_shift"), .num 0), ((chars! "PPI_extra_mass_loss"), .num (-20)), ((chars! "ECSN"), .text (chars! "Tauris+15")),
  ((chars! "conserve_hydrogen_envelope"), .bool false), ((chars! "conserve_hydrogen_PPI"), .bool false),
  ((chars! "max_neutrino_mass_loss"), .num (1 / 2)), ((chars! "max_NS_mass"), .num (5 / 2)), ((chars! "use_interp_values"), .bool true),
  ((chars! "use_profiles"), .bool true), ((chars! "use_core_masses"), .bool true), ((chars! "allow_spin_None"), .bool false),
  ((chars! "approx_at_he_depletion"), .bool false)]

/-- `DEFAULT_KWARGS` of a class; `none`: the class has no such attribute. -/
def defaults : Cls → Option Kw
  | .hmsHms | .coHmsRlo | .coHeMS | .coHeMSRlo => some mesaDefaults
  | .detached | .disrupted | .merged | .single | .dco => some detachedDefaults
  | .ce => some ceDefaults
  | .sn => some snDefaults
  | .last => some []
  | .null => none

/-- The keyword parameters of `MergedStep.__init__`, l.44-45. -/
def mergedExtra : Kw := [((chars! "merger_critical_rot"), .num (4 / 10)), ((chars! "rel_mass_lost_HMS_HMS"), .num (1 / 10))]

/-- The common part of the constructors (e.g. step_CEE.py l.151-161): names are checked, then the attributes set. -/
def options (d kw : Kw) : Except Err Kw :=
  if kw = [] then .ok d
  else if kw.all (fun p => (get d p.1).isSome) then .ok (d.map fun p => (p.1, (get kw p.1).getD p.2))
  else .error .value

/-- A step: its attributes, and those of the object that evolves detached binaries. -/
structure Obj where
  attrs : Kw
  evo : Kw := []
deriving DecidableEq

/-- `getattr(self, k)` of an attribute that was set. -/
def attr (a : Kw) (k : Name) : Val := (get a k).getD .none

/-- The options that are handed on to the evolution, step_detached.py l.219-228. -/
def evoKeys : List Name := [
  (chars! "do_wind_loss"), (chars! "do_tides"), (chars! "do_magnetic_braking"), (chars! "magnetic_braking_mode"),
  (chars! "do_stellar_evolution_and_spin_from_winds"), (chars! "do_gravitational_radiation"), (chars! "verbose")]

/-- The names of the objects of the environment, and what follows the options. -/
structure Env where
  mesaSetup : Cls → Kw → Except Err Unit
  snSetup : Kw → Except Err Unit
  fresh : ℕ

/-- `MesaGridStep.__init__`, l.218-233, and what follows. -/
def mesa (E : Env) (c : Cls) (kw : Kw) : Except Err Obj :=
  match options mesaDefaults kw with
  | .error e => .error e
  | .ok a =>
    if (attr a (chars! "track_interpolation")).truthy ∧ attr a (chars! "interpolation_method") ≠ .text (chars! "nearest_neighbour") then
      .error .value
    else
      match E.mesaSetup c a with
      | .error e => .error e
      | .ok _ => .ok { attrs := a }

/-- `detached_step.__init__`, l.183-213: with `verbose` an attribute of the matcher is printed. -/
def detached (kw : Kw) : Except Err Obj :=
  match options detachedDefaults kw with
  | .error e => .error e
  | .ok a =>
    let o : Obj := { attrs := a, evo := evoKeys.map fun k => (k, attr a k) }
    if (attr a (chars! "verbose")).truthy then
      match attr a (chars! "track_matcher") with
      | .matcher _ _ => .ok o
      | _ => .error .attribute
    else .ok o

/-- `StepSN.__init__`, l.275-277 (`given`: there was an option) and l.284-294. -/
def snRng (E : Env) (given : Bool) (a : Kw) : Kw :=
  if given ∧ attr a (chars! "RNG") = .none then put a (chars! "RNG") (.rng E.fresh) else a

def snKick (a : Kw) : Kw :=
  if attr a (chars! "kick_normalisation") = .text (chars! "asym_ej") ∨ attr a (chars! "kick_normalisation") = .text (chars! "linear") then
    put (put a (chars! "kick_prescription") (attr a (chars! "kick_normalisation"))) (chars! "kick_normalisation") (.text (chars! "one"))
  else a

def snNeutrino (a : Kw) : Kw :=
  if attr a (chars! "max_neutrino_mass_loss") = .none then put a (chars! "max_neutrino_mass_loss") (.num 0) else a

def sn (E : Env) (kw : Kw) : Except Err Obj :=
  match options snDefaults kw with
  | .error e => .error e
  | .ok a =>
    let a' := snNeutrino (snKick (snRng E (!kw.isEmpty) a))
    match E.snSetup a' with
    | .error e => .error e
    | .ok _ => .ok { attrs := a' }

/-- `MergedStep.__init__`, l.43-52: two parameters may be given by position or by name (not by both). -/
def mergedArgs : List Val → Kw → Except Err (Kw × List Val × Kw)
  | [], kw => .ok (mergedExtra.map fun p => (p.1, (get kw p.1).getD p.2), [], kw.filter fun p => (get mergedExtra p.1).isNone)
  | [x], kw =>
    if (get kw (chars! "merger_critical_rot")).isSome then .error .type
    else .ok ([((chars! "merger_critical_rot"), x),
        ((chars! "rel_mass_lost_HMS_HMS"), (get kw (chars! "rel_mass_lost_HMS_HMS")).getD (.num (1 / 10)))], [],
      kw.filter fun p => (get mergedExtra p.1).isNone)
  | x :: y :: rest, kw =>
    if (get kw (chars! "merger_critical_rot")).isSome ∨ (get kw (chars! "rel_mass_lost_HMS_HMS")).isSome then .error .type
    else .ok ([((chars! "merger_critical_rot"), x), ((chars! "rel_mass_lost_HMS_HMS"), y)], rest, kw)

/-- `cls(*pos, **kw)`. -/
def construct (E : Env) (c : Cls) (pos : List Val) (kw : Kw) : Except Err Obj :=
  match c with
  | .merged =>
    match mergedArgs pos kw with
    | .error e => .error e
    | .ok (extra, rest, kw') =>
      if rest ≠ [] then .error .type
      else
        match detached kw' with
        | .error e => .error e
        | .ok o => .ok { o with attrs := extra ++ o.attrs }
  | c =>
    if pos ≠ [] then .error .type
    else
      match c with
      | .hmsHms | .coHmsRlo | .coHeMS | .coHeMSRlo => mesa E c kw
      | .ce => match options ceDefaults kw with
        | .error e => .error e
        | .ok a => .ok { attrs := a }
      | .sn => sn E kw
      | .last | .null => if kw = [] then .ok { attrs := [] } else .error .type
      | _ => detached kw

/-! ### Loading -/

/-- `TrackMatcher.DEFAULT_KWARGS`, track_match.py l.255-267 (names). -/
def matcherKeys : List Name := [
  (chars! "grid_Hrich"), (chars! "grid_strippedHe"), (chars! "path"), (chars! "metallicity"), (chars! "matching_method"),
  (chars! "matching_tolerance"), (chars! "matching_tolerance_hard"), (chars! "list_for_matching_HMS"), (chars! "list_for_matching_HeStar"),
  (chars! "list_for_matching_postMS"), (chars! "list_for_matching_postHeMS"), (chars! "record_matching"), (chars! "verbose_matching")]

/-- The keys that `separate_kwargs` takes out of the options, l.416-420. -/
def isTaken (k : Name) : Bool := decide (k ∈ matcherKeys) && !decide (k = (chars! "metallicity") ∨ k = (chars! "verbose"))

/-- The steps with a grid path, simulationproperties.py l.536-539. -/
def gridSteps : List Name := [(chars! "step_HMS_HMS"), (chars! "step_CO_HMS_RLO"), (chars! "step_CO_HeMS"), (chars! "step_CO_HeMS_RLO")]

/-- The metallicity of a step, l.527-533: `float(metallicity)` of something else than a number fails. -/
def metallicity (kw : Kw) (met : Option ℚ) : Except Err ℚ :=
  match get kw (chars! "metallicity") with
  | none => .ok (met.getD 1)
  | some .none => .ok 1
  | some (.num q) => .ok q
  | some (.bool b) => .ok (if b then 1 else 0)
  | some (.text _) => .error .value
  | some _ => .error .type

/-- `check_step`, l.519-555: `path` gives the path of the grid of a step, `make` is the making of a track matcher. -/
def checkStep (path : Name → Val) (make : ℚ → Name → Kw → Except Err Unit) (c : Cls) (name : Name) (met : Option ℚ) (rng : ℕ) (kw : Kw) :
    Except Err Kw :=
  match defaults c with
  | none => .error .attribute
  | some d =>
    match (if (get d (chars! "metallicity")).isSome then (metallicity kw met).map (fun z => (z, put kw (chars! "metallicity") (.num z)))
      else .ok (met.getD 1, kw)) with
    | .error e => .error e
    | .ok (z, kw1) =>
      let kw2 := if name ∈ gridSteps then put kw1 (chars! "grid_path") (path name) else kw1
      match (if (get d (chars! "track_matcher")).isSome then
          (make z name kw2).map (fun _ => put (kw2.filter fun p => !isTaken p.1) (chars! "track_matcher") (.matcher z name))
        else .ok kw2) with
      | .error e => .error e
      | .ok kw3 => .ok (if (get d (chars! "RNG")).isSome then put kw3 (chars! "RNG") (.rng rng) else kw3)

/-- `load_a_step`, l.449-472: the step, and whether it was made without its options. -/
def load (E : Env) (path : Name → Val) (make : ℚ → Name → Kw → Except Err Unit) (c : Cls) (name : Name) (met : Option ℚ) (rng : ℕ)
    (kw : Kw) : Except Err (Obj × Bool) :=
  match checkStep path make c name met rng kw with
  | .error e => .error e
  | .ok kw' =>
    match construct E c [] kw' with
    | .ok o => .ok (o, false)
    | .error .type => (construct E c [] []).map fun o => (o, true)
    | .error e => .error e

/-- The sections of `population_params_default.ini` with the names of their options (`import` is taken out before). -/
def iniSections : List (Name × Cls × List Name) := [
  ((chars! "step_HMS_HMS"), .hmsHms, [
   (chars! "interpolation_path"), (chars! "interpolation_filename"), (chars! "interpolation_method"),
   (chars! "save_initial_conditions"), (chars! "track_interpolation"), (chars! "stop_method"), (chars! "stop_star"),
   (chars! "stop_var_name"), (chars! "stop_value"), (chars! "stop_interpolate"), (chars! "verbose")]),
  ((chars! "step_CO_HeMS"), .coHeMS, [
   (chars! "interpolation_path"), (chars! "interpolation_filename"), (chars! "interpolation_method"),
   (chars! "save_initial_conditions"), (chars! "track_interpolation"), (chars! "stop_method"), (chars! "stop_star"),
   (chars! "stop_var_name"), (chars! "stop_value"), (chars! "stop_interpolate"), (chars! "verbose")]),
  ((chars! "step_CO_HMS_RLO"), .coHmsRlo, [
   (chars! "interpolation_path"), (chars! "interpolation_filename"), (chars! "interpolation_method"),
   (chars! "save_initial_conditions"), (chars! "track_interpolation"), (chars! "stop_method"), (chars! "stop_star"),
   (chars! "stop_var_name"), (chars! "stop_value"), (chars! "stop_interpolate"), (chars! "verbose")]),
  ((chars! "step_CO_HeMS_RLO"), .coHeMSRlo, [
   (chars! "interpolation_path"), (chars! "interpolation_filename"), (chars! "interpolation_method"),
   (chars! "save_initial_conditions"), (chars! "track_interpolation"), (chars! "stop_method"), (chars! "stop_star"),
   (chars! "stop_var_name"), (chars! "stop_value"), (chars! "stop_interpolate"), (chars! "verbose")]),
  ((chars! "step_detached"), .detached, [
   (chars! "matching_method"), (chars! "matching_tolerance"), (chars! "matching_tolerance_hard"), (chars! "do_wind_loss"),
   (chars! "do_tides"), (chars! "do_gravitational_radiation"), (chars! "do_magnetic_braking"), (chars! "magnetic_braking_mode"),
   (chars! "do_stellar_evolution_and_spin_from_winds"), (chars! "RLO_orbit_at_orbit_with_same_am"), (chars! "record_matching"),
   (chars! "verbose"), (chars! "verbose_matching")]),
  ((chars! "step_disrupted"), .disrupted, [
   (chars! "do_wind_loss"), (chars! "do_tides"), (chars! "do_gravitational_radiation"), (chars! "do_magnetic_braking"),
   (chars! "magnetic_braking_mode"), (chars! "do_stellar_evolution_and_spin_from_winds"), (chars! "matching_method"),
   (chars! "matching_tolerance"), (chars! "matching_tolerance_hard"), (chars! "record_matching"), (chars! "verbose"),
   (chars! "verbose_matching")]),
  ((chars! "step_merged"), .merged, [
   (chars! "do_wind_loss"), (chars! "do_tides"), (chars! "do_gravitational_radiation"), (chars! "do_magnetic_braking"),
   (chars! "magnetic_braking_mode"), (chars! "do_stellar_evolution_and_spin_from_winds"), (chars! "list_for_matching_HMS"),
   (chars! "list_for_matching_postMS"), (chars! "list_for_matching_HeStar"), (chars! "record_matching"), (chars! "verbose"),
   (chars! "verbose_matching")]),
  ((chars! "step_initially_single"), .single, [
   (chars! "do_wind_loss"), (chars! "do_tides"), (chars! "do_gravitational_radiation"), (chars! "do_magnetic_braking"),
   (chars! "magnetic_braking_mode"), (chars! "do_stellar_evolution_and_spin_from_winds"), (chars! "matching_method"),
   (chars! "matching_tolerance"), (chars! "matching_tolerance_hard"), (chars! "record_matching"), (chars! "verbose"),
   (chars! "verbose_matching")]),
  ((chars! "step_CE"), .ce, [
   (chars! "matching_method"), (chars! "matching_tolerance"), (chars! "matching_tolerance_hard"), (chars! "list_for_matching_HMS"),
   (chars! "record_matching"), (chars! "verbose_matching"), (chars! "prescription"), (chars! "common_envelope_efficiency"),
   (chars! "common_envelope_option_for_lambda"), (chars! "common_envelope_lambda_default"),
   (chars! "common_envelope_option_for_HG_star"), (chars! "common_envelope_alpha_thermal"), (chars! "core_definition_H_fraction"),
   (chars! "core_definition_He_fraction"), (chars! "CEE_tolerance_err"), (chars! "common_envelope_option_after_succ_CEE"),
   (chars! "verbose")]),
  ((chars! "step_SN"), .sn, [
   (chars! "mechanism"), (chars! "engine"), (chars! "PISN"), (chars! "PISN_CO_shift"), (chars! "PPI_extra_mass_loss"),
   (chars! "ECSN"), (chars! "conserve_hydrogen_envelope"), (chars! "conserve_hydrogen_PPI"), (chars! "max_neutrino_mass_loss"),
   (chars! "max_NS_mass"), (chars! "use_interp_values"), (chars! "use_profiles"), (chars! "use_core_masses"),
   (chars! "allow_spin_None"), (chars! "approx_at_he_depletion"), (chars! "kick"), (chars! "kick_normalisation"),
   (chars! "kick_prescription"), (chars! "sigma_kick_CCSN_NS"), (chars! "mean_kick_CCSN_NS"), (chars! "sigma_kick_CCSN_BH"),
   (chars! "mean_kick_CCSN_BH"), (chars! "sigma_kick_ECSN"), (chars! "mean_kick_ECSN"), (chars! "verbose")]),
  ((chars! "step_dco"), .dco, [
   (chars! "do_wind_loss"), (chars! "do_tides"), (chars! "do_gravitational_radiation"), (chars! "do_magnetic_braking"),
   (chars! "magnetic_braking_mode"), (chars! "do_stellar_evolution_and_spin_from_winds"), (chars! "n_o_steps_history")]),
  ((chars! "step_end"), .last, [])]

/-! ### Specification and helper lemmas -/

/-- The options of a class, with their defaults. -/
def known (c : Cls) : Kw :=
  match c with
  | .merged => mergedExtra ++ detachedDefaults
  | c => (defaults c).getD []

/-- What an option should be: as given, otherwise as by default. -/
def wanted (c : Cls) (kw : Kw) (k : Name) : Option Val := (get (known c) k).map fun v => (get kw k).getD v

theorem get_put (l : Kw) (k : Name) (v : Val) (k' : Name) : get (put l k v) k' = if k = k' then some v else get l k' := by
  induction l with
  | nil => simp [put, get]
  | cons p l ih =>
    obtain ⟨a, w⟩ := p
    rw [put]
    by_cases h : a = k
    · rw [if_pos h]; subst h
      by_cases h' : a = k' <;> simp [get, h']
    · rw [if_neg h]
      by_cases h' : a = k'
      · have : k ≠ k' := fun e => h (h'.trans e.symm)
        simp [get, h', this]
      · simp [get, h', ih]

theorem get_map (d : Kw) (f : Name → Val → Val) (k : Name) : get (d.map fun p => (p.1, f p.1 p.2)) k = (get d k).map (f k) := by
  induction d with
  | nil => rfl
  | cons p d ih =>
    obtain ⟨a, v⟩ := p
    by_cases h : a = k
    · subst h; simp [get]
    · simp [get, h, ih]

theorem get_filter (l : Kw) (f : Name → Bool) (k : Name) (h : f k = true) : get (l.filter fun p => f p.1) k = get l k := by
  induction l with
  | nil => rfl
  | cons p l ih =>
    obtain ⟨a, v⟩ := p
    by_cases ha : f a = true
    · by_cases h' : a = k
      · subst h'; simp [ha, get]
      · simp [ha, get, h', ih]
    · have : a ≠ k := by rintro rfl; exact ha h
      simp [ha, get, this, ih]

theorem get_mem (l : Kw) (k : Name) (v : Val) (h : get l k = some v) : (k, v) ∈ l := by
  induction l with
  | nil => simp [get] at h
  | cons p l ih =>
    obtain ⟨a, w⟩ := p
    by_cases ha : a = k
    · subst ha; simp [get] at h; subst h; simp
    · simp only [get, if_neg ha] at h
      exact List.mem_cons_of_mem _ (ih h)

theorem get_isSome (l : Kw) (k : Name) : (get l k).isSome = true ↔ k ∈ l.map (·.1) := by
  induction l with
  | nil => simp [get]
  | cons p l ih =>
    obtain ⟨a, w⟩ := p
    by_cases ha : a = k
    · subst ha; simp [get]
    · have : k ≠ a := fun e => ha e.symm
      simp only [get, if_neg ha, List.map_cons, List.mem_cons, this, false_or, ih]

theorem get_append (l m : Kw) (k : Name) : get (l ++ m) k = (get l k).or (get m k) := by
  induction l with
  | nil => simp [get]
  | cons p l ih =>
    obtain ⟨a, w⟩ := p
    by_cases ha : a = k
    · simp [get, ha]
    · simp [get, ha, ih]

theorem options_ok (d kw a : Kw) (h : options d kw = .ok a) : a = d.map fun p => (p.1, (get kw p.1).getD p.2) := by
  unfold options at h
  by_cases h0 : kw = []
  · rw [if_pos h0] at h
    subst h0
    injection h with h
    subst h
    simp [get]
  · rw [if_neg h0] at h
    split at h
    · exact (Except.ok.inj h).symm
    · cases h

theorem options_spec (d kw : Kw) :
    options d kw = if ∀ p ∈ kw, (get d p.1).isSome then .ok (d.map fun p => (p.1, (get kw p.1).getD p.2)) else .error .value := by
  unfold options
  by_cases h0 : kw = []
  · subst h0
    simp [get]
  · rw [if_neg h0]
    by_cases h : ∀ p ∈ kw, (get d p.1).isSome = true
    · rw [if_pos h, if_pos (List.all_eq_true.mpr h)]
    · rw [if_neg h, if_neg (fun h' => h (List.all_eq_true.mp h'))]

theorem options_get (d kw a : Kw) (h : options d kw = .ok a) (k : Name) : get a k = (get d k).map fun v => (get kw k).getD v := by
  rw [options_ok d kw a h]
  exact get_map d (fun k v => (get kw k).getD v) k

end Verif.StepOptions
