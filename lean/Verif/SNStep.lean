import Verif.GW
import Verif.SN
/-!
Model of the supernova step of `/repo/posydon/binary_evol/SN/step_SN.py`: `StepSN.__call__` (l.443-520), `_reset_other_star_properties`
(l.438-441), `collapse_star` (l.527-975) and the bookkeeping of `orbital_kick` (l.1458-2053); with `update_star_states`
(binarystar.py l.403-410), `check_state_of_star` (common_functions.py l.1052-1106), `CO_radius` (l.1302-1337), `Schwarzschild_Radius` (l.1367-1388) and
`convert_star_to_massless_remnant` (singlestar.py l.114-133).

Simplifications: floats are real numbers; of an attribute only its value or its being `None`/NaN is kept.  The remnant
(`PISN_prescription` and `compute_m_rembar`, modelled in `Verif.SN`), the collapse of a profile, the kick speed, the orbit after
the kick (modelled in `Verif.Kick`), the combination of two tilts and the classification of normal stars are functions given
from outside, which see one star, not its place in the binary.  A random number that would be drawn is a parameter.  A failed
collapse (`set_binary_to_failed`, l.464-466) is the error `model`; the message is not kept.  The mass of a white dwarf is a
number (a missing one is 0, which is an error here), and a bound binary whose orbit is not a number is an error.
-/
namespace Verif.SNStep
open Verif.Orbit (lg sepWind periodFromSep)
noncomputable section
open Classical

inductive Err
  | value | type | attribute | model
  deriving DecidableEq

/-- the value of an attribute -/
inductive Val
  | none | nan | num (x : ℝ) | str (s : String) | vec (x y z : ℝ)

/-- STARPROPERTIES, singlestar.py lines 40-111 -/
def starProps : List String :=
  ["state", "metallicity", "mass", "log_R", "log_L", "lg_mdot", "lg_system_mdot", "lg_wind_mdot", "he_core_mass",
   "he_core_radius", "c_core_mass", "c_core_radius", "o_core_mass", "o_core_radius", "co_core_mass", "co_core_radius",
   "center_h1", "center_he4", "center_c12", "center_n14", "center_o16", "surface_h1", "surface_he4", "surface_c12",
   "surface_n14", "surface_o16", "log_LH", "log_LHe", "log_LZ", "log_Lnuc", "c12_c12", "center_gamma", "avg_c_in_c_core",
   "surf_avg_omega", "surf_avg_omega_div_omega_crit", "total_moment_of_inertia", "log_total_angular_momentum", "spin",
   "conv_env_top_mass", "conv_env_bot_mass", "conv_env_top_radius", "conv_env_bot_radius", "conv_env_turnover_time_g",
   "conv_env_turnover_time_l_b", "conv_env_turnover_time_l_t", "envelope_binding_energy", "mass_conv_reg_fortides",
   "thickness_conv_reg_fortides", "radius_conv_reg_fortides", "lambda_CE_1cent", "lambda_CE_10cent", "lambda_CE_30cent",
   "lambda_CE_pure_He_star_10cent", "profile", "total_mass_h1", "total_mass_he4"]

/-- BINARYPROPERTIES, binarystar.py lines 88-118 -/
def binProps : List String :=
  ["state", "event", "time", "separation", "orbital_period", "eccentricity", "V_sys", "rl_relative_overflow_1",
   "rl_relative_overflow_2", "lg_mtransfer_rate", "mass_transfer_case", "trap_radius", "acc_radius", "t_sync_rad_1",
   "t_sync_conv_1", "t_sync_rad_2", "t_sync_conv_2", "nearest_neighbour_distance"]

/-- STAR_STATES_CC, flow_chart.py lines 105-116 -/
def statesCC : List String :=
  ["H-rich_Core_C_depleted", "H-rich_Core_He_depleted", "stripped_He_Core_He_depleted", "stripped_He_Core_C_depleted",
   "stripped_He_non_burning", "H-rich_non_burning", "H-rich_Shell_H_burning", "accreted_He_Shell_H_burning",
   "accreted_He_non_burning"]

/-- STAR_STATES_CO, flow_chart.py line 42 -/
def statesCO : List String := ["BH", "NS", "WD"]

/-- STAR_STATES_C_DEPLETED, flow_chart.py line 70 -/
def statesCDep : List String := ["H-rich_Core_C_depleted", "stripped_He_Core_C_depleted"]

/-- the dictionary of an interpolated supernova model (step_mesa.py l.1033-1047) -/
structure Interp where
  snType : String
  state : String
  mass : Option ℝ
  spin : Val
  fFb : Val
  diskAcc : Val
  diskRad : Val
  hEj : Val
  heEj : Val

/-- a star; `attr` are the STARPROPERTIES other than `state` and `mass`, `last…` the last entries of the histories -/
structure Star where
  state : String
  mass : ℝ
  attr : String → Val
  lastState : String
  lastMass : ℝ
  lastZ : Val
  interp : Option Interp
  snType : String
  fFb : Val
  diskAcc : Val
  diskRad : Val
  hEj : Val
  heEj : Val
  kickV : Option ℝ
  kickPhi : Option ℝ
  kickTheta : Option ℝ
  kickAnomaly : Option ℝ
  tilt1 : Val
  tilt2 : Val

/-- what `PISN_prescription` and `compute_m_rembar` leave behind: `star.SN_type` and the three returned values -/
structure Rem where
  snType : String
  m : Option ℝ
  f : Val
  state : String

/-- the part of the result of `do_core_collapse_BH` that is used -/
structure BHOut where
  mass : ℝ
  spin : Val
  diskAcc : Val
  diskRad : Val

/-- orbit before the kick, as read in l.1754-1780 -/
structure Pre where
  Mhe : ℝ
  Mcomp : ℝ
  Mco : ℝ
  sep : Val
  ecc : Val
  V : ℝ
  phi : ℝ
  cosθ : ℝ
  anomaly : ℝ

/-- orbit after the kick (l.1762-1982) -/
structure Post where
  survives : Bool
  sep : ℝ
  ecc : ℝ
  vx : ℝ
  vy : ℝ
  vz : ℝ
  tilt : ℝ
  nu : ℝ

/-- the settings of the step and the functions given from outside -/
structure Cfg where
  useInterp : Bool
  useProfiles : Bool
  useCoreMasses : Bool
  allowSpinNone : Bool
  kick : Bool
  /-- the model assumptions have a name (l.578-584) -/
  modelKnown : Bool
  /-- the mechanism is one of the engines (l.820-823), otherwise one of l.678-683 -/
  engine : Bool
  maxNS : ℝ
  maxNu : ℝ
  /-- `check_SN_type(...)[3]` -/
  typeOf : Star → Except Err String
  rem : Star → Except Err Rem
  /-- `do_core_collapse_BH(star, mass_collapsing, mass_central_BH, neutrino_mass_loss)` -/
  bh : Star → ℝ → ℝ → ℝ → BHOut
  /-- `get_ejecta_element_mass_at_collapse(star, mass)` -/
  ejecta : Star → ℝ → Val × Val
  /-- `generate_kick(star, sigma, mean)`, the arguments of the two kinds of calls -/
  genECSN : Star → Except Err ℝ
  genNS : Star → Except Err ℝ
  genBH : Star → Except Err ℝ
  genNone : Star → Except Err ℝ
  /-- `RNG.uniform` for the azimuth, the cosine of the polar angle and the mean anomaly -/
  uPhi : ℝ
  uCos : ℝ
  uAnomaly : ℝ
  orbit : Pre → Post
  /-- `get_combined_tilt(tilt_1, tilt_2, true_anomaly_1, true_anomaly_2)` -/
  combine : Val → ℝ → Val → ℝ → Except Err Val
  /-- `infer_star_state` of a star that is not a compact object -/
  classify : Star → String

def Star.set (s : Star) (k : String) (v : Val) : Star := { s with attr := fun x => if x = k then v else s.attr x }

/-- `for key in STARPROPERTIES: if key not in keep: setattr(star, key, None)` on the attributes other than `state` and `mass` -/
def Star.wipe (s : Star) (keep : List String) : Star :=
  { s with attr := fun x => if x ∈ starProps ∧ x ∉ keep then .none else s.attr x }

/-- `Schwarzschild_Radius`, common_functions.py line 1388 -/
def schwarzschild (M : ℝ) : ℝ := 2 * Orbit.cgrav * M * Orbit.Msun / (GW.clight ^ 2 * Orbit.Rsun)

/-- `CO_radius`, common_functions.py lines 1302-1337 -/
def coRadius (M : ℝ) (ty : String) : Except Err ℝ :=
  if M ≤ 0 then .error .value
  else if ty = "BH" then .ok (schwarzschild M)
  else if ty = "NS" then .ok (12.5e5 / Orbit.Rsun)
  else if ty = "WD" then .ok (2.9e8 * M ^ (-(1 : ℝ) / 3) / Orbit.Rsun)
  else .error .value

/-- `star.log_R = np.log10(CO_radius(star.mass, star.state))` -/
def setRadius (s : Star) : Except Err Star :=
  match coRadius s.mass s.state with
  | .error e => .error e
  | .ok r => .ok (s.set "log_R" (.num (lg r)))

/-- `star.center_he4 < THRESHOLD_CENTRAL_ABUNDANCE` -/
def heDepleted (s : Star) : Except Err Bool :=
  match s.attr "center_he4" with
  | .num x => .ok (decide (x < 1 / 100))
  | .nan => .ok false
  | _ => .error .type

/-- the loop over the properties for a white dwarf, l.641-654, 704-717 and 840-853 -/
def wipeWD (s : Star) : Except Err Star :=
  match heDepleted s with
  | .error e => .error e
  | .ok d =>
    .ok (((s.wipe ["state", "mass", "spin", "m_disk_accreted", "m_disk_radiated", "center_h1", "center_he4", "center_c12",
      "center_n14", "center_o16"]).set "he_core_mass" (.num s.mass)).set "co_core_mass" (if d then .num s.mass else .num 0))

/-- `convert_star_to_massless_remnant` -/
def toMassless (s : Star) : Star :=
  { s with attr := fun x => if x ∈ starProps then .nan else s.attr x, state := "massless_remnant", mass := 0 }

/-- l.783-788: the spin of a black hole from the angular momentum of the star -/
def spinFromJ (s : Star) (m : ℝ) : Except Err Val :=
  match s.attr "log_total_angular_momentum" with
  | .num j =>
    let a := (10 : ℝ) ^ j * GW.clight / (Orbit.cgrav * (m * Orbit.Msun) ^ 2)
    .ok (.num (if a > 1 then 1 else a))
  | .nan => .ok .nan
  | _ => .error .type

/-- the tests of l.610-634: is the interpolated model to be used?  `ty` is `check_SN_type(...)[3]`, `pty` the type of the model
after l.610-614. -/
def useModel (ty pty state : String) (mass : Option ℝ) : Bool :=
  if ty = "ECSN" then false
  else if ty ≠ pty then false
  else if !(SN.coMatch pty state) then false
  else mass.isSome

/-- l.637-674: the values of the interpolated model -/
def fromModel (s : Star) (p : Interp) (m : ℝ) : Except Err Star :=
  let s1 := { s with state := p.state, snType := p.snType, fFb := p.fFb, mass := m, diskAcc := p.diskAcc, diskRad := p.diskRad,
                     hEj := p.hEj, heEj := p.heEj }.set "spin" p.spin
  let s2 := if s1.state = "WD" then wipeWD s1
    else .ok (s1.wipe ["state", "mass", "spin", "m_disk_accreted", "m_disk_radiated"])
  match s2 with
  | .error e => .error e
  | .ok s2 => if s2.snType = "PISN" then .ok (toMassless s2) else setRadius s2

/-- l.965-975: end of the collapse to a neutron star or a black hole -/
def finish (s : Star) : Except Err Star :=
  match setRadius (s.set "metallicity" s.lastZ) with
  | .error e => .error e
  | .ok s => .ok (s.wipe ["state", "mass", "spin", "log_R", "metallicity", "m_disk_accreted", "m_disk_radiated", "co_core_mass"])

/-- l.738-764 and 874-907: the profile collapses.  `engine` tells the two copies apart: the first forms a black hole above
the limit, the second also needs the engine to have left a black hole, and fails if neither case applies. -/
def byProfile (c : Cfg) (s : Star) (m g : ℝ) : Except Err Star :=
  let dm := if m - g > c.maxNu then c.maxNu else m - g
  if g ≥ c.maxNS ∧ (c.engine = false ∨ s.state = "BH") then
    let o := c.bh s m (c.maxNS + dm) dm
    let s := { s with mass := o.mass, diskAcc := o.diskAcc, diskRad := o.diskRad, state := "BH" }.set "spin" o.spin
    .ok { s with hEj := (c.ejecta s s.mass).1, heEj := (c.ejecta s s.mass).2 }
  else if c.engine = false ∨ s.state = "NS" then
    let s := { s with mass := g, diskAcc := .num 0, diskRad := .num 0, state := "NS" }.set "spin" (.num 0)
    .ok { s with hEj := (c.ejecta s s.mass).1, heEj := (c.ejecta s s.mass).2 }
  else .error .model

/-- l.769-798 and 910-939: the cores collapse -/
def byCores (c : Cfg) (s : Star) (g : ℝ) : Except Err Star :=
  let s := { s with mass := g, diskAcc := .num 0, diskRad := .num 0, hEj := .nan, heEj := .nan }
  if g ≥ c.maxNS then
    match spinFromJ s g with
    | .error e => .error e
    | .ok a => .ok ({ s with state := "BH" }.set "spin" a)
  else .ok ({ s with state := "NS" }.set "spin" (.num 0))

/-- l.803-812 and 944-953: the cores collapse, spin unknown -/
def bySpinNone (c : Cfg) (s : Star) (g : ℝ) : Star :=
  { s with mass := g, diskAcc := .num 0, diskRad := .num 0, hEj := .nan, heEj := .nan,
           state := if g ≥ c.maxNS then "BH" else "NS" }.set "spin" .none

/-- l.678-959 and 965-975; `ty` is the local variable `SN_type` -/
def collapseCore (c : Cfg) (s : Star) (ty : String) : Except Err Star :=
  match c.rem s with
  | .error e => .error e
  | .ok r =>
    let s1 := { s with snType := r.snType, fFb := r.f }
    let s1 := if c.engine then { s1 with state := r.state } else s1
    if r.snType = "WD" then
      let s2 := { s1 with mass := r.m.getD 0, state := "WD" }.set "spin" (.num 0)
      match setRadius s2 with
      | .error e => .error e
      | .ok s2 => wipeWD s2
    else
      match r.m with
      | none => .ok (toMassless s1)
      | some m =>
        let g := SN.mGrav m c.maxNu
        let out : Except Err Star :=
          if c.useProfiles ∧ (∃ p, s.attr "profile" = .str p) then byProfile c s1 m g
          else if c.useCoreMasses ∨ ty = "ECSN" then byCores c s1 g
          else if c.allowSpinNone then .ok (bySpinNone c s1 g)
          else .error .model
        match out with
        | .error e => .error e
        | .ok s => finish s

/-- l.566-567: `None` becomes NaN -/
def noneToNan : Val → Val
  | .none => .nan
  | v => v

/-- l.565-567 -/
def enter (s : Star) : Star := { s with diskAcc := noneToNan s.diskAcc, diskRad := noneToNan s.diskRad }

/-- l.595-674 for the interpolated model `p`; `ty` is `check_SN_type(...)[3]` -/
def tryModel (c : Cfg) (s : Star) (p : Interp) (ty : String) : Except Err Star :=
  let pty := if p.snType = "ECSN" then ty else p.snType
  let s := { s with interp := some { p with snType := pty } }
  match useModel ty pty p.state p.mass, p.mass with
  | true, some m => fromModel s { p with snType := pty } m
  | _, _ => collapseCore c s ty

/-- `collapse_star`, l.527-975 -/
def collapse (c : Cfg) (s : Star) : Except Err Star :=
  if s.state ∈ statesCC then
    if c.useInterp then
      if !c.modelKnown then .error .value
      else
        match s.interp with
        | none => collapseCore c (enter s) ""
        | some p =>
          match c.typeOf (enter s) with
          | .error e => .error e
          | .ok ty => tryModel c (enter s) p ty
    else collapseCore c (enter s) ""
  else .error .model

/-! ### the binary -/

inductive Event
  | none | CC1 | CC2 | other (s : String)

/-- a binary; `attr` are the BINARYPROPERTIES other than `state` and `event`, and `inspiral_time` -/
structure Binary where
  s1 : Star
  s2 : Star
  state : String
  event : Event
  attr : String → Val
  lastTime : Val
  lastEcc : Val
  firstSN : Bool
  nu1 : Option Val
  nu2 : Option Val

def Binary.set (b : Binary) (k : String) (v : Val) : Binary := { b with attr := fun x => if x = k then v else b.attr x }

/-- `for key in BINARYPROPERTIES: if key not in keep: setattr(binary, key, None)` -/
def Binary.wipe (b : Binary) (keep : List String) : Binary :=
  { b with attr := fun x => if x ∈ binProps ∧ x ∉ keep then .none else b.attr x }

/-- `_reset_other_star_properties`, l.438-441 -/
def resetOther (s : Star) : Star := (s.set "lg_mdot" .none).set "lg_system_mdot" .none

/-- `infer_star_state(star_mass=m, star_CO=True)`, common_functions.py lines 1481-1494 -/
def coState (m : ℝ) : String :=
  if m ≤ 0 then "massless_remnant"
  else if m < 11 / 10 then "WD"
  else if m ≤ 5 / 2 then "NS"
  else "BH"

/-- `update_star_states` for one star, binarystar.py lines 405-407, with `check_state_of_star` -/
def updateState (c : Cfg) (s : Star) : Star :=
  if s.state = "massless_remnant" then s
  else if s.state ∈ statesCO then
    { s with state := if s.lastState = "WD" ∨ s.state = "WD" then "WD" else coState s.mass }
  else { s with state := c.classify s }

/-- `f(x)` for a float that may be NaN -/
def lift (f : ℝ → ℝ) : Val → Except Err Val
  | .num x => .ok (.num (f x))
  | .nan => .ok .nan
  | _ => .error .type

/-- `inspiral_timescale_from_separation` with an orbit that may be NaN -/
def inspiralV (m1 m2 : ℝ) (sep ecc : Val) : Except Err Val :=
  match sep, ecc with
  | .num a, .num e =>
    match GW.inspiral m1 m2 a e with
    | .ok t => .ok (.num t)
    | .error _ => .error .value
  | .none, _ => .error .type
  | _, .none => .error .type
  | _, _ => if m1 ≤ 0 ∨ m2 ≤ 0 then .error .value else .ok .nan

/-- l.1521, 1713 -/
def alone (state : String) : Bool := state = "disrupted" || state = "initially_single_star" || state = "merged"

/-- the white-dwarf case of `orbital_kick`, l.1507-1531 and 1613-1636; `x` is the star that collapsed, `y` the other one -/
def afterWD (b : Binary) (x y : Star) : Except Err Binary :=
  match lift (sepWind x.mass x.lastMass y.mass) (b.attr "separation") with
  | .error e => .error e
  | .ok sep =>
    match lift (fun a => periodFromSep a b.s1.mass b.s2.mass) sep with
    | .error e => .error e
    | .ok per =>
      let b := b.wipe ["V_sys", "nearest_neighbour_distance", "state"]
      let b := b.set "separation" sep
      let b := { b with state := if alone b.state then b.state else "detached", event := .none }
      let b := b.set "time" b.lastTime
      let b := b.set "eccentricity" b.lastEcc
      let b := b.set "orbital_period" per
      .ok (b.set "mass_transfer_case" (.str "None"))

/-- the kick speed, l.1548-1587 and 1654-1688; the branch for white dwarfs (l.1581) is not reached, as they are dealt with before (l.1506) -/
def kickSpeed (c : Cfg) (s : Star) : Except Err ℝ :=
  match s.kickV with
  | some v => .ok v
  | none =>
    if s.snType = "ECSN" then c.genECSN s
    else if s.snType = "CCSN" ∨ s.snType = "PPISN" ∨ s.snType = "PISN" then
      if s.state = "NS" then c.genNS s
      else if s.state = "BH" then c.genBH s
      else if s.state = "massless_remnant" then c.genNone s
      else .error .value
    else .error .value

/-- l.1536-1610 and 1641-1710: the star with its kick, and the cosine of the polar angle -/
def kicked (c : Cfg) (s : Star) : Except Err (Star × ℝ × ℝ × ℝ × ℝ) :=
  if s.lastState ∈ statesCC then
    match kickSpeed c s with
    | .error e => .error e
    | .ok v =>
      let phi := s.kickPhi.getD c.uPhi
      let cosθ := match s.kickTheta with | some t => Real.cos t | none => c.uCos
      let theta := match s.kickTheta with | some t => t | none => Real.arccos c.uCos
      let anom := s.kickAnomaly.getD c.uAnomaly
      .ok ({ s with kickV := some v, kickPhi := some phi, kickTheta := some theta, kickAnomaly := some anom }, v, phi, cosθ, anom)
  else .error .value

/-- l.1721-1727 and the like: no orbit is left -/
def noOrbit (b : Binary) : Binary :=
  let b := { b with event := .none }
  let b := b.set "separation" .nan
  let b := b.set "eccentricity" .nan
  let b := b.set "V_sys" (.vec 0 0 0)
  let b := b.set "time" b.lastTime
  let b := b.set "orbital_period" .nan
  b.set "mass_transfer_case" (.str "None")

/-- l.1734-1740 and 2037-2043: tilts of a binary that does not survive -/
def tiltsNan (b : Binary) : Binary :=
  if !b.firstSN then
    { b with s1 := { b.s1 with tilt1 := .nan }, s2 := { b.s2 with tilt1 := .nan }, firstSN := true }
  else { b with s1 := { b.s1 with tilt2 := .nan }, s2 := { b.s2 with tilt2 := .nan } }

/-- l.1991-2019: tilts of a binary that survives -/
def tilts (c : Cfg) (b : Binary) (tilt nu : ℝ) : Except Err Binary :=
  if !b.firstSN then
    .ok { b with s1 := { b.s1 with tilt1 := .num tilt }, s2 := { b.s2 with tilt1 := .num tilt }, nu1 := some (.num nu),
                 firstSN := true }
  else
    match b.nu1 with
    | none => .error .attribute
    | some n1 =>
      match b.event with
      | .CC2 =>
        match c.combine b.s1.tilt1 tilt n1 nu with
        | .error e => .error e
        | .ok t => .ok { b with s2 := { b.s2 with tilt2 := .num tilt }, s1 := { b.s1 with tilt2 := t }, nu2 := some (.num nu) }
      | .CC1 =>
        match c.combine b.s1.tilt1 tilt n1 nu with
        | .error e => .error e
        | .ok t => .ok { b with s1 := { b.s1 with tilt2 := .num tilt }, s2 := { b.s2 with tilt2 := t }, nu2 := some (.num nu) }
      | _ => .error .value

/-- l.1713-2053 -/
def afterKick (c : Cfg) (b : Binary) (p : Pre) : Except Err Binary :=
  if alone b.state then
    .ok { noOrbit (b.wipe ["nearest_neighbour_distance", "state"]) with firstSN := true }
  else if b.s1.state = "massless_remnant" ∨ b.s2.state = "massless_remnant" then
    .ok (noOrbit { tiltsNan b with state := "disrupted" })
  else
    match p.sep, p.ecc with
    | .num _, .num _ =>
      let o := c.orbit p
      let b := b.wipe ["nearest_neighbour_distance", "event"]
      if o.survives then
        match tilts c b o.tilt o.nu with
        | .error e => .error e
        | .ok b =>
          let b := { b with state := "detached", event := .none }
          let b := b.set "separation" (.num o.sep)
          let b := b.set "eccentricity" (.num o.ecc)
          let b := b.set "V_sys" (.vec o.vx o.vy o.vz)
          let b := b.set "time" b.lastTime
          let b := b.set "orbital_period" (.num (periodFromSep o.sep b.s1.mass b.s2.mass))
          .ok (b.set "mass_transfer_case" (.str "None"))
      else .ok (noOrbit { tiltsNan b with state := "disrupted" })
    | _, _ => .error .type

/-- `orbital_kick`, l.1458-2053 -/
def orbitalKick (c : Cfg) (b : Binary) : Except Err Binary :=
  match b.event with
  | .CC1 =>
    if b.s1.snType = "WD" then afterWD b b.s1 b.s2
    else
      match kicked c b.s1 with
      | .error e => .error e
      | .ok (s, v, phi, cosθ, anom) =>
        afterKick c { b with s1 := s }
          ⟨s.lastMass, b.s2.mass, s.mass, b.attr "separation", b.attr "eccentricity", v, phi, cosθ, anom⟩
  | .CC2 =>
    if b.s2.snType = "WD" then afterWD b b.s2 b.s1
    else
      match kicked c b.s2 with
      | .error e => .error e
      | .ok (s, v, phi, cosθ, anom) =>
        afterKick c { b with s2 := s }
          ⟨s.lastMass, b.s1.mass, s.mass, b.attr "separation", b.attr "eccentricity", v, phi, cosθ, anom⟩
  | _ => .error .value

/-- l.490-499: no kick is asked for.  The masses are those of star 1, whichever star collapsed. -/
def noKick (b : Binary) : Except Err Binary :=
  match lift (sepWind b.s1.mass b.s1.lastMass b.s2.mass) (b.attr "separation") with
  | .error e => .error e
  | .ok sep =>
    match lift (fun a => periodFromSep a b.s1.mass b.s2.mass) sep with
    | .error e => .error e
    | .ok per => .ok { ((b.set "separation" sep).set "orbital_period" per) with event := .none, state := "detached" }

/-- l.503-517: the time to merge, and the collapse of the other star -/
def closing (b : Binary) : Except Err Binary :=
  if b.state = "disrupted" ∨ b.s1.state = "massless_remnant" ∨ b.s2.state = "massless_remnant" then
    .ok (b.set "inspiral_time" .nan)
  else if b.s1.state ∈ statesCO ∧ b.s2.state ∈ statesCO then
    match inspiralV b.s1.mass b.s2.mass (b.attr "separation") (b.attr "eccentricity") with
    | .error e => .error e
    | .ok t => .ok (b.set "inspiral_time" t)
  else if b.s1.state ∈ statesCO ∧ b.s2.state ∈ statesCDep then .ok { b with event := .CC2 }
  else if b.s1.state ∈ statesCDep ∧ b.s2.state ∈ statesCO then .ok { b with event := .CC1 }
  else .ok b

/-- l.461-482: the collapse and the update of the states -/
def collapsed (c : Cfg) (b : Binary) : Except Err Binary :=
  match b.event with
  | .CC1 =>
    match collapse c b.s1 with
    | .error e => .error e
    | .ok s => .ok { b with s1 := updateState c s, s2 := updateState c (resetOther b.s2) }
  | .CC2 =>
    match collapse c b.s2 with
    | .error e => .error e
    | .ok s => .ok { b with s1 := updateState c (resetOther b.s1), s2 := updateState c s }
  | _ => .error .value

/-- `StepSN.__call__`, l.443-520 -/
def step (c : Cfg) (b : Binary) : Except Err Binary :=
  match collapsed c b with
  | .error e => .error e
  | .ok b =>
    match (if c.kick then orbitalKick c b else noKick b) with
    | .error e => .error e
    | .ok b => closing b

/-! ### Specification -/

/-- The name of a binary property after the stars have changed places. -/
def mirrorKey (k : String) : String :=
  if k = "rl_relative_overflow_1" then "rl_relative_overflow_2"
  else if k = "rl_relative_overflow_2" then "rl_relative_overflow_1"
  else if k = "t_sync_rad_1" then "t_sync_rad_2"
  else if k = "t_sync_rad_2" then "t_sync_rad_1"
  else if k = "t_sync_conv_1" then "t_sync_conv_2"
  else if k = "t_sync_conv_2" then "t_sync_conv_1"
  else k

def Event.mirror : Event → Event
  | .CC1 => .CC2
  | .CC2 => .CC1
  | e => e

/-- The same binary with the stars in the other order. -/
def Binary.mirror (b : Binary) : Binary :=
  { b with s1 := b.s2, s2 := b.s1, event := b.event.mirror, attr := fun k => b.attr (mirrorKey k) }

/-- The result of a step, with the stars in the other order. -/
def mirrorR : Except Err Binary → Except Err Binary
  | .ok b => .ok b.mirror
  | .error e => .error e

end
end Verif.SNStep
