import Verif.Orbit
import Verif.FlowChart
/-!
Model of the common-envelope step, `StepCEE` of `/repo/posydon/binary_evol/CE/step_CEE.py`: `__call__` (l.163-226),
`calculate_lambda_CE` (l.228-370), `CEE_adjust_post_CE_core_masses` (l.372-466), the three options after a successful ejection
(l.468-550, 552-667, 669-781), `CEE_simple_alpha_prescription` (l.783-987), `CEE_adjust_binary_upon_ejection` (l.991-1187),
`CEE_adjust_mass_loss_during_CEE_merged` (l.1189-1347), `CEE_adjust_binary_upon_merger` (l.1349-1403) and `adjust_secondary_radius`
(l.1405-1474).

Simplifications: floats are real numbers, NaN is `none` where a branch depends on it; a star carries its radius instead of its
logarithm (`10**log_R`); the binding-energy integrals of a profile, the matching to a single-star track and the classification of a
star are parameters of the configuration; warnings and printing are left out. Attributes of a star or binary that the step only keeps
or wipes are collected in `rest`.
-/
namespace Verif.CE
open Verif.FlowChart (BState Ev starPostMS starPostHeMS starCO starHRich starHeRich)
open Verif.Orbit (cgrav Msun Rsun)

noncomputable section
open Classical

abbrev SState := FlowChart.Star

inductive Err
  | value      -- the ValueErrors of the step
  | unbound    -- UnboundLocalError
  | zero       -- ZeroDivisionError
  | other      -- raised by the track matching or the profile integration
  deriving DecidableEq

/-- `donor_type` / `comp_type`. -/
inductive CoreType
  | he | co | notGiant
  deriving DecidableEq

/-- The tabulated core fractions of `lambda_from_grid_final_values`. -/
inductive Frac
  | h1 | h10 | h30 | he10
  deriving DecidableEq

structure Star where
  state : SState
  mass : ℝ
  radius : Option ℝ
  heM : ℝ
  heR : Option ℝ
  coM : ℝ
  coR : Option ℝ
  surfH : ℝ
  surfHe : ℝ
  logLH : ℝ
  logLHe : ℝ
  metallicity : Option ℝ
  hasProfile : Bool
  lam : Frac → Option ℝ      -- lambda_CE_… of the grid
  mcore : Frac → ℝ           -- m_core_CE_…
  rcore : Frac → ℝ           -- r_core_CE_…
  co : Bool
  rest : String → Option ℝ

structure Binary where
  star1 : Star
  star2 : Star
  state : BState
  event : Ev
  sep : ℝ
  per : ℝ
  ecc : ℝ
  rest : String → Option ℝ

/-- `common_envelope_option_for_lambda`. -/
inductive LamOpt
  | default | grid | profile | invalid
  deriving DecidableEq

/-- `common_envelope_option_after_succ_CEE`. -/
inductive After
  | onePhase | stableMT | windloss | invalid
  deriving DecidableEq

structure Cfg where
  alphaLambda : Bool          -- prescription == 'alpha-lambda'
  alpha : ℝ
  lambdaDefault : ℝ
  lamOpt : LamOpt
  pessimistic : Bool
  coreH : ℝ
  coreHe : ℝ
  tol : ℝ
  after : After
  massLoss : Bool
  profileLambda : Star → ℝ → Except Err (Option ℝ × ℝ × ℝ)   -- calculate_lambda_from_profile
  ejected : Star → ℝ → ℝ → ℝ → ℝ                              -- calculate_Mejected_for_integrated_binding_energy
  matched : Star → Except Err (Option ℝ)                      -- radius of the matched single star, `none` if there is no interpolant
  classify : Star → SState                                    -- check_state_of_star

/-- `10**log_R` as a number (0 stands for NaN, which no branch of the step tests). -/
def Star.R (s : Star) : ℝ := s.radius.getD 0

/-! ### Binding energy parameter and core, l.228-370 -/

/-- l.258-272. -/
def coreType (cfg : Cfg) (s : Star) : Except Err (CoreType × ℝ) :=
  if starPostMS.contains s.state then
    if cfg.coreH = 0.01 ∨ cfg.coreH = 0.1 ∨ cfg.coreH = 0.3 then .ok (.he, cfg.coreH) else .error .value
  else if starPostHeMS.contains s.state then
    if cfg.coreHe ≠ 0.1 then .error .value else .ok (.co, cfg.coreHe)
  else .error .value

/-- l.276-284 and l.334-342. -/
def coreValues (s : Star) : CoreType → Except Err (ℝ × ℝ)
  | .he => .ok (s.heM, s.heR.getD 0)
  | .co => .ok (s.coM, s.coR.getD 0)
  | .notGiant => .error .value

/-- l.287-313. -/
def gridFrac (frac : ℝ) : CoreType → Except Err Frac
  | .co => if frac = 0.1 then .ok .he10 else .error .value
  | .he => if frac = 0.01 then .ok .h1 else if frac = 0.1 then .ok .h10 else if frac = 0.3 then .ok .h30 else .error .value
  | .notGiant => .error .value

structure Lam where
  lam : Option ℝ
  mc : ℝ
  rc : ℝ
  ty : CoreType

/-- The three ways to get the parameter, l.274-368. -/
def lamValues (cfg : Cfg) (s : Star) (ty : CoreType) (frac : ℝ) : Except Err Lam :=
  if cfg.lamOpt = .default then
    match coreValues s ty with
    | .ok (m, r) => .ok ⟨some cfg.lambdaDefault, m, r, ty⟩
    | .error e => .error e
  else if cfg.lamOpt = .grid then
    match gridFrac frac ty with
    | .ok f => .ok ⟨s.lam f, s.mcore f, s.rcore f, ty⟩
    | .error e => .error e
  else if s.hasProfile = false then
    match coreValues s ty with
    | .ok (m, r) => .ok ⟨some cfg.lambdaDefault, m, r, ty⟩
    | .error e => .error e
  else if cfg.lamOpt = .invalid then .error .value
  else
    match cfg.profileLambda s frac with
    | .ok (l, m, r) => .ok ⟨l, m, r, ty⟩
    | .error e => .error e

/-- `calculate_lambda_CE`, l.228-370. -/
def lambdaCE (cfg : Cfg) (s : Star) : Except Err Lam :=
  match coreType cfg s with
  | .ok (ty, frac) => lamValues cfg s ty frac
  | .error e => .error e

/-! ### Cores after the envelope is gone -/

structure Cores where
  m1 : ℝ
  r1 : ℝ
  m2 : ℝ
  r2 : ℝ

/-- l.436-455: the companion of a double common envelope. Note l.438 and l.441: the radius is the donor's. -/
def compCore (donor comp : Star) (mc2i : ℝ) : CoreType → ℝ × ℝ
  | .he => (min comp.heM mc2i, donor.heR.getD 0)
  | .co => (min comp.coM mc2i, donor.coR.getD 0)
  | .notGiant => (min comp.mass mc2i, comp.R)

/-- `CEE_adjust_post_CE_core_masses`, l.372-466. -/
def postCores (donor : Star) (mc1i : ℝ) (ty1 : CoreType) (comp : Star) (mc2i rc2i : ℝ) (ty2 : CoreType) (double : Bool) : Except Err Cores :=
  match coreValues donor ty1 with
  | .error e => .error e
  | .ok (m, r) =>
    let c2 := if double then compCore donor comp mc2i ty2 else (mc2i, rc2i)
    .ok ⟨min m mc1i, r, c2.1, c2.2⟩

/-- The outcome of the envelope phase. -/
structure Phase where
  c : Cores
  sep : ℝ
  per : ℝ
  merger : Bool

/-- `CEE_one_phase_variable_core_definition`, l.517-550; `a` is the separation after the fast phase in solar radii. -/
def onePhase (cfg : Cfg) (mc1i rc1i mc2i rc2i a : ℝ) : Phase :=
  ⟨⟨mc1i, rc1i, mc2i, rc2i⟩, a, Orbit.periodFromSep a mc1i mc2i, Orbit.checkRLO mc1i rc1i mc2i rc2i a cfg.tol⟩

def liftOrbit (r : Except Orbit.Err ℝ) : Except Err ℝ :=
  match r with
  | .ok x => .ok x
  | .error _ => .error .value

/-- l.652-656 and l.766-770: the separation that goes with the final period and the second check. -/
def closeOrbit (cfg : Cfg) (c : Cores) (per : ℝ) : Phase :=
  ⟨c, Orbit.sepFromPeriod per c.m1 c.m2, per, Orbit.checkRLO c.m1 c.r1 c.m2 c.r2 (Orbit.sepFromPeriod per c.m1 c.m2) cfg.tol⟩

/-- l.750-759: the period after the remaining layers are lost in a wind. -/
def windPeriod (p mc1i mc1f mc2i mc2f : ℝ) (double : Bool) : Except Err ℝ :=
  match Orbit.periodMT p mc1i mc1f mc2i 1 0 with
  | .error _ => .error .value
  | .ok q => if double then liftOrbit (Orbit.periodMT q mc2i mc2f mc1f 1 0) else .ok q

/-- `CEE_two_phases_windloss`, l.719-781. -/
def windloss (cfg : Cfg) (donor : Star) (mc1i : ℝ) (ty1 : CoreType) (comp : Star) (mc2i rc2i : ℝ) (ty2 : CoreType) (double : Bool) (a : ℝ) :
    Except Err Phase :=
  match postCores donor mc1i ty1 comp mc2i rc2i ty2 double with
  | .error e => .error e
  | .ok c =>
    if Orbit.checkRLO mc1i c.r1 mc2i c.r2 a cfg.tol then
      .ok ⟨⟨mc1i, c.r1, mc2i, c.r2⟩, a, Orbit.periodFromSep a mc1i mc2i, true⟩
    else
      match windPeriod (Orbit.periodFromSep a mc1i mc2i) mc1i c.m1 mc2i c.m2 double with
      | .error e => .error e
      | .ok p => .ok (closeOrbit cfg c p)

/-- `CEE_two_phases_stableMT`, l.601-667. -/
def stableMT (cfg : Cfg) (donor : Star) (mc1i : ℝ) (ty1 : CoreType) (comp : Star) (mc2i rc2i : ℝ) (ty2 : CoreType) (double : Bool) (a : ℝ) :
    Except Err Phase :=
  if double then windloss cfg donor mc1i ty1 comp mc2i rc2i ty2 double a
  else
    match postCores donor mc1i ty1 comp mc2i rc2i ty2 double with
    | .error e => .error e
    | .ok c =>
      if Orbit.checkRLO mc1i c.r1 mc2i c.r2 a cfg.tol then
        .ok ⟨⟨mc1i, c.r1, mc2i, c.r2⟩, a, Orbit.periodFromSep a mc1i mc2i, true⟩
      else
        match liftOrbit (Orbit.periodMT (Orbit.periodFromSep a mc1i mc2i) mc1i c.m1 mc2i 0 1) with
        | .error e => .error e
        | .ok p => .ok (closeOrbit cfg c p)

/-! ### Energies, l.888-912 -/

/-- Binding energy of an envelope, l.891-893; NaN gives nothing. -/
def bind (lam : Option ℝ) (m mc r : ℝ) : ℝ :=
  match lam with
  | none => 0
  | some l => -cgrav / l * (m * Msun * (m - mc) * Msun) / (r * Rsun)

/-- Orbital energy, l.901-902. -/
def eorb (m1 m2 a : ℝ) : ℝ := -0.5 * cgrav * m1 * Msun * m2 * Msun / a

/-- Separation in cm before, l.899-900. -/
def sepBefore (per m1 m2 : ℝ) : ℝ := Rsun * Orbit.sepFromPeriod per m1 m2

/-- Binding energy of the envelopes that are lost, l.888-897. -/
def ebind (donor comp : Star) (l1 l2 : Lam) (double : Bool) : ℝ :=
  bind l1.lam donor.mass l1.mc donor.R + if double then bind l2.lam comp.mass l2.mc comp.R else 0

/-- l.905-908: separation in cm after the fast phase. -/
def sepPost (alpha e0 eb mc1 mc2 : ℝ) : ℝ := -0.5 * cgrav * mc1 * Msun * mc2 * Msun / (e0 + eb / alpha)

/-! ### Outcomes -/

def keptStar : List String :=
  ["center_h1", "center_he4", "center_c12", "center_o16", "center_n14", "log_LZ", "log_Lnuc", "c12_c12", "center_gamma", "avg_c_in_c_core"]
def keptBinary : List String := ["time", "V_sys", "mass_transfer_case", "nearest_neighbour_distance"]

def wipe (kept : List String) (f : String → Option ℝ) : String → Option ℝ := fun k => if k ∈ kept then f k else none

/-- l.1108-1157, before the classification. -/
def strip (cfg : Cfg) (ty : CoreType) (m r : ℝ) (s : Star) : Star :=
  let s := { s with mass := m, radius := some r }
  match ty with
  | .he =>
    let h := if cfg.after = .onePhase then cfg.coreH else 0.01
    { s with surfH := h, surfHe := 1 - h - (match s.metallicity with | none => 1 | some z => z) * 0.0142, heM := m, heR := some r, logLH := -1e99 }
  | .co =>
    { s with heM := m, heR := some r, coM := m, coR := some r, surfH := 0, surfHe := if cfg.after = .onePhase then cfg.coreHe else 0.1,
             logLH := -1e99, logLHe := -1e99 }
  | .notGiant => s

/-- One star of the loop l.1098-1186. -/
def stripped (cfg : Cfg) (ty : CoreType) (m r : ℝ) (s : Star) : Star :=
  let s' := strip cfg ty m r s
  if ty = .notGiant then s'
  else { s' with state := cfg.classify s', lam := fun _ => none, mcore := fun _ => 0, rcore := fun _ => 0, hasProfile := false,
                 rest := wipe keptStar s'.rest }

/-- The two stars in the order donor, companion, and back. -/
def assemble (one : Bool) (b : Binary) (donor comp : Star) : Binary :=
  if one then { b with star1 := donor, star2 := comp } else { b with star1 := comp, star2 := donor }

/-- `CEE_adjust_binary_upon_ejection`, l.1043-1187; `one`: the donor is star 1. -/
def ejection (cfg : Cfg) (one : Bool) (b : Binary) (donor comp : Star) (ty1 ty2 : CoreType) (double : Bool) (p : Phase) : Binary :=
  let ev := if donor.state = .sCoreHeDep then (if one then Ev.CC1 else Ev.CC2) else Ev.none
  let b := { b with sep := p.sep, per := p.per, ecc := 0, state := .detached, event := ev, rest := wipe keptBinary b.rest }
  assemble one b (stripped cfg ty1 p.c.m1 p.c.r1 donor) (if double then stripped cfg ty2 p.c.m2 p.c.r2 comp else comp)

/-- l.1382-1386: the event of a merger. -/
def mergeEvent (e : Ev) : Ev :=
  match e with
  | .oCE1 | .oDoubleCE1 => .oMerging1
  | .oCE2 | .oDoubleCE2 => .oMerging2
  | e => e

/-- l.1392-1401. -/
def reduce (ty : CoreType) (m ej : ℝ) (s : Star) : Star :=
  let s := { s with mass := m - ej, radius := none }
  if ty = .co then { s with heM := m - ej, heR := none } else s

/-- `CEE_adjust_binary_upon_merger`, l.1349-1403. -/
def merge (one : Bool) (b : Binary) (donor comp : Star) (ty1 ty2 : CoreType) (ej1 ej2 : ℝ) : Binary :=
  assemble one { b with state := .merged, event := mergeEvent b.event } (reduce ty1 donor.mass ej1 donor) (reduce ty2 comp.mass ej2 comp)

/-- Clamp of l.1328-1338. -/
def clampEj (ej env : ℝ) : ℝ := if ej > env then env - 0.01 else ej

/-- l.1270-1274: separation in cm at which the first core fills its Roche lobe (0 for a NaN lobe). -/
def sepMerger (mc1 rc1 mc2 rc2 : ℝ) : ℝ :=
  max (rc1 / (Orbit.rocheLobe mc1 mc2 1).getD 0) (rc2 / (Orbit.rocheLobe mc2 mc1 1).getD 0) * Rsun

/-- `CEE_adjust_mass_loss_during_CEE_merged`, l.1189-1347. In a single common envelope with a profile the names tested at l.1328 were
never assigned. -/
def massLost (cfg : Cfg) (donor comp : Star) (l1 : Lam) (mc2 rc2 sepi : ℝ) (double : Bool) : Except Err (ℝ × ℝ) :=
  if double = false ∧ donor.hasProfile = false then .ok (0, 0)
  else if double = true ∧ (donor.hasProfile = false ∨ comp.hasProfile = false) then .ok (0, 0)
  else
    let released := cfg.alpha * (eorb donor.mass comp.mass sepi - eorb l1.mc mc2 (sepMerger l1.mc l1.rc mc2 rc2))
    if double = false then .error .unbound
    else
      let env1 := donor.mass - l1.mc
      let env2 := comp.mass - mc2
      if env1 + env2 = 0 then .error .zero
      else
        let w := env1 / (env1 + env2)
        .ok (clampEj (cfg.ejected donor (released * w) l1.mc l1.rc) env1, clampEj (cfg.ejected comp (released * (1 - w)) mc2 rc2) env2)

/-- `adjust_secondary_radius`, l.1436-1474: the radius to use for the companion. -/
def compRadius (cfg : Cfg) (comp : Star) (mc1 mc2 rc1 rc2 a : ℝ) : Except Err ℝ :=
  let rl1 := Orbit.rocheLobe mc1 mc2 a
  let rl2 := Orbit.rocheLobe mc2 mc1 a
  if Orbit.below rc1 rl1 cfg.tol ∧ (match rl2 with | some x => rc2 - x > cfg.tol | none => False) then
    if starHRich.contains comp.state ∨ starHeRich.contains comp.state then
      match cfg.matched comp with
      | .error e => .error e
      | .ok (some r) => .ok r
      | .ok none => .ok rc2
    else .error .value
  else .ok rc2

/-- l.923-924: the companion (its flag `co` is cleared) and the radius of its core. -/
def companion (cfg : Cfg) (comp : Star) (l1 l2 : Lam) (double : Bool) (a : ℝ) : Except Err (Star × ℝ) :=
  if double = false ∧ starCO.contains comp.state = false then
    match compRadius cfg comp l1.mc l2.mc l1.rc l2.rc a with
    | .ok r => .ok ({ comp with co := false }, r)
    | .error e => .error e
  else .ok (comp, l2.rc)

/-- l.928-956. -/
def phase (cfg : Cfg) (donor comp : Star) (l1 l2 : Lam) (rc2 : ℝ) (double : Bool) (a : ℝ) : Except Err Phase :=
  match cfg.after with
  | .onePhase => .ok (onePhase cfg l1.mc l1.rc l2.mc rc2 a)
  | .stableMT => stableMT cfg donor l1.mc l1.ty comp l2.mc rc2 l2.ty double a
  | .windloss => windloss cfg donor l1.mc l1.ty comp l2.mc rc2 l2.ty double a
  | .invalid => .error .value

/-- l.960-985. -/
def resolve (cfg : Cfg) (one : Bool) (b : Binary) (donor comp : Star) (l1 l2 : Lam) (rc2 : ℝ) (double : Bool) (p : Phase) : Except Err Binary :=
  if p.merger then
    if cfg.massLoss then
      match massLost cfg donor comp l1 l2.mc rc2 (sepBefore b.per donor.mass comp.mass) double with
      | .error e => .error e
      | .ok (e1, e2) => .ok (merge one b donor comp l1.ty l2.ty e1 e2)
    else .ok (merge one b donor comp l1.ty l2.ty 0 0)
  else .ok (ejection cfg one b donor comp l1.ty l2.ty double p)

/-- Separation in cm after the fast phase, for the binary's data, l.888-908. -/
def sepAfter (cfg : Cfg) (b : Binary) (donor comp : Star) (l1 l2 : Lam) (double : Bool) : ℝ :=
  sepPost cfg.alpha (eorb donor.mass comp.mass (sepBefore b.per donor.mass comp.mass)) (ebind donor comp l1 l2 double) l1.mc l2.mc

/-- `CEE_simple_alpha_prescription`, l.868-987. -/
def simpleAlpha (cfg : Cfg) (one : Bool) (b : Binary) (donor comp : Star) (l1 l2 : Lam) (double : Bool) : Except Err Binary :=
  let s := sepAfter cfg b donor comp l1 l2 double
  if s < -cfg.tol then .error .value
  else
    match companion cfg comp l1 l2 double (s / Rsun) with
    | .error e => .error e
    | .ok (comp', rc2) =>
      match phase cfg donor comp' l1 l2 rc2 double (s / Rsun) with
      | .error e => .error e
      | .ok p => resolve cfg one b donor comp' l1 l2 rc2 double p

/-- The parameters of the companion, l.206-213. -/
def compLam (cfg : Cfg) (comp : Star) (double : Bool) : Except Err Lam :=
  if double then lambdaCE cfg comp else .ok ⟨none, comp.mass, comp.R, .notGiant⟩

/-- l.188-193. -/
def mergesAtOnce (cfg : Cfg) (donor : Star) : Bool :=
  donor.state == .hCoreH || donor.state == .sCoreHe || donor.state == .aCoreHe || (cfg.pessimistic && donor.state == .hShellH)

/-- l.188-226 for a donor and companion. -/
def run (cfg : Cfg) (one double : Bool) (b : Binary) (donor comp : Star) : Except Err Binary :=
  if mergesAtOnce cfg donor then .ok { b with state := .merged, event := if one then .oMerging1 else .oMerging2 }
  else if cfg.alphaLambda then
    match lambdaCE cfg donor with
    | .error e => .error e
    | .ok l1 =>
      match compLam cfg comp double with
      | .error e => .error e
      | .ok l2 => simpleAlpha cfg one b donor comp l1 l2 double
  else .error .value

/-- `__call__`, l.163-226. -/
def step (cfg : Cfg) (b : Binary) : Except Err Binary :=
  match b.event with
  | .oCE1 => run cfg true false b b.star1 b.star2
  | .oDoubleCE1 => run cfg true true b b.star1 b.star2
  | .oCE2 => run cfg false false b b.star2 b.star1
  | .oDoubleCE2 => run cfg false true b b.star2 b.star1
  | _ => .error .value

/-! ### Specification -/

/-- Newtonian energy of two masses (in solar masses) on an orbit of `a` cm. -/
def newton (m1 m2 a : ℝ) : ℝ := -(cgrav * (m1 * Msun) * (m2 * Msun)) / (2 * a)

/-- Energy needed to unbind an envelope of mass `m - mc` of a star of mass `m` and radius `r`, with structure parameter `l`. -/
def unbind (l m mc r : ℝ) : ℝ := cgrav * (m * Msun) * ((m - mc) * Msun) / (l * (r * Rsun))

def Binary.mirror (b : Binary) : Binary :=
  { b with star1 := b.star2, star2 := b.star1, state := b.state.mirror, event := b.event.mirror }

def mirrorR (r : Except Err Binary) : Except Err Binary :=
  match r with
  | .ok b => .ok b.mirror
  | .error e => .error e

end
end Verif.CE
