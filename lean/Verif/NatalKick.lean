import Mathlib.Analysis.SpecialFunctions.Pow.Real
import Mathlib.Analysis.SpecialFunctions.Trigonometric.Inverse
/-!
Model of how a natal kick is chosen, `/repo/posydon/binary_evol/SN/step_SN.py`: the options for kicks in `StepSN.__init__`
(l.266-291), the kick of the collapsing star in `StepSN.orbital_kick` (l.1548-1610 for the first, 1654-1710 for the second
star), `generate_kick` (l.2059-2117), `_get_kick_velocity` (l.2119-2176) and `_get_kick_normalisation` (l.2178-2215).

Simplification: floats are reals; the random draws are parameters, one for each call in the code; the values read from a star
are numbers except those that the code compares with `None`.
-/
namespace Verif.NatalKick

open Real

inductive Presc
  | maxwellian | logNormal | asymEj | linear | other
  deriving DecidableEq

inductive Norm
  | fallback | overMass | nsFallback | one | zero | asymEj | linear | other
  deriving DecidableEq

inductive Err
  | prescription | normalisation | snType | state | anomaly | noGenerator
  deriving DecidableEq

/-- The options: `rng` tells whether there is a generator of random numbers. -/
structure Opt where
  norm : Norm
  presc : Presc
  sigmaNS : Option ℝ
  meanNS : Option ℝ
  sigmaBH : Option ℝ
  meanBH : Option ℝ
  sigmaEC : Option ℝ
  meanEC : Option ℝ
  rng : Bool

/-- The defaults, l.250-259. -/
def defaults : Opt := ⟨.overMass, .maxwellian, some 265, none, some 265, none, some 20, none, false⟩

/-- l.284-291: the names that used to be normalisations. -/
def rename (o : Opt) : Opt :=
  match o.norm with
  | .asymEj => { o with presc := .asymEj, norm := .one }
  | .linear => { o with presc := .linear, norm := .one }
  | _ => o

/-- `__init__`, l.269-291: with any parameter there is a generator, without one the default `None` stays. -/
def init : Option Opt → Opt
  | none => rename defaults
  | some o => rename { o with rng := true }

inductive St
  | NS | BH | massless | other
  deriving DecidableEq

inductive SN
  | ECSN | CCSN | PPISN | PISN | WD | other
  deriving DecidableEq

/-- The mean anomaly a star comes with: none, a float, something else. -/
inductive Anomaly
  | unset
  | num (x : ℝ)
  | other

/-- The collapsed star. `lastMass` and `lastCO` are the last entries of the histories of its mass and its core mass. -/
structure Star where
  st : St
  sn : SN
  mass : ℝ
  fFb : ℝ
  lastMass : ℝ
  lastCO : ℝ
  vel : Option ℝ
  phi : Option ℝ
  polar : Option ℝ
  anomaly : Anomaly

/-- The draws: the Maxwellian for a scale, the log-normal for a shape and a scale, and three uniform draws from 0 to 1. -/
structure Draw where
  maxwell : ℝ → ℝ
  lognorm : ℝ → ℝ → ℝ
  u1 : ℝ
  u2 : ℝ
  u3 : ℝ

/-- Baryonic mass of a remnant, l.2160. -/
noncomputable def baryonic (M : ℝ) : ℝ := ((3 * M / 20 + 1) ^ 2 - 1) / 0.3

/-- `_get_kick_velocity`, l.2136-2176. -/
noncomputable def velocity (o : Opt) (d : Draw) (s : Star) (sigma mean : Option ℝ) : Except Err ℝ :=
  match o.presc with
  | .maxwellian => .ok (d.maxwell (sigma.getD 265))
  | .logNormal => .ok (d.lognorm (sigma.getD 0.68) (mean.getD (exp 5.60)))
  | .asymEj =>
    let mEj := |s.lastMass - baryonic s.mass|
    .ok (211 * (0.1 * 0.1 * 1 : ℝ) ^ (1 / 2 : ℝ) * (0.01 / 0.1) * (mEj / 0.1) * (s.mass / 1.5)⁻¹)
  | .linear => .ok (115 * ((s.lastCO - s.mass) / s.mass) + 15)
  | .other => .error .prescription

/-- `_get_kick_normalisation`, l.2192-2215. -/
noncomputable def normalisation (o : Opt) (s : Star) : Except Err ℝ :=
  match o.norm with
  | .fallback => .ok (1 - s.fFb)
  | .overMass => .ok (if s.st = .BH then 1.4 / s.mass else 1)
  | .nsFallback => .ok (if s.st = .BH then 1 else 1 - s.fFb)
  | .one => .ok 1
  | .zero => .ok 0
  | _ => .error .normalisation

/-- `generate_kick`, l.2108-2115. -/
noncomputable def generate (o : Opt) (d : Draw) (s : Star) (sigma mean : Option ℝ) : Except Err ℝ :=
  match sigma with
  | none => .ok 0
  | some _ =>
    match normalisation o s with
    | .error e => .error e
    | .ok n =>
      match velocity o d s sigma mean with
      | .error e => .error e
      | .ok v => .ok (n * v)

/-- The speed that is drawn, l.1555-1585 (1661-1686); `first` tells which star collapses. -/
noncomputable def drawn (o : Opt) (d : Draw) (first : Bool) (s : Star) : Except Err ℝ :=
  match s.sn with
  | .ECSN => generate o d s o.sigmaEC o.meanEC
  | .WD => if first then .ok 0 else .error .snType
  | .other => .error .snType
  | _ =>
    match s.st with
    | .NS => generate o d s o.sigmaNS o.meanNS
    | .BH => generate o d s o.sigmaBH o.meanBH
    | .massless => generate o d s none none
    | .other => .error .state

/-- The kick used: speed, azimuthal angle, cosine of the polar angle, mean anomaly. -/
structure Kick where
  v : ℝ
  phi : ℝ
  cosTheta : ℝ
  anomaly : ℝ

/-- `RNG.uniform(a, b)` -/
noncomputable def uniform (o : Opt) (u a b : ℝ) : Except Err ℝ := if o.rng then .ok (a + (b - a) * u) else .error .noGenerator

/-- l.1548-1587: the speed, and the star with the speed recorded. -/
noncomputable def chooseV (o : Opt) (d : Draw) (first : Bool) (s : Star) : Except Err (ℝ × Star) :=
  match s.vel with
  | some v => .ok (v, s)
  | none =>
    match drawn o d first s with
    | .error e => .error e
    | .ok v => .ok (v, { s with vel := some v })

/-- l.1589-1593 -/
noncomputable def choosePhi (o : Opt) (d : Draw) (s : Star) : Except Err (ℝ × Star) :=
  match s.phi with
  | some x => .ok (x, s)
  | none =>
    match uniform o d.u1 0 (2 * π) with
    | .error e => .error e
    | .ok x => .ok (x, { s with phi := some x })

/-- l.1595-1599: the cosine of the polar angle. -/
noncomputable def choosePolar (o : Opt) (d : Draw) (s : Star) : Except Err (ℝ × Star) :=
  match s.polar with
  | some x => .ok (cos x, s)
  | none =>
    match uniform o d.u2 (-1) 1 with
    | .error e => .error e
    | .ok x => .ok (x, { s with polar := some (arccos x) })

/-- l.1602-1610 -/
noncomputable def chooseAnomaly (o : Opt) (d : Draw) (s : Star) : Except Err (ℝ × Star) :=
  match s.anomaly with
  | .num x => .ok (x, s)
  | .other => .error .anomaly
  | .unset =>
    match uniform o d.u3 0 (2 * π) with
    | .error e => .error e
    | .ok x => .ok (x, { s with anomaly := .num x })

/-- The choice of the kick, l.1548-1610 (1654-1710): the kick and the star with the kick recorded. -/
noncomputable def choose (o : Opt) (d : Draw) (first : Bool) (s : Star) : Except Err (Kick × Star) :=
  match chooseV o d first s with
  | .error e => .error e
  | .ok (v, s1) =>
    match choosePhi o d s1 with
    | .error e => .error e
    | .ok (phi, s2) =>
      match choosePolar o d s2 with
      | .error e => .error e
      | .ok (ct, s3) =>
        match chooseAnomaly o d s3 with
        | .error e => .error e
        | .ok (an, s4) => .ok (⟨v, phi, ct, an⟩, s4)

/-! ### Specification -/

/-- Draws that can occur: speeds are not negative, uniform draws lie between 0 and 1. -/
structure Draw.Ok (d : Draw) : Prop where
  maxwell : ∀ x, 0 ≤ d.maxwell x
  lognorm : ∀ x y, 0 ≤ d.lognorm x y
  u1 : 0 ≤ d.u1 ∧ d.u1 < 1
  u2 : 0 ≤ d.u2 ∧ d.u2 < 1
  u3 : 0 ≤ d.u3 ∧ d.u3 < 1

/-- A remnant with a positive mass and a fallback fraction that is a fraction. -/
structure Star.Ok (s : Star) : Prop where
  mass : 0 < s.mass
  f0 : 0 ≤ s.fFb
  f1 : s.fFb ≤ 1

end Verif.NatalKick
