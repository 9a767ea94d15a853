import Verif.Tides
import Mathlib.Analysis.SpecialFunctions.Exp
/-!
Model of the rates of change of orbit and spins in the detached step: winds (`/repo/posydon/binary_evol/DT/winds/default_winds.py`
l.4-161), gravitational radiation (`DT/gravitational_radiation/default_gravrad.py` l.4-79), magnetic braking
(`DT/magnetic_braking/prescriptions.py` l.6-378) and their sum (`DT/step_detached.py`, `detached_evolution.update_props` and
`__call__`, l.1130-1407).

Simplification: floats are reals; physical constants are positive parameters; where NumPy divides by zero the comparison it
leads to is written out; rates that are not finite are `none` in the sum; verbose output is left out.
-/
namespace Verif.Rhs

/-- The constants used. -/
structure Const where
  G : ℝ
  clight : ℝ
  msol : ℝ
  rsol : ℝ
  secyer : ℝ
  G_pos : 0 < G
  clight_pos : 0 < clight
  msol_pos : 0 < msol
  rsol_pos : 0 < rsol
  secyer_pos : 0 < secyer

/-- The present values of a star. -/
structure Star where
  m : ℝ
  R : ℝ
  omega : ℝ
  I : ℝ
  mdot : ℝ
  Idot : ℝ
  tau : ℝ

/-! ### Winds -/

/-- One star in `default_spin_from_winds`, l.57-65 (70-78). -/
noncomputable def windSpin (s : Star) : ℝ :=
  2.0 / 3.0 * s.R ^ 2 * s.omega * s.mdot / s.I + min (-s.omega * s.Idot / s.I) 100

/-- `default_sep_from_winds`, l.136-159. -/
noncomputable def windSep (a : ℝ) (p s : Star) : ℝ :=
  let q1 := s.m / p.m
  let k11 := (1 / (1 + q1)) * (s.mdot / s.m)
  let k21 := s.mdot / s.m
  let k31 := s.mdot / (p.m + s.m)
  let q2 := p.m / s.m
  let k12 := (1 / (1 + q2)) * (p.mdot / p.m)
  let k22 := p.mdot / p.m
  let k32 := p.mdot / (p.m + s.m)
  a * (2 * k11 - 2 * k21 + k31) + a * (2 * k12 - 2 * k22 + k32)

/-! ### Gravitational radiation -/

/-- `GM/(ac²)`. -/
noncomputable def xPN (c : Const) (a m1 m2 : ℝ) : ℝ := c.G * (m1 + m2) * c.msol / (a * c.rsol * c.clight ^ 2)

/-- `v`, l.45. -/
noncomputable def nu (m1 m2 : ℝ) : ℝ := m1 * m2 / (m1 + m2) ^ 2

/-- `da_gr`, l.47-56. -/
noncomputable def gwDa (c : Const) (a e m1 m2 : ℝ) : ℝ :=
  ((-2 * c.clight / 15) * (nu m1 m2 / ((1 - e ^ 2) ^ (9 / 2 : ℝ))) * xPN c a m1 m2 ^ 3
    * ((96 + 292 * e ^ 2 + 37 * e ^ 4) * (1 - e ^ 2)
      - (1 / 28 * c.G * (m1 + m2) * c.msol / (a * c.rsol * c.clight ^ 2))
        * ((14008 + 4707 * nu m1 m2) + (80124 + 21560 * nu m1 m2) * e ^ 2 + (17325 + 10458) * e ^ 4
          - 0.5 * (5501 - 1036 * nu m1 m2) * e ^ 6))) * c.secyer / c.rsol

/-- `de_gr`, l.59-70. -/
noncomputable def gwDe (c : Const) (a e m1 m2 : ℝ) : ℝ :=
  ((-1 / 15) * ((nu m1 m2 * c.clight ^ 3) / (c.G * (m1 + m2) * c.msol)) * xPN c a m1 m2 ^ 4
    * (e / (1 - e ^ 2) ^ (7 / 2 : ℝ))
    * ((304 + 121 * e ^ 2) * (1 - e ^ 2)
      - (1 / 56 * c.G * (m1 + m2) * c.msol / (a * c.rsol * c.clight ^ 2))
        * (8 * (16705 + 4676 * nu m1 m2) + 12 * (9082 + 2807 * nu m1 m2) * e ^ 2 - (25211 - 3388 * nu m1 m2) * e ^ 4))) * c.secyer

/-! ### Magnetic braking -/

/-- `np.clip((1.5 - m) / (1.5 - 1.3), 0, 1)`. -/
noncomputable def fade (m : ℝ) : ℝ := min (max ((1.5 - m) / (1.5 - 1.3)) 0) 1

/-- One star in `RVJ83_braking`, l.53-68. -/
noncomputable def rvj (c : Const) (s : Star) : ℝ :=
  -3.8e-30 * (c.rsol ^ 2 / c.secyer) * s.m * s.R ^ 4 * s.omega ^ 3 / s.I * fade s.m

/-- The Rossby number is below 0.14, l.150-153, 172; without rotation or convection it is infinite. -/
noncomputable def saturated (s : Star) : Prop := s.omega ≠ 0 ∧ s.tau ≠ 0 ∧ 2 * Real.pi / s.omega / s.tau < 0.14

/-- `T0`, l.133, 156-170. -/
noncomputable def t0 (c : Const) (s : Star) : ℝ :=
  let K := -1.4e30 * c.secyer ^ 2 / (c.msol * c.rsol ^ 2)
  let crit := Real.sqrt (c.G * s.m * c.msol / ((s.R * c.rsol) ^ 3)) * c.secyer
  let gamma := (1 + (s.omega / crit / 0.072) ^ 2) ^ (0.5 : ℝ)
  K * s.R ^ (3.1 : ℝ) * s.m ^ (0.5 : ℝ) * gamma ^ (-2 * 0.22 : ℝ)

open Classical in
/-- One star in `M15_braking`, l.172-194; `ref` is what the rate of a saturated star is divided by. -/
noncomputable def m15 (c : Const) (ref : ℝ) (s : Star) : ℝ :=
  let sol := 2.6e-6 * c.secyer
  if saturated s then t0 c s * ((2.0 / 0.14 : ℝ) ^ (2.6 : ℝ)) * (s.omega / ref) / s.I * fade s.m
  else t0 c s * ((s.tau / (12.9 / 365.25)) ^ (2.6 : ℝ)) * ((s.omega / sol) ^ (2.6 + 1 : ℝ)) / s.I * fade s.m

/-- `M15_braking`: secondary (l.174: `omega2/omega_sol`) and primary (l.186: `omega1/2.6e-6`). -/
noncomputable def m15Sec (c : Const) (s : Star) : ℝ := m15 c (2.6e-6 * c.secyer) s
noncomputable def m15Pri (c : Const) (p : Star) : ℝ := m15 c 2.6e-6 p

/-- One star in `G18_braking`, l.247-269. -/
noncomputable def g18 (c : Const) (s : Star) : ℝ :=
  let ro := 2 * Real.pi / s.omega / s.tau
  let n := 0.03 / ro + 0.5 * ro + 1.0
  (-3e41) / (c.msol * c.rsol ^ 2) * s.omega ^ 3 * s.tau * (4.05 * Real.exp (-1.4 * n)) / s.I * fade s.m

open Classical in
/-- One star in `CARB_braking`, l.325-378; `m` is the mass in the last factor. -/
noncomputable def carb (c : Const) (m : ℝ) (s : Star) : ℝ :=
  let tr := s.tau / (2.8e6 / c.secyer)
  let rr := s.omega / (3e-6 * c.secyer)
  let vesc := 2 * c.G * s.m / s.R * (c.msol * c.secyer ^ 2 / c.rsol ^ 3)
  let vmod := vesc + 2 * s.omega ^ 2 * s.R ^ 2 / 0.07 ^ 2
  let r3 := if 0 < |s.mdot| then s.R ^ 4 * rr ^ 4 * tr ^ 4 / (s.mdot ^ 2 * vmod) * (c.rsol ^ 2 * c.secyer / c.msol ^ 2) else 0
  let alf := s.R * r3 ^ (1 / 3 : ℝ)
  (-|2 / 3 * s.omega * s.mdot * alf ^ 2 / s.I * fade m|)

/-- `CARB_braking`: both factors are taken from the secondary's mass (l.370, 375). -/
noncomputable def carbSec (c : Const) (p s : Star) : ℝ := let _ := p; carb c s.m s
noncomputable def carbPri (c : Const) (p s : Star) : ℝ := carb c s.m p

/-! ### The sum -/

inductive Mode | RVJ83 | M15 | G18 | CARB | other deriving DecidableEq
inductive Err | type deriving DecidableEq

structure Flags where
  tides : Bool
  gw : Bool
  mb : Bool
  wind : Bool
  windSpin : Bool

structure Rates where
  da : ℝ
  de : ℝ
  dwSec : ℝ
  dwPri : ℝ

/-- The state, `y`. -/
structure Y where
  a : ℝ
  e : ℝ
  wSec : ℝ
  wPri : ℝ

/-- `update_props`, l.1164-1180: the state written back. -/
noncomputable def clip (y : Y) : Y := ⟨max y.a 0, max y.e 0, max y.wSec 0, max y.wPri 0⟩

open Classical in
/-- `update_props`, l.1165-1171: the eccentricity used. -/
noncomputable def usedE (y : Y) : ℝ := if 0 < (clip y).e ∧ (clip y).e < 10 ^ (-3 : ℤ) then 0 else (clip y).e

/-- The contributions as functions of the separation and eccentricity used and the two spins; `none` is not finite. -/
structure Terms where
  tides : ℝ → ℝ → ℝ → ℝ → Option ℝ × Option ℝ × Option ℝ × Option ℝ
  gw : ℝ → ℝ → Option ℝ × Option ℝ
  mb : Mode → ℝ → ℝ → Option ℝ × Option ℝ
  wind : ℝ → ℝ → Option ℝ
  windSpin : ℝ → ℝ → Option ℝ × Option ℝ

/-- `if not np.isfinite(x): x = 0.0`, l.1301 ff. -/
def fin (x : Option ℝ) : ℝ := x.getD 0

/-- `tides`, l.1322-1342. -/
noncomputable def addTides (T : Terms) (a e ws wp : ℝ) (r : Rates) : Rates :=
  let x := T.tides a e ws wp
  ⟨r.da + fin x.1, r.de + fin x.2.1, r.dwSec + fin x.2.2.1, r.dwPri + fin x.2.2.2⟩

/-- `gravitational_radiation`, l.1344-1358. -/
noncomputable def addGw (T : Terms) (a e : ℝ) (r : Rates) : Rates :=
  { r with da := r.da + fin (T.gw a e).1, de := r.de + fin (T.gw a e).2 }

/-- `magnetic_braking`, l.1360-1407: the warning for an unknown mode is called with a text where a number is required. -/
noncomputable def addMb (T : Terms) (m : Mode) (ws wp : ℝ) (r : Rates) : Except Err Rates :=
  if m = .other then .error .type
  else .ok { r with dwSec := r.dwSec + fin (T.mb m ws wp).1, dwPri := r.dwPri + fin (T.mb m ws wp).2 }

/-- `sep_from_winds`, l.1310-1320. -/
noncomputable def addWind (T : Terms) (a e : ℝ) (r : Rates) : Rates := { r with da := r.da + fin (T.wind a e) }

/-- `spin_from_winds`, l.1293-1308. -/
noncomputable def addWindSpin (T : Terms) (ws wp : ℝ) (r : Rates) : Rates :=
  { r with dwSec := r.dwSec + fin (T.windSpin ws wp).1, dwPri := r.dwPri + fin (T.windSpin ws wp).2 }

/-- `__call__`, l.1185-1291: the rates and the state written back. -/
noncomputable def call (T : Terms) (f : Flags) (m : Mode) (y : Y) : Except Err (Rates × Y) :=
  let z := clip y
  let e := usedE y
  let r0 : Rates := ⟨0, 0, 0, 0⟩
  let r1 := if f.tides then addTides T z.a e z.wSec z.wPri r0 else r0
  let r2 := if f.gw then addGw T z.a e r1 else r1
  match (if f.mb then addMb T m z.wSec z.wPri r2 else .ok r2) with
  | .error x => .error x
  | .ok r3 =>
    let r4 := if f.wind then addWind T z.a e r3 else r3
    let r5 := if f.windSpin then addWindSpin T z.wSec z.wPri r4 else r4
    .ok (r5, z)

/-! ### Specification -/

/-- Peters' rates for point masses, in solar radii and years. -/
noncomputable def petersDa (c : Const) (a e m1 m2 : ℝ) : ℝ :=
  -(64 / 5) * (c.G ^ 3 * (m1 * c.msol) * (m2 * c.msol) * ((m1 + m2) * c.msol) / (c.clight ^ 5 * (a * c.rsol) ^ 3 * Real.sqrt (1 - e ^ 2) ^ 7))
    * (1 + 73 / 24 * e ^ 2 + 37 / 96 * e ^ 4) * c.secyer / c.rsol

noncomputable def petersDe (c : Const) (a e m1 m2 : ℝ) : ℝ :=
  -(304 / 15) * e * (c.G ^ 3 * (m1 * c.msol) * (m2 * c.msol) * ((m1 + m2) * c.msol) / (c.clight ^ 5 * (a * c.rsol) ^ 4 * Real.sqrt (1 - e ^ 2) ^ 5))
    * (1 + 121 / 304 * e ^ 2) * c.secyer

structure Star.Physical (s : Star) : Prop where
  m : 0 < s.m
  R : 0 < s.R
  I : 0 < s.I
  omega : 0 ≤ s.omega
  tau : 0 ≤ s.tau

/-! ### Lemmas -/

theorem nu_pos {m1 m2 : ℝ} (h1 : 0 < m1) (h2 : 0 < m2) : 0 < nu m1 m2 := by unfold nu; positivity

theorem nu_le {m1 m2 : ℝ} (h1 : 0 < m1) (h2 : 0 < m2) : nu m1 m2 ≤ 1 / 4 := by
  unfold nu
  rw [div_le_iff₀ (by positivity)]
  nlinarith [sq_nonneg (m1 - m2)]

theorem xPN_pos (c : Const) {a m1 m2 : ℝ} (ha : 0 < a) (h1 : 0 < m1) (h2 : 0 < m2) : 0 < xPN c a m1 m2 := by
  have := c.G_pos; have := c.clight_pos; have := c.msol_pos; have := c.rsol_pos
  unfold xPN; positivity

theorem fade_nonneg (m : ℝ) : 0 ≤ fade m := le_min (le_max_right _ _) (by norm_num)
theorem fade_le (m : ℝ) : fade m ≤ 1 := min_le_right _ _
theorem fade_zero {m : ℝ} : fade m = 0 ↔ 1.5 ≤ m := by
  unfold fade
  constructor
  · intro h
    by_contra hn
    have : 0 < (1.5 - m) / (1.5 - 1.3) := div_pos (by linarith) (by norm_num)
    rw [max_eq_left this.le] at h
    have : 0 < min ((1.5 - m) / (1.5 - 1.3)) 1 := lt_min this (by norm_num)
    linarith
  · intro h
    have : (1.5 - m) / (1.5 - 1.3) ≤ 0 := div_nonpos_of_nonpos_of_nonneg (by linarith) (by norm_num)
    rw [max_eq_right this]
    norm_num
theorem fade_one {m : ℝ} : fade m = 1 ↔ m ≤ 1.3 := by
  unfold fade
  rw [min_eq_right_iff, le_max_iff, le_div_iff₀ (by norm_num)]
  constructor
  · rintro (h | h)
    · linarith
    · norm_num at h
  · intro h; left; linarith

end Verif.Rhs
