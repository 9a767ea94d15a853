import Mathlib.MeasureTheory.Integral.IntervalIntegral.FundThmCalculus
import Mathlib.Analysis.SpecialFunctions.Sqrt
import Mathlib.Analysis.SpecialFunctions.Pow.Real
import Mathlib.Analysis.SpecialFunctions.Trigonometric.Basic
/-!
Model of the volumes of redshift shells, `get_shell_comoving_volume` (`/repo/posydon/popsyn/rate_calculation.py` l.28-72), and of the weights of events
and rate densities they are used with (`/repo/posydon/popsyn/synthetic_population.py` l.2142-2146, 2168-2200 and 2600-2617).

Real numbers for floats; the quadrature is the integral. Distance and age of the universe at a redshift are astropy's and are parameters.
-/
namespace Verif.Shells

open Real

noncomputable section

/-- The cosmology: the speed of light in Mpc/yr, the Hubble constant in 1/yr, the density of matter, and the comoving distance in Mpc at a redshift. -/
structure Cosmos where
  c : ℝ
  H0 : ℝ
  Om : ℝ
  D : ℝ → ℝ

inductive Err | value
  deriving DecidableEq

/-- l.51-54 -/
def E (C : Cosmos) (z : ℝ) : ℝ := sqrt (C.Om * (1 + z) ^ 3 + (1 - C.Om))

/-- l.56-66; the speed of light is in Gpc/yr there -/
def f (C : Cosmos) (z : ℝ) : ℝ := 1 / (1 + z) * 4 * π * (C.c * 1e-3) / C.H0 * (C.D z * 1e-3) ^ 2 / E C z

/-- `get_shell_comoving_volume`, in Gpc³; the integrand raises the error. -/
def shell (C : Cosmos) (sensitivity : String) (a b : ℝ) : Except Err ℝ :=
  if sensitivity = "infinite" then .ok (∫ z in a..b, f C z) else .error .value

/-- synthetic_population.py l.2192-2200: the weight in 1/yr of an event at redshift `z`, for bins of birth times of `dt` Myr, a star formation rate and a
model weight. -/
def weight (C : Cosmos) (dt sfr mw z : ℝ) : ℝ := 4 * π * C.c * C.D z ^ 2 * (dt * 10 ^ 6) * sfr * mw

/-- synthetic_population.py l.2600-2617: the rate density in a shell with the sum `w` of the weights of its events. -/
def density (C : Cosmos) (w a b : ℝ) : Except Err ℝ :=
  match shell C "infinite" a b with
  | .ok v => .ok (w / v)
  | .error e => .error e

/-- The middle of the `k`-th bin of birth times in Gyr, for an age `T0` today and bins of `dt` Myr (`get_redshift_bin_centers`, rate_calculation.py l.196-208). -/
def birth (T0 dt : ℝ) (k : ℕ) : ℝ := T0 - (k + 1 / 2) * (dt * 1e-3)

/-- The weights of the births of one event, of a delay in Gyr and a model weight, that fall into the bin `(a, b]` (synthetic_population.py l.2168-2200 and 2607);
events after today have no redshift (the code allows times up to 0.9999999 of the age at redshift 1e-8).
Simplified: one star formation rate for all births; `zOf` is the interpolator. -/
def row (C : Cosmos) (zOf : ℝ → ℝ) (T0 dt sfr : ℝ) (n : ℕ) (a b : ℝ) (e : ℝ × ℝ) : ℝ :=
  ∑ k ∈ Finset.range n, if birth T0 dt k + e.1 ≤ T0 ∧ a < zOf (birth T0 dt k + e.1) ∧ zOf (birth T0 dt k + e.1) ≤ b
    then weight C dt sfr e.2 (zOf (birth T0 dt k + e.1)) else 0

/-- `np.nansum(weights[mask])`, synthetic_population.py l.2607-2616 -/
def total (C : Cosmos) (zOf : ℝ → ℝ) (T0 dt sfr : ℝ) (n : ℕ) (a b : ℝ) (evs : List (ℝ × ℝ)) : ℝ := (evs.map (row C zOf T0 dt sfr n a b)).sum

/-! ### Specification -/

/-- A flat universe of matter and a cosmological constant that expands, with distances growing with redshift. -/
structure Flat (C : Cosmos) : Prop where
  c : 0 < C.c
  H0 : 0 < C.H0
  Om0 : 0 ≤ C.Om
  Om1 : C.Om ≤ 1
  cont : Continuous C.D
  zero : 0 ≤ C.D 0
  mono : ∀ x y, 0 ≤ x → x < y → C.D x < C.D y

/-- The age of the universe in Gyr at a redshift: `dt/dz = -1/((1+z) H(z))`. -/
def IsAge (C : Cosmos) (age : ℝ → ℝ) : Prop := ∀ z, 0 ≤ z → HasDerivAt age (-(1 / ((1 + z) * (C.H0 * E C z))) * 1e-9) z

end
end Verif.Shells
