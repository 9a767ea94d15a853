import Mathlib.Analysis.SpecialFunctions.Log.Base
import Mathlib.Analysis.SpecialFunctions.Pow.Real
import Mathlib.Tactic.NormNum
import Mathlib.Tactic.Ring
import Mathlib.Tactic.Positivity
import Mathlib.Tactic.Linarith

/-!
Model of two fitting formulae of `/repo/posydon/utils/common_functions.py`: `rzams` l.137-223, the radius of a star at its birth (Tout et
al. 1996), and `He_MS_lifetime` l.1340-1365, the duration of the burning of helium.

Real numbers for floats.  `rzams` maps the formula over an array; the model is the value of one element.  The first seven coefficients are
calculated by the code but not used.
-/
namespace Verif.Fits

noncomputable section

/-- A polynomial in Horner's form, l.177 ff. -/
def poly (c0 c1 c2 c3 c4 l : ℝ) : ℝ := c0 + l * (c1 + l * (c2 + l * (c3 + l * c4)))

/-- `msp[8]` to `msp[16]`, l.191-215 with the numbers of l.161-175. -/
def msp8 (l : ℝ) : ℝ := poly 1.715359e+00 6.2246212e-01 (-9.2557761e-01) (-1.16996966e+00) (-3.0631491e-01) l
def msp9 (l : ℝ) : ℝ := poly 6.597788e+00 (-4.2450044e-01) (-1.213339427e+01) (-1.073509484e+01) (-2.51487077e+00) l
def msp10 (l : ℝ) : ℝ := poly 1.008855000e+01 (-7.11727086e+00) (-3.167119479e+01) (-2.424848322e+01) (-5.33608972e+00) l
def msp11 (l : ℝ) : ℝ := poly 1.012495e+00 3.2699690e-01 (-9.23418e-03) (-3.876858e-02) (-4.12750e-03) l
def msp12 (l : ℝ) : ℝ := poly 7.490166e-02 2.410413e-02 7.233664e-02 3.040467e-02 1.97741e-03 l
def msp13 : ℝ := 1.077422e-02
def msp14 (l : ℝ) : ℝ := poly 3.082234e+00 9.447205e-01 (-2.15200882e+00) (-2.49219496e+00) (-6.3848738e-01) l
def msp15 (l : ℝ) : ℝ := poly 1.784778e+01 (-7.4534569e+00) (-4.896066856e+01) (-4.005386135e+01) (-9.09331816e+00) l
def msp16 (l : ℝ) : ℝ := poly 2.2582e-04 (-1.86899e-03) 3.88783e-03 1.42402e-03 (-7.671e-05) l

/-- The denominator of l.218-221, with `x` the root of the mass. -/
def den (l m x : ℝ) : ℝ := msp13 + msp14 l * m ^ 2 + (msp15 l * m ^ 8 + m ^ 18 + msp16 l * m ^ 19) * x

/-- The numerator. -/
def num (l m x : ℝ) : ℝ := (msp8 l * m ^ 2 + msp9 l * m ^ 6) * x + msp10 l * m ^ 11 + (msp11 l + msp12 l * x) * m ^ 19

/-- `rzams`; `none` is NaN or infinite: the logarithm of a metallicity that is not positive, the root of a negative mass, a vanishing
denominator. -/
def rzams (m z zsun : ℝ) : Option ℝ :=
  open Classical in
  if z / zsun ≤ 0 ∨ m < 0 then none
  else
    let l := Real.logb 10 (z / zsun)
    let x := Real.sqrt m
    if den l m x = 0 then none else some (num l m x / den l m x)

/-- `He_MS_lifetime`; `none` is the `ValueError`. -/
def heLife (m : ℝ) : Option ℝ :=
  open Classical in
  if m ≤ 0 then none
  else if m < 2 then some (10 ^ 8)
  else if m < 10 then some ((10 : ℝ) ^ (-2.6094 * Real.logb 10 m + 8.7855))
  else if m < 100 then some ((10 : ℝ) ^ (-0.69897 * Real.logb 10 m + 6.875))
  else some (3 * 10 ^ 5)

end

end Verif.Fits
