import Mathlib.Algebra.Order.Field.Rat
import Mathlib.Algebra.Order.Ring.Abs
import Mathlib.Tactic.NormNum
import Mathlib.Tactic.Linarith
import Mathlib.Tactic.Ring
import Mathlib.Tactic.FieldSimp
/-!
The constants and conversions of `/repo/posydon/utils/constants.py`.  The decimal numbers of the file are taken as exact rational numbers;
rounding to floating-point numbers is left out.
-/
namespace Verif.Consts

/-! Numbers of l.20-66. -/

/-- l.20. -/
def pi : ℚ := 3.1415926535897932384626433832795028841971693993751
/-- l.21. -/
def a2rad : ℚ := pi / 180
/-- l.22. -/
def rad2a : ℚ := 180 / pi
/-- l.27. -/
def standard_cgrav : ℚ := 6.67428e-8
/-- l.28. -/
def planck_h : ℚ := 6.62606896e-27
/-- l.29. -/
def hbar : ℚ := planck_h / (2 * pi)
/-- l.30. -/
def qe : ℚ := 4.80320440e-10
/-- l.31. -/
def avo : ℚ := 6.02214129e23
/-- l.32. -/
def clight : ℚ := 2.99792458e10
/-- l.33. -/
def kerg : ℚ := 1.3806504e-16
/-- l.34. -/
def boltzm : ℚ := kerg
/-- l.35. -/
def cgas : ℚ := boltzm * avo
/-- l.36. -/
def kev : ℚ := 8.617385e-5
/-- l.37. -/
def amu : ℚ := 1 / avo
/-- l.38. -/
def mn : ℚ := 1.6749286e-24
/-- l.39. -/
def mp : ℚ := 1.6726231e-24
/-- l.40. -/
def me : ℚ := 9.1093826e-28
/-- l.41. -/
def rbohr : ℚ := hbar * hbar / (me * qe * qe)
/-- l.42. -/
def fine : ℚ := qe * qe / (hbar * clight)
/-- l.43. -/
def hion : ℚ := 13.605698140
/-- l.44. -/
def ev2erg : ℚ := 1.602176565e-12
/-- l.46. -/
def mev_to_ergs : ℚ := 1e6 * ev2erg
/-- l.47. -/
def mev_amu : ℚ := mev_to_ergs / amu
/-- l.48. -/
def Qconv : ℚ := mev_to_ergs * avo
/-- l.49. -/
def boltz_sigma : ℚ := 5.670373e-5
/-- l.51. -/
def crad : ℚ := boltz_sigma * 4 / clight

/-! Numbers of l.62-115. -/

/-- `Zsun`. -/
def Zsun : ℚ := 0.0142
/-- `zams_table`: helium for the metallicities in units of the Sun's. -/
def zams : List (ℚ × ℚ) :=
  [(2, 2.915e-01), (1, 2.703e-01), (0.45, 2.586e-01), (0.2, 2.533e-01), (0.1, 2.511e-01), (0.01, 2.492e-01), (0.001, 2.49e-01), (0.0001, 2.49e-01)]
/-- `msol`. -/
def msol : ℚ := 1.9892e33
/-- `rsol`. -/
def rsol : ℚ := 6.9598e10
/-- `lsol`. -/
def lsol : ℚ := 3.8418e33
/-- `ly`. -/
def ly : ℚ := 9.460528e17
/-- `pc`. -/
def pc : ℚ := 3.261633 * ly
/-- `secyer`. -/
def secyer : ℚ := 3.1558149984e7
/-- `dayyer`. -/
def dayyer : ℚ := 365.25
/-- `Teffsol`. -/
def Teffsol : ℚ := 5777
/-- `m_earth`. -/
def m_earth : ℚ := 5.9764e27
/-- `au`. -/
def au : ℚ := 1.495978921e13
/-- `aursun`. -/
def aursun : ℚ := 214.95
/-- `m_jupiter`. -/
def m_jupiter : ℚ := 1.8986e30
/-- `km2cm`. -/
def km2cm : ℚ := 1.0e5
/-- `day2sec`. -/
def day2sec : ℚ := 24 * 60 * 60

/-! ### Specification -/

/-- Two ways of converting a value agree up to a relative error. -/
def Agree (eps a b : ℚ) : Prop := |a - b| ≤ eps * |b|

theorem Agree.scale {eps a b : ℚ} (h : Agree eps a b) (x : ℚ) : Agree eps (x * a) (x * b) := by
  unfold Agree at *
  rw [← mul_sub, abs_mul, abs_mul]
  nlinarith [abs_nonneg x, mul_le_mul_of_nonneg_left h (abs_nonneg x)]

theorem agree_of {eps a b : ℚ} (hb : 0 < b) (h1 : a - b ≤ eps * b) (h2 : b - a ≤ eps * b) : Agree eps a b := by
  unfold Agree
  rw [abs_of_pos hb, abs_le]
  constructor <;> linarith

end Verif.Consts
