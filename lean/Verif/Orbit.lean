import Mathlib.Analysis.SpecialFunctions.Pow.Real
import Mathlib.Analysis.Convex.SpecificFunctions.Basic
import Mathlib.LinearAlgebra.Matrix.Determinant.Basic
import Mathlib.LinearAlgebra.Matrix.Notation
import Mathlib.Analysis.SpecialFunctions.Trigonometric.Basic
/-!
Model of the orbital-mechanics helpers of `/repo/posydon/utils/common_functions.py`:
`roche_lobe_radius` (l.225-300), `check_for_RLO` (l.302-336), `orbital_separation_from_period` (l.338-367),
`orbital_period_from_separation` (l.370-389), `period_evol_wind_loss` (l.2126-2152), `separation_evol_wind_loss` (l.2155-2181),
`period_change_stable_MT` (l.2184-2236), `rotate` (l.2870-2913); constants of `/repo/posydon/utils/constants.py` l.20-107.

Simplifications: floats are real numbers, `x**2.0` and `x**3.0` are natural powers, `x**0.5` is the square root; NaN is `none`.
-/
namespace Verif.Orbit
open Real

noncomputable section
open Classical

/-! ### Constants (constants.py l.20, 27, 72-77, 85, 97, 107) -/

def cpi : ℝ := 3.1415926535897932384626433832795028841971693993751
def cgrav : ℝ := 6.67428e-8
def Msun : ℝ := 1.9892e33
def Rsun : ℝ := 6.9598e10
def dayyer : ℝ := 365.25
def aursun : ℝ := 214.95
def day2sec : ℝ := 24 * 60 * 60

/-- `orbital_separation_from_period`, l.358-367. -/
def sepFromPeriod (P m1 m2 : ℝ) : ℝ :=
  (cgrav * (m1 * Msun + m2 * Msun) / (4 * cpi ^ 2) * (P * day2sec) ^ 2) ^ ((1 : ℝ) / 3) / Rsun

/-- `orbital_period_from_separation`, l.389. -/
def periodFromSep (a m1 m2 : ℝ) : ℝ := dayyer * Real.sqrt ((a / aursun) ^ 3 / (m1 + m2))

/-- `np.log10`. -/
def lg (x : ℝ) : ℝ := Real.log x / Real.log 10

/-- `period_evol_wind_loss`, l.2150-2152. -/
def periodWind (Mcur Minit Mcomp P : ℝ) : ℝ := (10 : ℝ) ^ (-2 * lg (Mcur + Mcomp) + 2 * lg (Minit + Mcomp) + lg P)

/-- `separation_evol_wind_loss`, l.2179-2181. -/
def sepWind (Mcur Minit Mcomp A : ℝ) : ℝ := (10 : ℝ) ^ (-lg (Mcur + Mcomp) + lg (Minit + Mcomp) + lg A)

/-- l.261-264, 276-279, 291-294: invalid scalars become NaN. -/
def validSep (a : ℝ) : Option ℝ := if a < 0 then none else some a
def validMass (m : ℝ) : Option ℝ := if m ≤ 0 then none else some m

/-- Eggleton's formula, l.296-299. -/
def eggleton (q : ℝ) : ℝ := (0.49 * q ^ ((2 : ℝ) / 3)) / (0.6 * q ^ ((2 : ℝ) / 3) + Real.log (1 + q ^ ((1 : ℝ) / 3)))

/-- `roche_lobe_radius` for scalars, l.225-300. -/
def rocheLobe (m1 m2 a : ℝ) : Option ℝ :=
  match validSep a, validMass m1, validMass m2 with
  | some a, some m1, some m2 => some (a * eggleton (m1 / m2))
  | _, _, _ => none

/-- `roche_lobe_radius` for arrays of separations (l.248-259), masses scalar: the returned radii and the caller's array after the call. -/
def rocheLobeArray (m1 m2 : ℝ) (as : List (Option ℝ)) : List (Option ℝ) × List (Option ℝ) :=
  let as' := as.map fun x => x.bind validSep
  (as'.map fun x => x.bind (rocheLobe m1 m2), as')

/-- `(r - RL) < tolerance`, false if the lobe is NaN. -/
def below (r : ℝ) (rl : Option ℝ) (tol : ℝ) : Prop :=
  match rl with
  | some x => r - x < tol
  | none => False

/-- `check_for_RLO`, l.329-336. -/
def checkRLO (m1 r1 m2 r2 a tol : ℝ) : Bool :=
  if below r1 (rocheLobe m1 m2 a) tol ∧ below r2 (rocheLobe m2 m1 a) tol then false else true

inductive Err
  | value
  deriving DecidableEq

/-- The accretor's final mass, l.2220. -/
def maccFinal (Mdi Mdf Mai alpha beta : ℝ) : ℝ := Mai + (1 - beta) * (1 - alpha) * (Mdi - Mdf)

/-- `period_change_stable_MT`, l.2216-2236. -/
def periodMT (P Mdi Mdf Mai alpha beta : ℝ) : Except Err ℝ :=
  if Mdi - Mdf < 0 then .error .value
  else
    let Maf := maccFinal Mdi Mdf Mai alpha beta
    if alpha < 0 ∨ beta < 0 ∨ alpha > 1 ∨ beta > 1 then .error .value
    else if beta ≠ 1 then
      .ok (P * (Mdf / Mdi) ^ (3 * (alpha - 1)) * (Maf / Mai) ^ (3 / (beta - 1)) * ((Mdi + Mai) / (Mdf + Maf)) ^ 2)
    else
      .ok (P * (Mdf / Mdi) ^ (3 * (alpha - 1)) * Real.exp (3 * (1 - alpha) * (Mdf - Mdi) / Maf) * ((Mdi + Mai) / (Mdf + Maf)) ^ 2)

/-- The rotation matrix l.2897-2911 for an axis of length one. -/
def rotUnit (x y z t : ℝ) : Matrix (Fin 3) (Fin 3) ℝ :=
  !![cos t + x ^ 2 * (1 - cos t), x * y * (1 - cos t) - z * sin t, x * z * (1 - cos t) + y * sin t;
     y * x * (1 - cos t) + z * sin t, cos t + y ^ 2 * (1 - cos t), y * z * (1 - cos t) - x * sin t;
     z * x * (1 - cos t) - y * sin t, z * y * (1 - cos t) + x * sin t, cos t + z ^ 2 * (1 - cos t)]

/-- `rotate`, l.2888-2913. -/
def rotate (axis : List ℝ) (t : ℝ) : Except Err (Matrix (Fin 3) (Fin 3) ℝ) :=
  match axis with
  | [x, y, z] =>
    let n := Real.sqrt (x ^ 2 + y ^ 2 + z ^ 2)
    if n = 0 then .error .value else .ok (rotUnit (x / n) (y / n) (z / n) t)
  | _ => .error .value

/-! ### Lemmas -/

theorem ten_rpow_lg {x : ℝ} (hx : 0 < x) : (10 : ℝ) ^ lg x = x := by
  unfold lg
  rw [Real.rpow_def_of_pos (by norm_num), mul_div_cancel₀ _ (Real.log_pos (by norm_num)).ne', Real.exp_log hx]

theorem periodWind_eq {Mcur Minit Mcomp P : ℝ} (h1 : 0 < Mcur + Mcomp) (h2 : 0 < Minit + Mcomp) (hP : 0 < P) :
    periodWind Mcur Minit Mcomp P = P * ((Minit + Mcomp) / (Mcur + Mcomp)) ^ 2 := by
  unfold periodWind
  have h10 : (0 : ℝ) < 10 := by norm_num
  rw [Real.rpow_add h10, Real.rpow_add h10, ten_rpow_lg hP]
  have e1 : (10 : ℝ) ^ (-2 * lg (Mcur + Mcomp)) = ((Mcur + Mcomp) ^ 2)⁻¹ := by
    rw [neg_mul, Real.rpow_neg h10.le, mul_comm, Real.rpow_mul h10.le, ten_rpow_lg h1]
    norm_cast
  have e2 : (10 : ℝ) ^ (2 * lg (Minit + Mcomp)) = (Minit + Mcomp) ^ 2 := by
    rw [mul_comm, Real.rpow_mul h10.le, ten_rpow_lg h2]
    norm_cast
  rw [e1, e2]
  field_simp

theorem sepWind_eq {Mcur Minit Mcomp A : ℝ} (h1 : 0 < Mcur + Mcomp) (h2 : 0 < Minit + Mcomp) (hA : 0 < A) :
    sepWind Mcur Minit Mcomp A = A * ((Minit + Mcomp) / (Mcur + Mcomp)) := by
  unfold sepWind
  have h10 : (0 : ℝ) < 10 := by norm_num
  rw [Real.rpow_add h10, Real.rpow_add h10, ten_rpow_lg hA, ten_rpow_lg h2, Real.rpow_neg h10.le, ten_rpow_lg h1]
  field_simp

/-- The constant of Kepler's third law in the code's units. -/
def kepler : ℝ := cgrav * Msun * day2sec ^ 2 / (4 * cpi ^ 2) / Rsun ^ 3

theorem kepler_pos : 0 < kepler := by
  unfold kepler cgrav Msun day2sec cpi Rsun
  positivity

theorem cube_rpow_third {x : ℝ} (hx : 0 ≤ x) : (x ^ ((1 : ℝ) / 3)) ^ 3 = x := by
  rw [← Real.rpow_natCast, ← Real.rpow_mul hx]; norm_num

theorem sepFromPeriod_cube (P m1 m2 : ℝ) (hm : 0 ≤ m1 + m2) : sepFromPeriod P m1 m2 ^ 3 = kepler * (m1 + m2) * P ^ 2 := by
  unfold sepFromPeriod kepler
  rw [div_pow, cube_rpow_third]
  · unfold Rsun; ring
  · have h1 : (0 : ℝ) ≤ cgrav := by unfold cgrav; norm_num
    have h2 : m1 * Msun + m2 * Msun = (m1 + m2) * Msun := by ring
    have h3 : (0 : ℝ) ≤ Msun := by unfold Msun; norm_num
    rw [h2]
    positivity

theorem sepFromPeriod_pos {P m1 m2 : ℝ} (hP : 0 < P) (hm : 0 < m1 + m2) : 0 < sepFromPeriod P m1 m2 := by
  unfold sepFromPeriod
  apply div_pos _ (by unfold Rsun; norm_num)
  apply Real.rpow_pos_of_pos
  have h2 : m1 * Msun + m2 * Msun = (m1 + m2) * Msun := by ring
  rw [h2]
  unfold cgrav Msun cpi day2sec
  positivity

/-- Eggleton's formula in the variable `t = q^(1/3)`. -/
def eggT (t : ℝ) : ℝ := 0.49 * t ^ 2 / (0.6 * t ^ 2 + Real.log (1 + t))

theorem eggleton_eq {q : ℝ} (hq : 0 ≤ q) : eggleton q = eggT (q ^ ((1 : ℝ) / 3)) := by
  unfold eggleton eggT
  have : q ^ ((2 : ℝ) / 3) = (q ^ ((1 : ℝ) / 3)) ^ 2 := by
    rw [← Real.rpow_natCast, ← Real.rpow_mul hq]; norm_num
  rw [this]

theorem log_one_add_ge {t : ℝ} (ht : 0 < t) : t / (1 + t) ≤ Real.log (1 + t) := by
  have h := Real.one_sub_inv_le_log_of_pos (x := 1 + t) (by linarith)
  have : 1 - (1 + t)⁻¹ = t / (1 + t) := by field_simp; ring
  linarith

/-- `log (1 + t) / t²` decreases. -/
theorem log_div_sq_lt {s t : ℝ} (hs : 0 < s) (h : s < t) : Real.log (1 + t) * s ^ 2 < Real.log (1 + s) * t ^ 2 := by
  have ht : 0 < t := hs.trans h
  have hc : (s / t) • Real.log (1 + t) + (1 - s / t) • Real.log 1 < Real.log ((s / t) • (1 + t) + (1 - s / t) • 1) :=
    strictConcaveOn_log_Ioi.2 (show (0 : ℝ) < 1 + t by linarith) (show (0 : ℝ) < 1 by norm_num)
      (by linarith) (by positivity) (by rw [sub_pos, div_lt_one ht]; exact h) (by ring)
  simp only [smul_eq_mul, Real.log_one, mul_zero, add_zero] at hc
  have e : s / t * (1 + t) + (1 - s / t) * 1 = 1 + s := by field_simp; ring
  rw [e] at hc
  have h1 : Real.log (1 + t) * s < Real.log (1 + s) * t := by
    have := mul_lt_mul_of_pos_right hc ht
    have e2 : s / t * Real.log (1 + t) * t = Real.log (1 + t) * s := by field_simp
    rw [e2] at this
    exact this
  have hl : 0 < Real.log (1 + s) := Real.log_pos (by linarith)
  calc Real.log (1 + t) * s ^ 2 = Real.log (1 + t) * s * s := by ring
    _ < Real.log (1 + s) * t * s := mul_lt_mul_of_pos_right h1 hs
    _ < Real.log (1 + s) * t * t := mul_lt_mul_of_pos_left h (by positivity)
    _ = Real.log (1 + s) * t ^ 2 := by ring

theorem eggT_den_pos {t : ℝ} (ht : 0 < t) : 0 < 0.6 * t ^ 2 + Real.log (1 + t) := by
  have := Real.log_pos (show (1 : ℝ) < 1 + t by linarith)
  positivity

theorem eggT_strictMono {s t : ℝ} (hs : 0 < s) (h : s < t) : eggT s < eggT t := by
  unfold eggT
  rw [div_lt_div_iff₀ (eggT_den_pos hs) (eggT_den_pos (hs.trans h))]
  have := log_div_sq_lt hs h
  nlinarith

theorem eggT_inv {t : ℝ} (ht : 0 < t) : eggT t + eggT t⁻¹ < 1 := by
  -- lower bounds of the two logarithms
  have h1 := log_one_add_ge ht
  have h2 := log_one_add_ge (inv_pos.2 ht)
  have b1 : eggT t ≤ 0.49 * t ^ 2 / (0.6 * t ^ 2 + t / (1 + t)) := by
    unfold eggT
    apply div_le_div_of_nonneg_left (by positivity) (by positivity)
    linarith
  have b2 : eggT t⁻¹ ≤ 0.49 * t⁻¹ ^ 2 / (0.6 * t⁻¹ ^ 2 + t⁻¹ / (1 + t⁻¹)) := by
    unfold eggT
    apply div_le_div_of_nonneg_left (by positivity) (by positivity)
    linarith
  have e1 : 0.49 * t ^ 2 / (0.6 * t ^ 2 + t / (1 + t)) = 0.49 * (t * (1 + t)) / (0.6 * (t * (1 + t)) + 1) := by
    field_simp
  have e2 : 0.49 * t⁻¹ ^ 2 / (0.6 * t⁻¹ ^ 2 + t⁻¹ / (1 + t⁻¹)) = 0.49 * (1 + t) / (0.6 * (1 + t) + t ^ 2) := by
    field_simp
    ring
  rw [e1] at b1
  rw [e2] at b2
  have hk : 0.49 * (t * (1 + t)) / (0.6 * (t * (1 + t)) + 1) + 0.49 * (1 + t) / (0.6 * (1 + t) + t ^ 2) < 1 := by
    rw [div_add_div _ _ (by positivity) (by positivity), div_lt_one (by positivity)]
    nlinarith [sq_nonneg (t - 1), sq_nonneg (t ^ 2 - 1), sq_nonneg t, mul_pos ht ht, mul_pos (mul_pos ht ht) ht,
      sq_nonneg (t ^ 2 - t)]
  linarith

end

end Verif.Orbit
