import Mathlib.Analysis.SpecialFunctions.Pow.Real
import Mathlib.Analysis.SpecialFunctions.Pow.Deriv
import Mathlib.Analysis.SpecialFunctions.Sqrt
import Mathlib.Analysis.Calculus.Deriv.Mul
import Mathlib.Analysis.Calculus.Deriv.Pow
import Mathlib.Analysis.Calculus.Deriv.Inv
import Mathlib.Analysis.Real.Pi.Bounds
import Mathlib.Tactic.FieldSimp
import Mathlib.Tactic.Positivity
import Mathlib.Tactic.Linarith
import Mathlib.Tactic.Ring
/-!
Model of the tides of the detached step, `/repo/posydon/binary_evol/DT/tides/default_tides.py` (`default_tides`, l.7-329).

Simplification: floats are reals; values of the convective envelope and the surface hydrogen are `none` for `NaN`, all others
are known; physical constants are positive parameters; a star that is exactly synchronous has an infinite tidal period.
-/
namespace Verif.Tides

/-- The constants used, `const.aursun` (l.71), `const.standard_cgrav`, `msol`, `rsol`, `secyer` (l.230-240). -/
structure Const where
  aursun : ℝ
  G : ℝ
  msol : ℝ
  rsol : ℝ
  secyer : ℝ
  aursun_pos : 0 < aursun
  G_pos : 0 < G
  msol_pos : 0 < msol
  rsol_pos : 0 < rsol
  secyer_pos : 0 < secyer

/-- The present values of a star, l.54-64. -/
structure Star where
  m : ℝ
  R : ℝ
  omega : ℝ
  mEnv : Option ℝ
  drEnv : Option ℝ
  rEnv : Option ℝ
  rTop : ℝ
  rBot : ℝ
  X : Option ℝ
  L : ℝ
  I : ℝ

/-- `P_orb`, l.71, in years. -/
noncomputable def period (c : Const) (a m1 m2 : ℝ) : ℝ := Real.sqrt ((a / c.aursun) ^ 3 / (m1 + m2))

/-- `n`, l.72, the mean orbital angular velocity. -/
noncomputable def rate (c : Const) (a m1 m2 : ℝ) : ℝ := 2 * Real.pi / period c a m1 m2

/-- `f1` to `f5`, l.73-83. -/
noncomputable def f1 (e : ℝ) : ℝ := 1 + 31 / 2 * e ^ 2 + 255 / 8 * e ^ 4 + 185 / 16 * e ^ 6 + 25 / 64 * e ^ 8
noncomputable def f2 (e : ℝ) : ℝ := 1 + 15 / 2 * e ^ 2 + 45 / 8 * e ^ 4 + 5 / 16 * e ^ 6
noncomputable def f3 (e : ℝ) : ℝ := 1 + 15 / 4 * e ^ 2 + 15 / 8 * e ^ 4 + 5 / 64 * e ^ 6
noncomputable def f4 (e : ℝ) : ℝ := 1 + 3 / 2 * e ^ 2 + 1 / 8 * e ^ 4
noncomputable def f5 (e : ℝ) : ℝ := 1 + 3 * e ^ 2 + 3 / 8 * e ^ 4

/-- `pd.notna(x) and x != 0.0`. -/
noncomputable def usable : Option ℝ → Bool | some x => x ≠ 0 | none => false

/-- `tau_conv`, l.86-109. -/
noncomputable def tau (s : Star) : ℝ :=
  if usable s.mEnv && usable s.drEnv && usable s.rEnv then
    0.431 * ((s.mEnv.getD 0 * s.drEnv.getD 0 * s.rEnv.getD 0) / (3 * s.L)) ^ (1 / 3 : ℝ)
  else 10 ^ 99

/-- `f_conv`, l.110-115; an infinite tidal period gives 1. -/
noncomputable def fconv (P : ℝ) (s : Star) : ℝ :=
  let d := 1 / P - 1 / (2 * Real.pi / s.omega)
  if d = 0 then 1 else min 1 ((|1 / d| / (2 * tau s)) ^ 2)

/-- `kT_conv`, l.117-126; `NaN` becomes 0. -/
noncomputable def kConv (P : ℝ) (s : Star) : ℝ :=
  match s.mEnv with
  | none => 0
  | some me => 2 / 21 * (fconv P s / tau s) * (me / s.m)

/-- `E2`, l.159-228. -/
noncomputable def E2 (s : Star) : ℝ :=
  let rc := s.rTop - s.rBot
  if rc > s.R ∨ rc ≤ 0 ∨ s.rBot / s.R > 0.1 then 1.592e-9 * s.m ^ (2.84 : ℝ)
  else if s.R ≤ 0 then 0
  else match s.X with
    | some x => if x > 0.4 then (10 : ℝ) ^ (-0.42 : ℝ) * (rc / s.R) ^ (7.5 : ℝ) else (10 : ℝ) ^ (-0.93 : ℝ) * (rc / s.R) ^ (6.7 : ℝ)
    | none => 1.592e-9 * s.m ^ (2.84 : ℝ)

/-- `kT_rad`, l.229-240; `q` is the mass of the companion over that of the star. -/
noncomputable def kRad (c : Const) (a q : ℝ) (s : Star) : ℝ :=
  Real.sqrt (c.G * (s.m * c.msol) * (s.R * c.rsol) ^ 2 / (a * c.rsol) ^ 5) * (1 + q) ^ (5 / 6 : ℝ) * E2 s * c.secyer

/-- `kT`, l.255-256. -/
noncomputable def kT (c : Const) (a P q : ℝ) (s : Star) : ℝ := max (kConv P s) (kRad c a q s)

/-- `da_tides`, l.262-282. -/
noncomputable def da (k q R a e w n : ℝ) : ℝ :=
  -6 * 1 * k * q * (1 + q) * (R / a) ^ 8 * (a / (1 - e ^ 2) ^ (15 / 2 : ℝ)) * (f1 e - (1 - e ^ 2) ^ (3 / 2 : ℝ) * f2 e * w / n)

/-- `de_tides`, l.283-303. -/
noncomputable def de (k q R a e w n : ℝ) : ℝ :=
  -27 * 1 * k * q * (1 + q) * (R / a) ^ 8 * (e / (1 - e ^ 2) ^ (13 / 2 : ℝ)) *
    (f3 e - 11 / 18 * (1 - e ^ 2) ^ (3 / 2 : ℝ) * f4 e * w / n)

/-- `dOmega_tides`, l.305-318. -/
noncomputable def dw (k q m R I a e w n : ℝ) : ℝ :=
  (3 * 1 * k * q ^ 2 * m * R ^ 2 / I) * (R / a) ^ 6 * n / (1 - e ^ 2) ^ (6 : ℕ) * (f2 e - (1 - e ^ 2) ^ (3 / 2 : ℝ) * f5 e * w / n)

structure Rates where
  da : ℝ
  de : ℝ
  dwSec : ℝ
  dwPri : ℝ

/-- `default_tides`, l.7-329. -/
noncomputable def tides (c : Const) (a e : ℝ) (p s : Star) : Rates :=
  let q1 := p.m / s.m
  let q2 := s.m / p.m
  let P := period c a p.m s.m
  let n := rate c a p.m s.m
  let ks := kT c a P q1 s
  let kp := kT c a P q2 p
  ⟨da ks q1 s.R a e s.omega n + da kp q2 p.R a e p.omega n,
   de ks q1 s.R a e s.omega n + de kp q2 p.R a e p.omega n,
   dw ks q1 s.m s.R s.I a e s.omega n,
   dw kp q2 p.m p.R p.I a e p.omega n⟩

/-! ### Specification -/

/-- The constant of gravity in solar radii, solar masses and years. -/
noncomputable def grav (c : Const) : ℝ := (2 * Real.pi) ^ 2 * c.aursun ^ 3

/-- The orbital angular momentum of two masses. -/
noncomputable def orbitJ (c : Const) (m1 m2 a e : ℝ) : ℝ := m1 * m2 * Real.sqrt (grav c * a * (1 - e ^ 2) / (m1 + m2))

/-- The energy of the orbit. -/
noncomputable def orbitE (c : Const) (m1 m2 a : ℝ) : ℝ := -(grav c * m1 * m2) / (2 * a)

/-- A star as it should be. -/
structure Star.Physical (s : Star) : Prop where
  m : 0 < s.m
  R : 0 ≤ s.R
  I : 0 < s.I
  L : 0 < s.L
  env : ∀ x, s.mEnv = some x → 0 ≤ x
  dr : ∀ x, s.drEnv = some x → 0 ≤ x
  r : ∀ x, s.rEnv = some x → 0 ≤ x

/-! ### Lemmas -/

theorem pw (e : ℝ) (he : e ^ 2 < 1) (k : ℕ) (y : ℝ) (hy : y = k / 2) : (1 - e ^ 2) ^ y = Real.sqrt (1 - e ^ 2) ^ k := by
  have h : 0 < 1 - e ^ 2 := by linarith
  generalize 1 - e ^ 2 = z at *
  rw [hy, Real.sqrt_eq_rpow, ← Real.rpow_natCast (z ^ (1 / 2 : ℝ)) k, ← Real.rpow_mul h.le]
  congr 1
  ring

theorem da_eq (k q R a e w n : ℝ) (he : e ^ 2 < 1) : da k q R a e w n =
    -6 * k * q * (1 + q) * (R / a) ^ 8 * (a / Real.sqrt (1 - e ^ 2) ^ 15) * (f1 e - Real.sqrt (1 - e ^ 2) ^ 3 * f2 e * w / n) := by
  unfold da
  rw [pw e he 15 _ (by norm_num), pw e he 3 _ (by norm_num)]
  ring

theorem de_eq (k q R a e w n : ℝ) (he : e ^ 2 < 1) : de k q R a e w n =
    -27 * k * q * (1 + q) * (R / a) ^ 8 * (e / Real.sqrt (1 - e ^ 2) ^ 13) *
      (f3 e - 11 / 18 * Real.sqrt (1 - e ^ 2) ^ 3 * f4 e * w / n) := by
  unfold de
  rw [pw e he 13 _ (by norm_num), pw e he 3 _ (by norm_num)]
  ring

theorem dw_eq (k q m R I a e w n : ℝ) (he : e ^ 2 < 1) : dw k q m R I a e w n =
    (3 * k * q ^ 2 * m * R ^ 2 / I) * (R / a) ^ 6 * n / Real.sqrt (1 - e ^ 2) ^ 12 *
      (f2 e - Real.sqrt (1 - e ^ 2) ^ 3 * f5 e * w / n) := by
  have h : (1 - e ^ 2) ^ 6 = Real.sqrt (1 - e ^ 2) ^ 12 := by
    have := Real.sq_sqrt (show 0 ≤ 1 - e ^ 2 by linarith)
    calc (1 - e ^ 2) ^ 6 = (Real.sqrt (1 - e ^ 2) ^ 2) ^ 6 := by rw [this]
      _ = _ := by ring
  unfold dw
  rw [h, pw e he 3 _ (by norm_num)]
  ring

theorem f13 (e : ℝ) : f1 e - 9 * e ^ 2 * f3 e = (1 - e ^ 2) * f2 e := by unfold f1 f2 f3; ring
theorem f24 (e : ℝ) : f2 e - 11 / 2 * e ^ 2 * f4 e = (1 - e ^ 2) * f5 e := by unfold f2 f4 f5; ring

theorem f1_pos (e : ℝ) : 0 < f1 e := by unfold f1; positivity
theorem f2_pos (e : ℝ) : 0 < f2 e := by unfold f2; positivity
theorem f3_pos (e : ℝ) : 0 < f3 e := by unfold f3; positivity
theorem f4_pos (e : ℝ) : 0 < f4 e := by unfold f4; positivity
theorem f5_pos (e : ℝ) : 0 < f5 e := by unfold f5; positivity

theorem f15 (e : ℝ) : f1 e * f5 e - f2 e ^ 2 = e ^ 2 * (7 / 2 + 45 / 4 * e ^ 2 + 28 * e ^ 4 + 685 / 64 * e ^ 6 + 255 / 128 * e ^ 8 + 25 / 512 * e ^ 10) := by
  unfold f1 f2 f5; ring

end Verif.Tides
