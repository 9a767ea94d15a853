import Verif.Rhs
/-!
C78: winds, gravitational radiation and magnetic braking change orbit and spins as their laws say.
-/
namespace Verif.Rhs
open Tides (pw)

/-! ### Winds -/

/-- **C78**: mass lost by the stars widens the orbit in proportion; the eccentricity has no part in it. -/
theorem C78_wind_rate (a : ℝ) (p s : Star) (h1 : 0 < p.m) (h2 : 0 < s.m) :
    windSep a p s = -a * (p.mdot + s.mdot) / (p.m + s.m) := by
  unfold windSep
  dsimp only
  field_simp
  ring

/-- **C78**: as the stars lose mass, separation × total mass stays constant. -/
theorem C78_wind_orbit (a m1 m2 : ℝ → ℝ) (t : ℝ) (p s : Star) (hp : p.m = m1 t) (hs : s.m = m2 t) (h1 : 0 < m1 t) (h2 : 0 < m2 t)
    (d1 : HasDerivAt m1 p.mdot t) (d2 : HasDerivAt m2 s.mdot t) (da : HasDerivAt a (windSep (a t) p s) t) :
    HasDerivAt (fun u => a u * (m1 u + m2 u)) 0 t := by
  refine HasDerivAt.congr_deriv (da.mul (d1.add d2)) ?_
  rw [C78_wind_rate (a t) p s (hp ▸ h1) (hs ▸ h2), hp, hs]
  field_simp
  ring

/-- **C78**: with mass loss only the orbit widens. -/
theorem C78_wind_widens (a : ℝ) (p s : Star) (ha : 0 < a) (h1 : 0 < p.m) (h2 : 0 < s.m) (l1 : p.mdot ≤ 0) (l2 : s.mdot ≤ 0) :
    0 ≤ windSep a p s ∧ (windSep a p s = 0 ↔ p.mdot = 0 ∧ s.mdot = 0) := by
  rw [C78_wind_rate a p s h1 h2]
  have e : -a * (p.mdot + s.mdot) / (p.m + s.m) = a / (p.m + s.m) * -(p.mdot + s.mdot) := by ring
  rw [e]
  have hp : 0 < a / (p.m + s.m) := by positivity
  refine ⟨mul_nonneg hp.le (by linarith), ?_⟩
  rw [mul_eq_zero]
  constructor
  · rintro (h | h)
    · linarith
    · constructor <;> linarith
  · rintro ⟨h, h'⟩
    right
    rw [h, h']
    norm_num

/-- **C78** (while the rate is not limited): the spin changes so that the star's angular momentum decreases by what the wind
carries away from its surface, two thirds of the radius squared times the rate per unit mass. -/
theorem C78_wind_spin_partial (w I m : ℝ → ℝ) (t : ℝ) (s : Star) (hw : s.omega = w t) (hI : s.I = I t) (i0 : 0 < I t)
    (cap : -s.omega * s.Idot / s.I ≤ 100)
    (dI : HasDerivAt I s.Idot t) (_dm : HasDerivAt m s.mdot t) (dw : HasDerivAt w (windSpin s) t) :
    HasDerivAt (fun u => I u * w u) (2 / 3 * s.R ^ 2 * s.omega * s.mdot) t := by
  refine HasDerivAt.congr_deriv (dI.mul dw) ?_
  unfold windSpin
  have e : (2.0 / 3.0 : ℝ) = 2 / 3 := by norm_num
  rw [min_eq_left cap, hI, ← hw, e]
  have i1 := i0.ne'
  field_simp
  ring

/-- **C78** (refuted): "without a wind a contracting star keeps its angular momentum".  Where the spin-up is limited to 100
rad/yr² the star loses angular momentum. -/
theorem C78_wind_spin_violated (w I : ℝ → ℝ) (t : ℝ) (s : Star) (hw : s.omega = w t) (hI : s.I = I t) (i0 : 0 < I t) (hm : s.mdot = 0)
    (cap : 100 < -s.omega * s.Idot / s.I) (dI : HasDerivAt I s.Idot t) (dw : HasDerivAt w (windSpin s) t) :
    ∃ J', J' < 0 ∧ HasDerivAt (fun u => I u * w u) J' t := by
  refine ⟨_, ?_, dI.mul dw⟩
  unfold windSpin
  rw [min_eq_right cap.le, hm, ← hw, ← hI]
  rw [hI, lt_div_iff₀ i0, ← hI] at cap
  simp only [mul_zero, zero_div, zero_add]
  linarith

/-- **C78**: a star that does not rotate is not spun up by its wind. -/
theorem C78_wind_still (s : Star) (h : s.omega = 0) : windSpin s = 0 := by unfold windSpin; simp [h]

/-! ### Gravitational radiation -/

theorem gwDa_eq (c : Const) (a e m1 m2 : ℝ) (ha : 0 < a) (h1 : 0 < m1) (h2 : 0 < m2) (he : e ^ 2 < 1) :
    gwDa c a e m1 m2 = petersDa c a e m1 m2 * (1 - xPN c a m1 m2 / (28 * (1 - e ^ 2)) *
      (((14008 + 4707 * nu m1 m2) + (80124 + 21560 * nu m1 m2) * e ^ 2 + (17325 + 10458) * e ^ 4 - 0.5 * (5501 - 1036 * nu m1 m2) * e ^ 6) /
        (96 + 292 * e ^ 2 + 37 * e ^ 4))) := by
  have := c.G_pos; have := c.clight_pos; have := c.msol_pos; have := c.rsol_pos
  unfold gwDa petersDa
  rw [pw e he 9 _ (by norm_num)]
  have hs : 0 < Real.sqrt (1 - e ^ 2) := Real.sqrt_pos.2 (by linarith)
  have hss : 1 - e ^ 2 = Real.sqrt (1 - e ^ 2) ^ 2 := (Real.sq_sqrt (by linarith)).symm
  have hx : 1 / 28 * c.G * (m1 + m2) * c.msol / (a * c.rsol * c.clight ^ 2) = xPN c a m1 m2 / 28 := by unfold xPN; ring
  rw [hx]
  generalize hQ : (14008 + 4707 * nu m1 m2) + (80124 + 21560 * nu m1 m2) * e ^ 2 + (17325 + 10458) * e ^ 4 - 0.5 * (5501 - 1036 * nu m1 m2) * e ^ 6 = Q
  have hr : (-2 * c.clight / 15) * (nu m1 m2 / Real.sqrt (1 - e ^ 2) ^ 9) * xPN c a m1 m2 ^ 3 * c.secyer / c.rsol * 96 * Real.sqrt (1 - e ^ 2) ^ 2 =
      -(64 / 5) * (c.G ^ 3 * (m1 * c.msol) * (m2 * c.msol) * ((m1 + m2) * c.msol) / (c.clight ^ 5 * (a * c.rsol) ^ 3 * Real.sqrt (1 - e ^ 2) ^ 7)) * c.secyer / c.rsol := by
    unfold xPN nu
    generalize Real.sqrt (1 - e ^ 2) = s at *
    field_simp
    ring
  have hD : 0 < 96 + 292 * e ^ 2 + 37 * e ^ 4 := by positivity
  have hP : (1 + 73 / 24 * e ^ 2 + 37 / 96 * e ^ 4) = (96 + 292 * e ^ 2 + 37 * e ^ 4) / 96 := by ring
  rw [hP]
  generalize 96 + 292 * e ^ 2 + 37 * e ^ 4 = D at *
  have e2 : ∀ B : ℝ, (-2 * c.clight / 15) * (nu m1 m2 / Real.sqrt (1 - e ^ 2) ^ 9) * xPN c a m1 m2 ^ 3 * B * c.secyer / c.rsol =
      ((-2 * c.clight / 15) * (nu m1 m2 / Real.sqrt (1 - e ^ 2) ^ 9) * xPN c a m1 m2 ^ 3 * c.secyer / c.rsol * 96 * Real.sqrt (1 - e ^ 2) ^ 2) *
        (B / (96 * Real.sqrt (1 - e ^ 2) ^ 2)) := fun B => by
    generalize Real.sqrt (1 - e ^ 2) = s at *
    field_simp
  rw [e2, hr]
  rw [hss]
  have hs2 : Real.sqrt (1 - e ^ 2) ^ 2 = 1 - e ^ 2 := hss.symm
  simp only [hs2]
  generalize hz : Real.sqrt (1 - e ^ 2) = s at *
  have hz2 : 1 - e ^ 2 = s ^ 2 := hss
  rw [hz2]
  generalize xPN c a m1 m2 = x
  field_simp

theorem gwDe_eq (c : Const) (a e m1 m2 : ℝ) (ha : 0 < a) (h1 : 0 < m1) (h2 : 0 < m2) (he : e ^ 2 < 1) :
    gwDe c a e m1 m2 = petersDe c a e m1 m2 * (1 - xPN c a m1 m2 / (56 * (1 - e ^ 2)) *
      ((8 * (16705 + 4676 * nu m1 m2) + 12 * (9082 + 2807 * nu m1 m2) * e ^ 2 - (25211 - 3388 * nu m1 m2) * e ^ 4) /
        (304 + 121 * e ^ 2))) := by
  have := c.G_pos; have := c.clight_pos; have := c.msol_pos; have := c.rsol_pos
  unfold gwDe petersDe
  rw [pw e he 7 _ (by norm_num)]
  have hs : 0 < Real.sqrt (1 - e ^ 2) := Real.sqrt_pos.2 (by linarith)
  have hss : 1 - e ^ 2 = Real.sqrt (1 - e ^ 2) ^ 2 := (Real.sq_sqrt (by linarith)).symm
  have hx : 1 / 56 * c.G * (m1 + m2) * c.msol / (a * c.rsol * c.clight ^ 2) = xPN c a m1 m2 / 56 := by unfold xPN; ring
  rw [hx]
  generalize hQ : 8 * (16705 + 4676 * nu m1 m2) + 12 * (9082 + 2807 * nu m1 m2) * e ^ 2 - (25211 - 3388 * nu m1 m2) * e ^ 4 = Q
  have hD : 0 < 304 + 121 * e ^ 2 := by positivity
  have hP : (1 + 121 / 304 * e ^ 2) = (304 + 121 * e ^ 2) / 304 := by ring
  rw [hP]
  generalize 304 + 121 * e ^ 2 = D at *
  generalize hz : Real.sqrt (1 - e ^ 2) = s at *
  rw [hss]
  have hr : (-1 / 15) * ((nu m1 m2 * c.clight ^ 3) / (c.G * (m1 + m2) * c.msol)) * xPN c a m1 m2 ^ 4 * 304 * c.secyer =
      -(304 / 15) * (c.G ^ 3 * (m1 * c.msol) * (m2 * c.msol) * ((m1 + m2) * c.msol) / (c.clight ^ 5 * (a * c.rsol) ^ 4)) * c.secyer := by
    unfold xPN nu
    field_simp
  have e2 : ∀ B : ℝ, (-1 / 15) * ((nu m1 m2 * c.clight ^ 3) / (c.G * (m1 + m2) * c.msol)) * xPN c a m1 m2 ^ 4 * (e / s ^ 7) * B * c.secyer =
      ((-1 / 15) * ((nu m1 m2 * c.clight ^ 3) / (c.G * (m1 + m2) * c.msol)) * xPN c a m1 m2 ^ 4 * 304 * c.secyer) * (e / s ^ 7 * B / 304) := fun B => by ring
  rw [e2, hr]
  generalize xPN c a m1 m2 = x
  field_simp

/-- The relative size of the correction, with `e² ≤ 1` and at most equal masses. -/
theorem corrA {e v : ℝ} (he : e ^ 2 < 1) (v0 : 0 < v) (v1 : v ≤ 1 / 4) :
    0 < (14008 + 4707 * v) + (80124 + 21560 * v) * e ^ 2 + (17325 + 10458) * e ^ 4 - 0.5 * (5501 - 1036 * v) * e ^ 6 ∧
    ((14008 + 4707 * v) + (80124 + 21560 * v) * e ^ 2 + (17325 + 10458) * e ^ 4 - 0.5 * (5501 - 1036 * v) * e ^ 6) / (96 + 292 * e ^ 2 + 37 * e ^ 4) ≤ 28 * 12 := by
  have e0 := sq_nonneg e
  have h4 : e ^ 4 = e ^ 2 * e ^ 2 := by ring
  have h6 : e ^ 6 = e ^ 2 * e ^ 2 * e ^ 2 := by ring
  rw [h4, h6]
  generalize e ^ 2 = x at *
  have x2 : x * x ≤ x := by nlinarith
  have x3 : x * x * x ≤ x := by nlinarith
  have x20 : 0 ≤ x * x := by positivity
  have x30 : 0 ≤ x * x * x := by positivity
  have hv := mul_nonneg v0.le e0
  have hv3 := mul_nonneg v0.le x30
  have hv' : v * x ≤ 1 / 4 * x := by nlinarith
  have hv3' : v * (x * x * x) ≤ 1 / 4 * (x * x * x) := by nlinarith
  refine ⟨by nlinarith, ?_⟩
  rw [div_le_iff₀ (by positivity)]
  nlinarith

theorem corrE {e v : ℝ} (he : e ^ 2 < 1) (v0 : 0 < v) (v1 : v ≤ 1 / 4) :
    0 < 8 * (16705 + 4676 * v) + 12 * (9082 + 2807 * v) * e ^ 2 - (25211 - 3388 * v) * e ^ 4 ∧
    (8 * (16705 + 4676 * v) + 12 * (9082 + 2807 * v) * e ^ 2 - (25211 - 3388 * v) * e ^ 4) / (304 + 121 * e ^ 2) ≤ 56 * 12 := by
  have e0 := sq_nonneg e
  have h4 : e ^ 4 = e ^ 2 * e ^ 2 := by ring
  rw [h4]
  generalize e ^ 2 = x at *
  have x2 : x * x ≤ x := by nlinarith
  have x20 : 0 ≤ x * x := by positivity
  have hv := mul_nonneg v0.le e0
  have hv2 := mul_nonneg v0.le x20
  have hv' : v * x ≤ 1 / 4 * x := by nlinarith
  have hv2' : v * (x * x) ≤ 1 / 4 * (x * x) := by nlinarith
  refine ⟨by nlinarith, ?_⟩
  rw [div_le_iff₀ (by positivity)]
  nlinarith

/-- **C78**: the rates of separation and eccentricity differ from those of Peters for point masses by at most twelve times
`GM/(ac²(1-e²))`, relatively, and are smaller. -/
theorem C78_gw_peters (c : Const) (a e m1 m2 : ℝ) (ha : 0 < a) (h1 : 0 < m1) (h2 : 0 < m2) (he : e ^ 2 < 1) :
    (∃ d, gwDa c a e m1 m2 = petersDa c a e m1 m2 * (1 - d) ∧ 0 < d ∧ d ≤ 12 * xPN c a m1 m2 / (1 - e ^ 2)) ∧
    (∃ d, gwDe c a e m1 m2 = petersDe c a e m1 m2 * (1 - d) ∧ 0 < d ∧ d ≤ 12 * xPN c a m1 m2 / (1 - e ^ 2)) := by
  have hx := xPN_pos c ha h1 h2
  have hz : 0 < 1 - e ^ 2 := by linarith
  obtain ⟨a1, a2⟩ := corrA he (nu_pos h1 h2) (nu_le h1 h2)
  obtain ⟨b1, b2⟩ := corrE he (nu_pos h1 h2) (nu_le h1 h2)
  refine ⟨⟨_, gwDa_eq c a e m1 m2 ha h1 h2 he, ?_, ?_⟩, ⟨_, gwDe_eq c a e m1 m2 ha h1 h2 he, ?_, ?_⟩⟩
  · exact mul_pos (by positivity) (div_pos a1 (by positivity))
  · calc _ ≤ xPN c a m1 m2 / (28 * (1 - e ^ 2)) * (28 * 12) := mul_le_mul_of_nonneg_left a2 (by positivity)
      _ = _ := by field_simp
  · exact mul_pos (by positivity) (div_pos b1 (by positivity))
  · calc _ ≤ xPN c a m1 m2 / (56 * (1 - e ^ 2)) * (56 * 12) := mul_le_mul_of_nonneg_left b2 (by positivity)
      _ = _ := by field_simp

theorem petersDa_neg (c : Const) (a e m1 m2 : ℝ) (ha : 0 < a) (h1 : 0 < m1) (h2 : 0 < m2) (he : e ^ 2 < 1) : petersDa c a e m1 m2 < 0 := by
  have := c.G_pos; have := c.clight_pos; have := c.msol_pos; have := c.rsol_pos; have := c.secyer_pos
  have hs : 0 < Real.sqrt (1 - e ^ 2) := Real.sqrt_pos.2 (by linarith)
  unfold petersDa
  rw [neg_mul, neg_mul, neg_mul, neg_div, neg_lt_zero]
  positivity

theorem petersDe_neg (c : Const) (a e m1 m2 : ℝ) (ha : 0 < a) (h1 : 0 < m1) (h2 : 0 < m2) (e0 : 0 < e) (he : e ^ 2 < 1) : petersDe c a e m1 m2 < 0 := by
  have := c.G_pos; have := c.clight_pos; have := c.msol_pos; have := c.rsol_pos; have := c.secyer_pos
  have hs : 0 < Real.sqrt (1 - e ^ 2) := Real.sqrt_pos.2 (by linarith)
  unfold petersDe
  rw [neg_mul, neg_mul, neg_mul, neg_mul, neg_lt_zero]
  positivity

/-- **C78** (separations above twelve gravitational radii over `1-e²`): gravitational radiation shrinks the orbit and makes it
rounder, and a circular orbit stays circular. -/
theorem C78_gw_sign_partial (c : Const) (a e m1 m2 : ℝ) (ha : 0 < a) (h1 : 0 < m1) (h2 : 0 < m2) (he : e ^ 2 < 1)
    (hx : 12 * xPN c a m1 m2 < 1 - e ^ 2) :
    gwDa c a e m1 m2 < 0 ∧ (0 < e → gwDe c a e m1 m2 < 0) ∧ (e = 0 → gwDe c a e m1 m2 = 0) := by
  have hz : 0 < 1 - e ^ 2 := by linarith
  have hlt : 12 * xPN c a m1 m2 / (1 - e ^ 2) < 1 := by rw [div_lt_one hz]; exact hx
  obtain ⟨⟨d, h, -, hd⟩, ⟨d', h', -, hd'⟩⟩ := C78_gw_peters c a e m1 m2 ha h1 h2 he
  refine ⟨?_, fun hp => ?_, fun h0 => ?_⟩
  · rw [h]; exact mul_neg_of_neg_of_pos (petersDa_neg c a e m1 m2 ha h1 h2 he) (by linarith)
  · rw [h']; exact mul_neg_of_neg_of_pos (petersDe_neg c a e m1 m2 ha h1 h2 hp he) (by linarith)
  · rw [h0]; simp [gwDe]

/-- **C78** (refuted): "gravitational radiation never widens an orbit".  Within five gravitational radii it does. -/
theorem C78_gw_sign_violated (c : Const) (a m1 m2 : ℝ) (ha : 0 < a) (h1 : 0 < m1) (h2 : 0 < m2) (hx : 1 / 5 ≤ xPN c a m1 m2) :
    0 < gwDa c a 0 m1 m2 := by
  rw [gwDa_eq c a 0 m1 m2 ha h1 h2 (by norm_num)]
  refine mul_pos_of_neg_of_neg (petersDa_neg c a 0 m1 m2 ha h1 h2 (by norm_num)) ?_
  have hv := nu_pos h1 h2
  norm_num
  nlinarith [mul_pos (lt_of_lt_of_le (by norm_num : (0 : ℝ) < 1 / 5) hx) hv]

/-- **C78**: the radiation does not depend on which star is called the primary. -/
theorem C78_gw_symmetric (c : Const) (a e m1 m2 : ℝ) : gwDa c a e m1 m2 = gwDa c a e m2 m1 ∧ gwDe c a e m1 m2 = gwDe c a e m2 m1 := by
  have hn : nu m1 m2 = nu m2 m1 := by unfold nu; rw [mul_comm, add_comm]
  have hx : xPN c a m1 m2 = xPN c a m2 m1 := by unfold xPN; rw [add_comm]
  unfold gwDa gwDe
  rw [hn, hx, add_comm m1 m2]
  exact ⟨rfl, rfl⟩

/-! ### Magnetic braking -/

theorem t0_neg (c : Const) (s : Star) (h : s.Physical) : t0 c s < 0 := by
  have := c.msol_pos; have := c.rsol_pos; have := c.secyer_pos
  have := h.m; have := h.R
  unfold t0
  dsimp only
  have hg : 0 < (1 + (s.omega / (Real.sqrt (c.G * s.m * c.msol / (s.R * c.rsol) ^ 3) * c.secyer) / 0.072) ^ 2) ^ (0.5 : ℝ) := by positivity
  have hK : -1.4e30 * c.secyer ^ 2 / (c.msol * c.rsol ^ 2) < 0 := by
    rw [neg_mul, neg_div, neg_lt_zero]; positivity
  exact mul_neg_of_neg_of_pos (mul_neg_of_neg_of_pos (mul_neg_of_neg_of_pos hK (by positivity)) (by positivity)) (by positivity)

theorem m15_nonpos (c : Const) (ref : ℝ) (hr : 0 < ref) (s : Star) (h : s.Physical) : m15 c ref s ≤ 0 := by
  have hT := t0_neg c s h
  have hf := fade_nonneg s.m
  have hI := h.I; have hw := h.omega; have ht := h.tau; have := c.secyer_pos
  unfold m15
  dsimp only
  by_cases hs : saturated s
  · rw [if_pos hs]
    have : 0 ≤ ((2.0 / 0.14 : ℝ) ^ (2.6 : ℝ)) * (s.omega / ref) / s.I * fade s.m := by positivity
    calc _ = t0 c s * (((2.0 / 0.14 : ℝ) ^ (2.6 : ℝ)) * (s.omega / ref) / s.I * fade s.m) := by ring
      _ ≤ 0 := mul_nonpos_of_nonpos_of_nonneg hT.le this
  · rw [if_neg hs]
    have : 0 ≤ ((s.tau / (12.9 / 365.25)) ^ (2.6 : ℝ)) * ((s.omega / (2.6e-6 * c.secyer)) ^ (2.6 + 1 : ℝ)) / s.I * fade s.m := by positivity
    calc _ = t0 c s * (((s.tau / (12.9 / 365.25)) ^ (2.6 : ℝ)) * ((s.omega / (2.6e-6 * c.secyer)) ^ (2.6 + 1 : ℝ)) / s.I * fade s.m) := by ring
      _ ≤ 0 := mul_nonpos_of_nonpos_of_nonneg hT.le this

/-- **C78**: magnetic braking never spins a star up, in each of the four laws and for either star. -/
theorem C78_braking_brakes (c : Const) (p s : Star) (hp : p.Physical) (hs : s.Physical) :
    rvj c s ≤ 0 ∧ m15Sec c s ≤ 0 ∧ m15Pri c p ≤ 0 ∧ g18 c s ≤ 0 ∧ carbSec c p s ≤ 0 ∧ carbPri c p s ≤ 0 := by
  have := c.msol_pos; have := c.rsol_pos; have := c.secyer_pos
  have hf := fade_nonneg s.m
  have := hs.m; have hI := hs.I; have hw := hs.omega; have ht := hs.tau; have := hs.R
  refine ⟨?_, m15_nonpos c _ (by positivity) s hs, m15_nonpos c _ (by norm_num) p hp, ?_, ?_, ?_⟩
  · unfold rvj
    have : 0 ≤ 3.8e-30 * (c.rsol ^ 2 / c.secyer) * s.m * s.R ^ 4 * s.omega ^ 3 / s.I * fade s.m := by positivity
    calc _ = -(3.8e-30 * (c.rsol ^ 2 / c.secyer) * s.m * s.R ^ 4 * s.omega ^ 3 / s.I * fade s.m) := by ring
      _ ≤ 0 := by linarith
  · unfold g18
    dsimp only
    generalize -1.4 * (0.03 / (2 * Real.pi / s.omega / s.tau) + 0.5 * (2 * Real.pi / s.omega / s.tau) + 1.0) = x
    have : 0 ≤ 3e41 / (c.msol * c.rsol ^ 2) * s.omega ^ 3 * s.tau * (4.05 * Real.exp x) / s.I * fade s.m := by positivity
    calc _ = -(3e41 / (c.msol * c.rsol ^ 2) * s.omega ^ 3 * s.tau * (4.05 * Real.exp x) / s.I * fade s.m) := by ring
      _ ≤ 0 := by linarith
  · unfold carbSec carb; exact neg_nonpos.2 (abs_nonneg _)
  · unfold carbPri carb; exact neg_nonpos.2 (abs_nonneg _)

/-- **C78**: a star that does not rotate is not braked. -/
theorem C78_braking_still (c : Const) (p s : Star) (hp : p.omega = 0) (hs : s.omega = 0) :
    rvj c s = 0 ∧ m15Sec c s = 0 ∧ m15Pri c p = 0 ∧ g18 c s = 0 ∧ carbSec c p s = 0 ∧ carbPri c p s = 0 := by
  have z : ((0 : ℝ)) ^ (2.6 + 1 : ℝ) = 0 := Real.zero_rpow (by norm_num)
  have hm : ∀ ref t : _, (t : Star).omega = 0 → m15 c ref t = 0 := fun ref t ht => by
    unfold m15
    dsimp only
    rw [if_neg (fun h => h.1 ht), ht, zero_div, z]
    simp
  refine ⟨by simp [rvj, hs], hm _ _ hs, hm _ _ hp, by simp [g18, hs], ?_, ?_⟩
  · unfold carbSec carb; simp [hs]
  · unfold carbPri carb; simp [hp]

/-- **C78** (all but the primary in the CARB law): stars of 1.5 solar masses and more are not braked; the factor is 1 up to 1.3
solar masses and lies between 0 and 1. -/
theorem C78_braking_mass_partial (c : Const) (p s : Star) :
    (1.5 ≤ s.m → rvj c s = 0 ∧ m15Sec c s = 0 ∧ g18 c s = 0 ∧ carbSec c p s = 0) ∧ (1.5 ≤ p.m → m15Pri c p = 0) ∧
    (∀ m, (fade m = 0 ↔ 1.5 ≤ m) ∧ (fade m = 1 ↔ m ≤ 1.3) ∧ 0 ≤ fade m ∧ fade m ≤ 1) := by
  have hm : ∀ ref (t : Star), 1.5 ≤ t.m → m15 c ref t = 0 := fun ref t ht => by
    unfold m15
    dsimp only
    rw [fade_zero.2 ht]
    simp
  refine ⟨fun h => ?_, hm _ _, fun m => ⟨fade_zero, fade_one, fade_nonneg m, fade_le m⟩⟩
  have hf := fade_zero.2 h
  refine ⟨by simp [rvj, hf], hm _ _ h, by simp [g18, hf], ?_⟩
  unfold carbSec carb; simp [hf]

/-- **C78** (refuted): "a massive star is not magnetically braked".  In the CARB law a primary of any mass is braked in full if its
companion is a low-mass star, and a low-mass primary is not braked if its companion is massive. -/
theorem C78_carb_violated (c : Const) (p s : Star) (hp : p.Physical) (w : 0 < p.omega) (t : 0 < p.tau) (hm : p.mdot ≠ 0) :
    (s.m < 1.5 → carbPri c p s < 0) ∧ (1.5 ≤ s.m → carbPri c p s = 0) := by
  have := c.msol_pos; have := c.rsol_pos; have := c.secyer_pos; have := c.G_pos
  have := hp.m; have hR := hp.R; have hI := hp.I
  refine ⟨fun h => ?_, fun h => ?_⟩
  · have hf : fade s.m ≠ 0 := fun h0 => by have := fade_zero.1 h0; linarith
    unfold carbPri carb
    dsimp only
    rw [if_pos (abs_pos.2 hm), neg_lt_zero, abs_pos]
    have hmd : 0 < p.mdot ^ 2 := by positivity
    have hr3 : 0 < p.R ^ 4 * (p.omega / (3e-6 * c.secyer)) ^ 4 * (p.tau / (2.8e6 / c.secyer)) ^ 4 /
        (p.mdot ^ 2 * (2 * c.G * p.m / p.R * (c.msol * c.secyer ^ 2 / c.rsol ^ 3) + 2 * p.omega ^ 2 * p.R ^ 2 / 0.07 ^ 2)) *
        (c.rsol ^ 2 * c.secyer / c.msol ^ 2) := by positivity
    generalize p.R ^ 4 * (p.omega / (3e-6 * c.secyer)) ^ 4 * (p.tau / (2.8e6 / c.secyer)) ^ 4 /
        (p.mdot ^ 2 * (2 * c.G * p.m / p.R * (c.msol * c.secyer ^ 2 / c.rsol ^ 3) + 2 * p.omega ^ 2 * p.R ^ 2 / 0.07 ^ 2)) *
        (c.rsol ^ 2 * c.secyer / c.msol ^ 2) = X at *
    have hX : 0 < X ^ (1 / 3 : ℝ) := Real.rpow_pos_of_pos hr3 _
    refine mul_ne_zero (div_ne_zero (mul_ne_zero (mul_ne_zero (mul_ne_zero (by norm_num) w.ne') hm) (by positivity)) hI.ne') hf
  · unfold carbPri carb; simp [fade_zero.2 h]

/-- **C78** (stars that are not saturated): the M15 law treats both stars alike; and RVJ83 and G18 do always (one function of the
star), CARB if both have the same mass. -/
theorem C78_same_law_partial (c : Const) (s : Star) : (¬ saturated s → m15Pri c s = m15Sec c s) ∧
    (∀ p t : Star, p.m = t.m → carbPri c p t = carbSec c t p) := by
  refine ⟨fun h => ?_, fun p t ht => ?_⟩
  · unfold m15Pri m15Sec m15
    dsimp only
    rw [if_neg h, if_neg h]
  · unfold carbPri carbSec
    dsimp only
    rw [ht]

/-- **C78** (refuted): "the M15 law treats both stars alike".  A saturated primary is braked as many times faster as there are
seconds in a year. -/
theorem C78_m15_violated (c : Const) (s : Star) (h : saturated s) : m15Pri c s = c.secyer * m15Sec c s := by
  have := c.secyer_pos
  unfold m15Pri m15Sec m15
  dsimp only
  rw [if_pos h, if_pos h]
  have : s.omega / 2.6e-6 = c.secyer * (s.omega / (2.6e-6 * c.secyer)) := by field_simp
  rw [this]
  ring

noncomputable def exConst : Const := ⟨6.67428e-8, 2.99792458e10, 1.9892e33, 6.9598e10, 3.1558149984e7, by norm_num, by norm_num, by norm_num, by norm_num, by norm_num⟩
/-- A young Sun rotating once in 0.01 years, and one rotating so fast that it is saturated. -/
noncomputable def exStar (w : ℝ) : Star := ⟨1, 1, w, 0.07, -1e-14, 0, 0.04⟩
example (w : ℝ) (hw : 0 ≤ w) : (exStar w).Physical := ⟨by norm_num [exStar], by norm_num [exStar], by norm_num [exStar], hw, by norm_num [exStar]⟩
example : saturated (exStar 2000) := by
  refine ⟨by norm_num [exStar], by norm_num [exStar], ?_⟩
  simp only [exStar]
  have := Real.pi_lt_d2
  rw [div_div, div_lt_iff₀ (by norm_num)]
  linarith
example : 12 * xPN exConst 100 10 10 < 1 - 0.9 ^ 2 := by norm_num [xPN, exConst]

/-! ### The sum -/

/-- What a term contributes: nothing if it is switched off or not finite. -/
def part (on : Bool) (x : Option ℝ) : ℝ := if on then x.getD 0 else 0

/-- **C78**: each rate is the sum of the contributions that are switched on, a contribution that is not finite counting as zero;
they are evaluated at the state without negative values and with an eccentricity below a thousandth taken as zero. -/
theorem C78_sum (T : Terms) (f : Flags) (m : Mode) (y : Y) (hm : f.mb = true → m ≠ .other) :
    ∃ a e ws wp, a = max y.a 0 ∧ (e = if 0 < y.e ∧ y.e < 1 / 1000 then 0 else max y.e 0) ∧ ws = max y.wSec 0 ∧ wp = max y.wPri 0 ∧
    call T f m y = .ok (⟨part f.tides (T.tides a e ws wp).1 + part f.gw (T.gw a e).1 + part f.wind (T.wind a e),
      part f.tides (T.tides a e ws wp).2.1 + part f.gw (T.gw a e).2,
      part f.tides (T.tides a e ws wp).2.2.1 + part f.mb (T.mb m ws wp).1 + part f.windSpin (T.windSpin ws wp).1,
      part f.tides (T.tides a e ws wp).2.2.2 + part f.mb (T.mb m ws wp).2 + part f.windSpin (T.windSpin ws wp).2⟩, ⟨a, max y.e 0, ws, wp⟩) := by
  refine ⟨_, _, _, _, rfl, rfl, rfl, rfl, ?_⟩
  have hE : usedE y = if 0 < y.e ∧ y.e < 1 / 1000 then 0 else max y.e 0 := by
    unfold usedE clip
    dsimp only
    have hiff : (0 < max y.e 0 ∧ max y.e 0 < 10 ^ (-3 : ℤ)) ↔ (0 < y.e ∧ y.e < 1 / 1000) := by
      have : (10 : ℝ) ^ (-3 : ℤ) = 1 / 1000 := by norm_num
      rw [this, lt_max_iff, max_lt_iff]
      constructor
      · rintro ⟨h | h, h2, -⟩
        · exact ⟨h, h2⟩
        · exact absurd h (lt_irrefl _)
      · rintro ⟨h, h2⟩; exact ⟨Or.inl h, h2, by norm_num⟩
    by_cases h : 0 < y.e ∧ y.e < 1 / 1000
    · rw [if_pos (hiff.2 h), if_pos h]
    · rw [if_neg (fun h' => h (hiff.1 h')), if_neg h]
  unfold call
  dsimp only
  rw [hE]
  set e := if 0 < y.e ∧ y.e < 1 / 1000 then 0 else max y.e 0
  obtain ⟨f1, f2, f3, f4, f5⟩ := f
  dsimp only at hm ⊢
  have hmb : ∀ r ws wp, f3 = true → addMb T m ws wp r = .ok { r with dwSec := r.dwSec + fin (T.mb m ws wp).1, dwPri := r.dwPri + fin (T.mb m ws wp).2 } :=
    fun r ws wp h => by unfold addMb; rw [if_neg (hm h)]
  have L : ∀ r : Rates, (if f3 = true then addMb T m (clip y).wSec (clip y).wPri r else .ok r) =
      .ok { r with dwSec := r.dwSec + part f3 (T.mb m (clip y).wSec (clip y).wPri).1, dwPri := r.dwPri + part f3 (T.mb m (clip y).wSec (clip y).wPri).2 } := by
    intro r
    cases f3 with
    | true => rw [if_pos rfl, hmb _ _ _ rfl]; rfl
    | false => simp [part]
  rw [L]
  cases f1 <;> cases f2 <;> cases f4 <;> cases f5 <;>
    simp only [Bool.false_eq_true, if_false, if_true, addTides, addGw, addWind, addWindSpin, part, fin, clip, zero_add, add_zero]

/-- **C78** (refuted): "an unknown law of magnetic braking is only warned about".  It stops with a type error. -/
theorem C78_unknown_violated (T : Terms) (f : Flags) (y : Y) (h : f.mb = true) : call T f .other y = .error .type := by
  unfold call
  dsimp only
  rw [if_pos h]
  rfl

/-- **C78**: in the CARB law the torque is two thirds of the angular momentum that the wind takes at the Alfvén radius, whose cube is that of Van & Ivanova. -/
theorem C78_alfven (c : Const) (m : ℝ) (s : Star) (hs : s.Physical) (hm : s.mdot ≠ 0) :
    ∃ A, 0 ≤ A ∧ |carb c m s| * s.I = 2 / 3 * s.omega * |s.mdot| * A ^ 2 * fade m ∧
      A ^ 3 * (s.mdot ^ 2 * (2 * c.G * s.m / s.R * (c.msol * c.secyer ^ 2 / c.rsol ^ 3) + 2 * (s.omega * s.R / 0.07) ^ 2)) * c.msol ^ 2 =
        s.R ^ 7 * (s.omega / (3e-6 * c.secyer)) ^ 4 * (s.tau / (2.8e6 / c.secyer)) ^ 4 * (c.rsol ^ 2 * c.secyer) := by
  have := c.msol_pos; have := c.rsol_pos; have := c.secyer_pos; have := c.G_pos
  have h1 := hs.m; have hR := hs.R; have hI := hs.I; have hw := hs.omega; have ht := hs.tau
  have hf := fade_nonneg m
  have hmd : 0 < s.mdot ^ 2 := by positivity
  have hv : 2 * (s.omega * s.R / 0.07) ^ 2 = 2 * s.omega ^ 2 * s.R ^ 2 / 0.07 ^ 2 := by ring
  rw [hv]
  set V := 2 * c.G * s.m / s.R * (c.msol * c.secyer ^ 2 / c.rsol ^ 3) + 2 * s.omega ^ 2 * s.R ^ 2 / 0.07 ^ 2 with hV
  have hVp : 0 < V := by positivity
  set rr := s.omega / (3e-6 * c.secyer) with hrr
  set tr := s.tau / (2.8e6 / c.secyer) with htr
  have hrr0 : 0 ≤ rr := by positivity
  have htr0 : 0 ≤ tr := by positivity
  set X := s.R ^ 4 * rr ^ 4 * tr ^ 4 / (s.mdot ^ 2 * V) * (c.rsol ^ 2 * c.secyer / c.msol ^ 2) with hX
  have hX0 : 0 ≤ X := by positivity
  have hroot : (X ^ (1 / 3 : ℝ)) ^ 3 = X := by
    rw [← Real.rpow_natCast, ← Real.rpow_mul hX0]; norm_num
  have hroot0 : 0 ≤ X ^ (1 / 3 : ℝ) := Real.rpow_nonneg hX0 _
  refine ⟨s.R * X ^ (1 / 3 : ℝ), by positivity, ?_, ?_⟩
  · have e : carb c m s = -|2 / 3 * s.omega * s.mdot * (s.R * X ^ (1 / 3 : ℝ)) ^ 2 / s.I * fade m| := by
      unfold carb
      dsimp only
      rw [if_pos (abs_pos.2 hm)]
    rw [e, abs_neg, abs_abs]
    rw [abs_mul, abs_div, abs_mul, abs_mul, abs_mul, abs_of_nonneg hf, abs_of_nonneg hw, abs_of_pos hI, abs_of_pos (show (0 : ℝ) < 2 / 3 by norm_num),
      abs_of_nonneg (show 0 ≤ (s.R * X ^ (1 / 3 : ℝ)) ^ 2 by positivity)]
    field_simp
  · rw [mul_pow, hroot, hX]
    field_simp

end Verif.Rhs
