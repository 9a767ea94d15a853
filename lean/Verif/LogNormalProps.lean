import Mathlib.Probability.Distributions.Gaussian.Real
import Verif.LogNormal
/-!
Property theorems for C25 (probability densities and their samplers): separations from a log-normal distribution, circular orbits.
-/
namespace Verif.Distrib
open Real MeasureTheory Set intervalIntegral

/-- C25: for all parameters that are accepted, the density of separations of the truncated log-normal distribution is a density between its limits. -/
theorem C25_log_normal (mean sigma min max : ℝ) (s : Sep) (h : Sep.make mean sigma min max = .ok s) : IsDensity s.pdf min max := by
  obtain ⟨e, h0, h1, hs⟩ := Sep.make_ok h
  have hl : 0 < Real.log 10 := Real.log_pos (by norm_num)
  have hlt := low_lt_high h0 h1 hs
  have hZ : 0 < ∫ t in s.low..s.high, phi t := intervalIntegral_pos_of_pos_on (phi_continuous.intervalIntegrable _ _) (fun t _ => phi_pos t) hlt
  have hout : ∀ x, x < s.min ∨ s.max < x → s.pdf x = 0 := by
    intro x hx
    unfold Sep.pdf
    rw [if_neg]
    rintro ⟨_, h2, h3⟩
    rcases hx with hx | hx <;> linarith
  have hmin : s.min = min := by rw [e]
  have hmax : s.max = max := by rw [e]
  rw [← hmin, ← hmax]
  refine ⟨fun x => ?_, hout, ?_⟩
  · unfold Sep.pdf truncPdf
    dsimp only
    by_cases hx : 0 < x ∧ s.min ≤ x ∧ x ≤ s.max
    · rw [if_pos hx]
      have := hx.1
      have := (phi_pos ((lg x - s.mean) / s.sigma)).le
      split_ifs
      · positivity
      · simp
    · rw [if_neg hx]
  · rw [integral_of_support (g := s.pdf) h1.le (fun _ _ => rfl) hout, Sep.integral_to h0 h1 hs h1.le (le_refl _)]
    exact div_self hZ.ne'

/-- C25: a value of the truncated normal distribution with cumulative probability `u` becomes a separation between the limits up to which the density has the integral `u`. -/
theorem C25_log_normal_rvs (mean sigma min max : ℝ) (s : Sep) (h : Sep.make mean sigma min max = .ok s) (u y : ℝ)
    (hy1 : lg min ≤ y) (hy2 : y ≤ lg max) (hu : ∫ t in lg min..y, truncPdf s.low s.high mean sigma t = u) :
    min ≤ Sep.rvs y ∧ Sep.rvs y ≤ max ∧ ∫ a in min..Sep.rvs y, s.pdf a = u := by
  obtain ⟨e, h0, h1, hs⟩ := Sep.make_ok h
  have hmin : s.min = min := by rw [e]
  have hmax : s.max = max := by rw [e]
  have hmean : s.mean = mean := by rw [e]
  have hsig : s.sigma = sigma := by rw [e]
  rw [← hmin] at hy1 hu ⊢
  rw [← hmax] at hy2 ⊢
  rw [← hmean, ← hsig] at hu
  have hx1 : s.min ≤ Sep.rvs y := by
    conv_lhs => rw [← ten_rpow_lg h0]
    exact Real.rpow_le_rpow_of_exponent_le (by norm_num) hy1
  have hx2 : Sep.rvs y ≤ s.max := by
    conv_rhs => rw [← ten_rpow_lg (h0.trans h1)]
    exact Real.rpow_le_rpow_of_exponent_le (by norm_num) hy2
  refine ⟨hx1, hx2, ?_⟩
  have hlg : lg (Sep.rvs y) = y := by
    unfold lg Sep.rvs
    rw [Real.log_rpow (by norm_num)]
    exact mul_div_cancel_right₀ _ (Real.log_pos (by norm_num)).ne'
  rw [Sep.integral_to h0 h1 hs hx1 hx2, hlg, ← hu]
  -- the truncated normal distribution up to `y`
  have e2 : ∫ t in lg s.min..y, truncPdf s.low s.high s.mean s.sigma t =
      ∫ t in lg s.min..y, (fun r => phi r / (∫ r in s.low..s.high, phi r)) (t / s.sigma - s.mean / s.sigma) / s.sigma := by
    rw [intervalIntegral.integral_of_le hy1, intervalIntegral.integral_of_le hy1]
    apply setIntegral_congr_fun measurableSet_Ioc
    intro t ht
    unfold truncPdf
    dsimp only
    rw [if_pos, sub_div]
    unfold Sep.low Sep.high
    exact ⟨div_le_div_of_nonneg_right (by linarith [ht.1]) hs.le, div_le_div_of_nonneg_right (by linarith [ht.2]) hs.le⟩
  rw [e2, intervalIntegral.integral_div,
    intervalIntegral.integral_comp_div_sub (f := fun r => phi r / (∫ r in s.low..s.high, phi r)) hs.ne', intervalIntegral.integral_div]
  simp only [smul_eq_mul]
  rw [← sub_div, ← sub_div]
  unfold Sep.low
  field_simp

/-- C25: for every draw there is such a value, so that every draw gives a separation. -/
theorem C25_log_normal_draws (mean sigma min max : ℝ) (s : Sep) (h : Sep.make mean sigma min max = .ok s) (u : ℝ) (h0 : 0 ≤ u) (h1 : u ≤ 1) :
    ∃ x, min ≤ x ∧ x ≤ max ∧ ∫ a in min..x, s.pdf a = u := by
  obtain ⟨e, hp, hm, hs⟩ := Sep.make_ok h
  have hmin : s.min = min := by rw [e]
  have hmax : s.max = max := by rw [e]
  rw [← hmin, ← hmax]
  have hlt := low_lt_high hp hm hs
  have hZ : 0 < ∫ t in s.low..s.high, phi t := intervalIntegral_pos_of_pos_on (phi_continuous.intervalIntegrable _ _) (fun t _ => phi_pos t) hlt
  have hc : ContinuousOn (fun x => (∫ t in s.low..(lg x - s.mean) / s.sigma, phi t) / ∫ t in s.low..s.high, phi t) (Icc s.min s.max) := by
    apply ContinuousOn.div_const
    have h2 : Continuous (fun y => ∫ t in s.low..y, phi t) := intervalIntegral.continuous_primitive (fun a b => phi_continuous.intervalIntegrable a b) _
    refine h2.comp_continuousOn ?_
    intro x hx
    have hx0 : x ≠ 0 := (hp.trans_le hx.1).ne'
    apply ContinuousAt.continuousWithinAt
    unfold lg
    exact (((Real.continuousAt_log hx0).div_const _).sub_const _).div_const _
  have hrange := intermediate_value_Icc hm.le hc
  have hmem : u ∈ Icc ((fun x => (∫ t in s.low..(lg x - s.mean) / s.sigma, phi t) / ∫ t in s.low..s.high, phi t) s.min)
      ((fun x => (∫ t in s.low..(lg x - s.mean) / s.sigma, phi t) / ∫ t in s.low..s.high, phi t) s.max) := by
    have ea : (∫ t in s.low..(lg s.min - s.mean) / s.sigma, phi t) = 0 := by
      show (∫ t in s.low..s.low, phi t) = 0
      exact intervalIntegral.integral_same
    have eb : (∫ t in s.low..(lg s.max - s.mean) / s.sigma, phi t) / (∫ t in s.low..s.high, phi t) = 1 := div_self hZ.ne'
    dsimp only
    rw [ea, eb, zero_div]
    exact ⟨h0, h1⟩
  obtain ⟨x, hx, hxu⟩ := hrange hmem
  refine ⟨x, hx.1, hx.2, ?_⟩
  rw [Sep.integral_to hp hm hs hx.1 hx.2]
  exact hxu

/-- C25: parameters are refused exactly if the smallest separation is not positive, the largest is not larger, or the width is not positive. -/
theorem C25_log_normal_refused (mean sigma min max : ℝ) :
    Sep.make mean sigma min max = .error .value ↔ min ≤ 0 ∨ max ≤ min ∨ sigma ≤ 0 := by
  unfold Sep.make
  by_cases h1 : min ≤ 0
  · simp [h1]
  · by_cases h2 : max ≤ min
    · simp [h1, h2]
    · by_cases h3 : sigma ≤ 0
      · simp [h1, h2, h3]
      · simp [h1, h2, h3]

/-- The default parameters are accepted. -/
example : Sep.make 0.85 0.37 5 100000 = .ok ⟨0.85, 0.37, 5, 100000⟩ := by
  unfold Sep.make
  norm_num

/-- C25 fails for circular orbits: the function given as density has the integral 0, although all draws are at 0. -/
theorem C25_zero_eccentricity_violated : ∫ e, zeroPdf e = 0 ∧ ∀ u, zeroRvs u = 0 := by
  refine ⟨?_, fun _ => rfl⟩
  rw [show zeroPdf = Set.indicator {0} (fun _ => (1 : ℝ)) from ?_]
  · rw [MeasureTheory.integral_indicator (measurableSet_singleton 0)]
    simp
  · funext e
    simp [zeroPdf, Set.indicator]

/-- C25: read as a probability of single values it is right: 1 for the value drawn and 0 for all others. -/
theorem C25_zero_eccentricity_partial (e u : ℝ) : zeroPdf e = if zeroRvs u = e then 1 else 0 := by
  unfold zeroPdf zeroRvs
  by_cases h : e = 0
  · simp [h]
  · simp [h, Ne.symm h]

/-- C25. The density before it is cut off is that of the standard normal distribution. -/
theorem C25_standard_normal (t : ℝ) : phi t = ProbabilityTheory.gaussianPDFReal 0 1 t := by
  unfold phi ProbabilityTheory.gaussianPDFReal
  simp [div_eq_inv_mul]

end Verif.Distrib
