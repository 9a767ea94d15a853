import Verif.Distrib
/-!
Model of the two remaining distributions of `/repo/posydon/popsyn/distributions.py`: `LogNormalSeparation` (l.1107-1245) and `ZeroEccentricity` (l.1047-1104).

Simplifications: real numbers, one element at a time; `scipy.stats.truncnorm` is written out (normal density divided by the scale and by the probability of the
interval); its sampler is any value whose cumulative probability is the uniform draw.
-/
namespace Verif.Distrib
open Real MeasureTheory Set intervalIntegral

noncomputable section

inductive SepErr
  | value
  deriving DecidableEq

/-- The parameters of `LogNormalSeparation`. -/
structure Sep where
  mean : ℝ
  sigma : ℝ
  min : ℝ
  max : ℝ

open Classical in
/-- `LogNormalSeparation.__init__`, l.1159-1169. -/
def Sep.make (mean sigma min max : ℝ) : Except SepErr Sep :=
  if min ≤ 0 then .error .value
  else if max ≤ min then .error .value
  else if sigma ≤ 0 then .error .value
  else .ok ⟨mean, sigma, min, max⟩

/-- The density of the standard normal distribution. -/
def phi (t : ℝ) : ℝ := Real.exp (-t ^ 2 / 2) / Real.sqrt (2 * π)

/-- `a_low`, l.1172. -/
def Sep.low (s : Sep) : ℝ := (lg s.min - s.mean) / s.sigma

/-- `a_high`, l.1173. -/
def Sep.high (s : Sep) : ℝ := (lg s.max - s.mean) / s.sigma

/-- `truncnorm.pdf(x, low, high, loc=mean, scale=sigma)`. -/
def truncPdf (low high loc scale x : ℝ) : ℝ :=
  let t := (x - loc) / scale
  if low ≤ t ∧ t ≤ high then phi t / (∫ r in low..high, phi r) / scale else 0

/-- `LogNormalSeparation.pdf`, l.1201-1215. -/
def Sep.pdf (s : Sep) (a : ℝ) : ℝ :=
  if 0 < a ∧ s.min ≤ a ∧ a ≤ s.max then truncPdf s.low s.high s.mean s.sigma (lg a) / (a * Real.log 10) else 0

/-- `LogNormalSeparation.rvs`, l.1236-1245, for the value `y` drawn by `truncnorm.rvs`. -/
def Sep.rvs (y : ℝ) : ℝ := (10 : ℝ) ^ y

/-- `ZeroEccentricity.pdf`, l.1086-1087. -/
def zeroPdf (e : ℝ) : ℝ := if e = 0 then 1 else 0

/-- `ZeroEccentricity.rvs`, l.1104. -/
def zeroRvs (_u : ℝ) : ℝ := 0

/-! ### Lemmas -/

theorem phi_pos (t : ℝ) : 0 < phi t := by
  unfold phi
  have : 0 < Real.sqrt (2 * π) := Real.sqrt_pos.2 (by positivity)
  positivity

theorem phi_continuous : Continuous phi := by unfold phi; fun_prop

theorem Sep.make_ok {mean sigma min max : ℝ} {s : Sep} (h : Sep.make mean sigma min max = .ok s) :
    s = ⟨mean, sigma, min, max⟩ ∧ 0 < s.min ∧ s.min < s.max ∧ 0 < s.sigma := by
  unfold Sep.make at h
  by_cases h1 : min ≤ 0
  · rw [if_pos h1] at h; cases h
  · by_cases h2 : max ≤ min
    · rw [if_neg h1, if_pos h2] at h; cases h
    · by_cases h3 : sigma ≤ 0
      · rw [if_neg h1, if_neg h2, if_pos h3] at h; cases h
      · rw [if_neg h1, if_neg h2, if_neg h3] at h
        injection h with h
        subst h
        exact ⟨rfl, not_le.1 h1, not_le.1 h2, not_le.1 h3⟩

theorem low_lt_high {s : Sep} (h0 : 0 < s.min) (h1 : s.min < s.max) (hs : 0 < s.sigma) : s.low < s.high := by
  unfold Sep.low Sep.high
  exact div_lt_div_of_pos_right (by have := lg_lt h0 h1; linarith) hs

theorem lg_le {x y : ℝ} (hx : 0 < x) (h : x ≤ y) : lg x ≤ lg y := by
  rcases h.lt_or_eq with h | h
  · exact (lg_lt hx h).le
  · rw [h]

/-- The integral of the density up to a separation is the probability of the truncated normal distribution up to its logarithm. -/
theorem Sep.integral_to {s : Sep} (h0 : 0 < s.min) (h1 : s.min < s.max) (hs : 0 < s.sigma) {x : ℝ} (hx1 : s.min ≤ x) (hx2 : x ≤ s.max) :
    ∫ a in s.min..x, s.pdf a = (∫ t in s.low..(lg x - s.mean) / s.sigma, phi t) / ∫ t in s.low..s.high, phi t := by
  have hl : 0 < Real.log 10 := Real.log_pos (by norm_num)
  set Z := ∫ t in s.low..s.high, phi t with hZ
  have e1 : ∫ a in s.min..x, s.pdf a = ∫ a in s.min..x, ((fun t => phi t / Z) ∘ (fun a => (lg a - s.mean) / s.sigma)) a * (1 / (a * Real.log 10) / s.sigma) := by
    rw [intervalIntegral.integral_of_le hx1, intervalIntegral.integral_of_le hx1]
    apply setIntegral_congr_fun measurableSet_Ioc
    intro a ha
    have ha0 : 0 < a := h0.trans ha.1
    dsimp only [Sep.pdf, Function.comp]
    rw [if_pos ⟨ha0, ha.1.le, ha.2.trans hx2⟩]
    unfold truncPdf
    dsimp only
    rw [if_pos]
    · rw [← hZ]; field_simp
    · unfold Sep.low Sep.high
      exact ⟨div_le_div_of_nonneg_right (by have := lg_le h0 ha.1.le; linarith) hs.le,
        div_le_div_of_nonneg_right (by have := lg_le ha0 (ha.2.trans hx2); linarith) hs.le⟩
  rw [e1]
  have hd : ∀ a ∈ uIcc s.min x, HasDerivAt (fun a => (lg a - s.mean) / s.sigma) (1 / (a * Real.log 10) / s.sigma) a := by
    intro a ha
    rw [uIcc_of_le hx1] at ha
    have ha0 : a ≠ 0 := (h0.trans_le ha.1).ne'
    have := (((Real.hasDerivAt_log ha0).div_const (Real.log 10)).sub_const s.mean).div_const s.sigma
    refine this.congr_deriv ?_
    field_simp
  rw [intervalIntegral.integral_comp_mul_deriv hd ?_ (by
    have := phi_continuous
    fun_prop)]
  · rw [intervalIntegral.integral_div]
    rfl
  · intro a ha
    rw [uIcc_of_le hx1] at ha
    have ha0 : a ≠ 0 := (h0.trans_le ha.1).ne'
    apply ContinuousAt.continuousWithinAt
    apply ContinuousAt.div_const
    apply ContinuousAt.div continuousAt_const (by fun_prop)
    exact mul_ne_zero ha0 hl.ne'

end

end Verif.Distrib
