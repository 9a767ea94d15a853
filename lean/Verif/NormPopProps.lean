import Verif.NormPop
import Verif.DistribProps
/-!
Property theorems for C49 (model weights) and C55 (mean mass and period density used by the weights).
-/
namespace Verif.NormPop
open Real MeasureTheory Set intervalIntegral Verif.Distrib

/-- C49: requesting the simulated population gives every system of non-zero density the weight `1/M_sim`, and every other one the weight 0. -/
theorem C49_same (p : Params) (Msim mean : ℝ) (rows : List Row) (hM : Msim ≠ 0) (hm : meanMass p = .ok mean) (hmean : mean ≠ 0) :
    weights p p Msim rows = .ok (rows.map fun r => open Classical in if pdf p r.m1 r.q r.P r.binary = 0 then 0 else 1 / Msim) := by
  unfold weights
  rw [if_neg (by rintro ⟨h1, h2⟩; linarith), if_neg (by rintro ⟨h1, h2⟩; linarith), hm]
  simp only
  congr 1
  apply List.map_congr_left
  intro r _
  unfold weight
  by_cases h : pdf p r.m1 r.q r.P r.binary = 0
  · simp [fdiv, fmul, h]
  · simp [fdiv, fmul, h, hM, hmean]

/-- C49: weights are never negative. -/
theorem C49_nonneg (sim pop : Params) (Msim a b : ℝ) (r : Row) (hM : 0 < Msim) (ha : 0 ≤ a) (hb : 0 ≤ b)
    (h1 : 0 ≤ pdf sim r.m1 r.q r.P r.binary) (h2 : 0 ≤ pdf pop r.m1 r.q r.P r.binary) : 0 ≤ weight sim pop Msim a b r := by
  unfold weight
  simp only [fdiv]
  split_ifs <;> simp only [fmul, Option.getD_none, Option.getD_some, le_refl]
  positivity

/-- C49: outside the support of the requested population, or of the simulated one, the weight is 0. -/
theorem C49_outside (sim pop : Params) (Msim a b : ℝ) (r : Row)
    (h : pdf pop r.m1 r.q r.P r.binary = 0 ∨ pdf sim r.m1 r.q r.P r.binary = 0) : weight sim pop Msim a b r = 0 := by
  unfold weight
  simp only [fdiv]
  rcases h with h | h
  · rw [h]; split_ifs <;> simp [fmul]
  · rw [h, if_pos rfl]; simp [fmul]

/-- C49, importance weighting: where the simulation covers the requested population, weight times simulated density is the
requested density, times a constant which does not depend on the system. -/
theorem C49_reweights (sim pop : Params) (Msim a b : ℝ) (hM : Msim ≠ 0) (hb : b ≠ 0) (r : Row)
    (hcov : pdf sim r.m1 r.q r.P r.binary = 0 → pdf pop r.m1 r.q r.P r.binary = 0) :
    weight sim pop Msim a b r * pdf sim r.m1 r.q r.P r.binary = pdf pop r.m1 r.q r.P r.binary * (a / b / Msim) := by
  unfold weight
  simp only [fdiv]
  by_cases h : pdf sim r.m1 r.q r.P r.binary = 0
  · rw [h, hcov h]; simp
  · rw [if_neg h, if_neg hM, if_neg hb]
    simp only [fmul, Option.getD_some]
    field_simp

/-- C49: the densities compared are those of one population of single stars and binaries: at each primary mass the single stars and the
binaries of all mass ratios and periods together have the density of the initial mass function, and the binaries the fraction `fb`. -/
theorem C49_density_split (p : Params) (m1 ql qh Pl Ph : ℝ) (hq : ∫ q in ql..qh, p.qpdf q m1 = 1)
    (hP : ∀ q, ∫ P in Pl..Ph, p.period P m1 q = 1) :
    (∫ q in ql..qh, ∫ P in Pl..Ph, pdf p m1 q P true) = p.fb * p.imf m1 ∧
    (∀ q P, (∫ q in ql..qh, ∫ P in Pl..Ph, pdf p m1 q P true) + pdf p m1 q P false = p.imf m1) := by
  have h : (∫ q in ql..qh, ∫ P in Pl..Ph, pdf p m1 q P true) = p.fb * p.imf m1 := by
    simp only [pdf, if_true, intervalIntegral.integral_const_mul, hP, hq, mul_one]
  refine ⟨h, fun q P => ?_⟩
  rw [h]; simp only [pdf, Bool.false_eq_true, if_false]; ring

/-- C49: asking for single stars of a binaries-only simulation, or for binaries of a singles-only simulation, is refused;
a population which shares some fraction is not refused for that reason. -/
theorem C49_refused (sim pop : Params) (Msim : ℝ) (rows : List Row) :
    (sim.fb = 1 → pop.fb = 0 → weights sim pop Msim rows = .error .value) ∧
    (sim.fb = 0 → pop.fb = 1 → weights sim pop Msim rows = .error .value) := by
  refine ⟨fun h1 h2 => ?_, fun h1 h2 => ?_⟩
  · unfold weights; rw [if_pos ⟨h1, h2⟩]
  · unfold weights; rw [if_neg (by rintro ⟨h3, _⟩; linarith), if_pos ⟨h1, h2⟩]

/-- The mass-ratio density used by the weights is a density for every primary mass above the minimum. -/
theorem C55_mass_ratio_density (smin smax m1 : ℝ) (hm : smin < m1) (hs : smin < smax) (h0 : 0 < smax) (h1 : 0 < m1) :
    IsDensity (fun q => flatQPdf smin smax q m1) (max (smin / m1) 0) (min (smax / m1) 1) := by
  have hlt : max (smin / m1) 0 < min (smax / m1) 1 := by
    rw [max_lt_iff, lt_min_iff, lt_min_iff, div_lt_div_iff_of_pos_right h1, div_lt_one h1]
    exact ⟨⟨hs, hm⟩, by positivity, one_pos⟩
  set lo := max (smin / m1) 0
  set hi := min (smax / m1) 1
  have hd : 0 < hi - lo := by linarith
  have hout : ∀ x, x < lo ∨ hi < x → flatQPdf smin smax x m1 = 0 := by
    intro x hx
    simp only [flatQPdf]
    rw [if_neg]
    rintro ⟨h1, h2⟩
    rcases hx with hx | hx <;> linarith
  refine ⟨fun x => ?_, hout, ?_⟩
  · simp only [flatQPdf]
    split_ifs
    · positivity
    · exact le_refl _
  · rw [integral_of_support (g := fun _ => 1 / (hi - lo)) hlt.le _ hout]
    · rw [intervalIntegral.integral_const, smul_eq_mul]; field_simp
    · intro x hx
      simp only [flatQPdf]
      rw [if_pos ⟨hx.1, hx.2⟩]

/-- C55 fails: `get_mean_mass` integrates the mass ratio from `secondary_mass_min / primary_mass_min`, but the systems with primary mass `m1` are spread
over ratios down to `secondary_mass_min / m1`. So for every primary above the minimum part of the companions is missed: the
integral which should be 1 is smaller. -/
theorem C55_mean_mass_violated (smin smax m1min m1max m1 : ℝ) (h0 : 0 < smin) (hmin : smin < m1min) (hmax : m1max ≤ smax)
    (hm : m1min < m1) (hm' : m1 ≤ m1max) :
    (∫ q in meanQLo smin m1min..meanQHi smax m1max, flatQPdf smin smax q m1) < 1 := by
  have hm1min : 0 < m1min := h0.trans hmin
  have hm1 : 0 < m1 := hm1min.trans hm
  have hmm : 0 < m1max := hm1.trans_le hm'
  have e1 : meanQHi smax m1max = 1 := by
    unfold meanQHi; rw [min_eq_right]; rw [le_div_iff₀ hmm]; linarith
  have e2 : meanQLo smin m1min = smin / m1min := by unfold meanQLo; rw [max_eq_left]; positivity
  have e3 : min (smax / m1) 1 = 1 := by rw [min_eq_right]; rw [le_div_iff₀ hm1]; linarith
  have e4 : max (smin / m1) 0 = smin / m1 := by rw [max_eq_left]; positivity
  have hlt : smin / m1 < smin / m1min := div_lt_div_of_pos_left h0 hm1min hm
  have hlt1 : smin / m1min < 1 := by rw [div_lt_one hm1min]; exact hmin
  rw [e1, e2, intervalIntegral.integral_congr (g := fun _ => 1 / (1 - smin / m1))]
  · rw [intervalIntegral.integral_const, smul_eq_mul]
    rw [mul_one_div, div_lt_one (by linarith)]
    linarith
  · intro q hq
    rw [uIcc_of_le hlt1.le] at hq
    simp only [flatQPdf]
    rw [e3, e4, if_pos ⟨lt_of_lt_of_le hlt hq.1, hq.2⟩]

/-- C55: with constant limits `q_min`, `q_max` (then both the density and the integration use the same limits) the integral is 1. -/
theorem C55_fixed_limits_partial (qmin qmax : ℝ) (h : qmin < qmax) : ∫ q in qmin..qmax, flatPdf qmin qmax q = 1 := by
  have hd := C25_flat_mass_ratio qmin qmax h
  rw [← hd.total]
  exact (integral_of_support h.le (fun _ _ => rfl) hd.zero_outside).symm

theorem sepOf_strictMono {K m1 m2 : ℝ} (hK : 0 < K) (hm : 0 < m1 + m2) {P P' : ℝ} (h0 : 0 < P) (h : P < P') :
    sepOf K P m1 m2 < sepOf K P' m1 m2 := by
  unfold sepOf
  apply Real.rpow_lt_rpow (by positivity) _ (by norm_num)
  have : P ^ 2 < P' ^ 2 := by nlinarith
  have hKm : 0 < K * (m1 + m2) := mul_pos hK hm
  nlinarith

/-- C55 fails for `orbital_scheme = 'separation'`: separations are drawn log-uniformly, so `log P` is uniformly distributed and its density is constant; the density used
for the weights (compared with densities in `log P` of the period schemes) decreases with the period instead. -/
theorem C55_separation_violated (K lo hi m1 q P P' : ℝ) (hK : 0 < K) (hlo : 0 < lo) (h : lo < hi) (hm : 0 < m1) (hq : 0 ≤ q)
    (h0 : 0 < P) (hP : P < P') (h1 : lo ≤ sepOf K P m1 (q * m1)) (h2 : sepOf K P' m1 (q * m1) ≤ hi) :
    sepPeriodPdf K lo hi P' m1 q < sepPeriodPdf K lo hi P m1 q := by
  have hs : sepOf K P m1 (q * m1) < sepOf K P' m1 (q * m1) := sepOf_strictMono hK (by positivity) h0 hP
  have hlg := lg_lt hlo h
  have hpos : 0 < sepOf K P m1 (q * m1) := lt_of_lt_of_le hlo h1
  unfold sepPeriodPdf logUniformPdf
  rw [if_pos ⟨hpos.trans hs, h1.trans hs.le, h2⟩, if_pos ⟨hpos, h1, hs.le.trans h2⟩]
  have : 0 < 1 / (lg hi - lg lo) := by
    have : 0 < lg hi - lg lo := by linarith
    positivity
  have := div_lt_div_of_pos_left this hpos hs
  linarith

/-- C55: the period that corresponds to a log-uniform separation is log-uniform: `log10 P` is an affine function of the uniform draw, with slope
`3/2 (lg hi - lg lo)` which depends neither on masses nor on the draw. -/
theorem C55_separation_truth (K lo hi m1 m2 P u : ℝ) (hK : 0 < K) (hm : 0 < m1 + m2) (hP : 0 < P)
    (h : sepOf K P m1 m2 = logUniformRvs lo hi u) :
    lg P = (3 / 2) * lg lo - lg (K * (m1 + m2)) / 2 + (3 / 2) * (lg hi - lg lo) * u := by
  have hl10 : (0 : ℝ) < Real.log 10 := Real.log_pos (by norm_num)
  have hKm : 0 < K * (m1 + m2) := mul_pos hK hm
  unfold sepOf logUniformRvs uniformRvs at h
  have h' := congrArg Real.log h
  rw [Real.log_rpow (by positivity), Real.log_rpow (by norm_num), Real.log_mul hKm.ne' (by positivity), Real.log_pow] at h'
  have e1 : Real.log P = lg P * Real.log 10 := by unfold lg; field_simp
  have e2 : Real.log (K * (m1 + m2)) = lg (K * (m1 + m2)) * Real.log 10 := by unfold lg; field_simp
  rw [e1, e2] at h'
  have h2 : (lg (K * (m1 + m2)) + 2 * lg P) / 3 * Real.log 10 = (lg lo + (lg hi - lg lo) * u) * Real.log 10 := by
    rw [← h']; push_cast; ring
  have h3 := mul_right_cancel₀ hl10.ne' h2
  linarith

/-! ### Concrete cases -/

/-- A population of the default shape, used as simulated and requested population. -/
noncomputable def p0 : Params :=
  ⟨fun _ => 1, fun _ _ => 1, 1 / 2, fun _ _ _ => 1, 7, 8, 0, 1⟩

example : meanMass p0 = .ok (75 / 8) := by
  unfold meanMass
  rw [if_neg (by norm_num [p0])]
  congr 1
  have h1 : ∀ m : ℝ, (∫ q in p0.qlo..p0.qhi, (m + m * q) * massPdf p0 m q true) = 3 / 4 * m := by
    intro m
    simp only [massPdf, p0, if_true]
    rw [intervalIntegral.integral_mul_const, intervalIntegral.integral_add (by simp) (by
      apply Continuous.intervalIntegrable; fun_prop), intervalIntegral.integral_const_mul, integral_id]
    simp; ring
  simp only [h1]
  simp only [massPdf, p0]
  rw [intervalIntegral.integral_const_mul, intervalIntegral.integral_mul_const, integral_id]
  norm_num
example : (∫ q in (0:ℝ)..1, p0.qpdf q 7 = 1) ∧ (∀ q, ∫ P in (0:ℝ)..1, p0.period P 7 q = 1) := by simp [p0]
example : weight p0 p0 10 3 3 ⟨true, 7, 1, 1⟩ = 1 / 10 := by
  simp [weight, pdf, p0, fdiv, fmul]
example : (0 : ℝ) < 0.35 ∧ (0.35 : ℝ) < 7 ∧ (120 : ℝ) ≤ 120 ∧ (7 : ℝ) < 20 ∧ (20 : ℝ) ≤ 120 := by norm_num

end Verif.NormPop
