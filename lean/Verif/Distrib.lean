import Mathlib.Analysis.SpecialFunctions.Integrals.Basic
import Mathlib.MeasureTheory.Integral.IntervalIntegral.Basic
/-!
Model of the one-dimensional distributions of `/repo/posydon/popsyn/distributions.py` (`FlatMassRatio` l.11-151,
`PowerLawMassRatio` l.154-294, `Sana12Period` l.297-542, `PowerLawPeriod` l.545-701, `LogUniform` l.704-810,
`ThermalEccentricity` l.813-945, `UniformEccentricity` l.948-1044) and `/repo/posydon/popsyn/IMFs.py` (`IMFBase` l.16-107,
`Salpeter` l.110-205, `Kroupa1993` l.208-303, `Kroupa2001` l.306-445, `Chabrier2003` l.448-566).

Simplifications: real numbers; arrays are handled one element at a time; `quad` is the exact integral; `log10 x` is
`log x / log 10`.  Parameters are those accepted by the constructors.  `u` is a uniform draw in `[0, 1)`.
-/
namespace Verif.Distrib
open Real MeasureTheory Set intervalIntegral

noncomputable section

/-- The common scheme (distributions.py l.84-131, 224-271, 611-670; IMFs.py l.53-90): a function `raw` is integrated over the
support by `quad`, the density is `raw` divided by the integral inside the support and 0 outside.  `left` says whether the lower limit
itself belongs to the support. -/
def quadPdf (raw : ℝ → ℝ) (a b : ℝ) (left : Bool) (x : ℝ) : ℝ :=
  if (if left then a ≤ x else a < x) ∧ x ≤ b then raw x * (1 / ∫ t in a..b, raw t) else 0

/-- `FlatMassRatio.pdf`. -/
def flatPdf (qmin qmax : ℝ) : ℝ → ℝ := quadPdf (fun _ => 1) qmin qmax false

/-- `rng.uniform(lo, hi)`; `FlatMassRatio.rvs` l.151, `UniformEccentricity.rvs` l.1044. -/
def uniformRvs (lo hi u : ℝ) : ℝ := lo + (hi - lo) * u

/-- `PowerLawMassRatio.pdf`. -/
def powerQPdf (alpha qmin qmax : ℝ) : ℝ → ℝ := quadPdf (fun q => q ^ alpha) qmin qmax false

/-- `log10`. -/
def lg (x : ℝ) : ℝ := Real.log x / Real.log 10

/-- `PowerLawPeriod.pdf` as a function of log10 P, the variable it is normalised in (l.620-626). -/
def powerPPdf (slope pmin pmax : ℝ) : ℝ → ℝ := quadPdf (fun lp => ((10 : ℝ) ^ lp) ^ slope) (lg pmin) (lg pmax) true

/-- `Sana12Period.sana12_period` for `m1 <= 15` (l.417-418) and above (l.420-437); `s` is the slope 0.55, `k` the break 0.15. -/
def sanaRaw (pmin pmax : ℝ) (high : Bool) (lp : ℝ) : ℝ :=
  if high then
    let s : ℝ := 0.55
    let k : ℝ := 0.15
    let beta := 1 - s
    let A := k ^ (-s) * (k - lg pmin)
    let B := 1 / beta * ((lg pmax) ^ beta - k ^ beta)
    let C := 1 / (A + B)
    if lg pmin ≤ lp ∧ lp < k then C * k ^ (-s)
    else if k ≤ lp ∧ lp ≤ lg pmax then C * lp ^ (-s) else 0
  else 1

/-- `Sana12Period.pdf` as a function of log10 P (l.442-475). -/
def sanaPdf (pmin pmax : ℝ) (m1 : ℝ) : ℝ → ℝ := quadPdf (sanaRaw pmin pmax (decide (15 < m1))) (lg pmin) (lg pmax) true

/-- `LogUniform.pdf`, l.755-786. -/
def logUniformPdf (lo hi x : ℝ) : ℝ := if 0 < x ∧ lo ≤ x ∧ x ≤ hi then (1 / (lg hi - lg lo)) / x else 0

/-- `LogUniform.rvs`, l.807-810. -/
def logUniformRvs (lo hi u : ℝ) : ℝ := (10 : ℝ) ^ uniformRvs (lg lo) (lg hi) u

/-- `ThermalEccentricity.pdf`, l.874-921. -/
def thermalPdf (emin emax e : ℝ) : ℝ := if emin ≤ e ∧ e ≤ emax then 2 * e * (1 / (emax ^ 2 - emin ^ 2)) else 0

/-- `ThermalEccentricity.rvs`, l.944-945. -/
def thermalRvs (emin emax u : ℝ) : ℝ := Real.sqrt (u * (emax ^ 2 - emin ^ 2) + emin ^ 2)

/-- `UniformEccentricity.pdf`, l.995, 1007-1024. -/
def uniformPdf (emin emax e : ℝ) : ℝ := if emin ≤ e ∧ e ≤ emax then 1 / (emax - emin) else 0

/-- `Salpeter.pdf` and `Kroupa1993.pdf` (IMFs.py l.155-173, 253-271 and l.69-90). -/
def powerImfPdf (alpha mmin mmax : ℝ) : ℝ → ℝ := quadPdf (fun m => m ^ (-alpha)) mmin mmax true

/-- `Salpeter.rvs` and `Kroupa1993.rvs`, IMFs.py l.198-205, 296-303. -/
def powerImfRvs (alpha mmin mmax u : ℝ) : ℝ :=
  let nc := (1 - alpha) / (mmax ^ (1 - alpha) - mmin ^ (1 - alpha))
  (u * (1 - alpha) / nc + mmin ^ (1 - alpha)) ^ (1 / (1 - alpha))

/-- `Kroupa2001.imf`, l.382-413. -/
def kroupaRaw (a1 a2 a3 b1 b2 mmin m : ℝ) : ℝ :=
  let c1 := (b1 / mmin) ^ (-a1)
  let c2 := c1 * (b2 / b1) ^ (-a2)
  if m < b1 then (m / mmin) ^ (-a1)
  else if m < b2 then c1 * (m / b1) ^ (-a2)
  else c2 * (m / b2) ^ (-a3)

/-- `Kroupa2001.pdf`. -/
def kroupaPdf (a1 a2 a3 b1 b2 mmin mmax : ℝ) : ℝ → ℝ := quadPdf (kroupaRaw a1 a2 a3 b1 b2 mmin) mmin mmax true

/-- `Chabrier2003.imf`, l.504-534. -/
def chabrierRaw (mc sigma alpha mb m : ℝ) : ℝ :=
  let s := Real.sqrt (2 * π) * sigma
  let ln := (1 / (m * s)) * Real.exp (-((lg m - lg mc) ^ 2 / (2 * sigma ^ 2)))
  let C := (1 / (mb * s)) * Real.exp (-((lg mb - lg mc) ^ 2 / (2 * sigma ^ 2)))
  if m < mb then ln else C * (m / mb) ^ (-alpha)

/-- `Chabrier2003.pdf`. -/
def chabrierPdf (mc sigma alpha mb mmin mmax : ℝ) : ℝ → ℝ := quadPdf (chabrierRaw mc sigma alpha mb) mmin mmax true

/-! ### Specification and lemmas -/

/-- A probability density with support in `[a, b]`. -/
structure IsDensity (f : ℝ → ℝ) (a b : ℝ) : Prop where
  nonneg : ∀ x, 0 ≤ f x
  zero_outside : ∀ x, x < a ∨ b < x → f x = 0
  total : ∫ x, f x = 1

/-- Integral over the line of a function living on `[a, b]`. -/
theorem integral_of_support {f g : ℝ → ℝ} {a b : ℝ} (hab : a ≤ b) (hin : ∀ x ∈ Ioc a b, f x = g x)
    (hout : ∀ x, x < a ∨ b < x → f x = 0) : ∫ x, f x = ∫ x in a..b, g x := by
  have h1 : ∫ x in Icc a b, f x = ∫ x, f x := by
    apply setIntegral_eq_integral_of_forall_compl_eq_zero
    intro x hx
    apply hout
    simp only [mem_Icc, not_and_or, not_le] at hx
    exact hx
  rw [← h1, integral_Icc_eq_integral_Ioc, integral_of_le hab]
  exact setIntegral_congr_fun measurableSet_Ioc hin

theorem quadPdf_isDensity (raw : ℝ → ℝ) (a b : ℝ) (left : Bool) (hab : a < b) (hint : IntervalIntegrable raw volume a b)
    (hpos : ∀ x ∈ Ioo a b, 0 < raw x) (hnn : ∀ x ∈ Icc a b, 0 ≤ raw x) : IsDensity (quadPdf raw a b left) a b := by
  have hI : 0 < ∫ t in a..b, raw t := intervalIntegral_pos_of_pos_on hint hpos hab
  have hcond : ∀ x, ((if left then a ≤ x else a < x) ∧ x ≤ b) → x ∈ Icc a b := by
    intro x hx
    cases left
    · exact ⟨le_of_lt hx.1, hx.2⟩
    · exact hx
  refine ⟨fun x => ?_, fun x hx => ?_, ?_⟩
  · unfold quadPdf
    by_cases h : (if left then a ≤ x else a < x) ∧ x ≤ b
    · rw [if_pos h]; exact mul_nonneg (hnn x (hcond x h)) (by positivity)
    · rw [if_neg h]
  · unfold quadPdf
    rw [if_neg]
    intro h
    have := hcond x h
    rcases hx with hx | hx
    · exact absurd this.1 (not_le.2 hx)
    · exact absurd this.2 (not_le.2 hx)
  · rw [integral_of_support (g := fun x => raw x * (1 / ∫ t in a..b, raw t)) hab.le]
    · rw [intervalIntegral.integral_mul_const]
      field_simp
    · intro x hx
      unfold quadPdf
      rw [if_pos]
      cases left
      · exact ⟨hx.1, hx.2⟩
      · exact ⟨le_of_lt hx.1, hx.2⟩
    · intro x hx
      unfold quadPdf
      rw [if_neg]
      intro h
      have := hcond x h
      rcases hx with hx | hx
      · exact absurd this.1 (not_le.2 hx)
      · exact absurd this.2 (not_le.2 hx)

theorem intervalIntegrable_ite {p : ℝ → Prop} [∀ x, Decidable (p x)] {f g : ℝ → ℝ} {a b : ℝ} (hab : a ≤ b)
    (hp : MeasurableSet {x | p x}) (hf : IntervalIntegrable f volume a b) (hg : IntervalIntegrable g volume a b) :
    IntervalIntegrable (fun x => if p x then f x else g x) volume a b := by
  rw [intervalIntegrable_iff_integrableOn_Ioc_of_le hab] at *
  have := Integrable.piecewise (s := {x | p x}) hp hf.integrableOn hg.integrableOn
  exact this

/-- Powers on an interval of positive numbers. -/
theorem intervalIntegrable_rpow_pos {a b : ℝ} (ha : 0 < a) (hab : a ≤ b) (r : ℝ) :
    IntervalIntegrable (fun x => x ^ r) volume a b :=
  intervalIntegral.intervalIntegrable_rpow (Or.inr (by
    rw [uIcc_of_le hab]; exact fun h => absurd h.1 (not_le.2 ha)))

theorem lg_lt {x y : ℝ} (hx : 0 < x) (h : x < y) : lg x < lg y := by
  unfold lg
  exact div_lt_div_of_pos_right (Real.log_lt_log hx h) (Real.log_pos (by norm_num))

theorem ten_rpow_lg {x : ℝ} (hx : 0 < x) : (10 : ℝ) ^ lg x = x := by
  unfold lg
  rw [Real.rpow_def_of_pos (by norm_num), mul_div_cancel₀ _ (Real.log_pos (by norm_num)).ne', Real.exp_log hx]

end

end Verif.Distrib
