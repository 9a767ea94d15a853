import Verif.Distrib
import Mathlib.Analysis.Complex.ExponentialBounds
/-!
Property theorems for C25 (probability densities and their samplers).
-/
namespace Verif.Distrib
open Real MeasureTheory Set intervalIntegral

/-! ### Densities -/

theorem C25_flat_mass_ratio (qmin qmax : ℝ) (h : qmin < qmax) : IsDensity (flatPdf qmin qmax) qmin qmax :=
  quadPdf_isDensity _ _ _ _ h intervalIntegrable_const (fun _ _ => one_pos) (fun _ _ => zero_le_one)

/-- The parameters are exactly those the constructor accepts (l.197-205). -/
theorem C25_power_law_mass_ratio (alpha qmin qmax : ℝ) (h0 : 0 ≤ qmin) (h : qmin < qmax)
    (ha : ¬ (alpha ≤ -1 ∧ qmin = 0)) : IsDensity (powerQPdf alpha qmin qmax) qmin qmax := by
  refine quadPdf_isDensity _ _ _ _ h ?_ ?_ ?_
  · by_cases hq : qmin = 0
    · apply intervalIntegral.intervalIntegrable_rpow'
      by_contra hc
      exact ha ⟨not_lt.1 hc, hq⟩
    · exact intervalIntegrable_rpow_pos (lt_of_le_of_ne h0 (Ne.symm hq)) h.le _
  · intro x hx; exact Real.rpow_pos_of_pos (lt_of_le_of_lt h0 hx.1) _
  · intro x hx; exact Real.rpow_nonneg (h0.trans hx.1) _

theorem C25_power_law_period (slope pmin pmax : ℝ) (h0 : 0 < pmin) (h : pmin < pmax) :
    IsDensity (powerPPdf slope pmin pmax) (lg pmin) (lg pmax) := by
  refine quadPdf_isDensity _ _ _ _ (lg_lt h0 h) ?_ ?_ ?_
  · apply Continuous.intervalIntegrable
    refine Continuous.rpow_const ?_ (fun x => Or.inl (Real.rpow_pos_of_pos (by norm_num) _).ne')
    exact Real.continuous_const_rpow (by norm_num)
  · intro x _; positivity
  · intro x _; positivity

/-- Period limits on both sides of the break at `log P = 0.15` (the defaults are), any primary mass. -/
theorem C25_sana_period (pmin pmax m1 : ℝ) (h0 : 0 < pmin) (h1 : lg pmin < 0.15) (h2 : (0.15 : ℝ) < lg pmax) :
    IsDensity (sanaPdf pmin pmax m1) (lg pmin) (lg pmax) := by
  have hlt : lg pmin < lg pmax := h1.trans h2
  unfold sanaPdf
  cases hm : decide (15 < m1)
  · exact quadPdf_isDensity _ _ _ _ hlt (by unfold sanaRaw; simp) (by simp [sanaRaw]) (by simp [sanaRaw])
  · have hk : (0 : ℝ) < (0.15 : ℝ) ^ (-(0.55 : ℝ)) := Real.rpow_pos_of_pos (by norm_num) _
    have hA : 0 < (0.15 : ℝ) ^ (-(0.55 : ℝ)) * (0.15 - lg pmin) := mul_pos hk (by linarith)
    have hB : 0 < 1 / (1 - (0.55 : ℝ)) * ((lg pmax) ^ (1 - (0.55 : ℝ)) - (0.15 : ℝ) ^ (1 - (0.55 : ℝ))) := by
      apply mul_pos (by norm_num)
      have := Real.rpow_lt_rpow (by norm_num : (0 : ℝ) ≤ 0.15) h2 (by norm_num : (0 : ℝ) < 1 - 0.55)
      linarith
    have hC := one_div_pos.2 (add_pos hA hB)
    refine quadPdf_isDensity _ _ _ _ hlt ?_ ?_ ?_
    · unfold sanaRaw
      simp only [if_true]
      apply intervalIntegrable_ite hlt.le
      · exact measurableSet_Ico
      · exact intervalIntegrable_const
      · apply intervalIntegrable_ite hlt.le
        · exact measurableSet_Icc
        · exact (intervalIntegral.intervalIntegrable_rpow' (by norm_num)).const_mul _
        · exact intervalIntegrable_const
    · intro x hx
      simp only [sanaRaw, if_true]
      by_cases hxk : x < 0.15
      · rw [if_pos ⟨hx.1.le, hxk⟩]
        exact mul_pos hC hk
      · rw [if_neg (fun h => hxk h.2), if_pos ⟨not_lt.1 hxk, hx.2.le⟩]
        exact mul_pos hC (Real.rpow_pos_of_pos (lt_of_lt_of_le (by norm_num) (not_lt.1 hxk)) _)
    · intro x hx
      simp only [sanaRaw, if_true]
      by_cases hxk : x < 0.15
      · rw [if_pos ⟨hx.1, hxk⟩]
        exact (mul_pos hC hk).le
      · rw [if_neg (fun h => hxk h.2), if_pos ⟨not_lt.1 hxk, hx.2⟩]
        exact (mul_pos hC (Real.rpow_pos_of_pos (lt_of_lt_of_le (by norm_num) (not_lt.1 hxk)) _)).le

theorem C25_thermal_eccentricity (emin emax : ℝ) (h0 : 0 ≤ emin) (h : emin < emax) :
    IsDensity (thermalPdf emin emax) emin emax := by
  have hd : 0 < emax ^ 2 - emin ^ 2 := by nlinarith
  refine ⟨fun x => ?_, fun x hx => ?_, ?_⟩
  · unfold thermalPdf
    split_ifs with hx
    · have : 0 ≤ x := h0.trans hx.1
      positivity
    · exact le_refl _
  · unfold thermalPdf
    rw [if_neg]
    rintro ⟨h1, h2⟩
    rcases hx with hx | hx <;> linarith
  · rw [integral_of_support (g := fun x => x * (2 * (1 / (emax ^ 2 - emin ^ 2)))) h.le]
    · rw [intervalIntegral.integral_mul_const, integral_id]
      field_simp
    · intro x hx
      unfold thermalPdf
      rw [if_pos ⟨hx.1.le, hx.2⟩]; ring
    · intro x hx
      unfold thermalPdf
      rw [if_neg]
      rintro ⟨h1, h2⟩
      rcases hx with hx | hx <;> linarith

theorem C25_uniform_eccentricity (emin emax : ℝ) (h : emin < emax) : IsDensity (uniformPdf emin emax) emin emax := by
  have hd : 0 < emax - emin := by linarith
  have hout : ∀ x, x < emin ∨ emax < x → uniformPdf emin emax x = 0 := by
    intro x hx
    unfold uniformPdf
    rw [if_neg]
    rintro ⟨h1, h2⟩
    rcases hx with hx | hx <;> linarith
  refine ⟨fun x => ?_, hout, ?_⟩
  · unfold uniformPdf
    split_ifs
    · positivity
    · exact le_refl _
  · rw [integral_of_support (g := fun _ => 1 / (emax - emin)) h.le _ hout]
    · rw [intervalIntegral.integral_const, smul_eq_mul]; field_simp
    · intro x hx
      unfold uniformPdf
      rw [if_pos ⟨hx.1.le, hx.2⟩]

/-- Salpeter and Kroupa (1993). -/
theorem C25_power_law_imf (alpha mmin mmax : ℝ) (h0 : 0 < mmin) (h : mmin < mmax) :
    IsDensity (powerImfPdf alpha mmin mmax) mmin mmax := by
  refine quadPdf_isDensity _ _ _ _ h (intervalIntegrable_rpow_pos h0 h.le _) ?_ ?_
  · intro x hx; exact Real.rpow_pos_of_pos (h0.trans hx.1) _
  · intro x hx; exact Real.rpow_nonneg (h0.le.trans hx.1) _

/-- Kroupa (2001), any slopes and breaks. -/
theorem C25_broken_power_law_imf (a1 a2 a3 b1 b2 mmin mmax : ℝ) (h0 : 0 < mmin) (h : mmin < mmax) (hb1 : 0 < b1)
    (hb2 : 0 < b2) : IsDensity (kroupaPdf a1 a2 a3 b1 b2 mmin mmax) mmin mmax := by
  have hpw : ∀ c r : ℝ, 0 < c → IntervalIntegrable (fun m => (m / c) ^ r) volume mmin mmax := by
    intro c r hc
    apply ContinuousOn.intervalIntegrable
    rw [uIcc_of_le h.le]
    intro x hx
    apply ContinuousAt.continuousWithinAt
    apply ContinuousAt.rpow_const (by fun_prop)
    exact Or.inl (div_pos (lt_of_lt_of_le h0 hx.1) hc).ne'
  have hpos : ∀ x, 0 < x → 0 < kroupaRaw a1 a2 a3 b1 b2 mmin x := by
    intro x hx
    simp only [kroupaRaw]
    split_ifs <;> positivity
  refine quadPdf_isDensity _ _ _ _ h ?_ (fun x hx => hpos x (h0.trans hx.1)) (fun x hx => (hpos x (lt_of_lt_of_le h0 hx.1)).le)
  unfold kroupaRaw
  simp only
  apply intervalIntegrable_ite h.le measurableSet_Iio (hpw mmin _ h0)
  apply intervalIntegrable_ite h.le measurableSet_Iio
  · exact (hpw b1 _ hb1).const_mul _
  · exact (hpw b2 _ hb2).const_mul _

/-- The broken power law has no jumps. -/
theorem C25_broken_power_law_continuous (a1 a2 a3 b1 b2 mmin : ℝ) (h0 : 0 < mmin) (hb1 : 0 < b1) (hb : b1 < b2) :
    ContinuousOn (kroupaRaw a1 a2 a3 b1 b2 mmin) (Ioi 0) := by
  have hb2 : 0 < b2 := hb1.trans hb
  have hpw : ∀ c r : ℝ, 0 < c → ContinuousOn (fun m : ℝ => (m / c) ^ r) (Ioi 0) := by
    intro c r hc x hx
    apply ContinuousAt.continuousWithinAt
    apply ContinuousAt.rpow_const (by fun_prop)
    exact Or.inl (div_pos hx hc).ne'
  unfold kroupaRaw
  simp only
  apply ContinuousOn.if
  · rintro x ⟨_, hx⟩
    have hx' : x = b1 := by
      have : frontier {a : ℝ | a < b1} = {b1} := frontier_Iio
      rw [this] at hx; exact hx
    subst hx'
    rw [if_pos hb, div_self hb1.ne', Real.one_rpow, mul_one]
  · exact (hpw mmin _ h0).mono inter_subset_left
  · apply ContinuousOn.mono _ (inter_subset_left : Ioi (0 : ℝ) ∩ _ ⊆ _)
    apply ContinuousOn.if
    · rintro x ⟨_, hx⟩
      have hx' : x = b2 := by
        have : frontier {a : ℝ | a < b2} = {b2} := frontier_Iio
        rw [this] at hx; exact hx
      subst hx'
      rw [div_self hb2.ne', Real.one_rpow, mul_one]
    · exact (continuousOn_const.mul (hpw b1 _ hb1)).mono inter_subset_left
    · exact (continuousOn_const.mul (hpw b2 _ hb2)).mono inter_subset_left

theorem C25_chabrier_imf (mc sigma alpha mb mmin mmax : ℝ) (h0 : 0 < mmin) (h : mmin < mmax) (hs : 0 < sigma) (hmb : 0 < mb) :
    IsDensity (chabrierPdf mc sigma alpha mb mmin mmax) mmin mmax := by
  have hpos : ∀ x, 0 < x → 0 < chabrierRaw mc sigma alpha mb x := by
    intro x hx
    simp only [chabrierRaw]
    have : 0 < Real.sqrt (2 * π) := Real.sqrt_pos.2 (by positivity)
    split_ifs <;> positivity
  refine quadPdf_isDensity _ _ _ _ h ?_ (fun x hx => hpos x (h0.trans hx.1)) (fun x hx => (hpos x (lt_of_lt_of_le h0 hx.1)).le)
  unfold chabrierRaw
  simp only
  have hne : ∀ x ∈ uIcc mmin mmax, x ≠ 0 := by
    intro x hx
    rw [uIcc_of_le h.le] at hx
    exact (lt_of_lt_of_le h0 hx.1).ne'
  have hsq : Real.sqrt (2 * π) * sigma ≠ 0 := by
    have : 0 < Real.sqrt (2 * π) := Real.sqrt_pos.2 (by positivity)
    positivity
  apply intervalIntegrable_ite h.le measurableSet_Iio
  · apply ContinuousOn.intervalIntegrable
    apply ContinuousOn.mul
    · apply ContinuousOn.div continuousOn_const (by fun_prop)
      intro x hx
      exact mul_ne_zero (hne x hx) hsq
    · apply Real.continuous_exp.comp_continuousOn
      apply ContinuousOn.neg
      apply ContinuousOn.div_const
      apply ContinuousOn.pow
      apply ContinuousOn.sub _ continuousOn_const
      unfold lg
      apply ContinuousOn.div_const
      exact Real.continuousOn_log.mono (fun x hx => hne x hx)
  · apply IntervalIntegrable.const_mul
    apply ContinuousOn.intervalIntegrable
    intro x hx
    apply ContinuousAt.continuousWithinAt
    apply ContinuousAt.rpow_const (by fun_prop)
    exact Or.inl (div_ne_zero (hne x hx) hmb.ne')

/-- C25 fails for the log-uniform distribution: its density integrates to `ln 10` (it is normalised in `log10 x` but divided by `x`
without the factor `1 / ln 10`). -/
theorem C25_log_uniform_violated (lo hi : ℝ) (h0 : 0 < lo) (h : lo < hi) :
    ∫ x, logUniformPdf lo hi x = Real.log 10 ∧ Real.log 10 ≠ 1 := by
  have hl10 : 0 < Real.log 10 := Real.log_pos (by norm_num)
  constructor
  · rw [integral_of_support (g := fun x => (1 / (lg hi - lg lo)) * (1 / x)) h.le]
    · rw [intervalIntegral.integral_const_mul, integral_one_div_of_pos h0 (h0.trans h),
        Real.log_div (h0.trans h).ne' h0.ne']
      unfold lg
      have : Real.log hi - Real.log lo ≠ 0 := by
        have := Real.log_lt_log h0 h
        exact sub_ne_zero.2 this.ne'
      rw [← sub_div]
      field_simp
    · intro x hx
      unfold logUniformPdf
      rw [if_pos ⟨h0.trans hx.1, hx.1.le, hx.2⟩]
      ring
    · intro x hx
      unfold logUniformPdf
      rw [if_neg]
      rintro ⟨_, h1, h2⟩
      rcases hx with hx | hx <;> linarith
  · have : (1 : ℝ) < Real.log 10 := by
      rw [Real.lt_log_iff_exp_lt (by norm_num)]
      exact lt_trans Real.exp_one_lt_d9 (by norm_num)
    exact this.ne'

/-- C25, log-uniform: it is a density after division by `ln 10`. -/
theorem C25_log_uniform_partial (lo hi : ℝ) (h0 : 0 < lo) (h : lo < hi) :
    IsDensity (fun x => logUniformPdf lo hi x / Real.log 10) lo hi := by
  have hl10 : 0 < Real.log 10 := Real.log_pos (by norm_num)
  have hlg := lg_lt h0 h
  refine ⟨fun x => ?_, fun x hx => ?_, ?_⟩
  · unfold logUniformPdf
    split_ifs with hx
    · have h1 : 0 < lg hi - lg lo := by linarith
      have h2 := hx.1
      positivity
    · simp
  · unfold logUniformPdf
    rw [if_neg, zero_div]
    rintro ⟨_, h1, h2⟩
    rcases hx with hx | hx <;> linarith
  · rw [MeasureTheory.integral_div, (C25_log_uniform_violated lo hi h0 h).1, div_self hl10.ne']

/-! ### Samplers -/

theorem C25_uniform_rvs (lo hi u : ℝ) (h : lo < hi) (hu0 : 0 ≤ u) (hu1 : u < 1) :
    lo ≤ uniformRvs lo hi u ∧ uniformRvs lo hi u < hi ∧ ∫ x in lo..uniformRvs lo hi u, uniformPdf lo hi x = u := by
  have hd : 0 < hi - lo := by linarith
  have h1 : lo ≤ uniformRvs lo hi u := by unfold uniformRvs; nlinarith
  have h2 : uniformRvs lo hi u < hi := by unfold uniformRvs; nlinarith
  refine ⟨h1, h2, ?_⟩
  rw [intervalIntegral.integral_congr (g := fun _ => 1 / (hi - lo))]
  · rw [intervalIntegral.integral_const, smul_eq_mul]
    unfold uniformRvs
    field_simp
    ring
  · intro x hx
    rw [uIcc_of_le h1] at hx
    simp only [uniformPdf]
    rw [if_pos ⟨hx.1, hx.2.trans h2.le⟩]

theorem C25_thermal_rvs (emin emax u : ℝ) (h0 : 0 ≤ emin) (h : emin < emax) (hu0 : 0 ≤ u) (hu1 : u < 1) :
    emin ≤ thermalRvs emin emax u ∧ thermalRvs emin emax u < emax ∧
      ∫ x in emin..thermalRvs emin emax u, thermalPdf emin emax x = u := by
  have hd : 0 < emax ^ 2 - emin ^ 2 := by nlinarith
  have h1 : emin ≤ thermalRvs emin emax u := by
    apply Real.le_sqrt_of_sq_le
    nlinarith
  have h2 : thermalRvs emin emax u < emax := by
    unfold thermalRvs
    rw [Real.sqrt_lt' (by linarith)]
    nlinarith
  refine ⟨h1, h2, ?_⟩
  rw [intervalIntegral.integral_congr (g := fun x => x * (2 * (1 / (emax ^ 2 - emin ^ 2))))]
  · rw [intervalIntegral.integral_mul_const, integral_id]
    unfold thermalRvs
    rw [Real.sq_sqrt (by nlinarith)]
    field_simp
    ring
  · intro x hx
    rw [uIcc_of_le h1] at hx
    simp only [thermalPdf]
    rw [if_pos ⟨hx.1, hx.2.trans h2.le⟩]; ring

/-- Salpeter and Kroupa (1993) masses lie in the requested interval and follow the density, for every slope but 1. -/
theorem C25_power_law_imf_rvs (alpha mmin mmax u : ℝ) (h0 : 0 < mmin) (h : mmin < mmax) (ha : alpha ≠ 1) (hu0 : 0 ≤ u)
    (hu1 : u < 1) :
    mmin ≤ powerImfRvs alpha mmin mmax u ∧ powerImfRvs alpha mmin mmax u < mmax ∧
      ∫ m in mmin..powerImfRvs alpha mmin mmax u, powerImfPdf alpha mmin mmax m = u := by
  have hp : 1 - alpha ≠ 0 := sub_ne_zero.2 ha.symm
  have hM : 0 < mmax := h0.trans h
  set p := 1 - alpha with hpdef
  set A := mmin ^ p with hA
  set B := mmax ^ p with hB
  have hApos : 0 < A := Real.rpow_pos_of_pos h0 _
  have hBpos : 0 < B := Real.rpow_pos_of_pos hM _
  have hAinv : A ^ p⁻¹ = mmin := by rw [hA, Real.rpow_rpow_inv h0.le hp]
  have hBinv : B ^ p⁻¹ = mmax := by rw [hB, Real.rpow_rpow_inv hM.le hp]
  have hBA : B - A ≠ 0 := by
    intro he
    have : B = A := by linarith
    have h' : mmax = mmin := by rw [← hBinv, this, hAinv]
    linarith
  have hr : powerImfRvs alpha mmin mmax u = (u * (B - A) + A) ^ p⁻¹ := by
    simp only [powerImfRvs]
    rw [← hpdef, ← hA, ← hB, one_div]
    congr 2
    field_simp
  have hX : 0 < u * (B - A) + A := by nlinarith
  have hb : mmin ≤ (u * (B - A) + A) ^ p⁻¹ ∧ (u * (B - A) + A) ^ p⁻¹ < mmax := by
    rcases lt_or_gt_of_ne hp with hneg | hpos
    · have hBA' : B < A := Real.rpow_lt_rpow_of_neg h0 h hneg
      have hinv : p⁻¹ < 0 := inv_lt_zero.2 hneg
      constructor
      · rw [← hAinv]
        exact Real.rpow_le_rpow_of_nonpos hX (by nlinarith) hinv.le
      · rw [← hBinv]
        exact Real.rpow_lt_rpow_of_neg hBpos (by nlinarith) hinv
    · have hBA' : A < B := Real.rpow_lt_rpow h0.le h hpos
      have hinv : 0 < p⁻¹ := inv_pos.2 hpos
      constructor
      · rw [← hAinv]
        exact Real.rpow_le_rpow hApos.le (by nlinarith) hinv.le
      · rw [← hBinv]
        exact Real.rpow_lt_rpow hX.le (by nlinarith) hinv
  rw [hr]
  refine ⟨hb.1, hb.2, ?_⟩
  have hint : ∀ c, mmin ≤ c → ∫ m in mmin..c, m ^ (-alpha) = (c ^ p - A) / p := by
    intro c hc
    rw [integral_rpow]
    · rw [hA, show -alpha + 1 = p by rw [hpdef]; ring]
    · right
      refine ⟨fun he => ha (by linarith), ?_⟩
      rw [uIcc_of_le hc]
      exact fun h' => absurd h'.1 (not_le.2 h0)
  rw [intervalIntegral.integral_congr (g := fun m => m ^ (-alpha) * (1 / ∫ t in mmin..mmax, t ^ (-alpha)))]
  · rw [intervalIntegral.integral_mul_const, hint _ hb.1, hint _ h.le, Real.rpow_inv_rpow hX.le hp, ← hB]
    field_simp
    ring
  · intro x hx
    rw [uIcc_of_le hb.1] at hx
    simp only [powerImfPdf, quadPdf, if_true]
    rw [if_pos ⟨hx.1, hx.2.trans hb.2.le⟩]

theorem C25_log_uniform_rvs (lo hi u : ℝ) (h0 : 0 < lo) (h : lo < hi) (hu0 : 0 ≤ u) (hu1 : u < 1) :
    lo ≤ logUniformRvs lo hi u ∧ logUniformRvs lo hi u < hi ∧
      ∫ x in lo..logUniformRvs lo hi u, logUniformPdf lo hi x / Real.log 10 = u := by
  have hl10 : 0 < Real.log 10 := Real.log_pos (by norm_num)
  have hlg := lg_lt h0 h
  have hd : 0 < lg hi - lg lo := by linarith
  have h1 : lo ≤ logUniformRvs lo hi u := by
    conv_lhs => rw [← ten_rpow_lg h0]
    exact Real.rpow_le_rpow_of_exponent_le (by norm_num) (by unfold uniformRvs; nlinarith)
  have h2 : logUniformRvs lo hi u < hi := by
    conv_rhs => rw [← ten_rpow_lg (h0.trans h)]
    exact Real.rpow_lt_rpow_of_exponent_lt (by norm_num) (by unfold uniformRvs; nlinarith)
  refine ⟨h1, h2, ?_⟩
  have hr0 : 0 < logUniformRvs lo hi u := lt_of_lt_of_le h0 h1
  rw [intervalIntegral.integral_congr (g := fun x => (1 / (lg hi - lg lo) / Real.log 10) * (1 / x))]
  · rw [intervalIntegral.integral_const_mul, integral_one_div_of_pos h0 hr0, Real.log_div hr0.ne' h0.ne']
    have : Real.log (logUniformRvs lo hi u) = (lg lo + (lg hi - lg lo) * u) * Real.log 10 := by
      unfold logUniformRvs uniformRvs
      rw [Real.log_rpow (by norm_num)]
    rw [this]
    have hlo : Real.log lo = lg lo * Real.log 10 := by unfold lg; field_simp
    rw [hlo]
    field_simp
    ring
  · intro x hx
    rw [uIcc_of_le h1] at hx
    simp only [logUniformPdf]
    rw [if_pos ⟨lt_of_lt_of_le h0 hx.1, hx.1, hx.2.trans h2.le⟩]
    ring

/-! ### Concrete cases -/

example : IsDensity (powerImfPdf 2.35 7 120) 7 120 := C25_power_law_imf _ _ _ (by norm_num) (by norm_num)
example : IsDensity (kroupaPdf 0.3 1.3 2.3 0.08 0.5 0.01 200) 0.01 200 :=
  C25_broken_power_law_imf _ _ _ _ _ _ _ (by norm_num) (by norm_num) (by norm_num) (by norm_num)
example : IsDensity (thermalPdf 0 1) 0 1 := C25_thermal_eccentricity _ _ (by norm_num) (by norm_num)
example : lg 1 < 0.15 ∧ (0.15 : ℝ) < lg 10 := by
  constructor
  · simp [lg]; norm_num
  · unfold lg; rw [div_self (Real.log_pos (by norm_num)).ne']; norm_num

end Verif.Distrib
