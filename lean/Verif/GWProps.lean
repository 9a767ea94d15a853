import Verif.GW
import Mathlib.Topology.Algebra.Order.LiminfLimsup
/-!
Property theorems for C57 (gravitational-wave merger times) and C58 (spin of an accreting black hole).
-/
namespace Verif.GW
open Real MeasureTheory Set intervalIntegral Verif.Orbit Filter Topology
open Classical

theorem Msun_pos : 0 < Msun := by unfold Msun; norm_num
theorem Rsun_pos : 0 < Rsun := by unfold Rsun; norm_num

/-- C57: exactly the unphysical binaries are refused. -/
theorem C57_refused (m1 m2 a e : ℝ) : inspiral m1 m2 a e = .error .value ↔ m1 ≤ 0 ∨ m2 ≤ 0 ∨ a ≤ 0 ∨ e < 0 ∨ 1 ≤ e := by
  have hM := Msun_pos
  have hR := Rsun_pos
  have e1 : m1 * Msun ≤ 0 ↔ m1 ≤ 0 := mul_nonpos_iff_pos_imp_nonpos' hM
  have e2 : m2 * Msun ≤ 0 ↔ m2 ≤ 0 := mul_nonpos_iff_pos_imp_nonpos' hM
  have e3 : a * Rsun ≤ 0 ↔ a ≤ 0 := mul_nonpos_iff_pos_imp_nonpos' hR
  unfold inspiral
  simp only [e1, e2, e3, ge_iff_le]
  by_cases h1 : m1 ≤ 0
  · simp [h1]
  by_cases h2 : m2 ≤ 0
  · simp [h2]
  by_cases h3 : a ≤ 0
  · simp [h3]
  by_cases h4 : e < 0
  · simp [h4]
  by_cases h5 : 1 ≤ e
  · simp [h5]
  simp [h1, h2, h3, h4, h5]
where
  mul_nonpos_iff_pos_imp_nonpos' {x c : ℝ} (hc : 0 < c) : x * c ≤ 0 ↔ x ≤ 0 := by
    constructor
    · intro h
      by_contra hx
      push Not at hx
      nlinarith [mul_pos hx hc]
    · intro h; nlinarith

theorem inspiral_ok {m1 m2 a e : ℝ} (h1 : 0 < m1) (h2 : 0 < m2) (ha : 0 < a) (h0 : 0 ≤ e) (he : e < 1) :
    inspiral m1 m2 a e = .ok (tMerger (m1 * Msun) (m2 * Msun) (a * Rsun) e / (secyer * 1e6)) := by
  have hM := Msun_pos
  have hR := Rsun_pos
  unfold inspiral
  simp only
  rw [if_neg (not_le.2 (mul_pos h1 hM)), if_neg (not_le.2 (mul_pos h2 hM)), if_neg (not_le.2 (mul_pos ha hR)), if_neg (not_lt.2 h0),
    if_neg (not_le.2 he)]

theorem tMerger_pos {m1 m2 a e : ℝ} (h1 : 0 < m1) (h2 : 0 < m2) (ha : 0 < a) (h0 : 0 ≤ e) (he : e < 1) : 0 < tMerger m1 m2 a e := by
  have hb := beta_pos h1 h2
  rcases h0.eq_or_lt with h | h
  · rw [← h]; unfold tMerger; rw [if_pos rfl]; positivity
  · refine lt_of_lt_of_le ?_ (tMerger_bounds h1 h2 ha h he).1
    have : 0 < 1 - e ^ 2 := by nlinarith
    have : 0 < (1 + (121 / 304) * e ^ 2) ^ ((3480 : ℝ) / 2299) := Real.rpow_pos_of_pos (by positivity) _
    positivity

/-- C57: every physical binary has a positive finite merger time. -/
theorem C57_positive (m1 m2 a e : ℝ) (h1 : 0 < m1) (h2 : 0 < m2) (ha : 0 < a) (h0 : 0 ≤ e) (he : e < 1) :
    ∃ t, inspiral m1 m2 a e = .ok t ∧ 0 < t := by
  refine ⟨_, inspiral_ok h1 h2 ha h0 he, ?_⟩
  have hM := Msun_pos
  have hR := Rsun_pos
  have := tMerger_pos (mul_pos h1 hM) (mul_pos h2 hM) (mul_pos ha hR) h0 he
  unfold secyer
  positivity

/-- C57: the merger time grows with the fourth power of the separation, at every eccentricity. -/
theorem C57_scaling (m1 m2 a e c t : ℝ) (h1 : 0 < m1) (h2 : 0 < m2) (ha : 0 < a) (hc : 0 < c) (h0 : 0 ≤ e) (he : e < 1)
    (h : inspiral m1 m2 a e = .ok t) : inspiral m1 m2 (c * a) e = .ok (c ^ 4 * t) := by
  rw [inspiral_ok h1 h2 ha h0 he] at h
  injection h with h
  rw [inspiral_ok h1 h2 (mul_pos hc ha) h0 he, ← h]
  refine congrArg Except.ok ?_
  unfold tMerger
  split_ifs
  · ring
  · have : c0 (c * a * Rsun) e = c * c0 (a * Rsun) e := by unfold c0; ring
    rw [this]; ring

/-- C57: an eccentric binary merges sooner than the circular one with the same separation. -/
theorem C57_eccentric_sooner (m1 m2 a e t0 t : ℝ) (h1 : 0 < m1) (h2 : 0 < m2) (ha : 0 < a) (h0 : 0 < e) (he : e < 1)
    (hc : inspiral m1 m2 a 0 = .ok t0) (h : inspiral m1 m2 a e = .ok t) : t < t0 := by
  have hM := Msun_pos
  have hR := Rsun_pos
  rw [inspiral_ok h1 h2 ha h0.le he] at h
  rw [inspiral_ok h1 h2 ha le_rfl zero_lt_one] at hc
  injection h with h
  injection hc with hc
  rw [← h, ← hc]
  apply div_lt_div_of_pos_right _ (by unfold secyer; norm_num)
  have hb := (tMerger_bounds (mul_pos h1 hM) (mul_pos h2 hM) (mul_pos ha hR) h0 he).2
  refine lt_of_le_of_lt hb ?_
  have hbp := beta_pos (mul_pos h1 hM) (mul_pos h2 hM)
  unfold tMerger
  rw [if_pos rfl]
  have hpre : 0 < (a * Rsun) ^ 4 / (4 * beta (m1 * Msun) (m2 * Msun)) := by positivity
  have hlt : (1 + (121 / 304) * e ^ 2)⁻¹ < 1 := by
    apply inv_lt_one_of_one_lt₀
    nlinarith
  nlinarith

/-- C57: no jump at the circular orbit: the formula for eccentric binaries tends to the one for circular ones. -/
theorem C57_circular_limit (m1 m2 a : ℝ) (h1 : 0 < m1) (h2 : 0 < m2) (ha : 0 < a) :
    Tendsto (fun e => tMerger m1 m2 a e) (𝓝[>] 0) (𝓝 (tMerger m1 m2 a 0)) := by
  have hT0 : tMerger m1 m2 a 0 = a ^ 4 / (4 * beta m1 m2) := by unfold tMerger; rw [if_pos rfl]
  rw [hT0]
  have hc1 : Tendsto (fun e : ℝ => a ^ 4 / (4 * beta m1 m2) * ((1 - e ^ 2) ^ 4 * ((1 + (121 / 304) * e ^ 2) ^ ((3480 : ℝ) / 2299))⁻¹)) (𝓝[>] 0)
      (𝓝 (a ^ 4 / (4 * beta m1 m2))) := by
    have hcont : ContinuousAt (fun e : ℝ => a ^ 4 / (4 * beta m1 m2) * ((1 - e ^ 2) ^ 4 * ((1 + (121 / 304) * e ^ 2) ^ ((3480 : ℝ) / 2299))⁻¹)) 0 := by
      apply ContinuousAt.mul continuousAt_const
      apply ContinuousAt.mul (by fun_prop)
      apply ContinuousAt.inv₀
      · apply ContinuousAt.rpow_const (by fun_prop)
        left; norm_num
      · norm_num
    have := hcont.tendsto.mono_left (nhdsWithin_le_nhds (s := Ioi 0))
    simpa using this
  have hc2 : Tendsto (fun e : ℝ => a ^ 4 / (4 * beta m1 m2) * (1 + (121 / 304) * e ^ 2)⁻¹) (𝓝[>] 0) (𝓝 (a ^ 4 / (4 * beta m1 m2))) := by
    have hcont : ContinuousAt (fun e : ℝ => a ^ 4 / (4 * beta m1 m2) * (1 + (121 / 304) * e ^ 2)⁻¹) 0 := by
      apply ContinuousAt.mul continuousAt_const
      apply ContinuousAt.inv₀ (by fun_prop)
      norm_num
    have := hcont.tendsto.mono_left (nhdsWithin_le_nhds (s := Ioi 0))
    simpa using this
  have hev : ∀ᶠ e in 𝓝[>] (0 : ℝ), e < 1 ∧ 0 < e := by
    have h' : ∀ᶠ e in 𝓝[>] (0 : ℝ), e < 1 := nhdsWithin_le_nhds (Iio_mem_nhds (by norm_num))
    filter_upwards [h', self_mem_nhdsWithin] with e h3 h4 using ⟨h3, h4⟩
  apply tendsto_of_tendsto_of_tendsto_of_le_of_le' hc1 hc2
  · filter_upwards [hev] with e he using (tMerger_bounds h1 h2 ha he.2 he.1).1
  · filter_upwards [hev] with e he using (tMerger_bounds h1 h2 ha he.2 he.1).2

/-- C57: the merger time of the wider of two circular binaries with the same masses is longer, also when given by the period. -/
theorem C57_period_monotone (m1 m2 P P' e t t' : ℝ) (h1 : 0 < m1) (h2 : 0 < m2) (hP : 0 < P) (hPP : P < P') (h0 : 0 ≤ e) (he : e < 1)
    (h : inspiralPeriod m1 m2 P e = .ok t) (h' : inspiralPeriod m1 m2 P' e = .ok t') : t < t' := by
  have hm : 0 < m1 + m2 := by linarith
  have ha := sepFromPeriod_pos hP hm
  have ha' := sepFromPeriod_pos (hP.trans hPP) hm
  have hlt : sepFromPeriod P m1 m2 < sepFromPeriod P' m1 m2 := by
    apply lt_of_pow_lt_pow_left₀ 3 ha'.le
    rw [sepFromPeriod_cube _ _ _ hm.le, sepFromPeriod_cube _ _ _ hm.le]
    have := kepler_pos
    exact mul_lt_mul_of_pos_left (by nlinarith) (by positivity)
  unfold inspiralPeriod at h h'
  set a := sepFromPeriod P m1 m2
  set a' := sepFromPeriod P' m1 m2
  obtain ⟨t1, ht1, hpos⟩ := C57_positive m1 m2 a e h1 h2 ha h0 he
  rw [h] at ht1
  injection ht1 with ht1
  subst ht1
  have hs := C57_scaling m1 m2 a e (a' / a) t h1 h2 ha (div_pos ha' ha) h0 he h
  rw [div_mul_cancel₀ _ ha.ne', h'] at hs
  injection hs with hs
  rw [hs]
  have : 1 < (a' / a) ^ 4 := by
    apply one_lt_pow₀ _ (by norm_num)
    rw [lt_div_iff₀ ha]; linarith
  nlinarith

/-! ### C58 -/

/-- C58: without a change of mass the spin is unchanged: the formula for the innermost orbit and the formula for the spin are inverse to each other. -/
theorem C58_no_accretion (s m : ℝ) (h0 : 0 ≤ s) (h1 : s ≤ 1) (hm : 0 < m) : spinAfter (some s) (some m) (some m) = .value s := by
  obtain ⟨r1, r6, hrec⟩ := risco_spec h0 h1
  unfold spinAfter
  simp only
  rw [if_neg (by rintro (h | h | h) <;> linarith), div_self hm.ne', if_pos ⟨le_rfl, by rw [Real.one_le_sqrt]; exact r1⟩]
  have : 3 * risco s * m ^ 2 / m ^ 2 = 3 * risco s := by field_simp
  rw [this, mul_one, hrec]

/-- C58: accretion never slows a black hole down and never takes its spin above 1. -/
theorem C58_range (s mi mf : ℝ) (h0 : 0 ≤ s) (h1 : s ≤ 1) (hmi : 0 < mi) (hmf : mi ≤ mf) :
    ∃ s', spinAfter (some s) (some mi) (some mf) = .value s' ∧ s ≤ s' ∧ s' ≤ 1 := by
  obtain ⟨r1, r6, hrec⟩ := risco_spec h0 h1
  have hmf0 : 0 < mf := lt_of_lt_of_le hmi hmf
  have hge : 1 ≤ mf / mi := by rw [le_div_iff₀ hmi]; linarith
  unfold spinAfter
  simp only
  rw [if_neg (by rintro (h | h | h) <;> linarith)]
  by_cases hle : mf / mi ≤ Real.sqrt (risco s)
  · rw [if_pos ⟨hge, hle⟩]
    refine ⟨_, rfl, ?_⟩
    set q := Real.sqrt (risco s) with hq
    have hq2 : q ^ 2 = risco s := Real.sq_sqrt (by linarith)
    have hq0 : 0 ≤ q := Real.sqrt_nonneg _
    -- x = sqrt r * mi / mf is between 1 and sqrt r
    have hx1 : 1 ≤ q * (mi / mf) := by
      rw [div_le_iff₀ hmi] at hle
      rw [← mul_div_assoc, le_div_iff₀ hmf0]; linarith
    have hxq : q * (mi / mf) ≤ q := by
      have : mi / mf ≤ 1 := by rw [div_le_one hmf0]; exact hmf
      nlinarith
    have ex : q / 3 * (mi / mf) * (4 - Real.sqrt (3 * risco s * mi ^ 2 / mf ^ 2 - 2)) =
        q * (mi / mf) / 3 * (4 - Real.sqrt (3 * (q * (mi / mf)) ^ 2 - 2)) := by
      have : 3 * risco s * mi ^ 2 / mf ^ 2 = 3 * (q * (mi / mf)) ^ 2 := by rw [mul_pow, hq2, div_pow]; ring
      rw [this]; ring
    rw [ex]
    have hb1 := (spin_anti hx1 hxq (by rw [hq2]; exact r6)).1
    rw [hq2, hrec] at hb1
    have hx6 : (q * (mi / mf)) ^ 2 ≤ 6 := by nlinarith
    have hb2 := (spin_anti le_rfl hx1 hx6).1
    have e1 : (1 : ℝ) / 3 * (4 - Real.sqrt (3 * 1 ^ 2 - 2)) = 1 := by norm_num
    rw [e1] at hb2
    exact ⟨hb1, hb2⟩
  · rw [if_neg (fun h => hle h.2), if_pos (not_le.1 hle)]
    exact ⟨1, rfl, h1, le_rfl⟩

/-- C58: more accreted mass means more spin. -/
theorem C58_monotone (s mi mf mf' x x' : ℝ) (h0 : 0 ≤ s) (h1 : s ≤ 1) (hmi : 0 < mi) (hmf : mi ≤ mf) (hmf' : mf ≤ mf')
    (hx : spinAfter (some s) (some mi) (some mf) = .value x) (hx' : spinAfter (some s) (some mi) (some mf') = .value x') : x ≤ x' := by
  obtain ⟨r1, r6, hrec⟩ := risco_spec h0 h1
  obtain ⟨y, hy, -, hy1⟩ := C58_range s mi mf h0 h1 hmi hmf
  rw [hx] at hy
  injection hy with hy
  have hmf0 : 0 < mf := lt_of_lt_of_le hmi hmf
  have hmf0' : 0 < mf' := lt_of_lt_of_le hmf0 hmf'
  have hge : 1 ≤ mf / mi := by rw [le_div_iff₀ hmi]; linarith
  have hge' : 1 ≤ mf' / mi := by rw [le_div_iff₀ hmi]; linarith
  have hmm : mf / mi ≤ mf' / mi := div_le_div_of_nonneg_right hmf' hmi.le
  unfold spinAfter at hx hx'
  simp only at hx hx'
  rw [if_neg (by rintro (h | h | h) <;> linarith)] at hx hx'
  by_cases hle' : mf' / mi ≤ Real.sqrt (risco s)
  · have hle : mf / mi ≤ Real.sqrt (risco s) := hmm.trans hle'
    rw [if_pos ⟨hge, hle⟩] at hx
    rw [if_pos ⟨hge', hle'⟩] at hx'
    injection hx with hx
    injection hx' with hx'
    rw [← hx, ← hx']
    set q := Real.sqrt (risco s) with hq
    have hq2 : q ^ 2 = risco s := Real.sq_sqrt (by linarith)
    have hq0 : 0 ≤ q := Real.sqrt_nonneg _
    have ex : ∀ m, q / 3 * (mi / m) * (4 - Real.sqrt (3 * risco s * mi ^ 2 / m ^ 2 - 2)) =
        q * (mi / m) / 3 * (4 - Real.sqrt (3 * (q * (mi / m)) ^ 2 - 2)) := by
      intro m
      have : 3 * risco s * mi ^ 2 / m ^ 2 = 3 * (q * (mi / m)) ^ 2 := by rw [mul_pow, hq2, div_pow]; ring
      rw [this]; ring
    rw [ex, ex]
    refine (spin_anti ?_ ?_ ?_).1
    · rw [div_le_iff₀ hmi] at hle'
      rw [← mul_div_assoc, le_div_iff₀ hmf0']; linarith
    · apply mul_le_mul_of_nonneg_left _ hq0
      exact div_le_div_of_nonneg_left hmi.le hmf0 hmf'
    · have h3 : mi / mf ≤ 1 := by rw [div_le_one hmf0]; exact hmf
      have h4 : 0 ≤ mi / mf := by positivity
      have : q * (mi / mf) ≤ q := by nlinarith
      nlinarith [mul_nonneg hq0 h4]
  · rw [if_neg (fun h => hle' h.2), if_pos (not_le.1 hle')] at hx'
    injection hx' with hx'
    rw [← hx', hy]
    exact hy1

/-- C58: missing or unphysical input is answered by `None`; a mass loss is answered by NaN. -/
theorem C58_invalid (s mi mf : ℝ) :
    spinAfter none (some mi) (some mf) = .none ∧ spinAfter (some s) none (some mf) = .none ∧ spinAfter (some s) (some mi) none = .none ∧
    (mi ≤ 0 ∨ mf ≤ 0 ∨ s < 0 → spinAfter (some s) (some mi) (some mf) = .none) ∧
    (0 ≤ s → s ≤ 1 → 0 < mf → mf < mi → spinAfter (some s) (some mi) (some mf) = .nan) := by
  refine ⟨rfl, rfl, rfl, fun h => ?_, fun h0 h1 h2 h3 => ?_⟩
  · unfold spinAfter; simp only; rw [if_pos h]
  · obtain ⟨r1, r6, -⟩ := risco_spec h0 h1
    have hmi : 0 < mi := h2.trans h3
    have hlt : mf / mi < 1 := by rw [div_lt_one hmi]; exact h3
    have hs : 1 ≤ Real.sqrt (risco s) := by rw [Real.one_le_sqrt]; exact r1
    unfold spinAfter
    simp only
    rw [if_neg (by rintro (h | h | h) <;> linarith), if_neg (fun h => by linarith [h.1]), if_neg (by linarith)]

/-! ### Concrete cases -/

example : ∃ t, inspiral 30 30 10 (1 / 2) = .ok t ∧ 0 < t :=
  C57_positive _ _ _ _ (by norm_num) (by norm_num) (by norm_num) (by norm_num) (by norm_num)
example : spinAfter (some 0) (some 5) (some 5) = .value 0 := C58_no_accretion _ _ le_rfl zero_le_one (by norm_num)

end Verif.GW
