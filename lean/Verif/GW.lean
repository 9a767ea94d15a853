import Mathlib.Analysis.SpecialFunctions.Integrals.Basic
import Mathlib.MeasureTheory.Integral.IntervalIntegral.Basic
import Verif.Orbit
/-!
Model of `inspiral_timescale_from_separation` (l.912-988), `inspiral_timescale_from_orbital_period` (l.991-1024) and
`spin_stable_mass_transfer` (l.1027-1049) of `/repo/posydon/utils/common_functions.py`.

Simplifications: real numbers; `quad` is the exact integral; NaN and `None` are `none`.
-/
namespace Verif.GW
open Real MeasureTheory Set intervalIntegral Verif.Orbit

noncomputable section
open Classical

/-- constants.py l.32, 84. -/
def clight : ℝ := 2.99792458e10
def secyer : ℝ := 3.1558149984e7

inductive Err
  | value
  deriving DecidableEq

/-- l.964. -/
def beta (m1 m2 : ℝ) : ℝ := (64 / 5) * cgrav ^ 3 * m1 * m2 * (m1 + m2) / clight ^ 5

/-- `c_0`, l.972-974. -/
def c0 (a e : ℝ) : ℝ := (a * (1 - e ^ 2)) * e ^ (-(12 : ℝ) / 19) * (1 + (121 / 304) * e ^ 2) ^ (-(870 : ℝ) / 2299)

/-- `integrand`, l.979-981. -/
def integrand (e : ℝ) : ℝ := e ^ ((29 : ℝ) / 19) * (1 + (121 / 304) * e ^ 2) ^ ((1181 : ℝ) / 2299) / (1 - e ^ 2) ^ ((3 : ℝ) / 2)

/-- l.964-985, cgs units. -/
def tMerger (m1 m2 a e : ℝ) : ℝ :=
  if e = 0 then a ^ 4 / (4 * beta m1 m2)
  else (12 / 19) * (c0 a e ^ 4 / beta m1 m2) * ∫ x in (0 : ℝ)..e, integrand x

/-- `inspiral_timescale_from_separation`, l.941-988. -/
def inspiral (star1 star2 separation ecc : ℝ) : Except Err ℝ :=
  let m1 := star1 * Msun
  let m2 := star2 * Msun
  let a := separation * Rsun
  if m1 ≤ 0 then .error .value
  else if m2 ≤ 0 then .error .value
  else if a ≤ 0 then .error .value
  else if ecc < 0 then .error .value
  else if ecc ≥ 1 then .error .value
  else .ok (tMerger m1 m2 a ecc / (secyer * 1e6))

/-- `inspiral_timescale_from_orbital_period`, l.1020-1024. -/
def inspiralPeriod (star1 star2 period ecc : ℝ) : Except Err ℝ := inspiral star1 star2 (sepFromPeriod period star1 star2) ecc

/-- `spin_stable_mass_transfer`, l.1033-1049; `.ok none` is the returned `None`, `.nan` the returned NaN.
Spins above 1 (complex intermediate results in Python) are outside the model's domain. -/
inductive Spin
  | none
  | nan
  | value (x : ℝ)

/-- l.1037. -/
def z1 (s : ℝ) : ℝ := 1 + (1 - s ^ 2) ^ ((1 : ℝ) / 3) * ((1 + s) ^ ((1 : ℝ) / 3) + (1 - s) ^ ((1 : ℝ) / 3))

/-- l.1038. -/
def z2 (s : ℝ) : ℝ := Real.sqrt (3 * s ^ 2 + z1 s ^ 2)

/-- l.1039. -/
def risco (s : ℝ) : ℝ := 3 + z2 s - Real.sqrt ((3 - z1 s) * (3 + z1 s + 2 * z2 s))

def spinAfter (spin pre post : Option ℝ) : Spin :=
  match pre, post, spin with
  | some mi, some mf, some s =>
    if mi ≤ 0 ∨ mf ≤ 0 ∨ s < 0 then .none
    else
      let r := risco s
      if 1 ≤ mf / mi ∧ mf / mi ≤ Real.sqrt r then
        .value (Real.sqrt r / 3 * (mi / mf) * (4 - Real.sqrt (3 * r * mi ^ 2 / mf ^ 2 - 2)))
      else if mf / mi > Real.sqrt r then .value 1
      else .nan
  | _, _, _ => .none

/-! ### Lemmas -/

theorem cube_third {x : ℝ} (hx : 0 ≤ x) : (x ^ ((1 : ℝ) / 3)) ^ 3 = x := by
  rw [← Real.rpow_natCast, ← Real.rpow_mul hx]; norm_num

/-- The polynomial relations behind Bardeen's formulas. -/
theorem z_spec {s : ℝ} (h0 : 0 ≤ s) (h1 : s ≤ 1) :
    1 ≤ z1 s ∧ z1 s ≤ 3 ∧ 2 ≤ z2 s ∧ z2 s ≤ 3 ∧ z2 s ^ 2 = 3 * s ^ 2 + z1 s ^ 2 ∧ (3 * z1 s - 1) * z2 s ^ 2 = 8 * z1 s ^ 2 := by
  set p := (1 + s) ^ ((1 : ℝ) / 3) with hp
  set m := (1 - s) ^ ((1 : ℝ) / 3) with hm
  have hp0 : 0 ≤ p := Real.rpow_nonneg (by linarith) _
  have hm0 : 0 ≤ m := Real.rpow_nonneg (by linarith) _
  have hp3 : p ^ 3 = 1 + s := cube_third (by linarith)
  have hm3 : m ^ 3 = 1 - s := cube_third (by linarith)
  have hpm : (1 - s ^ 2) ^ ((1 : ℝ) / 3) = p * m := by
    rw [hp, hm, ← Real.mul_rpow (by linarith) (by linarith)]
    congr 1; ring
  have hz : z1 s = 1 + p * m * (p + m) := by unfold z1; rw [hpm]
  have hz1 : 1 ≤ z1 s := by rw [hz]; nlinarith [mul_nonneg (mul_nonneg hp0 hm0) (add_nonneg hp0 hm0)]
  have hsum : p ^ 3 + m ^ 3 = 2 := by rw [hp3, hm3]; ring
  have hz3 : z1 s ≤ 3 := by
    rw [hz]
    nlinarith [mul_nonneg (add_nonneg hp0 hm0) (sq_nonneg (p - m))]
  have hsq : z2 s ^ 2 = 3 * s ^ 2 + z1 s ^ 2 := Real.sq_sqrt (by positivity)
  -- 3 z1 - 1 = (p + m)³ and (1 - s²)(p + m)³ = (z1 - 1)³
  have e1 : 3 * z1 s - 1 = (p + m) ^ 3 := by rw [hz]; nlinarith [hsum]
  have e2 : (1 - s ^ 2) * (p + m) ^ 3 = (z1 s - 1) ^ 3 := by
    have : 1 - s ^ 2 = p ^ 3 * m ^ 3 := by rw [hp3, hm3]; ring
    rw [this, hz]; ring
  have hrel : (3 * z1 s - 1) * z2 s ^ 2 = 8 * z1 s ^ 2 := by
    rw [← e1] at e2
    rw [hsq]
    linear_combination -3 * e2
  have hz20 : 0 ≤ z2 s := Real.sqrt_nonneg _
  have hk : 0 < 3 * z1 s - 1 := by linarith
  refine ⟨hz1, hz3, ?_, ?_, hsq, hrel⟩
  · by_contra hc
    push Not at hc
    have : z2 s ^ 2 < 4 := by nlinarith
    nlinarith [mul_lt_mul_of_pos_left this hk]
  · by_contra hc
    push Not at hc
    have : 9 < z2 s ^ 2 := by nlinarith
    nlinarith [mul_lt_mul_of_pos_left this hk]

/-- The innermost stable orbit lies between 1 and 6, and the spin is recovered from it. -/
theorem risco_spec {s : ℝ} (h0 : 0 ≤ s) (h1 : s ≤ 1) :
    1 ≤ risco s ∧ risco s ≤ 6 ∧ Real.sqrt (risco s) / 3 * (4 - Real.sqrt (3 * risco s - 2)) = s := by
  obtain ⟨a1, a2, a3, a4, a5, a6⟩ := z_spec h0 h1
  unfold risco
  set z := z1 s
  set y := z2 s
  set w := Real.sqrt ((3 - z) * (3 + z + 2 * y)) with hw
  have hw2 : w ^ 2 = (3 - z) * (3 + z + 2 * y) := Real.sq_sqrt (mul_nonneg (by linarith) (by linarith))
  have hw0 : 0 ≤ w := Real.sqrt_nonneg _
  have hwge : 3 - z ≤ w := by
    by_contra hc
    push Not at hc
    nlinarith [mul_nonneg (show 0 ≤ 3 - z by linarith) (show 0 ≤ z + y by linarith)]
  have hr1 : 1 ≤ 3 + y - w := by
    by_contra hc
    push Not at hc
    have : (2 + y) ^ 2 < w ^ 2 := by nlinarith
    nlinarith [mul_nonneg (show 0 ≤ y by linarith) (show 0 ≤ z - 1 by linarith)]
  have hr6 : 3 + y - w ≤ 6 := by linarith
  refine ⟨hr1, hr6, ?_⟩
  set r := 3 + y - w with hr
  have hrsq : Real.sqrt r ^ 2 = r := Real.sq_sqrt (by linarith)
  have hsr : 1 ≤ Real.sqrt r := by rw [Real.one_le_sqrt]; exact hr1
  set q := Real.sqrt r
  -- 3 s² + 6 r - r² = 8 s sqrt r
  have hlhs : 3 * s ^ 2 + 6 * r - r ^ 2 = 2 * y * (w + z - 3) := by
    rw [hr]; linear_combination (-1 : ℝ) * a5 - hw2
  have hs2 : 8 * s ^ 2 = y ^ 2 * (3 - z) := by linear_combination (-8 / 3 : ℝ) * a5 + (1 / 3 : ℝ) * a6
  have hsqeq : (2 * y * (w + z - 3)) ^ 2 = (8 * s * q) ^ 2 := by
    have e1 : (8 * s * q) ^ 2 = 8 * (8 * s ^ 2) * r := by rw [← hrsq]; ring
    rw [e1, hs2, hr]
    linear_combination (4 * y ^ 2) * hw2
  have hk : 2 * y * (w + z - 3) = 8 * s * q := by
    have hA : 0 ≤ 2 * y * (w + z - 3) := mul_nonneg (by linarith) (by linarith)
    have hB : 0 ≤ 8 * s * q := by positivity
    exact (pow_left_inj₀ hA hB (by norm_num)).1 hsqeq
  have hfin : (4 * q - 3 * s) ^ 2 = r * (3 * r - 2) := by
    have : 3 * s ^ 2 + 6 * r - r ^ 2 = 8 * s * q := by rw [hlhs, hk]
    linear_combination 16 * hrsq + 3 * this
  have hge : 0 ≤ 4 * q - 3 * s := by linarith
  have : Real.sqrt (r * (3 * r - 2)) = 4 * q - 3 * s := by
    rw [← hfin]; exact Real.sqrt_sq hge
  rw [Real.sqrt_mul (by linarith)] at this
  have e : q / 3 * (4 - Real.sqrt (3 * r - 2)) = (4 * q - q * Real.sqrt (3 * r - 2)) / 3 := by ring
  rw [e, this]
  ring

/-- `x (4 - sqrt (3 x² - 2)) / 3` does not increase between 1 and √6, where it goes from 1 to 0. -/
theorem spin_anti {x x' : ℝ} (h1 : 1 ≤ x) (h : x ≤ x') (h6 : x' ^ 2 ≤ 6) :
    x' / 3 * (4 - Real.sqrt (3 * x' ^ 2 - 2)) ≤ x / 3 * (4 - Real.sqrt (3 * x ^ 2 - 2)) ∧
      0 ≤ x' / 3 * (4 - Real.sqrt (3 * x' ^ 2 - 2)) := by
  have hg : ∀ t : ℝ, 1 ≤ t → t ^ 2 ≤ 6 → Real.sqrt (3 * t ^ 2 - 2) ^ 2 = 3 * t ^ 2 - 2 ∧ 1 ≤ Real.sqrt (3 * t ^ 2 - 2) ∧
      Real.sqrt (3 * t ^ 2 - 2) ≤ 4 := by
    intro t ht ht6
    refine ⟨Real.sq_sqrt (by nlinarith), ?_, ?_⟩
    · rw [Real.one_le_sqrt]; nlinarith
    · rw [Real.sqrt_le_iff]; constructor <;> nlinarith
  have hx6 : x ^ 2 ≤ 6 := by nlinarith
  obtain ⟨g1, g2, g3⟩ := hg x h1 hx6
  obtain ⟨k1, k2, k3⟩ := hg x' (h1.trans h) h6
  have hgk : Real.sqrt (3 * x ^ 2 - 2) ≤ Real.sqrt (3 * x' ^ 2 - 2) := Real.sqrt_le_sqrt (by nlinarith)
  set g := Real.sqrt (3 * x ^ 2 - 2)
  set k := Real.sqrt (3 * x' ^ 2 - 2)
  have hx0 : 0 ≤ x := by linarith
  have hx0' : 0 ≤ x' := by linarith
  have hn' : 0 ≤ x' / 3 * (4 - k) := by
    apply mul_nonneg (by linarith) (by linarith)
  have hn : 0 ≤ x / 3 * (4 - g) := by
    apply mul_nonneg (by linarith) (by linarith)
  refine ⟨?_, hn'⟩
  apply le_of_sq_le_sq₀ _ hn
  have ex : x ^ 2 = (g ^ 2 + 2) / 3 := by linarith
  have ex' : x' ^ 2 = (k ^ 2 + 2) / 3 := by linarith
  have e1 : (x' / 3 * (4 - k)) ^ 2 = (k ^ 2 + 2) * (4 - k) ^ 2 / 27 := by
    rw [mul_pow, div_pow, ex']; ring
  have e2 : (x / 3 * (4 - g)) ^ 2 = (g ^ 2 + 2) * (4 - g) ^ 2 / 27 := by
    rw [mul_pow, div_pow, ex]; ring
  rw [e1, e2]
  obtain ⟨u, hu⟩ : ∃ u, u = g - 1 := ⟨_, rfl⟩
  obtain ⟨v, hv⟩ : ∃ v, v = k - g := ⟨_, rfl⟩
  have hu0 : 0 ≤ u := by linarith
  have hv0 : 0 ≤ v := by linarith
  have huv : 0 ≤ 3 - u - v := by linarith
  have eg : g = 1 + u := by linarith
  have ek : k = 1 + u + v := by linarith
  rw [eg, ek]
  have : ((1 + u) ^ 2 + 2) * (4 - (1 + u)) ^ 2 - ((1 + u + v) ^ 2 + 2) * (4 - (1 + u + v)) ^ 2 =
      v * ((12 * u ^ 2 + 12 * u * v + 4 * v ^ 2) - (4 * u ^ 3 + 6 * u ^ 2 * v + 4 * u * v ^ 2 + v ^ 3)) := by ring
  have hpoly : 0 ≤ (12 * u ^ 2 + 12 * u * v + 4 * v ^ 2) - (4 * u ^ 3 + 6 * u ^ 2 * v + 4 * u * v ^ 2 + v ^ 3) := by
    nlinarith [mul_nonneg huv (mul_nonneg hu0 hu0), mul_nonneg huv (mul_nonneg hu0 hv0), mul_nonneg huv (mul_nonneg hv0 hv0),
      mul_nonneg hu0 hv0, mul_nonneg (mul_nonneg hu0 hu0) hv0, mul_nonneg (mul_nonneg hu0 hv0) hv0]
  nlinarith [mul_nonneg hv0 hpoly]
where
  le_of_sq_le_sq₀ {a b : ℝ} (h : a ^ 2 ≤ b ^ 2) (hb : 0 ≤ b) : a ≤ b := by
    by_contra hc
    push Not at hc
    nlinarith

theorem beta_pos {m1 m2 : ℝ} (h1 : 0 < m1) (h2 : 0 < m2) : 0 < beta m1 m2 := by
  unfold beta cgrav clight
  positivity

/-- The integral is between the two elementary bounds used for the limit of small eccentricity. -/
theorem integral_bounds {e : ℝ} (h0 : 0 < e) (h1 : e < 1) :
    e ^ ((48 : ℝ) / 19) * (19 / 48) ≤ ∫ x in (0 : ℝ)..e, integrand x ∧
    ∫ x in (0 : ℝ)..e, integrand x ≤
      e ^ ((48 : ℝ) / 19) * (19 / 48) * ((1 + (121 / 304) * e ^ 2) ^ ((1181 : ℝ) / 2299) / (1 - e ^ 2) ^ ((3 : ℝ) / 2)) := by
  have hpow : IntervalIntegrable (fun x : ℝ => x ^ ((29 : ℝ) / 19)) volume 0 e :=
    intervalIntegral.intervalIntegrable_rpow' (by norm_num)
  have hI : ∫ x in (0 : ℝ)..e, x ^ ((29 : ℝ) / 19) = e ^ ((48 : ℝ) / 19) * (19 / 48) := by
    rw [integral_rpow (Or.inl (by norm_num))]
    rw [show (29 : ℝ) / 19 + 1 = 48 / 19 by norm_num, Real.zero_rpow (by norm_num)]
    ring
  have hcont : ContinuousOn (fun x : ℝ => (1 + (121 / 304) * x ^ 2) ^ ((1181 : ℝ) / 2299) / (1 - x ^ 2) ^ ((3 : ℝ) / 2)) (uIcc 0 e) := by
    rw [uIcc_of_le h0.le]
    apply ContinuousOn.div
    · apply ContinuousOn.rpow_const (by fun_prop)
      intro x _
      left
      positivity
    · apply ContinuousOn.rpow_const (by fun_prop)
      intro x hx
      left
      have : x ^ 2 < 1 := by nlinarith [hx.1, hx.2]
      linarith
    · intro x hx
      have : x ^ 2 < 1 := by nlinarith [hx.1, hx.2]
      exact (Real.rpow_pos_of_pos (by linarith) _).ne'
  have hint : IntervalIntegrable integrand volume 0 e := by
    have := hpow.mul_continuousOn hcont
    refine this.congr ?_
    intro x _
    simp only [integrand]
    ring
  have hpt : ∀ x ∈ Icc (0 : ℝ) e, 1 ≤ (1 + (121 / 304) * x ^ 2) ^ ((1181 : ℝ) / 2299) / (1 - x ^ 2) ^ ((3 : ℝ) / 2) ∧
      (1 + (121 / 304) * x ^ 2) ^ ((1181 : ℝ) / 2299) / (1 - x ^ 2) ^ ((3 : ℝ) / 2) ≤
        (1 + (121 / 304) * e ^ 2) ^ ((1181 : ℝ) / 2299) / (1 - e ^ 2) ^ ((3 : ℝ) / 2) := by
    intro x hx
    have hxe : x ^ 2 ≤ e ^ 2 := by nlinarith [hx.1, hx.2]
    have he1 : e ^ 2 < 1 := by nlinarith
    have hden : 0 < (1 - x ^ 2) ^ ((3 : ℝ) / 2) := Real.rpow_pos_of_pos (by linarith) _
    have hden' : 0 < (1 - e ^ 2) ^ ((3 : ℝ) / 2) := Real.rpow_pos_of_pos (by linarith) _
    constructor
    · rw [le_div_iff₀ hden, one_mul]
      calc (1 - x ^ 2) ^ ((3 : ℝ) / 2) ≤ 1 := Real.rpow_le_one (by linarith) (by nlinarith) (by norm_num)
        _ ≤ _ := Real.one_le_rpow (by nlinarith) (by norm_num)
    · apply div_le_div₀ (Real.rpow_nonneg (by positivity) _)
      · exact Real.rpow_le_rpow (by positivity) (by nlinarith) (by norm_num)
      · exact hden'
      · exact Real.rpow_le_rpow (by linarith) (by linarith) (by norm_num)
  constructor
  · rw [← hI]
    apply intervalIntegral.integral_mono_on h0.le hpow hint
    intro x hx
    have hp : 0 ≤ x ^ ((29 : ℝ) / 19) := Real.rpow_nonneg hx.1 _
    have := (hpt x hx).1
    simp only [integrand]
    rw [mul_div_assoc]
    nlinarith
  · rw [← hI, ← intervalIntegral.integral_mul_const]
    apply intervalIntegral.integral_mono_on h0.le hint (hpow.mul_const _)
    intro x hx
    have hp : 0 ≤ x ^ ((29 : ℝ) / 19) := Real.rpow_nonneg hx.1 _
    have := (hpt x hx).2
    simp only [integrand]
    rw [mul_div_assoc]
    exact mul_le_mul_of_nonneg_left this hp

theorem c0_pow {a e : ℝ} (h0 : 0 < e) : c0 a e ^ 4 =
    a ^ 4 * (1 - e ^ 2) ^ 4 * (e ^ ((48 : ℝ) / 19))⁻¹ * ((1 + (121 / 304) * e ^ 2) ^ ((3480 : ℝ) / 2299))⁻¹ := by
  unfold c0
  have e1 : (e ^ (-(12 : ℝ) / 19)) ^ 4 = (e ^ ((48 : ℝ) / 19))⁻¹ := by
    rw [← Real.rpow_natCast, ← Real.rpow_mul h0.le, ← Real.rpow_neg h0.le]
    norm_num
  have e2 : ((1 + (121 / 304) * e ^ 2) ^ (-(870 : ℝ) / 2299)) ^ 4 = ((1 + (121 / 304) * e ^ 2) ^ ((3480 : ℝ) / 2299))⁻¹ := by
    have hp : (0 : ℝ) ≤ 1 + (121 / 304) * e ^ 2 := by positivity
    rw [← Real.rpow_natCast, ← Real.rpow_mul hp, ← Real.rpow_neg hp]
    norm_num
  rw [mul_pow, mul_pow, mul_pow, e1, e2]

/-- The merger time relative to the circular binary. -/
theorem tMerger_bounds {m1 m2 a e : ℝ} (hm1 : 0 < m1) (hm2 : 0 < m2) (ha : 0 < a) (h0 : 0 < e) (h1 : e < 1) :
    a ^ 4 / (4 * beta m1 m2) * ((1 - e ^ 2) ^ 4 * ((1 + (121 / 304) * e ^ 2) ^ ((3480 : ℝ) / 2299))⁻¹) ≤ tMerger m1 m2 a e ∧
    tMerger m1 m2 a e ≤ a ^ 4 / (4 * beta m1 m2) * (1 + (121 / 304) * e ^ 2)⁻¹ := by
  have hb := beta_pos hm1 hm2
  obtain ⟨hlo, hhi⟩ := integral_bounds h0 h1
  set I := ∫ x in (0 : ℝ)..e, integrand x with hI
  have he1 : 0 < 1 - e ^ 2 := by nlinarith
  have hk : 0 < 1 + (121 / 304) * e ^ 2 := by positivity
  have hE : 0 < e ^ ((48 : ℝ) / 19) := Real.rpow_pos_of_pos h0 _
  have hK : 0 < (1 + (121 / 304) * e ^ 2) ^ ((3480 : ℝ) / 2299) := Real.rpow_pos_of_pos hk _
  set E := e ^ ((48 : ℝ) / 19) with hEe
  set K := (1 + (121 / 304) * e ^ 2) ^ ((3480 : ℝ) / 2299) with hKe
  have hT : tMerger m1 m2 a e = a ^ 4 / (4 * beta m1 m2) * ((1 - e ^ 2) ^ 4 * K⁻¹) * (E⁻¹ * (48 / 19) * I) := by
    unfold tMerger
    rw [if_neg h0.ne', c0_pow h0, ← hEe, ← hKe, ← hI]
    ring
  have hpre : 0 < a ^ 4 / (4 * beta m1 m2) * ((1 - e ^ 2) ^ 4 * K⁻¹) := by positivity
  rw [hT]
  constructor
  · have : 1 ≤ E⁻¹ * (48 / 19) * I := by
      have h := mul_le_mul_of_nonneg_left hlo (show 0 ≤ E⁻¹ * (48 / 19) by positivity)
      have e3 : E⁻¹ * (48 / 19) * (E * (19 / 48)) = 1 := by field_simp
      linarith
    nlinarith
  · have h := mul_le_mul_of_nonneg_left hhi (show 0 ≤ E⁻¹ * (48 / 19) by positivity)
    set Q := (1 + (121 / 304) * e ^ 2) ^ ((1181 : ℝ) / 2299) with hQ
    set D := (1 - e ^ 2) ^ ((3 : ℝ) / 2) with hD
    have hQpos : 0 < Q := Real.rpow_pos_of_pos hk _
    have hDpos : 0 < D := Real.rpow_pos_of_pos he1 _
    have e3 : E⁻¹ * (48 / 19) * (E * (19 / 48) * (Q / D)) = Q / D := by field_simp
    rw [e3] at h
    have hKQ : K⁻¹ * Q = (1 + (121 / 304) * e ^ 2)⁻¹ := by
      rw [← Real.rpow_neg hk.le, hQ, ← Real.rpow_add hk, ← Real.rpow_neg_one]
      norm_num
    have hD4 : (1 - e ^ 2) ^ 4 ≤ D := by
      rw [hD, ← Real.rpow_natCast]
      exact Real.rpow_le_rpow_of_exponent_ge he1 (by nlinarith) (by norm_num)
    calc a ^ 4 / (4 * beta m1 m2) * ((1 - e ^ 2) ^ 4 * K⁻¹) * (E⁻¹ * (48 / 19) * I)
        ≤ a ^ 4 / (4 * beta m1 m2) * ((1 - e ^ 2) ^ 4 * K⁻¹) * (Q / D) := mul_le_mul_of_nonneg_left h hpre.le
      _ = a ^ 4 / (4 * beta m1 m2) * (((1 - e ^ 2) ^ 4 / D) * (K⁻¹ * Q)) := by ring
      _ ≤ a ^ 4 / (4 * beta m1 m2) * (1 * (K⁻¹ * Q)) := by
          apply mul_le_mul_of_nonneg_left _ (by positivity)
          apply mul_le_mul_of_nonneg_right _ (by positivity)
          rw [div_le_one hDpos]; exact hD4
      _ = _ := by rw [one_mul, hKQ]

end

end Verif.GW
