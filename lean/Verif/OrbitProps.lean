import Verif.Orbit
import Mathlib.Analysis.SpecialFunctions.Log.Deriv
import Mathlib.Analysis.SpecialFunctions.Pow.Deriv
import Mathlib.Analysis.SpecialFunctions.ExpDeriv
/-!
Property theorems for C37 (period and separation), C38 (Roche lobes), C39 (stable mass transfer), C40 (rotations).
-/
namespace Verif.Orbit
open Real Filter Topology
open Classical

/-! ### C37 -/

/-- The factor by which period → separation → period is off: the constants used in the two directions do not match. -/
noncomputable def roundTrip : ℝ := dayyer * Real.sqrt (kepler / aursun ^ 3)

/-- C37: Kepler's third law with one constant for all binaries. -/
theorem C37_kepler (P m1 m2 : ℝ) (hm : 0 < m1 + m2) :
    sepFromPeriod P m1 m2 ^ 3 = kepler * (m1 + m2) * P ^ 2 ∧ 0 < kepler := ⟨sepFromPeriod_cube P m1 m2 hm.le, kepler_pos⟩

/-- C37: going from the period to the separation and back multiplies by a constant that depends on nothing; so does the other direction.
(The constant is not exactly 1, see `C37_inverse_violated`.) -/
theorem C37_inverse_partial (P m1 m2 : ℝ) (hP : 0 < P) (hm : 0 < m1 + m2) :
    periodFromSep (sepFromPeriod P m1 m2) m1 m2 = roundTrip * P ∧
    ∀ a, 0 < a → sepFromPeriod (periodFromSep a m1 m2) m1 m2 ^ 3 = roundTrip ^ 2 * a ^ 3 := by
  constructor
  · unfold periodFromSep roundTrip
    rw [div_pow, sepFromPeriod_cube _ _ _ hm.le]
    have : kepler * (m1 + m2) * P ^ 2 / aursun ^ 3 / (m1 + m2) = kepler / aursun ^ 3 * P ^ 2 := by
      field_simp
    rw [this, Real.sqrt_mul' _ (sq_nonneg P), Real.sqrt_sq hP.le]
    ring
  · intro a ha
    have hk := kepler_pos
    have hau : (0 : ℝ) < aursun := by unfold aursun; norm_num
    rw [sepFromPeriod_cube _ _ _ hm.le]
    unfold periodFromSep roundTrip
    rw [mul_pow, mul_pow, Real.sq_sqrt (by positivity), Real.sq_sqrt (by positivity)]
    field_simp

/-- C37 fails exactly: the two functions are not inverse; the period comes back larger by between 0.01% and 0.02%. -/
theorem C37_inverse_violated : 1.0001 < roundTrip ∧ roundTrip < 1.0002 := by
  unfold roundTrip
  have hk : (0 : ℝ) ≤ kepler / aursun ^ 3 := by
    have := kepler_pos
    unfold aursun
    positivity
  have e : dayyer * Real.sqrt (kepler / aursun ^ 3) = Real.sqrt (dayyer ^ 2 * (kepler / aursun ^ 3)) := by
    rw [Real.sqrt_mul (sq_nonneg _), Real.sqrt_sq (by unfold dayyer; norm_num)]
  rw [e]
  constructor
  · apply Real.lt_sqrt_of_sq_lt
    unfold kepler dayyer aursun cgrav Msun day2sec cpi Rsun
    norm_num
  · rw [Real.sqrt_lt' (by norm_num)]
    unfold kepler dayyer aursun cgrav Msun day2sec cpi Rsun
    norm_num

/-- C37: the separation grows strictly with the period and with the total mass; the period grows strictly with the separation. -/
theorem C37_monotone (P P' m1 m2 m1' m2' : ℝ) (hP : 0 < P) (hm : 0 < m1 + m2) :
    (P < P' → sepFromPeriod P m1 m2 < sepFromPeriod P' m1 m2) ∧
    (m1 + m2 < m1' + m2' → sepFromPeriod P m1 m2 < sepFromPeriod P m1' m2') ∧
    (∀ a a', 0 < a → a < a' → periodFromSep a m1 m2 < periodFromSep a' m1 m2) := by
  have hk := kepler_pos
  refine ⟨fun h => ?_, fun h => ?_, fun a a' h0 h => ?_⟩
  · apply lt_of_pow_lt_pow_left₀ 3 (sepFromPeriod_pos (hP.trans h) hm).le
    rw [sepFromPeriod_cube _ _ _ hm.le, sepFromPeriod_cube _ _ _ hm.le]
    exact mul_lt_mul_of_pos_left (by nlinarith) (by positivity)
  · apply lt_of_pow_lt_pow_left₀ 3 (sepFromPeriod_pos hP (hm.trans h)).le
    rw [sepFromPeriod_cube _ _ _ hm.le, sepFromPeriod_cube _ _ _ (hm.trans h).le]
    exact mul_lt_mul_of_pos_right (mul_lt_mul_of_pos_left h hk) (by positivity)
  · unfold periodFromSep
    have hau : (0 : ℝ) < aursun := by unfold aursun; norm_num
    have hd : (0 : ℝ) < dayyer := by unfold dayyer; norm_num
    apply mul_lt_mul_of_pos_left _ hd
    apply Real.sqrt_lt_sqrt (by positivity)
    apply div_lt_div_of_pos_right _ hm
    apply pow_lt_pow_left₀ _ (by positivity) (by norm_num)
    exact div_lt_div_of_pos_right h hau

/-- C37: wind mass loss keeps `P · M_tot²` and `A · M_tot`, so losing no mass changes nothing, consecutive phases compose, and the two formulas agree
with Kepler's third law: converting the widened period gives the widened separation. -/
theorem C37_wind (Mc Mi comp P A : ℝ) (h1 : 0 < Mc + comp) (h2 : 0 < Mi + comp) (hP : 0 < P) (hA : 0 < A) :
    periodWind Mc Mi comp P * (Mc + comp) ^ 2 = P * (Mi + comp) ^ 2 ∧
    sepWind Mc Mi comp A * (Mc + comp) = A * (Mi + comp) ∧
    sepFromPeriod (periodWind Mc Mi comp P) Mc comp = sepWind Mc Mi comp (sepFromPeriod P Mi comp) := by
  refine ⟨?_, ?_, ?_⟩
  · rw [periodWind_eq h1 h2 hP]; field_simp
  · rw [sepWind_eq h1 h2 hA]; field_simp
  · have hk := kepler_pos
    have hpw : 0 < periodWind Mc Mi comp P := by rw [periodWind_eq h1 h2 hP]; positivity
    have hs := sepFromPeriod_pos hP h2
    have hl := sepFromPeriod_pos hpw h1
    have hr : 0 < sepWind Mc Mi comp (sepFromPeriod P Mi comp) := by rw [sepWind_eq h1 h2 hs]; positivity
    apply pow_left_injective₀ hl hr
    rw [sepFromPeriod_cube _ _ _ h1.le, sepWind_eq h1 h2 hs, mul_pow, sepFromPeriod_cube _ _ _ h2.le, periodWind_eq h1 h2 hP]
    field_simp
where
  pow_left_injective₀ {x y : ℝ} (hx : 0 < x) (hy : 0 < y) (h : x ^ 3 = y ^ 3) : x = y :=
    (pow_left_inj₀ hx.le hy.le (by norm_num)).1 h

/-! ### C38 -/

/-- C38: for positive masses and separation the lobe is defined, positive, and smaller than 0.49/0.6 of the separation. -/
theorem C38_range (m1 m2 a : ℝ) (h1 : 0 < m1) (h2 : 0 < m2) (ha : 0 < a) :
    ∃ r, rocheLobe m1 m2 a = some r ∧ 0 < r ∧ r < a * (0.49 / 0.6) ∧ r < a := by
  have hq : 0 < m1 / m2 := div_pos h1 h2
  have ht : 0 < (m1 / m2) ^ ((1 : ℝ) / 3) := Real.rpow_pos_of_pos hq _
  have hlog := Real.log_pos (show (1 : ℝ) < 1 + (m1 / m2) ^ ((1 : ℝ) / 3) by linarith)
  have hE : 0 < eggT ((m1 / m2) ^ ((1 : ℝ) / 3)) := by unfold eggT; positivity
  have hE' : eggT ((m1 / m2) ^ ((1 : ℝ) / 3)) < 0.49 / 0.6 := by
    unfold eggT
    rw [div_lt_div_iff₀ (eggT_den_pos ht) (by norm_num)]
    nlinarith
  refine ⟨a * eggleton (m1 / m2), ?_, ?_, ?_, ?_⟩
  · unfold rocheLobe validSep validMass
    rw [if_neg (not_lt.2 ha.le), if_neg (not_le.2 h1), if_neg (not_le.2 h2)]
  · rw [eggleton_eq hq.le]; positivity
  · rw [eggleton_eq hq.le]; exact mul_lt_mul_of_pos_left hE' ha
  · rw [eggleton_eq hq.le]
    have : eggT ((m1 / m2) ^ ((1 : ℝ) / 3)) < 1 := hE'.trans (by norm_num)
    nlinarith

/-- C38: the lobe is proportional to the separation. -/
theorem C38_linear (m1 m2 a c : ℝ) (ha : 0 ≤ a) (hc : 0 ≤ c) : rocheLobe m1 m2 (c * a) = (rocheLobe m1 m2 a).map (c * ·) := by
  unfold rocheLobe validSep
  rw [if_neg (not_lt.2 (mul_nonneg hc ha)), if_neg (not_lt.2 ha)]
  cases validMass m1 <;> cases validMass m2 <;> simp [mul_assoc]

/-- C38: of two binaries with the same separation the one with the larger mass ratio has the larger lobe. -/
theorem C38_monotone (m1 m2 m1' m2' a r r' : ℝ) (h1 : 0 < m1) (h2 : 0 < m2) (h1' : 0 < m1') (h2' : 0 < m2') (ha : 0 < a)
    (hq : m1 / m2 < m1' / m2') (hr : rocheLobe m1 m2 a = some r) (hr' : rocheLobe m1' m2' a = some r') : r < r' := by
  unfold rocheLobe validSep validMass at hr hr'
  rw [if_neg (not_lt.2 ha.le), if_neg (not_le.2 h1), if_neg (not_le.2 h2)] at hr
  rw [if_neg (not_lt.2 ha.le), if_neg (not_le.2 h1'), if_neg (not_le.2 h2')] at hr'
  injection hr with hr
  injection hr' with hr'
  rw [← hr, ← hr', eggleton_eq (div_pos h1 h2).le, eggleton_eq (div_pos h1' h2').le]
  apply mul_lt_mul_of_pos_left _ ha
  apply eggT_strictMono (Real.rpow_pos_of_pos (div_pos h1 h2) _)
  exact Real.rpow_lt_rpow (div_pos h1 h2).le hq (by norm_num)

/-- C38: the two Roche lobes of a binary never overlap. -/
theorem C38_disjoint (m1 m2 a r1 r2 : ℝ) (h1 : 0 < m1) (h2 : 0 < m2) (ha : 0 < a)
    (hr1 : rocheLobe m1 m2 a = some r1) (hr2 : rocheLobe m2 m1 a = some r2) : r1 + r2 < a := by
  unfold rocheLobe validSep validMass at hr1 hr2
  rw [if_neg (not_lt.2 ha.le), if_neg (not_le.2 h1), if_neg (not_le.2 h2)] at hr1
  rw [if_neg (not_lt.2 ha.le), if_neg (not_le.2 h2), if_neg (not_le.2 h1)] at hr2
  injection hr1 with hr1
  injection hr2 with hr2
  have hq : 0 < m1 / m2 := div_pos h1 h2
  have he : m2 / m1 = (m1 / m2)⁻¹ := by rw [inv_div]
  have := eggT_inv (Real.rpow_pos_of_pos hq ((1 : ℝ) / 3))
  rw [← hr1, ← hr2, eggleton_eq hq.le, eggleton_eq (div_pos h2 h1).le, he, Real.inv_rpow hq.le]
  nlinarith

/-- C38: invalid input gives NaN, and only invalid input does. -/
theorem C38_invalid (m1 m2 a : ℝ) : rocheLobe m1 m2 a = none ↔ a < 0 ∨ m1 ≤ 0 ∨ m2 ≤ 0 := by
  unfold rocheLobe validSep validMass
  by_cases h0 : a < 0 <;> by_cases h1 : m1 ≤ 0 <;> by_cases h2 : m2 ≤ 0 <;> simp [h0, h1, h2]

/-- C38: on physical input Roche-lobe overflow is reported exactly if a star exceeds its lobe by at least the tolerance; the answer does not depend on
which star is named first. -/
theorem C38_overflow (m1 r1 m2 r2 a tol : ℝ) (h1 : 0 < m1) (h2 : 0 < m2) (ha : 0 ≤ a) :
    ∃ l1 l2, rocheLobe m1 m2 a = some l1 ∧ rocheLobe m2 m1 a = some l2 ∧
      (checkRLO m1 r1 m2 r2 a tol = true ↔ l1 + tol ≤ r1 ∨ l2 + tol ≤ r2) ∧
      checkRLO m2 r2 m1 r1 a tol = checkRLO m1 r1 m2 r2 a tol := by
  have e1 : rocheLobe m1 m2 a = some (a * eggleton (m1 / m2)) := by
    unfold rocheLobe validSep validMass
    rw [if_neg (not_lt.2 ha), if_neg (not_le.2 h1), if_neg (not_le.2 h2)]
  have e2 : rocheLobe m2 m1 a = some (a * eggleton (m2 / m1)) := by
    unfold rocheLobe validSep validMass
    rw [if_neg (not_lt.2 ha), if_neg (not_le.2 h2), if_neg (not_le.2 h1)]
  refine ⟨_, _, e1, e2, ?_, ?_⟩
  · unfold checkRLO
    rw [e1, e2]
    by_cases h : below r1 (some (a * eggleton (m1 / m2))) tol ∧ below r2 (some (a * eggleton (m2 / m1))) tol
    · rw [if_pos h]
      constructor
      · intro hc; exact absurd hc (by decide)
      · simp only [below] at h
        rintro (hc | hc) <;> linarith [h.1, h.2]
    · rw [if_neg h]
      refine ⟨fun _ => ?_, fun _ => rfl⟩
      simp only [below] at h
      rw [not_and_or, not_lt, not_lt] at h
      rcases h with h | h
      · left; linarith
      · right; linarith
  · unfold checkRLO
    simp only [and_comm]

/-- C38 fails for unphysical input: a point-like star without companion in any orbit is reported as overflowing, because a comparison with NaN is false. -/
theorem C38_nan_violated (m1 r1 m2 r2 a tol : ℝ) (h : a < 0 ∨ m1 ≤ 0 ∨ m2 ≤ 0) : checkRLO m1 r1 m2 r2 a tol = true := by
  unfold checkRLO
  rw [(C38_invalid m1 m2 a).2 h, if_neg (fun hc => hc.1)]

/-- C38 fails for arrays: an invalid separation is replaced by NaN in the caller's own array. -/
theorem C38_mutates_violated (m1 m2 : ℝ) (as : List (Option ℝ)) (a : ℝ) (h : some a ∈ as) (ha : a < 0) :
    (rocheLobeArray m1 m2 as).2 ≠ as := by
  intro he
  simp only [rocheLobeArray] at he
  have hself : ∀ (l : List (Option ℝ)), l.map (fun x => x.bind validSep) = l → ∀ x ∈ l, x.bind validSep = x := by
    intro l
    induction l with
    | nil => intro _ x hx; cases hx
    | cons b l ih =>
      intro hl x hx
      rw [List.map_cons] at hl
      injection hl with h1 h2
      rcases List.mem_cons.1 hx with rfl | hx
      · exact h1
      · exact ih h2 x hx
  have := hself as he _ h
  simp [validSep, ha] at this

/-! ### C39 -/

/-- C39: exactly the mass gain of the donor and efficiencies outside [0, 1] are refused. -/
theorem C39_refused (P Mdi Mdf Mai alpha beta : ℝ) :
    periodMT P Mdi Mdf Mai alpha beta = .error .value ↔ Mdi < Mdf ∨ alpha < 0 ∨ beta < 0 ∨ alpha > 1 ∨ beta > 1 := by
  unfold periodMT
  by_cases h1 : Mdi - Mdf < 0
  · rw [if_pos h1]; simp only [true_iff]; left; linarith
  · rw [if_neg h1]
    simp only
    have h1' : ¬ Mdi < Mdf := by intro h; exact h1 (by linarith)
    by_cases h2 : alpha < 0 ∨ beta < 0 ∨ alpha > 1 ∨ beta > 1
    · rw [if_pos h2]; simp only [true_iff]; exact Or.inr h2
    · rw [if_neg h2]
      split_ifs
      · simp only [reduceCtorEq, false_iff]; tauto
      · simp only [reduceCtorEq, false_iff]; tauto

theorem maccFinal_pos {Mdi Mdf Mai alpha beta : ℝ} (ha : 0 < Mai) (hd : Mdf ≤ Mdi) (h1 : alpha ≤ 1) (h2 : beta ≤ 1) :
    0 < maccFinal Mdi Mdf Mai alpha beta := by
  unfold maccFinal
  have : 0 ≤ (1 - beta) * (1 - alpha) * (Mdi - Mdf) :=
    mul_nonneg (mul_nonneg (by linarith) (by linarith)) (by linarith)
  linarith

/-- C39: physical input gives a positive period. -/
theorem C39_positive (P Mdi Mdf Mai alpha beta : ℝ) (hP : 0 < P) (hdf : 0 < Mdf) (hd : Mdf ≤ Mdi) (ha : 0 < Mai)
    (h : 0 ≤ alpha ∧ alpha ≤ 1 ∧ 0 ≤ beta ∧ beta ≤ 1) : ∃ P', periodMT P Mdi Mdf Mai alpha beta = .ok P' ∧ 0 < P' := by
  have hM := maccFinal_pos ha hd h.2.1 h.2.2.2
  have hdi : 0 < Mdi := lt_of_lt_of_le hdf hd
  unfold periodMT
  rw [if_neg (by linarith)]
  simp only
  rw [if_neg (by rintro (h' | h' | h' | h') <;> linarith [h.1, h.2.1, h.2.2.1, h.2.2.2])]
  split_ifs
  · exact ⟨_, rfl, by positivity⟩
  · exact ⟨_, rfl, by positivity⟩

/-- C39: no mass transferred, no change of the period. -/
theorem C39_no_transfer (P Md Mai alpha beta : ℝ) (hd : 0 < Md) (ha : 0 < Mai)
    (h : 0 ≤ alpha ∧ alpha ≤ 1 ∧ 0 ≤ beta ∧ beta ≤ 1) : periodMT P Md Md Mai alpha beta = .ok P := by
  have hm : maccFinal Md Md Mai alpha beta = Mai := by unfold maccFinal; ring
  unfold periodMT
  rw [if_neg (by linarith)]
  simp only
  rw [if_neg (by rintro (h' | h' | h' | h') <;> linarith [h.1, h.2.1, h.2.2.1, h.2.2.2]), hm, div_self hd.ne', div_self ha.ne',
    div_self (by positivity : Md + Mai ≠ 0), sub_self]
  simp

/-- C39: two consecutive episodes with the same efficiencies are one long episode. -/
theorem C39_compose (P P1 M0 M1 M2 Mai alpha beta : ℝ) (h2 : 0 < M2) (h21 : M2 ≤ M1) (h10 : M1 ≤ M0) (ha : 0 < Mai)
    (h : 0 ≤ alpha ∧ alpha ≤ 1 ∧ 0 ≤ beta ∧ beta ≤ 1) (hP : periodMT P M0 M1 Mai alpha beta = .ok P1) :
    periodMT P1 M1 M2 (maccFinal M0 M1 Mai alpha beta) alpha beta = periodMT P M0 M2 Mai alpha beta := by
  have h1 : 0 < M1 := lt_of_lt_of_le h2 h21
  have h0 : 0 < M0 := lt_of_lt_of_le h1 h10
  have hA1 := maccFinal_pos ha h10 h.2.1 h.2.2.2
  have hA2 := maccFinal_pos (alpha := alpha) (beta := beta) ha (h21.trans h10) h.2.1 h.2.2.2
  have hcomp : maccFinal M1 M2 (maccFinal M0 M1 Mai alpha beta) alpha beta = maccFinal M0 M2 Mai alpha beta := by
    unfold maccFinal; ring
  have hr : ¬ (alpha < 0 ∨ beta < 0 ∨ alpha > 1 ∨ beta > 1) := by
    rintro (h' | h' | h' | h') <;> linarith [h.1, h.2.1, h.2.2.1, h.2.2.2]
  unfold periodMT at hP ⊢
  rw [if_neg (by linarith)] at hP
  simp only at hP ⊢
  rw [if_neg hr] at hP
  rw [if_neg (show ¬ M1 - M2 < 0 by linarith), if_neg (show ¬ M0 - M2 < 0 by linarith)]
  simp only [if_neg hr]
  rw [hcomp]
  set A1 := maccFinal M0 M1 Mai alpha beta with hA1e
  set A2 := maccFinal M0 M2 Mai alpha beta with hA2e
  have ed : ∀ k : ℝ, (M2 / M0) ^ k = (M1 / M0) ^ k * (M2 / M1) ^ k := by
    intro k
    rw [← Real.mul_rpow (by positivity) (by positivity)]
    congr 1
    field_simp
  by_cases hb : beta ≠ 1
  · rw [if_pos hb] at hP ⊢
    rw [if_pos hb]
    injection hP with hP
    rw [← hP, ed]
    have ea : (A2 / Mai) ^ (3 / (beta - 1)) = (A1 / Mai) ^ (3 / (beta - 1)) * (A2 / A1) ^ (3 / (beta - 1)) := by
      rw [← Real.mul_rpow (by positivity) (by positivity)]
      congr 1
      field_simp
    rw [ea]
    have em : (M0 + Mai) / (M2 + A2) = ((M0 + Mai) / (M1 + A1)) * ((M1 + A1) / (M2 + A2)) := by field_simp
    rw [em]
    refine congrArg Except.ok ?_
    ring
  · rw [if_neg hb] at hP ⊢
    rw [if_neg hb]
    injection hP with hP
    rw [← hP, ed]
    have hb' : beta = 1 := not_not.1 hb
    have e1 : A1 = Mai := by rw [hA1e]; unfold maccFinal; rw [hb']; ring
    have e2 : A2 = Mai := by rw [hA2e]; unfold maccFinal; rw [hb']; ring
    rw [e1, e2]
    have ee : Real.exp (3 * (1 - alpha) * (M2 - M0) / Mai) =
        Real.exp (3 * (1 - alpha) * (M1 - M0) / Mai) * Real.exp (3 * (1 - alpha) * (M2 - M1) / Mai) := by
      rw [← Real.exp_add]
      congr 1
      ring
    rw [ee]
    have em : (M0 + Mai) / (M2 + Mai) = ((M0 + Mai) / (M1 + Mai)) * ((M1 + Mai) / (M2 + Mai)) := by field_simp
    rw [em]
    refine congrArg Except.ok ?_
    ring

/-- C39: conservative mass transfer keeps `P · (M_don · M_acc)³`. -/
theorem C39_conservative (P P' Mdi Mdf Mai : ℝ) (hdf : 0 < Mdf) (hd : Mdf ≤ Mdi) (ha : 0 < Mai) (h : periodMT P Mdi Mdf Mai 0 0 = .ok P') :
    P' * (Mdf * (Mai + (Mdi - Mdf))) ^ 3 = P * (Mdi * Mai) ^ 3 := by
  have hdi : 0 < Mdi := lt_of_lt_of_le hdf hd
  unfold periodMT at h
  rw [if_neg (by linarith)] at h
  simp only at h
  rw [if_neg (by norm_num), if_pos (by norm_num)] at h
  injection h with h
  have hM : maccFinal Mdi Mdf Mai 0 0 = Mai + (Mdi - Mdf) := by unfold maccFinal; ring
  have hAf : 0 < Mai + (Mdi - Mdf) := by linarith
  have hinv : ∀ x y : ℝ, 0 < x → 0 < y → (x / y) ^ (3 * ((0 : ℝ) - 1)) = (y / x) ^ 3 := by
    intro x y hx hy
    have : (3 * ((0 : ℝ) - 1)) = -((3 : ℕ) : ℝ) := by norm_num
    rw [this, Real.rpow_neg (by positivity), Real.rpow_natCast, ← inv_pow, inv_div]
  have h3 : (3 / ((0 : ℝ) - 1)) = 3 * ((0 : ℝ) - 1) := by norm_num
  rw [hM, h3, hinv _ _ hdf hdi, hinv _ _ hAf ha] at h
  have ht : Mdf + (Mai + (Mdi - Mdf)) = Mdi + Mai := by ring
  rw [ht, div_self (by positivity)] at h
  rw [← h]
  field_simp

/-- C39: mass lost entirely from the donor's vicinity changes the period like a wind. -/
theorem C39_wind (P Mdi Mdf Mai beta : ℝ) (hP : 0 < P) (hdf : 0 < Mdf) (hd : Mdf ≤ Mdi) (ha : 0 < Mai) (hb0 : 0 ≤ beta) (hb1 : beta ≤ 1) :
    periodMT P Mdi Mdf Mai 1 beta = .ok (periodWind Mdf Mdi Mai P) := by
  have hdi : 0 < Mdi := lt_of_lt_of_le hdf hd
  have hM : maccFinal Mdi Mdf Mai 1 beta = Mai := by unfold maccFinal; ring
  rw [periodWind_eq (by positivity) (by positivity) hP]
  unfold periodMT
  rw [if_neg (by linarith)]
  simp only
  rw [if_neg (by rintro (h' | h' | h' | h') <;> linarith), hM, div_self ha.ne']
  split_ifs <;> simp

/-- C39: the branch for `beta = 1` is the limit of the other branch. -/
theorem C39_limit (P Mdi Mdf Mai alpha : ℝ) (hdf : 0 < Mdf) (hd : Mdf ≤ Mdi) (ha : 0 < Mai) :
    Tendsto (fun beta => P * (Mdf / Mdi) ^ (3 * (alpha - 1)) * (maccFinal Mdi Mdf Mai alpha beta / Mai) ^ (3 / (beta - 1)) *
        ((Mdi + Mai) / (Mdf + maccFinal Mdi Mdf Mai alpha beta)) ^ 2) (𝓝[≠] 1)
      (𝓝 (P * (Mdf / Mdi) ^ (3 * (alpha - 1)) * Real.exp (3 * (1 - alpha) * (Mdf - Mdi) / maccFinal Mdi Mdf Mai alpha 1) *
        ((Mdi + Mai) / (Mdf + maccFinal Mdi Mdf Mai alpha 1)) ^ 2)) := by
  have hM1 : maccFinal Mdi Mdf Mai alpha 1 = Mai := by unfold maccFinal; ring
  have hcont : Continuous (fun beta => maccFinal Mdi Mdf Mai alpha beta) := by unfold maccFinal; fun_prop
  have hMt : Tendsto (fun beta => maccFinal Mdi Mdf Mai alpha beta) (𝓝[≠] 1) (𝓝 Mai) := by
    have := (hcont.tendsto 1).mono_left (nhdsWithin_le_nhds (s := {1}ᶜ))
    rwa [hM1] at this
  rw [hM1]
  set D := (1 - alpha) * (Mdi - Mdf) / Mai with hD
  -- log of the middle factor
  have hder : HasDerivAt (fun beta : ℝ => Real.log (maccFinal Mdi Mdf Mai alpha beta / Mai)) (-D) 1 := by
    have h1 : HasDerivAt (fun beta : ℝ => maccFinal Mdi Mdf Mai alpha beta / Mai) (-D) 1 := by
      have h2 : HasDerivAt (fun beta : ℝ => Mai + (1 - beta) * (1 - alpha) * (Mdi - Mdf)) (-1 * (1 - alpha) * (Mdi - Mdf)) 1 :=
        ((((hasDerivAt_id (1 : ℝ)).const_sub 1).mul_const _).mul_const _).const_add _
      have h3 := h2.div_const Mai
      have : -1 * (1 - alpha) * (Mdi - Mdf) / Mai = -D := by rw [hD]; ring
      rw [this] at h3
      exact h3
    have h0 : maccFinal Mdi Mdf Mai alpha 1 / Mai ≠ 0 := by rw [hM1, div_self ha.ne']; norm_num
    have := h1.log h0
    rw [hM1, div_self ha.ne', div_one] at this
    exact this
  have hslope := hder.tendsto_slope
  have hmid : Tendsto (fun beta => (maccFinal Mdi Mdf Mai alpha beta / Mai) ^ (3 / (beta - 1))) (𝓝[≠] 1)
      (𝓝 (Real.exp (3 * (1 - alpha) * (Mdf - Mdi) / Mai))) := by
    have e : 3 * (1 - alpha) * (Mdf - Mdi) / Mai = 3 * -D := by rw [hD]; ring
    rw [e]
    have h1 := (Real.continuous_exp.tendsto _).comp (hslope.const_mul 3)
    apply Tendsto.congr' _ h1
    have hpos : ∀ᶠ beta in 𝓝[≠] (1 : ℝ), 0 < maccFinal Mdi Mdf Mai alpha beta := hMt.eventually (lt_mem_nhds ha)
    filter_upwards [hpos] with beta hb
    simp only [Function.comp, slope_def_field, hM1, div_self ha.ne', Real.log_one, sub_zero]
    rw [Real.rpow_def_of_pos (div_pos hb ha)]
    congr 1
    ring
  have hden : Mdf + Mai ≠ 0 := by positivity
  exact ((tendsto_const_nhds.mul hmid)).mul (((tendsto_const_nhds).div (tendsto_const_nhds.add hMt) hden).pow 2)

/-! ### C40 -/

theorem rotate_unit {axis : List ℝ} {t : ℝ} {R : Matrix (Fin 3) (Fin 3) ℝ} (h : rotate axis t = .ok R) :
    ∃ x y z n, axis = [x, y, z] ∧ n ≠ 0 ∧ n ^ 2 = x ^ 2 + y ^ 2 + z ^ 2 ∧ 0 ≤ n ∧
      (x / n) ^ 2 + (y / n) ^ 2 + (z / n) ^ 2 = 1 ∧ R = rotUnit (x / n) (y / n) (z / n) t ∧
      ∀ u, rotate axis u = .ok (rotUnit (x / n) (y / n) (z / n) u) := by
  match axis, h with
  | [x, y, z], h =>
    simp only [rotate] at h
    split_ifs at h with hn
    injection h with h
    have hsq : Real.sqrt (x ^ 2 + y ^ 2 + z ^ 2) ^ 2 = x ^ 2 + y ^ 2 + z ^ 2 := Real.sq_sqrt (by positivity)
    refine ⟨x, y, z, _, rfl, hn, hsq, Real.sqrt_nonneg _, ?_, h.symm, fun u => by simp only [rotate]; rw [if_neg hn]⟩
    rw [div_pow, div_pow, div_pow, hsq]
    have : x ^ 2 + y ^ 2 + z ^ 2 ≠ 0 := by rw [← hsq]; positivity
    field_simp

/-- C40: every accepted axis gives an orthogonal matrix of determinant 1. -/
theorem C40_orthogonal (axis : List ℝ) (t : ℝ) (R : Matrix (Fin 3) (Fin 3) ℝ) (h : rotate axis t = .ok R) :
    R * R.transpose = 1 ∧ R.det = 1 := by
  obtain ⟨x0, y0, z0, n, -, -, -, -, hN, rfl, -⟩ := rotate_unit h
  set x := x0 / n
  set y := y0 / n
  set z := z0 / n
  have hcs := Real.sin_sq_add_cos_sq t
  have hT : (rotUnit x y z t).transpose = !![cos t + x ^ 2 * (1 - cos t), y * x * (1 - cos t) + z * sin t, z * x * (1 - cos t) - y * sin t;
      x * y * (1 - cos t) - z * sin t, cos t + y ^ 2 * (1 - cos t), z * y * (1 - cos t) + x * sin t;
      x * z * (1 - cos t) + y * sin t, y * z * (1 - cos t) - x * sin t, cos t + z ^ 2 * (1 - cos t)] := by
    ext i j; fin_cases i <;> fin_cases j <;> rfl
  constructor
  · rw [hT]
    unfold rotUnit
    rw [Matrix.mul_fin_three, Matrix.one_fin_three]
    have e : ∀ a b c d e f g h i a' b' c' d' e' f' g' h' i' : ℝ, a = a' → b = b' → c = c' → d = d' → e = e' → f = f' → g = g' →
        h = h' → i = i' → !![a, b, c; d, e, f; g, h, i] = !![a', b', c'; d', e', f'; g', h', i'] := by
      rintro _ _ _ _ _ _ _ _ _ _ _ _ _ _ _ _ _ _ rfl rfl rfl rfl rfl rfl rfl rfl rfl; rfl
    apply e
    · linear_combination (1 - x * x) * hcs + (sin t ^ 2 + (1 - cos t) ^ 2 * (x * x)) * hN
    · linear_combination (0 - x * y) * hcs + ((1 - cos t) ^ 2 * (x * y)) * hN
    · linear_combination (0 - x * z) * hcs + ((1 - cos t) ^ 2 * (x * z)) * hN
    · linear_combination (0 - y * x) * hcs + ((1 - cos t) ^ 2 * (y * x)) * hN
    · linear_combination (1 - y * y) * hcs + (sin t ^ 2 + (1 - cos t) ^ 2 * (y * y)) * hN
    · linear_combination (0 - y * z) * hcs + ((1 - cos t) ^ 2 * (y * z)) * hN
    · linear_combination (0 - z * x) * hcs + ((1 - cos t) ^ 2 * (z * x)) * hN
    · linear_combination (0 - z * y) * hcs + ((1 - cos t) ^ 2 * (z * y)) * hN
    · linear_combination (1 - z * z) * hcs + (sin t ^ 2 + (1 - cos t) ^ 2 * (z * z)) * hN
  · unfold rotUnit
    rw [Matrix.det_fin_three]
    simp
    linear_combination (cos t + (1 - cos t) * (x ^ 2 + y ^ 2 + z ^ 2)) * hcs +
      ((cos t + (1 - cos t) * (x ^ 2 + y ^ 2 + z ^ 2)) * sin t ^ 2 + (1 - cos t)) * hN

/-- C40: the axis is fixed. -/
theorem C40_fixes_axis (x y z t : ℝ) (R : Matrix (Fin 3) (Fin 3) ℝ) (h : rotate [x, y, z] t = .ok R) : R.mulVec ![x, y, z] = ![x, y, z] := by
  obtain ⟨x0, y0, z0, n, hax, hn, hsq, -, hN, rfl, -⟩ := rotate_unit h
  injection hax with e1 h2
  injection h2 with e2 h3
  injection h3 with e3 _
  subst e1; subst e2; subst e3
  obtain ⟨a, ha⟩ : ∃ a, a = x / n := ⟨_, rfl⟩
  obtain ⟨b, hb⟩ : ∃ b, b = y / n := ⟨_, rfl⟩
  obtain ⟨c, hc⟩ : ∃ c, c = z / n := ⟨_, rfl⟩
  have ex : x = n * a := by rw [ha]; field_simp
  have ey : y = n * b := by rw [hb]; field_simp
  have ez : z = n * c := by rw [hc]; field_simp
  rw [← ha, ← hb, ← hc] at hN ⊢
  rw [ex, ey, ez]
  ext i
  fin_cases i <;> simp [rotUnit, Matrix.mulVec, dotProduct, Fin.sum_univ_three]
  · linear_combination (n * (1 - cos t) * a) * hN
  · linear_combination (n * (1 - cos t) * b) * hN
  · linear_combination (n * (1 - cos t) * c) * hN

/-- C40: rotations about one axis compose by adding the angles; the angle 0 does nothing. -/
theorem C40_compose (axis : List ℝ) (t u : ℝ) (R S : Matrix (Fin 3) (Fin 3) ℝ) (hR : rotate axis t = .ok R) (hS : rotate axis u = .ok S) :
    rotate axis (t + u) = .ok (R * S) ∧ rotate axis 0 = .ok 1 := by
  obtain ⟨x0, y0, z0, n, -, -, -, -, hN, rfl, hall⟩ := rotate_unit hR
  rw [hall u] at hS
  injection hS with hS
  rw [hall, hall, ← hS]
  set x := x0 / n
  set y := y0 / n
  set z := z0 / n
  have e : ∀ a b c d e f g h i a' b' c' d' e' f' g' h' i' : ℝ, a = a' → b = b' → c = c' → d = d' → e = e' → f = f' → g = g' →
      h = h' → i = i' → !![a, b, c; d, e, f; g, h, i] = !![a', b', c'; d', e', f'; g', h', i'] := by
    rintro _ _ _ _ _ _ _ _ _ _ _ _ _ _ _ _ _ _ rfl rfl rfl rfl rfl rfl rfl rfl rfl; rfl
  constructor
  · refine congrArg Except.ok ?_
    unfold rotUnit
    rw [Matrix.mul_fin_three, Real.cos_add, Real.sin_add]
    apply e
    · linear_combination -(-(sin t * sin u) + (1 - cos t) * (1 - cos u) * (x * x)) * hN
    · linear_combination -((1 - cos t) * (1 - cos u) * (x * y)) * hN
    · linear_combination -((1 - cos t) * (1 - cos u) * (x * z)) * hN
    · linear_combination -((1 - cos t) * (1 - cos u) * (y * x)) * hN
    · linear_combination -(-(sin t * sin u) + (1 - cos t) * (1 - cos u) * (y * y)) * hN
    · linear_combination -((1 - cos t) * (1 - cos u) * (y * z)) * hN
    · linear_combination -((1 - cos t) * (1 - cos u) * (z * x)) * hN
    · linear_combination -((1 - cos t) * (1 - cos u) * (z * y)) * hN
    · linear_combination -(-(sin t * sin u) + (1 - cos t) * (1 - cos u) * (z * z)) * hN
  · refine congrArg Except.ok ?_
    unfold rotUnit
    rw [Matrix.one_fin_three]
    simp

/-- C40: exactly the axes of length zero and the vectors that are not three-dimensional are refused. -/
theorem C40_refused (axis : List ℝ) (t : ℝ) :
    rotate axis t = .error .value ↔ axis.length ≠ 3 ∨ axis = [0, 0, 0] := by
  match axis with
  | [] => simp [rotate]
  | [x] => simp [rotate]
  | [x, y] => simp [rotate]
  | [x, y, z] =>
    have hz : Real.sqrt (x ^ 2 + y ^ 2 + z ^ 2) = 0 ↔ x = 0 ∧ y = 0 ∧ z = 0 := by
      rw [Real.sqrt_eq_zero (by positivity)]
      constructor
      · intro h
        refine ⟨?_, ?_, ?_⟩ <;> nlinarith [sq_nonneg x, sq_nonneg y, sq_nonneg z]
      · rintro ⟨rfl, rfl, rfl⟩; norm_num
    simp only [rotate]
    by_cases hn : Real.sqrt (x ^ 2 + y ^ 2 + z ^ 2) = 0
    · rw [if_pos hn]
      obtain ⟨h1, h2, h3⟩ := hz.1 hn
      simp [h1, h2, h3]
    · rw [if_neg hn]
      have : ¬ (x = 0 ∧ y = 0 ∧ z = 0) := fun h => hn (hz.2 h)
      simp
      tauto
  | x :: y :: z :: w :: r => simp [rotate]

/-! ### Concrete cases -/

example : ∃ R, rotate [1, 2, 2] 1 = .ok R := by
  simp only [rotate]
  refine ⟨_, if_neg ?_⟩
  rw [show (1 : ℝ) ^ 2 + 2 ^ 2 + 2 ^ 2 = 3 ^ 2 by norm_num, Real.sqrt_sq (by norm_num)]
  norm_num
example : periodMT 10 20 15 10 0 0 = .ok (10 * ((20 * 10) / (15 * 15)) ^ 3) := by
  obtain ⟨P', hP, _⟩ := C39_positive 10 20 15 10 0 0 (by norm_num) (by norm_num) (by norm_num) (by norm_num) (by norm_num)
  have := C39_conservative 10 P' 20 15 10 (by norm_num) (by norm_num) (by norm_num) hP
  rw [hP]
  refine congrArg Except.ok ?_
  norm_num at this ⊢
  linarith
example : rocheLobe (-1) 1 1 = none := (C38_invalid _ _ _).2 (Or.inr (Or.inl (by norm_num)))

theorem rate_mul {g h : ℝ → ℝ} {a b m : ℝ} (hg : HasDerivAt g (g m * a) m) (hh : HasDerivAt h (h m * b) m) :
    HasDerivAt (fun x => g x * h x) (g m * h m * (a + b)) m := by
  exact (HasDerivAt.mul (c := g) (d := h) hg hh).congr_deriv (by ring)

theorem rate_const (c m : ℝ) : HasDerivAt (fun _ : ℝ => c) (c * 0) m := by
  rw [mul_zero]
  exact hasDerivAt_const m c

theorem rate_pow {u : ℝ → ℝ} {u' p m : ℝ} (hu : HasDerivAt u u' m) (h0 : 0 < u m) : HasDerivAt (fun x => u x ^ p) (u m ^ p * (p * u' / u m)) m := by
  refine (hu.rpow_const (p := p) (Or.inl h0.ne')).congr_deriv ?_
  rw [Real.rpow_sub_one h0.ne']
  field_simp

theorem rate_square {u : ℝ → ℝ} {u' m k : ℝ} (hu : HasDerivAt u u' m) (h0 : 0 < u m) :
    HasDerivAt (fun x => (k / u x) ^ 2) ((k / u m) ^ 2 * (-2 * u' / u m)) m := by
  have d : HasDerivAt (fun x => k / u x) ((0 * u m - k * u') / u m ^ 2) m := (hasDerivAt_const m k).div hu h0.ne'
  refine (HasDerivAt.pow d 2).congr_deriv ?_
  have := h0.ne'
  norm_num
  field_simp

/-- The period as a function of the final mass of the donor is the solution of one differential equation, the same for all ways to lose mass, which starts
with the given period: mass lost as a fast wind of the donor (`alpha`) carries away its angular momentum, mass lost by the accretor (`beta`) the
accretor's. -/
theorem C39_differential (P Mdi Mai alpha beta : ℝ) (hd : 0 < Mdi) (ha : 0 < Mai) (h : 0 ≤ alpha ∧ alpha ≤ 1 ∧ 0 ≤ beta ∧ beta ≤ 1) :
    ∃ f : ℝ → ℝ, (∀ m, m ≤ Mdi → periodMT P Mdi m Mai alpha beta = .ok (f m)) ∧ f Mdi = P ∧
      ∀ m, 0 < m → m ≤ Mdi → HasDerivAt f (f m * (3 * (1 - alpha) * (1 / maccFinal Mdi m Mai alpha beta - 1 / m) -
        2 * (1 - (1 - alpha) * (1 - beta)) / (m + maccFinal Mdi m Mai alpha beta))) m := by
  obtain ⟨h1, h2, h3, h4⟩ := h
  have hno : ¬ (alpha < 0 ∨ beta < 0 ∨ alpha > 1 ∨ beta > 1) := by
    rintro (e | e | e | e) <;> linarith
  have hM : ∀ m, m ≤ Mdi → 0 < maccFinal Mdi m Mai alpha beta := by
    intro m hm
    unfold maccFinal
    have := mul_nonneg (mul_nonneg (sub_nonneg.2 h4) (sub_nonneg.2 h2)) (sub_nonneg.2 hm)
    linarith
  have dM : ∀ m, HasDerivAt (fun x => maccFinal Mdi x Mai alpha beta) (-((1 - beta) * (1 - alpha))) m := by
    intro m
    unfold maccFinal
    exact ((((hasDerivAt_id' m).const_sub Mdi).const_mul ((1 - beta) * (1 - alpha))).const_add Mai).congr_deriv (by ring)
  have dq : ∀ m, HasDerivAt (fun x : ℝ => x / Mdi) (1 / Mdi) m := fun m => (hasDerivAt_id' m).div_const Mdi
  by_cases hb : beta = 1
  · subst hb
    have hc : ∀ m, maccFinal Mdi m Mai alpha 1 = Mai := fun m => by unfold maccFinal; ring
    refine ⟨fun m => P * (m / Mdi) ^ (3 * (alpha - 1)) * Real.exp (3 * (1 - alpha) * (m - Mdi) / Mai) * ((Mdi + Mai) / (m + Mai)) ^ 2, ?_, ?_, ?_⟩
    · intro m hm
      unfold periodMT
      rw [if_neg (by linarith)]
      dsimp only
      rw [if_neg hno, if_neg (by simp), hc]
    · dsimp only
      rw [div_self hd.ne', div_self (by positivity)]
      simp
    · intro m h0 hm
      rw [hc]
      have d1 := rate_pow (p := 3 * (alpha - 1)) (dq m) (by positivity)
      have d2 : HasDerivAt (fun x => Real.exp (3 * (1 - alpha) * (x - Mdi) / Mai)) (Real.exp (3 * (1 - alpha) * (m - Mdi) / Mai) * (3 * (1 - alpha) / Mai)) m := by
        exact ((((hasDerivAt_id' m).sub_const Mdi).const_mul (3 * (1 - alpha))).div_const Mai).exp.congr_deriv (by ring)
      have d3 := rate_square (k := Mdi + Mai) ((hasDerivAt_id' m).add_const Mai) (by show 0 < m + Mai; positivity)
      refine (rate_mul (rate_mul (rate_mul (rate_const P m) d1) d2) d3).congr_deriv ?_
      congr 1
      field_simp
      ring
  · have hb' : beta - 1 ≠ 0 := sub_ne_zero.2 hb
    refine ⟨fun m => P * (m / Mdi) ^ (3 * (alpha - 1)) * (maccFinal Mdi m Mai alpha beta / Mai) ^ (3 / (beta - 1)) *
      ((Mdi + Mai) / (m + maccFinal Mdi m Mai alpha beta)) ^ 2, ?_, ?_, ?_⟩
    · intro m hm
      unfold periodMT
      rw [if_neg (by linarith)]
      dsimp only
      rw [if_neg hno, if_pos hb]
    · have hc : maccFinal Mdi Mdi Mai alpha beta = Mai := by unfold maccFinal; ring
      dsimp only
      rw [hc, div_self hd.ne', div_self ha.ne', div_self (by positivity)]
      simp
    · intro m h0 hm
      have hp := hM m hm
      have d1 := rate_pow (p := 3 * (alpha - 1)) (dq m) (by positivity)
      have d2 := rate_pow (p := 3 / (beta - 1)) ((dM m).div_const Mai) (by positivity)
      have d0 : HasDerivAt (fun x => x + maccFinal Mdi x Mai alpha beta) (1 + -((1 - beta) * (1 - alpha))) m := (hasDerivAt_id' m).add (dM m)
      have d3 := rate_square (k := Mdi + Mai) d0 (by show 0 < m + _; positivity)
      refine (rate_mul (rate_mul (rate_mul (rate_const P m) d1) d2) d3).congr_deriv ?_
      clear d0 d1 d2 d3
      congr 1
      generalize maccFinal Mdi m Mai alpha beta = M at hp
      field_simp
      ring

end Verif.Orbit
