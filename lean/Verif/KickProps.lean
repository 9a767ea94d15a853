import Verif.Kick
import Mathlib.NumberTheory.Real.Irrational
import Verif.OrbitProps
import Mathlib.Topology.Order.IntermediateValue
import Mathlib.Analysis.SpecialFunctions.Trigonometric.Deriv
import Mathlib.Analysis.Calculus.Deriv.MeanValue
/-!
Property C33: the orbit after a supernova follows from the two-body problem.
-/
namespace Verif.Kick

open Real

theorem G_pos : 0 < G := by unfold G Orbit.cgrav; norm_num
theorem Msun_pos : 0 < Orbit.Msun := by unfold Orbit.Msun; norm_num
theorem Rsun_pos : 0 < Orbit.Rsun := by unfold Orbit.Rsun; norm_num
theorem err_pos : 0 < err := by unfold err; norm_num

section
variable {rd : ℝ → ℝ} {i : In}

theorem mpre_pos (h : Valid i) : 0 < mpre i := add_pos (mul_pos h.he Msun_pos) (mul_pos h.comp Msun_pos)
theorem mpost_pos (h : Valid i) : 0 < mpost i := add_pos (mul_pos h.co Msun_pos) (mul_pos h.comp Msun_pos)
theorem apre_pos (h : Valid i) : 0 < apre i := mul_pos h.a Rsun_pos
theorem vk_nonneg (h : Valid i) : 0 ≤ vk i := mul_nonneg h.v (by unfold km2cm; norm_num)

theorem rho_bounds (h : Valid i) : 0 < 1 - i.e * cos i.E ∧ 1 - i.e * cos i.E < 2 := by
  have h1 := neg_one_le_cos i.E
  have h2 := cos_le_one i.E
  have h3 := h.e0
  have h4 := h.e1
  constructor <;> nlinarith

theorem rpre_eq : rpre i = apre i * (1 - i.e * cos i.E) := by unfold rpre apre; ring
theorem rpre_pos (h : Valid i) : 0 < rpre i := by rw [rpre_eq]; exact mul_pos (apre_pos h) (rho_bounds h).1

theorem vr_sq (h : Valid i) : vr i ^ 2 = G * mpre i * (2 / rpre i - 1 / apre i) := by
  unfold vr
  apply sq_sqrt
  apply mul_nonneg (mul_pos G_pos (mpre_pos h)).le
  rw [sub_nonneg, div_le_div_iff₀ (apre_pos h) (rpre_pos h), rpre_eq]
  nlinarith [(rho_bounds h).2, apre_pos h]

theorem vr_pos (h : Valid i) : 0 < vr i := by
  unfold vr
  apply sqrt_pos.mpr
  apply mul_pos (mul_pos G_pos (mpre_pos h))
  rw [sub_pos, div_lt_div_iff₀ (apre_pos h) (rpre_pos h), rpre_eq]
  nlinarith [(rho_bounds h).2, apre_pos h]

/-- squared argument of the rounding -/
theorem sinψ₀_sq (h : Valid i) : sinψ₀ i ^ 2 * ((1 - i.e * cos i.E) * (2 - (1 - i.e * cos i.E))) = 1 - i.e ^ 2 := by
  have hr := rpre_pos h
  have hv := vr_pos h
  have ha := apre_pos h
  have hg := mul_pos G_pos (mpre_pos h)
  have hg1 := G_pos.ne'
  have hg2 := (mpre_pos h).ne'
  have h1 : 0 ≤ 1 - i.e ^ 2 := by nlinarith [h.e0, h.e1]
  unfold sinψ₀
  rw [div_pow, sq_sqrt (by positivity), mul_pow, vr_sq h, rpre_eq]
  have hρ := (rho_bounds h).1
  have hρ2 : 0 < 2 - (1 - i.e * cos i.E) := by linarith [(rho_bounds h).2]
  generalize 1 - i.e * cos i.E = ρ at *
  have e1 : (apre i * ρ) ^ 2 * (G * mpre i * (2 / (apre i * ρ) - 1 / apre i)) = G * mpre i * apre i * (ρ * (2 - ρ)) := by
    field_simp
  rw [e1]
  field_simp

theorem sinψ₀_bounds (h : Valid i) : 0 ≤ sinψ₀ i ∧ sinψ₀ i ≤ 1 := by
  have h0 : 0 ≤ sinψ₀ i := div_nonneg (sqrt_nonneg _) (mul_pos (rpre_pos h) (vr_pos h)).le
  refine ⟨h0, ?_⟩
  have hs := sinψ₀_sq h
  have hρ := (rho_bounds h).1
  have hρ2 : 0 < 2 - (1 - i.e * cos i.E) := by linarith [(rho_bounds h).2]
  have hc : cos i.E ^ 2 ≤ 1 := by nlinarith [neg_one_le_cos i.E, cos_le_one i.E]
  have hk : 1 - i.e ^ 2 ≤ (1 - i.e * cos i.E) * (2 - (1 - i.e * cos i.E)) := by nlinarith [sq_nonneg i.e, h.e0]
  have hpos : 0 < (1 - i.e * cos i.E) * (2 - (1 - i.e * cos i.E)) := mul_pos hρ hρ2
  have : sinψ₀ i ^ 2 ≤ 1 := by
    by_contra hh
    push Not at hh
    nlinarith
  nlinarith

theorem ψ_unit (hr : Rounds rd) (h : Valid i) : sinψ rd i ^ 2 + cosψ rd i ^ 2 = 1 := by
  obtain ⟨a, b⟩ := hr.unit _ (sinψ₀_bounds h).1 (sinψ₀_bounds h).2
  have hs : sqrt (1 - sinψ rd i ^ 2) ^ 2 = 1 - sinψ rd i ^ 2 := sq_sqrt (by unfold sinψ; nlinarith)
  unfold cosψ
  by_cases hE : i.E > π
  · rw [if_pos hE, mul_pow, hs]; ring
  · rw [if_neg hE, hs]; ring

theorem θ_unit (h : Valid i) : sinθ i ^ 2 + i.cosθ ^ 2 = 1 := by
  unfold sinθ
  rw [sq_sqrt (by linarith [h.c])]; ring

/-- C33: the three components of the kick form a vector of the drawn speed, and its component along the orbital velocity is the drawn one. -/
theorem C33_kick_vector (hr : Rounds rd) (h : Valid i) :
    (kick rd i).dot (kick rd i) = vk i ^ 2 ∧ (vpre rd i).dot (kick rd i) = vr i * (vk i * i.cosθ) ∧ (vpre rd i).dot (vpre rd i) = vr i ^ 2 := by
  have h1 := ψ_unit hr h
  have h2 := θ_unit h
  have h3 := sin_sq_add_cos_sq i.φ
  simp only [kick, V3.dot, vpre]
  refine ⟨?_, ?_, ?_⟩
  · linear_combination (vk i ^ 2 * (sinθ i ^ 2 * sin i.φ ^ 2 + i.cosθ ^ 2)) * h1 + (vk i ^ 2 * sinθ i ^ 2) * h3 + vk i ^ 2 * h2
  · linear_combination (vr i * vk i * i.cosθ) * h1
  · linear_combination (vr i ^ 2) * h1

theorem vpost_sq (hr : Rounds rd) (h : Valid i) :
    (vpost rd i).dot (vpost rd i) = vk i ^ 2 + vr i ^ 2 + 2 * (vk i * i.cosθ) * vr i := by
  obtain ⟨a, b, c⟩ := C33_kick_vector hr h
  have : (vpost rd i).dot (vpost rd i) = (kick rd i).dot (kick rd i) + (vpre rd i).dot (vpre rd i) + 2 * (vpre rd i).dot (kick rd i) := by
    simp only [vpost, V3.dot, V3.add]; ring
  rw [this, a, b, c]; ring

/-- C33: the computed semi-major axis is the one of the energy after the collapse: `energy = - G M / (2 a)`. -/
theorem C33_energy (hr : Rounds rd) (h : Valid i) : energy rd i = -(G * mpost i) * invA i / 2 := by
  unfold energy invA
  rw [vpost_sq hr h]
  have := G_pos.ne'
  have := (mpost_pos h).ne'
  have := (rpre_pos h).ne'
  field_simp
  ring

theorem angPost_sq : (angPost rd i).dot (angPost rd i) = ((kick rd i).z ^ 2 + ((kick rd i).y + vr i * sinψ rd i) ^ 2) * rpre i ^ 2 := by
  simp only [angPost, pos, V3.cross, V3.dot, vpost, V3.add, vpre]; ring

theorem xpost_eq (rd : ℝ → ℝ) (i : In) : xpost rd i = (angPost rd i).dot (angPost rd i) * invA i / (G * mpost i) := by
  unfold xpost apost
  rw [angPost_sq]
  by_cases h : invA i = 0
  · simp [h]
  · field_simp

theorem V3.dot_self_nonneg (a : V3) : 0 ≤ a.dot a := by
  simp only [V3.dot]; nlinarith [sq_nonneg a.x, sq_nonneg a.y, sq_nonneg a.z]

theorem ang_le (rd : ℝ → ℝ) (i : In) : (angPost rd i).dot (angPost rd i) ≤ rpre i ^ 2 * (vpost rd i).dot (vpost rd i) := by
  rw [angPost_sq]
  simp only [vpost, V3.dot, V3.add, vpre]
  nlinarith [sq_nonneg (rpre i * (vr i * cosψ rd i + (kick rd i).x))]

/-- for negative energy: the square root exists and the position is on the new orbit -/
theorem x_bound (hr : Rounds rd) (h : Valid i) (hA : 0 ≤ invA i) : (1 - rpre i * invA i) ^ 2 ≤ 1 - xpost rd i := by
  have hK := mul_pos G_pos (mpost_pos h)
  have hg1 := G_pos.ne'
  have hg2 := (mpost_pos h).ne'
  have hrp := rpre_pos h
  have hv : (vpost rd i).dot (vpost rd i) = G * mpost i * (2 / rpre i - invA i) := by
    rw [vpost_sq hr h]; unfold invA; field_simp; ring
  have hL := ang_le rd i
  rw [hv] at hL
  have : xpost rd i ≤ rpre i * invA i * (2 - rpre i * invA i) := by
    rw [xpost_eq, div_le_iff₀ hK]
    have e1 : rpre i ^ 2 * (G * mpost i * (2 / rpre i - invA i)) * invA i = rpre i * invA i * (2 - rpre i * invA i) * (G * mpost i) := by
      field_simp
    rw [← e1]
    exact mul_le_mul_of_nonneg_right hL hA
  nlinarith

theorem abs_one_sub_le (hr : Rounds rd) (h : Valid i) (hA : 0 ≤ invA i) : |1 - rpre i * invA i| ≤ sqrt (1 - xpost rd i) := by
  rw [← sqrt_sq_eq_abs]
  exact sqrt_le_sqrt (x_bound hr h hA)

theorem r_div_apost : rpre i / apost i = rpre i * invA i := by unfold apost; simp

theorem flag2_true (h : Valid i) : flag2 i := by
  have hK := mul_pos G_pos (mpost_pos h)
  have hk := mul_pos G_pos (mpre_pos h)
  have hrp := rpre_pos h
  have hv := vr_pos h
  have hv0 := vk_nonneg h
  have hc := h.c
  have hmp := mpost_pos h
  have hmq := mpre_pos h
  have e1 : ∀ s : ℝ, mpre i / mpost i * (vk i / vr i + s) ^ 2 * corr i = rpre i * (vk i + s * vr i) ^ 2 / (G * mpost i) := by
    intro s
    unfold corr
    have := G_pos
    field_simp
  have h1 := e1 (-1)
  have h2 := e1 1
  rw [← sub_eq_add_neg] at h1
  have hρ : rpre i * invA i = 2 - rpre i * (vk i ^ 2 + vr i ^ 2 + 2 * (vk i * i.cosθ) * vr i) / (G * mpost i) := by
    unfold invA; field_simp
  have hcos1 : -1 ≤ i.cosθ := by nlinarith
  have hcos2 : i.cosθ ≤ 1 := by nlinarith
  have hvv : 0 ≤ vk i * vr i := mul_nonneg hv0 hv.le
  unfold flag2
  rw [r_div_apost, h1, h2, hρ]
  constructor
  · have : rpre i * (vk i + -1 * vr i) ^ 2 / (G * mpost i) ≤ rpre i * (vk i ^ 2 + vr i ^ 2 + 2 * (vk i * i.cosθ) * vr i) / (G * mpost i) := by
      apply div_le_div_of_nonneg_right _ hK.le
      apply mul_le_mul_of_nonneg_left _ hrp.le
      nlinarith
    linarith [err_pos]
  · have : rpre i * (vk i ^ 2 + vr i ^ 2 + 2 * (vk i * i.cosθ) * vr i) / (G * mpost i) ≤ rpre i * (vk i + 1 * vr i) ^ 2 / (G * mpost i) := by
      apply div_le_div_of_nonneg_right _ hK.le
      apply mul_le_mul_of_nonneg_left _ hrp.le
      nlinarith
    linarith [err_pos]

/-- C33: a binary survives the supernova exactly if its energy is negative and its angular momentum does not vanish. -/
theorem C33_survives_iff (hr : Rounds rd) (h : Valid i) :
    survives rd i ↔ energy rd i < 0 ∧ 0 < (angPost rd i).dot (angPost rd i) := by
  have hK := mul_pos G_pos (mpost_pos h)
  have hE := C33_energy hr h
  have hneg : energy rd i < 0 ↔ 0 < invA i := by
    rw [hE]; constructor <;> intro hh <;> nlinarith
  have hL0 := V3.dot_self_nonneg (angPost rd i)
  rw [hneg]
  constructor
  · intro hs
    unfold survives epost at hs
    by_cases hx : 1 - xpost rd i < 0
    · rw [if_pos hx] at hs; exact hs.elim
    · rw [if_neg hx] at hs
      have h1 : sqrt (1 - xpost rd i) < 1 := not_le.mp hs.2.2
      have hx0 : 0 < xpost rd i := by
        by_contra hh
        push Not at hh
        have : 1 ≤ sqrt (1 - xpost rd i) := by rw [show (1 : ℝ) = sqrt 1 by simp]; apply sqrt_le_sqrt; simp; linarith
        linarith
      rw [xpost_eq] at hx0
      have hp : 0 < (angPost rd i).dot (angPost rd i) * invA i := by
        by_contra hh
        push Not at hh
        have := div_nonpos_of_nonpos_of_nonneg hh hK.le
        linarith
      rcases pos_and_pos_or_neg_and_neg_of_mul_pos hp with ⟨a, b⟩ | ⟨a, _⟩
      · exact ⟨b, a⟩
      · linarith
  · rintro ⟨hA, hL⟩
    have hb := x_bound hr h hA.le
    have hx1 : ¬ 1 - xpost rd i < 0 := not_lt.mpr ((sq_nonneg _).trans hb)
    have hx0 : 0 < xpost rd i := by rw [xpost_eq]; positivity
    have habs := abs_le.mp (abs_one_sub_le hr h hA.le)
    unfold survives epost
    rw [if_neg hx1]
    refine ⟨⟨?_, ?_⟩, flag2_true h, ?_⟩
    · rw [r_div_apost]; linarith [habs.2, err_pos]
    · rw [r_div_apost]; linarith [habs.1, err_pos]
    · rw [ge_iff_le, not_le, sqrt_lt' (by norm_num)]; linarith

/-- C33: the new orbit: its eccentricity is in `[0, 1)`, its energy and angular momentum are those of the two-body problem, and the place of the supernova
lies between periastron and apastron. -/
theorem C33_orbit (hr : Rounds rd) (h : Valid i) (o : Out) (ho : post rd i = some o) :
    0 < o.sep ∧ 0 ≤ o.ecc ∧ o.ecc < 1 ∧
    energy rd i = -(G * mpost i) / (2 * (o.sep * Orbit.Rsun)) ∧
    (angPost rd i).dot (angPost rd i) = G * mpost i * (o.sep * Orbit.Rsun) * (1 - o.ecc ^ 2) ∧
    o.sep * Orbit.Rsun * (1 - o.ecc) ≤ rpre i ∧ rpre i ≤ o.sep * Orbit.Rsun * (1 + o.ecc) := by
  unfold post at ho
  by_cases hs : survives rd i
  · rw [if_pos hs] at ho
    obtain ⟨hE, hL⟩ := (C33_survives_iff hr h).mp hs
    have hK := mul_pos G_pos (mpost_pos h)
    have hEe := C33_energy hr h
    have hA : 0 < invA i := by rw [hEe] at hE; nlinarith
    have hb := x_bound hr h hA.le
    have hx1 : ¬ 1 - xpost rd i < 0 := not_lt.mpr ((sq_nonneg _).trans hb)
    have hx0 : 0 < xpost rd i := by rw [xpost_eq]; positivity
    unfold epost at ho
    rw [if_neg hx1] at ho
    simp only [Option.map_some, Option.some.injEq] at ho
    have hR := Rsun_pos
    have hg1 := G_pos.ne'
    have hg2 := (mpost_pos h).ne'
    have e1 : o.sep * Orbit.Rsun = apost i := by rw [← ho]; field_simp
    have e2 : o.ecc = sqrt (1 - xpost rd i) := by rw [← ho]
    have ha : 0 < apost i := inv_pos.mpr hA
    have hai : apost i * invA i = 1 := by unfold apost; field_simp
    have habs := abs_le.mp (abs_one_sub_le hr h hA.le)
    have hse : 0 < o.sep := by
      have : 0 < o.sep * Orbit.Rsun := by rw [e1]; exact ha
      exact (mul_pos_iff_of_pos_right hR).mp this
    rw [e1, e2]
    refine ⟨hse, sqrt_nonneg _, by rw [sqrt_lt' (by norm_num)]; linarith, ?_, ?_, ?_, ?_⟩
    · rw [hEe]; unfold apost; field_simp
    · rw [sq_sqrt (not_lt.mp hx1)]
      have := xpost_eq rd i
      rw [show 1 - (1 - xpost rd i) = xpost rd i by ring, this]
      unfold apost; field_simp
    · have : apost i * (1 - sqrt (1 - xpost rd i)) ≤ apost i * (rpre i * invA i) := mul_le_mul_of_nonneg_left (by linarith [habs.2]) ha.le
      have e3 : apost i * (rpre i * invA i) = rpre i := by rw [mul_comm (rpre i), ← mul_assoc, hai, one_mul]
      linarith
    · have : apost i * (rpre i * invA i) ≤ apost i * (1 + sqrt (1 - xpost rd i)) := mul_le_mul_of_nonneg_left (by linarith [habs.1]) ha.le
      have e3 : apost i * (rpre i * invA i) = rpre i := by rw [mul_comm (rpre i), ← mul_assoc, hai, one_mul]
      linarith
  · rw [if_neg hs] at ho; cases ho

/-- C33: a binary that is not unbound (negative energy, not falling radially) keeps an orbit, every other one is reported as disrupted. -/
theorem C33_disrupted (hr : Rounds rd) (h : Valid i) :
    post rd i = none ↔ 0 ≤ energy rd i ∨ (angPost rd i).dot (angPost rd i) = 0 := by
  have hL0 := V3.dot_self_nonneg (angPost rd i)
  have key : post rd i = none ↔ ¬ survives rd i := by
    unfold post
    by_cases hs : survives rd i
    · rw [if_pos hs]
      simp only [Option.map_eq_none_iff, hs, not_true, iff_false]
      intro he
      unfold survives at hs
      rw [he] at hs; exact hs
    · rw [if_neg hs]; simp [hs]
  rw [key, C33_survives_iff hr h, not_and_or, not_lt, not_lt]
  exact or_congr Iff.rfl ⟨fun x => le_antisymm x hL0, fun x => x.le⟩

/-- C33: without kick and without mass loss the separation stays the same. -/
theorem C33_unchanged_separation (h : Valid i) (hv : i.Vk = 0) (hm : i.Mco = i.Mhe) : apost i = apre i := by
  have hM : mpost i = mpre i := by unfold mpost mpre; rw [hm]
  have hk : vk i = 0 := by unfold vk; rw [hv, zero_mul]
  have hg1 := G_pos.ne'
  have hg2 := (mpre_pos h).ne'
  unfold apost invA
  rw [hM, hk, show (0 : ℝ) ^ 2 + vr i ^ 2 + 2 * (0 * i.cosθ) * vr i = vr i ^ 2 by ring, vr_sq h, mul_div_assoc]
  rw [show G * mpre i * ((2 / rpre i - 1 / apre i) / (G * mpre i)) = 2 / rpre i - 1 / apre i by field_simp]
  rw [show 2 / rpre i - (2 / rpre i - 1 / apre i) = (apre i)⁻¹ by rw [one_div]; ring, inv_inv]

theorem xpost_unchanged (h : Valid i) (hv : i.Vk = 0) (hm : i.Mco = i.Mhe) :
    xpost rd i = sinψ rd i ^ 2 * ((1 - i.e * cos i.E) * (2 - (1 - i.e * cos i.E))) := by
  have hM : mpost i = mpre i := by unfold mpost mpre; rw [hm]
  have hk : vk i = 0 := by unfold vk; rw [hv, zero_mul]
  have hg1 := G_pos.ne'
  have hg2 := (mpre_pos h).ne'
  have ha := (apre_pos h).ne'
  have hr := (rpre_pos h).ne'
  have hρ := (rho_bounds h).1.ne'
  unfold xpost
  rw [C33_unchanged_separation h hv hm, hM]
  simp only [kick, hk, zero_mul, zero_add]
  rw [mul_pow, vr_sq h, rpre_eq]
  generalize 1 - i.e * cos i.E = ρ at *
  field_simp
  ring

/-- C33: without kick and without mass loss the eccentricity stays the same up to the rounding of an angle to five digits: its square changes by at most
`1e-5`, and not at all if nothing is rounded. -/
theorem C33_unchanged_eccentricity (hr : Rounds rd) (h : Valid i) (hv : i.Vk = 0) (hm : i.Mco = i.Mhe) :
    (∀ e, epost rd i = some e → |e ^ 2 - i.e ^ 2| ≤ 1e-5) ∧ (rd (sinψ₀ i) = sinψ₀ i → epost rd i = some i.e) := by
  have hx := xpost_unchanged (rd := rd) h hv hm
  have hs := sinψ₀_sq h
  have hρ := (rho_bounds h).1
  have hρ2 : 0 < 2 - (1 - i.e * cos i.E) := by linarith [(rho_bounds h).2]
  have hk1 : (1 - i.e * cos i.E) * (2 - (1 - i.e * cos i.E)) ≤ 1 := by nlinarith [sq_nonneg (i.e * cos i.E)]
  have hk0 := mul_pos hρ hρ2
  generalize (1 - i.e * cos i.E) * (2 - (1 - i.e * cos i.E)) = k at *
  constructor
  · intro e he
    unfold epost at he
    by_cases hn : 1 - xpost rd i < 0
    · rw [if_pos hn] at he; cases he
    · rw [if_neg hn] at he
      cases he
      rw [sq_sqrt (not_lt.mp hn), hx]
      obtain ⟨b0, b1⟩ := sinψ₀_bounds h
      obtain ⟨c0, c1⟩ := hr.unit _ b0 b1
      have hn := abs_le.mp (hr.near _ b0 b1)
      have e1 : 1 - sinψ rd i ^ 2 * k - i.e ^ 2 = (sinψ₀ i - rd (sinψ₀ i)) * ((sinψ₀ i + rd (sinψ₀ i)) * k) := by
        unfold sinψ; linear_combination -hs
      rw [e1, abs_mul]
      have e2 : |(sinψ₀ i + rd (sinψ₀ i)) * k| ≤ 2 := by
        rw [abs_of_nonneg (mul_nonneg (by linarith) hk0.le)]
        nlinarith
      have e3 : |sinψ₀ i - rd (sinψ₀ i)| ≤ 5e-6 := by rw [abs_le]; constructor <;> linarith [hn.1, hn.2]
      calc _ ≤ (5e-6 : ℝ) * 2 := mul_le_mul e3 e2 (abs_nonneg _) (by norm_num)
        _ = 1e-5 := by norm_num
  · intro hrd
    have : 1 - xpost rd i = i.e ^ 2 := by rw [hx]; unfold sinψ; rw [hrd]; linarith
    unfold epost
    rw [this, if_neg (not_lt.mpr (sq_nonneg _)), sqrt_sq h.e0]

/-- C33 is false to the letter: whatever the rounding of the angle, as long as it yields decimal numbers, an orbit of eccentricity one half comes out of
a supernova without kick and mass loss with another eccentricity. -/
theorem C33_unchanged_eccentricity_violated (hq : ∀ x, ∃ q : ℚ, rd x = q) (h : Valid i) (hv : i.Vk = 0) (hm : i.Mco = i.Mhe) (he : i.e = 1 / 2)
    (hE : i.E = π / 2) : epost rd i ≠ some i.e := by
  intro hc
  have hx := xpost_unchanged (rd := rd) h hv hm
  rw [he, hE, cos_pi_div_two] at hx
  obtain ⟨q, hq⟩ := hq (sinψ₀ i)
  unfold epost at hc
  by_cases hn : 1 - xpost rd i < 0
  · rw [if_pos hn] at hc; cases hc
  rw [if_neg hn, he, Option.some.injEq] at hc
  have h1 : 1 - xpost rd i = (1 / 2) ^ 2 := by rw [← hc, sq_sqrt (not_lt.mp hn)]
  rw [hx] at h1
  unfold sinψ at h1
  rw [hq] at h1
  have h2 : ((2 * q : ℚ) : ℝ) ^ 2 = 3 := by push_cast; linarith
  have h3 : Irrational (sqrt 3) := by
    have := Nat.Prime.irrational_sqrt (show Nat.Prime 3 by decide)
    exact_mod_cast this
  have h4 : sqrt 3 = |((2 * q : ℚ) : ℝ)| := by rw [← h2, sqrt_sq_eq_abs]
  exact h3 ⟨|2 * q|, by rw [h4, Rat.cast_abs]⟩

/-- C33: a circular orbit without a kick survives exactly if the system keeps more than half of its mass. -/
theorem C33_half_mass (hr : Rounds rd) (hr1 : rd 1 = 1) (h : Valid i) (hv : i.Vk = 0) (he : i.e = 0) :
    survives rd i ↔ i.Mhe + i.Mcomp < 2 * (i.Mco + i.Mcomp) := by
  have hk : vk i = 0 := by unfold vk; rw [hv, zero_mul]
  have hra : rpre i = apre i := by rw [rpre_eq, he]; ring
  have ha := apre_pos h
  have hs : sinψ₀ i = 1 := by
    have h1 := sinψ₀_sq h
    rw [he] at h1
    have h2 := (sinψ₀_bounds h).1
    nlinarith
  have hsψ : sinψ rd i = 1 := by unfold sinψ; rw [hs, hr1]
  have hL : 0 < (angPost rd i).dot (angPost rd i) := by
    rw [angPost_sq]
    simp only [kick, hk, zero_mul, zero_add, hsψ]
    have := vr_pos h
    have := rpre_pos h
    positivity
  rw [C33_survives_iff hr h, and_iff_left hL, C33_energy hr h]
  have hg := G_pos
  have hp := mpost_pos h
  have hM := Msun_pos
  have hi : invA i = (2 * mpost i - mpre i) / (apre i * mpost i) := by
    unfold invA
    rw [hk, show (0 : ℝ) ^ 2 + vr i ^ 2 + 2 * (0 * i.cosθ) * vr i = vr i ^ 2 by ring, vr_sq h, hra]
    field_simp
    ring
  have hsgn : -(G * mpost i) * invA i / 2 < 0 ↔ 0 < invA i := by
    have := mul_pos hg hp
    constructor <;> intro hh <;> nlinarith
  rw [hsgn, hi, div_pos_iff_of_pos_right (mul_pos ha hp), sub_pos]
  unfold mpre mpost
  constructor
  · intro hh; by_contra hn; push Not at hn; nlinarith
  · intro hh; nlinarith

/-- C33: the systemic velocity is the change of the velocity of the centre of mass: momentum of the remnant over the new mass minus momentum of the
progenitor over the old mass, in the frame of the companion. -/
theorem C33_systemic_velocity (h : Valid i) :
    (mpost i * ((vsys rd i).x + i.Mhe * Orbit.Msun * (vpre rd i).x / mpre i) = i.Mco * Orbit.Msun * (vpost rd i).x) ∧
    (mpost i * ((vsys rd i).y + i.Mhe * Orbit.Msun * (vpre rd i).y / mpre i) = i.Mco * Orbit.Msun * (vpost rd i).y) ∧
    (mpost i * ((vsys rd i).z + i.Mhe * Orbit.Msun * (vpre rd i).z / mpre i) = i.Mco * Orbit.Msun * (vpost rd i).z) := by
  have hp := (mpost_pos h).ne'
  have hq := (mpre_pos h).ne'
  simp only [vsys, vpre, vpost, V3.add]
  refine ⟨?_, ?_, ?_⟩ <;> (field_simp; ring)

/-- C33: without kick and mass loss the system does not move. -/
theorem C33_no_recoil (h : Valid i) (hv : i.Vk = 0) (hm : i.Mco = i.Mhe) : vsys rd i = ⟨0, 0, 0⟩ := by
  have hM : mpost i = mpre i := by unfold mpost mpre; rw [hm]
  have hk : vk i = 0 := by unfold vk; rw [hv, zero_mul]
  have hq := (mpre_pos h).ne'
  simp only [vsys, kick, hk, hM, hm, zero_mul, zero_add, mul_zero, zero_div, sub_zero, V3.mk.injEq, and_true]
  constructor <;> (field_simp; ring)

/-- C33: the tilt is the angle between the orbital angular momenta before and after the supernova, negative if the kick is downwards. -/
theorem C33_tilt (h : Valid i) (hs : 0 < sinψ rd i) (hL : 0 < (angPost rd i).dot (angPost rd i)) :
    cos (tilt rd i) * (sqrt ((angPre rd i).dot (angPre rd i)) * sqrt ((angPost rd i).dot (angPost rd i))) = (angPre rd i).dot (angPost rd i) ∧
      |tilt rd i| ≤ π ∧ (tilt rd i < 0 → (kick rd i).z < 0) := by
  have hr := rpre_pos h
  have hv := vr_pos h
  set y := (kick rd i).y + vr i * sinψ rd i with hy
  set z := (kick rd i).z with hz
  have hL' := hL
  rw [angPost_sq, ← hy, ← hz] at hL'
  have hq : 0 < z ^ 2 + y ^ 2 := by
    by_contra hh
    push Not at hh
    nlinarith [sq_nonneg (rpre i)]
  have hqs := sqrt_pos.mpr hq
  have hsq := sq_sqrt hq.le
  have hb : -1 ≤ y / sqrt (z ^ 2 + y ^ 2) ∧ y / sqrt (z ^ 2 + y ^ 2) ≤ 1 := by
    rw [le_div_iff₀ hqs, div_le_iff₀ hqs]
    have := abs_le.mp (abs_le_sqrt (show y ^ 2 ≤ z ^ 2 + y ^ 2 by nlinarith [sq_nonneg z]))
    constructor <;> linarith [this.1, this.2]
  have hc : cos (tilt rd i) = y / sqrt (z ^ 2 + y ^ 2) := by
    simp only [tilt, ← hy, ← hz]
    by_cases hn : z < 0
    · rw [if_pos hn, mul_neg_one, cos_neg, cos_arccos hb.1 hb.2]
    · rw [if_neg hn, cos_arccos hb.1 hb.2]
  have h1 : sqrt ((angPost rd i).dot (angPost rd i)) = sqrt (z ^ 2 + y ^ 2) * rpre i := by
    rw [angPost_sq, ← hy, ← hz, sqrt_mul hq.le, sqrt_sq hr.le]
  have h2 : sqrt ((angPre rd i).dot (angPre rd i)) = rpre i * (vr i * sinψ rd i) := by
    have : (angPre rd i).dot (angPre rd i) = (rpre i * (vr i * sinψ rd i)) ^ 2 := by
      simp only [angPre, pos, V3.cross, V3.dot, vpre]; ring
    rw [this, sqrt_sq (by positivity)]
  have h3 : (angPre rd i).dot (angPost rd i) = rpre i * (vr i * sinψ rd i) * (rpre i * y) := by
    simp only [angPre, angPost, pos, V3.cross, V3.dot, vpre, vpost, V3.add, hy]; ring
  refine ⟨?_, ?_, ?_⟩
  · rw [hc, h1, h2, h3]
    field_simp
  · simp only [tilt, ← hy, ← hz]
    by_cases hn : z < 0
    · rw [if_pos hn, mul_neg_one, abs_neg, abs_of_nonneg (arccos_nonneg _)]; exact arccos_le_pi _
    · rw [if_neg hn, abs_of_nonneg (arccos_nonneg _)]; exact arccos_le_pi _
  · intro ht
    by_contra hn
    simp only [tilt, ← hy, ← hz, if_neg hn] at ht
    exact absurd ht (not_lt.mpr (arccos_nonneg _))

end

/-- C33: for every mean anomaly in `[0, 2π]` Kepler's equation has exactly one root there, and the bracket handed to the root finder has the signs it
requires. -/
theorem C33_kepler (M e : ℝ) (hM : 0 ≤ M) (hM2 : M ≤ 2 * π) (h0 : 0 ≤ e) (h1 : e < 1) :
    kepler M e 0 * kepler M e (2 * π) ≤ 0 ∧ ∃! E, 0 ≤ E ∧ E ≤ 2 * π ∧ kepler M e E = 0 := by
  have f0 : kepler M e 0 = M := by simp [kepler]
  have f1 : kepler M e (2 * π) = M - 2 * π := by simp [kepler]
  have hcont : Continuous (kepler M e) := by unfold kepler; fun_prop
  have hanti : StrictAnti (kepler M e) := by
    apply strictAnti_of_deriv_neg
    intro x
    have hd : HasDerivAt (kepler M e) (0 - 1 + e * cos x) x := by
      unfold kepler
      exact ((hasDerivAt_const x M).sub (hasDerivAt_id x)).add ((hasDerivAt_sin x).const_mul e)
    rw [hd.deriv]
    nlinarith [cos_le_one x, neg_one_le_cos x]
  refine ⟨by rw [f0, f1]; nlinarith, ?_⟩
  have hpi := pi_pos
  have := intermediate_value_Icc' (show (0 : ℝ) ≤ 2 * π by linarith) hcont.continuousOn
  obtain ⟨E, hE, hz⟩ := this (show (0 : ℝ) ∈ Set.Icc (kepler M e (2 * π)) (kepler M e 0) by rw [f0, f1]; constructor <;> linarith)
  exact ⟨E, ⟨hE.1, hE.2, hz⟩, fun y hy => hanti.injective (hy.2.2.trans hz.symm)⟩

/-- C33: the true anomaly belongs to the same point of the ellipse: `r = a (1 - e²) / (1 + e cos ν)`. -/
theorem C33_true_anomaly (e E : ℝ) (h0 : 0 ≤ e) (h1 : e < 1) (hE : cos (E / 2) ≠ 0) :
    (1 - e * cos E) * (1 + e * cos (trueAnomaly e E)) = 1 - e ^ 2 := by
  have ht : sqrt ((1 + e) / (1 - e)) ^ 2 = (1 + e) / (1 - e) := sq_sqrt (div_nonneg (by linarith) (by linarith))
  have hne : (1 - e) ≠ 0 := by linarith
  set c := cos (E / 2) with hc
  set s := sin (E / 2) with hs
  have hcs : s ^ 2 + c ^ 2 = 1 := sin_sq_add_cos_sq _
  have hcE : cos E = 2 * c ^ 2 - 1 := by rw [hc, ← cos_two_mul]; congr 1; ring
  have htan : tan (E / 2) = s / c := tan_eq_sin_div_cos _
  have hden : 0 < (1 - e) * c ^ 2 + (1 + e) * s ^ 2 := by
    have := sq_pos_of_ne_zero hE
    nlinarith [sq_nonneg s]
  have hcos : cos (trueAnomaly e E) = ((1 - e) * c ^ 2 - (1 + e) * s ^ 2) / ((1 - e) * c ^ 2 + (1 + e) * s ^ 2) := by
    unfold trueAnomaly
    rw [cos_two_mul, cos_sq_arctan, mul_pow, ht, htan]
    have : 0 < 1 + (1 + e) / (1 - e) * (s / c) ^ 2 := by
      have : 0 ≤ (1 + e) / (1 - e) := div_nonneg (by linarith) (by linarith)
      positivity
    have hden' := hden.ne'
    field_simp
    ring
  rw [hcos, hcE]
  have hden' := hden.ne'
  have : (1 - e) * c ^ 2 + (1 + e) * s ^ 2 = 1 - e * (2 * c ^ 2 - 1) := by linear_combination (1 + e) * hcs
  rw [this] at hden' ⊢
  field_simp
  linear_combination (-(e * (1 + e))) * hcs

theorem rotate_of_unit (x y z t : ℝ) (h : x ^ 2 + y ^ 2 + z ^ 2 = 1) : Orbit.rotate [x, y, z] t = .ok (Orbit.rotUnit x y z t) := by
  simp [Orbit.rotate, h]

/-- C33: the tilt after two supernovae obeys the spherical law of cosines for the two single tilts and the difference of the true anomalies; no
combination of angles is refused. -/
theorem C33_combined_tilt (t1 t2 ν1 ν2 : ℝ) :
    combinedTilt t1 t2 ν1 ν2 = .ok (arccos (cos t1 * cos t2 - sin t1 * sin t2 * cos (ν2 - ν1))) := by
  have h1 := sin_sq_add_cos_sq t1
  have h2 := sin_sq_add_cos_sq (ν2 - ν1)
  have e1 : Orbit.rotate [1, 0, 0] t1 = .ok (Orbit.rotUnit 1 0 0 t1) := rotate_of_unit 1 0 0 t1 (by norm_num)
  have z0 : ((Orbit.rotUnit 1 0 0 t1).mulVec ![0, 0, 1]) = ![0, -sin t1, cos t1] := by
    funext j; fin_cases j <;> simp [Orbit.rotUnit, Matrix.mulVec, dotProduct, Fin.sum_univ_three]
  have e2 : Orbit.rotate [0, -sin t1, cos t1] (ν2 - ν1) = .ok (Orbit.rotUnit 0 (-sin t1) (cos t1) (ν2 - ν1)) :=
    rotate_of_unit _ _ _ _ (by linear_combination h1)
  have x0 : ((Orbit.rotUnit 0 (-sin t1) (cos t1) (ν2 - ν1)).mulVec ![1, 0, 0]) =
      ![cos (ν2 - ν1), cos t1 * sin (ν2 - ν1), sin t1 * sin (ν2 - ν1)] := by
    funext j; fin_cases j <;> simp [Orbit.rotUnit, Matrix.mulVec, dotProduct, Fin.sum_univ_three]
  have e3 : Orbit.rotate [cos (ν2 - ν1), cos t1 * sin (ν2 - ν1), sin t1 * sin (ν2 - ν1)] t2 =
      .ok (Orbit.rotUnit (cos (ν2 - ν1)) (cos t1 * sin (ν2 - ν1)) (sin t1 * sin (ν2 - ν1)) t2) :=
    rotate_of_unit _ _ _ _ (by linear_combination h2 + (sin (ν2 - ν1)) ^ 2 * h1)
  unfold combinedTilt
  rw [e1]
  dsimp only
  rw [z0]
  simp only [Matrix.cons_val_zero, Matrix.cons_val_one, Matrix.cons_val]
  rw [e2]
  dsimp only
  rw [x0]
  simp only [Matrix.cons_val_zero, Matrix.cons_val_one, Matrix.cons_val]
  rw [e3]
  simp only [Orbit.rotUnit, Matrix.mulVec, dotProduct, Fin.sum_univ_three]
  congr 2
  simp
  ring_nf

/-! ### examples -/

/-- two stars of 10 and 5 solar masses, circular orbit of 100 solar radii, remnant of 4 solar masses, no kick -/
noncomputable def ex : In := ⟨10, 5, 4, 100, 0, 1, 0, 0, 0⟩

theorem ex_valid : Valid ex := by constructor <;> norm_num [ex]

theorem id_rounds : Rounds id := ⟨fun x h1 h2 => ⟨h1, h2⟩, fun x _ _ => by norm_num⟩

/-- rounding to five digits is such a rounding -/
theorem round_rounds : Rounds (fun x => (round (x * 100000) : ℝ) / 100000) := by
  constructor
  · intro x h0 h1
    have a : (0 : ℤ) ≤ round (x * 100000) := by rw [round_eq]; exact Int.floor_nonneg.mpr (by positivity)
    have b : round (x * 100000) ≤ (100000 : ℤ) := by
      rw [round_eq, Int.floor_le_iff]
      push_cast; linarith
    have a' : (0 : ℝ) ≤ (round (x * 100000) : ℝ) := by exact_mod_cast a
    have b' : (round (x * 100000) : ℝ) ≤ 100000 := by exact_mod_cast b
    constructor
    · positivity
    · rw [div_le_one (by norm_num)]; exact b'
  · intro x _ _
    have := abs_sub_round (x * 100000)
    have e1 : (round (x * 100000) : ℝ) / 100000 - x = -(x * 100000 - round (x * 100000)) / 100000 := by field_simp; ring
    rw [e1, abs_div, abs_neg, abs_of_pos (show (0 : ℝ) < 100000 by norm_num), div_le_iff₀ (by norm_num)]
    norm_num at this ⊢
    exact this

example : survives id ex ↔ (10 : ℝ) + 5 < 2 * (4 + 5) := C33_half_mass id_rounds rfl ex_valid rfl rfl
example : ∃ o, post id ex = some o := by
  have : survives id ex := (C33_half_mass id_rounds rfl ex_valid rfl rfl).mpr (by norm_num [ex])
  by_contra hh
  have : post id ex = none := by cases hp : post id ex with
    | none => rfl
    | some o => exact absurd ⟨o, hp⟩ hh
  rw [C33_disrupted id_rounds ex_valid] at this
  have h2 := (C33_survives_iff id_rounds ex_valid).mp ‹survives id ex›
  rcases this with h | h <;> linarith [h2.1, h2.2]
example : (1 : ℝ) * (1 + (1 / 2) * cos (trueAnomaly (1 / 2) (π / 2))) = 3 / 4 := by
  have := C33_true_anomaly (1 / 2) (π / 2) (by norm_num) (by norm_num)
    (by rw [show π / 2 / 2 = π / 4 by ring, cos_pi_div_four]; positivity)
  rw [cos_pi_div_two] at this
  linarith

end Verif.Kick
