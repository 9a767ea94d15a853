import Verif.Consts
/-! Property theorems of C172: the constants and conversions agree with one another. -/
namespace Verif.Consts

/-- C172: degrees to radians and back, energies per mass in both forms, and gas and radiation constants are exact inverses and products of one another, for every value converted. -/
theorem C172_exact (x : ℚ) :
    x * a2rad * rad2a = x ∧ x * mev_amu = x * Qconv ∧ x * amu * avo = x ∧ x * crad * clight = 4 * (x * boltz_sigma) ∧ x * cgas * amu = x * kerg ∧
    180 * a2rad = pi ∧ x * day2sec = x * 86400 := by
  refine ⟨?_, ?_, ?_, ?_, ?_, ?_, ?_⟩
  · unfold a2rad rad2a pi; norm_num; ring
  · unfold mev_amu Qconv amu avo; norm_num; ring_nf; simp
  · unfold amu avo; norm_num; ring
  · unfold crad clight; norm_num; ring
  · unfold cgas amu boltzm avo; norm_num; ring
  · unfold a2rad; ring
  · unfold day2sec; norm_num

/-- C172: a time in years, a length in astronomical units or light years, a temperature: the two ways of converting agree to a few parts in 100000. -/
theorem C172_conversions_partial (x : ℚ) :
    Agree 2e-5 (x * (dayyer * day2sec)) (x * secyer) ∧ Agree 3e-5 (x * (aursun * rsol)) (x * au) ∧ Agree 4e-5 (x * (clight * secyer)) (x * ly) ∧
    Agree 5e-6 (x * (kev * ev2erg)) (x * kerg) := by
  refine ⟨Agree.scale ?_ x, Agree.scale ?_ x, Agree.scale ?_ x, Agree.scale ?_ x⟩ <;>
    apply agree_of <;> norm_num [dayyer, day2sec, secyer, aursun, rsol, au, clight, ly, kev, ev2erg, kerg]

/-- C172 violated: none of these pairs agrees exactly: whatever is converted, the way by which it is converted can be told from the result (unless it is zero). -/
theorem C172_conversions_violated (x : ℚ) (hx : x ≠ 0) :
    x * (dayyer * day2sec) ≠ x * secyer ∧ x * (aursun * rsol) ≠ x * au ∧ x * (clight * secyer) ≠ x * ly ∧ x * (kev * ev2erg) ≠ x * kerg := by
  refine ⟨?_, ?_, ?_, ?_⟩ <;> intro h <;> have := mul_left_cancel₀ hx h <;>
    norm_num [dayyer, day2sec, secyer, aursun, rsol, au, clight, ly, kev, ev2erg, kerg] at this

/-- C172: a duration of `t` years, counted in days with `dayyer` and turned into seconds with `day2sec`, is shorter than with `secyer`, by more than 549 s per year. -/
theorem C172_year (t : ℚ) (ht : 0 < t) : 549 * t < t * secyer - t * (dayyer * day2sec) ∧ t * secyer - t * (dayyer * day2sec) < 550 * t := by
  unfold secyer dayyer day2sec
  constructor <;> nlinarith

/-- C172: the Sun of the file radiates, at its radius and temperature, its luminosity within 0.1 per cent; the derived atomic constants agree with the ones given. -/
theorem C172_physics :
    Agree 1e-3 (4 * pi * rsol ^ 2 * boltz_sigma * Teffsol ^ 4) lsol ∧ Agree 1e-6 (me * qe ^ 4 / (2 * hbar ^ 2)) (hion * ev2erg) ∧ Agree 1e-6 (1 / fine) 137.036 ∧
    Agree 1e-6 (qe ^ 2 / (2 * rbohr)) (hion * ev2erg) ∧ Agree 1e-5 (m_earth / msol) 3.004424e-6 ∧ Agree 1e-5 (m_jupiter / msol) 0.954454e-3 := by
  refine ⟨?_, ?_, ?_, ?_, ?_, ?_⟩ <;> apply agree_of <;>
    norm_num [pi, rsol, boltz_sigma, Teffsol, lsol, me, qe, hbar, planck_h, hion, ev2erg, fine, clight, rbohr, m_earth, msol, m_jupiter]

/-- C172: the helium of the zero-age main sequence: more metals, no less helium; it follows one line in the metallicity within 0.0001; hydrogen is what is left, and is positive. -/
theorem C172_zams :
    (∀ p ∈ zams, ∀ q ∈ zams, p.1 < q.1 → p.2 ≤ q.2) ∧ (∀ p ∈ zams, |p.2 - (0.249 + 0.0213 * p.1)| ≤ 1e-4) ∧
    (∀ p ∈ zams, 0.68 < 1 - p.2 - p.1 * Zsun ∧ 1 - p.2 - p.1 * Zsun < 0.76) ∧ (zams.map (·.1)).Nodup := by
  refine ⟨by decide +kernel, by decide +kernel, by decide +kernel, by decide +kernel⟩

/-- C172: the metallicities of the table, exactly. -/
theorem C172_metallicities (z : ℚ) : (∃ y, (z, y) ∈ zams) ↔ z = 2 ∨ z = 1 ∨ z = 0.45 ∨ z = 0.2 ∨ z = 0.1 ∨ z = 0.01 ∨ z = 0.001 ∨ z = 0.0001 := by
  simp only [zams, List.mem_cons, Prod.mk.injEq, List.not_mem_nil, or_false]
  constructor
  · rintro ⟨y, h⟩
    tauto
  · rintro (h | h | h | h | h | h | h | h)
    · exact ⟨2.915e-01, Or.inl ⟨h, rfl⟩⟩
    · exact ⟨2.703e-01, Or.inr (Or.inl ⟨h, rfl⟩)⟩
    · exact ⟨2.586e-01, by tauto⟩
    · exact ⟨2.533e-01, by tauto⟩
    · exact ⟨2.511e-01, by tauto⟩
    · exact ⟨2.492e-01, by tauto⟩
    · exact ⟨2.49e-01, by tauto⟩
    · exact ⟨2.49e-01, by tauto⟩

example : Agree 2e-5 (10 * (dayyer * day2sec)) (10 * secyer) := (C172_conversions_partial 10).1

/-- C172: a parsec is the distance at which an astronomical unit is one second of arc; the Earth's year follows from the Sun's mass; nucleons weigh one unit and the
neutron more than the proton; a kilometre is 100000 cm. -/
theorem C172_astronomy :
    Agree 1e-5 pc (648000 / pi * au) ∧ Agree 1e-3 (4 * pi ^ 2 * au ^ 3 / (standard_cgrav * msol)) (secyer ^ 2) ∧ Agree 1e-5 (mn / amu) 1.008665 ∧
    Agree 1e-5 (mp / amu) 1.007276 ∧ mp < mn ∧ km2cm = 100000 ∧ Agree 1e-6 (kerg * avo) cgas ∧ Agree 1e-5 (me / amu) 5.48580e-4 := by
  refine ⟨?_, ?_, ?_, ?_, by norm_num [mp, mn], by norm_num [km2cm], ?_, ?_⟩
  all_goals apply agree_of <;> norm_num [pc, ly, pi, au, standard_cgrav, msol, secyer, mn, amu, avo, mp, kerg, cgas, boltzm, me]

/-- The rest energies of the electron, the neutron, the proton and the atomic unit of mass in MeV. -/
theorem C172_rest_energy : Agree 1e-5 (me * clight ^ 2 / mev_to_ergs) 0.510999 ∧ Agree 1e-5 (amu * clight ^ 2 / mev_to_ergs) 931.494 ∧
    Agree 1e-5 (mp * clight ^ 2 / mev_to_ergs) 938.272 ∧ Agree 1e-5 (mn * clight ^ 2 / mev_to_ergs) 939.565 := by
  refine ⟨?_, ?_, ?_, ?_⟩ <;> norm_num [Agree, me, mp, mn, amu, avo, clight, mev_to_ergs, ev2erg, abs_lt, abs_le]

end Verif.Consts
