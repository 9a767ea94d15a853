import Verif.GWProps
/-! Further theorems of C58: accreting in steps is the same as accreting at once, and when the spin is 1. -/
namespace Verif.GW

/-- The spin of a black hole whose innermost stable orbit is at `x²`. -/
noncomputable def spinOf (x : ℝ) : ℝ := x / 3 * (4 - Real.sqrt (3 * x ^ 2 - 2))

theorem spinOf_one : spinOf 1 = 1 := by unfold spinOf; norm_num

theorem spinOf_inj_le {x x' : ℝ} (h1 : 1 ≤ x) (h : x ≤ x') (h6 : x' ^ 2 ≤ 6) (he : spinOf x = spinOf x') : x = x' := by
  unfold spinOf at he
  have hg : ∀ t : ℝ, 1 ≤ t → t ^ 2 ≤ 6 → Real.sqrt (3 * t ^ 2 - 2) ^ 2 = 3 * t ^ 2 - 2 ∧ 1 ≤ Real.sqrt (3 * t ^ 2 - 2) ∧
      Real.sqrt (3 * t ^ 2 - 2) ≤ 4 := by
    intro t ht ht6
    refine ⟨Real.sq_sqrt (by nlinarith), ?_, ?_⟩
    · rw [Real.one_le_sqrt]; nlinarith
    · rw [Real.sqrt_le_iff]; constructor <;> nlinarith
  have hx6 : x ^ 2 ≤ 6 := by nlinarith
  obtain ⟨g1, g2, g3⟩ := hg x h1 hx6
  obtain ⟨k1, k2, k3⟩ := hg x' (h1.trans h) h6
  have hgk : Real.sqrt (3 * x ^ 2 - 2) ≤ Real.sqrt (3 * x' ^ 2 - 2) := Real.sqrt_le_sqrt (by nlinarith)
  set g := Real.sqrt (3 * x ^ 2 - 2)
  set k := Real.sqrt (3 * x' ^ 2 - 2)
  have ex : x ^ 2 = (g ^ 2 + 2) / 3 := by linarith
  have ex' : x' ^ 2 = (k ^ 2 + 2) / 3 := by linarith
  have e1 : (x' / 3 * (4 - k)) ^ 2 = (k ^ 2 + 2) * (4 - k) ^ 2 / 27 := by
    rw [mul_pow, div_pow, ex']; ring
  have e2 : (x / 3 * (4 - g)) ^ 2 = (g ^ 2 + 2) * (4 - g) ^ 2 / 27 := by
    rw [mul_pow, div_pow, ex]; ring
  have hsq : (k ^ 2 + 2) * (4 - k) ^ 2 = (g ^ 2 + 2) * (4 - g) ^ 2 := by
    have := e2.symm.trans ((congrArg (· ^ 2) he).trans e1)
    linarith
  obtain ⟨u, hu⟩ : ∃ u, u = g - 1 := ⟨_, rfl⟩
  obtain ⟨v, hv⟩ : ∃ v, v = k - g := ⟨_, rfl⟩
  have hu0 : 0 ≤ u := by linarith
  have hv0 : 0 ≤ v := by linarith
  have huv : 0 ≤ 3 - u - v := by linarith
  have eg : g = 1 + u := by linarith
  have ek : k = 1 + u + v := by linarith
  have hz : v = 0 := by
    by_contra hv1
    have hvp : 0 < v := lt_of_le_of_ne hv0 (Ne.symm hv1)
    rw [eg, ek] at hsq
    have : v * (4 * u ^ 2 * (3 - u - v) + 4 * (u * v) * (3 - u - v) + v ^ 2 * (4 - v) + 2 * u ^ 2 * v) = 0 := by linear_combination -hsq
    have hp : 0 < 4 * u ^ 2 * (3 - u - v) + 4 * (u * v) * (3 - u - v) + v ^ 2 * (4 - v) + 2 * u ^ 2 * v := by
      have a1 : 0 ≤ 4 * u ^ 2 * (3 - u - v) := mul_nonneg (by positivity) huv
      have a2 : 0 ≤ 4 * (u * v) * (3 - u - v) := mul_nonneg (by positivity) huv
      have a3 : 0 < v ^ 2 * (4 - v) := mul_pos (by positivity) (by linarith)
      have a4 : 0 ≤ 2 * u ^ 2 * v := by positivity
      linarith
    rcases mul_eq_zero.1 this with h | h
    · exact hv1 h
    · linarith
  have hgk' : g = k := by linarith
  have hxx : x ^ 2 = x' ^ 2 := by rw [ex, ex', hgk']
  nlinarith

theorem spinOf_range {x : ℝ} (h1 : 1 ≤ x) (h6 : x ^ 2 ≤ 6) : 0 ≤ spinOf x ∧ spinOf x ≤ 1 := by
  have a := spin_anti le_rfl h1 h6
  have e1 : (1 : ℝ) / 3 * (4 - Real.sqrt (3 * 1 ^ 2 - 2)) = 1 := by norm_num
  rw [e1] at a
  exact ⟨a.2, a.1⟩

/-- The innermost stable orbit is recovered from the spin. -/
theorem orbit_of_spinOf {x : ℝ} (h1 : 1 ≤ x) (h6 : x ^ 2 ≤ 6) : Real.sqrt (risco (spinOf x)) = x := by
  obtain ⟨s0, s1⟩ := spinOf_range h1 h6
  obtain ⟨r1, r6, hrec⟩ := risco_spec s0 s1
  set q := Real.sqrt (risco (spinOf x)) with hq
  have hq2 : q ^ 2 = risco (spinOf x) := Real.sq_sqrt (by linarith)
  have hq1 : 1 ≤ q := by rw [hq, Real.one_le_sqrt]; exact r1
  have he : spinOf q = spinOf x := by
    rw [← hq2] at hrec
    exact hrec
  rcases le_total q x with h | h
  · exact spinOf_inj_le hq1 h h6 he
  · exact (spinOf_inj_le h1 h (by rw [hq2]; exact r6) he.symm).symm

/-- The function in one formula: the orbit shrinks with the mass until it is at 1. -/
theorem spinAfter_eq {s mi mf : ℝ} (h0 : 0 ≤ s) (h1 : s ≤ 1) (hmi : 0 < mi) (hmf : mi ≤ mf) :
    spinAfter (some s) (some mi) (some mf) = .value (spinOf (max 1 (Real.sqrt (risco s) * (mi / mf)))) := by
  obtain ⟨r1, r6, hrec⟩ := risco_spec h0 h1
  have hmf0 : 0 < mf := lt_of_lt_of_le hmi hmf
  have hge : 1 ≤ mf / mi := by rw [le_div_iff₀ hmi]; linarith
  unfold spinAfter
  simp only
  rw [if_neg (by rintro (h | h | h) <;> linarith)]
  set q := Real.sqrt (risco s) with hq
  have hq2 : q ^ 2 = risco s := Real.sq_sqrt (by linarith)
  have hiff : mf / mi ≤ q ↔ 1 ≤ q * (mi / mf) := by
    rw [div_le_iff₀ hmi, ← mul_div_assoc, le_div_iff₀ hmf0, one_mul]
  by_cases hle : mf / mi ≤ q
  · rw [if_pos ⟨hge, hle⟩, max_eq_right (hiff.1 hle)]
    unfold spinOf
    have : 3 * risco s * mi ^ 2 / mf ^ 2 = 3 * (q * (mi / mf)) ^ 2 := by rw [mul_pow, hq2, div_pow]; ring
    rw [this]
    congr 1
    ring
  · rw [if_neg (fun h => hle h.2), if_pos (not_le.1 hle), max_eq_left (le_of_not_ge fun h => hle (hiff.2 h)), spinOf_one]

/-- C58: accreting in two steps gives the same spin as accreting at once, so the result does not depend on how the mass transfer is divided. -/
theorem C58_steps (s mi mm mf x : ℝ) (h0 : 0 ≤ s) (h1 : s ≤ 1) (hmi : 0 < mi) (hmm : mi ≤ mm) (hmf : mm ≤ mf)
    (hx : spinAfter (some s) (some mi) (some mm) = .value x) :
    spinAfter (some x) (some mm) (some mf) = spinAfter (some s) (some mi) (some mf) := by
  have hmm0 : 0 < mm := lt_of_lt_of_le hmi hmm
  have hmf0 : 0 < mf := lt_of_lt_of_le hmm0 hmf
  obtain ⟨r1, r6, -⟩ := risco_spec h0 h1
  rw [spinAfter_eq h0 h1 hmi hmm] at hx
  rw [spinAfter_eq h0 h1 hmi (hmm.trans hmf)]
  injection hx with hx
  subst hx
  set q := Real.sqrt (risco s) with hq
  have hq2 : q ^ 2 = risco s := Real.sq_sqrt (by linarith)
  have hq0 : 0 ≤ q := Real.sqrt_nonneg _
  have y1 : 1 ≤ max 1 (q * (mi / mm)) := le_max_left _ _
  have y6 : max 1 (q * (mi / mm)) ^ 2 ≤ 6 := by
    have hr : mi / mm ≤ 1 := by rw [div_le_one hmm0]; exact hmm
    have hr0 : 0 ≤ mi / mm := by positivity
    rcases max_choice 1 (q * (mi / mm)) with h | h
    · rw [h]; norm_num
    · rw [h]
      have : q * (mi / mm) ≤ q := by nlinarith
      nlinarith [mul_nonneg hq0 hr0]
  obtain ⟨s0, s1⟩ := spinOf_range y1 y6
  rw [spinAfter_eq s0 s1 hmm0 hmf, orbit_of_spinOf y1 y6]
  congr 2
  have hr : mm / mf ≤ 1 := by rw [div_le_one hmf0]; exact hmf
  have hr0 : 0 ≤ mm / mf := by positivity
  rw [max_mul_of_nonneg _ _ hr0, one_mul, ← max_assoc, max_eq_left hr]
  congr 1
  field_simp

/-- A chain of masses, as the rows of a history. -/
noncomputable def along (s : Spin) : List ℝ → Spin
  | m :: m' :: l => along (match s with | .value x => spinAfter (some x) (some m) (some m') | o => o) (m' :: l)
  | _ => s

/-- C58: the same for any number of steps. -/
theorem C58_chain (s : ℝ) (l : List ℝ) (m : ℝ) (h0 : 0 ≤ s) (h1 : s ≤ 1) (hm : 0 < m) (hl : (m :: l).Pairwise (· ≤ ·)) :
    along (.value s) (m :: l) = spinAfter (some s) (some m) (some ((m :: l).getLast (by simp))) := by
  induction l generalizing s m with
  | nil => simp only [along, List.getLast_singleton]; exact (C58_no_accretion s m h0 h1 hm).symm
  | cons m' l ih =>
    have hmm : m ≤ m' := by simp only [List.pairwise_cons] at hl; exact hl.1 m' (by simp)
    obtain ⟨x, hx, hsx, hx1⟩ := C58_range s m m' h0 h1 hm hmm
    simp only [along, hx]
    rw [ih x m' (h0.trans hsx) hx1 (hm.trans_le hmm) (List.pairwise_cons.1 hl).2]
    rw [List.getLast_cons (by simp : m' :: l ≠ [])]
    refine C58_steps s m m' _ x h0 h1 hm hmm ?_ hx
    have hp := (List.pairwise_cons.1 hl).2
    have hmem := List.getLast_mem (by simp : m' :: l ≠ [])
    rcases List.mem_cons.1 hmem with h | h
    · exact le_of_eq h.symm
    · exact (List.pairwise_cons.1 hp).1 _ h

/-- C58: the spin is 1 exactly from the mass ratio on that is the root of the innermost stable orbit. -/
theorem C58_full (s mi mf : ℝ) (h0 : 0 ≤ s) (h1 : s ≤ 1) (hmi : 0 < mi) (hmf : mi ≤ mf) :
    spinAfter (some s) (some mi) (some mf) = .value 1 ↔ Real.sqrt (risco s) * mi ≤ mf := by
  have hmf0 : 0 < mf := lt_of_lt_of_le hmi hmf
  obtain ⟨r1, r6, -⟩ := risco_spec h0 h1
  rw [spinAfter_eq h0 h1 hmi hmf]
  set q := Real.sqrt (risco s) with hq
  have hq2 : q ^ 2 = risco s := Real.sq_sqrt (by linarith)
  have hq0 : 0 ≤ q := Real.sqrt_nonneg _
  have y1 : 1 ≤ max 1 (q * (mi / mf)) := le_max_left _ _
  have y6 : max 1 (q * (mi / mf)) ^ 2 ≤ 6 := by
    have hr : mi / mf ≤ 1 := by rw [div_le_one hmf0]; exact hmf
    have hr0 : 0 ≤ mi / mf := by positivity
    rcases max_choice 1 (q * (mi / mf)) with h | h
    · rw [h]; norm_num
    · rw [h]
      have : q * (mi / mf) ≤ q := by nlinarith
      nlinarith [mul_nonneg hq0 hr0]
  have hiff : q * (mi / mf) ≤ 1 ↔ q * mi ≤ mf := by rw [← mul_div_assoc, div_le_one hmf0]
  rw [← hiff]
  constructor
  · intro h
    injection h with h
    have := spinOf_inj_le le_rfl y1 y6 (by rw [spinOf_one, h])
    have h2 := le_max_right 1 (q * (mi / mf))
    rw [← this] at h2
    exact h2
  · intro h
    rw [max_eq_left h, spinOf_one]

/-- C58: a black hole without spin reaches spin 1 exactly when its mass has grown by a factor of at least √6. -/
theorem C58_full_from_zero (mi mf : ℝ) (hmi : 0 < mi) (hmf : mi ≤ mf) :
    spinAfter (some 0) (some mi) (some mf) = .value 1 ↔ Real.sqrt 6 * mi ≤ mf := by
  have hr : risco 0 = 6 := by
    have z : z1 0 = 3 := by unfold z1; norm_num
    have w : z2 0 = 3 := by
      unfold z2; rw [z]
      rw [show (3 * (0 : ℝ) ^ 2 + 3 ^ 2) = 3 ^ 2 by norm_num]
      exact Real.sqrt_sq (by norm_num)
    unfold risco; rw [z, w]; norm_num
  have := C58_full 0 mi mf le_rfl zero_le_one hmi hmf
  rwa [hr] at this

example : spinAfter (some 0) (some 10) (some 30) = .value 1 :=
  (C58_full_from_zero 10 30 (by norm_num) (by norm_num)).2 (by
    have : Real.sqrt 6 ≤ 3 := by rw [Real.sqrt_le_iff]; norm_num
    linarith)

end Verif.GW
