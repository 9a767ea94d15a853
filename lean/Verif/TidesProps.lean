import Verif.Tides
/-!
C77: tides conserve angular momentum, dissipate energy and lead to circular, synchronous orbits.
-/
namespace Verif.Tides

theorem grav_pos (c : Const) : 0 < grav c := by
  have := c.aursun_pos; have := Real.pi_pos; unfold grav; positivity

theorem rate_pos (c : Const) {a m1 m2 : ℝ} (ha : 0 < a) (h1 : 0 < m1) (h2 : 0 < m2) : 0 < rate c a m1 m2 := by
  have := c.aursun_pos; have := Real.pi_pos
  unfold rate period
  positivity

/-- Kepler's third law. -/
theorem kepler (c : Const) {a m1 m2 : ℝ} (ha : 0 < a) (h1 : 0 < m1) (h2 : 0 < m2) :
    rate c a m1 m2 ^ 2 * a ^ 3 = grav c * (m1 + m2) := by
  have := c.aursun_pos
  unfold rate period grav
  rw [div_pow, Real.sq_sqrt (by positivity)]
  field_simp

theorem orbitJ_eq (c : Const) {a m1 m2 e : ℝ} (ha : 0 < a) (h1 : 0 < m1) (h2 : 0 < m2) (he : e ^ 2 < 1) :
    orbitJ c m1 m2 a e = m1 * m2 / (m1 + m2) * a ^ 2 * rate c a m1 m2 * Real.sqrt (1 - e ^ 2) := by
  unfold orbitJ
  have hn := rate_pos c ha h1 h2
  have hk := kepler c ha h1 h2
  have hs : 0 < 1 - e ^ 2 := by linarith
  have hss := Real.sq_sqrt hs.le
  have : grav c * a * (1 - e ^ 2) / (m1 + m2) = (a ^ 2 * rate c a m1 m2 * Real.sqrt (1 - e ^ 2) / (m1 + m2)) ^ 2 := by
    rw [div_pow, mul_pow, mul_pow, hss]
    have e1 : grav c = rate c a m1 m2 ^ 2 * a ^ 3 / (m1 + m2) := by rw [hk]; field_simp
    rw [e1]
    field_simp
  rw [this, Real.sqrt_sq (by positivity)]
  ring

theorem orbitJ_deriv (c : Const) {m1 m2 : ℝ} {a e : ℝ → ℝ} {t a' e' : ℝ} (h1 : 0 < m1) (h2 : 0 < m2)
    (ha : HasDerivAt a a' t) (he : HasDerivAt e e' t) (a0 : 0 < a t) (e1 : e t ^ 2 < 1) :
    HasDerivAt (fun u => orbitJ c m1 m2 (a u) (e u))
      (orbitJ c m1 m2 (a t) (e t) * (a' / (2 * a t) - e t * e' / (1 - e t ^ 2))) t := by
  have hs : 0 < 1 - e t ^ 2 := by linarith
  have hg := grav_pos c
  have hpos : 0 < grav c * a t * (1 - e t ^ 2) / (m1 + m2) := by positivity
  have d1 : HasDerivAt (fun u => grav c * a u * (1 - e u ^ 2) / (m1 + m2))
      ((grav c * a' * (1 - e t ^ 2) + grav c * a t * (-(2 * e t * e'))) / (m1 + m2)) t := by
    have h := (((ha.const_mul (grav c)).mul (((he.pow 2).const_sub 1))).div_const (m1 + m2))
    refine h.congr_deriv ?_
    simp
  have d2 := (d1.sqrt hpos.ne').const_mul (m1 * m2)
  refine HasDerivAt.congr_deriv d2 ?_
  unfold orbitJ
  set S := Real.sqrt (grav c * a t * (1 - e t ^ 2) / (m1 + m2)) with hS
  have hSp : 0 < S := Real.sqrt_pos.2 hpos
  have hS2 : S ^ 2 = grav c * a t * (1 - e t ^ 2) / (m1 + m2) := Real.sq_sqrt hpos.le
  have hM : m1 + m2 ≠ 0 := by positivity
  generalize hz : 1 - e t ^ 2 = z at *
  have key : (grav c * a' * z + grav c * a t * (-(2 * e t * e'))) / (m1 + m2) = S ^ 2 * (a' / a t - 2 * (e t * e') / z) := by
    rw [hS2]; field_simp; ring
  rw [key]
  field_simp

/-- What one star's tide does to the orbital angular momentum, relative to what it does to its spin. -/
theorem exchange (k q mc m R I a e w n : ℝ) (hm : 0 < m) (hmc : 0 < mc) (hI : 0 < I) (ha : 0 < a) (he : e ^ 2 < 1) (hn : 0 < n) (hq : q = mc / m) :
    mc * m / (mc + m) * a ^ 2 * n * Real.sqrt (1 - e ^ 2) * (da k q R a e w n / (2 * a) - e * de k q R a e w n / (1 - e ^ 2)) +
      I * dw k q m R I a e w n = 0 := by
  rw [da_eq _ _ _ _ _ _ _ he, de_eq _ _ _ _ _ _ _ he, dw_eq _ _ _ _ _ _ _ _ _ he]
  have hs : 0 < Real.sqrt (1 - e ^ 2) := Real.sqrt_pos.2 (by linarith)
  have hss : 1 - e ^ 2 = Real.sqrt (1 - e ^ 2) ^ 2 := (Real.sq_sqrt (by linarith)).symm
  have g1 := f13 e
  have g2 := f24 e
  rw [hss] at g1 g2
  have he2 : e / (1 - e ^ 2) = e / Real.sqrt (1 - e ^ 2) ^ 2 := by rw [← hss]
  have hx : ∀ y, e * y / (1 - e ^ 2) = e * y / Real.sqrt (1 - e ^ 2) ^ 2 := fun y => by rw [← hss]
  rw [hx]
  generalize Real.sqrt (1 - e ^ 2) = s at *
  have e1 : f1 e = 9 * e ^ 2 * f3 e + s ^ 2 * f2 e := by linarith
  have e2 : f2 e = 11 / 2 * e ^ 2 * f4 e + s ^ 2 * f5 e := by linarith
  rw [hq, e1]
  field_simp
  rw [e2]
  ring

/-- **C77**: under tides alone the total angular momentum — that of the orbit and of the two spins — does not change, for every
pair of stars and every bound orbit, whatever the strength of the tides. -/
theorem C77_angular_momentum (c : Const) (p s : ℝ → Star) (a e w1 w2 : ℝ → ℝ) (t : ℝ) (P S : Star)
    (hp : p t = { P with omega := w1 t }) (hs : s t = { S with omega := w2 t })
    (h1 : 0 < P.m) (h2 : 0 < S.m) (i1 : 0 < P.I) (i2 : 0 < S.I) (a0 : 0 < a t) (e1 : e t ^ 2 < 1)
    (da : HasDerivAt a (tides c (a t) (e t) (p t) (s t)).da t) (de : HasDerivAt e (tides c (a t) (e t) (p t) (s t)).de t)
    (d1 : HasDerivAt w1 (tides c (a t) (e t) (p t) (s t)).dwPri t) (d2 : HasDerivAt w2 (tides c (a t) (e t) (p t) (s t)).dwSec t) :
    HasDerivAt (fun u => orbitJ c P.m S.m (a u) (e u) + P.I * w1 u + S.I * w2 u) 0 t := by
  have h := ((orbitJ_deriv c h1 h2 da de a0 e1).add (d1.const_mul P.I)).add (d2.const_mul S.I)
  refine HasDerivAt.congr_deriv h ?_
  rw [orbitJ_eq c a0 h1 h2 e1, hp, hs]
  simp only [tides]
  have hn := rate_pos c a0 h1 h2
  have x1 := exchange (kT c (a t) (period c (a t) P.m S.m) (P.m / S.m) { S with omega := w2 t }) (P.m / S.m) P.m S.m S.R S.I (a t) (e t) (w2 t)
    (rate c (a t) P.m S.m) h2 h1 i2 a0 e1 hn rfl
  have x2 := exchange (kT c (a t) (period c (a t) P.m S.m) (S.m / P.m) { P with omega := w1 t }) (S.m / P.m) S.m P.m P.R P.I (a t) (e t) (w1 t)
    (rate c (a t) P.m S.m) h1 h2 i1 a0 e1 hn rfl
  rw [mul_comm S.m P.m, add_comm S.m P.m] at x2
  rw [← add_zero (0 : ℝ)]
  nth_rewrite 2 [← x1]
  rw [← x2]
  ring

/-- The loss of energy by one star's tide. -/
theorem dissipation (g k q mc m R I a e w n : ℝ) (hm : 0 < m) (hmc : 0 < mc) (hI : 0 < I) (ha : 0 < a) (he : e ^ 2 < 1) (hn : 0 < n) (hq : q = mc / m)
    (hk : n ^ 2 * a ^ 3 = g * (mc + m)) :
    g * mc * m / (2 * a ^ 2) * da k q R a e w n + I * w * dw k q m R I a e w n =
      -(3 * k * q ^ 2 * m * R ^ 2 * (R / a) ^ 6 * n ^ 2 / (Real.sqrt (1 - e ^ 2) ^ 15 * f5 e)) *
        ((Real.sqrt (1 - e ^ 2) ^ 3 * (w / n) * f5 e - f2 e) ^ 2 + (f1 e * f5 e - f2 e ^ 2)) := by
  rw [da_eq _ _ _ _ _ _ _ he, dw_eq _ _ _ _ _ _ _ _ _ he]
  have hs : 0 < Real.sqrt (1 - e ^ 2) := Real.sqrt_pos.2 (by linarith)
  have h5 := f5_pos e
  generalize Real.sqrt (1 - e ^ 2) = s at *
  generalize f5 e = F5 at *
  generalize f2 e = F2 at *
  generalize f1 e = F1 at *
  have hg : g = n ^ 2 * a ^ 3 / (mc + m) := by rw [hk]; field_simp
  rw [hq, hg]
  field_simp
  ring

/-- **C77**: tides dissipate: the sum of the energies of the orbit and the spins never grows. -/
theorem C77_energy (c : Const) (p s : ℝ → Star) (a e w1 w2 : ℝ → ℝ) (t : ℝ) (P S : Star)
    (hp : p t = { P with omega := w1 t }) (hs : s t = { S with omega := w2 t })
    (h1 : 0 < P.m) (h2 : 0 < S.m) (i1 : 0 < P.I) (i2 : 0 < S.I) (a0 : 0 < a t) (e1 : e t ^ 2 < 1)
    (k1 : 0 ≤ kT c (a t) (period c (a t) P.m S.m) (S.m / P.m) (p t)) (k2 : 0 ≤ kT c (a t) (period c (a t) P.m S.m) (P.m / S.m) (s t))
    (dA : HasDerivAt a (tides c (a t) (e t) (p t) (s t)).da t)
    (d1 : HasDerivAt w1 (tides c (a t) (e t) (p t) (s t)).dwPri t) (d2 : HasDerivAt w2 (tides c (a t) (e t) (p t) (s t)).dwSec t) :
    ∃ E', E' ≤ 0 ∧ HasDerivAt (fun u => orbitE c P.m S.m (a u) + P.I * w1 u ^ 2 / 2 + S.I * w2 u ^ 2 / 2) E' t := by
  have hn := rate_pos c a0 h1 h2
  have hk := kepler c a0 h1 h2
  have hd : HasDerivAt (fun u => orbitE c P.m S.m (a u)) (grav c * P.m * S.m / (2 * a t ^ 2) * (tides c (a t) (e t) (p t) (s t)).da) t := by
    unfold orbitE
    have h := (((dA.const_mul (2 : ℝ)).inv (by positivity)).const_mul (-(grav c * P.m * S.m)))
    refine HasDerivAt.congr_deriv (h.congr_of_eventuallyEq (Filter.Eventually.of_forall fun u => ?_)) ?_
    · simp [div_eq_mul_inv]
    · field_simp
  have hw1 : HasDerivAt (fun u => P.I * w1 u ^ 2 / 2) (P.I * w1 t * (tides c (a t) (e t) (p t) (s t)).dwPri) t := by
    refine HasDerivAt.congr_deriv (((d1.pow 2).const_mul P.I).div_const 2) ?_
    simp; ring
  have hw2 : HasDerivAt (fun u => S.I * w2 u ^ 2 / 2) (S.I * w2 t * (tides c (a t) (e t) (p t) (s t)).dwSec) t := by
    refine HasDerivAt.congr_deriv (((d2.pow 2).const_mul S.I).div_const 2) ?_
    simp; ring
  refine ⟨_, ?_, (hd.add hw1).add hw2⟩
  rw [hp] at k1 ⊢
  rw [hs] at k2 ⊢
  simp only [tides]
  set ks := kT c (a t) (period c (a t) P.m S.m) (P.m / S.m) { S with omega := w2 t }
  set kp := kT c (a t) (period c (a t) P.m S.m) (S.m / P.m) { P with omega := w1 t }
  have x1 := dissipation (grav c) ks (P.m / S.m) P.m S.m S.R S.I (a t) (e t) (w2 t) _ h2 h1 i2 a0 e1 hn rfl hk
  have x2 := dissipation (grav c) kp (S.m / P.m) S.m P.m P.R P.I (a t) (e t) (w1 t) _ h1 h2 i1 a0 e1 hn rfl (by rw [hk]; ring)
  have hs' : 0 < Real.sqrt (1 - e t ^ 2) := Real.sqrt_pos.2 (by linarith)
  have hf : 0 ≤ f1 (e t) * f5 (e t) - f2 (e t) ^ 2 := by rw [f15]; positivity
  have h5 := f5_pos (e t)
  have y : ∀ k q m R w : ℝ, 0 ≤ k → 0 < m → -(3 * k * q ^ 2 * m * R ^ 2 * (R / a t) ^ 6 * rate c (a t) P.m S.m ^ 2 / (Real.sqrt (1 - e t ^ 2) ^ 15 * f5 (e t))) *
        ((Real.sqrt (1 - e t ^ 2) ^ 3 * (w / rate c (a t) P.m S.m) * f5 (e t) - f2 (e t)) ^ 2 + (f1 (e t) * f5 (e t) - f2 (e t) ^ 2)) ≤ 0 := by
    intro k q m R w hk hm
    rw [neg_mul]
    apply neg_nonpos.2
    have : 0 ≤ (R / a t) ^ 6 := by positivity
    positivity
  have z1 := y ks (P.m / S.m) S.m S.R (w2 t) k2 h2
  have z2 := y kp (S.m / P.m) P.m P.R (w1 t) k1 h1
  rw [← x1] at z1
  rw [← x2, mul_right_comm (grav c) S.m P.m] at z2
  rw [mul_add]
  linarith

/-- The rate towards which tides drive a star's spin: the orbital rate in a circular orbit. -/
noncomputable def pseudo (e n : ℝ) : ℝ := n * f2 e / (Real.sqrt (1 - e ^ 2) ^ 3 * f5 e)

theorem pseudo_circular (n : ℝ) : pseudo 0 n = n := by unfold pseudo f2 f5; simp

/-- **C77**: tides spin a star up if and only if it is slower than the (pseudo-)synchronous rate, down if and only if faster. -/
theorem C77_spin (k q m R I a e w n : ℝ) (hk : 0 < k) (hq : 0 < q) (hm : 0 < m) (hR : 0 < R) (hI : 0 < I) (ha : 0 < a) (he : e ^ 2 < 1) (hn : 0 < n) :
    (0 < dw k q m R I a e w n ↔ w < pseudo e n) ∧ (dw k q m R I a e w n < 0 ↔ pseudo e n < w) ∧ (dw k q m R I a e w n = 0 ↔ w = pseudo e n) := by
  have hs : 0 < Real.sqrt (1 - e ^ 2) := Real.sqrt_pos.2 (by linarith)
  have h5 := f5_pos e
  obtain ⟨C, hC, hd⟩ : ∃ C, 0 < C ∧ dw k q m R I a e w n = C * (pseudo e n - w) := by
    rw [dw_eq _ _ _ _ _ _ _ _ _ he]
    unfold pseudo
    refine ⟨(3 * k * q ^ 2 * m * R ^ 2 / I) * (R / a) ^ 6 / Real.sqrt (1 - e ^ 2) ^ 9 * f5 e, by positivity, ?_⟩
    generalize Real.sqrt (1 - e ^ 2) = s at *
    generalize f5 e = F5 at *
    field_simp
  rw [hd]
  refine ⟨?_, ?_, ?_⟩
  · rw [mul_pos_iff_of_pos_left hC, sub_pos]
  · rw [mul_neg_iff]; constructor
    · rintro (⟨-, h⟩ | ⟨h, -⟩) <;> linarith
    · intro h; exact Or.inl ⟨hC, by linarith⟩
  · rw [mul_eq_zero]; constructor
    · rintro (h | h) <;> linarith
    · intro h; exact Or.inr (by linarith)

/-- **C77**: in a circular orbit the tide of a star slower than the orbit shrinks the orbit and that of a faster star widens it. -/
theorem C77_circular (k q R a w n : ℝ) (hk : 0 < k) (hq : 0 < q) (hR : 0 < R) (ha : 0 < a) (hn : 0 < n) :
    (da k q R a 0 w n < 0 ↔ w < n) ∧ (0 < da k q R a 0 w n ↔ n < w) := by
  obtain ⟨C, hC, hd⟩ : ∃ C, 0 < C ∧ da k q R a 0 w n = C * (w - n) := by
    refine ⟨6 * k * q * (1 + q) * (R / a) ^ 8 * a / n, by positivity, ?_⟩
    unfold da f1 f2
    norm_num
    field_simp
    ring
  rw [hd]
  refine ⟨?_, ?_⟩
  · rw [mul_neg_iff]; constructor
    · rintro (⟨-, h⟩ | ⟨h, -⟩) <;> linarith
    · intro h; exact Or.inl ⟨hC, by linarith⟩
  · rw [mul_pos_iff_of_pos_left hC, sub_pos]

/-- **C77**: the eccentricity falls unless the star spins much faster than the orbit, and a circular orbit stays circular. -/
theorem C77_eccentricity (k q R a e w n : ℝ) (hk : 0 < k) (hq : 0 < q) (hR : 0 < R) (ha : 0 < a) (e0 : 0 < e) (he : e < 1) (hn : 0 < n) :
    (de k q R a e w n < 0 ↔ Real.sqrt (1 - e ^ 2) ^ 3 * f4 e * w < 18 / 11 * f3 e * n) ∧ de k q R a 0 w n = 0 := by
  have he2 : e ^ 2 < 1 := by nlinarith
  have hs : 0 < Real.sqrt (1 - e ^ 2) := Real.sqrt_pos.2 (by linarith)
  refine ⟨?_, by simp [de]⟩
  obtain ⟨C, hC, hd⟩ : ∃ C, 0 < C ∧ de k q R a e w n = C * (Real.sqrt (1 - e ^ 2) ^ 3 * f4 e * w - 18 / 11 * f3 e * n) := by
    rw [de_eq _ _ _ _ _ _ _ he2]
    refine ⟨27 * k * q * (1 + q) * (R / a) ^ 8 * (e / Real.sqrt (1 - e ^ 2) ^ 13) * (11 / 18) / n, by positivity, ?_⟩
    generalize Real.sqrt (1 - e ^ 2) = s at *
    field_simp
    ring
  rw [hd, mul_neg_iff]
  constructor
  · rintro (⟨-, h⟩ | ⟨h, -⟩) <;> linarith
  · intro h; exact Or.inl ⟨hC, by linarith⟩

/-- **C77**: the orbit and the spins stand still under tides exactly if the orbit is circular and both stars rotate with it. -/
theorem C77_equilibrium (c : Const) (a e : ℝ) (p s : Star) (h1 : 0 < p.m) (h2 : 0 < s.m) (r1 : 0 < p.R) (r2 : 0 < s.R) (i1 : 0 < p.I) (i2 : 0 < s.I)
    (a0 : 0 < a) (e0 : 0 ≤ e) (e1 : e < 1)
    (k1 : 0 < kT c a (period c a p.m s.m) (s.m / p.m) p) (k2 : 0 < kT c a (period c a p.m s.m) (p.m / s.m) s) :
    tides c a e p s = ⟨0, 0, 0, 0⟩ ↔ e = 0 ∧ p.omega = rate c a p.m s.m ∧ s.omega = rate c a p.m s.m := by
  have he : e ^ 2 < 1 := by nlinarith
  have hn := rate_pos c a0 h1 h2
  have hk := kepler c a0 h1 h2
  have sp := (C77_spin _ (s.m / p.m) p.m p.R p.I a e p.omega _ k1 (by positivity) h1 r1 i1 a0 he hn).2.2
  have ss := (C77_spin _ (p.m / s.m) s.m s.R s.I a e s.omega _ k2 (by positivity) h2 r2 i2 a0 he hn).2.2
  simp only [tides, Rates.mk.injEq]
  constructor
  · rintro ⟨ha, -, hs, hp⟩
    have x1 := dissipation (grav c) (kT c a (period c a p.m s.m) (p.m / s.m) s) (p.m / s.m) p.m s.m s.R s.I a e s.omega _ h2 h1 i2 a0 he hn rfl hk
    have x2 := dissipation (grav c) (kT c a (period c a p.m s.m) (s.m / p.m) p) (s.m / p.m) s.m p.m p.R p.I a e p.omega _ h1 h2 i1 a0 he hn rfl (by rw [hk]; ring)
    rw [hs] at x1
    rw [hp] at x2
    have hs' : 0 < Real.sqrt (1 - e ^ 2) := Real.sqrt_pos.2 (by linarith)
    have h5 := f5_pos e
    have tot : grav c * p.m * s.m / (2 * a ^ 2) * da (kT c a (period c a p.m s.m) (p.m / s.m) s) (p.m / s.m) s.R a e s.omega (rate c a p.m s.m) +
        grav c * s.m * p.m / (2 * a ^ 2) * da (kT c a (period c a p.m s.m) (s.m / p.m) p) (s.m / p.m) p.R a e p.omega (rate c a p.m s.m) = 0 := by
      have : grav c * s.m * p.m = grav c * p.m * s.m := by ring
      rw [this, ← mul_add, ha, mul_zero]
    rw [mul_zero, add_zero] at x1 x2
    rw [x1, x2] at tot
    have hE : e = 0 := by
      by_contra hne
      have hep : 0 < e := lt_of_le_of_ne e0 (Ne.symm hne)
      have hf : 0 < f1 e * f5 e - f2 e ^ 2 := by rw [f15]; positivity
      have y1 : 0 < 3 * kT c a (period c a p.m s.m) (p.m / s.m) s * (p.m / s.m) ^ 2 * s.m * s.R ^ 2 * (s.R / a) ^ 6 * rate c a p.m s.m ^ 2 / (Real.sqrt (1 - e ^ 2) ^ 15 * f5 e) := by positivity
      have y2 : 0 < 3 * kT c a (period c a p.m s.m) (s.m / p.m) p * (s.m / p.m) ^ 2 * p.m * p.R ^ 2 * (p.R / a) ^ 6 * rate c a p.m s.m ^ 2 / (Real.sqrt (1 - e ^ 2) ^ 15 * f5 e) := by positivity
      have z1 := mul_pos y1 (add_pos_of_nonneg_of_pos (sq_nonneg (Real.sqrt (1 - e ^ 2) ^ 3 * (s.omega / rate c a p.m s.m) * f5 e - f2 e)) hf)
      have z2 := mul_pos y2 (add_pos_of_nonneg_of_pos (sq_nonneg (Real.sqrt (1 - e ^ 2) ^ 3 * (p.omega / rate c a p.m s.m) * f5 e - f2 e)) hf)
      linarith
    subst hE
    rw [pseudo_circular] at sp ss
    exact ⟨rfl, sp.1 hp, ss.1 hs⟩
  · rintro ⟨rfl, hp, hs⟩
    rw [pseudo_circular] at sp ss
    refine ⟨?_, by simp [de], ss.2 hs, sp.2 hp⟩
    rw [hp, hs]
    have : ∀ k q R, da k q R a 0 (rate c a p.m s.m) (rate c a p.m s.m) = 0 := fun k q R => by
      unfold da f1 f2
      norm_num
      right
      field_simp
      ring
    rw [this, this, add_zero]

/-- **C77**: nothing depends on which star is called the primary. -/
theorem C77_symmetric (c : Const) (a e : ℝ) (p s : Star) :
    tides c a e s p = ⟨(tides c a e p s).da, (tides c a e p s).de, (tides c a e p s).dwPri, (tides c a e p s).dwSec⟩ := by
  have hP : period c a s.m p.m = period c a p.m s.m := by unfold period; rw [add_comm]
  have hn : rate c a s.m p.m = rate c a p.m s.m := by unfold rate; rw [hP]
  simp only [tides, hP, hn, Rates.mk.injEq]
  exact ⟨add_comm _ _, add_comm _ _, trivial, trivial⟩

theorem fconv_nonneg (P : ℝ) (s : Star) : 0 ≤ fconv P s := by
  unfold fconv
  dsimp only
  by_cases h : 1 / P - 1 / (2 * Real.pi / s.omega) = 0
  · rw [if_pos h]; norm_num
  · rw [if_neg h]; exact le_min (by norm_num) (by positivity)

theorem tau_pos (s : Star) (h : s.Physical) : 0 < tau s := by
  unfold tau
  by_cases hu : (usable s.mEnv && usable s.drEnv && usable s.rEnv) = true
  · rw [if_pos hu]
    simp only [Bool.and_eq_true] at hu
    obtain ⟨⟨u1, u2⟩, u3⟩ := hu
    have pos : ∀ o : Option ℝ, usable o = true → (∀ x, o = some x → 0 ≤ x) → 0 < o.getD 0 := by
      intro o ho hx
      cases o with
      | none => cases ho
      | some x =>
        simp only [usable, ne_eq, decide_not, Bool.not_eq_true', decide_eq_false_iff_not] at ho
        exact lt_of_le_of_ne (hx x rfl) (Ne.symm ho)
    have := pos _ u1 h.env
    have := pos _ u2 h.dr
    have := pos _ u3 h.r
    have := h.L
    positivity
  · rw [if_neg hu]; positivity

theorem E2_pos (s : Star) (h : s.Physical) (hR : 0 < s.R) : 0 < E2 s := by
  have := h.m
  unfold E2
  dsimp only
  by_cases h1 : s.rTop - s.rBot > s.R ∨ s.rTop - s.rBot ≤ 0 ∨ s.rBot / s.R > 0.1
  · rw [if_pos h1]; positivity
  rw [if_neg h1, if_neg (not_le.2 hR)]
  push Not at h1
  have hc := h1.2.1
  cases s.X with
  | none => dsimp only; positivity
  | some x =>
    dsimp only
    by_cases hx : x > 0.4
    · rw [if_pos hx]; positivity
    · rw [if_neg hx]; positivity

/-- **C77**: tides act on every star of positive radius: the strength is positive, at least that of the dynamical tide. -/
theorem C77_strength (c : Const) (a P q : ℝ) (s : Star) (h : s.Physical) (hR : 0 < s.R) (ha : 0 < a) (hq : 0 < q) :
    0 < kT c a P q s ∧ 0 ≤ kConv P s ∧ 0 < kRad c a q s := by
  have hm := h.m
  have := c.G_pos; have := c.msol_pos; have := c.rsol_pos; have := c.secyer_pos
  have hE := E2_pos s h hR
  have h2 : 0 < kRad c a q s := by
    unfold kRad
    positivity
  have h1 : 0 ≤ kConv P s := by
    unfold kConv
    cases hme : s.mEnv with
    | none => exact le_refl _
    | some me =>
      have h3 := h.env me hme
      have h4 := tau_pos s h
      have h5 := fconv_nonneg P s
      dsimp only
      positivity
  exact ⟨lt_of_lt_of_le h2 (le_max_right _ _), h1, h2⟩

/-- A star of one solar mass and radius with a convective envelope. -/
noncomputable def exStar (w : ℝ) : Star := ⟨1, 1, w, some 0.1, some 0.3, some 0.8, 0, 0, some 0.7, 1, 0.06⟩

example (w : ℝ) : (exStar w).Physical ∧ 0 < (exStar w).R := by
  refine ⟨⟨?_, ?_, ?_, ?_, ?_, ?_, ?_⟩, ?_⟩ <;> simp [exStar] <;> norm_num

end Verif.Tides
