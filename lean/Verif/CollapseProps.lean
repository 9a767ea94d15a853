import Mathlib.Analysis.SpecialFunctions.Log.Base
import Verif.Collapse
import Mathlib.Tactic.Linarith
import Mathlib.Tactic.NormNum
import Mathlib.Tactic.Ring
import Mathlib.Tactic.FieldSimp
import Mathlib.Tactic.LinearCombination
/-!
C89: the collapse of a star into a black hole balances mass, and the spin stays below one.
-/
namespace Verif.Collapse

/-! ### The innermost stable orbit -/

/-- The cube roots in the formula and what follows from them. -/
theorem roots (a : ℝ) (h0 : 0 ≤ a) (h1 : a ≤ 1) : ∃ p z1 z2 R : ℝ, isco a = 3 + z2 - R ∧ 0 ≤ p ∧ p ≤ 1 ∧ p ^ 3 = 1 - a ^ 2 ∧ 1 + p ≤ z1 ∧ z1 ≤ 1 + 2 * p ∧
    (z1 - 1) ^ 3 = (1 - a ^ 2) * (3 * z1 - 1) ∧ 0 ≤ z2 ∧ z2 ^ 2 = 3 * a ^ 2 + z1 ^ 2 ∧ 0 ≤ R ∧ R ^ 2 = (3 - z1) * (3 + z1 + 2 * z2) := by
  obtain ⟨x, hx⟩ : ∃ x, x = (1 + a) ^ (1 / 3 : ℝ) := ⟨_, rfl⟩
  obtain ⟨y, hy⟩ : ∃ y, y = (1 - a) ^ (1 / 3 : ℝ) := ⟨_, rfl⟩
  have x3 : x ^ 3 = 1 + a := by
    rw [hx, ← Real.rpow_natCast, ← Real.rpow_mul (by linarith)]
    norm_num
  have y3 : y ^ 3 = 1 - a := by
    rw [hy, ← Real.rpow_natCast, ← Real.rpow_mul (by linarith)]
    norm_num
  have x0 : 0 ≤ x := by rw [hx]; exact Real.rpow_nonneg (by linarith) _
  have y0 : 0 ≤ y := by rw [hy]; exact Real.rpow_nonneg (by linarith) _
  have hxy : (1 - a ^ 2) ^ (1 / 3 : ℝ) = x * y := by
    rw [hx, hy, ← Real.mul_rpow (by linarith) (by linarith)]
    congr 1
    ring
  have hp : (x * y) ^ 3 = 1 - a ^ 2 := by rw [mul_pow, x3, y3]; ring
  have hp0 : 0 ≤ x * y := mul_nonneg x0 y0
  have hs0 : 0 ≤ x + y := add_nonneg x0 y0
  have hs3 : (x + y) ^ 3 = 2 + 3 * (x * y) * (x + y) := by linear_combination x3 + y3
  have hq : 4 * (x * y) ≤ (x + y) ^ 2 := by nlinarith [sq_nonneg (x - y)]
  have hs2 : x + y ≤ 2 := by
    by_contra hn
    rw [not_le] at hn
    have : (x + y) ^ 3 ≤ 8 := by nlinarith
    have h8 : (2 : ℝ) ^ 3 < (x + y) ^ 3 := pow_lt_pow_left₀ hn (by norm_num) (by norm_num)
    norm_num at h8
    linarith
  have hs1 : 1 ≤ x + y := by
    by_contra hn
    rw [not_le] at hn
    have h2 : 2 ≤ (x + y) ^ 3 := by rw [hs3]; have := mul_nonneg hp0 hs0; nlinarith
    have : (x + y) ^ 3 ≤ 1 := pow_le_one₀ hs0 hn.le
    linarith
  have hp1 : x * y ≤ 1 := by nlinarith
  obtain ⟨z1, hz1⟩ : ∃ z1, z1 = 1 + x * y * (x + y) := ⟨_, rfl⟩
  obtain ⟨z2, hz2⟩ : ∃ z2, z2 = (3 * a ^ 2 + z1 ^ 2) ^ (1 / 2 : ℝ) := ⟨_, rfl⟩
  have hz10 : 1 + x * y ≤ z1 := by rw [hz1]; nlinarith
  have hz1u : z1 ≤ 1 + 2 * (x * y) := by rw [hz1]; nlinarith
  have hz20 : 0 ≤ z2 := by rw [hz2]; exact Real.rpow_nonneg (by positivity) _
  have hz22 : z2 ^ 2 = 3 * a ^ 2 + z1 ^ 2 := by
    rw [hz2, ← Real.rpow_natCast, ← Real.rpow_mul (by positivity)]
    norm_num
  have hr : 0 ≤ (3 - z1) * (3 + z1 + 2 * z2) := mul_nonneg (by linarith) (by linarith)
  refine ⟨x * y, z1, z2, √((3 - z1) * (3 + z1 + 2 * z2)), ?_, hp0, hp1, hp, hz10, hz1u, ?_, hz20, hz22, Real.sqrt_nonneg _, Real.sq_sqrt hr⟩
  · unfold isco
    dsimp only
    rw [hxy, ← hx, ← hy, ← hz1, ← hz2]
  · have : z1 - 1 = x * y * (x + y) := by rw [hz1]; ring
    rw [this, mul_pow, hs3, hp, hz1]
    ring

theorem isco_bounds (a : ℝ) (h0 : 0 ≤ a) (h1 : a ≤ 1) : 1 ≤ isco a ∧ isco a ≤ 6 ∧ (a < 1 → 1 < isco a) ∧ (isco a ^ 2 - 6 * isco a - 3 * a ^ 2) ^ 2 = 64 * a ^ 2 * isco a := by
  obtain ⟨p, z1, z2, R, hr, p0, p1, p3, zl, zu, hH, z20, hW, R0, R2⟩ := roots a h0 h1
  have a2 : a ^ 2 = 1 - p ^ 3 := by linarith
  have z2l : 2 ≤ z2 := by
    by_contra hn
    rw [not_le] at hn
    have : z2 ^ 2 < 4 := by nlinarith
    have h4 : 4 ≤ 3 * a ^ 2 + z1 ^ 2 := by
      rw [a2]
      have : (1 + p) ^ 2 ≤ z1 ^ 2 := pow_le_pow_left₀ (by linarith) zl 2
      nlinarith [mul_nonneg p0 (mul_nonneg (show 0 ≤ 1 - p by linarith) (show 0 ≤ 2 + 3 * p by linarith))]
    linarith
  have z2u : z2 ≤ 3 := by
    by_contra hn
    rw [not_le] at hn
    have : 9 < z2 ^ 2 := by nlinarith
    have h9 : 3 * a ^ 2 + z1 ^ 2 ≤ 9 := by
      rw [a2]
      have : z1 ^ 2 ≤ (1 + 2 * p) ^ 2 := pow_le_pow_left₀ (by linarith) zu 2
      nlinarith [mul_nonneg (show 0 ≤ 1 - p by linarith) (show 0 ≤ 5 + p - 3 * p ^ 2 by nlinarith)]
    linarith
  have hb : R ≤ 2 + z2 := by
    refine abs_le_of_sq_le_sq' ?_ (by linarith) |>.2
    rw [R2]
    nlinarith [mul_nonneg (show 0 ≤ z1 - 1 by linarith) (show 0 ≤ z1 + 1 + 2 * z2 by linarith), mul_nonneg (show 0 ≤ z2 - 2 by linarith) (show 0 ≤ z2 + 2 by linarith)]
  refine ⟨by linarith, by linarith, fun hlt => ?_, ?_⟩
  · have hp : 0 < p := by
      rcases p0.eq_or_lt with h | h
      · rw [← h] at p3
        nlinarith
      · exact h
    have : R < 2 + z2 := by
      refine abs_lt_of_sq_lt_sq' ?_ (by linarith) |>.2
      rw [R2]
      nlinarith [mul_pos (show 0 < z1 - 1 by linarith) (show 0 < z1 + 1 + 2 * z2 by linarith), mul_nonneg (show 0 ≤ z2 - 2 by linarith) (show 0 ≤ z2 + 2 by linarith)]
    linarith
  · rw [hr]
    have hA : (3 + z2 - R) ^ 2 - 2 * (3 + z2) * (3 + z2 - R) + (z1 + z2) ^ 2 = 0 := by linear_combination R2
    generalize 3 + z2 - R = r at hA
    linear_combination (r ^ 2 - 2 * (3 - z2) * r + (z1 - z2) ^ 2) * hA - (-2 * r ^ 2 + (8 * z1 - 12) * r + (z2 ^ 2 - z1 ^ 2 + 3 * a ^ 2)) * hW - 8 * r * hH

/-- **C89** The innermost stable orbit is the one of a rotating black hole: it satisfies the condition of marginal stability, lies between one and six
gravitational radii, and above one unless the hole rotates maximally. -/
theorem C89_isco (a : ℝ) (h0 : 0 ≤ a) (h1 : a ≤ 1) : isco a ^ 2 - 6 * isco a + 8 * a * √(isco a) - 3 * a ^ 2 = 0 ∧ 1 ≤ isco a ∧ isco a ≤ 6 ∧ (a < 1 → 1 < isco a) := by
  obtain ⟨b1, b2, b3, b4⟩ := isco_bounds a h0 h1
  refine ⟨?_, b1, b2, b3⟩
  have hs := Real.sq_sqrt (show 0 ≤ isco a by linarith)
  have hs0 := Real.sqrt_nonneg (isco a)
  have hl : isco a ^ 2 - 6 * isco a - 3 * a ^ 2 ≤ 0 := by nlinarith
  have hr : 0 ≤ 8 * a * √(isco a) := by positivity
  have he : (-(isco a ^ 2 - 6 * isco a - 3 * a ^ 2)) ^ 2 = (8 * a * √(isco a)) ^ 2 := by
    rw [neg_sq, b4, mul_pow, hs]
    ring
  have := (sq_eq_sq₀ (by linarith) hr).1 he
  linarith

/-- **C89** A disk gives off between 5.7 and 42.3 per cent of its mass: the rest, which the hole gains, is between the root of a third and the root
of eight ninths. -/
theorem C89_efficiency (a : ℝ) (h0 : 0 ≤ a) (h1 : a ≤ 1) : 1 / 3 ≤ eff a ^ 2 ∧ eff a ^ 2 ≤ 8 / 9 ∧ 0 < eff a ∧ eff a < 1 := by
  obtain ⟨-, b1, b2, -⟩ := C89_isco a h0 h1
  have h3 : 0 < 3 * isco a := by linarith
  have hl : 1 / 3 ≤ 1 - 2 / (3 * isco a) := by
    have : 2 / (3 * isco a) ≤ 2 / 3 := div_le_div_of_nonneg_left (by norm_num) (by norm_num) (by linarith)
    linarith
  have hu : 1 - 2 / (3 * isco a) ≤ 8 / 9 := by
    have : 2 / 18 ≤ 2 / (3 * isco a) := div_le_div_of_nonneg_left (by norm_num) h3 (by linarith)
    linarith
  have hsq : eff a ^ 2 = 1 - 2 / (3 * isco a) := Real.sq_sqrt (by linarith)
  have h00 : 0 ≤ eff a := Real.sqrt_nonneg _
  rw [hsq]
  refine ⟨hl, hu, ?_, ?_⟩
  · rcases h00.eq_or_lt with h | h
    · rw [← h] at hsq; norm_num at hsq; linarith
    · exact h
  · by_contra hn
    rw [not_lt] at hn
    nlinarith

/-- **C89** The angular momentum of the innermost stable orbit is positive, unless the hole rotates maximally; and nothing in its formula is
undefined. -/
theorem C89_j (K : Const) (hG : 0 < K.G) (hc : 0 < K.c) (a m : ℝ) (h0 : 0 ≤ a) (h1 : a < 1) (hm : 0 < m) :
    0 < isco a ^ (3 / 2 : ℝ) - 3 * isco a ^ (0.5 : ℝ) + 2 * a ∧ 0 < jIsco K a m := by
  obtain ⟨e, b1, b2, b3⟩ := C89_isco a h0 h1.le
  have hr1 := b3 h1
  obtain ⟨u, hu⟩ : ∃ u, u = √(isco a) := ⟨_, rfl⟩
  have hu2 : u ^ 2 = isco a := by rw [hu]; exact Real.sq_sqrt (by linarith)
  have hu0 : 0 ≤ u := by rw [hu]; exact Real.sqrt_nonneg _
  have hu1 : 1 < u := by nlinarith
  have r05 : isco a ^ (0.5 : ℝ) = u := by
    rw [hu, Real.sqrt_eq_rpow]
    norm_num
  have r15 : isco a ^ (3 / 2 : ℝ) = u ^ 3 := by
    rw [← hu2, ← Real.rpow_natCast, ← Real.rpow_natCast, ← Real.rpow_mul hu0]
    norm_num
  have hD : 0 < u ^ 3 - 3 * u + 2 * a := by
    by_contra hn
    rw [not_lt] at hn
    rw [← hu, ← hu2] at e
    obtain ⟨b, hb⟩ : ∃ b, b = (3 * u - u ^ 3) / 2 := ⟨_, rfl⟩
    have hab : a ≤ b := by rw [hb]; linarith
    have hbu : b ≤ 4 * u / 3 := by rw [hb]; nlinarith
    have hf : (u ^ 2) ^ 2 - 6 * u ^ 2 + 8 * b * u - 3 * b ^ 2 = -(3 / 4) * u ^ 2 * (u ^ 2 - 1) ^ 2 := by rw [hb]; ring
    have hneg : -(3 / 4) * u ^ 2 * (u ^ 2 - 1) ^ 2 < 0 := by
      have h2 : 0 < (u ^ 2 - 1) ^ 2 := by
        have : 0 < u ^ 2 - 1 := by nlinarith
        positivity
      have h3 : 0 < u ^ 2 := by nlinarith
      nlinarith [mul_pos h3 h2]
    have hinc : 0 ≤ (b - a) * (8 * u - 3 * (b + a)) := mul_nonneg (by linarith) (by linarith)
    nlinarith
  rw [r05, r15]
  refine ⟨hD, ?_⟩
  unfold jIsco
  rw [r05, r15]
  refine div_pos (mul_pos (div_pos (mul_pos hG hm) hc) ?_) (mul_pos (Real.rpow_pos_of_pos (by linarith) _) (Real.rpow_pos_of_pos hD _))
  rw [← hu2]
  nlinarith [sq_nonneg (a - u), mul_pos (show 0 < u ^ 2 by nlinarith) (show 0 < u ^ 2 - 1 by nlinarith)]

/-! ### Mass and angular momentum -/

/-- **C89** Each shell is divided into a part falling in directly and a disk; both have some of its mass, and together all of it. A shell of little
angular momentum has no disk. -/
theorem C89_parts (K : Const) (s : St) (h : Shell) (hd : 0 ≤ h.dm) : (parts K s h).1 + (parts K s h).2 = h.dm ∧ 0 ≤ (parts K s h).1 ∧ 0 ≤ (parts K s h).2 ∧
    (h.omega * h.r ^ 2 < jIsco K s.a s.M → (parts K s h).2 = 0) := by
  unfold parts
  by_cases hj : h.omega * h.r ^ 2 < jIsco K s.a s.M
  · rw [if_pos hj]
    exact ⟨by simp, hd, le_refl _, fun _ => rfl⟩
  · rw [if_neg hj]
    have hc : 0 ≤ Real.cos (theta K s h) := Real.cos_arcsin_nonneg _
    exact ⟨by ring, mul_nonneg (by linarith [Real.cos_le_one (theta K s h)]) hd, mul_nonneg hc hd, fun h => absurd h hj⟩

/-- **C89** The sine of the angle of the disk is the root of the ratio of the angular momenta, so that matter closer to the axis has too little
angular momentum for the innermost stable orbit. -/
theorem C89_angle (K : Const) (s : St) (h : Shell) (hp : 0 < jIsco K s.a s.M) (hj : jIsco K s.a s.M ≤ h.omega * h.r ^ 2) :
    h.omega * h.r ^ 2 * Real.sin (theta K s h) ^ 2 = jIsco K s.a s.M ∧ 0 < theta K s h ∧ theta K s h ≤ Real.pi / 2 := by
  have hpos : 0 < h.omega * h.r ^ 2 := hp.trans_le hj
  have h1 : jIsco K s.a s.M / (h.omega * h.r ^ 2) ≤ 1 := (div_le_one hpos).2 hj
  have h0 : 0 < jIsco K s.a s.M / (h.omega * h.r ^ 2) := div_pos hp hpos
  have hs1 : √(jIsco K s.a s.M / (h.omega * h.r ^ 2)) ≤ 1 := Real.sqrt_le_one.2 h1
  have hs0 : 0 < √(jIsco K s.a s.M / (h.omega * h.r ^ 2)) := Real.sqrt_pos.2 h0
  unfold theta
  refine ⟨?_, Real.arcsin_pos.2 hs0, Real.arcsin_le_pi_div_two _⟩
  rw [Real.sin_arcsin (by linarith) hs1, Real.sq_sqrt h0.le]
  exact mul_div_cancel₀ _ hpos.ne'

/-- **C89** The part falling in directly has at most the angular momentum of the shell. -/
theorem C89_direct (K : Const) (s : St) (h : Shell) (h0 : 0 ≤ h.omega) (hr : 0 ≤ h.rho) (hv : 0 ≤ vol h) :
    0 ≤ jDirect K s h ∧ jDirect K s h ≤ 8 * Real.pi / 3 * vol h * h.omega * h.rho := by
  have hpi := Real.pi_pos
  unfold jDirect
  by_cases hj : h.omega * h.r ^ 2 < jIsco K s.a s.M
  · rw [if_pos hj]
    exact ⟨by positivity, by linarith⟩
  · rw [if_neg hj]
    have hc0 : 0 ≤ Real.cos (theta K s h) := Real.cos_arcsin_nonneg _
    have hc1 := Real.cos_le_one (theta K s h)
    have hs : Real.sin (theta K s h / 2) ^ 2 = (1 - Real.cos (theta K s h)) / 2 := by
      have := Real.cos_sq' (theta K s h / 2)
      have h2 := Real.cos_sq (theta K s h / 2)
      rw [show 2 * (theta K s h / 2) = theta K s h by ring] at h2
      linarith
    have hs4 : Real.sin (theta K s h / 2) ^ 4 = ((1 - Real.cos (theta K s h)) / 2) ^ 2 := by
      rw [← hs]
      ring
    rw [hs4]
    generalize Real.cos (theta K s h) = x at hc0 hc1
    have hx : 4 / 3 * (2 + x) * ((1 - x) / 2) ^ 2 ≤ 2 / 3 := by nlinarith [mul_nonneg hc0 (show 0 ≤ 3 - x ^ 2 by nlinarith)]
    have hx0 : 0 ≤ 4 / 3 * (2 + x) * ((1 - x) / 2) ^ 2 := by positivity
    refine ⟨by positivity, ?_⟩
    have hw : 0 ≤ 4 * Real.pi * (h.omega * h.rho) := by positivity
    calc 4 * Real.pi * (h.omega * h.rho) * (4 / 3 * (2 + x) * ((1 - x) / 2) ^ 2) * vol h ≤ 4 * Real.pi * (h.omega * h.rho) * (2 / 3) * vol h :=
          mul_le_mul_of_nonneg_right (mul_le_mul_of_nonneg_left hx hw) hv
      _ = 8 * Real.pi / 3 * vol h * h.omega * h.rho := by ring

theorem step_ok {K : Const} {s s' : St} {h : Shell} (hs : step K s h = .ok s') : s.a ≠ 1 ∧ s'.a ≤ 1 ∧ s'.M = s.M + (parts K s h).2 * eff s.a + (parts K s h).1 ∧
    s'.J = s.J + jIsco K s.a s.M * (parts K s h).2 + jDirect K s h ∧ s'.a = s'.J * K.c / (K.G * s'.M ^ 2) ∧ s'.direct = s.direct + (parts K s h).1 ∧
    s'.disk = s.disk + (parts K s h).2 * eff s.a ∧ s'.tot = s.tot + (parts K s h).1 + (parts K s h).2 ∧ s'.rad = s.rad + (parts K s h).2 * (1 - eff s.a) ∧
    s'.Jtot = s.Jtot + 8 * Real.pi / 3 * vol h * h.omega * h.rho ∧ s'.jet = s.jet + jetPower K (parts K s h).2 1 (s'.a ^ 2) ∧
    s'.he = if h.omega * h.r ^ 2 < jIsco K s.a s.M then s.he else s.he + h.dm * (h.he3 + h.he4) := by
  unfold step at hs
  by_cases ha : s.a = 1
  · rw [if_pos ha] at hs; cases hs
  rw [if_neg ha] at hs
  dsimp only at hs
  by_cases hb : 1 < (s.J + jIsco K s.a s.M * (parts K s h).2 + jDirect K s h) * K.c / (K.G * (s.M + (parts K s h).2 * eff s.a + (parts K s h).1) ^ 2)
  · rw [if_pos hb] at hs; cases hs
  rw [if_neg hb] at hs
  simp only [Except.ok.injEq] at hs
  subst hs
  exact ⟨ha, not_lt.1 hb, rfl, rfl, rfl, rfl, rfl, rfl, rfl, rfl, rfl, rfl⟩

/-- **C89** Mass is balanced over all the shells: what the hole gains and what the disk gives off is what falls in; the gain is that of direct collapse and
that through the disk. The spin is at most one, for otherwise the collapse stops with an error. -/
theorem C89_balance (K : Const) : ∀ (l : List Shell) (s s' : St), run K s l = .ok s' → (∀ h ∈ l, 0 ≤ h.dm) →
    s'.M + s'.rad = s.M + s.rad + (l.map (·.dm)).sum ∧ s'.tot = s.tot + (l.map (·.dm)).sum ∧ s'.M - s'.direct - s'.disk = s.M - s.direct - s.disk ∧
    (s.a ≤ 1 → s'.a ≤ 1)
  | [], s, s', h, _ => by
    simp only [run, Except.ok.injEq] at h
    subst h
    simp
  | x :: l, s, s', h, hd => by
    unfold run at h
    cases hs : step K s x with
    | error e => rw [hs] at h; simp at h
    | ok t =>
      rw [hs] at h
      dsimp only at h
      obtain ⟨i1, i2, i3, i4⟩ := C89_balance K l t s' h fun y hy => hd y (by simp [hy])
      obtain ⟨ha, ha', hM, hJ, -, hdir, hdisk, htot, hrad, -⟩ := step_ok hs
      have hp := (C89_parts K s x (hd x (by simp))).1
      simp only [List.map_cons, List.sum_cons]
      refine ⟨?_, ?_, ?_, fun _ => i4 ha'⟩
      · rw [i1, hM, hrad, ← hp]; ring
      · rw [i2, htot, ← hp]; ring
      · rw [i3, hM, hdir, hdisk]; ring

/-- **C89** For shells rotating forward, the spin stays between zero and one, the mass grows with each shell, by at least 57 per cent of what falls in,
and the mass given off grows, to at most the rest. -/
theorem C89_growth (K : Const) (hG : 0 < K.G) (hc : 0 < K.c) : ∀ (l : List Shell) (s s' : St), run K s l = .ok s' →
    (∀ h ∈ l, 0 ≤ h.dm ∧ 0 ≤ h.omega ∧ 0 ≤ h.rho ∧ 0 ≤ vol h) → 0 < s.M → 0 ≤ s.J → 0 ≤ s.a → s.a ≤ 1 →
    0 ≤ s'.a ∧ s'.a ≤ 1 ∧ 0 ≤ s'.J ∧ s.M + √(1 / 3) * (l.map (·.dm)).sum ≤ s'.M ∧ s'.M ≤ s.M + (l.map (·.dm)).sum ∧ s.rad ≤ s'.rad ∧ s.disk ≤ s'.disk ∧ s.jet ≤ s'.jet
  | [], s, s', h, _, _, hJ, ha, ha1 => by
    simp only [run, Except.ok.injEq] at h
    subst h
    simp [ha, ha1, hJ]
  | x :: l, s, s', h, hd, hM, hJ, ha, ha1 => by
    unfold run at h
    cases hs : step K s x with
    | error e => rw [hs] at h; simp at h
    | ok t =>
      rw [hs] at h
      dsimp only at h
      obtain ⟨hne, ta1, tM, tJ, ta, -, tdisk, -, trad, -, tjet, -⟩ := step_ok hs
      obtain ⟨d0, o0, r0, v0⟩ := hd x (by simp)
      obtain ⟨p1, p2, p3, -⟩ := C89_parts K s x d0
      obtain ⟨e1, e2, e3, e4⟩ := C89_efficiency s.a ha ha1
      have hlt : s.a < 1 := lt_of_le_of_ne ha1 hne
      have hj := (C89_j K hG hc s.a s.M ha hlt hM).2
      have hdir := (C89_direct K s x o0 r0 v0).1
      have hm := mul_nonneg p3 e3.le
      have tM0 : 0 < t.M := by rw [tM]; linarith
      have tJ0 : 0 ≤ t.J := by rw [tJ]; have := mul_nonneg hj.le p3; linarith
      have ta0 : 0 ≤ t.a := by rw [ta]; positivity
      obtain ⟨i1, i2, i3, i4, i5, i6, i7, i8⟩ := C89_growth K hG hc l t s' h (fun y hy => hd y (by simp [hy])) tM0 tJ0 ta0 ta1
      have hse : √(1 / 3) ≤ eff s.a := by
        rw [← Real.sqrt_sq e3.le]
        exact Real.sqrt_le_sqrt e1
      have hs1 : √(1 / 3) ≤ 1 := Real.sqrt_le_one.2 (by norm_num)
      simp only [List.map_cons, List.sum_cons]
      refine ⟨i1, i2, i3, ?_, ?_, ?_, ?_, ?_⟩
      · have a1 : √(1 / 3) * (parts K s x).2 ≤ (parts K s x).2 * eff s.a := by rw [mul_comm]; exact mul_le_mul_of_nonneg_left hse p3
        have a2 : √(1 / 3) * (parts K s x).1 ≤ (parts K s x).1 := by nlinarith
        rw [← p1]
        rw [tM] at i4
        nlinarith
      · have a1 : (parts K s x).2 * eff s.a ≤ (parts K s x).2 := by nlinarith
        rw [tM] at i5
        linarith
      · have : 0 ≤ (parts K s x).2 * (1 - eff s.a) := mul_nonneg p3 (by linarith)
        rw [trad] at i6
        linarith
      · rw [tdisk] at i7
        linarith
      · have : 0 ≤ jetPower K (parts K s x).2 1 (t.a ^ 2) := by
          unfold jetPower
          positivity
        rw [tjet] at i8
        linarith

/-! ### The whole collapse -/

theorem shells_sum (K : Const) : ∀ (l : List Cell) (p : Cell), ((shells K p l).map (·.dm)).sum = ((p :: l).getLast (by simp)).mass * K.Mo - p.mass * K.Mo
  | [], p => by simp [shells]
  | q :: l, p => by
    simp only [shells, List.map_cons, List.sum_cons]
    rw [shells_sum K l q, List.getLast_cons (show q :: l ≠ [] by simp)]
    ring

theorem nearest_lt (v : ℝ) : ∀ l : List ℝ, l ≠ [] → nearest v l < l.length
  | [], h => absurd rfl h
  | [_], _ => by simp [nearest]
  | x :: y :: l, _ => by
    unfold nearest
    dsimp only
    have := nearest_lt v (y :: l) (by simp)
    split
    · simp
    · simp only [List.length_cons] at this ⊢
      omega

/-- The place found has the least distance. -/
theorem nearest_spec (v : ℝ) : ∀ l : List ℝ, l ≠ [] → ∀ x ∈ l, |l.getD (nearest v l) 0 - v| ≤ |x - v|
  | [], h => absurd rfl h
  | [a], _ => by simp [nearest]
  | a :: b :: l, _ => by
    intro x hx
    have ih := nearest_spec v (b :: l) (by simp)
    unfold nearest
    dsimp only
    by_cases hc : |a - v| ≤ |(b :: l).getD (nearest v (b :: l)) 0 - v|
    · rw [if_pos hc]
      rcases List.mem_cons.1 hx with rfl | hx
      · simp
      · simpa using hc.trans (ih x hx)
    · rw [if_neg hc]
      rw [not_le] at hc
      rw [List.getD_cons_succ]
      rcases List.mem_cons.1 hx with rfl | hx
      · exact hc.le
      · exact ih x hx

/-- The cells which collapse: all, or up to and including the first whose outer mass exceeds the mass to collapse. -/
theorem iRem_spec (cells : List Cell) (m : ℝ) (hne : cells ≠ []) : 0 < iRem cells m ∧ iRem cells m ≤ cells.length ∧
    (iRem cells m < cells.length → ∀ c, cells[iRem cells m - 1]? = some c → m < c.mass) ∧
    (∀ k, k + 1 < iRem cells m → (cells.getLast hne).mass ≤ m ∨ ∀ c, cells[k]? = some c → c.mass ≤ m) := by
  have hl : cells.getLast? = some (cells.getLast hne) := List.getLast?_eq_some_getLast hne
  have hlen : 0 < cells.length := List.length_pos_iff.2 hne
  unfold iRem
  rw [hl]
  simp only [Option.map_some, Option.getD_some, decide_eq_true_eq]
  by_cases hm : (cells.getLast hne).mass ≤ m
  · rw [if_pos hm]
    exact ⟨hlen, le_refl _, fun h => absurd h (lt_irrefl _), fun k _ => Or.inl hm⟩
  · rw [if_neg hm]
    have hlt : cells.findIdx (fun c => decide (m < c.mass)) < cells.length := by
      rw [List.findIdx_lt_length]
      exact ⟨_, List.getLast_mem hne, by simpa using hm⟩
    refine ⟨by omega, by omega, fun _ c hc => ?_, fun k hk => Or.inr fun c hc => ?_⟩
    · simp only [Nat.add_sub_cancel] at hc
      have := List.findIdx_getElem (w := hlt)
      rw [List.getElem?_eq_getElem hlt, Option.some.injEq] at hc
      rw [hc] at this
      simpa using this
    · have hk' : k < cells.findIdx (fun c => decide (m < c.mass)) := by omega
      have := List.not_of_lt_findIdx hk'
      rw [List.getElem?_eq_getElem (by omega), Option.some.injEq] at hc
      rw [hc] at this
      simpa using this

/-- **C89** The whole collapse, for a profile in which mass increases outwards: the mass of the black hole and the mass given off by the disk
are together the mass of the cells which collapse, less that of the neutrinos. The spin is at most one. -/
theorem C89_total (K : Const) (hMo : 0 < K.Mo) (simpson : List ℝ → List ℝ → ℝ) (cells : List Cell) (hne : cells ≠ [])
    (hinc : List.Pairwise (fun a b => a.mass ≤ b.mass) cells) (m central nu maxNu : ℝ) (r : Res)
    (h : collapse K simpson (some cells) m central (some nu) maxNu = .ok r) :
    0 ≤ nu ∧ nu ≤ maxNu ∧ ∃ c, cells[iRem cells m - 1]? = some c ∧ r.mass + r.radiated.getD 0 = c.mass - nu ∧
      (r.radiated ≠ none → ∀ a, r.spin = some a → a ≤ 1) := by
  obtain ⟨c0, rest, rfl⟩ := List.exists_cons_of_ne_nil hne
  obtain ⟨n0, nl, -, -⟩ := iRem_spec _ m hne
  unfold collapse at h
  cases hi : initial K simpson (some (c0 :: rest)) m central (some nu) maxNu with
  | error e => rw [hi] at h; simp at h
  | ok i =>
    rw [hi] at h
    dsimp only at h
    unfold initial at hi
    dsimp only at hi
    by_cases h1 : nu < 0
    · rw [if_pos h1] at hi; cases hi
    rw [if_neg h1] at hi
    by_cases h2 : maxNu < nu
    · rw [if_pos h2] at hi; cases hi
    rw [if_neg h2] at hi
    simp only [Except.ok.injEq] at hi
    refine ⟨not_lt.1 h1, not_lt.1 h2, ?_⟩
    generalize iRem (c0 :: rest) m = n at n0 nl hi
    obtain ⟨cs, hcs⟩ : ∃ cs, cs = (c0 :: rest).take n := ⟨_, rfl⟩
    have hcl : cs.length = n := by rw [hcs, List.length_take]; omega
    have hcne : cs ≠ [] := by intro e; rw [e] at hcl; simp at hcl; omega
    rw [← hcs] at hi
    have hk := nearest_lt (central * K.Mo) (cs.map fun c => c.mass * K.Mo) (by simpa using hcne)
    generalize nearest (central * K.Mo) (cs.map fun c => c.mass * K.Mo) = k at hi hk
    rw [List.length_map] at hk
    have hget : cs.getD k c0 = cs[k] := by simp [List.getD, List.getElem?_eq_getElem hk]
    rw [hget] at hi
    have hdk : cs.drop k = cs[k] :: cs.drop (k + 1) := List.drop_eq_getElem_cons hk
    have hlast : cs.getLast hcne = (cs[k] :: cs.drop (k + 1)).getLast (List.cons_ne_nil _ _) := by
      have e : (cs[k] :: cs.drop (k + 1)).getLast? = cs.getLast? := by
        exact (congrArg List.getLast? hdk).symm.trans (by rw [List.getLast?_drop, if_neg (by omega)])
      exact Option.some.inj ((List.getLast?_eq_some_getLast hcne).symm.trans (e.symm.trans (List.getLast?_eq_some_getLast (List.cons_ne_nil _ _))))
    have hcl2 : (c0 :: rest)[n - 1]? = some (cs.getLast hcne) := by
      have e : cs[n - 1]? = (c0 :: rest)[n - 1]? := by
        rw [hcs, List.getElem?_take, if_pos (by omega)]
      rw [← e, ← List.getLast?_eq_some_getLast hcne, List.getLast?_eq_getElem?, hcl]
    refine ⟨cs.getLast hcne, hcl2, ?_⟩
    have hsum : (i.shells.map (·.dm)).sum = (cs.getLast hcne).mass * K.Mo - cs[k].mass * K.Mo := by
      rw [← hi, hlast]
      exact shells_sum K _ _
    have hMi : i.M = cs[k].mass * K.Mo - nu * K.Mo := by rw [← hi]
    have hai : ∃ a, i.a = some a := ⟨_, by rw [← hi]⟩
    obtain ⟨a, hai⟩ := hai
    have hdm : ∀ x ∈ i.shells, 0 ≤ x.dm := by
      rw [← hi]
      dsimp only
      have hp : List.Pairwise (fun a b => a.mass ≤ b.mass) (cs[k] :: cs.drop (k + 1)) := by
        rw [← List.drop_eq_getElem_cons hk, hcs]
        exact hinc.sublist ((List.drop_sublist _ _).trans (List.take_sublist _ _))
      have gen : ∀ (l : List Cell) (p : Cell), List.Pairwise (fun a b => a.mass ≤ b.mass) (p :: l) → ∀ x ∈ shells K p l, 0 ≤ x.dm := by
        intro l
        induction l with
        | nil => intro p _ x hx; simp [shells] at hx
        | cons q l ih =>
          intro p hp x hx
          rw [List.pairwise_cons] at hp
          simp only [shells, List.mem_cons] at hx
          rcases hx with rfl | hx
          · dsimp only
            have := mul_le_mul_of_nonneg_right (hp.1 q (by simp)) hMo.le
            linarith
          · exact ih q hp.2 x hx
      exact gen _ _ hp
    cases hsh : i.shells with
    | nil =>
      rw [hsh] at h hsum
      dsimp only at h
      simp only [Except.ok.injEq] at h
      subst h
      simp only [List.map_nil, List.sum_nil] at hsum
      refine ⟨?_, fun hn => absurd rfl hn⟩
      simp only [Option.getD_none, add_zero]
      rw [hMi, show cs[k].mass * K.Mo = (cs.getLast hcne).mass * K.Mo by linarith, ← sub_mul, mul_div_assoc, div_self hMo.ne', mul_one]
    | cons x l =>
      rw [hsh, hai] at h
      dsimp only at h
      cases hr : run K (start K i.M a i.J (i.he.getD 0)) (x :: l) with
      | error e => rw [hr] at h; simp at h
      | ok s =>
        rw [hr] at h
        simp only [Except.ok.injEq] at h
        subst h
        obtain ⟨b1, -, -, b4⟩ := C89_balance K (x :: l) _ s hr (by rw [← hsh]; exact hdm)
        have hsM : (start K i.M a i.J (i.he.getD 0)).M = i.M ∧ (start K i.M a i.J (i.he.getD 0)).rad = 0 ∧ (start K i.M a i.J (i.he.getD 0)).a ≤ 1 := by
          unfold start
          by_cases h99 : (0.99 : ℝ) < a
          · rw [if_pos h99]
            exact ⟨rfl, rfl, by norm_num⟩
          · rw [if_neg h99]
            rw [not_lt] at h99
            exact ⟨rfl, rfl, h99.trans (by norm_num)⟩
        rw [hsM.1, hsM.2.1, ← hsh, hsum, hMi] at b1
        refine ⟨?_, fun _ a' ha' => ?_⟩
        · simp only [Option.getD_some]
          rw [← add_div, div_eq_iff hMo.ne']
          linarith
        · simp only [Option.some.injEq] at ha'
          rw [← ha']
          exact b4 hsM.2.2

/-- **C89** Violated: the cell in which the mass to collapse is reached collapses as a whole, so that more than this mass ends up in the hole and in
the radiation, if no neutrinos are lost and the mass of the star exceeds it. -/
theorem C89_collapsing_violated (K : Const) (hMo : 0 < K.Mo) (simpson : List ℝ → List ℝ → ℝ) (cells : List Cell) (hne : cells ≠ [])
    (hinc : List.Pairwise (fun a b => a.mass ≤ b.mass) cells) (m central maxNu : ℝ) (r : Res)
    (hm : m < (cells.getLast hne).mass) (h : collapse K simpson (some cells) m central (some 0) maxNu = .ok r) : m < r.mass + r.radiated.getD 0 := by
  obtain ⟨-, -, c, hc, he, -⟩ := C89_total K hMo simpson cells hne hinc m central 0 maxNu r h
  rw [he, sub_zero]
  obtain ⟨n0, nl, h1, -⟩ := iRem_spec cells m hne
  rcases nl.lt_or_eq with hl | hl
  · exact h1 hl c hc
  · rw [hl] at hc
    rw [List.getElem?_eq_getElem (by have := List.length_pos_iff.2 hne; omega), Option.some.injEq] at hc
    rw [← hc, ← List.getLast_eq_getElem hne]
    exact hm

/-- **C89** Violated: without the columns needed the mass is divided by the mass of the sun although it is in solar masses: a black hole of some
2.5 solar masses gets a mass of less than a gram. -/
theorem C89_units_violated (K : Const) (hMo : 1e33 < K.Mo) (simpson : List ℝ → List ℝ → ℝ) (m central nu maxNu : ℝ) (h0 : 0 ≤ nu) (h1 : nu ≤ maxNu)
    (hc : 0 < central - nu) (hc' : central - nu < 1000) : ∃ r, collapse K simpson none m central (some nu) maxNu = .ok r ∧ 0 < r.mass ∧ r.mass < 1e-30 := by
  refine ⟨⟨(central - nu) / K.Mo, none, none, none, none, none⟩, ?_, ?_, ?_⟩
  · unfold collapse initial
    dsimp only
    rw [if_neg (not_lt.2 h0), if_neg (not_lt.2 h1)]
  · exact div_pos hc (by linarith)
  · dsimp only
    rw [div_lt_iff₀ (by linarith)]
    have : (1000 : ℝ) = 1e-30 * 1e33 := by norm_num
    nlinarith

/-- **C89** Violated: with the default for the neutrinos there is always an error. -/
theorem C89_default_violated (K : Const) (simpson : List ℝ → List ℝ → ℝ) (profile : Option (List Cell)) (m central maxNu : ℝ) :
    collapse K simpson profile m central none maxNu = .error .type := rfl

/-- **C89** The shells falling in: one for each cell outside the core, with its own rotation, radius, density and helium, and the mass and thickness between
it and the cell below. -/
theorem C89_shells (K : Const) : ∀ (p : Cell) (l : List Cell), (shells K p l).length = l.length ∧ ∀ (j : ℕ) (s : Shell), (shells K p l)[j]? = some s →
    ∃ c q, (p :: l)[j]? = some c ∧ l[j]? = some q ∧ s.omega = q.omega ∧ s.r = q.radius * K.Ro ∧ Real.logb 10 s.rho = q.logRho ∧ 0 < s.rho ∧
      s.dm = (q.mass - c.mass) * K.Mo ∧ s.dr = (q.radius - c.radius) * K.Ro ∧ s.he3 = q.he3 ∧ s.he4 = q.he4
  | p, [] => by simp [shells]
  | p, q :: l => by
    obtain ⟨hl, ih⟩ := C89_shells K q l
    refine ⟨by simp [shells, hl], fun j s hj => ?_⟩
    cases j with
    | zero =>
      simp only [shells, List.getElem?_cons_zero, Option.some.injEq] at hj
      subst hj
      refine ⟨p, q, rfl, rfl, rfl, rfl, Real.logb_rpow (by norm_num) (by norm_num), Real.rpow_pos_of_pos (by norm_num) _, by dsimp only; ring, by dsimp only; ring, rfl, rfl⟩
    | succ j =>
      simp only [shells, List.getElem?_cons_succ] at hj ⊢
      exact ih j s hj

/-- **C89** A mass of neutrinos which is negative or too large is refused. -/
theorem C89_neutrinos (K : Const) (simpson : List ℝ → List ℝ → ℝ) (profile : Option (List Cell)) (m central nu maxNu : ℝ) (h : nu < 0 ∨ maxNu < nu) :
    collapse K simpson profile m central (some nu) maxNu = .error .value := by
  unfold collapse initial
  dsimp only
  by_cases h1 : nu < 0
  · rw [if_pos h1]
  · rw [if_neg h1, if_pos (h.resolve_left h1)]

/-- **C89** Violated: a spin of exactly one makes the next orbit undefined. -/
theorem C89_maximal_violated (K : Const) (s : St) (x : Shell) (l : List Shell) (h : s.a = 1) : run K s (x :: l) = .error .nan := by
  unfold run step
  rw [if_pos h]

/-- **C89** Spins at the start are lowered to 0.99, with the angular momentum that belongs to it. -/
theorem C89_start (K : Const) (hG : 0 < K.G) (hc : 0 < K.c) (M a J he : ℝ) (hM : 0 < M) :
    (start K M a J he).a = min a 0.99 ∧ (0.99 < a → (start K M a J he).J * K.c / (K.G * M ^ 2) = 0.99) ∧ (a ≤ 0.99 → (start K M a J he).J = J) := by
  unfold start
  by_cases h : (0.99 : ℝ) < a
  · rw [if_pos h]
    refine ⟨(min_eq_right h.le).symm, fun _ => ?_, fun h' => absurd h (not_lt.2 h')⟩
    dsimp only
    field_simp
  · rw [if_neg h]
    exact ⟨(min_eq_left (not_lt.1 h)).symm, fun h' => absurd h' h, fun _ => rfl⟩

/-! ### Ejected elements -/

theorem sumOut_bounds (f : Layer → ℝ) : ∀ (l : List Layer) (p : Layer), List.Pairwise (fun a b => a.mass ≤ b.mass) (p :: l) → (∀ q ∈ l, 0 ≤ f q ∧ f q ≤ 1) →
    0 ≤ sumOut f p l ∧ sumOut f p l ≤ ((p :: l).getLast (by simp)).mass - p.mass
  | [], p, _, _ => by simp [sumOut]
  | q :: l, p, hp, hf => by
    rw [List.pairwise_cons] at hp
    obtain ⟨i1, i2⟩ := sumOut_bounds f l q hp.2 fun x hx => hf x (by simp [hx])
    obtain ⟨f0, f1⟩ := hf q (by simp)
    have hm := hp.1 q (by simp)
    rw [List.getLast_cons (show q :: l ≠ [] by simp)]
    simp only [sumOut]
    constructor
    · have := mul_nonneg (sub_nonneg.2 hm) f0
      linarith
    · have : (q.mass - p.mass) * f q ≤ q.mass - p.mass := by nlinarith
      linarith

theorem sumOut_add (f g : Layer → ℝ) : ∀ (l : List Layer) (p : Layer), sumOut f p l + sumOut g p l = sumOut (fun q => f q + g q) p l
  | [], p => by simp [sumOut]
  | q :: l, p => by
    simp only [sumOut]
    rw [← sumOut_add f g l q]
    ring

/-- **C89** The hydrogen and helium ejected are not negative, and together at most what the star loses. -/
theorem C89_ejecta (verbose : Bool) (ls : List Layer) (hne : ls ≠ []) (hinc : List.Pairwise (fun a b => a.mass ≤ b.mass) ls)
    (hf : ∀ q ∈ ls, 0 ≤ q.x ∧ 0 ≤ q.y ∧ q.x + q.y ≤ 1) (m : ℝ) (hm : m ≤ (ls.getLast hne).mass) (r : ℝ × ℝ) (h : ejecta verbose (some ls) m = .ok r) :
    0 ≤ r.1 ∧ 0 ≤ r.2 ∧ r.1 + r.2 ≤ (ls.getLast hne).mass - m := by
  obtain ⟨l0, rest, rfl⟩ := List.exists_cons_of_ne_nil hne
  unfold ejecta at h
  dsimp only at h
  by_cases h1 : ((l0 :: rest).getLastD l0).mass ≤ m
  · rw [if_pos h1] at h
    simp only [Except.ok.injEq] at h
    subst h
    exact ⟨le_refl _, le_refl _, by simpa using hm⟩
  rw [if_neg h1] at h
  by_cases h2 : (l0 :: rest).findIdx (fun l => decide (m < l.mass)) < (l0 :: rest).length - 1
  · rw [if_pos h2] at h
    simp only [Except.ok.injEq] at h
    subst h
    dsimp only
    obtain ⟨k, hk⟩ : ∃ k, k = (l0 :: rest).findIdx (fun l => decide (m < l.mass)) := ⟨_, rfl⟩
    have hlt : k < (l0 :: rest).length := by omega
    have hmk : m < ((l0 :: rest)[k]).mass := by
      have := List.findIdx_getElem (p := fun l : Layer => decide (m < l.mass)) (xs := l0 :: rest) (w := by omega)
      simp only [← hk] at this
      simpa using this
    rw [← hk]
    have hget : (l0 :: rest).getD k l0 = (l0 :: rest)[k] := by simp [List.getD, List.getElem?_eq_getElem hlt]
    rw [hget]
    have hd : (l0 :: rest).drop k = (l0 :: rest)[k] :: (l0 :: rest).drop (k + 1) := List.drop_eq_getElem_cons hlt
    have hp : List.Pairwise (fun a b => a.mass ≤ b.mass) ((l0 :: rest)[k] :: (l0 :: rest).drop (k + 1)) := by
      rw [← hd]
      exact hinc.sublist (List.drop_sublist _ _)
    have hmem : ∀ q ∈ (l0 :: rest).drop (k + 1), q ∈ l0 :: rest := fun q hq => List.mem_of_mem_drop hq
    have hl : ((l0 :: rest)[k] :: (l0 :: rest).drop (k + 1)).getLast (List.cons_ne_nil _ _) = (l0 :: rest).getLast hne := by
      have e : ((l0 :: rest)[k] :: (l0 :: rest).drop (k + 1)).getLast? = (l0 :: rest).getLast? := by
        exact (congrArg List.getLast? hd).symm.trans (by rw [List.getLast?_drop, if_neg (by omega)])
      exact Option.some.inj ((List.getLast?_eq_some_getLast (List.cons_ne_nil _ _)).symm.trans (e.trans (List.getLast?_eq_some_getLast hne)))
    have b1 := sumOut_bounds Layer.x _ _ hp fun q hq => ⟨(hf q (hmem q hq)).1, by linarith [(hf q (hmem q hq)).2.1, (hf q (hmem q hq)).2.2]⟩
    have b2 := sumOut_bounds Layer.y _ _ hp fun q hq => ⟨(hf q (hmem q hq)).2.1, by linarith [(hf q (hmem q hq)).1, (hf q (hmem q hq)).2.2]⟩
    have b3 := sumOut_bounds (fun q => q.x + q.y) _ _ hp fun q hq => ⟨by linarith [(hf q (hmem q hq)).1, (hf q (hmem q hq)).2.1], (hf q (hmem q hq)).2.2⟩
    rw [← sumOut_add, hl] at b3
    refine ⟨b1.1, b2.1, ?_⟩
    have := b3.2
    linarith
  · rw [if_neg h2] at h
    cases verbose with
    | true => simp at h
    | false =>
      simp only [Bool.false_eq_true, if_false, Except.ok.injEq] at h
      subst h
      exact ⟨le_refl _, le_refl _, by simpa using hm⟩

/-- **C89** Violated: if only the outermost cell is ejected nothing is counted, and printing stops with an error. -/
theorem C89_outermost_violated (l0 l1 : Layer) (m : ℝ) (h0 : l0.mass ≤ m) (h1 : m < l1.mass) :
    ejecta false (some [l0, l1]) m = .ok (0, 0) ∧ ejecta true (some [l0, l1]) m = .error .unbound := by
  have hi : [l0, l1].findIdx (fun l => decide (m < l.mass)) = 1 := by
    simp [List.findIdx_cons, not_lt.2 h0, h1]
  unfold ejecta
  dsimp only
  rw [hi]
  simp [h1]

/-- **C89** Violated: for the helium ejected outside, the fraction of the cell below is used, so that it can be more than the helium there is. -/
theorem C89_helium_violated (K : Const) (hMo : 0 < K.Mo) : ∃ p q : Cell, q.he3 + q.he4 = 0 ∧ 0 < heSN K [p, q] := by
  refine ⟨⟨1, 0, 0, 0, 0, 1⟩, ⟨2, 0, 0, 0, 0, 0⟩, by norm_num, ?_⟩
  simp only [heSN]
  linarith

/-- A concrete shell: it has little angular momentum, so it all falls in. -/
example : parts ⟨1, 1, 1, 1⟩ ⟨0, 1, 0, 1, 0, 1, 0, 0, 0, 0⟩ ⟨0, 1, 1, 2, 1, 0, 0⟩ = (2, 0) := by
  unfold parts
  rw [if_pos]
  simp only [zero_mul]
  exact (C89_j ⟨1, 1, 1, 1⟩ (by norm_num) (by norm_num) 0 1 (le_refl _) (by norm_num) (by norm_num)).2

/-- Black holes which do not rotate have their innermost stable orbit at six gravitational radii. -/
example : isco 0 = 6 := by
  have h := (C89_isco 0 (le_refl _) (by norm_num)).1
  obtain ⟨-, h1, -⟩ := C89_isco 0 (le_refl _) (by norm_num)
  have : isco 0 * (isco 0 - 6) = 0 := by linarith
  rcases mul_eq_zero.1 this with h | h <;> linarith

end Verif.Collapse
