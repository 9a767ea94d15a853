import Verif.Fits

/-!
Property theorems for C142: radii and lifetimes from fitting formulae.
-/
namespace Verif.Fits

/-- Bernstein: a quartic is positive between `a` and `b` if its five coefficients there are. -/
theorem poly_pos (c0 c1 c2 c3 c4 a b l : ℝ) (hab : a < b) (h1 : a ≤ l) (h2 : l ≤ b)
    (b0 : 0 < poly c0 c1 c2 c3 c4 a)
    (b1 : 0 < c0 + c1 * (3 * a + b) / 4 + c2 * (3 * a ^ 2 + 3 * a * b) / 6 + c3 * (a ^ 3 + 3 * a ^ 2 * b) / 4 + c4 * (a ^ 3 * b))
    (b2 : 0 < c0 + c1 * (2 * a + 2 * b) / 4 + c2 * (a ^ 2 + 4 * a * b + b ^ 2) / 6 + c3 * (2 * a ^ 2 * b + 2 * a * b ^ 2) / 4 + c4 * (a ^ 2 * b ^ 2))
    (b3 : 0 < c0 + c1 * (3 * b + a) / 4 + c2 * (3 * b ^ 2 + 3 * a * b) / 6 + c3 * (b ^ 3 + 3 * b ^ 2 * a) / 4 + c4 * (b ^ 3 * a))
    (b4 : 0 < poly c0 c1 c2 c3 c4 b) : 0 < poly c0 c1 c2 c3 c4 l := by
  have id : poly c0 c1 c2 c3 c4 l * (b - a) ^ 4 = poly c0 c1 c2 c3 c4 a * (b - l) ^ 4
      + 4 * (c0 + c1 * (3 * a + b) / 4 + c2 * (3 * a ^ 2 + 3 * a * b) / 6 + c3 * (a ^ 3 + 3 * a ^ 2 * b) / 4 + c4 * (a ^ 3 * b)) * ((l - a) * (b - l) ^ 3)
      + 6 * (c0 + c1 * (2 * a + 2 * b) / 4 + c2 * (a ^ 2 + 4 * a * b + b ^ 2) / 6 + c3 * (2 * a ^ 2 * b + 2 * a * b ^ 2) / 4 + c4 * (a ^ 2 * b ^ 2)) * ((l - a) ^ 2 * (b - l) ^ 2)
      + 4 * (c0 + c1 * (3 * b + a) / 4 + c2 * (3 * b ^ 2 + 3 * a * b) / 6 + c3 * (b ^ 3 + 3 * b ^ 2 * a) / 4 + c4 * (b ^ 3 * a)) * ((l - a) ^ 3 * (b - l))
      + poly c0 c1 c2 c3 c4 b * (l - a) ^ 4 := by
    unfold poly; ring
  have u : 0 ≤ l - a := by linarith
  have v : 0 ≤ b - l := by linarith
  have w : 0 < (b - a) ^ 4 := by have : 0 < b - a := by linarith
                                 positivity
  by_contra hn
  have hle : poly c0 c1 c2 c3 c4 l * (b - a) ^ 4 ≤ 0 := mul_nonpos_of_nonpos_of_nonneg (not_lt.1 hn) w.le
  have t1 : 0 ≤ (l - a) * (b - l) ^ 3 := by positivity
  have t2 : 0 ≤ (l - a) ^ 2 * (b - l) ^ 2 := by positivity
  have t3 : 0 ≤ (l - a) ^ 3 * (b - l) := by positivity
  have s1 := mul_nonneg b1.le t1
  have s2 := mul_nonneg b2.le t2
  have s3 := mul_nonneg b3.le t3
  have s0 := mul_nonneg b0.le (pow_nonneg v 4)
  have s4 := mul_nonneg b4.le (pow_nonneg u 4)
  rcases lt_or_eq_of_le u with hu | hu
  · have := mul_pos b4 (pow_pos hu 4)
    linarith
  · have := mul_pos b0 (pow_pos (show 0 < b - l by linarith) 4)
    linarith

local macro "quart" a:term "," b:term : tactic =>
  `(tactic| exact poly_pos _ _ _ _ _ $a $b _ (by norm_num) (by assumption) (by assumption) (by norm_num [poly]) (by norm_num) (by norm_num) (by norm_num) (by norm_num [poly]))

theorem coefficients_pos (l : ℝ) (h1 : -2.5 ≤ l) (h2 : l ≤ 0.31) :
    0 < msp8 l ∧ 0 < msp9 l ∧ 0 < msp10 l ∧ 0 < msp11 l ∧ 0 < msp12 l ∧ 0 < msp14 l ∧ 0 < msp15 l ∧ 0 < msp16 l := by
  have e11 : 0 < msp11 l := by unfold msp11; quart (-2.5), 0.31
  have e12 : 0 < msp12 l := by unfold msp12; quart (-2.5), 0.31
  have two : 0 < msp8 l ∧ 0 < msp9 l ∧ 0 < msp10 l ∧ 0 < msp14 l ∧ 0 < msp15 l := by
    unfold msp8 msp9 msp10 msp14 msp15
    rcases le_total l (-1.1) with h | h
    · refine ⟨?_, ?_, ?_, ?_, ?_⟩ <;> quart (-2.5), (-1.1)
    · refine ⟨?_, ?_, ?_, ?_, ?_⟩ <;> quart (-1.1), 0.31
  have e16 : 0 < msp16 l := by
    unfold msp16
    rcases le_total l (-1.1) with h | h
    · quart (-2.5), (-1.1)
    · rcases le_total l (-0.4) with h' | h'
      · quart (-1.1), (-0.4)
      · rcases le_total l (-0.05) with h'' | h''
        · quart (-0.4), (-0.05)
        · rcases le_total l 0.13 with h3 | h3
          · quart (-0.05), 0.13
          · quart 0.13, 0.31
  exact ⟨two.1, two.2.1, two.2.2.1, e11, e12, two.2.2.2.1, two.2.2.2.2, e16⟩

theorem log_range (y : ℝ) (h1 : 0.0032 ≤ y) (h2 : y ≤ 2) : -2.5 ≤ Real.logb 10 y ∧ Real.logb 10 y ≤ 0.31 := by
  have hy : 0 < y := by linarith
  constructor
  · have : Real.logb 10 (10 ^ (-5 : ℤ)) ≤ Real.logb 10 (y ^ 2) := Real.logb_le_logb_of_le (by norm_num) (by norm_num) (by norm_num; nlinarith)
    rw [Real.logb_pow, ← Real.rpow_intCast, Real.logb_rpow (by norm_num) (by norm_num)] at this
    norm_num at this ⊢
    linarith
  · have : Real.logb 10 (y ^ 100) ≤ Real.logb 10 (10 ^ 31) :=
      Real.logb_le_logb_of_le (by norm_num) (by positivity) ((pow_le_pow_left₀ hy.le h2 100).trans (by norm_num))
    rw [Real.logb_pow, Real.logb_pow, Real.logb_self_eq_one (by norm_num)] at this
    norm_num at this ⊢
    linarith

/-- C142.  For metallicities from 0.0032 to twice the solar one every star of positive mass has a positive radius. -/
theorem C142_radius_partial (m z zsun : ℝ) (hm : 0 < m) (h1 : 0.0032 ≤ z / zsun) (h2 : z / zsun ≤ 2) : ∃ r, rzams m z zsun = some r ∧ 0 < r := by
  obtain ⟨l1, l2⟩ := log_range _ h1 h2
  obtain ⟨c8, c9, c10, c11, c12, c14, c15, c16⟩ := coefficients_pos _ l1 l2
  have hx : 0 < Real.sqrt m := Real.sqrt_pos.2 hm
  unfold rzams
  rw [if_neg (by rintro (h | h) <;> linarith)]
  dsimp only
  have hd : 0 < den (Real.logb 10 (z / zsun)) m (Real.sqrt m) := by unfold den msp13; positivity
  have hn : 0 < num (Real.logb 10 (z / zsun)) m (Real.sqrt m) := by unfold num; positivity
  rw [if_neg hd.ne']
  exact ⟨_, rfl, div_pos hn hd⟩

/-- The radius of six of the eight metallicities of the grids: 2, 1, 0.45, 0.2, 0.1 and 0.01 solar. -/
theorem C142_grids (m zsun : ℝ) (hm : 0 < m) (hz : 0 < zsun) (f : ℝ) (hf : f ∈ [(2 : ℝ), 1, 0.45, 0.2, 0.1, 0.01]) :
    ∃ r, rzams m (f * zsun) zsun = some r ∧ 0 < r := by
  have e : f * zsun / zsun = f := by rw [mul_div_assoc, div_self hz.ne', mul_one]
  refine C142_radius_partial m _ zsun hm ?_ ?_ <;> rw [e] <;>
    (simp only [List.mem_cons, List.not_mem_nil, or_false] at hf; rcases hf with rfl | rfl | rfl | rfl | rfl | rfl <;> norm_num)

theorem logb_low (zsun : ℝ) (hz : 0 < zsun) (k : ℕ) : Real.logb 10 (zsun / 10 ^ k / zsun) = -(k : ℝ) := by
  have : zsun / 10 ^ k / zsun = (10 ^ k)⁻¹ := by
    have h10 : (10 : ℝ) ^ k ≠ 0 := by positivity
    field_simp
  rw [this, Real.logb_inv, Real.logb_pow, Real.logb_self_eq_one (by norm_num), mul_one]

theorem sqrt_sq' (a : ℝ) (h : 0 ≤ a) (b : ℝ) (e : b = a * a) : Real.sqrt b = a := by rw [e]; exact Real.sqrt_mul_self h

/-- C142 fails for the two lowest metallicities of the grids: at a thousandth of the solar one a star of 400 solar masses, and at a
ten-thousandth one of 16 solar masses, has a negative radius. -/
theorem C142_low_metallicity_violated (zsun : ℝ) (hz : 0 < zsun) :
    (∃ r, rzams 400 (zsun / 10 ^ 3) zsun = some r ∧ r < 0) ∧ (∃ r, rzams 16 (zsun / 10 ^ 4) zsun = some r ∧ r < 0) := by
  have key : ∀ (m x : ℝ) (k : ℕ), 0 < m → 0 ≤ x → m = x * x → num (-(k : ℝ)) m x < 0 → 0 < den (-(k : ℝ)) m x → ∃ r, rzams m (zsun / 10 ^ k) zsun = some r ∧ r < 0 := by
    intro m x k hm hx e hn hd
    unfold rzams
    have hp : 0 < zsun / 10 ^ k / zsun := by positivity
    rw [if_neg (by rintro (h | h) <;> linarith)]
    dsimp only
    rw [logb_low zsun hz, sqrt_sq' x hx m e, if_neg hd.ne']
    exact ⟨_, rfl, div_neg_of_neg_of_pos hn hd⟩
  have key' : ∀ (m x : ℝ) (k : ℕ), 0 < m → 0 ≤ x → m = x * x → 0 < num (-(k : ℝ)) m x → den (-(k : ℝ)) m x < 0 → ∃ r, rzams m (zsun / 10 ^ k) zsun = some r ∧ r < 0 := by
    intro m x k hm hx e hn hd
    unfold rzams
    have hp : 0 < zsun / 10 ^ k / zsun := by positivity
    rw [if_neg (by rintro (h | h) <;> linarith)]
    dsimp only
    rw [logb_low zsun hz, sqrt_sq' x hx m e, if_neg hd.ne]
    exact ⟨_, rfl, div_neg_of_pos_of_neg hn hd⟩
  refine ⟨?_, ?_⟩
  · exact key' 400 20 3 (by norm_num) (by norm_num) (by norm_num) (by norm_num [num, msp8, msp9, msp10, msp11, msp12, poly]) (by norm_num [den, msp13, msp14, msp15, msp16, poly])
  · exact key 16 4 4 (by norm_num) (by norm_num) (by norm_num) (by norm_num [num, msp8, msp9, msp10, msp11, msp12, poly]) (by norm_num [den, msp13, msp14, msp15, msp16, poly])

/-- At these metallicities a heavier star may be smaller: 2.25 and 1.44 solar masses. -/
theorem C142_order_violated (zsun : ℝ) (hz : 0 < zsun) :
    ∃ r s, rzams 1.44 (zsun / 10 ^ 3) zsun = some r ∧ rzams 2.25 (zsun / 10 ^ 3) zsun = some s ∧ s < r / 3 := by
  have key : ∀ (m x : ℝ) (k : ℕ), 0 < m → 0 ≤ x → m = x * x → den (-(k : ℝ)) m x ≠ 0 → rzams m (zsun / 10 ^ k) zsun = some (num (-(k : ℝ)) m x / den (-(k : ℝ)) m x) := by
    intro m x k hm hx e hd
    unfold rzams
    have hp : 0 < zsun / 10 ^ k / zsun := by positivity
    rw [if_neg (by rintro (h | h) <;> linarith)]
    dsimp only
    rw [logb_low zsun hz, sqrt_sq' x hx m e, if_neg hd]
  refine ⟨_, _, key 1.44 1.2 3 (by norm_num) (by norm_num) (by norm_num) ?_, key 2.25 1.5 3 (by norm_num) (by norm_num) (by norm_num) ?_, ?_⟩
  · norm_num [den, msp13, msp14, msp15, msp16, poly]
  · norm_num [den, msp13, msp14, msp15, msp16, poly]
  · norm_num [num, msp8, msp9, msp10, msp11, msp12, den, msp13, msp14, msp15, msp16, poly]

/-- No radius without a positive metallicity or for a negative mass; a star without mass has no radius. -/
theorem C142_refused (m z zsun : ℝ) : (z / zsun ≤ 0 → rzams m z zsun = none) ∧ (m < 0 → rzams m z zsun = none) ∧ (0 < z / zsun → rzams 0 z zsun = some 0) := by
  refine ⟨fun h => if_pos (.inl h), fun h => if_pos (.inr h), fun h => ?_⟩
  unfold rzams
  rw [if_neg (by rintro (h | h) <;> linarith)]
  have hd : den (Real.logb 10 (z / zsun)) 0 (Real.sqrt 0) = msp13 := by
    rw [Real.sqrt_zero]; unfold den; norm_num
  have hn : num (Real.logb 10 (z / zsun)) 0 (Real.sqrt 0) = 0 := by
    rw [Real.sqrt_zero]; unfold num; norm_num
  dsimp only
  rw [hd, hn, if_neg (by norm_num [msp13])]
  norm_num

/-- The radius depends on the two metallicities by their ratio only. -/
theorem C142_ratio (m z zsun c : ℝ) (hc : c ≠ 0) : rzams m (c * z) (c * zsun) = rzams m z zsun := by
  unfold rzams
  rw [mul_div_mul_left z zsun hc]

/-! ### lifetimes -/

theorem log2 : 205 / 681 ≤ Real.logb 10 2 := by
  have hp : (10 : ℝ) ^ 205 ≤ 2 ^ 681 := by
    have : (10 : ℕ) ^ 205 ≤ 2 ^ 681 := by decide +kernel
    exact_mod_cast this
  have := Real.logb_le_logb_of_le (b := 10) (by norm_num) (by positivity) hp
  rw [Real.logb_pow, Real.logb_pow, Real.logb_self_eq_one (by norm_num)] at this
  norm_num at this ⊢
  linarith

theorem log3 : 52 / 109 < Real.logb 10 3 := by
  have : Real.logb 10 (10 ^ 52) < Real.logb 10 (3 ^ 109) := Real.logb_lt_logb (by norm_num) (by positivity) (by norm_num)
  rw [Real.logb_pow, Real.logb_pow, Real.logb_self_eq_one (by norm_num)] at this
  norm_num at this ⊢
  linarith

theorem logb_ge (m : ℝ) (h : 10 ≤ m) : 1 ≤ Real.logb 10 m := by
  have := Real.logb_le_logb_of_le (b := 10) (by norm_num) (by norm_num) h
  rwa [Real.logb_self_eq_one (by norm_num)] at this

theorem logb_lt (m : ℝ) (h0 : 0 < m) (h : m < 100) : Real.logb 10 m < 2 := by
  have := Real.logb_lt_logb (b := 10) (by norm_num) h0 h
  rwa [show (100 : ℝ) = 10 ^ 2 by norm_num, Real.logb_pow, Real.logb_self_eq_one (by norm_num), mul_one] at this

/-- The exponent of ten of the lifetime. -/
noncomputable def expo (m : ℝ) : ℝ :=
  open Classical in if m < 2 then 8 else if m < 10 then -2.6094 * Real.logb 10 m + 8.7855 else if m < 100 then -0.69897 * Real.logb 10 m + 6.875 else 5 + Real.logb 10 3

theorem heLife_eq (m : ℝ) (h : 0 < m) : heLife m = some ((10 : ℝ) ^ expo m) := by
  unfold heLife expo
  rw [if_neg (not_le.2 h)]
  by_cases h1 : m < 2
  · rw [if_pos h1, if_pos h1]; norm_num [← Real.rpow_natCast]
  rw [if_neg h1, if_neg h1]
  by_cases h2 : m < 10
  · rw [if_pos h2, if_pos h2]
  rw [if_neg h2, if_neg h2]
  by_cases h3 : m < 100
  · rw [if_pos h3, if_pos h3]
  rw [if_neg h3, if_neg h3, Real.rpow_add (by norm_num), Real.rpow_logb (by norm_num) (by norm_num) (by norm_num)]
  norm_num

/-- C142.  A lifetime is refused exactly without mass. -/
theorem C142_life_refused (m : ℝ) : heLife m = none ↔ m ≤ 0 := by
  constructor
  · intro h
    by_contra hn
    rw [heLife_eq m (not_le.1 hn)] at h
    cases h
  · exact fun h => if_pos h

theorem expo_antitone (m n : ℝ) (h0 : 0 < m) (h : m ≤ n) (hn : n < 100) : expo n ≤ expo m := by
  have hl : Real.logb 10 m ≤ Real.logb 10 n := Real.logb_le_logb_of_le (by norm_num) h0 h
  have two : ∀ q, ¬q < 2 → 205 / 681 ≤ Real.logb 10 q := fun q hq =>
    log2.trans (Real.logb_le_logb_of_le (by norm_num) (by norm_num) (not_lt.1 hq))
  have ten : ∀ q, 0 < q → q < 10 → Real.logb 10 q ≤ 1 := by
    intro q hq h
    have := Real.logb_le_logb_of_le (b := 10) (by norm_num) hq h.le
    rwa [Real.logb_self_eq_one (by norm_num)] at this
  unfold expo
  by_cases m1 : m < 2
  · rw [if_pos m1]
    by_cases n1 : n < 2
    · rw [if_pos n1]
    rw [if_neg n1]
    by_cases n2 : n < 10
    · rw [if_pos n2]; have := two n n1; norm_num at this ⊢; linarith
    · rw [if_neg n2, if_pos hn]; have := logb_ge n (not_lt.1 n2); norm_num at this ⊢; linarith
  have n1 : ¬n < 2 := fun h' => m1 (h.trans_lt h')
  rw [if_neg m1, if_neg n1]
  by_cases m2 : m < 10
  · rw [if_pos m2]
    by_cases n2 : n < 10
    · rw [if_pos n2]; linarith
    · rw [if_neg n2, if_pos hn]; have := logb_ge n (not_lt.1 n2); have := ten m h0 m2; norm_num at *; linarith
  · have n2 : ¬n < 10 := fun h' => m2 (h.trans_lt h')
    rw [if_neg m2, if_neg n2, if_pos (h.trans_lt hn), if_pos hn]; linarith

/-- C142.  Below a hundred solar masses a heavier star does not live longer. -/
theorem C142_life_partial (m n : ℝ) (h0 : 0 < m) (h : m ≤ n) (hn : n < 100) : ∃ s t, heLife m = some s ∧ heLife n = some t ∧ t ≤ s :=
  ⟨_, _, heLife_eq m h0, heLife_eq n (h0.trans_le h), Real.rpow_le_rpow_of_exponent_le (by norm_num) (expo_antitone m n h0 h hn)⟩

/-- C142 fails at a hundred solar masses: a star just below lives shorter than all heavier ones. -/
theorem C142_life_violated (n : ℝ) (hn : 100 ≤ n) : ∃ m, m < n ∧ ∃ s t, heLife m = some s ∧ heLife n = some t ∧ s < t := by
  have key : ∃ m : ℝ, 10 ≤ m ∧ m < 100 ∧ 1.999999 ≤ Real.logb 10 m := by
    refine ⟨10 ^ (1.999999 : ℝ), ?_, ?_, ?_⟩
    · calc (10 : ℝ) = 10 ^ (1 : ℝ) := (Real.rpow_one 10).symm
        _ ≤ _ := Real.rpow_le_rpow_of_exponent_le (by norm_num) (by norm_num)
    · calc (10 : ℝ) ^ (1.999999 : ℝ) < 10 ^ (2 : ℝ) := Real.rpow_lt_rpow_of_exponent_lt (by norm_num) (by norm_num)
        _ = 100 := by norm_num
    · rw [Real.logb_rpow (by norm_num) (by norm_num)]
  obtain ⟨m, m1, m2, m3⟩ := key
  refine ⟨m, by linarith, _, _, heLife_eq m (by linarith), heLife_eq n (by linarith), ?_⟩
  refine Real.rpow_lt_rpow_of_exponent_lt (by norm_num) ?_
  unfold expo
  rw [if_neg (by linarith), if_neg (by linarith), if_pos m2, if_neg (by linarith), if_neg (by linarith), if_neg (by linarith)]
  have := log3
  norm_num at *
  linarith

/-- C142.  All lifetimes are between 0.29 and a hundred million years. -/
theorem C142_life_range (m : ℝ) (h : 0 < m) : ∃ t, heLife m = some t ∧ 290000 ≤ t ∧ t ≤ 10 ^ 8 := by
  have e8 : (10 : ℝ) ^ (8 : ℝ) = 10 ^ 8 := by norm_num
  have le : expo m ≤ 8 := by
    by_cases hm : m < 100
    · have := expo_antitone (min m 1) m (lt_min h (by norm_num)) (min_le_left _ _) hm
      have e : expo (min m 1) = 8 := if_pos ((min_le_right m 1).trans_lt (by norm_num))
      linarith
    · unfold expo
      rw [if_neg (by linarith), if_neg (by linarith), if_neg hm]
      have : Real.logb 10 3 ≤ Real.logb 10 10 := Real.logb_le_logb_of_le (by norm_num) (by norm_num) (by norm_num)
      rw [Real.logb_self_eq_one (by norm_num)] at this
      linarith
  have ge : 5.4715 ≤ expo m := by
    unfold expo
    by_cases h1 : m < 2
    · rw [if_pos h1]; norm_num
    rw [if_neg h1]
    by_cases h2 : m < 10
    · rw [if_pos h2]
      have := Real.logb_le_logb_of_le (b := 10) (by norm_num) h h2.le
      rw [Real.logb_self_eq_one (by norm_num)] at this
      norm_num at *; linarith
    rw [if_neg h2]
    by_cases h3 : m < 100
    · rw [if_pos h3]
      have := logb_lt m h h3
      norm_num at *; linarith
    · rw [if_neg h3]; have := log3; norm_num at *; linarith
  refine ⟨_, heLife_eq m h, ?_, ?_⟩
  · have : (290000 : ℝ) ≤ 10 ^ (5.4715 : ℝ) := by
      have h29 : Real.logb 10 290000 ≤ 5.4715 := by
        rw [show (290000 : ℝ) = 29 * 10 ^ 4 by norm_num, Real.logb_mul (by norm_num) (by norm_num), Real.logb_pow, Real.logb_self_eq_one (by norm_num)]
        have : Real.logb 10 (29 ^ 100) ≤ Real.logb 10 (10 ^ 147) := Real.logb_le_logb_of_le (by norm_num) (by positivity) (by norm_num)
        rw [Real.logb_pow, Real.logb_pow, Real.logb_self_eq_one (by norm_num)] at this
        norm_num at *; linarith
      calc (290000 : ℝ) = 10 ^ Real.logb 10 290000 := (Real.rpow_logb (by norm_num) (by norm_num) (by norm_num)).symm
        _ ≤ _ := Real.rpow_le_rpow_of_exponent_le (by norm_num) h29
    exact this.trans (Real.rpow_le_rpow_of_exponent_le (by norm_num) ge)
  · rw [← e8]
    exact Real.rpow_le_rpow_of_exponent_le (by norm_num) le

/-- Non-vacuity: the Sun's radius at its birth. -/
example : ∃ r, rzams 1 0.02 0.02 = some r ∧ 0 < r := C142_radius_partial 1 _ _ (by norm_num) (by norm_num) (by norm_num)

/-- C142: at solar metallicity the radius is the published fraction of powers of the mass. -/
theorem C142_solar (m zsun : ℝ) (hm : 0 < m) (hz : zsun ≠ 0) :
    rzams m zsun zsun = some
      ((1.715359 * m ^ (5 / 2 : ℝ) + 6.597788 * m ^ (13 / 2 : ℝ) + 10.08855 * m ^ (11 : ℝ) + 1.012495 * m ^ (19 : ℝ) + 0.07490166 * m ^ (39 / 2 : ℝ)) /
       (0.01077422 + 3.082234 * m ^ (2 : ℝ) + 17.84778 * m ^ (17 / 2 : ℝ) + m ^ (37 / 2 : ℝ) + 0.00022582 * m ^ (39 / 2 : ℝ))) := by
  have half : ∀ k : ℕ, m ^ ((2 * k + 1 : ℝ) / 2) = m ^ k * Real.sqrt m := by
    intro k
    rw [Real.sqrt_eq_rpow, ← Real.rpow_natCast, ← Real.rpow_add hm]
    congr 1; ring
  have whole : ∀ k : ℕ, m ^ (k : ℝ) = m ^ k := fun k => Real.rpow_natCast m k
  have p5 := half 2; have p13 := half 6; have p39 := half 19; have p17 := half 8; have p37 := half 18
  have p11 := whole 11; have p19 := whole 19; have p2 := whole 2
  norm_num at p5 p13 p39 p17 p37 p11 p19 p2
  have hs : 0 < Real.sqrt m := Real.sqrt_pos.2 hm
  unfold rzams
  rw [div_self hz, if_neg (by rintro (h | h) <;> linarith)]
  dsimp only
  rw [Real.logb_one]
  have hd : den 0 m (Real.sqrt m) = 0.01077422 + 3.082234 * m ^ (2 : ℝ) + 17.84778 * m ^ (17 / 2 : ℝ) + m ^ (37 / 2 : ℝ) + 0.00022582 * m ^ (39 / 2 : ℝ) := by
    rw [p17, p37, p39]
    norm_num [den, msp13, msp14, msp15, msp16, poly]
    ring
  have hn : num 0 m (Real.sqrt m) = 1.715359 * m ^ (5 / 2 : ℝ) + 6.597788 * m ^ (13 / 2 : ℝ) + 10.08855 * m ^ (11 : ℝ) + 1.012495 * m ^ (19 : ℝ) + 0.07490166 * m ^ (39 / 2 : ℝ) := by
    rw [p5, p13, p39]
    norm_num [num, msp8, msp9, msp10, msp11, msp12, poly]
    ring
  rw [hd, hn, if_neg]
  positivity

example (zsun : ℝ) (hz : zsun ≠ 0) : ∃ r, rzams 1 zsun zsun = some r ∧ 0.88 < r ∧ r < 0.89 := by
  refine ⟨_, C142_solar 1 zsun (by norm_num) hz, ?_⟩
  norm_num

end Verif.Fits
