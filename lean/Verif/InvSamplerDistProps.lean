import Verif.InvSamplerProps
/-! Further theorems of C56: the samples of `inverse_sampler` have the distribution of the table. -/
namespace Verif.InvSampler

theorem areaTo_first (p0 : ℝ × ℝ) (r : List (ℝ × ℝ)) (hv : valid (p0 :: r)) : areaTo (p0 :: r) p0.1 = 0 := by
  cases r with
  | nil => rfl
  | cons p1 r => simp only [areaTo]; rw [if_pos hv.1.le]; simp

theorem areaTo_mono : ∀ (r : List (ℝ × ℝ)) (p0 : ℝ × ℝ), valid (p0 :: r) → ∀ a b, p0.1 ≤ a → a ≤ b → areaTo (p0 :: r) a ≤ areaTo (p0 :: r) b
  | [], _, _, _, _, _, _ => le_rfl
  | p1 :: r, p0, hv, a, b, h0, hab => by
    obtain ⟨hx, hy, hr⟩ := hv
    have hy1 : 0 ≤ p1.2 := by
      cases r with
      | nil => exact hr
      | cons => exact hr.2.1
    have hw : 0 < p1.1 - p0.1 := by linarith
    have key : ∀ a b, p0.1 ≤ a → a ≤ b → b ≤ p1.1 →
        (a - p0.1) * (p0.2 + (p0.2 + (p1.2 - p0.2) * ((a - p0.1) / (p1.1 - p0.1)))) / 2 ≤
        (b - p0.1) * (p0.2 + (p0.2 + (p1.2 - p0.2) * ((b - p0.1) / (p1.1 - p0.1)))) / 2 := by
      intro a b h0 hab hb
      obtain ⟨x, hx⟩ : ∃ x, x = (a - p0.1) / (p1.1 - p0.1) := ⟨_, rfl⟩
      obtain ⟨y, hy'⟩ : ∃ y, y = (b - p0.1) / (p1.1 - p0.1) := ⟨_, rfl⟩
      have ea : a - p0.1 = (p1.1 - p0.1) * x := by rw [hx]; field_simp
      have eb : b - p0.1 = (p1.1 - p0.1) * y := by rw [hy']; field_simp
      rw [← hx, ← hy', ea, eb]
      have hx0 : 0 ≤ x := by rw [hx]; exact div_nonneg (by linarith) hw.le
      have hy1' : y ≤ 1 := by rw [hy', div_le_one hw]; linarith
      have hxy : x ≤ y := by rw [hx, hy']; exact div_le_div_of_nonneg_right (by linarith) hw.le
      have hs : 0 ≤ p0.2 * (2 - x - y) + p1.2 * (x + y) := add_nonneg (mul_nonneg hy (by linarith)) (mul_nonneg hy1 (by linarith))
      have := mul_nonneg (mul_nonneg hw.le (sub_nonneg.2 hxy)) hs
      nlinarith [this]
    simp only [areaTo]
    by_cases ha : a ≤ p1.1
    · rw [if_pos ha]
      by_cases hb : b ≤ p1.1
      · rw [if_pos hb]; exact key a b h0 hab hb
      · rw [if_neg hb]
        have h1 := key a p1.1 h0 ha le_rfl
        rw [div_self hw.ne'] at h1
        have h2 := areaTo_mono r p1 hr p1.1 b le_rfl (le_of_lt (not_le.1 hb))
        rw [areaTo_first p1 r hr] at h2
        have e : (p1.1 - p0.1) * (p0.2 + (p0.2 + (p1.2 - p0.2) * 1)) / 2 = (p1.1 - p0.1) * (p0.2 + p1.2) / 2 := by ring
        rw [e] at h1
        linarith
    · have hb : ¬ b ≤ p1.1 := fun h => ha (hab.trans h)
      rw [if_neg ha, if_neg hb]
      have := areaTo_mono r p1 hr a b (le_of_lt (not_le.1 ha)) hab
      linarith

theorem first_le : ∀ (r : List (ℝ × ℝ)) (p0 : ℝ × ℝ), valid (p0 :: r) → ∀ (i : ℕ) (p : ℝ × ℝ), (p0 :: r)[i]? = some p → p0.1 ≤ p.1
  | r, p0, _, 0, p, h => by simp only [List.getElem?_cons_zero, Option.some.injEq] at h; rw [h]
  | [], _, _, i + 1, _, h => by simp at h
  | p1 :: r, p0, hv, i + 1, p, h => by
    rw [List.getElem?_cons_succ] at h
    exact hv.1.le.trans (first_le r p1 hv.2.2 i p h)

/-- A table without flat bins. -/
def noFlat (pts : List (ℝ × ℝ)) : Prop := ∀ (i : ℕ) (p q : ℝ × ℝ), pts[i]? = some p → pts[i + 1]? = some q → p.2 ≠ q.2

/-- C56: the distribution.  A sample is at most `x` if the draw is less than the part of the area below `x`, and it is not if the draw is larger. -/
theorem C56_distribution_partial (p0 : ℝ × ℝ) (r : List (ℝ × ℝ)) (u v x s : ℝ) (hv : valid (p0 :: r)) (hr : r ≠ []) (hf : noFlat (p0 :: r)) (hu0 : 0 ≤ u) (hu1 : u ≤ 1)
    (hv0 : 0 ≤ v) (hv1 : v ≤ 1) (hx : p0.1 ≤ x) (hs : inverseSampler (p0 :: r) u v = .ok s) :
    (u * total (p0 :: r) < areaTo (p0 :: r) x → s ≤ x) ∧ (areaTo (p0 :: r) x < u * total (p0 :: r) → x < s) := by
  have hl : 2 ≤ (p0 :: r).length := by
    cases r with
    | nil => exact absurd rfl hr
    | cons q r => simp
  obtain ⟨s', i, a, b, e, ha, hb, h1, h2, h3⟩ := C56_inverse (p0 :: r) u v hv hl hu0 hu1 hv0 hv1
  rw [hs] at e
  injection e with e
  subst e
  have harea := h3 (hf i a b ha hb)
  have hps : p0.1 ≤ s := (first_le r p0 hv i a ha).trans h1
  constructor
  · intro h
    by_contra hc
    have := areaTo_mono r p0 hv x s hx (le_of_lt (not_le.1 hc))
    linarith
  · intro h
    by_contra hc
    have := areaTo_mono r p0 hv s x hps (not_lt.1 hc)
    linarith

/-- C56: a larger draw gives a larger sample (for a table with some area). -/
theorem C56_increasing (p0 : ℝ × ℝ) (r : List (ℝ × ℝ)) (u u' v v' s s' : ℝ) (hv : valid (p0 :: r)) (hr : r ≠ []) (hf : noFlat (p0 :: r)) (ht : 0 < total (p0 :: r))
    (hu0 : 0 ≤ u) (huu : u < u') (hu1 : u' ≤ 1) (hv0 : 0 ≤ v) (hv1 : v ≤ 1) (hv0' : 0 ≤ v') (hv1' : v' ≤ 1)
    (hs : inverseSampler (p0 :: r) u v = .ok s) (hs' : inverseSampler (p0 :: r) u' v' = .ok s') : s < s' := by
  have hl : 2 ≤ (p0 :: r).length := by
    cases r with
    | nil => exact absurd rfl hr
    | cons q r => simp
  obtain ⟨t, i, a, b, e, ha, hb, h1, h2, h3⟩ := C56_inverse (p0 :: r) u v hv hl hu0 (huu.le.trans hu1) hv0 hv1
  rw [hs] at e
  injection e with e
  subst e
  have hps : p0.1 ≤ s := (first_le r p0 hv i a ha).trans h1
  refine (C56_distribution_partial p0 r u' v' s s' hv hr hf (hu0.trans huu.le) hu1 hv0' hv1' hps hs').2 ?_
  rw [h3 (hf i a b ha hb)]
  exact mul_lt_mul_of_pos_right huu ht

/-- A rising and a falling side. -/
def triangle : List (ℝ × ℝ) := [(0, 0), (1, 2), (3, 0)]

example : valid triangle ∧ noFlat triangle ∧ total triangle = 3 ∧ areaTo triangle 1 = 1 := by
  refine ⟨by norm_num [triangle, valid], ?_, by norm_num [triangle, total], by norm_num [triangle, areaTo]⟩
  intro i p q h1 h2
  match i with
  | 0 => simp [triangle] at h1 h2; rw [← h1, ← h2]; norm_num
  | 1 => simp [triangle] at h1 h2; rw [← h1, ← h2]; norm_num
  | i + 2 => simp [triangle] at h2

/-- C56: in flat bins the second draw decides within the bin, so the order of the first draws is not kept there. -/
theorem C56_flat_bins : ∃ (pts : List (ℝ × ℝ)) (u u' v v' s s' : ℝ), valid pts ∧ 0 ≤ u ∧ u < u' ∧ u' ≤ 1 ∧ 0 ≤ v ∧ v ≤ 1 ∧ 0 ≤ v' ∧ v' ≤ 1 ∧
    inverseSampler pts u v = .ok s ∧ inverseSampler pts u' v' = .ok s' ∧ s' < s := by
  refine ⟨[(0, 1), (1, 1)], 1 / 4, 3 / 4, 3 / 4, 1 / 4, 3 / 4, 1 / 4, by norm_num [valid], by norm_num, by norm_num, by norm_num, by norm_num, by norm_num,
    by norm_num, by norm_num, ?_, ?_, by norm_num⟩
  · norm_num [inverseSampler, valid, areas, cumsum, searchsorted, inBin]
  · norm_num [inverseSampler, valid, areas, cumsum, searchsorted, inBin]

end Verif.InvSampler
