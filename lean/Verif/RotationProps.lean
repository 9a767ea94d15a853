import Verif.OrbitProps
/-! Further theorems of C40: the sense and the size of the rotation, and what it takes from the axis. -/
namespace Verif.Orbit
open Real

/-- C40: the formula of Rodrigues.  A vector `v` goes to `cos t · v + sin t · (k × v) + (1 - cos t) (k · v) k`, where `k` is the axis divided by its length `n`:
the rotation is right-handed, by the angle `t`. -/
theorem C40_rodrigues (x y z t a b c n : ℝ) (R : Matrix (Fin 3) (Fin 3) ℝ) (h : rotate [x, y, z] t = .ok R) (hn : n ^ 2 = x ^ 2 + y ^ 2 + z ^ 2) (h0 : 0 < n) :
    R.mulVec ![a, b, c] = ![
      cos t * a + sin t * ((y * c - z * b) / n) + (1 - cos t) * ((x * a + y * b + z * c) / n) * (x / n),
      cos t * b + sin t * ((z * a - x * c) / n) + (1 - cos t) * ((x * a + y * b + z * c) / n) * (y / n),
      cos t * c + sin t * ((x * b - y * a) / n) + (1 - cos t) * ((x * a + y * b + z * c) / n) * (z / n)] := by
  have hs : Real.sqrt (x ^ 2 + y ^ 2 + z ^ 2) = n := by rw [← hn]; exact Real.sqrt_sq h0.le
  simp only [rotate, hs, h0.ne', if_false] at h
  injection h with h
  rw [← h]
  ext i
  fin_cases i <;> simp [rotUnit, Matrix.mulVec, dotProduct, Fin.sum_univ_three] <;> ring

/-- C40: a vector at a right angle to the axis is turned within that plane by the angle `t`. -/
theorem C40_plane (x y z t a b c n : ℝ) (R : Matrix (Fin 3) (Fin 3) ℝ) (h : rotate [x, y, z] t = .ok R) (hn : n ^ 2 = x ^ 2 + y ^ 2 + z ^ 2) (h0 : 0 < n)
    (hp : x * a + y * b + z * c = 0) :
    R.mulVec ![a, b, c] = ![cos t * a + sin t * ((y * c - z * b) / n), cos t * b + sin t * ((z * a - x * c) / n),
      cos t * c + sin t * ((x * b - y * a) / n)] := by
  rw [C40_rodrigues x y z t a b c n R h hn h0, hp]
  simp

/-- C40: only the direction of the axis matters; the opposite axis turns the other way. -/
theorem C40_direction (x y z t k : ℝ) (hk : 0 < k) :
    rotate [k * x, k * y, k * z] t = rotate [x, y, z] t ∧ rotate [-x, -y, -z] t = rotate [x, y, z] (-t) := by
  constructor
  · have e : (k * x) ^ 2 + (k * y) ^ 2 + (k * z) ^ 2 = k ^ 2 * (x ^ 2 + y ^ 2 + z ^ 2) := by ring
    simp only [rotate, e]
    rw [Real.sqrt_mul (by positivity), Real.sqrt_sq hk.le]
    simp only [mul_eq_zero, hk.ne', false_or]
    rw [mul_div_mul_left _ _ hk.ne', mul_div_mul_left _ _ hk.ne', mul_div_mul_left _ _ hk.ne']
  · simp only [rotate, neg_sq]
    have e : ∀ n : ℝ, rotUnit (-x / n) (-y / n) (-z / n) t = rotUnit (x / n) (y / n) (z / n) (-t) := by
      intro n
      unfold rotUnit
      simp only [Real.cos_neg, Real.sin_neg, neg_div]
      ext i j
      fin_cases i <;> fin_cases j <;> simp
    rw [e]

/-- C40: turning back is the transposed matrix, and a whole turn does nothing. -/
theorem C40_back (axis : List ℝ) (t : ℝ) (R : Matrix (Fin 3) (Fin 3) ℝ) (h : rotate axis t = .ok R) :
    rotate axis (-t) = .ok R.transpose ∧ rotate axis (t + 2 * π) = .ok R := by
  obtain ⟨x, y, z, n, -, -, -, -, -, rfl, hall⟩ := rotate_unit h
  rw [hall, hall]
  constructor
  · congr 1
    unfold rotUnit
    simp only [Real.cos_neg, Real.sin_neg]
    ext i j
    fin_cases i <;> fin_cases j <;> simp [Matrix.transpose, mul_comm, sub_eq_add_neg]
  · unfold rotUnit
    rw [Real.cos_add_two_pi, Real.sin_add_two_pi]

/-- C40: a quarter turn about the third axis takes the first axis to the second. -/
example (R : Matrix (Fin 3) (Fin 3) ℝ) (h : rotate [0, 0, 2] (π / 2) = .ok R) : R.mulVec ![1, 0, 0] = ![0, 1, 0] := by
  rw [C40_plane 0 0 2 (π / 2) 1 0 0 2 R h (by norm_num) (by norm_num) (by norm_num)]
  simp

end Verif.Orbit
