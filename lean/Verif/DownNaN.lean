import Verif.Downsample

/-!
Downsampling of tracks with missing values: the model of `Verif.Downsample` (`/repo/posydon/grids/downsampling.py`) with NaN as `none`.

`numpy.min` and `numpy.max` of a column with a NaN are NaN, NaN is not equal to NaN (so the column is divided, which makes all of it NaN,
l.78-84), the norm of a row with a NaN is NaN, `numpy.argmax` returns the first NaN if there is one (l.219) and a comparison with NaN
is false (l.233).
-/
namespace Verif.Downsample

variable {d : ℕ}

/-- `np.min` and `np.max` of a column, l.78. -/
noncomputable def colMinN (N : ℕ) (f : ℕ → Option ℝ) : Option ℝ :=
  open Classical in if ∃ m, m < N ∧ f m = none then none else some (colMin N fun m => (f m).getD 0)
noncomputable def colMaxN (N : ℕ) (f : ℕ → Option ℝ) : Option ℝ :=
  open Classical in if ∃ m, m < N ∧ f m = none then none else some (colMax N fun m => (f m).getD 0)

/-- `rescale_from_0_to_1`, l.80-84. -/
noncomputable def rescaleN (N : ℕ) (X : ℕ → Fin d → Option ℝ) (m : ℕ) (c : Fin d) : Option ℝ :=
  match colMinN N (X · c), colMaxN N (X · c) with
  | some a, some b => open Classical in if a = b then some 0 else (X m c).map fun x => (x - a) / (b - a)
  | _, _ => none

/-- Scaling back, l.171. -/
noncomputable def scaleBackN (N : ℕ) (X Y : ℕ → Fin d → Option ℝ) (m : ℕ) (c : Fin d) : Option ℝ :=
  match Y m c, colMinN N (X · c), colMaxN N (X · c) with
  | some y, some a, some b => some (y * (b - a) + a)
  | _, _, _ => none

/-- The interpolation error of a row, l.212-216. -/
noncomputable def errN (t : ℕ → ℝ) (X : ℕ → Fin d → Option ℝ) (i j m : ℕ) : Option ℝ :=
  open Classical in
  if ∀ c, X m c ≠ none ∧ X i c ≠ none ∧ X j c ≠ none then some (err t (fun m c => (X m c).getD 0) i j m) else none

/-- `np.argmax`: the first NaN, otherwise the first largest, l.219. -/
noncomputable def argmaxN (f : ℕ → Option ℝ) (k : ℕ) (l : List ℕ) : ℕ :=
  open Classical in l.foldl (fun k m => match f k, f m with
    | none, _ => k
    | some _, none => m
    | some a, some b => if b > a then m else k) k

theorem argmaxN_mem (f : ℕ → Option ℝ) (k : ℕ) (l : List ℕ) : argmaxN f k l ∈ k :: l := by
  induction l generalizing k with
  | nil => simp [argmaxN]
  | cons m l ih =>
    have key : ∀ q, q = k ∨ q = m → argmaxN f q l ∈ k :: m :: l := by
      intro q hq
      rcases List.mem_cons.1 (ih q) with h | h
      · rw [h]; rcases hq with rfl | rfl <;> simp
      · simp [h]
    unfold argmaxN
    rw [List.foldl_cons]
    refine key _ ?_
    cases f k with
    | none => exact .inl rfl
    | some a => cases f m with
      | none => exact .inr rfl
      | some b => dsimp only; split <;> [exact .inr rfl; exact .inl rfl]

noncomputable def worstN (t : ℕ → ℝ) (X : ℕ → Fin d → Option ℝ) (i j : ℕ) : ℕ :=
  argmaxN (errN t X i j) (i + 1) (List.range' (i + 2) (j - i - 2))

theorem worstN_bound (t : ℕ → ℝ) (X : ℕ → Fin d → Option ℝ) (i j : ℕ) (h : i + 1 < j) : i < worstN t X i j ∧ worstN t X i j < j := by
  have h1 := argmaxN_mem (errN t X i j) (i + 1) (List.range' (i + 2) (j - i - 2))
  change worstN t X i j ∈ _ at h1
  simp only [List.mem_cons, List.mem_range'_1] at h1
  omega

/-- `e_max > tolerance`, l.233. -/
def above (e : Option ℝ) (tol : ℝ) : Prop := ∃ v, e = some v ∧ v > tol

/-- `DS`, l.202-239. -/
noncomputable def DSN (t : ℕ → ℝ) (X : ℕ → Fin d → Option ℝ) (N : ℕ) (tol : ℝ) (maxInt : Option ℝ) (i j : ℕ) : List ℕ :=
  open Classical in
  if h : j ≤ i + 1 then []
  else
    have hw := worstN_bound t X i j (by omega)
    if tooLong t N maxInt i j ∨ above (errN t X i j (worstN t X i j)) tol then
      DSN t X N tol maxInt i (worstN t X i j) ++ worstN t X i j :: DSN t X N tol maxInt (worstN t X i j) j
    else []
termination_by j - i
decreasing_by all_goals omega

/-- `find_downsample`, l.174-246. -/
noncomputable def findN (t : ℕ → ℝ) (X : ℕ → Fin d → Option ℝ) (N : ℕ) (maxErr maxInt : Option ℝ) : Except Err (List ℕ) :=
  open Classical in
  match maxErr with
  | none => .ok (List.range N)
  | some e =>
    if N < 3 then .ok (List.range N)
    else if e < 0 then .error .badMaxErr
    else .ok (0 :: DSN t (rescaleN N X) N e maxInt 0 (N - 1) ++ [N - 1])

end Verif.Downsample
