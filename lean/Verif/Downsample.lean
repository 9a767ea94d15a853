import Mathlib.Analysis.SpecialFunctions.Pow.Real
import Mathlib.Algebra.Order.BigOperators.Group.Finset
import Mathlib.Tactic.Linarith
/-!
Model of the track downsampler, `/repo/posydon/grids/downsampling.py` (`rescale_from_0_to_1` l.53-88,
`TrackDownsampler` l.91-270).

Simplifications: floats are real numbers without NaN; the independent variable is `t : ℕ → ℝ` and the table of dependent
variables `X : ℕ → Fin d → ℝ`, both used for row numbers below `N` only.  The set of kept rows (the boolean array
`keep`) is a list of row numbers.
-/
namespace Verif.Downsample

/-- `np.min` of a non-empty column of `N` rows, l.78. -/
noncomputable def colMin (N : ℕ) (f : ℕ → ℝ) : ℝ := ((List.range N).map f).foldl min (f 0)
/-- `np.max`, l.78. -/
noncomputable def colMax (N : ℕ) (f : ℕ → ℝ) : ℝ := ((List.range N).map f).foldl max (f 0)

variable {d : ℕ}

/-- `rescale_from_0_to_1`, l.80-84. -/
noncomputable def rescale (N : ℕ) (X : ℕ → Fin d → ℝ) (m : ℕ) (c : Fin d) : ℝ :=
  if colMin N (X · c) = colMax N (X · c) then 0
  else (X m c - colMin N (X · c)) / (colMax N (X · c) - colMin N (X · c))

/-- Scaling back in `extract_downsample`, l.171. -/
noncomputable def scaleBack (N : ℕ) (X Y : ℕ → Fin d → ℝ) (m : ℕ) (c : Fin d) : ℝ :=
  Y m c * (colMax N (X · c) - colMin N (X · c)) + colMin N (X · c)

/-- The value interpolated linearly between rows `i` and `j`, l.212. -/
noncomputable def interp (t : ℕ → ℝ) (X : ℕ → Fin d → ℝ) (i j m : ℕ) (c : Fin d) : ℝ :=
  X i c + (t m - t i) * (X j c - X i c) / (t j - t i)

/-- Interpolation error of row `m` (Euclidean norm over the columns), l.216. -/
noncomputable def err (t : ℕ → ℝ) (X : ℕ → Fin d → ℝ) (i j m : ℕ) : ℝ :=
  Real.sqrt (∑ c, (X m c - interp t X i j m c) ^ 2)

/-- `np.argmax` over a list of row numbers: the first one with the largest value (`k` = best so far), l.219-221. -/
noncomputable def argmax (f : ℕ → ℝ) (k : ℕ) (l : List ℕ) : ℕ :=
  open Classical in l.foldl (fun k m => if f m > f k then m else k) k

theorem argmax_spec (f : ℕ → ℝ) (k : ℕ) (l : List ℕ) :
    argmax f k l ∈ k :: l ∧ ∀ m ∈ k :: l, f m ≤ f (argmax f k l) := by
  induction l generalizing k with
  | nil => simp [argmax]
  | cons m l ih =>
    have e : argmax f k (m :: l) = argmax f (if f m > f k then m else k) l := by simp [argmax]
    rw [e]
    by_cases h : f m > f k
    · rw [if_pos h]
      obtain ⟨h1, h2⟩ := ih m
      refine ⟨List.mem_cons_of_mem _ h1, fun q hq => ?_⟩
      rcases List.mem_cons.1 hq with rfl | hq
      · exact (le_of_lt h).trans (h2 m (by simp))
      · exact h2 q hq
    · rw [if_neg h]
      obtain ⟨h1, h2⟩ := ih k
      refine ⟨?_, fun q hq => ?_⟩
      · rcases List.mem_cons.1 h1 with h1 | h1
        · rw [h1]; simp
        · simp [h1]
      · rcases List.mem_cons.1 hq with rfl | hq
        · exact h2 _ (by simp)
        · rcases List.mem_cons.1 hq with rfl | hq
          · exact (not_lt.1 h).trans (h2 k (by simp))
          · exact h2 q (by simp [hq])

/-- The row between `i` and `j` (with `i + 1 < j`) that is worst. -/
noncomputable def worst (t : ℕ → ℝ) (X : ℕ → Fin d → ℝ) (i j : ℕ) : ℕ :=
  argmax (err t X i j) (i + 1) (List.range' (i + 2) (j - i - 2))

theorem worst_spec (t : ℕ → ℝ) (X : ℕ → Fin d → ℝ) (i j : ℕ) (h : i + 1 < j) :
    i < worst t X i j ∧ worst t X i j < j ∧ ∀ m, i < m → m < j → err t X i j m ≤ err t X i j (worst t X i j) := by
  obtain ⟨h1, h2⟩ := argmax_spec (err t X i j) (i + 1) (List.range' (i + 2) (j - i - 2))
  have hm : ∀ m, m ∈ (i + 1) :: List.range' (i + 2) (j - i - 2) ↔ i < m ∧ m < j := by
    intro m
    simp only [List.mem_cons, List.mem_range'_1]
    omega
  exact ⟨((hm _).1 h1).1, ((hm _).1 h1).2, fun m a b => h2 m ((hm m).2 ⟨a, b⟩)⟩

/-- Whether the gap between rows `i` and `j` must be split because of `max_interval`, l.226-232 (a negative value is
relative to the total length). -/
noncomputable def tooLong (t : ℕ → ℝ) (N : ℕ) (maxInt : Option ℝ) (i j : ℕ) : Prop :=
  match maxInt with
  | none => False
  | some v => if v < 0 then |t i - t j| > |v * (t 0 - t (N - 1))| else |t i - t j| > v

/-- The recursive function `DS`, l.202-239: the rows it marks. -/
noncomputable def DS (t : ℕ → ℝ) (X : ℕ → Fin d → ℝ) (N : ℕ) (tol : ℝ) (maxInt : Option ℝ) (i j : ℕ) : List ℕ :=
  open Classical in
  if h : j ≤ i + 1 then []
  else
    have hw := worst_spec t X i j (by omega)
    if tooLong t N maxInt i j ∨ err t X i j (worst t X i j) > tol then
      DS t X N tol maxInt i (worst t X i j) ++ worst t X i j :: DS t X N tol maxInt (worst t X i j) j
    else []
termination_by j - i
decreasing_by all_goals omega

inductive Err | badMaxErr
  deriving DecidableEq, Repr

/-- `find_downsample`, l.174-246: the rows kept, in order; `maxErr = none` is Python's `None`. -/
noncomputable def findDownsample (t : ℕ → ℝ) (X : ℕ → Fin d → ℝ) (N : ℕ) (maxErr maxInt : Option ℝ) :
    Except Err (List ℕ) :=
  open Classical in
  match maxErr with
  | none => .ok (List.range N)
  | some e =>
    if N < 3 then .ok (List.range N)
    else if e < 0 then .error .badMaxErr
    else .ok (0 :: DS t (rescale N X) N e maxInt 0 (N - 1) ++ [N - 1])

/-! ### Specification -/

/-- Consecutive entries of a list. -/
def Consec (l : List ℕ) (a b : ℕ) : Prop := ∃ p q, l = p ++ a :: b :: q

theorem DS_unfold (t : ℕ → ℝ) (X : ℕ → Fin d → ℝ) (N : ℕ) (tol : ℝ) (maxInt : Option ℝ) (i j : ℕ) (h : i + 1 < j) :
    (tooLong t N maxInt i j ∨ err t X i j (worst t X i j) > tol) ∧ DS t X N tol maxInt i j =
      DS t X N tol maxInt i (worst t X i j) ++ worst t X i j :: DS t X N tol maxInt (worst t X i j) j ∨
    ¬ (tooLong t N maxInt i j ∨ err t X i j (worst t X i j) > tol) ∧ DS t X N tol maxInt i j = [] := by
  classical
  by_cases hc : tooLong t N maxInt i j ∨ err t X i j (worst t X i j) > tol
  · left
    refine ⟨hc, ?_⟩
    rw [DS, dif_neg (by omega)]
    simp only [hc, if_true]
  · right
    refine ⟨hc, ?_⟩
    rw [DS, dif_neg (by omega)]
    simp only [hc, if_false]

/-- What holds of consecutive kept rows. -/
def Good (t : ℕ → ℝ) (X : ℕ → Fin d → ℝ) (N : ℕ) (tol : ℝ) (maxInt : Option ℝ) (a b : ℕ) : Prop :=
  a < b ∧ (∀ m, a < m → m < b → err t X a b m ≤ tol) ∧ (a + 1 < b → ¬ tooLong t N maxInt a b)

/-- The rows marked between `i` and `j` make a chain of good gaps from `i` to `j`. -/
theorem DS_chain (t : ℕ → ℝ) (X : ℕ → Fin d → ℝ) (N : ℕ) (tol : ℝ) (maxInt : Option ℝ) :
    ∀ n i j, j - i ≤ n → i < j →
      List.IsChain (Good t X N tol maxInt) (i :: (DS t X N tol maxInt i j ++ [j])) := by
  intro n
  induction n with
  | zero => intro i j h h'; omega
  | succ n ih =>
    intro i j h h'
    by_cases hj : i + 1 < j
    · obtain ⟨w1, w2, w3⟩ := worst_spec t X i j hj
      rcases DS_unfold t X N tol maxInt i j hj with ⟨hc, he⟩ | ⟨hc, he⟩
      · rw [he]
        have c1 := ih i (worst t X i j) (by omega) w1
        have c2 := ih (worst t X i j) j (by omega) w2
        set k := worst t X i j
        have e : i :: (DS t X N tol maxInt i k ++ k :: DS t X N tol maxInt k j ++ [j])
            = (i :: DS t X N tol maxInt i k) ++ k :: (DS t X N tol maxInt k j ++ [j]) := by simp
        rw [e, List.isChain_split]
        exact ⟨by simpa using c1, c2⟩
      · rw [he]
        push Not at hc
        simp only [List.nil_append, List.isChain_cons_cons, List.isChain_singleton, and_true]
        exact ⟨h', fun m a b => (w3 m a b).trans hc.2, fun _ => hc.1⟩
    · have he : DS t X N tol maxInt i j = [] := by rw [DS, dif_pos (by omega)]
      rw [he]
      simp only [List.nil_append, List.isChain_cons_cons, List.isChain_singleton, and_true]
      exact ⟨h', fun m a b => by omega, fun h => by omega⟩

end Verif.Downsample
