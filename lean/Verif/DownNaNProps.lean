import Verif.DownNaN
import Verif.DownsampleProps

/-!
Property theorems for C16 with missing values.
-/
namespace Verif.Downsample

variable {d : ℕ}

theorem colN_some (N : ℕ) (f : ℕ → ℝ) : colMinN N (fun m => some (f m)) = some (colMin N f) ∧ colMaxN N (fun m => some (f m)) = some (colMax N f) := by
  constructor
  · rw [colMinN, if_neg (by rintro ⟨m, _, h⟩; cases h)]; rfl
  · rw [colMaxN, if_neg (by rintro ⟨m, _, h⟩; cases h)]; rfl

theorem rescaleN_some (N : ℕ) (Y : ℕ → Fin d → ℝ) : rescaleN N (fun m c => some (Y m c)) = fun m c => some (rescale N Y m c) := by
  funext m c
  unfold rescaleN rescale
  obtain ⟨h1, h2⟩ := colN_some N (fun m => Y m c)
  rw [h1, h2]
  dsimp only
  by_cases h : colMin N (fun m => Y m c) = colMax N (fun m => Y m c)
  · rw [if_pos h, if_pos h]
  · rw [if_neg h, if_neg h]; rfl

theorem errN_some (t : ℕ → ℝ) (Y : ℕ → Fin d → ℝ) (i j m : ℕ) : errN t (fun m c => some (Y m c)) i j m = some (err t Y i j m) := by
  rw [errN, if_pos (fun c => ⟨by simp, by simp, by simp⟩)]
  rfl

theorem argmaxN_some (f : ℕ → ℝ) (k : ℕ) (l : List ℕ) : argmaxN (fun m => some (f m)) k l = argmax f k l := rfl

theorem worstN_some (t : ℕ → ℝ) (Y : ℕ → Fin d → ℝ) (i j : ℕ) : worstN t (fun m c => some (Y m c)) i j = worst t Y i j := by
  unfold worstN worst
  have : errN t (fun m c => some (Y m c)) i j = fun m => some (err t Y i j m) := funext fun m => errN_some t Y i j m
  rw [this]
  rfl

theorem DSN_some (t : ℕ → ℝ) (Y : ℕ → Fin d → ℝ) (N : ℕ) (tol : ℝ) (maxInt : Option ℝ) :
    ∀ n i j, j - i ≤ n → DSN t (fun m c => some (Y m c)) N tol maxInt i j = DS t Y N tol maxInt i j := by
  intro n
  induction n with
  | zero =>
    intro i j h
    rw [DSN, DS, dif_pos (by omega), dif_pos (by omega)]
  | succ n ih =>
    intro i j h
    by_cases hj : j ≤ i + 1
    · rw [DSN, DS, dif_pos hj, dif_pos hj]
    · obtain ⟨w1, w2, _⟩ := worst_spec t Y i j (by omega)
      rw [DSN, DS, dif_neg hj, dif_neg hj]
      dsimp only
      rw [worstN_some, errN_some]
      have e : above (some (err t Y i j (worst t Y i j))) tol ↔ err t Y i j (worst t Y i j) > tol := by
        unfold above
        constructor
        · rintro ⟨v, hv, h⟩; cases hv; exact h
        · intro h; exact ⟨_, rfl, h⟩
      rw [ih i _ (by omega), ih _ j (by omega)]
      by_cases hc : tooLong t N maxInt i j ∨ err t Y i j (worst t Y i j) > tol
      · rw [if_pos hc, if_pos (hc.imp id e.2)]
      · rw [if_neg hc, if_neg (fun h => hc (h.imp id e.1))]

/-- C16.  Without missing values everything above holds: the rows kept are those of the model without NaN. -/
theorem C16_no_nan (t : ℕ → ℝ) (Y : ℕ → Fin d → ℝ) (N : ℕ) (maxErr maxInt : Option ℝ) :
    findN t (fun m c => some (Y m c)) N maxErr maxInt = findDownsample t Y N maxErr maxInt := by
  unfold findN findDownsample
  cases maxErr with
  | none => rfl
  | some e =>
    dsimp only
    rw [rescaleN_some, DSN_some t (rescale N Y) N e maxInt _ 0 (N - 1) le_rfl]

/-- One missing value makes its whole column missing, also after scaling back. -/
theorem C16_nan_column_violated (N : ℕ) (X Y : ℕ → Fin d → Option ℝ) (c : Fin d) (m : ℕ) (hm : m < N) (h : X m c = none) (k : ℕ) :
    rescaleN N X k c = none ∧ scaleBackN N X Y k c = none := by
  have h1 : colMinN N (X · c) = none := by rw [colMinN, if_pos ⟨m, hm, h⟩]
  constructor
  · unfold rescaleN; rw [h1]
  · unfold scaleBackN; rw [h1]; cases Y k c <;> rfl

theorem errN_none (t : ℕ → ℝ) (X : ℕ → Fin d → Option ℝ) (c : Fin d) (h : ∀ m, X m c = none) (i j m : ℕ) : errN t X i j m = none := by
  rw [errN, if_neg]
  intro hh
  exact (hh c).1 (h m)

/-- C16 fails with one missing value in one column: whatever the tolerance and all other columns, only the first and the last row are
kept. -/
theorem C16_nan_violated (t : ℕ → ℝ) (X : ℕ → Fin d → Option ℝ) (N : ℕ) (e : ℝ) (he : 0 ≤ e) (hN : 3 ≤ N) (c : Fin d) (m : ℕ) (hm : m < N) (h : X m c = none) :
    findN t X N (some e) none = .ok [0, N - 1] := by
  unfold findN
  dsimp only
  rw [if_neg (by omega), if_neg (not_lt.2 he), DSN, dif_neg (by omega)]
  dsimp only
  rw [if_neg]
  · rfl
  · rintro (h' | ⟨v, hv, _⟩)
    · exact h'
    · rw [errN_none t _ c (fun k => (C16_nan_column_violated N X X c m hm h k).1)] at hv
      cases hv

/-- With a largest interval as well rows are kept one after the other from the start, until what is left is short enough. -/
theorem worstN_none (t : ℕ → ℝ) (X : ℕ → Fin d → Option ℝ) (c : Fin d) (h : ∀ m, X m c = none) (i j : ℕ) : worstN t X i j = i + 1 := by
  unfold worstN
  generalize List.range' (i + 2) (j - i - 2) = l
  unfold argmaxN
  induction l with
  | nil => rfl
  | cons q l ih =>
    rw [List.foldl_cons, errN_none t X c h i j (i + 1)]
    exact ih

theorem DSN_nan (t : ℕ → ℝ) (X : ℕ → Fin d → Option ℝ) (c : Fin d) (h : ∀ m, X m c = none) (N : ℕ) (tol : ℝ) (maxInt : Option ℝ) (i j : ℕ) :
    (i + 1 < j → tooLong t N maxInt i j → DSN t X N tol maxInt i j = (i + 1) :: DSN t X N tol maxInt (i + 1) j) ∧
    (¬tooLong t N maxInt i j → DSN t X N tol maxInt i j = []) := by
  constructor
  · intro hj hl
    rw [DSN, dif_neg (by omega)]
    dsimp only
    rw [if_pos (.inl hl), worstN_none t X c h]
    rw [show DSN t X N tol maxInt i (i + 1) = [] by rw [DSN, dif_pos le_rfl]]
    rfl
  · intro hl
    rw [DSN]
    split
    · rfl
    · dsimp only
      rw [if_neg]
      rintro (h' | ⟨v, hv, _⟩)
      · exact hl h'
      · rw [errN_none t X c h] at hv; cases hv

/-- C16 with a missing value and a largest interval: all rows from the first to the one from which the rest is short enough, then the last. -/
theorem C16_nan_interval_violated (t : ℕ → ℝ) (X : ℕ → Fin d → Option ℝ) (N : ℕ) (e v : ℝ) (he : 0 ≤ e) (hN : 3 ≤ N) (c : Fin d) (m : ℕ) (hm : m < N)
    (h : X m c = none) : ∃ k, k ≤ N - 2 ∧ findN t X N (some e) (some v) = .ok (List.range (k + 1) ++ [N - 1]) ∧
      (k < N - 2 → ¬tooLong t N (some v) k (N - 1)) ∧ ∀ i < k, tooLong t N (some v) i (N - 1) := by
  have hn : ∀ k, rescaleN N X k c = none := fun k => (C16_nan_column_violated N X X c m hm h k).1
  have key : ∀ n i, N - 2 - i = n → i ≤ N - 2 → ∃ k, i ≤ k ∧ k ≤ N - 2 ∧ DSN t (rescaleN N X) N e (some v) i (N - 1) = List.range' (i + 1) (k - i) ∧
      (k < N - 2 → ¬tooLong t N (some v) k (N - 1)) ∧ ∀ q, i ≤ q → q < k → tooLong t N (some v) q (N - 1) := by
    intro n
    induction n with
    | zero =>
      intro i hi hle
      refine ⟨i, le_rfl, hle, ?_, fun h' => by omega, fun q a b => by omega⟩
      rw [DSN, dif_pos (by omega)]
      simp
    | succ n ih =>
      intro i hi hle
      by_cases hl : tooLong t N (some v) i (N - 1)
      · obtain ⟨k, k1, k2, k3, k4, k5⟩ := ih (i + 1) (by omega) (by omega)
        refine ⟨k, by omega, k2, ?_, k4, fun q a b => ?_⟩
        · rw [(DSN_nan t _ c hn N e (some v) i (N - 1)).1 (by omega) hl, k3]
          rw [show k - i = (k - (i + 1)) + 1 by omega, List.range'_succ]
        · by_cases hq : q = i
          · rw [hq]; exact hl
          · exact k5 q (by omega) b
      · refine ⟨i, le_rfl, hle, ?_, fun _ => hl, fun q a b => by omega⟩
        rw [(DSN_nan t _ c hn N e (some v) i (N - 1)).2 hl]
        simp
  obtain ⟨k, _, k2, k3, k4, k5⟩ := key _ 0 rfl (by omega)
  refine ⟨k, k2, ?_, k4, fun i hi => k5 i (by omega) hi⟩
  unfold findN
  dsimp only
  rw [if_neg (by omega), if_neg (not_lt.2 he), k3]
  rw [List.range_eq_range', List.range'_succ]
  simp

/-- Non-vacuity: a track of four rows with one missing value in one of two columns. -/
example : findN (d := 2) (fun m => m) (fun m c => if m = 2 ∧ c = 1 then none else some (if m = 1 then 5 else 0)) 4 (some (1/10)) none = .ok [0, 3] :=
  C16_nan_violated _ _ 4 _ (by norm_num) (by norm_num) 1 2 (by norm_num) (by simp)

/-- C16.  A column without missing values is scaled to [0,1] and back also if others have some. -/
theorem C16_scale_back_nan (N : ℕ) (X : ℕ → Fin d → Option ℝ) (c : Fin d) (h : ∀ m, m < N → X m c ≠ none) (m : ℕ) (hm : m < N) :
    scaleBackN N X (rescaleN N X) m c = X m c ∧ ∃ y, rescaleN N X m c = some y ∧ 0 ≤ y ∧ y ≤ 1 := by
  set Z : ℕ → Fin d → ℝ := fun m c => (X m c).getD 0 with hZ
  have hno : ¬∃ m, m < N ∧ X m c = none := fun ⟨k, hk, e⟩ => h k hk e
  have a1 : colMinN N (X · c) = some (colMin N (Z · c)) := by rw [colMinN, if_neg hno]
  have a2 : colMaxN N (X · c) = some (colMax N (Z · c)) := by rw [colMaxN, if_neg hno]
  have e : X m c = some (Z m c) := by
    cases hx : X m c with
    | none => exact absurd hx (h m hm)
    | some x => simp [hZ, hx]
  have r : rescaleN N X m c = some (rescale N Z m c) := by
    unfold rescaleN rescale
    rw [a1, a2]
    dsimp only
    split_ifs
    · rfl
    · rw [e]; rfl
  obtain ⟨b1, b2, b3⟩ := C16_scale_back N Z m hm c
  refine ⟨?_, _, r, b2, b3⟩
  unfold scaleBackN
  rw [r, a1, a2, e, ← b1]
  rfl

end Verif.Downsample
