import Verif.Downsample
import Mathlib.Tactic.FieldSimp
import Mathlib.Tactic.Positivity
/-!
Property theorems for C16.
-/
namespace Verif.Downsample
variable {d : ℕ}

theorem colMin_le (N : ℕ) (f : ℕ → ℝ) (m : ℕ) (h : m < N) : colMin N f ≤ f m := by
  have key : ∀ (l : List ℝ) (a : ℝ), l.foldl min a ≤ a ∧ ∀ x ∈ l, l.foldl min a ≤ x := by
    intro l
    induction l with
    | nil => simp
    | cons b l ih =>
      intro a
      obtain ⟨h1, h2⟩ := ih (min a b)
      refine ⟨h1.trans (min_le_left _ _), fun x hx => ?_⟩
      rcases List.mem_cons.1 hx with rfl | hx
      · exact h1.trans (min_le_right _ _)
      · exact h2 x hx
  exact (key _ _).2 _ (List.mem_map.2 ⟨m, List.mem_range.2 h, rfl⟩)

theorem le_colMax (N : ℕ) (f : ℕ → ℝ) (m : ℕ) (h : m < N) : f m ≤ colMax N f := by
  have key : ∀ (l : List ℝ) (a : ℝ), a ≤ l.foldl max a ∧ ∀ x ∈ l, x ≤ l.foldl max a := by
    intro l
    induction l with
    | nil => simp
    | cons b l ih =>
      intro a
      obtain ⟨h1, h2⟩ := ih (max a b)
      refine ⟨(le_max_left _ _).trans h1, fun x hx => ?_⟩
      rcases List.mem_cons.1 hx with rfl | hx
      · exact (le_max_right _ _).trans h1
      · exact h2 x hx
  exact (key _ _).2 _ (List.mem_map.2 ⟨m, List.mem_range.2 h, rfl⟩)

/-- C16.  Scaling to [0,1] and back returns the original data (also for constant columns). -/
theorem C16_scale_back (N : ℕ) (X : ℕ → Fin d → ℝ) (m : ℕ) (hm : m < N) (c : Fin d) :
    scaleBack N X (rescale N X) m c = X m c ∧ 0 ≤ rescale N X m c ∧ rescale N X m c ≤ 1 := by
  have h1 := colMin_le N (X · c) m hm
  have h2 := le_colMax N (X · c) m hm
  unfold scaleBack rescale
  by_cases h : colMin N (X · c) = colMax N (X · c)
  · rw [if_pos h]
    refine ⟨?_, le_refl _, zero_le_one⟩
    linarith
  · rw [if_neg h]
    have hpos : 0 < colMax N (X · c) - colMin N (X · c) := by
      have := lt_of_le_of_ne (h1.trans h2) h
      linarith
    refine ⟨?_, div_nonneg (by linarith) hpos.le, (div_le_one hpos).2 (by linarith)⟩
    rw [div_mul_cancel₀ _ hpos.ne']
    ring

/-- C16.  Without a tolerance, or for fewer than three rows, every row is kept. -/
theorem C16_no_downsampling (t : ℕ → ℝ) (X : ℕ → Fin d → ℝ) (N : ℕ) (e : ℝ) (maxInt : Option ℝ) :
    findDownsample t X N none maxInt = .ok (List.range N) ∧
    (N < 3 → findDownsample t X N (some e) maxInt = .ok (List.range N)) := by
  refine ⟨rfl, fun h => ?_⟩
  unfold findDownsample
  simp only [h, if_true]

theorem chain_mono {t : ℕ → ℝ} {X : ℕ → Fin d → ℝ} {N : ℕ} {tol : ℝ} {maxInt : Option ℝ} {l : List ℕ}
    (h : List.IsChain (Good t X N tol maxInt) l) : l.Pairwise (· < ·) := by
  rw [← List.isChain_iff_pairwise]
  exact h.imp fun _ _ g => g.1

/-- Every number between the first and the last entry of a chain lies in one of its gaps. -/
theorem chain_cover {G : ℕ → ℕ → Prop} (l : List ℕ) (i j : ℕ) (h : List.IsChain G (i :: (l ++ [j]))) (m : ℕ)
    (h1 : i ≤ m) (h2 : m ≤ j) : ∃ a b p q, i :: (l ++ [j]) = p ++ a :: b :: q ∧ a ≤ m ∧ m ≤ b := by
  induction l generalizing i with
  | nil => exact ⟨i, j, [], [], rfl, h1, h2⟩
  | cons k l ih =>
    by_cases hk : m ≤ k
    · exact ⟨i, k, [], l ++ [j], rfl, h1, hk⟩
    · have h' := (List.isChain_cons_cons.1 h).2
      obtain ⟨a, b, p, q, e, ha, hb⟩ := ih k h' (by omega)
      exact ⟨a, b, i :: p, q, by simpa using e, ha, hb⟩

theorem chain_consec {G : ℕ → ℕ → Prop} (l : List ℕ) (h : List.IsChain G l) (a b : ℕ) (p q : List ℕ)
    (e : l = p ++ a :: b :: q) : G a b := by
  subst e
  have := (List.isChain_append.1 h).2.1
  exact (List.isChain_cons_cons.1 this).1

/-- C16.  The rows kept are rows of the track, in order, including the first and the last. -/
theorem C16_kept_rows (t : ℕ → ℝ) (X : ℕ → Fin d → ℝ) (N : ℕ) (e : ℝ) (maxInt : Option ℝ) (hN : 3 ≤ N)
    (l : List ℕ) (h : findDownsample t X N (some e) maxInt = .ok l) :
    l.Pairwise (· < ·) ∧ (∀ k ∈ l, k < N) ∧ 0 ∈ l ∧ N - 1 ∈ l := by
  unfold findDownsample at h
  dsimp only at h
  rw [if_neg (by omega : ¬ N < 3)] at h
  split at h
  · cases h
  · simp only [Except.ok.injEq] at h
    have hch := DS_chain t (rescale N X) N e maxInt (N - 1) 0 (N - 1) (by omega) (by omega)
    have hp := chain_mono hch
    rw [← List.cons_append, h] at hp
    refine ⟨hp, fun k hk => ?_, by rw [← h]; simp, by rw [← h]; simp⟩
    rw [← h] at hk hp
    rw [List.pairwise_append] at hp
    rcases List.mem_append.1 hk with hk | hk
    · have := hp.2.2 k hk (N - 1) (by simp)
      omega
    · have := List.mem_singleton.1 hk
      omega

/-- C16.  Every row of the track lies in a gap between two consecutive kept rows, and is reproduced by linear
interpolation between them: in each column with an error of at most `max_err` times the range of the column. -/
theorem C16_error_bound (t : ℕ → ℝ) (X : ℕ → Fin d → ℝ) (N : ℕ) (e : ℝ) (maxInt : Option ℝ) (hN : 3 ≤ N)
    (ht : ∀ a b, a < b → b < N → t a < t b)
    (l : List ℕ) (h : findDownsample t X N (some e) maxInt = .ok l) (m : ℕ) (hm : m < N) :
    ∃ a b, Consec l a b ∧ a ≤ m ∧ m ≤ b ∧ ∀ c,
      |X m c - interp t X a b m c| ≤ e * (colMax N (X · c) - colMin N (X · c)) := by
  obtain ⟨-, hlt, -, -⟩ := C16_kept_rows t X N e maxInt hN l h
  unfold findDownsample at h
  dsimp only at h
  rw [if_neg (by omega : ¬ N < 3)] at h
  split at h
  · cases h
  · rename_i he0
    simp only [Except.ok.injEq] at h
    have hch := DS_chain t (rescale N X) N e maxInt (N - 1) 0 (N - 1) (by omega) (by omega)
    obtain ⟨a, b, p, q, hl, ha, hb⟩ := chain_cover _ _ _ hch m (by omega) (by omega)
    have hg := chain_consec _ hch a b p q hl
    refine ⟨a, b, ⟨p, q, by rw [← h, ← hl]; rfl⟩, ha, hb, fun c => ?_⟩
    have hbN : b < N := hlt b (by rw [← h, List.cons_append, hl]; simp)
    have hab : t a < t b := ht a b hg.1 hbN
    have hmn := colMin_le N (X · c) m hm
    have hmx := le_colMax N (X · c) m hm
    have hR : 0 ≤ colMax N (X · c) - colMin N (X · c) := by
      have := hmn.trans hmx; linarith
    have h0 : 0 ≤ e * (colMax N (X · c) - colMin N (X · c)) := mul_nonneg (not_lt.1 he0) hR
    have hd : t b - t a ≠ 0 := by linarith
    rcases Nat.eq_or_lt_of_le ha with rfl | ha
    · simp [interp, h0]
    rcases Nat.eq_or_lt_of_le hb with rfl | hb
    · have : interp t X a m m c = X m c := by
        unfold interp; field_simp; ring
      rw [this]; simpa using h0
    have herr := hg.2.1 m ha hb
    have hsq : (rescale N X m c - interp t (rescale N X) a b m c) ^ 2 ≤
        ∑ c, (rescale N X m c - interp t (rescale N X) a b m c) ^ 2 :=
      Finset.single_le_sum (f := fun c => (rescale N X m c - interp t (rescale N X) a b m c) ^ 2)
        (fun i _ => sq_nonneg _) (Finset.mem_univ c)
    have habs : |rescale N X m c - interp t (rescale N X) a b m c| ≤ e := by
      refine le_trans ?_ herr
      unfold err
      rw [← Real.sqrt_sq_eq_abs]
      exact Real.sqrt_le_sqrt hsq
    -- undo the scaling
    have hS := (C16_scale_back N X m hm c).1
    have hSa := (C16_scale_back N X a (by omega) c).1
    have hSb := (C16_scale_back N X b hbN c).1
    have key : X m c - interp t X a b m c =
        (rescale N X m c - interp t (rescale N X) a b m c) * (colMax N (X · c) - colMin N (X · c)) := by
      unfold interp
      rw [← hS, ← hSa, ← hSb]
      unfold scaleBack
      ring
    rw [key, abs_mul, abs_of_nonneg hR]
    exact mul_le_mul_of_nonneg_right habs hR

/-- C16.  Consecutive kept rows that are not neighbours in the track are no further apart than the requested interval
(a negative one being a fraction of the total length). -/
theorem C16_interval (t : ℕ → ℝ) (X : ℕ → Fin d → ℝ) (N : ℕ) (e v : ℝ) (hN : 3 ≤ N)
    (l : List ℕ) (h : findDownsample t X N (some e) (some v) = .ok l) (a b : ℕ) (hab : Consec l a b) :
    b = a + 1 ∨ |t a - t b| ≤ if v < 0 then |v * (t 0 - t (N - 1))| else v := by
  unfold findDownsample at h
  dsimp only at h
  rw [if_neg (by omega : ¬ N < 3)] at h
  split at h
  · cases h
  · simp only [Except.ok.injEq] at h
    have hch := DS_chain t (rescale N X) N e (some v) (N - 1) 0 (N - 1) (by omega) (by omega)
    obtain ⟨p, q, hl⟩ := hab
    have hg := chain_consec _ hch a b p q (by rw [← hl, ← h]; rfl)
    by_cases hn : a + 1 < b
    · right
      have := hg.2.2 hn
      unfold tooLong at this
      split_ifs with hv
      · simpa [hv] using this
      · simpa [hv] using this
    · left
      have := hg.1
      omega

/-- C16.  Only a negative tolerance is rejected (infinities and NaN are not modelled). -/
theorem C16_rejects_negative (t : ℕ → ℝ) (X : ℕ → Fin d → ℝ) (N : ℕ) (e : ℝ) (maxInt : Option ℝ) (hN : 3 ≤ N) :
    (∃ x, findDownsample t X N (some e) maxInt = .error x) ↔ e < 0 := by
  unfold findDownsample
  dsimp only
  rw [if_neg (by omega : ¬ N < 3)]
  by_cases h : e < 0
  · simp only [h, if_true, iff_true]; exact ⟨.badMaxErr, trivial⟩
  · simp [h]

/-- A concrete track: the rows 0..3 of `t = m`, `x = m²`. -/
example : ∃ l, findDownsample (fun m => m) (fun m (_ : Fin 1) => (m : ℝ) ^ 2) 4 (some (1 / 10)) none = .ok l := by
  unfold findDownsample
  dsimp only
  rw [if_neg (by omega : ¬ 4 < 3), if_neg (by norm_num)]
  exact ⟨_, rfl⟩

/-! Integer input: numpy keeps the integer type of the input (l.74), so the assignment in l.84 truncates towards 0. -/

/-- `rescale_from_0_to_1` on an integer column, given its minimum and maximum. -/
def rescaleInt (lo hi x : ℤ) : ℤ := if lo = hi then 0 else (x - lo).tdiv (hi - lo)
def scaleBackInt (lo hi y : ℤ) : ℤ := y * (hi - lo) + lo

/-- C16 is false for integer data: rows come back changed even if all of them are kept (0, 1, 2 becomes 0, 0, 2). -/
theorem C16_integer_data_violated :
    [0, 1, 2].map (fun x => scaleBackInt 0 2 (rescaleInt 0 2 x)) = [0, 0, 2] := by decide

end Verif.Downsample
