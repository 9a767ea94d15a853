import Verif.InvSampler
/-!
Property theorems for C56 (tabulated samplers).
-/
namespace Verif.InvSampler
open Classical

theorem areas_ne_nil {pts : List (ℝ × ℝ)} (h : 2 ≤ pts.length) : areas pts ≠ [] := by
  match pts, h with
  | p0 :: p1 :: r, _ => simp [areas]

/-- C56: for every valid table of at least two points and every draw, the sampler returns a value which lies in one of the bins of the table; if the density is not
constant over that bin, the area of the table up to the sample is exactly `u` times the whole area. -/
theorem C56_inverse (pts : List (ℝ × ℝ)) (u v : ℝ) (hv : valid pts) (h2 : 2 ≤ pts.length) (hu0 : 0 ≤ u) (hu1 : u ≤ 1) (hv0 : 0 ≤ v) (hv1 : v ≤ 1) :
    ∃ s i p0 p1, inverseSampler pts u v = .ok s ∧ pts[i]? = some p0 ∧ pts[i + 1]? = some p1 ∧ p0.1 ≤ s ∧ s ≤ p1.1 ∧
      (p0.2 ≠ p1.2 → areaTo pts s = u * total pts) := by
  have hne := areas_ne_nil h2
  have hT : 0 ≤ (areas pts).sum := List.sum_nonneg (areas_nonneg pts hv)
  have ht0 : (0 : ℝ) ≤ u * (areas pts).sum := mul_nonneg hu0 hT
  have ht1 : u * (areas pts).sum ≤ 0 + (areas pts).sum := by nlinarith
  obtain ⟨p0, p1, d, e0, e1, ed, a1, a2, a3, a4, a5, a6⟩ := bin_spec pts 0 (u * (areas pts).sum) v hv hne ht0 ht1
  refine ⟨inBin p0 p1 d v, searchsorted (cumsum 0 (areas pts)) (u * (areas pts).sum), p0, p1, ?_, e0, e1, ?_⟩
  · unfold inverseSampler
    rw [if_neg (not_not.2 hv)]
    simp only
    rw [getLast_cumsum _ _ hne]
    simp only [zero_add]
    rw [e0, e1]
    simp only
    congr 2
    rw [ed, mul_comm u]
    split_ifs <;> ring
  · by_cases hy : p1.2 - p0.2 = 0
    · have : inBin p0 p1 d v = p0.1 + (p1.1 - p0.1) * v := by simp only [inBin]; rw [if_pos hy]
      rw [this]
      refine ⟨by nlinarith, by nlinarith, fun h => absurd (sub_eq_zero.1 hy).symm h⟩
    · obtain ⟨b1, b2, b3⟩ := inBin_spec p0 p1 d v a1 a2 a3 a4 a5 hy
      refine ⟨b1, b2, fun _ => ?_⟩
      have := a6 _ b1 b2
      rw [b3] at this
      rw [← areas_sum]
      linarith

/-- C56: a table whose abscissae do not increase or whose ordinates are negative is refused. -/
theorem C56_inverse_refused (pts : List (ℝ × ℝ)) (u v : ℝ) (h : ¬ valid pts) : inverseSampler pts u v = .error .assertion := by
  unfold inverseSampler
  rw [if_pos h]

/-- C56: histogram samples are inside the chosen bin, and every bin of a well-formed histogram can be chosen. -/
theorem C56_histogram (edges y : List ℝ) (b : ℕ) (v : ℝ) (hy : ∀ a ∈ y, 0 ≤ a) (hl : edges.length = y.length + 1) (hb : b < y.length)
    (hinc : ∀ i (h : i + 1 < edges.length), edges[i] ≤ edges[i + 1]) (hv0 : 0 ≤ v) (hv1 : v ≤ 1) :
    ∃ s, histogramSampler edges y b v = .ok s ∧ edges[b]'(by omega) ≤ s ∧ s ≤ edges[b + 1]'(by omega) := by
  have hb0 : b < edges.length := by omega
  have hb1 : b + 1 < edges.length := by omega
  refine ⟨edges[b] + (edges[b + 1] - edges[b]) * v, ?_, ?_, ?_⟩
  · unfold histogramSampler
    rw [if_neg (not_not.2 hy), if_neg (not_not.2 ⟨by omega, hl⟩), List.getElem?_eq_getElem hb0, List.getElem?_eq_getElem hb1]
  · have := hinc b hb1
    nlinarith
  · have := hinc b hb1
    nlinarith

theorem accepted_length (pdf : ℝ → ℝ) (l : List (ℝ × ℝ)) : (accepted pdf l).length ≤ l.length := by
  unfold accepted
  rw [List.length_map]
  exact List.length_filter_le _ _

theorem rejectLoop_spec (pdf : ℝ → ℝ) (size : ℕ) : ∀ (fuel : ℕ) (values : List ℝ) (draws : List (ℝ × ℝ)) (res : List ℝ),
    values.length ≤ size → rejectLoop pdf size fuel values draws = some res →
    res.length = size ∧ ∀ x ∈ res, x ∈ values ∨ ∃ y, (x, y) ∈ draws ∧ y ≤ pdf x := by
  intro fuel
  induction fuel with
  | zero => intro values draws res _ h; cases h
  | succ fuel ih =>
    intro values draws res hle h
    simp only [rejectLoop] at h
    by_cases hlt : values.length < size
    · rw [if_pos hlt] at h
      have hlen : (values ++ accepted pdf (draws.take (size - values.length))).length ≤ size := by
        have := accepted_length pdf (draws.take (size - values.length))
        rw [List.length_append]
        have := List.length_take_le (size - values.length) draws
        omega
      obtain ⟨h1, h2⟩ := ih _ _ _ hlen h
      refine ⟨h1, fun x hx => ?_⟩
      rcases h2 x hx with h3 | ⟨y, hy, hle⟩
      · rw [List.mem_append] at h3
        rcases h3 with h3 | h3
        · exact Or.inl h3
        · right
          unfold accepted at h3
          obtain ⟨d, hd, rfl⟩ := List.mem_map.1 h3
          rw [List.mem_filter] at hd
          exact ⟨d.2, List.mem_of_mem_take hd.1, of_decide_eq_true hd.2⟩
      · exact Or.inr ⟨y, List.mem_of_mem_drop hy, hle⟩
    · rw [if_neg hlt] at h
      injection h with h
      subst h
      exact ⟨by omega, fun x hx => Or.inl hx⟩

/-- C56: whenever rejection sampling ends, it returns exactly as many values as requested, and each is the abscissa of a draw below the density. -/
theorem C56_rejection (pdf : ℝ → ℝ) (size fuel : ℕ) (draws : List (ℝ × ℝ)) (res : List ℝ) (h : rejectionSampler pdf size fuel draws = some res) :
    res.length = size ∧ ∀ x ∈ res, ∃ y, (x, y) ∈ draws ∧ y ≤ pdf x := by
  unfold rejectionSampler at h
  have hlen : (accepted pdf (draws.take size)).length ≤ size :=
    (accepted_length _ _).trans (List.length_take_le _ _)
  obtain ⟨h1, h2⟩ := rejectLoop_spec pdf size fuel _ _ _ hlen h
  refine ⟨h1, fun x hx => ?_⟩
  rcases h2 x hx with h3 | ⟨y, hy, hle⟩
  · unfold accepted at h3
    obtain ⟨d, hd, rfl⟩ := List.mem_map.1 h3
    rw [List.mem_filter] at hd
    exact ⟨d.2, List.mem_of_mem_take hd.1, of_decide_eq_true hd.2⟩
  · exact ⟨y, List.mem_of_mem_drop hy, hle⟩

/-! ### Concrete cases -/

example : valid [((0 : ℝ), (0 : ℝ)), (1, 2), (3, 1)] := by simp [valid]
example : areaTo [((0 : ℝ), (0 : ℝ)), (1, 2), (3, 1)] 2 = 11 / 4 := by norm_num [areaTo]
example : total [((0 : ℝ), (0 : ℝ)), (1, 2), (3, 1)] = 4 := by norm_num [total]
example : rejectionSampler (fun _ => 1) 2 3 [(0, 0), (1, 2), (5, 1/2)] = some [0, 5] := by
  norm_num [rejectionSampler, rejectLoop, accepted]

/-- C56: only an invalid table is refused by the check, whatever is drawn. -/
theorem C56_inverse_check (pts : List (ℝ × ℝ)) (u v : ℝ) : inverseSampler pts u v = .error .assertion ↔ ¬ valid pts := by
  refine ⟨fun h hv => ?_, C56_inverse_refused pts u v⟩
  unfold inverseSampler at h
  rw [if_neg (not_not.2 hv)] at h
  simp only at h
  split at h
  · cases h
  · split at h <;> cases h

/-- C56: a valid table of fewer than two points passes the check and fails at the first look-up. -/
theorem C56_inverse_short (pts : List (ℝ × ℝ)) (u v : ℝ) (hv : valid pts) (h : pts.length < 2) : inverseSampler pts u v = .error .index := by
  unfold inverseSampler
  rw [if_neg (not_not.2 hv)]
  match pts, h with
  | [], _ => rfl
  | [_], _ => rfl

/-- C56: only a histogram with a negative count, without counts, or with edges that do not fit is refused by the checks. -/
theorem C56_histogram_check (edges y : List ℝ) (b : ℕ) (v : ℝ) : histogramSampler edges y b v = .error .assertion ↔
    ¬ ((∀ a ∈ y, 0 ≤ a) ∧ 0 < y.length ∧ edges.length = y.length + 1) := by
  unfold histogramSampler
  by_cases h1 : ∀ a ∈ y, 0 ≤ a
  · rw [if_neg (not_not.2 h1)]
    by_cases h2 : 0 < y.length ∧ edges.length = y.length + 1
    · rw [if_neg (not_not.2 h2)]
      refine ⟨fun h => ?_, fun h => absurd ⟨h1, h2⟩ h⟩
      split at h <;> cases h
    · rw [if_pos h2]
      exact ⟨fun _ h => h2 h.2, fun _ => rfl⟩
  · rw [if_pos h1]
    exact ⟨fun _ h => h1 h.1, fun _ => rfl⟩

example : inverseSampler [(1, 2)] (1 / 2) 0 = .error .index := C56_inverse_short _ _ _ (by simp [valid]) (by simp)

/-- C56: the search gives the first place whose entry is not below the value, the length of the list if there is none. -/
theorem C56_search : ∀ (l : List ℝ) (t : ℝ), searchsorted l t ≤ l.length ∧ (∀ i < searchsorted l t, ∀ a, l[i]? = some a → a < t) ∧
    ∀ a, l[searchsorted l t]? = some a → t ≤ a
  | [], t => by simp [searchsorted]
  | b :: l, t => by
    obtain ⟨h1, h2, h3⟩ := C56_search l t
    unfold searchsorted
    split
    · rename_i hb
      refine ⟨by simpa using h1, ?_, by simpa using h3⟩
      intro i hi a ha
      cases i with
      | zero => simp only [List.getElem?_cons_zero, Option.some.injEq] at ha; rw [← ha]; exact hb
      | succ i => exact h2 i (by omega) a (by simpa using ha)
    · rename_i hb
      refine ⟨by simp, by intro i hi; omega, ?_⟩
      intro a ha
      simp only [List.getElem?_cons_zero, Option.some.injEq] at ha
      rw [← ha]; exact not_lt.mp hb

end Verif.InvSampler
