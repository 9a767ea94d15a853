import Mathlib.Analysis.Real.Sqrt
import Mathlib.Tactic.NormNum
import Mathlib.Tactic.Linarith
import Mathlib.Tactic.FieldSimp
import Mathlib.Tactic.SplitIfs
import Mathlib.Tactic.Ring
import Mathlib.Tactic.Positivity
/-!
Model of the samplers in `/repo/posydon/utils/common_functions.py`: `inverse_sampler` (l.734-794), `histogram_sampler` (l.797-837),
`rejection_sampler` (l.672-731).

Simplifications: real numbers, one sample at a time (the arrays are computed entry by entry); the random draws are arguments.
-/
namespace Verif.InvSampler

noncomputable section
open Classical

/-- `segment_areas`, l.762, of the list of points `(x, y)`. -/
def areas : List (ℝ × ℝ) → List ℝ
  | p0 :: p1 :: r => (1 / 2) * (p1.2 + p0.2) * (p1.1 - p0.1) :: areas (p1 :: r)
  | _ => []

/-- `np.cumsum`, l.764, starting from `acc`. -/
def cumsum (acc : ℝ) : List ℝ → List ℝ
  | [] => []
  | a :: l => (acc + a) :: cumsum (acc + a) l

/-- `np.searchsorted(l, t)` (side left) on a sorted list, l.770. -/
def searchsorted : List ℝ → ℝ → ℕ
  | [], _ => 0
  | a :: l, t => if a < t then searchsorted l t + 1 else 0

inductive Err
  | assertion
  | index
  deriving DecidableEq

/-- l.776-792: the sample in bin `i` for the remaining area `delta`; `v` is the extra draw of flat bins. -/
def inBin (p0 p1 : ℝ × ℝ) (delta v : ℝ) : ℝ :=
  let dx := p1.1 - p0.1
  let dy := p1.2 - p0.2
  if dy = 0 then p0.1 + dx * v
  else p0.1 + dx * (Real.sqrt (p0.2 ^ 2 + 2 * delta * dy / dx) - p0.2) / dy

/-- l.757-759. -/
def valid : List (ℝ × ℝ) → Prop
  | p0 :: p1 :: r => p0.1 < p1.1 ∧ 0 ≤ p0.2 ∧ valid (p1 :: r)
  | [p] => 0 ≤ p.2
  | [] => True

/-- `inverse_sampler`, for one draw `u` (and the draw `v` that is only used in flat bins). -/
def inverseSampler (pts : List (ℝ × ℝ)) (u v : ℝ) : Except Err ℝ :=
  if ¬ valid pts then .error .assertion
  else
    let cs := cumsum 0 (areas pts)
    match cs.getLast? with
    | none => .error .index
    | some total =>
      let i := searchsorted cs (u * total)
      let delta := if i = 0 then total * u else total * u - cs.getD (i - 1) 0
      match pts[i]?, pts[i + 1]? with
      | some p0, some p1 => .ok (inBin p0 p1 delta v)
      | _, _ => .error .index

/-- `histogram_sampler`, l.819-837, for one sample: `b` is the bin chosen by `rng.choice`, `v` the uniform draw. -/
def histogramSampler (edges y : List ℝ) (b : ℕ) (v : ℝ) : Except Err ℝ :=
  if ¬ ∀ a ∈ y, 0 ≤ a then .error .assertion
  else if ¬ (0 < y.length ∧ edges.length = y.length + 1) then .error .assertion
  else
    match edges[b]?, edges[b + 1]? with
    | some lo, some hi => .ok (lo + (hi - lo) * v)
    | _, _ => .error .index

/-- One batch of `rejection_sampler`, l.709-711: the accepted points of the draws `(x, y)`. -/
def accepted (pdf : ℝ → ℝ) (draws : List (ℝ × ℝ)) : List ℝ := (draws.filter (fun d => decide (d.2 ≤ pdf d.1))).map (·.1)

/-- The loop l.712-716 (and l.725-729): as long as points are missing, a batch with exactly as many draws as points are missing.
`draws` is the stream of draws; `fuel` bounds the number of rounds, `none` means that the loop is still running. -/
def rejectLoop (pdf : ℝ → ℝ) (size : ℕ) : ℕ → List ℝ → List (ℝ × ℝ) → Option (List ℝ)
  | 0, _, _ => none
  | fuel + 1, values, draws =>
    if values.length < size then
      let n := size - values.length
      rejectLoop pdf size fuel (values ++ accepted pdf (draws.take n)) (draws.drop n)
    else some values

/-- `rejection_sampler`: the first batch has `size` draws, l.709-711. -/
def rejectionSampler (pdf : ℝ → ℝ) (size fuel : ℕ) (draws : List (ℝ × ℝ)) : Option (List ℝ) :=
  rejectLoop pdf size fuel (accepted pdf (draws.take size)) (draws.drop size)

/-! ### Specification -/

/-- Area under the broken line through the points, from the first point up to `s`. -/
def areaTo : List (ℝ × ℝ) → ℝ → ℝ
  | p0 :: p1 :: r, s =>
    if s ≤ p1.1 then (s - p0.1) * (p0.2 + (p0.2 + (p1.2 - p0.2) * ((s - p0.1) / (p1.1 - p0.1)))) / 2
    else (p1.1 - p0.1) * (p0.2 + p1.2) / 2 + areaTo (p1 :: r) s
  | _, _ => 0

/-- The whole area. -/
def total : List (ℝ × ℝ) → ℝ
  | p0 :: p1 :: r => (p1.1 - p0.1) * (p0.2 + p1.2) / 2 + total (p1 :: r)
  | _ => 0

/-! ### Lemmas -/

theorem areas_nonneg : ∀ pts, valid pts → ∀ a ∈ areas pts, 0 ≤ a
  | [], _, a, h => by simp [areas] at h
  | [p], _, a, h => by simp [areas] at h
  | p0 :: p1 :: r, hv, a, h => by
    simp only [areas, List.mem_cons] at h
    obtain ⟨hx, hy, hr⟩ := hv
    have hy1 : 0 ≤ p1.2 := by
      cases r with
      | nil => exact hr
      | cons => exact hr.2.1
    rcases h with h | h
    · subst h
      have : 0 < p1.1 - p0.1 := by linarith
      positivity
    · exact areas_nonneg (p1 :: r) hr a h

theorem getLast_cumsum : ∀ (l : List ℝ) (acc : ℝ), l ≠ [] → (cumsum acc l).getLast? = some (acc + l.sum)
  | [], _, h => absurd rfl h
  | [a], acc, _ => by simp [cumsum]
  | a :: b :: l, acc, _ => by
    have := getLast_cumsum (b :: l) (acc + a) (by simp)
    rw [cumsum, List.getLast?_cons, this]
    simp [add_assoc]

theorem areas_sum : ∀ pts, (areas pts).sum = total pts
  | [] => by simp [areas, total]
  | [p] => by simp [areas, total]
  | p0 :: p1 :: r => by
    rw [areas, List.sum_cons, areas_sum (p1 :: r), total]
    ring

/-- The computation inside one bin. -/
theorem inBin_spec (p0 p1 : ℝ × ℝ) (d v : ℝ) (hx : p0.1 < p1.1) (h0 : 0 ≤ p0.2) (h1 : 0 ≤ p1.2) (hd0 : 0 ≤ d)
    (hd1 : d ≤ (p1.1 - p0.1) * (p0.2 + p1.2) / 2) (hy : p1.2 - p0.2 ≠ 0) :
    p0.1 ≤ inBin p0 p1 d v ∧ inBin p0 p1 d v ≤ p1.1 ∧
      (inBin p0 p1 d v - p0.1) * (p0.2 + (p0.2 + (p1.2 - p0.2) * ((inBin p0 p1 d v - p0.1) / (p1.1 - p0.1)))) / 2 = d := by
  have hdx : 0 < p1.1 - p0.1 := by linarith
  simp only [inBin]
  rw [if_neg hy]
  set dx := p1.1 - p0.1 with hdxe
  set dy := p1.2 - p0.2 with hdye
  set R := p0.2 ^ 2 + 2 * d * dy / dx with hR
  have hy1 : p1.2 = p0.2 + dy := by rw [hdye]; ring
  -- d / dx is at most the mean height
  obtain ⟨k, hk⟩ : ∃ k, k = d / dx := ⟨_, rfl⟩
  have hk0 : 0 ≤ k := by rw [hk]; positivity
  have hk1 : k ≤ (p0.2 + p1.2) / 2 := by
    rw [hk, div_le_iff₀ hdx]; linarith
  have hRk : R = p0.2 ^ 2 + 2 * k * dy := by rw [hR, hk]; ring
  have hdk : d = k * dx := by rw [hk]; field_simp
  have hR0 : 0 ≤ R := by
    rw [hRk]
    rcases le_total 0 dy with h | h
    · positivity
    · nlinarith [mul_nonneg (sub_nonneg.2 hk1) (neg_nonneg.2 h), sq_nonneg p1.2]
  have hs := Real.sq_sqrt hR0
  have hs0 := Real.sqrt_nonneg R
  set s := Real.sqrt R
  have hfr : 0 ≤ (s - p0.2) / dy ∧ (s - p0.2) / dy ≤ 1 := by
    rcases lt_or_gt_of_ne hy with h | h
    · -- falling
      have hle : s ≤ p0.2 := by
        apply Real.sqrt_le_iff.2 ⟨h0, ?_⟩
        rw [hRk]; nlinarith
      have hge : p1.2 ≤ s := by
        apply Real.le_sqrt_of_sq_le
        rw [hRk]; nlinarith
      constructor
      · rw [div_nonneg_iff]; right; exact ⟨by linarith, h.le⟩
      · rw [div_le_one_of_neg h]; linarith
    · have hge : p0.2 ≤ s := by
        apply Real.le_sqrt_of_sq_le
        rw [hRk]; nlinarith
      have hle : s ≤ p1.2 := by
        apply Real.sqrt_le_iff.2 ⟨h1, ?_⟩
        rw [hRk]; nlinarith
      constructor
      · exact div_nonneg (by linarith) h.le
      · rw [div_le_one h]; linarith
  have he : p0.1 + dx * (s - p0.2) / dy = p0.1 + dx * ((s - p0.2) / dy) := by ring
  rw [he]
  refine ⟨by nlinarith [hfr.1], by nlinarith [hfr.2], ?_⟩
  have e1 : p0.1 + dx * ((s - p0.2) / dy) - p0.1 = dx * ((s - p0.2) / dy) := by ring
  rw [e1]
  have e2 : dx * ((s - p0.2) / dy) / dx = (s - p0.2) / dy := by field_simp
  rw [e2, mul_div_cancel₀ _ hy]
  have : dx * ((s - p0.2) / dy) * (p0.2 + (p0.2 + (s - p0.2))) / 2 = dx * ((s ^ 2 - p0.2 ^ 2) / dy) / 2 := by ring
  rw [this, hs, hRk, hdk]
  field_simp
  ring

/-- The bin found by `searchsorted` and the remaining area, for points seen after an area `acc`. -/
theorem bin_spec : ∀ (pts : List (ℝ × ℝ)) (acc t v : ℝ), valid pts → areas pts ≠ [] → acc ≤ t → t ≤ acc + (areas pts).sum →
    ∃ p0 p1 d, pts[searchsorted (cumsum acc (areas pts)) t]? = some p0 ∧ pts[searchsorted (cumsum acc (areas pts)) t + 1]? = some p1 ∧
      d = t - (if searchsorted (cumsum acc (areas pts)) t = 0 then acc
        else (cumsum acc (areas pts)).getD (searchsorted (cumsum acc (areas pts)) t - 1) 0) ∧
      p0.1 < p1.1 ∧ 0 ≤ p0.2 ∧ 0 ≤ p1.2 ∧ 0 ≤ d ∧ d ≤ (p1.1 - p0.1) * (p0.2 + p1.2) / 2 ∧
      (∀ s, p0.1 ≤ s → s ≤ p1.1 → acc + areaTo pts s =
        (t - d) + (s - p0.1) * (p0.2 + (p0.2 + (p1.2 - p0.2) * ((s - p0.1) / (p1.1 - p0.1)))) / 2)
  | [], _, _, _, _, h, _, _ => absurd rfl h
  | [p], _, _, _, _, h, _, _ => absurd rfl h
  | p0 :: p1 :: r, acc, t, v, hv, _, h0, h1 => by
    obtain ⟨hx, hy, hr⟩ := hv
    have hy1 : 0 ≤ p1.2 := by
      cases r with
      | nil => exact hr
      | cons => exact hr.2.1
    have hA : (1 / 2) * (p1.2 + p0.2) * (p1.1 - p0.1) = (p1.1 - p0.1) * (p0.2 + p1.2) / 2 := by ring
    by_cases hlt : acc + (1 / 2) * (p1.2 + p0.2) * (p1.1 - p0.1) < t
    · have hne : areas (p1 :: r) ≠ [] := by
        intro he
        rw [areas, he] at h1
        simp at h1
        simp only [one_div] at hlt
        linarith
      rw [areas, List.sum_cons] at h1
      obtain ⟨q0, q1, d, e0, e1, ed, a1, a2, a3, a4, a5, a6⟩ := bin_spec (p1 :: r)
        (acc + (1 / 2) * (p1.2 + p0.2) * (p1.1 - p0.1)) t v hr hne hlt.le (by linarith)
      refine ⟨q0, q1, d, ?_, ?_, ?_, a1, a2, a3, a4, a5, ?_⟩
      · simp only [areas, cumsum, searchsorted, if_pos hlt]
        simpa using e0
      · simp only [areas, cumsum, searchsorted, if_pos hlt]
        simpa using e1
      · simp only [areas, cumsum, searchsorted, if_pos hlt]
        rw [ed, if_neg (Nat.succ_ne_zero _), Nat.add_sub_cancel]
        congr 1
        split_ifs with hz
        · rw [hz]; rfl
        · obtain ⟨j, hj⟩ := Nat.exists_eq_succ_of_ne_zero hz
          rw [hj]; rfl
      · intro s hs0 hs1
        have h6 := a6 s hs0 hs1
        -- the bin is to the right of the first point of the rest
        have hge : p1.1 ≤ q0.1 := by
          have : ∀ (l : List (ℝ × ℝ)) (a : ℝ × ℝ) (i : ℕ) (q : ℝ × ℝ), valid (a :: l) → (a :: l)[i]? = some q → a.1 ≤ q.1 := by
            intro l
            induction l with
            | nil =>
              intro a i q _ hq
              cases i with
              | zero => simp at hq; rw [hq]
              | succ i => simp at hq
            | cons b l ih =>
              intro a i q hval hq
              cases i with
              | zero => simp at hq; rw [hq]
              | succ i =>
                have := ih b i q hval.2.2 (by simpa using hq)
                linarith [hval.1]
          exact this r p1 _ q0 hr e0
        by_cases hsx : s ≤ p1.1
        · -- then s is the common point
          have hs : s = p1.1 := le_antisymm hsx (hge.trans hs0)
          have hz : areaTo (p1 :: r) s = 0 := by
            cases r with
            | nil => rfl
            | cons p2 r =>
              simp only [areaTo]
              rw [if_pos (by rw [hs]; exact hr.1.le), hs]
              simp
          rw [hz] at h6
          simp only [areaTo]
          rw [if_pos hsx, ← h6, hs]
          have : p1.1 - p0.1 ≠ 0 := by linarith
          rw [div_self this]
          ring
        · simp only [areaTo]
          rw [if_neg hsx, ← h6]
          ring
    · refine ⟨p0, p1, t - acc, ?_, ?_, ?_, hx, hy, hy1, by linarith, ?_, ?_⟩
      · simp only [areas, cumsum, searchsorted, if_neg hlt]; rfl
      · simp only [areas, cumsum, searchsorted, if_neg hlt]; rfl
      · simp only [areas, cumsum, searchsorted, if_neg hlt, if_true]
      · rw [← hA]; linarith
      · intro s hs0 hs1
        simp only [areaTo]
        rw [if_pos hs1]
        ring

end

end Verif.InvSampler
