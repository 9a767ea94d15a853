import Verif.Figures
import Verif.StarState
import Verif.FlowChart
import Mathlib.Algebra.BigOperators.Group.List.Basic
import Mathlib.Algebra.Order.BigOperators.Group.List
import Mathlib.Data.List.GetD
/-!
Property theorems for C165 (figures of interpolators).
-/
namespace Verif.Figures

/-! ### Mesh -/

theorem flatten_get {A B C : Type} (f : A → B → C) (xs : List A) (ys : List B) (i j : ℕ) (hj : j < xs.length) :
    ((ys.map fun y => xs.map fun x => f x y).flatten)[i * xs.length + j]? = (ys[i]?).bind fun y => (xs[j]?).map fun x => f x y := by
  induction ys generalizing i with
  | nil => simp
  | cons y ys ih =>
    rw [List.map_cons, List.flatten_cons]
    cases i with
    | zero =>
      rw [Nat.zero_mul, Nat.zero_add, List.getElem?_append_left (by rw [List.length_map]; exact hj)]
      simp
    | succ i =>
      have e : (i + 1) * xs.length + j = xs.length + (i * xs.length + j) := by ring
      rw [e, List.getElem?_append_right (by rw [List.length_map]; omega), List.length_map]
      rw [show xs.length + (i * xs.length + j) - xs.length = i * xs.length + j by omega, ih]
      simp

/-- C165: a slice is drawn at `n` times `n` points with the mass ratio of its first run; the value at row `i` and column `j` belongs to entry `i * n + j` of the list that is evaluated. -/
theorem C165_mesh (r : Run) (l : List Run) (n : ℕ) :
    ∃ xx yy X, mesh (r :: l) n = .ok (xx, yy, X) ∧ X.length = n * n ∧ (∀ q ∈ X, q.x2 = r.x2) ∧
      ∀ i j, i < n → j < n → ∃ x y, (xx[i]?.bind (·[j]?)) = some x ∧ (yy[i]?.bind (·[j]?)) = some y ∧ X[i * n + j]? = some ⟨x, r.x2, y⟩ := by
  obtain ⟨_, _, _, _, _, e1⟩ := axis_spec ((r :: l).map (·.m1)) n (by simp)
  obtain ⟨_, _, _, _, _, e2⟩ := axis_spec ((r :: l).map (·.p)) n (by simp)
  generalize hx : logspace _ _ n = xs at e1
  generalize hy : logspace _ _ n = ys at e2
  have lx : xs.length = n := by rw [← hx]; exact logspace_length _ _ _
  have ly : ys.length = n := by rw [← hy]; exact logspace_length _ _ _
  refine ⟨ys.map fun _ => xs, ys.map fun y => xs.map fun _ => y, (ys.map fun y => xs.map fun x => Run.mk x r.x2 y).flatten, ?_, ?_, ?_, ?_⟩
  · unfold mesh; rw [e1, e2]
  · rw [List.length_flatten, List.map_map]
    have : (List.length ∘ fun y => xs.map fun x => Run.mk x r.x2 y) = fun _ => n := by
      funext y; simp [lx]
    rw [this, List.map_const', List.sum_replicate, ly, smul_eq_mul]
  · intro q hq
    obtain ⟨a, ha, hq⟩ := List.mem_flatten.1 hq
    obtain ⟨y, _, rfl⟩ := List.mem_map.1 ha
    obtain ⟨x, _, rfl⟩ := List.mem_map.1 hq
    rfl
  · intro i j hi hj
    have hi' : i < ys.length := by omega
    have hj' : j < xs.length := by omega
    refine ⟨xs[j], ys[i], ?_, ?_, ?_⟩
    · simp [hi', hj']
    · simp [hi', hj']
    · have := flatten_get (fun x y => Run.mk x r.x2 y) xs ys i j hj'
      rw [lx] at this
      rw [this, List.getElem?_eq_getElem hi', List.getElem?_eq_getElem hj']
      rfl

/-- C165: without runs there is no mesh. -/
theorem C165_empty (n : ℕ) : mesh [] n = .error .value := rfl

theorem logspace_get (a b : ℝ) (n i : ℕ) (h : i < n) : (logspace a b n)[i]? = some ((10 : ℝ) ^ (a + i * ((b - a) / ((n : ℝ) - 1)))) := by
  unfold logspace
  rw [List.getElem?_map, List.getElem?_range h]
  rfl

/-- C165: an axis of the mesh goes up from a fiftieth of the range, in logarithms, below the smallest value to as much above the largest, so that it covers all runs. -/
theorem C165_axis (xs : List ℝ) (n : ℕ) (hn : 2 ≤ n) (hx : xs ≠ []) (hp : ∀ x ∈ xs, 0 < x) :
    ∃ ys lo hi, axis xs n = .ok ys ∧ ys.length = n ∧ lo ∈ xs ∧ hi ∈ xs ∧ (∀ x ∈ xs, lo ≤ x ∧ x ≤ hi) ∧
      ys[0]? = some (lo * (lo / hi) ^ (1 / 50 : ℝ)) ∧ ys[n - 1]? = some (hi * (hi / lo) ^ (1 / 50 : ℝ)) ∧
      (∀ i a b, ys[i]? = some a → ys[i + 1]? = some b → a ≤ b) ∧ (lo < hi → ∀ i a b, ys[i]? = some a → ys[i + 1]? = some b → a < b) ∧
      ∀ x ∈ xs, lo * (lo / hi) ^ (1 / 50 : ℝ) ≤ x ∧ x ≤ hi * (hi / lo) ^ (1 / 50 : ℝ) := by
  obtain ⟨lo, hi, m1, m2, hr, e⟩ := axis_spec xs n hx
  have h1 := hp lo m1
  have h2 := hp hi m2
  have hle : lo ≤ hi := (hr lo m1).2
  have hll : Real.logb 10 lo ≤ Real.logb 10 hi := Real.logb_le_logb_of_le (by norm_num) h1 hle
  have hn' : (1 : ℝ) ≤ (n : ℝ) - 1 := by
    have : (2 : ℝ) ≤ n := by exact_mod_cast hn
    linarith
  set a := Real.logb 10 lo with ha
  set b := Real.logb 10 hi with hb
  have p1 : (10 : ℝ) ^ a = lo := Real.rpow_logb (by norm_num) (by norm_num) h1
  have p2 : (10 : ℝ) ^ b = hi := Real.rpow_logb (by norm_num) (by norm_num) h2
  have f1 : (10 : ℝ) ^ (a - (b - a) / 50) = lo * (lo / hi) ^ (1 / 50 : ℝ) := by
    rw [← p1, ← p2, ← Real.rpow_sub (by norm_num), ← Real.rpow_mul (by norm_num), ← Real.rpow_add (by norm_num)]
    congr 1; ring
  have f2 : (10 : ℝ) ^ (b + (b - a) / 50) = hi * (hi / lo) ^ (1 / 50 : ℝ) := by
    rw [← p1, ← p2, ← Real.rpow_sub (by norm_num), ← Real.rpow_mul (by norm_num), ← Real.rpow_add (by norm_num)]
    congr 1; ring
  have hstep : ∀ i x y, (logspace (a - (b - a) / 50) (b + (b - a) / 50) n)[i]? = some x → (logspace (a - (b - a) / 50) (b + (b - a) / 50) n)[i + 1]? = some y →
      ∃ c, x = (10 : ℝ) ^ c ∧ y = (10 : ℝ) ^ (c + (b + (b - a) / 50 - (a - (b - a) / 50)) / ((n : ℝ) - 1)) := by
    intro i x y hx hy
    have hi2 : i + 1 < n := by
      have := (List.getElem?_eq_some_iff.1 hy).1
      rwa [logspace_length] at this
    rw [logspace_get _ _ _ _ (by omega)] at hx
    rw [logspace_get _ _ _ _ hi2] at hy
    refine ⟨_, (Option.some.inj hx).symm, ?_⟩
    rw [← Option.some.inj hy]
    congr 1; push_cast; ring
  refine ⟨_, lo, hi, e, logspace_length _ _ _, m1, m2, hr, ?_, ?_, ?_, ?_, ?_⟩
  · rw [logspace_get _ _ _ _ (by omega), ← f1]
    norm_num
  · rw [logspace_get _ _ _ _ (by omega), ← f2]
    congr 2
    rw [Nat.cast_sub (by omega), Nat.cast_one, mul_div_cancel₀ _ (by linarith)]
    ring
  · intro i x y hx hy
    obtain ⟨c, rfl, rfl⟩ := hstep i x y hx hy
    apply Real.rpow_le_rpow_of_exponent_le (by norm_num)
    have : 0 ≤ (b + (b - a) / 50 - (a - (b - a) / 50)) / ((n : ℝ) - 1) := div_nonneg (by linarith) (by linarith)
    linarith
  · intro hlt i x y hx hy
    obtain ⟨c, rfl, rfl⟩ := hstep i x y hx hy
    have hab : a < b := Real.logb_lt_logb (by norm_num) h1 hlt
    apply Real.rpow_lt_rpow_of_exponent_lt (by norm_num)
    have : 0 < (b + (b - a) / 50 - (a - (b - a) / 50)) / ((n : ℝ) - 1) := div_pos (by linarith) (by linarith)
    linarith
  · intro x hx
    obtain ⟨g1, g2⟩ := hr x hx
    constructor
    · refine le_trans ?_ g1
      have : (lo / hi) ^ (1 / 50 : ℝ) ≤ 1 := Real.rpow_le_one (by positivity) ((div_le_one h2).2 hle) (by norm_num)
      nlinarith
    · refine g2.trans ?_
      have : 1 ≤ (hi / lo) ^ (1 / 50 : ℝ) := Real.one_le_rpow ((one_le_div h1).2 hle) (by norm_num)
      nlinarith

/-! ### Slices -/

open Classical in
/-- C165, axes with a logarithmic scale: if all steps of the axis are the same, no run is in two slices, and runs on the axis are in their own only. -/
theorem C165_slices (runs : List Run) (u0 q : ℝ) (hu : 0 < u0) (hq : 1 < q) (n : ℕ) (hn : 2 ≤ n) (hp : ∀ r ∈ runs, 0 < r.x2) :
    ∀ i, i < n → ∃ l, slice true runs (u0 * q ^ i) ((List.range n).map fun (k : ℕ) => u0 * q ^ k) = .ok l ∧
      (∀ r ∈ runs, ∀ k, k < n → r.x2 = u0 * q ^ k → (r ∈ l ↔ k = i)) ∧
      ∀ r ∈ l, ∀ j, j < n → j ≠ i → ∀ l', slice true runs (u0 * q ^ j) ((List.range n).map fun (k : ℕ) => u0 * q ^ k) = .ok l' → r ∉ l' := by
  obtain ⟨m, rfl⟩ : ∃ m, n = m + 2 := ⟨n - 2, by omega⟩
  have hax : (List.range (m + 2)).map (fun (k : ℕ) => u0 * q ^ k) = (u0 * q ^ 0) :: (u0 * q ^ 1) :: ((List.range m).map fun (k : ℕ) => u0 * q ^ (k + 1 + 1)) := by
    rw [List.range_succ_eq_map, List.map_cons, List.map_map, List.range_succ_eq_map, List.map_cons, List.map_map]
    rfl
  have hL : 0 < Real.logb 10 q := Real.logb_pos (by norm_num) hq
  have hlog : ∀ k : ℕ, Real.logb 10 (u0 * q ^ k) = Real.logb 10 u0 + k * Real.logb 10 q := by
    intro k
    rw [Real.logb_mul hu.ne' (by positivity), Real.logb_pow]
  have hball : ∀ x (i : ℕ), InScale.inBall true x (u0 * q ^ i) (u0 * q ^ 0) (u0 * q ^ 1) ↔
      (i : ℝ) * Real.logb 10 q - Real.logb 10 q / 2 < Real.logb 10 x - Real.logb 10 u0 ∧ Real.logb 10 x - Real.logb 10 u0 < i * Real.logb 10 q + Real.logb 10 q / 2 := by
    intro x i
    unfold InScale.inBall
    rw [if_pos rfl, hlog, hlog, hlog]
    push_cast
    constructor <;> rintro ⟨h1, h2⟩ <;> constructor <;> linarith
  have near : ∀ (i k : ℕ) (y : ℝ), (i : ℝ) * Real.logb 10 q - Real.logb 10 q / 2 < y → y < i * Real.logb 10 q + Real.logb 10 q / 2 →
      (k : ℝ) * Real.logb 10 q - Real.logb 10 q / 2 < y → y < k * Real.logb 10 q + Real.logb 10 q / 2 → i = k := by
    intro i k y a1 a2 a3 a4
    have b1 : (i : ℝ) < k + 1 := by nlinarith
    have b2 : (k : ℝ) < i + 1 := by nlinarith
    have c1 : i < k + 1 := by exact_mod_cast b1
    have c2 : k < i + 1 := by exact_mod_cast b2
    omega
  intro i hi
  rw [hax]
  refine ⟨_, rfl, ?_, ?_⟩
  · intro r hr k hk hx
    rw [List.mem_filter, decide_eq_true_eq, hball, hx, hlog]
    constructor
    · rintro ⟨_, h1, h2⟩
      exact (near i k _ h1 h2 (by linarith) (by linarith)).symm
    · rintro rfl
      exact ⟨hr, by linarith, by linarith⟩
  · intro r hr j hj hji l' hl' hr'
    cases hl'
    rw [List.mem_filter, decide_eq_true_eq, hball] at hr hr'
    exact hji (near j i _ hr'.2.1 hr'.2.2 hr.2.1 hr.2.2)

open Classical in
/-- C165 is violated on axes with a linear scale: all slices have all runs, and are drawn at the same points, with the mass ratio of the first run. -/
theorem C165_linear_violated (runs : List Run) (u0 u1 : ℝ) (us : List ℝ) (h : u0 < u1) (n : ℕ) (v : ℝ) :
    slice false runs v (u0 :: u1 :: us) = .ok runs ∧ points false runs v (u0 :: u1 :: us) n = mesh runs n := by
  have e : slice false runs v (u0 :: u1 :: us) = .ok runs := by
    unfold slice
    dsimp only
    congr 1
    rw [List.filter_eq_self]
    intro r _
    rw [decide_eq_true_eq]
    unfold InScale.inBall
    rw [if_neg (by simp)]
    constructor <;> linarith
  exact ⟨e, by unfold points; rw [e]⟩

/-- C165: an axis with less than two values is refused. -/
theorem C165_short_axis (log : Bool) (runs : List Run) (v : ℝ) (ux : List ℝ) (n : ℕ) (h : ux.length < 2) : points log runs v ux n = .error .index := by
  unfold points slice
  match ux, h with
  | [], _ => rfl
  | [_], _ => rfl

/-! ### Classes -/

theorem renumber_other (k : ℕ) (cs z : List Text) (h : ∀ t ∈ z, t ∉ cs) : renumber k cs z = z := by
  induction cs generalizing k z with
  | nil => rfl
  | cons c cs ih =>
    rw [renumber]
    have e : (z.map fun t => if t = c then Jobs.dec k else t) = z := by
      conv_rhs => rw [← List.map_id z]
      apply List.map_congr_left
      intro t ht
      rw [if_neg (fun (e : t = c) => h t ht (e ▸ List.mem_cons_self))]
      rfl
    rw [e, ih (k + 1) z fun t ht hc => h t ht (List.mem_cons_of_mem _ hc)]

theorem renumber_map (k : ℕ) (cs z : List Text) : renumber k cs z = (z.map fun t => renumber k cs [t]).flatten := by
  induction cs generalizing k z with
  | nil =>
    induction z with
    | nil => rfl
    | cons t z ih => rw [List.map_cons, List.flatten_cons, ← ih]; rfl
  | cons c cs ih =>
    rw [renumber, ih, List.map_map]
    congr 1

/-- C165: each class that is predicted is drawn with its number in the list of classes, if no class is called by such a number. -/
theorem C165_numbers (classes : List Text) (hn : ∀ k, Jobs.dec k ∉ classes) (z : List Text) (hz : ∀ t ∈ z, t ∈ classes) :
    renumber 0 classes z = z.map fun t => Jobs.dec (classes.idxOf t) := by
  have key : ∀ (cs : List Text) (k : ℕ) (t : Text), (∀ j, Jobs.dec j ∉ cs) → t ∈ cs → renumber k cs [t] = [Jobs.dec (k + cs.idxOf t)] := by
    intro cs
    induction cs with
    | nil => intro k t _ ht; cases ht
    | cons c cs ih =>
      intro k t hj ht
      rw [renumber]
      by_cases e : t = c
      · subst e
        rw [List.map_cons, List.map_nil, if_pos rfl, List.idxOf_cons_self, renumber_other]
        · rfl
        · intro s hs
          rw [List.mem_singleton.1 hs]
          exact fun hc => hj k (List.mem_cons_of_mem _ hc)
      · have ht' : t ∈ cs := (List.mem_cons.1 ht).resolve_left e
        rw [List.map_cons, List.map_nil, if_neg e, ih (k + 1) t (fun j hc => hj j (List.mem_cons_of_mem _ hc)) ht', List.idxOf_cons_ne _ (Ne.symm e)]
        congr 2
        omega
  rw [renumber_map]
  have : (z.map fun t => renumber 0 classes [t]) = z.map fun t => [Jobs.dec (classes.idxOf t)] := by
    apply List.map_congr_left
    intro t ht
    rw [key classes 0 t hn (hz t ht), Nat.zero_add]
  rw [this]
  clear this hz
  induction z with
  | nil => rfl
  | cons t z ih => rw [List.map_cons, List.flatten_cons, ih]; rfl

example : renumber 0 [(chars! "no_MT"), (chars! "stable_MT")] [(chars! "stable_MT"), (chars! "no_MT")] = [['1'], ['0']] := by decide +kernel

/-- Classes that are called by numbers are mixed up. -/
theorem C165_numbers_violated : ∃ classes z : List Text, classes.Nodup ∧ (∀ t ∈ z, t ∈ classes) ∧ renumber 0 classes z ≠ z.map fun t => Jobs.dec (classes.idxOf t) :=
  ⟨[['1'], ['0']], [['1'], ['0']], by decide, by decide, by decide +kernel⟩

/-- C165: up to twenty classes have a colour each, more are refused. -/
theorem C165_colours (classes : List Text) :
    (classes.length ≤ 20 → ∃ l, legend classes = .ok l ∧ l.map (·.2) = classes ∧ (l.map (·.1)).Nodup) ∧ (20 < classes.length → legend classes = .error .index) := by
  have hc : colours.length = 20 := rfl
  constructor
  · intro h
    refine ⟨_, if_pos (by omega), ?_, ?_⟩
    · exact List.map_snd_zip (by omega)
    · have e : (colours.zip classes).map (·.1) = colours.take classes.length := by
        rw [← List.unzip_fst, List.zip_eq_zip_take_min, List.unzip_fst, List.map_fst_zip]
        · congr 1; omega
        · simp
      rw [e]
      exact (show colours.Nodup by decide +kernel).sublist (List.take_sublist _ _)
  · intro h
    exact if_neg (by omega)

/-- C165: labels are cut to eleven characters. -/
theorem C165_short (lab : Text) : short lab = lab.take 11 := by
  unfold short
  by_cases h : lab.length < 12
  · rw [if_pos h, List.take_of_length_le (by omega)]
  · rw [if_neg h]

/-- C165 is violated by states of stars: different ones have the same label on the axes of a confusion matrix. -/
theorem C165_short_violated : ∃ s t : FlowChart.Star, s ≠ t ∧ short s.name.toList = short t.name.toList :=
  ⟨.hCoreH, .hCoreHe, by decide, by decide +kernel⟩

/-- C165: the numbers in a row of a confusion matrix are the percentages of its class: none is negative, and they add up to a hundred unless the class does not occur. -/
theorem C165_percent (row : List ℝ) (h : ∀ c ∈ row, 0 ≤ c) :
    (∀ p ∈ percent row, 0 ≤ p ∧ p ≤ 100) ∧ (row.sum ≠ 0 → (percent row).sum = 100) ∧ ((∀ c ∈ row, c = 0) → ∀ p ∈ percent row, p = 0) ∧
      ∀ k, 0 < k → percent (row.map (k * ·)) = percent row ∨ row.sum = 0 := by
  have hs : 0 ≤ row.sum := List.sum_nonneg h
  have hsum : ∀ (l : List ℝ) (s : ℝ), (l.map fun c => 100 * c / s).sum = 100 * l.sum / s := by
    intro l s
    induction l with
    | nil => simp
    | cons c l ih => rw [List.map_cons, List.sum_cons, ih, List.sum_cons]; ring
  refine ⟨?_, ?_, ?_, ?_⟩
  · intro p hp
    obtain ⟨c, hc, rfl⟩ := List.mem_map.1 hp
    have hle : c ≤ row.sum := List.single_le_sum h c hc
    by_cases e : row.sum = 0
    · rw [if_pos e]
      have := h c hc
      constructor <;> linarith
    · rw [if_neg e]
      have hpos : 0 < row.sum := lt_of_le_of_ne hs (Ne.symm e)
      have := h c hc
      refine ⟨by positivity, ?_⟩
      rw [div_le_iff₀ hpos]
      linarith
  · intro e
    unfold percent
    dsimp only
    rw [if_neg e, hsum, mul_div_assoc, div_self e, mul_one]
  · intro h0 p hp
    obtain ⟨c, hc, rfl⟩ := List.mem_map.1 hp
    rw [h0 c hc, mul_zero, zero_div]
  · intro k hk
    by_cases e : row.sum = 0
    · exact .inr e
    · left
      unfold percent
      dsimp only
      have es : (row.map (k * ·)).sum = k * row.sum := by
        have := List.sum_map_mul_left row (fun x => x) k
        rwa [List.map_id'] at this
      rw [es, if_neg (mul_ne_zero hk.ne' e), if_neg e, List.map_map]
      apply List.map_congr_left
      intro c _
      simp only [Function.comp]
      field_simp

/-! ### Errors -/

/-- C165: relative errors are those of the definition, without division by zero. -/
theorem C165_relative (range gt y : ℝ) :
    0 ≤ error (chars! "$e_r$") range gt y ∧ (error (chars! "$e_r$") range gt y = 0 ↔ y = gt) ∧ (gt ≠ 0 → error (chars! "$e_r$") range gt y ≤ |gt - y| / |gt|) ∧
      error (chars! "$e_r$") range gt y * (|gt| + 1 / 10 ^ 16) = |gt - y| := by
  have e : error (chars! "$e_r$") range gt y = |gt - y| / (|gt| + 1 / 10 ^ 16) := by
    unfold error
    dsimp only
    rw [if_neg (by decide), if_pos rfl]
    norm_num
  have hp : 0 < |gt| + 1 / 10 ^ 16 := by positivity
  rw [e]
  refine ⟨by positivity, ?_, ?_, ?_⟩
  · rw [div_eq_zero_iff, abs_eq_zero, sub_eq_zero]
    constructor
    · rintro (h | h)
      · exact h.symm
      · exact absurd h hp.ne'
    · exact fun h => .inl h.symm
  · intro hg
    have := abs_pos.2 hg
    apply div_le_div_of_nonneg_left (abs_nonneg _) this
    norm_num
  · rw [div_mul_cancel₀ _ hp.ne']

/-- C165 is violated by errors relative to the range: no kind of error is called as in the comparison, and their figure shows absolute errors. -/
theorem C165_range_violated (range gt y : ℝ) :
    (chars! "$e_a/range$") ∉ kinds ∧ error (chars! "$e_d (e_a/range)$") range gt y = |gt - y| ∧ error (chars! "$e_a$") range gt y = |gt - y| := by
  refine ⟨by decide +kernel, ?_, ?_⟩
  · unfold error
    dsimp only
    rw [if_neg (by decide), if_neg (by decide)]
  · unfold error
    dsimp only
    rw [if_neg (by decide), if_neg (by decide)]

/-- C165: each kind of error of a quantity has a file. -/
theorem C165_error_files (i j : ℕ) (key : Text) (e e' : Text) (h1 : e ∈ kinds) (h2 : e' ∈ kinds) (h : errorFile i key e = errorFile j key e') : e = e' := by
  have l : ∀ e ∈ kinds, ((e.drop 1).take 3 ++ (chars! ".png")).length = 7 := by decide +kernel
  have u : ∀ e ∈ kinds, ∀ e' ∈ kinds, (e.drop 1).take 3 ++ (chars! ".png") = (e'.drop 1).take 3 ++ (chars! ".png") → e = e' := by decide +kernel
  apply u e h1 e' h2
  have r : ∀ i e, errorFile i key e = (Jobs.dec i ++ '_' :: key ++ ['_']) ++ ((e.drop 1).take 3 ++ (chars! ".png")) := by
    intro i e
    unfold errorFile
    simp only [List.append_assoc, List.cons_append, List.nil_append]
  rw [r, r] at h
  exact (List.append_inj' h (by rw [l e h1, l e' h2])).2

theorem take_drop_chunk (l : List ℕ) (i : ℕ) (h : (i + 1) * 10 ≤ l.length) : ((l.take (min ((i + 1) * 10) l.length)).drop (i * 10)).length = 10 := by
  rw [List.length_drop, List.length_take]
  omega

theorem chunks (l : List ℕ) (k : ℕ) (h : k * 10 ≤ l.length) :
    ((List.range k).map fun (i : ℕ) => (l.take (min ((i + 1) * 10) l.length)).drop (i * 10)).flatten = l.take (k * 10) := by
  induction k with
  | zero => simp
  | succ k ih =>
    rw [List.range_succ, List.map_append, List.flatten_append, ih (by omega), List.map_cons, List.map_nil, List.flatten_cons, List.flatten_nil, List.append_nil,
      Nat.min_eq_left h]
    have : l.take (k * 10) = (l.take ((k + 1) * 10)).take (k * 10) := by
      rw [List.take_take, Nat.min_eq_left (by omega)]
    rw [this, List.take_append_drop]

/-- C165: with twenty quantities or more, the panels show full tens of quantities in their order, ten each. -/
theorem C165_panels_partial (order : List ℕ) (h : 20 ≤ order.length) :
    ∃ ps, panels order = .ok ps ∧ (∀ p ∈ ps, p.length = 10) ∧ ps.flatten = order.take (order.length / 10 * 10) ∧ (ps.flatten = order ↔ 10 ∣ order.length) := by
  have e : ((List.range (order.length / 10)).map fun (i : ℕ) => (order.take (min ((i + 1) * 10) order.length)).drop (i * 10)).flatten = order.take (order.length / 10 * 10) :=
    chunks order _ (Nat.div_mul_le_self _ _)
  refine ⟨_, ?_, ?_, e, ?_⟩
  · unfold panels
    dsimp only
    rw [if_neg (by omega), if_neg (by omega)]
  · intro p hp
    obtain ⟨i, hi, rfl⟩ := List.mem_map.1 hp
    rw [List.mem_range] at hi
    exact take_drop_chunk order i (by omega)
  · rw [e, List.take_eq_self_iff]
    omega

/-- C165 is violated by other numbers of quantities: with less than twenty there is no figure, and the last ones after full tens, those with the largest errors, are not shown. -/
theorem C165_panels_violated (order : List ℕ) :
    (order.length < 10 → panels order = .error .value) ∧ (10 ≤ order.length → order.length < 20 → panels order = .error .type) ∧
      (20 ≤ order.length → order.Nodup → ∀ i, order.length / 10 * 10 ≤ i → ∀ (hi : i < order.length), ∃ ps, panels order = .ok ps ∧ order[i] ∉ ps.flatten) := by
  refine ⟨fun h => ?_, fun h1 h2 => ?_, fun h hd i h1 hi => ?_⟩
  · unfold panels
    dsimp only
    rw [if_pos (by omega)]
  · unfold panels
    dsimp only
    rw [if_neg (by omega), if_pos (by omega)]
  · obtain ⟨ps, e, _, f, _⟩ := C165_panels_partial order h
    refine ⟨ps, e, ?_⟩
    rw [f]
    intro hm
    obtain ⟨j, hj, ej⟩ := List.getElem_of_mem hm
    rw [List.length_take] at hj
    rw [List.getElem_take] at ej
    have := (List.Nodup.getElem_inj_iff hd).1 ej
    omega

/-! ### Files -/

theorem written_spec {V : Type} (l : List (Text × V)) (hd : (l.map (·.1)).Nodup) (f : Text) (v : V) (h : (f, v) ∈ l) : written l f = some v := by
  induction l with
  | nil => cases h
  | cons a l ih =>
    obtain ⟨g, w⟩ := a
    rw [List.map_cons, List.nodup_cons] at hd
    rw [written]
    rcases List.mem_cons.1 h with e | h
    · cases e
      have hno : ∀ l : List (Text × V), f ∉ l.map (·.1) → written l f = none := by
        intro l hl
        induction l with
        | nil => rfl
        | cons b l ih =>
          rw [List.map_cons, List.mem_cons, not_or] at hl
          rw [written, ih hl.2]
          exact if_neg (Ne.symm hl.1)
      rw [hno l hd.1]
      exact if_pos rfl
    · rw [ih hd.2 h]

/-- C165: the confusion matrices of models with different methods of classification are all kept. -/
theorem C165_files_partial {V : Type} (key : Text) (ms : List (Methods × V)) (hd : (ms.map (·.1.cls)).Nodup) (m : Methods × V) (hm : m ∈ ms) :
    written (ms.map fun m => (confFile key m.1, m.2)) (confFile key m.1) = some m.2 := by
  apply written_spec
  · rw [List.map_map]
    have : ((fun a : Text × V => a.1) ∘ fun m : Methods × V => (confFile key m.1, m.2)) = (fun c : Text => key ++ '_' :: c ++ (chars! ".png")) ∘ fun m : Methods × V => m.1.cls := rfl
    rw [this, ← List.map_map]
    refine hd.map ?_
    intro a b h
    dsimp only at h
    rw [List.append_cancel_right_eq, List.append_cancel_left_eq] at h
    exact (List.cons.inj h).2
  · exact List.mem_map_of_mem hm

/-- C165 is violated by models with the same one, whatever their interpolation: the last one takes the place of the others. -/
theorem C165_files_violated {V : Type} (key : Text) (m m' : Methods) (v w : V) (h : m.cls = m'.cls) :
    written [(confFile key m, v), (confFile key m', w)] (confFile key m) = some w := by
  have e : confFile key m' = confFile key m := by unfold confFile; rw [h]
  rw [written, written, written, e]
  simp

/-- C165 is violated by the training for an assessment: it makes its directories, but passes parameters that interpolators do not have, and always fails. -/
theorem C165_train_violated (d : Dirs) (loads : Bool) :
    (trainAndAssess d loads).1 = ⟨true, true, true, true⟩ ∧ (trainAndAssess d loads).2 = .error (if loads then .type else .value) := by
  obtain ⟨a, b, c, e⟩ := d
  revert a b c e loads
  decide +kernel

/-- The hypotheses can be met: two slices with one run each. -/
example : ∃ l, slice true [⟨5, 1, 2⟩, ⟨6, 10, 3⟩] 10 [1, 10] = .ok l ∧ (⟨6, 10, 3⟩ : Run) ∈ l ∧ (⟨5, 1, 2⟩ : Run) ∉ l := by
  obtain ⟨l, h1, h2, _⟩ := C165_slices [⟨5, 1, 2⟩, ⟨6, 10, 3⟩] 1 10 (by norm_num) (by norm_num) 2 (by norm_num) (by simp) 1 (by norm_num)
  refine ⟨l, ?_, ?_, ?_⟩
  · rw [← h1]
    norm_num [List.range_succ]
  · exact (h2 _ (by simp) 1 (by norm_num) (by norm_num)).2 rfl
  · intro h
    exact absurd ((h2 _ (by simp) 0 (by norm_num) (by norm_num)).1 h) (by norm_num)

example : ∃ ys lo hi, axis [1, 100] 3 = .ok ys ∧ ys.length = 3 ∧ ys[0]? = some (lo * (lo / hi) ^ (1 / 50 : ℝ)) ∧ lo ∈ [(1 : ℝ), 100] := by
  obtain ⟨ys, lo, hi, h1, h2, h3, _, _, h4, _⟩ := C165_axis [1, 100] 3 (by norm_num) (by simp) (by simp)
  exact ⟨ys, lo, hi, h1, h2, h4, h3⟩

example : (panels (List.range 23)).toOption.map (·.flatten) = some (List.range 20) := by decide +kernel

end Verif.Figures
