import Verif.Sampler
import Mathlib.Algebra.Order.Archimedean.Basic
import Mathlib.Tactic.FieldSimp
import Mathlib.Tactic.Positivity
import Mathlib.Tactic.NormNum
import Mathlib.Tactic.FinCases

/-!
# The sampler of new grid points, Markov chains: properties (C108)
-/

namespace Verif.Sampler

noncomputable section

open Classical

variable {d : ℕ}

/-! ### One chain -/

/-- The number of trials: it is the requested one unless the limit of rejections is reached, which is never exceeded;
the history starts at the given position and has one more entry for every accepted trial. -/
theorem C108_counts (e : Env d) (T : ℝ) (limit : ℕ) (noise : ℕ → Pos d) (chance : ℕ → ℝ) (N : ℕ)
    (x0 : Pos d) : let r := runMCMC e T limit noise chance N x0
    r.acc + r.rej ≤ N ∧ r.rej ≤ limit ∧ (r.acc + r.rej = N ∨ r.rej = limit) ∧
    r.hist.length = r.acc + 1 ∧ r.hist.head? = some x0 := by
  have h := loop_counts e T limit noise chance N ⟨[], x0, 0, 0⟩
  have hinv := loop_inv e T limit noise chance
    (fun s => s.past.length = s.acc ∧ s.hist.head? = some x0)
    (by
      rintro s ⟨h1, h2⟩ -
      unfold trial
      split
      · refine ⟨by simp [h1], ?_⟩
        unfold St.hist at h2 ⊢
        rw [List.reverse_cons, List.append_assoc]
        cases hp : s.past.reverse with
        | nil => rw [hp] at h2; simpa using h2
        | cons a l => rw [hp] at h2; simpa using h2
      · exact ⟨h1, h2⟩)
    N ⟨[], x0, 0, 0⟩ ⟨rfl, rfl⟩
  dsimp only at h ⊢
  obtain ⟨h1, h2, h3⟩ := h
  have h4 := h3 (Nat.zero_le _)
  refine ⟨by simpa [runMCMC] using h1, h4, ?_, ?_, hinv.2⟩
  · rcases h2 with h2 | h2
    · exact .inl (by simpa [runMCMC] using h2)
    · exact .inr (le_antisymm h4 h2)
  · simp only [St.hist, List.length_append, List.length_reverse, List.length_singleton]
    exact congrArg (· + 1) hinv.1

/-- Every entry of the history follows from the one before by the step of some trial whose random number is not above
the acceptance probability of the two. -/
theorem C108_steps (e : Env d) (T : ℝ) (limit : ℕ) (noise : ℕ → Pos d) (chance : ℕ → ℝ) (N : ℕ)
    (x0 : Pos d) :
    (runMCMC e T limit noise chance N x0).hist.IsChain fun x y =>
      ∃ k, y = x + noise k ∧ chance k ≤ accProb e T x y := by
  have hinv := loop_inv e T limit noise chance
    (fun s => (s.cur :: s.past).IsChain fun y x =>
      ∃ k, y = x + noise k ∧ chance k ≤ accProb e T x y)
    (by
      intro s h _
      unfold trial
      by_cases hc : chance (s.acc + s.rej) ≤ accProb e T s.cur (s.cur + noise (s.acc + s.rej))
      · rw [if_pos hc]
        exact List.IsChain.cons_cons ⟨_, rfl, hc⟩ h
      · rw [if_neg hc]
        exact h)
    N ⟨[], x0, 0, 0⟩ (List.IsChain.singleton _)
  have : (runMCMC e T limit noise chance N x0).hist =
      ((runMCMC e T limit noise chance N x0).cur ::
        (runMCMC e T limit noise chance N x0).past).reverse := by simp [St.hist]
  rw [this, List.isChain_reverse]
  exact hinv

theorem accProb_outside (e : Env d) {T : ℝ} (hT : 0 < T) (x y : Pos d) (h : ¬e.Inside y) :
    accProb e T x y = 0 := by
  have hne : (1 / T) ≠ 0 := (one_div_pos.mpr hT).ne'
  unfold accProb trialVal
  rw [if_neg h, zero_div, ite_self, Real.zero_rpow hne]
  simp

theorem accProb_zero (e : Env d) {T : ℝ} (hT : 0 < T) (x y : Pos d) (h : e.target x = 0) :
    accProb e T x y = 0 := by
  have hne : (1 / T) ≠ 0 := (one_div_pos.mpr hT).ne'
  unfold accProb
  rw [if_pos h, Real.zero_rpow hne]
  simp

theorem run_inside (e : Env d) {T : ℝ} (hT : 0 < T) (limit : ℕ) (noise : ℕ → Pos d)
    (chance : ℕ → ℝ) (hc : ∀ k, 0 < chance k) (N : ℕ) (x0 : Pos d) (h0 : e.Inside x0) :
    ∀ x ∈ (runMCMC e T limit noise chance N x0).hist, e.Inside x := by
  have hinv := loop_inv e T limit noise chance
    (fun s => ∀ x ∈ s.hist, e.Inside x)
    (by
      intro s h _
      unfold trial
      by_cases hk : chance (s.acc + s.rej) ≤ accProb e T s.cur (s.cur + noise (s.acc + s.rej))
      · rw [if_pos hk]
        have hin : e.Inside (s.cur + noise (s.acc + s.rej)) := by
          by_contra hno
          rw [accProb_outside e hT _ _ hno] at hk
          exact absurd (hc _) (not_lt.mpr hk)
        intro x hx
        simp only [St.hist, List.reverse_cons, List.append_assoc, List.mem_append,
          List.mem_reverse, List.mem_singleton] at hx
        rcases hx with hx | rfl | rfl
        · exact h x (by simp [St.hist, hx])
        · exact h _ (by simp [St.hist])
        · exact hin
      · rw [if_neg hk]
        exact h)
    N ⟨[], x0, 0, 0⟩ (by simpa [St.hist] using h0)
  exact hinv

/-- A chain that starts in the ranges of the inputs stays in them, unless a random number is exactly 0. -/
theorem C108_inside_partial (e : Env d) {T : ℝ} (hT : 0 < T) (limit : ℕ) (noise : ℕ → Pos d)
    (chance : ℕ → ℝ) (hc : ∀ k, 0 < chance k) (N : ℕ) (x0 : Pos d) (h0 : e.Inside x0) :
    ∀ x ∈ (runMCMC e T limit noise chance N x0).hist, e.Inside x :=
  run_inside e hT limit noise chance hc N x0 h0

/-- With a random number 0, which `np.random.uniform` may return, any trial is accepted wherever
it lies. -/
theorem C108_zero_draw_violated (e : Env d) (hpos : ∀ x, 0 ≤ e.target x) (T : ℝ) (limit : ℕ)
    (hl : 0 < limit) (noise : ℕ → Pos d) (x0 : Pos d) :
    (runMCMC e T limit noise (fun _ => 0) 1 x0).hist = [x0, x0 + noise 0] := by
  have h : (0 : ℝ) ≤ accProb e T x0 (x0 + noise 0) := by
    unfold accProb
    refine le_min zero_le_one (Real.rpow_nonneg ?_ _)
    split
    · exact le_rfl
    · unfold trialVal
      split
      · exact div_nonneg (hpos _) (hpos _)
      · simp
  simp only [runMCMC, loop, trial]
  rw [if_pos hl, Nat.add_zero, if_pos h]
  rfl

/-- A trial in the ranges where the target is not lower is always accepted. -/
theorem C108_uphill (e : Env d) {T : ℝ} (hT : 0 < T) (s : St d) (w : Pos d) (u : ℝ) (hu : u ≤ 1)
    (hin : e.Inside (s.cur + w)) (hpos : 0 < e.target s.cur)
    (hup : e.target s.cur ≤ e.target (s.cur + w)) :
    trial e T w u s = ⟨s.cur :: s.past, s.cur + w, s.acc + 1, s.rej⟩ := by
  have : accProb e T s.cur (s.cur + w) = 1 := by
    unfold accProb trialVal
    rw [if_neg hpos.ne', if_pos hin]
    refine min_eq_left (Real.one_le_rpow ?_ (one_div_nonneg.mpr hT.le))
    rwa [one_le_div hpos]
  unfold trial
  rw [this, if_pos hu]

/-- The acceptance satisfies detailed balance with respect to the target to the power of the inverse temperature. -/
theorem C108_balance (e : Env d) (T : ℝ) (x y : Pos d) (hx : e.Inside x) (hy : e.Inside y)
    (px : 0 < e.target x) (py : 0 < e.target y) :
    e.target x ^ (1 / T) * accProb e T x y = e.target y ^ (1 / T) * accProb e T y x := by
  have ax : 0 < e.target x ^ (1 / T) := Real.rpow_pos_of_pos px _
  have ay : 0 < e.target y ^ (1 / T) := Real.rpow_pos_of_pos py _
  unfold accProb trialVal
  rw [if_neg px.ne', if_neg py.ne', if_pos hx, if_pos hy, Real.div_rpow py.le px.le,
    Real.div_rpow px.le py.le, mul_min_of_nonneg _ _ ax.le, mul_min_of_nonneg _ _ ay.le,
    mul_div_cancel₀ _ ax.ne', mul_div_cancel₀ _ ay.ne', mul_one, mul_one, min_comm]

/-- From a position where the target vanishes the chain never moves, though the target may be positive everywhere else. -/
theorem C108_stuck_violated (e : Env d) {T : ℝ} (hT : 0 < T) (limit : ℕ) (noise : ℕ → Pos d)
    (chance : ℕ → ℝ) (hc : ∀ k, 0 < chance k) (N : ℕ) (x0 : Pos d) (h0 : e.target x0 = 0) :
    (runMCMC e T limit noise chance N x0).hist = [x0] ∧
    (runMCMC e T limit noise chance N x0).acc = 0 := by
  have hinv := loop_inv e T limit noise chance
    (fun s => s.past = [] ∧ s.cur = x0 ∧ s.acc = 0)
    (by
      rintro s ⟨h1, h2, h3⟩ _
      unfold trial
      rw [if_neg (by rw [accProb_zero e hT _ _ (h2 ▸ h0)]; exact not_le.mpr (hc _))]
      exact ⟨h1, h2, h3⟩)
    N ⟨[], x0, 0, 0⟩ ⟨rfl, rfl, rfl⟩
  refine ⟨?_, hinv.2.2⟩
  unfold St.hist
  unfold runMCMC
  rw [hinv.1, hinv.2.1]
  rfl

/-- Rejected trials do not repeat the current position in the history, so that the entries of the history are not
distributed as in the Metropolis algorithm: in an example, the position where the chain waits for
nine of ten trials is one of two entries. -/
theorem C108_weights_violated : ∃ (e : Env 1) (noise : ℕ → Pos 1) (chance : ℕ → ℝ),
    (∀ x, e.Inside x → 0 < e.target x) ∧ (∀ k, 0 < chance k ∧ chance k < 1) ∧
    (runMCMC e 1 100 noise chance 10 (fun _ => 0)).hist = [fun _ => 0, fun _ => 1] ∧
    (runMCMC e 1 100 noise chance 10 (fun _ => 0)).rej = 9 := by
  refine ⟨⟨fun x => if x 0 = 0 then 10 else 1, fun _ => 0, fun _ => 1⟩,
    fun k => if k = 9 then fun _ => 1 else fun _ => 2, fun k => 1/20, ?_, ?_, ?_⟩
  · intro x _
    dsimp only
    split <;> norm_num
  · intro k
    norm_num
  · set e : Env 1 := ⟨fun x => if x 0 = 0 then 10 else 1, fun _ => 0, fun _ => 1⟩ with he
    have h2 : accProb e 1 (fun _ => 0) ((fun _ => 0) + fun _ => 2) = 0 :=
      accProb_outside e one_pos _ _ fun h => by
        have := (h 0).1
        norm_num [he] at this
    have h1 : (1/20 : ℝ) ≤ accProb e 1 (fun _ => 0) ((fun _ => 0) + fun _ => 1) := by
      have hin : e.Inside ((fun _ => 0) + fun _ => 1) := fun i => by
        constructor <;> norm_num [he]
      unfold accProb trialVal
      rw [if_pos hin]
      norm_num [he]
    have t2 : ∀ n, n < 9 → trial e 1 ((fun k => if k = 9 then fun _ => 1 else fun _ => 2 : ℕ → Pos 1)
        (0 + n)) (1/20) ⟨[], fun _ => 0, 0, n⟩ = ⟨[], fun _ => 0, 0, n + 1⟩ := by
      intro n hn
      unfold trial
      rw [if_neg (by
        rw [Nat.zero_add]
        dsimp only
        rw [if_neg (show ¬n = 9 by omega), h2]
        norm_num)]
    have key : runMCMC e 1 100 (fun k => if k = 9 then fun _ => 1 else fun _ => 2)
        (fun k => 1/20) 10 (fun _ => 0) = ⟨[fun _ => 0], (fun _ => 0) + fun _ => 1, 1, 9⟩ := by
      unfold runMCMC
      have step : ∀ n m, n < 9 → loop e 1 100 (fun k => if k = 9 then fun _ => 1 else fun _ => 2)
          (fun k => 1/20) (m + 1) ⟨[], fun _ => 0, 0, n⟩ =
          loop e 1 100 (fun k => if k = 9 then fun _ => 1 else fun _ => 2) (fun k => 1/20) m
            ⟨[], fun _ => 0, 0, n + 1⟩ := by
        intro n m hn
        conv_lhs => unfold loop
        rw [if_pos (show n < 100 by omega)]
        have := t2 n hn
        dsimp only at this ⊢
        rw [this]
      rw [step 0 9 (by omega), step 1 8 (by omega), step 2 7 (by omega), step 3 6 (by omega),
        step 4 5 (by omega), step 5 4 (by omega), step 6 3 (by omega), step 7 2 (by omega),
        step 8 1 (by omega)]
      unfold loop
      rw [if_pos (show 9 < 100 by omega)]
      unfold loop trial
      simp only [Nat.zero_add, if_true]
      rw [if_pos h1]
    rw [key]
    refine ⟨?_, rfl⟩
    simp only [St.hist, List.reverse_cons, List.reverse_nil, List.nil_append, List.cons_append]
    congr 2
    funext i
    simp

/-! ### Temperatures -/

theorem ladder_of_pow (c : ℝ) (hc : 0 < c) : ∀ (n : ℕ) (T : ℝ), 0 < T → T ^ ((1 / c) ^ n) ≤ 13 / 10 →
    ∃ l, Ladder c T l
  | 0, T, _, h => ⟨_, .stop T (by simpa using h)⟩
  | n + 1, T, hT, h => by
    by_cases h1 : T ≤ 13 / 10
    · exact ⟨_, .stop T h1⟩
    · have hT' : 0 < T ^ (1 / c) := Real.rpow_pos_of_pos hT _
      obtain ⟨l, hl⟩ := ladder_of_pow c hc n (T ^ (1 / c)) hT' (by
        rwa [← Real.rpow_mul hT.le, ← pow_succ'])
      exact ⟨_, .more T l (not_le.mp h1) hl⟩

/-- For a spacing above 1 the construction of the temperatures ends, whatever the
highest temperature is, and with one result. -/
theorem C108_ladder (c T : ℝ) (hc : 1 < c) (hT : 0 < T) : ∃! l, Ladder c T l := by
  have h0 : 0 < c := by linarith
  have huniq : ∀ T l, Ladder c T l → ∀ l', Ladder c T l' → l' = l := by
    intro T l h
    induction h with
    | stop T h =>
      intro l' h'
      cases h' with
      | stop _ _ => rfl
      | more _ _ h2 _ => exact absurd h (not_le.mpr h2)
    | more T l h _ ih =>
      intro l' h'
      cases h' with
      | stop _ h2 => exact absurd h2 (not_le.mpr h)
      | more _ l2 _ h2 => rw [ih l2 h2]
  have hex : ∃ n : ℕ, T ^ ((1 / c) ^ n) ≤ 13 / 10 := by
    by_cases h1 : T ≤ 1
    · exact ⟨0, by simp; linarith⟩
    · have hT1 : 1 < T := not_le.mp h1
      have hlog : 0 < Real.log T := Real.log_pos hT1
      have hq : 0 < Real.log (13 / 10) := Real.log_pos (by norm_num)
      obtain ⟨n, hn⟩ := exists_pow_lt_of_lt_one (div_pos hq hlog)
        (show 1 / c < 1 by rw [div_lt_one h0]; exact hc)
      refine ⟨n, ?_⟩
      rw [lt_div_iff₀ hlog] at hn
      rw [← Real.log_le_log_iff (Real.rpow_pos_of_pos hT _) (by norm_num), Real.log_rpow hT]
      exact hn.le
  obtain ⟨n, hn⟩ := hex
  obtain ⟨l, hl⟩ := ladder_of_pow c h0 n T hT hn
  exact ⟨l, hl, fun l' h' => huniq T l hl l' h'⟩

/-- With a highest temperature above 1, the temperatures followed by the final 1 fall strictly, starting from the
highest. -/
theorem C108_ladder_falls (c T : ℝ) (l : List ℝ) (hc : 1 < c) (hT : 1 < T) (h : Ladder c T l) :
    (l ++ [1]).Pairwise (· > ·) ∧ (l ++ [1]).head? = some T ∧ ∀ t ∈ l, 1 < t := by
  have h0 : 0 < c := by linarith
  induction h with
  | stop T h => exact ⟨by simpa using hT, rfl, by simpa using hT⟩
  | more T l h hl ih =>
    have h1 : 1 < T ^ (1 / c) := Real.one_lt_rpow hT (one_div_pos.mpr h0)
    obtain ⟨i1, i2, i3⟩ := ih h1
    have hlt : T ^ (1 / c) < T := by
      conv_rhs => rw [← Real.rpow_one T]
      exact Real.rpow_lt_rpow_of_exponent_lt hT (by rw [div_lt_one h0]; exact hc)
    refine ⟨?_, rfl, ?_⟩
    · rw [List.cons_append, List.pairwise_cons]
      refine ⟨?_, i1⟩
      intro t ht
      cases hcs : l ++ [1] with
      | nil => rw [hcs] at ht; cases ht
      | cons a r =>
        rw [hcs] at i1 i2 ht
        cases i2
        rcases List.mem_cons.mp ht with rfl | ht
        · exact hlt
        · exact lt_trans ((List.pairwise_cons.mp i1).1 t ht) hlt
    · intro t ht
      rcases List.mem_cons.mp ht with rfl | ht
      · exact hT
      · exact i3 t ht

/-- With a spacing of at most 1 the construction of the temperatures never ends. -/
theorem C108_ladder_violated (c T : ℝ) (h0 : 0 < c) (hc : c ≤ 1) (hT : 13 / 10 < T) :
    ¬∃ l, Ladder c T l := by
  rintro ⟨l, h⟩
  induction h with
  | stop T h => exact absurd h (not_le.mpr hT)
  | more T l h _ ih =>
    apply ih
    have : T ^ (1 : ℝ) ≤ T ^ (1 / c) :=
      Real.rpow_le_rpow_of_exponent_le (by linarith) (by rw [le_div_iff₀ h0]; linarith)
    rw [Real.rpow_one] at this
    linarith

example : ∃! l, Ladder (6/5) 100 l := C108_ladder _ _ (by norm_num) (by norm_num)

/-! ### Several chains -/

/-- Swaps only exchange positions between chains: none is lost or copied. -/
theorem C108_swaps (e : Env d) (u : ℕ → ℝ) (Ts : List ℝ) (l : List (Pos d)) :
    List.Perm (swaps e u Ts l) l := swaps_perm e Ts u l

/-- Swaps satisfy detailed balance with respect to the product of the two tempered targets. -/
theorem C108_swap_balance (e : Env d) (Ti Tj : ℝ) (x y : Pos d) (px : 0 < e.target x)
    (py : 0 < e.target y) :
    (e.target x ^ (1 / Ti) * e.target y ^ (1 / Tj)) * swapProb e Ti Tj x y =
    (e.target y ^ (1 / Ti) * e.target x ^ (1 / Tj)) * swapProb e Ti Tj y x := by
  have a : 0 < e.target x ^ (1 / Ti) * e.target y ^ (1 / Tj) :=
    mul_pos (Real.rpow_pos_of_pos px _) (Real.rpow_pos_of_pos py _)
  have b : 0 < e.target y ^ (1 / Ti) * e.target x ^ (1 / Tj) :=
    mul_pos (Real.rpow_pos_of_pos py _) (Real.rpow_pos_of_pos px _)
  unfold swapProb
  dsimp only
  rw [if_neg a.ne', if_neg b.ne', mul_min_of_nonneg _ _ a.le, mul_min_of_nonneg _ _ b.le,
    mul_div_cancel₀ _ a.ne', mul_div_cancel₀ _ b.ne', mul_one, mul_one, min_comm]

/-- The probability of a swap is that of parallel tempering, `min 1 (π(y)/π(x))^(1/Tᵢ - 1/Tⱼ)`. -/
theorem C108_swap_formula (e : Env d) (Ti Tj : ℝ) (x y : Pos d) (px : 0 < e.target x)
    (py : 0 < e.target y) :
    swapProb e Ti Tj x y = min 1 ((e.target y / e.target x) ^ (1 / Ti - 1 / Tj)) := by
  have a : 0 < e.target x ^ (1 / Ti) * e.target y ^ (1 / Tj) :=
    mul_pos (Real.rpow_pos_of_pos px _) (Real.rpow_pos_of_pos py _)
  unfold swapProb
  dsimp only
  rw [if_neg a.ne', Real.rpow_sub (div_pos py px), Real.div_rpow py.le px.le,
    Real.div_rpow py.le px.le]
  congr 1
  have := (Real.rpow_pos_of_pos px (1 / Ti)).ne'
  have := (Real.rpow_pos_of_pos px (1 / Tj)).ne'
  have := (Real.rpow_pos_of_pos py (1 / Tj)).ne'
  field_simp

/-- A chain stuck where the target vanishes does not get the position of its neighbour either. -/
theorem C108_swap_stuck_violated (e : Env d) (Ti Tj : ℝ) (hi : 0 < Ti) (x y : Pos d)
    (hx : e.target x = 0) : swapProb e Ti Tj x y = 0 := by
  have hne : (1 / Ti) ≠ 0 := (one_div_pos.mpr hi).ne'
  unfold swapProb
  dsimp only
  rw [hx, Real.zero_rpow hne, zero_mul, if_pos rfl]
  simp

theorem chainsAt_length (e : Env d) (Ts : List ℝ) (limit n : ℕ) (D : Draws d)
    (locs : List (Pos d)) (h : locs.length = Ts.length) :
    (chainsAt e Ts limit n D locs).length = Ts.length := by
  simp [chainsAt, h]

theorem mem_chainsAt (e : Env d) (Ts : List ℝ) (limit n : ℕ) (D : Draws d) (locs : List (Pos d))
    (s : St d) (hs : s ∈ chainsAt e Ts limit n D locs) :
    ∃ T ∈ Ts, ∃ x ∈ locs, ∃ i, s = runMCMC e T limit (D.noise i) (D.chance i) n x := by
  obtain ⟨⟨⟨T, x⟩, i⟩, hm, rfl⟩ := List.mem_map.mp hs
  have hz : (T, x) ∈ Ts.zip locs := by
    have := List.mem_zipIdx_iff_getElem?.mp hm
    exact List.mem_iff_getElem?.mpr ⟨i, this⟩
  exact ⟨T, (List.of_mem_zip hz).1, x, (List.of_mem_zip hz).2, i, rfl⟩

theorem loops_inside (e : Env d) (Ts : List ℝ) (hT : ∀ T ∈ Ts, 0 < T) (limit n : ℕ) :
    ∀ (m : ℕ) (D : ℕ → Draws d) (locs : List (Pos d)), (∀ k i j, 0 < (D k).chance i j) →
      (∀ x ∈ locs, e.Inside x) →
      (∀ ss ∈ (loops e Ts limit n D m locs).1, ∀ h ∈ ss, ∀ x ∈ h, e.Inside x) ∧
      ∀ x ∈ (loops e Ts limit n D m locs).2, e.Inside x
  | 0, D, locs, _, hl => ⟨by simp [loops], by simpa [loops] using hl⟩
  | m + 1, D, locs, hc, hl => by
    have hs : ∀ s ∈ chainsAt e Ts limit n (D 0) locs, ∀ x ∈ s.hist, e.Inside x := by
      intro s hs
      obtain ⟨T, hTm, x, hx, i, rfl⟩ := mem_chainsAt _ _ _ _ _ _ _ hs
      exact run_inside e (hT T hTm) limit _ _ (hc 0 i) n x (hl x hx)
    have ih := loops_inside e Ts hT limit n m (fun k => D (k + 1))
      (swaps e (D 0).swap Ts ((chainsAt e Ts limit n (D 0) locs).map (·.cur)))
      (fun k => hc (k + 1)) (by
        intro x hx
        rw [(swaps_perm e Ts _ _).mem_iff, List.mem_map] at hx
        obtain ⟨s, h1, rfl⟩ := hx
        exact hs s h1 _ (by simp [St.hist]))
    unfold loops
    refine ⟨?_, ih.2⟩
    intro ss hss
    rcases List.mem_cons.mp hss with rfl | hss
    · intro h hh
      obtain ⟨s, h1, rfl⟩ := List.mem_map.mp hh
      exact hs s h1
    · exact ih.1 ss hss

/-- All positions recorded by the parallel chains are in the ranges of the inputs if the first one is, unless a
random number is exactly 0. -/
theorem C108_pt_inside_partial (e : Env d) (Ts : List ℝ) (hT : ∀ T ∈ Ts, 0 < T)
    (limit nTot nSwap : ℕ) (D : ℕ → Draws d) (hc : ∀ k i j, 0 < (D k).chance i j) (init : Pos d)
    (h0 : e.Inside init) (i : ℕ) :
    ∀ x ∈ chainOf (runPT e Ts limit nTot nSwap D init).1 i, e.Inside x := by
  have h := (loops_inside e Ts hT limit nSwap (nTot / nSwap) D (List.replicate Ts.length init) hc
    (fun x hx => by rw [List.eq_of_mem_replicate hx]; exact h0)).1
  intro x hx
  obtain ⟨ss, h1, h2⟩ := List.mem_flatMap.mp hx
  rw [List.getD_eq_getElem?_getD] at h2
  cases hg : ss[i]? with
  | none => rw [hg] at h2; simp at h2
  | some l =>
    rw [hg] at h2
    exact h ss h1 l (List.mem_of_getElem? hg) x h2

theorem loops_shape (e : Env d) (Ts : List ℝ) (limit n : ℕ) :
    ∀ (m : ℕ) (D : ℕ → Draws d) (locs : List (Pos d)), locs.length = Ts.length →
      (loops e Ts limit n D m locs).1.length = m ∧
      (loops e Ts limit n D m locs).2.length = Ts.length ∧
      ∀ ss ∈ (loops e Ts limit n D m locs).1, ss.length = Ts.length ∧
        ∀ h ∈ ss, 1 ≤ h.length ∧ h.length ≤ n + 1
  | 0, D, locs, hl => ⟨rfl, hl, by simp [loops]⟩
  | m + 1, D, locs, hl => by
    have ih := loops_shape e Ts limit n m (fun k => D (k + 1))
      (swaps e (D 0).swap Ts ((chainsAt e Ts limit n (D 0) locs).map (·.cur))) (by
        rw [(swaps_perm e Ts _ _).length_eq, List.length_map, chainsAt_length e _ _ _ _ _ hl])
    unfold loops
    refine ⟨by simp [ih.1], ih.2.1, ?_⟩
    intro ss hss
    rcases List.mem_cons.mp hss with rfl | hss
    · refine ⟨by rw [List.length_map, chainsAt_length e _ _ _ _ _ hl], ?_⟩
      intro h hh
      obtain ⟨s, h1, rfl⟩ := List.mem_map.mp hh
      obtain ⟨T, -, x, -, i, rfl⟩ := mem_chainsAt _ _ _ _ _ _ _ h1
      have := C108_counts e T limit ((D 0).noise i) ((D 0).chance i) n x
      dsimp only at this
      obtain ⟨a, -, -, b, -⟩ := this
      rw [b]
      omega
    · exact ih.2.2 ss hss

/-- The number of loops is that of complete blocks of draws; in each of them every chain records its start
and at most the draws of the block. -/
theorem C108_blocks (e : Env d) (Ts : List ℝ) (limit nTot nSwap : ℕ) (D : ℕ → Draws d)
    (init : Pos d) : let r := runPT e Ts limit nTot nSwap D init
    r.1.length = nTot / nSwap ∧ nTot / nSwap * nSwap ≤ nTot ∧ r.2.length = Ts.length ∧
    ∀ ss ∈ r.1, ss.length = Ts.length ∧ ∀ h ∈ ss, 1 ≤ h.length ∧ h.length ≤ nSwap + 1 := by
  have h := loops_shape e Ts limit nSwap (nTot / nSwap) D (List.replicate Ts.length init) (by simp)
  exact ⟨h.1, Nat.div_mul_le_self _ _, h.2.1, h.2.2⟩

end

end Verif.Sampler
