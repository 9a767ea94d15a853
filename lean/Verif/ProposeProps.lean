import Verif.Propose
import Mathlib.Analysis.Real.Pi.Bounds
import Mathlib.Tactic.FieldSimp
import Mathlib.Tactic.NormNum

/-!
# The sampler of new grid points, targets and proposals: properties (C109)
-/

namespace Verif.Propose

open Verif.Sampler (Pos)

noncomputable section

open Classical

variable {d : ℕ}

/-! ### The target -/

theorem den_bounds (K : ℕ) (hK : 2 ≤ K) : (1/2 : ℝ) ≤ 1 - 1 / (K : ℝ) ∧ 1 - 1 / (K : ℝ) < 1 := by
  have h : (2 : ℝ) ≤ K := by exact_mod_cast hK
  have h0 : (0 : ℝ) < K := by linarith
  have h1 : 1 / (K : ℝ) ≤ 1 / 2 := one_div_le_one_div_of_le (by norm_num) h
  have h2 : 0 < 1 / (K : ℝ) := one_div_pos.mpr h0
  constructor <;> linarith

/-- Where the classifier gives probabilities for all positions the target is positive and
at most 1. -/
theorem C109_target (K : ℕ) (hK : 2 ≤ K) (β : ℝ) (hβ : 0 ≤ β) (ps : List ℝ)
    (hp : ∀ p ∈ ps, 1 / (K : ℝ) ≤ p ∧ p ≤ 1) :
    (target K β (ps.map some)).length = ps.length ∧
    ∀ v ∈ target K β (ps.map some), 0 < v ∧ v ≤ 1 := by
  obtain ⟨b1, b2⟩ := den_bounds K hK
  have hany : (ps.map some).any (·.isNone) = false := by
    rw [List.any_eq_false]
    intro o ho
    obtain ⟨p, -, rfl⟩ := List.mem_map.mp ho
    simp
  unfold target maxProbs
  rw [hany]
  refine ⟨by simp, ?_⟩
  intro v hv
  simp only [Bool.false_eq_true, if_false, List.map_map, List.mem_map, Function.comp] at hv
  obtain ⟨p, hpm, rfl⟩ := hv
  obtain ⟨h1, h2⟩ := hp p hpm
  have key : 0 < (1 - (if p = 1 then 1 - 1 / 10 ^ 16 else p)) * 1 / (1 - 1 / (K : ℝ)) ∧
      (1 - (if p = 1 then 1 - 1 / 10 ^ 16 else p)) * 1 / (1 - 1 / (K : ℝ)) ≤ 1 := by
    have hd : 0 < 1 - 1 / (K : ℝ) := by linarith
    rw [div_le_one hd]
    split
    · refine ⟨div_pos (by norm_num) hd, ?_⟩
      rw [sub_sub_cancel, mul_one]
      exact le_trans (by norm_num) b1
    · rename_i hne
      have : p < 1 := lt_of_le_of_ne h2 hne
      exact ⟨div_pos (by linarith) hd, by linarith⟩
  exact ⟨Real.rpow_pos_of_pos key.1 _, Real.rpow_le_one key.1.le key.2 hβ⟩

/-- The target at one position falls with the highest probability there. -/
theorem C109_target_falls (K : ℕ) (hK : 2 ≤ K) (β : ℝ) (hβ : 0 < β) (p q : ℝ) (hpq : p < q)
    (hq : q < 1) : ∃ v w, target K β [some p] = [v] ∧ target K β [some q] = [w] ∧ w < v := by
  obtain ⟨b1, b2⟩ := den_bounds K hK
  have hd : 0 < 1 - 1 / (K : ℝ) := by linarith
  refine ⟨((1 - p) * 1 / (1 - 1 / (K : ℝ))) ^ β, ((1 - q) * 1 / (1 - 1 / (K : ℝ))) ^ β, ?_, ?_, ?_⟩
  · simp [target, maxProbs, (hpq.trans hq).ne]
  · simp [target, maxProbs, hq.ne]
  · refine Real.rpow_lt_rpow (div_nonneg (by linarith) hd.le) ?_ hβ
    gcongr

/-- Where the probabilities are NaN the target is documented to be `10⁻¹⁶`, but is above 1: above that of
every position with probabilities. -/
theorem C109_nan_violated (K : ℕ) (hK : 2 ≤ K) (hK' : K < 10 ^ 16) (β : ℝ) (hβ : 0 < β)
    (ps : List (Option ℝ)) (h : none ∈ ps) : ∀ v ∈ target K β ps, 1 < v := by
  obtain ⟨b1, b2⟩ := den_bounds K hK
  have hd : 0 < 1 - 1 / (K : ℝ) := by linarith
  have hany : ps.any (·.isNone) = true := List.any_eq_true.mpr ⟨none, h, rfl⟩
  have hk : (1 : ℝ) / 10 ^ 16 < 1 / K := by
    have h0 : (0 : ℝ) < K := by exact_mod_cast (show 0 < K by omega)
    refine one_div_lt_one_div_of_lt h0 ?_
    exact_mod_cast hK'
  intro v hv
  unfold target maxProbs at hv
  rw [hany] at hv
  simp only [if_true, List.map_map, List.mem_map, Function.comp] at hv
  obtain ⟨o, -, rfl⟩ := hv
  refine Real.one_lt_rpow ?_ hβ
  rw [lt_div_iff₀ hd]
  linarith

/-- One NaN changes the target of all positions asked for together. -/
theorem C109_batch_violated : target 2 1 [some (1/2)] = [1] ∧
    ∀ v ∈ target 2 1 [some (1/2), none], v ≠ 1 := by
  constructor
  · norm_num [target, maxProbs]
  · intro v hv
    exact (C109_nan_violated 2 le_rfl (by norm_num) 1 one_pos _ (by simp) v hv).ne'

/-! ### Normalisation -/

/-- Normalising maps the ranges to `[0, 1]` and is undone, for ranges that are not points. -/
theorem C109_norm (lo hi x : Pos d) (h : ∀ j, lo j < hi j) :
    undo lo hi (norm lo hi x) = x ∧
    ((∀ j, lo j ≤ x j ∧ x j ≤ hi j) ↔ ∀ j, 0 ≤ norm lo hi x j ∧ norm lo hi x j ≤ 1) := by
  have hp : ∀ j, 0 < hi j - lo j := fun j => sub_pos.mpr (h j)
  constructor
  · funext j
    unfold undo norm
    rw [div_mul_cancel₀ _ (hp j).ne']
    ring
  · refine forall_congr' fun j => ?_
    unfold norm
    rw [div_le_one (hp j)]
    constructor
    · rintro ⟨h1, h2⟩
      exact ⟨div_nonneg (by linarith) (hp j).le, by linarith⟩
    · rintro ⟨h1, h2⟩
      have := mul_nonneg h1 (hp j).le
      rw [div_mul_cancel₀ _ (hp j).ne'] at this
      exact ⟨by linarith, by linarith⟩

/-! ### The simple density logic -/

theorem peak_pos (d : ℕ) {σ : ℝ} (hσ : 0 < σ) : 0 < peak d σ := by
  unfold peak
  have := Real.pi_pos
  positivity

theorem pdf_lt (σ : ℝ) (hσ : 0 < σ) (z : Pos d) (u : ℝ) :
    pdf σ z < peak d σ * u ↔ Real.exp (-(sq z) / (2 * σ)) < u := by
  unfold pdf
  exact mul_lt_mul_iff_right₀ (peak_pos d hσ)

theorem sum_pdf (σ : ℝ) (acc : List (Pos d)) (x : Pos d) :
    (acc.map fun a => pdf σ (x - a)).sum =
    peak d σ * (acc.map fun a => Real.exp (-(sq (x - a)) / (2 * σ))).sum := by
  unfold pdf
  rw [List.sum_map_mul_left]

/-- Specification: a step is accepted if the Gaussians around the points accepted before, scaled to height 1,
are below the random numbers (their sum below one of them). -/
def Accepts (σ : ℝ) (together : Bool) (acc : List (Pos d)) (x : Pos d) (u : ℕ → ℝ) : Prop :=
  if together then (acc.map fun a => Real.exp (-(sq (x - a)) / (2 * σ))).sum < u 0
  else ∀ j, ∀ h : j < acc.length, Real.exp (-(sq (x - acc[j])) / (2 * σ)) < u j

theorem keeps_iff (σ : ℝ) (hσ : 0 < σ) (together : Bool) (acc : List (Pos d)) (x : Pos d)
    (u : ℕ → ℝ) : keeps σ together acc x u ↔ Accepts σ together acc x u := by
  unfold keeps Accepts
  cases together
  · simp only [Bool.false_eq_true, if_false]
    exact forall_congr' fun j => forall_congr' fun h => pdf_lt σ hσ _ _
  · simp only [if_true]
    rw [sum_pdf, mul_lt_mul_iff_right₀ (peak_pos d hσ)]

/-- Acceptance depends on the Gaussians only, not on their height. -/
theorem C109_accepts (σ : ℝ) (hσ : 0 < σ) (together : Bool) (acc : List (Pos d)) (x : Pos d)
    (u : ℕ → ℝ) : keeps σ together acc x u ↔ Accepts σ together acc x u :=
  keeps_iff σ hσ together acc x u

theorem exp_le (σ σ' : ℝ) (hσ : 0 < σ) (hs : σ ≤ σ') (a b : ℝ) (ha : 0 ≤ a) (hab : a ≤ b) :
    Real.exp (-b / (2 * σ)) ≤ Real.exp (-a / (2 * σ')) := by
  refine Real.exp_le_exp.mpr ?_
  rw [neg_div, neg_div, neg_le_neg_iff]
  refine div_le_div₀ (ha.trans hab) hab (by linarith) (by linarith)

theorem sq_nonneg' (z : Pos d) : 0 ≤ sq z := Finset.sum_nonneg fun _ _ => sq_nonneg _

/-- With the same random numbers, a step further away from all accepted points, or with a
smaller scale, is accepted if a closer one, or with a larger scale, is. -/
theorem C109_far (σ σ' : ℝ) (hσ : 0 < σ) (hs : σ ≤ σ') (together : Bool) (acc : List (Pos d))
    (x y : Pos d) (u : ℕ → ℝ) (hxy : ∀ a ∈ acc, sq (x - a) ≤ sq (y - a))
    (h : keeps σ' together acc x u) : keeps σ together acc y u := by
  rw [keeps_iff σ' (by linarith)] at h
  rw [keeps_iff σ hσ]
  unfold Accepts at h ⊢
  cases together
  · simp only [Bool.false_eq_true, if_false] at h ⊢
    intro j hj
    exact lt_of_le_of_lt (exp_le σ σ' hσ hs _ _ (sq_nonneg' _) (hxy _ (List.getElem_mem hj))) (h j hj)
  · simp only [if_true] at h ⊢
    refine lt_of_le_of_lt (List.sum_le_sum fun a ha => ?_) h
    exact exp_le σ σ' hσ hs _ _ (sq_nonneg' _) (hxy a ha)

theorem walk_partition (σ : ℝ) (together : Bool) : ∀ (steps : List (Pos d)) (u : ℕ → ℕ → ℝ)
    (acc : List (Pos d)),
    List.Perm ((walk σ together u acc steps).1 ++ (walk σ together u acc steps).2) steps ∧
    (walk σ together u acc steps).1.Sublist steps ∧ (walk σ together u acc steps).2.Sublist steps
  | [], u, acc => ⟨List.Perm.refl _, List.Sublist.refl _, List.Sublist.refl _⟩
  | x :: r, u, acc => by
    unfold walk
    split
    · have ih := walk_partition σ together r (fun k => u (k + 1)) (acc ++ [x])
      exact ⟨ih.1.cons x, ih.2.1.cons_cons x, ih.2.2.cons x⟩
    · have ih := walk_partition σ together r (fun k => u (k + 1)) acc
      exact ⟨List.perm_middle.trans (ih.1.cons x), ih.2.1.cons x, ih.2.2.cons_cons x⟩

theorem keeps_new (σ : ℝ) (hσ : 0 < σ) (together : Bool) (acc : List (Pos d)) (x : Pos d)
    (u : ℕ → ℝ) (hu : ∀ j, u j < 1) (h : keeps σ together acc x u) : x ∉ acc := by
  intro hx
  rw [keeps_iff σ hσ] at h
  have h0 : Real.exp (-(sq (x - x)) / (2 * σ)) = 1 := by simp [sq]
  unfold Accepts at h
  cases together
  · simp only [Bool.false_eq_true, if_false] at h
    obtain ⟨j, hj, rfl⟩ := List.mem_iff_getElem.mp hx
    have := h j hj
    rw [h0] at this
    linarith [hu j]
  · simp only [if_true] at h
    have : (1 : ℝ) ≤ (acc.map fun a => Real.exp (-(sq (x - a)) / (2 * σ))).sum := by
      rw [← h0]
      refine List.single_le_sum ?_ _ (List.mem_map.mpr ⟨x, hx, rfl⟩)
      intro v hv
      obtain ⟨a, -, rfl⟩ := List.mem_map.mp hv
      exact (Real.exp_pos _).le
    linarith [hu 0]

theorem walk_distinct (σ : ℝ) (hσ : 0 < σ) (together : Bool) : ∀ (steps : List (Pos d))
    (u : ℕ → ℕ → ℝ) (acc : List (Pos d)), (∀ k j, u k j < 1) →
    (walk σ together u acc steps).1.Nodup ∧ ∀ a ∈ acc, a ∉ (walk σ together u acc steps).1
  | [], u, acc, hu => by simp [walk]
  | x :: r, u, acc, hu => by
    unfold walk
    split
    · rename_i hk
      have hn := keeps_new σ hσ together acc x (u 0) (hu 0) hk
      have ih := walk_distinct σ hσ together r (fun k => u (k + 1)) (acc ++ [x]) fun k => hu (k + 1)
      refine ⟨List.nodup_cons.mpr ⟨ih.2 x (by simp), ih.1⟩, ?_⟩
      intro a ha hm
      rcases List.mem_cons.mp hm with rfl | hm
      · exact hn ha
      · exact ih.2 a (by simp [ha]) hm
    · exact walk_distinct σ hσ together r (fun k => u (k + 1)) acc fun k => hu (k + 1)

theorem sigma_pos (d N : ℕ) (κ v : ℝ) (hN : 0 < N) (hκ : 0 < κ) (hv : 0 < v) :
    0 < sigma d N κ v := by
  unfold sigma
  have : (0 : ℝ) < N := by exact_mod_cast hN
  have := Real.rpow_pos_of_pos this (-1 / (d : ℝ))
  positivity

/-- Every step is either accepted or rejected, in its order, and the accepted points are different from each other and from the training data. -/
theorem C109_simple (train : List (Pos d)) (ht : train ≠ []) (together : Bool) (u : ℕ → ℕ → ℝ)
    (hu : ∀ k j, u k j < 1) (N : ℕ) (hN : 0 < N) (κ v : ℝ) (hκ : 0 < κ) (hv : 0 < v)
    (steps : List (Pos d)) :
    ∃ acc rej, simple train true together u N κ v steps = .ok (acc, rej) ∧
      List.Perm (acc ++ rej) steps ∧ acc.Sublist steps ∧ rej.Sublist steps ∧ acc.Nodup ∧
      ∀ a ∈ train, a ∉ acc := by
  have hs := sigma_pos d N κ v hN hκ hv
  refine ⟨(walk (sigma d N κ v) together u train steps).1,
    (walk (sigma d N κ v) together u train steps).2, ?_, ?_⟩
  · unfold simple
    simp only [if_true]
    rw [if_neg ht, if_neg hs.ne']
  · obtain ⟨h1, h2, h3⟩ := walk_partition (sigma d N κ v) together steps u train
    obtain ⟨h4, h5⟩ := walk_distinct _ hs together steps u train hu
    exact ⟨h1, h2, h3, h4, h5⟩

/-- Without the training data, an option of the interface and the advice of the error message, there is always an `IndexError`. -/
theorem C109_no_training_violated (train : List (Pos d)) (together : Bool) (u : ℕ → ℕ → ℝ) (N : ℕ)
    (κ v : ℝ) (steps : List (Pos d)) :
    simple train false together u N κ v steps = .error .index := by
  simp [simple]

/-! ### The density logic -/

/-- Points accepted before are ignored. -/
theorem C109_pre_violated (lo hi : Pos d) (ns tg : Bool) (vm : Option VarMult)
    (pre : List (Pos d)) (u : ℕ → ℝ) (N : ℕ) (κ : ℝ) (steps : List (Pos d)) :
    density lo hi ns tg vm (some pre) u N κ steps = density lo hi ns tg vm none u N κ steps := rfl

/-- With normalised steps there is never a result. -/
theorem C109_norm_steps_violated (lo hi : Pos d) (tg : Bool) (vm : Option VarMult)
    (pre : Option (List (Pos d))) (u : ℕ → ℝ) (N : ℕ) (κ : ℝ) (steps : List (Pos d))
    (r : List (Pos d) × List (Pos d)) :
    density lo hi true tg vm pre u N κ steps ≠ .ok r := by
  unfold density
  simp only [if_true]
  split
  · split <;> simp
  · simp

/-- A variance multiplier for each of several dimensions is refused: the number of dimensions of the array is compared instead
of its length. -/
theorem C109_varmult_violated (hd : 2 ≤ d) (lo hi : Pos d) (ns tg : Bool) (vals : List ℝ)
    (_hl : vals.length = d) (pre : Option (List (Pos d))) (u : ℕ → ℝ) (N : ℕ) (κ : ℝ)
    (steps : List (Pos d)) :
    density lo hi ns tg (some ⟨1, vals⟩) pre u N κ steps = .error .value := by
  unfold density
  have : (1 : ℕ) ≠ d := by omega
  simp [this]

theorem walk2_partition (σ : ℝ) (together : Bool) : ∀ (steps : List (Pos d)) (u : ℕ → ℝ)
    (acc : List (Pos d)),
    List.Perm ((walk2 σ together u acc steps).1 ++ (walk2 σ together u acc steps).2) steps
  | [], u, acc => List.Perm.refl _
  | x :: r, u, acc => by
    unfold walk2
    split
    · exact (walk2_partition σ together r (fun k => u (k + 1)) (acc ++ [x])).cons x
    · exact List.perm_middle.trans ((walk2_partition σ together r (fun k => u (k + 1)) acc).cons x)

/-- The first 5 % of the steps are dropped; the others are accepted or rejected. -/
theorem C109_skipped (lo hi : Pos d) (tg : Bool) (pre : Option (List (Pos d))) (u : ℕ → ℝ) (N : ℕ)
    (κ : ℝ) (steps : List (Pos d)) : ∃ acc rej,
    density lo hi false tg none pre u N κ steps = .ok (acc, rej) ∧
    List.Perm (acc ++ rej) (steps.drop (steps.length * 5 / 100)) := by
  refine ⟨_, _, ?_, walk2_partition (sigma d N κ 1) tg _ u []⟩
  simp [density]

theorem walk2_two (σ : ℝ) : ∀ (steps : List (Pos d)) (u : ℕ → ℝ) (acc : List (Pos d)),
    acc.length ≤ 2 → acc.length + (walk2 σ true u acc steps).1.length ≤ 2
  | [], u, acc, h => by simpa [walk2] using h
  | x :: r, u, acc, h => by
    unfold walk2
    split
    · rename_i hk
      have hlen : acc.length ≤ 1 := by
        rcases hk with rfl | hk
        · simp
        · simp only [if_true] at hk
          rw [hk]
          split <;> simp
      have ih := walk2_two σ r (fun k => u (k + 1)) (acc ++ [x]) (by simp; omega)
      simp only [List.length_append, List.length_cons] at ih ⊢
      omega
    · exact walk2_two σ r (fun k => u (k + 1)) acc h

/-- With the distributions added together at most two points are ever accepted, however many are asked for. -/
theorem C109_together_violated (lo hi : Pos d) (pre : Option (List (Pos d))) (u : ℕ → ℝ) (N : ℕ)
    (κ : ℝ) (steps acc rej : List (Pos d))
    (h : density lo hi false true none pre u N κ steps = .ok (acc, rej)) : acc.length ≤ 2 := by
  have := walk2_two (sigma d N κ 1) (steps.drop (steps.length * 5 / 100)) u [] (by simp)
  simp only [density, Bool.false_eq_true, if_false] at h
  injection h with h
  rw [h] at this
  simpa using this

/-- In two dimensions the same point can be accepted twice, as the random numbers exceed the height of
the distribution. -/
theorem C109_twice_violated (lo hi x : Pos 2) (N : ℕ) (hN : 0 < N) (κ : ℝ) (hκ : 0 < κ) :
    density lo hi false false none none (fun _ => 1/2) N κ [x, x] = .ok ([x, x], []) := by
  have hs := sigma_pos 2 N κ 1 hN hκ one_pos
  set σ := sigma 2 N κ 1 with hσ
  have hpi := Real.pi_gt_three
  have hlt : pdf σ (x - x) < peak1 2 σ * (1/2) := by
    have e1 : pdf σ (x - x) = 1 / (2 * Real.pi * σ) := by
      unfold pdf peak
      rw [← mul_pow, Real.sqrt_sq (by positivity)]
      simp [sq]
    have e2 : peak1 2 σ = 1 / (Real.sqrt (2 * Real.pi) * σ) := by
      unfold peak1
      rw [pow_one, Real.sqrt_mul (by positivity), Real.sqrt_sq hs.le]
    have hroot : Real.sqrt (2 * Real.pi) < Real.pi := by
      rw [Real.sqrt_lt' (by linarith)]
      nlinarith
    have hrp : 0 < Real.sqrt (2 * Real.pi) := Real.sqrt_pos.mpr (by linarith)
    rw [e1, e2, div_mul_div_comm, one_mul, div_lt_div_iff₀ (by positivity) (by positivity)]
    nlinarith
  have k1 : keeps2 σ false [] x (1/2) := .inl rfl
  have k2 : keeps2 σ false [x] x (1/2) := by
    right
    simp only [Bool.false_eq_true, if_false, List.length_singleton]
    rw [List.countP_cons, List.countP_nil, if_pos (decide_eq_true hlt)]
  simp only [density, Bool.false_eq_true, if_false, ← hσ]
  rw [show List.drop ([x, x].length * 5 / 100) [x, x] = [x, x] by simp]
  unfold walk2
  rw [if_pos k1]
  unfold walk2
  rw [List.nil_append, if_pos k2]
  rfl

/-! ### The search -/

theorem best_none {P : Type} (l : List (Good P)) : best l = none ↔ l = [] := by
  cases l with
  | nil => simp [best]
  | cons g r =>
    simp only [best, reduceCtorEq, iff_false]
    cases best r with
    | none => simp
    | some h =>
      dsimp only
      split <;> simp

theorem best_spec {P : Type} : ∀ (l : List (Good P)) (g : Good P), best l = some g →
    g ∈ l ∧ ∀ h ∈ l, h.dist ≤ g.dist
  | [], g, h => by simp [best] at h
  | a :: r, g, h => by
    unfold best at h
    cases hb : best r with
    | none =>
      rw [hb] at h
      cases h
      rw [best_none] at hb
      subst hb
      simp
    | some b =>
      rw [hb] at h
      obtain ⟨h1, h2⟩ := best_spec r b hb
      dsimp only at h
      split at h
      · rename_i hlt
        cases h
        refine ⟨List.mem_cons_of_mem _ h1, ?_⟩
        intro x hx
        rcases List.mem_cons.mp hx with rfl | hx
        · exact hlt.le
        · exact h2 x hx
      · rename_i hlt
        cases h
        refine ⟨by simp, ?_⟩
        intro x hx
        rcases List.mem_cons.mp hx with rfl | hx
        · exact le_rfl
        · exact (h2 x hx).trans (not_lt.mp hlt)

theorem search_spec {P : Type} (run : ℕ → ℝ → Except Err (List P)) (avg : List P → ℝ) (N rep : ℕ) :
    ∀ (fuel it : ℕ) (κ : ℝ) (good res : List (Good P)),
      search run avg N rep fuel it κ good = .ok res →
      ∃ new, res = good ++ new ∧ ∀ g ∈ new, g.pts.length = N ∧ 0 < N ∧ g.dist = avg g.pts ∧
        ∃ k, it ≤ k ∧ k < it + fuel ∧ run k g.kappa = .ok g.pts
  | 0, it, κ, good, res, h => by
    cases h
    exact ⟨[], by simp, by simp⟩
  | fuel + 1, it, κ, good, res, h => by
    unfold search at h
    cases hr : run it κ with
    | error e => rw [hr] at h; cases h
    | ok acc =>
      rw [hr] at h
      dsimp only at h
      have lift : ∀ (κ' : ℝ) (good' : List (Good P)),
          search run avg N rep fuel (it + 1) κ' good' = .ok res →
          ∃ new, res = good' ++ new ∧ ∀ g ∈ new, g.pts.length = N ∧ 0 < N ∧ g.dist = avg g.pts ∧
            ∃ k, it ≤ k ∧ k < it + (fuel + 1) ∧ run k g.kappa = .ok g.pts := by
        intro κ' good' h'
        obtain ⟨new, h1, h2⟩ := search_spec run avg N rep fuel (it + 1) κ' good' res h'
        refine ⟨new, h1, fun g hg => ?_⟩
        obtain ⟨a, b, c, k, k1, k2, k3⟩ := h2 g hg
        exact ⟨a, b, c, k, by omega, by omega, k3⟩
      by_cases h0 : acc.length = 0
      · rw [if_pos h0] at h
        exact lift _ _ h
      · rw [if_neg h0] at h
        by_cases hN : acc.length = N
        · rw [if_pos hN] at h
          have this1 : ∀ g ∈ [(⟨acc, avg acc, κ⟩ : Good P)], g.pts.length = N ∧ 0 < N ∧
              g.dist = avg g.pts ∧ ∃ k, it ≤ k ∧ k < it + (fuel + 1) ∧ run k g.kappa = .ok g.pts := by
            intro g hg
            rw [List.mem_singleton] at hg
            subst hg
            exact ⟨hN, by omega, rfl, it, le_rfl, by omega, hr⟩
          by_cases hrep : rep ≤ (good ++ [(⟨acc, avg acc, κ⟩ : Good P)]).length
          · rw [if_pos hrep] at h
            cases h
            exact ⟨_, rfl, this1⟩
          · rw [if_neg hrep] at h
            obtain ⟨new, h1, h2⟩ := lift _ _ h
            refine ⟨⟨acc, avg acc, κ⟩ :: new, by rw [h1]; simp, ?_⟩
            intro g hg
            rcases List.mem_cons.mp hg with rfl | hg
            · exact this1 _ (by simp)
            · exact h2 g hg
        · rw [if_neg hN] at h
          exact lift _ _ h

/-- The points proposed are a sample with the requested number of points, made with the scale that is returned in one of the allowed
iterations, and no sample found has a larger mean distance. -/
theorem C109_proposed {P : Type} (run : ℕ → ℝ → Except Err (List P)) (avg : List P → ℝ)
    (N rep maxIters : ℕ) (κ κ' : ℝ) (pts : List P)
    (h : proposed run avg N rep maxIters κ = .ok (pts, κ')) :
    pts.length = N ∧ 0 < N ∧ (∃ k, 1 ≤ k ∧ k < maxIters ∧ run k κ' = .ok pts) ∧
    ∃ good, search run avg N rep (maxIters - 1) 1 κ [] = .ok good ∧
      ∀ g ∈ good, g.pts.length = N ∧ avg g.pts ≤ avg pts := by
  unfold proposed at h
  cases hs : search run avg N rep (maxIters - 1) 1 κ [] with
  | error e => rw [hs] at h; cases h
  | ok good =>
    rw [hs] at h
    dsimp only at h
    cases hb : best good with
    | none => rw [hb] at h; cases h
    | some g =>
      rw [hb] at h
      cases h
      obtain ⟨h1, h2⟩ := best_spec good g hb
      obtain ⟨new, h3, h4⟩ := search_spec run avg N rep _ _ _ _ _ hs
      rw [List.nil_append] at h3
      subst h3
      obtain ⟨a, b, c, k, k1, k2, k3⟩ := h4 g h1
      refine ⟨a, b, ⟨k, k1, by omega, k3⟩, good, rfl, fun x hx => ⟨(h4 x hx).1, ?_⟩⟩
      rw [← (h4 x hx).2.2.1, ← c]
      exact h2 x hx

/-- If no sample has the requested number of points, the search reports an error after its last iteration. -/
theorem C109_unconverged {P : Type} (run : ℕ → ℝ → Except Err (List P)) (avg : List P → ℝ)
    (N rep maxIters : ℕ) (κ : ℝ) (h : ∀ k κ', ∃ l, run k κ' = .ok l ∧ l.length ≠ N) :
    proposed run avg N rep maxIters κ = .error .value := by
  have hs : ∀ fuel it κ good, search run avg N rep fuel it κ good = .ok good := by
    intro fuel
    induction fuel with
    | zero => intros; rfl
    | succ n ih =>
      intro it κ good
      obtain ⟨l, h1, h2⟩ := h it κ
      unfold search
      rw [h1]
      dsimp only
      rw [if_neg h2]
      split <;> exact ih _ _ _
  unfold proposed
  rw [hs]
  rfl

theorem factor_pos (it : ℕ) : 0 < (1/100 : ℝ) / max 1 (Real.logb 10 it) := by
  have : 0 < max 1 (Real.logb 10 it) := lt_of_lt_of_le one_pos (le_max_left _ _)
  positivity

/-- The scale is raised after too many points, lowered after too few, and kept otherwise; it never becomes negative. -/
theorem C109_direction (N it n : ℕ) (κ : ℝ) (hκ : 0 < κ) :
    (N < n → κ < nextKappa N it n κ) ∧ (n < N → nextKappa N it n κ < κ) ∧
    (n = N → nextKappa N it n κ = κ) ∧ 0 ≤ nextKappa N it n κ := by
  have hf := factor_pos it
  unfold nextKappa
  dsimp only
  rcases lt_trichotomy n N with h | h | h
  · have h' : (n : ℝ) < N := by exact_mod_cast h
    have hd : 0 < |(n : ℝ) - N| := abs_pos.mpr (by linarith)
    have hm := mul_pos hf hd
    rw [if_neg (by omega), if_pos h]
    refine ⟨fun h2 => by omega, fun _ => ?_, fun h2 => by omega, ?_⟩
    · split
      · linarith
      · nlinarith
    · split
      · positivity
      · rename_i h2
        exact mul_nonneg hκ.le (not_lt.mp h2)
  · subst h
    simp [hκ.le]
  · have h' : (N : ℝ) < n := by exact_mod_cast h
    have hd : 0 < |(n : ℝ) - N| := abs_pos.mpr (by linarith)
    have hm := mul_pos hf hd
    rw [if_pos h]
    refine ⟨fun _ => by nlinarith, fun h2 => by omega, fun h2 => by omega, ?_⟩
    positivity

/-- A sample of 100 points too few in one of the first ten iterations sets the scale to 0. -/
theorem C109_zero_scale_violated (it n : ℕ) (hit : it ≤ 10) (κ : ℝ) :
    nextKappa (n + 100) it n κ = 0 := by
  have hl : Real.logb 10 it ≤ 1 := by
    rcases Nat.eq_zero_or_pos it with rfl | h
    · simp
    · rw [Real.logb_le_iff_le_rpow (by norm_num) (by exact_mod_cast h)]
      simpa using (by exact_mod_cast hit : (it : ℝ) ≤ 10)
  unfold nextKappa
  dsimp only
  have hd : |((n : ℕ) : ℝ) - ((n + 100 : ℕ) : ℝ)| = 100 := by
    push_cast
    rw [show (n : ℝ) - (n + 100) = -100 by ring]
    norm_num
  rw [if_neg (by omega), if_pos (by omega), max_eq_left hl, hd]
  norm_num

/-- Then the covariance of the next iteration is singular, and the whole search fails, whatever
samples would follow. -/
theorem C109_search_violated (train : List (Pos d)) (ht : train ≠ []) (together : Bool)
    (u : ℕ → ℕ → ℕ → ℝ) (n : ℕ) (hn : 0 < n) (κ v : ℝ) (hκ : 0 < κ) (hv : 0 < v)
    (steps : List (Pos d))
    (avg : List (Pos d) → ℝ) (rep maxIters : ℕ) (hm : 3 ≤ maxIters) (acc rej : List (Pos d))
    (h : simple train true together (u 1) (n + 100) κ v steps = .ok (acc, rej))
    (hacc : acc.length = n) :
    proposed (fun it κ => (simple train true together (u it) (n + 100) κ v steps).map Prod.fst)
      avg (n + 100) rep maxIters κ = .error .singular := by
  obtain ⟨m, rfl⟩ : ∃ m, maxIters = m + 3 := ⟨maxIters - 3, by omega⟩
  unfold proposed
  rw [show m + 3 - 1 = (m + 1) + 1 by omega]
  unfold search
  rw [h]
  simp only [Except.map]
  rw [if_neg (by omega), if_neg (by omega), hacc, C109_zero_scale_violated 1 n (by omega)]
  unfold search
  have : simple train true together (u (1 + 1)) (n + 100) 0 v steps = .error .singular := by
    unfold simple
    simp only [if_true]
    rw [if_neg ht, if_pos (by simp [sigma])]
  rw [this]

/-- With steps that are all accepted the hypotheses of the last theorem are met: e.g. one step far away from one training point. -/
example : ∃ acc rej, simple [fun _ => 0] true false (fun _ _ => 1/2) 101 (2 * 101) 1
    [(fun _ => 100 : Pos 1)] = .ok (acc, rej) ∧ acc.length = 1 := by
  have hs : sigma 1 101 (2 * 101) 1 = 1 := by
    unfold sigma
    norm_num [Real.rpow_neg_one]
  refine ⟨[fun _ => 100], [], ?_, rfl⟩
  unfold simple
  simp only [if_true]
  rw [if_neg (by simp), hs, if_neg one_ne_zero]
  unfold walk
  have hk : keeps 1 false [(fun _ => 0 : Pos 1)] (fun _ => 100) (fun _ => 1/2) := by
    rw [keeps_iff 1 one_pos]
    unfold Accepts
    simp only [Bool.false_eq_true, if_false]
    intro j hj
    have : j = 0 := by simpa using hj
    subst this
    have hz : sq ((fun _ => 100 : Pos 1) - fun _ => 0) = 10000 := by
      simp [sq]; norm_num
    show Real.exp (-(sq ((fun _ => 100 : Pos 1) - fun _ => 0)) / (2 * 1)) < 1/2
    rw [hz, neg_div, Real.exp_neg]
    have : (2 : ℝ) < Real.exp (10000 / (2 * 1)) := by
      have := Real.add_one_lt_exp (show (10000 / (2 * 1) : ℝ) ≠ 0 by norm_num)
      linarith
    rw [one_div]
    exact inv_strictAnti₀ (by norm_num) this
  rw [if_pos hk]
  rfl

end

/-- When a sample is empty the search goes on with a smaller scale. -/
theorem C109_empty_sample {P : Type} (run : ℕ → ℝ → Except Err (List P)) (avg : List P → ℝ) (N rep fuel it : ℕ) (κ : ℝ) (hκ : 0 < κ)
    (good : List (Good P)) (h : run it κ = .ok []) :
    ∃ κ', 0 < κ' ∧ κ' < κ ∧ search run avg N rep (fuel + 1) it κ good = search run avg N rep fuel (it + 1) κ' good := by
  refine ⟨κ * (1/2), by linarith, by linarith, ?_⟩
  rw [search, h]
  rfl

/-- If all densities are taken together, a second step is kept if and only if the density of the first is below its share of the peak. -/
theorem C109_second (σ : ℝ) (a x : Pos d) (u : ℝ) : keeps2 σ true [a] x u ↔ pdf σ (x - a) < peak1 d σ * u := by
  unfold keeps2
  by_cases h : pdf σ (x - a) < peak1 d σ * u <;> simp [h]

end Verif.Propose
