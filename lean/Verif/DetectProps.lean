import Verif.Detect
import Mathlib.Tactic.Linarith
import Mathlib.Tactic.NormNum
import Mathlib.Tactic.Ring
import Mathlib.Tactic.FieldSimp
import Mathlib.Analysis.MeanInequalities
/-!
C87: spins, masses and detection probabilities of pairs of compact objects are physical and do not depend on the labels of the stars.
-/
namespace Verif.Detect

theorem abs_cos_le (m a t : ℝ) (hm : 0 ≤ m) (ha : |a| ≤ 1) : |m * a * Real.cos t| ≤ m := by
  rw [abs_mul, abs_mul, abs_of_nonneg hm]
  have h2 := Real.abs_cos_le_one t
  have h3 : |a| * |Real.cos t| ≤ 1 := mul_le_one₀ ha (abs_nonneg _) h2
  calc m * |a| * |Real.cos t| = m * (|a| * |Real.cos t|) := by ring
    _ ≤ m * 1 := mul_le_mul_of_nonneg_left h3 hm
    _ = m := mul_one m

/-- **C87** The effective spin lies between minus one and one for spins in that range, whatever is undefined; it is the same if the stars are
exchanged. Aligned spins give their mean, weighted by mass. -/
theorem C87_chi_eff (m1 m2 : ℝ) (a1 a2 t1 t2 : Option ℝ) :
    (0 < m1 → 0 < m2 → |a1.getD 0| ≤ 1 → |a2.getD 0| ≤ 1 → |chiEff m1 m2 a1 a2 t1 t2| ≤ 1) ∧ chiEff m1 m2 a1 a2 t1 t2 = chiEff m2 m1 a2 a1 t2 t1 ∧
    ∀ x y, chiEff m1 m2 (some x) (some y) (some 0) (some 0) = (m1 * x + m2 * y) / (m1 + m2) := by
  refine ⟨fun h1 h2 h3 h4 => ?_, ?_, fun x y => ?_⟩
  · unfold chiEff
    rw [abs_div, abs_of_pos (show 0 < m1 + m2 by linarith), div_le_one (by linarith)]
    have e1 := abs_cos_le m1 _ (t1.getD 0) h1.le h3
    have e2 := abs_cos_le m2 _ (t2.getD 0) h2.le h4
    exact (abs_add_le _ _).trans (by linarith)
  · unfold chiEff
    rw [add_comm, add_comm m1 m2]
  · simp [chiEff]

/-- **C87** What is undefined counts as no spin, and as no tilt. -/
theorem C87_undefined (m1 m2 x : ℝ) (t1 t2 : Option ℝ) : chiEff m1 m2 none none t1 t2 = 0 ∧
    chiEff m1 m2 (some x) none none t2 = m1 * x / (m1 + m2) := by
  constructor <;> simp [chiEff]

/-- **C87** The precession parameter lies between zero and one if the second star is not the heavier one. -/
theorem C87_chi_p (t1 t2 a1 a2 m1 m2 : ℝ) (h1 : 0 < m1) (h2 : 0 < m2) (hle : m2 ≤ m1) (ha1 : |a1| ≤ 1) (ha2 : |a2| ≤ 1) :
    0 ≤ chiP t1 t2 a1 a2 m1 m2 ∧ chiP t1 t2 a1 a2 m1 m2 ≤ 1 := by
  have one : ∀ a t : ℝ, |a| ≤ 1 → |a * Real.sin t| ≤ 1 := fun a t ha => by
    rw [abs_mul]
    exact mul_le_one₀ ha (abs_nonneg _) (Real.abs_sin_le_one t)
  unfold chiP
  dsimp only
  have hq0 : 0 < m2 / m1 := div_pos h2 h1
  have hq1 : m2 / m1 ≤ 1 := (div_le_one h1).2 hle
  generalize m2 / m1 = q at hq0 hq1
  refine ⟨le_max_of_le_left (abs_nonneg _), max_le (one a1 t1 ha1) ?_⟩
  have hf0 : 0 ≤ q * ((4 * q + 3) / (4 + 3 * q)) := by positivity
  have hf1 : q * ((4 * q + 3) / (4 + 3 * q)) ≤ 1 := by
    rw [mul_div_assoc', div_le_one (by linarith)]
    nlinarith
  calc q * ((4 * q + 3) / (4 + 3 * q)) * a2 * Real.sin t2 = q * ((4 * q + 3) / (4 + 3 * q)) * (a2 * Real.sin t2) := by ring
    _ ≤ q * ((4 * q + 3) / (4 + 3 * q)) * 1 := mul_le_mul_of_nonneg_left ((le_abs_self _).trans (one a2 t2 ha2)) hf0
    _ ≤ 1 := by linarith

/-- **C87** Violated: with a heavier second star the parameter exceeds one. -/
theorem C87_chi_p_violated : 1 < chiP 0 (Real.pi / 2) 0 1 1 2 := by
  unfold chiP
  simp only [Real.sin_pi_div_two]
  refine lt_max_of_lt_right ?_
  norm_num

/-- **C87** The chirp mass is the same if the stars are exchanged, grows in proportion with both, and is that of two equal stars divided by the
fifth root of two. -/
theorem C87_chirp (m1 m2 c : ℝ) (h1 : 0 < m1) (h2 : 0 < m2) (hc : 0 < c) : chirp m1 m2 = chirp m2 m1 ∧ 0 < chirp m1 m2 ∧
    chirp (c * m1) (c * m2) = c * chirp m1 m2 ∧ chirp m1 m1 = m1 / 2 ^ (1 / 5 : ℝ) := by
  refine ⟨?_, ?_, ?_, ?_⟩
  · unfold chirp
    rw [mul_comm, add_comm]
  · unfold chirp
    exact div_pos (Real.rpow_pos_of_pos (mul_pos h1 h2) _) (Real.rpow_pos_of_pos (by linarith) _)
  · unfold chirp
    rw [show c * m1 * (c * m2) = c ^ (2 : ℝ) * (m1 * m2) by rw [Real.rpow_two]; ring, show c * m1 + c * m2 = c * (m1 + m2) by ring,
      Real.mul_rpow (Real.rpow_nonneg hc.le _) (mul_pos h1 h2).le, Real.mul_rpow hc.le (by linarith), ← Real.rpow_mul hc.le]
    have : c ^ ((2 : ℝ) * (3 / 5)) = c * c ^ (1 / 5 : ℝ) := by
      rw [show (2 : ℝ) * (3 / 5) = 1 + 1 / 5 by norm_num, Real.rpow_add hc, Real.rpow_one]
    rw [this]
    have hp := Real.rpow_pos_of_pos hc (1 / 5 : ℝ)
    have hp2 := Real.rpow_pos_of_pos (show 0 < m1 + m2 by linarith) (1 / 5 : ℝ)
    generalize c ^ (1 / 5 : ℝ) = x at *
    generalize (m1 + m2) ^ (1 / 5 : ℝ) = y at *
    generalize (m1 * m2) ^ (3 / 5 : ℝ) = z
    field_simp
  · unfold chirp
    rw [← two_mul, Real.mul_rpow (show (0 : ℝ) ≤ 2 by norm_num) h1.le, Real.mul_rpow h1.le h1.le, ← Real.rpow_add h1,
      show (3 / 5 : ℝ) + 3 / 5 = 1 + 1 / 5 by norm_num, Real.rpow_add h1, Real.rpow_one]
    have hp := Real.rpow_pos_of_pos h1 (1 / 5 : ℝ)
    have hp2 := Real.rpow_pos_of_pos (show (0 : ℝ) < 2 by norm_num) (1 / 5 : ℝ)
    generalize m1 ^ (1 / 5 : ℝ) = x at *
    generalize (2 : ℝ) ^ (1 / 5 : ℝ) = y at *
    field_simp

/-- **C87** For a given total mass the chirp mass is greatest for equal masses. -/
theorem C87_chirp_max (m1 m2 : ℝ) (h1 : 0 < m1) (h2 : 0 < m2) : chirp m1 m2 ≤ chirp ((m1 + m2) / 2) ((m1 + m2) / 2) := by
  unfold chirp
  rw [show (m1 + m2) / 2 + (m1 + m2) / 2 = m1 + m2 by ring]
  refine div_le_div_of_nonneg_right (Real.rpow_le_rpow (mul_pos h1 h2).le ?_ (by norm_num)) (Real.rpow_nonneg (by linarith) _)
  nlinarith [sq_nonneg (m1 - m2)]

/-- **C87** The mass ratio is that of the lighter to the heavier star, whatever the labels. -/
theorem C87_ratio (m1 m2 : ℝ) (h1 : 0 < m1) (h2 : 0 < m2) : ratio m1 m2 = min m1 m2 / max m1 m2 ∧ ratio m1 m2 = ratio m2 m1 ∧ 0 < ratio m1 m2 ∧ ratio m1 m2 ≤ 1 := by
  have key : ∀ a b : ℝ, 0 < a → 0 < b → ratio a b = min a b / max a b := by
    intro a b ha hb
    unfold ratio
    dsimp only
    by_cases h : 1 < b / a
    · rw [if_pos h]
      rw [lt_div_iff₀ ha, one_mul] at h
      rw [min_eq_left h.le, max_eq_right h.le, one_div, inv_div]
    · rw [if_neg h]
      rw [not_lt, div_le_one ha] at h
      rw [min_eq_right h, max_eq_left h]
  refine ⟨key _ _ h1 h2, by rw [key _ _ h1 h2, key _ _ h2 h1, min_comm, max_comm], ?_, ?_⟩
  · rw [key _ _ h1 h2]
    exact div_pos (lt_min h1 h2) (lt_max_of_lt_left h1)
  · rw [key _ _ h1 h2, div_le_one (lt_max_of_lt_left h1)]
    exact min_le_max

/-! ### Weights -/

/-- **C87** Detection can only lower a weight; each weight is multiplied by the probability of its own event at its own redshift, and events
without a redshift keep theirs. -/
theorem C87_weights {pdet : ℝ → ℝ → ℝ → ℝ → ℝ} {es : List Ev} {zs : List (Option ℝ)} {ws r : List ℝ} (h : column pdet es zs ws = .ok r) (k : ℕ) (e : Ev)
    (z : Option ℝ) (w : ℝ) (he : es[k]? = some e) (hz : zs[k]? = some z) (hw : ws[k]? = some w) :
    (z = none → r[k]? = some w) ∧ (∀ x, z = some x → r[k]? = some (w * pdet e.m1 (slice e).2.1 (slice e).2.2 x)) ∧
    (0 ≤ w → ∃ v, r[k]? = some v ∧ 0 ≤ v ∧ v ≤ w) := by
  unfold column at h
  split_ifs at h with hc
  simp only [Except.ok.injEq] at h
  have hk : (es.zip zs)[k]? = some (e, z) := by rw [List.getElem?_zip_eq_some]; exact ⟨he, hz⟩
  have hr : ∀ f : Ev × Option ℝ → ℝ → ℝ, (List.zipWith f (es.zip zs) ws)[k]? = some (f (e, z) w) := by
    intro f
    rw [List.getElem?_zipWith, hk, hw]
  have hr := (congrArg (fun l : List ℝ => l[k]?) h).symm.trans (hr _)
  dsimp only at hr
  refine ⟨fun hn => by subst hn; exact hr, fun x hx => by subst hx; exact hr, fun h0 => ⟨_, hr, ?_⟩⟩
  cases z with
  | none => exact ⟨h0, le_refl _⟩
  | some x =>
    dsimp only
    have hp : pdet (slice e).1 (slice e).2.1 (slice e).2.2 x ≤ 1 ∧ 0 ≤ pdet (slice e).1 (slice e).2.1 (slice e).2.2 x := by
      by_contra hn
      exact hc ⟨(e, some x), List.mem_of_getElem? hk, x, rfl, hn⟩
    exact ⟨mul_nonneg h0 hp.2, by nlinarith [hp.1]⟩

theorem go_ok {pdet : ℝ → ℝ → ℝ → ℝ → ℝ} {es : List Ev} : ∀ {cs : List (List (Option ℝ) × List ℝ)} {l : List (List ℝ)}, detect.go pdet es cs = .ok l →
    List.Forall₂ (fun c r => column pdet es c.1 c.2 = .ok r) cs l
  | [], l, h => by
    simp only [detect.go, Except.ok.injEq] at h
    subst h
    exact .nil
  | (zs, ws) :: cs, l, h => by
    unfold detect.go at h
    cases h1 : column pdet es zs ws with
    | error e => rw [h1] at h; simp at h
    | ok c =>
      rw [h1] at h
      dsimp only at h
      cases h2 : detect.go pdet es cs with
      | error e => rw [h2] at h; simp at h
      | ok l' =>
        rw [h2] at h
        simp only [Except.ok.injEq] at h
        subst h
        exact .cons h1 (go_ok h2)

/-- **C87** Each redshift column is weighted on its own; an unknown sensitivity is refused; a prediction which is no probability stops. -/
theorem C87_columns (pdet : ℝ → ℝ → ℝ → ℝ → ℝ) (s : String) (es : List Ev) (cs : List (List (Option ℝ) × List ℝ)) :
    (s ∉ sensitivities → detect pdet s es cs = .error .value) ∧
    (∀ l, detect pdet s es cs = .ok l → s ∈ sensitivities ∧ List.Forall₂ (fun c r => column pdet es c.1 c.2 = .ok r) cs l) ∧
    (∀ (k : ℕ) (e : Ev) (z x : ℝ), es[k]? = some e → ∀ (zs : List (Option ℝ)) (ws : List ℝ), zs[k]? = some (some z) → pdet (slice e).1 (slice e).2.1 (slice e).2.2 z = x → (1 < x ∨ x < 0) →
      column pdet es zs ws = .error .assertion) := by
  refine ⟨fun h => if_pos h, fun l h => ?_, fun k e z x he zs ws hz hx hb => ?_⟩
  · unfold detect at h
    by_cases hs : s ∉ sensitivities
    · rw [if_pos hs] at h; simp at h
    · rw [if_neg hs] at h
      exact ⟨not_not.1 hs, go_ok h⟩
  · unfold column
    rw [if_pos]
    refine ⟨(e, some z), List.mem_of_getElem? (List.getElem?_zip_eq_some.2 ⟨he, hz⟩), z, rfl, ?_⟩
    rintro ⟨h1, h2⟩
    rw [hx] at h1 h2
    rcases hb with hb | hb <;> linarith

/-- **C87** If the first star is the heavier one, the system looked up is the system of the event. -/
theorem C87_looked_up_partial (e : Ev) (hq : e.q = none) (h1 : 0 < e.m1) (h2 : 0 < e.m2) (hle : e.m2 ≤ e.m1) :
    (slice e).1 = max e.m1 e.m2 ∧ (slice e).1 * (slice e).2.1 = min e.m1 e.m2 := by
  unfold slice
  rw [hq]
  simp only [Option.getD_none]
  rw [(C87_ratio e.m1 e.m2 h1 h2).1, max_eq_left hle, min_eq_right hle]
  exact ⟨rfl, by field_simp⟩

/-- **C87** Violated: if the second star is the heavier one, another system is looked up: the mass is that of the lighter star and the ratio less than
one, so that the total mass is too small. -/
theorem C87_looked_up_violated (e : Ev) (hq : e.q = none) (h1 : 0 < e.m1) (hlt : e.m1 < e.m2) :
    (slice e).1 = min e.m1 e.m2 ∧ (slice e).1 + (slice e).1 * (slice e).2.1 < e.m1 + e.m2 := by
  have h2 : 0 < e.m2 := h1.trans hlt
  unfold slice
  rw [hq]
  simp only [Option.getD_none]
  rw [min_eq_left hlt.le]
  refine ⟨rfl, ?_⟩
  have := (C87_ratio e.m1 e.m2 h1 h2).2.2.2
  nlinarith

/-- **C87** Violated: exchanging the labels of the stars changes the weight, for instance with a probability which grows with the mass. -/
theorem C87_labels_violated : ∃ (pdet : ℝ → ℝ → ℝ → ℝ → ℝ) (e e' : Ev), (∀ m q c z, 0 ≤ pdet m q c z ∧ pdet m q c z ≤ 1) ∧
    e' = ⟨e.m2, e.m1, e.a2, e.a1, e.t2, e.t1, e.q, e.chi⟩ ∧ column pdet [e] [some 1] [1] = .ok [1] ∧ column pdet [e'] [some 1] [1] = .ok [0] := by
  have hb : ∀ m q c z : ℝ, 0 ≤ (if 20 < m then 1 else 0 : ℝ) ∧ (if 20 < m then 1 else 0 : ℝ) ≤ 1 := by
    intro m _ _ _
    split <;> norm_num
  refine ⟨fun m _ _ _ => if 20 < m then 1 else 0, ⟨30, 10, none, none, none, none, none, none⟩, _, hb, rfl, ?_, ?_⟩
  · unfold column
    rw [if_neg]
    · simp only [List.zip_cons_cons, List.zip_nil_right, List.zipWith_cons_cons, List.zipWith_nil_right, slice]
      norm_num
    · rintro ⟨p, -, z, -, hn⟩
      exact hn ⟨(hb _ 0 0 0).2, (hb _ 0 0 0).1⟩
  · unfold column
    rw [if_neg]
    · simp only [List.zip_cons_cons, List.zip_nil_right, List.zipWith_cons_cons, List.zipWith_nil_right, slice]
      norm_num
    · rintro ⟨p, -, z, -, hn⟩
      exact hn ⟨(hb _ 0 0 0).2, (hb _ 0 0 0).1⟩

/-! ### Regression -/

/-- **C87** Scaling takes the bounds to zero and one and keeps the order. -/
theorem C87_normalize (x y xmin xmax : ℝ) (h : xmin < xmax) : normalize xmin xmin xmax 0 1 = 0 ∧ normalize xmax xmin xmax 0 1 = 1 ∧
    (normalize x xmin xmax 0 1 < normalize y xmin xmax 0 1 ↔ x < y) := by
  have hp : 0 < xmax - xmin := by linarith
  unfold normalize
  refine ⟨by simp, by rw [sub_zero, one_mul, div_self hp.ne', add_zero], ?_⟩
  rw [add_lt_add_iff_right, sub_zero, one_mul, one_mul, div_lt_div_iff_of_pos_right hp, sub_lt_sub_iff_right]

theorem weight_nonneg (nb : List (ℝ × ℝ)) (h : ∀ p ∈ nb, 0 ≤ p.1) : ∀ p ∈ nb, 0 ≤ weight nb p.1 := by
  intro p hp
  unfold weight
  split_ifs
  · norm_num
  · exact le_refl _
  · exact one_div_nonneg.2 (h p hp)

theorem sum_weight_pos (nb : List (ℝ × ℝ)) (h : ∀ p ∈ nb, 0 ≤ p.1) (hne : nb ≠ []) : 0 < (nb.map fun p => weight nb p.1).sum := by
  have hpos : ∃ p ∈ nb, 0 < weight nb p.1 := by
    by_cases hz : ∃ p ∈ nb, p.1 = 0
    · obtain ⟨p, hp, h0⟩ := hz
      refine ⟨p, hp, ?_⟩
      unfold weight
      rw [if_pos ⟨p, hp, h0⟩, if_pos h0]
      norm_num
    · obtain ⟨p, l, rfl⟩ := List.exists_cons_of_ne_nil hne
      refine ⟨p, by simp, ?_⟩
      unfold weight
      rw [if_neg hz]
      have : p.1 ≠ 0 := fun h0 => hz ⟨p, by simp, h0⟩
      exact one_div_pos.2 (lt_of_le_of_ne (h p (by simp)) (Ne.symm this))
  have hnn := weight_nonneg nb h
  obtain ⟨p, hp, hw⟩ := hpos
  have : ∀ l : List (ℝ × ℝ), (∀ p ∈ l, 0 ≤ weight nb p.1) → p ∈ l → 0 < (l.map fun p => weight nb p.1).sum := by
    intro l
    induction l with
    | nil => intro _ h; simp at h
    | cons q l ih =>
      intro hl hm
      rw [List.map_cons, List.sum_cons]
      have hs : 0 ≤ (l.map fun p => weight nb p.1).sum := List.sum_nonneg fun x hx => by
        obtain ⟨y, hy, rfl⟩ := List.mem_map.1 hx
        exact hl y (by simp [hy])
      rcases List.mem_cons.1 hm with rfl | hm
      · linarith
      · have := ih (fun p hp => hl p (by simp [hp])) hm
        linarith [hl q (by simp)]
  exact this nb hnn hp

/-- **C87** A prediction lies between the least and the greatest value of the neighbours; in particular it is a probability if the table holds
probabilities, so that the assertion never fails. -/
theorem C87_between (nb : List (ℝ × ℝ)) (hne : nb ≠ []) (h : ∀ p ∈ nb, 0 ≤ p.1) (lo hi : ℝ) (hb : ∀ p ∈ nb, lo ≤ p.2 ∧ p.2 ≤ hi) : lo ≤ knn nb ∧ knn nb ≤ hi := by
  have hs := sum_weight_pos nb h hne
  have hnn := weight_nonneg nb h
  unfold knn
  have key : ∀ l : List (ℝ × ℝ), (∀ p ∈ l, 0 ≤ weight nb p.1 ∧ lo ≤ p.2 ∧ p.2 ≤ hi) →
      lo * (l.map fun p => weight nb p.1).sum ≤ (l.map fun p => weight nb p.1 * p.2).sum ∧
      (l.map fun p => weight nb p.1 * p.2).sum ≤ hi * (l.map fun p => weight nb p.1).sum := by
    intro l
    induction l with
    | nil => intro _; simp
    | cons q l ih =>
      intro hl
      obtain ⟨i1, i2⟩ := ih fun p hp => hl p (by simp [hp])
      obtain ⟨w, b1, b2⟩ := hl q (by simp)
      simp only [List.map_cons, List.sum_cons]
      have e1 := mul_le_mul_of_nonneg_left b1 w
      have e2 := mul_le_mul_of_nonneg_left b2 w
      constructor <;> nlinarith
  obtain ⟨k1, k2⟩ := key nb fun p hp => ⟨hnn p hp, hb p hp⟩
  exact ⟨(le_div_iff₀ hs).2 k1, (div_le_iff₀ hs).2 k2⟩

/-- **C87** At a system of the table the prediction is the value of the table. -/
theorem C87_exact (nb : List (ℝ × ℝ)) (v : ℝ) (hz : ∃ p ∈ nb, p.1 = 0) (hv : ∀ p ∈ nb, p.1 = 0 → p.2 = v) (h : ∀ p ∈ nb, 0 ≤ p.1) : knn nb = v := by
  have hne : nb ≠ [] := by
    rintro rfl
    obtain ⟨p, hp, -⟩ := hz
    simp at hp
  have hs := sum_weight_pos nb h hne
  unfold knn
  rw [div_eq_iff hs.ne']
  have : ∀ l : List (ℝ × ℝ), (∀ p ∈ l, p.1 = 0 → p.2 = v) → (l.map fun p => weight nb p.1 * p.2).sum = v * (l.map fun p => weight nb p.1).sum := by
    intro l
    induction l with
    | nil => intro _; simp
    | cons q l ih =>
      intro hl
      simp only [List.map_cons, List.sum_cons]
      rw [ih fun p hp => hl p (by simp [hp]), mul_add]
      congr 1
      by_cases h0 : q.1 = 0
      · rw [hl q (by simp) h0, mul_comm]
      · unfold weight
        rw [if_pos hz, if_neg h0]
        ring
  exact this nb hv

example : knn [(0, 1 / 4), (1, 1)] = 1 / 4 := C87_exact _ _ ⟨(0, 1 / 4), by simp, rfl⟩ (by simp) (by simp)

/-- **C87** Violated: the bounds are rounded to five decimals, so that a table which begins at a redshift below 0.000005 is scaled with the
logarithm of zero. -/
theorem C87_rounding_violated (z : ℝ) (h0 : 0 < z) (h : z < 5 / 1000000) : round5 z = 0 := by
  unfold round5
  have : round (z * 100000) = 0 := by
    rw [round_eq, Int.floor_eq_iff]
    constructor
    · push_cast; linarith
    · push_cast; linarith
  rw [this]
  simp

/-- **C87** Systems at the lower ends of the table are looked up at the origin, those at the upper ends at the opposite corner; a larger mass, ratio, redshift or spin
has a larger coordinate. -/
theorem C87_point (mB qB zB cB : ℝ × ℝ) (hm : 0 < mB.1 ∧ mB.1 < mB.2) (hq : qB.1 < qB.2) (hz : 0 < zB.1 ∧ zB.1 < zB.2) (hc : cB.1 < cB.2) :
    point mB qB zB cB mB.1 qB.1 zB.1 cB.1 = [0, 0, 0, 0] ∧ point mB qB zB cB mB.2 qB.2 zB.2 cB.2 = [1, 1, 1, 1] ∧
    ∀ m q z c m' q' z' c', 0 < m → 0 < m' → 0 < z → 0 < z' →
      ∃ x1 x2 x3 x4 y1 y2 y3 y4, point mB qB zB cB m q z c = [x1, x2, x3, x4] ∧ point mB qB zB cB m' q' z' c' = [y1, y2, y3, y4] ∧
        (x1 < y1 ↔ m < m') ∧ (x2 < y2 ↔ q < q') ∧ (x3 < y3 ↔ z < z') ∧ (x4 < y4 ↔ c < c') := by
  have hm' : Real.logb 10 mB.1 < Real.logb 10 mB.2 := Real.logb_lt_logb (by norm_num) hm.1 hm.2
  have hz' : Real.logb 10 zB.1 < Real.logb 10 zB.2 := Real.logb_lt_logb (by norm_num) hz.1 hz.2
  refine ⟨?_, ?_, ?_⟩
  · unfold point
    rw [(C87_normalize 0 0 _ _ hm').1, (C87_normalize 0 0 _ _ hq).1, (C87_normalize 0 0 _ _ hz').1, (C87_normalize 0 0 _ _ hc).1]
  · unfold point
    rw [(C87_normalize 0 0 _ _ hm').2.1, (C87_normalize 0 0 _ _ hq).2.1, (C87_normalize 0 0 _ _ hz').2.1, (C87_normalize 0 0 _ _ hc).2.1]
  · intro m q z c m' q' z' c' h1 h2 h3 h4
    refine ⟨_, _, _, _, _, _, _, _, rfl, rfl, ?_, ?_, ?_, ?_⟩
    · rw [(C87_normalize _ _ _ _ hm').2.2, Real.logb_lt_logb_iff (by norm_num) h1 h2]
    · rw [(C87_normalize _ _ _ _ hq).2.2]
    · rw [(C87_normalize _ _ _ _ hz').2.2, Real.logb_lt_logb_iff (by norm_num) h3 h4]
    · rw [(C87_normalize _ _ _ _ hc).2.2]

/-- **C87** Rounding changes a value by at most half of the fifth decimal place, and keeps values with five decimal places. -/
theorem C87_rounding (x : ℝ) : |round5 x - x| ≤ 1 / 200000 ∧ ∀ n : ℤ, round5 ((n : ℝ) / 100000) = (n : ℝ) / 100000 := by
  constructor
  · have h := abs_sub_round (x * 100000)
    rw [abs_le] at h ⊢
    unfold round5
    constructor
    · rw [le_sub_iff_add_le, le_div_iff₀ (by norm_num)]; linarith [h.2]
    · rw [sub_le_iff_le_add, div_le_iff₀ (by norm_num)]; linarith [h.1]
  · intro n
    unfold round5
    rw [div_mul_cancel₀ _ (by norm_num), round_intCast]

/-- **C87** Away from the points of the table each neighbour counts with the inverse of its distance. -/
theorem C87_inverse_distance (nb : List (ℝ × ℝ)) (hne : nb ≠ []) (h : ∀ p ∈ nb, 0 < p.1) :
    knn nb * (nb.map fun p => 1 / p.1).sum = (nb.map fun p => p.2 / p.1).sum := by
  have hw : ∀ d, weight nb d = 1 / d := by
    intro d
    unfold weight
    rw [if_neg]
    rintro ⟨p, hp, h0⟩
    exact absurd h0 (h p hp).ne'
  have hs := sum_weight_pos nb (fun p hp => (h p hp).le) hne
  unfold knn
  simp only [hw] at hs ⊢
  rw [div_mul_cancel₀ _ hs.ne']
  congr 1
  refine List.map_congr_left fun p _ => ?_
  rw [one_div, inv_mul_eq_div]

end Verif.Detect
