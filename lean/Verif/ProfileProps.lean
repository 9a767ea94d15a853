import Verif.Profile
import Mathlib.Tactic.NormNum
import Mathlib.Tactic.Positivity
/-!
Property theorems for C41 (mass ejected with a given energy), C42 (core boundary) and C59 (binding energy and lambda).
-/
namespace Verif.Profile
open Verif.Orbit (cgrav Msun Rsun)
open Verif.FlowChart (Star starHRich starHeRich)
open Classical

/-! ### C42 -/

theorem first_spec (p : Cell → Prop) (cells : List Cell) (h : ∃ c ∈ cells, p c) :
    ∃ c, cells[first p cells]? = some c ∧ p c ∧ ∀ j < first p cells, ∀ d, cells[j]? = some d → ¬ p d := by
  obtain ⟨c, hc, hp⟩ := h
  have hlt : first p cells < cells.length := List.findIdx_lt_length_of_exists ⟨c, hc, by simpa using hp⟩
  refine ⟨cells[first p cells], List.getElem?_eq_getElem hlt, ?_, fun j hj d hd => ?_⟩
  · have := List.findIdx_getElem (p := fun c => decide (p c)) (w := hlt)
    rw [decide_eq_true_eq] at this
    exact this
  · have hjl : j < cells.length := hj.trans hlt
    rw [List.getElem?_eq_getElem hjl] at hd
    injection hd with hd
    have := List.not_of_lt_findIdx (p := fun c => decide (p c)) hj
    rw [← hd]
    simpa using this

/-- C42: the boundary found by composition is the outermost cell which satisfies the definition of the core, and -1 exactly if there is none. -/
theorem C42_first (s : Star) (co : Bool) (mc : Option ℝ) (f : ℝ) (cells : List Cell) (p : Cell → Prop) (h : coreCond s true co f = some p) :
    ∃ k, coreBoundary s true mc (some f) co cells = .ok k ∧
      ((k = -1 ∧ ∀ c ∈ cells, ¬ p c) ∨
        ∃ (n : ℕ) (c : Cell), k = n ∧ cells[n]? = some c ∧ p c ∧ ∀ j < n, ∀ d, cells[j]? = some d → ¬ p d) := by
  unfold coreBoundary
  simp only [h]
  by_cases he : ∃ c ∈ cells, p c
  · rw [if_neg (not_not.2 he)]
    obtain ⟨c, h1, h2, h3⟩ := first_spec p cells he
    exact ⟨_, rfl, .inr ⟨_, c, rfl, h1, h2, h3⟩⟩
  · rw [if_pos he]
    exact ⟨-1, rfl, .inl ⟨rfl, fun c hc hp => he ⟨c, hc, hp⟩⟩⟩

/-- C42: which definition of the core is used: the helium core of a hydrogen-rich star needs little hydrogen, the carbon-oxygen core (and the
core of a helium star) little hydrogen and helium; both need at least a tenth of the core material. -/
theorem C42_definition (s : Star) (co : Bool) (f : ℝ) (c : Cell) :
    (s ∈ starHRich → co = false → ∃ p, coreCond s true co f = some p ∧ (p c ↔ c.X ≤ f ∧ 0.1 ≤ c.Y + c.Z)) ∧
    (s ∈ starHRich → co = true → ∃ p, coreCond s true co f = some p ∧ (p c ↔ c.X + c.Y ≤ f ∧ 0.1 ≤ c.Z)) ∧
    (s ∉ starHRich → s ∈ starHeRich → ∃ p, coreCond s true co f = some p ∧ (p c ↔ c.X + c.Y ≤ f ∧ 0.1 ≤ c.Z)) := by
  refine ⟨fun h hc => ?_, fun h hc => ?_, fun h h' => ?_⟩
  · subst hc; unfold coreCond; rw [if_pos ⟨h, rfl⟩]; exact ⟨_, rfl, Iff.rfl⟩
  · subst hc; unfold coreCond; rw [if_pos ⟨h, rfl⟩]; exact ⟨_, rfl, Iff.rfl⟩
  · unfold coreCond; rw [if_neg (fun x => h x.1), if_pos ⟨h', rfl⟩]; exact ⟨_, rfl, Iff.rfl⟩

/-- C42: without the columns, and for objects that are no normal stars, the whole star counts as envelope. -/
theorem C42_all_envelope (s : Star) (hasX co : Bool) (mc : Option ℝ) (f : ℝ) (cells : List Cell)
    (h : hasX = false ∨ (s ∉ starHRich ∧ s ∉ starHeRich)) : coreBoundary s hasX mc (some f) co cells = .ok (-1) := by
  have : coreCond s hasX co f = none := by
    unfold coreCond
    rw [if_neg, if_neg]
    · rintro ⟨h1, h2⟩; rcases h with h | h
      · rw [h] at h2; exact absurd h2 (by decide)
      · exact h.2 h1
    · rintro ⟨h1, h2⟩; rcases h with h | h
      · rw [h] at h2; exact absurd h2 (by decide)
      · exact h.1 h1
  unfold coreBoundary
  simp only [this]

/-- C42: the boundary found by mass is the outermost cell inside the core mass, if there is such a cell. -/
theorem C42_mass_partial (s : Star) (hasX co : Bool) (mc : ℝ) (cells : List Cell) (h : ∃ c ∈ cells, c.mass < mc) :
    ∃ (n : ℕ) (c : Cell), coreBoundary s hasX (some mc) none co cells = .ok n ∧ cells[n]? = some c ∧ c.mass < mc ∧
      ∀ j < n, ∀ d, cells[j]? = some d → mc ≤ d.mass := by
  have hne : cells ≠ [] := by rintro rfl; simp at h
  have hn : ¬ ∀ c ∈ cells, c.mass ≥ mc := by
    obtain ⟨c, hc, hm⟩ := h
    intro hh; exact absurd (hh c hc) (not_le.2 hm)
  obtain ⟨c, h1, h2, h3⟩ := first_spec (fun c => ¬ c.mass ≥ mc) cells (by obtain ⟨c, hc, hm⟩ := h; exact ⟨c, hc, not_le.2 hm⟩)
  refine ⟨_, c, ?_, h1, not_le.1 h2, fun j hj d hd => not_not.1 (h3 j hj d hd)⟩
  unfold coreBoundary
  simp only
  rw [if_neg hne, if_neg hn]

/-- C42 violated: if no cell lies inside the core mass the answer is 0, which means "the star is all core", instead of -1, "all envelope". -/
theorem C42_mass_violated (s : Star) (hasX co : Bool) (mc : ℝ) (cells : List Cell) (hne : cells ≠ []) (h : ∀ c ∈ cells, mc ≤ c.mass) :
    coreBoundary s hasX (some mc) none co cells = .ok 0 := by
  unfold coreBoundary
  simp only
  rw [if_neg hne, if_pos (fun c hc => h c hc)]

/-- C42: without any definition of the core the call is refused. -/
theorem C42_refused (s : Star) (hasX co : Bool) (cells : List Cell) : coreBoundary s hasX none none co cells = .error .value := rfl

/-- C42: helium depletion is the first row classified so, and -1 if there is none. -/
theorem C42_he_depletion (rnd : ℚ → ℚ) (rel : ℚ) (rows : List Verif.StarState.Inputs) :
    (heDepletion rnd rel rows = -1 ∧ ∀ i ∈ rows, ∀ r, Verif.StarState.inferNormal rnd rel i ≠ .normal r .coreHeDep) ∨
    ∃ (n : ℕ) (i : Verif.StarState.Inputs), heDepletion rnd rel rows = n ∧ rows[n]? = some i ∧
      (∃ r, Verif.StarState.inferNormal rnd rel i = .normal r .coreHeDep) ∧
      ∀ j < n, ∀ d, rows[j]? = some d → ∀ r, Verif.StarState.inferNormal rnd rel d ≠ .normal r .coreHeDep := by
  obtain ⟨p, hpi, hdef⟩ : ∃ p : Verif.StarState.Inputs → Bool,
      (∀ i, p i = true ↔ ∃ r, Verif.StarState.inferNormal rnd rel i = .normal r .coreHeDep) ∧
      heDepletion rnd rel rows = if rows.any p then (rows.findIdx p : ℤ) else -1 := by
    refine ⟨_, fun i => ?_, rfl⟩
    split
    · rename_i r h; exact ⟨fun _ => ⟨r, h⟩, fun _ => rfl⟩
    · rename_i h
      exact ⟨fun h' => absurd h' (by decide), fun ⟨r, hr⟩ => absurd hr (h r)⟩
  rw [hdef]
  by_cases h : rows.any p = true
  · right
    rw [if_pos h]
    rw [List.any_eq_true] at h
    have hlt : rows.findIdx p < rows.length := List.findIdx_lt_length_of_exists h
    refine ⟨_, rows[rows.findIdx p], rfl, List.getElem?_eq_getElem hlt, (hpi _).1 (List.findIdx_getElem (w := hlt)), fun j hj d hd r hr => ?_⟩
    rw [List.getElem?_eq_getElem (hj.trans hlt)] at hd
    injection hd with hd
    have := List.not_of_lt_findIdx (p := p) hj
    rw [hd] at this
    exact absurd ((hpi d).2 ⟨r, hr⟩) (by simpa using this)
  · left
    rw [if_neg h]
    refine ⟨rfl, fun i hi r hr => h ?_⟩
    rw [List.any_eq_true]
    exact ⟨i, hi, (hpi i).2 ⟨r, hr⟩⟩

/-! ### C41 -/

/-- C41: the number of cells integrated is the smallest one whose binding energy reaches the budget (or all). -/
theorem C41_smallest (thr f : ℝ) (cells : List Cell) :
    let i := ejectLoop thr f cells (0, 0) 0
    i ≤ cells.length ∧ (∀ k < i, |energyTo f cells k| < thr) ∧ (i < cells.length → thr ≤ |energyTo f cells i|) := by
  obtain ⟨-, h2, h3, h4⟩ := ejectLoop_spec thr f cells (0, 0) 0
  refine ⟨by simpa using h2, fun k hk => ?_, fun h => ?_⟩
  · simpa using h3 k (by simpa using hk)
  · simpa using h4 (by simpa using h)

theorem ejected_eq {cells : List Cell} {thr mc rc f m : ℝ} (h : ejectedMass cells thr mc rc f = .ok m) :
    ∃ c c0, pyPred cells (ejectLoop thr f cells (0, 0) 0) = some c ∧ cells.head? = some c0 ∧
      m = c0.mass - if c.mass < mc ∨ c.radius < rc then mc else c.mass := by
  unfold ejectedMass at h
  split at h
  · rename_i c c0 h1 h2
    injection h with h
    exact ⟨c, c0, h1, h2, h.symm⟩
  · exact absurd h (by simp)

theorem inward_head {cells : List Cell} (hin : Inward cells) {c0 c : Cell} (h0 : cells.head? = some c0) (hc : c ∈ cells) :
    c.mass ≤ c0.mass ∧ c.radius ≤ c0.radius := by
  cases cells with
  | nil => simp at hc
  | cons a l =>
    simp only [List.head?_cons, Option.some.injEq] at h0
    subst h0
    rcases List.mem_cons.1 hc with h | h
    · rw [h]; exact ⟨le_rfl, le_rfl⟩
    · exact (List.pairwise_cons.1 hin).1 c h

theorem pyPred_mem {cells : List Cell} {i : ℕ} {c : Cell} (h : pyPred cells i = some c) : c ∈ cells := by
  unfold pyPred at h
  split_ifs at h
  · exact List.mem_of_getLast? h
  · exact List.mem_of_getElem? h

/-- C41: the ejected mass is between nothing and the whole envelope. -/
theorem C41_range (cells : List Cell) (thr mc rc f m : ℝ) (c0 : Cell) (hin : Inward cells) (h0 : cells.head? = some c0) (hmc : mc ≤ c0.mass)
    (h : ejectedMass cells thr mc rc f = .ok m) : 0 ≤ m ∧ m ≤ c0.mass - mc := by
  obtain ⟨c, c0', hc, hh, rfl⟩ := ejected_eq h
  rw [h0] at hh
  injection hh with hh
  subst hh
  have := (inward_head hin h0 (pyPred_mem hc)).1
  split_ifs with hx
  · exact ⟨by linarith, le_rfl⟩
  · push Not at hx
    exact ⟨by linarith, by linarith [hx.1]⟩

theorem ejectLoop_mono (thr thr' f : ℝ) (hle : thr ≤ thr') (cells : List Cell) :
    ∀ gu i, ejectLoop thr f cells gu i ≤ ejectLoop thr' f cells gu i := by
  induction cells with
  | nil => intro gu i; exact le_rfl
  | cons c cs ih =>
    intro gu i
    simp only [ejectLoop]
    by_cases h : |gu.1 + f * gu.2| < thr
    · rw [if_pos h, if_pos (h.trans_le hle)]; exact ih _ _
    · rw [if_neg h]
      split_ifs
      · exact (Nat.le_succ i).trans (ejectLoop_spec thr' f cs _ _).1
      · exact le_rfl

/-- C41: more energy never ejects less mass (for budgets above zero). -/
theorem C41_monotone_partial (cells : List Cell) (thr thr' mc rc f m m' : ℝ) (c0 : Cell) (hpos : 0 < thr) (hle : thr ≤ thr') (hin : Inward cells)
    (h0 : cells.head? = some c0) (h : ejectedMass cells thr mc rc f = .ok m) (h' : ejectedMass cells thr' mc rc f = .ok m') :
    m ≤ m' := by
  obtain ⟨c, d, hc, hd, rfl⟩ := ejected_eq h
  obtain ⟨c', d', hc', hd', rfl⟩ := ejected_eq h'
  rw [h0] at hd hd'
  injection hd with hd
  injection hd' with hd'
  subst hd
  rw [← hd']
  have hi := ejectLoop_mono thr thr' f hle cells (0, 0) 0
  have hi0 : 0 < ejectLoop thr f cells (0, 0) 0 := by
    cases cells with
    | nil => simp at h0
    | cons a l =>
      simp only [ejectLoop]
      rw [if_pos (by simpa using hpos)]
      have := (ejectLoop_spec thr f l (0 + gravCell a, 0 + intCell a) (0 + 1)).1
      omega
  set i := ejectLoop thr f cells (0, 0) 0
  set i' := ejectLoop thr' f cells (0, 0) 0
  unfold pyPred at hc hc'
  rw [if_neg (by omega)] at hc hc'
  have hcc : c'.mass ≤ c.mass ∧ c'.radius ≤ c.radius := by
    rcases Nat.lt_or_ge (i - 1) (i' - 1) with hlt | hge
    · obtain ⟨hb, rfl⟩ := List.getElem?_eq_some_iff.1 hc'
      obtain ⟨ha, rfl⟩ := List.getElem?_eq_some_iff.1 hc
      exact (List.pairwise_iff_getElem.1 hin) _ _ ha hb hlt
    · have : i - 1 = i' - 1 := by omega
      rw [this, hc'] at hc
      injection hc with hc
      rw [hc]; exact ⟨le_rfl, le_rfl⟩
  by_cases hx : c.mass < mc ∨ c.radius < rc
  · rw [if_pos hx]
    have : c'.mass < mc ∨ c'.radius < rc := hx.imp (fun h => hcc.1.trans_lt h) (fun h => hcc.2.trans_lt h)
    rw [if_pos this]
  · rw [if_neg hx]
    by_cases hx' : c'.mass < mc ∨ c'.radius < rc
    · rw [if_pos hx']
      push Not at hx
      linarith [hx.1]
    · rw [if_neg hx']; linarith [hcc.1]

/-- C41: the layers that are ejected need less energy than the budget; the cell in which the budget is used up stays. -/
theorem C41_within_budget (cells : List Cell) (thr f : ℝ) (hpos : 0 < thr) :
    |energyTo f cells (ejectLoop thr f cells (0, 0) 0 - 1)| < thr := by
  obtain ⟨-, h, -⟩ := C41_smallest thr f cells
  by_cases h0 : ejectLoop thr f cells (0, 0) 0 = 0
  · rw [h0]; simpa [energyTo] using hpos
  · exact h _ (by omega)

/-- C41: the enclosed masses and the cell masses derived from them agree: what lies above cell `k` is the sum of the cells above it. -/
theorem C41_cell_masses (ms dm : List ℝ) (h : cellMasses ms = some dm) :
    dm.length = ms.length ∧ ∀ k (m0 mk : ℝ), ms.head? = some m0 → ms[k]? = some mk → (dm.take k).sum = m0 - mk := by
  induction ms generalizing dm with
  | nil => simp [cellMasses] at h
  | cons m l ih =>
    cases l with
    | nil =>
      simp only [cellMasses, Option.some.injEq] at h
      subst h
      refine ⟨rfl, fun k m0 mk h0 hk => ?_⟩
      cases k with
      | zero => simp at h0 hk; subst h0; subst hk; simp
      | succ k => simp at hk
    | cons m' l =>
      simp only [cellMasses, Option.map_eq_some_iff] at h
      obtain ⟨r, hr, rfl⟩ := h
      obtain ⟨h1, h2⟩ := ih r hr
      refine ⟨by simp [h1], fun k m0 mk h0 hk => ?_⟩
      simp only [List.head?_cons, Option.some.injEq] at h0
      subst h0
      cases k with
      | zero => simp at hk; subst hk; simp
      | succ k =>
        simp only [List.getElem?_cons_succ] at hk
        rw [List.take_succ_cons, List.sum_cons, h2 k m' mk rfl hk]; ring

/-- C41 violated: a budget of zero (or less) ejects the whole envelope, for every profile that reaches into the core. -/
theorem C41_zero_budget_violated (cells : List Cell) (thr mc rc f : ℝ) (c0 c : Cell) (hthr : thr ≤ 0) (h0 : cells.head? = some c0)
    (hl : cells.getLast? = some c) (hc : c.mass < mc) : ejectedMass cells thr mc rc f = .ok (c0.mass - mc) := by
  have hi : ejectLoop thr f cells (0, 0) 0 = 0 := by
    cases cells with
    | nil => rfl
    | cons a l =>
      simp only [ejectLoop]
      rw [if_neg]
      simpa using hthr
  unfold ejectedMass
  rw [hi]
  unfold pyPred
  rw [if_pos rfl, hl, h0]
  simp only
  rw [if_pos (.inl hc)]

/-! ### C59 -/

/-- C59: interpolating between neighbouring cells is exact at both cells and stays between their values in between. -/
theorem C59_interpolation (ys xs : List ℝ) (x xt xb yt yb : ℝ) (n : ℕ) (hxt : xs[n + 1]? = some xt) (hxb : xs[n]? = some xb)
    (hyt : ys[n + 1]? = some yt) (hyb : ys[n]? = some yb) (hne : xt ≠ xb) :
    ∃ y, interpCells ys xs x (some ((n : ℤ) + 1)) (some n) = .ok (some y) ∧ (x = xt → y = yt) ∧ (x = xb → y = yb) ∧
      y = yb + (x - xb) / (xt - xb) * (yt - yb) ∧ (min xt xb ≤ x → x ≤ max xt xb → min yt yb ≤ y ∧ y ≤ max yt yb) := by
  obtain ⟨hl, -⟩ := List.getElem?_eq_some_iff.1 hxt
  obtain ⟨hl', -⟩ := List.getElem?_eq_some_iff.1 hyt
  have hd : xt - xb ≠ 0 := sub_ne_zero.2 hne
  have ey : (yt - yb) / (xt - xb) * x - (yt * xb - yb * xt) / (xt - xb) = yb + (x - xb) / (xt - xb) * (yt - yb) := by
    field_simp; ring
  have hval : interpCells ys xs x (some ((n : ℤ) + 1)) (some n) = .ok (some (yb + (x - xb) / (xt - xb) * (yt - yb))) := by
    unfold interpCells
    simp only [Option.getD_some]
    rw [if_neg (show ¬ ((n : ℤ) + 1 ≥ ys.length) by omega), if_neg (show ¬ ((n : ℤ) + 1 ≥ xs.length) by omega),
      if_neg (show ¬ ((n : ℤ) < 0) by omega), if_neg (show ¬ ((n : ℤ) + 1 = n ∨ (n : ℤ) > (n : ℤ) + 1) by omega)]
    have e1 : ((n : ℤ) + 1).toNat = n + 1 := by omega
    have e2 : ((n : ℤ)).toNat = n := by omega
    rw [e1, e2, hxt, hxb, hyt, hyb]
    simp only
    rw [if_neg hne, ey]
  refine ⟨_, hval, ?_, ?_, rfl, fun h1 h2 => ?_⟩
  · rintro rfl; rw [div_self hd]; ring
  · rintro rfl; simp
  · have ht : 0 ≤ (x - xb) / (xt - xb) ∧ (x - xb) / (xt - xb) ≤ 1 := by
      rcases lt_or_gt_of_ne hne with h | h
      · rw [min_eq_left h.le] at h1
        rw [max_eq_right h.le] at h2
        constructor
        · exact div_nonneg_of_nonpos (by linarith) (by linarith)
        · rw [div_le_one_of_neg (by linarith)]; linarith
      · rw [min_eq_right h.le] at h1
        rw [max_eq_left h.le] at h2
        constructor
        · exact div_nonneg (by linarith) (by linarith)
        · rw [div_le_one (by linarith)]; linarith
    set t := (x - xb) / (xt - xb)
    rcases le_total yt yb with h | h
    · rw [min_eq_left h, max_eq_right h]; constructor <;> nlinarith [ht.1, ht.2]
    · rw [min_eq_right h, max_eq_left h]; constructor <;> nlinarith [ht.1, ht.2]

/-- C59: the binding energy is the sum over the cells outside the boundary of gravity plus the fraction of the internal energy: more internal energy means
a less bound envelope. -/
theorem C59_binding_fraction (cells : List Cell) (k : ℕ) (f f' e e' : ℝ) (hf : f ≤ f') (hu : ∀ c ∈ cells, 0 ≤ c.u ∧ 0 ≤ c.dm)
    (h : bindingEnergy cells k f = .ok e) (h' : bindingEnergy cells k f' = .ok e') :
    e = ((cells.take k).map fun c => gravCell c + f * intCell c).sum ∧ e ≤ e' := by
  have val : ∀ f e, bindingEnergy cells k f = .ok e → e = ((cells.take k).map fun c => gravCell c + f * intCell c).sum := by
    intro f e h
    unfold bindingEnergy at h
    split_ifs at h
    simp only at h
    split_ifs at h
    cases h
    rw [sums_eq]
    simp only [Int.toNat_natCast, zero_add]
    rw [sums_energy]
  refine ⟨val f e h, ?_⟩
  rw [val f e h, val f' e' h']
  apply List.sum_le_sum
  intro c hc
  have := hu c (List.mem_of_mem_take hc)
  have hi : 0 ≤ intCell c := by
    unfold intCell
    exact mul_nonneg (mul_nonneg this.1 this.2) (by norm_num [Msun])
  have := mul_le_mul_of_nonneg_right hf hi
  linarith

/-- C59: with gravity alone the envelope is bound, and a deeper boundary means more binding energy. -/
theorem C59_binding_monotone (cells : List Cell) (f : ℝ) (k n : ℕ) (hkn : k ≤ n) (hn : n ≤ cells.length)
    (hphys : ∀ c ∈ cells, 0 ≤ c.mass ∧ 0 ≤ c.dm ∧ 0 < c.radius ∧ c.u = 0) :
    ∃ ek en, bindingEnergy cells k f = .ok ek ∧ bindingEnergy cells n f = .ok en ∧ en ≤ ek ∧ ek ≤ 0 := by
  have hneg : ∀ l : List Cell, (∀ c ∈ l, c ∈ cells) → (l.map gravCell).sum ≤ 0 ∧ (l.map intCell).sum = 0 := by
    intro l
    induction l with
    | nil => intro _; simp
    | cons a l ih =>
      intro hl
      obtain ⟨h1, h2⟩ := ih (fun c hc => hl c (List.mem_cons_of_mem _ hc))
      obtain ⟨p1, p2, p3, p4⟩ := hphys a (hl a List.mem_cons_self)
      have hg := gravCell_neg p1 p2 p3
      simp only [List.map_cons, List.sum_cons]
      refine ⟨by linarith, ?_⟩
      rw [h2]; unfold intCell; rw [p4]; ring
  have hval : ∀ j : ℕ, j ≤ cells.length → bindingEnergy cells j f = .ok ((cells.take j).map gravCell).sum := by
    intro j hj
    obtain ⟨h1, h2⟩ := hneg (cells.take j) (fun c hc => List.mem_of_mem_take hc)
    unfold bindingEnergy
    rw [if_neg (by omega)]
    have : ((j : ℤ)).toNat = j := by omega
    simp only [this, sums_eq, zero_add, h2]
    rw [if_neg (fun h => absurd h.1 (not_lt.2 h1))]
    simp
  refine ⟨_, _, hval k (hkn.trans hn), hval n hn, ?_, (hneg _ (fun c hc => List.mem_of_mem_take hc)).1⟩
  obtain ⟨d, rfl⟩ := Nat.exists_eq_add_of_le hkn
  rw [List.take_add, List.map_append, List.sum_append]
  have := (hneg ((cells.drop k).take d) (fun c hc => List.mem_of_mem_drop (List.mem_of_mem_take hc))).1
  linarith

/-- C59: a returned lambda is never below minus the tolerance, whatever the profile. -/
theorem C59_not_negative (s : Star) (co : Bool) (f a tol : ℝ) (ind : ℤ) (cells : List Cell) (l : Lam) (x : ℝ)
    (h : lambdaFromProfile s co f a tol ind cells = .ok (some l)) (hx : l.lam = some x) : -tol < x := by
  have hck : ∀ l' : Lam, checkLam tol l' = .ok (some l) → -tol < x := by
    intro l' h'
    unfold checkLam at h'
    split at h'
    · rename_i y hy
      split_ifs at h' with hc
      injection h' with h'
      injection h' with h'
      subst h'
      rw [hy] at hx
      injection hx with hx
      rw [← hx]; exact hc
    · rename_i hy
      injection h' with h'
      injection h' with h'
      subst h'
      rw [hy] at hx
      exact absurd hx (by simp)
  unfold lambdaFromProfile at h
  split at h
  · exact absurd h (by simp)
  · simp only at h
    split_ifs at h with h1 h2
    · injection h with h
      injection h with h
      subst h
      exact absurd hx (by simp)
    · split at h
      · exact absurd h (by simp)
      · split_ifs at h
        all_goals first | exact hck _ h | exact absurd h (by simp)
    · split at h
      · exact absurd h (by simp)
      · split at h
        · split at h
          · split at h
            · split_ifs at h
              all_goals first | exact hck _ h | exact absurd h (by simp)
            · exact absurd h (by simp)
          · exact absurd h (by simp)
          · exact absurd h (by simp)
        · exact absurd h (by simp)
        · exact absurd h (by simp)
        · exact absurd h (by simp)

/-- C59: a star that is all core has no envelope to eject; a star that is all envelope has no core. -/
theorem C59_extremes (s : Star) (co : Bool) (f a tol : ℝ) (c0 : Cell) (cells : List Cell) (l : Lam) :
    lambdaFromProfile s co f a tol 0 (c0 :: cells) = .ok (some ⟨none, c0.mass, c0.radius⟩) ∧
    (lambdaFromProfile s co f a tol (-1) (c0 :: cells) = .ok (some l) → l.mc = 0 ∧ l.rc = 0) := by
  constructor
  · unfold lambdaFromProfile; simp
  · intro h
    unfold lambdaFromProfile at h
    simp only at h
    rw [if_neg (by decide), if_pos trivial] at h
    split at h
    · exact absurd h (by simp)
    · split_ifs at h with hz
      · exact absurd h (by simp)
      · unfold checkLam at h
        simp only at h
        split_ifs at h
        injection h with h
        injection h with h
        rw [← h]; exact ⟨rfl, rfl⟩

/-- What `lambdaFromProfile` returns for an inner boundary. -/
theorem lambda_inner {s : Star} {co : Bool} {f a tol : ℝ} {n : ℕ} {cells : List Cell} {l : Lam} {el : Cell → ℝ} {ct cb : Cell}
    (hel : elemOf s co = some el) (hct : cells[n + 1]? = some ct) (hcb : cells[n]? = some cb)
    (h : lambdaFromProfile s co f a tol ((n : ℤ) + 1) cells = .ok (some l)) :
    l.mc = cb.mass + (f - el cb) / (el ct - el cb) * (ct.mass - cb.mass) ∧
    l.rc = cb.radius + (f - el cb) / (el ct - el cb) * (ct.radius - cb.radius) := by
  cases cells with
  | nil => simp at hcb
  | cons c0 cs =>
    unfold lambdaFromProfile at h
    simp only [hel] at h
    rw [if_neg (by omega), if_neg (by omega)] at h
    have en : (n : ℤ) + 1 - 1 = n := by ring
    rw [en] at h
    by_cases hne : el ct = el cb
    · -- the interpolation divides by zero
      have hz : ∀ g : Cell → ℝ, interpCells ((c0 :: cs).map g) ((c0 :: cs).map el) f (some ((n : ℤ) + 1)) (some n) = .ok none := by
        intro g
        obtain ⟨hl, -⟩ := List.getElem?_eq_some_iff.1 hct
        unfold interpCells
        simp only [Option.getD_some]
        rw [if_neg (show ¬ ((n : ℤ) + 1 ≥ ((c0 :: cs).map g).length) by rw [List.length_map]; omega),
          if_neg (show ¬ ((n : ℤ) + 1 ≥ ((c0 :: cs).map el).length) by rw [List.length_map]; omega),
          if_neg (show ¬ ((n : ℤ) < 0) by omega), if_neg (show ¬ ((n : ℤ) + 1 = n ∨ (n : ℤ) > (n : ℤ) + 1) by omega)]
        have e1 : ((n : ℤ) + 1).toNat = n + 1 := by omega
        have e2 : ((n : ℤ)).toNat = n := by omega
        rw [e1, e2, List.getElem?_map, List.getElem?_map, List.getElem?_map, List.getElem?_map, hct, hcb]
        simp only [Option.map_some]
        rw [if_pos hne]
      rw [hz, hz] at h
      exact absurd h (by simp)
    · obtain ⟨mc, hmc, -, -, emc, -⟩ := C59_interpolation ((c0 :: cs).map (·.mass)) ((c0 :: cs).map el) f (el ct) (el cb) ct.mass cb.mass n
        (by rw [List.getElem?_map, hct]; rfl) (by rw [List.getElem?_map, hcb]; rfl) (by rw [List.getElem?_map, hct]; rfl)
        (by rw [List.getElem?_map, hcb]; rfl) hne
      obtain ⟨rc, hrc, -, -, erc, -⟩ := C59_interpolation ((c0 :: cs).map (·.radius)) ((c0 :: cs).map el) f (el ct) (el cb) ct.radius cb.radius n
        (by rw [List.getElem?_map, hct]; rfl) (by rw [List.getElem?_map, hcb]; rfl) (by rw [List.getElem?_map, hct]; rfl)
        (by rw [List.getElem?_map, hcb]; rfl) hne
      rw [hmc, hrc] at h
      simp only at h
      have hck : ∀ l' : Lam, checkLam tol l' = .ok (some l) → l = l' := by
        intro l' h'
        unfold checkLam at h'
        split at h'
        · split_ifs at h'
          injection h' with h'
          injection h' with h'
          exact h'.symm
        · injection h' with h'
          injection h' with h'
          exact h'.symm
      split at h
      · split at h
        · split_ifs at h
          · exact absurd h (by simp)
          · exact absurd h (by simp)
          · rw [hck _ h]
            exact ⟨emc, erc⟩
        · exact absurd h (by simp)
      · exact absurd h (by simp)
      · exact absurd h (by simp)

/-- C59: for the helium core of a hydrogen-rich star with complete abundances, the core mass and radius lie between those of the two cells at the
boundary, and the outer one is excluded. -/
theorem C59_he_core_between (s : Star) (hs : s ∈ [Star.hCoreH, .hCoreHe, .hShellH, .hCoreHeDep, .hShellHe, .hCoreC, .hCoreCDep, .hNon])
    (f a tol : ℝ) (hf : f ≤ 0.9) (cells : List Cell) (hin : Inward cells) (hXYZ : ∀ c ∈ cells, c.X + c.Y + c.Z = 1)
    (n : ℕ) (hb : coreBoundary s true none (some f) false cells = .ok ((n : ℤ) + 1)) (l : Lam)
    (h : lambdaFromProfile s false f a tol ((n : ℤ) + 1) cells = .ok (some l)) :
    ∃ ct cb, cells[n + 1]? = some ct ∧ cells[n]? = some cb ∧ ct.X ≤ f ∧ f < cb.X ∧
      ct.mass ≤ l.mc ∧ l.mc ≤ cb.mass ∧ ct.radius ≤ l.rc ∧ l.rc ≤ cb.radius := by
  have hsR : s ∈ starHRich := by fin_cases hs <;> decide
  obtain ⟨p, hp, -⟩ := (C42_definition s false f ⟨0, 0, 0, 0, 0, 0, 0⟩).1 hsR rfl
  have hpc : ∀ c, p c ↔ c.X ≤ f ∧ 0.1 ≤ c.Y + c.Z := by
    intro c
    obtain ⟨p', hp', h'⟩ := (C42_definition s false f c).1 hsR rfl
    rw [hp] at hp'
    injection hp' with hp'
    rw [hp']; exact h'
  obtain ⟨k, hk, hk2⟩ := C42_first s false none f cells p hp
  rw [hb] at hk
  injection hk with hk
  rcases hk2 with ⟨hk2, -⟩ | ⟨m, ct, hm, hct, hpct, hbefore⟩
  · omega
  · have : m = n + 1 := by omega
    subst this
    obtain ⟨hlt, -⟩ := List.getElem?_eq_some_iff.1 hct
    have hcb : cells[n]? = some cells[n] := List.getElem?_eq_getElem (by omega)
    set cb := cells[n] with hcbd
    have hXt := ((hpc ct).1 hpct).1
    have hXb : f < cb.X := by
      by_contra hh
      push Not at hh
      refine hbefore n (by omega) cb hcb ((hpc cb).2 ⟨hh, ?_⟩)
      have := hXYZ cb (List.mem_of_getElem? hcb)
      norm_num at hf ⊢
      linarith
    have hel : elemOf s false = some Cell.X := by unfold elemOf; rw [if_pos hs]; rfl
    obtain ⟨e1, e2⟩ := lambda_inner hel hct hcb h
    have hord : ct.mass ≤ cb.mass ∧ ct.radius ≤ cb.radius := by
      obtain ⟨ha, hb'⟩ := List.getElem?_eq_some_iff.1 hct
      rw [← hb', hcbd]
      exact (List.pairwise_iff_getElem.1 hin) _ _ (by omega) ha (by omega)
    have hw : 0 ≤ (f - cb.X) / (ct.X - cb.X) ∧ (f - cb.X) / (ct.X - cb.X) ≤ 1 := by
      constructor
      · exact div_nonneg_of_nonpos (by linarith) (by linarith)
      · rw [div_le_one_of_neg (by linarith)]; linarith
    refine ⟨ct, cb, hct, hcb, hXt, hXb, ?_, ?_, ?_, ?_⟩
    · rw [e1]; nlinarith [hord.1, hw.1, hw.2]
    · rw [e1]; nlinarith [hord.1, hw.1, hw.2]
    · rw [e2]; nlinarith [hord.2, hw.1, hw.2]
    · rw [e2]; nlinarith [hord.2, hw.1, hw.2]

/-- C59 violated: for the carbon-oxygen core of a hydrogen-rich star the boundary is where hydrogen plus helium drop, but the mass is
interpolated in helium alone.  Here a star of mass 10 gets a core of mass 15. -/
theorem C59_co_core_violated :
    ∃ (cells : List Cell) (l : Lam) (c0 : Cell), cells.head? = some c0 ∧ (∀ c ∈ cells, c.X + c.Y + c.Z = 1 ∧ 0 ≤ c.X ∧ 0 ≤ c.Y ∧ 0 ≤ c.Z) ∧
      coreBoundary .hCoreHeDep true none (some 0.1) true cells = .ok 1 ∧
      lambdaFromProfile .hCoreHeDep true 0.1 1 0.001 1 cells = .ok (some l) ∧ l.mc = 15 ∧ c0.mass = 10 := by
  let c0 : Cell := ⟨10, 10, 1, 0, 0.6, 0.05, 0.35⟩
  let c1 : Cell := ⟨9, 9, 9, 0, 0, 0.04, 0.96⟩
  have hb : coreBoundary .hCoreHeDep true none (some 0.1) true [c0, c1] = .ok 1 := by
    have hcc : coreCond .hCoreHeDep true true 0.1 = some fun c => c.X + c.Y ≤ 0.1 ∧ c.Z ≥ 0.1 := by
      unfold coreCond
      rw [if_pos ⟨by decide, rfl⟩]
      rfl
    unfold coreBoundary
    simp only [hcc]
    rw [if_neg]
    · refine congrArg Except.ok ?_
      have h0 : ¬ (c0.X + c0.Y ≤ 0.1 ∧ c0.Z ≥ 0.1) := by norm_num [c0]
      have h1 : c1.X + c1.Y ≤ 0.1 ∧ c1.Z ≥ 0.1 := by norm_num [c1]
      unfold first
      rw [List.findIdx_cons, List.findIdx_cons]
      rw [show ∀ d : Decidable (c0.X + c0.Y ≤ 0.1 ∧ c0.Z ≥ 0.1), @decide _ d = false from fun d => decide_eq_false h0,
        show ∀ d : Decidable (c1.X + c1.Y ≤ 0.1 ∧ c1.Z ≥ 0.1), @decide _ d = true from fun d => decide_eq_true h1]
      rfl
    · push Not
      exact ⟨c1, by simp, by norm_num [c1]⟩
  have hi : ∀ g : Cell → ℝ, interpCells ([c0, c1].map g) ([c0, c1].map Cell.Y) 0.1 (some 1) (some (1 - 1)) = .ok (some (g c0 + (0.1 - 0.05) / (0.04 - 0.05) * (g c1 - g c0))) := by
    intro g
    have := C59_interpolation ([c0, c1].map g) ([c0, c1].map Cell.Y) 0.1 0.04 0.05 (g c1) (g c0) 0 rfl rfl rfl rfl (by norm_num)
    obtain ⟨y, hy, -, -, hy', -⟩ := this
    rw [hy'] at hy
    exact hy
  have hE : ∃ E, 0 < E ∧ bindingEnergy [c0, c1] 1 1 = .ok (-E) ∧ bindingEnergy [c0, c1] (1 - 1) 1 = .ok 0 := by
    refine ⟨-(gravCell c0), ?_, ?_, ?_⟩
    · unfold gravCell cgrav Msun Rsun; norm_num [c0]
    · unfold bindingEnergy
      rw [if_neg (by simp)]
      have hg : gravCell c0 < 0 := by unfold gravCell cgrav Msun Rsun; norm_num [c0]
      have : sums (List.take (1 : ℤ).toNat [c0, c1]) (0, 0) = (gravCell c0, 0) := by
        show sums [c0] (0, 0) = _
        rw [sums_eq]
        simp [intCell, c0]
      simp only [this]
      rw [if_neg (fun h => absurd h.1 (by linarith))]
      refine congrArg Except.ok ?_; ring
    · unfold bindingEnergy
      rw [if_neg (by simp)]
      have : sums (List.take ((1 : ℤ) - 1).toNat [c0, c1]) (0, 0) = (0, 0) := rfl
      simp only [this]
      rw [if_neg (fun h => absurd h.1 (lt_irrefl _))]
      refine congrArg Except.ok ?_; ring
  obtain ⟨E, hE0, hE1, hE2⟩ := hE
  have hl : ∃ x, lambdaFromProfile .hCoreHeDep true 0.1 1 0.001 1 [c0, c1] = .ok (some ⟨some x, 15, 15⟩) := by
    unfold lambdaFromProfile
    simp only
    rw [if_neg (by decide), if_neg (by decide)]
    have hel : elemOf .hCoreHeDep true = some Cell.Y := by unfold elemOf; rw [if_pos (by decide)]; rfl
    simp only [hel, hi, hE1, hE2]
    have g0 : [c0, c1][(1 : ℤ).toNat]? = some c1 := rfl
    have g1 : [c0, c1][(1 : ℤ).toNat - 1]? = some c0 := rfl
    simp only [g0, g1]
    have hne : ¬ c1.Y = c0.Y := by norm_num [c0, c1]
    rw [if_neg hne]
    have hw : (0.1 - c0.Y) / (c1.Y - c0.Y) = -5 := by norm_num [c0, c1]
    rw [hw]
    have he : (0 : ℝ) + -5 * (-E - 0) = 5 * E := by ring
    rw [he]
    have hr : c0.radius = 10 := rfl
    have hm : c0.mass = 10 := rfl
    have hm1 : c1.mass = 9 := rfl
    have hr1 : c1.radius = 9 := rfl
    rw [hr, hm, hm1, hr1]
    have e15 : (10 : ℝ) + -5 * (9 - 10) = 15 := by norm_num
    rw [e15]
    have hRs : 0 < Rsun := by unfold Rsun; norm_num
    rw [if_neg (by positivity)]
    unfold checkLam
    simp only
    have hpos : 0 ≤ lamOf 10 15 (5 * E) 10 := by
      unfold lamOf
      apply div_nonneg
      · unfold cgrav Msun; norm_num
      · positivity
    rw [if_neg]
    · exact ⟨_, rfl⟩
    · rw [not_not]; norm_num at hpos ⊢; linarith
  obtain ⟨x, hx⟩ := hl
  refine ⟨[c0, c1], _, c0, rfl, ?_, hb, hx, rfl, rfl⟩
  intro c hc
  simp only [List.mem_cons, List.not_mem_nil, or_false] at hc
  rcases hc with rfl | rfl <;> norm_num [c0, c1]

/-- C59: a donor with a known core boundary but an accreted helium envelope is refused; every other normal star has a column to interpolate in. -/
theorem C59_states (s : Star) (co : Bool) :
    elemOf s co = none ↔ s ∈ [Star.aCoreH, .aShellH, .aNon, .aCoreHe, .WD, .NS, .BH, .massless] := by
  unfold elemOf
  cases s <;> simp

/-- C59 violated: negative internal energies are only refused if all cells have one. -/
theorem C59_internal_energy_violated :
    internalEnergy .gravInt true 0.001 [⟨-1000, 0, 0⟩, ⟨1, 0, 0⟩] = .ok [-1000, 1] := by
  unfold internalEnergy noneAbove
  rw [if_neg (by decide), if_neg (by decide)]
  simp only [List.map_cons, List.map_nil]
  rw [if_neg, if_neg, if_neg]
  · refine congrArg Except.ok ?_; norm_num
  · push Not; exact ⟨1 - 0, by simp, by norm_num⟩
  · push Not; exact ⟨0, by simp, by norm_num⟩
  · push Not; exact ⟨1, by simp, by norm_num⟩

/-- C59: the internal energy is zero if only gravity is asked for or the column is missing; otherwise it is the column less the energies that
cannot be used; unknown options are refused. -/
theorem C59_internal_energy (hasEnergy : Bool) (tol : ℝ) (cells : List ECell) (r : List ℝ) :
    internalEnergy .grav hasEnergy tol cells = .ok (cells.map fun _ => 0) ∧
    (∀ o, internalEnergy o false tol cells = .ok (cells.map fun _ => 0)) ∧
    (internalEnergy .gravInt true tol cells = .ok r → r = cells.map fun c => c.energy - c.h2) ∧
    (internalEnergy .gravIntRec true tol cells = .ok r → r = cells.map fun c => c.energy - c.recomb - c.h2) ∧
    internalEnergy .other true tol cells = .error .value := by
  refine ⟨?_, fun o => ?_, fun h => ?_, fun h => ?_, ?_⟩
  · unfold internalEnergy; rw [if_pos rfl]
  · unfold internalEnergy; split_ifs <;> simp_all
  · unfold internalEnergy at h
    rw [if_neg (by decide), if_neg (by decide)] at h
    simp only at h
    split_ifs at h
    injection h with h
    exact h.symm
  · unfold internalEnergy at h
    rw [if_neg (by decide), if_neg (by decide)] at h
    simp only at h
    split_ifs at h
    injection h with h
    exact h.symm
  · unfold internalEnergy
    rw [if_neg (by decide), if_neg (by decide)]

/-! ### Concrete cases -/

example : ∃ c ∈ [(⟨3, 3, 1, 0, 0.7, 0.28, 0.02⟩ : Cell), ⟨2, 2, 2, 0, 0, 0.98, 0.02⟩], c.mass < 2.5 := ⟨⟨2, 2, 2, 0, 0, 0.98, 0.02⟩, by simp, by norm_num⟩
example : Inward [(⟨3, 3, 1, 0, 0.7, 0.28, 0.02⟩ : Cell), ⟨2, 2, 2, 0, 0, 0.98, 0.02⟩] := by
  unfold Inward; simp; norm_num
example : cellMasses [10, 7, 3] = some [10 - 7, 7 - 3, 3] := rfl

/-- C59: the internal energy is refused, with the same error, exactly if the energy, one of the energies that are taken off, or the difference is nowhere above minus the tolerance. -/
theorem C59_internal_refused (tol : ℝ) (cells : List ECell) :
    (internalEnergy .gravInt true tol cells = .error .value ↔
      (∀ c ∈ cells, c.energy ≤ -tol) ∨ (∀ c ∈ cells, c.h2 ≤ -tol) ∨ ∀ c ∈ cells, c.energy - c.h2 ≤ -tol) ∧
    (internalEnergy .gravIntRec true tol cells = .error .value ↔
      (∀ c ∈ cells, c.energy ≤ -tol) ∨ (∀ c ∈ cells, c.h2 ≤ -tol) ∨ (∀ c ∈ cells, c.recomb ≤ -tol) ∨ ∀ c ∈ cells, c.energy - c.recomb - c.h2 ≤ -tol) ∧
    ∀ o e he, internalEnergy o he tol cells = .error e → e = .value := by
  have na : ∀ f : ECell → ℝ, noneAbove tol (cells.map f) ↔ ∀ c ∈ cells, f c ≤ -tol := by
    intro f
    unfold noneAbove
    simp
  refine ⟨?_, ?_, ?_⟩
  · unfold internalEnergy
    rw [if_neg (by decide), if_neg (by decide), ← na (·.energy), ← na (·.h2), ← na fun c => c.energy - c.h2]
    dsimp only
    clear na
    split_ifs <;> simp [*]
  · unfold internalEnergy
    rw [if_neg (by decide), if_neg (by decide), ← na (·.energy), ← na (·.h2), ← na (·.recomb), ← na fun c => c.energy - c.recomb - c.h2]
    dsimp only
    clear na
    split_ifs <;> simp [*]
  · intro o e he h
    unfold internalEnergy at h
    cases o <;> cases he <;> simp only [reduceCtorEq, if_true, if_false, Bool.not_true, Bool.not_false, Bool.false_eq_true] at h <;>
      (try split_ifs at h) <;> first | (cases h; rfl) | cases h

end Verif.Profile
