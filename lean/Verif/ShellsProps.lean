import Verif.Shells
import Mathlib.Tactic.Linarith
import Mathlib.Tactic.Positivity
import Mathlib.Tactic.FieldSimp
import Mathlib.Analysis.Calculus.MeanValue
import Mathlib.Analysis.SpecialFunctions.Log.Deriv
import Mathlib.Algebra.BigOperators.Group.Finset.Basic
import Mathlib.Algebra.Order.Floor.Ring
/-! C162: volumes of redshift shells and the rate densities normalised with them. -/
namespace Verif.Shells

open Real MeasureTheory intervalIntegral

variable {C : Cosmos}

theorem E_sq_pos (h : Flat C) {z : ℝ} (hz : 0 ≤ z) : 1 ≤ C.Om * (1 + z) ^ 3 + (1 - C.Om) := by
  have h1 : (1 : ℝ) ≤ (1 + z) ^ 3 := one_le_pow₀ (by linarith)
  nlinarith [h.Om0, mul_nonneg h.Om0 (sub_nonneg.2 h1)]

/-- C162. The expansion rate relative to that of today is 1 today and never less. -/
theorem C162_expansion (h : Flat C) : E C 0 = 1 ∧ ∀ z, 0 ≤ z → 1 ≤ E C z := by
  constructor
  · simp [E]
  · intro z hz
    unfold E
    exact Real.one_le_sqrt.2 (E_sq_pos h hz)

theorem E_pos (h : Flat C) {z : ℝ} (hz : 0 ≤ z) : 0 < E C z := lt_of_lt_of_le one_pos ((C162_expansion h).2 z hz)

theorem E_cont (C : Cosmos) : Continuous (E C) := by unfold E; fun_prop

theorem f_cont (h : Flat C) {a b : ℝ} (ha : 0 ≤ a) : ContinuousOn (f C) (Set.Icc a b) := by
  unfold f
  have hD := h.cont.continuousOn (s := Set.Icc a b)
  have hE := (E_cont C).continuousOn (s := Set.Icc a b)
  refine ContinuousOn.div ?_ hE (fun z hz => (E_pos h (ha.trans hz.1)).ne')
  refine ContinuousOn.mul ?_ ((hD.mul continuousOn_const).pow 2)
  refine ContinuousOn.div_const ?_ _
  refine ContinuousOn.mul (ContinuousOn.mul (ContinuousOn.mul ?_ continuousOn_const) continuousOn_const) continuousOn_const
  exact ContinuousOn.div continuousOn_const (by fun_prop) (fun z hz => by have := ha.trans hz.1; positivity)

theorem f_int (h : Flat C) {a b : ℝ} (ha : 0 ≤ a) (hab : a ≤ b) : IntervalIntegrable (f C) volume a b :=
  (by rw [Set.uIcc_of_le hab]; exact f_cont h ha : ContinuousOn (f C) (Set.uIcc a b)).intervalIntegrable

theorem D_nonneg (h : Flat C) {z : ℝ} (hz : 0 ≤ z) : 0 ≤ C.D z := by
  rcases hz.eq_or_lt with rfl | hz
  · exact h.zero
  · exact h.zero.trans (h.mono 0 z le_rfl hz).le

theorem D_pos (h : Flat C) {z : ℝ} (hz : 0 < z) : 0 < C.D z := lt_of_le_of_lt h.zero (h.mono 0 z le_rfl hz)

theorem D_le (h : Flat C) {x y : ℝ} (hx : 0 ≤ x) (hxy : x ≤ y) : C.D x ≤ C.D y := by
  rcases hxy.eq_or_lt with rfl | hxy
  · exact le_rfl
  · exact (h.mono x y hx hxy).le

theorem f_pos (h : Flat C) {z : ℝ} (hz : 0 < z) : 0 < f C z := by
  have h1 := D_pos h hz
  have h2 := E_pos h hz.le
  have h3 := h.c
  have h4 := h.H0
  have h5 := Real.pi_pos
  unfold f
  positivity

/-- C162. A shell has a positive volume. -/
theorem C162_positive (h : Flat C) (a b : ℝ) (ha : 0 ≤ a) (hab : a < b) : ∃ v, shell C "infinite" a b = .ok v ∧ 0 < v := by
  refine ⟨_, if_pos rfl, ?_⟩
  refine intervalIntegral_pos_of_pos_on (f_int h ha hab.le) (fun z hz => f_pos h (lt_of_le_of_lt ha hz.1)) hab

/-- C162. Volumes of neighbouring shells add up, for shells in any order. -/
theorem C162_additive (h : Flat C) (a b c : ℝ) (ha : 0 ≤ a) (hab : a ≤ b) (hbc : b ≤ c) :
    ∃ u v w, shell C "infinite" a b = .ok u ∧ shell C "infinite" b c = .ok v ∧ shell C "infinite" a c = .ok w ∧ u + v = w :=
  ⟨_, _, _, if_pos rfl, if_pos rfl, if_pos rfl, integral_add_adjacent_intervals (f_int h ha hab) (f_int h (ha.trans hab) hbc)⟩

/-- C162. Any other sensitivity is refused. -/
theorem C162_refused (C : Cosmos) (s : String) (a b : ℝ) (hs : s ≠ "infinite") : shell C s a b = .error .value := if_neg hs

/-! ### Volumes and time -/

theorem f_eq (h : Flat C) {z : ℝ} (hz : 0 ≤ z) : f C z = 4 * π * C.c * C.D z ^ 2 * (-(-(1 / ((1 + z) * (C.H0 * E C z))) * 1e-9)) := by
  have h2 := (E_pos h hz).ne'
  have h4 := h.H0.ne'
  have h6 : (1 + z) ≠ 0 := by positivity
  unfold f
  field_simp
  norm_num
  ring

/-- The rate at which the age decreases. -/
theorem age_int (h : Flat C) {age : ℝ → ℝ} (hA : IsAge C age) {a b : ℝ} (ha : 0 ≤ a) (hab : a ≤ b) :
    IntervalIntegrable (fun z => -(-(1 / ((1 + z) * (C.H0 * E C z))) * 1e-9)) volume a b ∧
      ∫ z in a..b, -(-(1 / ((1 + z) * (C.H0 * E C z))) * 1e-9) = age a - age b := by
  have hc : ContinuousOn (fun z => -(1 / ((1 + z) * (C.H0 * E C z))) * 1e-9) (Set.uIcc a b) := by
    rw [Set.uIcc_of_le hab]
    refine ContinuousOn.mul (ContinuousOn.neg ?_) continuousOn_const
    refine ContinuousOn.div continuousOn_const ?_ ?_
    · exact ContinuousOn.mul (by fun_prop) (continuousOn_const.mul (E_cont C).continuousOn)
    · intro z hz
      have := E_pos h (ha.trans hz.1)
      have h3 := h.H0
      have := ha.trans hz.1
      positivity
  refine ⟨hc.neg.intervalIntegrable, ?_⟩
  rw [intervalIntegral.integral_neg, integral_eq_sub_of_hasDerivAt (f := age) ?_ hc.intervalIntegrable]
  · ring
  · intro z hz
    rw [Set.uIcc_of_le hab] at hz
    exact hA z (ha.trans hz.1)

/-- C162. The volume of a shell is that of the sphere surfaces passed by light in the time between its edges: between the values for the distances at the
inner and the outer edge. -/
theorem C162_volume_bounds (h : Flat C) {age : ℝ → ℝ} (hA : IsAge C age) (a b : ℝ) (ha : 0 ≤ a) (hab : a ≤ b) :
    ∃ v, shell C "infinite" a b = .ok v ∧ 4 * π * C.c * C.D a ^ 2 * (age a - age b) ≤ v ∧ v ≤ 4 * π * C.c * C.D b ^ 2 * (age a - age b) := by
  obtain ⟨h1, h2⟩ := age_int h hA ha hab
  have hp : 0 ≤ 4 * π * C.c := by have := h.c; have := Real.pi_pos; positivity
  have hr : ∀ z ∈ Set.Icc a b, 0 ≤ -(-(1 / ((1 + z) * (C.H0 * E C z))) * 1e-9) := by
    intro z hz
    have hz0 := ha.trans hz.1
    have := E_pos h hz0
    have := h.H0
    rw [neg_mul, neg_neg]
    positivity
  refine ⟨_, if_pos rfl, ?_, ?_⟩
  · rw [← h2, ← intervalIntegral.integral_const_mul]
    refine integral_mono_on hab (h1.const_mul _) (f_int h ha hab) fun z hz => ?_
    rw [f_eq h (ha.trans hz.1)]
    exact mul_le_mul_of_nonneg_right (mul_le_mul_of_nonneg_left (pow_le_pow_left₀ (D_nonneg h ha) (D_le h ha hz.1) 2) hp) (hr z hz)
  · rw [← h2, ← intervalIntegral.integral_const_mul]
    refine integral_mono_on hab (f_int h ha hab) (h1.const_mul _) fun z hz => ?_
    rw [f_eq h (ha.trans hz.1)]
    exact mul_le_mul_of_nonneg_right (mul_le_mul_of_nonneg_left (pow_le_pow_left₀ (D_nonneg h (ha.trans hz.1)) (D_le h (ha.trans hz.1) hz.2) 2) hp) (hr z hz)

/-! ### Rates -/

theorem weight_bounds (h : Flat C) {age : ℝ → ℝ} (hA : IsAge C age) {a b z dt sfr mw : ℝ} (ha : 0 < a) (haz : a ≤ z) (hzb : z ≤ b) (hdt : 0 < dt)
    (hw : age a - age b = dt * 1e-3) (hs : 0 ≤ sfr) (hm : 0 ≤ mw) :
    ∃ v, shell C "infinite" a b = .ok v ∧ 0 < v ∧
      1e9 * (sfr * mw) * (C.D a / C.D b) ^ 2 * v ≤ weight C dt sfr mw z ∧ weight C dt sfr mw z ≤ 1e9 * (sfr * mw) * (C.D b / C.D a) ^ 2 * v := by
  obtain ⟨v, hv, l, u⟩ := C162_volume_bounds h hA a b ha.le (haz.trans hzb)
  have hDa := D_pos h ha
  have hz := D_le h ha.le haz
  have hb := D_le h (ha.le.trans haz) hzb
  have hDz := lt_of_lt_of_le hDa hz
  have hDb := lt_of_lt_of_le hDz hb
  have hc := h.c
  have hpi := Real.pi_pos
  rw [hw] at l u
  have hl : 0 < 4 * π * C.c * C.D a ^ 2 * (dt * 1e-3) := by positivity
  have hv0 : 0 < v := lt_of_lt_of_le hl l
  refine ⟨v, hv, hv0, ?_, ?_⟩
  · calc 1e9 * (sfr * mw) * (C.D a / C.D b) ^ 2 * v
        ≤ 1e9 * (sfr * mw) * (C.D a / C.D b) ^ 2 * (4 * π * C.c * C.D b ^ 2 * (dt * 1e-3)) := by gcongr
      _ = 4 * π * C.c * C.D a ^ 2 * (dt * 10 ^ 6) * sfr * mw := by field_simp; norm_num <;> ring
      _ ≤ _ := by unfold weight; gcongr
  · calc weight C dt sfr mw z ≤ 4 * π * C.c * C.D b ^ 2 * (dt * 10 ^ 6) * sfr * mw := by unfold weight; gcongr
      _ = 1e9 * (sfr * mw) * (C.D b / C.D a) ^ 2 * (4 * π * C.c * C.D a ^ 2 * (dt * 1e-3)) := by field_simp; norm_num <;> ring
      _ ≤ _ := by gcongr

/-- C162. Events that follow the birth of their stars at once, in a shell that lasts as long as a bin of birth times: the rate density is the rate of events per
volume (per Gpc³ instead of Mpc³), up to the ratio of the distances at the edges of the shell. -/
theorem C162_prompt (h : Flat C) {age : ℝ → ℝ} (hA : IsAge C age) (a b z dt sfr mw : ℝ) (ha : 0 < a) (haz : a ≤ z) (hzb : z ≤ b) (hdt : 0 < dt)
    (hw : age a - age b = dt * 1e-3) (hs : 0 ≤ sfr) (hm : 0 ≤ mw) :
    ∃ r, density C (weight C dt sfr mw z) a b = .ok r ∧
      1e9 * (sfr * mw) * (C.D a / C.D b) ^ 2 ≤ r ∧ r ≤ 1e9 * (sfr * mw) * (C.D b / C.D a) ^ 2 := by
  obtain ⟨v, hv, hv0, l, u⟩ := weight_bounds h hA ha haz hzb hdt hw hs hm
  exact ⟨_, by unfold density; rw [hv], (le_div_iff₀ hv0).2 l, (div_le_iff₀ hv0).2 u⟩

theorem age_anti (h : Flat C) {age : ℝ → ℝ} (hA : IsAge C age) : StrictAntiOn age (Set.Ici 0) := by
  refine strictAntiOn_of_deriv_neg (convex_Ici 0) (fun z hz => (hA z hz).continuousAt.continuousWithinAt) fun z hz => ?_
  rw [interior_Ici] at hz
  rw [(hA z (le_of_lt hz)).deriv]
  have h1 := E_pos h (le_of_lt hz)
  have h2 := h.H0
  have h3 : (0 : ℝ) < 1 + z := by have : 0 < z := hz; linarith
  have : 0 < 1 / ((1 + z) * (C.H0 * E C z)) := by positivity
  nlinarith

/-- A bin of birth times: exactly one of the births, one bin of time apart, has its event between two times one bin apart. -/
theorem one_birth {T0 d τ lo hi : ℝ} {n : ℕ} (hd : 0 < d) (hτ : 0 ≤ τ) (hlo : hi - lo = d) (hhi : hi ≤ T0) (hn : T0 - (n + 1 / 2) * d + τ < lo) :
    ∃ k < n, (lo ≤ T0 - (k + 1 / 2) * d + τ ∧ T0 - (k + 1 / 2) * d + τ < hi) ∧
      ∀ j : ℕ, (lo ≤ T0 - (j + 1 / 2) * d + τ ∧ T0 - (j + 1 / 2) * d + τ < hi) → j = k := by
  set x := (T0 - d / 2 + τ - lo) / d with hx
  have hxd : x * d = T0 - d / 2 + τ - lo := by rw [hx]; field_simp
  have hx0 : 0 ≤ x := by rw [hx]; apply div_nonneg _ hd.le; linarith
  have h1 := Nat.floor_le hx0
  have h2 := Nat.lt_floor_add_one x
  refine ⟨⌊x⌋₊, ?_, ⟨by nlinarith, by nlinarith⟩, ?_⟩
  · rw [Nat.floor_lt hx0]
    by_contra hc
    have := not_lt.1 hc
    nlinarith
  · rintro j ⟨p, q⟩
    symm
    rw [Nat.floor_eq_iff hx0]
    constructor
    · by_contra hc
      have := not_le.1 hc
      nlinarith
    · by_contra hc
      have := not_lt.1 hc
      nlinarith

/-- C162. Star formation at a constant rate: whatever the delays of the events, the rate density of a shell of the past that lasts as long as a bin of birth
times is the rate of events per volume, up to the ratio of the distances at the edges. `T0` is the age today, the births are in the middles of `n` bins of `dt`
Myr back from today, far enough for the delays; `zOf` gives the redshift at a time. -/
theorem C162_steady (h : Flat C) {age zOf : ℝ → ℝ} (hA : IsAge C age) (a b dt sfr : ℝ) (n : ℕ) (evs : List (ℝ × ℝ)) (ha : 0 < a) (hab : a < b) (hdt : 0 < dt)
    (hw : age a - age b = dt * 1e-3) (hs : 0 ≤ sfr) (hm : ∀ e ∈ evs, 0 ≤ e.1 ∧ 0 ≤ e.2)
    (hz : ∀ t, 0 < t → t ≤ age 0 → 0 ≤ zOf t ∧ age (zOf t) = t) (hb0 : ∀ k < n, 0 < birth (age 0) dt k)
    (hn : ∀ e ∈ evs, birth (age 0) dt n + e.1 < age b) :
    ∃ r, density C (total C zOf (age 0) dt sfr n a b evs) a b = .ok r ∧
      1e9 * (sfr * (evs.map Prod.snd).sum) * (C.D a / C.D b) ^ 2 ≤ r ∧ r ≤ 1e9 * (sfr * (evs.map Prod.snd).sum) * (C.D b / C.D a) ^ 2 := by
  obtain ⟨v, hv, hv0, -, -⟩ := weight_bounds h hA (mw := 0) ha le_rfl hab.le hdt hw hs le_rfl
  have key : 1e9 * (sfr * (evs.map Prod.snd).sum) * (C.D a / C.D b) ^ 2 * v ≤ total C zOf (age 0) dt sfr n a b evs ∧
      total C zOf (age 0) dt sfr n a b evs ≤ 1e9 * (sfr * (evs.map Prod.snd).sum) * (C.D b / C.D a) ^ 2 * v := by
    induction evs with
    | nil => simp [total]
    | cons e evs ih =>
      obtain ⟨ih1, ih2⟩ := ih (fun x hx => hm x (List.mem_cons_of_mem _ hx)) (fun x hx => hn x (List.mem_cons_of_mem _ hx))
      have hone : ∃ z, a ≤ z ∧ z ≤ b ∧ row C zOf (age 0) dt sfr n a b e = weight C dt sfr e.2 z := by
        have hd : (0 : ℝ) < dt * 1e-3 := by positivity
        have he := hm e List.mem_cons_self
        have anti := age_anti h hA
        have hiT : age a ≤ age 0 := (anti Set.self_mem_Ici (Set.mem_Ici.2 ha.le) ha).le
        obtain ⟨k, hk, hin, huniq⟩ := one_birth (n := n) hd he.1 hw hiT (hn e List.mem_cons_self)
        have hiff : ∀ j < n, (birth (age 0) dt j + e.1 ≤ age 0 ∧ a < zOf (birth (age 0) dt j + e.1) ∧ zOf (birth (age 0) dt j + e.1) ≤ b) ↔
            (age b ≤ birth (age 0) dt j + e.1 ∧ birth (age 0) dt j + e.1 < age a) := by
          intro j hj
          have hpos : 0 < birth (age 0) dt j + e.1 := by have := hb0 j hj; linarith [he.1]
          constructor
          · rintro ⟨p, q, r⟩
            obtain ⟨z1, z2⟩ := hz _ hpos p
            exact ⟨by rw [← z2]; exact (anti.le_iff_ge (Set.mem_Ici.2 (ha.le.trans hab.le)) z1).2 r, by
              conv_lhs => rw [← z2]
              exact (anti.lt_iff_gt z1 (Set.mem_Ici.2 ha.le)).2 q⟩
          · rintro ⟨p, q⟩
            have hle : birth (age 0) dt j + e.1 ≤ age 0 := q.le.trans hiT
            obtain ⟨z1, z2⟩ := hz _ hpos hle
            rw [← z2] at p
            rw [← z2] at q
            exact ⟨hle, (anti.lt_iff_gt z1 (Set.mem_Ici.2 ha.le)).1 q, (anti.le_iff_ge (Set.mem_Ici.2 (ha.le.trans hab.le)) z1).1 p⟩
        have hk' := (hiff k hk).2 hin
        refine ⟨zOf (birth (age 0) dt k + e.1), hk'.2.1.le, hk'.2.2, ?_⟩
        unfold row
        rw [Finset.sum_eq_single k]
        · rw [if_pos hk']
        · intro j hj hne
          rw [if_neg]
          intro hc
          exact hne (huniq j ((hiff j (Finset.mem_range.1 hj)).1 hc))
        · intro hc
          exact absurd (Finset.mem_range.2 hk) hc
      obtain ⟨z, z1, z2, z3⟩ := hone
      obtain ⟨v', hv', -, l, u⟩ := weight_bounds h hA ha z1 z2 hdt hw hs (hm e List.mem_cons_self).2
      rw [hv] at hv'
      cases hv'
      have ht : total C zOf (age 0) dt sfr n a b (e :: evs) = weight C dt sfr e.2 z + total C zOf (age 0) dt sfr n a b evs := by
        simp [total, z3]
      rw [ht, List.map_cons, List.sum_cons]
      constructor <;> nlinarith
  exact ⟨_, by unfold density; rw [hv], (le_div_iff₀ hv0).2 key.1, (div_le_iff₀ hv0).2 key.2⟩

/-- C162. With narrower shells the rate density tends to the rate of events per volume. -/
theorem C162_limit (h : Flat C) {age : ℝ → ℝ} (hA : IsAge C age) (z0 sfr mw ε : ℝ) (hz0 : 0 < z0) (hs : 0 ≤ sfr) (hm : 0 ≤ mw) (hε : 0 < ε) :
    ∃ δ > 0, ∀ a b z dt, 0 < a → |a - z0| < δ → |b - z0| < δ → a ≤ z → z ≤ b → 0 < dt → age a - age b = dt * 1e-3 →
      ∃ r, density C (weight C dt sfr mw z) a b = .ok r ∧ |r - 1e9 * (sfr * mw)| < ε := by
  have hD := (D_pos h hz0).ne'
  have hc : ContinuousAt (fun p : ℝ × ℝ => 1e9 * (sfr * mw) * (C.D p.1 / C.D p.2) ^ 2) (z0, z0) := by
    have h1 : ContinuousAt (fun p : ℝ × ℝ => C.D p.1) (z0, z0) := (h.cont.comp continuous_fst).continuousAt
    have h2 : ContinuousAt (fun p : ℝ × ℝ => C.D p.2) (z0, z0) := (h.cont.comp continuous_snd).continuousAt
    exact continuousAt_const.mul ((h1.div h2 hD).pow 2)
  obtain ⟨δ, hδ, hcl⟩ := Metric.continuousAt_iff.1 hc ε hε
  refine ⟨δ, hδ, fun a b z dt ha haδ hbδ haz hzb hdt hw => ?_⟩
  obtain ⟨r, hr, l, u⟩ := C162_prompt h hA a b z dt sfr mw ha haz hzb hdt hw hs hm
  have near : ∀ x y, |x - z0| < δ → |y - z0| < δ → |1e9 * (sfr * mw) * (C.D x / C.D y) ^ 2 - 1e9 * (sfr * mw)| < ε := by
    intro x y hx hy
    have := @hcl (x, y) (by rw [Prod.dist_eq]; exact max_lt (by rwa [Real.dist_eq]) (by rwa [Real.dist_eq]))
    rw [Real.dist_eq] at this
    dsimp only at this
    rwa [div_self hD, one_pow, mul_one] at this
  have n1 := abs_lt.1 (near a b haδ hbδ)
  have n2 := abs_lt.1 (near b a hbδ haδ)
  exact ⟨r, hr, abs_lt.2 ⟨by linarith [n1.1], by linarith [n2.2]⟩⟩

/-! ### What the volume is not -/

/-- C162. The value is smaller than the comoving volume between the redshifts, by a factor between `1/(1+b)` and `1/(1+a)`: the documented result is not returned. -/
theorem C162_comoving_violated (h : Flat C) (hd : ∀ z, 0 ≤ z → HasDerivAt C.D (C.c / (C.H0 * E C z)) z) (a b : ℝ) (ha : 0 ≤ a) (hab : a < b) :
    ∃ v, shell C "infinite" a b = .ok v ∧ v < 4 * π / 3 * (C.D b ^ 3 - C.D a ^ 3) * 1e-9 ∧
      1 / (1 + b) * (4 * π / 3 * (C.D b ^ 3 - C.D a ^ 3) * 1e-9) ≤ v := by
  set g : ℝ → ℝ := fun z => 4 * π * C.D z ^ 2 * (C.c / (C.H0 * E C z)) * 1e-9 with hg
  have gc : ContinuousOn g (Set.Icc a b) := by
    refine ContinuousOn.mul (ContinuousOn.mul (continuousOn_const.mul (h.cont.continuousOn.pow 2)) ?_) continuousOn_const
    refine ContinuousOn.div continuousOn_const (continuousOn_const.mul (E_cont C).continuousOn) fun z hz => ?_
    exact (mul_pos h.H0 (E_pos h (ha.trans hz.1))).ne'
  have gi : IntervalIntegrable g volume a b := (by rw [Set.uIcc_of_le hab.le]; exact gc : ContinuousOn g (Set.uIcc a b)).intervalIntegrable
  have gI : ∫ z in a..b, g z = 4 * π / 3 * (C.D b ^ 3 - C.D a ^ 3) * 1e-9 := by
    rw [integral_eq_sub_of_hasDerivAt (f := fun z => 4 * π / 3 * C.D z ^ 3 * 1e-9) ?_ gi]
    · ring
    · intro z hz
      rw [Set.uIcc_of_le hab.le] at hz
      refine ((((hd z (ha.trans hz.1)).pow 3).const_mul (4 * π / 3)).mul_const 1e-9).congr_deriv ?_
      simp only [hg]
      push_cast
      ring
  have fg : ∀ z, 0 ≤ z → f C z = 1 / (1 + z) * g z := by
    intro z hz
    rw [f_eq h hz, hg]
    have h2 := (E_pos h hz).ne'
    have h4 := h.H0.ne'
    have h6 : (1 + z) ≠ 0 := by positivity
    field_simp
  have g0 : ∀ z, 0 ≤ z → 0 ≤ g z := by
    intro z hz
    have h1 := D_nonneg h hz
    have h2 := E_pos h hz
    have h3 := h.c
    have h4 := h.H0
    have h5 := Real.pi_pos
    simp only [hg]
    positivity
  refine ⟨_, if_pos rfl, ?_, ?_⟩
  · rw [← gI, ← sub_pos, ← intervalIntegral.integral_sub gi (f_int h ha hab.le)]
    refine intervalIntegral_pos_of_pos_on (gi.sub (f_int h ha hab.le)) (fun z hz => ?_) hab
    have hz0 : 0 < z := lt_of_le_of_lt ha hz.1
    have hfp := f_pos h hz0
    rw [fg z hz0.le] at hfp ⊢
    have hgp : 0 < g z := by
      rcases (g0 z hz0.le).eq_or_lt with e | e
      · rw [← e, mul_zero] at hfp; exact absurd hfp (lt_irrefl _)
      · exact e
    have : 1 / (1 + z) < 1 := by rw [div_lt_one (by linarith)]; linarith
    nlinarith
  · rw [← gI, ← intervalIntegral.integral_const_mul]
    refine integral_mono_on hab.le (gi.const_mul _) (f_int h ha hab.le) fun z hz => ?_
    have hz0 := ha.trans hz.1
    rw [fg z hz0]
    exact mul_le_mul_of_nonneg_right (one_div_le_one_div_of_le (by linarith) (by linarith [hz.2])) (g0 z hz0)

/-- C162. In a universe with radiation, as the one whose ages and distances are used, the volume is too large: larger than with its rate of expansion. -/
theorem C162_radiation_violated (h : Flat C) (Or a b : ℝ) (hOr : 0 < Or) (ha : 0 ≤ a) (hab : a < b) :
    ∃ v, shell C "infinite" a b = .ok v ∧
      ∫ z in a..b, f C z * (E C z / sqrt (C.Om * (1 + z) ^ 3 + Or * (1 + z) ^ 4 + (1 - C.Om - Or))) < v := by
  have less : ∀ z, 0 ≤ z → E C z ≤ sqrt (C.Om * (1 + z) ^ 3 + Or * (1 + z) ^ 4 + (1 - C.Om - Or)) := by
    intro z hz
    unfold E
    apply Real.sqrt_le_sqrt
    have : (1 : ℝ) ≤ (1 + z) ^ 4 := one_le_pow₀ (by linarith)
    nlinarith
  have gi : IntervalIntegrable (fun z => f C z * (E C z / sqrt (C.Om * (1 + z) ^ 3 + Or * (1 + z) ^ 4 + (1 - C.Om - Or)))) volume a b := by
    refine ContinuousOn.intervalIntegrable ?_
    rw [Set.uIcc_of_le hab.le]
    refine (f_cont h ha).mul (ContinuousOn.div (E_cont C).continuousOn (by fun_prop) fun z hz => ?_)
    exact (lt_of_lt_of_le (E_pos h (ha.trans hz.1)) (less z (ha.trans hz.1))).ne'
  refine ⟨_, if_pos rfl, ?_⟩
  rw [← sub_pos, ← intervalIntegral.integral_sub (f_int h ha hab.le) gi]
  refine intervalIntegral_pos_of_pos_on ((f_int h ha hab.le).sub gi) (fun z hz => ?_) hab
  have hz0 : 0 < z := lt_of_le_of_lt ha hz.1
  have hlt : E C z < sqrt (C.Om * (1 + z) ^ 3 + Or * (1 + z) ^ 4 + (1 - C.Om - Or)) := by
    unfold E
    apply Real.sqrt_lt_sqrt (by linarith [E_sq_pos h hz0.le])
    have : (1 : ℝ) < (1 + z) ^ 4 := one_lt_pow₀ (by linarith) (by norm_num)
    nlinarith
  have := f_pos h hz0
  have h1 : E C z / sqrt (C.Om * (1 + z) ^ 3 + Or * (1 + z) ^ 4 + (1 - C.Om - Or)) < 1 :=
    (div_lt_one ((E_pos h hz0.le).trans hlt)).2 hlt
  nlinarith

/-! ### A case -/

/-- An empty universe with a cosmological constant. -/
noncomputable def exC : Cosmos := ⟨1, 1, 0, fun z => z⟩

theorem exFlat : Flat exC := ⟨one_pos, one_pos, le_rfl, zero_le_one, continuous_id, le_rfl, fun _ _ _ h => h⟩

theorem exAge : IsAge exC (fun z => (10 - Real.log (1 + z)) * 1e-9) := by
  intro z hz
  have hE : E exC z = 1 := by simp [E, exC]
  rw [hE]
  have h1 : HasDerivAt (fun z : ℝ => 1 + z) 1 z := (hasDerivAt_id' z).const_add 1
  refine (((h1.log (by positivity)).const_sub 10).mul_const 1e-9).congr_deriv ?_
  simp [exC]

example : ∃ v, shell exC "infinite" 1 2 = .ok v ∧ 0 < v := C162_positive exFlat 1 2 zero_le_one (by norm_num)

example : shell exC "O3" 1 2 = .error .value := C162_refused _ _ _ _ (by decide)

example : ∃ v, shell exC "infinite" 1 2 = .ok v ∧ v < 4 * π / 3 * ((2 : ℝ) ^ 3 - 1 ^ 3) * 1e-9 ∧ 1 / (1 + 2) * (4 * π / 3 * ((2 : ℝ) ^ 3 - 1 ^ 3) * 1e-9) ≤ v :=
  C162_comoving_violated exFlat (fun z _ => by
    have hE : E exC z = 1 := by simp [E, exC]
    rw [hE]
    refine (hasDerivAt_id' z).congr_deriv ?_
    simp [exC]) 1 2 zero_le_one (by norm_num)

/-- Two events, of delays of one and two bins. -/
example : ∃ r, density exC (total exC (fun t => Real.exp (10 - t * 1e9) - 1) ((10 - Real.log (1 + 0)) * 1e-9) 1e-6 3 5 (Real.exp 1 - 1) (Real.exp 2 - 1)
      [(1e-9, 2), (2e-9, 5)]) (Real.exp 1 - 1) (Real.exp 2 - 1) = .ok r ∧
    1e9 * (3 * ([(1e-9, 2), (2e-9, 5)].map (Prod.snd : ℝ × ℝ → ℝ)).sum) * ((Real.exp 1 - 1) / (Real.exp 2 - 1)) ^ 2 ≤ r ∧
    r ≤ 1e9 * (3 * ([(1e-9, 2), (2e-9, 5)].map (Prod.snd : ℝ × ℝ → ℝ)).sum) * ((Real.exp 2 - 1) / (Real.exp 1 - 1)) ^ 2 := by
  have h1 : (1 : ℝ) < Real.exp 1 := Real.one_lt_exp_iff.2 one_pos
  refine C162_steady exFlat exAge (Real.exp 1 - 1) (Real.exp 2 - 1) 1e-6 3 5 [(1e-9, 2), (2e-9, 5)] (by linarith)
    (by have := Real.exp_lt_exp.2 (show (1 : ℝ) < 2 by norm_num); linarith) (by norm_num) ?_ (by norm_num) ?_ ?_ ?_ ?_
  · simp only [add_sub_cancel, Real.log_exp]
    norm_num
  · simp; norm_num
  · intro t _ ht
    simp only [add_zero, Real.log_one, sub_zero] at ht
    refine ⟨sub_nonneg.2 (Real.one_le_exp_iff.2 ?_), ?_⟩
    · norm_num at ht ⊢; linarith
    · simp only [add_sub_cancel, Real.log_exp]
      norm_num
      ring
  · intro k hk
    have : (k : ℝ) ≤ 4 := by exact_mod_cast Nat.le_of_lt_succ hk
    simp only [birth, add_zero, Real.log_one, sub_zero]
    norm_num
    linarith
  · simp only [birth, add_zero, Real.log_one, sub_zero, add_sub_cancel, Real.log_exp, List.mem_cons, List.not_mem_nil, or_false]
    rintro e (rfl | rfl) <;> norm_num

end Verif.Shells
