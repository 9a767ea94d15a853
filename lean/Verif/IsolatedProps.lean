import Verif.Isolated
/-!
C79: stars without a companion evolve as in an orbit too wide to matter, and have no orbit afterwards.
-/
namespace Verif.Isolated
open Verif.FlowChart Verif.Orbit

/-- The states of a binary that is one star, or two that have parted. -/
def alone (b : BState) : Prop := b = .single ∨ b = .merged ∨ b = .disrupted

/-- **C79**: after a step for isolated stars that succeeds, the binary has no orbit; everything else is what the detached step left. -/
theorem C79_no_orbit (D : Detached) (x y : Bin) (h : isolated D x = (y, none)) :
    alone x.b ∧ y.per = none ∧ y.ecc = none ∧ y.sep = none ∧ y.b = (D (widen x)).1.b ∧ y.e = (D (widen x)).1.e ∧
      y.s1 = (D (widen x)).1.s1 ∧ y.s2 = (D (widen x)).1.s2 := by
  unfold isolated at h
  dsimp only at h
  by_cases hb : (widen x).b = .single ∨ (widen x).b = .merged ∨ (widen x).b = .disrupted
  · rw [if_pos hb] at h
    cases hD : D (widen x) with
    | mk z r =>
      rw [hD] at h
      cases r with
      | true => simp at h
      | false =>
        simp only [Prod.mk.injEq, and_true] at h
        subst h
        exact ⟨hb, rfl, rfl, rfl, rfl, rfl, rfl, rfl⟩
  · rw [if_neg hb] at h; simp at h

/-- **C79**: the detached step sees a circular orbit with the longest period, whose separation follows from the masses by Kepler's
law; the stars, state and event are untouched. -/
theorem C79_initial_orbit (x : Bin) (hm : 0 < x.m1 + x.m2) :
    ∃ a, (widen x).sep = some a ∧ (widen x).per = some (10 ^ 99) ∧ (widen x).ecc = some 0 ∧
      a ^ 3 = kepler * (x.m1 + x.m2) * (10 ^ 99) ^ 2 ∧ 0 < a ∧
      (widen x).b = x.b ∧ (widen x).e = x.e ∧ (widen x).s1 = x.s1 ∧ (widen x).s2 = x.s2 :=
  ⟨_, rfl, rfl, rfl, sepFromPeriod_cube _ _ _ hm.le, sepFromPeriod_pos (by positivity) hm, rfl, rfl, rfl, rfl⟩

/-- **C79**: which binaries are refused, and how errors of the detached step come out. -/
theorem C79_errors (D : Detached) (x : Bin) :
    ((isolated D x).2 = some .flow ↔ ¬ alone x.b) ∧
    ((isolated D x).2 = some .inner ↔ alone x.b ∧ (D (widen x)).2 = true) ∧
    (x.b ≠ .single → initiallySingle D x = (x, some .attribute)) ∧
    (x.b = .single → initiallySingle D x = isolated D x) := by
  have hb : ((widen x).b = .single ∨ (widen x).b = .merged ∨ (widen x).b = .disrupted) ↔ alone x.b := Iff.rfl
  refine ⟨?_, ?_, fun h => by unfold initiallySingle; rw [if_pos h], fun h => by unfold initiallySingle; rw [if_neg (not_not.2 h)]⟩
  all_goals
    unfold isolated
    dsimp only
    by_cases h : alone x.b
    · rw [if_pos (hb.2 h)]
      cases hD : D (widen x) with
      | mk z r => cases r <;> simp [h]
    · rw [if_neg (fun h' => h (hb.1 h'))]
      simp [h]

/-- **C79** (refuted): "a binary that is refused, or whose evolution fails, keeps its orbit".  The orbit is overwritten before the
state is checked. -/
theorem C79_refused_violated (D : Detached) (x : Bin) (h : ¬ alone x.b) (P : ℝ) (hP : x.per = some P) (h1 : P ≠ 10 ^ 99) :
    (isolated D x).2 = some .flow ∧ (isolated D x).1.per = some (10 ^ 99) ∧ (isolated D x).1.ecc = some 0 ∧ (isolated D x).1 ≠ x := by
  have hb : ¬ ((widen x).b = .single ∨ (widen x).b = .merged ∨ (widen x).b = .disrupted) := h
  have e : isolated D x = (widen x, some .flow) := by
    unfold isolated
    dsimp only
    rw [if_neg hb]
  rw [e]
  refine ⟨rfl, rfl, rfl, fun he => ?_⟩
  have := congrArg Bin.per he
  rw [hP] at this
  exact h1 (Option.some.inj this).symm

/-- **C79** (refuted): "the step for initially single stars clears the event".  The assignment is written as a comparison: the
detached step is called with the event unchanged. -/
theorem C79_event_violated (x : Bin) (h : x.b = .single) :
    (initiallySingle (fun y => (y, false)) x).1.e = x.e ∧ (initiallySingle (fun y => (y, false)) x).2 = none := by
  have hb : (widen x).b = .single ∨ (widen x).b = .merged ∨ (widen x).b = .disrupted := Or.inl h
  unfold initiallySingle isolated
  rw [if_neg (not_not.2 h)]
  dsimp only
  rw [if_pos hb]
  exact ⟨rfl, rfl⟩

theorem eggT_ge {t : ℝ} (ht : 0 < t) : 0.49 * t / (0.6 * t + 1) ≤ eggT t := by
  have hl : Real.log (1 + t) ≤ t := by have := Real.log_le_sub_one_of_pos (show 0 < 1 + t by linarith); linarith
  unfold eggT
  rw [div_le_div_iff₀ (by positivity) (eggT_den_pos ht)]
  have : 0 ≤ 0.49 * t * (t - Real.log (1 + t)) := mul_nonneg (by positivity) (by linarith)
  nlinarith

/-- The separation is more than `10^60` solar radii. -/
theorem sep_huge {m1 m2 : ℝ} (hm : 10⁻¹ ^ 6 ≤ m1 + m2) : (10 : ℝ) ^ 60 ≤ sepFromPeriod (10 ^ 99) m1 m2 := by
  have hp : 0 < m1 + m2 := lt_of_lt_of_le (by norm_num) hm
  have hc := sepFromPeriod_cube (10 ^ 99) m1 m2 hp.le
  have ha := sepFromPeriod_pos (P := 10 ^ 99) (by norm_num) hp
  by_contra hn
  have h3 : sepFromPeriod (10 ^ 99) m1 m2 ^ 3 ≤ ((10 : ℝ) ^ 60) ^ 3 := pow_le_pow_left₀ ha.le (not_le.1 hn).le 3
  rw [hc] at h3
  have hk : (1 : ℝ) ≤ kepler := by unfold kepler cgrav Msun day2sec cpi Rsun; norm_num
  have : (1 : ℝ) * (10⁻¹ ^ 6) * (10 ^ 99) ^ 2 ≤ kepler * (m1 + m2) * (10 ^ 99) ^ 2 := by
    apply mul_le_mul_of_nonneg_right _ (by positivity)
    exact mul_le_mul hk hm (by norm_num) (by linarith)
  have hlt : ((10 : ℝ) ^ 60) ^ 3 < 1 * (10⁻¹ ^ 6) * (10 ^ 99) ^ 2 := by norm_num
  linarith

/-- **C79**: no star in the fictitious orbit fills its Roche lobe: not beside a missing companion, and not beside a star that left,
for masses from a millionth to a million solar masses and radii up to `10^50` solar radii. -/
theorem C79_no_overflow (x : Bin) (r : ℝ) (m1 : 0 ≤ x.m1) (m2 : 0 ≤ x.m2) (hm : 10⁻¹ ^ 6 ≤ x.m1 ∨ 10⁻¹ ^ 6 ≤ x.m2)
    (u1 : x.m1 ≤ 10 ^ 6) (u2 : x.m2 ≤ 10 ^ 6) (hr : r ≤ 10 ^ 50) (l1 : x.m1 = 0 ∨ 10⁻¹ ^ 6 ≤ x.m1) (l2 : x.m2 = 0 ∨ 10⁻¹ ^ 6 ≤ x.m2) :
    ¬ overflows r x.m1 x.m2 (widen x) ∧ ¬ overflows r x.m2 x.m1 (widen x) := by
  have hs : 10⁻¹ ^ 6 ≤ x.m1 + x.m2 := by rcases hm with h | h <;> linarith
  have ha := sep_huge hs
  have key : ∀ m mc : ℝ, (m = 0 ∨ 10⁻¹ ^ 6 ≤ m) → (mc = 0 ∨ 10⁻¹ ^ 6 ≤ mc) → mc ≤ 10 ^ 6 → ¬ overflows r m mc (widen x) := by
    intro m mc hm hmc hu h
    simp only [overflows, widen, sub_zero, one_mul] at h
    unfold rocheLobe validSep validMass at h
    rw [if_neg (by linarith [show (0 : ℝ) < 10 ^ 60 by norm_num])] at h
    by_cases c1 : m ≤ 0
    · simp [c1] at h
    by_cases c2 : mc ≤ 0
    · simp [c1, c2] at h
    simp only [if_neg c1, if_neg c2] at h
    have p1 : 0 < m := not_le.1 c1
    have p2 : 0 < mc := not_le.1 c2
    have g1 : 10⁻¹ ^ 6 ≤ m := hm.resolve_left p1.ne'
    have q0 : (10⁻¹ ^ 4 : ℝ) ^ 3 ≤ m / mc := by
      rw [le_div_iff₀ p2]
      calc (10⁻¹ ^ 4 : ℝ) ^ 3 * mc ≤ (10⁻¹ ^ 4) ^ 3 * 10 ^ 6 := mul_le_mul_of_nonneg_left hu (by norm_num)
        _ = 10⁻¹ ^ 6 := by norm_num
        _ ≤ m := g1
    have qp : 0 < m / mc := div_pos p1 p2
    have t0 : (10⁻¹ ^ 4 : ℝ) ≤ (m / mc) ^ ((1 : ℝ) / 3) := by
      by_contra hn
      have := pow_lt_pow_left₀ (not_le.1 hn) (Real.rpow_nonneg qp.le _) (n := 3) (by norm_num)
      rw [cube_rpow_third qp.le] at this
      linarith
    rw [eggleton_eq qp.le] at h
    generalize (m / mc) ^ ((1 : ℝ) / 3) = t at *
    have tp : 0 < t := lt_of_lt_of_le (by norm_num) t0
    have e1 := eggT_ge tp
    have e2 : (10⁻¹ ^ 5 : ℝ) ≤ 0.49 * t / (0.6 * t + 1) := by
      rw [le_div_iff₀ (by positivity)]
      norm_num at t0 ⊢
      nlinarith
    have e3 : (10 : ℝ) ^ 60 * 10⁻¹ ^ 5 ≤ sepFromPeriod (10 ^ 99) x.m1 x.m2 * eggT t :=
      mul_le_mul ha (le_trans e2 e1) (by norm_num) (le_trans (by norm_num) ha)
    norm_num at e3
    norm_num at hr
    linarith
  exact ⟨key _ _ l1 l2 u2, key _ _ l2 l1 u1⟩

noncomputable def exBin : Bin := ⟨.disrupted, .ev .none, .hCoreH, .NS, 10, 1.4, some 10, some 0.9, some 50⟩

example : ¬ overflows 100 exBin.m1 exBin.m2 (widen exBin) :=
  (C79_no_overflow exBin 100 (by norm_num [exBin]) (by norm_num [exBin]) (by norm_num [exBin]) (by norm_num [exBin]) (by norm_num [exBin]) (by norm_num)
    (by norm_num [exBin]) (by norm_num [exBin])).1

/-- In its real orbit the same star would overflow: the fictitious one matters. -/
example : overflows 100 exBin.m1 exBin.m2 { exBin with ecc := some 1 } := by
  simp only [overflows, exBin, sub_self, zero_mul]
  unfold rocheLobe validSep validMass
  norm_num

/-- **C79**: the last step sets the event `END` and changes nothing else, except that it classifies anew the stars of a disrupted
binary that are not missing. -/
theorem C79_end (classify : Bool → Star → Bool → Star) (x : Bin) :
    (stepEnd classify x).e = .END ∧ (stepEnd classify x).b = x.b ∧ (stepEnd classify x).per = x.per ∧ (stepEnd classify x).ecc = x.ecc ∧
      (stepEnd classify x).sep = x.sep ∧ (stepEnd classify x).m1 = x.m1 ∧ (stepEnd classify x).m2 = x.m2 ∧
    (x.b ≠ .disrupted → (stepEnd classify x).s1 = x.s1 ∧ (stepEnd classify x).s2 = x.s2) ∧
    (x.b = .disrupted → (x.s1 = .massless → (stepEnd classify x).s1 = .massless) ∧
      (x.s1 ≠ .massless → (stepEnd classify x).s1 = classify true x.s1 (x.s1 = .WD ∨ x.s1 = .NS ∨ x.s1 = .BH)) ∧
      (x.s2 = .massless → (stepEnd classify x).s2 = .massless) ∧
      (x.s2 ≠ .massless → (stepEnd classify x).s2 = classify false x.s2 (x.s2 = .WD ∨ x.s2 = .NS ∨ x.s2 = .BH))) := by
  unfold stepEnd
  by_cases h : x.b = .disrupted
  · rw [if_pos h]
    refine ⟨rfl, rfl, rfl, rfl, rfl, rfl, rfl, fun hn => absurd h hn, fun _ => ⟨fun h1 => ?_, fun h1 => ?_, fun h1 => ?_, fun h1 => ?_⟩⟩
    · simp [updateStates, h1]
    · simp [updateStates, h1]
    · simp [updateStates, h1]
    · simp [updateStates, h1]
  · rw [if_neg h]
    exact ⟨rfl, rfl, rfl, rfl, rfl, rfl, rfl, fun _ => ⟨rfl, rfl⟩, fun hn => absurd hn h⟩

end Verif.Isolated
