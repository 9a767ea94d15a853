import Verif.Spin
import Mathlib.Tactic.FieldSimp
import Mathlib.Tactic.Positivity
import Mathlib.Tactic.NormNum
import Mathlib.Tactic.Linarith
/-!
C76: matching a star to a track keeps its angular momentum.
-/
namespace Verif.Spin

theorem lg_pow (j : ℝ) : lg ((10 : ℝ) ^ j) = .num j := by
  unfold lg
  rw [if_pos (Real.rpow_pos_of_pos (by norm_num) j), Real.logb_rpow (by norm_num) (by norm_num)]

/-- **C76**: a matched star that rotates keeps its angular momentum; its new rate is the momentum over its moment of inertia, the
three recorded quantities agree with each other and with the rate the evolution starts from, the critical rate implied by them
is unchanged, and so is everything else. -/
theorem C76_momentum (c : Const) (s : Star) (j i w r : ℝ) (hj : s.lgJ = .num j) (hi : s.moi = .num i) (hw : s.omega = .num w)
    (hr : s.ratio = .num r) (i0 : 0 < i) (w0 : 0 < w) (r0 : r ≠ 0) (hm : s.matched = true) :
    ∃ w', spin c s = .ok (w' * c.secyer, { s with ratio := .num (w' / (w / r)), omega := .num w' }) ∧
      w' = (10 : ℝ) ^ j / i ∧ 0 < w' ∧ i * w' = (10 : ℝ) ^ j := by
  have hp : (0 : ℝ) < (10 : ℝ) ^ j := Real.rpow_pos_of_pos (by norm_num) j
  have hs := c.secyer_pos
  refine ⟨(10 : ℝ) ^ j / i, ?_, rfl, div_pos hp i0, by field_simp⟩
  have hc : calcOmega c s = .ok ((10 : ℝ) ^ j / i * c.secyer) := by
    unfold calcOmega; rw [hj, hi]; simp only [if_neg i0.ne']
  have e1 : (10 : ℝ) ^ j / i * c.secyer / c.secyer = (10 : ℝ) ^ j / i := by field_simp
  have e2 : newRatio ((10 : ℝ) ^ j / i) w (.num r) = .ok (.num ((10 : ℝ) ^ j / i / (w / r))) := by
    unfold newRatio
    dsimp only
    rw [if_neg r0, if_neg (div_ne_zero w0.ne' r0)]
  have e3 : newLgJ ((10 : ℝ) ^ j / i) (.num i) = .ok (.num j) := by
    unfold newLgJ
    dsimp only
    rw [div_mul_cancel₀ _ i0.ne', lg_pow]
  have hu : update c ((10 : ℝ) ^ j / i * c.secyer) s =
      .ok { s with ratio := .num ((10 : ℝ) ^ j / i / (w / r)), omega := .num ((10 : ℝ) ^ j / i) } := by
    unfold update
    rw [hw]
    dsimp only
    rw [if_pos w0, e1, hr, e2]
    dsimp only
    rw [hi, e3]
    dsimp only
    rw [if_pos hm]
    simp only [hj]
  unfold spin
  rw [hc]
  dsimp only
  rw [hu]

/-- **C76**: a star consistent before the matching is unchanged by it. -/
theorem C76_consistent (c : Const) (s : Star) (h : s.consistent) (hr : ∀ r, s.ratio = .num r → r ≠ 0) (hm : s.matched = true) :
    ∃ w, s.omega = .num w ∧ spin c s = .ok (w * c.secyer, s) := by
  obtain ⟨j, i, w, r, hj, hi, hw, hr', i0, w0, hjw⟩ := h
  obtain ⟨w', h1, h2, -, -⟩ := C76_momentum c s j i w r hj hi hw hr' i0 w0 (hr r hr') hm
  have hw' : w' = w := by rw [h2, hjw]; field_simp
  have hrr : w' / (w / r) = r := by
    have := hr r hr'
    rw [hw']; field_simp
  refine ⟨w, hw, ?_⟩
  rw [h1, hrr, hw', ← hr', ← hw]

noncomputable def exStar : Star := ⟨.num 2, .num 50, .num (1 / 2), .num 4, .num 0, 1, 1, 1, true⟩
noncomputable def exConst : Const := ⟨31557600, 1, 1, 1, by norm_num⟩

/-- The star of the example spins at 4 with a momentum of 100 and a moment of 50: it is set to 2. -/
example : ∃ s', spin exConst exStar = .ok (2 * 31557600, s') ∧ s'.omega = .num 2 ∧ s'.ratio = .num (1 / 4) ∧ s'.lgJ = .num 2 := by
  obtain ⟨w', h1, h2, -, -⟩ := C76_momentum exConst exStar 2 50 4 (1 / 2) rfl rfl rfl rfl (by norm_num) (by norm_num) (by norm_num) rfl
  have : w' = 2 := by rw [h2]; norm_num
  subst this
  exact ⟨_, h1, rfl, by norm_num, rfl⟩

/-- **C76**: which of the attributes decides the rate: momentum and moment, then the surface rate, then the ratio to the critical
rate, which is that of the star's own mass and radius or, if the radius is unknown, of its track; a star about whose rotation
nothing is known does not rotate. -/
theorem C76_source (c : Const) (s : Star) :
    (∀ j i, s.lgJ = .num j → s.moi = .num i → i ≠ 0 → calcOmega c s = .ok ((10 : ℝ) ^ j / i * c.secyer)) ∧
    (¬ (s.lgJ.known ∧ s.moi.known) → ∀ w, s.omega = .num w → calcOmega c s = .ok (w * c.secyer)) ∧
    (¬ (s.lgJ.known ∧ s.moi.known) → ¬ s.omega.known → ∀ r, s.ratio = .num r →
      (∀ lr, s.logR = .num lr → calcOmega c s = .ok (r * (critical c s.mass ((10 : ℝ) ^ lr) * c.secyer))) ∧
      (¬ s.logR.known → calcOmega c s = .ok (r * (critical c s.trackM s.trackR * c.secyer)))) ∧
    (¬ (s.lgJ.known ∧ s.moi.known) → ¬ s.omega.known → ¬ s.ratio.known → calcOmega c s = .ok 0) := by
  refine ⟨?_, ?_, ?_, ?_⟩
  · intro j i hj hi h0
    unfold calcOmega; rw [hj, hi]; simp only [if_neg h0]
  · intro hn w hw
    unfold calcOmega
    cases hj : s.lgJ <;> cases hi : s.moi <;> simp_all [V.known]
  · intro hn hw r hr
    unfold calcOmega
    refine ⟨fun lr hl => ?_, fun hl => ?_⟩
    · cases hj : s.lgJ <;> cases hi : s.moi <;> cases hw' : s.omega <;> simp_all [V.known]
    · cases hj : s.lgJ <;> cases hi : s.moi <;> cases hw' : s.omega <;> cases hl' : s.logR <;> simp_all [V.known]
  · intro hn hw hr
    unfold calcOmega
    cases hj : s.lgJ <;> cases hi : s.moi <;> cases hw' : s.omega <;> cases hr' : s.ratio <;> simp_all [V.known]

/-- **C76**: a star that was not matched and rotates keeps its attributes. -/
theorem C76_unmatched_partial (c : Const) (s : Star) (w : ℝ) (hw : s.omega = .num w) (w0 : 0 < w) (hm : s.matched = false) (x : ℝ) (s' : Star)
    (h : spin c s = .ok (x, s')) : s' = s := by
  unfold spin at h
  cases hc : calcOmega c s with
  | error e => rw [hc] at h; cases h
  | ok w0' =>
    rw [hc] at h
    dsimp only at h
    unfold update at h
    rw [hw] at h
    dsimp only at h
    rw [if_pos w0] at h
    cases h1 : newRatio (w0' / c.secyer) w s.ratio with
    | error e => rw [h1] at h; cases h
    | ok r =>
      rw [h1] at h
      dsimp only at h
      cases h2 : newLgJ (w0' / c.secyer) s.moi with
      | error e => rw [h2] at h; cases h
      | ok j =>
        rw [h2, hm] at h
        cases h; rfl

/-- The stars whose spin is reset. -/
def Star.still (s : Star) : Prop := ∀ w, s.omega = .num w → w ≤ 0

theorem update_still (c : Const) (w0 : ℝ) (s : Star) (h : s.still) :
    update c w0 s = .ok { s with ratio := .num 0, omega := .num 0, lgJ := .num 0 } := by
  unfold update
  cases hw : s.omega with
  | none => rfl
  | nan => rfl
  | num w => dsimp only; rw [if_neg (not_lt.2 (h w hw))]

/-- **C76**: a star whose surface rate is unknown, zero or negative is set to zero rate, ratio and logarithm of the momentum. -/
theorem C76_still (c : Const) (s : Star) (h : s.still) (x : ℝ) (s' : Star) (hs : spin c s = .ok (x, s')) :
    s'.omega = .num 0 ∧ s'.ratio = .num 0 ∧ s'.lgJ = .num 0 := by
  unfold spin at hs
  cases hc : calcOmega c s with
  | error e => rw [hc] at hs; cases hs
  | ok w0 =>
    rw [hc] at hs
    dsimp only at hs
    rw [update_still c w0 s h] at hs
    cases hs
    exact ⟨rfl, rfl, rfl⟩

/-- **C76** (refuted): "the momentum of a star is kept".  A star whose momentum and moment of inertia are known but whose surface
rate is not starts from the rate they give, while its recorded rate becomes zero and its momentum one (logarithm zero). -/
theorem C76_momentum_violated (c : Const) (s : Star) (j i : ℝ) (hj : s.lgJ = .num j) (hi : s.moi = .num i) (i0 : 0 < i)
    (hw : ¬ s.omega.known) (j0 : j ≠ 0) :
    ∃ x s', spin c s = .ok (x, s') ∧ x = (10 : ℝ) ^ j / i * c.secyer ∧ 0 < x ∧ s'.omega = .num 0 ∧ s'.J = some 1 ∧
      s.J = some ((10 : ℝ) ^ j) ∧ (10 : ℝ) ^ j ≠ 1 := by
  have hst : s.still := fun w h => by rw [h] at hw; exact absurd trivial hw
  refine ⟨(10 : ℝ) ^ j / i * c.secyer, { s with ratio := .num 0, omega := .num 0, lgJ := .num 0 }, ?_, rfl, ?_, rfl, ?_, ?_, ?_⟩
  · unfold spin
    rw [(C76_source c s).1 j i hj hi i0.ne']
    dsimp only
    rw [update_still c _ s hst]
  · have := c.secyer_pos
    have : (0 : ℝ) < (10 : ℝ) ^ j := Real.rpow_pos_of_pos (by norm_num) j
    positivity
  · simp [Star.J]
  · simp [Star.J, hj]
  · intro h
    have := congrArg (Real.logb 10) h
    rw [Real.logb_rpow (by norm_num) (by norm_num), Real.logb_one] at this
    exact j0 this

/-- **C76** (refuted): "a star that is not matched is left alone".  If its rate is unknown, its rate, ratio and momentum are
overwritten. -/
theorem C76_unmatched_violated (c : Const) (s : Star) (_hm : s.matched = false) (hw : s.omega = .none) (hj : s.lgJ = .none)
    (hr : s.ratio = .none) : ∃ s', spin c s = .ok (0, s') ∧ s'.omega = .num 0 ∧ s'.lgJ = .num 0 ∧ s'.ratio = .num 0 ∧ s' ≠ s := by
  refine ⟨{ s with ratio := .num 0, omega := .num 0, lgJ := .num 0 }, ?_, rfl, rfl, rfl, fun h => ?_⟩
  · unfold spin
    rw [(C76_source c s).2.2.2 (by simp [hj, V.known]) (by simp [hw, V.known]) (by simp [hr, V.known])]
    dsimp only
    rw [update_still c _ s (fun w h => by rw [hw] at h; cases h)]
  · have := congrArg Star.omega h
    rw [hw] at this
    cases this

/-- **C76** (refuted): "a star spins the same before and after".  A star recorded as rotating backwards is reset to no rotation,
while the evolution starts from the negative rate. -/
theorem C76_retrograde_violated (c : Const) (s : Star) (w : ℝ) (hw : s.omega = .num w) (w0 : w < 0) (hj : ¬ s.lgJ.known) :
    ∃ s', spin c s = .ok (w * c.secyer, s') ∧ w * c.secyer < 0 ∧ s'.omega = .num 0 := by
  refine ⟨{ s with ratio := .num 0, omega := .num 0, lgJ := .num 0 }, ?_, mul_neg_of_neg_of_pos w0 c.secyer_pos, rfl⟩
  unfold spin
  rw [(C76_source c s).2.1 (fun h => hj h.1) w hw]
  dsimp only
  rw [update_still c _ s (fun w' h => by rw [hw] at h; cases h; exact le_of_lt w0)]

/-- **C76**: an attribute that is missing (`None`) in a rotating star, the ratio or the moment of inertia, is an error. -/
theorem C76_errors (c : Const) (s : Star) (w : ℝ) (hw : s.omega = .num w) (w0 : 0 < w) :
    (s.ratio = .none → (∀ i, s.moi = .num i → i ≠ 0) → spin c s = .error .type) ∧
    (s.moi = .none → ∀ r, s.ratio = .num r → r ≠ 0 → spin c s = .error .type) := by
  refine ⟨fun hr hi => ?_, fun hi r hr r0 => ?_⟩
  · obtain ⟨x, hx⟩ : ∃ x, calcOmega c s = .ok x := by
      by_cases hk : s.lgJ.known ∧ s.moi.known
      · cases hj : s.lgJ with
        | num j =>
          cases hm : s.moi with
          | num i => exact ⟨_, (C76_source c s).1 j i hj hm (hi i hm)⟩
          | none => rw [hm] at hk; exact absurd hk.2 (by simp [V.known])
          | nan => rw [hm] at hk; exact absurd hk.2 (by simp [V.known])
        | none => rw [hj] at hk; exact absurd hk.1 (by simp [V.known])
        | nan => rw [hj] at hk; exact absurd hk.1 (by simp [V.known])
      · exact ⟨_, (C76_source c s).2.1 hk w hw⟩
    unfold spin
    rw [hx]
    dsimp only
    unfold update
    rw [hw]
    dsimp only
    rw [if_pos w0, hr]
    rfl
  · unfold spin
    rw [(C76_source c s).2.1 (by simp [hi, V.known]) w hw]
    dsimp only
    unfold update
    rw [hw]
    dsimp only
    have e : newRatio (w * c.secyer / c.secyer) w (.num r) = .ok (.num (w * c.secyer / c.secyer / (w / r))) := by
      unfold newRatio
      dsimp only
      rw [if_neg r0, if_neg (div_ne_zero w0.ne' r0)]
    rw [if_pos w0, hr, e]
    dsimp only
    rw [hi]
    rfl

/-- **C76**: both stars are treated alike; a primary that is a compact object is left alone and the evolution starts with the
secondary's rate for it. -/
theorem C76_both (c : Const) (p s : Star) (o : Out) (n : Bool) (h : info c n p s = .ok o) :
    spin c s = .ok (o.wSec, o.sec) ∧ (n = true → spin c p = .ok (o.wPri, o.pri)) ∧ (n = false → o.pri = p ∧ o.wPri = o.wSec) := by
  unfold info at h
  cases hs : spin c s with
  | error e => rw [hs] at h; cases h
  | ok x =>
    obtain ⟨w, s'⟩ := x
    rw [hs] at h
    dsimp only at h
    cases n with
    | true =>
      simp only [if_true] at h
      cases hp : spin c p with
      | error e => rw [hp] at h; cases h
      | ok y => obtain ⟨w', p'⟩ := y; rw [hp] at h; cases h; exact ⟨rfl, fun _ => rfl, by simp⟩
    | false =>
      simp only [Bool.false_eq_true, if_false] at h
      cases h
      exact ⟨rfl, by simp, fun _ => ⟨rfl, rfl⟩⟩

end Verif.Spin
