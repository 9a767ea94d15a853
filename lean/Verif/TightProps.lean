import Verif.SNStep
import Verif.Scrub
import Verif.Sfh
import Verif.Spin
import Verif.StepHooks
/-! Further theorems of C14, C26, C34, C76 and C118 about single decisions and formulas. -/
namespace Verif.Tight

/-- C34: the three states without an orbit, in which a supernova does not kick a binary apart. -/
theorem C34_alone_states (s : String) : SNStep.alone s = true ↔ s = "disrupted" ∨ s = "initially_single_star" ∨ s = "merged" := by
  unfold SNStep.alone
  rw [Bool.or_eq_true, Bool.or_eq_true, decide_eq_true_iff, decide_eq_true_iff, decide_eq_true_iff, or_assoc]

/-- C34: a second supernova of a binary whose first one left no anomaly is an AttributeError, never a wrong tilt. -/
theorem C34_missing_anomaly (c : SNStep.Cfg) (b : SNStep.Binary) (tilt nu : ℝ) (hf : b.firstSN = true) (hn : b.nu1 = none) :
    SNStep.tilts c b tilt nu = .error .attribute := by
  unfold SNStep.tilts
  rw [hf, hn]
  rfl

/-- C14: the repair of ages is refused exactly if the start is moved by more than one percent of the age (at age zero, if it is moved at all). -/
theorem C14_one_percent (new old : ℚ) :
    (0 < old → (Scrub.tooBig new old = true ↔ old / 100 < |new - old|)) ∧ (old = 0 → (Scrub.tooBig new old = true ↔ new ≠ 0)) ∧
    (old < 0 → Scrub.tooBig new old = false) := by
  unfold Scrub.tooBig
  refine ⟨fun h => ?_, fun h => ?_, fun h => ?_⟩
  · rw [if_pos h, decide_eq_true_iff, gt_iff_lt, lt_div_iff₀ h]
    constructor <;> intro h' <;> linarith
  · subst h
    rw [if_neg (lt_irrefl _), if_pos rfl, decide_eq_true_iff]
  · rw [if_neg (not_lt.2 h.le), if_neg h.ne]

/-- C26: the mean metallicity of Madau & Fragos is that of today at redshift zero and falls with redshift. -/
theorem C26_madau_mean (zsun : ℝ) (hz : 0 < zsun) :
    Sfh.meanMadau zsun 0 = (10 : ℝ) ^ (0.153 : ℝ) * zsun ∧ ∀ z z' : ℝ, 0 ≤ z → z < z' → Sfh.meanMadau zsun z' < Sfh.meanMadau zsun z := by
  unfold Sfh.meanMadau
  constructor
  · rw [Real.zero_rpow (by norm_num), mul_zero, sub_zero]
  · intro z z' h0 h
    apply mul_lt_mul_of_pos_right _ hz
    apply Real.rpow_lt_rpow_of_exponent_lt (by norm_num)
    have := Real.rpow_lt_rpow h0 h (show (0 : ℝ) < 1.34 by norm_num)
    linarith

/-- C26: limits of metallicity that are refused are refused with a ValueError. -/
theorem C26_limit_error (zmin zmax : Option ℝ) (e : Sfh.Err) (h : Sfh.checkLimits zmin zmax = .error e) : e = .value := by
  unfold Sfh.checkLimits at h
  cases zmin <;> cases zmax <;> dsimp only at h <;> split_ifs at h <;> first | (cases h; rfl) | cases h

/-- C76: at the critical rate the centrifugal acceleration at the equator is the gravity there: `ω² R³ = G M`. -/
theorem C76_critical (c : Spin.Const) (m R : ℝ) (hG : 0 ≤ c.G) (hm : 0 ≤ m) (hs : 0 ≤ c.msol) (hR : 0 < R) (hr : 0 < c.rsol) :
    Spin.critical c m R ^ 2 * (R * c.rsol) ^ 3 = c.G * (m * c.msol) ∧ 0 ≤ Spin.critical c m R := by
  unfold Spin.critical
  have h3 : 0 < (R * c.rsol) ^ 3 := by positivity
  refine ⟨?_, Real.sqrt_nonneg _⟩
  rw [Real.sq_sqrt (by positivity), div_mul_cancel₀ _ h3.ne', mul_assoc]

/-- C118: which entries are left of a column that is longer than the history: the last `n - 1` for `n > 1` rows, one too few; all of them for one row. -/
theorem C118_shorter_rest {α : Type} (a b : List (Option α)) (n : ℕ) (hn : 1 < n) (hb : b.length = n - 1) (ha : 1 < a.length) :
    StepHooks.adjust (a ++ b) n = b ∧ StepHooks.adjust (a ++ b) 1 = a ++ b := by
  have hl : (a ++ b).length = a.length + (n - 1) := by rw [List.length_append, hb]
  constructor
  · unfold StepHooks.adjust StepHooks.lastK
    rw [if_neg (by omega), if_pos (by omega), if_neg (by omega), hl, Nat.add_sub_cancel, List.drop_left]
  · unfold StepHooks.adjust StepHooks.lastK
    rw [if_neg (by omega), if_pos (by omega), if_pos rfl]

example : StepHooks.adjust [some 1, some 2, some 3, some 4] 3 = [some 3, some 4] := by decide

end Verif.Tight
