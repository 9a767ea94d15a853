import Verif.Orbit
/-!
Model of the search for Roche-lobe overflow in the detached step, `/repo/posydon/binary_evol/DT/step_detached.py`: the event functions `ev_rlo1`,
`ev_rlo2`, `ev_rel_rlo1`, `ev_rel_rlo2` (l.905-1086), the check at the start (l.305-309), the integration with events (l.500-517) and the recorded relative
overflow (l.666-673).

Simplifications: floats are real numbers, NaN is `none`; the radii and masses of the interpolated tracks and the solution of the differential equations are
parameters. Of `solve_ivp` only its documented search for events is modelled: an event of direction 1 is active in an integration step if its function is not
positive before and not negative after the step, and the integration stops in the first step with an active terminal event. The events at the ends of the
tracks (l.1088-1096) end the list of integration steps.
-/
namespace Verif.Overflow

open Verif.Orbit

noncomputable section
open Classical

/-- Masses and radii of the tracks and the orbit at one time. -/
structure Snap where
  mPri : ℝ
  mSec : ℝ
  rPri : ℝ
  rSec : ℝ
  sep : ℝ
  ecc : ℝ

/-- `RL` in `ev_rlo1` and `ev_rel_rlo1` (l.946, 1040). -/
def lobeSec (s : Snap) : Option ℝ := rocheLobe s.mSec s.mPri ((1 - s.ecc) * s.sep)

/-- `RL` in `ev_rlo2` and `ev_rel_rlo2` (l.995, 1084). -/
def lobePri (s : Snap) : Option ℝ := rocheLobe s.mPri s.mSec ((1 - s.ecc) * s.sep)

/-- `ev_rlo1`, l.906-951 -/
def rlo1 (s : Snap) : Option ℝ := (lobeSec s).map fun l => s.rSec - 0.95 * l

/-- `ev_rlo2`, l.954-997 -/
def rlo2 (s : Snap) : Option ℝ := (lobePri s).map fun l => s.rPri - 0.95 * l

/-- `ev_rel_rlo1`, l.1000-1042 -/
def rel1 (s : Snap) : Option ℝ := (lobeSec s).map fun l => (s.rSec - l) / l

/-- `ev_rel_rlo2`, l.1045-1086 -/
def rel2 (s : Snap) : Option ℝ := (lobePri s).map fun l => (s.rPri - l) / l

/-- `x >= 0`, false for NaN -/
def nonneg (x : Option ℝ) : Prop := ∃ r, x = some r ∧ 0 ≤ r

/-- `x <= 0`, false for NaN -/
def nonpos (x : Option ℝ) : Prop := ∃ r, x = some r ∧ r ≤ 0

/-- l.305-307: the binary is refused. -/
def refused (onlyCO : Bool) (s : Snap) : Prop := (nonneg (rlo1 s) ∨ nonneg (rlo2 s)) ∧ onlyCO = false

/-- Which of the two events are active in an integration step. -/
structure Active where
  sec : Bool
  pri : Bool
  deriving DecidableEq

/-- `find_active_events` of scipy for the two events, both of direction 1. -/
def active (s s' : Snap) : Active :=
  ⟨decide (nonpos (rlo1 s) ∧ nonneg (rlo1 s')), decide (nonpos (rlo2 s) ∧ nonneg (rlo2 s'))⟩

/-- The integration steps from `s` on: the first one with an active event, with the number of the steps before it. -/
def run (s : Snap) : List Snap → Option (ℕ × Active)
  | [] => none
  | s' :: rest =>
    if active s s' = ⟨false, false⟩ then (run s' rest).map fun r => (r.1 + 1, r.2) else some (0, active s s')

/-- l.666-673: the column `rl_relative_overflow_1` (`one`) or `_2`; `secIsOne`: the star called secondary is star 1. -/
def recorded (secIsOne one : Bool) (s : Snap) : Option ℝ :=
  if one then (if secIsOne then rel1 s else rel2 s) else (if secIsOne then rel2 s else rel1 s)

/-! ### Specification -/

/-- Masses are positive and the orbit is an ellipse. -/
def Physical (s : Snap) : Prop := 0 < s.mPri ∧ 0 < s.mSec ∧ 0 < s.sep ∧ s.ecc < 1

/-- The radius is less than the fraction `x` of Eggleton's lobe, of a star of mass `m` with a companion of mass `m'`, at a distance. -/
def Within (x r m m' dist : ℝ) : Prop := r < x * (dist * eggleton (m / m'))

/-- Both stars lie inside 95% of their lobes at periastron. -/
def Inside (s : Snap) : Prop :=
  Within 0.95 s.rSec s.mSec s.mPri (s.sep * (1 - s.ecc)) ∧ Within 0.95 s.rPri s.mPri s.mSec (s.sep * (1 - s.ecc))

/-- The same binary with the names of the stars exchanged. -/
def Snap.mirror (s : Snap) : Snap := ⟨s.mSec, s.mPri, s.rSec, s.rPri, s.sep, s.ecc⟩

end
end Verif.Overflow
