import Mathlib.Data.Real.Basic
/-!
Model of where the integration of the detached step ends, `/repo/posydon/binary_evol/DT/step_detached.py`: the event functions `ev_max_time1` and
`ev_max_time2` (l.1088-1096), the time span and the events given to `solve_ivp` (l.500-517).

Simplifications: floats are real numbers; the integration steps are parameters, each with the time of the crossing of its overflow event if that is active
(`Verif.Overflow`). As documented for `solve_ivp`, an event of direction -1 is active in a step if its function is not negative before and not positive after
it, and of the active terminal events the one with the earliest root ends the integration (of equal roots the one first in the list).
-/
namespace Verif.TrackEnd

noncomputable section
open Classical

inductive Why | overflow | endSec | endPri | time
  deriving DecidableEq

/-- Age at the end of the track, and the offset between time and age, of a star. -/
structure Star where
  tMax : ℝ
  offset : ℝ

/-- l.288-297: a star of age `t0` on its track when the step begins at `time`. -/
def Star.begin (time t0 tMax : ℝ) : Star := ⟨tMax, time - t0⟩

/-- The age on the track at a time. -/
def Star.age (s : Star) (t : ℝ) : ℝ := t - s.offset

/-- `ev_max_time1`, `ev_max_time2`, l.1088-1096 -/
def evMax (s : Star) (t : ℝ) : ℝ := s.tMax - t + s.offset

/-- The root of the event in a step, if active; the function is linear. -/
def root (s : Star) (t t' : ℝ) : Option ℝ := if 0 ≤ evMax s t ∧ evMax s t' ≤ 0 then some (s.tMax + s.offset) else none

/-- The earlier of an event and the events before it in the list. -/
def earlier (best : Option (ℝ × Why)) (r : Option ℝ) (w : Why) : Option (ℝ × Why) :=
  match r, best with
  | none, b => b
  | some r, none => some (r, w)
  | some r, some b => if r < b.1 then some (r, w) else some b

/-- Time and reason of the end in one step. -/
def inStep (sec pri : Star) (t t' : ℝ) (over : Option ℝ) : Option (ℝ × Why) :=
  earlier (earlier (earlier none over .overflow) (root sec t t') .endSec) (root pri t t') .endPri

/-- Time and reason of the end of the integration from time `t` through its steps, the last of which ends at the time limit. -/
def stop (sec pri : Star) (t : ℝ) : List (ℝ × Option ℝ) → ℝ × Why
  | [] => (t, .time)
  | (t', over) :: rest =>
    match inStep sec pri t t' over with
    | some r => r
    | none => stop sec pri t' rest

/-! ### Specification -/

/-- Times increase, and crossings lie in their steps. -/
def Steps : ℝ → List (ℝ × Option ℝ) → Prop
  | _, [] => True
  | t, (t', over) :: rest => t < t' ∧ (∀ r, over = some r → t ≤ r ∧ r ≤ t') ∧ Steps t' rest

/-- The time limit. -/
def last : ℝ → List (ℝ × Option ℝ) → ℝ
  | t, [] => t
  | _, (t', _) :: rest => last t' rest

end
end Verif.TrackEnd
