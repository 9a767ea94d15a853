import Verif.Orbit
import Verif.FlowChart
/-!
Model of the steps for stars without a companion: `IsolatedStep` (`/repo/posydon/binary_evol/DT/step_isolated.py` l.33-71),
`DisruptedStep` (`step_disrupted.py` l.33-44), `InitiallySingleStep` (`step_initially_single.py` l.34-39), and of the last step
(`/repo/posydon/binary_evol/step_end.py` l.14-18 with `BinaryStar.update_star_states`, binarystar.py l.403-410).

Simplification: floats are reals and `NaN` is `none`; the detached step these steps call is a parameter that changes the binary and
may raise; only the attributes used here are kept; the classification of a star is a parameter.
-/
namespace Verif.Isolated
open Verif.FlowChart Verif.Orbit

inductive Err | flow | attribute | inner deriving DecidableEq

/-- An event of the flow chart, or `END`. -/
inductive Event | ev (e : Ev) | END deriving DecidableEq

/-- The attributes used; the orbit is `none` for `NaN`. -/
structure Bin where
  b : BState
  e : Event
  s1 : Star
  s2 : Star
  m1 : ℝ
  m2 : ℝ
  per : Option ℝ
  ecc : Option ℝ
  sep : Option ℝ

/-- The detached step: the binary afterwards, and whether it raised. -/
abbrev Detached := Bin → Bin × Bool

/-- `initialize_isolated_binary_orbit`, l.61-65. -/
noncomputable def widen (x : Bin) : Bin :=
  { x with per := some (10 ^ 99), ecc := some 0, sep := some (sepFromPeriod (10 ^ 99) x.m1 x.m2) }

/-- `re_erase_isolated_binary_orbit`, l.67-71. -/
def erase (x : Bin) : Bin := { x with per := none, ecc := none, sep := none }

/-- `IsolatedStep.__call__`, l.33-58 (also `DisruptedStep.__call__`). -/
noncomputable def isolated (D : Detached) (x : Bin) : Bin × Option Err :=
  let y := widen x
  if y.b = .single ∨ y.b = .merged ∨ y.b = .disrupted then
    match D y with
    | (z, true) => (z, some .inner)
    | (z, false) => (erase z, none)
  else (y, some .flow)

/-- `InitiallySingleStep.__call__`, l.34-39; `binary.event == None` only compares. -/
noncomputable def initiallySingle (D : Detached) (x : Bin) : Bin × Option Err :=
  if x.b ≠ .single then (x, some .attribute) else isolated D x

/-- `update_star_states`, binarystar.py l.403-410; `classify s co` is `check_state_of_star`. -/
def updateStates (classify : Bool → Star → Bool → Star) (x : Bin) : Bin :=
  let isCO (s : Star) : Bool := s = .WD ∨ s = .NS ∨ s = .BH
  { x with s1 := if x.s1 = .massless then x.s1 else classify true x.s1 (isCO x.s1)
           s2 := if x.s2 = .massless then x.s2 else classify false x.s2 (isCO x.s2) }

/-- `step_end.__call__`, l.14-18. -/
def stepEnd (classify : Bool → Star → Bool → Star) (x : Bin) : Bin :=
  { (if x.b = .disrupted then updateStates classify x else x) with e := .END }

/-- The overflow test at the start of the detached step for one star of radius `r` (step_detached.py l.305-307, 946-951): false if
the Roche lobe is `NaN`. -/
def overflows (r m mc : ℝ) (x : Bin) : Prop :=
  match x.sep, x.ecc with
  | some a, some e => match rocheLobe m mc ((1 - e) * a) with | some rl => 0 ≤ r - 0.95 * rl | none => False
  | _, _ => False

end Verif.Isolated
