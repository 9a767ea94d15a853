import Verif.Orbit
import Verif.FlowChart
/-!
Model of the end of the detached step: `__call__` of `/repo/posydon/binary_evol/DT/step_detached.py`, l.303-314 (Roche-lobe overflow at
the start, no time left), l.334-338 and `solve_ODEs` l.519-523 (failed integration), l.364-470 (state, event and orbit after the
integration).

Simplifications: floats are real numbers; the integration is a parameter (which of the four terminal events fired, and the orbit,
eccentricity and masses at the last recorded time); star states, binary states and events are the enumerations of `FlowChart`;
`FAILED` binaries are the error cases. The profiles and final values read from the track are represented by two flags that say for
which star they were read.
-/
namespace Verif.DetachedEvent
open Verif.FlowChart

noncomputable section
open Classical

inductive Err
  | value           -- no time left, l.312-314
  | numerical       -- failed integration, l.522
  | assertion       -- l.390
  | flow            -- l.419
  | classification  -- l.425
  | posydon         -- l.451
  deriving DecidableEq

/-- The binary when the step starts to interpret the integration. -/
structure In where
  s1 : Star
  s2 : Star
  b : BState
  e : Ev
  secIsOne : Bool      -- the star called `secondary` by the track matching is star 1
  priCO : Bool
  secCO : Bool
  startRLO : Bool      -- ev_rlo1 or ev_rlo2 not negative at the start, and not two compact objects (l.305-307)
  timeLeft : Bool      -- max_time - time > 0 (l.311)
  failed : Bool        -- res.status == -1
  rloSec : Bool        -- the four terminal events, l.366, 405, 430, 456
  rloPri : Bool
  endSec : Bool
  endPri : Bool
  sep : ℝ
  per : ℝ
  ecc : ℝ              -- binary.eccentricity, from the last recorded time
  eEnd : ℝ             -- res.y[1][-1]
  mSec : ℝ
  mPri : ℝ
  mSecEnd : ℝ          -- the masses after the final values of the track were read
  mPriEnd : ℝ
  sameTime : Bool      -- primary_time == secondary_time
  sameAM : Bool        -- RLO_orbit_at_orbit_with_same_am
  hasRLOStep : Bool    -- 'step_HMS_HMS_RLO' in all_step_names
  late : Bool          -- max_simulation_time - time < 0

structure Out where
  b : BState
  e : Ev
  sep : ℝ
  per : ℝ
  ecc : ℝ
  finalSec : Bool
  finalPri : Bool

/-- State of the star called `primary`. -/
def In.priState (i : In) : Star := if i.secIsOne then i.s2 else i.s1

def kept (i : In) : Out := { b := i.b, e := i.e, sep := i.sep, per := i.per, ecc := i.ecc, finalSec := false, finalPri := false }

/-- l.368-376: the factor applied to the separation. -/
def shrink (i : In) : ℝ := if i.sameAM then 1 - i.eEnd ^ 2 else 1 - i.eEnd

/-- l.378-379. -/
def absDiff (i : In) : ℝ :=
  |i.per * shrink i ^ ((3 : ℝ) / 2) - Orbit.periodFromSep (i.sep * shrink i) i.mSec i.mPri| / (i.per * shrink i ^ ((3 : ℝ) / 2))

/-- l.397-411. -/
def rloNames (i : In) : BState × Ev :=
  if i.rloSec then (if i.secIsOne then (.RLO1, .oRLO1) else (.RLO2, .oRLO2))
  else (if i.secIsOne then (.RLO2, .oRLO2) else (.RLO1, .oRLO1))

/-- l.366-425. -/
def afterRLO (i : In) : Except Err Out :=
  if ¬ (absDiff i < 0.01) then .error .assertion
  else if !i.hasRLOStep && ((starHeRichEv.contains i.s1 && starHRichEv.contains i.s2) || (starHRichEv.contains i.s1 && starHeRichEv.contains i.s2)) then
    .error .flow
  else if !i.hasRLOStep && (starHRichEv.contains i.s1 && starHRichEv.contains i.s2) then .error .classification
  else .ok { b := (rloNames i).1, e := (rloNames i).2, sep := i.sep * shrink i, per := i.per * shrink i ^ ((3 : ℝ) / 2), ecc := 0,
             finalSec := false, finalPri := false }

/-- l.430-454. -/
def afterSecEnd (i : In) : Except Err Out :=
  let o := { kept i with e := if i.secIsOne then .CC1 else .CC2, finalSec := true }
  if !i.priCO && starCC.contains i.priState then
    if i.mPriEnd ≠ i.mSecEnd then .error .posydon else .ok { o with finalPri := i.sameTime }
  else .ok o

/-- l.364-470. -/
def finish (i : In) : Except Err Out :=
  if i.priCO && i.secCO then .ok (kept i)
  else if i.rloSec || i.rloPri then afterRLO i
  else if i.endSec then afterSecEnd i
  else if i.endPri then .ok { kept i with e := if i.secIsOne then .CC2 else .CC1, finalPri := true }
  else .ok { kept i with e := if i.late then .MaxTimeExceeded else .maxtime }

/-- l.303-470. -/
def call (i : In) : Except Err Out :=
  if i.startRLO then .ok { kept i with b := .initialRLOF }
  else if !i.timeLeft then .error .value
  else if i.failed then .error .numerical
  else finish i

/-! ### Specification -/

/-- The number of the star called `secondary` / `primary`. -/
def In.secNo (i : In) : Nat := if i.secIsOne then 1 else 2
def In.priNo (i : In) : Nat := if i.secIsOne then 2 else 1

/-- The star a binary state or an event speaks about. -/
def stateStar : BState → Option Nat
  | .RLO1 => some 1 | .RLO2 => some 2 | _ => none

def eventStar : Ev → Option Nat
  | .oRLO1 | .CC1 => some 1 | .oRLO2 | .CC2 => some 2 | _ => none

/-- The same binary with the labels of the stars exchanged. -/
def In.mirror (i : In) : In := { i with s1 := i.s2, s2 := i.s1, secIsOne := !i.secIsOne, b := i.b.mirror, e := i.e.mirror }
def Out.mirror (o : Out) : Out := { o with b := o.b.mirror, e := o.e.mirror }

def mirrorR (r : Except Err Out) : Except Err Out :=
  match r with
  | .ok o => .ok o.mirror
  | .error e => .error e

/-- Orbital angular momentum and periastron distance, up to factors that do not depend on the orbit. -/
def angMom (a e : ℝ) : ℝ := Real.sqrt (a * (1 - e ^ 2))
def periastron (a e : ℝ) : ℝ := a * (1 - e)

end
end Verif.DetachedEvent
