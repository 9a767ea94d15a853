import Verif.SimProps
import Mathlib.Tactic.Common
/-!
Model of how a population sets the metallicity and the time limit of the properties it is given:
`/repo/posydon/popsyn/binarypopulation.py`, `STEP_NAMES_LOADING_GRIDS` (l.106-110), `BinaryPopulation.__init__` (l.136-153) and `_safe_evolve` (l.297-309),
on top of `SimProps.loadSteps`.

Simplifications: the properties object is passed on from one population to the next (it is one object in Python); only metallicities, the time limit and
whether the steps are loaded are kept.
-/
namespace Verif.PopShare

open Verif.SimProps

/-- `STEP_NAMES_LOADING_GRIDS`. -/
def gridSteps : List String := ["step_HMS_HMS", "step_CO_HeMS", "step_CO_HMS_RLO", "step_CO_HeMS_RLO", "step_HMS_HMS_RLO", "step_detached", "step_isolated",
  "step_disrupted", "step_initially_single", "step_merged", "step_CE", "step_dco"]

/-- The properties: the steps with their options, the time limit, and the metallicities the loaded steps were made with. -/
structure Shared where
  steps : List StepCfg
  limit : Rat
  loaded : Option (List (Option Rat))

/-- Setting `metallicity` in the options of the steps that load grids, l.147-149 and l.299-307. -/
def setMet (z : Rat) (ss : List StepCfg) : List StepCfg :=
  ss.map fun s => if s.name ∈ gridSteps then { s with met := some (some z) } else s

/-- A population: its metallicity and its time limit. -/
structure Pop where
  met : Rat
  limit : Rat

/-- `BinaryPopulation.__init__`, l.147-153. -/
def create (p : Pop) (sh : Shared) : Shared := { sh with steps := setMet p.met sh.steps, limit := p.limit }

/-- `_safe_evolve`, l.297-309: the metallicities of the steps the binaries meet, and the properties afterwards. -/
def evolve (p : Pop) (sh : Shared) : Shared :=
  match sh.loaded with
  | some _ => sh
  | none =>
    let ss := setMet p.met sh.steps
    let r := loadSteps none ss
    { sh with steps := r.2, loaded := some r.1 }

/-- Specification: a step that takes a metallicity has that of the population. -/
def Meets (z : Rat) (s : StepCfg) (got : Option Rat) : Prop := s.usesMet = true → got = some z

end Verif.PopShare
