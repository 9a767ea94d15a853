import Verif.LifeProps
import Verif.Chars
import Verif.Frame
/-!
Model of evolutions with other flow charts than the default one: charts given by the user (`flow_chart`,
`/repo/posydon/binary_evol/flow_chart.py` l.361-400), the chart of binaries that are born eccentric
(`initial_eccentricity_flow_chart`, l.403-446, modelled in `Verif.FlowChart`) and the example of a chart of one's own
(`/repo/posydon/user_modules/my_flow_chart_example.py` l.12-56).  The steps are those of `Verif.Life`.

Simplified: the keys of a chart are those of the enumerations of `Verif.FlowChart`, except in `editRaw`, where a key is any tuple of names
and `None`.
-/
namespace Verif.Charts

open Verif.FlowChart
open Verif.Life

/-- The loop of `BinaryStar.evolve` (binarystar.py l.219-253) with the flow chart `c`. -/
inductive Route (c : Chart) (kick : Bool) : Key → List Step → Key → Prop
  | nil (k : Key) : Route c kick k [] k
  | cons {k m k' : Key} {st : Step} {l : List Step} (h : c k = some st) (ht : Take kick st k m) (hp : Route c kick m l k') : Route c kick k (st :: l) k'

/-- The names of the states of a binary, flow_chart.py l.137-146. -/
def stateChars : BState → List Char
  | .single => (chars! "initially_single_star") | .detached => (chars! "detached") | .RLO1 => (chars! "RLO1") | .RLO2 => (chars! "RLO2")
  | .contact => (chars! "contact") | .disrupted => (chars! "disrupted") | .merged => (chars! "merged") | .initialRLOF => (chars! "initial_RLOF")

/-- The names of the events that are compared. -/
def zamsChars : List Char := (chars! "ZAMS")

/-- The two tests on one entry of the chart, my_flow_chart_example.py l.41-46, on keys that are tuples of names and `None`: `none` is the
`TypeError` of `'RLO' in None`.  The result is the new value of the entry. -/
def editRaw (key : List (Option (List Char))) (v : Step) : Option Step :=
  match key with
  | _ :: _ :: s :: e :: _ =>
    let v := if e = some zamsChars ∧ s = some (stateChars .detached) then .detached else v
    match s with
    | none => none
    | some s => some (if Frame.isIn (chars! "RLO") s then .endStep else v)
  | [_, _, s] =>
    match s with
    | none => none
    | some s => some (if Frame.isIn (chars! "RLO") s then .endStep else v)
  | _ => some v

/-- The same for the keys of `Verif.FlowChart`, l.39-46 (`BINARY_STATES_ZAMS` is `['detached']`, flow_chart.py l.190). -/
def edit (k : Key) (v : Step) : Step :=
  let v := if k.e == .ZAMS && [BState.detached].contains k.b then .detached else v
  if Frame.isIn (chars! "RLO") (stateChars k.b) then .endStep else v

/-- `modified_flow_chart(FLOW_CHART, CHANGE_FLOW_CHART)`, l.12-56. -/
def modified (base change : Option Chart) : Chart :=
  -- l.27-37
  let fc := flowChart base change
  -- l.39-46
  let fc1 : Chart := fun k => (fc k).map (edit k)
  -- l.49-54
  runLoops [wr starNormal starNormal .RLO1 .oRLO1 .endStep, wr starNormal starNormal .RLO1 .oRLO1 .endStep,
    wr starNormal starNormal .RLO2 .oRLO2 .endStep, wr starNormal starNormal .RLO2 .oRLO2 .endStep] fc1

/-! ### Specification -/

/-- A chart that does not merge a compact object or nothing with nothing. -/
def Rests (c : Chart) : Prop := ∀ k, isDead k.s1 k.s2 = true → c k ≠ some .merged

/-- A star fills its Roche lobe. -/
def Overflow (b : BState) : Prop := b = .RLO1 ∨ b = .RLO2 ∨ b = .initialRLOF

instance (b : BState) : Decidable (Overflow b) := by unfold Overflow; infer_instance

/-- Overflow between two stars that are not compact begins. -/
def Begins (k : Key) : Prop :=
  isNormal k.s1 = true ∧ isNormal k.s2 = true ∧ ((k.b = .RLO1 ∧ k.e = .oRLO1) ∨ (k.b = .RLO2 ∧ k.e = .oRLO2))

instance (k : Key) : Decidable (Begins k) := by unfold Begins; infer_instance

end Verif.Charts
