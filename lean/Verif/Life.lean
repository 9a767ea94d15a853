import Verif.FlowChartProps
import Verif.MesaProps
import Verif.MTCaseProps
import Verif.CEProps
import Verif.SNStepProps
import Verif.MergedProps
import Verif.DoubleCO
import Verif.DetachedEvent
/-!
Model of whole evolutions: the loop of `BinaryStar.evolve` (`/repo/posydon/binary_evol/binarystar.py` l.219-253) with the default flow chart
(`flow_chart.py` l.186-359) and the steps themselves, each by its own model: the grid steps (`Verif.Mesa`, with state and event of the last
model from `Verif.MTCase`), the detached step (`Verif.DetachedEvent`), the steps of stars without a companion, the common envelope
(`Verif.CE`), the merger (`Verif.Merged`), the supernova (`Verif.SNStep`) and two compact objects (`Verif.DoubleCO`).

What is kept of a binary between two steps is what the flow chart reads: the states of the stars, the state and the event of the binary.
Everything else (masses, orbits, tracks, random numbers, options) is any value at every step, so that the model has more evolutions than
the code.  Assumed of the data: the classification of a star that is not compact gives a state of such a star that the flow chart
knows, a track is that of a star of the same kind (star, compact object, nothing), a compact companion of a star that collapses has a mass, and a star without a companion does not fill the Roche lobe of the
very wide orbit it is given (`Verif.Isolated`, C79).  Exceptions end an evolution.
-/
namespace Verif.Life

open Verif.FlowChart
open Verif.MTCase (bstateName)

/-! ### Kinds of stars -/

/-- What is left of a star: 2 a star, 1 a compact object, 0 nothing. -/
def rank (s : Star) : ℕ := if isNormal s then 2 else if isCO s then 1 else 0

/-- The names of events, flow_chart.py l.150-173. -/
def evName : Ev → Option String
  | .none => Option.none
  | .CC1 => some "CC1" | .CC2 => some "CC2" | .ZAMS => some "ZAMS" | .oRLO1 => some "oRLO1" | .oRLO2 => some "oRLO2"
  | .oCE1 => some "oCE1" | .oCE2 => some "oCE2" | .oDoubleCE1 => some "oDoubleCE1" | .oDoubleCE2 => some "oDoubleCE2"
  | .COcontact => some "CO_contact" | .rZAMS => some "redirect_from_ZAMS" | .rCOHMSRLO => some "redirect_from_CO_HMS_RLO"
  | .rCOHeMS => some "redirect_from_CO_HeMS" | .rCOHeMSRLO => some "redirect_from_CO_HeMS_RLO" | .MaxTimeExceeded => some "MaxTime_exceeded"
  | .maxtime => some "maxtime" | .oMerging1 => some "oMerging1" | .oMerging2 => some "oMerging2" | .Match1 => some "Match1"
  | .Match2 => some "Match2" | .Match12 => some "Match12"

/-! ### Grid steps -/

/-- The binary in the order of the grid. -/
def turn (flip : Bool) (k : Key) : Key := if flip then k.mirror else k

/-- `MesaGridStep.__call__` for an accepted binary, step_mesa.py l.358-442: no track (l.374-378), or state and event of the last model for the
class of the run (l.502-506, 732-736, 972-976, 1252-1256), with the event of the time limit if that is reached (l.434-437). -/
def Track (flip : Bool) (k k' : Key) : Prop :=
  k' = ⟨k.s1, k.s2, .initialRLOF, k.e⟩ ∨
  ∃ (cls : MTCase.Cls) (x : MTCase.BinIn) (m : Key), rank m.s1 = rank (turn flip k).s1 ∧ rank m.s2 = rank (turn flip k).s2 ∧
    x.state1 = m.s1.name ∧ x.state2 = m.s2.name ∧ (MTCase.stateEvent cls x).1 = some (bstateName m.b) ∧ (MTCase.stateEvent cls x).2.1 = evName m.e ∧
    (k' = turn flip m ∨ k' = { turn flip m with e := .maxtime } ∨ k' = { turn flip m with e := .MaxTimeExceeded })

/-- A grid step with the dispatch `D`. -/
def Grid (D : Mesa.View → Mesa.Out) (k k' : Key) : Prop :=
  ∃ v : Mesa.View, v.s1 = k.s1 ∧ v.s2 = k.s2 ∧ v.e = k.e ∧
    ((∃ nb ne, D v = .next nb ne ∧ k' = ⟨k.s1, k.s2, nb.getD k.b, ne⟩) ∨ ∃ flip, D v = .run flip ∧ Track flip k k')

/-! ### The other steps -/

/-- The detached step; `alone`: in an orbit too wide for any overflow. -/
def Detach (alone : Bool) (k k' : Key) : Prop :=
  ∃ (i : DetachedEvent.In) (o : DetachedEvent.Out), DetachedEvent.call i = .ok o ∧ i.b = k.b ∧ i.e = k.e ∧ rank i.s1 = rank k.s1 ∧ rank i.s2 = rank k.s2 ∧
    (i.priCO && i.secCO) = (!isNormal k.s1 && !isNormal k.s2) ∧
    (alone = true → i.startRLO = false ∧ i.rloSec = false ∧ i.rloPri = false) ∧ k' = ⟨i.s1, i.s2, o.b, o.e⟩

/-- The common envelope. -/
def Envelope (k k' : Key) : Prop :=
  ∃ (c : CE.Cfg) (b b' : CE.Binary), CE.step c b = .ok b' ∧ (∀ s, isNormal (c.classify s) = true) ∧
    k = ⟨b.star1.state, b.star2.state, b.state, b.event⟩ ∧ k' = ⟨b'.star1.state, b'.star2.state, b'.state, b'.event⟩

/-- The merger, followed by the isolated evolution of the product (step_merged.py l.99-123). -/
def Merger (k k' : Key) : Prop :=
  ∃ (c : Merged.Cfg) (b b' : Merged.Binary) (m : Key), Merged.call c b = .ok b' ∧ b.star1.state = some k.s1 ∧ b.star2.state = some k.s2 ∧ b.state = k.b ∧
    b.event = k.e ∧ b'.star1.state = some m.s1 ∧ b'.star2.state = some m.s2 ∧ b'.state = m.b ∧ b'.event = m.e ∧ Detach true m k'

/-- Events of the supernova step. -/
def snEvent : SNStep.Event → Option Ev
  | .none => some .none
  | .CC1 => some .CC1
  | .CC2 => some .CC2
  | .other _ => Option.none

/-- The supernova. -/
def Supernova (kick : Bool) (k k' : Key) : Prop :=
  ∃ (c : SNStep.Cfg) (b b' : SNStep.Binary), c.kick = kick ∧ SNStep.step c b = .ok b' ∧ (∀ s, ∃ x, isNormal x = true ∧ c.classify s = x.name) ∧
    ((b.mate b.event).state ∈ SNStep.statesCO → 0 < (b.mate b.event).mass) ∧
    b.s1.state = k.s1.name ∧ b.s2.state = k.s2.name ∧ b.state = bstateName k.b ∧ snEvent b.event = some k.e ∧
    b'.s1.state = k'.s1.name ∧ b'.s2.state = k'.s2.name ∧ b'.state = bstateName k'.b ∧ snEvent b'.event = some k'.e

/-- State and event after the step of two compact objects. -/
def dcoKey (k : Key) (o : DoubleCO.Out) : Key :=
  ⟨k.s1, k.s2, match o.b with | .kept => k.b | .contact => .contact | .detached => .detached,
    match o.e with | .kept => k.e | .coContact => .COcontact | .maxtime => .maxtime⟩

/-- Two compact objects. -/
def Inspiral (k k' : Key) : Prop :=
  ∃ (i : DoubleCO.In) (l tau : ℝ → ℝ) (r : DoubleCO.Res) (o : DoubleCO.Out), DoubleCO.step i l tau r = .ok o ∧ k' = dcoKey k o

/-- What a step may do to a binary; `kick`: kicks are switched on. -/
def Take (kick : Bool) (st : Step) (k k' : Key) : Prop :=
  match st with
  | .detached => Detach false k k'
  | .disrupted => (k.b = .single ∨ k.b = .merged ∨ k.b = .disrupted) ∧ Detach true k k'
  | .initiallySingle => k.b = .single ∧ Detach true k k'
  | .CE => Envelope k k'
  | .merged => Merger k k'
  | .SN => Supernova kick k k'
  | .dco => Inspiral k k'
  | .endStep => False
  | st => ∃ g D, Mesa.stepOf g st = some D ∧ Grid D k k'

/-- A part of an evolution: the steps, in order, each chosen by the flow chart. -/
inductive Path (kick : Bool) : Key → List Step → Key → Prop
  | nil (k : Key) : Path kick k [] k
  | cons {k m k' : Key} {st : Step} {l : List Step} (h : defaultChart k = some st) (ht : Take kick st k m) (hp : Path kick m l k') : Path kick k (st :: l) k'

/-! ### Specification -/

/-- Stars that are neither compact nor gone. -/
def normals (k : Key) : ℕ := (if isNormal k.s1 then 1 else 0) + (if isNormal k.s2 then 1 else 0)

/-- Stars that are not gone. -/
def present (k : Key) : ℕ := (if k.s1 = .massless then 0 else 1) + (if k.s2 = .massless then 0 else 1)

/-- Stars without a companion. -/
def Alone (b : BState) : Prop := b = .single ∨ b = .merged ∨ b = .disrupted

/-- Why an evolution may have no next step: a star is to collapse that is not in a state to do so; mass transfer ended with the track and without an
event; a star fills its Roche lobe next to a star that is not compact, or is itself compact, at the end of its life or an accretor that
burns helium; an envelope is to be ejected by a star that is none; next to a compact object there is a stripped star at the end of its life. -/
def Stuck (k : Key) : Prop :=
  (k.e = .CC1 ∧ canCollapse k.s1 = false) ∨ (k.e = .CC2 ∧ canCollapse k.s2 = false) ∨
  ((k.b = .RLO1 ∨ k.b = .RLO2 ∨ k.b = .contact) ∧ k.e = .none) ∨
  (k.b = .RLO1 ∧ k.e = .oRLO1 ∧ (isCO k.s2 = false ∨ isNormal k.s1 = false ∨ isCDepleted k.s1 = true)) ∨
  (k.b = .RLO2 ∧ k.e = .oRLO2 ∧ (isCO k.s1 = false ∨ isNormal k.s2 = false ∨ isCDepleted k.s2 = true)) ∨
  ((k.e = .oCE1 ∨ k.e = .oCE2 ∨ k.e = .oDoubleCE1 ∨ k.e = .oDoubleCE2) ∧ (isNormal k.s1 = false ∨ isNormal k.s2 = false)) ∨
  (k.b = .detached ∧ k.e = .none ∧ ((isCO k.s1 = true ∧ k.s2 = .sCoreCDep) ∨ (k.s1 = .sCoreCDep ∧ isCO k.s2 = true)))

instance (k : Key) : Decidable (Stuck k) := by unfold Stuck; infer_instance

/-- A binary as it is given to the code: a star that is gone belongs to stars without a companion, and a single star or the product of a merger
has none. -/
structure Sound (k : Key) : Prop where
  gone : k.s1 = .massless ∨ k.s2 = .massless → Alone k.b
  one : k.b = .single ∨ (k.b = .merged ∧ k.e ≠ .oMerging1 ∧ k.e ≠ .oMerging2) → present k ≤ 1

/-- State and event after a step. -/
def usual : List (BState × Ev) :=
  [(.detached, .none), (.disrupted, .none), (.RLO1, .none), (.RLO2, .none), (.contact, .none), (.RLO1, .oRLO1), (.RLO2, .oRLO2), (.RLO1, .oCE1),
   (.RLO2, .oCE2), (.contact, .oCE1), (.contact, .oCE2), (.contact, .oDoubleCE1), (.contact, .oDoubleCE2), (.merged, .oMerging1), (.merged, .oMerging2)]

/-- A collapse, an end, or state and event of `usual`. -/
def Usual (b : BState) (e : Ev) : Prop :=
  e = .CC1 ∨ e = .CC2 ∨ e = .maxtime ∨ e = .MaxTimeExceeded ∨ e = .COcontact ∨ b = .initialRLOF ∨ (b, e) ∈ usual

end Verif.Life
