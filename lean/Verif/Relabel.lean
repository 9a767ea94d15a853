import Verif.EvolveProps
import Verif.Life
/-!
Exchanging the labels of the two stars in a whole evolution: the loop of `BinaryStar.evolve` (`Verif.Evolve`, `/repo/posydon/binary_evol/binarystar.py`
l.219-314) run for a binary and for the same binary with its stars exchanged.

The exchange is a specification: it swaps the stars, the columns that carry the number of a star, and the numbers in the names of states and
events (`flow_chart.py` l.131-173), in the attributes and in the recorded histories. How the label of the mass-transfer case is exchanged is any map `mt`.
The steps and hooks are parameters here; that the steps commute with the exchange is proved for each of them (`C34_mirror_partial`, `C35_mirror`,
`C36_mirror`, `C67_mirror`, `C73_mirror`), and where they do not is `C68_zams_mirror_violated`, `C68_hms_rlo_mirror_violated`.
-/
namespace Verif.Relabel
open Verif.Evolve

/-- Names with a number of a star, and the name with the other number. -/
def pairs : List (String × String) :=
  [("CC1", "CC2"), ("oRLO1", "oRLO2"), ("oCE1", "oCE2"), ("oDoubleCE1", "oDoubleCE2"), ("oMerging1", "oMerging2"), ("Match1", "Match2"),
   ("RLO1", "RLO2"), ("rl_relative_overflow_1", "rl_relative_overflow_2"), ("t_sync_rad_1", "t_sync_rad_2"), ("t_sync_conv_1", "t_sync_conv_2")]

/-- A name with the number of the other star. -/
def swapIn : List (String × String) → String → String
  | [], s => s
  | (x, y) :: l, s => if s = x then y else if s = y then x else swapIn l s

def swapText (s : String) : String := swapIn pairs s

/-- The value of the column `c` after the exchange. -/
def swapVal (mt : Val → Val) (c : String) (v : Val) : Val :=
  if c = "mass_transfer_case" then mt v
  else if c = "state" ∨ c = "event" then (match v with | .str s => .str (swapText s) | v => v)
  else v

/-- The binary with its stars exchanged. -/
def mirror (mt : Val → Val) (b : Binary) : Binary where
  attr c := swapVal mt c (b.attr (swapText c))
  hist c := (b.hist (swapText c)).map (swapVal mt c)
  s1 := b.s2
  s2 := b.s1
  verbose := b.verbose

def mirrorR (mt : Val → Val) (r : Res) : Res := (mirror mt r.1, r.2)

/-- How an evolution ends, for the exchanged binary. -/
def mirrorResult (mt : Val → Val) : Result → Result
  | .ok b n => .ok (mirror mt b) n
  | .preEvolveError b e => .preEvolveError (mirror mt b) e
  | .bornTooLate b e => .bornTooLate (mirror mt b) e
  | .stepError b n e => .stepError (mirror mt b) n e
  | .limitError b n => .limitError (mirror mt b) n
  | .postEvolveError b n e => .postEvolveError (mirror mt b) n e

/-- The hooks, the age limit and the names that end an evolution do not depend on the labels. -/
structure Neutral (mt : Val → Val) (P : Props) : Prop where
  pre : ∀ b, P.preEvolve (mirror mt b) = mirrorR mt (P.preEvolve b)
  post : ∀ b, P.postEvolve (mirror mt b) = mirrorR mt (P.postEvolve b)
  hooks : ∀ n b, P.postStepHooks n (mirror mt b) = mirrorR mt (P.postStepHooks n b)
  old : ∀ b, P.tooOld (mirror mt b) = P.tooOld b
  events : ∀ s, Val.str (swapText s) ∈ P.endEvents ↔ Val.str s ∈ P.endEvents
  states : ∀ s, Val.str (swapText s) ∈ P.endStates ↔ Val.str s ∈ P.endStates

/-- At this binary the chart and the chosen step do not depend on the labels. -/
structure SymAt (mt : Val → Val) (P : Props) (b : Binary) : Prop where
  undef : P.undefined (mirror mt b).total = P.undefined b.total
  flow : P.flow (mirror mt b).total = P.flow b.total
  step : ∀ n st, P.flow b.total = some n → P.step n = some st →
    (P.preStep n (mirror mt b)).andThen st = mirrorR mt ((P.preStep n b).andThen st)

/-- State and event of a binary as the chart reads them. -/
def totalOf (k : FlowChart.Key) : Total :=
  (.str k.s1.name, .str k.s2.name, .str (MTCase.bstateName k.b), match Life.evName k.e with | some s => .str s | none => .none)

/-- The properties use the default flow chart; `nm` are the names of the steps. -/
def Follows (nm : FlowChart.Step → String) (P : Props) : Prop := ∀ k, P.flow (totalOf k) = (FlowChart.defaultChart k).map nm

end Verif.Relabel
