import Verif.FlowChart
/-!
Model of `flip_stars`, `/repo/posydon/utils/common_functions.py` l.1391-1461.

Simplification: the numpy arrays used for the histories are lists, and masked assignments are maps.  (All strings
written have the length of the ones they replace, so numpy's fixed-width strings do not truncate.)
-/
namespace Verif.Flip

/-- The part of a binary that `flip_stars` reads or writes, plus `mass_transfer_case`, which also names a star.
`S` is the type of stars, `X` of numeric columns. -/
structure Binary (S X : Type) where
  star1 : S
  star2 : S
  state : String
  event : Option String
  stateHistory : List String
  eventHistory : List (Option String)
  tSyncRad1 : X
  tSyncRad2 : X
  tSyncConv1 : X
  tSyncConv2 : X
  rlOverflow1 : X
  rlOverflow2 : X
  tSyncRad1H : List X
  tSyncRad2H : List X
  tSyncConv1H : List X
  tSyncConv2H : List X
  rlOverflow1H : List X
  rlOverflow2H : List X
  massTransferCase : String

/-- l.1410-1414. -/
def flipState (state : String) : String :=
  if state = "RLO1" then "RLO2" else if state = "RLO2" then "RLO1" else state

/-- l.1415-1427: three `if/elif` pairs, all testing the original event. -/
def flipEvent (event : Option String) : Option String :=
  let r0 := event
  let r1 := if event = some "oRLO1" then some "oRLO2" else if event = some "oRLO2" then some "oRLO1" else r0
  let r2 := if event = some "oCE1" then some "oCE2" else if event = some "oCE2" then some "oCE1" else r1
  if event = some "CC1" then some "CC2" else if event = some "CC2" then some "CC1" else r2

/-- l.1437-1448, for one entry of the event history: for each pair both masks are computed first, then both
assignments are made, and the next pair sees the result. -/
def swapEntry (x y : String) (e : Option String) : Option String :=
  let c2 := e = some x
  let c1 := e = some y
  let e1 := if c2 then some y else e
  if c1 then some x else e1

def flipEventEntry (e : Option String) : Option String :=
  swapEntry "oCE1" "oCE2" (swapEntry "oRLO1" "oRLO2" (swapEntry "CC1" "CC2" e))

/-- l.1430-1433. -/
def flipStateEntry (s : String) : String :=
  let c2 := s = "RLO1"
  let c1 := s = "RLO2"
  let s1 := if c2 then "RLO2" else s
  if c1 then "RLO1" else s1

/-- `flip_stars`. -/
def flip {S X : Type} (b : Binary S X) : Binary S X where
  star1 := b.star2
  star2 := b.star1
  state := flipState b.state
  event := flipEvent b.event
  stateHistory := b.stateHistory.map flipStateEntry
  eventHistory := b.eventHistory.map flipEventEntry
  tSyncRad1 := b.tSyncRad2
  tSyncRad2 := b.tSyncRad1
  tSyncConv1 := b.tSyncConv2
  tSyncConv2 := b.tSyncConv1
  rlOverflow1 := b.rlOverflow2
  rlOverflow2 := b.rlOverflow1
  tSyncRad1H := b.tSyncRad2H
  tSyncRad2H := b.tSyncRad1H
  tSyncConv1H := b.tSyncConv2H
  tSyncConv2H := b.tSyncConv1H
  rlOverflow1H := b.rlOverflow2H
  rlOverflow2H := b.rlOverflow1H
  massTransferCase := b.massTransferCase

/-! ### Specification -/

/-- All event names of the flow chart that name a star, paired with the name for the other star. -/
def eventPairs : List (String × String) :=
  [("CC1", "CC2"), ("oRLO1", "oRLO2"), ("oCE1", "oCE2"), ("oDoubleCE1", "oDoubleCE2"),
   ("oMerging1", "oMerging2"), ("Match1", "Match2")]

/-- Relabelled event. -/
def relabelEvent (e : Option String) : Option String :=
  match e with
  | none => none
  | some s =>
    match eventPairs.find? (fun p => p.1 == s || p.2 == s) with
    | some p => some (if p.1 = s then p.2 else p.1)
    | none => some s

/-- Relabelled binary state. -/
def relabelState (s : String) : String :=
  match s with
  | "RLO1" => "RLO2"
  | "RLO2" => "RLO1"
  | s => s

/-- The events whose label `flip_stars` does not know. -/
def forgotten : List String := ["oDoubleCE1", "oDoubleCE2", "oMerging1", "oMerging2", "Match1", "Match2"]

end Verif.Flip
