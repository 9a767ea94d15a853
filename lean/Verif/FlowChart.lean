/-!
# Model of `posydon/binary_evol/flow_chart.py`

The default flow chart is a Python dictionary filled by a sequence of nested loops, later loops
overwriting earlier ones.  Strings used as enumerations become inductive types with exactly the
listed members.
-/
namespace Verif.FlowChart

/-- `STAR_STATES_ALL`, flow_chart.py l.19-40 (same order). -/
inductive Star
  | WD | NS | BH | massless
  | hCoreH | hCoreHe | hShellH | hCoreHeDep | hShellHe | hCoreC | hCoreCDep | hNon
  | aCoreH | aShellH | aNon | aCoreHe
  | sCoreHe | sCoreHeDep | sCoreCDep | sNon
  deriving DecidableEq, Repr

/-- All members, in source order. -/
def Star.all : List Star :=
  [.WD, .NS, .BH, .massless, .hCoreH, .hCoreHe, .hShellH, .hCoreHeDep, .hShellHe, .hCoreC,
   .hCoreCDep, .hNon, .aCoreH, .aShellH, .aNon, .aCoreHe, .sCoreHe, .sCoreHeDep, .sCoreCDep, .sNon]

/-- The Python string of each star state (flow_chart.py l.19-40). -/
def Star.name : Star → String
  | .WD => "WD" | .NS => "NS" | .BH => "BH" | .massless => "massless_remnant"
  | .hCoreH => "H-rich_Core_H_burning" | .hCoreHe => "H-rich_Core_He_burning"
  | .hShellH => "H-rich_Shell_H_burning" | .hCoreHeDep => "H-rich_Core_He_depleted"
  | .hShellHe => "H-rich_Shell_He_burning" | .hCoreC => "H-rich_Core_C_burning"
  | .hCoreCDep => "H-rich_Core_C_depleted" | .hNon => "H-rich_non_burning"
  | .aCoreH => "accreted_He_Core_H_burning" | .aShellH => "accreted_He_Shell_H_burning"
  | .aNon => "accreted_He_non_burning" | .aCoreHe => "accreted_He_Core_He_burning"
  | .sCoreHe => "stripped_He_Core_He_burning" | .sCoreHeDep => "stripped_He_Core_He_depleted"
  | .sCoreCDep => "stripped_He_Core_C_depleted" | .sNon => "stripped_He_non_burning"

/-- `BINARY_STATES_ALL`, flow_chart.py l.137-146. -/
inductive BState
  | single | detached | RLO1 | RLO2 | contact | disrupted | merged | initialRLOF
  deriving DecidableEq, Repr

def BState.all : List BState :=
  [.single, .detached, .RLO1, .RLO2, .contact, .disrupted, .merged, .initialRLOF]

/-- `BINARY_EVENTS_ALL`, flow_chart.py l.150-173 (`none` is Python's `None`). -/
inductive Ev
  | none | CC1 | CC2 | ZAMS | oRLO1 | oRLO2 | oCE1 | oCE2 | oDoubleCE1 | oDoubleCE2 | COcontact
  | rZAMS | rCOHMSRLO | rCOHeMS | rCOHeMSRLO | MaxTimeExceeded | maxtime | oMerging1 | oMerging2
  | Match1 | Match2 | Match12
  deriving DecidableEq, Repr

def Ev.all : List Ev :=
  [.none, .CC1, .CC2, .ZAMS, .oRLO1, .oRLO2, .oCE1, .oCE2, .oDoubleCE1, .oDoubleCE2, .COcontact,
   .rZAMS, .rCOHMSRLO, .rCOHeMS, .rCOHeMSRLO, .MaxTimeExceeded, .maxtime, .oMerging1, .oMerging2,
   .Match1, .Match2, .Match12]

/-- Step names that occur as values of the default chart (flow_chart.py l.186-359). -/
inductive Step
  | HMS_HMS | detached | CO_HMS_RLO | CO_HeMS | CO_HeMS_RLO | merged | CE | SN | dco | endStep
  | initiallySingle | disrupted | HMS_HMS_RLO
  deriving DecidableEq, Repr

/-! ### The derived lists of star states (l.42-135), built exactly as in the source -/

/-- l.42 -/
def starCO : List Star := [.BH, .NS, .WD]
/-- l.43-44 -/
def starNotNormal : List Star := starCO ++ [.massless]
/-- Python `L = A.copy(); [L.remove(x) for x in B]` for lists without repetitions. -/
def removeAll (A B : List Star) : List Star := A.filter (fun s => !B.contains s)
/-- l.46-47 -/
def starNotCO : List Star := removeAll Star.all starCO
/-- l.49-50 -/
def starNormal : List Star := removeAll Star.all starNotNormal
/-- l.52-57 -/
def starHRich : List Star := removeAll starNormal [.sCoreHe, .sCoreHeDep, .sCoreCDep, .sNon, .aCoreHe]
/-- l.59-68 -/
def starHeRich : List Star :=
  removeAll starNormal [.hCoreH, .hCoreHe, .hShellH, .hCoreHeDep, .hShellHe, .hCoreC, .hCoreCDep,
    .aCoreH, .aShellH]
/-- l.70: the states whose name contains `C_depleted` -/
def starCDepleted : List Star := [.hCoreCDep, .sCoreCDep]
/-- l.72-80 -/
def starPostMS : List Star := [.hCoreH, .hShellH, .hCoreHe, .hCoreHeDep, .hCoreCDep, .hNon, .aNon]
/-- l.83-89 -/
def starPostHeMS : List Star := [.aCoreHe, .sCoreHe, .sCoreHeDep, .sCoreCDep, .sNon]
/-- l.92-93 (a Python set difference; order irrelevant) -/
def starHRichEv : List Star := removeAll starHRich starCDepleted
/-- l.95-102 -/
def starHeRichEv : List Star := removeAll starHeRich starCDepleted ++ [.hNon]
/-- l.105-116 -/
def starCC : List Star :=
  [.hCoreCDep, .hCoreHeDep, .sCoreHeDep, .sCoreCDep, .sNon, .hNon, .hShellH, .aShellH, .aNon]
/-- l.175-176 -/
def evAfterDetached : List Ev :=
  Ev.all.filter (fun e => !([Ev.CC1, .CC2, .MaxTimeExceeded, .maxtime].contains e))

/-- A key of the chart: `(star_1_state, star_2_state, binary_state, event)`. -/
structure Key where
  s1 : Star
  s2 : Star
  b : BState
  e : Ev
  deriving DecidableEq, Repr

/-- A Python dictionary from keys to step names. -/
abbrev Chart := Key → Option Step

/-- One statement `for s1 in A: for s2 in B: for b in bs: for e in es: CHART[(s1,s2,b,e)] = step`:
all keys of the product are (over)written. -/
structure Loop where
  A : List Star
  B : List Star
  bs : List BState
  es : List Ev
  step : Step

/-- Does the loop write key `k`? -/
def Loop.writes (l : Loop) (k : Key) : Bool :=
  l.es.contains k.e && l.bs.contains k.b && l.A.contains k.s1 && l.B.contains k.s2

/-- Executing the loops in order; a later write wins. -/
def runLoops (ls : List Loop) (c : Chart) : Chart :=
  ls.foldl (fun d l => fun k => if l.writes k then some l.step else d k) c

/-- `UNDEFINED_STATES`, l.180-183. -/
def undefinedStates (k : Key) : Bool :=
  starCO.contains k.s1 && k.s2 == .hCoreH && (k.b == .disrupted || k.b == .detached) && k.e == .CC2

/-- Helper: write for `(x, y, b, e)` with `x ∈ A`, `y ∈ B`. -/
def wr (A B : List Star) (b : BState) (e : Ev) (st : Step) : Loop := ⟨A, B, [b], [e], st⟩

/-- The loops that fill `POSYDON_FLOW_CHART`, in source order, l.189-359. -/
def defaultLoops : List Loop :=
  [ -- l.192-195
    wr [.hCoreH] [.hCoreH] .detached .ZAMS .HMS_HMS,
    -- l.199-202
    wr [.hCoreH] [.hCoreH] .detached .rZAMS .detached,
    -- l.207-210
    wr starNormal starNormal .detached .none .detached,
    wr starNormal starNormal .detached .none .detached,
    -- l.214-217
    wr starHRich starCO .detached .none .detached,
    wr starCO starHRich .detached .none .detached,
    -- l.221-224
    wr starHRichEv starCO .RLO1 .oRLO1 .CO_HMS_RLO,
    wr starCO starHRichEv .RLO2 .oRLO2 .CO_HMS_RLO,
    -- l.228-231
    wr starHRich starCO .detached .rCOHMSRLO .detached,
    wr starCO starHRich .detached .rCOHMSRLO .detached,
    -- l.234-237
    wr starHeRichEv starCO .detached .none .CO_HeMS,
    wr starCO starHeRichEv .detached .none .CO_HeMS,
    -- l.241-244
    wr starHeRich starCO .detached .rCOHeMS .detached,
    wr starCO starHeRich .detached .rCOHeMS .detached,
    -- l.247-250
    wr starHeRichEv starCO .RLO1 .oRLO1 .CO_HeMS_RLO,
    wr starCO starHeRichEv .RLO2 .oRLO2 .CO_HeMS_RLO,
    -- l.254-257
    wr starHeRich starCO .detached .rCOHeMSRLO .detached,
    wr starCO starHeRich .detached .rCOHeMSRLO .detached,
    -- l.261-264
    wr starHeRich starHeRich .RLO1 .oRLO1 .merged,
    wr starHeRich starHeRich .RLO2 .oRLO2 .merged,
    -- l.267-276
    wr starNormal Star.all .RLO1 .oCE1 .CE,
    wr starNormal Star.all .RLO1 .oDoubleCE1 .CE,
    wr Star.all starNormal .RLO2 .oCE2 .CE,
    wr Star.all starNormal .RLO2 .oDoubleCE2 .CE,
    wr Star.all starNormal .contact .oCE1 .CE,
    wr Star.all starNormal .contact .oCE2 .CE,
    wr Star.all starNormal .contact .oDoubleCE1 .CE,
    wr Star.all starNormal .contact .oDoubleCE2 .CE,
    -- l.279-283
    ⟨starCC, Star.all, BState.all, [.CC1], .SN⟩,
    ⟨Star.all, starCC, BState.all, [.CC2], .SN⟩,
    -- l.287-290
    wr starCO starCO .detached .none .dco,
    -- l.294-299
    ⟨Star.all, Star.all, [.initialRLOF], Ev.all, .endStep⟩,
    -- l.302-307
    ⟨Star.all, Star.all, [.single], [.ZAMS], .initiallySingle⟩,
    -- l.310-315
    ⟨Star.all, Star.all, [.disrupted], evAfterDetached, .disrupted⟩,
    -- l.318-323
    ⟨starCO, starCO, [.disrupted], Ev.all, .endStep⟩,
    -- l.326-331
    ⟨Star.all, Star.all, [.merged], [.oMerging1, .oMerging2], .merged⟩,
    -- l.334-337
    ⟨Star.all, Star.all, [.initialRLOF], [.ZAMS], .endStep⟩,
    -- l.340-344
    ⟨Star.all, Star.all, BState.all, [.maxtime, .MaxTimeExceeded, .COcontact], .endStep⟩,
    -- l.347-352
    ⟨starCO, [.massless], BState.all, Ev.all, .endStep⟩,
    ⟨[.massless], starCO, BState.all, Ev.all, .endStep⟩,
    -- l.356-359
    ⟨[.massless], [.massless], BState.all, Ev.all, .endStep⟩ ]

/-- `POSYDON_FLOW_CHART`. -/
def defaultChart : Chart := runLoops defaultLoops (fun _ => none)

/-- `flow_chart(FLOW_CHART, CHANGE_FLOW_CHART)`, l.361-400.  `none` arguments are Python `None`.
Only keys already present are changed (l.395). -/
def flowChart (base : Option Chart) (change : Option Chart) : Chart :=
  let fc := base.getD defaultChart
  match change with
  | none => fc
  | some ch => fun k =>
      match ch k, fc k with
      | some st, some _ => some st
      | _, old => old

/-- `initial_eccentricity_flow_chart`, l.403-446. -/
def initialEccentricityFlowChart (base change : Option Chart) : Chart :=
  let fc := flowChart base change
  -- l.433-437: ZAMS keys of detached binaries go to step_detached
  let fc1 : Chart := fun k =>
    match fc k with
    | some st => if k.e == .ZAMS && k.b == .detached then some .detached else some st
    | none => none
  -- l.441-444
  let ev := starHRichEv ++ starHeRichEv
  runLoops [wr ev ev .RLO1 .oRLO1 .HMS_HMS_RLO, wr ev ev .RLO2 .oRLO2 .HMS_HMS_RLO] fc1

/-! ### Finite enumeration -/

theorem Star.mem_all (s : Star) : s ∈ Star.all := by cases s <;> decide
theorem BState.mem_all (b : BState) : b ∈ BState.all := by cases b <;> decide
theorem Ev.mem_all (e : Ev) : e ∈ Ev.all := by cases e <;> decide

/-- Last-match lookup restricted to the star states. -/
def look : List Loop → Option Step → Star → Star → Option Step
  | [], o, _, _ => o
  | l :: ls, o, s1, s2 => look ls (if l.A.contains s1 && l.B.contains s2 then some l.step else o) s1 s2

theorem runLoops_eq_look (ls : List Loop) (c : Chart) (s1 s2 : Star) (b : BState) (e : Ev) :
    runLoops ls c ⟨s1, s2, b, e⟩ =
      look (ls.filter fun l => l.es.contains e && l.bs.contains b) (c ⟨s1, s2, b, e⟩) s1 s2 := by
  induction ls generalizing c with
  | nil => rfl
  | cons l ls ih =>
    simp only [runLoops, List.foldl_cons] at ih ⊢
    rw [ih]
    by_cases h : (l.es.contains e && l.bs.contains b) = true
    · simp only [List.filter_cons, h, if_true, look, Loop.writes, Bool.true_and]
    · simp only [List.filter_cons, h, Loop.writes, Bool.false_and]
      simp

/-- Boolean check over the whole key table. -/
def allKeys (ls : List Loop) (p : Key → Option Step → Bool) : Bool :=
  Ev.all.all fun e => BState.all.all fun b =>
    let sub := ls.filter fun l => l.es.contains e && l.bs.contains b
    Star.all.all fun s1 => Star.all.all fun s2 => p ⟨s1, s2, b, e⟩ (look sub none s1 s2)

theorem of_allKeys {ls : List Loop} {p : Key → Option Step → Bool} (h : allKeys ls p = true)
    (k : Key) : p k (runLoops ls (fun _ => none) k) = true := by
  obtain ⟨s1, s2, b, e⟩ := k
  have h1 := List.all_eq_true.1 h e (Ev.mem_all e)
  have h2 := List.all_eq_true.1 h1 b (BState.mem_all b)
  have h3 := List.all_eq_true.1 h2 s1 (Star.mem_all s1)
  have h4 := List.all_eq_true.1 h3 s2 (Star.mem_all s2)
  rw [runLoops_eq_look]
  exact h4

/-! ### Specification: the routing rules, highest priority first

Written independently of the loops, as a decision list a reader can compare with the
documentation of the flow chart. -/

def isCO : Star → Bool
  | .BH | .NS | .WD => true
  | _ => false

def isNormal (s : Star) : Bool := !isCO s && s != .massless

/-- Stars with a hydrogen-rich or accreted envelope (not helium-core-burning accretors). -/
def isHRich : Star → Bool
  | .hCoreH | .hCoreHe | .hShellH | .hCoreHeDep | .hShellHe | .hCoreC | .hCoreCDep | .hNon
  | .aCoreH | .aShellH | .aNon => true
  | _ => false

def isHeRich : Star → Bool
  | .hNon | .aNon | .aCoreHe | .sCoreHe | .sCoreHeDep | .sCoreCDep | .sNon => true
  | _ => false

def isCDepleted : Star → Bool
  | .hCoreCDep | .sCoreCDep => true
  | _ => false

/-- States from which a star can collapse. -/
def canCollapse : Star → Bool
  | .hCoreCDep | .hCoreHeDep | .sCoreHeDep | .sCoreCDep | .sNon | .hNon | .hShellH | .aShellH
  | .aNon => true
  | _ => false

/-- Nothing left to evolve: compact object or massless remnant next to a massless remnant. -/
def isDead (s1 s2 : Star) : Bool :=
  (s1 == .massless || isCO s1) && (s2 == .massless || isCO s2) && (s1 == .massless || s2 == .massless)

/-- Destination of a non-compact star `s` in orbit with a compact object. -/
def coRLO (s : Star) : Option Step :=
  if isHeRich s && !isCDepleted s then some .CO_HeMS_RLO
  else if isHRich s && !isCDepleted s then some .CO_HMS_RLO else none

def coDetached (s : Star) : Option Step :=
  if isHeRich s && !isCDepleted s then some .CO_HeMS
  else if isHRich s then some .detached else none

def routeSpec (k : Key) : Option Step :=
  if isDead k.s1 k.s2 then some .endStep
  else match k.e with
  | .maxtime | .MaxTimeExceeded | .COcontact => some .endStep
  | e =>
    match k.b with
    | .initialRLOF => some .endStep
    | .disrupted =>
      if isCO k.s1 && isCO k.s2 then some .endStep
      else match e with
        | .CC1 => if canCollapse k.s1 then some .SN else none
        | .CC2 => if canCollapse k.s2 then some .SN else none
        | _ => some .disrupted
    | b =>
      match b, e with
      | _, .CC1 => if canCollapse k.s1 then some .SN else none
      | _, .CC2 => if canCollapse k.s2 then some .SN else none
      | .merged, .oMerging1 | .merged, .oMerging2 => some .merged
      | .single, .ZAMS => some .initiallySingle
      | .RLO1, .oCE1 | .RLO1, .oDoubleCE1 => if isNormal k.s1 then some .CE else none
      | .RLO2, .oCE2 | .RLO2, .oDoubleCE2 => if isNormal k.s2 then some .CE else none
      | .contact, .oCE1 | .contact, .oCE2 | .contact, .oDoubleCE1 | .contact, .oDoubleCE2 =>
        if isNormal k.s2 then some .CE else none
      | .RLO1, .oRLO1 =>
        if isHeRich k.s1 && isHeRich k.s2 then some .merged
        else if isCO k.s2 then coRLO k.s1 else none
      | .RLO2, .oRLO2 =>
        if isHeRich k.s1 && isHeRich k.s2 then some .merged
        else if isCO k.s1 then coRLO k.s2 else none
      | .detached, .ZAMS => if k.s1 == .hCoreH && k.s2 == .hCoreH then some .HMS_HMS else none
      | .detached, .rZAMS => if k.s1 == .hCoreH && k.s2 == .hCoreH then some .detached else none
      | .detached, .none =>
        if isCO k.s1 && isCO k.s2 then some .dco
        else if isNormal k.s1 && isNormal k.s2 then some .detached
        else if isCO k.s2 then coDetached k.s1
        else if isCO k.s1 then coDetached k.s2 else none
      | .detached, .rCOHMSRLO =>
        if (isHRich k.s1 && isCO k.s2) || (isCO k.s1 && isHRich k.s2) then some .detached else none
      | .detached, .rCOHeMS | .detached, .rCOHeMSRLO =>
        if (isHeRich k.s1 && isCO k.s2) || (isCO k.s1 && isHeRich k.s2) then some .detached else none
      | _, _ => none

/-- Exactly one of the two stars is a compact object and the other is a star that still evolves. -/
def oneCO (k : Key) : Bool := (isCO k.s1 && isNormal k.s2) || (isNormal k.s1 && isCO k.s2)

/-- The number of the star an event speaks about (`none`: neither). -/
def evStar : Ev → Option Bool
  | .CC1 | .oCE1 | .oDoubleCE1 | .oRLO1 => some true
  | .CC2 | .oCE2 | .oDoubleCE2 | .oRLO2 => some false
  | _ => none

/-- What each step needs of the binary it is given. -/
def stepNeeds (k : Key) : Step → Bool
  | .HMS_HMS => k.s1 == .hCoreH && k.s2 == .hCoreH && k.b == .detached && k.e == .ZAMS
  | .detached => k.b == .detached && (isNormal k.s1 || isNormal k.s2) && k.s1 != .massless && k.s2 != .massless
  | .CO_HMS_RLO =>
    (k.b == .RLO1 && isCO k.s2 && isHRich k.s1) || (k.b == .RLO2 && isCO k.s1 && isHRich k.s2)
  | .CO_HeMS => k.b == .detached && oneCO k && (isHeRich k.s1 || isHeRich k.s2)
  | .CO_HeMS_RLO =>
    (k.b == .RLO1 && isCO k.s2 && isHeRich k.s1) || (k.b == .RLO2 && isCO k.s1 && isHeRich k.s2)
  | .CE =>
    (k.b == .RLO1 && evStar k.e == some true && isNormal k.s1) ||
    (k.b == .RLO2 && evStar k.e == some false && isNormal k.s2) ||
    (k.b == .contact && isNormal k.s2)
  | .SN => (k.e == .CC1 && canCollapse k.s1) || (k.e == .CC2 && canCollapse k.s2)
  | .dco => isCO k.s1 && isCO k.s2 && k.b == .detached
  | .merged => (k.b == .merged && (k.e == .oMerging1 || k.e == .oMerging2)) ||
      (isHeRich k.s1 && isHeRich k.s2 && ((k.b == .RLO1 && k.e == .oRLO1) || (k.b == .RLO2 && k.e == .oRLO2)))
  | .initiallySingle => k.b == .single && k.e == .ZAMS
  | .disrupted => k.b == .disrupted && (isNormal k.s1 || isNormal k.s2)
  | .endStep => isDead k.s1 k.s2 || k.b == .initialRLOF || (k.b == .disrupted && isCO k.s1 && isCO k.s2)
      || k.e == .maxtime || k.e == .MaxTimeExceeded || k.e == .COcontact
  | .HMS_HMS_RLO => false

/-- Exchange of the labels of the two stars (specification for the symmetry property). -/
def BState.mirror : BState → BState
  | .RLO1 => .RLO2 | .RLO2 => .RLO1 | b => b

def Ev.mirror : Ev → Ev
  | .CC1 => .CC2 | .CC2 => .CC1 | .oRLO1 => .oRLO2 | .oRLO2 => .oRLO1
  | .oCE1 => .oCE2 | .oCE2 => .oCE1 | .oDoubleCE1 => .oDoubleCE2 | .oDoubleCE2 => .oDoubleCE1
  | .oMerging1 => .oMerging2 | .oMerging2 => .oMerging1 | .Match1 => .Match2 | .Match2 => .Match1
  | e => e

def Key.mirror (k : Key) : Key := ⟨k.s2, k.s1, k.b.mirror, k.e.mirror⟩

end Verif.FlowChart
