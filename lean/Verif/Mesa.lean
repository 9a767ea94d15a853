import Mathlib.Tactic.Common
import Mathlib.Tactic.Linarith
import Mathlib.Tactic.NormNum
import Mathlib.Data.Rat.Lemmas
import Mathlib.Algebra.Order.Field.Basic
import Mathlib.Algebra.Order.Field.Rat
import Verif.FlowChart
import Verif.Flip
/-!
Model of the decisions taken by the grid steps of `/repo/posydon/binary_evol/MESA/step_mesa.py`:
`MS_MS_step.__call__` (l.1305-1385), `CO_HMS_RLO_step.__call__` (l.1402-1500), `CO_HeMS_RLO_step.__call__`
(l.1517-1615), `CO_HeMS_step.__call__` (l.1632-1711), `HMS_HMS_RLO_step.__call__` (l.1746-1861), and of the
frame of `MesaGridStep.__call__` (l.358-442).

Simplifications: masses are rational numbers; the orbital period and the eccentricity are `Option ℚ`, where `none` is
NaN (every comparison is false).  The star state `stripped_He_Shell_He_burning`, which the lists of the helium grids
mention, is not a state of the flow chart (`FlowChart.Star`) and is left out.  What the grid does with a binary once it
was accepted is a parameter.
-/
namespace Verif.Mesa
open FlowChart

/-- The limits of a grid, `_find_boundaries` l.281-296 and l.1302-1303, 1734-1744. -/
structure Box where
  m1min : ℚ
  m1max : ℚ
  m2min : ℚ
  m2max : ℚ
  pmin : ℚ
  pmax : ℚ
  qmin : ℚ
  qmax : ℚ
  /-- `minimum_star_mass` (only `HMS_HMS_RLO_step`, l.1744) -/
  mmin : ℚ

/-- What the steps read from a binary. -/
structure View where
  s1 : Star
  s2 : Star
  e : Ev
  m1 : ℚ
  m2 : ℚ
  p : Option ℚ
  ecc : Option ℚ

/-- The end of a dispatch: the grid is used (`run`, with the stars exchanged first if `flip`), the binary gets a new
event and, if `b` is given, a new state, or the binary is marked as failed and an exception is raised.
`unknown` is an event whose name is not in `BINARY_EVENTS_ALL`. -/
inductive Out
  | run (flip : Bool)
  | next (b : Option BState) (e : Ev)
  | unknown (b : Option BState) (name : String)
  | flowError
  | gridError
  deriving DecidableEq, Repr

/-- `lo <= x <= hi`; false for NaN. -/
def within (lo : ℚ) (x : Option ℚ) (hi : ℚ) : Bool :=
  match x with
  | none => false
  | some v => decide (lo ≤ v) && decide (v ≤ hi)

/-- `x > hi`. -/
def above (x : Option ℚ) (hi : ℚ) : Bool :=
  match x with
  | none => false
  | some v => decide (hi < v)

/-- `x < lo`. -/
def below (x : Option ℚ) (lo : ℚ) : Bool :=
  match x with
  | none => false
  | some v => decide (v < lo)

/-- `m < lo or m > hi`. -/
def outside (lo m hi : ℚ) : Bool := decide (m < lo) || decide (hi < m)

/-- `ecc == 0.` -/
def circular (e : Option ℚ) : Bool := e == some 0

/-- `MS_MS_step.__call__`, l.1305-1385. -/
def msms (g : Box) (v : View) : Out :=
  let q := v.m2 / v.m1
  let zams := v.s1 == .hCoreH && v.s2 == .hCoreH && v.e == .ZAMS
  -- l.1320-1327
  if zams && within g.m1min (some v.m1) g.m1max && within (max g.qmin ((1 / 2) / v.m1)) (some q) g.qmax &&
      within g.pmin v.p g.pmax then .run false
  -- l.1329-1336
  else if zams && within g.m1min (some v.m2) g.m1max && within (max g.qmin ((1 / 2) / v.m1)) (some (1 / q)) g.qmax &&
      within g.pmin v.p g.pmax then .run true
  -- l.1339-1351
  else if zams && above v.p g.pmax then .next none .rZAMS
  else if zams && below v.p g.pmin then .next none .rZAMS
  -- l.1353-1371
  else if zams && within g.pmin v.p g.pmax && outside g.m1min v.m1 g.m1max then .gridError
  else if zams && within g.pmin v.p g.pmax && (decide (q < max g.qmin ((1 / 2) / v.m1)) || decide (g.qmax < q)) then
    .gridError
  -- l.1373-1385
  else if v.s1 == .hCoreCDep then .next none .CC1
  else if v.s2 == .hCoreCDep then .next none .CC2
  else .flowError

/-- `["WD", "NS", "BH"]` -/
def compact (s : Star) : Bool := [Star.WD, .NS, .BH].contains s

/-- `FOR_RLO_STATES`, l.1419-1427 and l.1764-1772. -/
def rloStates : List Star :=
  [.hCoreH, .hShellH, .hCoreHe, .hCoreHeDep, .hCoreC, .aCoreH, .hCoreCDep, .hNon, .aNon]

/-- `CO_He_STATES`, l.1534-1545 and l.1648-1659. -/
def heStates : List Star := [.aCoreHe, .sCoreHe, .sCoreHeDep, .sCoreCDep, .sNon, .hNon, .aNon]

/-- First part of the steps with a compact object: l.1431-1451, l.1549-1569, l.1661-1680.  Either the dispatch ends, or
`flip_stars_before_step` is known. -/
def orient (states : List Star) (dep : Star) (e1 e2 : Ev) (v : View) : Out ⊕ Bool :=
  if compact v.s2 && states.contains v.s1 && v.e == e1 then
    if v.s1 == dep then .inl (.next none .CC1) else .inr false
  else if compact v.s1 && states.contains v.s2 && v.e == e2 then
    if v.s2 == dep then .inl (.next none .CC2) else .inr true
  else .inl .flowError

/-- l.1453-1462, l.1572-1580, l.1684-1693. -/
def inside (g : Box) (flip : Bool) (v : View) : Bool :=
  (!flip && within g.m1min (some v.m1) g.m1max && within g.m2min (some v.m2) g.m2max && within g.pmin v.p g.pmax &&
      circular v.ecc) ||
  (flip && within g.m1min (some v.m2) g.m1max && within g.m2min (some v.m1) g.m2max && within g.pmin v.p g.pmax &&
      circular v.ecc)

/-- `CO_HMS_RLO_step.__call__`, l.1402-1500. -/
def coHms (g : Box) (v : View) : Out :=
  match orient rloStates .hCoreCDep .oRLO1 .oRLO2 v with
  | .inl o => o
  | .inr flip =>
    let pin := within g.pmin v.p g.pmax
    if inside g flip v then .run flip
    else if !flip && pin && outside g.m1min v.m1 g.m1max then .gridError
    else if !flip && pin && outside g.m2min v.m2 g.m2max then .gridError
    else if flip && pin && outside g.m1min v.m2 g.m1max then .gridError
    else if flip && pin && outside g.m2min v.m1 g.m2max then .gridError
    else .next (some .detached) .rCOHMSRLO

/-- `CO_HeMS_RLO_step.__call__`, l.1517-1615.  In l.1598-1600 and l.1605-1607 there are no parentheses around the
disjunction, so it reads `(flip and p inside and m < min) or m > max`. -/
def coHeRlo (g : Box) (v : View) : Out :=
  match orient heStates .sCoreCDep .oRLO1 .oRLO2 v with
  | .inl o => o
  | .inr flip =>
    let pin := within g.pmin v.p g.pmax
    if inside g flip v then .run flip
    else if !flip && pin && outside g.m1min v.m1 g.m1max then .gridError
    else if !flip && pin && outside g.m2min v.m2 g.m2max then .gridError
    else if (flip && pin && decide (v.m1 < g.m2min)) || decide (g.m2max < v.m1) then .gridError
    else if (flip && pin && decide (v.m2 < g.m1min)) || decide (g.m1max < v.m2) then .gridError
    else .next (some .detached) .rCOHeMSRLO

/-- `CO_HeMS_step.__call__`, l.1632-1711.  The mass tests of l.1697 and l.1703 do not look at the exchange of the
stars. -/
def coHe (g : Box) (v : View) : Out :=
  match orient heStates .sCoreCDep .none .none v with
  | .inl o => o
  | .inr flip =>
    let pin := within g.pmin v.p g.pmax
    if inside g flip v then .run flip
    else if pin && outside g.m1min v.m1 g.m1max then .gridError
    else if pin && outside g.m2min v.m2 g.m2max then .gridError
    else .next (some .detached) .rCOHeMS

/-- `HMS_HMS_RLO_step.__call__`, l.1746-1861: the exchange of the stars is switched off in both branches (l.1778, 1786),
so the second halves of the tests (l.1803-1807, 1836-1857) are never used. -/
def hmsRlo (g : Box) (v : View) : Out :=
  let q := v.m2 / v.m1
  let rest : Out :=
    let flip := false
    let pin := within g.pmin v.p g.pmax
    if (!flip && within g.m1min (some v.m1) g.m1max && within (max g.qmin (g.mmin / v.m1)) (some q) g.qmax && pin &&
          circular v.ecc) ||
        (flip && within g.m1min (some v.m2) g.m1max && within (max g.qmin (g.mmin / v.m2)) (some (1 / q)) g.qmax &&
          pin && circular v.ecc) then .run flip
    else if !flip && pin && outside g.m1min v.m1 g.m1max then .gridError
    else if !flip && pin && outside g.m2min v.m2 g.m2max then .gridError
    else if !flip && pin && (decide (q < max g.qmin (g.mmin / v.m1)) || decide (g.qmax < q)) then .gridError
    else if flip && pin && outside g.m1min v.m2 g.m1max then .gridError
    else if flip && pin && outside g.m2min v.m1 g.m2max then .gridError
    else if flip && pin && (decide (1 / q < max g.qmin (g.mmin / v.m2)) || decide (g.qmax < 1 / q)) then .gridError
    else .unknown (some .detached) "redirect_from_HMS_HMS_RLO"
  if rloStates.contains v.s2 && rloStates.contains v.s1 && v.e == .oRLO1 then
    if v.s1 == .hCoreCDep then .next none .CC1 else rest
  else if rloStates.contains v.s1 && rloStates.contains v.s2 && v.e == .oRLO2 then
    if v.s2 == .hCoreCDep then .next none .CC2 else rest
  else .flowError

/-! ### The frame of a grid run -/

/-- What `MesaGridStep.__call__` is given besides the binary: the length of the closest track or of the interpolated
evolution (`none`: NaN or no track), the update in the regular case (l.398 followed by `stop_at_end` or a stop at the
configured condition), the update when the time limit is hit (l.386-396, 408-414), the time of a binary and the limit.
-/
structure Grid (S X : Type) where
  finalTime : Flip.Binary S X → Option ℚ
  regular : Flip.Binary S X → Flip.Binary S X
  limited : Flip.Binary S X → Flip.Binary S X
  time : Flip.Binary S X → ℚ
  tmax : ℚ

/-- `MesaGridStep.__call__`, l.358-442, with the `stop_at_max_time` method. -/
def gridCall {S X : Type} (g : Grid S X) (flip : Bool) (b : Flip.Binary S X) : Flip.Binary S X :=
  let b1 := if flip then Flip.flip b else b
  match g.finalTime b1 with
  | none =>
    let b2 := if flip then Flip.flip b1 else b1
    { b2 with state := "initial_RLOF" }
  | some t =>
    let b2 := if g.time b1 + t > g.tmax then g.limited b1 else g.regular b1
    let b3 := if flip then Flip.flip b2 else b2
    if g.time b3 > g.tmax then { b3 with event := some "MaxTime_exceeded" }
    else if g.time b3 = g.tmax then { b3 with event := some "maxtime" }
    else b3

/-! ### Specification -/

/-- The steps of the flow chart that use a grid. -/
def stepOf (g : Box) : Step → Option (View → Out)
  | .HMS_HMS => some (msms g)
  | .CO_HMS_RLO => some (coHms g)
  | .CO_HeMS_RLO => some (coHeRlo g)
  | .CO_HeMS => some (coHe g)
  | .HMS_HMS_RLO => some (hmsRlo g)
  | _ => none

def View.mirror (v : View) : View := ⟨v.s2, v.s1, v.e.mirror, v.m2, v.m1, v.p, v.ecc⟩

def Out.mirror : Out → Out
  | .run f => .run (!f)
  | .next b e => .next b e.mirror
  | o => o

/-- `M` and `C` are the masses in the order of the grid.  A circular binary inside the box is run, a mass outside at a
period inside the grid is an error, anything else is sent to the detached step. -/
def expected (g : Box) (M C : ℚ) (p ecc : Option ℚ) (flip : Bool) (redirect : Ev) : Out :=
  match p with
  | none => .next (some .detached) redirect
  | some P =>
    if g.pmin ≤ P ∧ P ≤ g.pmax then
      if g.m1min ≤ M ∧ M ≤ g.m1max ∧ g.m2min ≤ C ∧ C ≤ g.m2max then
        if ecc = some 0 then .run flip else .next (some .detached) redirect
      else .gridError
    else .next (some .detached) redirect

/-! ### Helper lemmas -/

theorem within_some (lo x hi : ℚ) : within lo (some x) hi = true ↔ lo ≤ x ∧ x ≤ hi := by simp [within]

theorem outside_eq (lo x hi : ℚ) : outside lo x hi = !within lo (some x) hi := by
  simp only [outside, within]
  by_cases h1 : lo ≤ x <;> by_cases h2 : x ≤ hi <;> simp [h1, h2, not_lt.2, lt_of_not_ge]

theorem circular_iff (e : Option ℚ) : circular e = true ↔ e = some 0 := by simp [circular]

end Verif.Mesa
