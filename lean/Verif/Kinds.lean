import Verif.Clock
import Verif.LifeProps
/-!
The kind of a compact object (its `state`) and its mass through the steps of an evolution. The steps are the models of `Verif.CE` (step_CEE.py),
`Verif.SNStep` (step_SN.py and `update_star_states` of binarystar.py), `Verif.Merged` (step_merged.py), `Verif.Kepler` (step_detached.py with the
masses of track_match.py) and `Verif.DoubleCO` (double_CO.py), put one after the other; the part of `step_mesa.py` that sets mass, radius and state
of a compact object is modelled here.

A star is seen as its state and its mass. What the tracks of a grid contain is data. The classification of a star that is not a compact object never
gives a compact object (`C31`, `C104`); it is a parameter of the steps for the common envelope and the supernova.
-/
namespace Verif.Kinds

noncomputable section
open Classical

/-! ### Specification -/

/-- State and mass of a star. -/
abbrev Seen := String × ℝ

/-- The kind agrees with the mass: neutron stars between 1.1 and 2.5 solar masses, black holes above; a white dwarf has a mass, a massless remnant
has none. -/
def Agrees (s : Seen) : Prop :=
  (s.1 = "NS" → 11 / 10 ≤ s.2 ∧ s.2 ≤ 5 / 2) ∧ (s.1 = "BH" → 5 / 2 < s.2) ∧ (s.1 = "WD" → 0 < s.2) ∧ (s.1 = "massless_remnant" → s.2 ≤ 0)

/-- The white dwarfs of the classification: at most 1.46 solar masses, `STATE_WD_STARMASS_UPPER_LIMIT` in limits_thresholds.py l.55. -/
def DwarfOk (s : Seen) : Prop := s.1 = "WD" → s.2 ≤ 1.46

/-- Not a compact object and not a massless remnant. -/
def Plain (s : String) : Prop := s ≠ "NS" ∧ s ≠ "BH" ∧ s ≠ "WD" ∧ s ≠ "massless_remnant"

/-! ### Grid steps -/

/-- `infer_star_state(star_mass=m, star_CO=True)`, common_functions.py l.1481-1494, with a mass that may be NaN. -/
def byMass : Option ℝ → String
  | none => "massless_remnant"
  | some m => SNStep.coState m

/-- `check_state_of_star(star, star_CO=True)`, common_functions.py l.1072-1077; `last` is `state_history[-1]`. -/
def checkCO (last state : String) (m : Option ℝ) : String :=
  if last = "WD" ∨ state = "WD" then "WD" else byMass m

/-- How the grid is read: a track (nearest neighbour), l.728-731, or the interpolator, whose class is then known, l.961-970. -/
inductive Read
  | track
  | interp (cls : String)
  deriving DecidableEq

structure CO where
  state : String
  mass : ℝ
  logR : ℝ

/-- The attributes of a compact object after a grid step: mass l.641, 930; radius l.670-674, 940-943 (from the kind inferred from the mass alone);
state l.728-731, 961-970 (kept for the class `initial_MT`). -/
def gridCO (r : Read) (last : String) (s : CO) (m : ℝ) : Except SNStep.Err CO :=
  match SNStep.coRadius m (byMass (some m)) with
  | .error e => .error e
  | .ok x => .ok ⟨if r = .interp "initial_MT" then s.state else checkCO last s.state (some m), m, Orbit.lg x⟩

/-! ### New compact objects -/

/-- `infer_star_state(..., star_CO=True)` with the abundances, common_functions.py l.1481-1494; `rich` is true if one of them is positive. -/
def inferRich (rich : Bool) : Option ℝ → String
  | none => "massless_remnant"
  | some m =>
    if m ≤ 0 then "massless_remnant"
    else if (rich = true ∨ m < 11 / 10) ∧ m ≤ 1.46 then "WD"
    else if m ≤ 5 / 2 then "NS"
    else "BH"

/-- The part of `SingleStar.__init__` for compact objects, singlestar.py l.240-257: the default radius is that of the given state, the state is then
replaced by the inferred one. -/
def create (state : String) (rich : Bool) (m : ℝ) : Except SNStep.Err CO :=
  match SNStep.coRadius m state with
  | .error e => .error e
  | .ok x => .ok ⟨inferRich rich (some m), m, Orbit.lg x⟩

/-! ### The steps -/

/-- A star as the models of the steps have it. -/
def ofCE (s : CE.Star) : Seen := (s.state.name, s.mass)
def ofSN (s : SNStep.Star) : Seen := (s.state, s.mass)

/-- The name of a state that may be undetermined, singlestar.py. -/
def stateName : Option FlowChart.Star → String
  | some s => s.name
  | none => "undetermined_evolutionary_state"

/-- The mass is a number. -/
def IsSeen (s : Merged.Star) (x : Seen) : Prop := ∃ q : ℚ, s.get "mass" = .num q ∧ x = (stateName s.state, (q : ℝ))

/-- What a grid step does to a star: a star that is not compact gets any mass and any such state, a compact object goes through `gridCO`. -/
inductive GridStar : Seen → Seen → Prop
  | plain (s s' : String) (m m' : ℝ) (h : Plain s) (h' : Plain s') : GridStar (s, m) (s', m')
  | compact (r : Read) (last : String) (s s' : CO) (m : ℝ) (hr : r ≠ .interp "initial_MT") (h : gridCO r last s m = .ok s') :
      GridStar (s.state, s.mass) (s'.state, s'.mass)

/-- What detached evolution does to a star, step_detached.py l.632-637, 760-776: compact objects and massless remnants are left alone. -/
inductive DetStar : Seen → Seen → Prop
  | plain (s s' : String) (m m' : ℝ) (h : Plain s) (h' : Plain s') : DetStar (s, m) (s', m')
  | same (s : Seen) : DetStar s s

/-- One step: the two stars before and after. -/
inductive Step : Seen × Seen → Seen × Seen → Prop
  | ce (cfg : CE.Cfg) (b b' : CE.Binary) (h : CE.step cfg b = .ok b') (hc : ∀ s, FlowChart.isNormal (cfg.classify s) = true)
      (hl : cfg.massLoss = false) : Step (ofCE b.star1, ofCE b.star2) (ofCE b'.star1, ofCE b'.star2)
  | sn (c : SNStep.Cfg) (b b' : SNStep.Binary) (h : SNStep.step c b = .ok b') (hc : ∀ s, Plain (c.classify s)) :
      Step (ofSN b.s1, ofSN b.s2) (ofSN b'.s1, ofSN b'.s2)
  | merged (cfg : Merged.Cfg) (b b' : Merged.Binary) (x y x' y' : Seen) (h : Merged.call cfg b = .ok b') (hx : IsSeen b.star1 x)
      (hy : IsSeen b.star2 y) (hx' : IsSeen b'.star1 x') (hy' : IsSeen b'.star2 y') : Step (x, y) (x', y')
  | grid (x y x' y' : Seen) (h1 : GridStar x x') (h2 : GridStar y y') : Step (x, y) (x', y')
  | detached (x y x' y' : Seen) (h1 : DetStar x x') (h2 : DetStar y y') : Step (x, y) (x', y')
  | compact (x y : Seen) : Step (x, y) (x, y)
  | update (c : SNStep.Cfg) (s1 s2 : SNStep.Star) (hc : ∀ s, Plain (c.classify s)) :
      Step (ofSN s1, ofSN s2) (ofSN (SNStep.updateState c s1), ofSN (SNStep.updateState c s2))

end
end Verif.Kinds
