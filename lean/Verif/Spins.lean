import Verif.Kinds
import Verif.GW
/-!
The spin of a compact object through the steps of an evolution: `Verif.SNStep` (step_SN.py), `Verif.CE` (step_CEE.py), `Verif.Merged`
(step_merged.py) and the grid steps of `/repo/posydon/binary_evol/MESA/step_mesa.py` l.656-669, 933-938, with `spin_stable_mass_transfer` of
common_functions.py l.1027-1050 (`GW.spinAfter`); detached evolution and the inspiral of two compact objects leave the spin alone.

A star is seen as what is left of it and its attribute `spin`. Angular momenta, profiles and interpolated models are data; the spin left by the
collapse of a profile lies between zero and one by `C89_growth`, that of an interpolated model is the one of the grid.
-/
namespace Verif.Spins

noncomputable section
open Classical

inductive Kind
  | star | compact | gone
  deriving DecidableEq

/-- What a state says: a compact object, a massless remnant or a star. -/
def kindOf (s : String) : Kind := if s ∈ SNStep.statesCO then .compact else if s = "massless_remnant" then .gone else .star

/-! ### Specification -/

abbrev Seen := Kind × SNStep.Val

def InRange (v : SNStep.Val) : Prop := ∀ a, v = .num a → 0 ≤ a ∧ a ≤ 1

/-- A compact object has an unknown spin or one between zero and one. -/
def Fine (x : Seen) : Prop := x.1 = .compact → InRange x.2

/-- A known spin was known before and has not decreased. -/
def Ages (v w : SNStep.Val) : Prop := ∀ b, w = .num b → ∃ a, v = .num a ∧ a ≤ b

/-- A compact object stays one, its spin not decreasing, or is gone; what is gone stays so. -/
def Holds (x y : Seen) : Prop :=
  (x.1 = .compact → y.1 = .gone ∨ (y.1 = .compact ∧ Ages x.2 y.2)) ∧ (x.1 = .gone → y.1 = .gone)

/-! ### Grid steps -/

def ofGW : GW.Spin → SNStep.Val
  | .value x => .num x
  | .nan => .nan
  | .none => .none

/-- `spin_stable_mass_transfer(spin, before, after)` for a spin that may be `None` or NaN (for NaN every comparison is false). Attributes that
are text or vectors do not occur. -/
def accrete (v : SNStep.Val) (before after : ℝ) : SNStep.Val :=
  match v with
  | .num s => ofGW (GW.spinAfter (some s) (some before) (some after))
  | .nan => if before ≤ 0 ∨ after ≤ 0 then .none else .nan
  | _ => .none

/-! ### The steps -/

def ofSN (s : SNStep.Star) : Seen := (kindOf s.state, s.attr "spin")
def optVal : Option ℝ → SNStep.Val
  | some x => .num x
  | none => .nan
def ofCE (s : CE.Star) : Seen := (kindOf s.state.name, optVal (s.rest "spin"))
def mergedVal : Merged.Val → SNStep.Val
  | .num q => .num (q : ℝ)
  | .nan => .nan
  | .none => .none
def ofMerged (s : Merged.Star) : Seen := (kindOf (Kinds.stateName s.state), mergedVal (s.get "spin"))

/-- Data of a supernova: the spins left by the collapse of a profile and those of interpolated models. -/
structure SpinData (c : SNStep.Cfg) (s : SNStep.Star) : Prop where
  bh : ∀ x m a d, InRange (c.bh x m a d).spin
  model : ∀ q, s.interp = some q → InRange q.spin

/-- Grid and detached steps for one star. In a grid step the mass is the one at the start of the track (l.658) or of the star (l.936); the state is set
by `check_state_of_star`, which leaves a compact object of positive mass one. -/
inductive Quiet : Seen → Seen → Prop
  | star (v w : SNStep.Val) : Quiet (.star, v) (.star, w)
  | grid (v : SNStep.Val) (before after : ℝ) : Quiet (.compact, v) (.compact, accrete v before after)
  | same (x : Seen) : Quiet x x

/-- One step: the two stars before and after. -/
inductive Step : Seen × Seen → Seen × Seen → Prop
  | ce (cfg : CE.Cfg) (b b' : CE.Binary) (h : CE.step cfg b = .ok b') (hc : ∀ s, FlowChart.isNormal (cfg.classify s) = true)
      (hl : cfg.massLoss = false) : Step (ofCE b.star1, ofCE b.star2) (ofCE b'.star1, ofCE b'.star2)
  | sn (c : SNStep.Cfg) (b b' : SNStep.Binary) (h : SNStep.step c b = .ok b') (hc : ∀ s, Kinds.Plain (c.classify s))
      (h1 : SpinData c b.s1) (h2 : SpinData c b.s2) : Step (ofSN b.s1, ofSN b.s2) (ofSN b'.s1, ofSN b'.s2)
  | merged (cfg : Merged.Cfg) (b b' : Merged.Binary) (h : Merged.call cfg b = .ok b') (h1 : b.star1.state ≠ some .massless)
      (h2 : b.star2.state ≠ some .massless) : Step (ofMerged b.star1, ofMerged b.star2) (ofMerged b'.star1, ofMerged b'.star2)
  | quiet (x y x' y' : Seen) (h1 : Quiet x x') (h2 : Quiet y y') : Step (x, y) (x', y')
  | update (c : SNStep.Cfg) (s1 s2 : SNStep.Star) (hc : ∀ s, Kinds.Plain (c.classify s)) :
      Step (ofSN s1, ofSN s2) (ofSN (SNStep.updateState c s1), ofSN (SNStep.updateState c s2))

end
end Verif.Spins
