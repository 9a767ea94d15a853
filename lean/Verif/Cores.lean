import Verif.Kinds
import Verif.MergedProps
/-!
The core masses of a star through the steps of an evolution: `Verif.CE` (step_CEE.py), `Verif.SNStep` (step_SN.py), `Verif.Merged` (step_merged.py),
the grid steps of `/repo/posydon/binary_evol/MESA/step_mesa.py` and detached evolution.

A star is seen as its mass and the masses of its helium and carbon-oxygen cores, each of which may be unknown (`None` or NaN). Grid tracks and
single-star tracks are data: after such a step a star has the values of the track, and a compact object keeps its attributes while its mass does not
decrease (step_mesa.py l.640-714, 926-952; step_detached.py l.755-774).
-/
namespace Verif.Cores

noncomputable section
open Classical

/-- Mass and core masses of a star. -/
structure Body where
  mass : ℝ
  he : Option ℝ
  co : Option ℝ

/-! ### Specification -/

/-- Cores lie inside each other: none is heavier than what it is the core of, and none is negative. Says nothing about a carbon-oxygen core without a
helium core. -/
def Nested (s : Body) : Prop := ∀ h, s.he = some h → 0 ≤ h ∧ h ≤ s.mass ∧ ∀ c, s.co = some c → 0 ≤ c ∧ c ≤ h

/-! ### The steps -/

def ofCE (s : CE.Star) : Body := ⟨s.mass, some s.heM, some s.coM⟩

/-- A star of the common-envelope step that is not a compact object has its core masses. -/
def View (s : CE.Star) (x : Body) : Prop := x.mass = s.mass ∧ (FlowChart.isNormal s.state = true → x = ofCE s)

/-- A star after the common-envelope step: the attributes of a compact object are those it had. -/
def after (s s' : CE.Star) (x : Body) : Body := if FlowChart.isNormal s.state = true then ofCE s' else { x with mass := s'.mass }

/-- The core of the envelope calculation is not lighter than the carbon-oxygen core. -/
def CoreData (cfg : CE.Cfg) (s : CE.Star) : Prop := ∀ l, CE.lambdaCE cfg s = .ok l → s.coM ≤ l.mc

def number : SNStep.Val → Option ℝ
  | .num x => some x
  | _ => none

def ofSN (s : SNStep.Star) : Body := ⟨s.mass, number (s.attr "he_core_mass"), number (s.attr "co_core_mass")⟩

def numberQ : Merged.Val → Option ℝ
  | .num x => some (x : ℝ)
  | _ => none

/-- A star with the mass `m`. -/
def ofMerged (s : Merged.Star) (m : ℚ) : Body := ⟨m, numberQ (s.get "he_core_mass"), numberQ (s.get "co_core_mass")⟩

/-- What a grid step or detached evolution does to a star. -/
inductive Quiet : Body → Body → Prop
  | track (x y : Body) (h : Nested y) : Quiet x y
  | compact (x : Body) (m : ℝ) (h : x.mass ≤ m) : Quiet x { x with mass := m }

/-- The mass of an interpolated remnant is the one of the grid. -/
def ModelMass (s : SNStep.Star) : Prop := ∀ q m, s.interp = some q → q.mass = some m → 0 ≤ m

/-- A star whose masses are numbers; a neutron star or black hole has no helium core, and a star on the main sequence has none yet. -/
structure Recorded (s : Merged.Star) (m h c : ℚ) : Prop where
  mass : s.get "mass" = .num m
  cores : s.state ≠ some .NS → s.state ≠ some .BH → s.get "he_core_mass" = .num h ∧ s.get "co_core_mass" = .num c
  young : s.state = some .hCoreH → h = 0

/-- One step: the two stars before and after. -/
inductive Step : Body × Body → Body × Body → Prop
  | ce (cfg : CE.Cfg) (b b' : CE.Binary) (x y : Body) (h : CE.step cfg b = .ok b')
      (hl : cfg.massLoss = false) (d1 : CoreData cfg b.star1) (d2 : CoreData cfg b.star2) (hx : View b.star1 x) (hy : View b.star2 y) :
      Step (x, y) (after b.star1 b'.star1 x, after b.star2 b'.star2 y)
  | sn (c : SNStep.Cfg) (b b' : SNStep.Binary) (h : SNStep.step c b = .ok b') (m1 : ModelMass b.s1) (m2 : ModelMass b.s2) :
      Step (ofSN b.s1, ofSN b.s2) (ofSN b'.s1, ofSN b'.s2)
  | merged (cfg : Merged.Cfg) (b b' : Merged.Binary) (m1 h1 c1 m2 h2 c2 m1' m2' : ℚ) (h : Merged.call cfg b = .ok b')
      (hq : cfg.loss ≤ 1) (d1 : Recorded b.star1 m1 h1 c1) (d2 : Recorded b.star2 m2 h2 c2)
      (hm1 : b'.star1.get "mass" = .num m1') (hm2 : b'.star2.get "mass" = .num m2') :
      Step (ofMerged b.star1 m1, ofMerged b.star2 m2) (ofMerged b'.star1 m1', ofMerged b'.star2 m2')
  | quiet (x y x' y' : Body) (h1 : Quiet x x') (h2 : Quiet y y') : Step (x, y) (x', y')

end
end Verif.Cores
