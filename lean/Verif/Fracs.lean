import Verif.Cores
/-!
The abundances of a star through the steps of an evolution: `Verif.CE` (step_CEE.py l.1108-1186), `Verif.SNStep` (step_SN.py l.637-717, 965-975),
`Verif.Merged` (step_merged.py l.125-640), grid steps and detached evolution.

A star is seen as its mass fractions at the centre and the surface, each of which may be unknown (`None` or NaN). Tracks are data: after a grid step or
detached evolution a star has the values of the track, and a compact object keeps its own.
-/
namespace Verif.Fracs

noncomputable section
open Classical

abbrev Seen := String → Option ℝ

/-- The mass fractions among the properties of a star. -/
def names : List String :=
  ["center_h1", "center_he4", "center_c12", "center_n14", "center_o16", "avg_c_in_c_core", "surface_h1", "surface_he4", "surface_c12", "surface_n14",
   "surface_o16"]

/-! ### Specification -/

/-- Every known mass fraction lies between zero and one. -/
def Fine (f : Seen) : Prop := ∀ k ∈ names, ∀ x, f k = some x → 0 ≤ x ∧ x ≤ 1

/-! ### The steps -/

def ofCE (s : CE.Star) : Seen := fun k => if k = "surface_h1" then some s.surfH else if k = "surface_he4" then some s.surfHe else s.rest k

/-- A star of the common-envelope step that is not a compact object has its abundances. -/
def View (s : CE.Star) (x : Seen) : Prop := FlowChart.isNormal s.state = true → x = ofCE s

/-- A star after the common-envelope step: the attributes of a compact object are those it had. -/
def after (s s' : CE.Star) (x : Seen) : Seen := if FlowChart.isNormal s.state = true then ofCE s' else x

/-- The metals are a fraction of the star which leaves room for the hydrogen at the boundary of the core (solar metallicity is 0.0142). -/
def Metals (s : CE.Star) : Prop := ∀ z, s.metallicity = some z → 0 ≤ z ∧ z ≤ 49

def ofSN (s : SNStep.Star) : Seen := fun k => Cores.number (s.attr k)

def ofMerged (s : Merged.Star) : Seen := fun k => Cores.numberQ (s.get k)

/-- A star with nested cores whose masses are numbers; a neutron star or black hole need not have cores. -/
structure Solid (s : Merged.Star) (m h c : ℚ) : Prop where
  mass : s.get "mass" = .num m
  cores : s.state ≠ some .NS → s.state ≠ some .BH → s.get "he_core_mass" = .num h ∧ s.get "co_core_mass" = .num c
  co : 0 ≤ c
  he : c ≤ h
  all : h ≤ m

/-- What a grid step or detached evolution does to a star. -/
inductive Quiet : Seen → Seen → Prop
  | track (x y : Seen) (h : Fine y) : Quiet x y
  | same (x : Seen) : Quiet x x

/-- One step: the two stars before and after. -/
inductive Step : Seen × Seen → Seen × Seen → Prop
  | ce (cfg : CE.Cfg) (b b' : CE.Binary) (x y : Seen) (h : CE.step cfg b = .ok b') (z1 : Metals b.star1) (z2 : Metals b.star2)
      (hx : View b.star1 x) (hy : View b.star2 y) : Step (x, y) (after b.star1 b'.star1 x, after b.star2 b'.star2 y)
  | sn (c : SNStep.Cfg) (b b' : SNStep.Binary) (h : SNStep.step c b = .ok b') : Step (ofSN b.s1, ofSN b.s2) (ofSN b'.s1, ofSN b'.s2)
  | merged (cfg : Merged.Cfg) (b b' : Merged.Binary) (m1 h1 c1 m2 h2 c2 : ℚ) (h : Merged.call cfg b = .ok b') (s1 : Solid b.star1 m1 h1 c1)
      (s2 : Solid b.star2 m2 h2 c2) : Step (ofMerged b.star1, ofMerged b.star2) (ofMerged b'.star1, ofMerged b'.star2)
  | quiet (x y x' y' : Seen) (h1 : Quiet x x') (h2 : Quiet y y') : Step (x, y) (x', y')

end
end Verif.Fracs
