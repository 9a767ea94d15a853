import Verif.CEProps
import Verif.SNStepProps
import Verif.KickProps
import Verif.DetachedEventProps
import Verif.DoubleCOProps
import Verif.IsolatedProps
import Verif.MergedProps
/-!
Separation and eccentricity of a binary through the steps of its evolution. The steps are the models of `Verif.CE` (step_CEE.py), `Verif.SNStep`
(step_SN.py, the orbit after a kick being that of `Verif.Kick`), `Verif.DetachedEvent` (the end of step_detached.py), `Verif.DoubleCO`
(double_CO.py), `Verif.Isolated` (step_isolated.py, disrupted and single stars) and `Verif.Merged` (step_merged.py); here they are only put one
after the other.

What the grids contain and what the integrator returns is data: separations of tracks are positive; the solution of the detached step has a
positive separation and an eccentricity in the range. A grid step leaves the eccentricity as it was (`Verif.IFStep`,
`/repo/posydon/binary_evol/MESA/step_mesa.py` l.556-558, 896-898).
-/
namespace Verif.Bound

noncomputable section
open Classical

/-- A number, or nothing. -/
def num : SNStep.Val → Option ℝ
  | .num x => some x
  | _ => none

/-- Separation and eccentricity of a binary; `none` stands for NaN or `None`. -/
abbrev Orb := Option ℝ × Option ℝ

/-- Which star is the donor (`true`: the first) and whether both lose their envelopes. -/
def roles : FlowChart.Ev → Option (Bool × Bool)
  | .oCE1 => some (true, false)
  | .oDoubleCE1 => some (true, true)
  | .oCE2 => some (false, false)
  | .oDoubleCE2 => some (false, true)
  | _ => none

/-- Donor and companion have masses, radii and cores, and envelopes that are bound. -/
structure Envelopes (cfg : CE.Cfg) (b : CE.Binary) (donor comp : CE.Star) (double : Bool) : Prop where
  phys : ∀ l1 l2, CE.lambdaCE cfg donor = .ok l1 → CE.compLam cfg comp double = .ok l2 → CE.Physical cfg b donor comp l1 l2 double
  he1 : 0 < donor.heM
  co1 : ∀ l1, CE.lambdaCE cfg donor = .ok l1 → l1.ty = .co → 0 < donor.coM
  he2 : double = true → 0 < comp.heM
  co2 : ∀ l2, CE.lambdaCE cfg comp = .ok l2 → l2.ty = .co → double = true → 0 < comp.coM

/-- The orbit after a kick is the one of `Verif.Kick`. -/
def Follows (rd : ℝ → ℝ) (c : SNStep.Cfg) : Prop :=
  ∀ (p : SNStep.Pre) (a e : ℝ), p.sep = .num a → p.ecc = .num e → (c.orbit p).survives = true →
    ∃ E o, Kick.post rd ⟨p.Mhe, p.Mcomp, p.Mco, a, e, E, p.V, p.cosθ, p.phi⟩ = some o ∧ o.sep = (c.orbit p).sep ∧ o.ecc = (c.orbit p).ecc

/-- Kicks have a speed and a direction. -/
structure Kicks (c : SNStep.Cfg) : Prop where
  ecsn : ∀ s v, c.genECSN s = .ok v → 0 ≤ v
  ns : ∀ s v, c.genNS s = .ok v → 0 ≤ v
  bh : ∀ s v, c.genBH s = .ok v → 0 ≤ v
  none : ∀ s v, c.genNone s = .ok v → 0 ≤ v
  cos : c.uCos ^ 2 ≤ 1

/-- A star before its collapse: it has mass, and a kick given to it has a speed. -/
structure Collapsing (s : SNStep.Star) : Prop where
  last : 0 < s.lastMass
  kick : ∀ v, s.kickV = some v → 0 ≤ v

/-- One step: the orbit before and after. -/
inductive Step : Orb → Orb → Prop
  | ce (cfg : CE.Cfg) (b b' : CE.Binary) (h : CE.step cfg b = .ok b')
      (hr : ∀ one double, roles b.event = some (one, double) →
        Envelopes cfg b (if one then b.star1 else b.star2) (if one then b.star2 else b.star1) double) :
      Step (some b.sep, some b.ecc) (some b'.sep, some b'.ecc)
  | sn (c : SNStep.Cfg) (rd : ℝ → ℝ) (b b' : SNStep.Binary) (h : SNStep.step c b = .ok b') (hr : Kick.Rounds rd) (hf : Follows rd c) (hk : Kicks c)
      (h1 : Collapsing b.s1) (h2 : Collapsing b.s2) (hl : b.lastEcc = b.attr "eccentricity")
      (m1 : b'.s1.state ≠ "massless_remnant" → 0 < b'.s1.mass) (m2 : b'.s2.state ≠ "massless_remnant" → 0 < b'.s2.mass) :
      Step (num (b.attr "separation"), num (b.attr "eccentricity")) (num (b'.attr "separation"), num (b'.attr "eccentricity"))
  | detached (i : DetachedEvent.In) (o : DetachedEvent.Out) (a e : ℝ) (h : DetachedEvent.call i = .ok o) (hs : 0 < i.sep) (h0 : 0 ≤ i.ecc)
      (h1 : i.ecc < 1) (e0 : 0 ≤ i.eEnd) (e1 : i.eEnd < 1) : Step (some a, some e) (some o.sep, some o.ecc)
  | compact (i : DoubleCO.In) (l tau : ℝ → ℝ) (r1 r2 : ℝ) (r : DoubleCO.Res) (o : DoubleCO.Out) (h1 : 0 < i.m1) (h2 : 0 < i.m2)
      (hr1 : DoubleCO.coRadius i.m1 i.k1 = .ok r1) (hr2 : DoubleCO.coRadius i.m2 i.k2 = .ok r2)
      (hs : DoubleCO.IsSol l tau (DoubleCO.l0 i) 0 (DoubleCO.sContact i r1 r2))
      (hr : DoubleCO.Runs tau (DoubleCO.sContact i r1 r2) (DoubleCO.tauMax i) r)
      (h : DoubleCO.step i l tau r = .ok o) : Step (some i.sep, some i.ecc) (some o.sep, some o.ecc)
  | isolated (D : Isolated.Detached) (x y : Isolated.Bin) (h : Isolated.isolated D x = (y, none)) : Step (x.sep, x.ecc) (y.sep, y.ecc)
  | merged (cfg : Merged.Cfg) (b b' : Merged.Binary) (o : Orb) (h : Merged.call cfg b = .ok b') : Step o o
  | grid (a a' e : ℝ) (h : 0 < a') : Step (some a, some e) (some a', some e)

/-- Specification: an ellipse, or no orbit at all. -/
inductive Fine : Orb → Prop
  | ellipse (a e : ℝ) (ha : 0 < a) (h0 : 0 ≤ e) (h1 : e < 1) : Fine (some a, some e)
  | nothing : Fine (none, none)

/-- Steps one after the other. -/
inductive Steps : Orb → Orb → Prop
  | done (o : Orb) : Steps o o
  | next {o o' o'' : Orb} (h : Step o o') (t : Steps o' o'') : Steps o o''

end
end Verif.Bound
