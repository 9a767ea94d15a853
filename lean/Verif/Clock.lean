import Verif.CEProps
import Verif.SNStepProps
import Verif.SNProps
import Verif.DetachedProps
import Verif.DoubleCOProps
import Verif.MergedProps
import Verif.Kepler
/-!
Time and total mass of a binary through the steps of its evolution. The steps are the models of `Verif.CE` (step_CEE.py), `Verif.SNStep`
(step_SN.py), `Verif.Detached` and `Verif.Kepler` (step_detached.py, with the masses of `track_match.py`), `Verif.DoubleCO` (double_CO.py) and
`Verif.Merged` (step_merged.py, up to the call of the isolated step, which does not touch the time); here they are only put one after the other.

What the grids contain is data: a star does not gain mass on a track of a single star, and a binary does not on a track of a grid; a core is
not heavier than its star; a remnant is not heavier than what collapses (`C32_remnant_partial`). A grid step adds the age of its track to the time
(`C92_columns`, `/repo/posydon/binary_evol/MESA/step_mesa.py`).
-/
namespace Verif.Clock

noncomputable section
open Classical

/-- The remnants a supernova may leave: not heavier than the star. -/
structure Remnants (c : SNStep.Cfg) : Prop where
  rem : ∀ s r m, 0 ≤ s.mass → c.rem s = .ok r → r.m = some m → 0 ≤ m ∧ m ≤ s.mass
  bh : ∀ s m a d, 0 ≤ d → (c.bh s m a d).mass ≤ m
  nu : 0 ≤ c.maxNu

/-- The interpolated model stored with a star is not heavier than the star. -/
def ModelOk (s : SNStep.Star) : Prop := ∀ q m, s.interp = some q → q.mass = some m → m ≤ s.mass

/-- The core of a star in a common envelope is not heavier than the star. -/
def CoreOk (cfg : CE.Cfg) (s : CE.Star) : Prop := ∀ l, CE.lambdaCE cfg s = .ok l → l.mc ≤ s.mass

/-- The mass of a star of `Verif.Merged`, a number. -/
def MassIs (s : Merged.Star) (x : ℚ) : Prop := s.get "mass" = .num x

/-- One step: time and total mass before and after. -/
inductive Step : ℝ × ℝ → ℝ × ℝ → Prop
  | ce (cfg : CE.Cfg) (b b' : CE.Binary) (t t' : ℝ) (h : CE.step cfg b = .ok b') (hd1 : CoreOk cfg b.star1) (hd2 : CoreOk cfg b.star2)
      (hl : cfg.massLoss = false)
      (ht : b.rest "time" = some t) (ht' : b'.rest "time" = some t') :
      Step (t, b.star1.mass + b.star2.mass) (t', b'.star1.mass + b'.star2.mass)
  | sn (c : SNStep.Cfg) (b b' : SNStep.Binary) (t t' : ℝ) (h : SNStep.step c b = .ok b') (hd : Remnants c)
      (hm1 : ModelOk b.s1) (hm2 : ModelOk b.s2) (h1 : 0 ≤ b.s1.mass) (h2 : 0 ≤ b.s2.mass)
      (ht : b.attr "time" = .num t) (hl : b.lastTime = .num t) (ht' : b'.attr "time" = .num t') :
      Step (t, b.s1.mass + b.s2.mass) (t', b'.s1.mass + b'.s2.mass)
  | detached (dt : Option ℚ) (n : Option ℤ) (t0 T x : ℚ) (ts : List ℚ) (hT : t0 < T) (h : Detached.outTimes dt n t0 T = .ok ts)
      (hx : ts.getLast? = some x) (e : Kepler.DetEnd) (h1 : e.trackSec ≤ e.ownSec) (h2 : e.trackPri ≤ e.ownPri) :
      Step (t0, e.ownSec + e.ownPri) (x, e.starSec + e.starPri)
  | compact (i : DoubleCO.In) (l tau : ℝ → ℝ) (r1 r2 : ℝ) (r : DoubleCO.Res) (o : DoubleCO.Out) (hv : DoubleCO.Valid i)
      (hr1 : DoubleCO.coRadius i.m1 i.k1 = .ok r1) (hr2 : DoubleCO.coRadius i.m2 i.k2 = .ok r2) (hr : r1 + r2 ≤ i.sep)
      (hs : DoubleCO.IsSol l tau (DoubleCO.l0 i) 0 (DoubleCO.sContact i r1 r2))
      (h : DoubleCO.step i l tau r = .ok o) : Step (i.time, i.m1 + i.m2) (o.time, i.m1 + i.m2)
  | merged (cfg : Merged.Cfg) (b b' : Merged.Binary) (t : ℝ) (x y x' y' : ℚ) (h : Merged.call cfg b = .ok b') (hl : 0 ≤ cfg.loss)
      (hx0 : 0 ≤ x) (hy0 : 0 ≤ y) (hx : MassIs b.star1 x) (hy : MassIs b.star2 y) (hx' : MassIs b'.star1 x') (hy' : MassIs b'.star2 y') :
      Step (t, (x : ℝ) + y) (t, (x' : ℝ) + y')
  | grid (t age M M' : ℝ) (ha : 0 ≤ age) (hM : M' ≤ M) : Step (t, M) (t + age, M')

end
end Verif.Clock
