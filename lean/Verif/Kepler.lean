import Verif.CEProps
import Verif.SNStepProps
import Verif.DetachedEventProps
import Verif.DoubleCOProps
import Verif.OrbitProps
/-!
Model of the places where a period and a separation are written to a binary, to compare them with Kepler's third law:
`BinaryStar.__init__` (`/repo/posydon/binary_evol/binarystar.py` l.193-202, the one that is missing is computed from the other) and the
part of `update_after_evo` (`/repo/posydon/binary_evol/DT/step_detached.py` l.603-626, 632-675) that records the orbit and the masses at the
end of detached evolution, with the masses that `track_match.py` l.1571-1575 gives to the track of a compact object (the final
values read at the end of a star's life, key_library.py l.165-176, do not contain the mass). The common-envelope step,
the supernova step, the end of the detached step and the step of two compact objects are the models of `Verif.CE`, `Verif.SNStep`,
`Verif.DetachedEvent` and `Verif.DoubleCO`.

The values that `step_mesa.py` l.46-47 takes from interpolated tracks are averages with barycentric weights, of the values
or of their logarithms (`/repo/posydon/interpolation/IF_interpolation.py`, `LinearNDInterpolator` on scaled data).

Simplifications: floats are real numbers; a missing value (`None` or NaN) is `none`; the integrator's separation is positive.
-/
namespace Verif.Kepler
open Verif.Orbit (sepFromPeriod periodFromSep cgrav Msun Rsun cpi day2sec kepler)

noncomputable section
open Classical

/-- binarystar.py l.193-202: separation and period after construction. -/
def created (m1 m2 sep per : Option ℝ) : Option ℝ × Option ℝ :=
  match m1, m2 with
  | some m1, some m2 =>
    match sep, per with
    | none, some p => (some (sepFromPeriod p m1 m2), some p)
    | some a, none => (some a, some (periodFromSep a m1 m2))
    | s, p => (s, p)
  | _, _ => (sep, per)

/-- The end of detached evolution: the separation of the solution, the masses of the tracks of the two stars at that time, what the stars
weighed before and which are compact objects. -/
structure DetEnd where
  sep : ℝ
  secCO : Bool
  priCO : Bool
  ownSec : ℝ
  ownPri : ℝ
  trackSec : ℝ
  trackPri : ℝ

/-- track_match.py l.1571-1575: the track of a compact object has the object's mass at all times. -/
def trackMass (co : Bool) (own track : ℝ) : ℝ := if co then own else track

/-- step_detached.py l.608-609. -/
def DetEnd.mSec (x : DetEnd) : ℝ := trackMass x.secCO x.ownSec x.trackSec
def DetEnd.mPri (x : DetEnd) : ℝ := trackMass x.priCO x.ownPri x.trackPri

/-- l.622-624: the recorded period. -/
def DetEnd.per (x : DetEnd) : ℝ := periodFromSep x.sep x.mSec x.mPri

/-- l.632-637, 760-776: the recorded masses; the attributes of a compact object are left as they are. -/
def DetEnd.starSec (x : DetEnd) : ℝ := if x.secCO then x.ownSec else x.mSec
def DetEnd.starPri (x : DetEnd) : ℝ := if x.priCO then x.ownPri else x.mPri

/-- The binary that `__call__` goes on with, l.346-470. -/
def DetEnd.input (x : DetEnd) (i : DetachedEvent.In) : DetachedEvent.In :=
  { i with sep := x.sep, per := x.per, mSec := x.starSec, mPri := x.starPri, secCO := x.secCO, priCO := x.priCO }

/-- Interpolation with weights `w` on the points `s`: of the values, or of their logarithms. -/
def mix {ι : Type} (s : Finset ι) (w x : ι → ℝ) : ℝ := ∑ i ∈ s, w i * x i
def logMix {ι : Type} (s : Finset ι) (w x : ι → ℝ) : ℝ := (10 : ℝ) ^ (∑ i ∈ s, w i * Orbit.lg (x i))

/-! ### Specification -/

/-- Kepler's third law in cgs units, for a period in days, a separation in solar radii and a total mass in solar masses, to the relative
accuracy `tol`. -/
def Law (tol P a M : ℝ) : Prop :=
  |cgrav * (M * Msun) * (P * 86400) ^ 2 - 4 * cpi ^ 2 * (a * Rsun) ^ 3| ≤ tol * (4 * cpi ^ 2 * (a * Rsun) ^ 3)

/-- The accuracy the code keeps. -/
def tol : ℝ := 0.0005

/-- An orbit and two masses that one of the steps leaves a bound binary with. -/
inductive Written : ℝ → ℝ → ℝ → ℝ → Prop
  | created (m1 m2 a P : ℝ) (sep per : Option ℝ) (hmiss : sep = none ∨ per = none)
      (h : created (some m1) (some m2) sep per = (some a, some P)) : Written P a m1 m2
  | ce (cfg : CE.Cfg) (b b' : CE.Binary) (h : CE.step cfg b = .ok b') (hs : b'.state = .detached) :
      Written b'.per b'.sep b'.star1.mass b'.star2.mass
  | sn (c : SNStep.Cfg) (b b' : SNStep.Binary) (P a : ℝ) (h : SNStep.step c b = .ok b') (hP : b'.attr "orbital_period" = .num P)
      (ha : b'.attr "separation" = .num a) : Written P a b'.s1.mass b'.s2.mass
  | detached (x : DetEnd) (i : DetachedEvent.In) (o : DetachedEvent.Out) (hs : i.startRLO = false) (hx : 0 < x.sep)
      (hm : 0 < x.starSec + x.starPri) (h0 : 0 ≤ i.eEnd) (h1 : i.eEnd < 1) (h : DetachedEvent.call (x.input i) = .ok o) :
      Written o.per o.sep (if i.secIsOne then x.starSec else x.starPri) (if i.secIsOne then x.starPri else x.starSec)
  | compact (i : DoubleCO.In) (l tau : ℝ → ℝ) (r : DoubleCO.Res) (o : DoubleCO.Out) (P : ℝ) (h : DoubleCO.step i l tau r = .ok o)
      (hP : o.period = some P) : Written P o.sep i.m1 i.m2

end
end Verif.Kepler
