import Mathlib.Analysis.SpecialFunctions.Log.Base
import Mathlib.Analysis.SpecialFunctions.Pow.Real
import Mathlib.Analysis.SpecialFunctions.Sqrt
/-!
Model of the rotation of matched stars in `/repo/posydon/binary_evol/track_match.py`: `calc_omega` (l.1631-1733),
`update_rotation_info` (l.1735-1828) and the part of `update_star_properties` that leaves the spin alone (l.2211-2222).

Simplification: floats are reals and division by zero is an error (as for Python floats); the logarithm of a number that is not
positive is `NaN`; printing and warnings are left out.
-/
namespace Verif.Spin

/-- An attribute: `None`, `NaN` or a number. -/
inductive V | none | nan | num (x : ℝ)

/-- `pd.notna`. -/
def V.known : V → Prop | .num _ => True | _ => False

/-- The constants used: seconds in a year, the gravitational constant, solar mass and radius. -/
structure Const where
  secyer : ℝ
  G : ℝ
  msol : ℝ
  rsol : ℝ
  secyer_pos : 0 < secyer

/-- The attributes of a star that are read or written; `trackR`, `trackM` are the values of its track at the matched age. -/
structure Star where
  lgJ : V
  moi : V
  ratio : V
  omega : V
  logR : V
  mass : ℝ
  trackR : ℝ
  trackM : ℝ
  matched : Bool

inductive Err | type | zeroDiv

/-- The critical rotation rate in rad/s, l.1693-1695, 1706-1708. -/
noncomputable def critical (c : Const) (m R : ℝ) : ℝ := Real.sqrt (c.G * m * c.msol / (R * c.rsol) ^ 3)

/-- `calc_omega`, l.1659-1733, in rad/yr.  A moment of inertia of zero divides by zero. -/
noncomputable def calcOmega (c : Const) (s : Star) : Except Err ℝ :=
  match s.lgJ, s.moi with
  | .num j, .num i => if i = 0 then .error .zeroDiv else .ok ((10 : ℝ) ^ j / i * c.secyer)
  | _, _ =>
    match s.omega with
    | .num w => .ok (w * c.secyer)
    | _ =>
      match s.ratio with
      | .num r =>
        match s.logR with
        | .num lr => .ok (r * (critical c s.mass ((10 : ℝ) ^ lr) * c.secyer))
        | _ => .ok (r * (critical c s.trackM s.trackR * c.secyer))
      | _ => .ok 0

/-- `np.log10`. -/
noncomputable def lg (x : ℝ) : V := if 0 < x then .num (Real.logb 10 x) else .nan

/-- `new_ratio`, l.1777-1780. -/
noncomputable def newRatio (w0 w : ℝ) : V → Except Err V
  | .none => .error .type
  | .nan => .ok .nan
  | .num r => if r = 0 then .error .zeroDiv else if w / r = 0 then .error .zeroDiv else .ok (.num (w0 / (w / r)))

/-- `new_lgJ`, l.1781. -/
noncomputable def newLgJ (w0 : ℝ) : V → Except Err V
  | .none => .error .type
  | .nan => .ok .nan
  | .num i => .ok (lg (w0 * i))

/-- The update of one star with the rate found for it, l.1774-1795 (1800-1821). -/
noncomputable def update (c : Const) (w0 : ℝ) (s : Star) : Except Err Star :=
  match s.omega with
  | .num w =>
    if w > 0 then
      match newRatio (w0 / c.secyer) w s.ratio with
      | .error e => .error e
      | .ok r =>
        match newLgJ (w0 / c.secyer) s.moi with
        | .error e => .error e
        | .ok j => .ok (if s.matched then { s with ratio := r, omega := .num (w0 / c.secyer), lgJ := j } else s)
    else .ok { s with ratio := .num 0, omega := .num 0, lgJ := .num 0 }
  | _ => .ok { s with ratio := .num 0, omega := .num 0, lgJ := .num 0 }

/-- Rate and update of one star. -/
noncomputable def spin (c : Const) (s : Star) : Except Err (ℝ × Star) :=
  match calcOmega c s with
  | .error e => .error e
  | .ok w0 =>
    match update c w0 s with
    | .error e => .error e
    | .ok s' => .ok (w0, s')

/-- The outcome: rates of the primary and the secondary, and the stars. -/
structure Out where
  wPri : ℝ
  wSec : ℝ
  pri : Star
  sec : Star

/-- `update_rotation_info`, l.1769-1828. -/
noncomputable def info (c : Const) (primaryNormal : Bool) (p s : Star) : Except Err Out :=
  match spin c s with
  | .error e => .error e
  | .ok (w, s') =>
    if primaryNormal then
      match spin c p with
      | .error e => .error e
      | .ok (w', p') => .ok ⟨w', w, p', s'⟩
    else .ok ⟨w, w, p, s'⟩

/-! ### Specification -/

/-- The angular momentum a star carries according to its attributes. -/
noncomputable def Star.J (s : Star) : Option ℝ := match s.lgJ with | .num j => some ((10 : ℝ) ^ j) | _ => none

/-- A star whose rotation is consistent: known positive rate, ratio to the critical rate, moment of inertia and momentum, with
momentum = moment × rate. -/
def Star.consistent (s : Star) : Prop :=
  ∃ j i w r, s.lgJ = .num j ∧ s.moi = .num i ∧ s.omega = .num w ∧ s.ratio = .num r ∧ 0 < i ∧ 0 < w ∧ (10 : ℝ) ^ j = i * w

end Verif.Spin
