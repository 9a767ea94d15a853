import Verif.Orbit
import Mathlib.Analysis.SpecialFunctions.Trigonometric.Arctan
import Mathlib.Analysis.SpecialFunctions.Trigonometric.Inverse
import Mathlib.Tactic.FieldSimp
import Mathlib.Tactic.Positivity
/-!
Model of the orbit after a supernova in `StepSN.orbital_kick` (`posydon/binary_evol/SN/step_SN.py` lines 1751-2053) and of `get_combined_tilt` (2217-2247).

Real numbers for floats. The rounding of `sin_psi` to five digits (`np.round`, line 1800) is a parameter `rd`. A division by a vanishing `1/Apost` gives
infinity in numpy, and dividing by that infinity gives 0; in Lean `0⁻¹ = 0` and dividing by 0 gives 0, so the quantities computed from `Apost` agree (the
separation itself is then not reported, because the binary is disrupted). The eccentric anomaly `E` is the root returned by `brentq`.
-/
namespace Verif.Kick

open Real

noncomputable section

structure V3 where
  x : ℝ
  y : ℝ
  z : ℝ

/-- Collapsing star, companion and remnant mass (solar masses), separation (solar radii), eccentricity, eccentric anomaly, kick velocity (km/s) and
direction. -/
structure In where
  Mhe : ℝ
  Mcomp : ℝ
  Mco : ℝ
  A : ℝ
  e : ℝ
  E : ℝ
  Vk : ℝ
  cosθ : ℝ
  φ : ℝ

/-- `const.standard_cgrav` -/
def G : ℝ := Orbit.cgrav

/-- `const.SNcheck_ERR` (constants.py line 110) -/
def err : ℝ := 1e-10

/-- `const.km2cm` (constants.py line 106) -/
def km2cm : ℝ := 1.0e5

/-- line 1782 with 1776-1777 -/
def mpre (i : In) : ℝ := i.Mhe * Orbit.Msun + i.Mcomp * Orbit.Msun

/-- line 1783 with 1777-1778 -/
def mpost (i : In) : ℝ := i.Mco * Orbit.Msun + i.Mcomp * Orbit.Msun

/-- line 1779 -/
def apre (i : In) : ℝ := i.A * Orbit.Rsun

/-- lines 1767, 1781 -/
def rpre (i : In) : ℝ := i.A * (1 - i.e * cos i.E) * Orbit.Rsun

/-- line 1780 -/
def vk (i : In) : ℝ := i.Vk * km2cm

/-- line 1786 -/
def sinθ (i : In) : ℝ := sqrt (1 - i.cosθ ^ 2)

/-- line 1793 -/
def vr (i : In) : ℝ := sqrt (G * mpre i * (2 / rpre i - 1 / apre i))

/-- the argument of the rounding in lines 1800-1802 -/
def sinψ₀ (i : In) : ℝ := sqrt (G * mpre i * (1 - i.e ^ 2) * apre i) / (rpre i * vr i)

/-- lines 1800-1802 -/
def sinψ (rd : ℝ → ℝ) (i : In) : ℝ := rd (sinψ₀ i)

/-- lines 1803-1805 -/
def cosψ (rd : ℝ → ℝ) (i : In) : ℝ := if i.E > π then sqrt (1 - sinψ rd i ^ 2) * -1 else sqrt (1 - sinψ rd i ^ 2)

/-- `1 / Apost`, lines 1814-1816 -/
def invA (i : In) : ℝ := 2 / rpre i - (vk i ^ 2 + vr i ^ 2 + 2 * (vk i * i.cosθ) * vr i) / (G * mpost i)

def apost (i : In) : ℝ := (invA i)⁻¹

/-- the components of the kick, lines 1820-1822 -/
def kick (rd : ℝ → ℝ) (i : In) : V3 :=
  ⟨vk i * (sinθ i * sin i.φ * sinψ rd i + i.cosθ * cosψ rd i),
   vk i * (-sinθ i * sin i.φ * cosψ rd i + i.cosθ * sinψ rd i),
   vk i * sinθ i * cos i.φ⟩

/-- lines 1830-1832 -/
def xpost (rd : ℝ → ℝ) (i : In) : ℝ :=
  ((kick rd i).z ^ 2 + ((kick rd i).y + vr i * sinψ rd i) ^ 2) * rpre i ^ 2 / (G * mpost i * apost i)

/-- lines 1835-1838; `none` is `NaN` -/
def epost (rd : ℝ → ℝ) (i : In) : Option ℝ := if 1 - xpost rd i < 0 then none else some (sqrt (1 - xpost rd i))

/-- lines 1934-1936 -/
def flag1 (i : In) (e : ℝ) : Prop := 1 - e - rpre i / apost i ≤ err ∧ rpre i / apost i - (1 + e) ≤ err

/-- line 1944 -/
def corr (i : In) : ℝ := vr i ^ 2 * rpre i / (G * mpre i)

/-- lines 1945-1951 -/
def flag2 (i : In) : Prop :=
  rpre i / apost i - (2 - mpre i / mpost i * (vk i / vr i - 1) ^ 2 * corr i) < err ∧
    err > 2 - mpre i / mpost i * (vk i / vr i + 1) ^ 2 * corr i - rpre i / apost i

/-- `SNCheck`, lines 1873-1976; with an undefined eccentricity the third flag is false -/
def survives (rd : ℝ → ℝ) (i : In) : Prop :=
  match epost rd i with
  | none => False
  | some e => flag1 i e ∧ flag2 i ∧ ¬ e ≥ 1

/-- systemic velocity (cm/s), lines 1844-1855 -/
def vsys (rd : ℝ → ℝ) (i : In) : V3 :=
  ⟨i.Mco * Orbit.Msun * ((kick rd i).x + vr i * cosψ rd i) / mpost i - i.Mhe * Orbit.Msun * vr i * cosψ rd i / mpre i,
   i.Mco * Orbit.Msun * ((kick rd i).y + vr i * sinψ rd i) / mpost i - i.Mhe * Orbit.Msun * vr i * sinψ rd i / mpre i,
   i.Mco * Orbit.Msun * (kick rd i).z / mpost i - 0⟩

/-- lines 1867-1871 -/
def tilt (rd : ℝ → ℝ) (i : In) : ℝ :=
  let t := arccos (((kick rd i).y + vr i * sinψ rd i) / sqrt ((kick rd i).z ^ 2 + ((kick rd i).y + vr i * sinψ rd i) ^ 2))
  if (kick rd i).z < 0 then t * -1 else t

structure Out where
  sep : ℝ
  ecc : ℝ
  vsys : V3
  tilt : ℝ

open Classical in
/-- The new orbit (separation in solar radii, systemic velocity in km/s), or `none` if the binary is disrupted: lines 1979-2053. -/
def post (rd : ℝ → ℝ) (i : In) : Option Out :=
  if survives rd i then
    (epost rd i).map fun e =>
      ⟨apost i / Orbit.Rsun, e, ⟨(vsys rd i).x / km2cm, (vsys rd i).y / km2cm, (vsys rd i).z / km2cm⟩, tilt rd i⟩
  else none

/-- Kepler's equation, the function given to `brentq` in lines 1762-1764 -/
def kepler (M e x : ℝ) : ℝ := M - x + e * sin x

/-- lines 1769-1771 -/
def trueAnomaly (e E : ℝ) : ℝ := 2 * arctan (sqrt ((1 + e) / (1 - e)) * tan (E / 2))

/-- `get_combined_tilt`, step_SN.py lines 2242-2247 -/
def combinedTilt (t1 t2 ν1 ν2 : ℝ) : Except Orbit.Err ℝ :=
  match Orbit.rotate [1, 0, 0] t1 with
  | .error x => .error x
  | .ok R1 =>
    let z' := R1.mulVec ![0, 0, 1]
    match Orbit.rotate [z' 0, z' 1, z' 2] (ν2 - ν1) with
    | .error x => .error x
    | .ok R2 =>
      let x' := R2.mulVec ![1, 0, 0]
      match Orbit.rotate [x' 0, x' 1, x' 2] t2 with
      | .error x => .error x
      | .ok R3 => .ok (arccos ((R3.mulVec z') 2))

/-! ### specification: two bodies at relative position `(r, 0, 0)` -/

def V3.add (a b : V3) : V3 := ⟨a.x + b.x, a.y + b.y, a.z + b.z⟩
def V3.dot (a b : V3) : ℝ := a.x * b.x + a.y * b.y + a.z * b.z
def V3.cross (a b : V3) : V3 := ⟨a.y * b.z - a.z * b.y, a.z * b.x - a.x * b.z, a.x * b.y - a.y * b.x⟩

/-- position of the collapsing star relative to its companion -/
def pos (i : In) : V3 := ⟨rpre i, 0, 0⟩

/-- its velocity before the collapse -/
def vpre (rd : ℝ → ℝ) (i : In) : V3 := ⟨vr i * cosψ rd i, vr i * sinψ rd i, 0⟩

/-- its velocity after the collapse -/
def vpost (rd : ℝ → ℝ) (i : In) : V3 := (vpre rd i).add (kick rd i)

/-- specific orbital energy after the collapse -/
def energy (rd : ℝ → ℝ) (i : In) : ℝ := (vpost rd i).dot (vpost rd i) / 2 - G * mpost i / rpre i

/-- specific angular momentum before and after the collapse -/
def angPre (rd : ℝ → ℝ) (i : In) : V3 := (pos i).cross (vpre rd i)
def angPost (rd : ℝ → ℝ) (i : In) : V3 := (pos i).cross (vpost rd i)

/-- sensible input: positive masses and separation, a closed orbit, a direction -/
structure Valid (i : In) : Prop where
  he : 0 < i.Mhe
  comp : 0 < i.Mcomp
  co : 0 < i.Mco
  a : 0 < i.A
  e0 : 0 ≤ i.e
  e1 : i.e < 1
  v : 0 ≤ i.Vk
  c : i.cosθ ^ 2 ≤ 1

/-- what is used of rounding to five digits -/
structure Rounds (rd : ℝ → ℝ) : Prop where
  unit : ∀ x, 0 ≤ x → x ≤ 1 → 0 ≤ rd x ∧ rd x ≤ 1
  near : ∀ x, 0 ≤ x → x ≤ 1 → |rd x - x| ≤ 5e-6

end

end Verif.Kick
