import Mathlib.Analysis.SpecialFunctions.Pow.Real
import Mathlib.Analysis.SpecialFunctions.Trigonometric.Basic
/-!
# Gamma-ray bursts

Model of `/repo/posydon/popsyn/GRB.py`, `get_GRB_properties` (l.14-132), for each star of each row of the table. The draws of the opening angles are
parameters; numbers are real, undefined ones `none`; `Ext` is the result of a division; exceptions are values.
-/
namespace Verif.Burst

inductive Err
  | value
  deriving DecidableEq, Repr

/-- The efficiency as given: a `float` or something else. -/
inductive Eff
  | float (x : ℝ)
  | other

/-- The beaming as given, l.48-89. -/
inductive Beam
  | float (x : ℝ)
  | goldstein
  | pescalli
  | other

/-- A number, an infinity or not a number. -/
inductive Ext
  | num (x : ℝ)
  | inf (negative : Bool)
  | nan

/-- `a / b` of numpy. -/
noncomputable def Ext.div (a b : ℝ) : Ext := if b ≠ 0 then .num (a / b) else if a = 0 then .nan else .inf (decide (a < 0))

/-- `x / 25.` -/
noncomputable def Ext.over (c : ℝ) : Ext → Ext
  | .num x => .num (x / c)
  | e => e

/-- `x >= y` -/
noncomputable def Ext.ge : Ext → ℝ → Bool
  | .num x, y => decide (y ≤ x)
  | .inf n, _ => !n
  | .nan, _ => false

/-- The six columns of a star. -/
structure Out where
  eta : Option ℝ
  fB : Option ℝ
  e : ℝ
  iso : Ext
  lum : Ext
  flag : Bool

/-- `f_B`, l.78-84, for one energy. -/
noncomputable def pescalli (e eta : ℝ) : ℝ :=
  if 0 < e then ((7e46 : ℝ) ^ (0.5 : ℝ) * (eta * e / 25) ^ (-0.5 : ℝ)) ^ (1 / (1 - 0.5) : ℝ) else 1

/-- Opening angle in radian from a draw of the normal distribution, l.54, and the beaming, l.57-58. -/
noncomputable def goldstein (draw : ℝ) : ℝ :=
  let theta := (10 : ℝ) ^ draw / 180 * Real.pi
  4 * Real.pi * (1 - Real.cos theta) / (4 * Real.pi)

/-- One star of one row, l.122-130, once the options have been accepted; `unit` is the energy of a mass of one. A row which is not selected
has energies zero, l.93, 100, 107. -/
noncomputable def star (unit eff isoMin : ℝ) (beam : Beam) (draw : ℝ) (disk : Option ℝ) : Out :=
  match disk with
  | none => ⟨none, none, 0, .num 0, .num 0, false⟩
  | some m =>
    if 0 < m then
      let e := eff * m * unit
      let fB := match beam with
        | .float x => x
        | .goldstein => goldstein draw
        | .pescalli => pescalli e eff
        | .other => 0
      let iso := Ext.div e fB
      ⟨some eff, some fB, e, iso, iso.over 25, iso.ge isoMin⟩
    else ⟨none, none, 0, .num 0, .num 0, false⟩

/-- The table: the radiated masses of the two stars of each row, if there are such columns (l.18-20); the options are checked in the order of the
code (l.31-36, 89). -/
noncomputable def properties (unit : ℝ) (eff : Eff) (beam : Beam) (isoMin : ℝ) (draws : ℕ → ℕ → ℝ) (cols : Option (List (Option ℝ)) × Option (List (Option ℝ))) :
    Except Err (List (Out × Out)) :=
  match cols with
  | (some d1, some d2) =>
    match eff with
    | .other => .error .value
    | .float x =>
      if x < 0 ∨ 1 < x then .error .value
      else match beam with
        | .other => .error .value
        | b => .ok (List.zipWith (fun (i : ℕ) (p : Option ℝ × Option ℝ) => (star unit x isoMin b (draws 1 i) p.1, star unit x isoMin b (draws 2 i) p.2))
            (List.range d1.length) (d1.zip d2))
  | _ => .error .value

end Verif.Burst
