import Mathlib.Data.Real.Basic
import Mathlib.Tactic.NormNum
/-!
Model of the recombination energies of the cells of a stellar profile, `/repo/posydon/utils/common_functions.py`: `calculate_H2recombination_energy`
(l.2606-2639), `calculate_recombination_energy` (l.2642-2693) and `profile_recomb_energy` (l.2696-2726), with the constants of
`/repo/posydon/utils/constants.py` l.23-45, 108-109.

Simplifications: floats are real numbers (no NaN); a profile is the list of its cells with the five columns used, and says which columns it has; warnings
are left out.
-/
namespace Verif.Recomb

noncomputable section
open Classical

inductive Err | value
  deriving DecidableEq

/-! ### Constants -/

def avo : ℝ := 6.02214129e23
def ev2erg : ℝ := 1.602176565e-12
def planck : ℝ := 6.62606896e-27
def clight : ℝ := 2.99792458e10
def inversecm2erg : ℝ := planck * clight
def Hw : ℝ := 1.00782503207
def Hew : ℝ := 4.002603254131

/-- One cell: mass fractions, neutral fractions and the mean charge of helium. -/
structure Cell where
  X : ℝ
  Y : ℝ
  neutralH : ℝ
  neutralHe : ℝ
  chargeHe : ℝ

/-- The names of the columns of a profile. -/
structure Cols where
  x : Bool
  y : Bool
  nH : Bool
  nHe : Bool
  qHe : Bool

/-- `not np.any(x > -tolerance)` -/
def noneAbove (tol : ℝ) (l : List ℝ) : Prop := ¬ ∃ x ∈ l, x > -tol

/-- l.2632-2634 -/
def h2Cell (c : Cell) : ℝ := 35999.582894 * inversecm2erg / (2 * Hw) * c.X * avo

/-- `calculate_H2recombination_energy` -/
def h2 (cols : Cols) (tol : ℝ) (p : List Cell) : Except Err (List ℝ) :=
  if cols.x = false then .ok (p.map fun _ => 0)
  else if noneAbove tol (p.map h2Cell) then .error .value else .ok (p.map h2Cell)

/-- `profile_recomb_energy`, l.2718-2726 -/
def profileEnergy (x y fHII fHeII fHeIII : ℝ) : ℝ :=
  (54.4177650 * fHeIII / Hew * y * avo + 24.587388 * (fHeII + fHeIII) / Hew * y * avo + 13.598434 * fHII / Hw * x * avo) * ev2erg

/-- l.2669-2682: the columns of the profile are changed in place. -/
def clamp (c : Cell) : Cell :=
  { c with neutralH := min 1 c.neutralH, neutralHe := min 1 c.neutralHe, chargeHe := max c.chargeHe 0 }

/-- l.2673, 2683-2688, of a cell whose columns were changed -/
def cellEnergy (c : Cell) : ℝ :=
  let fHeII := 2 - 2 * c.neutralHe - c.chargeHe
  profileEnergy c.X c.Y (1 - c.neutralH) fHeII (1 - fHeII - c.neutralHe)

/-- `calculate_recombination_energy`: the energies, and the profile after the call. -/
def recomb (cols : Cols) (tol : ℝ) (p : List Cell) : Except Err (List ℝ) × List Cell :=
  if !(cols.y && cols.x && cols.nH && cols.nHe && cols.qHe) then (.ok (p.map fun _ => 0), p)
  else if noneAbove tol ((p.map clamp).map cellEnergy) then (.error .value, p.map clamp)
  else (.ok ((p.map clamp).map cellEnergy), p.map clamp)

/-! ### Specification -/

/-- A gas: fractions of the ions of hydrogen and helium. -/
structure Ions where
  HI : ℝ
  HII : ℝ
  HeI : ℝ
  HeII : ℝ
  HeIII : ℝ

def Ions.Valid (i : Ions) : Prop :=
  0 ≤ i.HI ∧ 0 ≤ i.HII ∧ i.HI + i.HII = 1 ∧ 0 ≤ i.HeI ∧ 0 ≤ i.HeII ∧ 0 ≤ i.HeIII ∧ i.HeI + i.HeII + i.HeIII = 1

/-- The cell of a gas. -/
def Ions.cell (i : Ions) (X Y : ℝ) : Cell := ⟨X, Y, i.HI, i.HeI, i.HeII + 2 * i.HeIII⟩

/-- Erg per gram set free if all ions become neutral: each ion gives the energies, in eV, of all its electrons. -/
def Ions.energy (i : Ions) (X Y : ℝ) : ℝ :=
  ev2erg * avo * (X / Hw * (i.HII * 13.598434) + Y / Hew * (i.HeII * 24.587388 + i.HeIII * (24.587388 + 54.4177650)))

end
end Verif.Recomb
