import Verif.FlowChart
import Verif.Py
import Mathlib.Algebra.Order.Field.Rat
import Mathlib.Tactic.Linarith
import Mathlib.Tactic.NormNum
/-!
Model of the star classification in `/repo/posydon/utils/common_functions.py`: `infer_star_state` (l.1477-1530) and
`check_state_of_star` (l.1052-1106).

Simplification: floats are rationals, `NaN`/missing values are `none` (comparisons with them are false).  Passing
Python `None` for a luminosity or central abundance of a normal star raises `TypeError` and is not modelled.  The
rounding to ten digits is an arbitrary function `rnd`, the relative burning threshold `log10(0.03)` a parameter.
-/
namespace Verif.StarState
open Verif.FlowChart (Star)

inductive Rich | Hrich | accreted | stripped deriving DecidableEq, Repr
inductive Burning | coreH | coreHe | shellH | nonBurning | coreHeDep | coreCDep deriving DecidableEq, Repr

/-- Values returned by the classification. -/
inductive State
  | undetermined | massless | WD | NS | BH | normal (r : Rich) (b : Burning)
  deriving DecidableEq, Repr

structure Inputs where
  mass : Option ℚ
  surfaceH : Option ℚ
  centerH : Option ℚ
  centerHe : Option ℚ
  centerC : Option ℚ
  logLH : Option ℚ
  logLHe : Option ℚ
  logLnuc : Option ℚ

/-- `x > t` with NaN. -/
def gt (x : Option ℚ) (t : ℚ) : Bool := match x with
  | some v => decide (t < v)
  | none => false

/-- `x < y` with NaN. -/
def lt (x y : Option ℚ) : Bool := match x, y with
  | some v, some w => decide (v < w)
  | _, _ => false

/-- `log_L > LOG10_BURNING_THRESHOLD and log_L - log_Lnuc > REL_LOG10_BURNING_THRESHOLD`, l.1502-1505. -/
def burns (rel : ℚ) (l lnuc : Option ℚ) : Bool :=
  gt l (-10) && (match l, lnuc with
    | some a, some b => decide (rel < a - b)
    | _, _ => false)

/-- `infer_star_state(..., star_CO=True)`, l.1481-1494. -/
def inferCO (i : Inputs) : State :=
  match i.mass with
  | none => .massless
  | some m =>
    if m ≤ 0 then .massless
    else if (gt i.surfaceH 0 || gt i.centerH 0 || gt i.centerHe 0 || gt i.centerC 0 || decide (m < 11 / 10)) &&
        decide (m ≤ 146 / 100) then .WD
    else if m ≤ 5 / 2 then .NS
    else .BH

/-- `infer_star_state(..., star_CO=False)`, l.1496-1530. -/
def inferNormal (rnd : ℚ → ℚ) (rel : ℚ) (i : Inputs) : State :=
  match i.surfaceH with
  | none => .undetermined
  | some s =>
    let rich : Rich := if s > 1 / 100 then .Hrich
      else if lt (some (rnd s)) (i.centerH.map rnd) then .accreted else .stripped
    let burningH := burns rel i.logLH i.logLnuc
    let burningHe := burns rel i.logLHe i.logLnuc
    let hCore := gt i.centerH (1 / 100)
    let heCore := gt i.centerHe (1 / 100)
    let cCore := gt i.centerC (1 / 100)
    let burning : Burning :=
      if !(hCore || heCore) then (if !cCore then .coreCDep else .coreHeDep)
      else if hCore then (if burningH then .coreH else .nonBurning)
      else (if burningHe then .coreHe else if burningH then .shellH else .nonBurning)
    .normal rich burning

/-- `infer_star_state`. -/
def infer (rnd : ℚ → ℚ) (rel : ℚ) (co : Bool) (i : Inputs) : State :=
  if co then inferCO i else inferNormal rnd rel i

/-- `check_state_of_star`, l.1052-1106: a star that was a white dwarf stays one; only the mass is passed on for
compact objects. -/
def checkState (rnd : ℚ → ℚ) (rel : ℚ) (co wasWD : Bool) (i : Inputs) : State :=
  if co then (if wasWD then .WD else inferCO ⟨i.mass, none, none, none, none, none, none, none⟩)
  else inferNormal rnd rel i

/-! ### Specification -/

def Rich.name : Rich → String
  | .Hrich => "H-rich" | .accreted => "accreted_He" | .stripped => "stripped_He"
def Burning.name : Burning → String
  | .coreH => "Core_H_burning" | .coreHe => "Core_He_burning" | .shellH => "Shell_H_burning"
  | .nonBurning => "non_burning" | .coreHeDep => "Core_He_depleted" | .coreCDep => "Core_C_depleted"

/-- The string returned, l.1530. -/
def State.name : State → String
  | .undetermined => "undetermined_evolutionary_state"
  | .massless => "massless_remnant" | .WD => "WD" | .NS => "NS" | .BH => "BH"
  | .normal r b => r.name ++ "_" ++ b.name

/-- The conditions of the composition of the envelope. -/
def IsRich (rnd : ℚ → ℚ) (s : ℚ) (c : Option ℚ) : Rich → Prop
  | .Hrich => 1 / 100 < s
  | .accreted => s ≤ 1 / 100 ∧ ∃ h, c = some h ∧ rnd s < rnd h
  | .stripped => s ≤ 1 / 100 ∧ ∀ h, c = some h → rnd h ≤ rnd s

/-- An abundance or luminosity is present (above threshold). -/
def Above (t : ℚ) (x : Option ℚ) : Prop := ∃ v, x = some v ∧ t < v

def Burns (rel : ℚ) (l lnuc : Option ℚ) : Prop := ∃ a b, l = some a ∧ lnuc = some b ∧ -10 < a ∧ rel < a - b

/-- The conditions of the burning stage, one by one. -/
def IsBurning (rel : ℚ) (i : Inputs) : Burning → Prop
  | .coreH => Above (1 / 100) i.centerH ∧ Burns rel i.logLH i.logLnuc
  | .coreHe => ¬ Above (1 / 100) i.centerH ∧ Above (1 / 100) i.centerHe ∧ Burns rel i.logLHe i.logLnuc
  | .shellH => ¬ Above (1 / 100) i.centerH ∧ Above (1 / 100) i.centerHe ∧ ¬ Burns rel i.logLHe i.logLnuc ∧
      Burns rel i.logLH i.logLnuc
  | .nonBurning => (Above (1 / 100) i.centerH ∨ Above (1 / 100) i.centerHe) ∧ ¬ Burns rel i.logLH i.logLnuc ∧
      (Above (1 / 100) i.centerH ∨ ¬ Burns rel i.logLHe i.logLnuc)
  | .coreHeDep => ¬ Above (1 / 100) i.centerH ∧ ¬ Above (1 / 100) i.centerHe ∧ Above (1 / 100) i.centerC
  | .coreCDep => ¬ Above (1 / 100) i.centerH ∧ ¬ Above (1 / 100) i.centerHe ∧ ¬ Above (1 / 100) i.centerC

/-- The combinations that no table of the flow chart knows. -/
def unlisted : List State :=
  [.undetermined, .normal .accreted .coreHeDep, .normal .accreted .coreCDep, .normal .stripped .coreH,
   .normal .stripped .shellH]

theorem gt_iff (x : Option ℚ) (t : ℚ) : gt x t = true ↔ Above t x := by
  cases x <;> simp [gt, Above]

theorem burns_iff (rel : ℚ) (l n : Option ℚ) : burns rel l n = true ↔ Burns rel l n := by
  cases l <;> cases n <;> simp [burns, Burns, gt]

end Verif.StarState
