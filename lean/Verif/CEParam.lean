import Verif.Chars
import Verif.ProfileProps
/-!
Model of the common-envelope parameters stored for every run of a grid, `CEE_parameters_from_core_abundance_thresholds`
(`/repo/posydon/utils/common_functions.py` l.1833-2013), and of the values at helium depletion,
`calculate_Patton20_values_at_He_depl` (l.1787-1830).

Simplifications: floats are real numbers, NaN is `none`; as in `Verif.Profile` a division by zero makes the three values of one
threshold not finite (`none`). The cells of the profile come with the internal energies of the default option. A state that is not in
the list of star states is `none`.
-/
namespace Verif.CEParam
open Verif.Profile
open Verif.FlowChart (Star)
open Verif.StarState (State)

noncomputable section
open Classical

/-- Mass and radius of the core and the envelope parameter for one threshold. -/
structure P where
  m : Option ℝ
  r : Option ℝ
  lam : Option ℝ

def P.nan : P := ⟨none, none, none⟩

structure Params where
  one : P
  ten : P
  thirty : P
  pure : P

/-- One pass of the loops, l.1895-1902, 1919-1928, 1934-1942. -/
def entry (s : Star) (hasX co : Bool) (f : ℝ) (cells : List Cell) : Except Err P :=
  match coreBoundary s hasX none (some f) co cells with
  | .error e => .error e
  | .ok ind =>
    match lambdaFromProfile s co f 1 0.001 ind cells with
    | .error e => .error e
    | .ok none => .ok P.nan
    | .ok (some l) => .ok ⟨some l.mc, some l.rc, l.lam⟩

def hRich : List Star := [.hCoreH, .hCoreHe, .hShellH, .hCoreHeDep, .hShellHe, .hCoreC, .hCoreCDep, .hNon]
def stripped : List Star := [.sCoreHe, .sCoreHeDep, .sCoreCDep, .sNon]

/-- The whole function. `"H-rich" in star_state` and `"stripped_He" in star_state` are the two lists. -/
def params (s : Option Star) (mass radius : ℝ) (profile : Option (Bool × List Cell)) : Except Err Params :=
  match profile with
  | none => .ok ⟨P.nan, P.nan, P.nan, P.nan⟩
  | some (hasX, cells) =>
    match s with
    | none => .ok ⟨P.nan, P.nan, P.nan, P.nan⟩
    | some s =>
      if s ∈ hRich then
        match entry s hasX false 0.01 cells with
        | .error e => .error e
        | .ok a =>
          match entry s hasX false 0.1 cells with
          | .error e => .error e
          | .ok b =>
            match entry s hasX false 0.3 cells with
            | .error e => .error e
            | .ok c =>
              match entry s hasX true 0.1 cells with
              | .error e => .error e
              | .ok d => .ok ⟨a, b, c, d⟩
      else if s ∈ stripped then
        match entry s hasX false 0.1 cells with
        | .error e => .error e
        | .ok d => .ok ⟨⟨some mass, some radius, none⟩, ⟨some mass, some radius, none⟩, ⟨some mass, some radius, none⟩, d⟩
      else .ok ⟨P.nan, P.nan, P.nan, P.nan⟩

/-- The lists are what the texts say. -/
theorem names_lists : ∀ s ∈ Star.all, (s ∈ hRich ↔ (chars! "H-rich_") <+: s.name.toList) ∧
    (s ∈ stripped ↔ (chars! "stripped_He_") <+: s.name.toList) := by decide +kernel

end

/-! ### Values at helium depletion -/

inductive Err
  | index
  deriving DecidableEq

/-- `h[i]` -/
def at? {A : Type} (h : List A) (i : ℕ) : Except Err A := match h[i]? with
  | some a => .ok a
  | none => .error .index

def hDep : State := .normal .Hrich .coreHeDep
def sDep : State := .normal .stripped .coreHeDep

/-- `calculate_Patton20_values_at_He_depl`; `states = none` is `state_history = None`. -/
def patton {A : Type} (states : Option (List State)) (co avg : List A) : Except Err (Option (A × A)) :=
  match states with
  | none => .ok none
  | some l =>
    let pick (i : ℕ) : Except Err (Option (A × A)) := match at? co i, at? avg i with
      | .ok a, .ok b => .ok (some (a, b))
      | .error e, _ => .error e
      | _, .error e => .error e
    if hDep ∈ l then pick (l.findIdx (· = hDep))
    else if sDep ∈ l then pick (l.findIdx (· = sDep))
    else .ok none

end Verif.CEParam
