import Verif.Chars
import Mathlib.Algebra.Order.Field.Rat
import Mathlib.Algebra.Order.Floor.Ring
import Mathlib.Data.Rat.Floor
import Mathlib.Data.List.Basic
import Mathlib.Data.List.Nodup
import Mathlib.Tactic.Linarith
import Mathlib.Tactic.Ring
/-!
Model of the data around predicted profiles, `/repo/posydon/interpolation/profile_interpolation.py`: the extraction of profiles from a grid
(`CompileData`, l.33-151), the split into training and validation data (`load_profiles` l.181-214), the correction to profiles that
decrease (`mono_decrease` l.337-360), the density profiles (`Density.predict` l.462-506), and the boundaries that the networks are
trained on (`calc_bevel_bounds` l.606-617).

Simplifications: an array of 200 numbers is a function of the index, nan is `none`; the profiles of a run are given after their
interpolation to 200 cells; a division by zero gives zero; the outputs of networks, of the classifier and of the initial-final
interpolator, and the shuffling are parameters.
-/
namespace Verif.ProfTrain

abbrev Name := List Char
abbrev Row := ℕ → Option ℚ

/-! ### Extraction -/

/-- A run: its two final profiles by the names of their columns (`none`: not there), the rotation of the surface and the share of the
critical rotation of both stars. -/
structure Run where
  prof1 : Option (Name → Option Row)
  prof2 : Option (Name → Option Row)
  omega1 : Option ℚ
  crit1 : Option ℚ
  omega2 : Option ℚ
  crit2 : Option ℚ

def zeros : Row := fun _ => some 0

/-- l.130-140 -/
def cell (cols : Name → Option Row) (n : Name) : Row := (cols n).getD zeros

/-- l.142-145: the rotation of a profile over the critical rotation. -/
def normRow (r : Row) (omega crit : Option ℚ) : Row := fun k =>
  match r k, omega, crit with
  | some x, some a, some c => some (x / (a / c))
  | _, _, _ => none

def omegaN : Name := (chars! "omega")
def normN : Name := (chars! "norm_omega")

/-- `scrape`, l.87-153; `none` stands for any failure, as its callers take it (l.53-61, 72-80). -/
def scrape (names : List Name) (s2 : Bool) (r : Run) : Option (List Row) :=
  match (if s2 then r.prof2 else r.prof1) with
  | none => none
  | some cols =>
    let rows := names.map (cell cols)
    if omegaN ∈ names then
      match r.crit1 with
      | none => none
      | some _ => some (rows ++ [normRow (cell cols omegaN) r.omega1 r.crit1])
    else some (rows ++ [zeros])

/-- `CompileData.__init__`, l.33-85: the profiles of the runs that did not fail, and the list of names afterwards (the object that was
given, changed in place). -/
def compile (names : List Name) (s2 : Bool) (runs : List Run) : List (List Row) × List Name :=
  (runs.filterMap (scrape names s2), if omegaN ∈ names then names ++ [normN] else names)

/-- The default list of names of the class, before anything was extracted. -/
def defaults : List Name :=
  [(chars! "radius"), (chars! "logRho"), (chars! "x_mass_fraction_H"), (chars! "y_mass_fraction_He"), (chars! "z_mass_fraction_metals"), omegaN,
   (chars! "energy")]

/-- How the profiles are used afterwards: `profiles[:, names.index(n)]`. -/
def column (names : List Name) (rows : List Row) (n : Name) : Option Row := rows[names.idxOf n]?

/-! ### Split (l.181-214) -/

/-- `order` is the shuffled `arange(len(profiles))`. -/
def split {α : Type} (v : ℚ) (order : List ℕ) (data : List α) : List α × List α :=
  let n := ⌊(data.length : ℚ) * v⌋.toNat
  ((order.take n).filterMap (data[·]?), (order.drop n).filterMap (data[·]?))

/-! ### Profiles that decrease (l.337-360) -/

/-- l.346-350: from the surface inwards, a value below the next one further out is raised to it. -/
def raised : List ℚ → List ℚ
  | [] => []
  | a :: l =>
    match raised l with
    | [] => [a]
    | b :: t => (if b > a then b else a) :: b :: t

/-- `mono_renorm`, l.345-352 -/
def renorm (l : List ℚ) : List ℚ :=
  match l with
  | [] => []
  | a :: _ => (raised l).map fun x => if x > a then a else x

/-- l.357: is there an increase -/
def increases : List ℚ → Bool
  | a :: b :: l => (decide (b - a > 0)) || increases (b :: l)
  | _ => false

/-- `mono_decrease`, l.354-360 -/
def monoDecrease (ps : List (List ℚ)) : List (List ℚ) := ps.map fun p => if increases p = true then renorm p else p

/-! ### Density (l.462-506) -/

/-- The profiles of all binaries. `classes` are the classes in the training data, `cls` the predicted class of a binary, `net` the
prediction of the network of a class, `lo`, `hi`: the predicted density at the surface and in the centre. -/
def density {I : Type} (classes : List Name) (cls : I → Name) (net : Name → I → ℕ → ℚ) (lo hi : I → ℚ) (inputs : List I) : List Row :=
  inputs.map fun i k =>
    let p : Option ℚ :=
      if cls i ∈ classes then
        if cls i = (chars! "not_converged") ∨ cls i = (chars! "initial_MT") then none else some (net (cls i) i k)
      else some 0
    p.map fun x => x * (hi i - lo i) + lo i

/-! ### Boundaries (l.606-617) -/

/-- The indices at which a profile increases by more than 0.002. -/
def jumps (p : ℕ → ℚ) : List ℕ := (List.range 199).filter fun k => decide (p (k + 1) - p k > 2 / 1000)

/-- `calc_bevel_bounds` of one profile; `len(diff>=2)` is the length of an array of booleans, that is of `diff`. -/
def bounds (p : ℕ → ℚ) : Option (ℚ × ℚ) :=
  match jumps p with
  | [] => none
  | a :: l => some (((a : ℚ) + 1) / 200, ((l.getLastD a : ℚ) + 1) / 200)

/-! ### Specification -/

/-- Never increasing outwards. -/
def Decreasing (l : List ℚ) : Prop := l.Pairwise (· ≥ ·)

end Verif.ProfTrain
