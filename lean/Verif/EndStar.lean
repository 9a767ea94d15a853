import Verif.Single
/-!
Model of what a star is given when it reaches the end of its track in the detached step: `get_star_final_values` and `get_star_profile` of
`/repo/posydon/binary_evol/track_match.py`, l.2225-2291, with `DEFAULT_PROFILE_KEYS` and `DEFAULT_FINAL_KEYS` of
`/repo/posydon/utils/key_library.py`, l.152-176. The interpolation in the grids of single stars is that of `Single`.

Simplifications: as in `Single`; the attributes of a star other than the mass of its track, the kind of its track, its angular velocity, and
its profile are a function of the name; every profile has all columns.
-/
namespace Verif.EndStar
open Verif.Single

/-- A star: the mass of its track (`interp1d.m0`), whether the track is hydrogen rich, the angular velocity, the other attributes, and the profile. -/
structure Star where
  m0 : ℝ
  htrack : Bool
  omega : ℝ
  attr : String → FV
  profile : Option (List Row)

/-- `DEFAULT_FINAL_KEYS`, key_library.py l.165-176. -/
def finalKeys : List String :=
  ["avg_c_in_c_core_at_He_depletion", "co_core_mass_at_He_depletion", "m_core_CE_1cent", "m_core_CE_10cent", "m_core_CE_30cent",
    "m_core_CE_pure_He_star_10cent", "r_core_CE_1cent", "r_core_CE_10cent", "r_core_CE_30cent", "r_core_CE_pure_He_star_10cent"]

/-- `DEFAULT_PROFILE_KEYS`, key_library.py l.152-163. -/
def profileKeys : List String :=
  ["radius", "mass", "logRho", "energy", "x_mass_fraction_H", "y_mass_fraction_He", "z_mass_fraction_metals", "neutral_fraction_H",
    "neutral_fraction_He", "avg_charge_He"]

/-- The grids of hydrogen rich stars and of stripped helium stars. -/
structure Grids where
  hRich : List Run
  strippedHe : List Run

/-- l.2250 and l.2281. -/
def Grids.of (gs : Grids) (htrack : Bool) : List Run := if htrack then gs.hRich else gs.strippedHe

/-- `get_final_values` of a grid for a name of a final value; a name which is not known is a `KeyError`. -/
noncomputable def lookup (g : List Run) (name : Name) (m : ℝ) : Except Err FV :=
  if name ∈ Single.finalKeys then
    match decode name with
    | some k => getFinal g k m
    | none => .error .key
  else .error .key

/-- `setattr`. -/
def Star.set (s : Star) (key : String) (v : FV) : Star := { s with attr := fun k => if k = key then v else s.attr k }

/-- The loop l.2253-2254. -/
noncomputable def setAll (g : List Run) (m : ℝ) : List String → Star → Except Err Star
  | [], s => .ok s
  | key :: ks, s => match lookup g ((chars! "S1_") ++ key.toList) m with
    | .error e => .error e
    | .ok v => setAll g m ks (s.set key v)

/-- `get_star_final_values`, l.2225-2254. -/
noncomputable def finalValues (gs : Grids) (s : Star) : Except Err Star := setAll (gs.of s.htrack) s.m0 finalKeys s

/-- `profile_new[key] = column`. -/
def put (key : String) (p : List Row) (col : List ℝ) : List Row := List.zipWith (fun r v k => if k = key then v else r k) p col

/-- `get_profile` of a grid; a name which is not known is a `KeyError`. -/
noncomputable def column (argsort : List Interp.Node → List Interp.Node) (g : List Run) (key : String) (m : ℝ) : Except Err (List ℝ × List Row) :=
  if key ∈ Single.profileKeys then getProfile argsort g key m else .error .key

/-- The loop l.2286-2287. -/
noncomputable def fill (argsort : List Interp.Node → List Interp.Node) (g : List Run) (m : ℝ) : List String → List Row → Except Err (List Row)
  | [], p => .ok p
  | key :: ks, p => match column argsort g key m with
    | .error e => .error e
    | .ok (col, _) => fill argsort g m ks (put key p col)

/-- `get_star_profile`, l.2256-2291. -/
noncomputable def starProfile (argsort : List Interp.Node → List Interp.Node) (gs : Grids) (s : Star) : Except Err Star :=
  match column argsort (gs.of s.htrack) "mass" s.m0 with
  | .error e => .error e
  | .ok (_, old) => match fill argsort (gs.of s.htrack) s.m0 profileKeys old with
    | .error e => .error e
    | .ok p => .ok { s with profile := some (put "omega" p (p.map fun _ => s.omega)) }

/-- The end of a star's life, step_detached.py l.437-438 (l.446-447 and l.463-464 for the other star). -/
noncomputable def endOfLife (argsort : List Interp.Node → List Interp.Node) (gs : Grids) (s : Star) : Except Err Star :=
  match finalValues gs s with
  | .error e => .error e
  | .ok t => starProfile argsort gs t

/-! ### Specification -/

/-- A row is the state of a profile at a fraction `x` of the mass: it lies, with one weight for all columns, between two cells with no other
cell in between. -/
def At (p : List Row) (top x : ℝ) (row : Row) : Prop :=
  ∃ a ∈ p, ∃ b ∈ p, ∃ t : ℝ, 0 ≤ t ∧ t ≤ 1 ∧ x * top = a "mass" + t * (b "mass" - a "mass") ∧ (∀ k, row k = a k + t * (b k - a k)) ∧
    ∀ c ∈ p, c "mass" ≤ a "mass" ∨ b "mass" ≤ c "mass"

end Verif.EndStar
