import Mathlib.Analysis.SpecialFunctions.Pow.Real
import Mathlib.Analysis.SpecialFunctions.Trigonometric.Basic
import Mathlib.Analysis.Real.Pi.Bounds
/-!
Model of accretion onto a compact object, `/repo/posydon/utils/common_functions.py`: `stefan_boltzmann_law` (l.130-134),
`eddington_limit` (l.394-455), `beaming` (l.458-506), `bondi_hoyle` (l.509-669), `CO_radius` (l.1302-1337) and
`Schwarzschild_Radius` (l.1367-1390).

Simplification: floats are reals; the values selected by `idx` from a history followed by the present value are given as a list
of rows; a surface abundance that is not a number is `none`, the other values are numbers; the uniform draws of the orbital
phase are given with the rows, and `newton` is a parameter that answers with the root of Kepler's equation for each row.
-/
namespace Verif.Accretion

open Real Classical

/-- The constants used (`/repo/posydon/utils/constants.py`). -/
structure Const where
  G : ℝ
  clight : ℝ
  msol : ℝ
  rsol : ℝ
  lsol : ℝ
  secyer : ℝ
  sigma : ℝ
  G_pos : 0 < G
  clight_pos : 0 < clight
  msol_pos : 0 < msol
  rsol_pos : 0 < rsol
  lsol_pos : 0 < lsol
  secyer_pos : 0 < secyer
  sigma_pos : 0 < sigma

/-- Their values, constants.py l.27, 32, 49, 72-74, 84. -/
noncomputable def cgs : Const where
  G := 6.67428e-8
  clight := 2.99792458e10
  msol := 1.9892e33
  rsol := 6.9598e10
  lsol := 3.8418e33
  secyer := 3.1558149984e7
  sigma := 5.670373e-5
  G_pos := by norm_num
  clight_pos := by norm_num
  msol_pos := by norm_num
  rsol_pos := by norm_num
  lsol_pos := by norm_num
  secyer_pos := by norm_num
  sigma_pos := by norm_num

inductive Err
  | noCO | coType | massNotPositive | unbound
  deriving DecidableEq

/-- The states that are told apart. -/
inductive St
  | NS | BH | WD | other
  deriving DecidableEq

/-- `state in ['NS', 'BH', 'WD']`, where the state may be `None`. -/
def isCO : Option St → Bool
  | some .NS => true
  | some .BH => true
  | some .WD => true
  | _ => false

/-- `Schwarzschild_Radius`, l.1381-1390. -/
noncomputable def schwarzschild (c : Const) (M : ℝ) : ℝ := 2 * c.G * M * c.msol / (c.clight ^ 2 * c.rsol)

/-- `CO_radius`, l.1318-1337. -/
noncomputable def coRadius (c : Const) (M : ℝ) (s : St) : Except Err ℝ :=
  if M ≤ 0 then .error .massNotPositive
  else match s with
    | .BH => .ok (schwarzschild c M)
    | .NS => .ok (12.5e5 / c.rsol)
    | .WD => .ok (2.9e8 * M ^ (-1 / 3 : ℝ) / c.rsol)
    | .other => .error .coType

/-- One selected row: state and mass of the accretor, surface abundance of hydrogen of the donor. -/
structure ERow where
  st : Option St
  m : ℝ
  h1 : Option ℝ

/-- The state of a row, completed from the history, l.428-436. -/
def complete (hist : List (Option St)) : Option St → Except Err St
  | some s => .ok s
  | none =>
    if some .NS ∈ hist then .ok .NS
    else if some .BH ∈ hist then .ok .BH
    else if some .WD ∈ hist then .ok .WD
    else .error .coType

/-- The efficiency, l.440-449; `m` is in grams. -/
noncomputable def efficiency (c : Const) (m : ℝ) : St → Except Err ℝ
  | .BH =>
    let rIsco : ℝ := 6
    let mIni := m * √(rIsco / 6)
    .ok (1 - √(1 - (min m (√6 * mIni) / (3 * mIni)) ^ 2))
  | s =>
    match coRadius c m s with
    | .error e => .error e
    | .ok R => .ok (c.G * m / ((R * c.rsol) * c.clight ^ 2))

/-- One pass of the loop, l.428-455: the limit (solar masses per year) and the efficiency. -/
noncomputable def eddRow (c : Const) (hist : List (Option St)) (r : ERow) : Except Err (ℝ × ℝ) :=
  match complete hist r.st with
  | .error e => .error e
  | .ok s =>
    match efficiency c (r.m * c.msol) s with
    | .error e => .error e
    | .ok eta =>
      .ok (4 * π * c.G * (r.m * c.msol) / (0.2 * (1 + r.h1.getD 0.7155) * eta * c.clight) / (c.msol / c.secyer), eta)

/-- The loop, l.427-455: the values of the last pass are returned. -/
noncomputable def eddLoop (c : Const) (hist : List (Option St)) : List ERow → Option (ℝ × ℝ) → Except Err (ℝ × ℝ)
  | [], none => .error .unbound
  | [], some x => .ok x
  | r :: rs, _ =>
    match eddRow c hist r with
    | .error e => .error e
    | .ok x => eddLoop c hist rs (some x)

/-- A star: its present state, its history, the rows selected when it is the accretor. -/
structure Obj where
  st : Option St
  hist : List (Option St)
  rows : List ERow

/-- `eddington_limit`, l.409-455. -/
noncomputable def eddington (c : Const) (s1 s2 : Obj) : Except Err (ℝ × ℝ) :=
  if isCO s1.st then eddLoop c s1.hist s1.rows none
  else if isCO s2.st then eddLoop c s2.hist s2.rows none
  else .error .noCO

/-- `beaming`, l.487-506, given the limit; `none` is not a number. -/
noncomputable def beaming (edd : ℝ) (lgRate : Option ℝ) : Option ℝ × ℝ :=
  match lgRate with
  | none => (none, 1)
  | some l =>
    let rlo := (10 : ℝ) ^ l
    if rlo ≥ edd then
      let b := if rlo > 8.5 * edd then 73 / (rlo / edd) ^ 2 else 1
      (some (edd * (1 + log (rlo / edd)) / b), b)
    else (some rlo, 1)

/-! ### Accretion from a wind -/

/-- `stefan_boltzmann_law`, l.133-134. -/
noncomputable def teff (c : Const) (L R : ℝ) : ℝ := (L * c.lsol / (4.0 * π * (R * c.rsol) ^ 2) / c.sigma) ^ (1.0 / 4.0 : ℝ)

/-- One selected row, l.556-583; `u` is the draw for the phase. -/
structure Row where
  sep : ℝ
  ecc : ℝ
  mAcc : ℝ
  m : ℝ
  lgMdot : ℝ
  heCore : ℝ
  logR : ℝ
  h1 : Option ℝ
  logL : ℝ
  u : ℝ

noncomputable def Row.R (r : Row) : ℝ := (10 : ℝ) ^ r.logR

noncomputable def Row.T (c : Const) (r : Row) : ℝ := teff c ((10 : ℝ) ^ r.logL) r.R

/-- `beta`, l.585-603; `junk` is what the array holds before (`np.empty_like`). -/
noncomputable def beta (junk : ℝ) (r : Row) : ℝ :=
  let he : Prop := ∃ v ∈ r.h1, v ≤ 0.01
  let b1 := if r.heCore ≠ 0 ∧ r.R > 900 then 0.125 else junk
  let b2 := if r.m > 120 then 7 else b1
  let b3 := if r.m < 1.4 then 0.5 else b2
  let b4 := if 1.4 ≤ r.m ∧ r.m ≤ 120 then 0.5 + (r.m - 1.4) / (120 - 1.4) * 6.5 else b3
  let b5 := if he ∧ r.m > 120 then 7 else b4
  let b6 := if he ∧ r.m < 10 then 0.125 else b5
  if (10 ≤ r.m ∧ r.m ≤ 120) ∧ he then 0.125 + (r.m - 10) / (120 - 10) * 6.875 else b6

/-- One pass of l.610-616. -/
noncomputable def kudritzki (T : ℝ) : ℝ := if T ≥ 21000 then 2.65 else if T ≤ 10000 then 1 else 1.4

inductive Scheme
  | hurley | kudritzki | other
  deriving DecidableEq

/-- `f_m` for a row among all rows, l.587-616. -/
noncomputable def factor (c : Const) (junk : ℝ) : Scheme → List Row → Row → Except Err ℝ
  | .hurley, _, r => .ok √(beta junk r)
  | .kudritzki, rows, _ =>
    match rows.getLast? with
    | none => .error .unbound
    | some l => .ok (kudritzki (l.T c))
  | .other, _, _ => .error .unbound

/-- `v_esc`, l.618, in metres per second. -/
noncomputable def vEsc (c : Const) (r : Row) : ℝ := √(2 * (c.G * 1e-3) * r.m * (c.msol * 1e-3) / (r.R * (c.rsol * 1e-2)))

/-- The speed of the wind of hot stripped stars, l.624-628. -/
noncomputable def vHot (lg : ℝ) : ℝ :=
  let slope : ℝ := if lg ≥ -5.25 then (3.7 - 3.25) / (-2.5 + 5.25) else (3.25 - 3.75) / (-5.25 + 7.25)
  (10 : ℝ) ^ (slope * lg + 3.25 + 5.25 * slope) * 1000

/-- `v_wind`, l.619-630. -/
noncomputable def vWind (c : Const) (f : ℝ) (r : Row) : ℝ :=
  if (∃ v ∈ r.h1, v < 0.4) ∧ r.T c > 1.0e4 then vHot r.lgMdot else vEsc c r * f

/-- `n`, l.632. -/
noncomputable def motion (c : Const) (r : Row) : ℝ :=
  √((c.G * 1e-3 * (r.mAcc + r.m) * (c.msol * 1e-3)) / (r.R * (c.rsol * 1e-2)) ^ 3)

/-- `n * t0`, l.633-634. -/
noncomputable def meanAnomaly (c : Const) (r : Row) : ℝ := motion c r * (r.u * 2 * π / motion c r)

/-- Semi-major axis in metres. -/
noncomputable def axis (c : Const) (r : Row) : ℝ := r.sep * (c.rsol * 1e-2)

/-- `r_vec`, l.638-639. -/
noncomputable def rVec (c : Const) (r : Row) (E : ℝ) : ℝ × ℝ :=
  (axis c r * (cos E - r.ecc), axis c r * √(1 - r.ecc ^ 2) * sin E)

/-- `v_dir`, l.640. -/
noncomputable def vDir (c : Const) (r : Row) (E : ℝ) : ℝ × ℝ :=
  (-axis c r * sin E, axis c r * √(1 - r.ecc ^ 2) * cos E)

noncomputable def norm2 (v : ℝ × ℝ) : ℝ := √(v.1 ^ 2 + v.2 ^ 2)

/-- `k`, l.644. -/
noncomputable def cosAngle (c : Const) (r : Row) (E : ℝ) : ℝ :=
  ((rVec c r E).1 * (vDir c r E).1 + (rVec c r E).2 * (vDir c r E).2) / (norm2 (rVec c r E) * norm2 (vDir c r E))

/-- `v`, l.645. -/
noncomputable def vOrb (c : Const) (r : Row) (E : ℝ) : ℝ :=
  √(c.G * 1e-3 * (r.m + r.mAcc) * (c.msol * 1e-3) * (2 / norm2 (rVec c r E) - 1 / axis c r))

/-- `v_rel`, l.646. -/
noncomputable def vRel (c : Const) (f : ℝ) (r : Row) (E : ℝ) : ℝ :=
  √(vOrb c r E ^ 2 + vWind c f r ^ 2 + 2 * vOrb c r E * vWind c f r * cosAngle c r E)

/-- `mdot_acc`, l.649-650. -/
noncomputable def captured (c : Const) (f : ℝ) (r : Row) (E : ℝ) : ℝ :=
  1.5 * ((c.G * 1e-3 * r.mAcc * (c.msol * 1e-3)) ^ 2 / (2 * vRel c f r E ^ 3 * vWind c f r * norm2 (rVec c r E) ^ 2))
    * (10 : ℝ) ^ r.lgMdot

/-- `rdisk_div_risco`, l.655-660. -/
noncomputable def disk (c : Const) (f : ℝ) (r : Row) (E : ℝ) : ℝ :=
  2 / 3 * (1.0 / 3.0 / (1 + r.m / r.mAcc)) ^ 2 * ((vOrb c r E / (c.clight * 0.01)) ^ 2)⁻¹
    * ((1 + (vWind c f r / vOrb c r E) ^ 2) ^ 4)⁻¹ * 1.0⁻¹

/-- One row of the result, l.632-667. -/
noncomputable def accreted (c : Const) (f : ℝ) (criterion : Bool) (edd : ℝ) (r : Row) (E : ℝ) : ℝ :=
  min (if criterion = true ∧ disk c f r E ≤ 1 then (10 : ℝ) ^ (-99.0 : ℝ) else captured c f r E) edd

/-- A loop over rows that stops at the first error. -/
def mapE {α β : Type} (f : α → Except Err β) : List α → Except Err (List β)
  | [] => .ok []
  | a :: l =>
    match f a with
    | .error e => .error e
    | .ok b =>
      match mapE f l with
      | .error e => .error e
      | .ok bs => .ok (b :: bs)

/-- `bondi_hoyle`: `root e M` is what `newton` finds for `x - e sin x - M`; the limit is computed for the two stars of the
binary. -/
noncomputable def bondiHoyle (c : Const) (junk : ℝ) (scheme : Scheme) (criterion : Bool) (root : ℝ → ℝ → ℝ) (s1 s2 : Obj)
    (rows : List Row) : Except Err (List ℝ) :=
  match mapE (factor c junk scheme rows) rows with
  | .error e => .error e
  | .ok fs =>
    match eddington c s1 s2 with
    | .error e => .error e
    | .ok x => .ok ((rows.zip fs).map fun p => accreted c p.2 criterion x.1 p.1 (root p.1.ecc (meanAnomaly c p.1)))

/-! ### Specification -/

/-- The speed of one body relative to another, for two velocities. -/
noncomputable def relative (v w : ℝ × ℝ) : ℝ := norm2 (v.1 - w.1, v.2 - w.2)

/-- The vector of length `l` in the direction of `v`. -/
noncomputable def along (l : ℝ) (v : ℝ × ℝ) : ℝ × ℝ := (l * (v.1 / norm2 v), l * (v.2 / norm2 v))

/-- An orbit of two bodies with masses, and a radius of the donor. -/
structure Row.Ok (r : Row) : Prop where
  sep : 0 < r.sep
  ecc0 : 0 ≤ r.ecc
  ecc1 : r.ecc < 1
  mAcc : 0 < r.mAcc
  m : 0 < r.m

end Verif.Accretion
