import Mathlib.Analysis.SpecialFunctions.Pow.Real
import Mathlib.Analysis.SpecialFunctions.Trigonometric.Inverse
/-!
# Collapse of a star into a black hole, shell by shell

Model of `/repo/posydon/binary_evol/SN/profile_collapse.py`: `get_ejecta_element_mass_at_collapse` (l.30-110), `get_initial_BH_properties`
(l.113-306), `compute_isco_properties` (l.309-352), `do_core_collapse_BH` (l.355-714), `BZ_jet_power` (l.717-747), and of
`find_index_nearest_neighbour` (`/repo/posydon/utils/gridutils.py` l.230-233).

Numbers are real. A profile is a list of cells from the centre to the surface, as after `[::-1]`; it is `none` if columns are missing (l.178-182).
The Simpson integral of l.283 is a parameter. Exceptions are values; `nan` stands for the case of a spin of exactly one, for which the code goes on
with undefined numbers. The arrays of intermediate values are left out.
-/
namespace Verif.Collapse

inductive Err
  | type | value | index | nan | unbound
  deriving DecidableEq, Repr

/-- Constants: gravity, speed of light, mass and radius of the sun. -/
structure Const where
  G : ℝ
  c : ℝ
  Mo : ℝ
  Ro : ℝ

/-- A cell of the profile, with solar masses and radii; missing helium columns are zero (l.205-212). -/
structure Cell where
  mass : ℝ
  radius : ℝ
  logRho : ℝ
  omega : ℝ
  he3 : ℝ
  he4 : ℝ

/-- A shell falling in: l.249-263. -/
structure Shell where
  omega : ℝ
  r : ℝ
  rho : ℝ
  dm : ℝ
  dr : ℝ
  he3 : ℝ
  he4 : ℝ

/-- `np.argmin(np.abs(array - value))`: the first place of the least distance. -/
noncomputable def nearest (v : ℝ) : List ℝ → ℕ
  | [] => 0
  | [_] => 0
  | x :: y :: l => let k := nearest v (y :: l)
    if |x - v| ≤ |(y :: l).getD k 0 - v| then 0 else k + 1

/-- Number of cells collapsing, l.217-225. -/
noncomputable def iRem (cells : List Cell) (mass : ℝ) : ℕ :=
  if (cells.getLast?.map fun c => decide (c.mass ≤ mass)).getD true then cells.length else cells.findIdx (fun c => decide (mass < c.mass)) + 1

/-- Shells outside a cell, l.249-263: differences with the cell below. -/
noncomputable def shells (K : Const) : Cell → List Cell → List Shell
  | _, [] => []
  | p, q :: l => ⟨q.omega, q.radius * K.Ro, (10 : ℝ) ^ q.logRho, q.mass * K.Mo - p.mass * K.Mo, q.radius * K.Ro - p.radius * K.Ro, q.he3, q.he4⟩ :: shells K q l

/-- Greatest helium mass ejected outside the collapsing part, l.235-236: the fraction is that of the lower cell of each pair. -/
noncomputable def heSN (K : Const) : List Cell → ℝ
  | [] => 0
  | [_] => 0
  | p :: q :: l => (p.he3 + p.he4) * (q.mass * K.Mo - p.mass * K.Mo) + heSN K (q :: l)

/-- What `get_initial_BH_properties` returns. -/
structure Init where
  M : ℝ
  a : Option ℝ
  J : ℝ
  shells : List Shell
  he : Option ℝ

/-- `get_initial_BH_properties`, l.113-306; `neutrino` may be missing, as it is by default. -/
noncomputable def initial (K : Const) (simpson : List ℝ → List ℝ → ℝ) (profile : Option (List Cell)) (collapsing central : ℝ) (neutrino : Option ℝ) (maxNeutrino : ℝ) :
    Except Err Init :=
  match neutrino with
  | none => .error .type
  | some nu =>
    if nu < 0 then .error .value
    else if maxNeutrino < nu then .error .value
    else match profile with
      | none => .ok ⟨central - nu, none, 0, [], none⟩
      | some [] => .error .index
      | some (c0 :: rest) =>
        let all := c0 :: rest
        let n := iRem all collapsing
        let cells := all.take n
        let i := nearest (central * K.Mo) (cells.map fun c => c.mass * K.Mo)
        let ci := cells.getD i c0
        let M := ci.mass * K.Mo - nu * K.Mo
        let f := M / (ci.mass * K.Mo)
        let inner := cells.take (i + 1)
        let J := 2 * Real.pi * (4 / 3) * simpson (inner.map fun c => f * (10 : ℝ) ^ c.logRho * c.omega * (c.radius * K.Ro) ^ 4) (inner.map fun c => c.radius * K.Ro)
        .ok ⟨M, some (J * K.c / (K.G * M ^ 2)), J, shells K ci (cells.drop (i + 1)), some (heSN K (all.drop n))⟩

/-- `r_isco` in units of the gravitational radius, l.334-337. -/
noncomputable def isco (a : ℝ) : ℝ :=
  let z1 := 1 + (1 - a ^ 2) ^ (1 / 3 : ℝ) * ((1 + a) ^ (1 / 3 : ℝ) + (1 - a) ^ (1 / 3 : ℝ))
  let z2 := (3 * a ^ 2 + z1 ^ 2) ^ (1 / 2 : ℝ)
  3 + z2 - √((3 - z1) * (3 + z1 + 2 * z2))

/-- `j_isco`, l.341-344. -/
noncomputable def jIsco (K : Const) (a m : ℝ) : ℝ :=
  K.G * m / K.c * (isco a ^ 2 - 2 * a * isco a ^ (0.5 : ℝ) + a ^ 2) /
    (isco a ^ (3 / 4 : ℝ) * (isco a ^ (3 / 2 : ℝ) - 3 * isco a ^ (0.5 : ℝ) + 2 * a) ^ (0.5 : ℝ))

/-- `efficiency`, l.347. -/
noncomputable def eff (a : ℝ) : ℝ := √(1 - 2 / (3 * isco a))

/-- The state of the loop, l.490-524: angular momentum, mass and spin of the black hole; masses through direct collapse and through the disk;
totals of all shells; greatest helium mass; mass radiated by the disk; power of the jet. -/
structure St where
  J : ℝ
  M : ℝ
  a : ℝ
  direct : ℝ
  disk : ℝ
  tot : ℝ
  Jtot : ℝ
  he : ℝ
  rad : ℝ
  jet : ℝ

/-- `theta_disk`, l.583. -/
noncomputable def theta (K : Const) (s : St) (h : Shell) : ℝ := Real.arcsin (√(jIsco K s.a s.M / (h.omega * h.r ^ 2)))

/-- `temp2`, l.556, 592. -/
noncomputable def vol (h : Shell) : ℝ := h.r ^ 5 / 5 - (h.r - h.dr) ^ 5 / 5

/-- `BZ_jet_power`, l.717-747 -/
noncomputable def jetPower (K : Const) (mdot etaPhi etaA : ℝ) : ℝ := mdot * K.c ^ 2 * etaPhi * etaA

/-- Masses of a shell falling in directly and through the disk, l.545-603. -/
noncomputable def parts (K : Const) (s : St) (h : Shell) : ℝ × ℝ :=
  if h.omega * h.r ^ 2 < jIsco K s.a s.M then (h.dm, 0) else ((1 - Real.cos (theta K s h)) * h.dm, Real.cos (theta K s h) * h.dm)

/-- Angular momentum of the part falling in directly, l.553-559, 589-594. -/
noncomputable def jDirect (K : Const) (s : St) (h : Shell) : ℝ :=
  if h.omega * h.r ^ 2 < jIsco K s.a s.M then 4 * Real.pi * (h.omega * h.rho) * (2 / 3) * vol h
  else 4 * Real.pi * (h.omega * h.rho) * (4 / 3 * (2 + Real.cos (theta K s h)) * Real.sin (theta K s h / 2) ^ 4) * vol h

/-- One shell, l.526-666. -/
noncomputable def step (K : Const) (s : St) (h : Shell) : Except Err St :=
  if s.a = 1 then .error .nan
  else
    let p := parts K s h
    let J := s.J + jIsco K s.a s.M * p.2 + jDirect K s h
    let M := s.M + p.2 * eff s.a + p.1
    let a := J * K.c / (K.G * M ^ 2)
    if 1 < a then .error .value
    else .ok {
      J := J
      M := M
      a := a
      direct := s.direct + p.1
      disk := s.disk + p.2 * eff s.a
      tot := s.tot + p.1 + p.2
      Jtot := s.Jtot + 8 * Real.pi / 3 * vol h * h.omega * h.rho
      he := if h.omega * h.r ^ 2 < jIsco K s.a s.M then s.he else s.he + h.dm * (h.he3 + h.he4)
      rad := s.rad + p.2 * (1 - eff s.a)
      jet := s.jet + jetPower K p.2 1 (a ^ 2) }

noncomputable def run (K : Const) : St → List Shell → Except Err St
  | s, [] => .ok s
  | s, h :: l =>
    match step K s h with
    | .error e => .error e
    | .ok s' => run K s' l

/-- The results, l.691-714: what is undefined is `none`. -/
structure Res where
  mass : ℝ
  spin : Option ℝ
  accreted : Option ℝ
  radiated : Option ℝ
  jet : Option ℝ
  he : Option ℝ

/-- The state before the first shell: a spin above 0.99 is lowered (l.482-484). -/
noncomputable def start (K : Const) (M a J he : ℝ) : St :=
  if 0.99 < a then ⟨0.99 * K.G * M ^ 2 / K.c, M, 0.99, M, 0, M, 0.99 * K.G * M ^ 2 / K.c, he, 0, 0⟩ else ⟨J, M, a, M, 0, M, J, he, 0, 0⟩

/-- `do_core_collapse_BH`, l.355-714. -/
noncomputable def collapse (K : Const) (simpson : List ℝ → List ℝ → ℝ) (profile : Option (List Cell)) (collapsing central : ℝ) (neutrino : Option ℝ) (maxNeutrino : ℝ) :
    Except Err Res :=
  match initial K simpson profile collapsing central neutrino maxNeutrino with
  | .error e => .error e
  | .ok i =>
    match i.shells, i.a with
    | [], a => .ok ⟨i.M / K.Mo, a, none, none, none, none⟩
    | _, none => .error .nan
    | h :: l, some a =>
      match run K (start K i.M a i.J (i.he.getD 0)) (h :: l) with
      | .error e => .error e
      | .ok s => .ok ⟨s.M / K.Mo, some s.a, some (s.disk / K.Mo), some (s.rad / K.Mo), some s.jet, some (s.he / K.Mo)⟩

/-! ### Ejected hydrogen and helium -/

/-- Mass, hydrogen and helium fraction of a cell. -/
structure Layer where
  mass : ℝ
  x : ℝ
  y : ℝ

/-- Sum over the layers outside one, l.83-91: each difference with the fraction of the upper layer. -/
noncomputable def sumOut (f : Layer → ℝ) : Layer → List Layer → ℝ
  | _, [] => 0
  | p, q :: l => (q.mass - p.mass) * f q + sumOut f q l

/-- `get_ejecta_element_mass_at_collapse`, l.30-110; `none` for a profile without enough information. -/
noncomputable def ejecta (verbose : Bool) (profile : Option (List Layer)) (compact : ℝ) : Except Err (ℝ × ℝ) :=
  match profile with
  | none => .ok (0, 0)
  | some [] => .error .index
  | some (l0 :: rest) =>
    let all := l0 :: rest
    if (all.getLastD l0).mass ≤ compact then .ok (0, 0)
    else
      let i := all.findIdx fun l => decide (compact < l.mass)
      if i < all.length - 1 then .ok (sumOut Layer.x (all.getD i l0) (all.drop (i + 1)), sumOut Layer.y (all.getD i l0) (all.drop (i + 1)))
      else if verbose then .error .unbound else .ok (0, 0)

end Verif.Collapse
