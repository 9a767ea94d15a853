import Verif.InterpProps
import Mathlib.Analysis.SpecialFunctions.Pow.Real
import Mathlib.Analysis.SpecialFunctions.Log.Base
/-!
Model of `posydon/popsyn/Moes_distributions.py`: the joint distribution of periods, mass ratios and eccentricities `Moe_17_PsandQs` (lines 26-474),
and of its use in `posydon/popsyn/independent_sample.py` (`generate_independent_samples`, lines 48-71, and `use_Moe_17_PsandQs`, lines 103-119).

Simplifications: floating point numbers are real numbers; the weights of `scipy.integrate.newton_cotes` for two to five equidistant points are written
out (all grids are equidistant); the random numbers in [0, 1) are parameters. The grids have at least two points.
-/
namespace Verif.Moe
open Classical

/-- `ValueError` of numpy: minimum of an empty array; NaN: division of zero by zero. -/
inductive Err
  | value | nan
deriving DecidableEq, Repr

/-- `np.linspace(a, b, n)` for `n ≥ 2`. -/
noncomputable def linspace (a b : ℝ) (n : ℕ) : List ℝ := (List.range n).map fun k : ℕ => a + k * ((b - a) / (n - 1))

/-- `np.interp` of two points. -/
noncomputable def lin (x a b u v : ℝ) : ℝ := if x < a then u else if b < x then v else u + (v - u) / (b - a) * (x - a)

/-! ### Integration -/

/-- `_idl_tabulate` (lines 37-95) with `p = 5` on a grid of step `dx`: pieces of five points, the last one may be shorter. -/
noncomputable def tab (dx : ℝ) : List ℝ → ℝ
  | [] => 0
  | [_] => 0
  | [a, b] => dx * (a / 2 + b / 2)
  | [a, b, c] => dx * (a / 3 + 4 * b / 3 + c / 3)
  | [a, b, c, d] => dx * (3 * a / 8 + 9 * b / 8 + 9 * c / 8 + 3 * d / 8)
  | a :: b :: c :: d :: e :: l => dx * (14 * a / 45 + 64 * b / 45 + 24 * c / 45 + 64 * d / 45 + 14 * e / 45) + tab dx (e :: l)

/-- `np.cumsum`, starting from a sum. -/
def cumFrom (s : ℝ) : List ℝ → List ℝ
  | [] => []
  | a :: l => (s + a) :: cumFrom (s + a) l

/-- `np.cumsum(f) - f[0]` (lines 267, 318, 359). -/
def cum (f : List ℝ) : List ℝ := (cumFrom 0 f).map (· - f.headD 0)

/-- Divided by the maximum (lines 269, 320, 363); the sums never decrease, so the maximum is the last. -/
noncomputable def normed (f : List ℝ) : List ℝ := (cum f).map (· / (cum f).getLastD 0)

/-! ### The formulas of the paper: `x` is the logarithm of the mass of the primary, `p` that of the period -/

/-- The excess of twins (lines 163-166 and 180-185). -/
noncomputable def fTwin (m x p : ℝ) : ℝ :=
  let f1 := 0.3 - 0.15 * x
  let pt := if m ≥ 6.5 then 1.5 else 8 - m
  if p ≥ pt then 0 else if p ≤ 1 then f1 else f1 * (1 - (p - 1) / (pt - 1))

/-- The slope for large mass ratios (lines 188-211). -/
noncomputable def gl12 (p : ℝ) : ℝ := if p < 5 then -0.5 else -0.5 - 0.3 * (p - 5)

noncomputable def gl35 (p : ℝ) : ℝ :=
  if p ≤ 1 then -0.5 else if p ≤ 4.5 then -0.5 - 0.2 * (p - 1) else if p ≤ 6.5 then -1.2 - 0.4 * (p - 4.5) else -2

noncomputable def gl6 (p : ℝ) : ℝ :=
  if p ≤ 1 then -0.5 else if p ≤ 2 then -0.5 - 0.9 * (p - 1) else if p ≤ 4 then -1.4 - 0.3 * (p - 2) else -2

/-- The slope for small mass ratios (lines 225-243). -/
noncomputable def gs35 (p : ℝ) : ℝ := if p ≤ 2.5 then 0.2 else if p ≤ 5.5 then 0.2 - 0.3 * (p - 2.5) else -0.7 - 0.2 * (p - 5.5)

noncomputable def gs6 (p : ℝ) : ℝ :=
  if p ≤ 1 then 0.1 else if p ≤ 3 then 0.1 - 0.15 * (p - 1) else if p ≤ 5.6 then -0.2 - 0.5 * (p - 3) else -1.5

/-- Between the masses 1.2, 3.5 and 6 (lines 213-222 and 245-254). -/
noncomputable def byMass (m u v w : ℝ) : ℝ :=
  if m ≤ 1.2 then u
  else if m ≤ 3.5 then lin (Real.logb 10 m) (Real.logb 10 1.2) (Real.logb 10 3.5) u v
  else if m ≤ 6 then lin (Real.logb 10 m) (Real.logb 10 3.5) (Real.logb 10 6) v w
  else w

noncomputable def gl (m p : ℝ) : ℝ := byMass m (gl12 p) (gl35 p) (gl6 p)

noncomputable def gs (m p : ℝ) : ℝ := byMass m 0.3 (gs35 p) (gs6 p)

/-- The exponent of the eccentricity (lines 277-294). -/
noncomputable def eta3 (p : ℝ) : ℝ := if p ≥ 0.7 then 0.6 - 0.7 / (p - 0.5) else -2.9

noncomputable def eta7 (p : ℝ) : ℝ := if p ≥ 0.7 then 0.9 - 0.2 / (p - 0.5) else -0.1

noncomputable def eta (m p : ℝ) : ℝ :=
  if m ≤ 3 then eta3 p else if m ≤ 7 then lin (Real.logb 10 m) (Real.logb 10 3) (Real.logb 10 7) (eta3 p) (eta7 p) else eta7 p

/-- The frequency of companions at three periods (lines 169-174). -/
noncomputable def fLe1 (x : ℝ) : ℝ := 0.020 + 0.04 * x + 0.07 * x ^ 2

noncomputable def f27 (x : ℝ) : ℝ := 0.039 + 0.07 * x + 0.01 * x ^ 2

noncomputable def f55 (x : ℝ) : ℝ := 0.078 - 0.05 * x + 0.04 * x ^ 2

/-- The frequency of companions for mass ratios above 0.3 (lines 148-149 and 327-339). -/
noncomputable def fLogP (x p : ℝ) : ℝ :=
  if p ≤ 1 then fLe1 x
  else if p ≤ 2.7 - 0.7 then fLe1 x + (f27 x - fLe1 x - 0.018 * 0.7) * (p - 1) / (1.7 - 0.7)
  else if p ≤ 2.7 + 0.7 then f27 x + 0.018 * (p - 2.7)
  else if p ≤ 5.5 then f27 x + 0.018 * 0.7 + (f55 x - f27 x - 0.018 * 0.7) * (p - 2.7 - 0.7) / (2.8 - 0.7)
  else f55 x * Real.exp (-0.3 * (p - 5.5))

/-- The fraction of companions which are in the inner binary (lines 350-356). -/
noncomputable def probBin (m p : ℝ) : ℝ :=
  let f := if p ≤ 1.5 then 1 else 1 - 0.11 * (p - 1.5) ^ (1.43 : ℝ) * (m / 10) ^ (0.56 : ℝ)
  if f ≤ 0 then 0 else f

/-! ### The distributions on the grid -/

/-- The twins, with integral one (lines 151-153), on the grid of mass ratios with step `dq`. -/
noncomputable def heaviside (dq : ℝ) (qv : List ℝ) : List ℝ :=
  let h := qv.map fun q => if q ≥ 0.95 then (1 : ℝ) else 0
  h.map (· / tab dq h)

/-- The power law for large mass ratios, with integral one above 0.3 (lines 259-261). -/
noncomputable def power (dq g : ℝ) (qv : List ℝ) (q : ℝ) : ℝ := q ^ g / tab dq ((qv.filter fun q => decide (q ≥ 0.3)).map (· ^ g))

/-- The density of mass ratios (lines 259-265). -/
noncomputable def qDist (dq g s t : ℝ) (qv : List ℝ) : List ℝ :=
  let f := List.zipWith (fun q h => power dq g qv q * (1 - t) + h * t) qv (heaviside dq qv)
  let at03 := ((List.zip qv f).find? fun z => decide (z.1 ≥ 0.3)).elim 0 (·.2)
  List.zipWith (fun q x => if q < 0.3 then at03 * (q / 0.3) ^ s else x) qv f

/-- The largest eccentricity at a period (line 305). -/
noncomputable def eMax (period : ℝ) : ℝ := 1 - (period / 2) ^ (-2 / 3 : ℝ)

/-- The density of eccentricities (lines 297-316). -/
noncomputable def eDist (et period : ℝ) (ev : List ℝ) : Except Err (List ℝ) :=
  if period ≤ 2 then .ok (ev.map (· ^ (-3.2 : ℝ)))
  else
    let em := eMax period
    let fe := ev.map fun e => if e ≥ em then 0 else e ^ et
    let isIn : ℝ → Bool := fun e => decide (0.8 * em ≤ e ∧ e ≤ 1 * em)
    if ev.any isIn then
      let k := ev.findIdx isIn
      let c := if k = 0 then fe.getLastD 0 else fe.getD (k - 1) 0
      .ok (List.zipWith (fun e f => if isIn e then lin e (0.8 * em) (1 * em) c 0 else f) ev fe)
    else .error .value

/-- The cumulative distribution of eccentricities (lines 318-322): NaN if the sum is zero. -/
noncomputable def eCum (et period : ℝ) (ev : List ℝ) : Except Err (List ℝ) :=
  match eDist et period ev with
  | .error e => .error e
  | .ok f => if (cum f).getLastD 0 = 0 then .error .nan else .ok (normed f)

/-- The cumulative distribution of periods (lines 342 and 359-368) from the density, with the step of the grid. -/
noncomputable def pDist (dp : ℝ) (f : List ℝ) : List ℝ := (normed f).map (· * tab dp f)

/-! ### Sampling -/

/-- `np.interp(r, cumulative, values)`. -/
noncomputable def sample (c v : List ℝ) (r : ℝ) : ℝ :=
  match c.zip v with
  | [] => 0
  | p :: l => Interp.npInterp p l none none r

/-- The index of the nearest value (lines 417-418 and 439-441). -/
noncomputable def nearest (v : List ℝ) (x : ℝ) : ℕ := v.findIdx fun y => decide (∀ z ∈ v, |x - y| ≤ |x - z|)

/-- The object after construction. -/
structure Gen where
  m1v : List ℝ
  logPv : List ℝ
  qv : List ℝ
  ev : List ℝ
  cumP : ℕ → List ℝ
  cumQ : ℕ → ℕ → List ℝ
  cumE : ℕ → ℕ → List ℝ

/-- The mass ratios at a mass and period (lines 160-265). -/
noncomputable def qAt (dq : ℝ) (qv : List ℝ) (m p : ℝ) : List ℝ := qDist dq (gl m p) (gs m p) (fTwin m (Real.logb 10 m) p) qv

/-- The density of inner binaries in the logarithm of the period (lines 274, 342 and 350-359). -/
noncomputable def pDensity (dq : ℝ) (qv : List ℝ) (m p : ℝ) : ℝ := fLogP (Real.logb 10 m) p * tab dq (qAt dq qv m p) * probBin m p

/-- `__init__` (lines 97-368). The tables hold NaN if a sum is zero; this is an error here. -/
noncomputable def build (nM nP nq ne : ℕ) (pmin pmax : ℝ) : Except Err Gen :=
  let m1v := (linspace (Real.logb 10 0.8) (Real.logb 10 40) nM).map fun x => (10 : ℝ) ^ x
  let logPv := linspace (Real.logb 10 pmin) (Real.logb 10 pmax) nP
  let qv := linspace 0.1 1 nq
  let ev := (linspace 0 0.99 ne).map fun x => 0.0001 + x
  let dq := (1 - 0.1) / ((nq : ℝ) - 1)
  let dp := (Real.logb 10 pmax - Real.logb 10 pmin) / ((nP : ℝ) - 1)
  if ∃ m ∈ m1v, (cum (logPv.map (pDensity dq qv m))).getLastD 0 = 0 then .error .nan
  else if ∀ m ∈ m1v, ∀ p ∈ logPv, ∃ c, eCum (eta m p) (10 ^ p) ev = .ok c then
    .ok ⟨m1v, logPv, qv, ev, fun i => pDist dp (logPv.map (pDensity dq qv (m1v.getD i 0))),
      fun j i => normed (qAt dq qv (m1v.getD i 0) (logPv.getD j 0)),
      fun j i => (eCum (eta (m1v.getD i 0) (logPv.getD j 0)) (10 ^ logPv.getD j 0) ev).toOption.getD []⟩
  else .error .value

/-- The cumulative distribution of mass ratios of stars below 0.8 solar masses (lines 448-457). -/
noncomputable def lowMass (qv c : List ℝ) (qmin : ℝ) : List ℝ :=
  let c0 := sample qv c qmin
  let d := c.map (· - c0)
  let e := d.map (· / d.getLastD 0)
  List.zipWith (fun q x => if q ≤ qmin then 0 else x) qv e

/-- The cumulative distribution of periods of a star (lines 417-427). -/
noncomputable def periods (g : Gen) (m mMin : ℝ) : List ℝ :=
  let c := g.cumP (nearest g.m1v m)
  if m ≤ 0.8 then c.map (· * lin (Real.logb 10 m) (Real.logb 10 mMin) (Real.logb 10 0.8) 0 1) else c

/-- One star of `__call__` (lines 416-473): mass of the secondary, period and eccentricity, or `none` for a single star; metallicity. The random
numbers are drawn in this order, those for eccentricity and mass ratio only for binaries. -/
noncomputable def call (g : Gen) (m mMin : ℝ) (all : Bool) (r rE rQ rZ : ℝ) : Option (ℝ × ℝ × ℝ) × ℝ :=
  let c := periods g m mMin
  let frac := if all then 1 else c.getLastD 0
  let z := 0.02 * 10 ^ (-2.3 + (0.176 - -2.3) * rZ)
  if r < frac then
    let p := sample c g.logPv r
    let j := nearest g.logPv p
    let i := nearest g.m1v m
    let e := sample (g.cumE j i) g.ev rE
    let cq := if m < 0.8 then lowMass g.qv (g.cumQ j i) (mMin / m) else g.cumQ j i
    (some (m * sample cq g.qv rQ, 10 ^ p, e), z)
  else (none, z)

/-! ### Use by the generator of populations -/

/-- The schemes which matter (strings; `true` if they ask for this distribution). -/
structure Schemes where
  secondary : Bool
  period : Bool
  eccentricity : Bool

/-- Which quantity the population is to be given. -/
inductive Orbit
  | separation | period
deriving DecidableEq

/-- `use_Moe_17_PsandQs` (lines 103-119). -/
def uses (o : Orbit) (s : Schemes) : Bool := s.secondary || (decide (o = .period) && s.period) || s.eccentricity

/-- Lines 53-57: the module holds one generator; it is made with the parameters of the first call (limits of the period and source of random numbers). -/
def generator {P G : Type} (make : P → G) (held : Option G) (p : P) : G × Option G :=
  match held with
  | some g => (g, some g)
  | none => (make p, some (make p))

/-- Lines 53-82: what is handed over as the orbital quantity. -/
def handedOver {A : Type} (o : Orbit) (s : Schemes) (moePeriods ownSeparations ownPeriods : A) : A :=
  if uses o s then moePeriods else match o with
    | .separation => ownSeparations
    | .period => ownPeriods

end Verif.Moe
