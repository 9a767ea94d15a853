import Verif.Distrib
/-!
Model of `/repo/posydon/popsyn/norm_pop.py`: `get_mass_ratio_pdf` (l.95-137), `get_binary_fraction_pdf` (l.157-165), `get_period_pdf` (l.181-218),
`get_pdf` (l.238-269), `get_mean_mass` (l.288-319), `calculate_model_weights` (l.388-420).

Simplifications: real numbers; the IMF density and the period density are functions handed in (Distrib.lean models them); `quad` / `dblquad`
are the exact integrals. A non-finite quotient (`nan` or `inf`) is `none`.
-/
namespace Verif.NormPop
open Real MeasureTheory Set intervalIntegral Verif.Distrib

noncomputable section
open Classical

/-- The parameters of one population, reduced to what the density uses. -/
structure Params where
  imf : ℝ → ℝ
  /-- `q_pdf(q, m1)` -/
  qpdf : ℝ → ℝ → ℝ
  /-- `binary_fraction_const` -/
  fb : ℝ
  /-- `period_pdf(P, m1, q)` -/
  period : ℝ → ℝ → ℝ → ℝ
  m1min : ℝ
  m1max : ℝ
  /-- the limits l.294-304 -/
  qlo : ℝ
  qhi : ℝ

/-- `get_mass_ratio_pdf` for the flat scheme without explicit limits, l.99-114. -/
def flatQPdf (smin smax q m1 : ℝ) : ℝ :=
  let lo := max (smin / m1) 0
  let hi := min (smax / m1) 1
  if lo < q ∧ q ≤ hi then 1 / (hi - lo) else 0

/-- The limits l.294-304 without explicit `q_min`, `q_max`. -/
def meanQLo (smin m1min : ℝ) : ℝ := max (smin / m1min) 0
def meanQHi (smax m1max : ℝ) : ℝ := min (smax / m1max) 1

/-- `orbital_separation_from_period` up to the unit constant `K`, common_functions.py l.338-367. -/
def sepOf (K P m1 m2 : ℝ) : ℝ := (K * (m1 + m2) * P ^ 2) ^ ((1 : ℝ) / 3)

/-- `get_period_pdf` for `orbital_scheme = 'separation'`, l.208-210. -/
def sepPeriodPdf (K lo hi P m1 q : ℝ) : ℝ := logUniformPdf lo hi (sepOf K P m1 (q * m1)) * (2 / 3)

/-- `get_pdf(kwargs, mass_pdf=False)`, l.256-268, for one row. -/
def pdf (p : Params) (m1 q P : ℝ) (binary : Bool) : ℝ :=
  if binary then p.fb * p.imf m1 * p.qpdf q m1 * p.period P m1 q else (1 - p.fb) * p.imf m1

/-- `get_pdf(kwargs, mass_pdf=True)`, l.243-254. -/
def massPdf (p : Params) (m1 q : ℝ) (binary : Bool) : ℝ :=
  if binary then p.fb * p.imf m1 * p.qpdf q m1 else (1 - p.fb) * p.imf m1

inductive Err
  | value

/-- `get_mean_mass`, l.288-319. -/
def meanMass (p : Params) : Except Err ℝ :=
  if p.qlo > p.qhi then .error .value
  else .ok ((∫ m in p.m1min..p.m1max, ∫ q in p.qlo..p.qhi, (m + m * q) * massPdf p m q true)
      + ∫ m in p.m1min..p.m1max, m * massPdf p m 0 false)

/-- Division of numpy floats, `none` for `nan` and `inf`. -/
def fdiv (a b : Option ℝ) : Option ℝ :=
  match a, b with
  | some x, some y => if y = 0 then none else some (x / y)
  | _, _ => none

def fmul (a b : Option ℝ) : Option ℝ :=
  match a, b with
  | some x, some y => some (x * y)
  | _, _ => none

/-- One system of the table: `state_i` is not `initially_single_star`, initial masses and period. -/
structure Row where
  binary : Bool
  m1 : ℝ
  q : ℝ
  P : ℝ

/-- `calculate_model_weights` for one row, l.403-420, given the two mean masses. -/
def weight (sim pop : Params) (Msim meanSim meanPop : ℝ) (r : Row) : ℝ :=
  let factor := fmul (fdiv (some 1) (some Msim)) (fdiv (some meanSim) (some meanPop))
  let wp := pdf pop r.m1 r.q r.P r.binary
  let ws := pdf sim r.m1 r.q r.P r.binary
  (fmul (fdiv (some wp) (some ws)) factor).getD 0

/-- `calculate_model_weights`, l.388-420. -/
def weights (sim pop : Params) (Msim : ℝ) (rows : List Row) : Except Err (List ℝ) :=
  if sim.fb = 1 ∧ pop.fb = 0 then .error .value
  else if sim.fb = 0 ∧ pop.fb = 1 then .error .value
  else
    match meanMass sim with
    | .error e => .error e
    | .ok a =>
      match meanMass pop with
      | .error e => .error e
      | .ok b => .ok (rows.map (weight sim pop Msim a b))

end

end Verif.NormPop
