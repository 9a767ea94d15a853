import Mathlib.Analysis.SpecialFunctions.Pow.Real
import Mathlib.Analysis.SpecialFunctions.Log.Base
import Mathlib.Analysis.SpecialFunctions.Trigonometric.Basic
import Mathlib.Algebra.Order.Round
/-!
# Spins, masses and detection of pairs of compact objects

Model of `/repo/posydon/popsyn/transient_select_funcs.py`, `chi_eff` (l.126-166), `effective_precession` (l.169-198), `m_chirp` (l.200-202),
`mass_ratio` (l.204-208), `DCO_detectability` (l.267-331), and of `/repo/posydon/popsyn/selection_effects.py`.

Numbers are real, undefined ones `none`, exceptions are values. The functions on columns are modelled for each row; the trained regression is the
average over neighbours, which are a parameter.
-/
namespace Verif.Detect

/-- `chi_eff`, l.126-166: what is undefined is replaced by zero. -/
noncomputable def chiEff (m1 m2 : ℝ) (a1 a2 t1 t2 : Option ℝ) : ℝ :=
  (m1 * a1.getD 0 * Real.cos (t1.getD 0) + m2 * a2.getD 0 * Real.cos (t2.getD 0)) / (m1 + m2)

/-- `effective_precession`, l.169-198. -/
noncomputable def chiP (t1 t2 a1 a2 m1 m2 : ℝ) : ℝ :=
  let q := m2 / m1
  let p1 := |a1 * Real.sin t1|
  let p2 := q * ((4 * q + 3) / (4 + 3 * q)) * a2 * Real.sin t2
  max p1 p2

/-- `m_chirp`, l.200-202. -/
noncomputable def chirp (m1 m2 : ℝ) : ℝ := (m1 * m2) ^ (3 / 5 : ℝ) / (m1 + m2) ^ (1 / 5 : ℝ)

/-- `mass_ratio`, l.204-208. -/
noncomputable def ratio (m1 m2 : ℝ) : ℝ :=
  let q := m2 / m1
  if 1 < q then 1 / q else q

inductive Err
  | value | assertion
  deriving DecidableEq, Repr

/-- A row of the transients: masses, spins, tilts; `q` and `chi_eff` if there are such columns. -/
structure Ev where
  m1 : ℝ
  m2 : ℝ
  a1 : Option ℝ
  a2 : Option ℝ
  t1 : Option ℝ
  t2 : Option ℝ
  q : Option ℝ
  chi : Option ℝ

/-- `data_slice`, l.303-320: the mass of the first star, the mass ratio, the effective spin. -/
noncomputable def slice (e : Ev) : ℝ × ℝ × ℝ := (e.m1, e.q.getD (ratio e.m1 e.m2), e.chi.getD (chiEff e.m1 e.m2 e.a1 e.a2 e.t1 e.t2))

/-- l.296 -/
def sensitivities : List String := ["O3actual_H1L1V1", "O4low_H1L1V1", "O4high_H1L1V1", "design_H1L1V1"]

/-- A column of redshifts and weights, l.323-329: `pdet` is the regression (mass, ratio, effective spin, redshift). Where a prediction is not a
probability the assertion of `predict_pdet` fails (selection_effects.py l.124). -/
noncomputable def column (pdet : ℝ → ℝ → ℝ → ℝ → ℝ) (es : List Ev) (zs : List (Option ℝ)) (ws : List ℝ) : Except Err (List ℝ) :=
  open Classical in
  if ∃ p ∈ es.zip zs, ∃ z, p.2 = some z ∧ ¬ (pdet (slice p.1).1 (slice p.1).2.1 (slice p.1).2.2 z ≤ 1 ∧ 0 ≤ pdet (slice p.1).1 (slice p.1).2.1 (slice p.1).2.2 z)
  then .error .assertion
  else .ok (List.zipWith (fun (p : Ev × Option ℝ) w => match p.2 with
    | some z => w * pdet (slice p.1).1 (slice p.1).2.1 (slice p.1).2.2 z
    | none => w) (es.zip zs) ws)

/-- `DCO_detectability`, l.267-331, with the columns one after the other. -/
noncomputable def detect (pdet : ℝ → ℝ → ℝ → ℝ → ℝ) (sensitivity : String) (es : List Ev) : List (List (Option ℝ) × List ℝ) → Except Err (List (List ℝ))
  | cs => if sensitivity ∉ sensitivities then .error .value else go cs
where go : List (List (Option ℝ) × List ℝ) → Except Err (List (List ℝ))
  | [] => .ok []
  | (zs, ws) :: cs =>
    match column pdet es zs ws with
    | .error e => .error e
    | .ok c =>
      match go cs with
      | .error e => .error e
      | .ok l => .ok (c :: l)

/-! ### The regression, selection_effects.py -/

/-- `normalize`, l.132-137. -/
noncomputable def normalize (x xmin xmax a b : ℝ) : ℝ := (b - a) * (x - xmin) / (xmax - xmin) + a

/-- `np.round(x, 5)`, l.63-66. Simplification: halves are rounded up. -/
noncomputable def round5 (x : ℝ) : ℝ := (round (x * 100000) : ℝ) / 100000

/-- The point at which a system is looked up, l.110-122. -/
noncomputable def point (mB qB zB cB : ℝ × ℝ) (m q z chi : ℝ) : List ℝ :=
  [normalize (Real.logb 10 m) (Real.logb 10 mB.1) (Real.logb 10 mB.2) 0 1, normalize q qB.1 qB.2 0 1,
    normalize (Real.logb 10 z) (Real.logb 10 zB.1) (Real.logb 10 zB.2) 0 1, normalize chi cB.1 cB.2 0 1]

/-- `KNeighborsRegressor(weights='distance')`, l.79: the neighbours found are a list of distances and values. If some are at distance zero only
those count. -/
noncomputable def weight (nb : List (ℝ × ℝ)) (d : ℝ) : ℝ := open Classical in if ∃ p ∈ nb, p.1 = 0 then (if d = 0 then 1 else 0) else 1 / d

noncomputable def knn (nb : List (ℝ × ℝ)) : ℝ := (nb.map fun p => weight nb p.1 * p.2).sum / (nb.map fun p => weight nb p.1).sum

end Verif.Detect
