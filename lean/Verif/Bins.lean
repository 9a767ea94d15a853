import Mathlib.Analysis.SpecialFunctions.Pow.Real
import Mathlib.Analysis.SpecialFunctions.Log.Base
import Mathlib.Algebra.Order.Floor.Ring
import Mathlib.Data.List.Sort
import Mathlib.Data.Rat.Floor
/-!
Model of the redshift and metallicity bins of rates: `/repo/posydon/popsyn/rate_calculation.py`, `get_redshift_bin_edges` (l.167-180) and
`get_redshift_bin_centers` (l.197-211); `/repo/posydon/popsyn/synthetic_population.py`, `Rates.edges_metallicity_bins` (l.2858-2890),
`_write_MODEL_data` (l.2347-2351), `_read_MODEL_data` (l.2479-2485).

Simplifications: real numbers; `z_at_value(cosmology.age, t)` is a parameter `zAt`, `none` when it raises.
-/
namespace Verif.Bins

inductive Err | noRoot | type | value | index
  deriving DecidableEq, Repr

/-! ### Redshift bins -/

/-- `t_birth_bin[i]`: the loop subtracts the step `i` times; ages in Myr. -/
noncomputable def tEdge (age dt : ℝ) : ℕ → ℝ
  | 0 => age
  | i + 1 => tEdge age dt i - dt

/-- A list of redshifts, failing with the first failing age. -/
noncomputable def zList (zAt : ℝ → Option ℝ) : List ℝ → Except Err (List ℝ)
  | [] => .ok []
  | t :: ts =>
    match zAt t with
    | none => .error .noRoot
    | some z =>
      match zList zAt ts with
      | .error e => .error e
      | .ok zs => .ok (z :: zs)

/-- `int(age / delta_t)` for a positive step. -/
noncomputable def nBins (age dt : ℝ) : ℕ := ⌊age / dt⌋₊

/-- `get_redshift_bin_edges`. -/
noncomputable def edges (zAt : ℝ → Option ℝ) (age dt : ℝ) : Except Err (List ℝ) :=
  match zList zAt ((List.range (nBins age dt)).map fun i => tEdge age dt (i + 1)) with
  | .error e => .error e
  | .ok zs => .ok (0 :: zs ++ [100])

/-- `get_redshift_bin_centers`. -/
noncomputable def centers (zAt : ℝ → Option ℝ) (age dt : ℝ) : Except Err (List ℝ) :=
  zList zAt ((List.range (nBins age dt + 1)).map fun i => tEdge age dt i - dt / 2)

/-! ### Metallicity bins -/

/-- The entry `dlogZ` of the model. -/
inductive DLogZ
  | none
  | width (x : ℝ)          -- a float
  | range (l : List ℝ)     -- a list
  | other                  -- an integer or anything else

/-- Element of an array. -/
noncomputable def at' (l : List ℝ) (i : ℕ) : ℝ := l.getD i 0

/-- l.2872-2875: the edges in logarithm for more than one metallicity. -/
noncomputable def logEdge (c : List ℝ) (i : ℕ) : ℝ :=
  if i = 0 then at' c 0 - (at' c 1 - at' c 0) / 2
  else if i = c.length then at' c (c.length - 1) + (at' c (c.length - 1) - at' c (c.length - 2)) / 2
  else at' c (i - 1) + (at' c i - at' c (i - 1)) / 2

/-- `edges_metallicity_bins` in logarithm; `c` are the logarithms of the sorted metallicities.  `isinstance(x, np.array)` raises `TypeError`, as
`np.array` is a function. -/
noncomputable def logEdges (c : List ℝ) (d : DLogZ) : Except Err (List ℝ) :=
  if 1 < c.length then .ok ((List.range (c.length + 1)).map (logEdge c))
  else if c.length = 1 then
    match d with
    | .none => .ok [-9, 0]
    | .width x => .ok [at' c 0 - x / 2, at' c 0 + x / 2]
    | .range (a :: b :: _) => .ok [a, b]
    | .range _ => .error .index
    | .other => .error .type
  else .ok [0]

/-- `edges_metallicity_bins`. -/
noncomputable def metEdges (mets : List ℝ) (d : DLogZ) : Except Err (List ℝ) :=
  match logEdges ((mets.insertionSort (· ≤ ·)).map (Real.logb 10)) d with
  | .error e => .error e
  | .ok l => .ok (l.map fun x => (10 : ℝ) ^ x)

/-- What the stored model gives back, l.2347-2351 and 2479-2485: a frame of several rows gives the smallest and largest entry, a frame of one row its
entry; without a list the frame needs an index, which is given for `None` and floats only. A frame built from an empty list has no row `0`. -/
noncomputable def stored : DLogZ → Except Err DLogZ
  | .none => .ok .none
  | .width x => .ok (.width x)
  | .other => .error .value
  | .range [] => .error .index
  | .range [x] => .ok (.width x)
  | .range (x :: y :: l) => .ok (.range [(y :: l).foldl min x, (y :: l).foldl max x])

end Verif.Bins
