import Verif.Sfh
import Verif.Chars
/-!
Model of the options of formation times: `/repo/posydon/popsyn/star_formation_history.py` l.1087-1122 (`get_formation_times`), and the list of scenarios l.30-37.

The scenario is a text; the numbers are options that may be missing. The samplers are parameters, as in `Sfh.formationTimes`. Reading the file of ages is part of the sampler.
-/
namespace Verif.Formation
open Verif.Sfh

abbrev Name := List Char

/-- `str.lower()` for the letters of the names. -/
def lower (s : Name) : Name := s.map Char.toLower

/-- The tests l.1091-1116 in their order. -/
def scenario (s : Name) : Scenario :=
  if s = (chars! "burst") then .burst
  else if s = (chars! "constant") then .constant
  else if s = (chars! "custom_linear") then .customLinear
  else if s = (chars! "custom_log10") then .customLog10
  else if s = (chars! "custom_linear_histogram") then .histLinear
  else if s = (chars! "custom_log10_histogram") then .histLog10
  else .unknown

/-- The options that are read, `none` if they are missing. -/
structure Opt where
  star_formation : Option Name
  burst_time : Option ℝ
  max_simulation_time : Option ℝ
  max_time : Option ℝ
  min_time : Option ℝ

/-- `get_formation_times(n, **kwargs)`, l.1063-1122; `age_of_universe` is 13.8e9 years. -/
noncomputable def times (n : ℕ) (o : Opt) (uniform sample : ℕ → List ℝ) : Except Err (List ℝ) :=
  formationTimes n (scenario (lower (o.star_formation.getD (chars! "constant")))) (o.burst_time.getD 0) (o.min_time.getD 0)
    (o.max_time.getD (o.max_simulation_time.getD 13800000000)) uniform sample

/-! ### Specification -/

/-- The documented names, l.30-37. -/
def documented : List Name :=
  [(chars! "burst"), (chars! "constant"), (chars! "custom_linear"), (chars! "custom_log10"), (chars! "custom_linear_histogram"), (chars! "custom_log10_histogram")]

end Verif.Formation
