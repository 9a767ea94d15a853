import Verif.Chars
import Verif.Scrub
import Verif.MTCase
import Verif.RunLabels
import Verif.GridTools

/-!
Which models of a MESA run transfer mass: the four places that decide it.

* `/repo/posydon/grids/scrubbing.py` l.107-126 (`keep_after_RLO`; modelled in `Scrub`),
* `/repo/posydon/grids/termination_flags.py` l.142-150 (`get_mass_transfer_flag`; modelled in `MTCase` and `RunLabels`),
* `/repo/posydon/utils/common_functions.py` l.1562-1568 (`infer_mass_transfer_case`; modelled in `MTCase`),
* `/repo/posydon/utils/gridutils.py` l.411 (`convert_output_to_table`; modelled in `GridTools`).

Here the tables of these models are brought together, as `/repo/posydon/grids/psygrid.py` does: the histories that
`keep_after_RLO` returns (l.979-994) are those from which the flags are computed (l.1155-1165).
-/
namespace Verif.Transfer

open Verif.Frame (Name)
open Verif.MTCase (Num)

/-- How the columns are read from a row. -/
structure Look (P : Type) where
  mass1 : P → Num
  mass2 : P → Num
  has : Name → Bool
  val : P → Name → Num

variable {P : Type}

/-- A row of the binary history, as the flags see it. -/
def view (L : Look P) (r : Scrub.BRow P) : RunLabels.BRow := ⟨r.rl1, r.rl2, r.rate, L.mass1 r.rest, L.mass2 r.rest⟩

/-- The history of a star, as the flags see it. -/
def hist (L : Look P) (t : Scrub.HTab P) : RunLabels.Hist :=
  fun n => if L.has n then some (t.rows.map fun q => L.val q.1 n) else none

/-- A row as the table of `convert_output_to_table` sees it. -/
def tableRow (m1 m2 p : P → ℚ) (r : Scrub.BRow P) : GridTools.BRow := ⟨m1 r.rest, m2 r.rest, p r.rest, r.rate⟩

/-- A row with the states of the stars, as `get_binary_state_and_event_and_mt_case` sees it. -/
def binary (r : Scrub.BRow P) (s1 s2 : String) (g1 g2 : Option Num) : MTCase.BinIn :=
  ⟨some r.rate, some r.rl1, some r.rl2, s1, s2, g1, g2⟩

/-- The columns of a complete binary history. -/
def allCols : Scrub.Cols := ⟨true, true, true⟩

/-- What a grid stores for a run: nothing, or the flag of the mass transfer (psygrid.py l.979-994, l.1155-1165). -/
inductive Stored where
  | ignored
  | failed (e : Scrub.Err)
  | flag (f : Except RunLabels.Err Name)

/-- A run in a grid, with or without `start_at_RLO`. -/
def store (ph : RunLabels.Phys) (L : Look P) (sub alt : ℚ → ℚ → ℚ) (start : Bool) (rows : List (Scrub.BRow P))
    (h1 h2 : Option (Scrub.HTab P)) (tf1 : String) : Stored :=
  if start then
    match Scrub.keepAfter sub alt allCols (some rows) h1 h2 with
    | .error e => .failed e
    | .ok none => .ignored
    | .ok (some (b, k1, k2)) =>
      .flag (RunLabels.flag2 ph true ((b.getD []).map (view L)) (k1.map (hist L)) (k2.map (hist L)) tf1)
  else .flag (RunLabels.flag2 ph false (rows.map (view L)) (h1.map (hist L)) (h2.map (hist L)) tf1)

end Verif.Transfer
