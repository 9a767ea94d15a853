import Verif.Chars
import Mathlib.Data.List.Basic
import Mathlib.Data.Rat.Defs

/-!
# Emptied tables

Model of `initialize_empty_array` (`/repo/posydon/utils/common_functions.py` l.2016-2025), with which the tables of initial and final values
of a grid begin (`/repo/posydon/grids/psygrid.py` l.689-692 and l.1327-1330).

Simplifications.  A table is a list of columns with the same number of entries.  `np.issubsctype(c, float)` holds for numbers of 64 bits
only, `np.issubsctype(c, str)` for texts of fixed length only.  An entry of an object column is a text or nothing.
-/

namespace Verif.EmptyTab

abbrev Txt := List Char

/-- The kinds of columns with their entries (`none` for a number: NaN; `none` for an object: `None`). -/
inductive Col where
  | f8 (v : List (Option ℚ))
  | f4 (v : List (Option ℚ))
  | int (v : List ℤ)
  | text (width : ℕ) (v : List Txt)
  | object (v : List (Option Txt))
deriving DecidableEq

abbrev Table := List (Txt × Col)

/-- `str(np.nan)` cut to the width of the column. -/
def nanText (width : ℕ) : Txt := (chars! "nan").take width

/-- The two tests for one column, l.2020-2023. -/
def empty : Col → Col
  | .f8 v => .f8 (v.map fun _ => none)
  | .text w v => .text w (v.map fun _ => nanText w)
  | c => c

/-- `initialize_empty_array`, l.2016-2025. -/
def emptied (t : Table) : Table := t.map fun p => (p.1, empty p.2)

/-! ### Specification -/

/-- The number of entries of a column. -/
def size : Col → ℕ
  | .f8 v => v.length | .f4 v => v.length | .int v => v.length | .text _ v => v.length | .object v => v.length

/-- The kind of a column. -/
inductive Kind where
  | f8 | f4 | int | text (width : ℕ) | object
deriving DecidableEq

def kind : Col → Kind
  | .f8 _ => .f8 | .f4 _ => .f4 | .int _ => .int | .text w _ => .text w | .object _ => .object

/-- The kinds that are emptied. -/
def Covered (c : Col) : Prop := kind c = .f8 ∨ ∃ w, kind c = .text w

end Verif.EmptyTab
