import Verif.Chars
import Mathlib.Data.List.Basic

/-!
# The check of the order of constraints

Model of `check_order_of_constraints` (`/repo/posydon/interpolation/constraints.py` l.360-390).

Simplifications.  Names of columns are formatted by a parameter; a constraint is a dictionary, as all in `CONSTRAINTS` (l.230-357) are, or an
object with the attributes that the function reads.  Sets are lists; a message is the name of the constraint and the columns.
-/

namespace Verif.ConOrder

abbrev Txt := List Char

inductive Err where
  | attribute
deriving DecidableEq

inductive Item where
  | dict
  | object (name : Txt) (independent : List Txt) (dependent : Txt)
deriving DecidableEq

/-- The two messages, l.377-385. -/
inductive Msg where
  | changed (name : Txt) (cols : List Txt)
  | used (name : Txt) (cols : List Txt)
deriving DecidableEq

structure St where
  changed : List Txt := []
  used : List Txt := []
  said : List Msg := []
deriving DecidableEq

/-- One round, l.367-390; `typo` is the last line with the method that sets do not have (`upate`). -/
def round (fmt : Txt → ℕ → Txt) (typo : Bool) (s : St) : Item → St × Option Err
  | .dict => (s, some .attribute)
  | .object name indep dep =>
    let ic := indep.flatMap fun c => [fmt c 1, fmt c 2]
    let dc := [fmt dep 1, fmt dep 2]
    let a := s.changed.filter (· ∈ ic)
    let b := s.used.filter (· ∈ dc)
    let said := s.said ++ (if 0 < a.length then [Msg.changed name a] else []) ++ (if 0 < b.length then [Msg.used name b] else [])
    if typo then ({ s with changed := s.changed ++ dc, said := said }, some .attribute)
    else ({ changed := s.changed ++ dc, used := s.used ++ ic, said := said }, none)

/-- The loop over the constraints. -/
def loop (fmt : Txt → ℕ → Txt) (typo : Bool) (s : St) : List Item → St × Option Err
  | [] => (s, none)
  | c :: l => match round fmt typo s c with
    | (s', some e) => (s', some e)
    | (s', none) => loop fmt typo s' l

/-- The function as written. -/
def check (fmt : Txt → ℕ → Txt) (l : List Item) : List Msg × Option Err := let r := loop fmt true {} l; (r.1.said, r.2)

/-- The function with `update` for `upate`. -/
def mended (fmt : Txt → ℕ → Txt) (l : List Item) : List Msg × Option Err := let r := loop fmt false {} l; (r.1.said, r.2)

end Verif.ConOrder
