import Verif.Chars
import Verif.Frame
import Verif.MTCase
import Verif.MTLabel

/-!
# Symbols of mass-transfer histories

Model of `add_flag_to_MARKERS_COLORS_LEGENDS` and of the table of the histories of mass transfer
(`/repo/posydon/visualization/plot_defaults.py` l.750-803 and l.230-383).

Simplifications.  A dictionary is a list of entries of which the last one with a key counts.
-/

namespace Verif.Markers

abbrev Txt := List Char

/-- Marker, size, colour and text. -/
structure Entry where
  marker : Char
  size : ℕ
  colour : Txt
  text : Txt
deriving DecidableEq

abbrev Dict := List (Txt × Entry)

/-- `flag in d.keys()` and `d[flag]`: the last assignment counts. -/
def get (d : Dict) (k : Txt) : Option Entry := (d.reverse.find? fun p => p.1 = k).map (·.2)

/-- The table, l.230-383. -/
def table : Dict :=
  [
   ((chars! "initial_RLOF"), ⟨'+', 1, (chars! "black"), (chars! "initial RLOF")⟩),
   ((chars! "forced_initial_RLO"), ⟨'+', 1, (chars! "black"), (chars! "initial RLOF")⟩),
   ((chars! "ignored_no_binary_history"), ⟨'+', 1, (chars! "black"), (chars! "initial RLOF")⟩),
   ((chars! "ignored_no_RLO"), ⟨'+', 1, (chars! "black"), (chars! "initial RLOF")⟩),
   ((chars! "no_RLOF"), ⟨'.', 1, (chars! "black"), (chars! "no RLOF")⟩),
   ((chars! "contact_during_MS"), ⟨'v', 1, (chars! "black"), (chars! "contact during MS")⟩),
   ((chars! "L2_RLOF"), ⟨'^', 1, (chars! "black"), (chars! "L2 RLOF")⟩),
   ((chars! "case_A1"), ⟨'s', 2, (chars! "tab:blue"), (chars! "case A1")⟩),
   ((chars! "case_A1/B1"), ⟨'s', 2, (chars! "tab:green"), (chars! "case A1/B1")⟩),
   ((chars! "case_A1/B1/A1"), ⟨'s', 2, (chars! "lightgrey"), (chars! "case A1/B1/A1")⟩),
   ((chars! "case_A1/B1/C1"), ⟨'s', 2, (chars! "yellow"), (chars! "case A1/B1/C1")⟩),
   ((chars! "case_A1/C1"), ⟨'s', 2, (chars! "yellow"), (chars! "case A1/C1")⟩),
   ((chars! "case_A1/B1/BB1"), ⟨'s', 2, (chars! "tab:red"), (chars! "case A1/B1/BB1")⟩),
   ((chars! "case_A1/B1/C1/BB1"), ⟨'s', 2, (chars! "tab:cyan"), (chars! "case A1/B1/C1/BB1")⟩),
   ((chars! "case_B1"), ⟨'s', 2, (chars! "tab:purple"), (chars! "case B1")⟩),
   ((chars! "case_B1/BB1"), ⟨'s', 2, (chars! "tab:pink"), (chars! "case B1/BB1")⟩),
   ((chars! "case_B1/C1/BB1"), ⟨'s', 2, (chars! "tab:gray"), (chars! "case B1/C1/BB1")⟩),
   ((chars! "case_B1/C1"), ⟨'s', 2, (chars! "tab:orange"), (chars! "case B1/C1")⟩),
   ((chars! "case_C1"), ⟨'s', 2, (chars! "black"), (chars! "case C1")⟩),
   ((chars! "case_C1/BB1"), ⟨'s', 2, (chars! "brown"), (chars! "case C1/BB1")⟩),
   ((chars! "case_BA1"), ⟨'s', 2, (chars! "tab:blue"), (chars! "case BA1")⟩),
   ((chars! "case_BB1"), ⟨'s', 2, (chars! "tab:green"), (chars! "case BB1")⟩),
   ((chars! "case_BA1/BB1"), ⟨'s', 2, (chars! "tab:red"), (chars! "case BA1/BB1")⟩),
   ((chars! "case_A2"), ⟨'o', 2, (chars! "tab:blue"), (chars! "case A2")⟩),
   ((chars! "case_A2/B2"), ⟨'o', 2, (chars! "tab:green"), (chars! "case A2/B2")⟩),
   ((chars! "case_A2/B2/A2"), ⟨'o', 2, (chars! "lightgrey"), (chars! "case A2/B2/A2")⟩),
   ((chars! "case_A2/B2/C2"), ⟨'o', 2, (chars! "yellow"), (chars! "case A2/B2/C2")⟩),
   ((chars! "case_A2/C2"), ⟨'o', 2, (chars! "yellow"), (chars! "case A2/C2")⟩),
   ((chars! "case_A2/B2/BB2"), ⟨'o', 2, (chars! "tab:red"), (chars! "case A2/B2/BB2")⟩),
   ((chars! "case_A2/B2/C2/BB2"), ⟨'o', 2, (chars! "tab:cyan"), (chars! "case A2/B2/C2/BB2")⟩),
   ((chars! "case_B2"), ⟨'o', 2, (chars! "tab:purple"), (chars! "case B2")⟩),
   ((chars! "case_B2/BB2"), ⟨'o', 2, (chars! "tab:pink"), (chars! "case B2/BB2")⟩),
   ((chars! "case_B2/C2/BB2"), ⟨'o', 2, (chars! "tab:gray"), (chars! "case B2/C2/BB2")⟩),
   ((chars! "case_B2/C2"), ⟨'o', 2, (chars! "tab:orange"), (chars! "case B2/C2")⟩),
   ((chars! "case_C2"), ⟨'o', 2, (chars! "black"), (chars! "case C2")⟩),
   ((chars! "case_C2/BB2"), ⟨'o', 2, (chars! "brown"), (chars! "case C2/BB2")⟩),
   ((chars! "case_BA2"), ⟨'o', 2, (chars! "tab:blue"), (chars! "case BA2")⟩),
   ((chars! "case_BB2"), ⟨'o', 2, (chars! "tab:green"), (chars! "case BB2")⟩),
   ((chars! "case_BA2/BB2"), ⟨'o', 2, (chars! "tab:red"), (chars! "case BA1/BB2")⟩),
   ((chars! "case_A1/A2"), ⟨'>', 2, (chars! "tab:blue"), (chars! "case A1/A2")⟩),
   ((chars! "case_A1/A2/A1"), ⟨'>', 2, (chars! "tab:green"), (chars! "case A1/A2/A1")⟩),
   ((chars! "case_A1/A2/B1"), ⟨'>', 2, (chars! "tab:gray"), (chars! "case A1/A2/B1")⟩),
   ((chars! "case_A1/A2/B1/B2"), ⟨'>', 2, (chars! "tab:orange"), (chars! "case A1/A2/B1/B2")⟩),
   ((chars! "case_A1/B1/BB1"), ⟨'>', 2, (chars! "tab:purple"), (chars! "case A1/B1/BB1")⟩),
   ((chars! "case_A1/A2/B2"), ⟨'>', 2, (chars! "tab:red"), (chars! "case A1/A2/B2")⟩),
   ((chars! "case_A1/B1/A2"), ⟨'>', 2, (chars! "tab:pink"), (chars! "case A1/B1/B2")⟩),
   ((chars! "case_A1/B1/A2/B2"), ⟨'>', 2, (chars! "tab:olive"), (chars! "case A1/B1/A2/B2")⟩),
   ((chars! "case_A1/B1/A2/B1/B2"), ⟨'>', 2, (chars! "yellow"), (chars! "case A1/B1/A2/B1/B2")⟩),
   ((chars! "case_A1/B1/B2"), ⟨'>', 2, (chars! "brown"), (chars! "case A1/B1/B2")⟩),
   ((chars! "case_A1/B1/B2/B1"), ⟨'>', 2, (chars! "black"), (chars! "case A1/B1/B2/B1")⟩),
   ((chars! "case_A1/B2"), ⟨'>', 2, (chars! "tab:cyan"), (chars! "case A1/B1/C1/BB1")⟩),
   ((chars! "case_B1/A2"), ⟨'<', 2, (chars! "tab:blue"), (chars! "case B1/A2")⟩),
   ((chars! "case_B1/A2/B2"), ⟨'<', 2, (chars! "tab:green"), (chars! "case B1/A2/B2")⟩),
   ((chars! "case_B1/B2"), ⟨'<', 2, (chars! "tab:gray"), (chars! "case B1/B2")⟩),
   ((chars! "case_B1/B2/B1"), ⟨'<', 2, (chars! "tab:red"), (chars! "case B1/B2/B1")⟩),
   ((chars! "case_B1/B2/BB1"), ⟨'<', 2, (chars! "brown"), (chars! "case B1/B2/BB1")⟩),
   ((chars! "case_B1/B2/B1/B2/B1/B2/B1/B2/B1"), ⟨'<', 2, (chars! "tab:pink"), (chars! "case B1/B2/B1/B2/B1/B2/B1/B2/B1")⟩),
   ((chars! "case_B1/B2/B1/C1"), ⟨'<', 2, (chars! "tab:olive"), (chars! "case B1/B2/B1/C1")⟩),
   ((chars! "case_B1/B2/C1"), ⟨'<', 2, (chars! "tab:purple"), (chars! "case B1/B2/C1")⟩),
   ((chars! "case_B1/B2/C1/BB1"), ⟨'<', 2, (chars! "black"), (chars! "case B1/B2/C1/BB1")⟩),
   ((chars! "case_B1/C2"), ⟨'<', 2, (chars! "tab:cyan"), (chars! "case B1/C1")⟩),
   ((chars! "case_B2/B1"), ⟨'v', 2, (chars! "tab:blue"), (chars! "case B2/B1")⟩),
   ((chars! "case_B2/B1/C1"), ⟨'v', 2, (chars! "tab:green"), (chars! "case B2/B1/C1")⟩),
   ((chars! "case_B2/C1"), ⟨'v', 2, (chars! "tab:orange"), (chars! "case B2/C1")⟩),
   ((chars! "case_B1/A2/B2/C1"), ⟨'v', 2, (chars! "tab:red"), (chars! "case B1/A2/B2/C1")⟩),
   ((chars! "case_A2/B1/B2"), ⟨'v', 2, (chars! "tab:pink"), (chars! "case A2/B1/B2")⟩),
   ((chars! "case_A1/B1/B2/C1"), ⟨'v', 2, (chars! "tab:purple"), (chars! "case A1/B1/B2/C1")⟩),
   ((chars! "case_A1/B1/B2/B1/C1"), ⟨'v', 2, (chars! "tab:olive"), (chars! "case A1/B1/B2/B1/C1")⟩),
   ((chars! "case_A1/B1/A2/B2/C1"), ⟨'v', 2, (chars! "brown"), (chars! "case A1/B1/A2/B2/C1")⟩),
   ((chars! "case_A1/B2/C1"), ⟨'v', 2, (chars! "yellow"), (chars! "case A1/B2/C1")⟩),
   ((chars! "case_A1/A2/B2/C1"), ⟨'v', 2, (chars! "black"), (chars! "case A1/A2/B2/C1")⟩),
   ((chars! "case_A2/A1"), ⟨'v', 2, (chars! "tab:gray"), (chars! "case A2/A1")⟩),
   ((chars! "None"), ⟨'x', 1, (chars! "tab:red"), (chars! "failed")⟩)]

/-- The marker, l.764-773. -/
def marker (f : Txt) : Char :=
  if '1' ∉ f then 'o'
  else if '2' ∉ f then 's'
  else if f.getLast? = some '1' then '>'
  else if f.getLast? = some '2' then '<'
  else 'v'

/-- The colour, l.774-799. -/
def colour (f : Txt) : Txt :=
  if '/' ∈ f then
    if Frame.isIn (chars! "case_A") f || Frame.isIn (chars! "case_BA") f then (chars! "tab:cyan")
    else if Frame.isIn (chars! "case_C") f || Frame.isIn (chars! "case_BC") f then (chars! "tab:orange")
    else if Frame.isIn (chars! "case_B") f || Frame.isIn (chars! "case_BB") f then (chars! "tab:pink")
    else (chars! "lightgrey")
  else if Frame.isIn (chars! "BA") f then (chars! "tab:red")
  else if Frame.isIn (chars! "BB") f then (chars! "brown")
  else if Frame.isIn (chars! "BC") f then (chars! "tab:gray")
  else if 'A' ∈ f then (chars! "tab:blue")
  else if 'B' ∈ f then (chars! "tab:green")
  else if 'C' ∈ f then (chars! "tab:purple")
  else (chars! "black")

/-- The entry of a flag that is not in the table, l.763-802. -/
def entry (f : Txt) : Entry :=
  if Frame.isIn (chars! "case_") f then ⟨marker f, 2, colour f, MTLabel.spaced f⟩
  else ⟨'+', 1, (chars! "black"), MTLabel.spaced f⟩

/-- `add_flag_to_MARKERS_COLORS_LEGENDS`, l.762-802. -/
def add (d : Dict) (f : Txt) : Dict :=
  match get d f with
  | some _ => d
  | none => d ++ [(f, entry f)]

/-! ### Specification -/

/-- The cases of mass transfer. -/
inductive Case where
  | A | B | C | BA | BB | BC | nonburning | undetermined | noRLO
deriving DecidableEq

/-- The number of a case. -/
def Case.code : Case → ℕ
  | .A => 1 | .B => 2 | .C => 3 | .BA => 4 | .BB => 5 | .BC => 6 | .nonburning => 8 | .undetermined => 9 | .noRLO => 0

def Case.txt : Case → Txt
  | .A => ['A'] | .B => ['B'] | .C => ['C'] | .BA => ['B', 'A'] | .BB => ['B', 'B'] | .BC => ['B', 'C']
  | .nonburning => (chars! "nonburning") | .undetermined => (chars! "undetermined_MT") | .noRLO => (chars! "no_RLO")

/-- A phase of mass transfer: its case and whether the second star is the donor. -/
structure Phase where
  case : Case
  second : Bool
deriving DecidableEq

def digit (second : Bool) : Char := if second then '2' else '1'

def Phase.txt (p : Phase) : Txt := p.case.txt ++ [digit p.second]

/-- The phases after the first. -/
def rest : List Phase → Txt
  | [] => []
  | p :: ps => '/' :: (p.txt ++ rest ps)

/-- The flag of a history of mass transfer, with a question mark if something was undetermined. -/
def flag (unsure : Bool) (p : Phase) (ps : List Phase) : Txt :=
  (if unsure then ['?'] else []) ++ ((chars! "case_") ++ (p.txt ++ rest ps))

/-- The number in `cumulative_mass_transfer_numeric`. -/
def Phase.code (p : Phase) : ℕ := p.case.code + if p.second then 10 else 0

/-- The donor of the last phase. -/
def lastSecond (p : Phase) (ps : List Phase) : Bool := ((p :: ps).getLast (by simp)).second

end Verif.Markers
