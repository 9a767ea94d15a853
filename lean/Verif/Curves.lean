import Verif.Chars
import Verif.MesaStop
import Verif.StarState
import Mathlib.Algebra.Order.Field.Rat
import Mathlib.Tactic.Linarith
import Mathlib.Tactic.Common

/-!
# Curves of runs and Hertzsprung-Russell diagrams

Model of `/repo/posydon/visualization/plot1D.py`: the checks of `__init__` (l.105-175), `__call__` (l.177-229),
`update_values_to_plot` (l.290-337), `lines_constant_radius` (l.470-499) and `HR_diagram` (l.501-641), and of
`/repo/posydon/grids/psygrid.py`: `plot` (l.2041-2058) and `HR` (l.2080-2125), with the colours of the states of stars
(`/repo/posydon/visualization/plot_defaults.py` l.427-471).

Simplifications.  Floats are rational numbers and never NaN; `numpy.log10` is a parameter.  A history is a list of names and a list of
rows.  Drawing is a list of curves.  A list of names as an index of a structured array gives another structured array, which cannot be
drawn: an error of type.
-/

namespace Verif.Curves

abbrev Name := List Char

inductive Err where
  | type | value | noField | missing | key | empty
deriving DecidableEq

abbrev Row := Name → ℚ

structure Hist where
  names : List Name
  rows : List Row

/-! ### Choice of the runs -/

/-- The argument `idx`. -/
inductive Idx where
  | one (i : ℕ)
  | many (l : List ℕ)
  | other

/-- The runs, psygrid.py l.2041-2048 and l.2080-2087; `get` is `self[i]`. -/
def runs {A : Type} (get : ℕ → Except Err A) : Idx → Except Err (List A)
  | .many l => MesaStop.mapE get l
  | .one i => (get i).map ([·])
  | .other => .error .type

/-! ### Checks -/

/-- An argument: `None`, a text, a list of texts, anything else. -/
inductive Arg where
  | none | text (n : Name) | list (l : List Name) | other
deriving DecidableEq

/-- The names of the first run which has the history, l.117-121. -/
def histNames : List (Option Hist) → List Name
  | [] => []
  | none :: l => histNames l
  | some h :: _ => h.names

/-- What is to be drawn. -/
structure Req where
  x : Option Name
  y : Arg
  z : Option Name
  count : ℕ
deriving DecidableEq

/-- The check of `x_var_str`, l.124-136. -/
def checkX (names : List Name) : Arg → Except Err (Option Name)
  | .none => .ok none
  | .text n => if n ∈ names then .ok (some n) else .error .value
  | _ => .error .value

/-- The check of `y_var_str`, l.137-160: the number of panels. -/
def checkY (names : List Name) (xNone : Bool) : Arg → Except Err ℕ
  | .text n => if n ∈ names then .ok 1 else .error .value
  | .list l => if ∀ n ∈ l, n ∈ names then .ok l.length else .error .value
  | _ => if xNone then .ok 1 else .error .value

/-- The check of `z_var_str`, l.161-175: with colours there is one panel. -/
def checkZ (names : List Name) (count : ℕ) : Arg → Except Err (Option Name × ℕ)
  | .none => .ok (none, count)
  | .text n => if n ∈ names then .ok (some n, 1) else .error .value
  | _ => .error .value

/-- The checks of `__init__`, l.117-175. -/
def check (hs : List (Option Hist)) (x y z : Arg) : Except Err Req :=
  let names := histNames hs
  match checkX names x with
  | .error e => .error e
  | .ok x' => match checkY names (decide (x = .none)) y with
    | .error e => .error e
    | .ok c => match checkZ names c z with
      | .error e => .error e
      | .ok (z', c') => .ok ⟨x', y, z', c'⟩

/-! ### Curves -/

/-- `history[name]`: a history may be missing, the field may be missing. -/
def col (h : Option Hist) (n : Name) : Except Err (List ℚ) :=
  match h with
  | none => .error .type
  | some h => if n ∈ h.names then .ok (h.rows.map (· n)) else .error .noField

/-- With the logarithm if asked for. -/
def scaled (lg : ℚ → ℚ) (log : Bool) (l : List ℚ) : List ℚ := if log then l.map lg else l

/-- The columns of all runs, l.300-325. -/
def columns (lg : ℚ → ℚ) (log : Bool) (hs : List (Option Hist)) (n : Name) : Except Err (List (List ℚ)) :=
  (MesaStop.mapE (col · n) hs).map (·.map (scaled lg log))

/-- `min` of a list, of which nothing is an error. -/
def least : List ℚ → Except Err ℚ
  | [] => .error .empty
  | v :: vs => .ok (vs.foldl min v)

/-- `max` of a list. -/
def greatest : List ℚ → Except Err ℚ
  | [] => .error .empty
  | v :: vs => .ok (vs.foldl max v)

/-- The loop over the runs for the lower limit of the colours, l.328-332. -/
def lower : ℚ → List (List ℚ) → Except Err ℚ
  | a, [] => .ok a
  | a, z :: zs => match least z with
    | .error e => .error e
    | .ok m => lower (if m < a then m else a) zs

/-- The loop for the upper limit, l.333-337. -/
def upper : ℚ → List (List ℚ) → Except Err ℚ
  | a, [] => .ok a
  | a, z :: zs => match greatest z with
    | .error e => .error e
    | .ok m => upper (if a < m then m else a) zs

/-- The limits that are not given are found, l.328-337. -/
def limits (zmin zmax : Option ℚ) (zs : List (List ℚ)) : Except Err (ℚ × ℚ) :=
  let lo : Except Err ℚ := match zmin with
    | some a => .ok a
    | none => match zs with
      | [] => .error .empty
      | z :: _ => match least z with
        | .error e => .error e
        | .ok a => lower a zs
  let hi : Except Err ℚ := match zmax with
    | some a => .ok a
    | none => match zs with
      | [] => .error .empty
      | z :: _ => match greatest z with
        | .error e => .error e
        | .ok a => upper a zs
  match lo with
  | .error e => .error e
  | .ok a => match hi with
    | .error e => .error e
    | .ok b => .ok (a, b)

/-- One panel: curves along both axes, colours with their limits. -/
structure Panel where
  x : List (List ℚ)
  y : List (List ℚ)
  z : Option (List (List ℚ) × ℚ × ℚ)
deriving DecidableEq

/-- Scales and limits. -/
structure Opts where
  xlog : Bool := false
  ylog : Bool := false
  zlog : Bool := false
  zmin : Option ℚ := none
  zmax : Option ℚ := none

/-- `update_values_to_plot`, l.290-337. -/
def panel (lg : ℚ → ℚ) (o : Opts) (hs : List (Option Hist)) (x : Option Name) (y : Name) (z : Option Name) : Except Err Panel :=
  match x with
  | none => .error .missing
  | some x => match columns lg o.xlog hs x with
    | .error e => .error e
    | .ok xs => match columns lg o.ylog hs y with
      | .error e => .error e
      | .ok ys => match z with
        | none => .ok ⟨xs, ys, none⟩
        | some z => match columns lg o.zlog hs z with
          | .error e => .error e
          | .ok zs => match limits o.zmin o.zmax zs with
            | .error e => .error e
            | .ok (a, b) => .ok ⟨xs, ys, some (zs, a, b)⟩

/-- `__call__` without the diagram, l.179-206. -/
def call (lg : ℚ → ℚ) (o : Opts) (hs : List (Option Hist)) (r : Req) : Except Err (List Panel) :=
  if 1 < r.count then
    match r.y with
    | .list l => MesaStop.mapE (fun y => panel lg o hs r.x y r.z) l
    | _ => .error .type
  else if r.count = 1 then
    match r.y with
    | .text y => (panel lg o hs r.x y r.z).map ([·])
    | .list _ => .error .type
    | _ => .error .missing
  else .error .value

/-! ### Diagrams -/

/-- One of the limits after a run, l.615-633: `m` is the least (greatest) value of the run. -/
def stepLow (l : Option ℚ) (m : ℚ) : Option ℚ :=
  match l with
  | none => some (m * (98/100))
  | some a => if m < a then some (m * (98/100)) else some a

def stepHigh (l : Option ℚ) (m : ℚ) : Option ℚ :=
  match l with
  | none => some (m * (102/100))
  | some a => if a < m then some (m * (102/100)) else some a

/-- The limits after all runs. -/
def diagramLow (given : Option ℚ) (ms : List ℚ) : Option ℚ := ms.foldl stepLow given
def diagramHigh (given : Option ℚ) (ms : List ℚ) : Option ℚ := ms.foldl stepHigh given

/-- Lines of constant radius need all four limits, l.518-526. -/
def radiusLines (const : Bool) (xmin xmax ymin ymax : Option ℚ) : Except Err Unit :=
  if const then
    match xmin, xmax, ymin, ymax with
    | some _, some _, some _, some _ => .ok ()
    | _, _, _, _ => .error .type
  else .ok ()

/-- The colours of the states of stars, plot_defaults.py l.427-471, without those of runs that were ignored. -/
def colour (s : Name) : Option Name :=
  let t : List (Name × Name) :=
    [((chars! "H-rich_non_burning"), (chars! "tab:orange")), ((chars! "accreted_He_Core_H_burning"), (chars! "black")),
     ((chars! "H-rich_Core_H_burning"), (chars! "tab:olive")), ((chars! "H-rich_Shell_H_burning"), (chars! "tab:red")),
     ((chars! "H-rich_Core_C_burning"), (chars! "tab:pink")), ((chars! "H-rich_Core_C_depleted"), (chars! "tab:brown")),
     ((chars! "H-rich_Core_He_burning"), (chars! "tab:blue")), ((chars! "H-rich_Near_Core_C_depleted"), (chars! "tab:purple")),
     ((chars! "H-rich_Core_He_depleted"), (chars! "tab:green")), ((chars! "stripped_He_Core_He_burning"), (chars! "tab:blue")),
     ((chars! "stripped_He_Core_He_depleted"), (chars! "tab:green")), ((chars! "stripped_He_Core_C_burning"), (chars! "tab:pink")),
     ((chars! "stripped_He_Core_C_depleted"), (chars! "tab:brown")), ((chars! "stripped_He_non_burning"), (chars! "gray")),
     ((chars! "stripped_He_Core_H_burning"), (chars! "black")), ((chars! "stripped_He_Shell_H_burning"), (chars! "black")),
     ((chars! "undetermined_evolutionary_state"), (chars! "black")), ((chars! "BH"), (chars! "black")), ((chars! "NS"), (chars! "tab:gray")),
     ((chars! "ignored_no_binary_history"), (chars! "tab:olive")), ((chars! "ignored_no_RLO"), (chars! "tab:olive"))]
  (t.find? fun p => p.1 = s).map (·.2)

/-- The states left out of the legend, l.579-584. -/
def skipped : List Name :=
  [(chars! "undetermined_evolutionary_state"), (chars! "BH"), (chars! "NS"), (chars! "ignored_no_binary_history"), (chars! "ignored_no_RLO"),
   (chars! "H-rich_non_burning"), (chars! "stripped_He_non_burning"), (chars! "accreted_He_Core_H_burning")]

/-- A state is in the legend, l.585-595. -/
def inLegend (s : Name) : Bool := (colour s).isSome && decide (s ∉ skipped)

/-- The colours of the points of one run, l.560-561. -/
def colours (states : List Name) : Except Err (List Name) :=
  MesaStop.mapE (fun s => match colour s with
    | some c => .ok c
    | none => .error .key) states

/-! ### Specification -/

/-- The states of stars that are not compact, with their names as lists of characters. -/
def stateName : StarState.State → Name
  | .undetermined => (chars! "undetermined_evolutionary_state")
  | .massless => (chars! "massless_remnant") | .WD => (chars! "WD") | .NS => (chars! "NS") | .BH => (chars! "BH")
  | .normal r b => (match r with
    | .Hrich => (chars! "H-rich") | .accreted => (chars! "accreted_He") | .stripped => (chars! "stripped_He")) ++ '_' :: (match b with
    | .coreH => (chars! "Core_H_burning") | .coreHe => (chars! "Core_He_burning") | .shellH => (chars! "Shell_H_burning")
    | .nonBurning => (chars! "non_burning") | .coreHeDep => (chars! "Core_He_depleted") | .coreCDep => (chars! "Core_C_depleted"))

end Verif.Curves
