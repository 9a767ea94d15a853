import Verif.Chars
import Verif.TermFlags
import Verif.MTCaseProps
import Verif.TermFlagsProps
import Verif.StarState
import Verif.Jobs
import Verif.Frame
/-!
Model of labelling a MESA run: `/repo/posydon/grids/termination_flags.py`, lines of the log as text (l.54-99), `check_state_from_history`
(l.197-227), `get_mass_transfer_flag` with the states looked up in the histories (l.102-194), `get_flags_from_MESA_run` (l.230-272),
the flags and the class that `/repo/posydon/grids/psygrid.py` stores for a run (l.1155-1171, l.1195-1203), and
`get_binary_state_and_event_and_mt_case_array` of `/repo/posydon/utils/common_functions.py` (l.1264-1299).

Simplifications: floats are rationals, NaN is `none`; a history is a map from names of columns to values; the text of a flag is a list of
characters where it is looked into.
-/
namespace Verif.RunLabels

open Verif.Frame (Name)
open Verif.MTCase (Num Row gtN ltN geN inferCase rlof1 rlof2)
open Verif.StarState (Inputs)
open Verif.TermFlags (Line IC)

/-! ### The log -/

def code1 : Name := (chars! "termination code: ")
def code2 : Name := (chars! "Terminate: ")

/-- What the loop of l.78-96 sees of a line. -/
def toLine (l : Name) : Line :=
  ⟨if Jobs.starts code1 l then some (String.ofList (Jobs.strip (l.drop code1.length)))
   else if Jobs.starts code2 l then some (String.ofList (Jobs.strip (l.drop code2.length)))
   else none,
   Frame.isIn (chars! "min_timestep_limit") l, Frame.isIn (chars! "Reached TPAGB") l⟩

/-- `get_flag_from_MESA_output` -/
def flagOut (log : Option (List Name)) : String := TermFlags.flagFromOutput (log.map fun ls => ls.map toLine)

/-! ### States -/

inductive Err | key (n : Name) | index | type | unknown
  deriving DecidableEq

/-- A history of a star. -/
abbrev Hist := Name → Option (List Num)

/-- `STAR_HISTORY_VARIABLES`, l.50-51 -/
def needed : List Name := [(chars! "surface_h1"), (chars! "center_h1"), (chars! "center_he4"), (chars! "center_c12"), (chars! "log_LH"),
  (chars! "log_LHe"), (chars! "log_Lnuc")]

/-- `a[i]`; `none` is the index -1. -/
def item (l : List Num) : Option ℕ → Except Err Num
  | some i => match l[i]? with | some x => .ok x | none => .error .index
  | none => match l.getLast? with | some x => .ok x | none => .error .index

/-- The columns that are needed, l.220-224. -/
def firstMissing (h : Hist) : Option Name := needed.find? fun v => (h v).isNone

/-- `history[name][index]` -/
def value (h : Hist) (i : Option ℕ) (n : Name) : Except Err Num :=
  match h n with
  | none => .error (.key n)
  | some l => item l i

/-- The values for `infer_star_state`, l.226-227. -/
def inputs (h : Hist) (i : Option ℕ) : Except Err Inputs :=
  match value h i (chars! "surface_h1"), value h i (chars! "center_h1"), value h i (chars! "center_he4"), value h i (chars! "center_c12"),
    value h i (chars! "log_LH"), value h i (chars! "log_LHe"), value h i (chars! "log_Lnuc") with
  | .ok a, .ok b, .ok c, .ok d, .ok e, .ok f, .ok g => .ok ⟨none, a, b, c, d, e, f, g⟩
  | _, _, _, _, _, _, _ => .error .index

/-- How stars are classified: rounding and the relative threshold. -/
structure Phys where
  rnd : ℚ → ℚ
  rel : ℚ

/-- `check_state_from_history`, l.197-227. -/
def stateAt (ph : Phys) (h : Option Hist) (mass : List Num) (i : Option ℕ) : Except Err String :=
  match h with
  | none => match item mass i with
    | .error e => .error e
    | .ok m => .ok (StarState.inferCO ⟨m, none, none, none, none, none, none, none⟩).name
  | some h => match firstMissing h with
    | some n => .error (.key n)
    | none => match inputs h i with
      | .error e => .error e
      | .ok v => .ok (StarState.inferNormal ph.rnd ph.rel v).name

/-! ### The flag of the mass transfer -/

/-- A row of the binary history. -/
structure BRow where
  rel1 : Num
  rel2 : Num
  rate : Num
  mass1 : Num
  mass2 : Num

/-- The row with states of the stars. -/
def BRow.row (b : BRow) (s1 s2 : String) : Row := ⟨b.rel1, b.rel2, b.rate, s1, s2⟩

def over1 (b : BRow) : Bool := rlof1 (b.row "" "")
def over2 (b : BRow) : Bool := rlof2 (b.row "" "")

/-- l.155-170 (or l.172-188 with the shift): the cases of the rows in which a star overflows. -/
def cases (state : ℕ → Except Err String) (over : BRow → Bool) (rel : BRow → Num) (shift : ℕ) : List (BRow × ℕ) → Except Err (List (Option ℕ))
  | [] => .ok []
  | (b, i) :: rest =>
    if over b then
      match state i with
      | .error e => .error e
      | .ok s => match cases state over rel shift rest with
        | .error e => .error e
        | .ok l => .ok (some (inferCase (some (rel b)) (some b.rate) s true + shift) :: l)
    else match cases state over rel shift rest with
      | .error e => .error e
      | .ok l => .ok (none :: l)

/-- `MT[where_rlof] = ...` for star 2 after star 1, then the entries that are not `None`. -/
def entries : List (Option ℕ) → List (Option ℕ) → List ℕ
  | a :: as, b :: bs => (match b, a with | some x, _ => [x] | none, some y => [y] | none, none => []) ++ entries as bs
  | _, _ => []

/-- The cumulative flag of the entries of both stars. -/
def render (c1 c2 : Except Err (List (Option ℕ))) : Except Err Name :=
  match c1, c2 with
  | .error e, _ => .error e
  | .ok _, .error e => .error e
  | .ok l1, .ok l2 => match MTCase.flag true (entries l1 l2) with
    | some t => .ok t
    | none => .error .unknown

/-- `get_mass_transfer_flag`, l.128-194. -/
def flag2 (ph : Phys) (start : Bool) (rows : List BRow) (h1 h2 : Option Hist) (tf1 : String) : Except Err Name :=
  if tf1 ∈ TermFlags.tf1Error then .ok (chars! "None")
  else if tf1 ∈ TermFlags.tf1Initial then .ok (chars! "initial_RLOF")
  else if rows.any (fun b => gtN b.rel1 0 && gtN b.rel2 0) then .ok (chars! "contact_during_MS")
  else if !rows.any over1 && !rows.any over2 then .ok (chars! "no_RLOF")
  else if rows.any over1 && !start && (rows.head?.map over1 == some true) then .ok (chars! "initial_RLOF")
  else
    let c1 := cases (fun i => stateAt ph h1 (rows.map (·.mass1)) (some i)) over1 (·.rel1) 0 rows.zipIdx
    match c1 with
    | .error e => .error e
    | .ok l1 =>
      if rows.any over2 && !start && (rows.head?.map over2 == some true) then .ok (chars! "initial_RLOF")
      else render (.ok l1) (cases (fun i => stateAt ph h2 (rows.map (·.mass2)) (some i)) over2 (·.rel2) 10 rows.zipIdx)

/-- The four flags. -/
structure Flags where
  tf1 : String
  tf2 : Name
  state1 : String
  state2 : String

/-- What is known of a run. -/
structure Run where
  log : Option (List Name)
  rows : Option (List BRow)
  h1 : Option Hist
  h2 : Option Hist

/-- Termination flag 1, l.261-264. -/
def flag1 (newTF1 : String) (log : Option (List Name)) : String := if newTF1 = "" then flagOut log else newTF1

/-- `get_flags_from_MESA_run`, l.230-272. -/
def flags (ph : Phys) (start : Bool) (newTF1 : String) (r : Run) : Except Err Flags :=
  let tf1 := flag1 newTF1 r.log
  match r.rows with
  | none => .error .type
  | some rows =>
    match stateAt ph r.h1 (rows.map (·.mass1)) none with
    | .error e => .error e
    | .ok s1 => match stateAt ph r.h2 (rows.map (·.mass2)) none with
      | .error e => .error e
      | .ok s2 => match flag2 ph start rows r.h1 r.h2 tf1 with
        | .error e => .error e
        | .ok t => .ok ⟨tf1, t, s1, s2⟩

/-- The class that is stored, psygrid.py l.1202-1203. -/
def classOf (f : Flags) : IC := TermFlags.inferClass f.tf1 f.tf2

/-- The flags of a single star, psygrid.py l.1166-1171. -/
def single (ph : Phys) (log : Option (List Name)) (h : Option Hist) : Except Err (String × String) :=
  match h with
  | none => .error .type
  | some h => match h (chars! "star_mass") with
    | none => .error (.key (chars! "star_mass"))
    | some m => match stateAt ph (some h) m none with
      | .error e => .error e
      | .ok s => .ok (flagOut log, s)

/-! ### States of a whole binary -/

/-- `range(-N, 0)` into a list, l.1289: item `-k`. -/
def fromEnd {A : Type} (l : List A) (k : ℕ) : Option A := if k ≤ l.length ∧ 0 < k then l[l.length - k]? else none

/-- l.1285-1299 with `N` given: `f` is `get_binary_state_and_event_and_mt_case` for the row. -/
def lastStates {A B : Type} (f : A → B) (l : List A) : ℕ → Except Err (List B)
  | 0 => .ok []
  | n + 1 => match fromEnd l (n + 1) with
    | none => .error .index
    | some a => match lastStates f l n with
      | .error e => .error e
      | .ok bs => .ok (f a :: bs)

/-! ### Specification -/

/-- A history with all columns that are needed and `n` models. -/
def Complete (n : ℕ) (h : Hist) : Prop := ∀ v ∈ needed, ∃ l, h v = some l ∧ l.length = n

/-- Histories of stars are complete, or missing for compact objects. -/
def Good (n : ℕ) (h : Option Hist) : Prop := ∀ x, h = some x → Complete n x

end Verif.RunLabels
