import Mathlib.Tactic.Common
import Mathlib.Tactic.Linarith
import Mathlib.Analysis.SpecialFunctions.Log.Base
import Mathlib.Analysis.SpecialFunctions.Pow.Real
/-!
Model of `MesaGridStep.update_properties_NN`, `/repo/posydon/binary_evol/MESA/step_mesa.py` l.473-877: how the current
values and the histories of a binary and its stars are filled from the closest track of a grid.

Simplifications: the values of the columns are of an arbitrary type `V`; a track is a function from column names to
lists, where all columns of the binary history have the same length, and so have all columns of a star's history (they
are numpy record arrays).  Classifications of stars and binaries are parameters that read a row of the histories.  The
branch that leaves early because the run is an initial overflow (l.496-510) is not modelled here (nothing is recorded
there), neither are `key_post_processed` and the supernova values (l.854-877), which have no history.
-/
namespace Verif.MesaTrack

/-- A property of a binary or star: its current value and its history. -/
structure Cell (V : Type) where
  cur : V
  hist : List V

/-- Values the code writes by itself, and the functions it uses: `None`, NaN, addition (times), the spin after
accretion (from spin, initial and final mass) and the logarithm of the radius of a compact object. -/
structure Ops (V : Type) where
  none : V
  nan : V
  add : V → V → V
  spin : V → V → V → V
  logR : V → V

/-- The options `track_interpolation` (argument), `save_initial_conditions` and `flush_history`. -/
structure Cfg where
  track : Bool
  save : Bool
  flush : Bool

/-- `closest_binary`: binary history, the two star histories, the final profiles. -/
structure Track (V : Type) where
  bcol : String → List V
  scol : Bool → String → List V
  profile : Bool → V
  dist : V

inductive Err
  | unbound   -- `length_hist` used before it is set
  | index
  deriving DecidableEq, Repr

/-- Number of rows that are recorded: all but the last, l.514-515. -/
def Track.lb {V : Type} (t : Track V) : Nat := (t.bcol "age").length - 1
def Track.ls {V : Type} (t : Track V) : Nat := (t.scol false "center_he4").length - 1
/-- `length_hist`, l.516 -/
def Track.L {V : Type} (t : Track V) : Nat := min t.lb t.ls
/-- `MESA_history_bug_fix`, l.519-520 -/
def Track.bug {V : Type} (t : Track V) : Bool := t.lb != t.ls

/-- `append(first)` if initial conditions are saved, `extend(rows)` if the track is recorded. -/
def grow {V : Type} (c : Cfg) (h : List V) (first : V) (rows : List V) : List V :=
  let h1 := if c.save then h ++ [first] else h
  if c.track then h1 ++ rows else h1

/-- `missing_values`, l.577-579: the values missing in a column (an integer that may be negative; only a positive one is
used). -/
def missing {V : Type} (t : Track V) (n0 : Nat) (h : List V) : Nat := max t.lb t.ls + n0 - h.length

/-- l.575-581 -/
def padB {V : Type} (o : Ops V) (c : Cfg) (t : Track V) (n0 : Nat) (h : List V) : List V :=
  if c.track && t.bug then h ++ List.replicate (missing t n0 h) o.nan else h

/-- The cases of the loop over `BINARYPROPERTIES`, l.531-574; `state`, `event` and `mass_transfer_case` are skipped. -/
inductive BKind
  | unmapped
  | time (col : String)
  | dist
  | keep
  | col (name : String)
  deriving DecidableEq

/-- A column without its last entry, and its first, last entry. -/
def initRows {V : Type} (l : List V) : List V := l.dropLast

/-- One pass of the loop over `BINARYPROPERTIES`, l.531-581. -/
def updB {V : Type} (o : Ops V) (c : Cfg) (t : Track V) (n0 : Nat) (k : BKind) (x : Cell V) : Except Err (Cell V) :=
  if !c.track && !c.save then .error .unbound
  else
    let fin (cur : V) (first : V) (rows : List V) : Cell V := ⟨cur, padB o c t n0 (grow c x.hist first rows)⟩
    match k with
    | .unmapped => .ok (fin o.none o.none (List.replicate t.L o.none))
    | .time name =>
      match (t.bcol name).getLast?, (initRows (t.bcol name)).head? with
      | some z, some a => .ok (fin (o.add x.cur z) (o.add x.cur a) ((initRows (t.bcol name)).map (o.add x.cur)))
      | _, _ => .error .index
    | .dist => .ok (fin t.dist t.dist (List.replicate t.L t.dist))
    | .keep =>
      match x.hist.getLast? with
      | some v => .ok (fin v v (List.replicate t.L v))
      | none => .error .index
    | .col name =>
      match (t.bcol name).getLast?, (initRows (t.bcol name)).head? with
      | some z, some a => .ok (fin z a (initRows (t.bcol name)))
      | _, _ => .error .index

/-- The cases of the loop over `STARPROPERTIES` for a star that is no compact object, l.587-639 (`state` is skipped), and
for a compact object, l.640-714 (`state` and `lg_mdot` are skipped). -/
inductive SKind
  | unmapped
  | metallicity
  | profile
  | binCol (name : String)    -- mass and mass-loss rates: a column of the binary history
  | col (name : String)
  | coMass (name : String)
  | coSpin (mass : String)
  | coLogR (mass : String)
  | coKeep
  deriving DecidableEq

/-- l.717-724: the number of values that are missing is computed for the star's column, but the number of the last binary
column (`missingB`) is used. -/
def padS {V : Type} (o : Ops V) (c : Cfg) (t : Track V) (n0 missingB : Nat) (h : List V) : List V :=
  if c.track && t.bug && decide (0 < missing t n0 h) then h ++ List.replicate missingB o.nan else h

/-- One pass of the loop over `STARPROPERTIES`, l.584-724, for star `s` (`false`: first star). -/
def updS {V : Type} (o : Ops V) (c : Cfg) (t : Track V) (s : Bool) (n0 missingB : Nat) (k : SKind) (x : Cell V) :
    Except Err (Cell V) :=
  if !c.track && !c.save then .error .unbound
  else
    let fin (cur : V) (first : V) (rows : List V) : Cell V := ⟨cur, padS o c t n0 missingB (grow c x.hist first rows)⟩
    let fromCol (l : List V) (f : V → V) : Except Err (Cell V) :=
      match l.getLast?, (initRows l).head? with
      | some z, some a => .ok (fin (f z) (f a) ((initRows l).map f))
      | _, _ => .error .index
    match k with
    | .unmapped => .ok (fin o.none o.none (List.replicate t.L o.none))
    | .metallicity => .ok (fin x.cur x.cur (List.replicate t.L x.cur))
    | .profile => .ok (fin (t.profile s) o.none (List.replicate t.L o.none))
    | .binCol name | .coMass name => fromCol (t.bcol name) id
    | .col name => fromCol (t.scol s name) id
    | .coSpin m =>
      match (t.bcol m).head? with
      | some m0 => fromCol (t.bcol m) (o.spin x.cur m0)
      | none => .error .index
    | .coLogR m => fromCol (t.bcol m) o.logR
    | .coKeep => .ok (fin x.cur x.cur (List.replicate t.L x.cur))

/-- History of a classification, l.745-803: `row i` is the classification of row `i` of the histories (Python index), `n0`
the number of rows before. -/
def stateHist {V : Type} (o : Ops V) (c : Cfg) (t : Track V) (n0 : Nat) (row : Int → V) (h : List V) : List V :=
  let h1 := if c.save then h ++ [row n0] else h
  if c.track then
    if !c.flush then h1 ++ (List.range t.L).map (fun j : Nat => row (-(t.L : Int) + (j : Int)))
    else h1 ++ List.replicate t.L o.none
  else h1

/-- `flush_entries`, l.777-794 (only set when the track is recorded). -/
def flushEntries (c : Cfg) (n0 : Nat) : Option Nat :=
  if c.track then some (if c.save then n0 + 1 else n0) else none

/-- Accretion onto a compact object: the current value, l.814-822. `rate` is the rate of the track plus the accretion
from the wind, `edd` the Eddington rate. -/
noncomputable def accNow (rate edd : ℝ) : ℝ :=
  let lg := Real.logb 10 rate
  if (10 : ℝ) ^ lg > edd then Real.logb 10 edd else lg

/-- The first recorded value, l.826-833. -/
noncomputable def accFirst (rate edd : ℝ) : ℝ :=
  let lg := Real.logb 10 rate
  if (10 : ℝ) ^ lg > edd then Real.logb 10 edd else lg

/-- A recorded value of the track, l.847-850: `y if x > y else x`. -/
noncomputable def accHist (rate edd : ℝ) : ℝ :=
  let x := Real.logb 10 rate
  if x > edd then edd else x

/-! ### Specification -/

/-- All columns of a table of lists have the length `n + 1`. -/
def Rect {V : Type} (f : String → List V) (n : Nat) : Prop := ∀ name, (f name).length = n + 1

/-- Number of rows a step has to add to every history. -/
def added (c : Cfg) (L : Nat) : Nat := (if c.save then 1 else 0) + (if c.track then L else 0)

/-! ### Helper lemmas -/

theorem grow_length {V : Type} (c : Cfg) (h : List V) (a : V) (rows : List V) :
    (grow c h a rows).length = h.length + added c rows.length := by
  simp only [grow, added]
  cases c.save <;> cases c.track <;> simp <;> omega

theorem padB_eq {V : Type} (o : Ops V) (c : Cfg) (t : Track V) (n0 : Nat) (h : List V) (hb : t.bug = false) :
    padB o c t n0 h = h := by simp [padB, hb]

theorem padS_eq {V : Type} (o : Ops V) (c : Cfg) (t : Track V) (n0 m : Nat) (h : List V) (hb : t.bug = false) :
    padS o c t n0 m h = h := by simp [padS, hb]

theorem initRows_length {V : Type} (l : List V) (n : Nat) (h : l.length = n + 1) : (initRows l).length = n := by
  simp [initRows, h]

theorem lb_eq {V : Type} (t : Track V) (n : Nat) (h : Rect t.bcol n) : t.lb = n := by
  unfold Track.lb; rw [h]; rfl

theorem ls_eq {V : Type} (t : Track V) (n : Nat) (h : Rect (t.scol false) n) : t.ls = n := by
  unfold Track.ls; rw [h]; rfl

theorem last_cons {V : Type} (a z : V) (l : List V) : (a :: (l ++ [z])).getLast? = some z :=
  List.getLast?_concat (l := a :: l)

theorem init_cons {V : Type} (a z : V) (l : List V) : initRows (a :: (l ++ [z])) = a :: l :=
  List.dropLast_concat (l₁ := a :: l)

theorem ends {V : Type} (l : List V) (n : Nat) (h : l.length = n + 1) (hn : 0 < n) :
    ∃ z a, l.getLast? = some z ∧ (initRows l).head? = some a := by
  have h1 : l ≠ [] := by intro h'; rw [h'] at h; simp at h
  have h2 : initRows l ≠ [] := by
    intro h'; have := initRows_length l n h; rw [h'] at this; simp at this; omega
  exact ⟨l.getLast h1, (initRows l).head h2, List.getLast?_eq_getLast_of_ne_nil h1, List.head?_eq_some_head h2⟩

end Verif.MesaTrack
