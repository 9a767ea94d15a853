import Verif.Chars
import Verif.GridJoin
import Mathlib.Algebra.Order.Field.Rat
/-!
# Selection of transients

Model of `/repo/posydon/popsyn/transient_select_funcs.py`, `GRB_selection` (l.19-123) and `BBH_selection_function` (l.210-264).

A history is a list of rows with the number of their binary, in the order of the file. Columns are functions of their name. An undefined number
is `none`. Exceptions are values. The numbers are of any type `K`, times are multiplied by `1e-6` by a function `myr`.
-/
namespace Verif.Transient

open Verif.Frame (Name before)
open Verif.GridJoin (mask)

variable {K : Type}

inductive Err
  | value | key
  deriving DecidableEq, Repr

/-- A row of the history. -/
structure Row (K : Type) where
  idx : ℕ
  s1 : String
  s2 : String
  state : String
  event : String
  step : String
  time : K
  col : Name → Option K

/-- A row of the table with one line per binary: the radiated masses, the other columns. -/
structure One (K : Type) where
  idx : ℕ
  disk1 : Option K
  disk2 : Option K
  col : Name → Option K

/-- A table of transients: index, columns of numbers, column of channels. -/
structure Table (K : Type) where
  index : List ℕ
  cols : List (Name × List (Option K))
  channel : Option (List (Option Name))
  deriving DecidableEq

/-- State of the star selected. -/
def isBH (w : Bool) (r : Row K) : Bool := (if w then r.s1 else r.s2) == "BH"

/-- `Series.shift(1)` of a mask: the undefined first entry counts as `False` under `&`. -/
def shift (l : List Bool) : List Bool := (false :: l).take l.length

/-- `Series.shift(-1, fill_value=False)` -/
def shiftBack (l : List Bool) : List Bool := (l ++ [false]).drop 1

/-- `S_mask`, l.83-86. -/
def sMask (w : Bool) (rows : List (Row K)) : List Bool :=
  List.zipWith (fun a b => a && b) (List.zipWith (fun a b => a && b) (rows.map (isBH w)) (shift (rows.map fun r => !isBH w r)))
    (rows.map fun r => r.step == "step_SN")

/-- `frame.loc[indices]` for a table whose index may have several rows of a number: a missing number is a key error. -/
def loc {R : Type} (num : R → ℕ) (rows : List R) (is : List ℕ) : Except Err (List R) :=
  if is.any fun i => (rows.filter fun r => num r == i).isEmpty then .error .key else .ok (is.flatMap fun i => rows.filter fun r => num r == i)

/-- `col`: masses of the star selected, and of the other one. -/
def own (w : Bool) : Name := if w then (chars! "S1_mass") else (chars! "S2_mass")
def other (w : Bool) : Name := if w then (chars! "S2_mass") else (chars! "S1_mass")
def prePost (w : Bool) : List Name := [(chars! "orbital_period"), (chars! "eccentricity"), (chars! "S1_spin"), (chars! "S2_spin"), own w]

/-- `GRB_selection`, l.19-123: `names` are the columns of the one-line table besides the radiated masses; the channels are a table with one
row per binary (simplification: a binary is there once or not at all). -/
def grb [LT K] [DecidableLT K] [Zero K] (myr : K → K) (which : Name) (hist : List (Row K)) (one : List (One K)) (names : List Name) (chan : Option (List (ℕ × Name))) :
    Except Err (Table K) :=
  if which ≠ (chars! "S1") ∧ which ≠ (chars! "S2") then .error .value
  else
    let w := decide (which = (chars! "S1"))
    let disk : One K → Option K := fun o => if w then o.disk1 else o.disk2
    let is := (one.filter fun o => match disk o with
      | some x => decide (0 < x)
      | none => false).map (·.idx)
    if is = [] then .ok ⟨[], [], none⟩
    else match loc Row.idx hist is with
      | .error e => .error e
      | .ok sel =>
        let m := sMask w sel
        let post := mask m sel
        let pre := mask (shiftBack m) sel
        if pre.length ≠ is.length ∨ post.length ≠ is.length then .error .value
        else match loc One.idx one is with
          | .error e => .error e
          | .ok os =>
            if os.length ≠ is.length then .error .value
            else
              let cs := ((prePost w).flatMap fun c => [(c ++ (chars! "_preSN"), pre.map fun r => r.col c), (c ++ (chars! "_postSN"), post.map fun r => r.col c)]) ++
                [(other w, post.map fun r => r.col (other w))] ++ names.map (fun c => (c, os.map fun o => o.col c)) ++
                [(if w then (chars! "S1_m_disk_radiated") else (chars! "S2_m_disk_radiated"), os.map disk), ((chars! "time"), post.map fun r => some (myr r.time))]
              match chan with
              | none => .ok ⟨is, cs, none⟩
              | some ch =>
                if is.any fun i => (ch.find? fun p => p.1 == i).isNone then .error .key
                else
                  let cc := if w then (chars! "_CC1") else (chars! "_CC2")
                  .ok ⟨is, cs, some (is.map fun i => (ch.find? fun p => p.1 == i).map fun p => before cc p.2 ++ cc)⟩

/-! ### Pairs of black holes -/

/-- Assigning a series to a column: the same index is taken as it is, else the numbers are looked up, which needs an index without repetition. -/
def align {V : Type} (index : List ℕ) (s : List (ℕ × Option V)) : Except Err (List (Option V)) :=
  if s.map (·.1) = index then .ok (s.map (·.2))
  else if ¬ (s.map (·.1)).Nodup then .error .value
  else .ok (index.map fun i => ((s.find? fun p => p.1 == i).map (·.2)).join)

/-- The rows just after the second supernova, l.243. -/
def both (r : Row K) : Bool := r.s1 == "BH" && r.s2 == "BH" && r.step == "step_SN" && r.state == "detached"

/-- Functions of the masses and spins, l.256-258. -/
structure Funs (K : Type) where
  myr : K → K
  chirp : K → K → K
  ratio : K → K → K
  chi : K → K → Option K → Option K → Option K → Option K → K

def lift2 (f : K → K → K) : Option K → Option K → Option K
  | some a, some b => some (f a b)
  | _, _ => none

def zip2 (f : Option K → Option K → Option K) (a b : List (Option K)) : List (Option K) := List.zipWith f a b

/-- `BBH_selection_function`, l.210-264, for a non-empty table of binaries. The states of both stars are left out, they are `BH` or undefined.
The channels are joined (l.262): simplification, numbers which are only in the channels come last. -/
def bbh [Sub K] (F : Funs K) (hist : List (Row K)) (one : List (One K)) (chan : Option (List (ℕ × Name))) : Except Err (Table K) :=
  let index := one.map (·.idx)
  let sn := hist.filter both
  let col : Name → List (ℕ × Option K) := fun c => sn.map fun r => (r.idx, r.col c)
  match align index ((hist.filter fun r => r.event == "END").map fun r => (r.idx, some (F.myr r.time))),
      align index (sn.map fun r => (r.idx, some (F.myr r.time))), align index (col (chars! "S1_mass")), align index (col (chars! "S2_mass")),
      align index (col (chars! "S1_spin")), align index (col (chars! "S2_spin")), align index (col (chars! "orbital_period")), align index (col (chars! "eccentricity")) with
  | .ok tEnd, .ok tSN, .ok m1, .ok m2, .ok a1, .ok a2, .ok p, .ok e =>
    let tilt1 := one.map fun o => o.col (chars! "S1_spin_orbit_tilt_second_SN")
    let tilt2 := one.map fun o => o.col (chars! "S2_spin_orbit_tilt_second_SN")
    let chis := (List.range index.length).map fun i =>
      match (m1.getD i none), (m2.getD i none) with
      | some x, some y => some (F.chi x y (a1.getD i none) (a2.getD i none) (tilt1.getD i none) (tilt2.getD i none))
      | _, _ => none
    let cs := [((chars! "time"), tEnd), ((chars! "t_inspiral"), zip2 (lift2 fun x y => x - y) tEnd tSN), ((chars! "metallicity"), one.map fun o => o.col (chars! "metallicity")),
      ((chars! "S1_mass"), m1), ((chars! "S2_mass"), m2), ((chars! "S1_spin"), a1), ((chars! "S2_spin"), a2), ((chars! "S1_spin_orbit_tilt_at_merger"), tilt1),
      ((chars! "S2_spin_orbit_tilt_at_merger"), tilt2), ((chars! "orbital_period"), p), ((chars! "chirp_mass"), zip2 (lift2 F.chirp) m1 m2),
      ((chars! "mass_ratio"), zip2 (lift2 F.ratio) m1 m2), ((chars! "chi_eff"), chis), ((chars! "eccentricity"), e)]
    match chan with
    | none => .ok ⟨index, cs, none⟩
    | some ch =>
      let more := (ch.map (·.1)).filter fun i => !index.contains i
      .ok ⟨index ++ more, cs.map fun c => (c.1, c.2 ++ more.map fun _ => none),
        some ((index ++ more).map fun i => (ch.find? fun p => p.1 == i).map (·.2))⟩
  | _, _, _, _, _, _, _, _ => .error .value

end Verif.Transient
