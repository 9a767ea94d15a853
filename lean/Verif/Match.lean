import Verif.Chars
import Verif.FlowChart
import Verif.Py
import Mathlib.Algebra.Order.Field.Rat
import Mathlib.Tactic.Linarith
import Mathlib.Tactic.NormNum
import Mathlib.Tactic.Common
/-!
Model of the choice of stars and grids when a binary is matched to single-star tracks:
`/repo/posydon/binary_evol/binarystar.py` `check_who_exists` (l.341-357) and, in `/repo/posydon/binary_evol/track_match.py`,
`determine_star_states` (l.2076-2182), the choice of the matching list in `match_through_minimize` (`get_match_attrs`,
l.1155-1225) with the lists of states of `/repo/posydon/binary_evol/flow_chart.py` (l.116-135) and the default lists of
quantities (l.345-401), the first half of `get_star_match_data` (l.1501-1543) and `do_matching` (l.1906-2026); also the request
made by `adjust_secondary_radius` of `/repo/posydon/binary_evol/CE/step_CEE.py` (l.1442-1464).

Simplification: a star is given by its state, mass and the tuple `(m0, t0)` of its interpolator; the search for a track is a
parameter (its loop is modelled in `Verif.Fit`), floats are rationals and `NaN` is `none`.  Printing is left out.
-/
namespace Verif.Match
open Verif.FlowChart

/-- A component of a binary: no star object (`None`), a state outside the table, or a state of the table. -/
inductive St | absent | other | st (s : Star) deriving DecidableEq, Repr

def St.all : List St := .absent :: .other :: Star.all.map .st

theorem St.mem_all (s : St) : s ∈ St.all := by
  rcases s with _ | _ | s
  · decide
  · decide
  · cases s <;> decide

inductive Err | posydon | value | attribute | unbound | matching | assertion | numerical | flow
  deriving DecidableEq, Repr

/-- `companion_k_exists`, binarystar.py l.341-344. -/
def there (s : St) : Bool := s ≠ .absent && s ≠ .st .massless

/-- `non_existent_companion`, l.346-357. -/
def missing (s1 s2 : St) : Int :=
  if there s1 then (if there s2 then 0 else 2) else (if there s2 then 1 else -1)

def St.co : St → Bool | .st s => starCO.contains s | _ => false
def St.h : St → Bool | .st s => starHRich.contains s | _ => false
def St.he : St → Bool | .st s => starHeRich.contains s | _ => false
def St.valid (s : St) : Bool := s.h || s.he || s.co || (s = .st .massless)
def St.htrack (s : St) : Bool := s.h && !s.co

/-- A star in its role: which star, and the flags `co` and `htrack` it is given. -/
structure Role where
  one : Bool
  co : Bool
  htrack : Bool
  deriving DecidableEq, Repr

structure Roles where
  primary : Role
  secondary : Role
  onlyCO : Bool
  deriving DecidableEq, Repr

/-- `array[mask].item()` for an array of two entries: an error unless exactly one is selected. -/
def item {α : Type} (m1 m2 : Bool) (a b : α) : Except Err α := match m1, m2 with
  | true, false => .ok a
  | false, true => .ok b
  | _, _ => .error .value

/-- The role taken from the masks of the stars, the flag `co` and the flag `htrack` (l.2117-2134). -/
def pick (m1 m2 : Bool) (c1 c2 : Bool) (n1 n2 : Bool) (t1 t2 : Bool) : Except Err Role :=
  match item m1 m2 true false with
  | .error e => .error e
  | .ok o => match item m1 m2 c1 c2 with
    | .error e => .error e
    | .ok c => match item n1 n2 t1 t2 with
      | .error e => .error e
      | .ok t => .ok ⟨o, c, t⟩

/-- The two roles, l.2101-2144. -/
def both (p s : Except Err Role) : Except Err Roles := match p with
  | .error e => .error e
  | .ok p => match s with
    | .error e => .error e
    | .ok s => .ok ⟨p, s, false⟩

/-- `determine_star_states`, l.2076-2182. -/
def roles (s1 s2 : St) : Except Err Roles :=
  if missing s1 s2 = -1 then .error .posydon
  else if s1 = .absent || s2 = .absent then .error .attribute
  else if !s1.valid || !s2.valid then .error .value
  else if missing s1 s2 = 0 then
    if (s1.valid && s2.valid) && ((s1.htrack && s2.htrack) || (!s1.htrack && !s2.htrack)) && !(s1.co || s2.co) then
      .ok ⟨⟨true, s1.co, s1.htrack⟩, ⟨false, s2.co, s2.htrack⟩, false⟩
    else if (s1.valid && s2.valid) && !(s1.co || s2.co) then
      both (pick (!s1.htrack) (!s2.htrack) s1.co s2.co (!s1.htrack) (!s2.htrack) s1.htrack s2.htrack)
        (pick s1.htrack s2.htrack s1.co s2.co s1.htrack s2.htrack s1.htrack s2.htrack)
    else if (s1.valid && s2.valid) && ((s1.co || s2.co) && !(s1.co && s2.co)) then
      both (pick s1.co s2.co s1.co s2.co (!s1.co) (!s2.co) s1.htrack s2.htrack)
        (pick (!s1.co) (!s2.co) s1.co s2.co (!s1.co) (!s2.co) s1.htrack s2.htrack)
    else .ok ⟨⟨true, s1.co, s1.htrack⟩, ⟨false, s2.co, s2.htrack⟩, false⟩
  else if missing s1 s2 = 1 then .ok ⟨⟨true, true, s2.htrack⟩, ⟨false, s2.co, s2.htrack⟩, s2.co⟩
  else if missing s1 s2 = 2 then .ok ⟨⟨false, true, s1.htrack⟩, ⟨true, s1.co, s1.htrack⟩, s1.co⟩
  else .error .posydon

/-! ### The lists of quantities -/

/-- Python's `p in s` for strings. -/
def isIn (p s : List Char) : Bool := s.tails.any (fun t => p.isPrefixOf t)

def Star.chars (s : Star) : List Char := s.name.toList

/-- flow_chart.py l.116-117. -/
def forHMS : List Star := starNormal.filter fun s => isIn (chars! "Core_H_burning") (Star.chars s)
/-- l.120-121. -/
def forPostMS : List Star := starNormal.filter fun s =>
  !isIn (chars! "Core_H_burning") (Star.chars s) && !isIn (chars! "stripped_He") (Star.chars s)
/-- l.124-126. -/
def forHestar0 : List Star := (starNormal.filter fun s => isIn (chars! "stripped_He") (Star.chars s)) ++ [.aCoreHe]
/-- l.127-128. -/
def forPostHeMS : List Star := starNormal.filter fun s =>
  !isIn (chars! "Core_He_burning") (Star.chars s) && isIn (chars! "stripped_He") (Star.chars s)
/-- l.129-130 (as a set; the order is not used). -/
def forHestar : List Star := removeAll forHestar0 forPostHeMS

/-- The eight lists of quantities to match. -/
inductive Lst | HMS | postMS | heStar | postHeMS | HMSalt | postMSalt | heStarAlt | postHeMSalt
  deriving DecidableEq, Repr

/-- Their default quantities and normalisations, l.345-401. -/
def defaults : Lst → List (String × ℚ)
  | .HMS => [("mass", 20), ("center_h1", 1), ("log_R", 2), ("he_core_mass", 10)]
  | .postMS => [("mass", 20), ("center_he4", 1), ("log_R", 2), ("he_core_mass", 10)]
  | .heStar => [("he_core_mass", 10), ("center_he4", 1), ("log_R", 2)]
  | .postHeMS => [("he_core_mass", 10), ("log_R", 2)]
  | .HMSalt => [("mass", 20), ("center_h1", 1), ("he_core_mass", 10)]
  | .postMSalt => [("mass", 20), ("center_h1", 1), ("he_core_mass", 10)]
  | .heStarAlt => [("he_core_mass", 10), ("center_he4", 1), ("log_R", 2)]
  | .postHeMSalt => [("he_core_mass", 10), ("log_R", 2)]

inductive MType | default | alt | evolvedAlt deriving DecidableEq, Repr

/-- A state of `l`. -/
def St.isOf (s : St) (l : List Star) : Bool := match s with | .st s => l.contains s | _ => false

/-- `get_match_attrs`, l.1155-1225: the list and the grid used; `none`: the attempt is skipped (l.1188-1195). -/
def attrs (t : MType) (s : St) (htrack : Bool) : Except Err (Option (Lst × Bool)) :=
  match t with
  | .default =>
    if s.isOf forHMS then .ok (some (.HMS, htrack))
    else if s.isOf forPostMS then .ok (some (.postMS, htrack))
    else if s.isOf forHestar then .ok (some (.heStar, htrack))
    else if s.isOf forPostHeMS then .ok (some (.postHeMS, htrack))
    else .error .value
  | .alt =>
    if s.isOf forHMS then .ok (some (.HMSalt, htrack))
    else if s.isOf forPostMS then .ok (some (.postMSalt, htrack))
    else if s.isOf forHestar then .ok (some (.heStarAlt, htrack))
    else if s.isOf forPostHeMS then .ok (some (.postHeMSalt, htrack))
    else .error .value
  | .evolvedAlt =>
    if s.isOf forHMS then .ok none
    else if s.isOf forHestar then .ok (some (.heStar, true))
    else if s.isOf forPostMS then .ok (some (.postMS, false))
    else if s.isOf forPostHeMS then .ok (some (.postHeMS, true))
    else .error .unbound

/-! ### Matching a binary -/

/-- What the matching reads from and writes to the binary. `grid`: lowest and highest mass of the H-rich (`true`) and the
helium-star (`false`) grid; `search k`: the search for a track of star `k` (`true`: star 1) on the grid its flag asks for:
`none` is `NaN`, otherwise `m0`, `t0` and the grid finally used. -/
structure Bin where
  s1 : St
  s2 : St
  m1 : ℚ
  m2 : ℚ
  event : Ev
  time : ℚ
  maxTime : ℚ
  old1 : Option (ℚ × ℚ)
  old2 : Option (ℚ × ℚ)
  grid : Bool → ℚ × ℚ
  search : Bool → Bool → Except Err (Option (ℚ × ℚ × Bool))

def Bin.st (b : Bin) (one : Bool) : St := if one then b.s1 else b.s2
def Bin.mass (b : Bin) (one : Bool) : ℚ := if one then b.m1 else b.m2
def Bin.old (b : Bin) (one : Bool) : Option (ℚ × ℚ) := if one then b.old1 else b.old2

/-- l.1501-1511: the initial mass and age to use, and the grid. -/
def guess (b : Bin) (r : Role) (copy : Option (ℚ × ℚ)) : Except Err (Option (ℚ × ℚ × Bool)) :=
  if r.co then .ok (copy.map fun c => (c.1, c.2, r.htrack))
  else if b.event = .ZAMS || b.event = .rZAMS then .ok (some (b.mass r.one, 0, r.htrack))
  else b.search r.one r.htrack

/-- `get_star_match_data`, l.1499-1629: `m0` and `t0` of the new interpolator, `none` if there is none. -/
def data (b : Bin) (r : Role) (copy : Option (ℚ × ℚ)) : Except Err (Option (ℚ × ℚ)) :=
  match guess b r copy with
  | .error e => .error e
  | .ok none => .ok none
  | .ok (some (m0, t0, h)) =>
    if (m0 < (b.grid h).1 && !r.co) || (m0 > (b.grid h).2 && !r.co) then .error .matching
    else if ¬ (b.maxTime > 0) then .error .assertion
    else .ok (some (m0, t0))

/-- The state after matching. `sec`, `pri`: the tuples of the interpolators; `hit k`: star `k` was matched to a track
(`matched_s1`, `matched_s2`); `rows`: rows appended to the history. -/
structure Out where
  roles : Roles
  sec : Option (ℚ × ℚ)
  pri : Option (ℚ × ℚ)
  hit1 : Bool
  hit2 : Bool
  event : Ev
  rows : Nat
  deriving DecidableEq

/-- l.1930-1944: the secondary's interpolator and the variables `m0`, `t0` (`none` if not assigned). -/
def secondary (b : Bin) (r : Roles) (want : Bool) : Except Err (Option (ℚ × ℚ) × Option (Option (ℚ × ℚ))) :=
  if want then
    match data b r.secondary (if r.secondary.co then some (b.mass r.secondary.one, b.time) else none) with
    | .error e => .error e
    | .ok d => .ok (d, some d)
  else .ok (b.old r.secondary.one, none)

/-- l.1957-1976: the primary's interpolator. -/
def primary (b : Bin) (r : Roles) (want : Bool) (prev : Option (Option (ℚ × ℚ))) : Except Err (Option (ℚ × ℚ)) :=
  if want then
    if r.primary.co || missing b.s1 b.s2 = 1 || missing b.s1 b.s2 = 2 then
      match prev with
      | none => .error .unbound
      | some c => data b r.primary c
    else if !r.primary.co && missing b.s1 b.s2 = 0 then data b r.primary none
    else .error .value
  else .ok (b.old r.primary.one)

/-- l.2011-2021. -/
def matchEvent (hit1 hit2 : Bool) (e : Ev) : Ev :=
  if hit1 && hit2 then .Match12 else if hit1 then .Match1 else if hit2 then .Match2 else e

/-- `do_matching`, l.1906-2026; the second component of an error tells whether the binary was marked as failed. -/
def run (b : Bin) (wantSec wantPri record : Bool) : Except (Err × Bool) Out :=
  match roles b.s1 b.s2 with
  | .error e => .error (e, false)
  | .ok r => match secondary b r wantSec with
    | .error e => .error (e, e = .matching)
    | .ok (s, prev) => match primary b r wantPri prev with
      | .error e => .error (e, e = .matching)
      | .ok p =>
        if (s = none && wantSec) || (p = none && wantPri) then .error (.matching, true)
        else
          let hitS := wantSec && !r.secondary.co
          let hitP := wantPri && (!r.primary.co && missing b.s1 b.s2 = 0)
          let hit1 := (hitS && r.secondary.one) || (hitP && r.primary.one)
          let hit2 := (hitS && !r.secondary.one) || (hitP && !r.primary.one)
          .ok ⟨r, s, p, hit1, hit2, if record then matchEvent hit1 hit2 b.event else b.event, if record then 1 else 0⟩

/-- `adjust_secondary_radius`, step_CEE.py l.1456-1462, once the companion's radius is to be corrected: the outcome of the
matching.  `donorOne`: star 1 is the donor. -/
def ceMatch (b : Bin) (record : Bool) : Except (Err × Bool) Out := run b true false record

/-- The star matched there. -/
def Out.star (o : Out) : Bool := o.roles.secondary.one

/-! ### Specification -/

/-- The kind of star a state describes. -/
inductive Kind | mainSequence | postMS | heStar | postHe | compact | nothing deriving DecidableEq, Repr

/-- The kind by the words of flow_chart.py l.114-124: main sequence while hydrogen burns in the core, helium star when
stripped of or covered by helium and burning helium, evolved helium star afterwards. -/
def kind : Star → Kind
  | .WD | .NS | .BH => .compact
  | .massless => .nothing
  | .hCoreH | .aCoreH => .mainSequence
  | .sCoreHe | .aCoreHe => .heStar
  | .sCoreHeDep | .sCoreCDep | .sNon => .postHe
  | _ => .postMS

/-- A star with hydrogen left in its envelope. -/
def hydrogen (s : Star) : Bool := match s with
  | .hCoreH | .hCoreHe | .hShellH | .hCoreHeDep | .hShellHe | .hCoreC | .hCoreCDep | .hNon | .aCoreH | .aShellH | .aNon => true
  | _ => false

def compact (s : Star) : Bool := s = .WD || s = .NS || s = .BH

theorem St.co_eq (s : Star) : (St.st s).co = compact s := by cases s <;> decide
theorem St.htrack_eq (s : Star) : (St.st s).htrack = hydrogen s := by cases s <;> decide
theorem St.valid_eq (s : Star) : (St.st s).valid = true := by cases s <;> decide

end Verif.Match
