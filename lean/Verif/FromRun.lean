import Verif.Chars
import Verif.Frame
import Verif.MesaStop
import Mathlib.Logic.Function.Basic
/-!
Model of `BinaryStar.from_run`, `/repo/posydon/binary_evol/binarystar.py` l.981-1093, and `SingleStar.from_run`,
`/repo/posydon/binary_evol/singlestar.py` l.598-646, with the tables of column names (binarystar.py l.55-84, singlestar.py l.114-120),
the reading of histories in `check_state_of_star` (`/repo/posydon/utils/common_functions.py` l.1072-1096) and in
`get_binary_state_and_event_and_mt_case` (l.1180-1193).

Simplifications: a table of a run is its list of column names and its rows; final and initial values are association lists; the
attributes and the histories of an object are two maps from names (an attribute called `…_history` in the final values is kept with the
attributes). The classification of the values read (`infer_star_state`, and the rest of
`get_binary_state_and_event_and_mt_case`) and the objects made by the constructors without arguments are parameters.
-/
namespace Verif.FromRun
open Verif.Frame (Name isIn binaryProps starProps)
open Verif.MesaStop (mapE)

inductive Err
  | value | assertion | index | attribute
  deriving DecidableEq

inductive V
  | none
  | nan
  | num (q : ℚ)
  | txt (t : Name)
  | profile (p : ℕ)
  deriving DecidableEq

/-- A star or a binary. -/
structure Obj where
  attr : Name → Option V
  hist : Name → Option (List V)

/-- `setattr(o, a, v)` and `setattr(o, a + "_history", l)` -/
def Obj.put (o : Obj) (a : Name) (v : V) (l : List V) : Obj :=
  ⟨Function.update o.attr a (some v), Function.update o.hist a (some l)⟩

/-- `setattr(o, a, v)` -/
def Obj.setAttr (o : Obj) (a : Name) (v : V) : Obj := ⟨Function.update o.attr a (some v), o.hist⟩

/-- A table of a run: a structured array. -/
structure Tab where
  names : List Name
  rows : List (Name → V)

/-- `list(table[c])` -/
def Tab.col (t : Tab) (c : Name) : List V := t.rows.map fun r => r c

abbrev Vals := List (Name × V)

/-- `values[c]` of one row of a structured array; a missing field is a `ValueError`. -/
def look (l : Vals) (c : Name) : Except Err V :=
  match l.find? (fun p => p.1 = c) with
  | some p => .ok p.2
  | Option.none => .error .value

/-- `BINARY_ATTRIBUTES_FROM_HISTORY.get(attr, attr)`, binarystar.py l.75-84. -/
def binarySrc (a : Name) : Option Name :=
  if a = (chars! "state") then Option.none
  else if a = (chars! "event") then Option.none
  else if a = (chars! "time") then some (chars! "age")
  else if a = (chars! "separation") then some (chars! "binary_separation")
  else if a = (chars! "orbital_period") then some (chars! "period_days")
  else if a = (chars! "eccentricity") then Option.none
  else if a = (chars! "V_sys") then Option.none
  else if a = (chars! "mass_transfer_case") then Option.none
  else if a = (chars! "nearest_neighbour_distance") then Option.none
  else some a

/-- `STAR_ATTRIBUTES_FROM_STAR_HISTORY.get(attr, attr)`, binarystar.py l.63-72. -/
def starSrc (a : Name) : Option Name :=
  if a = (chars! "state") then Option.none
  else if a = (chars! "metallicity") then Option.none
  else if a = (chars! "mass") then Option.none
  else if a = (chars! "lg_mdot") then Option.none
  else if a = (chars! "lg_system_mdot") then Option.none
  else if a = (chars! "lg_wind_mdot") then Option.none
  else if a = (chars! "spin") then some (chars! "spin_parameter")
  else if a = (chars! "profile") then Option.none
  else some a

/-- `STAR_ATTRIBUTES_FROM_STAR_HISTORY_SINGLE.get(attr, attr)`, singlestar.py l.114-120. -/
def singleSrc (a : Name) : Option Name :=
  if a = (chars! "state") then Option.none
  else if a = (chars! "metallicity") then Option.none
  else if a = (chars! "mass") then some (chars! "star_mass")
  else if a = (chars! "spin") then some (chars! "spin_parameter")
  else if a = (chars! "profile") then Option.none
  else some a

/-- `STAR_ATTRIBUTES_FROM_BINARY_HISTORY`, binarystar.py l.55-60. -/
def fromBinary : List (Name × Name × Name) := [
  ((chars! "mass"), (chars! "star_1_mass"), (chars! "star_2_mass")),
  ((chars! "lg_mdot"), (chars! "lg_mstar_dot_1"), (chars! "lg_mstar_dot_2")),
  ((chars! "lg_system_mdot"), (chars! "lg_system_mdot_1"), (chars! "lg_system_mdot_2")),
  ((chars! "lg_wind_mdot"), (chars! "lg_wind_mdot_1"), (chars! "lg_wind_mdot_2"))]

/-- The loop over properties, l.989-1002, 1012-1026 and singlestar.py l.609-623; `pre` is the prefix in the final values. -/
def loadAttrs (history : Bool) (n : ℕ) (t : Tab) (final : Vals) (pre : Name) (src : Name → Option Name) :
    List Name → Obj → Except Err Obj
  | [], o => .ok o
  | a :: as, o =>
    match src a with
    | some c =>
      if c ∈ t.names then
        match look final (pre ++ c) with
        | .error e => .error e
        | .ok v =>
          let col := if history then t.col c else [v]
          if n = col.length then loadAttrs history n t final pre src as (o.put a v col) else .error .assertion
      else loadAttrs history n t final pre src as (o.put a .none (List.replicate n .none))
    | Option.none => loadAttrs history n t final pre src as (o.put a .none (List.replicate n .none))

/-- l.1010: only with a table of the star. -/
def loadStar (history : Bool) (n : ℕ) (t : Option Tab) (final : Vals) (pre : Name) (o : Obj) : Except Err Obj :=
  match t with
  | Option.none => .ok o
  | some t => loadAttrs history n t final pre starSrc starProps o

/-- The loop over `STAR_ATTRIBUTES_FROM_BINARY_HISTORY`, l.1037-1046, with the column for the star chosen by `pick`. -/
def loadFour (history : Bool) (n : ℕ) (t : Tab) (final : Vals) (pick : Name × Name → Name) :
    List (Name × Name × Name) → Obj → Except Err Obj
  | [], o => .ok o
  | (a, cs) :: as, o =>
    match look final (pick cs) with
    | .error e => .error e
    | .ok v =>
      if history then
        if pick cs ∈ t.names then
          if n = (t.col (pick cs)).length then loadFour history n t final pick as (o.put a v (t.col (pick cs)))
          else .error .assertion
        else .error .value
      else if n = 1 then loadFour history n t final pick as (o.put a v [v]) else .error .assertion

/-- Binary and stars. -/
structure Sys where
  b : Obj
  s1 : Obj
  s2 : Obj

def depl : Name := (chars! "at_He_depletion")

/-- l.1050-1062 for one column of the final values. -/
def depleteOne (x : Sys) (p : Name × V) : Sys :=
  if isIn depl p.1 then
    if p.1.take 3 = (chars! "S1_") then { x with s1 := x.s1.setAttr (p.1.drop 3) p.2 }
    else if p.1.take 3 = (chars! "S2_") then { x with s2 := x.s2.setAttr (p.1.drop 3) p.2 }
    else { x with b := x.b.setAttr p.1 p.2 }
  else x

/-- `getattr(o, a + "_history")[i]` -/
def getAt (o : Obj) (a : Name) (i : ℕ) : Except Err V :=
  match o.hist a with
  | Option.none => .error .attribute
  | some l => match l[i]? with
    | some v => .ok v
    | Option.none => .error .index

/-- The quantities that decide the state of a star, common_functions.py l.1089-1096. -/
def stateCols : List Name := [(chars! "mass"), (chars! "surface_h1"), (chars! "center_h1"), (chars! "center_he4"), (chars! "center_c12"),
  (chars! "log_LH"), (chars! "log_LHe"), (chars! "log_Lnuc")]

/-- Classifications of the values read. -/
structure Cls where
  normal : List V → V
  compact : V → V
  orbit : List V → V × V × V

def wd : V := .txt (chars! "WD")

/-- `check_state_of_star(star, i, star_CO)`, common_functions.py l.1072-1106. -/
def checkState (k : Cls) (o : Obj) (co : Bool) (i : ℕ) : Except Err V :=
  if co then
    match getAt o (chars! "mass") i with
    | .error e => .error e
    | .ok m =>
      match o.hist (chars! "state"), o.attr (chars! "state") with
      | some l, some s =>
        match l.getLast? with
        | Option.none => .error .index
        | some z => if z = wd ∨ s = wd then .ok wd else .ok (k.compact m)
      | _, _ => .error .attribute
  else match mapE (fun a => getAt o a i) stateCols with
    | .error e => .error e
    | .ok vs => .ok (k.normal vs)

/-- The states of a star, l.1070-1076, singlestar.py l.638-640. -/
def setStates (k : Cls) (n : ℕ) (co : Bool) (o : Obj) : Except Err Obj :=
  match mapE (checkState k o co) (List.range n) with
  | .error e => .error e
  | .ok l => match l.getLast? with
    | Option.none => .error .index
    | some z => .ok (o.put (chars! "state") z l)

/-- The degeneracy of the centre, common_functions.py l.1186-1193. -/
def gammaAt (o : Obj) (i : ℕ) : Except Err V :=
  match getAt o (chars! "center_gamma") i with
  | .error .index => .ok .none
  | r => r

/-- `get_binary_state_and_event_and_mt_case(binary, i=i)`, common_functions.py l.1181-1193. -/
def orbitAt (k : Cls) (x : Sys) (i : ℕ) : Except Err (V × V × V) :=
  match mapE (fun a => getAt x.b a i)
      [(chars! "lg_mtransfer_rate"), (chars! "rl_relative_overflow_1"), (chars! "rl_relative_overflow_2")],
    getAt x.s1 (chars! "state") i, getAt x.s2 (chars! "state") i, gammaAt x.s1 i, gammaAt x.s2 i with
  | .ok l, .ok a, .ok b, .ok g, .ok h => .ok (k.orbit (l ++ [a, b, g, h]))
  | .error e, _, _, _, _ => .error e
  | _, .error e, _, _, _ => .error e
  | _, _, .error e, _, _ => .error e
  | _, _, _, .error e, _ => .error e
  | _, _, _, _, .error e => .error e

/-- l.1079-1087; the loop only changes state, event and case of the binary, which the function called does not read. -/
def setOrbit (k : Cls) (n : ℕ) (x : Sys) : Except Err Sys :=
  match mapE (orbitAt k x) (List.range n) with
  | .error e => .error e
  | .ok l =>
    let last (old : V) (f : V × V × V → V) : V := ((l.map f).getLast?).getD old
    let b := x.b
    let b := b.put (chars! "state") (last .none (·.1)) (l.map (·.1))
    let b := b.put (chars! "event") (last .none (·.2.1)) (l.map (·.2.1))
    let b := b.put (chars! "mass_transfer_case") (last .none (·.2.2)) (l.map (·.2.2))
    .ok { x with b := b }

structure Run where
  binary : Option Tab
  h1 : Option Tab
  h2 : Option Tab
  final : Vals
  initial : Vals
  profile1 : V
  profile2 : V

/-- l.1035-1036 -/
def setZ (n : ℕ) (z : V) (o : Obj) : Obj := o.put (chars! "metallicity") z (List.replicate n z)

/-- l.1065-1066 -/
def setEcc (n : ℕ) (x : Sys) : Sys :=
  { x with b := x.b.put (chars! "eccentricity") (.num 0) (List.replicate n (.num 0)) }

/-- l.1089-1091 -/
def setProfiles (profiles : Bool) (r : Run) (x : Sys) : Sys :=
  if profiles then ⟨x.b, x.s1.setAttr (chars! "profile") r.profile1, x.s2.setAttr (chars! "profile") r.profile2⟩ else x

/-- `n_history = len(binary.time_history)`, l.1069. -/
def nHist (x : Sys) : ℕ := ((x.b.hist (chars! "time")).getD []).length

/-- l.1065-1093 -/
def finish (k : Cls) (profiles : Bool) (r : Run) (n : ℕ) (x : Sys) : Except Err Sys :=
  let x := setEcc n x
  match setStates k (nHist x) r.h1.isNone x.s1 with
  | .error e => .error e
  | .ok s1 =>
    match setStates k (nHist x) r.h2.isNone x.s2 with
    | .error e => .error e
    | .ok s2 =>
      match setOrbit k (nHist x) ⟨x.b, s1, s2⟩ with
      | .error e => .error e
      | .ok y => .ok (setProfiles profiles r y)

/-- l.1029-1046 for one star. -/
def ofBinary (history : Bool) (n : ℕ) (t : Tab) (final : Vals) (z : V) (pick : Name × Name → Name) (o : Obj) : Except Err Obj :=
  loadFour history n t final pick fromBinary (setZ n z o)

/-- `BinaryStar.from_run`; the first argument is the binary made by `BinaryStar()`. The `except AttributeError` of l.1031 is not there:
a missing field raises another exception. -/
def fromRun (new : Sys) (k : Cls) (r : Run) (history profiles : Bool) : Except Err Sys :=
  match r.binary with
  | Option.none => .ok new
  | some t =>
    if history ∧ (chars! "age") ∉ t.names then .error .value
    else
      let n := if history then (t.col (chars! "age")).length else 1
      match loadAttrs history n t r.final [] binarySrc binaryProps new.b with
      | .error e => .error e
      | .ok b =>
        match loadStar history n r.h1 r.final (chars! "S1_") new.s1 with
        | .error e => .error e
        | .ok s1 =>
          match loadStar history n r.h2 r.final (chars! "S2_") new.s2 with
          | .error e => .error e
          | .ok s2 =>
            match look r.initial (chars! "Z") with
            | .error e => .error e
            | .ok z =>
              match ofBinary history n t r.final z Prod.fst s1 with
              | .error e => .error e
              | .ok s1 =>
                match ofBinary history n t r.final z Prod.snd s2 with
                | .error e => .error e
                | .ok s2 => finish k profiles r n (r.final.foldl depleteOne ⟨b, s1, s2⟩)

/-- singlestar.py l.631-636 for one column. -/
def depleteSingle (o : Obj) (p : Name × V) : Obj :=
  if isIn depl p.1 then
    if p.1.take 3 = (chars! "S1_") then o.setAttr (p.1.drop 3) p.2 else o
  else o

/-- singlestar.py l.642-644 -/
def singleProfile (profile : Bool) (n : ℕ) (p : V) (o : Obj) : Obj :=
  if profile then o.put (chars! "profile") p (List.replicate (n - 1) .none ++ [p]) else o

/-- `SingleStar.from_run`; the first argument is the star made by `SingleStar()`. -/
def fromRunSingle (new : Obj) (k : Cls) (r : Run) (history profile : Bool) : Except Err Obj :=
  match r.h1 with
  | Option.none => .ok new
  | some t =>
    if history ∧ (chars! "star_age") ∉ t.names then .error .value
    else
      let n := if history then (t.col (chars! "star_age")).length else 1
      match loadAttrs history n t r.final (chars! "S1_") singleSrc starProps new with
      | .error e => .error e
      | .ok o =>
        match look r.initial (chars! "Z") with
        | .error e => .error e
        | .ok z =>
          match setStates k n false (r.final.foldl depleteSingle (o.setAttr (chars! "metallicity") z)) with
          | .error e => .error e
          | .ok o => .ok (singleProfile profile n r.profile1 o)

/-! ### Specification -/

/-- Attribute and history. -/
def Holds (o : Obj) (a : Name) (v : V) (l : List V) : Prop := o.attr a = some v ∧ o.hist a = some l

/-- The property holds its own column of the table and its own final value, or nothing if there is no such column. -/
def Loaded (history : Bool) (n : ℕ) (t : Tab) (final : Vals) (pre : Name) (src : Name → Option Name) (o : Obj) (a : Name) : Prop :=
  (∃ c v, src a = some c ∧ c ∈ t.names ∧ look final (pre ++ c) = .ok v ∧ Holds o a v (if history then t.col c else [v])) ∨
  ((∀ c, src a = some c → c ∉ t.names) ∧ Holds o a .none (List.replicate n .none))

inductive Which | one | two deriving DecidableEq

def Which.pre : Which → Name
  | .one => (chars! "S1_")
  | .two => (chars! "S2_")

def Which.pick : Which → Name × Name → Name
  | .one => Prod.fst
  | .two => Prod.snd

def Which.track (r : Run) : Which → Option Tab
  | .one => r.h1
  | .two => r.h2

def Which.profile (r : Run) : Which → V
  | .one => r.profile1
  | .two => r.profile2

def Which.star (x : Sys) : Which → Obj
  | .one => x.s1
  | .two => x.s2

/-- Number of steps asked for. -/
def steps (history : Bool) (t : Tab) : ℕ := if history then t.rows.length else 1

/-! ### Lemmas -/

theorem put_same (o : Obj) (a : Name) (v : V) (l : List V) : Holds (o.put a v l) a v l := by
  simp [Holds, Obj.put]

theorem put_attr (o : Obj) (a b : Name) (v : V) (l : List V) (h : b ≠ a) : (o.put a v l).attr b = o.attr b := by
  simp [Obj.put, h]

theorem put_hist (o : Obj) (a b : Name) (v : V) (l : List V) (h : b ≠ a) : (o.put a v l).hist b = o.hist b := by
  simp [Obj.put, h]

theorem setAttr_hist (o : Obj) (a : Name) (v : V) : (o.setAttr a v).hist = o.hist := rfl

theorem setAttr_attr (o : Obj) (a b : Name) (v : V) (h : b ≠ a) : (o.setAttr a v).attr b = o.attr b := by
  simp [Obj.setAttr, h]

theorem setAttr_same (o : Obj) (a : Name) (v : V) : (o.setAttr a v).attr a = some v := by simp [Obj.setAttr]

theorem Holds.keep {o o' : Obj} {a : Name} {v : V} {l : List V} (h : Holds o a v l) (h1 : o'.attr a = o.attr a)
    (h2 : o'.hist a = o.hist a) : Holds o' a v l := ⟨h1.trans h.1, h2.trans h.2⟩

theorem Loaded.keep {history : Bool} {n : ℕ} {t : Tab} {final : Vals} {pre : Name} {src : Name → Option Name} {o o' : Obj} {a : Name}
    (h : Loaded history n t final pre src o a) (h1 : o'.attr a = o.attr a) (h2 : o'.hist a = o.hist a) :
    Loaded history n t final pre src o' a := by
  rcases h with ⟨c, v, hc, hm, hv, hh⟩ | ⟨hc, hh⟩
  · exact .inl ⟨c, v, hc, hm, hv, hh.keep h1 h2⟩
  · exact .inr ⟨hc, hh.keep h1 h2⟩

theorem loadAttrs_spec (history : Bool) (n : ℕ) (t : Tab) (final : Vals) (pre : Name) (src : Name → Option Name) (as : List Name) :
    ∀ (o o' : Obj), loadAttrs history n t final pre src as o = .ok o' →
      (∀ a ∈ as, Loaded history n t final pre src o' a ∧ ∃ l, o'.hist a = some l ∧ l.length = n) ∧
      (∀ a, a ∉ as → o'.attr a = o.attr a ∧ o'.hist a = o.hist a) := by
  induction as with
  | nil => intro o o' h; cases h; simp
  | cons a as ih =>
    intro o o' h
    have key : ∃ v l, loadAttrs history n t final pre src as (o.put a v l) = .ok o' ∧ l.length = n ∧
        Loaded history n t final pre src (o.put a v l) a := by
      rw [loadAttrs] at h
      cases hs : src a with
      | none =>
        rw [hs] at h
        exact ⟨_, _, h, by simp, .inr ⟨fun c hc => (by rw [hs] at hc; cases hc), put_same _ _ _ _⟩⟩
      | some c =>
        rw [hs] at h
        dsimp only at h
        by_cases hc : c ∈ t.names
        · rw [if_pos hc] at h
          cases hv : look final (pre ++ c) with
          | error e => rw [hv] at h; cases h
          | ok v =>
            rw [hv] at h
            dsimp only at h
            by_cases hl : n = (if history = true then t.col c else [v]).length
            · rw [if_pos hl] at h
              exact ⟨_, _, h, hl.symm, .inl ⟨c, v, hs, hc, hv, put_same _ _ _ _⟩⟩
            · rw [if_neg hl] at h; cases h
        · rw [if_neg hc] at h
          exact ⟨_, _, h, by simp, .inr ⟨fun d hd => (by rw [hs] at hd; cases hd; exact hc), put_same _ _ _ _⟩⟩
    obtain ⟨v, l, hk, hl, hL⟩ := key
    obtain ⟨h1, h2⟩ := ih _ _ hk
    refine ⟨fun b hb => ?_, fun b hb => ?_⟩
    · by_cases hbs : b ∈ as
      · exact h1 b hbs
      · obtain ⟨e1, e2⟩ := h2 b hbs
        have : b = a := by simpa [hbs] using hb
        subst this
        exact ⟨hL.keep e1 e2, l, e2.trans (put_same _ _ _ _).2, hl⟩
    · have hne : b ≠ a := fun e => hb (by simp [e])
      obtain ⟨e1, e2⟩ := h2 b (fun hb' => hb (by simp [hb']))
      exact ⟨e1.trans (put_attr _ _ _ _ _ hne), e2.trans (put_hist _ _ _ _ _ hne)⟩

theorem loadAttrs_total (history : Bool) (n : ℕ) (t : Tab) (final : Vals) (pre : Name) (src : Name → Option Name)
    (hn : n = steps history t) (as : List Name)
    (hv : ∀ a ∈ as, ∀ c, src a = some c → c ∈ t.names → ∃ v, look final (pre ++ c) = .ok v) :
    ∀ o, ∃ o', loadAttrs history n t final pre src as o = .ok o' := by
  induction as with
  | nil => intro o; exact ⟨o, rfl⟩
  | cons a as ih =>
    intro o
    have ih' := ih fun b hb => hv b (by simp [hb])
    rw [loadAttrs]
    cases hs : src a with
    | none => exact ih' _
    | some c =>
      dsimp only
      by_cases hc : c ∈ t.names
      · rw [if_pos hc]
        obtain ⟨v, hv⟩ := hv a (by simp) c hs hc
        rw [hv]
        dsimp only
        have hl : n = (if history = true then t.col c else [v]).length := by
          rw [hn]; unfold steps Tab.col; cases history <;> simp
        rw [if_pos hl]
        exact ih' _
      · rw [if_neg hc]; exact ih' _

theorem loadFour_spec (history : Bool) (n : ℕ) (t : Tab) (final : Vals) (pick : Name × Name → Name) (as : List (Name × Name × Name)) :
    (as.map Prod.fst).Nodup → ∀ (o o' : Obj), loadFour history n t final pick as o = .ok o' →
      (∀ p ∈ as, ∃ v l, look final (pick p.2) = .ok v ∧ (history = true → pick p.2 ∈ t.names) ∧
        l = (if history then t.col (pick p.2) else [v]) ∧ l.length = n ∧ Holds o' p.1 v l) ∧
      (∀ a, a ∉ as.map Prod.fst → o'.attr a = o.attr a ∧ o'.hist a = o.hist a) := by
  induction as with
  | nil => intro _ o o' h; cases h; simp
  | cons q as ih =>
    obtain ⟨a, cs⟩ := q
    intro hnd o o' h
    rw [List.map_cons, List.nodup_cons] at hnd
    have key : ∃ v l, look final (pick cs) = .ok v ∧ (history = true → pick cs ∈ t.names) ∧
        l = (if history then t.col (pick cs) else [v]) ∧ l.length = n ∧
        loadFour history n t final pick as (o.put a v l) = .ok o' := by
      rw [loadFour] at h
      cases hv : look final (pick cs) with
      | error e => rw [hv] at h; cases h
      | ok v =>
        rw [hv] at h
        dsimp only at h
        cases history with
        | true =>
          rw [if_pos rfl] at h
          by_cases hc : pick cs ∈ t.names
          · rw [if_pos hc] at h
            by_cases hl : n = (t.col (pick cs)).length
            · rw [if_pos hl] at h; exact ⟨v, _, rfl, fun _ => hc, rfl, hl.symm, h⟩
            · rw [if_neg hl] at h; cases h
          · rw [if_neg hc] at h; cases h
        | false =>
          rw [if_neg (by simp)] at h
          by_cases hl : n = 1
          · rw [if_pos hl] at h; exact ⟨v, [v], rfl, fun e => (nomatch e), rfl, hl.symm, h⟩
          · rw [if_neg hl] at h; cases h
    obtain ⟨v, l, hv, hc, hl, hn, hk⟩ := key
    obtain ⟨h1, h2⟩ := ih hnd.2 _ _ hk
    refine ⟨fun p hp => ?_, fun b hb => ?_⟩
    · rcases List.mem_cons.1 hp with rfl | hp
      · obtain ⟨e1, e2⟩ := h2 a hnd.1
        exact ⟨v, l, hv, hc, hl, hn, (put_same _ _ _ _).keep e1 e2⟩
      · exact h1 p hp
    · rw [List.map_cons, List.mem_cons, not_or] at hb
      obtain ⟨e1, e2⟩ := h2 b hb.2
      exact ⟨e1.trans (put_attr _ _ _ _ _ hb.1), e2.trans (put_hist _ _ _ _ _ hb.1)⟩

theorem loadFour_total (history : Bool) (n : ℕ) (t : Tab) (final : Vals) (pick : Name × Name → Name)
    (hn : n = steps history t) (as : List (Name × Name × Name))
    (hv : ∀ p ∈ as, (∃ v, look final (pick p.2) = .ok v) ∧ (history = true → pick p.2 ∈ t.names)) :
    ∀ o, ∃ o', loadFour history n t final pick as o = .ok o' := by
  induction as with
  | nil => intro o; exact ⟨o, rfl⟩
  | cons q as ih =>
    obtain ⟨a, cs⟩ := q
    intro o
    have ih' := ih fun b hb => hv b (by simp [hb])
    obtain ⟨⟨v, hv⟩, hc⟩ := hv (a, cs) (by simp)
    dsimp only at hv hc
    rw [loadFour, hv]
    dsimp only
    cases history with
    | true =>
      rw [if_pos rfl, if_pos (hc rfl), if_pos (by rw [hn]; simp [steps, Tab.col])]
      exact ih' _
    | false =>
      rw [if_neg (by simp), if_pos (by rw [hn]; simp [steps])]
      exact ih' _

/-- The He-depletion values that go to one star. -/
def depleteStar (pre : Name) (o : Obj) (p : Name × V) : Obj :=
  if isIn depl p.1 then (if p.1.take 3 = pre then o.setAttr (p.1.drop 3) p.2 else o) else o

/-- Those that go to the binary. -/
def depleteBin (o : Obj) (p : Name × V) : Obj :=
  if isIn depl p.1 then
    (if p.1.take 3 = (chars! "S1_") ∨ p.1.take 3 = (chars! "S2_") then o else o.setAttr p.1 p.2)
  else o

theorem depleteOne_eq (x : Sys) (p : Name × V) :
    depleteOne x p = ⟨depleteBin x.b p, depleteStar (chars! "S1_") x.s1 p, depleteStar (chars! "S2_") x.s2 p⟩ := by
  unfold depleteOne depleteBin depleteStar
  by_cases h : isIn depl p.1 = true
  · by_cases h1 : p.1.take 3 = (chars! "S1_")
    · have h2 : ¬ p.1.take 3 = (chars! "S2_") := by rw [h1]; decide
      rw [if_pos h, if_pos h1, if_pos h, if_pos (Or.inl h1), if_pos h, if_pos h1, if_pos h, if_neg h2]
    · by_cases h2 : p.1.take 3 = (chars! "S2_")
      · rw [if_pos h, if_neg h1, if_pos h2, if_pos h, if_pos (Or.inr h2), if_pos h, if_neg h1, if_pos h, if_pos h2]
      · rw [if_pos h, if_neg h1, if_neg h2, if_pos h, if_neg (by tauto), if_pos h, if_neg h1, if_pos h, if_neg h2]
  · rw [if_neg h, if_neg h, if_neg h, if_neg h]

theorem foldl_deplete (l : Vals) : ∀ x : Sys, l.foldl depleteOne x =
    ⟨l.foldl depleteBin x.b, l.foldl (depleteStar (chars! "S1_")) x.s1, l.foldl (depleteStar (chars! "S2_")) x.s2⟩ := by
  induction l with
  | nil => intro x; rfl
  | cons p l ih => intro x; rw [List.foldl_cons, ih, depleteOne_eq]; rfl

theorem depleteStar_hist (pre : Name) (l : Vals) : ∀ o : Obj, (l.foldl (depleteStar pre) o).hist = o.hist := by
  induction l with
  | nil => intro o; rfl
  | cons p l ih =>
    intro o
    rw [List.foldl_cons, ih]
    unfold depleteStar
    split_ifs <;> rfl

theorem depleteBin_hist (l : Vals) : ∀ o : Obj, (l.foldl depleteBin o).hist = o.hist := by
  induction l with
  | nil => intro o; rfl
  | cons p l ih =>
    intro o
    rw [List.foldl_cons, ih]
    unfold depleteBin
    split_ifs <;> rfl

theorem isIn_drop (s a : Name) (hs : s.take 3 = (chars! "S1_") ∨ s.take 3 = (chars! "S2_")) (h : isIn depl s = true)
    (ha : isIn depl a = false) : a ≠ s.drop 3 := by
  intro e
  match s, hs, h with
  | [], hs, h => exact absurd h (by decide)
  | [_], hs, h => rcases hs with hs | hs <;> cases hs
  | [_, _], hs, h => rcases hs with hs | hs <;> cases hs
  | x :: y :: z :: s, hs, h =>
    have e : a = s := e
    subst e
    have : isIn depl (x :: y :: z :: a) = isIn depl a := by
      rcases hs with hs | hs
      · have : x = 'S' ∧ y = '1' ∧ z = '_' := by simpa using hs
        obtain ⟨rfl, rfl, rfl⟩ := this
        rfl
      · have : x = 'S' ∧ y = '2' ∧ z = '_' := by simpa using hs
        obtain ⟨rfl, rfl, rfl⟩ := this
        rfl
    rw [this, ha] at h
    cases h

theorem depleteStar_attr (w : Which) (l : Vals) (a : Name) (ha : isIn depl a = false) :
    ∀ o : Obj, (l.foldl (depleteStar w.pre) o).attr a = o.attr a := by
  induction l with
  | nil => intro o; rfl
  | cons p l ih =>
    intro o
    rw [List.foldl_cons, ih]
    unfold depleteStar
    by_cases h : isIn depl p.1 = true
    · rw [if_pos h]
      by_cases h1 : p.1.take 3 = w.pre
      · rw [if_pos h1]
        exact setAttr_attr _ _ _ _ (isIn_drop _ _ (by cases w <;> [left; right] <;> exact h1) h ha)
      · rw [if_neg h1]
    · rw [if_neg h]

theorem depleteBin_attr (l : Vals) (a : Name) (ha : isIn depl a = false) :
    ∀ o : Obj, (l.foldl depleteBin o).attr a = o.attr a := by
  induction l with
  | nil => intro o; rfl
  | cons p l ih =>
    intro o
    rw [List.foldl_cons, ih]
    unfold depleteBin
    by_cases h : isIn depl p.1 = true
    · rw [if_pos h]
      have hne : a ≠ p.1 := fun e => by rw [e, h] at ha; cases ha
      split_ifs
      · rfl
      · exact setAttr_attr _ _ _ _ hne
    · rw [if_neg h]

/-- With distinct names, each He-depletion value arrives. -/
theorem depleteStar_get (pre : Name) (hp : pre.length = 3) (a : Name) (v : V) (hd : isIn depl (pre ++ a) = true) (l : Vals) :
    (l.map Prod.fst).Nodup → (pre ++ a, v) ∈ l → ∀ o : Obj, (l.foldl (depleteStar pre) o).attr a = some v := by
  have keep : ∀ l : Vals, pre ++ a ∉ l.map Prod.fst → ∀ o : Obj, (l.foldl (depleteStar pre) o).attr a = o.attr a := by
    intro l
    induction l with
    | nil => intro _ o; rfl
    | cons p l ih =>
      intro hn o
      rw [List.map_cons, List.mem_cons, not_or] at hn
      rw [List.foldl_cons, ih hn.2]
      unfold depleteStar
      by_cases h : isIn depl p.1 = true
      · rw [if_pos h]
        by_cases h1 : p.1.take 3 = pre
        · rw [if_pos h1]
          refine setAttr_attr _ _ _ _ fun e => hn.1 ?_
          rw [e, ← h1, List.take_append_drop]
        · rw [if_neg h1]
      · rw [if_neg h]
  induction l with
  | nil => intro _ h; cases h
  | cons p l ih =>
    intro hnd hm o
    rw [List.map_cons, List.nodup_cons] at hnd
    rw [List.foldl_cons]
    rcases List.mem_cons.1 hm with rfl | hm
    · rw [keep l hnd.1]
      unfold depleteStar
      rw [if_pos hd, if_pos (by simp [← hp]), ← hp, List.drop_left]
      exact setAttr_same _ _ _
    · exact ih hnd.2 hm _

theorem mapE_inv {A B E : Type} (f : A → Except E B) (l : List A) : ∀ m, mapE f l = .ok m →
    m.length = l.length ∧ ∀ (i : ℕ) (a : A), l[i]? = some a → ∃ b, f a = .ok b ∧ m[i]? = some b := by
  induction l with
  | nil => intro m h; cases h; simp
  | cons a l ih =>
    intro m h
    rw [mapE] at h
    cases hf : f a with
    | error e => rw [hf] at h; cases h
    | ok b =>
      rw [hf] at h
      cases hm : mapE f l with
      | error e => rw [hm] at h; cases h
      | ok m' =>
        rw [hm] at h
        cases h
        obtain ⟨h1, h2⟩ := ih m' hm
        refine ⟨by simp [h1], fun i x hx => ?_⟩
        cases i with
        | zero => simp at hx; subst hx; exact ⟨b, hf, by simp⟩
        | succ i => obtain ⟨c, hc, hc'⟩ := h2 i x (by simpa using hx); exact ⟨c, hc, by simpa using hc'⟩

theorem mapE_congr {A B E : Type} (f g : A → Except E B) (l : List A) (h : ∀ a ∈ l, f a = g a) : mapE f l = mapE g l := by
  induction l with
  | nil => rfl
  | cons a l ih => rw [mapE, mapE, h a (by simp), ih fun b hb => h b (by simp [hb])]

theorem getAt_congr (o o' : Obj) (a : Name) (i : ℕ) (h : o'.hist a = o.hist a) : getAt o' a i = getAt o a i := by
  unfold getAt; rw [h]

/-! ### The steps of a successful call -/

/-- What happens to one star. -/
structure Path (k : Cls) (r : Run) (t : Tab) (history profiles : Bool) (w : Which) (new o : Obj) : Prop where
  ex : ∃ s z s' l e,
    loadStar history (steps history t) (w.track r) r.final w.pre new = .ok s ∧
    look r.initial (chars! "Z") = .ok z ∧
    ofBinary history (steps history t) t r.final z w.pick s = .ok s' ∧
    mapE (checkState k (r.final.foldl (depleteStar w.pre) s') (w.track r).isNone) (List.range (steps history t)) = .ok l ∧
    l.getLast? = some e ∧
    o = (let q := (r.final.foldl (depleteStar w.pre) s').put (chars! "state") e l
         if profiles then q.setAttr (chars! "profile") (w.profile r) else q)

theorem setStates_ok (k : Cls) (n : ℕ) (co : Bool) (o o' : Obj) (h : setStates k n co o = .ok o') :
    ∃ l e, mapE (checkState k o co) (List.range n) = .ok l ∧ l.getLast? = some e ∧ o' = o.put (chars! "state") e l := by
  unfold setStates at h
  cases hm : mapE (checkState k o co) (List.range n) with
  | error e => rw [hm] at h; cases h
  | ok l =>
    rw [hm] at h
    dsimp only at h
    cases hl : l.getLast? with
    | none => rw [hl] at h; cases h
    | some e => rw [hl] at h; cases h; exact ⟨l, e, rfl, hl, rfl⟩

theorem setOrbit_ok (k : Cls) (n : ℕ) (x y : Sys) (h : setOrbit k n x = .ok y) :
    ∃ l, mapE (orbitAt k x) (List.range n) = .ok l ∧ y.s1 = x.s1 ∧ y.s2 = x.s2 ∧
      y.b = (((x.b.put (chars! "state") (((l.map (·.1)).getLast?).getD .none) (l.map (·.1))).put (chars! "event")
        (((l.map (·.2.1)).getLast?).getD .none) (l.map (·.2.1))).put (chars! "mass_transfer_case")
        (((l.map (·.2.2)).getLast?).getD .none) (l.map (·.2.2))) := by
  unfold setOrbit at h
  cases hm : mapE (orbitAt k x) (List.range n) with
  | error e => rw [hm] at h; cases h
  | ok l => rw [hm] at h; cases h; exact ⟨l, rfl, rfl, rfl, rfl⟩

/-- Everything that happens in a successful call. -/
theorem fromRun_ok (new : Sys) (k : Cls) (r : Run) (history profiles : Bool) (t : Tab) (x : Sys) (ht : r.binary = some t)
    (h : fromRun new k r history profiles = .ok x) :
    (∀ w : Which, Path k r t history profiles w (w.star new) (w.star x)) ∧
    ∃ b l, loadAttrs history (steps history t) t r.final [] binarySrc binaryProps new.b = .ok b ∧
      mapE (orbitAt k ⟨(r.final.foldl depleteBin b).put (chars! "eccentricity") (.num 0) (List.replicate (steps history t) (.num 0)),
        x.s1, x.s2⟩) (List.range (steps history t)) = .ok l ∧
      x.b = (((((r.final.foldl depleteBin b).put (chars! "eccentricity") (.num 0) (List.replicate (steps history t) (.num 0))).put
        (chars! "state") (((l.map (·.1)).getLast?).getD .none) (l.map (·.1))).put (chars! "event")
        (((l.map (·.2.1)).getLast?).getD .none) (l.map (·.2.1))).put (chars! "mass_transfer_case")
        (((l.map (·.2.2)).getLast?).getD .none) (l.map (·.2.2))) := by
  unfold fromRun at h
  rw [ht] at h
  dsimp only at h
  by_cases hage : history = true ∧ (chars! "age") ∉ t.names
  · rw [if_pos hage] at h; cases h
  rw [if_neg hage] at h
  have hn : (if history = true then (t.col (chars! "age")).length else 1) = steps history t := by
    simp [steps, Tab.col]
  rw [hn] at h
  cases hb : loadAttrs history (steps history t) t r.final [] binarySrc binaryProps new.b with
  | error e => rw [hb] at h; cases h
  | ok b =>
  rw [hb] at h; dsimp only at h
  cases h1 : loadStar history (steps history t) r.h1 r.final (chars! "S1_") new.s1 with
  | error e => rw [h1] at h; cases h
  | ok s1 =>
  rw [h1] at h; dsimp only at h
  cases h2 : loadStar history (steps history t) r.h2 r.final (chars! "S2_") new.s2 with
  | error e => rw [h2] at h; cases h
  | ok s2 =>
  rw [h2] at h; dsimp only at h
  cases hz : look r.initial (chars! "Z") with
  | error e => rw [hz] at h; cases h
  | ok z =>
  rw [hz] at h; dsimp only at h
  cases h3 : ofBinary history (steps history t) t r.final z Prod.fst s1 with
  | error e => rw [h3] at h; cases h
  | ok s1' =>
  rw [h3] at h; dsimp only at h
  cases h4 : ofBinary history (steps history t) t r.final z Prod.snd s2 with
  | error e => rw [h4] at h; cases h
  | ok s2' =>
  rw [h4] at h; dsimp only at h
  rw [foldl_deplete] at h
  unfold finish at h
  dsimp only at h
  have hN : nHist (setEcc (steps history t) ⟨r.final.foldl depleteBin b, r.final.foldl (depleteStar (chars! "S1_")) s1',
      r.final.foldl (depleteStar (chars! "S2_")) s2'⟩) = steps history t := by
    unfold nHist setEcc
    dsimp only
    rw [put_hist _ _ _ _ _ (by decide), depleteBin_hist]
    obtain ⟨l, hl, hl'⟩ := ((loadAttrs_spec _ _ _ _ _ _ _ _ _ hb).1 (chars! "time") (by decide)).2
    rw [hl]; exact hl'
  rw [hN] at h
  cases h5 : setStates k (steps history t) r.h1.isNone (setEcc (steps history t) ⟨r.final.foldl depleteBin b,
      r.final.foldl (depleteStar (chars! "S1_")) s1', r.final.foldl (depleteStar (chars! "S2_")) s2'⟩).s1 with
  | error e => rw [h5] at h; cases h
  | ok u1 =>
  rw [h5] at h; dsimp only at h
  cases h6 : setStates k (steps history t) r.h2.isNone (setEcc (steps history t) ⟨r.final.foldl depleteBin b,
      r.final.foldl (depleteStar (chars! "S1_")) s1', r.final.foldl (depleteStar (chars! "S2_")) s2'⟩).s2 with
  | error e => rw [h6] at h; cases h
  | ok u2 =>
  rw [h6] at h; dsimp only at h
  cases h7 : setOrbit k (steps history t) ⟨(setEcc (steps history t) ⟨r.final.foldl depleteBin b,
      r.final.foldl (depleteStar (chars! "S1_")) s1', r.final.foldl (depleteStar (chars! "S2_")) s2'⟩).b, u1, u2⟩ with
  | error e => rw [h7] at h; cases h
  | ok y =>
  rw [h7] at h
  cases h
  obtain ⟨l1, e1, q1, q2, q3⟩ := setStates_ok _ _ _ _ _ h5
  obtain ⟨l2, e2, p1, p2, p3⟩ := setStates_ok _ _ _ _ _ h6
  obtain ⟨l, o1, o2, o3, o4⟩ := setOrbit_ok _ _ _ _ h7
  have hx1 : (setProfiles profiles r y).s1 = if profiles = true then u1.setAttr (chars! "profile") r.profile1 else u1 := by
    unfold setProfiles; cases profiles <;> simp [o2]
  have hx2 : (setProfiles profiles r y).s2 = if profiles = true then u2.setAttr (chars! "profile") r.profile2 else u2 := by
    unfold setProfiles; cases profiles <;> simp [o3]
  have hxb : (setProfiles profiles r y).b = y.b := by unfold setProfiles; cases profiles <;> rfl
  refine ⟨fun w => ?_, b, l, rfl, ?_, hxb.trans o4⟩
  · cases w with
    | one => exact ⟨s1, z, s1', l1, e1, h1, hz, h3, q1, q2, hx1.trans (by rw [q3]; rfl)⟩
    | two => exact ⟨s2, z, s2', l2, e2, h2, hz, h4, p1, p2, hx2.trans (by rw [p3]; rfl)⟩
  · rw [← o1]
    refine mapE_congr _ _ _ fun i _ => ?_
    have a1 : (setProfiles profiles r y).s1.hist = u1.hist := by rw [hx1]; cases profiles <;> rfl
    have a2 : (setProfiles profiles r y).s2.hist = u2.hist := by rw [hx2]; cases profiles <;> rfl
    unfold orbitAt gammaAt
    simp only [getAt_congr u1 (setProfiles profiles r y).s1 _ i (congrFun a1 _),
      getAt_congr u2 (setProfiles profiles r y).s2 _ i (congrFun a2 _)]
    rfl

end Verif.FromRun
