import Verif.Chars
import Verif.StarState
import Mathlib.Data.List.Chain
/-!
Model of the mass-transfer bookkeeping in `/repo/posydon/utils/common_functions.py` (constants l.60-90,
`get_binary_state_and_event_and_mt_case` l.1130-1261, `infer_mass_transfer_case` l.1533-1587,
`cumulative_mass_transfer_*` l.1590-1749) and `/repo/posydon/grids/termination_flags.py`
(`get_mass_transfer_flag` l.102-194).

Simplifications: floats are rationals, NaN is `none` inside `Num`, Python `None` is an outer `none`; strings built by
the program are lists of characters; warnings are dropped.
-/
namespace Verif.MTCase
open Verif.Py Verif.StarState

/-- A float: `none` is NaN. -/
abbrev Num := Option ℚ

/-- `x <= t` for a possibly-NaN `x`. -/
def leN (x : Num) (t : ℚ) : Bool := match x with
  | some v => decide (v ≤ t)
  | none => false

/-- `x >= y`. -/
def geN (x y : Num) : Bool := match x, y with
  | some v, some w => decide (w ≤ v)
  | _, _ => false

/-- `infer_mass_transfer_case`, l.1559-1587.  Codes: 0 no RLO, 1 A, 2 B, 3 C, 4 BA, 5 BB, 8 nonburning, 9 undetermined. -/
def inferCase (rl lg : Option Num) (donor : String) (dominating : Bool) : ℕ :=
  match rl, lg with
  | some rl, some lg =>
    if leN rl 0 && (leN lg (-10) || !dominating) then 0
    else if strIn "non_burning" donor then 8
    else if strIn "H-rich" donor then
      if strIn "Core_H_burning" donor then 1
      else if strIn "Core_He_burning" donor || strIn "Shell_H_burning" donor then 2
      else if strIn "Core_He_depleted" donor || strIn "Core_C_depleted" donor then 3
      else 9
    else if strIn "stripped_He" donor then
      if strIn "Core_He_burning" donor then 4
      else if strIn "Core_He_depleted" donor || strIn "Core_C_depleted" donor then 5
      else 9
    else 9
  | _, _ => 0

/-- The loop l.1639-1645: drop repetitions of the previous case. -/
def dropRep (prev : ℕ) : List ℕ → List ℕ
  | [] => []
  | c :: cs => if c ≠ prev then c :: dropRep c cs else dropRep prev cs

/-- `cumulative_mass_transfer_numeric`, l.1590-1647, on integer cases.  `none` is `IndexError` at `cases[0]`. -/
def numeric (cases : List ℕ) : Option (List ℕ) :=
  if cases.length = 0 then some [9]
  else
    let r0 := if 9 ∈ cases then [9] else []
    let c1 := if 9 ∈ cases then cases.filter (· ≠ 9) else cases
    if 9 ∈ cases ∧ c1.length = 0 then some r0
    else
      let c2 := if 0 ∈ c1 then c1.filter (· ≠ 0) else c1
      if 0 ∈ c1 ∧ c2.length = 0 then some (r0 ++ [0])
      else match c2 with
        | [] => none
        | c :: cs => some (r0 ++ c :: dropRep c cs)

/-- `MT_CASE_TO_STR`, l.76-86. -/
def caseStr : ℕ → Option (List Char)
  | 0 => some ['n', 'o', '_', 'R', 'L', 'O']
  | 1 => some ['A'] | 2 => some ['B'] | 3 => some ['C'] | 4 => some ['B', 'A'] | 5 => some ['B', 'B'] | 6 => some ['B', 'C']
  | 8 => some ['n', 'o', 'n', 'b', 'u', 'r', 'n', 'i', 'n', 'g']
  | 9 => some ['u', 'n', 'd', 'e', 't', 'e', 'r', 'm', 'i', 'n', 'e', 'd', '_', 'M', 'T']
  | _ => none

/-- The text added for one case after the separator, l.1691-1694 (`none`: unknown case, nothing is added). -/
def label (n : ℕ) : Option (List Char) :=
  match caseStr n with
  | some s => some (s ++ ['1'])
  | none => if 10 ≤ n then (caseStr (n - 10)).map (· ++ ['2']) else none

/-- `cumulative_mass_transfer_string`, l.1650-1698: loop with the flag `added_case_word`. -/
def renderLoop (added : Bool) : List ℕ → List Char
  | [] => []
  | n :: ns =>
    if n = 9 then '?' :: renderLoop added ns
    else if n = 0 then ['n', 'o', '_', 'R', 'L', 'O'] ++ renderLoop added ns
    else match label n with
      | some s => (if added then ['/'] else ['c', 'a', 's', 'e', '_']) ++ s ++ renderLoop true ns
      | none => renderLoop added ns

def render (l : List ℕ) : List Char := if l.length = 0 then ['?'] else renderLoop false l

/-- The loop with `shift_cases=True`, l.1717-1744; `m1`, `m2` are `case_1_min`, `case_2_min`. -/
def shift (m1 m2 : ℕ) : List ℕ → List ℕ
  | [] => []
  | c :: cs =>
    if c ≤ 9 then (if c < m1 then m1 else c) :: shift (if c > m1 then c else m1) m2 cs
    else if c ≤ 19 then (if c < m2 then m2 else c) :: shift m1 (if c > m2 then c else m2) cs
    else c :: shift m1 m2 cs

/-- `cumulative_mass_transfer_flag`, l.1701-1749. -/
def flag (shiftCases : Bool) (cases : List ℕ) : Option (List Char) :=
  (numeric (if shiftCases then shift 0 10 cases else cases)).map render

/-! ### Binary state, event and case -/

/-- The interpolation classes that the function distinguishes. -/
inductive Cls | notConverged | initialMT | unstable | other deriving DecidableEq, Repr

structure BinIn where
  lg : Option Num
  rl1 : Option Num
  rl2 : Option Num
  state1 : String
  state2 : String
  gamma1 : Option Num
  gamma2 : Option Num

def rloCases : List ℕ := [1, 2, 3, 4, 5, 6, 8]

/-- l.1196-1201. -/
def dominating1 (b : BinIn) : Bool :=
  match b.rl1, b.rl2 with
  | some x, some y => geN x y
  | none, some _ => false
  | _, none => true

def mt1 (b : BinIn) : ℕ := inferCase b.rl1 b.lg b.state1 (dominating1 b)
def mt2 (b : BinIn) : ℕ := inferCase b.rl2 b.lg b.state2 (!dominating1 b)

/-- l.1224-1226. -/
def soloCompanion (s : String) : Bool :=
  s ∈ ["H-rich_Core_H_burning", "stripped_He_Core_He_burning", "WD", "NS", "BH"]

/-- l.1252-1259. -/
def exhausted (s : String) (gamma : Option Num) : Bool :=
  strIn "Core_C_depleted" s || strIn "Core_He_depleted" s ||
  (match gamma with
    | some (some g) => decide (10 ≤ g)
    | _ => false)

/-- `get_binary_state_and_event_and_mt_case`, l.1166-1261, for a binary that is not `None`: state, event, case.
Both overflow values are numbers when both stars overflow (a missing one gives case 0), so the comparison l.1220 is
between numbers. -/
def stateEvent (cls : Cls) (b : BinIn) : Option String × Option String × List Char :=
  let none' := ['N', 'o', 'n', 'e']
  match cls with
  | .notConverged => (none, none, none')
  | .initialMT => (some "initial_RLOF", none, none')
  | _ =>
    let f1 := mt1 b
    let f2 := mt2 b
    let s1 := render [f1]
    let s2 := render [if f2 ∈ rloCases then f2 + 10 else f2]
    let rlof1 : Bool := f1 ∈ rloCases
    let rlof2 : Bool := f2 ∈ rloCases
    let cc : Option String := if exhausted b.state1 b.gamma1 then some "CC1"
      else if exhausted b.state2 b.gamma2 then some "CC2" else none
    if rlof1 && rlof2 then
      if cls = .unstable then
        if (match b.rl1, b.rl2 with | some x, some y => geN x y | _, _ => false) then
          (some "contact", some (if soloCompanion b.state2 then "oCE1" else "oDoubleCE1"), none')
        else (some "contact", some (if soloCompanion b.state1 then "oCE2" else "oDoubleCE2"), none')
      else (some "contact", cc, none')
    else if f1 = 0 ∧ f2 = 0 then (some "detached", cc, none')
    else if rlof1 then
      if cls = .unstable then (some "RLO1", some "oCE1", s1) else (some "RLO1", cc, s1)
    else if rlof2 then
      if cls = .unstable then (some "RLO2", some "oCE2", s2) else (some "RLO2", cc, s2)
    else (some "undefined", cc, none')

/-! ### The flag of a whole MESA run -/

/-- One row of the binary history, with the star states of that row. -/
structure Row where
  rel1 : Num
  rel2 : Num
  rate : Num
  state1 : String
  state2 : String

def gtN (x : Num) (t : ℚ) : Bool := gt x t
def ltN (x y : Num) : Bool := lt x y

/-- l.142-150. -/
def rlof1 (r : Row) : Bool := (gtN r.rel1 0 || gtN r.rate (-10)) && geN r.rel1 r.rel2
def rlof2 (r : Row) : Bool := (gtN r.rel2 0 || gtN r.rate (-10)) && ltN r.rel1 r.rel2

/-- The entry of `MT` for a row, l.155-191 (star 2 is written after star 1). -/
def mtEntry (r : Row) : Option ℕ :=
  if rlof2 r then some (inferCase (some r.rel2) (some r.rate) r.state2 true + 10)
  else if rlof1 r then some (inferCase (some r.rel1) (some r.rate) r.state1 true)
  else none

/-- `get_mass_transfer_flag`, l.136-194, for runs without an error or initial-overflow termination flag. -/
def massTransferFlag (startAtRLO : Bool) (rows : List Row) : Option (List Char) :=
  if rows.any (fun r => gtN r.rel1 0 && gtN r.rel2 0) then some (chars! "contact_during_MS")
  else if !rows.any rlof1 && !rows.any rlof2 then some (chars! "no_RLOF")
  else if rows.any rlof1 && !startAtRLO && (rows.head?.map rlof1 == some true) then some (chars! "initial_RLOF")
  else if rows.any rlof2 && !startAtRLO && (rows.head?.map rlof2 == some true) then some (chars! "initial_RLOF")
  else flag true (rows.filterMap mtEntry)

/-! ### Specification -/

/-- `l` is `r` with every entry repeated at least once (run-length expansion). -/
inductive Expands : List ℕ → List ℕ → Prop
  | nil : Expands [] []
  | cons (c k : ℕ) {l r} : Expands l r → Expands (List.replicate (k + 1) c ++ l) (c :: r)

/-- The cases in which mass is transferred by a known case. -/
def realCases (cases : List ℕ) : List ℕ := cases.filter fun c => c ≠ 9 && c ≠ 0

theorem dropRep_spec (prev : ℕ) (l : List ℕ) :
    (∃ k l', l = List.replicate k prev ++ l' ∧ Expands l' (dropRep prev l)) ∧
    List.IsChain (· ≠ ·) (prev :: dropRep prev l) := by
  induction l generalizing prev with
  | nil => exact ⟨⟨0, [], rfl, .nil⟩, by simp [dropRep]⟩
  | cons c cs ih =>
    by_cases h : c = prev
    · subst h
      simp only [dropRep, ne_eq, not_true_eq_false, if_false]
      obtain ⟨⟨k, l', hl, he⟩, hc⟩ := ih c
      exact ⟨⟨k + 1, l', by rw [List.replicate_succ, List.cons_append, ← hl], he⟩, hc⟩
    · simp only [dropRep, ne_eq, h, not_false_eq_true, if_true]
      obtain ⟨⟨k, l', hl, he⟩, hc⟩ := ih c
      refine ⟨⟨0, c :: cs, rfl, ?_⟩, ?_⟩
      · have := Expands.cons c k he
        rwa [List.replicate_succ, List.cons_append, ← hl] at this
      · exact List.IsChain.cons_cons (fun h' => h h'.symm) hc

theorem expands_dropRep (c : ℕ) (cs : List ℕ) :
    Expands (c :: cs) (c :: dropRep c cs) ∧ List.IsChain (· ≠ ·) (c :: dropRep c cs) := by
  obtain ⟨⟨k, l', hl, he⟩, hc⟩ := dropRep_spec c cs
  refine ⟨?_, hc⟩
  have := Expands.cons c k he
  rwa [List.replicate_succ, List.cons_append, ← hl] at this

theorem filter_two (cases : List ℕ) :
    (cases.filter (· ≠ 9)).filter (· ≠ 0) = realCases cases := by
  simp [realCases, List.filter_filter, Bool.and_comm]

theorem filter_id_of_not_mem (l : List ℕ) (a : ℕ) (h : a ∉ l) : l.filter (· ≠ a) = l := by
  rw [List.filter_eq_self]
  intro x hx
  simp only [ne_eq, decide_not, Bool.not_eq_eq_eq_not, Bool.not_true, decide_eq_false_iff_not]
  rintro rfl; exact h hx

end Verif.MTCase
