import Verif.FlowChart
import Verif.Frame
import Verif.Chars
import Mathlib.Algebra.Order.Field.Rat
import Mathlib.Data.List.Forall2
import Mathlib.Analysis.SpecialFunctions.Log.Basic
import Mathlib.Tactic.NormNum
import Mathlib.Tactic.Linarith
import Mathlib.Tactic.SplitIfs
import Mathlib.Tactic.Common
/-!
Model of the Van den Heuvel diagrams of one binary, `/repo/posydon/visualization/VH_diagram/Presenter.py`: `combine_simplified_data` (l.29-43), `to_simplified_data` (l.46-71),
`get_star_state_filename` (l.79-98), `get_event_state_filename` (l.101-130), `equal_with_epsilon` (l.133-151), `get_max_distance` (l.154-183), `_get_distance_representation` (l.619-660),
the choice of pictures in `_prepare_diagram_line` (l.716-778), `_detailed_presentation` (l.789-803), `_reduce_data` (l.805-853), `_simplify_data` (l.870-920), `_digram_presentation`
(l.936-964); default frequencies of `/repo/posydon/visualization/VH_diagram/PresenterMultiple.py` (l.106-107, 166-167).

Simplifications: a row of the history has only the entries that decide about lines, pictures and distances (masses, periods and eccentricities are written as text from the same two rows of a
line); an undefined event or separation is `none`; names of states and files are lists of characters; the logarithm is the real one and a division by zero gives `none`.
-/
namespace Verif.VhDiagram
open Verif.FlowChart

abbrev Text := List Char

/-- One row of the history. -/
structure Row where
  time : ℚ
  event : Option Text
  state : Text
  s1 : Text
  s2 : Text
  sep : Option ℚ
  deriving DecidableEq

/-- The entry `state` of `to_simplified_data`, l.67-69: the event if there is one, otherwise the state. -/
def label (r : Row) : Text := r.event.getD r.state

/-- One line of a diagram: for every entry the value before, and after a combination also the one after (`combine_simplified_data` l.42-43 overwrites the value after of all entries
with the entries of the new row). -/
structure Line where
  before : Row
  after : Option Row
  deriving DecidableEq

inductive Err
  | type
  | value
  deriving DecidableEq

/-- `_detailed_presentation`, l.798-803: the rows that become lines. -/
def detailed (rows : List Row) : List Row := rows.filter fun r => decide (r.event ≠ some (chars! "END"))

/-- `equal_with_epsilon(a, b, 10000)`, l.151. -/
def near (a b : ℚ) : Bool := decide (|a - b| < 10000)

/-- The condition l.838-846. -/
def joinReduced (a b : Row) : Bool :=
  near a.time b.time && decide (label a ≠ (chars! "detached")) && decide (label b ≠ (chars! "detached"))

/-- The condition l.902-913. -/
def joinSimple (a b : Row) : Bool :=
  joinReduced a b || (decide (label a = (chars! "detached")) && decide (label b = (chars! "detached")))

/-- The loops l.835-851 and l.899-918 over the rows that are not skipped; `cur` is the last line of the list, the lines before it do not change any more. -/
def go (join : Row → Row → Bool) (cur : Line) : List Row → List Line
  | [] => [cur]
  | r :: rs => if join cur.before r then go join ⟨cur.before, some r⟩ rs else cur :: go join ⟨r, none⟩ rs

def lines (join : Row → Row → Bool) : List Row → List Line
  | [] => []
  | r :: rs => go join ⟨r, none⟩ rs

/-- The test l.830: `in` applied to an undefined event is a `TypeError`. -/
def skipReduced (r : Row) : Except Err Bool :=
  match r.event with
  | none => .error .type
  | some e => .ok (decide (e = (chars! "END")) || Frame.isIn (chars! "redirect") e)

/-- The rows that `_reduce_data` keeps. -/
def keepReduced : List Row → Except Err (List Row)
  | [] => .ok []
  | r :: rs =>
    match skipReduced r with
    | .error e => .error e
    | .ok b =>
      match keepReduced rs with
      | .error e => .error e
      | .ok l => .ok (if b then l else r :: l)

/-- `_reduce_data`, l.826-853. -/
def reduced (rows : List Row) : Except Err (List Line) :=
  match keepReduced rows with
  | .error e => .error e
  | .ok l => .ok (lines joinReduced l)

/-- The test l.894. -/
def keepSimple (r : Row) : Bool := decide (r.event ≠ some (chars! "END")) && decide (r.event ≠ some (chars! "redirect"))

/-- `_simplify_data`, l.891-920. -/
def simplified (rows : List Row) : List Line := lines joinSimple (rows.filter keepSimple)

/-! ### Pictures -/

/-- `get_star_state_filename`, l.93-98. -/
def starFile (state suffix : Text) : Text :=
  if state.count '_' < 2 then state ++ suffix else state.takeWhile (· ≠ '_') ++ '_' :: suffix

/-- `get_event_state_filename`, l.120-130. -/
def eventFile (left event right suffix : Text) : Text :=
  let l := starFile left []
  let l := if l.getLast? = some '_' then l else l ++ ['_']
  l ++ event ++ '_' :: starFile right [] ++ suffix

inductive Picture
  | event (file : Text)
  | stars (left right : Text)
  deriving DecidableEq

def png : Text := (chars! ".png")

/-- The file of l.724-741; both names are made from the state before. -/
def lineFile (l : Line) : Text := eventFile l.before.s1 (label l.before) l.before.s2 png

/-- l.742-778; `exist` are the files in the folder of drawings. -/
def picture (exist : Text → Bool) (l : Line) : Picture :=
  if l.after.map label ≠ some (chars! "detached") ∧ exist (lineFile l) = true then .event (lineFile l)
  else if label l.before ≠ (chars! "detached") ∧ exist (lineFile l) = true then .event (lineFile l)
  else .stars (starFile ((l.after.map (·.s1)).getD l.before.s1) png) (starFile ((l.after.map (·.s2)).getD l.before.s2) png)

/-- The files in `/repo/posydon/visualization/VH_diagram/draws`. -/
def draws : List Text :=
  [(chars! "BH.png"), (chars! "BH_oCE2_H-rich_.png"), (chars! "BH_oRLO2_H-rich_.png"), (chars! "H-rich_.png"), (chars! "H-rich_oCE1_BH.png"),
   (chars! "H-rich_oCE1_H-rich_.png"), (chars! "H-rich_oCE1_NS.png"), (chars! "H-rich_oCE2_H-rich_.png"), (chars! "H-rich_oRLO1_BH.png"),
   (chars! "H-rich_oRLO1_H-rich_.png"), (chars! "H-rich_oRLO1_NS.png"), (chars! "H-rich_oRLO2_H-rich_.png"), (chars! "NS.png"),
   (chars! "NS_oCE2_H-rich_.png"), (chars! "NS_oRLO2_H-rich_.png"), (chars! "WD.png"), (chars! "stripped_.png")]

/-- The texts of the events, `/repo/posydon/binary_evol/flow_chart.py` l.150-173. -/
def evText : Ev → Option Text
  | .none => none
  | .CC1 => some (chars! "CC1") | .CC2 => some (chars! "CC2") | .ZAMS => some (chars! "ZAMS")
  | .oRLO1 => some (chars! "oRLO1") | .oRLO2 => some (chars! "oRLO2") | .oCE1 => some (chars! "oCE1") | .oCE2 => some (chars! "oCE2")
  | .oDoubleCE1 => some (chars! "oDoubleCE1") | .oDoubleCE2 => some (chars! "oDoubleCE2") | .COcontact => some (chars! "CO_contact")
  | .rZAMS => some (chars! "redirect_from_ZAMS") | .rCOHMSRLO => some (chars! "redirect_from_CO_HMS_RLO")
  | .rCOHeMS => some (chars! "redirect_from_CO_HeMS") | .rCOHeMSRLO => some (chars! "redirect_from_CO_HeMS_RLO")
  | .MaxTimeExceeded => some (chars! "MaxTime_exceeded") | .maxtime => some (chars! "maxtime")
  | .oMerging1 => some (chars! "oMerging1") | .oMerging2 => some (chars! "oMerging2")
  | .Match1 => some (chars! "Match1") | .Match2 => some (chars! "Match2") | .Match12 => some (chars! "Match12")

/-! ### Distances -/

/-- `get_max_distance`, l.168-183. -/
def maxDistance (l : Line) : ℚ :=
  match l.after with
  | some r =>
    match r.sep with
    | none => l.before.sep.getD 0
    | some a =>
      match l.before.sep with
      | none => a
      | some b => if b > a then b else a
  | none => l.before.sep.getD 0

/-- `max(simplified_data, key=get_max_distance)` and its distance, l.947-948. -/
def widest : List Line → Except Err ℚ
  | [] => .error .value
  | l :: ls => .ok (ls.foldl (fun m x => if maxDistance x > m then maxDistance x else m) (maxDistance l))

/-- The separation that is represented, l.641-651: the one after if it is defined, otherwise the one before. -/
def shown (l : Line) : Option ℚ :=
  match l.after.bind (·.sep) with
  | some a => some a
  | none => l.before.sep

/-- `_get_distance_representation`, l.638-660. -/
noncomputable def distance (l : Line) (m : ℚ) : Option ℝ :=
  if m = 0 then some 0
  else
    match shown l with
    | none => some 0
    | some v =>
      let v := if v < 1 then 1 else v
      if m < 1 then some (Real.log (v : ℝ))
      else if Real.log (m : ℝ) = 0 then none else some (Real.log (v : ℝ) / Real.log (m : ℝ))

/-- `_digram_presentation`, l.945-964: the distances of the lines, and the text of the additional line at the end. -/
noncomputable def diagram (rows : List Row) : Except Err (List (Line × Option ℝ) × Option Text) :=
  let ls := simplified rows
  match widest ls with
  | .error e => .error e
  | .ok m =>
    let last := (ls.getLast?.bind (·.after)).map label
    .ok (ls.map (fun l => (l, distance l m)),
      if last = some (chars! "disrupted") ∨ last = some (chars! "merged") then last else none)

/-- Default frequencies in percent, PresenterMultiple.py l.106-107 (columns side by side) and l.166-167 (tree). -/
def freqColumns (n : ℕ) : List ℚ := List.replicate n (1 / (n : ℚ))
def freqTree (n : ℕ) : List ℚ := List.replicate n (100 / (n : ℚ))

/-! ### Specification -/

/-- A line shows the first and the last row of a group of rows, all of which are joined to the first one. -/
def Shows (join : Row → Row → Bool) (g : List Row) (l : Line) : Prop :=
  ∃ r rest, g = r :: rest ∧ l.before = r ∧ l.after = rest.getLast? ∧ ∀ x ∈ rest, join r x = true

/-- The lines show the rows, cut into successive groups; a group ends where the next row is not joined to its first row. -/
def Tiles (join : Row → Row → Bool) (rows : List Row) (ls : List Line) : Prop :=
  ∃ gs : List (List Row), gs.flatten = rows ∧ List.Forall₂ (Shows join) gs ls ∧ ls.IsChain (fun a b => join a.before b.before = false)

/-! ### Lemmas -/

theorem go_head (join : Row → Row → Bool) : ∀ (rs : List Row) (cur : Line), ∃ a t, go join cur rs = ⟨cur.before, a⟩ :: t
  | [], cur => ⟨cur.after, [], rfl⟩
  | r :: rs, cur => by
    unfold go
    by_cases h : join cur.before r = true
    · rw [if_pos h]; exact go_head join rs ⟨cur.before, some r⟩
    · rw [if_neg h]; exact ⟨cur.after, _, rfl⟩

theorem go_tiles (join : Row → Row → Bool) : ∀ (rs : List Row) (cur : Line) (g : List Row), Shows join g cur →
    ∃ gs : List (List Row), gs.flatten = g ++ rs ∧ List.Forall₂ (Shows join) gs (go join cur rs) ∧
      (go join cur rs).IsChain (fun a b => join a.before b.before = false)
  | [], cur, g, h => ⟨[g], by simp, by simp [go, h], by simp [go]⟩
  | r :: rs, cur, g, h => by
    unfold go
    by_cases hj : join cur.before r = true
    · rw [if_pos hj]
      obtain ⟨x, rest, e1, e2, e3, e4⟩ := h
      obtain ⟨gs, f1, f2, f3⟩ := go_tiles join rs ⟨cur.before, some r⟩ (g ++ [r]) ⟨x, rest ++ [r], by rw [e1]; rfl, e2, by simp, by
        intro y hy
        rcases List.mem_append.1 hy with hy | hy
        · exact e4 y hy
        · rw [List.mem_singleton.1 hy, ← e2]; exact hj⟩
      exact ⟨gs, by rw [f1]; simp, f2, f3⟩
    · rw [if_neg hj]
      obtain ⟨gs, f1, f2, f3⟩ := go_tiles join rs ⟨r, none⟩ [r] ⟨r, [], rfl, rfl, rfl, by simp⟩
      refine ⟨g :: gs, by simp [f1], List.Forall₂.cons h f2, ?_⟩
      obtain ⟨a, t, e⟩ := go_head join rs ⟨r, none⟩
      rw [e] at f3 ⊢
      exact List.IsChain.cons_cons (by simpa using hj) f3

theorem lines_tiles (join : Row → Row → Bool) (rows : List Row) : Tiles join rows (lines join rows) := by
  cases rows with
  | nil => exact ⟨[], rfl, List.Forall₂.nil, List.IsChain.nil⟩
  | cons r rs =>
    obtain ⟨gs, f1, f2, f3⟩ := go_tiles join rs ⟨r, none⟩ [r] ⟨r, [], rfl, rfl, rfl, by simp⟩
    exact ⟨gs, f1, f2, f3⟩

theorem foldl_max_ge (ls : List Line) : ∀ m : ℚ,
    m ≤ ls.foldl (fun m x => if maxDistance x > m then maxDistance x else m) m ∧
    ∀ l ∈ ls, maxDistance l ≤ ls.foldl (fun m x => if maxDistance x > m then maxDistance x else m) m := by
  induction ls with
  | nil => intro m; exact ⟨le_refl _, by simp⟩
  | cons l ls ih =>
    intro m
    simp only [List.foldl_cons]
    obtain ⟨h1, h2⟩ := ih (if maxDistance l > m then maxDistance l else m)
    have hm : m ≤ (if maxDistance l > m then maxDistance l else m) := by split_ifs <;> linarith
    have hl : maxDistance l ≤ (if maxDistance l > m then maxDistance l else m) := by split_ifs <;> linarith
    refine ⟨hm.trans h1, fun x hx => ?_⟩
    rcases List.mem_cons.1 hx with rfl | hx
    · exact hl.trans h1
    · exact h2 x hx

theorem shown_le_max (l : Line) (v : ℚ) (h : shown l = some v) : v ≤ maxDistance l := by
  unfold shown at h
  unfold maxDistance
  cases ha : l.after with
  | none =>
    rw [ha] at h
    simp only [Option.bind_none] at h
    simp [h]
  | some r =>
    rw [ha] at h
    simp only [Option.bind_some] at h
    cases hs : r.sep with
    | none => rw [hs] at h; dsimp only at h ⊢; simp [h, hs]
    | some a =>
      rw [hs] at h
      dsimp only at h ⊢
      rw [hs]
      injection h with h
      subst h
      dsimp only
      cases hb : l.before.sep with
      | none => dsimp only; exact le_refl _
      | some b =>
        dsimp only
        split_ifs <;> linarith

theorem widest_ge {ls : List Line} {m : ℚ} (h : widest ls = .ok m) : ∀ l ∈ ls, maxDistance l ≤ m := by
  cases ls with
  | nil => cases h
  | cons x xs =>
    injection h with h
    subst h
    intro l hl
    obtain ⟨h1, h2⟩ := foldl_max_ge xs (maxDistance x)
    rcases List.mem_cons.1 hl with rfl | hl
    · exact h1
    · exact h2 l hl

end Verif.VhDiagram
