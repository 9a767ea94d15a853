import Verif.Chars
import Verif.Channel
import Verif.Compress
import Verif.GridPoint
import Mathlib.Algebra.Order.Field.Rat
import Mathlib.Data.List.Basic
import Mathlib.Order.Bounds.Basic
import Mathlib.Tactic.Common

/-!
# Setting up the steps with grids

Model of `posydon/binary_evol/MESA/step_mesa.py`: `MesaGridStep.__init__` (l.179-278), `_find_boundaries` (l.280-295), `load_psyTrackInterp` (l.297-312),
`load_Interp` (l.314-325), `get_final_MESA_step_time` (l.333-356), `_collect_sn_model_values` (l.126-158); and of
`convert_metallicity_to_string` (utils/common_functions.py l.2862-2868).

Simplifications.  What loading of a file gives (after downloads that may be tried) is a function of its name, `none` if it fails.  A grid has, for each of the three
parameters, its initial and final values, `none` if they are not finite.  What the interpolators give for the binary is a parameter.
-/

namespace Verif.MesaSetup

abbrev Name := List Char

inductive Err where
  | value
  | type
  | io
  | attribute
  | key
deriving DecidableEq

/-- `valid_Z`. -/
def validZ : List ℚ := [2, 1, 45 / 100, 2 / 10, 1 / 10, 1 / 100, 1 / 1000, 1 / 10000]

/-- `convert_metallicity_to_string`; `none` stands for `None`. -/
def zText : Option ℚ → Except Err Name
  | none => .error .value
  | some z => if z ∈ validZ then .ok (Channel.repl (chars! ".0") [] 0 (GridPoint.fmtE 1 z)) else .error .value

/-- `os.path.join` of two parts. -/
def join (a b : Name) : Name :=
  if b.head? = some '/' then b else if a = [] ∨ a.getLast? = some '/' then a ++ b else a ++ '/' :: b

structure Column where
  initial : List (Option ℚ)
  final : List (Option ℚ)

structure Grid where
  m1 : Column
  m2 : Column
  p : Column

/-- The options of a step (`DEFAULT_KWARGS`, l.164-177); `unknown` are names of options that are not there. -/
structure Config where
  unknown : List Name := []
  metallicity : Option ℚ := none
  gridPath : Option Name := none
  interpPath : Option Name := none
  interpFile : Option Name := none
  method : Name := (chars! "nearest_neighbour")
  track : Bool := false
  stop : Name := (chars! "stop_at_max_time")

def nearest : Name := (chars! "nearest_neighbour")

def supported : List Name := [(chars! "linear_kNN"), (chars! "linear3c_kNN"), (chars! "1NN_1NN")]

/-- `np.min` of values, an error for none. -/
def minQ : List ℚ → Except Err ℚ
  | [] => .error .value
  | a :: l => .ok (l.foldl min a)

def maxQ : List ℚ → Except Err ℚ
  | [] => .error .value
  | a :: l => .ok (l.foldl max a)

/-- Initial values of runs for which the initial and the final value are finite. -/
def usable (c : Column) : List ℚ :=
  (c.initial.zip c.final).filterMap fun p => match p.1, p.2 with | some a, some _ => some a | _, _ => none

/-- `initial_values_min_max`. -/
def minMax (c : Column) : Except Err (ℚ × ℚ) :=
  match minQ (usable c), maxQ (usable c) with
  | .ok a, .ok b => .ok (a, b)
  | .error e, _ => .error e
  | _, .error e => .error e

structure Bounds where
  m1 : ℚ × ℚ
  m2 : ℚ × ℚ
  p : ℚ × ℚ

/-- `_find_boundaries`; `none` if the grid is not loaded. -/
def boundaries : Option Grid → Except Err Bounds
  | none => .error .attribute
  | some g =>
    match minMax g.m1 with
    | .error e => .error e
    | .ok a =>
      match minMax g.m2 with
      | .error e => .error e
      | .ok b =>
        match minMax g.p with
        | .error e => .error e
        | .ok c => .ok ⟨a, b, c⟩

/-- The files there are. -/
structure Files where
  grid : Name → Option Grid
  interp : Name → Bool

/-- A step: the files it loaded, and the boundaries of its grid. -/
structure Ready where
  gridFile : Name
  gridLoaded : Bool
  interpFile : Option Name
  method : Name
  bounds : Bounds

/-- The name of the file with the interpolators, l.252-262. -/
def interpName (c : Config) (path gridName : Name) : Name :=
  let dir := c.interpPath.getD (join path ((chars! "interpolators/") ++ c.method))
  match c.interpFile with
  | none => join dir (Channel.repl (chars! "h5") (chars! "pkl") 0 (Compress.basename gridName))
  | some f => join dir f

/-- The grid, l.240-242. -/
def loadGrid (fs : Files) (c : Config) (gridName : Name) : Except Err (Option Grid) :=
  if c.stop = (chars! "stop_at_max_time") ∨ c.method = nearest then
    match fs.grid gridName with
    | some g => .ok (some g)
    | none => .error .io
  else .ok none

/-- The interpolators, l.249-264. -/
def loadInterp (fs : Files) (c : Config) (path gridName : Name) : Except Err (Option Name) :=
  if c.method ∈ supported then
    if fs.interp (interpName c path gridName) then .ok (some (interpName c path gridName)) else .error .io
  else .ok none

/-- `__init__`. -/
def init (fs : Files) (c : Config) : Except Err Ready :=
  if c.unknown ≠ [] then .error .value
  else if c.track ∧ c.method ≠ nearest then .error .value
  else match zText c.metallicity with
    | .error e => .error e
    | .ok z =>
      match c.gridPath with
      | none => .error .type
      | some path =>
        let gridName := join path (z ++ (chars! "_Zsun.h5"))
        match loadGrid fs c gridName with
        | .error e => .error e
        | .ok g =>
          match loadInterp fs c path (Channel.repl (chars! "_%d") [] 0 gridName) with
          | .error e => .error e
          | .ok i =>
            match boundaries g with
            | .error e => .error e
            | .ok b => .ok ⟨gridName, g.isSome, i, c.method, b⟩

/-- What the nearest run and the interpolators give for the time: the times of the nearest run (`none` without a history), and the interpolated final one. -/
structure Answers where
  nearestTimes : Option (List (Option ℚ))
  interpTime : Option ℚ

/-- `get_final_MESA_step_time`; an empty list of times is an error. -/
def finalTime (r : Ready) (a : Answers) : Except Err (Option ℚ) :=
  if r.method = nearest then
    match a.nearestTimes with
    | none => .ok none
    | some l =>
      match l.getLast? with
      | none => .error .key
      | some t => .ok t
  else if r.method ∈ supported then .ok a.interpTime
  else .error .value

/-! ### Rows of supernova models -/

/-- The names of the values of a model, l.146-158, with the names in the row (without the star). -/
def snNames : List (Name × Name) :=
  [((chars! "state"), (chars! "CO_type")), ((chars! "SN_type"), (chars! "SN_type")), ((chars! "f_fb"), (chars! "f_fb")),
   ((chars! "mass"), (chars! "mass")), ((chars! "spin"), (chars! "spin")), ((chars! "m_disk_accreted"), (chars! "m_disk_accreted")),
   ((chars! "m_disk_radiated"), (chars! "m_disk_radiated")), ((chars! "M4"), (chars! "M4")), ((chars! "mu4"), (chars! "mu4")),
   ((chars! "h1_mass_ej"), (chars! "h1_mass_ej")), ((chars! "he4_mass_ej"), (chars! "he4_mass_ej"))]

def starPrefix (i : ℕ) : Name := if i = 1 then (chars! "S1_") else (chars! "S2_")

/-- `_collect_sn_model_values`; values are texts. -/
def snValues (row : Option (List (Name × Name))) (i : ℕ) : Except Err (Option (List (Name × Name))) :=
  match row with
  | none => .ok none
  | some r =>
    if (r.lookup (starPrefix i ++ (chars! "CO_type"))).getD (chars! "None") = (chars! "None") then .ok none
    else if snNames.all fun p => (r.lookup (starPrefix i ++ p.2)).isSome then
      .ok (some (snNames.map fun p => (p.1, (r.lookup (starPrefix i ++ p.2)).getD [])))
    else .error .key

/-! ### Helper lemmas -/

theorem repl_none (pat rep s : Name) (c : Char) (hc : c ∈ pat) (hs : c ∉ s) : Channel.repl pat rep 0 s = s := by
  induction s with
  | nil => rfl
  | cons a s ih =>
    rw [Channel.repl, if_neg, ih (fun h => hs (by simp [h]))]
    intro hp
    rw [List.isPrefixOf_iff_prefix] at hp
    exact hs (hp.subset hc)

theorem basename_file (a f : Name) (hf : '/' ∉ f) : Compress.basename (join a f) = f := by
  have key : ∀ b : Name, (b = [] ∨ b.getLast? = some '/') → Compress.basename (b ++ f) = f := by
    intro b hb
    unfold Compress.basename
    rw [List.reverse_append, List.takeWhile_append_of_pos]
    · rcases hb with rfl | hb
      · simp
      · have : ∃ c, b = c ++ ['/'] := by
          refine ⟨b.dropLast, ?_⟩
          have hne : b ≠ [] := by rintro rfl; simp at hb
          rw [List.getLast?_eq_some_getLast hne] at hb
          have := List.dropLast_append_getLast hne
          rw [Option.some.inj hb] at this
          exact this.symm
        obtain ⟨c, rfl⟩ := this
        simp
    · intro x hx
      rw [List.mem_reverse] at hx
      simp only [decide_eq_true_eq]
      rintro rfl
      exact hf hx
  by_cases h : a = [] ∨ a.getLast? = some '/'
  · have hj : join a f = a ++ f := by
      unfold join
      have hh : f.head? ≠ some '/' := by
        cases f with
        | nil => simp
        | cons c f =>
          simp only [List.mem_cons, not_or] at hf
          simp only [List.head?_cons, ne_eq, Option.some.injEq]
          exact fun h => hf.1 h.symm
      rw [if_neg hh, if_pos h]
    rw [hj]
    exact key a h
  · have hj : join a f = (a ++ ['/']) ++ f := by
      unfold join
      have hh : f.head? ≠ some '/' := by
        cases f with
        | nil => simp
        | cons c f =>
          simp only [List.mem_cons, not_or] at hf
          simp only [List.head?_cons, ne_eq, Option.some.injEq]
          exact fun h => hf.1 h.symm
      rw [if_neg hh, if_neg h]
      simp
    rw [hj]
    exact key _ (Or.inr (by simp))

theorem foldl_min (l : List ℚ) (a : ℚ) : IsLeast {x | x ∈ a :: l} (l.foldl min a) := by
  induction l generalizing a with
  | nil => exact ⟨by simp, by simp [lowerBounds]⟩
  | cons b l ih =>
    rw [List.foldl_cons]
    obtain ⟨h1, h2⟩ := ih (min a b)
    constructor
    · simp only [Set.mem_setOf_eq, List.mem_cons] at h1 ⊢
      rcases h1 with h1 | h1
      · rw [h1]
        rcases min_choice a b with h | h <;> simp [h]
      · exact Or.inr (Or.inr h1)
    · intro x hx
      simp only [Set.mem_setOf_eq, List.mem_cons] at hx
      have hm : l.foldl min (min a b) ≤ min a b := h2 (by simp)
      rcases hx with rfl | rfl | hx
      · exact hm.trans (min_le_left _ _)
      · exact hm.trans (min_le_right _ _)
      · exact h2 (by simp [hx])

theorem foldl_max (l : List ℚ) (a : ℚ) : IsGreatest {x | x ∈ a :: l} (l.foldl max a) := by
  induction l generalizing a with
  | nil => exact ⟨by simp, by simp [upperBounds]⟩
  | cons b l ih =>
    rw [List.foldl_cons]
    obtain ⟨h1, h2⟩ := ih (max a b)
    constructor
    · simp only [Set.mem_setOf_eq, List.mem_cons] at h1 ⊢
      rcases h1 with h1 | h1
      · rw [h1]
        rcases max_choice a b with h | h <;> simp [h]
      · exact Or.inr (Or.inr h1)
    · intro x hx
      simp only [Set.mem_setOf_eq, List.mem_cons] at hx
      have hm : max a b ≤ l.foldl max (max a b) := h2 (by simp)
      rcases hx with rfl | rfl | hx
      · exact (le_max_left _ _).trans hm
      · exact (le_max_right _ _).trans hm
      · exact h2 (by simp [hx])

end Verif.MesaSetup
