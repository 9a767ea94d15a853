import Verif.Chars
import Verif.Frame
import Verif.MesaStop
import Verif.GridTools
import Mathlib.Algebra.Order.Field.Rat
import Mathlib.Tactic.Common

/-!
# What a plot of a grid shows

Model of `/repo/posydon/visualization/plot2D.py`: the choice of the quantities in `__init__` (l.228-376),
`add_properties_to_initial_values` (l.707-721), `add_properties_to_final_values` (l.723-749),
`update_values_to_plot` (l.773-864), `get_x_var` (l.866-899), `get_y_var` (l.901-934), `get_z_var` (l.936-1064) and the
second grid in `__call__` (l.453-466).

Simplifications.  Floats are rational numbers, NaN is `none`.  `numpy.log10` is the parameter `lg` (`none` where it has no finite
value).  A structured array is a list of names and a list of rows, each a function of the name which is only asked for names of the
list.  The columns of the supernova models are a parameter of the grid.  The combination of the flags 1 and 2 is a parameter
(it is modelled in `Verif.MTLabel`).  The messages are left out.  `numpy.unique` is left to `Verif.Panels`.
An array of colours together with `slice_at_RLO` is an error (`in` compares an array with texts).
-/

namespace Verif.GridPlot

abbrev Name := List Char

inductive Err where
  | noInitial | noFinal | badX | badY | badStar | badZ | badFlag
  | noField | key | index | type | empty
deriving DecidableEq

/-! ### Grids -/

abbrev Row := Name → Option ℚ

/-- A history of a run: names of the columns and rows. -/
structure Hist where
  names : List Name
  rows : List Row

/-- One run: initial values, numbers and texts of the final values, histories. -/
structure Run where
  init : Row
  num : Row
  txt : Name → Name
  h1 : Option Hist := none
  h2 : Option Hist := none
  bh : Option Hist := none

/-- A grid: names of the initial and of the final values, columns of the supernova models, runs. -/
structure Grid where
  ini : List Name
  fin : List Name
  sn : Name → Option (List (Option ℚ)) := fun _ => none
  runs : List Run

/-- `history[name]` of a structured array; a missing field is an error. -/
def Hist.col (h : Hist) (n : Name) : Except Err (List (Option ℚ)) :=
  if n ∈ h.names then .ok (h.rows.map (· n)) else .error .noField

/-- The names of the first run which has the history, l.247-258. -/
def firstNames (f : Run → Option Hist) : List Run → List Name
  | [] => []
  | r :: rs => match f r with
    | none => firstNames f rs
    | some h => if h.names = [] then firstNames f rs else h.names

/-! ### Initial values -/

/-- Division of columns. -/
def ratio : Option ℚ → Option ℚ → Option ℚ
  | some a, some b => if b = 0 then none else some (a / b)
  | _, _ => none

/-- `Zsun`, `posydon/utils/constants.py`. -/
def zsun : ℚ := 142 / 10000

/-- The initial values with the mass ratio and the metallicity in units of the solar one, l.707-721. -/
def iniVal (r : Run) (n : Name) : Option ℚ :=
  if n = (chars! "mass_ratio") then ratio (r.init (chars! "star_2_mass")) (r.init (chars! "star_1_mass"))
  else if n = (chars! "Z_Zsun") then ratio (r.init (chars! "Z")) (some zsun)
  else r.init n

/-- The names after `add_properties_to_initial_values`, l.707-721. -/
def iniNames (g : Grid) : Except Err (List Name) :=
  if (chars! "star_2_mass") ∈ g.ini ∧ (chars! "star_1_mass") ∈ g.ini ∧ (chars! "Z") ∈ g.ini
  then .ok (g.ini ++ [(chars! "mass_ratio"), (chars! "Z_Zsun")]) else .error .noField

/-! ### Flags -/

/-- `TF.replace('?', '')`, l.243. -/
def clean (t : Name) : Name := t.filter (· ≠ '?')

/-- The flags that are made for the plot, l.238, with the columns they need, l.727-740. -/
def madeFrom (flag : Name) : Option (List Name) :=
  if flag = (chars! "combined_TF12") then some [(chars! "interpolation_class"), (chars! "termination_flag_2")]
  else if flag = (chars! "debug") then some [(chars! "termination_flag_1")]
  else if flag = (chars! "interpolation_class_errors") then some [(chars! "interpolation_class")]
  else none

/-- The flag of a run: made for the plot (l.727-740), with marks of doubt removed (l.240-244), or as it is. -/
def flagVal (combine : Name → Name → Name) (r : Run) (flag : Name) : Name :=
  if flag = (chars! "combined_TF12") then combine (r.txt (chars! "interpolation_class")) (r.txt (chars! "termination_flag_2"))
  else if flag = (chars! "debug") then r.txt (chars! "termination_flag_1")
  else if flag = (chars! "interpolation_class_errors") then r.txt (chars! "interpolation_class")
  else if flag = (chars! "termination_flag_2") then clean (r.txt flag)
  else r.txt flag

/-- The names of the final values of the plot for a flag, l.238-245. -/
def finNames (g : Grid) (flag : Name) : Except Err (List Name) :=
  match madeFrom flag with
  | some need => if ∀ n ∈ need, n ∈ g.fin then .ok (g.fin ++ [flag]) else .error .noField
  | none => if flag = (chars! "termination_flag_2") then
      if flag ∈ g.fin then .ok g.fin else .error .noField
    else .ok g.fin

/-- The grid after a plot has been set up: the second flag is changed in the grid itself, l.240-244. -/
def gridAfter (g : Grid) (flag : Name) : Grid :=
  if flag = (chars! "termination_flag_2") then
    { g with runs := g.runs.map fun r => { r with txt := fun n => if n = flag then clean (r.txt n) else r.txt n } }
  else g

/-- The flags which are accepted, l.349-376: `none` is `"all"`. -/
def flagOf (flag : Name) : Except Err (Option Name) :=
  if flag ∈ [(chars! "termination_flag_1"), (chars! "termination_flag_2"), (chars! "termination_flag_3"), (chars! "termination_flag_4"),
      (chars! "combined_TF12"), (chars! "debug"), (chars! "interpolation_class"), (chars! "interpolation_class_errors")]
    ∨ Frame.isIn (chars! "SN_type") flag ∨ Frame.isIn (chars! "CO_type") flag ∨ Frame.isIn (chars! "state") flag
  then .ok (some flag)
  else if flag = (chars! "all") then .ok none else .error .badFlag

/-! ### Colours -/

/-- The argument for the colours. -/
inductive ZArg where
  | none | array (l : List (Option ℚ)) | name (n : Name)

/-- Where the colours come from: `history` and `binary_history` of the object, l.285-346. -/
inductive ZKind where
  | none | array (l : List (Option ℚ)) | final (n : Name) | relative (n : Name) | star (n : Name) | binary (n : Name)
deriving DecidableEq

/-- `key = z_var_str.split('relative_change_')[1]`, l.742; there may be no second piece. -/
def relKey (n : Name) : Except Err Name :=
  match (Frame.split (chars! "relative_change_") n)[1]? with
  | some k => .ok k
  | none => .error .index

/-- `_get_grid_column`: a final value or a column of a supernova model (`gridutils.py` l.26-51). -/
def column (g : Grid) (n : Name) : Except Err (List (Option ℚ)) :=
  if n ∈ g.fin then .ok (g.runs.map (·.num n)) else
    match g.sn n with
    | some l => .ok l
    | none => .error .key

/-- `add_properties_to_final_values(None)`, l.741-748: it fails if one of the columns is missing. -/
def relative (g : Grid) (ini : List Name) (n : Name) : Except Err Unit :=
  match relKey n with
  | .error e => .error e
  | .ok k => match column g k with
    | .error e => .error e
    | .ok _ => if k ∈ ini then .ok () else .error .noField

/-- The choice at the onset of Roche-lobe overflow, l.323-341, which is also the end of the other one, l.301-320. -/
def chooseHist (star2 : Bool) (h1 h2 bh : List Name) (n : Name) : Except Err ZKind :=
  if star2 = false ∧ n ∈ h1 then .ok (.star n)
  else if star2 = true ∧ n ∈ h2 then .ok (.star n)
  else if n ∈ bh then .ok (.binary n)
  else .error .badZ

/-- The choice of the colours, l.285-346. -/
def choose (rlo star2 : Bool) (g : Grid) (ini fin h1 h2 bh : List Name) : ZArg → Except Err ZKind
  | .none => .ok .none
  | .array l => if rlo then .error .badZ else .ok (.array l)
  | .name n =>
    if rlo then chooseHist star2 h1 h2 bh n
    else if n ∈ fin then .ok (.final n)
    else if Frame.isIn (chars! "relative_change") n then
      match relative g ini n with
      | .error e => .error e
      | .ok () => .ok (.relative n)
    else chooseHist star2 h1 h2 bh n

/-! ### Values -/

/-- `numpy.log10` if asked for. -/
def scaled (lg : ℚ → Option ℚ) (log : Bool) (v : Option ℚ) : Option ℚ := if log then v.bind lg else v

/-- A comparison with a number, false for NaN. -/
def atLeast (c : ℚ) (v : Option ℚ) : Bool :=
  match v with
  | some x => decide (c ≤ x)
  | none => false

/-- The rows of the binary history in which star 1 overflows and mass is transferred, l.882-885. -/
def overflows (r : Row) : Bool :=
  atLeast (-5/100) (r (chars! "rl_relative_overflow_1")) && atLeast (-12) (r (chars! "lg_mtransfer_rate"))

/-- The index of the onset of overflow, l.882-887; both columns are needed. -/
def onset (h : Hist) : Except Err (Option ℕ) :=
  if (chars! "rl_relative_overflow_1") ∈ h.names ∧ (chars! "lg_mtransfer_rate") ∈ h.names
  then .ok (h.rows.findIdx? overflows) else .error .noField

/-- The track of a run up to the onset, l.875-898: `none` is the NaN put in its place. -/
def track (lg : ℚ → Option ℚ) (log : Bool) (n : Name) (r : Run) : Except Err (Option (List (Option ℚ))) :=
  match r.bh with
  | none => .ok none
  | some h => match h.col n with
    | .error e => .error e
    | .ok c => match onset h with
      | .error e => .error e
      | .ok none => .ok none
      | .ok (some i) => .ok (some ((c.take (i + 1)).map (scaled lg log)))

/-- The last value of a history, l.955-960, l.972-979. -/
def lastVal (n : Name) (h : Option Hist) : Except Err (Option ℚ) :=
  match h with
  | none => .ok none
  | some h => match h.col n with
    | .error e => .error e
    | .ok c => match c.getLast? with
      | some v => .ok v
      | none => .error .index

/-- The value of a history at the onset, l.1012-1028, l.1040-1059: the index is that of the binary history. -/
def onsetVal (n : Name) (h bh : Option Hist) : Except Err (Option ℚ) :=
  match h with
  | none => .ok none
  | some h => match h.col n with
    | .error e => .error e
    | .ok c => match bh with
      | none => .error .type
      | some b => match onset b with
        | .error e => .error e
        | .ok none => .ok none
        | .ok (some i) => match c[i]? with
          | some v => .ok v
          | none => .error .index

/-- What is plotted. -/
structure Plot where
  x : Name
  y : Name
  xlog : Bool := false
  ylog : Bool := false
  zlog : Bool := false
  rlo : Bool := false
  star2 : Bool := false
  grid3 : Bool := false
  var3 : Name := []
  grid4 : Bool := false
  var4 : Name := []

/-- The values of the object that are kept between calls: the colours given as an array and the limits. -/
structure St where
  z : Option (List (Option ℚ)) := none
  zmin : Option ℚ := none
  zmax : Option ℚ := none
deriving DecidableEq

/-- What is shown, one entry for each run of the slice. -/
structure Shown where
  x : List (Option ℚ)
  y : List (Option ℚ)
  z : Option (List (Option ℚ))
  xt : List (Option (List (Option ℚ)))
  yt : List (Option (List (Option ℚ)))
  flag : List Name
deriving DecidableEq

/-- The history of the chosen star. -/
def starHist (star2 : Bool) (r : Run) : Option Hist := if star2 then r.h2 else r.h1

/-- `get_z_var`, l.936-1064, for the kinds with a name. -/
def zVals (lg : ℚ → Option ℚ) (p : Plot) (g : Grid) : ZKind → Except Err (List (Option ℚ))
  | .none => .ok []
  | .array l => .ok l
  | .final n => (column g n).map (·.map (scaled lg p.zlog))
  | .relative n => (column g n).map (·.map (scaled lg p.zlog))
  | .star n =>
    (MesaStop.mapE (fun r => if p.rlo then onsetVal n (starHist p.star2 r) r.bh else lastVal n (starHist p.star2 r)) g.runs).map
      (·.map (scaled lg p.zlog))
  | .binary n =>
    (MesaStop.mapE (fun r => if p.rlo then onsetVal n r.bh r.bh else lastVal n r.bh) g.runs).map (·.map (scaled lg p.zlog))

/-- The colours before the slice, l.789-792: those given as an array are the ones left by the last call. -/
def colours (lg : ℚ → Option ℚ) (p : Plot) (g : Grid) (k : ZKind) (st : St) : Except Err (Option (List (Option ℚ))) :=
  match k with
  | .none => .ok none
  | .array _ => .ok st.z
  | k => (zVals lg p g k).map some

/-- Indexing with a mask; numpy refuses masks of another length. -/
def mask {A : Type} (m : List Bool) (l : List A) : Except Err (List A) :=
  if m.length = l.length then .ok (((l.zip m).filter (·.2)).map (·.1)) else .error .index

/-- The range of a slice: both ends belong to it. -/
def within (v : Option ℚ) (b : ℚ × ℚ) : Bool :=
  match v with
  | some x => decide (b.1 ≤ x) && decide (x ≤ b.2)
  | none => false

/-- The mask of the runs, l.795-842: `none` if nothing is cut. -/
def cut (p : Plot) (ini : List Name) (src : Grid) (b3 b4 : ℚ × ℚ) : Except Err (Option (List Bool)) :=
  if p.grid4 = true ∧ p.grid3 = true then
    if p.var4 ∈ ini ∧ p.var3 ∈ ini then
      .ok (some (src.runs.map fun r => within (iniVal r p.var4) b4 && within (iniVal r p.var3) b3)) else .error .noField
  else if p.grid4 = false ∧ p.grid3 = true then
    if p.var3 ∈ ini then .ok (some (src.runs.map fun r => within (iniVal r p.var3) b3)) else .error .noField
  else .ok none

/-- A mask that may be absent. -/
def maskIf {A : Type} (m : Option (List Bool)) (l : List A) : Except Err (List A) :=
  match m with
  | none => .ok l
  | some m => mask m l

/-- The colours may be absent. -/
def maskZ (m : Option (List Bool)) (z : Option (List (Option ℚ))) : Except Err (Option (List (Option ℚ))) :=
  match z with
  | none => .ok none
  | some l => (maskIf m l).map some

/-- A limit: the one known, or the least (greatest) of the known colours; `min` and `max` of nothing are errors (l.857-864). -/
def limit (pick : ℚ → ℚ → ℚ) (known : Option ℚ) (z : List (Option ℚ)) : Except Err ℚ :=
  match known with
  | some v => .ok v
  | none => match z.filterMap id with
    | [] => .error .empty
    | v :: vs => .ok (vs.foldl pick v)

/-- The limits of the colours. -/
def limits (st : St) (z : Option (List (Option ℚ))) : Except Err (Option ℚ × Option ℚ) :=
  match z with
  | none => .ok (st.zmin, st.zmax)
  | some l => match limit min st.zmin l with
    | .error e => .error e
    | .ok a => match limit max st.zmax l with
      | .error e => .error e
      | .ok b => .ok (some a, some b)

/-- Both axes before the slice, l.866-934; `src` has the initial values, `g` the histories. -/
def axis (lg : ℚ → Option ℚ) (rlo : Bool) (ini : List Name) (src g : Grid) (n : Name) (log : Bool) :
    Except Err (List (Option ℚ) × List (Option (List (Option ℚ)))) :=
  if n ∈ ini then
    if rlo then (MesaStop.mapE (track lg log n) g.runs).map fun t => (src.runs.map fun r => scaled lg log (iniVal r n), t)
    else .ok (src.runs.map fun r => scaled lg log (iniVal r n), [])
  else .error .noField

/-- `update_values_to_plot`, l.773-864.  `src` is the grid of the initial and final values of the object, `g` is the grid it was
made for; they differ for the second grid.  `fl` gives the flag of a run: `flagVal` for the flag the plot was asked for, the text itself
for the four flags of `"all"` and for the second grid. -/
def update (lg : ℚ → Option ℚ) (p : Plot) (ini fin : List Name) (src g : Grid) (k : ZKind) (flag : Name)
    (fl : Run → Name) (b3 b4 : ℚ × ℚ) (st : St) : Except Err (Shown × St) :=
  if flag ∈ fin then
    match axis lg p.rlo ini src g p.x p.xlog with
    | .error e => .error e
    | .ok (x, xt) => match axis lg p.rlo ini src g p.y p.ylog with
      | .error e => .error e
      | .ok (y, yt) => match colours lg p g k st with
        | .error e => .error e
        | .ok z => match cut p ini src b3 b4 with
          | .error e => .error e
          | .ok m => match maskIf m x with
            | .error e => .error e
            | .ok x => match maskIf m y with
              | .error e => .error e
              | .ok y => match maskZ m z with
                | .error e => .error e
                | .ok z => match (if p.rlo then maskIf m xt else .ok xt) with
                  | .error e => .error e
                  | .ok xt => match (if p.rlo then maskIf m yt else .ok yt) with
                    | .error e => .error e
                    | .ok yt => match maskIf m (src.runs.map fl) with
                      | .error e => .error e
                      | .ok f => match limits st z with
                        | .error e => .error e
                        | .ok (a, b) => .ok (⟨x, y, z, xt, yt, f⟩, ⟨z, a, b⟩)
  else .error .noField

/-- What `__init__` prepares, l.228-376: the names of both tables, the kind of colours, the flag (`none`: all four). -/
structure Ready where
  ini : List Name
  fin : List Name
  kind : ZKind
  flag : Option Name

/-- The check of an axis, l.260-276. -/
def axisOk (rlo : Bool) (ini bh : List Name) (n : Name) : Bool := if rlo then decide (n ∈ bh) else decide (n ∈ ini)

/-- `__init__`, l.228-376, up to the first values. -/
def ready (p : Plot) (g : Grid) (z : ZArg) (flag : Name) : Except Err Ready :=
  match iniNames g with
  | .error e => .error e
  | .ok ini => match finNames g flag with
    | .error e => .error e
    | .ok fin =>
      let bh := firstNames (·.bh) g.runs
      if axisOk p.rlo ini bh p.x = false then .error .badX
      else if axisOk p.rlo ini bh p.y = false then .error .badY
      else match choose p.rlo p.star2 g ini fin (firstNames (·.h1) g.runs) (firstNames (·.h2) g.runs) bh z with
        | .error e => .error e
        | .ok k => match flagOf flag with
          | .error e => .error e
          | .ok f => .ok ⟨ini, fin, k, f⟩

/-- The state after `__init__` before the first values. -/
def start (k : ZKind) (zmin zmax : Option ℚ) : St :=
  match k with
  | .array l => ⟨some l, zmin, zmax⟩
  | _ => ⟨none, zmin, zmax⟩

/-- The values of several panels one after the other, the slices being given (`__call__` l.408-429, `plot_panels` l.1295-1299). -/
def panels (upd : Name → ℚ × ℚ → ℚ × ℚ → St → Except Err (Shown × St)) : List (Name × (ℚ × ℚ) × (ℚ × ℚ)) → St → Except Err (List (Shown × St))
  | [], _ => .ok []
  | (f, b3, b4) :: l, st => match upd f b3 b4 st with
    | .error e => .error e
    | .ok (s, st) => (panels upd l st).map ((s, st) :: ·)

/-! ### Specification -/

/-- A run is in the slice, as a test. -/
def inSlice (p : Plot) (b3 b4 : ℚ × ℚ) (r : Run) : Bool :=
  (!p.grid3 || within (iniVal r p.var3) b3) && (!p.grid3 || !p.grid4 || within (iniVal r p.var4) b4)

/-- A run is in the slice. -/
def InSlice (p : Plot) (b3 b4 : ℚ × ℚ) (r : Run) : Prop :=
  (p.grid3 = true → ∃ v, iniVal r p.var3 = some v ∧ b3.1 ≤ v ∧ v ≤ b3.2) ∧
  (p.grid3 = true → p.grid4 = true → ∃ v, iniVal r p.var4 = some v ∧ b4.1 ≤ v ∧ v ≤ b4.2)

/-- The onset of overflow: the first row in which star 1 overflows (to 5%) and mass is transferred. -/
def IsOnset (h : Hist) (i : ℕ) : Prop :=
  ∃ r, h.rows[i]? = some r ∧ overflows r = true ∧ ∀ j r', j < i → h.rows[j]? = some r' → overflows r' = false

/-! ### Auxiliary results -/

theorem within_iff (v : Option ℚ) (b : ℚ × ℚ) : within v b = true ↔ ∃ x, v = some x ∧ b.1 ≤ x ∧ x ≤ b.2 := by
  cases v with
  | none => simp [within]
  | some x => simp [within]

theorem inSlice_iff (p : Plot) (b3 b4 : ℚ × ℚ) (r : Run) : inSlice p b3 b4 r = true ↔ InSlice p b3 b4 r := by
  unfold inSlice InSlice
  rw [← within_iff, ← within_iff]
  cases p.grid3 <;> cases p.grid4 <;> simp

theorem mask_map {A B : Type} (l : List A) (q : A → Bool) (f : A → B) : mask (l.map q) (l.map f) = .ok ((l.filter q).map f) := by
  unfold mask
  rw [if_pos (by simp)]
  congr 1
  induction l with
  | nil => rfl
  | cons a l ih =>
    simp only [List.map_cons, List.zip_cons_cons, List.filter_cons]
    by_cases h : q a = true
    · rw [if_pos (by simpa using h), if_pos h, List.map_cons, List.map_cons, ih]
    · rw [if_neg (by simpa using h), if_neg h, ih]

theorem mask_rel {A B : Type} {R : A → B → Prop} {l : List A} {m : List B} (h : List.Forall₂ R l m) (q : A → Bool) :
    ∃ m', mask (l.map q) m = .ok m' ∧ List.Forall₂ R (l.filter q) m' := by
  unfold mask
  rw [if_pos (by simpa using h.length_eq)]
  refine ⟨_, rfl, ?_⟩
  induction h with
  | nil => exact .nil
  | @cons a b l m hab _ ih =>
    simp only [List.map_cons, List.zip_cons_cons, List.filter_cons]
    by_cases h : q a = true
    · rw [if_pos (by simpa using h), if_pos h, List.map_cons]; exact .cons hab ih
    · rw [if_neg (by simpa using h), if_neg h]; exact ih

theorem mapE_rel {A B E : Type} {f : A → Except E B} {l : List A} {m : List B} (h : MesaStop.mapE f l = .ok m) :
    List.Forall₂ (fun a b => f a = .ok b) l m := by
  induction l generalizing m with
  | nil => cases h; exact .nil
  | cons a l ih =>
    unfold MesaStop.mapE at h
    cases ha : f a with
    | error e => rw [ha] at h; cases hl : MesaStop.mapE f l <;> rw [hl] at h <;> cases h
    | ok b =>
      rw [ha] at h
      cases hl : MesaStop.mapE f l with
      | error e => rw [hl] at h; cases h
      | ok n => rw [hl] at h; cases h; exact .cons ha (ih hl)

/-- The mask selects the runs of the slice. -/
theorem cut_spec {p : Plot} {ini : List Name} {g : Grid} {b3 b4 : ℚ × ℚ} {m : Option (List Bool)} (h : cut p ini g b3 b4 = .ok m) :
    (m = none ∧ g.runs.filter (inSlice p b3 b4) = g.runs) ∨ m = some (g.runs.map (inSlice p b3 b4)) := by
  unfold cut at h
  by_cases h1 : p.grid4 = true ∧ p.grid3 = true
  · rw [if_pos h1] at h
    split at h
    · cases h
      right; congr 1
      apply List.map_congr_left
      intro r _
      simp [inSlice, h1.1, h1.2, Bool.and_comm]
    · cases h
  · rw [if_neg h1] at h
    by_cases h2 : p.grid4 = false ∧ p.grid3 = true
    · rw [if_pos h2] at h
      split at h
      · cases h
        right; congr 1
        apply List.map_congr_left
        intro r _
        simp [inSlice, h2.1, h2.2]
      · cases h
    · rw [if_neg h2] at h
      cases h
      left
      refine ⟨rfl, List.filter_eq_self.2 fun r _ => ?_⟩
      have h3 : p.grid3 = false := by
        cases h4 : p.grid4 <;> cases h3 : p.grid3 <;> simp_all
      simp [inSlice, h3]

theorem maskIf_map {A : Type} {p : Plot} {ini : List Name} {g : Grid} {b3 b4 : ℚ × ℚ} {m : Option (List Bool)}
    (h : cut p ini g b3 b4 = .ok m) (f : Run → A) : maskIf m (g.runs.map f) = .ok ((g.runs.filter (inSlice p b3 b4)).map f) := by
  rcases cut_spec h with ⟨rfl, h'⟩ | rfl
  · rw [h']; rfl
  · exact mask_map ..

theorem maskIf_rel {A : Type} {R : Run → A → Prop} {p : Plot} {ini : List Name} {g : Grid} {b3 b4 : ℚ × ℚ} {m : Option (List Bool)}
    (h : cut p ini g b3 b4 = .ok m) {l : List A} (hl : List.Forall₂ R g.runs l) :
    ∃ l', maskIf m l = .ok l' ∧ List.Forall₂ R (g.runs.filter (inSlice p b3 b4)) l' := by
  rcases cut_spec h with ⟨rfl, h'⟩ | rfl
  · rw [h']; exact ⟨l, rfl, hl⟩
  · exact mask_rel hl _

/-- What an update that succeeds has computed. -/
theorem update_ok {lg : ℚ → Option ℚ} {p : Plot} {ini fin : List Name} {src g : Grid} {k : ZKind} {flag : Name} {fl : Run → Name}
    {b3 b4 : ℚ × ℚ} {st st' : St} {s : Shown} (h : update lg p ini fin src g k flag fl b3 b4 st = .ok (s, st')) :
    flag ∈ fin ∧ ∃ x xt y yt z m a b, axis lg p.rlo ini src g p.x p.xlog = .ok (x, xt) ∧ axis lg p.rlo ini src g p.y p.ylog = .ok (y, yt) ∧
      colours lg p g k st = .ok z ∧ cut p ini src b3 b4 = .ok m ∧ maskIf m x = .ok s.x ∧ maskIf m y = .ok s.y ∧ maskZ m z = .ok s.z ∧
      (if p.rlo then maskIf m xt else .ok xt) = .ok s.xt ∧ (if p.rlo then maskIf m yt else .ok yt) = .ok s.yt ∧
      maskIf m (src.runs.map fl) = .ok s.flag ∧ limits st s.z = .ok (a, b) ∧ st' = ⟨s.z, a, b⟩ := by
  unfold update at h
  by_cases hf : flag ∈ fin
  · rw [if_pos hf] at h
    refine ⟨hf, ?_⟩
    cases h1 : axis lg p.rlo ini src g p.x p.xlog with
    | error e => rw [h1] at h; cases h
    | ok X =>
    obtain ⟨x, xt⟩ := X
    rw [h1] at h; dsimp only at h
    cases h2 : axis lg p.rlo ini src g p.y p.ylog with
    | error e => rw [h2] at h; cases h
    | ok Y =>
    obtain ⟨y, yt⟩ := Y
    rw [h2] at h; dsimp only at h
    cases h3 : colours lg p g k st with
    | error e => rw [h3] at h; cases h
    | ok z =>
    rw [h3] at h; dsimp only at h
    cases h4 : cut p ini src b3 b4 with
    | error e => rw [h4] at h; cases h
    | ok m =>
    rw [h4] at h; dsimp only at h
    cases h5 : maskIf m x with
    | error e => rw [h5] at h; cases h
    | ok x' =>
    rw [h5] at h; dsimp only at h
    cases h6 : maskIf m y with
    | error e => rw [h6] at h; cases h
    | ok y' =>
    rw [h6] at h; dsimp only at h
    cases h7 : maskZ m z with
    | error e => rw [h7] at h; cases h
    | ok z' =>
    rw [h7] at h; dsimp only at h
    cases h8 : (if p.rlo then maskIf m xt else .ok xt) with
    | error e => rw [h8] at h; cases h
    | ok xt' =>
    rw [h8] at h; dsimp only at h
    cases h9 : (if p.rlo then maskIf m yt else .ok yt) with
    | error e => rw [h9] at h; cases h
    | ok yt' =>
    rw [h9] at h; dsimp only at h
    cases h10 : maskIf m (src.runs.map fl) with
    | error e => rw [h10] at h; cases h
    | ok f =>
    rw [h10] at h; dsimp only at h
    cases h11 : limits st z' with
    | error e => rw [h11] at h; cases h
    | ok ab =>
    obtain ⟨a, b⟩ := ab
    rw [h11] at h; dsimp only at h
    cases h
    exact ⟨x, xt, y, yt, z, m, a, b, rfl, rfl, rfl, rfl, h5, h6, h7, h8, h9, h10, h11, rfl⟩
  · rw [if_neg hf] at h; cases h

end Verif.GridPlot
