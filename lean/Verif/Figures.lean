import Verif.InScale
import Verif.Jobs
import Mathlib.Analysis.SpecialFunctions.Pow.Real
/-!
# Figures of interpolators

Model of what is drawn by `posydon/interpolation/IF_interpolation.py`: the runs and the mesh of a slice (`plot_mc_classifier` l.1975-1987,
`plot_interpolation` l.2114-2120, `test_mesh` l.2062-2075), the numbers that stand for classes and their colours (l.1968-1973, 1985-1986, 2034-2037),
the percentages and labels of a confusion matrix (`plot_conf_matrix`, l.1906-1918), the errors (`plot_interp_error`, l.2180-2194) and the panels with the
errors of all quantities (l.2242-2255), the names of files
(l.1715-1723, 1748-1749), and `train_and_assess` (l.1637-1661).

Simplifications.  Numbers are real numbers; the logarithm of a number that is not positive is not modelled, theorems ask for positive values.  Predictions
are parameters.  Only what is drawn is modelled, and not how: sizes, legends, the interpolation of contours are left out.  A string array is a list of texts.
-/
namespace Verif.Figures

abbrev Text := List Char

inductive Err where
  | value
  | type
  | index
  | attr
  deriving DecidableEq, Repr

/-! ### Slices -/

/-- The inputs of a run: mass of the first star, mass (ratio) of the second, period. -/
structure Run where
  m1 : ℝ
  x2 : ℝ
  p : ℝ

/-- `np.min` and `np.max`. -/
noncomputable def least : List ℝ → Except Err ℝ
  | [] => .error .value
  | a :: l => .ok (l.foldl min a)

noncomputable def largest : List ℝ → Except Err ℝ
  | [] => .error .value
  | a :: l => .ok (l.foldl max a)

/-- `np.logspace`. -/
noncomputable def logspace (a b : ℝ) (n : ℕ) : List ℝ :=
  (List.range n).map fun (i : ℕ) => (10 : ℝ) ^ (a + i * ((b - a) / ((n : ℝ) - 1)))

/-- One axis of `test_mesh`, l.2064-2072. -/
noncomputable def axis (xs : List ℝ) (n : ℕ) : Except Err (List ℝ) :=
  match least xs, largest xs with
  | .ok lo, .ok hi =>
    let a := Real.logb 10 lo
    let b := Real.logb 10 hi
    let delta := (b - a) / 50
    let xmin := (10 : ℝ) ^ (a - delta)
    let xmax := (10 : ℝ) ^ (b + delta)
    .ok (logspace (Real.logb 10 xmin) (Real.logb 10 xmax) n)
  | .error e, _ => .error e
  | _, .error e => .error e

/-- `test_mesh`: `xx`, `yy` and `X`; `XT[0, 1]` of no runs is not reached, as the minimum already fails. -/
noncomputable def mesh (runs : List Run) (n : ℕ) : Except Err (List (List ℝ) × List (List ℝ) × List Run) :=
  match axis (runs.map (·.m1)) n, axis (runs.map (·.p)) n, runs with
  | .ok xs, .ok ys, r :: _ =>
    .ok (ys.map fun _ => xs, ys.map fun y => xs.map fun _ => y, (ys.map fun y => xs.map fun x => Run.mk x r.x2 y).flatten)
  | .ok _, .ok _, [] => .error .index
  | .error e, _, _ => .error e
  | _, .error e, _ => .error e

/-- The runs of a slice, l.1979 and 2117; `np.diff` of less than two values of the axis has no first entry. -/
noncomputable def slice (log : Bool) (runs : List Run) (v : ℝ) (ux : List ℝ) : Except Err (List Run) :=
  open Classical in
  match ux with
  | u0 :: u1 :: _ => .ok (runs.filter fun r => decide (InScale.inBall log r.x2 v u0 u1))
  | _ => .error .index

/-- The points at which a slice is drawn. -/
noncomputable def points (log : Bool) (runs : List Run) (v : ℝ) (ux : List ℝ) (n : ℕ) : Except Err (List (List ℝ) × List (List ℝ) × List Run) :=
  match slice log runs v ux with
  | .error e => .error e
  | .ok l => mesh l n

/-! ### Classes -/

/-- l.1985-1986: `zpred[zpred == c] = k` on texts. -/
def renumber : ℕ → List Text → List Text → List Text
  | _, [], z => z
  | k, c :: cs, z => renumber (k + 1) cs (z.map fun t => if t = c then Jobs.dec k else t)

/-- The colours of l.1969-1972. -/
def colours : List String :=
  ["tab:blue", "tab:orange", "tab:green", "tab:red", "tab:purple", "tab:brown", "tab:pink", "tab:olive", "tab:cyan", "tab:gray",
   "lime", "m", "aqua", "bisque", "salmon", "gold", "palegreen", "mistyrose", "yellow", "darkviolet"]

/-- The legend of the classes, l.2034-2037: `mycolors[j]` for each. -/
def legend (classes : List Text) : Except Err (List (String × Text)) :=
  if classes.length ≤ colours.length then .ok (colours.zip classes) else .error .index

/-- The labels of the axes of a confusion matrix, l.1918. -/
def short (lab : Text) : Text := if lab.length < 12 then lab else lab.take 11

/-- The numbers in a row of a confusion matrix, l.1907-1910. -/
noncomputable def percent (row : List ℝ) : List ℝ :=
  open Classical in
  let s := if row.sum = 0 then 1 else row.sum
  row.map fun c => 100 * c / s

/-! ### Errors -/

/-- The kinds of errors, l.2180. -/
def kinds : List Text := [(chars! "$e_d (e_a/range)$"), (chars! "$e_r$"), (chars! "$e_a$")]

/-- The error of one value, l.2187-2194; `range` is that of the exact values. -/
noncomputable def error (er : Text) (range gt y : ℝ) : ℝ :=
  let absdif := |gt - y|
  if er = (chars! "$e_a/range$") then absdif / range
  else if er = (chars! "$e_r$") then absdif / (|gt| + 10 ^ (-16 : ℤ))
  else absdif

/-- The file of the errors of a quantity, l.2238-2239. -/
def errorFile (ind : ℕ) (key er : Text) : Text := Jobs.dec ind ++ '_' :: key ++ '_' :: (er.drop 1).take 3 ++ (chars! ".png")

/-- The panels with all errors, l.2244-2255: `plt.subplots` refuses no rows and gives no array for one; the quantities of each panel. -/
def panels (order : List ℕ) : Except Err (List (List ℕ)) :=
  let nrows := order.length / 10
  if nrows = 0 then .error .value
  else if nrows = 1 then .error .type
  else .ok ((List.range nrows).map fun (i : ℕ) => (order.take (min ((i + 1) * 10) order.length)).drop (i * 10))

/-! ### Files -/

/-- The methods of a model: interpolation and classification. -/
structure Methods where
  interp : Text
  cls : Text
  deriving DecidableEq

/-- The file of the confusion matrix of a quantity, l.1748-1749. -/
def confFile (key : Text) (m : Methods) : Text := key ++ '_' :: m.cls ++ (chars! ".png")

/-- The parameters of a call by keyword that a function with these names accepts; others are a `TypeError`. -/
def accepts (names given : List Text) : Except Err Unit := if given.all (names.contains ·) then .ok () else .error .type

/-- The directories below the given one. -/
structure Dirs where
  objects : Bool
  plots : Bool
  classif : Bool
  interp : Bool
  deriving DecidableEq

/-- `train_and_assess`, l.1637-1661: the directories afterwards and the result. `loads` says that both grids can be loaded; `IFInterpolator.__init__`
(l.213) has the parameters `grid` and `interpolators` and is given `grid`, `interp_method`, `class_method`. -/
def trainAndAssess (d : Dirs) (loads : Bool) : Dirs × Except Err Unit :=
  let d1 := { d with objects := true }
  let d2 := if !d1.plots then { d1 with plots := true, classif := true, interp := true }
    else
      let e := if !d1.classif then { d1 with classif := true } else d1
      if !e.interp then { e with interp := true } else e
  if !loads then (d2, .error .value)
  else
    match accepts [(chars! "self"), (chars! "grid"), (chars! "interpolators")] [(chars! "grid"), (chars! "interp_method"), (chars! "class_method")] with
    | .error e => (d2, .error e)
    | .ok _ => (d2, .ok ())

/-- Writing one file after the other. -/
def written {V : Type} : List (Text × V) → Text → Option V
  | [], _ => none
  | (f, v) :: l, g =>
    match written l g with
    | some w => some w
    | none => if f = g then some v else none

/-! ### Helper lemmas -/

theorem foldl_min_spec (l : List ℝ) (a : ℝ) : l.foldl min a ≤ a ∧ (∀ x ∈ l, l.foldl min a ≤ x) ∧ (l.foldl min a = a ∨ l.foldl min a ∈ l) := by
  induction l generalizing a with
  | nil => simp
  | cons b l ih =>
    obtain ⟨h1, h2, h3⟩ := ih (min a b)
    refine ⟨h1.trans (min_le_left _ _), ?_, ?_⟩
    · intro x hx
      rcases List.mem_cons.mp hx with rfl | hx
      · exact h1.trans (min_le_right _ _)
      · exact h2 x hx
    · rcases h3 with h3 | h3
      · rcases min_choice a b with hm | hm
        · exact .inl (by rw [List.foldl_cons, h3, hm])
        · exact .inr (by rw [List.foldl_cons, h3, hm]; exact List.mem_cons_self)
      · exact .inr (List.mem_cons_of_mem _ h3)

theorem foldl_max_spec (l : List ℝ) (a : ℝ) : a ≤ l.foldl max a ∧ (∀ x ∈ l, x ≤ l.foldl max a) ∧ (l.foldl max a = a ∨ l.foldl max a ∈ l) := by
  induction l generalizing a with
  | nil => simp
  | cons b l ih =>
    obtain ⟨h1, h2, h3⟩ := ih (max a b)
    refine ⟨(le_max_left _ _).trans h1, ?_, ?_⟩
    · intro x hx
      rcases List.mem_cons.mp hx with rfl | hx
      · exact (le_max_right _ _).trans h1
      · exact h2 x hx
    · rcases h3 with h3 | h3
      · rcases max_choice a b with hm | hm
        · exact .inl (by rw [List.foldl_cons, h3, hm])
        · exact .inr (by rw [List.foldl_cons, h3, hm]; exact List.mem_cons_self)
      · exact .inr (List.mem_cons_of_mem _ h3)

theorem least_spec (l : List ℝ) (h : l ≠ []) : ∃ a, least l = .ok a ∧ a ∈ l ∧ ∀ x ∈ l, a ≤ x := by
  cases l with
  | nil => exact absurd rfl h
  | cons a l =>
    obtain ⟨h1, h2, h3⟩ := foldl_min_spec l a
    refine ⟨_, rfl, ?_, ?_⟩
    · rcases h3 with h3 | h3
      · rw [h3]; exact List.mem_cons_self
      · exact List.mem_cons_of_mem _ h3
    · intro x hx
      rcases List.mem_cons.mp hx with rfl | hx
      · exact h1
      · exact h2 x hx

theorem largest_spec (l : List ℝ) (h : l ≠ []) : ∃ a, largest l = .ok a ∧ a ∈ l ∧ ∀ x ∈ l, x ≤ a := by
  cases l with
  | nil => exact absurd rfl h
  | cons a l =>
    obtain ⟨h1, h2, h3⟩ := foldl_max_spec l a
    refine ⟨_, rfl, ?_, ?_⟩
    · rcases h3 with h3 | h3
      · rw [h3]; exact List.mem_cons_self
      · exact List.mem_cons_of_mem _ h3
    · intro x hx
      rcases List.mem_cons.mp hx with rfl | hx
      · exact h1
      · exact h2 x hx

theorem logspace_length (a b : ℝ) (n : ℕ) : (logspace a b n).length = n := by
  unfold logspace
  rw [List.length_map, List.length_range]

theorem axis_spec (xs : List ℝ) (n : ℕ) (h : xs ≠ []) :
    ∃ lo hi, lo ∈ xs ∧ hi ∈ xs ∧ (∀ x ∈ xs, lo ≤ x ∧ x ≤ hi) ∧
      axis xs n = .ok (logspace (Real.logb 10 lo - (Real.logb 10 hi - Real.logb 10 lo) / 50) (Real.logb 10 hi + (Real.logb 10 hi - Real.logb 10 lo) / 50) n) := by
  obtain ⟨lo, e1, m1, h1⟩ := least_spec xs h
  obtain ⟨hi, e2, m2, h2⟩ := largest_spec xs h
  refine ⟨lo, hi, m1, m2, fun x hx => ⟨h1 x hx, h2 x hx⟩, ?_⟩
  unfold axis
  rw [e1, e2]
  dsimp only
  rw [Real.logb_rpow (by norm_num) (by norm_num), Real.logb_rpow (by norm_num) (by norm_num)]

end Verif.Figures
