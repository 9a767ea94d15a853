import Verif.Chars
import Mathlib.Algebra.Order.Field.Rat
import Mathlib.Algebra.BigOperators.Group.List.Basic
import Mathlib.Data.List.Basic
import Mathlib.Data.List.Nodup
import Mathlib.Data.List.Sort
import Mathlib.Tactic.Common

/-!
# Classifiers of the active learning

Model of `posydon/active_learning/psy_cris/classify.py`: names (l.24-33, `get_classifier_name_to_key` l.348-370), training
(`train` l.91-146, `fit_*` l.148-346), probabilities (`__remove_nans` l.372-388, `return_probs` l.390-482),
predictions (l.484-523), cross validation (`get_cross_val_data` l.525-578, `cross_validate` l.580-667,
`make_cv_plot_data` l.669-743).

Simplifications.  Floats are rationals, NaN is `none`.  What a fit gives and what the fitted functions return are
parameters, and a fit may raise.  The fitted functions of all classes of one algorithm are one object.  Texts are ASCII.
Times, printed output and files are left out.  Random numbers are lists.
-/

namespace Verif.Classify

abbrev Name := List Char

/-- The algorithms with their keys. -/
inductive Algo where
  | linear
  | rbf
  | gp
deriving DecidableEq

/-- The text of a key (l.362-366). -/
def Algo.text : Algo → Name
  | .linear => (chars! "LinearNDInterpolator")
  | .rbf => (chars! "RBF")
  | .gp => (chars! "GaussianProcessClassifier")

/-- The accepted names (l.24-33). -/
def names : Algo → List Name
  | .linear => [(chars! "linear"), (chars! "lin"), (chars! "linearndinterpolator"),
      (chars! "linear nd interpolator")]
  | .rbf => [(chars! "rbf"), (chars! "radialbasisfunction"), (chars! "radial basis function")]
  | .gp => [(chars! "gp"), (chars! "gpc"), (chars! "gaussianprocessclassifier")]

/-- `str.lower` -/
def lower (s : Name) : Name := s.map Char.toLower

/-- `get_classifier_name_to_key` (l.348-370) -/
def key (s : Name) : Option Algo :=
  if lower s ∈ names .linear then some .linear
  else if lower s ∈ names .rbf then some .rbf
  else if lower s ∈ names .gp then some .gp
  else none

inductive Err where
  | type
  | attribute
  | index
  | untrained
  | fit
deriving DecidableEq

/-- What is stored in a classifier: the fitted functions, those of the cross validation, and the switch between them
(l.70-73). -/
structure St (F : Type) where
  main : Algo → Option F
  cv : Algo → Option F
  flag : Bool

/-- One stored entry is replaced. -/
def put {F : Type} (m : Algo → Option F) (a : Algo) (f : F) : Algo → Option F :=
  fun b => if b = a then some f else m b

/-- `train` (l.91-146) on all points (`none`) or on those of an interval.  For an unknown name the key is `None`, and
`None in "RBF"` is a `TypeError`; for the name `None` there is no `lower`. -/
def train {F : Type} (fit : Algo → Option (List ℕ) → Except Err F) (st : St F)
    (s : Option Name) (di : Option (List ℕ)) : St F × Except Err Unit :=
  match s.map key with
  | none => (st, .error .attribute)
  | some none => (st, .error .type)
  | some (some a) =>
    match fit a di with
    | .error e => (st, .error e)
    | .ok f =>
      if st.flag then ({ st with cv := put st.cv a f }, .ok ())
      else ({ st with main := put st.main a f }, .ok ())

/-- Training for a list of names (l.87-88 and l.627-629). -/
def trainAll {F : Type} (fit : Algo → Option (List ℕ) → Except Err F) (di : Option (List ℕ)) :
    List (Option Name) → St F → St F × Except Err Unit
  | [], st => (st, .ok ())
  | s :: r, st =>
    match train fit st s di with
    | (st', .ok _) => trainAll fit di r st'
    | (st', .error e) => (st', .error e)

/-! ### Probabilities -/

/-- Values of a radial basis function are cut at 1 and 0 (l.442-447). -/
def clip (x : ℚ) : ℚ :=
  let y := if x > 1 then 1 else x
  if y < 0 then 0 else y

/-- The outputs of all classes at a point, for the algorithm. -/
def cleaned (a : Algo) (row : List (Option ℚ)) : List (Option ℚ) :=
  match a with
  | .rbf => row.map (·.map clip)
  | _ => row

/-- A sum with NaN. -/
def total (row : List (Option ℚ)) : Option ℚ :=
  row.foldr (fun x acc => match x, acc with | some a, some b => some (a + b) | _, _ => none) (some 0)

/-- Division by the sum over classes (l.476-478); division by zero gives NaN here (or infinity, which does not occur for the
non-negative outputs of the algorithms). -/
def normal (row : List (Option ℚ)) : List (Option ℚ) :=
  match total row with
  | none => row.map fun _ => none
  | some t => row.map fun x => x.bind fun p => if t = 0 then none else some (p / t)

/-- The points with a value for the first class (l.379-385), with their places. -/
def defined (rows : List (List (Option ℚ))) : List (List (Option ℚ) × ℕ) :=
  rows.zipIdx.filter fun x => (x.1.head?.getD none).isSome

/-- The end of `return_probs` (l.470-482): normalised rows and where they belong; a single row with a 0 if there are none. -/
def probs (a : Algo) (outs : List (List (Option ℚ))) : List (List (Option ℚ)) × List ℕ :=
  let d := defined (outs.map (cleaned a))
  (if d = [] then [[some 0]] else d.map fun x => normal x.1, d.map (·.2))

/-- `return_probs` (l.390-482) for points whose outputs for all classes are `eval`. -/
def returnProbs {F X : Type} (eval : F → X → List (Option ℚ)) (st : St F) (s : Name)
    (pts : List X) : Except Err (List (List (Option ℚ)) × List ℕ) :=
  if [Algo.linear, .rbf, .gp].all fun a => (st.main a).isNone && (st.cv a).isNone then
    .error .untrained
  else
    match (key s).bind fun a => ((if st.flag then st.cv else st.main) a).map fun f => (a, f) with
    | none => .error .index
    | some (a, f) => .ok (probs a (pts.map (eval f)))

/-- The place of the first largest number of a list. -/
def argmaxQ : List ℚ → ℕ
  | [] => 0
  | [_] => 0
  | x :: y :: r => if ∀ z ∈ y :: r, z ≤ x then 0 else argmaxQ (y :: r) + 1

/-- `np.argmax` of a row: the place of the first NaN, or else of the first largest entry. -/
def argmax (row : List (Option ℚ)) : ℕ :=
  if none ∈ row then row.idxOf none else argmaxQ (row.filterMap id)

/-- `get_class_predictions` (l.514-520): numbers of the predicted classes, and where they belong. -/
def predictions (p : List (List (Option ℚ)) × List ℕ) : List ℕ × List ℕ := (p.1.map argmax, p.2)

/-! ### Cross validation -/

/-- Drawing different integers until there are enough or the draws end (l.549-555). -/
def pick (num : ℕ) : List ℕ → List ℕ → List ℕ
  | [], acc => acc
  | d :: ds, acc =>
    if acc.length < num then pick num ds (if d ∈ acc then acc else acc ++ [d]) else acc

/-- `get_cross_val_data` (l.542-570) for `n` points: places for training (sorted) and for tests. -/
def split (n num : ℕ) (draws : List ℕ) : List ℕ × List ℕ :=
  let t := (pick num draws []).insertionSort (· ≤ ·)
  (t, (List.range n).filter fun i => i ∉ t)

/-- Percentage of right predictions among those given (l.644-652); comparing lists of different lengths, of which one has
length 1, repeats its value. `none` is NaN. -/
def percent (truth : List ℕ) (p : List ℕ × List ℕ) : Option ℚ :=
  let right := ((p.1.zip (p.2.map fun i => truth.getD i 0)).filter fun x => x.1 = x.2).length
  if p.2.length = 0 then none else some (right / p.2.length * 100)

/-- The predictions for all names (l.635-646). -/
def judge {F X : Type} (eval : F → X → List (Option ℚ)) (st : St F) (truth : List ℕ)
    (pts : List X) : List (Option Name) → Except Err (List (Option ℚ))
  | [] => .ok []
  | none :: _ => .error .attribute
  | some s :: r =>
    match returnProbs eval st s pts with
    | .error e => .error e
    | .ok p =>
      match judge eval st truth pts r with
      | .error e => .error e
      | .ok l => .ok (percent truth (predictions p) :: l)

/-- `cross_validate` (l.580-667): the switch is set at the beginning and unset at the end.  Names are first turned into keys
(l.613-615), unknown ones into `None`. -/
def crossValidate {F X : Type} (fit : Algo → Option (List ℕ) → Except Err F)
    (eval : F → X → List (Option ℚ)) (st : St F) (ss : List Name) (sp : List ℕ × List ℕ)
    (pts : List X) (truth : List ℕ) : St F × Except Err (List (Option ℚ)) :=
  let st1 := { st with flag := true }
  match trainAll fit (some sp.1) (ss.map fun s => (key s).map Algo.text) st1 with
  | (st2, .error e) => (st2, .error e)
  | (st2, .ok _) =>
    match judge eval st2 truth pts (ss.map fun s => (key s).map Algo.text) with
    | .error e => (st2, .error e)
    | .ok l => ({ st2 with flag := false }, .ok l)

/-- The loop of `make_cv_plot_data` (l.712-732): attempts that raise are not counted.  After as many attempts as the list is
long, the number of good ones. -/
def cvLoop (want : ℕ) : List Bool → ℕ → ℕ
  | [], good => good
  | o :: r, good => if good < want then cvLoop want r (if o then good + 1 else good) else good

end Verif.Classify
