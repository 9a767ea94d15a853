import Verif.Scale
import Mathlib.Data.List.Dedup
import Mathlib.Algebra.Order.Round
/-!
Model of the initial-final interpolation, `/repo/posydon/interpolation/IF_interpolation.py`: `IFInterpolator.__init__` and
`evaluate` (l.213-284), `BaseIFInterpolator.__init__` as far as classes and scalings are concerned (l.418-547), `_binary2array`
(l.610-628), `_setValid` (l.630-652), `train_interpolator` and `test_interpolator` (l.654-712), `evaluate_mat` (l.815-844), the
candidates of `_bestScaling` (l.955-970), `_fillNans` (l.1038-1057), `NNInterpolator`, `LinInterpolator` (l.1113-1208),
`MC_Interpolator` (l.1211-1296), the choice of neighbours in `xtrain` (l.1433-1470), `Scaler` and `MatrixScaler` (l.1474-1570) and
`xval_indices` (l.1576-1610).

Simplification: floats are real numbers, `none` is NaN. The piecewise linear interpolation of SciPy is a parameter (`none` outside
the hull), and so are the classifiers and the sanitization. The order of the classes does not matter and is that of the grid.
Normalised rows with an entry that is not finite are `none`.
-/
namespace Verif.IFInterp

noncomputable section
open Classical

open Verif.Scale (Scaler Method)

abbrev Cls := String
abbrev Vec := List ℝ

inductive Err
  | value | attribute | index | key | assertion | runtime
  deriving DecidableEq

/-! ### Which tracks are used -/

/-- l.430-435 -/
def validClasses (ic : List Cls) : List Cls :=
  ic.dedup.filter fun c => c ∉ ["not_converged", "ignored_no_BH", "ignored_no_RLO", "initial_MT"]

/-- One entry of `_setValid`, l.632-650, for the valid classes. -/
def label (classes : List Cls) (inQ : Bool) (c : Cls) (x : List (Option ℝ)) : ℤ :=
  let v : ℤ := 0
  let v := if c ∈ ["not_converged", "ignored_no_RLO", "ignored_no_binary_history"] then -1 else v
  let v := if none ∈ x then -1 else v
  let v := if c ∈ classes then ((classes.idxOf c : ℕ) : ℤ) + 1 else v
  if inQ = true ∧ x[1]? = some (some 1) then -1 else v

/-! ### Scaling -/

/-- Column `i` of a matrix. -/
def col (i : ℕ) (rows : List Vec) : List ℝ := rows.map fun r => r.getD i 0

/-- `MatrixScaler.__init__`, l.1549-1552. -/
def fitCols : List Method → ℕ → List Vec → Except Err (List Scaler)
  | [], _, _ => .ok []
  | m :: ms, i, rows =>
    match Scale.fit Scaler.new (col i rows) m (-1) 1 with
    | (_, some _) => .error .value
    | (s, none) =>
      match fitCols ms (i + 1) rows with
      | .error e => .error e
      | .ok ss => .ok (s :: ss)

/-- `MatrixScaler.__init__`, l.1541-1552, for a matrix with `n` columns. -/
def fitM (n : ℕ) (norms : List Method) (rows : List Vec) : Except Err (List Scaler) :=
  if norms.length ≠ n then .error .value else fitCols norms 0 rows

/-- Apply a function of each scaler to each column of a row. -/
def app (f : Scaler → ℝ → Except Scale.Err (Option ℝ)) : List Scaler → Vec → Option Vec
  | [], [] => some []
  | s :: ss, x :: xs =>
    match f s x with
    | .ok (some z) => (app f ss xs).map (z :: ·)
    | _ => none
  | _, _ => none

/-- `normalize` and `denormalize` of a row, l.1554-1570. -/
def normM (ss : List Scaler) (x : Vec) : Option Vec := app Scale.transform ss x
def denormM (ss : List Scaler) (x : Vec) : Option Vec := app Scale.inv ss x

/-- `XT[np.where(ic == klass)[0]]`, l.1486. -/
def pick (rows : List Vec) (ic : List Cls) (c : Cls) : List Vec :=
  (ic.zipIdx.filter fun p => p.1 = c).filterMap fun p => rows[p.2]?

/-- What is handed over as norms: twice the same list; for each class a list, and a list for all; a plain list of strings. -/
inductive Norms
  | same (m : List Method)
  | per (d : List (Cls × List Method)) (m : List Method)
  | plain (l : List String)

/-- The method named by a letter: there is none. -/
def ofLetter (_ : Char) : Method := .other

/-- The scalers for each class, l.1485-1486. -/
def fitPer (n : ℕ) (rows : List Vec) (ic : List Cls) : List (Cls × List Method) → Except Err (List (Option Cls × List Scaler))
  | [] => .ok []
  | (c, m) :: d =>
    match fitM n m (pick rows ic c) with
    | .error e => .error e
    | .ok s =>
      match fitPer n rows ic d with
      | .error e => .error e
      | .ok r => .ok ((some c, s) :: r)

/-- `Scaler.__init__`, l.1476-1488. -/
def fitScaler (n : ℕ) (norms : Norms) (rows : List Vec) (ic : List Cls) : Except Err (List (Option Cls × List Scaler)) :=
  match norms with
  | .same m =>
    match fitM n m rows with
    | .error e => .error e
    | .ok s => .ok [(none, s)]
  | .per d m =>
    match fitPer n rows ic d with
    | .error e => .error e
    | .ok r =>
      match fitM n m rows with
      | .error e => .error e
      | .ok s => .ok (r ++ [(none, s)])
  | .plain l =>
    match l with
    | a :: b :: _ =>
      if a = b then
        match fitM n (a.toList.map ofLetter) rows with
        | .error e => .error e
        | .ok s => .ok [(none, s)]
      else .error .attribute
    | _ => .error .index

/-- The scalers of the inputs, l.533-535: rows with label at least 0, classes with label above 0. -/
def xScaler (n : ℕ) (norms : Norms) (rows : List (ℤ × Vec × Cls)) : Except Err (List (Option Cls × List Scaler)) :=
  fitScaler n norms ((rows.filter fun r => r.1 ≥ 0).map fun r => r.2.1) ((rows.filter fun r => r.1 > 0).map fun r => r.2.2)

/-- The scalers of the outputs, l.536-538: rows and classes with label above 0. -/
def yScaler (n : ℕ) (norms : Norms) (rows : List (ℤ × Vec × Cls)) : Except Err (List (Option Cls × List Scaler)) :=
  fitScaler n norms ((rows.filter fun r => r.1 > 0).map fun r => r.2.1) ((rows.filter fun r => r.1 > 0).map fun r => r.2.2)

/-- The scalers for a class, l.1503-1510. -/
def scalerOf (s : List (Option Cls × List Scaler)) (c : Cls) : Option (List Scaler) :=
  (s.find? fun p => p.1 = if c = "None" then none else some c).map (·.2)

/-- `normalize` of a row of a class, l.1501-1510: skipped if the class has no scalers. -/
def normRow (s : List (Option Cls × List Scaler)) (c : Cls) (x : Vec) : Option Vec :=
  match scalerOf s c with
  | none => some x
  | some ss => normM ss x

def denormRow (s : List (Option Cls × List Scaler)) (c : Cls) (x : Vec) : Option Vec :=
  match scalerOf s c with
  | none => some x
  | some ss => denormM ss x

/-- The two candidates for the scaling of an output, l.960-970, for the values of the column. -/
def candidates (a : ℝ) (l : List ℝ) : Method × Method :=
  if Scale.minL a l = Scale.maxL a l then (.none, .none)
  else if Scale.maxL a l < 0 then (.minMax, .negLogMinMax)
  else if Scale.minL a l ≤ 0 then (.minMax, .minMax)
  else (.minMax, .logMinMax)

/-! ### Interpolators -/

def dist2 (a b : Vec) : ℝ := (List.zipWith (fun x y => (x - y) ^ 2) a b).sum

/-- The nearest of the data, l.1128-1129 and 1167: the first if several are equally near. -/
def nearest : List (Vec × Vec) → Vec → Option (ℝ × Vec)
  | [], _ => none
  | (q, v) :: l, p =>
    match nearest l p with
    | none => some (dist2 q p, v)
    | some (d, w) => if dist2 q p ≤ d then some (dist2 q p, v) else some (d, w)

inductive How
  | linear | nn
  deriving DecidableEq

/-- `predict` of `NNInterpolator` (l.1147-1148) and `LinInterpolator` (l.1187-1208) for several points: outside the hull a warning
is composed with the scaler, which may be missing. -/
def predict (hull : List (Vec × Vec) → Vec → Option Vec) (how : How) (hasScaler : Bool) (data : List (Vec × Vec)) (ps : List Vec) :
    Except Err (List (Option Vec)) :=
  match how with
  | .nn => .ok (ps.map fun p => (nearest data p).map (·.2))
  | .linear =>
    if ps.all fun p => (hull data p).isSome then .ok (ps.map fun p => hull data p)
    else if hasScaler then .ok (ps.map fun p => (hull data p).or ((nearest data p).map (·.2)))
    else .error .attribute

/-- A group of classes with its method. -/
structure Group where
  classes : List Cls
  how : How

/-- A track for training: normalised inputs, normalised outputs, class. -/
structure Track where
  x : Vec
  y : Vec
  c : Cls

/-- The data of a group, l.1263-1267. -/
def groupData (g : Group) (ts : List Track) : List (Vec × Vec) := (ts.filter fun t => t.c ∈ g.classes).map fun t => (t.x, t.y)

/-- `MC_Interpolator.predict`, l.1289-1296, for one point: the last group with the class decides; without one there is NaN. -/
def predictMC (hull : List (Vec × Vec) → Vec → Option Vec) (gs : List Group) (ts : List Track) (z : Cls) (p : Vec) : Option Vec :=
  match (gs.filter fun g => z ∈ g.classes).getLast? with
  | none => none
  | some g =>
    match g.how with
    | .nn => (nearest (groupData g ts) p).map (·.2)
    | .linear => (hull (groupData g ts) p).or ((nearest (groupData g ts) p).map (·.2))

/-- `test_interpolator` with classes, l.695-712, for one point, before the sanitization. -/
def testMC (hull : List (Vec × Vec) → Vec → Option Vec) (gs : List Group) (ts : List Track) (xs ys : List (Option Cls × List Scaler))
    (z : Cls) (x : Vec) : Option Vec :=
  (normRow xs z x).bind fun xn => (predictMC hull gs ts z xn).bind fun yn => denormRow ys z yn

/-- Training and `test_interpolator` with a single method, l.664-674 and 701-712: the classes are used for scaling back only. -/
def testOne (hull : List (Vec × Vec) → Vec → Option Vec) (how : How) (data : List (Vec × Vec)) (xs ys : List (Option Cls × List Scaler))
    (z : Cls) (x : Vec) : Except Err (Option Vec) :=
  match normRow xs "None" x with
  | none => .ok none
  | some xn =>
    match predict hull how false data [xn] with
    | .error e => .error e
    | .ok r => .ok ((r.head?.join).bind fun yn => denormRow ys z yn)

/-- `KNNClassifier.predict`, l.1394-1396 and 1415, weights by distance: points at distance zero outvote all others. The vote itself is
a parameter. -/
def knn (vote : List (ℝ × Cls) → Cls) (k : ℕ) (data : List (Vec × Cls)) (p : Vec) : Cls :=
  let near := ((data.map fun d => (dist2 d.1 p, d.2)).mergeSort fun a b => decide (a.1 ≤ b.1)).take k
  let zero := near.filter fun d => d.1 = 0
  if zero.isEmpty then vote near else vote zero

/-- The tracks for training, l.664-667. -/
def train (xs ys : List (Option Cls × List Scaler)) : List (Vec × Vec × Cls) → Option (List Track)
  | [] => some []
  | (x, y, c) :: l =>
    match normRow xs c x, normRow ys c y, train xs ys l with
    | some xn, some yn, some ts => some (⟨xn, yn, c⟩ :: ts)
    | _, _, _ => none

/-- `evaluate_mat`, l.838-842, for one point: the numbers (`none` is NaN), given what the interpolator says. `k1` tells that the
classes are found with one neighbour, `n1` that numbers are. -/
def evaluate (k1 n1 : Bool) (z : Cls) (y : List (Option ℝ)) : List (Option ℝ) :=
  let y := if k1 = false ∧ z = "initial_MT" then y.map fun _ => none else y
  if n1 then y.map fun v => if v = some (-100) then none else v else y

/-- `_binary2array`, l.623-626: inputs of a binary. -/
def binaryArray (inQ : Bool) (m1 m2 p : ℝ) : Vec := [m1, if inQ then m2 / m1 else m2, p]

/-- `_grid2array`, l.598-606, for one track: the initial values named by the keys. -/
inductive Key
  | m1 | m2 | p
  deriving DecidableEq

def gridArray (inQ : Bool) (keys : List Key) (m1 m2 p : ℝ) : Vec := keys.map fun k =>
  match k with
  | .m1 => m1
  | .m2 => if inQ then m2 / m1 else m2
  | .p => p

/-! ### Missing values -/

/-- `_fillNans` for a column, l.1041-1057; rows are label, normalised inputs, value. -/
def fillCol (rows : List (ℤ × Vec × Option ℝ)) : List (Option ℝ) × Bool :=
  let known := rows.filterMap fun r => if r.1 > 0 then r.2.2.map fun v => (r.2.1, [v]) else none
  if rows.any fun r => decide (r.1 > 0) && r.2.2.isNone then
    if known.isEmpty then (rows.map fun r => if r.1 > 0 ∧ r.2.2 = none then some 0 else r.2.2, true)
    else (rows.map fun r => if r.1 > 0 ∧ r.2.2 = none then (nearest known r.2.1).bind fun d => d.2.head? else r.2.2, false)
  else (rows.map fun r => r.2.2, false)

/-! ### Several interpolators -/

/-- `IFInterpolator.__init__`, l.228-247: the keys of each interpolator, `none` if not given. -/
def checkGo (many : Bool) : List (Option (List String)) → List String → Option Err
  | [], _ => none
  | none :: l, seen => if many then some .value else checkGo many l seen
  | some ks :: l, seen =>
    match ks.foldl (fun (a : Option (List String)) k => a.bind fun s => if k ∈ s then none else some (s ++ [k])) (some seen) with
    | none => some .value
    | some s => checkGo many l s

def check (ps : List (Option (List String))) : Option Err := checkGo (decide (ps.length > 1)) ps []

/-- `{**a, **b}` for functions. -/
def merge {α : Type} (a b : String → Option α) : String → Option α := fun k => (b k).or (a k)

/-- `evaluate`, l.275-282. -/
def evaluateAll {α : Type} (rs : List (String → Option α)) : String → Option α := rs.foldl merge fun _ => none

/-! ### Cross-validation -/

/-- `xval_indices` without labels, l.1594-1597; `perm` is the permutation drawn. -/
def folds (n : ℕ) (p : ℚ) (perm : List ℕ) : List ℕ × List ℕ :=
  let k := (round ((n : ℚ) * (1 - p))).toNat
  (perm.take k, perm.drop k)

/-- With labels, l.1599-1608, before shuffling; `us` are the distinct labels. -/
def strat (p : ℚ) (labels : List Cls) : List Cls → List ℕ × List ℕ
  | [] => ([], [])
  | u :: us =>
    let ind := (labels.zipIdx.filter fun q => q.1 = u).map (·.2)
    let k := (round ((ind.length : ℚ) * (1 - p))).toNat
    let r := strat p labels us
    (ind.take k ++ r.1, ind.drop k ++ r.2)

/-- The two parts are shuffled afterwards, l.1608: `s` and `t` are the shufflings drawn. -/
def xval (p : ℚ) (labels : List Cls) (us : List Cls) (s t : List ℕ → List ℕ) : List ℕ × List ℕ :=
  (s (strat p labels us).1, t (strat p labels us).2)

/-- Number of neighbours, l.1448-1470: `best` is the position of the largest accuracy among 20. -/
def neighbours (nClasses best : ℕ) : ℕ := if nClasses > 5 then 2 else if best + 1 < 3 then 3 else best + 1

/-! ### Construction -/

/-- `BaseIFInterpolator.__init__`, l.431 and 451-458, with or without a grid and a file: the classes of the grid come first. -/
def construct (grid file : Bool) : Except Err String :=
  if grid = false then .error .attribute
  else if file then .ok "loaded"
  else if grid = false then .error .runtime
  else .ok "trained"

/-! ### Specification -/

/-- Every column is scaled with one of the candidates for its values. -/
def Chosen : List Method → ℕ → List Vec → Prop
  | [], _, _ => True
  | m :: ms, i, rows =>
    (∃ a l, col i rows = a :: l ∧ (m = (candidates a l).1 ∨ m = (candidates a l).2)) ∧ Chosen ms (i + 1) rows

/-- The keys are all given, or there is one interpolator only. -/
def Given (ps : List (Option (List String))) : Prop := ps.length ≤ 1 ∨ none ∉ ps

end

end Verif.IFInterp
