import Verif.Classify
import Verif.TableData
import Verif.Frame
import Mathlib.Algebra.Order.Field.Rat
import Mathlib.Data.Rat.Floor
import Mathlib.Tactic.Common

/-!
# Regressors of the active learning

Model of `posydon/active_learning/psy_cris/regress.py`: names (l.30-36, `get_regressor_name_to_key` l.602-613), training
(`train_everything` l.96-119, `train` l.121-216, `fit_*` l.265-503), predictions (`get_predictions` l.505-546, `_predict`
l.548-600), cross validation (`get_cross_val_data` l.626-691, `cross_validate` l.693-805, `mult_diffs` l.851-906) and
`get_max_APC_val` (l.807-849).  The cleaning of the data and `__init__` are in `Verif.TableData`.

Simplifications.  Floats are rationals, NaN is `none`.  What a fit gives and what the fitted functions return are
parameters; a fitted function gives one value per point.  `return_std` is false.  A standard deviation is given by its square.
Texts are ASCII.  Times, printed output and the history are left out.  Random numbers are lists of integers.  Two lists that
are joined to one array must have the same length, as in numpy since version 1.24.
-/

namespace Verif.Regress

open Verif.Classify (Algo lower split argmax)

abbrev Name := List Char
abbrev Vals := List (Option ℚ)

inductive Err where
  | key
  | type
  | attribute
  | index
  | value
  | unbound
  | untrained
  | fit
deriving DecidableEq

/-! ### Names -/

/-- The text of a key (l.605-609). -/
def text : Algo → Name
  | .linear => (chars! "LinearNDInterpolator")
  | .rbf => (chars! "RBF")
  | .gp => (chars! "GaussianProcessRegressor")

/-- The accepted names (l.30-36). -/
def names : Algo → List Name
  | .linear => [(chars! "linear"), (chars! "lin"), (chars! "linearndinterpolator"),
      (chars! "linear nd interpolator")]
  | .rbf => [(chars! "rbf"), (chars! "radialbasisfunction"), (chars! "radial basis function")]
  | .gp => [(chars! "gp"), (chars! "gpr"), (chars! "gaussianprocessregressor")]

/-- `get_regressor_name_to_key` (l.602-613) -/
def key (s : Name) : Option Algo :=
  if lower s ∈ names .linear then some .linear
  else if lower s ∈ names .rbf then some .rbf
  else if lower s ∈ names .gp then some .gp
  else none

/-! ### Training -/

/-- The outputs of a class (l.68): a table with its columns, or `np.nan`. -/
abbrev Out := Option (List (Name × Vals))

/-- The data by classes (l.63-86). -/
structure Data (X : Type) where
  inputs : List (Name × List X)
  outputs : List (Name × Out)
  undef : Option ℚ

/-- What the libraries make of training points: a `QhullError` is `none` for the linear interpolation. -/
structure Lib (X F : Type) where
  linear : List X → Vals → Except Err (Option F)
  rbf : List X → Vals → Except Err F
  gp : List X → Vals → Except Err F

/-- Indexing an array with the places of the training points (l.310-312); an array made of an empty list has no integers. -/
def sel {α : Type} (di : Option (List ℕ)) (l : List α) : Except Err (List α) :=
  match di with
  | none => .ok l
  | some [] => .error .index
  | some (i :: r) =>
    if ∀ j ∈ i :: r, j < l.length then .ok ((i :: r).filterMap fun j => l[j]?) else .error .index

/-- A column of a class (l.302, l.308): `np.nan` cannot be indexed. -/
def column {X : Type} (d : Data X) (c k : Name) : Except Err Vals :=
  match d.outputs.lookup c with
  | none => .error .key
  | some none => .error .type
  | some (some t) =>
    match t.lookup k with
    | none => .error .key
    | some v => .ok v

/-- The training points of a class and a column (l.306-316). -/
def points {X : Type} (d : Data X) (di : Option (List ℕ)) (c k : Name) : Except Err (List X × Vals) :=
  match d.outputs.lookup c, d.inputs.lookup c with
  | none, _ => .error .key
  | _, none => .error .key
  | _, some xs =>
    match sel di xs with
    | .error e => .error e
    | .ok xs =>
      match column d c k with
      | .error e => .error e
      | .ok ys =>
        match sel di ys with
        | .error e => .error e
        | .ok ys => .ok (TableData.clean d.undef xs ys)

/-- One fit, from its training points (l.324-332, l.393-411, l.478-497).  The dimension is taken from the first point. -/
def fitPoints {X F : Type} (lib : Lib X F) : Algo → List X × Vals → Except Err (Option F)
  | .linear, p => lib.linear p.1 p.2
  | .rbf, p =>
    if p.1.length = 0 then .error .index
    else if p.1.length ≤ 1 then .ok none
    else match lib.rbf p.1 p.2 with
      | .error e => .error e
      | .ok f => .ok (some f)
  | .gp, p =>
    if p.1.length = 0 then .error .index
    else match lib.gp p.1 p.2 with
      | .error e => .error e
      | .ok f => .ok (some f)

/-- One fit (l.304-332, l.379-411, l.458-497). -/
def fitOne {X F : Type} (lib : Lib X F) (d : Data X) (a : Algo) (di : Option (List ℕ)) (c k : Name) :
    Except Err (Option F) :=
  match points d di c k with
  | .error e => .error e
  | .ok p => fitPoints lib a p

/-- Fits for a list of pairs of a class and a column, in the order of the loops (l.298-333); the first error ends it. -/
def fitAll {X F : Type} (lib : Lib X F) (d : Data X) (a : Algo) (di : Option (List ℕ)) :
    List (Name × Name) → Except Err (List ((Name × Name) × Option F))
  | [] => .ok []
  | p :: r =>
    match fitOne lib d a di p.1 p.2 with
    | .error e => .error e
    | .ok f =>
      match fitAll lib d a di r with
      | .error e => .error e
      | .ok l => .ok ((p, f) :: l)

/-- The fitted functions by class and column; `none` where there is no entry, `some none` for an entry `None`. -/
abbrev Store (F : Type) := Algo → Name → Name → Option (Option F)

/-- What is stored in a regressor (l.88-94).  Reading a missing entry makes it, but only if some entry was stored before, so
that one mark is enough for the test of `_predict` (l.566). -/
structure St (F : Type) where
  main : Store F
  cv : Store F
  flag : Bool
  any : Bool

/-- One entry is replaced. -/
def put {F : Type} (m : Store F) (a : Algo) (p : (Name × Name) × Option F) : Store F :=
  fun b c k => if b = a ∧ c = p.1.1 ∧ k = p.1.2 then some p.2 else m b c k

/-- Storing of one fit (l.205-212). -/
def storeOne {F : Type} (a : Algo) (st : St F) (p : (Name × Name) × Option F) : St F :=
  if st.flag then { st with cv := put st.cv a p, any := true }
  else { st with main := put st.main a p, any := true }

/-- All pairs of a class and a column. -/
def pairs (cs ks : List Name) : List (Name × Name) := cs.flatMap fun c => ks.map fun k => (c, k)

/-- The columns to train (l.166-179): `none` if there are none because the first class has no data. -/
def trainCols {X : Type} (d : Data X) (cs : List Name) : Option (List Name) → Except Err (Option (List Name))
  | some ks => .ok (some ks)
  | none =>
    match cs with
    | [] => .error .index
    | c :: _ =>
      match d.outputs.lookup c with
      | none => .error .key
      | some none => .ok none
      | some (some t) => .ok (some (t.map (·.1)))

/-- `train` (l.164-216); the name `None` has no `lower`. -/
def train {X F : Type} (lib : Lib X F) (d : Data X) (st : St F) (s : Option Name) (cs : List Name)
    (ks : Option (List Name)) (di : Option (List ℕ)) : St F × Except Err Unit :=
  match s with
  | none => (st, .error .attribute)
  | some s =>
    match trainCols d cs ks with
    | .error e => (st, .error e)
    | .ok none => (st, .ok ())
    | .ok (some ks) =>
      match key s with
      | none => (st, .ok ())
      | some a =>
        match fitAll lib d a di (pairs cs ks) with
        | .error e => (st, .error e)
        | .ok l => (l.foldl (storeOne a) st, .ok ())

/-- The pairs of a name and a class in the loops of `train_everything` (l.111-116). -/
def trainEach {X F : Type} (lib : Lib X F) (d : Data X) : List (Name × Name) → St F → St F × Except Err Unit
  | [], st => (st, .ok ())
  | p :: r, st =>
    match train lib d st (some p.1) [p.2] none none with
    | (st, .error e) => (st, .error e)
    | (st, .ok _) => trainEach lib d r st

/-- `train_everything` (l.96-119) -/
def trainEverything {X F : Type} (lib : Lib X F) (d : Data X) (ns : List Name) (st : St F) :
    St F × Except Err Unit :=
  trainEach lib d (pairs ns (d.outputs.map (·.1))) st

/-! ### Predictions -/

/-- `_predict` (l.548-600); `none` is the result `None`.  The default of a missing entry is an empty dictionary, which cannot be
called (l.576-593); for an unknown name `pred` has no value (l.595-600). -/
def predict {X F : Type} (eval : F → X → Option ℚ) (st : St F) (s : Option Name) (c k : Name)
    (pts : List X) : Except Err (Option Vals) :=
  if pts.length = 0 then .ok none
  else if ¬ st.any then .error .untrained
  else match s with
    | none => .error .attribute
    | some s =>
      match key s with
      | none => .error .unbound
      | some a =>
        match a, (if st.flag then st.cv else st.main) a c k with
        | _, some (some f) => .ok (some (pts.map (eval f)))
        | .rbf, some none => .ok none
        | .rbf, none => .error .type
        | .linear, _ => .error .type
        | .gp, _ => .error .attribute

/-- The predictions for the columns of a class (l.536-541). -/
def predictCols {X F : Type} (eval : F → X → Option ℚ) (st : St F) (s : Option Name) (c : Name)
    (pts : List X) : List Name → Except Err (List (Name × Option Vals))
  | [] => .ok []
  | k :: r =>
    match predict eval st s c k pts with
    | .error e => .error e
    | .ok v =>
      match predictCols eval st s c pts r with
      | .error e => .error e
      | .ok l => .ok ((k, v) :: l)

/-- The first values of the predictions (l.845). -/
def firsts : List (Name × Option Vals) → Except Err Vals
  | [] => .ok []
  | (_, none) :: _ => .error .type
  | (_, some []) :: _ => .error .index
  | (_, some (v :: _)) :: r =>
    match firsts r with
    | .error e => .error e
    | .ok l => .ok (v :: l)

/-- `np.max`: NaN if there is one. -/
def npMax (l : Vals) : Option ℚ :=
  if none ∈ l then none else (l.filterMap id).max?

/-- The columns with changes (l.832-835). -/
def apcCols (t : List (Name × Vals)) : List Name :=
  (t.map (·.1)).filter fun k => Frame.isIn (chars! "APC") k

/-- `get_max_APC_val` (l.807-849): the largest change, which is NaN for `none`, and its column.  `get_predictions` (l.529-546) is
called for one name and one class; column names of a table are different. -/
def maxAPC {X F : Type} (d : Data X) (eval : F → X → Option ℚ) (st : St F) (s : Name) (c : Name)
    (pts : List X) : Except Err (Option ℚ × Option Name) :=
  match d.outputs.lookup c with
  | none => .error .key
  | some none => .error .attribute
  | some (some t) =>
    if apcCols t = [] then .ok (some 0, none)
    else match key s with
      | none => .error .attribute
      | some a =>
        match predictCols eval st (some (text a)) c pts (apcCols t) with
        | .error e => .error e
        | .ok l =>
          match firsts l with
          | .error e => .error e
          | .ok v => .ok (npMax v, (l.map (·.1))[argmax v]?)

/-! ### Cross validation -/

/-- `get_cross_val_data` (l.626-691): inputs and outputs for the tests and the places for training.  The draws are the integers of
l.659. -/
def cvData {X : Type} (d : Data X) (c k : Name) (alpha : ℚ) (draws : List ℕ) :
    Except Err (List X × Vals × List ℕ) :=
  match d.inputs.lookup c with
  | none => .error .key
  | some xs =>
    if 1 < alpha ∨ alpha ≤ 0 then .error .value
    else
      let sp := split xs.length ⌊xs.length * alpha⌋.toNat draws
      match column d c k with
      | .error e => .error e
      | .ok ys => .ok (sp.2.filterMap (fun i => xs[i]?), sp.2.filterMap (fun i => ys[i]?), sp.1)

/-- Missing values of the linear interpolation are taken from the radial basis functions (l.773-779).  If there are no tests, the
first is `None`, which counts as missing but has no length. -/
def fill (lin rbf : Option Vals) : Except Err (Option Vals) :=
  match lin with
  | none => .error .type
  | some l =>
    if none ∈ l then
      match rbf with
      | none => .error .type
      | some r => .ok (some (List.zipWith (fun a b => a.orElse fun _ => b) l r))
    else .ok (some l)

/-- The part of `cross_validate` in the `try` (l.738-783). -/
def cvPredict {X F : Type} (lib : Lib X F) (d : Data X) (eval : F → X → Option ℚ) (st : St F)
    (a : Option Algo) (c k : Name) (di : List ℕ) (tests : List X) : St F × Except Err (Option Vals) :=
  let st1 := { st with flag := true }
  if a = some .linear then
    match train lib d st1 (some (text .linear)) [c] (some [k]) (some di) with
    | (st2, .error e) => (st2, .error e)
    | (st2, .ok _) =>
      match train lib d st2 (some (chars! "RBF")) [c] (some [k]) (some di) with
      | (st3, .error e) => (st3, .error e)
      | (st3, .ok _) =>
        match predict eval st3 (some (text .linear)) c k tests with
        | .error e => (st3, .error e)
        | .ok l =>
          match predict eval st3 (some (chars! "RBF")) c k tests with
          | .error e => (st3, .error e)
          | .ok r => (st3, fill l r)
  else
    match train lib d st1 (a.map text) [c] (some [k]) (some di) with
    | (st2, .error e) => (st2, .error e)
    | (st2, .ok _) => (st2, predict eval st2 (a.map text) c k tests)

/-- A difference of numbers that may be NaN. -/
def sub (a b : Option ℚ) : Option ℚ :=
  match a, b with
  | some x, some y => some (x - y)
  | _, _ => none

/-- A difference in percent (l.797-803). -/
def pct (diff out : Option ℚ) : Option ℚ :=
  match diff, out with
  | some x, some y => some (x / y * 100)
  | _, _ => none

/-- The end of `cross_validate` (l.791-805): differences in percent without the outputs that are zero, and differences.  `None`
can be subtracted from only if there are no tests. -/
def differences (pred : Option Vals) (outs : Vals) : Except Err (Vals × Vals) :=
  match pred with
  | none => if outs.length = 0 then .ok ([], []) else .error .type
  | some p =>
    let diffs := List.zipWith sub p outs
    .ok (((diffs.zip outs).filter fun x => x.2 ≠ some 0).map (fun x => pct x.1 x.2), diffs)

/-- `cross_validate` (l.693-805): the switch is unset in any case once it was set. -/
def crossValidate {X F : Type} (lib : Lib X F) (d : Data X) (eval : F → X → Option ℚ) (st : St F)
    (s c k : Name) (alpha : ℚ) (draws : List ℕ) : St F × Except Err (Vals × Vals) :=
  match cvData d c k alpha draws with
  | .error e => (st, .error e)
  | .ok (xs, ys, di) =>
    match cvPredict lib d eval st (key s) c k di xs with
    | (st', .error e) => ({ st' with flag := false }, .error e)
    | (st', .ok p) => ({ st' with flag := false }, differences p ys)

/-- The loop of `mult_diffs` over columns (l.885-891), with the draws for each: the differences in percent that are not NaN. -/
def diffsOf {X F : Type} (lib : Lib X F) (d : Data X) (eval : F → X → Option ℚ) (s c : Name) (alpha : ℚ) :
    List (Name × List ℕ) → St F → St F × Except Err (List (List ℚ))
  | [], st => (st, .ok [])
  | (k, draws) :: r, st =>
    match crossValidate lib d eval st s c k alpha draws with
    | (st, .error e) => (st, .error e)
    | (st, .ok v) =>
      match diffsOf lib d eval s c alpha r st with
      | (st, .error e) => (st, .error e)
      | (st, .ok l) => (st, .ok (v.1.filterMap id :: l))

/-- A quotient that is NaN for an empty list. -/
def over (x : ℚ) (n : ℕ) : Option ℚ := if n = 0 then none else some (x / n)

/-- The summary of a column (l.895-904): percentage outside of the cutoff, mean, and square of the standard deviation. -/
def summary (cutoff : ℚ) (p : List ℚ) : Option ℚ × Option ℚ × Option ℚ :=
  let mean := p.sum / p.length
  ((over ((p.filter fun x => cutoff * 100 ≤ |x|).length : ℚ) p.length).map (· * 100),
    over p.sum p.length, over ((p.map fun x => (x - mean) ^ 2).sum) p.length)

/-- `mult_diffs` (l.851-906) -/
def multDiffs {X F : Type} (lib : Lib X F) (d : Data X) (eval : F → X → Option ℚ) (st : St F)
    (s c : Name) (ks : List (Name × List ℕ)) (alpha cutoff : ℚ) :
    St F × Except Err (List (List ℚ) × List (Option ℚ × Option ℚ × Option ℚ)) :=
  match diffsOf lib d eval s c alpha ks st with
  | (st, .error e) => (st, .error e)
  | (st, .ok l) =>
    if ∀ a ∈ l, ∀ b ∈ l, a.length = b.length then (st, .ok (l, l.map (summary cutoff)))
    else (st, .error .value)

end Verif.Regress
