import Verif.Chars
import Verif.MTLabel
import Verif.Single
import Verif.SNStep
/-!
Model of the post-processing of grids, `/repo/posydon/grids/post_processing.py`: `CC_quantities` (l.38-41),
`assign_core_collapse_quantities_none` (l.43-72), `post_process_grid` (l.131-494), the conversion and distribution of the columns in
`add_post_processed_quantities` (l.496-611), and `get_SN_MODEL` (`/repo/posydon/grids/SN_MODELS.py` l.524-545).

Simplifications: the columns are a structured type with their names as a function of it. What other functions say about a star is data of
the star (its classification, its values at the depletion of helium, its common-envelope parameters, its collapse for given settings, which
may fail); floats are rationals. A class of a run that is none of those known is `unknown`. `none` inside an abundance is NaN, outside `None`.
Printing and warnings are left out, and so are the writing of the HDF5 file and the columns that it replaces.
-/
namespace Verif.PostGrid
open Verif.TermFlags (IC)

inductive Err | value | type | key | index deriving DecidableEq, Repr

/-- A value of a column. -/
inductive Val
  | none
  | str (s : String)
  | num (x : ℚ)
  | nan
  | other
  deriving DecidableEq

def Val.isStr : Val → Bool
  | .str _ => true
  | _ => false

/-- `isinstance(x, float)` -/
def Val.isFloat : Val → Bool
  | .num _ => true
  | .nan => true
  | _ => false

/-- l.184 -/
inductive CEq | lambda | mCore | rCore deriving DecidableEq, Repr
/-- l.185 -/
inductive CEv | c1 | c10 | c30 | he10 deriving DecidableEq, Repr
/-- `CC_quantities`, l.38-41 -/
inductive CC | state | snType | fFb | mass | spin | accreted | radiated | cls | m4 | mu4 | h1 | he4 deriving DecidableEq, Repr

def ceQs : List CEq := [.lambda, .mCore, .rCore]
def ceVs : List CEv := [.c1, .c10, .c30, .he10]
def quantities : List CC := [.state, .snType, .fFb, .mass, .spin, .accreted, .radiated, .cls, .m4, .mu4, .h1, .he4]

/-- The columns; the flag is true for the second star. -/
inductive Col
  | mt
  | state (k : Bool)
  | heC (k : Bool)
  | heMass (k : Bool)
  | surf (k : Bool)
  | center (k : Bool)
  | ce (k : Bool) (q : CEq) (v : CEv)
  | cc (k : Bool) (m : String) (q : CC)
  deriving DecidableEq

/-- A star of a run. -/
structure Star (M : Type) where
  state : String
  gamma : Option ℚ
  classify : Bool → Except Err Val
  heC : Val
  heMass : Val
  ce : CEq → CEv → Val
  surf : List (Option (Option ℚ))
  center : List (Option (Option ℚ))
  collapse : M → Except Err (CC → Val)

structure Cfg (M : Type) where
  /-- `star_2_CO` -/
  secondCO : Bool
  /-- `single_star` -/
  single : Bool
  /-- the models handed over: names and settings -/
  models : List (String × M)
  /-- the predefined models, and the default settings -/
  table : List (String × M)
  dflt : M

structure Run (M : Type) where
  ic : IC
  tf1 : String
  tf2 : List Char
  star1 : Star M
  star2 : Star M

variable {M : Type}

/-- `get_SN_MODEL`, SN_MODELS.py l.524-545. -/
def getModel (c : Cfg M) (name : String) : M := ((c.table.find? fun p => p.1 == name).map (·.2)).getD c.dflt

/-- The columns of a star, l.177-190. -/
def starColumns (c : Cfg M) (k : Bool) : List Col :=
  [.heC k, .heMass k, .state k, .surf k, .center k] ++ (ceQs.flatMap fun q => ceVs.map fun v => .ce k q v) ++
    c.models.flatMap fun m => quantities.map fun q => .cc k m.1 q

/-- All columns, l.171-190. -/
def columns (c : Cfg M) : List Col :=
  if c.single then starColumns c false else .mt :: (starColumns c false ++ starColumns c true)

/-- The rest of the abundances, l.258-275: `None` cannot be subtracted, NaN is replaced by 0. -/
def rest (l : List (Option (Option ℚ))) : Except Err Val :=
  if none ∈ l then .error .type
  else if some none ∈ l then .ok (.num 0)
  else .ok (.num (1 - (l.map fun x => x.join.getD 0).sum))

/-- The four classes of l.228. -/
def evolved (ic : IC) : Bool := ic == .noMT || ic == .stable || ic == .unstable || ic == .stableReverse

/-- The values of a star apart from its collapse, l.227-295. -/
def starValues (ic : IC) (co : Bool) (k : Bool) (s : Star M) : Except Err (List (Col × Val)) :=
  if !co && evolved ic then
    match s.classify false with
    | .error e => .error e
    | .ok st =>
      match rest s.surf, rest s.center with
      | .error e, _ => .error e
      | _, .error e => .error e
      | .ok so, .ok c =>
        .ok ([(.state k, st), (.heC k, s.heC), (.heMass k, s.heMass)] ++ (ceQs.flatMap fun q => ceVs.map fun v => (.ce k q v, s.ce q v)) ++
          [(.surf k, so), (.center k, c)])
  else
    let tail : List (Col × Val) := [(.heC k, .none), (.heMass k, .none), (.surf k, .none), (.center k, .none)] ++
      ceQs.flatMap fun q => ceVs.map fun v => (.ce k q v, .none)
    if ic = .initialMT ∨ ic = .notConverged then .ok ((.state k, .none) :: tail)
    else match s.classify true with
      | .ok st => .ok ((.state k, st) :: tail)
      | .error .type => .ok ((.state k, .none) :: tail)
      | .error e => .error e

/-- `assign_core_collapse_quantities_none` for a list of models, l.66-69. -/
def ccNone (k : Bool) (models : List (String × M)) : List (Col × Val) := models.flatMap fun m => quantities.map fun q => (.cc k m.1 q, .none)

/-- The types of the results that are not accepted, l.363-376. -/
def flush (f : CC → Val) : Bool :=
  quantities.any fun q => match q with
    | .state => !(f q).isStr
    | .snType => !(f q).isStr
    | .cls => false
    | .spin => !(f q).isFloat && f q != .none
    | .m4 => !(f q).isFloat && f q != .none
    | .mu4 => !(f q).isFloat && f q != .none
    | .h1 => !(f q).isFloat && f q != .none
    | .he4 => !(f q).isFloat && f q != .none
    | _ => !(f q).isFloat

/-- `'case' in TF2 and '1' in TF2 and '2' in TF2`, l.397. -/
def reversed (tf2 : List Char) : Bool := Frame.isIn (chars! "case") tf2 && '1' ∈ tf2 && '2' ∈ tf2

/-- The value of a quantity of a collapsed star, l.392-402. -/
def ccValue (tf2 : List Char) (f : CC → Val) (q : CC) : Val :=
  if q ≠ .cls then f q
  else if f .state = .str "BH" ∧ reversed tf2 = true then .str "BH_reverse_MT"
  else f .state

/-- The collapse with one model, l.355-402 and 422-464. -/
def ccOne (c : Cfg M) (k : Bool) (tf2 : List Char) (s : Star M) (name : String) : List (Col × Val) :=
  match s.collapse (getModel c name) with
  | .error _ => quantities.map fun q => (.cc k name q, .none)
  | .ok f =>
    if flush f then quantities.map fun q => (.cc k name q, .none)
    else quantities.map fun q => (.cc k name q, ccValue tf2 f q)

/-- The collapse of a star with all models, l.350-408 and 418-469. -/
def ccStar (c : Cfg M) (k : Bool) (tf2 : List Char) (s : Star M) : List (Col × Val) :=
  if s.state ∈ SNStep.statesCC then c.models.flatMap fun m => ccOne c k tf2 s m.1 else ccNone k c.models

def named (a b : String) (t : String) : Bool := Frame.isIn a.toList t.toList || Frame.isIn b.toList t.toList

/-- `center_gamma >= 10` -/
def dense (s : Star M) : Bool := match s.gamma with
  | some g => decide (10 ≤ g)
  | none => false

/-- The star that collapses, l.301-346. -/
def pick (c : Cfg M) (r : Run M) : Option Bool :=
  if c.secondCO || (decide (r.tf1 ∈ TermFlags.tf1Stable) && named "primary" "Primary" r.tf1) then some false
  else if decide (r.tf1 ∈ TermFlags.tf1Stable) && named "secondary" "Secondary" r.tf1 then some true
  else if r.tf1 = "gamma_center_limit" then
    if dense r.star1 then some false else if dense r.star2 then some true else none
  else none

/-- l.298-415 -/
def ccBinary (c : Cfg M) (r : Run M) : List (Col × Val) :=
  if r.ic = .noMT ∨ r.ic = .stable ∨ r.ic = .stableReverse then
    match pick c r with
    | some k => ccNone (!k) c.models ++ ccStar c k r.tf2 (if k then r.star2 else r.star1)
    | none => ccNone false c.models ++ ccNone true c.models
  else ccNone false c.models ++ ccNone true c.models

/-- All values appended for a run, l.208-475. -/
def appends (c : Cfg M) (r : Run M) : Except Err (List (Col × Val)) :=
  if c.single then
    match starValues .noMT false false r.star1 with
    | .error e => .error e
    | .ok a => .ok (a ++ ccStar c false (chars! "no_RLOF") r.star1)
  else
    match starValues r.ic false false r.star1 with
    | .error e => .error e
    | .ok a1 =>
      match starValues r.ic c.secondCO true r.star2 with
      | .error e => .error e
      | .ok a2 =>
        match MTLabel.history r.ic r.tf2 with
        | none => .error .key
        | some t => .ok (a1 ++ a2 ++ ccBinary c r ++ [(.mt, .str t)])

/-- The dictionary of columns: append the values in turn. -/
def push (ext : Col → List Val) (a : List (Col × Val)) : Col → List Val := fun c => ext c ++ (a.filter fun p => p.1 = c).map (·.2)

/-- The loop over the runs with the check of the lengths, l.208-483. -/
def loop (c : Cfg M) : (Col → List Val) → List (Run M) → Except Err (Col → List Val)
  | ext, [] => .ok ext
  | ext, r :: rs =>
    match appends c r with
    | .error e => .error e
    | .ok a =>
      if ∃ p ∈ a, p.1 ∉ columns c then .error .key
      else if ∃ k ∈ columns c, ((push ext a) k).length ≠ ((push ext a) (.state false)).length then .error .value
      else loop c (push ext a) rs

/-! ### Which runs -/

inductive Index
  | all
  | one (i : ℤ)
  | range (l : List ℤ)
  | other

/-- An index of a Python slice in a list of length `n`. -/
def clampI (n : ℕ) (i : ℤ) : ℕ := if i < 0 then (i + n).toNat else min i.toNat n

/-- `l[a:b]` -/
def slice {D : Type} (l : List D) (a b : ℤ) : List D := (l.drop (clampI l.length a)).take (clampI l.length b - clampI l.length a)

/-- `range(a, b)` -/
def rangeI (a b : ℤ) : List ℤ := (List.range (b - a).toNat).map fun (j : ℕ) => a + j

/-- l.193-206: the indices and the directories. -/
def select {D : Type} (dirs : List D) : Index → Except Err (List ℤ × List D)
  | .all => .ok ((List.range dirs.length).map fun (j : ℕ) => (j : ℤ), dirs)
  | .one i => .ok (rangeI i (i + 1), slice dirs i (i + 1))
  | .range l =>
    match l with
    | [a, b] => .ok (rangeI a b, slice dirs a b)
    | _ => .error .value
  | .other => .error .type

/-- `grid[i]`: only indices from 0 on are in the grid (`psygrid.py` l.1687-1705, 1768-1779). -/
def runsAt {R : Type} (runs : List R) : List ℤ → Except Err (List R)
  | [] => .ok []
  | i :: is =>
    if i < 0 then .error .index
    else match runs[i.toNat]? with
      | none => .error .index
      | some r =>
        match runsAt runs is with
        | .error e => .error e
        | .ok rs => .ok (r :: rs)

/-- `post_process_grid`: the grid has a directory for every run. The error of a run that does not exist comes after those of the runs before; here
it comes first (simplification). -/
def postProcess (c : Cfg M) (grid : List (Run M × String)) (i : Index) : Except Err (List String × (Col → List Val)) :=
  match select (grid.map (·.2)) i with
  | .error e => .error e
  | .ok (is, dirs) =>
    match runsAt (grid.map (·.1)) is with
    | .error e => .error e
    | .ok rs =>
      match loop c (fun _ => []) rs with
      | .error e => .error e
      | .ok ext => .ok (dirs, ext)

/-! ### Names and storing -/

def CEq.name : CEq → String
  | .lambda => "lambda_CE" | .mCore => "m_core_CE" | .rCore => "r_core_CE"

def CEv.name : CEv → String
  | .c1 => "1" | .c10 => "10" | .c30 => "30" | .he10 => "pure_He_star_10"

/-- The name of a quantity of the collapse; the state is renamed, l.487-492. -/
def CC.name : CC → String
  | .state => "CO_type" | .snType => "SN_type" | .fFb => "f_fb" | .mass => "mass" | .spin => "spin" | .accreted => "m_disk_accreted"
  | .radiated => "m_disk_radiated" | .cls => "CO_interpolation_class" | .m4 => "M4" | .mu4 => "mu4" | .h1 => "h1_mass_ej" | .he4 => "he4_mass_ej"

def sOf (k : Bool) : List Char := if k then (chars! "S2_") else (chars! "S1_")

/-- The name of a column, l.177-190 and 487-492. -/
def Col.name : Col → List Char
  | .mt => (chars! "mt_history")
  | .state k => sOf k ++ (chars! "state")
  | .heC k => sOf k ++ (chars! "avg_c_in_c_core_at_He_depletion")
  | .heMass k => sOf k ++ (chars! "co_core_mass_at_He_depletion")
  | .surf k => sOf k ++ (chars! "surface_other")
  | .center k => sOf k ++ (chars! "center_other")
  | .ce k q v => sOf k ++ q.name.toList ++ (chars! "_") ++ v.name.toList ++ (chars! "cent")
  | .cc k m q => sOf k ++ m.toList ++ (chars! "_") ++ q.name.toList

/-- Columns of text, l.543-544. -/
def isText (n : List Char) : Bool :=
  Frame.isIn (chars! "state") n || Frame.isIn (chars! "type") n || Frame.isIn (chars! "class") n || n == (chars! "mt_history")

/-- A value in the file. -/
inductive Stored
  | text (s : String)
  | real (x : ℚ)
  | nan
  deriving DecidableEq

/-- Conversion of a value, l.542-549: text is cut to 70 characters; text is no float. The text of a number is a parameter. -/
def store (repr : Val → String) (n : List Char) (v : Val) : Except Err Stored :=
  if isText n then
    match v with
    | .none => .ok (.text "None")
    | .str s => .ok (.text (String.ofList (s.toList.take 70)))
    | v => .ok (.text (String.ofList ((repr v).toList.take 70)))
  else
    match v with
    | .none => .ok .nan
    | .num x => .ok (.real x)
    | .nan => .ok .nan
    | .str _ => .error .value
    | .other => .error .type

/-- Where a column is stored, l.525-530 and 595-604: with the final values, or in the data sets of models with a short name. -/
def places (known : List String) (n : List Char) : List (Option String × List Char) :=
  if Frame.isIn (chars! "SN_MODEL") n then
    (known.filter fun m => Frame.isIn (m.toList ++ (chars! "_")) n).map fun m => (some m, Channel.repl (m.toList ++ (chars! "_")) [] 0 n)
  else [(none, n)]

/-! ### Specification -/

/-- The collapse of star `k` is wanted: its run is of a class without unstable mass transfer or trouble, and it is the star that ended the run. -/
def Wanted (c : Cfg M) (r : Run M) (k : Bool) : Prop := (r.ic = .noMT ∨ r.ic = .stable ∨ r.ic = .stableReverse) ∧ pick c r = some k

def starOf (r : Run M) (k : Bool) : Star M := if k then r.star2 else r.star1

end Verif.PostGrid
