import Verif.SN
import Verif.Interp
import Verif.CEParam
import Verif.StarState
import Mathlib.Analysis.SpecialFunctions.Log.Basic
import Mathlib.Analysis.SpecialFunctions.Sqrt

/-!
# Core collapse engines that are trained from tables

Model of the parts of `posydon/binary_evol/SN/step_SN.py` that make the engines: `Sukhbold16_corecollapse.__init__` (l.2600-2710),
`Couch20_corecollapse.__init__` (l.2792-2861), the tables of Patton+20 (`StepSN.__init__` l.348-428), `get_CO_core_params` (l.2249-2306)
and `get_M4_mu4_Patton20` (l.2308-2316).  The engines themselves are in `Verif.SN`; here what they look up is made from the tables.

Simplifications.  Floats are real numbers.  The files are given by their rows.  The searches for neighbours of scikit-learn are parameters
that return nearest rows, in any order and with any choice among rows of the same distance; a class of one neighbour is that of the nearest
row, and a value of five neighbours is the mean weighted with the inverse distances, or the mean of those at distance zero, as documented.
-/

namespace Verif.Engines

open Verif.Interp (Node Interp1d)
open Verif.StarState (State)
open Verif.SN (Table Look)

noncomputable section
open Classical

inductive Err where
  | value
  | key
  | attribute
  | index
  | assertion
  | model
  | type
deriving DecidableEq

/-- Errors of the interpolation. -/
def ofInterp : Interp.Err → Err
  | .value => .value
  | .notImplemented => .value
  | .assertion => .assertion
  | .index => .index

/-! ### Sukhbold+16 -/

/-- A row of the table of an engine. -/
structure Row where
  state : ℕ
  he : ℝ
  rem : ℝ
  fallback : ℝ

/-- The engines, l.2602. -/
def engines : List String := ["N20", "S19.8", "W15", "W20", "W18"]

/-- The rows that are used, l.2623-2629. -/
def used (r : Row) : Prop := r.state = 13 ∨ r.state = 14 ∧ r.fallback = 0

def rowsUsed (rows : List Row) : List Row := rows.filter fun r => used r

/-- Those of one state, l.2654-2667. -/
def ofState (rows : List Row) (k : ℕ) : List Row := (rowsUsed rows).filter fun r => r.state = k

/-- A search for the nearest row in one dimension (l.2637-2646, l.2847-2854). -/
abbrev Near := List (ℝ × ℕ) → ℝ → ℕ

/-- What a trained engine holds. -/
structure Engine where
  cls : ℝ → ℕ
  ns : Interp1d
  bh : Interp1d

/-- `Sukhbold16_corecollapse.__init__`, l.2600-2710. -/
def trainSukhbold (argsort : List Node → List Node) (near : Near) (engine : String) (rows : List Row) : Except Err Engine :=
  if engine ∈ engines then
    if rowsUsed rows = [] then .error .value
    else
      match Interp.init argsort true ((ofState rows 13).map (·.he)) ((ofState rows 13).map (·.rem)) .absent none none with
      | .error e => .error (ofInterp e)
      | .ok ns =>
        match Interp.init argsort true ((ofState rows 14).map (·.he)) ((ofState rows 14).map (·.rem)) .absent none none with
        | .error e => .error (ofInterp e)
        | .ok bh => .ok ⟨near ((rowsUsed rows).map fun r => (r.he, r.state)), ns, bh⟩
  else .error .value

/-- The interpolator with the smallest and largest of its abscissae, as the engine uses it (l.2676-2682). -/
def tableOf (o : Interp1d) : Table where
  lo := o.node.1
  hi := ((o.node :: o.nodes).getLast (by simp)).1
  f := o.call

/-- What the engine looks up. -/
def look (cls : ℝ → ℕ) (ns bh : Table) : Look :=
  { cls := cls, ns := ns, bh := bh, coHe := 0, M4 := 0, mu4 := 0, Xi := 0, sc := 0, rand := 0 }

def Engine.look (e : Engine) : Look := Engines.look e.cls (tableOf e.ns) (tableOf e.bh)

/-! ### Couch+20 -/

/-- The turbulence strengths, l.2794-2795. -/
def strengths : List String := ["1.0", "1.2", "1.23", "1.25", "1.27", "1.3", "1.4"]

/-- The state of a row, l.2825-2828. -/
def couchState (eexp : ℝ) : ℕ := if eexp = 0 then 14 else 13

/-- `Couch20_corecollapse.__init__`, l.2792-2861, giving the classes; the file has the initial masses and energies by strength, the
other one initial masses and helium cores.  With `verbose`, the name of the engine is asked for, which this class does not have (l.2801-2806). -/
def trainCouch (argsort : List Node → List Node) (near : Near) (file : List (String × List (ℝ × ℝ))) (mz he : List ℝ) (strength : String)
    (verbose : Bool) : Except Err (ℝ → ℕ) :=
  if strength ∈ strengths then
    if verbose then .error .attribute
    else match file.lookup strength with
      | none => .error .key
      | some data =>
        match Interp.init argsort true mz he .absent none none with
        | .error e => .error (ofInterp e)
        | .ok o =>
          if data = [] then .error .value
          else .ok (near (data.map fun p => (o.call p.1, couchState p.2)))
  else .error .value

/-! ### Patton+20 -/

/-- A training point: carbon abundance, mass of the carbon-oxygen core, and the value. -/
abbrev Pt := (ℝ × ℝ) × ℝ

/-- `format_data_Patton20` (l.376-395): the masses are in the first row, the abundances in the first column. -/
def params (masses : List ℝ) (body : List (ℝ × List ℝ)) : List (ℝ × ℝ) := body.flatMap fun b => masses.map fun m => (b.1, m)

def target (body : List (ℝ × List ℝ)) : List ℝ := body.flatMap fun b => b.2

def points (masses : List ℝ) (body : List (ℝ × List ℝ)) : List Pt := (params masses body).zip (target body)

/-- The distance of two points. -/
def dist (p q : ℝ × ℝ) : ℝ := Real.sqrt ((p.1 - q.1) ^ 2 + (p.2 - q.2) ^ 2)

/-- The weights: inverse distances, or 1 for those at distance zero and 0 for the others if there is one. -/
def weights (d : List ℝ) : List ℝ := if 0 ∈ d then d.map (fun x => if x = 0 then 1 else 0) else d.map (fun x => 1 / x)

/-- The weighted mean of neighbours. -/
def wmean (q : ℝ × ℝ) (ns : List Pt) : ℝ :=
  let w := weights (ns.map fun n => dist n.1 q)
  (List.zipWith (· * ·) w (ns.map (·.2))).sum / w.sum

/-- A search for five neighbours. -/
abbrev Near5 := List Pt → ℝ × ℝ → List Pt

/-- `KNeighborsRegressor(5, weights='distance').predict` (l.412-426): needs five points. -/
def predict (near : Near5) (pts : List Pt) (q : ℝ × ℝ) : Except Err ℝ :=
  if pts.length < 5 then .error .value else .ok (wmean q (near pts q))

/-- The four tables, of `M4`, `mu4`, `Xi` and `sc` (l.399-406). -/
structure Tables where
  m4 : List Pt
  mu4 : List Pt
  xi : List Pt
  sc : List Pt

/-- `get_M4_mu4_Patton20` (l.2308-2316) -/
def explosion (near : Near5) (t : Tables) (co c : ℝ) : Except Err (ℝ × ℝ × ℝ × ℝ) :=
  match predict near t.m4 (c, co) with
  | .error e => .error e
  | .ok a => match predict near t.mu4 (c, co) with
    | .error e => .error e
    | .ok b => match predict near t.xi (c, co) with
      | .error e => .error e
      | .ok x => match predict near t.sc (c, co) with
        | .error e => .error e
        | .ok s => .ok (a, b, x, s)

/-! ### The core at helium depletion -/

/-- `C_abundance_for_H_stars`, l.2249-2251 -/
def cH (m : ℝ) : ℝ := 0.20 / m + 0.15

/-- `C_abundance_for_He_stars`, l.2253-2255 -/
def cHe (m : ℝ) : ℝ := -0.084 * Real.log m + 0.4

/-- What is read of a star; `coHe` and `avgHe` are the stored values at helium depletion, `hist` is `None` or the states of the history. -/
structure Star where
  state : State
  co : ℝ
  coHe : Option ℝ
  avgHe : Option ℝ
  hist : Option (List State)
  coHist : List ℝ
  avgHist : List ℝ

/-- `"H-rich" in state` -/
def hRich : State → Bool
  | .normal .Hrich _ => true
  | _ => false

/-- `"stripped_He" in state` -/
def stripped : State → Bool
  | .normal .stripped _ => true
  | _ => false

/-- A test of the state or else of the last state of the history (l.2286, l.2288). -/
def either (f : State → Bool) (s : Star) : Except Err Bool :=
  if f s.state then .ok true
  else match s.hist with
    | none => .error .type
    | some h => match h.getLast? with
      | none => .error .index
      | some l => .ok (f l)

/-- `get_CO_core_params` (l.2257-2306): core mass and carbon abundance. -/
def coreParams (approx : Bool) (s : Star) : Except Err (ℝ × ℝ) :=
  if approx then
    match either hRich s with
    | .error e => .error e
    | .ok true => .ok (s.co, cH s.co)
    | .ok false => match either stripped s with
      | .error e => .error e
      | .ok true => .ok (s.co, cHe s.co)
      | .ok false => .error .value
  else match s.avgHe, s.coHe with
    | some c, some m => .ok (m, c)
    | _, _ => match CEParam.patton s.hist s.coHist s.avgHist with
      | .error _ => .error .index
      | .ok none => .error .model
      | .ok (some p) => .ok p

/-- `Patton20_corecollapse` (l.2318-2402) from the tables: the result and the values of `M4` and `mu4` that are stored in the star. -/
def pattonFull (near : Near5) (t : Tables) (approx : Bool) (engine : String) (consH : Bool) (s : Star) (ms mhe : ℝ) :
    Except Err ((ℝ × ℝ × SN.CO) × ℝ × ℝ) :=
  match SN.ertlK engine with
  | none => .error .value
  | some _ =>
    match coreParams approx s with
    | .error e => .error e
    | .ok (co, c) =>
      match explosion near t co c with
      | .error e => .error e
      | .ok (m4, mu4, xi, sc) =>
        match SN.patton engine { look (fun _ => 0) ⟨0, 0, id⟩ ⟨0, 0, id⟩ with coHe := co, M4 := m4, mu4 := mu4, Xi := xi, sc := sc } consH ms mhe with
        | .error _ => .error .value
        | .ok r => .ok (r, m4, mu4)

end

end Verif.Engines
