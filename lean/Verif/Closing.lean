import Verif.Single
/-!
Model of what closing does to the grids of single stars: `/repo/posydon/interpolation/interpolation.py` `GRIDInterpolator` (construction
l.332-519, `load_grid` l.521-552, `close` l.554-557, and the reading parts of `get`, `get_final_values`, `get_final_state`, `get_profile`,
l.559-758), `/repo/posydon/grids/psygrid.py` `close` (l.1577-1582) and the check of `PSyRunView.__getitem__` (l.2311-2313),
`/repo/posydon/binary_evol/track_match.py` `get_star_profile` (l.2280-2291),
`/repo/posydon/binary_evol/simulationproperties.py` `close` (l.721-733) and the opening of grids in `create_track_matcher` (l.706-719), and
`/repo/posydon/popsyn/binarypopulation.py` `close` (l.614-616) and `__getstate__` (l.618-627).

Simplifications: those of `Verif.Single`, from where the values are taken. A file does not change while it is open, and what `load_grid` puts in
the three dictionaries for a mass is what the file holds for the first run with this mass, so that only the masses that were read are kept here.
The steps that use grids of binaries have a `close` that does nothing (`step_mesa.py` l.327) and are left out.
-/
namespace Verif.Closing
open Classical
open Verif.Single (Run Row Name FV FKey masses keys finalKeys profileKeys decode below above)

/-- `IOError` of a closed file, and the errors of reading values. -/
inductive Err
  | io | of (e : Single.Err)
deriving DecidableEq, Repr

def lift {α : Type} : Except Single.Err α → Except Err α
  | .ok a => .ok a
  | .error e => .error (.of e)

/-- A `GRIDInterpolator`: what its file holds, whether the file is open, and the masses whose tables are in the dictionaries. -/
structure Obj where
  runs : List Run
  isOpen : Bool
  cached : List ℝ

/-- `load_grid` for one mass: the tables are read from the file (l.533-552). -/
def load (o : Obj) (m : ℝ) : Obj × Except Err Unit :=
  if o.isOpen then ({ o with cached := m :: o.cached }, .ok ()) else (o, .error .io)

/-- L.517-519 -/
def loadAll : List ℝ → Obj → Obj × Except Err Unit
  | [], o => (o, .ok ())
  | m :: ms, o => match load o m with
    | (o', .ok ()) => loadAll ms o'
    | (o', .error e) => (o', .error e)

/-- Construction: the file is opened (l.337-339) and all its masses are read. -/
def make (runs : List Run) : Obj := (loadAll (masses runs) ⟨runs, true, []⟩).1

/-- `close`, l.554-557 and psygrid.py l.1577-1582. -/
def close (o : Obj) : Obj := { o with isOpen := false }

/-- `try: data[m][key]; except KeyError: load_grid(m); data[m][key]` (l.580-584 and the like), `known` if `load_grid` puts this key in. -/
noncomputable def want (known : Bool) (o : Obj) (m : ℝ) : Obj × Except Err Unit :=
  if m ∈ o.cached ∧ known = true then (o, .ok ())
  else match load o m with
    | (o', .error e) => (o', .error e)
    | (o', .ok ()) => if known then (o', .ok ()) else (o', .error (.of .key))

/-- The same for several masses, one after the other. -/
noncomputable def wants (known : Bool) : List ℝ → Obj → Obj × Except Err Unit
  | [], o => (o, .ok ())
  | m :: ms, o => match want known o m with
    | (o', .ok ()) => wants known ms o'
    | (o', .error e) => (o', .error e)

/-- The masses that are looked up for a mass (l.579-601): itself if it is in the grid, or else its neighbours; none if there is a `ValueError` first. -/
noncomputable def sources (g : List Run) (m : ℝ) : List ℝ :=
  if m ∈ masses g then [m]
  else match below (masses g) m, above (masses g) m with
    | some a, some b => [a, b]
    | _, _ => []

/-- L.641-650: the masses looked up below while the value is NaN. -/
noncomputable def down (g : List Run) (k : FKey) (m : ℝ) : List ℝ :=
  if (Single.valueAt g k m).isNan then
    match h : below (masses g) m with
    | none => [m]
    | some a => m :: down g k a
  else [m]
termination_by ((masses g).filter fun x => decide (x < m)).length
decreasing_by
  obtain ⟨h1, h2⟩ := Single.below_mem h
  refine Single.filter_lt_length _ _ _ ?_ ⟨a, h1, by simpa using h2, by simp⟩
  intro x _ hx
  simp only [decide_eq_true_eq] at hx ⊢
  linarith

/-- L.658-667: the masses looked up above while the value is NaN. -/
noncomputable def up (g : List Run) (k : FKey) (m : ℝ) : List ℝ :=
  if (Single.valueAt g k m).isNan then
    match h : above (masses g) m with
    | none => [m]
    | some a => m :: up g k a
  else [m]
termination_by ((masses g).filter fun x => decide (m < x)).length
decreasing_by
  obtain ⟨h1, h2⟩ := Single.above_mem h
  refine Single.filter_lt_length _ _ _ ?_ ⟨a, h1, by simpa using h2, by simp⟩
  intro x _ hx
  simp only [decide_eq_true_eq] at hx ⊢
  linarith

/-- The masses that `get_final_values` looks up (l.625-667). -/
noncomputable def walk (g : List Run) (k : FKey) (m : ℝ) : List ℝ :=
  if m ∈ masses g then [m]
  else match below (masses g) m, above (masses g) m with
    | some a, some b => down g k a ++ up g k b
    | _, _ => []

/-- `get`, l.559-622. -/
noncomputable def get (tol : ℝ) (o : Obj) (key : String) (m : ℝ) : Obj × Except Err (List ℝ) :=
  match wants (decide (key ∈ keys)) (sources o.runs m) o with
  | (o', .error e) => (o', .error e)
  | (o', .ok ()) => (o', lift (Single.get tol o.runs key m))

/-- `get_final_values`, l.624-677. The place of a known key is that of `decode`. -/
noncomputable def getFinal (o : Obj) (key : Name) (m : ℝ) : Obj × Except Err FV :=
  match decode key with
  | none => match wants false (sources o.runs m) o with
    | (o', .error e) => (o', .error e)
    | (o', .ok ()) => (o', .error (.of .value))
  | some k => match wants (decide (key ∈ finalKeys)) (walk o.runs k m) o with
    | (o', .error e) => (o', .error e)
    | (o', .ok ()) => (o', lift (Single.getFinal o.runs k m))

/-- `get_final_state`, l.679-709. -/
noncomputable def getState (o : Obj) (key : Name) (m : ℝ) : Obj × Except Err FV :=
  match decode key with
  | none => match wants false (sources o.runs m) o with
    | (o', .error e) => (o', .error e)
    | (o', .ok ()) => (o', .error (.of .value))
  | some k => match wants (decide (key ∈ finalKeys)) (sources o.runs m) o with
    | (o', .error e) => (o', .error e)
    | (o', .ok ()) => (o', lift (Single.getState o.runs k m))

/-- `get_profile`, l.711-758: after the columns were looked up, the profile itself is read from the file (l.717, 722, 745, 751). -/
noncomputable def getProfile (argsort : List Interp.Node → List Interp.Node) (o : Obj) (key : String) (m : ℝ) : Obj × Except Err (List ℝ × List Row) :=
  match wants (decide (key ∈ profileKeys)) (sources o.runs m) o with
  | (o', .error e) => (o', .error e)
  | (o', .ok ()) =>
    if sources o.runs m ≠ [] ∧ o'.isOpen = false then (o', .error .io)
    else (o', lift (Single.getProfile argsort o.runs key m))

/-- The columns of a profile one after the other, track_match.py l.2287-2288. -/
noncomputable def columns (argsort : List Interp.Node → List Interp.Node) (m : ℝ) : List String → Obj → Obj × Except Err (List (String × List ℝ))
  | [], o => (o, .ok [])
  | k :: ks, o => match getProfile argsort o k m with
    | (o', .error e) => (o', .error e)
    | (o', .ok p) => match columns argsort m ks o' with
      | (o'', .error e) => (o'', .error e)
      | (o'', .ok l) => (o'', .ok ((k, p.1) :: l))

/-- `get_star_profile`, track_match.py l.2280-2291: the profile that is copied and its new columns. -/
noncomputable def starProfile (argsort : List Interp.Node → List Interp.Node) (names : List String) (m : ℝ) (o : Obj) :
    Obj × Except Err (List Row × List (String × List ℝ)) :=
  match getProfile argsort o "mass" m with
  | (o', .error e) => (o', .error e)
  | (o', .ok p) => match columns argsort m names o' with
    | (o'', .error e) => (o'', .error e)
    | (o'', .ok l) => (o'', .ok (p.2, l))

/-- What can be done with a grid. -/
inductive Op
  | track (key : String) (m : ℝ)
  | final (key : Name) (m : ℝ)
  | state (key : Name) (m : ℝ)
  | profile (key : String) (m : ℝ)
  | close

noncomputable def Op.act (tol : ℝ) (argsort : List Interp.Node → List Interp.Node) (o : Obj) : Op → Obj
  | .track k m => (get tol o k m).1
  | .final k m => (getFinal o k m).1
  | .state k m => (getState o k m).1
  | .profile k m => (getProfile argsort o k m).1
  | .close => Closing.close o

/-- The grid after a series of uses. -/
noncomputable def after (tol : ℝ) (argsort : List Interp.Node → List Interp.Node) (l : List Op) (o : Obj) : Obj := l.foldl (Op.act tol argsort) o

/-! ### The grids of a simulation and of a population -/

/-- `grids_Hrich` and `grids_strippedHe`. -/
structure Sim where
  rich : List (ℚ × Obj)
  stripped : List (ℚ × Obj)

/-- `SimulationProperties.close`, l.730-733. -/
def Sim.close (s : Sim) : Sim :=
  ⟨s.rich.map fun e => (e.1, Closing.close e.2), s.stripped.map fun e => (e.1, Closing.close e.2)⟩

/-- L.709-714 for one of the dictionaries: the grid of this metallicity, opened if there is none. -/
def grab (file : ℚ → List Run) (d : List (ℚ × Obj)) (z : ℚ) : List (ℚ × Obj) :=
  if z ∈ d.map (·.1) then d else d ++ [(z, make (file z))]

/-- The grids that a new matcher is given, l.709-718. -/
def Sim.prepare (rich stripped : ℚ → List Run) (s : Sim) (z : ℚ) : Sim := ⟨grab rich s.rich z, grab stripped s.stripped z⟩

/-- The parts of a population that `__getstate__` touches: the communicator, whether the steps are loaded, the grids; and all the rest. -/
structure Pop (C R : Type) where
  comm : Option C
  loaded : Bool
  sim : Sim
  rest : R

variable {C R : Type}

/-- `BinaryPopulation.close`, l.614-616. -/
def Pop.close (p : Pop C R) : Pop C R := { p with sim := p.sim.close }

/-- `__getstate__`, l.618-627: the dictionary of the population is changed itself, and returned. -/
def Pop.getstate (p : Pop C R) : Pop C R × Pop C R :=
  let q := { p with comm := none, sim := if p.loaded then p.sim.close else p.sim }
  (q, q)

end Verif.Closing
