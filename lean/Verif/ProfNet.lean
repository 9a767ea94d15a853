import Verif.ProfTrain
import Mathlib.Data.List.Dedup
import Mathlib.Tactic.FieldSimp
/-!
Model of the training of density profiles, `/repo/posydon/interpolation/profile_interpolation.py`: `Density.__init__` (l.384-417), `Density.train` (l.437-458),
`ProfileInterpolator.train` (l.242-281) and `ProfileInterpolator.predict` (l.299-312).

Simplifications: a network is what it gives for an input, its training a parameter that takes the pairs of inputs and outputs it is trained on; layers, epochs and
the values of losses are left out; validation data have an effect on those only, but have to be normalised as well and cannot be empty.  The principal component analysis is a parameter: what it
does with a profile and with weights after a fit to profiles.  It fails with less profiles than components or with nan, as in scikit-learn.  Profiles have 200 cells.
-/
namespace Verif.ProfNet

open ProfTrain (Name)

inductive Err | value | name
  deriving DecidableEq

/-- A binary of the training data: initial values, density in 200 cells, class. -/
structure Bin (I : Type) where
  x : I
  prof : ℕ → ℚ
  cls : Name

/-- l.400-401: zero over zero is nan, and nan of one cell is one of the profile. -/
def normal (p : ℕ → ℚ) : Option (ℕ → ℚ) := if p 0 - p 199 = 0 then none else some fun k => (p k - p 199) / (p 0 - p 199)

def normals {I : Type} : List (Bin I) → Option (List (ℕ → ℚ))
  | [] => some []
  | b :: l =>
    match normal b.prof, normals l with
    | some p, some r => some (p :: r)
    | _, _ => none

/-- A fitted analysis: weights of a profile, and a profile from weights. -/
structure Pca (W : Type) where
  fwd : (ℕ → ℚ) → W
  inv : W → ℕ → ℚ

/-- The tools: the analysis of profiles, and the training of networks for weights and for the density of the surface. `fresh` is a network that is not trained. -/
structure Tools (I W : Type) where
  pca : List (ℕ → ℚ) → Pca W
  fit : List (I × W) → I → W
  fresh : I → W
  fitSurf : List (I × ℚ) → I → ℚ

/-- Classes without a star to predict, l.441 and 476. -/
def skipped : List Name := [(chars! "not_converged"), (chars! "initial_MT")]

/-- The object after training. -/
structure Dens (I W : Type) where
  pca : Pca W
  classes : List Name
  models : Name → I → W
  surf : I → ℚ
  history : List Name

/-- `Density.__init__` and `Density.train` -/
def train {I W : Type} (T : Tools I W) (comps : ℕ) (bins valid : List (Bin I)) : Except Err (Dens I W) :=
  match normals bins, normals valid with
  | some ps, some _ =>
    if bins.length < comps ∨ 200 < comps ∨ valid = [] then .error .value
    else
      let pca := T.pca ps
      let classes := (bins.map (·.cls)).dedup
      let data := bins.zip (ps.map pca.fwd)
      .ok { pca := pca, classes := classes,
            models := fun c => if c ∈ skipped then T.fresh else T.fit ((data.filter fun d => decide (d.1.cls = c)).map fun d => (d.1.x, d.2)),
            surf := T.fitSurf (bins.map fun b => (b.x, b.prof 199)),
            history := classes.filter fun c => decide (c ∉ skipped) }
  | _, _ => .error .value

/-- `Density.predict` by the definition of C101, with the class of the classifier and the central density of the interpolator. -/
def predict {I W : Type} (d : Dens I W) (cls : I → Name) (center : I → ℚ) (inputs : List I) : List ProfTrain.Row :=
  ProfTrain.density d.classes cls (fun c x => d.pca.inv (d.models c x)) d.surf center inputs

/-- What `ProfileInterpolator.train` returns, l.272-281: `PWarn` is not defined. -/
inductive Out | none | density | composition | both
  deriving DecidableEq

def trainOut (comp dens history : Bool) : Except Err Out :=
  if history then
    if comp && dens then .ok .both else if !comp && dens then .ok .density else if comp && !dens then .ok .composition else .error .name
  else .ok .none

/-- What `ProfileInterpolator.predict` returns, l.304-312. -/
def predictOut (comp dens : Bool) : Except Err Out :=
  if comp && dens then .ok .both else if !comp && dens then .ok .density else if comp && !dens then .ok .composition else .error .name

end Verif.ProfNet
