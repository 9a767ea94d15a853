import Mathlib.Data.List.Basic
import Mathlib.Data.Rat.Defs
import Mathlib.Tactic.Common
/-!
Model of the choice of random seeds: `/repo/posydon/popsyn/binarypopulation.py`, `BinaryPopulation.__init__` l.157-195 and
`BinaryGenerator.__init__`, `reset_rng`, `get_original_rng` l.987-1013.

Simplifications: a seed sequence is identified with its entropy and spawn key, which is what determines its stream in numpy;
the entropy drawn from the operating system for `entropy=None` is a parameter.
-/
namespace Verif.Seeds

/-- `np.random.SeedSequence`: entropy and spawn key. -/
structure Seed where
  entropy : ℕ
  key : List ℕ
  deriving DecidableEq, Repr

/-- How the population is run: alone, with MPI, or as a job array. -/
inductive Mode
  | alone
  | mpi (rank size : ℕ)
  | job (id rank size : ℕ)

structure Task where
  entropy : Option ℕ
  /-- all metallicities of the run and the one of this task -/
  mets : List ℚ
  met : ℚ
  mode : Mode
  /-- entropy provided by the operating system if none is given -/
  os : ℕ

inductive Err | value | index
  deriving DecidableEq, Repr

/-- `[i for i in seq.spawn(size)][rank]`. -/
def spawn (s : Seed) (size rank : ℕ) : Except Err Seed :=
  if rank < size then .ok ⟨s.entropy, s.key ++ [rank]⟩ else .error .index

/-- `self.metallicities.index(self.metallicity)`. -/
def metShift (t : Task) : Except Err ℕ := if t.met ∈ t.mets then .ok (t.mets.idxOf t.met) else .error .value

/-- l.157-190. -/
def seedOf (t : Task) : Except Err Seed :=
  let seq : Seed := ⟨t.entropy.getD t.os, []⟩
  match t.mode with
  | .alone => .ok seq
  | .mpi rank size =>
    match t.entropy with
    | none => .error .value
    | some e =>
      match metShift t with
      | .error x => .error x
      | .ok k => spawn ⟨e + k, []⟩ size rank
  | .job id rank size =>
    match t.entropy with
    | none =>
      match metShift t with
      | .error x => .error x
      | .ok k => spawn ⟨id + k, []⟩ size rank
    | some _ => spawn seq size rank

/-- `get_original_rng` after l.194/997, `entropy = RNG.bit_generator._seed_seq.entropy`: only the entropy is kept. -/
def originalSeed (s : Seed) : Seed := ⟨s.entropy, []⟩

end Verif.Seeds
