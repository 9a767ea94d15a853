import Mathlib.Algebra.Order.Ring.Rat
import Mathlib.Data.List.Basic
import Mathlib.Tactic.Common
/-!
Model of the generator of initial binaries: `/repo/posydon/popsyn/binarypopulation.py`, `BinaryGenerator.get_binary_by_iter` (l.1015-1024),
`draw_initial_samples` (l.1026-1082) and `draw_initial_binary` (l.1084-1170), as far as the use of random numbers, the index and the
count of binaries are concerned.

Simplifications: the random number generator is a position in the stream `u` that its seed determines; the sampler draws `d` arrays one after the
other, each with one number per binary (as `generate_independent_samples` does for its schemes), the formation times `f` more
arrays (`f = 0` for a burst, 1 otherwise).  What the sampler makes of the numbers of one binary is a function of these.
-/
namespace Verif.Generator

/-- How random numbers are used. -/
structure Scheme where
  d : ℕ
  f : ℕ

/-- The generator: position in the stream and `_num_gen`. -/
structure Gen where
  pos : ℕ
  num : ℕ
  deriving DecidableEq

/-- A drawn binary: its index, the numbers behind its masses and orbit, and those behind its formation time. -/
structure Bin where
  index : ℕ
  sys : List ℚ
  time : List ℚ
  deriving DecidableEq

/-- `a` arrays of length `k` starting at `pos`: the numbers of binary `i`. -/
def column (u : ℕ → ℚ) (pos a k i : ℕ) : List ℚ := (List.range a).map fun j => u (pos + j * k + i)

/-- `draw_initial_samples` for `k` binaries, l.1031-1081. -/
def drawSamples (u : ℕ → ℚ) (s : Scheme) (g : Gen) (k : ℕ) : List Bin × Gen :=
  ((List.range k).map fun i => ⟨g.num + i, column u g.pos s.d k i, column u (g.pos + s.d * k) s.f k i⟩,
    ⟨g.pos + s.d * k + s.f * k, g.num + k⟩)

/-- `draw_initial_binary`, l.1097-1103 and the constructions below; an index given by the caller replaces the default one. -/
def drawBinary (u : ℕ → ℚ) (s : Scheme) (g : Gen) (index : Option ℕ) : Bin × Gen :=
  (⟨index.getD g.num, column u g.pos s.d 1 0, column u (g.pos + s.d * 1) s.f 1 0⟩, ⟨g.pos + s.d * 1 + s.f * 1, g.num + 1⟩)

/-- `n` calls of `draw_initial_binary`: the binaries in order and the generator afterwards. -/
def drawMany (u : ℕ → ℚ) (s : Scheme) : ℕ → Gen → List Bin × Gen
  | 0, g => ([], g)
  | n + 1, g =>
    let r := drawMany u s n g
    let b := drawBinary u s r.2 none
    (r.1 ++ [b.1], b.2)

/-- `get_binary_by_iter`: a generator with the original seed skips `n - 1` samples, drawn by the sampler alone, then draws one
binary; `_num_gen` is put back, the generator's own stream is not used. -/
def byIter (u : ℕ → ℚ) (s : Scheme) (g : Gen) (n : ℕ) : Bin × Gen :=
  let pos := if n ≠ 0 then s.d * (n - 1) else 0
  ((drawBinary u s ⟨pos, g.num⟩ (some n)).1, g)

end Verif.Generator
