import Verif.Table
import Mathlib.Algebra.Order.Ring.Rat
import Mathlib.Algebra.BigOperators.Group.List.Basic
import Mathlib.Data.List.Sort
import Mathlib.Data.List.Dedup
import Mathlib.Data.Rat.Defs
/-!
Model of weights and rates of transient events: `/repo/posydon/popsyn/synthetic_population.py`,
`TransientPopulation.calculate_model_weights` (l.1939-1987), `calculate_cosmic_weights` (l.2036-2213), `efficiency`
(l.2355-2390), `Rates.calculate_intrinsic_rate_density` (l.2570-2622), `calculate_observable_population` (l.2624-2695).

Simplifications: numbers are rational, `nan` is `none`; cosmology (ages, distances, volumes), the star formation rate per bin
and the density of the initial population are parameters; written tables are lists of rows.
-/
namespace Verif.Rates

/-! ### The model dictionary -/

/-- A Python dictionary from parameter names to values. -/
abbrev Dict (V : Type) := String → Option V

/-- `dict.update`. -/
def upd {V : Type} (d m : Dict V) : Dict V := fun k => (m k).orElse fun _ => d k

/-- l.2084-2089: the star formation model of a call, where `g` is the module's `DEFAULT_SFH_MODEL` at that moment, and what
becomes of `g`: `MODEL` and the module's dictionary are the same object. -/
def callModel {V : Type} (g : Dict V) : Option (Dict V) → Dict V × Dict V
  | none => (g, g)
  | some m => (upd g m, upd g m)

/-- The module's dictionary after a sequence of calls in one session. -/
def session {V : Type} (g : Dict V) (calls : List (Option (Dict V))) : Dict V := calls.foldl (fun g a => (callModel g a).1) g

/-! ### Windows of a table -/

/-- `range(0, n, cs)` for `cs > 0`. -/
def starts (n cs : ℕ) : List ℕ := (List.range ((n + cs - 1) / cs)).map (· * cs)

/-- Rows `start` up to `stop`, as `select(start=…, stop=…)` and `iloc[start:stop]` give them. -/
def window {α : Type} (l : List α) (start stop : ℕ) : List α := (l.drop start).take (stop - start)

inductive Err | value | index | shape
  deriving DecidableEq, Repr

/-- A loop over windows appending its results. -/
def appendAll {α : Type} (f : ℕ → Except Err (List α)) : List ℕ → Except Err (List α)
  | [] => .ok []
  | i :: is =>
    match f i with
    | .error e => .error e
    | .ok a =>
      match appendAll f is with
      | .error e => .error e
      | .ok b => .ok (a ++ b)

/-! ### Cosmic weights -/

/-- A row of the transient table: index of the binary, time of the event [Myr], metallicity [solar], formation channel. -/
structure Event where
  label : ℤ
  time : ℚ
  met : ℚ
  chan : Option String
  deriving DecidableEq

/-- What the weights of an event are computed with. -/
structure Cosmo where
  /-- `t_birth`, in Gyr -/
  tBirth : List ℚ
  /-- `cosmology.age(1e-08) * 0.9999999` -/
  tMax : ℚ
  /-- the interpolator `get_redshift_from_cosmic_time` -/
  zOf : ℚ → ℚ
  /-- `get_comoving_distance_from_redshift` -/
  dc : ℚ → ℚ
  /-- `4 π c` and `deltaT` -/
  k : ℚ
  dT : ℚ
  /-- `SFR_per_met_at_z_birth[b, j]` -/
  sfr : ℕ → ℕ → ℚ
  /-- `rates.centers_metallicity_bins` -/
  centers : List ℚ
  zsun : ℚ

/-- l.2168-2175: the redshifts of an event for all birth times. -/
def zRow (C : Cosmo) (e : Event) : List (Option ℚ) :=
  C.tBirth.map fun t => if t + e.time * (1 / 1000) ≤ C.tMax then some (C.zOf (t + e.time * (1 / 1000))) else none

/-- The right-hand side of l.2192-2200. -/
def binRow (C : Cosmo) (e : Event) (mw : ℚ) (j : ℕ) : List (Option ℚ) :=
  (zRow C e).zipIdx.map fun zb => zb.1.map fun z => C.k * C.dc z ^ 2 * C.dT * C.sfr zb.2 j * mw

/-- l.2189-2200: the weights of an event. -/
def wRow (C : Cosmo) (e : Event) (mw : ℚ) : List (Option ℚ) :=
  C.centers.zipIdx.foldl (fun row mj => if e.met * C.zsun = mj.1 then binRow C e mw mj.2 else row)
    (C.tBirth.map fun _ => some 0)

/-- A row of the tables `weights` and `z_events`. -/
structure CRow where
  label : ℤ
  w : List (Option ℚ)
  z : List (Option ℚ)
  deriving DecidableEq

/-- The row of one event. -/
def cRow (C : Cosmo) (p : Event × ℚ) : CRow := ⟨p.1.label, wRow C p.1 p.2, zRow C p.1⟩

/-- One pass of the loop, l.2153-2212. -/
def cosmicChunk (C : Cosmo) (cs : ℕ) (evs : List Event) (mws : List ℚ) (i : ℕ) : Except Err (List CRow) :=
  let es := window evs i (i + cs)
  let ms := window mws i (i + cs)
  if es.length = 0 then .ok []
  else if es.length ≠ ms.length then .error .index
  else .ok ((es.zip ms).map (cRow C))

/-- `calculate_cosmic_weights`, l.2095-2212: `nIndices` is `len(self.indices)`, the number of binaries of the population. -/
def cosmicWeights (C : Cosmo) (cs nIndices : ℕ) (evs : List Event) (present : Bool) (mws : List ℚ) : Except Err (List CRow) :=
  if !present then .error .value
  else if cs = 0 then .error .value
  else appendAll (cosmicChunk C cs evs mws) (starts nIndices cs)

/-! ### Rates -/

/-- One entry of `z_events` and `weights`. -/
abbrev Cell := Option ℚ × Option ℚ

/-- l.2608. -/
def inBin (lo hi : ℚ) (c : Cell) : Bool :=
  match c.1 with
  | some z => decide (lo < z) && decide (z ≤ hi)
  | none => false

/-- `np.nansum`. -/
def nansum (l : List Cell) : ℚ := (l.map fun c => c.2.getD 0).sum

/-- `np.nansum(weights[mask])`. -/
def binSum (rows : List (List Cell)) (lo hi : ℚ) : ℚ := nansum (rows.flatten.filter (inBin lo hi))

/-- `np.nansum(weights[mask & mask_ch])`. -/
def chanSum (rows : List (List Cell)) (chans : List String) (ch : String) (lo hi : ℚ) : ℚ :=
  binSum (((rows.zip chans).filter fun rc => decide (rc.2 = ch)).map Prod.fst) lo hi

/-- `np.unique`. -/
def uniqueStr (l : List String) : List String := l.dedup.insertionSort (· ≤ ·)

/-- A row of the resulting frame: the lower edge, the channel columns in the order of assignment, and the column `total`. -/
structure RRow where
  lo : ℚ
  cols : List (String × ℚ)
  total : ℚ
  deriving DecidableEq

/-- The frame, l.2598-2617; `vol` is `get_shell_comoving_volume`.  `chans` is `none` without channels. A channel called `total` is
overwritten by the total (l.2615). -/
def density (edges : List ℚ) (vol : ℚ → ℚ → ℚ) (rows : List (List Cell)) (chans : Option (List String)) : Except Err (List RRow) :=
  match chans with
  | none => .ok ((edges.zip edges.tail).map fun e => ⟨e.1, [], binSum rows e.1 e.2 / vol e.1 e.2⟩)
  | some cs =>
    if cs.length ≠ rows.length then .error .shape
    else .ok ((edges.zip edges.tail).map fun e =>
      ⟨e.1, ((uniqueStr cs).filter (· ≠ "total")).map (fun ch => (ch, chanSum rows cs ch e.1 e.2 / vol e.1 e.2)),
        binSum rows e.1 e.2 / vol e.1 e.2⟩)

/-! ### Efficiency -/

/-- l.2379: the total of a metallicity of the mass table. -/
def effTotal (evs : List (Event × ℚ)) (met : ℚ) : ℚ := ((evs.filter fun p => decide (p.1.met = met)).map Prod.snd).sum

/-- l.2384: the entry of a channel; events without channel belong to no group. -/
def effChan (evs : List (Event × ℚ)) (met : ℚ) (ch : String) : ℚ :=
  ((evs.filter fun p => decide (p.1.met = met) && decide (p.1.chan = some ch)).map Prod.snd).sum

/-- The channels of the frame. -/
def effChans (evs : List (Event × ℚ)) : List String := (evs.filterMap fun p => p.1.chan).dedup

/-- `efficiency(…, channels=True)` at a row of the frame: the total and the columns; a missing entry is 0 (l.2389).  A metallicity that is not in the
mass table gets a row but no total. -/
def efficiency (mets : List ℚ) (evs : List (Event × ℚ)) (met : ℚ) : ℚ × List (String × ℚ) :=
  (if met ∈ mets then effTotal evs met else 0, (effChans evs).map fun ch => (ch, effChan evs met ch))

/-! ### Model weights -/

/-- A row of the one-line table: index, and the quantities the density needs. -/
abbrev One (β : Type) := ℤ × β

/-- `np.unique` of labels. -/
def uniqueInt (l : List ℤ) : List ℤ := l.dedup.insertionSort (· ≤ ·)

/-- `dict(zip(keys, values))[k]`: the last pair with this key. -/
def lookupLast {β : Type} (l : List (ℤ × β)) (k : ℤ) : Option β := l.reverse.lookup k

/-- l.1947-1971 for one metallicity: labels of its events, in order and without repetition, zipped with the weights of the
selected one-line rows in file order; `weightOf` is `calculate_model_weights` row by row for this metallicity. -/
def metMapping {β : Type} (weightOf : β → ℚ) (one : List (One β)) (evs : List Event) (met : ℚ) : List (ℤ × ℚ) :=
  let ids := uniqueInt ((evs.filter fun e => decide (e.met = met)).map Event.label)
  ids.zip ((one.filter fun r => decide (r.1 ∈ ids)).map fun r => weightOf r.2)

/-- l.1940-1971: one weight per event; `mets` lists the metallicities of the mass table with the density to use. -/
def modelWeights {β : Type} (mets : List (ℚ × (β → ℚ))) (one : List (One β)) (evs : List Event) : List ℚ :=
  mets.foldl (fun col m => (evs.zip col).map fun p => (lookupLast (metMapping m.2 one evs m.1) p.1.label).getD p.2)
    (evs.map fun _ => 0)

/-! ### Observable population -/

/-- `calculate_observable_population`, l.2671-2695: `n` is `len(self)`, the number of systems; `f` is the user's function on
the three chunks. -/
def observable {α β γ : Type} (cs n : ℕ) (f : List α → List β → List γ) (pop : List α) (rows : List β) : Except Err (List γ) :=
  if cs = 0 then .error .value
  else appendAll (fun i => .ok (f (window pop i (i + cs)) (window rows i (i + cs)))) (starts n cs)

end Verif.Rates
