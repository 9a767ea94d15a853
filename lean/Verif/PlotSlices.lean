import Verif.Chars
import Verif.Frame
import Mathlib.Analysis.SpecialFunctions.Log.Base
import Mathlib.Algebra.Order.Floor.Semiring
import Mathlib.Data.List.Nodup
import Mathlib.Tactic.Common

/-!
# Slices of grids and of populations for plots

Model of `bin/posydon-run-pipeline`, `plot_grid`: the values and edges of the slices
(`_nbin` and `_range`, l.1066-1081, l.1224-1260), the attributes of a plot by the name of its
quantity (l.1155-1217), and of `posydon/visualization/plot_pop.py`: `get_population_data`
(l.292-366), the edges in `setup_grid_slice_plotting` (l.395-414) and the binaries drawn in a
slice by `plot_population_data` (l.459-467).  The runs of a grid drawn in a slice are those of
`posydon/visualization/plot2D.py` l.829-833 (both ends included).

Simplifications.  Real numbers instead of floats.  `float("inf")` as the end of a slice is `none`.
Drawing itself is left out.  The preset attributes of plots are a parameter, as are the names of the
supernova models.  Rows of the history are given in the order of the file; masses are numbers
(never missing).  `numpy.unique(numpy.around(…))` is a parameter: the centres.
-/

namespace Verif.PlotSlices

abbrev Name := List Char

open Verif.Frame (isIn split)

/-! ### Values and edges -/

/-- A scale: linear, or logarithmic (`log=True`). -/
structure Scale where
  g : ℝ → ℝ
  e : ℝ → ℝ

noncomputable def lin : Scale := ⟨fun x => x, fun x => x⟩
noncomputable def log10 : Scale := ⟨Real.logb 10, fun x => (10 : ℝ) ^ x⟩

noncomputable def scale (log : Bool) : Scale := if log then log10 else lin

/-- `numpy.linspace`. -/
noncomputable def linspace (a b : ℝ) (n : ℕ) : List ℝ :=
  (List.range n).map fun (i : ℕ) => a + i * ((b - a) / (n - 1 : ℕ))

/-- `_nbin` (l.1066-1071); `int` cuts towards zero and the argument is not negative. -/
noncomputable def nbin (s : Scale) (a b step : ℝ) : ℕ := ⌊(s.g b - s.g a) / step⌋₊ + 1

/-- The middle of two values on a scale. -/
noncomputable def mid (s : Scale) (a b : ℝ) : ℝ := s.e ((s.g a + s.g b) * (1/2))

/-- `(vars[1:]+vars[:-1])*0.5` on a scale. -/
noncomputable def mids (s : Scale) (l : List ℝ) : List ℝ := List.zipWith (mid s) l l.tail

/-- A slice with its end, `none` for infinity. -/
abbrev Slice := ℝ × Option ℝ

/-- The slices between `0`, the edges and infinity (l.1080, l.1268). -/
def slices (m : List ℝ) : List Slice := List.zip (0 :: m) (m.map some ++ [none])

/-- `_range` (l.1073-1081) with its slices. -/
noncomputable def range (s : Scale) (a b : ℝ) (n : ℕ) : List ℝ × List Slice :=
  let vars := (linspace (s.g a) (s.g b) n).map s.e
  (vars, slices (mids s vars))

/-- The runs drawn in a slice: both ends belong to it (`plot2D.py` l.829-833). -/
def Within (v : ℝ) (p : Slice) : Prop := p.1 ≤ v ∧ ∀ h, p.2 = some h → v ≤ h

/-- `grid_sample` (l.1042-1064). -/
structure Sample where
  lo : ℝ
  hi : ℝ
  n : ℕ
  step : ℝ

/-- The sample for compact objects fitted to the masses of a grid (l.1237-1244). -/
noncomputable def fit (sm : Sample) (mn mx : ℝ) : Sample :=
  let s1 := if mn < sm.lo then { sm with lo := mn, n := nbin log10 mn sm.hi sm.step } else sm
  if s1.hi < mx then { s1 with hi := mx, n := nbin log10 s1.lo mx s1.step } else s1

/-- The values and slices for the mass ratio (l.1251-1256): the last value is replaced if it is one. -/
noncomputable def ratioSlices : List ℝ × List Slice :=
  let r := range lin (1/20) 1 20
  (r.1.dropLast ++ (r.1.getLast?.map fun x => if x = 1 then 99/100 else x).toList, r.2)

/-! ### Attributes of plots -/

structure Attr where
  dir : List Name
  z : Option Name
  log : Bool
deriving DecidableEq

/-- The attributes of a plot (l.1155-1213).  `preset` gives the changes of a preset. -/
def attributes (preset : Name → Option (Attr → Attr)) (models : List Name) (q : Name) : Attr :=
  let dflt : Attr := ⟨[(chars! "default")], none, false⟩
  match preset q with
  | some f => f dflt
  | none =>
    if isIn (chars! "INTERP_ERROR_") q then
      let short := (split (chars! "INTERP_ERROR_") q).getLastD []
      match preset (chars! "INTERP_ERROR_DEFAULT") with
      | some f => f { dflt with dir := [(chars! "INTERP_ERROR"), short], z := some short }
      | none => dflt
    else if isIn (chars! "_SN_MODEL") q then
      let short := models.foldl (fun acc m =>
        if isIn (m ++ (chars! "_")) q then (split (m ++ (chars! "_")) q).getLastD [] else acc) []
      let short := if short = [] then (chars! "mass") else short
      let model := (split ((chars! "_") ++ short) q).headD []
      match preset ((split (chars! "_SN_MODEL") q).headD [] ++ (chars! "_SN_MODEL_DEFAULT_") ++ short) with
      | some f => f { dflt with dir := [model, short], z := some q }
      | none => dflt
    else if q.take 6 = (chars! "LOG10_") then ⟨[q.drop 6], some (q.drop 6), true⟩
    else ⟨[q], some q, false⟩

/-! ### Populations -/

/-- A row of the table of binaries. -/
structure Binary where
  idx : ℕ
  channel : Name
  met : ℚ
  prop : ℚ

/-- A row of the history. -/
structure Step where
  idx : ℕ
  m1 : ℚ
  m2 : ℚ
  period : ℚ
  event : Option Name

/-- A row of the data for the plot. -/
structure Datum where
  idx : ℕ
  m1 : ℚ
  m2 : ℚ
  period : ℚ
  q : ℚ
  prop : Option ℚ
deriving DecidableEq

inductive Err where
  | value
deriving DecidableEq

/-- The binaries of a metallicity and, if given, of a channel (l.314-323). -/
def chosen (pop : List Binary) (met : ℚ) (channel : Option Name) : List Binary :=
  pop.filter fun b => (match channel with | none => true | some c => b.channel = c) && b.met = met

/-- The rows of the history at the event of a type of grid, with the masses of the two stars exchanged for grids with
compact objects (l.335-351). -/
def atEvent (gridType : Name) (rows : List Step) : List Step :=
  let swap := fun r : Step => { r with m1 := r.m2, m2 := r.m1 }
  if gridType = (chars! "HMS-HMS") then rows.filter fun r => r.event = some (chars! "ZAMS")
  else if gridType = (chars! "CO-HMS_RLO") then (rows.filter fun r => r.event = some (chars! "oRLO2")).map swap
  else if gridType = (chars! "CO-HeMS") then (rows.filter fun r => r.event = some (chars! "step_CE")).map swap
  else rows

/-- The mass ratio (l.353-356). -/
def ratio (m1 m2 : ℚ) : ℚ := let q := m2 / m1; if 1 < q then 1 / q else q

/-- `get_population_data` (l.292-366); `prop` says whether the values of a property are asked for: they are put beside the rows
one after the other, and a wrong number of them raises `ValueError`. -/
def populationData (pop : List Binary) (hist : List Step) (met : ℚ) (gridType : Name) (channel : Option Name) (prop : Bool) :
    Except Err (List Datum) :=
  let sel := chosen pop met channel
  let rows := atEvent gridType (hist.filter fun r => (sel.map (·.idx)).contains r.idx)
  let data := rows.map fun r => (⟨r.idx, r.m1, r.m2, r.period, ratio r.m1 r.m2, none⟩ : Datum)
  if prop then
    if data.length = sel.length then .ok (List.zipWith (fun d b => { d with prop := some b.prop }) data sel)
    else .error .value
  else .ok data

/-- The edges for mass ratios (l.397-401). -/
noncomputable def ratioEdges (centres : List ℝ) : List ℝ := 0 :: mids lin centres ++ [1]

/-- The edges for compact objects (l.408-409): `none` for the `IndexError` with a single mass. -/
noncomputable def massEdges (centres : List ℝ) : Option (List ℝ) :=
  match (mids log10 centres).getLast? with
  | none => none
  | some l => some (0 :: mids log10 centres ++ [2 * l])

/-- The binaries drawn in slice `k`: the upper edge does not belong to it (l.253, l.467). -/
def Drawn (edges : List ℝ) (k : ℕ) (v : ℝ) : Prop := ∃ lo hi, edges[k]? = some lo ∧ edges[k + 1]? = some hi ∧ lo ≤ v ∧ v < hi

/-! ### Lemmas -/

/-- What is needed of a scale. -/
structure Good (s : Scale) : Prop where
  inv : ∀ x, 0 < x → s.e (s.g x) = x
  mono : StrictMono s.e

theorem lin_good : Good lin := ⟨fun _ _ => rfl, fun _ _ h => h⟩

theorem log10_good : Good log10 where
  inv x hx := Real.rpow_logb (by norm_num) (by norm_num) hx
  mono a b h := Real.rpow_lt_rpow_of_exponent_lt (by norm_num) h

theorem Good.g_lt {s : Scale} (hs : Good s) {a b : ℝ} (ha : 0 < a) (h : a < b) : s.g a < s.g b := by
  by_contra hc
  push Not at hc
  have := hs.mono.monotone hc
  rw [hs.inv a ha, hs.inv b (ha.trans h)] at this
  linarith

theorem Good.mid_between {s : Scale} (hs : Good s) {a b : ℝ} (ha : 0 < a) (h : a < b) : a < mid s a b ∧ mid s a b < b := by
  have hg := hs.g_lt ha h
  constructor
  · have := hs.mono (show s.g a < (s.g a + s.g b) * (1/2) by linarith)
    rwa [hs.inv a ha] at this
  · have := hs.mono (show (s.g a + s.g b) * (1/2) < s.g b by linarith)
    rwa [hs.inv b (ha.trans h)] at this

theorem mids_cons (s : Scale) (a b : ℝ) (l : List ℝ) : mids s (a :: b :: l) = mid s a b :: mids s (b :: l) := rfl

theorem mids_length (s : Scale) (l : List ℝ) : (mids s l).length = l.length - 1 := by
  simp [mids]

theorem slices_length (m : List ℝ) : (slices m).length = m.length + 1 := by
  simp [slices]

/-- The slices above a lower end. -/
def above (lo : ℝ) (m : List ℝ) : List Slice := List.zip (lo :: m) (m.map some ++ [none])

theorem above_cons (lo a : ℝ) (m : List ℝ) : above lo (a :: m) = (lo, some a) :: above a m := rfl

/-- Each of the values is strictly inside its own slice. -/
theorem centre_inside {s : Scale} (hs : Good s) : ∀ (l : List ℝ) (lo : ℝ), (∀ x ∈ l, 0 < x) → l.Pairwise (· < ·) →
    (∀ x ∈ l.head?, lo < x) → ∀ (k : ℕ) (x : ℝ), l[k]? = some x → ∃ p : Slice, (above lo (mids s l))[k]? = some p ∧ p.1 < x ∧ ∀ h, p.2 = some h → x < h
  | [], _, _, _, _, _, _, h => by simp at h
  | [a], lo, _, _, hlo, 0, x, h => by
    obtain rfl : a = x := by simpa using h
    exact ⟨(lo, none), rfl, hlo a rfl, fun _ h => by cases h⟩
  | [a], _, _, _, _, k + 1, x, h => by simp at h
  | a :: b :: l, lo, hp, hw, hlo, k, x, h => by
    have hab : a < b := (List.pairwise_cons.mp hw).1 b (by simp)
    have hm := hs.mid_between (hp a (by simp)) hab
    rw [mids_cons, above_cons]
    cases k with
    | zero =>
      obtain rfl : a = x := by simpa using h
      exact ⟨_, rfl, hlo a rfl, fun _ h' => by cases h'; exact hm.1⟩
    | succ k =>
      have := centre_inside hs (b :: l) (mid s a b) (fun x hx => hp x (List.mem_cons_of_mem _ hx))
        (List.pairwise_cons.mp hw).2 (fun x hx => by
          obtain rfl : b = x := by simpa using hx
          exact hm.2) k x (by simpa using h)
      simpa using this

/-- The edges rise. -/
theorem mids_sorted {s : Scale} (hs : Good s) : ∀ (l : List ℝ), (∀ x ∈ l, 0 < x) → l.Pairwise (· < ·) →
    (mids s l).Pairwise (· < ·) ∧ ∀ e ∈ mids s l, ∀ x ∈ l.head?, x < e
  | [], _, _ => by simp [mids]
  | [a], _, _ => by simp [mids]
  | a :: b :: l, hp, hw => by
    have hab : a < b := (List.pairwise_cons.mp hw).1 b (by simp)
    have hm := hs.mid_between (hp a (by simp)) hab
    have ih := mids_sorted hs (b :: l) (fun x hx => hp x (List.mem_cons_of_mem _ hx)) (List.pairwise_cons.mp hw).2
    rw [mids_cons]
    constructor
    · rw [List.pairwise_cons]
      exact ⟨fun e he => hm.2.trans (ih.2 e he b rfl), ih.1⟩
    · intro e he x hx
      obtain rfl : a = x := by simpa using hx
      rcases List.mem_cons.mp he with rfl | he
      · exact hm.1
      · exact hab.trans (ih.2 e he b rfl)

theorem slice_ends : ∀ (m : List ℝ) (lo : ℝ) (k : ℕ) (p : Slice), (above lo m)[k]? = some p → (lo :: m)[k]? = some p.1 ∧ p.2 = m[k]?
  | [], lo, 0, p, h => by
    obtain rfl : (lo, none) = p := by simpa [above] using h
    simp
  | [], lo, k + 1, p, h => by simp [above] at h
  | a :: m, lo, 0, p, h => by
    obtain rfl : (lo, some a) = p := by simpa [above_cons] using h
    simp
  | a :: m, lo, k + 1, p, h => by
    rw [above_cons] at h
    have := slice_ends m a k p (by simpa using h)
    simpa using this

/-- Every value above the lower end is in a slice. -/
theorem covered : ∀ (m : List ℝ) (lo v : ℝ), lo ≤ v → ∃ p ∈ above lo m, Within v p
  | [], lo, v, h => ⟨(lo, none), by simp [above], h, fun _ h' => by cases h'⟩
  | a :: m, lo, v, h => by
    rw [above_cons]
    by_cases ha : v ≤ a
    · exact ⟨(lo, some a), by simp, h, fun _ h' => by cases h'; exact ha⟩
    · obtain ⟨p, hp, hw⟩ := covered m a v (by linarith)
      exact ⟨p, List.mem_cons_of_mem _ hp, hw⟩

theorem sorted_get {l : List ℝ} (h : l.Pairwise (· < ·)) {i j : ℕ} {x y : ℝ} (hi : l[i]? = some x) (hj : l[j]? = some y) (hij : i < j) : x < y := by
  obtain ⟨h1, rfl⟩ := List.getElem?_eq_some_iff.mp hi
  obtain ⟨h2, rfl⟩ := List.getElem?_eq_some_iff.mp hj
  exact List.pairwise_iff_getElem.mp h i j h1 h2 hij

end Verif.PlotSlices
