import Verif.Chars
import Mathlib.Data.List.Dedup
import Mathlib.Data.List.Perm.Basic
import Mathlib.Tactic.Common
import Mathlib.Tactic.Ring

/-!
# Panels and legends of plots of grids

Model of `/repo/posydon/visualization/plot2D.py`: the arrangement of the panels and of the legend in `__call__` (l.381-403), the walk over
the cells and the slices in `plot_panels` (l.1257-1299), the choice of what is drawn for a flag and the legend in `plot_panel`
(l.500-696) and in `plot_panels` (l.1301-1437, l.1481-1485), and the labels of the axes (l.1440-1449).

Simplifications.  Drawing is a list of cells with what they show; of an artist only the flag it was drawn for is kept.  From `matplotlib`
two rules are used: `subplots` gives a two-dimensional array of axes only if there is more than one row and more than one column
(`squeeze=True`), and `add_subplot` takes a position, or a first and a last one, between 1 and the number of cells.
Positions are positive.  `numpy.unique` of the flags is any list without repetitions that has the same members.
-/

namespace Verif.Panels

abbrev Name := List Char

inductive Err where
  | value | index | unbound
deriving DecidableEq

/-! ### Cells -/

/-- `legend_pos`: a position or a first and a last one. -/
inductive Pos where
  | one (p : ℕ)
  | span (a b : ℕ)
deriving DecidableEq

/-- `range(a, b)`. -/
def pyRange (a b : ℕ) : List ℕ := (List.range (b - a)).map (a + ·)

/-- The cells taken by the legend, l.384-393: the rectangle spanned by the positions, on a grid of `max_cols` columns. -/
def legendCells (maxCols : ℕ) : Pos → List ℕ
  | .one p => [p]
  | .span a b =>
    let c1 := (a - 1) % maxCols + 1
    let c2 := (b - 1) % maxCols + 1
    let r1 := (a - 1) / maxCols + 1
    let r2 := (b - 1) / maxCols + 1
    (pyRange (min r1 r2 - 1) (max r1 r2)).flatMap fun j => (pyRange (min c1 c2) (max c1 c2 + 1)).map fun i => i + j * maxCols

/-- The number of columns, l.396. -/
def cols (n l maxCols : ℕ) : ℕ := min (n + l) maxCols

/-- The number of rows, l.397. -/
def rows (n l maxCols : ℕ) : ℕ := (n + l - 1) / cols n l maxCols + 1

/-- What is in a cell. -/
inductive Cell where
  | off
  | draw (i3 i4 : ℕ)
deriving DecidableEq

/-- The walk over the cells, l.1280-1299; `i3` is one more than `i3D`.  `slice_4D_var_ranges[i4D]` fails beyond its end. -/
def walk (n3 n4 : ℕ) (leg : List ℕ) : List ℕ → ℕ → ℕ → Except Err (List Cell)
  | [], _, _ => .ok []
  | c :: cs, i3, i4 =>
    if c ∈ leg then (walk n3 n4 leg cs i3 i4).map (.off :: ·)
    else
      let j3 := if i3 = n3 then 0 else i3
      let j4 := if i3 = n3 then i4 + 1 else i4
      if j4 = n4 then (walk n3 n4 leg cs (j3 + 1) j4).map (.off :: ·)
      else if 1 < n4 ∧ n4 ≤ j4 then .error .index
      else (walk n3 n4 leg cs (j3 + 1) j4).map (.draw j3 j4 :: ·)

/-- `add_subplot(n_rows, n_cols, legend_pos)`. -/
def place (cells : ℕ) : Pos → Bool
  | .one p => decide (1 ≤ p ∧ p ≤ cells)
  | .span a b => decide (1 ≤ a ∧ a ≤ b ∧ b ≤ cells)

/-- The panels of a plot, l.381-403 and l.1280-1299: `n3` and `n4` slices. -/
def call (n3 n4 maxCols : ℕ) (pos : Pos) : Except Err (List Cell) :=
  let leg := legendCells maxCols pos
  let n := n3 * n4
  let r := rows n leg.length maxCols
  let c := cols n leg.length maxCols
  if place (r * c) pos = false then .error .value
  else if r = 1 ∨ c = 1 then .error .index
  else walk n3 n4 leg (pyRange 1 (r * c + 1)) 0 0

/-- The slices that are drawn. -/
def drawn (l : List Cell) : List (ℕ × ℕ) := l.filterMap fun
  | .off => none
  | .draw a b => some (a, b)

/-! ### Flags and legends -/

/-- The entry of a flag in the table of markers: whether it has a colour of its own, and its text. -/
structure Style where
  coloured : Bool
  text : Name

/-- One panel: a flag gets an artist unless its values cannot be drawn with colours (`except`, l.620-634). -/
def artistOne (style : Name → Style) (z : Bool) (fails : Name → Bool) (f : Name) : Bool :=
  (style f).coloured || !z || !fails f

/-- Several panels: a flag without a colour of its own gets no artist if there are no colours (l.1363-1433). -/
def artistMany (style : Name → Style) (z : Bool) (f : Name) : Bool := (style f).coloured || z

/-- The legend, l.500-504, l.694-696 and l.1435-1437: entries are the flag of the artist and the text; `last` is the last artist. -/
def legend (art : Name → Bool) (text : Name → Name) : List Name → Option Name → List (Name × Name) → Except Err (List (Name × Name))
  | [], _, acc => .ok acc
  | f :: fs, last, acc =>
    let now := if art f then some f else last
    if text f ∈ acc.map (·.2) then legend art text fs now acc
    else match now with
      | none => .error .unbound
      | some a => legend art text fs now (acc ++ [(a, text f)])

/-- The runs that are drawn: for each flag with an artist those with that flag. -/
def points (art : Name → Bool) (flags : List Name) (us : List Name) : List ℕ :=
  us.flatMap fun u => if art u then (List.range flags.length).filter fun i => flags[i]? = some u else []

/-- The legend of several panels is sorted by its texts, l.1481-1485; `sorted` is the list of texts in order. -/
def sortLegend (leg : List (Name × Name)) (sorted : List Name) : List (Name × Name) :=
  sorted.filterMap fun t => (leg.find? fun p => p.2 = t)

/-! ### Labels -/

/-- The horizontal axis of a cell has a label, l.1440. -/
def xLabel (r c : ℕ) (leg : List ℕ) (row col : ℕ) : Bool :=
  decide (row + 1 = r) || decide (row * c + col + 1 + c ∈ leg)

/-- The vertical axis of a cell has a label, l.1445. -/
def yLabel (c : ℕ) (leg : List ℕ) (row col : ℕ) : Bool :=
  decide (col = 0) || decide (row * c + col + 1 - 1 ∈ leg)

/-! ### Specification -/

/-- The slices one after the other, those of the third quantity first. -/
def allSlices (n3 n4 : ℕ) : List (ℕ × ℕ) := (List.range n4).flatMap fun j => (List.range n3).map fun i => (i, j)

/-- `us` are the different members of `flags`. -/
def Different (us flags : List Name) : Prop := us.Nodup ∧ ∀ u, u ∈ us ↔ u ∈ flags

/-! ### Auxiliary results -/

/-- What the walk draws, by the number of cells already used. -/
def shows (n3 n4 : ℕ) (c k : ℕ) : List (ℕ × ℕ) :=
  (((List.range k).map (c + ·)).filter fun x => decide (x / n3 ≠ n4)).map fun x => (x % n3, x / n3)

theorem shows_succ (n3 n4 c k : ℕ) :
    shows n3 n4 c (k + 1) = (if c / n3 ≠ n4 then [(c % n3, c / n3)] else []) ++ shows n3 n4 (c + 1) k := by
  unfold shows
  rw [List.range_succ_eq_map, List.map_cons, List.map_map, Nat.add_zero]
  have e : List.map ((fun x => c + x) ∘ Nat.succ) (List.range k) = (List.range k).map (c + 1 + ·) := by
    apply List.map_congr_left
    intro x _
    simp only [Function.comp, Nat.succ_eq_add_one]; omega
  rw [e, List.filter_cons]
  split <;> split <;> simp_all

theorem walk_spec {n3 n4 : ℕ} {leg : List ℕ} (h3 : 0 < n3) : ∀ (cs : List ℕ) (i3 i4 c : ℕ), i3 ≤ n3 → i3 + n3 * i4 = c →
    (1 < n4 → c ≤ n3 * (n4 + 1)) →
    let k := (cs.filter (· ∉ leg)).length
    ((n4 ≤ 1 ∨ c + k ≤ n3 * (n4 + 1)) → ∃ out, walk n3 n4 leg cs i3 i4 = .ok out ∧ drawn out = shows n3 n4 c k ∧ out.length = cs.length) ∧
    (1 < n4 → n3 * (n4 + 1) < c + k → walk n3 n4 leg cs i3 i4 = .error .index) := by
  intro cs
  induction cs with
  | nil =>
    intro i3 i4 c _ _ hc
    refine ⟨fun _ => ⟨[], rfl, rfl, rfl⟩, fun h1 h2 => ?_⟩
    simp at h2
    exact absurd (hc h1) (by omega)
  | cons x cs ih =>
    intro i3 i4 c hi hc hle
    by_cases hx : x ∈ leg
    · have hk : ((x :: cs).filter (· ∉ leg)).length = (cs.filter (· ∉ leg)).length := by simp [hx]
      obtain ⟨p1, p2⟩ := ih i3 i4 c hi hc hle
      dsimp only
      rw [hk]
      refine ⟨fun h => ?_, fun h1 h2 => ?_⟩
      · obtain ⟨out, h1, h2, h3'⟩ := p1 h
        refine ⟨.off :: out, ?_, by simpa [drawn] using h2, by simp [h3']⟩
        rw [walk, if_pos hx, h1]; rfl
      · rw [walk, if_pos hx, p2 h1 h2]; rfl
    · have hk : ((x :: cs).filter (· ∉ leg)).length = (cs.filter (· ∉ leg)).length + 1 := by simp [hx]
      dsimp only
      rw [hk]
      obtain ⟨j3, hj3⟩ : ∃ j3, j3 = if i3 = n3 then 0 else i3 := ⟨_, rfl⟩
      obtain ⟨j4, hj4⟩ : ∃ j4, j4 = if i3 = n3 then i4 + 1 else i4 := ⟨_, rfl⟩
      have hj : j3 < n3 ∧ j3 + n3 * j4 = c := by
        by_cases h : i3 = n3
        · rw [if_pos h] at hj3 hj4
          subst hj3 hj4
          refine ⟨h3, ?_⟩
          rw [← hc, h]; ring
        · rw [if_neg h] at hj3 hj4
          subst hj3 hj4
          exact ⟨by omega, hc⟩
      have hmod : c % n3 = j3 := by rw [← hj.2, Nat.add_mul_mod_self_left, Nat.mod_eq_of_lt hj.1]
      have hdiv : c / n3 = j4 := by
        rw [← hj.2, Nat.add_mul_div_left _ _ h3, Nat.div_eq_of_lt hj.1, Nat.zero_add]
      have hw : walk n3 n4 leg (x :: cs) i3 i4 =
          if j4 = n4 then (walk n3 n4 leg cs (j3 + 1) j4).map (.off :: ·)
          else if 1 < n4 ∧ n4 ≤ j4 then .error .index
          else (walk n3 n4 leg cs (j3 + 1) j4).map (.draw j3 j4 :: ·) := by
        rw [walk, if_neg hx, ← hj3, ← hj4]
      rw [hw]
      by_cases he : j4 = n4
      · rw [if_pos he]
        have hle' : 1 < n4 → c + 1 ≤ n3 * (n4 + 1) := by
          intro _
          rw [← hj.2, he, Nat.mul_add]; omega
        obtain ⟨p1, p2⟩ := ih (j3 + 1) j4 (c + 1) (by omega) (by omega) hle'
        refine ⟨fun h => ?_, fun h1 h2 => ?_⟩
        · obtain ⟨out, q1, q2, q3⟩ := p1 (by omega)
          refine ⟨.off :: out, by rw [q1]; rfl, ?_, by simp [q3]⟩
          rw [shows_succ, if_neg (by rw [hdiv]; simpa using he)]
          simpa [drawn] using q2
        · rw [p2 h1 (by omega)]; rfl
      · rw [if_neg he]
        by_cases hb : 1 < n4 ∧ n4 ≤ j4
        · rw [if_pos hb]
          have hbig : n3 * (n4 + 1) ≤ c := by
            rw [← hj.2]
            have h : n4 + 1 ≤ j4 := by omega
            have := Nat.mul_le_mul_left n3 h
            omega
          refine ⟨fun h => ?_, fun _ _ => rfl⟩
          exfalso; omega
        · rw [if_neg hb]
          have hle' : 1 < n4 → c + 1 ≤ n3 * (n4 + 1) := by
            intro h
            have h' : j4 + 1 ≤ n4 + 1 := by omega
            have := Nat.mul_le_mul_left n3 h'
            rw [← hj.2]
            rw [Nat.mul_add] at this
            omega
          obtain ⟨p1, p2⟩ := ih (j3 + 1) j4 (c + 1) (by omega) (by omega) hle'
          refine ⟨fun h => ?_, fun h1 h2 => ?_⟩
          · obtain ⟨out, q1, q2, q3⟩ := p1 (by omega)
            refine ⟨.draw j3 j4 :: out, by rw [q1]; rfl, ?_, by simp [q3]⟩
            rw [shows_succ, if_pos (by rw [hdiv]; exact he), hmod, hdiv, ← q2]
            rfl
          · rw [p2 h1 (by omega)]; rfl

end Verif.Panels
