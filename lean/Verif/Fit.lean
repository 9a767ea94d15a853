import Verif.Match
import Mathlib.Data.List.Pairwise
import Mathlib.Data.List.Basic
import Mathlib.Algebra.Order.Group.Unbundled.Abs
/-!
Model of the search for a single-star track in `/repo/posydon/binary_evol/track_match.py`: `get_root0` (l.561-603, the starting
point), `match_through_minimize` (the attempts, l.1293-1458), `match_through_root` (the acceptance, l.898-903) and the removal
of rows whose age does not increase in `get_star_match_data` (l.1547-1617).

Simplification: floats are rationals and `NaN` is `none`; the optimiser of SciPy is a parameter that answers or raises; a norm
is replaced by its square; the normalisation factors are not zero; a grid is a list of tracks, each a mass and rows of an age
and named values.
-/
namespace Verif.Fit
open Verif.FlowChart Verif.Match

inductive Method | TNC | powell deriving DecidableEq, Repr

/-- The answer of the optimiser: `fn = none` is `NaN`. -/
structure Raw where
  fn : Option ℚ
  success : Bool
  x : ℚ × ℚ

/-- A solution object; `x = none` for the dummy (l.1401-1404). -/
structure Sol where
  fn : ℚ
  success : Bool
  x : Option (ℚ × ℚ)
  deriving DecidableEq

/-- `1e99`. -/
def big : ℚ := 10 ^ 99

def failedSol : Sol := ⟨big, false, none⟩

/-- `match_sequence`, l.1389-1398. -/
def sequence : List (MType × Method) := [(.default, .TNC), (.default, .powell), (.alt, .TNC), (.evolvedAlt, .TNC)]

/-- The result of an attempt: solution, grid, `match_ok`. -/
structure Res where
  sol : Sol
  grid : Bool
  ok : Bool
  deriving DecidableEq

/-- The optimiser for a list of quantities, a grid and a method; any exception is caught (l.1345-1361). -/
abbrev Minimise := Lst → Bool → Method → Option Raw

/-- `do_minimization`, l.1331-1381. -/
def attempt (min : Minimise) (tol : ℚ) (s : St) (h : Bool) (t : MType) (m : Method) : Except Err Res :=
  match attrs t s h with
  | .error e => .error e
  | .ok none => .ok ⟨failedSol, h, false⟩
  | .ok (some (l, g)) =>
    match min l g m with
    | none => .error .numerical
    | some r =>
      let f := r.fn.getD big
      .ok ⟨⟨f, r.success, some r.x⟩, g, !(decide (|f| > tol)) && r.success⟩

/-- The loop, l.1406-1429: best solution and the star's flag `htrack`. -/
def loop (min : Minimise) (tol : ℚ) (s : St) : List (MType × Method) → Sol → Bool → Except Err (Sol × Bool)
  | [], best, h => .ok (best, h)
  | (t, m) :: rest, best, h =>
    match attempt min tol s h t m with
    | .error e => .error e
    | .ok r =>
      let better := decide (|r.sol.fn| < |best.fn|) && r.sol.success
      let h' := if better then r.grid else h
      let best' := if better then r.sol else best
      if better && r.ok then .ok (best', h') else loop min tol s rest best' h'

/-- l.1432-1458: the matched mass and age (`none`: `NaN`), and the star's flag. -/
def final (hard : ℚ) (r : Sol × Bool) : Option (ℚ × ℚ) × Bool :=
  (if |r.1.fn| > hard || !r.1.success then none else r.1.x, r.2)

/-- `match_through_minimize`. -/
def search (min : Minimise) (tol hard : ℚ) (s : St) (h : Bool) : Except Err (Option (ℚ × ℚ) × Bool) :=
  match loop min tol s sequence failedSol h with
  | .error e => .error e
  | .ok r => .ok (final hard r)

/-- `match_through_root`, l.898-903. -/
def rootAnswer (success : Bool) (x : ℚ × ℚ) : Option (ℚ × ℚ) := if !success || x.2 < 0 then none else some x

/-! ### The starting point -/

/-- A distance: `NaN`, a number or infinite. -/
inductive D | nan | fin (q : ℚ) | inf deriving DecidableEq

/-- A row of a track: age and values (`none`: `NaN`). -/
abbrev Row := ℚ × (String → Option ℚ)

/-- A quantity asked for: name, the star's value, normalisation. -/
structure Want where
  name : String
  val : Option ℚ
  fac : ℚ

/-- l.580-588 for one row; `none` marks the padding with infinity. -/
def dist (ws : List Want) : Option Row → D
  | none => if ws.any (fun w => w.val.isNone) then .nan else if ws.isEmpty then .fin 0 else .inf
  | some r => if ws.any (fun w => w.val.isNone || (r.2 w.name).isNone) then .nan
    else .fin ((ws.map fun w => (((r.2 w.name).getD 0 - w.val.getD 0) / w.fac) ^ 2).sum)

/-- Does `b` replace `a` in `argmin` (NumPy: the first `NaN`, otherwise the first smallest)? -/
def D.beats : D → D → Bool
  | .nan, _ => false
  | _, .nan => true
  | .fin a, .fin b => b < a
  | .fin _, .inf => false
  | .inf, .fin _ => true
  | .inf, .inf => false

def argmin {α : Type} (f : α → D) : α → List α → α
  | a, [] => a
  | a, b :: l => argmin f (if (f a).beats (f b) then b else a) l

abbrev Track := ℚ × List Row

/-- The table of `create_root0_h` (l.473-496), flattened; tracks shorter than the longest are padded. -/
def cells (g : List Track) : List (ℚ × Option Row) :=
  let width := (g.map fun t => t.2.length).foldr max 0
  g.flatMap fun t => (t.2.map fun r => (t.1, some r)) ++ (List.replicate (width - t.2.length) (t.1, none))

/-- `get_root0`: the mass and the age (`none`: infinite) of the chosen cell; an empty table is an error. -/
def root0 (g : List Track) (ws : List Want) : Option (ℚ × Option ℚ) :=
  match cells g with
  | [] => none
  | c :: cs => let b := argmin (fun c : ℚ × Option Row => dist ws c.2) c cs; some (b.1, b.2.map Prod.fst)

/-- `root_keys`, l.284-288. -/
def rootKeys : List String :=
  ["age", "mass", "he_core_mass", "co_core_mass", "center_h1", "center_he4", "surface_he4", "surface_h1", "center_c12", "log_R"]

/-! ### Removing rows whose age does not increase, l.1595-1605 -/

/-- The rows kept in one pass: those followed by a larger age, and the last. -/
def mask : List ℚ → List Bool
  | [] => []
  | [_] => [true]
  | a :: b :: r => (!decide (b - a ≤ 0)) :: mask (b :: r)

/-- `np.delete` by position. -/
def select {α : Type} : List Bool → List α → List α
  | true :: m, a :: l => a :: select m l
  | false :: m, _ :: l => select m l
  | _, _ => []

theorem select_le {α : Type} : ∀ (m : List Bool) (l : List α), (select m l).length ≤ l.length
  | [], l => by simp [select]
  | true :: m, [] => by simp [select]
  | false :: m, [] => by simp [select]
  | true :: m, a :: l => by simp [select, select_le m l]
  | false :: m, a :: l => by simp [select]; have := select_le m l; omega

theorem mask_length : ∀ l : List ℚ, (mask l).length = l.length
  | [] => rfl
  | [_] => rfl
  | a :: b :: r => by simp [mask, mask_length (b :: r)]

theorem select_lt {α : Type} : ∀ (m : List Bool) (l : List α), m.length = l.length → m.all id = false → (select m l).length < l.length
  | [], _, _, h => by simp at h
  | _ :: _, [], h, _ => by simp at h
  | true :: m, a :: l, h, ha => by
    simp only [select, List.length_cons]
    have := select_lt m l (by simpa using h) (by simpa using ha)
    omega
  | false :: m, a :: l, h, _ => by
    simp only [select, List.length_cons]
    have := select_le m l
    omega

/-- The loop of l.1600-1605: ages and columns. -/
def clean (age : List ℚ) (cols : List (List ℚ)) : List ℚ × List (List ℚ) :=
  if h : (mask age).all id = true then (age, cols)
  else clean (select (mask age) age) (cols.map (select (mask age)))
termination_by age.length
decreasing_by exact select_lt _ _ (mask_length age) (by simpa using h)

/-- `age.max()` of a non-empty list, l.1553. -/
def ageMax : List ℚ → ℚ
  | [] => 0
  | [a] => a
  | a :: l => max a (ageMax l)

/-- Ages, columns and `t_max` of the interpolator, l.1547-1614; `none`: the mass is outside the grid (only for compact objects). -/
def track (maxTime : ℚ) (t : Option (List ℚ × List (List ℚ))) : (List ℚ × List (List ℚ)) × ℚ :=
  match t with
  | some (age, cols) => (clean age cols, ageMax age)
  | none => (clean [0, maxTime] [[0, 0]], ageMax [0, maxTime])

/-! ### Specification -/

/-- Which rows have only larger ages after them. -/
def later : List ℚ → List Bool
  | [] => []
  | a :: r => decide (∀ x ∈ r, a < x) :: later r

theorem later_length : ∀ l : List ℚ, (later l).length = l.length
  | [] => rfl
  | a :: r => by simp [later, later_length r]

theorem select_all {α : Type} : ∀ (m : List Bool) (l : List α), m.length = l.length → m.all id = true → select m l = l
  | [], [], _, _ => rfl
  | [], _ :: _, h, _ => by simp at h
  | _ :: _, [], h, _ => by simp at h
  | true :: m, a :: l, h, ha => by
    simp only [select]
    rw [select_all m l (by simpa using h) (by simpa using ha)]
  | false :: m, a :: l, h, ha => by simp at ha

theorem select_sublist {α : Type} : ∀ (m : List Bool) (l : List α), (select m l).Sublist l
  | [], l => by simp [select]
  | true :: m, [] => by simp [select]
  | false :: m, [] => by simp [select]
  | true :: m, a :: l => (select_sublist m l).cons_cons a
  | false :: m, a :: l => (select_sublist m l).cons a

/-- Every row dropped in a pass has a kept row after it whose age is not larger: lower bounds are the same. -/
theorem bound_mask (a : ℚ) : ∀ l : List ℚ, (∀ x ∈ select (mask l) l, a < x) ↔ ∀ x ∈ l, a < x
  | [] => by simp [mask, select]
  | [b] => by simp [mask, select]
  | b :: c :: r => by
    have ih := bound_mask a (c :: r)
    by_cases hb : c - b ≤ 0
    · have e : mask (b :: c :: r) = false :: mask (c :: r) := by rw [mask, decide_eq_true hb]; rfl
      rw [e]
      simp only [select]
      rw [ih]
      constructor
      · intro h x hx
        rcases List.mem_cons.1 hx with rfl | hx
        · have := h c (by simp); linarith
        · exact h x hx
      · exact fun h x hx => h x (List.mem_cons_of_mem _ hx)
    · have e : mask (b :: c :: r) = true :: mask (c :: r) := by rw [mask, decide_eq_false hb]; rfl
      rw [e]
      simp only [select]
      constructor
      · intro h x hx
        rcases List.mem_cons.1 hx with rfl | hx
        · exact h x (by simp)
        · exact ih.1 (fun y hy => h y (List.mem_cons_of_mem _ hy)) x hx
      · intro h x hx
        rcases List.mem_cons.1 hx with rfl | hx
        · exact h x (by simp)
        · exact ih.2 (fun y hy => h y (List.mem_cons_of_mem _ hy)) x hx

/-- A pass keeps the rows of the specification … -/
theorem later_select : ∀ l : List ℚ, later (select (mask l) l) = select (mask l) (later l)
  | [] => rfl
  | [b] => rfl
  | b :: c :: r => by
    have ih := later_select (c :: r)
    by_cases hb : c - b ≤ 0
    · have e : mask (b :: c :: r) = false :: mask (c :: r) := by rw [mask, decide_eq_true hb]; rfl
      rw [e]
      show later (select (mask (c :: r)) (c :: r)) = select (mask (c :: r)) (later (c :: r))
      exact ih
    · have e : mask (b :: c :: r) = true :: mask (c :: r) := by rw [mask, decide_eq_false hb]; rfl
      rw [e]
      show decide (∀ x ∈ select (mask (c :: r)) (c :: r), b < x) :: later (select (mask (c :: r)) (c :: r)) =
        decide (∀ x ∈ c :: r, b < x) :: select (mask (c :: r)) (later (c :: r))
      rw [ih]
      congr 1
      exact decide_eq_decide.2 (bound_mask b (c :: r))

/-- … and drops only others. -/
theorem select_later {α : Type} : ∀ (l : List ℚ) (c : List α), select (select (mask l) (later l)) (select (mask l) c) = select (later l) c
  | [], c => by simp [mask, later, select]
  | [b], c => by
    cases c <;> simp [mask, later, select]
  | b :: d :: r, [] => by
    have e : ∀ m : List Bool, select m ([] : List α) = [] := by intro m; cases m with | nil => rfl | cons x m => cases x <;> rfl
    rw [e, e, e]
  | b :: d :: r, x :: c => by
    have ih := select_later (d :: r) c
    by_cases hb : d - b ≤ 0
    · have e : mask (b :: d :: r) = false :: mask (d :: r) := by rw [mask, decide_eq_true hb]; rfl
      have e2 : later (b :: d :: r) = false :: later (d :: r) := by
        have hn : ¬ ∀ y ∈ d :: r, b < y := fun h => by have := h d (by simp); linarith
        show decide (∀ y ∈ d :: r, b < y) :: later (d :: r) = _
        rw [decide_eq_false hn]
      rw [e, e2]
      show select (select (mask (d :: r)) (later (d :: r))) (select (mask (d :: r)) c) = select (later (d :: r)) c
      exact ih
    · have e : mask (b :: d :: r) = true :: mask (d :: r) := by rw [mask, decide_eq_false hb]; rfl
      rw [e]
      show select (decide (∀ y ∈ d :: r, b < y) :: select (mask (d :: r)) (later (d :: r))) (x :: select (mask (d :: r)) c) =
        select (decide (∀ y ∈ d :: r, b < y) :: later (d :: r)) (x :: c)
      cases decide (∀ y ∈ d :: r, b < y)
      · exact ih
      · simp only [select, ih]

theorem mask_true_pairwise : ∀ l : List ℚ, (mask l).all id = true → l.Pairwise (· < ·)
  | [], _ => List.Pairwise.nil
  | [a], _ => List.pairwise_singleton _ _
  | a :: b :: r, h => by
    simp only [mask, List.all_cons, Bool.and_eq_true, id, Bool.not_eq_true', decide_eq_false_iff_not] at h
    have ih := mask_true_pairwise (b :: r) h.2
    rw [List.pairwise_cons]
    refine ⟨fun x hx => ?_, ih⟩
    rcases List.mem_cons.1 hx with rfl | hx
    · linarith [h.1]
    · have := List.rel_of_pairwise_cons ih hx
      linarith [h.1]

theorem pairwise_later_true : ∀ l : List ℚ, l.Pairwise (· < ·) → (later l).all id = true
  | [], _ => rfl
  | a :: r, h => by
    rw [List.pairwise_cons] at h
    simp only [later, List.all_cons, Bool.and_eq_true, id, decide_eq_true_eq]
    exact ⟨h.1, pairwise_later_true r h.2⟩

theorem pairwise_mask_true : ∀ l : List ℚ, l.Pairwise (· < ·) → (mask l).all id = true
  | [], _ => rfl
  | [_], _ => rfl
  | a :: b :: r, h => by
    rw [List.pairwise_cons] at h
    simp only [mask, List.all_cons, Bool.and_eq_true, id, Bool.not_eq_true', decide_eq_false_iff_not]
    exact ⟨by have := h.1 b (by simp); linarith, pairwise_mask_true (b :: r) h.2⟩

theorem select_length_eq {α β : Type} : ∀ (m : List Bool) (l : List α) (k : List β), l.length = k.length →
    (select m l).length = (select m k).length
  | [], _, _, _ => by simp [select]
  | true :: m, [], [], _ => by simp [select]
  | false :: m, [], [], _ => by simp [select]
  | true :: m, a :: l, b :: k, h => by simp [select, select_length_eq m l k (by simpa using h)]
  | false :: m, a :: l, b :: k, h => by simp [select, select_length_eq m l k (by simpa using h)]
  | true :: m, [], _ :: _, h => by simp at h
  | false :: m, [], _ :: _, h => by simp at h
  | true :: m, _ :: _, [], h => by simp at h
  | false :: m, _ :: _, [], h => by simp at h

/-- The loop computes the specification, for the ages and for every column. -/
theorem clean_eq (age : List ℚ) (cols : List (List ℚ)) (hc : ∀ c ∈ cols, c.length = age.length) :
    clean age cols = (select (later age) age, cols.map (select (later age))) := by
  unfold clean
  by_cases h : (mask age).all id = true
  · rw [dif_pos h]
    have hl := pairwise_later_true age (mask_true_pairwise age h)
    rw [select_all _ _ (later_length age) hl]
    congr 1
    conv_lhs => rw [← List.map_id cols]
    apply List.map_congr_left
    intro c hcm
    exact (select_all _ _ ((later_length age).trans (hc c hcm).symm) hl).symm
  · rw [dif_neg h]
    have hlt : (select (mask age) age).length < age.length := select_lt _ _ (mask_length age) (by simpa using h)
    rw [clean_eq (select (mask age) age) (cols.map (select (mask age))) (by
      intro c hcm
      obtain ⟨c', hc', rfl⟩ := List.mem_map.1 hcm
      exact select_length_eq _ _ _ (hc c' hc'))]
    rw [later_select, select_later, List.map_map]
    congr 1
    apply List.map_congr_left
    intro c _
    exact select_later age c
termination_by age.length

/-! ### `argmin` -/

/-- The order of distances, `NaN` first. -/
def D.le : D → D → Prop
  | .nan, _ => True
  | .fin _, .nan => False
  | .fin a, .fin b => a ≤ b
  | .fin _, .inf => True
  | .inf, .inf => True
  | .inf, _ => False

theorem D.le_refl (a : D) : a.le a := by cases a <;> simp [D.le]
theorem D.le_trans {a b c : D} (h1 : a.le b) (h2 : b.le c) : a.le c := by
  cases a <;> cases b <;> cases c <;> simp_all [D.le]; linarith
theorem D.beats_le {a b : D} (h : a.beats b = true) : b.le a := by
  cases a <;> cases b <;> simp_all [D.le, D.beats]; linarith
theorem D.not_beats_le {a b : D} (h : a.beats b = false) : a.le b := by
  cases a <;> cases b <;> simp_all [D.le, D.beats]

theorem argmin_spec {α : Type} (f : α → D) : ∀ (l : List α) (a : α),
    argmin f a l ∈ a :: l ∧ ∀ b ∈ a :: l, (f (argmin f a l)).le (f b)
  | [], a => by simp [argmin, D.le_refl]
  | b :: l, a => by
    simp only [argmin]
    cases hb : (f a).beats (f b)
    · obtain ⟨h1, h2⟩ := argmin_spec f l a
      simp only [Bool.false_eq_true, if_false]
      refine ⟨?_, fun c hc => ?_⟩
      · rcases List.mem_cons.1 h1 with h | h
        · rw [h]; simp
        · exact List.mem_cons_of_mem _ (List.mem_cons_of_mem _ h)
      · rcases List.mem_cons.1 hc with rfl | hc
        · exact h2 _ (by simp)
        · rcases List.mem_cons.1 hc with rfl | hc
          · exact D.le_trans (h2 a (by simp)) (D.not_beats_le hb)
          · exact h2 _ (List.mem_cons_of_mem _ hc)
    · obtain ⟨h1, h2⟩ := argmin_spec f l b
      simp only [if_true]
      refine ⟨List.mem_cons_of_mem _ h1, fun c hc => ?_⟩
      rcases List.mem_cons.1 hc with rfl | hc
      · exact D.le_trans (h2 b (by simp)) (D.beats_le hb)
      · exact h2 _ hc

end Verif.Fit
