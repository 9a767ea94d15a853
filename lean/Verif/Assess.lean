import Verif.Chars
import Mathlib.Algebra.Order.Field.Rat
import Mathlib.Algebra.Order.Field.Basic
import Mathlib.Algebra.BigOperators.Group.List.Basic
import Mathlib.Data.List.Dedup
import Mathlib.Tactic.Common

/-!
# Assessment of interpolators

Model of `EvaluateIFInterpolator` in `posydon/visualization/interpolation.py`: errors (l.43-70), confusion matrices
(l.72-113), the labels of a classifier (l.128-153), the selection of errors for plots (l.155-161, 184-203), the table
that `confusion_matrix` draws (l.294-300), the errors of a slice (l.367-387).

Simplifications.  Numbers are rational numbers, infinities and NaN; the sign of zero is left out.  The interpolator
and its classifiers are parameters: the interpolated values and the predicted classes.  Only the data that are drawn
are modelled; a figure has `savefig` and no `save`.
-/

namespace Verif.Assess

abbrev Name := List Char

/-- A floating point number. -/
inductive F where
  | fin (q : ℚ)
  | inf (neg : Bool)
  | nan
deriving DecidableEq

def F.sub : F → F → F
  | .nan, _ => .nan
  | _, .nan => .nan
  | .fin a, .fin b => .fin (a - b)
  | .fin _, .inf s => .inf (!s)
  | .inf s, .fin _ => .inf s
  | .inf s, .inf t => if s = t then .nan else .inf s

def F.div : F → F → F
  | .nan, _ => .nan
  | _, .nan => .nan
  | .fin a, .fin b => if b ≠ 0 then .fin (a / b) else if a = 0 then .nan else .inf (decide (a < 0))
  | .fin _, .inf _ => .fin 0
  | .inf s, .fin b => .inf (s ^^ decide (b < 0))
  | .inf _, .inf _ => .nan

def F.abs : F → F
  | .nan => .nan
  | .fin a => .fin |a|
  | .inf _ => .inf false

def F.isNan : F → Bool
  | .nan => true
  | _ => false

def F.isInf : F → Bool
  | .inf _ => true
  | _ => false

/-- The two kinds of errors, l.66-68. -/
def relErr (f i : F) : F := ((f.sub i).div f).abs

def absErr (f i : F) : F := (f.sub i).abs

/-- The table of errors: rows are runs, columns are quantities. -/
def table (e : F → F → F) (f i : List (List F)) : List (List F) := List.zipWith (List.zipWith e) f i

/-- The rows of runs for the interpolation, l.55-58. -/
def valid (ic : List Name) : List ℕ :=
  (List.range ic.length).filter fun k =>
    ic[k]? ≠ some (chars! "not_converged") ∧ ic[k]? ≠ some (chars! "initial_MT")

/-- The rows of runs for the classification, l.72-74. -/
def cvalid (ic : List Name) : List ℕ :=
  (List.range ic.length).filter fun k => ic[k]? ≠ some (chars! "not_converged")

/-! ### Confusion matrices -/

/-- Assignment to a key. -/
def put {V : Type} (k : Name) (v : V) : List (Name × V) → List (Name × V)
  | [] => [(k, v)]
  | e :: t => if e.1 = k then (k, v) :: t else e :: put k v t

/-- The different predictions, in some order (l.100, `np.unique` sorts them). -/
def uniques (l : List Name) : List Name := l.dedup

/-- The predictions for the runs of a class, l.99. -/
def ofClass (c : Name) (runs : List (Name × Name)) : List Name := (runs.filter fun r => r.1 = c).map (·.2)

/-- A row of the matrix, l.98-106; a run is its class and the prediction. -/
def row (classes : List Name) (c : Name) (runs : List (Name × Name)) : List (Name × ℚ) :=
  let p := ofClass c runs
  (uniques p).foldl (fun r x => put x ((p.count x : ℚ) / p.length) r) (classes.foldl (fun r x => put x 0 r) [])

/-- A matrix: the single number for a quantity without classes, l.94-95, or the rows. -/
inductive Matrix where
  | none_
  | rows (r : List (Name × List (Name × ℚ)))
deriving DecidableEq

def matrix (classes : List Name) (runs : List (Name × Name)) : Matrix :=
  if classes = [(chars! "None")] then .none_
  else .rows (classes.foldl (fun m c => put c (row classes c runs) m) [])

/-- The labels of a classifier, `__find_labels`; an interpolator is the list of its classifiers. -/
def findLabels (key : Name) : Option (List Name) → List (List (Name × Option (List Name))) → Option (List Name)
  | l, [] => l
  | l, i :: is => match i.lookup key with
    | none => findLabels key l is
    | some none => findLabels key (some [(chars! "None")]) is
    | some (some x) => findLabels key (some x) is

inductive Err where
  | key      -- `Exception("Key not in List of Matrices")`
  | attribute
  | value
deriving DecidableEq

/-- The table that is drawn, l.291-297. -/
def drawn (key : Name) (ms : List (Name × Matrix)) : Except Err (List (List ℚ)) :=
  match ms.lookup key with
  | none => .error .key
  | some .none_ => .error .attribute
  | some (.rows r) => .ok (r.map fun x => x.2.map (·.2))

/-- The end of the figure methods, l.263-264 and l.337-338. -/
def saved (path : Option Name) : Except Err Unit :=
  match path with
  | none => .ok ()
  | some _ => .error .attribute

/-! ### Errors for plots -/

/-- `__clean_errs`. -/
def clean (e : List (List F)) : List (List F) :=
  (e.filter fun r => r.any fun x => !x.isNan).filter fun r => !(r.any F.isInf)

/-- `out_keys.index`. -/
def index (k : Name) (l : List Name) : Except Err ℕ :=
  match l.findIdx? (· = k) with
  | none => .error .value
  | some i => .ok i

def indices : List Name → List Name → Except Err (List ℕ)
  | [], _ => .ok []
  | k :: ks, l => match index k l, indices ks l with
    | .ok i, .ok is => .ok (i :: is)
    | _, _ => .error .value

/-- The columns of the keys, l.186. -/
def columns (ks : List ℕ) (e : List (List F)) : List (List F) := e.map fun r => ks.map fun k => r.getD k .nan

/-- The runs of a class, l.192-195. -/
def rowsOf (c : Name) (ic : List Name) (e : List (List F)) : List (List F) :=
  ((ic.zip e).filter fun p => p.1 = c).map (·.2)

/-- The four sets of a violin plot, l.186-200. -/
structure Violin where
  all : List (List F)
  stable : List (List F)
  no : List (List F)
  unstable : List (List F)

def violin (out : List Name) (keys : Option (List Name)) (ic : List Name) (e : List (List F)) : Except Err Violin :=
  match indices (keys.getD out) out with
  | .error x => .error x
  | .ok ks =>
    let c := columns ks e
    .ok ⟨clean c, clean (rowsOf (chars! "stable_MT") ic c), clean (rowsOf (chars! "no_MT") ic c),
      clean (rowsOf (chars! "unstable_MT") ic c)⟩

/-- The large number for infinite errors (l.387). -/
def large : ℚ := 10 ^ 99

/-- An initial condition of a run: masses of the stars. -/
abbrev Ini := ℚ × ℚ

/-- The errors that are plotted for a slice, l.371-387. -/
def sliceErrs (out : List Name) (key var : Name) (lo hi : ℚ) (ini : List Ini) (ic : List Name) (e : List (List F)) :
    Except Err (List F) :=
  match index key out with
  | .error x => .error x
  | .ok k =>
    if var ≠ (chars! "mass_ratio") ∧ var ≠ (chars! "star_2_mass") then .error .value
    else .ok ((List.range ini.length).map fun j =>
      let m := ini.getD j (0, 0)
      let x := if var = (chars! "mass_ratio") then m.2 / m.1 else m.2
      if lo ≤ x ∧ x ≤ hi ∧ j ∈ valid ic then
        match (e.getD j []).getD k .nan with
        | .inf _ => .fin large
        | y => y
      else .nan)

/-! ### Lemmas -/

theorem put_lookup {V : Type} (k : Name) (v : V) (t : List (Name × V)) (x : Name) :
    (put k v t).lookup x = if x = k then some v else t.lookup x := by
  induction t with
  | nil =>
    by_cases h : x = k
    · simp [put, h]
    · have : (x == k) = false := by simpa using h
      simp [put, List.lookup_cons, this, h]
  | cons e t ih =>
    obtain ⟨a, w⟩ := e
    by_cases ha : a = k
    · subst ha
      by_cases h : x = a
      · subst h; simp [put]
      · have : (x == a) = false := by simpa using h
        simp [put, List.lookup_cons, this, h]
    · by_cases h : x = a
      · subst h; simp [put, ha]
      · have : (x == a) = false := by simpa using h
        simp only [put, ha, if_false, List.lookup_cons, this, ih]

theorem put_keys {V : Type} (k : Name) (v : V) (t : List (Name × V)) :
    (put k v t).map (·.1) = if k ∈ t.map (·.1) then t.map (·.1) else t.map (·.1) ++ [k] := by
  induction t with
  | nil => simp [put]
  | cons e t ih =>
    by_cases ha : e.1 = k
    · simp [put, ha]
    · have hk : ¬ k = e.1 := fun h => ha h.symm
      simp only [put, ha, if_false, List.map_cons, ih, List.mem_cons, hk, false_or]
      split_ifs <;> simp

/-- Assigning to keys that are new and different. -/
theorem puts_new {V : Type} (f : Name → V) : ∀ (l : List Name) (t : List (Name × V)), l.Nodup → (∀ x ∈ l, x ∉ t.map (·.1)) →
    l.foldl (fun r x => put x (f x) r) t = t ++ l.map fun x => (x, f x)
  | [], t, _, _ => by simp
  | x :: l, t, hn, hd => by
    obtain ⟨h1, h2⟩ := List.nodup_cons.mp hn
    have hput : ∀ t : List (Name × V), x ∉ t.map (·.1) → put x (f x) t = t ++ [(x, f x)] := by
      intro t
      induction t with
      | nil => intro _; rfl
      | cons e t ih =>
        intro h
        simp only [List.map_cons, List.mem_cons, not_or] at h
        simp only [put]
        rw [if_neg (fun he => h.1 he.symm), ih h.2, List.cons_append]
    rw [List.foldl_cons, hput t (hd x (by simp)), puts_new f l _ h2]
    · simp
    · intro y hy
      simp only [List.map_append, List.map_cons, List.map_nil, List.mem_append, List.mem_singleton, not_or]
      exact ⟨hd y (by simp [hy]), fun he => h1 (he ▸ hy)⟩

/-- Assigning to keys that are there changes only their values. -/
theorem puts_old {V : Type} (f : Name → V) : ∀ (l : List Name) (t : List (Name × V)), (∀ x ∈ l, x ∈ t.map (·.1)) → (t.map (·.1)).Nodup →
    l.foldl (fun r x => put x (f x) r) t = t.map fun e => (e.1, if e.1 ∈ l then f e.1 else e.2)
  | [], t, _, _ => by simp
  | x :: l, t, hd, hn => by
    have hput : ∀ t : List (Name × V), x ∈ t.map (·.1) → (t.map (·.1)).Nodup →
        put x (f x) t = t.map fun e => (e.1, if e.1 = x then f e.1 else e.2) := by
      intro t
      induction t with
      | nil => intro h; simp at h
      | cons e t ih =>
        intro h hn
        obtain ⟨h1, h2⟩ := List.nodup_cons.mp hn
        by_cases he : e.1 = x
        · simp only [put, he, if_true, List.map_cons]
          congr 1
          conv_lhs => rw [← List.map_id t]
          refine List.map_congr_left fun y hy => ?_
          have : y.1 ≠ x := fun hyx => h1 (List.mem_map.mpr ⟨y, hy, hyx.trans he.symm⟩)
          simp [this]
        · have : x ∈ t.map (·.1) := by
            rcases List.mem_cons.mp h with h | h
            · exact absurd h.symm he
            · exact h
          simp only [put, he, if_false, List.map_cons]
          rw [ih this h2]
    have hk := put_keys x (f x) t
    rw [if_pos (hd x (by simp))] at hk
    rw [List.foldl_cons, puts_old f l (put x (f x) t), hput t (hd x (by simp)) hn, List.map_map]
    · refine List.map_congr_left fun e _ => ?_
      by_cases h1 : e.1 ∈ l
      · simp [h1]
      · by_cases h2 : e.1 = x
        · simp [h2]
        · simp [h1, h2]
    · intro y hy; rw [hk]; exact hd y (by simp [hy])
    · rw [hk]; exact hn

theorem sum_count : ∀ (classes p : List Name), classes.Nodup → (∀ x ∈ p, x ∈ classes) → (classes.map fun x => p.count x).sum = p.length
  | classes, [], _, _ => by simp
  | classes, a :: p, hn, h => by
    have ih := sum_count classes p hn fun x hx => h x (by simp [hx])
    have key : ∀ l : List Name, l.Nodup → (l.map fun x => (a :: p).count x).sum = (l.map fun x => p.count x).sum + if a ∈ l then 1 else 0 := by
      intro l
      induction l with
      | nil => intro _; simp
      | cons b l ihl =>
        intro hl
        obtain ⟨h1, h2⟩ := List.nodup_cons.mp hl
        rw [List.map_cons, List.sum_cons, ihl h2, List.map_cons, List.sum_cons]
        by_cases hb : a = b
        · subst hb
          rw [List.count_cons_self, if_neg h1, if_pos (by simp)]
          omega
        · rw [List.count_cons_of_ne hb]
          by_cases hal : a ∈ l
          · rw [if_pos hal, if_pos (List.mem_cons_of_mem _ hal)]; omega
          · rw [if_neg hal, if_neg (by simp [hal, hb])]; omega
    rw [key classes hn, ih, if_pos (h a (by simp)), List.length_cons]

end Verif.Assess
