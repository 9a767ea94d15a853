import Verif.Chars
import Verif.Frame
import Verif.SNModels
import Mathlib.Algebra.Order.Field.Rat
import Mathlib.Algebra.Order.Field.Basic
import Mathlib.Data.List.GetD
import Mathlib.Data.List.Nodup
import Mathlib.Tactic.Common
import Mathlib.Tactic.Linarith

/-!
# Tools for grids

Model of `/repo/posydon/utils/gridutils.py`: `_get_grid_column` (l.26-51), `join_lists` (l.53-77), `fix_He_core`
(l.124-134), `add_field` (l.139-183), `get_cell_edges` (l.186-221), `find_nearest` (l.224-227),
`find_index_nearest_neighbour` (l.230-233), `get_final_proposed_points` (l.236-276), `convert_output_to_table`
(l.279-433).

Simplifications.  Floats are rationals, NaN is `none`.  Texts are lists of characters.  A file is its text, or `none` if
it does not exist; a history is the list of its rows with the columns used.  The time until a merger is a
parameter (it is modelled elsewhere).  The conversion of texts to numbers in the returned table is left out.
-/

namespace Verif.GridTools

open Verif.Frame (Name isIn)

inductive Err where
  | key
  | value
  | index
  | type
deriving DecidableEq

/-! ### Columns of a grid -/

/-- Where a column is. -/
inductive Place where
  | final (c : Name)
  | model (m c : Name)
deriving DecidableEq

/-- The loop over the models, l.45-50; the data set may lack the column (`KeyError`). -/
def inModels (key : Name) : List (Name × List Name) → Except Err Place
  | [] => .error .key
  | (m, cs) :: ms =>
    if (key.drop 3).take (m.length + 1) = m ++ ['_'] then
      let short := key.take 3 ++ key.drop (3 + (m.length + 1))
      if short ∈ cs then .ok (.model m short) else .error .key
    else inModels key ms

/-- `_get_grid_column`, l.43-51. -/
def column (final : List Name) (models : List (Name × List Name)) (key : Name) : Except Err Place :=
  if key ∈ final then .ok (.final key) else inModels key models

/-! ### Lists and fields -/

/-- `join_lists`, l.70-77. -/
def joinLists {A : Type} [DecidableEq A] (a b : List A) : List A := a ++ b.filter fun x => x ∉ a

/-- `np.maximum`: NaN if one of them is. -/
def npMax : Option ℚ → Option ℚ → Option ℚ
  | some x, some y => some (max x y)
  | _, _ => none

/-- A history: its columns by name. -/
abbrev Hist := Name → Option (List (Option ℚ))

/-- One of the two replacements, l.128-133. -/
def fixPair (he co : Name) (h : Hist) : Hist := fun c =>
  if c = he then
    match h he, h co with
    | some x, some y => some (List.zipWith npMax x y)
    | _, _ => h he
  else h c

/-- `fix_He_core`, l.126-134. -/
def fixHe : Option Hist → Option Hist
  | none => none
  | some h => some (fixPair (chars! "he_core_radius") (chars! "co_core_radius")
      (fixPair (chars! "he_core_mass") (chars! "co_core_mass") h))

/-- A structured array of which the fields are named. -/
structure Arr (V : Type) where
  names : List Name
  rows : ℕ
  at_ : Name → ℕ → V

/-- `add_field`, l.174-183: the content of new fields is whatever is in the memory; numpy refuses repeated names. -/
def addField {V : Type} (junk : Name → ℕ → V) (a : Arr V) (new : List Name) : Except Err (Arr V) :=
  if a.names = [] then .error .value
  else if (a.names ++ new).Nodup then
    .ok ⟨a.names ++ new, a.rows, fun c i => if c ∈ a.names then a.at_ c i else junk c i⟩
  else .error .value

/-! ### Cells -/

/-- The edges in one direction, l.206-211. -/
def edges : List ℚ → Except Err (List ℚ)
  | a :: b :: r =>
    let s := (b - a) / 2
    .ok ((a :: b :: r).map (· - s) ++ [(b :: r).getLastD b + s])
  | _ => .error .index

/-- `get_cell_edges`, l.204-221: the two arrays of the mesh. -/
def cellEdges (x y : List ℚ) : Except Err (List (List ℚ) × List (List ℚ)) :=
  match edges x with
  | .error e => .error e
  | .ok q => match edges y with
    | .error e => .error e
    | .ok p => .ok (p.map fun _ => q, p.map fun v => q.map fun _ => v)

/-- `find_index_nearest_neighbour`, l.232: the first of the nearest. -/
def nearestIdx (v : ℚ) : List ℚ → Except Err ℕ
  | [] => .error .value
  | a :: l =>
    match nearestIdx v l with
    | .error _ => .ok 0
    | .ok i => if |v - a| ≤ |v - l.getD i 0| then .ok 0 else .ok (i + 1)

/-- `find_nearest`, l.226-227. -/
def nearest (v : ℚ) (l : List ℚ) : Except Err ℚ :=
  match nearestIdx v l with
  | .error e => .error e
  | .ok i => .ok (l.getD i 0)

/-- The order of the rows in `np.unique`. -/
def before (a b : ℚ × ℚ) : Prop := a.1 < b.1 ∨ (a.1 = b.1 ∧ a.2 < b.2)

instance (a b : ℚ × ℚ) : Decidable (before a b) := inferInstanceAs (Decidable (_ ∨ _))

def insert (a : ℚ × ℚ) : List (ℚ × ℚ) → List (ℚ × ℚ)
  | [] => [a]
  | b :: l => if a = b then b :: l else if before a b then a :: b :: l else b :: insert a l

/-- `np.unique(…, axis=0)`, l.272: sorted, every row once. -/
def unique (l : List (ℚ × ℚ)) : List (ℚ × ℚ) := l.foldr insert []

def mapNearest (g : List ℚ) : List ℚ → Except Err (List ℚ)
  | [] => .ok []
  | v :: l =>
    match nearest v g with
    | .error e => .error e
    | .ok a => match mapNearest g l with
      | .error e => .error e
      | .ok r => .ok (a :: r)

/-- `get_final_proposed_points`, l.261-276: lists of different lengths make no array. -/
def finalPoints (px gx py gy : List ℚ) : Except Err (List (ℚ × ℚ)) :=
  match mapNearest gx px with
  | .error e => .error e
  | .ok x => match mapNearest gy py with
    | .error e => .error e
    | .ok y => if x.length = y.length then .ok (unique (x.zip y)) else .error .value

/-! ### Results of a run -/

/-- What is searched in the output, l.353-364. -/
def mDepleted : Name := (chars! "Terminate due to primary depleting carbon")
def mContact : Name := (chars! "Terminate because accretor (r-rl)/rl > accretor_overflow_terminate")
def mCE : Name := (chars! "TURNING ON CE")
def mOverflow : Name := (chars! "model is overflowing at ZAMS")
def mMerge : Name := (chars! "below CE_xa_diff_to_terminate")
def mMerge2 : Name := (chars! "CE_terminate_when_core_overflows")

inductive Res where
  | zamsRLOF | contact | ceMerger | noInteraction | ceEjection | ceEjectionM | wide | merger | error
deriving DecidableEq

/-- The columns of the table, l.282-285. -/
inductive Col where
  | result | ceFlag | m1 | m2 | porb | tmerge
  | star (second : Bool) (q : Fin 4)
  | other (n : ℕ)
deriving DecidableEq

/-- The values of the table; `dash` is `"-"`. -/
inductive Val where
  | res (r : Res)
  | flag (b : Bool)
  | num (q : ℚ)
  | dash
deriving DecidableEq

/-- A row of the history of the binary: masses, period, rate (which may be NaN). -/
structure BRow where
  m1 : ℚ
  m2 : ℚ
  p : ℚ
  rate : Option ℚ

/-- A row of the history of a star: luminosity, temperature, masses of the two cores. -/
abbrev SRow := Fin 4 → ℚ

/-- Reading of a history as a table, l.317-339: a file with one row gives an array without length, which is refused. -/
def readHist {R : Type} : Option (List R) → Except Err (Option (List R))
  | none => .ok none
  | some [_] => .error .type
  | some l => .ok (some l)

/-- `max` of a column without the NaN. -/
def maxRate (l : List BRow) : Option ℚ := (l.filterMap (·.rate)).max?

/-- The last row, or `IndexError`. -/
def lastRow {R : Type} (l : List R) : Except Err R :=
  match l.getLast? with
  | none => .error .index
  | some r => .ok r

/-- The values of a star, l.381-393. -/
def starVals (k : Bool) : Option (List SRow) → Except Err (List (Col × Val))
  | none => .ok []
  | some l => match lastRow l with
    | .error e => .error e
    | .ok r => .ok ((List.finRange 4).map fun q => (.star k q, .num (r q)))

/-- `max_lg_mtransfer_rate < LG_MTRANSFER_RATE_THRESHOLD` (-10): false for NaN. -/
def quiet : Option ℚ → Bool
  | none => false
  | some x => decide (x < -10)

/-- The values of a run of which the primary depleted carbon, l.380-422; `T` is the time until the merger in Myr. -/
def depleted (T : ℚ → ℚ → ℚ → ℚ) (ce : Bool) (b : Option (List BRow)) (s1 s2 : Option (List SRow)) :
    Except Err (List (Col × Val)) :=
  match starVals false s1 with
  | .error e => .error e
  | .ok v1 => match starVals true s2 with
    | .error e => .error e
    | .ok v2 => match b with
      | none => .ok (v1 ++ v2 ++ [(.result, .res (if quiet (some (-99)) then .noInteraction else .error))])
      | some l => match lastRow l with
        | .error e => .error e
        | .ok r =>
          let t := T r.m1 r.m2 r.p / 1000
          .ok (v1 ++ v2 ++ [(.m1, .num r.m1), (.m2, .num r.m2), (.porb, .num r.p), (.tmerge, .num t),
            (.result, .res (if quiet (maxRate l) then .noInteraction
              else if ce then (if 138 / 10 < t then .ceEjection else .ceEjectionM)
              else (if 138 / 10 < t then .wide else .merger)))])

/-- The values found, l.366-424. -/
def values (T : ℚ → ℚ → ℚ → ℚ) (out : Name) (b : Option (List BRow)) (s1 s2 : Option (List SRow)) :
    Except Err (List (Col × Val)) :=
  if isIn mOverflow out then .ok [(.result, .res .zamsRLOF)]
  else
    let flag : Col × Val := (.ceFlag, .flag (isIn mCE out))
    if isIn mContact out && !isIn mCE out then .ok [flag, (.result, .res .contact)]
    else if isIn mCE out && (isIn mMerge out || isIn mMerge2 out || isIn mContact out) then
      .ok [flag, (.result, .res .ceMerger)]
    else if isIn mDepleted out then
      match depleted T (isIn mCE out) b s1 s2 with
      | .error e => .error e
      | .ok v => .ok (flag :: v)
    else .ok [flag, (.result, .res .error)]

/-- l.428-430 -/
def fillDash (cols : List Col) (v : List (Col × Val)) : List (Col × Val) :=
  cols.foldl (fun v c => if c ∈ v.map (·.1) then v else v ++ [(c, .dash)]) v

/-- `convert_output_to_table`, l.309-433: the row of the table. -/
def convert (T : ℚ → ℚ → ℚ → ℚ) (out : Option Name) (b : Option (List BRow)) (s1 s2 : Option (List SRow)) (cols : List Col) :
    Except Err (List (Col × Val)) :=
  match out with
  | none => .error .value
  | some [] => .error .value
  | some o =>
    match readHist b with
    | .error e => .error e
    | .ok b => match readHist s1 with
      | .error e => .error e
      | .ok s1 => match readHist s2 with
        | .error e => .error e
        | .ok s2 => match values T o b s1 s2 with
          | .error e => .error e
          | .ok v => .ok (fillDash cols v)

/-- The default columns, l.281-285. -/
def defaultCols : List Col :=
  [.result, .ceFlag, .m1, .m2, .porb, .tmerge, .star false 0, .star false 1, .star false 2, .star false 3,
   .star true 0, .star true 1, .star true 2, .star true 3]

/-! ### Specification -/

/-- A cell of the table. -/
def cell (t : List (Col × Val)) (c : Col) : Option Val := t.lookup c

/-- What happened to a binary: the messages of the run, whether mass was transferred, whether the binary merges within 13.8 Gyr. -/
structure Story where
  zams : Bool
  contact : Bool
  ce : Bool
  coreMerge : Bool
  carbon : Bool
  transfer : Bool
  wide : Bool

/-- The name of the story. -/
def Story.name (s : Story) : Res :=
  match s.zams, s.ce with
  | true, _ => .zamsRLOF
  | false, true =>
    if s.coreMerge || s.contact then .ceMerger
    else if !s.carbon then .error
    else if !s.transfer then .noInteraction
    else if s.wide then .ceEjection else .ceEjectionM
  | false, false =>
    if s.contact then .contact
    else if !s.carbon then .error
    else if !s.transfer then .noInteraction
    else if s.wide then .wide else .merger

/-! ### Helper lemmas -/

theorem mem_fill (cols : List Col) (v : List (Col × Val)) (c : Col) :
    c ∈ (fillDash cols v).map (·.1) ↔ c ∈ v.map (·.1) ∨ c ∈ cols := by
  unfold fillDash
  induction cols generalizing v with
  | nil => simp
  | cons d cols ih =>
    rw [List.foldl_cons, ih]
    by_cases h : d ∈ v.map (·.1)
    · rw [if_pos h, List.mem_cons]
      constructor
      · rintro (h1 | h1)
        · exact .inl h1
        · exact .inr (.inr h1)
      · rintro (h1 | h1 | h1)
        · exact .inl h1
        · subst h1; exact .inl h
        · exact .inr h1
    · rw [if_neg h, List.map_append, List.mem_append, List.mem_cons]
      simp only [List.map_cons, List.map_nil, List.mem_singleton]
      tauto

theorem lookup_append_of_mem (v w : List (Col × Val)) (c : Col) (h : c ∈ v.map (·.1)) :
    (v ++ w).lookup c = v.lookup c := by
  induction v with
  | nil => simp at h
  | cons p v ih =>
    obtain ⟨a, b⟩ := p
    by_cases hc : c = a
    · subst hc; simp [List.lookup]
    · have h2 : c ∈ v.map (·.1) := by
        rw [List.map_cons, List.mem_cons] at h
        exact h.resolve_left hc
      simp only [List.cons_append, List.lookup, show (c == a) = false by simpa using hc]
      exact ih h2

theorem fill_lookup (cols : List Col) (v : List (Col × Val)) (c : Col) (h : c ∈ v.map (·.1)) :
    (fillDash cols v).lookup c = v.lookup c := by
  unfold fillDash
  induction cols generalizing v with
  | nil => rfl
  | cons d cols ih =>
    rw [List.foldl_cons]
    by_cases hd : d ∈ v.map (·.1)
    · rw [if_pos hd]; exact ih v h
    · rw [if_neg hd, ih _ (by rw [List.map_append, List.mem_append]; exact .inl h), lookup_append_of_mem _ _ _ h]

theorem lookup_append_not (v w : List (Col × Val)) (c : Col) (h : c ∉ v.map (·.1)) :
    (v ++ w).lookup c = w.lookup c := by
  induction v with
  | nil => rfl
  | cons p v ih =>
    obtain ⟨a, b⟩ := p
    rw [List.map_cons, List.mem_cons, not_or] at h
    simp only [List.cons_append, List.lookup, show (c == a) = false by simpa using h.1]
    exact ih h.2

theorem fill_dash (cols : List Col) (v : List (Col × Val)) (c : Col) (h : c ∉ v.map (·.1)) (hc : c ∈ cols) :
    (fillDash cols v).lookup c = some .dash := by
  unfold fillDash
  induction cols generalizing v with
  | nil => simp at hc
  | cons d cols ih =>
    rw [List.foldl_cons]
    by_cases hd : d = c
    · subst hd
      rw [if_neg h]
      have h2 : d ∈ (v ++ [(d, Val.dash)]).map (·.1) := by simp
      have h3 := fill_lookup cols (v ++ [(d, Val.dash)]) d h2
      unfold fillDash at h3
      rw [h3, lookup_append_not _ _ _ h]
      simp [List.lookup]
    · have hc2 : c ∈ cols := (List.mem_cons.1 hc).resolve_left (fun h => hd h.symm)
      by_cases hv : d ∈ v.map (·.1)
      · rw [if_pos hv]; exact ih v h hc2
      · rw [if_neg hv]
        refine ih _ ?_ hc2
        rw [List.map_append, List.mem_append]
        rintro (h1 | h1)
        · exact h h1
        · simp at h1; exact hd h1.symm

theorem nearestIdx_spec (v : ℚ) (l : List ℚ) (h : l ≠ []) :
    ∃ i, nearestIdx v l = .ok i ∧ i < l.length ∧ (∀ j, j < l.length → |v - l.getD i 0| ≤ |v - l.getD j 0|) ∧
      ∀ j, j < i → |v - l.getD i 0| < |v - l.getD j 0| := by
  induction l with
  | nil => exact absurd rfl h
  | cons a l ih =>
    by_cases hl : l = []
    · subst hl
      refine ⟨0, rfl, by simp, ?_, by simp⟩
      intro j hj
      have : j = 0 := by simpa using hj
      subst this; exact le_refl _
    · obtain ⟨i, hi, hlt, hmin, hfirst⟩ := ih hl
      unfold nearestIdx
      rw [hi]
      show ∃ k, (if |v - a| ≤ |v - l.getD i 0| then Except.ok 0 else Except.ok (i + 1)) = Except.ok k ∧ _
      by_cases hc : |v - a| ≤ |v - l.getD i 0|
      · refine ⟨0, by rw [if_pos hc], by simp, ?_, by simp⟩
        intro j hj
        cases j with
        | zero => exact le_refl _
        | succ j =>
          rw [List.getD_cons_zero, List.getD_cons_succ]
          exact hc.trans (hmin j (by simpa using hj))
      · refine ⟨i + 1, by rw [if_neg hc], by simpa using hlt, ?_, ?_⟩
        · intro j hj
          rw [List.getD_cons_succ]
          cases j with
          | zero => rw [List.getD_cons_zero]; exact le_of_lt (not_le.1 hc)
          | succ j => rw [List.getD_cons_succ]; exact hmin j (by simpa using hj)
        · intro j hj
          rw [List.getD_cons_succ]
          cases j with
          | zero => rw [List.getD_cons_zero]; exact not_le.1 hc
          | succ j => rw [List.getD_cons_succ]; exact hfirst j (by omega)

theorem mem_insert (a b : ℚ × ℚ) (l : List (ℚ × ℚ)) : b ∈ insert a l ↔ b = a ∨ b ∈ l := by
  induction l with
  | nil => simp [insert]
  | cons c l ih =>
    unfold insert
    by_cases h : a = c
    · subst h; simp
    · rw [if_neg h]
      by_cases h2 : before a c
      · rw [if_pos h2]; simp
      · rw [if_neg h2, List.mem_cons, ih, List.mem_cons]; tauto

theorem mem_unique (a : ℚ × ℚ) (l : List (ℚ × ℚ)) : a ∈ unique l ↔ a ∈ l := by
  unfold unique
  induction l with
  | nil => rfl
  | cons b l ih => rw [List.foldr_cons, mem_insert, ih, List.mem_cons]

theorem before_trans {a b c : ℚ × ℚ} (h1 : before a b) (h2 : before b c) : before a c := by
  unfold before at *
  rcases h1 with h1 | ⟨e1, h1⟩ <;> rcases h2 with h2 | ⟨e2, h2⟩
  · exact .inl (h1.trans h2)
  · exact .inl (e2 ▸ h1)
  · exact .inl (e1 ▸ h2)
  · exact .inr ⟨e1.trans e2, h1.trans h2⟩

theorem before_total {a b : ℚ × ℚ} (h : a ≠ b) (h1 : ¬ before a b) : before b a := by
  unfold before at *
  obtain ⟨a1, a2⟩ := a
  obtain ⟨b1, b2⟩ := b
  rcases lt_trichotomy a1 b1 with h2 | h2 | h2
  · exact absurd (.inl h2) h1
  · subst h2
    rcases lt_trichotomy a2 b2 with h3 | h3 | h3
    · exact absurd (.inr ⟨rfl, h3⟩) h1
    · subst h3; exact absurd rfl h
    · exact .inr ⟨rfl, h3⟩
  · exact .inl h2

theorem insert_sorted (a : ℚ × ℚ) (l : List (ℚ × ℚ)) (h : l.Pairwise before) : (insert a l).Pairwise before := by
  induction l with
  | nil => simp [insert]
  | cons b l ih =>
    unfold insert
    by_cases h1 : a = b
    · rw [if_pos h1]; exact h
    · rw [if_neg h1]
      rw [List.pairwise_cons] at h
      by_cases h2 : before a b
      · rw [if_pos h2, List.pairwise_cons]
        refine ⟨?_, List.pairwise_cons.2 h⟩
        intro c hc
        rcases List.mem_cons.1 hc with rfl | hc
        · exact h2
        · exact before_trans h2 (h.1 c hc)
      · rw [if_neg h2, List.pairwise_cons]
        refine ⟨?_, ih h.2⟩
        intro c hc
        rcases (mem_insert a c l).1 hc with rfl | hc
        · exact before_total h1 h2
        · exact h.1 c hc

theorem unique_sorted (l : List (ℚ × ℚ)) : (unique l).Pairwise before := by
  unfold unique
  induction l with
  | nil => exact List.Pairwise.nil
  | cons a l ih => rw [List.foldr_cons]; exact insert_sorted a _ ih

theorem before_irrefl (a : ℚ × ℚ) : ¬ before a a := by
  unfold before; rintro (h | h)
  · exact lt_irrefl _ h
  · exact lt_irrefl _ h.2

end Verif.GridTools
