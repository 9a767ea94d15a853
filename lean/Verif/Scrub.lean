import Mathlib.Data.List.Sort
import Mathlib.Data.Rat.Floor
import Mathlib.Tactic.Linarith
import Mathlib.Tactic.Common
/-!
Model of `/repo/posydon/grids/scrubbing.py`: `scrub` l.21-80, `keep_after_RLO` l.83-171,
`keep_till_central_abundance_He_C` l.174-285.

Simplifications: a history table is the list of its rows; numbers are rationals, NaN is `none` (`Num`); ages and model
numbers are never NaN.  Where rounding matters (`keep_after_RLO` has a branch for lost precision) the rounded subtraction
is a parameter.
-/
namespace Verif.Scrub

abbrev Num := Option ℚ

def ge (x : Num) (t : ℚ) : Bool := match x with | some v => decide (t ≤ v) | none => false
def lt (x : Num) (t : ℚ) : Bool := match x with | some v => decide (v < t) | none => false

/-! ### `scrub` -/

/-- A row of a history with its model number and age (the arguments `tables`, `models`, `ages` zipped). -/
structure Rec (R : Type) where
  row : R
  model : ℤ
  age : ℚ
  deriving DecidableEq, Repr

variable {R : Type}

/-- One step of the backward loop, l.49-57: `kept` are the rows already marked, its head carries `last_m`, `last_t`. -/
def keepRow (r : Rec R) (kept : List (Rec R)) : List (Rec R) :=
  match kept with
  | [] => [r]
  | k :: _ => if r.age < k.age ∧ r.model < k.model then r :: kept else kept

/-- The backward loop over one table, l.47-59. -/
def pass (l : List (Rec R)) : List (Rec R) := l.foldr keepRow []

/-- `common_models`, l.62-68 (`none` = Python's `None`; sets are lists). -/
def common : List (Option (List (Rec R))) → Option (List ℤ)
  | ts => ts.foldl (fun acc t => match t with
      | none => acc
      | some l => match acc with
        | none => some (l.map Rec.model)
        | some c => some (c.filter (· ∈ l.map Rec.model))) none

/-- `scrub`, l.21-80.  A table is `none` if the table, its model column or its age column is missing. -/
def scrub (ts : List (Option (List (Rec R)))) : List (Option (List (Rec R))) :=
  let scr := ts.map (Option.map pass)
  let c := (common scr).getD []
  scr.map (Option.map (List.filter (fun r => r.model ∈ c)))

/-! ### `keep_after_RLO` -/

/-- A row of the binary history; `P` is the rest of the row. -/
structure BRow (P : Type) where
  rest : P
  rate : Num
  rl1 : Num
  rl2 : Num
  age : ℚ
  deriving DecidableEq, Repr

/-- A star history: whether it has a `star_age` column, and its rows. -/
structure HTab (P : Type) where
  hasAge : Bool
  rows : List (P × ℚ)
  deriving DecidableEq, Repr

/-- Which of the columns used exist in the binary history. -/
structure Cols where
  rate : Bool
  rl1 : Bool
  rl2 : Bool

inductive Err | noRate | noOverflow | tooAggressive | fixFailed | missingField | indexError
  deriving DecidableEq, Repr

variable {P : Type}

/-- `conditions_met` for a row, l.110-134. -/
def meets (c : Cols) (r : BRow P) : Bool :=
  (c.rl1 && ge r.rl1 0) || (c.rl2 && ge r.rl2 0) || ge r.rate (-10)

/-- `np.diff`. -/
def diffs : List ℚ → List ℚ
  | [] => []
  | [_] => []
  | a :: b :: l => (b - a) :: diffs (b :: l)

/-- `min` of a non-empty list. -/
def minOf : List ℚ → ℚ
  | [] => 0
  | [a] => a
  | a :: l => min a (minOf l)

/-- `relative_error > 0.01`, l.157-158, with the IEEE results for a zero denominator. -/
def tooBig (new old : ℚ) : Bool :=
  if 0 < old then decide (|new - old| / old > 1 / 100) else if old = 0 then decide (new ≠ old) else false

def shiftStar (sub : ℚ → ℚ → ℚ) (a0 : ℚ) (h : HTab P) : HTab P :=
  if h.hasAge then { h with rows := h.rows.map (fun r => (r.1, sub r.2 a0)) } else h

/-- `keep_after_RLO`, l.83-171.  `sub` is the (rounded) subtraction of ages; `alt a d` is the replacement for
`age_to_remove` computed in l.150-156 from it and the smallest time step.  `Except` for the exceptions; inside, `none` is
the returned `None`. -/
def keepAfter (sub alt : ℚ → ℚ → ℚ) (c : Cols) (bh : Option (List (BRow P))) (h1 h2 : Option (HTab P)) :
    Except Err (Option (Option (List (BRow P)) × Option (HTab P) × Option (HTab P))) :=
  match bh with
  | none => .ok (some (none, h1, h2))
  | some rows =>
    if !c.rate then .error .noRate
    else if !c.rl1 && !c.rl2 then .error .noOverflow
    else
      let first := rows.findIdx (meets c)
      if first = rows.length then .ok none
      else
        let newBh := rows.drop first
        let ages := newBh.map BRow.age
        let a0 := ages.headD 0
        let newAges := ages.map (fun a => sub a a0)
        let finish := fun (a0 : ℚ) (newAges : List ℚ) =>
          some (some (List.zipWith (fun r a => { r with age := a }) newBh newAges),
            (h1.map fun h => shiftStar sub a0 { h with rows := h.rows.drop first }),
            (h2.map fun h => shiftStar sub a0 { h with rows := h.rows.drop first }))
        if newAges.length > 1 ∧ minOf (diffs newAges) = 0 then
          let a1 := alt a0 (minOf (diffs ages))
          if tooBig a1 a0 then .error .tooAggressive
          else
            let newAges := ages.map (fun a => sub a a1)
            if (diffs newAges).any (fun d => decide (d ≤ 0)) then .error .fixFailed
            else .ok (finish a1 newAges)
        else .ok (finish a0 newAges)

/-! ### `keep_till_central_abundance_He_C` -/

/-- A row of a star history. -/
structure SRow where
  he4 : Num
  c12 : Num
  age : ℚ
  deriving DecidableEq, Repr

/-- A star history and which of its columns exist. -/
structure STab where
  hasHe : Bool
  hasC : Bool
  hasAge : Bool
  rows : List SRow
  deriving DecidableEq, Repr

/-- The binary history: whether it has an age column, and its rows (age). -/
structure BTab where
  hasAge : Bool
  rows : List ℚ
  deriving DecidableEq, Repr

/-- The row satisfies the stopping criterion, l.226/246. -/
def stopRow (ystop xcstop : ℚ) (r : SRow) : Bool := lt r.he4 ystop && lt r.c12 xcstop

/-- `depleted1`/`depleted2`, l.222-240: the last row satisfies the criterion. -/
def depleted (ystop xcstop : ℚ) (h : STab) : Bool :=
  h.hasHe && h.hasC && match h.rows.getLast? with
    | some r => stopRow ystop xcstop r
    | none => false

inductive TF | none | primary | secondary
  deriving DecidableEq, Repr

/-- `keep_till_central_abundance_He_C`, l.174-285 (returns the tables and the new flag). -/
def keepTill (ystop xcstop : ℚ) (bh : Option BTab) (h1 h2 : Option STab) :
    Except Err (Option BTab × Option STab × Option STab × TF) :=
  match bh, h1, h2 with
  | some b, some s1, some s2 =>
    if !(b.hasAge || (s1.hasAge && s2.hasAge)) then .ok (bh, h1, h2, .none)
    else
      let d1 := depleted ystop xcstop s1
      let d2 := depleted ystop xcstop s2
      if !d1 && !d2 then .ok (bh, h1, h2, .none)
      else
        let i1 := s1.rows.findIdx (stopRow ystop xcstop)
        let i2 := s2.rows.findIdx (stopRow ystop xcstop)
        let cut := fun (i : ℕ) (tf : TF) =>
          let last := if b.rows.length ≥ i + 2 then i + 1 else i
          (some { b with rows := b.rows.take last }, some { s1 with rows := s1.rows.take last },
            some { s2 with rows := s2.rows.take last }, tf)
        if d1 && d2 then
          -- l.259-273; both lookups of a star age depend on the column of star 1
          if s1.hasAge then
            if !s2.hasAge then .error .missingField
            else match s1.rows[i1]?, s2.rows[i2]? with
              | some r1, some r2 => if r1.age > r2.age then .ok (cut i2 .secondary) else .ok (cut i1 .primary)
              | _, _ => .error .indexError
          else match b.rows[i1]?, b.rows[i2]? with
            | some a1, some a2 => if a1 > a2 then .ok (cut i2 .secondary) else .ok (cut i1 .primary)
            | _, _ => .error .indexError
        else if d1 then .ok (cut i1 .primary)
        else .ok (cut i2 .secondary)
  | _, _, _ => .ok (bh, h1, h2, .none)

/-! ### Lemmas about the backward pass -/

/-- Strictly increasing in model number and age. -/
def Mono (l : List (Rec R)) : Prop := l.Pairwise (fun a b => a.model < b.model ∧ a.age < b.age)

theorem keepRow_sub (r : Rec R) (k l : List (Rec R)) (h : k.Sublist l) : (keepRow r k).Sublist (r :: l) := by
  unfold keepRow
  split
  · exact List.singleton_sublist.2 (by simp)
  · split
    · exact h.cons_cons r
    · exact h.cons r

theorem pass_sublist (l : List (Rec R)) : (pass l).Sublist l := by
  induction l with
  | nil => exact List.Sublist.slnil
  | cons r l ih => exact keepRow_sub r _ _ ih

theorem pass_mono (l : List (Rec R)) : Mono (pass l) := by
  induction l with
  | nil => exact List.Pairwise.nil
  | cons r l ih =>
    change Mono (keepRow r (pass l))
    unfold keepRow
    split
    · exact List.pairwise_singleton _ _
    · rename_i k ks hk
      rw [hk] at ih ⊢
      split
      · rename_i h
        refine List.Pairwise.cons ?_ ih
        intro b hb
        rcases List.mem_cons.1 hb with rfl | hb
        · exact ⟨h.2, h.1⟩
        · have := (List.pairwise_cons.1 ih).1 b hb
          exact ⟨lt_trans h.2 this.1, lt_trans h.1 this.2⟩
      · exact ih

/-- A table that is already increasing is kept. -/
theorem pass_of_mono (l : List (Rec R)) (h : Mono l) : pass l = l := by
  induction l with
  | nil => rfl
  | cons r l ih =>
    have h' := List.pairwise_cons.1 h
    change keepRow r (pass l) = _
    rw [ih h'.2]
    unfold keepRow
    cases l with
    | nil => rfl
    | cons k ks =>
      have := h'.1 k (by simp)
      simp [this]

theorem pass_ne_nil (l : List (Rec R)) (h : l ≠ []) : pass l ≠ [] := by
  induction l with
  | nil => exact absurd rfl h
  | cons r l ih =>
    change keepRow r (pass l) ≠ []
    unfold keepRow
    split
    · simp
    · rename_i k ks hk
      split
      · simp
      · rw [hk]; simp

theorem pass_last (l : List (Rec R)) : (pass l).getLast? = l.getLast? := by
  induction l with
  | nil => rfl
  | cons r l ih =>
    change (keepRow r (pass l)).getLast? = _
    cases l with
    | nil => rfl
    | cons k ks =>
      have hne := pass_ne_nil (k :: ks) (by simp)
      rw [List.getLast?_cons_cons, ← ih]
      unfold keepRow
      split
      · rename_i h; exact absurd h hne
      · rename_i a as h
        split
        · rw [h, List.getLast?_cons_cons]
        · rfl

/-- Suffix form of the pass: what is kept of a suffix does not depend on what comes before. -/
theorem pass_append (a b : List (Rec R)) : ∃ p, pass (a ++ b) = p ++ pass b ∧ p.Sublist a := by
  induction a with
  | nil => exact ⟨[], rfl, List.Sublist.slnil⟩
  | cons r a ih =>
    obtain ⟨p, hp, hs⟩ := ih
    change ∃ q, keepRow r (pass (a ++ b)) = _ ∧ _
    by_cases hk : keepRow r (pass (a ++ b)) = r :: pass (a ++ b)
    · exact ⟨r :: p, by rw [hk, hp]; rfl, hs.cons_cons r⟩
    · refine ⟨p, ?_, hs.cons r⟩
      rw [← hp]
      unfold keepRow at hk ⊢
      split
      · rename_i h; rw [h] at hk; exact absurd rfl hk
      · rename_i k ks h
        rw [h] at hk
        split
        · rename_i h'; simp [h'] at hk
        · rfl

/-! ### Lemmas about the common models -/

theorem common_foldl (ts : List (Option (List (Rec R)))) (acc : Option (List ℤ)) :
    let c := ts.foldl (fun acc t => match t with
      | none => acc
      | some l => match acc with
        | none => some (l.map Rec.model)
        | some c => some (c.filter (· ∈ l.map Rec.model))) acc
    (c = none ↔ acc = none ∧ ∀ t ∈ ts, t = none) ∧
    ∀ c', c = some c' → ∀ m, m ∈ c' ↔ (∀ a, acc = some a → m ∈ a) ∧ ∀ l, some l ∈ ts → m ∈ l.map Rec.model := by
  induction ts generalizing acc with
  | nil =>
    refine ⟨by simp, fun c' h m => ?_⟩
    simp only [List.foldl_nil] at h
    subst h
    simp
  | cons t ts ih =>
    simp only [List.foldl_cons]
    cases t with
    | none =>
      obtain ⟨h1, h2⟩ := ih acc
      refine ⟨by rw [h1]; simp, fun c' h m => ?_⟩
      rw [h2 c' h m]; simp
    | some l =>
      cases acc with
      | none =>
        obtain ⟨h1, h2⟩ := ih (some (l.map Rec.model))
        refine ⟨by rw [h1]; simp, fun c' h m => ?_⟩
        rw [h2 c' h m]
        simp
      | some c =>
        obtain ⟨h1, h2⟩ := ih (some (c.filter (· ∈ l.map Rec.model)))
        refine ⟨by rw [h1]; simp, fun c' h m => ?_⟩
        rw [h2 c' h m]
        simp [and_assoc]

/-- The common models are those which every present table has. -/
theorem common_spec (ts : List (Option (List (Rec R)))) (l : List (Rec R)) (hl : some l ∈ ts) (m : ℤ) :
    m ∈ (common ts).getD [] ↔ ∀ l, some l ∈ ts → m ∈ l.map Rec.model := by
  obtain ⟨h1, h2⟩ := common_foldl ts none
  cases hc : common ts with
  | none =>
    have := (h1.1 hc).2 _ hl
    cases this
  | some c =>
    have := h2 c hc m
    simpa using this

end Verif.Scrub
