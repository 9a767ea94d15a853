import Verif.Chars
import Mathlib.Algebra.Order.Field.Rat
import Mathlib.Algebra.Order.Field.Basic
import Mathlib.Data.List.Basic
import Mathlib.Data.List.GetD
import Mathlib.Tactic.Common
import Mathlib.Tactic.Linarith
import Mathlib.Tactic.Positivity
import Mathlib.Tactic.Ring
import Mathlib.Tactic.FieldSimp
import Mathlib.Tactic.NormNum

/-!
# Equivalent evolutionary points

Model of `posydon/interpolation/eep.py`: `EEP` (l.24-265).

Simplifications.  A track is the list of its rows with the columns that are used; floats are rationals.  The three terms of the
metric (among them the logarithm of the age) are given per row.  A phase that is not found (-1 in the code) is `none`; the next
search then starts at 0.  The two independent searches in the loop of `_TRGB` are two loops here.  The values between the
points are not calculated: an entry of the result tells the rows and the metric with which `pchip` is called.  `pchip` needs two rows with increasing metric.
Reading of the file is a parameter.
-/

namespace Verif.Eep

abbrev Name := List Char

inductive Err where
  | index
  | value
  | unbound
deriving DecidableEq

structure Row where
  h1 : ℚ
  h2 : ℚ
  he4 : ℚ
  c12 : ℚ
  lhe : ℚ
  tc : ℚ
  heCore : ℚ
  cCore : ℚ
  mass : ℚ
  gamma : ℚ
  teff : ℚ
  lum : ℚ
  age : ℚ
deriving DecidableEq

/-- The loops that stop at the first row, from row `k` on. -/
def first (p : Row → Bool) (k : ℕ) (t : List Row) : Option ℕ := ((t.drop k).findIdx? p).map (· + k)

/-- The guess for the next phase: one more than the index, 0 for a phase that is not found. -/
def next : Option ℕ → ℕ
  | none => 0
  | some i => i + 1

/-- The loops for a largest value, from row `i` on, with the largest value and its row so far. -/
def best (ok : Row → Bool) (key : Row → ℚ) : ℚ → ℕ → ℕ → List Row → ℕ
  | _, j, _, [] => j
  | b, j, i, r :: rs => if ok r && decide (b < key r) then best ok key (key r) i (i + 1) rs else best ok key b j (i + 1) rs

def bestFrom (ok : Row → Bool) (key : Row → ℚ) (k : ℕ) (t : List Row) : ℕ := best ok key (-99) 0 k (t.drop k)

/-- `_PreMS`, l.120-126. -/
def preMS (t : List Row) : Option ℕ :=
  match t with
  | [] => none
  | r :: _ => first (fun x => decide (x.h2 < 1 / 100 * r.h2)) 0 t

/-- `_ZAMS`, l.128-134. -/
def zams (t : List Row) : Option ℕ :=
  match t with
  | [] => none
  | r :: _ => first (fun x => decide (|x.h1 - r.h1| > 1 / 1000)) 0 t

/-- `_IAMS` and `_TAMS`, l.136-150: the guess is not used. -/
def hBelow (x : ℚ) (t : List Row) : Option ℕ := first (fun r => decide (r.h1 < x)) 0 t

/-- `_TRGB`, l.152-167. -/
def trgb (guess : ℕ) (t : List Row) : Except Err ℕ :=
  match t[guess]? with
  | none => .error .index
  | some g =>
    let ok := fun r : Row => decide (r.he4 > g.he4 - 1 / 100)
    .ok (min (bestFrom ok (·.lhe) guess t) (bestFrom ok (fun r => -r.tc) guess t))

/-- `_ZACHEB`, l.169-184. -/
def zacheb (guess : ℕ) (t : List Row) : Except Err ℕ :=
  match t[guess]? with
  | none => .error .index
  | some g =>
    let ok := fun r : Row => decide (r.he4 > max (9 / 10) (g.he4 - 3 / 100))
    .ok (bestFrom ok (fun r => -r.tc) (bestFrom ok (·.lhe) guess t) t)

/-- `_TACHEB`, l.186-192. -/
def tacheb (guess : ℕ) (t : List Row) : Option ℕ := first (fun r => decide (r.he4 < 1 / 1000)) guess t

/-- `_TPAGB`, l.194-203. -/
def tpagb (guess : ℕ) (t : List Row) : Option ℕ :=
  first (fun r => decide (r.he4 < 1 / 1000000) && decide (r.heCore - r.cCore < 1 / 10)) guess t

/-- `_PAGB`, l.205-219. -/
def pagb (guess : ℕ) (t : List Row) : Except Err (Option ℕ) :=
  match t[guess]?, t.getLast? with
  | some g, some l => .ok (if g.tc > l.tc then first (fun r => decide (r.cCore / r.mass > 8 / 10)) guess t else none)
  | _, _ => .error .index

/-- `_WDCS`, l.221-227. -/
def wdcs (guess : ℕ) (t : List Row) : Option ℕ := first (fun r => decide (r.gamma > 10)) guess t

/-- `_CBurn`, l.229-239. -/
def cburn (guess : ℕ) (t : List Row) : Option ℕ :=
  first (fun r => decide (r.h1 < 1 / 1000000) && decide (r.he4 < 1 / 1000000) && decide (r.c12 < 1 / 10)) guess t

structure Points where
  preMS : Option ℕ
  zams : Option ℕ
  iams : Option ℕ
  tams : Option ℕ
  trgb : ℕ
  zacheb : ℕ
  tacheb : Option ℕ
  tpagb : Option ℕ
  pagb : Option ℕ
  wdcs : Option ℕ
  cburn : Option ℕ
deriving DecidableEq

/-- All phases, l.48-58. -/
def points (t : List Row) : Except Err Points :=
  match trgb (next (hBelow (1 / 100000) t)) t with
  | .error e => .error e
  | .ok b =>
    match zacheb (b + 1) t with
    | .error e => .error e
    | .ok c =>
      match pagb (next (tpagb (next (tacheb (c + 1) t)) t)) t with
      | .error e => .error e
      | .ok a =>
        .ok { preMS := preMS t, zams := zams t, iams := hBelow (2 / 10) t, tams := hBelow (1 / 100000) t,
              trgb := b, zacheb := c, tacheb := tacheb (c + 1) t, tpagb := tpagb (next (tacheb (c + 1) t)) t,
              pagb := a, wdcs := wdcs (next a) t, cburn := cburn (c + 1) t }

/-- The phase of a name, l.69-90. -/
def Points.get (p : Points) (n : Name) : Option ℕ :=
  if n = (chars! "PreMS") then p.preMS
  else if n = (chars! "ZAMS") then p.zams
  else if n = (chars! "IAMS") then p.iams
  else if n = (chars! "TAMS") then p.tams
  else if n = (chars! "TRGB") then some p.trgb
  else if n = (chars! "ZACHEB") then some p.zacheb
  else if n = (chars! "TACHEB") then p.tacheb
  else if n = (chars! "TPAGB") then p.tpagb
  else if n = (chars! "PAGB") then p.pagb
  else if n = (chars! "WDCS") then p.wdcs
  else if n = (chars! "CBURN") then p.cburn
  else none

/-- The rows of the primary points, l.64-90. -/
def Points.rows (p : Points) (names : List Name) : List ℕ := names.filterMap p.get

def zamsHi : List Name :=
  [(chars! "ZAMS"), (chars! "IAMS"), (chars! "TAMS"), (chars! "ZACHEB"), (chars! "TACHEB"), (chars! "CBURN")]
def zamsLo : List Name :=
  [(chars! "ZAMS"), (chars! "IAMS"), (chars! "TAMS"), (chars! "TRGB"), (chars! "ZACHEB"), (chars! "TACHEB")]
def heZams : List Name := [(chars! "ZACHEB"), (chars! "TACHEB"), (chars! "CBURN")]

/-- One step of the metric, l.258-263. -/
def step (a b : Row) : ℚ := 2 * (b.teff - a.teff) ^ 2 + 125 / 1000 * (b.lum - a.lum) ^ 2 + (b.age - a.age) ^ 2

/-- `_metric_function`, l.245-265. -/
def metric (t : List Row) : ℕ → ℚ
  | 0 => 0
  | i + 1 =>
    match t[i]?, t[i + 1]? with
    | some a, some b => metric t i + step a b
    | _, _ => metric t i

/-- An entry of the result: a row of the track, or values between rows `lo` and `hi - 1` at a metric. -/
inductive Entry where
  | row (i : ℕ)
  | between (lo hi : ℕ) (m : ℚ)
deriving DecidableEq

/-- The metric of the `j`-th point between two primary ones, l.110-113. -/
def between (m : ℕ → ℚ) (lo hi : ℕ) (n j : ℕ) : ℚ := m lo + j * ((m hi - m lo) / (n + 1))

/-- Whether `pchip` accepts the rows from `lo` to `hi - 1`. -/
def pchipOk (m : ℕ → ℚ) (lo hi : ℕ) : Bool :=
  decide (lo + 2 ≤ hi) && (List.range (hi - lo - 1)).all fun k => decide (m (lo + k) < m (lo + k + 1))

/-- The entries of one interval: its first row and the secondary points, l.100-117. -/
def interval (m : ℕ → ℚ) (n lo hi : ℕ) : List Entry :=
  .row lo :: (List.range n).map fun j => .between lo hi (between m lo hi n (j + 1))

/-- The entries for the rows of the primary points in their order. -/
def entries (m : ℕ → ℚ) (n : ℕ) : List ℕ → List Entry
  | [] => []
  | [a] => [.row a]
  | a :: b :: r => interval m n a b ++ entries m n (b :: r)

/-- Whether every call of `pchip` is accepted. -/
def allOk (m : ℕ → ℚ) : List ℕ → Bool
  | a :: b :: r => pchipOk m a b && allOk m (b :: r)
  | _ => true

/-- `EEP.__init__`: the track is `none` if the file cannot be opened (l.43-48); no primary points give a negative number of
entries (l.95-97), unless there are no secondary points. -/
def eep (t : Option (List Row)) (names : List Name) (n : ℕ) : Except Err (List Entry) :=
  match t with
  | none => .error .unbound
  | some t =>
    match points t with
    | .error e => .error e
    | .ok p =>
      let rows := p.rows names
      if rows = [] ∧ 0 < n then .error .value
      else if 0 < n ∧ allOk (metric t) rows = false then .error .value
      else .ok (entries (metric t) n rows)

/-! ### Helper lemmas -/

theorem first_some {p : Row → Bool} {k : ℕ} {t : List Row} {i : ℕ} :
    first p k t = some i ↔ k ≤ i ∧ (∃ r, t[i]? = some r ∧ p r) ∧ ∀ j r, k ≤ j → j < i → t[j]? = some r → p r = false := by
  unfold first
  rw [Option.map_eq_some_iff]
  constructor
  · rintro ⟨m, hm, rfl⟩
    rw [List.findIdx?_eq_some_iff_getElem] at hm
    obtain ⟨hl, hp, hj⟩ := hm
    refine ⟨Nat.le_add_left _ _, ⟨(t.drop k)[m], ?_, hp⟩, ?_⟩
    · rw [Nat.add_comm m k, ← List.getElem?_drop, List.getElem?_eq_getElem hl]
    · intro j r hkj hjm hr
      obtain ⟨d, rfl⟩ := Nat.exists_eq_add_of_le hkj
      have hd : d < m := by omega
      have := hj d hd
      rw [← List.getElem?_drop, List.getElem?_eq_getElem (by omega)] at hr
      cases hr
      simpa using this
  · rintro ⟨hk, ⟨r, hr, hp⟩, hj⟩
    obtain ⟨m, rfl⟩ := Nat.exists_eq_add_of_le hk
    refine ⟨m, ?_, Nat.add_comm _ _⟩
    rw [List.findIdx?_eq_some_iff_getElem]
    rw [← List.getElem?_drop] at hr
    obtain ⟨hl, he⟩ := List.getElem?_eq_some_iff.1 hr
    refine ⟨hl, by rw [he]; exact hp, ?_⟩
    intro j hjm
    have := hj (k + j) (t.drop k)[j] (Nat.le_add_right _ _) (by omega)
      (by rw [← List.getElem?_drop, List.getElem?_eq_getElem (by omega)])
    simpa using this

theorem first_none {p : Row → Bool} {k : ℕ} {t : List Row} :
    first p k t = none ↔ ∀ j r, k ≤ j → t[j]? = some r → p r = false := by
  unfold first
  rw [Option.map_eq_none_iff, List.findIdx?_eq_none_iff]
  constructor
  · intro h j r hk hr
    obtain ⟨d, rfl⟩ := Nat.exists_eq_add_of_le hk
    rw [← List.getElem?_drop] at hr
    exact h r (List.mem_of_getElem? hr)
  · intro h r hr
    obtain ⟨d, hd⟩ := List.getElem?_of_mem hr
    rw [List.getElem?_drop] at hd
    exact h _ r (Nat.le_add_right _ _) hd

/-- A weaker condition is met earlier. -/
theorem first_le {p q : Row → Bool} {k l : ℕ} {t : List Row} {i : ℕ} (hpq : ∀ r, p r → q r) (hkl : l ≤ k) (h : first p k t = some i) :
    ∃ j, first q l t = some j ∧ j ≤ i := by
  obtain ⟨hk, ⟨r, hr, hp⟩, _⟩ := first_some.1 h
  cases hq : first q l t with
  | none =>
    have := first_none.1 hq i r (by omega) hr
    rw [hpq r hp] at this
    cases this
  | some j =>
    refine ⟨j, rfl, ?_⟩
    by_contra hlt
    have := (first_some.1 hq).2.2 i r (by omega) (by omega) hr
    rw [hpq r hp] at this
    cases this

theorem best_spec (ok : Row → Bool) (key : Row → ℚ) (b : ℚ) (j i : ℕ) (l : List Row) :
    (best ok key b j i l = j ∧ ∀ r ∈ l, ok r → key r ≤ b) ∨
    ∃ m r, best ok key b j i l = i + m ∧ l[m]? = some r ∧ ok r ∧ b < key r ∧ (∀ x ∈ l, ok x → key x ≤ key r) ∧
      ∀ (d : ℕ) x, d < m → l[d]? = some x → ok x → key x < key r := by
  induction l generalizing b j i with
  | nil => left; exact ⟨rfl, by simp⟩
  | cons r rs ih =>
    unfold best
    by_cases h : (ok r && decide (b < key r)) = true
    · rw [if_pos h]
      simp only [Bool.and_eq_true, decide_eq_true_eq] at h
      right
      rcases ih (key r) i (i + 1) with ⟨h1, h2⟩ | ⟨m, x, h1, h2, h3, h4, h5, h6⟩
      · refine ⟨0, r, by rw [h1]; rfl, rfl, h.1, h.2, ?_, by intro d x hd; omega⟩
        intro x hx ho
        rcases List.mem_cons.1 hx with rfl | hx
        · exact le_refl _
        · exact h2 x hx ho
      · refine ⟨m + 1, x, by rw [h1]; omega, by simpa using h2, h3, lt_trans h.2 h4, ?_, ?_⟩
        · intro y hy ho
          rcases List.mem_cons.1 hy with rfl | hy
          · exact le_of_lt h4
          · exact h5 y hy ho
        · intro d y hd hy ho
          cases d with
          | zero => simp only [List.getElem?_cons_zero, Option.some.injEq] at hy; subst hy; exact h4
          | succ d => exact h6 d y (by omega) (by simpa using hy) ho
    · rw [if_neg h]
      simp only [Bool.and_eq_true, decide_eq_true_eq, not_and, not_lt] at h
      rcases ih b j (i + 1) with ⟨h1, h2⟩ | ⟨m, x, h1, h2, h3, h4, h5, h6⟩
      · left
        refine ⟨h1, ?_⟩
        intro y hy ho
        rcases List.mem_cons.1 hy with rfl | hy
        · exact h ho
        · exact h2 y hy ho
      · right
        refine ⟨m + 1, x, by rw [h1]; omega, by simpa using h2, h3, h4, ?_, ?_⟩
        · intro y hy ho
          rcases List.mem_cons.1 hy with rfl | hy
          · exact le_trans (h ho) (le_of_lt h4)
          · exact h5 y hy ho
        · intro d y hd hy ho
          cases d with
          | zero =>
            simp only [List.getElem?_cons_zero, Option.some.injEq] at hy
            subst hy
            exact lt_of_le_of_lt (h ho) h4
          | succ d => exact h6 d y (by omega) (by simpa using hy) ho

/-- What the loops for a largest value find, in terms of the whole track. -/
theorem bestFrom_spec (ok : Row → Bool) (key : Row → ℚ) (k : ℕ) (t : List Row) :
    (bestFrom ok key k t = 0 ∧ ∀ i r, k ≤ i → t[i]? = some r → ok r → key r ≤ -99) ∨
    ∃ i r, bestFrom ok key k t = i ∧ k ≤ i ∧ t[i]? = some r ∧ ok r ∧ -99 < key r ∧
      (∀ j x, k ≤ j → t[j]? = some x → ok x → key x ≤ key r) ∧
      ∀ j x, k ≤ j → j < i → t[j]? = some x → ok x → key x < key r := by
  unfold bestFrom
  rcases best_spec ok key (-99) 0 k (t.drop k) with ⟨h1, h2⟩ | ⟨m, r, h1, h2, h3, h4, h5, h6⟩
  · left
    refine ⟨h1, ?_⟩
    intro i r hk hr
    obtain ⟨d, rfl⟩ := Nat.exists_eq_add_of_le hk
    rw [← List.getElem?_drop] at hr
    exact h2 r (List.mem_of_getElem? hr)
  · right
    refine ⟨k + m, r, h1, Nat.le_add_right _ _, by rw [← List.getElem?_drop]; exact h2, h3, h4, ?_, ?_⟩
    · intro j x hk hx
      obtain ⟨d, rfl⟩ := Nat.exists_eq_add_of_le hk
      rw [← List.getElem?_drop] at hx
      exact h5 x (List.mem_of_getElem? hx)
    · intro j x hk hj hx
      obtain ⟨d, rfl⟩ := Nat.exists_eq_add_of_le hk
      rw [← List.getElem?_drop] at hx
      exact h6 d x (by omega) hx

theorem step_nonneg (a b : Row) : 0 ≤ step a b := by unfold step; positivity

theorem metric_mono (t : List Row) : Monotone (metric t) := by
  apply monotone_nat_of_le_succ
  intro i
  show metric t i ≤ match t[i]?, t[i + 1]? with
    | some a, some b => metric t i + step a b
    | _, _ => metric t i
  split
  · rename_i a b _ _
    have := step_nonneg a b; linarith
  · exact le_refl _

theorem interval_length (m : ℕ → ℚ) (n lo hi : ℕ) : (interval m n lo hi).length = n + 1 := by simp [interval]

theorem entries_length (m : ℕ → ℚ) (n : ℕ) (rows : List ℕ) :
    (entries m n rows).length = rows.length + n * (rows.length - 1) := by
  induction rows with
  | nil => simp [entries]
  | cons a r ih =>
    cases r with
    | nil => simp [entries]
    | cons b r =>
      rw [entries, List.length_append, interval_length, ih]
      simp only [List.length_cons, Nat.add_sub_cancel]
      ring

end Verif.Eep
