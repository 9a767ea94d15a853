import Mathlib.Tactic.Common
import Mathlib.Tactic.Linarith
import Mathlib.Tactic.FieldSimp
import Mathlib.Tactic.Ring
import Mathlib.Tactic.NormNum
import Mathlib.Data.Rat.Lemmas
import Mathlib.Algebra.Order.Field.Basic
import Mathlib.Algebra.Order.Field.Rat
/-!
Model of `MesaGridStep.stop_at_condition` and `interpolate_at_t`, `/repo/posydon/binary_evol/MESA/step_mesa.py`
l.1088-1288.

Simplifications: the properties of the binary and of its two stars are one list of columns; numeric columns hold
`Option ℚ` (`none` is Python's `None`), the columns with words (states, events, mass-transfer cases) and the profile and
metallicity hold values of a type `W`.  The column that is compared with the limit holds numbers.  Vector-valued columns
(`V_sys`, `nearest_neighbour_distance`) are treated as several numeric columns (l.1182-1190 interpolates each
component).
-/
namespace Verif.MesaStop

inductive Err
  | index
  | value
  deriving DecidableEq, Repr

/-- A numeric property: current value and history. -/
structure Col where
  cur : Option ℚ
  hist : List (Option ℚ)

/-- A property that is not interpolated. -/
structure WCol (W : Type) where
  cur : W
  hist : List W

/-- The binary with its stars: the time, the numeric properties, the others. -/
structure Sys (W : Type) where
  time : ℚ
  timeHist : List ℚ
  nums : List Col
  words : List (WCol W)

/-- `np.where(np.array(h) <= value)[0][-1]`, l.1119: the last position with a value not above the limit; `none` when there
is no such position (IndexError). -/
def lastLe (v : ℚ) : List ℚ → Option Nat
  | [] => none
  | x :: l =>
    match lastLe v l with
    | some i => some (i + 1)
    | none => if x ≤ v then some 0 else none

/-- `interpolate_at_t`, l.1259-1288. -/
def interp (t tb ta vb va : ℚ) : ℚ := (t - tb) * ((va - vb) / (ta - tb)) + vb

/-- l.1145-1158 and 1167-1194 for one numeric property, then l.1203-1206: history and current value are joined, the value
at `t` is interpolated between positions `i` and `i + 1`, and the first `i + 1` rows are kept. -/
def interpCol (t : ℚ) (times : List ℚ) (i : Nat) (c : Col) : Except Err Col :=
  let h := c.hist ++ [c.cur]
  match times[i]?, times[i + 1]?, h[i]?, h[i + 1]? with
  | some tb, some ta, some vb, some va =>
    match vb, va with
    | some vb, some va => .ok ⟨some (interp t tb ta vb va), h.take (i + 1)⟩
    | _, _ => .ok ⟨none, h.take (i + 1)⟩
  | _, _, _, _ => .error .index

/-- l.1141-1143, 1161-1163 and 1203-1206 for the other properties: the last recorded value, l.1206 `[:i + 1]`. -/
def wordCol {W : Type} (i : Nat) (c : WCol W) : Except Err (WCol W) :=
  match c.hist.getLast? with
  | some w => .ok ⟨w, c.hist.take (i + 1)⟩
  | none => .error .index

def mapE {A B E : Type} (f : A → Except E B) : List A → Except E (List B)
  | [] => .ok []
  | a :: l =>
    match f a, mapE f l with
    | .ok b, .ok m => .ok (b :: m)
    | .error e, _ => .error e
    | _, .error e => .error e

/-- `stop_at_condition(property='time', value=t, interpolate=True)`, l.1114-1123, 1129-1222. -/
def stopAtTime {W : Type} (t : ℚ) (s : Sys W) : Except Err (Sys W) :=
  let times := s.timeHist ++ [s.time]
  match lastLe t times with
  | none => .error .index
  | some i =>
    match mapE (interpCol t times i) s.nums, mapE (wordCol i) s.words with
    | .ok ns, .ok ws => .ok ⟨t, times.take (i + 1), ns, ws⟩
    | .error e, _ => .error e
    | _, .error e => .error e

/-- l.1230-1257: the rows of the track are dropped and the words are recomputed (`cls`) from the current values. -/
def flush {W : Type} (n : Nat) (cls : List Col → List W) (s : Sys W) : Sys W :=
  { s with
    timeHist := s.timeHist.take n
    nums := s.nums.map (fun c => { c with hist := c.hist.take n })
    words := List.zipWith (fun (c : WCol W) (w : W) => (⟨w, c.hist.take n⟩ : WCol W)) s.words (cls s.nums) }

/-- l.1207-1212, 1223-1227 without interpolation: the value of row `i`, and the rows before it. -/
def rowCol (i : Nat) (c : Col) : Except Err Col :=
  match c.hist[i]? with
  | some v => .ok ⟨v, c.hist.take i⟩
  | none => .error .index

/-- `stop_at_condition(property=p, value=v, interpolate=False)` for a numeric property `p` with history `h` and current
value `x` (all of them numbers): the property is joined with its current value, the other columns are not. -/
def stopAtValue (v : ℚ) (h : List ℚ) (x : ℚ) (others : List Col) : Except Err (ℚ × List ℚ × List Col) :=
  let hx := h ++ [x]
  match lastLe v hx with
  | none => .error .index
  | some i =>
    match hx[i]?, mapE (rowCol i) others with
    | some y, .ok os => .ok (y, hx.take i, os)
    | none, _ => .error .index
    | _, .error e => .error e

/-! ### Specification -/

/-- `y` lies on the straight line through `(tb, vb)` and `(ta, va)` at `t`. -/
def OnLine (t tb ta vb va y : ℚ) : Prop := (y - vb) * (ta - tb) = (va - vb) * (t - tb)

/-- All histories have the same length. -/
def Aligned {W : Type} (s : Sys W) (n : Nat) : Prop :=
  s.timeHist.length = n ∧ (∀ c ∈ s.nums, c.hist.length = n) ∧ ∀ c ∈ s.words, c.hist.length = n

/-! ### Helper lemmas -/

theorem lastLe_spec (v : ℚ) (l : List ℚ) (i : Nat) (h : lastLe v l = some i) :
    (∃ x, l[i]? = some x ∧ x ≤ v) ∧ ∀ j x, i < j → l[j]? = some x → v < x := by
  induction l generalizing i with
  | nil => simp [lastLe] at h
  | cons y l ih =>
    simp only [lastLe] at h
    cases hr : lastLe v l with
    | some k =>
      rw [hr] at h
      simp only [Option.some.injEq] at h
      subst h
      obtain ⟨h1, h2⟩ := ih k hr
      refine ⟨by simpa using h1, fun j x hj hx => ?_⟩
      cases j with
      | zero => omega
      | succ j => exact h2 j x (by omega) (by simpa using hx)
    | none =>
      rw [hr] at h
      simp only at h
      have hnone : ∀ (l : List ℚ), lastLe v l = none → ∀ (j : Nat) (x : ℚ), l[j]? = some x → v < x := by
        intro l
        induction l with
        | nil => intro _ j x hx; simp at hx
        | cons z l ih' =>
          intro hn j x hx
          simp only [lastLe] at hn
          cases hr' : lastLe v l with
          | some k => rw [hr'] at hn; simp at hn
          | none =>
            rw [hr'] at hn
            by_cases hz : z ≤ v
            · simp [hz] at hn
            · cases j with
              | zero => simp at hx; subst hx; exact not_le.1 hz
              | succ j => exact ih' hr' j x (by simpa using hx)
      by_cases hy : y ≤ v
      · rw [if_pos hy] at h
        simp only [Option.some.injEq] at h
        subst h
        refine ⟨⟨y, by simp, hy⟩, fun j x hj hx => ?_⟩
        cases j with
        | zero => omega
        | succ j => exact hnone l hr j x (by simpa using hx)
      · rw [if_neg hy] at h
        simp at h

theorem lastLe_exists (v : ℚ) (l : List ℚ) (x : ℚ) (hx : x ∈ l) (hv : x ≤ v) : ∃ i, lastLe v l = some i := by
  induction l with
  | nil => simp at hx
  | cons y l ih =>
    simp only [lastLe]
    cases hr : lastLe v l with
    | some k => exact ⟨k + 1, rfl⟩
    | none =>
      rcases List.mem_cons.1 hx with rfl | h
      · exact ⟨0, by simp [hv]⟩
      · obtain ⟨i, hi⟩ := ih h
        rw [hr] at hi
        simp at hi

theorem lastLe_last (v : ℚ) (l : List ℚ) (x : ℚ) (hx : x ≤ v) : lastLe v (l ++ [x]) = some l.length := by
  induction l with
  | nil => simp [lastLe, hx]
  | cons y l ih => simp [lastLe, ih]

theorem mapE_ok {A B E : Type} (f : A → Except E B) (l : List A) (h : ∀ a ∈ l, ∃ b, f a = .ok b) :
    ∃ m, mapE f l = .ok m ∧ m.length = l.length ∧
      ∀ (i : Nat) (a : A), l[i]? = some a → ∃ b, f a = .ok b ∧ m[i]? = some b := by
  induction l with
  | nil => exact ⟨[], rfl, rfl, by simp⟩
  | cons a l ih =>
    obtain ⟨b, hb⟩ := h a (by simp)
    obtain ⟨m, hm, hlen, hi⟩ := ih (fun x hx => h x (by simp [hx]))
    refine ⟨b :: m, by simp [mapE, hb, hm], by simp [hlen], fun i x hx => ?_⟩
    cases i with
    | zero => simp at hx; subst hx; exact ⟨b, hb, by simp⟩
    | succ i => obtain ⟨c, hc, hc'⟩ := hi i x (by simpa using hx); exact ⟨c, hc, by simpa using hc'⟩

theorem mapE_error {A B E : Type} (f : A → Except E B) (e : E) (l : List A) (hne : l ≠ [])
    (h : ∀ a ∈ l, f a = .error e) : mapE f l = .error e := by
  cases l with
  | nil => exact absurd rfl hne
  | cons a l =>
    simp only [mapE, h a (by simp)]

end Verif.MesaStop
