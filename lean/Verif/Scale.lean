import Mathlib.Analysis.SpecialFunctions.Log.Base
import Mathlib.Analysis.SpecialFunctions.Pow.Real
import Mathlib.Data.List.MinMax
import Mathlib.Tactic.Linarith
import Mathlib.Tactic.FieldSimp
import Mathlib.Tactic.Ring

/-!
Model of the scaling of features before interpolation, `DataScaler` of `/repo/posydon/interpolation/data_scaling.py` (l.12-224).

Simplifications: floats are real numbers; arrays are lists; `none` stands for any result that is not finite (logarithm of a number that is not
positive, division by zero), which then stays that way.
-/
namespace Verif.Scale

noncomputable section
open Classical

inductive Err
  | assertion | value | type
  deriving DecidableEq

/-- The names of methods; `other` is any other string. -/
inductive Method
  | minMax | logMinMax | negLogMinMax | maxAbs | logMaxAbs | standardize | logStandardize | negLogStandardize | log | none | other
  deriving DecidableEq

/-- `np.log10`. -/
def log10 (x : ℝ) : Option ℝ := if 0 < x then Option.some (Real.logb 10 x) else Option.none

/-- `10 ** x`. -/
def pow10 (x : ℝ) : ℝ := (10 : ℝ) ^ x

/-- `x / y`. -/
def quot (x y : ℝ) : Option ℝ := if y = 0 then Option.none else Option.some (x / y)

/-- `x.min()`, `x.max()` of an array with first element `a`. -/
def minL (a : ℝ) (l : List ℝ) : ℝ := l.foldl min a
def maxL (a : ℝ) (l : List ℝ) : ℝ := l.foldl max a

/-- `x.mean()` and `x.std()`. -/
def mean (l : List ℝ) : ℝ := l.sum / l.length
def std (l : List ℝ) : ℝ := Real.sqrt (mean (l.map fun x => (x - mean l) ^ 2))

/-- The object: method, the parameters (up to two numbers, each possibly not finite) and the range. -/
structure Scaler where
  method : Option Method
  params : List (Option ℝ)
  range : Option (ℝ × ℝ)

/-- `DataScaler()`, l.20-36. -/
def Scaler.new : Scaler := ⟨none, [], none⟩

/-- A logarithm of every element, if all are defined. -/
def logs (l : List ℝ) : Option (List ℝ) := l.mapM log10

/-- The parameters of `fit` for a nonempty array `a :: l`, l.68-97; `Option.none`: unknown method. -/
def fitParams (m : Method) (a : ℝ) (l : List ℝ) : Option (List (Option ℝ)) :=
  match m with
  | .minMax => some [some (minL a l), some (maxL a l)]
  | .logMinMax => some [log10 (minL a l), log10 (maxL a l)]
  | .negLogMinMax => some [log10 (minL (-a) (l.map fun x => -x)), log10 (maxL (-a) (l.map fun x => -x))]
  | .maxAbs => some [some (maxL |a| (l.map fun x => |x|))]
  | .logMaxAbs => some [(logs (a :: l)).map fun g => maxL 0 (g.map fun x => |x|)]
  | .standardize => some [some (mean (a :: l)), some (std (a :: l))]
  | .logStandardize => some [(logs (a :: l)).map mean, (logs (a :: l)).map std]
  | .negLogStandardize => some [(logs ((a :: l).map fun x => -x)).map mean, (logs ((a :: l).map fun x => -x)).map std]
  | .log => some []
  | .none => some []
  | .other => none

/-- The methods with a range. -/
def ranged : Method → Bool
  | .minMax | .logMinMax | .negLogMinMax => true
  | _ => false

/-- The methods that reduce the array, which fails for an empty one (`min` and `max`); means of empty arrays are NaN. -/
def reduces : Method → Bool
  | .minMax | .logMinMax | .negLogMinMax | .maxAbs | .logMaxAbs => true
  | _ => false

/-- `fit`, l.38-97: the object afterwards and the exception.  The method is stored before anything is checked (l.65). -/
def fit (s : Scaler) (x : List ℝ) (m : Method) (lo hi : ℝ) : Scaler × Option Err :=
  let s := { s with method := some m }
  if ranged m && decide (¬ hi > lo) then (s, some .assertion)
  else
    let s := if ranged m then { s with range := some (lo, hi) } else s
    match x with
    | [] =>
      if m = .other then (s, some .value)
      else if reduces m then (s, some .value)
      else if m = .standardize ∨ m = .logStandardize ∨ m = .negLogStandardize then ({ s with params := [none, none] }, none)
      else ({ s with params := [] }, none)
    | a :: l =>
      match fitParams m a l with
      | none => (s, some .value)
      | some p => ({ s with params := p }, none)

/-- Python's `params[i]` and the arithmetic with it: a missing parameter is a TypeError (`None[0]`) or IndexError. -/
def param (s : Scaler) (i : Nat) : Except Err (Option ℝ) :=
  match s.params[i]? with
  | some p => .ok p
  | none => .error .type

def two (s : Scaler) (f : ℝ → ℝ → Option ℝ) : Except Err (Option ℝ) :=
  match param s 0, param s 1 with
  | .ok (some a), .ok (some b) => .ok (f a b)
  | .ok _, .ok _ => .ok none
  | _, _ => .error .type

def one (s : Scaler) (f : ℝ → Option ℝ) : Except Err (Option ℝ) :=
  match param s 0 with
  | .ok (some a) => .ok (f a)
  | .ok none => .ok none
  | .error e => .error e

/-- `(y - p0) / (p1 - p0) * (upper - lower) + lower`. -/
def toRange (y p0 p1 lo hi : ℝ) : Option ℝ := (quot (y - p0) (p1 - p0)).map fun q => q * (hi - lo) + lo

/-- `(y - lower) / (upper - lower) * (p1 - p0) + p0`. -/
def fromRange (y p0 p1 lo hi : ℝ) : Option ℝ := (quot (y - lo) (hi - lo)).map fun q => q * (p1 - p0) + p0

def withRange (s : Scaler) (f : ℝ → ℝ → Except Err (Option ℝ)) : Except Err (Option ℝ) :=
  match s.range with
  | some (lo, hi) => f lo hi
  | none => .error .type

/-- `transform` of one element, l.119-150. -/
def transform (s : Scaler) (x : ℝ) : Except Err (Option ℝ) :=
  match s.method with
  | none => .error .assertion
  | some .minMax => withRange s fun lo hi => two s fun p0 p1 => toRange x p0 p1 lo hi
  | some .logMinMax => withRange s fun lo hi => two s fun p0 p1 => (log10 x).bind fun y => toRange y p0 p1 lo hi
  | some .negLogMinMax => withRange s fun lo hi => two s fun p0 p1 => (log10 (-x)).bind fun y => toRange y p0 p1 lo hi
  | some .maxAbs => one s fun p => quot x p
  | some .logMaxAbs => one s fun p => (log10 x).bind fun y => quot y p
  | some .standardize => two s fun p0 p1 => quot (x - p0) p1
  | some .logStandardize => two s fun p0 p1 => (log10 x).bind fun y => quot (y - p0) p1
  | some .negLogStandardize => two s fun p0 p1 => (log10 (-x)).bind fun y => quot (y - p0) p1
  | some .log => .ok (log10 x)
  | some .none | some .other => .ok (some x)

/-- `inv_transform` of one element, l.195-224. -/
def inv (s : Scaler) (y : ℝ) : Except Err (Option ℝ) :=
  match s.method with
  | none => .error .assertion
  | some .minMax => withRange s fun lo hi => two s fun p0 p1 => fromRange y p0 p1 lo hi
  | some .logMinMax => withRange s fun lo hi => two s fun p0 p1 => (fromRange y p0 p1 lo hi).map pow10
  | some .negLogMinMax => withRange s fun lo hi => two s fun p0 p1 => (fromRange y p0 p1 lo hi).map fun z => -pow10 z
  | some .maxAbs => one s fun p => some (y * p)
  | some .logMaxAbs => one s fun p => some (pow10 (y * p))
  | some .standardize => two s fun p0 p1 => some (y * p1 + p0)
  | some .logStandardize => two s fun p0 p1 => some (pow10 (y * p1 + p0))
  | some .negLogStandardize => two s fun p0 p1 => some (-pow10 (y * p1 + p0))
  | some .log => .ok (some (pow10 y))
  | some .none | some .other => .ok (some y)

/-- `inv_transform(transform(x))`. -/
def roundTrip (s : Scaler) (x : ℝ) : Except Err (Option ℝ) :=
  match transform s x with
  | .error e => .error e
  | .ok none => .ok none
  | .ok (some y) => inv s y

/-! ### Specification -/

/-- What a method does to a number before the linear map: nothing, logarithm, or logarithm of the opposite. -/
def kind : Method → ℕ
  | .logMinMax | .logMaxAbs | .logStandardize | .log => 1
  | .negLogMinMax | .negLogStandardize => 2
  | _ => 0

/-- The numbers a method is meant for. -/
def domain (m : Method) (x : ℝ) : Prop :=
  if kind m = 1 then 0 < x else if kind m = 2 then x < 0 else True

/-- Data whose scaled values are not all equal (or, for the methods dividing by the largest absolute value, not all zero). -/
def spread (m : Method) (data : List ℝ) : Prop :=
  match m with
  | .maxAbs => ∃ x ∈ data, x ≠ 0
  | .logMaxAbs => ∃ x ∈ data, x ≠ 1
  | .log | .none => True
  | _ => ∃ x ∈ data, ∃ y ∈ data, x ≠ y

/-! ### Lemmas -/

theorem minL_le (a : ℝ) (l : List ℝ) : minL a l ≤ a ∧ ∀ x ∈ l, minL a l ≤ x := by
  induction l generalizing a with
  | nil => simp [minL]
  | cons b l ih =>
    obtain ⟨h1, h2⟩ := ih (min a b)
    have e : minL a (b :: l) = minL (min a b) l := rfl
    rw [e]
    refine ⟨h1.trans (min_le_left _ _), fun x hx => ?_⟩
    rcases List.mem_cons.1 hx with rfl | hx
    · exact h1.trans (min_le_right _ _)
    · exact h2 x hx

theorem minL_mem (a : ℝ) (l : List ℝ) : minL a l ∈ a :: l := by
  induction l generalizing a with
  | nil => simp [minL]
  | cons b l ih =>
    have e : minL a (b :: l) = minL (min a b) l := rfl
    rw [e]
    have := ih (min a b)
    rcases List.mem_cons.1 this with h | h
    · rw [h]
      rcases min_choice a b with h' | h' <;> rw [h'] <;> simp
    · simp [h]

theorem le_maxL (a : ℝ) (l : List ℝ) : a ≤ maxL a l ∧ ∀ x ∈ l, x ≤ maxL a l := by
  induction l generalizing a with
  | nil => simp [maxL]
  | cons b l ih =>
    obtain ⟨h1, h2⟩ := ih (max a b)
    have e : maxL a (b :: l) = maxL (max a b) l := rfl
    rw [e]
    refine ⟨(le_max_left _ _).trans h1, fun x hx => ?_⟩
    rcases List.mem_cons.1 hx with rfl | hx
    · exact (le_max_right _ _).trans h1
    · exact h2 x hx

theorem maxL_mem (a : ℝ) (l : List ℝ) : maxL a l ∈ a :: l := by
  induction l generalizing a with
  | nil => simp [maxL]
  | cons b l ih =>
    have e : maxL a (b :: l) = maxL (max a b) l := rfl
    rw [e]
    have := ih (max a b)
    rcases List.mem_cons.1 this with h | h
    · rw [h]
      rcases max_choice a b with h' | h' <;> rw [h'] <;> simp
    · simp [h]

theorem log10_pos {x : ℝ} (h : 0 < x) : log10 x = some (Real.logb 10 x) := by simp [log10, h]

theorem pow10_logb {x : ℝ} (h : 0 < x) : pow10 (Real.logb 10 x) = x := by
  unfold pow10
  exact Real.rpow_logb (by norm_num) (by norm_num) h

theorem quot_ne {x y : ℝ} (h : y ≠ 0) : quot x y = some (x / y) := by simp [quot, h]

theorem range_roundTrip {y p0 p1 lo hi : ℝ} (hp : p1 ≠ p0) (hr : lo < hi) :
    ∃ z, toRange y p0 p1 lo hi = some z ∧ fromRange z p0 p1 lo hi = some y := by
  have h1 : p1 - p0 ≠ 0 := sub_ne_zero.2 hp
  have h2 : hi - lo ≠ 0 := by
    have : 0 < hi - lo := by linarith
    exact this.ne'
  refine ⟨(y - p0) / (p1 - p0) * (hi - lo) + lo, by simp [toRange, quot_ne h1], ?_⟩
  rw [fromRange, quot_ne h2]
  simp only [Option.map_some, Option.some.injEq]
  field_simp
  ring

theorem toRange_mem {y p0 p1 lo hi : ℝ} (hp : p0 < p1) (hr : lo < hi) (h0 : p0 ≤ y) (h1 : y ≤ p1) :
    ∃ z, toRange y p0 p1 lo hi = some z ∧ lo ≤ z ∧ z ≤ hi := by
  have hd : 0 < p1 - p0 := by linarith
  have hw : 0 < hi - lo := by linarith
  refine ⟨(y - p0) / (p1 - p0) * (hi - lo) + lo, by simp [toRange, quot_ne hd.ne'], ?_, ?_⟩
  · have : 0 ≤ (y - p0) / (p1 - p0) := div_nonneg (by linarith) hd.le
    nlinarith [mul_nonneg this hw.le]
  · have : (y - p0) / (p1 - p0) ≤ 1 := by rw [div_le_one hd]; linarith
    nlinarith [mul_le_mul_of_nonneg_right this hw.le]

theorem logs_pos {l : List ℝ} (h : ∀ x ∈ l, 0 < x) : logs l = some (l.map (Real.logb 10)) := by
  unfold logs
  induction l with
  | nil => rfl
  | cons a l ih =>
    have ha : 0 < a := h a (by simp)
    rw [List.mapM_cons, log10_pos ha, ih fun x hx => h x (by simp [hx])]
    rfl

/-- A standard deviation vanishes only if all numbers agree. -/
theorem std_eq_zero {l : List ℝ} (h : std l = 0) : ∀ x ∈ l, x = mean l := by
  intro x hx
  have hl : (0 : ℝ) < l.length := by exact_mod_cast List.length_pos_of_mem hx
  unfold std at h
  have hn : 0 ≤ mean (l.map fun x => (x - mean l) ^ 2) := by
    unfold mean
    apply div_nonneg _ (by simp)
    apply List.sum_nonneg
    intro y hy
    obtain ⟨z, -, rfl⟩ := List.mem_map.1 hy
    positivity
  have h0 : mean (l.map fun x => (x - mean l) ^ 2) = 0 := (Real.sqrt_eq_zero hn).1 h
  have hs : (l.map fun x => (x - mean l) ^ 2).sum = 0 := by
    have : (l.map fun x => (x - mean l) ^ 2).sum / ((l.map fun x => (x - mean l) ^ 2).length : ℝ) = 0 := h0
    rw [List.length_map] at this
    rcases div_eq_zero_iff.1 this with h | h
    · exact h
    · exact absurd h hl.ne'
  have hle : (x - mean l) ^ 2 ≤ (l.map fun x => (x - mean l) ^ 2).sum :=
    List.single_le_sum (by
      intro y hy
      obtain ⟨z, -, rfl⟩ := List.mem_map.1 hy
      positivity) _ (List.mem_map.2 ⟨x, hx, rfl⟩)
  rw [hs] at hle
  have : (x - mean l) ^ 2 = 0 := le_antisymm hle (by positivity)
  have := pow_eq_zero_iff (two_ne_zero) |>.1 this
  linarith

theorem logb_inj {x y : ℝ} (hx : 0 < x) (hy : 0 < y) (h : Real.logb 10 x = Real.logb 10 y) : x = y := by
  rw [← pow10_logb hx, ← pow10_logb hy, h]

theorem minL_lt_maxL {a : ℝ} {l : List ℝ} {x y : ℝ} (hx : x ∈ a :: l) (hy : y ∈ a :: l) (h : x ≠ y) : minL a l < maxL a l := by
  have lo : ∀ z ∈ a :: l, minL a l ≤ z := by
    intro z hz
    rcases List.mem_cons.1 hz with rfl | hz
    · exact (minL_le _ l).1
    · exact (minL_le a l).2 z hz
  have hi : ∀ z ∈ a :: l, z ≤ maxL a l := by
    intro z hz
    rcases List.mem_cons.1 hz with rfl | hz
    · exact (le_maxL _ l).1
    · exact (le_maxL a l).2 z hz
  rcases lt_or_gt_of_ne h with h | h
  · exact (lo x hx).trans_lt (h.trans_le (hi y hy))
  · exact (lo y hy).trans_lt (h.trans_le (hi x hx))

end

end Verif.Scale
