import Verif.Chars
import Verif.Jobs
import Verif.InvSampler
/-!
`read_histogram_from_file` (`/repo/posydon/utils/common_functions.py` l.840-883) and its use with `histogram_sampler` for custom formation times
(`/repo/posydon/popsyn/star_formation_history.py` l.1110-1116).

Simplifications: a file is the list of its lines; `np.fromstring(…, sep=",")` is a parameter `parse` from the text of a line to its numbers (it never raises: it
stops at the first text that is no number); numbers are real.
-/
namespace Verif.HistFile

open Verif.Jobs (Text strip)

/-- The only error of the function. -/
inductive Err where
  | index
deriving DecidableEq, Repr

/-- l.870-871: blank lines and comments. -/
def skipped (line : Text) : Bool :=
  let l := strip line
  decide (l.length = 0) || (chars! "#").isPrefixOf l

/-- The loop l.868-875. -/
def readLoop (parse : Text → List ℝ) : List (List ℝ) → List Text → Except Err (List (List ℝ))
  | arrays, [] => .ok arrays
  | arrays, line :: rest =>
    if skipped line then readLoop parse arrays rest
    else
      let arrays' := arrays ++ [parse (strip (strip line))]
      if arrays'.length > 2 then .error .index else readLoop parse arrays' rest

/-- `read_histogram_from_file`, l.866-883; the lengths are compared as integers (l.879). -/
def readHistogram (parse : Text → List ℝ) (lines : List Text) : Except Err (List ℝ × List ℝ) :=
  match readLoop parse [] lines with
  | .error e => .error e
  | .ok arrays =>
    if arrays.length < 2 then .error .index
    else
      match arrays with
      | x :: y :: _ => if (x.length : ℤ) - 1 ≠ y.length then .error .index else .ok (x, y)
      | _ => .error .index

/-! ### Specification -/

/-- A line with data. -/
def IsData (line : Text) : Prop := strip line ≠ [] ∧ (strip line).head? ≠ some '#'

instance (line : Text) : Decidable (IsData line) := inferInstanceAs (Decidable (_ ∧ _))

/-- The numbers of the lines with data, in order. -/
def numbers (parse : Text → List ℝ) (lines : List Text) : List (List ℝ) :=
  (lines.filter (fun l => decide (IsData l))).map (fun l => parse (strip (strip l)))

/-! ### Lemmas -/

theorem skipped_iff (line : Text) : skipped line = true ↔ ¬ IsData line := by
  unfold skipped IsData
  cases h : strip line with
  | nil => simp
  | cons c l =>
    simp only [List.length_cons, Nat.add_eq_zero_iff, one_ne_zero, and_false, decide_false, Bool.false_or, List.isPrefixOf_cons₂, List.isPrefixOf_nil_left,
      Bool.and_true, beq_iff_eq, ne_eq, reduceCtorEq, not_false_eq_true, List.head?_cons, Option.some.injEq, true_and, not_not]
    exact eq_comm

theorem readLoop_eq (parse : Text → List ℝ) (lines : List Text) (acc : List (List ℝ)) (ha : acc.length ≤ 2) :
    readLoop parse acc lines = if (acc ++ numbers parse lines).length ≤ 2 then .ok (acc ++ numbers parse lines) else .error .index := by
  induction lines generalizing acc with
  | nil => simp [readLoop, numbers, ha]
  | cons l ls ih =>
    simp only [readLoop]
    by_cases hs : skipped l = true
    · rw [if_pos hs, ih acc ha]
      have : numbers parse (l :: ls) = numbers parse ls := by
        unfold numbers; rw [List.filter_cons_of_neg (by simpa using (skipped_iff l).1 hs)]
      rw [this]
    · rw [if_neg hs]
      have hd : IsData l := by by_contra h; exact hs ((skipped_iff l).2 h)
      have : numbers parse (l :: ls) = parse (strip (strip l)) :: numbers parse ls := by
        unfold numbers; rw [List.filter_cons_of_pos (by simpa using hd)]; rfl
      rw [this]
      by_cases h2 : (acc ++ [parse (strip (strip l))]).length > 2
      · rw [if_pos h2, if_neg]
        simp only [List.length_append, List.length_cons, List.length_nil] at h2 ⊢
        omega
      · rw [if_neg h2, ih _ (by omega)]
        simp

end Verif.HistFile
