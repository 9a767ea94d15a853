import Mathlib.Data.List.Basic
import Mathlib.Data.Nat.ModEq
import Mathlib.Tactic.Common
/-!
Model of `/repo/posydon/popsyn/sample_from_file.py`: `infer_key` (l.42-63), `get_samples_from_file` (l.65-182) and
`get_kick_samples_from_file` (l.184-312).

Simplifications: the table read from the file is a list of columns of equal length; the columns used (read or, if missing, drawn at
random for all rows, l.109-161) are given as one list of rows, since the code treats the columns alike.  Column names are compared
through an arbitrary function `fold` for Python's `casefold`.  Indices are not negative.
-/
namespace Verif.SampleFile

/-- `infer_key`, l.42-63; `none` is the empty string. -/
def inferKey (fold : String → String) (available allowed : List String) : Option String :=
  match allowed with
  | [] => none
  | k :: ks =>
    match available.find? (fun key => fold key == fold k) with
    | some key => some key
    | none => inferKey fold available ks

/-- `while len(set) < need: set = np.append(set, set)`, l.169-175 and 305-307; an empty set never grows: `none` is an endless loop. -/
def grow {α : Type} (need : ℕ) (l : List α) : Option (List α) :=
  if need ≤ l.length then some l
  else if l.length = 0 then none
  else grow need (l ++ l)
  termination_by need - l.length
  decreasing_by simp only [List.length_append]; omega

/-- Python slice `l[index:index+n]`. -/
def slice {α : Type} (l : List α) (index n : ℕ) : List α := (l.take (index + n)).drop index

/-- `get_samples_from_file`, l.163-182: zero binaries means the whole table. -/
def getSamples {α : Type} (rows : List α) (index n : ℕ) : Option (List α) :=
  if n > 0 then (grow (index + n) rows).map fun l => slice l index n else some rows

/-- `get_kick_samples_from_file`, l.298-312; `n = none` if the number of binaries is not given. -/
def getKicks {α : Type} (rows : List α) (index : ℕ) (n : Option ℕ) : Option (List α) :=
  match n with
  | some n => (grow (index + n) rows).map fun l => slice l index n
  | none => some rows

/-! ### Lemmas -/

/-- `l'` is `l` repeated a whole number of times. -/
def Cyclic {α : Type} (l l' : List α) : Prop :=
  l.length ∣ l'.length ∧ ∀ i < l'.length, l'[i]? = l[i % l.length]?

theorem cyclic_double {α : Type} (l l' : List α) (h : Cyclic l l') : Cyclic l (l' ++ l') := by
  obtain ⟨hd, h⟩ := h
  refine ⟨by rw [List.length_append]; exact Nat.dvd_add hd hd, ?_⟩
  intro i hi
  rw [List.length_append] at hi
  by_cases hlt : i < l'.length
  · rw [List.getElem?_append_left hlt]; exact h i hlt
  · rw [List.getElem?_append_right (by omega), h _ (by omega)]
    obtain ⟨c, hc⟩ := hd
    congr 1
    have : i = (i - l'.length) + l.length * c := by omega
    conv_rhs => rw [this]
    rw [Nat.add_mul_mod_self_left]

theorem grow_cyclic {α : Type} (l : List α) (need : ℕ) (l' : List α) (h : Cyclic l l') (hl : l' ≠ []) :
    ∃ r, grow need l' = some r ∧ Cyclic l r ∧ need ≤ r.length := by
  induction hk : need - l'.length using Nat.strong_induction_on generalizing l' with
  | _ k ih =>
    unfold grow
    by_cases h1 : need ≤ l'.length
    · exact ⟨l', by simp [h1], h, h1⟩
    · have h2 : 0 < l'.length := List.length_pos_of_ne_nil hl
      have h3 : l'.length ≠ 0 := by omega
      simp only [h1, h3, if_false]
      refine ih (need - (l' ++ l').length) ?_ (l' ++ l') (cyclic_double l l' h) (by simp [hl]) rfl
      rw [List.length_append]; omega

theorem grow_empty {α : Type} (need : ℕ) (h : 0 < need) : grow need ([] : List α) = none := by
  unfold grow
  simp; omega

end Verif.SampleFile
