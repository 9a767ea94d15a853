/-!
Small pieces of Python semantics shared by the models: substring test, list indexing and slicing with
negative indices, dictionary-like updates of functions.
-/
namespace Verif.Py

/-- Python `sub in s` for strings. -/
def strIn (sub s : String) : Bool := decide (sub.toList <:+: s.toList)

/-- Python `l[i]`; `none` is `IndexError`. -/
def index {α : Type _} (l : List α) (i : Int) : Option α :=
  if 0 ≤ i then l[i.toNat]? else if 0 ≤ (l.length : Int) + i then l[((l.length : Int) + i).toNat]? else none

/-- Python `l[0:stop]`. -/
def sliceTo {α : Type _} (l : List α) (stop : Int) : List α :=
  if 0 ≤ stop then l.take stop.toNat else l.take ((l.length : Int) + stop).toNat

/-- `setattr` / dictionary update on a function. -/
def set {α : Type _} (f : String → α) (k : String) (v : α) : String → α :=
  fun k' => if k' = k then v else f k'

@[simp] theorem set_same {α : Type _} (f : String → α) (k v) : set f k v k = v := by simp [set]
theorem set_other {α : Type _} (f : String → α) (k v k') (h : k' ≠ k) : set f k v k' = f k' := by
  simp [set, h]

theorem index_nonneg {α : Type _} (l : List α) (i : Nat) : index l (i : Int) = l[i]? := by
  simp [index]

theorem index_neg {α : Type _} (l : List α) (k : Nat) (hk : 0 < k) (hl : k ≤ l.length) :
    index l (-(k : Int)) = l[l.length - k]? := by
  unfold index
  rw [if_neg (by omega), if_pos (by omega)]
  congr 1; omega

theorem sliceTo_nonneg {α : Type _} (l : List α) (i : Nat) : sliceTo l (i : Int) = l.take i := by
  simp [sliceTo]

theorem sliceTo_neg {α : Type _} (l : List α) (k : Nat) (hk : 0 < k) (hl : k ≤ l.length) :
    sliceTo l (-(k : Int)) = l.take (l.length - k) := by
  unfold sliceTo
  rw [if_neg (by omega)]
  congr 1; omega

end Verif.Py
