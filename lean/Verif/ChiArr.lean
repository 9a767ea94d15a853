import Verif.Detect

/-!
# Effective spins of arrays

Model of `chi_eff` (`/repo/posydon/popsyn/transient_select_funcs.py` l.126-166) with the changes it makes to the arrays of the caller and
its warnings.  The value for one pair is `Detect.chiEff`.

Simplifications.  Arrays of real numbers, `none` for undefined; the six arrays are different objects of one length; where an array of a table is
given, the change is one of the table.
-/

namespace Verif.ChiArr

open Detect

/-- The arrays that may be changed. -/
inductive Which where
  | a1 | a2 | t1 | t2
deriving DecidableEq

structure Args where
  m1 : List ℝ
  m2 : List ℝ
  a1 : List (Option ℝ)
  a2 : List (Option ℝ)
  t1 : List (Option ℝ)
  t2 : List (Option ℝ)

/-- `x[pd.isna(x)] = 0.0`. -/
noncomputable def replaced (l : List (Option ℝ)) : List (Option ℝ) := l.map fun x => some (x.getD 0)

/-- One of the four blocks, l.150-165: the array afterwards, and the warning. -/
noncomputable def block (w : Which) (l : List (Option ℝ)) : List (Option ℝ) × List Which :=
  if l.any (·.isNone) then (replaced l, [w]) else (l, [])

/-- The last line, entry by entry; what is undefined would stay undefined. -/
noncomputable def values : List ℝ → List ℝ → List (Option ℝ) → List (Option ℝ) → List (Option ℝ) → List (Option ℝ) → List (Option ℝ)
  | m1 :: ms1, m2 :: ms2, a1 :: as1, a2 :: as2, t1 :: ts1, t2 :: ts2 =>
    (match a1, a2, t1, t2 with
      | some a1, some a2, some t1, some t2 => some ((m1 * a1 * Real.cos t1 + m2 * a2 * Real.cos t2) / (m1 + m2))
      | _, _, _, _ => none) :: values ms1 ms2 as1 as2 ts1 ts2
  | _, _, _, _, _, _ => []

structure Out where
  chi : List (Option ℝ)
  args : Args
  warned : List Which

/-- `chi_eff`. -/
noncomputable def chiEffs (g : Args) : Out :=
  let b1 := block .a1 g.a1
  let b2 := block .a2 g.a2
  let b3 := block .t1 g.t1
  let b4 := block .t2 g.t2
  ⟨values g.m1 g.m2 b1.1 b2.1 b3.1 b4.1, ⟨g.m1, g.m2, b1.1, b2.1, b3.1, b4.1⟩, b1.2 ++ b2.2 ++ b3.2 ++ b4.2⟩

/-! ### Specification -/

/-- The array of a name. -/
def Args.get (g : Args) : Which → List (Option ℝ)
  | .a1 => g.a1 | .a2 => g.a2 | .t1 => g.t1 | .t2 => g.t2

theorem block_replaced (w : Which) (l : List (Option ℝ)) : (block w l).1 = replaced l := by
  unfold block
  split
  · rfl
  · rename_i h
    unfold replaced
    symm
    conv_rhs => rw [← List.map_id l]
    apply List.map_congr_left
    intro x hx
    cases x with
    | none => exact absurd (List.any_eq_true.mpr ⟨none, hx, rfl⟩) h
    | some x => rfl

theorem block_warned (w v : Which) (l : List (Option ℝ)) : v ∈ (block w l).2 ↔ v = w ∧ none ∈ l := by
  unfold block
  have hn : (l.any (·.isNone) = true) ↔ none ∈ l := by
    rw [List.any_eq_true]
    constructor
    · rintro ⟨x, hx, h⟩
      cases x with
      | none => exact hx
      | some _ => cases h
    · intro h; exact ⟨none, h, rfl⟩
  split
  · rename_i h; simp [hn.mp h]
  · rename_i h
    simp only [List.not_mem_nil, false_iff, not_and]
    exact fun _ hm => h (hn.mpr hm)

theorem values_get : ∀ (m1 m2 : List ℝ) (a1 a2 t1 t2 : List (Option ℝ)) (i : ℕ) (x y : ℝ) (p q r s : Option ℝ), m1[i]? = some x → m2[i]? = some y →
    a1[i]? = some p → a2[i]? = some q → t1[i]? = some r → t2[i]? = some s →
    (values m1 m2 (replaced a1) (replaced a2) (replaced t1) (replaced t2))[i]? = some (some (chiEff x y p q r s))
  | m1 :: ms1, m2 :: ms2, a1 :: as1, a2 :: as2, t1 :: ts1, t2 :: ts2, i, x, y, p, q, r, s, h1, h2, h3, h4, h5, h6 => by
    cases i with
    | zero =>
        simp only [List.getElem?_cons_zero, Option.some.injEq] at h1 h2 h3 h4 h5 h6
        subst h1; subst h2; subst h3; subst h4; subst h5; subst h6
        simp [values, replaced, chiEff]
    | succ i =>
        simp only [List.getElem?_cons_succ] at h1 h2 h3 h4 h5 h6
        have := values_get ms1 ms2 as1 as2 ts1 ts2 i x y p q r s h1 h2 h3 h4 h5 h6
        simpa [values, replaced] using this
  | [], _, _, _, _, _, i, _, _, _, _, _, _, h, _, _, _, _, _ => by simp at h
  | _ :: _, [], _, _, _, _, i, _, _, _, _, _, _, _, h, _, _, _, _ => by simp at h
  | _ :: _, _ :: _, [], _, _, _, i, _, _, _, _, _, _, _, _, h, _, _, _ => by simp at h
  | _ :: _, _ :: _, _ :: _, [], _, _, i, _, _, _, _, _, _, _, _, _, h, _, _ => by simp at h
  | _ :: _, _ :: _, _ :: _, _ :: _, [], _, i, _, _, _, _, _, _, _, _, _, _, h, _ => by simp at h
  | _ :: _, _ :: _, _ :: _, _ :: _, _ :: _, [], i, _, _, _, _, _, _, _, _, _, _, _, h => by simp at h

end Verif.ChiArr
