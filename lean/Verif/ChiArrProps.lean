import Verif.ChiArr

/-!
# C87: effective spins of arrays, and what happens to the arrays
-/

namespace Verif.ChiArr

open Detect

/-- Every entry of the result is the effective spin of its own pair, in which what is undefined counts as zero. -/
theorem C87_arrays (g : Args) (i : ℕ) (x y : ℝ) (p q r s : Option ℝ) (h1 : g.m1[i]? = some x) (h2 : g.m2[i]? = some y) (h3 : g.a1[i]? = some p)
    (h4 : g.a2[i]? = some q) (h5 : g.t1[i]? = some r) (h6 : g.t2[i]? = some s) : (chiEffs g).chi[i]? = some (some (chiEff x y p q r s)) := by
  simp only [chiEffs, block_replaced]
  exact values_get _ _ _ _ _ _ i x y p q r s h1 h2 h3 h4 h5 h6

/-- Exactly the arrays with undefined entries are named in warnings. -/
theorem C87_warned (g : Args) (w : Which) : w ∈ (chiEffs g).warned ↔ none ∈ g.get w := by
  simp only [chiEffs, List.mem_append, block_warned]
  cases w <;> simp [Args.get]

/-- The arrays of the caller keep all defined entries, and the masses; undefined ones become zero. -/
theorem C87_caller (g : Args) : (chiEffs g).args.m1 = g.m1 ∧ (chiEffs g).args.m2 = g.m2 ∧
    ∀ w, (chiEffs g).args.get w = (g.get w).map fun x => some (x.getD 0) := by
  refine ⟨rfl, rfl, ?_⟩
  intro w
  cases w <;> simp only [chiEffs, Args.get, block_replaced, replaced]

/-- Arrays without undefined entries are left alone. -/
theorem C87_caller_kept (g : Args) (w : Which) (h : none ∉ g.get w) : (chiEffs g).args.get w = g.get w := by
  rw [(C87_caller g).2.2 w]
  conv_rhs => rw [← List.map_id (g.get w)]
  apply List.map_congr_left
  intro x hx
  cases x with
  | none => exact absurd hx h
  | some x => rfl

/-- An array with an undefined entry is another one for the caller afterwards: what was undefined can no longer be told from zero. -/
theorem C87_caller_violated (g : Args) (w : Which) (h : none ∈ g.get w) : (chiEffs g).args.get w ≠ g.get w ∧ none ∉ (chiEffs g).args.get w := by
  have hn : none ∉ (chiEffs g).args.get w := by
    rw [(C87_caller g).2.2 w]
    intro hm
    obtain ⟨x, _, hx⟩ := List.mem_map.mp hm
    cases hx
  exact ⟨fun he => hn (he ▸ h), hn⟩

/-- The next call with the same arrays warns of nothing and gives the same. -/
theorem C87_again (g : Args) : (chiEffs (chiEffs g).args).warned = [] ∧ (chiEffs (chiEffs g).args).chi = (chiEffs g).chi := by
  constructor
  · rw [List.eq_nil_iff_forall_not_mem]
    intro w hw
    rw [C87_warned, (C87_caller g).2.2 w] at hw
    obtain ⟨x, _, hx⟩ := List.mem_map.mp hw
    cases hx
  · have hr : ∀ l, replaced (replaced l) = replaced l := by
      intro l
      unfold replaced
      rw [List.map_map]
      apply List.map_congr_left
      intro x _; rfl
    simp only [chiEffs, block_replaced, hr]

/-- Two pairs, the tilt of the second undefined. -/
example : let g : Args := ⟨[10, 20], [10, 5], [some 1, some 0], [some 0, some 1], [some 0, some 0], [some 0, none]⟩
    (chiEffs g).warned = [.t2] ∧ (chiEffs g).args.t2 = [some 0, some 0] ∧ (chiEffs g).chi[1]? = some (some (1 / 5)) := by
  refine ⟨by simp [chiEffs, block], by simp [chiEffs, block, replaced], ?_⟩
  rw [C87_arrays _ 1 20 5 (some 0) (some 1) (some 0) none rfl rfl rfl rfl rfl rfl]
  norm_num [chiEff]

end Verif.ChiArr
