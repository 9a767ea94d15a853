import Verif.Generator
import Mathlib.Tactic.Ring
import Mathlib.Tactic.Linarith
/-!
Property C65: reproducible access to the binaries of a population.
-/
namespace Verif.Generator

theorem drawMany_spec (u : ℕ → ℚ) (s : Scheme) (n : ℕ) (g : Gen) :
    (drawMany u s n g).2 = ⟨g.pos + n * (s.d + s.f), g.num + n⟩ ∧ (drawMany u s n g).1.length = n ∧
      ∀ i, i < n → (drawMany u s n g).1[i]? =
        some ⟨g.num + i, column u (g.pos + i * (s.d + s.f)) s.d 1 0, column u (g.pos + i * (s.d + s.f) + s.d) s.f 1 0⟩ := by
  induction n with
  | zero => simp [drawMany]
  | succ n ih =>
    obtain ⟨h1, h2, h3⟩ := ih
    refine ⟨?_, by simp [drawMany, h2], fun i hi => ?_⟩
    · simp only [drawMany, drawBinary, h1]
      congr 1
      ring
    · simp only [drawMany]
      by_cases h : i < n
      · rw [List.getElem?_append_left (by omega)]; exact h3 i h
      · have : i = n := by omega
        subst this
        rw [List.getElem?_append_right (by omega), h2]
        simp [drawBinary, h1]

/-- C65: drawing binaries one by one, the first ones do not depend on how many are drawn; they are numbered in order. -/
theorem C65_prefix (u : ℕ → ℚ) (s : Scheme) (g : Gen) (n m i : ℕ) (hn : i < n) (hm : i < m) :
    (drawMany u s n g).1[i]? = (drawMany u s m g).1[i]? ∧ ((drawMany u s n g).1[i]?).map Bin.index = some (g.num + i) := by
  rw [(drawMany_spec u s n g).2.2 i hn, (drawMany_spec u s m g).2.2 i hm]
  exact ⟨rfl, rfl⟩

/-- C65: binaries drawn together are numbered from the next free number, and the following draw goes on after them, so that no number occurs twice. -/
theorem C65_numbers (u : ℕ → ℚ) (s : Scheme) (g : Gen) (n m : ℕ) :
    ((drawSamples u s g n).1 ++ (drawSamples u s (drawSamples u s g n).2 m).1).map Bin.index = (List.range (n + m)).map (g.num + ·) := by
  simp only [drawSamples, List.map_append, List.map_map]
  rw [List.range_add, List.map_append, List.map_map]
  congr 1
  apply List.map_congr_left
  intro i _
  simp [Nat.add_assoc]

/-- C65: asking for one binary does not disturb the generator. -/
theorem C65_undisturbed (u : ℕ → ℚ) (s : Scheme) (g : Gen) (n : ℕ) : (byIter u s g n).2 = g := rfl

/-- C65 in part: if formation times need no random numbers (a burst), the `n`-th binary has masses and orbit of the `n`-th call. -/
theorem C65_nth_partial (u : ℕ → ℚ) (s : Scheme) (hf : s.f = 0) (g : Gen) (n : ℕ) (hn : 0 < n) :
    ((drawMany u s n ⟨0, 0⟩).1[n - 1]?).map Bin.sys = some (byIter u s g n).1.sys ∧
    ((drawMany u s n ⟨0, 0⟩).1[n - 1]?).map Bin.time = some (byIter u s g n).1.time := by
  rw [(drawMany_spec u s n ⟨0, 0⟩).2.2 (n - 1) (by omega)]
  simp only [byIter, drawBinary, hf, Option.map_some, if_pos (show n ≠ 0 by omega)]
  constructor
  · congr 2; ring
  · simp [column]

/-- C65 fails: the index is `n`, while the `n`-th call numbers its binary `n - 1`. -/
theorem C65_index_violated (u : ℕ → ℚ) (s : Scheme) (g : Gen) (n : ℕ) (hn : 0 < n) :
    (byIter u s g n).1.index = n ∧ ((drawMany u s n ⟨0, 0⟩).1[n - 1]?).map Bin.index = some (n - 1) ∧ n - 1 ≠ n := by
  rw [(drawMany_spec u s n ⟨0, 0⟩).2.2 (n - 1) (by omega)]
  exact ⟨rfl, by simp, by omega⟩

/-- C65 fails: numbers 0 and 1 give the same system under different indices. -/
theorem C65_zero_violated (u : ℕ → ℚ) (s : Scheme) (g : Gen) :
    (byIter u s g 0).1.sys = (byIter u s g 1).1.sys ∧ (byIter u s g 0).1.time = (byIter u s g 1).1.time := by
  constructor <;> simp [byIter, drawBinary]

/-- C65 fails when formation times are random: from the second binary on the stream is read at another position than in the `n`-th call, so a stream
without repetitions gives another system. -/
theorem C65_nth_violated (u : ℕ → ℚ) (hu : Function.Injective u) (s : Scheme) (hd : 0 < s.d) (hf : 0 < s.f) (g : Gen) (n : ℕ) (hn : 2 ≤ n) :
    ((drawMany u s n ⟨0, 0⟩).1[n - 1]?).map Bin.sys ≠ some (byIter u s g n).1.sys := by
  rw [(drawMany_spec u s n ⟨0, 0⟩).2.2 (n - 1) (by omega)]
  simp only [byIter, drawBinary, Option.map_some, if_pos (show n ≠ 0 by omega), ne_eq, Option.some.injEq]
  intro h
  have := congrArg (·[0]?) h
  simp only [column, List.getElem?_map, List.getElem?_range hd, Option.map_some, Option.some.injEq] at this
  have := hu this
  have hpos : 0 < (n - 1) * s.f := Nat.mul_pos (by omega) hf
  have e : (n - 1) * (s.d + s.f) = s.d * (n - 1) + (n - 1) * s.f := by ring
  omega

/-- C65: drawn all at once the binaries of a population depend on its size: for two arrays per binary, the first binary of a population of two
and of one differ when the stream has no repetitions. -/
theorem C65_vectorised_violated (u : ℕ → ℚ) (hu : Function.Injective u) (s : Scheme) (hd : 2 ≤ s.d) (g : Gen) (k k' : ℕ) (hk : 0 < k) (hk' : 0 < k') (hne : k ≠ k') :
    ((drawSamples u s g k).1[0]?).map Bin.sys ≠ ((drawSamples u s g k').1[0]?).map Bin.sys := by
  simp only [drawSamples, List.getElem?_map, List.getElem?_range hk, List.getElem?_range hk', Option.map_some, ne_eq, Option.some.injEq]
  intro h
  have := congrArg (·[1]?) h
  simp only [column, List.getElem?_map, List.getElem?_range (show 1 < s.d by omega), Option.map_some, Option.some.injEq] at this
  have := hu this
  omega

/-! ### Concrete cases -/

def u0 (n : ℕ) : ℚ := n
example : (drawMany u0 ⟨2, 1⟩ 2 ⟨0, 0⟩).1 = [⟨0, [0, 1], [2]⟩, ⟨1, [3, 4], [5]⟩] := by decide +kernel
example : (byIter u0 ⟨2, 1⟩ ⟨6, 2⟩ 2).1 = ⟨2, [2, 3], [4]⟩ := by decide +kernel
example : (drawSamples u0 ⟨2, 1⟩ ⟨0, 0⟩ 2).1 = [⟨0, [0, 2], [4]⟩, ⟨1, [1, 3], [5]⟩] := by decide +kernel
example : Function.Injective u0 := fun a b h => by simpa [u0] using h

theorem mem_column (u : ℕ → ℚ) (pos a k i : ℕ) (hi : i < k) (x : ℚ) (h : x ∈ column u pos a k i) : ∃ p, x = u p ∧ pos ≤ p ∧ p < pos + a * k := by
  unfold column at h
  obtain ⟨j, hj, rfl⟩ := List.mem_map.1 h
  have hj := List.mem_range.1 hj
  refine ⟨_, rfl, by omega, ?_⟩
  have : (j + 1) * k ≤ a * k := Nat.mul_le_mul_right k hj
  have : (j + 1) * k = j * k + k := by ring
  omega

/-- C65: sets of binaries drawn one after the other share no random number, and their numbers go on. -/
theorem C65_fresh (u : ℕ → ℚ) (hu : Function.Injective u) (s : Scheme) (g : Gen) (k k' : ℕ) :
    (∀ b ∈ (drawSamples u s g k).1, ∀ b' ∈ (drawSamples u s (drawSamples u s g k).2 k').1, ∀ x ∈ b.sys ++ b.time, x ∉ b'.sys ++ b'.time) ∧
      (∀ b ∈ (drawSamples u s g k).1, ∀ b' ∈ (drawSamples u s (drawSamples u s g k).2 k').1, b.index < b'.index) := by
  unfold drawSamples
  dsimp only
  constructor
  · intro b hb b' hb' x hx hx'
    obtain ⟨i, hi, rfl⟩ := List.mem_map.1 hb
    obtain ⟨i', hi', rfl⟩ := List.mem_map.1 hb'
    have hi := List.mem_range.1 hi
    have hi' := List.mem_range.1 hi'
    dsimp only at hx hx'
    have h1 : ∃ p, x = u p ∧ p < g.pos + s.d * k + s.f * k := by
      rcases List.mem_append.1 hx with h | h
      · obtain ⟨p, e, -, h2⟩ := mem_column _ _ _ _ _ hi _ h
        exact ⟨p, e, by omega⟩
      · obtain ⟨p, e, -, h2⟩ := mem_column _ _ _ _ _ hi _ h
        exact ⟨p, e, by omega⟩
    have h2 : ∃ p, x = u p ∧ g.pos + s.d * k + s.f * k ≤ p := by
      rcases List.mem_append.1 hx' with h | h
      · obtain ⟨p, e, h2, -⟩ := mem_column _ _ _ _ _ hi' _ h
        exact ⟨p, e, by omega⟩
      · obtain ⟨p, e, h2, -⟩ := mem_column _ _ _ _ _ hi' _ h
        exact ⟨p, e, by omega⟩
    obtain ⟨p, e1, l1⟩ := h1
    obtain ⟨q, e2, l2⟩ := h2
    have := hu (e1.symm.trans e2)
    omega
  · intro b hb b' hb'
    obtain ⟨i, hi, rfl⟩ := List.mem_map.1 hb
    obtain ⟨i', hi', rfl⟩ := List.mem_map.1 hb'
    have hi := List.mem_range.1 hi
    dsimp only
    omega

end Verif.Generator
