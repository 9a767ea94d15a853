import Verif.TrackEnd
import Mathlib.Tactic.Linarith
import Mathlib.Tactic.NormNum
import Mathlib.Tactic.Ring
/-! C163: the integration of the detached step ends with the first track. -/
namespace Verif.TrackEnd

open Classical

theorem root_some (s : Star) (t t' r : ℝ) (h : root s t t' = some r) : r = s.tMax + s.offset ∧ t ≤ r ∧ r ≤ t' := by
  unfold root evMax at h
  by_cases hc : 0 ≤ s.tMax - t + s.offset ∧ s.tMax - t' + s.offset ≤ 0
  · rw [if_pos hc] at h
    injection h with h
    subst h
    exact ⟨rfl, by linarith [hc.1], by linarith [hc.2]⟩
  · rw [if_neg hc] at h; exact absurd h (by simp)

theorem root_none (s : Star) (t t' : ℝ) (h : root s t t' = none) (ht : t ≤ s.tMax + s.offset) : t' < s.tMax + s.offset := by
  unfold root evMax at h
  by_contra hc
  rw [if_pos ⟨by linarith, by linarith⟩] at h
  exact absurd h (by simp)

theorem last_ge (t : ℝ) (l : List (ℝ × Option ℝ)) (h : Steps t l) : t ≤ last t l := by
  induction l generalizing t with
  | nil => exact le_rfl
  | cons p rest ih => exact h.1.le.trans (ih p.1 h.2.2)

/-- What one step does: either no track ends and nothing overflows, or the end is the earliest of the times in the step. -/
theorem inStep_spec (sec pri : Star) (t t' : ℝ) (over : Option ℝ) (ho : ∀ r, over = some r → t ≤ r ∧ r ≤ t')
    (hs : t ≤ sec.tMax + sec.offset) (hp : t ≤ pri.tMax + pri.offset) :
    (inStep sec pri t t' over = none ∧ over = none ∧ t' < sec.tMax + sec.offset ∧ t' < pri.tMax + pri.offset) ∨
    ∃ r, inStep sec pri t t' over = some r ∧ t ≤ r.1 ∧ r.1 ≤ t' ∧ r.1 ≤ sec.tMax + sec.offset ∧ r.1 ≤ pri.tMax + pri.offset ∧
      (∀ o, over = some o → r.1 ≤ o) ∧ (r.2 = .overflow ↔ over = some r.1) ∧ (r.2 = .endSec → r.1 = sec.tMax + sec.offset) ∧
      (r.2 = .endPri → r.1 = pri.tMax + pri.offset ∧ r.1 < sec.tMax + sec.offset) ∧ r.2 ≠ .time := by
  unfold inStep
  cases hr1 : root sec t t' with
  | none =>
    have a1 := root_none sec t t' hr1 hs
    cases hr2 : root pri t t' with
    | none =>
      have a2 := root_none pri t t' hr2 hp
      cases over with
      | none => exact Or.inl ⟨rfl, rfl, a1, a2⟩
      | some o =>
        obtain ⟨o1, o2⟩ := ho o rfl
        exact Or.inr ⟨(o, .overflow), rfl, o1, o2, by linarith, by linarith, by simp, by simp, by simp, by simp, by simp⟩
    | some q =>
      obtain ⟨b1, b2, b3⟩ := root_some pri t t' q hr2
      cases over with
      | none => exact Or.inr ⟨(q, .endPri), rfl, b2, b3, by linarith, b1.le, by simp, by simp, by simp, fun _ => ⟨b1, by linarith⟩, by simp⟩
      | some o =>
        obtain ⟨o1, o2⟩ := ho o rfl
        by_cases hlt : q < o
        · exact Or.inr ⟨(q, .endPri), by simp [earlier, hlt], b2, b3, by linarith, b1.le, by simpa using hlt.le, by simp [hlt.ne'], by simp,
            fun _ => ⟨b1, by linarith⟩, by simp⟩
        · exact Or.inr ⟨(o, .overflow), by simp [earlier, hlt], o1, o2, by linarith, by linarith, by simp, by simp, by simp, by simp, by simp⟩
  | some p =>
    obtain ⟨c1, c2, c3⟩ := root_some sec t t' p hr1
    cases hr2 : root pri t t' with
    | none =>
      have a2 := root_none pri t t' hr2 hp
      cases over with
      | none => exact Or.inr ⟨(p, .endSec), rfl, c2, c3, c1.le, by linarith, by simp, by simp, fun _ => c1, by simp, by simp⟩
      | some o =>
        obtain ⟨o1, o2⟩ := ho o rfl
        by_cases hlt : p < o
        · exact Or.inr ⟨(p, .endSec), by simp [earlier, hlt], c2, c3, c1.le, by linarith, by simpa using hlt.le, by simp [hlt.ne'], fun _ => c1, by simp, by simp⟩
        · exact Or.inr ⟨(o, .overflow), by simp [earlier, hlt], o1, o2, by linarith, by linarith, by simp, by simp, by simp, by simp, by simp⟩
    | some q =>
      obtain ⟨b1, b2, b3⟩ := root_some pri t t' q hr2
      cases over with
      | none =>
        by_cases hlt : q < p
        · exact Or.inr ⟨(q, .endPri), by simp [earlier, hlt], b2, b3, by linarith, b1.le, by simp, by simp, by simp, fun _ => ⟨b1, by linarith⟩, by simp⟩
        · exact Or.inr ⟨(p, .endSec), by simp [earlier, hlt], c2, c3, c1.le, by linarith, by simp, by simp, fun _ => c1, by simp, by simp⟩
      | some o =>
        obtain ⟨o1, o2⟩ := ho o rfl
        by_cases h1 : p < o
        · by_cases h2 : q < p
          · exact Or.inr ⟨(q, .endPri), by simp [earlier, h1, h2], b2, b3, by linarith, b1.le, by simpa using (h2.trans h1).le,
              by simp [(h2.trans h1).ne'], by simp, fun _ => ⟨b1, by linarith⟩, by simp⟩
          · exact Or.inr ⟨(p, .endSec), by simp [earlier, h1, h2], c2, c3, c1.le, by linarith, by simpa using h1.le, by simp [h1.ne'], fun _ => c1, by simp, by simp⟩
        · by_cases h2 : q < o
          · exact Or.inr ⟨(q, .endPri), by simp [earlier, h1, h2], b2, b3, by linarith, b1.le, by simpa using h2.le,
              by simp [h2.ne'], by simp, fun _ => ⟨b1, by linarith⟩, by simp⟩
          · exact Or.inr ⟨(o, .overflow), by simp [earlier, h1, h2], o1, o2, by linarith, by linarith, by simp, by simp, by simp, by simp, by simp⟩

/-- C163. The integration never goes beyond the end of a track nor the time limit; the reason given is the right one. -/
theorem C163_end (sec pri : Star) (t : ℝ) (l : List (ℝ × Option ℝ)) (h : Steps t l) (hs : t ≤ sec.tMax + sec.offset) (hp : t ≤ pri.tMax + pri.offset) :
    t ≤ (stop sec pri t l).1 ∧ (stop sec pri t l).1 ≤ last t l ∧ (stop sec pri t l).1 - sec.offset ≤ sec.tMax ∧
      (stop sec pri t l).1 - pri.offset ≤ pri.tMax ∧ ((stop sec pri t l).2 = .time → (stop sec pri t l).1 = last t l) ∧
      ((stop sec pri t l).2 = .endSec → (stop sec pri t l).1 - sec.offset = sec.tMax) ∧
      ((stop sec pri t l).2 = .endPri → (stop sec pri t l).1 - pri.offset = pri.tMax) ∧
      ((stop sec pri t l).2 = .overflow → ∃ x ∈ l, x.2 = some (stop sec pri t l).1) := by
  induction l generalizing t with
  | nil => exact ⟨le_rfl, le_rfl, by simp only [stop]; linarith, by simp only [stop]; linarith, fun _ => rfl, by simp [stop], by simp [stop], by simp [stop]⟩
  | cons x rest ih =>
    obtain ⟨t', over⟩ := x
    obtain ⟨h1, h2, h3⟩ := h
    rcases inStep_spec sec pri t t' over h2 hs hp with ⟨e, -, a1, a2⟩ | ⟨r, e, r1, r2, r3, r4, -, r6, r7, r8, r9⟩
    · have hst : stop sec pri t ((t', over) :: rest) = stop sec pri t' rest := by rw [stop, e]
      rw [hst]
      obtain ⟨i1, i2, i3, i4, i5, i6, i7, i8⟩ := ih t' h3 a1.le a2.le
      exact ⟨by linarith, i2, i3, i4, i5, i6, i7, fun hw => by obtain ⟨y, hy, hy'⟩ := i8 hw; exact ⟨y, List.mem_cons_of_mem _ hy, hy'⟩⟩
    · have hst : stop sec pri t ((t', over) :: rest) = r := by rw [stop, e]
      rw [hst]
      exact ⟨r1, r2.trans (last_ge t' rest h3), by linarith, by linarith, fun hc => absurd hc r9, fun hc => by linarith [r7 hc],
        fun hc => by linarith [(r8 hc).1], fun hc => ⟨_, List.mem_cons_self, r6.1 hc⟩⟩

/-- C163. Without overflow the detached step ends exactly at the end of the shorter track, or at the time limit if that comes first. -/
theorem C163_end_without_overflow (sec pri : Star) (t : ℝ) (l : List (ℝ × Option ℝ)) (h : Steps t l) (hs : t ≤ sec.tMax + sec.offset)
    (hp : t ≤ pri.tMax + pri.offset) (hno : ∀ x ∈ l, x.2 = none) :
    (stop sec pri t l).1 = min (last t l) (min (sec.tMax + sec.offset) (pri.tMax + pri.offset)) ∧
      ((stop sec pri t l).2 = .time ↔ l = [] ∨ last t l < sec.tMax + sec.offset ∧ last t l < pri.tMax + pri.offset) := by
  induction l generalizing t with
  | nil => exact ⟨(min_eq_left (le_min hs hp)).symm, by simp [stop]⟩
  | cons x rest ih =>
    obtain ⟨t', over⟩ := x
    obtain ⟨h1, h2, h3⟩ := h
    have ho : over = none := hno _ List.mem_cons_self
    subst ho
    rcases inStep_spec sec pri t t' none h2 hs hp with ⟨e, -, a1, a2⟩ | ⟨r, e, r1, r2, r3, r4, -, r6, r7, r8, r9⟩
    · have hst : stop sec pri t ((t', none) :: rest) = stop sec pri t' rest := by rw [stop, e]
      rw [hst]
      obtain ⟨i1, i2⟩ := ih t' h3 a1.le a2.le (fun y hy => hno y (List.mem_cons_of_mem _ hy))
      refine ⟨i1, i2.trans ?_⟩
      simp only [reduceCtorEq, false_or]
      constructor
      · rintro (rfl | hh)
        · exact ⟨a1, a2⟩
        · exact hh
      · exact Or.inr
    · have hst : stop sec pri t ((t', none) :: rest) = r := by rw [stop, e]
      rw [hst]
      have hl := last_ge t' rest h3
      have hr : r.1 = min (sec.tMax + sec.offset) (pri.tMax + pri.offset) := by
        obtain ⟨v, w⟩ := r
        cases w with
        | overflow => exact absurd (r6.1 rfl) (by simp)
        | endSec => have := r7 rfl; rw [min_eq_left (by linarith)]; exact this
        | endPri => have := r8 rfl; rw [min_eq_right (by linarith)]; exact this.1
        | time => exact absurd rfl r9
      refine ⟨?_, fun hc => absurd hc r9, ?_⟩
      · show r.1 = min (last t' rest) _
        rw [← hr, min_eq_right (r2.trans hl)]
      · rintro (hc | ⟨l1, l2⟩)
        · exact absurd hc (by simp)
        · exfalso
          have l1' : last t' rest < sec.tMax + sec.offset := l1
          have l2' : last t' rest < pri.tMax + pri.offset := l2
          rcases min_choice (sec.tMax + sec.offset) (pri.tMax + pri.offset) with hm | hm <;> rw [hm] at hr <;> linarith

/-- C163. Both stars begin at the ages they were matched to, age together by the same time, and neither gets older than its track. -/
theorem C163_ages (time a b aMax bMax : ℝ) (l : List (ℝ × Option ℝ)) (h : Steps time l) (ha : a ≤ aMax) (hb : b ≤ bMax) :
    ∃ d ≥ 0, (stop (.begin time a aMax) (.begin time b bMax) time l).1 = time + d ∧
      (Star.begin time a aMax).age time = a ∧ (Star.begin time b bMax).age time = b ∧
      (Star.begin time a aMax).age (time + d) = a + d ∧ (Star.begin time b bMax).age (time + d) = b + d ∧ a + d ≤ aMax ∧ b + d ≤ bMax := by
  obtain ⟨h1, -, h3, h4, -⟩ := C163_end (.begin time a aMax) (.begin time b bMax) time l h (by simp only [Star.begin]; linarith) (by simp only [Star.begin]; linarith)
  refine ⟨(stop (.begin time a aMax) (.begin time b bMax) time l).1 - time, by linarith, by ring, ?_, ?_, ?_, ?_, ?_, ?_⟩
  · simp [Star.age, Star.begin]
  · simp [Star.age, Star.begin]
  · simp only [Star.age, Star.begin]; ring
  · simp only [Star.age, Star.begin]; ring
  · simp only [Star.begin] at h3 ⊢; linarith
  · simp only [Star.begin] at h4 ⊢; linarith

/-- A star of age 3 at time 10 with a track of 8, with one whose track ends at time 20. -/
example : (stop ⟨8, 7⟩ ⟨20, 0⟩ 10 [(12, none), (17, none), (30, none)]).1 = 15 := by
  rw [(C163_end_without_overflow ⟨8, 7⟩ ⟨20, 0⟩ 10 _ (by simp [Steps]; norm_num) (by norm_num) (by norm_num) (by simp)).1]
  norm_num [last]

end Verif.TrackEnd
