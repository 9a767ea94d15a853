import Verif.HistFile
import Verif.InvSamplerProps
/-! Property theorems of C173: histograms read from files. -/
namespace Verif.HistFile

open Verif.Jobs (Text strip)

theorem read_of (parse : Text → List ℝ) (lines : List Text) :
    readHistogram parse lines = match numbers parse lines with
      | [x, y] => if x.length = y.length + 1 then .ok (x, y) else .error .index
      | _ => .error .index := by
  unfold readHistogram
  rw [readLoop_eq parse lines [] (by simp)]
  simp only [List.nil_append]
  match numbers parse lines with
  | [] => simp
  | [x] => simp
  | [x, y] =>
    simp only [List.length_cons, List.length_nil, le_refl, if_true, lt_irrefl, if_false]
    by_cases h : x.length = y.length + 1
    · rw [if_pos h, if_neg (by push Not; omega)]
    · rw [if_neg h, if_pos (by omega)]
  | x :: y :: z :: l => simp

/-- C173: a file is accepted exactly if it has two lines with data, the first with one number more than the second; then edges and counts are those numbers. -/
theorem C173_read (parse : Text → List ℝ) (lines : List Text) (x y : List ℝ) :
    readHistogram parse lines = .ok (x, y) ↔ numbers parse lines = [x, y] ∧ x.length = y.length + 1 := by
  rw [read_of]
  constructor
  · intro h
    split at h
    · split at h
      · injection h with h
        injection h with h1 h2
        subst h1; subst h2
        exact ⟨by assumption, by assumption⟩
      · cases h
    · cases h
  · rintro ⟨h, hl⟩
    rw [h]
    simp [hl]

/-- C173: every other file is refused with an `IndexError`. -/
theorem C173_refused (parse : Text → List ℝ) (lines : List Text) (h : ¬ ∃ x y, numbers parse lines = [x, y] ∧ x.length = y.length + 1) :
    readHistogram parse lines = .error .index := by
  cases hr : readHistogram parse lines with
  | error e => cases e; rfl
  | ok p => exact absurd ⟨p.1, p.2, (C173_read parse lines p.1 p.2).1 hr⟩ h

/-- C173: blank lines and comments may stand anywhere and change nothing. -/
theorem C173_comments (parse : Text → List ℝ) (a b : List Text) (c : Text) (h : strip c = [] ∨ ∃ r, strip c = '#' :: r) :
    readHistogram parse (a ++ c :: b) = readHistogram parse (a ++ b) := by
  have hc : ¬ IsData c := by
    rintro ⟨h1, h2⟩
    rcases h with h | ⟨r, h⟩
    · exact h1 h
    · exact h2 (by rw [h]; rfl)
  have : numbers parse (a ++ c :: b) = numbers parse (a ++ b) := by
    unfold numbers
    rw [List.filter_append, List.filter_append, List.filter_cons_of_neg (by simpa using hc)]
  rw [read_of, read_of, this]

/-- C173: the numbers of a third line are never looked at: whatever they are, the file is refused. -/
theorem C173_third_line (parse : Text → List ℝ) (a b c d : List Text) (l₁ l₂ l₃ : Text) (h₁ : IsData l₁) (h₂ : IsData l₂) (h₃ : IsData l₃) :
    readHistogram parse (a ++ l₁ :: b ++ l₂ :: c ++ l₃ :: d) = .error .index := by
  apply C173_refused
  rintro ⟨x, y, h, -⟩
  have hl := congrArg List.length h
  unfold numbers at hl
  have p : ∀ l r, IsData l → (List.filter (fun l => decide (IsData l)) (l :: r)).length = (List.filter (fun l => decide (IsData l)) r).length + 1 := by
    intro l r h
    rw [List.filter_cons_of_pos (by simpa using h), List.length_cons]
  simp only [List.length_map, List.filter_append, List.length_append, p _ _ h₁, p _ _ h₂, p _ _ h₃, List.length_cons, List.length_nil] at hl
  omega

/-- C173: a histogram that was written in the documented form is read back, whatever way of writing numbers is used, as long as `parse` undoes it. -/
theorem C173_round_trip (parse : Text → List ℝ) (render : List ℝ → Text) (x y : List ℝ) (hp : ∀ l, parse (strip (strip (render l))) = l)
    (hx : IsData (render x)) (hy : IsData (render y)) (hl : x.length = y.length + 1) (comment : Text) (hc : ∃ r, strip comment = '#' :: r) :
    readHistogram parse [comment, render x, render y] = .ok (x, y) := by
  have := C173_comments parse [] [render x, render y] comment (Or.inr hc)
  rw [List.nil_append, List.nil_append] at this
  rw [this, C173_read]
  refine ⟨?_, hl⟩
  unfold numbers
  rw [List.filter_cons_of_pos (by simpa using hx), List.filter_cons_of_pos (by simpa using hy)]
  simp [hp]

/-- C173: what was read fits the sampler: with counts that are not negative and at least one bin, every bin can be chosen and the sample is inside it when the edges rise. -/
theorem C173_sampled (parse : Text → List ℝ) (lines : List Text) (x y : List ℝ) (h : readHistogram parse lines = .ok (x, y)) (hy : ∀ a ∈ y, 0 ≤ a)
    (hinc : ∀ i (h : i + 1 < x.length), x[i] ≤ x[i + 1]) (b : ℕ) (hb : b < y.length) (v : ℝ) (hv0 : 0 ≤ v) (hv1 : v ≤ 1) :
    ∃ s lo hi, InvSampler.histogramSampler x y b v = .ok s ∧ x[b]? = some lo ∧ x[b + 1]? = some hi ∧ lo ≤ s ∧ s ≤ hi := by
  have hl := ((C173_read parse lines x y).1 h).2
  obtain ⟨s, hs, h1, h2⟩ := InvSampler.C56_histogram x y b v hy hl hb hinc hv0 hv1
  exact ⟨s, _, _, hs, List.getElem?_eq_getElem (by omega), List.getElem?_eq_getElem (by omega), h1, h2⟩

/-- C173 violated: edges that fall are accepted by the reader and by the sampler; counts below zero are accepted by the reader and refused by the sampler. -/
theorem C173_unchecked_violated (parse : Text → List ℝ) (l₁ l₂ : Text) (h₁ : IsData l₁) (h₂ : IsData l₂) :
    (parse (strip (strip l₁)) = [2, 1] → parse (strip (strip l₂)) = [5] →
      readHistogram parse [l₁, l₂] = .ok ([2, 1], [5]) ∧ ∀ v, InvSampler.histogramSampler [2, 1] [5] 0 v = .ok (2 + (1 - 2) * v)) ∧
    (parse (strip (strip l₁)) = [1, 2] → parse (strip (strip l₂)) = [-5] →
      readHistogram parse [l₁, l₂] = .ok ([1, 2], [-5]) ∧ ∀ b v, InvSampler.histogramSampler [1, 2] [-5] b v = .error .assertion) := by
  have hn : numbers parse [l₁, l₂] = [parse (strip (strip l₁)), parse (strip (strip l₂))] := by
    unfold numbers
    rw [List.filter_cons_of_pos (by simpa using h₁), List.filter_cons_of_pos (by simpa using h₂)]
    rfl
  constructor
  · intro e1 e2
    refine ⟨(C173_read _ _ _ _).2 ⟨by rw [hn, e1, e2], rfl⟩, fun v => ?_⟩
    unfold InvSampler.histogramSampler
    rw [if_neg (by simp), if_neg (by simp)]
    rfl
  · intro e1 e2
    refine ⟨(C173_read _ _ _ _).2 ⟨by rw [hn, e1, e2], rfl⟩, fun b v => ?_⟩
    unfold InvSampler.histogramSampler
    rw [if_pos (by simp)]

/-- A line with two digits separated by a comma, for the case below. -/
noncomputable def parseDigits (t : Text) : List ℝ := (t.filter Char.isDigit).map (fun c => ((c.toNat - 48 : ℕ) : ℝ))

example : readHistogram parseDigits [(chars! "# ages\n"), (chars! "1, 2, 4\n"), (chars! "\n"), (chars! "  3, 5\n")] = .ok ([1, 2, 4], [3, 5]) := by
  rw [C173_read]
  constructor
  · have e : List.filter (fun l => decide (IsData l)) [(chars! "# ages\n"), (chars! "1, 2, 4\n"), (chars! "\n"), (chars! "  3, 5\n")] =
        [(chars! "1, 2, 4\n"), (chars! "  3, 5\n")] := by decide +kernel
    unfold numbers
    rw [e]
    have e1 : strip (strip (chars! "1, 2, 4\n")) = (chars! "1, 2, 4") := by decide +kernel
    have e2 : strip (strip (chars! "  3, 5\n")) = (chars! "3, 5") := by decide +kernel
    simp only [List.map_cons, List.map_nil, e1, e2, parseDigits]
    have f1 : (chars! "1, 2, 4").filter Char.isDigit = ['1', '2', '4'] := by decide +kernel
    have f2 : (chars! "3, 5").filter Char.isDigit = ['3', '5'] := by decide +kernel
    rw [f1, f2]
    norm_num [show '1'.toNat = 49 from rfl, show '2'.toNat = 50 from rfl, show '3'.toNat = 51 from rfl, show '4'.toNat = 52 from rfl,
      show '5'.toNat = 53 from rfl]
  · rfl

end Verif.HistFile
