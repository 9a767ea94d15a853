import Verif.MesaStop
/-!
Property theorems for stopping on a grid track: C70.
-/
namespace Verif.MesaStop

/-- C70.  The interpolated value lies on the straight line between the two neighbouring rows, between their values, and
is the value of the row itself if the time is the time of the row. -/
theorem C70_interpolation (t tb ta vb va : ℚ) (h1 : tb ≤ t) (h2 : t < ta) :
    OnLine t tb ta vb va (interp t tb ta vb va) ∧
    min vb va ≤ interp t tb ta vb va ∧ interp t tb ta vb va ≤ max vb va ∧
    (t = tb → interp t tb ta vb va = vb) := by
  have hd : 0 < ta - tb := by linarith
  have hne : ta - tb ≠ 0 := ne_of_gt hd
  have e : interp t tb ta vb va = vb + (t - tb) / (ta - tb) * (va - vb) := by
    unfold interp; field_simp; ring
  have r0 : 0 ≤ (t - tb) / (ta - tb) := div_nonneg (by linarith) hd.le
  have r1 : (t - tb) / (ta - tb) ≤ 1 := by rw [div_le_one hd]; linarith
  refine ⟨?_, ?_, ?_, ?_⟩
  · unfold OnLine interp; field_simp; ring
  · rw [e]
    generalize (t - tb) / (ta - tb) = r at *
    rcases le_total vb va with h | h
    · rw [min_eq_left h]; nlinarith
    · rw [min_eq_right h]; nlinarith
  · rw [e]
    generalize (t - tb) / (ta - tb) = r at *
    rcases le_total vb va with h | h
    · rw [max_eq_right h]; nlinarith
    · rw [max_eq_left h]; nlinarith
  · intro h; subst h; simp [interp]

/-- C70.  A run that goes beyond the time limit is stopped at the limit: the time is the limit, exactly the rows up to the
last recorded time not above the limit are kept, in all columns alike, and every number is interpolated between that row
and the next one (the current values count as the row after the recorded ones), or `None` if one of them is.
Missing for the full claim: see `C70_exact_hit_violated`, `C70_words_violated`. -/
theorem C70_stop_partial {W : Type} (t : ℚ) (s : Sys W) (n : Nat) (ha : Aligned s n) (hpast : t < s.time)
    (x : ℚ) (hx : x ∈ s.timeHist) (hxt : x ≤ t) :
    ∃ i s' tb ta, stopAtTime t s = .ok s' ∧ i < n ∧ s'.time = t ∧ Aligned s' (i + 1) ∧
      s'.timeHist = s.timeHist.take (i + 1) ∧
      (s.timeHist ++ [s.time])[i]? = some tb ∧ (s.timeHist ++ [s.time])[i + 1]? = some ta ∧ tb ≤ t ∧ t < ta ∧
      (∀ (j : Nat) (y : ℚ), i < j → s.timeHist[j]? = some y → t < y) ∧
      s'.nums.length = s.nums.length ∧
      ∀ (k : Nat) (c : Col), s.nums[k]? = some c → ∃ c' vb va, s'.nums[k]? = some c' ∧
        c'.hist = c.hist.take (i + 1) ∧
        (c.hist ++ [c.cur])[i]? = some vb ∧ (c.hist ++ [c.cur])[i + 1]? = some va ∧
        (match vb, va with
          | some b, some a => ∃ y, c'.cur = some y ∧ OnLine t tb ta b a y ∧ min b a ≤ y ∧ y ≤ max b a
          | _, _ => c'.cur = none) := by
  obtain ⟨h1, h2, h3⟩ := ha
  obtain ⟨i, hi⟩ := lastLe_exists t (s.timeHist ++ [s.time]) x (by simp [hx]) hxt
  obtain ⟨⟨tb, htb, hle⟩, hgt⟩ := lastLe_spec _ _ _ hi
  -- the position is not the current time
  have hin : i < n := by
    by_contra hcon
    have hlen : (s.timeHist ++ [s.time]).length = n + 1 := by simp [h1]
    have hi' : i < n + 1 := by
      rw [← hlen]; exact (List.getElem?_eq_some_iff.1 htb).1
    have : i = n := by omega
    subst this
    rw [List.getElem?_append_right (by omega), h1] at htb
    simp at htb
    subst htb
    exact absurd hle (not_le.2 hpast)
  have hlt : i + 1 < (s.timeHist ++ [s.time]).length := by simp [h1]; omega
  have hta : (s.timeHist ++ [s.time])[i + 1]? = some ((s.timeHist ++ [s.time])[i + 1]) :=
    List.getElem?_eq_getElem hlt
  have hta' := hgt (i + 1) _ (by omega) hta
  generalize (s.timeHist ++ [s.time])[i + 1] = ta at hta hta'
  have htake : ∀ {α : Type} (l : List α) (a : α), l.length = n → (l ++ [a]).take (i + 1) = l.take (i + 1) := by
    intro α l a hl
    rw [List.take_append_of_le_length (by omega)]
  -- numeric columns
  have hcol : ∀ c ∈ s.nums, ∃ vb va, (c.hist ++ [c.cur])[i]? = some vb ∧ (c.hist ++ [c.cur])[i + 1]? = some va := by
    intro c hc
    have hl := h2 c hc
    have l1 : i < (c.hist ++ [c.cur]).length := by simp [hl]; omega
    have l2 : i + 1 < (c.hist ++ [c.cur]).length := by simp [hl]; omega
    exact ⟨_, _, List.getElem?_eq_getElem l1, List.getElem?_eq_getElem l2⟩
  obtain ⟨ns, hns, hnl, hni⟩ := mapE_ok (interpCol t (s.timeHist ++ [s.time]) i) s.nums (by
    intro c hc
    obtain ⟨vb, va, e1, e2⟩ := hcol c hc
    simp only [interpCol, htb, hta, e1, e2]
    cases vb <;> cases va <;> exact ⟨_, rfl⟩)
  obtain ⟨ws, hws, hwl, hwi⟩ := mapE_ok (wordCol i) s.words (by
    intro c hc
    have hl := h3 c hc
    have hne : c.hist ≠ [] := by intro h; rw [h] at hl; simp at hl; omega
    simp only [wordCol, List.getLast?_eq_getLast_of_ne_nil hne]
    exact ⟨_, rfl⟩)
  refine ⟨i, ⟨t, (s.timeHist ++ [s.time]).take (i + 1), ns, ws⟩, tb, ta, ?_, hin, rfl, ⟨?_, ?_, ?_⟩,
    htake _ _ h1, htb, hta, hle, hta', ?_, hnl, ?_⟩
  · simp only [stopAtTime, hi, hns, hws]
  · simp [h1]; omega
  · intro c' hc'
    obtain ⟨k, hk, rfl⟩ := List.getElem_of_mem hc'
    have hk' : k < s.nums.length := by simpa [hnl] using hk
    obtain ⟨b, hb, hb'⟩ := hni k _ (List.getElem?_eq_getElem hk')
    simp only [List.getElem?_eq_getElem hk, Option.some.injEq] at hb'
    rw [hb']
    have hl := h2 _ (List.getElem_mem hk')
    obtain ⟨vb, va, e1, e2⟩ := hcol _ (List.getElem_mem hk')
    simp only [interpCol, htb, hta, e1, e2] at hb
    have hlen : b.hist = (s.nums[k].hist ++ [s.nums[k].cur]).take (i + 1) := by
      cases vb <;> cases va <;> simp only [Except.ok.injEq] at hb <;> subst hb <;> rfl
    rw [hlen]
    simp [hl]; omega
  · intro c' hc'
    obtain ⟨k, hk, rfl⟩ := List.getElem_of_mem hc'
    have hk' : k < s.words.length := by simpa [hwl] using hk
    obtain ⟨b, hb, hb'⟩ := hwi k _ (List.getElem?_eq_getElem hk')
    simp only [List.getElem?_eq_getElem hk, Option.some.injEq] at hb'
    rw [hb']
    have hl := h3 _ (List.getElem_mem hk')
    have hne : s.words[k].hist ≠ [] := by intro h; rw [h] at hl; simp at hl; omega
    simp only [wordCol, List.getLast?_eq_getLast_of_ne_nil hne, Except.ok.injEq] at hb
    subst hb
    simp [hl]; omega
  · intro j y hj hy
    refine hgt j y hj ?_
    have : j < s.timeHist.length := (List.getElem?_eq_some_iff.1 hy).1
    rw [List.getElem?_append_left this]
    exact hy
  · intro k c hc
    obtain ⟨b, hb, hb'⟩ := hni k c hc
    obtain ⟨vb, va, e1, e2⟩ := hcol c (List.mem_of_getElem? hc)
    refine ⟨b, vb, va, hb', ?_, e1, e2, ?_⟩
    · simp only [interpCol, htb, hta, e1, e2] at hb
      have : b.hist = (c.hist ++ [c.cur]).take (i + 1) := by
        cases vb <;> cases va <;> simp only [Except.ok.injEq] at hb <;> subst hb <;> rfl
      rw [this]
      exact htake _ _ (h2 c (List.mem_of_getElem? hc))
    · simp only [interpCol, htb, hta, e1, e2] at hb
      cases vb with
      | none => simp only [Except.ok.injEq] at hb; subst hb; rfl
      | some vb =>
        cases va with
        | none => simp only [Except.ok.injEq] at hb; subst hb; rfl
        | some va =>
          simp only [Except.ok.injEq] at hb
          subst hb
          have := C70_interpolation t tb ta vb va hle hta'
          exact ⟨_, rfl, this.1, this.2.1, this.2.2.1⟩

/-- C70 is false in full: a run that ends exactly at the time limit is stopped with an index error (and such runs are
sent here, because the test before asks for "not before the limit"). -/
theorem C70_exact_hit_violated {W : Type} (s : Sys W) (n : Nat) (ha : Aligned s n) (hne : s.nums ≠ []) :
    stopAtTime s.time s = .error .index := by
  obtain ⟨h1, h2, _⟩ := ha
  have hi : lastLe s.time (s.timeHist ++ [s.time]) = some n := by rw [lastLe_last _ _ _ le_rfl, h1]
  have hnone : (s.timeHist ++ [s.time])[n + 1]? = none := by simp [h1]
  have : mapE (interpCol s.time (s.timeHist ++ [s.time]) n) s.nums = .error .index := by
    apply mapE_error _ _ _ hne
    intro c _
    simp only [interpCol, hnone]
    cases (s.timeHist ++ [s.time])[n]? <;> rfl
  simp only [stopAtTime, hi, this]

/-- C70 is false for the words: the state of a star (or of the binary) at the limit is the last recorded one of the whole
run, whatever the row the run is stopped at. -/
theorem C70_words_violated {W : Type} (i : Nat) (c c' : WCol W) (h : wordCol i c = .ok c') :
    some c'.cur = c.hist.getLast? := by
  simp only [wordCol] at h
  cases hl : c.hist.getLast? with
  | none => rw [hl] at h; simp at h
  | some w => rw [hl] at h; simp only [Except.ok.injEq] at h; subst h; rfl

/-- A witness: the star is on the main sequence in the two rows around the limit and has exhausted its carbon in the last
row of the run; stopped at 2, it is said to have exhausted its carbon. -/
theorem C70_words_witness :
    ∃ (s s' : Sys String), stopAtTime 2 s = .ok s' ∧ s'.time = 2 ∧ s'.timeHist = [0, 1] ∧
      s.words.map (·.hist) = [["H-rich_Core_H_burning", "H-rich_Core_H_burning", "H-rich_Core_H_burning",
        "H-rich_Core_C_depleted"]] ∧
      s'.words.map (·.cur) = ["H-rich_Core_C_depleted"] ∧ s'.nums.map (·.cur) = [some 15] :=
  ⟨⟨10, [0, 1, 3, 9], [⟨some 5, [some 20, some 18, some 12, some 6]⟩],
      [⟨"H-rich_Core_C_depleted", ["H-rich_Core_H_burning", "H-rich_Core_H_burning", "H-rich_Core_H_burning",
        "H-rich_Core_C_depleted"]⟩]⟩,
    ⟨2, [0, 1], [⟨some 15, [some 20, some 18]⟩],
      [⟨"H-rich_Core_C_depleted", ["H-rich_Core_H_burning", "H-rich_Core_H_burning"]⟩]⟩,
    by
      have e : lastLe 2 [0, 1, 3, 9, 10] = some 1 := by simp [lastLe]; norm_num
      have e2 : interp 2 1 3 18 12 = 15 := by norm_num [interp]
      simp [stopAtTime, e, mapE, interpCol, wordCol, e2], rfl, rfl, rfl, rfl, rfl⟩

/-- C70.  When the rows of the track are dropped afterwards, all histories keep the same number of rows, the numbers stay
interpolated and the words are classifications of the interpolated values: the defect of the words does not show. -/
theorem C70_flushed {W : Type} (m n : Nat) (cls : List Col → List W) (s : Sys W) (ha : Aligned s n) (hm : m ≤ n)
    (hc : (cls s.nums).length = s.words.length) :
    Aligned (flush m cls s) m ∧ (flush m cls s).time = s.time ∧
      (flush m cls s).nums.map (·.cur) = s.nums.map (·.cur) ∧
      (flush m cls s).words.map (·.cur) = cls s.nums := by
  obtain ⟨h1, h2, h3⟩ := ha
  refine ⟨⟨?_, ?_, ?_⟩, rfl, ?_, ?_⟩
  · simp [flush, h1, hm]
  · intro c hc'
    simp only [flush, List.mem_map] at hc'
    obtain ⟨d, hd, rfl⟩ := hc'
    simp [h2 d hd, hm]
  · intro c hc'
    simp only [flush] at hc'
    obtain ⟨k, hk, rfl⟩ := List.getElem_of_mem hc'
    have hk' : k < s.words.length := by
      simp only [List.length_zipWith] at hk; omega
    simp [h3 _ (List.getElem_mem hk'), hm]
  · simp [flush, Function.comp_def]
  · simp only [flush]
    apply List.ext_getElem
    · simp [hc]
    · intro k hk1 hk2
      simp

/-! ### Other conditions -/

/-- C70 is false for conditions on other properties, in general: if the final value is not above the limit, as it is for
every property that falls below its limit (such as the central hydrogen fraction), the step ends with an index error
whatever happened before. -/
theorem C70_falling_violated (v : ℚ) (h : List ℚ) (x : ℚ) (others : List Col) (hne : others ≠ [])
    (hal : ∀ c ∈ others, c.hist.length = h.length) (hx : x ≤ v) : stopAtValue v h x others = .error .index := by
  have hi : lastLe v (h ++ [x]) = some h.length := lastLe_last _ _ _ hx
  have he : mapE (rowCol h.length) others = .error .index := by
    apply mapE_error _ _ _ hne
    intro c hc
    simp only [rowCol]
    rw [List.getElem?_eq_none (by rw [hal c hc])]
  have : (h ++ [x])[h.length]? = some x := by simp
  simp only [stopAtValue, hi, he, this]

/-- C70.  For a property that ends above the limit, the binary is put back to the last row in which the property is not
above the limit, with exactly the rows before it as history, in all columns alike.  Missing for the full claim: see
`C70_falling_violated`; and an error if the property is above the limit from the start. -/
theorem C70_rising_partial (v : ℚ) (h : List ℚ) (x : ℚ) (others : List Col)
    (hal : ∀ c ∈ others, c.hist.length = h.length) (hx : v < x) (y : ℚ) (hy : y ∈ h) (hyv : y ≤ v) :
    ∃ i z os, stopAtValue v h x others = .ok (z, h.take i, os) ∧ h[i]? = some z ∧ z ≤ v ∧
      (∀ (j : Nat) (w : ℚ), i < j → h[j]? = some w → v < w) ∧ os.length = others.length ∧
      ∀ (k : Nat) (c : Col), others[k]? = some c →
        ∃ c', os[k]? = some c' ∧ c.hist[i]? = some c'.cur ∧ c'.hist = c.hist.take i := by
  obtain ⟨i, hi⟩ := lastLe_exists v (h ++ [x]) y (by simp [hy]) hyv
  obtain ⟨⟨z, hz, hzv⟩, hgt⟩ := lastLe_spec _ _ _ hi
  have hin : i < h.length := by
    by_contra hcon
    have hi' : i < (h ++ [x]).length := (List.getElem?_eq_some_iff.1 hz).1
    simp at hi'
    have : i = h.length := by omega
    subst this
    simp at hz
    subst hz
    exact absurd hzv (not_le.2 hx)
  have hz' : h[i]? = some z := by rwa [List.getElem?_append_left hin] at hz
  obtain ⟨os, hos, hol, hoi⟩ := mapE_ok (rowCol i) others (by
    intro c hc
    have : i < c.hist.length := by rw [hal c hc]; exact hin
    simp only [rowCol, List.getElem?_eq_getElem this]
    exact ⟨_, rfl⟩)
  refine ⟨i, z, os, ?_, hz', hzv, ?_, hol, ?_⟩
  · simp only [stopAtValue, hi, hz, hos]
    rw [List.take_append_of_le_length (le_of_lt hin)]
  · intro j w hj hw
    refine hgt j w hj ?_
    rw [List.getElem?_append_left (List.getElem?_eq_some_iff.1 hw).1]
    exact hw
  · intro k c hc
    obtain ⟨b, hb, hb'⟩ := hoi k c hc
    refine ⟨b, hb', ?_⟩
    have : i < c.hist.length := by rw [hal c (List.mem_of_getElem? hc)]; exact hin
    simp only [rowCol, List.getElem?_eq_getElem this, Except.ok.injEq] at hb
    subst hb
    exact ⟨List.getElem?_eq_getElem this, rfl⟩

end Verif.MesaStop
