import Verif.PopPlot
import Mathlib.Analysis.SpecialFunctions.Sqrt
import Mathlib.MeasureTheory.Integral.IntervalIntegral.Basic

/-!
# C141: histograms of populations

No event is lost in the histograms of delay times and properties, the area under the delay-time distribution is the number of events;
channels have different colours.
-/

namespace Verif.PopPlot

/-! ### Histograms -/

theorem bar_cons (a b : ℚ) (l : Bool) (x : ℚ × ℚ) (xs : List (ℚ × ℚ)) :
    bar a b l (x :: xs) = (if a ≤ x.1 ∧ (x.1 < b ∨ (l = true ∧ x.1 = b)) then x.2 else 0) + bar a b l xs := by
  unfold bar
  rw [List.filter_cons]
  by_cases h : a ≤ x.1 ∧ (x.1 < b ∨ (l = true ∧ x.1 = b))
  · rw [if_pos h, if_pos (by simpa using h)]
    simp
  · rw [if_neg h, if_neg (by simpa using h)]
    simp

theorem bars_nil (es : List ℚ) : (bars es []).sum = 0 := by
  induction es with
  | nil => rfl
  | cons a es ih =>
    cases es with
    | nil => rfl
    | cons b es => simp only [bars, List.sum_cons, ih]; simp [bar]

theorem bars_one : ∀ (es : List ℚ) (x : ℚ × ℚ), Increasing es → (∀ a ∈ es.head?, a ≤ x.1) → (∀ b ∈ es.getLast?, x.1 ≤ b) → 2 ≤ es.length →
    (bars es [x]).sum = x.2
  | [], _, _, _, _, h => by simp at h
  | [a], _, _, _, _, h => by simp at h
  | [a, b], x, _, h1, h2, _ => by
    have h1' : a ≤ x.1 := h1 a rfl
    have h2' : x.1 ≤ b := h2 b rfl
    simp only [bars, List.sum_cons, List.sum_nil, bar_cons, List.isEmpty_nil]
    rw [if_pos ⟨h1', by rcases lt_or_eq_of_le h2' with h | h <;> tauto⟩]
    simp [bar]
  | a :: b :: c :: es, x, hi, h1, h2, _ => by
    have h1' : a ≤ x.1 := h1 a rfl
    obtain ⟨hab, hi'⟩ := hi
    rw [bars, List.sum_cons, bar_cons]
    have e0 : bar a b (List.isEmpty (c :: es)) [] = 0 := by simp [bar]
    rw [e0]
    by_cases hx : x.1 < b
    · rw [if_pos ⟨h1', .inl hx⟩]
      have : (bars (b :: c :: es) [x]).sum = 0 := by
        clear h2
        have key : ∀ (es : List ℚ), Increasing es → (∀ a ∈ es.head?, x.1 < a) → (bars es [x]).sum = 0 := by
          intro es
          induction es with
          | nil => intro _ _; rfl
          | cons u es ih =>
            intro hi hu
            cases es with
            | nil => rfl
            | cons v es =>
              have hu' : x.1 < u := hu u rfl
              rw [bars, List.sum_cons, bar_cons, if_neg (by rintro ⟨h, _⟩; linarith), ih hi.2 (by
                intro a ha
                simp only [List.head?_cons, Option.mem_some_iff] at ha
                subst ha
                exact hu'.trans hi.1)]
              simp [bar]
        exact key _ hi' (by
          intro a ha
          simp only [List.head?_cons, Option.mem_some_iff] at ha
          subst ha
          exact hx)
      rw [this]; ring
    · rw [if_neg (by rintro ⟨_, h | h⟩ <;> [exact hx h; simp at h])]
      rw [bars_one (b :: c :: es) x hi' (by
        intro a ha
        simp only [List.head?_cons, Option.mem_some_iff] at ha
        subst ha
        exact not_lt.1 hx) (by simpa using h2) (by simp)]
      ring

theorem bars_cons : ∀ (es : List ℚ) (x : ℚ × ℚ) (xs : List (ℚ × ℚ)), (bars es (x :: xs)).sum = (bars es [x]).sum + (bars es xs).sum
  | [], _, _ => by simp [bars]
  | [a], _, _ => by simp [bars]
  | a :: b :: es, x, xs => by
    rw [bars, bars, bars, List.sum_cons, List.sum_cons, List.sum_cons, bars_cons (b :: es) x xs, bar_cons, bar_cons]
    have : bar a b es.isEmpty [] = 0 := by simp [bar]
    rw [this]; ring

/-- Nothing is lost if the edges surround the data. -/
theorem C141_sum (es : List ℚ) (xs : List (ℚ × ℚ)) (hi : Increasing es) (hl : 2 ≤ es.length)
    (h : ∀ x ∈ xs, (∀ a ∈ es.head?, a ≤ x.1) ∧ ∀ b ∈ es.getLast?, x.1 ≤ b) : (bars es xs).sum = total xs := by
  induction xs with
  | nil => exact bars_nil es
  | cons x xs ih =>
    rw [bars_cons, ih fun y hy => h y (List.mem_cons_of_mem _ hy),
      bars_one es x hi (h x List.mem_cons_self).1 (h x List.mem_cons_self).2 hl]
    simp [total]

theorem edges_succ (lo hi : ℚ) (n : ℕ) (hn : 0 < n) (h : lo < hi) : Increasing (edges lo hi n) := by
  have hd : 0 < (hi - lo) / n := div_pos (by linarith) (by exact_mod_cast hn)
  have key : ∀ (m s : ℕ), Increasing ((List.range' s m).map fun i : ℕ => lo + i * ((hi - lo) / n)) := by
    intro m
    induction m with
    | zero => intro s; trivial
    | succ m ih =>
      intro s
      cases m with
      | zero => trivial
      | succ m =>
        refine ⟨?_, ih (s + 1)⟩
        push_cast
        linarith
  unfold edges
  rw [List.range_eq_range']
  exact key _ _

theorem edges_ends (lo hi : ℚ) (n : ℕ) (hn : 0 < n) : (edges lo hi n).head? = some lo ∧ (edges lo hi n).getLast? = some hi ∧ (edges lo hi n).length = n + 1 := by
  refine ⟨?_, ?_, by simp [edges]⟩
  · unfold edges
    rw [List.head?_map, List.head?_range]
    simp
  · unfold edges
    rw [List.getLast?_map, List.getLast?_range]
    have : (n : ℚ) ≠ 0 := by exact_mod_cast hn.ne'
    simp
    field_simp
    ring

theorem foldl_min (l : List ℚ) (a : ℚ) : l.foldl min a ≤ a ∧ ∀ x ∈ l, l.foldl min a ≤ x := by
  induction l generalizing a with
  | nil => simp
  | cons b l ih =>
    obtain ⟨h1, h2⟩ := ih (min a b)
    rw [List.foldl_cons]
    refine ⟨h1.trans (min_le_left _ _), fun x hx => ?_⟩
    rcases List.mem_cons.1 hx with rfl | hx
    · exact h1.trans (min_le_right _ _)
    · exact h2 x hx

theorem foldl_max (l : List ℚ) (a : ℚ) : a ≤ l.foldl max a ∧ ∀ x ∈ l, x ≤ l.foldl max a := by
  induction l generalizing a with
  | nil => simp
  | cons b l ih =>
    obtain ⟨h1, h2⟩ := ih (max a b)
    rw [List.foldl_cons]
    refine ⟨(le_max_left _ _).trans h1, fun x hx => ?_⟩
    rcases List.mem_cons.1 hx with rfl | hx
    · exact (le_max_right _ _).trans h1
    · exact h2 x hx

theorem range_spec (xs : List (ℚ × ℚ)) : (rangeOf xs).1 < (rangeOf xs).2 ∧ ∀ x ∈ xs, (rangeOf xs).1 ≤ x.1 ∧ x.1 ≤ (rangeOf xs).2 := by
  cases xs with
  | nil => simp [rangeOf]
  | cons x l =>
    obtain ⟨a1, a2⟩ := foldl_min (l.map (·.1)) x.1
    obtain ⟨b1, b2⟩ := foldl_max (l.map (·.1)) x.1
    have hm : ∀ y ∈ x :: l, (l.map (·.1)).foldl min x.1 ≤ y.1 ∧ y.1 ≤ (l.map (·.1)).foldl max x.1 := by
      intro y hy
      rcases List.mem_cons.1 hy with rfl | hy
      · exact ⟨a1, b1⟩
      · exact ⟨a2 _ (List.mem_map_of_mem hy), b2 _ (List.mem_map_of_mem hy)⟩
    unfold rangeOf
    dsimp only
    split
    next e =>
      refine ⟨by dsimp only; rw [e]; linarith, fun y hy => ?_⟩
      have := hm y hy
      dsimp only
      exact ⟨by linarith [this.1], by linarith [this.2]⟩
    next e => exact ⟨lt_of_le_of_ne (a1.trans b1) e, hm⟩

/-- A histogram has the number of bars asked for and all the weight. -/
theorem C141_histogram (n : ℕ) (xs : List (ℚ × ℚ)) (hn : 0 < n) : ∃ h e, histogram n xs = .ok (h, e) ∧ e.length = n + 1 ∧ Increasing e ∧
    (∀ x ∈ xs, (∀ a ∈ e.head?, a ≤ x.1) ∧ ∀ b ∈ e.getLast?, x.1 ≤ b) ∧ h.sum = total xs := by
  obtain ⟨r1, r2⟩ := range_spec xs
  obtain ⟨e1, e2, e3⟩ := edges_ends (rangeOf xs).1 (rangeOf xs).2 n hn
  have hi := edges_succ _ _ n hn r1
  have hx : ∀ x ∈ xs, (∀ a ∈ (edges (rangeOf xs).1 (rangeOf xs).2 n).head?, a ≤ x.1) ∧ ∀ b ∈ (edges (rangeOf xs).1 (rangeOf xs).2 n).getLast?, x.1 ≤ b := by
    intro x hx
    rw [e1, e2]
    exact ⟨by simpa using (r2 x hx).1, by simpa using (r2 x hx).2⟩
  refine ⟨_, _, by rw [histogram, if_neg hn.ne'], e3, hi, hx, C141_sum _ _ hi (by omega) hx⟩

/-- No bins is an error. -/
theorem C141_no_bins (xs : List (ℚ × ℚ)) : histogram 0 xs = .error .bins := rfl

/-- Each bar is the weight of the data between its edges, the upper edge belongs to the next bar but for the last. -/
theorem C141_bar (a b : ℚ) (es : List ℚ) (xs : List (ℚ × ℚ)) :
    (bars (a :: b :: es) xs).head? = some (total (xs.filter fun x => decide (a ≤ x.1 ∧ (x.1 < b ∨ (es = [] ∧ x.1 = b))))) := by
  simp only [bars, List.head?_cons, Option.some.injEq, bar, total]
  congr 2
  apply List.filter_congr
  intro x _
  cases es <;> simp

theorem area_div : ∀ (e : List ℚ) (h : List ℚ), Increasing e → h.length + 1 = e.length → area (List.zipWith (· / ·) h (diff e)) e = h.sum
  | [], h, _, hl => by simp at hl
  | [a], [], _, _ => by simp [area, diff]
  | [a], h :: hs, _, hl => by simp at hl
  | a :: b :: es, [], _, hl => by simp at hl
  | a :: b :: es, h :: hs, hi, hl => by
    have ih := area_div (b :: es) hs hi.2 (by simpa using hl)
    unfold area at ih ⊢
    simp only [diff, List.zipWith_cons_cons, List.sum_cons]
    rw [ih]
    have : b - a ≠ 0 := by have := hi.1; linarith
    rw [div_mul_cancel₀ _ this]

theorem bars_length : ∀ (es : List ℚ) (xs : List (ℚ × ℚ)), (bars es xs).length = es.length - 1
  | [], _ => rfl
  | [a], _ => rfl
  | a :: b :: es, xs => by simp [bars, bars_length (b :: es) xs]

theorem hist_area (n : ℕ) (xs : List (ℚ × ℚ)) (hn : 0 < n) : ∃ h e, histogram n xs = .ok (h, e) ∧ area (List.zipWith (· / ·) h (diff e)) e = total xs := by
  obtain ⟨h, e, h1, h2, h3, _, h5⟩ := C141_histogram n xs hn
  refine ⟨h, e, h1, ?_⟩
  rw [area_div e h h3 ?_, h5]
  rw [histogram, if_neg hn.ne'] at h1
  cases h1
  rw [bars_length]
  omega

/-! ### Delay times -/

/-- The area under the distribution of the whole population is the number of events per solar mass. -/
theorem C141_delay (close : ℚ → ℚ → Bool) (solar : List ℚ) (rows : List Row) (n : ℕ) (hn : 0 < n) :
    ∃ h e, delay close true solar rows none n = .ok (h, e) ∧ area h e = (rows.map (·.weight)).sum := by
  obtain ⟨h, e, h1, h2⟩ := hist_area n (rows.map fun r => (r.time * 1000000, r.weight)) hn
  refine ⟨List.zipWith (· / ·) h (diff e), e, by simp only [delay, if_true, h1], ?_⟩
  rw [h2]
  simp [total, Function.comp_def]

/-- That of one metallicity is the number of events of its rows. -/
theorem C141_delay_metallicity (close : ℚ → ℚ → Bool) (solar : List ℚ) (rows : List Row) (z : ℚ) (n : ℕ) (hn : 0 < n) (hz : ∃ s ∈ solar, close z s = true) :
    ∃ h e, delay close true solar rows (some z) n = .ok (h, e) ∧ area h e = ((rows.filter fun r => decide (r.met = z)).map (·.weight)).sum := by
  obtain ⟨h, e, h1, h2⟩ := hist_area n ((rows.filter fun r => decide (r.met = z)).map fun r => (r.time * 1000000, r.weight)) hn
  have hz' : (solar.any fun x => close z x) = true := by simpa using hz
  refine ⟨List.zipWith (· / ·) h (diff e), e, by simp only [delay, if_true, hz', h1], ?_⟩
  rw [h2]
  simp [total, Function.comp_def]

/-- The metallicities together have all events, if each row has one of them and none is given twice. -/
theorem C141_metallicities (solar : List ℚ) (rows : List Row) (hs : solar.Nodup) (hr : ∀ r ∈ rows, r.met ∈ solar) :
    (solar.map fun z => ((rows.filter fun r => decide (r.met = z)).map (·.weight)).sum).sum = (rows.map (·.weight)).sum := by
  induction rows with
  | nil => simp
  | cons r rows ih =>
    rw [List.map_cons, List.sum_cons, ← ih fun q hq => hr q (List.mem_cons_of_mem _ hq)]
    have key : ∀ (solar : List ℚ), solar.Nodup → (solar.map fun z => (((r :: rows).filter fun r => decide (r.met = z)).map (·.weight)).sum).sum =
        (if r.met ∈ solar then r.weight else 0) + (solar.map fun z => ((rows.filter fun r => decide (r.met = z)).map (·.weight)).sum).sum := by
      intro solar
      induction solar with
      | nil => intro _; simp
      | cons z zs ih2 =>
        intro hd
        rw [List.map_cons, List.sum_cons, ih2 (List.nodup_cons.1 hd).2, List.map_cons, List.sum_cons, List.filter_cons]
        by_cases e : r.met = z
        · have : r.met ∉ zs := by rw [e]; exact (List.nodup_cons.1 hd).1
          simp [e, show z ∉ zs from e ▸ this]
          ring
        · simp only [e, decide_false, Bool.false_eq_true, if_false, List.mem_cons, false_or]
          ring
    rw [key solar hs, if_pos (hr r List.mem_cons_self)]

/-- A metallicity that is close to one of the population but not equal passes the check and shows nothing. -/
theorem C141_close_violated : ∃ (close : ℚ → ℚ → Bool) (solar : List ℚ) (rows : List Row) (z : ℚ), (∀ x, close x x = true) ∧ solar.any (close z ·) = true ∧
    rows ≠ [] ∧ (∀ r ∈ rows, close z r.met = true ∧ 0 < r.weight) ∧ ∃ h e, delay close true solar rows (some z) 2 = .ok (h, e) ∧ area h e = 0 := by
  refine ⟨fun x y => decide (x - y < 1/1000 ∧ y - x < 1/1000), [1/10], [⟨1/10, 5, 1⟩], 1/10 + 1/100000, fun x => by simp, by decide +kernel, by simp, ?_, ?_⟩
  · intro r hr
    obtain rfl := List.mem_singleton.1 hr
    decide +kernel
  · obtain ⟨h, e, h1, h2⟩ := C141_delay_metallicity (fun x y => decide (x - y < 1/1000 ∧ y - x < 1/1000)) [1/10] [⟨1/10, 5, 1⟩] (1/10 + 1/100000) 2
      (by norm_num) ⟨1/10, by simp, by decide +kernel⟩
    refine ⟨h, e, h1, ?_⟩
    rw [h2]
    decide +kernel

/-- A metallicity that is not close to any is refused, as is an unknown set of weights. -/
theorem C141_refused (close : ℚ → ℚ → Bool) (solar : List ℚ) (rows : List Row) (z : ℚ) (n : ℕ) (met : Option ℚ) :
    ((∀ s ∈ solar, close z s = false) → delay close true solar rows (some z) n = .error .value) ∧ delay close false solar rows met n = .error .value := by
  constructor
  · intro h
    have : (solar.any fun x => close z x) = false := by simpa using h
    simp only [delay, if_true, this, Bool.false_eq_true, if_false]
  · rfl

/-! ### Properties -/

theorem total_normalised (xs : List (ℚ × ℚ)) (h : total xs ≠ 0) : total (normalised true xs) = 1 := by
  unfold total normalised at *
  rw [if_pos rfl]
  have key : ∀ (l : List (ℚ × ℚ)) (s : ℚ), ((l.map fun x => (x.1, x.2 / s)).map (·.2)).sum = (l.map (·.2)).sum / s := by
    intro l s
    induction l with
    | nil => simp
    | cons x l ih => simp only [List.map_cons, List.sum_cons, ih]; ring
  rw [key]
  exact div_self h

/-- The rows shown: all, or those of the channel. -/
def shown (channel : Option ℕ) (rows : List PRow) : List PRow := rows.filter fun r => decide (∀ c, channel = some c → r.channel = c)

theorem shown_eq (channel : Option ℕ) (rows : List PRow) : ofChannel channel rows = shown channel rows := by
  unfold ofChannel
  cases channel with
  | none => simp [shown]
  | some c => simp [shown]

/-- The bars of both populations have all the weight of the rows shown. -/
theorem C141_properties (channel : Option ℕ) (n : ℕ) (rows : List PRow) (hn : 0 < n) (hc : channel = none ∨ shown channel rows ≠ []) :
    ∃ a ea b eb, hist true true (some true) channel false n rows = .ok (some (a, ea), some (b, eb)) ∧
      a.sum = ((shown channel rows).map (·.intrinsic)).sum ∧ b.sum = ((shown channel rows).map (·.observable)).sum ∧ ea = eb := by
  obtain ⟨a, ea, a1, _, _, _, a5⟩ := C141_histogram n ((shown channel rows).map fun r => (r.value, r.intrinsic)) hn
  obtain ⟨b, eb, b1, _, _, _, b5⟩ := C141_histogram n ((shown channel rows).map fun r => (r.value, r.observable)) hn
  refine ⟨a, ea, b, eb, ?_, ?_, ?_, ?_⟩
  · unfold hist
    have h1 : ¬((!true) = true) := by decide
    have h2 : ¬(some true = some false) := by decide
    have h3 : ¬(channel.isSome = true ∧ (shown channel rows).length = 0) := by
      rintro ⟨h, h'⟩
      rcases hc with rfl | hc
      · simp at h
      · exact hc (List.length_eq_zero_iff.1 h')
    rw [if_neg h1, if_neg h2]
    dsimp only
    rw [shown_eq, if_neg h3, if_neg (by simp)]
    simp only [normalised, Bool.false_eq_true, if_false, if_true, Option.isSome_some]
    rw [a1, b1]
    rfl
  · rw [a5]; simp [total, Function.comp_def]
  · rw [b5]; simp [total, Function.comp_def]
  · have hr : rangeOf ((shown channel rows).map fun r => (r.value, r.intrinsic)) = rangeOf ((shown channel rows).map fun r => (r.value, r.observable)) := by
      cases shown channel rows with
      | nil => rfl
      | cons r l => simp [rangeOf, Function.comp_def]
    rw [histogram, if_neg hn.ne'] at a1 b1
    cases a1
    cases b1
    rw [hr]

/-- Normalised bars sum to one. -/
theorem C141_normalised (n : ℕ) (xs : List (ℚ × ℚ)) (hn : 0 < n) (ht : total xs ≠ 0) : ∃ h e, histogram n (normalised true xs) = .ok (h, e) ∧ h.sum = 1 := by
  obtain ⟨h, e, h1, _, _, _, h5⟩ := C141_histogram n (normalised true xs) hn
  exact ⟨h, e, h1, by rw [h5, total_normalised xs ht]⟩

/-- The axis says density, but the area under the bars is not one. -/
theorem C141_density_violated : ∃ (n : ℕ) (xs : List (ℚ × ℚ)) (h e : List ℚ), 0 < n ∧ total xs ≠ 0 ∧ histogram n (normalised true xs) = .ok (h, e) ∧ area h e ≠ 1 :=
  ⟨2, [(0, 1), (8, 3)], [1/4, 3/4], [0, 4, 8], by decide, by decide +kernel, by
    rw [histogram, if_neg (by decide)]
    exact congrArg Except.ok (by decide +kernel), by decide +kernel⟩

/-- A property that does not exist, an observable population that does not, a channel without events and no population at all are errors. -/
theorem C141_errors (i : Bool) (o : Option Bool) (c : ℕ) (ch : Option ℕ) (norm : Bool) (n : ℕ) (rows : List PRow) :
    hist false i o ch norm n rows = .error .value ∧ hist true i (some false) ch norm n rows = .error .value ∧
    ((∀ r ∈ rows, r.channel ≠ c) → hist true i o (some c) norm n rows = .error .value) ∧ hist true false none none norm n rows = .error .value := by
  refine ⟨rfl, by cases i <;> rfl, fun h => ?_, rfl⟩
  have : (rows.filter fun r => decide (r.channel = c)) = [] := by
    rw [List.filter_eq_nil_iff]
    intro r hr
    simpa using h r hr
  unfold hist
  rw [if_neg (by decide)]
  split
  · rfl
  · have h2 : ofChannel (some c) rows = [] := this
    dsimp only
    rw [h2]
    simp

/-! ### Colours -/

theorem colour_nodup : colourList.Nodup ∧ colourList.length = 20 := by decide

/-- The curves of the channels have the colours of the list in order. -/
theorem curves_spec {C : Type} : ∀ (cs : List C) (i : ℕ) (l : List (C × ℕ)), curves i cs = .ok l →
    l.map (·.1) = cs ∧ l.map (·.2) = (colourList.drop i).take cs.length ∧ (cs ≠ [] → i + cs.length ≤ 20)
  | [], i, l, h => by cases h; simp
  | c :: cs, i, l, h => by
    unfold curves at h
    cases hk : colourList[i]? with
    | none => rw [hk] at h; cases h
    | some k =>
      rw [hk] at h; dsimp only at h
      cases hc : curves (i + 1) cs with
      | error e => rw [hc] at h; cases h
      | ok l' =>
        rw [hc] at h
        cases h
        obtain ⟨h1, h2, h3⟩ := curves_spec cs (i + 1) l' hc
        obtain ⟨hi, hk'⟩ := List.getElem?_eq_some_iff.1 hk
        refine ⟨by simp [h1], ?_, fun _ => ?_⟩
        · rw [List.map_cons, h2, List.drop_eq_getElem_cons hi, List.length_cons, List.take_succ_cons, hk']
        · rw [colour_nodup.2] at hi
          by_cases e : cs = []
          · subst e; simp; omega
          · have := h3 e
            simp; omega

theorem curves_ok {C : Type} : ∀ (cs : List C) (i : ℕ), i + cs.length ≤ 20 → ∃ l, curves i cs = .ok l
  | [], _, _ => ⟨_, rfl⟩
  | c :: cs, i, h => by
    simp only [List.length_cons] at h
    obtain ⟨l, hl⟩ := curves_ok cs (i + 1) (by omega)
    have hi : i < colourList.length := by rw [colour_nodup.2]; omega
    refine ⟨(c, colourList[i]) :: l, ?_⟩
    unfold curves
    rw [List.getElem?_eq_getElem hi, hl]

/-- Up to twenty channels are all drawn, in different colours. -/
theorem C141_colours {C : Type} (cs : List C) (h : cs.length ≤ 20) : ∃ l, efficiency cs = .ok l ∧ density cs = .ok l ∧ l.map (·.1) = cs ∧ (l.map (·.2)).Nodup := by
  obtain ⟨l, hl⟩ := curves_ok cs 0 (by omega)
  obtain ⟨h1, h2, _⟩ := curves_spec cs 0 l hl
  refine ⟨l, by rw [efficiency, if_neg (by omega), hl], hl, h1, ?_⟩
  rw [h2]
  exact (colour_nodup.1.sublist (List.drop_sublist _ _)).sublist (List.take_sublist _ _)

/-- More are refused by the plot of the efficiency. -/
theorem C141_many {C : Type} (cs : List C) (h : 20 < cs.length) : efficiency cs = .error .value := by rw [efficiency, if_pos h]

/-- The plot of the rate density fails while drawing. -/
theorem C141_many_violated {C : Type} (cs : List C) (h : 20 < cs.length) : ∀ l, density cs ≠ .ok l := by
  intro l hl
  have := (curves_spec cs 0 l hl).2.2 (by rintro rfl; simp at h)
  omega

/-! ### Volumes of shells -/

/-- The integrand of `get_shell_comoving_volume`, rate_calculation.py l.56-67; `D` is the comoving distance and `k` is `4 π c / H₀`. -/
noncomputable def shellF (k Om : ℝ) (D : ℝ → ℝ) (z : ℝ) : ℝ := 1 / (1 + z) * k * (D z / 1000) ^ 2 / Real.sqrt (Om * (1 + z) ^ 3 + (1 - Om))

/-- `get_shell_comoving_volume` for the supported sensitivity, l.28-72. -/
noncomputable def shell (k Om : ℝ) (D : ℝ → ℝ) (a b : ℝ) : ℝ := ∫ z in a..b, shellF k Om D z

theorem shell_integrable (k Om : ℝ) (D : ℝ → ℝ) (hD : Continuous D) (hO : 0 ≤ Om) (a b : ℝ) (ha : 0 ≤ a) (hb : 0 ≤ b) :
    IntervalIntegrable (shellF k Om D) MeasureTheory.volume a b := by
  apply ContinuousOn.intervalIntegrable
  have hz : ∀ z ∈ Set.uIcc a b, 0 ≤ z := fun z hz => (le_min ha hb).trans hz.1
  have hp : ∀ z, 0 ≤ z → 0 < Om * (1 + z) ^ 3 + (1 - Om) := by
    intro z hz
    have h1 : (1 : ℝ) ≤ (1 + z) ^ 3 := one_le_pow₀ (by linarith)
    nlinarith
  unfold shellF
  apply ContinuousOn.div
  · apply ContinuousOn.mul
    · apply ContinuousOn.mul
      · exact ContinuousOn.div continuousOn_const (by fun_prop) fun z h => by have := hz z h; linarith
      · exact continuousOn_const
    · exact ((hD.div_const _).pow 2).continuousOn
  · exact (Real.continuous_sqrt.comp (by fun_prop)).continuousOn
  · intro z h
    exact (Real.sqrt_pos.2 (hp z (hz z h))).ne'

/-- Neighbouring shells add up: the volume to a redshift does not depend on the bins. -/
theorem C141_shells (k Om : ℝ) (D : ℝ → ℝ) (hD : Continuous D) (hO : 0 ≤ Om) (a b c : ℝ) (ha : 0 ≤ a) (hb : 0 ≤ b) (hc : 0 ≤ c) :
    shell k Om D a b + shell k Om D b c = shell k Om D a c :=
  intervalIntegral.integral_add_adjacent_intervals (shell_integrable k Om D hD hO a b ha hb) (shell_integrable k Om D hD hO b c hb hc)

/-- No shell has a negative volume. -/
theorem C141_shell_nonneg (k Om : ℝ) (D : ℝ → ℝ) (hk : 0 ≤ k) (a b : ℝ) (ha : 0 ≤ a) (hab : a ≤ b) : 0 ≤ shell k Om D a b := by
  apply intervalIntegral.integral_nonneg hab
  intro z hz
  unfold shellF
  have : 0 ≤ 1 + z := by linarith [hz.1]
  positivity

/-! ### Examples -/

example : ∃ e, histogram 2 [(0, 1), (4, 2), (8, 3)] = .ok ([1, 5], e) := ⟨[0, 4, 8], by
  rw [histogram, if_neg (by decide)]
  exact congrArg Except.ok (by decide +kernel)⟩

example : colourList = [0, 2, 4, 6, 8, 10, 12, 14, 16, 18, 1, 3, 5, 7, 9, 11, 13, 15, 17, 19] := by decide

end Verif.PopPlot
