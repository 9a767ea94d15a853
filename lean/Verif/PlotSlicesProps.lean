import Verif.PlotSlices
import Verif.GridJoinProps
import Mathlib.Tactic.Linarith
import Mathlib.Tactic.Positivity
import Mathlib.Tactic.FieldSimp
import Mathlib.Tactic.Ring

/-!
# Properties of the slices for plots
-/

namespace Verif.PlotSlices

open Verif.Frame (isIn split)

/-! ### Values -/

/-- The values of a range: as many as asked for, rising, from the first end to the second. -/
theorem C125_values {s : Scale} (hs : Good s) {a b : ℝ} (ha : 0 < a) (hab : a < b) {n : ℕ} (hn : 2 ≤ n) :
    (range s a b n).1.length = n ∧ (range s a b n).1.Pairwise (· < ·) ∧ (range s a b n).1[0]? = some a ∧
    (range s a b n).1[n - 1]? = some b ∧ ∀ x ∈ (range s a b n).1, a ≤ x ∧ x ≤ b := by
  have hg := hs.g_lt ha hab
  have hn1 : (0 : ℝ) < ((n - 1 : ℕ) : ℝ) := by exact_mod_cast (by omega : 0 < n - 1)
  have hstep : 0 < (s.g b - s.g a) / ((n - 1 : ℕ) : ℝ) := div_pos (by linarith) hn1
  have hget : ∀ i, i < n → (range s a b n).1[i]? = some (s.e (s.g a + i * ((s.g b - s.g a) / ((n - 1 : ℕ) : ℝ)))) := by
    intro i hi
    simp [range, linspace, hi]
  have hlast : s.g a + ((n - 1 : ℕ) : ℝ) * ((s.g b - s.g a) / ((n - 1 : ℕ) : ℝ)) = s.g b := by
    rw [mul_div_cancel₀ _ hn1.ne']; ring
  refine ⟨by simp [range, linspace], ?_, ?_, ?_, ?_⟩
  · simp only [range, linspace, List.map_map, List.pairwise_map]
    refine List.Pairwise.imp ?_ (List.pairwise_lt_range (n := n))
    intro i j hij
    refine hs.mono ?_
    have : (i : ℝ) < j := by exact_mod_cast hij
    have := mul_lt_mul_of_pos_right this hstep
    linarith
  · rw [hget 0 (by omega)]
    simp [hs.inv a ha]
  · rw [hget (n - 1) (by omega), hlast, hs.inv b (ha.trans hab)]
  · intro x hx
    simp only [range, linspace, List.map_map, List.mem_map, List.mem_range] at hx
    obtain ⟨i, hi, rfl⟩ := hx
    have h0 : (0 : ℝ) ≤ i * ((s.g b - s.g a) / ((n - 1 : ℕ) : ℝ)) := by positivity
    have h1 : (i : ℝ) ≤ ((n - 1 : ℕ) : ℝ) := by exact_mod_cast (by omega : i ≤ n - 1)
    have h2 := mul_le_mul_of_nonneg_right h1 hstep.le
    constructor
    · have := hs.mono.monotone (show s.g a ≤ s.g a + i * ((s.g b - s.g a) / ((n - 1 : ℕ) : ℝ)) by linarith)
      rwa [hs.inv a ha] at this
    · have := hs.mono.monotone (show s.g a + i * ((s.g b - s.g a) / ((n - 1 : ℕ) : ℝ)) ≤ s.g b by linarith)
      rwa [hs.inv b (ha.trans hab)] at this

/-- With a single value the whole range is one slice. -/
theorem C125_single (s : Scale) (hs : Good s) {a : ℝ} (ha : 0 < a) (b : ℝ) : range s a b 1 = ([a], [(0, none)]) := by
  simp [range, linspace, mids, slices, hs.inv a ha]

/-- The number of values for a step: neighbours are at least a step and less than two steps apart on the scale; a range shorter than a step
gives a single value. -/
theorem C125_number {s : Scale} (hs : Good s) {a b step : ℝ} (ha : 0 < a) (hab : a < b) (hst : 0 < step) :
    (s.g b - s.g a < step → nbin s a b step = 1) ∧
    (step ≤ s.g b - s.g a → 2 ≤ nbin s a b step ∧ step ≤ (s.g b - s.g a) / ((nbin s a b step - 1 : ℕ) : ℝ) ∧
      (s.g b - s.g a) / ((nbin s a b step - 1 : ℕ) : ℝ) < 2 * step) := by
  have hg := hs.g_lt ha hab
  have hL : 0 < s.g b - s.g a := by linarith
  have hq : 0 ≤ (s.g b - s.g a) / step := (div_pos hL hst).le
  constructor
  · intro h
    have : ⌊(s.g b - s.g a) / step⌋₊ = 0 := Nat.floor_eq_zero.mpr ((div_lt_one hst).mpr h)
    simp [nbin, this]
  · intro h
    have h1 : 1 ≤ ⌊(s.g b - s.g a) / step⌋₊ := Nat.le_floor (by rw [Nat.cast_one]; exact (one_le_div hst).mpr h)
    have h2 := Nat.floor_le hq
    have h3 := Nat.lt_floor_add_one ((s.g b - s.g a) / step)
    have hk : nbin s a b step - 1 = ⌊(s.g b - s.g a) / step⌋₊ := by simp [nbin]
    rw [hk]
    generalize ⌊(s.g b - s.g a) / step⌋₊ = k at *
    have hk1 : (1 : ℝ) ≤ k := by exact_mod_cast h1
    have hk0 : (0 : ℝ) < k := by linarith
    refine ⟨by omega, ?_, ?_⟩
    · rw [le_div_iff₀ hk0, mul_comm]
      exact (le_div_iff₀ hst).mp h2
    · rw [div_lt_iff₀ hk0]
      have := (div_lt_iff₀ hst).mp h3
      nlinarith

/-! ### Slices -/

/-- One slice for each value, and the value lies strictly inside its own slice. -/
theorem C125_centres {s : Scale} (hs : Good s) {vars : List ℝ} (hp : ∀ x ∈ vars, 0 < x) (hw : vars.Pairwise (· < ·)) (hne : vars ≠ []) :
    (slices (mids s vars)).length = vars.length ∧
    ∀ (k : ℕ) (x : ℝ), vars[k]? = some x → ∃ p : Slice, (slices (mids s vars))[k]? = some p ∧ p.1 < x ∧ ∀ h, p.2 = some h → x < h := by
  constructor
  · rw [slices_length, mids_length]
    have := List.length_pos_of_ne_nil hne
    omega
  · exact centre_inside hs vars 0 hp hw (fun x hx => hp x (List.mem_of_mem_head? hx))

/-- No run is left out: every value that is not negative is in a slice. -/
theorem C125_covered (m : List ℝ) (v : ℝ) (hv : 0 ≤ v) : ∃ p ∈ slices m, Within v p := covered m 0 v hv

/-- A run is in two different slices only if its value is exactly the edge between them, and then they are neighbours. -/
theorem C125_overlap_partial {s : Scale} (hs : Good s) {vars : List ℝ} (hp : ∀ x ∈ vars, 0 < x) (hw : vars.Pairwise (· < ·))
    {v : ℝ} {i j : ℕ} {p q : Slice} (hi : (slices (mids s vars))[i]? = some p) (hj : (slices (mids s vars))[j]? = some q) (hij : i < j)
    (hvp : Within v p) (hvq : Within v q) : j = i + 1 ∧ (mids s vars)[i]? = some v := by
  have h1 := slice_ends _ _ _ _ hi
  have h2 := slice_ends _ _ _ _ hj
  have hs' := (mids_sorted hs vars hp hw).1
  obtain ⟨j, rfl⟩ : ∃ k, j = k + 1 := ⟨j - 1, by omega⟩
  have hjl : (mids s vars)[j]? = some q.1 := by simpa using h2.1
  have hil : ∃ e, (mids s vars)[i]? = some e := by
    have : j < (mids s vars).length := (List.getElem?_eq_some_iff.mp hjl).1
    exact ⟨_, List.getElem?_eq_getElem (by omega)⟩
  obtain ⟨e, he⟩ := hil
  have hve : v ≤ e := hvp.2 e (h1.2.trans he)
  have hqv : q.1 ≤ v := hvq.1
  rcases Nat.lt_or_ge i j with hlt | hge
  · have := sorted_get hs' he hjl hlt
    linarith
  · obtain rfl : i = j := by omega
    rw [he] at hjl
    obtain rfl := Option.some.inj hjl
    exact ⟨rfl, by rw [he, le_antisymm hve hqv]⟩

/-- **Violated**: that each run is drawn in one slice only.  The two slices of an edge both contain it: with the values 0.2 and 0.4 a run with 0.3 is drawn twice. -/
theorem C125_disjoint_violated : ∃ (vars : List ℝ) (v : ℝ) (p q : Slice), (∀ x ∈ vars, 0 < x) ∧ vars.Pairwise (· < ·) ∧
    (slices (mids lin vars))[0]? = some p ∧ (slices (mids lin vars))[1]? = some q ∧ Within v p ∧ Within v q := by
  refine ⟨[1/5, 2/5], 3/10, (0, some (mid lin (1/5) (2/5))), (mid lin (1/5) (2/5), none), ?_, ?_, rfl, rfl, ?_, ?_⟩
  · intro x hx; simp at hx; rcases hx with rfl | rfl <;> norm_num
  · simp; norm_num
  · refine ⟨by norm_num, fun h hh => ?_⟩
    obtain rfl := Option.some.inj hh
    norm_num [mid, lin]
  · exact ⟨by norm_num [mid, lin], fun h hh => by cases hh⟩

/-- The slices for mass ratios: twenty values, a step of 0.05 apart, the last one 0.99 instead of 1, each in its own slice, and the last one in no other
slice. -/
theorem C125_ratio : ratioSlices.1.length = 20 ∧ ratioSlices.2.length = 20 ∧
    (∀ k : ℕ, k < 19 → ratioSlices.1[k]? = some ((k + 1 : ℝ) / 20)) ∧ ratioSlices.1[19]? = some (99/100) ∧
    (∀ (k : ℕ) (x : ℝ), ratioSlices.1[k]? = some x → ∃ p, ratioSlices.2[k]? = some p ∧ Within x p) ∧
    (∀ k p, ratioSlices.2[k]? = some p → Within (99/100) p → k = 19) := by
  have hv := C125_values lin_good (a := 1/20) (b := 1) (by norm_num) (by norm_num) (n := 20) (by norm_num)
  have hget : ∀ k : ℕ, k < 20 → (range lin (1/20) 1 20).1[k]? = some ((k + 1 : ℝ) / 20) := by
    intro k hk
    simp only [range, linspace, lin, List.map_map, List.getElem?_map, List.getElem?_range hk, Option.map_some, Function.comp]
    congr 1
    norm_num
    ring
  have hlen := hv.1
  have hne : (range lin (1/20) 1 20).1 ≠ [] := by
    intro h; rw [h] at hlen; simp at hlen
  have hpos : ∀ x ∈ (range lin (1/20) 1 20).1, 0 < x := fun x hx => by
    have := (hv.2.2.2.2 x hx).1
    linarith
  have hc := C125_centres lin_good hpos hv.2.1 hne
  have hlast : (range lin (1/20) 1 20).1.getLast? = some 1 := by
    rw [List.getLast?_eq_getElem?, hlen]
    exact hv.2.2.2.1
  have hr : ratioSlices = ((range lin (1/20) 1 20).1.dropLast ++ [99/100], slices (mids lin (range lin (1/20) 1 20).1)) := by
    unfold ratioSlices
    dsimp only
    rw [hlast]
    simp [range]
  rw [hr]
  dsimp only
  have hdl : ((range lin (1/20) 1 20).1.dropLast).length = 19 := by rw [List.length_dropLast, hlen]
  have h1 : ∀ k : ℕ, k < 19 → ((range lin (1/20) 1 20).1.dropLast ++ [99/100])[k]? = some ((k + 1 : ℝ) / 20) := by
    intro k hk
    rw [List.getElem?_append_left (by omega), List.getElem?_dropLast, if_pos (by omega), hget k (by omega)]
  have h2 : ((range lin (1/20) 1 20).1.dropLast ++ [99/100])[19]? = some (99/100) := by
    rw [List.getElem?_append_right (by omega), hdl]; rfl
  have hml : (mids lin (range lin (1/20) 1 20).1).length = 19 := by rw [mids_length, hlen]
  have hm18 : (mids lin (range lin (1/20) 1 20).1)[18]? = some (39/40) := by
    unfold mids
    rw [List.getElem?_zipWith, hget 18 (by omega), List.getElem?_tail, hget 19 (by omega)]
    simp only [mid, lin]
    norm_num
  have h99 : ∀ k p, (slices (mids lin (range lin (1/20) 1 20).1))[k]? = some p → Within (99/100) p → k = 19 := by
    intro k p hk hw
    have hkl : k < 20 := by
      have := (List.getElem?_eq_some_iff.mp hk).1
      rw [slices_length, hml] at this
      omega
    by_contra hne'
    have hk18 : k ≤ 18 := by omega
    have hend := (slice_ends _ _ _ _ hk).2
    obtain ⟨e, he⟩ : ∃ e, (mids lin (range lin (1/20) 1 20).1)[k]? = some e := ⟨_, List.getElem?_eq_getElem (by omega)⟩
    have hle : e ≤ 39/40 := by
      rcases Nat.lt_or_ge k 18 with h | h
      · exact (sorted_get (mids_sorted lin_good _ hpos hv.2.1).1 he hm18 h).le
      · obtain rfl : k = 18 := by omega
        rw [he] at hm18
        exact (Option.some.inj hm18).le
    have := hw.2 e (hend.trans he)
    linarith
  refine ⟨by rw [List.length_append, hdl]; rfl, by rw [slices_length, hml], h1, h2, ?_, h99⟩
  intro k x hx
  rcases Nat.lt_or_ge k 19 with hk | hk
  · rw [h1 k hk] at hx
    obtain rfl := Option.some.inj hx
    obtain ⟨p, hp, ha, hb⟩ := hc.2 k _ (hget k (by omega))
    exact ⟨p, hp, ha.le, fun h hh => (hb h hh).le⟩
  · have hk' : k = 19 := by
      have := (List.getElem?_eq_some_iff.mp hx).1
      rw [List.length_append, hdl, List.length_singleton] at this
      omega
    subst hk'
    rw [h2] at hx
    obtain rfl := Option.some.inj hx
    obtain ⟨p, hp, _, _⟩ := hc.2 19 1 hv.2.2.2.1
    refine ⟨p, hp, ?_, ?_⟩
    · have hl := (slice_ends _ _ _ _ hp).1
      have : (mids lin (range lin (1/20) 1 20).1)[18]? = some p.1 := by simpa using hl
      rw [hm18] at this
      rw [← Option.some.inj this]; norm_num
    · intro h hh
      have := (slice_ends _ _ _ _ hp).2
      rw [hh, List.getElem?_eq_none (by omega)] at this
      cases this

/-- The sample for compact objects is widened so that it contains all masses of the grid, and is never made smaller; the number of values is the one for the
step, or the preset one if the masses are within the preset range. -/
theorem C125_fit (sm : Sample) (mn mx : ℝ) :
    (fit sm mn mx).lo = min sm.lo mn ∧ (fit sm mn mx).hi = max sm.hi mx ∧ (fit sm mn mx).step = sm.step ∧
    (sm.lo ≤ mn → mx ≤ sm.hi → fit sm mn mx = sm) ∧
    (mn < sm.lo ∨ sm.hi < mx → (fit sm mn mx).n = nbin log10 (min sm.lo mn) (max sm.hi mx) sm.step) := by
  obtain ⟨lo, hi, n, st⟩ := sm
  unfold fit
  dsimp only
  by_cases h1 : mn < lo <;> by_cases h2 : hi < mx
  · simp [h1, h2, h1.le, h2.le, not_le.mpr h1]
  · simp [h1, h2, h1.le, not_lt.mp h2, not_le.mpr h1]
  · simp [h1, h2, h2.le, not_lt.mp h1, not_le.mpr h2]
  · simp [h1, h2, not_lt.mp h1, not_lt.mp h2]

/-! ### Attributes -/

/-- A quantity that is no preset, no error of interpolation and no quantity of a supernova model is plotted itself, with `LOG10_` on a logarithmic scale. -/
theorem C125_quantity (preset : Name → Option (Attr → Attr)) (models : List Name) (q : Name) (h0 : preset q = none)
    (h1 : isIn (chars! "INTERP_ERROR_") q = false) (h2 : isIn (chars! "_SN_MODEL") q = false) :
    (∀ x, q = (chars! "LOG10_") ++ x → attributes preset models q = ⟨[x], some x, true⟩) ∧
    ((∀ x, q ≠ (chars! "LOG10_") ++ x) → attributes preset models q = ⟨[q], some q, false⟩) := by
  constructor
  · rintro x rfl
    simp only [attributes, h0, h1, h2]
    simp
  · intro hx
    simp only [attributes, h0, h1, h2]
    have : q.take 6 ≠ (chars! "LOG10_") := by
      intro h
      exact hx (q.drop 6) (by rw [← h, List.take_append_drop])
    simp [this]

/-- **Violated**: that different quantities are plotted into different directories.  A quantity and its logarithm have the same directory, and the names of the files
depend only on the slice: the later one replaces the plots of the former. -/
theorem C125_own_directory_violated : ∃ (preset : Name → Option (Attr → Attr)) (models : List Name) (q q' : Name),
    attributes preset models q ≠ attributes preset models q' ∧ (attributes preset models q).dir = (attributes preset models q').dir := by
  refine ⟨fun _ => none, [], (chars! "S1_mass"), (chars! "LOG10_S1_mass"), by decide +kernel, by decide +kernel⟩

/-- The quantity of a supernova model: drawn with the preset of its star and quantity, in the directory of the model. -/
example : attributes (fun n => if n = (chars! "S1_SN_MODEL_DEFAULT_mass") then some (fun a => { a with log := true }) else none)
    [(chars! "SN_MODEL_v2_01"), (chars! "SN_MODEL_v2_02")] (chars! "S1_SN_MODEL_v2_02_mass") =
    ⟨[(chars! "S1_SN_MODEL_v2_02"), (chars! "mass")], some (chars! "S1_SN_MODEL_v2_02_mass"), true⟩ := by decide +kernel

/-! ### Populations -/

/-- The mass ratio is that of the lighter to the heavier star. -/
theorem C125_mass_ratio {m1 m2 : ℚ} (h1 : 0 < m1) (h2 : 0 < m2) : ratio m1 m2 = min m1 m2 / max m1 m2 ∧ 0 < ratio m1 m2 ∧ ratio m1 m2 ≤ 1 := by
  have key : ratio m1 m2 = min m1 m2 / max m1 m2 := by
    unfold ratio
    dsimp only
    by_cases h : 1 < m2 / m1
    · have h' : m1 < m2 := (one_lt_div h1).mp h
      rw [if_pos h, min_eq_left h'.le, max_eq_right h'.le, one_div_div]
    · have h' : m2 ≤ m1 := by
        by_contra hc
        exact h ((one_lt_div h1).mpr (not_le.mp hc))
      rw [if_neg h, min_eq_right h', max_eq_left h']
  refine ⟨key, ?_, ?_⟩
  · rw [key]
    exact div_pos (lt_min h1 h2) (lt_of_lt_of_le h1 (le_max_left _ _))
  · rw [key, div_le_one (lt_of_lt_of_le h1 (le_max_left _ _))]
    exact (min_le_left _ _).trans (le_max_left _ _)

/-- Which history rows a type of grid shows. -/
def Shown (gridType : Name) (r : Step) : Prop :=
  (gridType = (chars! "HMS-HMS") ∧ r.event = some (chars! "ZAMS")) ∨ (gridType = (chars! "CO-HMS_RLO") ∧ r.event = some (chars! "oRLO2"))

/-- The data over the grids of two stars and of a star beside a compact object: the rows of the binaries of the metallicity (and channel) at the
event of the grid, in the order of the history; with a compact object the star that is still evolving comes first; without a property. -/
theorem C125_population (pop : List Binary) (hist : List Step) (met : ℚ) (g : Name) (channel : Option Name)
    (hg : g = (chars! "HMS-HMS") ∨ g = (chars! "CO-HMS_RLO")) (d : Datum) :
    ∃ data, populationData pop hist met g channel false = .ok data ∧
    (d ∈ data ↔ ∃ r ∈ hist, Shown g r ∧ (∃ b ∈ pop, b.idx = r.idx ∧ b.met = met ∧ ∀ c, channel = some c → b.channel = c) ∧
      d = if g = (chars! "HMS-HMS") then ⟨r.idx, r.m1, r.m2, r.period, ratio r.m1 r.m2, none⟩
          else ⟨r.idx, r.m2, r.m1, r.period, ratio r.m2 r.m1, none⟩) := by
  refine ⟨_, rfl, ?_⟩
  have hsel : ∀ r : Step, ((chosen pop met channel).map (·.idx)).contains r.idx = true ↔
      ∃ b ∈ pop, b.idx = r.idx ∧ b.met = met ∧ ∀ c, channel = some c → b.channel = c := by
    intro r
    simp only [List.contains_iff_mem, List.mem_map, chosen, List.mem_filter, Bool.and_eq_true, decide_eq_true_eq]
    constructor
    · rintro ⟨b, ⟨hb, hc, hm⟩, hi⟩
      refine ⟨b, hb, hi, hm, ?_⟩
      rintro c rfl
      simpa using hc
    · rintro ⟨b, hb, hi, hm, hc⟩
      refine ⟨b, ⟨hb, ?_, hm⟩, hi⟩
      cases channel with
      | none => rfl
      | some c => simpa using hc c rfl
  rcases hg with rfl | rfl
  · have hne : ((chars! "HMS-HMS") : Name) ≠ (chars! "CO-HMS_RLO") := by decide
    simp only [atEvent, if_true, List.mem_map, List.mem_filter, hsel, decide_eq_true_eq, Shown, true_and, hne, false_and, or_false]
    constructor
    · rintro ⟨r, ⟨⟨hr, hs⟩, he⟩, rfl⟩
      exact ⟨r, hr, he, hs, rfl⟩
    · rintro ⟨r, hr, he, hs, rfl⟩
      exact ⟨r, ⟨⟨hr, hs⟩, he⟩, rfl⟩
  · have hne : ((chars! "CO-HMS_RLO") : Name) ≠ (chars! "HMS-HMS") := by decide
    simp only [atEvent, hne, if_false, if_true, List.mem_map, List.mem_filter, hsel, decide_eq_true_eq, Shown, true_and, false_and, false_or]
    constructor
    · rintro ⟨r', ⟨r, ⟨⟨hr, hs⟩, he⟩, rfl⟩, rfl⟩
      exact ⟨r, hr, he, hs, rfl⟩
    · rintro ⟨r, hr, he, hs, rfl⟩
      exact ⟨_, ⟨r, ⟨⟨hr, hs⟩, he⟩, rfl⟩, rfl⟩

/-- The events of a binary (`flow_chart.py` l.150-173). -/
def events : List (Option Name) :=
  [none, some (chars! "CC1"), some (chars! "CC2"), some (chars! "ZAMS"), some (chars! "oRLO1"), some (chars! "oRLO2"), some (chars! "oCE1"),
   some (chars! "oCE2"), some (chars! "oDoubleCE1"), some (chars! "oDoubleCE2"), some (chars! "CO_contact"), some (chars! "redirect_from_ZAMS"),
   some (chars! "redirect_from_CO_HMS_RLO"), some (chars! "redirect_from_CO_HeMS"), some (chars! "redirect_from_CO_HeMS_RLO"),
   some (chars! "MaxTime_exceeded"), some (chars! "maxtime"), some (chars! "oMerging1"), some (chars! "oMerging2"), some (chars! "Match1"),
   some (chars! "Match2"), some (chars! "Match12")]

/-- **Violated**: that a population can be shown over the grid of a compact object and a helium star.  The rows looked for have the name of a step, `step_CE`, as
their event, which no binary has: nothing is ever shown. -/
theorem C125_helium_grid_violated (pop : List Binary) (hist : List Step) (met : ℚ) (channel : Option Name) (h : ∀ r ∈ hist, r.event ∈ events) :
    populationData pop hist met (chars! "CO-HeMS") channel false = .ok [] := by
  have hne1 : ((chars! "CO-HeMS") : Name) ≠ (chars! "HMS-HMS") := by decide
  have hne2 : ((chars! "CO-HeMS") : Name) ≠ (chars! "CO-HMS_RLO") := by decide
  have hev : some (chars! "step_CE") ∉ events := by decide
  have : ∀ p : Step → Bool, (hist.filter p).filter (fun r => r.event = some (chars! "step_CE")) = [] := by
    intro p
    rw [List.filter_eq_nil_iff]
    intro r hr he
    have he : r.event = some (chars! "step_CE") := by simpa using he
    exact hev (he ▸ h r (List.mem_filter.mp hr).1)
  simp [populationData, atEvent, hne1, hne2, this]

/-- The values of a property are those of the binaries themselves, if the rows found are those of the binaries one by one. -/
theorem C125_property_partial {pop : List Binary} {hist : List Step} {met : ℚ} {g : Name} {channel : Option Name} {data : List Datum}
    (h0 : populationData pop hist met g channel false = .ok data) (h : data.map (·.idx) = (chosen pop met channel).map (·.idx)) :
    ∃ out, populationData pop hist met g channel true = .ok out ∧ out.map (·.idx) = data.map (·.idx) ∧
    ∀ d ∈ out, ∃ b ∈ pop, b.idx = d.idx ∧ b.met = met ∧ d.prop = some b.prop := by
  have hd := Except.ok.inj (show Except.ok _ = Except.ok data from h0)
  have hlen : data.length = (chosen pop met channel).length := by simpa using congrArg List.length h
  refine ⟨List.zipWith (fun d b => { d with prop := some b.prop }) data (chosen pop met channel), ?_, ?_, ?_⟩
  · unfold populationData
    dsimp only
    rw [hd, if_pos rfl, if_pos hlen]
  · have : ∀ (l : List Datum) (s : List Binary), l.length = s.length →
        (List.zipWith (fun (d : Datum) (b : Binary) => { d with prop := some b.prop }) l s).map (·.idx) = l.map (·.idx) := by
      intro l
      induction l with
      | nil => intro s _; simp
      | cons a l ih =>
        intro s hs
        cases s with
        | nil => simp at hs
        | cons b s => simp [ih s (by simpa using hs)]
    exact this _ _ hlen
  · have : ∀ (l : List Datum) (s : List Binary), l.map (·.idx) = s.map (·.idx) →
        ∀ d ∈ List.zipWith (fun (d : Datum) (b : Binary) => { d with prop := some b.prop }) l s, ∃ b ∈ s, b.idx = d.idx ∧ d.prop = some b.prop := by
      intro l
      induction l with
      | nil => intro s _ d hd; simp at hd
      | cons a l ih =>
        intro s hs d hd
        cases s with
        | nil => simp at hs
        | cons b s =>
          simp only [List.map_cons, List.cons.injEq] at hs
          rw [List.zipWith_cons_cons] at hd
          rcases List.mem_cons.mp hd with rfl | hd
          · exact ⟨b, by simp, hs.1.symm, rfl⟩
          · obtain ⟨b', hb', h'⟩ := ih s hs.2 d hd
            exact ⟨b', List.mem_cons_of_mem _ hb', h'⟩
    intro d hd'
    obtain ⟨b, hb, hi, hp⟩ := this _ _ h d hd'
    obtain ⟨hb1, hb2⟩ := List.mem_filter.mp hb
    simp only [Bool.and_eq_true, decide_eq_true_eq] at hb2
    exact ⟨b, hb1, hi, hb2.2, hp⟩

/-- A number of rows different from the number of binaries raises `ValueError`. -/
theorem C125_property_refused {pop : List Binary} {hist : List Step} {met : ℚ} {g : Name} {channel : Option Name} {data : List Datum}
    (h0 : populationData pop hist met g channel false = .ok data) (h : data.length ≠ (chosen pop met channel).length) :
    populationData pop hist met g channel true = .error .value := by
  have hd := Except.ok.inj (show Except.ok _ = Except.ok data from h0)
  unfold populationData
  dsimp only
  rw [hd, if_pos rfl, if_neg h]

/-- **Violated**: that a point is coloured with the property of its own binary.  A binary with two mass transfers beside one with none takes the value of the other
one for its second point. -/
theorem C125_property_violated : ∃ (pop : List Binary) (hist : List Step) (out : List Datum),
    populationData pop hist 1 (chars! "CO-HMS_RLO") none true = .ok out ∧
    ∃ d ∈ out, ∃ b ∈ pop, b.idx = d.idx ∧ d.prop ≠ some b.prop ∧ (pop.map (·.idx)).Nodup := by
  refine ⟨[⟨0, [], 1, 5⟩, ⟨1, [], 1, 7⟩],
    [⟨0, 10, 20, 3, some (chars! "oRLO2")⟩, ⟨0, 10, 15, 4, some (chars! "oRLO2")⟩, ⟨1, 9, 8, 5, some (chars! "ZAMS")⟩],
    [⟨0, 20, 10, 3, 1/2, some 5⟩, ⟨0, 15, 10, 4, 2/3, some 7⟩], ?_, ⟨0, 15, 10, 4, 2/3, some 7⟩, by simp, ⟨0, [], 1, 5⟩, by simp, rfl, by decide +kernel, by decide⟩
  have : (populationData [⟨0, [], 1, 5⟩, ⟨1, [], 1, 7⟩]
    [⟨0, 10, 20, 3, some (chars! "oRLO2")⟩, ⟨0, 10, 15, 4, some (chars! "oRLO2")⟩, ⟨1, 9, 8, 5, some (chars! "ZAMS")⟩] 1 (chars! "CO-HMS_RLO") none true).toOption =
    some [⟨0, 20, 10, 3, 1/2, some 5⟩, ⟨0, 15, 10, 4, 2/3, some 7⟩] := by decide +kernel
  revert this
  generalize populationData _ _ _ _ _ _ = e
  intro h
  cases e with
  | error _ => cases h
  | ok a => exact congrArg Except.ok (Option.some.inj h)

/-! ### The slices of a population -/

/-- Every mass ratio below one is drawn, and in one slice only. -/
theorem C125_ratio_once {centres : List ℝ} (hp : ∀ x ∈ centres, 0 < x ∧ x ≤ 1) (hw : centres.Pairwise (· < ·)) {v : ℝ} (h0 : 0 ≤ v) (h1 : v < 1) :
    ∃ k, Drawn (ratioEdges centres) k v ∧ ∀ j, Drawn (ratioEdges centres) j v → j = k := by
  have hsort : (ratioEdges centres).Pairwise (· < ·) := by
    have hm := mids_sorted lin_good centres (fun x hx => (hp x hx).1) hw
    have hlt : ∀ e ∈ mids lin centres, 0 < e ∧ e < 1 := by
      intro e he
      obtain ⟨k, hk⟩ := List.mem_iff_getElem?.mp he
      rw [mids, List.getElem?_zipWith] at hk
      cases ha : centres[k]? with
      | none => rw [ha] at hk; simp at hk
      | some a =>
        cases hb : centres.tail[k]? with
        | none => rw [ha, hb] at hk; simp at hk
        | some b =>
          rw [ha, hb] at hk
          have hk : mid lin a b = e := by simpa using hk
          have hb' : centres[k + 1]? = some b := by rwa [List.getElem?_tail] at hb
          have hab := sorted_get hw ha hb' (Nat.lt_succ_self k)
          have hpa := hp a (List.mem_of_getElem? ha)
          have hpb := hp b (List.mem_of_getElem? hb')
          have := lin_good.mid_between hpa.1 hab
          rw [hk] at this
          exact ⟨hpa.1.trans this.1, lt_of_lt_of_le this.2 hpb.2⟩
    unfold ratioEdges
    rw [List.cons_append, List.pairwise_cons, List.pairwise_append]
    refine ⟨?_, hm.1, by simp, ?_⟩
    · intro e he
      rcases List.mem_append.mp he with he | he
      · exact (hlt e he).1
      · simp at he; rw [he]; norm_num
    · intro e he x hx
      simp at hx
      rw [hx]
      exact (hlt e he).2
  have hex : ∀ (l : List ℝ) (lo : ℝ), lo ≤ v → (∃ x ∈ l.getLast?, v < x) → ∃ k, Drawn (lo :: l) k v := by
    intro l
    induction l with
    | nil => intro lo _ ⟨x, hx, _⟩; simp at hx
    | cons a l ih =>
      intro lo hlo ⟨x, hx, hvx⟩
      by_cases ha : v < a
      · exact ⟨0, lo, a, rfl, rfl, hlo, ha⟩
      · cases l with
        | nil =>
          simp at hx
          exact absurd (hx ▸ hvx) ha
        | cons b l =>
          obtain ⟨k, lo', hi', h1, h2, h3, h4⟩ := ih a (not_lt.mp ha) ⟨x, by simpa using hx, hvx⟩
          exact ⟨k + 1, lo', hi', by simpa using h1, by simpa using h2, h3, h4⟩
  have hle : ∀ {i j : ℕ} {x y : ℝ}, (ratioEdges centres)[i]? = some x → (ratioEdges centres)[j]? = some y → i ≤ j → x ≤ y := by
    intro i j x y hi hj hij
    rcases Nat.lt_or_ge i j with h | h
    · exact (sorted_get hsort hi hj h).le
    · obtain rfl : i = j := by omega
      rw [hi] at hj
      exact (Option.some.inj hj).le
  obtain ⟨k, hk⟩ := hex (mids lin centres ++ [1]) 0 h0 ⟨1, by simp, h1⟩
  refine ⟨k, hk, ?_⟩
  intro j hj
  obtain ⟨lo, hi, ha, hb, hc, hd⟩ := hk
  obtain ⟨lo', hi', ha', hb', hc', hd'⟩ := hj
  by_contra hne
  rcases Nat.lt_or_gt_of_ne hne with h | h
  · have := hle hb' ha (by omega)
    linarith
  · have := hle hb ha' (by omega)
    linarith

/-- **Violated**: that every binary of the population is drawn.  A binary of two equal stars is in no slice: the upper edge of the last slice is 1 and does not belong
to it. -/
theorem C125_equal_masses_violated {centres : List ℝ} (hp : ∀ x ∈ centres, 0 < x ∧ x ≤ 1) (hw : centres.Pairwise (· < ·)) (k : ℕ) :
    ¬ Drawn (ratioEdges centres) k 1 := by
  rintro ⟨lo, hi, _, h2, _, h4⟩
  have : hi ∈ mids lin centres ++ [1] := by
    have : (mids lin centres ++ [1])[k]? = some hi := by simpa [ratioEdges] using h2
    exact List.mem_of_getElem? this
  rcases List.mem_append.mp this with he | he
  · obtain ⟨k, hk⟩ := List.mem_iff_getElem?.mp he
    rw [mids, List.getElem?_zipWith] at hk
    cases ha : centres[k]? with
    | none => rw [ha] at hk; simp at hk
    | some a =>
      cases hb : centres.tail[k]? with
      | none => rw [ha, hb] at hk; simp at hk
      | some b =>
        rw [ha, hb] at hk
        have hk : mid lin a b = hi := by simpa using hk
        have hb' : centres[k + 1]? = some b := by rwa [List.getElem?_tail] at hb
        have hab := sorted_get hw ha hb' (Nat.lt_succ_self k)
        have := (lin_good.mid_between (hp a (List.mem_of_getElem? ha)).1 hab).2
        have := (hp b (List.mem_of_getElem? hb')).2
        linarith
  · simp at he
    linarith

/-- A single mass of compact objects in the grid raises `IndexError`. -/
theorem C125_one_mass (m : ℝ) : massEdges [m] = none := rfl

/-- **Violated**: that the mass a slice is named after lies in the slice.  The last slice ends at twice its lower edge: with the masses 1 and 100 it is from 10 to 20. -/
theorem C125_mass_centre_violated : ∃ (centres edges : List ℝ), centres.Pairwise (· < ·) ∧ (∀ x ∈ centres, 0 < x) ∧ massEdges centres = some edges ∧
    centres[1]? = some 100 ∧ ¬ Drawn edges 1 100 := by
  have hm : mid log10 1 100 = 10 := by
    have : Real.logb 10 100 = 2 := by
      rw [show (100 : ℝ) = 10 ^ (2 : ℝ) by norm_num, Real.logb_rpow (by norm_num) (by norm_num)]
    simp only [mid, log10, Real.logb_one, this]
    norm_num
  refine ⟨[1, 100], [0, 10, 20], by simp, ?_, ?_, rfl, ?_⟩
  · intro x hx; simp at hx; rcases hx with rfl | rfl <;> norm_num
  · simp [massEdges, mids, hm]; norm_num
  · rintro ⟨lo, hi, h1, h2, h3, h4⟩
    have : hi = 20 := by simpa using h2.symm
    rw [this] at h4
    norm_num at h4

/-- The hypotheses on the centres hold for the mass ratios 0.2, 0.6 and 1. -/
example : ∃ k, Drawn (ratioEdges [1/5, 3/5, 1]) k (1/2) ∧ ∀ j, Drawn (ratioEdges [1/5, 3/5, 1]) j (1/2) → j = k :=
  C125_ratio_once (by intro x hx; simp at hx; rcases hx with rfl | rfl | rfl <;> norm_num) (by simp; norm_num) (by norm_num) (by norm_num)

/-- Two binaries with one row each: the property is that of the binary. -/
example : (populationData [⟨0, [], 1, 5⟩, ⟨1, [], 1, 7⟩, ⟨2, [], 2, 9⟩]
    [⟨0, 10, 20, 3, some (chars! "ZAMS")⟩, ⟨0, 10, 15, 4, none⟩, ⟨1, 8, 4, 5, some (chars! "ZAMS")⟩] 1 (chars! "HMS-HMS") none true).toOption =
    some [⟨0, 10, 20, 3, 1/2, some 5⟩, ⟨1, 8, 4, 5, 1/2, some 7⟩] := by decide +kernel

end Verif.PlotSlices
