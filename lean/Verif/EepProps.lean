import Verif.Eep

/-!
C115: equivalent evolutionary points are the right rows, in the order of the evolution, with evenly distributed points between.
-/

namespace Verif.Eep

/-! ### The phases -/

/-- Specification: `o` is the first row from `k` on that meets a condition, if there is one. -/
def FirstRow (t : List Row) (k : ℕ) (p : Row → Prop) (o : Option ℕ) : Prop :=
  match o with
  | some i => k ≤ i ∧ (∃ r, t[i]? = some r ∧ p r) ∧ ∀ j r, k ≤ j → j < i → t[j]? = some r → ¬ p r
  | none => ∀ j r, k ≤ j → t[j]? = some r → ¬ p r

theorem firstRow_first (t : List Row) (k : ℕ) (p : Row → Bool) (q : Row → Prop) (h : ∀ r, p r = true ↔ q r) :
    FirstRow t k q (first p k t) := by
  cases hf : first p k t with
  | none =>
    intro j r hk hr hq
    have := first_none.1 hf j r hk hr
    rw [(h r).2 hq] at this
    cases this
  | some i =>
    obtain ⟨h1, ⟨r, h2, h3⟩, h4⟩ := first_some.1 hf
    refine ⟨h1, ⟨r, h2, (h r).1 h3⟩, ?_⟩
    intro j x hk hj hx hq
    have := h4 j x hk hj hx
    rw [(h x).2 hq] at this
    cases this

/-- The phases that are found by a threshold: the first row that passes it, from the row after the phase before on; for a phase
before that is missing, from the start of the track. -/
theorem C115_phases (t : List Row) (r0 : Row) (h0 : t[0]? = some r0) (p : Points) (hp : points t = .ok p) :
    FirstRow t 0 (fun r => r.h2 < 1 / 100 * r0.h2) p.preMS ∧
    FirstRow t 0 (fun r => 1 / 1000 < |r.h1 - r0.h1|) p.zams ∧
    FirstRow t 0 (fun r => r.h1 < 1 / 5) p.iams ∧
    FirstRow t 0 (fun r => r.h1 < 1 / 100000) p.tams ∧
    FirstRow t (p.zacheb + 1) (fun r => r.he4 < 1 / 1000) p.tacheb ∧
    FirstRow t (next p.tacheb) (fun r => r.he4 < 1 / 1000000 ∧ r.heCore - r.cCore < 1 / 10) p.tpagb ∧
    FirstRow t (next p.pagb) (fun r => 10 < r.gamma) p.wdcs ∧
    FirstRow t (p.zacheb + 1) (fun r => r.h1 < 1 / 1000000 ∧ r.he4 < 1 / 1000000 ∧ r.c12 < 1 / 10) p.cburn := by
  unfold points at hp
  cases hb : trgb (next (hBelow (1 / 100000) t)) t with
  | error e => rw [hb] at hp; cases hp
  | ok b =>
    rw [hb] at hp
    cases hc : zacheb (b + 1) t with
    | error e => simp only [hc] at hp; cases hp
    | ok c =>
      simp only [hc] at hp
      cases ha : pagb (next (tpagb (next (tacheb (c + 1) t)) t)) t with
      | error e => rw [ha] at hp; cases hp
      | ok a =>
        rw [ha] at hp
        cases hp
        obtain ⟨r, t', rfl⟩ : ∃ r t', t = r :: t' := by
          cases t with
          | nil => cases h0
          | cons r t' => exact ⟨r, t', rfl⟩
        cases h0
        refine ⟨?_, ?_, ?_, ?_, ?_, ?_, ?_, ?_⟩
        · exact firstRow_first _ _ _ _ (by simp)
        · exact firstRow_first _ _ _ _ (by simp)
        · exact firstRow_first _ _ _ _ (by intro r; simp; norm_num)
        · exact firstRow_first _ _ _ _ (by simp)
        · exact firstRow_first _ _ _ _ (by simp)
        · exact firstRow_first _ _ _ _ (by simp)
        · exact firstRow_first _ _ _ _ (by simp)
        · exact firstRow_first _ _ _ _ (by simp [and_assoc])

/-- The later phases come from the searches of the model. -/
theorem points_parts {t : List Row} {p : Points} (hp : points t = .ok p) :
    p.zams = zams t ∧ p.iams = hBelow (2 / 10) t ∧ p.tams = hBelow (1 / 100000) t ∧ trgb (next p.tams) t = .ok p.trgb ∧
    zacheb (p.trgb + 1) t = .ok p.zacheb ∧ p.tacheb = tacheb (p.zacheb + 1) t ∧
    pagb (next p.tpagb) t = .ok p.pagb ∧ p.cburn = cburn (p.zacheb + 1) t := by
  unfold points at hp
  cases hb : trgb (next (hBelow (1 / 100000) t)) t with
  | error e => rw [hb] at hp; cases hp
  | ok b =>
    rw [hb] at hp
    cases hc : zacheb (b + 1) t with
    | error e => simp only [hc] at hp; cases hp
    | ok c =>
      simp only [hc] at hp
      cases ha : pagb (next (tpagb (next (tacheb (c + 1) t)) t)) t with
      | error e => rw [ha] at hp; cases hp
      | ok a =>
        rw [ha] at hp
        cases hp
        exact ⟨rfl, rfl, rfl, hb, hc, rfl, ha, rfl⟩

/-- The tip of the giant branch: the earlier one of the brightest helium burning and the coolest centre after the main sequence,
as long as helium in the centre is not consumed. -/
theorem C115_trgb (t : List Row) (p : Points) (hp : points t = .ok p) :
    ∃ g i j, t[next p.tams]? = some g ∧ p.trgb = min i j ∧
      ((i = 0 ∧ ∀ k r, next p.tams ≤ k → t[k]? = some r → r.he4 > g.he4 - 1 / 100 → r.lhe ≤ -99) ∨
        (next p.tams ≤ i ∧ ∃ r, t[i]? = some r ∧ r.he4 > g.he4 - 1 / 100 ∧
          ∀ k x, next p.tams ≤ k → t[k]? = some x → x.he4 > g.he4 - 1 / 100 → x.lhe ≤ r.lhe)) ∧
      ((j = 0 ∧ ∀ k r, next p.tams ≤ k → t[k]? = some r → r.he4 > g.he4 - 1 / 100 → 99 ≤ r.tc) ∨
        (next p.tams ≤ j ∧ ∃ r, t[j]? = some r ∧ r.he4 > g.he4 - 1 / 100 ∧
          ∀ k x, next p.tams ≤ k → t[k]? = some x → x.he4 > g.he4 - 1 / 100 → r.tc ≤ x.tc)) := by
  obtain ⟨_, _, _, hb, _⟩ := points_parts hp
  unfold trgb at hb
  cases hg : t[next p.tams]? with
  | none => rw [hg] at hb; cases hb
  | some g =>
    rw [hg] at hb
    simp only [Except.ok.injEq] at hb
    refine ⟨g, _, _, rfl, hb.symm, ?_, ?_⟩
    · rcases bestFrom_spec (fun r : Row => decide (r.he4 > g.he4 - 1 / 100)) (·.lhe) (next p.tams) t with
        ⟨h1, h2⟩ | ⟨i, r, h1, h2, h3, h4, h5, h6, _⟩
      · left; exact ⟨h1, fun k r hk hr ho => h2 k r hk hr (by simpa using ho)⟩
      · right; rw [h1]
        exact ⟨h2, r, h3, by simpa using h4, fun k x hk hx ho => h6 k x hk hx (by simpa using ho)⟩
    · rcases bestFrom_spec (fun r : Row => decide (r.he4 > g.he4 - 1 / 100)) (fun r => -r.tc) (next p.tams) t with
        ⟨h1, h2⟩ | ⟨i, r, h1, h2, h3, h4, h5, h6, _⟩
      · left; refine ⟨h1, fun k r hk hr ho => ?_⟩
        have := h2 k r hk hr (by simpa using ho)
        linarith
      · right; rw [h1]
        refine ⟨h2, r, h3, by simpa using h4, fun k x hk hx ho => ?_⟩
        have := h6 k x hk hx (by simpa using ho)
        linarith

/-- If helium luminosity and central temperature are in their usual ranges the tip is after the main sequence. -/
theorem trgb_after {t : List Row} {p : Points} (hp : points t = .ok p)
    (hr : ∀ r ∈ t, -99 < r.lhe ∧ r.tc < 99) : next p.tams ≤ p.trgb := by
  obtain ⟨g, i, j, hg, he, hi, hj⟩ := C115_trgb t p hp
  have hm := hr g (List.mem_of_getElem? hg)
  rw [he]
  refine le_min ?_ ?_
  · rcases hi with ⟨_, h⟩ | ⟨h, _⟩
    · have := h _ g (le_refl _) hg (by linarith)
      linarith
    · exact h
  · rcases hj with ⟨_, h⟩ | ⟨h, _⟩
    · have := h _ g (le_refl _) hg (by linarith)
      linarith
    · exact h

/-- The start of helium burning is after the tip if there is still helium left in the centre then. -/
theorem zacheb_after {t : List Row} {p : Points} (hp : points t = .ok p)
    (hr : ∀ r ∈ t, -99 < r.lhe ∧ r.tc < 99) (hy : ∀ r, t[p.trgb + 1]? = some r → 9 / 10 < r.he4) : p.trgb + 1 ≤ p.zacheb := by
  obtain ⟨_, _, _, _, hc, _⟩ := points_parts hp
  unfold zacheb at hc
  cases hg : t[p.trgb + 1]? with
  | none => rw [hg] at hc; cases hc
  | some g =>
    rw [hg] at hc
    simp only [Except.ok.injEq] at hc
    have hgy := hy g hg
    have hm := hr g (List.mem_of_getElem? hg)
    have hok : (decide (g.he4 > max (9 / 10) (g.he4 - 3 / 100))) = true := by
      rw [decide_eq_true_eq]
      exact max_lt hgy (by linarith)
    have h1 : p.trgb + 1 ≤ bestFrom (fun r : Row => decide (r.he4 > max (9 / 10) (g.he4 - 3 / 100))) (·.lhe) (p.trgb + 1) t ∧
        ∃ r, t[bestFrom (fun r : Row => decide (r.he4 > max (9 / 10) (g.he4 - 3 / 100))) (·.lhe) (p.trgb + 1) t]? = some r ∧
          decide (r.he4 > max (9 / 10) (g.he4 - 3 / 100)) = true := by
      rcases bestFrom_spec (fun r : Row => decide (r.he4 > max (9 / 10) (g.he4 - 3 / 100))) (·.lhe) (p.trgb + 1) t with
        ⟨_, h⟩ | ⟨i, r, h1, h2, h3, h4, _⟩
      · have := h _ g (le_refl _) hg hok
        linarith
      · rw [h1]; exact ⟨h2, r, h3, h4⟩
    obtain ⟨h1, r, h2, h3⟩ := h1
    rw [← hc]
    rcases bestFrom_spec (fun r : Row => decide (r.he4 > max (9 / 10) (g.he4 - 3 / 100))) (fun r => -r.tc)
        (bestFrom (fun r : Row => decide (r.he4 > max (9 / 10) (g.he4 - 3 / 100))) (·.lhe) (p.trgb + 1) t) t with
      ⟨_, h⟩ | ⟨i, x, h4, h5, _⟩
    · have := h _ r (le_refl _) h2 h3
      have := hr r (List.mem_of_getElem? h2)
      linarith
    · rw [h4]; exact le_trans h1 h5

theorem filterMap_pairwise_cons {f : Name → Option ℕ} {n : Name} {l : List Name}
    (h : (l.filterMap f).Pairwise (· ≤ ·)) (hn : ∀ i, f n = some i → ∀ j ∈ l.filterMap f, i ≤ j) :
    ((n :: l).filterMap f).Pairwise (· ≤ ·) := by
  rw [List.filterMap_cons]
  cases hf : f n with
  | none => exact h
  | some i => exact List.pairwise_cons.2 ⟨hn i hf, h⟩

/-- The phases up to the end of the main sequence are in order. -/
theorem main_sequence {t : List Row} {p : Points} (hp : points t = .ok p) (r0 : Row) (h0 : t[0]? = some r0)
    (hx : 201 / 1000 ≤ r0.h1) :
    (∀ i, p.iams = some i → ∃ z, p.zams = some z ∧ z ≤ i) ∧ (∀ i, p.tams = some i → ∃ z, p.iams = some z ∧ z ≤ i) := by
  obtain ⟨hz, hi, ht, _⟩ := points_parts hp
  constructor
  · intro i h
    rw [hi] at h
    rw [hz]
    cases t with
    | nil => cases h0
    | cons r t =>
      cases h0
      refine first_le ?_ (le_refl 0) h
      intro r hr
      simp only [decide_eq_true_eq] at hr ⊢
      rw [gt_iff_lt, lt_abs]
      right
      linarith
  · intro i h
    rw [ht] at h
    rw [hi]
    refine first_le ?_ (le_refl 0) h
    intro r hr
    simp only [decide_eq_true_eq] at hr ⊢
    linarith

/-- A star with hydrogen that ignites helium: the phases of its two standard lists are found in the order of the evolution. -/
theorem C115_order_partial (t : List Row) (p : Points) (hp : points t = .ok p) (r0 : Row) (h0 : t[0]? = some r0)
    (hx : 201 / 1000 ≤ r0.h1) (ht : p.tams ≠ none) (hr : ∀ r ∈ t, -99 < r.lhe ∧ r.tc < 99)
    (hy : ∀ r, t[p.trgb + 1]? = some r → 9 / 10 < r.he4) :
    (p.rows zamsHi).Pairwise (· ≤ ·) ∧ (p.rows zamsLo).Pairwise (· ≤ ·) ∧
    ∃ z i a, p.zams = some z ∧ p.iams = some i ∧ p.tams = some a ∧ z ≤ i ∧ i ≤ a ∧ a < p.trgb ∧ p.trgb < p.zacheb ∧
      (∀ b, p.tacheb = some b → p.zacheb < b) ∧ ∀ c, p.cburn = some c → ∃ b, p.tacheb = some b ∧ b ≤ c := by
  obtain ⟨m1, m2⟩ := main_sequence hp r0 h0 hx
  obtain ⟨_, _, _, _, _, htc, _, hcb⟩ := points_parts hp
  cases hta : p.tams with
  | none => exact absurd hta ht
  | some a =>
    obtain ⟨i, hi, hia⟩ := m2 a hta
    obtain ⟨z, hz, hzi⟩ := m1 i hi
    have h1 := trgb_after hp hr
    rw [hta] at h1
    have h1 : a + 1 ≤ p.trgb := h1
    have h2 := zacheb_after hp hr hy
    have h3 : ∀ b, p.tacheb = some b → p.zacheb < b := by
      intro b hb
      rw [htc] at hb
      exact (first_some.1 hb).1
    have h4 : ∀ c, p.cburn = some c → ∃ b, p.tacheb = some b ∧ b ≤ c := by
      intro c hc
      rw [hcb] at hc
      rw [htc]
      refine first_le ?_ (le_refl _) hc
      intro r hr
      simp only [Bool.and_eq_true, decide_eq_true_eq] at hr ⊢
      linarith [hr.1.2]
    have g1 : p.get (chars! "ZAMS") = some z := hz
    have g2 : p.get (chars! "IAMS") = some i := hi
    have g3 : p.get (chars! "TAMS") = some a := hta
    have g4 : p.get (chars! "TRGB") = some p.trgb := rfl
    have g5 : p.get (chars! "ZACHEB") = some p.zacheb := rfl
    have g6 : p.get (chars! "TACHEB") = p.tacheb := rfl
    have g7 : p.get (chars! "CBURN") = p.cburn := rfl
    refine ⟨?_, ?_, z, i, a, hz, hi, rfl, hzi, hia, h1, h2, h3, h4⟩
    · unfold Points.rows zamsHi
      simp only [List.filterMap_cons, g1, g2, g3, g5, g6, g7, List.filterMap_nil]
      cases hb : p.tacheb with
      | none =>
        cases hc : p.cburn with
        | none => simp; omega
        | some c => obtain ⟨b, hb', _⟩ := h4 c hc; rw [hb] at hb'; cases hb'
      | some b =>
        have := h3 b hb
        cases hc : p.cburn with
        | none => simp; omega
        | some c =>
          obtain ⟨b', hb', _⟩ := h4 c hc
          rw [hb] at hb'
          cases hb'
          simp; omega
    · unfold Points.rows zamsLo
      simp only [List.filterMap_cons, g1, g2, g3, g4, g5, g6, List.filterMap_nil]
      cases hb : p.tacheb with
      | none => simp; omega
      | some b =>
        have := h3 b hb
        simp; omega

/-- A row of a track with the given abundances, helium luminosity and central temperature, and a metric that grows by the age. -/
def mk (h1 he4 c12 lhe tc age : ℚ) : Row :=
  { h1 := h1, h2 := 0, he4 := he4, c12 := c12, lhe := lhe, tc := tc, heCore := 1, cCore := 0, mass := 10, gamma := 0,
    teff := 0, lum := 0, age := age }

/-- A star with hydrogen that burns helium and carbon. -/
def star : List Row := [mk (7/10) (28/100) 0 (-10) 7 0, mk (68/100) (3/10) 0 (-10) 7 1, mk (1/2) (48/100) 0 (-10) 7 2,
  mk (1/10) (88/100) 0 (-10) 7 3, mk (5/100) (93/100) 0 (-9) 7 4, mk 0 (98/100) 0 (-5) 7 5, mk 0 (98/100) 0 (-4) 7 6,
  mk 0 (98/100) 0 1 (79/10) 7, mk 0 (975/1000) 0 2 8 8, mk 0 (96/100) 0 2 8 9, mk 0 (1/2) 0 2 8 10, mk 0 (1/10) (3/10) 2 8 11,
  mk 0 0 (3/10) 0 8 12, mk 0 0 (3/10) 0 9 13, mk 0 0 (3/10) 0 9 14, mk 0 0 (5/100) 0 9 15]

def starPoints : Points :=
  { preMS := none, zams := some 1, iams := some 3, tams := some 5, trgb := 6, zacheb := 8, tacheb := some 12, tpagb := none,
    pagb := none, wdcs := none, cburn := some 15 }

theorem star_points : points star = .ok starPoints := by decide +kernel

example : (star[0]? = some (mk (7/10) (28/100) 0 (-10) 7 0)) ∧ starPoints.tams ≠ none ∧
    (∀ r ∈ star, -99 < r.lhe ∧ r.tc < 99) ∧ (∀ r, star[starPoints.trgb + 1]? = some r → 9 / 10 < r.he4) := by
  refine ⟨rfl, by decide, by decide +kernel, ?_⟩
  intro r hr
  have : r = mk 0 (98/100) 0 1 (79/10) 7 := (Option.some.inj hr).symm
  subst this
  decide +kernel

/-- Without hot helium left after the main sequence the start of helium burning is put to the first row, and no points can be
calculated for the standard list. -/
theorem C115_order_violated : ∃ (t : List Row) (p : Points), points t = .ok p ∧ p.zams = some 1 ∧ p.zacheb = 0 ∧
    ¬ (p.rows zamsHi).Pairwise (· ≤ ·) ∧ eep (some t) zamsHi 100 = .error .value :=
  ⟨[mk (7/10) (28/100) 0 (-10) 7 0, mk (6/10) (3/10) 0 (-10) 7 1, mk (5/10) (3/10) 0 (-10) 7 2, mk (1/10) (8/10) 0 (-10) 7 3,
      mk (1/10) (8/10) 0 (-10) 7 4, mk 0 (8/10) 0 (-10) 7 5, mk 0 (8/10) 0 (-10) 7 6, mk 0 (8/10) 0 (-10) 7 7],
    ⟨none, some 1, some 3, some 5, 6, 0, none, none, none, none, none⟩,
    by decide +kernel, rfl, rfl, by decide, by decide +kernel⟩

/-- A track that ends when hydrogen is exhausted cannot be used, even if no later phase is asked for. -/
theorem C115_last_row_violated (t : List Row) (names : List Name) (n : ℕ) (i : ℕ) (h : hBelow (1 / 100000) t = some i)
    (hl : i + 1 = t.length) : eep (some t) names n = .error .index := by
  have : trgb (next (hBelow (1 / 100000) t)) t = .error .index := by
    unfold trgb
    rw [h]
    show (match t[i + 1]? with | none => Except.error Err.index | some g => _) = _
    rw [List.getElem?_eq_none (by omega)]
  simp only [eep, points, this]

example : hBelow (1 / 100000) [mk (7/10) (28/100) 0 (-10) 7 0, mk 0 (8/10) 0 (-10) 7 5] = some 1 := by decide +kernel

/-- A file that cannot be opened is reported only by an undefined variable. -/
theorem C115_no_file_violated (names : List Name) (n : ℕ) : eep none names n = .error .unbound := rfl

/-! ### The metric -/

/-- The metric starts at 0, never decreases, and increases exactly where one of its terms changes. -/
theorem C115_metric (t : List Row) :
    metric t 0 = 0 ∧ Monotone (metric t) ∧
    ∀ (i : ℕ) (a b : Row), t[i]? = some a → t[i + 1]? = some b →
      metric t (i + 1) = metric t i + step a b ∧
      (metric t i < metric t (i + 1) ↔ a.teff ≠ b.teff ∨ a.lum ≠ b.lum ∨ a.age ≠ b.age) := by
  refine ⟨rfl, metric_mono t, ?_⟩
  intro i a b ha hb
  have h : metric t (i + 1) = metric t i + step a b := by
    show (match t[i]?, t[i + 1]? with | some a, some b => metric t i + step a b | _, _ => metric t i) = _
    rw [ha, hb]
  refine ⟨h, ?_⟩
  rw [h, lt_add_iff_pos_right]
  constructor
  · intro hp
    by_contra hn
    push Not at hn
    unfold step at hp
    rw [hn.1, hn.2.1, hn.2.2] at hp
    norm_num at hp
  · intro hn
    unfold step
    have e1 := sq_nonneg (b.teff - a.teff)
    have e2 := sq_nonneg (b.lum - a.lum)
    have e3 := sq_nonneg (b.age - a.age)
    rcases hn with h | h | h
    · have : 0 < (b.teff - a.teff) ^ 2 := by
        have := sub_ne_zero.2 (Ne.symm h); positivity
      linarith
    · have : 0 < (b.lum - a.lum) ^ 2 := by
        have := sub_ne_zero.2 (Ne.symm h); positivity
      linarith
    · have : 0 < (b.age - a.age) ^ 2 := by
        have := sub_ne_zero.2 (Ne.symm h); positivity
      linarith

/-! ### The points -/

/-- The number of points: the primary ones and the requested number in each interval. -/
theorem C115_count (t : List Row) (names : List Name) (n : ℕ) (p : Points) (hp : points t = .ok p) (l : List Entry)
    (h : eep (some t) names n = .ok l) :
    l.length = (p.rows names).length + n * ((p.rows names).length - 1) := by
  simp only [eep, hp] at h
  by_cases h1 : p.rows names = [] ∧ 0 < n
  · rw [if_pos h1] at h; cases h
  · rw [if_neg h1] at h
    by_cases h2 : 0 < n ∧ allOk (metric t) (p.rows names) = false
    · rw [if_pos h2] at h; cases h
    · rw [if_neg h2] at h
      cases h
      exact entries_length _ _ _

theorem interval_get (m : ℕ → ℚ) (n lo hi j : ℕ) (h : j < n) :
    (interval m n lo hi)[j + 1]? = some (.between lo hi (between m lo hi n (j + 1))) := by
  unfold interval
  rw [List.getElem?_cons_succ, List.getElem?_map, List.getElem?_range h]
  rfl

theorem entries_get (m : ℕ → ℚ) (n : ℕ) (rows : List ℕ) (k : ℕ) :
    (∀ a, rows[k]? = some a → (entries m n rows)[k * (n + 1)]? = some (.row a)) ∧
    ∀ a b, rows[k]? = some a → rows[k + 1]? = some b → ∀ j, j < n →
      (entries m n rows)[k * (n + 1) + (j + 1)]? = some (.between a b (between m a b n (j + 1))) := by
  induction rows generalizing k with
  | nil => exact ⟨by simp, by simp⟩
  | cons x r ih =>
    cases r with
    | nil =>
      constructor
      · intro a ha
        cases k with
        | zero => simp at ha; subst ha; simp [entries]
        | succ k => simp at ha
      · intro a b _ hb
        simp at hb
    | cons y r =>
      constructor
      · intro a ha
        cases k with
        | zero => simp at ha; subst ha; simp [entries, interval]
        | succ k =>
          have := (ih k).1 a (by simpa using ha)
          rw [entries, List.getElem?_append_right (by rw [interval_length, Nat.succ_mul]; omega), interval_length, Nat.succ_mul,
            Nat.add_sub_cancel]
          exact this
      · intro a b ha hb j hj
        cases k with
        | zero =>
          simp only [List.getElem?_cons_zero, Option.some.injEq, List.getElem?_cons_succ, Nat.zero_add] at ha hb
          subst ha hb
          rw [entries, Nat.zero_mul, Nat.zero_add, List.getElem?_append_left (by rw [interval_length]; omega)]
          exact interval_get m n _ _ j hj
        | succ k =>
          have := (ih k).2 a b (by simpa using ha) (by simpa using hb) j hj
          rw [entries, List.getElem?_append_right (by rw [interval_length, Nat.succ_mul]; omega), interval_length, Nat.succ_mul,
            show k * (n + 1) + (n + 1) + (j + 1) - (n + 1) = k * (n + 1) + (j + 1) by omega]
          exact this

/-- The `k`-th of the phases that are found is at position `k (n + 1)`, and the points up to the next one follow it in order. -/
theorem C115_positions (t : List Row) (names : List Name) (n : ℕ) (p : Points) (hp : points t = .ok p) (l : List Entry)
    (h : eep (some t) names n = .ok l) (k : ℕ) :
    (∀ a, (p.rows names)[k]? = some a → l[k * (n + 1)]? = some (.row a)) ∧
    ∀ a b, (p.rows names)[k]? = some a → (p.rows names)[k + 1]? = some b → ∀ j, j < n →
      l[k * (n + 1) + (j + 1)]? = some (.between a b (metric t a + ((j + 1 : ℕ) : ℚ) * ((metric t b - metric t a) / (n + 1)))) := by
  simp only [eep, hp] at h
  by_cases h1 : p.rows names = [] ∧ 0 < n
  · rw [if_pos h1] at h; cases h
  · rw [if_neg h1] at h
    by_cases h2 : 0 < n ∧ allOk (metric t) (p.rows names) = false
    · rw [if_pos h2] at h; cases h
    · rw [if_neg h2] at h
      cases h
      exact entries_get _ _ _ k

/-- The points between two phases have metrics that increase evenly from the one to the other. -/
theorem C115_between (m : ℕ → ℚ) (lo hi n : ℕ) (h : m lo < m hi) :
    between m lo hi n 0 = m lo ∧ between m lo hi n (n + 1) = m hi ∧
    (∀ j, between m lo hi n (j + 1) - between m lo hi n j = (m hi - m lo) / (n + 1)) ∧
    ∀ j, 1 ≤ j → j ≤ n → m lo < between m lo hi n j ∧ between m lo hi n j < m hi := by
  have hn : (0 : ℚ) < (n : ℚ) + 1 := by positivity
  have hd : 0 < (m hi - m lo) / ((n : ℚ) + 1) := div_pos (by linarith) hn
  have he : ((n : ℚ) + 1) * ((m hi - m lo) / ((n : ℚ) + 1)) = m hi - m lo := by field_simp
  refine ⟨by simp [between], ?_, ?_, ?_⟩
  · unfold between
    push_cast
    rw [he]; ring
  · intro j
    unfold between
    push_cast
    ring
  · intro j h1 h2
    unfold between
    have hj : (0 : ℚ) < j := by exact_mod_cast h1
    have hj2 : (j : ℚ) < (n : ℚ) + 1 := by
      have : (j : ℚ) ≤ n := by exact_mod_cast h2
      linarith
    constructor
    · have := mul_pos hj hd; linarith
    · have := mul_lt_mul_of_pos_right hj2 hd
      rw [he] at this
      linarith

example : eep (some star) zamsHi 2 = .ok (entries (metric star) 2 [1, 3, 5, 8, 12, 15]) ∧
    (entries (metric star) 2 [1, 3, 5, 8, 12, 15]).length = 16 := by decide +kernel

/-- The row of the later phase is left out of the interpolation: whenever the last step of the track is longer than the distance of
two points, the last point is calculated outside of the rows that are used. -/
theorem C115_extrapolated_violated (m : ℕ → ℚ) (lo hi n : ℕ)
    (h : (m hi - m lo) / (n + 1) < m hi - m (hi - 1)) : m (hi - 1) < between m lo hi n n := by
  unfold between
  have hn : (n : ℚ) + 1 ≠ 0 := by positivity
  have he : ((n : ℚ) + 1) * ((m hi - m lo) / ((n : ℚ) + 1)) = m hi - m lo := by field_simp
  have : (n : ℚ) * ((m hi - m lo) / ((n : ℚ) + 1)) = m hi - m lo - (m hi - m lo) / ((n : ℚ) + 1) := by
    linarith
  rw [this]
  linarith

/-- For example: the points before the end of helium burning lie after the last row that is used. -/
theorem C115_extrapolated_example_violated : ∃ l x, eep (some star) heZams 100 = .ok l ∧ l[100]? = some (.between 8 12 x) ∧
    metric star 11 < x :=
  ⟨entries (metric star) 100 [8, 12, 15], between (metric star) 8 12 100 100, by decide +kernel,
    (entries_get (metric star) 100 [8, 12, 15] 0).2 8 12 rfl rfl 99 (by decide), by decide +kernel⟩

/-- Two phases in the same row or in neighbouring rows make the calculation impossible. -/
theorem C115_adjacent_violated (t : List Row) (names : List Name) (n : ℕ) (p : Points) (hp : points t = .ok p) (hn : 0 < n)
    (a b : ℕ) (pre suf : List ℕ) (h : p.rows names = pre ++ a :: b :: suf) (hab : b ≤ a + 1) :
    eep (some t) names n = .error .value := by
  have : ∀ pre : List ℕ, allOk (metric t) (pre ++ a :: b :: suf) = false := by
    intro pre
    induction pre with
    | nil =>
      show (pchipOk _ a b && _) = false
      unfold pchipOk
      rw [decide_eq_false (by omega)]; rfl
    | cons x pre ih =>
      cases pre with
      | nil =>
        show (pchipOk _ x a && allOk _ (a :: b :: suf)) = false
        rw [show allOk (metric t) (a :: b :: suf) = false from ih, Bool.and_false]
      | cons y pre =>
        show (pchipOk _ x y && allOk _ (y :: (pre ++ a :: b :: suf))) = false
        rw [show allOk (metric t) (y :: (pre ++ a :: b :: suf)) = false from ih, Bool.and_false]
  simp only [eep, hp]
  rw [if_neg (by rw [h]; simp), if_pos ⟨hn, by rw [h]; exact this pre⟩]

/-- A star without hydrogen with the default list: the middle and the end of its main sequence are both the first row. -/
theorem C115_helium_star_violated (t : List Row) (n : ℕ) (p : Points) (hp : points t = .ok p) (hn : 0 < n)
    (r0 : Row) (h0 : t[0]? = some r0) (hx : ∀ r ∈ t, r.h1 < 1 / 100000) (hc : ∀ r ∈ t, |r.h1 - r0.h1| ≤ 1 / 1000) :
    eep (some t) zamsHi n = .error .value := by
  obtain ⟨hz, hi, ht, _⟩ := points_parts hp
  have hm := hx r0 (List.mem_of_getElem? h0)
  have h1 : p.iams = some 0 := by
    rw [hi]
    refine first_some.2 ⟨le_refl _, ⟨r0, h0, ?_⟩, by omega⟩
    simp only [decide_eq_true_eq]; linarith
  have h2 : p.tams = some 0 := by
    rw [ht]
    refine first_some.2 ⟨le_refl _, ⟨r0, h0, ?_⟩, by omega⟩
    simp only [decide_eq_true_eq]; exact hm
  have h3 : p.zams = none := by
    rw [hz]
    cases t with
    | nil => cases h0
    | cons r t =>
      cases h0
      refine first_none.2 ?_
      intro j x _ hxx
      have := hc x (List.mem_of_getElem? hxx)
      simpa using this
  refine C115_adjacent_violated t zamsHi n p hp hn 0 0 [] (p.rows [(chars! "ZACHEB"), (chars! "TACHEB"), (chars! "CBURN")]) ?_ (by omega)
  unfold Points.rows zamsHi
  have g1 : p.get (chars! "ZAMS") = none := h3
  have g2 : p.get (chars! "IAMS") = some 0 := h1
  have g3 : p.get (chars! "TAMS") = some 0 := h2
  rw [List.filterMap_cons, g1, List.filterMap_cons, g2, List.filterMap_cons, g3]
  rfl

example : ∃ p, points (star.drop 7) = .ok p ∧ (∀ r ∈ star.drop 7, r.h1 < 1 / 100000) ∧
    ∀ r ∈ star.drop 7, |r.h1 - 0| ≤ 1 / 1000 :=
  ⟨⟨none, none, some 0, some 0, 1, 2, some 5, none, none, none, some 8⟩, by decide +kernel, by decide +kernel, by decide +kernel⟩

/-- Phases that are missing move the later ones: the same position stands for different phases in different tracks. -/
theorem C115_shifted_violated : ∃ (t t' : List Row) (p p' : Points), points t = .ok p ∧ points t' = .ok p' ∧
    (p.rows [(chars! "PreMS"), (chars! "ZACHEB")])[0]? = p.preMS ∧ p.preMS ≠ none ∧
    (p'.rows [(chars! "PreMS"), (chars! "ZACHEB")])[0]? = some p'.zacheb :=
  ⟨({ mk (7/10) (28/100) 0 (-10) 7 0 with h2 := 1 } : Row) :: star.drop 1, star, { starPoints with preMS := some 1 }, starPoints,
    by decide +kernel, star_points, by decide, by decide, by decide⟩

/-- No phase of the list in the track is an error. -/
theorem C115_none (t : List Row) (names : List Name) (n : ℕ) (p : Points) (hp : points t = .ok p) (hn : 0 < n)
    (h : ∀ x ∈ names, p.get x = none) : eep (some t) names n = .error .value := by
  simp only [eep, hp]
  rw [if_pos ⟨by unfold Points.rows; rw [List.filterMap_eq_nil_iff]; exact h, hn⟩]

example : starPoints.get (chars! "WDCS") = none ∧ starPoints.get (chars! "unknown") = none := by decide

/-- A phase is searched from the row after the phase before it; if that is missing, from the first row. -/
theorem C115_search : next none = 0 ∧ ∀ i, next (some i) = i + 1 := ⟨rfl, fun _ => rfl⟩

/-- The phase after the giant branch is looked for only in tracks of which the centre is cooler at the end. -/
theorem C115_post_agb (guess : ℕ) (t : List Row) (g l : Row) (hg : t[guess]? = some g) (hl : t.getLast? = some l) :
    (g.tc ≤ l.tc → pagb guess t = .ok none) ∧
    (l.tc < g.tc → ∃ o, pagb guess t = .ok o ∧ FirstRow t guess (fun r => 8 / 10 < r.cCore / r.mass) o) := by
  unfold pagb
  rw [hg, hl]
  dsimp only
  constructor
  · intro h
    rw [if_neg (not_lt.mpr h)]
  · intro h
    rw [if_pos h]
    exact ⟨_, rfl, firstRow_first t guess _ _ fun r => by simp⟩

/-- A track can be interpolated between two rows exactly if there are two rows and the metric rises from row to row. -/
theorem C115_pchip (m : ℕ → ℚ) (lo hi : ℕ) :
    pchipOk m lo hi = true ↔ lo + 2 ≤ hi ∧ ∀ k, lo ≤ k → k + 1 < hi → m k < m (k + 1) := by
  unfold pchipOk
  rw [Bool.and_eq_true, decide_eq_true_iff, List.all_eq_true]
  refine and_congr_right fun _ => ?_
  constructor
  · intro h k h1 h2
    have := h (k - lo) (List.mem_range.mpr (by omega))
    rw [decide_eq_true_iff, Nat.add_sub_cancel' h1] at this
    exact this
  · intro h k hk
    rw [List.mem_range] at hk
    rw [decide_eq_true_iff]
    exact h (lo + k) (by omega) (by omega)

end Verif.Eep
