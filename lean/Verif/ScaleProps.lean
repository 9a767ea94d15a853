import Verif.Scale

/-!
C71: scaling a feature and scaling back returns the number, and the scaled training data have the advertised range.
-/
namespace Verif.Scale

noncomputable section
open Classical

theorem fit_ok {s s' : Scaler} {data : List ℝ} {m : Method} {lo hi : ℝ} (h : fit s data m lo hi = (s', none)) (hd : data ≠ []) :
    ∃ a l p, data = a :: l ∧ fitParams m a l = some p ∧ s'.method = some m ∧ s'.params = p ∧
      (ranged m = true → lo < hi ∧ s'.range = some (lo, hi)) := by
  obtain ⟨a, l, rfl⟩ := List.exists_cons_of_ne_nil hd
  unfold fit at h
  by_cases hr : (ranged m && decide (¬ hi > lo)) = true
  · rw [if_pos hr] at h
    simp at h
  · rw [if_neg hr] at h
    dsimp only at h
    cases hp : fitParams m a l with
    | none => rw [hp] at h; simp at h
    | some p =>
      rw [hp] at h
      simp only [Prod.mk.injEq, and_true] at h
      subst h
      refine ⟨a, l, p, rfl, hp, ?_, rfl, ?_⟩
      · cases ranged m <;> simp
      · intro hm
        simp only [hm, Bool.true_and, decide_eq_true_eq, not_not] at hr
        exact ⟨hr, by simp [hm]⟩

theorem spread_ne {m : Method} {data : List ℝ} (h : spread m data) (h1 : m ≠ .log) (h2 : m ≠ .none) : data ≠ [] := by
  rintro rfl
  cases m <;> simp [spread] at h h1 h2

theorem std_ne {l : List ℝ} {x y : ℝ} (hx : x ∈ l) (hy : y ∈ l) (h : x ≠ y) : std l ≠ 0 := by
  intro h0
  exact h ((std_eq_zero h0 x hx).trans (std_eq_zero h0 y hy).symm)

theorem spread_map {l : List ℝ} (f : ℝ → ℝ) (hf : ∀ x ∈ l, ∀ y ∈ l, f x = f y → x = y) (h : ∃ x ∈ l, ∃ y ∈ l, x ≠ y) :
    ∃ x ∈ l.map f, ∃ y ∈ l.map f, x ≠ y := by
  obtain ⟨x, hx, y, hy, hne⟩ := h
  exact ⟨f x, List.mem_map_of_mem hx, f y, List.mem_map_of_mem hy, fun e => hne (hf x hx y hy e)⟩

theorem maxL_abs_pos {a : ℝ} {l : List ℝ} {x : ℝ} (hx : x ∈ a :: l) (h : x ≠ 0) : 0 < maxL |a| (l.map fun x => |x|) := by
  have hp : 0 < |x| := abs_pos.2 h
  rcases List.mem_cons.1 hx with rfl | hx
  · exact hp.trans_le (le_maxL _ _).1
  · exact hp.trans_le ((le_maxL |a| (l.map fun x => |x|)).2 _ (List.mem_map_of_mem hx))

theorem logb_ne_zero {x : ℝ} (hx : 0 < x) (h : x ≠ 1) : Real.logb 10 x ≠ 0 := by
  intro h0
  apply h
  rw [← pow10_logb hx, h0, pow10, Real.rpow_zero]

/-- **C71** Scaling back what was scaled returns the number: for every method, every training data for which the method is defined and which are not all
equal, and every number on which the method is defined — not only those of the training data. -/
theorem C71_round_trip {s s' : Scaler} {data : List ℝ} {m : Method} {lo hi : ℝ} (h : fit s data m lo hi = (s', none)) (hd : data ≠ [])
    (hdom : ∀ x ∈ data, domain m x) (hs : spread m data) {x : ℝ} (hx : domain m x) : roundTrip s' x = .ok (some x) := by
  obtain ⟨a, l, p, rfl, hp, hm, hpar, hr⟩ := fit_ok h hd
  have neg_pos : ∀ {l : List ℝ}, (∀ x ∈ l, x < 0) → ∀ x ∈ l.map (fun x => -x), 0 < x := by
    intro l hl x hx
    obtain ⟨y, hy, rfl⟩ := List.mem_map.1 hx
    have := hl y hy
    linarith
  cases m <;> simp only [fitParams, Option.some.injEq, reduceCtorEq] at hp <;> subst hp <;> unfold roundTrip <;>
    simp only [transform, inv, hm, two, one, param, hpar, withRange, List.getElem?_cons_zero, List.getElem?_cons_succ]
  · obtain ⟨hlt, hrg⟩ := hr rfl
    obtain ⟨u, hu, v, hv, hne⟩ := hs
    obtain ⟨z, hz, hb⟩ := range_roundTrip (y := x) (minL_lt_maxL hu hv hne).ne' hlt
    simp only [hrg, hz, hb]
  · obtain ⟨hlt, hrg⟩ := hr rfl
    obtain ⟨u, hu, v, hv, hne⟩ := hs
    have hpos : ∀ z ∈ a :: l, 0 < z := fun z hz => by simpa [domain, kind] using hdom z hz
    have hx' : 0 < x := by simpa [domain, kind] using hx
    have h1 := hpos _ (minL_mem a l)
    have h2 := hpos _ (maxL_mem a l)
    have hlt' := minL_lt_maxL hu hv hne
    have hlog : Real.logb 10 (maxL a l) ≠ Real.logb 10 (minL a l) := fun e => hlt'.ne' (logb_inj h2 h1 e)
    obtain ⟨z, hz, hb⟩ := range_roundTrip (y := Real.logb 10 x) hlog hlt
    simp only [hrg, log10_pos h1, log10_pos h2, log10_pos hx', Option.bind_some, hz, hb, Option.map_some, pow10_logb hx']
  · obtain ⟨hlt, hrg⟩ := hr rfl
    have hneg : ∀ z ∈ a :: l, z < 0 := fun z hz => by simpa [domain, kind] using hdom z hz
    have hpos : ∀ z ∈ -a :: l.map (fun x => -x), 0 < z := neg_pos hneg
    have hs' := spread_map (fun x => -x) (fun x _ y _ e => neg_injective e) hs
    obtain ⟨u, hu, v, hv, hne⟩ := hs'
    have hx' : 0 < -x := by
      have : x < 0 := by simpa [domain, kind] using hx
      linarith
    have h1 := hpos _ (minL_mem (-a) (l.map fun x => -x))
    have h2 := hpos _ (maxL_mem (-a) (l.map fun x => -x))
    have hlt' := minL_lt_maxL (a := -a) (l := l.map fun x => -x) hu hv hne
    have hlog : Real.logb 10 (maxL (-a) (l.map fun x => -x)) ≠ Real.logb 10 (minL (-a) (l.map fun x => -x)) := fun e => hlt'.ne' (logb_inj h2 h1 e)
    obtain ⟨z, hz, hb⟩ := range_roundTrip (y := Real.logb 10 (-x)) hlog hlt
    simp only [hrg, log10_pos h1, log10_pos h2, log10_pos hx', Option.bind_some, hz, hb, Option.map_some, pow10_logb hx', neg_neg]
  · obtain ⟨u, hu, hne⟩ := hs
    have hpos := maxL_abs_pos hu hne
    simp only [quot_ne hpos.ne', div_mul_cancel₀ _ hpos.ne']
  · have hpos : ∀ z ∈ a :: l, 0 < z := fun z hz => by simpa [domain, kind] using hdom z hz
    have hx' : 0 < x := by simpa [domain, kind] using hx
    obtain ⟨u, hu, hne⟩ := hs
    have hp : 0 < maxL 0 (((a :: l).map (Real.logb 10)).map fun x => |x|) :=
      (abs_pos.2 (logb_ne_zero (hpos u hu) hne)).trans_le
        ((le_maxL 0 _).2 _ (List.mem_map_of_mem (f := fun x => |x|) (List.mem_map_of_mem (f := Real.logb 10) hu)))
    simp only [logs_pos hpos, Option.map_some, log10_pos hx', Option.bind_some, quot_ne hp.ne', div_mul_cancel₀ _ hp.ne', pow10_logb hx']
  · obtain ⟨u, hu, v, hv, hne⟩ := hs
    have hp := std_ne hu hv hne
    simp only [quot_ne hp, div_mul_cancel₀ _ hp, sub_add_cancel]
  · have hpos : ∀ z ∈ a :: l, 0 < z := fun z hz => by simpa [domain, kind] using hdom z hz
    have hx' : 0 < x := by simpa [domain, kind] using hx
    obtain ⟨u, hu, v, hv, hne⟩ := spread_map (Real.logb 10) (fun x hx y hy e => logb_inj (hpos x hx) (hpos y hy) e) hs
    have hp := std_ne hu hv hne
    simp only [logs_pos hpos, Option.map_some, log10_pos hx', Option.bind_some, quot_ne hp, div_mul_cancel₀ _ hp, sub_add_cancel, pow10_logb hx']
  · have hneg : ∀ z ∈ a :: l, z < 0 := fun z hz => by simpa [domain, kind] using hdom z hz
    have hpos := neg_pos hneg
    have hx' : 0 < -x := by
      have : x < 0 := by simpa [domain, kind] using hx
      linarith
    have hs' := spread_map (fun x => -x) (fun x _ y _ e => neg_injective e) hs
    obtain ⟨u, hu, v, hv, hne⟩ := spread_map (Real.logb 10) (fun x hx y hy e => logb_inj (hpos x hx) (hpos y hy) e) hs'
    have hp := std_ne hu hv hne
    simp only [logs_pos hpos, Option.map_some, log10_pos hx', Option.bind_some, quot_ne hp, div_mul_cancel₀ _ hp, sub_add_cancel, pow10_logb hx', neg_neg]
  · have hx' : 0 < x := by simpa [domain, kind] using hx
    simp only [log10_pos hx', pow10_logb hx']

/-- **C71** The three methods with a range map the training data into that range, and its ends are reached. -/
theorem C71_range {s s' : Scaler} {data : List ℝ} {m : Method} {lo hi : ℝ} (hm : ranged m = true) (h : fit s data m lo hi = (s', none))
    (hdom : ∀ x ∈ data, domain m x) (hs : ∃ x ∈ data, ∃ y ∈ data, x ≠ y) :
    (∀ x ∈ data, ∃ z, transform s' x = .ok (some z) ∧ lo ≤ z ∧ z ≤ hi) ∧
      (∃ x ∈ data, transform s' x = .ok (some lo)) ∧ (∃ x ∈ data, transform s' x = .ok (some hi)) := by
  have hd : data ≠ [] := by rintro rfl; simp at hs
  obtain ⟨a, l, p, rfl, hp, hmeth, hpar, hr⟩ := fit_ok h hd
  obtain ⟨hlt, hrg⟩ := hr hm
  -- the common core: data mapped to `g x` with extreme values p0 < p1
  have core : ∀ (g : ℝ → ℝ) (p0 p1 : ℝ), p0 < p1 → (∀ x ∈ a :: l, p0 ≤ g x ∧ g x ≤ p1) → (∃ x ∈ a :: l, g x = p0) → (∃ x ∈ a :: l, g x = p1) →
      (∀ x ∈ a :: l, transform s' x = .ok (toRange (g x) p0 p1 lo hi)) →
      (∀ x ∈ a :: l, ∃ z, transform s' x = .ok (some z) ∧ lo ≤ z ∧ z ≤ hi) ∧
      (∃ x ∈ a :: l, transform s' x = .ok (some lo)) ∧ (∃ x ∈ a :: l, transform s' x = .ok (some hi)) := by
    intro g p0 p1 hlt' hb ⟨u, hu, hu'⟩ ⟨v, hv, hv'⟩ ht
    have hne : p1 - p0 ≠ 0 := (sub_pos.2 hlt').ne'
    refine ⟨fun x hx => ?_, ⟨u, hu, ?_⟩, ⟨v, hv, ?_⟩⟩
    · obtain ⟨z, hz, h1, h2⟩ := toRange_mem hlt' hlt (hb x hx).1 (hb x hx).2
      exact ⟨z, by rw [ht x hx, hz], h1, h2⟩
    · rw [ht u hu, hu', toRange, quot_ne hne]; simp
    · rw [ht v hv, hv', toRange, quot_ne hne]; simp [div_self hne]
  have bounds : ∀ x ∈ a :: l, minL a l ≤ x ∧ x ≤ maxL a l := by
    intro x hx
    rcases List.mem_cons.1 hx with rfl | hx
    · exact ⟨(minL_le _ _).1, (le_maxL _ _).1⟩
    · exact ⟨(minL_le _ _).2 x hx, (le_maxL _ _).2 x hx⟩
  have hten : (1 : ℝ) < 10 := by norm_num
  obtain ⟨u, hu, v, hv, hne⟩ := hs
  have hlt' := minL_lt_maxL hu hv hne
  cases m <;> simp [ranged] at hm <;> simp only [fitParams, Option.some.injEq] at hp <;> subst hp
  · refine core id _ _ hlt' bounds ⟨_, minL_mem a l, rfl⟩ ⟨_, maxL_mem a l, rfl⟩ fun x _ => ?_
    simp only [transform, hmeth, two, param, hpar, withRange, hrg, List.getElem?_cons_zero, List.getElem?_cons_succ, id]
  · have hpos : ∀ z ∈ a :: l, 0 < z := fun z hz => by simpa [domain, kind] using hdom z hz
    have h1 := hpos _ (minL_mem a l)
    have h2 := hpos _ (maxL_mem a l)
    refine core (Real.logb 10) _ _ (Real.logb_lt_logb hten h1 hlt') (fun x hx => ?_) ⟨_, minL_mem a l, rfl⟩ ⟨_, maxL_mem a l, rfl⟩ fun x hx => ?_
    · exact ⟨Real.logb_le_logb_of_le hten h1 (bounds x hx).1, Real.logb_le_logb_of_le hten (hpos x hx) (bounds x hx).2⟩
    · simp only [transform, hmeth, two, param, hpar, withRange, hrg, List.getElem?_cons_zero, List.getElem?_cons_succ, log10_pos h1, log10_pos h2,
        log10_pos (hpos x hx), Option.bind_some]
  · have hpos : ∀ z ∈ a :: l, 0 < -z := fun z hz => by
      have : z < 0 := by simpa [domain, kind] using hdom z hz
      linarith
    have lift : ∀ z ∈ -a :: l.map (fun x => -x), ∃ x ∈ a :: l, -x = z := fun z hz => (List.mem_map (f := fun x : ℝ => -x) (l := a :: l)).1 hz
    have put : ∀ x ∈ a :: l, -x ∈ -a :: l.map (fun x => -x) := fun x hx => List.mem_map_of_mem (f := fun x : ℝ => -x) hx
    have hlt2 := minL_lt_maxL (a := -a) (l := l.map fun x => -x) (put u hu) (put v hv) fun e => hne (neg_injective e)
    have bounds' : ∀ z ∈ -a :: l.map (fun x => -x), minL (-a) (l.map fun x => -x) ≤ z ∧ z ≤ maxL (-a) (l.map fun x => -x) := by
      intro x hx
      rcases List.mem_cons.1 hx with rfl | hx
      · exact ⟨(minL_le _ _).1, (le_maxL _ _).1⟩
      · exact ⟨(minL_le _ _).2 x hx, (le_maxL _ _).2 x hx⟩
    obtain ⟨xm, hxm, exm⟩ := lift _ (minL_mem (-a) (l.map fun x => -x))
    obtain ⟨xM, hxM, exM⟩ := lift _ (maxL_mem (-a) (l.map fun x => -x))
    have h1 : 0 < minL (-a) (l.map fun x => -x) := exm ▸ hpos xm hxm
    have h2 : 0 < maxL (-a) (l.map fun x => -x) := exM ▸ hpos xM hxM
    refine core (fun x => Real.logb 10 (-x)) _ _ (Real.logb_lt_logb hten h1 hlt2) (fun x hx => ?_)
      ⟨xm, hxm, congrArg _ exm⟩ ⟨xM, hxM, congrArg _ exM⟩ fun x hx => ?_
    · have := bounds' _ (put x hx)
      exact ⟨Real.logb_le_logb_of_le hten h1 this.1, Real.logb_le_logb_of_le hten (hpos x hx) this.2⟩
    · simp only [transform, hmeth, two, param, hpar, withRange, hrg, List.getElem?_cons_zero, List.getElem?_cons_succ, log10_pos h1, log10_pos h2,
        log10_pos (hpos x hx), Option.bind_some]

/-- **C71** Dividing by the largest absolute value maps the training data into [-1, 1], and an end is reached. -/
theorem C71_max_abs {s s' : Scaler} {data : List ℝ} {lo hi : ℝ} (h : fit s data .maxAbs lo hi = (s', none)) (hs : ∃ x ∈ data, x ≠ 0) :
    (∀ x ∈ data, ∃ z, transform s' x = .ok (some z) ∧ |z| ≤ 1) ∧ ∃ x ∈ data, ∃ z, transform s' x = .ok (some z) ∧ |z| = 1 := by
  have hd : data ≠ [] := by rintro rfl; simp at hs
  obtain ⟨a, l, p, rfl, hp, hmeth, hpar, -⟩ := fit_ok h hd
  simp only [fitParams, Option.some.injEq] at hp
  subst hp
  obtain ⟨u, hu, hne⟩ := hs
  have hpos := maxL_abs_pos hu hne
  have ht : ∀ x, transform s' x = .ok (some (x / maxL |a| (l.map fun x => |x|))) := by
    intro x
    simp only [transform, hmeth, one, param, hpar, List.getElem?_cons_zero, quot_ne hpos.ne']
  constructor
  · intro x hx
    refine ⟨_, ht x, ?_⟩
    rw [abs_div, abs_of_pos hpos, div_le_one hpos]
    rcases List.mem_cons.1 hx with rfl | hx
    · exact (le_maxL _ _).1
    · exact (le_maxL |a| (l.map fun x => |x|)).2 _ (List.mem_map_of_mem (f := fun x => |x|) hx)
  · obtain ⟨x, hx, e⟩ := (List.mem_map (f := fun x : ℝ => |x|) (l := a :: l)).1 (maxL_mem |a| (l.map fun x => |x|))
    refine ⟨x, hx, _, ht x, ?_⟩
    rw [abs_div, abs_of_pos hpos]
    exact (div_eq_one_iff_eq hpos.ne').2 e

theorem sum_map_sub_div (l : List ℝ) (c d : ℝ) : (l.map fun x => (x - c) / d).sum = (l.sum - l.length * c) / d := by
  induction l with
  | nil => simp
  | cons a l ih => simp [ih]; ring

theorem sum_map_div (l : List ℝ) (d : ℝ) : (l.map fun x => x / d).sum = l.sum / d := by
  induction l with
  | nil => simp
  | cons a l ih => simp [ih]; ring

theorem mean_standard {l : List ℝ} (hl : l ≠ []) : mean (l.map fun x => (x - mean l) / std l) = 0 := by
  have : (l.length : ℝ) ≠ 0 := by simp [hl]
  unfold mean
  rw [sum_map_sub_div]
  have e : (l.sum - l.length * (l.sum / l.length)) = 0 := by field_simp; ring
  rw [e]; simp

theorem std_standard {l : List ℝ} (h : std l ≠ 0) (hl : l ≠ []) : std (l.map fun x => (x - mean l) / std l) = 1 := by
  have hm := mean_standard hl
  have hv : mean (l.map fun x => (x - mean l) ^ 2) = std l ^ 2 := by
    rw [std, Real.sq_sqrt]
    unfold mean
    apply div_nonneg _ (by simp)
    apply List.sum_nonneg
    intro y hy
    obtain ⟨z, -, rfl⟩ := List.mem_map.1 hy
    positivity
  rw [std, hm, List.map_map]
  have e : (fun x => (x - 0) ^ 2) ∘ (fun x => (x - mean l) / std l) = fun x => (fun z => z / std l ^ 2) ((fun x => (x - mean l) ^ 2) x) := by
    funext x
    simp [div_pow]
  have e2 : l.map ((fun x => (x - 0) ^ 2) ∘ (fun x => (x - mean l) / std l)) = (l.map fun x => (x - mean l) ^ 2).map fun z => z / std l ^ 2 := by
    rw [e, List.map_map]; rfl
  rw [e2]
  have e3 : mean ((l.map fun x => (x - mean l) ^ 2).map fun z => z / std l ^ 2) = mean (l.map fun x => (x - mean l) ^ 2) / std l ^ 2 := by
    simp only [mean, sum_map_div, List.length_map]
    ring
  rw [e3, hv, div_self (pow_ne_zero _ h), Real.sqrt_one]

/-- **C71** Standardised training data have mean zero and standard deviation one. -/
theorem C71_standardize {s s' : Scaler} {data : List ℝ} {lo hi : ℝ} (h : fit s data .standardize lo hi = (s', none))
    (hs : ∃ x ∈ data, ∃ y ∈ data, x ≠ y) :
    ∃ g : ℝ → ℝ, (∀ x, transform s' x = .ok (some (g x))) ∧ mean (data.map g) = 0 ∧ std (data.map g) = 1 := by
  have hd : data ≠ [] := by rintro rfl; simp at hs
  obtain ⟨a, l, p, rfl, hp, hmeth, hpar, -⟩ := fit_ok h hd
  simp only [fitParams, Option.some.injEq] at hp
  subst hp
  obtain ⟨u, hu, v, hv, hne⟩ := hs
  have hp := std_ne hu hv hne
  refine ⟨fun x => (x - mean (a :: l)) / std (a :: l), fun x => ?_, mean_standard hd, std_standard hp hd⟩
  simp only [transform, hmeth, two, param, hpar, List.getElem?_cons_zero, List.getElem?_cons_succ, quot_ne hp]

/-- **C71** An object that was never fitted refuses to transform in either direction. -/
theorem C71_unfitted (x : ℝ) : transform Scaler.new x = .error .assertion ∧ inv Scaler.new x = .error .assertion := ⟨rfl, rfl⟩

/-- **C71** An unknown method is refused, and so is an empty range. -/
theorem C71_refused (s : Scaler) (data : List ℝ) (lo hi : ℝ) :
    (fit s data .other lo hi).2 = some .value ∧ (∀ m, ranged m = true → hi ≤ lo → (fit s data m lo hi).2 = some .assertion) := by
  constructor
  · cases data <;> simp [fit, ranged, fitParams]
  · intro m hm hlo
    simp [fit, hm, not_lt.2 hlo]

/-- **C71 (violated)** The refusal of an unknown method is not lasting: the unknown name has already been stored, so the object that refused now
passes every number through unchanged in both directions instead of raising (l.65 before l.97). -/
theorem C71_unknown_method_violated (data : List ℝ) (lo hi x : ℝ) :
    (fit Scaler.new data .other lo hi).2 = some .value ∧
      transform (fit Scaler.new data .other lo hi).1 x = .ok (some x) ∧ inv (fit Scaler.new data .other lo hi).1 x = .ok (some x) := by
  refine ⟨(C71_refused _ _ _ _).1, ?_, ?_⟩ <;> cases data <;> simp [fit, ranged, fitParams, transform, inv]

/-- **C71 (violated)** A feature that is constant over the training data (any constant, any number of data) is fitted without complaint, but scaling it — even
the very training data — gives no number, so the value is lost on the way back. -/
theorem C71_constant_violated (c lo hi : ℝ) (n : ℕ) (hlt : lo < hi) :
    (∃ s', fit Scaler.new (List.replicate (n + 1) c) .minMax lo hi = (s', none) ∧ ∀ x, roundTrip s' x = .ok none) ∧
      (∃ s', fit Scaler.new (List.replicate (n + 1) c) .standardize lo hi = (s', none) ∧ ∀ x, roundTrip s' x = .ok none) := by
  have hmin : minL c (List.replicate n c) = c := by
    have := minL_mem c (List.replicate n c)
    rw [← List.replicate_succ] at this
    exact List.eq_of_mem_replicate this
  have hmax : maxL c (List.replicate n c) = c := by
    have := maxL_mem c (List.replicate n c)
    rw [← List.replicate_succ] at this
    exact List.eq_of_mem_replicate this
  have hmean : mean (c :: List.replicate n c) = c := by
    rw [← List.replicate_succ, mean, List.sum_replicate, List.length_replicate, nsmul_eq_mul]
    have : ((n + 1 : ℕ) : ℝ) ≠ 0 := by positivity
    field_simp
  have hstd : std (c :: List.replicate n c) = 0 := by
    rw [std, hmean, ← List.replicate_succ, List.map_replicate]
    simp [mean]
  constructor
  · refine ⟨_, by simp [fit, ranged, hlt, List.replicate_succ, fitParams]; rfl, fun x => ?_⟩
    simp [roundTrip, transform, two, param, withRange, toRange, quot, hmin, hmax]
  · refine ⟨_, by simp [fit, ranged, List.replicate_succ, fitParams]; rfl, fun x => ?_⟩
    simp [roundTrip, transform, two, param, quot, hstd]

/-- **C71 (violated)** One training value outside the domain of the logarithm is accepted by `fit`, and afterwards no number at all is scaled. -/
theorem C71_log_domain_violated {s : Scaler} {data : List ℝ} (lo hi : ℝ) {b : ℝ} (hb : b ∈ data) (hneg : b ≤ 0) :
    (fit s data .logStandardize lo hi).2 = none ∧ ∀ x, transform (fit s data .logStandardize lo hi).1 x = .ok none := by
  have hl : logs data = none := by
    unfold logs
    induction data with
    | nil => simp at hb
    | cons a l ih =>
      rw [List.mapM_cons]
      rcases List.mem_cons.1 hb with rfl | hb
      · simp [log10, not_lt.2 hneg]
      · rw [ih hb]
        cases log10 a <;> simp
  cases data with
  | nil => simp at hb
  | cons a l =>
    refine ⟨by simp [fit, ranged, fitParams], fun x => ?_⟩
    simp [fit, ranged, fitParams, transform, two, param, hl]

/-- The hypotheses are met: temperatures scaled logarithmically to [-1, 1]. -/
example : ∃ s', fit Scaler.new [10, 1000, 100] .logMinMax (-1) 1 = (s', none) ∧ roundTrip s' 50 = .ok (some 50) ∧
    ∀ x ∈ [(10 : ℝ), 1000, 100], ∃ z, transform s' x = .ok (some z) ∧ -1 ≤ z ∧ z ≤ 1 := by
  obtain ⟨s', h⟩ : ∃ s', fit Scaler.new [10, 1000, 100] .logMinMax (-1) 1 = (s', none) := by
    refine ⟨(fit Scaler.new [10, 1000, 100] .logMinMax (-1) 1).1, Prod.ext rfl ?_⟩
    norm_num [fit, ranged, fitParams]
  have hd : ∀ x ∈ [(10 : ℝ), 1000, 100], domain .logMinMax x := by
    intro x hx
    simp only [List.mem_cons, List.not_mem_nil, or_false] at hx
    rcases hx with rfl | rfl | rfl <;> norm_num [domain, kind]
  have hs : ∃ x ∈ [(10 : ℝ), 1000, 100], ∃ y ∈ [(10 : ℝ), 1000, 100], x ≠ y := ⟨10, by simp, 100, by simp, by norm_num⟩
  exact ⟨_, h, C71_round_trip h (by simp) hd hs (by norm_num [domain, kind]), (C71_range rfl h hd hs).1⟩

example : ∃ s', fit Scaler.new [1, 2, 6] .standardize 0 0 = (s', none) ∧ roundTrip s' (-7) = .ok (some (-7)) := by
  obtain ⟨s', h⟩ : ∃ s', fit Scaler.new [1, 2, 6] .standardize 0 0 = (s', none) := by
    refine ⟨(fit Scaler.new [1, 2, 6] .standardize 0 0).1, Prod.ext rfl ?_⟩
    simp [fit, ranged, fitParams]
  exact ⟨_, h, C71_round_trip h (by simp) (by intro x _; simp [domain, kind]) ⟨1, by simp, 2, by simp, by norm_num⟩ (by simp [domain, kind])⟩

end

end Verif.Scale
