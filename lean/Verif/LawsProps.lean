import Verif.Laws
import Verif.DistribProps
import Verif.NormPopProps
import Verif.InvSamplerProps
import Mathlib.MeasureTheory.Integral.Bochner.Set
import Mathlib.MeasureTheory.Measure.Lebesgue.Integral
/-!
Property theorems for C158 (the densities used for the weights are those the initial values are drawn from).
-/
namespace Verif.Laws
open Real MeasureTheory Set intervalIntegral Verif.Distrib

/-- A power law is drawn from its own density. -/
theorem follows_power (alpha a b : ℝ) (ha : 0 < a) (hab : a < b) (h1 : alpha ≠ 1) :
    Follows (.map (powerImfRvs alpha a b)) (powerImfPdf alpha a b) a b := by
  refine ⟨C25_power_law_imf alpha a b ha hab, fun u h0 h2 => ?_⟩
  obtain ⟨x, y, z⟩ := C25_power_law_imf_rvs alpha a b u ha hab h1 h0 h2
  exact ⟨x, y.le, z⟩

theorem follows_kroupa (a b : ℝ) (n : ℕ) (hn : 2 ≤ n) (ha : 0 < a) (hab : a < b) :
    Follows (.table (kroupaRaw 0.3 1.3 2.3 0.08 0.5 a) a b n) (kroupaPdf 0.3 1.3 2.3 0.08 0.5 a b) a b := by
  have hd : IsDensity (kroupaPdf 0.3 1.3 2.3 0.08 0.5 a b) a b :=
    C25_broken_power_law_imf 0.3 1.3 2.3 0.08 0.5 a b ha hab (by norm_num) (by norm_num)
  refine ⟨hd, rfl, rfl, fun u v hu0 hu1 hv0 hv1 => ?_⟩
  have hmem : ∀ x ∈ grid a b n, a ≤ x ∧ x ≤ b := fun x hx => grid_mem hab hn hx
  have hval := points_valid (kroupaRaw 0.3 1.3 2.3 0.08 0.5 a) (grid a b n) (grid_pairwise hab hn)
    (fun x hx => (kroupa_pos ha (ha.trans_le (hmem x hx).1)).le)
  have hlen : 2 ≤ (points (kroupaRaw 0.3 1.3 2.3 0.08 0.5 a) (grid a b n)).length := by
    unfold points grid
    rw [List.length_map, List.length_map, List.length_range]
    exact hn
  obtain ⟨s, i, p0, p1, h1, h2, h3, h4, h5, h6⟩ := InvSampler.C56_inverse _ u v hval hlen hu0 hu1 hv0 hv1
  -- the two ends of the bin are neighbouring grid points
  unfold points at h2 h3
  rw [List.getElem?_map, Option.map_eq_some_iff] at h2 h3
  obtain ⟨x0, g0, rfl⟩ := h2
  obtain ⟨x1, g1, rfl⟩ := h3
  have m0 := hmem x0 (List.mem_of_getElem? g0)
  have m1 := hmem x1 (List.mem_of_getElem? g1)
  have hlt : x0 < x1 := by
    obtain ⟨l0, e0⟩ := List.getElem?_eq_some_iff.1 g0
    obtain ⟨l1, e1⟩ := List.getElem?_eq_some_iff.1 g1
    have := List.pairwise_iff_getElem.1 (grid_pairwise hab hn) i (i + 1) l0 l1 (Nat.lt_succ_self i)
    rwa [e0, e1] at this
  refine ⟨s, h1, m0.1.trans h4, h5.trans m1.2, ?_⟩
  have h7 := h6 (kroupa_anti ha (ha.trans_le m0.1) hlt).ne'
  -- the density is the curve divided by its integral
  set I := ∫ t in a..b, kroupaRaw 0.3 1.3 2.3 0.08 0.5 a t with hI
  have hsc : ∀ x ∈ grid a b n, kroupaPdf 0.3 1.3 2.3 0.08 0.5 a b x = (1 / I) * kroupaRaw 0.3 1.3 2.3 0.08 0.5 a x := by
    intro x hx
    unfold kroupaPdf quadPdf
    rw [if_pos (by simpa using hmem x hx)]
    ring
  rw [areaTo_scale _ _ _ s _ hsc, total_scale _ _ _ _ hsc, h7]
  ring

/-- C158, primary masses: with limits given, and no options for the single initial mass function, each of the three initial mass functions that can be drawn from
is weighted with the density the masses are drawn from. -/
theorem C158_primary (k : Kw) (s : String) (a b : ℝ) (hs : k.primary = some s) (hmin : k.mmin = some a) (hmax : k.mmax = some b) (hown : k.own s = none)
    (h : s = "Salpeter" ∨ s = "Kroupa1993" ∨ s = "Kroupa2001") (ha : 0 < a) (hab : a < b) :
    ∃ f d, weightImf k = .ok f ∧ drawImf k = .ok d ∧ Follows d f a b := by
  have hge : ¬ a ≥ b := not_le.2 hab
  rcases h with h | h | h <;> subst h
  · refine ⟨powerImfPdf 2.35 a b, .map (powerImfRvs 2.35 a b), ?_, ?_, follows_power _ a b ha hab (by norm_num)⟩
    · simp [weightImf, hs, hmin, hmax, need, otherNames, hown, hge, bind, Except.bind]
    · simp [drawImf, hs, hmin, hmax, hab]
  · refine ⟨powerImfPdf 2.7 a b, .map (powerImfRvs 2.7 a b), ?_, ?_, follows_power _ a b ha hab (by norm_num)⟩
    · simp [weightImf, hs, hmin, hmax, need, otherNames, hown, hge, bind, Except.bind]
    · simp [drawImf, hs, hmin, hmax, hab]
  · refine ⟨_, _, ?_, ?_, follows_kroupa a b 2000 (by norm_num) ha hab⟩
    · simp [weightImf, hs, hmin, hmax, need, otherNames, hge, bind, Except.bind]
    · simp [drawImf, hs, hmin, hmax, hab]

example : ∃ f d, weightImf { primary := some "Kroupa2001", mmin := some 7, mmax := some 120 } = .ok f ∧
    drawImf { primary := some "Kroupa2001", mmin := some 7, mmax := some 120 } = .ok d ∧ Follows d f 7 120 :=
  C158_primary _ "Kroupa2001" 7 120 rfl rfl rfl rfl (Or.inr (Or.inr rfl)) (by norm_num) (by norm_num)

/-- C158, mass ratios: flat mass ratios between the limits of secondary masses are weighted with the density they are drawn from, for every primary mass above the limit. -/
theorem C158_ratio (k : Kw) (m1 a b : ℝ) (hs : k.secondary = some "flat_mass_ratio") (hmin : k.smin = some a) (hmax : k.smax = some b)
    (hq1 : k.qmin = none) (hq2 : k.qmax = none) (hm : a < m1) (hab : a < b) (hb : 0 < b) (h1 : 0 < m1) :
    ∃ f d, weightRatio k = .ok f ∧ drawRatio k m1 = .ok d ∧
      Follows d (fun q => f q m1) (max (a / m1) 0) (min (b / m1) 1) := by
  have hlt : max (a / m1) 0 < min (b / m1) 1 := by
    rw [max_lt_iff, lt_min_iff, lt_min_iff, div_lt_div_iff_of_pos_right h1, div_lt_one h1]
    exact ⟨⟨hab, hm⟩, by positivity, one_pos⟩
  have hl : limitsOk (max (a / m1) 0) (min (b / m1) 1) :=
    ⟨⟨le_max_right _ _, lt_of_lt_of_le hlt (min_le_right _ _)⟩, ⟨lt_of_le_of_lt (le_max_right _ _) hlt, min_le_right _ _⟩, hlt⟩
  refine ⟨fun q m => NormPop.flatQPdf a b q m, .map (uniformRvs (max (a / m1) 0) (min (b / m1) 1)), ?_, ?_, ?_⟩
  · simp [weightRatio, hs, hmin, hmax, hq1, hq2, need, bind, Except.bind]
  · simp [drawRatio, hs, hmin, hmax, not_lt.2 hm.le, hl]
  · refine ⟨NormPop.C55_mass_ratio_density a b m1 hm hab hb h1, fun u hu0 hu1 => ?_⟩
    obtain ⟨x, y, _⟩ := C25_uniform_rvs _ _ u hlt hu0 hu1
    refine ⟨x, y.le, ?_⟩
    set lo := max (a / m1) 0 with hlo
    set hi := min (b / m1) 1 with hhi
    have hd : 0 < hi - lo := by linarith
    rw [intervalIntegral.integral_of_le x, setIntegral_congr_fun (g := fun _ => 1 / (hi - lo)) measurableSet_Ioc,
      ← intervalIntegral.integral_of_le x, intervalIntegral.integral_const, smul_eq_mul]
    · unfold uniformRvs; field_simp; ring
    · intro t ht
      simp only [NormPop.flatQPdf]
      rw [if_pos]
      exact ⟨ht.1, ht.2.trans y.le⟩

example : ∃ f d, weightRatio { secondary := some "flat_mass_ratio", smin := some 0.35, smax := some 120 } = .ok f ∧
    drawRatio { secondary := some "flat_mass_ratio", smin := some 0.35, smax := some 120 } 20 = .ok d ∧
    Follows d (fun q => f q 20) (max (0.35 / 20) 0) (min (120 / 20) 1) :=
  C158_ratio _ 20 0.35 120 rfl rfl rfl rfl rfl (by norm_num) (by norm_num) (by norm_num) (by norm_num)

/-- C158, binaries and single stars: with a constant fraction the probability that a system is drawn as a binary, or as a single star, is the weight of that kind. -/
theorem C158_fraction (k : Kw) (m1 f : ℝ) (hs : k.fracScheme = some "const") (hf : k.frac = some f) (h0 : 0 ≤ f) (h1 : f ≤ 1) :
    ∃ w, weightFraction k = .ok w ∧ drawFraction k m1 = .ok f ∧
      ∀ kind, volume {u | u ∈ Ico (0 : ℝ) 1 ∧ isBinary f u = kind} = ENNReal.ofReal (w kind) := by
  refine ⟨fun binary => if binary then f else 1 - f, ?_, ?_, ?_⟩
  · simp [weightFraction, hs, hf, need, bind, Except.bind]
  · simp [drawFraction, hs, hf]
  · intro kind
    cases kind
    · have e : {u | u ∈ Ico (0 : ℝ) 1 ∧ isBinary f u = false} = Ioo f 1 := by
        ext u
        simp only [isBinary, mem_setOf_eq, mem_Ico, mem_Ioo, decide_eq_false_iff_not, not_not]
        exact ⟨fun h => ⟨h.2, h.1.2⟩, fun h => ⟨⟨h0.trans h.1.le, h.2⟩, h.1⟩⟩
      rw [e, Real.volume_Ioo]; simp
    · rcases h1.lt_or_eq with h1 | h1
      · have e : {u | u ∈ Ico (0 : ℝ) 1 ∧ isBinary f u = true} = Icc 0 f := by
          ext u
          simp only [isBinary, mem_setOf_eq, mem_Ico, mem_Icc, decide_eq_true_eq, not_lt, gt_iff_lt]
          exact ⟨fun h => ⟨h.1.1, h.2⟩, fun h => ⟨⟨h.1, lt_of_le_of_lt h.2 h1⟩, h.2⟩⟩
        rw [e, Real.volume_Icc]; simp
      · have e : {u | u ∈ Ico (0 : ℝ) 1 ∧ isBinary f u = true} = Ico 0 1 := by
          ext u
          simp only [isBinary, mem_setOf_eq, mem_Ico, decide_eq_true_eq, not_lt, gt_iff_lt]
          exact ⟨fun h => h.1, fun h => ⟨h, by rw [h1]; exact h.2.le⟩⟩
        rw [e, Real.volume_Ico, h1]; simp

theorem sana_integrable (a b : ℝ) (h1 : lg a < 0.15) (h2 : (0.15 : ℝ) < lg b) :
    IntervalIntegrable (sanaRaw a b true) volume (lg a) (lg b) ∧ ∀ x, lg a ≤ x → x ≤ lg b → 0 < sanaRaw a b true x := by
  have hk : (0 : ℝ) < (0.15 : ℝ) ^ (-(0.55 : ℝ)) := Real.rpow_pos_of_pos (by norm_num) _
  have hA : 0 < (0.15 : ℝ) ^ (-(0.55 : ℝ)) * (0.15 - lg a) := mul_pos hk (by linarith)
  have hB : 0 < 1 / (1 - (0.55 : ℝ)) * ((lg b) ^ (1 - (0.55 : ℝ)) - (0.15 : ℝ) ^ (1 - (0.55 : ℝ))) := by
    apply mul_pos (by norm_num)
    have := Real.rpow_lt_rpow (by norm_num : (0 : ℝ) ≤ 0.15) h2 (by norm_num : (0 : ℝ) < 1 - 0.55)
    linarith
  have hC := one_div_pos.2 (add_pos hA hB)
  constructor
  · have hsplit : IntervalIntegrable (sanaRaw a b true) volume (lg a) 0.15 ∧ IntervalIntegrable (sanaRaw a b true) volume 0.15 (lg b) := by
      constructor
      · have e : IntervalIntegrable (fun _ : ℝ => sanaRaw a b true (lg a)) volume (lg a) 0.15 := intervalIntegrable_const
        rw [intervalIntegrable_iff_integrableOn_Ioo_of_le h1.le] at e ⊢
        refine e.congr_fun (fun x hx => ?_) measurableSet_Ioo
        simp only [sanaRaw, if_true]
        rw [if_pos ⟨le_refl _, h1⟩, if_pos ⟨hx.1.le, hx.2⟩]
      · have e := (intervalIntegrable_rpow_pos (by norm_num : (0 : ℝ) < 0.15) h2.le (-(0.55 : ℝ))).const_mul
          (1 / ((0.15 : ℝ) ^ (-(0.55 : ℝ)) * (0.15 - lg a) + 1 / (1 - (0.55 : ℝ)) * ((lg b) ^ (1 - (0.55 : ℝ)) - (0.15 : ℝ) ^ (1 - (0.55 : ℝ)))))
        rw [intervalIntegrable_iff_integrableOn_Ioc_of_le h2.le] at e ⊢
        refine e.congr_fun (fun x hx => ?_) measurableSet_Ioc
        simp only [sanaRaw, if_true]
        rw [if_neg (by rintro ⟨_, hc⟩; linarith [hx.1]), if_pos ⟨hx.1.le, hx.2⟩]
    exact hsplit.1.trans hsplit.2
  · intro x hx1 hx2
    simp only [sanaRaw, if_true]
    by_cases hx : x < 0.15
    · rw [if_pos ⟨hx1, hx⟩]; exact mul_pos hC hk
    · have hx' : (0.15 : ℝ) ≤ x := not_lt.1 hx
      rw [if_neg (fun h => hx h.2), if_pos ⟨hx', hx2⟩]
      exact mul_pos hC (Real.rpow_pos_of_pos (by linarith) _)

theorem follows_reject (raw : ℝ → ℝ) (lo hi : ℝ) (h : lo < hi) (hint : IntervalIntegrable raw volume lo hi) (hpos : ∀ x, lo ≤ x → x ≤ hi → 0 < raw x) :
    Follows (.reject raw lo hi) (quadPdf raw lo hi true) lo hi := by
  refine ⟨quadPdf_isDensity raw lo hi true h hint (fun x hx => hpos x hx.1.le hx.2.le) (fun x hx => (hpos x hx.1 hx.2).le), rfl, rfl, fun x h1 h2 => ?_⟩
  have area : ∀ y, lo ≤ y → y ≤ hi →
      (volume.prod volume) (regionBetween (fun _ => 0) raw (Ioc lo y)) = ENNReal.ofReal (∫ t in lo..y, raw t) := by
    intro y hy1 hy2
    have hi' : IntegrableOn raw (Ioc lo y) := by
      rw [intervalIntegrable_iff_integrableOn_Ioc_of_le h.le] at hint
      exact hint.mono_set (Ioc_subset_Ioc_right hy2)
    rw [volume_regionBetween_eq_integral integrableOn_zero hi' measurableSet_Ioc (fun t ht => (hpos t ht.1.le (ht.2.trans hy2)).le),
      intervalIntegral.integral_of_le hy1]
    simp
  have hI : 0 < ∫ t in lo..hi, raw t := intervalIntegral_pos_of_pos_on hint (fun t ht => hpos t ht.1.le ht.2.le) h
  have hx0 : 0 ≤ ∫ t in lo..x, raw t := intervalIntegral.integral_nonneg h1 (fun t ht => (hpos t ht.1 (ht.2.trans h2)).le)
  rw [area x h1 h2, area hi h.le (le_refl _), quadPdf_integral raw lo hi true h1 h2, ← ENNReal.ofReal_mul (by positivity)]
  congr 1
  field_simp

/-- C158, periods: for every primary mass, the periods drawn after Sana et al. (2012) follow the density in the logarithm of the period which is used for the weights. -/
theorem C158_period (K : ℝ) (k : Kw) (m1 q a b : ℝ) (ho : k.orbital = some "period") (hs : k.periodScheme = some "Sana+12_period_extended")
    (hmin : k.pmin = some a) (hmax : k.pmax = some b) (ha : 0 < a) (h1 : lg a < 0.15) (h2 : (0.15 : ℝ) < lg b) (hab : a < b) :
    ∃ f d, weightOrbit K k = .ok f ∧ drawPeriod k m1 = .ok d ∧ Follows d (fun lp => f lp m1 q) (lg a) (lg b) := by
  have hlt : lg a < lg b := h1.trans h2
  have hw : weightOrbit K k = .ok (fun lp m1 _ => sanaPdf a b m1 lp) := by
    simp [weightOrbit, ho, hs, hmin, hmax, need, bind, Except.bind, not_le.2 ha, not_le.2 hab]
  by_cases hm : m1 ≤ 15
  · refine ⟨_, .map (uniformRvs (lg a) (lg b)), hw, ?_, ?_⟩
    · simp [drawPeriod, hs, hmin, hmax, not_le.2 ha, not_le.2 hab, hm]
    · refine ⟨C25_sana_period a b m1 ha h1 h2, fun u hu0 hu1 => ?_⟩
      obtain ⟨x, y, _⟩ := C25_uniform_rvs _ _ u hlt hu0 hu1
      refine ⟨x, y.le, ?_⟩
      have hd : 0 < lg b - lg a := by linarith
      unfold sanaPdf
      rw [quadPdf_integral _ _ _ _ x y.le]
      simp only [sanaRaw, decide_eq_true_eq, not_lt.2 hm, if_false]
      simp only [intervalIntegral.integral_const, smul_eq_mul]
      unfold uniformRvs
      field_simp
      ring
  · have hm' : 15 < m1 := not_le.1 hm
    refine ⟨_, .reject (sanaRaw a b true) (lg a) (lg b), hw, ?_, ?_⟩
    · simp [drawPeriod, hs, hmin, hmax, not_le.2 ha, not_le.2 hab, hm]
    · have e : (fun lp => sanaPdf a b m1 lp) = quadPdf (sanaRaw a b true) (lg a) (lg b) true := by
        unfold sanaPdf
        rw [decide_eq_true hm']
      show Follows _ (fun lp => sanaPdf a b m1 lp) _ _
      rw [e]
      obtain ⟨hi, hp⟩ := sana_integrable a b h1 h2
      exact follows_reject _ _ _ hlt hi hp

/-- Limits of periods such as 0.35 and 1000 days meet the hypotheses. -/
example : lg 0.35 < 0.15 ∧ (0.15 : ℝ) < lg 1000 := by
  have h10 : (0 : ℝ) < Real.log 10 := Real.log_pos (by norm_num)
  constructor
  · unfold lg
    have : Real.log 0.35 < 0 := Real.log_neg (by norm_num) (by norm_num)
    have h := div_neg_of_neg_of_pos this h10
    linarith
  · unfold lg
    have : Real.log 1000 = 3 * Real.log 10 := by
      rw [show (1000 : ℝ) = 10 ^ 3 by norm_num, Real.log_pow]; norm_num
    rw [this, mul_div_assoc, div_self h10.ne']
    norm_num

/-- C158: schemes only one side knows end in an error. A density for weights exists only for constant fractions, for the two schemes of periods and for one of separations;
drawing is possible only for three initial mass functions, two schemes of secondary masses, two of fractions and one of periods. -/
theorem C158_schemes (K : ℝ) (normal : ℝ → ℝ → ℝ → ℝ → ℝ → ℝ) (k : Kw) (m1 : ℝ) :
    (∀ w, weightFraction k = .ok w → k.fracScheme = some "const") ∧
    (∀ w, weightOrbit K k = .ok w →
      (k.orbital = some "period" ∧ (k.periodScheme = some "Sana+12_period_extended" ∨ k.periodScheme = some "power_law")) ∨
      (k.orbital = some "separation" ∧ k.sepScheme = some "log_uniform")) ∧
    (∀ d, drawImf k = .ok d → k.primary.getD "Salpeter" ∈ ["Salpeter", "Kroupa1993", "Kroupa2001"]) ∧
    (∀ d, drawRatio k m1 = .ok d → k.secondary.getD "flat_mass_ratio" ∈ ["flat_mass_ratio", "q=1"]) ∧
    (∀ d, drawFraction k m1 = .ok d → k.fracScheme.getD "const" ∈ ["const", "Moe+17-massdependent"]) ∧
    (∀ d, drawPeriod k m1 = .ok d → k.periodScheme.getD "Sana+12_period_extended" = "Sana+12_period_extended") ∧
    (∀ d, drawSeparation normal k = .ok d → k.sepScheme.getD "log_uniform" ∈ ["log_uniform", "log_normal"]) := by
  refine ⟨fun w h => ?_, fun w h => ?_, fun d h => ?_, fun d h => ?_, fun d h => ?_, fun d h => ?_, fun d h => ?_⟩
  · cases hs : k.fracScheme with
    | none => simp [weightFraction, hs, need, bind, Except.bind] at h
    | some s =>
      by_cases hc : s = "const"
      · rw [hc]
      · simp [weightFraction, hs, need, bind, Except.bind, hc] at h
  · cases ho : k.orbital with
    | none => simp [weightOrbit, ho, need, bind, Except.bind] at h
    | some o =>
      by_cases hp : o = "period"
      · cases hs : k.periodScheme with
        | none => simp [weightOrbit, ho, hs, need, bind, Except.bind, hp] at h
        | some s =>
          by_cases h1 : s = "Sana+12_period_extended"
          · exact Or.inl ⟨by rw [hp], Or.inl (by rw [h1])⟩
          · by_cases h2 : s = "power_law"
            · exact Or.inl ⟨by rw [hp], Or.inr (by rw [h2])⟩
            · simp [weightOrbit, ho, hs, need, bind, Except.bind, hp, h1, h2] at h
      · by_cases hq : o = "separation"
        · cases hs : k.sepScheme with
          | none => simp [weightOrbit, ho, hs, need, bind, Except.bind, hq] at h
          | some s =>
            by_cases h1 : s = "log_uniform"
            · exact Or.inr ⟨by rw [hq], by rw [h1]⟩
            · simp [weightOrbit, ho, hs, need, bind, Except.bind, hq, h1] at h
        · simp [weightOrbit, ho, need, bind, Except.bind, hp, hq] at h
  · by_contra hc
    unfold drawImf at h
    dsimp only at h
    rw [if_pos hc] at h
    cases h
  · by_contra hc
    unfold drawRatio at h
    dsimp only at h
    rw [if_pos hc] at h
    cases h
  · by_contra hc
    unfold drawFraction at h
    dsimp only at h
    rw [if_pos hc] at h
    cases h
  · by_contra hc
    unfold drawPeriod at h
    dsimp only at h
    rw [if_neg hc] at h
    cases h
  · by_contra hc
    simp only [List.mem_cons, List.not_mem_nil, or_false, not_or] at hc
    unfold drawSeparation at h
    dsimp only at h
    rw [if_neg hc.1, if_neg hc.2] at h
    cases h

/-- C158: the two schemes of initial values that can be drawn and for which weights cannot be computed, and the three which have weights and cannot be drawn. -/
theorem C158_one_sided (K m1 : ℝ) (k : Kw) :
    (k.fracScheme = some "Moe+17-massdependent" → weightFraction k = .error .value ∧ ∃ f, drawFraction k m1 = .ok f) ∧
    (k.orbital = some "separation" → k.sepScheme = some "log_normal" → weightOrbit K k = .error .value) ∧
    (k.primary = some "Chabrier2003" → drawImf k = .error .value) ∧
    (k.secondary = some "power_law_mass_ratio" → drawRatio k m1 = .error .value) ∧
    (k.periodScheme = some "power_law" → drawPeriod k m1 = .error .value) := by
  refine ⟨fun h => ⟨?_, ?_⟩, fun h1 h2 => ?_, fun h => ?_, fun h => ?_, fun h => ?_⟩
  · simp [weightFraction, h, need, bind, Except.bind]
  · simp [drawFraction, h]
  · simp [weightOrbit, h1, h2, need, bind, Except.bind]
  · simp [drawImf, h]
  · simp [drawRatio, h]
  · simp [drawPeriod, h]

/-- C158: what is drawn does not depend on options of a single initial mass function, nor on limits or slopes of mass ratios. -/
theorem C158_draw_ignores (k : Kw) (m1 : ℝ) (o : String → Option ℝ) (a b r : Option ℝ) :
    drawImf { k with own := o } = drawImf k ∧ drawRatio { k with qmin := a, qmax := b, qslope := r } m1 = drawRatio k m1 := ⟨rfl, rfl⟩

/-- C158 is violated by options of a single initial mass function: they change the density of the weights and not the masses that are drawn. Whenever the largest mass is at least
three times the smallest, weights of a flat distribution (slope 0) do not belong to the masses drawn. -/
theorem C158_own_option_violated (a b : ℝ) (ha : 0 < a) (hab : 3 * a ≤ b) :
    ∃ k f g, k.primary = some "Salpeter" ∧ k.mmin = some a ∧ k.mmax = some b ∧ weightImf k = .ok f ∧ drawImf k = .ok (.map g) ∧
      IsDensity f a b ∧ ∫ x in a..g (1 / 2), f x < 1 / 2 := by
  have hlt : a < b := by linarith
  refine ⟨{ primary := some "Salpeter", mmin := some a, mmax := some b, own := fun _ => some 0 }, powerImfPdf 0 a b, powerImfRvs 2.35 a b,
    rfl, rfl, rfl, ?_, ?_, C25_power_law_imf 0 a b ha hlt, ?_⟩
  · simp [weightImf, need, otherNames, hlt, bind, Except.bind]
  · simp [drawImf, hlt]
  · obtain ⟨x, y, _⟩ := C25_power_law_imf_rvs 2.35 a b (1 / 2) ha hlt (by norm_num) (by norm_num) (by norm_num)
    have hm := salpeter_median ha hab
    unfold powerImfPdf
    rw [quadPdf_integral _ _ _ _ x y.le]
    simp only [neg_zero, Real.rpow_zero, intervalIntegral.integral_const, smul_eq_mul, mul_one]
    have hd : 0 < b - a := by linarith
    rw [mul_one_div, div_lt_div_iff₀ hd (by norm_num)]
    linarith

/-- C158 is violated without the name of an initial mass function: masses are then drawn after Salpeter (1955), and weighted as a flat distribution, which is not even zero outside the limits. -/
theorem C158_default_violated (k : Kw) (a b : ℝ) (hs : k.primary = none) (hmin : k.mmin = some a) (hmax : k.mmax = some b) (ha : 0 < a) (hab : 3 * a ≤ b) :
    ∃ f g, weightImf k = .ok f ∧ drawImf k = .ok (.map g) ∧ ∫ x in a..g (1 / 2), f x < 1 / 2 ∧ ¬ Follows (.map g) f a b ∧ 0 < f (b + 1) := by
  have hlt : a < b := by linarith
  have hd : 0 < b - a := by linarith
  have hpos : 0 < 1 / (b - a) := one_div_pos.2 hd
  refine ⟨fun _ => 1 / (b - a), powerImfRvs 2.35 a b, ?_, ?_, ?_, ?_, hpos⟩
  · simp [weightImf, hs, hmin, hmax, need, otherNames, bind, Except.bind]
  · simp [drawImf, hs, hmin, hmax, hlt]
  · have hm := salpeter_median ha hab
    rw [intervalIntegral.integral_const, smul_eq_mul, mul_one_div, div_lt_div_iff₀ hd (by norm_num)]
    linarith
  · intro h
    have := h.1.zero_outside (b + 1) (Or.inr (by linarith))
    linarith

/-- C158 is violated by stars of equal masses: all mass ratios drawn are 1, and the weights are those of mass ratios spread evenly between 0 and 1; the mean mass of a binary
counts as one and a half times the mass of the primary, where every binary drawn has twice that mass. -/
theorem C158_equal_masses_violated (k : Kw) (m1 : ℝ) (hs : k.secondary = some "q=1") (hm : k.smin.getD 0.35 ≤ m1) :
    ∃ f g, weightRatio k = .ok f ∧ drawRatio k m1 = .ok (.map g) ∧ (∀ u, g u = 1) ∧ ¬ Follows (.map g) (fun q => f q m1) 0 1 ∧
      ∫ q in (0 : ℝ)..1, (m1 + m1 * q) * f q m1 = 3 / 2 * m1 ∧ ∀ u, m1 + m1 * g u = 2 * m1 := by
  refine ⟨fun q _ => flatPdf 0 1 q, fun _ => 1, ?_, ?_, fun _ => rfl, ?_, ?_, fun _ => by ring⟩
  · simp [weightRatio, hs, need, bind, Except.bind]
  · simp [drawRatio, hs, not_lt.2 hm]
  · rintro ⟨_, h⟩
    have := (h 0 le_rfl one_pos).2.2
    dsimp only at this
    rw [NormPop.C55_fixed_limits_partial 0 1 one_pos] at this
    exact absurd this one_ne_zero
  · have e : ∫ q in (0 : ℝ)..1, (m1 + m1 * q) * flatPdf 0 1 q = ∫ q in (0 : ℝ)..1, (m1 + m1 * q) := by
      rw [intervalIntegral.integral_of_le zero_le_one, intervalIntegral.integral_of_le zero_le_one]
      apply setIntegral_congr_fun measurableSet_Ioc
      intro q hq
      simp only [flatPdf, quadPdf]
      rw [if_pos ⟨by simpa using hq.1, hq.2⟩]
      simp
    dsimp only
    rw [e, intervalIntegral.integral_add intervalIntegrable_const (Continuous.intervalIntegrable (by fun_prop) _ _),
      intervalIntegral.integral_const_mul, integral_id]
    simp
    ring

/-- C158 is violated by limits of mass ratios: they restrict the density of the weights and not the mass ratios drawn, so systems are drawn whose density, and with it whose
weight in every requested population, is zero. -/
theorem C158_limits_violated (k : Kw) (m1 a b lo hi : ℝ) (hs : k.secondary = some "flat_mass_ratio") (hmin : k.smin = some a) (hmax : k.smax = some b)
    (hq1 : k.qmin = some lo) (hq2 : k.qmax = some hi) (hok : limitsOk lo hi) (hm : a < m1) (hab : a < b) (hb : 0 < b) (h1 : 0 < m1)
    (hlo : max (a / m1) 0 < lo) :
    ∃ f g, weightRatio k = .ok f ∧ drawRatio k m1 = .ok (.map g) ∧ (∃ u, 0 ≤ u ∧ u < 1 ∧ f (g u) m1 = 0) ∧
      ∀ sim pop : NormPop.Params, sim.qpdf = f → ∀ (M x y P u : ℝ), f (g u) m1 = 0 → NormPop.weight sim pop M x y ⟨true, m1, g u, P⟩ = 0 := by
  have hlt : max (a / m1) 0 < min (b / m1) 1 := by
    rw [max_lt_iff, lt_min_iff, lt_min_iff, div_lt_div_iff_of_pos_right h1, div_lt_one h1]
    exact ⟨⟨hab, hm⟩, by positivity, one_pos⟩
  have hl : limitsOk (max (a / m1) 0) (min (b / m1) 1) :=
    ⟨⟨le_max_right _ _, lt_of_lt_of_le hlt (min_le_right _ _)⟩, ⟨lt_of_le_of_lt (le_max_right _ _) hlt, min_le_right _ _⟩, hlt⟩
  refine ⟨fun q _ => flatPdf lo hi q, uniformRvs (max (a / m1) 0) (min (b / m1) 1), ?_, ?_, ⟨0, le_rfl, one_pos, ?_⟩, ?_⟩
  · simp [weightRatio, hs, hq1, hq2, need, bind, Except.bind, hok]
  · simp [drawRatio, hs, hmin, hmax, not_lt.2 hm.le, hl]
  · have e : uniformRvs (max (a / m1) 0) (min (b / m1) 1) 0 = max (a / m1) 0 := by unfold uniformRvs; ring
    rw [e]
    exact (C25_flat_mass_ratio lo hi hok.2.2).zero_outside _ (Or.inl hlo)
  · intro sim pop hq M x y P u h0
    apply NormPop.C49_outside
    right
    dsimp only at h0
    simp only [NormPop.pdf, if_true, hq]
    rw [h0]
    ring

example : limitsOk 0.1 1 ∧ max ((0.35 : ℝ) / 20) 0 < 0.1 := by
  unfold limitsOk; norm_num

/-- C158: giving only one of the two limits of mass ratios ends the computation of weights with a missing entry. -/
theorem C158_one_limit (k : Kw) (x : ℝ) (hs : k.secondary = some "flat_mass_ratio")
    (h : (k.qmin = some x ∧ k.qmax = none) ∨ (k.qmin = none ∧ k.qmax = some x)) : weightRatio k = .error .key := by
  rcases h with ⟨h1, h2⟩ | ⟨h1, h2⟩ <;> simp [weightRatio, hs, h1, h2, need, bind, Except.bind]

/-- Which separations can be drawn: log-uniform ones between two positive limits in order, lognormal ones with mean and width (limits that coincide are let through). Nothing else,
and a refusal is a ValueError. -/
theorem C158_separation_exact (normal : ℝ → ℝ → ℝ → ℝ → ℝ → ℝ) (k : Kw) :
    ((∃ d, drawSeparation normal k = .ok d) ↔
      (k.sepScheme.getD "log_uniform" = "log_uniform" ∧ 0 < k.amin.getD 5 ∧ k.amin.getD 5 < k.amax.getD (10 ^ 5)) ∨
      (k.sepScheme.getD "log_uniform" = "log_normal" ∧ k.amin.getD 5 ≤ k.amax.getD (10 ^ 5) ∧ k.amean.isSome = true ∧ k.asigma.isSome = true)) ∧
    ∀ e, drawSeparation normal k = .error e → e = .value := by
  unfold drawSeparation
  dsimp only
  generalize k.sepScheme.getD "log_uniform" = s
  generalize k.amin.getD 5 = a
  generalize k.amax.getD (10 ^ 5) = b
  by_cases h1 : s = "log_uniform"
  · subst h1
    rw [if_pos rfl]
    by_cases h2 : a ≤ 0 ∨ b ≤ a
    · rw [if_pos h2]
      refine ⟨⟨fun ⟨d, hd⟩ => (by cases hd), fun h => ?_⟩, fun e he => by cases he; rfl⟩
      rcases h with ⟨_, h3, h4⟩ | ⟨h3, _⟩
      · rcases h2 with h2 | h2
        · exact absurd h3 (not_lt.2 h2)
        · exact absurd h4 (not_lt.2 h2)
      · exact absurd h3 (by decide)
    · rw [if_neg h2]
      push Not at h2
      exact ⟨⟨fun _ => Or.inl ⟨rfl, h2.1, h2.2⟩, fun _ => ⟨_, rfl⟩⟩, fun e he => by cases he⟩
  rw [if_neg h1]
  by_cases h2 : s = "log_normal"
  · rw [if_pos h2]
    by_cases h3 : b < a
    · rw [if_pos h3]
      refine ⟨⟨fun ⟨d, hd⟩ => (by cases hd), fun h => ?_⟩, fun e he => by cases he; rfl⟩
      rcases h with ⟨h4, _⟩ | ⟨_, h4, _⟩
      · exact absurd h4 h1
      · exact absurd h3 (not_lt.2 h4)
    · rw [if_neg h3]
      cases hm : k.amean with
      | none =>
        refine ⟨⟨fun ⟨d, hd⟩ => (by cases hd), fun h => ?_⟩, fun e he => by cases he; rfl⟩
        rcases h with ⟨h4, _⟩ | ⟨_, _, h4, _⟩
        · exact absurd h4 h1
        · cases h4
      | some m =>
        cases hsg : k.asigma with
        | none =>
          refine ⟨⟨fun ⟨d, hd⟩ => (by cases hd), fun h => ?_⟩, fun e he => by cases he; rfl⟩
          rcases h with ⟨h4, _⟩ | ⟨_, _, _, h4⟩
          · exact absurd h4 h1
          · cases h4
        | some sg => exact ⟨⟨fun _ => Or.inr ⟨h2, not_lt.1 h3, rfl, rfl⟩, fun _ => ⟨_, rfl⟩⟩, fun e he => by cases he⟩
  · rw [if_neg h2]
    refine ⟨⟨fun ⟨d, hd⟩ => (by cases hd), fun h => ?_⟩, fun e he => by cases he; rfl⟩
    rcases h with ⟨h4, _⟩ | ⟨h4, _⟩
    · exact absurd h4 h1
    · exact absurd h4 h2

/-- The fraction of binaries that depends on the mass, as documented: five ranges of masses, each with its upper end. -/
theorem C158_fraction_table (k : Kw) (hs : k.fracScheme = some "Moe+17-massdependent") (m1 : ℝ) :
    (16 < m1 → drawFraction k m1 = .ok 0.94) ∧ (9 < m1 → m1 ≤ 16 → drawFraction k m1 = .ok 0.84) ∧ (5 < m1 → m1 ≤ 9 → drawFraction k m1 = .ok 0.76) ∧
    (2 < m1 → m1 ≤ 5 → drawFraction k m1 = .ok 0.59) ∧ (m1 ≤ 2 → drawFraction k m1 = .ok 0.4) := by
  have e : drawFraction k m1 = .ok (if m1 > 16 then 0.94 else if m1 > 9 then 0.84 else if m1 > 5 then 0.76 else if m1 > 2 then 0.59 else 0.4) := by
    unfold drawFraction
    rw [hs]
    simp
  rw [e]
  refine ⟨fun h => ?_, fun h h' => ?_, fun h h' => ?_, fun h h' => ?_, fun h => ?_⟩
  · rw [if_pos h]
  · rw [if_neg (not_lt.2 h'), if_pos h]
  · rw [if_neg (by linarith), if_neg (not_lt.2 h'), if_pos h]
  · rw [if_neg (by linarith), if_neg (by linarith), if_neg (not_lt.2 h'), if_pos h]
  · rw [if_neg (by linarith), if_neg (by linarith), if_neg (by linarith), if_neg (not_lt.2 h)]

/-- The densities of the weights with all options given: a refusal is a ValueError, except for the names of the module that are no mass functions. -/
theorem C158_weight_errors (K : ℝ) (k : Kw) (e : Err) :
    (∀ a b, k.mmin = some a → k.mmax = some b → weightImf k = .error e → (k.primary.getD "" ∈ otherNames ∧ e = .type) ∨ (b ≤ a ∧ e = .value)) ∧
    (∀ o s a b r s' a' b', k.orbital = some o → k.periodScheme = some s → k.pmin = some a → k.pmax = some b → k.pslope = some r → k.sepScheme = some s' →
      k.amin = some a' → k.amax = some b' → weightOrbit K k = .error e → e = .value) := by
  constructor
  · intro a b ha hb h
    unfold weightImf at h
    rw [ha, hb] at h
    simp only [need, bind, Except.bind] at h
    by_cases h1 : k.primary.getD "" ∈ otherNames
    · rw [if_pos h1] at h; cases h; exact Or.inl ⟨h1, rfl⟩
    rw [if_neg h1] at h
    right
    by_cases h5 : a ≥ b
    · refine ⟨h5, ?_⟩
      simp only [if_pos h5] at h
      split_ifs at h <;> first | (cases h; rfl) | cases h
    · simp only [if_neg h5] at h
      split_ifs at h
  · intro o s a b r s' a' b' h1 h2 h3 h4 h5 h6 h7 h8 h
    unfold weightOrbit at h
    rw [h1, h2, h3, h4, h5, h6, h7, h8] at h
    simp only [need, bind, Except.bind] at h
    split_ifs at h <;> first | (cases h; rfl) | cases h

end Verif.Laws
