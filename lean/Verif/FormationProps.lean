import Verif.Formation
/-! Further theorems of C60: names of scenarios, defaults and ranges of the formation times. -/
namespace Verif.Formation
open Verif.Sfh

theorem scenario_unknown (s : Name) : scenario s = .unknown ↔ s ∉ documented := by
  unfold scenario documented
  simp only [List.mem_cons, List.not_mem_nil, or_false, not_or]
  split_ifs <;> simp_all

/-- Exactly the documented scenarios are accepted, in any capitals; every other name is a ValueError. -/
theorem C60_names (n : ℕ) (o : Opt) (s : Name) (hs : o.star_formation = some s) (uniform sample : ℕ → List ℝ) :
    ((∃ ts, times n o uniform sample = .ok ts) ↔ lower s ∈ documented) ∧ ∀ e, times n o uniform sample = .error e → e = .value := by
  unfold times
  rw [hs]
  show ((∃ ts, formationTimes n (scenario (lower s)) _ _ _ uniform sample = .ok ts) ↔ _) ∧ _
  have h := scenario_unknown (lower s)
  cases hc : scenario (lower s) with
  | unknown =>
    refine ⟨⟨fun ⟨ts, ht⟩ => (by cases ht), fun hm => absurd hm (h.1 hc)⟩, fun e he => ?_⟩
    rw [show (some s).getD (chars! "constant") = s from rfl, hc] at he
    cases he; rfl
  | _ =>
    refine ⟨⟨fun _ => ?_, fun _ => ⟨_, rfl⟩⟩, fun e he => ?_⟩
    · by_contra hm
      rw [h.2 hm] at hc
      cases hc
    · rw [show (some s).getD (chars! "constant") = s from rfl, hc] at he
      cases he

/-- Capitals do not matter. -/
theorem C60_capitals (n : ℕ) (o : Opt) (s s' : Name) (h : lower s = lower s') (uniform sample : ℕ → List ℝ) :
    times n { o with star_formation := some s } uniform sample = times n { o with star_formation := some s' } uniform sample := by
  unfold times
  show formationTimes n (scenario (lower s)) _ _ _ _ _ = formationTimes n (scenario (lower s')) _ _ _ _ _
  rw [h]

/-- A population draws its binaries one at a time: then every scenario, histograms too, gives the binary its time. -/
theorem C60_one (o : Opt) (s : Name) (hs : o.star_formation = some s) (hd : lower s ∈ documented) (uniform sample : ℕ → List ℝ)
    (hu : ∀ k, (uniform k).length = k) (hsm : ∀ k, (sample k).length = k) : ∃ t, times 1 o uniform sample = .ok [t] := by
  have h1 : ∀ l : List ℝ, l.length = 1 → ∀ f : ℝ → ℝ, ∃ t, l.map f = [t] := by
    intro l hl f
    obtain ⟨a, rfl⟩ := List.length_eq_one_iff.1 hl
    exact ⟨f a, rfl⟩
  have hn : scenario (lower s) ≠ .unknown := fun h => (scenario_unknown _).1 h hd
  unfold times
  rw [hs]
  show ∃ t, formationTimes 1 (scenario (lower s)) _ _ _ uniform sample = .ok [t]
  unfold formationTimes
  cases hc : scenario (lower s) with
  | unknown => exact absurd hc hn
  | burst => exact ⟨_, rfl⟩
  | constant => obtain ⟨t, ht⟩ := h1 _ (hu 1) _; exact ⟨t, congrArg _ ht⟩
  | customLinear => obtain ⟨t, ht⟩ := h1 _ (hsm 1) _; exact ⟨t, congrArg _ ht⟩
  | customLog10 => obtain ⟨t, ht⟩ := h1 _ (hsm 1) _; exact ⟨t, congrArg _ ht⟩
  | histLinear => obtain ⟨t, ht⟩ := h1 _ (hsm 1) _; exact ⟨t, congrArg _ ht⟩
  | histLog10 => obtain ⟨t, ht⟩ := h1 _ (hsm 1) _; exact ⟨t, congrArg _ ht⟩

/-- Custom ages, in years, between `lo` and `hi`: the times lie as far before the end, and are not negative exactly if no age is longer than the simulation. -/
theorem C60_custom_linear (n : ℕ) (o : Opt) (uniform sample : ℕ → List ℝ) (lo hi : ℝ) (hr : ∀ k, ∀ a ∈ sample k, lo ≤ a ∧ a ≤ hi) (s : Name)
    (hs : o.star_formation = some s) (hl : lower s = (chars! "custom_linear") ∨ lower s = (chars! "custom_linear_histogram")) :
    ∃ ts, times n o uniform sample = .ok ts ∧
      (∀ t ∈ ts, o.max_time.getD (o.max_simulation_time.getD 13800000000) - hi ≤ t ∧ t ≤ o.max_time.getD (o.max_simulation_time.getD 13800000000) - lo) ∧
      (hi ≤ o.max_time.getD (o.max_simulation_time.getD 13800000000) → ∀ t ∈ ts, 0 ≤ t) := by
  have key : ∀ k, ∀ M : ℝ, ∀ t ∈ (sample k).map (M - ·), M - hi ≤ t ∧ t ≤ M - lo := by
    intro k M t ht
    obtain ⟨a, ha, rfl⟩ := List.mem_map.1 ht
    obtain ⟨h1, h2⟩ := hr k a ha
    exact ⟨by linarith, by linarith⟩
  unfold times
  rw [hs]
  show ∃ ts, formationTimes n (scenario (lower s)) _ _ _ uniform sample = .ok ts ∧ _
  rcases hl with hl | hl
  · rw [hl]
    refine ⟨_, rfl, key n _, fun h t ht => ?_⟩
    have := (key n _ t ht).1
    linarith
  · rw [hl]
    refine ⟨_, rfl, key 1 _, fun h t ht => ?_⟩
    have := (key 1 _ t ht).1
    linarith

/-- Ages as logarithms: the same, with the power of ten. -/
theorem C60_custom_log (n : ℕ) (o : Opt) (uniform sample : ℕ → List ℝ) (lo hi : ℝ) (hr : ∀ k, ∀ a ∈ sample k, lo ≤ a ∧ a ≤ hi) (s : Name)
    (hs : o.star_formation = some s) (hl : lower s = (chars! "custom_log10") ∨ lower s = (chars! "custom_log10_histogram")) :
    ∃ ts, times n o uniform sample = .ok ts ∧
      (∀ t ∈ ts, o.max_time.getD (o.max_simulation_time.getD 13800000000) - (10 : ℝ) ^ hi ≤ t ∧
        t ≤ o.max_time.getD (o.max_simulation_time.getD 13800000000) - (10 : ℝ) ^ lo ∧ t < o.max_time.getD (o.max_simulation_time.getD 13800000000)) := by
  have key : ∀ k, ∀ M : ℝ, ∀ t ∈ (sample k).map (fun a => M - (10 : ℝ) ^ a), M - (10 : ℝ) ^ hi ≤ t ∧ t ≤ M - (10 : ℝ) ^ lo ∧ t < M := by
    intro k M t ht
    obtain ⟨a, ha, rfl⟩ := List.mem_map.1 ht
    obtain ⟨h1, h2⟩ := hr k a ha
    have e1 := Real.rpow_le_rpow_of_exponent_le (show (1 : ℝ) ≤ 10 by norm_num) h1
    have e2 := Real.rpow_le_rpow_of_exponent_le (show (1 : ℝ) ≤ 10 by norm_num) h2
    have e3 := Real.rpow_pos_of_pos (show (0 : ℝ) < 10 by norm_num) a
    exact ⟨by linarith, by linarith, by linarith⟩
  unfold times
  rw [hs]
  show ∃ ts, formationTimes n (scenario (lower s)) _ _ _ uniform sample = .ok ts ∧ _
  rcases hl with hl | hl
  · rw [hl]; exact ⟨_, rfl, key n _⟩
  · rw [hl]; exact ⟨_, rfl, key 1 _⟩

/-- Constant star formation without limits of the user spreads the times from zero to the end of the simulation. -/
theorem C60_constant (n : ℕ) (o : Opt) (uniform sample : ℕ → List ℝ) (hu1 : ∀ k, ∀ u ∈ uniform k, 0 ≤ u ∧ u < 1) (hs : o.star_formation = none)
    (h1 : o.max_time = none) (h2 : o.min_time = none) (T : ℝ) (hT : o.max_simulation_time = some T) (hpos : 0 < T) :
    ∃ ts, times n o uniform sample = .ok ts ∧ ts = (uniform n).map (T * ·) ∧ ∀ t ∈ ts, 0 ≤ t ∧ t < T := by
  unfold times
  rw [hs, h1, h2, hT]
  refine ⟨_, rfl, ?_, fun t ht => ?_⟩
  · apply List.map_congr_left
    intro u _
    show 0 + (T - 0) * u = T * u
    ring
  · obtain ⟨u, hu, rfl⟩ := List.mem_map.1 ht
    obtain ⟨a, b⟩ := hu1 n u hu
    show 0 ≤ 0 + (T - 0) * u ∧ 0 + (T - 0) * u < T
    constructor <;> nlinarith

/-- Violated: nothing keeps ages below the time that is simulated, a binary can be born before the beginning. -/
theorem C60_before_beginning_violated : ∃ (o : Opt) (uniform sample : ℕ → List ℝ) (t : ℝ), (∀ k, (sample k).length = k) ∧
    times 1 o uniform sample = .ok [t] ∧ t < 0 := by
  refine ⟨⟨some (chars! "custom_linear"), none, some 1000, none, none⟩, fun k => List.replicate k 0, fun k => List.replicate k 2000, 1000 - 2000, fun k => by simp, rfl, by norm_num⟩

/-- Violated: nothing keeps the last time before the end of the simulation, a binary can be born after it. -/
theorem C60_after_end_violated : ∃ (o : Opt) (uniform sample : ℕ → List ℝ) (t T : ℝ), (∀ k, (uniform k).length = k) ∧ (∀ k, ∀ u ∈ uniform k, 0 ≤ u ∧ u < 1) ∧
    o.max_simulation_time = some T ∧ times 1 o uniform sample = .ok [t] ∧ T < t := by
  refine ⟨⟨some (chars! "Constant"), none, some 1000, some 4000, none⟩, fun k => List.replicate k (1 / 2), fun k => List.replicate k 0, 0 + (4000 - 0) * (1 / 2), 1000,
    fun k => by simp, fun k u hu => ?_, rfl, rfl, by norm_num⟩
  rw [List.eq_of_mem_replicate hu]
  norm_num

example : lower (chars! "Custom_Log10_Histogram") ∈ documented := by decide

/-- A burst: all binaries form at the given time, or at the beginning if no time is given; neither draws nor limits matter. -/
theorem C60_burst (n : ℕ) (o : Opt) (uniform sample : ℕ → List ℝ) (s : Name) (hs : o.star_formation = some s) (hl : lower s = (chars! "burst")) :
    (∀ b, o.burst_time = some b → times n o uniform sample = .ok (List.replicate n b)) ∧
    (o.burst_time = none → times n o uniform sample = .ok (List.replicate n 0)) := by
  unfold times
  rw [hs]
  show (∀ b, o.burst_time = some b → formationTimes n (scenario (lower s)) _ _ _ _ _ = _) ∧ (_ → formationTimes n (scenario (lower s)) _ _ _ _ _ = _)
  rw [hl]
  constructor
  · intro b hb
    rw [hb]
    rfl
  · intro hb
    rw [hb]
    rfl

/-- Constant star formation with limits: draws of a generator between the limits given; without any limit, from zero to the age of the universe. -/
theorem C60_limits (n : ℕ) (o : Opt) (uniform sample : ℕ → List ℝ) (s : Name) (hs : o.star_formation = some s) (hl : lower s = (chars! "constant")) :
    (∀ a b, o.min_time = some a → o.max_time = some b → times n o uniform sample = .ok ((uniform n).map (fun u => a + (b - a) * u))) ∧
    (o.min_time = none → o.max_time = none → o.max_simulation_time = none → times n o uniform sample = .ok ((uniform n).map (13800000000 * ·))) := by
  unfold times
  rw [hs]
  show (∀ a b, _ → _ → formationTimes n (scenario (lower s)) _ _ _ _ _ = _) ∧ (_ → _ → _ → formationTimes n (scenario (lower s)) _ _ _ _ _ = _)
  rw [hl]
  constructor
  · intro a b ha hb
    rw [ha, hb]
    rfl
  · intro h1 h2 h3
    rw [h1, h2, h3]
    show Except.ok ((uniform n).map (fun u => 0 + (13800000000 - 0) * u)) = _
    simp

end Verif.Formation
