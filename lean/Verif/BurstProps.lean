import Verif.Burst
import Mathlib.Tactic.Linarith
import Mathlib.Tactic.NormNum
import Mathlib.Tactic.Ring
import Mathlib.Tactic.FieldSimp
/-!
C88: energies of gamma-ray bursts follow from the radiated mass, the efficiency and the beaming.
-/
namespace Verif.Burst

/-- **C88** A star without a radiated mass above zero has no burst: no efficiency, no beaming, no energy, no flag. -/
theorem C88_none (unit eff isoMin draw : ℝ) (beam : Beam) (disk : Option ℝ) (h : ∀ m, disk = some m → m ≤ 0) :
    star unit eff isoMin beam draw disk = ⟨none, none, 0, .num 0, .num 0, false⟩ := by
  unfold star
  cases disk with
  | none => rfl
  | some m => exact if_neg (not_lt.2 (h m rfl))

/-- **C88** The energy is efficiency times mass times the square of the speed of light; the isotropic energy times the beaming is the energy; the
luminosity is the isotropic energy over 25 seconds; a burst is flagged exactly if the isotropic energy reaches the least one asked for. -/
theorem C88_energy (unit eff isoMin draw m : ℝ) (beam : Beam) (hm : 0 < m) (f : ℝ) (hf : (star unit eff isoMin beam draw (some m)).fB = some f) (h0 : f ≠ 0) :
    (star unit eff isoMin beam draw (some m)).eta = some eff ∧ (star unit eff isoMin beam draw (some m)).e = eff * m * unit ∧
    ∃ x, (star unit eff isoMin beam draw (some m)).iso = .num x ∧ x * f = eff * m * unit ∧ (star unit eff isoMin beam draw (some m)).lum = .num (x / 25) ∧
      ((star unit eff isoMin beam draw (some m)).flag = true ↔ isoMin ≤ x) := by
  unfold star at hf ⊢
  dsimp only at hf ⊢
  rw [if_pos hm] at hf ⊢
  simp only [Option.some.injEq] at hf
  refine ⟨rfl, rfl, eff * m * unit / f, ?_, by field_simp, ?_, ?_⟩
  · dsimp only
    rw [hf]
    exact if_pos h0
  · dsimp only
    rw [hf]
    unfold Ext.div
    rw [if_pos h0]
    rfl
  · dsimp only
    rw [hf]
    unfold Ext.div
    rw [if_pos h0]
    simp [Ext.ge]

/-- **C88** The beaming used is the number given, or follows from the draw or from the energy. -/
theorem C88_beaming (unit eff isoMin draw m x : ℝ) (hm : 0 < m) :
    (star unit eff isoMin (.float x) draw (some m)).fB = some x ∧ (star unit eff isoMin .goldstein draw (some m)).fB = some (1 - Real.cos ((10 : ℝ) ^ draw / 180 * Real.pi)) ∧
    (0 < eff → 0 < unit → (star unit eff isoMin .pescalli draw (some m)).fB = some (7e46 * 25 / (eff * (eff * m * unit)))) := by
  unfold star
  dsimp only
  rw [if_pos hm, if_pos hm, if_pos hm]
  refine ⟨rfl, ?_, fun he hu => ?_⟩
  · simp only [Option.some.injEq]
    unfold goldstein
    have := Real.pi_pos
    field_simp
  · simp only [Option.some.injEq]
    unfold pescalli
    have hE : 0 < eff * m * unit := mul_pos (mul_pos he hm) hu
    rw [if_pos hE]
    generalize eff * m * unit = E at hE
    have hx : (0 : ℝ) < eff * E / 25 := by positivity
    rw [show (1 / (1 - 0.5) : ℝ) = 2 by norm_num, Real.rpow_two, mul_pow, ← Real.rpow_natCast, ← Real.rpow_natCast, ← Real.rpow_mul (by norm_num), ← Real.rpow_mul hx.le]
    rw [show (0.5 : ℝ) * ((2 : ℕ) : ℝ) = 1 by norm_num, show (-0.5 : ℝ) * ((2 : ℕ) : ℝ) = -1 by norm_num, Real.rpow_one, Real.rpow_neg_one]
    field_simp

/-- **C88** The opening angles drawn give a beaming of at least zero; it is at most one for angles up to ninety degrees. -/
theorem C88_goldstein (draw : ℝ) : 0 ≤ goldstein draw ∧ ((10 : ℝ) ^ draw ≤ 90 → goldstein draw ≤ 1) := by
  have he : goldstein draw = 1 - Real.cos ((10 : ℝ) ^ draw / 180 * Real.pi) := by
    unfold goldstein
    have := Real.pi_pos
    field_simp
  rw [he]
  refine ⟨by linarith [Real.cos_le_one ((10 : ℝ) ^ draw / 180 * Real.pi)], fun h => ?_⟩
  have hpos : (0 : ℝ) ≤ (10 : ℝ) ^ draw := Real.rpow_nonneg (by norm_num) _
  have hpi := Real.pi_pos
  have : 0 ≤ Real.cos ((10 : ℝ) ^ draw / 180 * Real.pi) := Real.cos_nonneg_of_mem_Icc ⟨by
    have : 0 ≤ (10 : ℝ) ^ draw / 180 * Real.pi := by positivity
    linarith, by
    have : (10 : ℝ) ^ draw / 180 * Real.pi ≤ 90 / 180 * Real.pi := mul_le_mul_of_nonneg_right (by linarith) hpi.le
    linarith⟩
  linarith

/-- **C88** Violated: some draws give a beaming above one, so that the isotropic energy is below the energy. -/
theorem C88_goldstein_violated : ∃ draw, 1 < goldstein draw := by
  refine ⟨Real.log 180 / Real.log 10, ?_⟩
  have he : goldstein (Real.log 180 / Real.log 10) = 1 - Real.cos ((10 : ℝ) ^ (Real.log 180 / Real.log 10) / 180 * Real.pi) := by
    unfold goldstein
    have := Real.pi_pos
    field_simp
  have hl : Real.log 10 ≠ 0 := (Real.log_pos (by norm_num)).ne'
  have h10 : (10 : ℝ) ^ (Real.log 180 / Real.log 10) = 180 := by
    rw [Real.rpow_def_of_pos (by norm_num), mul_div_cancel₀ _ hl, Real.exp_log (by norm_num)]
  rw [he, h10, div_self (by norm_num), one_mul, Real.cos_pi]
  norm_num

/-- **C88** Violated: with the relation of Pescalli and others the beaming exceeds one for small energies. -/
theorem C88_pescalli_violated (unit isoMin draw eff m : ℝ) (hm : 0 < m) (he : 0 < eff) (hu : 0 < unit) (hs : eff * (eff * m * unit) < 7e46 * 25) :
    ∃ f, (star unit eff isoMin .pescalli draw (some m)).fB = some f ∧ 1 < f := by
  refine ⟨_, (C88_beaming unit eff isoMin draw m 0 hm).2.2 he hu, ?_⟩
  rw [lt_div_iff₀ (mul_pos he (mul_pos (mul_pos he hm) hu)), one_mul]
  exact hs

/-- **C88** Violated: that relation is applied to the efficiency times the energy, which contains the efficiency already, so that the isotropic energy
grows with the third power of the efficiency. -/
theorem C88_twice_violated (unit isoMin draw eff m : ℝ) (hm : 0 < m) (he : 0 < eff) (hu : 0 < unit) :
    (star unit eff isoMin .pescalli draw (some m)).iso = .num (eff ^ 3 * (m * unit) ^ 2 / (7e46 * 25)) := by
  have hf := (C88_beaming unit eff isoMin draw m 0 hm).2.2 he hu
  have hE : 0 < eff * m * unit := mul_pos (mul_pos he hm) hu
  obtain ⟨-, -, x, hx, hxf, -⟩ := C88_energy unit eff isoMin draw m .pescalli hm _ hf (by positivity)
  rw [hx]
  congr 1
  have : x = eff * m * unit / (7e46 * 25 / (eff * (eff * m * unit))) := by
    rw [eq_div_iff (by positivity)]
    exact hxf
  rw [this]
  field_simp

/-- **C88** Violated: the beaming given is not checked: a negative one gives negative energies, zero gives an infinite energy and a flag. -/
theorem C88_unchecked_violated (unit eff isoMin draw m : ℝ) (hm : 0 < m) (he : 0 < eff) (hu : 0 < unit) :
    (∃ x, (star unit eff isoMin (.float (-1)) draw (some m)).iso = .num x ∧ x < 0) ∧
    (star unit eff isoMin (.float 0) draw (some m)).iso = .inf false ∧ (star unit eff isoMin (.float 0) draw (some m)).flag = true := by
  have hE : 0 < eff * m * unit := mul_pos (mul_pos he hm) hu
  unfold star
  dsimp only
  rw [if_pos hm, if_pos hm]
  refine ⟨⟨eff * m * unit / (-1), if_pos (by norm_num), by rw [div_neg, div_one]; linarith⟩, ?_, ?_⟩
  · dsimp only
    unfold Ext.div
    rw [if_neg (by simp), if_neg hE.ne']
    simp [hE.le]
  · dsimp only
    unfold Ext.div
    rw [if_neg (by simp), if_neg hE.ne']
    simp [hE.le, Ext.ge]

/-- **C88** Violated: without any efficiency there is a burst of no energy, flagged if no least energy is asked for. -/
theorem C88_empty_violated (unit draw m : ℝ) (hm : 0 < m) : (star unit 0 0 (.float 1) draw (some m)).e = 0 ∧ (star unit 0 0 (.float 1) draw (some m)).flag = true := by
  unfold star
  dsimp only
  rw [if_pos hm]
  refine ⟨by simp, ?_⟩
  dsimp only
  unfold Ext.div
  rw [if_pos one_ne_zero]
  simp [Ext.ge]

/-- **C88** Missing columns, an efficiency which is not a fraction and an unknown beaming are refused, whatever the table; else each row has its own
two bursts. -/
theorem C88_options (unit isoMin : ℝ) (draws : ℕ → ℕ → ℝ) (eff : Eff) (beam : Beam) (d1 d2 : List (Option ℝ)) :
    properties unit eff beam isoMin draws (none, some d2) = .error .value ∧ properties unit eff beam isoMin draws (some d1, none) = .error .value ∧
    (∀ x, x < 0 ∨ 1 < x → properties unit (.float x) beam isoMin draws (some d1, some d2) = .error .value) ∧
    properties unit eff .other isoMin draws (some d1, some d2) = .error .value ∧
    (∀ x, 0 ≤ x → x ≤ 1 → beam ≠ .other → ∃ l, properties unit (.float x) beam isoMin draws (some d1, some d2) = .ok l ∧
      ∀ (k : ℕ) (a b : Option ℝ), d1[k]? = some a → d2[k]? = some b → l[k]? = some (star unit x isoMin beam (draws 1 k) a, star unit x isoMin beam (draws 2 k) b)) := by
  refine ⟨rfl, rfl, fun x hx => ?_, ?_, fun x h0 h1 hb => ?_⟩
  · unfold properties
    dsimp only
    rw [if_pos hx]
  · unfold properties
    cases eff with
    | other => rfl
    | float x =>
      dsimp only
      by_cases hx : x < 0 ∨ 1 < x
      · rw [if_pos hx]
      · rw [if_neg hx]
  · refine ⟨List.zipWith (fun (i : ℕ) (p : Option ℝ × Option ℝ) => (star unit x isoMin beam (draws 1 i) p.1, star unit x isoMin beam (draws 2 i) p.2))
            (List.range d1.length) (d1.zip d2), ?_, fun k a b ha hk => ?_⟩
    · unfold properties
      dsimp only
      rw [if_neg (by rintro (h | h) <;> linarith)]
      cases beam with
      | other => exact absurd rfl hb
      | float y => rfl
      | goldstein => rfl
      | pescalli => rfl
    · have hlt : k < d1.length := (List.getElem?_eq_some_iff.1 ha).1
      rw [List.getElem?_zipWith, List.getElem?_range hlt, show (d1.zip d2)[k]? = some (a, b) from List.getElem?_zip_eq_some.2 ⟨ha, hk⟩]

/-- **C88** Violated: an efficiency of one given as an integer is refused. -/
theorem C88_integer_violated (unit isoMin : ℝ) (draws : ℕ → ℕ → ℝ) (beam : Beam) (d1 d2 : List (Option ℝ)) :
    properties unit .other beam isoMin draws (some d1, some d2) = .error .value := rfl

example : (star 2 (1 / 2) 0 (.float (1 / 4)) 0 (some 3)).e = 3 ∧ (star 2 (1 / 2) 0 (.float (1 / 4)) 0 (some 3)).flag = true := by
  obtain ⟨-, h2, x, h3, h4, -, h5⟩ := C88_energy 2 (1 / 2) 0 0 3 (.float (1 / 4)) (by norm_num) (1 / 4) (C88_beaming 2 (1 / 2) 0 0 3 (1 / 4) (by norm_num)).1 (by norm_num)
  refine ⟨by rw [h2]; norm_num, h5.2 ?_⟩
  linarith

end Verif.Burst
