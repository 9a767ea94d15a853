import Verif.Accretion
import Mathlib.Analysis.SpecialFunctions.Log.Base
import Mathlib.Tactic.Linarith
import Mathlib.Tactic.Positivity
import Mathlib.Tactic.FieldSimp
import Mathlib.Tactic.Ring
import Mathlib.Tactic.LinearCombination
/-!
C80: accretion onto a compact object is limited as the Eddington balance says, beamed within the sphere, and captured from a
wind by the relative motion.
-/
namespace Verif.Accretion

open Real Classical

/-! ### The Eddington limit -/

/-- **C80**: the limit of a row radiates exactly the luminosity that balances gravity on the electrons of the donor's matter
(opacity `0.2 (1 + X)`), with the hydrogen abundance taken as 0.7155 where it is not known. -/
theorem C80_balance (c : Const) (hist : List (Option St)) (r : ERow) (mdot eta : ℝ) (h : eddRow c hist r = .ok (mdot, eta))
    (he : eta ≠ 0) (hx : 1 + r.h1.getD 0.7155 ≠ 0) :
    eta * (mdot * c.msol / c.secyer) * c.clight ^ 2
      = 4 * π * c.G * (r.m * c.msol) * c.clight / (0.2 * (1 + r.h1.getD 0.7155)) := by
  have h1 := c.clight_pos.ne'
  have h2 := c.msol_pos.ne'
  have h3 := c.secyer_pos.ne'
  unfold eddRow at h
  split at h
  · simp at h
  · split at h
    · simp at h
    · simp only [Except.ok.injEq, Prod.mk.injEq] at h
      obtain ⟨rfl, rfl⟩ := h
      generalize 1 + r.h1.getD 0.7155 = x at *
      field_simp

theorem eddRow_of (c : Const) (hist : List (Option St)) (r : ERow) (s : St) (eta : ℝ) (hs : complete hist r.st = .ok s)
    (he : efficiency c (r.m * c.msol) s = .ok eta) : ∃ mdot, eddRow c hist r = .ok (mdot, eta) := by
  unfold eddRow
  rw [hs]
  dsimp only
  rw [he]
  exact ⟨_, rfl⟩

/-- **C80**: a black hole radiates the binding energy at the last stable orbit of a hole that does not spin, `1 - √(8/9)` of the
rest mass, whatever its mass. -/
theorem C80_black_hole (c : Const) (hist : List (Option St)) (r : ERow) (hs : complete hist r.st = .ok .BH) (hm : 0 < r.m) :
    ∃ mdot, eddRow c hist r = .ok (mdot, 1 - √(8 / 9)) ∧ 0 < 1 - √(8 / 9) ∧ 1 - √(8 / 9) < 1 := by
  have hM : 0 < r.m * c.msol := mul_pos hm c.msol_pos
  have e1 : efficiency c (r.m * c.msol) .BH = .ok (1 - √(8 / 9)) := by
    simp only [efficiency]
    generalize r.m * c.msol = M at *
    have h6 : (1 : ℝ) ≤ √6 := by rw [Real.one_le_sqrt]; norm_num
    rw [div_self (by norm_num : (6 : ℝ) ≠ 0), sqrt_one, mul_one, min_eq_left (by nlinarith)]
    congr 3
    field_simp
    norm_num
  obtain ⟨mdot, hrow⟩ := eddRow_of c hist r .BH _ hs e1
  refine ⟨mdot, hrow, ?_, ?_⟩
  · have : √(8 / 9) < 1 := by rw [Real.sqrt_lt' one_pos]; norm_num
    linarith
  · have : 0 < √((8 : ℝ) / 9) := Real.sqrt_pos.2 (by norm_num)
    linarith

/-- **C80**: a neutron star below eight solar masses radiates less than the rest mass. -/
theorem C80_neutron_star (hist : List (Option St)) (r : ERow) (hs : complete hist r.st = .ok .NS) (hm : 0 < r.m) (hm8 : r.m ≤ 8) :
    ∃ mdot eta, eddRow cgs hist r = .ok (mdot, eta) ∧ 0 < eta ∧ eta < 1 := by
  have hM : 0 < r.m * cgs.msol := mul_pos hm cgs.msol_pos
  have e1 : efficiency cgs (r.m * cgs.msol) .NS = .ok (cgs.G * (r.m * cgs.msol) / ((12.5e5 / cgs.rsol * cgs.rsol) * cgs.clight ^ 2)) := by
    simp only [efficiency, coRadius]
    rw [if_neg (not_le.2 hM)]
  obtain ⟨mdot, hrow⟩ := eddRow_of cgs hist r .NS _ hs e1
  refine ⟨mdot, _, hrow, ?_, ?_⟩
  · rw [div_mul_cancel₀ _ cgs.rsol_pos.ne']
    have := cgs.G_pos
    have := cgs.clight_pos
    positivity
  · rw [div_mul_cancel₀ _ cgs.rsol_pos.ne']
    simp only [cgs]
    rw [div_lt_one (by positivity)]
    nlinarith

/-- **C80 (violated)**: a white dwarf radiates more than the rest mass: its mass is handed over in grams where solar masses are
expected, so that its radius is too small by a factor of about 10¹¹. -/
theorem C80_white_dwarf_violated (hist : List (Option St)) (r : ERow) (hs : complete hist r.st = .ok .WD) (hm : 0.1 ≤ r.m) :
    ∃ mdot eta, eddRow cgs hist r = .ok (mdot, eta) ∧ 1 < eta := by
  have hM : (1e30 : ℝ) ≤ r.m * cgs.msol := by simp only [cgs]; nlinarith
  have hM0 : 0 < r.m * cgs.msol := by linarith [show (0 : ℝ) < 1e30 by norm_num]
  have e1 : efficiency cgs (r.m * cgs.msol) .WD
      = .ok (cgs.G * (r.m * cgs.msol) / ((2.9e8 * (r.m * cgs.msol) ^ (-1 / 3 : ℝ) / cgs.rsol * cgs.rsol) * cgs.clight ^ 2)) := by
    simp only [efficiency, coRadius]
    rw [if_neg (not_le.2 hM0)]
  obtain ⟨mdot, hrow⟩ := eddRow_of cgs hist r .WD _ hs e1
  refine ⟨mdot, _, hrow, ?_⟩
  · generalize r.m * cgs.msol = M at *
    have hp : M ^ (-1 / 3 : ℝ) ≤ 1 := by
      apply Real.rpow_le_one_of_one_le_of_nonpos
      · linarith [show (1 : ℝ) ≤ 1e30 by norm_num]
      · norm_num
    have hp0 : 0 < M ^ (-1 / 3 : ℝ) := Real.rpow_pos_of_pos hM0 _
    have hp1 : M ^ (-1 / 3 : ℝ) ≤ 1e-10 := by
      have h10 : ((1e30 : ℝ)) ^ (-1 / 3 : ℝ) = 1e-10 := by
        rw [show (1e30 : ℝ) = (1e10 : ℝ) ^ (3 : ℝ) by norm_num, ← Real.rpow_mul (by norm_num)]
        norm_num
      rw [← h10]
      exact Real.rpow_le_rpow_of_nonpos (by norm_num) hM (by norm_num)
    rw [div_mul_cancel₀ _ cgs.rsol_pos.ne']
    have hc := cgs.clight_pos
    rw [one_lt_div (by positivity)]
    simp only [cgs]
    nlinarith

/-- With the mass in solar masses the same formula gives less than a thousandth. -/
example : cgs.G * (1 * cgs.msol) / ((2.9e8 * (1 : ℝ) ^ (-1 / 3 : ℝ) / cgs.rsol * cgs.rsol) * cgs.clight ^ 2) < 0.001 := by
  rw [div_mul_cancel₀ _ cgs.rsol_pos.ne']
  simp only [cgs, Real.one_rpow]
  norm_num

theorem eddLoop_some (c : Const) (hist : List (Option St)) (rows : List ERow) (x y : ℝ × ℝ) (h : eddLoop c hist rows (some x) = .ok y) :
    (rows = [] ∧ y = x) ∨ ∃ r, rows.getLast? = some r ∧ eddRow c hist r = .ok y := by
  induction rows generalizing x with
  | nil => left; simp only [eddLoop, Except.ok.injEq] at h; exact ⟨rfl, h.symm⟩
  | cons r rs ih =>
    right
    unfold eddLoop at h
    cases hr : eddRow c hist r with
    | error e => rw [hr] at h; simp at h
    | ok z =>
      rw [hr] at h
      dsimp only at h
      rcases ih z h with ⟨h1, h2⟩ | ⟨l, h1, h2⟩
      · subst h1; subst h2
        exact ⟨r, rfl, hr⟩
      · refine ⟨l, ?_, h2⟩
        rw [List.getLast?_cons, h1]
        rfl

/-- The loop answers with its last row. -/
theorem eddLoop_last (c : Const) (hist : List (Option St)) (rows : List ERow) (y : ℝ × ℝ) (h : eddLoop c hist rows none = .ok y) :
    ∃ r, rows.getLast? = some r ∧ eddRow c hist r = .ok y := by
  cases rows with
  | nil => simp [eddLoop] at h
  | cons r rs =>
    unfold eddLoop at h
    cases hr : eddRow c hist r with
    | error e => rw [hr] at h; simp at h
    | ok z =>
      rw [hr] at h
      dsimp only at h
      rcases eddLoop_some c hist rs z y h with ⟨h1, h2⟩ | ⟨l, h1, h2⟩
      · subst h1; subst h2
        exact ⟨r, rfl, hr⟩
      · refine ⟨l, ?_, h2⟩
        rw [List.getLast?_cons, h1]
        rfl

/-- **C80**: the accretor is the first star if that is a compact object, otherwise the second; if neither is, this is reported.
The answer for several rows is the answer for the last one. -/
theorem C80_accretor (c : Const) (s1 s2 : Obj) :
    (isCO s1.st = true → eddington c s1 s2 = eddLoop c s1.hist s1.rows none) ∧
    (isCO s1.st = false → isCO s2.st = true → eddington c s1 s2 = eddLoop c s2.hist s2.rows none) ∧
    (isCO s1.st = false → isCO s2.st = false → eddington c s1 s2 = .error .noCO) ∧
    (∀ s : Obj, ∀ r, s.rows = [r] → eddLoop c s.hist s.rows none = eddRow c s.hist r) ∧
    (∀ s : Obj, ∀ y, eddLoop c s.hist s.rows none = .ok y → ∃ r, s.rows.getLast? = some r ∧ eddRow c s.hist r = .ok y) := by
  refine ⟨fun h => ?_, fun h h' => ?_, fun h h' => ?_, fun s r hr => ?_, fun s y h => eddLoop_last c _ _ y h⟩
  · unfold eddington; rw [if_pos h]
  · unfold eddington; rw [if_neg (by simp [h]), if_pos h']
  · unfold eddington; rw [if_neg (by simp [h]), if_neg (by simp [h'])]
  · rw [hr]
    simp only [eddLoop]
    cases eddRow c s.hist r <;> rfl

/-- **C80**: a state which is missing is completed from the history: neutron star if there was one, otherwise black hole, otherwise white
dwarf, otherwise this is an error; a state which is there is used. -/
theorem C80_state (hist : List (Option St)) :
    (∀ s, complete hist (some s) = .ok s) ∧ (some .NS ∈ hist → complete hist none = .ok .NS) ∧
    (some .NS ∉ hist → some .BH ∈ hist → complete hist none = .ok .BH) ∧
    (some .NS ∉ hist → some .BH ∉ hist → some .WD ∈ hist → complete hist none = .ok .WD) ∧
    (some .NS ∉ hist → some .BH ∉ hist → some .WD ∉ hist → complete hist none = .error .coType) := by
  refine ⟨fun _ => rfl, fun h => ?_, fun h h' => ?_, fun h h' h'' => ?_, fun h h' h'' => ?_⟩ <;> simp [complete, *]

/-- **C80**: radii of compact objects: light just escapes from a black hole; neutron stars have 12.5 km; the volume of white dwarfs times their
mass is the same for all; masses that are not positive and other objects are errors. -/
theorem C80_radius (c : Const) (M : ℝ) :
    (0 < M → ∃ R, coRadius c M .BH = .ok R ∧ c.clight ^ 2 = 2 * c.G * (M * c.msol) / (R * c.rsol)) ∧
    (0 < M → ∃ R, coRadius c M .NS = .ok R ∧ R * c.rsol = 12.5e5) ∧
    (0 < M → ∃ R, coRadius c M .WD = .ok R ∧ (R * c.rsol) ^ 3 * M = 2.9e8 ^ 3) ∧
    (0 < M → coRadius c M .other = .error .coType) ∧ (M ≤ 0 → ∀ s, coRadius c M s = .error .massNotPositive) := by
  have h1 := c.clight_pos
  have h2 := c.rsol_pos
  have h3 := c.msol_pos
  have h4 := c.G_pos
  refine ⟨fun h => ⟨_, by unfold coRadius; rw [if_neg (not_le.2 h)], ?_⟩, fun h => ⟨_, by unfold coRadius; rw [if_neg (not_le.2 h)], ?_⟩,
    fun h => ⟨_, by unfold coRadius; rw [if_neg (not_le.2 h)], ?_⟩, fun h => by unfold coRadius; rw [if_neg (not_le.2 h)],
    fun h s => by unfold coRadius; rw [if_pos h]⟩
  · unfold schwarzschild
    field_simp
  · field_simp
  · have hp : (M ^ (-1 / 3 : ℝ)) ^ 3 * M = 1 := by
      rw [← Real.rpow_natCast, ← Real.rpow_mul h.le]
      norm_num [Real.rpow_neg_one]
      exact inv_mul_cancel₀ h.ne'
    rw [div_mul_cancel₀ _ h2.ne', mul_pow, mul_assoc, hp, mul_one]

example : complete [some .other, some .NS, some .BH] none = .ok .NS ∧ complete [some .other] none = .error .coType ∧
    complete [some .NS] (some .BH) = .ok .BH := by decide

/-! ### Beaming -/

/-- **C80**: up to the limit what is transferred is what is seen; above it the rate grows as the logarithm, divided by the
fraction of the sphere; the two agree at the limit; nothing is known if nothing is transferred. -/
theorem C80_beaming (edd l : ℝ) (he : 0 < edd) :
    ((10 : ℝ) ^ l ≤ edd → beaming edd (some l) = (some ((10 : ℝ) ^ l), 1)) ∧
    ((10 : ℝ) ^ l > edd → (10 : ℝ) ^ l ≤ 8.5 * edd → beaming edd (some l) = (some (edd * (1 + log ((10 : ℝ) ^ l / edd))), 1)) ∧
    ((10 : ℝ) ^ l > 8.5 * edd → beaming edd (some l) =
      (some (edd * (1 + log ((10 : ℝ) ^ l / edd)) * ((10 : ℝ) ^ l / edd) ^ 2 / 73), 73 / ((10 : ℝ) ^ l / edd) ^ 2)) ∧
    beaming edd none = (none, 1) := by
  refine ⟨fun h => ?_, fun h h8 => ?_, fun h => ?_, rfl⟩
  · by_cases h1 : (10 : ℝ) ^ l = edd
    · unfold beaming
      dsimp only
      rw [h1, if_pos le_rfl, if_neg (by norm_num; linarith), div_self he.ne', log_one]
      norm_num
    · unfold beaming
      dsimp only
      rw [if_neg (not_le.2 (lt_of_le_of_ne h h1))]
  · unfold beaming
    dsimp only
    rw [if_pos h.le, if_neg (not_lt.2 h8), div_one]
  · unfold beaming
    have : (10 : ℝ) ^ l ≥ edd := by nlinarith
    dsimp only
    rw [if_pos this, if_pos h]
    congr 2
    have : (10 : ℝ) ^ l ≠ 0 := (Real.rpow_pos_of_pos (by norm_num) l).ne'
    have := he.ne'
    field_simp

/-- **C80 (partial)**: the fraction of the sphere is a fraction unless the ratio is between 8.5 and the root of 73. -/
theorem C80_fraction_partial (edd : ℝ) (l : Option ℝ) (he : 0 < edd)
    (h : ∀ x, l = some x → (10 : ℝ) ^ x ≤ 8.5 * edd ∨ 73 * edd ^ 2 ≤ ((10 : ℝ) ^ x) ^ 2) :
    0 < (beaming edd l).2 ∧ (beaming edd l).2 ≤ 1 := by
  cases l with
  | none => simp [beaming]
  | some x =>
    obtain ⟨b1, b2, b3, -⟩ := C80_beaming edd x he
    by_cases h1 : (10 : ℝ) ^ x ≤ edd
    · rw [b1 h1]; norm_num
    · rw [not_le] at h1
      by_cases h8 : (10 : ℝ) ^ x ≤ 8.5 * edd
      · rw [b2 h1 h8]; norm_num
      · rw [not_le] at h8
        rw [b3 h8]
        have hx : 0 < (10 : ℝ) ^ x := Real.rpow_pos_of_pos (by norm_num) x
        refine ⟨by positivity, ?_⟩
        rcases h x rfl with h' | h'
        · exact absurd h8 (not_lt.2 h')
        · dsimp only
          rw [div_le_one (by positivity), div_pow, le_div_iff₀ (by positivity)]
          exact h'

/-- **C80 (violated)**: just above 8.5 times the limit the emission fills more than the sphere, and the rate that is seen is
less than without beaming. -/
theorem C80_fraction_violated : ∃ edd l : ℝ, 0 < edd ∧ 1 < (beaming edd (some l)).2 ∧
    ∃ m, (beaming edd (some l)).1 = some m ∧ m < edd * (1 + log ((10 : ℝ) ^ l / edd)) := by
  have h10 : (10 : ℝ) ^ logb 10 (8.51 : ℝ) = 8.51 := Real.rpow_logb (by norm_num) (by norm_num) (by norm_num)
  refine ⟨1, logb 10 8.51, one_pos, ?_⟩
  obtain ⟨-, -, b3, -⟩ := C80_beaming 1 (logb 10 8.51) one_pos
  rw [b3 (by rw [h10]; norm_num), h10]
  refine ⟨by norm_num, _, rfl, ?_⟩
  have : 0 < log ((8.51 : ℝ) / 1) := Real.log_pos (by norm_num)
  nlinarith

/-! ### The wind -/

/-- **C80**: the effective temperature is that of a black body of the given luminosity and radius. -/
theorem C80_black_body (c : Const) (L R : ℝ) (hL : 0 ≤ L) (hR : 0 < R) :
    4 * π * (R * c.rsol) ^ 2 * c.sigma * teff c L R ^ 4 = L * c.lsol := by
  have h1 := c.rsol_pos
  have h2 := c.sigma_pos
  have h3 := c.lsol_pos
  have hp := Real.pi_pos
  unfold teff
  have h0 : 0 ≤ L * c.lsol / (4.0 * π * (R * c.rsol) ^ 2) / c.sigma := by positivity
  have hq : ((L * c.lsol / (4.0 * π * (R * c.rsol) ^ 2) / c.sigma) ^ (1.0 / 4.0 : ℝ)) ^ 4
      = L * c.lsol / (4 * π * (R * c.rsol) ^ 2) / c.sigma := by
    rw [← Real.rpow_natCast (_ ^ (1.0 / 4.0 : ℝ)) 4, ← Real.rpow_mul h0]
    norm_num
  rw [hq]
  field_simp

theorem beta_eq (junk : ℝ) (r : Row) : beta junk r =
    if ∃ v ∈ r.h1, v ≤ 0.01 then
      (if r.m < 10 then 0.125 else if r.m ≤ 120 then 0.125 + (r.m - 10) * (1 / 16) else 7)
    else (if r.m < 1.4 then 0.5 else if r.m ≤ 120 then 0.5 + (r.m - 1.4) * (65 / 1186) else 7) := by
  unfold beta
  dsimp only
  by_cases he : ∃ v ∈ r.h1, v ≤ 0.01
  · simp only [he, true_and, and_true, if_true]
    by_cases h1 : r.m < 10
    · rw [if_neg (by intro h; linarith [h.1]), if_pos h1, if_pos h1]
    · rw [if_neg h1, if_neg h1]
      rw [not_lt] at h1
      by_cases h2 : r.m ≤ 120
      · rw [if_pos ⟨h1, h2⟩, if_pos h2]
        norm_num
        ring
      · rw [if_neg (fun h => h2 h.2), if_neg h2, if_pos (not_le.1 h2)]
  · simp only [he, false_and, and_false, if_false]
    by_cases h1 : r.m < 1.4
    · rw [if_neg (by intro h; linarith [h.1]), if_pos h1, if_pos h1]
    · rw [if_neg h1, if_neg h1]
      rw [not_lt] at h1
      by_cases h2 : r.m ≤ 120
      · rw [if_pos ⟨h1, h2⟩, if_pos h2]
        norm_num
        ring
      · rw [if_neg (fun h => h2 h.2), if_neg h2, if_pos (not_le.1 h2)]

/-- **C80**: the factor of the escape speed is defined for every star, between 1/8 and 7 and grows with the mass: nothing is
left of what the memory held before. -/
theorem C80_factor (junk : ℝ) (r : Row) :
    (∀ junk', beta junk r = beta junk' r) ∧ 0.125 ≤ beta junk r ∧ beta junk r ≤ 7 ∧
    ∀ r' : Row, r'.h1 = r.h1 → r.m ≤ r'.m → beta junk r ≤ beta junk r' := by
  refine ⟨fun j => by rw [beta_eq, beta_eq], ?_, ?_, fun r' hh hm => ?_⟩
  · rw [beta_eq]
    split_ifs <;> linarith
  · rw [beta_eq]
    split_ifs <;> linarith
  · rw [beta_eq, beta_eq, hh]
    split_ifs <;> linarith

/-- **C80 (violated)**: the slow wind of giants (1/8 above 900 solar radii) is overwritten by the value for the mass: a giant and
a star of one solar radius have the same factor. -/
theorem C80_giants_violated (junk : ℝ) (r : Row) (x y : ℝ) (hm : r.h1 = some 0.7) : beta junk { r with heCore := 1, logR := x } = beta junk { r with heCore := 0, logR := y } ∧
    0.5 ≤ beta junk { r with heCore := 1, logR := x } := by
  rw [beta_eq, beta_eq]
  refine ⟨rfl, ?_⟩
  dsimp only
  rw [hm, if_neg (by rintro ⟨v, hv, h⟩; simp only [Option.mem_def, Option.some.injEq] at hv; subst hv; norm_num at h)]
  split_ifs <;> linarith

/-- **C80**: stars with less than 0.4 of hydrogen at the surface and hotter than ten thousand degrees have the wind of hot stripped stars,
all others a wind in proportion to the speed of escape. -/
theorem C80_stripped (c : Const) (f : ℝ) (r : Row) :
    (∀ v, r.h1 = some v → v < 0.4 → r.T c > 10000 → vWind c f r = vHot r.lgMdot) ∧
    (r.T c ≤ 10000 → vWind c f r = vEsc c r * f) ∧ (∀ v, r.h1 = some v → 0.4 ≤ v → vWind c f r = vEsc c r * f) ∧
    (r.h1 = none → vWind c f r = vEsc c r * f) := by
  refine ⟨fun v h h' hT => ?_, fun hT => ?_, fun v h h' => ?_, fun h => ?_⟩ <;> unfold vWind
  · rw [if_pos ⟨⟨v, h, h'⟩, by linarith⟩]
  · rw [if_neg (fun hh => by linarith [hh.2])]
  · rw [if_neg]
    rintro ⟨⟨w, hw, hw'⟩, -⟩
    rw [h] at hw
    simp only [Option.mem_def, Option.some.injEq] at hw
    linarith
  · rw [if_neg]
    rintro ⟨⟨w, hw, hw'⟩, -⟩
    rw [h] at hw
    simp at hw

/-- **C80**: the two laws for the wind of hot stripped stars meet. -/
theorem C80_hot (lg : ℝ) :
    (lg ≥ -5.25 → vHot lg = (10 : ℝ) ^ (3.25 + 9 / 55 * (lg + 5.25)) * 1000) ∧
    (lg ≤ -5.25 → vHot lg = (10 : ℝ) ^ (3.25 - 1 / 4 * (lg + 5.25)) * 1000) := by
  refine ⟨fun h => ?_, fun h => ?_⟩
  · unfold vHot
    dsimp only
    rw [if_pos h]
    congr 2
    ring
  · rcases eq_or_lt_of_le h with h' | h'
    · subst h'
      unfold vHot
      dsimp only
      rw [if_pos le_rfl]
      norm_num
    · unfold vHot
      dsimp only
      rw [if_neg (not_le.2 h')]
      congr 2
      ring

/-! ### The orbit -/

variable {c : Const} {r : Row}

/-- **C80**: the phase of the orbit is uniform in time: the mean anomaly is the draw times `2π`. The mean motion, for which the
radius of the donor is taken instead of the separation, drops out. -/
theorem C80_phase (hr : r.Ok) : meanAnomaly c r = 2 * π * r.u := by
  have h1 := c.G_pos
  have h2 := c.msol_pos
  have h3 := c.rsol_pos
  have hR : 0 < r.R := Real.rpow_pos_of_pos (by norm_num) _
  have := hr.m
  have := hr.mAcc
  have : 0 < motion c r := Real.sqrt_pos.2 (by positivity)
  unfold meanAnomaly
  field_simp

theorem axis_pos (hr : r.Ok) : 0 < axis c r := by
  have := c.rsol_pos
  have := hr.sep
  unfold axis
  positivity

theorem e2_nonneg (hr : r.Ok) : 0 < 1 - r.ecc ^ 2 := by nlinarith [hr.ecc0, hr.ecc1]

theorem radius_eq (hr : r.Ok) (E : ℝ) : norm2 (rVec c r E) = axis c r * (1 - r.ecc * cos E) := by
  have ha := axis_pos (c := c) hr
  have h1 : 0 ≤ 1 - r.ecc * cos E := by nlinarith [hr.ecc0, hr.ecc1, cos_le_one E, neg_one_le_cos E]
  unfold norm2 rVec
  rw [Real.sqrt_eq_iff_mul_self_eq (by positivity) (by positivity)]
  have hs := Real.sq_sqrt (e2_nonneg hr).le
  have ht := Real.sin_sq_add_cos_sq E
  dsimp only
  generalize √(1 - r.ecc ^ 2) = b at *
  generalize axis c r = a at *
  linear_combination (a ^ 2 * sin E ^ 2) * hs + a ^ 2 * (1 - r.ecc ^ 2) * ht

theorem in_pos (hr : r.Ok) (E : ℝ) : 0 < 1 - r.ecc ^ 2 * cos E ^ 2 := by
  have h1 := e2_nonneg hr
  have h2 : cos E ^ 2 ≤ 1 := by nlinarith [Real.sin_sq_add_cos_sq E, sq_nonneg (sin E)]
  nlinarith [sq_nonneg r.ecc]

theorem vDir_sq (hr : r.Ok) (E : ℝ) : norm2 (vDir c r E) = axis c r * √(1 - r.ecc ^ 2 * cos E ^ 2) := by
  have ha := axis_pos (c := c) hr
  have hs := Real.sq_sqrt (e2_nonneg hr).le
  have ht := Real.sin_sq_add_cos_sq E
  unfold norm2 vDir
  rw [Real.sqrt_eq_iff_mul_self_eq (by positivity) (by positivity)]
  have hq := Real.sq_sqrt (in_pos hr E).le
  dsimp only
  generalize √(1 - r.ecc ^ 2 * cos E ^ 2) = q at *
  generalize √(1 - r.ecc ^ 2) = b at *
  generalize axis c r = a at *
  linear_combination (a ^ 2 * cos E ^ 2) * hs + a ^ 2 * ht - a ^ 2 * hq

theorem dist_pos (hr : r.Ok) (E : ℝ) : 0 < 1 - r.ecc * cos E := by nlinarith [hr.ecc0, hr.ecc1, cos_le_one E, neg_one_le_cos E]

theorem cosAngle_eq (hr : r.Ok) (E : ℝ) : cosAngle c r E = r.ecc * sin E / √(1 - r.ecc ^ 2 * cos E ^ 2) := by
  have ha := axis_pos (c := c) hr
  have hd := dist_pos hr E
  have hs := Real.sq_sqrt (e2_nonneg hr).le
  have hq := Real.sqrt_pos.2 (in_pos hr E)
  unfold cosAngle
  rw [radius_eq hr, vDir_sq hr]
  simp only [rVec, vDir]
  generalize √(1 - r.ecc ^ 2 * cos E ^ 2) = q at *
  generalize √(1 - r.ecc ^ 2) = b at *
  generalize axis c r = a at *
  rw [div_eq_div_iff (by positivity) (by positivity)]
  linear_combination (a ^ 2 * sin E * cos E * q) * hs

/-- **C80**: the separation at the phase is that of the ellipse, the speed is that of the two-body problem, and the cosine of
the angle between position and velocity is a cosine. -/
theorem C80_orbit (hr : r.Ok) (E : ℝ) :
    norm2 (rVec c r E) = axis c r * (1 - r.ecc * cos E) ∧
    vOrb c r E ^ 2 / 2 - c.G * 1e-3 * ((r.m + r.mAcc) * (c.msol * 1e-3)) / norm2 (rVec c r E)
      = -(c.G * 1e-3 * ((r.m + r.mAcc) * (c.msol * 1e-3))) / (2 * axis c r) ∧
    |cosAngle c r E| < 1 := by
  have ha := axis_pos (c := c) hr
  have hd := dist_pos hr E
  have h1 := c.G_pos
  have h2 := c.msol_pos
  have hm := hr.m
  have hm' := hr.mAcc
  refine ⟨radius_eq hr E, ?_, ?_⟩
  · unfold vOrb
    rw [radius_eq hr]
    have h0 : 0 ≤ 2 / (axis c r * (1 - r.ecc * cos E)) - 1 / axis c r := by
      rw [sub_nonneg, div_le_div_iff₀ ha (by positivity)]
      have : 0 < 1 + r.ecc * cos E := by nlinarith [hr.ecc0, hr.ecc1, cos_le_one E, neg_one_le_cos E]
      nlinarith
    rw [Real.sq_sqrt (by positivity)]
    generalize 1 - r.ecc * cos E = d at *
    field_simp
    ring
  · rw [cosAngle_eq hr, abs_div, abs_of_pos (Real.sqrt_pos.2 (in_pos hr E)), div_lt_one (Real.sqrt_pos.2 (in_pos hr E))]
    apply Real.lt_sqrt_of_sq_lt
    rw [sq_abs]
    nlinarith [e2_nonneg hr, Real.sin_sq_add_cos_sq E]

theorem cosAngle_neg (hr : r.Ok) (E : ℝ) : cosAngle c r (-E) = -cosAngle c r E := by
  rw [cosAngle_eq hr, cosAngle_eq hr, sin_neg, cos_neg]
  ring

theorem norm2_pos_r (hr : r.Ok) (E : ℝ) : 0 < norm2 (rVec c r E) := by
  rw [radius_eq hr]
  exact mul_pos (axis_pos hr) (dist_pos hr E)

theorem norm2_pos_v (hr : r.Ok) (E : ℝ) : 0 < norm2 (vDir c r E) := by
  rw [vDir_sq hr]
  exact mul_pos (axis_pos hr) (Real.sqrt_pos.2 (in_pos hr E))

theorem norm2_sq (v : ℝ × ℝ) : norm2 v ^ 2 = v.1 ^ 2 + v.2 ^ 2 := Real.sq_sqrt (by positivity)

theorem relative_eq (hr : r.Ok) (E v w : ℝ) :
    relative (along v (vDir c r E)) (along w (rVec c r E)) = √(v ^ 2 + w ^ 2 - 2 * v * w * cosAngle c r E) := by
  unfold relative
  rw [norm2]
  congr 1
  have h1 := (norm2_pos_r (c := c) hr E).ne'
  have h2 := (norm2_pos_v (c := c) hr E).ne'
  have h3 := norm2_sq (rVec c r E)
  have h4 := norm2_sq (vDir c r E)
  unfold along cosAngle
  dsimp only
  generalize norm2 (rVec c r E) = p at *
  generalize norm2 (vDir c r E) = q at *
  generalize rVec c r E = x at *
  generalize vDir c r E = y at *
  have : ∀ a b : ℝ, a - b = 0 → a = b := fun a b h => by linarith
  apply this
  field_simp
  linear_combination (-(v ^ 2 * p ^ 2)) * h4 - (w ^ 2 * q ^ 2) * h3

/-- **C80**: the relative speed that is used is the speed of the accretor relative to the wind (which blows from the donor) at
the mirror point of the orbit; so it has the right distribution over phases. -/
theorem C80_relative (hr : r.Ok) (f E : ℝ) :
    vRel c f r E = relative (along (vOrb c r (-E)) (vDir c r (-E))) (along (vWind c f r) (rVec c r (-E))) := by
  rw [relative_eq hr, cosAngle_neg hr]
  have : vOrb c r (-E) = vOrb c r E := by
    unfold vOrb
    rw [radius_eq hr, radius_eq hr, cos_neg]
  rw [this]
  unfold vRel
  congr 1
  ring

theorem vOrb_pos (hr : r.Ok) (E : ℝ) : 0 < vOrb c r E := by
  have ha := axis_pos (c := c) hr
  have hd := dist_pos hr E
  have h1 := c.G_pos
  have h2 := c.msol_pos
  have hm := hr.m
  have hm' := hr.mAcc
  apply Real.sqrt_pos.2
  rw [radius_eq hr]
  have h0 : 0 < 2 / (axis c r * (1 - r.ecc * cos E)) - 1 / axis c r := by
    rw [sub_pos, div_lt_div_iff₀ ha (by positivity)]
    have : 0 < 1 + r.ecc * cos E := by nlinarith [hr.ecc0, hr.ecc1, cos_le_one E, neg_one_le_cos E]
    nlinarith
  positivity

theorem vRel_pos (hr : r.Ok) (f E : ℝ) (hw : 0 < vWind c f r) : 0 < vRel c f r E := by
  apply Real.sqrt_pos.2
  have hv := vOrb_pos (c := c) hr E
  obtain ⟨-, -, hk⟩ := C80_orbit (c := c) hr E
  have hk := (abs_lt.1 hk).1
  have : 0 < vOrb c r E * vWind c f r * (1 + cosAngle c r E) := by
    have : 0 < 1 + cosAngle c r E := by linarith
    positivity
  nlinarith [sq_nonneg (vOrb c r E - vWind c f r)]

theorem vHot_pos (lg : ℝ) : 0 < vHot lg := by
  unfold vHot
  have := Real.rpow_pos_of_pos (show (0 : ℝ) < 10 by norm_num)
  dsimp only
  exact mul_pos (this _) (by norm_num)

theorem vWind_pos (hr : r.Ok) (f : ℝ) (hf : 0 < f) : 0 < vWind c f r := by
  unfold vWind
  split
  · exact vHot_pos _
  · have h1 := c.G_pos
    have h2 := c.msol_pos
    have h3 := c.rsol_pos
    have hm := hr.m
    have hR : 0 < r.R := Real.rpow_pos_of_pos (by norm_num) _
    have : 0 < vEsc c r := Real.sqrt_pos.2 (by positivity)
    positivity

/-- A circular orbit of one solar mass around a black hole, wind of fixed speed; and an eccentric one. -/
noncomputable def sample (e : ℝ) : Row := ⟨1, e, 39, 1, -12, 0, -logb 10 9, some 0.7, 0, 0⟩

theorem sample_ok (e : ℝ) (h0 : 0 ≤ e) (h1 : e < 1) : (sample e).Ok := ⟨one_pos, h0, h1, by norm_num [sample], one_pos⟩

/-- **C80 (violated)**: at the point of the orbit itself it is not: the sign of the angle is the wrong one. Where the accretor of
an eccentric orbit recedes from the donor, it meets the wind faster than it does. -/
theorem C80_relative_violated : ∃ r : Row, r.Ok ∧ ∀ (c : Const) (f : ℝ), 0 < f →
    relative (along (vOrb c r (π / 2)) (vDir c r (π / 2))) (along (vWind c f r) (rVec c r (π / 2))) < vRel c f r (π / 2) := by
  refine ⟨sample (1 / 2), sample_ok _ (by norm_num) (by norm_num), fun c f hf => ?_⟩
  have hr := sample_ok (1 / 2) (by norm_num) (by norm_num)
  have hv := vOrb_pos (c := c) hr (π / 2)
  have hw := vWind_pos (c := c) hr f hf
  have hk : 0 < cosAngle c (sample (1 / 2)) (π / 2) := by
    rw [cosAngle_eq hr, sin_pi_div_two, cos_pi_div_two]
    norm_num [sample]
  obtain ⟨-, -, hk1⟩ := C80_orbit (c := c) hr (π / 2)
  have hk1 := (abs_lt.1 hk1).2
  rw [relative_eq hr]
  unfold vRel
  generalize vOrb c (sample (1 / 2)) (π / 2) = v at *
  generalize vWind c f (sample (1 / 2)) = w at *
  generalize cosAngle c (sample (1 / 2)) (π / 2) = k at *
  have hvw : 0 < v * w := by positivity
  apply Real.sqrt_lt_sqrt
  · nlinarith [sq_nonneg (v - w)]
  · nlinarith

/-! ### The accreted mass -/

/-- **C80**: on a circular orbit the captured fraction of the wind is Bondi and Hoyle's,
`(3/2) (G M / w²)² / (2 a²) / (1 + (v / w)²)^(3/2)`. -/
theorem C80_circular (hr : r.Ok) (f E : ℝ) (hf : 0 < f) (he : r.ecc = 0) :
    captured c f r E = 3 / 2 * (c.G * 1e-3 * (r.mAcc * (c.msol * 1e-3)) / vWind c f r ^ 2) ^ 2 / (2 * axis c r ^ 2)
      / √(1 + (vOrb c r E / vWind c f r) ^ 2) ^ 3 * (10 : ℝ) ^ r.lgMdot := by
  have ha := axis_pos (c := c) hr
  have hw := vWind_pos (c := c) hr f hf
  have hv := vOrb_pos (c := c) hr E
  have hR : vRel c f r E = vWind c f r * √(1 + (vOrb c r E / vWind c f r) ^ 2) := by
    unfold vRel
    rw [cosAngle_eq hr, he]
    rw [← Real.sqrt_sq hw.le, ← Real.sqrt_mul (sq_nonneg _), Real.sqrt_sq hw.le]
    congr 1
    field_simp
    ring
  unfold captured
  rw [hR, radius_eq hr, he]
  have hq : 0 < √(1 + (vOrb c r E / vWind c f r) ^ 2) := Real.sqrt_pos.2 (by positivity)
  generalize √(1 + (vOrb c r E / vWind c f r) ^ 2) = q at *
  generalize vWind c f r = w at *
  generalize (10 : ℝ) ^ r.lgMdot = t at *
  rw [zero_mul, sub_zero, mul_one]
  field_simp
  norm_num
  ring

/-- **C80**: no more is accreted than the Eddington limit, something is always accreted, and without a disk next to nothing. -/
theorem C80_limited (hr : r.Ok) (f E : ℝ) (hf : 0 < f) (b : Bool) (edd : ℝ) (hE : 0 < edd) :
    accreted c f b edd r E ≤ edd ∧ 0 < accreted c f b edd r E ∧
    (b = true → disk c f r E ≤ 1 → accreted c f b edd r E ≤ (10 : ℝ) ^ (-99.0 : ℝ)) ∧
    (b = false ∨ 1 < disk c f r E → accreted c f b edd r E = min (captured c f r E) edd) := by
  have h1 := c.G_pos
  have h2 := c.msol_pos
  have hm := hr.mAcc
  have hw := vWind_pos (c := c) hr f hf
  have hv := vRel_pos (c := c) hr f E hw
  have hn := norm2_pos_r (c := c) hr E
  have hp := Real.rpow_pos_of_pos (show (0 : ℝ) < 10 by norm_num)
  have hc : 0 < captured c f r E := by
    have := hp r.lgMdot
    unfold captured
    positivity
  refine ⟨min_le_right _ _, ?_, fun hb hd => ?_, fun h => ?_⟩
  · unfold accreted
    refine lt_min ?_ hE
    split
    · exact hp _
    · exact hc
  · unfold accreted
    rw [if_pos ⟨hb, hd⟩]
    exact min_le_left _ _
  · unfold accreted
    rw [if_neg]
    rintro ⟨h1, h2⟩
    rcases h with h | h
    · rw [h] at h1; simp at h1
    · linarith

/-- **C80**: where the binary has a limit and the scheme is known, every row gives a rate, computed from the root for the row's
eccentricity and the draw's phase, and no row exceeds the limit of the last row. -/
theorem C80_rows (c : Const) (junk : ℝ) (scheme : Scheme) (b : Bool) (root : ℝ → ℝ → ℝ) (s1 s2 : Obj) (rows : List Row)
    (out : List ℝ) (h : bondiHoyle c junk scheme b root s1 s2 rows = .ok out) :
    out.length = rows.length ∧ ∃ x, eddington c s1 s2 = .ok x ∧ (∀ y ∈ out, y ≤ x.1) ∧
    ∀ i (hi : i < rows.length) (ho : i < out.length), ∃ f, factor c junk scheme rows rows[i] = .ok f ∧
      out[i] = accreted c f b x.1 rows[i] (root rows[i].ecc (meanAnomaly c rows[i])) := by
  have hmap : ∀ (g : Row → Except Err ℝ) (l : List Row) (fs : List ℝ), mapE g l = .ok fs →
      fs.length = l.length ∧ ∀ i (hi : i < l.length) (ho : i < fs.length), g l[i] = .ok fs[i] := by
    intro g l
    induction l with
    | nil => intro fs h; simp only [mapE, Except.ok.injEq] at h; subst h; exact ⟨rfl, by simp⟩
    | cons a l ih =>
      intro fs h
      unfold mapE at h
      cases ha : g a with
      | error e => rw [ha] at h; simp at h
      | ok z =>
        rw [ha] at h
        dsimp only at h
        cases hl : mapE g l with
        | error e => rw [hl] at h; simp at h
        | ok zs =>
          rw [hl] at h
          simp only [Except.ok.injEq] at h
          subst h
          obtain ⟨h1, h2⟩ := ih zs hl
          refine ⟨by simp [h1], fun i hi ho => ?_⟩
          cases i with
          | zero => exact ha
          | succ i => exact h2 i (by simpa using hi) (by simpa using ho)
  unfold bondiHoyle at h
  cases hf : mapE (factor c junk scheme rows) rows with
  | error e => rw [hf] at h; simp at h
  | ok fs =>
    rw [hf] at h
    dsimp only at h
    cases he : eddington c s1 s2 with
    | error e => rw [he] at h; simp at h
    | ok x =>
      rw [he] at h
      simp only [Except.ok.injEq] at h
      subst h
      obtain ⟨h1, h2⟩ := hmap _ _ _ hf
      refine ⟨by simp [h1], x, rfl, ?_, fun i hi ho => ?_⟩
      · intro y hy
        obtain ⟨p, -, rfl⟩ := List.mem_map.1 hy
        exact min_le_right _ _
      · refine ⟨fs[i]'(by omega), h2 i hi (by omega), ?_⟩
        simp

/-- **C80**: an unknown scheme and a binary without a compact object are errors. -/
theorem C80_errors (c : Const) (junk : ℝ) (b : Bool) (root : ℝ → ℝ → ℝ) (s1 s2 : Obj) (r : Row) (rows : List Row) :
    bondiHoyle c junk .other b root s1 s2 (r :: rows) = .error .unbound ∧
    (isCO s1.st = false → isCO s2.st = false → bondiHoyle c junk .hurley b root s1 s2 rows = .error .noCO) := by
  refine ⟨rfl, fun h1 h2 => ?_⟩
  have : ∀ l : List Row, ∃ fs, mapE (factor c junk .hurley rows) l = .ok fs := by
    intro l
    induction l with
    | nil => exact ⟨_, rfl⟩
    | cons a l ih =>
      obtain ⟨fs, h⟩ := ih
      refine ⟨√(beta junk a) :: fs, ?_⟩
      unfold mapE
      simp only [factor, h] at *
  obtain ⟨fs, h⟩ := this rows
  unfold bondiHoyle
  rw [h]
  dsimp only
  rw [((C80_accretor c s1 s2).2.2.1 h1 h2)]

/-- **C80 (partial)**: with the second scheme each row has the wind of its own temperature if all rows have the same class of
temperature. -/
theorem C80_scheme_partial (c : Const) (junk : ℝ) (rows : List Row) (h : ∀ x ∈ rows, ∀ y ∈ rows, kudritzki (x.T c) = kudritzki (y.T c)) :
    ∀ r ∈ rows, factor c junk .kudritzki rows r = .ok (kudritzki (r.T c)) := by
  intro r hr
  simp only [factor]
  cases hl : rows.getLast? with
  | none => rw [List.getLast?_eq_none_iff] at hl; subst hl; simp at hr
  | some l => dsimp only; rw [h l (List.mem_of_getLast? hl) r hr]

/-- **C80 (violated)**: otherwise all rows have the wind of the temperature of the last. -/
theorem C80_scheme_violated (c : Const) (junk : ℝ) (hot cool : Row) (h1 : hot.T c ≥ 21000) (h2 : cool.T c ≤ 10000) :
    factor c junk .kudritzki [hot, cool] hot = .ok 1 ∧ kudritzki (hot.T c) = 2.65 := by
  constructor
  · show Except.ok (kudritzki (cool.T c)) = _
    unfold kudritzki
    rw [if_neg (by linarith), if_pos h2]
  · unfold kudritzki
    rw [if_pos h1]

/-- The rows of the previous theorem exist: luminosities of 10⁶ and 1 for one solar radius. -/
theorem teff_mono (c : Const) {L L' R : ℝ} (hL : 0 ≤ L) (h : L ≤ L') : teff c L R ≤ teff c L' R := by
  have h1 := c.sigma_pos
  have h2 := c.lsol_pos
  have hp := Real.pi_pos
  unfold teff
  apply Real.rpow_le_rpow
  · positivity
  · gcongr
  · norm_num

example : ∃ hot cool : Row, hot.T cgs ≥ 21000 ∧ cool.T cgs ≤ 10000 := by
  have hp := Real.pi_gt_three
  have hp' := Real.pi_lt_d2
  have key : ∀ L : ℝ, 0 ≤ L → teff cgs L 1 ^ 4 * (4 * π * (1 * cgs.rsol) ^ 2 * cgs.sigma) = L * cgs.lsol := by
    intro L hL
    rw [← C80_black_body cgs L 1 hL one_pos]
    ring
  have nn : ∀ L : ℝ, 0 ≤ L → 0 ≤ teff cgs L 1 := by
    intro L hL
    have h1 := cgs.sigma_pos
    have h2 := cgs.lsol_pos
    unfold teff
    positivity
  refine ⟨⟨1, 0, 1, 1, 0, 0, 0, none, 6, 0⟩, ⟨1, 0, 1, 1, 0, 0, 0, none, 0, 0⟩, ?_, ?_⟩
  · unfold Row.T Row.R
    dsimp only
    rw [Real.rpow_zero, show (10 : ℝ) ^ (6 : ℝ) = 1000000 by norm_num]
    have h := key 1000000 (by norm_num)
    have h0 := nn 1000000 (by norm_num)
    by_contra hc
    rw [ge_iff_le, not_le] at hc
    have : teff cgs 1000000 1 ^ 4 ≤ 21000 ^ 4 := pow_le_pow_left₀ h0 hc.le 4
    simp only [cgs] at *
    nlinarith
  · unfold Row.T Row.R
    dsimp only
    rw [Real.rpow_zero]
    have h := key 1 (by norm_num)
    have h0 := nn 1 (by norm_num)
    by_contra hc
    rw [not_le] at hc
    have : (10000 : ℝ) ^ 4 ≤ teff cgs 1 1 ^ 4 := pow_le_pow_left₀ (by norm_num) hc.le 4
    simp only [cgs] at *
    nlinarith

/-- **C80 (violated)**: with several rows the limit of the last one is applied to all of them: for a black hole that has grown
from 1 to 10 solar masses the earlier row is limited by ten times its limit. -/
theorem C80_rows_violated : ∃ a b : ERow, ∃ x y, eddRow cgs [] a = .ok x ∧
    eddington cgs ⟨some .BH, [], [a, b]⟩ ⟨none, [], []⟩ = .ok y ∧ y.1 = 10 * x.1 ∧ 0 < x.1 := by
  obtain ⟨m1, h1, hp, -⟩ := C80_black_hole cgs [] ⟨some .BH, 1, some 0⟩ rfl one_pos
  obtain ⟨m2, h2, -, -⟩ := C80_black_hole cgs [] ⟨some .BH, 10, some 0⟩ rfl (by norm_num)
  refine ⟨⟨some .BH, 1, some 0⟩, ⟨some .BH, 10, some 0⟩, _, (m2, 1 - √(8 / 9)), h1, ?_, ?_⟩
  · rw [(C80_accretor cgs _ _).1 rfl]
    simp only [eddLoop]
    rw [h1]
    dsimp only
    rw [h2]
  · have e1 := C80_balance cgs [] _ _ _ h1 hp.ne' (by norm_num)
    have e2 := C80_balance cgs [] _ _ _ h2 hp.ne' (by norm_num)
    have q1 := cgs.msol_pos
    have q2 := cgs.secyer_pos
    have q3 := cgs.clight_pos
    have q4 := cgs.G_pos
    have hpi := Real.pi_pos
    simp only [Option.getD_some] at e1 e2
    generalize 1 - √(8 / 9 : ℝ) = eta at *
    have hk : 0 < eta * (cgs.msol / cgs.secyer) * cgs.clight ^ 2 := by positivity
    have e1' : m1 * (eta * (cgs.msol / cgs.secyer) * cgs.clight ^ 2) = 4 * π * cgs.G * (1 * cgs.msol) * cgs.clight / (0.2 * (1 + 0)) := by
      rw [← e1]; ring
    have e2' : m2 * (eta * (cgs.msol / cgs.secyer) * cgs.clight ^ 2) = 4 * π * cgs.G * (10 * cgs.msol) * cgs.clight / (0.2 * (1 + 0)) := by
      rw [← e2]; ring
    refine ⟨?_, ?_⟩
    · apply mul_right_cancel₀ hk.ne'
      dsimp only
      rw [e2', mul_assoc 10 m1, e1']
      ring
    · dsimp only
      by_contra hc
      rw [not_lt] at hc
      have : 0 < 4 * π * cgs.G * (1 * cgs.msol) * cgs.clight / (0.2 * (1 + 0)) := by positivity
      nlinarith

/-- **C80 (violated)**: more can be accreted than the donor loses. A star of one solar mass well inside its Roche lobe, with a
wind of 10⁻¹² solar masses per year, on a circular orbit around a black hole of 39 solar masses: 1.1 times the wind is
accreted, from a disk and below the Eddington limit. -/
theorem C80_wind_violated (root : ℝ → ℝ → ℝ) : ∃ (r : Row) (s1 s2 : Obj) (x : ℝ), r.Ok ∧
    bondiHoyle cgs 0 .hurley true root s1 s2 [r] = .ok [x] ∧ (10 : ℝ) ^ r.lgMdot < x := by
  have hr := sample_ok 0 le_rfl one_pos
  set E := root (sample 0).ecc (meanAnomaly cgs (sample 0)) with hEdef
  set K := cgs.G * 1e-3 * (cgs.msol * 1e-3) / (cgs.rsol * 1e-2) with hK
  have h1 := cgs.G_pos
  have h2 := cgs.msol_pos
  have h3 := cgs.rsol_pos
  have hK0 : 0 < K := by positivity
  have hb : beta 0 (sample 0) = 0.5 := by
    rw [beta_eq, if_neg, if_pos (by norm_num [sample])]
    rintro ⟨v, hv, h⟩
    simp only [sample, Option.mem_def, Option.some.injEq] at hv
    subst hv
    norm_num at h
  have hf : 0 < √(beta 0 (sample 0)) := Real.sqrt_pos.2 (by rw [hb]; norm_num)
  have hRad : (sample 0).R = 1 / 9 := by
    unfold Row.R sample
    dsimp only
    rw [Real.rpow_neg (by norm_num), Real.rpow_logb (by norm_num) (by norm_num) (by norm_num)]
    norm_num
  have hw : vWind cgs √(beta 0 (sample 0)) (sample 0) ^ 2 = 9 * K := by
    unfold vWind
    rw [if_neg]
    · rw [mul_pow, Real.sq_sqrt (by rw [hb]; norm_num), hb, vEsc, Real.sq_sqrt, hRad]
      · simp only [sample]
        rw [hK]
        field_simp
        norm_num
      · rw [hRad]
        simp only [sample]
        positivity
    · rintro ⟨⟨v, hv, h⟩, -⟩
      simp only [sample, Option.mem_def, Option.some.injEq] at hv
      subst hv
      norm_num at h
  have hv : vOrb cgs (sample 0) E ^ 2 = 40 * K := by
    have ha : axis cgs (sample 0) = cgs.rsol * 1e-2 := by simp [axis, sample]
    unfold vOrb
    rw [radius_eq hr, Real.sq_sqrt, ha]
    · simp only [sample]
      rw [hK]
      norm_num
      field_simp
      norm_num
    · rw [ha]
      simp only [sample]
      have : 2 / (cgs.rsol * 1e-2 * (1 - 0 * cos E)) - 1 / (cgs.rsol * 1e-2) = 1 / (cgs.rsol * 1e-2) := by
        rw [zero_mul, sub_zero, mul_one]
        ring
      rw [this]
      positivity
  have hcap : captured cgs √(beta 0 (sample 0)) (sample 0) E = 1521 / 1372 * (10 : ℝ) ^ (-12 : ℝ) := by
    have ha : axis cgs (sample 0) = cgs.rsol * 1e-2 := by simp [axis, sample]
    have h7 : √(1 + 40 * K / (9 * K)) = 7 / 3 := by
      rw [mul_div_mul_right _ _ hK0.ne', Real.sqrt_eq_iff_mul_self_eq (by norm_num) (by norm_num)]
      norm_num
    rw [C80_circular hr _ E hf rfl, div_pow (vOrb cgs (sample 0) E) _ 2, hv, hw, h7, ha]
    have : cgs.G * 1e-3 * ((sample 0).mAcc * (cgs.msol * 1e-3)) = 39 * K * (cgs.rsol * 1e-2) := by
      rw [hK]
      simp only [sample]
      field_simp
    rw [this]
    have hl : (sample 0).lgMdot = -12 := rfl
    rw [hl]
    generalize (10 : ℝ) ^ (-12 : ℝ) = t
    generalize cgs.rsol * 1e-2 = a at *
    have ha' : a ≠ 0 := by
      rintro rfl
      rw [hK] at hK0
      simp at hK0
    clear_value K
    field_simp
    norm_num
    ring
  have hdisk : 1 < disk cgs √(beta 0 (sample 0)) (sample 0) E := by
    unfold disk
    rw [div_pow (vOrb cgs (sample 0) E) _ 2, div_pow _ (vOrb cgs (sample 0) E) 2, hv, hw, mul_div_mul_right _ _ hK0.ne']
    simp only [sample]
    rw [hK]
    simp only [cgs]
    norm_num
  obtain ⟨mdot, hm, he0, he1⟩ := C80_black_hole cgs [] ⟨some .BH, 39, some 0.7⟩ rfl (by norm_num)
  have hbal := C80_balance cgs [] _ _ _ hm he0.ne' (by norm_num)
  have hmd : (1e-9 : ℝ) ≤ mdot := by
    have hp := Real.pi_gt_three
    simp only [Option.getD_some] at hbal
    generalize 1 - √(8 / 9 : ℝ) = eta at *
    by_contra hc
    rw [not_le] at hc
    have h4 := cgs.secyer_pos
    have h5 := cgs.clight_pos
    have hm0 : 0 ≤ mdot := by
      by_contra hneg
      rw [not_le] at hneg
      have : eta * (mdot * cgs.msol / cgs.secyer) * cgs.clight ^ 2 ≤ 0 := by
        apply mul_nonpos_of_nonpos_of_nonneg _ (by positivity)
        apply mul_nonpos_of_nonneg_of_nonpos he0.le
        apply div_nonpos_of_nonpos_of_nonneg _ h4.le
        exact mul_nonpos_of_nonpos_of_nonneg hneg.le h2.le
      rw [hbal] at this
      have : 0 < 4 * π * cgs.G * (39 * cgs.msol) * cgs.clight / (0.2 * (1 + 0.7)) := by positivity
      linarith
    have : eta * (mdot * cgs.msol / cgs.secyer) * cgs.clight ^ 2 ≤ 1 * (1e-9 * cgs.msol / cgs.secyer) * cgs.clight ^ 2 := by
      gcongr
    rw [hbal] at this
    simp only [cgs] at this
    norm_num at this
    nlinarith
  refine ⟨sample 0, ⟨some .BH, [], [⟨some .BH, 39, some 0.7⟩]⟩, ⟨none, [], []⟩, 1521 / 1372 * (10 : ℝ) ^ (-12 : ℝ), hr, ?_, ?_⟩
  · have hE : eddington cgs ⟨some .BH, [], [⟨some .BH, 39, some 0.7⟩]⟩ ⟨none, [], []⟩ = .ok (mdot, 1 - √(8 / 9)) := by
      rw [(C80_accretor cgs _ _).1 rfl]
      simp only [eddLoop]
      rw [hm]
    have hacc : accreted cgs √(beta 0 (sample 0)) true mdot (sample 0) E = 1521 / 1372 * (10 : ℝ) ^ (-12 : ℝ) := by
      rw [(C80_limited hr _ E hf true mdot (by linarith [show (0 : ℝ) < 1e-9 by norm_num])).2.2.2 (Or.inr hdisk), hcap, min_eq_left]
      refine le_trans ?_ hmd
      norm_num
    unfold bondiHoyle
    simp only [mapE, factor]
    rw [hE]
    simp only [List.zip_cons_cons, List.map_cons]
    rw [← hEdef, hacc]
    rfl
  · show (10 : ℝ) ^ (-12 : ℝ) < _
    have : 0 < (10 : ℝ) ^ (-12 : ℝ) := Real.rpow_pos_of_pos (by norm_num) _
    linarith

/-- **C80**: the speed of escape is that of Newton's law: its square times the radius is twice the gravitational constant times the mass, in units of the SI. -/
theorem C80_escape (c : Const) (r : Row) (hG : 0 < c.G) (hM : 0 < c.msol) (hR : 0 < c.rsol) (hm : 0 ≤ r.m) :
    0 ≤ vEsc c r ∧ vEsc c r ^ 2 * (r.R * (c.rsol / 100)) = 2 * (c.G / 1000) * (r.m * (c.msol / 1000)) := by
  have hr : 0 < r.R := Real.rpow_pos_of_pos (by norm_num) _
  refine ⟨Real.sqrt_nonneg _, ?_⟩
  rw [vEsc, Real.sq_sqrt (by positivity)]
  field_simp
  ring

end Verif.Accretion
