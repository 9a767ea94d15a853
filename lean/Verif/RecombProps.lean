import Verif.Recomb
import Mathlib.Tactic.Linarith
import Mathlib.Tactic.Positivity
import Mathlib.Tactic.Ring
import Mathlib.Tactic.FieldSimp
/-! C164: recombination energies of the cells of a stellar profile. -/
namespace Verif.Recomb

open Classical

/-- All columns. -/
def full : Cols := ⟨true, true, true, true, true⟩

theorem avo_pos : 0 < avo := by norm_num [avo]
theorem ev_pos : 0 < ev2erg := by norm_num [ev2erg]
theorem Hw_pos : 0 < Hw := by norm_num [Hw]
theorem Hew_pos : 0 < Hew := by norm_num [Hew]
theorem cm_pos : 0 < inversecm2erg := by norm_num [inversecm2erg, planck, clight]

theorem cell_eq (c : Cell) : cellEnergy c =
    ev2erg * avo * (c.X / Hw * ((1 - c.neutralH) * 13.598434) +
      c.Y / Hew * ((1 - c.neutralHe) * 24.587388 + (c.neutralHe + c.chargeHe - 1) * 54.4177650)) := by
  have h1 := Hw_pos.ne'
  have h2 := Hew_pos.ne'
  unfold cellEnergy profileEnergy
  dsimp only
  field_simp
  ring

theorem clamp_cell (i : Ions) (h : i.Valid) (X Y : ℝ) : clamp (i.cell X Y) = i.cell X Y := by
  obtain ⟨h1, h2, h3, h4, h5, h6, h7⟩ := h
  unfold clamp Ions.cell
  rw [min_eq_right (by linarith), min_eq_right (by linarith), max_eq_left (by linarith)]

/-- C164. The energy of a cell of any mixture of ions is what its ions set free. -/
theorem C164_ions (i : Ions) (h : i.Valid) (X Y : ℝ) : cellEnergy (clamp (i.cell X Y)) = i.energy X Y := by
  rw [clamp_cell i h, cell_eq]
  obtain ⟨-, -, h3, -, -, -, h7⟩ := h
  unfold Ions.cell Ions.energy
  dsimp only
  rw [show 1 - i.HI = i.HII by linarith, show 1 - i.HeI = i.HeII + i.HeIII by linarith,
    show i.HeI + (i.HeII + 2 * i.HeIII) - 1 = i.HeIII by linarith]
  ring

/-- C164. The energy is not negative, zero for a neutral gas, and at most that of the fully ionised gas. -/
theorem C164_range (i : Ions) (h : i.Valid) (X Y : ℝ) (hX : 0 ≤ X) (hY : 0 ≤ Y) :
    0 ≤ i.energy X Y ∧ i.energy X Y ≤ (⟨0, 1, 0, 0, 1⟩ : Ions).energy X Y ∧ (⟨1, 0, 1, 0, 0⟩ : Ions).energy X Y = 0 := by
  obtain ⟨h1, h2, h3, h4, h5, h6, h7⟩ := h
  have a := avo_pos
  have b := ev_pos
  have c := Hw_pos
  have d := Hew_pos
  refine ⟨by unfold Ions.energy; positivity, ?_, by simp [Ions.energy]⟩
  unfold Ions.energy
  dsimp only
  have e1 : i.HII * 13.598434 ≤ 1 * 13.598434 := by linarith
  have e2 : i.HeII * 24.587388 + i.HeIII * (24.587388 + 54.4177650) ≤ 0 * 24.587388 + 1 * (24.587388 + 54.4177650) := by linarith
  gcongr

/-- C164. A gas with more of its electrons removed sets free more. -/
theorem C164_monotone (i j : Ions) (X Y : ℝ) (hX : 0 ≤ X) (hY : 0 ≤ Y) (h1 : i.HII ≤ j.HII)
    (h2 : i.HeII + i.HeIII ≤ j.HeII + j.HeIII) (h3 : i.HeIII ≤ j.HeIII) : i.energy X Y ≤ j.energy X Y := by
  have a := avo_pos
  have b := ev_pos
  have c := Hw_pos
  have d := Hew_pos
  have e1 : i.HII * 13.598434 ≤ j.HII * 13.598434 := by linarith
  have e2 : i.HeII * 24.587388 + i.HeIII * (24.587388 + 54.4177650) ≤ j.HeII * 24.587388 + j.HeIII * (24.587388 + 54.4177650) := by linarith
  unfold Ions.energy
  gcongr

/-- C164. A profile of mixtures of ions with hydrogen or helium: no error, the energy of every cell, and the profile is left as it was. -/
theorem C164_profile (tol : ℝ) (ht : 0 < tol) (p : List (Ions × ℝ × ℝ)) (hne : p ≠ []) (h : ∀ c ∈ p, c.1.Valid ∧ 0 ≤ c.2.1 ∧ 0 ≤ c.2.2) :
    recomb full tol (p.map fun c => c.1.cell c.2.1 c.2.2) = (.ok (p.map fun c => c.1.energy c.2.1 c.2.2), p.map fun c => c.1.cell c.2.1 c.2.2) := by
  have hc : (p.map fun c => c.1.cell c.2.1 c.2.2).map clamp = p.map fun c => c.1.cell c.2.1 c.2.2 := by
    rw [List.map_map]
    exact List.map_congr_left fun c hm => clamp_cell c.1 (h c hm).1 _ _
  have he : (p.map fun c => c.1.cell c.2.1 c.2.2).map cellEnergy = p.map fun c => c.1.energy c.2.1 c.2.2 := by
    rw [List.map_map]
    refine List.map_congr_left fun c hm => ?_
    have := C164_ions c.1 (h c hm).1 c.2.1 c.2.2
    rwa [clamp_cell c.1 (h c hm).1] at this
  have hn : ¬ noneAbove tol (p.map fun c => c.1.energy c.2.1 c.2.2) := by
    obtain ⟨c, hm⟩ := List.exists_mem_of_ne_nil p hne
    have := (C164_range c.1 (h c hm).1 c.2.1 c.2.2 (h c hm).2.1 (h c hm).2.2).1
    exact fun hh => hh ⟨_, List.mem_map_of_mem hm, by linarith⟩
  unfold recomb
  rw [hc, he, if_neg hn, if_neg (by decide)]

/-- C164. Columns that are missing: all energies are zero and the profile is left as it was. -/
theorem C164_missing (cols : Cols) (tol : ℝ) (p : List Cell) (h : (cols.y && cols.x && cols.nH && cols.nHe && cols.qHe) = false) :
    recomb cols tol p = (.ok (p.map fun _ => 0), p) := by
  unfold recomb
  rw [h]
  rfl

/-- C164. The result has one energy for each cell; the error appears exactly if all cells are at or below minus the tolerance. -/
theorem C164_errors (tol : ℝ) (p : List Cell) :
    ((recomb full tol p).1 = .error .value ↔ ∀ c ∈ p, cellEnergy (clamp c) ≤ -tol) ∧
    (∀ r, (recomb full tol p).1 = .ok r → r = p.map fun c => cellEnergy (clamp c)) := by
  have hn : noneAbove tol ((p.map clamp).map cellEnergy) ↔ ∀ c ∈ p, cellEnergy (clamp c) ≤ -tol := by
    unfold noneAbove
    constructor
    · intro h c hm
      by_contra hc
      exact h ⟨_, List.mem_map_of_mem (List.mem_map_of_mem hm), not_le.1 hc⟩
    · rintro h ⟨x, hx, hgt⟩
      rw [List.map_map] at hx
      obtain ⟨c, hm, rfl⟩ := List.mem_map.1 hx
      exact absurd (h c hm) (not_le.2 hgt)
  unfold recomb
  rw [if_neg (by decide)]
  by_cases hb : noneAbove tol ((p.map clamp).map cellEnergy)
  · rw [if_pos hb]
    exact ⟨⟨fun _ => hn.1 hb, fun _ => rfl⟩, fun r hr => by simp at hr⟩
  · rw [if_neg hb]
    refine ⟨⟨fun h => by simp at h, fun h => absurd (hn.2 h) hb⟩, fun r hr => ?_⟩
    injection hr with hr
    rw [← hr, List.map_map]
    rfl

/-- C164. Calling it again with the changed profile gives the same. -/
theorem C164_again (cols : Cols) (tol : ℝ) (p : List Cell) : recomb cols tol (recomb cols tol p).2 = recomb cols tol p := by
  have hc : ∀ c, clamp (clamp c) = clamp c := by
    intro c
    unfold clamp
    simp
  have hm : ((p.map clamp).map clamp) = p.map clamp := by rw [List.map_map]; exact List.map_congr_left fun c _ => hc c
  by_cases h1 : (cols.y && cols.x && cols.nH && cols.nHe && cols.qHe) = false
  · rw [C164_missing cols tol p h1, C164_missing cols tol p h1]
  · have h1' : ¬ (!(cols.y && cols.x && cols.nH && cols.nHe && cols.qHe)) = true := by
      rw [Bool.not_eq_false] at h1
      rw [h1]
      decide
    have key : ∀ q, recomb cols tol q = if noneAbove tol ((q.map clamp).map cellEnergy) then (.error .value, q.map clamp)
        else (.ok ((q.map clamp).map cellEnergy), q.map clamp) := fun q => by unfold recomb; rw [if_neg h1']
    have h2 : (recomb cols tol p).2 = p.map clamp := by rw [key]; split <;> rfl
    rw [h2, key, key p, hm]

/-- C164. A neutral fraction above one is changed in the profile of the caller. -/
theorem C164_changes_violated (tol : ℝ) (p : List Cell) (c : Cell) (hc : c ∈ p) (h : 1 < c.neutralH) : (recomb full tol p).2 ≠ p ∧ c ∉ (recomb full tol p).2 := by
  have h2 : (recomb full tol p).2 = p.map clamp := by
    unfold recomb
    rw [if_neg (by decide)]
    by_cases hb : noneAbove tol ((p.map clamp).map cellEnergy)
    · rw [if_pos hb]
    · rw [if_neg hb]
  have hn : c ∉ (recomb full tol p).2 := by
    rw [h2]
    intro hm
    obtain ⟨d, -, hd⟩ := List.mem_map.1 hm
    have : c.neutralH ≤ 1 := by rw [← hd]; exact min_le_left _ _
    linarith
  exact ⟨fun he => hn (by rw [he]; exact hc), hn⟩

/-- C164. A cell whose mean charge of helium is too small for its neutral fraction has a negative energy, and one good cell is enough for no error. -/
theorem C164_negative_violated (tol : ℝ) (ht : 0 < tol) (ht' : tol < 1) (Y : ℝ) (hY : 0 < Y) :
    ∃ r, (recomb full tol [⟨0, Y, 1, 0, 0⟩, ⟨0, Y, 1, 1, 0⟩]).1 = .ok [r, 0] ∧ r = -(ev2erg * avo * (Y / Hew * 29.830377)) ∧ r < 0 := by
  have e1 : cellEnergy (clamp ⟨0, Y, 1, 0, 0⟩) = -(ev2erg * avo * (Y / Hew * 29.830377)) := by
    rw [cell_eq]
    norm_num [clamp]
  have e2 : cellEnergy (clamp ⟨0, Y, 1, 1, 0⟩) = 0 := by
    rw [cell_eq]
    norm_num [clamp]
  have a := avo_pos
  have b := ev_pos
  have d := Hew_pos
  refine ⟨_, ?_, rfl, by have : 0 < ev2erg * avo * (Y / Hew * 29.830377) := by positivity
                         linarith⟩
  unfold recomb
  rw [if_neg (by decide), if_neg]
  · simp only [List.map_cons, List.map_nil, e1, e2]
  · exact fun hh => hh ⟨0, by simp [e2], by linarith⟩

/-- C164. An empty profile gives an error if it has the columns. -/
theorem C164_empty (tol : ℝ) : (recomb full tol []).1 = .error .value ∧ h2 full tol [] = .error .value := by
  constructor
  · exact (C164_errors tol []).1.2 (by simp)
  · unfold h2
    rw [if_neg (by decide), if_pos]
    simp [noneAbove]

/-- C164. The energy of forming molecules is proportional to hydrogen, zero without the column, and never an error for a profile with mass fractions. -/
theorem C164_molecules (cols : Cols) (tol : ℝ) (ht : 0 < tol) (p : List Cell) (hne : p ≠ []) (h : ∀ c ∈ p, 0 ≤ c.X) :
    ∃ k > 0, h2 cols tol p = .ok (p.map fun c => if cols.x then k * c.X else 0) := by
  have a := avo_pos
  have c := Hw_pos
  have d := cm_pos
  refine ⟨35999.582894 * inversecm2erg / (2 * Hw) * avo, by positivity, ?_⟩
  unfold h2
  cases hx : cols.x with
  | false => simp
  | true =>
    have hn : ¬ noneAbove tol (p.map h2Cell) := by
      obtain ⟨c', hm⟩ := List.exists_mem_of_ne_nil p hne
      refine fun hh => hh ⟨_, List.mem_map_of_mem hm, ?_⟩
      have h0 := h c' hm
      have : 0 ≤ h2Cell c' := by unfold h2Cell; positivity
      linarith
    simp only [reduceCtorEq, if_false, if_neg hn, if_true]
    congr 1
    refine List.map_congr_left fun c' _ => ?_
    unfold h2Cell
    ring

/-- A half ionised cell of solar composition between a neutral and a fully ionised one. -/
example : ∃ a b c, recomb full 0.001 [(⟨1, 0, 1, 0, 0⟩ : Ions).cell 0.7 0.28, (⟨0.5, 0.5, 0.25, 0.5, 0.25⟩ : Ions).cell 0.7 0.28, (⟨0, 1, 0, 0, 1⟩ : Ions).cell 0.7 0.28] =
    (.ok [a, b, c], [⟨0.7, 0.28, 1, 1, 0⟩, ⟨0.7, 0.28, 0.5, 0.25, 1⟩, ⟨0.7, 0.28, 0, 0, 2⟩]) ∧ a = 0 ∧ 0 < b ∧ b < c := by
  have hv : ∀ x ∈ ([((⟨1, 0, 1, 0, 0⟩ : Ions), ((0.7 : ℝ), (0.28 : ℝ))), (⟨0.5, 0.5, 0.25, 0.5, 0.25⟩, 0.7, 0.28), (⟨0, 1, 0, 0, 1⟩, 0.7, 0.28)] : List (Ions × ℝ × ℝ)),
      x.1.Valid ∧ 0 ≤ x.2.1 ∧ 0 ≤ x.2.2 := by
    intro x hx
    simp only [List.mem_cons, List.not_mem_nil, or_false] at hx
    rcases hx with rfl | rfl | rfl <;> unfold Ions.Valid <;> norm_num
  have := C164_profile 0.001 (by norm_num) _ (by simp) hv
  refine ⟨(⟨1, 0, 1, 0, 0⟩ : Ions).energy 0.7 0.28, (⟨0.5, 0.5, 0.25, 0.5, 0.25⟩ : Ions).energy 0.7 0.28, (⟨0, 1, 0, 0, 1⟩ : Ions).energy 0.7 0.28, ?_, ?_, ?_, ?_⟩
  · simp only [List.map_cons, List.map_nil] at this
    rw [this]
    norm_num [Ions.cell]
  · norm_num [Ions.energy]
  · norm_num [Ions.energy, ev2erg, avo, Hw, Hew]
  · norm_num [Ions.energy, ev2erg, avo, Hw, Hew]

/-- C164. Cells with neutral fractions slightly above one and charges slightly below zero, as profiles have from rounding, count as neutral. -/
theorem C164_rounding (c : Cell) (h1 : 1 ≤ c.neutralH) (h2 : 1 ≤ c.neutralHe) (h3 : c.chargeHe ≤ 0) : cellEnergy (clamp c) = 0 := by
  rw [cell_eq]
  unfold clamp
  dsimp only
  rw [min_eq_left h1, min_eq_left h2, max_eq_right h3]
  ring

/-- C164. A gram of atomic hydrogen sets free 2.1 to 2.2 times 10¹² erg by forming molecules, between 4.4 and 4.5 electronvolt for each of them. -/
theorem C164_molecule_energy (c : Cell) (h : c.X = 1) :
    2.1e12 < h2Cell c ∧ h2Cell c < 2.2e12 ∧ 4.4 * ev2erg < h2Cell c * (2 * Hw) / avo ∧ h2Cell c * (2 * Hw) / avo < 4.5 * ev2erg := by
  unfold h2Cell
  rw [h]
  refine ⟨?_, ?_, ?_, ?_⟩ <;> norm_num [inversecm2erg, planck, clight, Hw, avo, ev2erg]

end Verif.Recomb
