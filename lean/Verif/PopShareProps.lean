import Verif.PopShare
import Mathlib.Data.List.Forall2
/-!
C46 for populations: the steps of a population run have the metallicity of the population.
-/
namespace Verif.PopShare

open Verif.SimProps

theorem loadSteps_set (z : Rat) (ss : List StepCfg) (h : ∀ s ∈ ss, s.usesMet = true → s.name ∈ gridSteps) :
    ∀ m, List.Forall₂ (Meets z) ss (loadSteps m (setMet z ss)).1 := by
  induction ss with
  | nil => intro m; exact .nil
  | cons s ss ih =>
    intro m
    simp only [setMet, List.map_cons, loadSteps]
    refine .cons ?_ (ih (fun t ht => h t (by simp [ht])) _)
    intro hu
    rw [if_pos (h s (by simp) hu)]
    simp [checkStep, StepCfg.get, hu]

/-- A population whose properties have not been loaded: every step that takes a metallicity has that of the population, provided those
steps carry the names the population knows. -/
theorem C46_population_partial (p : Pop) (sh : Shared) (hl : sh.loaded = none) (h : ∀ s ∈ sh.steps, s.usesMet = true → s.name ∈ gridSteps) :
    ∃ got, (evolve p (create p sh)).loaded = some got ∧ List.Forall₂ (Meets p.met) sh.steps got := by
  refine ⟨(loadSteps none (setMet p.met (setMet p.met sh.steps))).1, by simp [evolve, create, hl], ?_⟩
  have h2 : setMet p.met (setMet p.met sh.steps) = setMet p.met sh.steps := by
    simp only [setMet, List.map_map]
    apply List.map_congr_left
    intro s _
    dsimp only [Function.comp]
    split_ifs with h1 <;> first | rfl | simp_all
  rw [h2]
  exact loadSteps_set p.met sh.steps h none

/-- The steps of the flow chart that take a metallicity. -/
example : ∃ sh : Shared, sh.loaded = none ∧ sh.steps.length = 3 ∧ ∀ s ∈ sh.steps, s.usesMet = true → s.name ∈ gridSteps :=
  ⟨⟨[⟨"step_HMS_HMS", true, none⟩, ⟨"step_detached", true, some none⟩, ⟨"step_SN", false, none⟩], 1, none⟩, rfl, rfl, by decide⟩

/-- And the time limit is that of the population. -/
theorem C46_limit (p : Pop) (sh : Shared) : (evolve p (create p sh)).limit = p.limit := by
  unfold evolve create
  split <;> rfl

/-- A metallicity the user fixed for a step is overwritten: what the user wanted is not what is loaded. -/
theorem C46_fixed_violated (z y : Rat) (hzy : z ≠ y) (l t : Rat) :
    let s : StepCfg := ⟨"step_detached", true, some (some y)⟩
    wanted (some z) s = some y ∧ (evolve ⟨z, l⟩ (create ⟨z, l⟩ ⟨[s], t, none⟩)).loaded = some [some z] ∧ some z ≠ some y := by
  refine ⟨rfl, ?_, fun h => hzy (Option.some.inj h)⟩
  have : ("step_detached" : String) ∈ gridSteps := by decide
  simp [evolve, create, setMet, this, loadSteps, checkStep, StepCfg.get]

/-- Properties that are loaded stay as they are: a second population of another metallicity evolves with the grids of the first. -/
theorem C46_shared_violated (a b : Pop) (sh : Shared) (got : List (Option Rat)) (h : (evolve a (create a sh)).loaded = some got) :
    (evolve b (create b (evolve a (create a sh)))).loaded = some got := by
  have h1 : (create b (evolve a (create a sh))).loaded = some got := h
  unfold evolve at *
  rw [h1]
  exact h1

/-- For two populations of different metallicity that means: no step that takes a metallicity has the second one's. -/
theorem C46_shared_all_violated (a b : Pop) (hab : a.met ≠ b.met) (sh : Shared) (hl : sh.loaded = none) (h : ∀ s ∈ sh.steps, s.usesMet = true → s.name ∈ gridSteps) :
    ∃ got, (evolve b (create b (evolve a (create a sh)))).loaded = some got ∧
      List.Forall₂ (fun s g => s.usesMet = true → g ≠ some b.met) sh.steps got := by
  obtain ⟨got, h1, h2⟩ := C46_population_partial a sh hl h
  refine ⟨got, C46_shared_violated a b sh got h1, List.Forall₂.imp ?_ h2⟩
  intro s g hg hu he
  rw [hg hu] at he
  exact hab (Option.some.inj he)

/-- Creating a second population with the same properties changes the time limit of the first before it is evolved. -/
theorem C46_limit_violated (a b : Pop) (sh : Shared) : (evolve a (create b (create a sh))).limit = b.limit := by
  unfold evolve create
  split <;> rfl

/-- The metallicity of the first is then set again: it is evolved with its own. -/
theorem C46_order (a b : Pop) (sh : Shared) (hl : sh.loaded = none) (h : ∀ s ∈ sh.steps, s.usesMet = true → s.name ∈ gridSteps) :
    ∃ got, (evolve a (create b (create a sh))).loaded = some got ∧ List.Forall₂ (Meets a.met) sh.steps got := by
  refine ⟨(loadSteps none (setMet a.met (setMet b.met (setMet a.met sh.steps)))).1, by simp [evolve, create, hl], ?_⟩
  have h2 : setMet a.met (setMet b.met (setMet a.met sh.steps)) = setMet a.met sh.steps := by
    simp only [setMet, List.map_map]
    apply List.map_congr_left
    intro s _
    dsimp only [Function.comp]
    split_ifs with h1 <;> first | rfl | simp_all
  rw [h2]
  exact loadSteps_set a.met sh.steps h none

end Verif.PopShare
