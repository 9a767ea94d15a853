import Verif.PipelineProps
import Verif.PipelineCsvProps
import Verif.PostGrid
import Verif.IFStep
/-!
Property theorems for C105 and C106: the sets of plots and checks name quantities that the other steps of the pipeline make.
-/
namespace Verif.Pipeline

/-- The quantities of a set. -/
def setOf (t : List (Name × List Name)) (s : Name) : List Name := ((t.find? fun p => p.1 = s).map (·.2)).getD []

/-- Plots after the post-processing are of quantities of the collapse of star 1 for the supernova models, and of five of them each. -/
theorem C105_computed (ms : List Name) (x : Name) (hx : x ∈ setOf (plottingSets ms) (chars! "PLOT_AFTER_EXTRA")) :
    ∃ m ∈ ms, ∃ c : PostGrid.CC, x = PostGrid.sOf false ++ m ++ '_' :: c.name.toList := by
  have e : setOf (plottingSets ms) (chars! "PLOT_AFTER_EXTRA") = ms.flatMap fun m =>
       [(chars! "CO_type"), (chars! "SN_type"), (chars! "mass"), (chars! "spin"), (chars! "m_disk_radiated")].map fun q =>
          (chars! "S1_") ++ m ++ (chars! "_") ++ q := by
    simp [setOf, plottingSets]
  rw [e, List.mem_flatMap] at hx
  obtain ⟨m, hm, hx⟩ := hx
  obtain ⟨q, hq, rfl⟩ := List.mem_map.1 hx
  have : ∃ c ∈ [PostGrid.CC.state, .snType, .mass, .spin, .radiated], q = c.name.toList := by
    clear hx
    revert q
    decide +kernel
  obtain ⟨c, -, rfl⟩ := this
  exact ⟨m, hm, c, by simp [PostGrid.sOf]⟩

/-- The checks after the post-processing are of the kind of the compact object and of the supernova. -/
theorem C105_checked : setOf checkingSets (chars! "CHECK_AFTER_EXTRA") = [PostGrid.CC.state, .snType].map fun c => c.name.toList := by
  decide +kernel

/-- What the interpolated step reads for an attribute of the binary and of a star. -/
def readB : List Name := IFStep.bmap.filterMap fun p => match p.2 with
  | .name n => some n.toList
  | _ => none

def readS : List Name := IFStep.smap.filterMap fun p => match p.2 with
  | .name n => some n.toList
  | _ => none

/-- Errors of the interpolation are plotted of quantities that the step reads from the interpolation: columns of the binary, the masses of the stars,
columns of both stars, of which the temperature alone is not read, and numbers of the collapse of star 1 for the supernova models. -/
theorem C105_interpolated (ms : List Name) (x : Name) (hx : x ∈ setOf (plottingSets ms) (chars! "PLOT_AFTER_TRAINING")) :
    ∃ q, x = (chars! "INTERP_ERROR_") ++ q ∧ (q ∈ readB ∨ q ∈ [(chars! "star_1_mass"), (chars! "star_2_mass")] ∨
      (∃ k n, q = PostGrid.sOf k ++ n ∧ (n ∈ readS ∨ n = (chars! "log_Teff"))) ∨
      ∃ m ∈ ms, ∃ c : PostGrid.CC, c.name ∈ IFStep.snNums ∧ q = PostGrid.sOf false ++ m ++ '_' :: c.name.toList) := by
  have e : setOf (plottingSets ms) (chars! "PLOT_AFTER_TRAINING") =
     ([(chars! "age"), (chars! "star_1_mass"), (chars! "star_2_mass"), (chars! "period_days")] ++
      ([(chars! "S1_"), (chars! "S2_")].flatMap fun s =>
        [(chars! "co_core_mass"), (chars! "co_core_radius"), (chars! "he_core_mass"),
         (chars! "he_core_radius"), (chars! "center_h1"), (chars! "center_he4"),
         (chars! "surface_h1"), (chars! "surface_he4"),
         (chars! "surf_avg_omega_div_omega_crit"), (chars! "log_Teff"),
         (chars! "log_L"), (chars! "log_R"), (chars! "spin_parameter"),
         (chars! "lambda_CE_10cent")].map fun q => s ++ q) ++
      (ms.flatMap fun m =>
        [(chars! "mass"), (chars! "spin"), (chars! "m_disk_radiated")].map fun q =>
          (chars! "S1_") ++ m ++ (chars! "_") ++ q)).map
        fun q => (chars! "INTERP_ERROR_") ++ q := by
    unfold setOf plottingSets
    rfl
  rw [e] at hx
  obtain ⟨q, hq, rfl⟩ := List.mem_map.1 hx
  refine ⟨q, rfl, ?_⟩
  rw [List.mem_append, List.mem_append] at hq
  rcases hq with (hq | hq) | hq
  · have : q ∈ readB ∨ q ∈ [(chars! "star_1_mass"), (chars! "star_2_mass")] := by
      clear hx
      revert q
      decide +kernel
    exact this.elim .inl fun h => .inr (.inl h)
  · right; right; left
    obtain ⟨s, hs, hq0⟩ := List.mem_flatMap.1 hq
    obtain ⟨n, hn, rfl⟩ := List.mem_map.1 hq0
    have hs : s = PostGrid.sOf false ∨ s = PostGrid.sOf true := by simpa [PostGrid.sOf] using hs
    have hn : n ∈ readS ∨ n = (chars! "log_Teff") := by
      clear hx hq hq0
      revert n
      decide +kernel
    rcases hs with rfl | rfl
    · exact ⟨false, n, rfl, hn⟩
    · exact ⟨true, n, rfl, hn⟩
  · right; right; right
    obtain ⟨m, hm, hq0⟩ := List.mem_flatMap.1 hq
    obtain ⟨n, hn, rfl⟩ := List.mem_map.1 hq0
    have : ∃ c ∈ [PostGrid.CC.mass, .spin, .radiated], c.name ∈ IFStep.snNums ∧ n = c.name.toList := by
      clear hx hq hq0
      revert n
      decide +kernel
    obtain ⟨c, -, hc, rfl⟩ := this
    exact ⟨m, hm, c, hc, by simp [PostGrid.sOf]⟩

/-- The post-processing reads the profiles from the grid with the original compression: the one that is given first, and the one of that name if none
is given. -/
theorem C106_original (k : K) (c : Cell Name) : ∃ r, rowsAt k (.main 2) c = [r] ∧
    (k.orig.getD c.l [] = [] → r.also = some (base k c ++ [(chars! "ORIGINAL") ++ rlo c.comp, h5 c.slice])) ∧
    ∀ o os, k.orig.getD c.l [] = o :: os → r.also = some (base k c ++ [o ++ rlo c.comp, h5 c.slice]) := by
  refine ⟨_, rfl, fun h => ?_, fun o os h => ?_⟩
  · dsimp only
    rw [h]
    rfl
  · dsimp only
    rw [h]
    rfl

/-- The second file of a row has to be there for the post-processing, the training of profiles, and the plots and checks of interpolators; otherwise it
does not matter. -/
theorem C106_tested (j : Job) (r : Row) (f : File) (hf : r.also = some f) (hg : f ≠ r.grid) :
    f ∈ tested j r ↔ j = .main 2 ∨ j = .main 4 ∨ j = .plots 3 ∨ j = .plots 4 ∨ j = .checks 3 ∨ j = .checks 4 := by
  unfold tested
  split
  · simp [hf]
  · simp [hf]
  · rename_i s
    by_cases h : s = 3 ∨ s = 4
    · rw [if_pos h]
      rcases h with rfl | rfl <;> simp [hf]
    · rw [if_neg h]
      push Not at h
      simp [hg, h.1, h.2]
  · rename_i s
    by_cases h : s = 3 ∨ s = 4
    · rw [if_pos h]
      rcases h with rfl | rfl <;> simp [hf]
    · rw [if_neg h]
      push Not at h
      simp [hg, h.1, h.2]
  · rename_i h1 h2 h3 h4
    simp only [List.mem_singleton]
    constructor
    · exact fun e => absurd e hg
    · rintro (e | e | e | e | e | e)
      · exact absurd e h1
      · exact absurd e h2
      · exact absurd e (h3 _)
      · exact absurd e (h3 _)
      · exact absurd e (h4 _)
      · exact absurd e (h4 _)

/-- The grid of a row has to be there always. -/
theorem C106_tested_grid (j : Job) (r : Row) : r.grid ∈ tested j r := by
  unfold tested
  split <;> simp

end Verif.Pipeline
