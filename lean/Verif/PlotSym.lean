import Verif.TermFlags
import Verif.Curves

/-!
# Symbols of codes, states and classes in the plots of grids

Model of tables of `DEFAULT_MARKERS_COLORS_LEGENDS` (`/repo/posydon/visualization/plot_defaults.py` l.124-747) and of the legend that
`plot2D.plot_panel` collects (`/repo/posydon/visualization/plot2D.py` l.500-510 and l.693-696).

Simplifications.  The tables of the histories of mass transfer and of the combined flags are modelled in `Markers.lean` and `MTLabel.lean`.
No table here has a key twice.  A flag that is not in the table gets the entry modelled in `Markers.lean`; here the look-up is then `none`.
-/

namespace Verif.PlotSym

/-- Marker, width of lines, colour (`none`: by the quantity shown) and text of the legend. -/
structure Entry where
  marker : String
  width : ℚ
  colour : Option String
  text : String
deriving DecidableEq

abbrev Table := List (String × Entry)

/-- `d[flag]`. -/
def get (t : Table) (f : String) : Option Entry := (t.find? fun p => p.1 = f).map (·.2)

/-- `'termination_flag_1'`, l.125-229. -/
def ends : Table :=
  [("terminate due to primary depleting carbon (inverse sn?)", ⟨"s", 2, none, "Reached end life"⟩),
   ("Primary has depleted central carbon", ⟨"s", 2, none, "Reached end life"⟩),
   ("Secondary has depleted central carbon", ⟨"o", 2, none, "Reached end life"⟩),
   ("Primary got stopped before central carbon depletion", ⟨"s", 2, none, "Reached end life"⟩),
   ("Secondary got stopped before central carbon depletion", ⟨"o", 2, none, "Reached end life"⟩),
   ("Primary enters pair-instability regime", ⟨"s", 2, none, "Reached end life"⟩),
   ("Secondary enters pair-instability regime", ⟨"o", 2, none, "Reached end life"⟩),
   ("Primary enters pulsational pair-instability regime", ⟨"s", 2, none, "Reached end life"⟩),
   ("Secondary enters pulsational pair-instability regime", ⟨"o", 2, none, "Reached end life"⟩),
   ("offcenter neon ignition for primary", ⟨"s", 2, none, "Reached end life"⟩),
   ("offcenter neon ignition for secondary", ⟨"o", 2, none, "Reached end life"⟩),
   ("forced_initial_RLO", ⟨".", 1, some "black", "Initial RLOF"⟩),
   ("overflow from L1 at ZAMS", ⟨".", 1, some "black", "Initial RLOF"⟩),
   ("Terminate because of overflowing initial model", ⟨".", 1, some "black", "Initial RLOF"⟩),
   ("overflow from L2 point for q>1 at ZAMS", ⟨".", 1, some "black", "Initial RLOF"⟩),
   ("overflow from L2 surface for q<1 at ZAMS", ⟨".", 1, some "black", "Initial RLOF"⟩),
   ("overflow from L2 surface for q>1 at ZAMS", ⟨".", 1, some "black", "Initial RLOF"⟩),
   ("overflow from L2 surface for q<1", ⟨"D", 1, some "black", "Unstable RLOF"⟩),
   ("overflow from L2 (D_L2) distance for q(=Macc/Mdon)>1, donor is star 1", ⟨"D", 1, some "black", "Unstable RLOF"⟩),
   ("overflow from L2 (R_L2) surface for q(=Macc/Mdon)<1, donor is star 1", ⟨"D", 1, some "black", "Unstable RLOF"⟩),
   ("overflow from L2 (R_L2) surface for q(=Macc/Mdon)>1, donor is star 1", ⟨"D", 1, some "black", "Unstable RLOF"⟩),
   ("overflow from L2 (D_L2) distance for q(=Macc/Mdon)<1, donor is star 1", ⟨"D", 1, some "black", "Unstable RLOF"⟩),
   ("overflow from L2 (R_L2) surface for q(=Macc/Mdon)<1, donor is star 2", ⟨"D", 1, some "black", "Unstable RLOF"⟩),
   ("overflow from L2 (R_L2) surface for q(=Macc/Mdon)>1, donor is star 2", ⟨"D", 1, some "black", "Unstable RLOF"⟩),
   ("reached maximum mass transfer rate: 10.0d0", ⟨"D", 1, some "black", "Unstable RLOF"⟩),
   ("Reached maximum mass transfer rate: 1d-1", ⟨"D", 1, some "black", "Unstable RLOF"⟩),
   ("Reached the critical mt rate", ⟨"D", 1, some "black", "Unstable RLOF"⟩),
   ("Reached TPAGB", ⟨"s", 2, none, "Initial RLOF"⟩),
   ("Both stars fill their Roche Lobe and at least one of them is off MS", ⟨"D", 1, some "black", "Unstable RLOF"⟩),
   ("Both stars fill their Roche Lobe and t_kh > t_acc", ⟨"D", 1, some "black", "Unstable RLOF"⟩),
   ("overflow from L2, t_kh > t_acc and w > w_crit_lim, donor is star 1", ⟨"D", 1, some "black", "Unstable RLOF"⟩),
   ("overflow from L2, t_kh > t_acc and w > w_crit_lim, donor is star 2", ⟨"D", 1, some "black", "Unstable RLOF"⟩),
   ("Terminate due to L2 overflow during case A", ⟨"D", 1, some "black", "Unstable RLOF"⟩),
   ("Reached maximum mass transfer rate: Exceeded photon trapping radius", ⟨"D", 1, some "black", "Unstable RLOF"⟩),
   ("Terminate because accretor (r-rl)/rl > accretor_overflow_terminate", ⟨"D", 1, some "black", "Unstable RLOF"⟩),
   ("logQ_limit", ⟨"x", 1, some "red", "logQ_limit"⟩),
   ("logQ_min_limit", ⟨"x", 1, some "red", "logQ_limit"⟩),
   ("min_timestep_limit", ⟨"x", 1, some "red", "Not converged"⟩),
   ("reach cluster timelimit", ⟨"x", 1, some "red", "Not converged"⟩),
   ("no termination code", ⟨"x", 1, some "red", "no termination code"⟩),
   ("envelope_mass_limit", ⟨"s", 2, none, "Reached end life"⟩),
   ("gamma_center_limit", ⟨"s", 2, none, "Reached end life"⟩),
   ("max_age", ⟨"s", 2, none, "Reached end life"⟩),
   ("Initial RLOF", ⟨".", 1, some "black", "Initial RLOF"⟩),
   ("Not converged", ⟨"x", 1, some "red", "Not converged"⟩),
   ("fe_core_infall_limit", ⟨"x", 1, some "tab:purple", "fe_core_infall_limit"⟩),
   ("ignored_no_binary_history", ⟨".", 1, some "black", "Initial RLOF"⟩),
   ("ignored_no_RLO", ⟨".", 1, some "black", "Initial RLOF"⟩),
   ("unknown", ⟨"+", 1, some "red", "unknown"⟩)]

/-- `'termination_flag_3'`, l.385-426. -/
def star1 : Table :=
  [("H-rich_non_burning", ⟨"v", 2, some "tab:orange", "H-rich H non-burning"⟩),
   ("accreted_He_Core_H_burning", ⟨"v", 2, some "black", "accreted He core H burning"⟩),
   ("H-rich_Core_H_burning", ⟨"s", 2, some "tab:olive", "H-rich core H burning"⟩),
   ("H-rich_Shell_H_burning", ⟨"s", 2, some "tab:red", "H-rich shell H burning"⟩),
   ("H-rich_Core_C_burning", ⟨"s", 2, some "tab:pink", "H-rich core C burning"⟩),
   ("H-rich_Core_C_depleted", ⟨"s", 2, some "tab:brown", "H-rich central C depletion"⟩),
   ("H-rich_Core_He_burning", ⟨"s", 2, some "tab:blue", "H-rich core He burning"⟩),
   ("H-rich_Core_He_depleted", ⟨"s", 2, some "tab:green", "H-rich shell He burning"⟩),
   ("stripped_He_Core_He_burning", ⟨"o", 2, some "tab:blue", "stripped He-star core He burning"⟩),
   ("stripped_He_Core_He_depleted", ⟨"o", 2, some "tab:green", "stripped He-star shell He burning"⟩),
   ("stripped_He_Core_C_burning", ⟨"o", 2, some "tab:pink", "stripped He-star core C burning"⟩),
   ("stripped_He_Core_C_depleted", ⟨"o", 2, some "tab:brown", "stripped He-star C depletion"⟩),
   ("stripped_He_non_burning", ⟨"o", 2, some "gray", "stripped He-star non burning"⟩),
   ("stripped_He_Core_H_burning", ⟨"x", 1, some "black", "unknown"⟩),
   ("stripped_He_Shell_H_burning", ⟨"x", 1, some "black", "unknown"⟩),
   ("undetermined_evolutionary_state", ⟨"x", 1, some "black", "unknown"⟩),
   ("BH", ⟨"*", 1, some "black", "BH"⟩),
   ("NS", ⟨"*", 1, some "tab:gray", "NS"⟩),
   ("ignored_no_binary_history", ⟨"s", 2, some "tab:olive", "H-rich core H burning"⟩),
   ("ignored_no_RLO", ⟨"s", 2, some "tab:olive", "H-rich core H burning"⟩)]

/-- `'termination_flag_4'`, l.427-470. -/
def star2 : Table :=
  [("H-rich_non_burning", ⟨"v", 2, some "tab:orange", "H-rich H non-burning"⟩),
   ("accreted_He_Core_H_burning", ⟨"v", 2, some "black", "accreted He core H burning"⟩),
   ("H-rich_Core_H_burning", ⟨"s", 2, some "tab:olive", "H-rich core H burning"⟩),
   ("H-rich_Shell_H_burning", ⟨"s", 2, some "tab:red", "H-rich shell H burning"⟩),
   ("H-rich_Core_C_burning", ⟨"s", 2, some "tab:pink", "H-rich core C burning"⟩),
   ("H-rich_Core_C_depleted", ⟨"s", 2, some "tab:brown", "H-rich central C depletion"⟩),
   ("H-rich_Core_He_burning", ⟨"s", 2, some "tab:blue", "H-rich core He burning"⟩),
   ("H-rich_Near_Core_C_depleted", ⟨"s", 2, some "tab:purple", "H-rich near central C depletion"⟩),
   ("H-rich_Core_He_depleted", ⟨"s", 2, some "tab:green", "H-rich shell He burning"⟩),
   ("stripped_He_Core_He_burning", ⟨"o", 2, some "tab:blue", "stripped He-star core He burning"⟩),
   ("stripped_He_Core_He_depleted", ⟨"o", 2, some "tab:green", "stripped He-star shell He burning"⟩),
   ("stripped_He_Core_C_burning", ⟨"o", 2, some "tab:pink", "stripped He-star core C burning"⟩),
   ("stripped_He_Core_C_depleted", ⟨"o", 2, some "tab:brown", "stripped He-star C depletion"⟩),
   ("stripped_He_non_burning", ⟨"o", 2, some "gray", "stripped He-star non burning"⟩),
   ("stripped_He_Core_H_burning", ⟨"x", 1, some "black", "unknown"⟩),
   ("stripped_He_Shell_H_burning", ⟨"x", 1, some "black", "unknown"⟩),
   ("undetermined_evolutionary_state", ⟨"x", 1, some "black", "unknown"⟩),
   ("BH", ⟨"*", 1, some "black", "BH"⟩),
   ("NS", ⟨"*", 1, some "tab:gray", "NS"⟩),
   ("ignored_no_binary_history", ⟨"s", 2, some "tab:olive", "H-rich core H buring"⟩),
   ("ignored_no_RLO", ⟨"s", 2, some "tab:olive", "H-rich core H buring"⟩)]

/-- `'debug'`, l.592-697. -/
def debug : Table :=
  [("terminate due to primary depleting carbon (inverse sn?)", ⟨"s", 2, none, "Reached end life"⟩),
   ("Primary has depleted central carbon", ⟨"s", 2, none, "Reached end life"⟩),
   ("Secondary has depleted central carbon", ⟨"o", 2, none, "Reached end life"⟩),
   ("Primary got stopped before central carbon depletion", ⟨"s", 2, none, "Reached end life"⟩),
   ("Secondary got stopped before central carbon depletion", ⟨"o", 2, none, "Reached end life"⟩),
   ("Primary enters pair-instability regime", ⟨"s", 2, none, "Reached end life"⟩),
   ("Secondary enters pair-instability regime", ⟨"o", 2, none, "Reached end life"⟩),
   ("Primary enters pulsational pair-instability regime", ⟨"s", 2, none, "Reached end life"⟩),
   ("Secondary enters pulsational pair-instability regime", ⟨"o", 2, none, "Reached end life"⟩),
   ("offcenter neon ignition for primary", ⟨"s", 2, none, "Reached end life"⟩),
   ("offcenter neon ignition for secondary", ⟨"o", 2, none, "Reached end life"⟩),
   ("overflow from L1 at ZAMS", ⟨".", 3 / 2, none, "Initial RLOF"⟩),
   ("Terminate because of overflowing initial model", ⟨".", 3 / 2, none, "Initial RLOF"⟩),
   ("overflow from L2 point for q>1 at ZAMS", ⟨".", 3 / 2, none, "Initial RLOF"⟩),
   ("overflow from L2 surface for q<1 at ZAMS", ⟨".", 3 / 2, none, "Initial RLOF"⟩),
   ("overflow from L2 surface for q>1 at ZAMS", ⟨".", 3 / 2, none, "Initial RLOF"⟩),
   ("overflow from L2 surface for q<1", ⟨"D", 1, none, "Unstable RLOF"⟩),
   ("overflow from L2 (D_L2) distance for q(=Macc/Mdon)>1, donor is star 1", ⟨"D", 1, none, "Unstable RLOF"⟩),
   ("overflow from L2 (R_L2) surface for q(=Macc/Mdon)<1, donor is star 1", ⟨"D", 1, none, "Unstable RLOF"⟩),
   ("overflow from L2 (R_L2) surface for q(=Macc/Mdon)>1, donor is star 1", ⟨"D", 1, none, "Unstable RLOF"⟩),
   ("overflow from L2 (D_L2) distance for q(=Macc/Mdon)<1, donor is star 1", ⟨"D", 1, none, "Unstable RLOF"⟩),
   ("overflow from L2 (R_L2) surface for q(=Macc/Mdon)<1, donor is star 2", ⟨"D", 1, none, "Unstable RLOF"⟩),
   ("overflow from L2 (R_L2) surface for q(=Macc/Mdon)>1, donor is star 2", ⟨"D", 1, none, "Unstable RLOF"⟩),
   ("reached maximum mass transfer rate: 10.0d0", ⟨"D", 1, none, "Unstable RLOF"⟩),
   ("Reached maximum mass transfer rate: 1d-1", ⟨"D", 1, none, "Unstable RLOF"⟩),
   ("Reached the critical mt rate", ⟨"D", 1, none, "Unstable RLOF"⟩),
   ("Reached TPAGB", ⟨"s", 2, none, "Initial RLOF"⟩),
   ("Both stars fill their Roche Lobe and at least one of them is off MS", ⟨"D", 1, none, "Unstable RLOF"⟩),
   ("Both stars fill their Roche Lobe and t_kh > t_acc", ⟨"D", 1, none, "Unstable RLOF"⟩),
   ("overflow from L2, t_kh > t_acc and w > w_crit_lim, donor is star 1", ⟨"D", 1, none, "Unstable RLOF"⟩),
   ("overflow from L2, t_kh > t_acc and w > w_crit_lim, donor is star 2", ⟨"D", 1, none, "Unstable RLOF"⟩),
   ("Terminate due to L2 overflow during case A", ⟨"D", 1, none, "Unstable RLOF"⟩),
   ("Reached maximum mass transfer rate: Exceeded photon trapping radius", ⟨"D", 1, none, "Unstable RLOF"⟩),
   ("Terminate because accretor (r-rl)/rl > accretor_overflow_terminate", ⟨"D", 1, none, "Unstable RLOF"⟩),
   ("logQ_limit", ⟨"x", 1, none, "logQ_limit"⟩),
   ("logQ_min_limit", ⟨"x", 1, none, "logQ_limit"⟩),
   ("min_timestep_limit", ⟨"x", 1, none, "Not converged"⟩),
   ("reach cluster timelimit", ⟨"x", 1, none, "Not converged"⟩),
   ("no termination code", ⟨"x", 1, none, "no termination code"⟩),
   ("envelope_mass_limit", ⟨"s", 2, none, "Reached end life"⟩),
   ("gamma_center_limit", ⟨"s", 2, none, "Reached end life"⟩),
   ("max_age", ⟨"s", 2, none, "Reached end life"⟩),
   ("Initial RLOF", ⟨".", 3 / 2, some "black", "Initial RLOF"⟩),
   ("Not converged", ⟨"x", 1, none, "Not converged"⟩),
   ("ignored_no_binary_history", ⟨".", 3 / 2, some "black", "Initial RLOF"⟩),
   ("ignored_no_RLO", ⟨".", 3 / 2, some "black", "Initial RLOF"⟩),
   ("forced_initial_RLO", ⟨".", 3 / 2, some "black", "Initial RLOF"⟩),
   ("unknown", ⟨"+", 1, some "green", "unknown"⟩),
   ("fe_core_infall_limit", ⟨"x", 1, none, "fe_core_infall_limit"⟩)]

/-- `'interpolation_class'`, l.698-709. -/
def classes : Table :=
  [("initial_MT", ⟨".", 2, some "black", "initial_MT"⟩),
   ("no_MT", ⟨"o", 2, some "tab:pink", "no_MT"⟩),
   ("not_converged", ⟨"o", 2, some "tab:red", "not_converged"⟩),
   ("stable_MT", ⟨"o", 2, some "tab:orange", "stable_MT"⟩),
   ("unstable_MT", ⟨"o", 2, some "tab:purple", "unstable_MT"⟩)]

/-- `'interpolation_class_errors'`, l.710-721. -/
def classErrors : Table :=
  [("initial_MT", ⟨".", 1, some "black", "initial_MT"⟩),
   ("no_MT", ⟨"o", 2, none, "no_MT"⟩),
   ("not_converged", ⟨"x", 1, some "tab:red", "not_converged"⟩),
   ("stable_MT", ⟨"s", 2, none, "stable_MT"⟩),
   ("unstable_MT", ⟨"D", 1, none, "unstable_MT"⟩)]

/-- `'SN_type'`, l.722-735. -/
def kinds : Table :=
  [("CCSN", ⟨"o", 2, some "tab:blue", "CCSN"⟩),
   ("ECSN", ⟨"o", 2, some "tab:orange", "ECSN"⟩),
   ("PPISN", ⟨"o", 2, some "tab:pink", "PPISN"⟩),
   ("PISN", ⟨"o", 2, some "tab:red", "PISN"⟩),
   ("WD", ⟨"o", 2, some "tab:purple", "WD"⟩),
   ("None", ⟨"o", 2, some "black", "intial MT / unstable MT / not converged"⟩)]

/-- `'state'`, l.736-747. -/
def remnants : Table :=
  [("BH", ⟨"o", 2, some "tab:blue", "BH"⟩),
   ("NS", ⟨"o", 2, some "tab:orange", "NS"⟩),
   ("WD", ⟨"o", 2, some "tab:purple", "WD"⟩),
   ("PISN", ⟨"o", 2, some "tab:red", "PISN"⟩),
   ("None", ⟨"o", 2, some "black", "intial MT / unstable MT / not converged"⟩)]

/-- The names of the classes, termination_flags.py l.290-304. -/
def className : TermFlags.IC → String
  | .initialMT => "initial_MT" | .notConverged => "not_converged" | .noMT => "no_MT" | .stableReverse => "stable_reverse_MT"
  | .stable => "stable_MT" | .unstable => "unstable_MT" | .unknown => "unknown"

/-- One round of the loop over the flags, plot2D.py l.693-696. -/
def note (leg : List Entry) (e : Entry) : List Entry := if e.text ∈ leg.map (·.text) then leg else leg ++ [e]

/-- The legend of a panel. -/
def legend (es : List Entry) : List Entry := es.foldl note []

/-! ### Specification -/

/-- What a reader sees of an entry. -/
def look (e : Entry) : String × Option String := (e.marker, e.colour)

/-- Entries with the same text look the same. -/
def Consistent (t : Table) : Prop := ∀ p ∈ t, ∀ q ∈ t, p.2.text = q.2.text → look p.2 = look q.2

instance (t : Table) : Decidable (Consistent t) := by unfold Consistent; infer_instance

theorem get_mem {t : Table} {f : String} {e : Entry} (h : get t f = some e) : (f, e) ∈ t := by
  unfold get at h
  cases hf : t.find? (fun p => p.1 = f) with
  | none => rw [hf] at h; cases h
  | some p =>
      rw [hf] at h
      have h1 := List.mem_of_find?_eq_some hf
      have h2 := List.find?_some hf
      simp only [decide_eq_true_eq] at h2
      simp only [Option.map_some, Option.some.injEq] at h
      subst h; subst h2; exact h1

theorem foldl_keeps (es : List Entry) : ∀ leg : List Entry, ∀ e ∈ leg, e ∈ es.foldl note leg := by
  induction es with
  | nil => intro leg e h; exact h
  | cons a l ih =>
      intro leg e h
      apply ih
      unfold note
      split
      · exact h
      · exact List.mem_append_left _ h

theorem foldl_text (es : List Entry) : ∀ leg : List Entry, ∀ e ∈ es, ∃ g ∈ es.foldl note leg, g.text = e.text := by
  induction es with
  | nil => intro leg e h; cases h
  | cons a l ih =>
      intro leg e h
      rcases List.mem_cons.mp h with rfl | h
      · by_cases hm : e.text ∈ leg.map (·.text)
        · obtain ⟨g, hg, ht⟩ := List.mem_map.mp hm
          refine ⟨g, foldl_keeps l _ g ?_, ht⟩
          unfold note; rw [if_pos hm]; exact hg
        · refine ⟨e, foldl_keeps l _ e ?_, rfl⟩
          unfold note; rw [if_neg hm]; exact List.mem_append_right _ (List.mem_singleton.mpr rfl)
      · exact ih _ e h

theorem foldl_from (es : List Entry) : ∀ leg : List Entry, ∀ g ∈ es.foldl note leg, g ∈ leg ∨ g ∈ es := by
  induction es with
  | nil => intro leg g h; exact Or.inl h
  | cons a l ih =>
      intro leg g h
      rcases ih _ g h with h1 | h1
      · unfold note at h1
        split at h1
        · exact Or.inl h1
        · rcases List.mem_append.mp h1 with h2 | h2
          · exact Or.inl h2
          · rw [List.mem_singleton] at h2; subst h2; exact Or.inr List.mem_cons_self
      · exact Or.inr (List.mem_cons_of_mem _ h1)

theorem foldl_nodup (es : List Entry) : ∀ leg : List Entry, (leg.map (·.text)).Nodup → ((es.foldl note leg).map (·.text)).Nodup := by
  induction es with
  | nil => intro leg h; exact h
  | cons a l ih =>
      intro leg h
      apply ih
      unfold note
      split
      · exact h
      · rename_i hm
        rw [List.map_append, List.nodup_append]
        refine ⟨h, by simp, ?_⟩
        intro x hx y hy hxy
        simp only [List.map_cons, List.map_nil, List.mem_singleton] at hy
        subst hy; subst hxy; exact hm hx

end Verif.PlotSym
