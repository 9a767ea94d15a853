{
 "claims": [
  {
   "property": "C01",
   "status": "proved",
   "theorems": [
    "Verif.FlowChart.C01_routing",
    "Verif.FlowChart.C01_step_receives_what_it_needs",
    "Verif.FlowChart.C01_terminal_events_end",
    "Verif.FlowChart.C01_dead_pairs_end",
    "Verif.FlowChart.C01_collapse_goes_to_SN",
    "Verif.FlowChart.C01_detached_none_total",
    "Verif.FlowChart.C01_undefined"
   ],
   "note": ""
  },
  {
   "property": "C02",
   "status": "partial",
   "theorems": [
    "Verif.FlowChart.C02_mirror_partial",
    "Verif.FlowChart.C02_mirror_violated",
    "Verif.FlowChart.C02_asymmetric_keys"
   ],
   "note": "False in full for contact binaries entering a common envelope (C02_mirror_violated); the asymmetric keys are characterised exactly."
  },
  {
   "property": "C03",
   "status": "partial",
   "theorems": [
    "Verif.FlowChart.C03_changes_partial",
    "Verif.FlowChart.C03_no_change",
    "Verif.FlowChart.C03_new_keys_violated",
    "Verif.FlowChart.C03_eccentric_chart",
    "Verif.FlowChart.C03_eccentric_edits"
   ],
   "note": "Changes for keys absent from the chart are silently dropped (C03_new_keys_violated)."
  },
  {
   "property": "C04",
   "status": "proved",
   "theorems": [
    "Verif.Evolve.C04_terminates",
    "Verif.Evolve.C04_outcome",
    "Verif.Evolve.C04_stops_at_end",
    "Verif.Evolve.C04_step_bound",
    "Verif.Evolve.C04_limit_needed"
   ],
   "note": ""
  },
  {
   "property": "C05",
   "status": "partial",
   "theorems": [
    "Verif.SimProps.C05_other_keywords_honoured",
    "Verif.SimProps.C05_step_limit_violated",
    "Verif.SimProps.C05_defaults"
   ],
   "note": "False for the step limit itself: the keyword is filtered out (C05_step_limit_violated); proved for the other keywords."
  },
  {
   "property": "C06",
   "status": "proved",
   "theorems": [
    "Verif.Evolve.C06_rows",
    "Verif.Evolve.C06_aligned",
    "Verif.Evolve.C06_aligned_always",
    "Verif.Evolve.C06_left_out"
   ],
   "note": ""
  },
  {
   "property": "C07",
   "status": "partial",
   "theorems": [
    "Verif.Evolve.C07_restore_row",
    "Verif.Evolve.C07_restore_negative_partial",
    "Verif.Evolve.C07_restore_last_violated",
    "Verif.Evolve.C07_restore_invalid",
    "Verif.Evolve.C07_restore_untracked_kept",
    "Verif.Evolve.C07_restore_undoes_run"
   ],
   "note": "False for restoring to the last row with a negative index -1 (C07_restore_last_violated)."
  },
  {
   "property": "C08",
   "status": "partial",
   "theorems": [
    "Verif.Flip.C08_involution",
    "Verif.Flip.C08_relabels_partial",
    "Verif.Flip.C08_forgotten_events_violated",
    "Verif.Flip.C08_flipped_doubleCE_unroutable",
    "Verif.Flip.C08_mt_case_violated"
   ],
   "note": "False for double-CE/merging events and the mass-transfer-case labels (C08_forgotten_events_violated, C08_mt_case_violated); the involution and the relabelling of all other fields are proved."
  },
  {
   "property": "C09",
   "status": "partial",
   "theorems": [
    "Verif.StarState.C09_conditions",
    "Verif.StarState.C09_exactly_one",
    "Verif.StarState.C09_white_dwarf_stays",
    "Verif.StarState.C09_compact_by_mass",
    "Verif.StarState.C09_compact_with_composition",
    "Verif.StarState.C09_known_to_flow_chart_partial",
    "Verif.StarState.C09_unlisted_names_absent",
    "Verif.StarState.C09_known_to_flow_chart_violated"
   ],
   "note": "Exactly-one classification proved; four classification names are unknown to the flow chart (C09_known_to_flow_chart_violated)."
  },
  {
   "property": "C10",
   "status": "partial",
   "theorems": [
    "Verif.MTCase.C10_no_transfer_iff",
    "Verif.MTCase.C10_case_of_donor",
    "Verif.MTCase.C10_nan_overflow_violated",
    "Verif.MTCase.C10_numeric",
    "Verif.MTCase.C10_numeric_empty",
    "Verif.MTCase.C10_string_faithful",
    "Verif.MTCase.C10_shift_is_running_maximum",
    "Verif.MTCase.C10_shift_loses_cases_violated",
    "Verif.MTCase.C10_shift_invents_case_violated"
   ],
   "note": "Numeric and text summaries proved; false for NaN overflow and for the case shifting with undetermined or no-transfer steps (witness theorems)."
  },
  {
   "property": "C11",
   "status": "proved",
   "theorems": [
    "Verif.IgnoreReason.C11_most_important_reason",
    "Verif.IgnoreReason.C11_truth",
    "Verif.IgnoreReason.C11_order_irrelevant",
    "Verif.IgnoreReason.C11_only_unknown_rejected"
   ],
   "note": ""
  },
  {
   "property": "C12",
   "status": "partial",
   "theorems": [
    "Verif.Warn.C12_shown_and_counted",
    "Verif.Warn.C12_context_transparent",
    "Verif.Warn.C12_own_registry",
    "Verif.Warn.C12_discarding_context",
    "Verif.Warn.C12_nested_violated",
    "Verif.Warn.C12_own_registry_late_violated"
   ],
   "note": "Proved for one catching context; false for nested contexts (C12_nested_violated) and for the context's own registry when filters change late (C12_own_registry_late_violated)."
  },
  {
   "property": "C13",
   "status": "proved",
   "theorems": [
    "Verif.Scrub.C13_sublists",
    "Verif.Scrub.C13_monotone",
    "Verif.Scrub.C13_aligned",
    "Verif.Scrub.C13_only_backsteps_removed",
    "Verif.Scrub.C13_only_unshared_removed",
    "Verif.Scrub.C13_idempotent"
   ],
   "note": ""
  },
  {
   "property": "C14",
   "status": "proved",
   "theorems": [
    "Verif.Scrub.C14_cut_at_first_transfer",
    "Verif.Scrub.C14_ages_increasing",
    "Verif.Scrub.C14_exact",
    "Verif.Scrub.C14_missing_columns",
    "Verif.Tight.C14_one_percent"
   ],
   "note": ""
  },
  {
   "property": "C15",
   "status": "partial",
   "theorems": [
    "Verif.Scrub.C15_untouched",
    "Verif.Scrub.C15_incomplete",
    "Verif.Scrub.C15_cut_partial",
    "Verif.Scrub.C15_cut_secondary_partial",
    "Verif.Scrub.C15_cut_both_partial",
    "Verif.Scrub.C15_depleted_at_end_violated",
    "Verif.Scrub.C15_missing_star_age_violated",
    "Verif.Transfer.C15_state",
    "Verif.Transfer.C15_state_violated",
    "Verif.Transfer.C15_class"
   ],
   "note": "The cut and the untouched cases are proved; a run depleted exactly at its last row and a secondary without age column are mistreated (witness theorems). The state inferred at the row of the stop is proved exactly (C15_state): it is not always the helium-depleted one (C15_state_violated)."
  },
  {
   "property": "C16",
   "status": "partial",
   "theorems": [
    "Verif.Downsample.C16_no_nan",
    "Verif.Downsample.C16_nan_column_violated",
    "Verif.Downsample.C16_nan_violated",
    "Verif.Downsample.C16_nan_interval_violated",
    "Verif.Downsample.C16_scale_back_nan",
    "Verif.Downsample.C16_scale_back",
    "Verif.Downsample.C16_no_downsampling",
    "Verif.Downsample.C16_kept_rows",
    "Verif.Downsample.C16_error_bound",
    "Verif.Downsample.C16_interval",
    "Verif.Downsample.C16_rejects_negative",
    "Verif.Downsample.C16_integer_data_violated"
   ],
   "note": "Proved for real-valued columns; integer columns are truncated while rescaled (C16_integer_data_violated). Missing values are modelled in DownNaN: without any the model is the same (C16_no_nan); one NaN in one column makes the whole column NaN (C16_nan_column_violated) and switches the tolerance off for all columns (C16_nan_violated, C16_nan_interval_violated)."
  },
  {
   "property": "C17",
   "status": "partial",
   "theorems": [
    "Verif.TermFlags.C17_other_star_partial",
    "Verif.TermFlags.C17_other_star_class",
    "Verif.TermFlags.C17_other_star_violated",
    "Verif.TermFlags.C17_class",
    "Verif.TermFlags.C17_reverse_iff_both_donors",
    "Verif.TermFlags.C17_tpagb_violated",
    "Verif.TermFlags.C17_unknown"
   ],
   "note": "Classification proved except for 'Reached TPAGB', which is classed unknown (C17_tpagb_violated). The class does not depend on which star is called the first (C17_other_star_partial, C17_other_star_class) except for overflow at the distance of L2, which the pools list for star 1 only: with star 2 as donor such a run is unknown instead of unstable (C17_other_star_violated)."
  },
  {
   "property": "C18",
   "status": "partial",
   "theorems": [
    "Verif.TermFlags.C18_boundary_partial",
    "Verif.TermFlags.C18_drift_violated",
    "Verif.TermFlags.C18_duplicate_violated",
    "Verif.TermFlags.C18_nearest"
   ],
   "note": "False in full when neighbouring masses are closer than the tolerance (C18_drift_violated, C18_duplicate_violated); proved for separated masses."
  },
  {
   "property": "C19",
   "status": "partial",
   "theorems": [
    "Verif.Pop.C19_blocks",
    "Verif.Pop.C19_batches",
    "Verif.Pop.C19_in_memory",
    "Verif.Pop.C19_all_ranks",
    "Verif.Pop.C19_failed_conversion_violated"
   ],
   "note": "Proved when no table conversion fails; one failing conversion makes the run drop all other binaries (C19_failed_conversion_violated)."
  },
  {
   "property": "C20",
   "status": "partial",
   "theorems": [
    "Verif.Pop.C20_concatenation_partial",
    "Verif.Pop.C20_no_invention",
    "Verif.Pop.C20_first_unreadable",
    "Verif.Pop.C20_deleted_unread_violated",
    "Verif.Pop.C20_empty_block_violated",
    "Verif.Pop.C20_rank_file"
   ],
   "note": "Concatenation proved without read failures; later unreadable files are deleted (C20_deleted_unread_violated) and ranks without binaries crash (C20_empty_block_violated)."
  },
  {
   "property": "C21",
   "status": "partial",
   "theorems": [
    "Verif.Seeds.C21_mpi",
    "Verif.Seeds.C21_job_partial",
    "Verif.Seeds.C21_refused",
    "Verif.Seeds.C21_reset_partial",
    "Verif.Seeds.C21_job_collision_violated",
    "Verif.Seeds.C21_job_entropy_ranks",
    "Verif.Seeds.C21_job_entropy_violated",
    "Verif.Seeds.C21_reset_violated"
   ],
   "note": "Proved for MPI runs and for one job array without entropy; collisions between job arrays, across metallicities with given entropy, and after reset_rng in parallel runs (witness theorems)."
  },
  {
   "property": "C22",
   "status": "partial",
   "theorems": [
    "Verif.Pop.C22_book_partial",
    "Verif.Pop.C22_to_df_partial",
    "Verif.Pop.C22_mixed_violated",
    "Verif.Pop.C22_append_list_violated",
    "Verif.Pop.C22_half_conversion_violated"
   ],
   "note": "Proved for binaries appended one by one; false for mixed memory/table content, list appends and failing conversions (witness theorems)."
  },
  {
   "property": "C23",
   "status": "partial",
   "theorems": [
    "Verif.SampleFile.C23_cyclic",
    "Verif.SampleFile.C23_kicks_match",
    "Verif.SampleFile.C23_one_by_one",
    "Verif.SampleFile.C23_empty_file_violated",
    "Verif.SampleFile.C23_all_rows",
    "Verif.SampleFile.C23_zero_violated",
    "Verif.SampleFile.C23_column"
   ],
   "note": "Proved for files with at least one row; an empty file makes the loop endless (C23_empty_file_violated)."
  },
  {
   "property": "C24",
   "status": "partial",
   "theorems": [
    "Verif.Sampling.C24_flat_partial",
    "Verif.Sampling.C24_flat_accepts",
    "Verif.Sampling.C24_alias_violated",
    "Verif.Sampling.C24_ignored_limit_violated",
    "Verif.Sampling.C24_fraction"
   ],
   "note": "Flat mass-ratio scheme proved for every draw and parameter set, with the exact set of accepted parameters; the q=1 scheme violates the property (NaN primaries through aliasing, ignored upper limit). The Moe+17-PsandQs generator is the subject of C91."
  },
  {
   "property": "C25",
   "status": "partial",
   "theorems": [
    "Verif.Distrib.C25_flat_mass_ratio",
    "Verif.Distrib.C25_power_law_mass_ratio",
    "Verif.Distrib.C25_power_law_period",
    "Verif.Distrib.C25_sana_period",
    "Verif.Distrib.C25_thermal_eccentricity",
    "Verif.Distrib.C25_uniform_eccentricity",
    "Verif.Distrib.C25_power_law_imf",
    "Verif.Distrib.C25_broken_power_law_imf",
    "Verif.Distrib.C25_broken_power_law_continuous",
    "Verif.Distrib.C25_chabrier_imf",
    "Verif.Distrib.C25_log_uniform_violated",
    "Verif.Distrib.C25_log_uniform_partial",
    "Verif.Distrib.C25_uniform_rvs",
    "Verif.Distrib.C25_thermal_rvs",
    "Verif.Distrib.C25_power_law_imf_rvs",
    "Verif.Distrib.C25_log_uniform_rvs",
    "Verif.Distrib.C25_log_normal",
    "Verif.Distrib.C25_log_normal_rvs",
    "Verif.Distrib.C25_log_normal_draws",
    "Verif.Distrib.C25_log_normal_refused",
    "Verif.Distrib.C25_zero_eccentricity_violated",
    "Verif.Distrib.C25_zero_eccentricity_partial",
    "Verif.Distrib.C25_standard_normal"
   ],
   "note": "All densities proved, including the truncated log-normal separations for all accepted parameters, except LogUniform, which integrates to ln 10, and the density of circular orbits, which is a probability of single values and integrates to 0 (violations proved); samplers by inverse transform proved inside the support and distributed by the density. Rejection samplers are in C56 and C158."
  },
  {
   "property": "C26",
   "status": "partial",
   "theorems": [
    "Verif.Sfh.C26_exact",
    "Verif.Sfh.C26_total",
    "Verif.Sfh.C26_nonneg",
    "Verif.Sfh.C26_outside",
    "Verif.Sfh.C26_normalised",
    "Verif.Sfh.C26_rate",
    "Verif.Sfh.C26_refused",
    "Verif.Sfh.C26_limits_below_violated",
    "Verif.Sfh.C26_limit_above_violated",
    "Verif.Sfh.C26_rate_positive",
    "Verif.Sfh.C26_lognormal_mean",
    "Verif.Sfh.C26_lognormal_monotone",
    "Verif.Sfh.C26_sigma",
    "Verif.Sfh.C26_table_monotone",
    "Verif.Sfh.C26_table_violated",
    "Verif.Sfh.C26_models",
    "Verif.Tight.C26_madau_mean",
    "Verif.Tight.C26_limit_error"
   ],
   "note": "Exact, non-negative, conserved and normalised for usable limits (upper limit above the lowest edge, lower limit not above the highest). Violated: limits below the lowest edge, lower limit above the highest edge (IndexError), and tabulated models lose the star formation of their lowest metallicity."
  },
  {
   "property": "C27",
   "status": "partial",
   "theorems": [
    "Verif.Table.C27_history_mask_partial",
    "Verif.Table.C27_history_mask_rule",
    "Verif.Table.C27_history_mask_violated",
    "Verif.Table.C27_history_mask_rejected_violated",
    "Verif.Table.C27_oneline_mask",
    "Verif.Table.C27_oneline_mask_repeated_violated",
    "Verif.Table.C27_labels",
    "Verif.Table.C27_full_slice",
    "Verif.Table.C27_open_slice_violated",
    "Verif.Table.C27_columns_and_errors",
    "Verif.Table.C27_lengths"
   ],
   "note": "Row selection by label, slice, mask and column is modelled for the history and oneline accessors. The mask claim holds when the labels are distinct and the mask selects at least one row (C27_history_mask_partial, C27_oneline_mask); the repeated-label, rejected-mask and open-slice cases are shown to fail by witnesses. HDF5 storage itself is a parameter."
  },
  {
   "property": "C28",
   "status": "partial",
   "theorems": [
    "Verif.SimProps.C28_hooks_partial",
    "Verif.SimProps.C28_hooks_violated",
    "Verif.SimProps.C28_missing_import",
    "Verif.SimProps.C28_exact",
    "Verif.SimProps.C28_gap_violated"
   ],
   "note": "What is loaded from any section is characterised exactly (C28_exact). False when hooks have no optional keys, and for numbers beyond the number of keys (C28_hooks_violated, C28_gap_violated)."
  },
  {
   "property": "C29",
   "status": "partial",
   "theorems": [
    "Verif.Rates.C29_one_bin",
    "Verif.Rates.C29_total",
    "Verif.Rates.C29_channels_add",
    "Verif.Rates.C29_missing_rows_refused",
    "Verif.Rates.C29_efficiency_partial",
    "Verif.Rates.C29_efficiency_violated",
    "Verif.Rates.C29_efficiency_metallicity_violated"
   ],
   "note": "Bins partition the events, densities times volumes add up to the weights and channels add up to the total, for all tables. The efficiency identity holds when each event has a channel and its metallicity is in the mass table (C29_efficiency_partial); the other two cases are shown to fail."
  },
  {
   "property": "C30",
   "status": "partial",
   "theorems": [
    "Verif.Rates.C30_given_parameters",
    "Verif.Rates.C30_repeated_call",
    "Verif.Rates.C30_defaults_partial",
    "Verif.Rates.C30_defaults_violated",
    "Verif.Rates.C30_order_violated",
    "Verif.Rates.C30_rows",
    "Verif.Rates.C30_all_rows_partial",
    "Verif.Rates.C30_rows_missing_violated",
    "Verif.Rates.C30_refused",
    "Verif.Rates.C30_own_bin",
    "Verif.Rates.C30_entries",
    "Verif.Rates.C30_nonneg"
   ],
   "note": "The code violates the claim: the module default dictionary is changed by every call (C30_defaults_violated, C30_order_violated) and events beyond the number of binaries get no weights (C30_rows_missing_violated). What holds is proved: given parameters are used, repeating a call is harmless, untouched parameters keep their defaults, and with at most as many events as binaries all rows are weighted for any chunk size."
  },
  {
   "property": "C31",
   "status": "partial",
   "theorems": [
    "Verif.Export.C31_export_partial",
    "Verif.Export.C31_refused",
    "Verif.Export.C31_overwrite",
    "Verif.Export.C31_unknown",
    "Verif.Export.C31_sorted",
    "Verif.Export.C31_unordered_violated",
    "Verif.Export.C31_repeated_violated",
    "Verif.Export.C31_source_changed_violated",
    "Verif.Export.C31_mass_counted_again_violated",
    "Verif.Export.C31_count_violated",
    "Verif.Export.C31_metallicity_units_violated"
   ],
   "note": "The export of a selection is proved faithful for an increasing selection without repeats, into a file that does not hold the mass table of the same metallicity (C31_export_partial). Unordered or repeated selections, repeated export of the same population, and the number of systems kept are shown to disagree by witnesses. HDF5 storage is a parameter."
  },
  {
   "property": "C32",
   "status": "partial",
   "theorems": [
    "Verif.SN.C32_remnant_partial",
    "Verif.SN.C32_defined",
    "Verif.SN.C32_eleven_violated",
    "Verif.SN.C32_he_core_option_violated",
    "Verif.SN.C32_delayed_violated",
    "Verif.SN.C32_sukhbold_violated",
    "Verif.SN.C32_no_core",
    "Verif.SN.C32_cap",
    "Verif.SN.C32_table",
    "Verif.SN.C32_engines",
    "Verif.SN.C32_disruption",
    "Verif.SN.C32_pair_instability",
    "Verif.SN.C32_after_pair_instability_partial",
    "Verif.SN.C32_gravitational_mass",
    "Verif.SN.C32_gravitational_monotone",
    "Verif.SN.C32_no_limit",
    "Verif.SN.C32_pulse_positive",
    "Verif.SN.C32_pulse_outside",
    "Verif.SN.C32_pulse_shift",
    "Verif.SN.C32_pulse_metals",
    "Verif.SN.C32_pulse_core",
    "Verif.SN.C32_pulse_floor_partial",
    "Verif.SN.C32_pulse_floor_violated",
    "Verif.SN.C32_fallback"
   ],
   "note": "compute_m_rembar, the engines, PISN_prescription and the gravitational mass over the reals. Bounds hold for all core masses under Supported/LookOk/Physical. The code violates the property for a CO core of exactly 11 Msun in the delayed mechanism (unassigned variable), for direct_he_core, for delayed without an ECSN option, and below the table of Sukhbold+16; each is proved by a theorem with _violated in its name. The look-up tables are parameters. The mass lost in pulses (Hendriks+23) is positive inside its range, grows with the metallicity and with the core, moves with the shift and vanishes outside (C32_pulse_*); its lowest metallicity is meant as a mass fraction but compared with the metallicity in solar units (C32_pulse_floor_violated, C32_pulse_floor_partial); neutron star or fallback after an explosion (C32_fallback)."
  },
  {
   "property": "C33",
   "status": "partial",
   "theorems": [
    "Verif.Kick.C33_kick_vector",
    "Verif.Kick.C33_energy",
    "Verif.Kick.C33_survives_iff",
    "Verif.Kick.C33_orbit",
    "Verif.Kick.C33_disrupted",
    "Verif.Kick.C33_unchanged_separation",
    "Verif.Kick.C33_unchanged_eccentricity",
    "Verif.Kick.C33_unchanged_eccentricity_violated",
    "Verif.Kick.C33_half_mass",
    "Verif.Kick.C33_systemic_velocity",
    "Verif.Kick.C33_no_recoil",
    "Verif.Kick.C33_tilt",
    "Verif.Kick.C33_kepler",
    "Verif.Kick.C33_true_anomaly",
    "Verif.Kick.C33_combined_tilt"
   ],
   "note": "All formulas of the post-supernova orbit over the reals (floating point error not modelled); the rounding of sin_psi to five digits is a parameter with the bounds of rounding. Exact: survival iff negative energy and non-zero angular momentum; energy, angular momentum, position on the new orbit, half-mass criterion, systemic velocity, tilt, Kepler's equation, combined tilt. What fails is the exact return of the old orbit: the rounding changes the eccentricity (C33_unchanged_eccentricity_violated), by at most 1e-5 in its square (C33_unchanged_eccentricity)."
  },
  {
   "property": "C34",
   "status": "partial",
   "theorems": [
    "Verif.SNStep.C34_mirror_partial",
    "Verif.SNStep.C34_same_tilt",
    "Verif.SNStep.C34_no_kick_separation_violated",
    "Verif.SNStep.C34_no_kick_separation_partial",
    "Verif.SNStep.C34_no_kick_state_violated",
    "Verif.SNStep.C34_spin",
    "Verif.SNStep.C34_remnant_kind",
    "Verif.SNStep.C34_collapses_once",
    "Verif.SNStep.C34_companion",
    "Verif.SNStep.C34_radius_partial",
    "Verif.SNStep.C34_white_dwarf_radius_violated",
    "Verif.SNStep.C34_interpolated",
    "Verif.SNStep.C34_interpolated_pair_instability",
    "Verif.SNStep.C34_state_kept_partial",
    "Verif.SNStep.C34_state_overwritten_violated",
    "Verif.SNStep.C34_kick_recorded",
    "Verif.SNStep.C34_alone",
    "Verif.SNStep.C34_no_remnant",
    "Verif.SNStep.C34_first_supernova_survived",
    "Verif.SNStep.C34_errors",
    "Verif.SNStep.C34_kick_source",
    "Verif.Tight.C34_alone_states",
    "Verif.Tight.C34_missing_anomaly"
   ],
   "note": "The whole control flow of the step for all binaries, with the remnant mass, the collapse of a profile, the kick speed and the orbit after the kick as functions of one star given from outside (they are modelled in SN and Kick). With kicks the step commutes with exchanging the stars, errors included. Violated: without kicks the separation uses star 1 whichever star collapsed and a disrupted binary becomes detached; white dwarfs lose radius and metallicity, interpolated remnants the metallicity; the option max_NS_mass is overruled by the fixed limits of the classification; the source of the kick speed (C34_kick_source)."
  },
  {
   "property": "C35",
   "status": "partial",
   "theorems": [
    "Verif.Merged.C35_pairs",
    "Verif.Merged.C35_unknown_state",
    "Verif.Merged.C35_branch_table",
    "Verif.Merged.C35_order_irrelevant",
    "Verif.Merged.C35_mass",
    "Verif.Merged.C35_compact_companion_violated",
    "Verif.Merged.C35_core_masses",
    "Verif.Merged.C35_surface_mixed",
    "Verif.Merged.C35_surface_kept",
    "Verif.Merged.C35_helium_surface",
    "Verif.Merged.C35_helium_surface_violated",
    "Verif.Merged.C35_centre",
    "Verif.Merged.C35_sum_of_abundances",
    "Verif.Merged.C35_burning_lost_violated",
    "Verif.Merged.C35_giant_not_burning_violated",
    "Verif.Merged.C35_total_hydrogen_stale_violated",
    "Verif.Merged.C35_mirror",
    "Verif.Merged.C35_step_result",
    "Verif.Merged.C35_total",
    "Verif.Merged.C35_not_marked"
   ],
   "note": "Masses, core masses, means of surface and centre, independence of the order, mirror symmetry, exact set of pairs raising ModelError and totality proved for the whole of merged_star_properties. Violated: the surface of two helium stars is mixed after the masses were added; luminosities are set to NaN before they are kept, so no product of an evolved star is classified as burning; total hydrogen and helium masses and core radii stay those of one star; with a neutron star or black hole the mass of the star disappears."
  },
  {
   "property": "C36",
   "status": "partial",
   "theorems": [
    "Verif.CE.C36_energy_balance",
    "Verif.CE.C36_orbit_shrinks",
    "Verif.CE.C36_cores_never_grow",
    "Verif.CE.C36_companion_radius_violated",
    "Verif.CE.C36_donor_radius",
    "Verif.CE.C36_wind_period",
    "Verif.CE.C36_outcome",
    "Verif.CE.C36_wrong_event",
    "Verif.CE.C36_merger_next",
    "Verif.CE.C36_ejection",
    "Verif.CE.C36_merger_masses",
    "Verif.CE.C36_partial_ejection_raises_violated",
    "Verif.CE.C36_ejected_negative_violated",
    "Verif.CE.C36_ejected_bounds_partial",
    "Verif.CE.C36_unknown_donor_violated",
    "Verif.CE.C36_known_donor_partial",
    "Verif.CE.C36_mirror",
    "Verif.CE.C36_total_partial",
    "Verif.CE.C36_merge_at_once",
    "Verif.CE.C36_ejection_energy"
   ],
   "note": "Energy balance, shrinking, no growth of cores, outcomes, mirror symmetry and next step proved for the model of the alpha-lambda prescription (profile integrations and track matching are parameters). Violated: in a double common envelope with the two-phase options the companion receives the donor's core radius; partial ejection with a single common envelope raises UnboundLocalError; ejected mass can be negative; four donor states sent by the flow chart raise ValueError."
  },
  {
   "property": "C37",
   "status": "partial",
   "theorems": [
    "Verif.Orbit.C37_kepler",
    "Verif.Orbit.C37_inverse_partial",
    "Verif.Orbit.C37_inverse_violated",
    "Verif.Orbit.C37_monotone",
    "Verif.Orbit.C37_wind"
   ],
   "note": "The period-to-separation and separation-to-period formulas use inconsistent constants, so a round trip changes the period by a factor between 1.0001 and 1.0002 (C37_inverse_violated); they are inverse up to that constant factor (C37_inverse_partial)."
  },
  {
   "property": "C38",
   "status": "partial",
   "theorems": [
    "Verif.Orbit.C38_range",
    "Verif.Orbit.C38_linear",
    "Verif.Orbit.C38_monotone",
    "Verif.Orbit.C38_disjoint",
    "Verif.Orbit.C38_invalid",
    "Verif.Orbit.C38_overflow",
    "Verif.Orbit.C38_nan_violated",
    "Verif.Orbit.C38_mutates_violated"
   ],
   "note": "A NaN separation is reported as overflow (C38_nan_violated) and the caller's array of separations is modified (C38_mutates_violated)."
  },
  {
   "property": "C39",
   "status": "proved",
   "theorems": [
    "Verif.Orbit.C39_refused",
    "Verif.Orbit.C39_positive",
    "Verif.Orbit.C39_no_transfer",
    "Verif.Orbit.C39_compose",
    "Verif.Orbit.C39_conservative",
    "Verif.Orbit.C39_wind",
    "Verif.Orbit.C39_limit",
    "Verif.Orbit.C39_differential"
   ],
   "note": ""
  },
  {
   "property": "C40",
   "status": "proved",
   "theorems": [
    "Verif.Orbit.C40_orthogonal",
    "Verif.Orbit.C40_fixes_axis",
    "Verif.Orbit.C40_compose",
    "Verif.Orbit.C40_refused",
    "Verif.Orbit.C40_rodrigues",
    "Verif.Orbit.C40_plane",
    "Verif.Orbit.C40_direction",
    "Verif.Orbit.C40_back"
   ],
   "note": "Also proved: the formula of Rodrigues, which fixes sense and angle (C40_rodrigues, C40_plane), dependence on the direction of the axis only (C40_direction), and turning back (C40_back)."
  },
  {
   "property": "C41",
   "status": "partial",
   "theorems": [
    "Verif.Profile.C41_smallest",
    "Verif.Profile.C41_range",
    "Verif.Profile.C41_monotone_partial",
    "Verif.Profile.C41_within_budget",
    "Verif.Profile.C41_cell_masses",
    "Verif.Profile.C41_zero_budget_violated"
   ],
   "note": "Proved for budgets above zero: the number of cells is the smallest that reaches the budget, the ejected mass is within [0, M - Mc] and grows with the budget. Violated for budgets of zero or below, where index -1 (the innermost cell) is read and the whole envelope counts as ejected."
  },
  {
   "property": "C42",
   "status": "partial",
   "theorems": [
    "Verif.Profile.C42_first",
    "Verif.Profile.C42_definition",
    "Verif.Profile.C42_all_envelope",
    "Verif.Profile.C42_mass_partial",
    "Verif.Profile.C42_mass_violated",
    "Verif.Profile.C42_refused",
    "Verif.Profile.C42_he_depletion"
   ],
   "note": "Proved for the definition by composition and for a core mass that encloses some cell. Violated for a core mass below all cells: the answer is 0 (all core) instead of -1."
  },
  {
   "property": "C43",
   "status": "partial",
   "theorems": [
    "Verif.Config.C43_no_overwrite",
    "Verif.Config.C43_save_refused",
    "Verif.Config.C43_guarded_session",
    "Verif.Config.C43_load",
    "Verif.Config.C43_roundtrip",
    "Verif.Config.C43_unknown_type_violated",
    "Verif.Config.C43_array_saved_as_list",
    "Verif.Config.C43_save_new",
    "Verif.Config.C43_delete"
   ],
   "note": "Guards and round trip proved for JSON values (arrays come back as lists); values of other types are silently saved as null (C43_unknown_type_violated)."
  },
  {
   "property": "C44",
   "status": "partial",
   "theorems": [
    "Verif.Download.C44_only_genuine_partial",
    "Verif.Download.C44_mismatch_reported",
    "Verif.Download.C44_success",
    "Verif.Download.C44_genuine_extracted",
    "Verif.Download.C44_swallowed_violated"
   ],
   "note": "Proved while the downloaded file can be read and removed; otherwise the bare except swallows the failure and unverified data are extracted (C44_swallowed_violated)."
  },
  {
   "property": "C45",
   "status": "partial",
   "theorems": [
    "Verif.Interp.C45_nodes",
    "Verif.Interp.C45_built",
    "Verif.Interp.C45_order_free",
    "Verif.Interp.C45_between",
    "Verif.Interp.C45_outside",
    "Verif.Interp.C45_extrapolate",
    "Verif.Interp.C45_fills",
    "Verif.Interp.C45_monotone",
    "Verif.Interp.C45_refused",
    "Verif.Interp.C45_duplicate_refused",
    "Verif.Interp.C45_keys",
    "Verif.Interp.C45_track",
    "Verif.Interp.C45_track_array",
    "Verif.Interp.C45_track_shape_violated",
    "Verif.Interp.C45_columns"
   ],
   "note": "interp1d is covered for all nodes and fill values. Violated for SingleStarInterpolator: an array with one time gives a number, an empty one an IndexError. The polynomials of scipy are parameters."
  },
  {
   "property": "C46",
   "status": "partial",
   "theorems": [
    "Verif.PopShare.C46_population_partial",
    "Verif.PopShare.C46_limit",
    "Verif.PopShare.C46_fixed_violated",
    "Verif.PopShare.C46_shared_violated",
    "Verif.PopShare.C46_shared_all_violated",
    "Verif.PopShare.C46_limit_violated",
    "Verif.PopShare.C46_order",
    "Verif.SimProps.C46_first_load_partial",
    "Verif.SimProps.C46_own_metallicity_partial",
    "Verif.SimProps.C46_check_step",
    "Verif.SimProps.C46_leak_violated",
    "Verif.SimProps.C46_reload_violated"
   ],
   "note": "First load proved; a second load with another metallicity reuses the first one (C46_reload_violated), and metallicity leaks between steps sharing a dictionary (C46_leak_violated). For populations: with properties not loaded before every step has the metallicity of the population (C46_population_partial, C46_order) and its time limit (C46_limit); violated: a metallicity fixed by the user for a step is overwritten (C46_fixed_violated), a second population with the same properties is evolved with the grids of the first (C46_shared_violated, C46_shared_all_violated), and creating it changes the time limit of the first (C46_limit_violated)."
  },
  {
   "property": "C47",
   "status": "partial",
   "theorems": [
    "Verif.Detached.C47_past_the_end_violated",
    "Verif.Detached.C47_large_dt_raises_violated",
    "Verif.Detached.C47_large_dt_error",
    "Verif.Detached.C47_dt_partial",
    "Verif.Detached.C47_dt_exact",
    "Verif.Detached.C47_dt_spacing",
    "Verif.Detached.C47_number_of_steps",
    "Verif.Detached.C47_default",
    "Verif.Detached.C47_dt_first"
   ],
   "note": "All dt, step numbers and times over the rationals. Proved: increasing, after the start, last time in [T, T+dt/2), exact for a number of steps and by default. Violated: with dt the last time can exceed the end of the integration by up to dt/2 (the exact condition is C47_dt_exact), and dt of at least twice the duration raises IndexError. Rounding of np.arange is not modelled."
  },
  {
   "property": "C48",
   "status": "partial",
   "theorems": [
    "Verif.SN.C48_type",
    "Verif.SN.C48_defined",
    "Verif.SN.C48_white_dwarf",
    "Verif.SN.C48_monotone",
    "Verif.SN.C48_unknown_option",
    "Verif.SN.C48_undefined_core",
    "Verif.SN.C48_undefined_core_violated",
    "Verif.SN.C48_match",
    "Verif.SN.C48_match_violated",
    "Verif.SN.C48_explosion"
   ],
   "note": "check_SN_type, check_SN_CO_match and explod_crit for all real masses. Violations: undefined CO core counted as CCSN without an ECSN option; check_SN_CO_match accepts every pair whose state is not a remnant."
  },
  {
   "property": "C49",
   "status": "proved",
   "theorems": [
    "Verif.NormPop.C49_same",
    "Verif.NormPop.C49_nonneg",
    "Verif.NormPop.C49_outside",
    "Verif.NormPop.C49_reweights",
    "Verif.NormPop.C49_density_split",
    "Verif.NormPop.C49_refused"
   ],
   "note": ""
  },
  {
   "property": "C50",
   "status": "partial",
   "theorems": [
    "Verif.Chunk.C50_pieces",
    "Verif.Chunk.C50_visited_once",
    "Verif.Chunk.C50_transient_chunk_free",
    "Verif.Chunk.C50_transient_errors",
    "Verif.Chunk.C50_sorted_file",
    "Verif.Chunk.C50_unsorted_violated",
    "Verif.Chunk.C50_subsets_partial",
    "Verif.Chunk.C50_subsets_selected_partial",
    "Verif.Chunk.C50_chunk_size",
    "Verif.Chunk.C50_long_history_violated",
    "Verif.Chunk.C50_both_selectors",
    "Verif.Chunk.C50_columns"
   ],
   "note": "Chunk independence is proved for every chunk size of create_transient_population, and for formation-channel subsets when the file is sorted by index and the histories fit (C50_subsets_partial, C50_subsets_selected_partial). The unsorted and long-history cases are shown to fail by witnesses."
  },
  {
   "property": "C51",
   "status": "partial",
   "theorems": [
    "Verif.MTCase.C51_state",
    "Verif.MTCase.C51_event_stable",
    "Verif.MTCase.C51_event_unstable",
    "Verif.MTCase.C51_failed_runs",
    "Verif.MTCase.C51_accretor_donor_violated"
   ],
   "note": "State and event tables proved; donors classified accreted_He_* give the unroutable state 'undefined' (C51_accretor_donor_violated)."
  },
  {
   "property": "C52",
   "status": "proved",
   "theorems": [
    "Verif.MTCase.C52_one_donor_per_row",
    "Verif.MTCase.C52_no_RLOF_iff",
    "Verif.MTCase.C52_transfer_reported",
    "Verif.MTCase.C52_initial",
    "Verif.Transfer.C52_exact"
   ],
   "note": ""
  },
  {
   "property": "C53",
   "status": "proved",
   "theorems": [
    "Verif.TermFlags.C53_last_code",
    "Verif.TermFlags.C53_no_final_line",
    "Verif.TermFlags.C53_no_log"
   ],
   "note": ""
  },
  {
   "property": "C54",
   "status": "partial",
   "theorems": [
    "Verif.PopMass.C54_distribution",
    "Verif.PopMass.C54_positive",
    "Verif.PopMass.C54_no_companion",
    "Verif.MassFault.C54_combined",
    "Verif.MassFault.C54_append_violated",
    "Verif.MassFault.C54_read_violated",
    "Verif.MassFault.C54_columns_violated",
    "Verif.MassFault.C54_columns_combine",
    "Verif.MassFault.C54_unreadable",
    "Verif.PopMass.C54_simulated_mass",
    "Verif.PopMass.C54_same_index_violated"
   ],
   "note": "Proved when indices within a file are distinct (C54_simulated_mass), in any order and distribution over files (C54_distribution), with the combined file (C54_combined), and that the records are not negative (C54_positive). False otherwise: two systems with the same index (C54_same_index_violated); a file whose one-line table cannot be written is counted, one whose one-line table cannot be read leaves its history behind (C54_append_violated, C54_read_violated); histories without the columns state, S1_mass or S2_mass lose the one-line table (C54_columns_violated, C54_columns_combine). Unreadable files contribute nothing (C54_unreadable)."
  },
  {
   "property": "C55",
   "status": "partial",
   "theorems": [
    "Verif.NormPop.C55_mass_ratio_density",
    "Verif.NormPop.C55_mean_mass_violated",
    "Verif.NormPop.C55_fixed_limits_partial",
    "Verif.NormPop.C55_separation_violated",
    "Verif.NormPop.C55_separation_truth"
   ],
   "note": "Mass-ratio density proved; mean-mass integration range and the separation density are violations."
  },
  {
   "property": "C56",
   "status": "proved",
   "theorems": [
    "Verif.InvSampler.C56_distribution_partial",
    "Verif.InvSampler.C56_increasing",
    "Verif.InvSampler.C56_flat_bins",
    "Verif.InvSampler.C56_inverse",
    "Verif.InvSampler.C56_inverse_refused",
    "Verif.InvSampler.C56_histogram",
    "Verif.InvSampler.C56_rejection",
    "Verif.InvSampler.C56_inverse_check",
    "Verif.InvSampler.C56_inverse_short",
    "Verif.InvSampler.C56_histogram_check",
    "Verif.InvSampler.C56_search"
   ],
   "note": "Distribution of the inverse sampler stated for tables without flat bins (C56_distribution_partial, C56_increasing); in flat bins a second draw is used (C56_flat_bins)."
  },
  {
   "property": "C57",
   "status": "proved",
   "theorems": [
    "Verif.GW.C57_refused",
    "Verif.GW.C57_positive",
    "Verif.GW.C57_scaling",
    "Verif.GW.C57_eccentric_sooner",
    "Verif.GW.C57_circular_limit",
    "Verif.GW.C57_period_monotone"
   ],
   "note": ""
  },
  {
   "property": "C58",
   "status": "proved",
   "theorems": [
    "Verif.GW.C58_no_accretion",
    "Verif.GW.C58_range",
    "Verif.GW.C58_monotone",
    "Verif.GW.C58_invalid",
    "Verif.GW.C58_steps",
    "Verif.GW.C58_chain",
    "Verif.GW.C58_full",
    "Verif.GW.C58_full_from_zero"
   ],
   "note": "Also proved: the spin does not depend on how the accretion is divided into steps (C58_steps, C58_chain), and it is 1 exactly from a mass ratio equal to the root of the innermost stable orbit on (C58_full, C58_full_from_zero)."
  },
  {
   "property": "C59",
   "status": "partial",
   "theorems": [
    "Verif.Profile.C59_interpolation",
    "Verif.Profile.C59_binding_fraction",
    "Verif.Profile.C59_binding_monotone",
    "Verif.Profile.C59_not_negative",
    "Verif.Profile.C59_extremes",
    "Verif.Profile.C59_he_core_between",
    "Verif.Profile.C59_co_core_violated",
    "Verif.Profile.C59_states",
    "Verif.Profile.C59_internal_energy_violated",
    "Verif.Profile.C59_internal_energy",
    "Verif.Profile.C59_internal_refused"
   ],
   "note": "Helium core of hydrogen-rich stars, extremes, sign of lambda, binding energy and interpolation are proved. Violated: carbon-oxygen core of a hydrogen-rich star (boundary in X+Y, interpolation in Y alone), and internal energies are only refused when all cells are negative."
  },
  {
   "property": "C60",
   "status": "partial",
   "theorems": [
    "Verif.Formation.C60_names",
    "Verif.Formation.C60_capitals",
    "Verif.Formation.C60_one",
    "Verif.Formation.C60_custom_linear",
    "Verif.Formation.C60_custom_log",
    "Verif.Formation.C60_constant",
    "Verif.Formation.C60_before_beginning_violated",
    "Verif.Formation.C60_after_end_violated",
    "Verif.Formation.C60_burst",
    "Verif.Formation.C60_limits",
    "Verif.Sfh.C60_times_partial",
    "Verif.Sfh.C60_histogram_violated",
    "Verif.Sfh.C60_refused"
   ],
   "note": "Proved: one time per binary and its range for every scenario but the histograms (C60_times_partial, C60_custom_linear, C60_custom_log, C60_constant), one time for each scenario when binaries are drawn one at a time as populations do (C60_one), exactly the documented names are accepted, in any capitals (C60_names, C60_capitals). Violated for histograms of ages with several binaries: the sampler is called without a size, so there is a single time (C60_histogram_violated); times can be before the beginning (C60_before_beginning_violated) or after the end of the simulation (C60_after_end_violated)."
  },
  {
   "property": "C61",
   "status": "partial",
   "theorems": [
    "Verif.Bins.C61_redshift_edges_partial",
    "Verif.Bins.C61_redshift_centers_partial",
    "Verif.Bins.C61_redshift_step_violated",
    "Verif.Bins.C61_metallicity_edges",
    "Verif.Bins.C61_metallicity_order",
    "Verif.Bins.C61_single_metallicity",
    "Verif.Bins.C61_model_stored",
    "Verif.Bins.C61_model_stored_violated"
   ],
   "note": "Metallicity bins are proved for all lists. Redshift bins are proved for steps whose last bin centre is a valid age below redshift 100; other steps raise (C61_redshift_step_violated). dlogZ values other than None, float and pairs do not survive storage (C61_model_stored_violated). The cosmology is a parameter."
  },
  {
   "property": "C62",
   "status": "partial",
   "theorems": [
    "Verif.Rates.C62_own_weight_partial",
    "Verif.Rates.C62_unknown_metallicity",
    "Verif.Rates.C62_unordered_violated",
    "Verif.Rates.C62_rank",
    "Verif.Rates.C62_exact"
   ],
   "note": "For any order of the one-line table the k-th smallest label gets the weight of the k-th selected row (C62_rank); every binary gets its own weight exactly if the selected rows are in increasing order of the index (C62_exact); otherwise weights are exchanged (C62_unordered_violated)."
  },
  {
   "property": "C63",
   "status": "partial",
   "theorems": [
    "Verif.Rates.C63_rows",
    "Verif.Rates.C63_complete_partial",
    "Verif.Rates.C63_missing_violated",
    "Verif.Rates.C63_exact"
   ],
   "note": "All events are covered exactly if there are no more of them than systems, rounded up to whole chunks (C63_exact); otherwise events are left out (C63_missing_violated)."
  },
  {
   "property": "C64",
   "status": "partial",
   "theorems": [
    "Verif.Channel.C64_cleaned",
    "Verif.Channel.C64_channel",
    "Verif.Channel.C64_distinct",
    "Verif.Channel.C64_cut_violated",
    "Verif.Channel.C64_classes",
    "Verif.Channel.C64_edge_cases",
    "Verif.Channel.C64_other_history",
    "Verif.Channel.C64_contact_violated"
   ],
   "note": "The cleaned channel is proved for all event sequences of the alphabet of the flow chart, and that untruncated channels of different histories differ. The cut after 100 characters, the relabelling of all transfers after a contact phase and unknown classes are shown to break the claim."
  },
  {
   "property": "C65",
   "status": "partial",
   "theorems": [
    "Verif.Generator.C65_prefix",
    "Verif.Generator.C65_numbers",
    "Verif.Generator.C65_undisturbed",
    "Verif.Generator.C65_nth_partial",
    "Verif.Generator.C65_index_violated",
    "Verif.Generator.C65_zero_violated",
    "Verif.Generator.C65_nth_violated",
    "Verif.Generator.C65_vectorised_violated",
    "Verif.Generator.C65_fresh"
   ],
   "note": "Proved for scenarios without random formation times; the index shift and random formation times are shown to break the claim. The sampler is abstracted to arrays of random numbers."
  },
  {
   "property": "C66",
   "status": "partial",
   "theorems": [
    "Verif.Detached.C66_aligned",
    "Verif.Detached.C66_rows",
    "Verif.Detached.C66_single_row",
    "Verif.Detached.C66_repeated_time_violated",
    "Verif.Detached.C66_state_rows_partial",
    "Verif.Detached.C66_first_state_stale_violated",
    "Verif.Detached.C66_accretion_late_violated"
   ],
   "note": "Any number of output times and any columns; classification and interpolated values are parameters. Columns stay aligned and rows 1..n-1 carry the classification of their own values. Violated: the last time is recorded twice, the first row keeps the state from before the step, the accretion rates of a compact object are one row late."
  },
  {
   "property": "C67",
   "status": "partial",
   "theorems": [
    "Verif.DetachedEvent.C67_assertion_holds",
    "Verif.DetachedEvent.C67_rlo_star",
    "Verif.DetachedEvent.C67_names",
    "Verif.DetachedEvent.C67_rlo_orbit",
    "Verif.DetachedEvent.C67_rlo_kepler",
    "Verif.DetachedEvent.C67_collapse_star",
    "Verif.DetachedEvent.C67_mirror",
    "Verif.DetachedEvent.C67_both_ready_violated",
    "Verif.DetachedEvent.C67_two_compact_objects",
    "Verif.DetachedEvent.C67_entry",
    "Verif.DetachedEvent.C67_next_after_no_overflow",
    "Verif.DetachedEvent.C67_next_after_overflow_partial",
    "Verif.DetachedEvent.C67_dead_end_violated"
   ],
   "note": "All terminal events, star labels, states and orbits; the integration and the track values are parameters. Star names, symmetry, Kepler's law, angular momentum and periastron proved in full. Violated: two finished stars of different mass raise although their end times differ; a carbon-exhausted star that overflows has no next step in the default chart."
  },
  {
   "property": "C68",
   "status": "partial",
   "theorems": [
    "Verif.Mesa.C68_co_hms",
    "Verif.Mesa.C68_co_he_rlo_partial",
    "Verif.Mesa.C68_co_he_rlo_violated",
    "Verif.Mesa.C68_co_he_partial",
    "Verif.Mesa.C68_co_he_violated",
    "Verif.Mesa.C68_run_inside",
    "Verif.Mesa.C68_zams_total",
    "Verif.Mesa.C68_zams_run_inside",
    "Verif.Mesa.C68_zams_mirror_partial",
    "Verif.Mesa.C68_zams_mirror_violated",
    "Verif.Mesa.C68_zams_eccentricity_violated",
    "Verif.Mesa.C68_hms_rlo_mirror_violated",
    "Verif.Mesa.C68_hms_rlo_donor_ignored",
    "Verif.Mesa.C68_hms_rlo_redirect_violated",
    "Verif.Mesa.C68_chart_accepts_partial",
    "Verif.Mesa.C68_chart_accepts_violated",
    "Verif.Mesa.C68_eccentric_chart_violated",
    "Verif.Mesa.C68_handed_on",
    "Verif.Mesa.C68_exhausted",
    "Verif.Mesa.C68_frame_mirror",
    "Verif.Mesa.C68_frame_events",
    "Verif.Mesa.C68_hms_rlo_outcome"
   ],
   "note": "Decisions of the five grid steps, their fit with the default flow chart and the frame of a run proved; what the grid itself computes is a parameter. Violated: limit of half a solar mass for exchanged main-sequence stars, eccentricity ignored at ZAMS, missing parentheses in the helium overflow step, mass tests of the detached helium step ignore the exchange, HMS_HMS_RLO never exchanges the stars and redirects to an event the flow chart does not know, two star states routed to a step that refuses them, stripped stars routed to HMS_HMS_RLO by the eccentric chart."
  },
  {
   "property": "C69",
   "status": "partial",
   "theorems": [
    "Verif.MesaTrack.C69_neither_violated",
    "Verif.MesaTrack.C69_binary_aligned_partial",
    "Verif.MesaTrack.C69_star_aligned_partial",
    "Verif.MesaTrack.C69_states_of_rows",
    "Verif.MesaTrack.C69_binary_rows_partial",
    "Verif.MesaTrack.C69_time_rows_partial",
    "Verif.MesaTrack.C69_star_rows_partial",
    "Verif.MesaTrack.C69_first_row_twice",
    "Verif.MesaTrack.C69_flush",
    "Verif.MesaTrack.C69_unequal_violated",
    "Verif.MesaTrack.C69_filled_up_partial",
    "Verif.MesaTrack.C69_filled_up_violated",
    "Verif.MesaTrack.C69_eddington_current",
    "Verif.MesaTrack.C69_eddington_history_violated",
    "Verif.MesaTrack.C69_kept",
    "Verif.MesaTrack.C69_missing"
   ],
   "note": "Alignment, rows, states and dropping of rows proved for tracks whose binary and star histories have the same length, for both kinds of star and all options but one. Violated: with both options off a variable is unbound; histories of different length leave misaligned columns; the Eddington limit of recorded rows compares a logarithm with the rate itself. Not modelled: values without history (core properties, supernova tables)."
  },
  {
   "property": "C70",
   "status": "partial",
   "theorems": [
    "Verif.MesaStop.C70_interpolation",
    "Verif.MesaStop.C70_stop_partial",
    "Verif.MesaStop.C70_exact_hit_violated",
    "Verif.MesaStop.C70_words_violated",
    "Verif.MesaStop.C70_words_witness",
    "Verif.MesaStop.C70_flushed",
    "Verif.MesaStop.C70_falling_violated",
    "Verif.MesaStop.C70_rising_partial"
   ],
   "note": "Stopping at a time inside the run, interpolation, kept rows, dropped rows, and stopping at rising properties proved. Violated: a run ending exactly at the limit ends with an index error; states at the stop are those of the end of the run; falling properties always end with an index error."
  },
  {
   "property": "C71",
   "status": "partial",
   "theorems": [
    "Verif.Scale.C71_round_trip",
    "Verif.Scale.C71_range",
    "Verif.Scale.C71_max_abs",
    "Verif.Scale.C71_standardize",
    "Verif.Scale.C71_unfitted",
    "Verif.Scale.C71_refused",
    "Verif.Scale.C71_unknown_method_violated",
    "Verif.Scale.C71_constant_violated",
    "Verif.Scale.C71_log_domain_violated"
   ],
   "note": "Round trip, ranges, mean and deviation proved for all data on which a method is defined and that are not constant. Violated: constant features are fitted without complaint but lose all values; a training value outside the logarithm spoils everything silently; after refusing an unknown method the object passes numbers unchanged."
  },
  {
   "property": "C72",
   "status": "partial",
   "theorems": [
    "Verif.ConOrder.C72_order_violated",
    "Verif.ConOrder.C72_order_empty",
    "Verif.ConOrder.C72_order_dict",
    "Verif.ConOrder.C72_order_mended",
    "Verif.Constraint.C72_all_hold_partial",
    "Verif.Constraint.C72_found",
    "Verif.Constraint.C72_core_masses",
    "Verif.Constraint.C72_separation",
    "Verif.Constraint.C72_transfer_fraction",
    "Verif.Constraint.C72_abundances",
    "Verif.Constraint.C72_given",
    "Verif.Constraint.C72_consistent_unchanged",
    "Verif.Constraint.C72_idempotent_partial",
    "Verif.Constraint.C72_convective",
    "Verif.Constraint.C72_convective_violated",
    "Verif.Constraint.C72_no_convection_violated",
    "Verif.Constraint.C72_unknown_core_violated",
    "Verif.Constraint.C72_zero_sum_violated",
    "Verif.Constraint.C72_second_star_violated",
    "Verif.Constraint.C72_extra_column_violated",
    "Verif.Constraint.C72_shared_table_violated",
    "Verif.Constraint.C72_unknown_rate_violated",
    "Verif.Constraint.C72_no_assertion",
    "Verif.Constraint.C72_assertion_violated",
    "Verif.Constraint.C72_core_radii",
    "Verif.Constraint.C72_masses",
    "Verif.Constraint.C72_convective_nearest"
   ],
   "note": "All applied constraints hold together after the correction, given columns never change, consistent values are untouched, the assertion never fails when the rate of star 1 is interpolated. Missing: idempotence needs the corrected convective region to fit exactly (the code has a tolerance); comparisons skip unknown values. Violated: shared table rewritten by later calls, columns of star 2 not checked, additional columns appended, zero sums, singular geometry, stars without convection get a convective region, unknown helium core hides the CO core, unknown transfer rate erases a known loss rate. The check of the order of constraints never reports: it ends with AttributeError for every table that is not empty (C72_order_violated), also with the method's name corrected as long as constraints are dictionaries (C72_order_dict); with objects it would name them (C72_order_mended)."
  },
  {
   "property": "C73",
   "status": "partial",
   "theorems": [
    "Verif.DoubleCO.C73_elapsed",
    "Verif.DoubleCO.C73_orbit",
    "Verif.DoubleCO.C73_contact",
    "Verif.DoubleCO.C73_maxtime",
    "Verif.DoubleCO.C73_decides",
    "Verif.DoubleCO.C73_merges_in_time",
    "Verif.DoubleCO.C73_outcome_exists",
    "Verif.DoubleCO.C73_outcome_unique",
    "Verif.DoubleCO.C73_errors",
    "Verif.DoubleCO.C73_mirror",
    "Verif.DoubleCO.C73_circular",
    "Verif.DoubleCO.C73_rows",
    "Verif.DoubleCO.C73_rows_outside",
    "Verif.DoubleCO.C73_failure_ignored_violated",
    "Verif.DoubleCO.C73_time_backwards_violated"
   ],
   "note": "Proved for an exact integrator: existence and uniqueness of the outcome, agreement of elapsed and merger time for all orbits (for eccentricity zero up to the relative error of the replacement by the smallest positive number), contact, end of simulation, decision, errors, symmetry, rows. Not covered: rounding of the integrator. Violated: a reported failure of the integrator leaves the binary unchanged without an error; for objects that overlap at the start time runs backwards."
  },
  {
   "property": "C74",
   "status": "partial",
   "theorems": [
    "Verif.Match.C74_roles",
    "Verif.Match.C74_roles_errors",
    "Verif.Match.C74_mirror",
    "Verif.Match.C74_lists_partial",
    "Verif.Match.C74_lists_errors",
    "Verif.Match.C74_helium_accretor_violated",
    "Verif.Match.C74_documented_partial",
    "Verif.Match.C74_documented_violated",
    "Verif.Match.C74_alternative_subset",
    "Verif.Match.C74_matched",
    "Verif.Match.C74_tracks",
    "Verif.Match.C74_event",
    "Verif.Match.C74_not_asked",
    "Verif.Match.C74_failed",
    "Verif.Match.C74_succeeds",
    "Verif.Match.C74_primary_alone_violated",
    "Verif.Match.C74_common_envelope_partial",
    "Verif.Match.C74_common_envelope_violated",
    "Verif.Match.C74_scales",
    "Verif.Match.C74_own_mass"
   ],
   "note": "Proved: roles and their errors for all states, mirror symmetry, lists of quantities for all states but one, result and tracks of a successful matching, event, failures, when it succeeds. Violated: an accretor of helium burning helium is matched with the quantities of H-rich stars on the helium grid; the alternative for evolved H-rich stars uses the central hydrogen instead of the documented central helium; asking for the primary alone raises an unassigned-variable error for a compact primary; a common envelope with star 2 as donor matches the donor instead of the companion when both have hydrogen."
  },
  {
   "property": "C75",
   "status": "partial",
   "theorems": [
    "Verif.Fit.C75_attempts",
    "Verif.Fit.C75_first_acceptable",
    "Verif.Fit.C75_none_acceptable",
    "Verif.Fit.C75_raises",
    "Verif.Fit.C75_cases",
    "Verif.Fit.C75_solution",
    "Verif.Fit.C75_exception_violated",
    "Verif.Fit.C75_flag_violated",
    "Verif.Fit.C75_root",
    "Verif.Fit.C75_quantities_stored",
    "Verif.Fit.C75_start",
    "Verif.Fit.C75_start_violated",
    "Verif.Fit.C75_rows",
    "Verif.Fit.C75_ages",
    "Verif.Fit.C75_columns",
    "Verif.Fit.C75_end_partial",
    "Verif.Fit.C75_end_violated"
   ],
   "note": "Proved: stopping at the first acceptable attempt, best of the unacceptable ones, errors, the three cases are exhaustive, origin of the solution, start at the nearest row for known quantities, removal of rows, end of life for increasing ages. Violated: an exception in a later attempt discards a solution within the final tolerance; a failed search can leave the star on the other grid; a grid row with an unknown quantity always becomes the starting point; the end of life is taken before rows are removed."
  },
  {
   "property": "C76",
   "status": "partial",
   "theorems": [
    "Verif.Spin.C76_momentum",
    "Verif.Spin.C76_consistent",
    "Verif.Spin.C76_source",
    "Verif.Spin.C76_unmatched_partial",
    "Verif.Spin.C76_still",
    "Verif.Spin.C76_momentum_violated",
    "Verif.Spin.C76_unmatched_violated",
    "Verif.Spin.C76_retrograde_violated",
    "Verif.Spin.C76_errors",
    "Verif.Spin.C76_both",
    "Verif.Tight.C76_critical"
   ],
   "note": "Proved: conservation and consistency for matched rotating stars, unchanged consistent stars, order of the sources, unmatched rotating stars, both stars, errors. Violated: a star with known momentum but unknown surface rate is recorded with zero rate and momentum one while the evolution starts from the true rate; an unmatched star of unknown rate is overwritten; a retrograde star is recorded as not rotating."
  },
  {
   "property": "C77",
   "status": "proved",
   "theorems": [
    "Verif.Tides.C77_angular_momentum",
    "Verif.Tides.C77_energy",
    "Verif.Tides.C77_spin",
    "Verif.Tides.C77_circular",
    "Verif.Tides.C77_eccentricity",
    "Verif.Tides.C77_equilibrium",
    "Verif.Tides.C77_symmetric",
    "Verif.Tides.C77_strength"
   ],
   "note": "Proved as derivatives along any differentiable evolution, and as signs of the rates, over the reals; rounding is not covered."
  },
  {
   "property": "C78",
   "status": "partial",
   "theorems": [
    "Verif.Rhs.C78_wind_rate",
    "Verif.Rhs.C78_wind_orbit",
    "Verif.Rhs.C78_wind_widens",
    "Verif.Rhs.C78_wind_spin_partial",
    "Verif.Rhs.C78_wind_spin_violated",
    "Verif.Rhs.C78_wind_still",
    "Verif.Rhs.C78_gw_peters",
    "Verif.Rhs.C78_gw_sign_partial",
    "Verif.Rhs.C78_gw_sign_violated",
    "Verif.Rhs.C78_gw_symmetric",
    "Verif.Rhs.C78_braking_brakes",
    "Verif.Rhs.C78_braking_still",
    "Verif.Rhs.C78_braking_mass_partial",
    "Verif.Rhs.C78_carb_violated",
    "Verif.Rhs.C78_same_law_partial",
    "Verif.Rhs.C78_m15_violated",
    "Verif.Rhs.C78_sum",
    "Verif.Rhs.C78_unknown_violated",
    "Verif.Rhs.C78_alfven"
   ],
   "note": "Proved: winds (for the spin while the rate is below its limit), Peters' law with a bound of the correction and signs for separations above 12 GM/(c²(1-e²)), signs and limits of all four braking laws, the sum. Violated: the limited spin-up loses angular momentum; within five gravitational radii radiation widens the orbit; in the CARB law the primary's braking is switched off by the mass of the secondary; in the M15 law a saturated primary is braked faster by the number of seconds in a year; an unknown law raises a type error."
  },
  {
   "property": "C79",
   "status": "partial",
   "theorems": [
    "Verif.Isolated.C79_no_orbit",
    "Verif.Isolated.C79_initial_orbit",
    "Verif.Isolated.C79_errors",
    "Verif.Isolated.C79_refused_violated",
    "Verif.Isolated.C79_event_violated",
    "Verif.Isolated.C79_no_overflow",
    "Verif.Isolated.C79_end"
   ],
   "note": "Proved: no orbit after success, the orbit used, no overflow, errors, last step. Violated: a refused binary has its orbit overwritten; the step for initially single stars compares instead of clearing the event."
  },
  {
   "property": "C80",
   "status": "partial",
   "theorems": [
    "Verif.Accretion.C80_balance",
    "Verif.Accretion.C80_black_hole",
    "Verif.Accretion.C80_neutron_star",
    "Verif.Accretion.C80_white_dwarf_violated",
    "Verif.Accretion.C80_accretor",
    "Verif.Accretion.C80_state",
    "Verif.Accretion.C80_radius",
    "Verif.Accretion.C80_beaming",
    "Verif.Accretion.C80_fraction_partial",
    "Verif.Accretion.C80_fraction_violated",
    "Verif.Accretion.C80_black_body",
    "Verif.Accretion.C80_factor",
    "Verif.Accretion.C80_giants_violated",
    "Verif.Accretion.C80_stripped",
    "Verif.Accretion.C80_hot",
    "Verif.Accretion.C80_phase",
    "Verif.Accretion.C80_orbit",
    "Verif.Accretion.C80_relative",
    "Verif.Accretion.C80_relative_violated",
    "Verif.Accretion.C80_circular",
    "Verif.Accretion.C80_limited",
    "Verif.Accretion.C80_rows",
    "Verif.Accretion.C80_errors",
    "Verif.Accretion.C80_scheme_partial",
    "Verif.Accretion.C80_scheme_violated",
    "Verif.Accretion.C80_rows_violated",
    "Verif.Accretion.C80_wind_violated",
    "Verif.Accretion.C80_escape"
   ],
   "note": "Proved: Eddington balance, efficiencies of black holes and neutron stars, the beamed rate, the phase, ellipse and energy of the orbit, Bondi and Hoyle's rate for circular orbits, the limit, errors. Violated: a white dwarf has an efficiency above one, because grams are handed over for solar masses; the limit and (with the second wind scheme) the wind of the last row are applied to all rows; the beaming fraction exceeds one just above 8.5 times the limit; the slow wind of giants is overwritten; the relative speed at a phase is that of the mirrored phase; more than the wind can be accreted."
  },
  {
   "property": "C81",
   "status": "partial",
   "theorems": [
    "Verif.NatalKick.C81_speed_partial",
    "Verif.NatalKick.C81_speed_violated",
    "Verif.NatalKick.C81_reduced",
    "Verif.NatalKick.C81_options",
    "Verif.NatalKick.C81_velocity",
    "Verif.NatalKick.C81_unknown",
    "Verif.NatalKick.C81_dispersion_violated",
    "Verif.NatalKick.C81_renamed",
    "Verif.NatalKick.C81_type",
    "Verif.NatalKick.C81_given",
    "Verif.NatalKick.C81_reproducible",
    "Verif.NatalKick.C81_total",
    "Verif.NatalKick.C81_defaults",
    "Verif.NatalKick.C81_generator_violated",
    "Verif.NatalKick.C81_anomaly"
   ],
   "note": "Proved: sign for all prescriptions (for the linear one up to 1.15 times the core mass), reduction, meaning of each option, dispersion by type, use of given values, isotropy, recording, reproducibility, totality, errors. Violated: the linear prescription gives negative speeds; without a dispersion no name is looked at; without any parameter there is no generator of random numbers."
  },
  {
   "property": "C82",
   "status": "partial",
   "theorems": [
    "Verif.Frame.C82_line_partial",
    "Verif.Frame.C82_cut_violated",
    "Verif.Frame.C82_failed",
    "Verif.Frame.C82_line_errors",
    "Verif.Frame.C82_kick_array_violated",
    "Verif.Frame.C82_scalars_partial",
    "Verif.Frame.C82_scalars_violated",
    "Verif.Frame.C82_mt_history_violated",
    "Verif.Frame.C82_types_partial",
    "Verif.Frame.C82_types_standard",
    "Verif.Frame.C82_types_violated",
    "Verif.Frame.C82_unmarked",
    "Verif.Frame.C82_history_partial",
    "Verif.Frame.C82_none",
    "Verif.Frame.C82_components",
    "Verif.Frame.C82_velocity_violated",
    "Verif.Frame.C82_left_out",
    "Verif.Frame.C82_lengths",
    "Verif.Frame.C82_separation",
    "Verif.Frame.C82_period_violated",
    "Verif.Frame.C82_series_violated",
    "Verif.Frame.C82_unequal",
    "Verif.Frame.C82_index",
    "Verif.Frame.C82_index_violated",
    "Verif.Frame.C82_padding",
    "Verif.Frame.C82_padding_violated",
    "Verif.Frame.C82_filler_violated",
    "Verif.Frame.C82_short_violated",
    "Verif.Frame.C82_star_columns"
   ],
   "note": "Proved: round trip of index, histories and present values for every complete binary and every choice of known columns, defaults of columns left out, lengths, separations from periods, refusal of unequal columns, one-line form, types of column names without _i, _f, S1_, S2_. Violated: vectors (systemic velocity) and None are not restored; periods are not computed from separations; a series or a line with an old kick array is never read; index zero is not obeyed; writing fills up the histories of the binary itself, always with None, and fails if the velocities are short; properties whose name contains _i are lost from a line; mt_history is read as a list; user columns with _i in the name lose their type."
  },
  {
   "property": "C83",
   "status": "partial",
   "theorems": [
    "Verif.IFInterp.C83_candidates",
    "Verif.IFInterp.C83_matrix",
    "Verif.IFInterp.C83_outputs",
    "Verif.IFInterp.C83_nearest",
    "Verif.IFInterp.C83_reproduces_partial",
    "Verif.IFInterp.C83_no_group",
    "Verif.IFInterp.C83_class",
    "Verif.IFInterp.C83_track_partial",
    "Verif.IFInterp.C83_single_violated",
    "Verif.IFInterp.C83_hull_violated",
    "Verif.IFInterp.C83_label",
    "Verif.IFInterp.C83_excluded",
    "Verif.IFInterp.C83_history_violated",
    "Verif.IFInterp.C83_label_zero",
    "Verif.IFInterp.C83_nan_violated",
    "Verif.IFInterp.C83_inputs_violated",
    "Verif.IFInterp.C83_inputs_partial",
    "Verif.IFInterp.C83_names_violated",
    "Verif.IFInterp.C83_load_violated",
    "Verif.IFInterp.C83_initial_MT",
    "Verif.IFInterp.C83_initial_MT_violated",
    "Verif.IFInterp.C83_numbers_partial",
    "Verif.IFInterp.C83_numbers_violated",
    "Verif.IFInterp.C83_inputs_order",
    "Verif.IFInterp.C83_inputs_order_violated",
    "Verif.IFInterp.C83_fill",
    "Verif.IFInterp.C83_fill_none",
    "Verif.IFInterp.C83_keys",
    "Verif.IFInterp.C83_own",
    "Verif.IFInterp.C83_folds",
    "Verif.IFInterp.C83_strata",
    "Verif.IFInterp.C83_repetition_violated",
    "Verif.IFInterp.C83_neighbours"
   ],
   "note": "Proved: reproduction of training tracks class by class (from inputs alone, with the scalings chosen by the code, for any hull interpolation that reproduces its nodes), fitness of the chosen scalings, labels, filling of missing values, keys of several interpolators, cross-validation parts, number of neighbours. Violated: a single method returns scaled numbers and fails outside the hull; inputs of a class are scaled with the wrong tracks if some serve for classification only; tracks with missing inputs or without binary history are used although reported as discarded; scalings as a list of names never work; loading needs a grid; -100 is lost; order of the input keys is ignored; repetitions of the cross-validation test the same tracks."
  },
  {
   "property": "C84",
   "status": "partial",
   "theorems": [
    "Verif.GridMake.C84_aligned",
    "Verif.GridMake.C84_load",
    "Verif.GridMake.C84_taken",
    "Verif.GridMake.C84_taken_single",
    "Verif.GridMake.C84_taken_empty",
    "Verif.GridMake.C84_plain",
    "Verif.GridMake.C84_fix",
    "Verif.GridMake.C84_inlist_violated",
    "Verif.GridMake.C84_index",
    "Verif.GridMake.C84_negative",
    "Verif.GridMake.C84_slim_violated",
    "Verif.GridMake.C84_column",
    "Verif.GridMake.C84_rerun",
    "Verif.GridMake.C84_rerun_violated",
    "Verif.GridMake.C84_eq_refl_partial",
    "Verif.GridMake.C84_eq_sound",
    "Verif.GridMake.C84_eq_nan_violated",
    "Verif.GridMake.C84_eq_dirs_violated",
    "Verif.GridMake.C84_columns",
    "Verif.GridMake.C84_columns_violated",
    "Verif.GridMake.C84_columns_twice_violated",
    "Verif.GridMake.C84_core"
   ],
   "note": "Alignment of rows and directories, loading, which runs are taken, the fix, indices, columns and reruns are proved for all runs and settings; equality is reflexive only without NaN in the tables. Violated: a run that must be ignored and has no grid point file aborts the creation (C84_inlist_violated), slim grids are loaded as empty (C84_slim_violated), the list of the caller is changed by rerun (C84_rerun_violated), a table with NaN differs from itself (C84_eq_nan_violated), directories and collapse models are not compared (C84_eq_dirs_violated), an unknown word for the columns is taken letter by letter (C84_columns_violated) and repeated columns stay repeated (C84_columns_twice_violated)."
  },
  {
   "property": "C85",
   "status": "partial",
   "theorems": [
    "Verif.GridJoin.C85_binary_name",
    "Verif.GridJoin.C85_single_name",
    "Verif.GridJoin.C85_same_system",
    "Verif.GridJoin.C85_text_violated",
    "Verif.GridJoin.C85_single_violated",
    "Verif.GridJoin.C85_last",
    "Verif.GridJoin.C85_order",
    "Verif.GridJoin.C85_rows",
    "Verif.GridJoin.C85_fix",
    "Verif.GridJoin.C85_boundary_partial",
    "Verif.GridJoin.C85_consistent",
    "Verif.GridJoin.C85_empty_violated",
    "Verif.GridJoin.C85_models_violated",
    "Verif.GridJoin.C85_text_column_violated",
    "Verif.GridJoin.C85_text_columns",
    "Verif.GridJoin.C85_slim_violated",
    "Verif.GridJoin.C85_compression",
    "Verif.GridJoin.C85_folders",
    "Verif.GridJoin.C85_line",
    "Verif.GridJoin.C85_capital_violated",
    "Verif.GridJoin.C85_skip",
    "Verif.GridJoin.C85_lines",
    "Verif.GridJoin.C85_value",
    "Verif.GridJoin.C85_names",
    "Verif.GridJoin.C85_down",
    "Verif.GridJoin.C85_down_refused",
    "Verif.GridJoin.C85_profile",
    "Verif.GridJoin.C85_disagree",
    "Verif.GridJoin.C85_slim_index_violated"
   ],
   "note": "Proved: the last run of each system is taken, once and whole; names of directories of binaries and single stars give their values; settings and columns must agree; the effect of the fix; compression; lines of grid points; thinning out. Partial: the boundary only for masses that are the same or further apart than 1e-5. Violated: the collapse models are lost; grids with a column mt_history or S1_CO_type, or slim grids, cannot be joined; masses written in two ways are two systems; joining nothing is a type error; single-star directories are not checked; an exponent with a capital D is refused."
  },
  {
   "property": "C86",
   "status": "partial",
   "theorems": [
    "Verif.Transient.C86_chosen",
    "Verif.Transient.C86_own_supernova_partial",
    "Verif.Transient.C86_own_line",
    "Verif.Transient.C86_channel",
    "Verif.Transient.C86_refused",
    "Verif.Transient.C86_shifted_violated",
    "Verif.Transient.C86_channel_violated",
    "Verif.Transient.C86_align",
    "Verif.Transient.C86_pair",
    "Verif.Transient.C86_no_pair",
    "Verif.Transient.C86_twice",
    "Verif.Transient.C86_kept_violated"
   ],
   "note": "Proved: which binaries are selected; rows before and after the supernova for binaries which become a black hole once (partial); own line and channel; refused inputs; values of pairs of black holes. Violated: rows are counted over all binaries, so one without a supernova row takes the values of another with two; channels without the collapse get its mark; binaries which are no pairs stay as undefined rows. The replacement of undefined tilts in the table of the caller is in C87."
  },
  {
   "property": "C87",
   "status": "partial",
   "theorems": [
    "Verif.ChiArr.C87_arrays",
    "Verif.ChiArr.C87_warned",
    "Verif.ChiArr.C87_caller",
    "Verif.ChiArr.C87_caller_kept",
    "Verif.ChiArr.C87_caller_violated",
    "Verif.ChiArr.C87_again",
    "Verif.Detect.C87_chi_eff",
    "Verif.Detect.C87_undefined",
    "Verif.Detect.C87_chi_p",
    "Verif.Detect.C87_chi_p_violated",
    "Verif.Detect.C87_chirp",
    "Verif.Detect.C87_chirp_max",
    "Verif.Detect.C87_ratio",
    "Verif.Detect.C87_weights",
    "Verif.Detect.C87_columns",
    "Verif.Detect.C87_looked_up_partial",
    "Verif.Detect.C87_looked_up_violated",
    "Verif.Detect.C87_labels_violated",
    "Verif.Detect.C87_normalize",
    "Verif.Detect.C87_between",
    "Verif.Detect.C87_exact",
    "Verif.Detect.C87_rounding_violated",
    "Verif.Detect.C87_point",
    "Verif.Detect.C87_rounding",
    "Verif.Detect.C87_inverse_distance"
   ],
   "note": "Proved: bounds and symmetry of the spins, chirp mass and mass ratio; weights; neighbours. Partial: the system looked up is that of the event only if the first star is the heavier one. Violated: otherwise another system is looked up and the weight depends on the labels; the precession parameter exceeds one; bounds of the table are rounded to zero. For arrays: each entry its own pair (C87_arrays), warnings name exactly the arrays with undefined entries (C87_warned), the changes to the arrays of the caller (C87_caller, C87_caller_kept, C87_again). Violated: undefined spins and tilts of the caller's table become zero for good (C87_caller_violated). Not covered (an edit there survives, see the log): that the effective spin handed to the regression is that of the same row when the table has no such column."
  },
  {
   "property": "C88",
   "status": "partial",
   "theorems": [
    "Verif.Burst.C88_none",
    "Verif.Burst.C88_energy",
    "Verif.Burst.C88_beaming",
    "Verif.Burst.C88_goldstein",
    "Verif.Burst.C88_goldstein_violated",
    "Verif.Burst.C88_pescalli_violated",
    "Verif.Burst.C88_twice_violated",
    "Verif.Burst.C88_unchecked_violated",
    "Verif.Burst.C88_empty_violated",
    "Verif.Burst.C88_options",
    "Verif.Burst.C88_integer_violated"
   ],
   "note": "Proved: energies, beaming, flags, options. Violated: beaming above one for some draws and for small energies; efficiency used twice in one relation; beaming given is not checked; bursts without energy are flagged; an integer efficiency is refused."
  },
  {
   "property": "C89",
   "status": "proved",
   "theorems": [
    "Verif.Collapse.C89_isco",
    "Verif.Collapse.C89_efficiency",
    "Verif.Collapse.C89_j",
    "Verif.Collapse.C89_parts",
    "Verif.Collapse.C89_angle",
    "Verif.Collapse.C89_direct",
    "Verif.Collapse.C89_balance",
    "Verif.Collapse.C89_growth",
    "Verif.Collapse.C89_total",
    "Verif.Collapse.C89_collapsing_violated",
    "Verif.Collapse.C89_units_violated",
    "Verif.Collapse.C89_default_violated",
    "Verif.Collapse.C89_shells",
    "Verif.Collapse.C89_neutrinos",
    "Verif.Collapse.C89_maximal_violated",
    "Verif.Collapse.C89_start",
    "Verif.Collapse.C89_ejecta",
    "Verif.Collapse.C89_outermost_violated",
    "Verif.Collapse.C89_helium_violated"
   ],
   "note": "Proved over the reals for arbitrary profiles; Simpson's rule is a parameter. Violations are proved as separate theorems: the cell reaching the mass to collapse falls in as a whole; missing columns give a mass divided by the solar mass; the default neutrino loss None always fails; a spin of exactly one makes the next orbit undefined; ejecta of only the outermost cell are not counted and printing them fails; the helium of the cell below is used."
  },
  {
   "property": "C90",
   "status": "partial",
   "theorems": [
    "Verif.Single.C90_outside",
    "Verif.Single.C90_own",
    "Verif.Single.C90_between",
    "Verif.Single.C90_aligned",
    "Verif.Single.C90_age",
    "Verif.Single.C90_initial_mass",
    "Verif.Single.C90_zams",
    "Verif.Single.C90_track_value",
    "Verif.Single.C90_lifetime_violated",
    "Verif.Single.C90_duplicate_violated",
    "Verif.Single.C90_keys",
    "Verif.Single.C90_final_keys",
    "Verif.Single.C90_final",
    "Verif.Single.C90_one_side_violated",
    "Verif.Single.C90_final_own",
    "Verif.Single.C90_final_models",
    "Verif.Single.C90_state",
    "Verif.Single.C90_profile_mass",
    "Verif.Single.C90_profile_aligned",
    "Verif.Single.C90_nearest_exists",
    "Verif.Single.C90_nearest_own",
    "Verif.Single.C90_scaling"
   ],
   "note": "All stated parts are proved for tracks without NaN. Violated: rows beyond the end of the shorter neighbour are dropped, so an interpolated star can end before both its neighbours; of two runs of the same mass only the first is used; a final value unknown on one side only becomes NaN."
  },
  {
   "property": "C91",
   "status": "partial",
   "theorems": [
    "Verif.Moe.C91_tab_affine",
    "Verif.Moe.C91_cumulative",
    "Verif.Moe.C91_twin_range",
    "Verif.Moe.C91_inner_range",
    "Verif.Moe.C91_frequency_pos",
    "Verif.Moe.C91_frequency_continuous",
    "Verif.Moe.C91_pieces_continuous",
    "Verif.Moe.C91_orbit",
    "Verif.Moe.C91_secondary",
    "Verif.Moe.C91_fraction",
    "Verif.Moe.C91_metallicity",
    "Verif.Moe.C91_all_binaries",
    "Verif.Moe.C91_all_binaries_violated",
    "Verif.Moe.C91_narrow_violated",
    "Verif.Moe.C91_smallest_mass_violated",
    "Verif.Moe.C91_small_secondary",
    "Verif.Moe.C91_held_violated",
    "Verif.Moe.C91_separation_violated",
    "Verif.Moe.C91_not_used",
    "Verif.Moe.C91_close_built"
   ],
   "note": "Proved for all grids and random numbers: the quadrature is exact for straight lines, cumulative tables run from 0 to 1 without decreasing, the formulas are continuous in the period and within their ranges, periods, eccentricities, mass ratios and metallicities are in range, the fraction of binaries is the integral of the density. Violations proved: with only binaries asked for (the default) every random number above the fraction of binaries gives the longest period; below 0.8 solar masses the smallest mass is not respected; a shortest period a little above two days makes the construction fail; the generator is made once and ignores later limits; periods are handed over where separations are asked for. Floating point is modelled by real numbers."
  },
  {
   "property": "C92",
   "status": "partial",
   "theorems": [
    "Verif.IFStep.C92_binary_values",
    "Verif.IFStep.C92_star_values",
    "Verif.IFStep.C92_compact_values",
    "Verif.IFStep.C92_compact_rate",
    "Verif.IFStep.C92_star_states",
    "Verif.IFStep.C92_own_star",
    "Verif.IFStep.C92_needed",
    "Verif.IFStep.C92_initial",
    "Verif.IFStep.C92_post_values",
    "Verif.IFStep.C92_sn_models",
    "Verif.IFStep.C92_unstable",
    "Verif.IFStep.C92_two_compact",
    "Verif.IFStep.C92_total",
    "Verif.IFStep.C92_case",
    "Verif.IFStep.C92_unstable_violated",
    "Verif.IFStep.C92_sn_missing"
   ],
   "note": "Proved for all values: the values of all properties against an independent table, the dependence of a star on its own columns only, errors for missing columns, no errors if all are there and not both stars are compact, early return, post-processed values, complete supernova models. Violations proved: after unstable mass transfer the supernova models of both stars are those from before the step; two compact objects end in an unbound variable. Column names are structured instead of text; the classifications and the accretion are parameters."
  },
  {
   "property": "C93",
   "status": "partial",
   "theorems": [
    "Verif.MTLabel.C93_label_total_partial",
    "Verif.MTLabel.C93_last_phase",
    "Verif.MTLabel.C93_reverse",
    "Verif.MTLabel.C93_label_total_violated",
    "Verif.MTLabel.C93_nonburning_violated",
    "Verif.MTLabel.C93_outer_overflow",
    "Verif.MTLabel.C93_nonburning_all_violated",
    "Verif.MTLabel.C93_cut"
   ],
   "note": "Proved for all histories in which the second star has no undetermined case: a text exists for every class; with one donor it names the phase of the most advanced case; with both donors reverse mass transfer. The label depends on a strictly increasing list of cases, and the table of all of these is decided completely. Violations proved: an undetermined case of the second star after another one gives a label that is not in the dictionary (KeyError); non-burning mass transfer after another case is reported as happening after the main sequence."
  },
  {
   "property": "C94",
   "status": "partial",
   "theorems": [
    "Verif.PostGrid.C94_balanced",
    "Verif.PostGrid.C94_columns",
    "Verif.PostGrid.C94_no_run_lost",
    "Verif.PostGrid.C94_collapse_partial",
    "Verif.PostGrid.C94_no_collapse",
    "Verif.PostGrid.C94_one_star",
    "Verif.PostGrid.C94_pick",
    "Verif.PostGrid.C94_star",
    "Verif.PostGrid.C94_rest",
    "Verif.PostGrid.C94_compact",
    "Verif.PostGrid.C94_single",
    "Verif.PostGrid.C94_directories_partial",
    "Verif.PostGrid.C94_directories_violated",
    "Verif.PostGrid.C94_index_errors",
    "Verif.PostGrid.C94_storable",
    "Verif.PostGrid.C94_stored",
    "Verif.PostGrid.C94_unknown_violated",
    "Verif.PostGrid.C94_collapse_violated",
    "Verif.PostGrid.C94_pick_violated",
    "Verif.PostGrid.C94_stored_violated",
    "Verif.PostGrid.C94_store",
    "Verif.PostGrid.C94_dense"
   ],
   "note": "Proved for all runs, grids and models: one value per column and run, so the check of lengths never fires; columns hold the values of the runs in order; own values of each star; collapse of the star that ended the run, all or nothing, at most one star; directories for indices and ranges; conversions never fail; the columns of predefined models are stored once under distinct names. Violations proved: settings of models handed over are ignored (default settings are used for other names); a run of unknown class has its ordinary star classified as compact object; with a compact companion the first star collapses whatever the flag says; a range with a negative end returns directories without values; columns of models with other names are stored elsewhere or not at all. Classification, collapse and common-envelope functions are data of the star."
  },
  {
   "property": "C95",
   "status": "partial",
   "theorems": [
    "Verif.FromRun.C95_no_history",
    "Verif.FromRun.C95_binary",
    "Verif.FromRun.C95_eccentricity",
    "Verif.FromRun.C95_star",
    "Verif.FromRun.C95_from_binary",
    "Verif.FromRun.C95_metallicity",
    "Verif.FromRun.C95_states",
    "Verif.FromRun.C95_states_compact",
    "Verif.FromRun.C95_orbit",
    "Verif.FromRun.C95_lengths",
    "Verif.FromRun.C95_depletion",
    "Verif.FromRun.C95_independent",
    "Verif.FromRun.C95_current_last",
    "Verif.FromRun.C95_succeeds",
    "Verif.FromRun.C95_no_metallicity_violated",
    "Verif.FromRun.C95_compact_histories_violated",
    "Verif.FromRun.C95_profile_history_violated",
    "Verif.FromRun.C95_single",
    "Verif.FromRun.C95_single_profile",
    "Verif.FromRun.C95_single_metallicity_violated",
    "Verif.FromRun.C95_orbit_columns",
    "Verif.FromRun.C95_compact_state"
   ],
   "note": "Proved for all runs: contents of every property of binary, of stars with a table and of single stars; step-by-step states; lengths; helium-depletion values; independence of the other star; success for complete runs. Violations proved: the alternative for a missing metallicity is never reached (the call fails instead); a star without a table keeps the one-entry histories of a new star for all other properties; the profile of a star is in no history of a binary; a single star has a metallicity but a history of nothing. The classification of the values read and new objects are parameters."
  },
  {
   "property": "C96",
   "status": "partial",
   "theorems": [
    "Verif.CEParam.C96_thresholds",
    "Verif.CEParam.C96_nested",
    "Verif.CEParam.C96_stripped",
    "Verif.CEParam.C96_no_profile",
    "Verif.CEParam.C96_accreted_violated",
    "Verif.CEParam.C96_extremes",
    "Verif.CEParam.C96_depletion",
    "Verif.CEParam.C96_depletion_iff",
    "Verif.CEParam.C96_depletion_first_violated",
    "Verif.CEParam.C96_depletion_accreted_violated"
   ],
   "note": "Proved for all profiles with masses and radii decreasing inwards and abundances adding to one: own thresholds, nesting, containment; extremes; stripped stars; depletion values of the first model of the class used, existence. Violations proved: no parameters for normal stars with accreted helium surface; a later hydrogen-rich depleted model takes precedence over the first, stripped one; a depleted model with accreted helium surface has no values."
  },
  {
   "property": "C97",
   "status": "partial",
   "theorems": [
    "Verif.Jobs.C97_expected",
    "Verif.Jobs.C97_tasks",
    "Verif.Jobs.C97_setup",
    "Verif.Jobs.C97_read",
    "Verif.Jobs.C97_rescue_tasks",
    "Verif.Jobs.C97_check_batch",
    "Verif.Jobs.C97_passed",
    "Verif.Jobs.C97_merge_again",
    "Verif.Jobs.C97_rescued_partial",
    "Verif.Jobs.C97_mixed_violated",
    "Verif.Jobs.C97_count_violated",
    "Verif.Jobs.C97_stale_violated",
    "Verif.Jobs.C97_copy_violated",
    "Verif.Jobs.C97_equals_violated",
    "Verif.Jobs.C97_arguments_violated",
    "Verif.Jobs.C97_submitted",
    "Verif.Jobs.C97_path_violated",
    "Verif.Jobs.C97_path_here",
    "Verif.Jobs.C97_merge",
    "Verif.Jobs.C97_leftover_violated",
    "Verif.Jobs.C97_override"
   ],
   "note": "Proved for all numbers and settings on the level of characters: expected count, tasks, read back settings, missing ranks, rescue tasks, whole command, merge order. Violated: one complete (unmerged) metallicity next to an incomplete one makes the rescue fail with ValueError; merged files with too few binaries lead to nothing being repeated; a stale file of a longer array hides a missing batch; a copied batch file makes the check fail; settings with an equals sign are cut; --job_array and --merge_walltime have no effect; started outside the folder of the run the script is not written where it is reported; leftovers of interrupted tasks are merged."
  },
  {
   "property": "C98",
   "status": "partial",
   "theorems": [
    "Verif.Matchers.C98_grids",
    "Verif.Matchers.C98_shared",
    "Verif.Matchers.C98_one",
    "Verif.Matchers.C98_tight_partial",
    "Verif.Matchers.C98_loads",
    "Verif.Matchers.C98_failed",
    "Verif.Matchers.C98_others",
    "Verif.Matchers.C98_settings",
    "Verif.Matchers.C98_first_partial",
    "Verif.Matchers.C98_kept_violated",
    "Verif.Matchers.C98_removed",
    "Verif.Matchers.C98_second_violated",
    "Verif.Matchers.C98_grid_violated",
    "Verif.Matchers.C98_leak_violated",
    "Verif.Matchers.C98_triggers",
    "Verif.Matchers.C98_default_tolerances",
    "Verif.Matchers.C98_failures"
   ],
   "note": "Invariant over all sequences of loads: grids of the own metallicity, shared, one matcher per step, other steps unaffected, no other exception than unsupported metallicity or unreadable file, failed loads leave the matchers as they were. Violated and proved so: a setting omitted on a later load keeps its earlier value; the settings are removed from the caller's dictionary so that a second simulation from it gets the defaults; a grid given as setting is ignored; a failed opening of the second grid leaves the first open for good."
  },
  {
   "property": "C99",
   "status": "partial",
   "theorems": [
    "Verif.SNModels.C99_lookup",
    "Verif.SNModels.C99_unique",
    "Verif.SNModels.C99_own",
    "Verif.SNModels.C99_unknown",
    "Verif.SNModels.C99_ignored",
    "Verif.SNModels.C99_supported",
    "Verif.SNModels.C99_accepted",
    "Verif.SNModels.C99_refused_partial",
    "Verif.SNModels.C99_default",
    "Verif.SNModels.C99_refused_violated",
    "Verif.SNModels.C99_missing_violated",
    "Verif.SNModels.C99_accepted_violated",
    "Verif.SNModels.C99_unknown_setting_violated",
    "Verif.SNModels.C99_mechanisms",
    "Verif.SNModels.C99_settings",
    "Verif.SNModels.C99_setting_names",
    "Verif.SNModels.C99_computed"
   ],
   "note": "Lookup, uniqueness, completeness and agreement of an accepted file with the run are proved for all settings. Violated and proved so: a setting left out of the ini file is a mismatch for the check although the step has a default (the check refuses, or ends in a KeyError for the switch of interpolated values); without interpolated values every file passes, also with an unknown mechanism; unknown settings pass the check and are refused by the step; settings accepted by the step and their names (C99_settings, C99_setting_names), models compute from profiles (C99_computed)."
  },
  {
   "property": "C100",
   "status": "partial",
   "theorems": [
    "Verif.ProfBounds.C100_targets",
    "Verif.ProfBounds.C100_training",
    "Verif.ProfBounds.C100_learnt",
    "Verif.ProfBounds.C100_available",
    "Verif.ProfBounds.C100_step",
    "Verif.ProfBounds.C100_rare_violated",
    "Verif.ProfBounds.C100_one_step_violated",
    "Verif.ProfBounds.C100_which",
    "Verif.ProfPred.C100_hydrogen",
    "Verif.ProfPred.C100_sum",
    "Verif.ProfPred.C100_surface",
    "Verif.ProfPred.C100_center_partial",
    "Verif.ProfPred.C100_helium_partial",
    "Verif.ProfPred.C100_none",
    "Verif.ProfPred.C100_key",
    "Verif.ProfPred.C100_negative_violated",
    "Verif.ProfPred.C100_center_violated",
    "Verif.ProfPred.C100_unknown_violated",
    "Verif.ProfPred.C100_equal_violated"
   ],
   "note": "Proved for all outputs: hydrogen between the ends and one-way (C100_hydrogen), hydrogen+helium between 0 and 1 (C100_sum), surface values (C100_surface), no numbers (C100_none), exact failures (C100_key). Violated and proved so: nothing orders the boundaries, so helium can be negative (C100_negative_violated; C100_helium_partial when ordered); the helium of the centre is ignored for hydrogen-burning stars (C100_center_violated; C100_center_partial otherwise); states such as accreted_He_* raise KeyError (C100_unknown_violated); equal boundaries raise AssertionError (C100_equal_violated). Training: boundaries inside the star, in order, as many as read (C100_targets), exact failures (C100_training), data of each network (C100_learnt), only existing networks are asked (C100_available), steps predicted exactly (C100_step). Violated: a state without validation data stops the training of all (C100_rare_violated); one step is trained for two equal boundaries, which prediction refuses (C100_one_step_violated). Network outputs are parameters."
  },
  {
   "property": "C101",
   "status": "partial",
   "theorems": [
    "Verif.ProfNet.C101_trains",
    "Verif.ProfNet.C101_trained",
    "Verif.ProfNet.C101_untrained_unused",
    "Verif.ProfNet.C101_exact",
    "Verif.ProfNet.C101_constant_violated",
    "Verif.ProfNet.C101_outputs",
    "Verif.ProfNet.C101_nothing_violated",
    "Verif.ProfNet.C101_analysis_violated",
    "Verif.ProfTrain.C101_decreasing",
    "Verif.ProfTrain.C101_lowest",
    "Verif.ProfTrain.C101_surface_partial",
    "Verif.ProfTrain.C101_surface_violated",
    "Verif.ProfTrain.C101_names_partial",
    "Verif.ProfTrain.C101_second_violated",
    "Verif.ProfTrain.C101_star2_violated",
    "Verif.ProfTrain.C101_missing",
    "Verif.ProfTrain.C101_split",
    "Verif.ProfTrain.C101_aligned",
    "Verif.ProfTrain.C101_rows",
    "Verif.ProfTrain.C101_density",
    "Verif.ProfTrain.C101_unseen_violated",
    "Verif.ProfTrain.C101_bounds",
    "Verif.ProfTrain.C101_one_jump_violated",
    "Verif.ProfTrain.C101_norm_rotation"
   ],
   "note": "Proved: correction (C101_decreasing, C101_lowest), split (C101_split, C101_aligned), density rows (C101_rows, C101_density), boundaries (C101_bounds), names for a fresh list (C101_names_partial), zeros for missing columns (C101_missing). Violated and proved so: the default list is changed in place, so a second extraction has zeros under norm_omega (C101_second_violated); the second star uses the critical rotation of the first (C101_star2_violated); a surface above the centre is lost (C101_surface_violated; C101_surface_partial otherwise); an unseen class gets a constant density (C101_unseen_violated); one increase suffices (C101_one_jump_violated); training: success (C101_trains), data of each network (C101_trained), untrained networks unused (C101_untrained_unused), exact tools give the profile back (C101_exact), outputs (C101_outputs). Violated: one constant profile stops all training (C101_constant_violated); profiles of binaries without prediction change predictions of others (C101_analysis_violated); the warning that nothing was trained is undefined (C101_nothing_violated)."
  },
  {
   "property": "C102",
   "status": "partial",
   "theorems": [
    "Verif.RateStore.C102_cosmic",
    "Verif.RateStore.C102_cosmic_others",
    "Verif.RateStore.C102_density_partial",
    "Verif.RateStore.C102_stale_density_violated",
    "Verif.RateStore.C102_stale_rates_violated",
    "Verif.RateStore.C102_observable_partial",
    "Verif.RateStore.C102_observable_violated",
    "Verif.RateStore.C102_stale_observable_violated",
    "Verif.RateStore.C102_name_violated",
    "Verif.RateStore.C102_create",
    "Verif.RateStore.C102_model_weights_partial",
    "Verif.RateStore.C102_suffix_violated",
    "Verif.RateStore.C102_failed_violated",
    "Verif.RateStore.C102_width_partial",
    "Verif.RateStore.C102_width_violated",
    "Verif.RateStore.C102_layout",
    "Verif.RateStore.C102_missing"
   ],
   "note": "Proved: cosmic weights stored and framed (C102_cosmic, C102_cosmic_others), recreated transients leave nothing below them (C102_create), densities/observables/weights read back (partials). Violated and proved so: the rate density and observable populations of old weights stay (C102_stale_density_violated, C102_stale_observable_violated), rates of old model weights stay (C102_stale_rates_violated), observable populations are shared between star formation models (C102_observable_violated), a model named 'observable' collides (C102_name_violated), identifiers with the reserved ending (C102_suffix_violated), a failed write removes the old results (C102_failed_violated), dlogZ lists and integers (C102_width_violated). Tables are abstract; the calculations are modelled in Rates (C29, C30, C62, C63)."
  },
  {
   "property": "C103",
   "status": "partial",
   "theorems": [
    "Verif.Inlist.C103_read_all",
    "Verif.Inlist.C103_read",
    "Verif.Inlist.C103_refused",
    "Verif.Inlist.C103_missing_section_violated",
    "Verif.Inlist.C103_exclamation_violated",
    "Verif.Inlist.C103_ampersand_violated",
    "Verif.Inlist.C103_final",
    "Verif.Inlist.C103_later_wins",
    "Verif.Inlist.C103_switch",
    "Verif.Inlist.C103_output",
    "Verif.Inlist.C103_chain",
    "Verif.Inlist.C103_models",
    "Verif.Inlist.C103_lengths_violated",
    "Verif.Inlist.C103_lengths",
    "Verif.Inlist.C103_zams_violated",
    "Verif.Inlist.C103_single_violated",
    "Verif.Inlist.C103_user_violated",
    "Verif.Inlist.C103_scenario_partial",
    "Verif.Inlist.C103_empty_violated",
    "Verif.Inlist.C103_read_back",
    "Verif.Inlist.C103_columns_partial",
    "Verif.Inlist.C103_extra",
    "Verif.Inlist.C103_columns_violated",
    "Verif.Inlist.C103_named_file",
    "Verif.Inlist.C103_no_inlists",
    "Verif.Inlist.C103_formation_entries"
   ],
   "note": "Proved for any text: reading (C103_read, C103_read_all, C103_refused), last assignment in the order of the ini file wins (C103_final, C103_later_wins), formation chain (C103_chain, C103_models, C103_lengths), outputs (C103_output), round trip between the scripts (C103_read_back), extra inlists read iff written (C103_switch, C103_extra). Violated and proved so: with a scenario the inlists of the scenario win over those of the user (C103_user_violated; order kept only if the ini file lists the entries, C103_scenario_partial), emptied parameters (C103_empty_violated), special characters in quoted texts (C103_exclamation_violated, C103_ampersand_violated), files lacking a section (C103_missing_section_violated), lists of different lengths (C103_lengths_violated), a file of models which is not removed (C103_zams_violated), the scenario of single helium stars (C103_single_violated), columns only the set-up sets (C103_columns_violated). Not modelled: git checkouts, copying of files, command lines."
  },
  {
   "property": "C104",
   "status": "partial",
   "theorems": [
    "Verif.GridPoint.C104_fixed_read",
    "Verif.GridPoint.C104_fixed",
    "Verif.GridPoint.C104_power_read",
    "Verif.GridPoint.C104_power",
    "Verif.GridPoint.C104_directory",
    "Verif.GridPoint.C104_apart",
    "Verif.GridPoint.C104_close_violated",
    "Verif.GridPoint.C104_other_violated",
    "Verif.GridPoint.C104_version_violated",
    "Verif.GridPoint.C104_no_metallicity_violated",
    "Verif.GridPoint.C104_unique",
    "Verif.GridPoint.C104_cell",
    "Verif.GridPoint.C104_precision",
    "Verif.GridPoint.C104_truth_violated",
    "Verif.GridPoint.C104_file",
    "Verif.GridPoint.C104_star",
    "Verif.GridPoint.C104_parameters",
    "Verif.GridPoint.C104_unknown_violated",
    "Verif.GridPoint.C104_controls",
    "Verif.GridPoint.C104_job_violated",
    "Verif.GridPoint.C104_formation",
    "Verif.GridPoint.C104_formation_violated",
    "Verif.GridPoint.C104_single",
    "Verif.GridPoint.C104_two_steps_violated"
   ],
   "note": "Proved: formats %.pf and %.pe with correct rounding are read back as shown, within half a unit (C104_fixed_read, C104_fixed, C104_power_read, C104_power); directory names give back the texts of masses, period, metallicity and eccentricity for any order and any other tame parameters (C104_directory), are unique by index (C104_unique), and points more than a ten-thousandth apart are told apart (C104_apart); files of grid points are read back (C104_cell, C104_file, C104_star, C104_precision); parameters known by the project are used, each once (C104_parameters), controls win over the project (C104_controls); formation steps (C104_formation, C104_single). Violated and proved so: closer masses (C104_close_violated), any other varied parameter (C104_other_violated) and paths with v1 (C104_version_violated) lose runs; grids without metallicity cannot be read (C104_no_metallicity_violated); truth values cannot be read (C104_truth_violated); unknown columns are ignored silently (C104_unknown_violated); parameters of binary_job have no effect (C104_job_violated); from the third step on stars of a binary are formed with the inlist of the second (C104_formation_violated); single stars of two steps get no new metallicity (C104_two_steps_violated). Not modelled: MPI loop, copying of directories, infinities."
  },
  {
   "property": "C105",
   "status": "partial",
   "theorems": [
    "Verif.Pipeline.C105_expand",
    "Verif.Pipeline.C105_tables",
    "Verif.Pipeline.C105_twice_violated",
    "Verif.Pipeline.C105_switches",
    "Verif.Pipeline.C105_jobs",
    "Verif.Pipeline.C105_requested",
    "Verif.Pipeline.C105_once",
    "Verif.Pipeline.C105_order",
    "Verif.Pipeline.C105_files",
    "Verif.Pipeline.C105_attributes",
    "Verif.Pipeline.C105_quantities",
    "Verif.Pipeline.C105_final",
    "Verif.Pipeline.C105_section_violated",
    "Verif.Pipeline.C105_nothing_violated",
    "Verif.Pipeline.C105_logs_partial",
    "Verif.Pipeline.C105_logs_violated",
    "Verif.Pipeline.C105_cleaned",
    "Verif.Pipeline.C105_computed",
    "Verif.Pipeline.C105_checked",
    "Verif.Pipeline.C105_interpolated"
   ],
   "note": "Proved: the jobs and dependencies (C105_jobs, C105_requested, C105_once, C105_order), files expected are announced by jobs waited for (C105_files), inheritance of settings (C105_attributes), plots and checks (C105_quantities, C105_expand, C105_tables, C105_switches), the final clean-up (C105_final). Violated and proved so: a set named twice is left in the list (C105_twice_violated); the section of every step is demanded even if nothing is asked for (C105_section_violated); asking for nothing raises UnboundLocalError (C105_nothing_violated); plots and checks of steps that are not requested have no directory for their output (C105_logs_violated, C105_logs_partial for the rest). Not modelled: text of the slurm files, merging of setup and account settings."
  },
  {
   "property": "C106",
   "status": "partial",
   "theorems": [
    "Verif.Pipeline.C106_passes",
    "Verif.Pipeline.C106_lengths",
    "Verif.Pipeline.C106_rows",
    "Verif.Pipeline.C106_no_profiles",
    "Verif.Pipeline.C106_keep",
    "Verif.Pipeline.C106_keep_order",
    "Verif.Pipeline.C106_columns",
    "Verif.Pipeline.C106_chain",
    "Verif.Pipeline.C106_tasks",
    "Verif.Pipeline.C106_dispatch",
    "Verif.Pipeline.C106_distinct_partial",
    "Verif.Pipeline.C106_train_violated",
    "Verif.Pipeline.C106_export_violated",
    "Verif.Pipeline.C106_plots_violated",
    "Verif.Pipeline.C106_plot_interpolator",
    "Verif.Pipeline.C106_checks_violated",
    "Verif.Pipeline.C106_checks_dropped_violated",
    "Verif.Pipeline.C106_rlo_files",
    "Verif.Pipeline.C106_export_files",
    "Verif.Pipeline.C106_combined",
    "Verif.Pipeline.C106_original",
    "Verif.Pipeline.C106_tested",
    "Verif.Pipeline.C106_tested_grid"
   ],
   "note": "Proved: number and content of the rows (C106_passes, C106_rows), refusal of wrong lengths (C106_lengths) and empty tables (C106_no_profiles, C106_tasks), missing files (C106_keep, C106_keep_order, C106_columns), the chain of files (C106_chain), tasks and functions (C106_tasks, C106_dispatch), distinct files of steps 1 and 3 (C106_distinct_partial), interpolators of plots (C106_plot_interpolator). Violated and proved so: several slices or compressions are trained into one interpolator file (C106_train_violated), exported to one file or rerun in one directory (C106_export_violated); plots of several methods go to one place (C106_plots_violated); checks of step 4 get the profile interpolators and those of step 5 the others (C106_checks_violated), so that they are dropped when there are no profile interpolators and the set-up fails (C106_checks_dropped_violated). Not modelled: text of the csv files and of the slurm files; renaming of repeated columns by pandas."
  },
  {
   "property": "C107",
   "status": "partial",
   "theorems": [
    "Verif.Rerun.C107_zams",
    "Verif.Rerun.C107_zams_refused",
    "Verif.Rerun.C107_missing_violated",
    "Verif.Rerun.C107_substring_violated",
    "Verif.Rerun.C107_types",
    "Verif.Rerun.C107_prepared",
    "Verif.Rerun.C107_other_violated",
    "Verif.Rerun.C107_combined",
    "Verif.Rerun.C107_tpagb",
    "Verif.Rerun.C107_lbv",
    "Verif.Rerun.C107_lbv_violated",
    "Verif.Rerun.C107_reverse",
    "Verif.Rerun.C107_helium",
    "Verif.Rerun.C107_messages",
    "Verif.Rerun.C107_compressed_violated",
    "Verif.Rerun.C107_classes",
    "Verif.Rerun.C107_quantities",
    "Verif.Rerun.C107_sn_partial",
    "Verif.Rerun.C107_sn_violated",
    "Verif.Rerun.C107_versions"
   ],
   "note": "Proved: the right file for the eight metallicities and refusal of texts without them (C107_zams, C107_zams_refused), agreement of the two tables of types for every text (C107_types), exactly when a rerun is prepared and with what (C107_prepared), combined types (C107_combined), the runs chosen (C107_tpagb, C107_lbv, C107_reverse, C107_helium, C107_messages), classes and quantities of the training (C107_classes, C107_quantities, C107_sn_partial for the first star). Violated and proved so: a missing metallicity raises TypeError (C107_missing_violated); other metallicities are taken for one of the eight by substring (C107_substring_violated); the types 'other' and 'envelope_mass_limit' can never be run (C107_other_violated); a pulsing companion excludes a luminous blue variable (C107_lbv_violated); runs with compressed logs are never found (C107_compressed_violated); supernova quantities of the second star are never interpolated (C107_sn_violated). Not modelled: the text replacements in the ini file, the path of the template ini file."
  },
  {
   "property": "C108",
   "status": "partial",
   "theorems": [
    "Verif.Sampler.C108_counts",
    "Verif.Sampler.C108_steps",
    "Verif.Sampler.C108_inside_partial",
    "Verif.Sampler.C108_zero_draw_violated",
    "Verif.Sampler.C108_uphill",
    "Verif.Sampler.C108_balance",
    "Verif.Sampler.C108_stuck_violated",
    "Verif.Sampler.C108_weights_violated",
    "Verif.Sampler.C108_ladder",
    "Verif.Sampler.C108_ladder_falls",
    "Verif.Sampler.C108_ladder_violated",
    "Verif.Sampler.C108_swaps",
    "Verif.Sampler.C108_swap_balance",
    "Verif.Sampler.C108_swap_formula",
    "Verif.Sampler.C108_swap_stuck_violated",
    "Verif.Sampler.C108_pt_inside_partial",
    "Verif.Sampler.C108_blocks"
   ],
   "note": "Proved: numbers of trials and entries (C108_counts, C108_blocks), acceptance of each recorded step (C108_steps, C108_uphill), detailed balance of steps and swaps and the formula of parallel tempering (C108_balance, C108_swap_balance, C108_swap_formula), swaps are permutations (C108_swaps), the ladder ends and falls for spacings above 1 (C108_ladder, C108_ladder_falls), positions stay in the ranges unless a random number is exactly 0 (C108_inside_partial, C108_pt_inside_partial). Violated and proved so: a random number 0 accepts anything (C108_zero_draw_violated), a chain never leaves a position with target 0, by steps or by swaps (C108_stuck_violated, C108_swap_stuck_violated), rejected trials do not repeat the position (C108_weights_violated), spacings of at most 1 never end (C108_ladder_violated). Not modelled: the target distributions themselves, floating point, printing and plots."
  },
  {
   "property": "C109",
   "status": "partial",
   "theorems": [
    "Verif.Propose.C109_target",
    "Verif.Propose.C109_target_falls",
    "Verif.Propose.C109_nan_violated",
    "Verif.Propose.C109_batch_violated",
    "Verif.Propose.C109_norm",
    "Verif.Propose.C109_accepts",
    "Verif.Propose.C109_far",
    "Verif.Propose.C109_simple",
    "Verif.Propose.C109_no_training_violated",
    "Verif.Propose.C109_pre_violated",
    "Verif.Propose.C109_norm_steps_violated",
    "Verif.Propose.C109_varmult_violated",
    "Verif.Propose.C109_skipped",
    "Verif.Propose.C109_together_violated",
    "Verif.Propose.C109_twice_violated",
    "Verif.Propose.C109_proposed",
    "Verif.Propose.C109_unconverged",
    "Verif.Propose.C109_direction",
    "Verif.Propose.C109_zero_scale_violated",
    "Verif.Propose.C109_search_violated",
    "Verif.Propose.C109_empty_sample",
    "Verif.Propose.C109_second"
   ],
   "note": "Proved: range and monotonicity of the target (C109_target, C109_target_falls), normalisation (C109_norm), the simple density logic (C109_accepts, C109_far, C109_simple), the partition of the other one (C109_skipped), the search (C109_proposed, C109_unconverged, C109_direction). Violated and proved so: NaN positions get a target above 1 instead of the documented 1E-16 (C109_nan_violated), one NaN changes all positions of a call (C109_batch_violated), no training data raises IndexError (C109_no_training_violated), points accepted before are ignored (C109_pre_violated), normalised steps and variance multipliers always raise (C109_norm_steps_violated, C109_varmult_violated), added distributions accept at most two points (C109_together_violated), in two dimensions a point can be accepted twice (C109_twice_violated), 100 points too few set the scale to 0 and the search fails (C109_zero_scale_violated, C109_search_violated). Not modelled: the classifiers, the target with regression, shuffling, floating point."
  },
  {
   "property": "C110",
   "status": "partial",
   "theorems": [
    "Verif.TableData.C110_omit_partial",
    "Verif.TableData.C110_omit_labels_violated",
    "Verif.TableData.C110_omit_nan_violated",
    "Verif.TableData.C110_mapping_partial",
    "Verif.TableData.C110_ids_partial",
    "Verif.TableData.C110_mapping_violated",
    "Verif.TableData.C110_rows",
    "Verif.TableData.C110_binary",
    "Verif.TableData.C110_columns_partial",
    "Verif.TableData.C110_columns_violated",
    "Verif.TableData.C110_names_partial",
    "Verif.TableData.C110_names_violated",
    "Verif.TableData.C110_change_partial",
    "Verif.TableData.C110_negative_violated",
    "Verif.TableData.C110_cancel_violated",
    "Verif.TableData.C110_clean_partial",
    "Verif.TableData.C110_clean_violated",
    "Verif.TableData.C110_largest",
    "Verif.TableData.C110_regressor_violated",
    "Verif.TableData.C110_get_data_violated",
    "Verif.TableData.C110_get_data"
   ],
   "note": "Proved: omission with different labels (C110_omit_partial), mapping and identifiers for classes that are texts (C110_mapping_partial, C110_ids_partial), rows and binary data (C110_rows, C110_binary), uniform columns (C110_columns_partial), names for increasing numbers (C110_names_partial), changes at positive values (C110_change_partial), cleaning without an undefined value (C110_clean_partial), largest change (C110_largest). Violated and proved so: repeated labels lose other rows and NaN cannot be omitted (C110_omit_labels_violated, C110_omit_nan_violated), integer classes are confused with identifiers (C110_mapping_violated), the first row decides on a column (C110_columns_violated), changes are named for the wrong numbers (C110_names_violated), negative for negative data (C110_negative_violated) and 0 for symmetric neighbours (C110_cancel_violated), undefined values stay or values go (C110_clean_violated), a class without numerical outputs breaks the regressor (C110_regressor_violated), several tables as arrays raise (C110_get_data_violated). Not modelled: reading files, the nearest-neighbour search, plots."
  },
  {
   "property": "C111",
   "status": "partial",
   "theorems": [
    "Verif.Classify.C111_names",
    "Verif.Classify.C111_names_distinct",
    "Verif.Classify.C111_unknown_violated",
    "Verif.Classify.C111_clip",
    "Verif.Classify.C111_probabilities_partial",
    "Verif.Classify.C111_zero_violated",
    "Verif.Classify.C111_places",
    "Verif.Classify.C111_none_violated",
    "Verif.Classify.C111_predicted",
    "Verif.Classify.C111_split",
    "Verif.Classify.C111_percent",
    "Verif.Classify.C111_cross_validation_partial",
    "Verif.Classify.C111_cross_validation_violated",
    "Verif.Classify.C111_train",
    "Verif.Classify.C111_repeats",
    "Verif.Classify.C111_repeats_violated"
   ],
   "note": "Proved: names (C111_names, C111_names_distinct), clipping (C111_clip), probabilities where some value is positive (C111_probabilities_partial), places of the predictions (C111_places), the predicted class (C111_predicted), training (C111_train), the division of the points (C111_split), the percentage (C111_percent), cross validations that end (C111_cross_validation_partial), repeats (C111_repeats). Violated and proved so: unknown names raise TypeError (C111_unknown_violated), where all radial basis functions are not positive the first class is predicted with NaN (C111_zero_violated), if no point has values one prediction of the first class is returned (C111_none_violated), after a failed cross validation training has no effect on predictions (C111_cross_validation_violated), repeats go on forever if every attempt raises (C111_repeats_violated). Not modelled: the interpolators themselves, timing, plots."
  },
  {
   "property": "C112",
   "status": "partial",
   "theorems": [
    "Verif.Query.C112_allot",
    "Verif.Query.C112_small",
    "Verif.Query.C112_inside",
    "Verif.Query.C112_classes_partial",
    "Verif.Query.C112_classes_violated",
    "Verif.Query.C112_first_violated",
    "Verif.Query.C112_scale_violated",
    "Verif.Query.C112_range_violated",
    "Verif.Query.C112_options_violated",
    "Verif.Query.C112_number_partial",
    "Verif.Query.C112_number_violated",
    "Verif.Query.C112_distance",
    "Verif.Query.C112_distance_violated",
    "Verif.Query.C112_newest_violated",
    "Verif.Query.C112_second_violated",
    "Verif.Query.C112_end_violated",
    "Verif.Query.C112_fraction_violated",
    "Verif.Query.C112_grid_partial",
    "Verif.Query.C112_grid_violated",
    "Verif.Query.C112_places_partial",
    "Verif.Query.C112_verbose_violated",
    "Verif.Query.C112_accuracy",
    "Verif.Query.C112_accuracy_violated",
    "Verif.Query.C112_confusion_partial",
    "Verif.Query.C112_confusion_violated"
   ],
   "note": "Proved: shares and number (C112_allot, C112_small), range (C112_inside), classes if all points have one (C112_classes_partial), number of points (C112_number_partial), distance to earlier points (C112_distance), grids of powers (C112_grid_partial), places without messages (C112_places_partial), quantiles (C112_accuracy), confusion rows with all predictions (C112_confusion_partial). Violated and proved so: only the first small class gets points (C112_first_violated), classes of other points (C112_classes_violated), positions used as length scale (C112_scale_violated), one axis without extent gives no point (C112_range_violated), options are changed by a query (C112_options_violated), too many points with a list of numbers (C112_number_violated), equal points in one iteration (C112_distance_violated), every iteration proposes from the data before the last one (C112_newest_violated, C112_second_violated), no end if proposals are too close (C112_end_violated), division by zero for small fractions (C112_fraction_violated), other grid sizes (C112_grid_violated), messages delete all predictions (C112_verbose_violated), a class without predicted points raises (C112_accuracy_violated), points without prediction (C112_confusion_violated). Not modelled: the analytic data sets, nearest neighbours, plots."
  },
  {
   "property": "C113",
   "status": "partial",
   "theorems": [
    "Verif.GridTools.C113_final",
    "Verif.GridTools.C113_model",
    "Verif.GridTools.C113_predefined",
    "Verif.GridTools.C113_model_violated",
    "Verif.GridTools.C113_exists",
    "Verif.GridTools.C113_join",
    "Verif.GridTools.C113_join_once",
    "Verif.GridTools.C113_join_violated",
    "Verif.GridTools.C113_core",
    "Verif.GridTools.C113_core_value",
    "Verif.GridTools.C113_core_twice",
    "Verif.GridTools.C113_field",
    "Verif.GridTools.C113_edges",
    "Verif.GridTools.C113_centres",
    "Verif.GridTools.C113_edges_violated",
    "Verif.GridTools.C113_one_value_violated",
    "Verif.GridTools.C113_mesh",
    "Verif.GridTools.C113_nearest",
    "Verif.GridTools.C113_nearest_empty",
    "Verif.GridTools.C113_points",
    "Verif.GridTools.C113_result",
    "Verif.GridTools.C113_columns",
    "Verif.GridTools.C113_last_row",
    "Verif.GridTools.C113_no_history_violated",
    "Verif.GridTools.C113_more_columns_violated",
    "Verif.GridTools.C113_one_row_violated",
    "Verif.GridTools.C113_no_output",
    "Verif.GridTools.C113_star_values",
    "Verif.GridTools.C113_default_columns"
   ],
   "note": "Proved: columns of models with names of equal length, among them the pre-defined ones (C113_model, C113_predefined, C113_exists), joined lists (C113_join, C113_join_once), cores (C113_core, C113_core_value, C113_core_twice), fields (C113_field), edges for equal distances (C113_edges, C113_centres, C113_mesh), nearest values and proposed points (C113_nearest, C113_points), results with a history of the binary (C113_result, C113_last_row, C113_columns). Violated and proved so: models of which one name begins another are mixed up (C113_model_violated), repeated columns of the second list stay (C113_join_violated), with unequal distances a centre is outside of its cell (C113_edges_violated), one value has no edges (C113_one_value_violated), without a history of the binary a common envelope is called no interaction (C113_no_history_violated), more columns than requested are returned (C113_more_columns_violated), a history with one row cannot be converted (C113_one_row_violated). Not modelled: reading of the files, conversion of texts to numbers, the inspiral time (modelled elsewhere)."
  },
  {
   "property": "C114",
   "status": "partial",
   "theorems": [
    "Verif.RunFiles.C114_files",
    "Verif.RunFiles.C114_info",
    "Verif.RunFiles.C114_info_violated",
    "Verif.RunFiles.C114_order_partial",
    "Verif.RunFiles.C114_order_violated",
    "Verif.RunFiles.C114_logs",
    "Verif.RunFiles.C114_warned",
    "Verif.RunFiles.C114_ignored_violated",
    "Verif.RunFiles.C114_grid_info_partial",
    "Verif.RunFiles.C114_grid_info_violated",
    "Verif.RunFiles.C114_printed",
    "Verif.RunFiles.C114_ident",
    "Verif.RunFiles.C114_eeps",
    "Verif.RunFiles.C114_eep_files",
    "Verif.RunFiles.C114_eeps_violated",
    "Verif.RunFiles.C114_update",
    "Verif.RunFiles.C114_add",
    "Verif.RunFiles.C114_add_lazy_partial",
    "Verif.RunFiles.C114_no_overwrite",
    "Verif.RunFiles.C114_lazy_overwrite_violated",
    "Verif.RunFiles.C114_initial_violated",
    "Verif.RunFiles.C114_text_violated",
    "Verif.RunFiles.C114_conversion",
    "Verif.RunFiles.C114_column",
    "Verif.RunFiles.C114_columns_violated",
    "Verif.RunFiles.C114_run",
    "Verif.RunFiles.C114_cut"
   ],
   "note": "Proved: files (C114_files, C114_info, C114_logs, C114_warned), independence of the order without a file next to its compressed form (C114_order_partial), metadata of one folder (C114_grid_info_partial), printed lines (C114_printed), identifiers and points (C114_ident, C114_eeps, C114_eep_files), columns of grids read at once (C114_update, C114_add, C114_no_overwrite, C114_conversion), new columns of lazily read grids (C114_add_lazy_partial), items (C114_column, C114_run). Violated and proved so: with both forms the order of the listing decides (C114_order_violated), the compressed grid point of a run is not recognized (C114_info_violated), folders to be ignored are read (C114_ignored_violated), only the metadata of the last folder are kept, compressed ones twice (C114_grid_info_violated), a file with points next to its compressed or cleaned form stops the creation (C114_eeps_violated), replacing a column of a lazily read grid destroys the final values in the file (C114_lazy_overwrite_violated), after adding a column to it the initial values cannot be read (C114_initial_violated), texts in columns with other names destroy the final values (C114_text_violated), several columns of a lazily read table fail or get exchanged names (C114_columns_violated). That h5py cannot write unicode of fixed width, and that data sets of closed files cannot be read, is assumed."
  },
  {
   "property": "C115",
   "status": "partial",
   "theorems": [
    "Verif.Eep.C115_phases",
    "Verif.Eep.C115_trgb",
    "Verif.Eep.C115_order_partial",
    "Verif.Eep.C115_order_violated",
    "Verif.Eep.C115_last_row_violated",
    "Verif.Eep.C115_no_file_violated",
    "Verif.Eep.C115_metric",
    "Verif.Eep.C115_count",
    "Verif.Eep.C115_positions",
    "Verif.Eep.C115_between",
    "Verif.Eep.C115_extrapolated_violated",
    "Verif.Eep.C115_extrapolated_example_violated",
    "Verif.Eep.C115_adjacent_violated",
    "Verif.Eep.C115_helium_star_violated",
    "Verif.Eep.C115_shifted_violated",
    "Verif.Eep.C115_none",
    "Verif.Eep.C115_search",
    "Verif.Eep.C115_post_agb",
    "Verif.Eep.C115_pchip"
   ],
   "note": "Proved: phases (C115_phases, C115_trgb), their order for stars with hydrogen that have helium left after the tip (C115_order_partial), metric (C115_metric), number and positions of points (C115_count, C115_positions), even distances (C115_between), no phases (C115_none). Violated and proved so: without enough helium the start of helium burning is put to the first row and no points can be calculated (C115_order_violated), a track that ends with the main sequence is an index error (C115_last_row_violated), a missing file is an undefined variable (C115_no_file_violated), the row of the later phase is not used, so that the last points are extrapolated (C115_extrapolated_violated, C115_extrapolated_example_violated), phases in the same or in neighbouring rows are an error (C115_adjacent_violated), among them always those of stars without hydrogen with the default list (C115_helium_star_violated), missing phases move the others (C115_shifted_violated). The interpolation itself (scipy) is not modelled."
  },
  {
   "property": "C116",
   "status": "partial",
   "theorems": [
    "Verif.Compress.C116_result_partial",
    "Verif.Compress.C116_complete_partial",
    "Verif.Compress.C116_core_violated",
    "Verif.Compress.C116_left_violated",
    "Verif.Compress.C116_outside",
    "Verif.Compress.C116_marker_violated",
    "Verif.Compress.C116_counts",
    "Verif.Compress.C116_errors",
    "Verif.Compress.C116_textsize",
    "Verif.Compress.C116_textsize_errors",
    "Verif.Compress.C116_test",
    "Verif.Compress.C116_test_violated"
   ],
   "note": "Proved: the result for trees without links, special characters and compressed files next to the data files (C116_result_partial, C116_complete_partial), folders without a run (C116_outside), counts (C116_counts), errors (C116_errors), text of sizes (C116_textsize, C116_textsize_errors), test folders (C116_test). Violated and proved so: data files with the name core are removed (C116_core_violated), blanks in paths or compressed files that exist leave files uncompressed (C116_left_violated), with the marker of runs in the path to the grid all its files are compressed (C116_marker_violated), grids with less than a hundred tracks give empty tests with the default fraction (C116_test_violated). The behaviour of gzip and of the shell is assumed as described."
  },
  {
   "property": "C117",
   "status": "partial",
   "theorems": [
    "Verif.IniValues.C117_arith",
    "Verif.IniValues.C117_arith_total",
    "Verif.IniValues.C117_list",
    "Verif.IniValues.C117_parts",
    "Verif.IniValues.C117_text",
    "Verif.IniValues.C117_value",
    "Verif.IniValues.C117_sign_violated",
    "Verif.IniValues.C117_list_violated",
    "Verif.IniValues.C117_blocked",
    "Verif.IniValues.C117_section",
    "Verif.IniValues.C117_mesa_dir",
    "Verif.IniValues.C117_four",
    "Verif.IniValues.C117_pop_value",
    "Verif.IniValues.C117_pop_needs",
    "Verif.IniValues.C117_pop_assert",
    "Verif.IniValues.C117_pop_job",
    "Verif.IniValues.C117_pop_mpi_array",
    "Verif.IniValues.C117_pop_ignored",
    "Verif.IniValues.C117_order_violated",
    "Verif.IniValues.C117_rank_violated",
    "Verif.IniValues.C117_sim_value",
    "Verif.IniValues.C117_sim_only",
    "Verif.IniValues.C117_sim_error",
    "Verif.IniValues.C117_grid_paths_violated",
    "Verif.IniValues.C117_read",
    "Verif.IniValues.C117_literals"
   ],
   "note": "Proved for the model, with four violations: a sign inside an operation or list stops the evaluation (`-1*2` stays text, `[-1, 'a']` becomes broken texts); the value of an option in two sections depends on the order of the sections; RANK in the section of the binaries replaces the rank of the job; an option of grid_paths replaces a step of the same name. Not covered (edits of the model there survive, see the log): which exception is raised for a missing file, a missing use_MPI, a class location of the wrong kind or an unknown operator, and the truth of literals None and pairs."
  },
  {
   "property": "C118",
   "status": "partial",
   "theorems": [
    "Verif.StepHooks.C118_lengths",
    "Verif.StepHooks.C118_finished",
    "Verif.StepHooks.C118_columns",
    "Verif.StepHooks.C118_aligned",
    "Verif.StepHooks.C118_all_names",
    "Verif.StepHooks.C118_restore",
    "Verif.StepHooks.C118_restore_violated",
    "Verif.StepHooks.C118_record_violated",
    "Verif.StepHooks.C118_failed",
    "Verif.StepHooks.C118_failed_violated",
    "Verif.StepHooks.C118_resume_violated",
    "Verif.StepHooks.C118_shorter_violated",
    "Verif.StepHooks.C118_silent_violated",
    "Verif.StepHooks.C118_kept",
    "Verif.Tight.C118_shorter_rest"
   ],
   "note": "Proved: lengths for all steps (C118_lengths, C118_finished), closed form and row by row (C118_columns, C118_aligned, C118_all_names) if redirections that are not shown write no rows, restoring (C118_restore). Violated and proved so: after an error the columns are shorter than the history (C118_failed, C118_failed_violated), with an old history but no columns the entries are in wrong rows (C118_resume_violated), a history that became shorter is not followed (C118_shorter_violated), a hidden redirection with a recorded match shifts durations (C118_silent_violated), a binary that did not evolve can not be restored (C118_restore_violated), matches can not be recorded without the hooks for names (C118_record_violated)."
  },
  {
   "property": "C119",
   "status": "partial",
   "theorems": [
    "Verif.MesaSetup.C119_metallicity",
    "Verif.MesaSetup.C119_metallicity_inj",
    "Verif.MesaSetup.C119_bounds",
    "Verif.MesaSetup.C119_inside",
    "Verif.MesaSetup.C119_accepts",
    "Verif.MesaSetup.C119_loaded",
    "Verif.MesaSetup.C119_interp_file_partial",
    "Verif.MesaSetup.C119_interp_given",
    "Verif.MesaSetup.C119_stop_violated",
    "Verif.MesaSetup.C119_method_violated",
    "Verif.MesaSetup.C119_time",
    "Verif.MesaSetup.C119_sn_values",
    "Verif.MesaSetup.C119_sn_stars",
    "Verif.MesaSetup.C119_sn_names",
    "Verif.MesaSetup.C119_time_empty",
    "Verif.MesaSetup.C119_no_directory"
   ],
   "note": "Proved: acceptance (C119_accepts), files (C119_loaded, C119_interp_file_partial for paths without a per cent sign, C119_interp_given, C119_metallicity, C119_metallicity_inj), range (C119_bounds, C119_inside), times (C119_time), models (C119_sn_values, C119_sn_stars). Violated and proved so: the interpolators can not be used without the stop at the maximum time (C119_stop_violated), unknown methods are accepted and fail only when a binary evolves (C119_method_violated)."
  },
  {
   "property": "C120",
   "status": "partial",
   "theorems": [
    "Verif.SfhTables.C120_curve",
    "Verif.SfhTables.C120_first_missing_violated",
    "Verif.SfhTables.C120_illustris_rate",
    "Verif.SfhTables.C120_illustris_mean",
    "Verif.SfhTables.C120_illustris_mean_violated",
    "Verif.SfhTables.C120_illustris_row",
    "Verif.SfhTables.C120_illustris_low_violated",
    "Verif.SfhTables.C120_average",
    "Verif.SfhTables.C120_average_scale",
    "Verif.SfhTables.C120_chruslinska_rate",
    "Verif.SfhTables.C120_chruslinska_mean",
    "Verif.SfhTables.C120_chruslinska_mean_violated",
    "Verif.SfhTables.C120_chruslinska_rows_partial",
    "Verif.SfhTables.C120_order_violated",
    "Verif.SfhTables.C120_scaling",
    "Verif.SfhTables.C120_metallicities",
    "Verif.SfhTables.C120_row_distribution",
    "Verif.SfhTables.C120_refused",
    "Verif.SfhTables.C120_zavala",
    "Verif.SfhTables.C120_lengths"
   ],
   "note": "Proved: curves (C120_curve, C120_illustris_rate, C120_illustris_mean, C120_chruslinska_rate, C120_chruslinska_mean, C120_zavala), averages (C120_average, C120_average_scale), rows (C120_illustris_row, C120_chruslinska_rows_partial for falling redshifts), metallicities (C120_scaling, C120_metallicities, C120_row_distribution), errors (C120_refused). Violated and proved so: if the first row has no star formation the mean metallicity is an error at every redshift (C120_first_missing_violated, C120_illustris_mean_violated, C120_chruslinska_mean_violated); below the redshifts of IllustrisTNG there is a rate but no distribution (C120_illustris_low_violated); with rising redshifts the first row is taken for all (C120_order_violated)."
  },
  {
   "property": "C121",
   "status": "partial",
   "theorems": [
    "Verif.OpenPop.C121_opens",
    "Verif.OpenPop.C121_lengths",
    "Verif.OpenPop.C121_parameters",
    "Verif.OpenPop.C121_masses",
    "Verif.OpenPop.C121_tables_kept",
    "Verif.OpenPop.C121_reopen",
    "Verif.OpenPop.C121_metadata",
    "Verif.OpenPop.C121_failed_open_violated",
    "Verif.OpenPop.C121_metallicity_violated",
    "Verif.OpenPop.C121_consistent_violated",
    "Verif.OpenPop.C121_overwrites"
   ],
   "note": "Proved: when it opens (C121_opens), lengths (C121_lengths), parameters (C121_parameters), masses (C121_masses, C121_overwrites), what is kept (C121_tables_kept), opening again (C121_reopen, C121_metadata). Violated and proved so: an open that fails may have replaced the parameters in the file (C121_failed_open_violated); a complete file is refused if only a metallicity is given (C121_metallicity_violated); tables that do not belong together are accepted (C121_consistent_violated)."
  },
  {
   "property": "C122",
   "status": "partial",
   "theorems": [
    "Verif.Regress.C122_names",
    "Verif.Regress.C122_unknown",
    "Verif.Regress.C122_train",
    "Verif.Regress.C122_train_passive",
    "Verif.Regress.C122_everything",
    "Verif.Regress.C122_few_points_violated",
    "Verif.Regress.C122_predict",
    "Verif.Regress.C122_untrained",
    "Verif.Regress.C122_max_apc",
    "Verif.Regress.C122_split",
    "Verif.Regress.C122_alpha",
    "Verif.Regress.C122_kept",
    "Verif.Regress.C122_predictions_kept",
    "Verif.Regress.C122_held_out",
    "Verif.Regress.C122_fill",
    "Verif.Regress.C122_alpha_one_violated",
    "Verif.Regress.C122_alpha_small_violated",
    "Verif.Regress.C122_differences",
    "Verif.Regress.C122_aligned_violated",
    "Verif.Regress.C122_summary",
    "Verif.Regress.C122_columns",
    "Verif.Regress.C122_undefined_violated",
    "Verif.Regress.C122_ragged_violated",
    "Verif.Regress.C122_all_names",
    "Verif.Regress.C122_points",
    "Verif.Regress.C122_missing",
    "Verif.Regress.C122_no_prediction"
   ],
   "note": "Proved: names (C122_names, C122_unknown), training (C122_train, C122_train_passive, C122_everything), predictions (C122_predict, C122_untrained, C122_max_apc), cross validation (C122_split, C122_alpha, C122_kept, C122_predictions_kept, C122_held_out, C122_fill, C122_differences), summaries (C122_summary, C122_columns). Violated and proved so: a share of 1 is allowed but always raises for the linear interpolation (C122_alpha_one_violated); a share of less than one point raises (C122_alpha_small_violated); no points at all raise an IndexError where too few points are skipped (C122_few_points_violated); marks for undefined changes are taken for values in the tests (C122_undefined_violated); differences and those in percent do not belong together if an output is zero (C122_aligned_violated), and then several columns may not be summarised (C122_ragged_violated)."
  },
  {
   "property": "C123",
   "status": "partial",
   "theorems": [
    "Verif.Engines.C123_sukhbold_answers",
    "Verif.Engines.C123_sukhbold_rows",
    "Verif.Engines.C123_sukhbold_masses",
    "Verif.Engines.C123_sukhbold_unused",
    "Verif.Engines.C123_sukhbold_refused",
    "Verif.Engines.C123_couch",
    "Verif.Engines.C123_couch_verbose_violated",
    "Verif.Engines.C123_table",
    "Verif.Engines.C123_range",
    "Verif.Engines.C123_exact",
    "Verif.Engines.C123_values",
    "Verif.Engines.C123_core",
    "Verif.Engines.C123_approximation",
    "Verif.Engines.C123_stripped_violated",
    "Verif.Engines.C123_abundances",
    "Verif.Engines.C123_patton",
    "Verif.Engines.C123_patton_massive",
    "Verif.Engines.C123_no_record"
   ],
   "note": "Proved: Sukhbold+16 (C123_sukhbold_answers, C123_sukhbold_rows, C123_sukhbold_masses, C123_sukhbold_unused, C123_sukhbold_refused), Couch+20 (C123_couch), tables (C123_table, C123_range, C123_exact, C123_values), the core (C123_core, C123_approximation, C123_abundances), Patton+20 (C123_patton, C123_patton_massive). Violated and proved so: Couch+20 cannot be made with verbose output (C123_couch_verbose_violated); a stripped star is taken for a hydrogen-rich one if its last record was (C123_stripped_violated). Rows with helium cores that occur twice are not covered."
  },
  {
   "property": "C124",
   "status": "partial",
   "theorems": [
    "Verif.PipeRun.C124_row",
    "Verif.PipeRun.C124_sampling",
    "Verif.PipeRun.C124_pure_compression",
    "Verif.PipeRun.C124_slice",
    "Verif.PipeRun.C124_combine",
    "Verif.PipeRun.C124_extra",
    "Verif.PipeRun.C124_extra_others",
    "Verif.PipeRun.C124_extra_post_fails",
    "Verif.PipeRun.C124_input_kept_violated",
    "Verif.PipeRun.C124_no_half_result_violated",
    "Verif.PipeRun.C124_export",
    "Verif.PipeRun.C124_export_works",
    "Verif.PipeRun.C124_profiles",
    "Verif.PipeRun.C124_no_temporary_violated",
    "Verif.PipeRun.C124_profile_names",
    "Verif.PipeRun.C124_counter",
    "Verif.PipeRun.C124_failure_rate",
    "Verif.PipeRun.C124_failure_rate_range",
    "Verif.PipeRun.C124_checks",
    "Verif.PipeRun.C124_type_counts"
   ],
   "note": "Proved: exact characterisation of slices, joining, export, processed grids, profile interpolators and checks, with everything else on the disk unchanged. Proved failures: the input is lost when the processed grid has the same path as the grid; when adding the values fails a plain copy stays under the name of the processed grid; the temporary file of the profiles is never removed. Processing, joining and training are parameters."
  },
  {
   "property": "C125",
   "status": "partial",
   "theorems": [
    "Verif.PlotSlices.C125_values",
    "Verif.PlotSlices.C125_single",
    "Verif.PlotSlices.C125_number",
    "Verif.PlotSlices.C125_centres",
    "Verif.PlotSlices.C125_covered",
    "Verif.PlotSlices.C125_overlap_partial",
    "Verif.PlotSlices.C125_disjoint_violated",
    "Verif.PlotSlices.C125_ratio",
    "Verif.PlotSlices.C125_fit",
    "Verif.PlotSlices.C125_quantity",
    "Verif.PlotSlices.C125_own_directory_violated",
    "Verif.PlotSlices.C125_mass_ratio",
    "Verif.PlotSlices.C125_population",
    "Verif.PlotSlices.C125_helium_grid_violated",
    "Verif.PlotSlices.C125_property_partial",
    "Verif.PlotSlices.C125_property_refused",
    "Verif.PlotSlices.C125_property_violated",
    "Verif.PlotSlices.C125_ratio_once",
    "Verif.PlotSlices.C125_equal_masses_violated",
    "Verif.PlotSlices.C125_one_mass",
    "Verif.PlotSlices.C125_mass_centre_violated"
   ],
   "note": "Proved: values (C125_values, C125_number, C125_single), slices (C125_centres, C125_covered, C125_overlap_partial, C125_ratio, C125_fit), quantities (C125_quantity), populations (C125_population, C125_mass_ratio, C125_ratio_once, C125_property_partial, C125_property_refused, C125_one_mass). Violated and proved so: runs on an edge are drawn twice; a quantity and its logarithm share their files; nothing is shown over the grid of compact objects and helium stars; a property may be that of another binary; equal masses are never drawn; the last slice of masses may not contain its own mass. Drawing is not modelled."
  },
  {
   "property": "C126",
   "status": "partial",
   "theorems": [
    "Verif.VHCount.C126_groups",
    "Verif.VHCount.C126_any_pieces",
    "Verif.VHCount.C126_each_binary",
    "Verif.VHCount.C126_no_rows",
    "Verif.VHCount.C126_apart_violated",
    "Verif.VHCount.C126_table",
    "Verif.VHCount.C126_distinct",
    "Verif.VHCount.C126_lines",
    "Verif.VHCount.C126_total",
    "Verif.VHCount.C126_indices",
    "Verif.VHCount.C126_count_dict",
    "Verif.VHCount.C126_frequencies",
    "Verif.VHCount.C126_most",
    "Verif.VHCount.C126_same_hash_violated"
   ],
   "note": "Proved: groups (C126_groups, C126_any_pieces, C126_each_binary, C126_no_rows), table (C126_table, C126_distinct, C126_lines, C126_total, C126_indices, C126_count_dict), frequencies and the most frequent (C126_frequencies, C126_most). Violated and proved so: a binary whose rows are not together is counted more than once; different evolutions with the same hash are counted as one. parse_dataf_gb_iter_chunk is not modelled."
  },
  {
   "property": "C127",
   "status": "partial",
   "theorems": [
    "Verif.Assess.C127_errors",
    "Verif.Assess.C127_exact",
    "Verif.Assess.C127_units",
    "Verif.Assess.C127_positive",
    "Verif.Assess.C127_missing",
    "Verif.Assess.C127_zero_violated",
    "Verif.Assess.C127_runs",
    "Verif.Assess.C127_table",
    "Verif.Assess.C127_row",
    "Verif.Assess.C127_shares",
    "Verif.Assess.C127_matrix",
    "Verif.Assess.C127_accuracy",
    "Verif.Assess.C127_foreign_violated",
    "Verif.Assess.C127_no_classes_violated",
    "Verif.Assess.C127_unknown",
    "Verif.Assess.C127_labels",
    "Verif.Assess.C127_clean",
    "Verif.Assess.C127_clean_partial",
    "Verif.Assess.C127_clean_violated",
    "Verif.Assess.C127_keys",
    "Verif.Assess.C127_violin",
    "Verif.Assess.C127_reverse_violated",
    "Verif.Assess.C127_slice",
    "Verif.Assess.C127_slice_refused",
    "Verif.Assess.C127_save_violated",
    "Verif.Assess.C127_infinite"
   ],
   "note": "Proved: errors (C127_errors, C127_exact, C127_units, C127_positive, C127_missing, C127_table), runs (C127_runs), matrices (C127_row, C127_shares, C127_matrix, C127_accuracy, C127_labels, C127_unknown), plots (C127_clean, C127_clean_partial, C127_keys, C127_violin, C127_slice, C127_slice_refused). Violated and proved so: an exact zero has no error and any other value for zero an infinite one; a prediction that is not a label makes rows of different lengths; a quantity without classes can not be drawn; missing values stay in the cleaned errors; runs with reverse mass transfer are in none of the coloured sets; figures can not be saved by option. Drawing is not modelled."
  },
  {
   "property": "C128",
   "status": "partial",
   "theorems": [
    "Verif.StepOptions.C128_values",
    "Verif.StepOptions.C128_evolution",
    "Verif.StepOptions.C128_refused",
    "Verif.StepOptions.C128_same_partial",
    "Verif.StepOptions.C128_generator_violated",
    "Verif.StepOptions.C128_supernova",
    "Verif.StepOptions.C128_positions",
    "Verif.StepOptions.C128_merged_positions",
    "Verif.StepOptions.C128_messages_violated",
    "Verif.StepOptions.C128_last_violated",
    "Verif.StepOptions.C128_null_violated",
    "Verif.StepOptions.C128_needs",
    "Verif.StepOptions.C128_loaded",
    "Verif.StepOptions.C128_load_refused",
    "Verif.StepOptions.C128_loaded_generator",
    "Verif.StepOptions.C128_default_file",
    "Verif.StepOptions.C128_published",
    "Verif.StepOptions.C128_merged_one"
   ],
   "note": "Proved: C128_values, C128_refused, C128_same_partial, C128_evolution, C128_supernova, C128_positions, C128_merged_positions, C128_needs, C128_loaded, C128_loaded_generator, C128_load_refused, C128_default_file. Violated and proved so: a supernova step made without any option has no generator of random numbers although one made with an option at its default value has (C128_generator_violated); messages can not be switched on for a detached step without a matcher (C128_messages_violated); the last step drops unknown options instead of refusing them (C128_last_violated); the class that is taken when none is given can not be loaded (C128_null_violated). What the constructors do after taking the options is a parameter here (C119, C123, C98)."
  },
  {
   "property": "C129",
   "status": "partial",
   "theorems": [
    "Verif.InScale.C129_columns",
    "Verif.InScale.C129_disjoint",
    "Verif.InScale.C129_names",
    "Verif.InScale.C129_supernova",
    "Verif.InScale.C129_classifier",
    "Verif.InScale.C129_method",
    "Verif.InScale.C129_runs",
    "Verif.InScale.C129_rectangular",
    "Verif.InScale.C129_ratio_partial",
    "Verif.InScale.C129_narrow_violated",
    "Verif.InScale.C129_mass_units",
    "Verif.InScale.C129_choice",
    "Verif.InScale.C129_units",
    "Verif.InScale.C129_order",
    "Verif.InScale.C129_symmetric",
    "Verif.InScale.C129_missing_violated",
    "Verif.InScale.C129_class_violated",
    "Verif.InScale.C129_class_partial",
    "Verif.InScale.C129_ball",
    "Verif.InScale.C129_ball_violated",
    "Verif.InScale.C129_report_partial",
    "Verif.InScale.C129_report_violated",
    "Verif.InScale.C129_labels",
    "Verif.InScale.C129_errors",
    "Verif.InScale.C129_total_violated"
   ],
   "note": "Proved: C129_columns, C129_disjoint, C129_names, C129_supernova, C129_classifier, C129_method, C129_runs, C129_rectangular, C129_ratio_partial, C129_mass_units, C129_choice, C129_units, C129_order, C129_symmetric, C129_class_partial (one input), C129_ball (logarithmic axis), C129_report_partial (labels 0 to 3), C129_labels, C129_errors. Violated and proved so: a narrow grid in mass ratio is taken for one in masses (C129_narrow_violated); one run with a missing or non-positive input makes the scale logarithmic (C129_missing_violated); all inputs get the same scale within a class (C129_class_violated); on a linear axis each run is in every slice (C129_ball_violated); with reverse mass transfer the report counts it as unstable (C129_report_violated); the total errors are those of one run (C129_total_violated). Percentiles are a parameter; training is in C83."
  },
  {
   "property": "C130",
   "status": "partial",
   "theorems": [
    "Verif.Neigh.C130_refused",
    "Verif.Neigh.C130_neighbours_partial",
    "Verif.Neigh.C130_average",
    "Verif.Neigh.C130_self_violated",
    "Verif.Neigh.C130_find_partial",
    "Verif.Neigh.C130_find_refused",
    "Verif.Neigh.C130_class_violated",
    "Verif.Neigh.C130_attribute",
    "Verif.Neigh.C130_named",
    "Verif.Neigh.C130_inputs",
    "Verif.Neigh.C130_box",
    "Verif.Neigh.C130_plane",
    "Verif.Neigh.C130_plane_classes",
    "Verif.Neigh.C130_raw_violated",
    "Verif.Neigh.C130_space",
    "Verif.Neigh.C130_regions",
    "Verif.Neigh.C130_documented"
   ],
   "note": "Proved: C130_refused, C130_neighbours_partial (different points), C130_average, C130_find_partial (without a class), C130_find_refused, C130_attribute, C130_named, C130_inputs, C130_box, C130_plane, C130_plane_classes, C130_space. Violated and proved so: if points coincide a point can be its own neighbour (C130_self_violated); with a class the data given are ignored and neighbours are searched among the outputs of the class (C130_class_violated); the raw classes of the plane can be no class on the line where the value is the limit (C130_raw_violated, in exact arithmetic). Plots are not modelled."
  },
  {
   "property": "C131",
   "status": "partial",
   "theorems": [
    "Verif.Dialog.C131_folder",
    "Verif.Dialog.C131_ini_some",
    "Verif.Dialog.C131_ini_choice",
    "Verif.Dialog.C131_job_partial",
    "Verif.Dialog.C131_job_answer",
    "Verif.Dialog.C131_merge_violated",
    "Verif.Dialog.C131_rescue_violated",
    "Verif.Dialog.C131_reported",
    "Verif.Dialog.C131_log_names",
    "Verif.Dialog.C131_time_partial",
    "Verif.Dialog.C131_time_violated",
    "Verif.Dialog.C131_other_reasons",
    "Verif.Dialog.C131_confirm",
    "Verif.Dialog.C131_submit",
    "Verif.Dialog.C131_consent",
    "Verif.Dialog.C131_merges",
    "Verif.Dialog.C131_code_violated",
    "Verif.Dialog.C131_valid",
    "Verif.Dialog.C131_ini_visible",
    "Verif.Dialog.C131_valid_errors",
    "Verif.Dialog.C131_rescue_name"
   ],
   "note": "Proved for all folders and answers, for folders of logs without the log of merging; the log of merging, logs of repeated tasks, logs of two lines and the exit code are shown to break the statement. `str(list)` is taken line by line."
  },
  {
   "property": "C132",
   "status": "partial",
   "theorems": [
    "Verif.Compare.C132_quant",
    "Verif.Compare.C132_qual",
    "Verif.Compare.C132_quant_report",
    "Verif.Compare.C132_close",
    "Verif.Compare.C132_binary",
    "Verif.Compare.C132_evolution",
    "Verif.Compare.C132_warnings",
    "Verif.Compare.C132_errors",
    "Verif.Compare.C132_tolerances",
    "Verif.Compare.C132_exit",
    "Verif.Compare.C132_identical_partial",
    "Verif.Compare.C132_itself",
    "Verif.Compare.C132_texts_partial",
    "Verif.Compare.C132_none_violated",
    "Verif.Compare.C132_symmetry_violated",
    "Verif.Compare.C132_lost_violated",
    "Verif.Compare.C132_second_error_violated",
    "Verif.Compare.C132_pairs_violated",
    "Verif.Compare.C132_empty_violated",
    "Verif.Compare.C132_loose_violated",
    "Verif.Compare.C132_suite",
    "Verif.Compare.C132_options",
    "Verif.Compare.C132_options_violated",
    "Verif.Compare.C132_script",
    "Verif.Compare.C132_script_violated"
   ],
   "note": "The equivalence is proved for all files in which no binary has both an evolution and an error (which the suite's files satisfy, also proved); the listed violations have witnesses. Infinities and the digits of large integers are not modelled."
  },
  {
   "property": "C133",
   "status": "partial",
   "theorems": [
    "Verif.DynGrid.C133_flow",
    "Verif.DynGrid.C133_rounds",
    "Verif.DynGrid.C133_finished",
    "Verif.DynGrid.C133_lost_violated",
    "Verif.DynGrid.C133_failed_file",
    "Verif.DynGrid.C133_first",
    "Verif.DynGrid.C133_unused_violated",
    "Verif.DynGrid.C133_bounded",
    "Verif.DynGrid.C133_progress",
    "Verif.DynGrid.C133_complete",
    "Verif.DynGrid.C133_never_ends_violated",
    "Verif.DynGrid.C133_dead_violated",
    "Verif.DynGrid.C133_alone_violated",
    "Verif.DynGrid.C133_extract_violated",
    "Verif.DynGrid.C133_extract_format",
    "Verif.DynGrid.C133_dynamic_violated",
    "Verif.DynGrid.C133_append_violated",
    "Verif.DynGrid.C133_append",
    "Verif.DynGrid.C133_no_result_violated",
    "Verif.DynGrid.C133_fixed_violated",
    "Verif.DynGrid.C133_columns_violated",
    "Verif.DynGrid.C133_columns",
    "Verif.DynGrid.C133_convert",
    "Verif.DynGrid.C133_masses",
    "Verif.DynGrid.C133_ratio_wins",
    "Verif.DynGrid.C133_round_trip",
    "Verif.DynGrid.C133_second_mass_violated",
    "Verif.DynGrid.C133_lookups",
    "Verif.DynGrid.C133_optional_violated",
    "Verif.DynGrid.C133_formation",
    "Verif.DynGrid.C133_action",
    "Verif.DynGrid.C133_nothing_violated",
    "Verif.DynGrid.C133_kind_violated",
    "Verif.DynGrid.C133_directories",
    "Verif.DynGrid.C133_keep",
    "Verif.DynGrid.C133_copy",
    "Verif.DynGrid.C133_copy_violated",
    "Verif.DynGrid.C133_late_violated",
    "Verif.DynGrid.C133_names"
   ],
   "note": "For every interleaving: the flow of points and results (C133_flow), n results in grid and file after n rounds (C133_rounds, C133_finished, C133_failed_file), a bound on the number of steps (C133_bounded), no deadlock with a child at least (C133_progress) and completeness (C133_complete) are proved. Violated: the script asks the reader for a format that the reader of grids refuses and swallows the exception, so every result is an empty table: dynamic grids raise at the first result, fixed grids never write grid_results.csv (C133_extract_violated, C133_dynamic_violated, C133_fixed_violated); DataFrame.append does not exist in the pandas versions the project asks for (C133_append_violated); children loop for ever and one result of each is lost (C133_never_ends_violated, C133_lost_violated); one process alone waits for ever (C133_alone_violated); a proposed point is never run (C133_unused_violated); mass ratios with the name m1 give no second mass (C133_second_mass_violated); optional inlists raise if left out (C133_optional_violated); others with _violated."
  },
  {
   "property": "C134",
   "status": "partial",
   "theorems": [
    "Verif.RunLabels.C134_log",
    "Verif.RunLabels.C134_log_none",
    "Verif.RunLabels.C134_missing",
    "Verif.RunLabels.C134_transfer",
    "Verif.RunLabels.C134_flags",
    "Verif.RunLabels.C134_compact",
    "Verif.RunLabels.C134_star",
    "Verif.RunLabels.C134_class_ends",
    "Verif.RunLabels.C134_class_none",
    "Verif.RunLabels.C134_class_initial",
    "Verif.RunLabels.C134_class_stable",
    "Verif.RunLabels.C134_short",
    "Verif.RunLabels.C134_transfer_short",
    "Verif.RunLabels.C134_no_history",
    "Verif.RunLabels.C134_no_rows",
    "Verif.RunLabels.C134_given",
    "Verif.RunLabels.C134_single",
    "Verif.RunLabels.C134_single_error",
    "Verif.RunLabels.C134_array",
    "Verif.RunLabels.C134_undetermined_violated"
   ],
   "note": "C134_log, C134_log_none, C134_transfer, C134_flags, C134_compact, C134_star, C134_class_*, C134_given, C134_single, C134_array and the failures are proved for all histories. The direction theorem (C134_class_stable) needs that no model of star 1 has an undetermined case; without it the class is wrong (C134_undetermined_violated). States of star 1 are looked up before overflow of star 2 at the start is checked, so that a short history of star 1 raises although the flag would not need it (C134_transfer_short)."
  },
  {
   "property": "C135",
   "status": "partial",
   "theorems": [
    "Verif.Life.C135_ranks",
    "Verif.Life.C135_compact",
    "Verif.Life.C135_collapses",
    "Verif.Life.C135_two",
    "Verif.Life.C135_mergers",
    "Verif.Life.C135_alone_partial",
    "Verif.Life.C135_alone_violated",
    "Verif.Life.C135_dco",
    "Verif.Life.C135_next_partial",
    "Verif.Life.C135_first",
    "Verif.Life.C135_sound"
   ],
   "note": "C135_ranks, C135_compact, C135_collapses, C135_two, C135_mergers and C135_dco hold for every evolution. C135_alone_partial, C135_first, C135_sound and C135_next_partial need kicks to be switched on: without kicks every supernova makes the two stars a pair again (C135_alone_violated). The last two need a sound start (nothing gone next to a companion). A failed integration of two compact objects repeats the step. Between two steps only the states and the event are kept; everything else is arbitrary, and the assumptions about the data are listed in Life.lean."
  },
  {
   "property": "C136",
   "status": "partial",
   "theorems": [
    "Verif.Charts.C136_ranks",
    "Verif.Charts.C136_collapses",
    "Verif.Charts.C136_mergers",
    "Verif.Charts.C136_change_rests",
    "Verif.Charts.C136_default",
    "Verif.Charts.C136_entries",
    "Verif.Charts.C136_raw",
    "Verif.Charts.C136_names",
    "Verif.Charts.C136_raw_names",
    "Verif.Charts.C136_rests",
    "Verif.Charts.C136_dead_violated",
    "Verif.Charts.C136_never",
    "Verif.Charts.C136_stops",
    "Verif.Charts.C136_end_partial",
    "Verif.Charts.C136_end_violated",
    "Verif.Charts.C136_entry_unused_violated",
    "Verif.Charts.C136_example",
    "Verif.Charts.C136_steps",
    "Verif.Charts.C136_eccentric_next",
    "Verif.Charts.C136_eccentric_steps"
   ],
   "note": "C136_ranks, C136_collapses, C136_mergers for all charts with Rests; C136_change_rests and C136_rests give the charts that have it; C136_entries, C136_raw, C136_never, C136_stops, C136_example, C136_steps for the example chart; C136_eccentric_next and C136_eccentric_steps for eccentric births. Violated: the two derived charts send what has nothing left to evolve on at the event of birth (C136_dead_violated); not all overflow has an entry in the example chart (C136_end_violated, C136_end_partial says which has); its new entries are not reached unless a step for overflow between two stars is loaded (C136_entry_unused_violated)."
  },
  {
   "property": "C137",
   "status": "partial",
   "theorems": [
    "Verif.GridPlot.C137_shown",
    "Verif.GridPlot.C137_slice",
    "Verif.GridPlot.C137_mass_ratio",
    "Verif.GridPlot.C137_metallicity",
    "Verif.GridPlot.C137_no_mass_ratio",
    "Verif.GridPlot.C137_initial",
    "Verif.GridPlot.C137_needs",
    "Verif.GridPlot.C137_needs_error",
    "Verif.GridPlot.C137_bad_x",
    "Verif.GridPlot.C137_bad_y",
    "Verif.GridPlot.C137_both",
    "Verif.GridPlot.C137_onset",
    "Verif.GridPlot.C137_overflows",
    "Verif.GridPlot.C137_no_onset",
    "Verif.GridPlot.C137_star2_violated",
    "Verif.GridPlot.C137_track",
    "Verif.GridPlot.C137_no_track",
    "Verif.GridPlot.C137_tracks",
    "Verif.GridPlot.C137_colours",
    "Verif.GridPlot.C137_last",
    "Verif.GridPlot.C137_onset_value",
    "Verif.GridPlot.C137_no_history",
    "Verif.GridPlot.C137_array",
    "Verif.GridPlot.C137_array_length",
    "Verif.GridPlot.C137_array_violated",
    "Verif.GridPlot.C137_relative_violated",
    "Verif.GridPlot.C137_relative_chosen",
    "Verif.GridPlot.C137_four_violated",
    "Verif.GridPlot.C137_limits",
    "Verif.GridPlot.C137_limits_kept",
    "Verif.GridPlot.C137_no_colour",
    "Verif.GridPlot.C137_changes",
    "Verif.GridPlot.C137_unchanged_partial",
    "Verif.GridPlot.C137_unchanged_violated",
    "Verif.GridPlot.C137_flag",
    "Verif.GridPlot.C137_model_flag_violated",
    "Verif.GridPlot.C137_model_colour_violated",
    "Verif.GridPlot.C137_second_violated",
    "Verif.GridPlot.C137_second_flag_violated",
    "Verif.GridPlot.C137_choice",
    "Verif.GridPlot.C137_array_onset",
    "Verif.GridPlot.C137_names",
    "Verif.GridPlot.C137_works",
    "Verif.GridPlot.C137_all",
    "Verif.GridPlot.C137_limits_violated",
    "Verif.GridPlot.C137_flag_value",
    "Verif.GridPlot.C137_flag_needs",
    "Verif.GridPlot.C137_second_flag_needs",
    "Verif.GridPlot.C137_onset_needs",
    "Verif.GridPlot.C137_relative_key",
    "Verif.GridPlot.C137_no_relative_key"
   ],
   "note": "C137_shown, C137_slice, C137_tracks, C137_track, C137_onset, C137_colours, C137_array, C137_limits, C137_works and C137_all hold for all grids. Violated: relative changes can never be plotted (C137_relative_violated); an array of colours is cut again by the next panel, which fails (C137_array_violated); a slice along a fourth quantity alone is ignored (C137_four_violated); later panels keep the limits of the first (C137_limits_violated); columns of supernova models are accepted as flags but not found (C137_model_flag_violated, C137_model_colour_violated); a second grid gets the colours of the first and no combined flags (C137_second_violated, C137_second_flag_violated); overflow of star 2 is no onset (C137_star2_violated); plotting the second flag changes the grid (C137_unchanged_violated, C137_unchanged_partial). Drawing itself is not modelled here."
  },
  {
   "property": "C138",
   "status": "partial",
   "theorems": [
    "Verif.Panels.C138_layout",
    "Verif.Panels.C138_legend_cells",
    "Verif.Panels.C138_legend_inside",
    "Verif.Panels.C138_legend_single",
    "Verif.Panels.C138_slices",
    "Verif.Panels.C138_panels_partial",
    "Verif.Panels.C138_blank",
    "Verif.Panels.C138_blank_violated",
    "Verif.Panels.C138_three_violated",
    "Verif.Panels.C138_repeat_violated",
    "Verif.Panels.C138_one_row_violated",
    "Verif.Panels.C138_one_column_violated",
    "Verif.Panels.C138_two_violated",
    "Verif.Panels.C138_outside",
    "Verif.Panels.C138_default",
    "Verif.Panels.C138_points",
    "Verif.Panels.C138_points_all",
    "Verif.Panels.C138_one_all",
    "Verif.Panels.C138_hidden_violated",
    "Verif.Panels.C138_legend",
    "Verif.Panels.C138_legend_unbound_violated",
    "Verif.Panels.C138_legend_violated",
    "Verif.Panels.C138_sorted",
    "Verif.Panels.C138_x_label",
    "Verif.Panels.C138_y_label",
    "Verif.Panels.C138_label_violated",
    "Verif.Panels.C138_drawn_many"
   ],
   "note": "C138_layout, C138_legend_cells, C138_legend_inside, C138_panels_partial (with C138_blank and C138_default), C138_points, C138_points_all, C138_legend, C138_sorted. Violated: all panels in one row or column fail, e.g. two slices with the default arrangement (C138_one_row_violated, C138_one_column_violated, C138_two_violated); several slices of the fourth quantity fail if more cells are left over than slices of the third, e.g. three of them with the default arrangement (C138_blank_violated, C138_three_violated); otherwise slices may be repeated (C138_repeat_violated); several panels without colours leave out runs (C138_hidden_violated) and give their text the marker of another flag or fail (C138_legend_violated, C138_legend_unbound_violated); panels above an empty cell have no label (C138_label_violated)."
  },
  {
   "property": "C139",
   "status": "partial",
   "theorems": [
    "Verif.Curves.C139_runs",
    "Verif.Curves.C139_no_run",
    "Verif.Curves.C139_panel",
    "Verif.Curves.C139_missing_violated",
    "Verif.Curves.C139_names",
    "Verif.Curves.C139_refused",
    "Verif.Curves.C139_several",
    "Verif.Curves.C139_single_list_violated",
    "Verif.Curves.C139_list_colours_violated",
    "Verif.Curves.C139_one",
    "Verif.Curves.C139_limits",
    "Verif.Curves.C139_given",
    "Verif.Curves.C139_low_partial",
    "Verif.Curves.C139_high_partial",
    "Verif.Curves.C139_negative_violated",
    "Verif.Curves.C139_limit_given_violated",
    "Verif.Curves.C139_limit_given_partial",
    "Verif.Curves.C139_radius_violated",
    "Verif.Curves.C139_lines",
    "Verif.Curves.C139_states_partial",
    "Verif.Curves.C139_states_violated",
    "Verif.Curves.C139_states_reached",
    "Verif.Curves.C139_state_names",
    "Verif.Curves.C139_colours",
    "Verif.Curves.C139_legend_violated",
    "Verif.Curves.C139_same_colour_violated",
    "Verif.Curves.C139_wrong_value",
    "Verif.Curves.C139_legend"
   ],
   "note": "Curves, limits and colours are modelled as data; axes labels, the rendering, the states of the history (C03) and the choice of marks in line plots are not part of this model. The violated parts are proved with witnesses."
  },
  {
   "property": "C140",
   "status": "partial",
   "theorems": [
    "Verif.Markers.C140_history",
    "Verif.Markers.C140_one_donor",
    "Verif.Markers.C140_two_donors",
    "Verif.Markers.C140_marker_iff",
    "Verif.Markers.C140_first_case",
    "Verif.Markers.C140_single_case",
    "Verif.Markers.C140_entry",
    "Verif.Markers.C140_other",
    "Verif.Markers.C140_text",
    "Verif.Markers.C140_no_space",
    "Verif.Markers.C140_added",
    "Verif.Markers.C140_kept",
    "Verif.Markers.C140_all",
    "Verif.Markers.C140_table_markers_partial",
    "Verif.Markers.C140_table_twice_violated",
    "Verif.Markers.C140_table_last_violated",
    "Verif.Markers.C140_table_text_partial",
    "Verif.Markers.C140_table_text_violated",
    "Verif.Markers.C140_table_colour_violated",
    "Verif.Markers.C140_same_symbol_violated",
    "Verif.Markers.C140_table_classes"
   ],
   "note": "The function is modelled in full, with the table of termination_flag_2; the other tables are not. The violated parts are proved with witnesses over the whole table."
  },
  {
   "property": "C141",
   "status": "partial",
   "theorems": [
    "Verif.PopPlot.C141_sum",
    "Verif.PopPlot.C141_histogram",
    "Verif.PopPlot.C141_no_bins",
    "Verif.PopPlot.C141_bar",
    "Verif.PopPlot.C141_delay",
    "Verif.PopPlot.C141_delay_metallicity",
    "Verif.PopPlot.C141_metallicities",
    "Verif.PopPlot.C141_close_violated",
    "Verif.PopPlot.C141_refused",
    "Verif.PopPlot.C141_properties",
    "Verif.PopPlot.C141_normalised",
    "Verif.PopPlot.C141_density_violated",
    "Verif.PopPlot.C141_errors",
    "Verif.PopPlot.C141_colours",
    "Verif.PopPlot.C141_many",
    "Verif.PopPlot.C141_many_violated",
    "Verif.PopPlot.C141_shells",
    "Verif.PopPlot.C141_shell_nonneg"
   ],
   "note": "numpy.histogram is modelled with exact edges; alignment of tables by index and rendering are not. The volume is an integral over the reals with the comoving distance as a continuous parameter. The violated parts are proved with witnesses."
  },
  {
   "property": "C142",
   "status": "partial",
   "theorems": [
    "Verif.Fits.C142_radius_partial",
    "Verif.Fits.C142_grids",
    "Verif.Fits.C142_low_metallicity_violated",
    "Verif.Fits.C142_order_violated",
    "Verif.Fits.C142_refused",
    "Verif.Fits.C142_ratio",
    "Verif.Fits.C142_life_refused",
    "Verif.Fits.C142_life_partial",
    "Verif.Fits.C142_life_violated",
    "Verif.Fits.C142_life_range",
    "Verif.Fits.C142_solar"
   ],
   "note": "Proved over the reals: positive radius for every mass from 0.0032 to twice the solar metallicity (C142_radius_partial), hence at six of the eight metallicities of the grids (C142_grids); C142_refused, C142_ratio; lifetimes refused exactly without mass, within bounds, and falling below a hundred solar masses (C142_life_refused, C142_life_range, C142_life_partial). Violated: negative radii at a thousandth and a ten-thousandth of the solar metallicity (C142_low_metallicity_violated), where heavier stars can also be three times smaller (C142_order_violated); just below a hundred solar masses stars live shorter than all heavier ones (C142_life_violated). That the radius grows with mass at higher metallicities is not proved."
  },
  {
   "property": "C143",
   "status": "partial",
   "theorems": [
    "Verif.Datasets.C143_sets",
    "Verif.Datasets.C143_distinct",
    "Verif.Datasets.C143_metallicities",
    "Verif.Datasets.C143_obtained",
    "Verif.Datasets.C143_stops",
    "Verif.Datasets.C143_default",
    "Verif.Datasets.C143_single_default_violated",
    "Verif.Datasets.C143_command",
    "Verif.Datasets.C143_list_only",
    "Verif.Datasets.C143_list",
    "Verif.Datasets.C143_shown",
    "Verif.Datasets.C143_accepted_violated",
    "Verif.Datasets.C143_individual",
    "Verif.Datasets.C143_path"
   ],
   "note": "Proved for the published tables: members, files and checksums (C143_sets, C143_distinct, C143_individual), metallicities (C143_metallicities), listing (C143_list, C143_list_only), names (C143_command, C143_shown), downloads (C143_obtained, C143_stops, C143_default), paths (C143_path). Violated: the default of download_one_dataset is not a data set and always raises KeyError (C143_single_default_violated); the collection itself is listed and accepted but has no file (C143_accepted_violated)."
  },
  {
   "property": "C144",
   "status": "partial",
   "theorems": [
    "Verif.Streams.C144_own",
    "Verif.Streams.C144_reproducible",
    "Verif.Streams.C144_same",
    "Verif.Streams.C144_isolated",
    "Verif.Streams.C144_loaded_before",
    "Verif.Streams.C144_import_time_violated",
    "Verif.Streams.C144_shared_violated",
    "Verif.Streams.C144_shared_seed_violated",
    "Verif.Streams.C144_moe_kept",
    "Verif.Streams.C144_moe_loop",
    "Verif.Streams.C144_moe_violated",
    "Verif.Streams.C144_first",
    "Verif.Streams.C144_initial_partial",
    "Verif.Streams.C144_initial_violated",
    "Verif.Streams.C144_clock_violated",
    "Verif.Streams.C144_option_violated",
    "Verif.Streams.C144_option_kept",
    "Verif.Streams.C144_reload",
    "Verif.Streams.C144_refused_violated",
    "Verif.Streams.C144_reset",
    "Verif.Streams.C144_reset_violated",
    "Verif.Streams.C144_again",
    "Verif.Streams.C144_prefix"
   ],
   "note": "Proved for arbitrary sampling and evolution computations: with properties not loaded before and the Moe & Di Stefano tables unused or first used, the results are those of the one stream of the entropy (C144_reproducible, C144_same, C144_own), other generators are untouched (C144_isolated), longer runs extend shorter ones (C144_again, C144_prefix), the first binary does not depend on the physics (C144_first), nor do the others if no step draws (C144_initial_partial). Violated: properties loaded beforehand keep an unseeded generator made at import (C144_import_time_violated, C144_loaded_before) or that of another population (C144_shared_violated, C144_shared_seed_violated); the Moe & Di Stefano object keeps the generator of the first population of the session (C144_moe_violated, C144_moe_loop); the user's generator is overwritten (C144_option_violated); refused options lose it (C144_refused_violated); reset_rng has no effect on a population (C144_reset_violated); initial binaries depend on the physics and on the wall clock (C144_initial_violated, C144_clock_violated)."
  },
  {
   "property": "C145",
   "status": "partial",
   "theorems": [
    "Verif.Describe.C145_counts",
    "Verif.Describe.C145_runs",
    "Verif.Describe.C145_columns_partial",
    "Verif.Describe.C145_columns_violated",
    "Verif.Describe.C145_dirs",
    "Verif.Describe.C145_dirs_distinct",
    "Verif.Describe.C145_no_dirs",
    "Verif.Describe.C145_no_file",
    "Verif.Describe.C145_values",
    "Verif.Describe.C145_report",
    "Verif.Describe.C145_report_logs",
    "Verif.Describe.C145_screen"
   ],
   "note": "Proved: numbers of runs and tables (C145_runs, C145_counts), values (C145_values), directories (C145_dirs, C145_dirs_distinct, C145_no_dirs), grids without a file (C145_no_file), reports of runs (C145_report, C145_report_logs, C145_screen). The columns of a kind of table are those of the last run only: right if all runs agree and the last one has the table (C145_columns_partial), not told at all if the last run lacks it (C145_columns_violated)."
  },
  {
   "property": "C146",
   "status": "partial",
   "theorems": [
    "Verif.Kepler.C146_separation",
    "Verif.Kepler.C146_period",
    "Verif.Kepler.C146_exact_violated",
    "Verif.Kepler.C146_created",
    "Verif.Kepler.C146_created_violated",
    "Verif.Kepler.C146_created_no_mass",
    "Verif.Kepler.C146_common_envelope",
    "Verif.Kepler.C146_supernova",
    "Verif.Kepler.C146_detached",
    "Verif.Kepler.C146_compact",
    "Verif.Kepler.C146_compact_failed",
    "Verif.Kepler.C146_law",
    "Verif.Kepler.C146_interpolated_partial",
    "Verif.Kepler.C146_interpolated_violated",
    "Verif.Kepler.C146_interpolated_masses_violated"
   ],
   "note": "Proved for construction from one of the two, the common envelope (all options), the supernova (all outcomes), detached evolution (all endings except a binary that overflows from the start, which keeps its orbit) and two compact objects; the law is exact in one direction and off by 0.02-0.04% in the other (C146_exact_violated, inconsistent constants). Violated: inconsistent input is believed (C146_created_violated); orbits interpolated linearly, or between different masses, do not obey it (C146_interpolated_violated, C146_interpolated_masses_violated)."
  },
  {
   "property": "C147",
   "status": "partial",
   "theorems": [
    "Verif.Clock.C147_common_envelope",
    "Verif.Clock.C147_partial_ejection_violated",
    "Verif.Clock.C147_supernova_partial",
    "Verif.Clock.C147_model_violated",
    "Verif.Clock.C147_detached",
    "Verif.Clock.C147_compact_partial",
    "Verif.Clock.C147_overlap_violated",
    "Verif.Clock.C147_merger",
    "Verif.Clock.C147_step",
    "Verif.Clock.C147_evolution"
   ],
   "note": "Proved for chains of any length (C147_evolution) from the models of the steps; the tracks of grids and single stars, the cores and the remnants are assumed not to be heavier than the star (data). Violated: an interpolated remnant is used whatever the mass of the star (C147_model_violated); two overlapping compact objects go back in time (C147_overlap_violated); a merger with partial ejection can make a star heavier (C147_partial_ejection_violated, this option is left out of the chain)."
  },
  {
   "property": "C148",
   "status": "partial",
   "theorems": [
    "Verif.Relabel.C148_twice",
    "Verif.Relabel.C148_record",
    "Verif.Relabel.C148_step",
    "Verif.Relabel.C148_evolution",
    "Verif.Relabel.C148_chart_partial",
    "Verif.Relabel.C148_chart_violated"
   ],
   "note": "Proved for the loop, the records and the hooks with any steps that commute with the exchange (C148_evolution), which is proved for each step model (C34_mirror_partial, C35_mirror, C36_mirror, C67_mirror, C73_mirror); the default chart does so except for contact binaries with one compact object (C148_chart_partial, C148_chart_violated), and the grid steps not always (C68_zams_mirror_violated, C68_hms_rlo_mirror_violated)."
  },
  {
   "property": "C149",
   "status": "partial",
   "theorems": [
    "Verif.Kinds.C149_update",
    "Verif.Kinds.C149_supernova",
    "Verif.Kinds.C149_limit",
    "Verif.Kinds.C149_grid",
    "Verif.Kinds.C149_radius_partial",
    "Verif.Kinds.C149_radius_violated",
    "Verif.Kinds.C149_dwarf_violated",
    "Verif.Kinds.C149_initial_MT_violated",
    "Verif.Kinds.C149_create",
    "Verif.Kinds.C149_create_radius_violated",
    "Verif.Kinds.C149_common_envelope",
    "Verif.Kinds.C149_merger",
    "Verif.Kinds.C149_step",
    "Verif.Kinds.C149_evolution_partial",
    "Verif.Kinds.C149_from_stars_partial"
   ],
   "note": "Neutron stars, black holes and massless remnants agree with their masses through all steps but grid steps interpolated with the class initial_MT, which keep the kind and replace the mass (C149_initial_MT_violated). A white dwarf that accretes stays one at any mass (C149_dwarf_violated); a grid step gives white dwarfs of 1.1 solar masses or more the radius of a neutron star or black hole (C149_radius_violated), and a new object has the radius of the kind it was given, not of the one it gets (C149_create_radius_violated)."
  },
  {
   "property": "C150",
   "status": "partial",
   "theorems": [
    "Verif.Spins.C150_accretion",
    "Verif.Spins.C150_spin_lost_violated",
    "Verif.Spins.C150_collapse",
    "Verif.Spins.C150_supernova",
    "Verif.Spins.C150_merger",
    "Verif.Spins.C150_step",
    "Verif.Spins.C150_evolution",
    "Verif.Spins.C150_known"
   ],
   "note": "Proved in full for spins that are known at the end (C150_evolution, C150_known). A known spin may become unknown: where the interpolated mass of a compact object is below the one it had, the spin is NaN and stays so (C150_spin_lost_violated). The isolated and merged steps are modelled up to mergers of stars that exist."
  },
  {
   "property": "C151",
   "status": "partial",
   "theorems": [
    "Verif.Bound.C151_common_envelope",
    "Verif.Bound.C151_supernova",
    "Verif.Bound.C151_detached",
    "Verif.Bound.C151_compact",
    "Verif.Bound.C151_step",
    "Verif.Bound.C151_evolution",
    "Verif.Bound.C151_values",
    "Verif.Bound.C151_kick_orbit"
   ],
   "note": "Proved for any sequence of steps (C151_step, C151_evolution, C151_values), with the orbit after a kick computed as in C33 (Follows; met by C151_kick_orbit) and the inspiral as an exact solution. The solution of the integrator in the detached step is data: its separation is assumed positive and its eccentricity in the range. A merger leaves the orbit of the binary as it was until the next step (C151_common_envelope)."
  },
  {
   "property": "C152",
   "status": "partial",
   "theorems": [
    "Verif.EndStar.C152_profile",
    "Verif.EndStar.C152_profile_own",
    "Verif.EndStar.C152_range",
    "Verif.EndStar.C152_fractions",
    "Verif.EndStar.C152_mass",
    "Verif.EndStar.C152_outwards",
    "Verif.EndStar.C152_final_values",
    "Verif.EndStar.C152_final_values_own",
    "Verif.EndStar.C152_final_values_range",
    "Verif.EndStar.C152_end",
    "Verif.EndStar.C152_outside",
    "Verif.EndStar.C152_surface",
    "Verif.EndStar.C152_other_columns_violated",
    "Verif.EndStar.C152_surface_violated"
   ],
   "note": "Proved: C152_profile, C152_profile_own, C152_range, C152_fractions, C152_mass, C152_outwards, C152_final_values(_own, _range), C152_end, C152_outside. The mass at the surface agrees with the track only if the tracks have as many rows (C152_surface; C152_surface_violated otherwise, as rows of the longer track are dropped but not its profile). Columns outside the list stay those of one neighbour, so that helium in two columns differs (C152_other_columns_violated)."
  },
  {
   "property": "C153",
   "status": "partial",
   "theorems": [
    "Verif.Cores.C153_common_envelope",
    "Verif.Cores.C153_core_data",
    "Verif.Cores.C153_bare",
    "Verif.Cores.C153_partial_ejection_violated",
    "Verif.Cores.C153_collapse",
    "Verif.Cores.C153_supernova",
    "Verif.Cores.C153_remnant_core",
    "Verif.Cores.C153_remnant_core_violated",
    "Verif.Cores.C153_product",
    "Verif.Cores.C153_merger",
    "Verif.Cores.C153_step",
    "Verif.Cores.C153_evolution_partial",
    "Verif.Cores.C153_known_partial"
   ],
   "note": "Proved by induction over the steps (C153_evolution_partial, C153_known_partial) from one theorem per step (C153_common_envelope, C153_core_data, C153_bare, C153_collapse, C153_supernova, C153_product, C153_merger). Values of tracks are data assumed to be nested, stars on the main sequence have no helium core. The code violates it in two places: a neutron star or black hole that is not taken from an interpolated model keeps the carbon-oxygen core of the star, which may be heavier than itself (C153_remnant_core, C153_remnant_core_violated), and partial ejection before a merger reduces the mass but not the helium core (C153_partial_ejection_violated)."
  },
  {
   "property": "C154",
   "status": "proved",
   "theorems": [
    "Verif.Metal.C154_common_envelope",
    "Verif.Metal.C154_collapse",
    "Verif.Metal.C154_supernova",
    "Verif.Metal.C154_forgotten_violated",
    "Verif.Metal.C154_product",
    "Verif.Metal.C154_merger",
    "Verif.Metal.C154_step",
    "Verif.Metal.C154_evolution",
    "Verif.Metal.C154_swapped"
   ],
   "note": "C154_evolution by induction over the steps from C154_step; per step C154_common_envelope, C154_collapse, C154_supernova, C154_product, C154_merger. That the metallicity survives a collapse is not part of the statement: it is forgotten for white dwarfs (C154_forgotten_violated) and with interpolated models (C34_interpolated). The product of a merger can have the metallicity of the second star (C154_swapped)."
  },
  {
   "property": "C155",
   "status": "partial",
   "theorems": [
    "Verif.Fracs.C155_common_envelope",
    "Verif.Fracs.C155_surface",
    "Verif.Fracs.C155_stripped",
    "Verif.Fracs.C155_collapse",
    "Verif.Fracs.C155_supernova",
    "Verif.Fracs.C155_product",
    "Verif.Fracs.C155_heavy_core_violated",
    "Verif.Fracs.C155_merger",
    "Verif.Fracs.C155_step",
    "Verif.Fracs.C155_evolution"
   ],
   "note": "Proved by induction over the steps (C155_evolution) from one theorem per step (C155_common_envelope, C155_surface, C155_stripped, C155_collapse, C155_supernova, C155_product, C155_merger, C155_step). Values of tracks are data assumed to be fractions; a star that enters a common envelope has at most 49 times solar metallicity; stars that merge have nested cores, which C153 shows except for the two cases named there. Without nested cores the merger step computes abundances below zero (C155_heavy_core_violated)."
  },
  {
   "property": "C156",
   "status": "partial",
   "theorems": [
    "Verif.Closing.C156_ready",
    "Verif.Closing.C156_tracks",
    "Verif.Closing.C156_finals",
    "Verif.Closing.C156_profiles_partial",
    "Verif.Closing.C156_profiles_closed_violated",
    "Verif.Closing.C156_star_violated",
    "Verif.Closing.C156_star",
    "Verif.Closing.C156_unknown",
    "Verif.Closing.C156_simulation",
    "Verif.Closing.C156_reuse_violated",
    "Verif.Closing.C156_reuse_stripped_violated",
    "Verif.Closing.C156_shared",
    "Verif.Closing.C156_pickle_violated",
    "Verif.Closing.C156_pickled_star_violated"
   ],
   "note": "Proved by induction over the uses of a grid (C156_ready, C156_tracks, C156_finals, C156_profiles_partial, C156_star, C156_unknown) and for simulations (C156_simulation, C156_shared). Violated: get_profile reads the profile itself from the file, so after closing every star in the range of the grid raises IOError at the end of its life (C156_profiles_closed_violated, C156_star_violated); a matcher made after closing gets the closed grids of a metallicity used before (C156_reuse_violated, C156_reuse_stripped_violated); __getstate__ changes the population itself, which loses its communicator and has its grids closed (C156_pickle_violated, C156_pickled_star_violated)."
  },
  {
   "property": "C157",
   "status": "partial",
   "theorems": [
    "Verif.WarnCat.C157_names",
    "Verif.WarnCat.C157_resolve",
    "Verif.WarnCat.C157_set",
    "Verif.WarnCat.C157_set_condition",
    "Verif.WarnCat.C157_set_behind",
    "Verif.WarnCat.C157_last",
    "Verif.WarnCat.C157_others",
    "Verif.WarnCat.C157_silence",
    "Verif.WarnCat.C157_misspelt_violated",
    "Verif.WarnCat.C157_not_counted",
    "Verif.WarnCat.C157_issue",
    "Verif.WarnCat.C157_type_error",
    "Verif.WarnCat.C157_braking_violated",
    "Verif.WarnCat.C157_derived",
    "Verif.WarnCat.C157_user"
   ],
   "note": "Proved: C157_names, C157_resolve, C157_set, C157_set_condition, C157_set_behind, C157_last (induction over the settings), C157_others, C157_silence, C157_not_counted (with the registry of C12), C157_issue, C157_type_error. Violated: a name that is no category stands for all of them, so that silencing a misspelt one silences every warning of the package (C157_misspelt_violated); the warning about an unknown mode of magnetic braking passes half of its message as the category and the category as the stack level, and raises a TypeError (C157_braking_violated)."
  },
  {
   "property": "C158",
   "status": "partial",
   "theorems": [
    "Verif.Laws.C158_primary",
    "Verif.Laws.C158_ratio",
    "Verif.Laws.C158_fraction",
    "Verif.Laws.C158_period",
    "Verif.Laws.C158_schemes",
    "Verif.Laws.C158_one_sided",
    "Verif.Laws.C158_draw_ignores",
    "Verif.Laws.C158_own_option_violated",
    "Verif.Laws.C158_default_violated",
    "Verif.Laws.C158_equal_masses_violated",
    "Verif.Laws.C158_limits_violated",
    "Verif.Laws.C158_one_limit",
    "Verif.Laws.C158_separation_exact",
    "Verif.Laws.C158_fraction_table",
    "Verif.Laws.C158_weight_errors"
   ],
   "note": "Proved for the three initial mass functions, flat mass ratios, constant fractions and periods after Sana et al. (2012); schemes of one side only are errors (fractions after Moe, log-normal separations; Chabrier, power laws). Violations with witnesses: options of one initial mass function and limits q_min/q_max change the weights and not the draws; without a named initial mass function the draws follow Salpeter and the weights are flat; for 'q=1' the weights are those of mass ratios spread evenly over (0,1]. Separations: see C55. Not modelled: the maximum of the curve in rejection sampling is estimated from 50000 points; the broken line of the table is compared with trapezoids below the density, not with the density itself."
  },
  {
   "property": "C159",
   "status": "partial",
   "theorems": [
    "Verif.VhDiagram.C159_detailed",
    "Verif.VhDiagram.C159_simplified",
    "Verif.VhDiagram.C159_reduced_partial",
    "Verif.VhDiagram.C159_reduced_violated",
    "Verif.VhDiagram.C159_ends",
    "Verif.VhDiagram.C159_rows_shown",
    "Verif.VhDiagram.C159_lines",
    "Verif.VhDiagram.C159_lost_violated",
    "Verif.VhDiagram.C159_redirect_violated",
    "Verif.VhDiagram.C159_picture_partial",
    "Verif.VhDiagram.C159_picture_violated",
    "Verif.VhDiagram.C159_star_file",
    "Verif.VhDiagram.C159_star_pictures",
    "Verif.VhDiagram.C159_event_pictures",
    "Verif.VhDiagram.C159_distance",
    "Verif.VhDiagram.C159_distance_violated",
    "Verif.VhDiagram.C159_distance_small",
    "Verif.VhDiagram.C159_diagram",
    "Verif.VhDiagram.C159_frequency_violated",
    "Verif.VhDiagram.C159_event_names"
   ],
   "note": "Covering, order, ends, lines, table of delivered pictures and distances proved for all histories. Violations with witnesses: a row without event (every phase without one) makes the reduced diagram fail; events named redirect_from_... are not skipped in simplified diagrams because only the exact text 'redirect' is; the rows inside a group, e.g. a common envelope, appear nowhere; the picture of the state after a combination is never used because both file names are built from the state before; a widest orbit of exactly one solar radius makes all distances undefined; default frequencies shown side by side add up to 1 per cent. Not modelled: drawing itself, columns of numbers, fonts."
  },
  {
   "property": "C160",
   "status": "partial",
   "theorems": [
    "Verif.VhTree.C160_sorted",
    "Verif.VhTree.C160_tree",
    "Verif.VhTree.C160_frequency",
    "Verif.VhTree.C160_level",
    "Verif.VhTree.C160_divided",
    "Verif.VhTree.C160_paint_violated",
    "Verif.VhTree.C160_keys",
    "Verif.VhTree.C160_histories"
   ],
   "note": "Entries, frequencies, connections, sums per line and division below an entry proved for all lists. Violation: binaries whose first pictures differ, for instance a binary and a star born single, cannot be drawn: every first entry adds an edge without parent and only the first edge of the list is left out, so drawing fails with a type error exactly then. Not modelled: texts and positions on the screen; blanks of the table are the places without an entry."
  },
  {
   "property": "C161",
   "status": "partial",
   "theorems": [
    "Verif.Recoil.C161_other",
    "Verif.Recoil.C161_other_runs",
    "Verif.Recoil.C161_history",
    "Verif.Recoil.C161_quiet",
    "Verif.Recoil.C161_velocity",
    "Verif.Recoil.C161_alone_violated",
    "Verif.Recoil.C161_sum_violated",
    "Verif.Recoil.C161_known",
    "Verif.Recoil.C161_combined",
    "Verif.Recoil.C161_first_tilt",
    "Verif.Recoil.C161_second_tilt",
    "Verif.Recoil.C161_kicks"
   ],
   "note": "Violated by the code: velocities of two supernovae do not add up, the second replaces the first (C161_sum_violated); a star without a companion and a merger product get a kick but no velocity, and lose the velocity they had (C161_alone_violated). Tilts, anomaly, kicks and the history of the velocity are proved for all evolutions."
  },
  {
   "property": "C162",
   "status": "partial",
   "theorems": [
    "Verif.Shells.C162_expansion",
    "Verif.Shells.C162_positive",
    "Verif.Shells.C162_additive",
    "Verif.Shells.C162_refused",
    "Verif.Shells.C162_volume_bounds",
    "Verif.Shells.C162_prompt",
    "Verif.Shells.C162_steady",
    "Verif.Shells.C162_limit",
    "Verif.Shells.C162_comoving_violated",
    "Verif.Shells.C162_radiation_violated"
   ],
   "note": "Violated by the code: the value is not the comoving volume its documentation names but smaller by a factor between 1/(1+b) and 1/(1+a) (C162_comoving_violated; the factor is the one the rate density needs, C162_steady), and it leaves out the radiation that is in the ages and distances used, so it is too large (C162_radiation_violated). The normalisation is proved for ages that follow the expansion rate of the integrand, real arithmetic and an exact interpolator of redshifts."
  },
  {
   "property": "C163",
   "status": "partial",
   "theorems": [
    "Verif.Overflow.C163_start",
    "Verif.Overflow.C163_recorded",
    "Verif.Overflow.C163_quiet",
    "Verif.Overflow.C163_no_collision",
    "Verif.Overflow.C163_found",
    "Verif.Overflow.C163_crossing",
    "Verif.Overflow.C163_mirror",
    "Verif.Overflow.C163_eccentric",
    "Verif.Overflow.C163_missed_violated",
    "Verif.Overflow.C163_above_violated",
    "Verif.Overflow.C163_nan_violated",
    "Verif.TrackEnd.C163_end",
    "Verif.TrackEnd.C163_end_without_overflow",
    "Verif.TrackEnd.C163_ages"
   ],
   "note": "Violated by the code: the statement holds at the integration steps; overflow that begins and ends within one step is not found, however large (C163_missed_violated); a star beyond its lobe from the start is never found (two compact objects, C163_above_violated), nor any overflow if masses or separation are invalid (C163_nan_violated). The search for events of solve_ivp is taken from its documentation."
  },
  {
   "property": "C164",
   "status": "partial",
   "theorems": [
    "Verif.Recomb.C164_ions",
    "Verif.Recomb.C164_range",
    "Verif.Recomb.C164_monotone",
    "Verif.Recomb.C164_profile",
    "Verif.Recomb.C164_missing",
    "Verif.Recomb.C164_errors",
    "Verif.Recomb.C164_again",
    "Verif.Recomb.C164_changes_violated",
    "Verif.Recomb.C164_negative_violated",
    "Verif.Recomb.C164_empty",
    "Verif.Recomb.C164_molecules",
    "Verif.Recomb.C164_rounding",
    "Verif.Recomb.C164_molecule_energy"
   ],
   "note": "Violated by the code: neutral fractions above one are changed in the profile of the caller (C164_changes_violated), and a cell whose mean charge is too small for its neutral fraction has a negative energy without an error as long as one cell is good (C164_negative_violated: the check uses any, not all). For profiles of real mixtures all of it is proved."
  },
  {
   "property": "C165",
   "status": "partial",
   "theorems": [
    "Verif.Figures.C165_mesh",
    "Verif.Figures.C165_empty",
    "Verif.Figures.C165_axis",
    "Verif.Figures.C165_slices",
    "Verif.Figures.C165_linear_violated",
    "Verif.Figures.C165_short_axis",
    "Verif.Figures.C165_numbers",
    "Verif.Figures.C165_numbers_violated",
    "Verif.Figures.C165_colours",
    "Verif.Figures.C165_short",
    "Verif.Figures.C165_short_violated",
    "Verif.Figures.C165_percent",
    "Verif.Figures.C165_relative",
    "Verif.Figures.C165_range_violated",
    "Verif.Figures.C165_error_files",
    "Verif.Figures.C165_panels_partial",
    "Verif.Figures.C165_panels_violated",
    "Verif.Figures.C165_files_partial",
    "Verif.Figures.C165_files_violated",
    "Verif.Figures.C165_train_violated"
   ],
   "note": "Violated by the code: on axes with a linear scale all slices show all runs and the same points (C165_linear_violated); errors relative to the range are never computed, their figure shows absolute errors (C165_range_violated); the summary needs twenty quantities and leaves out those after full tens, the ones with the largest errors (C165_panels_violated); the confusion matrix of a model is overwritten by the next with the same classification (C165_files_violated); labels of states are cut until they are the same (C165_short_violated); train_and_assess always fails with a TypeError (C165_train_violated)."
  },
  {
   "property": "C166",
   "status": "partial",
   "theorems": [
    "Verif.Sequence.C166_names",
    "Verif.Sequence.C166_files",
    "Verif.Sequence.C166_unchanged",
    "Verif.Sequence.C166_success",
    "Verif.Sequence.C166_refused",
    "Verif.Sequence.C166_scores",
    "Verif.Sequence.C166_lost_violated",
    "Verif.Sequence.C166_asked",
    "Verif.Sequence.C166_stopped_violated",
    "Verif.Sequence.C166_replaced_violated"
   ],
   "note": "Proved: names (C166_names), contents (C166_files), nothing else changed (C166_unchanged), exact success (C166_success), refusal (C166_refused), scores (C166_scores), options (C166_asked). Violated by the code: a failure of sampling stops all later sequences (C166_stopped_violated); a failure of the scores of one iteration loses those of all iterations (C166_lost_violated); a run with the same name, drawn from 89999 numbers by default, replaces files silently (C166_replaced_violated). Sampling and scores are parameters."
  },
  {
   "property": "C167",
   "status": "partial",
   "theorems": [
    "Verif.PopAgain.C167_first",
    "Verif.PopAgain.C167_memory",
    "Verif.PopAgain.C167_mixed",
    "Verif.PopAgain.C167_shadowed_violated",
    "Verif.PopAgain.C167_lost_violated",
    "Verif.PopAgain.C167_tables",
    "Verif.PopAgain.C167_optimised",
    "Verif.PopAgain.C167_repeated",
    "Verif.PopAgain.C167_repeated_tables",
    "Verif.PopAgain.C167_second_check_violated",
    "Verif.PopAgain.C167_third_check",
    "Verif.PopAgain.C167_third_check_violated"
   ],
   "note": "Proved: any number of memory-optimised calls each write exactly their own binaries and leave the manager empty; calls in memory accumulate. Violated otherwise: with breakdown the file of each call also holds all earlier calls; after a call in memory a call with breakdown saves the old binaries only, and with breakdown and memory optimisation the new binaries are lost altogether; a memory-optimised call writes the old binaries first. In the validation script the second check compares the first run with itself and always passes; the third compares the second run with the first and third joined and fails for equal populations."
  },
  {
   "property": "C168",
   "status": "partial",
   "theorems": [
    "Verif.Validate.C168_suite_success",
    "Verif.Validate.C168_suite_keeps",
    "Verif.Validate.C168_first_failure_violated",
    "Verif.Validate.C168_generated_partial",
    "Verif.Validate.C168_others",
    "Verif.Validate.C168_failed_suite",
    "Verif.Validate.C168_incomplete_violated",
    "Verif.Validate.C168_never_listed",
    "Verif.Validate.C168_verdict",
    "Verif.Validate.C168_summary",
    "Verif.Validate.C168_skip_violated",
    "Verif.Validate.C168_skip_set",
    "Verif.Validate.C168_all_or_nothing_violated",
    "Verif.Validate.C168_stale_violated",
    "Verif.Validate.C168_promoted_violated",
    "Verif.Validate.C168_empty_promotion_violated",
    "Verif.Validate.C168_names_violated",
    "Verif.Validate.C168_names"
   ],
   "note": "Proved: exact success of the suite (C168_suite_success) and of the validation (C168_verdict), contents of a generated baseline (C168_generated_partial), nothing else touched (C168_others, C168_suite_keeps, C168_failed_suite), summary (C168_summary). Violated by the scripts: under `set -e` with `pipefail` the first failing metallicity ends the suite (C168_first_failure_violated) and nothing is compared (C168_all_or_nothing_violated); the check for completeness uses a Python variable that does not exist, so an incomplete result becomes the baseline, the script stops with the old record, and the list is never written (C168_incomplete_violated, C168_never_listed); a missing result of another than the last metallicity is not noticed and an old file is taken (C168_stale_violated); --skip-evolve always stops at an unset variable (C168_skip_violated); promoting can record a wrong commit or replace the record with an empty one (C168_promoted_violated, C168_empty_promotion_violated); branches fix/a and fix_a share files (C168_names_violated)."
  },
  {
   "property": "C169",
   "status": "partial",
   "theorems": [
    "Verif.Version.C169_pieces",
    "Verif.Version.C169_untagged",
    "Verif.Version.C169_unparsed",
    "Verif.Version.C169_long",
    "Verif.Version.C169_release",
    "Verif.Version.C169_injective_partial",
    "Verif.Version.C169_plus_violated",
    "Verif.Version.C169_one_plus",
    "Verif.Version.C169_pre_violated",
    "Verif.Version.C169_old_violated",
    "Verif.Version.C169_describe_style",
    "Verif.Version.C169_bare_violated",
    "Verif.Version.C169_checkout",
    "Verif.Version.C169_total_partial",
    "Verif.Version.C169_no_git",
    "Verif.Version.C169_date_violated",
    "Verif.Version.C169_count_violated",
    "Verif.Version.C169_archive",
    "Verif.Version.C169_order_violated",
    "Verif.Version.C169_branch_violated",
    "Verif.Version.C169_style_names",
    "Verif.Version.C169_style_refused",
    "Verif.Version.C169_styles_release",
    "Verif.Version.C169_styles_after",
    "Verif.Version.C169_styles_untagged",
    "Verif.Version.C169_directory",
    "Verif.Version.C169_directory_far",
    "Verif.Version.C169_iso",
    "Verif.Version.C169_keys_violated",
    "Verif.Version.C169_no_keys"
   ],
   "note": "Proved: exact parsing (C169_pieces, C169_untagged, C169_unparsed, groups_iff), inverse of the long style (C169_long), releases (C169_release), injectivity of the default style for tags without `+` (C169_injective_partial), one local part (C169_one_plus), archives (C169_archive), no git (C169_no_git), totality when the last commands work (C169_total_partial). Violated by the code: a tag with `+` can make two checkouts have one version (C169_plus_violated); the styles pep440-pre and pep440-old leave out the mark or the commit (C169_pre_violated, C169_old_violated); a tag equal to the prefix is called untagged (C169_bare_violated); a failing last command ends with AttributeError or TypeError instead of the next source (C169_date_violated, C169_count_violated); of two releases on one commit the one first in text order is named (C169_order_violated); in an archive without tags a branch is taken for a release (C169_branch_violated). The text of all styles is stated case by case (C169_style_names, C169_styles_release, C169_styles_after, C169_styles_untagged), and so are the date (C169_iso) and the directory as source (C169_directory, C169_directory_far); incomplete keywords end with KeyError (C169_keys_violated)."
  },
  {
   "property": "C170",
   "status": "partial",
   "theorems": [
    "Verif.Transfer.C170_flag_row",
    "Verif.Transfer.C170_cut_row",
    "Verif.Transfer.C170_detached",
    "Verif.Transfer.C170_flag",
    "Verif.Transfer.C170_ignored_partial",
    "Verif.Transfer.C170_threshold_violated",
    "Verif.Transfer.C170_same_flag",
    "Verif.Transfer.C170_begins",
    "Verif.Transfer.C170_table_partial",
    "Verif.Transfer.C170_table_violated"
   ],
   "note": "Proved: the flag finds a donor exactly in rows with mass transfer (C170_flag_row, C170_flag), invariance of the flag under the cut (C170_same_flag, all histories), detached exactly without transfer (C170_detached), ignored exactly if no_RLOF for numbers off the thresholds (C170_ignored_partial, C170_cut_row), kept histories begin with transfer (C170_begins), table against flag (C170_table_partial). Violated by the code: exactly at a threshold the cut (>=) keeps a run that the flag (>) calls no_RLOF (C170_threshold_violated); the table looks at the rate alone, so overflow at a low rate is no_interaction there and a case of mass transfer in the flag (C170_table_violated)."
  },
  {
   "property": "C171",
   "status": "partial",
   "theorems": [
    "Verif.PopKw.C171_options",
    "Verif.PopKw.C171_metallicity",
    "Verif.PopKw.C171_row",
    "Verif.PopKw.C171_evolve",
    "Verif.PopKw.C171_drawn_partial",
    "Verif.PopKw.C171_names",
    "Verif.PopKw.C171_again_partial",
    "Verif.PopKw.C171_misspelt_violated",
    "Verif.PopKw.C171_lognormal_violated",
    "Verif.PopKw.C171_file_violated",
    "Verif.PopKw.C171_second_population_violated",
    "Verif.PopKw.C171_defaults_violated",
    "Verif.PopKw.C171_index_violated",
    "Verif.PopKw.C171_refused",
    "Verif.PopKw.C171_refused_kind",
    "Verif.PopKw.C171_chosen",
    "Verif.PopKw.C171_chosen_type",
    "Verif.PopKw.C171_given",
    "Verif.PopKw.C171_direct",
    "Verif.PopKw.C171_documented",
    "Verif.PopKw.C171_joint",
    "Verif.PopKw.C171_scheme"
   ],
   "note": "Proved for all options: user value or default (C171_options, C171_metallicity), the row of parameters is always complete (C171_row), values used are the saved ones (C171_drawn_partial, unless an earlier population left its Moe generator), options to evolve do not reach the samplers (C171_evolve), the options that matter are the saved ones and ten others (C171_names), a population from the saved row draws alike if none of the ten is given (C171_again_partial), which constructions are refused (C171_refused). Violated by the code: means and widths of lognormal separations are not saved (C171_lognormal_violated), nor a file of samples (C171_file_violated); the Moe generator is made once per program with the limits of the first population (C171_second_population_violated); the samplers called directly have other defaults (C171_defaults_violated); two documented defaults are misspelt and read by nobody (C171_misspelt_violated); a metallicity given by itself fails with an index outside the list (C171_index_violated)."
  },
  {
   "property": "C172",
   "status": "partial",
   "theorems": [
    "Verif.Consts.C172_exact",
    "Verif.Consts.C172_conversions_partial",
    "Verif.Consts.C172_conversions_violated",
    "Verif.Consts.C172_year",
    "Verif.Consts.C172_physics",
    "Verif.Consts.C172_zams",
    "Verif.Consts.C172_metallicities",
    "Verif.Consts.C172_astronomy",
    "Verif.Consts.C172_rest_energy"
   ],
   "note": "Proved: exact relations (C172_exact), agreement to a few parts in 100000 of the other chains (C172_conversions_partial), solar and atomic constants (C172_physics), the table (C172_zams, C172_metallicities). Violated: year, astronomical unit, light year and Boltzmann constant are not exactly the product of the constants they stand for, so for every non-zero value the two chains give different results (C172_conversions_violated); a year is more than 549 s longer when it is not counted in days (C172_year)."
  },
  {
   "property": "C173",
   "status": "partial",
   "theorems": [
    "Verif.HistFile.C173_read",
    "Verif.HistFile.C173_refused",
    "Verif.HistFile.C173_comments",
    "Verif.HistFile.C173_third_line",
    "Verif.HistFile.C173_round_trip",
    "Verif.HistFile.C173_sampled",
    "Verif.HistFile.C173_unchecked_violated"
   ],
   "note": "Proved: exact acceptance (C173_read), refusal of all others (C173_refused, C173_third_line), comments (C173_comments), reading back (C173_round_trip), samples (C173_sampled, for counts not negative and rising edges). The parser of numbers of one line is a parameter. Violated: the reader does not check edges or counts; falling edges are accepted by the sampler too (C173_unchecked_violated)."
  },
  {
   "property": "C174",
   "status": "partial",
   "theorems": [
    "Verif.PlotSym.C174_stable",
    "Verif.PlotSym.C174_unstable",
    "Verif.PlotSym.C174_failed",
    "Verif.PlotSym.C174_failed_only",
    "Verif.PlotSym.C174_initial_partial",
    "Verif.PlotSym.C174_initial_violated",
    "Verif.PlotSym.C174_unknown_violated",
    "Verif.PlotSym.C174_codes",
    "Verif.PlotSym.C174_star",
    "Verif.PlotSym.C174_debug",
    "Verif.PlotSym.C174_classes_partial",
    "Verif.PlotSym.C174_classes_violated",
    "Verif.PlotSym.C174_classes_differ",
    "Verif.PlotSym.C174_stars",
    "Verif.PlotSym.C174_curves",
    "Verif.PlotSym.C174_stars_violated",
    "Verif.PlotSym.C174_legend",
    "Verif.PlotSym.C174_faithful",
    "Verif.PlotSym.C174_consistent",
    "Verif.PlotSym.C174_legend_violated",
    "Verif.PlotSym.C174_ends_partial",
    "Verif.PlotSym.C174_widths",
    "Verif.PlotSym.C174_widths_rest",
    "Verif.PlotSym.C174_stage",
    "Verif.PlotSym.C174_surface",
    "Verif.PlotSym.C174_names"
   ],
   "note": "Proved for all flags: stable, unstable and failed runs (C174_stable, C174_unstable, C174_failed, C174_failed_only), overflow at the start if the first flag tells it (C174_initial_partial), the star by the marker (C174_star), tables agreeing (C174_debug, C174_stars, C174_curves, C174_codes), the legend for all lists (C174_legend, C174_faithful, C174_consistent, C174_ends_partial). Violated: overflow at the start known by the second flag only (C174_initial_violated); five codes with the text of a class they are not given (C174_unknown_violated); the class of reverse mass transfer has no symbol (C174_classes_violated); one state is missing in the table of the first star (C174_stars_violated); the legend of the first flag shows only one of square and circle (C174_legend_violated). Flags not in the table are C140."
  },
  {
   "property": "C175",
   "status": "partial",
   "theorems": [
    "Verif.EmptyTab.C175_shape",
    "Verif.EmptyTab.C175_numbers",
    "Verif.EmptyTab.C175_texts",
    "Verif.EmptyTab.C175_nothing_left_partial",
    "Verif.EmptyTab.C175_kept",
    "Verif.EmptyTab.C175_twice",
    "Verif.EmptyTab.C175_empty_violated",
    "Verif.EmptyTab.C175_not_empty"
   ],
   "note": "Proved: shape (C175_shape), numbers and texts (C175_numbers, C175_texts), nothing left (C175_nothing_left_partial: for columns of 64-bit numbers and fixed texts), other columns kept (C175_kept), idempotence (C175_twice). Violated: the documentation promises empty texts and undefined numbers; texts become the text of NaN, and 32-bit numbers keep their values (C175_empty_violated, C175_not_empty)."
  }
 ]
}