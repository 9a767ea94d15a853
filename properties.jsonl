{"id": "C01", "title": "Default flow chart routes to documented steps only and is deterministic", "statement": "The default flow chart is exactly the documented priority list: it assigns at most one step to each (star 1 state, star 2 state, binary state, event); each step is only assigned to binaries it can treat (step_CO_* get exactly one compact object, step_dco two, step_HMS_HMS two H-burning stars at birth, step_CE a non-compact donor, step_SN a star that can collapse, step_end only finished binaries); events `maxtime`, `MaxTime_exceeded`, `CO_contact` and pairs of a compact object or massless remnant with a massless remnant always go to `step_end`; a CC1/CC2 event of a star that can collapse always goes to `step_SN` (unless the binary is `initial_RLOF`); and no state declared undefined has an entry.", "quantifier": "every tuple in STAR_STATES_ALL x STAR_STATES_ALL x BINARY_STATES_ALL x BINARY_EVENTS_ALL (20*20*8*22 keys)", "why_tests_cant": "The table is produced by a dozen nested loops that overwrite each other; tests sample a handful of keys while an ordering mistake affects whole regions of 70 400 keys.", "anchors": ["posydon/binary_evol/flow_chart.py: POSYDON_FLOW_CHART, flow_chart"]}
{"id": "C02", "title": "Flow chart is symmetric under exchanging the two stars", "statement": "Relabelling star 1 <-> star 2 (and RLO1<->RLO2, CC1<->CC2, oRLO1<->oRLO2, oCE1<->oCE2, oDoubleCE1<->oDoubleCE2, oMerging1<->oMerging2) never changes which step a binary is sent to.", "quantifier": "every key of the default flow chart", "why_tests_cant": "An asymmetric loop shows up only for particular state pairs; the physical symmetry must hold for the whole table.", "anchors": ["posydon/binary_evol/flow_chart.py: POSYDON_FLOW_CHART"]}
{"id": "C03", "title": "User overrides of the flow chart are honoured", "statement": "`flow_chart(FLOW_CHART, CHANGE_FLOW_CHART)` returns a chart in which every key of CHANGE_FLOW_CHART maps to the requested step and every other key keeps its original step.", "quantifier": "every base chart and every override dictionary", "why_tests_cant": "Overrides for keys that are absent from the base chart are silently dropped; a test that overrides an existing key never sees it.", "anchors": ["posydon/binary_evol/flow_chart.py: flow_chart"]}
{"id": "C04", "title": "Evolution of a binary terminates within the step limit", "statement": "`BinaryStar.evolve()` always returns or raises after a bounded number of steps: it performs at most max_n_steps_per_binary + 1 steps whatever the steps do, it stops exactly when the event is END/FAILED or an end event/state is reached, and it raises RuntimeError when the limit is passed.", "quantifier": "every behaviour of the evolutionary steps (arbitrary state transformers, possibly raising) and every limit", "why_tests_cant": "The steps are arbitrary plug-ins; a cycle among them can only be excluded for all plug-ins by proof.", "anchors": ["posydon/binary_evol/binarystar.py: BinaryStar.evolve, run_step", "posydon/binary_evol/simulationproperties.py: SimulationProperties.max_n_steps_per_binary"]}
{"id": "C05", "title": "The configured step limit is the one that is used", "statement": "A `max_n_steps_per_binary` value given to SimulationProperties is the limit enforced by `evolve()`.", "quantifier": "every keyword dictionary given to SimulationProperties", "why_tests_cant": "Depends on how keyword names are filtered; a test with the default value 100 cannot notice.", "anchors": ["posydon/binary_evol/simulationproperties.py: SimulationProperties.__init__", "posydon/binary_evol/binarystar.py: evolve"]}
{"id": "C06", "title": "Histories stay aligned and grow by exactly one row per recorded step", "statement": "After any sequence of steps, all history columns of a binary and of both stars have equal length, row k holds the values the object had after the k-th recorded step, and with history_verbose=False exactly the steps whose event contains `redirect` are not recorded.", "quantifier": "every sequence of steps and attribute values", "why_tests_cant": "History columns are separate lists; misalignment arises only along particular step sequences.", "anchors": ["posydon/binary_evol/binarystar.py: append_state, run_step", "posydon/binary_evol/singlestar.py: append_state"]}
{"id": "C07", "title": "restore(i) is the inverse of appending states", "statement": "`restore(i)` returns the binary to the state it had at row i and truncates every history to rows 0..i, for every valid Python index i (including negative ones).", "quantifier": "every history and every index -n <= i < n", "why_tests_cant": "Unit tests use i=0 or a positive index; the negative (default-like) index -1 takes a different slicing path.", "anchors": ["posydon/binary_evol/binarystar.py: restore", "posydon/binary_evol/singlestar.py: restore"]}
{"id": "C08", "title": "Relabelling the two stars is an involution that touches every star-specific label", "statement": "`flip_stars` exchanges the two stars and every 1/2-labelled state, event and column of the binary (current and history), and applying it twice gives back the original binary.", "quantifier": "every binary with every event and state value", "why_tests_cant": "Only the labels exercised in a test are checked; unhandled event names silently keep the wrong star number.", "anchors": ["posydon/utils/common_functions.py: flip_stars"]}
{"id": "C09", "title": "Star classification always yields a state known to the flow chart", "statement": "`check_state_of_star`/`infer_star_state` return a state that belongs to the flow chart's list of star states for all physical inputs, and the classification thresholds partition the input space (exactly one state for each input).", "quantifier": "every combination of mass, abundances and luminosities (including missing values)", "why_tests_cant": "The state string is assembled from independent pieces; unusual combinations form names that no table contains.", "anchors": ["posydon/utils/common_functions.py: infer_star_state, check_state_of_star", "posydon/binary_evol/flow_chart.py: STAR_STATES_ALL"]}
{"id": "C10", "title": "Mass-transfer case inference and its textual history are faithful", "statement": "`infer_mass_transfer_case` reports no mass transfer exactly when the overflow and rate thresholds are both not exceeded, and `cumulative_mass_transfer_numeric` keeps every change of case in order, never two equal consecutive cases, and drops nothing but repetitions.", "quantifier": "every list of mass-transfer cases", "why_tests_cant": "Order/repetition properties over sequences of arbitrary length.", "anchors": ["posydon/utils/common_functions.py: infer_mass_transfer_case, cumulative_mass_transfer_numeric, cumulative_mass_transfer_string, cumulative_mass_transfer_flag"]}
{"id": "C11", "title": "Reason-to-ignore keeps the highest-priority reason", "statement": "After any sequence of assignments to `IgnoreReason.reason`, the stored flag is the highest-priority reason among those assigned since the last clearing, independent of order; unknown reasons are rejected without changing the state.", "quantifier": "every sequence of assignments", "why_tests_cant": "Order-independence over all permutations and lengths.", "anchors": ["posydon/utils/ignorereason.py: IgnoreReason"]}
{"id": "C12", "title": "Warnings are neither lost nor duplicated", "statement": "Every POSYDON warning raised while a catching context is active is either recorded in order, or filtered because its (category, file, line) was seen before, or issued; after leaving the context, with recording on, the recorded list is exactly the sequence raised inside it, and nested contexts do not disturb the outer one.", "quantifier": "every sequence of warnings, filter actions, context nestings", "why_tests_cant": "Nesting and ordering interact through module-global state; only short unnested scenarios are tested.", "anchors": ["posydon/utils/posydonwarning.py: _Caught_POSYDON_Warnings, Catch_POSYDON_Warnings, _apply_POSYDON_filter"]}
{"id": "C13", "title": "Scrubbed tracks are strictly increasing and aligned", "statement": "`scrub` returns tables whose age and model columns are strictly increasing, whose model-number sequences are identical across tables, whose rows are all original rows in original order, and it keeps the last row of a single table.", "quantifier": "every list of tables, model and age sequences", "why_tests_cant": "Restarts can jump back arbitrarily and repeatedly; the property is over all sequences.", "anchors": ["posydon/grids/scrubbing.py: scrub"]}
{"id": "C14", "title": "Trimming to mass transfer starts at the first overflow and re-zeroes time", "statement": "`keep_after_RLO` returns None iff no row shows Roche-lobe overflow or a transfer rate above threshold, otherwise the returned table is the suffix from the first such row, with age starting at 0 and all age differences preserved.", "quantifier": "every binary history and star histories", "why_tests_cant": "First-occurrence and difference preservation over arbitrary tables.", "anchors": ["posydon/grids/scrubbing.py: keep_after_RLO"]}
{"id": "C15", "title": "Trimming at central depletion keeps the track up to and including depletion", "statement": "`keep_till_central_abundance_He_C` returns a prefix of the track that contains the first row at which a star is He/C depleted, and never an empty track for a non-empty input.", "quantifier": "every history table", "why_tests_cant": "Boundary behaviour when depletion happens in the last row is not exercised.", "anchors": ["posydon/grids/scrubbing.py: keep_till_central_abundance_He_C"]}
{"id": "C16", "title": "Track downsampling respects the error bound", "statement": "For each point dropped by `TrackDownsampler.find_downsample(max_err)`, linear interpolation between the neighbouring kept points is within max_err in every column; first and last points are kept; `max_interval` gaps are respected whenever splitting is possible; the kept indices are increasing and in range.", "quantifier": "every track of any length/dimension, every tolerance", "why_tests_cant": "A recursive algorithm's guarantee over all tracks.", "anchors": ["posydon/grids/downsampling.py: TrackDownsampler.find_downsample, rescale_from_0_to_1"]}
{"id": "C17", "title": "Termination flags are classified into exactly one interpolation class with documented priority", "statement": "`infer_interpolation_class` returns exactly one of the documented classes; initial overflow dominates, a non-converged run is never reported as stable/unstable mass transfer, and TF1 flag pools that define stable/unstable/initial-overflow/error are disjoint.", "quantifier": "every pair of flags", "why_tests_cant": "The pools are hand-maintained lists; disjointness and priority must hold for the entire vocabulary.", "anchors": ["posydon/grids/termination_flags.py: infer_interpolation_class", "posydon/visualization/combine_TF.py: TF1_POOL_*"]}
{"id": "C18", "title": "Initial-overflow boundary keeps one largest period per mass pair", "statement": "`get_detected_initial_RLO` returns at most one entry for each mass pair (up to tolerance), and for each detected initially overflowing model the returned entry for its mass pair has a period at least as large.", "quantifier": "every grid", "why_tests_cant": "Tolerance-based matching is not transitive; problems need many close models.", "anchors": ["posydon/grids/termination_flags.py: get_detected_initial_RLO, get_nearest_known_initial_RLO"]}
{"id": "C19", "title": "A population run evolves every binary exactly once across ranks and batches", "statement": "For any number of binaries, ranks, and dump rate, the index blocks of the ranks partition 0..N-1 (in order, sizes differing by at most one), every binary of a block is evolved and written exactly once in some batch, in order, and none remains in memory when batches are dumped.", "quantifier": "every N, rank count, dump rate", "why_tests_cant": "Off-by-one in remainder batches depends on N mod dump_rate.", "anchors": ["posydon/popsyn/binarypopulation.py: BinaryPopulation.evolve, _safe_evolve"]}
{"id": "C20", "title": "Combining temporary files loses no data", "statement": "`combine_saved_files` writes the concatenation of all temporary batches to the final file and removes a temporary file only if its contents have been written.", "quantifier": "every list of files and every pattern of read failures", "why_tests_cant": "Requires crash/failure injection at each file.", "anchors": ["posydon/popsyn/binarypopulation.py: BinaryPopulation.combine_saved_files"]}
{"id": "C21", "title": "Random seeds of parallel jobs/metallicities do not collide", "statement": "Two tasks of a population run that differ in rank, job or metallicity get different seed streams, and `reset_rng` reproduces the same stream.", "quantifier": "every entropy, job id, rank, metallicity index", "why_tests_cant": "Collisions only show up for specific combinations of job ids and metallicities.", "anchors": ["posydon/popsyn/binarypopulation.py: BinaryPopulation.__init__, BinaryGenerator.reset_rng, get_original_rng"]}
{"id": "C22", "title": "The population manager is a faithful container", "statement": "Binaries appended to the manager, removed, or broken down into tables are each represented exactly once: nothing appended disappears except by `remove`/`clear`, and `to_df` contains every binary whether it is still in memory or already broken down.", "quantifier": "every sequence of append/remove/breakdown operations", "why_tests_cant": "The in-memory and table representations interact; only one of them is tested at a time.", "anchors": ["posydon/popsyn/binarypopulation.py: PopulationManager"]}
{"id": "C23", "title": "Samples read from a file are the file rows, cyclically from the requested index", "statement": "`get_samples_from_file(index, number_of_binaries=n)` returns n rows, row j being file row (index + j) mod N, for every column consistently, and it terminates.", "quantifier": "every file length N, index and n", "why_tests_cant": "The table is doubled until long enough; correctness must hold for all N (and N = 0).", "anchors": ["posydon/popsyn/sample_from_file.py: get_samples_from_file, get_kick_samples_from_file"]}
{"id": "C24", "title": "Initial secondary masses and mass ratios are inside the requested limits", "statement": "Independent sampling returns m2 with secondary_mass_min <= m2 <= min(secondary_mass_max, m1), m1 in its requested interval, and never marks a primary as undefined because the system is single.", "quantifier": "every random draw and parameter set", "why_tests_cant": "The draw space is continuous; aliasing of arrays shows up only for one scheme.", "anchors": ["posydon/popsyn/independent_sample.py: generate_independent_samples, generate_secondary_masses"]}
{"id": "C25", "title": "Probability densities integrate to one over their support", "statement": "The pdf of FlatMassRatio, PowerLawMassRatio, ThermalEccentricity, UniformEccentricity, LogUniform, Salpeter and broken power-law IMFs are non-negative, zero outside the support and integrate to 1 over it; the inverse-transform samplers return values inside the support.", "quantifier": "every admissible parameter choice", "why_tests_cant": "Integrals over a continuum of parameters; a missing constant factor passes shape-only tests.", "anchors": ["posydon/popsyn/distributions.py: LogUniform, FlatMassRatio, ThermalEccentricity", "posydon/popsyn/IMFs.py: Salpeter, Kroupa2001"]}
{"id": "C26", "title": "Metallicity-binned star formation is conserved", "statement": "Distributing star formation over metallicity bins from a cumulative distribution gives non-negative fractions whose sum is CDF(Z_max)-CDF(Z_min) (or the bin range), so with normalisation the fractions sum to one.", "quantifier": "every monotone CDF, bins and limits", "why_tests_cant": "Edge handling at both ends for all relative positions of limits and bins.", "anchors": ["posydon/popsyn/star_formation_history.py: SFHBase._distribute_cdf"]}
{"id": "C27", "title": "Selecting binaries by a boolean mask returns exactly the masked rows", "statement": "`population.history[mask]` returns precisely the rows whose mask entry is True, whatever the chunk size.", "quantifier": "every table length, mask, chunk size", "why_tests_cant": "Tables in tests fit in a single chunk.", "anchors": ["posydon/popsyn/synthetic_population.py: History.__getitem__"]}
{"id": "C28", "title": "Extra hooks listed in the ini file are all loaded", "statement": "Every numbered hook in the [extra_hooks] section is loaded, in order.", "quantifier": "every number of hooks and optional keys", "why_tests_cant": "Loop bound depends on the number of keys, not hooks.", "anchors": ["posydon/popsyn/io.py: simprop_kwargs_from_ini"]}
{"id": "C29", "title": "Rate density bins partition the events and channels add up", "statement": "In `calculate_intrinsic_rate_density`, each event with redshift in (z_0, z_n] falls into exactly one bin; summing rate*volume over bins gives the total weight; the per-channel densities sum to the total in each bin; `efficiency` per channel sums to total.", "quantifier": "every weight matrix, redshift edges, channel labelling", "why_tests_cant": "Partition identities over arbitrary tables.", "anchors": ["posydon/popsyn/synthetic_population.py: Rates.calculate_intrinsic_rate_density, TransientPopulation.efficiency"]}
{"id": "C30", "title": "Cosmic weights depend only on the arguments of the call", "statement": "Two successive calls of `calculate_cosmic_weights` with the same arguments yield the same star-formation model; a call without a model uses the documented defaults; every transient event row gets a weight row.", "quantifier": "every sequence of calls and every transient table size", "why_tests_cant": "Requires call sequences and tables with more events than binaries.", "anchors": ["posydon/popsyn/synthetic_population.py: TransientPopulation.calculate_cosmic_weights"]}
{"id": "C31", "title": "Exporting a selection yields unique consecutive indices and consistent tables", "statement": "`export_selection` renumbers the selected binaries with consecutive new indices that do not collide with those already in the target file, the same renumbering in oneline and history, leaving the source population object unchanged.", "quantifier": "every selection, source and target file", "why_tests_cant": "Collisions/side effects need repeated exports.", "anchors": ["posydon/popsyn/synthetic_population.py: Population.export_selection"]}
{"id": "C32", "title": "Remnant mass never exceeds the collapsing mass and the fallback fraction is a fraction", "statement": "For each supported core-collapse prescription with physical core masses (0 < CO core <= He core <= star), the baryonic remnant mass is at most the collapsing mass, 0 <= f_fb <= 1, a result is defined for every core mass, and the gravitational mass satisfies 0 <= m_grav <= m_baryonic with loss at most the neutrino limit.", "quantifier": "every real core mass, He core mass and star mass", "why_tests_cant": "Piecewise formulas with boundaries at 2.5, 3.5, 6, 7, 11 over a continuum.", "anchors": ["posydon/binary_evol/SN/step_SN.py: StepSN.compute_m_rembar, check_SN_type, collapse_star"]}
{"id": "C33", "title": "Post-supernova orbit is consistent with two-body dynamics", "statement": "If the post-kick specific energy is negative the reported eccentricity is in [0,1) and the kick position lies between periastron and apastron of the new orbit; without kick and mass loss the orbit is unchanged; a circular orbit losing more than half of the total mass without kick is disrupted.", "quantifier": "every kick vector, masses, orbit and phase", "why_tests_cant": "Continuous parameter space.", "anchors": ["posydon/binary_evol/SN/step_SN.py: StepSN.orbital_kick"]}
{"id": "C34", "title": "Supernova step treats both stars alike", "statement": "The effect of a core collapse of star 2 is the mirror image of the same collapse of star 1, also when kicks are disabled; the remnant gets a radius.", "quantifier": "every binary", "why_tests_cant": "Mirror symmetry for all binaries.", "anchors": ["posydon/binary_evol/SN/step_SN.py: StepSN.__call__, collapse_star"]}
{"id": "C35", "title": "Merger products conserve mass and mix abundances by mass", "statement": "When two stars merge, the product mass is the sum of the two (times 1 - loss for two main-sequence stars), one star becomes a massless remnant, mixed abundances are the mass-weighted mean of the progenitors' values (hence between them), and each pair of star states either has a defined outcome or raises ModelError.", "quantifier": "every pair of star states, masses and abundances", "why_tests_cant": "Products are built by in-place mutation of one progenitor; ordering errors need value-level reasoning for all inputs.", "anchors": ["posydon/binary_evol/DT/step_merged.py: MergedStep.merged_star_properties, mass_weighted_avg"]}
{"id": "C36", "title": "Common-envelope outcome is consistent with energy balance", "statement": "After a common envelope the orbit shrinks to the separation dictated by the energy balance, donor core never grows, the binary becomes either `merged` with the matching oMerging event, or `detached`; each star's post-CE radius is that star's own core radius; the mass ejected in a merger is between 0 and the envelope mass.", "quantifier": "every donor, companion and efficiency", "why_tests_cant": "Many branches by core type; value-level relations for all inputs.", "anchors": ["posydon/binary_evol/CE/step_CEE.py: StepCEE"]}
{"id": "C37", "title": "Orbit conversion functions are mutually inverse and monotone", "statement": "`orbital_period_from_separation` and `orbital_separation_from_period` are inverse for positive masses; Kepler scaling holds; wind-loss evolution of period and separation agree with Kepler's third law.", "quantifier": "every positive masses/period/separation", "why_tests_cant": "Real-valued identities.", "anchors": ["posydon/utils/common_functions.py: orbital_separation_from_period, orbital_period_from_separation, period_evol_wind_loss, separation_evol_wind_loss"]}
{"id": "C38", "title": "Roche-lobe radius is positive, scales with separation, and is smaller than the separation", "statement": "For positive masses and separation, 0 < R_L < a, R_L is linear in a and increases with the mass ratio; invalid input gives NaN/warnings.", "quantifier": "every positive q and a", "why_tests_cant": "Real-valued inequalities on a continuum.", "anchors": ["posydon/utils/common_functions.py: roche_lobe_radius, check_for_RLO"]}
{"id": "C39", "title": "Stable mass-transfer period change is well behaved", "statement": "`period_change_stable_MT` with no mass transferred returns the initial period, gives a positive period for positive inputs, rejects alpha/beta outside [0,1] and mass gain by the donor, composes over consecutive episodes, and its beta=1 branch is the limit-consistent formula.", "quantifier": "every alpha, beta, masses", "why_tests_cant": "Real-valued identities incl. composition.", "anchors": ["posydon/utils/common_functions.py: period_change_stable_MT"]}
{"id": "C40", "title": "rotate() returns a proper rotation about the axis", "statement": "For every axis of non-zero length and every angle the matrix is orthogonal with determinant 1, fixes the axis, rotations about one axis compose additively; invalid axes raise ValueError.", "quantifier": "every axis in R^3 and angle", "why_tests_cant": "Continuum.", "anchors": ["posydon/utils/common_functions.py: rotate"]}
{"id": "C41", "title": "Ejected mass in a failed envelope ejection respects the energy budget", "statement": "`calculate_Mejected_for_integrated_binding_energy` ejects the outer layers whose cumulative binding energy is within the budget: more budget never ejects less mass, zero budget ejects nothing, result within [0, M - M_core].", "quantifier": "every profile and budget", "why_tests_cant": "Monotonicity over all profiles.", "anchors": ["posydon/utils/common_functions.py: calculate_Mejected_for_integrated_binding_energy"]}
{"id": "C42", "title": "Core boundary detection returns the outermost core cell", "statement": "`calculate_core_boundary` returns the first cell from the surface that satisfies the core definition, and -1 iff there is none.", "quantifier": "every profile", "why_tests_cant": "First-index semantics over all lists.", "anchors": ["posydon/utils/common_functions.py: calculate_core_boundary"]}
{"id": "C43", "title": "Configuration files round-trip and updates are guarded", "statement": "`ConfigFile.save` never overwrites an existing file unless asked; `load` with can_update=False never changes an existing entry (it fails and changes nothing if a key is already there); reading back a saved file restores all entries.", "quantifier": "every entry dictionary and sequence of operations", "why_tests_cant": "Sequences of operations.", "anchors": ["posydon/utils/configfile.py: ConfigFile"]}
{"id": "C44", "title": "Only verified data are extracted after download", "statement": "With MD5 checking on, `data_download` never extracts an archive whose checksum differs from the published one.", "quantifier": "every failure pattern of read/remove/extract", "why_tests_cant": "Failure injection on file operations.", "anchors": ["posydon/utils/data_download.py: download_one_dataset"]}
{"id": "C45", "title": "One-dimensional interpolation is exact at nodes, monotone bracketed and clamps outside", "statement": "The interp1d used for tracks returns node values at nodes, values between neighbouring node values in between, and the left/right fill value outside.", "quantifier": "every strictly increasing node list and query", "why_tests_cant": "Continuum of queries.", "anchors": ["posydon/utils/interpolators.py: interp1d, SingleStarInterpolator"]}
{"id": "C46", "title": "Steps reload with the metallicity that was requested", "statement": "Loading steps for metallicity Z makes every step use Z (unless the user fixed another one for that step), also when steps are loaded again for another metallicity; a population of metallicity Z is evolved with steps of Z and with its own time limit, whatever other populations use the same properties.", "quantifier": "every sequence of load_steps calls, and every sequence of populations created and evolved with the same properties", "why_tests_cant": "Needs repeated loads with different metallicity.", "anchors": ["posydon/binary_evol/simulationproperties.py: load_steps, check_step"]}
{"id": "C47", "title": "Output times of the detached step end at the integration end and are increasing", "statement": "`get_time_after_evo` returns strictly increasing output times, all after the start time, the last one being the final integration time, for every dt.", "quantifier": "every start/end time and dt/n_steps", "why_tests_cant": "Behaviour when dt exceeds the interval.", "anchors": ["posydon/binary_evol/DT/step_detached.py: detached_step.get_time_after_evo"]}
{"id": "C48", "title": "Core collapse type is a total partition of core masses", "statement": "`check_SN_type` assigns exactly one of WD/ECSN/CCSN to each core mass for each ECSN option, thresholds are respected, and raises only for invalid masses; remnant/SN-type consistency check accepts exactly the documented pairs.", "quantifier": "every real core, He-core and star mass", "why_tests_cant": "Boundary values over a continuum.", "anchors": ["posydon/binary_evol/SN/step_SN.py: check_SN_type, check_SN_CO_match, explod_crit"]}
{"id": "C49", "title": "Population weights reproduce the simulated mass when population equals simulation", "statement": "If the requested population parameters equal the simulated ones, each model weight equals 1/M_sim for binaries with non-zero density; weights are non-negative and vanish outside the population's support.", "quantifier": "every population table and parameter set", "why_tests_cant": "Holds for all parameter values.", "anchors": ["posydon/popsyn/norm_pop.py: calculate_model_weights, get_pdf"]}
{"id": "C50", "title": "Chunked processing of a population equals unchunked processing", "statement": "`create_transient_population`, `get_subsets` and formation-channel computation visit each binary exactly once with exactly its own history rows for any chunk size.", "quantifier": "every chunk size and history lengths", "why_tests_cant": "Chunk boundaries relative to histories.", "anchors": ["posydon/popsyn/synthetic_population.py: Population.create_transient_population", "posydon/popsyn/analysis.py: get_subsets"]}
{"id": "C51", "title": "Binary state and event inferred from a grid run tell who transfers mass", "statement": "The state inferred at the end of a grid step is contact iff both stars transfer mass, RLO1/RLO2 iff only that star does, detached iff none does; unstable transfer gives the CE event of the donor (of the larger overflow in contact); otherwise an exhausted star gives CC1 before CC2, else None.", "quantifier": "every overflow, transfer rate, pair of stellar states and interpolation class", "why_tests_cant": "Continuum of overflows and rates times all state pairs, including missing values.", "anchors": ["posydon/utils/common_functions.py: get_binary_state_and_event_and_mt_case"]}
{"id": "C52", "title": "The mass-transfer flag of a grid run reflects its history", "statement": "no_RLOF iff no row overflows or exceeds the rate threshold; contact_during_MS iff both stars overflow in a row; initial_RLOF iff the first row has a donor; each row has at most one donor.", "quantifier": "every binary history", "why_tests_cant": "Histories of any length with NaNs.", "anchors": ["posydon/grids/termination_flags.py: get_mass_transfer_flag"]}
{"id": "C53", "title": "The termination code of a MESA run is the one its log reports last", "statement": "`get_flag_from_MESA_output` returns the code of the last 'termination code:' line that is not a too-small-time-step code (or 'Reached TPAGB' if the last such line says that); if the log only reports too-small-time-step codes it returns the first of them; without any code, or without a log, it returns 'reach cluster timelimit'.", "quantifier": "every log text", "why_tests_cant": "Logs are unbounded text with arbitrary lines.", "anchors": ["posydon/grids/termination_flags.py: get_flag_from_MESA_output"]}
{"id": "C54", "title": "The simulated mass of a population is the mass of all its systems at birth", "statement": "The simulated mass recorded with a population is the sum over all systems of their masses in their first history row (one mass for initially single stars, two for binaries), independently of how the systems were spread over batches, ranks and files; the recorded number of systems is the number of systems.", "quantifier": "every distribution of systems over files and every history", "why_tests_cant": "All splittings of a population into files cannot be enumerated; rates are normalised with this number.", "anchors": ["posydon/popsyn/binarypopulation.py: BinaryPopulation.combine_saved_files, PopulationManager.save"]}
{"id": "C55", "title": "Model weights are computed with the density and mean mass of the sampled population", "statement": "The mean mass used to normalise a population is the mean over the systems the sampler can draw (every primary with every companion allowed for that primary), and the orbital density used for the weights is the density of the orbit the sampler draws, in the same variable for all schemes.", "quantifier": "every choice of mass limits, primary mass, separation limits and period", "why_tests_cant": "A wrong normalisation changes all rates by a smooth factor; no unit test has an independent value to compare with.", "anchors": ["posydon/popsyn/norm_pop.py: get_mean_mass, get_period_pdf, get_mass_ratio_pdf"]}
{"id": "C56", "title": "Tabulated samplers reproduce the table", "statement": "inverse_sampler returns a value inside a bin of the table whose cumulated area is exactly u times the whole area; histogram_sampler stays inside the chosen bin; rejection_sampler, when it ends, returns exactly the requested number of points, each below the density; malformed tables are refused.", "quantifier": "every table, every draw, every number of rejection rounds", "why_tests_cant": "The draw and table space is continuous; rejection loops have unbounded length.", "anchors": ["posydon/utils/common_functions.py: inverse_sampler, histogram_sampler, rejection_sampler"]}
{"id": "C57", "title": "Merger times from gravitational waves are positive, scale as the fourth power of separation and are continuous in eccentricity", "statement": "inspiral_timescale_from_separation refuses exactly the unphysical binaries (non-positive mass or separation, eccentricity outside [0,1)); otherwise the merger time is positive, scales with the fourth power of the separation, is shorter for an eccentric than for a circular orbit of the same separation, tends to the circular value as the eccentricity goes to zero, and grows with the period.", "quantifier": "all masses, separations, periods and eccentricities", "why_tests_cant": "The eccentric branch is a numerical integral; agreement with the circular branch at the limit cannot be sampled.", "anchors": ["posydon/utils/common_functions.py: inspiral_timescale_from_separation, inspiral_timescale_from_orbital_period"]}
{"id": "C58", "title": "The spin of an accreting black hole stays between its initial value and one", "statement": "spin_stable_mass_transfer returns the initial spin when no mass is accreted, never less than the initial spin and never more than 1 when mass is accreted, more for more accreted mass, None for missing or unphysical input.", "quantifier": "all spins in [0,1] and all masses", "why_tests_cant": "The formulas for the innermost stable orbit and for the spin are inverse algebraic functions with cube roots; consistency is an identity over the reals.", "anchors": ["posydon/utils/common_functions.py: spin_stable_mass_transfer"]}
{"id": "C59", "title": "Binding energy and lambda from a stellar profile are consistent with the core boundary", "statement": "calculate_lambda_from_profile returns a core mass and radius between those of the two profile cells at the core boundary, no envelope parameter for a star that is all core, zero core for a star that is all envelope, never a lambda below minus the tolerance; the gravitational binding energy of an envelope is not positive and grows with its depth; invalid internal energies are refused.", "quantifier": "all profiles, abundances, core definitions and star states", "why_tests_cant": "The boundary search and the interpolation use different columns for different states; tests use a handful of artificial profiles.", "anchors": ["posydon/utils/common_functions.py: calculate_lambda_from_profile, calculate_binding_energy, get_mass_radius_dm_from_profile, get_internal_energy_from_profile, linear_interpolation_between_two_cells"]}
{"id": "C60", "title": "Every binary gets a formation time", "statement": "get_formation_times returns one time per binary for every star formation scenario: the burst time, a value between the limits for constant star formation, the simulation end minus a sampled age for custom ages; unknown scenarios are refused.", "quantifier": "all scenarios, numbers of binaries, limits and random draws", "why_tests_cant": "The function is excluded from coverage; the number of draws depends on the scenario.", "anchors": ["posydon/popsyn/star_formation_history.py: get_formation_times"]}
{"id": "C61", "title": "Redshift and metallicity bins tile their range with one bin per centre", "statement": "The redshift bin edges increase from 0 to 100 with one centre inside each bin, for every time step; the metallicity bin edges increase, each metallicity of the population lies inside its own bin, in any order of the metallicities; a single metallicity gets the documented bin; storing the star-formation model in the file and reading it back keeps the bins.", "quantifier": "every time step, cosmology, list of metallicities and dlogZ setting", "why_tests_cant": "The step relates to the age of the universe through a remainder; tests use one step.", "anchors": ["posydon/popsyn/rate_calculation.py: get_redshift_bin_edges, get_redshift_bin_centers", "posydon/popsyn/synthetic_population.py: Rates.edges_metallicity_bins, _write_MODEL_data, _read_MODEL_data"]}
{"id": "C62", "title": "Each transient event carries the model weight of its own binary", "statement": "calculate_model_weights stores for each event row the weight computed from the one-line row of the same binary with the simulated mass of its metallicity.", "quantifier": "every one-line table, transient table with several events per binary, and mass table", "why_tests_cant": "Weights are matched by position after sorting; needs arbitrary row orders.", "anchors": ["posydon/popsyn/synthetic_population.py: TransientPopulation.calculate_model_weights"]}
{"id": "C63", "title": "The observable population covers every event", "statement": "calculate_observable_population applies the detection function to each event row with its own weights and redshifts exactly once, whatever the chunk size.", "quantifier": "every number of systems, events and chunk size", "why_tests_cant": "Needs tables with more events than systems.", "anchors": ["posydon/popsyn/synthetic_population.py: Rates.calculate_observable_population"]}
{"id": "C64", "title": "Formation channels list the events of a binary", "statement": "The formation channel of a binary is its sequence of events (with the mass-transfer class of the first grid after the first event) without redirections and contacts; binaries with different sequences have different channels; each class of a grid run gives a channel.", "quantifier": "every sequence of events, class and mass-transfer history", "why_tests_cant": "Channels are made by chained string replacement on joined words; overlaps need reasoning over all sequences.", "anchors": ["posydon/popsyn/synthetic_population.py: Population.calculate_formation_channels, _write_formation_channels"]}
{"id": "C65", "title": "Any binary of a population can be regenerated by its number", "statement": "get_binary_by_iter(n) returns the binary of the n-th call of draw_initial_binary and leaves the generator unchanged; the first binaries drawn do not depend on the number drawn.", "quantifier": "every n, random stream and star-formation scenario", "why_tests_cant": "Depends on how many random numbers each earlier draw consumed.", "anchors": ["posydon/popsyn/binarypopulation.py: BinaryGenerator.get_binary_by_iter, draw_initial_binary, draw_initial_samples"]}
{"id": "C66", "title": "Rows recorded by the detached step are consistent", "statement": "When the detached step records intermediate rows, all columns of a star's history grow by the same number of rows, the recorded times are strictly increasing, and each row's state is the classification of that row's values.", "quantifier": "every number of output times, set of properties, previous history and classification", "why_tests_cant": "Off-by-one errors in negative indices only show for particular output options and are invisible in the final state.", "anchors": ["posydon/binary_evol/DT/step_detached.py: detached_step.update_after_evo, update_co_stars, __call__", "posydon/binary_evol/binarystar.py: BinaryStar.run_step, append_state"]}
{"id": "C67", "title": "The detached step names the right star and leaves a consistent orbit", "statement": "When the detached step ends, state and event name the star that overflowed or collapsed whichever star the matching calls primary; the circularised orbit obeys Kepler's law and keeps angular momentum or periastron; exchanging the stars exchanges only the labels; the result has a next step.", "quantifier": "every combination of terminal events, star states, orbit and options", "why_tests_cant": "Sixteen event combinations times star labels times all states, and real-valued orbits.", "anchors": ["posydon/binary_evol/DT/step_detached.py: detached_step.__call__", "posydon/binary_evol/flow_chart.py: POSYDON_FLOW_CHART"]}
{"id": "C68", "title": "Grid steps accept exactly the binaries of their grid and hand the others on", "statement": "A grid step evolves a binary with its grid only if both masses and the period lie within the limits of the grid and the orbit is circular, with the stars put into the order of the grid; a binary whose masses are outside while the period is inside is refused with an error; any other binary is given an event for which the flow chart has a next step. The decision does not depend on which star is called first, every binary the flow chart sends to a grid step is accepted by that step, and after a run the labels are those the binary came with and the event says if the time limit was reached.", "quantifier": "all grid limits, all star states, events, masses, periods (including NaN) and eccentricities; all keys of the flow chart; all behaviours of the grid itself", "why_tests_cant": "the tests construct a handful of binaries per step; the agreement with the flow chart concerns thousands of keys, and the symmetry concerns pairs of runs that tests never compare", "anchors": ["posydon/binary_evol/MESA/step_mesa.py: MS_MS_step.__call__, CO_HMS_RLO_step.__call__, CO_HeMS_RLO_step.__call__, CO_HeMS_step.__call__, HMS_HMS_RLO_step.__call__, MesaGridStep.__call__", "posydon/binary_evol/flow_chart.py"]}
{"id": "C69", "title": "Recording a grid track keeps the histories aligned and faithful", "statement": "When a binary is evolved with the closest track of a grid, the current values become those of the last row of the track (times continue from the time of the binary), all histories of the binary and of both stars grow by the same number of rows, the recorded rows are the rows of the track in order, each recorded state is the classification of the values in its own row, earlier rows are kept, and the accretion rate recorded for a compact object never exceeds the Eddington rate. This holds for every combination of the options to record the track and to save initial conditions.", "quantifier": "every track length, option, property table and earlier history", "why_tests_cant": "needs grids on disk; alignment concerns all pairs of columns and all lengths", "anchors": ["posydon/binary_evol/MESA/step_mesa.py: MesaGridStep.update_properties_NN"]}
{"id": "C70", "title": "Stopping on a grid track gives the state at the requested point", "statement": "When a grid run is stopped at a time, the time is the requested one, exactly the rows not later than it are kept in all columns, every number is interpolated linearly between the two neighbouring rows, and the states are those at that time; when it is stopped at a value of a property, the binary is put back to the last row before the value is passed.", "quantifier": "every history length, time, value, rising or falling property", "why_tests_cant": "needs grids on disk; the cases depend on the position of the limit among the rows", "anchors": ["posydon/binary_evol/MESA/step_mesa.py: MesaGridStep.stop_at_condition, MesaGridStep.interpolate_at_t"]}
{"id": "C71", "title": "Scaling of features can be undone and has the advertised range", "statement": "For every scaling method, scaling back what was scaled returns the number; the methods with a range map the training data onto that range, dividing by the largest absolute value maps them into [-1, 1], standardised data have mean zero and deviation one; an object that was not fitted, an unknown method and an empty range are refused.", "quantifier": "every method, all training data, every number on which the method is defined, every range", "why_tests_cant": "ten methods and all data sets; constant features and values outside a logarithm give no exception but lose all values", "anchors": ["posydon/interpolation/data_scaling.py: DataScaler.fit, DataScaler.transform, DataScaler.inv_transform"]}
{"id": "C72", "title": "Interpolated values satisfy all physical constraints at once", "statement": "After the correction of interpolated values every applicable constraint holds simultaneously (temperature and nuclear luminosity, separation, order of core masses and radii, convective region inside the star, order of rates, abundances adding up to one), later corrections do not undo earlier ones, masses, radii, luminosities, period and transfer rate are never changed, values that satisfy the constraints are left alone, and correcting twice is correcting once.", "quantifier": "every set of interpolated columns, all values including unknown ones, one or two stars", "why_tests_cant": "sixteen constraints interact through shared columns; the table of constraints is shared by all interpolators", "anchors": ["posydon/interpolation/constraints.py: find_constraints_to_apply, sanitize_interpolated_quantities, correct_inequality, correct_sum, get_thickness_n_radius", "posydon/interpolation/IF_interpolation.py: BaseIFInterpolator.test_interpolator"]}
{"id": "C73", "title": "Two compact objects spiral in as their merger time says", "statement": "The step that evolves two compact objects shrinks the orbit by gravitational radiation. The time it lets pass between any two sizes of the orbit is the difference of the merger times that inspiral_timescale_from_separation gives for them; separation and eccentricity only fall and time only grows. A binary reported as being in contact has a circular orbit whose separation is the sum of the two radii and a time before the end of the simulation; any other binary ends exactly at the end of the simulation, not yet in contact. Whether it merges is decided by its merger time, it always has exactly one outcome, does not depend on which object is called first, and recorded rows lie on the orbit. A failed integration is reported.", "quantifier": "every pair of masses and types, every separation, every eccentricity in [0, 1), every time left, every outcome of the integrator", "why_tests_cant": "two independent implementations of the same physics (a differential equation and an integral) must agree for all real parameters; tests compare a few binaries within a tolerance", "anchors": ["posydon/binary_evol/DT/double_CO.py: DoubleCO.__call__, DoubleCO.solve_ODEs, double_CO_evolution.rhs, _SBrentqDenseOutput.__call__", "posydon/utils/common_functions.py: CO_radius, inspiral_timescale_from_separation", "posydon/binary_evol/DT/step_detached.py: detached_step.__call__"]}
{"id": "C74", "title": "Stars are matched to tracks according to their kind and role", "statement": "Before a detached step each star that is neither compact nor missing is matched to a single-star track. Whenever one of the stars exists the two roles are given to the two different stars, the star whose evolution is followed exists, a compact object or a missing star never takes that role beside a star, and of a star with and a star without hydrogen it is the one with hydrogen. The quantities compared are those documented for the kind of the star, on the grid of its kind. After a successful matching every star has a track within the masses of the grid, exactly the stars that are not compact and not missing are reported as matched, and the recorded event says which. Every failure is an error of the documented kind and, unless it is a programming error, marks the binary as failed.", "quantifier": "every pair of stellar states, every event, every request (one star or both), every outcome of the search", "why_tests_cant": "more than a thousand combinations of states, roles, requests and failures; tests visit a handful", "anchors": ["posydon/binary_evol/DT/track_match.py: TrackMatcher.__call__, do_matching, determine_star_states, get_match_attrs, get_star_match_data, match_to_single_star", "posydon/binary_evol/CE/step_CEE.py: StepCEE.__call__", "posydon/utils/posydonerror.py: MatchingError, NumericalError"]}
{"id": "C75", "title": "The track a star is matched to is acceptable, the best found, and increases in age", "statement": "The search for a track makes four attempts. It stops at the first that succeeds within the tolerance; otherwise the successful attempt with the smallest difference is taken if it is within the final tolerance, and there is no match only if none is. What is returned is what the optimiser found for the quantities of an attempt on the grid the star is left with. The search starts from the point of the grid nearest to the star. Rows whose age does not increase are removed in the same way from all columns: the ages handed to the interpolator strictly increase, end at the last age of the track and are all ages of the track if those already increase. The life of the star ends where its track ends.", "quantifier": "every optimiser (including failures, NaN and exceptions), every tolerance, every grid and every sequence of ages", "why_tests_cant": "the outcome of a numerical search is unpredictable, so each combination of failed, raised and acceptable attempts must be considered; age glitches occur in few tracks", "anchors": ["posydon/binary_evol/DT/track_match.py: TrackMatcher.match_through_minimize, match_through_root, get_root0, get_star_match_data"]}
{"id": "C76", "title": "Matching a star to a track keeps its angular momentum", "statement": "When a star is matched to a single-star track its angular momentum is kept: the new rotation rate is the angular momentum over the moment of inertia, rate, ratio to the critical rate and angular momentum recorded for the star agree with each other and with the rate from which the evolution starts, and a star that was consistent is unchanged. If they are unknown, the surface rate, then the ratio to the critical rate decides; a star about whose rotation nothing is known does not rotate. A star that was not matched is left alone. Both stars are treated alike.", "quantifier": "every combination of known and unknown rotation attributes, every value, matched and unmatched stars", "why_tests_cant": "a conserved quantity over all real values and all patterns of missing attributes; tests check a few", "anchors": ["posydon/binary_evol/track_match.py: TrackMatcher.calc_omega, update_rotation_info, update_star_properties"]}
{"id": "C77", "title": "Tides conserve angular momentum, dissipate energy and circularise", "statement": "The rates of change that tides give to the orbit and to the two spins conserve the total angular momentum of orbit and spins exactly and never increase the total mechanical energy. They spin a star up if and only if it is slower than the (pseudo-)synchronous rate, shrink a circular orbit if and only if the star is slower than the orbit, leave a circular orbit circular, and vanish exactly if the orbit is circular and both stars are synchronous. They do not depend on which star is called the primary, and every star of positive radius is subject to tides.", "quantifier": "every pair of stars, every bound orbit, every spin, whatever the strength of the tides", "why_tests_cant": "identities and inequalities between five polynomials and real powers for all real arguments; a test compares numbers at a few points with stored values", "anchors": ["posydon/binary_evol/DT/tides/default_tides.py: default_tides", "posydon/binary_evol/DT/step_detached.py: detached_evolution.tides"]}
{"id": "C78", "title": "Winds, radiation and magnetic braking follow their laws, and the rates are their sum", "statement": "Stellar winds keep separation times total mass constant and remove from a star the angular momentum of the lost surface layers. Gravitational radiation follows Peters up to a relative correction of order GM/(ac\u00b2(1-e\u00b2)), shrinks orbits and makes them rounder, and is symmetric in the stars. Magnetic braking never spins a star up, does nothing to a star that does not rotate or has 1.5 solar masses or more, and treats both stars by the same law. The rates handed to the integrator are the sums of the contributions switched on, those not finite counting as zero, at the state without negative values; an unknown law of magnetic braking is warned about.", "quantifier": "every pair of stars, every bound orbit, every combination of switches and laws, contributions that are not finite", "why_tests_cant": "physical laws over all real arguments; primary and secondary are written out separately and a slip in one of them changes no other test", "anchors": ["posydon/binary_evol/DT/winds/default_winds.py: default_spin_from_winds, default_sep_from_winds", "posydon/binary_evol/DT/gravitational_radiation/default_gravrad.py: default_gravrad", "posydon/binary_evol/DT/magnetic_braking/prescriptions.py: RVJ83_braking, M15_braking, G18_braking, CARB_braking", "posydon/binary_evol/DT/step_detached.py: detached_evolution.__call__, detached_evolution.update_props"]}
{"id": "C79", "title": "Stars without a companion evolve without an orbit", "statement": "The steps for disrupted, merged and initially single stars evolve the stars in a circular orbit so wide that no star fills its Roche lobe, beside a missing or a departed companion, and leave the binary without an orbit. Other binaries are refused with an error. The last step sets the event END and changes nothing but the classification of the stars of a disrupted binary.", "quantifier": "every binary, every behaviour of the detached step, masses from a millionth to a million solar masses, radii up to 10^50 solar radii", "why_tests_cant": "a bound over all masses and radii, and side effects on the paths that raise", "anchors": ["posydon/binary_evol/DT/step_isolated.py: IsolatedStep.__call__", "posydon/binary_evol/DT/step_disrupted.py: DisruptedStep.__call__", "posydon/binary_evol/DT/step_initially_single.py: InitiallySingleStep.__call__", "posydon/binary_evol/step_end.py: step_end.__call__", "posydon/binary_evol/binarystar.py: BinaryStar.update_star_states"]}
{"id": "C80", "title": "Accretion onto a compact object obeys the Eddington balance and the geometry of the orbit", "statement": "The Eddington limit is the rate whose luminosity balances gravity for the opacity of the donor, with an efficiency between 0 and 1 for every kind of compact object; what is seen above the limit grows logarithmically and is beamed into a fraction of the sphere. From a wind, the rate is Bondi and Hoyle's for the separation, the orbital speed and the wind speed at a phase drawn uniformly in time; it exceeds neither the limit of its own row nor the wind, and each row of a history uses its own values.", "quantifier": "every mass, composition, state and history, every orbit with eccentricity below one, every draw, every number of rows", "why_tests_cant": "inequalities over all masses and orbits; the errors of units and of the last row appear only for white dwarfs and for histories", "anchors": ["posydon/utils/common_functions.py: eddington_limit, beaming, bondi_hoyle, CO_radius, stefan_boltzmann_law"]}
{"id": "C81", "title": "Natal kicks have a speed, are reduced as the options say and can be reproduced", "statement": "The speed of a natal kick is not negative; the normalisation only reduces the speed that the prescription gives, by fallback or mass as its name says; the dispersion is that of the type of collapse and of the remnant; unknown names are reported. A kick that a star comes with is used as it is; otherwise direction and phase are drawn isotropically and recorded, so that repeating the supernova with the recorded kick gives the same kick.", "quantifier": "every option, every remnant, every draw, both stars", "why_tests_cant": "reproducibility is a statement about two runs with independent draws; the sign of the speed fails for remnants that few tests use", "anchors": ["posydon/binary_evol/SN/step_SN.py: StepSN.__init__, orbital_kick, generate_kick, _get_kick_velocity, _get_kick_normalisation"]}
{"id": "C82", "title": "A binary written to a table and read back is the same binary", "statement": "Writing a binary whose histories have one length to a table and reading the table gives its index, its histories and the present values of the binary and both stars, for every choice of columns; columns left out hold the defaults of a new binary as often as there are rows; a missing separation or period is computed from the other. Writing does not change the binary. The one-line form gives back the binary at its start, with single values under their names, and marks a failed binary. Every column is written with the type declared for it.", "quantifier": "every binary, every number of steps, every choice of columns, every value of the histories, every declared column name", "why_tests_cant": "a round trip over all histories and all names of columns; what is lost depends on letters inside a few of more than a hundred names", "anchors": ["posydon/binary_evol/binarystar.py: BinaryStar.to_df, BinaryStar.from_df, BinaryStar.to_oneline_df, BinaryStar.from_oneline_df", "posydon/binary_evol/singlestar.py: SingleStar.to_df, SingleStar.to_oneline_df", "posydon/popsyn/io.py: clean_binary_oneline_df"]}
{"id": "C83", "title": "The initial-final interpolator reproduces the tracks it was trained with", "statement": "For the initial values of a track used for training the interpolator predicts the class of the track and returns its final values, whether it uses one or several methods and whatever scaling it chose; tracks reported as discarded are not used; each class is scaled with its own tracks; classes without numbers give no numbers; missing values are filled without changing others; several interpolators answer each for its own keys; the parts of a cross-validation are disjoint, complete and drawn anew each time; a saved interpolator can be loaded without a grid.", "quantifier": "every grid of tracks, every class, every number of inputs and outputs, every real value, every interpolation of SciPy that reproduces its nodes", "why_tests_cant": "needs full grids and SciPy; a wrong row or a skipped scaling gives plausible numbers; round trip through logarithms of arbitrary data", "anchors": ["posydon/interpolation/IF_interpolation.py: IFInterpolator, BaseIFInterpolator, LinInterpolator, NNInterpolator, MC_Interpolator, KNNClassifier, Scaler, MatrixScaler, xval_indices"]}
{"id": "C84", "title": "A grid keeps its runs, rows, directories and tables in step", "statement": "In a grid made from directories of runs, run j has the directory, the initial and final values and the tables of the same run; every run which can be read, is sound and fits the settings is in the grid and no other; the fix of the initial overflow adds or marks exactly the runs below the nearest boundary; every grid made can be loaded, indexed and iterated over; a column added has one value per run and leaves the others alone; the runs to be redone are those given or flagged, each once; two grids are equal if and only if settings, values and tables are.", "quantifier": "every list of run directories in any state of damage, every setting, every list of flags, every table", "why_tests_cant": "needs thousands of damaged run directories; a shift by one between rows and tables gives plausible data", "anchors": ["posydon/grids/psygrid.py: PSyGrid._create_psygrid, PSyGrid.load, PSyGrid.add_column, PSyGrid.rerun, PSyGrid.__eq__, PSyGrid.__getitem__, PSyGridIterator, join_lists", "posydon/grids/termination_flags.py: get_detected_initial_RLO, get_nearest_known_initial_RLO", "posydon/utils/ignorereason.py: IgnoreReason"]}
{"id": "C85", "title": "Joining grids keeps the latest run of every system, whole", "statement": "Joined grids contain each system once, with the directory, initial and final values and tables of its last run, in the order of the grids; a system is known by the values in the name of its directory, whatever the number of the run; grids with other settings or columns are refused; the fix of the initial overflow uses the boundary of all the grids; compression is none, lzf, gzip or gzip with a digit; the file of grid points gives the last value of each name; all tables of a run are thinned out at the same rows.", "quantifier": "every list of grids, every list of runs, every name and value without separators, every line of text, every mask", "why_tests_cant": "needs many grids with reruns of the same systems written in all ways; a mix of rows of two runs gives plausible data", "anchors": ["posydon/grids/psygrid.py: join_grids, PSyGrid.downsample_history, downsample_profile", "posydon/grids/io.py: GridReader, initial_values_from_dirname, read_initial_values, _get_input_folders"]}
{"id": "C86", "title": "Tables of transients hold the values of the binary itself around its own supernova", "statement": "The selection of gamma-ray bursts returns one row for each binary with a radiated disk mass above zero, holding orbit, spins and mass in the row before and the row in which that very star of that very binary became a black hole, the time, the columns of its own line and its channel up to the collapse; the selection of pairs of black holes returns for each binary the time of its end, the time since its second supernova, and masses, spins, period and eccentricity after that supernova.", "quantifier": "every history, every one-line table, every list of channels, either star", "why_tests_cant": "a shift between rows of different binaries gives plausible values; needs populations with all kinds of histories", "anchors": ["posydon/popsyn/transient_select_funcs.py: GRB_selection, BBH_selection_function"]}
{"id": "C87", "title": "Spins, chirp masses and detection weights are physical and independent of labels", "statement": "The effective spin is between minus one and one and the precession parameter between zero and one; chirp mass and mass ratio do not change if the stars are exchanged, the ratio is at most one; detection multiplies each weight by the probability of its own event at its own redshift and never raises it; the probability predicted is between those of the neighbours and exact at the points of the table.", "quantifier": "all masses, spins and tilts, all tables of events and redshifts, all neighbours", "why_tests_cant": "real quantities; label symmetry and bounds must hold for all values", "anchors": ["posydon/popsyn/transient_select_funcs.py: chi_eff, effective_precession, m_chirp, mass_ratio, DCO_detectability", "posydon/popsyn/selection_effects.py: KNNmodel"]}
{"id": "C88", "title": "Energies of gamma-ray bursts follow from radiated mass, efficiency and beaming", "statement": "Stars with a radiated disk mass above zero, and no others, have a burst; its energy is the efficiency times the rest energy of the mass, the isotropic energy is that divided by the beaming, a fraction, the luminosity is that over 25 s, and it is flagged exactly if the isotropic energy reaches the minimum; invalid options are refused.", "quantifier": "all tables of radiated masses, all efficiencies, beaming options, draws and minima", "why_tests_cant": "real quantities and random draws; rare draws give beaming factors above one", "anchors": ["posydon/popsyn/GRB.py: get_GRB_properties"]}
{"id": "C89", "title": "Collapse into a black hole balances mass and keeps the spin below one", "statement": "In the collapse of a star with a rotating profile, what the black hole gains and what the accretion disk gives off as radiation add up to the mass of the cells that collapse less the mass lost in neutrinos; each shell is divided into a part falling in directly and a disk, both non-negative; the spin stays between zero and one or the collapse stops with an error; the innermost stable orbit satisfies the condition of marginal stability and lies between one and six gravitational radii, so that the disk gives off between 5.7 and 42.3 per cent of its mass. Neutrino losses which are negative or above the limit are refused. The hydrogen and helium ejected are non-negative and at most the mass ejected.", "quantifier": "all profiles (any number of cells, any rotation), all masses to collapse, all initial masses and neutrino losses", "why_tests_cant": "The spin and the masses come from an unbounded loop over shells with cube roots and arcs; tests look at single profiles", "anchors": ["posydon/binary_evol/SN/profile_collapse.py: get_initial_BH_properties, compute_isco_properties, do_core_collapse_BH, get_ejecta_element_mass_at_collapse"]}
{"id": "C90", "title": "Tracks, final values and profiles of single stars are interpolated between the neighbours in mass", "statement": "For a mass between two masses of the grid of single stars, every value of a track lies on the line between the values of the two neighbouring runs at the same row; all columns have the same number of rows; ages start at zero and increase if those of the runs do; the star begins with the mass asked for, and the first row kept is on the main sequence if any row is. At a mass of the grid the run itself is returned. Final values lie between those of the nearest runs on either side at which they are known, states are those of the nearest run, and the mass of an interpolated profile scales with that of its neighbours. Masses outside the grid are refused. Every key finds its own column. A binary at a point of the grid of binaries gets the run of this point.", "quantifier": "all grids (any number of runs and rows), all masses and keys", "why_tests_cant": "The interpolation depends on the neighbours found in an arbitrary grid and on loops over missing values; tests use one toy grid", "anchors": ["posydon/interpolation/interpolation.py: GRIDInterpolator.get, get_final_values, get_final_state, get_profile, load_grid, psyTrackInterp.evaluate, scaler, inv_scaler", "posydon/binary_evol/track_match.py: TrackMatcher.get_track_val"]}
{"id": "C91", "title": "The joint distribution of Moe and Di Stefano gives admissible binaries", "statement": "For every resolution of the grids and all random numbers, a binary drawn from the Moe and Di Stefano (2017) distribution has a period within the limits asked for, a secondary with between a tenth of the mass of the primary and its mass, an eccentricity below the one at which it would overflow at periastron, and a star has a companion with the probability given by the integral of the density; the published formulas join without jumps.", "quantifier": "all sizes of the grids, limits of the period, primary masses, smallest masses and random numbers", "why_tests_cant": "The tables are built from nested piecewise formulas, quadratures and cumulative sums, and values are read off by interpolation; tests compare a few draws with fixed seeds.", "anchors": ["posydon/popsyn/Moes_distributions.py:Moe_17_PsandQs", "posydon/popsyn/independent_sample.py:generate_independent_samples", "posydon/popsyn/independent_sample.py:use_Moe_17_PsandQs"]}
{"id": "C92", "title": "A step interpolated between initial and final values gives each property of the binary and its stars the right column", "statement": "After a step through a grid by interpolation between initial and final values, every property of the binary and of each star has the value of its own column (or the documented replacement), the time has advanced by the age of the track, a compact object only changes mass, rates, spin and radius, the supernova models are complete or missing, and a missing column is an error; quantities describing the collapse never refer to the star before the step.", "quantifier": "all interpolated values, classifications, binaries and combinations of compact objects", "why_tests_cant": "The code copies more than seventy properties by loops with special names and exceptions; a property taken from the wrong column or the wrong star gives plausible numbers which tests of a few columns do not notice.", "anchors": ["posydon/binary_evol/MESA/step_mesa.py:MesaGridStep.initial_final_interpolation", "posydon/binary_evol/MESA/step_mesa.py:POSYDON_TO_MESA"]}
{"id": "C93", "title": "The mass-transfer history of every run has a text, which names its last phase of mass transfer", "statement": "Post-processing a grid gives every run a text for its mass-transfer history whatever the sequence of mass-transfer phases in its history and whatever its class; if only one star transfers mass the text names the evolutionary phase of the most advanced case, and if both do it names reverse mass transfer.", "quantifier": "all histories of the binary (rows of overflow values, rates and states), all classes of runs", "why_tests_cant": "The texts come from a dictionary with a fixed set of keys while the labels are built from the sequence of cases and cut to 25 characters; a sequence that is not in the dictionary ends the post-processing of the whole grid, and only an argument about all sequences shows which can occur.", "anchors": ["posydon/visualization/combine_TF.py:combine_TF12", "posydon/visualization/plot_defaults.py:DEFAULT_MARKERS_COLORS_LEGENDS", "posydon/grids/post_processing.py:post_process_grid", "posydon/grids/termination_flags.py:get_mass_transfer_flag"]}
{"id": "C94", "title": "Post-processing gives every run one value in every column, from its own stars and the collapse of the star that ended it", "statement": "Post-processing a grid adds exactly one value to every column for every run, in the order of the runs and with the directories returned; the columns of a star hold its own classification, helium-depletion values, common-envelope parameters and remaining abundances; the collapse quantities of each model are those of the star that ended the run, with the settings of that model, complete or all missing, and at most one star of a run has them; every value can be stored, and every column is stored exactly once.", "quantifier": "all grids, runs, index arguments, models and results of classification and collapse", "why_tests_cant": "The columns are filled by appending in about thirty places in nested branches; one missing or doubled append shifts all later runs, and the number of combinations of classes, flags and failures cannot be covered by tests.", "anchors": ["posydon/grids/post_processing.py:post_process_grid", "posydon/grids/post_processing.py:assign_core_collapse_quantities_none", "posydon/grids/post_processing.py:add_post_processed_quantities", "posydon/grids/SN_MODELS.py:get_SN_MODEL"]}
{"id": "C95", "title": "A binary or star made from a run holds exactly the data of that run", "statement": "A binary made from a run of a grid has, for every property, its own column of the run's tables as history and its own final value as current value (nothing if there is no such column); mass and mass-loss rates of each star come from its own columns of the table of the binary; the metallicity is the initial one; states, events and mass-transfer cases are derived step by step from the values of that step; values at helium depletion go to the star they belong to; a star is not affected by the other star's data; every history has one entry per step; and the call succeeds for all complete runs.", "quantifier": "all runs (tables, final and initial values), with or without history and profiles, all classifications", "why_tests_cant": "About eighty attributes are copied by name through four translation tables and then partly overwritten; tests look at a few of them for a few runs.", "anchors": ["posydon/binary_evol/binarystar.py:BinaryStar.from_run", "posydon/binary_evol/singlestar.py:SingleStar.from_run", "posydon/utils/common_functions.py:check_state_of_star", "posydon/utils/common_functions.py:get_binary_state_and_event_and_mt_case"]}
{"id": "C96", "title": "Stored common-envelope parameters describe nested cores, and depletion values belong to the first depleted model", "statement": "For a hydrogen-rich star with a complete profile, the core masses and radii stored for the hydrogen thresholds of 1, 10 and 30 percent are each those of their own threshold, do not decrease with the threshold and do not exceed the star; a stripped star is its own helium core; without a profile nothing is stored. The values at helium depletion are those of the first depleted model of the history, and exist exactly if there is one.", "quantifier": "all stars, states, profiles (any number of cells) and histories", "why_tests_cant": "The order of the cores depends on search and interpolation in arbitrary profiles; the thresholds are assigned by comparing loop variables.", "anchors": ["posydon/utils/common_functions.py:CEE_parameters_from_core_abundance_thresholds", "posydon/utils/common_functions.py:calculate_Patton20_values_at_He_depl", "posydon/utils/common_functions.py:calculate_lambda_from_profile"]}
{"id": "C97", "title": "A population run on a cluster can be checked and repaired from its files", "statement": "The script that `posydon-popsyn setup` writes for a number of jobs starts exactly that many tasks, with the ranks 0..n-1 and size n, and every task gets at least one binary. `posydon-popsyn check` reports success exactly if every merged file exists and holds the requested number of binaries; otherwise it recovers the settings from the script, reports as missing exactly the ranks that left no batch file, and writes scripts whose tasks are exactly these ranks with the original size, so that the present and the repeated batches together are the whole population; if nothing is missing the merge is started again. The merge takes the batch of each rank once, in order.", "quantifier": "all numbers of jobs and binaries, all settings, all sets of batch files in the folder, all combinations of metallicities", "why_tests_cant": "The scripts are texts that another program interprets later; unit tests check the presence of single lines, not that what is written is read back, nor that the repeated tasks fit the ones that survived.", "anchors": ["posydon/CLI/io.py:create_slurm_array", "posydon/CLI/io.py:create_slurm_rescue", "posydon/CLI/io.py:create_batch_rescue_script", "posydon/CLI/io.py:create_bash_submit_rescue_script", "posydon/CLI/popsyn/check.py:check_popsyn_function", "posydon/CLI/popsyn/check.py:check_batch", "posydon/CLI/popsyn/check.py:get_expected_batch_count", "posydon/CLI/popsyn/check.py:find_missing_batch_indices", "posydon/CLI/popsyn/setup.py:setup_popsyn_function", "posydon/popsyn/io.py:binarypop_kwargs_from_ini"]}
{"id": "C98", "title": "Steps share track matchers and grids consistently", "statement": "However often and at whatever metallicities the steps of a simulation are loaded, each step has one track matcher, made with the two single-star grids of the metallicity of the step; steps at the same metallicity share these grids; a load of one step does not change the matcher of another; grids no longer in use are released; a setting given for a step is the one used and a setting not given has its default; loading from the same settings gives the same matcher.", "quantifier": "all sequences of loads of any steps, at any metallicities, with any settings, whether or not they fail", "why_tests_cant": "The state of the cache depends on the whole sequence of loads; tests load a step once or twice.", "anchors": ["posydon/binary_evol/simulationproperties.py:SimulationProperties.check_step", "posydon/binary_evol/simulationproperties.py:SimulationProperties._check_track_matcher", "posydon/binary_evol/simulationproperties.py:SimulationProperties.create_track_matcher", "posydon/binary_evol/track_match.py:TrackMatcher.separate_kwargs"]}
{"id": "C99", "title": "The supernova model is found from the settings, and the check of an ini file agrees with the run", "statement": "The pre-defined supernova model that belongs to the settings of the supernova step is the only one that agrees with them on everything that decides the outcome; each model is found from its own settings; the switches and the electron-capture treatment have no influence; there is a model for every supported combination; an ini file passes the check before a run exactly if the step accepts its settings.", "quantifier": "all dictionaries of settings, with any values, complete or not; all names", "why_tests_cant": "The settings are a product of many values; tests try the models themselves and a few changes.", "anchors": ["posydon/grids/SN_MODELS.py:get_SN_MODEL", "posydon/grids/SN_MODELS.py:get_SN_MODEL_NAME", "posydon/CLI/popsyn/setup.py:check_SN_MODEL_validity", "posydon/binary_evol/SN/step_SN.py:StepSN.__init__", "posydon/binary_evol/SN/step_SN.py:StepSN.collapse_star"]}
{"id": "C100", "title": "Predicted composition profiles are mass fractions between the given values at centre and surface", "statement": "For every state of the star, every pair of abundances at the centre and the surface, and whatever boundaries the trained networks give, a predicted composition profile has hydrogen everywhere between the value at the centre and the value at the surface, changing in one direction only; helium is nowhere negative, and together they are at most the whole mass; the outermost cell has the given surface abundances and the innermost the given abundances of the centre; states without training data and compact objects give no numbers; every state that the package gives to a star is accepted.", "quantifier": "all star states, all abundances at both ends, all boundaries the networks may give, all cells", "why_tests_cant": "The boundaries come from neural networks: tests see the few that one trained model gives for a handful of stars, and cannot exhaust the orders in which independent outputs can come.", "anchors": ["posydon/interpolation/profile_interpolation.py:Composition.predict_single", "posydon/utils/interpolators.py:interp1d"]}
{"id": "C101", "title": "Profiles keep their names, binaries and shape from the grid to the prediction", "statement": "For every grid, every list of profile names and every shuffling, the profiles extracted from a grid are found under the names given for them, with the rotation taken over the critical rotation of the same star, in every extraction alike; the random split puts each binary into exactly one of training and validation data, with all its values together; profiles corrected to decrease never increase outwards, keep their centre and their surface, are unchanged if they already decrease, and are the lowest such profiles above the given ones; the density profile predicted for a binary depends on that binary only, and a binary of a class without training data gets no profile; the boundaries the networks learn are ordered and lie inside the star, and are taken from profiles with at least two increases.", "quantifier": "all grids and runs, all name lists, all shuffles and shares, all profiles of any length, all classes and network outputs", "why_tests_cant": "The changed default list shows only in a second extraction in one process, a class without training data only for rare splits, and no finite set of profiles settles a claim about all of them.", "anchors": ["posydon/interpolation/profile_interpolation.py:CompileData", "posydon/interpolation/profile_interpolation.py:ProfileInterpolator.load_profiles", "posydon/interpolation/profile_interpolation.py:ProfileInterpolator.mono_decrease", "posydon/interpolation/profile_interpolation.py:Density.predict", "posydon/interpolation/profile_interpolation.py:Composition.learn_bounds"]}
{"id": "C102", "title": "Results stored in a population file are those of the transient, star formation model and weights asked for", "statement": "For every sequence of calculations on a population file, the model weights, cosmic weights, event redshifts, rate density and observable population read for a transient name, a star formation identifier and a weights identifier are those calculated last for exactly these names from the tables then in the file; calculating one does not change those of other names; nothing calculated from replaced tables remains; a failed calculation leaves the stored results readable; the star formation model is read as it was written.", "quantifier": "all population files, all names of transients, models, weights and observables, all sequences of calculations, all calculation functions", "why_tests_cant": "The mixups show only when results of several models or repeated calculations meet in one file; unit tests use one model and one call.", "anchors": ["posydon/popsyn/synthetic_population.py:TransientPopulation.calculate_cosmic_weights", "posydon/popsyn/synthetic_population.py:TransientPopulation.calculate_model_weights", "posydon/popsyn/synthetic_population.py:Rates", "posydon/popsyn/synthetic_population.py:Population.create_transient_population"]}
{"id": "C103", "title": "The inlists of a MESA grid hold the values asked for, and MESA reads the values of the grid point", "statement": "For every set of inlist files named in the ini file, each parameter of the binary and of its stars has in the inlists written for the grid the value assigned last, those of the user winning over those of the scenario and the defaults; parameters can be emptied; the steps which form a star are a chain ending in the model the binary starts from; what MESA writes is what the ini file asks for; the inlists are read back unchanged when a grid point is run, and MESA is told to read the file with the values of the grid point exactly where such a file is written.", "quantifier": "all files (any lines of text), all ini files and orders of entries, all grids of columns, all numbers of formation steps", "why_tests_cant": "The outcome depends on the order of dictionary entries, on texts in files of users and on two scripts agreeing; tests cover neither script.", "anchors": ["posydon/utils/gridutils.py:clean_inlist_file", "bin/posydon-setup-grid:construct_static_inlist", "bin/posydon-setup-grid:find_inlist_from_scenario", "bin/posydon-run-grid"]}
{"id": "C104", "title": "A point of a MESA grid is run with the values of its row, and the values are found again in its directory", "statement": "For every table of grid points, each run gets the values of its row: the parameters which an inlist of the project knows are written to the file of the grid point and read by MESA; each run has a directory of its own; reading the directory and the file of the grid point gives back the values of the row up to the digits written, for any order of columns and any other parameters; different grid points are different runs of the grid that is read; every step which forms a star runs with its own inlist and the metallicity.", "quantifier": "all rows of rational values, all orders of columns and additional parameters, all indices, all numbers of decimals, all lists of formation steps", "why_tests_cant": "The number formats, name parsing and dictionary order interact for all values; the script run-grid has no tests, and readers are tested with a few hand-made directories.", "anchors": ["bin/posydon-run-grid:create_working_directory", "bin/posydon-run-grid:create_binary_inlists", "bin/posydon-run-grid:create_star_formation", "bin/posydon-run-grid:run_grid_point", "posydon/grids/io.py:initial_values_from_dirname", "posydon/grids/io.py:read_initial_values"]}
{"id": "C105", "title": "The script of the post-processing pipeline submits the requested jobs, each after the jobs whose files it needs", "statement": "For every ini file of the post-processing pipeline, the script run_pipeline.sh submits exactly the requested steps, the plots and checks asked for and their clean-ups, each once and in order; each requested step waits for the requested step before it, plots and checks for the last requested step up to theirs, and every id that is used belongs to an earlier line; a job only takes files for created that are announced by a job it waits for; each job gets the settings of its step or of the closest requested step before; names of sets of plots and checks are replaced by their content; every job has a directory for its output; only what is asked for needs to be in the ini file.", "quantifier": "all ini files: any choice of requested steps, any sections, any lists of plots and checks, any supernova models, any outcome of writing the tables", "why_tests_cant": "There are 2^21 combinations of steps and sub-steps, and the script has no tests; it modifies the settings while it loops over them.", "anchors": ["bin/posydon-setup-pipeline:PostProcessingPipeline.create_csv_and_slurm_job_files", "bin/posydon-setup-pipeline:get_step_kwargs", "bin/posydon-setup-pipeline:has_substep", "bin/posydon-setup-pipeline:expand_runfile", "bin/posydon-setup-pipeline:PostProcessingPipeline.create_log_dirs", "bin/posydon-setup-pipeline:PLOTTING_SETS"]}
{"id": "C106", "title": "The tables of the pipeline list every grid once, each task works on its own row and files, and what a step expects is what an earlier one makes", "statement": "For all settings of the post-processing pipeline: the table of a step has one row for every combination of grid type, metallicity, slice, compression (and method); lists of different lengths are refused; with DROP_MISSING_FILES exactly the rows whose files exist or will be created are kept; the files announced by step 1 are those read by the following steps and the interpolators of step 4 those read by step 5; the tasks of a job array correspond to the rows and are given to the right function; different tasks write different files; plots and checks of a step use the interpolators trained in it.", "quantifier": "all lists of grid types, metallicities, slices, compressions and methods, all existing files, all announced files, all task indices", "why_tests_cant": "The table is built by four nested loops over nested user lists with name patterns; the scripts have no tests, and clashes of file names only show up as lost results in a job array.", "anchors": ["bin/posydon-setup-pipeline:create_csv", "bin/posydon-setup-pipeline:slurm_job", "bin/posydon-run-pipeline:__main__", "posydon/utils/gridutils.py:get_new_grid_name"]}
{"id": "C107", "title": "Reruns repeat the runs their type describes with the inlists and the metallicity of the grid, and training covers every quantity", "statement": "For all types of reruns, metallicities and grids: a rerun is prepared for every documented type; the zero-age main-sequence file is the one of the metallicity given; a metallicity that is none of the eight is refused and a missing one means solar; the runs repeated are exactly those that satisfy the physical or textual criterion of the type; and the training of interpolators covers every numerical quantity exactly once (as interpolated or as missing) including those of all supernova models for both stars.", "quantifier": "all rerun types (as texts), all metallicity texts, all lists of runs with their histories and logs, all tables of final values and supernova models", "why_tests_cant": "The criteria are loops over whole grids of simulations with optional histories; the pipeline scripts have no tests and the tables of types are kept in two functions that must agree.", "anchors": ["bin/posydon-run-pipeline:zams_file_name", "bin/posydon-run-pipeline:copy_ini_file", "bin/posydon-run-pipeline:logic_rerun", "bin/posydon-run-pipeline:rerun", "bin/posydon-run-pipeline:train_interpolators"]}
{"id": "C108", "title": "The Markov chains of the sampler draw from the tempered target inside the ranges of the grid", "statement": "For every target distribution, ranges, temperature, start and sequence of random draws: a chain makes the requested number of trials unless the limit of rejections is reached; every recorded step was accepted with the Metropolis probability; detailed balance holds for steps and for swaps between chains; no recorded position lies outside of the ranges of the inputs; swaps neither lose nor copy positions; the ladder of temperatures falls strictly to 1 and its construction ends; the record of the chain weighs positions by the time the chain spends at them.", "quantifier": "all target distributions, dimensions, ranges, temperatures and spacings, numbers of draws and chains, starts, sequences of random numbers", "why_tests_cant": "The chains depend on thousands of random draws; a test can only compare statistics of a few runs and cannot tell a wrong acceptance rule from noise, nor see loops that never end for some settings.", "anchors": ["posydon/active_learning/psy_cris/sample.py:Sampler.run_MCMC", "posydon/active_learning/psy_cris/sample.py:Sampler.run_PTMCMC"]}
{"id": "C109", "title": "The sampler proposes the requested number of new points, apart from each other and from the training data, from where classes meet", "statement": "For all classifiers, training data, step histories and random draws: the classification target lies between 0 and 1, falls with the certainty of the classifier, and is tiny where the classifier gives no probabilities; normalising steps is undone exactly; every step is accepted or rejected once, accepted points are different from each other and from the training data, and steps further away are accepted more easily; the options of the density logic (without training data, normalised steps, variance multipliers, added distributions, points accepted before) work; the search returns the requested number of points with the largest mean distance found, adapts its scale in the right direction, and fails only if no sample of that size was found.", "quantifier": "all numbers of classes and exponents, all lists of probabilities (with NaN), all dimensions, training data, step histories, scales, random numbers, and all sequences of samples in the search", "why_tests_cant": "The proposals depend on all earlier random decisions and on an adaptive scale; failures appear only for particular differences in the number of points or options no test calls.", "anchors": ["posydon/active_learning/psy_cris/sample.py:Sampler.TD_classification", "posydon/active_learning/psy_cris/sample.py:Sampler.get_TD_classification_data", "posydon/active_learning/psy_cris/sample.py:Sampler.do_simple_density_logic", "posydon/active_learning/psy_cris/sample.py:Sampler.do_density_logic", "posydon/active_learning/psy_cris/sample.py:Sampler.get_proposed_points", "posydon/active_learning/psy_cris/sample.py:Sampler.normalize_step_history"]}
{"id": "C110", "title": "The tables of the active learning hold the right rows, classes, outputs and changes", "statement": "For all tables: omitting values removes exactly the rows with such a value; identifiers and classes are mapped to each other one to one and the rows get the identifiers of their classes; every row is in the tables of exactly its own class, and the binary data are 1 there and 0 elsewhere; outputs used for the regression are those with numbers; the columns of average changes are named for the number of neighbours used and are non-negative measures of the change; undefined values are removed before training, values are not; the regressor can be built for all tables and knows the largest change; several tables can be requested at once.", "quantifier": "all tables with any labels, cells (numbers, NaN, texts), classes (texts or integers), lists of numbers of neighbours, and values standing for undefined", "why_tests_cant": "The faults need particular tables: repeated labels, integer classes, a NaN in the first row of a class, decreasing numbers of neighbours, classes without numerical outputs.", "anchors": ["posydon/active_learning/psy_cris/data.py:TableData.__init__", "posydon/active_learning/psy_cris/data.py:calc_avg_p_change", "posydon/active_learning/psy_cris/data.py:TableData.get_data", "posydon/active_learning/psy_cris/data.py:TableData.get_binary_mapping_per_class", "posydon/active_learning/psy_cris/regress.py:Regressor.__init__", "posydon/active_learning/psy_cris/regress.py:Regressor._get_cleaned_regression_data_"]}
{"id": "C111", "title": "Classifiers of the active learning give probabilities, predictions with their points, and honest cross validations", "statement": "For all data, classifiers and random draws: every accepted name leads to one algorithm, unknown names are reported; probabilities lie between 0 and 1 and add up to 1 for every point; the predicted class is the most probable one, and predictions come exactly for the points that have values; a cross validation divides the points into different, sorted training points and all the others, reports a percentage, and leaves the trained classifiers in use whatever happens; repeated cross validations end.", "quantifier": "all names, outputs of the fitted functions (with NaN), numbers of classes and points, random draws, states of the classifier, and failures of fits", "why_tests_cant": "Points where all outputs vanish or are undefined, and exceptions inside a cross validation, are rare in tests, and their effects appear only in later calls.", "anchors": ["posydon/active_learning/psy_cris/classify.py:Classifier.get_classifier_name_to_key", "posydon/active_learning/psy_cris/classify.py:Classifier.train", "posydon/active_learning/psy_cris/classify.py:Classifier.return_probs", "posydon/active_learning/psy_cris/classify.py:Classifier.get_class_predictions", "posydon/active_learning/psy_cris/classify.py:Classifier.get_cross_val_data", "posydon/active_learning/psy_cris/classify.py:Classifier.cross_validate", "posydon/active_learning/psy_cris/classify.py:Classifier.make_cv_plot_data"]}
{"id": "C112", "title": "Dynamic sampling asks for new points from all small classes and the newest data, ends with the requested number, and its accuracy is measured honestly", "statement": "For all data and proposals: classes with a single point share the new points equally and all of them get some, the points are inside of the range of the data and come with their own predicted classes; every iteration proposes from all data so far, new points keep the threshold distance from all points including each other, the sampling ends with exactly the requested number; queries can be repeated with the same options; predictions are compared at their own points; regression accuracies are quantiles of the differences and rows of the confusion matrix add up to 1.", "quantifier": "all numbers of points and small classes, samples, ranges, predictions (with none), distances, thresholds, sequences of proposals and numbers of iterations, all lists of differences and limits", "why_tests_cant": "Which data an iteration uses is not visible in its results, and the end of the loop depends on all iterations; tests look at sizes only.", "anchors": ["posydon/active_learning/psy_cris/utils.py:get_new_query_points", "posydon/active_learning/psy_cris/utils.py:do_small_class_proposal", "posydon/active_learning/psy_cris/utils.py:do_dynamic_sampling", "posydon/active_learning/psy_cris/utils.py:check_dist", "posydon/active_learning/psy_cris/utils.py:get_regular_grid_df", "posydon/active_learning/psy_cris/utils.py:get_prediction_diffs", "posydon/active_learning/psy_cris/utils.py:calc_regression_accuracy", "posydon/active_learning/psy_cris/utils.py:get_confusion_matrix"]}
{"id": "C113", "title": "The tools for grids find the right columns, cells and results of runs", "statement": "For all grids and runs: a column of a supernova model is read from the data set of that model and of that star; joined lists of columns contain both, in order, without repetition; repaired histories have helium cores not smaller than carbon-oxygen cores and are otherwise unchanged; added fields leave the others as they are; cells contain their centres; proposed points are moved to the nearest cells, one per cell; the result of a run is named for what happened to the binary, and the table has the requested columns.", "quantifier": "all column names and sets of models, all lists, all histories (with NaN), all grids of centres, all proposed points, all texts of outputs, all histories or missing ones, all requested columns", "why_tests_cant": "Texts, lists and histories are unbounded and combine freely; tests check one output per result, equal distances and the models of one grid.", "anchors": ["posydon/utils/gridutils.py:_get_grid_column", "posydon/utils/gridutils.py:join_lists", "posydon/utils/gridutils.py:fix_He_core", "posydon/utils/gridutils.py:add_field", "posydon/utils/gridutils.py:get_cell_edges", "posydon/utils/gridutils.py:find_nearest", "posydon/utils/gridutils.py:get_final_proposed_points", "posydon/utils/gridutils.py:convert_output_to_table"]}
{"id": "C114", "title": "The files of runs and grids are found, and the final values of a grid survive a change", "statement": "For all folders: the history of the binary, the final models, the screen output, the logs and the metadata of a run are found, plain or compressed, whatever the order of the listing, and a run without any of them is warned about; ignored folders are not read; all metadata of a grid are listed once; files with equivalent evolutionary points are identified by their stars; adding or replacing a column of the final values leaves a file from which all columns can be read, and the grid stays usable; columns and runs give what is stored.", "quantifier": "all lists of file names in any order, all folders of a grid, all numbers of lines, all tables of numbers and texts, read at once or lazily, all columns and names, all runs", "why_tests_cant": "Orders of listings, tables and texts are unbounded; tests use folders with few files and grids that are read at once with numbers only.", "anchors": ["posydon/grids/io.py:RunReader", "posydon/grids/io.py:GridReader", "posydon/grids/io.py:print_meta_contents", "posydon/grids/psygrid.py:PSyGrid._discover_eeps", "posydon/grids/psygrid.py:PSyGrid.add_column", "posydon/grids/psygrid.py:PSyGrid.update_final_values", "posydon/grids/psygrid.py:PSyGrid._reload_hdf5_file", "posydon/grids/psygrid.py:PSyRunView.__getitem__", "posydon/grids/lazy_hdf.py:LazyHDF5"]}
{"id": "C115", "title": "Equivalent evolutionary points are the right rows, in order, with even distances between", "statement": "For all tracks: every phase is found in the first row that passes its threshold after the phase before; the phases come in the order of the evolution; the metric along the track never decreases; the result has one entry per phase and the requested number between neighbouring phases, at evenly increasing metric, interpolated between the rows of the two phases; the same position stands for the same phase in all tracks; tracks that end early or stars without hydrogen can be used with the phases they have.", "quantifier": "all tracks of any length, all lists of names of phases, all numbers of points between phases, all metrics", "why_tests_cant": "Tracks are unbounded sequences of abundances, luminosities and temperatures; there are no tests for this file, and tests could cover a few tracks only.", "anchors": ["posydon/interpolation/eep.py:EEP.__init__", "posydon/interpolation/eep.py:EEP._PreMS", "posydon/interpolation/eep.py:EEP._ZAMS", "posydon/interpolation/eep.py:EEP._IAMS", "posydon/interpolation/eep.py:EEP._TAMS", "posydon/interpolation/eep.py:EEP._TRGB", "posydon/interpolation/eep.py:EEP._ZACHEB", "posydon/interpolation/eep.py:EEP._TACHEB", "posydon/interpolation/eep.py:EEP._TPAGB", "posydon/interpolation/eep.py:EEP._PAGB", "posydon/interpolation/eep.py:EEP._WDCS", "posydon/interpolation/eep.py:EEP._CBurn", "posydon/interpolation/eep.py:EEP._metric_function"]}
{"id": "C116", "title": "Compressing the files of a grid keeps all data", "statement": "For all trees of folders: compressing removes the core dumps of runs, replaces every data file of a run by a compressed one with the same contents, and touches nothing else; afterwards nothing is left to remove or to compress; the counts and sizes that are reported are those of the tree; the text of a size has the right unit; a test folder has the requested fraction of the tracks of each run.", "quantifier": "all trees of folders with any names, links and contents, all sizes, bases and thresholds, all fractions and random choices", "why_tests_cant": "Trees and names are unbounded, and data are deleted; tests use one small tree with ordinary names.", "anchors": ["posydon/utils/compress_mesa_files.py:compress_dir", "posydon/utils/compress_mesa_files.py:get_size", "posydon/utils/compress_mesa_files.py:textsize", "posydon/utils/compress_mesa_files.py:set_up_test"]}
{"id": "C117", "title": "Values and sections of ini files are read as written", "statement": "For grids: an option that is an arithmetic expression of numbers (+, -, *, /, %) is read as the number it stands for; lists are read element by element; a text with commas is cut at the commas without blanks; anything that is not evaluated is read as JSON, and otherwise stays text. Every option is found in its section under its name in lower case, every section has the directory of MESA, and the file is accepted exactly if the four sections are there and the environment has the directory. For populations: all four sections are needed and only literals are accepted; every option has the value of the last section that says something about it; sections of stars only count if the star is in the output; other sections are ignored; MPI and job arrays exclude each other; rank, size and communicator are set from the job whatever the options say. For properties of a simulation: a section with a class is found under its name with the remaining options, the absolute location goes first; options of grid paths are found under their own names; reading only one section is the same as a file with this section only; values that are no literals are errors.", "quantifier": "all expressions, options, sections, orders of sections, environments and lists of files", "why_tests_cant": "There are infinitely many expressions and files, and the interplay of sections depends on their order, which tests with one file do not vary.", "anchors": ["posydon/utils/configfile.py:parse_inifile", "posydon/popsyn/io.py:parse_inifile", "posydon/popsyn/io.py:simprop_kwargs_from_ini", "posydon/popsyn/io.py:binarypop_kwargs_from_ini"]}
{"id": "C118", "title": "Columns with names and durations of steps fit to the history", "statement": "With the hooks for names and durations of steps, after every evolution the two columns have as many entries as the history has rows. A name in a row is the name of the step that wrote this row, the first row of each step has its name, the duration of a step is in its first row and in no other, and the first row has the initial entries. This also holds if steps write several rows, record matches, or are redirections that are not shown. After going back to an earlier row the columns still fit.", "quantifier": "all sequences of steps with any names, durations, numbers of rows, recorded matches and redirections, shown or not", "why_tests_cant": "The columns are only adjusted by their lengths after each step; whether an entry ends up in the right row depends on the whole sequence of steps.", "anchors": ["posydon/binary_evol/simulationproperties.py:TimingHooks", "posydon/binary_evol/simulationproperties.py:StepNamesHooks", "posydon/binary_evol/simulationproperties.py:SimulationProperties.post_step", "posydon/binary_evol/binarystar.py:BinaryStar.run_step", "posydon/binary_evol/binarystar.py:BinaryStar.restore"]}
{"id": "C119", "title": "Steps with grids are set up for the right files, and know the range of their grid", "statement": "A step with a grid is set up exactly if all options are known, tracks are only interpolated with the nearest neighbour, the metallicity is one of the eight of the grids, the grid is there and has runs with finite values, and the interpolators are there if the method needs them. The grid is that of the metallicity; different metallicities have different files; the interpolators are those of the method and the metallicity unless other files are given. The range of masses and periods is from the smallest to the largest initial value of the runs with finite values. The time at the end of a step is that of the nearest run or of the interpolators. The values of a supernova model are those of the star asked for.", "quantifier": "all options, metallicities, paths, files, grids with any values (also missing ones), and rows of supernova models", "why_tests_cant": "The checks depend on combinations of options and on all the runs of a grid; tests use a few options and mocked files.", "anchors": ["posydon/binary_evol/MESA/step_mesa.py:MesaGridStep.__init__", "posydon/binary_evol/MESA/step_mesa.py:MesaGridStep._find_boundaries", "posydon/binary_evol/MESA/step_mesa.py:MesaGridStep.get_final_MESA_step_time", "posydon/binary_evol/MESA/step_mesa.py:_collect_sn_model_values", "posydon/utils/common_functions.py:convert_metallicity_to_string"]}
{"id": "C120", "title": "Star formation histories from tables follow their tables", "statement": "For IllustrisTNG, Chruslinska et al. and Zavala et al. the rate at a redshift of the table is the value of the table, it is straight between neighbours and constant outside; the same holds for the mean metallicity, which is the average of the row and lies between the metallicities of the table. The rate of Chruslinska et al. is the mass of the row over its time. The metallicity distribution is the row of the largest redshift of the table not above the redshift. The metallicities of each scaling are positive and rise with the abundance of oxygen, the Sun has its own, their logarithms rise and are negative, so the distribution over bins applies. Unknown scalings and sub-models are refused.", "quantifier": "all tables with any number of redshifts and metallicities, all redshifts, scalings and sub-models, and any sorting of the nodes", "why_tests_cant": "The results depend on the order of the tables, on rows without star formation and on redshifts outside the table; tests use small mocked tables in one order.", "anchors": ["posydon/popsyn/star_formation_history.py:IllustrisTNG", "posydon/popsyn/star_formation_history.py:Chruslinska21", "posydon/popsyn/star_formation_history.py:Zavala21"]}
{"id": "C121", "title": "A population file opens as the population it holds, and opens the same way again", "statement": "A population file opens exactly if its name contains .h5, it has a history and a one-line table, parameters are in the file or given, and either masses are in the file and no metallicity is given, or a metallicity and parameters are given and there are systems. The lengths of histories are those of the file or else the number of rows of each system. The parameters of the list of saved ones are kept and all others dropped. With a metallicity the mass of all systems is counted, single stars without their companion, and divided into single stars and binaries. Opening does not change histories, one-line tables or channels, and a file that was opened once opens again, with nothing given, as the same population and is not changed any more.", "quantifier": "all files with any subset of tables and any rows, masses that are not numbers included, all metallicities and parameters", "why_tests_cant": "Opening depends on which of six tables are there and on two optional arguments, and changes the file on the way; tests use one complete file.", "anchors": ["posydon/popsyn/synthetic_population.py:Population.__init__", "posydon/popsyn/synthetic_population.py:PopulationIO", "posydon/popsyn/synthetic_population.py:History.__init__", "posydon/popsyn/synthetic_population.py:Oneline.__init__", "posydon/popsyn/synthetic_population.py:Population.formation_channels"]}
{"id": "C122", "title": "Regressors of the active learning are trained, used and cross-validated without mixing", "statement": "Every accepted name of a regressor, in any case, leads to its algorithm. Training that raises stores nothing; otherwise it stores the fit of every class and column asked for and changes no other entry. Training everything gives a fit to all points for every known name, class with data and column. Predictions are those of the stored fit, one for each point, and never those of another class, column or algorithm. The largest change is a predicted value of a column of changes and no other such column has a larger one. Cross validation divides the points of a class into training and tests, each point once, does not depend on the outputs at the tests, and, whether it succeeds or raises, leaves the fits and all later predictions as they were. The differences are prediction minus output in the order of the tests, those in percent are of the output for all tests whose output is not zero, and the percentage outside of a cutoff is the share of those differences.", "quantifier": "all tables of inputs and outputs by classes, with missing and undefined values, all names, draws, shares and cutoffs, all fitted functions, and all states of a regressor", "why_tests_cant": "The switch between the fits and those of the cross validation is kept in the object and has to be unset on every way out; draws are random; tests check one class of one small table.", "anchors": ["posydon/active_learning/psy_cris/regress.py:Regressor.train_everything", "posydon/active_learning/psy_cris/regress.py:Regressor.train", "posydon/active_learning/psy_cris/regress.py:Regressor.get_predictions", "posydon/active_learning/psy_cris/regress.py:Regressor.get_cross_val_data", "posydon/active_learning/psy_cris/regress.py:Regressor.cross_validate", "posydon/active_learning/psy_cris/regress.py:Regressor.get_max_APC_val", "posydon/active_learning/psy_cris/regress.py:Regressor.mult_diffs"]}
{"id": "C123", "title": "Core-collapse engines give back their tables and never leave their range", "statement": "An engine of Sukhbold+16 trained from a table answers for every star with a neutron star or a black hole; for the helium core of a row that is used it gives the state and the mass of the row; neutron stars have masses in the range of the table and black holes too, or, beyond the table, the mass of the core; rows with fallback have no influence. With Couch+20, a star of the table explodes exactly if its energy is not zero. A table of Patton+20 is read with abundances by rows and masses by columns, every looked-up value is in the range of the table and at an entry it is the entry. The core at helium depletion is the stored one, otherwise that of the first record with depleted helium, otherwise an error; with the approximation the abundance is that for hydrogen-rich or for stripped stars. With Patton+20, cores up to 2.5 become neutron stars of 1.25, cores of 10 and more black holes, and other neutron stars have a mass in the range of the table.", "quantifier": "all tables with any rows, all engines and strengths, all stars and histories, all searches for nearest rows", "why_tests_cant": "The tables are downloaded files and the answers come from nearest neighbours and interpolations in them; tests check a few stars of the files of one version.", "anchors": ["posydon/binary_evol/SN/step_SN.py:Sukhbold16_corecollapse.__init__", "posydon/binary_evol/SN/step_SN.py:Couch20_corecollapse.__init__", "posydon/binary_evol/SN/step_SN.py:StepSN.__init__", "posydon/binary_evol/SN/step_SN.py:StepSN.get_CO_core_params", "posydon/binary_evol/SN/step_SN.py:StepSN.get_M4_mu4_Patton20", "posydon/binary_evol/SN/step_SN.py:StepSN.Patton20_corecollapse"]}
{"id": "C124", "title": "What one task of the pipeline does with its row and with the files", "statement": "A task of the post-processing pipeline works on the row with its own index of its own table, raises when the table, the row, a column or a file is missing, uses the settings its compression and grid type stand for, writes only the files its row names (contents as documented), and its checks report the true counts and the share of failed runs.", "quantifier": "all tables, rows and indices, all contents of the disk, all compressions and grid types, all outcomes of the processing that a task calls, all grids that are checked", "why_tests_cant": "Tests run one task on one prepared directory; that no other file is touched, that inputs survive failures and that the rate is right for every grid are statements about all disks, rows and failures.", "anchors": ["bin/posydon-run-pipeline: create_grid_slice, combine_grid_slices, calculate_extra_values, train_profile_interpolators, export_dataset, do_check, COMPRESSIONS"]}
{"id": "C125", "title": "Slices of grids and of populations in plots", "statement": "Plots of a grid are made for slices around rising values, one slice for each value with the value inside; every run of the grid is in a slice; the range for compact objects contains all masses of the grid. A quantity is plotted under its own name, with LOG10_ on a logarithmic scale. The population shown over a grid consists of the binaries of the metallicity and channel at the event of the grid, with the ratio of the lighter to the heavier star, each drawn once and coloured with its own property.", "quantifier": "all ranges, steps and numbers of values on linear and logarithmic scales, all values of runs, all names of quantities and presets, all populations with any history", "why_tests_cant": "Plots are looked at, not tested; which runs and binaries are missing or shown twice depends on values at the edges of slices and on the events of all histories.", "anchors": ["bin/posydon-run-pipeline: plot_grid", "posydon/visualization/plot_pop.py:get_population_data", "posydon/visualization/plot_pop.py:setup_grid_slice_plotting", "posydon/visualization/plot_pop.py:plot_population_data", "posydon/visualization/plot2D.py"]}
{"id": "C126", "title": "Counts of different evolutions in a population", "statement": "When the evolutions of a population are counted, each binary is counted once with all of its rows, however the file is cut into pieces; the table has one line for each different evolution with the first binary that has it and the number of binaries that have it; the numbers add up to the number of binaries, the frequencies to 100 percent, and the most frequent evolutions are given in falling order with none more frequent left out.", "quantifier": "all histories with rows in order of the binaries, all cuts into pieces of any sizes, all columns and hashes, all numbers asked for", "why_tests_cant": "The rows of a binary fall on both sides of a cut only for particular sizes; tests with small files are read in one piece.", "anchors": ["posydon/visualization/VH_diagram/ParseDataFrame.py:ParseDataFrame"]}
{"id": "C127", "title": "Assessment of interpolators", "statement": "The relative error of an interpolated value is its distance to the true one in units of the true one, never negative, zero exactly for an exact value and independent of units; each row of a confusion matrix has the shares of the predictions for the runs of a class, which add up to one; the weighted diagonal is the number of right predictions; only runs that converged are used; plots have the errors of the quantities asked for, of the runs of a class, and of the slice asked for.", "quantifier": "all true and interpolated values including infinite and missing ones, all runs with any classes and predictions, all lists of quantities, all slices and initial conditions", "why_tests_cant": "The numbers decide which interpolators are used; tests compare figures of one small grid, in which no value is zero or missing and every class has runs.", "anchors": ["posydon/visualization/interpolation.py:EvaluateIFInterpolator"]}
{"id": "C128", "title": "Options of the steps", "statement": "A step has every option as it was given and the others as by default, and refuses an option it does not know; the order of the options, and giving an option its default value, make no difference; the evolution of detached binaries has the processes of its step; a step that is loaded gets the metallicity, the track matcher, the generator of random numbers and the grid that belong to it besides its own options, and options of the matcher go to the matcher only; every option of the default parameter file is taken.", "quantifier": "all classes of steps, all dictionaries of options with any values, all metallicities, all names of steps, all sections of the default parameter file", "why_tests_cant": "A mistyped or dropped option changes the physics of a whole population without an error; tests make each step with a few options.", "anchors": ["posydon/binary_evol/MESA/step_mesa.py:MesaGridStep.__init__", "posydon/binary_evol/DT/step_detached.py:detached_step.__init__", "posydon/binary_evol/DT/step_merged.py:MergedStep.__init__", "posydon/binary_evol/CE/step_CEE.py:StepCEE.__init__", "posydon/binary_evol/SN/step_SN.py:StepSN.__init__", "posydon/binary_evol/simulationproperties.py:load_a_step", "posydon/binary_evol/simulationproperties.py:check_step", "posydon/popsyn/population_params_default.ini"]}
{"id": "C129", "title": "Inputs and outputs of the initial-final interpolators", "statement": "Every final quantity of a grid is, once, interpolated, left out for missing values or a class, and keeps a name of its own; a classifier is trained for exactly the classes that are known for some usable track; whether mass ratios are used depends on the mass ratios of the grid and not on the unit of the masses; the scale of an input is chosen from its own values and neither from their unit nor from the order of the runs, for all runs and for each class; the reports of missing values count the tracks of each class, and the errors reported are those of the runs predicted well; a slice has the runs within half a step.", "quantifier": "all grids with any columns and values, all units, all orders of runs, all class names, all predictions, all axes", "why_tests_cant": "A quantity that is silently treated in another way or scaled badly gives plausible but worse interpolations; tests use a few columns and one grid.", "anchors": ["posydon/interpolation/IF_interpolation.py:BaseIFInterpolator.__init__", "posydon/interpolation/IF_interpolation.py:_interpIn_q", "posydon/interpolation/IF_interpolation.py:_bestInScaling", "posydon/interpolation/IF_interpolation.py:train_classifier", "posydon/interpolation/IF_interpolation.py:analize_nans", "posydon/interpolation/IF_interpolation.py:analize_nones", "posydon/interpolation/IF_interpolation.py:assess_models", "posydon/interpolation/IF_interpolation.py:is_in_ball"]}
{"id": "C130", "title": "Neighbours, test points and made-up data of the active learning", "statement": "The neighbours of a point are other points, the nearest ones, as many as asked for, and the average distance is the mean of the smallest distances to other points; too many neighbours are refused; neighbours are searched among the data given; stored tables are found by their names in any case, one or several; random test points are as many as asked for and fill exactly the box of the data or the ranges given; the made-up data have one of their classes at every point, by the limits and priorities of the classes.", "quantifier": "all sets of points with any distances, all searches that return nearest points, all lists of numbers of neighbours, all names, all data and ranges, all random numbers, all points of the plane and of space", "why_tests_cant": "Ties of a search, points that coincide, boundaries of classes and corners of the box are not hit by chosen test points.", "anchors": ["posydon/active_learning/psy_cris/data.py:calc_avg_dist", "posydon/active_learning/psy_cris/data.py:find_n_neighbors", "posydon/active_learning/psy_cris/data.py:_return_data_", "posydon/active_learning/psy_cris/data.py:get_class_data", "posydon/active_learning/psy_cris/data.py:get_regr_data", "posydon/active_learning/psy_cris/classify.py:get_rnd_test_inputs", "posydon/active_learning/psy_cris/regress.py:get_rnd_test_inputs", "posydon/active_learning/psy_cris/synthetic_data/synth_data_2D.py:cls_curve", "posydon/active_learning/psy_cris/synthetic_data/synth_data_2D.py:get_output_2D", "posydon/active_learning/psy_cris/synthetic_data/synth_data_3D.py:analytic_classification_3D"]}
{"id": "C131", "title": "Questions and logs of the check of a run", "statement": "When a population run is checked: the parameter file used is always one of the run's, the one the user names by its place in alphabetical order, or the first if the answer is no such place; there is an error only if there is none. The job whose logs are read is always one that left logs, the first valid answer decides, and for a single job nothing is asked; every missing task is reported with its own log of that job, and the names of logs of different tasks or jobs differ. A task is said to have run out of time exactly if its log says so at the end. Nothing is submitted, written or started without a yes, and the exit code is 0 only for a run that passed or whose repair was started. (Violated: the log of merging is taken for the log of a task, so once it is there the check of logs always ends with an error; the logs of repeated tasks are never read; in a log of two lines only the first counts; the exit code does not tell whether merge jobs were submitted.)", "quantifier": "all folders and names of files, all sequences of answers, all job numbers and task numbers, all contents of logs, all outcomes of the check", "why_tests_cant": "Answers are typed by users and logs are written by the queue; tests replace both by a few mocked values, and never put the log of the merge job, which the same package names, in the folder.", "anchors": ["posydon/CLI/popsyn/check.py:get_ini_file", "posydon/CLI/popsyn/check.py:select_job_id", "posydon/CLI/popsyn/check.py:read_batch_log_file", "posydon/CLI/popsyn/check.py:analyze_missing_batch_logs", "posydon/CLI/popsyn/check.py:get_user_confirmation", "posydon/CLI/popsyn/check.py:submit_slurm_job", "posydon/CLI/popsyn/check.py:handle_batches_complete", "posydon/CLI/popsyn/check.py:check_popsyn_function", "posydon/CLI/popsyn/setup.py:validate_ini_file", "posydon/CLI/io.py:create_slurm_merge"]}
{"id": "C132", "title": "Comparing two runs of the test binaries", "statement": "Two result files of the test binaries are reported as identical (exit code 0), in the default exact mode, exactly if they contain evolutions of the same binaries with as many rows each, the same columns and the same values row by row (NaN equal to NaN), the same warnings per binary, the same failing binaries with the same errors, and tables with the same names; neither the order of columns nor that of binaries matters. What is reported is true: steps, counts and the step of the largest difference. With tolerances all values lie within them. A file compared with itself gives 0, a missing file or unreadable column 2. The suite's files contain every binary either as evolution or as error, and the check for completeness names exactly those that left no row. (Violated: None and the text 'None' are not told apart; exchanging the files can change the answer, because the baseline's type decides how a column is compared; a binary that failed in both files and whose evolution is in only one is not reported; only the first error of a binary counts; categories and messages of warnings are compared apart; two equal files without evolutions are 'different'; with tolerances the result still says 'exactly'; options given in the documented way before the third word are taken for the baseline or the metallicities; the script succeeds if there is no baseline at all.)", "quantifier": "all pairs of files with any number of binaries, rows, columns, warnings and errors; all tolerances; all ways numbers are written or read; all outcomes of the test binaries; all word lists of the script", "why_tests_cant": "A comparison tool is what the tests themselves rely on; that it never says 'identical' for different files is a statement about all pairs of files, and its own tests, if any, compare a handful.", "anchors": ["dev-tools/script_data/src/compare_runs.py:compare_evolution_tables", "dev-tools/script_data/src/compare_runs.py:compare_warnings_tables", "dev-tools/script_data/src/compare_runs.py:compare_errors_tables", "dev-tools/script_data/src/compare_runs.py:classify_column", "dev-tools/script_data/src/compare_runs.py:main", "dev-tools/script_data/src/binaries_suite.py:evolve_binary", "dev-tools/script_data/src/binaries_suite.py:evolve_binaries", "dev-tools/validate_binaries.sh"]}
{"id": "C133", "title": "A dynamic MESA grid runs every sampled point once, records its result and ends", "statement": "For every number of processes, number of iterations, sampling and run times: each sampled point is run by exactly one process, each result is added to the grid exactly once and belongs to its point, the table on disk always holds the grid with all results received so far, the processes never wait for each other, the requested number of results is recorded and the job ends with no result thrown away; the masses and the period of a sampled point are those that MESA runs, and the results of fixed grids are collected in a table as well.", "quantifier": "all interleavings of the steps of all processes, all numbers of processes and iterations, all samplings and results, all sets of sampled columns", "why_tests_cant": "The outcome depends on the order in which MPI processes finish; the script has no tests and cannot be run without MESA.", "anchors": ["bin/posydon-run-grid:do_root_process_logic", "bin/posydon-run-grid:do_child_process_logic", "bin/posydon-run-grid:convert_input_cols_to_mesa_cols", "bin/posydon-run-grid:extract_mesa_results", "bin/posydon-run-grid:run_mesa", "bin/posydon-run-grid:move_mesa_output", "posydon/grids/io.py:GridReader"]}
{"id": "C134", "title": "The flags and the class stored for a MESA run follow from its log and its histories", "statement": "Every run with a binary history and complete histories of its stars gets four flags: the text of the last decisive line of its log (or the flag given by the caller), the mass-transfer flag of the models with the states the stars have at the same models, and the states of both stars at the last model; the stored class is that of not converged runs, of overflow at the start, of no transfer, of stable transfer, or of transfer in both directions exactly if each star is a donor in some model. Missing columns, short histories and missing histories raise. The states of the last N steps of a binary are those of its last N rows in order.", "quantifier": "all logs, all histories of any length with any values, all classifications of stars, with and without a start at overflow, all numbers N", "why_tests_cant": "Tests use a handful of stored runs; the agreement of states with models, the order of checks and the totality hold for all histories only by proof.", "anchors": ["posydon/grids/termination_flags.py:get_flag_from_MESA_output", "posydon/grids/termination_flags.py:get_mass_transfer_flag", "posydon/grids/termination_flags.py:check_state_from_history", "posydon/grids/termination_flags.py:get_flags_from_MESA_run", "posydon/grids/psygrid.py:PSyGrid._create_psygrid", "posydon/utils/common_functions.py:get_binary_state_and_event_and_mt_case_array"]}
{"id": "C135", "title": "Whole evolutions: stars only wear out, and an evolution stops for known reasons", "statement": "Along any sequence of steps chosen by the default flow chart a compact object never becomes a star again and a star that is gone stays gone; there are at most two supernovae, one per star, and at most one merger; stars without a companion keep their state and only see the steps made for them; two compact objects end with their next step; the steps that begin an evolution are taken at its beginning only; and an evolution is left without a next step only for one of a short list of reasons.", "quantifier": "all starting binaries, all sequences of steps of any length, any masses, orbits, tracks, options and random numbers at every step", "why_tests_cant": "Tests evolve a few binaries; invariants of all sequences of steps need induction over evolutions of any length with the models of all steps composed.", "anchors": ["posydon/binary_evol/binarystar.py:BinaryStar.evolve", "posydon/binary_evol/flow_chart.py:flow_chart", "posydon/binary_evol/MESA/step_mesa.py:MesaGridStep.__call__", "posydon/binary_evol/DT/step_detached.py:detached_step.__call__", "posydon/binary_evol/CE/step_CEE.py:StepCEE.__call__", "posydon/binary_evol/DT/step_merged.py:MergedStep.__call__", "posydon/binary_evol/SN/step_SN.py:StepSN.__call__", "posydon/binary_evol/DT/double_CO.py:DoubleCO.__call__"]}
{"id": "C136", "title": "Evolutions with flow charts of one's own", "statement": "With any flow chart that does not merge nothing with nothing, in particular the default one with changes, the one for binaries born eccentric and the example chart, stars only wear out and there are at most two supernovae and one merger. An evolution with the example chart is one with the default chart except that it begins with the detached step, it never uses the grids of mass transfer, and it stops where a star begins to fill its Roche lobe. A binary born eccentric is left without a next step only for the reasons known for the default chart.", "quantifier": "all flow charts and changes to them, all starting binaries, all sequences of steps of any length, any data at every step", "why_tests_cant": "Charts are data supplied by users; the statement is about all of them and all evolutions through them, which no set of runs can settle.", "anchors": ["posydon/user_modules/my_flow_chart_example.py:modified_flow_chart", "posydon/binary_evol/flow_chart.py:flow_chart", "posydon/binary_evol/flow_chart.py:initial_eccentricity_flow_chart", "posydon/binary_evol/binarystar.py:BinaryStar.evolve"]}
{"id": "C137", "title": "What a plot of a grid shows", "statement": "A two-dimensional plot of a grid shows the runs of the slices that were asked for and no others, each with its own initial values (or their logarithms), its own flag, its own track up to the first row in which star 1 overflows, and its own colour: the final value, the last value of the history or the value at the onset of overflow. Without limits given the colours range from the least to the greatest shown. Plotting leaves the grid as it is.", "quantifier": "all grids of any number of runs with histories of any length and with missing histories and values, all names, slices, flags, scales and sequences of panels", "why_tests_cant": "Plots are looked at, not compared; a value shown for the wrong run or a run left out goes unnoticed, and the choices of columns, slices and histories combine in too many ways.", "anchors": ["posydon/visualization/plot2D.py:plot2D.__init__", "posydon/visualization/plot2D.py:plot2D.update_values_to_plot", "posydon/visualization/plot2D.py:plot2D.get_x_var", "posydon/visualization/plot2D.py:plot2D.get_y_var", "posydon/visualization/plot2D.py:plot2D.get_z_var", "posydon/visualization/plot2D.py:plot2D.add_properties_to_initial_values", "posydon/visualization/plot2D.py:plot2D.add_properties_to_final_values", "posydon/visualization/plot2D.py:plot2D.__call__"]}
{"id": "C138", "title": "Panels and legends of plots of grids", "statement": "A plot with several slices has one panel for each slice, in order, and a legend in cells of its own. In each panel each run of the slice is drawn exactly once. Each text of the legend stands once, beside a marker of a flag with that text, also after sorting.", "quantifier": "all numbers of slices of both quantities, all numbers of columns, all positions of the legend, all lists of flags and all tables of markers", "why_tests_cant": "The arrangement depends on arithmetic with four numbers; tests look at one arrangement, and whether a legend is right is judged by eye.", "anchors": ["posydon/visualization/plot2D.py:plot2D.__call__", "posydon/visualization/plot2D.py:plot2D.plot_panels", "posydon/visualization/plot2D.py:plot2D.plot_panel"]}
{"id": "C139", "title": "Curves and Hertzsprung-Russell diagrams of runs", "statement": "`PSyGrid.plot` draws for each chosen run its own columns, on the scales asked for, one panel per quantity; the limits of the colours that are not given are the least and the greatest colour over all runs and given ones are used. `PSyGrid.HR` shows all of every run within its limits and draws each point in the colour of the state of the star, all states with a legend entry. (Violated: a list with one quantity, or a list together with colours, cannot be drawn; a run without the history makes the plot fail although the names are checked with another run; luminosities below that of the Sun fall outside the limits; limits given for a diagram are replaced; lines of constant radius need all four limits; five states which the classification can return have no colour and make the diagram fail; three states are drawn but not in the legend and different states share a colour.)", "quantifier": "all choices of runs, histories with any columns and values, requests, limits, and states of stars", "why_tests_cant": "Tests draw one or two bright tracks and look at whether a figure appears; they never have faint stars, accreting helium stars, runs without a history or lists with one entry.", "anchors": ["posydon/visualization/plot1D.py:plot1D", "posydon/grids/psygrid.py:PSyGrid.plot", "posydon/grids/psygrid.py:PSyGrid.HR", "posydon/visualization/plot_defaults.py:DEFAULT_MARKERS_COLORS_LEGENDS"]}
{"id": "C140", "title": "Symbols of mass-transfer histories in plots", "statement": "Every history of mass transfer of a run gets a symbol in plots of grids. For a history that is not in the table of symbols the marker is a square if only the first star is a donor, a circle if only the second is, and otherwise a triangle that tells the last donor; the colour tells the only case or the first of several; the text is the history itself, so different histories have different texts; other flags are black crosses. Adding a flag keeps all entries and the result does not depend on the order. (Violated by the table: one history with one donor is written twice and has the marker of two donors; with two donors the markers do not tell the last donor; four histories have the texts of other histories; colours of the table mean other cases than those of the rule; histories that are not in the table may share a symbol.)", "quantifier": "all histories of mass transfer of any length with any cases and donors, all dictionaries of symbols and all lists of flags", "why_tests_cant": "Histories of mass transfer are unbounded sequences; tests of the plots only check that figures are made.", "anchors": ["posydon/visualization/plot_defaults.py:add_flag_to_MARKERS_COLORS_LEGENDS", "posydon/visualization/plot_defaults.py:DEFAULT_MARKERS_COLORS_LEGENDS", "posydon/utils/common_functions.py:cumulative_mass_transfer_string"]}
{"id": "C141", "title": "Histograms of populations lose nothing", "statement": "The histogram of delay times of a transient population, of all metallicities or of one, has an area equal to the summed weights of the events shown, the metallicities together have all events, and a metallicity that is not in the population is refused. The histograms of a property of events have bars whose sum is the summed weight of the events (of the channel) shown, on the same edges for the intrinsic and the observable population; normalised ones sum to one. Up to twenty channels are drawn in different colours, more are refused. Comoving volumes of neighbouring redshift shells add up and are not negative. (Violated: a metallicity close but not equal to one of the population passes the check and shows nothing; normalised bars are labelled as a density but their area is not one; the plot of rate densities fails with an index error beyond twenty channels.)", "quantifier": "all populations with any number of events, times, weights, metallicities and channels, all numbers of bins, all shells of redshift", "why_tests_cant": "Plots are excluded from the coverage of the tests; conservation of weight for all data and bins is not something a figure can show.", "anchors": ["posydon/popsyn/synthetic_population.py:TransientPopulation.plot_delay_time_distribution", "posydon/popsyn/synthetic_population.py:Rates.plot_hist_properties", "posydon/visualization/plot_pop.py:plot_hist_properties", "posydon/visualization/plot_pop.py:plot_merger_efficiency", "posydon/visualization/plot_pop.py:plot_rate_density", "posydon/popsyn/rate_calculation.py:get_shell_comoving_volume"]}
{"id": "C142", "title": "Radii and lifetimes from fitting formulae are physical", "statement": "The zero-age main-sequence radius returned for a positive mass is a positive number for every metallicity of the grids, depends on metallicity only through its ratio to the solar one, and is undefined exactly for metallicities that are not positive or negative masses; the duration of helium burning is positive, refused exactly for masses that are not positive, and never longer for a heavier star.", "quantifier": "all positive masses, all metallicities and all solar metallicities", "why_tests_cant": "The formulae are rational functions of degree 19.5 with nine metallicity-dependent coefficients; tests compare a few masses at solar metallicity.", "anchors": ["posydon/utils/common_functions.py:rzams", "posydon/utils/common_functions.py:He_MS_lifetime"]}
{"id": "C143", "title": "Every data set that is offered can be listed and obtained", "statement": "Every name shown by the lists of data sets is accepted by the download command and, with a working connection, obtained completely: all archives of the set are unpacked in their order, each once, and none is left behind; every member of a complete set is published with its own file and checksum; the defaults of the download functions are such names; an archive that fails stops the download without touching what came before.", "quantifier": "all names, options, data directories and states of the disk; the tables of published data sets as they are", "why_tests_cant": "Unit tests replace the network and the tables by small stand-ins and never go through the published tables.", "anchors": ["posydon/utils/datasets.py:ZENODO_COLLECTION", "posydon/utils/datasets.py:COMPLETE_SETS", "posydon/utils/data_download.py:list_datasets", "posydon/utils/data_download.py:_get_posydon_data", "posydon/utils/data_download.py:_parse_commandline", "posydon/config.py:ensure_path"]}
{"id": "C144", "title": "The results of a population are determined by its entropy", "statement": "Creating a population with a given entropy and evolving it gives the same initial binaries and the same results whatever was done before in the session; all random numbers, of the sampling and of the steps, come from the generator of that entropy and no other generator is moved; a generator given in the options of a step is used; asking for more binaries does not change the earlier ones; resetting the generator starts the same binaries anew; the initial binaries do not depend on the physics of the steps.", "quantifier": "all entropies, sessions (generators made and used before), tables of steps, sampling and evolution computations with any number of draws depending on earlier draws, and lists of indices", "why_tests_cant": "Tests run one population in a new process with fixed seeds; the sharing of generator objects between properties, populations and modules shows only in sequences of runs.", "anchors": ["posydon/binary_evol/simulationproperties.py:SimulationProperties.load_steps", "posydon/binary_evol/simulationproperties.py:SimulationProperties.check_step", "posydon/binary_evol/simulationproperties.py:SimulationProperties.from_ini", "posydon/popsyn/binarypopulation.py:BinaryPopulation._safe_evolve", "posydon/popsyn/binarypopulation.py:BinaryGenerator.reset_rng", "posydon/popsyn/independent_sample.py:generate_independent_samples"]}
{"id": "C145", "title": "What a grid and a run say about themselves is true", "statement": "The text description of a grid gives the number of its runs, for each kind of table the number of runs that have one with data, the columns of the tables, of the initial and of the final values, and its directories: the shown ones and the number of others add up to all, the first and the last are shown, none twice. The report of a run says yes exactly for the files that are in its folder, plain or compressed.", "quantifier": "all grids with any number of runs, any tables missing or empty in any of them, and any list of directories; all folders of runs", "why_tests_cant": "Tests compare the text of one small grid whose runs all have the same tables.", "anchors": ["posydon/grids/psygrid.py:PSyGrid.__str__", "posydon/grids/io.py:RunReader.report"]}
{"id": "C146", "title": "Period, separation and masses of a bound binary agree with Kepler's third law", "statement": "After a binary is built from one of period and separation, and after every common envelope it survives, every supernova, every detached evolution and every inspiral of two compact objects, the recorded orbital period, separation and masses of the two stars obey Kepler's third law to better than 0.05%, or neither period nor separation is a number. This holds for the masses recorded after the step (cores, remnants, compact objects), in all options and in both orders of the stars. If both period and separation are given at construction they are used as they are. Orbits interpolated between grid points keep the law only in the logarithm and at one total mass.", "quantifier": "all binaries, options, kicks, remnants, solutions of the orbit and interpolation weights; any number of interpolation points", "why_tests_cant": "Tests compare single values of one step; that two numbers written in different places by different formulas always belong together with the masses is a statement about all paths.", "anchors": ["posydon/binary_evol/binarystar.py:BinaryStar.__init__", "posydon/binary_evol/CE/step_CEE.py:StepCEE", "posydon/binary_evol/SN/step_SN.py:StepSN", "posydon/binary_evol/DT/step_detached.py:detached_step.update_after_evo", "posydon/binary_evol/DT/double_CO.py", "posydon/binary_evol/MESA/step_mesa.py", "posydon/utils/common_functions.py:orbital_period_from_separation"]}
{"id": "C147", "title": "Over a whole evolution time does not run backwards and no mass is created", "statement": "Through any number of steps of any kind (grid, detached, common envelope, supernova, inspiral of compact objects, merger), in any order, the recorded time does not decrease and the total mass of the two stars does not increase. Common envelopes, supernovae and mergers take no time; a detached evolution ends later than it begins.", "quantifier": "all sequences of steps of any length and all binaries, options, kicks, solutions of the orbit and recorded times; data of tracks and interpolators as stated", "why_tests_cant": "Each step is written by different code and tests look at one step at a time; that nothing gains mass or goes back in time over arbitrary histories needs an invariant.", "anchors": ["posydon/binary_evol/CE/step_CEE.py:StepCEE", "posydon/binary_evol/SN/step_SN.py:StepSN", "posydon/binary_evol/DT/step_detached.py:detached_step", "posydon/binary_evol/DT/double_CO.py", "posydon/binary_evol/DT/step_merged.py:MergedStep"]}
{"id": "C148", "title": "Exchanging the labels of the two stars exchanges them in the whole evolution and changes nothing else", "statement": "Evolving a binary whose two stars (with all columns, states and events that carry the number of a star) are exchanged gives the exchanged result of evolving the binary: the same number of steps, the same end or the same error, and exchanged stars, orbits and histories row by row.", "quantifier": "all binaries, numbers of steps, step functions, hooks, end conditions and step limits that do not look at the labels; all histories recorded so far", "why_tests_cant": "Tests evolve one labelling; which star is called the first is a convention, and that nothing depends on it along a whole evolution is a statement about pairs of runs of any length.", "anchors": ["posydon/binary_evol/binarystar.py:BinaryStar.evolve", "posydon/binary_evol/binarystar.py:BinaryStar.run_step", "posydon/binary_evol/binarystar.py:BinaryStar.append_state", "posydon/binary_evol/flow_chart.py"]}
{"id": "C149", "title": "The kind of a compact object agrees with its mass, and its radius with its kind, through a whole evolution", "statement": "After every step a star called a neutron star has between 1.1 and 2.5 solar masses, one called a black hole has more, one called a white dwarf has a positive mass of at most 1.46, and a massless remnant has none; the recorded radius is the one of the recorded kind and mass.", "quantifier": "all binaries with stars or compact objects that agree at the start; all sequences of steps of any length and order (common envelope, supernova, merger, grid, detached, double compact object, reclassification) with any data from grids and any classification of stars", "why_tests_cant": "Each step has its own code for states and masses (several with different limits), and a compact object passes through many of them; tests look at one step with one mass, far from the limits.", "anchors": ["posydon/utils/common_functions.py:infer_star_state", "posydon/utils/common_functions.py:check_state_of_star", "posydon/utils/common_functions.py:CO_radius", "posydon/binary_evol/MESA/step_mesa.py:MesaGridStep.update_properties_NN", "posydon/binary_evol/MESA/step_mesa.py:MesaGridStep.initial_final_interpolation", "posydon/binary_evol/SN/step_SN.py:StepSN.__call__", "posydon/binary_evol/singlestar.py:SingleStar.__init__"]}
{"id": "C150", "title": "The spin of a compact object lies between zero and one and does not decrease, through a whole evolution", "statement": "From its formation on a compact object has a dimensionless spin between zero and one, which only accretion changes and never decreases; other steps leave it alone. It stays a compact object until it is absorbed, and nothing that is gone comes back.", "quantifier": "all binaries, all sequences of steps of any length and order (common envelope, supernova, merger, grid, detached, double compact object, reclassification), all data of grids, profiles and interpolated models with spins in the range", "why_tests_cant": "The spin at a merger is the result of every step since the supernova, each with its own code; tests check the formula for accretion with single numbers.", "anchors": ["posydon/utils/common_functions.py:spin_stable_mass_transfer", "posydon/binary_evol/MESA/step_mesa.py:MesaGridStep.update_properties_NN", "posydon/binary_evol/MESA/step_mesa.py:MesaGridStep.initial_final_interpolation", "posydon/binary_evol/SN/step_SN.py:StepSN.collapse_star", "posydon/binary_evol/DT/step_merged.py:MergedStep.merged_star_properties"]}
{"id": "C151", "title": "The orbit is an ellipse, or there is none, through a whole evolution", "statement": "Whatever steps a binary goes through, its recorded separation is positive and its recorded eccentricity at least zero and less than one, and both are there or both are missing; so the distance at periastron is positive. A common envelope leaves a circular orbit or a merger, a supernova an ellipse or no orbit, two compact objects an orbit that is not wider.", "quantifier": "all binaries, all sequences of steps of any length and order (common envelope, supernova with any kick, detached, double compact object, isolated, merger, grid), all data of tracks with positive separations", "why_tests_cant": "The orbit is rewritten by each step with its own formulas from what the former one left; tests look at single steps with given orbits.", "anchors": ["posydon/binary_evol/CE/step_CEE.py:StepCEE.CEE_simple_alpha_prescription", "posydon/binary_evol/SN/step_SN.py:StepSN.orbital_kick", "posydon/binary_evol/DT/step_detached.py:detached_step.__call__", "posydon/binary_evol/DT/double_CO.py:DoubleCO", "posydon/binary_evol/DT/step_isolated.py:IsolatedStep"]}
{"id": "C152", "title": "The profile and values a star takes to its supernova are a consistent blend of two runs", "statement": "When a star reaches the end of its track, the values and the profile it is given come from the grid of its own kind of track at the mass of its track. Each column of the profile lies between the states of the two neighbouring runs at the same fraction of the mass: masses and radii stay ordered, mass fractions still add up to one, every column stays in its range, the mass at the surface is that of the star at the end of its track, and the star rotates like a solid body with its own angular velocity. Nothing else of the star changes; masses outside the grid are refused.", "quantifier": "all grids of single stars with ordered profiles of any number of cells, all masses, both kinds of tracks, all sorting functions", "why_tests_cant": "The result is a mixture of two runs with different cells and masses for each of which another one is the reference; tests use a few runs and masses and look at few cells.", "anchors": ["posydon/binary_evol/track_match.py:TrackMatcher.get_star_final_values", "posydon/binary_evol/track_match.py:TrackMatcher.get_star_profile", "posydon/interpolation/interpolation.py:GRIDInterpolator.get_profile", "posydon/interpolation/interpolation.py:GRIDInterpolator.get_final_values", "posydon/utils/key_library.py:DEFAULT_PROFILE_KEYS"]}
{"id": "C153", "title": "Cores lie inside their stars through a whole evolution", "statement": "If at the start the carbon-oxygen core of each star is not heavier than its helium core and the helium core not heavier than the star, then this holds after any number of steps: a common envelope strips a giant to its core, which becomes star and core alike; the product of a merger has the sums of masses and cores; a white dwarf is all core; a neutron star or black hole has no helium core; a supernova leaves the cores of the other star alone.", "quantifier": "all binaries, all sequences of grid, detached, common-envelope, merger and supernova steps of any length, all options of the common envelope without partial ejection, all pairs of merging stars, all ways to collapse", "why_tests_cant": "Each step rewrites masses and core masses in other branches; an inconsistent pair appears only after particular sequences of steps and then feeds negative envelope masses into the next one.", "anchors": ["posydon/binary_evol/CE/step_CEE.py:StepCEE.CEE_adjust_binary_upon_ejection", "posydon/binary_evol/CE/step_CEE.py:StepCEE.CEE_adjust_binary_upon_merger", "posydon/binary_evol/CE/step_CEE.py:StepCEE.CEE_adjust_post_CE_core_masses", "posydon/binary_evol/DT/step_merged.py:MergedStep.merged_star_properties", "posydon/binary_evol/SN/step_SN.py:StepSN.collapse_star", "posydon/binary_evol/MESA/step_mesa.py:MesaGridStep"]}
{"id": "C154", "title": "The metallicity of a star never changes through an evolution", "statement": "Two stars that start with the same metallicity show this metallicity or none after any number of steps, in their attributes and in their records: a common envelope, a grid step and detached evolution keep it, a collapse takes it from the last record or forgets it, the product of a merger has that of one of the two stars.", "quantifier": "all binaries and metallicities, all sequences of grid, detached, common-envelope, merger and supernova steps of any length and their records, all outcomes of each step", "why_tests_cant": "The metallicity is copied between stars, histories and products in many branches; a test that follows one channel sees one of them, and in tests all stars have the default one.", "anchors": ["posydon/binary_evol/CE/step_CEE.py:StepCEE.CEE_adjust_binary_upon_ejection", "posydon/binary_evol/DT/step_merged.py:MergedStep.merged_star_properties", "posydon/binary_evol/SN/step_SN.py:StepSN.collapse_star", "posydon/binary_evol/MESA/step_mesa.py:MesaGridStep", "posydon/binary_evol/binarystar.py:BinaryStar.append_state"]}
{"id": "C155", "title": "Abundances stay mass fractions through a whole evolution", "statement": "If at the start the known abundances at the centre and the surface of each star lie between zero and one, then they do after any number of steps: the surface laid bare by a common envelope is made of hydrogen, helium and metals that add up to one, its other abundances are forgotten; the product of a merger has means of the abundances of the two stars or those of one of them; a collapse keeps abundances or forgets them and does not touch those of the other star.", "quantifier": "all binaries, all sequences of grid, detached, common-envelope, merger and supernova steps of any length, all options of the common envelope, all branches of the merger, all ways to collapse", "why_tests_cant": "A mean with a negative weight leaves the range only for stars whose cores are heavier than themselves, which come about by particular earlier steps; the classification of the next step then reads an impossible composition.", "anchors": ["posydon/binary_evol/CE/step_CEE.py:StepCEE.CEE_adjust_binary_upon_ejection", "posydon/binary_evol/DT/step_merged.py:MergedStep.mass_weighted_avg", "posydon/binary_evol/DT/step_merged.py:MergedStep.merged_star_properties", "posydon/binary_evol/SN/step_SN.py:StepSN.collapse_star", "posydon/binary_evol/MESA/step_mesa.py:MesaGridStep"]}
{"id": "C156", "title": "Closing the grids of single stars keeps what was read from them", "statement": "A grid of single stars has everything it needs in memory once it is made, so that all tracks, final values and final states read from it later are those of its file, whatever was read in between and whether or not the file was closed meanwhile. Closing a simulation closes all its grids and is harmless a second time. Stars that reach the end of their life can be given a profile, and making a copy of a population for another process leaves the population itself as it was.", "quantifier": "all grids of any size, all sequences of readings and closings of any length, all columns, all masses, all simulations with any number of grids, all populations", "why_tests_cant": "Tests close a mock or close at the very end; reading after closing, or evolving again after a population was copied to another process, depends on which values happen to be in memory.", "anchors": ["posydon/interpolation/interpolation.py:GRIDInterpolator.load_grid", "posydon/interpolation/interpolation.py:GRIDInterpolator.close", "posydon/interpolation/interpolation.py:GRIDInterpolator.get_profile", "posydon/grids/psygrid.py:PSyGrid.close", "posydon/binary_evol/track_match.py:TrackMatcher.get_star_profile", "posydon/binary_evol/simulationproperties.py:SimulationProperties.close", "posydon/popsyn/binarypopulation.py:BinaryPopulation.__getstate__"]}
{"id": "C157", "title": "Warnings have the category they are given, and filters act on the categories they name", "statement": "A category of warnings given by its name is the class of this name, and no two classes share one. A warning issued with a text and a number for the stack level is of the category it was given and is never an error. After any series of settings the last one that speaks of a category decides what happens to its warnings; settings leave warnings of Python and of other packages alone; silenced warnings are neither shown nor counted. A name that is no category has no effect on the others, and every warning issued by a step is one.", "quantifier": "all categories, all texts, all lists of filters already there, all series of settings of any length, with or without conditions, all warnings and sequences of warnings", "why_tests_cant": "Tests set one filter on a fresh list; the interplay of filters depends on their order and on the classes derived from each other, and a misspelt name raises nothing.", "anchors": ["posydon/utils/posydonwarning.py:_get_POSYDONWarning_class", "posydon/utils/posydonwarning.py:_apply_POSYDON_filter", "posydon/utils/posydonwarning.py:Pwarn", "posydon/utils/posydonwarning.py:SetPOSYDONWarnings", "posydon/utils/posydonwarning.py:NoPOSYDONWarnings", "posydon/utils/posydonwarning.py:AllPOSYDONWarnings", "posydon/binary_evol/DT/step_detached.py:detached_evolution.magnetic_braking"]}
{"id": "C158", "title": "Population weights use the densities the initial values were drawn from", "statement": "For one set of options, the density used for the weights of systems is the law their initial values are drawn from: primary masses (three initial mass functions), mass ratios, the choice between binary and single star, and orbital periods at every primary mass. A scheme known only to the sampler or only to the weights ends in an error instead of weights that belong to another distribution.", "quantifier": "All option dictionaries (each entry present or absent), all limits of masses and periods, all primary masses, all uniform draws.", "why_tests_cant": "The law of a random draw is a statement about integrals over all draws, and agreement must hold for all limits and masses; a statistical test only compares histograms for a few settings.", "anchors": ["posydon/popsyn/norm_pop.py:get_IMF_pdf", "posydon/popsyn/norm_pop.py:get_mass_ratio_pdf", "posydon/popsyn/norm_pop.py:get_binary_fraction_pdf", "posydon/popsyn/norm_pop.py:get_period_pdf", "posydon/popsyn/independent_sample.py:generate_primary_masses", "posydon/popsyn/independent_sample.py:generate_secondary_masses", "posydon/popsyn/independent_sample.py:generate_binary_fraction", "posydon/popsyn/independent_sample.py:generate_orbital_periods"]}
{"id": "C159", "title": "Van den Heuvel diagrams show the history they are drawn from", "statement": "The detailed diagram of a binary has one line per row of its history except the end. Reduced and simplified diagrams cut the remaining rows into successive groups (phases within ten thousand years of the first, successive detached phases), and each line shows the first and the last row of its group: no row is invented, the order is kept, the first and last phases are always shown, two detached lines never follow each other. The picture of a line is that of its stars and event whenever such a picture exists. Distances between the two stars are in [0,1], grow with the separation and are 1 for the widest orbit. A diagram exists for every history with at least one row to show.", "quantifier": "All histories (any number of rows, times, events or none, states, separations or none), all sets of existing picture files; all star states and events for the table of delivered pictures.", "why_tests_cant": "Whether lines cover the history is a statement about all ways rows can follow each other; tests look at one drawn picture.", "anchors": ["posydon/visualization/VH_diagram/Presenter.py:Presenter._detailed_presentation", "posydon/visualization/VH_diagram/Presenter.py:Presenter._reduce_data", "posydon/visualization/VH_diagram/Presenter.py:Presenter._simplify_data", "posydon/visualization/VH_diagram/Presenter.py:Presenter._digram_presentation", "posydon/visualization/VH_diagram/Presenter.py:get_star_state_filename", "posydon/visualization/VH_diagram/Presenter.py:get_event_state_filename", "posydon/visualization/VH_diagram/PresenterMultiple.py:Presenter_m.present_m"]}
{"id": "C160", "title": "Trees of evolutions show every common beginning once with its total frequency", "statement": "For any number of binaries the tree view has exactly one entry for every beginning of evolutions that occurs among them. The frequency written at the entry is the sum of those of all binaries that begin like this, its connection leads to the entry for the evolution one line before, and it stands in the middle of exactly the columns of these binaries. On every line the frequencies add up to that of the binaries that reach it; below an entry its frequency is divided among the entries connected to it and the binaries that end there. The tree is drawn for every choice of binaries.", "quantifier": "All lists of binaries (any number, order, lengths of evolution, frequencies), all evolutions whose pictures are distinct files; all histories with names without dots.", "why_tests_cant": "The tree is built by recursive merging of neighbouring columns in a table sorted by file names; that merging never misses or mixes evolutions is a statement about all lists of evolutions.", "anchors": ["posydon/visualization/VH_diagram/PresenterMultiple.py:Presenter_h._sort_h", "posydon/visualization/VH_diagram/PresenterMultiple.py:Presenter_h._tuple_h", "posydon/visualization/VH_diagram/PresenterMultiple.py:Presenter_h._compareInfos", "posydon/visualization/VH_diagram/PresenterMultiple.py:Presenter_h._remove_duplicate", "posydon/visualization/VH_diagram/PresenterMultiple.py:Presenter_h._center_column", "posydon/visualization/VH_diagram/PresenterMultiple.py:Presenter_h._diagram_presentation_h", "posydon/visualization/VH_diagram/PresenterMultiple.py:Presenter_h._paint_obl_edges", "posydon/visualization/VH_diagram/PresenterMultiple.py:VHdiagramm_m.get_sorted_index"]}
{"id": "C161", "title": "The motion of a binary, the tilts of its orbit and the kicks of its stars through a whole evolution", "statement": "Through any evolution of a binary the systemic velocity changes only in supernovae: every other step records the velocity of before in all its rows, so that the recorded velocities are at most one constant piece more than there are supernovae. After a supernova the velocity is the velocity of before plus the recoil computed from the orbit, the masses and the recorded kick. Tilts and anomaly of the first supernova are kept, are known whenever a bound binary has its second supernova, and tilts of a second supernova are recorded only after a first one. A kick that was given or drawn never changes.", "quantifier": "All sequences of grid, detached, isolated, common-envelope, merger, double compact object and supernova steps of any length, all options of the supernova step, all numbers of rows and times, all kicks.", "why_tests_cant": "Velocities, tilts and kicks are carried from step to step as attributes and histories; tests of a single step do not see what a sequence of steps makes of them, in particular what a second supernova does to the motion from the first.", "anchors": ["posydon/binary_evol/SN/step_SN.py: StepSN.__call__, orbital_kick", "posydon/binary_evol/binarystar.py: BinaryStar.__init__, append_state", "posydon/binary_evol/MESA/step_mesa.py: update_properties_NN, initial_final_interpolation", "posydon/binary_evol/DT/step_detached.py: update_after_evo", "posydon/binary_evol/DT/double_CO.py: DoubleCO.__call__", "posydon/binary_evol/CE/step_CEE.py: CEE_adjust_post_CE", "posydon/binary_evol/DT/step_isolated.py"]}
{"id": "C162", "title": "Volumes of redshift shells turn constant star formation into the right rate density", "statement": "`get_shell_comoving_volume` is positive for every shell, adds up over neighbouring shells, and refuses any sensitivity but \"infinite\". Dividing by it the weights that `calculate_cosmic_weights` gives to events turns star formation at a constant rate into the rate of events per Gpc\u00b3 and year, whatever the delays of the events, up to the squared ratio of the distances at the edges of the bin, and exactly in the limit of narrow bins. The value returned is the comoving volume between the two redshifts.", "quantifier": "All flat cosmologies (distance and age functions, density of matter, Hubble constant), all shells, all lists of events with any delays and model weights, all widths of time bins, any number of birth bins that covers the delays.", "why_tests_cant": "Whether the factor 1/(1+z) in the volume is right depends on how weights over birth-time bins are summed elsewhere; tests compare single numbers with numbers computed by the same formula.", "anchors": ["posydon/popsyn/rate_calculation.py: get_shell_comoving_volume, get_redshift_bin_centers, get_redshift_bin_edges", "posydon/popsyn/synthetic_population.py: TransientPopulation.calculate_cosmic_weights, Rates.calculate_intrinsic_rate_density"]}
{"id": "C163", "title": "Detached evolution ends when a star fills 95% of its Roche lobe at periastron or reaches the end of its track", "statement": "The detached step refuses a binary exactly if a star is not inside 95% of its Roche lobe at periastron at the start (unless both are compact objects). As long as no overflow is found both stars are inside 95% of their lobes, so that they never touch; when overflow is found the event names the stars that left 95% of their lobes, and at the crossing the recorded relative overflow of the star is -0.05. The recorded relative overflows are those of the stars themselves, and nothing depends on which star is called secondary. Without overflow the step ends exactly at the end of the shorter track or at the time limit, whichever is first; both stars age by the same time from the ages they were matched to, and neither gets older than its track.", "quantifier": "All masses, radii, separations and eccentricities, all sequences of integration steps of any length, all continuous evolutions within a step.", "why_tests_cant": "The end of a detached phase depends on event functions evaluated at integration steps chosen by the solver; tests check single values of the functions.", "anchors": ["posydon/binary_evol/DT/step_detached.py: detached_evolution.ev_rlo1, ev_rlo2, ev_rel_rlo1, ev_rel_rlo2, detached_step.__call__, solve_ODEs, update_after_evo", "posydon/utils/common_functions.py: roche_lobe_radius"]}
{"id": "C164", "title": "Recombination energies of a stellar profile are what its ions set free", "statement": "For a profile whose cells are mixtures of ions of hydrogen and helium, `calculate_recombination_energy` gives for every cell the energy per gram that all its ions set free by becoming neutral: not negative, zero for neutral gas, at most that of fully ionised gas, larger for more ionised gas. Without the columns it gives zeros, it fails exactly if no cell is above minus the tolerance, it does not change the profile it is given, and a second call gives the same. `calculate_H2recombination_energy` is proportional to the hydrogen of each cell.", "quantifier": "All profiles of any length, all mass fractions and mixtures of ions, all sets of columns and tolerances.", "why_tests_cant": "The fractions of ions are solved for from the neutral fraction and mean charge; tests use a few cells and compare with the same formula.", "anchors": ["posydon/utils/common_functions.py: calculate_recombination_energy, profile_recomb_energy, calculate_H2recombination_energy"]}
{"id": "C165", "title": "Figures that assess interpolators show the runs, classes and errors they say they show", "statement": "A slice of a figure shows the runs next to its mass ratio and no other slice shows them; predictions are drawn at a mesh of N times N points that covers all these runs with a margin of a fiftieth of their logarithmic range and is in the order in which values are drawn. Predicted classes are drawn with their own numbers, up to twenty classes with their own colours. Rows of confusion matrices are percentages. Each kind of error is the one in its label, has its own file, and all quantities are shown in the summary. Confusion matrices of all models are kept.", "quantifier": "All runs with positive inputs, all axes with equal logarithmic steps, all sizes of meshes, all lists of classes and predictions, all matrices, all numbers of quantities and models.", "why_tests_cant": "Figures are not compared by tests; errors in them are not seen, as a plausible picture is drawn in all cases.", "anchors": ["posydon/interpolation/IF_interpolation.py: test_mesh, is_in_ball, plot_mc_classifier, plot_interpolation, plot_conf_matrix, plot_interp_error, assess_models, train_and_assess"]}
{"id": "C166", "title": "Sequences of active learning leave the training data and scores of each sequence in their own files", "statement": "The program that runs sequences of active learning writes, for each sequence, the training data of all its iterations and one score of each kind per iteration, in order, into files whose names differ for different runs, sequences and contents. Every sequence starts from the settings of the ini file. No other file is changed. A missing ini file or directory is refused before anything is written. A failure of one sequence, or of the scores of one iteration, has no effect on other sequences and iterations, and files of other runs are never replaced.", "quantifier": "All options of the command line, numbers of sequences, names of runs, contents of files, outcomes of sampling, scores and writing.", "why_tests_cant": "The program runs for hours on a cluster and has no tests; what is lost when one sequence or score fails is seen only afterwards.", "anchors": ["posydon/active_learning/psy_cris/run_params/run_psycris_sequence.py: main", "posydon/active_learning/psy_cris/utils.py: calc_performance"]}
{"id": "C167", "title": "Evolving the same population again saves the binaries of the latest run", "statement": "A population object may be evolved several times. Each call of evolve writes the binaries of that call, each once and in order, and no others; afterwards to_df describes every binary still held. The validation script, which evolves one population three times, compares what a run wrote with what a run kept in memory.", "quantifier": "every manager content left by earlier runs, every list of new binaries, every dump rate and memory pattern, every combination of breakdown and memory optimisation, any number of calls", "why_tests_cant": "Which binaries end up in the file depends on the settings of all earlier calls; the tests evolve each population once, and the script that does reuse it reports agreement by comparing a run with itself.", "anchors": ["posydon/popsyn/binarypopulation.py: BinaryPopulation.evolve, _safe_evolve, PopulationManager", "dev-tools/script_data/src/popsynth_suite.py: test_popruns, test_binpop_evolve, check_test, compare_io_to_ram"]}
{"id": "C168", "title": "Validating a branch against a baseline", "statement": "A baseline generated with success holds, for every requested metallicity, the result the suite has just written, with no binary missing, and its record names the branch, the commit that produced it and the metallicities. Incomplete results are listed in the record. A failing run changes no baseline or record; other branches and metallicities are never touched. The validation succeeds exactly if the candidate's suite does and, for every metallicity with a baseline, there is a new result that compares equal; its summary has one line per metallicity. Failures at one metallicity do not prevent the others from being run and compared, and results that exist already can be compared without evolving again.", "quantifier": "all files present before, all outcomes of conda, git, the suites and the comparison, all lists of metallicities, all names of branches", "why_tests_cant": "The scripts take hours and run on clusters; what happens after a failing step, an incomplete result or an unset variable is not exercised.", "anchors": ["dev-tools/run_test_suite.sh", "dev-tools/generate_baseline.sh", "dev-tools/validate_binaries.sh"]}
{"id": "C169", "title": "The version of the active-learning package tells the commit it comes from", "statement": "In a checkout the version is read from what git describes: tag, number of commits since, name of the commit and whether files were changed are recovered exactly, for every tag, also one with hyphens and digits; anything else git may print gives the version unknown with the reason. The default version is the bare tag exactly for an unchanged checkout of the tag, and two checkouts with the same version agree in tag, distance and mark, and in the commit unless both are releases. The version has at most one local part. In an archive the version is a tag of the archive with the prefix, and without such a tag it is unknown with the full name of the commit. Without git the package still has a version.", "quantifier": "all outputs and failures of the git commands, all tags, prefixes, distances, commit names, styles and keywords", "why_tests_cant": "Tests run in one checkout with one kind of tag; hyphens in tags, missing tags, failing commands and archives are not met.", "anchors": ["posydon/active_learning/psy_cris/_version.py::get_versions", "posydon/active_learning/psy_cris/_version.py::git_pieces_from_vcs", "posydon/active_learning/psy_cris/_version.py::git_versions_from_keywords", "posydon/active_learning/psy_cris/_version.py::render", "posydon/active_learning/psy_cris/_version.py::versions_from_parentdir"]}
{"id": "C170", "title": "All parts of the code agree on which models of a run transfer mass", "statement": "Four places decide whether mass is transferred in a model of a MESA run: the cut of histories at the first overflow, the flag of the mass transfer, the state of the binary and the table of final values. They agree: a run is left out of a grid that starts at overflow exactly if the grid without this option flags it no_RLOF; the histories that are kept begin with mass transfer, and the cut does not change the flag of the run; the binary is called detached exactly in the models without mass transfer; the table says no_interaction exactly for the runs flagged no_RLOF.", "quantifier": "all histories (any length, any overflow and rate, missing numbers where stated), all states of stars, termination codes and rounding of ages", "why_tests_cant": "Each place has its own tests with a few rows; that they judge every history alike, also after cutting it, is a statement about pairs of functions and all histories.", "anchors": ["posydon/grids/scrubbing.py::keep_after_RLO", "posydon/grids/termination_flags.py::get_mass_transfer_flag", "posydon/utils/common_functions.py::infer_mass_transfer_case", "posydon/utils/common_functions.py::get_binary_state_and_event_and_mt_case", "posydon/utils/gridutils.py::convert_output_to_table", "posydon/utils/limits_thresholds.py", "posydon/grids/psygrid.py::PSyGrid._create_psygrid"]}
{"id": "C171", "title": "The options saved with a population are those its initial values were drawn with", "statement": "The options of a population are those the user gave, completed by the documented defaults; the same values reach every sampler of initial masses, orbits, eccentricities, binary fraction and formation times, and the file of results holds them: writing it never fails for a missing option, each saved value is the one the samplers used, and a population made from the saved options draws from the same distributions.", "quantifier": "all dictionaries of options (any names and values), sequential, MPI and job-array runs, any options given to evolve, any earlier populations in the same program", "why_tests_cant": "The options pass through six functions with their own defaults; tests fix a few dictionaries and look at one function at a time.", "anchors": ["posydon/popsyn/defaults.py::default_kwargs", "posydon/popsyn/binarypopulation.py::BinaryPopulation.__init__", "posydon/popsyn/binarypopulation.py::saved_ini_parameters", "posydon/popsyn/binarypopulation.py::BinaryPopulation.evolve", "posydon/popsyn/binarypopulation.py::BinaryPopulation.combine_saved_files", "posydon/popsyn/binarypopulation.py::BinaryGenerator.draw_initial_samples", "posydon/popsyn/independent_sample.py::generate_independent_samples", "posydon/popsyn/star_formation_history.py::get_formation_times", "posydon/popsyn/Moes_distributions.py::Moe_17_PsandQs.__init__"]}
{"id": "C172", "title": "Constants and conversions agree with one another", "statement": "Converting a value by one chain of the package's constants or by another gives the same result: degrees and radians are inverse, years to seconds through days or directly, lengths through solar radii, astronomical units and light years, temperatures to energies through electron volts or directly; derived atomic and solar constants agree with the given ones; the table of helium fractions covers the eight metallicities, rises with metallicity and leaves a positive hydrogen fraction.", "quantifier": "all values converted; all entries of the table", "why_tests_cant": "Tests compare each constant with a literal; they do not relate the constants to one another, and a difference in the fifth digit is below their tolerances.", "anchors": ["posydon/utils/constants.py::secyer", "posydon/utils/constants.py::dayyer", "posydon/utils/constants.py::day2sec", "posydon/utils/constants.py::aursun", "posydon/utils/constants.py::au", "posydon/utils/constants.py::zams_table"]}
{"id": "C173", "title": "Histogram files are read as documented or refused", "statement": "A histogram file is accepted exactly when, leaving out blank lines and comments, it has two lines, the first with one number more than the second; edges and counts are then the numbers of these lines in order, wherever comments and blank lines stand; every other file is refused with IndexError; what is written in the documented form is read back; and the histogram fits the sampler for formation times, whose samples lie in the chosen bin.", "quantifier": "all files (any lines), any way of writing numbers that the parser undoes, all bins and draws", "why_tests_cant": "Tests read a handful of files; where comments and blank lines may stand, and which files are refused, ranges over all files.", "anchors": ["posydon/utils/common_functions.py::read_histogram_from_file", "posydon/utils/common_functions.py::histogram_sampler", "posydon/popsyn/star_formation_history.py::get_formation_times"]}
{"id": "C174", "title": "The symbols of a plot tell how runs ended", "statement": "In a plot of a grid the symbol and text of a run agree with the class of the run: stable runs are shown as having reached the end of life, unstable ones as unstable overflow, runs that did not converge as red crosses, runs overflowing at the start as black dots; both stars have the same symbols for the same states; and the legend has each text once, a line for every symbol shown, and that line looks like the symbol.", "quantifier": "all pairs of flags, all classes, all lists of flags plotted in any order; the tables are checked in full", "why_tests_cant": "Tests draw a few panels; that codes, classes and symbols in three files agree ranges over all flags, and that the legend is faithful over all orders of flags.", "anchors": ["posydon/visualization/plot_defaults.py::DEFAULT_MARKERS_COLORS_LEGENDS", "posydon/visualization/plot2D.py::plot_panel", "posydon/grids/termination_flags.py::infer_interpolation_class", "posydon/visualization/combine_TF.py::TF1_POOL_STABLE"]}
{"id": "C175", "title": "Tables of grids begin empty", "statement": "Emptying a table keeps the names, order, kinds and number of rows; all numbers are undefined and all texts of fixed length are the text of an undefined number; nothing of the table given is left in these columns; columns of other kinds are kept as they were; emptying twice is emptying once.", "quantifier": "all tables with any columns of numbers of 64 or 32 bits, integers, texts of fixed length and objects, of any size", "why_tests_cant": "The test empties one table with two columns; what is left of the memory a table was made from ranges over all kinds of columns.", "anchors": ["posydon/utils/common_functions.py::initialize_empty_array", "posydon/grids/psygrid.py::PSyGrid._create_psygrid"]}
