# Formal model of POSYDON – design

## 1. What is modelled and how

The code in `/repo` is Python. It is read as text and never run. Each Lean file under
`lean/Verif/` models one group of functions **branch by branch**; every definition cites the
file and lines it models and says what has been simplified.

Conventions used throughout

* *Python exceptions are values* (`Except Err α`, or `Option` where only one exception is possible).
* *Mutation* becomes "return the new state". Where Python aliases two names to one object and this
  matters (merged stars, `q=1` sampling, module-level default dictionaries) the model keeps the
  single shared object explicitly.
* *Floating point numbers* are modelled by real numbers `ℝ` (or an arbitrary linearly ordered
  field). Rounding, overflow and signed zero are **not** modelled. `NaN`/`None` are modelled
  explicitly (`Option`) wherever the code tests for them.
* *Strings used as enumerations* become inductive types containing exactly the listed strings.
  Where string operations matter (substring tests, replacement) real `String`/`List Char` are used.
* *pandas/HDF5 tables* are lists of rows (label, row).
* *Random draws, the MESA tables, the ODE solver, the file system* are parameters: theorems
  quantify over everything they can return.
* *Loops* become structural recursion, folds, or take fuel (then a theorem says how much fuel
  is enough).

Layout: `Verif/<Topic>.lean` holds model, small specification and helper lemmas,
`Verif/<Topic>Props.lean` holds the property theorems (each followed by an `example` that
exhibits a concrete non-trivial instance of its hypotheses).
A theorem whose name ends in `_partial` proves part of the property; a theorem whose name
contains `_violated` proves, by a concrete witness, that the code does **not** satisfy the property.

## 2. Trusted base

* the kernel of Lean 4.33.0; axioms at most `propext`, `Classical.choice`, `Quot.sound`
  (checked with `#print axioms`); no `sorry`, no own axioms, no `native_decide`/`bv_decide`;
* the reading of `/repo` that produced the model (each definition cites its lines);
* the idealisations above (reals for floats; tables for HDF5/pandas; enumerations for strings);
* the behaviour of Python/numpy/pandas primitives as described next to the definitions which use
  them (slicing, `np.argmax`, `np.array_split`, `searchsorted`, dictionary order).

## 3. Plan per property

| id | model | proof |
|----|-------|-------|
| C01 | enumerated star/binary states and events, the ordered overwriting loops as a list of rules, last match wins | finite table, `decide +kernel` on the whole table lifted by a completeness lemma |
| C02 | same, with the swap map on keys | `decide +kernel` over the table / counterexample |
| C03 | `flow_chart` over association maps | case analysis; negation for absent keys |
| C04 | `evolve` as a loop over an arbitrary step function into `Except` | induction on fuel; limit+1 theorem |
| C05 | kwargs filter of `SimulationProperties.__init__` on strings | negation + positive theorem for other keys |
| C06 | binary + two stars as column maps with histories; run of arbitrary steps | invariant by induction over steps |
| C07 | `restore` with Python slice semantics | induction/list lemmas; negation for i = -1 |
| C08 | `flip_stars` on a record with all labels | case analysis; negation for oDoubleCE/oMerging |
| C09 | `infer_star_state` over reals with missing values | case analysis; negation for four unlisted names |
| C10 | `cumulative_mass_transfer_numeric` etc. on lists of integers | induction on lists |
| C11 | `IgnoreReason` setter over enumerated reasons | invariant: fold equals max by priority |
| C12 | warning registry and catcher as a state machine | induction on op list; nested contexts negated |
| C13 | `scrub` backward pass as recursion | induction on lists |
| C14 | `keep_after_RLO` | list lemmas |
| C15 | `keep_till_central_abundance_He_C` index arithmetic | list lemmas; negation when depleted at last row |
| C16 | recursive splitting on index ranges | well-founded induction |
| C17 | enumerated flag vocabularies | finite tables |
| C18 | sequential fold with tolerance matching | invariant; negation of uniqueness by a chain |
| C19 | `np.array_split`, batch loop | induction over number of binaries |
| C20 | file list with per-file failure | induction; negation by a failing file |
| C21 | seed derivation | arithmetic; negation by collisions |
| C22 | manager as state machine | invariant; negation for list append and broken-down tables |
| C23 | doubling loop | induction on doublings; divergence for empty file |
| C24 | sampling over arbitrary uniform draws | real inequalities; aliasing negation |
| C25 | densities over ℝ | Mathlib interval integrals |
| C26 | `_distribute_cdf` on lists | telescoping sums; negation outside the bin range |
| C27 | chunk loop with mask slices | induction; negation for more than one chunk |
| C28 | option-name counting loop | arithmetic; negation |
| C29 | weights × redshift table | finite sums |
| C30 | module-level dictionary as state; chunk loop | negation; positive part |
| C31 | reindexing dictionary | list lemmas; negation for the side effect |
| C32 | piecewise Fryer formulas over ℝ | `nlinarith`/`linarith` per branch; negations at excluded points |
| C33 | kick formulas over ℝ | algebra |
| C34 | `StepSN.__call__` no-kick branch; WD branch of `collapse_star` | negation; partial |
| C35 | merger as in-place mutation of a shared record | algebra; negation for aliasing branches; finite table for outcomes |
| C36 | CE step: dispatch, energy balance, post-CE values | algebra; negation |
| C37 | real-valued formulas | Mathlib `rpow` |
| C38 | Eggleton formula | real analysis |
| C39 | formulas with guards | real analysis |
| C40 | 3×3 matrix | trigonometry and `ring` |
| C41 | cumulative sum loop over cells | induction; negation for zero budget |
| C42 | first index search | induction |
| C43 | dictionary and file-exists flag | case analysis |
| C44 | download as sequence of possibly failing actions | case analysis; negation |
| C45 | `interp1d` on node lists | induction |
| C46 | step kwargs as state | negation; partial |
| C47 | `np.arange` grid | arithmetic; negation for large dt |
| C48 | branch tables over ℝ | case analysis |
| C49 | ratio of densities | algebra |
| C50 | chunk loops | induction |
| C51 | classification of a binary from overflow and donor states, as a function of enumerations and reals | case analysis; negation for helium-accreting donors |
| C52 | flag from overflow history of a run | list lemmas, equivalence with a specification |
| C53 | log lines as a list, last matching line wins | induction on lines |
| C54 | mass table built from the saved files | sums over lists; negation for repeated indices |
| C55 | integrals of densities over ℝ | Mathlib integrals; negations at concrete parameters |
| C56 | samplers over arbitrary uniform draws | real analysis on node lists |
| C57 | Peters' integral over ℝ | bounds on the integrand, monotonicity |
| C58 | spin formula over ℝ | algebra, `nlinarith` |
| C59 | profile as list of cells, sums and interpolation | induction; negations by concrete profiles |
| C60 | scenario dispatch | case analysis; negation for histograms |
| C61 | edges and centres as lists over ℝ | induction, `linarith`; negation for steps not dividing the age |
| C62 | dictionary of weights by zip | list lemmas; negation for unsorted tables |
| C63 | windows over two tables | induction; negation when there are more events than systems |
| C64 | strings as lists of characters | induction on words, injectivity of the cleaned string; negation for cut strings |
| C65 | stream positions | arithmetic; negations |
| C66 | histories as lists, recording loop | induction over keys and rows; negations |
| C67 | terminal events as Booleans, orbit over ℝ | case analysis, Kepler's law; negations |
| C68 | dispatch as Boolean functions over the enumerations of the flow chart | case analysis, whole-table `decide +kernel` lifted to all inputs; negations |
| C69 | columns of a track, padding, recording | list lemmas; negations |
| C70 | search for the last row, interpolation, cut | induction on lists; negations |
| C71 | object with method, parameters and range; arrays as lists of reals, not finite as `none` | algebra of logarithms and affine maps, sums over lists; negations |
| C72 | dictionary of optional values, table of constraints, list of actions | frame lemma, pairwise disjointness of the actions of the whole table by `decide +kernel`, induction on the list of actions; negations |
| C73 | exact solutions of the differential equation as real functions, outcome of the integrator as a parameter | conserved quantity, derivative of the merger time along a solution, inverse function for existence; negations |
| C74 | roles as functions of the flow chart's states, lists of quantities as tables, the search as a parameter | case analysis, whole-table `decide +kernel` over pairs of states lifted to all inputs; negations |
| C75 | optimiser as an arbitrary partial function, attempts as a loop, grid as list of tracks, age cleaning as masks over lists | loop invariant, trichotomy of result lists, argmin lemma, induction on ages; negations |
| C76 | attributes as none, NaN or a real; update as a function that may fail | algebra of powers and logarithms, case analysis; negations |
| C77 | tidal rates over ℝ with real powers | reduction to powers of √(1-e²), polynomial identities, derivatives along arbitrary evolutions, sign analysis |
| C78 | rates over ℝ, contributions as optional reals | algebra, derivatives along arbitrary evolutions, bounds of the correction by `nlinarith`; negations |
| C79 | detached step as a parameter that may raise, orbit as optional reals | case analysis, lower bound of Eggleton's formula, Kepler's law; negations |
| C80 | limit, beaming and capture over ℝ, rows as lists, draws and Kepler's root as parameters | algebra of the ellipse, bounds with the constants of the code, induction on rows; negations |
| C81 | options as enumerations, draws as parameters, recorded values as optional reals | case analysis, sign analysis, idempotence of the choice; negations |
| C82 | names as lists of characters, tables as lists of columns, Python's split, replace and in as functions on characters | tables of names decided in the kernel and lifted by general lemmas on look-up and append; negations for all binaries |
| C83 | tracks as rows of reals, scalers as in C71, SciPy hull interpolation and votes as parameters | round trip of C71 lifted to matrices and classes, nearest-neighbour lemmas, induction over lists; negations |
| C84 | run directories as records of what can be read, HDF5 file as lists, exceptions as values | invariants of the two loops by induction, permutation of the places, finite tables of yes-and-no answers decided in the kernel and lifted; negations |
| C85 | names of directories and lines as lists of characters with the splitting of Python, grids as records, dictionaries as association lists in the order of insertion | induction over occurrences and over texts, invariants of the loops; negations |
| C86 | histories as lists of rows with the masks and shifts of pandas, tables as columns | the masks select the steps in which a star becomes a black hole (induction over rows), which split over binaries; lookups by number; negations |
| C87 | formulas over the reals for each row, regression as a weighted mean over neighbours | real analysis (powers, trigonometric bounds), weighted means by induction; negations |
| C88 | one star of one row, division with infinities, draws as parameters | case analysis and powers; negations |
| C89 | profiles as lists of cells, the loop over shells as recursion over the reals, Simpson's rule a parameter | algebra of the cube roots gives the quartic of the innermost stable orbit; induction over shells for balance and growth; negations |
| C90 | the grid as a list of runs, tables as functions of the column, loops over missing values as recursion on the masses left | maxima and minima of filtered lists, linear interpolation, induction over rows, the tables of keys checked in full; negations |
| C91 | Tables of periods, mass ratios and eccentricities built from the published formulas, Newton-Cotes quadrature, cumulative sums, sampling by interpolation, one star of the call, caching of the generator. | Induction over the grid for the quadrature and sums; bracket lemma for the interpolation; continuity of the pieces; negations by witness. |
| C92 | The loops of the initial-final interpolation over all properties with the translation table, classification, accretion, post-processed values and supernova models. | Induction over the loop for any list of distinct keys; the whole table is decided; negation by witness. |
| C93 | The flag of a run from its rows (as for C10), the pooling of flags, the cut to 25 characters and the dictionary of texts. | Shifted cases are non-decreasing per donor, so the steps are a sublist of the known cases; the finite table of sublists is decided; negation by witness. |
| C94 | The loop over runs with all appends to the dictionary of columns, the choice of the collapsing star, the check of types, the selection of runs and directories, the conversion and distribution of columns. | Permutation argument: the columns appended in each branch are a permutation of all columns; induction over the runs; decided tables of names; negation by witness. |
| C95 | The loops over properties with their translation tables, the values at helium depletion, the reading of histories for states and mass-transfer cases, errors for missing columns and unequal lengths, for binaries and single stars. | Induction over the lists of properties and of final values; the steps of a successful call are composed once and every property is read off; decided tables of names. |
| C96 | The branches over the state, the loops over thresholds with boundary search and interpolation (from the model of profiles), and the search for the depleted model. | Order of the boundaries found, linear interpolation between the same or different cells; first-index lemmas; negation by witness. |
| C97 | scripts as lists of lines of characters: `create_slurm_array`, `create_slurm_rescue`, `create_batch_rescue_script`, `check_popsyn_function` and what it calls, file list of the merge script; specification: array syntax of the scheduler and the environment of its tasks | round trip print/parse of decimal numbers and lines, permutations for the sets of files; witnesses for the violations |
| C98 | cache of matchers by (metallicity, step), the two dictionaries of grids, update of settings and the retraining flag, removal of old matchers and grids, settings removed in place | invariant preserved by every load (refresh and clean-up each characterised by induction over the keys), lifted to sequences by induction; witnesses for the violations |
| C99 | whole table of 28 models and the defaults, lookup loops, Python equality of numbers and truth values, check of the ini file, initialisation of the step | loops characterised by induction; table facts over the whole finite table lifted to all settings; witnesses for the violations |
| C100 | ProfPred: predict_single branch by branch, the two-node interpolator, 200 cells as a function of the index, network outputs as parameters | ProfPredProps: every profile is a mix of the two ends with a monotone share in [0,1]; case analysis on the branch |
| C101 | ProfTrain: scrape/compile with the list changed in place, split by a shuffled order, mono_renorm as a recursion from the surface, density rows, calc_bevel_bounds | ProfTrainProps: induction on lists, least decreasing majorant, permutations |
| C102 | RateStore: a file as a function from paths to tables with pandas' recursive removal, the operations of TransientPopulation and Rates on paths, the MODEL table | RateStoreProps: frame lemmas for paths, case analysis of the operations |
| C103 | Inlist: text files line by line, ordered dictionaries, layering, formation steps, written files, reading back, scenario entries | InlistProps: strip/split lemmas, induction over lines and layers, invariant of plain keys and values |
| C104 | GridPoint: Python number formats and float, directory names, inlist lines, choice of parameters, inlist chain, formation loops | GridPointProps: rounding bounds with Int.log, round trips of decimals, splitting lemmas for arbitrary lists of parameters, induction over lines and steps |
| C105 | Pipeline: tables of sets, settings of a step, loop over the steps, lines with dependencies, log directories | PipelineProps: loop invariant over the steps done, transitive dependencies, closed form of the script |
| C106 | PipelineCsv: nested loops over the settings, file names, missing files, tables by rows and columns, job arrays, choice of function | PipelineCsvProps: membership and counting for nested loops, injectivity of file names |
| C107 | Rerun: table of metallicity files, tables of rerun types, criteria over histories and logs, classes and keys of the training | RerunProps: table lookups lifted to all texts, membership characterisations of the chosen runs |
| C108 | Sampler: trials, chains, temperature ladder as an inductive relation, swaps, loops of parallel chains; draws are parameters | SamplerProps: invariants over trials and loops, detailed balance by algebra of real powers, termination of the ladder by powers tending to 0 |
| C109 | Propose: classification target, normalisation, both density logics with Gaussians, adaptive search; draws are parameters | ProposeProps: inductions over step lists and iterations, real analysis of Gaussians |
| C110 | TableData: omission, class mapping, binary data, choice of columns, changes, cleaning, largest change | TableDataProps: inductions over values, classes and rows |
| C111 | Classify: names, training state, probabilities, predictions, cross validation; fits and fitted functions are parameters | ClassifyProps: inductions over classes, points, draws and attempts |
| C112 | Query: small-class proposals, query options, loop of the dynamic sampling, places of predictions, accuracy, confusion matrix | QueryProps: loop invariants, inductions, order statistics of sorted lists |
| C113 | GridTools: columns of models, joined lists, helium cores, fields, edges, nearest cells, results of runs; time until the merger is a parameter | GridToolsProps: inductions over lists, case analysis over messages |
| C114 | RunFiles: listing of a folder, logs, metadata, points, table of final values with its place (memory, open or closed file), items; h5py as described | RunFilesProps: fold over the listing as last match, inductions over tables, witnesses |
| C115 | Eep: searches for phases, metric, positions of points; pchip by the rows and the metric with which it is called | EepProps: first and largest elements by induction, order by inclusion of conditions, positions by induction over intervals |
| C116 | Compress: names and extensions, tree of folders, lists, loops that remove and compress, text of sizes, test folders; gzip and shell as described | CompressProps: loops as maps over the tree by induction, invariants of names |
| C117 | IniValues: evaluation of options, sections as dictionaries, loops over sections | induction over expressions (against an inductive relation of meanings), over texts and over sections |
| C118 | StepHooks: rows tagged with the step that wrote them, columns, adjustment of lengths, recording of matches, failures, restore | StepHooksProps: blocks of steps by induction over the sequence, row by row |
| C119 | MesaSetup: options, names of metallicities, paths, loading of files as functions, range of the grid, final time, rows of models | MesaSetupProps: table of metallicities, case analysis of the set-up, least and greatest elements by induction |
| C120 | SfhTables: reading of the tables as lists, interp1d with missing values, averages, selection of rows, scalings of oxygen | SfhTablesProps: a small specification of curves through points, sorted permutations, sums by induction, logarithms |
| C121 | OpenPop: a file as a record of optional tables, opening with its changes to the file, saved parameters, masses | OpenPopProps: inversion of a successful open, lookups in saved parameters, sums by induction, reopening |
| C122 | Regress: names, fits by class and column with their errors, store with a switch, predictions, largest change, cross validation, summaries | RegressProps: store and loop invariants by induction, congruence of training in the held-out outputs, permutations for the division of points |
| C123 | Engines: rows of tables, training of classes and interpolators, nearest neighbours as parameters with a specification, weighted means, core parameters | EnginesProps: bounds of interpolation by induction, weighted means, injectivity on rows; uses the interpolator theorems of C45 and the engines of C32 |
| C124 | PipeRun: reading rows, create_grid_slice, combine_grid_slices, calculate_extra_values, train_profile_interpolators and export_dataset on a map of files, Counter and failure rate | characterisations by cases over all rows and disks; counts by induction; rounding bounds; three witnesses of failure |
| C125 | PlotSlices: ranges on a linear or logarithmic scale, slices, fitted samples, attributes by name, rows of a population at an event, edges | PlotSlicesProps: induction over values and edges for any strictly rising scale, floor bounds, membership; witnesses for six failures |
| C126 | VHCount: rows put aside at the end of each piece, groups by index, table of hashes, frequencies, most frequent | VHCountProps: induction over the pieces with an invariant on the rows put aside, induction over the table; two witnesses |
| C127 | Assess: numbers with infinities and NaN, errors, valid runs, dictionaries of shares, labels, cleaned errors, columns of keys, slices | AssessProps: induction over classes, runs and keys; sums of counts; case analysis of numbers; six witnesses |
| C128 | StepOptions: dictionaries, tables of defaults, constructors by class, check_step, load_a_step, sections of the default file | StepOptionsProps: lookup lemmas by induction; case analysis over classes; whole table of the default file by decide lifted to all values; four witnesses |
| C129 | InScale: split of the columns, mass-ratio test, choice of scale, classifiers trained, reports, errors, slices | InScaleProps: membership of the filtered columns; extrema by induction; mean, median and spread under scaling, shift and permutation; logarithm laws; witnesses |
| C130 | Neigh: average distances from a search, neighbours by number and class, named tables, random test points, classes in the plane and in space | NeighProps: sorted prefix of all distances by permutation; dictionary lemmas by induction; extrema; bounds of tanh and the intermediate value theorem; witnesses |
| C131 | The questions as functions of the list of answers; the names of logs as the scripts write them; the rest of the dialogue on top of the outcome of `Jobs.check` | Round trip of the names of logs; induction over the answers; sorted and duplicate-free list of jobs |
| C132 | The comparison function by function on tables of columns; reports as values | Empty report iff equal columns, lifted over columns and binaries; sorted lists equal iff permutations; first largest step |
| C133 | interleaving semantics of root and children with messages, names of columns, tables of results, directories | invariants over all reachable configurations, work that decreases with each step, progress, witnesses for the failures |
| C134 | lines of the log as text, look-up of states in histories, flag of transfer with lazy look-ups, four flags and class, single stars, last states | refinement to the rows with states, totality, class from donors, error branches |
| C135 | evolutions as paths through the chart, each step by its own model, keeping the states and the event | induction over paths with a rank of what is left of each star; a finite check of the chart at the states and events a step can leave |
| C136 | evolutions through any chart, the example chart entry by entry including keys of other lengths | induction over routes; reduction of the other charts to the default one step by step |
| C137 | the plot object branch by branch: names, colours, onset, masks, limits | masks of aligned columns commute with the selection of runs; relations between lists |
| C138 | layout arithmetic, the walk over cells with its two counters, artists and legends | invariant of the counters; permutation arguments for runs and legends |
| C139 | runs, checks, columns, limits, diagram limits, colours of states | folds over runs with an invariant; finite table of states; witnesses for the violated parts |
| C140 | the function on texts, the table, texts of histories as in C06's model | induction over the phases of a history; substring lemmas; the finite table |
| C141 | histogram, delay times, properties, colours of channels, shell volume | induction over edges and data; interval integrals; witnesses for the violated parts |
| C142 | rational fits over the reals, logarithm base ten | Bernstein coefficients of the nine quartics on subintervals; exact evaluation for the witnesses; bounds on logarithms of 2, 3 and 29 |
| C143 | the published tables as lists, on top of the download model | whole-table decision for the tables, induction over the members of a set |
| C144 | generator objects in a heap, sampling and evolving as arbitrary drawing computations | induction over computations and indices: refinement to one stream |
| C145 | statements of the description as a list, tables as columns and row counts, reports on top of the reading of runs | induction over runs, case distinction over the number of directories |
| C146 | Kepler.lean on top of CE, SNStep, DetachedEvent, DoubleCO, Orbit | branch analysis of each step; law in cgs units as independent specification |
| C147 | Clock.lean on top of CE, SNStep, Detached, Kepler, DoubleCO, Merged | branch analysis of each step; induction over the reflexive transitive closure |
| C148 | Relabel.lean on top of Evolve, Life, FlowChart | simulation between the two runs, induction over the steps |
| C149 | Kinds.lean: grid steps and creation of compact objects; CE, SNStep, Merged models | invariant over all steps, induction over the evolution |
| C150 | Spins.lean on top of Kinds, GW, SNStep, CE, Merged | invariant and monotonicity over all steps, induction over the evolution |
| C151 | Bound.lean on top of CE, SNStep, Kick, DetachedEvent, DoubleCO, Isolated | invariant of each step, induction over the evolution |
| C152 | EndStar.lean on top of Single and Interp | state of a profile at a fraction of the mass as a convex combination of two cells; lemmas on lists |
| C153 | Cores.lean on top of CE, Merged, SNStep | one theorem per step, induction over steps |
| C154 | Metal.lean on top of CE, Merged, SNStep | one theorem per step, induction over steps |
| C155 | Fracs.lean on top of CE, Merged, SNStep | one theorem per step, induction over steps |
| C156 | Closing.lean on top of Single | induction over the uses of a grid; induction over the masses looked up |
| C157 | WarnCat.lean on top of Warn | induction over the series of settings |
| C158 | scheme selection on both sides from one record of options, draws as functions of uniform numbers, tables or regions below a curve (Laws) | closed-form integrals, scaling of trapezoid areas, area of the region below a curve; witnesses for the violated combinations |
| C159 | rows as records, lines as pairs of rows, joining as a fold, file names as texts, distances as reals (VhDiagram) | induction over the history for the groups; decision over the whole tables of states and events; witnesses for the violations |
| C160 | columns as lists of pictures with positions, stable sort by keys, recursion over groups of neighbours with remaining lines (VhTree) | induction over the recursion with the invariant that columns are sorted and keys tell pictures apart; double counting for the sums |
| C161 | `Verif.Recoil`: `V_sys` and its history through all steps, tilts, anomaly and kicks through `Verif.SNStep` | induction over the steps of an evolution, with the last row equal to the velocity of now as invariant; case analysis of the supernova step |
| C162 | `Verif.Shells`: integrand, volume as interval integral, weights and rate density | fundamental theorem of calculus with the age as antiderivative, monotone distances; exactly one birth bin falls into a shell (floor); continuity for the limit |
| C163 | `Verif.Overflow`: the four event functions, the check at the start, the search for events over integration steps, recorded overflow | induction over integration steps with `Inside` as invariant; intermediate value theorem for the crossing; disjointness of lobes (C38) |
| C164 | `Verif.Recomb`: the three functions, cell by cell, with the change of the profile in place | ions solved for from neutral fraction and mean charge, compared with an independent sum over ions; case analysis of the checks |
| C165 | `Verif.Figures`: slices, mesh, numbers and colours of classes, percentages, errors, panels, file names | induction over lists and index arithmetic of the mesh; logarithms for axes and slices; witnesses for what is not shown |
| C166 | `Verif.Sequence`: options, names, loop over sequences and over iterations, files | injectivity of names from their endings and digits; induction over sequences with the content of every file |
| C167 | `PopAgain.lean`: evolve from any manager content, combined file, calls in sequence, the three tests of the script | invariants over the loop for each pair of settings; induction over calls |
| C168 | `Validate.lean`: the three scripts over the files per branch and metallicity, with the shell's rules for failing commands | induction over the metallicities with the content of every file |
| C169 | `Version.lean`: parsing of the output of git, the six styles, keywords, parent directories and the order of the sources | uniqueness of the cut at the separators; case analysis on failures; sortedness for the choice of a tag |
| C170 | `Transfer.lean`: the tables of `Scrub`, `RunLabels`, `MTCase` and `GridTools` brought together as `psygrid.py` does | equivalences per row lifted to runs; induction over the rows for the invariance under the cut |
| C171 | `PopKw.lean`: the dictionaries of options from `defaults.py` through population, manager and generator to the signatures of the samplers, and the saved row | functions on dictionaries; the calls depend only on a list of names (congruence); the finite tables of names by kernel evaluation, lifted to all dictionaries |
| C172 | `Consts.lean`: the numbers of `constants.py` as exact rationals | arithmetic for every converted value; the table by kernel evaluation over all its entries |
| C173 | `HistFile.lean`: the reader line by line, the parser of one line a parameter | induction over the lines; the result is a function of the list of lines with data |
| C174 | `PlotSym.lean`: eight tables of symbols in full and the loop that collects the legend | full tables checked by the kernel, lifted to all flags through the pools; induction over the flags plotted |
| C175 | `EmptyTab.lean`: columns by kind, the two tests per column | case analysis on kinds, induction over the columns |

Properties appended later are listed in `properties.jsonl`; each has its own module, named in
`MANIFEST.json` through its theorems.

## 4. What is not modelled

* the numerical contents of the MESA grids, their interpolators and classifiers
  (`posydon/interpolation/*`, `posydon/active_learning/*`); where a step uses them they are parameters;
* the right-hand sides of the differential equations and their integration; theorems about steps
  quantify over every result of an integration;
* reading and writing of HDF5 (a table is the list of its rows), the creation of grids from MESA
  output (`posydon/grids/psygrid.py`, `io.py`) apart from the functions named below;
* plotting (`posydon/visualization/*`), the command-line front ends (`posydon/CLI/*`), job
  submission, and MPI itself (ranks are numbers);
* floating-point rounding, overflow, signed zeros and the order of summation.

## 5. What is modelled, file by file

Taken from the headers of the modules, which also list the simplifications.
* `SNStep`: Model of the supernova step of `posydon/binary_evol/SN/step_SN.py`: `StepSN.__call__` (l.443-520), `_reset_other_star_properties` (l.438-441), `collapse_star` (l.527-975) and the bookkeeping of `orbital_kick` (l.1458-2053); with `update_star_states` (binarystar.py l.403-410), `check_state_of_star` (common_functions.py l.1052-1106), `CO_radius` (l.1302-1337), `Schwarzschild_Radius` (l.1367-1388) and `convert_star_to_massless_remnant` (singlestar.py l.114-133).
* `SNStepLemmas`: Lemmas about the supernova step: how its parts commute with exchanging the stars.
* `CE`: Model of the common-envelope step, `StepCEE` of `posydon/binary_evol/CE/step_CEE.py`: `__call__` (l.163-226), `calculate_lambda_CE` (l.228-370), `CEE_adjust_post_CE_core_masses` (l.372-466), the three options after a successful ejection (l.468-550, 552-667, 669-781), `CEE_simple_alpha_prescription` (l.783-987), `CEE_adjust_binary_upon_ejection` (l.991-1187), `CEE_adjust_mass_loss_during_CEE_merged` (l.1189-1347), `CEE_adjust_binary_upon_merger` (l.1349-1403) and `adjust_secondary_radius` (l.1405-1474).
* `Merged`: Model of the merger step of `posydon/binary_evol/DT/step_merged.py`: `MergedStep.__call__` (l.54-123, up to the call of the isolated step), `mass_weighted_avg` (l.125-194), `_apply_nan_attributes` (l.196-220), `merged_star_properties` (l.222-723); with `convert_star_to_massless_remnant` (singlestar.py l.122-133) and `check_state_of_star` (through `Verif.StarState`).
* `Mesa`: Model of the decisions taken by the grid steps of `posydon/binary_evol/MESA/step_mesa.py`: `MS_MS_step.__call__` (l.1305-1385), `CO_HMS_RLO_step.__call__` (l.1402-1500), `CO_HeMS_RLO_step.__call__` (l.1517-1615), `CO_HeMS_step.__call__` (l.1632-1711), `HMS_HMS_RLO_step.__call__` (l.1746-1861), and of the frame of `MesaGridStep.__call__` (l.358-442).
* `MesaTrack`: Model of `MesaGridStep.update_properties_NN`, `posydon/binary_evol/MESA/step_mesa.py` l.473-877: how the current values and the histories of a binary and its stars are filled from the closest track of a grid.
* `MesaStop`: Model of `MesaGridStep.stop_at_condition` and `interpolate_at_t`, `posydon/binary_evol/MESA/step_mesa.py` l.1088-1288.
* `Scale`: Model of the scaling of features before interpolation, `DataScaler` of `posydon/interpolation/data_scaling.py` (l.12-224).
* `Constraint`: Model of the physical constraints imposed on interpolated values: `posydon/interpolation/constraints.py` (l.58-525), and their use in `posydon/interpolation/IF_interpolation.py` l.495 and l.704-709.
* `DoubleCO`: Model of the step of two compact objects, `posydon/binary_evol/DT/double_CO.py`: the dense output (l.35-119), `__call__` (l.137-151), `solve_ODEs` (l.153-265) and the right-hand side (l.268-348); of the parts of the detached step it inherits that decide its outcome (`step_detached.py` l.299-338), and of `CO_radius` and `Schwarzschild_Radius` (`common_functions.py` l.1302-1337, 1367-1388).
* `Match`: Model of the choice of stars and grids when a binary is matched to single-star tracks: `posydon/binary_evol/binarystar.py` `check_who_exists` (l.341-357) and, in `posydon/binary_evol/track_match.py`, `determine_star_states` (l.2076-2182), the choice of the matching list in `match_through_minimize` (`get_match_attrs`, l.1155-1225) with the lists of states of `posydon/binary_evol/flow_chart.py` (l.116-135) and the default lists of quantities (l.345-401), the first half of `get_star_match_data` (l.1501-1543) and `do_matching` (l.1906-2026); also the request made by `adjust_secondary_radius` of `posydon/binary_evol/CE/step_CEE.py` (l.1442-1464).
* `Fit`: Model of the search for a single-star track in `posydon/binary_evol/track_match.py`: `get_root0` (l.561-603, the starting point), `match_through_minimize` (the attempts, l.1293-1458), `match_through_root` (the acceptance, l.898-903) and the removal of rows whose age does not increase in `get_star_match_data` (l.1547-1617).
* `Spin`: Model of the rotation of matched stars in `posydon/binary_evol/track_match.py`: `calc_omega` (l.1631-1733), `update_rotation_info` (l.1735-1828) and the part of `update_star_properties` that leaves the spin alone (l.2211-2222).
* `Tides`: Model of the tides of the detached step, `posydon/binary_evol/DT/tides/default_tides.py` (`default_tides`, l.7-329).
* `Rhs`: Model of the rates of change of orbit and spins in the detached step: winds (`posydon/binary_evol/DT/winds/default_winds.py` l.4-161), gravitational radiation (`DT/gravitational_radiation/default_gravrad.py` l.4-79), magnetic braking (`DT/magnetic_braking/prescriptions.py` l.6-378) and their sum (`DT/step_detached.py`, `detached_evolution.update_props` and `__call__`, l.1130-1407).
* `Isolated`: Model of the steps for stars without a companion: `IsolatedStep` (`posydon/binary_evol/DT/step_isolated.py` l.33-71), `DisruptedStep` (`step_disrupted.py` l.33-44), `InitiallySingleStep` (`step_initially_single.py` l.34-39), and of the last step (`posydon/binary_evol/step_end.py` l.14-18 with `BinaryStar.update_star_states`, binarystar.py l.403-410).
* `Accretion`: Model of accretion onto a compact object, `posydon/utils/common_functions.py`: `stefan_boltzmann_law` (l.130-134), `eddington_limit` (l.394-455), `beaming` (l.458-506), `bondi_hoyle` (l.509-669), `CO_radius` (l.1302-1337) and `Schwarzschild_Radius` (l.1367-1390).
* `NatalKick`: Model of how a natal kick is chosen, `posydon/binary_evol/SN/step_SN.py`: the options for kicks in `StepSN.__init__` (l.266-291), the kick of the collapsing star in `StepSN.orbital_kick` (l.1548-1610 for the first, 1654-1710 for the second star), `generate_kick` (l.2059-2117), `_get_kick_velocity` (l.2119-2176) and `_get_kick_normalisation` (l.2178-2215).
* `Frame`: Model of writing a binary to a table and reading it back, `posydon/binary_evol/binarystar.py`: `BinaryStar.to_df` (l.412-604), `from_df` (l.606-725), `to_oneline_df` (l.727-792), `from_oneline_df` (l.794-942), with `SingleStar.to_df` (`singlestar.py` l.421-519), `to_oneline_df` (l.521-586), the assignments of `SingleStar.__init__` (l.318-325) and `BinaryStar.__init__` (l.164-188), and the look-up of data types in `clean_binary_oneline_df` (`posydon/popsyn/io.py` l.286-336).
* `IFInterp`: Model of the initial-final interpolation, `posydon/interpolation/IF_interpolation.py`: `IFInterpolator.__init__` and `evaluate` (l.213-284), `BaseIFInterpolator.__init__` as far as classes and scalings are concerned (l.418-547), `_binary2array` (l.610-628), `_setValid` (l.630-652), `train_interpolator` and `test_interpolator` (l.654-712), `evaluate_mat` (l.815-844), the candidates of `_bestScaling` (l.955-970), `_fillNans` (l.1038-1057), `NNInterpolator`, `LinInterpolator` (l.1113-1208), `MC_Interpolator` (l.1211-1296), the choice of neighbours in `xtrain` (l.1433-1470), `Scaler` and `MatrixScaler` (l.1474-1570) and `xval_indices` (l.1576-1610).
* `GridMake`: Model of the making and loading of grids, `posydon/grids/psygrid.py`: which runs `_create_psygrid` takes and where their directory, rows and tables go (l.620-636, 702-1372), the checks of `load` (l.1550-1570), `add_column` (l.1391-1418), `__getitem__`, `__len__`, iteration (l.1687-1790, 2218-2245), `rerun` as far as the choice of runs is concerned (l.1825-1880), `__eq__` (l.2127-2215), and `join_lists` and `fix_He_core` (`posydon/utils/gridutils.py` l.53-77 and 124-134).
* `GridJoin`: Model of joining grids and of reading the directories of runs: `posydon/grids/psygrid.py` `join_grids` (l.2489-2701), `downsample_history` and `downsample_profile` (l.2366-2460), the text columns in `PSyGrid.load` (l.1490-1507); `posydon/grids/io.py` `initial_values_from_dirname` (l.452-489), `read_initial_values` (l.402-449), `GridReader._get_input_folders` (l.254-306), `GridReader.infer_history_columns` (l.322-364).
* `Transient`: Selection of transients
* `Detect`: Spins, masses and detection of pairs of compact objects
* `Burst`: Gamma-ray bursts
* `Collapse`: Collapse of a star into a black hole, shell by shell
* `Single`: Model of `posydon/interpolation/interpolation.py`: the grid of single stars `GRIDInterpolator` (lines 320-767) and the nearest neighbour of `psyTrackInterp` (lines 106-202), and of the function `get_track_val` in `posydon/binary_evol/track_match.py` (lines 605-650).
* `Moe`: Model of `posydon/popsyn/Moes_distributions.py`: the joint distribution of periods, mass ratios and eccentricities `Moe_17_PsandQs` (lines 26-474), and of its use in `posydon/popsyn/independent_sample.py` (`generate_independent_samples`, lines 48-71, and `use_Moe_17_PsandQs`, lines 103-119).
* `IFStep`: Model of `MesaGridStep.initial_final_interpolation`, `posydon/binary_evol/MESA/step_mesa.py` l.879-1052, with the table `POSYDON_TO_MESA` (l.41-117).
* `MTLabel`: Model of `combine_TF12`, `posydon/visualization/combine_TF.py` l.60-236, and of the texts of the mass-transfer history of a run (`DEFAULT_MARKERS_COLORS_LEGENDS['combined_TF12']`, `posydon/visualization/plot_defaults.py` l.472-591, fourth entries; used by `post_process_grid`, `posydon/grids/post_processing.py` l.472-475).
* `PostGrid`: Model of the post-processing of grids, `posydon/grids/post_processing.py`: `CC_quantities` (l.38-41), `assign_core_collapse_quantities_none` (l.43-72), `post_process_grid` (l.131-494), the conversion and distribution of the columns in `add_post_processed_quantities` (l.496-611), and `get_SN_MODEL` (`posydon/grids/SN_MODELS.py` l.524-545).
* `PostGridTable`: The complete tables of the columns of predefined models, for C94.
* `FromRun`: Model of `BinaryStar.from_run`, `posydon/binary_evol/binarystar.py` l.981-1093, and `SingleStar.from_run`, `posydon/binary_evol/singlestar.py` l.598-646, with the tables of column names (binarystar.py l.55-84, singlestar.py l.114-120), the reading of histories in `check_state_of_star` (`posydon/utils/common_functions.py` l.1072-1096) and in `get_binary_state_and_event_and_mt_case` (l.1180-1193).
* `CEParam`: Model of the common-envelope parameters stored for every run of a grid, `CEE_parameters_from_core_abundance_thresholds` (`posydon/utils/common_functions.py` l.1833-2013), and of the values at helium depletion, `calculate_Patton20_values_at_He_depl` (l.1787-1830).
* `Chars`: Literal lists of characters, written as texts: `chars! "ab"` stands for `['a', 'b']`.
* `Jobs`: Model of the scripts of a population run on a cluster and of the command that checks such a run and repairs it: `posydon/CLI/io.py` `create_slurm_array` (l.161-244), `create_slurm_rescue` (l.324-416), `create_batch_rescue_script` (l.483-591), `create_bash_submit_rescue_script` (l.593-625), the list of files of `create_merge_script_text` (l.91-93); `posydon/CLI/popsyn/check.py` `check_population_files` (l.172-211), `check_binary_counts` (l.213-266), `check_run_status` (l.268-298), `get_expected_batch_count` (l.302-333), `find_missing_batch_indices` (l.335-358), `print_batch_status` (l.360-405), `check_batch` (l.537-601), `get_batches_status` (l.606-637), `handle_batches_complete` (l.702-748), `check_popsyn_function` (l.753-833); the test of the length of the job array in `posydon/CLI/popsyn/setup.py` l.107-110; the rank and size of a task in `binarypop_kwargs_from_ini` (`posydon/popsyn/io.py` l.541-555).
* `Matchers`: Model of the track matchers that the steps of a simulation share, `posydon/binary_evol/simulationproperties.py` `check_step` (l.519-555), `_check_track_matcher` (l.627-674), `create_track_matcher` (l.706-719), with `TrackMatcher.separate_kwargs` and the assignment of the settings in `TrackMatcher.__init__` (`posydon/binary_evol/track_match.py` l.255-307, 408-422), for steps whose class takes a metallicity and a track matcher (the detached, disrupted, merged, initially single and common-envelope steps).
* `SNModels`: Model of the pre-defined supernova models, `posydon/grids/SN_MODELS.py` (all of it), of their use when an ini file is checked, `posydon/CLI/popsyn/setup.py` `check_SN_MODEL_validity` (l.36-50), and in the supernova step, `posydon/binary_evol/SN/step_SN.py` `StepSN.__init__` (l.267-320, 417-418) and `collapse_star` (l.574-584).
* `ProfPred`: Model of the prediction of composition profiles, `posydon/interpolation/profile_interpolation.py` `Composition.predict_single` (l.730-811) and the list of states (l.561-580).
* `ProfTrain`: Model of the data around predicted profiles, `posydon/interpolation/profile_interpolation.py`: the extraction of profiles from a grid (`CompileData`, l.33-151), the split into training and validation data (`load_profiles` l.181-214), the correction to profiles that decrease (`mono_decrease` l.337-360), the density profiles (`Density.predict` l.462-506), and the boundaries that the networks are trained on (`calc_bevel_bounds` l.606-617).
* `RateStore`: Model of the results stored in a population file: `posydon/popsyn/synthetic_population.py`, `Population.create_transient_population` (l.1640-1736), `TransientPopulation.__init__` (l.1801-1807), `calculate_model_weights` (l.1973-1987), `model_weights` (l.2007-2034), `calculate_cosmic_weights` (l.2091-2213), `_write_MODEL_data` (l.2333-2353), `Rates.__init__` (l.2447-2468), `_read_MODEL_data` (l.2470-2488), `calculate_intrinsic_rate_density` (l.2570-2622), `calculate_observable_population` (l.2624-2695), `observable_population` (l.2697-2732), `observable_population_names` (l.2734-2749), `intrinsic_rate_density` (l.2751-2769).
* `Inlist`: MESA inlists of a grid
* `GridPoint`: Model of running a point of a MESA grid: `bin/posydon-run-grid`, `create_working_directory` (l.175-220), `create_binary_inlists` (l.222-385), `create_star_formation` (l.387-441), `run_grid_point` (l.734-789), and in the main part the choice of the parameters (l.844-876, l.965-975), the loop for single stars (l.906-921).
* `Pipeline`: Setting up the post-processing pipeline
* `PipelineCsv`: The tables of the post-processing pipeline
* `Rerun`: Reruns and training in the post-processing pipeline
* `Sampler`: The sampler of new grid points: Markov chains
* `Propose`: The sampler of new grid points: targets and proposals
* `TableData`: Tables for the active learning
* `Classify`: Classifiers of the active learning
* `Query`: Queries and dynamic sampling of the active learning
* `GridTools`: Tools for grids
* `RunFiles`: Files of runs and of grids
* `Eep`: Equivalent evolutionary points
* `Compress`: Compressing the files of runs
* `IniValues`: Values and sections of ini files
* `StepHooks`: Columns with the names and the durations of the steps
* `MesaSetup`: Setting up the steps with grids
* `SfhTables`: Star formation histories from tables
* `OpenPop`: Model of opening a population file: `posydon/popsyn/synthetic_population.py`, `PopulationIO._load_metadata` (l.852-872), `_save_mass_per_metallicity` (l.874-886), `_load_mass_per_metallicity` (l.888-900), `_save_ini_params` (l.902-920), `_load_ini_params` (l.922-942), `Population.__init__` (l.988-1135), `Population.formation_channels` (l.1388-1405), `History.__init__` (l.349-399), `Oneline.__init__` (l.623-647); the list of saved parameters is `posydon/popsyn/binarypopulation.py` l.62-82.
* `Regress`: Regressors of the active learning
* `Engines`: Core collapse engines that are trained from tables
* `PipeRun`: The tasks of the post-processing pipeline
* `PlotSlices`: Slices of grids and of populations for plots
* `VHCount`: Counting evolutions for van den Heuvel diagrams
* `Assess`: Assessment of interpolators
* `StepOptions`: Options of the steps
* `InScale`: Inputs and outputs of the initial-final interpolators
* `Neigh`: Neighbours, test points and made-up data of the active learning
* `Dialog`: Questions and logs in the check of a run
* `Compare`: Comparing two runs of the test binaries
* `DynGrid`: Model of running a MESA grid with several processes: `bin/posydon-run-grid`, `do_root_process_logic` (l.620-693), `do_child_process_logic` (l.696-732), the loop of the children (l.999-1004), `convert_input_cols_to_mesa_cols` (l.602-618), the columns which are added to the grid (l.947-962), `extract_mesa_results` (l.162-173), the results of a fixed grid (l.981-990), the flags of the formation (l.804-819), the file of the grid (l.822-830), `move_mesa_output` and `run_mesa` (l.443-528); `GridReader.__init__` of `posydon/grids/io.py` (l.248-252) for the format.
* `RunLabels`: Model of labelling a MESA run: `posydon/grids/termination_flags.py`, lines of the log as text (l.54-99), `check_state_from_history` (l.197-227), `get_mass_transfer_flag` with the states looked up in the histories (l.102-194), `get_flags_from_MESA_run` (l.230-272), the flags and the class that `posydon/grids/psygrid.py` stores for a run (l.1155-1171, l.1195-1203), and `get_binary_state_and_event_and_mt_case_array` of `posydon/utils/common_functions.py` (l.1264-1299).
* `Life`: Model of whole evolutions: the loop of `BinaryStar.evolve` (`posydon/binary_evol/binarystar.py` l.219-253) with the default flow chart (`flow_chart.py` l.186-359) and the steps themselves, each by its own model: the grid steps (`Verif.Mesa`, with state and event of the last model from `Verif.MTCase`), the detached step (`Verif.DetachedEvent`), the steps of stars without a companion, the common envelope (`Verif.CE`), the merger (`Verif.Merged`), the supernova (`Verif.SNStep`) and two compact objects (`Verif.DoubleCO`).
* `Charts`: Model of evolutions with other flow charts than the default one: charts given by the user (`flow_chart`, `posydon/binary_evol/flow_chart.py` l.361-400), the chart of binaries that are born eccentric (`initial_eccentricity_flow_chart`, l.403-446, modelled in `Verif.FlowChart`) and the example of a chart of one's own (`posydon/user_modules/my_flow_chart_example.py` l.12-56). The steps are those of `Verif.Life`.
* `GridPlot`: What a plot of a grid shows
* `Panels`: Panels and legends of plots of grids
* `Curves`: Curves of runs and Hertzsprung-Russell diagrams
* `Markers`: Symbols of mass-transfer histories
* `PopPlot`: Histograms of populations
* `DownNaN`: Downsampling of tracks with missing values: the model of `Verif.Downsample` (`posydon/grids/downsampling.py`) with NaN as `none`.
* `Fits`: Model of two fitting formulae of `posydon/utils/common_functions.py`: `rzams` l.137-223, the radius of a star at its birth (Tout et al. 1996), and `He_MS_lifetime` l.1340-1365, the duration of the burning of helium.
* `Datasets`: Model of the published data sets, `posydon/utils/datasets.py` l.24-199, of their listing (`list_datasets`, `posydon/utils/data_download.py` l.85-125), of the command `get-posydon-data` (l.26-61, l.232-243) and of the paths of the environment (`ensure_path`, `posydon/config.py` l.7-30). Downloading itself is `Verif.Download`.
* `Streams`: Model of which random number generator is used by which part of a population run: `posydon/binary_evol/simulationproperties.py`, `load_steps` (l.354-378), `load_a_step` (l.386-477), `check_step` (l.552-555) and `from_ini` (l.302-352); `posydon/popsyn/binarypopulation.py`, `BinaryPopulation.__init__` (l.157-197), `_safe_evolve` (l.294-352), `BinaryGenerator` (l.987-1013, l.1028-1029, l.1097-1099); `posydon/popsyn/independent_sample.py` l.48-64 (one object of the Moe & Di Stefano tables for the whole session) and `posydon/popsyn/Moes_distributions.py` l.117.
* `PopShare`: Model of how a population sets the metallicity and the time limit of the properties it is given: `posydon/popsyn/binarypopulation.py`, `STEP_NAMES_LOADING_GRIDS` (l.106-110), `BinaryPopulation.__init__` (l.136-153) and `_safe_evolve` (l.297-309), on top of `SimProps.loadSteps`.
* `MassFault`: Model of the `try … except` around the book-keeping of the simulated mass, in `posydon/popsyn/binarypopulation.py`, `PopulationManager.save` (l.895-962) and `BinaryPopulation.combine_saved_files` (l.538-612). The masses of one table are `PopMass.addFile`, the faults of a file are `Pop.Fault`.
* `Describe`: Model of the descriptions a grid and a run give of themselves: `PSyGrid.__str__` (`posydon/grids/psygrid.py` l.1584-1685) and `RunReader.report` (`posydon/grids/io.py` l.190-214).
* `Kepler`: Model of the places where a period and a separation are written to a binary, to compare them with Kepler's third law: `BinaryStar.__init__` (`posydon/binary_evol/binarystar.py` l.193-202, the one that is missing is computed from the other) and the part of `update_after_evo` (`posydon/binary_evol/DT/step_detached.py` l.603-626, 632-675) that records the orbit and the masses at the end of detached evolution, with the masses that `track_match.py` l.1571-1575 gives to the track of a compact object (the final values read at the end of a star's life, key_library.py l.165-176, do not contain the mass). The common-envelope step, the supernova step, the end of the detached step and the step of two compact objects are the models of `Verif.CE`, `Verif.SNStep`, `Verif.DetachedEvent` and `Verif.DoubleCO`.
* `Clock`: Time and total mass of a binary through the steps of its evolution. The steps are the models of `Verif.CE` (step_CEE.py), `Verif.SNStep` (step_SN.py), `Verif.Detached` and `Verif.Kepler` (step_detached.py, with the masses of `track_match.py`), `Verif.DoubleCO` (double_CO.py) and `Verif.Merged` (step_merged.py, up to the call of the isolated step, which does not touch the time); here they are only put one after the other.
* `Relabel`: Exchanging the labels of the two stars in a whole evolution: the loop of `BinaryStar.evolve` (`Verif.Evolve`, `posydon/binary_evol/binarystar.py` l.219-314) run for a binary and for the same binary with its stars exchanged.
* `Kinds`: The kind of a compact object (its `state`) and its mass through the steps of an evolution. The steps are the models of `Verif.CE` (step_CEE.py), `Verif.SNStep` (step_SN.py and `update_star_states` of binarystar.py), `Verif.Merged` (step_merged.py), `Verif.Kepler` (step_detached.py with the masses of track_match.py) and `Verif.DoubleCO` (double_CO.py), put one after the other; the part of `step_mesa.py` that sets mass, radius and state of a compact object is modelled here.
* `Spins`: The spin of a compact object through the steps of an evolution: `Verif.SNStep` (step_SN.py), `Verif.CE` (step_CEE.py), `Verif.Merged` (step_merged.py) and the grid steps of `posydon/binary_evol/MESA/step_mesa.py` l.656-669, 933-938, with `spin_stable_mass_transfer` of common_functions.py l.1027-1050 (`GW.spinAfter`); detached evolution and the inspiral of two compact objects leave the spin alone.
* `Bound`: Separation and eccentricity of a binary through the steps of its evolution. The steps are the models of `Verif.CE` (step_CEE.py), `Verif.SNStep` (step_SN.py, the orbit after a kick being that of `Verif.Kick`), `Verif.DetachedEvent` (the end of step_detached.py), `Verif.DoubleCO` (double_CO.py), `Verif.Isolated` (step_isolated.py, disrupted and single stars) and `Verif.Merged` (step_merged.py); here they are only put one after the other.
* `EndStar`: Model of what a star is given when it reaches the end of its track in the detached step: `get_star_final_values` and `get_star_profile` of `posydon/binary_evol/track_match.py`, l.2225-2291, with `DEFAULT_PROFILE_KEYS` and `DEFAULT_FINAL_KEYS` of `posydon/utils/key_library.py`, l.152-176. The interpolation in the grids of single stars is that of `Single`.
* `Cores`: The core masses of a star through the steps of an evolution: `Verif.CE` (step_CEE.py), `Verif.SNStep` (step_SN.py), `Verif.Merged` (step_merged.py), the grid steps of `posydon/binary_evol/MESA/step_mesa.py` and detached evolution.
* `Metal`: The metallicity of a star through the steps of an evolution: `Verif.CE` (step_CEE.py l.1159-1186, which keeps `metallicity`), `Verif.SNStep` (step_SN.py l.965, which takes the last recorded one), `Verif.Merged` (step_merged.py), the grid steps of `posydon/binary_evol/MESA/step_mesa.py` l.603-609, 693-699, 911-914, 943-945 and detached evolution, which write back the value they find.
* `Fracs`: The abundances of a star through the steps of an evolution: `Verif.CE` (step_CEE.py l.1108-1186), `Verif.SNStep` (step_SN.py l.637-717, 965-975), `Verif.Merged` (step_merged.py l.125-640), grid steps and detached evolution.
* `Closing`: Model of what closing does to the grids of single stars: `posydon/interpolation/interpolation.py` `GRIDInterpolator` (construction l.332-519, `load_grid` l.521-552, `close` l.554-557, and the reading parts of `get`, `get_final_values`, `get_final_state`, `get_profile`, l.559-758), `posydon/grids/psygrid.py` `close` (l.1577-1582) and the check of `PSyRunView.__getitem__` (l.2311-2313), `posydon/binary_evol/track_match.py` `get_star_profile` (l.2280-2291), `posydon/binary_evol/simulationproperties.py` `close` (l.721-733) and the opening of grids in `create_track_matcher` (l.706-719), and `posydon/popsyn/binarypopulation.py` `close` (l.614-616) and `__getstate__` (l.618-627).
* `WarnCat`: Model of the categories of warnings and of their filters, `posydon/utils/posydonwarning.py`: the classes (l.53-142), their names (l.145-147), `_get_POSYDONWarning_class` (l.149-171), the choice of the action in `_apply_POSYDON_filter` (l.228-273), the checks of `Pwarn` (l.562-592), `SetPOSYDONWarnings` (l.594-610), `NoPOSYDONWarnings` (l.612-620), `AllPOSYDONWarnings` (l.622-630), and of Python's `warnings.filterwarnings`, which puts a filter in front of the others, after removing an equal one, or behind them with `append=True` if there is no equal one.
* `Laws`: The choice of distributions on both sides of a population: what `posydon/popsyn/independent_sample.py` draws from (`generate_orbital_periods` l.122-143, `generate_orbital_separations` l.146-216, `generate_primary_masses` l.264-314, `generate_secondary_masses` l.317-376, `generate_binary_fraction` l.378-423 and l.95) and which densities `posydon/popsyn/norm_pop.py` uses for the weights (`get_IMF_pdf` l.54-69, `get_mass_ratio_pdf` l.95-137, `get_binary_fraction_pdf` l.157-165, `get_period_pdf` l.181-218), both from the same dictionary of options.
* `LogNormal`: Model of the two remaining distributions of `posydon/popsyn/distributions.py`: `LogNormalSeparation` (l.1107-1245) and `ZeroEccentricity` (l.1047-1104).
* `VhDiagram`: Model of the Van den Heuvel diagrams of one binary, `posydon/visualization/VH_diagram/Presenter.py`: `combine_simplified_data` (l.29-43), `to_simplified_data` (l.46-71), `get_star_state_filename` (l.79-98), `get_event_state_filename` (l.101-130), `equal_with_epsilon` (l.133-151), `get_max_distance` (l.154-183), `_get_distance_representation` (l.619-660), the choice of pictures in `_prepare_diagram_line` (l.716-778), `_detailed_presentation` (l.789-803), `_reduce_data` (l.805-853), `_simplify_data` (l.870-920), `_digram_presentation` (l.936-964); default frequencies of `posydon/visualization/VH_diagram/PresenterMultiple.py` (l.106-107, 166-167).
* `VhTree`: Model of the tree of evolutions, `posydon/visualization/VH_diagram/PresenterMultiple.py`, class `Presenter_h`: `_sort_h` (l.183-197), `_tuple_h` (l.199-208), `_compareInfos` (l.210-224), `_remove_duplicate` (l.226-300), `_center_column` (l.303-332), the additional line in `_diagram_presentation_h` (l.375-390) and the edges of `_paint_obl_edges` (l.476-482).
* `PostGridNames`: Names of the columns added by post processing, for C94: they are the attributes later steps read.
* `Recoil`: The motion of a binary, the tilts of its orbit and the kicks of its stars through the steps of its evolution.
* `Shells`: Model of the volumes of redshift shells, `get_shell_comoving_volume` (`posydon/popsyn/rate_calculation.py` l.28-72), and of the weights of events and rate densities they are used with (`posydon/popsyn/synthetic_population.py` l.2142-2146, 2168-2200 and 2600-2617).
* `Overflow`: Model of the search for Roche-lobe overflow in the detached step, `posydon/binary_evol/DT/step_detached.py`: the event functions `ev_rlo1`, `ev_rlo2`, `ev_rel_rlo1`, `ev_rel_rlo2` (l.905-1086), the check at the start (l.305-309), the integration with events (l.500-517) and the recorded relative overflow (l.666-673).
* `TrackEnd`: Model of where the integration of the detached step ends, `posydon/binary_evol/DT/step_detached.py`: the event functions `ev_max_time1` and `ev_max_time2` (l.1088-1096), the time span and the events given to `solve_ivp` (l.500-517).
* `Recomb`: Model of the recombination energies of the cells of a stellar profile, `posydon/utils/common_functions.py`: `calculate_H2recombination_energy` (l.2606-2639), `calculate_recombination_energy` (l.2642-2693) and `profile_recomb_energy` (l.2696-2726), with the constants of `posydon/utils/constants.py` l.23-45, 108-109.
* `Figures`: Figures of interpolators
* `ProfNet`: Model of the training of density profiles, `posydon/interpolation/profile_interpolation.py`: `Density.__init__` (l.384-417), `Density.train` (l.437-458), `ProfileInterpolator.train` (l.242-281) and `ProfileInterpolator.predict` (l.299-312).
* `ProfBounds`: Model of the training of composition profiles, `posydon/interpolation/profile_interpolation.py` `Composition.__init__` (l.576-590) and `Composition.learn_bounds` (l.592-715).
* `Sequence`: Model of the program that runs sequences of active learning on synthetic data, `posydon/active_learning/psy_cris/run_params/run_psycris_sequence.py` `main` (l.32-141), and of the loop over iterations of `posydon/active_learning/psy_cris/utils.py` `calc_performance` (l.640-662).
* `PopAgain`: Model of evolving the *same* population object several times: `posydon/popsyn/binarypopulation.py`, `BinaryPopulation.evolve` (l.239-292) and `_safe_evolve` (l.294-489), started from whatever the manager still holds, and of the validation script `dev-tools/script_data/src/popsynth_suite.py`: `test_binpop_evolve` (l.18-57), `compare_io_to_ram` (l.59-86), `check_test` (l.109-127) and the first three tests of `test_popruns` (l.129-157), which do just that.
* `Validate`: Model of the scripts that validate a branch: `dev-tools/run_test_suite.sh`, `dev-tools/generate_baseline.sh` and `dev-tools/validate_binaries.sh`.
* `Version`: The version of the active-learning package, `posydon/active_learning/psy_cris/_version.py`: what git prints about the checkout is cut into pieces, the pieces are rendered in one of six styles, and when git cannot be asked other sources are tried.
* `Transfer`: Which models of a MESA run transfer mass: the four places that decide it.
* `PopKw`: Model of the options of a population on their way to the samplers and into the file of results: `posydon/popsyn/defaults.py` (all), `posydon/popsyn/binarypopulation.py` (`saved_ini_parameters` l.62-82, `BinaryPopulation.__init__` l.127-197, `BinaryPopulation.evolve` l.260-292, the call in `_safe_evolve` l.327 and l.352, the table of parameters in `combine_saved_files` l.592-599, `PopulationManager.__init__` l.661-670 and `generate` l.783-790, `BinaryGenerator.draw_initial_samples` l.1026-1043, `draw_initial_binary` l.1097-1101), `posydon/popsyn/independent_sample.py` (`generate_independent_samples` l.26-100 and the signatures of the functions it calls), `posydon/popsyn/Moes_distributions.py` l.97-98, `posydon/popsyn/star_formation_history.py` l.1063-1116.
* `Formation`: Model of the options of formation times: `posydon/popsyn/star_formation_history.py` l.1087-1122 (`get_formation_times`), and the list of scenarios l.30-37.
* `Consts`: The constants and conversions of `posydon/utils/constants.py`. The decimal numbers of the file are taken as exact rational numbers; rounding to floating-point numbers is left out.
* `HistFile`: `read_histogram_from_file` (`posydon/utils/common_functions.py` l.840-883) and its use with `histogram_sampler` for custom formation times (`posydon/popsyn/star_formation_history.py` l.1110-1116).
* `PlotSym`: Symbols of codes, states and classes in the plots of grids
* `EmptyTab`: Emptied tables
* `ConOrder`: The check of the order of constraints
* `ChiArr`: Effective spins of arrays

## 6. Where the code does not satisfy a property

Each entry is a theorem that proves the failure on the model for a concrete witness or for all inputs of the kind named; the part of the property that does hold is proved beside it.
* `C02_mirror_violated` (FlowChartProps.lean): C02 is false in full: a contact binary entering a common envelope is routed only if star 2 is the non-compact star.
* `C03_new_keys_violated` (FlowChartProps.lean): C03 is false in full: a change for a key that is missing from the chart (here the stripped carbon-exhausted star next to a black hole, which has no default successor) is dropped.
* `C05_step_limit_violated` (SimPropsProps.lean): C05 is false: the limit is 100 whatever `max_n_steps_per_binary` is passed as keyword (it could only be set through the `extra_hooks` list).
* `C07_restore_last_violated` (EvolveProps.lean): C07 is false for the index of the last row: the values are right but every history is emptied.
* `C08_forgotten_events_violated` (FlipProps.lean): C08 is false in full: each double-CE, merging or matching event keeps its star number.
* `C08_mt_case_violated` (FlipProps.lean): C08 is false for the mass-transfer case, which also names the donor.
* `C09_known_to_flow_chart_violated` (StarStateProps.lean): C09 is false in full: a stripped star with a hydrogen shell source, and an accretor with an exhausted core, are classified with names no step table knows (with the rounding function taken as the identity).
* `C10_nan_overflow_violated` (MTCaseProps.lean): C10 is false for overflow data that are NaN: such a star is reported as transferring mass.
* `C10_shift_invents_case_violated` (MTCaseProps.lean): C10 is false for steps without transfer: shifting reports an episode that did not happen.
* `C10_shift_loses_cases_violated` (MTCaseProps.lean): C10 is false for runs with an undetermined step: shifting turns every later case of that donor into "undetermined", so transfer episodes that happened disappear from the text (`?` instead of `?case_A1/B1`).
* `C12_nested_violated` (WarnProps.lean): C12 is false for nested contexts: leaving the inner context switches the outer one off; its recorded warnings are shown at once, although the outer context is still active, and later warnings in it are no longer caught.
* `C12_own_registry_late_violated` (WarnProps.lean): C12 is false for contexts with an own registry that filter late: the recorded warnings are counted in the global registry when the context is left, the own registry stays empty.
* `C15_depleted_at_end_violated` (ScrubProps.lean): C15 is false when the first depleted row is the last row: that row is removed, so the history returned is not depleted, although the flag says the run was stopped there.
* `C15_missing_star_age_violated` (ScrubProps.lean): C15 is false for a secondary without age column: although the binary history has ages, the call raises.
* `C15_state_violated` (TransferProps.lean): C15. So a run that is stopped "before central carbon depletion" can end with a star depleted of carbon.
* `C16_integer_data_violated` (DownsampleProps.lean): C16 is false for integer data: rows come back changed even if all of them are kept (0, 1, 2 becomes 0, 0, 2).
* `C16_nan_column_violated` (DownNaNProps.lean): One missing value makes its whole column missing, also after scaling back.
* `C16_nan_interval_violated` (DownNaNProps.lean): C16 with a missing value and a largest interval: all rows from the first to the one from which the rest is short enough, then the last.
* `C16_nan_violated` (DownNaNProps.lean): C16 fails with one missing value in one column: whatever the tolerance and all other columns, only the first and the last row are kept.
* `C17_other_star_violated` (FlagMirrorProps.lean): C17 violated: a run stopped by overflow at the distance of L2 is unstable mass transfer if the donor is star 1 and of unknown class if it is star 2.
* `C17_tpagb_violated` (TermFlagsProps.lean): C17 is false for asymptotic-giant-branch runs: `Reached TPAGB`, which the log reader returns as a regular end, is in none of the vocabularies, so a run with mass transfer is classified as unknown.
* `C18_drift_violated` (TermFlagsProps.lean): C18 is false for masses closer than the tolerance: entries drift away (the first run is not covered by any entry within the tolerance), and one run can take two entries (the same masses listed twice).
* `C19_failed_conversion_violated` (PopProps.lean): C19 fails if one table conversion fails: the binary concerned stays in memory, every later batch consists of it alone, and all the other binaries, though evolved and converted, are dropped.
* `C20_deleted_unread_violated` (PopProps.lean): C20 fails for later files: a file that could not be read (or only half of which could be appended) is deleted all the same.
* `C20_empty_block_violated` (PopProps.lean): C20/C19. A rank without binaries (more ranks than binaries) has no file to combine: `IndexError`.
* `C21_job_collision_violated` (SeedsProps.lean): C21 fails for two job arrays: their job numbers and metallicity positions can add up to the same seed.
* `C21_job_entropy_violated` (SeedsProps.lean): C21 fails for job arrays with a given entropy: all metallicities then use the same random numbers.
* `C21_reset_violated` (SeedsProps.lean): C21 fails for `reset_rng` in parallel runs: the spawn key is lost, so a reset generator is never what it was at the start, and it is the same one on all ranks.
* `C22_append_list_violated` (PopProps.lean): C22 fails for lists: a binary appended as part of a list cannot be removed without an exception.
* `C22_half_conversion_violated` (PopProps.lean): C22. Conversions that fail half-way leave a history table without a one-line row, with the binary still in memory.
* `C22_mixed_violated` (PopProps.lean): C22 fails for a manager holding both kinds: the tables of the binaries already broken down are left out.
* `C23_empty_file_violated` (SampleFileProps.lean): C23 fails for a file without rows: the loop that repeats the table never ends.
* `C23_zero_violated` (SampleFileProps.lean): C23 is inconsistent for zero binaries: all rows, but no kicks.
* `C24_alias_violated` (SamplingProps.lean): C24 fails for `secondary_mass_scheme = 'q=1'`: a system drawn as single loses its primary mass, because both arrays are the same object. For every set of draws and every fraction.
* `C24_ignored_limit_violated` (SamplingProps.lean): C24 fails for `'q=1'` also in its limits: `secondary_mass_max` is ignored.
* `C25_log_uniform_violated` (DistribProps.lean): C25 fails for the log-uniform distribution: its density integrates to `ln 10` (it is normalised in `log10 x` but divided by `x` without the factor `1 / ln 10`).
* `C25_zero_eccentricity_violated` (LogNormalProps.lean): C25 fails for circular orbits: the function given as density has the integral 0, although all draws are at 0.
* `C26_limit_above_violated` (SfhProps.lean): C26 violated: a lower limit above the highest edge is an IndexError.
* `C26_limits_below_violated` (SfhProps.lean): C26 violated: limits below the lowest edge. The first bin then gets its share up to its own upper edge, although the limit lies below.
* `C26_table_violated` (SfhProps.lean): C26 violated: the tabulated distributions start at the first entry instead of zero; whatever the lower limit, the star formation of the lowest tabulated metallicity is lost: over all metallicities up to one the fractions add up to `1 - m₀/Σm`.
* `C27_history_mask_rejected_violated` (TableProps.lean): C27 is false for history tables that are longer than one chunk but not a whole number of chunks: every mask of the right length is rejected.
* `C27_history_mask_violated` (TableProps.lean): C27 is false for history tables longer than one chunk: a mask that marks one row selects other rows. This is so for every table that is a whole number (at least two) of chunks of at least two rows.
* `C27_oneline_mask_repeated_violated` (TableProps.lean): C27 fails for one-line tables whose labels repeat (files joined without renumbering): marking one row gives every row with its label.
* `C27_open_slice_violated` (TableProps.lean): C27 fails when labels are not numbered from 0: an open slice misses rows.
* `C28_gap_violated` (SimPropsProps.lean): C28 fails for numbers beyond the number of keys: such a hook is left out without a message.
* `C28_hooks_violated` (SimPropsProps.lean): C28 is false when no hook has an optional key: with `n` hooks given by `import_1 … import_n` only, the last hook is silently skipped (for `n = 1`: no hook at all).
* `C29_efficiency_metallicity_violated` (RatesProps.lean): C29 fails for events of a metallicity that the mass table does not have: they have a channel but their total is 0.
* `C29_efficiency_violated` (RatesProps.lean): C29 fails for events without a channel: they count in the total but in no channel.
* `C30_defaults_violated` (RatesProps.lean): C30 fails: after any call that gives a parameter, a call without a model uses that parameter instead of the documented default.
* `C30_order_violated` (RatesProps.lean): C30 fails: the same call before and after another one uses different models.
* `C30_rows_missing_violated` (RatesProps.lean): C30 fails: events beyond the number of binaries (rounded up to whole chunks) get no weights, without any error.
* `C31_count_violated` (ExportProps.lean): C31 is false about numbers of systems: with several metallicities each is credited with the whole selection.
* `C31_mass_counted_again_violated` (ExportProps.lean): C31: the simulated mass of a metallicity in the target is what was there plus the whole simulated mass of the population. Hence it is not consistent to export from a population in two steps: the mass it stands for is counted twice.
* `C31_metallicity_units_violated` (ExportProps.lean): C31 is false about metallicities: a missing metallicity column is filled with the absolute metallicity, while the mass table of the same file is indexed in solar units, so that no exported binary has a metallicity of the mass table unless it is zero.
* `C31_repeated_violated` (ExportProps.lean): C31 is false for selections with repetitions: there are fewer rows than numbers, the lengths have the number twice.
* `C31_source_changed_violated` (ExportProps.lean): C31 is false about the source: its mass table has the size of the selection as number of systems afterwards, for every metallicity.
* `C31_unordered_violated` (ExportProps.lean): C31 is false for selections not in increasing order: the lengths are written in the order of the selection, the other tables in file order; read position by position the exported file gives binary 5 (now 0) the history of binary 2 and the reverse.
* `C32_delayed_violated` (SNProps.lean): C32 fails: without electron capture the delayed mechanism gives a stripped core of 1.38 solar masses a fallback fraction above 1 and a remnant heavier than the whole star.
* `C32_eleven_violated` (SNProps.lean): C32 fails: the delayed mechanism has no branch for a core of exactly 11 solar masses, whatever the star.
* `C32_he_core_option_violated` (SNProps.lean): C32 fails: the mechanism `direct_he_core`, accepted when the step is created, gives no remnant other than a white dwarf.
* `C32_pulse_floor_violated` (SNProps.lean): … but that limit, meant as the lowest mass fraction of metals among the published models, is applied to the metallicity in units of that of the Sun: stars with less metals than all those models still lose less and less.
* `C32_sukhbold_violated` (SNProps.lean): C32 fails: below its table Sukhbold+16 gives every black hole the mass of the first table entry, more than the helium core that collapses.
* `C33_unchanged_eccentricity_violated` (KickProps.lean): C33 is false to the letter: whatever the rounding of the angle, as long as it yields decimal numbers, an orbit of eccentricity one half comes out of a supernova without kick and mass loss with another eccentricity.
* `C34_no_kick_separation_violated` (SNStepProps.lean): C34 is false without kicks: the separation after the collapse of star 2 is computed from the masses of star 1, so a star 1 of unchanged mass leaves the separation as it was, however much mass star 2 has lost.
* `C34_no_kick_state_violated` (SNStepProps.lean): C34 is false without kicks: also a binary that is already disrupted, or of which one star has vanished in the collapse, is `detached` afterwards.
* `C34_state_overwritten_violated` (SNStepProps.lean): C34 is false in full: the option `max_NS_mass` of the supernova step has no effect on the state after the step, which is decided by the mass alone, with the fixed limits 1.1 and 2.5.
* `C34_white_dwarf_radius_violated` (SNStepProps.lean): C34 is false for white dwarfs: the radius is computed, and forgotten together with the metallicity in the loop that follows.
* `C35_burning_lost_violated` (MergedProps.lean): The luminosities are set to NaN before they are "kept" and before the star is classified: no product other than that of two main-sequence stars is in a burning state.
* `C35_compact_companion_violated` (MergedProps.lean): With a neutron star or black hole the whole mass of the star disappears: the compact object stays as it was.
* `C35_giant_not_burning_violated` (MergedProps.lean): A helium-burning giant that swallows a main-sequence star becomes `H-rich_non_burning`.
* `C35_helium_surface_violated` (MergedProps.lean): ... which is not the mean weighted by the two envelopes, unless the surfaces agree or the companion has no envelope.
* `C35_total_hydrogen_stale_violated` (MergedProps.lean): The total masses of hydrogen and helium (and the core radii) are not touched: they stay those of one of the two stars.
* `C36_companion_radius_violated` (CEProps.lean): In a double common envelope with one of the two-phase options the companion is given the donor's core radius, whatever its own is; this radius also enters the check for a merger.
* `C36_ejected_negative_violated` (CEProps.lean): In a double common envelope the ejected masses can be negative: an envelope lighter than 0.01 is "reduced" to that remainder.
* `C36_partial_ejection_raises_violated` (CEProps.lean): The option `mass_loss_during_CEE_merged` cannot be used with a single common envelope whose donor has a profile: the merger always stops with an UnboundLocalError.
* `C36_unknown_donor_violated` (CEProps.lean): Four kinds of stars are sent to the step by the flow chart but are not recognised as donors: the step raises.
* `C37_inverse_violated` (OrbitProps.lean): C37 fails exactly: the two functions are not inverse; the period comes back larger by between 0.01% and 0.02%.
* `C38_mutates_violated` (OrbitProps.lean): C38 fails for arrays: an invalid separation is replaced by NaN in the caller's own array.
* `C38_nan_violated` (OrbitProps.lean): C38 fails for unphysical input: a point-like star without companion in any orbit is reported as overflowing, because a comparison with NaN is false.
* `C41_zero_budget_violated` (ProfileProps.lean): C41 violated: a budget of zero (or less) ejects the whole envelope, for every profile that reaches into the core.
* `C42_mass_violated` (ProfileProps.lean): C42 violated: if no cell lies inside the core mass the answer is 0, which means "the star is all core", instead of -1, "all envelope".
* `C43_unknown_type_violated` (ConfigProps.lean): C43 fails for other values: an entry holding, say, a numpy integer is silently saved as `null` and read back as `None`.
* `C44_swallowed_violated` (DownloadProps.lean): C44 fails in general: if the corrupted file cannot be removed (or cannot be read for the check), the exception is swallowed, the archive with the wrong checksum is extracted and the call ends normally.
* `C45_track_shape_violated` (InterpProps.lean): C45 violated: an array with one time is answered with a number instead of an array, and an empty array is an error.
* `C46_fixed_violated` (PopShareProps.lean): A metallicity the user fixed for a step is overwritten: what the user wanted is not what is loaded.
* `C46_leak_violated` (SimPropsProps.lean): C46 is false when steps mix: a step's own metallicity leaks to all later steps without one.
* `C46_limit_violated` (PopShareProps.lean): Creating a second population with the same properties changes the time limit of the first before it is evolved.
* `C46_reload_violated` (SimPropsProps.lean): C46 is false on reload: after a first `load_steps(Z)`, every later call uses `Z` again, whatever metallicity is asked for.
* `C46_shared_all_violated` (PopShareProps.lean): For two populations of different metallicity that means: no step that takes a metallicity has the second one's.
* `C46_shared_violated` (PopShareProps.lean): Properties that are loaded stay as they are: a second population of another metallicity evolves with the grids of the first.
* `C47_large_dt_raises_violated` (DetachedProps.lean): A `dt` of at least twice the duration of the evolution raises IndexError, whatever the times; a smaller one never does.
* `C47_past_the_end_violated` (DetachedProps.lean): For a positive `dt` the recorded times can run past the end of the integration: with `dt = 1` and an evolution from 0 to 8/5 the last recorded time is 2, where the solution is extrapolated.
* `C48_match_violated` (SNProps.lean): C48 fails: any other state, for instance that of a star which did not collapse, is accepted with every type.
* `C48_undefined_core_violated` (SNProps.lean): C48 fails: without an electron-capture option an undefined core mass counts as core collapse.
* `C50_long_history_violated` (ChunkProps.lean): C50 is false for longer histories: rows beyond the chunk after the one in which the last selected binary was found are lost (here with chunks of one row).
* `C50_unsorted_violated` (ChunkProps.lean): C50 is false for files whose tables are not in increasing order of the labels (as when the files of several processes are joined): the lengths are sorted, the tables are not, and a binary is processed with part of its own and with another binary's history. Here binary 1 has rows `a`, `b` and binary 0 has row `c`.
* `C51_accretor_donor_violated` (MTCaseProps.lean): C51 is false for helium-accreting donors: their transfer is "undetermined" and the binary state becomes `undefined`, which no flow-chart entry has.
* `C54_append_violated` (MassFaultProps.lean): A file whose one-line table cannot be written: its systems are counted in the records although the file does not hold them.
* `C54_columns_violated` (MassFaultProps.lean): Histories without one of the columns `state`, `S1_mass`, `S2_mass`: the error is only printed, the one-line table is not stored and the recorded mass is 0.
* `C54_read_violated` (MassFaultProps.lean): A file whose one-line table cannot be read: its history is in the combined file, its mass is not in the records.
* `C54_same_index_violated` (PopMassProps.lean): C54 fails if one file holds two systems with the same index: the second one's mass is not counted although the system is.
* `C55_mean_mass_violated` (NormPopProps.lean): C55 fails: `get_mean_mass` integrates the mass ratio from `secondary_mass_min / primary_mass_min`, but the systems with primary mass `m1` are spread over ratios down to `secondary_mass_min / m1`. So for every primary above the minimum part of the companions is missed: the integral which should be 1 is smaller.
* `C55_separation_violated` (NormPopProps.lean): C55 fails for `orbital_scheme = 'separation'`: separations are drawn log-uniformly, so `log P` is uniformly distributed and its density is constant; the density used for the weights (compared with densities in `log P` of the period schemes) decreases with the period instead.
* `C59_co_core_violated` (ProfileProps.lean): C59 violated: for the carbon-oxygen core of a hydrogen-rich star the boundary is where hydrogen plus helium drop, but the mass is interpolated in helium alone. Here a star of mass 10 gets a core of mass 15.
* `C59_internal_energy_violated` (ProfileProps.lean): C59 violated: negative internal energies are only refused if all cells have one.
* `C60_after_end_violated` (FormationProps.lean): Violated: nothing keeps the last time before the end of the simulation, a binary can be born after it.
* `C60_before_beginning_violated` (FormationProps.lean): Violated: nothing keeps ages below the time that is simulated, a binary can be born before the beginning.
* `C60_histogram_violated` (SfhProps.lean): C60 violated: with a histogram of ages there is one time, however many binaries there are.
* `C61_model_stored_violated` (BinsProps.lean): C61 fails for other values: a range of one value is read back as a width, and an integer width, which would be meaningful, cannot be stored.
* `C61_redshift_step_violated` (BinsProps.lean): C61 fails: whenever the age of the universe is less than half a step above a multiple of the step, the centres cannot be computed: the last one would lie before the Big Bang.
* `C62_unordered_violated` (RatesProps.lean): C62 fails for a one-line table that is not in order of its index (files joined from several runs): the events of two binaries exchange their weights.
* `C63_missing_violated` (RatesProps.lean): C63 fails: events beyond the number of systems are left out.
* `C64_contact_violated` (ChannelProps.lean): C64 fails: the contact phase of the first grid relabels every later mass transfer from star 1 as well; and an event of the eccentric flow that the list does not know stays in the channel.
* `C64_cut_violated` (ChannelProps.lean): C64 fails: the cut after 100 characters merges different histories.
* `C65_index_violated` (GeneratorProps.lean): C65 fails: the index is `n`, while the `n`-th call numbers its binary `n - 1`.
* `C65_nth_violated` (GeneratorProps.lean): C65 fails when formation times are random: from the second binary on the stream is read at another position than in the `n`-th call, so a stream without repetitions gives another system.
* `C65_vectorised_violated` (GeneratorProps.lean): C65: drawn all at once the binaries of a population depend on its size: for two arrays per binary, the first binary of a population of two and of one differ when the stream has no repetitions.
* `C65_zero_violated` (GeneratorProps.lean): C65 fails: numbers 0 and 1 give the same system under different indices.
* `C66_accretion_late_violated` (DetachedProps.lean): The accretion rates of a compact object are recorded one row late: row `i + 1` receives the rate of output time `i`, row `0` keeps what was there.
* `C66_first_state_stale_violated` (DetachedProps.lean): Row `0`, the first output time, keeps the state the star had before the step, whatever its values are.
* `C66_repeated_time_violated` (DetachedProps.lean): So the recorded times are not strictly increasing as soon as more than one output time is asked for: the last two rows have the same time.
* `C67_both_ready_violated` (DetachedEventProps.lean): Two stars whose tracks are both over, with different masses, stop the binary with an exception; the times at which the two tracks end do not matter, although the message is about stars that end together.
* `C67_dead_end_violated` (DetachedEventProps.lean): The step can end in a state that the default flow chart does not know: a carbon-exhausted star that fills its Roche lobe. The next call of `run_step` then fails.
* `C68_chart_accepts_violated` (MesaProps.lean): C68 is false for the refused states: the chart sends a hydrogen-rich star with a helium-burning shell and an accretor with a hydrogen-burning shell to a step which always ends with a flow error.
* `C68_co_he_rlo_violated` (MesaProps.lean): C68 is false for helium donors in full: a helium star of 40 next to a compact object of 10, in an orbit wider than the grid, is marked as failed with "the period is inside the grid" instead of being sent to the detached step, because the parentheses around the disjunction are missing. The mirror image of the same binary is sent on.
* `C68_co_he_violated` (MesaProps.lean): C68 is false for detached helium stars in full: the mass tests ignore that the stars are exchanged. An eccentric binary whose masses and period lie inside the grid is marked as failed if the neutron star (1.4, below the lightest helium star) is called first, and sent to the detached step if it is called second; and a helium star heavier than the grid is accepted silently if it is called second.
* `C68_eccentric_chart_violated` (MesaProps.lean): C68 is false for the chart for eccentric binaries: it sends two overflowing stars to the grid of two stars even if one of them has lost its hydrogen, and that step ends with a flow error.
* `C68_hms_rlo_mirror_violated` (MesaProps.lean): C68 is false for two stars without compact object: the labels are never exchanged, so a donor that is called second must still be the less massive star; the mirror image of a binary that runs is marked as failed.
* `C68_hms_rlo_redirect_violated` (MesaProps.lean): C68 is false here in a third way: binaries outside the grid get an event that is not among the events of the flow chart, so that no chart has a key for them.
* `C68_zams_eccentricity_violated` (MesaProps.lean): C68 is false for main-sequence binaries in a second way: unlike in the other steps the eccentricity is not looked at; whatever it is, the grid of circular binaries is used.
* `C68_zams_mirror_violated` (MesaProps.lean): C68 is false for main-sequence binaries in full: the limit of half a solar mass for the less massive star uses the mass of the less massive star twice when the labels are exchanged. A 5 + 100 binary fails, the same binary written 100 + 5 runs.
* `C69_eddington_history_violated` (MesaTrackProps.lean): C69 is false for the recorded rows: the logarithm of the rate is compared with the Eddington rate itself. For every Eddington rate below one solar mass per year (they are of the order of 1e-8) every rate between the Eddington rate and one solar mass per year is recorded unchanged.
* `C69_filled_up_violated` (MesaTrackProps.lean): C69 is false with saved initial conditions and a binary history longer than the star histories: the filling up does not count the saved row, and histories of the binary differ in length by one.
* `C69_neither_violated` (MesaTrackProps.lean): C69 is false in full: without recording the track and without saving the initial conditions the step cannot be used, every property ends with an unbound variable.
* `C69_unequal_violated` (MesaTrackProps.lean): C69 is false if the binary history and the star history of a track differ in length (which the code announces to handle): whenever the track is recorded, some column and the history of states differ in length afterwards.
* `C70_exact_hit_violated` (MesaStopProps.lean): C70 is false in full: a run that ends exactly at the time limit is stopped with an index error (and such runs are sent here, because the test before asks for "not before the limit").
* `C70_falling_violated` (MesaStopProps.lean): C70 is false for conditions on other properties, in general: if the final value is not above the limit, as it is for every property that falls below its limit (such as the central hydrogen fraction), the step ends with an index error whatever happened before.
* `C70_words_violated` (MesaStopProps.lean): C70 is false for the words: the state of a star (or of the binary) at the limit is the last recorded one of the whole run, whatever the row the run is stopped at.
* `C71_constant_violated` (ScaleProps.lean): **C71 (violated)** A feature that is constant over the training data (any constant, any number of data) is fitted without complaint, but scaling it — even the very training data — gives no number, so the value is lost on the way back.
* `C71_log_domain_violated` (ScaleProps.lean): **C71 (violated)** One training value outside the domain of the logarithm is accepted by `fit`, and afterwards no number at all is scaled.
* `C71_unknown_method_violated` (ScaleProps.lean): **C71 (violated)** The refusal of an unknown method is not lasting: the unknown name has already been stored, so the object that refused now passes every number through unchanged in both directions instead of raising (l.65 before l.97).
* `C72_assertion_violated` (ConstraintProps.lean): **C72 (violated)** Without the rate of star 1 the assertion does fail.
* `C72_convective_violated` (ConstraintProps.lean): **C72 (violated)** It does fail there: the correction divides by zero or solves a singular system.
* `C72_extra_column_violated` (ConstraintProps.lean): **C72 (violated)** A quantity that follows from interpolated ones is added even if it was not asked for, so the corrected values have one entry more than the columns they are attributed to (`IF_interpolation.py` l.704-709).
* `C72_no_convection_violated` (ConstraintProps.lean): **C72 (violated)** A star without convective region (thickness and radius zero) is given one that is half as thick as the star.
* `C72_order_violated` (ConOrderProps.lean): For every table that is not empty the check ends with AttributeError before it says anything.
* `C72_second_star_violated` (ConstraintProps.lean): **C72 (violated)** The presence of columns is checked for star 1 only: when the radius of star 2 is interpolated but another of its columns is not, the correction stops with a missing key.
* `C72_shared_table_violated` (ConstraintProps.lean): **C72 (violated)** Finding the constraints rewrites the shared table, and earlier results are entries of that table: after a second interpolator without one of the core columns has been set up, the first one, which has the column and used to correct it, leaves it as it is — for both stars and whatever its value.
* `C72_unknown_core_violated` (ConstraintProps.lean): **C72 (violated)** A helium core mass that is not known hides the carbon-oxygen core from the comparison with the star: a core of 8 in a star of mass 5 passes.
* `C72_unknown_rate_violated` (ConstraintProps.lean): **C72 (violated)** An unknown transfer rate erases a known rate of mass loss from the system.
* `C72_zero_sum_violated` (ConstraintProps.lean): **C72 (violated)** Abundances that add up to zero are divided by zero: none of them remains.
* `C73_failure_ignored_violated` (DoubleCOProps.lean): C73, not true of the code: a failed integration does not mark the binary as failed. When the integrator reports failure (status -1) the step returns normally and leaves the binary as it was, with its state, event and time, so that the same step is chosen again (the inherited `solve_ODEs` raises `NumericalError` and sets the binary to failed).
* `C73_time_backwards_violated` (DoubleCOProps.lean): C73, not true of the code: time never runs backwards. When the two bodies already overlap at the start of the step (the separation is below the sum of the radii), the integration interval is reversed: the step reports contact at a time before the current one, with a separation larger than the current one.
* `C74_common_envelope_violated` (MatchProps.lean): **C74** (refuted): "in a common envelope the companion's radius is corrected by matching the companion". If star 2 is the donor and both stars have hydrogen, the donor is matched instead, and the companion is left with the interpolator (if any) of an earlier step.
* `C74_documented_violated` (MatchProps.lean): **C74** (refuted): "the alternative quantities of evolved H-rich stars are mass, central helium and helium core mass". The code uses the central hydrogen, which is zero in these stars.
* `C74_helium_accretor_violated` (MatchProps.lean): **C74** (refuted): "a star in a helium-star state is matched with the helium-star quantities". An accretor of helium that burns helium is in the list of helium stars and is put on the helium grid, but the list of evolved H-rich stars is consulted first and contains it too: it is matched by total mass, and with the helium-star quantities only on the H-rich grid.
* `C74_primary_alone_violated` (MatchProps.lean): **C74** (refuted): "either one or both stars can be matched". Asking for the primary alone stops with an unassigned-variable error if the primary is a compact object.
* `C75_end_violated` (FitProps.lean): **C75** (refuted): "the star's life ends where its track ends". The end is taken before rows are removed: if an earlier age exceeds the last one, the interpolator stops before the end of the star's life.
* `C75_exception_violated` (FitProps.lean): **C75** (refuted): "a solution within the final tolerance is not lost". If the first attempt has one but it is not good enough to stop, an exception in the second attempt ends the matching with an error.
* `C75_flag_violated` (FitProps.lean): **C75** (refuted): "a failed match leaves the star on its grid". When only the other grid gives a solution, beyond the final tolerance, there is no match but the star's grid has changed.
* `C75_start_violated` (FitProps.lean): **C75** (refuted): "the search starts from the nearest row". One row of the grid with an unknown quantity is always chosen, however near the others are.
* `C76_momentum_violated` (SpinProps.lean): **C76** (refuted): "the momentum of a star is kept". A star whose momentum and moment of inertia are known but whose surface rate is not starts from the rate they give, while its recorded rate becomes zero and its momentum one (logarithm zero).
* `C76_retrograde_violated` (SpinProps.lean): **C76** (refuted): "a star spins the same before and after". A star recorded as rotating backwards is reset to no rotation, while the evolution starts from the negative rate.
* `C76_unmatched_violated` (SpinProps.lean): **C76** (refuted): "a star that is not matched is left alone". If its rate is unknown, its rate, ratio and momentum are overwritten.
* `C78_carb_violated` (RhsProps.lean): **C78** (refuted): "a massive star is not magnetically braked". In the CARB law a primary of any mass is braked in full if its companion is a low-mass star, and a low-mass primary is not braked if its companion is massive.
* `C78_gw_sign_violated` (RhsProps.lean): **C78** (refuted): "gravitational radiation never widens an orbit". Within five gravitational radii it does.
* `C78_m15_violated` (RhsProps.lean): **C78** (refuted): "the M15 law treats both stars alike". A saturated primary is braked as many times faster as there are seconds in a year.
* `C78_unknown_violated` (RhsProps.lean): **C78** (refuted): "an unknown law of magnetic braking is only warned about". It stops with a type error.
* `C78_wind_spin_violated` (RhsProps.lean): **C78** (refuted): "without a wind a contracting star keeps its angular momentum". Where the spin-up is limited to 100 rad/yr² the star loses angular momentum.
* `C79_event_violated` (IsolatedProps.lean): **C79** (refuted): "the step for initially single stars clears the event". The assignment is written as a comparison: the detached step is called with the event unchanged.
* `C79_refused_violated` (IsolatedProps.lean): **C79** (refuted): "a binary that is refused, or whose evolution fails, keeps its orbit". The orbit is overwritten before the state is checked.
* `C80_fraction_violated` (AccretionProps.lean): **C80 (violated)**: just above 8.5 times the limit the emission fills more than the sphere, and the rate that is seen is less than without beaming.
* `C80_giants_violated` (AccretionProps.lean): **C80 (violated)**: the slow wind of giants (1/8 above 900 solar radii) is overwritten by the value for the mass: a giant and a star of one solar radius have the same factor.
* `C80_relative_violated` (AccretionProps.lean): **C80 (violated)**: at the point of the orbit itself it is not: the sign of the angle is the wrong one. Where the accretor of an eccentric orbit recedes from the donor, it meets the wind faster than it does.
* `C80_rows_violated` (AccretionProps.lean): **C80 (violated)**: with several rows the limit of the last one is applied to all of them: for a black hole that has grown from 1 to 10 solar masses the earlier row is limited by ten times its limit.
* `C80_scheme_violated` (AccretionProps.lean): **C80 (violated)**: otherwise all rows have the wind of the temperature of the last.
* `C80_white_dwarf_violated` (AccretionProps.lean): **C80 (violated)**: a white dwarf radiates more than the rest mass: its mass is handed over in grams where solar masses are expected, so that its radius is too small by a factor of about 10¹¹.
* `C80_wind_violated` (AccretionProps.lean): **C80 (violated)**: more can be accreted than the donor loses. A star of one solar mass well inside its Roche lobe, with a wind of 10⁻¹² solar masses per year, on a circular orbit around a black hole of 39 solar masses: 1.1 times the wind is accreted, from a disk and below the Eddington limit.
* `C81_dispersion_violated` (NatalKickProps.lean): **C81 (violated)**: where no dispersion is given there is no kick and no name is looked at: neither a prescription that needs no dispersion is applied nor a wrong name reported.
* `C81_generator_violated` (NatalKickProps.lean): **C81 (violated)**: without any parameter the step has no generator of random numbers, and a kick cannot be chosen.
* `C81_speed_violated` (NatalKickProps.lean): **C81 (violated)**: the linear prescription gives a negative speed where the remnant swallows more than the core, as a black hole of 10 solar masses formed around a core of 6 does.
* `C82_cut_violated` (FrameLineProps.lean): The moment of inertia and the carbon abundance of the core are written, but nothing is assigned to them when the line is read: their names contain `_i`.
* `C82_filler_violated` (FrameProps.lean): Histories are always filled up with `None`: the value for the type of the property is looked for under the name of the history, where it is never found.
* `C82_index_violated` (FrameProps.lean): Asking for index zero is not obeyed.
* `C82_kick_array_violated` (FrameLineProps.lean): A line with the columns of an old array of natal kicks is never read, although the code provides for it.
* `C82_mt_history_violated` (FrameLineProps.lean): The kinds of mass transfer in a grid, as text: after reading the value is a list of one text, and an attribute `mt` holds the text.
* `C82_padding_violated` (FrameProps.lean): So writing a table can change the binary that is written.
* `C82_period_violated` (FrameProps.lean): A table with separations but without periods: the periods are not computed (the code asks for a column `seperation`).
* `C82_scalars_violated` (FrameLineProps.lean): The average carbon abundance at helium depletion is written, but read as something else.
* `C82_series_violated` (FrameProps.lean): A single row handed over as a series is never read, although the code provides for it.
* `C82_short_violated` (FrameProps.lean): Therefore a binary whose history of velocities is shorter than another history cannot be written, for any choice of columns with both.
* `C82_types_violated` (FrameLineProps.lean): A column of text declared by the user whose name contains `_i` has no type, so that it is converted to numbers.
* `C82_velocity_violated` (FrameProps.lean): The systemic velocity is not restored: whatever it was, a binary read back was always at rest.
* `C83_history_violated` (IFInterpProps.lean): **C83** Tracks without a history of the binary are reported as discarded but used: their class stays among the valid ones.
* `C83_hull_violated` (IFInterpProps.lean): **C83** With the single method 'linear' a point outside the hull of the tracks ends in an AttributeError instead of the nearest neighbour.
* `C83_inputs_violated` (IFInterpProps.lean): **C83** With tracks used for classification only, the scalers of the inputs of a class are fitted with the wrong tracks: here the class `a` with the inputs 1 and 2 is scaled with 7 and 7, and both of its inputs become NaN.
* `C83_load_violated` (IFInterpProps.lean): **C83** An interpolator cannot be loaded from a file without also giving a grid, nor is the documented RuntimeError ever raised.
* `C83_names_violated` (IFInterpProps.lean): **C83** A plain list of names of scalings, which is what the documentation asks for and what is used for the outputs with the method '1NN', never works.
* `C83_nan_violated` (IFInterpProps.lean): **C83** Tracks with a missing input are reported as discarded but used if their class is a valid one.
* `C83_repetition_violated` (IFInterpProps.lean): **C83** With labels the parts do not depend on chance: every repetition of the cross-validation tests the same tracks.
* `C83_single_violated` (IFInterpProps.lean): **C83** An interpolator with a single method and scaled outputs returns the scaled number instead of the number: the class is used to look for the scalers, which exist for no class.
* `C84_columns_twice_violated` (GridMakeProps.lean): **C84** Violated: a column asked for twice is kept twice.
* `C84_columns_violated` (GridMakeProps.lean): **C84** Violated: a word that is not known is not refused; its letters are taken for columns.
* `C84_eq_dirs_violated` (GridMakeProps.lean): **C84** Violated: the directories of the runs and the collapse models are not compared.
* `C84_eq_nan_violated` (GridMakeProps.lean): **C84** Violated: a grid with a NaN in a table of a run does not equal itself.
* `C84_inlist_violated` (GridMakeProps.lean): **C84** Violated: one run which has to be ignored and has no file of its grid point makes the whole grid fail, whatever the other runs.
* `C84_rerun_violated` (GridMakeProps.lean): **C84** Violated: asking for runs and flags changes the list of the caller.
* `C84_slim_violated` (GridMakeProps.lean): **C84** Violated: a slim grid is loaded as a grid without runs: no run can be had and no column added although the values of its runs are there.
* `C85_capital_violated` (GridJoinProps.lean): **C85** Violated: a power of ten with a capital letter, as MESA allows, is refused, since it is not taken apart and `float` refuses it.
* `C85_empty_violated` (GridJoinProps.lean): **C85** Violated: nothing to join is a type error.
* `C85_models_violated` (GridJoinProps.lean): **C85** Violated: the collapse models of the grids are lost, whatever the grids.
* `C85_single_violated` (GridJoinProps.lean): **C85** Violated: directories of single stars are not checked, a missing name is an index error and not a failed assertion.
* `C85_slim_index_violated` (GridJoinProps.lean): **C85** Violated: the runs of a slim grid are asked for by number although there are none.
* `C85_slim_violated` (GridJoinProps.lean): **C85** Violated: a slim grid with runs cannot be joined.
* `C85_text_column_violated` (GridJoinProps.lean): **C85** Violated: a grid with the column of the history of mass transfer, which post-processing adds and which is text when the grid is opened, cannot be joined; nor one with another type.
* `C85_text_violated` (GridJoinProps.lean): **C85** Violated: values are compared as texts, so that the same mass written in two ways is two systems.
* `C86_channel_violated` (TransientProps.lean): **C86** Violated: a channel without the collapse gets the mark of a collapse all the same.
* `C86_kept_violated` (TransientProps.lean): **C86** Violated: a binary which is no pair of black holes stays in the table, with undefined values.
* `C86_shifted_violated` (TransientProps.lean): **C86** Violated: rows are counted over all the binaries, so that a binary selected which does not become a black hole in a supernova is given the values of another one which does so twice.
* `C87_caller_violated` (ChiArrProps.lean): An array with an undefined entry is another one for the caller afterwards: what was undefined can no longer be told from zero.
* `C87_chi_p_violated` (DetectProps.lean): **C87** Violated: with a heavier second star the parameter exceeds one.
* `C87_labels_violated` (DetectProps.lean): **C87** Violated: exchanging the labels of the stars changes the weight, for instance with a probability which grows with the mass.
* `C87_looked_up_violated` (DetectProps.lean): **C87** Violated: if the second star is the heavier one, another system is looked up: the mass is that of the lighter star and the ratio less than one, so that the total mass is too small.
* `C87_rounding_violated` (DetectProps.lean): **C87** Violated: the bounds are rounded to five decimals, so that a table which begins at a redshift below 0.000005 is scaled with the logarithm of zero.
* `C88_empty_violated` (BurstProps.lean): **C88** Violated: without any efficiency there is a burst of no energy, flagged if no least energy is asked for.
* `C88_goldstein_violated` (BurstProps.lean): **C88** Violated: some draws give a beaming above one, so that the isotropic energy is below the energy.
* `C88_integer_violated` (BurstProps.lean): **C88** Violated: an efficiency of one given as an integer is refused.
* `C88_pescalli_violated` (BurstProps.lean): **C88** Violated: with the relation of Pescalli and others the beaming exceeds one for small energies.
* `C88_twice_violated` (BurstProps.lean): **C88** Violated: that relation is applied to the efficiency times the energy, which contains the efficiency already, so that the isotropic energy grows with the third power of the efficiency.
* `C88_unchecked_violated` (BurstProps.lean): **C88** Violated: the beaming given is not checked: a negative one gives negative energies, zero gives an infinite energy and a flag.
* `C89_collapsing_violated` (CollapseProps.lean): **C89** Violated: the cell in which the mass to collapse is reached collapses as a whole, so that more than this mass ends up in the hole and in the radiation, if no neutrinos are lost and the mass of the star exceeds it.
* `C89_default_violated` (CollapseProps.lean): **C89** Violated: with the default for the neutrinos there is always an error.
* `C89_helium_violated` (CollapseProps.lean): **C89** Violated: for the helium ejected outside, the fraction of the cell below is used, so that it can be more than the helium there is.
* `C89_maximal_violated` (CollapseProps.lean): **C89** Violated: a spin of exactly one makes the next orbit undefined.
* `C89_outermost_violated` (CollapseProps.lean): **C89** Violated: if only the outermost cell is ejected nothing is counted, and printing stops with an error.
* `C89_units_violated` (CollapseProps.lean): **C89** Violated: without the columns needed the mass is divided by the mass of the sun although it is in solar masses: a black hole of some 2.5 solar masses gets a mass of less than a gram.
* `C90_duplicate_violated` (SingleProps.lean): **C90** Violated: of two runs with the same initial mass only the first is ever used.
* `C90_lifetime_violated` (SingleProps.lean): **C90** Violated: rows beyond the end of the shorter neighbour are dropped, so that a star between two others can end before either of them.
* `C90_one_side_violated` (SingleProps.lean): **C90** Violated: if a value is known at all heavier stars but at no lighter one, there is none at all in between.
* `C91_all_binaries_violated` (MoeProps.lean): **C91** In particular stars of the smallest mass all get the longest period, so the periods are not distributed as the density says.
* `C91_held_violated` (MoeProps.lean): **C91** The generator is made once in a process: a second population with other limits of the period gets the generator of the first one.
* `C91_narrow_violated` (MoeProps.lean): **C91** A shortest period a little above two days makes the construction fail.
* `C91_separation_violated` (MoeProps.lean): **C91** If the masses of the secondaries or the eccentricities come from this distribution, periods are handed over also where separations are asked for.
* `C91_smallest_mass_violated` (MoeProps.lean): **C91** Below 0.8 solar masses the smallest mass is not respected: the random number zero gives a secondary lighter than it, unless the ratio of the masses is on the grid.
* `C92_unstable_violated` (IFStepProps.lean): After unstable mass transfer a star keeps the supernova models it had before the step, although its core has changed.
* `C93_label_total_violated` (MTLabelProps.lean): A second star which transfers mass on the main sequence and then in a state for which no case is determined: the label is not in the dictionary, and the post-processing of the grid ends with a `KeyError`.
* `C93_nonburning_all_violated` (MTLabelProps.lean): **C93 (violated)** Whatever the earlier cases: if the last mass transfer is from a star without burning, the text says after the main sequence or stripped, by the first case, and never non-burning.
* `C93_nonburning_violated` (MTLabelProps.lean): Mass transfer on the main sequence and then from a star without burning is reported as last happening after the main sequence; alone it is reported as non-burning.
* `C94_collapse_violated` (PostGridProps.lean): **C94** Violated: the settings of models handed over are not used; a model with a name of its own is computed with the default settings.
* `C94_directories_violated` (PostGridProps.lean): **C94** Violated for a range that ends at a negative number: the directories of two runs are returned with empty columns, as no run is processed.
* `C94_pick_violated` (PostGridProps.lean): **C94** Violated: with a compact companion the first star is collapsed even if the flag says that the second has ended the run.
* `C94_stored_violated` (PostGridProps.lean): **C94** Violated: columns of models with names of their own are stored with the final values, not with the models; and those with a name that only starts like a predefined one are not stored at all.
* `C94_unknown_violated` (PostGridProps.lean): **C94** Violated: a run of an unknown class has its ordinary first star classified as a compact object.
* `C95_compact_histories_violated` (FromRunProps.lean): The histories of a star without a table are those of a new star, whatever the number of steps, but for mass, rates, metallicity and state.
* `C95_no_metallicity_violated` (FromRunProps.lean): A run without a value of `Z` is never turned into a binary: the alternative of no metallicity is not reached.
* `C95_profile_history_violated` (FromRunProps.lean): With profiles, the current profile is that of the run, but it is in no history.
* `C95_single_metallicity_violated` (FromRunProps.lean): The metallicity of a single star is the initial one, but its history is empty.
* `C96_accreted_violated` (CEParamProps.lean): No parameters are stored for stars with an accreted helium surface, which are normal stars and can start a common envelope, whatever their profile.
* `C96_depletion_accreted_violated` (CEParamProps.lean): A model classified as depleted with an accreted helium surface has no values, although it is the depleted model for the tables.
* `C96_depletion_first_violated` (CEParamProps.lean): If the star is depleted while stripped and only later counted as hydrogen-rich, the later model is used.
* `C97_arguments_violated` (JobsProps.lean): C97 violated: the number of jobs and the time of the merge that are given to the command have no effect.
* `C97_copy_violated` (JobsProps.lean): C97 violated: a copy of a batch file under another ending makes the check fail.
* `C97_count_violated` (JobsProps.lean): C97 violated: if all merged files are there but one of them lacks binaries, all batches are called complete and nothing is started again (check.py l.783-788).
* `C97_equals_violated` (JobsProps.lean): C97 violated: a setting that contains an equals sign is cut off.
* `C97_leftover_violated` (JobsProps.lean): C97 violated: a part of a batch that an interrupted task has left in the folder is merged as well.
* `C97_mixed_violated` (JobsProps.lean): C97 violated: if one metallicity has all batches but no merged file, and another one lacks a batch, no rescue script results: the command ends in an error (io.py l.506-511 called for the complete one).
* `C97_path_violated` (JobsProps.lean): C97 violated: started elsewhere, the rescue script is written to the present folder and not to that of the run, which is the one reported.
* `C97_stale_violated` (JobsProps.lean): C97 violated: a batch file of an earlier, longer job array takes the place of a missing one, as only the number of files is compared.
* `C98_grid_violated` (MatchersProps.lean): A grid given as a setting, which the matcher takes as a setting, is never used.
* `C98_kept_violated` (MatchersProps.lean): The same request, loading a step with its default settings, gives a matcher with the default tolerance in a new simulation, and one with an earlier tolerance if the step was loaded before with that tolerance: a setting that is no longer given is not reset.
* `C98_leak_violated` (MatchersProps.lean): If the grid of stripped stars cannot be read, the other grid stays open although no matcher uses it, and no later load removes it.
* `C98_second_violated` (MatchersProps.lean): So two simulations made from the same dictionary differ: the first has the tolerance of the dictionary, the second the default.
* `C99_accepted_violated` (SNModelsProps.lean): Without interpolated values the check accepts every file, also one with a mechanism or a setting that the step refuses.
* `C99_missing_violated` (SNModelsProps.lean): If the switch for interpolated values is left out, the check ends in a `KeyError`, although the step has a default.
* `C99_refused_violated` (SNModelsProps.lean): A setting that is left out of the ini file, and has its default in the step, is taken for a mismatch: the check refuses the file although the step uses the first model with it.
* `C99_unknown_setting_violated` (SNModelsProps.lean): A setting with a misspelt name passes the check, whatever the other settings, and the step refuses it.
* `C100_center_violated` (ProfPredProps.lean): C100 fails: for a star that burns hydrogen the given helium of the centre is never used.
* `C100_equal_violated` (ProfPredProps.lean): C100 fails: when a network gives the same boundary twice (as a saturated output does) the prediction fails instead of giving a step.
* `C100_negative_violated` (ProfPredProps.lean): C100 fails: the boundaries come from separate outputs of a network, and nothing puts them in order. A giant after core helium burning with proper abundances at both ends gets a layer in which the mass fraction of helium is −0.2.
* `C100_one_step_violated` (ProfBoundsProps.lean): C100 fails: a profile with one step of the sum of hydrogen and helium is trained for two equal boundaries, for which prediction then fails: training and prediction disagree on the shape.
* `C100_rare_violated` (ProfBoundsProps.lean): C100 fails: a state with training data but no validation data, such as a rare one, stops the training for all states.
* `C100_unknown_violated` (ProfPredProps.lean): C100 fails: the states of stars with accreted helium, which the same package gives to stars, are unknown here, and so is the state of a star that burns helium in a shell.
* `C101_analysis_violated` (ProfNetProps.lean): C101 fails: profiles of binaries that did not converge, for which nothing is predicted, take part in the analysis all predictions are made with: another profile of such a binary changes the prediction for one of another class.
* `C101_constant_violated` (ProfNetProps.lean): C101 fails: one binary with a constant profile, even one of a class that has no network or one for validation only, stops the training for all.
* `C101_nothing_violated` (ProfNetProps.lean): C101 fails: the warning that nothing was trained stops the program, as its function is not defined.
* `C101_one_jump_violated` (ProfTrainProps.lean): C101 fails: two increases are asked for, but the comparison is inside the length, so that one increase is enough: a step has two equal boundaries, and a network trained on such profiles learns boundaries without a width.
* `C101_second_violated` (ProfTrainProps.lean): C101 fails: the list of names of an extraction is changed in place, and it is the default of the next one. In a second extraction with the default names what is found under `norm_omega` is zero everywhere, for every run of every grid that does not have such a column.
* `C101_star2_violated` (ProfTrainProps.lean): C101 fails: for the second star the rotation is taken over the critical rotation of the first star; its own is never read.
* `C101_surface_violated` (ProfTrainProps.lean): C101 fails: a profile that ends above its centre becomes constant, the value at the surface is lost.
* `C101_unseen_violated` (ProfTrainProps.lean): C101 fails: a binary of a class that no training binary had (a rare class may be in the validation set only) gets a constant profile with the density of the surface, although nothing was learnt about it, even if it did not converge.
* `C102_failed_violated` (RateStoreProps.lean): C102 fails: when the model cannot be written, the old model, weights and redshifts are already gone: the rates cannot be opened.
* `C102_name_violated` (RateStoreProps.lean): C102 fails: a star formation model called `observable` shares its place with observable populations: its own tables are read as such.
* `C102_observable_violated` (RateStoreProps.lean): C102 fails: observable populations are stored without the star formation model. Two models that use the same name have one table: after both are calculated, what the first one reads is that of the second.
* `C102_stale_density_violated` (RateStoreProps.lean): C102 fails: calculating the cosmic weights again, with whatever other model or model weights, removes the old weights but not the rate density calculated from them, so that the old density is read beside the new weights.
* `C102_stale_observable_violated` (RateStoreProps.lean): C102 fails: observable populations are kept when the cosmic weights they come from are calculated again.
* `C102_stale_rates_violated` (RateStoreProps.lean): C102 fails: the same for model weights: the rates calculated with the old ones stay.
* `C102_suffix_violated` (RateStoreProps.lean): C102 fails: model weights whose identifier has the reserved ending are stored but never listed, so cosmic weights cannot be calculated from them; and calculating those of the identifier without the ending replaces them by a table of parameters.
* `C102_width_violated` (RateStoreProps.lean): C102 fails: a list of one number comes back as a width, a list in the other order is turned around, longer lists lose what is between, and a whole number or an empty list fail.
* `C103_ampersand_violated` (InlistProps.lean): **C103 (violated).** An ampersand inside a quoted text makes the line the start of a section: the assignment is lost, and so are those which follow.
* `C103_columns_violated` (InlistProps.lean): **C103 (violated).** A column for a parameter which only the set-up sets: a run writes the file with its value, but MESA is not told to read that file.
* `C103_empty_violated` (InlistProps.lean): **C103 (violated).** Emptying a parameter in a later inlist has no effect: the value of the earlier one stays.
* `C103_exclamation_violated` (InlistProps.lean): **C103 (violated).** An exclamation mark inside a quoted text ends the value.
* `C103_lengths_violated` (InlistProps.lean): **C103 (violated).** Lists of different lengths for the steps of a star stop the set-up.
* `C103_missing_section_violated` (InlistProps.lean): **C103 (violated).** A file which starts a section and lacks another one is refused for the other one, although every parameter not given has a default.
* `C103_single_violated` (InlistProps.lean): **C103 (violated).** A grid of single helium stars cannot be set up from its scenario: the entry the file is appended to does not exist.
* `C103_user_violated` (InlistProps.lean): **C103 (violated).** With a scenario, an inlist of the user does not change the physics of the scenario: the inlists of the scenario are put behind it and win. (The ini file says they "overwrite or tweak" the scenario.)
* `C103_zams_violated` (InlistProps.lean): **C103 (violated).** For a grid of single stars without a file of models, a file of models named in the inlists stays in use: what is to remove it tests another name.
* `C104_close_violated` (GridPointProps.lean): **C104** (violated) Masses that differ by less are not told apart: of two runs with 10 and 10.00001 solar masses one is lost.
* `C104_formation_violated` (GridPointProps.lean): **C104** (violated) All the later steps repeat the second: their own inlists are not used.
* `C104_job_violated` (GridPointProps.lean): **C104** (violated) A parameter of the job of the binary is run with the value of the project in all points: the file of the grid point, where it is written, is not read for it.
* `C104_no_metallicity_violated` (GridPointProps.lean): **C104** (violated) A grid without a column for the metallicity is run, but its directories cannot be read.
* `C104_other_violated` (GridPointProps.lean): **C104** (violated) Runs of a grid over another parameter are not told apart: all but one are lost, whatever its values.
* `C104_truth_violated` (GridPointProps.lean): **C104** (violated) A truth value of a grid point cannot be read, and with it the file.
* `C104_two_steps_violated` (GridPointProps.lean): **C104** (violated) A star made in two steps gets no new metallicity in any.
* `C104_unknown_violated` (GridPointProps.lean): **C104** (violated) A column which no inlist knows, as `initial_period_days` for `initial_period_in_days`, changes nothing: rows that differ in it only are run with the same files, and directories that differ in the index only.
* `C104_version_violated` (GridPointProps.lean): **C104** (violated) If a folder on the way ends with `v1`, runs with different metallicities are not told apart.
* `C105_logs_violated` (PipelineProps.lean): **Plots and checks of a step that is not requested have no directory for their output.**
* `C105_nothing_violated` (PipelineProps.lean): **Asking for nothing fails** with `UnboundLocalError` instead of writing an empty script.
* `C105_section_violated` (PipelineProps.lean): **The section of a step is demanded even when nothing is asked for in it**: without the section `[rerun]`, say, no script is written although no rerun is requested.
* `C105_twice_violated` (PipelineProps.lean): **A set that is named twice is not resolved**: one occurrence of the name stays in the list of plots, as if it were the name of a quantity.
* `C106_checks_dropped_violated` (PipelineCsvProps.lean): **So all checks of trained interpolators are dropped** when missing files are dropped and no profile interpolators are there, and the set-up fails for want of rows.
* `C106_checks_violated` (PipelineCsvProps.lean): **The checks get them the other way round**: those after training the interpolators get the profile interpolators, those after training the profile interpolators get the others.
* `C106_export_violated` (PipelineCsvProps.lean): **The data set and a rerun do not tell slices or compressions apart either**: two slices are exported to one file, two compressions are rerun in one directory.
* `C106_plots_violated` (PipelineCsvProps.lean): **The plots of different interpolation methods go to the same place.**
* `C106_train_violated` (PipelineCsvProps.lean): **Training writes the interpolators of all slices to one file**: for any two slices of a grid type, and any two compressions that both have or both lack `RLO`, the tasks of the array write the same file, from different grids.
* `C107_compressed_violated` (RerunProps.lean): A run with a compressed log is not repeated, whatever the log says.
* `C107_lbv_violated` (RerunProps.lean): Stars that are thermally pulsing are to be excluded, but a companion that does excludes the luminous blue variable too.
* `C107_missing_violated` (RerunProps.lean): A missing metallicity, which the code means to treat as solar, raises a `TypeError`.
* `C107_other_violated` (RerunProps.lean): The documented type `other`, and `envelope_mass_limit`, which is given as an example for it, can never be run: the choice of the runs refuses them.
* `C107_sn_violated` (RerunProps.lean): The quantities of the supernova models of the second star are never interpolated.
* `C107_substring_violated` (RerunProps.lean): Metallicities are looked up as parts of the text, so that others are taken for one of the eight: 1.2·10⁻¹ for 2·10⁻¹.
* `C108_ladder_violated` (SamplerProps.lean): With a spacing of at most 1 the construction of the temperatures never ends.
* `C108_stuck_violated` (SamplerProps.lean): From a position where the target vanishes the chain never moves, though the target may be positive everywhere else.
* `C108_swap_stuck_violated` (SamplerProps.lean): A chain stuck where the target vanishes does not get the position of its neighbour either.
* `C108_weights_violated` (SamplerProps.lean): Rejected trials do not repeat the current position in the history, so that the entries of the history are not distributed as in the Metropolis algorithm: in an example, the position where the chain waits for nine of ten trials is one of two entries.
* `C108_zero_draw_violated` (SamplerProps.lean): With a random number 0, which `np.random.uniform` may return, any trial is accepted wherever it lies.
* `C109_batch_violated` (ProposeProps.lean): One NaN changes the target of all positions asked for together.
* `C109_nan_violated` (ProposeProps.lean): Where the probabilities are NaN the target is documented to be `10⁻¹⁶`, but is above 1: above that of every position with probabilities.
* `C109_no_training_violated` (ProposeProps.lean): Without the training data, an option of the interface and the advice of the error message, there is always an `IndexError`.
* `C109_norm_steps_violated` (ProposeProps.lean): With normalised steps there is never a result.
* `C109_pre_violated` (ProposeProps.lean): Points accepted before are ignored.
* `C109_search_violated` (ProposeProps.lean): Then the covariance of the next iteration is singular, and the whole search fails, whatever samples would follow.
* `C109_together_violated` (ProposeProps.lean): With the distributions added together at most two points are ever accepted, however many are asked for.
* `C109_twice_violated` (ProposeProps.lean): In two dimensions the same point can be accepted twice, as the random numbers exceed the height of the distribution.
* `C109_varmult_violated` (ProposeProps.lean): A variance multiplier for each of several dimensions is refused: the number of dimensions of the array is compared instead of its length.
* `C109_zero_scale_violated` (ProposeProps.lean): A sample of 100 points too few in one of the first ten iterations sets the scale to 0.
* `C110_cancel_violated` (TableDataProps.lean): Neighbours above and below cancel: the change is 0 however far away they are.
* `C110_clean_violated` (TableDataProps.lean): With NaN in the data the undefined values are used as if they were values, and outputs that happen to be equal to that value are not used.
* `C110_columns_violated` (TableDataProps.lean): Otherwise the first row decides: a NaN there drops all numbers of the column, and texts and NaN in later rows stay.
* `C110_get_data_violated` (TableDataProps.lean): Several tables at once are only returned as data frames; as arrays, the default, there is an `AttributeError`.
* `C110_mapping_violated` (TableDataProps.lean): For classes that are integers identifiers and classes are confused: of the classes 1 and 2 the first gets identifier 2, which does not exist, and identifier 1 stands for class 2 while identifier 2 stands for 1.
* `C110_names_violated` (TableDataProps.lean): Otherwise columns are named for other numbers: for a class of 4 and 5 and 2 neighbours the changes over 2 neighbours are called those over 5.
* `C110_negative_violated` (TableDataProps.lean): At a negative value the change is never positive.
* `C110_omit_labels_violated` (TableDataProps.lean): With repeated labels, which a given table may have, rows without an omitted value are lost.
* `C110_omit_nan_violated` (TableDataProps.lean): Rows with NaN cannot be omitted.
* `C110_regressor_violated` (TableDataProps.lean): One class without numerical outputs, for which the tables hold NaN, makes the regressor fail.
* `C111_cross_validation_violated` (ClassifyProps.lean): After a cross validation that raised, training no longer changes the classifiers, and predictions are made with those of the failed cross validation, or fail.
* `C111_none_violated` (ClassifyProps.lean): If no point has a value, one prediction is made, of the first class, for no point.
* `C111_repeats_violated` (ClassifyProps.lean): If every attempt raises, for example for an unknown name, it goes on forever.
* `C111_unknown_violated` (ClassifyProps.lean): An unknown name raises a `TypeError` in training, instead of the message that is written for it.
* `C111_zero_violated` (ClassifyProps.lean): Where all radial basis functions are not positive, there are no probabilities, but the first class is predicted.
* `C112_accuracy_violated` (QueryProps.lean): A class to which no point is predicted to belong raises an `IndexError`.
* `C112_classes_violated` (QueryProps.lean): Otherwise the classes are those of other points: here the first point has none, and the class of the second comes first.
* `C112_confusion_violated` (QueryProps.lean): Points without a prediction are counted as not predicted: the row of their class does not add up to 1.
* `C112_distance_violated` (QueryProps.lean): But not from each other: the same point can be added twice in an iteration.
* `C112_end_violated` (QueryProps.lean): If the proposals are always too close to the data, the sampling does not end.
* `C112_first_violated` (QueryProps.lean): Only the first small class gets new points, as soon as enough of its share lie inside of the range.
* `C112_fraction_violated` (QueryProps.lean): With a fraction of less than one point there is a division by zero.
* `C112_grid_violated` (QueryProps.lean): Otherwise it has not, and the sampling ends with another number of points.
* `C112_newest_violated` (QueryProps.lean): New points are proposed from the data before the last iteration: the options for the next query never contain the newest points.
* `C112_number_violated` (QueryProps.lean): With a list of numbers there can be more points than asked for.
* `C112_options_violated` (QueryProps.lean): A second query with the same options fails, since the first one changed them.
* `C112_range_violated` (QueryProps.lean): With all data at the same value of one axis no point is inside of the range.
* `C112_scale_violated` (QueryProps.lean): The scale is a position, not a distance: neighbours around the origin give no scale however far away they are.
* `C112_second_violated` (QueryProps.lean): In particular the second query is made with the same data as the first.
* `C112_verbose_violated` (QueryProps.lean): With messages, all predictions are lost if some point had none (the points without a value then give no places).
* `C113_edges_violated` (GridToolsProps.lean): With other distances a centre may be outside of its cell.
* `C113_join_violated` (GridToolsProps.lean): A column given twice in the second list is twice in the joint one.
* `C113_model_violated` (GridToolsProps.lean): Models with names of different lengths are mixed up: the column of a model is looked for in the data set of another one, of which the name is the beginning.
* `C113_more_columns_violated` (GridToolsProps.lean): More columns than requested are returned.
* `C113_no_history_violated` (GridToolsProps.lean): Without a history of the binary every run that depleted carbon had "no interaction", also one with a common envelope.
* `C113_one_row_violated` (GridToolsProps.lean): A history with a single row makes every conversion fail, also of runs of which the result does not depend on it.
* `C113_one_value_violated` (GridToolsProps.lean): A grid with one value in a direction has no edges.
* `C114_columns_violated` (RunFilesProps.lean): Some of the columns cannot be had, and columns in another order are given with exchanged names.
* `C114_eeps_violated` (RunFilesProps.lean): A file next to its cleaned or compressed form stops the creation of the grid.
* `C114_grid_info_violated` (RunFilesProps.lean): With several folders only the metadata of the last one are kept, and a compressed file is there twice.
* `C114_ignored_violated` (RunFilesProps.lean): Folders that are to be ignored are read as runs, as whole paths are compared with names.
* `C114_info_violated` (RunFilesProps.lean): The compressed grid point of a run is not recognized: its name is misspelt in the list.
* `C114_initial_violated` (RunFilesProps.lean): Adding a column to a grid that is read lazily closes the file behind the initial values: they cannot be read any more.
* `C114_lazy_overwrite_violated` (RunFilesProps.lean): Replacing a column of a grid that is read lazily destroys the final values in the file as soon as there is a column of texts: the old data set is deleted, and the new one cannot be written.
* `C114_order_violated` (RunFilesProps.lean): With both forms the one listed last is taken, so that the history that is read depends on the order of the listing.
* `C114_text_violated` (RunFilesProps.lean): Texts in a column with another name are lost together with all final values.
* `C115_adjacent_violated` (EepProps.lean): Two phases in the same row or in neighbouring rows make the calculation impossible.
* `C115_extrapolated_example_violated` (EepProps.lean): For example: the points before the end of helium burning lie after the last row that is used.
* `C115_extrapolated_violated` (EepProps.lean): The row of the later phase is left out of the interpolation: whenever the last step of the track is longer than the distance of two points, the last point is calculated outside of the rows that are used.
* `C115_helium_star_violated` (EepProps.lean): A star without hydrogen with the default list: the middle and the end of its main sequence are both the first row.
* `C115_last_row_violated` (EepProps.lean): A track that ends when hydrogen is exhausted cannot be used, even if no later phase is asked for.
* `C115_no_file_violated` (EepProps.lean): A file that cannot be opened is reported only by an undefined variable.
* `C115_order_violated` (EepProps.lean): Without hot helium left after the main sequence the start of helium burning is put to the first row, and no points can be calculated for the standard list.
* `C115_shifted_violated` (EepProps.lean): Phases that are missing move the later ones: the same position stands for different phases in different tracks.
* `C116_core_violated` (CompressProps.lean): Data files with the name `core` are removed: their contents are lost.
* `C116_left_violated` (CompressProps.lean): A blank in the path, or a compressed file that is already there, leaves files uncompressed; then a warning tells so.
* `C116_marker_violated` (CompressProps.lean): With the marker in the path to the grid the files of the grid itself are compressed, too.
* `C116_test_violated` (CompressProps.lean): Small grids give empty tests: with the default fraction of a hundredth, up to 99 tracks are none.
* `C117_grid_paths_violated` (IniValuesProps.lean): Violated: an option of `grid_paths` with the name of a step replaces the step.
* `C117_list_violated` (IniValuesProps.lean): Violated: in a list with a text a negative number breaks the list: it is cut into texts with the brackets.
* `C117_order_violated` (IniValuesProps.lean): Violated: the options of a population depend on the order of the sections of the file.
* `C117_rank_violated` (IniValuesProps.lean): Violated: a rank in the section of the output of binaries replaces the rank of the job.
* `C117_sign_violated` (IniValuesProps.lean): Violated: `-1*2` is not evaluated and stays a text.
* `C118_failed_violated` (StepHooksProps.lean): Violated: after an error the columns do not have the length of the history.
* `C118_record_violated` (StepHooksProps.lean): Violated: without the hooks for names a match can not be recorded.
* `C118_restore_violated` (StepHooksProps.lean): Violated: a binary that did not evolve yet with these hooks can not be restored.
* `C118_resume_violated` (StepHooksProps.lean): Violated: if the evolution starts with a history of several rows but without the columns, the first step has its name in the second row of the old history, and nothing in its own row.
* `C118_shorter_violated` (StepHooksProps.lean): Violated: if the history became shorter than a column, the column does not get its length.
* `C118_silent_violated` (StepHooksProps.lean): Violated: after a redirection that is not shown, but recorded a match, the duration of the next step is in the row of the match.
* `C119_method_violated` (MesaSetupProps.lean): Violated: an unknown method of interpolation is accepted when the step is set up, and only fails when a binary evolves.
* `C119_stop_violated` (MesaSetupProps.lean): Violated: a supported method can not be used without the stop at the maximum time: whatever the files are, there is an error.
* `C120_chruslinska_mean_violated` (SfhTablesProps.lean): Without star formation in the first row there is no mean metallicity at any redshift.
* `C120_first_missing_violated` (SfhTablesProps.lean): If the first value of the table is missing, there is an error at every redshift.
* `C120_illustris_low_violated` (SfhTablesProps.lean): Below all redshifts of the file there is a rate, but looking for the distribution is an error.
* `C120_illustris_mean_violated` (SfhTablesProps.lean): Without star formation at the lowest redshift of the file there is no mean metallicity at any redshift.
* `C120_order_violated` (SfhTablesProps.lean): In whatever order the redshifts are, the first row is taken for all redshifts if they are not below the first one: for a table with rising redshifts the first row is the distribution at every redshift.
* `C121_consistent_violated` (OpenPopProps.lean): **C121 (violated)** The tables need not belong together: the number of systems is that of the one-line table, the labels are those of the history or of the lengths in the file, and nothing is checked.
* `C121_failed_open_violated` (OpenPopProps.lean): **C121 (violated)** A population that can not be opened may still be changed: without masses in the file the parameters given replace those of the file before the error.
* `C121_metallicity_violated` (OpenPopProps.lean): **C121 (violated)** A complete file can not be opened if a metallicity is given without parameters, and the message says that there are no masses.
* `C122_aligned_violated` (RegressProps.lean): With an output that is zero the two results do not belong to the same tests any more.
* `C122_alpha_one_violated` (RegressProps.lean): With `alpha = 1`, which is in the allowed range, the linear interpolation always raises: `None` is taken for a missing value.
* `C122_alpha_small_violated` (RegressProps.lean): If the share is less than one point, the cross validation raises for every regressor.
* `C122_few_points_violated` (RegressProps.lean): If all outputs for the training are missing, training with radial basis functions raises an `IndexError`, although the training with too few points is meant to be skipped, as it is for one point.
* `C122_ragged_violated` (RegressProps.lean): Columns with different numbers of zeros among the tests cannot be summarised together.
* `C122_undefined_violated` (RegressProps.lean): Undefined changes are left out of the training but not out of the tests: the mark for them is taken for a value.
* `C123_couch_verbose_violated` (EnginesProps.lean): Other strengths are refused, and so is any strength, with an error about a missing attribute, if information is to be printed.
* `C123_stripped_violated` (EnginesProps.lean): A star that has lost its envelope is taken for a hydrogen-rich one if the last record still was.
* `C124_input_kept_violated` (PipeRunProps.lean): **Violated**: that a task never loses its input. With the same path for the grid and for the processed grid the file is removed before it is copied: the task raises `FileNotFoundError` and the grid is gone.
* `C124_no_half_result_violated` (PipeRunProps.lean): **Violated**: that a processed grid on the disk has the further values. When adding them fails, the plain copy of the grid stays under the name of the processed grid.
* `C124_no_temporary_violated` (PipeRunProps.lean): **Violated**: that the training leaves only the interpolator. The file with the compiled profiles stays beside it, also when the training fails.
* `C125_disjoint_violated` (PlotSlicesProps.lean): **Violated**: that each run is drawn in one slice only. The two slices of an edge both contain it: with the values 0.2 and 0.4 a run with 0.3 is drawn twice.
* `C125_equal_masses_violated` (PlotSlicesProps.lean): **Violated**: that every binary of the population is drawn. A binary of two equal stars is in no slice: the upper edge of the last slice is 1 and does not belong to it.
* `C125_helium_grid_violated` (PlotSlicesProps.lean): **Violated**: that a population can be shown over the grid of a compact object and a helium star. The rows looked for have the name of a step, `step_CE`, as their event, which no binary has: nothing is ever shown.
* `C125_mass_centre_violated` (PlotSlicesProps.lean): **Violated**: that the mass a slice is named after lies in the slice. The last slice ends at twice its lower edge: with the masses 1 and 100 it is from 10 to 20.
* `C125_own_directory_violated` (PlotSlicesProps.lean): **Violated**: that different quantities are plotted into different directories. A quantity and its logarithm have the same directory, and the names of the files depend only on the slice: the later one replaces the plots of the former.
* `C125_property_violated` (PlotSlicesProps.lean): **Violated**: that a point is coloured with the property of its own binary. A binary with two mass transfers beside one with none takes the value of the other one for its second point.
* `C126_apart_violated` (VHCountProps.lean): Rows out of order: a binary whose rows are not together is counted more than once.
* `C126_same_hash_violated` (VHCountProps.lean): Only the hash is compared: two different evolutions with the same hash are counted as one.
* `C127_clean_violated` (AssessProps.lean): For several quantities missing values stay in what is plotted.
* `C127_foreign_violated` (AssessProps.lean): A prediction that is not one of the labels makes a row longer than the others.
* `C127_no_classes_violated` (AssessProps.lean): A quantity without classes has a matrix that can not be drawn.
* `C127_reverse_violated` (AssessProps.lean): Runs of the class of reverse mass transfer are in none of the three sets.
* `C127_save_violated` (AssessProps.lean): Figures can not be saved with the option for it.
* `C127_zero_violated` (AssessProps.lean): A true value of zero: any other value has an infinite error, and the exact value has none instead of zero.
* `C128_generator_violated` (StepOptionsProps.lean): Not so for the supernova step: without any option it has no generator of random numbers, with one that changes nothing it has.
* `C128_last_violated` (StepOptionsProps.lean): Steps that do nothing refuse every option with another error, which loading takes as a reason to make them without options.
* `C128_messages_violated` (StepOptionsProps.lean): With messages, a step for detached binaries can only be made with a track matcher: an option that should only print makes it fail.
* `C128_null_violated` (StepOptionsProps.lean): A step can not be loaded with the class that `load_a_step` takes when none is given.
* `C129_ball_violated` (InScaleProps.lean): On a linear axis every run is in every slice.
* `C129_class_violated` (InScaleProps.lean): All inputs get the same scale within a class, whatever their values are: even for a class that has all runs the scales of the inputs are not those chosen for all runs.
* `C129_missing_violated` (InScaleProps.lean): One run with a missing input, or with one that is not positive, makes the scale logarithmic whatever the other runs are, though such runs are not used and a logarithmic scale is none for such values.
* `C129_narrow_violated` (InScaleProps.lean): Not so for a narrow range of primaries: such a grid is taken as one in masses.
* `C129_report_violated` (InScaleProps.lean): With reverse mass transfer in the grid the number given for unstable mass transfer is that of reverse mass transfer, and unstable mass transfer is not counted.
* `C129_total_violated` (InScaleProps.lean): The errors that are reported in total for a quantity are not those of the runs that were predicted well, but those of all quantities of a single run; with fewer runs than quantities there is an error.
* `C130_class_violated` (NeighProps.lean): With a class, the data given do not matter at all: neighbours are searched among the outputs of the class, and a class without outputs is an error.
* `C130_raw_violated` (NeighProps.lean): The raw classes are not always among those four numbers: on the line where the value is just the limit the value itself is given.
* `C130_self_violated` (NeighProps.lean): If two points coincide, a point can be its own neighbour.
* `C131_code_violated` (DialogProps.lean): The exit code does not tell whether the merge jobs could be submitted or even were, and that of a run without its batch folders is the only one that tells of a failure.
* `C131_merge_violated` (DialogProps.lean): The log of merging is taken for one of a job: with it in the folder, the check ends with an error.
* `C131_rescue_violated` (DialogProps.lean): The logs of tasks that were repeated are never looked at.
* `C131_time_violated` (DialogProps.lean): With two lines, only the first counts: a message in the second is not recognised.
* `C132_empty_violated` (CompareProps.lean): Two equal files in which no binary ended are reported as different.
* `C132_loose_violated` (CompareProps.lean): With tolerances the candidate is said to match exactly although values differ, and the result depends on which file is the baseline.
* `C132_lost_violated` (CompareProps.lean): A binary that failed in both runs and whose evolution is in one file only is not reported.
* `C132_none_violated` (CompareProps.lean): `None` and the text `None` are not told apart.
* `C132_options_violated` (CompareProps.lean): The calls given in its description: an option that comes earlier is taken for the baseline or the metallicities.
* `C132_pairs_violated` (CompareProps.lean): Warnings are compared without what they belong together with: exchanging the messages of two categories is not reported.
* `C132_script_violated` (CompareProps.lean): It also succeeds if nothing was compared.
* `C132_second_error_violated` (CompareProps.lean): Only the first error of a binary is compared.
* `C132_symmetry_violated` (CompareProps.lean): The answer depends on which file is the baseline: the type of its column decides how values are compared.
* `C133_alone_violated` (DynGridProps.lean): With one process the root waits for results that nobody makes.
* `C133_append_violated` (DynGridProps.lean): Even with results that can be read: tables have no `append` for the versions of pandas which the project asks for.
* `C133_columns_violated` (DynGridProps.lean): Values are added in the order of the columns of their own table, whatever the names in the file are.
* `C133_copy_violated` (DynGridProps.lean): While stars are formed the end of the job is not known: nothing is copied if the job is ended within a year.
* `C133_dead_violated` (DynGridProps.lean): A child that misses a parameter raises, its point is never done.
* `C133_dynamic_violated` (DynGridProps.lean): So in every dynamic grid which starts from a table with columns nothing is ever added: the root never finishes, `grid_results.csv` is not written.
* `C133_extract_violated` (DynGridProps.lean): The reader does not know the format which the script asks for: the result of every run is an empty table.
* `C133_fixed_violated` (DynGridProps.lean): Fixed grids: `grid_results.csv` is never written.
* `C133_kind_violated` (DynGridProps.lean): Any name with `.csv` in it is read as a table, also the name of a grid file.
* `C133_late_violated` (DynGridProps.lean): Late starts: the copy is made after the end.
* `C133_lost_violated` (DynGridProps.lean): Then each child still has a point: the results of as many runs as there are children never get into the grid.
* `C133_never_ends_violated` (DynGridProps.lean): But the children do not end: when nothing can go on each of them waits for a point, and the root, if it has finished, has left a result of each unread.
* `C133_no_result_violated` (DynGridProps.lean): A run without result stops the grid: the exception says that versions differ.
* `C133_nothing_violated` (DynGridProps.lean): A fixed grid without an index: nothing is run, and no error.
* `C133_optional_violated` (DynGridProps.lean): An argument which is described as optional is not.
* `C133_second_mass_violated` (DynGridProps.lean): Sampling in the names of MESA with a mass ratio: there is no second mass, the child raises.
* `C133_unused_violated` (DynGridProps.lean): As many points as there are processes are proposed, the root runs none: the last of them is given to nobody.
* `C134_undetermined_violated` (RunLabelsProps.lean): A model of star 1 whose state is not known hides that it is a donor later: both stars are donors, one with a known state, and the class is that of transfer in one direction.
* `C135_alone_violated` (LifeProps.lean): C135. With kicks switched off the claim fails: after a supernova the two stars count as a pair, whatever they were before.
* `C136_dead_violated` (ChartsProps.lean): C136. What has nothing left to evolve is at the end in the default chart, but not in the other two: they look at the event of birth only.
* `C136_end_violated` (ChartsProps.lean): C136. Not all overflow goes to the end: next to a compact object a star at the end of its life that begins to overflow has no entry, nor has overflow that goes on at the end of a track.
* `C136_entry_unused_violated` (ChartsProps.lean): C136. The new entries of the example do not help unless a step for overflow between two stars is loaded, which its chart never uses: without it overflow between two hydrogen-rich stars that still evolve is an error of the detached step.
* `C137_array_violated` (GridPlotProps.lean): After a panel that left out a run the next one always fails: the array has been cut.
* `C137_four_violated` (GridPlotProps.lean): A slice along a fourth quantity is not cut unless one along the third is asked for too.
* `C137_limits_violated` (GridPlotProps.lean): The limits of the first panel are kept for the second, which shows a colour outside of them.
* `C137_model_colour_violated` (GridPlotProps.lean): Columns of the supernova models are not accepted for the colours either, unless a history has a column of that name.
* `C137_model_flag_violated` (GridPlotProps.lean): A flag that is a column of a supernova model is accepted, but cannot be plotted: it is looked up in the final values only.
* `C137_relative_violated` (GridPlotProps.lean): Relative changes are computed for the plot but looked up in the grid, which has no such column: no plot of them succeeds.
* `C137_second_flag_violated` (GridPlotProps.lean): A second grid cannot be drawn for the flags that are made for the plot.
* `C137_second_violated` (GridPlotProps.lean): A second grid is drawn with the colours of the first: without a slice they are those of all its runs.
* `C137_star2_violated` (GridPlotProps.lean): Star 2 may overflow and transfer mass without an onset being found.
* `C137_unchanged_violated` (GridPlotProps.lean): A plot may change the grid.
* `C138_blank_violated` (PanelsProps.lean): With several slices of the fourth quantity and more cells left over the plot fails.
* `C138_hidden_violated` (PanelsProps.lean): Several panels leave out the runs whose flag has no colour of its own if there are no colours.
* `C138_label_violated` (PanelsProps.lean): A panel above a cell that is left empty has no label: with three slices, the second of six cells.
* `C138_legend_unbound_violated` (PanelsProps.lean): If the first flag has no artist the plot fails.
* `C138_legend_violated` (PanelsProps.lean): If a later one has none, its text stands beside the artist of another flag.
* `C138_one_column_violated` (PanelsProps.lean): Nor can those in one column.
* `C138_one_row_violated` (PanelsProps.lean): Panels that fit into one row cannot be drawn at all.
* `C138_repeat_violated` (PanelsProps.lean): With slices of the third quantity only, a slice may be drawn again where nothing is left to be drawn.
* `C138_three_violated` (PanelsProps.lean): Three slices of the fourth quantity alone fail with the default arrangement.
* `C138_two_violated` (PanelsProps.lean): Two slices fail with the default arrangement.
* `C139_legend_violated` (CurvesProps.lean): States that are drawn may be missing from the legend.
* `C139_limit_given_violated` (CurvesProps.lean): A limit given by the user is not kept if a run goes beyond it.
* `C139_list_colours_violated` (CurvesProps.lean): Nor can several quantities be drawn with colours.
* `C139_missing_violated` (CurvesProps.lean): A run without the history cannot be drawn, although the names are checked with the first run that has one.
* `C139_negative_violated` (CurvesProps.lean): A run that becomes fainter than the Sun leaves the diagram: the lower limit for one run is above its least value.
* `C139_radius_violated` (CurvesProps.lean): Lines of constant radius fail unless all four limits are given.
* `C139_same_colour_violated` (CurvesProps.lean): Different states of the legend may have the same colour: a star with and one without hydrogen burning helium.
* `C139_single_list_violated` (CurvesProps.lean): A list with one quantity cannot be drawn, nor an empty one.
* `C139_states_violated` (CurvesProps.lean): A diagram with a star in one of the five states fails.
* `C140_same_symbol_violated` (MarkersProps.lean): Histories not in the table may share the symbol.
* `C140_table_colour_violated` (MarkersProps.lean): The colours of the table do not follow the rule: case B alone is purple in the table, which is the colour of case C made by the rule.
* `C140_table_last_violated` (MarkersProps.lean): With two donors the marker of the table does not tell the last donor.
* `C140_table_text_violated` (MarkersProps.lean): These four have the texts of other histories.
* `C140_table_twice_violated` (MarkersProps.lean): That history, with the first star as the only donor, is written twice in the table: it has the marker of two donors.
* `C141_close_violated` (PopPlotProps.lean): A metallicity that is close to one of the population but not equal passes the check and shows nothing.
* `C141_density_violated` (PopPlotProps.lean): The axis says density, but the area under the bars is not one.
* `C141_many_violated` (PopPlotProps.lean): The plot of the rate density fails while drawing.
* `C142_life_violated` (FitsProps.lean): C142 fails at a hundred solar masses: a star just below lives shorter than all heavier ones.
* `C142_low_metallicity_violated` (FitsProps.lean): C142 fails for the two lowest metallicities of the grids: at a thousandth of the solar one a star of 400 solar masses, and at a ten-thousandth one of 16 solar masses, has a negative radius.
* `C142_order_violated` (FitsProps.lean): At these metallicities a heavier star may be smaller: 2.25 and 1.44 solar masses.
* `C143_accepted_violated` (DatasetsProps.lean): C143 fails for the collection itself: it is shown and accepted but has no file.
* `C143_single_default_violated` (DatasetsProps.lean): C143 fails for the default of the download of one data set: it is the name of a complete set, not of a data set, and always a `KeyError`.
* `C144_clock_violated` (StreamsProps.lean): A step that takes longer than the allowed time is cut off by the clock; where it was cut decides what the later binaries are.
* `C144_import_time_violated` (StreamsProps.lean): So with `SimulationProperties.from_ini(path, load_steps=True)` the kicks are numbers of the generator seeded by the operating system when the module was imported: the entropy of the population does not determine the results.
* `C144_initial_violated` (StreamsProps.lean): Otherwise the initial binaries depend on the physics: with the same entropy, the second binary is another one when the first one draws a kick.
* `C144_moe_violated` (StreamsProps.lean): The next metallicity of a run (a population with another entropy and its own, unloaded properties): its companions are drawn with the first population's generator, so they depend on the first one's entropy and on how many binaries it had.
* `C144_option_violated` (StreamsProps.lean): The option `RNG` that the user gives for a step is overwritten, in the user's own dictionary, by the generator of loading.
* `C144_refused_violated` (StreamsProps.lean): A step whose class refuses the options is made without them: it draws from the generator of its class, or has none and the binary fails.
* `C144_reset_violated` (StreamsProps.lean): But a population passes its generator as option, and this one wins: after `reset_rng` the population goes on where it was.
* `C144_shared_seed_violated` (StreamsProps.lean): And with different entropies the kicks of the second population are those of the first one's seed.
* `C144_shared_violated` (StreamsProps.lean): Two populations of the same entropy that share their properties: the kick of the second one is not that of the first, it is the next number of the first one's generator.
* `C145_columns_violated` (DescribeProps.lean): The columns are those of the last run: if it has no such table nothing is told, although all the others may have one.
* `C146_created_violated` (KeplerProps.lean): If both are given they are believed, whatever the masses.
* `C146_exact_violated` (KeplerProps.lean): The law is not exact after a period was computed: it is off by more than two parts in ten thousand.
* `C146_interpolated_masses_violated` (KeplerProps.lean): Nor do they in the logarithm when the masses differ: halfway between the binaries of 16 and 1 and of 1 and 16 solar masses on one orbit the interpolated masses are 4 and 4, less than half of what the orbit needs.
* `C146_interpolated_violated` (KeplerProps.lean): Interpolated in the values themselves they do not: halfway between two orbits that obey the law exactly it is off by a quarter.
* `C147_model_violated` (ClockProps.lean): Nothing compares the interpolated remnant with the star: ten solar masses can leave a black hole of a hundred.
* `C147_overlap_violated` (ClockProps.lean): For two objects that overlap at the start the step goes back in time.
* `C147_partial_ejection_violated` (ClockProps.lean): With the option that ejects part of the envelopes in a merger, a star whose envelope is lighter than 0.01 and would be ejected entirely gains mass: 0.01 minus its envelope.
* `C148_chart_violated` (RelabelProps.lean): For a contact binary that enters a common envelope next to a compact object they do matter: one labelling goes on, the other has no next step.
* `C149_create_radius_violated` (KindsProps.lean): The radius of a new object is that of the kind it was given, not of the one it gets: a "BH" of 2 solar masses is a neutron star with the radius of a black hole.
* `C149_dwarf_violated` (KindsProps.lean): A white dwarf that accretes to any mass stays a white dwarf: the limit of 1.46 is not kept by a grid step.
* `C149_initial_MT_violated` (KindsProps.lean): With the class `initial_MT` the state is kept although the mass is that of the grid: a neutron star of 2.4 solar masses that the grid says has 2.6 stays a neutron star, with the radius of a black hole.
* `C149_radius_violated` (KindsProps.lean): A white dwarf of 1.2 solar masses leaves a grid step as a white dwarf with the radius of a neutron star.
* `C150_spin_lost_violated` (SpinsProps.lean): A compact object whose interpolated mass is below the one it had loses its spin for good: all later spins are unknown.
* `C152_other_columns_violated` (EndStarProps.lean): **C152** Violated: columns which are not in the list are those of one neighbour, so that the helium in a cell, the same in two columns in every run of the grid, is not the same in the new profile.
* `C152_surface_violated` (EndStarProps.lean): **C152** Violated: rows of the longer track are dropped but its last profile is used, so that the profile can have another mass than the star at the end of its track, though in every run of the grid they agree.
* `C153_partial_ejection_violated` (CoresProps.lean): With partial ejection the mass of a merging giant can fall below that of its helium core, which is not updated.
* `C153_remnant_core_violated` (CoresProps.lean): So a black hole can have a carbon-oxygen core heavier than itself, although the star before had nested cores.
* `C154_forgotten_violated` (MetalProps.lean): The metallicity is forgotten when a white dwarf forms.
* `C155_heavy_core_violated` (FracsProps.lean): With a core heavier than its star the mixed surface is not made of fractions: an envelope of minus one solar mass with 0.7 of hydrogen and two with 0.1 give minus a half.
* `C156_pickle_violated` (ClosingProps.lean): VIOLATED: making a copy of a population for another process changes the population itself: it loses its communicator, and its grids are closed if its steps are loaded. Everything else stays, and the copy is what the population has become.
* `C156_pickled_star_violated` (ClosingProps.lean): VIOLATED, put together: after a copy of a population with loaded steps was made for another process, no star in the range of a grid that the population had in use can be given its profile any more.
* `C156_profiles_closed_violated` (ClosingProps.lean): VIOLATED for profiles: once the file was closed no profile can be read any more, of no star in the range of the grid, although all columns of the profiles are in memory.
* `C156_reuse_stripped_violated` (ClosingProps.lean): The same for the grids of stripped stars.
* `C156_reuse_violated` (ClosingProps.lean): VIOLATED: a matcher made after closing gets closed grids for a metallicity that was used before; only other metallicities get open ones.
* `C156_star_violated` (ClosingProps.lean): So no star that reaches the end of its life gets its profile after the population was closed.
* `C157_braking_violated` (WarnCatProps.lean): VIOLATED: an unknown mode of magnetic braking should give a warning of an unsupported model, but raises a `TypeError`, whatever the mode.
* `C157_misspelt_violated` (WarnCatProps.lean): VIOLATED: a category that does not exist is no error and not without effect: silencing it silences every warning of this package.
* `C158_default_violated` (LawsProps.lean): C158 is violated without the name of an initial mass function: masses are then drawn after Salpeter (1955), and weighted as a flat distribution, which is not even zero outside the limits.
* `C158_equal_masses_violated` (LawsProps.lean): C158 is violated by stars of equal masses: all mass ratios drawn are 1, and the weights are those of mass ratios spread evenly between 0 and 1; the mean mass of a binary counts as one and a half times the mass of the primary, where every binary drawn has twice that mass.
* `C158_limits_violated` (LawsProps.lean): C158 is violated by limits of mass ratios: they restrict the density of the weights and not the mass ratios drawn, so systems are drawn whose density, and with it whose weight in every requested population, is zero.
* `C158_own_option_violated` (LawsProps.lean): C158 is violated by options of a single initial mass function: they change the density of the weights and not the masses that are drawn. Whenever the largest mass is at least three times the smallest, weights of a flat distribution (slope 0) do not belong to the masses drawn.
* `C159_distance_violated` (VhDiagramProps.lean): C159 is violated by orbits of exactly one solar radius: then all distances are undefined.
* `C159_frequency_violated` (VhDiagramProps.lean): C159 is violated by default frequencies: shown side by side, those of all binaries together are one percent; as a tree they are a hundred.
* `C159_lost_violated` (VhDiagramProps.lean): C159 is violated by combined lines: of three or more rows those in between are not shown, here a common envelope.
* `C159_picture_violated` (VhDiagramProps.lean): C159 is violated by combined lines also in the pictures: the state after a combination never has its picture, although it exists; here a mass transfer that becomes a common envelope.
* `C159_redirect_violated` (VhDiagramProps.lean): C159 is violated by redirections: they are meant to be skipped, but no event has exactly that name, so all four are shown in simplified diagrams, and would be skipped in reduced ones.
* `C159_reduced_violated` (VhDiagramProps.lean): C159 is violated by reduced diagrams: a single row without event, as every phase without one is stored, and there is no diagram at all.
* `C160_paint_violated` (VhTreeProps.lean): C160 is violated by binaries that begin with different pictures, for instance a binary and a star born single: then no tree is drawn at all. Otherwise it is.
* `C161_alone_violated` (RecoilProps.lean): C161. A star without a companion gets a kick but no velocity.
* `C161_sum_violated` (RecoilProps.lean): C161. Velocities of two supernovae do not add up: if the binary moves already, the velocity after the next supernova is not the sum of its velocity and the recoil, for every new recoil.
* `C162_comoving_violated` (ShellsProps.lean): C162. The value is smaller than the comoving volume between the redshifts, by a factor between `1/(1+b)` and `1/(1+a)`: the documented result is not returned.
* `C162_radiation_violated` (ShellsProps.lean): C162. In a universe with radiation, as the one whose ages and distances are used, the volume is too large: larger than with its rate of expansion.
* `C163_above_violated` (OverflowProps.lean): C163. A star beyond its lobe from the start, which is let through for two compact objects, is never found as long as it stays there.
* `C163_missed_violated` (OverflowProps.lean): C163. Overflow that begins and ends within one integration step is not found: of any binary inside its lobes there is a continuous expansion and contraction of a star, beyond any factor of its lobe, that the search misses.
* `C163_nan_violated` (OverflowProps.lean): C163. An orbit without a separation of its own (negative periastron) or a star without mass: nothing is refused and nothing is found, whatever the radii.
* `C164_changes_violated` (RecombProps.lean): C164. A neutral fraction above one is changed in the profile of the caller.
* `C164_negative_violated` (RecombProps.lean): C164. A cell whose mean charge of helium is too small for its neutral fraction has a negative energy, and one good cell is enough for no error.
* `C165_files_violated` (FiguresProps.lean): C165 is violated by models with the same one, whatever their interpolation: the last one takes the place of the others.
* `C165_linear_violated` (FiguresProps.lean): C165 is violated on axes with a linear scale: all slices have all runs, and are drawn at the same points, with the mass ratio of the first run.
* `C165_numbers_violated` (FiguresProps.lean): Classes that are called by numbers are mixed up.
* `C165_panels_violated` (FiguresProps.lean): C165 is violated by other numbers of quantities: with less than twenty there is no figure, and the last ones after full tens, those with the largest errors, are not shown.
* `C165_range_violated` (FiguresProps.lean): C165 is violated by errors relative to the range: no kind of error is called as in the comparison, and their figure shows absolute errors.
* `C165_short_violated` (FiguresProps.lean): C165 is violated by states of stars: different ones have the same label on the axes of a confusion matrix.
* `C165_train_violated` (FiguresProps.lean): C165 is violated by the training for an assessment: it makes its directories, but passes parameters that interpolators do not have, and always fails.
* `C166_lost_violated` (SequenceProps.lean): C166 fails: if the scores of one iteration fail, those of all iterations of the sequence are lost, though its training data are kept.
* `C166_replaced_violated` (SequenceProps.lean): C166 fails: names are drawn from 89999 numbers by default and nothing looks for files that exist already, so a run with the same name in the same directory replaces the training data of another, whatever they were.
* `C166_stopped_violated` (SequenceProps.lean): C166 fails: a failure of sampling in one sequence stops those after it: they leave no files, though they would be sampled without a failure.
* `C167_lost_violated` (PopAgainProps.lean): C167 fails. With breakdown and memory optimisation together every batch of such a run holds the earlier binaries again, and the binaries of the run are nowhere: neither in a file nor in memory.
* `C167_second_check_violated` (PopAgainProps.lean): C167. The second test of the validation script passes whatever the second run has produced: both sides are the first run.
* `C167_shadowed_violated` (PopAgainProps.lean): C167 fails. A run with breakdown, on a population that holds binaries of an earlier run, saves the earlier binaries and none of its own: those stay behind as tables that `to_df` does not show either.
* `C167_third_check_violated` (PopAgainProps.lean): C167. In particular it reports a difference when three equal populations (the same numbers of rows, at least one) are run.
* `C168_all_or_nothing_violated` (ValidateProps.lean): C168 fails. If the suite of the candidate fails at any metallicity (or its population tests do), nothing at all is compared.
* `C168_empty_promotion_violated` (ValidateProps.lean): C168 fails. Promoting when there is nothing to copy replaces the record of the baseline before it reports the error.
* `C168_first_failure_violated` (ValidateProps.lean): C168 fails. The first metallicity whose suite fails ends the script: what the counter of failures was to report is never counted, the later metallicities are not run, and the exit code is that of the suite.
* `C168_incomplete_violated` (ValidateProps.lean): C168 fails. An incomplete result (or one whose metadata cannot be read) is made the baseline, but instead of the warning and the section on incomplete baselines the script ends with exit code 1, without a word and with the old record still in place.
* `C168_names_violated` (ValidateProps.lean): C168 fails. Branches whose names differ only in `/` and `_` share their results and baselines.
* `C168_promoted_violated` (ValidateProps.lean): C168 fails. After a failed run, promoting the results of the run before records the commit of the failed one.
* `C168_skip_violated` (ValidateProps.lean): C168 fails. With `--skip-evolve` the script stops with exit code 1 at a variable it never sets, unless the environment happens to define it: nothing is compared, whatever results exist.
* `C168_stale_violated` (ValidateProps.lean): C168 fails. A suite that leaves no file for a metallicity other than the last is not noticed: the result of an earlier run (here of another commit) is copied, or compared, as if it were new.
* `C169_bare_violated` (VersionProps.lean): A tag that is the prefix and nothing more counts as no tag: the tagged commit is called untagged.
* `C169_branch_violated` (VersionProps.lean): Without any tag a branch whose name begins with the prefix and has a digit is taken for a release.
* `C169_count_violated` (VersionProps.lean): The same for a checkout without tags whose commits could not be counted.
* `C169_date_violated` (VersionProps.lean): A failure of the last command is not passed on to the next source: importing the package fails, whatever the tag is, although the version was already known.
* `C169_keys_violated` (VersionStylesProps.lean): C169 violated: keywords that lack the references or the commit, but not everything, stop with `KeyError`, although git could be asked.
* `C169_old_violated` (VersionProps.lean): `pep440-old` never depends on the name of the commit: two commits at the same distance from a tag, on two branches, have the same version.
* `C169_order_violated` (VersionProps.lean): The order is that of texts, smallest first, so of two releases on one commit the older is named: with the tags `v2.0` and `v1.10` the version is `1.10`.
* `C169_plus_violated` (VersionProps.lean): With a `+` in a tag two different checkouts may have the same version: a later commit of one tag, and a release with the longer tag.
* `C169_pre_violated` (VersionProps.lean): Three styles leave out what the others tell: `pep440-pre` never depends on the mark or on the name of the commit.
* `C170_table_violated` (TransferProps.lean): The table looks at the rate alone: a star larger than its Roche lobe at a low rate is no interaction for the table, while the state of the binary is not detached and the flag is not `no_RLOF`.
* `C170_threshold_violated` (TransferProps.lean): Exactly at a threshold the two disagree: a star that just fills its Roche lobe keeps the run in the grid, where it is then flagged as a run without overflow.
* `C171_defaults_violated` (PopKwProps.lean): The samplers called without a population use other values than a population does: the two sets of defaults differ.
* `C171_file_violated` (PopKwProps.lean): The saved options do not tell that the initial values come from a file.
* `C171_index_violated` (PopKwProps.lean): A metallicity given by itself does not help if the index is outside the list: the list is indexed in any case.
* `C171_lognormal_violated` (PopKwProps.lean): The saved options do not always tell the distribution: two populations with lognormal separations of different means leave the same row.
* `C171_misspelt_violated` (PopKwProps.lean): The default options `log_orbital_seperation_mean` and `log_orbital_seperation_sigma` are misspelt: whatever a user writes there, no sampler sees it.
* `C171_second_population_violated` (PopKwProps.lean): The generator of Moe & Di Stefano is made once: a second population of the same program draws with the limits of the first, its file names its own.
* `C172_conversions_violated` (ConstsProps.lean): C172 violated: none of these pairs agrees exactly: whatever is converted, the way by which it is converted can be told from the result (unless it is zero).
* `C173_unchecked_violated` (HistFileProps.lean): C173 violated: edges that fall are accepted by the reader and by the sampler; counts below zero are accepted by the reader and refused by the sampler.
* `C174_initial_violated` (PlotSymProps.lean): Known by its second flag only, it may be shown as anything, such as the end of a life.
* `C174_legend_violated` (PlotSymProps.lean): Not for the first flag: when runs of both stars end, the legend has only the square, or only the circle, as the flags come.
* `C174_stars_violated` (PlotSymProps.lean): The state that is in one table only, and the text with a misspelling.
* `C174_unknown_violated` (PlotSymProps.lean): Not every symbol of an unstable run belongs to a run of that class, and a star on the thermally pulsing giant branch is shown with the text of an overflow at the start: the classes of all these are unknown.
* `C175_empty_violated` (EmptyTabProps.lean): The documentation promises undefined numbers and empty texts: texts are not empty, and numbers of 32 bits are not undefined.

## 7. Axioms of the property theorems

Printed for each of the 2537 property theorems of the last build (`Lean.collectAxioms`, the function behind `#print axioms`). No other axiom occurs.

* no axioms (56 theorems): `Assess.C127_save_violated`, `Charts.C136_names`, `Compare.C132_texts_partial`, `Curves.C139_given`, `Curves.C139_names`, `Curves.C139_no_run`, `Curves.C139_states_violated`, `Datasets.C143_default`, `Datasets.C143_distinct`, `Datasets.C143_individual`, `Datasets.C143_sets`, `Datasets.C143_single_default_violated`, `Dialog.C131_time_violated`, `Downsample.C16_integer_data_violated`, `DynGrid.C133_directories`, `DynGrid.C133_keep`, `DynGrid.C133_kind_violated`, `DynGrid.C133_names`, `Eep.C115_search`, `Figures.C165_train_violated`, `Flip.C08_mt_case_violated`, `Frame.C82_types_violated`, `Generator.C65_undisturbed`, `GridJoin.C85_names`, `GridJoin.C85_text_columns`, `GridPlot.C137_flag_value`, `GridPlot.C137_unchanged_partial`, `GridPlot.C137_unchanged_violated`, `GridPoint.C104_formation`, `InScale.C129_labels`, `InScale.C129_report_violated`, `Inlist.C103_zams_violated`, `Jobs.C97_path_here`, `Jobs.C97_path_violated`, `Markers.C140_table_classes`, `Markers.C140_table_last_violated`, `Markers.C140_table_text_violated`, `Markers.C140_table_twice_violated`, `Match.C74_own_mass`, `MesaSetup.C119_sn_names`, `MesaSetup.C119_sn_stars`, `Moe.C91_held_violated`, `Moe.C91_not_used`, `Neigh.C130_attribute`, `PlotSlices.C125_own_directory_violated`, `ProfNet.C101_nothing_violated`, `Query.C112_options_violated`, `Rerun.C107_missing_violated`, `Streams.C144_first`, `Streams.C144_moe_kept`, `TableData.C110_mapping_violated`, `VHCount.C126_apart_violated`, `Validate.C168_names_violated`, `Version.C169_describe_style`, `Version.C169_old_violated`, `Version.C169_pre_violated`.
* `Quot.sound` (1 theorems): `Rates.C30_repeated_call`.
* `propext` (227 theorems): `Accretion.C80_state`, `Assess.C127_labels`, `Assess.C127_unknown`, `Charts.C136_end_partial`, `Charts.C136_entries`, `Charts.C136_raw`, `Charts.C136_raw_names`, `Chunk.C50_chunk_size`, `Classify.C111_names`, `Classify.C111_names_distinct`, `Classify.C111_unknown_violated`, `Compare.C132_options`, `Compare.C132_options_violated`, `Compress.C116_counts`, `Compress.C116_errors`, `Compress.C116_left_violated`, `Compress.C116_marker_violated`, `ConOrder.C72_order_dict`, `ConOrder.C72_order_empty`, `Config.C43_no_overwrite`, `Config.C43_save_new`, `Config.C43_save_refused`, `Config.C43_unknown_type_violated`, `Curves.C139_colours`, `Curves.C139_legend_violated`, `Curves.C139_list_colours_violated`, `Curves.C139_missing_violated`, `Curves.C139_one`, `Curves.C139_panel`, `Curves.C139_radius_violated`, `Curves.C139_refused`, `Curves.C139_runs`, `Curves.C139_same_colour_violated`, `Curves.C139_several`, `Curves.C139_wrong_value`, `Datasets.C143_list_only`, `Datasets.C143_metallicities`, `Datasets.C143_path`, `Datasets.C143_stops`, `Describe.C145_dirs_distinct`, `Describe.C145_no_dirs`, `Describe.C145_no_file`, `Describe.C145_report_logs`, `Dialog.C131_code_violated`, `Dialog.C131_confirm`, `Dialog.C131_merge_violated`, `Dialog.C131_merges`, `Dialog.C131_reported`, `Dialog.C131_rescue_name`, `Dialog.C131_submit`, `Dialog.C131_valid`, `Dialog.C131_valid_errors`, `DynGrid.C133_action`, `DynGrid.C133_dead_violated`, `DynGrid.C133_formation`, `DynGrid.C133_nothing_violated`, `DynGrid.C133_optional_violated`, `Figures.C165_error_files`, `Figures.C165_files_violated`, `Figures.C165_numbers_violated`, `Flip.C08_forgotten_events_violated`, `FlowChart.C03_no_change`, `Frame.C82_components`, `Frame.C82_mt_history_violated`, `Frame.C82_none`, `Frame.C82_padding_violated`, `Frame.C82_scalars_violated`, `Frame.C82_star_columns`, `Frame.C82_types_standard`, `FromRun.C95_compact_state`, `FromRun.C95_orbit_columns`, `FromRun.C95_single_profile`, `Generator.C65_zero_violated`, `GridJoin.C85_disagree`, `GridJoin.C85_profile`, `GridJoin.C85_single_violated`, `GridJoin.C85_slim_index_violated`, `GridJoin.C85_text_violated`, `GridMake.C84_columns_twice_violated`, `GridMake.C84_eq_dirs_violated`, `GridMake.C84_eq_nan_violated`, `GridMake.C84_rerun_violated`, `GridMake.C84_taken_empty`, `GridPlot.C137_array_onset`, `GridPlot.C137_bad_x`, `GridPlot.C137_bad_y`, `GridPlot.C137_choice`, `GridPlot.C137_flag_needs`, `GridPlot.C137_last`, `GridPlot.C137_model_colour_violated`, `GridPlot.C137_names`, `GridPlot.C137_needs`, `GridPlot.C137_needs_error`, `GridPlot.C137_no_relative_key`, `GridPlot.C137_relative_chosen`, `GridPlot.C137_second_flag_needs`, `GridPoint.C104_job_violated`, `GridPoint.C104_two_steps_violated`, `GridTools.C113_default_columns`, `GridTools.C113_final`, `GridTools.C113_join_violated`, `GridTools.C113_model_violated`, `IFInterp.C83_load_violated`, `IFStep.C92_sn_missing`, `InScale.C129_total_violated`, `IniValues.C117_sim_only`, `Inlist.C103_ampersand_violated`, `Inlist.C103_exclamation_violated`, `Inlist.C103_missing_section_violated`, `Inlist.C103_scenario_partial`, `Inlist.C103_single_violated`, `Jobs.C97_equals_violated`, `Jobs.C97_override`, `Markers.C140_added`, `Markers.C140_all`, `Markers.C140_history`, `Markers.C140_kept`, `Markers.C140_other`, `Markers.C140_same_symbol_violated`, `Markers.C140_single_case`, `Markers.C140_table_colour_violated`, `Markers.C140_table_markers_partial`, `Markers.C140_table_text_partial`, `Markers.C140_text`, `Matchers.C98_failures`, `Matchers.C98_triggers`, `Merged.C35_branch_table`, `MesaSetup.C119_interp_given`, `MesaSetup.C119_time`, `MesaSetup.C119_time_empty`, `MesaStop.C70_falling_violated`, `MesaStop.C70_words_violated`, `MesaTrack.C69_flush`, `MesaTrack.C69_kept`, `MesaTrack.C69_missing`, `MesaTrack.C69_neither_violated`, `Moe.C91_separation_violated`, `Neigh.C130_named`, `Panels.C138_drawn_many`, `Panels.C138_legend_unbound_violated`, `Panels.C138_legend_violated`, `PipeRun.C124_export_works`, `PipeRun.C124_extra_others`, `PipeRun.C124_extra_post_fails`, `PipeRun.C124_no_half_result_violated`, `PipeRun.C124_profile_names`, `Pipeline.C105_final`, `Pipeline.C105_nothing_violated`, `Pipeline.C105_twice_violated`, `Pipeline.C106_checks_violated`, `Pipeline.C106_dispatch`, `Pipeline.C106_export_files`, `Pipeline.C106_keep_order`, `Pipeline.C106_lengths`, `Pipeline.C106_original`, `Pipeline.C106_plot_interpolator`, `Pipeline.C106_tested`, `Pipeline.C106_tested_grid`, `PlotSlices.C125_quantity`, `Pop.C20_concatenation_partial`, `Pop.C20_deleted_unread_violated`, `Pop.C20_first_unreadable`, `Pop.C22_to_df_partial`, `PopAgain.C167_first`, `PopPlot.C141_many`, `ProfNet.C101_outputs`, `Query.C112_grid_violated`, `Rates.C30_defaults_violated`, `Rates.C30_given_parameters`, `Regress.C122_all_names`, `Regress.C122_names`, `Regress.C122_predict`, `Regress.C122_unknown`, `Regress.C122_untrained`, `Rerun.C107_classes`, `Rerun.C107_combined`, `Rerun.C107_other_violated`, `RunFiles.C114_column`, `RunFiles.C114_eeps_violated`, `RunFiles.C114_info`, `RunFiles.C114_info_violated`, `RunFiles.C114_logs`, `RunFiles.C114_no_overwrite`, `RunFiles.C114_order_violated`, `RunFiles.C114_run`, `RunFiles.C114_warned`, `SN.C48_match_violated`, `Scrub.C15_incomplete`, `Seeds.C21_job_entropy_ranks`, `Seeds.C21_job_entropy_violated`, `Seeds.C21_reset_partial`, `Sequence.C166_scores`, `Single.C90_keys`, `StarState.C09_unlisted_names_absent`, `StepHooks.C118_record_violated`, `StepHooks.C118_restore`, `StepHooks.C118_restore_violated`, `Streams.C144_again`, `Streams.C144_initial_partial`, `Streams.C144_option_kept`, `Streams.C144_option_violated`, `TableData.C110_columns_partial`, `TableData.C110_get_data`, `TableData.C110_get_data_violated`, `TableData.C110_names_violated`, `Tight.C34_alone_states`, `Transient.C86_twice`, `VHCount.C126_same_hash_violated`, `Validate.C168_all_or_nothing_violated`, `Validate.C168_empty_promotion_violated`, `Validate.C168_promoted_violated`, `Validate.C168_skip_violated`, `Validate.C168_stale_violated`, `Version.C169_iso`, `Version.C169_plus_violated`, `Version.C169_style_names`, `Version.C169_style_refused`, `Version.C169_styles_after`, `Version.C169_styles_release`, `VhDiagram.C159_redirect_violated`, `Warn.C12_nested_violated`, `Warn.C12_own_registry_late_violated`, `WarnCat.C157_derived`, `WarnCat.C157_names`, `WarnCat.C157_set`, `WarnCat.C157_set_condition`, `WarnCat.C157_silence`.
* `Quot.sound`, `propext` (397 theorems): `Assess.C127_clean`, `Assess.C127_clean_partial`, `Assess.C127_clean_violated`, `Assess.C127_reverse_violated`, `Assess.C127_runs`, `Assess.C127_table`, `Assess.C127_violin`, `CE.C36_merger_next`, `CEParam.C96_depletion_first_violated`, `CEParam.C96_depletion_iff`, `Charts.C136_change_rests`, `Charts.C136_dead_violated`, `Charts.C136_end_violated`, `Charts.C136_never`, `Charts.C136_rests`, `Chunk.C50_columns`, `Chunk.C50_pieces`, `Chunk.C50_transient_chunk_free`, `Chunk.C50_transient_errors`, `Chunk.C50_unsorted_violated`, `Chunk.C50_visited_once`, `Classify.C111_repeats`, `Classify.C111_repeats_violated`, `Classify.C111_train`, `Compare.C132_script`, `Compare.C132_script_violated`, `Compare.C132_second_error_violated`, `Compress.C116_core_violated`, `ConOrder.C72_order_mended`, `ConOrder.C72_order_violated`, `Curves.C139_legend`, `Curves.C139_single_list_violated`, `Datasets.C143_command`, `Datasets.C143_list`, `Datasets.C143_obtained`, `Datasets.C143_shown`, `Describe.C145_columns_partial`, `Describe.C145_counts`, `Describe.C145_dirs`, `Describe.C145_runs`, `Describe.C145_values`, `Detached.C66_accretion_late_violated`, `Detached.C66_aligned`, `Detached.C66_rows`, `Detached.C66_single_row`, `Dialog.C131_consent`, `Dialog.C131_folder`, `Dialog.C131_ini_visible`, `Dialog.C131_other_reasons`, `Dialog.C131_time_partial`, `Download.C44_genuine_extracted`, `Download.C44_mismatch_reported`, `Download.C44_only_genuine_partial`, `Download.C44_success`, `DynGrid.C133_alone_violated`, `DynGrid.C133_copy_violated`, `DynGrid.C133_late_violated`, `Eep.C115_pchip`, `EmptyTab.C175_empty_violated`, `EmptyTab.C175_kept`, `EmptyTab.C175_not_empty`, `EmptyTab.C175_nothing_left_partial`, `EmptyTab.C175_numbers`, `EmptyTab.C175_shape`, `EmptyTab.C175_texts`, `EmptyTab.C175_twice`, `Evolve.C07_restore_invalid`, `Evolve.C07_restore_last_violated`, `Evolve.C07_restore_negative_partial`, `Evolve.C07_restore_row`, `Evolve.C07_restore_untracked_kept`, `Figures.C165_colours`, `Figures.C165_files_partial`, `Figures.C165_short`, `Fit.C75_quantities_stored`, `Flip.C08_flipped_doubleCE_unroutable`, `Flip.C08_involution`, `Flip.C08_relabels_partial`, `FlowChart.C01_collapse_goes_to_SN`, `FlowChart.C01_dead_pairs_end`, `FlowChart.C01_detached_none_total`, `FlowChart.C01_routing`, `FlowChart.C01_step_receives_what_it_needs`, `FlowChart.C01_terminal_events_end`, `FlowChart.C01_undefined`, `FlowChart.C02_asymmetric_keys`, `FlowChart.C02_mirror_partial`, `FlowChart.C02_mirror_violated`, `FlowChart.C03_changes_partial`, `FlowChart.C03_eccentric_chart`, `FlowChart.C03_eccentric_edits`, `FlowChart.C03_new_keys_violated`, `Frame.C82_filler_violated`, `Frame.C82_index`, `Frame.C82_index_violated`, `Frame.C82_kick_array_violated`, `Frame.C82_left_out`, `Frame.C82_lengths`, `Frame.C82_line_errors`, `Frame.C82_padding`, `Frame.C82_period_violated`, `Frame.C82_separation`, `Frame.C82_series_violated`, `Frame.C82_unequal`, `FromRun.C95_binary`, `FromRun.C95_compact_histories_violated`, `FromRun.C95_depletion`, `FromRun.C95_eccentricity`, `FromRun.C95_from_binary`, `FromRun.C95_independent`, `FromRun.C95_metallicity`, `FromRun.C95_no_history`, `FromRun.C95_no_metallicity_violated`, `FromRun.C95_profile_history_violated`, `FromRun.C95_single`, `FromRun.C95_single_metallicity_violated`, `FromRun.C95_star`, `Generator.C65_index_violated`, `Generator.C65_nth_partial`, `Generator.C65_nth_violated`, `Generator.C65_numbers`, `Generator.C65_prefix`, `Generator.C65_vectorised_violated`, `GridJoin.C85_down_refused`, `GridJoin.C85_order`, `GridMake.C84_negative`, `GridMake.C84_taken`, `GridMake.C84_taken_single`, `GridPlot.C137_changes`, `GridPlot.C137_flag`, `GridPoint.C104_formation_violated`, `GridPoint.C104_single`, `GridTools.C113_exists`, `GridTools.C113_field`, `GridTools.C113_join`, `GridTools.C113_join_once`, `GridTools.C113_model`, `GridTools.C113_predefined`, `IFInterp.C83_keys`, `IFInterp.C83_own`, `IFStep.C92_compact_values`, `IFStep.C92_needed`, `IFStep.C92_own_star`, `IFStep.C92_star_states`, `IFStep.C92_star_values`, `IFStep.C92_total`, `IFStep.C92_unstable`, `IFStep.C92_unstable_violated`, `InScale.C129_classifier`, `InScale.C129_columns`, `InScale.C129_disjoint`, `InScale.C129_errors`, `InScale.C129_method`, `InScale.C129_names`, `InScale.C129_supernova`, `IniValues.C117_grid_paths_violated`, `IniValues.C117_literals`, `IniValues.C117_order_violated`, `IniValues.C117_parts`, `IniValues.C117_pop_assert`, `IniValues.C117_pop_ignored`, `IniValues.C117_pop_needs`, `IniValues.C117_rank_violated`, `IniValues.C117_read`, `IniValues.C117_sim_error`, `Inlist.C103_columns_partial`, `Inlist.C103_columns_violated`, `Inlist.C103_empty_violated`, `Inlist.C103_lengths`, `Inlist.C103_named_file`, `Inlist.C103_no_inlists`, `Inlist.C103_output`, `Inlist.C103_user_violated`, `Jobs.C97_arguments_violated`, `Jobs.C97_leftover_violated`, `Jobs.C97_submitted`, `MTCase.C10_numeric`, `MTCase.C10_numeric_empty`, `MTCase.C10_shift_invents_case_violated`, `MTCase.C10_shift_loses_cases_violated`, `MTCase.C10_string_faithful`, `MTLabel.C93_cut`, `Match.C74_alternative_subset`, `Match.C74_documented_partial`, `Match.C74_documented_violated`, `Match.C74_event`, `Match.C74_mirror`, `Match.C74_primary_alone_violated`, `Match.C74_roles`, `Match.C74_scales`, `Mesa.C68_chart_accepts_violated`, `Mesa.C68_run_inside`, `MesaSetup.C119_sn_values`, `MesaStop.C70_flushed`, `MesaTrack.C69_binary_rows_partial`, `MesaTrack.C69_star_rows_partial`, `MesaTrack.C69_states_of_rows`, `MesaTrack.C69_time_rows_partial`, `Panels.C138_blank`, `Panels.C138_label_violated`, `Panels.C138_layout`, `Panels.C138_legend`, `Panels.C138_one_column_violated`, `Panels.C138_one_row_violated`, `Panels.C138_outside`, `Panels.C138_repeat_violated`, `Panels.C138_sorted`, `Panels.C138_three_violated`, `Panels.C138_two_violated`, `Panels.C138_x_label`, `PipeRun.C124_combine`, `PipeRun.C124_export`, `PipeRun.C124_extra`, `PipeRun.C124_input_kept_violated`, `PipeRun.C124_no_temporary_violated`, `PipeRun.C124_profiles`, `PipeRun.C124_row`, `Pipeline.C105_switches`, `Pipeline.C105_tables`, `Pipeline.C106_chain`, `Pipeline.C106_combined`, `Pipeline.C106_export_violated`, `Pipeline.C106_keep`, `Pipeline.C106_no_profiles`, `Pipeline.C106_passes`, `Pipeline.C106_plots_violated`, `Pipeline.C106_rlo_files`, `Pipeline.C106_rows`, `Pipeline.C106_tasks`, `Pipeline.C106_train_violated`, `PlotSym.C174_classes_differ`, `PlotSym.C174_classes_partial`, `PlotSym.C174_classes_violated`, `PlotSym.C174_codes`, `PlotSym.C174_consistent`, `PlotSym.C174_ends_partial`, `PlotSym.C174_failed`, `PlotSym.C174_failed_only`, `PlotSym.C174_faithful`, `PlotSym.C174_initial_partial`, `PlotSym.C174_initial_violated`, `PlotSym.C174_legend`, `PlotSym.C174_legend_violated`, `PlotSym.C174_names`, `PlotSym.C174_stable`, `PlotSym.C174_stage`, `PlotSym.C174_stars`, `PlotSym.C174_stars_violated`, `PlotSym.C174_unknown_violated`, `PlotSym.C174_unstable`, `Pop.C19_all_ranks`, `Pop.C19_batches`, `Pop.C19_blocks`, `Pop.C19_failed_conversion_violated`, `Pop.C19_in_memory`, `Pop.C20_empty_block_violated`, `Pop.C20_no_invention`, `Pop.C20_rank_file`, `Pop.C22_append_list_violated`, `Pop.C22_half_conversion_violated`, `Pop.C22_mixed_violated`, `PopAgain.C167_optimised`, `PopAgain.C167_repeated`, `PopAgain.C167_repeated_tables`, `PopAgain.C167_tables`, `PopKw.C171_chosen`, `PopKw.C171_given`, `PopShare.C46_fixed_violated`, `PopShare.C46_limit`, `PopShare.C46_limit_violated`, `PopShare.C46_order`, `PopShare.C46_population_partial`, `PopShare.C46_shared_all_violated`, `PopShare.C46_shared_violated`, `PostGrid.C94_dense`, `ProfTrain.C101_missing`, `Query.C112_allot`, `Query.C112_classes_partial`, `Query.C112_classes_violated`, `Query.C112_inside`, `Query.C112_small`, `Query.C112_verbose_violated`, `RateStore.C102_cosmic`, `RateStore.C102_cosmic_others`, `RateStore.C102_create`, `RateStore.C102_density_partial`, `RateStore.C102_failed_violated`, `RateStore.C102_missing`, `RateStore.C102_model_weights_partial`, `RateStore.C102_name_violated`, `RateStore.C102_observable_partial`, `RateStore.C102_observable_violated`, `RateStore.C102_stale_density_violated`, `RateStore.C102_stale_observable_violated`, `RateStore.C102_stale_rates_violated`, `RateStore.C102_suffix_violated`, `Rates.C30_defaults_partial`, `Rates.C30_order_violated`, `Regress.C122_everything`, `Regress.C122_fill`, `Regress.C122_held_out`, `Regress.C122_missing`, `Regress.C122_points`, `Regress.C122_train`, `Regress.C122_train_passive`, `Rerun.C107_prepared`, `Rerun.C107_quantities`, `Rerun.C107_sn_partial`, `Rerun.C107_sn_violated`, `Rerun.C107_types`, `Rerun.C107_zams_refused`, `RunFiles.C114_columns_violated`, `RunFiles.C114_eep_files`, `RunFiles.C114_eeps`, `RunFiles.C114_grid_info_partial`, `RunFiles.C114_grid_info_violated`, `RunFiles.C114_ignored_violated`, `RunFiles.C114_lazy_overwrite_violated`, `RunFiles.C114_printed`, `RunFiles.C114_text_violated`, `SampleFile.C23_all_rows`, `SampleFile.C23_cyclic`, `SampleFile.C23_empty_file_violated`, `SampleFile.C23_kicks_match`, `SampleFile.C23_one_by_one`, `SampleFile.C23_zero_violated`, `Scrub.C13_only_unshared_removed`, `Scrub.C13_sublists`, `Scrub.C15_untouched`, `Seeds.C21_job_collision_violated`, `Seeds.C21_refused`, `Seeds.C21_reset_violated`, `Sequence.C166_refused`, `Sequence.C166_success`, `SimProps.C28_hooks_violated`, `SimProps.C46_check_step`, `SimProps.C46_first_load_partial`, `SimProps.C46_own_metallicity_partial`, `SimProps.C46_reload_violated`, `StepHooks.C118_all_names`, `StepHooks.C118_columns`, `StepHooks.C118_kept`, `StepHooks.C118_shorter_violated`, `StepHooks.C118_silent_violated`, `Streams.C144_clock_violated`, `Streams.C144_import_time_violated`, `Streams.C144_moe_loop`, `Streams.C144_moe_violated`, `Streams.C144_prefix`, `Streams.C144_refused_violated`, `Streams.C144_reset`, `Streams.C144_reset_violated`, `Streams.C144_shared_seed_violated`, `Streams.C144_shared_violated`, `Table.C27_columns_and_errors`, `Table.C27_history_mask_rejected_violated`, `Table.C27_open_slice_violated`, `TableData.C110_binary`, `TableData.C110_clean_partial`, `TableData.C110_clean_violated`, `TableData.C110_omit_labels_violated`, `TableData.C110_omit_nan_violated`, `TableData.C110_omit_partial`, `Tight.C118_shorter_rest`, `Transfer.C15_class`, `Transient.C86_chosen`, `VHCount.C126_no_rows`, `VHCount.C126_total`, `Validate.C168_failed_suite`, `Validate.C168_first_failure_violated`, `Validate.C168_incomplete_violated`, `Validate.C168_names`, `Validate.C168_others`, `Validate.C168_suite_keeps`, `Validate.C168_suite_success`, `Version.C169_branch_violated`, `Version.C169_checkout`, `Version.C169_directory`, `Version.C169_directory_far`, `Version.C169_keys_violated`, `Version.C169_no_git`, `Version.C169_no_keys`, `Version.C169_styles_untagged`, `Version.C169_total_partial`, `Version.C169_unparsed`, `VhDiagram.C159_detailed`, `VhDiagram.C159_picture_partial`, `VhDiagram.C159_star_file`, `VhTree.C160_keys`, `VhTree.C160_sorted`, `WarnCat.C157_braking_violated`, `WarnCat.C157_issue`, `WarnCat.C157_last`, `WarnCat.C157_misspelt_violated`, `WarnCat.C157_resolve`, `WarnCat.C157_set_behind`, `WarnCat.C157_type_error`.
* `Classical.choice`, `Quot.sound`, `propext` (1856 theorems): `Accretion.C80_accretor`, `Accretion.C80_balance`, `Accretion.C80_beaming`, `Accretion.C80_black_body`, `Accretion.C80_black_hole`, `Accretion.C80_circular`, `Accretion.C80_errors`, `Accretion.C80_escape`, `Accretion.C80_factor`, `Accretion.C80_fraction_partial`, `Accretion.C80_fraction_violated`, `Accretion.C80_giants_violated`, `Accretion.C80_hot`, `Accretion.C80_limited`, `Accretion.C80_neutron_star`, `Accretion.C80_orbit`, `Accretion.C80_phase`, `Accretion.C80_radius`, `Accretion.C80_relative`, `Accretion.C80_relative_violated`, `Accretion.C80_rows`, `Accretion.C80_rows_violated`, `Accretion.C80_scheme_partial`, `Accretion.C80_scheme_violated`, `Accretion.C80_stripped`, `Accretion.C80_white_dwarf_violated`, `Accretion.C80_wind_violated`, `Assess.C127_accuracy`, `Assess.C127_errors`, `Assess.C127_exact`, `Assess.C127_foreign_violated`, `Assess.C127_infinite`, `Assess.C127_keys`, `Assess.C127_matrix`, `Assess.C127_missing`, `Assess.C127_no_classes_violated`, `Assess.C127_positive`, `Assess.C127_row`, `Assess.C127_shares`, `Assess.C127_slice`, `Assess.C127_slice_refused`, `Assess.C127_units`, `Assess.C127_zero_violated`, `Bins.C61_metallicity_edges`, `Bins.C61_metallicity_order`, `Bins.C61_model_stored`, `Bins.C61_model_stored_violated`, `Bins.C61_redshift_centers_partial`, `Bins.C61_redshift_edges_partial`, `Bins.C61_redshift_step_violated`, `Bins.C61_single_metallicity`, `Bound.C151_common_envelope`, `Bound.C151_compact`, `Bound.C151_detached`, `Bound.C151_evolution`, `Bound.C151_kick_orbit`, `Bound.C151_step`, `Bound.C151_supernova`, `Bound.C151_values`, `Burst.C88_beaming`, `Burst.C88_empty_violated`, `Burst.C88_energy`, `Burst.C88_goldstein`, `Burst.C88_goldstein_violated`, `Burst.C88_integer_violated`, `Burst.C88_none`, `Burst.C88_options`, `Burst.C88_pescalli_violated`, `Burst.C88_twice_violated`, `Burst.C88_unchecked_violated`, `CE.C36_companion_radius_violated`, `CE.C36_cores_never_grow`, `CE.C36_donor_radius`, `CE.C36_ejected_bounds_partial`, `CE.C36_ejected_negative_violated`, `CE.C36_ejection`, `CE.C36_ejection_energy`, `CE.C36_energy_balance`, `CE.C36_known_donor_partial`, `CE.C36_merge_at_once`, `CE.C36_merger_masses`, `CE.C36_mirror`, `CE.C36_orbit_shrinks`, `CE.C36_outcome`, `CE.C36_partial_ejection_raises_violated`, `CE.C36_total_partial`, `CE.C36_unknown_donor_violated`, `CE.C36_wind_period`, `CE.C36_wrong_event`, `CEParam.C96_accreted_violated`, `CEParam.C96_depletion`, `CEParam.C96_depletion_accreted_violated`, `CEParam.C96_extremes`, `CEParam.C96_nested`, `CEParam.C96_no_profile`, `CEParam.C96_stripped`, `CEParam.C96_thresholds`, `Channel.C64_channel`, `Channel.C64_classes`, `Channel.C64_cleaned`, `Channel.C64_contact_violated`, `Channel.C64_cut_violated`, `Channel.C64_distinct`, `Channel.C64_edge_cases`, `Channel.C64_other_history`, `Charts.C136_collapses`, `Charts.C136_default`, `Charts.C136_eccentric_next`, `Charts.C136_eccentric_steps`, `Charts.C136_entry_unused_violated`, `Charts.C136_example`, `Charts.C136_mergers`, `Charts.C136_ranks`, `Charts.C136_steps`, `Charts.C136_stops`, `Chunk.C50_both_selectors`, `Chunk.C50_long_history_violated`, `Chunk.C50_sorted_file`, `Chunk.C50_subsets_partial`, `Chunk.C50_subsets_selected_partial`, `Classify.C111_clip`, `Classify.C111_cross_validation_partial`, `Classify.C111_cross_validation_violated`, `Classify.C111_none_violated`, `Classify.C111_percent`, `Classify.C111_places`, `Classify.C111_predicted`, `Classify.C111_probabilities_partial`, `Classify.C111_split`, `Classify.C111_zero_violated`, `Clock.C147_common_envelope`, `Clock.C147_compact_partial`, `Clock.C147_detached`, `Clock.C147_evolution`, `Clock.C147_merger`, `Clock.C147_model_violated`, `Clock.C147_overlap_violated`, `Clock.C147_partial_ejection_violated`, `Clock.C147_step`, `Clock.C147_supernova_partial`, `Closing.C156_finals`, `Closing.C156_pickle_violated`, `Closing.C156_pickled_star_violated`, `Closing.C156_profiles_closed_violated`, `Closing.C156_profiles_partial`, `Closing.C156_ready`, `Closing.C156_reuse_stripped_violated`, `Closing.C156_reuse_violated`, `Closing.C156_shared`, `Closing.C156_simulation`, `Closing.C156_star`, `Closing.C156_star_violated`, `Closing.C156_tracks`, `Closing.C156_unknown`, `Collapse.C89_angle`, `Collapse.C89_balance`, `Collapse.C89_collapsing_violated`, `Collapse.C89_default_violated`, `Collapse.C89_direct`, `Collapse.C89_efficiency`, `Collapse.C89_ejecta`, `Collapse.C89_growth`, `Collapse.C89_helium_violated`, `Collapse.C89_isco`, `Collapse.C89_j`, `Collapse.C89_maximal_violated`, `Collapse.C89_neutrinos`, `Collapse.C89_outermost_violated`, `Collapse.C89_parts`, `Collapse.C89_shells`, `Collapse.C89_start`, `Collapse.C89_total`, `Collapse.C89_units_violated`, `Compare.C132_binary`, `Compare.C132_close`, `Compare.C132_empty_violated`, `Compare.C132_errors`, `Compare.C132_evolution`, `Compare.C132_exit`, `Compare.C132_identical_partial`, `Compare.C132_itself`, `Compare.C132_loose_violated`, `Compare.C132_lost_violated`, `Compare.C132_none_violated`, `Compare.C132_pairs_violated`, `Compare.C132_qual`, `Compare.C132_quant`, `Compare.C132_quant_report`, `Compare.C132_suite`, `Compare.C132_symmetry_violated`, `Compare.C132_tolerances`, `Compare.C132_warnings`, `Compress.C116_complete_partial`, `Compress.C116_outside`, `Compress.C116_result_partial`, `Compress.C116_test`, `Compress.C116_test_violated`, `Compress.C116_textsize`, `Compress.C116_textsize_errors`, `Config.C43_array_saved_as_list`, `Config.C43_delete`, `Config.C43_guarded_session`, `Config.C43_load`, `Config.C43_roundtrip`, `Constraint.C72_abundances`, `Constraint.C72_all_hold_partial`, `Constraint.C72_assertion_violated`, `Constraint.C72_consistent_unchanged`, `Constraint.C72_convective`, `Constraint.C72_convective_nearest`, `Constraint.C72_convective_violated`, `Constraint.C72_core_masses`, `Constraint.C72_core_radii`, `Constraint.C72_extra_column_violated`, `Constraint.C72_found`, `Constraint.C72_given`, `Constraint.C72_idempotent_partial`, `Constraint.C72_masses`, `Constraint.C72_no_assertion`, `Constraint.C72_no_convection_violated`, `Constraint.C72_second_star_violated`, `Constraint.C72_separation`, `Constraint.C72_shared_table_violated`, `Constraint.C72_transfer_fraction`, `Constraint.C72_unknown_core_violated`, `Constraint.C72_unknown_rate_violated`, `Constraint.C72_zero_sum_violated`, `Consts.C172_astronomy`, `Consts.C172_conversions_partial`, `Consts.C172_conversions_violated`, `Consts.C172_exact`, `Consts.C172_metallicities`, `Consts.C172_physics`, `Consts.C172_rest_energy`, `Consts.C172_year`, `Consts.C172_zams`, `Cores.C153_bare`, `Cores.C153_collapse`, `Cores.C153_common_envelope`, `Cores.C153_core_data`, `Cores.C153_evolution_partial`, `Cores.C153_known_partial`, `Cores.C153_merger`, `Cores.C153_partial_ejection_violated`, `Cores.C153_product`, `Cores.C153_remnant_core`, `Cores.C153_remnant_core_violated`, `Cores.C153_step`, `Cores.C153_supernova`, `Curves.C139_high_partial`, `Curves.C139_limit_given_partial`, `Curves.C139_limit_given_violated`, `Curves.C139_limits`, `Curves.C139_lines`, `Curves.C139_low_partial`, `Curves.C139_negative_violated`, `Curves.C139_state_names`, `Curves.C139_states_partial`, `Curves.C139_states_reached`, `Datasets.C143_accepted_violated`, `Describe.C145_columns_violated`, `Describe.C145_report`, `Describe.C145_screen`, `Detached.C47_default`, `Detached.C47_dt_exact`, `Detached.C47_dt_first`, `Detached.C47_dt_partial`, `Detached.C47_dt_spacing`, `Detached.C47_large_dt_error`, `Detached.C47_large_dt_raises_violated`, `Detached.C47_number_of_steps`, `Detached.C47_past_the_end_violated`, `Detached.C66_first_state_stale_violated`, `Detached.C66_repeated_time_violated`, `Detached.C66_state_rows_partial`, `DetachedEvent.C67_assertion_holds`, `DetachedEvent.C67_both_ready_violated`, `DetachedEvent.C67_collapse_star`, `DetachedEvent.C67_dead_end_violated`, `DetachedEvent.C67_entry`, `DetachedEvent.C67_mirror`, `DetachedEvent.C67_names`, `DetachedEvent.C67_next_after_no_overflow`, `DetachedEvent.C67_next_after_overflow_partial`, `DetachedEvent.C67_rlo_kepler`, `DetachedEvent.C67_rlo_orbit`, `DetachedEvent.C67_rlo_star`, `DetachedEvent.C67_two_compact_objects`, `Detect.C87_between`, `Detect.C87_chi_eff`, `Detect.C87_chi_p`, `Detect.C87_chi_p_violated`, `Detect.C87_chirp`, `Detect.C87_chirp_max`, `Detect.C87_columns`, `Detect.C87_exact`, `Detect.C87_inverse_distance`, `Detect.C87_labels_violated`, `Detect.C87_looked_up_partial`, `Detect.C87_looked_up_violated`, `Detect.C87_normalize`, `Detect.C87_point`, `Detect.C87_ratio`, `Detect.C87_rounding`, `Detect.C87_rounding_violated`, `Detect.C87_undefined`, `Detect.C87_weights`, `Dialog.C131_ini_choice`, `Dialog.C131_ini_some`, `Dialog.C131_job_answer`, `Dialog.C131_job_partial`, `Dialog.C131_log_names`, `Dialog.C131_rescue_violated`, `Distrib.C25_broken_power_law_continuous`, `Distrib.C25_broken_power_law_imf`, `Distrib.C25_chabrier_imf`, `Distrib.C25_flat_mass_ratio`, `Distrib.C25_log_normal`, `Distrib.C25_log_normal_draws`, `Distrib.C25_log_normal_refused`, `Distrib.C25_log_normal_rvs`, `Distrib.C25_log_uniform_partial`, `Distrib.C25_log_uniform_rvs`, `Distrib.C25_log_uniform_violated`, `Distrib.C25_power_law_imf`, `Distrib.C25_power_law_imf_rvs`, `Distrib.C25_power_law_mass_ratio`, `Distrib.C25_power_law_period`, `Distrib.C25_sana_period`, `Distrib.C25_standard_normal`, `Distrib.C25_thermal_eccentricity`, `Distrib.C25_thermal_rvs`, `Distrib.C25_uniform_eccentricity`, `Distrib.C25_uniform_rvs`, `Distrib.C25_zero_eccentricity_partial`, `Distrib.C25_zero_eccentricity_violated`, `DoubleCO.C73_circular`, `DoubleCO.C73_contact`, `DoubleCO.C73_decides`, `DoubleCO.C73_elapsed`, `DoubleCO.C73_errors`, `DoubleCO.C73_failure_ignored_violated`, `DoubleCO.C73_maxtime`, `DoubleCO.C73_merges_in_time`, `DoubleCO.C73_mirror`, `DoubleCO.C73_orbit`, `DoubleCO.C73_outcome_exists`, `DoubleCO.C73_outcome_unique`, `DoubleCO.C73_rows`, `DoubleCO.C73_rows_outside`, `DoubleCO.C73_time_backwards_violated`, `Download.C44_swallowed_violated`, `Downsample.C16_error_bound`, `Downsample.C16_interval`, `Downsample.C16_kept_rows`, `Downsample.C16_nan_column_violated`, `Downsample.C16_nan_interval_violated`, `Downsample.C16_nan_violated`, `Downsample.C16_no_downsampling`, `Downsample.C16_no_nan`, `Downsample.C16_rejects_negative`, `Downsample.C16_scale_back`, `Downsample.C16_scale_back_nan`, `DynGrid.C133_append`, `DynGrid.C133_append_violated`, `DynGrid.C133_bounded`, `DynGrid.C133_columns`, `DynGrid.C133_columns_violated`, `DynGrid.C133_complete`, `DynGrid.C133_convert`, `DynGrid.C133_copy`, `DynGrid.C133_dynamic_violated`, `DynGrid.C133_extract_format`, `DynGrid.C133_extract_violated`, `DynGrid.C133_failed_file`, `DynGrid.C133_finished`, `DynGrid.C133_first`, `DynGrid.C133_fixed_violated`, `DynGrid.C133_flow`, `DynGrid.C133_lookups`, `DynGrid.C133_lost_violated`, `DynGrid.C133_masses`, `DynGrid.C133_never_ends_violated`, `DynGrid.C133_no_result_violated`, `DynGrid.C133_progress`, `DynGrid.C133_ratio_wins`, `DynGrid.C133_round_trip`, `DynGrid.C133_rounds`, `DynGrid.C133_second_mass_violated`, `DynGrid.C133_unused_violated`, `Eep.C115_adjacent_violated`, `Eep.C115_between`, `Eep.C115_count`, `Eep.C115_extrapolated_example_violated`, `Eep.C115_extrapolated_violated`, `Eep.C115_helium_star_violated`, `Eep.C115_last_row_violated`, `Eep.C115_metric`, `Eep.C115_no_file_violated`, `Eep.C115_none`, `Eep.C115_order_partial`, `Eep.C115_order_violated`, `Eep.C115_phases`, `Eep.C115_positions`, `Eep.C115_post_agb`, `Eep.C115_shifted_violated`, `Eep.C115_trgb`, `EndStar.C152_end`, `EndStar.C152_final_values`, `EndStar.C152_final_values_own`, `EndStar.C152_final_values_range`, `EndStar.C152_fractions`, `EndStar.C152_mass`, `EndStar.C152_other_columns_violated`, `EndStar.C152_outside`, `EndStar.C152_outwards`, `EndStar.C152_profile`, `EndStar.C152_profile_own`, `EndStar.C152_range`, `EndStar.C152_surface`, `EndStar.C152_surface_violated`, `Engines.C123_abundances`, `Engines.C123_approximation`, `Engines.C123_core`, `Engines.C123_couch`, `Engines.C123_couch_verbose_violated`, `Engines.C123_exact`, `Engines.C123_no_record`, `Engines.C123_patton`, `Engines.C123_patton_massive`, `Engines.C123_range`, `Engines.C123_stripped_violated`, `Engines.C123_sukhbold_answers`, `Engines.C123_sukhbold_masses`, `Engines.C123_sukhbold_refused`, `Engines.C123_sukhbold_rows`, `Engines.C123_sukhbold_unused`, `Engines.C123_table`, `Engines.C123_values`, `Evolve.C04_limit_needed`, `Evolve.C04_outcome`, `Evolve.C04_step_bound`, `Evolve.C04_stops_at_end`, `Evolve.C04_terminates`, `Evolve.C06_aligned`, `Evolve.C06_aligned_always`, `Evolve.C06_left_out`, `Evolve.C06_rows`, `Evolve.C07_restore_undoes_run`, `Export.C31_count_violated`, `Export.C31_export_partial`, `Export.C31_mass_counted_again_violated`, `Export.C31_metallicity_units_violated`, `Export.C31_overwrite`, `Export.C31_refused`, `Export.C31_repeated_violated`, `Export.C31_sorted`, `Export.C31_source_changed_violated`, `Export.C31_unknown`, `Export.C31_unordered_violated`, `Figures.C165_axis`, `Figures.C165_empty`, `Figures.C165_linear_violated`, `Figures.C165_mesh`, `Figures.C165_numbers`, `Figures.C165_panels_partial`, `Figures.C165_panels_violated`, `Figures.C165_percent`, `Figures.C165_range_violated`, `Figures.C165_relative`, `Figures.C165_short_axis`, `Figures.C165_short_violated`, `Figures.C165_slices`, `Fit.C75_ages`, `Fit.C75_attempts`, `Fit.C75_cases`, `Fit.C75_columns`, `Fit.C75_end_partial`, `Fit.C75_end_violated`, `Fit.C75_exception_violated`, `Fit.C75_first_acceptable`, `Fit.C75_flag_violated`, `Fit.C75_none_acceptable`, `Fit.C75_raises`, `Fit.C75_root`, `Fit.C75_rows`, `Fit.C75_solution`, `Fit.C75_start`, `Fit.C75_start_violated`, `Fits.C142_grids`, `Fits.C142_life_partial`, `Fits.C142_life_range`, `Fits.C142_life_refused`, `Fits.C142_life_violated`, `Fits.C142_low_metallicity_violated`, `Fits.C142_order_violated`, `Fits.C142_radius_partial`, `Fits.C142_ratio`, `Fits.C142_refused`, `Fits.C142_solar`, `Formation.C60_after_end_violated`, `Formation.C60_before_beginning_violated`, `Formation.C60_burst`, `Formation.C60_capitals`, `Formation.C60_constant`, `Formation.C60_custom_linear`, `Formation.C60_custom_log`, `Formation.C60_limits`, `Formation.C60_names`, `Formation.C60_one`, `Fracs.C155_collapse`, `Fracs.C155_common_envelope`, `Fracs.C155_evolution`, `Fracs.C155_heavy_core_violated`, `Fracs.C155_merger`, `Fracs.C155_product`, `Fracs.C155_step`, `Fracs.C155_stripped`, `Fracs.C155_supernova`, `Fracs.C155_surface`, `Frame.C82_cut_violated`, `Frame.C82_failed`, `Frame.C82_history_partial`, `Frame.C82_line_partial`, `Frame.C82_scalars_partial`, `Frame.C82_short_violated`, `Frame.C82_types_partial`, `Frame.C82_unmarked`, `Frame.C82_velocity_violated`, `FromRun.C95_current_last`, `FromRun.C95_lengths`, `FromRun.C95_orbit`, `FromRun.C95_states`, `FromRun.C95_states_compact`, `FromRun.C95_succeeds`, `GW.C57_circular_limit`, `GW.C57_eccentric_sooner`, `GW.C57_period_monotone`, `GW.C57_positive`, `GW.C57_refused`, `GW.C57_scaling`, `GW.C58_chain`, `GW.C58_full`, `GW.C58_full_from_zero`, `GW.C58_invalid`, `GW.C58_monotone`, `GW.C58_no_accretion`, `GW.C58_range`, `GW.C58_steps`, `Generator.C65_fresh`, `GridJoin.C85_binary_name`, `GridJoin.C85_boundary_partial`, `GridJoin.C85_capital_violated`, `GridJoin.C85_compression`, `GridJoin.C85_consistent`, `GridJoin.C85_down`, `GridJoin.C85_empty_violated`, `GridJoin.C85_fix`, `GridJoin.C85_folders`, `GridJoin.C85_last`, `GridJoin.C85_line`, `GridJoin.C85_lines`, `GridJoin.C85_models_violated`, `GridJoin.C85_rows`, `GridJoin.C85_same_system`, `GridJoin.C85_single_name`, `GridJoin.C85_skip`, `GridJoin.C85_slim_violated`, `GridJoin.C85_text_column_violated`, `GridJoin.C85_value`, `GridMake.C84_aligned`, `GridMake.C84_column`, `GridMake.C84_columns`, `GridMake.C84_columns_violated`, `GridMake.C84_core`, `GridMake.C84_eq_refl_partial`, `GridMake.C84_eq_sound`, `GridMake.C84_fix`, `GridMake.C84_index`, `GridMake.C84_inlist_violated`, `GridMake.C84_load`, `GridMake.C84_plain`, `GridMake.C84_rerun`, `GridMake.C84_slim_violated`, `GridPlot.C137_all`, `GridPlot.C137_array`, `GridPlot.C137_array_length`, `GridPlot.C137_array_violated`, `GridPlot.C137_both`, `GridPlot.C137_colours`, `GridPlot.C137_four_violated`, `GridPlot.C137_initial`, `GridPlot.C137_limits`, `GridPlot.C137_limits_kept`, `GridPlot.C137_limits_violated`, `GridPlot.C137_mass_ratio`, `GridPlot.C137_metallicity`, `GridPlot.C137_model_flag_violated`, `GridPlot.C137_no_colour`, `GridPlot.C137_no_history`, `GridPlot.C137_no_mass_ratio`, `GridPlot.C137_no_onset`, `GridPlot.C137_no_track`, `GridPlot.C137_onset`, `GridPlot.C137_onset_needs`, `GridPlot.C137_onset_value`, `GridPlot.C137_overflows`, `GridPlot.C137_relative_key`, `GridPlot.C137_relative_violated`, `GridPlot.C137_second_flag_violated`, `GridPlot.C137_second_violated`, `GridPlot.C137_shown`, `GridPlot.C137_slice`, `GridPlot.C137_star2_violated`, `GridPlot.C137_track`, `GridPlot.C137_tracks`, `GridPlot.C137_works`, `GridPoint.C104_apart`, `GridPoint.C104_cell`, `GridPoint.C104_close_violated`, `GridPoint.C104_controls`, `GridPoint.C104_directory`, `GridPoint.C104_file`, `GridPoint.C104_fixed`, `GridPoint.C104_fixed_read`, `GridPoint.C104_no_metallicity_violated`, `GridPoint.C104_other_violated`, `GridPoint.C104_parameters`, `GridPoint.C104_power`, `GridPoint.C104_power_read`, `GridPoint.C104_precision`, `GridPoint.C104_star`, `GridPoint.C104_truth_violated`, `GridPoint.C104_unique`, `GridPoint.C104_unknown_violated`, `GridPoint.C104_version_violated`, `GridTools.C113_centres`, `GridTools.C113_columns`, `GridTools.C113_core`, `GridTools.C113_core_twice`, `GridTools.C113_core_value`, `GridTools.C113_edges`, `GridTools.C113_edges_violated`, `GridTools.C113_last_row`, `GridTools.C113_mesh`, `GridTools.C113_more_columns_violated`, `GridTools.C113_nearest`, `GridTools.C113_nearest_empty`, `GridTools.C113_no_history_violated`, `GridTools.C113_no_output`, `GridTools.C113_one_row_violated`, `GridTools.C113_one_value_violated`, `GridTools.C113_points`, `GridTools.C113_result`, `GridTools.C113_star_values`, `HistFile.C173_comments`, `HistFile.C173_read`, `HistFile.C173_refused`, `HistFile.C173_round_trip`, `HistFile.C173_sampled`, `HistFile.C173_third_line`, `HistFile.C173_unchecked_violated`, `IFInterp.C83_candidates`, `IFInterp.C83_class`, `IFInterp.C83_excluded`, `IFInterp.C83_fill`, `IFInterp.C83_fill_none`, `IFInterp.C83_folds`, `IFInterp.C83_history_violated`, `IFInterp.C83_hull_violated`, `IFInterp.C83_initial_MT`, `IFInterp.C83_initial_MT_violated`, `IFInterp.C83_inputs_order`, `IFInterp.C83_inputs_order_violated`, `IFInterp.C83_inputs_partial`, `IFInterp.C83_inputs_violated`, `IFInterp.C83_label`, `IFInterp.C83_label_zero`, `IFInterp.C83_matrix`, `IFInterp.C83_names_violated`, `IFInterp.C83_nan_violated`, `IFInterp.C83_nearest`, `IFInterp.C83_neighbours`, `IFInterp.C83_no_group`, `IFInterp.C83_numbers_partial`, `IFInterp.C83_numbers_violated`, `IFInterp.C83_outputs`, `IFInterp.C83_repetition_violated`, `IFInterp.C83_reproduces_partial`, `IFInterp.C83_single_violated`, `IFInterp.C83_strata`, `IFInterp.C83_track_partial`, `IFStep.C92_binary_values`, `IFStep.C92_case`, `IFStep.C92_compact_rate`, `IFStep.C92_initial`, `IFStep.C92_post_values`, `IFStep.C92_sn_models`, `IFStep.C92_two_compact`, `IgnoreReason.C11_most_important_reason`, `IgnoreReason.C11_only_unknown_rejected`, `IgnoreReason.C11_order_irrelevant`, `IgnoreReason.C11_truth`, `InScale.C129_ball`, `InScale.C129_ball_violated`, `InScale.C129_choice`, `InScale.C129_class_partial`, `InScale.C129_class_violated`, `InScale.C129_mass_units`, `InScale.C129_missing_violated`, `InScale.C129_narrow_violated`, `InScale.C129_order`, `InScale.C129_ratio_partial`, `InScale.C129_rectangular`, `InScale.C129_report_partial`, `InScale.C129_runs`, `InScale.C129_symmetric`, `InScale.C129_units`, `IniValues.C117_arith`, `IniValues.C117_arith_total`, `IniValues.C117_blocked`, `IniValues.C117_four`, `IniValues.C117_list`, `IniValues.C117_list_violated`, `IniValues.C117_mesa_dir`, `IniValues.C117_pop_job`, `IniValues.C117_pop_mpi_array`, `IniValues.C117_pop_value`, `IniValues.C117_section`, `IniValues.C117_sign_violated`, `IniValues.C117_sim_value`, `IniValues.C117_text`, `IniValues.C117_value`, `Inlist.C103_chain`, `Inlist.C103_extra`, `Inlist.C103_final`, `Inlist.C103_formation_entries`, `Inlist.C103_later_wins`, `Inlist.C103_lengths_violated`, `Inlist.C103_models`, `Inlist.C103_read`, `Inlist.C103_read_all`, `Inlist.C103_read_back`, `Inlist.C103_refused`, `Inlist.C103_switch`, `Interp.C45_between`, `Interp.C45_built`, `Interp.C45_columns`, `Interp.C45_duplicate_refused`, `Interp.C45_extrapolate`, `Interp.C45_fills`, `Interp.C45_keys`, `Interp.C45_monotone`, `Interp.C45_nodes`, `Interp.C45_order_free`, `Interp.C45_outside`, `Interp.C45_refused`, `Interp.C45_track`, `Interp.C45_track_array`, `Interp.C45_track_shape_violated`, `InvSampler.C56_distribution_partial`, `InvSampler.C56_flat_bins`, `InvSampler.C56_histogram`, `InvSampler.C56_histogram_check`, `InvSampler.C56_increasing`, `InvSampler.C56_inverse`, `InvSampler.C56_inverse_check`, `InvSampler.C56_inverse_refused`, `InvSampler.C56_inverse_short`, `InvSampler.C56_rejection`, `InvSampler.C56_search`, `Isolated.C79_end`, `Isolated.C79_errors`, `Isolated.C79_event_violated`, `Isolated.C79_initial_orbit`, `Isolated.C79_no_orbit`, `Isolated.C79_no_overflow`, `Isolated.C79_refused_violated`, `Jobs.C97_check_batch`, `Jobs.C97_copy_violated`, `Jobs.C97_count_violated`, `Jobs.C97_expected`, `Jobs.C97_merge`, `Jobs.C97_merge_again`, `Jobs.C97_mixed_violated`, `Jobs.C97_passed`, `Jobs.C97_read`, `Jobs.C97_rescue_tasks`, `Jobs.C97_rescued_partial`, `Jobs.C97_setup`, `Jobs.C97_stale_violated`, `Jobs.C97_tasks`, `Kepler.C146_common_envelope`, `Kepler.C146_compact`, `Kepler.C146_compact_failed`, `Kepler.C146_created`, `Kepler.C146_created_no_mass`, `Kepler.C146_created_violated`, `Kepler.C146_detached`, `Kepler.C146_exact_violated`, `Kepler.C146_interpolated_masses_violated`, `Kepler.C146_interpolated_partial`, `Kepler.C146_interpolated_violated`, `Kepler.C146_law`, `Kepler.C146_period`, `Kepler.C146_separation`, `Kepler.C146_supernova`, `Kick.C33_combined_tilt`, `Kick.C33_disrupted`, `Kick.C33_energy`, `Kick.C33_half_mass`, `Kick.C33_kepler`, `Kick.C33_kick_vector`, `Kick.C33_no_recoil`, `Kick.C33_orbit`, `Kick.C33_survives_iff`, `Kick.C33_systemic_velocity`, `Kick.C33_tilt`, `Kick.C33_true_anomaly`, `Kick.C33_unchanged_eccentricity`, `Kick.C33_unchanged_eccentricity_violated`, `Kick.C33_unchanged_separation`, `Kinds.C149_common_envelope`, `Kinds.C149_create`, `Kinds.C149_create_radius_violated`, `Kinds.C149_dwarf_violated`, `Kinds.C149_evolution_partial`, `Kinds.C149_from_stars_partial`, `Kinds.C149_grid`, `Kinds.C149_initial_MT_violated`, `Kinds.C149_limit`, `Kinds.C149_merger`, `Kinds.C149_radius_partial`, `Kinds.C149_radius_violated`, `Kinds.C149_step`, `Kinds.C149_supernova`, `Kinds.C149_update`, `Laws.C158_default_violated`, `Laws.C158_draw_ignores`, `Laws.C158_equal_masses_violated`, `Laws.C158_fraction`, `Laws.C158_fraction_table`, `Laws.C158_limits_violated`, `Laws.C158_one_limit`, `Laws.C158_one_sided`, `Laws.C158_own_option_violated`, `Laws.C158_period`, `Laws.C158_primary`, `Laws.C158_ratio`, `Laws.C158_schemes`, `Laws.C158_separation_exact`, `Laws.C158_weight_errors`, `Life.C135_alone_partial`, `Life.C135_alone_violated`, `Life.C135_collapses`, `Life.C135_compact`, `Life.C135_dco`, `Life.C135_first`, `Life.C135_mergers`, `Life.C135_next_partial`, `Life.C135_ranks`, `Life.C135_sound`, `Life.C135_two`, `MTCase.C10_case_of_donor`, `MTCase.C10_nan_overflow_violated`, `MTCase.C10_no_transfer_iff`, `MTCase.C10_shift_is_running_maximum`, `MTCase.C51_accretor_donor_violated`, `MTCase.C51_event_stable`, `MTCase.C51_event_unstable`, `MTCase.C51_failed_runs`, `MTCase.C51_state`, `MTCase.C52_initial`, `MTCase.C52_no_RLOF_iff`, `MTCase.C52_one_donor_per_row`, `MTCase.C52_transfer_reported`, `MTLabel.C93_label_total_partial`, `MTLabel.C93_label_total_violated`, `MTLabel.C93_last_phase`, `MTLabel.C93_nonburning_all_violated`, `MTLabel.C93_nonburning_violated`, `MTLabel.C93_outer_overflow`, `MTLabel.C93_reverse`, `Markers.C140_entry`, `Markers.C140_first_case`, `Markers.C140_marker_iff`, `Markers.C140_no_space`, `Markers.C140_one_donor`, `Markers.C140_two_donors`, `MassFault.C54_append_violated`, `MassFault.C54_columns_combine`, `MassFault.C54_columns_violated`, `MassFault.C54_combined`, `MassFault.C54_read_violated`, `MassFault.C54_unreadable`, `Match.C74_common_envelope_partial`, `Match.C74_common_envelope_violated`, `Match.C74_failed`, `Match.C74_helium_accretor_violated`, `Match.C74_lists_errors`, `Match.C74_lists_partial`, `Match.C74_matched`, `Match.C74_not_asked`, `Match.C74_roles_errors`, `Match.C74_succeeds`, `Match.C74_tracks`, `Matchers.C98_default_tolerances`, `Matchers.C98_failed`, `Matchers.C98_first_partial`, `Matchers.C98_grid_violated`, `Matchers.C98_grids`, `Matchers.C98_kept_violated`, `Matchers.C98_leak_violated`, `Matchers.C98_loads`, `Matchers.C98_one`, `Matchers.C98_others`, `Matchers.C98_removed`, `Matchers.C98_second_violated`, `Matchers.C98_settings`, `Matchers.C98_shared`, `Matchers.C98_tight_partial`, `Merged.C35_burning_lost_violated`, `Merged.C35_centre`, `Merged.C35_compact_companion_violated`, `Merged.C35_core_masses`, `Merged.C35_giant_not_burning_violated`, `Merged.C35_helium_surface`, `Merged.C35_helium_surface_violated`, `Merged.C35_mass`, `Merged.C35_mirror`, `Merged.C35_not_marked`, `Merged.C35_order_irrelevant`, `Merged.C35_pairs`, `Merged.C35_step_result`, `Merged.C35_sum_of_abundances`, `Merged.C35_surface_kept`, `Merged.C35_surface_mixed`, `Merged.C35_total`, `Merged.C35_total_hydrogen_stale_violated`, `Merged.C35_unknown_state`, `Mesa.C68_chart_accepts_partial`, `Mesa.C68_co_he_partial`, `Mesa.C68_co_he_rlo_partial`, `Mesa.C68_co_he_rlo_violated`, `Mesa.C68_co_he_violated`, `Mesa.C68_co_hms`, `Mesa.C68_eccentric_chart_violated`, `Mesa.C68_exhausted`, `Mesa.C68_frame_events`, `Mesa.C68_frame_mirror`, `Mesa.C68_handed_on`, `Mesa.C68_hms_rlo_donor_ignored`, `Mesa.C68_hms_rlo_mirror_violated`, `Mesa.C68_hms_rlo_outcome`, `Mesa.C68_hms_rlo_redirect_violated`, `Mesa.C68_zams_eccentricity_violated`, `Mesa.C68_zams_mirror_partial`, `Mesa.C68_zams_mirror_violated`, `Mesa.C68_zams_run_inside`, `Mesa.C68_zams_total`, `MesaSetup.C119_accepts`, `MesaSetup.C119_bounds`, `MesaSetup.C119_inside`, `MesaSetup.C119_interp_file_partial`, `MesaSetup.C119_loaded`, `MesaSetup.C119_metallicity`, `MesaSetup.C119_metallicity_inj`, `MesaSetup.C119_method_violated`, `MesaSetup.C119_no_directory`, `MesaSetup.C119_stop_violated`, `MesaStop.C70_exact_hit_violated`, `MesaStop.C70_interpolation`, `MesaStop.C70_rising_partial`, `MesaStop.C70_stop_partial`, `MesaStop.C70_words_witness`, `MesaTrack.C69_binary_aligned_partial`, `MesaTrack.C69_eddington_current`, `MesaTrack.C69_eddington_history_violated`, `MesaTrack.C69_filled_up_partial`, `MesaTrack.C69_filled_up_violated`, `MesaTrack.C69_first_row_twice`, `MesaTrack.C69_star_aligned_partial`, `MesaTrack.C69_unequal_violated`, `Metal.C154_collapse`, `Metal.C154_common_envelope`, `Metal.C154_evolution`, `Metal.C154_forgotten_violated`, `Metal.C154_merger`, `Metal.C154_product`, `Metal.C154_step`, `Metal.C154_supernova`, `Metal.C154_swapped`, `Moe.C91_all_binaries`, `Moe.C91_all_binaries_violated`, `Moe.C91_close_built`, `Moe.C91_cumulative`, `Moe.C91_fraction`, `Moe.C91_frequency_continuous`, `Moe.C91_frequency_pos`, `Moe.C91_inner_range`, `Moe.C91_metallicity`, `Moe.C91_narrow_violated`, `Moe.C91_orbit`, `Moe.C91_pieces_continuous`, `Moe.C91_secondary`, `Moe.C91_small_secondary`, `Moe.C91_smallest_mass_violated`, `Moe.C91_tab_affine`, `Moe.C91_twin_range`, `NatalKick.C81_anomaly`, `NatalKick.C81_defaults`, `NatalKick.C81_dispersion_violated`, `NatalKick.C81_generator_violated`, `NatalKick.C81_given`, `NatalKick.C81_options`, `NatalKick.C81_reduced`, `NatalKick.C81_renamed`, `NatalKick.C81_reproducible`, `NatalKick.C81_speed_partial`, `NatalKick.C81_speed_violated`, `NatalKick.C81_total`, `NatalKick.C81_type`, `NatalKick.C81_unknown`, `NatalKick.C81_velocity`, `Neigh.C130_average`, `Neigh.C130_box`, `Neigh.C130_class_violated`, `Neigh.C130_documented`, `Neigh.C130_find_partial`, `Neigh.C130_find_refused`, `Neigh.C130_inputs`, `Neigh.C130_neighbours_partial`, `Neigh.C130_plane`, `Neigh.C130_plane_classes`, `Neigh.C130_raw_violated`, `Neigh.C130_refused`, `Neigh.C130_regions`, `Neigh.C130_self_violated`, `Neigh.C130_space`, `NormPop.C49_density_split`, `NormPop.C49_nonneg`, `NormPop.C49_outside`, `NormPop.C49_refused`, `NormPop.C49_reweights`, `NormPop.C49_same`, `NormPop.C55_fixed_limits_partial`, `NormPop.C55_mass_ratio_density`, `NormPop.C55_mean_mass_violated`, `NormPop.C55_separation_truth`, `NormPop.C55_separation_violated`, `OpenPop.C121_consistent_violated`, `OpenPop.C121_failed_open_violated`, `OpenPop.C121_lengths`, `OpenPop.C121_masses`, `OpenPop.C121_metadata`, `OpenPop.C121_metallicity_violated`, `OpenPop.C121_opens`, `OpenPop.C121_overwrites`, `OpenPop.C121_parameters`, `OpenPop.C121_reopen`, `OpenPop.C121_tables_kept`, `Orbit.C37_inverse_partial`, `Orbit.C37_inverse_violated`, `Orbit.C37_kepler`, `Orbit.C37_monotone`, `Orbit.C37_wind`, `Orbit.C38_disjoint`, `Orbit.C38_invalid`, `Orbit.C38_linear`, `Orbit.C38_monotone`, `Orbit.C38_mutates_violated`, `Orbit.C38_nan_violated`, `Orbit.C38_overflow`, `Orbit.C38_range`, `Orbit.C39_compose`, `Orbit.C39_conservative`, `Orbit.C39_differential`, `Orbit.C39_limit`, `Orbit.C39_no_transfer`, `Orbit.C39_positive`, `Orbit.C39_refused`, `Orbit.C39_wind`, `Orbit.C40_back`, `Orbit.C40_compose`, `Orbit.C40_direction`, `Orbit.C40_fixes_axis`, `Orbit.C40_orthogonal`, `Orbit.C40_plane`, `Orbit.C40_refused`, `Orbit.C40_rodrigues`, `Overflow.C163_above_violated`, `Overflow.C163_crossing`, `Overflow.C163_eccentric`, `Overflow.C163_found`, `Overflow.C163_mirror`, `Overflow.C163_missed_violated`, `Overflow.C163_nan_violated`, `Overflow.C163_no_collision`, `Overflow.C163_quiet`, `Overflow.C163_recorded`, `Overflow.C163_start`, `Panels.C138_blank_violated`, `Panels.C138_default`, `Panels.C138_hidden_violated`, `Panels.C138_legend_cells`, `Panels.C138_legend_inside`, `Panels.C138_legend_single`, `Panels.C138_one_all`, `Panels.C138_panels_partial`, `Panels.C138_points`, `Panels.C138_points_all`, `Panels.C138_slices`, `Panels.C138_y_label`, `PipeRun.C124_checks`, `PipeRun.C124_counter`, `PipeRun.C124_failure_rate`, `PipeRun.C124_failure_rate_range`, `PipeRun.C124_pure_compression`, `PipeRun.C124_sampling`, `PipeRun.C124_slice`, `PipeRun.C124_type_counts`, `Pipeline.C105_attributes`, `Pipeline.C105_checked`, `Pipeline.C105_cleaned`, `Pipeline.C105_computed`, `Pipeline.C105_expand`, `Pipeline.C105_files`, `Pipeline.C105_interpolated`, `Pipeline.C105_jobs`, `Pipeline.C105_logs_partial`, `Pipeline.C105_logs_violated`, `Pipeline.C105_once`, `Pipeline.C105_order`, `Pipeline.C105_quantities`, `Pipeline.C105_requested`, `Pipeline.C105_section_violated`, `Pipeline.C106_checks_dropped_violated`, `Pipeline.C106_columns`, `Pipeline.C106_distinct_partial`, `PlotSlices.C125_centres`, `PlotSlices.C125_covered`, `PlotSlices.C125_disjoint_violated`, `PlotSlices.C125_equal_masses_violated`, `PlotSlices.C125_fit`, `PlotSlices.C125_helium_grid_violated`, `PlotSlices.C125_mass_centre_violated`, `PlotSlices.C125_mass_ratio`, `PlotSlices.C125_number`, `PlotSlices.C125_one_mass`, `PlotSlices.C125_overlap_partial`, `PlotSlices.C125_population`, `PlotSlices.C125_property_partial`, `PlotSlices.C125_property_refused`, `PlotSlices.C125_property_violated`, `PlotSlices.C125_ratio`, `PlotSlices.C125_ratio_once`, `PlotSlices.C125_single`, `PlotSlices.C125_values`, `PlotSym.C174_curves`, `PlotSym.C174_debug`, `PlotSym.C174_star`, `PlotSym.C174_surface`, `PlotSym.C174_widths`, `PlotSym.C174_widths_rest`, `Pop.C22_book_partial`, `PopAgain.C167_lost_violated`, `PopAgain.C167_memory`, `PopAgain.C167_mixed`, `PopAgain.C167_second_check_violated`, `PopAgain.C167_shadowed_violated`, `PopAgain.C167_third_check`, `PopAgain.C167_third_check_violated`, `PopKw.C171_again_partial`, `PopKw.C171_chosen_type`, `PopKw.C171_defaults_violated`, `PopKw.C171_direct`, `PopKw.C171_documented`, `PopKw.C171_drawn_partial`, `PopKw.C171_evolve`, `PopKw.C171_file_violated`, `PopKw.C171_index_violated`, `PopKw.C171_joint`, `PopKw.C171_lognormal_violated`, `PopKw.C171_metallicity`, `PopKw.C171_misspelt_violated`, `PopKw.C171_names`, `PopKw.C171_options`, `PopKw.C171_refused`, `PopKw.C171_refused_kind`, `PopKw.C171_row`, `PopKw.C171_scheme`, `PopKw.C171_second_population_violated`, `PopMass.C54_distribution`, `PopMass.C54_no_companion`, `PopMass.C54_positive`, `PopMass.C54_same_index_violated`, `PopMass.C54_simulated_mass`, `PopPlot.C141_bar`, `PopPlot.C141_close_violated`, `PopPlot.C141_colours`, `PopPlot.C141_delay`, `PopPlot.C141_delay_metallicity`, `PopPlot.C141_density_violated`, `PopPlot.C141_errors`, `PopPlot.C141_histogram`, `PopPlot.C141_many_violated`, `PopPlot.C141_metallicities`, `PopPlot.C141_no_bins`, `PopPlot.C141_normalised`, `PopPlot.C141_properties`, `PopPlot.C141_refused`, `PopPlot.C141_shell_nonneg`, `PopPlot.C141_shells`, `PopPlot.C141_sum`, `PostGrid.C94_balanced`, `PostGrid.C94_collapse_names`, `PostGrid.C94_collapse_partial`, `PostGrid.C94_collapse_violated`, `PostGrid.C94_columns`, `PostGrid.C94_compact`, `PostGrid.C94_directories_partial`, `PostGrid.C94_directories_violated`, `PostGrid.C94_envelope_names`, `PostGrid.C94_index_errors`, `PostGrid.C94_no_collapse`, `PostGrid.C94_no_run_lost`, `PostGrid.C94_one_star`, `PostGrid.C94_pick`, `PostGrid.C94_pick_violated`, `PostGrid.C94_rest`, `PostGrid.C94_single`, `PostGrid.C94_star`, `PostGrid.C94_star_names`, `PostGrid.C94_storable`, `PostGrid.C94_store`, `PostGrid.C94_stored`, `PostGrid.C94_stored_violated`, `PostGrid.C94_unknown_violated`, `ProfBounds.C100_available`, `ProfBounds.C100_learnt`, `ProfBounds.C100_one_step_violated`, `ProfBounds.C100_rare_violated`, `ProfBounds.C100_step`, `ProfBounds.C100_targets`, `ProfBounds.C100_training`, `ProfBounds.C100_which`, `ProfNet.C101_analysis_violated`, `ProfNet.C101_constant_violated`, `ProfNet.C101_exact`, `ProfNet.C101_trained`, `ProfNet.C101_trains`, `ProfNet.C101_untrained_unused`, `ProfPred.C100_center_partial`, `ProfPred.C100_center_violated`, `ProfPred.C100_equal_violated`, `ProfPred.C100_helium_partial`, `ProfPred.C100_hydrogen`, `ProfPred.C100_key`, `ProfPred.C100_negative_violated`, `ProfPred.C100_none`, `ProfPred.C100_sum`, `ProfPred.C100_surface`, `ProfPred.C100_unknown_violated`, `ProfTrain.C101_aligned`, `ProfTrain.C101_bounds`, `ProfTrain.C101_decreasing`, `ProfTrain.C101_density`, `ProfTrain.C101_lowest`, `ProfTrain.C101_names_partial`, `ProfTrain.C101_norm_rotation`, `ProfTrain.C101_one_jump_violated`, `ProfTrain.C101_rows`, `ProfTrain.C101_second_violated`, `ProfTrain.C101_split`, `ProfTrain.C101_star2_violated`, `ProfTrain.C101_surface_partial`, `ProfTrain.C101_surface_violated`, `ProfTrain.C101_unseen_violated`, `Profile.C41_cell_masses`, `Profile.C41_monotone_partial`, `Profile.C41_range`, `Profile.C41_smallest`, `Profile.C41_within_budget`, `Profile.C41_zero_budget_violated`, `Profile.C42_all_envelope`, `Profile.C42_definition`, `Profile.C42_first`, `Profile.C42_he_depletion`, `Profile.C42_mass_partial`, `Profile.C42_mass_violated`, `Profile.C42_refused`, `Profile.C59_binding_fraction`, `Profile.C59_binding_monotone`, `Profile.C59_co_core_violated`, `Profile.C59_extremes`, `Profile.C59_he_core_between`, `Profile.C59_internal_energy`, `Profile.C59_internal_energy_violated`, `Profile.C59_internal_refused`, `Profile.C59_interpolation`, `Profile.C59_not_negative`, `Profile.C59_states`, `Propose.C109_accepts`, `Propose.C109_batch_violated`, `Propose.C109_direction`, `Propose.C109_empty_sample`, `Propose.C109_far`, `Propose.C109_nan_violated`, `Propose.C109_no_training_violated`, `Propose.C109_norm`, `Propose.C109_norm_steps_violated`, `Propose.C109_pre_violated`, `Propose.C109_proposed`, `Propose.C109_search_violated`, `Propose.C109_second`, `Propose.C109_simple`, `Propose.C109_skipped`, `Propose.C109_target`, `Propose.C109_target_falls`, `Propose.C109_together_violated`, `Propose.C109_twice_violated`, `Propose.C109_unconverged`, `Propose.C109_varmult_violated`, `Propose.C109_zero_scale_violated`, `Query.C112_accuracy`, `Query.C112_accuracy_violated`, `Query.C112_confusion_partial`, `Query.C112_confusion_violated`, `Query.C112_distance`, `Query.C112_distance_violated`, `Query.C112_end_violated`, `Query.C112_first_violated`, `Query.C112_fraction_violated`, `Query.C112_grid_partial`, `Query.C112_newest_violated`, `Query.C112_number_partial`, `Query.C112_number_violated`, `Query.C112_places_partial`, `Query.C112_range_violated`, `Query.C112_scale_violated`, `Query.C112_second_violated`, `RateStore.C102_layout`, `RateStore.C102_width_partial`, `RateStore.C102_width_violated`, `Rates.C29_channels_add`, `Rates.C29_efficiency_metallicity_violated`, `Rates.C29_efficiency_partial`, `Rates.C29_efficiency_violated`, `Rates.C29_missing_rows_refused`, `Rates.C29_one_bin`, `Rates.C29_total`, `Rates.C30_all_rows_partial`, `Rates.C30_entries`, `Rates.C30_nonneg`, `Rates.C30_own_bin`, `Rates.C30_refused`, `Rates.C30_rows`, `Rates.C30_rows_missing_violated`, `Rates.C62_exact`, `Rates.C62_own_weight_partial`, `Rates.C62_rank`, `Rates.C62_unknown_metallicity`, `Rates.C62_unordered_violated`, `Rates.C63_complete_partial`, `Rates.C63_exact`, `Rates.C63_missing_violated`, `Rates.C63_rows`, `Recoil.C161_alone_violated`, `Recoil.C161_combined`, `Recoil.C161_first_tilt`, `Recoil.C161_history`, `Recoil.C161_kicks`, `Recoil.C161_known`, `Recoil.C161_other`, `Recoil.C161_other_runs`, `Recoil.C161_quiet`, `Recoil.C161_second_tilt`, `Recoil.C161_sum_violated`, `Recoil.C161_velocity`, `Recomb.C164_again`, `Recomb.C164_changes_violated`, `Recomb.C164_empty`, `Recomb.C164_errors`, `Recomb.C164_ions`, `Recomb.C164_missing`, `Recomb.C164_molecule_energy`, `Recomb.C164_molecules`, `Recomb.C164_monotone`, `Recomb.C164_negative_violated`, `Recomb.C164_profile`, `Recomb.C164_range`, `Recomb.C164_rounding`, `Regress.C122_aligned_violated`, `Regress.C122_alpha`, `Regress.C122_alpha_one_violated`, `Regress.C122_alpha_small_violated`, `Regress.C122_columns`, `Regress.C122_differences`, `Regress.C122_few_points_violated`, `Regress.C122_kept`, `Regress.C122_max_apc`, `Regress.C122_no_prediction`, `Regress.C122_predictions_kept`, `Regress.C122_ragged_violated`, `Regress.C122_split`, `Regress.C122_summary`, `Regress.C122_undefined_violated`, `Relabel.C148_chart_partial`, `Relabel.C148_chart_violated`, `Relabel.C148_evolution`, `Relabel.C148_record`, `Relabel.C148_step`, `Relabel.C148_twice`, `Rerun.C107_compressed_violated`, `Rerun.C107_helium`, `Rerun.C107_lbv`, `Rerun.C107_lbv_violated`, `Rerun.C107_messages`, `Rerun.C107_reverse`, `Rerun.C107_substring_violated`, `Rerun.C107_tpagb`, `Rerun.C107_versions`, `Rerun.C107_zams`, `Rhs.C78_alfven`, `Rhs.C78_braking_brakes`, `Rhs.C78_braking_mass_partial`, `Rhs.C78_braking_still`, `Rhs.C78_carb_violated`, `Rhs.C78_gw_peters`, `Rhs.C78_gw_sign_partial`, `Rhs.C78_gw_sign_violated`, `Rhs.C78_gw_symmetric`, `Rhs.C78_m15_violated`, `Rhs.C78_same_law_partial`, `Rhs.C78_sum`, `Rhs.C78_unknown_violated`, `Rhs.C78_wind_orbit`, `Rhs.C78_wind_rate`, `Rhs.C78_wind_spin_partial`, `Rhs.C78_wind_spin_violated`, `Rhs.C78_wind_still`, `Rhs.C78_wind_widens`, `RunFiles.C114_add`, `RunFiles.C114_add_lazy_partial`, `RunFiles.C114_conversion`, `RunFiles.C114_cut`, `RunFiles.C114_files`, `RunFiles.C114_ident`, `RunFiles.C114_initial_violated`, `RunFiles.C114_order_partial`, `RunFiles.C114_update`, `RunLabels.C134_array`, `RunLabels.C134_class_ends`, `RunLabels.C134_class_initial`, `RunLabels.C134_class_none`, `RunLabels.C134_class_stable`, `RunLabels.C134_compact`, `RunLabels.C134_flags`, `RunLabels.C134_given`, `RunLabels.C134_log`, `RunLabels.C134_log_none`, `RunLabels.C134_missing`, `RunLabels.C134_no_history`, `RunLabels.C134_no_rows`, `RunLabels.C134_short`, `RunLabels.C134_single`, `RunLabels.C134_single_error`, `RunLabels.C134_star`, `RunLabels.C134_transfer`, `RunLabels.C134_transfer_short`, `RunLabels.C134_undetermined_violated`, `SN.C32_after_pair_instability_partial`, `SN.C32_cap`, `SN.C32_defined`, `SN.C32_delayed_violated`, `SN.C32_disruption`, `SN.C32_eleven_violated`, `SN.C32_engines`, `SN.C32_fallback`, `SN.C32_gravitational_mass`, `SN.C32_gravitational_monotone`, `SN.C32_he_core_option_violated`, `SN.C32_no_core`, `SN.C32_no_limit`, `SN.C32_pair_instability`, `SN.C32_pulse_core`, `SN.C32_pulse_floor_partial`, `SN.C32_pulse_floor_violated`, `SN.C32_pulse_metals`, `SN.C32_pulse_outside`, `SN.C32_pulse_positive`, `SN.C32_pulse_shift`, `SN.C32_remnant_partial`, `SN.C32_sukhbold_violated`, `SN.C32_table`, `SN.C48_defined`, `SN.C48_explosion`, `SN.C48_match`, `SN.C48_monotone`, `SN.C48_type`, `SN.C48_undefined_core`, `SN.C48_undefined_core_violated`, `SN.C48_unknown_option`, `SN.C48_white_dwarf`, `SNModels.C99_accepted`, `SNModels.C99_accepted_violated`, `SNModels.C99_computed`, `SNModels.C99_default`, `SNModels.C99_ignored`, `SNModels.C99_lookup`, `SNModels.C99_mechanisms`, `SNModels.C99_missing_violated`, `SNModels.C99_own`, `SNModels.C99_refused_partial`, `SNModels.C99_refused_violated`, `SNModels.C99_setting_names`, `SNModels.C99_settings`, `SNModels.C99_supported`, `SNModels.C99_unique`, `SNModels.C99_unknown`, `SNModels.C99_unknown_setting_violated`, `SNStep.C34_alone`, `SNStep.C34_collapses_once`, `SNStep.C34_companion`, `SNStep.C34_errors`, `SNStep.C34_first_supernova_survived`, `SNStep.C34_interpolated`, `SNStep.C34_interpolated_pair_instability`, `SNStep.C34_kick_recorded`, `SNStep.C34_kick_source`, `SNStep.C34_mirror_partial`, `SNStep.C34_no_kick_separation_partial`, `SNStep.C34_no_kick_separation_violated`, `SNStep.C34_no_kick_state_violated`, `SNStep.C34_no_remnant`, `SNStep.C34_radius_partial`, `SNStep.C34_remnant_kind`, `SNStep.C34_same_tilt`, `SNStep.C34_spin`, `SNStep.C34_state_kept_partial`, `SNStep.C34_state_overwritten_violated`, `SNStep.C34_white_dwarf_radius_violated`, `SampleFile.C23_column`, `Sampler.C108_balance`, `Sampler.C108_blocks`, `Sampler.C108_counts`, `Sampler.C108_inside_partial`, `Sampler.C108_ladder`, `Sampler.C108_ladder_falls`, `Sampler.C108_ladder_violated`, `Sampler.C108_pt_inside_partial`, `Sampler.C108_steps`, `Sampler.C108_stuck_violated`, `Sampler.C108_swap_balance`, `Sampler.C108_swap_formula`, `Sampler.C108_swap_stuck_violated`, `Sampler.C108_swaps`, `Sampler.C108_uphill`, `Sampler.C108_weights_violated`, `Sampler.C108_zero_draw_violated`, `Sampling.C24_alias_violated`, `Sampling.C24_flat_accepts`, `Sampling.C24_flat_partial`, `Sampling.C24_fraction`, `Sampling.C24_ignored_limit_violated`, `Scale.C71_constant_violated`, `Scale.C71_log_domain_violated`, `Scale.C71_max_abs`, `Scale.C71_range`, `Scale.C71_refused`, `Scale.C71_round_trip`, `Scale.C71_standardize`, `Scale.C71_unfitted`, `Scale.C71_unknown_method_violated`, `Scrub.C13_aligned`, `Scrub.C13_idempotent`, `Scrub.C13_monotone`, `Scrub.C13_only_backsteps_removed`, `Scrub.C14_ages_increasing`, `Scrub.C14_cut_at_first_transfer`, `Scrub.C14_exact`, `Scrub.C14_missing_columns`, `Scrub.C15_cut_both_partial`, `Scrub.C15_cut_partial`, `Scrub.C15_cut_secondary_partial`, `Scrub.C15_depleted_at_end_violated`, `Scrub.C15_missing_star_age_violated`, `Seeds.C21_job_partial`, `Seeds.C21_mpi`, `Sequence.C166_asked`, `Sequence.C166_files`, `Sequence.C166_lost_violated`, `Sequence.C166_names`, `Sequence.C166_replaced_violated`, `Sequence.C166_stopped_violated`, `Sequence.C166_unchanged`, `Sfh.C26_exact`, `Sfh.C26_limit_above_violated`, `Sfh.C26_limits_below_violated`, `Sfh.C26_lognormal_mean`, `Sfh.C26_lognormal_monotone`, `Sfh.C26_models`, `Sfh.C26_nonneg`, `Sfh.C26_normalised`, `Sfh.C26_outside`, `Sfh.C26_rate`, `Sfh.C26_rate_positive`, `Sfh.C26_refused`, `Sfh.C26_sigma`, `Sfh.C26_table_monotone`, `Sfh.C26_table_violated`, `Sfh.C26_total`, `Sfh.C60_histogram_violated`, `Sfh.C60_refused`, `Sfh.C60_times_partial`, `SfhTables.C120_average`, `SfhTables.C120_average_scale`, `SfhTables.C120_chruslinska_mean`, `SfhTables.C120_chruslinska_mean_violated`, `SfhTables.C120_chruslinska_rate`, `SfhTables.C120_chruslinska_rows_partial`, `SfhTables.C120_curve`, `SfhTables.C120_first_missing_violated`, `SfhTables.C120_illustris_low_violated`, `SfhTables.C120_illustris_mean`, `SfhTables.C120_illustris_mean_violated`, `SfhTables.C120_illustris_rate`, `SfhTables.C120_illustris_row`, `SfhTables.C120_lengths`, `SfhTables.C120_metallicities`, `SfhTables.C120_order_violated`, `SfhTables.C120_refused`, `SfhTables.C120_row_distribution`, `SfhTables.C120_scaling`, `SfhTables.C120_zavala`, `Shells.C162_additive`, `Shells.C162_comoving_violated`, `Shells.C162_expansion`, `Shells.C162_limit`, `Shells.C162_positive`, `Shells.C162_prompt`, `Shells.C162_radiation_violated`, `Shells.C162_refused`, `Shells.C162_steady`, `Shells.C162_volume_bounds`, `SimProps.C05_defaults`, `SimProps.C05_other_keywords_honoured`, `SimProps.C05_step_limit_violated`, `SimProps.C28_exact`, `SimProps.C28_gap_violated`, `SimProps.C28_hooks_partial`, `SimProps.C28_missing_import`, `SimProps.C46_leak_violated`, `Single.C90_age`, `Single.C90_aligned`, `Single.C90_between`, `Single.C90_duplicate_violated`, `Single.C90_final`, `Single.C90_final_keys`, `Single.C90_final_models`, `Single.C90_final_own`, `Single.C90_initial_mass`, `Single.C90_lifetime_violated`, `Single.C90_nearest_exists`, `Single.C90_nearest_own`, `Single.C90_one_side_violated`, `Single.C90_outside`, `Single.C90_own`, `Single.C90_profile_aligned`, `Single.C90_profile_mass`, `Single.C90_scaling`, `Single.C90_state`, `Single.C90_track_value`, `Single.C90_zams`, `Spin.C76_both`, `Spin.C76_consistent`, `Spin.C76_errors`, `Spin.C76_momentum`, `Spin.C76_momentum_violated`, `Spin.C76_retrograde_violated`, `Spin.C76_source`, `Spin.C76_still`, `Spin.C76_unmatched_partial`, `Spin.C76_unmatched_violated`, `Spins.C150_accretion`, `Spins.C150_collapse`, `Spins.C150_evolution`, `Spins.C150_known`, `Spins.C150_merger`, `Spins.C150_spin_lost_violated`, `Spins.C150_step`, `Spins.C150_supernova`, `StarState.C09_compact_by_mass`, `StarState.C09_compact_with_composition`, `StarState.C09_conditions`, `StarState.C09_exactly_one`, `StarState.C09_known_to_flow_chart_partial`, `StarState.C09_known_to_flow_chart_violated`, `StarState.C09_white_dwarf_stays`, `StepHooks.C118_aligned`, `StepHooks.C118_failed`, `StepHooks.C118_failed_violated`, `StepHooks.C118_finished`, `StepHooks.C118_lengths`, `StepHooks.C118_resume_violated`, `StepOptions.C128_default_file`, `StepOptions.C128_evolution`, `StepOptions.C128_generator_violated`, `StepOptions.C128_last_violated`, `StepOptions.C128_load_refused`, `StepOptions.C128_loaded`, `StepOptions.C128_loaded_generator`, `StepOptions.C128_merged_one`, `StepOptions.C128_merged_positions`, `StepOptions.C128_messages_violated`, `StepOptions.C128_needs`, `StepOptions.C128_null_violated`, `StepOptions.C128_positions`, `StepOptions.C128_published`, `StepOptions.C128_refused`, `StepOptions.C128_same_partial`, `StepOptions.C128_supernova`, `StepOptions.C128_values`, `Streams.C144_initial_violated`, `Streams.C144_isolated`, `Streams.C144_loaded_before`, `Streams.C144_own`, `Streams.C144_reload`, `Streams.C144_reproducible`, `Streams.C144_same`, `Table.C27_full_slice`, `Table.C27_history_mask_partial`, `Table.C27_history_mask_rule`, `Table.C27_history_mask_violated`, `Table.C27_labels`, `Table.C27_lengths`, `Table.C27_oneline_mask`, `Table.C27_oneline_mask_repeated_violated`, `TableData.C110_cancel_violated`, `TableData.C110_change_partial`, `TableData.C110_columns_violated`, `TableData.C110_ids_partial`, `TableData.C110_largest`, `TableData.C110_mapping_partial`, `TableData.C110_names_partial`, `TableData.C110_negative_violated`, `TableData.C110_regressor_violated`, `TableData.C110_rows`, `TermFlags.C17_class`, `TermFlags.C17_other_star_class`, `TermFlags.C17_other_star_partial`, `TermFlags.C17_other_star_violated`, `TermFlags.C17_reverse_iff_both_donors`, `TermFlags.C17_tpagb_violated`, `TermFlags.C17_unknown`, `TermFlags.C18_boundary_partial`, `TermFlags.C18_drift_violated`, `TermFlags.C18_duplicate_violated`, `TermFlags.C18_nearest`, `TermFlags.C53_last_code`, `TermFlags.C53_no_final_line`, `TermFlags.C53_no_log`, `Tides.C77_angular_momentum`, `Tides.C77_circular`, `Tides.C77_eccentricity`, `Tides.C77_energy`, `Tides.C77_equilibrium`, `Tides.C77_spin`, `Tides.C77_strength`, `Tides.C77_symmetric`, `Tight.C14_one_percent`, `Tight.C26_limit_error`, `Tight.C26_madau_mean`, `Tight.C34_missing_anomaly`, `Tight.C76_critical`, `TrackEnd.C163_ages`, `TrackEnd.C163_end`, `TrackEnd.C163_end_without_overflow`, `Transfer.C15_state`, `Transfer.C15_state_violated`, `Transfer.C170_begins`, `Transfer.C170_cut_row`, `Transfer.C170_detached`, `Transfer.C170_flag`, `Transfer.C170_flag_row`, `Transfer.C170_ignored_partial`, `Transfer.C170_same_flag`, `Transfer.C170_table_partial`, `Transfer.C170_table_violated`, `Transfer.C170_threshold_violated`, `Transfer.C52_exact`, `Transient.C86_align`, `Transient.C86_channel`, `Transient.C86_channel_violated`, `Transient.C86_kept_violated`, `Transient.C86_no_pair`, `Transient.C86_own_line`, `Transient.C86_own_supernova_partial`, `Transient.C86_pair`, `Transient.C86_refused`, `Transient.C86_shifted_violated`, `VHCount.C126_any_pieces`, `VHCount.C126_count_dict`, `VHCount.C126_distinct`, `VHCount.C126_each_binary`, `VHCount.C126_frequencies`, `VHCount.C126_groups`, `VHCount.C126_indices`, `VHCount.C126_lines`, `VHCount.C126_most`, `VHCount.C126_table`, `Validate.C168_generated_partial`, `Validate.C168_never_listed`, `Validate.C168_skip_set`, `Validate.C168_summary`, `Validate.C168_verdict`, `Version.C169_archive`, `Version.C169_bare_violated`, `Version.C169_count_violated`, `Version.C169_date_violated`, `Version.C169_injective_partial`, `Version.C169_long`, `Version.C169_one_plus`, `Version.C169_order_violated`, `Version.C169_pieces`, `Version.C169_release`, `Version.C169_untagged`, `VhDiagram.C159_diagram`, `VhDiagram.C159_distance`, `VhDiagram.C159_distance_small`, `VhDiagram.C159_distance_violated`, `VhDiagram.C159_ends`, `VhDiagram.C159_event_names`, `VhDiagram.C159_event_pictures`, `VhDiagram.C159_frequency_violated`, `VhDiagram.C159_lines`, `VhDiagram.C159_lost_violated`, `VhDiagram.C159_picture_violated`, `VhDiagram.C159_reduced_partial`, `VhDiagram.C159_reduced_violated`, `VhDiagram.C159_rows_shown`, `VhDiagram.C159_simplified`, `VhDiagram.C159_star_pictures`, `VhTree.C160_divided`, `VhTree.C160_frequency`, `VhTree.C160_histories`, `VhTree.C160_level`, `VhTree.C160_paint_violated`, `VhTree.C160_tree`, `Warn.C12_context_transparent`, `Warn.C12_discarding_context`, `Warn.C12_own_registry`, `Warn.C12_shown_and_counted`, `WarnCat.C157_not_counted`, `WarnCat.C157_others`, `WarnCat.C157_user`.
